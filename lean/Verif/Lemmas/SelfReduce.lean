import Verif.Lemmas.PointerBuf
import Verif.Lemmas.DivRem
/-
Dividing an array by itself, in place.
-/
set_option linter.unusedSectionVars false
namespace BigIntegerCpp
open Mem
variable [Cfg]

/-- Subtracting an array from itself leaves zeros and no carry. -/
theorem subtractSelf_loop {p : Ptr} {k : Nat} (xs : List Nat) (i : Nat) (m : Mem) (hw : WordsOk xs)
    (hk : k = i + xs.length) (hx : m.At (p.plus i) xs) :
    (do
      let (_, carry, m) ← forLoop (σ := Nat × Mem) k (fun i (carry, m) => do
        let b ← m.load p i
        let carry := u64 (carry + u64 (b * 1))
        let digit := u32 carry
        let carry := carry / 4294967296
        let a ← m.load p i
        let carry := if a < digit then u64 (carry + 1) else carry
        let a ← m.load p i
        let m ← m.store p i (u32sub a digit)
        .ok (carry, m)) i (0, m)
      .ok (u32 carry, m)) = .ok (0, m.write (p.plus i) (List.replicate xs.length 0)) := by
  induction xs generalizing i m with
  | nil =>
    rw [forLoop_ge _ _ (by simp at hk; omega)]
    rfl
  | cons x xs ih =>
    have hb := hx.length_le (by simp)
    have hx0 : x < 4294967296 := hw x (by simp)
    have e1 : u64 (0 + u64 (x * 1)) = x := by unfold u64; omega
    have e2 : u32 x = x := by unfold u32; omega
    have e3 : x / 4294967296 = 0 := by omega
    have e4 : u32sub x x = 0 := by unfold u32sub u32i; simp
    rw [forLoop_lt _ _ (by simp at hk; omega)]
    simp only [At.head hx, Res.ok_bind, store_next hb, e1, e2, e3, e4, lt_irrefl, if_false]
    rw [ih]
    · rw [List.length_cons, List.replicate_succ, write_next]
    · exact fun y hy => hw y (by simp [hy])
    · simp at hk; omega
    · exact at_poke (Disj.plus_self p (Nat.le_refl _)) (At.tail hx)

theorem subtractSelf_eq {p : Ptr} {xs : List Nat} {m : Mem} (hw : WordsOk xs) (hx : m.At p xs) :
    subtractDivisorMem p xs.length p xs.length 1 m = .ok (0, m.write p (List.replicate xs.length 0)) := by
  have h := subtractSelf_loop (p := p) xs 0 m hw (Nat.zero_add _).symm hx
  unfold subtractDivisorMem
  rw [cassert_pos (Nat.le_refl _), Res.ok_bind, cassert_pos (by decide), Res.ok_bind]
  exact h

theorem cond_load_word {p : Ptr} {xs : List Nat} {m : Mem} (hw : WordsOk xs) (hx : m.At p xs) {c : Prop} [Decidable c] {i : Nat}
    (h : c → i < xs.length) : ∃ v < 4294967296, (if c then m.load p i else .ok 0) = .ok v := by
  by_cases hc : c
  · exact ⟨xs[i]'(h hc), hw _ (List.getElem_mem _), by rw [if_pos hc, hx.load (h hc)]⟩
  · exact ⟨0, by decide, by rw [if_neg hc]⟩

theorem fixGuess_same {a b : Nat} (ha : a < 4294967296) (hb : b < 4294967296) (h0 : 0 < a) : fixGuess a b a b 1 = 1 := by
  rw [fixGuess_spec ha hb hb h0 (by decide), Nat.div_self (by omega)]; rfl

/-- `divide` of an array by itself, with nowhere to put the quotient, clears the array. -/
theorem divideSelf_eq {p q : Ptr} {xs : List Nat} {m : Mem} (hw : WordsOk xs) (hx : m.At p xs) (hne : xs ≠ [])
    (htop : xs.getLast? ≠ some 0) :
    divideMem p xs.length p xs.length q 0 m = .ok (m.write p (List.replicate xs.length 0)) := by
  have hL : 0 < xs.length := List.length_pos_iff.2 hne
  obtain ⟨v2, h2, e2⟩ := cond_load_word hw hx (c := xs.length > 1) (i := xs.length - 2) (by omega)
  obtain ⟨v3, h3, e3⟩ := cond_load_word hw hx (c := xs.length > 2) (i := xs.length - 3) (by omega)
  have e1 := hx.load (i := xs.length - 1) (by omega)
  have h1 : xs[xs.length - 1] < 4294967296 := hw _ (List.getElem_mem _)
  have h0 : xs[xs.length - 1] ≠ 0 := by
    intro h
    apply htop
    rw [List.getLast?_eq_getElem?, List.getElem?_eq_getElem (by omega), h]
  generalize xs[xs.length - 1] = v1 at *
  obtain ⟨s1, s2, s3⟩ := leadingZeros_spec h0 h1
  unfold divideMem
  rw [cassert_pos (show xs.length ≥ 1 from hL), Res.ok_bind, Res.ok_bind, cassert_pos (Nat.le_refl _), Res.ok_bind, cassert_pos (.inr rfl), Res.ok_bind,
    e1, Res.ok_bind, e2, Res.ok_bind]
  have hcount : xs.length + 1 - xs.length = 1 := by omega
  rw [hcount]
  have hstep : ∀ {shift dh dl : Nat}, 0 < dh → dh < 4294967296 → dl < 4294967296 →
      (if shift > 0 then (do
        let valNx ← (if xs.length > 2 then m.load p (xs.length - 3) else .ok 0)
        .ok (u64 (v1 <<< shift) ||| (v2 >>> (32 - shift)), u32 (v2 <<< shift) ||| (valNx >>> (32 - shift))) : Res (Nat × Nat))
        else .ok (v1, v2)) = .ok (dh, dl) →
      divideMemStep p xs.length p xs.length q 0 shift dh dl 0 m = .ok (m.write p (List.replicate xs.length 0)) := by
    intro shift dh dl hdh hdh' hdl he
    unfold divideMemStep
    dsimp only
    rw [Nat.zero_add, if_neg (by omega), Res.ok_bind, e1, Res.ok_bind, e2, Res.ok_bind]
    have e0 : u64 (0 <<< 32) ||| v1 = v1 := by simp [u64]
    rw [e0, he, Res.ok_bind]
    dsimp only
    rw [if_neg (by omega), Nat.div_self hdh, if_neg (show ¬ 1 > 4294967295 by decide), fixGuess_same hdh' hdl hdh, if_pos (show 1 > 0 by decide)]
    rw [Ptr.plus_zero, Nat.sub_zero, subtractSelf_eq hw hx, Res.ok_bind]
    dsimp only
    rw [if_neg (by simp), Res.ok_bind]
    dsimp only
    rw [if_neg (by simp), Res.ok_bind, if_neg (by omega)]
  generalize leadingZeros v1 = s at *
  dsimp only
  by_cases hs : s > 0
  · rw [if_pos hs, if_neg (by omega), e3]
    simp only [Res.ok_bind]
    have b1 : v2 >>> (32 - s) < 2 ^ 32 := lt_of_le_of_lt (Nat.shiftRight_le _ _) (by simpa using h2)
    have b2 : v3 >>> (32 - s) < 2 ^ 32 := lt_of_le_of_lt (Nat.shiftRight_le _ _) (by simpa using h3)
    have c1 : v1 <<< s < 2 ^ 32 := by rw [Nat.shiftLeft_eq]; simpa using s3
    have c0 : u32 (v1 <<< s) = v1 <<< s := Nat.mod_eq_of_lt (by simpa using c1)
    have c2 : u64 (v1 <<< s) = v1 <<< s := Nat.mod_eq_of_lt (by norm_num at c1; omega)
    have c3 : u32 (v2 <<< s) < 2 ^ 32 := Nat.mod_lt _ (by decide)
    rw [c0]
    have := hstep (shift := s) (dh := v1 <<< s ||| v2 >>> (32 - s)) (dl := u32 (v2 <<< s) ||| v3 >>> (32 - s)) ?_ ?_ ?_ ?_
    · simp only [forDown, this, Res.ok_bind]
    · have := Nat.left_le_or (n := v1 <<< s) (m := v2 >>> (32 - s))
      rw [Nat.shiftLeft_eq] at this ⊢
      omega
    · have := Nat.or_lt_two_pow c1 b1; simpa using this
    · have := Nat.or_lt_two_pow c3 b2; simpa using this
    · rw [if_pos hs, e3, Res.ok_bind, c2]
  · rw [if_neg hs, Res.ok_bind]
    have := hstep (shift := s) (dh := v1) (dl := v2) (by omega) h1 h2 (by rw [if_neg hs])
    simp only [forDown, this, Res.ok_bind]

/-- `b.Reduce(b)`. -/
theorem reduceSelf_eq {b : MBuf} {xs : List Nat} {m : Mem} (hw : WordsOk xs) (hx : m.At b.data xs) (hb : b.length = xs.length)
    (hne : xs ≠ []) (htop : xs.getLast? ≠ some 0) :
    b.reduce b.data b.length m = .ok (⟨b.blk, 0⟩, m.write b.data (List.replicate xs.length 0)) := by
  unfold MBuf.reduce
  rw [if_pos (Nat.le_refl _), hb, divideSelf_eq hw hx hne htop, Res.ok_bind]
  have h : (m.write b.data (List.replicate xs.length 0)).At b.data (List.replicate xs.length 0) :=
    at_write_self (by rw [List.length_replicate]; exact hx.length_le hne)
  have := actualLengthMem_eq h
  rw [List.length_replicate] at this
  rw [this, Res.ok_bind, trimLen_eq_zero.2 (val_replicate_zero _)]

end BigIntegerCpp
