import Verif.Lemmas.PointerMul
import Verif.Model.Pow
/-
Division on pointers.
-/
set_option linter.unusedSectionVars false
set_option linter.unnecessarySeqFocus false
namespace BigIntegerCpp
open Mem
variable [Cfg]

namespace Mem
theorem poke_write {m : Mem} {p : Ptr} {ws : List Nat} {i v : Nat} (h : i < ws.length) :
    (m.write p ws).poke (p.plus i) v = m.write p (ws.set i v) := by
  induction ws generalizing m p i with
  | nil => simp at h
  | cons w ws ih =>
    cases i with
    | zero =>
      rw [Ptr.plus_zero, write, List.set_cons_zero, write, poke_write_comm, poke_poke]
      refine .inr (.inl ?_); simp
    | succ i =>
      rw [write, List.set_cons_succ, write, ← ih (by simpa using h), Ptr.plus_plus, Nat.add_comm 1]
end Mem

theorem addDivisorMem_loop {lhs rhs : Ptr} {k : Nat} (xs ys : List Nat) (c i : Nat) (m : Mem)
    (hk : k = i + ys.length) (hl : ys.length ≤ xs.length)
    (hx : m.At (lhs.plus i) xs) (hy : m.At (rhs.plus i) ys)
    (hd : Disj (lhs.plus i) xs.length (rhs.plus i) ys.length) :
    (do
      let (_, carry, m) ← forLoop k (fun i (carry, m) => do
        let a ← m.load lhs i
        let b ← m.load rhs i
        let digit := u64 (u64 (a + carry) + b)
        let m ← m.store lhs i (u32 digit)
        .ok (digit / 4294967296, m)) i (c, m)
      .ok (u32 carry, m)) = (addDivisor xs ys c >>= fun r => .ok (r.2, m.write (lhs.plus i) r.1)) := by
  induction ys generalizing xs c i m with
  | nil =>
    rw [forLoop_ge _ _ (by simp at hk; omega)]
    simp only [Res.ok_bind, addDivisor, write_self hx]
  | cons y ys ih =>
    cases xs with
    | nil => simp at hl
    | cons x xs =>
    have hb := hx.length_le (by simp)
    rw [forLoop_lt _ _ (by simp at hk; omega)]
    simp only [At.head hx, At.head hy, Res.ok_bind, store_next hb, addDivisor]
    rw [ih xs]
    · simp only [write_next, Res.bind_assoc, Res.ok_bind]
    · simp at hk; omega
    · simpa using hl
    · exact at_poke (Disj.plus_self lhs (Nat.le_refl _)) (At.tail hx)
    · exact at_poke (Disj.head hd) (At.tail hy)
    · exact Disj.next hd

theorem addDivisorMem_eq {lhs rhs : Ptr} {xs ys : List Nat} {m : Mem} (hl : ys.length ≤ xs.length)
    (hx : m.At lhs xs) (hy : m.At rhs ys) (hd : Disj lhs xs.length rhs ys.length) :
    addDivisorMem lhs xs.length rhs ys.length m = (addDivisor xs ys 0 >>= fun r => .ok (r.2, m.write lhs r.1)) := by
  have h := addDivisorMem_loop (lhs := lhs) (rhs := rhs) xs ys 0 0 m (Nat.zero_add _).symm hl hx hy hd
  unfold addDivisorMem
  rw [cassert_pos hl, Res.ok_bind]
  exact h

theorem subtractDivisorMem_loop {lhs rhs : Ptr} {k q : Nat} (xs ys : List Nat) (c i : Nat) (m : Mem)
    (hk : k = i + ys.length) (hl : ys.length ≤ xs.length)
    (hx : m.At (lhs.plus i) xs) (hy : m.At (rhs.plus i) ys)
    (hd : Disj (lhs.plus i) xs.length (rhs.plus i) ys.length) :
    (do
      let (_, carry, m) ← forLoop k (fun i (carry, m) => do
        let b ← m.load rhs i
        let carry := u64 (carry + u64 (b * q))
        let digit := u32 carry
        let carry := carry / 4294967296
        let a ← m.load lhs i
        let carry := if a < digit then u64 (carry + 1) else carry
        let a ← m.load lhs i
        let m ← m.store lhs i (u32sub a digit)
        .ok (carry, m)) i (c, m)
      .ok (u32 carry, m)) = (subtractDivisor xs ys q c >>= fun r => .ok (r.2, m.write (lhs.plus i) r.1)) := by
  induction ys generalizing xs c i m with
  | nil =>
    rw [forLoop_ge _ _ (by simp at hk; omega)]
    simp only [Res.ok_bind, subtractDivisor, write_self hx]
  | cons y ys ih =>
    cases xs with
    | nil => simp at hl
    | cons x xs =>
    have hb := hx.length_le (by simp)
    rw [forLoop_lt _ _ (by simp at hk; omega)]
    simp only [At.head hx, At.head hy, Res.ok_bind, store_next hb, subtractDivisor]
    rw [ih xs]
    · simp only [write_next, Res.bind_assoc, Res.ok_bind]
    · simp at hk; omega
    · simpa using hl
    · exact at_poke (Disj.plus_self lhs (Nat.le_refl _)) (At.tail hx)
    · exact at_poke (Disj.head hd) (At.tail hy)
    · exact Disj.next hd

theorem subtractDivisorMem_eq {lhs rhs : Ptr} {xs ys : List Nat} {q : Nat} {m : Mem} (hl : ys.length ≤ xs.length)
    (hq : q ≤ 0xFFFFFFFF) (hx : m.At lhs xs) (hy : m.At rhs ys) (hd : Disj lhs xs.length rhs ys.length) :
    subtractDivisorMem lhs xs.length rhs ys.length q m
      = (subtractDivisor xs ys q 0 >>= fun r => .ok (r.2, m.write lhs r.1)) := by
  have h := subtractDivisorMem_loop (lhs := lhs) (rhs := rhs) (q := q) xs ys 0 0 m (Nat.zero_add _).symm hl hx hy hd
  unfold subtractDivisorMem
  rw [cassert_pos hl, Res.ok_bind, cassert_pos hq, Res.ok_bind]
  exact h

theorem addDivisor_length {xs ys : List Nat} {c : Nat} {t : List Nat × Nat} (h : addDivisor xs ys c = .ok t) :
    t.1.length = xs.length := by
  induction ys generalizing xs c t with
  | nil => cases xs <;> (injection h with h; subst h; rfl)
  | cons y ys ih =>
    cases xs with
    | nil => cases h
    | cons x xs =>
      rw [addDivisor] at h
      obtain ⟨a, h1, h2⟩ := Res.bind_eq_ok h
      injection h2 with h2; subst h2
      simp [ih h1]

theorem subtractDivisor_length {xs ys : List Nat} {q c : Nat} {t : List Nat × Nat} (h : subtractDivisor xs ys q c = .ok t) :
    t.1.length = xs.length := by
  induction ys generalizing xs c t with
  | nil => cases xs <;> (injection h with h; subst h; rfl)
  | cons y ys ih =>
    cases xs with
    | nil => cases h
    | cons x xs =>
      rw [subtractDivisor] at h
      obtain ⟨a, h1, h2⟩ := Res.bind_eq_ok h
      injection h2 with h2; subst h2
      simp [ih h1]

theorem fixGuess_le (a b c d g : Nat) : fixGuess a b c d g ≤ g := by
  induction g with
  | zero => exact Nat.le_refl _
  | succ g ih =>
    rw [fixGuess]
    by_cases h : divideGuessTooBig (g + 1) a b c d = true
    · rw [if_pos h]; omega
    · rw [if_neg h]; exact Nat.le_refl _

/-- Second half of the loop body: subtracting, correcting. -/
theorem divideMem_correct {lhs rhs : Ptr} {xs ys : List Nat} {n t digit : Nat} {m : Mem} (hn : n + ys.length ≤ xs.length)
    (hy1 : 1 ≤ ys.length) (hq : digit ≤ 0xFFFFFFFF) (hx : m.At lhs xs) (hy : m.At rhs ys) (hd : Disj lhs xs.length rhs ys.length) :
    (if digit > 0 then do
      let (carry, m) ← subtractDivisorMem (lhs.plus n) (xs.length - n) rhs ys.length digit m
      if carry ≠ t then do
        cassert (carry = u32 (t + 1))
        let (carry, m) ← addDivisorMem (lhs.plus n) (xs.length - n) rhs ys.length m
        cassert (carry = 1)
        .ok (digit - 1, m)
      else .ok (digit, m)
    else .ok (digit, m))
    = ((if digit > 0 then do
      let mem ← slice xs n (xs.length - n)
      cassert (xs.length - n ≥ ys.length)
      let (mem, carry) ← subtractDivisor mem ys digit 0
      if carry ≠ t then do
        cassert (carry = u32 (t + 1))
        let (mem, carry) ← addDivisor mem ys 0
        cassert (carry = 1)
        .ok (xs.take n ++ mem, digit - 1)
      else .ok (xs.take n ++ mem, digit)
    else .ok (xs, digit)) >>= fun r => Res.ok (r.2, m.write lhs r.1)) := by
  by_cases h0 : digit > 0
  · rw [if_pos h0, if_pos h0, slice_rest (by omega) rfl, Res.ok_bind, cassert_pos (by omega), Res.ok_bind]
    have hxn := hx.drop (n := n) (by omega)
    have hl : (xs.drop n).length = xs.length - n := by simp
    have hdn : Disj (lhs.plus n) (xs.drop n).length rhs ys.length := by rw [hl]; exact (hd.symm.right (Nat.le_refl _) (by omega)).symm
    have hw : ∀ r : List Nat, m.write (lhs.plus n) r = m.write lhs (xs.take n ++ r) := by
      intro r
      rw [write_append, write_self (hx.take n), List.length_take, Nat.min_eq_left (by omega)]
    have s := subtractDivisorMem_eq (by omega) hq hxn hy hdn
    rw [hl] at s
    rw [s]
    simp only [Res.bind_assoc, Res.ok_bind]
    refine bind_congr_of_ok fun r hr => ?_
    have lr := subtractDivisor_length hr
    by_cases hc : r.2 ≠ t
    · rw [if_pos hc, if_pos hc]
      have ha := addDivisorMem_eq (lhs := lhs.plus n) (rhs := rhs) (xs := r.1) (ys := ys) (m := m.write (lhs.plus n) r.1) (by omega)
        (at_write_self (by rw [lr]; exact hxn.length_le (List.ne_nil_of_length_pos (by omega))))
        (at_write (by rw [lr]; exact hdn) hy) (by rw [lr]; exact hdn)
      rw [lr, hl] at ha
      rw [ha]
      simp only [Res.bind_assoc, Res.ok_bind]
      refine bind_congr_of_ok fun _ _ => ?_
      refine bind_congr_of_ok fun r2 hr2 => ?_
      have lr2 := addDivisor_length hr2
      refine bind_congr_of_ok fun _ _ => ?_
      rw [write_write lr2.symm, hw]
    · rw [if_neg hc, if_neg hc, Res.ok_bind, hw]
  · rw [if_neg h0, if_neg h0, Res.ok_bind, write_self hx]

theorem cond_load {m : Mem} {p : Ptr} {xs : List Nat} (h : m.At p xs) {c : Prop} [Decidable c] {i : Nat} (hc : c → i < xs.length) :
    (if c then m.load p i else .ok 0) = (if c then idx xs i else .ok 0) := by
  by_cases hh : c
  · rw [if_pos hh, if_pos hh, h.idx (hc hh)]
  · rw [if_neg hh, if_neg hh]

theorem cond_idx {xs : List Nat} {c : Prop} [Decidable c] {i : Nat} (hc : c → i < xs.length) :
    ∃ v, (if c then idx xs i else .ok 0) = Res.ok v := by
  by_cases hh : c
  · rw [if_pos hh]; unfold idx; rw [List.getElem?_eq_getElem (hc hh)]; exact ⟨_, rfl⟩
  · rw [if_neg hh]; exact ⟨_, rfl⟩

theorem divideApply_part {xs ys : List Nat} {n t d : Nat} {r : List Nat × Nat} (hn : n + ys.length ≤ xs.length)
    (h1 : (if d > 0 then do
      let mem ← slice xs n (xs.length - n)
      cassert (xs.length - n ≥ ys.length)
      let (mem, carry) ← subtractDivisor mem ys d 0
      if carry ≠ t then do
        cassert (carry = u32 (t + 1))
        let (mem, carry) ← addDivisor mem ys 0
        cassert (carry = 1)
        .ok (xs.take n ++ mem, d - 1)
      else .ok (xs.take n ++ mem, d)
    else .ok (xs, d)) = Res.ok r) : r.1.length = xs.length := by
  by_cases h0 : d > 0
  · rw [if_pos h0, slice_rest (by omega) rfl, Res.ok_bind] at h1
    obtain ⟨_, _, h1⟩ := Res.bind_eq_ok h1
    obtain ⟨⟨a, c⟩, ha, h1⟩ := Res.bind_eq_ok h1
    have la := subtractDivisor_length ha
    by_cases hc : c ≠ t
    · simp only [if_pos hc] at h1
      obtain ⟨_, _, h1⟩ := Res.bind_eq_ok h1
      obtain ⟨⟨a2, c2⟩, ha2, h1⟩ := Res.bind_eq_ok h1
      have la2 := addDivisor_length ha2
      obtain ⟨_, _, h1⟩ := Res.bind_eq_ok h1
      injection h1 with h1
      subst h1
      simp at la la2 ⊢; omega
    · simp only [if_neg hc] at h1
      injection h1 with h1
      subst h1
      simp at la ⊢; omega
  · rw [if_neg h0] at h1
    injection h1 with h1
    rw [← h1]

theorem divideApply_length {xs ys : List Nat} {n t d : Nat} {r : List Nat × Nat} (hn : n + ys.length ≤ xs.length)
    (h : divideApply xs ys n t d = .ok r) : r.1.length = xs.length := by
  unfold divideApply at h
  obtain ⟨⟨l, d'⟩, h1, h2⟩ := Res.bind_eq_ok h
  have hl : l.length = xs.length := divideApply_part hn h1
  obtain ⟨l2, h3, h4⟩ := Res.bind_eq_ok h2
  injection h4 with h4
  subst h4
  dsimp only at h3 ⊢
  by_cases hi : n + ys.length < l.length
  · rw [if_pos hi, put, if_pos hi] at h3
    injection h3 with h3; subst h3; simpa using hl
  · rw [if_neg hi] at h3; injection h3 with h3; rw [← h3]; exact hl

theorem divideStep_length {xs ys : List Nat} {n a b c : Nat} {r : List Nat × Nat} (hn : n + ys.length ≤ xs.length)
    (h : divideStep xs ys a b c n = .ok r) : r.1.length = xs.length := by
  unfold divideStep at h
  obtain ⟨⟨l, d'⟩, h1, h2⟩ := Res.bind_eq_ok h
  exact divideApply_length hn h2

/-- A store into a written range. -/
theorem store_write {m : Mem} {p : Ptr} {ws : List Nat} {i v : Nat} (hb : m.InB p ws.length) (h : i < ws.length) :
    (m.write p ws).store p i v = (put ws i v >>= fun r => .ok (m.write p r)) := by
  rw [store_ok (by rw [InB_write]; exact hb.mono (by omega)), put, if_pos h, Res.ok_bind, poke_write h]

theorem divideMemStep_eq {lhs rhs bits : Ptr} {xs ys bs : List Nat} {shift divHi divLo n : Nat} {m : Mem}
    (hn : n + ys.length ≤ xs.length) (hy1 : 1 ≤ ys.length) (hbs : bs ≠ [] → n < bs.length)
    (hx : m.At lhs xs) (hy : m.At rhs ys) (hb : m.At bits bs) (hd : Disj lhs xs.length rhs ys.length)
    (hdb : Disj bits bs.length lhs xs.length) :
    divideMemStep lhs xs.length rhs ys.length bits bs.length shift divHi divLo n m
      = (divideStep xs ys shift divHi divLo n >>= fun r =>
          (if bs.length ≠ 0 then put bs n (u32 r.2) else .ok bs) >>= fun b => .ok ((m.write lhs r.1).write bits b)) := by
  unfold divideMemStep divideStep divideGuess
  dsimp only
  rw [cond_load hx (c := n + ys.length < xs.length) (fun h => h), hx.idx (i := n + ys.length - 1) (by omega),
    cond_load hx (c := n + ys.length > 1) (i := n + ys.length - 2) (by omega),
    cond_load hx (c := n + ys.length > 2) (i := n + ys.length - 3) (by omega)]
  simp only [Res.bind_assoc]
  refine bind_congr_of_ok fun t _ => ?_
  refine bind_congr_of_ok fun v1 _ => ?_
  refine bind_congr_of_ok fun vl _ => ?_
  refine bind_congr_of_ok fun v _ => ?_
  by_cases h0 : divHi = 0
  · simp only [if_pos h0]; rfl
  simp only [if_neg h0, Res.ok_bind]
  have hq : fixGuess v.1 v.2 divHi divLo (if v.1 / divHi > 0xFFFFFFFF then 0xFFFFFFFF else v.1 / divHi) ≤ 0xFFFFFFFF := by
    refine Nat.le_trans (fixGuess_le _ _ _ _ _) ?_
    by_cases hg : v.1 / divHi > 0xFFFFFFFF
    · rw [if_pos hg]; exact Nat.le_refl _
    · rw [if_neg hg]; omega
  generalize fixGuess v.1 v.2 divHi divLo (if v.1 / divHi > 0xFFFFFFFF then 0xFFFFFFFF else v.1 / divHi) = digit at hq ⊢
  rw [divideMem_correct hn hy1 hq hx hy hd]
  unfold divideApply
  simp only [Res.bind_assoc]
  refine bind_congr_of_ok fun r hr => ?_
  obtain ⟨l, d⟩ := r
  have hl : l.length = xs.length := divideApply_part hn hr
  have hbl : m.InB lhs l.length := by rw [hl]; exact hx.length_le (List.ne_nil_of_length_pos (by omega))
  have hwb : (m.write lhs l) = (m.write lhs l).write bits bs := by
    rw [write_self (at_write (by rw [hl]; exact hdb.symm) hb)]
  have hS : (if bs.length ≠ 0 then (m.write lhs l).store bits n (u32 d) else .ok (m.write lhs l))
      = ((if bs.length ≠ 0 then put bs n (u32 d) else .ok bs) >>= fun b => .ok ((m.write lhs l).write bits b)) := by
    by_cases h0 : bs.length ≠ 0
    · have hne : bs ≠ [] := fun e => h0 (by rw [e]; rfl)
      rw [if_pos h0, if_pos h0, hwb, store_write (by rw [InB_write]; exact hb.length_le hne) (hbs hne), ← hwb]
    · rw [if_neg h0, if_neg h0, Res.ok_bind, ← hwb]
  have hT : ∀ b : List Nat, b.length = bs.length →
      (if n + ys.length < xs.length then ((m.write lhs l).write bits b).store lhs (n + ys.length) 0 else .ok ((m.write lhs l).write bits b))
      = ((if n + ys.length < l.length then put l (n + ys.length) 0 else .ok l) >>= fun l' => .ok ((m.write lhs l').write bits b)) := by
    intro b hbl'
    by_cases hi : n + ys.length < xs.length
    · rw [if_pos hi, if_pos (by omega), write_comm (by rw [hl, hbl']; exact hdb.symm), store_write (by rw [InB_write]; exact hbl) (by omega),
        put, if_pos (by omega), Res.ok_bind, Res.ok_bind, write_comm (by simp; rw [hl, hbl']; exact hdb)]
    · rw [if_neg hi, if_neg (by omega), Res.ok_bind]
  simp only [Res.ok_bind]
  rw [hS, Res.bind_assoc]
  simp only [Res.ok_bind]
  have hP : (if bs.length ≠ 0 then put bs n (u32 d) else .ok bs) = Res.ok (if bs.length ≠ 0 then bs.set n (u32 d) else bs) := by
    by_cases h0 : bs.length ≠ 0
    · have hne : bs ≠ [] := fun e => h0 (by rw [e]; rfl)
      rw [if_pos h0, if_pos h0, put, if_pos (hbs hne)]
    · rw [if_neg h0, if_neg h0]
  simp only [hP, Res.ok_bind]
  refine hT _ ?_
  by_cases h0 : bs.length ≠ 0
  · rw [if_pos h0, List.length_set]
  · rw [if_neg h0]

theorem bitsPut_length {bs b : List Nat} {k v : Nat} (h : (if bs.length ≠ 0 then put bs k v else .ok bs) = Res.ok b) :
    b.length = bs.length := by
  by_cases h0 : bs.length ≠ 0
  · rw [if_pos h0, put] at h
    by_cases hk : k < bs.length
    · rw [if_pos hk] at h; injection h with h; rw [← h, List.length_set]
    · rw [if_neg hk] at h; cases h
  · rw [if_neg h0] at h; injection h with h; rw [h]

theorem divideLoop_length {ys : List Nat} {a b c : Nat} (k : Nat) (xs bs : List Nat) {r : List Nat × List Nat}
    (hk : k + ys.length ≤ xs.length + 1) (h : divideLoop ys a b c k xs bs = .ok r) :
    r.1.length = xs.length ∧ r.2.length = bs.length := by
  induction k generalizing xs bs with
  | zero => rw [divideLoop] at h; injection h with h; subst h; exact ⟨rfl, rfl⟩
  | succ k ih =>
    rw [divideLoop] at h
    obtain ⟨s, h1, h⟩ := Res.bind_eq_ok h
    obtain ⟨t, h2, h⟩ := Res.bind_eq_ok h
    have l1 := divideStep_length (by omega) h1
    have l2 := bitsPut_length h2
    have := ih s.1 t (by omega) h
    omega

theorem divideMemLoop_eq {lhs rhs bits : Ptr} {ys : List Nat} {shift divHi divLo : Nat} (k N B : Nat) (xs bs : List Nat) (m : Mem)
    (hN : N = xs.length) (hB : B = bs.length) (hk : k + ys.length ≤ xs.length + 1) (hy1 : 1 ≤ ys.length)
    (hbs : bs ≠ [] → k ≤ bs.length)
    (hx : m.At lhs xs) (hy : m.At rhs ys) (hb : m.At bits bs) (hd : Disj lhs xs.length rhs ys.length)
    (hdb : Disj bits bs.length lhs xs.length) (hdr : Disj bits bs.length rhs ys.length) :
    forDown (fun n m => divideMemStep lhs N rhs ys.length bits B shift divHi divLo n m) k m
      = (divideLoop ys shift divHi divLo k xs bs >>= fun r => .ok ((m.write lhs r.1).write bits r.2)) := by
  induction k generalizing xs bs m with
  | zero => rw [forDown, divideLoop, Res.ok_bind]; dsimp only; rw [write_self hx, write_self hb]
  | succ k ih =>
    subst hN hB
    rw [forDown, divideLoop]
    dsimp only
    rw [divideMemStep_eq (by omega) hy1 (fun h => by have := hbs h; omega) hx hy hb hd hdb]
    simp only [Res.bind_assoc]
    refine bind_congr_of_ok fun r hr => ?_
    have hl : r.1.length = xs.length := divideStep_length (by omega) hr
    refine bind_congr_of_ok fun b hbq => ?_
    have hbl : b.length = bs.length := bitsPut_length hbq
    have hib : b ≠ [] → m.InB bits b.length := by
      intro h; rw [hbl]; exact hb.length_le (by intro e; apply h; apply List.length_eq_zero_iff.mp; rw [hbl, e]; rfl)
    have hxl : m.InB lhs r.1.length := by rw [hl]; exact hx.length_le (List.ne_nil_of_length_pos (by omega))
    rw [Res.ok_bind, ih r.1 b _ hl.symm hbl.symm (by omega)]
    · refine bind_congr_of_ok fun r2 hr2 => ?_
      obtain ⟨l1, l2⟩ := divideLoop_length k r.1 b (by omega) hr2
      rw [write_comm (p := bits) (q := lhs) (by rw [l1, hl, hbl]; exact hdb), write_write (by rw [l2]), write_write (by rw [l1])]
    · intro h; rw [hbl]
      have := hbs (by intro e; apply h; apply List.length_eq_zero_iff.mp; rw [hbl, e]; rfl)
      omega
    · exact at_write (by rw [hl, hbl]; exact hdb) (at_write_self hxl)
    · exact at_write (by rw [hbl]; exact hdr) (at_write (by rw [hl]; exact hd) hy)
    · by_cases e : b = []
      · rw [e]; trivial
      · exact at_write_self (by rw [InB_write]; exact hib e)
    · rw [hl]; exact hd
    · rw [hl, hbl]; exact hdb
    · rw [hbl]; exact hdr

theorem divideMem_eq {lhs rhs bits : Ptr} {xs ys bs : List Nat} {m : Mem} (hy1 : 1 ≤ ys.length) (hl : ys.length ≤ xs.length)
    (hbs : bs.length = xs.length - ys.length + 1 ∨ bs = [])
    (hx : m.At lhs xs) (hy : m.At rhs ys) (hb : m.At bits bs) (hd : Disj lhs xs.length rhs ys.length)
    (hdb : Disj bits bs.length lhs xs.length) (hdr : Disj bits bs.length rhs ys.length) :
    divideMem lhs xs.length rhs ys.length bits bs.length m
      = (divideCore xs ys bs >>= fun r => .ok ((m.write lhs r.1).write bits r.2)) := by
  unfold divideMem divideCore
  dsimp only
  rw [hy.idx (i := ys.length - 1) (by omega), cond_load hy (c := ys.length > 1) (i := ys.length - 2) (by omega),
    cond_load hy (c := ys.length > 2) (i := ys.length - 3) (by omega)]
  simp only [Res.bind_assoc]
  refine bind_congr_of_ok fun _ _ => bind_congr_of_ok fun _ _ => bind_congr_of_ok fun _ _ => bind_congr_of_ok fun _ _ =>
    bind_congr_of_ok fun _ _ => bind_congr_of_ok fun _ _ => bind_congr_of_ok fun _ _ => ?_
  exact divideMemLoop_eq _ _ _ xs bs m rfl rfl (by omega) hy1
    (fun h => by rcases hbs with e | e; (· omega); exact absurd e h) hx hy hb hd hdb hdr

theorem divWordLoop_length {xs : List Nat} {y : Nat} {r : List Nat × Nat} (h : divWordLoop xs y = .ok r) :
    r.1.length = xs.length := by
  induction xs generalizing r with
  | nil => rw [divWordLoop] at h; injection h with h; subst h; rfl
  | cons x xs ih =>
    rw [divWordLoop] at h
    obtain ⟨a, h1, h2⟩ := Res.bind_eq_ok h
    dsimp only at h2
    by_cases h0 : y = 0
    · rw [if_pos h0] at h2; cases h2
    · rw [if_neg h0] at h2
      injection h2 with h2; subst h2
      simp [ih h1]

theorem divideWordMem_loop {lhs q : Ptr} {y : Nat} (xs : List Nat) (i : Nat) (m : Mem)
    (hx : m.At (lhs.plus i) xs) (hb : m.InB (q.plus i) xs.length) (hd : Disj (q.plus i) xs.length (lhs.plus i) xs.length)
    (body : Nat → Nat × Mem → Res (Nat × Mem))
    (hbody : body = fun i s => do
      let a ← s.2.load lhs i
      let value := u64 (s.1 <<< 32) ||| a
      if y = 0 then .throw .divideByZero else do
      let digit := value / y
      let m ← s.2.store q i (u32 digit)
      .ok (u64sub value (u64 (digit * y)), m)) :
    forDown body (i + xs.length) (0, m)
      = (divWordLoop xs y >>= fun r => forDown body i (r.2, m.write (q.plus i) r.1)) := by
  induction xs generalizing i with
  | nil => simp only [divWordLoop, Res.ok_bind, write]; rfl
  | cons x xs ih =>
    have h := ih (i + 1) (At.tail hx) (InB.next hb) (Disj.next hd)
    rw [show i + (x :: xs).length = i + 1 + xs.length by simp; omega, h, divWordLoop]
    simp only [Res.bind_assoc]
    refine bind_congr_of_ok fun r hr => ?_
    have hl : r.1.length = xs.length := divWordLoop_length hr
    rw [forDown, hbody]
    dsimp only
    rw [load_write_ne (by rw [hl]; ranges), At.head hx, Res.ok_bind]
    by_cases h0 : y = 0
    · rw [if_pos h0, if_pos h0]; rfl
    rw [if_neg h0, if_neg h0, store_next (k := xs.length) (by rw [InB_write]; exact hb), Res.ok_bind, Res.ok_bind, Res.ok_bind, poke_write_comm (by ranges)]
    simp only [write_next]

theorem divideWordMem_eq {lhs q : Ptr} {y : Nat} {xs : List Nat} {m : Mem}
    (hx : m.At lhs xs) (hb : m.InB q xs.length) (hd : Disj q xs.length lhs xs.length) :
    divideWordMem lhs xs.length y q m = (divWordLoop xs y >>= fun r => .ok (r.2, m.write q r.1)) := by
  have h := divideWordMem_loop (lhs := lhs) (q := q) (y := y) xs 0 m hx hb hd _ rfl
  rw [Nat.zero_add] at h
  exact h

theorem remainderWordMem_loop {lhs : Ptr} {y : Nat} (xs : List Nat) (i : Nat) (m : Mem)
    (hx : m.At (lhs.plus i) xs) (body : Nat → Nat → Res Nat)
    (hbody : body = fun i carry => do
      let a ← m.load lhs i
      let value := u64 (carry <<< 32) ||| a
      if y = 0 then .throw .divideByZero else .ok (value % y)) :
    forDown body (i + xs.length) 0 = (remWordLoop xs y >>= fun r => forDown body i r) := by
  induction xs generalizing i with
  | nil => simp only [remWordLoop, Res.ok_bind]; rfl
  | cons x xs ih =>
    have h := ih (i + 1) (At.tail hx)
    rw [show i + (x :: xs).length = i + 1 + xs.length by simp; omega, h, remWordLoop]
    simp only [Res.bind_assoc]
    refine bind_congr_of_ok fun r hr => ?_
    rw [forDown, hbody]
    dsimp only
    rw [At.head hx, Res.ok_bind]

theorem remainderWordMem_eq {lhs : Ptr} {y : Nat} {xs : List Nat} {m : Mem} (hx : m.At lhs xs) :
    remainderWordMem lhs xs.length y m = remWordLoop xs y := by
  have h := remainderWordMem_loop (lhs := lhs) (y := y) xs 0 m hx _ rfl
  rw [Nat.zero_add] at h
  unfold remainderWordMem
  rw [h]
  simp only [forDown]
  cases remWordLoop xs y <;> rfl

theorem mulWordLoop_length (xs : List Nat) (y c : Nat) : (mulWordLoop xs y c).length = xs.length + 1 := by
  induction xs generalizing c with
  | nil => rfl
  | cons x xs ih => simp only [mulWordLoop, List.length_cons, ih]

theorem multiplyWordMem_loop {lhs bits : Ptr} {n y : Nat} (xs : List Nat) (c i : Nat) (m : Mem) (hn : n = i + xs.length)
    (hx : m.At (lhs.plus i) xs) (hb : m.InB (bits.plus i) (xs.length + 1))
    (hd : Disj (bits.plus i) (xs.length + 1) (lhs.plus i) xs.length) :
    (do
      let (i, carry, m) ← forLoop n (fun i ((carry, m) : Nat × Mem) => do
        let a ← m.load lhs i
        let digits := u64 (u64 (a * y) + carry)
        let m ← m.store bits i (u32 digits)
        .ok (digits / 4294967296, m)) i (c, m)
      m.store bits i (u32 carry))
      = .ok (m.write (bits.plus i) (mulWordLoop xs y c)) := by
  induction xs generalizing c i m with
  | nil =>
    rw [forLoop_ge _ _ (by simp at hn; omega)]
    simp only [Res.ok_bind, mulWordLoop, store_next hb, write]
  | cons x xs ih =>
    rw [forLoop_lt _ _ (by simp at hn; omega)]
    simp only [At.head hx, Res.ok_bind, store_next hb, mulWordLoop]
    rw [ih]
    · simp only [write_next]
    · simp at hn; omega
    · exact at_poke (by ranges) (At.tail hx)
    · rw [InB_poke]; exact InB.next hb
    · ranges

theorem multiplyWordMem_eq {lhs bits : Ptr} {y : Nat} {xs : List Nat} {m : Mem}
    (hx : m.At lhs xs) (hb : m.InB bits (xs.length + 1)) (hd : Disj bits (xs.length + 1) lhs xs.length) :
    multiplyWordMem lhs xs.length y bits m = .ok (m.write bits (mulWordLoop xs y 0)) :=
  multiplyWordMem_loop xs 0 0 m (Nat.zero_add _).symm hx hb hd

theorem carryLoop_length {xs : List Nat} {c : Int} {r : List Nat × Int} (h : carryLoop xs c = .ok r) : r.1.length = xs.length := by
  induction xs generalizing c r with
  | nil => rw [carryLoop] at h; injection h with h; subst h; rfl
  | cons x xs ih =>
    rw [carryLoop] at h
    obtain ⟨d, _, h⟩ := Res.bind_eq_ok h
    obtain ⟨a, h1, h⟩ := Res.bind_eq_ok h
    injection h with h; subst h
    simp [ih h1]

theorem addWordMem_eq {lhs bits : Ptr} {y : Nat} {xs : List Nat} {m : Mem} (hne : xs ≠ [])
    (hx : m.At lhs xs) (hb : m.InB bits (xs.length + 1)) (hd : Disj bits (xs.length + 1) lhs xs.length) :
    addWordMem lhs xs.length y bits m = (addWord xs y >>= fun r => .ok (m.write bits r)) := by
  cases xs with
  | nil => exact absurd rfl hne
  | cons x xs =>
    unfold addWordMem addWord
    rw [cassert_pos (by simp), Res.ok_bind, hx.1, Res.ok_bind]
    dsimp only
    cases hL : long ((x : Int) + y) with
    | ok d =>
      simp only [Res.ok_bind]
      rw [store_ok (hb.mono (by simp)), Res.ok_bind,
        subMem_tail xs _ 1 _ (by simp; omega) (at_poke (by ranges) hx.2) (by rw [InB_poke]; exact hb.plus (by simp; omega)) (by ranges)]
      simp only [Res.bind_assoc, Res.ok_bind]
      refine bind_congr_of_ok fun r hr => ?_
      have hl := carryLoop_length hr
      rw [store_ok (by rw [InB_write, InB_poke]; exact hb), Ptr.plus_zero, List.cons_append, write, write_append, Ptr.plus_plus, write, write, hl]
      simp [Nat.add_comm]
    | _ => rfl

theorem subtractWordMem_eq {lhs bits : Ptr} {y : Nat} {xs : List Nat} {m : Mem} (hne : xs ≠ []) (hy : xs.headD 0 ≥ y ∨ xs.length ≥ 2)
    (hx : m.At lhs xs) (hb : m.InB bits xs.length) (hd : Disj bits xs.length lhs xs.length) :
    subtractWordMem lhs xs.length y bits m = (subtractWord xs y >>= fun r => .ok (m.write bits r)) := by
  cases xs with
  | nil => exact absurd rfl hne
  | cons x xs =>
    unfold subtractWordMem subtractWord
    rw [cassert_pos (by simp), Res.ok_bind, cassert_pos hy, Res.ok_bind, hx.1, Res.ok_bind]
    dsimp only
    cases hL : long ((x : Int) - y) with
    | ok d =>
      simp only [Res.ok_bind]
      rw [store_ok (hb.mono (by simp)), Res.ok_bind,
        subMem_tail xs _ 1 _ (by simp; omega) (at_poke (by ranges) hx.2) (by rw [InB_poke]; exact hb.plus (by simp; omega)) (by ranges)]
      simp only [Res.bind_assoc, Res.ok_bind]
      refine bind_congr_of_ok fun r hr => ?_
      rw [Ptr.plus_zero, write]
    | _ => rfl

theorem subtractSelfMem_loop {left right : Ptr} {k N : Nat} (xs ys : List Nat) (n : Nat) (c : Int) (i : Nat) (m : Mem)
    (hN : n = N - i) (hk : k = i + ys.length) (hn : n ≤ xs.length) (hl : ys.length ≤ xs.length)
    (hx : m.At (left.plus i) xs) (hy : m.At (right.plus i) ys)
    (hd : Disj (left.plus i) xs.length (right.plus i) ys.length) :
    (do
      let (i, carry, m) ← forLoop k (fun i ((carry, m) : Int × Mem) => do
        let a ← m.load left i
        let b ← m.load right i
        let digit ← long ((a : Int) + carry - b)
        let m ← m.store left i (u32i digit)
        .ok (digit / 4294967296, m)) i (c, m)
      let (_, m) ← carryMem left N i carry m
      .ok m)
      = (FastReducer.subtractSelf xs ys n c >>= fun r => .ok (m.write (left.plus i) r)) := by
  induction ys generalizing xs n c i m with
  | nil =>
    rw [forLoop_ge _ _ (by simp at hk; omega)]
    rw [Res.ok_bind]
    dsimp only
    have ht : (xs.take n).length = n := by simp; omega
    by_cases h0 : n = 0
    · subst h0
      unfold carryMem
      rw [forWhile_end _ _ (by omega), FastReducer.subtractSelf, slice_in (by omega)]
      simp only [Res.ok_bind, List.take_zero, List.drop_zero, carrySelf, List.nil_append]
      rw [write_self hx]
    rw [carryMem_eq (xs.take n) c i m (by rw [ht]; omega) (hx.take n), FastReducer.subtractSelf, slice_in (by omega), Res.ok_bind]
    simp only [Res.bind_assoc, List.drop_zero, Res.ok_bind]
    refine bind_congr_of_ok fun r hr => ?_
    have hr' : r.1.length = n := by rw [carrySelf_length hr, ht]
    rw [write_append, hr', write_self (at_write (by rw [hr']; ranges) (hx.drop hn))]
  | cons y ys ih =>
    cases xs with
    | nil => simp at hl
    | cons x xs =>
    have hb := hx.length_le (by simp)
    rw [forLoop_lt _ _ (by simp at hk; omega)]
    simp only [At.head hx, At.head hy, Res.ok_bind, FastReducer.subtractSelf]
    cases hL : long ((x : Int) + c - y) with
    | ok d =>
      simp only [Res.ok_bind, store_next hb]
      simp only [List.length_cons] at hl hn hk
      rw [ih xs (n - 1)]
      · simp only [write_next, Res.bind_assoc, Res.ok_bind]
      · omega
      · omega
      · omega
      · omega
      · exact at_poke (Disj.plus_self _ (Nat.le_refl _)) (At.tail hx)
      · exact at_poke (Disj.head hd) (At.tail hy)
      · exact Disj.next hd
    | _ => rfl

theorem subtractSelfMem_eq {left right : Ptr} {xs ys : List Nat} {n : Nat} {m : Mem} (hn : n ≤ xs.length) (hl : ys.length ≤ xs.length)
    (hx : m.At left xs) (hy : m.At right ys) (hd : Disj left xs.length right ys.length) :
    subtractSelfMem left n right ys.length m = (FastReducer.subtractSelf xs ys n 0 >>= fun r => .ok (m.write left r)) :=
  subtractSelfMem_loop xs ys n 0 0 m rfl (Nat.zero_add _).symm hn hl hx hy hd

end BigIntegerCpp
