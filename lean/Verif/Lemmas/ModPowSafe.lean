import Verif.Lemmas.PowProps
import Verif.Lemmas.Closure
/-
`mod_pow` with moduli of 32 words or more, whatever the buffers hold: the reducer leaves words of
earlier products above the lengths it returns, products are computed on top of them, but every
access stays in bounds.
-/
set_option linter.unusedSectionVars false
namespace BigIntegerCpp
variable [Cfg]

/-- The call returns something satisfying `P`, or fails an assertion of a debug build. -/
def Res.Safe {α : Type} (r : Res α) (P : α → Prop) : Prop :=
  (∃ a, r = .ok a ∧ P a) ∨ (r = .abort ∧ Cfg.ndebug = false)

namespace Res
variable {α β : Type}
theorem Safe.ok {P : α → Prop} {a : α} (h : P a) : (Res.ok a).Safe P := .inl ⟨a, rfl, h⟩
theorem Safe.bind {r : Res α} {f : α → Res β} {P : α → Prop} {Q : β → Prop} (h : r.Safe P)
    (hf : ∀ a, P a → (f a).Safe Q) : (r >>= f).Safe Q := by
  rcases h with ⟨a, rfl, h⟩ | ⟨rfl, h⟩
  · exact hf a h
  · exact .inr ⟨rfl, h⟩
theorem Safe.of_ok {r : Res α} {P : α → Prop} (h : ∃ a, r = .ok a ∧ P a) : r.Safe P := .inl h
theorem Safe.ite {c : Prop} [Decidable c] {r s : Res α} {P : α → Prop} (h1 : c → r.Safe P) (h2 : ¬ c → s.Safe P) :
    (if c then r else s).Safe P := by
  by_cases h : c
  · rw [if_pos h]; exact h1 h
  · rw [if_neg h]; exact h2 h
theorem Safe.mono {r : Res α} {P Q : α → Prop} (h : r.Safe P) (hpq : ∀ a, P a → Q a) : r.Safe Q := by
  rcases h with ⟨a, e, h⟩ | h
  · exact .inl ⟨a, e, hpq a h⟩
  · exact .inr h
theorem Safe.cassert {c : Prop} [Decidable c] : (BigIntegerCpp.cassert c).Safe fun _ => True := by
  unfold BigIntegerCpp.cassert
  by_cases h : c
  · rw [if_pos h]; exact .ok trivial
  · rw [if_neg h]
    cases hd : Cfg.ndebug
    · exact .inr ⟨rfl, hd⟩
    · exact .inl ⟨(), rfl, trivial⟩
end Res
open Res

/-! ### products on top of arbitrary words -/

/-- `n` words. -/
def Block (n : Nat) (l : List Nat) : Prop := WordsOk l ∧ l.length = n

theorem mulRow_safe {left : List Nat} : ∀ {bits : List Nat} {r c : Nat}, WordsOk bits → left.length < bits.length →
    (mulRow bits left r c).Safe (Block bits.length) := by
  induction left with
  | nil =>
    intro bits r c hb hl
    cases bits with
    | nil => simp at hl
    | cons b bs => exact .ok ⟨wordsOk_cons.2 ⟨u32_lt _, (wordsOk_cons.1 hb).2⟩, rfl⟩
  | cons x xs ih =>
    intro bits r c hb hl
    cases bits with
    | nil => simp at hl
    | cons b bs =>
      rw [mulRow]
      exact .bind (ih (wordsOk_cons.1 hb).2 (by simpa using hl)) fun t ht =>
        .ok ⟨wordsOk_cons.2 ⟨u32_lt _, ht.1⟩, by simp [ht.2]⟩

theorem mulSchool_safe {left : List Nat} : ∀ {right bits : List Nat}, WordsOk bits → bits.length = left.length + right.length →
    (mulSchool left right bits).Safe (Block bits.length) := by
  intro right
  induction right with
  | nil => intro bits hb _; exact .ok ⟨hb, rfl⟩
  | cons r rs ih =>
    intro bits hb hl
    rw [List.length_cons] at hl
    rw [mulSchool]
    refine .bind (mulRow_safe hb (by omega)) fun t ht => ?_
    obtain ⟨h1, h2⟩ := ht
    cases t with
    | nil => simp at h2; omega
    | cons b bs =>
      rw [wordsOk_cons] at h1
      rw [List.length_cons] at h2
      exact .bind (ih h1.2 (by omega)) fun t ht => .ok ⟨wordsOk_cons.2 ⟨h1.1, ht.1⟩, by simp [ht.2]; omega⟩

theorem slice_safe {a : List Nat} (ha : WordsOk a) {off len : Nat} (h : off + len ≤ a.length) :
    (slice a off len).Safe (Block len) := by
  rw [slice_ok h]
  exact .ok ⟨(ha.drop off).take len, by simp; omega⟩

theorem addPtr_safe {xs ys : List Nat} {n : Nat} (hx : WordsOk xs) (hy : WordsOk ys) (hl : ys.length ≤ xs.length)
    (hn : n = xs.length + 1) : (addPtr xs ys n).Safe (Block n) := by
  subst hn
  obtain ⟨r, e, k1, k2, -⟩ := addPtr_spec hx hy hl
  rw [e]; exact .ok ⟨k2, k1⟩

theorem subtractCore_safe {lhs rhs core : List Nat} (hl : WordsOk lhs) (hr : WordsOk rhs) (hc : WordsOk core)
    (h1 : rhs.length ≤ lhs.length) (h2 : lhs.length ≤ core.length) : (subtractCore lhs rhs core).Safe (Block core.length) := by
  unfold subtractCore
  rw [cassert_pos h1, Res.ok_bind, cassert_pos h2, Res.ok_bind]
  obtain ⟨r, c', e, k1, k2, -⟩ := subtractCoreLoop_spec hc hl hr h1 h2 (c := 0) (by omega) (by omega)
  rw [e]; exact .ok ⟨k2, k1⟩

theorem addSelf_safe {lhs rhs : List Nat} (hl : WordsOk lhs) (hr : WordsOk rhs) (h1 : rhs.length ≤ lhs.length) :
    (addSelf lhs rhs).Safe (Block lhs.length) := by
  unfold addSelf
  rw [cassert_pos h1, Res.ok_bind]
  obtain ⟨r, c', e, k1, k2, -⟩ := addSelfLoop_spec hl hr h1 (c := 0) (by omega) (by omega)
  rw [e, Res.ok_bind]
  exact .bind Safe.cassert fun _ _ => .ok ⟨k2, k1⟩

theorem mulCore_safe (n : Nat) : ∀ {left right bits : List Nat}, WordsOk left → WordsOk right → WordsOk bits →
    right.length = n → n ≤ left.length → bits.length = left.length + n →
    (mulCore left right bits n).Safe (Block (left.length + n)) := by
  induction n using Nat.strongRecOn with
  | ind n ih =>
  intro left right bits hl hr hb hn hle hlen
  rw [mulCore, cassert_pos hle, Res.ok_bind, cassert_pos hlen, Res.ok_bind]
  by_cases hs : n < MultiplyThreshold
  · rw [dif_pos hs, ← hlen]; exact mulSchool_safe hb (by omega)
  rw [dif_neg hs]
  have hs' : 32 ≤ n := by simpa [MultiplyThreshold] using hs
  refine .bind (slice_safe hl (off := 0) (by omega)) fun ll hll => ?_
  refine .bind (slice_safe hl (by omega)) fun lh hlh => ?_
  refine .bind (slice_safe hr (off := 0) (by omega)) fun rl hrl => ?_
  refine .bind (slice_safe hr (by omega)) fun rh hrh => ?_
  refine .bind (slice_safe hb (off := 0) (by omega)) fun bl hbl => ?_
  refine .bind (slice_safe hb (by omega)) fun bh hbh => ?_
  obtain ⟨wll, ell⟩ := hll
  obtain ⟨wlh, elh⟩ := hlh
  obtain ⟨wrl, erl⟩ := hrl
  obtain ⟨wrh, erh⟩ := hrh
  obtain ⟨wbl, ebl⟩ := hbl
  obtain ⟨wbh, ebh⟩ := hbh
  refine .bind (ih (n / 2) (by omega) wll wrl wbl erl (by omega) (by omega)) fun bl' h => ?_
  obtain ⟨wbl', ebl'⟩ := h
  refine .bind (ih (n - n / 2) (by omega) wlh wrh wbh erh (by omega) (by omega)) fun bh' h => ?_
  obtain ⟨wbh', ebh'⟩ := h
  refine .bind (addPtr_safe wlh wll (by omega) rfl) fun lf h => ?_
  obtain ⟨wlf, elf⟩ := h
  refine .bind (addPtr_safe wrh wrl (by omega) (by omega)) fun rf h => ?_
  obtain ⟨wrf, erf⟩ := h
  refine .bind (ih (n - n / 2 + 1) (by omega) wlf wrf (wordsOk_replicate_zero _) erf (by omega) (by simp)) fun co h => ?_
  obtain ⟨wco, eco⟩ := h
  refine .bind (subtractCore_safe wbh' wbl' wco (by omega) (by omega)) fun co' h => ?_
  obtain ⟨wco', eco'⟩ := h
  have wall : WordsOk (bl' ++ bh') := wordsOk_append.2 ⟨wbl', wbh'⟩
  have eall : (bl' ++ bh').length = left.length + n := by rw [List.length_append]; omega
  refine .bind (slice_safe wall (off := n / 2) (len := (bl' ++ bh').length - n / 2) (by omega)) fun up h => ?_
  obtain ⟨wup, eup⟩ := h
  refine .bind (addSelf_safe wup wco' (by omega)) fun up' h => ?_
  obtain ⟨wup', eup'⟩ := h
  exact .ok ⟨wordsOk_append.2 ⟨wall.take _, wup'⟩, by rw [List.length_append, List.length_take]; omega⟩

theorem multiplyMem_safe {left right bits : List Nat} {nl nr N : Nat} (hl : WordsOk left) (hr : WordsOk right) (hb : WordsOk bits)
    (h1 : nl ≤ left.length) (h2 : nr ≤ right.length) (h3 : nr ≤ nl) (h4 : N ≤ bits.length) (hN : N = nl + nr) :
    (BitsBuffer.multiplyMem left nl right nr bits N).Safe (Block bits.length) := by
  unfold BitsBuffer.multiplyMem
  refine .bind (slice_safe hl (off := 0) (by omega)) fun l kl => ?_
  refine .bind (slice_safe hr (off := 0) (by omega)) fun r kr => ?_
  refine .bind (slice_safe hb (off := 0) (by omega)) fun b kb => ?_
  refine .bind (mulCore_safe nr kl.1 kr.1 kb.1 kr.2 (by rw [kl.2]; exact h3) (by rw [kl.2, kb.2]; exact hN)) fun o ko => ?_
  exact .ok ⟨wordsOk_append.2 ⟨ko.1, hb.drop _⟩, by rw [List.length_append, ko.2, kl.2, List.length_drop]; omega⟩

/-! ### the reducer on a buffer with words above the length -/

namespace FastReducer

theorem subtractSelf_append {right : List Nat} (d : List Nat) : ∀ {left : List Nat} {n : Nat} {c : Int} {r : List Nat},
    subtractSelf left right n c = .ok r → subtractSelf (left ++ d) right n c = .ok (r ++ d) := by
  induction right with
  | nil =>
    intro left n c r h
    rw [subtractSelf] at h ⊢
    obtain ⟨l, h1, h⟩ := Res.bind_eq_ok h
    have hn : n ≤ left.length := by
      by_contra hc
      rw [slice, if_neg (by omega)] at h1
      cases h1
    rw [slice_prefix hn] at h1
    cases h1
    rw [slice_prefix (by simp; omega), Res.ok_bind, List.take_append_of_le_length hn]
    obtain ⟨⟨q, c'⟩, h2, h⟩ := Res.bind_eq_ok h
    rw [h2, Res.ok_bind]
    dsimp only at h ⊢
    cases h
    rw [List.drop_append_of_le_length hn, List.append_assoc]
  | cons y ys ih =>
    intro left n c r h
    cases left with
    | nil => rw [subtractSelf] at h; cases h
    | cons x xs =>
      rw [List.cons_append]
      rw [subtractSelf] at h ⊢
      obtain ⟨g, h1, h⟩ := Res.bind_eq_ok h
      obtain ⟨q, h2, h⟩ := Res.bind_eq_ok h
      rw [h1, Res.ok_bind, ih h2, Res.ok_bind]
      cases h
      rfl

theorem slice_append {l : List Nat} (d : List Nat) {n : Nat} {t : List Nat} (h : slice l 0 n = .ok t) : slice (l ++ d) 0 n = .ok t := by
  have hn : n ≤ l.length := by
    by_contra hc
    rw [slice, if_neg (by omega)] at h
    cases h
  rw [slice_prefix hn] at h
  rw [slice_prefix (by simp; omega), List.take_append_of_le_length hn]
  exact h

theorem actualLength_append {l : List Nat} (d : List Nat) {n k : Nat} (h : actualLength l n = .ok k) : actualLength (l ++ d) n = .ok k := by
  unfold actualLength at h ⊢
  obtain ⟨t, h1, h⟩ := Res.bind_eq_ok h
  rw [slice_append d h1]
  exact h

theorem subModLoop_append {ms : List Nat} (d : List Nat) : ∀ {f f' : Nat} {left : List Nat} {n k : Nat}, f ≤ f' →
    subModLoop ms f left n = .ok k → subModLoop ms f' (left ++ d) n = .ok k := by
  intro f
  induction f with
  | zero => intro f' left n k _ h; rw [subModLoop] at h; cases h
  | succ f ih =>
    intro f' left n k hf h
    obtain ⟨g, rfl⟩ : ∃ g, f' = g + 1 := ⟨f' - 1, by omega⟩
    rw [subModLoop] at h ⊢
    obtain ⟨t, h1, h⟩ := Res.bind_eq_ok h
    rw [slice_append d h1, Res.ok_bind]
    by_cases hc : compareWords t ms ≥ 0
    · rw [if_pos hc] at h ⊢
      obtain ⟨u, h2, h⟩ := Res.bind_eq_ok h
      obtain ⟨j, h3, h⟩ := Res.bind_eq_ok h
      rw [subtractSelf_append d h2, Res.ok_bind, actualLength_append d h3, Res.ok_bind]
      exact ih (by omega) h
    · rw [if_neg hc] at h ⊢; exact h

theorem subMod_append {left right ms : List Nat} (d : List Nat) {ll rl k n : Nat} (h : subMod left ll right rl ms k = .ok n) :
    subMod (left ++ d) ll right rl ms k = .ok n := by
  unfold subMod at h ⊢
  dsimp only at h ⊢
  obtain ⟨t, h1, h⟩ := Res.bind_eq_ok h
  obtain ⟨u, h2, h⟩ := Res.bind_eq_ok h
  obtain ⟨j, h3, h⟩ := Res.bind_eq_ok h
  rw [h1, Res.ok_bind, subtractSelf_append d h2, Res.ok_bind, actualLength_append d h3, Res.ok_bind]
  exact subModLoop_append d (by rw [val_append]; omega) h

theorem divMul_append {l right : List Nat} (d : List Nat) (rl size k : Nat) :
    divMul (l ++ d) l.length right rl size k = divMul l l.length right rl size k := by
  unfold divMul
  dsimp only
  by_cases h : l.length > k
  · rw [if_pos h, if_pos h]
    have e : ∀ r' n b N, BitsBuffer.multiplyMem ((l ++ d).drop k) (l.length - k) r' n b N
        = BitsBuffer.multiplyMem (l.drop k) (l.length - k) r' n b N := by
      intro r' n b N
      unfold BitsBuffer.multiplyMem
      rw [slice_prefix (len := l.length - k) (by simp; omega), slice_prefix (len := l.length - k) (by simp), List.drop_append_of_le_length (by omega),
        List.take_append_of_le_length (by simp)]
    have e' : ∀ r' n b N, BitsBuffer.multiplyMem r' n ((l ++ d).drop k) (l.length - k) b N
        = BitsBuffer.multiplyMem r' n (l.drop k) (l.length - k) b N := by
      intro r' n b N
      unfold BitsBuffer.multiplyMem
      rw [slice_prefix (len := l.length - k) (by simp; omega), slice_prefix (len := l.length - k) (by simp), List.drop_append_of_le_length (by omega),
        List.take_append_of_le_length (by simp)]
    rw [e, e']
  · rw [if_neg h, if_neg h]

theorem reduce_append {fr : FastReducer} {l : List Nat} (d : List Nat) {n : Nat} (h : fr.reduce l l.length = .ok n) :
    fr.reduce (l ++ d) l.length = .ok n := by
  unfold reduce at h ⊢
  by_cases hc : l.length < fr.modulus.length
  · rw [if_pos hc] at h ⊢; exact h
  · rw [if_neg hc] at h ⊢
    dsimp only at h ⊢
    rw [divMul_append]
    obtain ⟨⟨q1, l1⟩, h1, h⟩ := Res.bind_eq_ok h
    rw [h1, Res.ok_bind]
    dsimp only at h ⊢
    obtain ⟨⟨q2, l2⟩, h2, h⟩ := Res.bind_eq_ok h
    rw [h2, Res.ok_bind]
    exact subMod_append d h

/-- `Reduce` sees only the words below the length: whatever lies above, it returns the length of
the remainder. -/
theorem reduce_dirty {ms : List Nat} {fr : FastReducer} (hw : WordsOk ms) (hne : ms ≠ []) (htop : ms.getLast? ≠ some 0)
    (hfr : Ok ms fr) {b : BitsBuffer} (hb : WordsOk b.bits) (hl : b.length ≤ b.bits.length)
    (ht : (b.bits.take b.length).getLast? ≠ some 0) (h2 : b.length ≤ ms.length + ms.length)
    (hc : val ms ≠ 𝔹 ^ (ms.length - 1) ∨ val (b.bits.take b.length) < 𝔹 ^ (ms.length + ms.length - 1)) :
    ∃ n, fr.reduce b.bits b.length = .ok n ∧ WLen n (val (b.bits.take b.length) % val ms) := by
  have e : (b.bits.take b.length).length = b.length := List.length_take_of_le hl
  obtain ⟨n, h, k⟩ := reduce_spec_le hw hne htop hfr h2 (b := ⟨b.bits.take b.length, b.length⟩)
    ⟨e, hb.take _, rfl, by dsimp only; rw [trimLen_of_top ht, e]⟩ hc
  refine ⟨n, ?_, k⟩
  have := reduce_append (b.bits.drop b.length) (l := b.bits.take b.length) (by rw [e]; exact h)
  rwa [e, List.take_append_drop] at this

end FastReducer

/-! ### square and multiply -/

/-- A buffer of `2K` words whose length is at most `k`. -/
structure Loose (K k : Nat) (b : BitsBuffer) : Prop where
  words : WordsOk b.bits
  size : b.bits.length = K + K
  len : b.length ≤ k

/-- The same with a nonzero word at the top of the length. -/
structure LooseTop (K : Nat) (b : BitsBuffer) : Prop extends Loose K (K + K) b where
  top : (b.bits.take b.length).getLast? ≠ some 0

variable {K : Nat}

theorem apply_safe {self : BitsBuffer} {bits : List Nat} {tl maxLength : Nat} (hs : Loose K K self) (ht : Block (K + K) bits)
    (hm : maxLength ≤ K + K) :
    (BitsBuffer.apply self ⟨bits, tl⟩ maxLength).Safe fun p => LooseTop K p.1 ∧ Block (K + K) p.2.bits := by
  have hl := hs.len
  have hz := hs.size
  obtain ⟨t1, t2⟩ := ht
  unfold BitsBuffer.apply
  rw [slice_prefix (by omega), Res.ok_bind]
  unfold actualLength
  dsimp only
  rw [slice_prefix (by omega), Res.ok_bind, Res.ok_bind]
  obtain ⟨-, k2, k3⟩ := FastReducer.trimmed_take (l := bits) (n := maxLength) (by omega)
  refine .ok ⟨⟨⟨t1, t2, by dsimp only; omega⟩, k2⟩, wordsOk_append.2 ⟨wordsOk_replicate_zero _, hs.words.drop _⟩, ?_⟩
  simp; omega

theorem multiplySelf_safe {self value temp : BitsBuffer} (hs : Loose K K self) (hv : Loose K K value) (ht : Block (K + K) temp.bits) :
    (self.multiplySelf value temp).Safe fun p => LooseTop K p.1 ∧ Block (K + K) p.2.bits := by
  have h1 := hs.len
  have h2 := hs.size
  have h3 := hv.len
  have h4 := hv.size
  have h5 := ht.2
  unfold BitsBuffer.multiplySelf
  refine .bind (P := Block temp.bits.length) (.ite (fun hc => ?_) fun hc => ?_) fun t kt => ?_
  · exact multiplyMem_safe hv.words hs.words ht.1 (by omega) (by omega) (by omega) (by omega) (by omega)
  · exact multiplyMem_safe hs.words hv.words ht.1 (by omega) (by omega) (by omega) (by omega) rfl
  · rw [h5] at kt
    exact apply_safe hs kt (by omega)

theorem squareSelf_safe {self temp : BitsBuffer} (hs : Loose K K self) (ht : Block (K + K) temp.bits) :
    (self.squareSelf temp).Safe fun p => LooseTop K p.1 ∧ Block (K + K) p.2.bits := by
  have h1 := hs.len
  have h2 := hs.size
  have h5 := ht.2
  unfold BitsBuffer.squareSelf
  refine .bind (slice_safe hs.words (off := 0) (by omega)) fun v kv => ?_
  refine .bind (slice_safe ht.1 (off := 0) (by omega)) fun b kb => ?_
  obtain ⟨o, e, k1, k2, -⟩ := sqCore_spec self.length kv.1 kv.2 kb.2
  rw [e, Res.ok_bind]
  exact apply_safe hs ⟨wordsOk_append.2 ⟨k2, ht.1.drop _⟩, by rw [List.length_append, k1, List.length_drop]; omega⟩ (by omega)

/-- What the loops need of a reduction. -/
def GoodRed (K : Nat) (red : BitsBuffer → Res BitsBuffer) : Prop := ∀ b, LooseTop K b → (red b).Safe (Loose K K)

theorem FastReducer.WLen.le {n v k : Nat} (h : WLen n v) (hv : v < 𝔹 ^ k) : n ≤ k := by
  rcases h.2 with h0 | h1
  · omega
  · by_contra hc
    have : 𝔹 ^ k ≤ 𝔹 ^ (n - 1) := Nat.pow_le_pow_right (by decide) (by omega)
    omega

theorem reduceFast_good {ms : List Nat} {fr : FastReducer} (hw : WordsOk ms) (hne : ms ≠ []) (htop : ms.getLast? ≠ some 0)
    (hfr : fr.Ok ms) (hc : val ms ≠ 𝔹 ^ (ms.length - 1)) : GoodRed ms.length fun b => b.reduceFast fr := by
  intro b hb
  have h1 := hb.size
  have h2 := hb.len
  obtain ⟨n, e, k⟩ := FastReducer.reduce_dirty hw hne htop hfr hb.words (by omega) hb.top (by omega) (.inl hc)
  unfold BitsBuffer.reduceFast
  dsimp only
  rw [e, Res.ok_bind]
  have hm : 0 < val ms := lt_of_lt_of_le (by positivity) (val_ge_of_top hne htop)
  exact .ok ⟨hb.words, h1, FastReducer.WLen.le k (lt_trans (Nat.mod_lt _ hm) (val_lt hw))⟩

/-- The state of the loops. -/
def LooseSt (K : Nat) (st : BitsBuffer × BitsBuffer × BitsBuffer) : Prop :=
  Loose K K st.1 ∧ Loose K K st.2.1 ∧ Block (K + K) st.2.2.bits

theorem powLoop_safe {red : BitsBuffer → Res BitsBuffer} (hred : GoodRed K red) (p : Nat) : ∀ {value result temp : BitsBuffer},
    Loose K K value → Loose K K result → Block (K + K) temp.bits → (powLoop red p value result temp).Safe (Loose K K) := by
  induction p using Nat.strongRecOn with
  | ind p ih =>
  intro value result temp hv hr ht
  rw [powLoop]
  by_cases hp : p = 0
  · rw [dif_pos hp]; exact .ok hr
  rw [dif_neg hp]
  refine .bind (P := fun q : BitsBuffer × BitsBuffer => Loose K K q.1 ∧ Block (K + K) q.2.bits) (.ite (fun _ => ?_) fun _ => .ok ⟨hr, ht⟩) fun q hq => ?_
  · exact .bind (multiplySelf_safe hr hv ht) fun q hq => .bind (hred _ hq.1) fun r h => .ok ⟨h, hq.2⟩
  refine .bind (P := fun q : BitsBuffer × BitsBuffer => Loose K K q.1 ∧ Block (K + K) q.2.bits) (.ite (fun _ => ?_) fun _ => .ok ⟨hv, hq.2⟩) fun w hw => ?_
  · exact .bind (squareSelf_safe hv hq.2) fun q hq => .bind (hred _ hq.1) fun r h => .ok ⟨h, hq.2⟩
  exact ih (p / 2) (by omega) hw.1 hq.1 hw.2

theorem powBits_safe {red : BitsBuffer → Res BitsBuffer} (hred : GoodRed K red) (n : Nat) : ∀ {p : Nat} {st : BitsBuffer × BitsBuffer × BitsBuffer},
    LooseSt K st → (powBits red n p st).Safe (LooseSt K) := by
  induction n with
  | zero => intro p st h; exact .ok h
  | succ n ih =>
    rintro p ⟨value, result, temp⟩ ⟨hv, hr, ht⟩
    rw [powBits]
    refine .bind (P := fun q : BitsBuffer × BitsBuffer => Loose K K q.1 ∧ Block (K + K) q.2.bits) (.ite (fun _ => ?_) fun _ => .ok ⟨hr, ht⟩) fun q hq => ?_
    · exact .bind (multiplySelf_safe hr hv ht) fun q hq => .bind (hred _ hq.1) fun r h => .ok ⟨h, hq.2⟩
    exact .bind (squareSelf_safe hv hq.2) fun w hw => .bind (hred _ hw.1) fun r h => ih ⟨h, hq.1, hw.2⟩

theorem powWords_safe {red : BitsBuffer → Res BitsBuffer} (hred : GoodRed K red) : ∀ {ps : List Nat} {st : BitsBuffer × BitsBuffer × BitsBuffer},
    LooseSt K st → (powWords red ps st).Safe (LooseSt K) := by
  intro ps
  induction ps with
  | nil => intro st h; exact .ok h
  | cons p ps ih =>
    intro st h
    rw [powWords]
    exact .bind (powBits_safe hred 32 h) fun st' h' => ih h'

theorem loose_of_buf {b : BitsBuffer} {x : Nat} (h : Buf (K + K) b x) (hx : x < 𝔹 ^ K) : Loose K K b := ⟨h.words, h.size, h.len_le hx⟩

theorem powCoreMod_safe {ms : List Nat} {value : BitsBuffer} (hw : WordsOk ms) (hne : ms ≠ []) (htop : ms.getLast? ≠ some 0)
    (h32 : 32 ≤ ms.length) (hl : ms.length + ms.length < 2147483647) (hc : val ms ≠ 𝔹 ^ (ms.length - 1))
    (hv : Loose ms.length ms.length value) (p : Nat) : (powCoreMod p ms value).Safe (Block (ms.length + ms.length)) := by
  obtain ⟨t, e2, k2⟩ := BitsBuffer.ofWord_zero (N := ms.length + ms.length) (by omega)
  obtain ⟨r, e3, k3⟩ := BitsBuffer.ofWord_spec (N := ms.length + ms.length) (w := 1) (by omega) (by decide)
  obtain ⟨fr, e5, k5⟩ := FastReducer.make_spec hw hne htop hl
  have kr := loose_of_buf k3 (Nat.one_lt_pow (by omega) (by decide))
  unfold powCoreMod
  dsimp only
  rw [hv.size, e2, Res.ok_bind, e3, Res.ok_bind, if_neg (by unfold ReducerThreshold; omega), e5, Res.ok_bind]
  exact .bind (powLoop_safe (reduceFast_good hw hne htop k5 hc) p hv kr (by rw [k2]; exact ⟨wordsOk_replicate_zero _, by simp⟩))
    fun b hb => .ok ⟨hb.words, hb.size⟩

theorem powCoreModWords_safe {ms ps : List Nat} {value : BitsBuffer} (hw : WordsOk ms) (hne : ms ≠ []) (htop : ms.getLast? ≠ some 0)
    (h32 : 32 ≤ ms.length) (hl : ms.length + ms.length < 2147483647) (hc : val ms ≠ 𝔹 ^ (ms.length - 1)) (hp : ps ≠ [])
    (hv : Loose ms.length ms.length value) : (powCoreModWords ps ms value).Safe (Block (ms.length + ms.length)) := by
  obtain ⟨t, e2, k2⟩ := BitsBuffer.ofWord_zero (N := ms.length + ms.length) (by omega)
  obtain ⟨r, e3, k3⟩ := BitsBuffer.ofWord_spec (N := ms.length + ms.length) (w := 1) (by omega) (by decide)
  obtain ⟨fr, e5, k5⟩ := FastReducer.make_spec hw hne htop hl
  have kr := loose_of_buf k3 (Nat.one_lt_pow (by omega) (by decide))
  have hlen := List.length_pos_iff.2 hp
  have ei : idx ps (ps.length - 1) = .ok (ps[ps.length - 1]'(by omega)) := by
    unfold idx; rw [List.getElem?_eq_getElem (by omega)]
  unfold powCoreModWords
  dsimp only
  rw [hv.size, e2, Res.ok_bind, e3, Res.ok_bind, ei, Res.ok_bind, if_neg (by unfold ReducerThreshold; omega), e5, Res.ok_bind]
  have hg := reduceFast_good hw hne htop k5 hc
  exact .bind (powWords_safe hg ⟨hv, kr, by rw [k2]; exact ⟨wordsOk_replicate_zero _, by simp⟩⟩) fun st hst =>
    .bind (powLoop_safe hg _ hst.1 hst.2.1 hst.2.2) fun b hb => .ok ⟨hb.words, hb.size⟩

theorem BigInt.modPow_safe {a e m : BigInt} {x z : Int} {n : Nat} (ha : a.Denotes x) (he : e.Denotes n) (hm : m.Denotes z)
    (h32 : 32 ≤ m.bits.length) (hla : a.bits.length < 2147483648) (hlm : m.bits.length + m.bits.length < 2147483647)
    (hc : z.natAbs ≠ 𝔹 ^ (m.bits.length - 1)) :
    (a.modPow e m).Safe fun r => ∃ v : Nat, v < 𝔹 ^ (m.bits.length + m.bits.length) ∧
      r.Denotes (if x < 0 ∧ n % 2 ≠ 0 then -(v : Int) else v) := by
  have hmb : m.bits ≠ [] := by rintro h; rw [h] at h32; simp at h32
  obtain ⟨b, b1, b2, b3⟩ := modPow_large ha he hm hmb hla (by omega)
  rw [b3]
  rcases hm.shape with ⟨rfl, hz1, hz2⟩ | ⟨s, ms, rfl, hs, hne, hwm, htm, hvm, rfl⟩
  · exact absurd rfl hmb
  rw [natAbs_unit_mul hs] at hc
  dsimp only at *
  have hb := loose_of_buf b1 b2
  refine .bind (P := Block (ms.length + ms.length)) (.ite (fun _ => ?_) fun h => ?_) fun bits hbits => ?_
  · exact powCoreMod_safe hwm hne htm h32 hlm hc hb n
  · exact powCoreModWords_safe hwm hne htm h32 hlm hc h hb
  · obtain ⟨r, e1, e2⟩ := ofMagnitude_spec hbits.1 (by rw [hbits.2]; omega) (decide (x < 0) && decide (n % 2 ≠ 0))
    refine .inl ⟨r, e1, val bits, by rw [← hbits.2]; exact val_lt hbits.1, ?_⟩
    by_cases h : x < 0 ∧ n % 2 ≠ 0
    · rw [if_pos h]; simpa [h.1, h.2] using e2
    · rw [if_neg h]
      rwa [if_neg (by simpa [-Nat.mod_two_not_eq_zero] using h)] at e2

end BigIntegerCpp
