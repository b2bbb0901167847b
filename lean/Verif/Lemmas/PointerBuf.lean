import Verif.Model.PointerBuf
import Verif.Lemmas.PointerSpec
import Verif.Lemmas.Bytes
import Mathlib.Data.List.Induction
/-
The buffer routines in memory (Model/PointerBuf.lean) do what the ones on lists do
(Model/Pow.lean, Model/Gcd.lean), whenever the latter come to a result.
-/
set_option linter.unusedSectionVars false
namespace BigIntegerCpp
open Mem
variable [Cfg]

namespace Mem
omit [Cfg]

theorem block_write (m : Mem) (p : Ptr) (ws : List Nat) (h : p.off + ws.length ≤ (m.block p.blk).length) :
    (m.write p ws).block p.blk = (m.block p.blk).take p.off ++ ws ++ (m.block p.blk).drop (p.off + ws.length) := by
  induction ws generalizing m p with
  | nil => simp [write]
  | cons w ws ih =>
    have hb : (m.poke p w).block p.blk = (m.block p.blk).set p.off w := by rw [block_poke, if_pos rfl]
    have hl : p.off < (m.block p.blk).length := by simp at h; omega
    rw [write, show p.blk = (p.plus 1).blk from rfl, ih (m.poke p w) (p.plus 1) (by
      rw [Ptr.plus_blk, hb, Ptr.plus_off, List.length_set]; simpa [Nat.add_assoc, Nat.add_comm 1] using h)]
    rw [Ptr.plus_blk, hb, Ptr.plus_off, List.drop_set_of_lt (by omega)]
    rw [show (List.set (m.block p.blk) p.off w).take (p.off + 1) = (m.block p.blk).take p.off ++ [w] from by
      rw [List.take_succ_eq_append_getElem (by simpa using hl), List.take_set_of_le (Nat.le_refl _)]; simp]
    simp [Nat.add_assoc, Nat.add_comm 1]

theorem block_write_ne (m : Mem) (p : Ptr) (ws : List Nat) {b : Nat} (h : b ≠ p.blk) :
    (m.write p ws).block b = m.block b := by
  induction ws generalizing m p with
  | nil => rfl
  | cons w ws ih => rw [write, ih (m.poke p w) (p.plus 1) (by simpa using h), block_poke, if_neg h]

/-- A write at the start of a block. -/
theorem block_write0 {m : Mem} {b : Nat} {ws : List Nat} (h : ws.length ≤ (m.block b).length) :
    (m.write ⟨b, 0⟩ ws).block b = ws ++ (m.block b).drop ws.length := by
  rw [block_write m ⟨b, 0⟩ ws (by simpa using h)]; simp

theorem at_take (m : Mem) (b n : Nat) : m.At ⟨b, 0⟩ ((m.block b).take n) := by
  rw [at_iff]; intro i hi
  have hi' : i < (m.block b).length := by rw [List.length_take] at hi; omega
  unfold Mem.load; rw [Nat.zero_add]
  unfold BigIntegerCpp.idx; rw [List.getElem?_eq_getElem hi', List.getElem_take]

theorem at_slice (m : Mem) (b k n : Nat) : m.At ⟨b, k⟩ (((m.block b).drop k).take n) := by
  rw [at_iff]; intro i hi
  have hi' : k + i < (m.block b).length := by rw [List.length_take, List.length_drop] at hi; omega
  unfold Mem.load
  unfold BigIntegerCpp.idx; rw [List.getElem?_eq_getElem hi', List.getElem_take, List.getElem_drop]

theorem block_set (m : Mem) {b c : Nat} (xs : List Nat) (h : c < m.length) :
    block (m.set c xs) b = if b = c then xs else m.block b := by
  unfold block
  by_cases hb : b = c
  · rw [if_pos hb, hb, List.getD_eq_getElem?_getD, List.getElem?_set_self h]; rfl
  · rw [if_neg hb, List.getD_eq_getElem?_getD, List.getElem?_set_ne (Ne.symm hb), List.getD_eq_getElem?_getD]

/-- Same blocks, except for the contents of those listed. -/
def Keeps (m m' : Mem) (l : List Nat) : Prop := m'.length = m.length ∧ ∀ b, b ∉ l → m'.block b = m.block b

theorem Keeps.refl (m : Mem) (l : List Nat) : m.Keeps m l := ⟨rfl, fun _ _ => rfl⟩

theorem Keeps.trans {m m' m'' : Mem} {l l' : List Nat} (h : m.Keeps m' l) (h' : m'.Keeps m'' l') : m.Keeps m'' (l ++ l') :=
  ⟨h'.1.trans h.1, fun b hb => by
    rw [List.mem_append, not_or] at hb; rw [h'.2 b hb.2, h.2 b hb.1]⟩

theorem Keeps.mono {m m' : Mem} {l l' : List Nat} (h : m.Keeps m' l) (hl : ∀ b ∈ l, b ∈ l') : m.Keeps m' l' :=
  ⟨h.1, fun b hb => h.2 b fun hb' => hb (hl b hb')⟩

theorem Keeps.trans' {m m' m'' : Mem} {l : List Nat} (h : m.Keeps m' l) (h' : m'.Keeps m'' l) : m.Keeps m'' l :=
  (h.trans h').mono fun b hb => by simpa using hb

theorem keeps_write (m : Mem) (p : Ptr) (ws : List Nat) : m.Keeps (m.write p ws) [p.blk] :=
  ⟨length_write m p ws, fun b hb => block_write_ne m p ws (by simpa using hb)⟩

theorem ext_block {m m' : Mem} (hl : m'.length = m.length) (h : ∀ b, m'.block b = m.block b) : m' = m := by
  refine List.ext_getElem hl fun i h1 h2 => ?_
  have := h i
  unfold block at this
  rwa [List.getD_eq_getElem?_getD, List.getD_eq_getElem?_getD, List.getElem?_eq_getElem h1, List.getElem?_eq_getElem h2] at this

theorem block_release {m : Mem} {n b : Nat} (h : b < n) : (m.release n).block b = m.block b := by
  unfold release block
  rw [List.getD_eq_getElem?_getD, List.getD_eq_getElem?_getD, List.getElem?_take_of_lt h]

theorem length_release {m : Mem} {n : Nat} (h : n ≤ m.length) : (m.release n).length = n := by
  unfold release; rw [List.length_take]; omega

/-- Blocks added since only: what is left at the end of the scope. -/
theorem Keeps.release {m m' : Mem} {e : List (List Nat)} {l : List Nat} (h : Keeps (m ++ e) m' l) :
    m.Keeps (m'.release m.length) l := by
  have h1 := h.1
  rw [List.length_append] at h1
  refine ⟨length_release (by omega), fun b hb => ?_⟩
  by_cases hm : b < m.length
  · rw [block_release hm, h.2 b hb, block_append_left hm]
  · unfold Mem.release block
    rw [List.getD_eq_getElem?_getD, List.getD_eq_getElem?_getD, List.getElem?_eq_none (by rw [List.length_take]; omega),
      List.getElem?_eq_none (by omega)]

end Mem

theorem forLoop_write {p : Ptr} {ws : List Nat} {m : Mem} {body : Nat → Mem → Res Mem}
    (hb : ∀ i, i < ws.length → body i (m.write p (ws.take i)) = .ok (m.write p (ws.take (i + 1)))) :
    forLoop ws.length body 0 m = .ok (ws.length, m.write p ws) := by
  have key : ∀ k i, ws.length - i = k → i ≤ ws.length →
      forLoop ws.length body i (m.write p (ws.take i)) = .ok (ws.length, m.write p ws) := by
    intro k
    induction k with
    | zero => intro i h1 h2; rw [forLoop_ge _ _ (by omega), show i = ws.length by omega, List.take_length]
    | succ k ih =>
      intro i h1 h2
      rw [forLoop_lt _ _ (by omega), hb i (by omega), Res.ok_bind, ih (i + 1) (by omega) (by omega)]
  have := key ws.length 0 (by omega) (by omega)
  rwa [List.take_zero] at this

omit [Cfg] in
theorem store_take {m : Mem} {p : Ptr} {ws : List Nat} {i : Nat} (h : m.InB p ws.length) (hi : i < ws.length) :
    (m.write p (ws.take i)).store p i ws[i] = .ok (m.write p (ws.take (i + 1))) := by
  rw [store_ok (by rw [InB_write]; exact h.mono (by omega)), List.take_succ_eq_append_getElem hi, write_append, List.length_take,
    Nat.min_eq_left (by omega)]
  rfl

theorem fillMem_eq {p : Ptr} {n : Nat} {m : Mem} (v : Nat) (h : m.InB p n) :
    fillMem p n v m = .ok (m.write p (List.replicate n v)) := by
  unfold fillMem
  have := forLoop_write (p := p) (ws := List.replicate n v) (m := m) (body := fun i m => m.store p i v) fun i hi => by
    have := store_take (m := m) (p := p) (ws := List.replicate n v) (i := i) (by simpa using h) hi
    rwa [List.getElem_replicate] at this
  rw [List.length_replicate] at this
  rw [this]; rfl

theorem copyMem_eq {src dst : Ptr} {m : Mem} {ws : List Nat} (hs : m.At src ws) (h : m.InB dst ws.length)
    (hd : Disj dst ws.length src ws.length) :
    copyMem src ws.length dst m = .ok (m.write dst ws) := by
  unfold copyMem
  rw [forLoop_write (p := dst) (ws := ws) (m := m)]
  · rfl
  intro i hi
  rw [(at_write (ws := ws.take i) (hd.mono (by simp) (Nat.le_refl _)) hs).load hi, Res.ok_bind]
  exact store_take h hi

theorem actualLengthMem_eq {p : Ptr} {m : Mem} {xs : List Nat} (h : m.At p xs) :
    actualLengthMem p xs.length m = .ok (trimLen xs) := by
  induction xs using List.reverseRecOn with
  | nil => rfl
  | append_singleton xs x ih =>
    have h1 := (at_append.1 h).1
    have h2 := h.load (i := xs.length) (by simp)
    rw [List.length_append, List.length_singleton, actualLengthMem, h2, Res.ok_bind]
    simp only [List.getElem_concat_length]
    by_cases hx : x = 0
    · rw [if_pos hx, ih h1, hx, trimLen_concat_zero]
    · rw [if_neg hx, trimLen_concat _ hx]

/-- `actual_length` of the first words of a block. -/
theorem actualLengthMem_block {m : Mem} {b n k : Nat} (h : actualLength (m.block b) n = .ok k) :
    actualLengthMem ⟨b, 0⟩ n m = .ok k := by
  obtain ⟨v, h1, h2⟩ := Res.bind_eq_ok h
  unfold slice at h1
  by_cases hn : 0 + n ≤ (m.block b).length
  · rw [if_pos hn] at h1
    cases h1; cases h2
    have := actualLengthMem_eq (at_take m b n)
    rwa [List.length_take, Nat.min_eq_left (by omega)] at this
  · rw [if_neg hn] at h1; cases h1

omit [Cfg] in
theorem slice_inv {α : Type} {a r : List α} {n : Nat} (h : slice a 0 n = .ok r) : n ≤ a.length ∧ r = a.take n := by
  unfold slice at h
  by_cases hn : 0 + n ≤ a.length
  · rw [if_pos hn] at h; cases h; exact ⟨by omega, rfl⟩
  · rw [if_neg hn] at h; cases h

/-- `b` does what `a` does, unless `a` is an access out of bounds: the same exception, failed
assert, other undefined behaviour or endless loop, or results related by `P`. -/
def Sim {α β : Type} (P : α → β → Prop) (a : Res α) (b : Res β) : Prop :=
  match a with
  | .ok x => ∃ y, b = .ok y ∧ P x y
  | .throw e => b = .throw e
  | .abort => b = .abort
  | .ub u => u = .outOfBounds ∨ b = .ub u
  | .diverge => b = .diverge

section
omit [Cfg]
variable {α β γ δ : Type}

theorem Sim.ok {P : α → β → Prop} {x : α} {y : β} (h : P x y) : Sim P (.ok x) (.ok y) := ⟨y, rfl, h⟩

theorem Sim.ok' {P : α → β → Prop} {x : α} {b : Res β} (h : ∃ y, b = .ok y ∧ P x y) : Sim P (.ok x) b := h

theorem Sim.oob {P : α → β → Prop} {b : Res β} : Sim P (.ub .outOfBounds) b := .inl rfl

theorem Sim.diverge {P : α → β → Prop} : Sim P .diverge .diverge := rfl

theorem Sim.ub {P : α → β → Prop} {u : UB} : Sim P (.ub u) (.ub u) := .inr rfl

theorem Sim.bind {P : α → β → Prop} {Q : γ → δ → Prop} {a : Res α} {b : Res β} {f : α → Res γ} {g : β → Res δ}
    (h : Sim P a b) (hf : ∀ x y, a = .ok x → P x y → Sim Q (f x) (g y)) : Sim Q (a >>= f) (b >>= g) := by
  cases a with
  | ok x => obtain ⟨y, rfl, hp⟩ := h; exact hf x y rfl hp
  | throw e => cases (show b = .throw e from h); rfl
  | abort => cases (show b = .abort from h); rfl
  | ub u => rcases h with h | h
            · exact .inl h
            · subst h; exact .inr rfl
  | diverge => cases (show b = .diverge from h); rfl

/-- A computation both sides share. -/
theorem Sim.same {Q : γ → δ → Prop} {a : Res α} {f : α → Res γ} {g : α → Res δ}
    (hf : ∀ x, a = .ok x → Sim Q (f x) (g x)) : Sim Q (a >>= f) (a >>= g) := by
  cases a with
  | ok x => exact hf x rfl
  | throw e => rfl
  | abort => rfl
  | ub u => exact .inr rfl
  | diverge => rfl

/-- The left side has an access of its own. -/
theorem Sim.left {Q : γ → δ → Prop} {a : Res α} {f : α → Res γ} {b : Res δ} (ha : a = .ub .outOfBounds ∨ ∃ x, a = .ok x)
    (hf : ∀ x, a = .ok x → Sim Q (f x) b) : Sim Q (a >>= f) b := by
  rcases ha with ha | ⟨x, ha⟩
  · rw [ha]; exact .inl rfl
  · rw [ha]; exact hf x ha

theorem Sim.mono {P Q : α → β → Prop} {a : Res α} {b : Res β} (h : Sim P a b) (hpq : ∀ x y, a = .ok x → P x y → Q x y) : Sim Q a b := by
  cases a with
  | ok x => obtain ⟨y, e, hp⟩ := h; exact ⟨y, e, hpq x y rfl hp⟩
  | throw e => exact h
  | abort => exact h
  | ub u => exact h
  | diverge => exact h

theorem Sim.ite {P : α → β → Prop} {c : Prop} [Decidable c] {a a' : Res α} {b b' : Res β} (h : c → Sim P a b) (h' : ¬c → Sim P a' b') :
    Sim P (if c then a else a') (if c then b else b') := by
  by_cases hc : c
  · rw [if_pos hc, if_pos hc]; exact h hc
  · rw [if_neg hc, if_neg hc]; exact h' hc

theorem slice_or {a : List α} {k n : Nat} : slice a k n = .ub .outOfBounds ∨ ∃ x, slice a k n = .ok x := by
  unfold slice
  by_cases h : k + n ≤ a.length
  · rw [if_pos h]; exact .inr ⟨_, rfl⟩
  · rw [if_neg h]; exact .inl rfl

/-- What it says when the left side does not run out of bounds. -/
theorem Sim.eq {β : Type} {P : α → β → Prop} {a : Res α} {b : Res β} (h : Sim P a b) (ha : a ≠ .ub .outOfBounds) {f : α → β}
    (hf : ∀ x y, a = .ok x → P x y → y = f x) : b = (a >>= fun x => .ok (f x)) := by
  cases a with
  | ok x => obtain ⟨y, rfl, hp⟩ := h; rw [hf x y rfl hp]; rfl
  | throw e => exact h
  | abort => exact h
  | ub u => rcases h with h | h
            · exact absurd (by rw [h]) ha
            · exact h
  | diverge => exact h
end

/-- The memory holds the buffer `B` at `b`. -/
structure Holds (m : Mem) (b : MBuf) (B : BitsBuffer) : Prop where
  lt : b.blk < m.length
  bits : m.block b.blk = B.bits
  len : b.length = B.length

namespace Holds

theorem keep {m m' : Mem} {b : MBuf} {B : BitsBuffer} {l : List Nat} (h : Holds m b B) (hk : m.Keeps m' l) (hb : b.blk ∉ l) :
    Holds m' b B := ⟨by rw [hk.1]; exact h.lt, by rw [hk.2 _ hb, h.bits], h.len⟩

theorem append {m : Mem} {b : MBuf} {B : BitsBuffer} (h : Holds m b B) (e : List (List Nat)) : Holds (m ++ e) b B :=
  ⟨by rw [List.length_append]; have := h.lt; omega, by rw [block_append_left h.lt, h.bits], h.len⟩

theorem at' {m : Mem} {b : MBuf} {B : BitsBuffer} (h : Holds m b B) (n : Nat) : m.At b.data (B.bits.take n) := by
  rw [← h.bits]; exact at_take m b.blk n

theorem inB {m : Mem} {b : MBuf} {B : BitsBuffer} (h : Holds m b B) {n : Nat} (hn : n ≤ B.bits.length) : m.InB b.data n := by
  unfold InB Mem.size MBuf.data; simp only; rw [h.bits]; omega

/-- A write at the start of the buffer. -/
theorem write {m : Mem} {b : MBuf} {B : BitsBuffer} (h : Holds m b B) {t : List Nat} (hn : t.length ≤ B.bits.length) (k : Nat) :
    Holds (m.write b.data t) ⟨b.blk, k⟩ ⟨t ++ B.bits.drop t.length, k⟩ :=
  ⟨by rw [Mem.length_write]; exact h.lt, by
    simp only [MBuf.data]; rw [block_write0 (by rw [h.bits]; exact hn), h.bits], rfl⟩

end Holds

theorem apply_mem {self temp : MBuf} {S T S' T' : BitsBuffer} {m : Mem} {n : Nat} (hs : Holds m self S) (ht : Holds m temp T)
    (hne : self.blk ≠ temp.blk) (h : S.apply T n = .ok (S', T')) :
    ∃ m', self.apply temp n m = .ok (⟨self.blk, S'.length⟩, m') ∧ Holds m' ⟨self.blk, S'.length⟩ S' ∧ Holds m' temp T' ∧
      m.Keeps m' [self.blk, temp.blk] := by
  unfold BitsBuffer.apply at h
  obtain ⟨_, h1, h⟩ := Res.bind_eq_ok h
  obtain ⟨len, h2, h⟩ := Res.bind_eq_ok h
  cases h
  obtain ⟨h1, -⟩ := slice_inv h1
  have hin := hs.inB h1
  generalize hm1 : m.write self.data (List.replicate S.length 0) = m1
  have hl1 : m1.length = m.length := by rw [← hm1, length_write]
  have hb1 : m1.block self.blk = List.replicate S.length 0 ++ S.bits.drop S.length := by
    rw [← hm1, MBuf.data, block_write0 (by rw [hs.bits]; simpa using h1), hs.bits]; simp
  have hk1 : ∀ b, b ≠ self.blk → m1.block b = m.block b := fun b hb => by rw [← hm1, block_write_ne _ _ _ hb]
  have ht1 : m1.block temp.blk = T.bits := by rw [hk1 _ hne.symm, ht.bits]
  have l1 := hs.lt
  have l2 := ht.lt
  generalize hm3 : ((m1 ++ [m1.block temp.blk]).assign temp.blk self.blk).assign self.blk m1.length = m3
  have hl3 : m3.length = m.length + 1 := by rw [← hm3]; unfold Mem.assign; simp [hl1]
  have hb3 : ∀ b, b < m.length → m3.block b = if b = self.blk then T.bits else if b = temp.blk then List.replicate S.length 0 ++ S.bits.drop S.length else m.block b := by
    intro b hb
    rw [← hm3]
    unfold Mem.assign
    rw [block_set _ _ (by simp; omega)]
    by_cases e1 : b = self.blk
    · rw [if_pos e1, if_pos e1, block_set _ _ (by simp; omega), if_neg (by omega), block_last, ht1]
    · rw [if_neg e1, if_neg e1, block_set _ _ (by simp; omega)]
      by_cases e2 : b = temp.blk
      · rw [if_pos e2, if_pos e2, block_append_left (by omega), hb1]
      · rw [if_neg e2, if_neg e2, block_append_left (by omega), hk1 _ e1]
  have hal : actualLengthMem self.data n m3 = .ok len := by
    refine actualLengthMem_block ?_
    rw [hb3 _ l1, if_pos rfl]; exact h2
  refine ⟨m3.release m.length, ?_, ⟨?_, ?_, rfl⟩, ⟨?_, ?_, ht.len⟩, ?_, ?_⟩
  · unfold MBuf.apply
    rw [hs.len, fillMem_eq 0 hin, Res.ok_bind, hm1]
    simp only [Mem.alloc]
    rw [hm3, hal, Res.ok_bind, hl1]
  · rw [length_release (by omega)]; exact l1
  · rw [block_release l1, hb3 _ l1, if_pos rfl]
  · rw [length_release (by omega)]; exact l2
  · rw [block_release l2, hb3 _ l2, if_neg hne.symm, if_pos rfl]
  · rw [length_release (by omega)]
  · intro b hb
    simp only [List.mem_cons, List.not_mem_nil, or_false, not_or] at hb
    by_cases hbl : b < m.length
    · rw [block_release hbl, hb3 _ hbl, if_neg hb.1, if_neg hb.2]
    · unfold Mem.release block
      rw [List.getD_eq_getElem?_getD, List.getD_eq_getElem?_getD, List.getElem?_eq_none (by rw [List.length_take]; omega),
        List.getElem?_eq_none (by omega)]

/-- The buffer `self` becomes `p.1`, `temp` becomes `p.2`, no other block changes, the sizes are
exchanged. -/
def Stepped (m : Mem) (self temp : MBuf) (s t : Nat) (p : BitsBuffer × BitsBuffer) (q : MBuf × Mem) : Prop :=
  q.1.blk = self.blk ∧ Holds q.2 q.1 p.1 ∧ Holds q.2 temp p.2 ∧ m.Keeps q.2 [self.blk, temp.blk] ∧
    p.1.bits.length = t ∧ p.2.bits.length = s

theorem apply_sim {self temp : MBuf} {S T : BitsBuffer} {m : Mem} {n : Nat} (hs : Holds m self S) (ht : Holds m temp T)
    (hne : self.blk ≠ temp.blk) :
    Sim (Stepped m self temp S.bits.length T.bits.length) (S.apply T n) (self.apply temp n m) := by
  have hor : S.apply T n = .ub .outOfBounds ∨ ∃ p, S.apply T n = .ok p ∧ p.1.bits.length = T.bits.length ∧ p.2.bits.length = S.bits.length := by
    unfold BitsBuffer.apply actualLength
    rcases slice_or (a := S.bits) (k := 0) (n := S.length) with h | ⟨x, h⟩
    · rw [h]; exact .inl rfl
    · have := (slice_inv h).1
      rw [h]
      rcases slice_or (a := T.bits) (k := 0) (n := n) with h' | ⟨x', h'⟩
      · rw [h']; exact .inl rfl
      · rw [h']; exact .inr ⟨_, rfl, rfl, by simp; omega⟩
  rcases hor with h | ⟨⟨S', T'⟩, h, hl⟩
  · rw [h]; exact Sim.oob
  · rw [h]
    obtain ⟨m', e, h1, h2, h3⟩ := apply_mem hs ht hne h
    exact ⟨_, e, rfl, h1, h2, h3, hl⟩

/-- `multiply` with operands and result in three different blocks. -/
theorem mulMem_bufs {l r t : Ptr} {L R T : List Nat} {n k : Nat} {m : Mem} (hl : m.At l (L.take n)) (hr : m.At r (R.take k))
    (ht : m.block t.blk = T) (ht0 : t.off = 0) (hlt : t.blk ≠ l.blk) (hrt : t.blk ≠ r.blk) (hle : k ≤ n) :
    Sim (fun u m' => m'.block t.blk = u ∧ u.length = T.length ∧ m.Keeps m' [t.blk]) (BitsBuffer.multiplyMem L n R k T (n + k))
      (mulMem l n r k t (n + k) m) := by
  unfold BitsBuffer.multiplyMem
  refine Sim.left slice_or fun xs h1 => Sim.left slice_or fun ys h2 => Sim.left slice_or fun bs h3 => ?_
  obtain ⟨n1, rfl⟩ := slice_inv h1
  obtain ⟨n2, rfl⟩ := slice_inv h2
  obtain ⟨n3, rfl⟩ := slice_inv h3
  have e1 : (L.take n).length = n := by rw [List.length_take]; omega
  have e2 : (R.take k).length = k := by rw [List.length_take]; omega
  have e3 : (T.take (n + k)).length = n + k := by rw [List.length_take]; omega
  obtain ⟨tb, tf⟩ := t
  simp only at ht ht0 hlt hrt
  subst ht0
  have ha : m.At ⟨tb, 0⟩ (T.take (n + k)) := by rw [← ht]; exact at_take m tb _
  rw [mulMem_eq k rfl e1.symm e2.symm e3.symm (by rw [e1, e2]; exact hle) (by rw [e1, e2, e3]) ha hl hr (.inl hlt) (.inl hrt)]
  refine Sim.same fun v h4 => ?_
  have hv := mulCore_length _ rfl e2.symm (by rw [e1, e2]; exact hle) (by rw [e1, e2, e3]) h4
  rw [e3] at hv
  refine Sim.ok ⟨?_, ?_, keeps_write m ⟨tb, 0⟩ v⟩
  · rw [block_write0 (by rw [ht]; omega), ht, hv]
  · rw [List.length_append, List.length_drop]; omega

theorem multiplySelf_sim {self value temp : MBuf} {S V T : BitsBuffer} {m : Mem} (hs : Holds m self S) (hv : Holds m value V)
    (ht : Holds m temp T) (hst : self.blk ≠ temp.blk) (hvt : value.blk ≠ temp.blk) :
    Sim (Stepped m self temp S.bits.length T.bits.length) (S.multiplySelf V T) (self.multiplySelf value temp m) := by
  unfold BitsBuffer.multiplySelf MBuf.multiplySelf
  rw [hs.len, hv.len]
  refine Sim.bind (P := fun u m' => m'.block temp.blk = u ∧ u.length = T.bits.length ∧ m.Keeps m' [temp.blk]) ?_ fun t m1 _ h1 => ?_
  · refine Sim.ite (fun hc => ?_) fun hc => ?_
    · rw [Nat.add_comm]
      exact mulMem_bufs (t := temp.data) (hv.at' _) (hs.at' _) ht.bits rfl hvt.symm hst.symm (by omega)
    · exact mulMem_bufs (t := temp.data) (hs.at' _) (hv.at' _) ht.bits rfl hst.symm hvt.symm (by omega)
  · obtain ⟨hb, hbl, k1⟩ := h1
    have t1 : Holds m1 temp ⟨t, T.length⟩ := ⟨by rw [k1.1]; exact ht.lt, hb, ht.len⟩
    refine (apply_sim (hs.keep k1 (by simpa using hst)) t1 hst).mono fun p q _ h => ?_
    exact ⟨h.1, h.2.1, h.2.2.1, (k1.trans h.2.2.2.1).mono (by simp), h.2.2.2.2.1.trans hbl, h.2.2.2.2.2⟩

theorem squareSelf_sim {self temp : MBuf} {S T : BitsBuffer} {m : Mem} (hs : Holds m self S)
    (ht : Holds m temp T) (hst : self.blk ≠ temp.blk) :
    Sim (Stepped m self temp S.bits.length T.bits.length) (S.squareSelf T) (self.squareSelf temp m) := by
  unfold BitsBuffer.squareSelf MBuf.squareSelf
  refine Sim.left slice_or fun xs h1 => Sim.left slice_or fun bs h2 => ?_
  obtain ⟨n1, rfl⟩ := slice_inv h1
  obtain ⟨n2, rfl⟩ := slice_inv h2
  have e1 : (S.bits.take S.length).length = S.length := by rw [List.length_take]; omega
  have e2 : (T.bits.take (S.length + S.length)).length = S.length + S.length := by rw [List.length_take]; omega
  rw [hs.len, sqMem_eq S.length rfl e1.symm e2.symm (by rw [e1, e2]) (ht.at' _) (hs.at' _) (.inl hst.symm), Res.bind_assoc]
  refine Sim.same fun v h3 => ?_
  have hv := sqCore_length _ rfl e1.symm (by rw [e1, e2]) h3
  rw [e2] at hv
  have t1 : Holds (m.write temp.data v) temp ⟨v ++ T.bits.drop (S.length + S.length), T.length⟩ := by
    have := ht.write (t := v) (by omega) T.length
    rw [hv] at this
    exact ⟨this.1, this.2, ht.len⟩
  have k1 := keeps_write m temp.data v
  rw [Res.ok_bind]
  refine (apply_sim (hs.keep k1 (by simpa [MBuf.data] using hst)) t1 hst).mono fun p q _ h => ?_
  exact ⟨h.1, h.2.1, h.2.2.1, (k1.trans h.2.2.2.1).mono (by simp [MBuf.data]), h.2.2.2.2.1.trans (by
    rw [List.length_append, List.length_drop]; omega), h.2.2.2.2.2⟩

theorem actualLength_or {v : List Nat} {n : Nat} : actualLength v n = .ub .outOfBounds ∨ ∃ x, actualLength v n = .ok x := by
  unfold actualLength
  rcases slice_or (a := v) (k := 0) (n := n) with h' | ⟨x', h'⟩
  · rw [h']; exact .inl rfl
  · rw [h']; exact .inr ⟨_, rfl⟩

/-- `actual_length` of the first words of a block. -/
theorem actualLength_sim {m : Mem} {p : Ptr} {v : List Nat} {n : Nat} (hp : p.off = 0) (h : m.block p.blk = v) :
    Sim (fun x y => y = x) (actualLength v n) (actualLengthMem p n m) := by
  obtain ⟨b, o⟩ := p
  simp only at h hp
  subst hp h
  rcases actualLength_or (v := m.block b) (n := n) with h | ⟨x, h⟩
  · rw [h]; exact Sim.oob
  · rw [h]; exact ⟨x, actualLengthMem_block h, rfl⟩

/-- The buffer `self` becomes `B` of the same size, no block outside `l` changes. -/
def Became (m : Mem) (self : MBuf) (N : Nat) (l : List Nat) (B : BitsBuffer) (q : MBuf × Mem) : Prop :=
  q.1.blk = self.blk ∧ Holds q.2 q.1 B ∧ m.Keeps q.2 l ∧ B.bits.length = N

theorem reduce_sim {self : MBuf} {S : BitsBuffer} {m : Mem} {modulus : Ptr} {ms : List Nat} (hs : Holds m self S)
    (hm : m.At modulus ms) (hne : modulus.blk ≠ self.blk) (hms : 1 ≤ ms.length) :
    Sim (Became m self S.bits.length [self.blk]) (S.reduce ms) (self.reduce modulus ms.length m) := by
  unfold BitsBuffer.reduce MBuf.reduce
  rw [hs.len]
  refine Sim.ite (fun hc => ?_) fun hc => ?_
  · refine Sim.left slice_or fun xs h1 => ?_
    obtain ⟨n1, rfl⟩ := slice_inv h1
    have e1 : (S.bits.take S.length).length = S.length := by rw [List.length_take]; omega
    have hd := divideMem_eq (lhs := self.data) (rhs := modulus) (bits := nullPtr) (xs := S.bits.take S.length) (ys := ms) (bs := []) (m := m) hms
      (by rw [e1]; exact hc) (.inr rfl) (hs.at' _) hm trivial (.inl hne.symm) (.inr (.inl (by simp [nullPtr]))) (.inr (.inl (by simp [nullPtr])))
    rw [e1, List.length_nil] at hd
    rw [hd, Res.bind_assoc]
    refine Sim.same fun ⟨l, q⟩ h2 => ?_
    obtain ⟨l1, l2⟩ := divideCore_length (by rw [e1]; exact hc) h2
    have hq : q = [] := List.length_eq_zero_iff.1 (by simpa using l2)
    rw [e1] at l1
    simp only at l1
    simp only [hq, Mem.write, Res.ok_bind]
    have hw := hs.write (t := l) (by omega) S.length
    rw [l1] at hw
    refine Sim.bind (actualLength_sim rfl hw.bits) fun x y _ hxy => ?_
    subst hxy
    exact Sim.ok ⟨rfl, ⟨hw.lt, hw.bits, rfl⟩, keeps_write m self.data l, by rw [List.length_append, List.length_drop]; omega⟩
  · exact Sim.ok ⟨rfl, hs, Keeps.refl _ _, rfl⟩

/-- Every block of `m` is still there, unchanged, at its place. -/
def Mem.Grows (m m' : Mem) : Prop := m.length ≤ m'.length ∧ ∀ b, b < m.length → m'.block b = m.block b

namespace Mem
omit [Cfg]
theorem Grows.refl (m : Mem) : m.Grows m := ⟨Nat.le_refl _, fun _ _ => rfl⟩
theorem Grows.append {m m' : Mem} (h : m.Grows m') (e : List (List Nat)) : m.Grows (m' ++ e) :=
  ⟨by rw [List.length_append]; have := h.1; omega, fun b hb => by rw [block_append_left (by have := h.1; omega), h.2 b hb]⟩
theorem Grows.keeps {m m' m'' : Mem} {l : List Nat} (h : m.Grows m') (hk : m'.Keeps m'' l) (hl : ∀ b ∈ l, m.length ≤ b) : m.Grows m'' :=
  ⟨by rw [hk.1]; exact h.1, fun b hb => by rw [hk.2 b fun hbl => by have := hl b hbl; omega, h.2 b hb]⟩
theorem Grows.release {m m' : Mem} (h : m.Grows m') : m'.release m.length = m := by
  refine ext_block (length_release h.1) fun b => ?_
  by_cases hb : b < m.length
  · rw [block_release hb, h.2 b hb]
  · unfold Mem.release block
    rw [List.getD_eq_getElem?_getD, List.getD_eq_getElem?_getD, List.getElem?_eq_none (by rw [List.length_take]; omega),
      List.getElem?_eq_none (by omega)]
end Mem

/-- How a reduction step is used: `Inv` survives changes to the three buffers, and the step changes
none of the other buffers. -/
structure RedSim (v r t N : Nat) (Inv : Mem → Prop) (red : BitsBuffer → Res BitsBuffer) (redM : MBuf → Mem → Res (MBuf × Mem)) : Prop where
  stable : ∀ m m', Inv m → m.Keeps m' [v, r, t] → Inv m'
  step : ∀ m b B, Inv m → Holds m b B → b.blk = v ∨ b.blk = r → B.bits.length = N →
    Sim (fun B' (q : MBuf × Mem) => q.1.blk = b.blk ∧ Holds q.2 q.1 B' ∧ Inv q.2 ∧ q.2.length = m.length ∧
      (∀ c, c = v ∨ c = r ∨ c = t → c ≠ b.blk → q.2.block c = m.block c) ∧ B'.bits.length = N) (red B) (redM b m)

/-- The three buffers of the power loops, all of size `N`. -/
structure Three (m : Mem) (v r t N : Nat) (Inv : Mem → Prop) (value result temp : MBuf) (V R T : BitsBuffer) : Prop where
  bv : value.blk = v
  br : result.blk = r
  bt : temp.blk = t
  hv : Holds m value V
  hr : Holds m result R
  ht : Holds m temp T
  inv : Inv m
  sv : V.bits.length = N
  sr : R.bits.length = N
  st : T.bits.length = N

section Loop
variable {v r t N : Nat} {Inv : Mem → Prop} {red : BitsBuffer → Res BitsBuffer} {redM : MBuf → Mem → Res (MBuf × Mem)}

/-- One multiplication of `result` by `value`, and its reduction. -/
theorem mulStep_sim (hred : RedSim v r t N Inv red redM) (hvr : v ≠ r) (hvt : v ≠ t) (hrt : r ≠ t) {m : Mem} {value result temp : MBuf}
    {V R T : BitsBuffer} (h : Three m v r t N Inv value result temp V R T) :
    Sim (fun (p : BitsBuffer × BitsBuffer) (q : MBuf × Mem) => Three q.2 v r t N Inv value q.1 temp V p.1 p.2)
      (do let (r, t) ← R.multiplySelf V T; let r ← red r; .ok (r, t))
      (do let (result, m) ← result.multiplySelf value temp m; redM result m) := by
  refine Sim.bind (multiplySelf_sim h.hr h.hv h.ht (by rw [h.br, h.bt]; exact hrt) (by rw [h.bv, h.bt]; exact hvt)) fun ⟨R1, T1⟩ ⟨b1, m1⟩ _ h1 => ?_
  obtain ⟨e1, r1, t1, k1, s1, s1'⟩ := h1
  simp only at e1 r1 t1 k1 s1 s1' ⊢
  have i1 := hred.stable _ _ h.inv (k1.mono (l' := [v, r, t]) (by simp [h.br, h.bt]))
  have v1 := h.hv.keep k1 (by simp [h.br, h.bt, h.bv, hvr, hvt])
  rw [show redM b1 m1 = (redM b1 m1 >>= fun q => .ok q) from by cases redM b1 m1 <;> rfl]
  refine Sim.bind (hred.step m1 b1 R1 i1 r1 (.inr (by rw [e1, h.br])) (s1.trans h.st)) fun R2 ⟨b2, m2⟩ _ h2 => ?_
  obtain ⟨e2, r2, i2, l2, o2, s2⟩ := h2
  simp only at e2 r2 i2 l2 o2 s2
  refine Sim.ok ⟨h.bv, by rw [e2, e1, h.br], h.bt, ⟨by rw [l2]; exact v1.lt, ?_, v1.len⟩, r2, ⟨by rw [l2]; exact t1.lt, ?_, t1.len⟩, i2, h.sv, s2, s1'.trans h.sr⟩
  · rw [o2 _ (.inl h.bv) (by rw [e1, h.bv, h.br]; exact hvr), v1.bits]
  · rw [o2 _ (.inr (.inr h.bt)) (by rw [e1, h.bt, h.br]; exact hrt.symm), t1.bits]

/-- One squaring of `value`, and its reduction. -/
theorem sqStep_sim (hred : RedSim v r t N Inv red redM) (hvr : v ≠ r) (hvt : v ≠ t) (hrt : r ≠ t) {m : Mem} {value result temp : MBuf}
    {V R T : BitsBuffer} (h : Three m v r t N Inv value result temp V R T) :
    Sim (fun (p : BitsBuffer × BitsBuffer) (q : MBuf × Mem) => Three q.2 v r t N Inv q.1 result temp p.1 R p.2)
      (do let (v, t) ← V.squareSelf T; let v ← red v; .ok (v, t))
      (do let (value, m) ← value.squareSelf temp m; redM value m) := by
  refine Sim.bind (squareSelf_sim h.hv h.ht (by rw [h.bv, h.bt]; exact hvt)) fun ⟨R1, T1⟩ ⟨b1, m1⟩ _ h1 => ?_
  obtain ⟨e1, r1, t1, k1, s1, s1'⟩ := h1
  simp only at e1 r1 t1 k1 s1 s1' ⊢
  have i1 := hred.stable _ _ h.inv (k1.mono (l' := [v, r, t]) (by simp [h.bv, h.bt]))
  have v1 := h.hr.keep k1 (by simp [h.br, h.bt, h.bv, hvr.symm, hrt])
  rw [show redM b1 m1 = (redM b1 m1 >>= fun q => .ok q) from by cases redM b1 m1 <;> rfl]
  refine Sim.bind (hred.step m1 b1 R1 i1 r1 (.inl (by rw [e1, h.bv])) (s1.trans h.st)) fun R2 ⟨b2, m2⟩ _ h2 => ?_
  obtain ⟨e2, r2, i2, l2, o2, s2⟩ := h2
  simp only at e2 r2 i2 l2 o2 s2
  refine Sim.ok ⟨by rw [e2, e1, h.bv], h.br, h.bt, r2, ⟨by rw [l2]; exact v1.lt, ?_, v1.len⟩, ⟨by rw [l2]; exact t1.lt, ?_, t1.len⟩, i2, s2, h.sr, s1'.trans h.sv⟩
  · rw [o2 _ (.inr (.inl h.br)) (by rw [e1, h.bv, h.br]; exact hvr.symm), v1.bits]
  · rw [o2 _ (.inr (.inr h.bt)) (by rw [e1, h.bt, h.bv]; exact hvt.symm), t1.bits]

theorem powLoop_sim (hred : RedSim v r t N Inv red redM) (hvr : v ≠ r) (hvt : v ≠ t) (hrt : r ≠ t) (power : Nat) :
    ∀ {m : Mem} {value result temp : MBuf} {V R T : BitsBuffer}, Three m v r t N Inv value result temp V R T →
    Sim (fun B (q : MBuf × Mem) => q.1.blk = r ∧ Holds q.2 q.1 B ∧ Inv q.2) (powLoop red power V R T)
      (powLoopMem redM power value result temp m) := by
  induction power using Nat.strongRecOn with
  | _ power ih =>
  intro m value result temp V R T h
  rw [powLoop, powLoopMem]
  by_cases h0 : power = 0
  · rw [dif_pos h0, dif_pos h0]
    exact Sim.ok ⟨h.br, h.hr, h.inv⟩
  · rw [dif_neg h0, dif_neg h0]
    refine Sim.bind (P := fun (p : BitsBuffer × BitsBuffer) (q : MBuf × Mem) => Three q.2 v r t N Inv value q.1 temp V p.1 p.2)
      (Sim.ite (fun _ => mulStep_sim hred hvr hvt hrt h) fun _ => Sim.ok h) fun ⟨R1, T1⟩ ⟨b1, m1⟩ _ h1 => ?_
    refine Sim.bind (P := fun (p : BitsBuffer × BitsBuffer) (q : MBuf × Mem) => Three q.2 v r t N Inv q.1 b1 temp p.1 R1 p.2)
      (Sim.ite (fun _ => sqStep_sim hred hvr hvt hrt h1) fun _ => Sim.ok h1) fun ⟨V2, T2⟩ ⟨b2, m2⟩ _ h2 => ?_
    exact ih _ (by omega) h2

theorem powBits_sim (hred : RedSim v r t N Inv red redM) (hvr : v ≠ r) (hvt : v ≠ t) (hrt : r ≠ t) (n : Nat) :
    ∀ {p : Nat} {m : Mem} {value result temp : MBuf} {V R T : BitsBuffer}, Three m v r t N Inv value result temp V R T →
    Sim (fun (B : BitsBuffer × BitsBuffer × BitsBuffer) (q : MBuf × MBuf × Mem) => Three q.2.2 v r t N Inv q.1 q.2.1 temp B.1 B.2.1 B.2.2)
      (powBits red n p (V, R, T)) (powBitsMem redM temp n p value result m) := by
  induction n with
  | zero => intro p m value result temp V R T h; exact Sim.ok h
  | succ n ih =>
    intro p m value result temp V R T h
    rw [powBits, powBitsMem]
    refine Sim.bind (P := fun (p : BitsBuffer × BitsBuffer) (q : MBuf × Mem) => Three q.2 v r t N Inv value q.1 temp V p.1 p.2)
      (Sim.ite (fun _ => mulStep_sim hred hvr hvt hrt h) fun _ => Sim.ok h) fun ⟨R1, T1⟩ ⟨b1, m1⟩ _ h1 => ?_
    have := Sim.bind (sqStep_sim hred hvr hvt hrt h1) (f := fun (q : BitsBuffer × BitsBuffer) => powBits red n (p / 2) (q.1, R1, q.2))
      (g := fun q => powBitsMem redM temp n (p / 2) q.1 b1 q.2)
      (Q := fun (B : BitsBuffer × BitsBuffer × BitsBuffer) (q : MBuf × MBuf × Mem) => Three q.2.2 v r t N Inv q.1 q.2.1 temp B.1 B.2.1 B.2.2)
      fun ⟨V2, T2⟩ ⟨b2, m2⟩ _ h2 => ih h2
    simp only [Res.bind_assoc, Res.ok_bind] at this ⊢
    exact this

theorem powWords_sim (hred : RedSim v r t N Inv red redM) (hvr : v ≠ r) (hvt : v ≠ t) (hrt : r ≠ t) (ps : List Nat) :
    ∀ {m : Mem} {value result temp : MBuf} {V R T : BitsBuffer}, Three m v r t N Inv value result temp V R T →
    Sim (fun (B : BitsBuffer × BitsBuffer × BitsBuffer) (q : MBuf × MBuf × Mem) => Three q.2.2 v r t N Inv q.1 q.2.1 temp B.1 B.2.1 B.2.2)
      (powWords red ps (V, R, T)) (powWordsMem redM temp ps value result m) := by
  induction ps with
  | nil => intro m value result temp V R T h; exact Sim.ok h
  | cons p ps ih =>
    intro m value result temp V R T h
    rw [powWords, powWordsMem]
    exact Sim.bind (powBits_sim hred hvr hvt hrt 32 h) fun ⟨V1, R1, T1⟩ ⟨b1, c1, m1⟩ _ h1 => ih h1
end Loop

/-- A new buffer at the end of the memory. -/
def Fresh (m : Mem) (B : BitsBuffer) (q : MBuf × Mem) : Prop := q = (⟨m.length, B.length⟩, m ++ [B.bits])

theorem Fresh.holds {m : Mem} {B : BitsBuffer} {q : MBuf × Mem} (h : Fresh m B q) : Holds q.2 q.1 B := by
  rw [show q = _ from h]
  exact ⟨by simp, by simp only; rw [block_last], rfl⟩

theorem ofWord_sim (size value : Nat) (m : Mem) : Sim (Fresh m) (BitsBuffer.ofWord size value) (MBuf.ofWord size value m) := by
  unfold BitsBuffer.ofWord MBuf.ofWord
  simp only [Mem.alloc]
  unfold put store
  simp only
  rw [block_last, Nat.zero_add]
  refine Sim.bind (P := fun x m' => m' = m ++ [x]) (Sim.ite (fun _ => Sim.ok ?_) fun _ => Sim.oob) fun x m' _ h => ?_
  · unfold poke
    simp only [Ptr.plus_blk, Ptr.plus_off]
    rw [block_last]
    simp
  · rw [h]
    exact Sim.ok rfl

theorem ofWords_sim {size : Nat} {value : Ptr} {xs : List Nat} {m : Mem} (h : m.At value xs) (hb : value.blk < m.length) :
    Sim (Fresh m) (BitsBuffer.ofWords size xs) (MBuf.ofWords size value xs.length m) := by
  unfold BitsBuffer.ofWords MBuf.ofWords
  refine Sim.same fun n hn => ?_
  have hn : n = xs.length := by
    unfold sizeInt at hn
    by_cases hc : xs.length < 2147483648
    · rw [if_pos hc] at hn; cases hn; rfl
    · rw [if_neg hc] at hn; cases hn
  rw [hn, actualLengthMem_eq h, Res.ok_bind]
  simp only [Mem.alloc]
  by_cases hc : trimLen xs ≤ size
  · rw [if_pos hc]
    have htl := trimLen_le xs
    have e1 : (xs.take (trimLen xs)).length = trimLen xs := by rw [List.length_take]; omega
    have := copyMem_eq (src := value) (dst := ⟨m.length, 0⟩) (m := m ++ [List.replicate size 0]) (ws := xs.take (trimLen xs))
      (at_append_mem (h.take _)) (inB_last (by rw [e1]; simpa using hc)) (.inl (by simp only; omega))
    rw [e1] at this
    rw [this, Res.ok_bind]
    refine Sim.ok ?_
    unfold Fresh
    congr 1
    refine ext_block (by rw [length_write]; simp) fun b => ?_
    by_cases hb : b = m.length
    · subst hb
      rw [block_write0 (by rw [block_last, e1]; simpa using hc), block_last, block_last, e1]; simp
    · rw [block_write_ne _ _ _ hb]
      by_cases hl : b < m.length
      · rw [block_append_left hl, block_append_left hl]
      · unfold block
        rw [List.getD_eq_getElem?_getD, List.getD_eq_getElem?_getD, List.getElem?_eq_none (by simp; omega),
          List.getElem?_eq_none (by simp; omega)]
  · rw [if_neg hc]; exact Sim.oob

end BigIntegerCpp
