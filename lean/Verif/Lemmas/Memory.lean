import Verif.Model.Memory
import Mathlib.Tactic.Common
/-
Lemmas about memory: ranges of words, writes, disjointness.
-/
set_option linter.unusedSectionVars false
set_option linter.unnecessarySeqFocus false
namespace BigIntegerCpp

@[simp] theorem Ptr.plus_blk (p : Ptr) (n : Nat) : (p.plus n).blk = p.blk := rfl
@[simp] theorem Ptr.plus_off (p : Ptr) (n : Nat) : (p.plus n).off = p.off + n := rfl
@[simp] theorem Ptr.plus_zero (p : Ptr) : p.plus 0 = p := rfl
theorem Ptr.plus_plus (p : Ptr) (a b : Nat) : (p.plus a).plus b = p.plus (a + b) := by
  simp only [Ptr.plus, Nat.add_assoc]

namespace Mem

/-- Number of words of the block of a pointer. -/
def size (m : Mem) (b : Nat) : Nat := (m.block b).length

/-- `p[0..n)` lies inside its block. -/
def InB (m : Mem) (p : Ptr) (n : Nat) : Prop := p.off + n ≤ m.size p.blk

/-- The words at `p` are `xs`. -/
def At (m : Mem) : Ptr → List Nat → Prop
  | _, [] => True
  | p, x :: xs => m.load p 0 = .ok x ∧ At m (p.plus 1) xs

/-- The memory with `ws` written at `p`. -/
def write (m : Mem) : Ptr → List Nat → Mem
  | _, [] => m
  | p, w :: ws => write (m.poke p w) (p.plus 1) ws

theorem load_plus (m : Mem) (p : Ptr) (a i : Nat) : m.load (p.plus a) i = m.load p (a + i) := by
  simp only [load, Ptr.plus_blk, Ptr.plus_off, Nat.add_assoc]

theorem store_plus (m : Mem) (p : Ptr) (a i v : Nat) : m.store (p.plus a) i v = m.store p (a + i) v := by
  simp only [store, Ptr.plus_blk, Ptr.plus_off, Nat.add_assoc, Ptr.plus_plus]

@[simp] theorem length_poke (m : Mem) (p : Ptr) (v : Nat) : (m.poke p v).length = m.length := by
  simp [poke]

theorem block_poke (m : Mem) (p : Ptr) (v b : Nat) :
    (m.poke p v).block b = if b = p.blk then (m.block b).set p.off v else m.block b := by
  unfold poke block
  by_cases h : b = p.blk
  · subst h
    rw [if_pos rfl, List.getD_eq_getElem?_getD, List.getElem?_set_self']
    rw [List.getD_eq_getElem?_getD]
    cases m[p.blk]? <;> simp
  · rw [if_neg h, List.getD_eq_getElem?_getD, List.getElem?_set_ne (Ne.symm h), List.getD_eq_getElem?_getD]

@[simp] theorem size_poke (m : Mem) (p : Ptr) (v b : Nat) : (m.poke p v).size b = m.size b := by
  unfold size; rw [block_poke]; split <;> simp

theorem load_poke_ne {m : Mem} {p q : Ptr} {v j : Nat} (h : q.blk ≠ p.blk ∨ q.off + j ≠ p.off) :
    (m.poke p v).load q j = m.load q j := by
  unfold load idx
  rw [block_poke]
  by_cases hb : q.blk = p.blk
  · rw [if_pos hb, List.getElem?_set_ne]
    rcases h with h | h
    · exact absurd hb h
    · exact Ne.symm h
  · rw [if_neg hb]

theorem load_poke_self {m : Mem} {p : Ptr} {v : Nat} (h : m.InB p 1) : (m.poke p v).load p 0 = .ok v := by
  unfold InB size at h
  unfold load idx
  rw [block_poke, if_pos rfl, Nat.add_zero, List.getElem?_set_self (by omega)]

theorem poke_poke (m : Mem) (p : Ptr) (v w : Nat) : (m.poke p v).poke p w = m.poke p w := by
  have h : (m.poke p v).block p.blk = (m.block p.blk).set p.off v := by rw [block_poke, if_pos rfl]
  unfold poke at h ⊢
  rw [h, List.set_set, List.set_set]

theorem poke_comm {m : Mem} {p q : Ptr} {v w : Nat} (h : q.blk ≠ p.blk ∨ q.off ≠ p.off) :
    (m.poke p v).poke q w = (m.poke q w).poke p v := by
  have h1 := block_poke m p v q.blk
  have h2 := block_poke m q w p.blk
  unfold poke at h1 h2 ⊢
  rw [h1, h2]
  by_cases hb : q.blk = p.blk
  · rw [if_pos hb, if_pos hb.symm, hb, List.set_set, List.set_set, List.set_comm]
    rcases h with h | h
    · exact absurd hb h
    · exact Ne.symm h
  · rw [if_neg hb, if_neg (Ne.symm hb), List.set_comm _ _ (Ne.symm hb)]

theorem poke_self {m : Mem} {p : Ptr} {v : Nat} (h : m.load p 0 = .ok v) : m.poke p v = m := by
  unfold load idx at h
  unfold poke
  cases h1 : (m.block p.blk)[p.off + 0]? with
  | none => rw [h1] at h; cases h
  | some x =>
    rw [h1] at h
    injection h with h
    subst h
    rw [Nat.add_zero] at h1
    obtain ⟨hl, hx⟩ := List.getElem?_eq_some_iff.mp h1
    have h2 : (m.block p.blk).set p.off x = m.block p.blk := by rw [← hx]; exact List.set_getElem_self hl
    rw [h2]
    unfold block at hl ⊢
    by_cases hb : p.blk < m.length
    · rw [List.getD_eq_getElem?_getD, List.getElem?_eq_getElem hb]; exact List.set_getElem_self hb
    · exact List.set_eq_of_length_le (by omega)

theorem store_ok {m : Mem} {p : Ptr} {i v : Nat} (h : m.InB p (i + 1)) :
    m.store p i v = .ok (m.poke (p.plus i) v) := by
  unfold InB size at h
  unfold store
  rw [if_pos (by omega)]

theorem InB.mono {m : Mem} {p : Ptr} {n k : Nat} (h : m.InB p n) (hk : k ≤ n) : m.InB p k := by
  unfold InB at *; omega

theorem InB.plus {m : Mem} {p : Ptr} {n a k : Nat} (h : m.InB p n) (hk : a + k ≤ n) : m.InB (p.plus a) k := by
  unfold InB at *; simp only [Ptr.plus_blk, Ptr.plus_off]; omega

@[simp] theorem InB_poke {m : Mem} {p q : Ptr} {v n : Nat} : (m.poke p v).InB q n ↔ m.InB q n := by
  unfold InB; rw [size_poke]

@[simp] theorem length_write (m : Mem) (p : Ptr) (ws : List Nat) : (m.write p ws).length = m.length := by
  induction ws generalizing m p with
  | nil => rfl
  | cons w ws ih => rw [write, ih, length_poke]

@[simp] theorem size_write (m : Mem) (p : Ptr) (ws : List Nat) (b : Nat) : (m.write p ws).size b = m.size b := by
  induction ws generalizing m p with
  | nil => rfl
  | cons w ws ih => rw [write, ih, size_poke]

@[simp] theorem InB_write {m : Mem} {p q : Ptr} {ws : List Nat} {n : Nat} : (m.write p ws).InB q n ↔ m.InB q n := by
  unfold InB; rw [size_write]

theorem InB.blk_lt {m : Mem} {p : Ptr} {n : Nat} (h : m.InB p n) (hn : 0 < n) : p.blk < m.length := by
  unfold InB size block at h
  by_contra hb
  rw [List.getD_eq_getElem?_getD, List.getElem?_eq_none (by omega)] at h
  simp at h; omega

/-- The ranges `p[0..k)` and `q[0..n)` have no word in common. -/
def Disj (p : Ptr) (k : Nat) (q : Ptr) (n : Nat) : Prop :=
  p.blk ≠ q.blk ∨ p.off + k ≤ q.off ∨ q.off + n ≤ p.off

theorem Disj.symm {p q : Ptr} {k n : Nat} (h : Disj p k q n) : Disj q n p k := by
  unfold Disj at *; rcases h with h | h | h
  · exact .inl (Ne.symm h)
  · exact .inr (.inr h)
  · exact .inr (.inl h)

theorem Disj.sub {p q : Ptr} {k n a b k' n' : Nat} (h : Disj p k q n) (hp : a + k' ≤ k) (hq : b + n' ≤ n) :
    Disj (p.plus a) k' (q.plus b) n' := by
  unfold Disj at *
  simp only [Ptr.plus_blk, Ptr.plus_off]
  omega

theorem Disj.right {p q : Ptr} {k n b k' n' : Nat} (h : Disj p k q n) (hp : k' ≤ k) (hq : b + n' ≤ n) :
    Disj p k' (q.plus b) n' := by
  unfold Disj at *
  simp only [Ptr.plus_blk, Ptr.plus_off]
  omega

theorem Disj.mono {p q : Ptr} {k n k' n' : Nat} (h : Disj p k q n) (hp : k' ≤ k) (hq : n' ≤ n) :
    Disj p k' q n' := by
  unfold Disj at *; omega

theorem Disj.of_blk {p q : Ptr} {k n : Nat} (h : p.blk ≠ q.blk) : Disj p k q n := .inl h

theorem Disj.plus_self (p : Ptr) {a b k n : Nat} (h : a + k ≤ b) : Disj (p.plus a) k (p.plus b) n := by
  refine .inr (.inl ?_); simp only [Ptr.plus_off]; omega

theorem At.length_le {m : Mem} {p : Ptr} {xs : List Nat} (h : m.At p xs) (hne : xs ≠ []) : m.InB p xs.length := by
  induction xs generalizing p with
  | nil => exact absurd rfl hne
  | cons x xs ih =>
    obtain ⟨h1, h2⟩ := h
    by_cases hx : xs = []
    · subst hx
      unfold load idx at h1
      cases h3 : (m.block p.blk)[p.off + 0]? with
      | none => rw [h3] at h1; cases h1
      | some y =>
        obtain ⟨hl, _⟩ := List.getElem?_eq_some_iff.mp h3
        unfold InB size; simp only [List.length_cons, List.length_nil]; omega
    · have := ih h2 hx
      unfold InB at *
      simp only [Ptr.plus_blk, Ptr.plus_off, List.length_cons] at *
      omega

theorem At.load {m : Mem} {p : Ptr} {xs : List Nat} (h : m.At p xs) {i : Nat} (hi : i < xs.length) :
    m.load p i = .ok xs[i] := by
  induction xs generalizing p i with
  | nil => exact absurd hi (by simp)
  | cons x xs ih =>
    cases i with
    | zero => exact h.1
    | succ i =>
      have := ih h.2 (i := i) (by simpa using hi)
      rw [load_plus, Nat.add_comm] at this
      simpa using this

theorem At.idx {m : Mem} {p : Ptr} {xs : List Nat} (h : m.At p xs) {i : Nat} (hi : i < xs.length) :
    m.load p i = BigIntegerCpp.idx xs i := by
  rw [h.load hi]; unfold BigIntegerCpp.idx; rw [List.getElem?_eq_getElem hi]

theorem at_iff {m : Mem} {p : Ptr} {xs : List Nat} :
    m.At p xs ↔ ∀ i (hi : i < xs.length), m.load p i = .ok xs[i] := by
  refine ⟨fun h i hi => h.load hi, fun h => ?_⟩
  induction xs generalizing p with
  | nil => trivial
  | cons x xs ih =>
    refine ⟨h 0 (by simp), ih fun i hi => ?_⟩
    rw [load_plus, Nat.add_comm]
    exact h (i + 1) (by simpa using hi)

theorem at_append {m : Mem} {p : Ptr} {xs ys : List Nat} :
    m.At p (xs ++ ys) ↔ m.At p xs ∧ m.At (p.plus xs.length) ys := by
  induction xs generalizing p with
  | nil => simp [At]
  | cons x xs ih =>
    simp only [List.cons_append, At, ih, List.length_cons, Ptr.plus_plus, and_assoc, Nat.add_comm 1]

theorem At.take {m : Mem} {p : Ptr} {xs : List Nat} (h : m.At p xs) (n : Nat) : m.At p (xs.take n) := by
  rw [← List.take_append_drop n xs, at_append] at h; exact h.1

theorem At.drop {m : Mem} {p : Ptr} {xs : List Nat} (h : m.At p xs) {n : Nat} (hn : n ≤ xs.length) :
    m.At (p.plus n) (xs.drop n) := by
  rw [← List.take_append_drop n xs, at_append, List.length_take, Nat.min_eq_left hn] at h; exact h.2

theorem At.congr {m m' : Mem} {p : Ptr} {xs : List Nat} (h : m.At p xs)
    (he : ∀ i, i < xs.length → m'.load p i = m.load p i) : m'.At p xs := by
  rw [at_iff] at *; intro i hi; rw [he i hi]; exact h i hi

theorem at_poke {m : Mem} {p q : Ptr} {v : Nat} {xs : List Nat} (h : Disj p 1 q xs.length) (ha : m.At q xs) :
    (m.poke p v).At q xs := by
  refine ha.congr fun i hi => load_poke_ne ?_
  unfold Disj at h
  rcases h with h | h | h
  · exact .inl (Ne.symm h)
  · right; omega
  · right; omega

theorem load_write_ne {m : Mem} {p q : Ptr} {ws : List Nat} {j : Nat} (h : Disj p ws.length (q.plus j) 1) :
    (m.write p ws).load q j = m.load q j := by
  induction ws generalizing m p with
  | nil => rfl
  | cons w ws ih =>
    unfold Disj at h
    simp only [Ptr.plus_blk, Ptr.plus_off, List.length_cons] at h
    rw [write, ih, load_poke_ne]
    · by_cases hb : q.blk = p.blk
      · right; omega
      · exact .inl hb
    · unfold Disj; simp only [Ptr.plus_blk, Ptr.plus_off]; omega

theorem at_write {m : Mem} {p q : Ptr} {ws xs : List Nat} (h : Disj p ws.length q xs.length) (ha : m.At q xs) :
    (m.write p ws).At q xs :=
  ha.congr fun i hi => load_write_ne (by unfold Disj at *; simp only [Ptr.plus_blk, Ptr.plus_off]; omega)

theorem at_write_self {m : Mem} {p : Ptr} {ws : List Nat} (h : m.InB p ws.length) : (m.write p ws).At p ws := by
  induction ws generalizing m p with
  | nil => trivial
  | cons w ws ih =>
    refine ⟨?_, ih (by rw [InB_poke]; exact h.plus (by simp [Nat.add_comm]))⟩
    rw [write, load_write_ne]
    · exact load_poke_self (h.mono (by simp))
    · refine .inr (.inr ?_); simp

theorem poke_write_comm {m : Mem} {p q : Ptr} {v : Nat} {ws : List Nat} (h : Disj q 1 p ws.length) :
    (m.write p ws).poke q v = (m.poke q v).write p ws := by
  induction ws generalizing m p with
  | nil => rfl
  | cons w ws ih =>
    unfold Disj at h
    simp only [List.length_cons] at h
    rw [write, write, ih, poke_comm]
    · by_cases hb : q.blk = p.blk
      · right; omega
      · exact .inl hb
    · unfold Disj; simp only [Ptr.plus_blk, Ptr.plus_off]; omega

theorem write_append (m : Mem) (p : Ptr) (xs ys : List Nat) :
    m.write p (xs ++ ys) = (m.write p xs).write (p.plus xs.length) ys := by
  induction xs generalizing m p with
  | nil => simp [write]
  | cons x xs ih =>
    simp only [List.cons_append, write, ih, List.length_cons, Ptr.plus_plus, Nat.add_comm 1]

theorem write_comm {m : Mem} {p q : Ptr} {xs ys : List Nat} (h : Disj p xs.length q ys.length) :
    (m.write p xs).write q ys = (m.write q ys).write p xs := by
  induction ys generalizing m q with
  | nil => rfl
  | cons y ys ih =>
    rw [write, write, poke_write_comm, ih]
    · unfold Disj at *; simp only [Ptr.plus_blk, Ptr.plus_off, List.length_cons] at *; omega
    · exact h.symm.mono (by simp) (Nat.le_refl _)

theorem write_write {m : Mem} {p : Ptr} {xs ys : List Nat} (h : xs.length = ys.length) :
    (m.write p xs).write p ys = m.write p ys := by
  induction xs generalizing m p ys with
  | nil => cases ys with
    | nil => rfl
    | cons => simp at h
  | cons x xs ih =>
    cases ys with
    | nil => simp at h
    | cons y ys =>
      rw [write, write, poke_write_comm, poke_poke, ih (by simpa using h), ← write]
      refine .inr (.inl ?_); simp

theorem write_self {m : Mem} {p : Ptr} {xs : List Nat} (h : m.At p xs) : m.write p xs = m := by
  induction xs generalizing p with
  | nil => rfl
  | cons x xs ih => rw [write, poke_self h.1, ih h.2]

/-! Local arrays. -/

theorem block_append_left {m : Mem} {e : List (List Nat)} {b : Nat} (h : b < m.length) : block (m ++ e) b = m.block b := by
  unfold block; rw [List.getD_eq_getElem?_getD, List.getElem?_append_left h, List.getD_eq_getElem?_getD]

theorem at_append_mem {m : Mem} {e : List (List Nat)} {p : Ptr} {xs : List Nat} (h : m.At p xs) : At (m ++ e) p xs := by
  by_cases hx : xs = []
  · subst hx; trivial
  · have hb := (h.length_le hx).blk_lt (List.length_pos_iff.mpr hx)
    refine h.congr fun i _ => ?_
    unfold Mem.load; rw [block_append_left hb]

theorem inB_append_mem {m : Mem} {e : List (List Nat)} {p : Ptr} {n : Nat} (h : m.InB p n) (hn : 0 < n) : InB (m ++ e) p n := by
  have hb := h.blk_lt hn
  unfold InB size at *; rw [block_append_left hb]; exact h

theorem poke_append_mem {m : Mem} {e : List (List Nat)} {p : Ptr} {v : Nat} (h : p.blk < m.length) :
    poke (m ++ e) p v = m.poke p v ++ e := by
  unfold poke; rw [block_append_left h, List.set_append_left _ _ h]

theorem write_append_mem {m : Mem} {e : List (List Nat)} {p : Ptr} {ws : List Nat} (h : p.blk < m.length) :
    write (m ++ e) p ws = m.write p ws ++ e := by
  induction ws generalizing m p with
  | nil => rfl
  | cons w ws ih => rw [write, write, poke_append_mem h, ih]; simpa using h

theorem block_last {m : Mem} {ws : List Nat} {e : List (List Nat)} : block (m ++ ws :: e) m.length = ws := by
  unfold block; simp [List.getD_eq_getElem?_getD]

theorem inB_last {m : Mem} {ws : List Nat} {e : List (List Nat)} {n : Nat} (h : n ≤ ws.length) : InB (m ++ ws :: e) ⟨m.length, 0⟩ n := by
  unfold InB size; rw [block_last]; simpa using h

theorem at_last {m : Mem} {ws : List Nat} {e : List (List Nat)} : At (m ++ ws :: e) ⟨m.length, 0⟩ ws := by
  rw [at_iff]; intro i hi
  unfold Mem.load; rw [block_last, Nat.zero_add]
  unfold BigIntegerCpp.idx; rw [List.getElem?_eq_getElem hi]

theorem write_last_aux {m : Mem} {pre ws rs : List Nat} {e : List (List Nat)} (h : rs.length = ws.length) :
    write (m ++ (pre ++ ws) :: e) ⟨m.length, pre.length⟩ rs = m ++ (pre ++ rs) :: e := by
  induction rs generalizing pre ws with
  | nil => cases ws with
    | nil => rfl
    | cons => simp at h
  | cons r rs ih =>
    cases ws with
    | nil => simp at h
    | cons w ws =>
      have h1 : poke (m ++ (pre ++ w :: ws) :: e) ⟨m.length, pre.length⟩ r = m ++ (pre ++ r :: ws) :: e := by
        unfold poke; rw [block_last]; simp
      rw [write, h1]
      have := ih (pre := pre ++ [r]) (ws := ws) (by simpa using h)
      simpa [Ptr.plus] using this

theorem write_last {m : Mem} {ws rs : List Nat} {e : List (List Nat)} (h : rs.length = ws.length) :
    write (m ++ ws :: e) ⟨m.length, 0⟩ rs = m ++ rs :: e :=
  write_last_aux (pre := []) h

theorem release_append {m : Mem} {e : List (List Nat)} : release (m ++ e) m.length = m := by
  unfold release; rw [List.take_left']; rfl

end Mem

/-! Loops. -/
theorem forLoop_lt {σ : Type} {n i : Nat} (body : Nat → σ → Res σ) (s : σ) (h : i < n) :
    forLoop n body i s = body i s >>= fun s => forLoop n body (i + 1) s := by
  rw [forLoop, dif_pos h]

theorem forLoop_ge {σ : Type} {n i : Nat} (body : Nat → σ → Res σ) (s : σ) (h : n ≤ i) :
    forLoop n body i s = .ok (i, s) := by
  rw [forLoop, dif_neg (by omega)]

theorem forWhile_lt {σ : Type} {cond : σ → Bool} {n i : Nat} (body : Nat → σ → Res σ) (s : σ) (hc : cond s = true) (h : i < n) :
    forWhile cond n body i s = body i s >>= fun s => forWhile cond n body (i + 1) s := by
  rw [forWhile, dif_pos ⟨hc, h⟩]

theorem forWhile_end {σ : Type} {cond : σ → Bool} {n i : Nat} (body : Nat → σ → Res σ) (s : σ) (h : ¬ (cond s = true ∧ i < n)) :
    forWhile cond n body i s = .ok (i, s) := by
  rw [forWhile, dif_neg h]

end BigIntegerCpp
