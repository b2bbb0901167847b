import Verif.MemorySpec
import Verif.Lemmas.PointerDiv
import Verif.Lemmas.FastReducer
/-
From the vocabulary of MemorySpec to the predicates of the refinement lemmas.
-/
set_option linter.unusedSectionVars false
namespace BigIntegerCpp
open Mem
variable [Cfg]

theorem word_of_load {m : Mem} {p : Ptr} {i v : Nat} : m.load p i = .ok v ↔ m.word p.blk (p.off + i) = some v := by
  unfold Mem.load Mem.word Mem.block idx
  cases h : (m.getD p.blk [])[p.off + i]? with
  | none => simp
  | some x => simp

theorem word_congr {m m' : Mem} {p : Ptr} {i : Nat} (h : m'.load p i = m.load p i) :
    m'.word p.blk (p.off + i) = m.word p.blk (p.off + i) := by
  cases e : m.word p.blk (p.off + i) with
  | some x => exact word_of_load.1 (h.trans (word_of_load.2 e))
  | none =>
    cases e' : m'.word p.blk (p.off + i) with
    | none => rfl
    | some x => exact absurd (word_of_load.1 (h.symm.trans (word_of_load.2 e'))) (by rw [e]; simp)

theorem Mem.Number.elim {m : Mem} {p : Ptr} {n v : Nat} (h : m.Number p n v) :
    ∃ ws, n = ws.length ∧ WordsOk ws ∧ v = val ws ∧ m.At p ws := by
  obtain ⟨ws, h1, h2, h3, h4⟩ := h
  exact ⟨ws, h1.symm, h2, h3.symm, at_iff.2 fun i hi => word_of_load.2 (h4 i hi)⟩

theorem Mem.Words.at {m : Mem} {p : Ptr} {ws : List Nat} (h : m.Words p ws) : m.At p ws :=
  at_iff.2 fun i hi => word_of_load.2 (h i hi)

theorem number_of_at {m : Mem} {p : Ptr} {ws : List Nat} {n v : Nat} (h : m.At p ws) (hw : WordsOk ws) (hn : ws.length = n) (hv : val ws = v) :
    m.Number p n v :=
  ⟨ws, hn, hw, hv, fun i hi => word_of_load.1 (at_iff.1 h i hi)⟩

theorem Mem.Room.inB {m : Mem} {p : Ptr} {n : Nat} (h : m.Room p n) (hn : 0 < n) : m.InB p n := by
  obtain ⟨w, hw⟩ := h (n - 1) (by omega)
  unfold Mem.word at hw
  have := (List.getElem?_eq_some_iff.1 hw).1
  unfold InB Mem.size Mem.block
  omega

theorem Mem.InB.at {m : Mem} {p : Ptr} {n : Nat} (h : m.InB p n) : ∃ ws, ws.length = n ∧ m.At p ws := by
  refine ⟨((m.block p.blk).drop p.off).take n, ?_, at_iff.2 fun i hi => ?_⟩
  · unfold InB Mem.size at h
    rw [List.length_take, List.length_drop]; omega
  · unfold Mem.load idx
    rw [List.length_take, List.length_drop] at hi
    rw [List.getElem?_eq_getElem (by omega), List.getElem_take, List.getElem_drop]

theorem Mem.Number.room {m : Mem} {p : Ptr} {n v : Nat} (h : m.Number p n v) : m.Room p n := by
  obtain ⟨ws, h1, _, _, h4⟩ := h
  exact fun i hi => ⟨_, h4 i (by omega)⟩

theorem Apart.disj {p q : Ptr} {k n : Nat} (h : Apart p k q n) (hk : 0 < k) (hn : 0 < n) : Disj p k q n := by
  unfold Disj
  by_contra hc
  by_cases hb : p.blk = q.blk
  · by_cases ho : p.off ≤ q.off
    · exact h (q.off - p.off) 0 (by omega) hn ⟨hb, by omega⟩
    · exact h 0 (p.off - q.off) hk (by omega) ⟨hb, by omega⟩
  · exact hc (.inl hb)

theorem Apart.symm {p q : Ptr} {k n : Nat} (h : Apart p k q n) : Apart q n p k :=
  fun i j hi hj e => h j i hj hi ⟨e.1.symm, e.2.symm⟩

theorem word_write {m : Mem} {p : Ptr} {ws : List Nat} {b j : Nat} (h : ¬ (b = p.blk ∧ p.off ≤ j ∧ j < p.off + ws.length)) :
    (m.write p ws).word b j = m.word b j := by
  have := word_congr (p := ⟨b, 0⟩) (i := j) (load_write_ne (m := m) (p := p) (q := ⟨b, 0⟩) (ws := ws) (j := j) (by
    unfold Disj; simp only [Ptr.plus_blk, Ptr.plus_off]; omega))
  simpa using this

theorem sameBut_write {m : Mem} {p : Ptr} {ws : List Nat} {n : Nat} (h : ws.length = n) : m.SameBut (m.write p ws) p n := by
  subst h
  exact ⟨length_write .., fun b j hb => word_write hb⟩

theorem sameBut₂_write {m : Mem} {p q : Ptr} {ws vs : List Nat} {n k : Nat} (h : ws.length = n) (h' : vs.length = k) :
    m.SameBut₂ ((m.write p ws).write q vs) p n q k := by
  subst h h'
  exact ⟨by rw [length_write, length_write], fun b j hb hb' => by rw [word_write hb', word_write hb]⟩

/-- The two facts every routine with one result range gives. -/
theorem wrote {m : Mem} {p : Ptr} {ws : List Nat} {n v : Nat} (hb : m.InB p n) (hl : ws.length = n) (hw : WordsOk ws) (hv : val ws = v) :
    (m.write p ws).Number p n v ∧ m.SameBut (m.write p ws) p n :=
  ⟨number_of_at (at_write_self (by rw [hl]; exact hb)) hw hl hv, sameBut_write hl⟩

theorem val_zero_replicate {ws : List Nat} (h : val ws = 0) : ws = List.replicate ws.length 0 := by
  induction ws with
  | nil => rfl
  | cons w ws ih =>
    unfold val digitsVal at h
    have h1 : w = 0 := by omega
    have h2 : val ws = 0 := by unfold val; omega
    rw [List.length_cons, List.replicate_succ, h1, ← ih h2]

theorem top_ne_zero {ws : List Nat} (hw : WordsOk ws) (h : 2 ^ (32 * (ws.length - 1)) ≤ val ws) : ws.getLast? ≠ some 0 := by
  intro e
  obtain ⟨ys, rfl⟩ := List.getLast?_eq_some_iff.1 e
  have h1 := val_lt (wordsOk_append.1 hw).1
  rw [val_append] at h
  simp only [List.length_append, List.length_singleton, Nat.add_sub_cancel] at h
  rw [Nat.pow_mul] at h
  norm_num [val, digitsVal] at h h1
  omega

theorem compare_nonneg {xs ys : List Nat} (hx : WordsOk xs) (hy : WordsOk ys) (hl : ys.length ≤ xs.length) (hv : val ys ≤ val xs) :
    compareWords xs ys ≥ 0 := by
  by_cases h : ys.length = xs.length
  · rw [compareWords_same_length hx hy h.symm]; split_ifs <;> omega
  · unfold compareWords
    rw [if_neg (by omega), if_pos (by omega)]; decide

/-- A whole block as a number. -/
theorem number_block {m : Mem} {b : Nat} {ws : List Nat} {n v : Nat} (h : m.getD b [] = ws) (hw : WordsOk ws) (hn : ws.length = n)
    (hv : val ws = v) : m.Number ⟨b, 0⟩ n v :=
  ⟨ws, hn, hw, hv, fun i hi => by unfold Mem.word; rw [h, Nat.zero_add, List.getElem?_eq_getElem hi]⟩

theorem wordsOk_replicate {n w : Nat} (h : w < 4294967296) : WordsOk (List.replicate n w) := by
  intro v hv; rw [List.eq_of_mem_replicate hv]; exact h

theorem apart_blocks {b c k n : Nat} (h : b ≠ c) : Apart ⟨b, 0⟩ k ⟨c, 0⟩ n := fun _ _ _ _ e => h e.1

theorem subtractLoop_length {xs ys : List Nat} {c : Int} {r : List Nat × Int} (hl : ys.length ≤ xs.length) (h : subtractLoop xs ys c = .ok r) :
    r.1.length = xs.length := by
  induction ys generalizing xs c r with
  | nil => cases xs <;> exact carryLoop_length (by simpa [subtractLoop] using h)
  | cons y ys ih =>
    cases xs with
    | nil => simp at hl
    | cons x xs =>
      rw [subtractLoop] at h
      obtain ⟨d, _, h⟩ := Res.bind_eq_ok h
      obtain ⟨a, h1, h⟩ := Res.bind_eq_ok h
      injection h with h; subst h
      simp [ih (by simpa using hl) h1]

theorem subtractPtr_length {xs ys t : List Nat} {n : Nat} (hl : ys.length ≤ xs.length) (h : subtractPtr xs ys n = .ok t) :
    t.length = xs.length := by
  unfold subtractPtr at h
  obtain ⟨_, _, h⟩ := Res.bind_eq_ok h
  obtain ⟨_, _, h⟩ := Res.bind_eq_ok h
  obtain ⟨_, _, h⟩ := Res.bind_eq_ok h
  obtain ⟨a, h1, h⟩ := Res.bind_eq_ok h
  obtain ⟨_, _, h⟩ := Res.bind_eq_ok h
  injection h with h; subst h
  exact subtractLoop_length hl h1

theorem divideCore_length {xs ys bs : List Nat} {r : List Nat × List Nat} (hl : ys.length ≤ xs.length) (h : divideCore xs ys bs = .ok r) :
    r.1.length = xs.length ∧ r.2.length = bs.length := by
  unfold divideCore at h
  obtain ⟨_, _, h⟩ := Res.bind_eq_ok h
  obtain ⟨_, _, h⟩ := Res.bind_eq_ok h
  obtain ⟨_, _, h⟩ := Res.bind_eq_ok h
  obtain ⟨_, _, h⟩ := Res.bind_eq_ok h
  obtain ⟨_, _, h⟩ := Res.bind_eq_ok h
  obtain ⟨_, _, h⟩ := Res.bind_eq_ok h
  obtain ⟨_, _, h⟩ := Res.bind_eq_ok h
  exact divideLoop_length _ _ _ (by omega) h

theorem at_block0 {xs : List Nat} {e : List (List Nat)} : At (xs :: e) ⟨0, 0⟩ xs := at_last (m := [])
theorem at_block1 {xs ys : List Nat} {e : List (List Nat)} : At (xs :: ys :: e) ⟨1, 0⟩ ys := at_last (m := [xs])
theorem at_block2 {xs ys zs : List Nat} {e : List (List Nat)} : At (xs :: ys :: zs :: e) ⟨2, 0⟩ zs := at_last (m := [xs, ys])
theorem write_block0 {xs r : List Nat} {e : List (List Nat)} (h : r.length = xs.length) : write (xs :: e) ⟨0, 0⟩ r = r :: e :=
  write_last (m := []) h
theorem write_block1 {xs ys r : List Nat} {e : List (List Nat)} (h : r.length = ys.length) :
    write (xs :: ys :: e) ⟨1, 0⟩ r = xs :: r :: e := write_last (m := [xs]) h
theorem write_block2 {xs ys zs r : List Nat} {e : List (List Nat)} (h : r.length = zs.length) :
    write (xs :: ys :: zs :: e) ⟨2, 0⟩ r = xs :: ys :: r :: e := write_last (m := [xs, ys]) h
theorem inB_block1 {xs ys : List Nat} {e : List (List Nat)} {n : Nat} (h : n ≤ ys.length) : InB (xs :: ys :: e) ⟨1, 0⟩ n :=
  inB_last (m := [xs]) h
theorem inB_block2 {xs ys zs : List Nat} {e : List (List Nat)} {n : Nat} (h : n ≤ zs.length) : InB (xs :: ys :: zs :: e) ⟨2, 0⟩ n :=
  inB_last (m := [xs, ys]) h

end BigIntegerCpp
