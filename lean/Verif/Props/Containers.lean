import Verif.Props.PythonDispatch
import Verif.Lemmas.Containers
/-
C79: algorithms and containers that hold objects and look at them through comparisons and the hash.
-/
set_option linter.unusedSectionVars false
namespace BigIntegerCpp
open Samples
variable [Cfg]

private theorem apply_spec (r : Rel) {a b : BigInt} {x y : Int} (ha : a.Denotes x) (hb : b.Denotes y) (fa : a.Fits) (fb : b.Fits) :
    r.apply a b = .ok (decide (r.Holds x y)) := by
  obtain ⟨h1, h2, h3, h4, h5, h6⟩ := C03_operators a b x y ha hb fa fb
  cases r
  · exact h1
  · exact h2
  · exact h3
  · exact h4
  · exact h5
  · exact h6

/-- Whatever an algorithm does with objects, as long as it looks at them only through the relational operators and the hash,
it does with the integers they stand for: one function of integers plays the part of the hash, for all algorithms and all
objects. -/
theorem C79_algorithms : ∃ H : Int → Int, (∀ z, -2147483648 ≤ H z ∧ H z < 2147483648) ∧
    ∀ {α : Type} (A : Alg α) (σ : Nat → BigInt) (ρ : Nat → Int), (∀ i, (σ i).Denotes (ρ i)) → (∀ i, (σ i).Fits) →
      A.run σ = .ok (A.onInts H ρ) := by
  refine ⟨fun z => (C02_exists z).choose.hashCode, fun z => hashCode_range (C02_exists z).choose_spec, ?_⟩
  intro α A σ ρ hd hf
  induction A with
  | done a => rfl
  | compare r i j k ih =>
    rw [Alg.run, apply_spec r (hd i) (hd j) (hf i) (hf j), Res.ok_bind, ih]
    rfl
  | hash i k ih =>
    rw [Alg.run, ih, Alg.onInts, (C02_exists (ρ i)).choose_spec.unique (hd i)]

/-- Sorting with `<` puts the objects into ascending order, loses none, and leaves equal ones in the order in which they
came. -/
theorem C79_sort (σ : Nat → BigInt) (ρ : Nat → Int) (is : List Nat) (hd : ∀ i, (σ i).Denotes (ρ i)) (hf : ∀ i, (σ i).Fits) :
    ∃ r, (sortAll is []).run σ = .ok r ∧ r.Perm is ∧ (r.map ρ).Pairwise (· ≤ ·) ∧
      ∀ z, r.filter (fun i => ρ i = z) = is.filter (fun i => ρ i = z) := by
  obtain ⟨H, -, h⟩ := C79_algorithms
  obtain ⟨h1, h2, h3⟩ := sortAll_ints H ρ is [] List.Pairwise.nil
  exact ⟨_, h _ σ ρ hd hf, h1, List.pairwise_map.2 h2, h3⟩

/-- A `std::set` holds every integer that was inserted once, in ascending order, and nothing else. -/
theorem C79_ordered_set (σ : Nat → BigInt) (ρ : Nat → Int) (is : List Nat) (hd : ∀ i, (σ i).Denotes (ρ i)) (hf : ∀ i, (σ i).Fits) :
    ∃ r, (orderedSet is []).run σ = .ok r ∧ (r.map ρ).Pairwise (· < ·) ∧ ∀ z, z ∈ r.map ρ ↔ z ∈ is.map ρ := by
  obtain ⟨H, -, h⟩ := C79_algorithms
  obtain ⟨h1, h2, h3⟩ := orderedSet_ints H ρ is [] List.Pairwise.nil
  refine ⟨_, h _ σ ρ hd hf, List.pairwise_map.2 h1, fun z => ⟨fun hz => ?_, fun hz => ?_⟩⟩
  · obtain ⟨l, hl, rfl⟩ := List.mem_map.1 hz
    exact List.mem_map_of_mem (h2 l hl)
  · obtain ⟨l, hl, rfl⟩ := List.mem_map.1 hz
    obtain ⟨l', hl', e⟩ := h3 l hl
    exact List.mem_map.2 ⟨l', hl', e⟩

/-- A hashed set holds every integer that was inserted exactly once, and nothing else; the objects are kept in the order
in which they came. -/
theorem C79_hashed_set (σ : Nat → BigInt) (ρ : Nat → Int) (is : List Nat) (hd : ∀ i, (σ i).Denotes (ρ i)) (hf : ∀ i, (σ i).Fits) :
    ∃ r, (hashedSet is []).run σ = .ok r ∧ r.Sublist is ∧ (r.map ρ).Nodup ∧ ∀ z, z ∈ r.map ρ ↔ z ∈ is.map ρ := by
  obtain ⟨H, -, h⟩ := C79_algorithms
  obtain ⟨h1, h2, h3⟩ := hashedSet_ints H ρ is [] (fun _ h => absurd h List.not_mem_nil) List.nodup_nil
  refine ⟨_, h _ σ ρ hd hf, h2, h1, fun z => ⟨fun hz => ?_, fun hz => ?_⟩⟩
  · obtain ⟨l, hl, rfl⟩ := List.mem_map.1 hz
    exact List.mem_map_of_mem (h2.subset hl)
  · obtain ⟨l, hl, rfl⟩ := List.mem_map.1 hz
    obtain ⟨l', hl', e⟩ := h3 l hl
    exact List.mem_map.2 ⟨l', hl', e⟩

/-! ### Python -/

omit [Cfg] in
private theorem toPy_meaning (r : Rel) (x y : Int) : r.toPy.meaning x y ↔ r.Holds x y := by cases r <;> exact Iff.rfl

/-- In Python the same holds of `BigInteger`s and `int`s mixed at will, for algorithms that only compare. -/
theorem C79_python {α : Type} (A : Alg α) (ho : A.OnlyCompares) (H : Int → Int) (σ : Nat → PyObject) (ρ : Nat → Int)
    (hd : ∀ i, (σ i).Stands (ρ i)) (hr : ∀ i, InRange (ρ i)) (hs : Cfg.strictShift = false) :
    A.runPy σ = .value (A.onInts H ρ) := by
  induction A with
  | done a => rfl
  | compare r i j k ih =>
    rw [Alg.runPy, C77_compare r.toPy _ _ _ _ (hd i) (hd j) (hr i) (hr j) hs]
    show (k (decide (r.toPy.meaning (ρ i) (ρ j)))).runPy σ = _
    rw [ih _ (ho _), Alg.onInts, decide_eq_decide.2 (toPy_meaning r (ρ i) (ρ j))]
  | hash i k ih => exact ho.elim

/-- In Python, for all algorithms, if only `BigInteger`s occur. -/
theorem C79_python_big (hs : Cfg.strictShift = false) : ∃ H : Int → Int, ∀ {α : Type} (A : Alg α) (σ : Nat → BigInt) (ρ : Nat → Int),
    (∀ i, (σ i).Denotes (ρ i)) → (∀ i, InRange (ρ i)) → A.runPy (fun i => .big (σ i)) = .value (A.onInts H ρ) := by
  refine ⟨fun z => (pyObjectHash (.big (C02_exists z).choose)).getD 0, ?_⟩
  intro α A σ ρ hd hr
  induction A with
  | done a => rfl
  | compare r i j k ih =>
    rw [Alg.runPy, C77_compare r.toPy _ _ _ _ (show (PyObject.big (σ i)).Stands (ρ i) from hd i)
      (show (PyObject.big (σ j)).Stands (ρ j) from hd j) (hr i) (hr j) hs]
    show (k (decide (r.toPy.meaning (ρ i) (ρ j)))).runPy _ = _
    rw [ih, Alg.onInts, decide_eq_decide.2 (toPy_meaning r (ρ i) (ρ j))]
  | hash i k ih =>
    rw [Alg.onInts, (C02_exists (ρ i)).choose_spec.unique (hd i)]
    exact ih _

omit [Cfg] in
private theorem bind_only {α β : Type} {A : Alg α} {f : α → Alg β} (ha : A.OnlyCompares) (hf : ∀ a, (f a).OnlyCompares) :
    (A.bind f).OnlyCompares := by
  induction A with
  | done a => exact hf a
  | compare r i j k ih => exact fun b => ih b (ha b)
  | hash i k ih => exact ha.elim

omit [Cfg] in
private theorem insertSorted_only (i : Nat) (js : List Nat) : (insertSorted i js).OnlyCompares := by
  induction js with
  | nil => trivial
  | cons j js ih =>
    intro b
    cases b
    · exact bind_only ih fun _ => trivial
    · trivial

omit [Cfg] in
private theorem sortAll_only (is acc : List Nat) : (sortAll is acc).OnlyCompares := by
  induction is generalizing acc with
  | nil => trivial
  | cons i is ih => exact bind_only (insertSorted_only i acc) ih

/-- `sorted` of a list of `BigInteger`s and `int`s: ascending, nothing lost, equal ones in their order. -/
theorem C79_python_sorted (σ : Nat → PyObject) (ρ : Nat → Int) (is : List Nat) (hd : ∀ i, (σ i).Stands (ρ i))
    (hr : ∀ i, InRange (ρ i)) (hs : Cfg.strictShift = false) :
    ∃ r, (sortAll is []).runPy σ = .value r ∧ r.Perm is ∧ (r.map ρ).Pairwise (· ≤ ·) ∧
      ∀ z, r.filter (fun i => ρ i = z) = is.filter (fun i => ρ i = z) := by
  obtain ⟨h1, h2, h3⟩ := sortAll_ints (fun _ => 0) ρ is [] List.Pairwise.nil
  exact ⟨_, C79_python _ (sortAll_only is []) _ σ ρ hd hr hs, h1, List.pairwise_map.2 h2, h3⟩

/-- A Python `set` of `BigInteger`s, or the keys of a `dict`: every integer exactly once. -/
theorem C79_python_set (σ : Nat → BigInt) (ρ : Nat → Int) (is : List Nat) (hd : ∀ i, (σ i).Denotes (ρ i))
    (hr : ∀ i, InRange (ρ i)) (hs : Cfg.strictShift = false) :
    ∃ r, (hashedSet is []).runPy (fun i => .big (σ i)) = .value r ∧ r.Sublist is ∧ (r.map ρ).Nodup ∧
      ∀ z, z ∈ r.map ρ ↔ z ∈ is.map ρ := by
  obtain ⟨H, h⟩ := C79_python_big hs
  obtain ⟨h1, h2, h3⟩ := hashedSet_ints H ρ is [] (fun _ h => absurd h List.not_mem_nil) List.nodup_nil
  refine ⟨_, h _ σ ρ hd hr, h2, h1, fun z => ⟨fun hz => ?_, fun hz => ?_⟩⟩
  · obtain ⟨l, hl, rfl⟩ := List.mem_map.1 hz
    exact List.mem_map_of_mem (h2.subset hl)
  · obtain ⟨l, hl, rfl⟩ := List.mem_map.1 hz
    obtain ⟨l', hl', e⟩ := h3 l hl
    exact List.mem_map.2 ⟨l', hl', e⟩

/-- The hash of a `BigInteger` with a value between `-2^55` and `2^55` is never the hash of the equal `int`. -/
theorem C79_hash_never (a : BigInt) (n : PyInt) (x : Int) (ha : a.Denotes x) (hn : n.value = x) (hx : |x| < 2 ^ 55) :
    pyObjectHash (.big a) ≠ pyObjectHash (.int n) := by
  have hx' : -36028797018963968 < x ∧ x < 36028797018963968 := by
    rw [abs_lt] at hx; norm_num at hx; exact hx
  have h1 := pyHash_far ha
  have h2 : pyIntHash x = if x = -1 then -2 else x := by
    unfold pyIntHash
    have : x.tmod 2305843009213693951 = x := by
      rcases le_or_gt 0 x with h | h
      · exact Int.tmod_eq_of_lt h (by omega)
      · have h := Int.neg_tmod (-x) 2305843009213693951
        rw [Int.tmod_eq_of_lt (a := -x) (by omega) (by omega), neg_neg] at h
        exact h
    simp only [this]
  intro h
  have h : (if pyHash a = -1 then -2 else pyHash a) = if x = -1 then -2 else x := by
    have h := Option.some.inj h
    rw [hn, h2] at h
    exact h
  rw [lt_abs] at h1
  split_ifs at h <;> omega

/-- So in Python a set of a `BigInteger` of fewer than 56 bits and of the equal `int` has two elements, in either order of
insertion, although they compare equal. -/
theorem C79_python_mixed (a : BigInt) (n : PyInt) (x : Int) (ha : a.Denotes x) (hn : n.value = x) (hx : |x| < 2 ^ 55)
    (hs : Cfg.strictShift = false) :
    pyCompare .eq (.big a) (.int n) = .value true ∧
    (hashedSet [0, 1] []).runPy (fun i => if i = 0 then .big a else .int n) = .value [0, 1] ∧
    (hashedSet [1, 0] []).runPy (fun i => if i = 0 then .big a else .int n) = .value [1, 0] := by
  have hr : InRange x := by
    rw [abs_lt] at hx; norm_num at hx
    exact inRange_small (by omega)
  have h := C79_hash_never a n x ha hn hx
  refine ⟨?_, ?_, ?_⟩
  · rw [C77_compare .eq (.big a) (.int n) x x ha hn hr hr hs]
    simp [PyCmp.meaning]
  · have h' : ¬ (if pyHash a = -1 then -2 else pyHash a) = pyIntHash n.value := fun e => h (congrArg some e)
    show ((findKey _ 1 [(_, 0)]).bind _).runPy _ = _
    rw [findKey, if_neg h']
    rfl
  · have h' : ¬ pyIntHash n.value = (if pyHash a = -1 then -2 else pyHash a) := fun e => h (congrArg some e.symm)
    show ((findKey _ 0 [(_, 1)]).bind _).runPy _ = _
    rw [findKey, if_neg h']
    rfl

/-- What a user may expect of Python's sets, that equal elements are kept once, is false. -/
theorem C79_refuted (hs : Cfg.strictShift = false) :
    ¬ ∀ (σ : Nat → PyObject) (ρ : Nat → Int) (is r : List Nat), (∀ i, (σ i).Stands (ρ i)) → (∀ i, InRange (ρ i)) →
      (hashedSet is []).runPy σ = .value r → (r.map ρ).Nodup := by
  intro h
  have ha : (⟨5, []⟩ : BigInt).Denotes 5 := BigInt.denotes_small (by decide) (by decide)
  have := h (fun i => if i = 0 then .big ⟨5, []⟩ else .int ⟨5, false, by simp⟩) (fun _ => 5) [0, 1] [0, 1]
    (fun i => by
      by_cases e : i = 0
      · rw [if_pos e]; exact ha
      · rw [if_neg e]; exact rfl)
    (fun _ => inRange_small (by norm_num)) (C79_python_mixed _ _ 5 ha rfl (by norm_num) hs).2.1
  simp at this

/-! ### the hypotheses can be met -/

private def three (i : Nat) : BigInt := if i = 0 then pos2 else if i = 1 then neg3 else small
private def threeInts (i : Nat) : Int := if i = 0 then 38654705667 else if i = 1 then -18446744103774322693 else -42
private theorem three_denotes (i : Nat) : (three i).Denotes (threeInts i) := by
  unfold three threeInts
  by_cases h : i = 0
  · rw [if_pos h, if_pos h]; exact pos2_denotes
  · rw [if_neg h, if_neg h]
    by_cases h' : i = 1
    · rw [if_pos h', if_pos h']; exact neg3_denotes
    · rw [if_neg h', if_neg h']; exact small_denotes
private theorem three_fits (i : Nat) : (three i).Fits := by
  unfold three
  by_cases h : i = 0
  · rw [if_pos h]; exact pos2_fits
  · rw [if_neg h]
    by_cases h' : i = 1
    · rw [if_pos h']; exact neg3_fits
    · rw [if_neg h']; exact small_fits
private theorem three_range (i : Nat) : InRange (threeInts i) := by
  refine lt_of_lt_of_le (b := 2 ^ 65) ?_ (Nat.pow_le_pow_right (by decide) (by decide))
  unfold threeInts
  by_cases h : i = 0
  · rw [if_pos h]; decide
  · rw [if_neg h]
    by_cases h' : i = 1
    · rw [if_pos h']; decide
    · rw [if_neg h']; decide

-- an algorithm with comparisons and a hash
example : ∃ H : Int → Int, (Alg.compare .ge 0 1 fun b => .hash 2 fun h => .done (b, h)).run three =
    .ok (decide ((38654705667 : Int) ≥ -18446744103774322693), H (-42)) := by
  obtain ⟨H, -, h⟩ := C79_algorithms
  exact ⟨H, h _ three threeInts three_denotes three_fits⟩
-- -18446744103774322693, -42, -42, 38654705667
example : (sortAll [2, 0, 1, 3] []).run three = .ok [1, 2, 3, 0] := by
  obtain ⟨H, -, h⟩ := C79_algorithms
  rw [h _ three threeInts three_denotes three_fits]
  rfl
example := C79_sort three threeInts [2, 0, 1, 3] three_denotes three_fits
example : (orderedSet [2, 0, 1, 3] []).run three = .ok [1, 2, 0] := by
  obtain ⟨H, -, h⟩ := C79_algorithms
  rw [h _ three threeInts three_denotes three_fits]
  rfl
example := C79_ordered_set three threeInts [2, 0, 1, 3] three_denotes three_fits
example : ∃ r, (hashedSet [2, 0, 1, 3] []).run three = .ok r ∧ r.Sublist [2, 0, 1, 3] ∧ (r.map threeInts).Nodup ∧
    ∀ z, z ∈ r.map threeInts ↔ z ∈ [-42, 38654705667, -18446744103774322693, -42] :=
  C79_hashed_set three threeInts [2, 0, 1, 3] three_denotes three_fits
-- a list with a `BigInteger` and an `int`
example (n : PyInt) (hn : n.value = 7) (hs : Cfg.strictShift = false) :
    (sortAll [0, 1] []).runPy (fun i => if i = 0 then .big pos2 else .int n) = .value [1, 0] := by
  have h := C79_python (sortAll [0, 1] []) (sortAll_only _ _) (fun _ => 0) (fun i => if i = 0 then .big pos2 else .int n)
    (fun i => if i = 0 then 38654705667 else 7)
    (fun i => by
      by_cases e : i = 0
      · rw [if_pos e, if_pos e]; exact pos2_denotes
      · rw [if_neg e, if_neg e]; exact hn)
    (fun i => by
      by_cases e : i = 0
      · rw [if_pos e]; exact three_range 0
      · rw [if_neg e]; exact inRange_small (by norm_num)) hs
  rw [h]
  rfl
example (hs : Cfg.strictShift = false) := C79_python_sorted (fun i => .big (three i)) threeInts [2, 0, 1, 3] three_denotes three_range hs
example (hs : Cfg.strictShift = false) : ∃ H : Int → Int, (Alg.hash 1 fun h => .done h).runPy (fun i => .big (three i)) =
    .value (H (-18446744103774322693)) := by
  obtain ⟨H, h⟩ := C79_python_big hs
  exact ⟨H, h _ three threeInts three_denotes three_range⟩
example (hs : Cfg.strictShift = false) := C79_python_set three threeInts [2, 0, 1, 3] three_denotes three_range hs
example (n : PyInt) (hn : n.value = -42) : pyObjectHash (.big small) ≠ pyObjectHash (.int n) :=
  C79_hash_never small n (-42) small_denotes hn (by norm_num)
example (n : PyInt) (hn : n.value = -42) (hs : Cfg.strictShift = false) := C79_python_mixed small n (-42) small_denotes hn (by norm_num) hs

end BigIntegerCpp
