import Verif.Model.PythonQuery
import Verif.Props.Python
import Verif.Props.Log
import Verif.Props.Bits
import Verif.Props.Basic
import Mathlib.Data.Nat.Size
/-
C55: predicates, bit length, sign and logarithms of the Python class.
-/
set_option linter.unusedSectionVars false
namespace BigIntegerCpp
open Samples
variable [Cfg]

theorem C55_is_even (a : BigInt) (x : Int) (ha : a.Denotes x) : pyIsEven a = .ok (decide (x % 2 = 0)) := C38_is_even a x ha

theorem C55_is_power_of_two (a : BigInt) (x : Int) (ha : a.Denotes x) :
    ∃ r, pyIsPowerOfTwo a = .ok r ∧ (r = true ↔ ∃ k : Nat, x = 2 ^ k) := C38_is_power_of_two a x ha

theorem C55_sign (a : BigInt) (x : Int) (ha : a.Denotes x) :
    pySign a = .ok (if x < 0 then -1 else if x = 0 then 0 else 1) := C07_sign a x ha

/-- `a.get_bit_Length()` is `int(a).bit_length()` for non-negative `a`, otherwise
`(~int(a)).bit_length()`.  `Nat.size` is the number of binary digits. -/
theorem C55_bit_length (a : BigInt) (x : Int) (ha : a.Denotes x) (fa : a.Fits) :
    pyGetBitLength a = .ok (Nat.size (if x < 0 then -x - 1 else x).natAbs) := by
  obtain ⟨n, h1, ⟨h2, h3⟩, h4⟩ := C37_bit_length a x ha fa
  unfold pyGetBitLength
  rw [h1]
  congr 1
  have key : ∀ m : Nat, (if x < 0 then -x - 1 else x).natAbs < 2 ^ m ↔ (-(2 : Int) ^ m ≤ x ∧ x < 2 ^ m) := by
    intro m
    have hp : (0 : Int) < 2 ^ m := by positivity
    have e : ((2 ^ m : Nat) : Int) = 2 ^ m := by push_cast; rfl
    generalize hP : (2 : Int) ^ m = P at *
    split <;> omega
  apply le_antisymm
  · have := (key _).1 (Nat.lt_size_self _)
    exact h4 _ this.1 this.2
  · exact Nat.size_le.2 ((key n).2 ⟨h2, h3⟩)

/-- It agrees with Python's own `int.bit_length` except on the negatives of powers of two. -/
theorem C55_bit_length_agrees_iff (a : BigInt) (x : Int) (ha : a.Denotes x) (fa : a.Fits) :
    pyGetBitLength a = .ok (Nat.size x.natAbs) ↔ ¬ ∃ k : Nat, x = -2 ^ k := by
  rw [C55_bit_length a x ha fa, Res.ok.injEq]
  by_cases hx : x < 0
  · rw [if_pos hx]
    obtain ⟨m, rfl⟩ : ∃ m : Nat, x = -((m + 1 : Nat) : Int) := ⟨x.natAbs - 1, by omega⟩
    rw [show (-(-((m + 1 : Nat) : Int)) - 1).natAbs = m by omega, show (-((m + 1 : Nat) : Int)).natAbs = m + 1 by omega]
    have hpow : (∃ k : Nat, -((m + 1 : Nat) : Int) = -2 ^ k) ↔ ∃ k : Nat, m + 1 = 2 ^ k := by
      refine exists_congr fun k => ?_
      rw [neg_inj]
      exact_mod_cast Iff.rfl
    rw [hpow]
    constructor
    · rintro h ⟨k, hk⟩
      have h1 : Nat.size m ≤ k := Nat.size_le.2 (by omega)
      have h2 : k < Nat.size (m + 1) := Nat.lt_size.2 (by omega)
      omega
    · intro h
      apply le_antisymm (Nat.size_le_size (by omega))
      have h1 := Nat.lt_size_self m
      exact Nat.size_le.2 (lt_of_le_of_ne (by omega) fun e => h ⟨_, e⟩)
  · rw [if_neg hx]
    refine ⟨fun _ ⟨k, hk⟩ => hx ?_, fun _ => rfl⟩
    have : (0 : Int) < 2 ^ k := by positivity
    omega

section
variable [Fpu]

/-- The object that stands for `v`. -/
private theorem pyVal_big (v : PyVal) (x : Int) (hv : v.Stands x) (hx : InRange x) (hs : Cfg.strictShift = false) :
    ∃ a : BigInt, a.Denotes x ∧ a.Fits ∧ (∀ b, pyLog v (some b) = a.log b) ∧ pyLog v none = a.ln ∧ pyLog10 v = a.log10 := by
  cases v with
  | big a => exact ⟨a, hv, by have := hx.length hv; show _ < _; omega, fun _ => rfl, rfl, rfl⟩
  | int n =>
    obtain rfl : n.value = x := hv
    obtain ⟨a, h1, h2⟩ := C44_of_int n _ (by norm_num) hx hs
    refine ⟨a, h2, by have := hx.length h2; show _ < _; omega, fun b => ?_, ?_, ?_⟩
    · dsimp only [pyLog]; rw [h1, Res.ok_bind]
    · dsimp only [pyLog]; rw [h1, Res.ok_bind]
    · dsimp only [pyLog10]; rw [h1, Res.ok_bind]

/-- An `int` and a `BigInteger` of the same value have the same logarithms. -/
theorem C55_log_same (v w : PyVal) (x : Int) (hv : v.Stands x) (hw : w.Stands x) (hx : InRange x) (b : Option Dbl)
    (hs : Cfg.strictShift = false) : pyLog v b = pyLog w b ∧ pyLog10 v = pyLog10 w := by
  obtain ⟨a, ha, -, h1, h2, h3⟩ := pyVal_big v x hv hx hs
  obtain ⟨a', ha', -, h1', h2', h3'⟩ := pyVal_big w x hw hx hs
  obtain rfl := ha.unique ha'
  refine ⟨?_, h3.trans h3'.symm⟩
  cases b with
  | none => exact h2.trans h2'.symm
  | some b => exact (h1 b).trans (h1' b).symm

/-- A negative value gives NaN. -/
theorem C55_log_negative (v : PyVal) (x : Int) (hv : v.Stands x) (hx : InRange x) (hneg : x < 0) (b : Option Dbl)
    (hs : Cfg.strictShift = false) : pyLog v b = .ok .nan ∧ pyLog10 v = .ok .nan := by
  obtain ⟨a, ha, -, h1, h2, h3⟩ := pyVal_big v x hv hx hs
  refine ⟨?_, h3.trans (C46_negative_value a x _ ha hneg)⟩
  cases b with
  | none => exact h2.trans (C46_negative_value a x _ ha hneg)
  | some b => exact (h1 b).trans (C46_negative_value a x _ ha hneg)
end

/-- `BigInteger.log(v, b)` is the logarithm to base `b`, up to rounding errors. -/
theorem C55_log_base (fpu : Fpu) (ε : ℝ) (hf : fpu.Accurate ε) (he0 : 0 ≤ ε) (he : ε ≤ 1 / 2 ^ 10)
    (v : PyVal) (x : Int) (b : ℝ) (hv : v.Stands x) (hx : InRange x) (hpos : 0 < x) (hb : 0 < b) (h1 : b ≠ 1)
    (hb1 : 1 / 2 ^ 60 ≤ |Real.log b|) (hb2 : |Real.log b| ≤ 2 ^ 60) (hs : Cfg.strictShift = false) :
    ∃ r, pyLog v (some (.fin b)) = .ok (.fin r) ∧
      |r - Real.logb b x| ≤ 34 * ε * |Real.logb b x| + 1 / 2 ^ 63 / |Real.log b| := by
  obtain ⟨a, ha, fa, h, -, -⟩ := pyVal_big v x hv hx hs
  rw [h]
  exact C46_rounded fpu ε hf he0 he a x b ha fa hpos hb h1 hb1 hb2

/-- `BigInteger.log(v)` is the natural logarithm. -/
theorem C55_log (fpu : Fpu) (ε : ℝ) (hf : fpu.Accurate ε) (he0 : 0 ≤ ε) (he : ε ≤ 1 / 2 ^ 10)
    (v : PyVal) (x : Int) (hv : v.Stands x) (hx : InRange x) (hpos : 0 < x) (hs : Cfg.strictShift = false) :
    ∃ r, pyLog v none = .ok (.fin r) ∧ |r - Real.log x| ≤ (40 * ε + 2 / 10 ^ 16) * Real.log x + 1 / 2 ^ 62 := by
  obtain ⟨a, ha, fa, -, h, -⟩ := pyVal_big v x hv hx hs
  rw [h]
  exact C46_ln fpu ε hf he0 he a x ha fa hpos

/-- `BigInteger.log10(v)` is the logarithm to base 10. -/
theorem C55_log10 (fpu : Fpu) (ε : ℝ) (hf : fpu.Accurate ε) (he0 : 0 ≤ ε) (he : ε ≤ 1 / 2 ^ 10)
    (v : PyVal) (x : Int) (hv : v.Stands x) (hx : InRange x) (hpos : 0 < x) (hs : Cfg.strictShift = false) :
    ∃ r, pyLog10 v = .ok (.fin r) ∧ |r - Real.logb 10 x| ≤ 34 * ε * |Real.logb 10 x| + 1 / 2 ^ 64 := by
  obtain ⟨a, ha, fa, -, -, h⟩ := pyVal_big v x hv hx hs
  rw [h]
  exact C46_log10 fpu ε hf he0 he a x ha fa hpos

/-! ### the hypotheses can be met -/

/-- `BigInteger(-8).get_bit_Length()` is 3; `(-8).bit_length()` is 4. -/
example : pyGetBitLength ⟨-8, []⟩ = .ok 3 ∧ Nat.size (-8 : Int).natAbs = 4 := by
  have := C55_bit_length ⟨-8, []⟩ (-8) (BigInt.denotes_small (by decide) (by decide)) (by decide)
  refine ⟨this.trans ?_, ?_⟩
  · show Res.ok (Nat.size 7) = _
    rw [show Nat.size 7 = 3 from by simp [Nat.size, Nat.binaryRec]]
  · show Nat.size 8 = 4
    simp [Nat.size, Nat.binaryRec]
example : pyIsEven neg3 = .ok false ∧ pySign neg3 = .ok (-1) := ⟨C55_is_even _ _ neg3_denotes, C55_sign _ _ neg3_denotes⟩
/-- Python's `BigInteger.log(1000)`. -/
example (fpu : Fpu) (hf : fpu.Accurate (1 / 2 ^ 52)) (hs : Cfg.strictShift = false) :
    ∃ r, pyLog (.int ⟨1000, false, by simp⟩) none = .ok (.fin r) ∧
      |r - Real.log (1000 : Int)| ≤ (40 * (1 / 2 ^ 52) + 2 / 10 ^ 16) * Real.log (1000 : Int) + 1 / 2 ^ 62 :=
  C55_log fpu _ hf (by norm_num) (by norm_num) _ 1000 rfl (inRange_small (by decide)) (by decide) hs

/-! ### instances of the remaining theorems -/

example : ∃ r, pyIsPowerOfTwo pos2 = .ok r ∧ (r = true ↔ ∃ k : Nat, (38654705667 : Int) = 2 ^ k) := C55_is_power_of_two _ _ pos2_denotes
example : pyGetBitLength ⟨-8, []⟩ ≠ .ok (Nat.size (-8 : Int).natAbs) := fun h =>
  (C55_bit_length_agrees_iff _ (-8) (BigInt.denotes_small (by decide) (by decide)) (by decide)).1 h ⟨3, by decide⟩
example [Fpu] (hs : Cfg.strictShift = false) : pyLog (.int ⟨7, false, by simp⟩) none = pyLog (.big ⟨7, []⟩) none :=
  (C55_log_same (.int ⟨7, false, by simp⟩) (.big ⟨7, []⟩) 7 rfl (BigInt.denotes_small (by decide) (by decide)) (inRange_small (by decide)) none hs).1
example [Fpu] (hs : Cfg.strictShift = false) : pyLog10 (.int ⟨-7, false, by simp⟩) = .ok .nan :=
  (C55_log_negative (.int ⟨-7, false, by simp⟩) (-7) rfl (inRange_small (by decide)) (by decide) none hs).2

end BigIntegerCpp
