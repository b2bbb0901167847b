import Verif.Props.Closure
import Verif.Props.Gcd
import Verif.Props.Text
import Verif.Props.Convert
import Verif.Props.Float
import Verif.Props.Pow
import Verif.Props.Program
import Verif.Props.PythonObject
import Verif.Props.PythonQuery
import Verif.Props.Ends
import Verif.Props.Laws
import Verif.Props.Loops
import Verif.Props.Bits
/-
Theorems whose neighbouring example only shows that the hypotheses can be met, applied to concrete
objects.  Nothing new is proved here.
-/
set_option linter.unusedSectionVars false
namespace BigIntegerCpp
open Samples
variable [Cfg]

/-! ### constructors, canonical form, hash -/

example : Returns (ofInt32 (-2147483648)) (-2147483648) := C01_int32 _ (by decide)
example : Returns (ofUInt32 4294967295) 4294967295 := C01_uint32 _ (by decide)
example : Returns (ofUInt64 18446744073709551615) 18446744073709551615 := C01_uint64 _ (by decide)
example : ¬ Returns (ofInt64 (-2 ^ 63)) (-2 ^ 63) := fun h => (C01_int64_exact_iff _ (by decide)).1 h rfl
example (a : BigInt) (h : a.Valid) (e : a.toInt = -18446744103774322693) : a = neg3 :=
  C02_unique a neg3 h neg3_denotes.1 (e.trans neg3_denotes.2.symm)
example : neg3.Valid := C02_every_result_is_canonical_partial _ made_neg3
example (a : BigInt) (h : Made a) (e : a.toInt = 5) : a = ⟨5, []⟩ := C02_equal_results_are_identical _ _ h made_five e
example : neg3.equals ⟨5, []⟩ = .ok false := C02_equals_on_results _ _ made_neg3 made_five
example (fuel : Nat) : (((Prog.seq (.stmt (.const 0 5)) (.stmt (.divRem 1 0 2 0))).exec fuel fun _ => neg3).2 1).Valid :=
  C02_programs_keep_objects_canonical (Prog.seq (.stmt (.const 0 5)) (.stmt (.divRem 1 0 2 0))) ⟨⟨fun _ _ h => by cases h; decide, nofun, nofun⟩, nofun, nofun, nofun⟩ fuel _ (fun _ => neg3_denotes.1) 1
example (hd : Cfg.ndebug = false) : ofParts (-1) [5, 7, 1] = .ok ⟨-1, [5, 7, 1]⟩ ∧ ofParts 1 [5] = .abort :=
  ⟨(C02_parts_checked hd _ _ (by decide) (by decide)).1 neg3_denotes.1,
   (C02_parts_checked hd _ _ (by decide) (by decide)).2 fun h => absurd (h.notSmall 5 rfl) (by decide)⟩
example (a : BigInt) (ha : a.Valid) (h : a.equals neg3 = .ok true) : a.hashCode = neg3.hashCode := C04_hash _ _ ha neg3_denotes.1 h
example : ∃ obj ret, neg3.postInc = .ok (obj, ret) ∧ obj.Denotes (-18446744103774322692) ∧ ret.Denotes (-18446744103774322692) :=
  (C08_postfix _ _ neg3_denotes neg3_fits).1

/-! ### arithmetic -/

example : Returns (neg3.div pos2) (-477218589) :=
  (C10_divide_magnitudes _ _ _ _ neg3_denotes pos2_denotes (by decide) neg3_fits)
example : neg3.div ⟨0, []⟩ = .throw .divideByZero ∧ neg3.rem ⟨0, []⟩ = .throw .divideByZero ∧ neg3.divRem ⟨0, []⟩ = .throw .divideByZero :=
  C12_divide_by_zero _ _ _ neg3_denotes (BigInt.denotes_small (by decide) (by decide)) neg3_fits
example : neg3.add pos2 = pos2.add neg3 := C39_add_comm _ _ neg3_denotes.1 pos2_denotes.1 neg3_fits pos2_fits
example : neg3.mul pos2 = pos2.mul neg3 := C39_mul_comm _ _ neg3_denotes.1 pos2_denotes.1 (by decide)
example : ∃ s t u, neg3.add pos2 = .ok s ∧ pos2.add small = .ok t ∧ s.add small = .ok u ∧ neg3.add t = .ok u :=
  C39_add_assoc _ _ _ neg3_denotes.1 pos2_denotes.1 small_denotes.1 (by decide) (by decide) (by decide)
example : ∃ s t u, neg3.mul pos2 = .ok s ∧ pos2.mul small = .ok t ∧ s.mul small = .ok u ∧ neg3.mul t = .ok u :=
  C39_mul_assoc _ _ _ neg3_denotes.1 pos2_denotes.1 small_denotes.1 (by decide) (by decide) (by decide)
example : ∃ s t, neg3.add pos2 = .ok s ∧ small.add pos2 = .ok t ∧ s.le t = .ok true :=
  C39_add_mono _ _ _ neg3_denotes.1 small_denotes.1 pos2_denotes.1 (by decide) (by decide) (by decide)
    (C03_operators _ _ _ _ neg3_denotes small_denotes neg3_fits small_fits).2.1
example : ∃ s t, neg3.mul pos2 = .ok s ∧ small.mul pos2 = .ok t ∧ s.le t = .ok true :=
  C39_mul_mono _ _ _ neg3_denotes.1 small_denotes.1 pos2_denotes.1 (by decide) (by decide) (by decide)
    (C03_operators _ _ _ _ neg3_denotes small_denotes neg3_fits small_fits).2.1
    (C03_operators _ _ _ _ denotes_zero pos2_denotes (by decide) pos2_fits).2.1
example : Returns (neg3.modPow ⟨3, []⟩ pos2) ((-18446744103774322693 : Int) ^ 3 |>.tmod 38654705667) :=
  C16_below_992_bits _ _ _ _ _ 3 neg3_denotes (BigInt.denotes_small (by decide) (by decide)) pos2_denotes neg3_fits (by decide)
    (lt_of_lt_of_le (b := 2 ^ 70) (by decide) (pow_le_pow_right₀ (by decide) (by decide)))

/-! ### `div_rem` on variables -/

example : ∃ q r, divRemAt 0 1 0 (fun i => if i = 0 then pos2 else ⟨5, []⟩) = (.ok q, Store.set (fun i => if i = 0 then pos2 else ⟨5, []⟩) 0 r) ∧
    q.Denotes 7730941133 ∧ r.Denotes 2 :=
  C14_div_rem_partial _ 0 1 0 38654705667 5 pos2_denotes (BigInt.denotes_small (by decide) (by decide)) pos2_fits (by decide) (by decide) (by decide) (by decide)
example : ∃ q r, divRemAt 0 1 2 (fun i => if i = 0 then neg3 else pos2) = (.ok q, Store.set (fun i => if i = 0 then neg3 else pos2) 2 r) ∧
    q.Denotes (-477218589) ∧ r.Denotes (-7158278830) := by
  have h := C14_distinct (fun i => if i = 0 then neg3 else pos2) 0 1 2 _ _ neg3_denotes pos2_denotes (by decide) neg3_fits (by decide) (by decide)
  rwa [if_neg (by decide)] at h
example : ∃ q r, divRemAt 0 0 0 (fun _ => neg3) = (.ok q, Store.set (fun _ => neg3) 0 r) ∧ q.Denotes 1 ∧ r.Denotes 0 :=
  (C14_self _ 0 _ neg3_denotes (by decide) neg3_fits).2 (by decide)

/-! ### greatest common divisor -/

example : BigInt.gcd 7 ⟨1, [0, 0, 0, 1]⟩ ⟨1, [0, 0, 3221225472]⟩ = .ok ⟨3, []⟩ := C19_wrong 7 (by decide)
example (fuel : Nat) (h : 2 ≤ fuel) :
    BigInt.gcd fuel ⟨1, [0, 0, 0, 1]⟩ ⟨1, [0, 0, 3221225472]⟩ = BigInt.gcd 2 ⟨1, [0, 0, 0, 1]⟩ ⟨1, [0, 0, 3221225472]⟩ :=
  C20_bound_irrelevant _ _ 2 (by rw [C19_wrong 2 (by decide)]; nofun) fuel h
example (fuel : Nat) (r : BigInt) (h : BigInt.gcd fuel ⟨1, [0, 0, 1, 0, 0, 1]⟩ ⟨-1, [0, 0, 0, 16]⟩ = .ok r) : r.Denotes (2 ^ 64) :=
  C20_if_it_returns _ _ _ _ two_steps_left two_steps_right (by decide) (by decide) fuel r h fun hd =>
    ((C20_three_kinds _ _).resolve_right fun h' => h'.elim (fun k => k.1 two_steps) (fun k => k.1 two_steps)).2.2 hd

/-! ### text -/

example : ∃ b, BigInt.tryParse "-18446744103774322693".toList zeroInt = .ok (true, b) ∧ BigInt.parse "-18446744103774322693".toList = .ok b ∧
    b.Denotes (textValue "-18446744103774322693".toList) := C33_always_true _ _ (by decide)
example (b : BigInt) (f : Bool) (h : BigInt.tryParse "4x".toList zeroInt = .ok (f, b)) : f = true := C33_never_false _ _ _ _ h

/-! ### conversions -/

example : neg3.toUInt32 = .throw .overflowError ∧ (⟨7, []⟩ : BigInt).toUInt32 = .ok 7 :=
  ⟨C34_to_uint _ _ neg3_denotes, C34_to_uint _ 7 (BigInt.denotes_small (by decide) (by decide))⟩
example : (⟨-1, [2147483648]⟩ : BigInt).toInt32 = .ub .signedOverflow :=
  C34_int_min_is_undefined _ (BigInt.denotes_big (.inr rfl) (by decide) (by decide) (by decide) (by decide) (by decide))
example : (⟨-1, [0, 2147483648]⟩ : BigInt).toLong = .ub .signedOverflow :=
  C34_long_min_is_undefined _ (BigInt.denotes_big (.inr rfl) (by decide) (by decide) (by decide) (by decide) (by decide)) (by decide)
/-- 2.5 -/
example : Returns (ofDouble 0x4004000000000000) 2 := by
  have h := C36_of_double 0x4004000000000000 (by decide) (by unfold DblFinite; decide +kernel)
  rwa [show (dblScaled 0x4004000000000000).tdiv (2 ^ 1074) = 2 by decide +kernel] at h
/-- Infinity. -/
example : ofDouble 0x7FF0000000000000 = .throw .overflowError := C36_not_finite _ (by decide) (by unfold DblFinite; decide +kernel)
/-- 3.0 -/
example : ∃ b, ofDouble 0x4008000000000000 = .ok b ∧ b.Denotes 3 ∧ b.toDouble = .ok 0x4008000000000000 :=
  C36_round_trip _ (by decide) (by unfold DblFinite; decide +kernel) 3 (by decide +kernel) (by decide)
example : doubleIsNaN 0x7FF8000000000000 = true := (C48_classification _ (by decide)).2.2.2 (by unfold DblNaN; decide +kernel)
example : (doubleIsFinite 7, doubleIsInfinity 7, doubleIsNaN 7) ∈ [(true, false, false), (false, true, false), (false, false, true)] :=
  C48_exclusive 7 (by decide)
example : ∃ f, small.toFloat = .ok f ∧ NearestFloat 149 (-42 * 2 ^ 149) f :=
  C49_to_float_partial _ _ small_denotes (by decide) (by decide +kernel)

/-! ### programs -/

example : ∃ ρ' : IntStore, Does (.stmt (.update .add 0 1)) (fun _ => 5) (ending none) ρ' :=
  ⟨_, C40_actual_is_intended _ _ _ none (.stmt _ _ (IntStore.set (fun _ => 5) 0 10) (fun _ => inRange_small (by decide)) trivial rfl
    fun i => inRange_small (by simp only [IntStore.set]; split_ifs <;> decide))⟩
example : ((Stmt.update .div 0 1).exec fun i => if i = 0 then neg3 else ⟨0, []⟩).2 = fun i => if i = 0 then neg3 else ⟨0, []⟩ := by
  have h : ((Stmt.update .div 0 1).exec fun i => if i = 0 then neg3 else ⟨0, []⟩).1 = .throw .divideByZero := by
    rename_i c; obtain ⟨d, s⟩ := c; cases d <;> cases s <;> decide +kernel
  exact C40_throw_unchanged _ _ _ .divideByZero (Prod.ext h rfl)
example (r s : Res BigInt) (hr : Returns r 7) (hs : Returns s 7) : r = s := C41_same_object r s 7 hr hs
example : ∃ n, ∀ fuel, n ≤ fuel → ((Prog.ifThen (.rel .lt 0 1) (.attempt (.stmt (.divRem 1 0 2 0))) (.stmt (.pow 0 0 5))).exec fuel fun _ => neg3).1.Only
    [.divideByZero, .outOfRange, .overflowError] :=
  C59_program (.ifThen (.rel .lt 0 1) (.attempt (.stmt (.divRem 1 0 2 0))) (.stmt (.pow 0 0 5))) ⟨trivial, trivial⟩ ⟨⟨nofun, nofun, nofun⟩, nofun, nofun, nofun⟩ _ fun _ => neg3_denotes.1

/-! ### expressions -/

/-- `v₀ + v₀` and `v₀ * 2` with `v₀ = 5`. -/
example : ∃ a b, Expr.eval (fun _ => ⟨5, []⟩) (.bin .add (.var 0) (.var 0)) = .ok a ∧
    Expr.eval (fun _ => ⟨5, []⟩) (.bin .mul (.var 0) (.const 2)) = .ok b ∧ a.equals b = .ok true ∧ a = b := by
  have hv : Expr.Value (fun _ => 5) (.var 0) 5 := .var (inRange_small (by decide))
  have h2 : Expr.Value (fun _ => 5) (.const 2) 2 := .const (by decide)
  exact C56_identity (fun _ => 5) _ (fun _ => (BigInt.denotes_small (by decide) (by decide))) _ _ 10
    (.bin hv hv rfl (inRange_small (by decide))) (.bin hv h2 rfl (inRange_small (by decide)))
example : Returns (Expr.eval (fun _ => ⟨5, []⟩) (.bin .mul (.var 0) (.const 2))) 10 := by
  have hv : Expr.Value (fun _ => 5) (.var 0) 5 := .var (inRange_small (by decide))
  have h2 : Expr.Value (fun _ => 5) (.const 2) 2 := .const (by decide)
  exact C56_expression (fun _ => 5) _ (fun _ => (BigInt.denotes_small (by decide) (by decide))) _ 10 (.bin hv h2 rfl (inRange_small (by decide)))

/-! ### Python -/

example (hs : Cfg.strictShift = false) : Returns (toBigInteger ⟨-12345678901234567890, false, by simp⟩) (-12345678901234567890) :=
  C44_of_int _ 64 (by decide) (by decide) hs
example (hs : Cfg.strictShift = false) : (toBigInteger ⟨-12345678901234567890, false, by simp⟩ >>= toPyInt) = .ok (-12345678901234567890) :=
  C44_round_trip _ 64 (by decide) (by decide) hs
example (a : BigInt) (ha : a.Valid) (h : PyCmp.eq.eval (.big a) (.big neg3) = some (.ok true)) : pyHash a = pyHash neg3 :=
  C04_python_hash _ _ ha neg3_denotes.1 h
example (hs : Cfg.strictShift = false) : pyShr (.int ⟨7000, false, by simp⟩) (.big ⟨3, []⟩) = some (.ok (.inr 875)) :=
  C45_shift_right_partial (.int ⟨7000, false, by simp⟩) (.big ⟨3, []⟩) 7000 3 rfl (BigInt.denotes_small (by decide) (by decide)) trivial
    (inRange_small (by decide)) (by decide) hs (fun _ h => absurd h.2.1 (by decide)) (fun _ => by decide)
example (hs : Cfg.strictShift = false) : pyShl (.big ⟨7, []⟩) (.int ⟨2 ^ 40, false, by simp⟩) = some (.throw .castError) :=
  ((C45_shift_count (.big ⟨7, []⟩) (.int ⟨2 ^ 40, false, by simp⟩) 7 (2 ^ 40) (BigInt.denotes_small (by decide) (by decide)) rfl trivial
    (inRange_small (by decide)) (by decide) hs).2 _ rfl).1
example (hs : Cfg.strictShift = false) : pyPowMod (.big neg3) (.int ⟨7, false, by simp⟩) (.big pos2) = some (neg3.modPow ⟨7, []⟩ pos2) :=
  (C45_pow_mod neg3 ⟨7, []⟩ pos2 ⟨7, false, by simp⟩ hs).2.1 (BigInt.denotes_small (by decide) (by decide)) (inRange_small (by decide))
example (hs : Cfg.strictShift = false) :
    Returns (ofBuffer { memory := [9, 9, 0x85, 0xff, 9], start := 2, size := 2, stride := 1 }) (-123) :=
  C52_consecutive_bytes { memory := [9, 9, 0x85, 0xff, 9], start := 2, size := 2, stride := 1 } rfl rfl (by decide) (by decide) (by decide) hs
example : ∃ v, pyToArray neg3 false true = .ok v ∧ BytesOk v ∧ bytesValue false true v = -18446744103774322693 :=
  (C52_to_array _ _ neg3_denotes (by decide) false true).resolve_left fun h => absurd h.1 (by decide)
/-- Python's `BigInteger.log10(1000)`. -/
example (fpu : Fpu) (hf : fpu.Accurate (1 / 2 ^ 52)) (hs : Cfg.strictShift = false) :
    ∃ r, pyLog10 (.int ⟨1000, false, by simp⟩) = .ok (.fin r) ∧
      |r - Real.logb 10 (1000 : Int)| ≤ 34 * (1 / 2 ^ 52) * |Real.logb 10 (1000 : Int)| + 1 / 2 ^ 64 :=
  C55_log10 fpu _ hf (by norm_num) (by norm_num) _ 1000 rfl (inRange_small (by decide)) (by decide) hs

/-! ### loops over indices -/

example : Loop.toStr neg3 ≠ .ub .outOfBounds := fun h =>
  absurd ((C68_to_string_exact_iff _ _ neg3_denotes neg3_fits).1 h).1 (by decide +kernel)

end BigIntegerCpp
