import Verif.EndsSpec
import Verif.Lemmas.Closure
import Verif.Lemmas.FastReducer
import Verif.Model.Accessors
import Verif.Model.Log
import Verif.Model.PythonQuery
/-
How calls end: `r.Out D E` for every function of the model.
-/
set_option linter.unusedSectionVars false
set_option linter.unnecessarySeqFocus false
set_option linter.unusedVariables false
namespace BigIntegerCpp
variable [Cfg]
namespace Res
variable {α β : Type} {E : List Exn} {D : Prop}
/-- `r` does not end only if `D`, and throws only what is in `E`. -/
def Out (r : Res α) (D : Prop) (E : List Exn) : Prop := (r = .diverge → D) ∧ ∀ e, r = .throw e → e ∈ E
theorem only_iff {r : Res α} : r.Only E ↔ r.Out False E := Iff.rfl
theorem Out.diverge (h : D) : (Res.diverge : Res α).Out D E := ⟨fun _ => h, nofun⟩
theorem Out.ok {a : α} : (Res.ok a).Out D E := ⟨nofun, nofun⟩
theorem Out.ub {u : UB} : (Res.ub u : Res α).Out D E := ⟨nofun, nofun⟩
theorem Out.abort : (Res.abort : Res α).Out D E := ⟨nofun, nofun⟩
theorem Out.throw {e : Exn} (h : e ∈ E) : (Res.throw e : Res α).Out D E := ⟨nofun, by rintro _ ⟨⟩; exact h⟩
theorem Out.bind {r : Res α} {f : α → Res β} (h : r.Out D E) (hf : ∀ a, r = .ok a → (f a).Out D E) : (r >>= f).Out D E := by
  cases r with
  | ok a => exact hf a rfl
  | throw e => exact .throw (h.2 e rfl)
  | abort => exact .abort
  | ub => exact .ub
  | diverge => exact .diverge (h.1 rfl)
theorem Out.ite {c : Prop} [Decidable c] {r s : Res α} (h1 : c → r.Out D E) (h2 : ¬ c → s.Out D E) :
    (if c then r else s).Out D E := by
  by_cases h : c
  · rw [if_pos h]; exact h1 h
  · rw [if_neg h]; exact h2 h
theorem Out.dite {c : Prop} [Decidable c] {r : c → Res α} {s : ¬ c → Res α} (h1 : ∀ h, (r h).Out D E) (h2 : ∀ h, (s h).Out D E) :
    (if h : c then r h else s h).Out D E := by
  by_cases h : c
  · rw [dif_pos h]; exact h1 h
  · rw [dif_neg h]; exact h2 h
theorem Out.mono {r : Res α} {E' : List Exn} (h : r.Out D E) (hE : ∀ e ∈ E, e ∈ E') : r.Out D E' :=
  ⟨h.1, fun e he => hE e (h.2 e he)⟩
end Res
open Res

/-- One step of `only`: extended below with the function lemmas. -/
syntax "only_step" : tactic
macro_rules | `(tactic| only_step) => `(tactic| dsimp only)
macro_rules | `(tactic| only_step) => `(tactic| split)
macro_rules | `(tactic| only_step) => `(tactic| with_reducible refine Res.Out.dite (fun _ => ?_) fun _ => ?_)
macro_rules | `(tactic| only_step) => `(tactic| with_reducible refine Res.Out.ite (fun _ => ?_) fun _ => ?_)
macro_rules | `(tactic| only_step) => `(tactic| with_reducible refine Res.Out.bind ?_ fun _ _ => ?_)
macro_rules | `(tactic| only_step) => `(tactic| (with_reducible refine Res.Out.throw ?_; first | with_reducible assumption | (simp; done)))
macro_rules | `(tactic| only_step) => `(tactic| with_reducible exact Res.Out.abort)
macro_rules | `(tactic| only_step) => `(tactic| with_reducible exact Res.Out.ub)
macro_rules | `(tactic| only_step) => `(tactic| with_reducible exact Res.Out.ok)
macro_rules | `(tactic| only_step) => `(tactic| with_reducible assumption)
/-- Proves `r.Out D E` along the structure of `r`. -/
macro "only" : tactic => `(tactic| repeat' only_step)

variable {E : List Exn} {D : Prop}

section
variable {α : Type}
theorem cassert_only {c : Prop} [Decidable c] : (cassert c).Out D E := by unfold cassert; only
theorem long_only {z : Int} : (long z).Out D E := by unfold long; only
theorem int_only {z : Int} : (int z).Out D E := by unfold int; only
theorem sizeInt_only {n : Nat} : (sizeInt n).Out D E := by unfold sizeInt; only
theorem idx_only {l : List α} {i : Nat} : (idx l i).Out D E := by unfold idx; only
macro_rules | `(tactic| only_step) => `(tactic| with_reducible first
  | exact cassert_only | exact long_only | exact int_only | exact sizeInt_only | exact idx_only)
theorem idxI_only {l : List α} {i : Int} : (idxI l i).Out D E := by unfold idxI; only
theorem put_only {l : List α} {i : Nat} {v : α} : (put l i v).Out D E := by unfold put; only
macro_rules | `(tactic| only_step) => `(tactic| with_reducible first | exact idxI_only | exact put_only)
theorem putI_only {l : List α} {i : Int} {v : α} : (putI l i v).Out D E := by unfold putI; only
theorem slice_only {l : List α} {i n : Nat} : (slice l i n).Out D E := by unfold slice; only
macro_rules | `(tactic| only_step) => `(tactic| with_reducible first | exact putI_only | exact slice_only)
end

/-! ### AddSub -/
theorem carryLoop_only (xs : List Nat) (c : Int) : (carryLoop xs c).Out D E := by
  induction xs generalizing c with
  | nil => exact .ok
  | cons x xs ih => rw [carryLoop]; only; exact ih _
theorem carrySelf_only (xs : List Nat) (c : Int) : (carrySelf xs c).Out D E := by
  induction xs generalizing c with
  | nil => exact .ok
  | cons x xs ih => rw [carrySelf]; only; exact ih _
macro_rules | `(tactic| only_step) => `(tactic| with_reducible first | exact carryLoop_only _ _ | exact carrySelf_only _ _)
theorem addWord_only {xs : List Nat} {y : Nat} : (addWord xs y).Out D E := by unfold addWord; only
theorem addLoop_only (xs ys : List Nat) (c : Nat) : (addLoop xs ys c).Out D E := by
  induction xs generalizing ys c with
  | nil => cases ys <;> (rw [addLoop]; only)
  | cons x xs ih => cases ys <;> (rw [addLoop]; only; exact ih _ _)
macro_rules | `(tactic| only_step) => `(tactic| with_reducible first | exact addWord_only | exact addLoop_only _ _ _)
theorem addPtr_only {xs ys : List Nat} {n : Nat} : (addPtr xs ys n).Out D E := by unfold addPtr; only
macro_rules | `(tactic| only_step) => `(tactic| with_reducible exact addPtr_only)
theorem addVec_only {xs ys : List Nat} : (addVec xs ys).Out D E := by unfold addVec; only
theorem addSelfLoop_only (xs ys : List Nat) (c : Int) : (addSelfLoop xs ys c).Out D E := by
  induction ys generalizing xs c with
  | nil => rw [addSelfLoop]; only
  | cons y ys ih => cases xs <;> (rw [addSelfLoop]; only; try exact ih _ _)
macro_rules | `(tactic| only_step) => `(tactic| with_reducible first | exact addVec_only | exact addSelfLoop_only _ _ _)
theorem addSelf_only {xs ys : List Nat} : (addSelf xs ys).Out D E := by unfold addSelf; only
theorem subtractWord_only {xs : List Nat} {y : Nat} : (subtractWord xs y).Out D E := by unfold subtractWord; only
theorem subtractLoop_only (xs ys : List Nat) (c : Int) : (subtractLoop xs ys c).Out D E := by
  induction ys generalizing xs c with
  | nil => rw [subtractLoop]; only
  | cons y ys ih => cases xs <;> (rw [subtractLoop]; only; try exact ih _ _)
macro_rules | `(tactic| only_step) => `(tactic| with_reducible first
  | exact addSelf_only | exact subtractWord_only | exact subtractLoop_only _ _ _)
theorem subtractPtr_only {xs ys : List Nat} {n : Nat} : (subtractPtr xs ys n).Out D E := by unfold subtractPtr; only
macro_rules | `(tactic| only_step) => `(tactic| with_reducible exact subtractPtr_only)
theorem subtractVec_only {xs ys : List Nat} : (subtractVec xs ys).Out D E := by unfold subtractVec; only
macro_rules | `(tactic| only_step) => `(tactic| with_reducible exact subtractVec_only)

/-! ### SquMul -/
theorem multiplyWord_only {xs : List Nat} {y : Nat} : (multiplyWord xs y).Out D E := by unfold multiplyWord; only
theorem subtractCoreLoop_only (core lhs rhs : List Nat) (c : Int) : (subtractCoreLoop core lhs rhs c).Out D E := by
  induction lhs generalizing core rhs c with
  | nil => cases rhs <;> (rw [subtractCoreLoop]; only)
  | cons l ls ih =>
    cases core with
    | nil => rw [subtractCoreLoop]; only
    | cons x xs => cases rhs <;> (rw [subtractCoreLoop]; only; exact ih _ _ _)
macro_rules | `(tactic| only_step) => `(tactic| with_reducible first | exact multiplyWord_only | exact subtractCoreLoop_only _ _ _ _)
theorem subtractCore_only {core lhs rhs : List Nat} : (subtractCore lhs rhs core).Out D E := by unfold subtractCore; only
theorem mulRow_only (bits left : List Nat) (r c : Nat) : (mulRow bits left r c).Out D E := by
  induction left generalizing bits c with
  | nil => cases bits <;> (rw [mulRow]; only)
  | cons l ls ih => cases bits <;> (rw [mulRow]; only; try exact ih _ _)
macro_rules | `(tactic| only_step) => `(tactic| with_reducible first | exact subtractCore_only | exact mulRow_only _ _ _ _)
theorem mulSchool_only (left right bits : List Nat) : (mulSchool left right bits).Out D E := by
  induction right generalizing bits with
  | nil => rw [mulSchool]; only
  | cons r rs ih => rw [mulSchool]; only; exact ih _
macro_rules | `(tactic| only_step) => `(tactic| with_reducible exact mulSchool_only _ _ _)
theorem mulCore_only (n : Nat) (left right bits : List Nat) : (mulCore left right bits n).Out D E := by
  induction n using Nat.strong_induction_on generalizing left right bits with
  | _ n ih =>
    rw [mulCore]
    only
    all_goals exact ih _ (by simp only [MultiplyThreshold] at *; omega) _ _ _
macro_rules | `(tactic| only_step) => `(tactic| with_reducible exact mulCore_only _ _ _ _)
theorem multiplyVec_only {xs ys : List Nat} : (multiplyVec xs ys).Out D E := by unfold multiplyVec; only
theorem sqRow_only (bits pre : List Nat) (v c : Nat) : (sqRow bits pre v c).Out D E := by
  induction pre generalizing bits c with
  | nil =>
    rcases bits with - | ⟨x, - | ⟨y, bits⟩⟩ <;> rw [sqRow] <;> first | exact .ub | exact .ok | exact nofun
  | cons l ls ih => cases bits <;> rw [sqRow] <;> first | exact .ub | (only; exact ih _ _) | exact nofun
macro_rules | `(tactic| only_step) => `(tactic| with_reducible first | exact multiplyVec_only | exact sqRow_only _ _ _ _)
theorem sqSchool_only (pre vs bits : List Nat) : (sqSchool pre vs bits).Out D E := by
  induction vs generalizing pre bits with
  | nil => rw [sqSchool]; only
  | cons r rs ih => rw [sqSchool]; only; exact ih _ _
macro_rules | `(tactic| only_step) => `(tactic| with_reducible exact sqSchool_only _ _ _)
theorem sqCore_only (n : Nat) (value bits : List Nat) : (sqCore value bits n).Out D E := by
  induction n using Nat.strong_induction_on generalizing value bits with
  | _ n ih =>
    rw [sqCore]
    only
    all_goals exact ih _ (by simp only [SquareThreshold] at *; omega) _ _
macro_rules | `(tactic| only_step) => `(tactic| with_reducible exact sqCore_only _ _ _)
theorem squareVec_only {xs : List Nat} : (squareVec xs).Out D E := by unfold squareVec; only
macro_rules | `(tactic| only_step) => `(tactic| with_reducible exact squareVec_only)

/-! ### DivRem -/
theorem divWordLoop_only {y : Nat} (h : y ≠ 0 ∨ .divideByZero ∈ E) (xs : List Nat) : (divWordLoop xs y).Out D E := by
  induction xs with
  | nil => exact .ok
  | cons x xs ih =>
    rw [divWordLoop]; only
    exact .throw (h.resolve_left (not_not.2 ‹_›))
theorem divideWordRem_only {xs : List Nat} {y : Nat} (h : y ≠ 0 ∨ .divideByZero ∈ E) : (divideWordRem xs y).Out D E := by
  have := divWordLoop_only (D := D) h xs
  unfold divideWordRem; only
theorem divideWord_only {xs : List Nat} {y : Nat} (h : y ≠ 0 ∨ .divideByZero ∈ E) : (divideWord xs y).Out D E := by
  have := divWordLoop_only (D := D) h xs
  unfold divideWord; only
theorem remWordLoop_only {y : Nat} (h : y ≠ 0 ∨ .divideByZero ∈ E) (xs : List Nat) : (remWordLoop xs y).Out D E := by
  induction xs with
  | nil => exact .ok
  | cons x xs ih =>
    rw [remWordLoop]; only
    exact .throw (h.resolve_left (not_not.2 ‹_›))
theorem remainderWord_only {xs : List Nat} {y : Nat} (h : y ≠ 0 ∨ .divideByZero ∈ E) : (remainderWord xs y).Out D E := by
  have := remWordLoop_only (D := D) h xs
  unfold remainderWord; only
theorem addDivisor_only (xs ys : List Nat) (c : Nat) : (addDivisor xs ys c).Out D E := by
  induction ys generalizing xs c with
  | nil => rw [addDivisor]; only
  | cons y ys ih => cases xs <;> (rw [addDivisor]; only; try exact ih _ _)
theorem subtractDivisor_only (xs ys : List Nat) (q c : Nat) : (subtractDivisor xs ys q c).Out D E := by
  induction ys generalizing xs c with
  | nil => rw [subtractDivisor]; only
  | cons y ys ih => cases xs <;> (rw [subtractDivisor]; only; all_goals exact ih _ _)
macro_rules | `(tactic| only_step) => `(tactic| with_reducible first | exact addDivisor_only _ _ _ | exact subtractDivisor_only _ _ _ _)
theorem divideGuess_only {lhs rhs : List Nat} {shift divHi divLo n : Nat} (h : divHi ≠ 0 ∨ .divideByZero ∈ E) :
    (divideGuess lhs rhs shift divHi divLo n).Out D E := by
  unfold divideGuess; only
  all_goals exact .throw (h.resolve_left (not_not.2 ‹_›))
theorem divideApply_only {lhs rhs : List Nat} {n t digit : Nat} : (divideApply lhs rhs n t digit).Out D E := by
  unfold divideApply; only
theorem divideLoop_only {rhs : List Nat} {shift divHi divLo : Nat} (h : divHi ≠ 0 ∨ .divideByZero ∈ E) (k : Nat) (lhs bits : List Nat) :
    (divideLoop rhs shift divHi divLo k lhs bits).Out D E := by
  induction k generalizing lhs bits with
  | zero => exact .ok
  | succ k ih =>
    rw [divideLoop, divideStep]; only
    · exact divideGuess_only h
    · exact divideApply_only
    · exact ih _ _
theorem divideCore_only {lhs rhs bits : List Nat} (h : WordsOk rhs) : (divideCore lhs rhs bits).Out D E := by
  unfold divideCore
  refine .bind cassert_only fun _ _ => .bind cassert_only fun _ _ => .bind cassert_only fun _ _ => .bind cassert_only fun _ _ =>
    .bind idx_only fun hi hhi => .bind (by only) fun lo _ => ?_
  dsimp only
  refine .bind (by only) fun p hp => divideLoop_only (All.ite (P := fun p => p.1 ≠ 0 ∨ .divideByZero ∈ E) ?_ ?_ p hp) _ _ _
  · refine fun hs => .ite (fun _ => .ub) fun h32 => .bind' fun _ => .ok (.inl ?_)
    have h0 : hi ≠ 0 := by rintro rfl; exact h32 (by decide)
    obtain ⟨z1, z2, z3⟩ := leadingZeros_spec h0 (idx_all h _ _ hhi)
    rw [Nat.shiftLeft_eq, u32_of_lt z3]
    have := Nat.left_le_or (n := hi * 2 ^ leadingZeros hi) (m := lo >>> (32 - leadingZeros hi))
    omega
  · refine fun hs => .ok (.inl ?_)
    rintro rfl
    exact hs (by decide)
theorem divideVecRem_only {lhs rhs : List Nat} (h : WordsOk rhs) : (divideVecRem lhs rhs).Out D E := by
  unfold divideVecRem; only; exact divideCore_only h
theorem divideVec_only {lhs rhs : List Nat} (h : WordsOk rhs) : (divideVec lhs rhs).Out D E := by
  unfold divideVec; only; exact divideCore_only h
theorem remainderVec_only {lhs rhs : List Nat} (h : WordsOk rhs) : (remainderVec lhs rhs).Out D E := by
  unfold remainderVec; only; exact divideCore_only h

/-! ### objects -/
theorem cabs_only {z : Int} : (cabs z).Out D E := by unfold cabs; only
theorem assertValid_only {b : BigInt} : (assertValid b).Out D E := by unfold assertValid; only
macro_rules | `(tactic| only_step) => `(tactic| with_reducible first | exact cabs_only | exact assertValid_only)
theorem checked_only {b : BigInt} : (checked b).Out D E := by unfold checked; only
macro_rules | `(tactic| only_step) => `(tactic| with_reducible exact checked_only)
theorem ofInt32_only {z : Int} : (ofInt32 z).Out D E := by unfold ofInt32; only
theorem ofUInt32_only {n : Nat} : (ofUInt32 n).Out D E := by unfold ofUInt32; only
theorem ofInt64_only {z : Int} : (ofInt64 z).Out D E := by unfold ofInt64; only
theorem ofUInt64_only {n : Nat} : (ofUInt64 n).Out D E := by unfold ofUInt64; only
theorem ofParts_only {n : Int} {ws : List Nat} : (ofParts n ws).Out D E := by unfold ofParts; only
theorem ofMagnitude_only {ws : List Nat} {b : Bool} : (ofMagnitude ws b).Out D E := by unfold ofMagnitude; only
theorem ofTwos_only {ws : List Nat} : (ofTwos ws).Out D E := by unfold ofTwos; only
macro_rules | `(tactic| only_step) => `(tactic| with_reducible first
  | exact ofInt32_only | exact ofUInt32_only | exact ofInt64_only | exact ofUInt64_only | exact ofParts_only
  | exact ofMagnitude_only | exact ofTwos_only)
theorem addSigned_only {x y : List Nat} {s t : Int} : (addSigned x s y t).Out D E := by unfold addSigned; only
theorem subtractSigned_only {x y : List Nat} {s t : Int} : (subtractSigned x s y t).Out D E := by unfold subtractSigned; only
macro_rules | `(tactic| only_step) => `(tactic| with_reducible first | exact addSigned_only | exact subtractSigned_only)
namespace BigInt
variable {a b e m : BigInt}
theorem add_only : (a.add b).Out D E := by unfold add; only
theorem sub_only : (a.sub b).Out D E := by unfold sub; only
theorem mul_only : (a.mul b).Out D E := by unfold mul; only
macro_rules | `(tactic| only_step) => `(tactic| with_reducible first | exact add_only | exact sub_only | exact mul_only)

theorem natAbs_ne {z : Int} {E : List Exn} (h : z ≠ 0 ∨ .divideByZero ∈ E) : (cabs z).All fun n => n ≠ 0 ∨ .divideByZero ∈ E :=
  .ite (fun _ => .ub) fun _ => .ok (h.imp_left (by omega))
theorem rem_only (hw : WordsOk b.bits) (h : (b.bits = [] → b.sign ≠ 0) ∨ .divideByZero ∈ E) : (a.rem b).Out D E := by
  unfold rem; only
  · exact .throw (h.resolve_left fun h => h ‹_ ∧ _›.2 ‹_›)
  · exact remainderWord_only (natAbs_ne (h.imp_left fun h => h ‹b.bits = []›) _ ‹cabs _ = _›)
  · exact remainderVec_only hw
theorem div_only (hw : WordsOk b.bits) (h : (b.bits = [] → b.sign ≠ 0) ∨ .divideByZero ∈ E) : (a.div b).Out D E := by
  unfold div; only
  · exact .throw (h.resolve_left fun h => h ‹_ ∧ _›.2 ‹_›)
  · exact divideWord_only (natAbs_ne (h.imp_left fun h => h ‹b.bits = []›) _ ‹cabs _ = _›)
  · exact divideVec_only hw
theorem divRem_only (hw : WordsOk b.bits) (h : (b.bits = [] → b.sign ≠ 0) ∨ .divideByZero ∈ E) : (a.divRem b).Out D E := by
  unfold divRem; only
  · exact .throw (h.resolve_left fun h => h ‹_ ∧ _›.2 ‹_›)
  · exact divideWordRem_only (natAbs_ne (h.imp_left fun h => h ‹b.bits = []›) _ ‹cabs _ = _›)
  · exact divideVecRem_only hw
theorem neg_only : a.neg.Out D E := by unfold neg; only
theorem plus_only : a.plus.Out D E := by unfold plus; only
theorem inc_only : a.inc.Out D E := by unfold inc; only
theorem dec_only : a.dec.Out D E := by unfold dec; only
macro_rules | `(tactic| only_step) => `(tactic| with_reducible first | exact neg_only | exact plus_only | exact inc_only | exact dec_only)
theorem postInc_only : a.postInc.Out D E := by unfold postInc; only
theorem postDec_only : a.postDec.Out D E := by unfold postDec; only
theorem compareTo_only : (a.compareTo b).Out D E := by unfold compareTo; only
theorem equals_only : (a.equals b).Out D E := by unfold equals; only
macro_rules | `(tactic| only_step) => `(tactic| with_reducible first | exact compareTo_only | exact equals_only)
theorem ne_only : (a.ne b).Out D E := by unfold BigInt.ne; only
theorem lt_only : (a.lt b).Out D E := by unfold BigInt.lt; only
theorem gt_only : (a.gt b).Out D E := lt_only
theorem le_only : (a.le b).Out D E := .bind gt_only fun _ _ => .ok
theorem ge_only : (a.ge b).Out D E := .bind lt_only fun _ _ => .ok
theorem max_only : (a.max b).Out D E := by unfold BigInt.max; only
theorem min_only : (a.min b).Out D E := by unfold BigInt.min; only
theorem signum_only : a.signum.Out D E := by unfold signum; only
macro_rules | `(tactic| only_step) => `(tactic| with_reducible exact ge_only)
theorem abs_only : a.abs.Out D E := by unfold BigInt.abs; only
theorem compl_only : a.compl.Out D E := by unfold compl; only
theorem isZero_only : a.isZero.Out D E := by unfold isZero; only
theorem isOne_only : a.isOne.Out D E := by unfold isOne; only
theorem isEven_only : a.isEven.Out D E := by unfold isEven; only
theorem isPowerOfTwo_only : a.isPowerOfTwo.Out D E := by unfold isPowerOfTwo; only
macro_rules | `(tactic| only_step) => `(tactic| with_reducible first | exact isZero_only | exact isOne_only | exact isEven_only)

/-! ### bits -/
theorem partsForBits_only : a.partsForBits.Out D E := by unfold partsForBits; only
macro_rules | `(tactic| only_step) => `(tactic| with_reducible exact partsForBits_only)
theorem shlPos_only {n : Nat} : (a.shlPos n).Out D E := by unfold shlPos; only
theorem shrPos_only {n : Nat} : (a.shrPos n).Out D E := by unfold shrPos; only
macro_rules | `(tactic| only_step) => `(tactic| with_reducible first | exact shlPos_only | exact shrPos_only)
theorem shl_only {n : Int} : (a.shl n).Out D E := by unfold shl; only
theorem shr_only {n : Int} : (a.shr n).Out D E := by unfold shr; only
theorem toUInt32Array_only : a.toUInt32Array.Out D E := by unfold toUInt32Array; only
macro_rules | `(tactic| only_step) => `(tactic| with_reducible exact toUInt32Array_only)
theorem bitwise_only {f : Nat → Nat → Nat} : (bitwise f a b).Out D E := by unfold bitwise; only
macro_rules | `(tactic| only_step) => `(tactic| with_reducible exact bitwise_only)
theorem xor_only : (a.xor b).Out D E := by unfold BigInt.xor; only
theorem and_only : (a.and b).Out D E := by unfold BigInt.and; only
theorem or_only : (a.or b).Out D E := by unfold BigInt.or; only
theorem leadingZerosCount_only {n : Nat} : (leadingZerosCount n).Out D E := by unfold leadingZerosCount; only
macro_rules | `(tactic| only_step) => `(tactic| with_reducible exact leadingZerosCount_only)
theorem bitLength_only : a.bitLength.Out D E := by unfold bitLength; only
end BigInt

/-! ### pow, mod_pow -/
theorem actualLength_only {v : List Nat} {n : Nat} : (actualLength v n).Out D E := by unfold actualLength; only
macro_rules | `(tactic| only_step) => `(tactic| with_reducible exact actualLength_only)
namespace BitsBuffer
variable {s v t : BitsBuffer}
theorem ofWord_only {n v : Nat} : (ofWord n v).Out D E := by unfold ofWord; only
theorem ofWords_only {n : Nat} {v : List Nat} : (ofWords n v).Out D E := by unfold ofWords; only
theorem multiplyMem_only {l r b : List Nat} {nl nr nb : Nat} : (multiplyMem l nl r nr b nb).Out D E := by unfold multiplyMem; only
theorem apply_only {n : Nat} : (apply s t n).Out D E := by unfold apply; only
macro_rules | `(tactic| only_step) => `(tactic| with_reducible first
  | exact ofWord_only | exact ofWords_only | exact multiplyMem_only | exact apply_only)
theorem multiplySelf_only : (multiplySelf s v t).Out D E := by unfold multiplySelf; only
theorem squareSelf_only : (squareSelf s t).Out D E := by unfold squareSelf; only
macro_rules | `(tactic| only_step) => `(tactic| with_reducible first | exact multiplySelf_only | exact squareSelf_only)
theorem reduce_only {m : List Nat} (h : WordsOk m) : (reduce s m).Out D E := by
  unfold reduce; only; exact divideCore_only h
end BitsBuffer
open BitsBuffer

namespace FastReducer
theorem make_only {m : List Nat} (h : WordsOk m) : (make m).Out D E := by
  unfold make; only; exact divideVec_only h
theorem divMul_only {l r : List Nat} {nl nr bs k : Nat} : (divMul l nl r nr bs k).Out D E := by unfold divMul; only
theorem subtractSelf_only (left right : List Nat) (n : Nat) (c : Int) : (subtractSelf left right n c).Out D E := by
  induction right generalizing left n c with
  | nil => rw [subtractSelf]; only
  | cons y ys ih => cases left <;> (rw [subtractSelf]; only; try exact ih _ _ _)
theorem subtractSelf_all {left : List Nat} (hl : WordsOk left) (right : List Nat) (n : Nat) (c : Int) :
    (subtractSelf left right n c).All WordsOk := by
  induction right generalizing left n c with
  | nil => rw [subtractSelf]; exact .bind (slice_all' hl _ _) fun _ h => .bind (carrySelf_all h) fun _ h => .ok (wordsOk_append.2 ⟨h, hl.drop _⟩)
  | cons y ys ih =>
    cases left with
    | nil => rw [subtractSelf]; exact .ub
    | cons x xs => rw [subtractSelf]; exact .bind' fun _ => .bind (ih (wordsOk_cons.1 hl).2 _ _) fun _ h => .ok (wordsOk_cons.2 ⟨u32i_lt _, h⟩)
theorem subMod_only {left right ms : List Nat} {nl nr k : Nat} (hw : WordsOk ms) (hne : ms ≠ []) (htop : ms.getLast? ≠ some 0)
    (hl : WordsOk left) : (subMod left nl right nr ms k).Out D E := by
  unfold subMod
  dsimp only
  refine .bind slice_only fun r _ => .bind (subtractSelf_only _ _ _ _) fun l hl' => .bind actualLength_only fun n hn => ?_
  have hw' := subtractSelf_all hl _ _ _ _ hl'
  unfold actualLength slice at hn
  generalize (if nl > k then k else nl) = N at *
  by_cases hN : 0 + N ≤ l.length
  · rw [if_pos hN, Res.ok_bind] at hn
    cases hn
    rw [List.drop_zero]
    obtain ⟨t1, t2, t3⟩ := trimmed_take (l := l) (n := N) (by omega)
    obtain ⟨n, e, -⟩ := subModLoop_spec hw hne htop (val l + 1) hw' (ll := trimLen (l.take N)) (by omega) t2
      (Nat.lt_succ_of_le (by
        have := congrArg val (List.take_append_drop (trimLen (l.take N)) l)
        rw [val_append] at this
        exact this ▸ Nat.le_add_right _ _))
    rw [e]
    exact .ok
  · rw [if_neg hN] at hn
    cases hn
theorem reduce_only {fr : FastReducer} {v : List Nat} {n : Nat} (hw : WordsOk fr.modulus) (hne : fr.modulus ≠ [])
    (htop : fr.modulus.getLast? ≠ some 0) (hv : WordsOk v) : (reduce fr v n).Out D E := by
  unfold reduce; only
  · exact divMul_only
  · exact divMul_only
  · exact subMod_only hw hne htop hv
end FastReducer
theorem reduceFast_only {fr : FastReducer} {b : BitsBuffer} (hw : WordsOk fr.modulus) (hne : fr.modulus ≠ [])
    (htop : fr.modulus.getLast? ≠ some 0) (hb : WordsOk b.bits) : (b.reduceFast fr).Out D E := by
  unfold reduceFast; only; exact FastReducer.reduce_only hw hne htop hb
theorem powBound_only (h : .overflowError ∈ E) (p v r : Nat) : (powBound p v r).Out D E := by
  induction p using Nat.strong_induction_on generalizing v r with
  | _ p ih => rw [powBound]; only; all_goals exact ih _ (by omega) _ _

section
variable {red : BitsBuffer → Res BitsBuffer} (hred : ∀ b, WordsOk b.bits → (red b).All fun b => WordsOk b.bits)
  (hro : ∀ b, WordsOk b.bits → (red b).Out D E)
include hred hro
theorem powLoop_only (p : Nat) {v r t : BitsBuffer} (hv : WordsOk v.bits) (hr : WordsOk r.bits) (ht : WordsOk t.bits) :
    (powLoop red p v r t).Out D E := by
  induction p using Nat.strong_induction_on generalizing v r t with
  | _ p ih =>
    rw [powLoop]
    refine .dite (fun _ => .ok) fun h => ?_
    have k1 : Res.All (if p % 2 = 1 then do
        let (r, t) ← r.multiplySelf v t
        let r ← red r
        Res.ok (r, t)
      else Res.ok (r, t)) fun p => WordsOk p.1.bits ∧ WordsOk p.2.bits :=
      .ite (fun _ => .bind (multiplySelf_all hr ht) fun p hp => .bind (hred _ hp.1) fun r hr => .ok ⟨hr, hp.2⟩)
          fun _ => .ok ⟨hr, ht⟩
    refine .bind ?_ ?_
    · refine .ite (fun _ => .bind multiplySelf_only fun p hp => ?_) fun _ => .ok
      exact .bind (hro _ (multiplySelf_all hr ht p hp).1) fun _ _ => .ok
    · rintro ⟨r, t⟩ hp
      obtain ⟨hr, ht⟩ := k1 _ hp
      dsimp only at hr ht
      clear k1 hp
      have k2 : Res.All (if p ≠ 1 then do
          let (v, t) ← v.squareSelf t
          let v ← red v
          Res.ok (v, t)
        else Res.ok (v, t)) fun p => WordsOk p.1.bits ∧ WordsOk p.2.bits :=
        .ite (fun _ => .bind (squareSelf_all hv ht) fun p hp => .bind (hred _ hp.1) fun r hr => .ok ⟨hr, hp.2⟩)
            fun _ => .ok ⟨hv, ht⟩
      refine .bind ?_ ?_
      · refine .ite (fun _ => .bind squareSelf_only fun p hp => ?_) fun _ => .ok
        exact .bind (hro _ (squareSelf_all hv ht p hp).1) fun _ _ => .ok
      · rintro ⟨v, t⟩ hp
        obtain ⟨hv, ht⟩ := k2 _ hp
        exact ih _ (by omega) hv hr ht
theorem powBits_only (n p : Nat) {st : BitsBuffer × BitsBuffer × BitsBuffer}
    (h : WordsOk st.1.bits ∧ WordsOk st.2.1.bits ∧ WordsOk st.2.2.bits) : (powBits red n p st).Out D E := by
  induction n generalizing p st with
  | zero => exact .ok
  | succ n ih =>
    obtain ⟨v, r, t⟩ := st
    obtain ⟨hv, hr, ht⟩ := h
    rw [powBits]
    have k1 : Res.All (if p % 2 = 1 then do
        let (r, t) ← r.multiplySelf v t
        let r ← red r
        Res.ok (r, t)
      else Res.ok (r, t)) fun p => WordsOk p.1.bits ∧ WordsOk p.2.bits :=
      .ite (fun _ => .bind (multiplySelf_all hr ht) fun p hp => .bind (hred _ hp.1) fun r hr => .ok ⟨hr, hp.2⟩)
          fun _ => .ok ⟨hr, ht⟩
    refine .bind ?_ ?_
    · refine .ite (fun _ => .bind multiplySelf_only fun p hp => ?_) fun _ => .ok
      exact .bind (hro _ (multiplySelf_all hr ht p hp).1) fun _ _ => .ok
    · rintro ⟨r, t⟩ hp
      obtain ⟨hr, ht⟩ := k1 _ hp
      refine .bind squareSelf_only fun p hp => ?_
      obtain ⟨h1, h2⟩ := squareSelf_all hv ht p hp
      exact .bind (hro _ h1) fun v hv => ih _ ⟨hred _ h1 _ hv, hr, h2⟩
theorem powWords_only (ps : List Nat) {st : BitsBuffer × BitsBuffer × BitsBuffer}
    (h : WordsOk st.1.bits ∧ WordsOk st.2.1.bits ∧ WordsOk st.2.2.bits) : (powWords red ps st).Out D E := by
  induction ps generalizing st with
  | nil => exact .ok
  | cons p ps ih => exact .bind (powBits_only hred hro 32 p h) fun st hst => ih (powBits_all hred 32 p h st hst)
end

theorem powCalc_only (h : .overflowError ∈ E) {mk : Nat → Res BitsBuffer} (hmk : ∀ n, (mk n).All fun b => WordsOk b.bits)
    (hmo : ∀ n, (mk n).Out D E) {l p : Nat} : (powCalc mk l p).Out D E :=
  .bind (powBound_only h _ _ _) fun _ _ => .bind (hmo _) fun _ hv => .bind ofWord_only fun _ ht => .bind ofWord_only fun _ hr =>
    .bind (powLoop_only (fun _ h => .ok h) (fun _ _ => .ok) _ (hmk _ _ hv) (ofWord_all (by decide) _ hr) (ofWord_all (by decide) _ ht))
      fun _ _ => .ok
theorem BigInt.pow_only {a : BigInt} (ha : a.Valid) {n : Int} (h : 0 ≤ n ∨ .outOfRange ∈ E) (ho : .overflowError ∈ E) :
    (a.pow n).Out D E := by
  unfold BigInt.pow; only
  · exact .throw (h.resolve_left (by omega))
  · next s hs => exact powCalc_only ho (fun _ => ofWord_all (cabs_all ha.signRange _ hs)) fun _ => ofWord_only
  · exact powCalc_only ho (fun _ => ofWords_all ha.words) fun _ => ofWords_only

theorem powModWord_only {m : Nat} (h : m ≠ 0 ∨ .divideByZero ∈ E) (p v r : Nat) : (powModWord p m v r).Out D E := by
  induction p using Nat.strong_induction_on generalizing v r with
  | _ p ih =>
    rw [powModWord]; only
    all_goals first | exact ih _ (by omega) _ _ | exact .throw (h.resolve_left (not_not.2 ‹_›))
theorem powModBits_only {m : Nat} (n p : Nat) (st : Nat × Nat) : (powModBits m n p st).Out D E := by
  induction n generalizing p st with
  | zero => exact .ok
  | succ n ih => obtain ⟨v, r⟩ := st; rw [powModBits]; only; all_goals exact ih _ _
theorem powModWords_only {m : Nat} (h : m ≠ 0 ∨ .divideByZero ∈ E) (ps : List Nat) (st : Nat × Nat) : (powModWords m ps st).Out D E := by
  induction ps generalizing st with
  | nil => exact .ub
  | cons p ps ih =>
    cases ps with
    | nil => exact powModWord_only h _ _ _
    | cons q qs => exact .bind (powModBits_only _ _ _) fun _ _ => ih _

theorem make_modulus {m : List Nat} : (FastReducer.make m).All fun fr => fr.modulus = m := .bind' fun _ => .bind' fun _ => .ok rfl
section
variable {m : List Nat} {v : BitsBuffer} (hv : WordsOk v.bits) (hw : WordsOk m) (hne : m ≠ []) (htop : m.getLast? ≠ some 0)
include hv hw hne htop
theorem powCoreMod_only {p : Nat} : (powCoreMod p m v).Out D E := by
  refine .bind ofWord_only fun _ ht => .bind ofWord_only fun _ hr => ?_
  have ht := ofWord_all (by decide) _ ht
  have hr := ofWord_all (by decide) _ hr
  refine .ite (fun _ => .bind (powLoop_only (fun _ h => reduce_all h) (fun _ _ => reduce_only hw) _ hv hr ht) fun _ _ => .ok) fun _ => ?_
  refine .bind (FastReducer.make_only hw) fun fr hfr => ?_
  have := make_modulus _ hfr
  subst this
  exact .bind (powLoop_only (fun _ h => reduceFast_all h) (fun _ h => reduceFast_only hw hne htop h) _ hv hr ht) fun _ _ => .ok
theorem powCoreModWords_only {p : List Nat} : (powCoreModWords p m v).Out D E := by
  refine .bind ofWord_only fun _ ht => .bind ofWord_only fun _ hr => .bind idx_only fun _ _ => ?_
  have ht := ofWord_all (by decide) _ ht
  have hr := ofWord_all (by decide) _ hr
  refine .ite (fun _ => ?_) fun _ => ?_
  · have k := powWords_all (fun _ h => reduce_all (m := m) h) p.dropLast (st := (_, _, _)) ⟨hv, hr, ht⟩
    refine .bind (powWords_only (fun _ h => reduce_all h) (fun _ _ => reduce_only hw) _ ⟨hv, hr, ht⟩) fun st hst => ?_
    obtain ⟨k1, k2, k3⟩ := k _ hst
    exact .bind (powLoop_only (fun _ h => reduce_all h) (fun _ _ => reduce_only hw) _ k1 k2 k3) fun _ _ => .ok
  · refine .bind (FastReducer.make_only hw) fun fr hfr => ?_
    have := make_modulus _ hfr
    subst this
    have k := powWords_all (fun _ h => reduceFast_all (fr := fr) h) p (st := (_, _, _)) ⟨hv, hr, ht⟩
    refine .bind (powWords_only (fun _ h => reduceFast_all h) (fun _ h => reduceFast_only hw hne htop h) _ ⟨hv, hr, ht⟩) fun st hst => ?_
    obtain ⟨k1, k2, k3⟩ := k _ hst
    exact .bind (powLoop_only (fun _ h => reduceFast_all h) (fun _ h => reduceFast_only hw hne htop h) _ k1 k2 k3) fun _ _ => .ok
end
theorem modPowBase_only {v m : List Nat} (hw : WordsOk m) : (modPowBase v m).Out D E := by
  unfold modPowBase; only; exact remainderVec_only hw
theorem BigInt.modPow_only {a e m : BigInt} (ha : a.Valid) (hm : m.Valid) (he : 0 ≤ e.sign ∨ .outOfRange ∈ E)
    (h : (m.bits = [] → m.sign ≠ 0) ∨ .divideByZero ∈ E) : (a.modPow e m).Out D E := by
  have hbase : Res.All (if a.bits = [] then do
      let s ← cabs a.sign
      let size ← sizeInt (m.bits.length + m.bits.length)
      ofWord size s
    else modPowBase a.bits m.bits) fun b => WordsOk b.bits :=
    .ite (fun _ => .bind (cabs_all ha.signRange) fun _ h => .bind' fun _ => ofWord_all h) fun _ => modPowBase_all ha.words
  unfold BigInt.modPow; only
  · exact .throw (he.resolve_left (by omega))
  · exact remainderWord_only (natAbs_ne (h.imp_left fun h => h ‹m.bits = []›) _ ‹cabs m.sign = _›)
  · exact powModWord_only (natAbs_ne (h.imp_left fun h => h ‹m.bits = []›) _ ‹cabs m.sign = _›) _ _ _
  · exact powModWords_only (natAbs_ne (h.imp_left fun h => h ‹m.bits = []›) _ ‹cabs m.sign = _›) _ _
  · exact modPowBase_only hm.words
  · exact powCoreMod_only (hbase _ ‹_›) hm.words ‹_› hm.topNonzero
  · exact powCoreModWords_only (hbase _ ‹_›) hm.words ‹_› hm.topNonzero

/-! ### bytes, conversions, text -/
theorem shl8_only {s : Int} : (shl8 s).Out D E := by unfold shl8; only
macro_rules | `(tactic| only_step) => `(tactic| with_reducible exact shl8_only)
theorem packSign_only (v : List Nat) (st : Int) (n : Nat) (c s : Int) : (packSign v st n c s).Out D E := by
  induction n generalizing c s with
  | zero => exact .ok
  | succ n ih => rw [packSign]; only; exact ih _ _
theorem packWord_only (v : List Nat) (st : Int) (n : Nat) (c : Int) (w : Nat) : (packWord v st n c w).Out D E := by
  induction n generalizing c w with
  | zero => exact .ok
  | succ n ih => rw [packWord]; only; exact ih _ _
macro_rules | `(tactic| only_step) => `(tactic| with_reducible first | exact packSign_only _ _ _ _ _ | exact packWord_only _ _ _ _ _)
theorem packWords_only (v : List Nat) (st : Int) (n : Nat) (c : Int) : (packWords v st n c).Out D E := by
  induction n generalizing c with
  | zero => exact .ok
  | succ n ih => rw [packWords]; only; exact ih _
macro_rules | `(tactic| only_step) => `(tactic| with_reducible exact packWords_only _ _ _ _)
theorem ofBytes_only {v : List Nat} {u b : Bool} : (ofBytes v u b).Out D E := by unfold ofBytes; only
theorem storeBytes_only (inc : Int) (bs dest : List Nat) (cur : Int) : (storeBytes inc bs dest cur).Out D E := by
  induction bs generalizing dest cur with
  | nil => exact .ok
  | cons b bs ih => rw [storeBytes]; only; exact ih _ _
theorem firstNonZero_only (xs : List Nat) : (firstNonZero xs).Out D E := by
  induction xs with
  | nil => exact .ub
  | cons x xs ih => rw [firstNonZero]; only
macro_rules | `(tactic| only_step) => `(tactic| with_reducible first
  | exact storeBytes_only _ _ _ _ | exact firstNonZero_only _ | exact ofBytes_only)
namespace BigInt
variable {a b : BigInt}
theorem toBytesMode_only {mode : GetBytesMode} {u be p : Bool} (h : (u = true → 0 ≤ a.sign) ∨ .runtimeError ∈ E) :
    (a.toBytesMode mode u be p).Out D E := by
  unfold toBytesMode; only
  next h2 => exact .throw (h.resolve_left fun h => absurd (h h2.1) (by omega))
theorem toBytes_only {u be : Bool} (h : (u = true → 0 ≤ a.sign) ∨ .runtimeError ∈ E) : (a.toBytes u be).Out D E :=
  .bind (toBytesMode_only h) fun _ _ => .ok
theorem byteCount_only {u : Bool} (h : (u = true → 0 ≤ a.sign) ∨ .runtimeError ∈ E) : (a.byteCount u).Out D E :=
  .bind (toBytesMode_only h) fun _ _ => .ok
theorem toInt32_only (h : .overflowError ∈ E) : a.toInt32.Out D E := by unfold toInt32; only
theorem toUInt32_only (h : .overflowError ∈ E) : a.toUInt32.Out D E := by unfold toUInt32; only
theorem twoWords_only {ws : List Nat} : (twoWords ws).Out D E := by unfold twoWords; only
macro_rules | `(tactic| only_step) => `(tactic| with_reducible exact twoWords_only)
theorem toLong_only (h : .overflowError ∈ E) : a.toLong.Out D E := by unfold toLong; only
theorem toULong_only (h : .overflowError ∈ E) : a.toULong.Out D E := by unfold toULong; only
end BigInt
theorem doubleFromParts_only {s e : Int} {m : Nat} : (doubleFromParts s e m).Out D E := by unfold doubleFromParts; only
macro_rules | `(tactic| only_step) => `(tactic| with_reducible exact doubleFromParts_only)
theorem ofDouble_only {d : Nat} (h : doubleIsFinite d ∨ .overflowError ∈ E) : (ofDouble d).Out D E := by
  unfold ofDouble; only
  exact .throw (h.resolve_left ‹_›)
theorem BigInt.toDouble_only {a : BigInt} : a.toDouble.Out D E := by unfold BigInt.toDouble intToDouble; only
theorem baseLoop_only (ds : List Nat) (c : Nat) : (baseLoop ds c).Out D E := by
  induction ds generalizing c with
  | nil => exact .ok
  | cons d ds ih => rw [baseLoop]; only; exact ih _
theorem pushDigit_only {n d : Nat} {ds : List Nat} : (pushDigit n ds d).Out D E := by unfold pushDigit; only
macro_rules | `(tactic| only_step) => `(tactic| with_reducible first | exact baseLoop_only _ _ | exact pushDigit_only)
theorem toBase_only (n : Nat) (ws : List Nat) : (toBase n ws).Out D E := by
  induction ws with
  | nil => exact .ok
  | cons w ws ih => rw [toBase]; only
theorem pushChar_only {st : Nat × List Char} {c : Char} : (pushChar st c).Out D E := by unfold pushChar; only
macro_rules | `(tactic| only_step) => `(tactic| with_reducible first | exact toBase_only _ _ | exact pushChar_only)
theorem putNine_only (n u : Nat) (st : Nat × List Char) : (putNine n u st).Out D E := by
  induction n generalizing u st with
  | zero => exact .ok
  | succ n ih => rw [putNine]; only; exact ih _ _
theorem putTop_only (u : Nat) (st : Nat × List Char) : (putTop u st).Out D E := by
  induction u using Nat.strong_induction_on generalizing st with
  | _ u ih => rw [putTop]; only; exact ih _ (by omega) _
macro_rules | `(tactic| only_step) => `(tactic| with_reducible first | exact putNine_only _ _ _ | exact putTop_only _ _)
theorem putLimbs_only (ds : List Nat) (st : Nat × List Char) : (putLimbs ds st).Out D E := by
  induction ds generalizing st with
  | nil => exact .ub
  | cons d ds ih =>
    cases ds with
    | nil => exact putTop_only _ _
    | cons e es => rw [putLimbs]; only; exact ih _; exact nofun
macro_rules | `(tactic| only_step) => `(tactic| with_reducible exact putLimbs_only _ _)
namespace BigInt
variable {a b : BigInt}
theorem toStr_only (h : .overflowError ∈ E) : a.toStr.Out D E := by unfold toStr; only
theorem parseLoop_only (cs : List Char) (b : BigInt) : (parseLoop cs b).Out D E := by
  induction cs generalizing b with
  | nil => exact .ok
  | cons c cs ih => rw [parseLoop]; only; exact ih _
macro_rules | `(tactic| only_step) => `(tactic| with_reducible exact parseLoop_only _ _)
theorem parse_only {s : List Char} : (parse s).Out D E := by unfold parse; only
theorem tryParse_only {s : List Char} : (tryParse s a).Out D E := by
  have := parse_only (D := D) (E := E) (s := s)
  unfold tryParse
  split
  · exact .ok
  · exact .ok
  · exact .abort
  · exact .ub
  · next h => exact .diverge (this.1 h)
open Classical in
theorem log_only [Fpu] {d : Dbl} : (a.log d).Out D E := by unfold BigInt.log; only
end BigInt

/-! ### greatest common divisor: the loop may go on for ever, nothing is thrown -/
theorem u64sub_lt (x y : Nat) : u64sub x y < 18446744073709551616 := by unfold u64sub u64i; omega
theorem mod_word {x y : Nat} (hx : x < 18446744073709551616) : u64sub x (u64 (x / y * y)) = x % y := by
  have h := Nat.div_add_mod' x y
  have h2 := Nat.div_mul_le_self x y
  rw [u64_of_lt (by omega)]
  unfold u64sub u64i
  omega
theorem lehmerGuess_only (y x : Nat) (g : Guess) (hx : x < 18446744073709551616) (hy : y < 18446744073709551616) :
    (lehmerGuess x y g).Out D E := by
  induction y using Nat.strong_induction_on generalizing x g with
  | _ y ih =>
    rw [lehmerGuess]; only
    · next h => exact ih _ h _ _ (u64sub_lt _ _) (by omega)
    · next h0 _ _ _ _ h1 _ _ _ _ h =>
      rw [mod_word hx] at h h1
      have h2 := Nat.mod_lt x (Nat.pos_of_ne_zero h0)
      rw [mod_word hy] at h
      have h3 := Nat.mod_lt y (Nat.pos_of_ne_zero h1)
      omega
theorem lehmerLoop_only (a b c d : Int) (n : Nat) (xs ys : List Nat) (xc yc : Int) : (lehmerLoop a b c d n xs ys xc yc).Out D E := by
  induction n generalizing xs ys xc yc with
  | zero => rw [lehmerLoop]; exact .ok
  | succ n ih =>
    cases xs with
    | nil => rw [lehmerLoop]; exact .ub; exact nofun
    | cons x xs =>
      cases ys with
      | nil => rw [lehmerLoop]; exact .ub; exact nofun
      | cons y ys => rw [lehmerLoop]; only; exact ih _ _ _ _
theorem refresh_only {b : BitsBuffer} {n : Nat} : (b.refresh n).Out D E := by unfold refresh; only
macro_rules | `(tactic| only_step) => `(tactic| with_reducible first | exact refresh_only | exact lehmerLoop_only _ _ _ _ _ _ _ _ _)
theorem lehmerCore_only {x y : BitsBuffer} {g : Guess} : (lehmerCore x y g).Out D E := by unfold lehmerCore; only
theorem extractDigits_only {x y : BitsBuffer} : (extractDigits x y).Out D E := by unfold extractDigits; only
theorem extractDigits_all {x y : BitsBuffer} (hx : WordsOk x.bits) (hy : WordsOk y.bits) :
    (extractDigits x y).All fun p => p.1 < 18446744073709551616 ∧ p.2 < 18446744073709551616 := by
  have key : ∀ {a b c k z : Nat}, c < 4294967296 → (u64 (a <<< k) ||| u64 (b <<< z) ||| (c >>> (32 - z))) >>> 1 < 18446744073709551616 := by
    intro a b c k z hc
    rw [Nat.shiftRight_eq_div_pow]
    refine lt_of_le_of_lt (Nat.div_le_self _ _) ?_
    refine Nat.or_lt_two_pow (n := 64) (Nat.or_lt_two_pow (n := 64) (u64_lt _) (u64_lt _)) ?_
    rw [Nat.shiftRight_eq_div_pow]
    exact lt_of_le_of_lt (Nat.div_le_self _ _) (lt_trans hc (by decide))
  refine .bind' fun _ => .bind' fun _ => .bind' fun _ => .ite (fun _ => .ub) fun _ => .bind' fun _ => .bind' fun _ =>
    .bind (idx_all hx _) fun xl hxl => .bind (P := fun p => p.2.2 < 4294967296) ?_ ?_
  · refine .ite (fun _ => .bind' fun _ => .bind' fun _ => .bind (idx_all hy _) fun _ h => .ok h) fun _ => ?_
    refine .ite (fun _ => .bind' fun _ => .bind (idx_all hy _) fun _ h => .ok h) fun _ => ?_
    exact .ite (fun _ => .bind (idx_all hy _) fun _ h => .ok h) fun _ => .ok (by decide)
  · rintro ⟨yh, ym, yl⟩ hyl
    exact .ite (fun _ => .ub) fun _ => .bind' fun _ => .ok ⟨key hxl, key hyl⟩
theorem reduceBy_only {x y : BitsBuffer} (hy : WordsOk y.bits) : (x.reduceBy y).Out D E :=
  .bind slice_only fun _ h => reduce_only (slice_all' hy _ _ _ h)
theorem overwrite_only {b : BitsBuffer} {v : Nat} : (b.overwrite v).Out D E := by unfold overwrite; only
theorem gcdLoop_only (hD : D) (fuel : Nat) {x y : BitsBuffer} (hx : WordsOk x.bits) (hy : WordsOk y.bits) : (gcdLoop fuel x y).Out D E := by
  induction fuel generalizing x y with
  | zero => exact .diverge hD
  | succ n ih =>
    refine .ite (fun _ => .bind extractDigits_only fun p hp => .bind ?_ fun g _ => .ite (fun _ => ?_) fun _ => ?_) fun _ => .ok
    · exact lehmerGuess_only _ _ _ (extractDigits_all hx hy p hp).1 (extractDigits_all hx hy p hp).2
    · exact .bind (reduceBy_only hy) fun _ h => ih hy (reduceBy_all hx _ h)
    · refine .bind lehmerCore_only fun p hp => ?_
      obtain ⟨h1, h2⟩ := lehmerCore_all hx hy p hp
      exact .ite (fun _ => ih h2 h1) fun _ => ih h1 h2
theorem gcdBuffers_only (hD : D) (fuel : Nat) {x y : BitsBuffer} (hx : WordsOk x.bits) (hy : WordsOk y.bits) :
    (gcdBuffers fuel x y).Out D E := by
  unfold gcdBuffers
  refine .bind cassert_only fun _ _ => .bind cassert_only fun _ _ => .bind cassert_only fun _ _ =>
    .bind (gcdLoop_only hD fuel hx hy) fun p hp => ?_
  obtain ⟨h1, h2⟩ := gcdLoop_all fuel hx hy p hp
  dsimp only
  exact .ite (fun _ => .bind (reduceBy_only h2) fun _ _ => .bind idx_only fun _ _ => .bind idx_only fun _ _ =>
    .bind idx_only fun _ _ => .bind idx_only fun _ _ => overwrite_only) fun _ => .ok
theorem gcdVec_only (hD : D) (fuel : Nat) {x y : List Nat} (hx : WordsOk x) (hy : WordsOk y) : (gcdVec fuel x y).Out D E := by
  unfold gcdVec
  exact .bind cassert_only fun _ _ => .bind cassert_only fun _ _ => .bind cassert_only fun _ _ => .bind ofWords_only fun _ h1 =>
    .bind ofWords_only fun _ h2 => .bind (gcdBuffers_only hD fuel (ofWords_all hx _ h1) (ofWords_all hy _ h2)) fun _ _ => .ok
theorem gcdBits_only {fuel : Nat} {x y : List Nat} (hD : 2 < y.length → D) (h0 : y ≠ []) (hx : WordsOk x) (hy : WordsOk y)
    (h1 : ∀ w, y = [w] → w ≠ 0) : (gcdBits fuel x y).Out D E := by
  unfold gcdBits; only
  · have h2 := ‹y.length = 1›
    have hs := ‹idx y 0 = _›
    obtain ⟨w, rfl⟩ := List.length_eq_one_iff.1 h2
    obtain rfl : w = _ := Res.ok.inj hs
    exact remainderWord_only (.inl (h1 _ rfl))
  · exact remainderVec_only hy
  · refine gcdVec_only (hD ?_) _ hx hy
    have := List.length_pos_of_ne_nil h0
    omega
theorem BigInt.gcd_only {a b : BigInt} {fuel : Nat} (ha : a.Valid) (hb : b.Valid) (hD : 2 < a.bits.length → 2 < b.bits.length → D) :
    (BigInt.gcd fuel a b).Out D E := by
  have w1 : ∀ {c : BigInt}, c.Valid → ∀ w, c.bits = [w] → w ≠ 0 := fun hc w h => by have := hc.notSmall w h; omega
  have word : ∀ {ws : List Nat} {z : Int} {x : Nat}, z ≠ 0 → cabs z = .ok x → (gcdWord ws x).Out D E := by
    intro ws z x hz hx
    unfold gcdWord; only
    exact remainderWord_only (natAbs_ne (.inl hz) _ hx)
  unfold BigInt.gcd; only
  · exact word ‹_› ‹_›
  · exact word ‹_› ‹_›
  · refine gcdBits_only (fun h => hD h ?_) ‹_› hb.words ha.words (w1 ha)
    have hc := ‹compareWords _ _ < 0›
    unfold compareWords at hc
    split_ifs at hc <;> omega
  · refine gcdBits_only (fun h => hD ?_ h) ‹_› ha.words hb.words (w1 hb)
    have hc := ‹¬ compareWords _ _ < 0›
    unfold compareWords at hc
    split_ifs at hc <;> omega

/-! ### Python -/
theorem findMsb_only (buf : List Nat) (m i : Nat) : (findMsb buf m i).Out D E := by
  induction i with
  | zero => exact .ok
  | succ i ih => rw [findMsb]; only
macro_rules | `(tactic| only_step) => `(tactic| with_reducible exact findMsb_only _ _ _)
theorem toBigInteger_only {v : PyInt} : (toBigInteger v).Out D E := by
  by_cases hneg : v.value < 0
  · obtain ⟨w, h1, -⟩ := toBigInteger_neg v hneg
    rw [h1]
    exact ofBytes_only
  · unfold toBigInteger
    refine .ite (fun _ => .ok) fun _ => ?_
    dsimp only
    rw [decide_eq_false hneg]
    unfold asByteArray
    have h : 0 ≤ v.value ∧ v.value < (256 : Int) ^ ((numBits v.value + 7) / 8 + if false = true then 1 else 0) := by
      refine ⟨by omega, ?_⟩
      have hb := natAbs_lt_numBits v.value
      have : (256 : Nat) ^ ((numBits v.value + 7) / 8) = 2 ^ (8 * ((numBits v.value + 7) / 8)) := by rw [pow_mul]; norm_num
      have h2 : v.value.natAbs < 256 ^ ((numBits v.value + 7) / 8) := by
        rw [this]; exact lt_of_lt_of_le hb (Nat.pow_le_pow_right (by decide) (by omega))
      rw [if_neg (by decide), Nat.add_zero]
      zify at h2
      rwa [abs_of_nonneg (by omega)] at h2
    rw [if_neg (by decide), if_pos h]
    exact .ite (fun _ => ofBytes_only) fun h => (h rfl).elim

/-! ### programs -/
namespace Cmd
variable {α β : Type}
theorem bind_out {m : Cmd α} {f : α → Cmd β} {σ : Store} (h : (m σ).1.Out D E)
    (hf : ∀ a σ', m σ = (.ok a, σ') → (f a σ').1.Out D E) : ((m >>= f) σ).1.Out D E := by
  show (Cmd.bind m f σ).1.Out D E
  unfold Cmd.bind
  split
  · next a σ' e => exact hf a σ' e
  · next e he => rw [he] at h; exact .throw (h.2 _ rfl)
  · exact .abort
  · exact .ub
  · next he => rw [he] at h; exact .diverge (h.1 rfl)
theorem lift_bind_out {r : Res α} {f : α → Cmd β} {σ : Store} (h : r.Out D E) (hf : ∀ a, r = .ok a → (f a σ).1.Out D E) :
    ((lift r >>= f) σ).1.Out D E := bind_out h fun a σ' e => by cases e; exact hf a rfl
end Cmd
open Cmd

theorem BigInt.Valid.words_only {a : BigInt} (h : a.Valid) : WordsOk a.bits := h.words
theorem BinOp.apply_only {op : BinOp} {a b : BigInt} (hb : b.Valid) (h : .divideByZero ∈ E) : (op.apply a b).Out D E := by
  cases op
  · exact BigInt.add_only
  · exact BigInt.sub_only
  · exact BigInt.mul_only
  · exact BigInt.div_only hb.words (.inr h)
  · exact BigInt.rem_only hb.words (.inr h)
  · exact BigInt.and_only
  · exact BigInt.or_only
  · exact BigInt.xor_only
theorem UnOp.apply_only {op : UnOp} {a : BigInt} : (op.apply a).Out D E := by
  cases op
  · exact .ok
  · exact BigInt.neg_only
  · exact BigInt.plus_only
  · exact BigInt.compl_only
  · exact BigInt.abs_only
theorem Rel.apply_only {op : Rel} {a b : BigInt} : (op.apply a b).Out D E := by
  cases op
  · exact BigInt.lt_only
  · exact BigInt.le_only
  · exact BigInt.gt_only
  · exact BigInt.ge_only
  · exact BigInt.equals_only
  · exact BigInt.ne_only
theorem Cond.test_only (c : Cond) (σ : Store) : (c.test σ).Out D E := by
  induction c with
  | rel op x y => exact Rel.apply_only
  | isZero x => exact BigInt.isZero_only
  | isOne x => exact BigInt.isOne_only
  | isEven x => exact BigInt.isEven_only
  | isPowerOfTwo x => exact BigInt.isPowerOfTwo_only
  | not c ih => exact .bind ih fun _ _ => .ok
  | and c d h1 h2 => exact .bind h1 fun _ _ => .ite (fun _ => h2) fun _ => .ok
  | or c d h1 h2 => exact .bind h1 fun _ _ => .ite (fun _ => .ok) fun _ => h2

theorem divRemAt_only {σ : Store} {i j k : Nat} (hw : WordsOk (σ j).bits) (h : .divideByZero ∈ E) : (divRemAt i j k σ).1.Out D E := by
  unfold divRemAt
  rw [read_bind, read_bind]
  refine lift_bind_out assertValid_only fun _ _ => lift_bind_out assertValid_only fun _ _ => ?_
  by_cases h1 : (σ i).bits = [] ∧ (σ j).bits = []
  · rw [if_pos h1]
    by_cases h2 : (σ j).sign = 0
    · rw [if_pos h2]; exact .throw h
    · rw [if_neg h2]
      refine lift_bind_out int_only fun _ _ => lift_bind_out ofInt32_only fun r _ => ?_
      rw [write_bind, read_bind, read_bind]
      by_cases h3 : (σ.set k r j).sign = 0
      · rw [if_pos h3]; exact .ub
      · rw [if_neg h3]; exact lift_bind_out int_only fun _ _ => ofInt32_only
  rw [if_neg h1]
  by_cases h2 : (σ i).bits = []
  · rw [if_pos h2]; exact .ok
  rw [if_neg h2]
  by_cases h3 : (σ j).bits = []
  · rw [if_pos h3]
    exact lift_bind_out cabs_only fun s _ => lift_bind_out (divideWordRem_only (.inr h)) fun _ _ =>
      lift_bind_out ofUInt32_only fun _ _ => ofMagnitude_only
  rw [if_neg h3]
  by_cases h4 : (σ i).bits.length < (σ j).bits.length
  · rw [if_pos h4]; exact .ok
  rw [if_neg h4]
  exact lift_bind_out (divideVecRem_only hw) fun _ _ => lift_bind_out ofMagnitude_only fun _ _ => ofMagnitude_only

theorem Stmt.exec_only (s : Stmt) {σ : Store} (hσ : ∀ i, (σ i).Valid) (h1 : .divideByZero ∈ E) (h2 : .outOfRange ∈ E)
    (h3 : .overflowError ∈ E) : (s.exec σ).1.Out D E := by
  have one : ∀ {r : Res BigInt} {x : Nat}, r.Out D E → ((do Cmd.write x (← Cmd.lift r) : Cmd Unit) σ).1.Out D E :=
    fun h => lift_bind_out h fun _ _ => .ok
  cases s with
  | const => exact one ofInt32_only
  | update op x y => exact one (BinOp.apply_only (hσ y) h1)
  | binary op z x y => exact one (BinOp.apply_only (hσ y) h1)
  | unary op z x => exact one UnOp.apply_only
  | shl x n => exact one BigInt.shl_only
  | shr x n => exact one BigInt.shr_only
  | inc x => exact one BigInt.inc_only
  | dec x => exact one BigInt.dec_only
  | pow z x n => exact one (BigInt.pow_only (hσ x) (.inr h2) h3)
  | divRem z x y r => exact bind_out (divRemAt_only (hσ y).words h1) fun _ _ _ => .ok
  | long => exact one ofInt64_only
  | ulong => exact one ofUInt64_only
  | parse => exact one BigInt.parse_only
  | move => exact .ok
  | swap => exact .ok
  | postInc z x => exact lift_bind_out (.bind BigInt.inc_only fun _ _ => .ok) fun _ _ => .ok
  | postDec z x => exact lift_bind_out (.bind BigInt.dec_only fun _ _ => .ok) fun _ _ => .ok

/-- A bound on the depth of a program without loops. -/
def Prog.depth : Prog → Nat
  | skip => 1
  | stmt _ => 1
  | seq p q => Nat.max p.depth q.depth + 1
  | ifThen _ p q => Nat.max p.depth q.depth + 1
  | whileDo _ p => p.depth + 1
  | attempt p => p.depth + 1

theorem Prog.exec_only (n : Nat) (p : Prog) (hl : p.LoopFree) (hp : p.LiteralsOk) (hn : p.depth ≤ n) {σ : Store}
    (hσ : ∀ i, (σ i).Valid) (h1 : .divideByZero ∈ E) (h2 : .outOfRange ∈ E) (h3 : .overflowError ∈ E) :
    (p.exec n σ).1.Out D E := by
  induction n generalizing p σ with
  | zero => cases p <;> simp [Prog.depth] at hn
  | succ n ih =>
    cases p with
    | skip => exact .ok
    | stmt s => exact s.exec_only hσ h1 h2 h3
    | seq p q =>
      have hn' : p.depth ≤ n ∧ q.depth ≤ n := Nat.max_le.1 (Nat.le_of_succ_le_succ hn)
      refine bind_out (ih p hl.1 hp.1 hn'.1 hσ) fun _ σ' e => ?_
      have := (p.exec_keeps n hp.1 σ hσ).1
      rw [e] at this
      exact ih q hl.2 hp.2 hn'.2 this
    | ifThen c p q =>
      have hn' : p.depth ≤ n ∧ q.depth ≤ n := Nat.max_le.1 (Nat.le_of_succ_le_succ hn)
      refine bind_out (m := Cmd.ask c) (c.test_only σ) fun b σ' e => ?_
      obtain rfl : σ = σ' := congrArg Prod.snd e
      cases b
      · exact ih q hl.2 hp.2 hn'.2 hσ
      · exact ih p hl.1 hp.1 hn'.1 hσ
    | whileDo c p => exact hl.elim
    | attempt p =>
      have := ih p hl hp (Nat.le_of_succ_le_succ hn) hσ
      rw [Prog.exec]
      dsimp only
      split
      · exact .ok
      · exact this

end BigIntegerCpp
