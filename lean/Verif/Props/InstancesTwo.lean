import Verif.Props.Instances
import Verif.Props.Exhaustion
import Verif.Props.Threads
import Verif.Props.Log
import Verif.Props.Sizes
import Verif.Props.PythonQuery
/-
More theorems applied to concrete objects.  Nothing new is proved here.
-/
set_option linter.unusedSectionVars false
namespace BigIntegerCpp
open Samples
variable [Cfg]

/-! ### conversions -/

-- -2^1024, a value that takes 33 words
example : ∃ a : BigInt, a.Denotes (-2 ^ 1024) ∧ a.toDouble = .ok (dblInfinity true) := by
  obtain ⟨a, ha⟩ := C02_exists (-2 ^ 1024)
  have hl : a.bits.length ≤ 33 := ha.length_le_of_lt (by rw [Int.natAbs_neg, Int.natAbs_pow]; exact Nat.pow_lt_pow_right (by decide) (by decide))
  refine ⟨a, ha, ?_⟩
  have h0 : (0 : Int) < 2 ^ 1024 := by positivity
  rw [C35_to_double_infinity a _ ha (by unfold BigInt.Fits; omega) (by rw [abs_neg, abs_of_pos h0]), decide_eq_true (neg_neg_of_pos h0)]

/-! ### programs -/

theorem threeInts_inRange (i : Nat) : InRange (threeInts i) := by
  unfold threeInts
  by_cases h0 : i = 0
  · rw [if_pos h0]; exact inRange_small (by decide)
  · rw [if_neg h0]
    by_cases h1 : i = 1
    · rw [if_pos h1]; exact inRange_small (by decide)
    · rw [if_neg h1]
      exact lt_of_lt_of_le (show _ < 2 ^ 65 by decide) (Nat.pow_le_pow_right (by decide) (by decide))

/-- `v₀ = v₁ / v₀` with `v₀ = 0` throws; nothing has changed. -/
theorem divide_by_zero_does : Does (.stmt (.binary .div 0 1 0)) threeInts (.exception .divideByZero) threeInts :=
  .stmt (.binary .div 0 1 0) threeInts threeInts_inRange trivial threeInts_inRange

example : ∃ n r σ', (r = .throw .divideByZero ∧ σ'.Shows threeInts) ∧
    ∀ fuel, n ≤ fuel → (Prog.stmt (.binary .div 0 1 0)).exec fuel threeObjects = (r, σ') :=
  C40_actual _ _ _ _ divide_by_zero_does _ threeObjects_shows

/-- `v₀ = div_rem(v₁, v₁, v₁)`: the remainder is stored over the divisor before the division. -/
example : ∃ n r σ', (∃ u, r = .ub u) ∧ ∀ fuel, n ≤ fuel → (Prog.stmt (.divRem 0 1 1 1)).exec fuel threeObjects = (r, σ') :=
  C40_actual _ threeInts threeInts .undefined (.stmt (.divRem 0 1 1 1) threeInts threeInts_inRange trivial threeInts_inRange) _ threeObjects_shows

example (fuel : Nat) (r : Res Unit) (σ' : Store) (h : euclid.exec fuel threeObjects = (r, σ')) (hd : r ≠ .diverge) :
    Leaves euclid threeInts ∨ ∃ o ρ', Does euclid threeInts o ρ' ∧ o.Matches ρ' r σ' :=
  C40_complete euclid ⟨trivial, trivial⟩ threeInts threeInts_inRange threeObjects threeObjects_shows fuel r σ' h hd

example (m : Nat) (hm : 1 ≤ m) : (Prog.stmt (.binary .add 0 1 1)).exec m threeObjects = ((Prog.stmt (.binary .add 0 1 1)).exec 1 threeObjects) :=
  C40_bound_irrelevant _ 1 m _ _ _ rfl (by rename_i c; obtain ⟨d, s⟩ := c; cases d <;> cases s <;> exact nofun) hm

omit [Cfg] in
example (c d : Cfg) (σ : Store) (hσ : σ.Shows fun i => if i = 2 then 5 else if i = 0 then 1 else 0) :
    ∃ n, ∀ fuel, n ≤ fuel → @Prog.exec c fuel factorial σ = @Prog.exec d fuel factorial σ ∧ (@Prog.exec c fuel factorial σ).1 ≠ .abort := by
  obtain ⟨ρ', h, -⟩ := factorial_runs 5 (inRange_small (by decide)) (fun i => if i = 2 then 5 else if i = 0 then 1 else 0) rfl rfl rfl fun i => by
    show InRange (if i = 2 then 5 else if i = 0 then 1 else 0)
    by_cases h2 : i = 2
    · rw [if_pos h2]; exact inRange_small (by decide)
    · rw [if_neg h2]
      by_cases h0 : i = 0
      · rw [if_pos h0]; exact inRange_small (by decide)
      · rw [if_neg h0]; exact inRange_small (by decide)
  exact C41_program c d _ _ _ _ h σ hσ

/-! ### memory -/

example (fuel : Nat) (f : Refusals) (i : Nat) : ((euclid.execM fuel f threeObjects).2.2 i).Valid :=
  C71_objects_stay_canonical euclid ⟨⟨nofun, nofun, nofun⟩, nofun, nofun, nofun⟩ fuel f _ (fun i => (threeObjects_shows i).1) i

example (fuel : Nat) : (euclid.execM fuel (fun _ => false) threeObjects).1 = .res (euclid.exec fuel threeObjects).1 :=
  (C71_nothing_refused _ fuel _ _ fun _ => rfl).1

/-- `v₀ = v₁ + v₁; v₂ *= v₂` -/
def addThenSquare : Prog := .seq (.stmt (.binary .add 0 1 1)) (.stmt (.update .mul 2 2))

example (fuel : Nat) (f : Refusals) (h : (addThenSquare.execM fuel f threeObjects).1 ≠ .noMemory) :
    (addThenSquare.execM fuel f threeObjects).1 = .res (addThenSquare.exec fuel threeObjects).1 :=
  ((C71_reported addThenSquare ⟨trivial, trivial⟩ fuel f threeObjects).resolve_left h).1

example : ((Stmt.update .mul 2 2).execM (fun _ => true) threeObjects).2.2 = threeObjects :=
  C71_unchanged_partial (.update .mul 2 2) trivial _ _ (by rename_i c; obtain ⟨d, s⟩ := c; cases d <;> cases s <;> rfl)

example : ∃ s, Reaches addThenSquare threeObjects s (addThenSquare.execM 5 (fun n => n == 1) threeObjects).2.2 :=
  C71_program_stops addThenSquare ⟨trivial, trivial⟩ ⟨trivial, trivial⟩ 5 _ _
    (by rename_i c; obtain ⟨d, s⟩ := c; cases d <;> cases s <;> rfl)

example : ((Stmt.unary .copy 1 2).execM (fun _ => true) threeObjects).2.2.Shows (threeInts.set 1 (-1)) :=
  C71_assignment 1 2 _ _ _ threeObjects_shows rfl

example : ((Stmt.update .or 0 2).execM (fun n => n == 1) threeObjects).2.2 = threeObjects ∨
    ((Stmt.update .or 0 2).execM (fun n => n == 1) threeObjects).2.2.Shows (threeInts.set 0 (-1)) :=
  (C71_or_assignment 0 2 _ _ _ threeObjects_shows (by rename_i c; obtain ⟨d, s⟩ := c; cases d <;> cases s <;> rfl)).imp_right And.right

example (f : Refusals) (hn : ((Stmt.divRem 3 2 1 0).execM f threeObjects).1 = .noMemory) :
    ∃ v, ((Stmt.divRem 3 2 1 0).execM f threeObjects).2.2.Shows (threeInts.set 0 v) := by
  obtain ⟨v, h, -⟩ := C71_div_rem 3 2 1 0 f _ _ threeObjects_shows threeObjects_fits hn
  exact ⟨v, h⟩

example (f : Refusals) : ((Prog.attempt addThenSquare).execM 6 f threeObjects).1 ≠ .noMemory := (C71_caught addThenSquare 5 f threeObjects).1

example (f : Refusals) : ((Stmt.move 1 2).execM f threeObjects).1 = .res (.ok ()) := (C71_never_fails 1 2 7 (by decide) f _).1

/-! ### threads -/

example (σ : Store) (sched : List Nat) : ¬ Race (Pool.run sched (threads factorialAndSquare, σ)).1 :=
  C73_no_races _ factorialAndSquare_apart σ sched

example (σ : Store) (sched : List Nat) (r : Res Unit) (h : ((Pool.run sched (threads factorialAndSquare, σ)).1 0).result = some r) :
    ∃ fuel σ', factorial.exec fuel σ = (r, σ') ∧ (Pool.run sched (threads factorialAndSquare, σ)).2 0 = σ' 0 := by
  obtain ⟨fuel, σ', h1, h2⟩ := C73_as_if_alone _ 0 (fun u hu => factorialAndSquare_apart u 0 hu) σ sched r h
  exact ⟨fuel, σ', h1, h2 0 (.inr (.inr (.inl rfl)))⟩

/-- Two threads, each with a statement of its own. -/
def addAndCopy : Nat → Prog := fun t => if t = 0 then .stmt (.binary .add 0 1 1) else if t = 1 then .stmt (.unary .copy 3 2) else .skip

omit [Cfg] in
theorem addAndCopy_apart : ShareOnlyRead addAndCopy := by
  intro t u htu i
  unfold addAndCopy
  by_cases h0 : t = 0
  · subst h0
    rw [if_pos rfl, if_neg (Ne.symm htu)]
    by_cases h1 : u = 1
    · rw [if_pos h1]
      simp only [Prog.Writes, Prog.Names, Stmt.Writes, Stmt.Reads]
      omega
    · rw [if_neg h1]
      exact fun _ h => h
  · rw [if_neg h0]
    by_cases h1 : t = 1
    · subst h1
      rw [if_pos rfl]
      by_cases h2 : u = 0
      · rw [if_pos h2]
        simp only [Prog.Writes, Prog.Names, Stmt.Writes, Stmt.Reads]
        omega
      · rw [if_neg h2, if_neg (Ne.symm htu)]
        exact fun _ h => h
    · rw [if_neg h1]
      exact fun h => h.elim

example : ∃ n, ∀ sched : List Nat, n ≤ sched.count 0 → (Pool.run sched (threads addAndCopy, threeObjects)).2 0 = ⟨10, []⟩ := by
  obtain ⟨n, h⟩ := C73_ends addAndCopy 0 (fun u hu => addAndCopy_apart u 0 hu) threeObjects (threeObjects.set 0 ⟨10, []⟩) 1 (.ok ())
    (by rename_i c; obtain ⟨d, s⟩ := c; cases d <;> cases s <;> rfl) nofun
  exact ⟨n, fun sched hs => (h sched hs).2 0 (.inl rfl)⟩

/-- Two schedules that bring all threads to their end (the idle ones are there from the start). -/
example : Pool.run (List.replicate 9 0 ++ List.replicate 9 1) (threads addAndCopy, threeObjects) =
    Pool.run (List.replicate 9 1 ++ List.replicate 9 0) (threads addAndCopy, threeObjects) := by
  refine C73_schedule_irrelevant _ addAndCopy_apart _ _ _ (fun t => ?_) (fun t => ?_) <;>
  · rename_i c; obtain ⟨d, s⟩ := c
    match t with
    | 0 => cases d <;> cases s <;> exact nofun
    | 1 => cases d <;> cases s <;> exact nofun
    | n + 2 => cases d <;> cases s <;> exact nofun

/-! ### logarithms -/

example [Fpu] : pos2.log (.fin 1) = .ok .nan ∧ BigInt.log ⟨1, []⟩ (.fin 0) = .ok (.fin 0) :=
  ⟨C46_base_one _, C46_one_base_zero _ (BigInt.denotes_small (by decide) (by decide))⟩

example : let _ := Fpu.exact; zeroInt.log (.fin 2) = .ok .ninf := by
  intro inst
  have h := C46_zero_value zeroInt 2 (BigInt.denotes_small (by decide) (by decide)) (by norm_num) (by norm_num)
    (show Real.log 2 < 0 ↔ _ from ⟨fun h => absurd h (not_lt.2 (Real.log_nonneg (by norm_num))), fun h => absurd h (by norm_num)⟩)
  rw [h, if_neg (by norm_num)]

example : let _ := Fpu.exact
    ∃ r, pos2.log (.fin 2) = .ok (.fin r) ∧ |r - Real.logb 2 (38654705667 : Int)| < 1 / 2 ^ 63 / |Real.log 2| :=
  C46_exact pos2 38654705667 2 pos2_denotes pos2_fits (by norm_num) (by norm_num) (by norm_num)

example (fpu : Fpu) (hf : fpu.Accurate (1 / 2 ^ 52)) : ∃ r, pos2.log (.fin 2) = .ok (.fin r) ∧
    |r - Real.logb 2 (38654705667 : Int)| ≤ 34 * (1 / 2 ^ 52) * |Real.logb 2 (38654705667 : Int)| + 1 / 2 ^ 63 / |Real.log 2| := by
  have h1 : 0 < Real.log 2 := Real.log_pos (by norm_num)
  have h2 := Real.log_two_gt_d9
  have h3 := Real.log_two_lt_d9
  exact C46_rounded fpu _ hf (by norm_num) (by norm_num) pos2 38654705667 2 pos2_denotes pos2_fits (by norm_num) (by norm_num) (by norm_num)
    (by rw [abs_of_pos h1]; norm_num at *; linarith) (by rw [abs_of_pos h1]; norm_num at *; linarith)

example (fpu : Fpu) (hf : fpu.Accurate (1 / 2 ^ 52)) (hs : Cfg.strictShift = false) : ∃ r, pyLog (.big pos2) (some (.fin 2)) = .ok (.fin r) ∧
    |r - Real.logb 2 (38654705667 : Int)| ≤ 34 * (1 / 2 ^ 52) * |Real.logb 2 (38654705667 : Int)| + 1 / 2 ^ 63 / |Real.log 2| := by
  have h1 : 0 < Real.log 2 := Real.log_pos (by norm_num)
  have h2 := Real.log_two_gt_d9
  have h3 := Real.log_two_lt_d9
  exact C55_log_base fpu _ hf (by norm_num) (by norm_num) (.big pos2) 38654705667 2 pos2_denotes (inRange_small (by decide)) (by norm_num)
    (by norm_num) (by norm_num) (by rw [abs_of_pos h1]; norm_num at *; linarith) (by rw [abs_of_pos h1]; norm_num at *; linarith) hs

/-! ### lengths -/

example : ∃ m, pos2.bitLength = .ok m ∧ ReturnsLength (pos2.shr 3) (m - 3) := by
  refine (C72_shift_right_exact_iff pos2 _ 3 pos2_denotes (by decide) (by decide)).2 ?_
  rintro ⟨-, -, L, -, -, h⟩
  have : (0 : Int) < 2 ^ (3 + 32 * L) := by positivity
  omega

end BigIntegerCpp
