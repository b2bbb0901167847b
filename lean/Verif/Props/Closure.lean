import Verif.Lemmas.Closure
import Verif.Props.Basic
/-
C02: every object the library hands out is canonical.
-/
namespace BigIntegerCpp
open Samples
variable [Cfg]

/-- Whatever chain of public calls produced it, at whatever sizes and through whichever of the
known faults, an object that a client holds is canonical.  Missing from the full claim:
`BigInteger(int, uint_array)` in a release build, where it is false, see `C02_parts_unchecked_fails`. -/
theorem C02_every_result_is_canonical_partial (a : BigInt) (h : Made a) : a.Valid := h.valid

/-- So two objects of equal value, however obtained, are the same object state. -/
theorem C02_equal_results_are_identical (a b : BigInt) (ha : Made a) (hb : Made b) (h : a.toInt = b.toInt) :
    a = b := C02_unique a b ha.valid hb.valid h

/-- And `==`, which compares the states, says `true` exactly when the values are equal. -/
theorem C02_equals_on_results (a b : BigInt) (ha : Made a) (hb : Made b) :
    a.equals b = .ok (decide (a.toInt = b.toInt)) :=
  BigInt.equals_spec ⟨ha.valid, rfl⟩ ⟨hb.valid, rfl⟩

theorem made_neg3 : Made neg3 := .magnitude (ws := [5, 7, 1, 0]) (negative := true) (by decide) (by rfl)
theorem made_five : Made ⟨5, []⟩ := .int32 (n := 5) (by decide) (by rfl)
/-- A remainder that `div_rem` gets wrong (C13) is still canonical. -/
example : ∃ q r, neg3.divRem ⟨5, []⟩ = .ok (q, r) ∧ Made r := by
  obtain ⟨⟨q, r⟩, h⟩ : ∃ p, neg3.divRem ⟨5, []⟩ = .ok p := ⟨_, by rfl⟩
  exact ⟨q, r, h, .remainder made_neg3 made_five h⟩

/-- Programs: started on canonical objects, a program leaves only canonical objects, whether it
ends normally, with an exception, or not at all, and even if operands are aliased. -/
theorem C02_programs_keep_objects_canonical (p : Prog) (hp : p.LiteralsOk) (fuel : Nat) (σ : Store)
    (h : ∀ i, (σ i).Valid) : ∀ i, ((p.exec fuel σ).2 i).Valid :=
  (p.exec_keeps fuel hp σ h).1
example : (Prog.seq (.stmt (.const 0 5)) (.stmt (.divRem 1 0 2 0))).LiteralsOk :=
  ⟨⟨fun _ _ h => by cases h; decide, nofun, nofun⟩, nofun, nofun, nofun⟩

/-- `BigInteger(int, uint_array)` in a build with assertions: it returns on canonical parts and
aborts on all others. -/
theorem C02_parts_checked (hd : Cfg.ndebug = false) (n : Int) (ws : List Nat) (hn : IntRange n) (hw : WordsOk ws) :
    ((⟨n, ws⟩ : BigInt).Valid → ofParts n ws = .ok ⟨n, ws⟩) ∧
    (¬ (⟨n, ws⟩ : BigInt).Valid → ofParts n ws = .abort) := by
  constructor
  · intro h
    obtain ⟨b, hb, hv⟩ := ofParts_spec ⟨h, rfl⟩
    rw [hb, hv.unique ⟨h, rfl⟩]
  · intro h
    rcases ofParts_or n ws with e | e
    · exact (h (ofParts_all hd hn hw _ e)).elim
    · exact e
example : IntRange (-1) ∧ WordsOk [5, 0] := by decide

/-- `BigInteger(int, uint_array)` in a release build checks nothing: `BigInteger(1, {5})` is a second
object of value 5, and it does not compare equal to `BigInteger(5)`. -/
theorem C02_parts_unchecked_fails (hd : Cfg.ndebug = true) :
    ∃ a b, ofParts 1 [5] = .ok a ∧ ofInt32 5 = .ok b ∧ a.toInt = b.toInt ∧ ¬ a.Valid ∧ a.equals b = .ok false := by
  have hc : ∀ p : Prop, [Decidable p] → cassert p = .ok () := by
    intro p _
    unfold cassert
    simp [hd]
  refine ⟨⟨1, [5]⟩, ⟨5, []⟩, ?_, by rfl, by decide, fun h => ?_, ?_⟩
  · simp [ofParts, checked, assertValid, hc]
  · exact absurd (h.notSmall 5 rfl) (by decide)
  · simp [BigInt.equals, assertValid, hc]

end BigIntegerCpp
