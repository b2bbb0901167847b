import Verif.Model.Static
/-
Lemmas for C60.
-/
set_option linter.unusedSectionVars false
namespace BigIntegerCpp
variable [Cfg]

/-- Same result unless it is one of two objects. -/
def SameUnless (r r' : Res BigInt) : Prop := ∀ b, r = .ok b → b ≠ minInt → b ≠ minusOneInt → r' = .ok b
theorem SameUnless.rfl {r : Res BigInt} : SameUnless r r := fun _ h _ _ => h
theorem SameUnless.bind {α : Type} {m : Res α} {f g : α → Res BigInt} (h : ∀ x, SameUnless (f x) (g x)) : SameUnless (m >>= f) (m >>= g) := by
  cases m
  · exact h _
  all_goals exact SameUnless.rfl
theorem SameUnless.ite {c : Prop} [Decidable c] {r r' s s' : Res BigInt} (h : SameUnless r r') (h' : SameUnless s s') :
    SameUnless (if c then r else s) (if c then r' else s') := by
  by_cases hc : c
  · rw [if_pos hc, if_pos hc]; exact h
  · rw [if_neg hc, if_neg hc]; exact h'
theorem checked_eq {a b : BigInt} (h : checked a = .ok b) : b = a := by
  unfold checked at h
  cases hv : assertValid a <;> rw [hv] at h <;> cases h
  rfl

end BigIntegerCpp
