import Verif.Model.Containers
import Verif.ProgramSpec
/-
What the algorithms of Model/Containers.lean do on integers.
-/
namespace BigIntegerCpp

instance (r : Rel) (x y : Int) : Decidable (r.Holds x y) := by cases r <;> unfold Rel.Holds <;> infer_instance

/-- The algorithm on integers, with the hash function `H`. -/
def Alg.onInts {α : Type} (H : Int → Int) (ρ : Nat → Int) : Alg α → α
  | .done a => a
  | .compare r i j k => (k (decide (r.Holds (ρ i) (ρ j)))).onInts H ρ
  | .hash i k => (k (H (ρ i))).onInts H ρ

/-- The algorithm does not ask for hashes. -/
def Alg.OnlyCompares {α : Type} : Alg α → Prop
  | .done _ => True
  | .compare _ _ _ k => ∀ b, (k b).OnlyCompares
  | .hash _ _ => False

end BigIntegerCpp
