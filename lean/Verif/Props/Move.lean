import Verif.Lemmas.Closure
import Verif.Props.Samples
/-
C58: objects that were moved from, and `std::swap`.
-/
namespace BigIntegerCpp
open Samples
variable [Cfg]

/-- `x = std::move(y)` with two objects: `x` has the value of `y`, `y` is canonical and has a value
that depends on the old one alone (its own in the `int` range, otherwise the sign), and no other object
changes.  In any store, of any sizes. -/
theorem C58_move (σ : Store) (x y : Nat) (hxy : x ≠ y) (v : Int) (hv : (σ y).Denotes v) :
    ∃ σ', (Stmt.move x y).exec σ = (.ok (), σ') ∧ (σ' x).Denotes v ∧
      (σ' y).Denotes (if |v| < 2 ^ 31 then v else if v < 0 then -1 else 1) ∧ ∀ i, i ≠ x → i ≠ y → σ' i = σ i := by
  refine ⟨_, rfl, ?_, ?_, fun i hi hj => ?_⟩
  · rw [Store.set_ne _ _ hxy, Store.set_same]; exact hv
  · rw [Store.set_same]
    convert movedFrom_denotes hv using 1
    unfold leftBehind
    by_cases h : |v| < 2 ^ 31
    · rw [if_pos h, if_pos h]
    · rw [if_neg h, if_neg h]
      rw [Int.abs_eq_natAbs] at h
      by_cases h0 : v < 0
      · rw [if_pos h0, Int.sign_eq_neg_one_of_neg h0]
      · rw [if_neg h0, Int.sign_eq_one_of_pos (by omega)]
  · rw [Store.set_ne _ _ hj, Store.set_ne _ _ hi]
example : ∃ σ', (Stmt.move 0 1).exec (fun i => if i = 1 then neg3 else small) = (.ok (), σ') ∧
    (σ' 0).Denotes (-18446744103774322693) ∧ (σ' 1).Denotes (-1) := by
  obtain ⟨σ', h1, h2, h3, -⟩ := C58_move (fun i => if i = 1 then neg3 else small) 0 1 (by decide) _ neg3_denotes
  exact ⟨σ', h1, h2, h3⟩

/-- `x = std::move(x)` may lose the value: of a value outside the `int` range only the sign is left. -/
theorem C58_self_move (σ : Store) (x : Nat) (v : Int) (hv : (σ x).Denotes v) :
    ∃ σ', (Stmt.move x x).exec σ = (.ok (), σ') ∧ ((σ' x).Denotes v ↔ |v| < 2 ^ 31) ∧ ∀ i, i ≠ x → σ' i = σ i := by
  refine ⟨_, rfl, ?_, fun i hi => ?_⟩
  · rw [Store.set_same]
    have h := movedFrom_denotes hv
    unfold leftBehind at h
    by_cases h1 : |v| < 2 ^ 31
    · rw [if_pos h1] at h; exact ⟨fun _ => h1, fun _ => h⟩
    · rw [if_neg h1] at h
      refine ⟨fun h2 => ?_, fun h2 => absurd h2 h1⟩
      have e : v = v.sign := h2.2.symm.trans h.2
      rw [Int.abs_eq_natAbs] at h1 ⊢
      rcases lt_trichotomy v 0 with h0 | h0 | h0
      · rw [Int.sign_eq_neg_one_of_neg h0] at e; omega
      · omega
      · rw [Int.sign_eq_one_of_pos h0] at e; omega
  · rw [Store.set_ne _ _ hi, Store.set_ne _ _ hi]
example : ∃ σ', (Stmt.move 0 0).exec (fun _ => pos2) = (.ok (), σ') ∧ ¬ (σ' 0).Denotes 38654705667 := by
  obtain ⟨σ', h1, h2, -⟩ := C58_self_move (fun _ => pos2) 0 _ pos2_denotes
  exact ⟨σ', h1, fun h => absurd (h2.1 h) (by decide)⟩

/-- `std::swap(x, y)` exchanges the two states exactly and changes nothing else; with `x` and `y` the
same object it changes nothing.  In any store at all, canonical or not. -/
theorem C58_swap (σ : Store) (x y : Nat) :
    (Stmt.swap x y).exec σ = (.ok (), fun i => if i = x then σ y else if i = y then σ x else σ i) := by
  refine Prod.ext rfl (funext fun j => ?_)
  show (if j = y then σ x else if j = y then _ else if j = x then (if y = x then (σ x).movedFrom else σ y) else
    if j = x then _ else σ j) = if j = x then σ y else if j = y then σ x else σ j
  by_cases hx : j = x
  · subst hx
    by_cases hy : j = y
    · rw [if_pos hy, if_pos rfl, hy]
    · rw [if_neg hy, if_neg hy, if_pos rfl, if_pos rfl, if_neg (Ne.symm hy)]
  · simp only [if_neg hx]
    by_cases hy : j = y
    · rw [if_pos hy, if_pos hy]
    · rw [if_neg hy, if_neg hy, if_neg hy]
example : (Stmt.swap 3 3).exec (fun _ => neg3) = (.ok (), fun _ => neg3) := by
  rw [C58_swap]; simp
example : (Stmt.swap 0 1).exec (fun i => if i = 0 then neg3 else pos2) = (.ok (), fun i => if i = 0 then pos2 else if i = 1 then neg3 else pos2) := by
  rw [C58_swap]
  refine Prod.ext rfl (funext fun i => ?_)
  by_cases h0 : i = 0 <;> by_cases h1 : i = 1 <;> simp [h0, h1]

/-- An object that was moved from is as usable as any other: every chain of public calls from it
yields canonical objects (`Made` has moved-from objects in it). -/
theorem C58_moved_from_is_usable (a : BigInt) (h : Made a) : Made a.movedFrom ∧ a.movedFrom.Valid ∧
    (a.movedFrom = a ↔ |a.toInt| < 2 ^ 31) := by
  have hv := h.valid
  refine ⟨.moved h, hv.movedFrom, ?_⟩
  have hd : a.Denotes a.toInt := ⟨hv, rfl⟩
  rw [Int.abs_eq_natAbs, ← Nat.cast_ofNat (n := 2), ← Nat.cast_pow, Nat.cast_lt, show (2 ^ 31 : Nat) = 2147483648 from rfl,
    ← bits_nil_natAbs hd]
  obtain ⟨s, ws⟩ := a
  exact ⟨fun e => (congrArg BigInt.bits e).symm, fun e => by dsimp only at e; subst e; rfl⟩
example : Made neg3.movedFrom := (C58_moved_from_is_usable neg3 (.magnitude (ws := [5, 7, 1, 0]) (negative := true) (by decide) (by rfl))).1

end BigIntegerCpp
