import Verif.ExprSpec
import Verif.Lemmas.Program
import Verif.Lemmas.Python
import Verif.Props.Basic
import Verif.Props.Arith
/-
C56: every identity of integer expressions holds between library expressions.
-/
set_option linter.unusedSectionVars false
namespace BigIntegerCpp
open Samples
variable [Cfg]

theorem Expr.Value.inRange {ρ : IntStore} {e : Expr} {z : Int} (h : e.Value ρ z) : InRange z := by
  cases h with
  | var h => exact h
  | const h => exact inRange_small (by have := h.1; have := h.2; omega)
  | bin _ _ _ h => exact h
  | un _ h => exact h
  | shl _ _ _ h => exact h
  | shr _ _ _ h => exact h
  | pow _ _ h => exact h

/-- An expression evaluates to its integer value. -/
theorem C56_expression (ρ : IntStore) (σ : Store) (hσ : σ.Shows ρ) (e : Expr) (z : Int) (h : e.Value ρ z) :
    Returns (e.eval σ) z := by
  induction h with
  | var _ => exact returns_ok (hσ _)
  | const h => exact ofInt32_spec h.1 (by have := h.2; omega)
  | bin h1 h2 hm _ ih1 ih2 =>
    obtain ⟨a, e1, d1⟩ := ih1
    obtain ⟨b, e2, d2⟩ := ih2
    rw [Expr.eval, e1, Res.ok_bind, e2, Res.ok_bind]
    exact BinOp.apply_ok d1 d2 h1.inRange h2.inRange hm
  | un h1 _ ih =>
    obtain ⟨a, e1, d1⟩ := ih
    rw [Expr.eval, e1, Res.ok_bind]
    exact UnOp.apply_ok d1 h1.inRange
  | shl h1 hn hm _ ih =>
    obtain ⟨a, e1, d1⟩ := ih
    rw [Expr.eval, e1, Res.ok_bind]
    exact shl_in_range d1 h1.inRange hn hm
  | shr h1 hn hm _ ih =>
    obtain ⟨a, e1, d1⟩ := ih
    rw [Expr.eval, e1, Res.ok_bind]
    exact shr_in_range d1 h1.inRange hn hm
  | pow h1 hn hr ih =>
    obtain ⟨a, e1, d1⟩ := ih
    rw [Expr.eval, e1, Res.ok_bind]
    exact pow_in_range d1 h1.inRange (by simpa using hn) hr

/-- Two expressions with the same integer value give objects that are `==`, and indeed the same. -/
theorem C56_identity (ρ : IntStore) (σ : Store) (hσ : σ.Shows ρ) (e f : Expr) (z : Int) (he : e.Value ρ z) (hf : f.Value ρ z) :
    ∃ a b, e.eval σ = .ok a ∧ f.eval σ = .ok b ∧ a.equals b = .ok true ∧ a = b := by
  obtain ⟨a, h1, d1⟩ := C56_expression ρ σ hσ e z he
  obtain ⟨b, h2, d2⟩ := C56_expression ρ σ hσ f z hf
  refine ⟨a, b, h1, h2, ?_, d1.unique d2⟩
  rw [BigInt.equals_spec d1 d2, decide_eq_true rfl]

/-- Two expressions with different integer values give objects that are not `==`. -/
theorem C56_distinguishes (ρ : IntStore) (σ : Store) (hσ : σ.Shows ρ) (e f : Expr) (z w : Int) (he : e.Value ρ z) (hf : f.Value ρ w)
    (hzw : z ≠ w) : ∃ a b, e.eval σ = .ok a ∧ f.eval σ = .ok b ∧ a.equals b = .ok false := by
  obtain ⟨a, h1, d1⟩ := C56_expression ρ σ hσ e z he
  obtain ⟨b, h2, d2⟩ := C56_expression ρ σ hσ f w hf
  refine ⟨a, b, h1, h2, ?_⟩
  rw [BigInt.equals_spec d1 d2, decide_eq_false hzw]

private theorem width_ge (n : Nat) (e : Expr) : n ≤ e.width n ∧ 32 ≤ e.width n := by
  induction e with
  | bin op e f ih1 ih2 => unfold Expr.width; omega
  | un op e ih => unfold Expr.width; omega
  | _ => exact ⟨le_max_left _ _, le_max_right _ _⟩

private theorem simple_bound {ρ : IntStore} {n : Nat} (hρ : ∀ i, (ρ i).natAbs < 2 ^ n) {e : Expr} (he : e.Simple) :
    (e.int ρ).natAbs < 2 ^ e.width n := by
  have up : ∀ {a b : Nat} {z : Int}, z.natAbs < 2 ^ a → a ≤ b → z.natAbs < 2 ^ b := fun h hab =>
    lt_of_lt_of_le h (Nat.pow_le_pow_right (by decide) hab)
  induction e with
  | var i => exact up (hρ i) (le_max_left _ _)
  | const k =>
    have h1 : k.natAbs < 2 ^ 32 := by obtain ⟨h1, h2⟩ := he; omega
    exact up h1 (le_max_right n 32)
  | bin op e f ih1 ih2 =>
    obtain ⟨h1, h2, h3, h4⟩ := he
    have b1 := up (ih1 h3) (le_max_left (e.width n) (f.width n))
    have b2 := up (ih2 h4) (le_max_right (e.width n) (f.width n))
    show _ < 2 ^ (2 * max (e.width n) (f.width n) + 2)
    cases op with
    | div => exact absurd rfl h1
    | rem => exact absurd rfl h2
    | add => exact BinOp.meaning_bound' (op := .add) b1 b2 rfl
    | sub => exact BinOp.meaning_bound' (op := .sub) b1 b2 rfl
    | mul => exact BinOp.meaning_bound' (op := .mul) b1 b2 rfl
    | and => exact BinOp.meaning_bound' (op := .and) b1 b2 rfl
    | or => exact BinOp.meaning_bound' (op := .or) b1 b2 rfl
    | xor => exact BinOp.meaning_bound' (op := .xor) b1 b2 rfl
  | un op e ih =>
    have b := ih he
    have e2 : 2 ^ (e.width n + 1) = 2 * 2 ^ e.width n := by ring
    have hp : 0 < 2 ^ e.width n := by positivity
    show (op.meaning (e.int ρ)).natAbs < 2 ^ (e.width n + 1)
    rw [e2]
    generalize 2 ^ e.width n = P at *
    cases op <;> unfold UnOp.meaning <;> dsimp only
    · omega
    · omega
    · omega
    · omega
    · rw [Int.abs_eq_natAbs]; omega
  | shl => exact he.elim
  | shr => exact he.elim
  | pow => exact he.elim

private theorem simple_value {ρ : IntStore} {n : Nat} (hρ : ∀ i, (ρ i).natAbs < 2 ^ n) {e : Expr} (he : e.Simple)
    (hw : e.width n ≤ 2 ^ 31 - 32) : e.Value ρ (e.int ρ) := by
  have rg : ∀ {e : Expr}, e.Simple → e.width n ≤ 2 ^ 31 - 32 → InRange (e.int ρ) := fun h1 h2 =>
    lt_of_lt_of_le (simple_bound hρ h1) (Nat.pow_le_pow_right (by decide) (by omega))
  induction e with
  | var i => exact .var (rg (e := .var i) he hw)
  | const k => exact .const he
  | bin op e f ih1 ih2 =>
    have hr := rg he hw
    obtain ⟨h1, h2, h3, h4⟩ := he
    unfold Expr.width at hw
    have v1 := ih1 h3 (by omega)
    have v2 := ih2 h4 (by omega)
    cases op with
    | div => exact absurd rfl h1
    | rem => exact absurd rfl h2
    | add => exact .bin v1 v2 rfl hr
    | sub => exact .bin v1 v2 rfl hr
    | mul => exact .bin v1 v2 rfl hr
    | and => exact .bin v1 v2 rfl hr
    | or => exact .bin v1 v2 rfl hr
    | xor => exact .bin v1 v2 rfl hr
  | un op e ih =>
    have hr := rg (e := .un op e) he hw
    unfold Expr.width at hw
    exact .un (ih he (by omega)) hr
  | shl => exact he.elim
  | shr => exact he.elim
  | pow => exact he.elim

/-- Every law that holds between two expressions for all integers holds between them for all
objects, as long as the results stay below `2^(2^31 - 32)`. -/
theorem C56_laws (e f : Expr) (he : e.Simple) (hf : f.Simple) (law : ∀ ρ, e.int ρ = f.int ρ) (n : Nat) (ρ : IntStore)
    (hρ : ∀ i, |ρ i| < 2 ^ n) (hwe : e.width n ≤ 2 ^ 31 - 32) (hwf : f.width n ≤ 2 ^ 31 - 32) (σ : Store) (hσ : σ.Shows ρ) :
    ∃ a b, e.eval σ = .ok a ∧ f.eval σ = .ok b ∧ a.equals b = .ok true ∧ a = b := by
  have hρ' : ∀ i, (ρ i).natAbs < 2 ^ n := fun i => by
    have := hρ i
    rw [Int.abs_eq_natAbs] at this
    exact_mod_cast this
  exact C56_identity ρ σ hσ e f _ (simple_value hρ' he hwe) (law ρ ▸ simple_value hρ' hf hwf)

/-- De Morgan: `~(a & b) == ~a | ~b` on values of a billion bits. -/
theorem C56_de_morgan (a b : BigInt) (x y : Int) (ha : a.Denotes x) (hb : b.Denotes y) (hx : |x| < 2 ^ 10 ^ 9) (hy : |y| < 2 ^ 10 ^ 9) :
    ∃ c d e r, a.and b = .ok c ∧ c.compl = .ok r ∧ a.compl = .ok d ∧ b.compl = .ok e ∧ d.or e = .ok r := by
  have law : ∀ ρ, Expr.int ρ (.un .compl (.bin .and (.var 0) (.var 1))) =
      Expr.int ρ (.bin .or (.un .compl (.var 0)) (.un .compl (.var 1))) := by
    intro ρ
    refine ibit_ext fun k => ?_
    show ibit (-Int.land (ρ 0) (ρ 1) - 1) k = ibit (Int.lor (-ρ 0 - 1) (-ρ 1 - 1)) k
    rw [ibit_not, ← ibit_testBit, ← ibit_testBit, Int.testBit_land, Int.testBit_lor, ibit_testBit, ibit_testBit, ibit_testBit,
      ibit_testBit, ibit_not, ibit_not, Bool.not_and]
  obtain ⟨r, r', h1, h2, -, rfl⟩ := C56_laws (.un .compl (.bin .and (.var 0) (.var 1)))
    (.bin .or (.un .compl (.var 0)) (.un .compl (.var 1))) ⟨by decide, by decide, trivial, trivial⟩
    ⟨by decide, by decide, trivial, trivial⟩ law (10 ^ 9)
    (fun i => if i = 0 then x else y) (fun i => by by_cases h : i = 0 <;> simp only [h, if_true, if_false] <;> assumption)
    (by simp [Expr.width]) (by simp [Expr.width]) (fun i => if i = 0 then a else b)
    (fun i => by by_cases h : i = 0 <;> simp only [h, if_true, if_false] <;> assumption)
  have e1 : ∀ {α : Type} {m : Res α} {g : α → Res BigInt} {r : BigInt}, (m >>= g) = .ok r → ∃ v, m = .ok v ∧ g v = .ok r := by
    intro α m g r h
    cases m with
    | ok v => exact ⟨v, rfl, h⟩
    | _ => cases h
  obtain ⟨c, h3, h4⟩ := e1 h1
  obtain ⟨d, h5, h6⟩ := e1 h2
  obtain ⟨e, h7, h8⟩ := e1 h6
  exact ⟨c, d, e, r, h3, h4, h5, h7, h8⟩

/-- `(a + b) * (a - b) == a * a - b * b`, through `C56_laws`. -/
example (ρ : IntStore) (hρ : ∀ i, |ρ i| < 2 ^ 1000) (σ : Store) (hσ : σ.Shows ρ) :
    ∃ a b, Expr.eval σ (.bin .mul (.bin .add (.var 0) (.var 1)) (.bin .sub (.var 0) (.var 1))) = .ok a ∧
      Expr.eval σ (.bin .sub (.bin .mul (.var 0) (.var 0)) (.bin .mul (.var 1) (.var 1))) = .ok b ∧ a.equals b = .ok true ∧ a = b :=
  C56_laws (.bin .mul (.bin .add (.var 0) (.var 1)) (.bin .sub (.var 0) (.var 1)))
    (.bin .sub (.bin .mul (.var 0) (.var 0)) (.bin .mul (.var 1) (.var 1))) ⟨by decide, by decide, ⟨by decide, by decide, trivial, trivial⟩, ⟨by decide, by decide, trivial, trivial⟩⟩
    ⟨by decide, by decide, ⟨by decide, by decide, trivial, trivial⟩, ⟨by decide, by decide, trivial, trivial⟩⟩
    (fun ρ => by show (ρ 0 + ρ 1) * (ρ 0 - ρ 1) = ρ 0 * ρ 0 - ρ 1 * ρ 1; ring) 1000 ρ hρ (by simp [Expr.width]) (by simp [Expr.width]) σ hσ
example : ∃ c d e r, neg3.and pos2 = .ok c ∧ c.compl = .ok r ∧ neg3.compl = .ok d ∧ pos2.compl = .ok e ∧ d.or e = .ok r :=
  C56_de_morgan _ _ _ _ neg3_denotes pos2_denotes (lt_of_lt_of_le (b := 2 ^ 70) (by decide) (pow_le_pow_right₀ (by decide) (by decide)))
    (lt_of_lt_of_le (b := 2 ^ 70) (by decide) (pow_le_pow_right₀ (by decide) (by decide)))

/-! ### instances of the remaining theorems -/

/-- `(v₀ - 7) * v₀` and `v₀ * v₀ - v₀ * 7` at `v₀ = 5`: both -10; at `v₀ = 5` the first differs from `v₀`. -/
example : ∃ a b, Expr.eval (fun _ => ⟨5, []⟩) (.bin .mul (.bin .sub (.var 0) (.const 7)) (.var 0)) = .ok a ∧
    Expr.eval (fun _ => ⟨5, []⟩) (.var 0) = .ok b ∧ a.equals b = .ok false := by
  have hv : Expr.Value (fun _ => 5) (.var 0) 5 := .var (inRange_small (by decide))
  have h7 : Expr.Value (fun _ => 5) (.const 7) 7 := .const (by decide)
  have hs : Expr.Value (fun _ => 5) (.bin .sub (.var 0) (.const 7)) (-2) := .bin hv h7 rfl (inRange_small (by decide))
  exact C56_distinguishes (fun _ => 5) _ (fun _ => (BigInt.denotes_small (by decide) (by decide))) _ _ (-10) 5
    (.bin hs hv rfl (inRange_small (by decide))) hv (by decide)

end BigIntegerCpp
