import Verif.Long32PythonSpec
import Verif.Model.Long32Python
import Verif.Props.Python
import Verif.Props.Long32
import Verif.Props.Long32Pow
/-
Helper lemmas for C93.
-/
set_option linter.unusedSectionVars false
namespace BigIntegerCpp
variable [Cfg]

theorem CarryLost.symm {x y : Nat} (h : CarryLost x y) : CarryLost y x := by
  unfold CarryLost at *; rw [Nat.add_comm (y % _), Nat.add_comm (y / _)]; exact h

theorem carryLost_comm {x y : Nat} : CarryLost x y ↔ CarryLost y x := ⟨.symm, .symm⟩

/-- What the method behind an operator does. -/
def Out32 (op : PyOp) (x y : Int) (R : Res BigInt) : Prop :=
  (op.SafeLong32 x y → match op.meaning x y with
    | .ok z => Returns R z
    | .error e => R = .throw e) ∧
  (op.LosesCarry x y → ∀ z, op.meaning x y = .ok z → Returns R (if x < 0 then z + 2 ^ 64 else z - 2 ^ 64)) ∧
  (¬ op.SafeLong32 x y → ¬ op.LosesCarry x y → R = .ub .badShift)

theorem pyOp_binOp (op : PyOp) : ∃ op' : BinOp, op.method = op'.apply ∧ op.meaning = op'.meaning := by
  cases op
  · exact ⟨.add, rfl, rfl⟩
  · exact ⟨.sub, rfl, rfl⟩
  · exact ⟨.mul, rfl, rfl⟩
  · exact ⟨.rem, rfl, rfl⟩
  · exact ⟨.div, rfl, rfl⟩
  · exact ⟨.div, rfl, rfl⟩
  · exact ⟨.and, rfl, rfl⟩
  · exact ⟨.or, rfl, rfl⟩
  · exact ⟨.xor, rfl, rfl⟩

theorem out32_same {op : PyOp} {a b : BigInt} {x y : Int} (ha : a.Denotes x) (hb : b.Denotes y) (hx : InRange x) (hy : InRange y)
    (h1 : op.SafeLong32 x y) (h2 : ¬ op.LosesCarry x y) : Out32 op x y (op.method a b) := by
  refine ⟨fun _ => ?_, fun h => absurd h h2, fun h => absurd h1 h⟩
  obtain ⟨op', e1, e2⟩ := pyOp_binOp op
  rw [e1, e2]
  cases hm : op'.meaning x y with
  | ok z => exact op'.apply_ok ha hb hx hy hm
  | error e => exact op'.apply_throw ha hb hx hm

theorem out32 (op : PyOp) {a b : BigInt} {x y : Int} (ha : a.Denotes x) (hb : b.Denotes y) (hx : InRange x) (hy : InRange y) :
    Out32 op x y (Long32.pyMethod op a b) := by
  have la := hx.length ha
  have lb := hy.length hb
  have fa : a.Fits := by unfold BigInt.Fits; omega
  have fb : b.Fits := by unfold BigInt.Fits; omega
  cases op with
  | add =>
    refine ⟨fun h => ?_, fun h z hz => ?_, fun h1 h2 => ?_⟩
    · exact (C86_add_exact_iff a b x y ha hb fa fb).2 h
    · cases hz
      have := C86_add_wrong a b x y ha hb fa fb h.1 h.2.1 h.2.2
      exact this
    · dsimp only [PyOp.SafeLong32] at h1
      dsimp only [PyOp.LosesCarry] at h2
      clear hx hy
      exact C86_add_undefined a b x y ha hb fa fb (by tauto) (by tauto)
  | sub =>
    refine ⟨fun h => ?_, fun h z hz => ?_, fun h1 h2 => ?_⟩
    · exact (C86_sub_exact_iff a b x y ha hb fa fb).2 h
    · cases hz
      exact C86_sub_wrong a b x y ha hb fa fb h.1 h.2.1 h.2.2
    · dsimp only [PyOp.SafeLong32] at h1
      dsimp only [PyOp.LosesCarry] at h2
      clear hx hy
      exact C86_sub_undefined a b x y ha hb fa fb (by tauto) (by tauto)
  | mul =>
    have := C86_multiply a b x y ha hb (by omega)
    refine ⟨fun h => this.1 h, fun h => h.elim, fun h1 _ => ?_⟩
    dsimp only [PyOp.SafeLong32] at h1
    rw [not_or, not_lt, not_lt] at h1
    exact this.2 h1.1 h1.2
  | mod => exact out32_same (op := .mod) ha hb hx hy trivial id
  | truediv => exact out32_same (op := .truediv) ha hb hx hy trivial id
  | floordiv => exact out32_same (op := .floordiv) ha hb hx hy trivial id
  | and => exact out32_same (op := .and) ha hb hx hy trivial id
  | or => exact out32_same (op := .or) ha hb hx hy trivial id
  | xor => exact out32_same (op := .xor) ha hb hx hy trivial id

/-- The operators that the bindings call with the operands exchanged. -/
def Swapped (op : PyOp) : Prop := op = .add ∨ op = .and ∨ op = .or ∨ op = .xor

theorem meaning_symm {op : PyOp} (h : Swapped op) (x y : Int) : op.meaning x y = op.meaning y x := by
  have bit : ∀ {z w : Int}, (∀ k, Int.testBit z k = Int.testBit w k) → z = w := fun h => ibit_ext fun k => by
    rw [← ibit_testBit, ← ibit_testBit, h]
  rcases h with rfl | rfl | rfl | rfl
  · show Except.ok (x + y) = Except.ok (y + x); rw [Int.add_comm]
  · exact congrArg Except.ok (bit fun k => by rw [Int.testBit_land, Int.testBit_land, Bool.and_comm])
  · exact congrArg Except.ok (bit fun k => by rw [Int.testBit_lor, Int.testBit_lor, Bool.or_comm])
  · exact congrArg Except.ok (bit fun k => by rw [Int.testBit_lxor, Int.testBit_lxor, Bool.xor_comm])

theorem Out32.symm {op : PyOp} (h : Swapped op) {x y : Int} {R : Res BigInt} (hR : Out32 op x y R) : Out32 op y x R := by
  have e1 : op.SafeLong32 y x ↔ op.SafeLong32 x y := by
    rcases h with rfl | rfl | rfl | rfl
    · dsimp only [PyOp.SafeLong32]; rw [carryLost_comm (x := y.natAbs)]; tauto
    all_goals exact Iff.rfl
  have e2 : op.LosesCarry y x ↔ op.LosesCarry x y := by
    rcases h with rfl | rfl | rfl | rfl
    · dsimp only [PyOp.LosesCarry]; rw [carryLost_comm (x := y.natAbs)]; tauto
    all_goals exact Iff.rfl
  have e3 : op.LosesCarry x y → (y < 0 ↔ x < 0) := by
    rcases h with rfl | rfl | rfl | rfl
    · exact fun h => h.1.symm
    all_goals exact fun h => h.elim
  unfold Out32
  rw [e1, e2, meaning_symm h y x]
  refine ⟨hR.1, fun h z hz => ?_, hR.2.2⟩
  have := hR.2.1 h z hz
  by_cases hx : x < 0
  · rw [if_pos hx] at this; rwa [if_pos ((e3 h).2 hx)]
  · rw [if_neg hx] at this; rwa [if_neg (fun hy => hx ((e3 h).1 hy))]

/-- How the result of the method is handed on: as it is if the left operand is a `BigInteger`, else as an `int`. -/
def handOn (l : PyVal) (c : BigInt) : Res (BigInt ⊕ Int) :=
  match l with
  | .big _ => .ok (.inl c)
  | .int _ => do .ok (.inr (← toPyInt c))

theorem pyMethodInt_eq (op : PyOp) (a : BigInt) (n : PyInt) : Long32.pyMethodInt op a n =
    (do let o ← toBigInteger n; if op = .add then Long32.pyMethod op o a else Long32.pyMethod op a o) := by cases op <;> rfl

theorem pyReflected_eq (op : PyOp) (b : BigInt) (n : PyInt) : Long32.pyReflected op b n =
    (do
      let o ← toBigInteger n
      let r ← (if op = .add ∨ op = .and ∨ op = .or ∨ op = .xor then Long32.pyMethod op b o else Long32.pyMethod op o b)
      toPyInt r) := by cases op <;> rfl

theorem pyEval_out (op : PyOp) {l r : PyVal} {x y : Int} (hl : l.Stands x) (hr : r.Stands y) (hlr : Bound l r)
    (hx : InRange x) (hy : InRange y) (hs : Cfg.strictShift = false) :
    ∃ R, Out32 op x y R ∧ Long32.pyEval op l r = some (R >>= handOn l) := by
  cases l with
  | big a =>
    cases r with
    | big b => exact ⟨_, out32 op hl hr hx hy, rfl⟩
    | int n =>
      obtain rfl : n.value = y := hr
      obtain ⟨o, h1, h2⟩ := C44_of_int n _ (by norm_num) hy hs
      refine ⟨if op = .add then Long32.pyMethod op o a else Long32.pyMethod op a o, ?_, ?_⟩
      · by_cases h : op = .add
        · rw [if_pos h]; exact (out32 op h2 hl hy hx).symm (.inl h)
        · rw [if_neg h]; exact out32 op hl h2 hx hy
      · dsimp only [Long32.pyEval]
        rw [pyMethodInt_eq, h1, Res.ok_bind]; rfl
  | int n =>
    cases r with
    | int m => exact hlr.elim
    | big b =>
      obtain rfl : n.value = x := hl
      obtain ⟨o, h1, h2⟩ := C44_of_int n _ (by norm_num) hx hs
      refine ⟨if op = .add ∨ op = .and ∨ op = .or ∨ op = .xor then Long32.pyMethod op b o else Long32.pyMethod op o b, ?_, ?_⟩
      · by_cases h : op = .add ∨ op = .and ∨ op = .or ∨ op = .xor
        · rw [if_pos h]; exact (out32 op hr h2 hy hx).symm h
        · rw [if_neg h]; exact out32 op h2 hr hx hy
      · dsimp only [Long32.pyEval]
        rw [pyReflected_eq, h1, Res.ok_bind, Res.bind_assoc]; rfl

theorem handOn_answers (l : PyVal) {R : Res BigInt} {z : Int} (h : Returns R z) (hz : z.natAbs < 2 ^ (32 * (2 ^ 29 - 1))) :
    Answers l (some (R >>= handOn l)) z := by
  obtain ⟨c, e, hc⟩ := h
  rw [e, Res.ok_bind]
  have hlen : c.bits.length < 2 ^ 29 := lt_of_le_of_lt (hc.length_le_of_lt (k := 2 ^ 29 - 1) hz) (by decide)
  cases l with
  | big a => exact ⟨c, rfl, hc⟩
  | int n =>
    show some _ = some _
    dsimp only [handOn]
    rw [toPyInt_spec hc hlen]; rfl

theorem pyOp_bound {op : PyOp} {x y z : Int} (hx : InRange x) (hy : InRange y) (h : op.meaning x y = .ok z) :
    z.natAbs < 2 ^ (32 * (2 ^ 29 - 1)) := by
  obtain ⟨op', -, e⟩ := pyOp_binOp op
  rw [e] at h
  exact op'.meaning_bound hx hy h

theorem answers_inj {l : PyVal} {res : Option (Res (BigInt ⊕ Int))} {z w : Int} (h : Answers l res z) (h' : Answers l res w) : z = w := by
  cases l with
  | big a =>
    obtain ⟨b, e, hb⟩ := h
    obtain ⟨c, e', hc⟩ := h'
    rw [e] at e'
    cases e'
    exact hb.2.symm.trans hc.2
  | int n =>
    have h1 : res = some (.ok (.inr z)) := h
    have h2 : res = some (.ok (.inr w)) := h'
    rw [h1] at h2
    cases h2
    rfl

end BigIntegerCpp
