import Verif.Lemmas.Exhaustion
import Verif.Props.Samples
/-
C71: what is left of the objects when memory runs out.  `s.execM f σ` is the run of the statement `s`
on the objects `σ` when the requests for memory are answered as `f` says (Model/Exhaustion.lean); it
yields the outcome, `.noMemory` for `std::bad_alloc`, the answers not yet used, and the objects.
-/
namespace BigIntegerCpp
open Samples
variable [Cfg]

/-- Whatever is refused, whenever and however often, and whatever the program catches: started on
canonical objects it leaves only canonical objects. -/
theorem C71_objects_stay_canonical (p : Prog) (hp : p.LiteralsOk) (fuel : Nat) (f : Refusals) (σ : Store) (h : ∀ i, (σ i).Valid) :
    ∀ i, ((p.execM fuel f σ).2.2 i).Valid := (p.execM_keeps fuel hp f σ h).1

/-- If nothing is refused the program runs as in Model/Program.lean. -/
theorem C71_nothing_refused (p : Prog) (fuel : Nat) (f : Refusals) (σ : Store) (hf : ∀ n, f n = false) :
    (p.execM fuel f σ).1 = .res (p.exec fuel σ).1 ∧ (p.execM fuel f σ).2.2 = (p.exec fuel σ).2 :=
  have h := p.execM_same fuel f σ hf
  ⟨h.1, h.2.1⟩

/-- A refusal is never passed over: a program that catches nothing either ends with `bad_alloc` or
ends as if nothing had been refused, with the same objects. -/
theorem C71_reported (p : Prog) (hp : p.CatchFree) (fuel : Nat) (f : Refusals) (σ : Store) :
    (p.execM fuel f σ).1 = .noMemory ∨
      (p.execM fuel f σ).1 = .res (p.exec fuel σ).1 ∧ (p.execM fuel f σ).2.2 = (p.exec fuel σ).2 := by
  rcases p.execM_follows fuel hp f σ with h | h
  · exact .inl h.1
  · exact .inr ⟨h.1, h.2.1⟩

/-- C71, partial: a statement that ends with `bad_alloc` has changed no object.  Missing: `z = x`,
`x |= y`, `z = x++`, `z = x--` and `z = div_rem(x, y, r)`, where it fails, see `C71_exact_iff`. -/
theorem C71_unchanged_partial (s : Stmt) (hs : s.Atomic) (f : Refusals) (σ : Store) (h : (s.execM f σ).1 = .noMemory) :
    (s.execM f σ).2.2 = σ := s.execM_strong hs f σ h

/-- So a program of such statements that ends with `bad_alloc` has stopped before one of them, with the
objects as they were then (`Reaches`, ProgramSpec.lean). -/
theorem C71_program_stops (p : Prog) (hc : p.CatchFree) (ha : p.Atomic) (fuel : Nat) (f : Refusals) (σ : Store)
    (h : (p.execM fuel f σ).1 = .noMemory) : ∃ s, Reaches p σ s (p.execM fuel f σ).2.2 :=
  p.execM_stops fuel hc ha (f := f) (f' := (p.execM fuel f σ).2.1) (by rw [← h])

/-- Exactly which statements can end with `bad_alloc` and leave an object changed (`MayTear`,
ExhaustionSpec.lean). -/
theorem C71_exact_iff (s : Stmt) (σ : Store) (ρ : IntStore) (h : σ.Shows ρ) (hf : ∀ i, (σ i).Fits) :
    (∃ f, (s.execM f σ).1 = .noMemory ∧ (s.execM f σ).2.2 ≠ σ) ↔ s.MayTear ρ := by
  rw [← s.tears_iff h hf]
  constructor
  · rintro ⟨f, h1, h2⟩
    exact ⟨_, ⟨f, h1, rfl⟩, h2⟩
  · rintro ⟨τ, ⟨f, h1, rfl⟩, h2⟩
    exact ⟨f, h1, h2⟩

/-- `z = x` that ends with `bad_alloc`: `z` has the sign of the new value and the magnitude of the old
one, or, if the old one was in the `int` range, is `1` or `-1`. -/
theorem C71_assignment (z x : Nat) (f : Refusals) (σ : Store) (ρ : IntStore) (h : σ.Shows ρ)
    (hn : ((Stmt.unary .copy z x).execM f σ).1 = .noMemory) :
    ((Stmt.unary .copy z x).execM f σ).2.2.Shows (ρ.set z (halfAssigned (ρ z) (ρ x))) := by
  obtain ⟨h1, h2⟩ := copy_failsIn.1 ⟨f, hn, rfl⟩
  rw [h2]
  exact h.set (torn_denotes (h z) (h x) h1)

/-- `x |= y` that ends with `bad_alloc`: nothing has changed, or `x` was zero and is now the sign of `y`. -/
theorem C71_or_assignment (x y : Nat) (f : Refusals) (σ : Store) (ρ : IntStore) (h : σ.Shows ρ)
    (hn : ((Stmt.update .or x y).execM f σ).1 = .noMemory) :
    ((Stmt.update .or x y).execM f σ).2.2 = σ ∨
      ρ x = 0 ∧ ((Stmt.update .or x y).execM f σ).2.2.Shows (ρ.set x (ρ y).sign) := by
  rcases (orAssign_failsIn (h x)).1 ⟨f, hn, rfl⟩ with e | ⟨h1, h2, h3⟩
  · exact .inl e
  · refine .inr ⟨h1, ?_⟩
    have e : (Stmt.update .or x y).execM f σ = orAssign x y f σ := rfl
    rw [e, h3]
    refine h.set ?_
    have hx := h x
    rw [h1] at hx
    have e2 := hx.unique denotes_zero
    have := torn_denotes hx (h y) (by rw [e2]; exact List.length_pos_iff.2 h2)
    rw [e2] at this
    exact this

/-- `z = div_rem(x, y, r)` that ends with `bad_alloc`: no object but `r` has changed, and `r` either has
its old value, or the remainder, or is half assigned. -/
theorem C71_div_rem (z x y r : Nat) (f : Refusals) (σ : Store) (ρ : IntStore) (h : σ.Shows ρ) (hf : ∀ i, (σ i).Fits)
    (hn : ((Stmt.divRem z x y r).execM f σ).1 = .noMemory) :
    ∃ v, ((Stmt.divRem z x y r).execM f σ).2.2.Shows (ρ.set r v) ∧
      (v = ρ r ∨ ρ y ≠ 0 ∧ v = storedRemainder (ρ x) (ρ y) ∨ ρ y ≠ 0 ∧ v = halfAssigned (ρ r) (ρ x)) := by
  have hl : (σ x).bits.length < 2147483648 := Nat.lt_succ_of_lt (hf x)
  have h1 : (divRemM x y r).FailsIn σ ((Stmt.divRem z x y r).execM f σ).2.2 :=
    (MCmd.failsIn_bind_noFail fun _ => MCmd.NoFail.write _ _).1 ⟨f, hn, rfl⟩
  generalize ((Stmt.divRem z x y r).execM f σ).2.2 = τ at *
  have hs : σ.Shows (ρ.set r (ρ r)) := by
    have := h.set (i := r) (h r)
    rwa [Store.set_self] at this
  by_cases hy : ρ y = 0
  · have h0 := h y
    rw [hy] at h0
    rw [divRemM_zero (h x) h0 hl h1]
    exact ⟨_, hs, .inl rfl⟩
  · obtain ⟨w, hw, h3, -⟩ := divRemM_failsIn (τ := τ) (k := r) (h x) (h y) hy hl
    rw [divRemRest_eq (h x) (h y)] at hw
    rcases h3 h1 with rfl | ⟨h4, h5⟩
    · exact ⟨_, hs, .inl rfl⟩
    · by_cases hlt : (σ x).bits.length < (σ y).bits.length
      · rw [if_pos hlt] at h5
        rw [h5.2]
        exact ⟨_, h.set (torn_denotes (h r) (h x) h5.1), .inr (.inr ⟨hy, rfl⟩)⟩
      · rw [if_neg hlt] at h5
        rw [h5]
        exact ⟨_, h.set hw, .inr (.inl ⟨hy, rfl⟩)⟩

/-- `try { p } catch (...) {}` lets neither `bad_alloc` nor another exception through; the objects are as `p`
has left them. -/
theorem C71_caught (p : Prog) (fuel : Nat) (f : Refusals) (σ : Store) :
    ((Prog.attempt p).execM (fuel + 1) f σ).1 ≠ .noMemory ∧
      (∀ e, ((Prog.attempt p).execM (fuel + 1) f σ).1 ≠ .res (.throw e)) ∧
      ((Prog.attempt p).execM (fuel + 1) f σ).2.2 = (p.execM fuel f σ).2.2 := by
  dsimp only [Prog.execM]
  generalize p.execM fuel f σ = r
  obtain ⟨r, f', σ'⟩ := r
  cases r with
  | noMemory => exact ⟨nofun, nofun, rfl⟩
  | res r => cases r <;> exact ⟨nofun, nofun, rfl⟩

/-- Moving, swapping and the assignment of an `int` other than `INT_MIN` never fail. -/
theorem C71_never_fails (x y : Nat) (n : Int) (hn : n ≠ -2 ^ 31) (f : Refusals) (σ : Store) :
    ((Stmt.move x y).execM f σ).1 = .res (.ok ()) ∧ ((Stmt.swap x y).execM f σ).1 = .res (.ok ()) ∧
      ((Stmt.const x n).execM f σ).1 ≠ .noMemory := by
  refine ⟨rfl, rfl, ?_⟩
  have : (Stmt.const x n).execM.NoFail := by
    refine MCmd.NoFail.bind ?_ fun _ => .write _ _
    unfold MCmd.ofInt
    rw [if_neg (by omega)]
    exact .lift _
  exact this f σ

/-- `try_parse(s, x)`: a refusal is caught like a malformed text; the result is `false` and `x` has not
changed.  Otherwise it does what C33 says. -/
theorem C71_try_parse (s : List Char) (x : Nat) (f : Refusals) (σ : Store) :
    tryParseM s x f σ =
      (if f 0 then .res (.ok false) else .res (do let p ← BigInt.tryParse s (σ x); .ok p.1), f.later,
       if f 0 then σ else match BigInt.tryParse s (σ x) with | .ok p => σ.set x p.2 | _ => σ) := by
  unfold tryParseM BigInt.tryParse
  cases hf : f 0 with
  | true =>
    have : (do MCmd.write x (← MCmd.compute (BigInt.parse s)) : MCmd Unit) f σ = (.noMemory, f.later, σ) :=
      MCmd.compute_bind_no _ _ hf σ
    rw [this]
    rfl
  | false =>
    have e : (MCmd.compute (BigInt.parse s)) f σ = (.res (BigInt.parse s), f.later, σ) :=
      MCmd.request_bind_ok (fun _ => MCmd.lift _) hf σ
    have : (do MCmd.write x (← MCmd.compute (BigInt.parse s)) : MCmd Unit) f σ =
        MCmd.bind (MCmd.compute (BigInt.parse s)) (fun r => MCmd.write x r) f σ := rfl
    rw [this]
    unfold MCmd.bind
    rw [e]
    cases BigInt.parse s with
    | ok r => rfl
    | throw e => show _ = (_, _, if _ then _ else σ.set x (σ x)); rw [Store.set_self]; rfl
    | _ => rfl

/-! ### instances -/

/-- Object 0 is zero, object 1 is `5`, every other one is `-18446744103774322693`. -/
def threeObjects : Store := fun i => if i = 0 then zeroInt else if i = 1 then ⟨5, []⟩ else neg3
def threeInts : IntStore := fun i => if i = 0 then 0 else if i = 1 then 5 else -18446744103774322693
theorem threeObjects_shows : threeObjects.Shows threeInts := by
  intro i
  unfold threeObjects threeInts
  by_cases h0 : i = 0
  · rw [if_pos h0, if_pos h0]; exact denotes_zero
  · rw [if_neg h0, if_neg h0]
    by_cases h1 : i = 1
    · rw [if_pos h1, if_pos h1]; exact BigInt.denotes_small (by decide) (by decide)
    · rw [if_neg h1, if_neg h1]; exact neg3_denotes
theorem threeObjects_fits (i : Nat) : (threeObjects i).Fits := by
  unfold threeObjects
  by_cases h0 : i = 0
  · rw [if_pos h0]; decide
  · rw [if_neg h0]
    by_cases h1 : i = 1
    · rw [if_pos h1]; decide
    · rw [if_neg h1]; exact neg3_fits

/-- The claim is false: `a = b` with `a` five and `b` large and negative can throw `bad_alloc` and leave
`a` equal to `-1`; `a |= b` with `a` zero the same. -/
theorem C71_refuted : ¬ ∀ (s : Stmt) (f : Refusals) (σ : Store), (∀ i, (σ i).Valid) → (s.execM f σ).1 = .noMemory →
    (s.execM f σ).2.2 = σ := by
  intro h
  obtain ⟨f, h1, h2⟩ := (C71_exact_iff (.unary .copy 1 2) _ _ threeObjects_shows threeObjects_fits).2
    ⟨by decide +kernel, by decide +kernel⟩
  exact h2 (h _ _ _ (fun i => (threeObjects_shows i).1) h1)
/-- Both failures, run: the first request of `a = b` is refused; the second one of `a |= b`. -/
example : ((Stmt.unary .copy 1 2).execM (fun _ => true) threeObjects).1 = .noMemory ∧
    ((Stmt.unary .copy 1 2).execM (fun _ => true) threeObjects).2.2 1 = ⟨-1, []⟩ := ⟨rfl, rfl⟩
example : ((Stmt.update .or 0 2).execM (fun n => n == 1) threeObjects).1 = .noMemory ∧
    ((Stmt.update .or 0 2).execM (fun n => n == 1) threeObjects).2.2 0 = ⟨-1, []⟩ := by
  rename_i c; obtain ⟨d, s⟩ := c; cases d <;> cases s <;> exact ⟨rfl, rfl⟩
/-- Statements that are not atomic, and whether they can be torn here. -/
example : (Stmt.update .or 0 2).MayTear threeInts ∧ ¬ (Stmt.update .or 1 2).MayTear threeInts ∧
    (Stmt.divRem 3 2 1 0).MayTear threeInts ∧ (Stmt.postInc 1 2).MayTear threeInts ∧ ¬ (Stmt.postInc 2 2).MayTear threeInts ∧
    ¬ (Stmt.unary .copy 2 1).MayTear threeInts := by
  refine ⟨?_, ?_, ?_, ?_, ?_, ?_⟩ <;> unfold Stmt.MayTear <;> decide +kernel
/-- A program that meets the hypotheses of the theorems on programs, and is refused memory in its
second statement: the first one has taken effect. -/
example : (Prog.seq (.stmt (.binary .add 0 1 1)) (.stmt (.update .mul 2 2))).CatchFree ∧
    (Prog.seq (.stmt (.binary .add 0 1 1)) (.stmt (.update .mul 2 2))).Atomic := ⟨⟨trivial, trivial⟩, trivial, trivial⟩
example : ((Prog.seq (.stmt (.binary .add 0 1 1)) (.stmt (.update .mul 2 2))).execM 5 (fun n => n == 1) threeObjects).1 = .noMemory ∧
    ((Prog.seq (.stmt (.binary .add 0 1 1)) (.stmt (.update .mul 2 2))).execM 5 (fun n => n == 1) threeObjects).2.2 0 = ⟨10, []⟩ := by
  rename_i c; obtain ⟨d, s⟩ := c; cases d <;> cases s <;> exact ⟨rfl, rfl⟩
/-- The same in a `try` block: the exception is caught, the first statement keeps its effect. -/
example : ((Prog.attempt (.seq (.stmt (.binary .add 0 1 1)) (.stmt (.update .mul 2 2)))).execM 5 (fun n => n == 1) threeObjects).1 =
      .res (.ok ()) ∧
    ((Prog.attempt (.seq (.stmt (.binary .add 0 1 1)) (.stmt (.update .mul 2 2)))).execM 5 (fun n => n == 1) threeObjects).2.2 0 =
      ⟨10, []⟩ := by
  rename_i c; obtain ⟨d, s⟩ := c; cases d <;> cases s <;> exact ⟨rfl, rfl⟩
/-- `try_parse("12", x)` can return `false`. -/
example : (tryParseM ['1', '2'] 1 (fun _ => true) threeObjects).1 = .res (.ok false) ∧
    (tryParseM ['1', '2'] 1 (fun _ => true) threeObjects).2.2 = threeObjects := by
  rw [C71_try_parse]; exact ⟨rfl, rfl⟩

end BigIntegerCpp
