import Verif.Model.Exhaustion
import Verif.Lemmas.Program
import Verif.Lemmas.Closure
import Verif.Lemmas.GcdPrefix
import Verif.ExhaustionSpec
/-
Helper lemmas for Props/Exhaustion.lean.
-/
set_option linter.unusedSectionVars false
namespace BigIntegerCpp
variable [Cfg]

omit [Cfg] in
theorem Store.set_set (σ : Store) (i : Nat) (u v : BigInt) : (σ.set i u).set i v = σ.set i v := by
  funext j
  unfold Store.set
  by_cases h : j = i
  · rw [if_pos h, if_pos h]
  · rw [if_neg h, if_neg h, if_neg h]
omit [Cfg] in
theorem Store.set_self (σ : Store) (i : Nat) : σ.set i (σ i) = σ := by
  funext j
  unfold Store.set
  by_cases h : j = i
  · rw [if_pos h, h]
  · rw [if_neg h]
omit [Cfg] in
theorem Store.set_eq_self {σ : Store} {i : Nat} {v : BigInt} : σ.set i v = σ ↔ v = σ i := by
  constructor
  · intro h
    have := congrFun h i
    unfold Store.set at this
    rwa [if_pos rfl] at this
  · rintro rfl
    exact σ.set_self i

namespace MCmd
variable {α β : Type}

omit [Cfg] in
theorem bind_ok {m : MCmd α} {k : α → MCmd β} {f f' : Refusals} {σ σ' : Store} {a : α} (h : m f σ = (.res (.ok a), f', σ')) :
    (m >>= k) f σ = k a f' σ' := by
  show MCmd.bind m k f σ = _
  unfold MCmd.bind
  rw [h]
omit [Cfg] in
theorem bind_noMemory {m : MCmd α} {k : α → MCmd β} {f f' : Refusals} {σ σ' : Store} (h : m f σ = (.noMemory, f', σ')) :
    (m >>= k) f σ = (.noMemory, f', σ') := by
  show MCmd.bind m k f σ = _
  unfold MCmd.bind
  rw [h]

omit [Cfg] in
theorem pure_apply (a : α) (f : Refusals) (σ : Store) : (pure a : MCmd α) f σ = (.res (.ok a), f, σ) := rfl
omit [Cfg] in
theorem read_bind (i : Nat) (k : BigInt → MCmd β) (f : Refusals) (σ : Store) :
    (read i >>= k) f σ = k (σ i) f σ := rfl
omit [Cfg] in
theorem write_bind (i : Nat) (v : BigInt) (k : Unit → MCmd β) (f : Refusals) (σ : Store) :
    (write i v >>= k) f σ = k () f (σ.set i v) := rfl
omit [Cfg] in
theorem lift_ok_bind (a : α) (k : α → MCmd β) (f : Refusals) (σ : Store) :
    (lift (.ok a) >>= k) f σ = k a f σ := rfl
omit [Cfg] in
theorem request_bind_ok (k : Unit → MCmd β) {f : Refusals} (h : f 0 = false) (σ : Store) :
    (request >>= k) f σ = k () f.later σ := bind_ok (by unfold request; rw [h]; rfl)
omit [Cfg] in
theorem request_bind_no (k : Unit → MCmd β) {f : Refusals} (h : f 0 = true) (σ : Store) :
    (request >>= k) f σ = (.noMemory, f.later, σ) := bind_noMemory (by unfold request; rw [h]; rfl)
omit [Cfg] in
theorem compute_ok {r : Res α} {a : α} (hr : r = .ok a) {f : Refusals} (h : f 0 = false) (σ : Store) :
    (compute r) f σ = (.res (.ok a), f.later, σ) := by
  subst hr
  exact request_bind_ok (fun _ => lift (.ok a)) h σ
omit [Cfg] in
theorem compute_no (r : Res α) {f : Refusals} (h : f 0 = true) (σ : Store) :
    (compute r) f σ = (.noMemory, f.later, σ) := request_bind_no _ h σ
omit [Cfg] in
theorem compute_bind_ok {r : Res α} {a : α} (k : α → MCmd β) (hr : r = .ok a) {f : Refusals} (h : f 0 = false) (σ : Store) :
    (compute r >>= k) f σ = k a f.later σ := bind_ok (compute_ok hr h σ)
omit [Cfg] in
theorem compute_bind_no (r : Res α) (k : α → MCmd β) {f : Refusals} (h : f 0 = true) (σ : Store) :
    (compute r >>= k) f σ = (.noMemory, f.later, σ) := bind_noMemory (compute_no r h σ)

/-! ### a run either ends with `bad_alloc` or is the run without refusals -/

/-- `m` does what `c` does, or some request was refused and it ends with `bad_alloc`. -/
def Follows (m : MCmd α) (c : Cmd α) : Prop := ∀ f σ,
  ((m f σ).1 = .noMemory ∧ ¬ ∀ k, f k = false) ∨ ((m f σ).1 = .res (c σ).1 ∧ (m f σ).2.2 = (c σ).2 ∧
    ((∀ k, f k = false) → ∀ k, (m f σ).2.1 k = false))

omit [Cfg] in
theorem Follows.bind {m : MCmd α} {c : Cmd α} {k : α → MCmd β} {l : α → Cmd β} (h : m.Follows c)
    (hk : ∀ a, (k a).Follows (l a)) : (m >>= k).Follows (c >>= l) := by
  intro f σ
  have h1 := h f σ
  show ((MCmd.bind m k f σ).1 = _ ∧ _) ∨ ((MCmd.bind m k f σ).1 = .res (Cmd.bind c l σ).1 ∧ (MCmd.bind m k f σ).2.2 = (Cmd.bind c l σ).2 ∧
    (_ → ∀ i, (MCmd.bind m k f σ).2.1 i = false))
  unfold MCmd.bind Cmd.bind
  generalize m f σ = r at *
  generalize c σ = q at *
  obtain ⟨r, f', σ'⟩ := r
  obtain ⟨q, τ⟩ := q
  rcases h1 with ⟨h1, h2⟩ | ⟨h1, h2, h3⟩
  · dsimp only at h1; subst h1
    exact .inl ⟨rfl, h2⟩
  · dsimp only at h1 h2; subst h1; subst h2
    cases q with
    | ok a =>
      rcases hk a f' σ' with ⟨h4, h5⟩ | ⟨h4, h5, h6⟩
      · exact .inl ⟨h4, fun h => h5 (h3 h)⟩
      · exact .inr ⟨h4, h5, fun h => h6 (h3 h)⟩
    | throw e => exact .inr ⟨rfl, rfl, h3⟩
    | abort => exact .inr ⟨rfl, rfl, h3⟩
    | ub u => exact .inr ⟨rfl, rfl, h3⟩
    | diverge => exact .inr ⟨rfl, rfl, h3⟩
omit [Cfg] in
theorem Follows.lift (r : Res α) : (MCmd.lift r).Follows (Cmd.lift r) := fun _ _ => .inr ⟨rfl, rfl, id⟩
omit [Cfg] in
theorem Follows.pure (a : α) : (Pure.pure a : MCmd α).Follows (Pure.pure a) := fun _ _ => .inr ⟨rfl, rfl, id⟩
omit [Cfg] in
theorem Follows.read (i : Nat) : (MCmd.read i).Follows (Cmd.read i) := fun _ _ => .inr ⟨rfl, rfl, id⟩
omit [Cfg] in
theorem Follows.write (i : Nat) (v : BigInt) : (MCmd.write i v).Follows (Cmd.write i v) := fun _ _ => .inr ⟨rfl, rfl, id⟩
theorem Follows.ask (c : Cond) : (MCmd.ask c).Follows (Cmd.ask c) := fun _ _ => .inr ⟨rfl, rfl, id⟩
omit [Cfg] in
theorem Follows.request_bind {k : Unit → MCmd α} {c : Cmd α} (h : (k ()).Follows c) : (MCmd.request >>= k).Follows c := by
  intro f σ
  cases hf : f 0 with
  | true => exact .inl ⟨by rw [request_bind_no _ hf], fun h => by rw [h 0] at hf; cases hf⟩
  | false =>
    rw [request_bind_ok _ hf]
    rcases h f.later σ with ⟨h4, h5⟩ | ⟨h4, h5, h6⟩
    · exact .inl ⟨h4, fun h => h5 fun k => h (k + 1)⟩
    · exact .inr ⟨h4, h5, fun h => h6 fun k => h (k + 1)⟩
omit [Cfg] in
theorem Follows.compute (r : Res α) : (MCmd.compute r).Follows (Cmd.lift r) := Follows.request_bind (Follows.lift r)
omit [Cfg] in
theorem Follows.ite {p : Prop} [Decidable p] {m m' : MCmd α} {c c' : Cmd α} (h : p → m.Follows c) (h' : ¬ p → m'.Follows c') :
    (if p then m else m').Follows (if p then c else c') := by
  by_cases hp : p
  · rw [if_pos hp, if_pos hp]; exact h hp
  · rw [if_neg hp, if_neg hp]; exact h' hp
theorem Follows.ofInt (n : Int) : (MCmd.ofInt n).Follows (Cmd.lift (ofInt32 n)) := by
  unfold MCmd.ofInt
  by_cases h : n = -2147483648
  · rw [if_pos h]; exact .compute _
  · rw [if_neg h]; exact .lift _
omit [Cfg] in
theorem Follows.copyAssign (x : Nat) (v : BigInt) : (MCmd.copyAssign x v).Follows (Cmd.write x v) := by
  intro f σ
  unfold MCmd.copyAssign
  rw [read_bind, write_bind]
  have hw : ∀ f, (MCmd.write x v f (σ.set x ⟨v.sign, (σ x).bits⟩)) = (.res (.ok ()), f, σ.set x v) := by
    intro f; unfold MCmd.write; rw [Store.set_set]
  by_cases h : (σ x).bits.length < v.bits.length
  · rw [if_pos h]
    cases hf : f 0 with
    | true => exact .inl ⟨by rw [request_bind_no _ hf], fun h => by rw [h 0] at hf; cases hf⟩
    | false => rw [request_bind_ok _ hf, hw]; exact .inr ⟨rfl, rfl, fun h k => h (k + 1)⟩
  · rw [if_neg h, hw]
    exact .inr ⟨rfl, rfl, id⟩
end MCmd
open MCmd

theorem divRemM_follows (i j k : Nat) : (divRemM i j k).Follows (divRemAt i j k) :=
  .bind (.read i) fun _ => .bind (.read j) fun _ => .bind (.lift _) fun _ => .bind (.lift _) fun _ =>
    .ite (fun _ => .ite (fun _ => .lift _) fun _ => .bind (.lift _) fun _ => .bind (.ofInt _) fun _ => .bind (.write _ _) fun _ =>
      .bind (.read i) fun _ => .bind (.read j) fun _ => .ite (fun _ => .lift _) fun _ => .bind (.lift _) fun _ => .ofInt _) fun _ =>
    .ite (fun _ => .request_bind <| .bind (.copyAssign _ _) fun _ => .pure _) fun _ =>
    .ite (fun _ => .bind (.lift _) fun _ => .bind (.compute _) fun _ => .bind (.compute _) fun _ => .bind (.write _ _) fun _ =>
      .bind (.read i) fun _ => .bind (.read j) fun _ => .compute _) fun _ =>
    .ite (fun _ => .request_bind <| .bind (.copyAssign _ _) fun _ => .pure _) fun _ =>
      .bind (.compute _) fun _ => .bind (.compute _) fun _ => .bind (.write _ _) fun _ =>
        .bind (.read i) fun _ => .bind (.read j) fun _ => .compute _

theorem BigInt.or_of_zero {a b : BigInt} (h : a.isZero = .ok true) : a.or b = .ok b := by
  unfold BigInt.or
  rw [h]
  rfl

theorem orAssign_follows (x y : Nat) : (orAssign x y).Follows (Stmt.exec (.update .or x y)) := by
  intro f σ
  have e : (Stmt.exec (.update .or x y)) σ = (Cmd.lift ((σ x).or (σ y)) >>= fun r => Cmd.write x r) σ := rfl
  rw [e]
  unfold orAssign
  rw [read_bind]
  cases hf : f 0 with
  | true => exact .inl ⟨by rw [compute_bind_no _ _ hf], fun h => by rw [h 0] at hf; cases hf⟩
  | false =>
    rw [compute_bind_ok _ rfl hf]
    suffices H : ∀ {M : Out Unit × Refusals × Store} {C : Res Unit × Store}, (M.1 = .noMemory ∧ ¬ ∀ k, f.later k = false) ∨
        (M.1 = .res C.1 ∧ M.2.2 = C.2 ∧ ((∀ k, f.later k = false) → ∀ k, M.2.1 k = false)) →
        (M.1 = .noMemory ∧ ¬ ∀ k, f k = false) ∨ (M.1 = .res C.1 ∧ M.2.2 = C.2 ∧ ((∀ k, f k = false) → ∀ k, M.2.1 k = false)) by
      apply H
      clear H
      cases hz : (σ x).isZero with
      | ok b =>
        rw [lift_ok_bind]
        cases b with
        | true =>
          rw [if_pos rfl, read_bind, BigInt.or_of_zero hz]
          exact Follows.copyAssign x (σ y) f.later σ
        | false =>
          rw [if_neg (by decide), read_bind]
          exact (Follows.bind (Follows.compute _) fun _ => Follows.write _ _) f.later σ
      | throw e => unfold BigInt.or; rw [hz]; exact .inr ⟨rfl, rfl, id⟩
      | abort => unfold BigInt.or; rw [hz]; exact .inr ⟨rfl, rfl, id⟩
      | ub u => unfold BigInt.or; rw [hz]; exact .inr ⟨rfl, rfl, id⟩
      | diverge => unfold BigInt.or; rw [hz]; exact .inr ⟨rfl, rfl, id⟩
    rintro M C (⟨h4, h5⟩ | ⟨h4, h5, h6⟩)
    · exact .inl ⟨h4, fun h => h5 fun k => h (k + 1)⟩
    · exact .inr ⟨h4, h5, fun h => h6 fun k => h (k + 1)⟩

theorem postInc_eq (z x : Nat) (σ : Store) : (Stmt.exec (.postInc z x)) σ =
    (do let a ← Cmd.read x; let r ← Cmd.lift a.inc; Cmd.write x r; let v ← Cmd.read x; Cmd.write z v : Cmd Unit) σ := by
  show (Cmd.lift (σ x).postInc >>= _) σ = (Cmd.lift (σ x).inc >>= _) σ
  unfold BigInt.postInc
  cases (σ x).inc with
  | ok r =>
    show (Cmd.write z r) (σ.set x r) = (Cmd.write z (σ.set x r x)) (σ.set x r)
    rw [Store.set_same]
  | throw e => rfl
  | abort => rfl
  | ub u => rfl
  | diverge => rfl
theorem postDec_eq (z x : Nat) (σ : Store) : (Stmt.exec (.postDec z x)) σ =
    (do let a ← Cmd.read x; let r ← Cmd.lift a.dec; Cmd.write x r; let v ← Cmd.read x; Cmd.write z v : Cmd Unit) σ := by
  show (Cmd.lift (σ x).postDec >>= _) σ = (Cmd.lift (σ x).dec >>= _) σ
  unfold BigInt.postDec
  cases (σ x).dec with
  | ok r =>
    show (Cmd.write z r) (σ.set x r) = (Cmd.write z (σ.set x r x)) (σ.set x r)
    rw [Store.set_same]
  | throw e => rfl
  | abort => rfl
  | ub u => rfl
  | diverge => rfl

theorem Stmt.execM_follows (s : Stmt) : s.execM.Follows s.exec := by
  cases s with
  | const x n => exact .bind (.ofInt n) fun _ => .write _ _
  | update op x y =>
    cases op with
    | or => exact orAssign_follows x y
    | _ => exact .bind (.read x) fun _ => .bind (.read y) fun _ => .bind (.compute _) fun _ => .write _ _
  | binary op z x y => exact .bind (.read x) fun _ => .bind (.read y) fun _ => .bind (.compute _) fun _ => .write _ _
  | unary op z x =>
    cases op with
    | copy => exact .bind (.read x) fun v => .copyAssign z v
    | _ => exact .bind (.read x) fun _ => .bind (.compute _) fun _ => .write _ _
  | shl x n => exact .bind (.read x) fun _ => .bind (.compute _) fun _ => .write _ _
  | shr x n => exact .bind (.read x) fun _ => .bind (.compute _) fun _ => .write _ _
  | inc x => exact .bind (.read x) fun _ => .bind (.compute _) fun _ => .write _ _
  | dec x => exact .bind (.read x) fun _ => .bind (.compute _) fun _ => .write _ _
  | pow z x n => exact .bind (.read x) fun _ => .bind (.compute _) fun _ => .write _ _
  | divRem z x y r => exact .bind (divRemM_follows x y r) fun _ => .write _ _
  | long x n => exact .bind (.compute _) fun _ => .write _ _
  | ulong x n => exact .bind (.compute _) fun _ => .write _ _
  | parse x s => exact .bind (.compute _) fun _ => .write _ _
  | move x y => exact .bind (.read y) fun _ => .bind (.write _ _) fun _ => .write _ _
  | swap x y =>
    exact .bind (.read x) fun _ => .bind (.write _ _) fun _ => .bind (.read y) fun _ => .bind (.write _ _) fun _ =>
      .bind (.write _ _) fun _ => .write _ _
  | postInc z x =>
    intro f σ
    rw [postInc_eq]
    exact (Follows.bind (.read x) fun _ => .bind (.compute _) fun _ => .bind (.write _ _) fun _ => .bind (.read x) fun _ =>
      .copyAssign z _) f σ
  | postDec z x =>
    intro f σ
    rw [postDec_eq]
    exact (Follows.bind (.read x) fun _ => .bind (.compute _) fun _ => .bind (.write _ _) fun _ => .bind (.read x) fun _ =>
      .copyAssign z _) f σ

/-! ### objects stay canonical -/

/-- Run on canonical objects, the code leaves only canonical objects, however it ends; and what it
returns satisfies `P`. -/
def MCmd.Keeps {α : Type} (m : MCmd α) (P : α → Prop) : Prop :=
  ∀ f σ, (∀ i, (σ i).Valid) → (∀ i, ((m f σ).2.2 i).Valid) ∧ ∀ a, (m f σ).1 = .res (.ok a) → P a

namespace MCmd
variable {α β : Type}
theorem Keeps.bind {m : MCmd α} {k : α → MCmd β} {P : α → Prop} {Q : β → Prop} (h : m.Keeps P) (hk : ∀ a, P a → (k a).Keeps Q) :
    (m >>= k).Keeps Q := by
  intro f σ hσ
  obtain ⟨h1, h2⟩ := h f σ hσ
  show (∀ i, ((MCmd.bind m k f σ).2.2 i).Valid) ∧ ∀ b, (MCmd.bind m k f σ).1 = _ → _
  unfold MCmd.bind
  generalize m f σ = r at *
  obtain ⟨r, f', σ'⟩ := r
  cases r with
  | noMemory => exact ⟨h1, nofun⟩
  | res r =>
    cases r with
    | ok a => exact hk a (h2 a rfl) f' σ' h1
    | throw e => exact ⟨h1, nofun⟩
    | abort => exact ⟨h1, nofun⟩
    | ub u => exact ⟨h1, nofun⟩
    | diverge => exact ⟨h1, nofun⟩
theorem Keeps.lift {r : Res α} {P : α → Prop} (h : r.All P) : (MCmd.lift r).Keeps P :=
  fun _ _ hσ => ⟨hσ, fun a e => h a (Out.res.inj e)⟩
theorem Keeps.pure {a : α} {P : α → Prop} (h : P a) : (Pure.pure a : MCmd α).Keeps P := fun _ _ hσ => ⟨hσ, fun b e => by cases e; exact h⟩
theorem Keeps.read (i : Nat) : (MCmd.read i).Keeps BigInt.Valid := fun _ _ hσ => ⟨hσ, fun b e => by cases e; exact hσ i⟩
theorem Keeps.ask (c : Cond) : (MCmd.ask c).Keeps fun _ => True := fun _ _ hσ => ⟨hσ, fun _ _ => trivial⟩
theorem Keeps.request : MCmd.request.Keeps fun _ => True := fun _ _ hσ => ⟨hσ, fun _ _ => trivial⟩
theorem Keeps.compute {r : Res α} {P : α → Prop} (h : r.All P) : (MCmd.compute r).Keeps P := .bind .request fun _ _ => .lift h
theorem Keeps.write {i : Nat} {v : BigInt} (hv : v.Valid) : (MCmd.write i v).Keeps fun _ => True := by
  intro f σ hσ
  refine ⟨fun j => ?_, fun _ _ => trivial⟩
  show (Store.set σ i v j).Valid
  unfold Store.set
  by_cases h : j = i
  · rw [if_pos h]; exact hv
  · rw [if_neg h]; exact hσ j
theorem Keeps.ite {c : Prop} [Decidable c] {m m' : MCmd α} {P : α → Prop} (h1 : c → m.Keeps P) (h2 : ¬ c → m'.Keeps P) :
    (if c then m else m').Keeps P := by
  by_cases h : c
  · rw [if_pos h]; exact h1 h
  · rw [if_neg h]; exact h2 h
theorem Keeps.ofInt {n : Int} (hn : IntRange n) : (MCmd.ofInt n).Keeps BigInt.Valid :=
  .ite (fun _ => .compute (ofInt32_all hn)) fun _ => .lift (ofInt32_all hn)
/-- The object in between: the sign of the one and the vector of the other are canonical together. -/
theorem Torn.valid {a v : BigInt} (ha : a.Valid) (hv : v.Valid) (h : a.bits.length < v.bits.length) :
    (⟨v.sign, a.bits⟩ : BigInt).Valid := by
  have hb : v.bits ≠ [] := fun e => by rw [e] at h; exact Nat.not_lt_zero _ h
  have hu := hv.unit hb
  refine ⟨ha.words, hv.signRange, fun _ => ?_, fun _ => hu, ha.topNonzero, ha.notSmall⟩
  rcases hu with e | e <;> rw [e] <;> decide
theorem Keeps.copyAssign {x : Nat} {v : BigInt} (hv : v.Valid) : (MCmd.copyAssign x v).Keeps fun _ => True := by
  intro f σ hσ
  unfold MCmd.copyAssign
  rw [read_bind]
  by_cases h : (σ x).bits.length < v.bits.length
  · rw [if_pos h]
    exact (Keeps.bind (.write (Torn.valid (hσ x) hv h)) fun _ _ => .bind .request fun _ _ => .write hv) f σ hσ
  · rw [if_neg h, write_bind]
    show (∀ i, (((σ.set x ⟨v.sign, (σ x).bits⟩).set x v) i).Valid) ∧ _
    rw [Store.set_set]
    exact Keeps.write hv f σ hσ
end MCmd
open MCmd

theorem divRemM_keeps (i j k : Nat) : (divRemM i j k).Keeps BigInt.Valid := by
  refine .bind (.read i) fun a ha => .bind (.read j) fun b hb => .bind (.lift .trivial) fun _ _ => .bind (.lift .trivial) fun _ _ => ?_
  refine .ite (fun _ => .ite (fun _ => .lift .throw) fun h0 => .bind (.lift .trivial) fun _ _ =>
    .bind (.ofInt (BigInt.tmod_range hb.signRange h0)) fun r hr => .bind (.write hr) fun _ _ =>
      .bind (.read i) fun a ha => .bind (.read j) fun b hb => .ite (fun _ => .lift .ub) fun _ =>
        .bind (.lift (int_all _)) fun q hq => .ofInt hq) fun _ => ?_
  refine .ite (fun _ => .bind .request fun _ _ => .bind (.copyAssign ha) fun _ _ => .pure valid_zero) fun _ => ?_
  refine .ite (fun _ => .bind (.lift .trivial) fun _ _ => .bind (.compute divideWordRem_all) fun p hp =>
    .bind (.compute (ofUInt32_all (BigInt.word_sign hp.2))) fun r hr => .bind (.write hr) fun _ _ => .bind (.read i) fun _ _ =>
      .bind (.read j) fun _ _ => .compute (ofMagnitude_all hp.1 _)) fun _ => ?_
  refine .ite (fun _ => .bind .request fun _ _ => .bind (.copyAssign ha) fun _ _ => .pure valid_zero) fun _ => ?_
  exact .bind (.compute (divideVecRem_all ha.words)) fun p hp => .bind (.compute (ofMagnitude_all hp.2 _)) fun r hr =>
    .bind (.write hr) fun _ _ => .bind (.read i) fun _ _ => .bind (.read j) fun _ _ => .compute (ofMagnitude_all hp.1 _)

theorem orAssign_keeps (x y : Nat) : (orAssign x y).Keeps fun _ => True :=
  .bind (.read x) fun _ ha => .bind (.compute (.ok ha)) fun _ ha => .bind (.lift .trivial) fun b _ =>
    .ite (c := b = true) (fun _ => .bind (.read y) fun _ hb => .copyAssign hb) fun _ => .bind (.read y) fun _ hb =>
      .bind (.compute (BigInt.or_all ha hb)) fun _ h => .write h

theorem Stmt.execM_keeps (s : Stmt) (hc : (∀ x n, s = .const x n → IntRange n) ∧ (∀ x n, s = .long x n → LongRange n) ∧
    ∀ x n, s = .ulong x n → n < 2 ^ 64) : s.execM.Keeps fun _ => True := by
  cases s with
  | const x n => exact .bind (.ofInt (hc.1 x n rfl)) fun _ h => .write h
  | update op x y =>
    cases hop : op with
    | or => exact orAssign_keeps x y
    | _ =>
      exact .bind (.read x) fun _ ha => .bind (.read y) fun _ hb => .bind (.compute (BinOp.apply_all _ ha hb)) fun _ h => .write h
  | binary op z x y => exact .bind (.read x) fun _ ha => .bind (.read y) fun _ hb => .bind (.compute (op.apply_all ha hb)) fun _ h => .write h
  | unary op z x =>
    cases hop : op with
    | copy => exact .bind (.read x) fun _ ha => .copyAssign ha
    | _ => exact .bind (.read x) fun _ ha => .bind (.compute (UnOp.apply_all _ ha)) fun _ h => .write h
  | shl x n => exact .bind (.read x) fun _ ha => .bind (.compute (BigInt.shl_all ha n)) fun _ h => .write h
  | shr x n => exact .bind (.read x) fun _ ha => .bind (.compute (BigInt.shr_all ha n)) fun _ h => .write h
  | inc x => exact .bind (.read x) fun _ _ => .bind (.compute BigInt.inc_all) fun _ h => .write h
  | dec x => exact .bind (.read x) fun _ _ => .bind (.compute BigInt.dec_all) fun _ h => .write h
  | pow z x n => exact .bind (.read x) fun _ ha => .bind (.compute (BigInt.pow_all ha n)) fun _ h => .write h
  | divRem z x y r => exact .bind (divRemM_keeps x y r) fun _ h => .write h
  | long x n => exact .bind (.compute (ofInt64_all (hc.2.1 x n rfl))) fun _ h => .write h
  | ulong x n => exact .bind (.compute (ofUInt64_all (hc.2.2 x n rfl))) fun _ h => .write h
  | parse x s => exact .bind (.compute (BigInt.parse_all s)) fun _ h => .write h
  | move x y => exact .bind (.read y) fun _ ha => .bind (.write ha) fun _ _ => .write ha.movedFrom
  | swap x y =>
    exact .bind (.read x) fun _ ha => .bind (.write ha.movedFrom) fun _ _ => .bind (.read y) fun _ hb => .bind (.write hb) fun _ _ =>
      .bind (.write hb.movedFrom) fun _ _ => .write ha
  | postInc z x =>
    exact .bind (.read x) fun _ _ => .bind (.compute BigInt.inc_all) fun _ h => .bind (.write h) fun _ _ => .bind (.read x) fun _ h =>
      .copyAssign h
  | postDec z x =>
    exact .bind (.read x) fun _ _ => .bind (.compute BigInt.dec_all) fun _ h => .bind (.write h) fun _ _ => .bind (.read x) fun _ h =>
      .copyAssign h

theorem Prog.execM_keeps (n : Nat) (p : Prog) (hp : p.LiteralsOk) : (p.execM n).Keeps fun _ => True := by
  induction n generalizing p with
  | zero => exact .lift .diverge
  | succ n ih =>
    cases p with
    | skip => exact .pure trivial
    | stmt s => exact s.execM_keeps hp
    | seq p q => exact .bind (ih p hp.1) fun _ _ => ih q hp.2
    | ifThen c p q =>
      exact .bind (.ask c) fun b _ => .ite (c := b = true) (fun _ => ih p hp.1) fun _ => ih q hp.2
    | whileDo c p =>
      exact .bind (.ask c) fun b _ => .ite (c := b = true) (fun _ => .bind (ih p hp) fun _ _ => ih _ hp) fun _ => .pure trivial
    | attempt p =>
      intro f σ hσ
      obtain ⟨h1, -⟩ := ih p hp f σ hσ
      refine ⟨?_, fun _ _ => trivial⟩
      dsimp only [Prog.execM]
      generalize p.execM n f σ = r at *
      obtain ⟨r, k', σ'⟩ := r
      cases r with
      | noMemory => exact h1
      | res r => cases r <;> exact h1

/-! ### without refusals -/

/-- No request is refused: the run is the run of Model/Program.lean. -/
def MCmd.Same {α : Type} (m : MCmd α) (c : Cmd α) : Prop := ∀ f σ, (∀ k, f k = false) →
  (m f σ).1 = .res (c σ).1 ∧ (m f σ).2.2 = (c σ).2 ∧ ∀ k, (m f σ).2.1 k = false
theorem MCmd.Follows.same {α : Type} {m : MCmd α} {c : Cmd α} (h : m.Follows c) : m.Same c := by
  intro f σ hf
  rcases h f σ with ⟨-, h⟩ | ⟨h1, h2, h3⟩
  · exact absurd hf h
  · exact ⟨h1, h2, h3 hf⟩
theorem MCmd.Same.bind {α β : Type} {m : MCmd α} {c : Cmd α} {k : α → MCmd β} {l : α → Cmd β} (h : m.Same c)
    (hk : ∀ a, (k a).Same (l a)) : (m >>= k).Same (c >>= l) := by
  intro f σ hf
  have h1 := h f σ hf
  show (MCmd.bind m k f σ).1 = .res (Cmd.bind c l σ).1 ∧ (MCmd.bind m k f σ).2.2 = (Cmd.bind c l σ).2 ∧
    ∀ i, (MCmd.bind m k f σ).2.1 i = false
  unfold MCmd.bind Cmd.bind
  generalize m f σ = r at *
  generalize c σ = q at *
  obtain ⟨r, f', σ'⟩ := r
  obtain ⟨q, τ⟩ := q
  obtain ⟨h1, h2, h3⟩ := h1
  dsimp only at h1 h2; subst h1; subst h2
  cases q with
  | ok a => exact hk a f' σ' h3
  | throw e => exact ⟨rfl, rfl, h3⟩
  | abort => exact ⟨rfl, rfl, h3⟩
  | ub u => exact ⟨rfl, rfl, h3⟩
  | diverge => exact ⟨rfl, rfl, h3⟩
theorem Prog.execM_same (n : Nat) (p : Prog) : (p.execM n).Same (p.exec n) := by
  induction n generalizing p with
  | zero => exact (Follows.lift _).same
  | succ n ih =>
    cases p with
    | skip => exact (Follows.pure ()).same
    | stmt s => exact s.execM_follows.same
    | seq p q => exact (ih p).bind fun _ => ih q
    | ifThen c p q =>
      refine (Follows.ask c).same.bind fun b => ?_
      cases b
      · exact ih q
      · exact ih p
    | whileDo c p =>
      refine (Follows.ask c).same.bind fun b => ?_
      cases b
      · exact (Follows.pure ()).same
      · exact (ih p).bind fun _ => ih _
    | attempt p =>
      intro f σ hf
      obtain ⟨h1, h2, h3⟩ := ih p f σ hf
      dsimp only [Prog.execM, Prog.exec]
      generalize p.execM n f σ = r at *
      generalize p.exec n σ = q at *
      obtain ⟨r, k', σ'⟩ := r
      obtain ⟨q, τ⟩ := q
      dsimp only at h1 h2; subst h1; subst h2
      cases q <;> exact ⟨rfl, rfl, h3⟩

theorem Prog.execM_follows (n : Nat) (p : Prog) (hp : p.CatchFree) : (p.execM n).Follows (p.exec n) := by
  induction n generalizing p with
  | zero => exact .lift _
  | succ n ih =>
    cases p with
    | skip => exact .pure ()
    | stmt s => exact s.execM_follows
    | seq p q => exact (ih p hp.1).bind fun _ => ih q hp.2
    | ifThen c p q =>
      refine (Follows.ask c).bind fun b => ?_
      cases b
      · exact ih q hp.2
      · exact ih p hp.1
    | whileDo c p =>
      refine (Follows.ask c).bind fun b => ?_
      cases b
      · exact .pure ()
      · exact (ih p hp).bind fun _ => ih _ hp
    | attempt p => exact hp.elim

/-! ### which statements change nothing when they fail -/

/-- The code writes no object. -/
def MCmd.Quiet {α : Type} (m : MCmd α) : Prop := ∀ f σ, (m f σ).2.2 = σ
/-- Ending with `bad_alloc` the code has changed no object. -/
def MCmd.Strong {α : Type} (m : MCmd α) : Prop := ∀ f σ, (m f σ).1 = .noMemory → (m f σ).2.2 = σ
/-- The code never ends with `bad_alloc`. -/
def MCmd.NoFail {α : Type} (m : MCmd α) : Prop := ∀ f σ, (m f σ).1 ≠ .noMemory

namespace MCmd
variable {α β : Type}
theorem Quiet.strong {m : MCmd α} (h : m.Quiet) : m.Strong := fun f σ _ => h f σ
theorem NoFail.strong {m : MCmd α} (h : m.NoFail) : m.Strong := fun f σ e => absurd e (h f σ)
theorem Quiet.lift (r : Res α) : (MCmd.lift r).Quiet := fun _ _ => rfl
theorem Quiet.read (i : Nat) : (MCmd.read i).Quiet := fun _ _ => rfl
theorem Quiet.request : MCmd.request.Quiet := fun _ _ => rfl
theorem Quiet.bind {m : MCmd α} {k : α → MCmd β} (h : m.Quiet) (hk : ∀ a, (k a).Quiet) : (m >>= k).Quiet := by
  intro f σ
  have h1 := h f σ
  show (MCmd.bind m k f σ).2.2 = _
  unfold MCmd.bind
  generalize m f σ = r at *
  obtain ⟨r, f', σ'⟩ := r
  dsimp only at h1; subst h1
  cases r with
  | noMemory => rfl
  | res r =>
    cases r with
    | ok a => exact hk a f' σ'
    | _ => rfl
theorem Quiet.compute (r : Res α) : (MCmd.compute r).Quiet := .bind .request fun _ => .lift r
theorem Quiet.ofInt (n : Int) : (MCmd.ofInt n).Quiet := by
  unfold MCmd.ofInt
  by_cases h : n = -2147483648
  · rw [if_pos h]; exact .compute _
  · rw [if_neg h]; exact .lift _
theorem Strong.bind {m : MCmd α} {k : α → MCmd β} (h : m.Quiet) (hk : ∀ a, (k a).Strong) : (m >>= k).Strong := by
  intro f σ
  have h1 := h f σ
  show (MCmd.bind m k f σ).1 = _ → (MCmd.bind m k f σ).2.2 = _
  unfold MCmd.bind
  generalize m f σ = r at *
  obtain ⟨r, f', σ'⟩ := r
  dsimp only at h1; subst h1
  cases r with
  | noMemory => exact fun _ => rfl
  | res r =>
    cases r with
    | ok a => exact hk a f' σ'
    | _ => exact fun _ => rfl
theorem NoFail.bind {m : MCmd α} {k : α → MCmd β} (h : m.NoFail) (hk : ∀ a, (k a).NoFail) : (m >>= k).NoFail := by
  intro f σ
  have h1 := h f σ
  show (MCmd.bind m k f σ).1 ≠ _
  unfold MCmd.bind
  generalize m f σ = r at *
  obtain ⟨r, f', σ'⟩ := r
  cases r with
  | noMemory => exact absurd rfl h1
  | res r =>
    cases r with
    | ok a => exact hk a f' σ'
    | _ => nofun
theorem NoFail.lift (r : Res α) : (MCmd.lift r).NoFail := fun _ _ => nofun
theorem NoFail.read (i : Nat) : (MCmd.read i).NoFail := fun _ _ => nofun
theorem NoFail.write (i : Nat) (v : BigInt) : (MCmd.write i v).NoFail := fun _ _ => nofun
end MCmd

theorem Stmt.execM_strong (s : Stmt) (h : s.Atomic) : s.execM.Strong := by
  have hw : ∀ x v, (MCmd.write x v).Strong := fun x v => (NoFail.write x v).strong
  cases s with
  | const x n => exact .bind (.ofInt n) fun _ => hw _ _
  | update op x y =>
    cases op with
    | or => exact h.elim
    | _ => exact .bind (.read x) fun _ => .bind (.read y) fun _ => .bind (.compute _) fun _ => hw _ _
  | binary op z x y => exact .bind (.read x) fun _ => .bind (.read y) fun _ => .bind (.compute _) fun _ => hw _ _
  | unary op z x =>
    cases op with
    | copy => exact h.elim
    | _ => exact .bind (.read x) fun _ => .bind (.compute _) fun _ => hw _ _
  | shl x n => exact .bind (.read x) fun _ => .bind (.compute _) fun _ => hw _ _
  | shr x n => exact .bind (.read x) fun _ => .bind (.compute _) fun _ => hw _ _
  | inc x => exact .bind (.read x) fun _ => .bind (.compute _) fun _ => hw _ _
  | dec x => exact .bind (.read x) fun _ => .bind (.compute _) fun _ => hw _ _
  | pow z x n => exact .bind (.read x) fun _ => .bind (.compute _) fun _ => hw _ _
  | divRem z x y r => exact h.elim
  | long x n => exact .bind (.compute _) fun _ => hw _ _
  | ulong x n => exact .bind (.compute _) fun _ => hw _ _
  | parse x s => exact .bind (.compute _) fun _ => hw _ _
  | move x y => exact (NoFail.bind (.read y) fun _ => .bind (.write _ _) fun _ => .write _ _).strong
  | swap x y =>
    exact (NoFail.bind (.read x) fun _ => .bind (.write _ _) fun _ => .bind (.read y) fun _ => .bind (.write _ _) fun _ =>
      .bind (.write _ _) fun _ => .write _ _).strong
  | postInc z x => exact h.elim
  | postDec z x => exact h.elim

/-- A program of such statements that ends with `bad_alloc` has stopped before one of them. -/
theorem Prog.execM_stops (m : Nat) (p : Prog) (hc : p.CatchFree) (ha : p.Atomic) {f f' : Refusals} {σ τ : Store}
    (h : p.execM m f σ = (.noMemory, f', τ)) : ∃ s, Reaches p σ s τ := by
  induction m generalizing p f f' σ τ with
  | zero => cases h
  | succ m ih =>
    cases p with
    | skip => cases h
    | stmt s =>
      have h1 := s.execM_strong ha f σ
      change s.execM f σ = _ at h
      rw [h] at h1
      rw [show τ = σ from h1 rfl]
      exact ⟨s, .stmt s σ⟩
    | seq p q =>
      have h1 := p.execM_follows m hc.1 f σ
      change MCmd.bind (p.execM m) (fun _ => q.execM m) f σ = _ at h
      unfold MCmd.bind at h
      cases hp : p.execM m f σ with
      | mk r t =>
        obtain ⟨k, σ'⟩ := t
        rw [hp] at h h1
        cases r with
        | noMemory =>
          cases h
          obtain ⟨s, hs⟩ := ih p hc.1 ha.1 hp
          exact ⟨s, .first hs⟩
        | res r =>
          cases r with
          | ok u =>
            obtain ⟨s, hs⟩ := ih q hc.2 ha.2 h
            rcases h1 with ⟨h1, -⟩ | ⟨h1, h2, -⟩
            · cases h1
            · exact ⟨s, .second (n := m) (Prod.ext (Out.res.inj h1).symm h2.symm) hs⟩
          | _ => cases h
    | ifThen c p q =>
      change MCmd.bind (MCmd.ask c) _ f σ = _ at h
      unfold MCmd.bind MCmd.ask at h
      cases ht : c.test σ with
      | ok b =>
        rw [ht] at h
        cases b
        · obtain ⟨s, hs⟩ := ih q hc.2 ha.2 h
          exact ⟨s, .ifFalse ht hs⟩
        · obtain ⟨s, hs⟩ := ih p hc.1 ha.1 h
          exact ⟨s, .ifTrue ht hs⟩
      | _ => rw [ht] at h; cases h
    | whileDo c p =>
      change MCmd.bind (MCmd.ask c) _ f σ = _ at h
      unfold MCmd.bind MCmd.ask at h
      cases ht : c.test σ with
      | ok b =>
        rw [ht] at h
        cases b
        · cases h
        · have h1 := p.execM_follows m hc f σ
          change MCmd.bind (p.execM m) (fun _ => (Prog.whileDo c p).execM m) f σ = _ at h
          unfold MCmd.bind at h
          cases hp : p.execM m f σ with
          | mk r t =>
            obtain ⟨k, σ'⟩ := t
            rw [hp] at h h1
            cases r with
            | noMemory =>
              cases h
              obtain ⟨s, hs⟩ := ih p hc ha hp
              exact ⟨s, .body ht hs⟩
            | res r =>
              cases r with
              | ok u =>
                obtain ⟨s, hs⟩ := ih (.whileDo c p) hc ha h
                rcases h1 with ⟨h1, -⟩ | ⟨h1, h2, -⟩
                · cases h1
                · exact ⟨s, .again (n := m) ht (Prod.ext (Out.res.inj h1).symm h2.symm) hs⟩
              | _ => cases h
      | _ => rw [ht] at h; cases h
    | attempt p => exact hc.elim

/-! ### exactly when a statement can be left half done -/

theorem BigInt.Denotes.vectorWords {a : BigInt} {z : Int} (h : a.Denotes z) : a.bits.length = vectorWords z := by
  unfold BigIntegerCpp.vectorWords
  rw [Int.abs_eq_natAbs]
  rcases h.shape with ⟨rfl, h1, h2⟩ | ⟨s, ws, rfl, hs, hne, hw, ht, hv, rfl⟩
  · rw [if_pos (by omega)]; rfl
  · have e := natAbs_unit_mul hs (n := val ws)
    rw [if_neg (by omega), e]
    have h1 := wlen_trimLen hw
    rw [trimLen_of_top ht] at h1
    exact h1.wordCount (by omega)

theorem torn_denotes {a v : BigInt} {x y : Int} (ha : a.Denotes x) (hv : v.Denotes y) (h : a.bits.length < v.bits.length) :
    (⟨v.sign, a.bits⟩ : BigInt).Denotes (halfAssigned x y) := by
  refine ⟨Torn.valid ha.1 hv.1 h, ?_⟩
  unfold halfAssigned
  rw [Int.abs_eq_natAbs]
  have hy : v.sign = y.sign := by
    rcases hv.shape with ⟨rfl, h1, h2⟩ | ⟨s, ws, rfl, hs, hne, hw, ht, hv, rfl⟩
    · exact absurd h (Nat.not_lt_zero _)
    · rw [Int.sign_mul, Int.sign_eq_one_of_pos (a := (val ws : Int)) (by omega)]
      rcases hs with rfl | rfl <;> rfl
  rcases ha.shape with ⟨rfl, h1, h2⟩ | ⟨s, ws, rfl, hs, hne, hw, ht, hv, rfl⟩
  · rw [if_pos (by omega), ← hy]; rfl
  · rw [natAbs_unit_mul hs, if_neg (by omega), ← hy]
    unfold BigInt.toInt
    rw [if_neg hne]

theorem copyAssign_eq (x : Nat) (v : BigInt) (f : Refusals) (σ : Store) : MCmd.copyAssign x v f σ =
    if (σ x).bits.length < v.bits.length then
      if f 0 then (.noMemory, f.later, σ.set x ⟨v.sign, (σ x).bits⟩) else (.res (.ok ()), f.later, σ.set x v)
    else (.res (.ok ()), f, σ.set x v) := by
  unfold MCmd.copyAssign
  rw [read_bind, write_bind]
  have hw : ∀ f, (MCmd.write x v f (σ.set x ⟨v.sign, (σ x).bits⟩)) = (.res (.ok ()), f, σ.set x v) := by
    intro f; unfold MCmd.write; rw [Store.set_set]
  by_cases h : (σ x).bits.length < v.bits.length
  · rw [if_pos h, if_pos h]
    cases hf : f 0 with
    | true => rw [request_bind_no _ hf]; rfl
    | false => rw [request_bind_ok _ hf, hw]; rfl
  · rw [if_neg h, if_neg h, hw]

/-- The code can end with `bad_alloc` and leave the objects `τ`. -/
def MCmd.FailsIn {α : Type} (m : MCmd α) (σ τ : Store) : Prop := ∃ f, (m f σ).1 = .noMemory ∧ (m f σ).2.2 = τ

namespace MCmd
variable {α β : Type} {σ τ : Store}
theorem failsIn_lift {r : Res α} : (MCmd.lift r).FailsIn σ τ ↔ False := ⟨(fun ⟨_, h, _⟩ => nomatch h), False.elim⟩
theorem failsIn_pure {a : α} : (Pure.pure a : MCmd α).FailsIn σ τ ↔ False := ⟨(fun ⟨_, h, _⟩ => nomatch h), False.elim⟩
theorem failsIn_write {i : Nat} {v : BigInt} : (MCmd.write i v).FailsIn σ τ ↔ False := ⟨(fun ⟨_, h, _⟩ => nomatch h), False.elim⟩
theorem failsIn_read_bind {i : Nat} {k : BigInt → MCmd β} : (MCmd.read i >>= k).FailsIn σ τ ↔ (k (σ i)).FailsIn σ τ := Iff.rfl
theorem failsIn_write_bind {i : Nat} {v : BigInt} {k : Unit → MCmd β} :
    (MCmd.write i v >>= k).FailsIn σ τ ↔ (k ()).FailsIn (σ.set i v) τ := Iff.rfl
theorem failsIn_lift_ok {a : α} {k : α → MCmd β} : (MCmd.lift (.ok a) >>= k).FailsIn σ τ ↔ (k a).FailsIn σ τ := Iff.rfl
theorem failsIn_request_bind {k : Unit → MCmd β} :
    (MCmd.request >>= k).FailsIn σ τ ↔ τ = σ ∨ (k ()).FailsIn σ τ := by
  constructor
  · rintro ⟨f, h⟩
    cases hf : f 0 with
    | true => rw [request_bind_no _ hf] at h; exact .inl h.2.symm
    | false => rw [request_bind_ok _ hf] at h; exact .inr ⟨f.later, h⟩
  · rintro (rfl | ⟨f, h⟩)
    · exact ⟨fun _ => true, by rw [request_bind_no _ rfl]; exact ⟨rfl, rfl⟩⟩
    · refine ⟨fun n => match n with | 0 => false | n + 1 => f n, ?_⟩
      rw [request_bind_ok _ rfl]
      exact h
theorem failsIn_compute_bind {r : Res α} {a : α} (hr : r = .ok a) {k : α → MCmd β} :
    (MCmd.compute r >>= k).FailsIn σ τ ↔ τ = σ ∨ (k a).FailsIn σ τ := by
  subst hr
  rw [← failsIn_request_bind (k := fun _ => k a)]
  refine exists_congr fun f => ?_
  cases hf : f 0 with
  | true => rw [compute_bind_no _ _ hf, request_bind_no _ hf]
  | false => rw [compute_bind_ok _ rfl hf, request_bind_ok _ hf]
theorem failsIn_compute_bad {r : Res α} (hr : ∀ a, r ≠ .ok a) {k : α → MCmd β} (h : (MCmd.compute r >>= k).FailsIn σ τ) : τ = σ := by
  obtain ⟨f, h1, h2⟩ := h
  cases hf : f 0 with
  | true => rw [compute_bind_no _ _ hf] at h2; exact h2.symm
  | false =>
    exfalso
    have e : (MCmd.compute r) f σ = (.res r, f.later, σ) := request_bind_ok (fun _ => lift r) hf σ
    change (MCmd.bind (MCmd.compute r) k f σ).1 = _ at h1
    unfold MCmd.bind at h1
    rw [e] at h1
    cases r with
    | ok a => exact hr a rfl
    | _ => cases h1
theorem failsIn_compute {r : Res α} : (MCmd.compute r).FailsIn σ τ ↔ τ = σ := by
  unfold MCmd.compute
  rw [failsIn_request_bind, failsIn_lift, or_false]
theorem failsIn_copyAssign {x : Nat} {v : BigInt} : (MCmd.copyAssign x v).FailsIn σ τ ↔
    (σ x).bits.length < v.bits.length ∧ τ = σ.set x ⟨v.sign, (σ x).bits⟩ := by
  constructor
  · rintro ⟨f, h⟩
    rw [copyAssign_eq] at h
    by_cases hl : (σ x).bits.length < v.bits.length
    · rw [if_pos hl] at h
      cases hf : f 0 with
      | true => rw [hf, if_pos rfl] at h; exact ⟨hl, h.2.symm⟩
      | false => rw [hf, if_neg (by decide)] at h; cases h.1
    · rw [if_neg hl] at h; cases h.1
  · rintro ⟨hl, rfl⟩
    refine ⟨fun _ => true, ?_⟩
    rw [copyAssign_eq, if_pos hl, if_pos rfl]
    exact ⟨rfl, rfl⟩
/-- Code that does not fail after the first part. -/
theorem failsIn_bind_noFail {m : MCmd α} {k : α → MCmd β} (hk : ∀ a, (k a).NoFail) : (m >>= k).FailsIn σ τ ↔ m.FailsIn σ τ := by
  constructor <;> rintro ⟨f, h1, h2⟩ <;> refine ⟨f, ?_⟩
  · change (MCmd.bind m k f σ).1 = _ at h1
    change (MCmd.bind m k f σ).2.2 = _ at h2
    unfold MCmd.bind at h1 h2
    generalize m f σ = r at *
    obtain ⟨r, f', σ'⟩ := r
    cases r with
    | noMemory => exact ⟨rfl, h2⟩
    | res r =>
      cases r with
      | ok a => exact absurd h1 (hk a f' σ')
      | _ => cases h1
  · show (MCmd.bind m k f σ).1 = _ ∧ (MCmd.bind m k f σ).2.2 = _
    unfold MCmd.bind
    generalize m f σ = r at *
    obtain ⟨r, f', σ'⟩ := r
    dsimp only at h1 h2; subst h1
    exact ⟨rfl, h2⟩
theorem NoFail.pure (a : α) : (Pure.pure a : MCmd α).NoFail := fun _ _ => nofun
end MCmd

theorem failsIn_ofInt {n : Int} (h : -2147483648 < n) {σ τ : Store} : (MCmd.ofInt n).FailsIn σ τ ↔ False := by
  unfold MCmd.ofInt
  rw [if_neg (by omega)]
  exact failsIn_lift

theorem orAssign_failsIn {σ τ : Store} {x y : Nat} {X : Int} (hx : (σ x).Denotes X) : (orAssign x y).FailsIn σ τ ↔
      τ = σ ∨ X = 0 ∧ (σ y).bits ≠ [] ∧ τ = σ.set x ⟨(σ y).sign, []⟩ := by
  unfold orAssign
  rw [failsIn_read_bind, failsIn_compute_bind rfl, BigInt.isZero_spec hx, failsIn_lift_ok]
  by_cases h0 : X = 0
  · subst h0
    have e : (σ x).bits = [] := by rw [hx.unique denotes_zero]; rfl
    rw [if_pos (by simp), failsIn_read_bind, failsIn_copyAssign, e, List.length_nil, List.length_pos_iff]
    exact or_congr Iff.rfl ⟨fun h => ⟨rfl, h.1, h.2⟩, fun h => h.2⟩
  · rw [if_neg (by simpa using h0), failsIn_read_bind, failsIn_bind_noFail (fun _ => .write _ _), failsIn_compute]
    exact ⟨fun h => .inl (h.elim id id), fun h => .inl (h.elim id fun h => absurd h.1 h0)⟩

theorem copy_failsIn {σ τ : Store} {z x : Nat} : (Stmt.unary .copy z x).execM.FailsIn σ τ ↔
    (σ z).bits.length < (σ x).bits.length ∧ τ = σ.set z ⟨(σ x).sign, (σ z).bits⟩ := by
  show (MCmd.read x >>= fun v => MCmd.copyAssign z v).FailsIn σ τ ↔ _
  rw [failsIn_read_bind, failsIn_copyAssign]

theorem postfix_failsIn {σ τ : Store} {z x : Nat} {g : BigInt → Res BigInt} {r : BigInt} (hg : g (σ x) = .ok r) :
    (do MCmd.write x (← MCmd.compute (g (← MCmd.read x))); MCmd.copyAssign z (← MCmd.read x) : MCmd Unit).FailsIn σ τ ↔
      τ = σ ∨ z ≠ x ∧ (σ z).bits.length < r.bits.length ∧ τ = (σ.set x r).set z ⟨r.sign, (σ z).bits⟩ := by
  show (MCmd.read x >>= fun a => MCmd.compute (g a) >>= fun r => MCmd.write x r >>= fun _ => MCmd.read x >>= fun v =>
    MCmd.copyAssign z v).FailsIn σ τ ↔ _
  rw [failsIn_read_bind, failsIn_compute_bind hg, failsIn_write_bind, failsIn_read_bind, failsIn_copyAssign, Store.set_same]
  refine or_congr Iff.rfl ?_
  by_cases hz : z = x
  · subst hz
    rw [Store.set_same]
    exact ⟨fun h => absurd h.1 (Nat.lt_irrefl _), fun h => absurd rfl h.1⟩
  · rw [Store.set_ne _ _ hz]
    exact ⟨fun h => ⟨hz, h⟩, fun h => h.2⟩

theorem BigInt.storedRest {s : Int} {xs : List Nat} {y : Int} (hs1 : s = 1 ∨ s = -1)
    (hv1 : 2147483648 ≤ val xs) (hy : y ≠ 0) (hyb : y.natAbs < 2147483648) :
    Returns (ofUInt32 (if s < 0 then u32i (-1 * ((val xs % y.natAbs : Nat) : Int)) else val xs % y.natAbs))
      (if (s * (val xs : Int)).tmod y < 0 then (s * (val xs : Int)).tmod y + 4294967296 else (s * (val xs : Int)).tmod y) := by
  have hm : val xs % y.natAbs < y.natAbs := Nat.mod_lt _ (by omega)
  rw [tmod_natAbs, natAbs_unit_mul hs1]
  have hsn : s < 0 ↔ s * (val xs : Int) < 0 := by rcases hs1 with rfl | rfl <;> omega
  simp only [← hsn]
  generalize val xs % y.natAbs = m at hm
  by_cases hs : s < 0
  · rw [if_pos hs, if_pos hs]
    have hu : u32i (-1 * (m : Int)) = if m = 0 then 0 else 4294967296 - m := by
      unfold u32i; split_ifs <;> omega
    obtain ⟨r, hr, hrd⟩ := ofUInt32_spec (x := if m = 0 then 0 else 4294967296 - m) (by split_ifs <;> omega)
    refine ⟨r, by rw [hu, hr], ?_⟩
    convert hrd using 1
    split_ifs <;> omega
  · rw [if_neg hs, if_neg hs, if_neg (by omega)]
    exact ofUInt32_spec (by omega)

theorem divRemM_failsIn {σ τ : Store} {i j k : Nat} {x y : Int} (ha : (σ i).Denotes x) (hb : (σ j).Denotes y) (hy : y ≠ 0)
    (hl : (σ i).bits.length < 2147483648) : ∃ r, r.Denotes (BigInt.divRemRest (σ i) (σ j) x y) ∧
    ((divRemM i j k).FailsIn σ τ → τ = σ ∨ (σ i).bits ≠ [] ∧
        (if (σ i).bits.length < (σ j).bits.length then
          (σ k).bits.length < (σ i).bits.length ∧ τ = σ.set k ⟨(σ i).sign, (σ k).bits⟩
        else τ = σ.set k r)) ∧
    ((σ i).bits ≠ [] → (if (σ i).bits.length < (σ j).bits.length then
          (σ k).bits.length < (σ i).bits.length ∧ τ = σ.set k ⟨(σ i).sign, (σ k).bits⟩
        else τ = σ.set k r) → (divRemM i j k).FailsIn σ τ) := by
  unfold divRemM BigInt.divRemRest
  rw [failsIn_read_bind, failsIn_read_bind, ha.assertValid, hb.assertValid, failsIn_lift_ok, failsIn_lift_ok]
  have hsn := ha.sign_neg
  have hset : ∀ r, (σ.set k r) i = r ∨ (σ.set k r) i = σ i := by
    intro r
    by_cases h : i = k
    · exact .inl (by rw [h, Store.set_same])
    · exact .inr (Store.set_ne _ _ h)
  generalize σ i = a at *
  generalize σ j = b at *
  rcases ha.shape with ⟨rfl, h1, h2⟩ | ⟨s, xs, rfl, hs1, hne1, hw1, ht1, hv1, rfl⟩ <;>
    rcases hb.shape with ⟨rfl, h1', h2'⟩ | ⟨t, ys, rfl, hs2, hne2, hw2, ht2, hv2, rfl⟩
  · obtain ⟨h5, h6⟩ := BigInt.tdiv_bounds (y := y) h1 h2
    obtain ⟨h7, h8⟩ := BigInt.tmod_bounds (y := y) h1 h2
    obtain ⟨r, hr, hrd⟩ := ofInt32_spec (z := x.tmod y) (by omega) (by omega)
    refine ⟨r, by simpa using hrd, fun h => ?_, fun h => absurd rfl h⟩
    exfalso
    rw [if_pos ⟨rfl, rfl⟩, if_neg hy, int_ok (by dsimp only; omega) (by dsimp only; omega), failsIn_lift_ok] at h
    unfold MCmd.ofInt at h
    rw [if_neg (by dsimp only; omega), hr, failsIn_lift_ok, failsIn_write_bind, failsIn_read_bind, failsIn_read_bind] at h
    have hA : -2147483648 < ((σ.set k r) i).sign ∧ ((σ.set k r) i).sign < 2147483648 := by
      rcases hset r with e | e <;> rw [e]
      · rw [hrd.unique (BigInt.denotes_small h7 h8)]; exact ⟨h7, h8⟩
      · exact ⟨h1, h2⟩
    obtain ⟨h9, h10⟩ := BigInt.tdiv_bounds (y := ((σ.set k r) j).sign) hA.1 hA.2
    by_cases h0 : ((σ.set k r) j).sign = 0
    · rw [if_pos h0] at h; exact failsIn_lift.1 h
    · rw [if_neg h0, int_ok (by omega) (by omega), failsIn_lift_ok, if_neg (by omega)] at h
      exact failsIn_lift.1 h
  · refine ⟨⟨x, []⟩, ?_, ?_, fun h => absurd rfl h⟩
    · rw [if_neg (by simp), BigInt.tmod_self_of_lt (by rw [natAbs_unit_mul hs2]; omega)]; exact ha
    · rw [if_neg (fun h => hne2 h.2), if_pos (by rfl), failsIn_request_bind, failsIn_bind_noFail (fun _ => .pure _), failsIn_copyAssign]
      exact fun h => .inl (h.elim id fun h => absurd h.1 (Nat.not_lt_zero _))
  · dsimp only at *
    rw [if_neg (show ¬ (xs = [] ∧ ([] : List Nat) = []) from fun h => hne1 h.1), if_neg hne1,
      if_pos (show ([] : List Nat) = [] by rfl), cabs_ok (by omega), failsIn_lift_ok]
    obtain ⟨q, hq, hlq, hwq, hvq⟩ := divideWordRem_spec hw1 hne1 hl (y := y.natAbs) (by omega) (by omega)
    obtain ⟨r, hr, hrd⟩ := BigInt.storedRest (y := y) hs1 hv1 hy (by omega)
    rw [failsIn_compute_bind hq]
    dsimp only
    rw [failsIn_compute_bind hr, failsIn_write_bind, failsIn_read_bind, failsIn_read_bind, failsIn_compute]
    refine ⟨r, by simpa [hne1] using hrd, ?_⟩
    rw [if_neg (show ¬ xs.length < ([] : List Nat).length from Nat.not_lt_zero _)]
    refine ⟨fun h => ?_, fun _ h => .inr (.inr h)⟩
    rcases h with h | h | h
    · exact .inl h
    · exact .inl h
    · exact .inr ⟨hne1, h⟩
  · dsimp only at *
    rw [if_neg (show ¬ (xs = [] ∧ ys = []) from fun h => hne1 h.1), if_neg hne1, if_neg hne2]
    by_cases hlt : xs.length < ys.length
    · rw [if_pos hlt]
      have := BigInt.val_lt_of_length hw1 hne2 ht2 hlt
      refine ⟨⟨s, xs⟩, ?_, ?_⟩
      · rw [if_neg (by simp [hne2]), BigInt.tmod_self_of_lt (by rw [natAbs_unit_mul hs1, natAbs_unit_mul hs2]; omega)]; exact ha
      · rw [failsIn_request_bind, failsIn_bind_noFail (fun _ => .pure _), failsIn_copyAssign, if_pos hlt]
        exact ⟨fun h => h.elim .inl fun h => .inr ⟨hne1, h⟩, fun _ h => .inr h⟩
    · rw [if_neg hlt]
      obtain ⟨q, r, hr, hlq, hwq, hvq, hlr, hwr, hvr⟩ := divideVecRem_spec hw1 hw2 hne2 ht2 (by omega) hl
      have : 0 < ys.length := List.length_pos_iff.2 hne2
      obtain ⟨r', hr', hrd⟩ := returns_ofMagnitude hwr (by omega) (neg := decide (s < 0))
        (z := (s * (val xs : Int)).tmod (t * (val ys : Int))) (by
          rw [tmod_natAbs, natAbs_unit_mul hs1, natAbs_unit_mul hs2, hvr]
          simp only [← hsn, decide_eq_true_eq])
      rw [failsIn_compute_bind hr]
      dsimp only
      rw [failsIn_compute_bind hr', failsIn_write_bind, failsIn_read_bind, failsIn_read_bind, failsIn_compute]
      refine ⟨r', by simpa [hne2] using hrd, ?_⟩
      rw [if_neg hlt]
      refine ⟨fun h => ?_, fun _ h => .inr (.inr h)⟩
      rcases h with h | h | h
      · exact .inl h
      · exact .inl h
      · exact .inr ⟨hne1, h⟩

theorem divRemM_zero {σ τ : Store} {i j k : Nat} {x : Int} (ha : (σ i).Denotes x) (hb : (σ j).Denotes 0)
    (hl : (σ i).bits.length < 2147483648) (h : (divRemM i j k).FailsIn σ τ) : τ = σ := by
  unfold divRemM at h
  rw [failsIn_read_bind, failsIn_read_bind, ha.assertValid, hb.assertValid, failsIn_lift_ok, failsIn_lift_ok,
    hb.unique denotes_zero] at h
  by_cases hn : (σ i).bits = []
  · rw [if_pos ⟨hn, rfl⟩, if_pos (show zeroInt.sign = 0 from rfl), failsIn_lift] at h
    exact h.elim
  · rw [if_neg (fun h => hn h.1), if_neg hn, if_pos (show zeroInt.bits = [] from rfl), show cabs zeroInt.sign = .ok 0 from rfl,
      failsIn_lift_ok] at h
    refine failsIn_compute_bad (fun p hp => ?_) h
    have h3 : divideWordRem (σ i).bits 0 = .throw .divideByZero := by
      simp [divideWordRem, cassert_pos hn, sizeInt_ok hl, divWordLoop_zero hn]
    rw [h3] at hp
    cases hp

theorem Store.Shows.set_changes {σ : Store} {ρ : IntStore} (h : σ.Shows ρ) {i : Nat} {v : BigInt} {z : Int} (hv : v.Denotes z) :
    σ.set i v ≠ σ ↔ z ≠ ρ i := by
  rw [ne_eq, Store.set_eq_self, ne_eq, not_iff_not]
  constructor
  · rintro rfl
    exact hv.2.symm.trans (h i).2
  · rintro rfl
    exact hv.unique (h i)

/-- Exactly when a statement can end with `bad_alloc` and an object changed. -/
theorem Stmt.tears_iff (s : Stmt) {σ : Store} {ρ : IntStore} (h : σ.Shows ρ) (hf : ∀ i, (σ i).Fits) :
    (∃ τ, s.execM.FailsIn σ τ ∧ τ ≠ σ) ↔ s.MayTear ρ := by
  have hno : s.Atomic → ¬ ∃ τ, s.execM.FailsIn σ τ ∧ τ ≠ σ := by
    rintro ha ⟨τ, ⟨f, h1, h2⟩, h3⟩
    exact h3 (h2.symm.trans (s.execM_strong ha f σ h1))
  have hlen : ∀ i, (σ i).bits.length = vectorWords (ρ i) := fun i => (h i).vectorWords
  cases s with
  | update op x y =>
    cases op with
    | or =>
      show (∃ τ, (orAssign x y).FailsIn σ τ ∧ τ ≠ σ) ↔ ρ x = 0 ∧ 2 ^ 31 ≤ |ρ y|
      have hb : (σ y).bits ≠ [] ↔ 2 ^ 31 ≤ |ρ y| := by rw [ne_eq, (h y).bits_nil]; exact Int.not_lt
      constructor
      · rintro ⟨τ, h1, h2⟩
        rcases (orAssign_failsIn (h x)).1 h1 with e | ⟨h3, h4, -⟩
        · exact absurd e h2
        · exact ⟨h3, hb.1 h4⟩
      · rintro ⟨h3, h4⟩
        refine ⟨_, (orAssign_failsIn (h x)).2 (.inr ⟨h3, hb.2 h4, rfl⟩), ?_⟩
        have hx : σ x = zeroInt := by have := h x; rw [h3] at this; exact this.unique denotes_zero
        rw [ne_eq, Store.set_eq_self, hx]
        intro e
        have hs : (σ y).sign = 0 := congrArg BigInt.sign e
        have := (h y).1.unit (hb.2 h4)
        omega
    | _ => exact iff_of_false (hno trivial) id
  | unary op z x =>
    cases op with
    | copy =>
      show _ ↔ vectorWords (ρ z) < vectorWords (ρ x) ∧ halfAssigned (ρ z) (ρ x) ≠ ρ z
      rw [← hlen, ← hlen]
      constructor
      · rintro ⟨τ, h1, h2⟩
        obtain ⟨h3, rfl⟩ := copy_failsIn.1 h1
        exact ⟨h3, (h.set_changes (torn_denotes (h z) (h x) h3)).1 h2⟩
      · rintro ⟨h3, h4⟩
        exact ⟨_, copy_failsIn.2 ⟨h3, rfl⟩, (h.set_changes (torn_denotes (h z) (h x) h3)).2 h4⟩
    | _ => exact iff_of_false (hno trivial) id
  | postInc z x =>
    obtain ⟨r, hr, hrd⟩ := BigInt.add_spec (h x) denotes_one (hf x) (by decide)
    have key := fun τ => postfix_failsIn (σ := σ) (τ := τ) (z := z) (x := x) (g := BigInt.inc) hr
    show _ ↔ z ≠ x ∧ vectorWords (ρ z) < vectorWords (ρ x + 1)
    rw [← hlen, ← hrd.vectorWords]
    constructor
    · rintro ⟨τ, h1, h2⟩
      rcases (key τ).1 h1 with e | ⟨h3, h4, -⟩
      · exact absurd e h2
      · exact ⟨h3, h4⟩
    · rintro ⟨h3, h4⟩
      refine ⟨_, (key _).2 (.inr ⟨h3, h4, rfl⟩), fun e => ?_⟩
      have e1 := congrFun e x
      rw [Store.set_ne _ _ (Ne.symm h3), Store.set_same] at e1
      have := hrd.2.symm.trans ((congrArg BigInt.toInt e1).trans (h x).2)
      omega
  | postDec z x =>
    obtain ⟨r, hr, hrd⟩ := BigInt.sub_spec (h x) denotes_one (hf x) (by decide)
    have key := fun τ => postfix_failsIn (σ := σ) (τ := τ) (z := z) (x := x) (g := BigInt.dec) hr
    show _ ↔ z ≠ x ∧ vectorWords (ρ z) < vectorWords (ρ x - 1)
    rw [← hlen, ← hrd.vectorWords]
    constructor
    · rintro ⟨τ, h1, h2⟩
      rcases (key τ).1 h1 with e | ⟨h3, h4, -⟩
      · exact absurd e h2
      · exact ⟨h3, h4⟩
    · rintro ⟨h3, h4⟩
      refine ⟨_, (key _).2 (.inr ⟨h3, h4, rfl⟩), fun e => ?_⟩
      have e1 := congrFun e x
      rw [Store.set_ne _ _ (Ne.symm h3), Store.set_same] at e1
      have := hrd.2.symm.trans ((congrArg BigInt.toInt e1).trans (h x).2)
      omega
  | divRem z x y k =>
    have hb : (σ x).bits ≠ [] ↔ 2 ^ 31 ≤ |ρ x| := by rw [ne_eq, (h x).bits_nil]; exact Int.not_lt
    have e0 : ∀ τ, (Stmt.divRem z x y k).execM.FailsIn σ τ ↔ (divRemM x y k).FailsIn σ τ :=
      fun τ => failsIn_bind_noFail fun _ => .write _ _
    show _ ↔ ρ y ≠ 0 ∧ 2 ^ 31 ≤ |ρ x| ∧ if vectorWords (ρ x) < vectorWords (ρ y) then
        vectorWords (ρ k) < vectorWords (ρ x) ∧ halfAssigned (ρ k) (ρ x) ≠ ρ k
      else storedRemainder (ρ x) (ρ y) ≠ ρ k
    by_cases hy : ρ y = 0
    · refine iff_of_false ?_ (fun hh => hh.1 hy)
      rintro ⟨τ, h1, h2⟩
      have h0 := h y
      rw [hy] at h0
      exact h2 (divRemM_zero (h x) h0 (Nat.lt_succ_of_lt (hf x)) ((e0 τ).1 h1))
    · rw [← hlen, ← hlen, ← hlen, ← hb]
      have hl : (σ x).bits.length < 2147483648 := Nat.lt_succ_of_lt (hf x)
      constructor
      · rintro ⟨τ, h1, h2⟩
        obtain ⟨r, hr, h3, -⟩ := divRemM_failsIn (τ := τ) (k := k) (h x) (h y) hy hl
        rw [divRemRest_eq (h x) (h y)] at hr
        rcases h3 ((e0 τ).1 h1) with e | ⟨h4, h5⟩
        · exact absurd e h2
        · refine ⟨hy, h4, ?_⟩
          by_cases hlt : (σ x).bits.length < (σ y).bits.length
          · rw [if_pos hlt] at h5 ⊢
            obtain ⟨h5, rfl⟩ := h5
            exact ⟨h5, (h.set_changes (torn_denotes (h k) (h x) h5)).1 h2⟩
          · rw [if_neg hlt] at h5 ⊢
            subst h5
            exact (h.set_changes hr).1 h2
      · rintro ⟨-, h4, h5⟩
        by_cases hlt : (σ x).bits.length < (σ y).bits.length
        · rw [if_pos hlt] at h5
          refine ⟨σ.set k ⟨(σ x).sign, (σ k).bits⟩, ?_, (h.set_changes (torn_denotes (h k) (h x) h5.1)).2 h5.2⟩
          obtain ⟨r, hr, -, h3⟩ := divRemM_failsIn (τ := σ.set k ⟨(σ x).sign, (σ k).bits⟩) (k := k) (h x) (h y) hy hl
          rw [if_pos hlt] at h3
          exact (e0 _).2 (h3 h4 ⟨h5.1, rfl⟩)
        · rw [if_neg hlt] at h5
          obtain ⟨r, hr, -⟩ := divRemM_failsIn (τ := σ) (k := k) (h x) (h y) hy hl
          obtain ⟨r', hr', -, h3⟩ := divRemM_failsIn (τ := σ.set k r) (k := k) (h x) (h y) hy hl
          rw [divRemRest_eq (h x) (h y)] at hr hr'
          rw [if_neg hlt, hr.unique hr'] at h3
          rw [hr.unique hr'] at *
          exact ⟨_, (e0 _).2 (h3 h4 rfl), (h.set_changes hr').2 h5⟩
  | _ => exact iff_of_false (hno trivial) id
