import Verif.Lemmas.Program
/-
A fault in any executed statement is the outcome of the whole program.
-/
set_option linter.unusedSectionVars false
namespace BigIntegerCpp
variable [Cfg]

theorem Res.Defined.ne_diverge {α : Type} {r : Res α} (h : r.Defined) : r ≠ .diverge := by rintro rfl; exact h

/-- What a sequence says about its parts. -/
theorem Cmd.bind_defined {m : Cmd Unit} {f : Unit → Cmd Unit} {σ σ' : Store} {r : Res Unit} (h : (m >>= f) σ = (r, σ'))
    (hr : r.Defined) : (∃ σ1, m σ = (.ok (), σ1) ∧ f () σ1 = (r, σ')) ∨ (∃ e, r = .throw e ∧ m σ = (.throw e, σ')) := by
  rw [Cmd.bind_eq, Cmd.bind] at h
  split at h
  · exact .inl ⟨_, by assumption, h⟩
  · obtain ⟨rfl, rfl⟩ := Prod.mk.inj h
    exact .inr ⟨_, rfl, by assumption⟩
  all_goals
    obtain ⟨rfl, rfl⟩ := Prod.mk.inj h
    exact hr.elim

theorem Prog.exec_unique {p : Prog} {σ σ1 σ2 : Store} {r1 r2 : Res Unit} {n m : Nat} (h1 : p.exec n σ = (r1, σ1))
    (h2 : p.exec m σ = (r2, σ2)) (d1 : r1 ≠ .diverge) (d2 : r2 ≠ .diverge) : r1 = r2 ∧ σ1 = σ2 := by
  have e1 := Prog.exec_mono n p σ σ1 r1 h1 d1 (Max.max n m) (le_max_left _ _)
  have e2 := Prog.exec_mono m p σ σ2 r2 h2 d2 (Max.max n m) (le_max_right _ _)
  rw [e1] at e2
  exact Prod.mk.inj e2

theorem Reaches.defined {p : Prog} {σ τ : Store} {s : Stmt} (h : Reaches p σ s τ) :
    ∀ {n : Nat} {r : Res Unit} {σ' : Store}, p.exec n σ = (r, σ') → r.Defined → (s.exec τ).1.Defined := by
  induction h with
  | stmt s σ =>
    intro n r σ' he hr
    cases n with
    | zero => rw [Prog.exec] at he; cases he; exact hr.elim
    | succ n => rw [Prog.exec] at he; rw [he]; exact hr
  | first _ ih =>
    intro n r σ' he hr
    cases n with
    | zero => rw [Prog.exec] at he; cases he; exact hr.elim
    | succ n =>
      rw [Prog.exec] at he
      rcases Cmd.bind_defined he hr with ⟨σ1, h1, -⟩ | ⟨e, -, h1⟩
      · exact ih h1 trivial
      · exact ih h1 trivial
  | second h0 _ ih =>
    intro n r σ' he hr
    cases n with
    | zero => rw [Prog.exec] at he; cases he; exact hr.elim
    | succ n =>
      rw [Prog.exec] at he
      rcases Cmd.bind_defined he hr with ⟨σ1, h1, h2⟩ | ⟨e, -, h1⟩
      · obtain ⟨-, rfl⟩ := Prog.exec_unique h0 h1 nofun nofun
        exact ih h2 hr
      · have := (Prog.exec_unique h0 h1 nofun nofun).1
        cases this
  | ifTrue hc _ ih =>
    intro n r σ' he hr
    cases n with
    | zero => rw [Prog.exec] at he; cases he; exact hr.elim
    | succ n =>
      rw [Prog.exec, Cmd.ask_bind, hc, Cmd.lift_ok_bind] at he
      exact ih he hr
  | ifFalse hc _ ih =>
    intro n r σ' he hr
    cases n with
    | zero => rw [Prog.exec] at he; cases he; exact hr.elim
    | succ n =>
      rw [Prog.exec, Cmd.ask_bind, hc, Cmd.lift_ok_bind] at he
      exact ih he hr
  | body hc _ ih =>
    intro n r σ' he hr
    cases n with
    | zero => rw [Prog.exec] at he; cases he; exact hr.elim
    | succ n =>
      rw [Prog.exec, Cmd.ask_bind, hc, Cmd.lift_ok_bind] at he
      rcases Cmd.bind_defined he hr with ⟨σ1, h1, -⟩ | ⟨e, -, h1⟩
      · exact ih h1 trivial
      · exact ih h1 trivial
  | again hc h0 _ ih =>
    intro n r σ' he hr
    cases n with
    | zero => rw [Prog.exec] at he; cases he; exact hr.elim
    | succ n =>
      rw [Prog.exec, Cmd.ask_bind, hc, Cmd.lift_ok_bind] at he
      rcases Cmd.bind_defined he hr with ⟨σ1, h1, h2⟩ | ⟨e, -, h1⟩
      · obtain ⟨-, rfl⟩ := Prog.exec_unique h0 h1 nofun nofun
        exact ih h2 hr
      · have := (Prog.exec_unique h0 h1 nofun nofun).1
        cases this
  | attempt _ ih =>
    intro n r σ' he hr
    cases n with
    | zero => rw [Prog.exec] at he; cases he; exact hr.elim
    | succ n =>
      rw [Prog.exec] at he
      dsimp only at he
      split at he
      · rename_i heq
        exact ih heq trivial
      · exact ih he hr

end BigIntegerCpp
