import Verif.Props.PythonProgram
/-
C96: the number of steps granted to a Python program decides only whether its end is seen, not how it ends.
-/
set_option linter.unusedSectionVars false
namespace BigIntegerCpp
open Samples
variable [Cfg]

private theorem run_succ (n : Nat) : ∀ (s : PyStmt) (env : Nat → PyObject) (out : PyOut (Nat → PyObject)),
    s.run n env = some out → s.run (n + 1) env = some out := by
  induction n with
  | zero => intro s env out h; cases s <;> simp [PyStmt.run] at h
  | succ n ih =>
    intro s env out h
    cases s with
    | skip => exact h
    | assign i e => exact h
    | seq a b =>
      rw [PyStmt.run] at h ⊢
      cases ha : a.run n env with
      | none => rw [ha] at h; cases h
      | some o =>
        rw [ha] at h
        rw [ih a env o ha]
        cases o with
        | value env' => exact ih b env' out h
        | raises _ => exact h
        | elsewhere => exact h
        | cpp _ => exact h
    | ite t a b =>
      rw [PyStmt.run] at h ⊢
      cases ht : t.eval env with
      | value v =>
        rw [ht] at h
        cases v with
        | true => exact ih a env out h
        | false => exact ih b env out h
      | raises _ => rw [ht] at h; exact h
      | elsewhere => rw [ht] at h; exact h
      | cpp _ => rw [ht] at h; exact h
    | loop t b =>
      rw [PyStmt.run] at h ⊢
      cases ht : t.eval env with
      | value v =>
        rw [ht] at h
        cases v with
        | true =>
          dsimp only at h ⊢
          cases hb : b.run n env with
          | none => rw [hb] at h; cases h
          | some o =>
            rw [hb] at h
            rw [ih b env o hb]
            cases o with
            | value env' => exact ih (.loop t b) env' out h
            | raises _ => exact h
            | elsewhere => exact h
            | cpp _ => exact h
        | false => exact h
      | raises _ => rw [ht] at h; exact h
      | elsewhere => rw [ht] at h; exact h
      | cpp _ => rw [ht] at h; exact h

private theorem run_le {s : PyStmt} {env : Nat → PyObject} {out : PyOut (Nat → PyObject)} {n m : Nat} (hle : n ≤ m)
    (h : s.run n env = some out) : s.run m env = some out := by
  induction hle with
  | refl => exact h
  | step _ ih => exact run_succ _ _ _ _ ih

/-- A program that has ended within `n` steps has ended in the same way within any larger number of steps. -/
theorem C96_more_steps (s : PyStmt) (env : Nat → PyObject) (out : PyOut (Nat → PyObject)) (n m : Nat) (hle : n ≤ m)
    (h : s.run n env = some out) : s.run m env = some out :=
  run_le hle h

/-- A program has at most one outcome. -/
theorem C96_one_outcome (s : PyStmt) (env : Nat → PyObject) (out out' : PyOut (Nat → PyObject)) (n m : Nat)
    (h : s.run n env = some out) (h' : s.run m env = some out') : out = out' :=
  Option.some.inj ((run_le (le_max_left n m) h).symm.trans (run_le (le_max_right n m) h'))

/-- The program without its step count: if everything it comes to on `int`s is safe, then with `BigInteger`s for some or all of them it
goes on for ever exactly if it does so on `int`s; it raises an exception exactly if it does so on `int`s; and if it ends on `int`s with
values `y`, then it ends, and whenever it ends, it is with variables of those values. -/
theorem C96_outcome_partial (s : PyStmt) (env : Nat → PyObject) (x : Nat → Int) (he : ∀ i, (env i).Stands (x i))
    (h : ∀ n, s.Safe n x) (hs : Cfg.strictShift = false) :
    ((∀ n, s.run n env = none) ↔ ∀ n, s.plain n x = none) ∧
    ((∃ n e, s.run n env = some (.raises e)) ↔ ∃ n, s.plain n x = some none) ∧
    (∀ m y, s.plain m x = some (some y) → (∃ n out, s.run n env = some out) ∧
      ∀ n out, s.run n env = some out → ∃ env', out = .value env' ∧ ∀ i, (env' i).Stands (y i)) := by
  have key : ∀ n, Agrees (s.run n env) (s.plain n x) := fun n => C96_program_partial n s env x he (h n) hs
  refine ⟨forall_congr' fun n => ?_, exists_congr fun n => ?_, fun m y hm => ?_⟩
  · have k := key n
    cases h1 : s.run n env <;> cases h2 : s.plain n x <;> rw [h1, h2] at k <;> simp
    · exact k
    · exact k
  · have k := key n
    cases h2 : s.plain n x with
    | none =>
      cases h1 : s.run n env with
      | none => simp
      | some o => rw [h1, h2] at k; exact k.elim
    | some r =>
      cases h1 : s.run n env with
      | none => rw [h1, h2] at k; cases r <;> exact k.elim
      | some o =>
        rw [h1, h2] at k
        cases r with
        | none =>
          rcases k with rfl | rfl
          · exact ⟨fun _ => rfl, fun _ => ⟨_, rfl⟩⟩
          · exact ⟨fun _ => rfl, fun _ => ⟨_, rfl⟩⟩
        | some y =>
          obtain ⟨env', rfl, _⟩ := k
          simp
  · have k := key m
    rw [hm] at k
    cases h1 : s.run m env with
    | none => rw [h1] at k; exact k.elim
    | some o =>
      rw [h1] at k
      refine ⟨⟨m, o, h1⟩, fun n out hn => ?_⟩
      rw [C96_one_outcome s env out o n m hn h1]
      exact k

/-- The same for every program, with the types of its objects. -/
theorem C96_actual_outcome (s : PyStmt) (env : Nat → PyObject) (σ : PyStore) (he : σ.Holds env) (h : ∀ n, s.Bounded n σ)
    (hs : Cfg.strictShift = false) :
    ((∀ n, s.run n env = none) ↔ ∀ n, s.typed n σ = none) ∧
    (∀ e, (∃ n, s.run n env = some (.raises e)) ↔ ∃ n, s.typed n σ = some (.error e)) ∧
    (∀ m τ, s.typed m σ = some (.ok τ) → (∃ n out, s.run n env = some out) ∧
      ∀ n out, s.run n env = some out → ∃ env', out = .value env' ∧ τ.Holds env') := by
  have key : ∀ n, Follows (s.run n env) (s.typed n σ) := fun n => C96_actual n s env σ he (h n) hs
  refine ⟨forall_congr' fun n => ?_, fun e => exists_congr fun n => ?_, fun m τ hm => ?_⟩
  · have k := key n
    cases h1 : s.run n env <;> cases h2 : s.typed n σ <;> rw [h1, h2] at k <;> simp
    · exact k
    · exact k
  · have k := key n
    cases h2 : s.typed n σ with
    | none =>
      cases h1 : s.run n env with
      | none => simp
      | some o => rw [h1, h2] at k; exact k.elim
    | some r =>
      cases h1 : s.run n env with
      | none => rw [h1, h2] at k; cases r <;> exact k.elim
      | some o =>
        rw [h1, h2] at k
        cases r with
        | error e' =>
          obtain rfl : o = .raises e' := k
          simp
        | ok τ =>
          obtain ⟨env', rfl, _⟩ := k
          simp
  · have k := key m
    rw [hm] at k
    cases h1 : s.run m env with
    | none => rw [h1] at k; exact k.elim
    | some o =>
      rw [h1] at k
      refine ⟨⟨m, o, h1⟩, fun n out hn => ?_⟩
      rw [C96_one_outcome s env out o n m hn h1]
      exact k

private theorem mixed_error {big : Nat → Bool} {x : Nat → Int} {f : PyFormula} {e : PyExc} (h : f.mixed big x = .error e) :
    e = .runtimeError ∨ e = .zeroDivisionError := by
  induction f with
  | arg i => cases h
  | un o f ih =>
    rw [PyFormula.mixed] at h
    cases hf : f.mixed big x with
    | error e' => rw [hf] at h; cases h; exact ih hf
    | ok z => rw [hf] at h; cases h
  | bin o l r ihl ihr =>
    rw [PyFormula.mixed] at h
    cases hl : l.mixed big x with
    | error e' => rw [hl] at h; cases h; exact ihl hl
    | ok u =>
      rw [hl] at h
      cases hr : r.mixed big x with
      | error e' => rw [hr] at h; cases h; exact ihr hr
      | ok v =>
        rw [hr] at h
        dsimp only at h
        by_cases hb : (big l.leftmost || big r.leftmost) = true
        · rw [if_pos hb] at h
          cases ht : o.truncated u v with
          | none => rw [ht] at h; cases h; exact .inl rfl
          | some z => rw [ht] at h; cases h
        · rw [if_neg hb] at h
          cases ht : o.floored u v with
          | none => rw [ht] at h; cases h; exact .inr rfl
          | some z => rw [ht] at h; cases h

private theorem test_error {σ : PyStore} {t : PyTest} {e : PyExc} (h : t.typed σ = .error e) : e = .runtimeError ∨ e = .zeroDivisionError := by
  cases t with
  | cmp c l r =>
    rw [PyTest.typed] at h
    cases hl : l.mixed σ.big σ.val with
    | error e' => rw [hl] at h; cases h; exact mixed_error hl
    | ok u =>
      rw [hl] at h
      cases hr : r.mixed σ.big σ.val with
      | error e' => rw [hr] at h; cases h; exact mixed_error hr
      | ok v => rw [hr] at h; cases h
  | truth f =>
    rw [PyTest.typed] at h
    cases hf : f.mixed σ.big σ.val with
    | error e' => rw [hf] at h; cases h; exact mixed_error hf
    | ok u => rw [hf] at h; cases h

private theorem typed_error (n : Nat) : ∀ (s : PyStmt) (σ : PyStore) (e : PyExc), s.typed n σ = some (.error e) →
    e = .runtimeError ∨ e = .zeroDivisionError := by
  induction n with
  | zero => intro s σ e h; cases s <;> cases h
  | succ n ih =>
    intro s σ e h
    cases s with
    | skip => cases h
    | assign i f =>
      rw [PyStmt.typed] at h
      cases hf : f.mixed σ.big σ.val with
      | error e' => rw [hf] at h; cases h; exact mixed_error hf
      | ok z => rw [hf] at h; cases h
    | seq a b =>
      rw [PyStmt.typed] at h
      cases ha : a.typed n σ with
      | none => rw [ha] at h; cases h
      | some r =>
        rw [ha] at h
        cases r with
        | error e' => cases h; exact ih a σ _ ha
        | ok τ => exact ih b τ e h
    | ite t a b =>
      rw [PyStmt.typed] at h
      cases ht : t.typed σ with
      | error e' => rw [ht] at h; cases h; exact test_error ht
      | ok v =>
        rw [ht] at h
        cases v with
        | true => exact ih a σ e h
        | false => exact ih b σ e h
    | loop t b =>
      rw [PyStmt.typed] at h
      cases ht : t.typed σ with
      | error e' => rw [ht] at h; cases h; exact test_error ht
      | ok v =>
        rw [ht] at h
        cases v with
        | false => cases h
        | true =>
          dsimp only at h
          cases hb : b.typed n σ with
          | none => rw [hb] at h; cases h
          | some r =>
            rw [hb] at h
            cases r with
            | error e' => cases h; exact ih b σ _ hb
            | ok τ => exact ih _ τ e h

/-- A program whose values stay in range never ends the process: if it ends, it is with values for its variables or with a Python exception,
which is that of a zero divisor. -/
theorem C96_no_crash (s : PyStmt) (env : Nat → PyObject) (σ : PyStore) (he : σ.Holds env) (n : Nat) (h : s.Bounded n σ)
    (hs : Cfg.strictShift = false) (out : PyOut (Nat → PyObject)) (ho : s.run n env = some out) :
    (∃ env', out = .value env') ∨ out = .raises .runtimeError ∨ out = .raises .zeroDivisionError := by
  have k := C96_actual n s env σ he h hs
  rw [ho] at k
  cases h2 : s.typed n σ with
  | none => rw [h2] at k; exact k.elim
  | some r =>
    rw [h2] at k
    cases r with
    | error e =>
      obtain rfl : out = .raises e := k
      rcases typed_error n s σ e h2 with rfl | rfl
      · exact .inr (.inl rfl)
      · exact .inr (.inr rfl)
    | ok τ => exact .inl (k.imp fun _ h => h.1)

private theorem tiny {x : Int} (h : x.natAbs < 2 ^ 65) : InRange x :=
  lt_of_lt_of_le h (Nat.pow_le_pow_right (by decide) (by decide))
private abbrev ten : PyInt := ⟨10, false, by decide⟩
private def values : Nat → Int
  | 0 => -42
  | _ => 10
private theorem sample_stands : ∀ i, (threeArgs (.big small) (.int ten) (.int ten) i).Stands (values i)
  | 0 => small_denotes
  | 1 => rfl
  | _ + 2 => rfl
-- `a = -a` ends, and with 42 only
example (hs : Cfg.strictShift = false) :
    (∃ n out, (PyStmt.assign 0 (.un .neg (.arg 0))).run n (threeArgs (.big small) (.int ten) (.int ten)) = some out) ∧
    ∀ n out, (PyStmt.assign 0 (.un .neg (.arg 0))).run n (threeArgs (.big small) (.int ten) (.int ten)) = some out →
      ∃ env', out = .value env' ∧ (env' 0).Stands 42 := by
  obtain ⟨h1, h2⟩ := (C96_outcome_partial (.assign 0 (.un .neg (.arg 0))) _ values sample_stands
    (fun n => match n with
      | 0 => trivial
      | _ + 1 => ⟨⟨tiny (by decide), fun z hz => by cases hz; exact tiny (by decide)⟩, trivial⟩) hs).2.2 1 _ rfl
  exact ⟨h1, fun n out h => (h2 n out h).imp fun _ h3 => ⟨h3.1, h3.2 0⟩⟩
-- `while a < 10: pass` with a `BigInteger` -42 goes on for ever
example (hs : Cfg.strictShift = false) :
    ∀ n, (PyStmt.loop (.cmp .lt (.arg 0) (.arg 1)) .skip).run n (threeArgs (.big small) (.int ten) (.int ten)) = none := by
  have hp : ∀ n, (PyStmt.loop (.cmp .lt (.arg 0) (.arg 1)) .skip).plain n values = none := by
    intro n
    induction n with
    | zero => rfl
    | succ n ih =>
      cases n with
      | zero => rfl
      | succ n => exact ih
  have hsafe : ∀ n, (PyStmt.loop (.cmp .lt (.arg 0) (.arg 1)) .skip).Safe n values := by
    intro n
    induction n with
    | zero => trivial
    | succ n ih =>
      refine ⟨⟨⟨tiny (by decide), trivial⟩, tiny (by decide), trivial⟩, fun _ => ⟨?_, fun x' hx => ?_⟩⟩
      · cases n <;> trivial
      · cases n with
        | zero => cases hx
        | succ n => cases hx; exact ih
  exact (C96_outcome_partial _ _ values sample_stands hsafe hs).1.2 hp
-- `b = a` after one step and after a thousand
example : (PyStmt.assign 1 (.arg 0)).run 1000 (threeArgs (.big small) (.int ten) (.int ten)) =
    some (.value (Function.update (threeArgs (.big small) (.int ten) (.int ten)) 1 (.big small))) :=
  C96_more_steps _ _ _ 1 1000 (by decide) rfl
example (out : PyOut (Nat → PyObject)) (n : Nat) (h : (PyStmt.assign 1 (.arg 0)).run n (threeArgs (.big small) (.int ten) (.int ten)) = some out) :
    out = .value (Function.update (threeArgs (.big small) (.int ten) (.int ten)) 1 (.big small)) :=
  C96_one_outcome _ _ _ _ n 1 h rfl

private def store : PyStore := ⟨fun i => i == 0, values⟩
private theorem store_holds : store.Holds (threeArgs (.big small) (.int ten) (.int ten))
  | 0 => ⟨rfl, small_denotes⟩
  | 1 => ⟨rfl, rfl⟩
  | _ + 2 => ⟨rfl, rfl⟩
private theorem quotient_bounded : ∀ n, (PyStmt.assign 0 (.bin .floordiv (.arg 0) (.arg 1))).Bounded n store
  | 0 => trivial
  | _ + 1 => ⟨tiny (by decide), tiny (by decide), fun z hz => by cases hz; exact tiny (by decide)⟩
-- `a = a // 10` for a `BigInteger` -42 ends with -4 only
example (hs : Cfg.strictShift = false) (n : Nat) (out : PyOut (Nat → PyObject))
    (h : (PyStmt.assign 0 (.bin .floordiv (.arg 0) (.arg 1))).run n (threeArgs (.big small) (.int ten) (.int ten)) = some out) :
    ∃ env', out = .value env' ∧ (env' 0).Stands (-4) :=
  (((C96_actual_outcome _ _ store store_holds quotient_bounded hs).2.2 1 _ rfl).2 n out h).imp fun _ h => ⟨h.1, (h.2 0).2⟩
example (hs : Cfg.strictShift = false) (n : Nat) (out : PyOut (Nat → PyObject))
    (h : (PyStmt.assign 0 (.bin .floordiv (.arg 0) (.arg 1))).run n (threeArgs (.big small) (.int ten) (.int ten)) = some out) :
    (∃ env', out = .value env') ∨ out = .raises .runtimeError ∨ out = .raises .zeroDivisionError :=
  C96_no_crash _ _ store store_holds n (quotient_bounded n) hs out h

end BigIntegerCpp
