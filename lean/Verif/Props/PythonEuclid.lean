import Verif.Props.PythonProgram
/-
C96: Euclid's algorithm as a Python program, on any mixture of `BigInteger`s and `int`s of any sign.
-/
set_option linter.unusedSectionVars false
namespace BigIntegerCpp
open Samples
variable [Cfg]

/-- The remainder of either kind of division is smaller than the divisor and has the same divisors in common with it. -/
private theorem remainder_of (x y r : Int) (hy : y ≠ 0) (h : PyArith.mod.truncated x y = some r ∨ PyArith.mod.floored x y = some r) :
    r.natAbs < y.natAbs ∧ Int.gcd y r = Int.gcd x y := by
  have key : ∃ q, r = x - y * q := by
    rcases h with h | h
    · simp only [PyArith.truncated, if_neg hy, Option.some.injEq] at h
      exact ⟨x.tdiv y, by rw [← h, Int.tmod_def]⟩
    · simp only [PyArith.floored, if_neg hy, Option.some.injEq] at h
      exact ⟨_, h.symm⟩
  have hlt : r.natAbs < y.natAbs := by
    rcases h with h | h
    · simp only [PyArith.truncated, if_neg hy, Option.some.injEq] at h
      rw [← h, Int.natAbs_tmod]
      exact Nat.mod_lt _ (by omega)
    · simp only [PyArith.floored, if_neg hy, Option.some.injEq, floor_quotient hy, ← Int.fmod_def] at h
      rw [← h]
      rcases lt_or_gt_of_ne hy with h1 | h1
      · have h2 := Int.fmod_nonneg_of_pos (-x) (show 0 < -y by omega)
        have h3 := Int.fmod_lt_of_pos (-x) (show 0 < -y by omega)
        rw [Int.neg_fmod_neg] at h2 h3
        omega
      · have h2 := Int.fmod_nonneg_of_pos x h1
        have h3 := Int.fmod_lt_of_pos x h1
        omega
  obtain ⟨q, rfl⟩ := key
  refine ⟨hlt, ?_⟩
  rw [Int.gcd_comm x y]
  exact Int.gcd_sub_mul_left_right y x q

private theorem loop_typed {t : PyTest} {b : PyStmt} {n : Nat} {σ σ' : PyStore} (ht : t.typed σ = .ok true)
    (hb : b.typed n σ = some (.ok σ')) : (PyStmt.loop t b).typed (n + 1) σ = (PyStmt.loop t b).typed n σ' := by
  rw [PyStmt.typed, ht]
  dsimp only
  rw [hb]

private theorem euclid_typed (k : Nat) : ∀ σ : PyStore, (σ.val 1).natAbs < k → σ.val 3 = 0 → InRange (σ.val 0) → InRange (σ.val 1) →
    ∃ n σ', pyEuclid.typed (n + 4) σ = some (.ok σ') ∧ (σ'.val 0).natAbs = Int.gcd (σ.val 0) (σ.val 1) ∧ σ'.val 1 = 0 ∧
      pyEuclid.Bounded (n + 4) σ := by
  have zero : InRange 0 := lt_of_lt_of_le (show _ < 2 ^ 0 by decide) (Nat.pow_le_pow_right (by decide) (Nat.zero_le _))
  induction k with
  | zero => intro σ h; omega
  | succ k ih =>
    intro σ hk h3 r0 r1
    have ht : PyTest.Bounded σ (.cmp .ne (.arg 1) (.arg 3)) := ⟨r1, by change InRange (σ.val 3); rw [h3]; exact zero⟩
    by_cases h1 : σ.val 1 = 0
    · have e : (PyTest.cmp .ne (.arg 1) (.arg 3)).typed σ = .ok false := by
        simp [PyTest.typed, PyFormula.mixed, PyCmp.meaning, h1, h3]
      refine ⟨0, σ, ?_, ?_, h1, ht, fun h => ?_⟩
      · simp only [pyEuclid, PyStmt.typed, e]
      · rw [h1, Int.gcd_zero_right]
      · rw [e] at h; cases h
    · have e : (PyTest.cmp .ne (.arg 1) (.arg 3)).typed σ = .ok true := by
        simp [PyTest.typed, PyFormula.mixed, PyCmp.meaning, h1, h3]
      obtain ⟨r, hr, hlt, hg⟩ : ∃ r, (PyFormula.bin .mod (.arg 0) (.arg 1)).mixed σ.big σ.val = .ok r ∧ r.natAbs < (σ.val 1).natAbs ∧
          Int.gcd (σ.val 1) r = Int.gcd (σ.val 0) (σ.val 1) := by
        by_cases hb : (σ.big 0 || σ.big 1) = true
        · refine ⟨(σ.val 0).tmod (σ.val 1), ?_, remainder_of _ _ _ h1 (.inl (by simp only [PyArith.truncated, if_neg h1]))⟩
          simp only [PyFormula.mixed, PyFormula.leftmost, if_pos hb, PyArith.truncated, if_neg h1]
        · refine ⟨_, ?_, remainder_of _ _ _ h1 (.inr (by simp only [PyArith.floored, if_neg h1]; rfl))⟩
          simp only [PyFormula.mixed, PyFormula.leftmost, if_neg hb, PyArith.floored, if_neg h1]
      let σ1 : PyStore := σ.set 2 (σ.big 0) r
      let σ2 : PyStore := σ1.set 0 (σ.big 1) (σ.val 1)
      let σ3 : PyStore := σ2.set 1 (σ.big 0) r
      have s1 : ∀ j, (PyStmt.assign 2 (.bin .mod (.arg 0) (.arg 1))).typed (j + 1) σ = some (.ok σ1) := fun j => by
        simp only [PyStmt.typed, hr, PyFormula.leftmost, σ1]
      have s2 : ∀ j, (PyStmt.assign 0 (.arg 1)).typed (j + 1) σ1 = some (.ok σ2) := fun j => rfl
      have s3 : ∀ j, (PyStmt.assign 1 (.arg 2)).typed (j + 1) σ2 = some (.ok σ3) := fun j => rfl
      have s23 : ∀ j, (PyStmt.seq (.assign 0 (.arg 1)) (.assign 1 (.arg 2))).typed (j + 2) σ1 = some (.ok σ3) := fun j => rfl
      have hb : ∀ j, (PyStmt.seq (.assign 2 (.bin .mod (.arg 0) (.arg 1))) (.seq (.assign 0 (.arg 1)) (.assign 1 (.arg 2)))).typed (j + 3) σ =
          some (.ok σ3) := fun j => by
        rw [PyStmt.typed, s1]
        exact s23 j
      have rr : InRange r := lt_trans hlt r1
      obtain ⟨n, σ', h5, h6, h7, h8⟩ := ih σ3 (by change r.natAbs < k; omega) h3 r1 rr
      refine ⟨n + 1, σ', ?_, ?_, h7, ht, fun _ => ⟨⟨⟨r0, r1, fun z hz => ?_⟩, fun τ hτ => ?_⟩, fun τ hτ => ?_⟩⟩
      · rw [← h5]
        exact loop_typed e (hb (n + 1))
      · rw [h6]
        exact hg
      · rw [hr] at hz
        cases hz
        exact rr
      · rw [s1] at hτ
        cases hτ
        refine ⟨r1, fun τ hτ => ?_⟩
        rw [s2] at hτ
        cases hτ
        exact rr
      · rw [hb] at hτ
        cases hτ
        exact h8

/-- `while b != 0: t = a % b; a = b; b = t`, for `BigInteger`s and `int`s in any mixture and of any sign: the program ends, `b` is then 0
and `a` is, but for the sign, the greatest common divisor of the first values. -/
theorem C96_euclid (env : Nat → PyObject) (x y : Int) (h0 : (env 0).Stands x) (h1 : (env 1).Stands y) (h3 : (env 3).Stands 0)
    (hrest : ∀ i, ∃ z, (env i).Stands z) (hx : InRange x) (hy : InRange y) (hs : Cfg.strictShift = false) :
    ∃ n env' g, pyEuclid.run n env = some (.value env') ∧ (env' 0).Stands g ∧ g.natAbs = Int.gcd x y ∧ (env' 1).Stands 0 := by
  choose v hv using hrest
  let σ : PyStore := ⟨fun i => (env i).isBig, fun i => match i with
    | 0 => x | 1 => y | 3 => 0 | i => v i⟩
  have hσ : σ.Holds env := fun i => ⟨rfl, match i with
    | 0 => h0 | 1 => h1 | 2 => hv 2 | 3 => h3 | i + 4 => hv (i + 4)⟩
  obtain ⟨n, σ', h5, h6, h7, h8⟩ := euclid_typed (y.natAbs + 1) σ (Nat.lt_succ_self _) rfl hx hy
  have := C96_actual (n + 4) pyEuclid env σ hσ h8 hs
  rw [h5] at this
  cases hr : pyEuclid.run (n + 4) env with
  | none => rw [hr] at this; exact this.elim
  | some out =>
    rw [hr] at this
    obtain ⟨env', rfl, he⟩ := this
    exact ⟨_, env', _, hr, (he 0).2, h6, by rw [← h7]; exact (he 1).2⟩

private theorem tiny {x : Int} (h : x.natAbs < 2 ^ 65) : InRange x :=
  lt_of_lt_of_le h (Nat.pow_le_pow_right (by decide) (by decide))
private def sampleEnv : Nat → PyObject
  | 0 => .big neg3
  | 1 => .big pos2
  | _ => .int ⟨0, true, by decide⟩
example (hs : Cfg.strictShift = false) : ∃ n env' g, pyEuclid.run n sampleEnv = some (.value env') ∧ (env' 0).Stands g ∧
    g.natAbs = Int.gcd (-18446744103774322693) 38654705667 ∧ (env' 1).Stands 0 :=
  C96_euclid sampleEnv _ _ neg3_denotes pos2_denotes rfl
    (fun i => match i with | 0 => ⟨_, neg3_denotes⟩ | 1 => ⟨_, pos2_denotes⟩ | _ + 2 => ⟨_, rfl⟩) (tiny (by decide)) (tiny (by decide)) hs

end BigIntegerCpp
