import Mathlib.Tactic.Ring
import Verif.Props.PythonProgram
/-
C96: square and multiply with `if e % 2:` goes wrong when the exponent is a `BigInteger`.
-/
set_option linter.unusedSectionVars false
namespace BigIntegerCpp
open Samples
variable [Cfg]

private theorem smaller {a b : Int} (h : a.natAbs ≤ b.natAbs) (hb : InRange b) : InRange a := lt_of_le_of_lt h hb

private theorem loop_typed {t : PyTest} {b : PyStmt} {n : Nat} {σ σ' : PyStore} (ht : t.typed σ = .ok true)
    (hb : b.typed n σ = some (.ok σ')) : (PyStmt.loop t b).typed (n + 1) σ = (PyStmt.loop t b).typed n σ' := by
  rw [PyStmt.typed, ht]
  dsimp only
  rw [hb]

private theorem truth_typed (e : Nat) : ∀ (σ : PyStore) (r b : Int), σ.big 2 = true → σ.val 0 = r → σ.val 1 = b → σ.val 2 = e → σ.val 3 = 0 →
    σ.val 5 = 2 → InRange e → InRange 2 →
    InRange ((max 1 r.natAbs * (max 1 b.natAbs) ^ (2 ^ ((Nat.digits 2 e).length + 1) - 1) : Nat) : Int) →
    ∃ n σ', pyPowerTruth.typed (n + 4) σ = some (.ok σ') ∧ σ'.val 0 = r * b ^ (2 ^ (Nat.digits 2 e).length - 1) ∧
      pyPowerTruth.Bounded (n + 4) σ := by
  induction e using Nat.strong_induction_on with
  | _ e ih =>
    intro σ r b hbig h0 h1 h2 h3 h5 he two hr
    have r2 : InRange (σ.val 2) := by rw [h2]; exact he
    have r3 : InRange (σ.val 3) := by rw [h3]; exact smaller (Nat.zero_le _) two
    have r5 : InRange (σ.val 5) := by rw [h5]; exact two
    have ht : PyTest.Bounded σ (.cmp .gt (.arg 2) (.arg 3)) := ⟨r2, r3⟩
    by_cases hz : e = 0
    · subst hz
      have et : (PyTest.cmp .gt (.arg 2) (.arg 3)).typed σ = .ok false := by simp [PyTest.typed, PyFormula.mixed, h2, h3, PyCmp.meaning]
      refine ⟨0, σ, ?_, by simp [h0], ht, fun h => ?_⟩
      · simp only [pyPowerTruth, PyStmt.typed, et]
      · rw [et] at h; cases h
    · have et : (PyTest.cmp .gt (.arg 2) (.arg 3)).typed σ = .ok true := by
        simp only [PyTest.typed, PyFormula.mixed, h2, h3, PyCmp.meaning]
        simp [Nat.pos_of_ne_zero hz]
      have hl : (Nat.digits 2 e).length = (Nat.digits 2 (e / 2)).length + 1 := by
        rw [Nat.digits_def' (by decide) (by omega : 0 < e), List.length_cons]
      rw [hl] at hr
      rw [hl]
      generalize hL : (Nat.digits 2 (e / 2)).length = L at hr
      have R1 : 1 ≤ max 1 r.natAbs := le_max_left ..
      have W1 : 1 ≤ max 1 b.natAbs := le_max_left ..
      have hR : r.natAbs ≤ max 1 r.natAbs := le_max_right ..
      have hW : b.natAbs ≤ max 1 b.natAbs := le_max_right ..
      generalize max 1 r.natAbs = R at hr R1 hR
      generalize max 1 b.natAbs = W at hr W1 hW
      have hp : 2 ^ (L + 1 + 1) = 4 * 2 ^ L := by ring
      have hp' : 2 ^ (L + 1) = 2 * 2 ^ L := by ring
      have hpos : 1 ≤ 2 ^ L := Nat.one_le_two_pow
      rw [hp] at hr
      have fit : ∀ z : Int, z.natAbs ≤ R * W ^ (4 * 2 ^ L - 1) → InRange z := fun z h => lt_of_le_of_lt h hr
      have W2 : W ^ 2 ≤ W ^ (4 * 2 ^ L - 1) := Nat.pow_le_pow_right W1 (by omega)
      have WW : W ≤ W ^ (4 * 2 ^ L - 1) := Nat.le_self_pow (by omega) W
      have fr : InRange r := fit r (hR.trans (Nat.le_mul_of_pos_right _ (Nat.pow_pos W1)))
      have fb : InRange b := fit b (hW.trans (WW.trans (Nat.le_mul_of_pos_left _ R1)))
      have frb : InRange (r * b) := fit _ (by rw [Int.natAbs_mul]; exact Nat.mul_le_mul hR (hW.trans WW))
      have fbb : InRange (b * b) := fit _ (by
        rw [Int.natAbs_mul]
        calc b.natAbs * b.natAbs ≤ W * W := Nat.mul_le_mul hW hW
          _ = W ^ 2 := by ring
          _ ≤ W ^ (4 * 2 ^ L - 1) := W2
          _ ≤ R * W ^ (4 * 2 ^ L - 1) := Nat.le_mul_of_pos_left _ R1)
      have any : ∀ (o : PyArith) (τ : PyStore) (i j : Nat) (z : Int), o.truncated (τ.val i) (τ.val j) = some z →
          o.floored (τ.val i) (τ.val j) = some z → (PyFormula.bin o (.arg i) (.arg j)).mixed τ.big τ.val = .ok z := by
        intro o τ i j z h h'
        simp only [PyFormula.mixed, PyFormula.leftmost, h, h']
        split <;> rfl
      have em : (PyFormula.bin .mod (.arg 2) (.arg 5)).mixed σ.big σ.val = .ok ((e % 2 : Nat) : Int) := by
        simp only [PyFormula.mixed, PyFormula.leftmost, hbig, h2, h5, Bool.true_or, if_true, PyArith.truncated,
          if_neg (show (2 : Int) ≠ 0 by decide)]
        rfl
      have ec : (PyTest.truth (.bin .mod (.arg 2) (.arg 5))).typed σ = .ok true := by
        simp only [PyTest.typed, em, PyFormula.leftmost, hbig, Bool.true_or]
      have e0 : (PyFormula.bin .mul (.arg 0) (.arg 1)).mixed σ.big σ.val = .ok (r * b) :=
        any .mul σ 0 1 _ (by simp [PyArith.truncated, h0, h1]) (by simp [PyArith.floored, h0, h1])
      let σ1 : PyStore := σ.set 0 (σ.big 0) (r * b)
      let σ2 : PyStore := σ1.set 1 (σ.big 1) (b * b)
      let σ3 : PyStore := σ2.set 2 (σ.big 2) ((e / 2 : Nat) : Int)
      have s1 : ∀ k, (PyStmt.ite (.truth (.bin .mod (.arg 2) (.arg 5))) (.assign 0 (.bin .mul (.arg 0) (.arg 1))) .skip).typed (k + 2) σ =
          some (.ok σ1) := fun k => by
        rw [PyStmt.typed, ec]
        simp only [PyStmt.typed, e0, PyFormula.leftmost, σ1]
      have v1 : σ1.val 1 = b := h1
      have eb : (PyFormula.bin .mul (.arg 1) (.arg 1)).mixed σ1.big σ1.val = .ok (b * b) :=
        any .mul σ1 1 1 _ (by simp [PyArith.truncated, v1]) (by simp [PyArith.floored, v1])
      have s2 : ∀ k, (PyStmt.assign 1 (.bin .mul (.arg 1) (.arg 1))).typed (k + 1) σ1 = some (.ok σ2) := fun k => by
        simp only [PyStmt.typed, eb, PyFormula.leftmost]
        rfl
      have v2 : σ2.val 2 = e := h2
      have v5 : σ2.val 5 = 2 := h5
      have b2 : σ2.big 2 = true := hbig
      have eh : (PyFormula.bin .floordiv (.arg 2) (.arg 5)).mixed σ2.big σ2.val = .ok ((e / 2 : Nat) : Int) := by
        simp only [PyFormula.mixed, PyFormula.leftmost, b2, v2, v5, Bool.true_or, if_true, PyArith.truncated,
          if_neg (show (2 : Int) ≠ 0 by decide)]
        rfl
      have s3 : ∀ k, (PyStmt.assign 2 (.bin .floordiv (.arg 2) (.arg 5))).typed (k + 1) σ2 = some (.ok σ3) := fun k => by
        simp only [PyStmt.typed, eh, PyFormula.leftmost]
        rfl
      have s23 : ∀ k, (PyStmt.seq (.assign 1 (.bin .mul (.arg 1) (.arg 1))) (.assign 2 (.bin .floordiv (.arg 2) (.arg 5)))).typed (k + 2) σ1 =
          some (.ok σ3) := fun k => by
        rw [PyStmt.typed, s2]
        exact s3 k
      have hb : ∀ k, (PyStmt.seq (.ite (.truth (.bin .mod (.arg 2) (.arg 5))) (.assign 0 (.bin .mul (.arg 0) (.arg 1))) .skip)
          (.seq (.assign 1 (.bin .mul (.arg 1) (.arg 1))) (.assign 2 (.bin .floordiv (.arg 2) (.arg 5))))).typed (k + 3) σ = some (.ok σ3) := fun k => by
        rw [PyStmt.typed, s1]
        exact s23 k
      have hr' : InRange ((max 1 (r * b).natAbs * (max 1 (b * b).natAbs) ^ (2 ^ ((Nat.digits 2 (e / 2)).length + 1) - 1) : Nat) : Int) := by
        refine fit _ ?_
        rw [Int.natAbs_natCast, hL, hp']
        have m1 : max 1 (b * b).natAbs ≤ W ^ 2 := max_le (Nat.one_le_pow _ _ W1) (by
          rw [Int.natAbs_mul, pow_two]; exact Nat.mul_le_mul hW hW)
        have m2 : max 1 (r * b).natAbs ≤ R * W := max_le (Nat.mul_pos R1 W1) (by rw [Int.natAbs_mul]; exact Nat.mul_le_mul hR hW)
        calc _ ≤ R * W * (W ^ 2) ^ (2 * 2 ^ L - 1) := Nat.mul_le_mul m2 (Nat.pow_le_pow_left m1 _)
          _ = R * W ^ (1 + 2 * (2 * 2 ^ L - 1)) := by rw [← pow_mul, mul_assoc, pow_add, pow_one]
          _ ≤ R * W ^ (4 * 2 ^ L - 1) := Nat.mul_le_mul_left _ (Nat.pow_le_pow_right W1 (by omega))
      obtain ⟨n, σ', h6, h7, h8⟩ := ih (e / 2) (by omega) σ3 (r * b) (b * b) hbig rfl rfl rfl h3 h5
        (smaller (by simp only [Int.natAbs_natCast]; omega) he) two hr'
      have q0 : InRange (σ.val 0) := by rw [h0]; exact fr
      have q1 : InRange (σ.val 1) := by rw [h1]; exact fb
      have sm : PyFormula.Bounded σ.big σ.val (.bin .mod (.arg 2) (.arg 5)) := ⟨r2, r5, fun z hz => by
        rw [em] at hz
        cases hz
        exact smaller (by simp only [Int.natAbs_natCast]; exact Nat.mod_le _ _) he⟩
      have sr : PyFormula.Bounded σ.big σ.val (.bin .mul (.arg 0) (.arg 1)) := ⟨q0, q1, fun z hz => by rw [e0] at hz; cases hz; exact frb⟩
      have sb : PyFormula.Bounded σ1.big σ1.val (.bin .mul (.arg 1) (.arg 1)) := ⟨q1, q1, fun z hz => by rw [eb] at hz; cases hz; exact fbb⟩
      have sh : PyFormula.Bounded σ2.big σ2.val (.bin .floordiv (.arg 2) (.arg 5)) := ⟨r2, r5, fun z hz => by
        rw [eh] at hz
        cases hz
        exact smaller (by simp only [Int.natAbs_natCast]; exact Nat.div_le_self _ _) he⟩
      refine ⟨n + 1, σ', ?_, ?_, ht, fun _ => ⟨⟨⟨sm, fun _ => sr, fun _ => trivial⟩, fun τ hτ => ?_⟩, fun τ hτ => ?_⟩⟩
      · rw [← h6]
        exact loop_typed et (hb (n + 1))
      · rw [h7, hL, hp', mul_assoc]
        congr 1
        rw [show 2 * 2 ^ L - 1 = 1 + 2 * (2 ^ L - 1) by omega, pow_add, pow_one, pow_mul, pow_two]
      · rw [s1] at hτ
        cases hτ
        refine ⟨sb, fun τ hτ => ?_⟩
        rw [s2] at hτ
        cases hτ
        exact sh
      · rw [hb] at hτ
        cases hτ
        exact h8

/-- `while e > 0: if e % 2: r = r * b` … `b = b * b; e = e // 2` with `e` a `BigInteger`, the rest in any mixture: every `BigInteger` counts as
true, so that from `r = 1` the program ends not with `b ** e` but with `b ** (2 ** k - 1)`, where `k` is the number of binary digits of `e`. -/
theorem C96_power_by_truth (env : Nat → PyObject) (a : BigInt) (b : Int) (e : Nat) (h0 : (env 0).Stands 1) (h1 : (env 1).Stands b)
    (h2 : env 2 = .big a) (ha : a.Denotes e) (h3 : (env 3).Stands 0) (h5 : (env 5).Stands 2) (hrest : ∀ i, ∃ z, (env i).Stands z)
    (he : InRange e) (hr : InRange ((max 1 b.natAbs) ^ (2 ^ ((Nat.digits 2 e).length + 1)) : Nat)) (hs : Cfg.strictShift = false) :
    ∃ n env', pyPowerTruth.run n env = some (.value env') ∧ (env' 0).Stands (b ^ (2 ^ (Nat.digits 2 e).length - 1)) := by
  choose v hv using hrest
  let σ : PyStore := ⟨fun i => (env i).isBig, fun i => match i with
    | 0 => 1 | 1 => b | 2 => e | 3 => 0 | 5 => 2 | i => v i⟩
  have hσ : σ.Holds env := fun i => ⟨rfl, match i with
    | 0 => h0 | 1 => h1 | 2 => by rw [h2]; exact ha | 3 => h3 | 4 => hv 4 | 5 => h5 | i + 6 => hv (i + 6)⟩
  have two : InRange 2 := lt_of_lt_of_le (show _ < 2 ^ 2 by decide) (Nat.pow_le_pow_right (by decide) (by decide))
  have hr' : InRange ((max 1 (1 : Int).natAbs * (max 1 b.natAbs) ^ (2 ^ ((Nat.digits 2 e).length + 1) - 1) : Nat) : Int) := by
    refine smaller ?_ hr
    rw [Int.natAbs_natCast, Int.natAbs_natCast, show max 1 (1 : Int).natAbs = 1 from rfl, one_mul]
    exact Nat.pow_le_pow_right (show 1 ≤ max 1 b.natAbs from le_max_left ..) (Nat.sub_le _ _)
  obtain ⟨n, σ', h6, h7, h8⟩ := truth_typed e σ 1 b (by change (env 2).isBig = true; rw [h2]; rfl) rfl rfl rfl rfl rfl he two hr'
  have := C96_actual (n + 4) pyPowerTruth env σ hσ h8 hs
  rw [h6] at this
  cases hrun : pyPowerTruth.run (n + 4) env with
  | none => rw [hrun] at this; exact this.elim
  | some out =>
    rw [hrun] at this
    obtain ⟨env', rfl, he'⟩ := this
    exact ⟨_, env', hrun, by rw [← one_mul (b ^ _), ← h7]; exact (he' 0).2⟩

private theorem tiny {x : Int} (h : x.natAbs < 2 ^ 200) : InRange x :=
  lt_of_lt_of_le h (Nat.pow_le_pow_right (by decide) (by decide))
private def sampleEnv : Nat → PyObject
  | 0 => .int ⟨1, false, by decide⟩
  | 1 => .big small
  | 2 => .big ⟨4, []⟩
  | 3 => .int ⟨0, true, by decide⟩
  | _ => .int ⟨2, false, by decide⟩
-- (-42) ** 4 comes out as (-42) ** 7
example (hs : Cfg.strictShift = false) : ∃ n env', pyPowerTruth.run n sampleEnv = some (.value env') ∧ (env' 0).Stands ((-42) ^ 7) := by
  have d : (Nat.digits 2 4).length = 3 := by decide +kernel
  have h4 : BigInt.Denotes ⟨4, []⟩ ((4 : Nat) : Int) := BigInt.denotes_small (by decide) (by decide)
  have h := C96_power_by_truth sampleEnv ⟨4, []⟩ (-42) 4 rfl small_denotes rfl h4 rfl rfl
    (fun i => match i with | 0 => ⟨_, rfl⟩ | 1 => ⟨_, small_denotes⟩ | 2 => ⟨_, h4⟩ | 3 => ⟨_, rfl⟩ | _ + 4 => ⟨_, rfl⟩)
    (tiny (by decide)) (by rw [d]; exact tiny (by decide)) hs
  rw [d] at h
  exact h

end BigIntegerCpp
