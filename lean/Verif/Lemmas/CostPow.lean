import Verif.Model.CostPow
import Verif.Lemmas.CostText
import Verif.Lemmas.ModPow
/-
Lemmas about Model/CostPow.lean: outcomes as in Model/Pow.lean, and bounds.
-/
set_option linter.unusedSectionVars false
namespace BigIntegerCpp
open Counted
namespace Cost
variable [Cfg]

/-! ### Outcomes -/

theorem actualLength_res (v : List Nat) (n : Nat) : (actualLength v n).res = BigIntegerCpp.actualLength v n := rfl
theorem ofWord_res (n v : Nat) : (ofWord n v).res = BitsBuffer.ofWord n v := rfl
theorem ofWords_res (n : Nat) (v : List Nat) : (ofWords n v).res = BitsBuffer.ofWords n v := rfl

theorem multiplyMem_res (l : List Nat) (n : Nat) (r : List Nat) (m : Nat) (b : List Nat) (k : Nat) :
    (multiplyMem l n r m b k).res = BitsBuffer.multiplyMem l n r m b k := by
  simp only [multiplyMem, BitsBuffer.multiplyMem, bind_res, lift_res, mulCore_res, pure_res]

theorem apply_res (s t : BitsBuffer) (n : Nat) : (apply s t n).res = s.apply t n := by
  simp only [apply, BitsBuffer.apply, bind_res, lift_res, tick_res, scope_res, Res.ok_bind, actualLength_res, pure_res]

theorem multiplySelf_res (s v t : BitsBuffer) : (multiplySelf s v t).res = s.multiplySelf v t := by
  simp only [multiplySelf, BitsBuffer.multiplySelf, bind_res, apply_res]
  by_cases h : s.length < v.length
  · rw [if_pos h, if_pos h, multiplyMem_res]
  · rw [if_neg h, if_neg h, multiplyMem_res]

theorem squareSelf_res (s t : BitsBuffer) : (squareSelf s t).res = s.squareSelf t := by
  simp only [squareSelf, BitsBuffer.squareSelf, bind_res, lift_res, sqCore_res, apply_res]

theorem reduce_res (s : BitsBuffer) (m : List Nat) : (reduce s m).res = s.reduce m := by
  unfold reduce BitsBuffer.reduce
  by_cases h : s.length ≥ m.length
  · rw [if_pos h, if_pos h]
    simp only [bind_res, lift_res, divideCore_res, actualLength_res, pure_res]
  · rw [if_neg h, if_neg h, pure_res]

theorem powBound_res (p l r : Nat) : (powBound p l r).res = BigIntegerCpp.powBound p l r := by
  induction p using Nat.strongRecOn generalizing l r with
  | ind p ih =>
  rw [powBound, BigIntegerCpp.powBound]
  by_cases h0 : p = 0
  · rw [dif_pos h0, dif_pos h0, pure_res]
  rw [dif_neg h0, dif_neg h0]
  simp only [bind_res, tick_res, lift_res, Res.ok_bind]
  exact bind_congr_of_ok fun _ _ => bind_congr_of_ok fun _ _ => ih _ (by omega) _ _

theorem powLoop_res {redc : BitsBuffer → Counted BitsBuffer} {red : BitsBuffer → Res BitsBuffer} (h : ∀ b, (redc b).res = red b)
    (p : Nat) (v r t : BitsBuffer) : (powLoop redc p v r t).res = BigIntegerCpp.powLoop red p v r t := by
  induction p using Nat.strongRecOn generalizing v r t with
  | ind p ih =>
  rw [powLoop, BigIntegerCpp.powLoop]
  by_cases h0 : p = 0
  · rw [dif_pos h0, dif_pos h0, pure_res]
  rw [dif_neg h0, dif_neg h0]
  simp only [bind_res, tick_res, Res.ok_bind]
  have e1 : (if p % 2 = 1 then do
        let (r, t) ← multiplySelf r v t
        let r ← redc r
        pure (r, t)
      else pure (r, t) : Counted (BitsBuffer × BitsBuffer)).res = (if p % 2 = 1 then do
        let (r, t) ← r.multiplySelf v t
        let r ← red r
        .ok (r, t)
      else .ok (r, t)) := by
    by_cases h1 : p % 2 = 1
    · rw [if_pos h1, if_pos h1]
      simp only [bind_res, multiplySelf_res, h, pure_res]
    · rw [if_neg h1, if_neg h1, pure_res]
  rw [e1]
  refine bind_congr_of_ok fun a _ => ?_
  have e2 : (if p ≠ 1 then do
        let (v, t) ← squareSelf v a.2
        let v ← redc v
        pure (v, t)
      else pure (v, a.2) : Counted (BitsBuffer × BitsBuffer)).res = (if p ≠ 1 then do
        let (v, t) ← v.squareSelf a.2
        let v ← red v
        .ok (v, t)
      else .ok (v, a.2)) := by
    by_cases h1 : p ≠ 1
    · rw [if_pos h1, if_pos h1]
      simp only [bind_res, squareSelf_res, h, pure_res]
    · rw [if_neg h1, if_neg h1, pure_res]
  obtain ⟨a1, a2⟩ := a
  dsimp only at e2 ⊢
  rw [e2]
  exact bind_congr_of_ok fun _ _ => ih _ (by omega) _ _ _

theorem powBits_res {redc : BitsBuffer → Counted BitsBuffer} {red : BitsBuffer → Res BitsBuffer} (h : ∀ b, (redc b).res = red b) :
    ∀ (n p : Nat) (st : BitsBuffer × BitsBuffer × BitsBuffer), (powBits redc n p st).res = BigIntegerCpp.powBits red n p st
  | 0, _, _ => rfl
  | n + 1, p, (v, r, t) => by
    rw [powBits, BigIntegerCpp.powBits]
    simp only [bind_res, tick_res, Res.ok_bind]
    have e1 : (if p % 2 = 1 then do
          let (r, t) ← multiplySelf r v t
          let r ← redc r
          pure (r, t)
        else pure (r, t) : Counted (BitsBuffer × BitsBuffer)).res = (if p % 2 = 1 then do
          let (r, t) ← r.multiplySelf v t
          let r ← red r
          .ok (r, t)
        else .ok (r, t)) := by
      by_cases h1 : p % 2 = 1
      · rw [if_pos h1, if_pos h1]
        simp only [bind_res, multiplySelf_res, h, pure_res]
      · rw [if_neg h1, if_neg h1, pure_res]
    rw [e1]
    refine bind_congr_of_ok fun a _ => ?_
    obtain ⟨a1, a2⟩ := a
    simp only [bind_res, squareSelf_res, h, powBits_res h n]

theorem powWords_res {redc : BitsBuffer → Counted BitsBuffer} {red : BitsBuffer → Res BitsBuffer} (h : ∀ b, (redc b).res = red b) :
    ∀ (ps : List Nat) (st : BitsBuffer × BitsBuffer × BitsBuffer), (powWords redc ps st).res = BigIntegerCpp.powWords red ps st
  | [], _ => rfl
  | p :: ps, st => by
    rw [powWords, BigIntegerCpp.powWords]
    simp only [bind_res, powBits_res h, powWords_res h ps]

theorem powCalc_res {mkc : Nat → Counted BitsBuffer} {mk : Nat → Res BitsBuffer} (h : ∀ n, (mkc n).res = mk n) (l p : Nat) :
    (powCalc mkc l p).res = BigIntegerCpp.powCalc mk l p := by
  simp only [powCalc, BigIntegerCpp.powCalc, bind_res, hold_res, powBound_res, h, ofWord_res, tick_res, Res.ok_bind, pure_res,
    powLoop_res (redc := fun b => pure b) (red := fun b => .ok b) (fun _ => rfl)]

theorem pow_res (a : BigInt) (e : Int) : (pow a e).res = a.pow e := by
  unfold pow BigInt.pow
  by_cases h1 : e < 0
  · rw [if_pos h1, if_pos h1, lift_res]
  rw [if_neg h1, if_neg h1, bind_res, lift_res]
  refine bind_congr_of_ok fun _ _ => ?_
  by_cases h2 : e = 0
  · rw [if_pos h2, if_pos h2, pure_res]
  rw [if_neg h2, if_neg h2]
  by_cases h3 : e = 1
  · rw [if_pos h3, if_pos h3, bind_res, tick_res, Res.ok_bind, pure_res]
  rw [if_neg h3, if_neg h3]
  by_cases h4 : a.bits = [] ∧ a.sign = 1
  · rw [if_pos h4, if_pos h4, pure_res]
  rw [if_neg h4, if_neg h4]
  by_cases h5 : a.bits = [] ∧ a.sign = -1
  · rw [if_pos h5, if_pos h5, pure_res]
  rw [if_neg h5, if_neg h5]
  by_cases h6 : a.bits = [] ∧ a.sign = 0
  · rw [if_pos h6, if_pos h6, pure_res]
  rw [if_neg h6, if_neg h6, bind_res]
  by_cases h7 : a.bits = []
  · rw [if_pos h7, if_pos h7]
    simp only [bind_res, lift_res, hold_res, ofMagnitude_res, powCalc_res (fun n => ofWord_res n _)]
  · rw [if_neg h7, if_neg h7]
    simp only [bind_res, lift_res, hold_res, ofMagnitude_res, powCalc_res (fun n => ofWords_res n _)]

theorem powModWord_res (p m v r : Nat) : (powModWord p m v r).res = BigIntegerCpp.powModWord p m v r := by
  induction p using Nat.strongRecOn generalizing v r with
  | ind p ih =>
  rw [powModWord, BigIntegerCpp.powModWord]
  by_cases h0 : p = 0
  · rw [dif_pos h0, dif_pos h0, lift_res]
  rw [dif_neg h0, dif_neg h0]
  simp only [bind_res, tick_res, lift_res, Res.ok_bind]
  exact bind_congr_of_ok fun _ _ => bind_congr_of_ok fun _ _ => ih _ (by omega) _ _

theorem powModBits_res (m : Nat) : ∀ (n p : Nat) (st : Nat × Nat), (powModBits m n p st).res = BigIntegerCpp.powModBits m n p st
  | 0, _, _ => rfl
  | n + 1, p, (v, r) => by
    rw [powModBits, BigIntegerCpp.powModBits]
    simp only [bind_res, tick_res, lift_res, Res.ok_bind, powModBits_res m n]

theorem powModWords_res (m : Nat) : ∀ (ps : List Nat) (st : Nat × Nat), (powModWords m ps st).res = BigIntegerCpp.powModWords m ps st
  | [], _ => rfl
  | [p], (v, r) => by rw [powModWords, BigIntegerCpp.powModWords, powModWord_res]
  | p :: q :: ps, st => by
    rw [powModWords, BigIntegerCpp.powModWords, bind_res, powModBits_res]
    · exact bind_congr_of_ok fun _ _ => powModWords_res m (q :: ps) _
    · simp
    · simp

theorem subtractSelf_res : ∀ (l r : List Nat) (n : Nat) (c : Int), (subtractSelf l r n c).res = FastReducer.subtractSelf l r n c
  | left, [], n, c => by
    rw [subtractSelf, FastReducer.subtractSelf]
    simp only [bind_res, lift_res, carrySelf_res, pure_res]
  | [], _ :: _, _, _ => by rw [subtractSelf, FastReducer.subtractSelf, lift_res]
  | x :: xs, y :: ys, n, c => by
    rw [subtractSelf, FastReducer.subtractSelf]
    simp only [bind_res, tick_res, lift_res, Res.ok_bind, subtractSelf_res xs ys, pure_res]

theorem subModLoop_res (ms : List Nat) : ∀ (f : Nat) (l : List Nat) (n : Nat), (subModLoop ms f l n).res = FastReducer.subModLoop ms f l n
  | 0, _, _ => by rw [subModLoop, FastReducer.subModLoop, lift_res]
  | f + 1, l, n => by
    rw [subModLoop, FastReducer.subModLoop]
    simp only [bind_res, tick_res, lift_res, Res.ok_bind]
    refine bind_congr_of_ok fun t _ => ?_
    by_cases h : compareWords t ms ≥ 0
    · rw [if_pos h, if_pos h]
      simp only [bind_res, subtractSelf_res, actualLength_res, subModLoop_res ms f]
    · rw [if_neg h, if_neg h, pure_res]

theorem res_ok_bind_self {α : Type} (r : Res α) : (r >>= fun a => Res.ok a) = r := by cases r <;> rfl

theorem subMod_res (l : List Nat) (ll : Nat) (r : List Nat) (rl : Nat) (ms : List Nat) (k : Nat) :
    (subMod l ll r rl ms k).res = FastReducer.subMod l ll r rl ms k := by
  unfold subMod FastReducer.subMod
  simp only [scope_res, bind_res, lift_res, subtractSelf_res, actualLength_res, subModLoop_res, tick_res, Res.ok_bind, pure_res, res_ok_bind_self]

theorem divMul_res (l : List Nat) (ll : Nat) (r : List Nat) (rl size k : Nat) : (divMul l ll r rl size k).res = FastReducer.divMul l ll r rl size k := by
  unfold divMul FastReducer.divMul
  simp only [bind_res, tick_res, Res.ok_bind]
  by_cases h : ll > k
  · rw [if_pos h, if_pos h]
    by_cases h' : ll - k < rl
    · simp only [h', if_true, bind_res, multiplyMem_res, actualLength_res, pure_res]
    · simp only [h', if_false, bind_res, multiplyMem_res, actualLength_res, pure_res]
  · rw [if_neg h, if_neg h, pure_res]

theorem reduceFast_res (b : BitsBuffer) (fr : FastReducer) : (reduceFast b fr).res = b.reduceFast fr := by
  unfold reduceFast BitsBuffer.reduceFast FastReducer.reduce
  by_cases h : b.length < fr.modulus.length
  · simp only [h, if_true, scope_res, bind_res, pure_res, Res.ok_bind]
  · simp only [h, if_false, scope_res, bind_res, pure_res, divMul_res, subMod_res]

theorem reducer_res (ms : List Nat) : (reducer ms).res = FastReducer.make ms := by
  unfold reducer FastReducer.make
  simp only [scope_res, bind_res, lift_res, tick_res, Res.ok_bind, divideVec_res, pure_res]

theorem powCoreMod_res (p : Nat) (m : List Nat) (v : BitsBuffer) : (powCoreMod p m v).res = BigIntegerCpp.powCoreMod p m v := by
  unfold powCoreMod
  dsimp only
  by_cases h : m.length < ReducerThreshold
  · rw [if_pos h]
    unfold BigIntegerCpp.powCoreMod
    dsimp only
    simp only [h, if_true, bind_res, ofWord_res, tick_res, Res.ok_bind, pure_res, powLoop_res (fun b => reduce_res b m)]
  · rw [if_neg h]
    unfold BigIntegerCpp.powCoreMod
    dsimp only
    simp only [h, if_false, bind_res, hold_res, reducer_res, ofWord_res, tick_res, Res.ok_bind, pure_res, Res.bind_assoc,
      powLoop_res (fun b => reduceFast_res b _)]

theorem powCoreModWords_res (p m : List Nat) (v : BitsBuffer) : (powCoreModWords p m v).res = BigIntegerCpp.powCoreModWords p m v := by
  unfold powCoreModWords
  dsimp only
  by_cases h : m.length < ReducerThreshold
  · rw [if_pos h]
    unfold BigIntegerCpp.powCoreModWords
    dsimp only
    simp only [h, if_true, bind_res, lift_res, ofWord_res, tick_res, Res.ok_bind, pure_res, powWords_res (fun b => reduce_res b m),
      powLoop_res (fun b => reduce_res b m)]
  · rw [if_neg h]
    unfold BigIntegerCpp.powCoreModWords
    dsimp only
    simp only [h, if_false, bind_res, hold_res, lift_res, reducer_res, ofWord_res, tick_res, Res.ok_bind, pure_res, Res.bind_assoc,
      powWords_res (fun b => reduceFast_res b _), powLoop_res (fun b => reduceFast_res b _)]

theorem modPowBase_res (v m : List Nat) : (modPowBase v m).res = BigIntegerCpp.modPowBase v m := by
  unfold modPowBase BigIntegerCpp.modPowBase
  rw [bind_res, lift_res]
  refine bind_congr_of_ok fun _ _ => ?_
  by_cases h : v.length > m.length
  · rw [if_pos h, if_pos h]
    simp only [hold_res, bind_res, remainderVec_res, ofWords_res]
  · rw [if_neg h, if_neg h, ofWords_res]

theorem modPow_res (a e m : BigInt) : (modPow a e m).res = a.modPow e m := by
  unfold modPow BigInt.modPow
  by_cases h1 : e.sign < 0
  · rw [if_pos h1, if_pos h1, lift_res]
  rw [if_neg h1, if_neg h1]
  simp only [bind_res, lift_res]
  refine bind_congr_of_ok fun _ _ => bind_congr_of_ok fun _ _ => bind_congr_of_ok fun _ _ => bind_congr_of_ok fun ev _ => ?_
  by_cases h2 : m.bits = []
  · rw [if_pos h2, if_pos h2]
    simp only [bind_res, lift_res]
    refine bind_congr_of_ok fun ms _ => ?_
    have e1 : (if a.bits = [] then lift (cabs a.sign) else remainderWord a.bits ms : Counted Nat).res =
        (if a.bits = [] then cabs a.sign else BigIntegerCpp.remainderWord a.bits ms) := by
      by_cases h : a.bits = []
      · rw [if_pos h, if_pos h, lift_res]
      · rw [if_neg h, if_neg h, remainderWord_res]
    rw [e1]
    refine bind_congr_of_ok fun v _ => ?_
    by_cases h : e.bits = []
    · rw [if_pos h, if_pos h]
      simp only [bind_res, lift_res, powModWord_res]
    · rw [if_neg h, if_neg h, powModWords_res]
  · rw [if_neg h2, if_neg h2]
    simp only [hold_res, bind_res]
    have e1 : (if a.bits = [] then do
          let s ← lift (cabs a.sign)
          let size ← lift (sizeInt (m.bits.length + m.bits.length))
          ofWord size s
        else modPowBase a.bits m.bits : Counted BitsBuffer).res = (if a.bits = [] then do
          let s ← cabs a.sign
          let size ← sizeInt (m.bits.length + m.bits.length)
          BitsBuffer.ofWord size s
        else BigIntegerCpp.modPowBase a.bits m.bits) := by
      by_cases h : a.bits = []
      · rw [if_pos h, if_pos h]
        simp only [bind_res, lift_res, ofWord_res]
      · rw [if_neg h, if_neg h, modPowBase_res]
    rw [e1]
    refine bind_congr_of_ok fun v _ => ?_
    by_cases h : e.bits = []
    · rw [if_pos h, if_pos h]
      simp only [bind_res, lift_res, powCoreMod_res, ofMagnitude_res]
    · rw [if_neg h, if_neg h, powCoreModWords_res]
      simp only [ofMagnitude_res]

/-! ### One multiplication -/

omit [Cfg] in
theorem three_four : ∀ j, 4 ≤ j → 3 * 3 ^ j ≤ 4 ^ j
  | 0, h => absurd h (by decide)
  | j + 1, h => by
    by_cases h4 : j = 3
    · subst h4; decide
    · have := three_four j (by omega)
      rw [pow_succ, pow_succ]
      omega

omit [Cfg] in
/-- The bound of Karatsuba's multiplication, for the least `k`, against that of the schoolbook. -/
theorem mulBound_le {n k : Nat} (e : Nat) (h32 : 32 ≤ n) (hk : 4 ≤ k) (hn : n ≤ 2 ^ k) :
    ∃ j, 4 ≤ j ∧ j ≤ k ∧ n ≤ 2 ^ j ∧ mulBound j e ≤ 7 * (n * (n + e)) := by
  induction k with
  | zero => exact absurd hk (by decide)
  | succ k ih =>
  by_cases h : n ≤ 2 ^ k
  · have h4 : 4 ≤ k := by
      by_contra hc
      have : 2 ^ k ≤ 2 ^ 3 := Nat.pow_le_pow_right (by decide) (by omega)
      omega
    obtain ⟨j, a, b, c, d⟩ := ih h4 h
    exact ⟨j, a, by omega, c, d⟩
  · refine ⟨k + 1, hk, Nat.le_refl _, hn, ?_⟩
    have h4 : 4 ≤ k := by
      by_contra hc
      have : 2 ^ (k + 1) ≤ 2 ^ 4 := Nat.pow_le_pow_right (by decide) (by omega)
      omega
    have h1 := three_four k h4
    have h2 : 2 ^ k * 2 ^ k ≤ n * n := Nat.mul_le_mul (by omega) (by omega)
    have h3 : e * 2 ^ k ≤ n * e := by rw [Nat.mul_comm n]; exact Nat.mul_le_mul_left e (by omega)
    rw [← Nat.mul_pow] at h2
    unfold mulBound
    rw [pow_succ 3, pow_succ 2, ← Nat.mul_assoc e, Nat.mul_add n]
    norm_num at h2
    omega

/-- Storage of a multiplication of `n + e` by `n` words with `n ≤ 2^k`. -/
def mulWords (k e : Nat) : Nat := 4 * 2 ^ k + (k - 4) * (2 * e + 8)

omit [Cfg] in
theorem mulWords_mono {j k e f : Nat} (h : j ≤ k) (he : e ≤ f) : mulWords j e ≤ mulWords k f := by
  unfold mulWords
  have : 2 ^ j ≤ 2 ^ k := Nat.pow_le_pow_right (by decide) h
  have : (j - 4) * (2 * e + 8) ≤ (k - 4) * (2 * f + 8) := Nat.mul_le_mul (by omega) (by omega)
  omega

/-- What a multiplication of `n + e` by `n` words and the squaring of `n` words cost, for `n ≤ B` and `e ≤ N`. -/
def MulCost (c D W N B : Nat) : Prop := ∀ n e, n ≤ B → e ≤ N →
  (∀ left right bits : List Nat, right.length = n → left.length = n + e → bits.length = n + e + n →
    Within (mulCore left right bits n) (c * (n * (n + e)) + n) D W) ∧
  (∀ value bits : List Nat, value.length = n → bits.length = n + n → Within (sqCore value bits n) (c * (n * n)) D W)

/-- Below the threshold: the schoolbook. -/
theorem mulCost_small (W N : Nat) : MulCost 1 1 W N 31 := by
  intro n e hn _
  have h : n < 32 := by omega
  refine ⟨fun left right bits hr hl hb => ?_, fun value bits hv hb => ?_⟩
  · rw [mulCore]
    have := mulSchool_within 0 W left right bits
    rw [hr, hl] at this
    refine within_call (d := 0) (within_lift_bind fun _ _ => within_lift_bind fun _ _ => ?_)
    rw [dif_pos (show n < MultiplyThreshold from h)]
    refine this.mono ?_ (Nat.le_refl _) (Nat.le_refl _)
    rw [Nat.mul_add n (n + e), Nat.mul_one, Nat.one_mul]
  · rw [sqCore]
    have := sqSchool_within 0 W [] value bits
    rw [hv, List.length_nil, Nat.zero_add] at this
    refine within_call (d := 0) (within_lift_bind fun _ _ => ?_)
    rw [dif_pos (show n < SquareThreshold from h), Nat.one_mul]
    exact this

/-- In general: at most seven times the schoolbook. -/
theorem mulCost_all {k : Nat} (hk : 4 ≤ k) (N : Nat) : MulCost 7 (k - 3) (mulWords k N) N (2 ^ k) := by
  intro n e hn he
  by_cases h : n < 32
  · obtain ⟨h1, h2⟩ := mulCost_small (mulWords k N) N n e (by omega) he
    refine ⟨fun left right bits hr hl hb => (h1 left right bits hr hl hb).mono (by omega) (by omega) (Nat.le_refl _),
      fun value bits hv hb => (h2 value bits hv hb).mono (by omega) (by omega) (Nat.le_refl _)⟩
  refine ⟨fun left right bits hr hl hb => ?_, fun value bits hv hb => ?_⟩
  · obtain ⟨j, a1, a2, a3, a4⟩ := mulBound_le e (by omega) hk hn
    exact (mulCore_within j a1 n e left right bits (by omega) hr hl hb).mono (by omega) (by omega) (mulWords_mono a2 he)
  · obtain ⟨j, a1, a2, a3, a4⟩ := mulBound_le 0 (by omega) hk hn
    exact (sqCore_within j a1 n value bits (by omega) hv hb).mono a4 (by omega)
      (show mulWords j 0 ≤ _ from mulWords_mono a2 (Nat.zero_le _))

theorem multiplyMem_le {c D W N B n e : Nat} {left right bits : List Nat} (hM : MulCost c D W N B) (hn : n ≤ B) (he : e ≤ N) :
    Within (multiplyMem left (n + e) right n bits (n + e + n)) (c * (n * (n + e)) + n) D W := by
  unfold multiplyMem
  refine within_lift_bind fun l hl => within_lift_bind fun r hr => within_lift_bind fun b hb => ?_
  exact within_bind_pure ((hM n e hn he).1 l r b (slice_length hr).1 (slice_length hl).1 (slice_length hb).1)

theorem apply_le {N : Nat} {self temp : BitsBuffer} {m : Nat} (h1 : self.bits.length = N) (h2 : temp.bits.length = N) (d : Nat) {w : Nat} (hw : N ≤ w) :
    Within (apply self temp m) (self.length + (3 * N + m)) d w := by
  unfold apply
  refine within_lift_bind fun _ _ => within_tick_bind ?_
  refine (within_scope (s := self.bits.length + temp.bits.length + (m + 0 + 0)) (w := w - N) _ ?_).mono (by omega) (Nat.le_refl _) (by omega)
  refine within_tick_bind (within_bind ?_ fun _ _ => within_pure _ _ _)
  exact within_tick_bind (within_lift _ _ _)

/-- `MultiplySelf` with buffers of `N` words. -/
theorem multiplySelf_le {c D W N B x y : Nat} {self value temp : BitsBuffer} (hM : MulCost c D W N B) (hw : N ≤ W) (hs : Buf N self x) (hv : Buf N value y)
    (ht : temp.bits = List.replicate N 0) (hl : self.length + value.length ≤ N) (hB : min self.length value.length ≤ B) :
    Within (multiplySelf self value temp) (c * (self.length * value.length) + 5 * N) D W := by
  unfold multiplySelf
  have key : Within (if self.length < value.length then
      multiplyMem value.bits value.length self.bits self.length temp.bits (self.length + value.length)
    else
      multiplyMem self.bits self.length value.bits value.length temp.bits (self.length + value.length))
      (c * (self.length * value.length) + min self.length value.length) D W := by
    by_cases h : self.length < value.length
    · obtain ⟨e, he⟩ : ∃ e, value.length = self.length + e := ⟨value.length - self.length, by omega⟩
      rw [if_pos h, Nat.add_comm self.length value.length, Nat.min_eq_left (by omega)]
      have := multiplyMem_le (left := value.bits) (right := self.bits) (bits := temp.bits) (n := self.length) (e := e) hM (by omega) (by omega)
      rw [← he] at this
      exact this
    · obtain ⟨e, he⟩ : ∃ e, self.length = value.length + e := ⟨self.length - value.length, by omega⟩
      rw [if_neg h, Nat.min_eq_right (by omega)]
      have := multiplyMem_le (left := self.bits) (right := value.bits) (bits := temp.bits) (n := value.length) (e := e) hM (by omega) (by omega)
      rw [← he, Nat.mul_comm value.length] at this
      exact this
  refine (within_bind (t := self.length + (3 * N + (self.length + value.length))) key fun t e => ?_).mono (by omega) (Nat.le_refl _) (Nat.le_refl _)
  refine apply_le hs.size ?_ _ hw
  -- the length of the new contents
  have e' : (if self.length < value.length then
      BitsBuffer.multiplyMem value.bits value.length self.bits self.length temp.bits (self.length + value.length)
    else
      BitsBuffer.multiplyMem self.bits self.length value.bits value.length temp.bits (self.length + value.length)) = .ok t := by
    by_cases h : self.length < value.length
    · rw [if_pos h] at e ⊢; rw [← multiplyMem_res]; exact e
    · rw [if_neg h] at e ⊢; rw [← multiplyMem_res]; exact e
  show t.length = N
  rw [ht] at e'
  by_cases h : self.length < value.length
  · rw [if_pos h, Nat.add_comm self.length] at e'
    obtain ⟨o, q, k1, -⟩ := BitsBuffer.multiplyMem_spec (nl := value.length) (nr := self.length) hv.words hs.words (by rw [hv.size]; exact hv.len_le_size)
      (by rw [hs.size]; exact hs.len_le_size) (le_of_lt h) (N := N) (by omega)
    rw [q] at e'
    cases e'
    exact k1
  · rw [if_neg h] at e'
    obtain ⟨o, q, k1, -⟩ := BitsBuffer.multiplyMem_spec (nl := self.length) (nr := value.length) hs.words hv.words (by rw [hs.size]; exact hs.len_le_size)
      (by rw [hv.size]; exact hv.len_le_size) (by omega) (N := N) (by omega)
    rw [q] at e'
    cases e'
    exact k1

/-- `SquareSelf` with buffers of `N` words. -/
theorem squareSelf_le {c D W N B x : Nat} {self temp : BitsBuffer} (hM : MulCost c D W N B) (hw : N ≤ W) (hs : Buf N self x)
    (ht : temp.bits = List.replicate N 0) (hl : self.length + self.length ≤ N) (hB : self.length ≤ B) :
    Within (squareSelf self temp) (c * (self.length * self.length) + 5 * N) D W := by
  unfold squareSelf
  refine within_lift_bind fun v hv => within_lift_bind fun b hb => ?_
  have key := (hM self.length 0 hB (Nat.zero_le _)).2 v b (slice_length hv).1 (slice_length hb).1
  refine (within_bind (t := self.length + (3 * N + (self.length + self.length))) key fun t e => ?_).mono (by omega) (Nat.le_refl _) (Nat.le_refl _)
  refine apply_le hs.size ?_ _ hw
  have h1 := sqCore_length (by rw [← sqCore_res]; exact e)
  show (t ++ temp.bits.drop _).length = N
  rw [List.length_append, List.length_drop, ht, List.length_replicate, h1, (slice_length hb).1]
  omega

/-! ### Powers -/

theorem powBound_within (d w : Nat) {L : Nat} : ∀ {p l r : Nat}, p < 2 ^ L → Within (powBound p l r) L d w := by
  induction L with
  | zero =>
    intro p l r h
    rw [powBound, dif_pos (by simpa using h)]
    exact within_pure _ _ _
  | succ L ih =>
    intro p l r h
    rw [powBound]
    by_cases h0 : p = 0
    · rw [dif_pos h0]
      exact (within_pure _ _ _).mono (Nat.zero_le _) (Nat.le_refl _) (Nat.le_refl _)
    rw [dif_neg h0]
    refine (within_tick_bind (t := L) ?_).mono (by omega) (Nat.le_refl _) (Nat.le_refl _)
    refine within_lift_bind fun _ _ => within_lift_bind fun _ _ => ih ?_
    rw [pow_succ] at h
    omega

/-- The loop of `pow` with buffers of `N` words: `R` and `V` bound the lengths of the two factors. -/
theorem powLoop_le {k N : Nat} (hk : 4 ≤ k) (hN : N ≤ 2 * 2 ^ k) {L : Nat} : ∀ {p : Nat} {value result temp : BitsBuffer} {v r V R : Nat},
    p < 2 ^ L → Buf N value v → Buf N result r → temp.bits = List.replicate N 0 → v < 𝔹 ^ V → r < 𝔹 ^ R → R + p * V ≤ N → 1 ≤ V →
    Within (powLoop (fun b => pure b) p value result temp) (11 * (N * ((2 * p - 1) * V)) + (10 * N + 1) * L) (k - 3) (mulWords k N) := by
  have hw : N ≤ mulWords k N := by unfold mulWords; omega
  induction L with
  | zero =>
    intro p value result temp v r V R hp hv hr ht h1 h2 h3 hV
    rw [powLoop, dif_pos (by simpa using hp)]
    exact (within_pure _ _ _).mono (Nat.zero_le _) (Nat.le_refl _) (Nat.le_refl _)
  | succ L ih =>
    intro p value result temp v r V R hp hv hr ht h1 h2 h3 hV
    rw [powLoop]
    by_cases h0 : p = 0
    · rw [dif_pos h0]
      exact (within_pure _ _ _).mono (Nat.zero_le _) (Nat.le_refl _) (Nat.le_refl _)
    rw [dif_neg h0]
    have hdiv := Nat.div_add_mod p 2
    have hpl : p * V = (p / 2) * (V + V) + (p % 2) * V := by
      conv_lhs => rw [← hdiv]
      ring
    have hvl := hv.len_le h1
    have hrl := hr.len_le h2
    have hp1V : 1 * V ≤ p * V := Nat.mul_le_mul_right _ (by omega)
    -- the multiplication
    have m1 : Within (if p % 2 = 1 then do
          let (r, t) ← multiplySelf result value temp
          let r ← (pure r : Counted BitsBuffer)
          pure (r, t)
        else pure (result, temp)) (7 * (N * V) + 5 * N) (k - 3) (mulWords k N) := by
      by_cases h : p % 2 = 1
      · rw [if_pos h]
        refine (within_bind (t := 0) (multiplySelf_le (mulCost_all hk N) hw hr hv ht (by omega) (by omega)) fun a _ => within_bind (t := 0) (within_pure _ _ _) fun _ _ => within_pure _ _ _).mono
          ?_ (Nat.le_refl _) (Nat.le_refl _)
        have : result.length * value.length ≤ N * V := Nat.mul_le_mul (by omega) hvl
        omega
      · rw [if_neg h]
        exact (within_pure _ _ _).mono (Nat.zero_le _) (Nat.le_refl _) (Nat.le_refl _)
    have e1 : ∃ res tmp R', (if p % 2 = 1 then do
          let (r, t) ← multiplySelf result value temp
          let r ← (pure r : Counted BitsBuffer)
          pure (r, t)
        else pure (result, temp) : Counted (BitsBuffer × BitsBuffer)).res = .ok (res, tmp) ∧ Buf N res (r * v ^ (p % 2)) ∧ tmp.bits = List.replicate N 0 ∧
          r * v ^ (p % 2) < 𝔹 ^ R' ∧ R' = R + p % 2 * V := by
      by_cases h : p % 2 = 1
      · obtain ⟨a, t, e, k1, k2⟩ := BitsBuffer.multiplySelf_spec hr hv ht (by omega)
        refine ⟨a, t, R + V, ?_, by rw [h, pow_one]; exact k1, k2, ?_, by rw [h]; omega⟩
        · rw [if_pos h]
          simp only [bind_res, multiplySelf_res, e, Res.ok_bind, pure_res]
        · rw [h, pow_one, pow_add]; exact Nat.mul_lt_mul'' h2 h1
      · have h' : p % 2 = 0 := by omega
        exact ⟨result, temp, R, by rw [if_neg h, pure_res], by rw [h']; simpa using hr, ht, by rw [h']; simpa using h2, by rw [h']; omega⟩
    obtain ⟨res, tmp, R', e1, b1, b2, b3, b4⟩ := e1
    -- the rest
    by_cases hp1 : p = 1
    · subst hp1
      refine (within_tick_bind (t := 7 * (N * V) + 5 * N + 0) (within_bind m1 fun a ha => ?_)).mono ?_ (Nat.le_refl _) (Nat.le_refl _)
      · rw [e1] at ha
        cases ha
        dsimp only
        rw [if_neg (by simp)]
        refine within_bind (s := 0) (t := 0) (within_pure _ _ _) fun a' _ => ?_
        rw [powLoop, dif_pos (by decide)]
        exact within_pure _ _ _
      · rw [Nat.mul_add _ L 1]
        show _ ≤ 11 * (N * (1 * V)) + _
        rw [Nat.one_mul]
        omega
    · have hp2V : 2 * V ≤ p * V := Nat.mul_le_mul_right _ (by omega)
      refine (within_tick_bind (t := 7 * (N * V) + 5 * N + ((4 * (N * V) + 5 * N) + (11 * (N * ((2 * (p / 2) - 1) * (V + V))) + (10 * N + 1) * L)))
        (within_bind m1 fun a ha => ?_)).mono ?_ (Nat.le_refl _) (Nat.le_refl _)
      · rw [e1] at ha
        cases ha
        dsimp only
        rw [if_pos hp1]
        obtain ⟨a, t, e, k1, k2⟩ := BitsBuffer.squareSelf_spec hv b2 (by omega)
        refine within_bind ?_ fun a' ha' => ?_
        · refine (within_bind (t := 0) (squareSelf_le (mulCost_all hk N) hw hv b2 (by omega) (by omega)) fun a _ => within_bind (t := 0) (within_pure _ _ _) fun _ _ => within_pure _ _ _).mono
            ?_ (Nat.le_refl _) (Nat.le_refl _)
          have : 2 * (value.length * value.length) ≤ N * V := by
            rw [← Nat.mul_assoc]; exact Nat.mul_le_mul (by omega) hvl
          omega
        · simp only [bind_res, squareSelf_res, e, Res.ok_bind, pure_res] at ha'
          cases ha'
          exact ih (p := p / 2) (V := V + V) (by rw [pow_succ] at hp; omega) k1 b1 k2
            (by rw [pow_add]; exact Nat.mul_lt_mul'' h1 h1) b3 (by omega) (by omega)
      · have e1 : (2 * (p / 2) - 1) * (V + V) + V ≤ (2 * p - 1) * V := by
          obtain ⟨q, hq⟩ : ∃ q, p / 2 = q + 1 := ⟨p / 2 - 1, by omega⟩
          have e2 : (2 * (p / 2) - 1) * (V + V) + V = (4 * q + 3) * V := by
            rw [hq, show 2 * (q + 1) - 1 = 2 * q + 1 by omega]; ring
          rw [e2]
          exact Nat.mul_le_mul_right _ (by omega)
        have e2 := Nat.mul_le_mul_left N e1
        rw [Nat.mul_add N _ V] at e2
        rw [Nat.mul_add _ L 1]
        omega

theorem ofWord_within (d w n v : Nat) : Within (ofWord n v) n d w :=
  within_tick_bind (t := 0) (within_lift _ _ _)

theorem ofWords_within (d n : Nat) (v : List Nat) {w : Nat} (hw : v.length ≤ w) : Within (ofWords n v) (3 * v.length + n) d w := by
  refine (within_scope (s := v.length + n + trimLen v + 0) (w := w - v.length) v.length (within_tick_bind (within_lift _ _ _))).mono ?_ (Nat.le_refl _) (by omega)
  have := trimLen_le v
  omega

theorem powCalc_within {mkc : Nat → Counted BitsBuffer} {mk : Nat → Res BitsBuffer} {v len p k L S : Nat} (hres : ∀ n, (mkc n).res = mk n)
    (hp : 1 ≤ p) (hlen : 1 ≤ len) (hv : v < 𝔹 ^ len) (hmk : ∀ N, 0 < N → len ≤ N → ∃ b, mk N = .ok b ∧ Buf N b v)
    (hS : ∀ N, len ≤ N → Within (mkc N) (S + N) 0 N) (hk : 4 ≤ k) (hN : 1 + p * len ≤ 2 * 2 ^ k) (hL : p < 2 ^ L) :
    Within (powCalc mkc len p) (11 * ((1 + p * len) * ((2 * p - 1) * len)) + (10 * (1 + p * len) + 2) * L + S + 4 * (1 + p * len)) (k - 3)
      (mulWords k (1 + p * len) + 4 * (1 + p * len)) := by
  unfold powCalc
  refine (within_bind (t := S + (1 + p * len) + ((1 + p * len) + ((1 + p * len) + (11 * ((1 + p * len) * ((2 * p - 1) * len)) + (10 * (1 + p * len) + 1) * L +
      ((1 + p * len) + 0))))) (powBound_within _ _ hL) fun N hN' => ?_).mono ?_ (Nat.le_refl _) (Nat.le_refl _)
  · rw [powBound_res, powBound_spec p (by decide)] at hN'
    split_ifs at hN'
    cases hN'
    generalize hN0 : 1 + p * len = N at *
    have hl : 1 * len ≤ p * len := Nat.mul_le_mul_right _ hp
    refine within_hold _ ?_
    have hw : N ≤ mulWords k N := by unfold mulWords; omega
    refine within_bind ((hS N (by omega)).mono (Nat.le_refl _) (Nat.zero_le _) hw) fun b hb => ?_
    obtain ⟨b', e1, k1⟩ := hmk N (by omega) (by omega)
    rw [hres, e1] at hb
    cases hb
    refine within_bind (ofWord_within _ _ _ _) fun t hb => ?_
    obtain ⟨t', e2, k2⟩ := BitsBuffer.ofWord_zero (N := N) (by omega)
    rw [ofWord_res, e2] at hb
    cases hb
    refine within_bind (ofWord_within _ _ _ _) fun r hb => ?_
    obtain ⟨r', e3, k3⟩ := BitsBuffer.ofWord_spec (N := N) (w := 1) (by omega) (by decide)
    rw [ofWord_res, e3] at hb
    cases hb
    refine within_bind (powLoop_le hk hN hL k1 k3 k2 hv (R := 1) (by decide) (by omega) hlen) fun o ho => ?_
    obtain ⟨o', e4, k4⟩ := powLoop_id p k1 k3 k2 hv (R := 1) (by decide) (by omega)
    rw [powLoop_res (red := fun b => .ok b) (fun _ => rfl), e4] at ho
    cases ho
    rw [k4.size]
    exact within_tick_bind (t := 0) (within_pure o.bits _ _)
  · generalize 1 + p * len = N
    rw [Nat.add_mul, Nat.add_mul]
    omega

theorem cabs_lt {a : BigInt} (ha : a.Valid) {s : Nat} (h : cabs a.sign = .ok s) : s < 4294967296 := by
  have h1 := ha.signRange
  unfold IntRange at h1
  unfold cabs at h
  split_ifs at h
  cases h
  omega

/-- `pow` of a number of `n` words (one if it has none) to the exponent `p < 2^L`, with `N = 1 + p·n`. -/
theorem pow_within {a : BigInt} (ha : a.Valid) (hl : a.bits.length < 2147483648) {p k L N : Nat} (hN0 : N = 1 + p * Max.max 1 a.bits.length)
    (hk : 4 ≤ k) (hN : N ≤ 2 * 2 ^ k) (hL : p < 2 ^ L) :
    Within (pow a p) (22 * (N * N) + 10 * (N * L) + 2 * L) (k - 3) (mulWords k N + 4 * N) := by
  unfold pow
  rw [if_neg (show ¬ (p : Int) < 0 by omega)]
  refine within_lift_bind fun _ _ => ?_
  by_cases h0 : p = 0
  · rw [if_pos (by omega)]
    exact (within_pure _ _ _).mono (Nat.zero_le _) (Nat.le_refl _) (Nat.le_refl _)
  rw [if_neg (by omega)]
  have hpl : 1 * Max.max 1 a.bits.length ≤ p * Max.max 1 a.bits.length := Nat.mul_le_mul_right _ (by omega)
  have hNN : N * 1 ≤ N * N := Nat.mul_le_mul_left _ (by omega)
  by_cases h1 : p = 1
  · rw [if_pos (by omega)]
    refine (within_tick_bind (t := 0) (within_pure a _ _)).mono ?_ (Nat.le_refl _) (Nat.le_refl _)
    omega
  rw [if_neg (by omega)]
  by_cases h2 : a.bits = [] ∧ a.sign = 1
  · rw [if_pos h2]
    exact (within_pure _ _ _).mono (Nat.zero_le _) (Nat.le_refl _) (Nat.le_refl _)
  rw [if_neg h2]
  by_cases h3 : a.bits = [] ∧ a.sign = -1
  · rw [if_pos h3]
    exact (within_pure _ _ _).mono (Nat.zero_le _) (Nat.le_refl _) (Nat.le_refl _)
  rw [if_neg h3]
  by_cases h4 : a.bits = [] ∧ a.sign = 0
  · rw [if_pos h4]
    exact (within_pure _ _ _).mono (Nat.zero_le _) (Nat.le_refl _) (Nat.le_refl _)
  rw [if_neg h4]
  have hbits : ∀ (mkc : Nat → Counted BitsBuffer) (mk : Nat → Res BitsBuffer) (v len : Nat), (∀ n, (mkc n).res = mk n) → len = Max.max 1 a.bits.length →
      v < 𝔹 ^ len → (∀ N, 0 < N → len ≤ N → ∃ b, mk N = .ok b ∧ Buf N b v) → (∀ N, len ≤ N → Within (mkc N) (3 * len + N) 0 N) →
      Within (powCalc mkc len p) (22 * (N * N) + 10 * (N * L) + 2 * L - 3 * N) (k - 3) (mulWords k N + 4 * N) ∧
        ∀ bits, (powCalc mkc len p).res = .ok bits → bits.length = N := by
    intro mkc mk v len hres hlen hv hmk hS
    rw [← hlen] at hN0 hpl
    have hp2 : 2 * len ≤ p * len := Nat.mul_le_mul_right _ (by omega)
    have := powCalc_within hres (by omega) (by omega) hv hmk hS hk (hN0 ▸ hN) hL
    rw [← hN0] at this
    refine ⟨this.mono ?_ (Nat.le_refl _) (Nat.le_refl _), fun bits hb => ?_⟩
    · have e : (2 * p - 1) * len + 2 + len = 2 * N := by
        obtain ⟨q, rfl⟩ : ∃ q, p = q + 1 := ⟨p - 1, by omega⟩
        rw [hN0, show 2 * (q + 1) - 1 = 2 * q + 1 by omega]; ring
      have e2 : N * ((2 * p - 1) * len) + N * 2 + N * len = 2 * (N * N) := by
        rw [← Nat.mul_add, ← Nat.mul_add, e]; ring
      have e3 : N * 1 ≤ N * len := Nat.mul_le_mul_left _ (by omega)
      rw [Nat.add_mul, Nat.mul_assoc 10]
      omega
    · rw [powCalc_res hres] at hb
      unfold BigIntegerCpp.powCalc at hb
      rw [powBound_spec p (by decide), ← hN0] at hb
      by_cases h : N < 2147483647
      · rw [if_pos h, Res.ok_bind] at hb
        obtain ⟨b, e1, k1⟩ := hmk N (by omega) (by omega)
        obtain ⟨t, e2, k2⟩ := BitsBuffer.ofWord_zero (N := N) (by omega)
        obtain ⟨r, e3, k3⟩ := BitsBuffer.ofWord_spec (N := N) (w := 1) (by omega) (by decide)
        obtain ⟨o, e4, k4⟩ := powLoop_id p k1 k3 k2 hv (R := 1) (by decide) (by omega)
        rw [e1, Res.ok_bind, e2, Res.ok_bind, e3, Res.ok_bind, e4, Res.ok_bind] at hb
        cases hb
        exact k4.size
      · rw [if_neg h] at hb
        exact absurd hb (by simp)
  have fin : ∀ bits : List Nat, bits.length = N → Within (hold bits.length (ofMagnitude bits (a.sign < 0 ∧ (p : Int) % 2 ≠ 0)))
      (3 * N) (k - 3) (mulWords k N + 4 * N) := by
    intro bits hb
    have := within_hold bits.length (ofMagnitude_within (k - 3) (mulWords k N + 2 * N) bits (a.sign < 0 ∧ (p : Int) % 2 ≠ 0))
    rw [hb] at this
    rw [hb]
    exact this.mono (Nat.le_refl _) (Nat.le_refl _) (by omega)
  rw [Int.toNat_natCast]
  by_cases h5 : a.bits = []
  · rw [if_pos h5]
    have hlen : 1 = Max.max 1 a.bits.length := by rw [h5]; rfl
    have key : ∀ s, cabs a.sign = .ok s → _ := fun s hs' => hbits (fun size => ofWord size s) (fun size => BitsBuffer.ofWord size s) s 1
      (fun _ => rfl) hlen (by have := cabs_lt ha hs'; omega) (fun N h _ => BitsBuffer.ofWord_spec h (cabs_lt ha hs'))
      (fun N _ => (ofWord_within 0 N N s).mono (by omega) (Nat.le_refl _) (Nat.le_refl _))
    refine (within_bind (s := 22 * (N * N) + 10 * (N * L) + 2 * L - 3 * N) (within_lift_bind fun s hs' => (key s hs').1) fun bits hbits' => fin bits ?_).mono
      (by omega) (Nat.le_refl _) (Nat.le_refl _)
    rw [bind_res, lift_res] at hbits'
    obtain ⟨s, hs', hbits'⟩ := Res.bind_eq_ok hbits'
    exact (key s hs').2 bits hbits'
  · rw [if_neg h5]
    have hlen : a.bits.length = Max.max 1 a.bits.length := by
      have := List.length_pos_iff.2 h5
      omega
    have hw : WordsOk a.bits := ha.words
    have key := hbits (fun size => ofWords size a.bits) (fun size => BitsBuffer.ofWords size a.bits) (val a.bits) a.bits.length
      (fun _ => rfl) hlen (val_lt hw) (fun N _ h => BitsBuffer.ofWords_spec hw hl ((trimLen_le _).trans h))
      (fun N h => ofWords_within 0 N a.bits h)
    refine (within_bind (s := 22 * (N * N) + 10 * (N * L) + 2 * L - 3 * N) (within_lift_bind fun s hs' => key.1) fun bits hbits' => fin bits ?_).mono
      (by omega) (Nat.le_refl _) (Nat.le_refl _)
    rw [bind_res, lift_res] at hbits'
    obtain ⟨s, hs', hbits'⟩ := Res.bind_eq_ok hbits'
    exact key.2 bits hbits'

/-! ### Modular powers -/

/-- `Reduce` with buffers of `2·m` words, `m` the length of the modulus. -/
theorem reduce_le {self : BitsBuffer} {x : Nat} {ms : List Nat} (hs : Buf (ms.length + ms.length) self x) (hw : WordsOk ms) (d w : Nat) :
    Within (reduce self ms) (2 * (ms.length * ms.length) + 7 * ms.length + 4) d w := by
  unfold reduce
  by_cases h : self.length ≥ ms.length
  · rw [if_pos h]
    have := hs.len_le_size
    refine within_lift_bind fun l hl => ?_
    have hl' := (slice_length hl).1
    rw [hs.slice] at hl
    cases hl
    refine (within_bind (t := ms.length + 0 + 0) (divideCore_within d w [] (hs.words.take _) hw) fun p _ => ?_).mono ?_ (Nat.le_refl _) (Nat.le_refl _)
    · dsimp only
      exact within_bind (within_tick_bind (within_lift _ _ _)) fun _ _ => within_pure _ _ _
    · rw [hl']
      have : (self.length + 1 - ms.length) * (2 * ms.length + 4) ≤ (ms.length + 1) * (2 * ms.length + 4) := Nat.mul_le_mul_right _ (by omega)
      have e : (ms.length + 1) * (2 * ms.length + 4) = 2 * (ms.length * ms.length) + 6 * ms.length + 4 := by ring
      omega
  · rw [if_neg h]
    exact (within_pure _ _ _).mono (Nat.zero_le _) (Nat.le_refl _) (Nat.le_refl _)

/-- Steps of one multiplication or squaring with its reduction, for a modulus of `m` words. -/
def redBound (m : Nat) : Nat := 3 * (m * m) + 17 * m + 4

section
variable {ms : List Nat} (hw : WordsOk ms) (hne : ms ≠ []) (htop : ms.getLast? ≠ some 0) (h32 : ms.length < 32)
include hw hne htop h32

theorem mulRed_le {value result temp : BitsBuffer} {v r : Nat} (hv : Buf (ms.length + ms.length) value v) (hr : Buf (ms.length + ms.length) result r)
    (ht : temp.bits = List.replicate (ms.length + ms.length) 0) (h1 : v < 𝔹 ^ ms.length) (h2 : r < 𝔹 ^ ms.length) :
    Within (do
      let (r, t) ← multiplySelf result value temp
      let r ← reduce r ms
      pure (r, t) : Counted (BitsBuffer × BitsBuffer)) (redBound ms.length) 1 (2 * ms.length) := by
  have hvl := hv.len_le h1
  have hrl := hr.len_le h2
  have hmul : result.length * value.length ≤ ms.length * ms.length := Nat.mul_le_mul hrl hvl
  unfold redBound
  refine (within_bind (t := 2 * (ms.length * ms.length) + 7 * ms.length + 4) (multiplySelf_le (mulCost_small (2 * ms.length) _) (by omega) hr hv ht (by omega) (by omega))
    fun p hp => ?_).mono (by omega) (Nat.le_refl _) (Nat.le_refl _)
  obtain ⟨a, t, e, k1, k2⟩ := BitsBuffer.multiplySelf_spec hr hv ht (by omega)
  rw [multiplySelf_res, e] at hp
  cases hp
  exact within_bind_pure (reduce_le k1 hw _ _)

theorem sqRed_le {value temp : BitsBuffer} {v : Nat} (hv : Buf (ms.length + ms.length) value v)
    (ht : temp.bits = List.replicate (ms.length + ms.length) 0) (h1 : v < 𝔹 ^ ms.length) {β : Type} {f : BitsBuffer → BitsBuffer → Counted β} {S : Nat}
    (hf : ∀ b t, Buf (ms.length + ms.length) b (v * v % val ms) → t.bits = List.replicate (ms.length + ms.length) 0 → Within (f b t) S 1 (2 * ms.length)) :
    Within (do
      let (v, t) ← squareSelf value temp
      let v ← reduce v ms
      f v t) (redBound ms.length + S) 1 (2 * ms.length) := by
  have hvl := hv.len_le h1
  have hmul : value.length * value.length ≤ ms.length * ms.length := Nat.mul_le_mul hvl hvl
  unfold redBound
  refine (within_bind (t := 2 * (ms.length * ms.length) + 7 * ms.length + 4 + S) (squareSelf_le (mulCost_small (2 * ms.length) _) (by omega) hv ht (by omega) (by omega))
    fun p hp => ?_).mono (by omega) (Nat.le_refl _) (Nat.le_refl _)
  obtain ⟨a, t, e, k1, k2⟩ := BitsBuffer.squareSelf_spec hv ht (by omega)
  rw [squareSelf_res, e] at hp
  cases hp
  refine within_bind (reduce_le k1 hw _ _) fun b hb => ?_
  obtain ⟨b', e2, k3⟩ := BitsBuffer.reduce_spec k1 hw hne htop
  rw [reduce_res, e2] at hb
  cases hb
  exact hf _ _ k3 k2

/-- What the multiplication of one bit leaves. -/
theorem mulIf {p : Nat} {value result temp : BitsBuffer} {v r : Nat} (hv : Buf (ms.length + ms.length) value v) (hr : Buf (ms.length + ms.length) result r)
    (ht : temp.bits = List.replicate (ms.length + ms.length) 0) (h1 : v < 𝔹 ^ ms.length) (h2 : r < 𝔹 ^ ms.length) :
    Within (if p % 2 = 1 then do
        let (r, t) ← multiplySelf result value temp
        let r ← reduce r ms
        pure (r, t)
      else pure (result, temp) : Counted (BitsBuffer × BitsBuffer)) (redBound ms.length) 1 (2 * ms.length) ∧
    ∃ res tmp r', (if p % 2 = 1 then do
        let (r, t) ← multiplySelf result value temp
        let r ← reduce r ms
        pure (r, t)
      else pure (result, temp) : Counted (BitsBuffer × BitsBuffer)).res = .ok (res, tmp) ∧ Buf (ms.length + ms.length) res r' ∧
      tmp.bits = List.replicate (ms.length + ms.length) 0 ∧ r' < 𝔹 ^ ms.length := by
  by_cases h : p % 2 = 1
  · rw [if_pos h]
    refine ⟨mulRed_le hw hne htop h32 hv hr ht h1 h2, ?_⟩
    have hm : 0 < val ms := by
      have := BigInt.val_lt_of_length (xs := []) wordsOk_nil hne htop (List.length_pos_iff.2 hne)
      simpa using this
    obtain ⟨b, t, e, q1, q2⟩ := mulRed (m := val ms) (red := fun b => b.reduce ms) (fun b x hb => BitsBuffer.reduce_spec hb hw hne htop) (le_refl _) hv hr ht h1 h2
    refine ⟨b, t, _, ?_, q1, q2, lt_trans (Nat.mod_lt _ hm) (val_lt hw)⟩
    rw [← e]
    simp only [bind_res, multiplySelf_res, reduce_res, pure_res]
  · rw [if_neg h]
    exact ⟨(within_pure _ _ _).mono (Nat.zero_le _) (Nat.le_refl _) (Nat.le_refl _), result, temp, r, rfl, hr, ht, h2⟩

theorem powLoop_red_le {L : Nat} : ∀ {p : Nat} {value result temp : BitsBuffer} {v r : Nat}, p < 2 ^ L →
    Buf (ms.length + ms.length) value v → Buf (ms.length + ms.length) result r → temp.bits = List.replicate (ms.length + ms.length) 0 →
    v < 𝔹 ^ ms.length → r < 𝔹 ^ ms.length →
    Within (powLoop (fun b => reduce b ms) p value result temp) ((2 * redBound ms.length + 1) * L) 1 (2 * ms.length) := by
  induction L with
  | zero =>
    intro p value result temp v r hp hv hr ht h1 h2
    rw [powLoop, dif_pos (by simpa using hp)]
    exact (within_pure _ _ _).mono (Nat.zero_le _) (Nat.le_refl _) (Nat.le_refl _)
  | succ L ih =>
    intro p value result temp v r hp hv hr ht h1 h2
    rw [powLoop]
    by_cases h0 : p = 0
    · rw [dif_pos h0]
      exact (within_pure _ _ _).mono (Nat.zero_le _) (Nat.le_refl _) (Nat.le_refl _)
    rw [dif_neg h0]
    obtain ⟨m1, res, tmp, r', e1, b1, b2, b3⟩ := mulIf hw hne htop h32 (p := p) hv hr ht h1 h2
    have hm : 0 < val ms := by
      have := BigInt.val_lt_of_length (xs := []) wordsOk_nil hne htop (List.length_pos_iff.2 hne)
      simpa using this
    refine (within_tick_bind (t := redBound ms.length + (redBound ms.length + (2 * redBound ms.length + 1) * L))
      (within_bind m1 fun a ha => ?_)).mono (by rw [Nat.mul_add _ L 1]; omega) (Nat.le_refl _) (Nat.le_refl _)
    rw [e1] at ha
    cases ha
    dsimp only
    have hp' : p / 2 < 2 ^ L := by rw [pow_succ] at hp; omega
    by_cases hp1 : p = 1
    · rw [if_neg (by simpa using hp1)]
      exact (within_bind (s := 0) (within_pure _ _ _) fun a ha => by cases ha; exact ih hp' hv b1 b2 h1 b3).mono (by omega) (Nat.le_refl _) (Nat.le_refl _)
    · rw [if_pos hp1]
      obtain ⟨a, t, b, e, e2, q1, q2⟩ := sqRed (m := val ms) (red := fun b => b.reduce ms) (fun b x hb => BitsBuffer.reduce_spec hb hw hne htop) (le_refl _) hv b2 h1
      refine within_bind ?_ fun a' ha' => ?_
      · exact sqRed_le hw hne htop h32 hv b2 h1 (S := 0) fun b t _ _ => within_pure _ _ _
      · simp only [bind_res, squareSelf_res, reduce_res, e, e2, Res.ok_bind, pure_res] at ha'
        cases ha'
        exact ih hp' q1 b1 q2 (lt_trans (Nat.mod_lt _ hm) (val_lt hw)) b3

theorem powBits_red_le (n : Nat) : ∀ {p : Nat} {value result temp : BitsBuffer} {v r : Nat},
    Buf (ms.length + ms.length) value v → Buf (ms.length + ms.length) result r → temp.bits = List.replicate (ms.length + ms.length) 0 →
    v < 𝔹 ^ ms.length → r < 𝔹 ^ ms.length →
    Within (powBits (fun b => reduce b ms) n p (value, result, temp)) ((2 * redBound ms.length + 1) * n) 1 (2 * ms.length) ∧
    ∃ value' result' temp' v' r', (powBits (fun b => reduce b ms) n p (value, result, temp)).res = .ok (value', result', temp') ∧
      Buf (ms.length + ms.length) value' v' ∧ Buf (ms.length + ms.length) result' r' ∧ temp'.bits = List.replicate (ms.length + ms.length) 0 ∧
      v' < 𝔹 ^ ms.length ∧ r' < 𝔹 ^ ms.length := by
  induction n with
  | zero =>
    intro p value result temp v r hv hr ht h1 h2
    exact ⟨(within_pure _ _ _).mono (Nat.zero_le _) (Nat.le_refl _) (Nat.le_refl _), _, _, _, v, r, rfl, hv, hr, ht, h1, h2⟩
  | succ n ih =>
    intro p value result temp v r hv hr ht h1 h2
    obtain ⟨m1, res, tmp, r', e1, b1, b2, b3⟩ := mulIf hw hne htop h32 (p := p) hv hr ht h1 h2
    have hm : 0 < val ms := by
      have := BigInt.val_lt_of_length (xs := []) wordsOk_nil hne htop (List.length_pos_iff.2 hne)
      simpa using this
    have hlt : v * v % val ms < 𝔹 ^ ms.length := lt_trans (Nat.mod_lt _ hm) (val_lt hw)
    obtain ⟨a, t, b, e, e2, q1, q2⟩ := sqRed (m := val ms) (red := fun b => b.reduce ms) (fun b x hb => BitsBuffer.reduce_spec hb hw hne htop) (le_refl _) hv b2 h1
    rw [powBits]
    constructor
    · refine (within_tick_bind (t := redBound ms.length + (redBound ms.length + (2 * redBound ms.length + 1) * n))
        (within_bind m1 fun a ha => ?_)).mono (by rw [Nat.mul_add _ n 1]; omega) (Nat.le_refl _) (Nat.le_refl _)
      rw [e1] at ha
      cases ha
      exact sqRed_le hw hne htop h32 hv b2 h1 fun b t hb ht => (ih hb b1 ht hlt b3).1
    · obtain ⟨value', result', temp', v', r', c⟩ := (ih (p := p / 2) q1 b1 q2 hlt b3).2
      refine ⟨value', result', temp', v', r', ?_, c.2⟩
      rw [bind_res, tick_res, Res.ok_bind, bind_res, e1, Res.ok_bind]
      dsimp only
      rw [bind_res, squareSelf_res, e, Res.ok_bind]
      dsimp only
      rw [bind_res, reduce_res, e2, Res.ok_bind]
      exact c.1

theorem powWords_red_le : ∀ (ps : List Nat) {value result temp : BitsBuffer} {v r : Nat},
    Buf (ms.length + ms.length) value v → Buf (ms.length + ms.length) result r → temp.bits = List.replicate (ms.length + ms.length) 0 →
    v < 𝔹 ^ ms.length → r < 𝔹 ^ ms.length →
    Within (powWords (fun b => reduce b ms) ps (value, result, temp)) ((2 * redBound ms.length + 1) * (32 * ps.length)) 1 (2 * ms.length) ∧
    ∃ value' result' temp' v' r', (powWords (fun b => reduce b ms) ps (value, result, temp)).res = .ok (value', result', temp') ∧
      Buf (ms.length + ms.length) value' v' ∧ Buf (ms.length + ms.length) result' r' ∧ temp'.bits = List.replicate (ms.length + ms.length) 0 ∧
      v' < 𝔹 ^ ms.length ∧ r' < 𝔹 ^ ms.length := by
  intro ps
  induction ps with
  | nil =>
    intro value result temp v r hv hr ht h1 h2
    exact ⟨(within_pure _ _ _).mono (Nat.zero_le _) (Nat.le_refl _) (Nat.le_refl _), _, _, _, v, r, rfl, hv, hr, ht, h1, h2⟩
  | cons p ps ih =>
    intro value result temp v r hv hr ht h1 h2
    obtain ⟨w1, value', result', temp', v', r', e, c1, c2, c3, c4, c5⟩ := powBits_red_le hw hne htop h32 32 (p := p) hv hr ht h1 h2
    obtain ⟨w2, value2, result2, temp2, v2, r2, e2, d⟩ := ih c1 c2 c3 c4 c5
    rw [powWords]
    refine ⟨?_, value2, result2, temp2, v2, r2, ?_, d⟩
    · refine (within_bind w1 fun st hst => ?_).mono (s := (2 * redBound ms.length + 1) * 32 + (2 * redBound ms.length + 1) * (32 * ps.length))
        (by rw [List.length_cons, ← Nat.mul_add]; exact Nat.mul_le_mul_left _ (by omega)) (Nat.le_refl _) (Nat.le_refl _)
      rw [e] at hst
      cases hst
      exact w2
    · rw [bind_res, e, Res.ok_bind, e2]

theorem powCoreMod_le {value : BitsBuffer} {v p L : Nat} (hp : p < 2 ^ L) (h2 : 1 < val ms) (hv : Buf (ms.length + ms.length) value v) (h1 : v < 𝔹 ^ ms.length) :
    Within (powCoreMod p ms value) (6 * ms.length + (2 * redBound ms.length + 1) * L) 1 (2 * ms.length) := by
  have hlen : 1 ≤ ms.length := List.length_pos_iff.2 hne
  obtain ⟨t, e2, k2⟩ := BitsBuffer.ofWord_zero (N := ms.length + ms.length) (by omega)
  obtain ⟨r, e3, k3⟩ := BitsBuffer.ofWord_spec (N := ms.length + ms.length) (w := 1) (by omega) (by decide)
  have h3 : 1 < 𝔹 ^ ms.length := lt_trans h2 (val_lt hw)
  unfold powCoreMod
  dsimp only
  rw [if_pos (show ms.length < ReducerThreshold from h32), hv.size]
  refine (within_bind (t := (ms.length + ms.length) + ((2 * redBound ms.length + 1) * L + (ms.length + ms.length + 0))) (ofWord_within _ _ _ _) fun t' ht' => ?_).mono
    (by omega) (Nat.le_refl _) (Nat.le_refl _)
  rw [ofWord_res, e2] at ht'
  cases ht'
  refine within_bind (ofWord_within _ _ _ _) fun r' hr' => ?_
  rw [ofWord_res, e3] at hr'
  cases hr'
  refine within_bind (powLoop_red_le hw hne htop h32 hp hv k3 k2 h1 h3) fun o ho => ?_
  obtain ⟨o', e4, k4⟩ := powLoop_mod (fun b x hb => BitsBuffer.reduce_spec hb hw hne htop) (le_refl _) (by omega)
    (le_of_lt (val_lt hw)) p hv k3 k2 h1 h3 h2
  rw [powLoop_res (fun b => reduce_res b ms), e4] at ho
  cases ho
  rw [k4.size]
  exact within_tick_bind (t := 0) (within_pure o.bits _ _)

theorem powCoreModWords_le {value : BitsBuffer} {v q L : Nat} {ps : List Nat} (hpw : WordsOk ps) (hp : q < 2 ^ L) (h2 : 1 < val ms)
    (hv : Buf (ms.length + ms.length) value v) (h1 : v < 𝔹 ^ ms.length) :
    Within (powCoreModWords (ps ++ [q]) ms value) (6 * ms.length + (2 * redBound ms.length + 1) * (32 * ps.length + L)) 1 (2 * ms.length) := by
  have hlen : 1 ≤ ms.length := List.length_pos_iff.2 hne
  obtain ⟨t, e2, k2⟩ := BitsBuffer.ofWord_zero (N := ms.length + ms.length) (by omega)
  obtain ⟨r, e3, k3⟩ := BitsBuffer.ofWord_spec (N := ms.length + ms.length) (w := 1) (by omega) (by decide)
  have h3 : 1 < 𝔹 ^ ms.length := lt_trans h2 (val_lt hw)
  unfold powCoreModWords
  dsimp only
  rw [if_pos (show ms.length < ReducerThreshold from h32), hv.size]
  refine (within_bind (t := (ms.length + ms.length) + ((2 * redBound ms.length + 1) * (32 * ps.length) + ((2 * redBound ms.length + 1) * L + (ms.length + ms.length + 0)))) (ofWord_within _ _ _ _) fun t' ht' => ?_).mono
    (by rw [Nat.mul_add _ (32 * ps.length)]; omega) (Nat.le_refl _) (Nat.le_refl _)
  rw [ofWord_res, e2] at ht'
  cases ht'
  refine within_bind (ofWord_within _ _ _ _) fun r' hr' => ?_
  rw [ofWord_res, e3] at hr'
  cases hr'
  rw [idx_getD (by simp), lift_ok_bind, List.dropLast_concat, show (ps ++ [q])[(ps ++ [q]).length - 1]?.getD 0 = q by simp]
  have hred : Reduces (ms.length + ms.length) (val ms) (fun b => b.reduce ms) :=
    fun b x hb => BitsBuffer.reduce_spec hb hw hne htop
  obtain ⟨value2, result2, temp2, v2, r2, d1, d2, d3, d4, d5, d6, d7, d8⟩ := powWords_mod hred (le_refl _) (by omega)
    (le_of_lt (val_lt hw)) hpw hv k3 k2 h1 h2
  have h6 := lt_trans d6 (val_lt hw)
  refine within_bind (powWords_red_le hw hne htop h32 ps hv k3 k2 h1 h3).1 fun st hst => ?_
  rw [powWords_res (fun b => reduce_res b ms), d1] at hst
  cases hst
  dsimp only
  refine within_bind (powLoop_red_le hw hne htop h32 hp d2 d3 d4 d5 h6) fun o ho => ?_
  obtain ⟨o', e4, k4⟩ := powLoop_mod hred (le_refl _) (by omega) (le_of_lt (val_lt hw)) q d2 d3 d4 d5 h6 d6
  rw [powLoop_res (fun b => reduce_res b ms), e4] at ho
  cases ho
  rw [k4.size]
  exact within_tick_bind (t := 0) (within_pure o.bits _ _)

end

theorem modPowBase_le {xs ms : List Nat} (hx : WordsOk xs) (hw : WordsOk ms) (hne : ms ≠ []) (d : Nat) {w : Nat} (hW : 2 * xs.length ≤ w) :
    Within (modPowBase xs ms) (xs.length * (2 * ms.length + 8) + 2 * ms.length) d w := by
  unfold modPowBase
  refine within_lift_bind fun size hs => ?_
  unfold sizeInt at hs
  split_ifs at hs
  cases hs
  have e : xs.length * (2 * ms.length + 8) = xs.length * (2 * ms.length + 4) + 4 * xs.length := by ring
  by_cases h : xs.length > ms.length
  · rw [if_pos h]
    refine (within_hold (w := w - xs.length) xs.length (within_bind (remainderVec_within d (w - xs.length) hx hw) fun t ht => ?_)).mono
      (s := xs.length + (xs.length + 1 - ms.length) * (2 * ms.length + 4) + (3 * xs.length + (ms.length + ms.length))) ?_ (Nat.le_refl _) (by omega)
    · rw [remainderVec_res] at ht
      have hl := remainderVec_length ht
      rw [← hl]
      exact ofWords_within _ _ _ (by omega)
    · have h0 := List.length_pos_iff.2 hne
      have : (xs.length + 1 - ms.length) * (2 * ms.length + 4) ≤ xs.length * (2 * ms.length + 4) := Nat.mul_le_mul_right _ (by omega)
      omega
  · rw [if_neg h]
    exact (ofWords_within _ _ _ (by omega)).mono (by omega) (Nat.le_refl _) (Nat.le_refl _)

theorem powModWord_within (d w : Nat) {L m : Nat} : ∀ {p v r : Nat}, p < 2 ^ L → Within (powModWord p m v r) L d w := by
  induction L with
  | zero =>
    intro p l r h
    rw [powModWord, dif_pos (by simpa using h)]
    exact within_lift _ _ _
  | succ L ih =>
    intro p l r h
    rw [powModWord]
    by_cases h0 : p = 0
    · rw [dif_pos h0]
      exact (within_lift _ _ _).mono (Nat.zero_le _) (Nat.le_refl _) (Nat.le_refl _)
    rw [dif_neg h0]
    refine (within_tick_bind (t := L) ?_).mono (by omega) (Nat.le_refl _) (Nat.le_refl _)
    refine within_lift_bind fun _ _ => within_lift_bind fun _ _ => ih ?_
    rw [pow_succ] at h
    omega

theorem powModBits_within (d w m : Nat) : ∀ (n p : Nat) (st : Nat × Nat), Within (powModBits m n p st) n d w
  | 0, _, _ => within_pure _ _ _
  | n + 1, p, (v, r) => by
    rw [powModBits]
    refine (within_tick_bind (t := n) ?_).mono (by omega) (Nat.le_refl _) (Nat.le_refl _)
    exact within_lift_bind fun _ _ => within_lift_bind fun _ _ => powModBits_within d w m n _ _

theorem powModWords_within (d w m : Nat) {q L : Nat} (hq : q < 2 ^ L) : ∀ (ps : List Nat) (st : Nat × Nat), Within (powModWords m (ps ++ [q]) st) (32 * ps.length + L) d w
  | [], (v, r) => by
    rw [List.nil_append, powModWords]
    exact (powModWord_within d w hq).mono (by omega) (Nat.le_refl _) (Nat.le_refl _)
  | p :: ps, st => by
    rw [List.cons_append, powModWords]
    · refine (within_bind (powModBits_within d w m 32 p st) fun st' _ => powModWords_within d w m hq ps st').mono
        (by rw [List.length_cons]; omega) (Nat.le_refl _) (Nat.le_refl _)
    · simp

/-- The bits of the last word, when the number has at most `L` bits. -/
theorem last_bits {ps : List Nat} {q L : Nat} (hq : q ≠ 0) (h : val (ps ++ [q]) < 2 ^ L) : ∃ l, 32 * ps.length + l = L ∧ q < 2 ^ l := by
  rw [val_append, val_singleton] at h
  have e : 𝔹 ^ ps.length = 2 ^ (32 * ps.length) := by rw [Nat.pow_mul]
  rw [e] at h
  have h1 : 32 * ps.length ≤ L := by
    by_contra hc
    have : 2 ^ L ≤ 2 ^ (32 * ps.length) := Nat.pow_le_pow_right (by decide) (by omega)
    have : 2 ^ (32 * ps.length) * 1 ≤ 2 ^ (32 * ps.length) * q := Nat.mul_le_mul_left _ (by omega)
    omega
  refine ⟨L - 32 * ps.length, by omega, ?_⟩
  have e2 : 2 ^ L = 2 ^ (32 * ps.length) * 2 ^ (L - 32 * ps.length) := by rw [← Nat.pow_add]; congr 1; omega
  rw [e2] at h
  exact Nat.lt_of_mul_lt_mul_left (lt_of_le_of_lt (Nat.le_add_left _ _) h)

/-- An exponent of more than one word: its last word. -/
theorem exponent_last {e : BigInt} {n L : Nat} (he : e.Denotes n) (hn : n < 2 ^ L) (h : e.bits ≠ []) :
    ∃ ps q l, e.bits = ps ++ [q] ∧ WordsOk ps ∧ 32 * ps.length + l = L ∧ q < 2 ^ l := by
  rcases he.shape with ⟨h', -, -⟩ | ⟨s, ws, rfl, hs, hne, hw, ht, hv, hz⟩
  · exact absurd (by rw [h']) h
  · obtain ⟨ps, q, hb⟩ : ∃ ps q, ws = ps ++ [q] := by
      rcases List.eq_nil_or_concat ws with h | ⟨l, q, h⟩
      · exact absurd h hne
      · exact ⟨l, q, by rw [h, List.concat_eq_append]⟩
    have hq : q ≠ 0 := by
      rintro rfl
      exact ht (by rw [hb]; simp)
    have hval : val ws = n := by
      rcases hs with rfl | rfl <;> omega
    obtain ⟨l, a, b⟩ := last_bits (ps := ps) (L := L) hq (by rw [← hb, hval]; exact hn)
    exact ⟨ps, q, l, hb, (wordsOk_append.1 (hb ▸ hw)).1, a, b⟩

theorem exponent_word {e : BigInt} {n L p : Nat} (he : e.Denotes n) (hn : n < 2 ^ L) (h : e.bits = []) (hp : cabs e.sign = .ok p) : p < 2 ^ L := by
  have h1 : e.sign = n := by have := he.2; unfold BigInt.toInt at this; rw [h] at this; simpa using this
  unfold cabs at hp
  split_ifs at hp
  cases hp
  omega

/-- `mod_pow` with a modulus in the `int` range. -/
theorem modPow_word_within (a : BigInt) {e m : BigInt} {n L : Nat} (he : e.Denotes n) (hn : n < 2 ^ L) (hm : m.bits = []) :
    Within (modPow a e m) (a.bits.length + L) 0 0 := by
  unfold modPow
  by_cases h1 : e.sign < 0
  · rw [if_pos h1]
    exact (within_lift _ _ _).mono (Nat.zero_le _) (Nat.le_refl _) (Nat.le_refl _)
  rw [if_neg h1]
  refine within_lift_bind fun _ _ => within_lift_bind fun _ _ => within_lift_bind fun _ _ => within_lift_bind fun ev _ => ?_
  dsimp only
  rw [if_pos hm]
  refine within_lift_bind fun ms _ => within_bind ?_ fun v _ => ?_
  · by_cases h : a.bits = []
    · rw [if_pos h]
      exact (within_lift _ _ _).mono (Nat.zero_le _) (Nat.le_refl _) (Nat.le_refl _)
    · rw [if_neg h]
      exact remainderWord_within _ _ _ _
  · refine within_bind (t := 0) ?_ fun _ _ => within_lift _ _ _
    by_cases h : e.bits = []
    · rw [if_pos h]
      exact within_lift_bind fun p hp => powModWord_within _ _ (exponent_word he hn h hp)
    · rw [if_neg h]
      obtain ⟨ps, q, l, hb, -, h2, h3⟩ := exponent_last he hn h
      rw [hb, ← h2]
      exact powModWords_within _ _ _ h3 _ _

/-- `mod_pow` with a modulus of `1 ≤ m < 32` words. -/
theorem modPow_within {a e m : BigInt} {n L : Nat} (ha : a.Valid) (hla : a.bits.length < 2147483648) (he : e.Denotes n) (hn : n < 2 ^ L)
    (hm : m.Valid) (hmb : m.bits ≠ []) (h32 : m.bits.length < 32) :
    Within (modPow a e m) (a.bits.length * (2 * m.bits.length + 8) + 14 * m.bits.length + (2 * redBound m.bits.length + 1) * L) 1
      (2 * a.bits.length + 10 * m.bits.length) := by
  have hlen : 1 ≤ m.bits.length := List.length_pos_iff.2 hmb
  have h2 : 1 < val m.bits := by
    rcases BigInt.Denotes.shape (z := m.toInt) ⟨hm, rfl⟩ with ⟨h', -, -⟩ | ⟨s, ws, h', hs, hne, hw, ht, hv, hz⟩
    · exact absurd (by rw [h']) hmb
    · have : m.bits = ws := by rw [h']
      rw [this]
      omega
  unfold modPow
  by_cases h1 : e.sign < 0
  · rw [if_pos h1]
    exact (within_lift _ _ _).mono (Nat.zero_le _) (Nat.le_refl _) (Nat.le_refl _)
  rw [if_neg h1]
  refine within_lift_bind fun _ _ => within_lift_bind fun _ _ => within_lift_bind fun _ _ => within_lift_bind fun ev _ => ?_
  dsimp only
  rw [if_neg hmb]
  refine (within_hold (w := 2 * a.bits.length + 2 * m.bits.length) (8 * m.bits.length) (within_bind (s := a.bits.length * (2 * m.bits.length + 8) + 2 * m.bits.length)
    (t := 6 * m.bits.length + (2 * redBound m.bits.length + 1) * L + 6 * m.bits.length) ?_ fun v hv => ?_)).mono (by omega) (Nat.le_refl _) (by omega)
  · by_cases h : a.bits = []
    · rw [if_pos h]
      refine within_lift_bind fun s hs => within_lift_bind fun size hsz => ?_
      unfold sizeInt at hsz
      split_ifs at hsz
      cases hsz
      exact (ofWord_within _ _ _ _).mono (by omega) (Nat.le_refl _) (Nat.le_refl _)
    · rw [if_neg h]
      exact modPowBase_le ha.words hm.words hmb _ (by omega)
  · obtain ⟨x, k1, k2⟩ : ∃ x, Buf (m.bits.length + m.bits.length) v x ∧ x < 𝔹 ^ m.bits.length := by
      by_cases h : a.bits = []
      · rw [if_pos h] at hv
        simp only [bind_res, lift_res] at hv
        obtain ⟨s, hs, hv⟩ := Res.bind_eq_ok hv
        obtain ⟨size, hsz, hv⟩ := Res.bind_eq_ok hv
        unfold sizeInt at hsz
        split_ifs at hsz
        cases hsz
        have hs := cabs_lt ha hs
        obtain ⟨b, e, k⟩ := BitsBuffer.ofWord_spec (N := m.bits.length + m.bits.length) (by omega) hs
        rw [ofWord_res, e] at hv
        cases hv
        refine ⟨s, k, lt_of_lt_of_le hs ?_⟩
        exact Nat.le_self_pow (by omega) _
      · rw [if_neg h, modPowBase_res] at hv
        obtain ⟨b, e, k⟩ := modPowBase_spec ha.words hm.words hmb hm.topNonzero hla (by omega)
        rw [e] at hv
        cases hv
        refine ⟨_, k, ?_⟩
        by_cases h' : a.bits.length > m.bits.length
        · rw [if_pos h']
          exact lt_trans (Nat.mod_lt _ (by omega)) (val_lt hm.words)
        · rw [if_neg h']
          exact lt_of_lt_of_le (val_lt ha.words) (Nat.pow_le_pow_right (by decide) (by omega))
    refine within_bind ?_ fun bits hb => ?_
    · by_cases h : e.bits = []
      · rw [if_pos h]
        exact within_lift_bind fun p hp => (powCoreMod_le hm.words hmb hm.topNonzero h32 (exponent_word he hn h hp) h2 k1 k2).mono (Nat.le_refl _) (Nat.le_refl _) (by omega)
      · rw [if_neg h]
        obtain ⟨ps, q, l, hb, hw, h3, h4⟩ := exponent_last he hn h
        rw [hb, ← h3]
        exact (powCoreModWords_le hm.words hmb hm.topNonzero h32 hw h4 h2 k1 k2).mono (Nat.le_refl _) (Nat.le_refl _) (by omega)
    · have hlb : bits.length = m.bits.length + m.bits.length := by
        by_cases h : e.bits = []
        · rw [if_pos h, bind_res, lift_res] at hb
          obtain ⟨p, hp, hb⟩ := Res.bind_eq_ok hb
          obtain ⟨o, e, k, -⟩ := powCoreMod_spec hm.words hmb hm.topNonzero h32 h2 k1 k2 p
          rw [powCoreMod_res, e] at hb
          cases hb
          exact k
        · rw [if_neg h] at hb
          obtain ⟨o, e, k, -⟩ := powCoreModWords_spec hm.words hmb hm.topNonzero h32 h2 k1 k2 he.1.words h
          rw [powCoreModWords_res, e] at hb
          cases hb
          exact k
      have := ofMagnitude_within 1 (2 * a.bits.length) bits (decide (a.sign < 0) && !ev)
      rw [hlb] at this
      exact this.mono (by omega) (Nat.le_refl _) (by omega)

/-! ### Bounds from below -/

theorem apply_steps {N m : Nat} {self temp : BitsBuffer} {p : BitsBuffer × BitsBuffer} (h1 : self.bits.length = N) (h2 : temp.bits.length = N)
    (h : self.apply temp m = .ok p) : 3 * N ≤ (apply self temp m).steps := by
  unfold BitsBuffer.apply at h
  obtain ⟨s, hs, h⟩ := Res.bind_eq_ok h
  unfold apply
  rw [steps_bind (a := s) hs, steps_bind (a := ()) rfl]
  show 3 * N ≤ 0 + (self.length + ((_ : Counted _).steps + temp.bits.length))
  rw [steps_bind (a := ()) rfl]
  show 3 * N ≤ 0 + (self.length + ((self.bits.length + temp.bits.length + (_ : Counted _).steps) + temp.bits.length))
  omega

theorem multiplySelf_steps {N x y : Nat} {self value temp : BitsBuffer} (hs : Buf N self x) (hv : Buf N value y)
    (ht : temp.bits = List.replicate N 0) (hl : self.length + value.length ≤ N) : 3 * N ≤ (multiplySelf self value temp).steps := by
  obtain ⟨r, t, e, -, -⟩ := BitsBuffer.multiplySelf_spec hs hv ht hl
  unfold BitsBuffer.multiplySelf at e
  obtain ⟨o, ho, e⟩ := Res.bind_eq_ok e
  have ho' : (if self.length < value.length then
      multiplyMem value.bits value.length self.bits self.length temp.bits (self.length + value.length)
    else
      multiplyMem self.bits self.length value.bits value.length temp.bits (self.length + value.length)).res = .ok o := by
    by_cases h : self.length < value.length
    · rw [if_pos h] at ho ⊢; rw [multiplyMem_res]; exact ho
    · rw [if_neg h] at ho ⊢; rw [multiplyMem_res]; exact ho
  unfold multiplySelf
  rw [steps_bind ho']
  refine (apply_steps hs.size ?_ e).trans (Nat.le_add_left _ _)
  show o.length = N
  have hlen : ∀ {l r b o : List Nat} {n m k : Nat}, BitsBuffer.multiplyMem l n r m b k = .ok o → o.length = b.length := by
    intro l r b o n m k h
    unfold BitsBuffer.multiplyMem at h
    obtain ⟨_, -, h⟩ := Res.bind_eq_ok h
    obtain ⟨_, -, h⟩ := Res.bind_eq_ok h
    obtain ⟨b', hb, h⟩ := Res.bind_eq_ok h
    obtain ⟨o', ho, h⟩ := Res.bind_eq_ok h
    cases h
    have := slice_length hb
    rw [List.length_append, List.length_drop, mulCore_length ho]
    omega
  by_cases h : self.length < value.length
  · rw [if_pos h] at ho
    rw [hlen ho, ht, List.length_replicate]
  · rw [if_neg h] at ho
    rw [hlen ho, ht, List.length_replicate]

theorem squareSelf_steps {N x : Nat} {self temp : BitsBuffer} (hs : Buf N self x)
    (ht : temp.bits = List.replicate N 0) (hl : self.length + self.length ≤ N) : 3 * N ≤ (squareSelf self temp).steps := by
  obtain ⟨r, t, e, -, -⟩ := BitsBuffer.squareSelf_spec hs ht hl
  unfold BitsBuffer.squareSelf at e
  obtain ⟨v, h1, e⟩ := Res.bind_eq_ok e
  obtain ⟨b, h2, e⟩ := Res.bind_eq_ok e
  obtain ⟨o, h3, e⟩ := Res.bind_eq_ok e
  unfold squareSelf
  rw [steps_bind (a := v) h1, steps_bind (a := b) h2, steps_bind (a := o) (by rw [sqCore_res]; exact h3)]
  have := apply_steps (N := N) hs.size (by
    show (o ++ temp.bits.drop _).length = N
    rw [List.length_append, List.length_drop, ht, List.length_replicate, sqCore_length h3, (slice_length h2).1]
    omega) e
  omega

/-- Every bit of the exponent costs the three copies of at least one `Apply`. -/
theorem powLoop_low {N : Nat} {L : Nat} : ∀ {p : Nat} {value result temp : BitsBuffer} {v r V R : Nat},
    2 ^ L ≤ p → Buf N value v → Buf N result r → temp.bits = List.replicate N 0 → v < 𝔹 ^ V → r < 𝔹 ^ R → R + p * V ≤ N →
    3 * N * (L + 1) ≤ (powLoop (fun b => pure b) p value result temp).steps := by
  induction L with
  | zero =>
    intro p value result temp v r V R hp hv hr ht h1 h2 h3
    have hp : 1 ≤ p := hp
    have hvl := hv.len_le h1
    have hrl := hr.len_le h2
    have hp1V : 1 * V ≤ p * V := Nat.mul_le_mul_right _ hp
    rw [powLoop, dif_neg (by omega), Nat.zero_add, Nat.mul_one]
    rw [steps_bind (a := ()) rfl]
    refine le_trans ?_ (Nat.le_add_left _ _)
    by_cases h : p % 2 = 1
    · refine le_trans ?_ (steps_le_bind _ _)
      rw [if_pos h]
      exact (multiplySelf_steps hr hv ht (by omega)).trans (steps_le_bind _ _)
    · rw [steps_bind (a := (result, temp)) (by rw [if_neg h, pure_res])]
      refine le_trans ?_ (Nat.le_add_left _ _)
      dsimp only
      refine le_trans ?_ (steps_le_bind _ _)
      rw [if_pos (by omega)]
      have hp2V : 2 * V ≤ p * V := Nat.mul_le_mul_right _ (by omega)
      exact (squareSelf_steps hv ht (by omega)).trans (steps_le_bind _ _)
  | succ L ih =>
    intro p value result temp v r V R hp hv hr ht h1 h2 h3
    rw [pow_succ] at hp
    have hL : 1 ≤ 2 ^ L := Nat.one_le_two_pow
    have hvl := hv.len_le h1
    have hrl := hr.len_le h2
    have hdiv := Nat.div_add_mod p 2
    have hpl : p * V = (p / 2) * (V + V) + (p % 2) * V := by
      conv_lhs => rw [← hdiv]
      ring
    have hp2V : 2 * V ≤ p * V := Nat.mul_le_mul_right _ (by omega)
    obtain ⟨res, tmp, R', e1, b1, b2, b3, b4⟩ : ∃ res tmp R', (if p % 2 = 1 then do
          let (r, t) ← multiplySelf result value temp
          let r ← (pure r : Counted BitsBuffer)
          pure (r, t)
        else pure (result, temp) : Counted (BitsBuffer × BitsBuffer)).res = .ok (res, tmp) ∧ Buf N res (r * v ^ (p % 2)) ∧ tmp.bits = List.replicate N 0 ∧
          r * v ^ (p % 2) < 𝔹 ^ R' ∧ R' = R + p % 2 * V := by
      by_cases h : p % 2 = 1
      · obtain ⟨a, t, e, k1, k2⟩ := BitsBuffer.multiplySelf_spec hr hv ht (by omega)
        refine ⟨a, t, R + V, ?_, by rw [h, pow_one]; exact k1, k2, ?_, by rw [h]; omega⟩
        · rw [if_pos h]
          simp only [bind_res, multiplySelf_res, e, Res.ok_bind, pure_res]
        · rw [h, pow_one, pow_add]; exact Nat.mul_lt_mul'' h2 h1
      · have h' : p % 2 = 0 := by omega
        exact ⟨result, temp, R, by rw [if_neg h, pure_res], by rw [h']; simpa using hr, ht, by rw [h']; simpa using h2, by rw [h']; omega⟩
    rw [powLoop, dif_neg (by omega), steps_bind (a := ()) rfl, steps_bind e1]
    dsimp only
    obtain ⟨a, t, e, k1, k2⟩ := BitsBuffer.squareSelf_spec hv b2 (by omega)
    have e2 : (if p ≠ 1 then do
        let (v, t) ← squareSelf value tmp
        let v ← (pure v : Counted BitsBuffer)
        pure (v, t)
      else pure (value, tmp) : Counted (BitsBuffer × BitsBuffer)).res = .ok (a, t) := by
      rw [if_pos (by omega)]
      simp only [bind_res, squareSelf_res, e, Res.ok_bind, pure_res]
    rw [steps_bind e2]
    dsimp only
    have g1 : 3 * N ≤ (if p ≠ 1 then do
        let (v, t) ← squareSelf value tmp
        let v ← (pure v : Counted BitsBuffer)
        pure (v, t)
      else pure (value, tmp) : Counted (BitsBuffer × BitsBuffer)).steps := by
      rw [if_pos (by omega)]
      exact (squareSelf_steps hv b2 (by omega)).trans (steps_le_bind _ _)
    have g2 := ih (p := p / 2) (V := V + V) (by omega) k1 b1 k2 (by rw [pow_add]; exact Nat.mul_lt_mul'' h1 h1) b3 (by omega)
    calc 3 * N * (L + 1 + 1) = 3 * N + 3 * N * (L + 1) := by ring
      _ ≤ _ := (Nat.add_le_add g1 g2).trans ((Nat.le_add_left _ _).trans (Nat.le_add_left _ _))

theorem powCalc_low {mkc : Nat → Counted BitsBuffer} {mk : Nat → Res BitsBuffer} {v len p L N : Nat} (hres : ∀ n, (mkc n).res = mk n)
    (hp : 2 ^ L ≤ p) (hN0 : N = 1 + p * len) (hN : N < 2147483647) (hv : v < 𝔹 ^ len) (hmk : ∀ N, 0 < N → len ≤ N → ∃ b, mk N = .ok b ∧ Buf N b v) :
    3 * N * (L + 1) + 3 * N ≤ (powCalc mkc len p).steps := by
  have hL : 1 ≤ 2 ^ L := Nat.one_le_two_pow
  have hl : 1 * len ≤ p * len := Nat.mul_le_mul_right _ (by omega)
  unfold powCalc
  rw [steps_bind (a := N) (by rw [powBound_res, powBound_spec p (by decide), ← hN0, if_pos hN])]
  show _ ≤ _ + (_ >>= _ : Counted _).steps
  obtain ⟨b, e1, k1⟩ := hmk N (by omega) (by omega)
  obtain ⟨t, e2, k2⟩ := BitsBuffer.ofWord_zero (N := N) (by omega)
  obtain ⟨r, e3, k3⟩ := BitsBuffer.ofWord_spec (N := N) (w := 1) (by omega) (by decide)
  obtain ⟨o, e4, k4⟩ := powLoop_id p k1 k3 k2 hv (R := 1) (by decide) (by omega)
  have g := powLoop_low hp k1 k3 k2 hv (R := 1) (by decide) (by omega)
  rw [steps_bind (a := b) (by rw [hres, e1]), steps_bind (a := t) (by rw [ofWord_res, e2]), steps_bind (a := r) (by rw [ofWord_res, e3]),
    steps_bind (a := o) (by rw [powLoop_res (red := fun b => .ok b) (fun _ => rfl), e4]), steps_bind (a := ()) rfl]
  have s1 : (ofWord N 0).steps = N := rfl
  have s2 : (ofWord N 1).steps = N := rfl
  have s3 : (tick o.bits.length).steps = N := k4.size
  rw [s1, s2, s3]
  omega

theorem pow_low {a : BigInt} {x : Int} (ha : a.Denotes x) (hx : 2 ≤ x.natAbs) (hl : a.bits.length < 2147483648) {p L N : Nat} (hN0 : N = 1 + p * Max.max 1 a.bits.length)
    (hN : N < 2147483647) (hp2 : 2 ≤ p) (hp : 2 ^ L ≤ p) : 3 * N * (L + 2) ≤ (pow a p).steps := by
  have hs : a.bits = [] → a.sign = x := by
    intro h
    have := ha.2
    unfold BigInt.toInt at this
    rw [h] at this
    simpa using this
  unfold pow
  rw [if_neg (show ¬ (p : Int) < 0 by omega), ha.assertValid, lift_ok_bind, if_neg (by omega), if_neg (by omega),
    if_neg (fun h => by have := hs h.1; omega), if_neg (fun h => by have := hs h.1; omega), if_neg (fun h => by have := hs h.1; omega)]
  rw [Int.toNat_natCast, show 3 * N * (L + 2) = 3 * N * (L + 1) + 3 * N by ring]
  refine le_trans ?_ (steps_le_bind _ _)
  by_cases h5 : a.bits = []
  · rw [if_pos h5]
    have hr := ha.1.signRange
    unfold IntRange at hr
    obtain ⟨s, hs'⟩ : ∃ s, cabs a.sign = .ok s := by
      rcases ha.shape with ⟨rfl, h1, h2⟩ | ⟨s, ws, rfl, -, hne, -⟩
      · exact ⟨_, cabs_ok (by dsimp only; omega)⟩
      · exact absurd h5 hne
    rw [hs', lift_ok_bind]
    rw [h5, List.length_nil, Nat.max_zero] at hN0
    exact powCalc_low (mk := fun size => BitsBuffer.ofWord size s) (v := s) (fun _ => rfl) hp hN0 hN (by have := cabs_lt ha.1 hs'; omega)
      (fun N h _ => BitsBuffer.ofWord_spec h (cabs_lt ha.1 hs'))
  · rw [if_neg h5]
    have hlen : Max.max 1 a.bits.length = a.bits.length := by
      have := List.length_pos_iff.2 h5
      omega
    rw [hlen] at hN0
    rw [sizeInt, if_pos hl, lift_ok_bind]
    exact powCalc_low (mk := fun size => BitsBuffer.ofWords size a.bits) (v := val a.bits) (fun _ => rfl) hp hN0 hN (val_lt ha.1.words)
      (fun N _ h => BitsBuffer.ofWords_spec ha.1.words hl ((trimLen_le _).trans h))

theorem powModWord_low {m : Nat} (hm : m ≠ 0) {L : Nat} : ∀ {p v r : Nat}, 2 ^ L ≤ p → L + 1 ≤ (powModWord p m v r).steps := by
  induction L with
  | zero =>
    intro p v r h
    have h : 1 ≤ p := h
    rw [powModWord, dif_neg (by omega)]
    exact steps_le_bind (tick 1) _
  | succ L ih =>
    intro p v r h
    rw [pow_succ] at h
    have hL : 1 ≤ 2 ^ L := Nat.one_le_two_pow
    rw [powModWord, dif_neg (by omega), steps_bind (a := ()) rfl, if_neg hm, if_neg hm]
    obtain ⟨r', hr'⟩ : ∃ r', (if p % 2 = 1 then Res.ok (u64 (r * v) % m) else .ok r) = .ok r' := by
      by_cases h' : p % 2 = 1
      · exact ⟨_, if_pos h'⟩
      · exact ⟨_, if_neg h'⟩
    rw [hr', lift_ok_bind, if_pos (by omega), lift_ok_bind]
    have := ih (p := p / 2) (v := u64 (v * v) % m) (r := r') (by omega)
    show _ ≤ 1 + _
    omega

theorem powModBits_low {m : Nat} (hm : m ≠ 0) : ∀ (n p : Nat) (st : Nat × Nat), ∃ st', (powModBits m n p st).res = .ok st' ∧ (powModBits m n p st).steps = n
  | 0, _, st => ⟨st, rfl, rfl⟩
  | n + 1, p, (v, r) => by
    rw [powModBits, if_neg hm, if_neg hm]
    obtain ⟨r', hr'⟩ : ∃ r', (if p % 2 = 1 then Res.ok (u64 (r * v) % m) else .ok r) = .ok r' := by
      by_cases h' : p % 2 = 1
      · exact ⟨_, if_pos h'⟩
      · exact ⟨_, if_neg h'⟩
    rw [hr', lift_ok_bind, lift_ok_bind]
    obtain ⟨st', h1, h2⟩ := powModBits_low hm n (p / 2) (u64 (v * v) % m, r')
    refine ⟨st', ?_, ?_⟩
    · rw [bind_res]
      exact h1
    · rw [steps_bind (a := ()) rfl, h2]
      exact Nat.add_comm 1 n

theorem powModWords_low {m : Nat} (hm : m ≠ 0) {q L : Nat} (hq : 2 ^ L ≤ q) :
    ∀ (ps : List Nat) (st : Nat × Nat), 32 * ps.length + (L + 1) ≤ (powModWords m (ps ++ [q]) st).steps
  | [], (v, r) => by
    rw [List.nil_append, powModWords]
    exact (Nat.zero_add _).le.trans (powModWord_low hm hq)
  | p :: ps, st => by
    rw [List.cons_append, powModWords]
    · obtain ⟨st', h1, h2⟩ := powModBits_low hm 32 p st
      rw [steps_bind h1, h2, List.length_cons]
      have := powModWords_low hm hq ps st'
      omega
    · simp

theorem remWordLoop_low {y : Nat} (hy0 : 0 < y) (hy : y < 4294967296) : ∀ {xs : List Nat}, WordsOk xs → xs.length ≤ (remWordLoop xs y).steps
  | [], _ => Nat.zero_le _
  | x :: xs, h => by
    have h := wordsOk_cons.1 h
    rw [remWordLoop, steps_bind (a := val xs % y) (by rw [remWordLoop_res]; exact remWordLoop_spec h.2 hy0 hy), List.length_cons]
    exact Nat.add_le_add (remWordLoop_low hy0 hy h.2) (steps_le_bind (tick 1) _)

/-- `mod_pow` with a modulus in the `int` range, from below. -/
theorem modPow_word_low {a e m : BigInt} {x z : Int} {n L : Nat} (ha : a.Denotes x) (he : e.Denotes n) (hn : 2 ^ L ≤ n)
    (hm : m.Denotes z) (hz : z ≠ 0) (hmb : m.bits = []) (hla : a.bits.length < 2147483648) :
    a.bits.length + (L + 1) ≤ (modPow a e m).steps := by
  have hms : m.sign = z := by
    have := hm.2
    unfold BigInt.toInt at this
    rw [hmb] at this
    simpa using this
  have hL : 1 ≤ 2 ^ L := Nat.one_le_two_pow
  have hword : ∀ {b : BigInt} {y : Int}, b.Denotes y → b.bits = [] → cabs b.sign = .ok y.natAbs := by
    intro b y hb h
    rcases hb.shape with ⟨rfl, h1, h2⟩ | ⟨s, ws, rfl, -, hne, -⟩
    · exact cabs_ok (by dsimp only; omega)
    · exact absurd h hne
  unfold modPow
  rw [if_neg (by
    rcases he.shape with ⟨rfl, h1, h2⟩ | ⟨s, ws, rfl, hs, hne, hw, ht, hv, hz⟩
    · dsimp only; omega
    · dsimp only
      rcases hs with rfl | rfl <;> omega)]
  rw [ha.assertValid, he.assertValid, hm.assertValid, lift_ok_bind, lift_ok_bind, lift_ok_bind]
  obtain ⟨ev, hev⟩ : ∃ ev, e.isEven = .ok ev := ⟨_, BigInt.isEven_spec he⟩
  rw [hev, lift_ok_bind]
  dsimp only
  rw [if_pos hmb, hword hm hmb, lift_ok_bind]
  have hzn : z.natAbs ≠ 0 := by omega
  have g1 : ∃ v, (if a.bits = [] then lift (cabs a.sign) else remainderWord a.bits z.natAbs).res = .ok v ∧
      a.bits.length ≤ (if a.bits = [] then lift (cabs a.sign) else remainderWord a.bits z.natAbs).steps := by
    by_cases h : a.bits = []
    · rw [if_pos h, hword ha h]
      exact ⟨_, rfl, by simp [h]⟩
    · rw [if_neg h]
      have hr := hm.1.signRange
      unfold IntRange at hr
      have hs := remainderWord_spec ha.1.words h hla (y := z.natAbs) (by omega) (by omega)
      refine ⟨_, (remainderWord_res _ _).trans hs, ?_⟩
      unfold remainderWord
      rw [cassert_pos h, lift_ok_bind, sizeInt_ok hla, lift_ok_bind]
      exact (remWordLoop_low (by omega) (by omega) ha.1.words).trans (steps_le_bind _ _)
  obtain ⟨v, g1, g2⟩ := g1
  rw [steps_bind g1]
  refine Nat.add_le_add g2 (le_trans ?_ (steps_le_bind _ _))
  by_cases h : e.bits = []
  · rw [if_pos h, hword he h, lift_ok_bind]
    exact powModWord_low hzn (by simpa using hn)
  · rw [if_neg h]
    obtain ⟨ps, q, hb, hw, hq, hv⟩ : ∃ ps q, e.bits = ps ++ [q] ∧ WordsOk ps ∧ q < 𝔹 ∧ val ps + 𝔹 ^ ps.length * q = n := by
      rcases he.shape with ⟨h', -, -⟩ | ⟨s, ws, rfl, hs, hne, hw, ht, hv, hz⟩
      · exact absurd (by rw [h']) h
      · rcases List.eq_nil_or_concat ws with h | ⟨ps, q, h⟩
        · exact absurd h hne
        · rw [List.concat_eq_append] at h
          have h' := wordsOk_append.1 (h ▸ hw)
          have e : val ws = n := by rcases hs with rfl | rfl <;> omega
          rw [h, val_append, val_singleton] at e
          exact ⟨ps, q, h, h'.1, h'.2 q (List.mem_singleton.2 rfl), e⟩
    have hq0 : q ≠ 0 := by
      rintro rfl
      rcases he.shape with ⟨h', -, -⟩ | ⟨s, ws, rfl, hs, hne, hw, ht, hv, hz⟩
      · exact absurd (by rw [h']) h
      · exact ht (by dsimp only at hb; rw [hb]; simp)
    have h1 := val_lt hw
    have e1 : 𝔹 ^ ps.length = 2 ^ (32 * ps.length) := by rw [Nat.pow_mul]
    rw [e1] at hv h1
    rw [hb]
    by_cases hc : L < 32 * ps.length
    · exact le_trans (by omega) (powModWords_low hzn (L := 0) (show 2 ^ 0 ≤ q by rw [pow_zero]; omega) _ _)
    · obtain ⟨l, rfl⟩ := Nat.exists_eq_add_of_le (Nat.le_of_not_lt hc)
      have : 2 ^ l ≤ q := by
        by_contra hlt
        have h3 : 2 ^ (32 * ps.length) * (q + 1) ≤ 2 ^ (32 * ps.length) * 2 ^ l := Nat.mul_le_mul_left _ (by omega)
        rw [pow_add] at hn
        rw [Nat.mul_add, Nat.mul_one] at h3
        omega
      exact le_trans (by omega) (powModWords_low hzn this _ _)

end Cost
end BigIntegerCpp
