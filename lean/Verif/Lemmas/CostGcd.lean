import Verif.Model.CostGcd
import Verif.Lemmas.CostBits
import Verif.Lemmas.CostPow
import Verif.Lemmas.GcdActual
import Verif.Lemmas.Closure
import Verif.Lemmas.Ends
/-
Lemmas about Model/CostGcd.lean: outcomes as in Model/Gcd.lean, bounds, and what more fuel changes.
-/
set_option linter.unusedSectionVars false
namespace BigIntegerCpp
open Counted
namespace Cost
variable [Cfg]

/-! ### Outcomes -/

theorem gcd32_res (x y : Nat) : (gcd32 x y).res = .ok (BigIntegerCpp.gcd32 x y) := by
  induction y using Nat.strongRecOn generalizing x with
  | ind y ih =>
  rw [gcd32, BigIntegerCpp.gcd32]
  by_cases h : y = 0
  · rw [dif_pos h, dif_pos h, pure_res]
  · rw [dif_neg h, dif_neg h, bind_res, tick_res, Res.ok_bind, ih _ (Nat.mod_lt _ (by omega))]

theorem gcd64_res (x y : Nat) : (gcd64 x y).res = .ok (BigIntegerCpp.gcd64 x y) := by
  induction y using Nat.strongRecOn generalizing x with
  | ind y ih =>
  rw [gcd64, BigIntegerCpp.gcd64]
  by_cases h : y > 0xFFFFFFFF
  · rw [dif_pos h, dif_pos h, bind_res, tick_res, Res.ok_bind, ih _ (Nat.mod_lt _ (by omega))]
  rw [dif_neg h, dif_neg h]
  by_cases h0 : y ≠ 0
  · rw [if_pos h0, if_pos h0, gcd32_res]
  · rw [if_neg h0, if_neg h0, pure_res]

theorem gcdWord_res (l : List Nat) (y : Nat) : (gcdWord l y).res = BigIntegerCpp.gcdWord l y := by
  simp only [gcdWord, BigIntegerCpp.gcdWord, scope_res, bind_res, lift_res, remainderWord_res, gcd32_res]

theorem extractDigits_res (x y : BitsBuffer) : (extractDigits x y).res = BigIntegerCpp.extractDigits x y := by
  simp only [extractDigits, scope_res, lift_res]

theorem ite_eq_res {α : Type} {p : Prop} [Decidable p] {x y : Counted α} {x' y' : Res α} (hx : x.res = x') (hy : ¬ p → y.res = y') :
    (if p then x else y).res = if p then x' else y' := by
  by_cases h : p
  · rw [if_pos h, if_pos h, hx]
  · rw [if_neg h, if_neg h, hy h]

theorem lehmerGuess_res (y : Nat) : ∀ (x : Nat) (g : Guess), (lehmerGuess x y g).res = BigIntegerCpp.lehmerGuess x y g := by
  induction y using Nat.strongRecOn with
  | ind y ih =>
  intro x g
  rw [lehmerGuess, BigIntegerCpp.lehmerGuess]
  refine ite_eq_res rfl fun _ => ?_
  rw [bind_res, tick_res, Res.ok_bind]
  dsimp only
  iterate 9 refine ite_eq_res rfl fun _ => ?_
  by_cases h : u64sub y (u64 (y / u64sub x (u64 (x / y * y)) * u64sub x (u64 (x / y * y)))) < y
  · rw [dif_pos h, dif_pos h]; exact ih _ h _ _
  · rw [dif_neg h, dif_neg h, lift_res]

theorem refresh_res (b : BitsBuffer) (n : Nat) : (refresh b n).res = b.refresh n := by
  simp only [refresh, bind_res, tick_res, lift_res, Res.ok_bind]

theorem lehmerCore_res (x y : BitsBuffer) (g : Guess) : (lehmerCore x y g).res = BigIntegerCpp.lehmerCore x y g := by
  simp only [lehmerCore, BigIntegerCpp.lehmerCore, lehmerLoop, scope_res, bind_res, lift_res, tick_res, Res.ok_bind, refresh_res, pure_res]

theorem reduceBy_res (x y : BitsBuffer) : (reduceBy x y).res = x.reduceBy y := by
  simp only [reduceBy, BitsBuffer.reduceBy, bind_res, lift_res, reduce_res]

theorem overwrite_res (b : BitsBuffer) (v : Nat) : (overwrite b v).res = b.overwrite v := by
  simp only [overwrite, bind_res, tick_res, lift_res, Res.ok_bind]

theorem swap_res (x y : BitsBuffer) : (swap x y).res = .ok (y, x) := by
  simp only [swap, scope_res, bind_res, tick_res, Res.ok_bind, pure_res]

theorem gcdLoop_res : ∀ (fuel : Nat) (x y : BitsBuffer), (gcdLoop fuel x y).res = BigIntegerCpp.gcdLoop fuel x y
  | 0, _, _ => rfl
  | fuel + 1, x, y => by
    rw [gcdLoop, BigIntegerCpp.gcdLoop]
    by_cases h : y.length > 2
    · rw [if_pos h, if_pos h]
      simp only [bind_res, tick_res, Res.ok_bind, extractDigits_res, lehmerGuess_res]
      refine bind_congr_of_ok fun p _ => bind_congr_of_ok fun g _ => ?_
      by_cases hb : g.b = 0
      · rw [if_pos hb, if_pos hb]
        simp only [bind_res, reduceBy_res, swap_res, Res.ok_bind, gcdLoop_res fuel]
      · rw [if_neg hb, if_neg hb]
        simp only [bind_res, lehmerCore_res]
        refine bind_congr_of_ok fun q _ => ?_
        by_cases hi : g.iteration % 2 = 1
        · rw [if_pos hi, if_pos hi]
          simp only [bind_res, swap_res, Res.ok_bind, gcdLoop_res fuel]
        · rw [if_neg hi, if_neg hi, gcdLoop_res fuel]
    · rw [if_neg h, if_neg h, pure_res]

theorem gcdBuffers_res (fuel : Nat) (x y : BitsBuffer) : (gcdBuffers fuel x y).res = BigIntegerCpp.gcdBuffers fuel x y := by
  simp only [gcdBuffers, BigIntegerCpp.gcdBuffers, bind_res, lift_res, gcdLoop_res]
  refine bind_congr_of_ok fun _ _ => bind_congr_of_ok fun _ _ => bind_congr_of_ok fun _ _ => bind_congr_of_ok fun p _ => ?_
  by_cases h : p.2.length > 0
  · rw [if_pos h, if_pos h]
    simp only [bind_res, scope_res, lift_res, reduceBy_res, gcd64_res, Res.ok_bind, overwrite_res]
  · rw [if_neg h, if_neg h, pure_res]

theorem gcdVec_res (fuel : Nat) (x y : List Nat) : (gcdVec fuel x y).res = BigIntegerCpp.gcdVec fuel x y := by
  simp only [gcdVec, BigIntegerCpp.gcdVec, scope_res, hold_res, bind_res, lift_res, tick_res, Res.ok_bind, ofWords_res, gcdBuffers_res, pure_res]

theorem gcdBits_res (fuel : Nat) (x y : List Nat) : (gcdBits fuel x y).res = BigIntegerCpp.gcdBits fuel x y := by
  simp only [gcdBits, BigIntegerCpp.gcdBits, bind_res, lift_res, tick_res, Res.ok_bind]
  refine bind_congr_of_ok fun _ _ => ?_
  refine ite_eq_res ?_ fun _ => ite_eq_res ?_ fun _ => ?_
  · simp only [bind_res, lift_res, remainderWord_res, gcd32_res, Res.ok_bind]
  · simp only [bind_res, hold_res, lift_res, remainderVec_res, gcd64_res, Res.ok_bind]
  · simp only [bind_res, hold_res, gcdVec_res, ofMagnitude_res]

theorem gcd_res (fuel : Nat) (a b : BigInt) : (gcd fuel a b).res = BigInt.gcd fuel a b := by
  simp only [gcd, BigInt.gcd, bind_res, lift_res]
  refine bind_congr_of_ok fun _ _ => bind_congr_of_ok fun _ _ => ?_
  refine ite_eq_res ?_ fun _ => ite_eq_res (ite_eq_res ?_ fun _ => ?_) fun _ => ite_eq_res (ite_eq_res ?_ fun _ => ?_) fun _ => ?_
  · simp only [bind_res, lift_res, gcd32_res, Res.ok_bind]
  · simp only [bind_res, lift_res, gcdWord_res]
  · rw [ofMagnitude_res]
  · simp only [bind_res, lift_res, gcdWord_res]
  · rw [ofMagnitude_res]
  · rw [bind_res, tick_res, Res.ok_bind]
    exact ite_eq_res (gcdBits_res _ _ _) fun _ => gcdBits_res _ _ _

/-! ### Euclid on machine numbers -/

variable (d w : Nat)

/-- Two iterations at least halve the divisor. -/
theorem gcd32_within (k : Nat) : ∀ {x y : Nat}, y < 2 ^ k → Within (gcd32 x y) (2 * k) d w := by
  induction k with
  | zero =>
    intro x y h
    have : y = 0 := by simpa using h
    rw [gcd32, dif_pos this]; exact within_pure _ _ _
  | succ k ih =>
    intro x y h
    rw [gcd32]
    by_cases h0 : y = 0
    · rw [dif_pos h0]; exact within_pure_any _ _ _ _
    rw [dif_neg h0]
    have h1 : x % y < y := Nat.mod_lt _ (by omega)
    have e : 2 * (k + 1) = 1 + (1 + 2 * k) := by omega
    rw [e]
    refine within_tick_bind ?_
    rw [gcd32]
    by_cases h2 : x % y = 0
    · rw [dif_pos h2]; exact within_pure_any _ _ _ _
    rw [dif_neg h2]
    refine within_tick_bind (ih ?_)
    have h3 : y % (x % y) < x % y := Nat.mod_lt _ (by omega)
    have h4 : y % (x % y) + x % y ≤ y := by
      have h5 := Nat.div_add_mod y (x % y)
      have h6 : 1 ≤ y / (x % y) := Nat.div_pos (Nat.le_of_lt h1) (by omega)
      have h7 : x % y * 1 ≤ x % y * (y / (x % y)) := Nat.mul_le_mul_left _ h6
      omega
    rw [pow_succ] at h
    omega

theorem gcd64_within {k : Nat} : ∀ {j x y : Nat}, y < 2 ^ (32 + j) → k = 2 * j + 65 → Within (gcd64 x y) k d w := by
  intro j
  induction j generalizing k with
  | zero =>
    intro x y h hk
    rw [gcd64]
    by_cases h1 : y > 0xFFFFFFFF
    · simp at h; omega
    rw [dif_neg h1]
    refine within_ite (fun h0 => ?_) fun _ => within_pure_any _ _ _ _
    refine (gcd32_within d w 32 (u32_lt _)).mono (by omega) (Nat.le_refl _) (Nat.le_refl _)
  | succ j ih =>
    intro x y h hk
    rw [gcd64]
    by_cases h1 : y > 0xFFFFFFFF
    · rw [dif_pos h1]
      have h2 : x % y < y := Nat.mod_lt _ (by omega)
      have e : k = 1 + (1 + (2 * j + 65)) := by omega
      rw [e]
      refine within_tick_bind ?_
      rw [gcd64]
      by_cases h3 : x % y > 0xFFFFFFFF
      · rw [dif_pos h3]
        refine within_tick_bind (ih ?_ rfl)
        have h4 : y % (x % y) < x % y := Nat.mod_lt _ (by omega)
        have h5 : y % (x % y) + x % y ≤ y := by
          have h5 := Nat.div_add_mod y (x % y)
          have h6 : 1 ≤ y / (x % y) := Nat.div_pos (Nat.le_of_lt h2) (by omega)
          have h7 : x % y * 1 ≤ x % y * (y / (x % y)) := Nat.mul_le_mul_left _ h6
          omega
        rw [← Nat.add_assoc, pow_succ] at h
        omega
      · rw [dif_neg h3]
        refine within_ite (fun h0 => ?_) fun _ => within_pure_any _ _ _ _
        exact (gcd32_within d w 32 (u32_lt _)).mono (by omega) (Nat.le_refl _) (Nat.le_refl _)
    · rw [dif_neg h1]
      refine within_ite (fun h0 => ?_) fun _ => within_pure_any _ _ _ _
      exact (gcd32_within d w 32 (u32_lt _)).mono (by omega) (Nat.le_refl _) (Nat.le_refl _)

/-- Every round of the guessing at least halves the second number. -/
theorem lehmerGuess_within (k : Nat) : ∀ {x y : Nat} {g : Guess}, x < 2 ^ 63 → y < 2 ^ 63 → y < 2 ^ k → Within (lehmerGuess x y g) k d w := by
  induction k with
  | zero =>
    intro x y g _ _ h
    have : y = 0 := by simpa using h
    rw [lehmerGuess, if_pos this]; exact within_pure _ _ _
  | succ k ih =>
    intro x y g hx hy hk
    rw [lehmerGuess]
    refine within_ite (fun _ => within_pure_any _ _ _ _) fun h0 => ?_
    rw [Nat.add_comm k 1]
    refine within_tick_bind ?_
    dsimp only
    rw [u64sub_mod hx]
    have h1 : x % y < y := Nat.mod_lt _ (by omega)
    refine within_ite (fun _ => within_pure_any _ _ _ _) fun _ => within_ite (fun _ => within_pure_any _ _ _ _) fun _ =>
      within_ite (fun _ => within_pure_any _ _ _ _) fun _ => within_ite (fun _ => within_pure_any _ _ _ _) fun _ =>
      within_ite (fun _ => within_lift_any _ _ _ _) fun hx0 => ?_
    rw [u64sub_mod hy]
    refine within_ite (fun _ => within_pure_any _ _ _ _) fun _ => within_ite (fun _ => within_pure_any _ _ _ _) fun _ =>
      within_ite (fun _ => within_pure_any _ _ _ _) fun _ => within_ite (fun _ => within_pure_any _ _ _ _) fun _ => ?_
    have h2 : y % (x % y) < x % y := Nat.mod_lt _ (by omega)
    rw [dif_pos (by omega)]
    refine ih (by omega) (by omega) ?_
    have h4 : y % (x % y) + x % y ≤ y := by
      have h5 := Nat.div_add_mod y (x % y)
      have h6 : 1 ≤ y / (x % y) := Nat.div_pos (Nat.le_of_lt h1) (by omega)
      have h7 : x % y * 1 ≤ x % y * (y / (x % y)) := Nat.mul_le_mul_left _ h6
      omega
    rw [pow_succ] at hk
    omega

/-! ### buffers -/

/-- A buffer of at most `m` words, the first `length` of which are in use. -/
structure Small (m : Nat) (b : BitsBuffer) : Prop where
  words : WordsOk b.bits
  size : b.bits.length ≤ m
  len : b.length ≤ b.bits.length

variable {d w} {m : Nat} {x y : BitsBuffer}

theorem Small.len' (h : Small m x) : x.length ≤ m := h.len.trans h.size

theorem actualLength_le {v : List Nat} {n l : Nat} (h : BigIntegerCpp.actualLength v n = .ok l) : l ≤ n ∧ n ≤ v.length := by
  unfold BigIntegerCpp.actualLength at h
  obtain ⟨t, h1, h⟩ := Res.bind_eq_ok h
  cases h
  obtain ⟨h2, h3⟩ := slice_length h1
  have := trimLen_le t
  omega

theorem Small.reduceBy_within (hx : Small m x) (hy : Small m y) :
    Within (reduceBy x y) ((x.length - y.length) * (2 * m + 4) + (3 * m + 4)) d w := by
  unfold reduceBy
  refine within_lift_bind fun t ht => ?_
  have hl := (slice_length ht).1
  have hw : WordsOk t := slice_all' hy.words _ _ t ht
  unfold reduce
  refine within_ite (fun hn => ?_) fun _ => within_pure_any _ _ _ _
  refine within_lift_bind fun l hl' => ?_
  have hll := (slice_length hl').1
  have hlw : WordsOk l := slice_all' hx.words _ _ l hl'
  refine (within_bind (divideCore_within d w [] hlw hw) fun p _ => within_bind_pure (s := t.length) (within_tick_lift _ _ _ _)).mono ?_ (Nat.le_refl _) (Nat.le_refl _)
  rw [hll, hl]
  rw [hl] at hn
  have hy' := hy.len'
  have e : x.length + 1 - y.length = (x.length - y.length) + 1 := by omega
  rw [e, Nat.add_mul]
  have h1 := Nat.mul_le_mul_left (x.length - y.length) (show 2 * y.length + 4 ≤ 2 * m + 4 by omega)
  omega

theorem Small.reduceBy (hx : Small m x) {r : BitsBuffer} (h : x.reduceBy y = .ok r) :
    Small m r ∧ r.bits.length = x.bits.length ∧ (y.length ≤ x.length ∧ r.length ≤ y.length ∨ x.length < y.length ∧ r = x) := by
  have hw := reduceBy_all hx.words r h
  unfold BitsBuffer.reduceBy at h
  obtain ⟨t, ht, h⟩ := Res.bind_eq_ok h
  have hl := (slice_length ht).1
  unfold BitsBuffer.reduce at h
  by_cases hn : x.length ≥ t.length
  · rw [if_pos hn] at h
    obtain ⟨l, hl', h⟩ := Res.bind_eq_ok h
    obtain ⟨p, hp, h⟩ := Res.bind_eq_ok h
    obtain ⟨n, ha, h⟩ := Res.bind_eq_ok h
    cases h
    obtain ⟨h1, h2⟩ := actualLength_le ha
    have h3 := (divideCore_length hp).1
    have h4 := (slice_length hl').1
    have h5 : (p.1 ++ x.bits.drop x.length).length = x.bits.length := by
      rw [List.length_append, List.length_drop, h3, h4]
      have := hx.len
      omega
    refine ⟨⟨hw, h5.le.trans hx.size, h1.trans h2⟩, h5, .inl ⟨by omega, ?_⟩⟩
    dsimp only
    omega
  · rw [if_neg hn] at h
    cases h
    exact ⟨hx, rfl, .inr ⟨by omega, rfl⟩⟩

theorem Small.refresh (hx : Small m x) {n : Nat} {r : BitsBuffer} (h : x.refresh n = .ok r) :
    Small m r ∧ r.length ≤ n ∧ r.bits.length = x.bits.length := by
  have hw := refresh_all hx.words r h
  unfold BitsBuffer.refresh at h
  obtain ⟨b, hb, h⟩ := Res.bind_eq_ok h
  obtain ⟨l, hl, h⟩ := Res.bind_eq_ok h
  cases h
  obtain ⟨h1, h2⟩ := actualLength_le hl
  have hbl : b.length = x.bits.length := by
    by_cases hn : x.length > n
    · rw [if_pos hn] at hb
      obtain ⟨t, ht, hb⟩ := Res.bind_eq_ok hb
      cases hb
      rw [List.length_append, List.length_replicate, List.length_drop]
      have := hx.len
      omega
    · rw [if_neg hn] at hb
      cases hb; rfl
  exact ⟨⟨hw, hbl.le.trans hx.size, h1.trans h2⟩, h1, hbl⟩

theorem Small.lehmerCore (hx : Small m x) (hy : Small m y) {g : Guess} {p : BitsBuffer × BitsBuffer}
    (h : BigIntegerCpp.lehmerCore x y g = .ok p) : Small m p.1 ∧ Small m p.2 ∧
      (p.1.length ≤ y.length ∧ p.2.length ≤ y.length) ∧ p.1.bits.length = x.bits.length ∧ p.2.bits.length = y.bits.length := by
  unfold BigIntegerCpp.lehmerCore at h
  obtain ⟨_, -, h⟩ := Res.bind_eq_ok h
  obtain ⟨_, -, h⟩ := Res.bind_eq_ok h
  obtain ⟨_, -, h⟩ := Res.bind_eq_ok h
  obtain ⟨_, -, h⟩ := Res.bind_eq_ok h
  obtain ⟨_, -, h⟩ := Res.bind_eq_ok h
  obtain ⟨_, -, h⟩ := Res.bind_eq_ok h
  obtain ⟨a, ha, h⟩ := Res.bind_eq_ok h
  obtain ⟨b, hb, h⟩ := Res.bind_eq_ok h
  cases h
  exact ⟨(hx.refresh ha).1, (hy.refresh hb).1, ⟨(hx.refresh ha).2.1, (hy.refresh hb).2.1⟩, (hx.refresh ha).2.2, (hy.refresh hb).2.2⟩

theorem Small.lehmerCore_within (hx : Small m x) (hy : Small m y) (g : Guess) : Within (Cost.lehmerCore x y g) (5 * m) d (w + 2 * m) := by
  unfold Cost.lehmerCore
  have h1 := hx.len'
  have h2 := hy.len'
  have h3 := hx.size
  have h4 := hy.size
  refine (within_scope (s := y.length + ((x.length - y.length + y.length) + (y.length - y.length + y.length))) (w := w) _ ?_).mono (by omega) (Nat.le_refl _) (by omega)
  refine within_lift_bind fun _ _ => within_lift_bind fun _ _ => within_lift_bind fun _ _ => within_lift_bind fun _ _ => within_lift_bind fun _ _ => ?_
  refine within_bind (within_tick_lift _ _ _ _) fun _ _ => within_bind (within_tick_lift _ _ _ _) fun _ _ => ?_
  exact within_bind_pure (within_tick_lift _ _ _ _)

theorem Small.swap_within (hx : Small m x) (hy : Small m y) : Within (swap x y) (3 * m) d (w + 2 * m) := by
  have h3 := hx.size
  have h4 := hy.size
  exact (within_scope (w := w) _ (within_tick_pure _ _ _ _)).mono (by omega) (Nat.le_refl _) (by omega)

theorem Small.extractDigits_within (hx : Small m x) (hy : Small m y) : Within (extractDigits x y) (2 * m) d (w + 2 * m) := by
  have h3 := hx.size
  have h4 := hy.size
  exact (within_scope (w := w) _ (within_lift _ _ _)).mono (by omega) (Nat.le_refl _) (by omega)

theorem digit_lt {h m l z : Nat} (hl : l < 4294967296) : (u64 (h <<< (32 + z)) ||| u64 (m <<< z) ||| (l >>> (32 - z))) >>> 1 < 2 ^ 63 := by
  have h1 : u64 (h <<< (32 + z)) < 2 ^ 64 := u64_lt _
  have h2 : u64 (m <<< z) < 2 ^ 64 := u64_lt _
  have h3 : l >>> (32 - z) < 2 ^ 64 := by
    rw [Nat.shiftRight_eq_div_pow]
    exact Nat.lt_of_le_of_lt (Nat.div_le_self _ _) (by omega)
  have h4 := Nat.or_lt_two_pow (Nat.or_lt_two_pow h1 h2) h3
  rw [Nat.shiftRight_eq_div_pow]
  omega

/-- The two numbers have 63 bits; a second buffer with more words in use than the first counts as zero. -/
theorem extractDigits_lt (hx : WordsOk x.bits) (hy : WordsOk y.bits) {p : Nat × Nat} (h : BigIntegerCpp.extractDigits x y = .ok p) :
    p.1 < 2 ^ 63 ∧ p.2 < 2 ^ 63 ∧ (x.length < y.length → p.2 = 0) := by
  unfold BigIntegerCpp.extractDigits at h
  obtain ⟨_, -, h⟩ := Res.bind_eq_ok h
  obtain ⟨_, -, h⟩ := Res.bind_eq_ok h
  obtain ⟨_, -, h⟩ := Res.bind_eq_ok h
  by_cases h3 : x.length < 3
  · rw [if_pos h3] at h; cases h
  rw [if_neg h3] at h
  obtain ⟨xh, -, h⟩ := Res.bind_eq_ok h
  obtain ⟨xm, -, h⟩ := Res.bind_eq_ok h
  obtain ⟨xl, hxl, h⟩ := Res.bind_eq_ok h
  have hxl := idx_all hx _ _ hxl
  obtain ⟨⟨yh, ym, yl⟩, hq, h⟩ := Res.bind_eq_ok h
  have hyl : yl < 4294967296 ∧ (x.length < y.length → yh = 0 ∧ ym = 0 ∧ yl = 0) := by
    by_cases e0 : x.length = y.length
    · rw [if_pos e0] at hq
      obtain ⟨_, -, hq⟩ := Res.bind_eq_ok hq
      obtain ⟨_, -, hq⟩ := Res.bind_eq_ok hq
      obtain ⟨_, h1, hq⟩ := Res.bind_eq_ok hq
      cases hq
      exact ⟨idx_all hy _ _ h1, by omega⟩
    rw [if_neg e0] at hq
    by_cases e1 : x.length = y.length + 1
    · rw [if_pos e1] at hq
      obtain ⟨_, -, hq⟩ := Res.bind_eq_ok hq
      obtain ⟨_, h1, hq⟩ := Res.bind_eq_ok hq
      cases hq
      exact ⟨idx_all hy _ _ h1, by omega⟩
    rw [if_neg e1] at hq
    by_cases e2 : x.length = y.length + 2
    · rw [if_pos e2] at hq
      obtain ⟨_, h1, hq⟩ := Res.bind_eq_ok hq
      cases hq
      exact ⟨idx_all hy _ _ h1, by omega⟩
    rw [if_neg e2] at hq
    cases hq
    exact ⟨by omega, fun _ => ⟨rfl, rfl, rfl⟩⟩
  dsimp only at h
  by_cases hz : leadingZeros xh ≥ 32
  · rw [if_pos hz] at h; cases h
  rw [if_neg hz] at h
  obtain ⟨_, -, h⟩ := Res.bind_eq_ok h
  cases h
  refine ⟨digit_lt hxl, digit_lt hyl.1, fun hlt => ?_⟩
  obtain ⟨rfl, rfl, rfl⟩ := hyl.2 hlt
  dsimp only
  rw [Nat.zero_shiftLeft, Nat.zero_shiftLeft, Nat.zero_shiftRight]
  rfl

/-! ### the loop -/

/-- What an iteration may cost besides the words it removes from the buffers. -/
abbrev iterCost (m : Nat) : Nat := 10 * m + 68

theorem gcdLoop_within (fuel : Nat) : ∀ {x y : BitsBuffer}, Small m x → Small m y →
    Within (gcdLoop fuel x y) (fuel * iterCost m + (x.length + y.length) * (2 * m + 4)) d (w + 2 * m) := by
  induction fuel with
  | zero => intro x y _ _; exact within_lift_any _ _ _ _
  | succ fuel ih =>
    intro x y hx hy
    rw [gcdLoop]
    refine within_ite (fun hlen => ?_) fun _ => within_pure_any _ _ _ _
    have e : (fuel + 1) * iterCost m + (x.length + y.length) * (2 * m + 4) =
        1 + (2 * m + (63 + (8 * m + 4 + (fuel * iterCost m + (x.length + y.length) * (2 * m + 4))))) := by
      rw [Nat.add_mul fuel]; unfold iterCost; omega
    rw [e]
    refine within_tick_bind (within_bind (hx.extractDigits_within hy) fun p hp => ?_)
    rw [extractDigits_res] at hp
    obtain ⟨p1, p2⟩ := p
    obtain ⟨l1, l2, hz⟩ := extractDigits_lt hx.words hy.words hp
    dsimp only at l1 l2 hz ⊢
    refine within_bind (lehmerGuess_within _ _ 63 l1 l2 l2) fun g hg => ?_
    rw [lehmerGuess_res] at hg
    refine within_ite (fun hb => ?_) fun hb => ?_
    · by_cases hxy : y.length ≤ x.length
      · have e2 : 8 * m + 4 + (fuel * iterCost m + (x.length + y.length) * (2 * m + 4)) =
            ((x.length - y.length) * (2 * m + 4) + (3 * m + 4)) + (3 * m + (2 * m + (fuel * iterCost m + (y.length + y.length) * (2 * m + 4)))) := by
          have : x.length + y.length = (x.length - y.length) + (y.length + y.length) := by omega
          rw [this, Nat.add_mul]; omega
        rw [e2]
        refine within_bind (hx.reduceBy_within hy) fun r hr => ?_
        rw [reduceBy_res] at hr
        obtain ⟨hr, -, hc⟩ := hx.reduceBy hr
        refine within_bind (hr.swap_within hy) fun q hq => ?_
        rw [swap_res] at hq
        cases hq
        dsimp only
        refine (ih hy hr).mono ?_ (Nat.le_refl _) (Nat.le_refl _)
        have h1 : r.length ≤ y.length := by rcases hc with h | h <;> omega
        have := Nat.mul_le_mul_right (2 * m + 4) (Nat.add_le_add_left h1 y.length)
        omega
      · have e2 : 8 * m + 4 + (fuel * iterCost m + (x.length + y.length) * (2 * m + 4)) =
            ((x.length - y.length) * (2 * m + 4) + (3 * m + 4)) + (3 * m + (2 * m + (fuel * iterCost m + (y.length + x.length) * (2 * m + 4)))) := by
          rw [Nat.add_comm y.length, show x.length - y.length = 0 by omega]; omega
        rw [e2]
        refine within_bind (hx.reduceBy_within hy) fun r hr => ?_
        rw [reduceBy_res] at hr
        obtain ⟨hr', -, hc⟩ := hx.reduceBy hr
        refine within_bind (hr'.swap_within hy) fun q hq => ?_
        rw [swap_res] at hq
        cases hq
        dsimp only
        obtain rfl : r = x := by
          rcases hc with h | h
          · omega
          · exact h.2
        exact (ih hy hr').mono (by omega) (Nat.le_refl _) (Nat.le_refl _)
    · have hxy : y.length ≤ x.length := by
        by_contra hc
        rw [hz (by omega), BigIntegerCpp.lehmerGuess, if_pos rfl] at hg
        cases hg
        exact hb rfl
      have e2 : 8 * m + 4 + (fuel * iterCost m + (x.length + y.length) * (2 * m + 4)) =
          5 * m + (3 * m + (4 + (fuel * iterCost m + (x.length + y.length) * (2 * m + 4)))) := by omega
      rw [e2]
      refine within_bind (hx.lehmerCore_within hy g) fun q hq => ?_
      rw [lehmerCore_res] at hq
      obtain ⟨q1, q2⟩ := q
      obtain ⟨s1, s2, ⟨n1, n2⟩, -⟩ := hx.lehmerCore hy hq
      dsimp only at s1 s2 n1 n2 ⊢
      have h1 := Nat.mul_le_mul_right (2 * m + 4) (show q1.length + q2.length ≤ x.length + y.length by omega)
      refine within_ite (fun _ => ?_) fun _ => (ih s1 s2).mono (by omega) (Nat.le_refl _) (Nat.le_refl _)
      refine within_bind (s1.swap_within s2) fun q hq => ?_
      rw [swap_res] at hq
      cases hq
      dsimp only
      rw [Nat.add_comm q1.length] at h1
      exact (ih s2 s1).mono (by omega) (Nat.le_refl _) (Nat.le_refl _)

theorem Small.gcdLoop (fuel : Nat) : ∀ {x y : BitsBuffer} {p : BitsBuffer × BitsBuffer}, Small m x → Small m y →
    BigIntegerCpp.gcdLoop fuel x y = .ok p → Small m p.1 ∧ Small m p.2 := by
  induction fuel with
  | zero => intro x y p _ _ h; cases h
  | succ fuel ih =>
    intro x y p hx hy h
    rw [BigIntegerCpp.gcdLoop] at h
    by_cases hl : y.length > 2
    · rw [if_pos hl] at h
      obtain ⟨⟨u, v⟩, -, h⟩ := Res.bind_eq_ok h
      obtain ⟨g, -, h⟩ := Res.bind_eq_ok h
      by_cases hb : g.b = 0
      · rw [if_pos hb] at h
        obtain ⟨r, hr, h⟩ := Res.bind_eq_ok h
        exact ih hy (hx.reduceBy hr).1 h
      · rw [if_neg hb] at h
        obtain ⟨⟨q1, q2⟩, hq, h⟩ := Res.bind_eq_ok h
        obtain ⟨s1, s2, -⟩ := hx.lehmerCore hy hq
        dsimp only at h s1 s2
        by_cases hi : g.iteration % 2 = 1
        · rw [if_pos hi] at h; exact ih s2 s1 h
        · rw [if_neg hi] at h; exact ih s1 s2 h
    · rw [if_neg hl] at h
      cases h; exact ⟨hx, hy⟩

theorem Small.overwrite_length {r : BitsBuffer} {v : Nat} (hx : Small m x) (h : x.overwrite v = .ok r) : r.bits.length ≤ m := by
  unfold BitsBuffer.overwrite at h
  obtain ⟨b, hb, h⟩ := Res.bind_eq_ok h
  obtain ⟨b1, h1, h⟩ := Res.bind_eq_ok h
  obtain ⟨b2, h2, h⟩ := Res.bind_eq_ok h
  cases h
  dsimp only
  rw [put_length h2, put_length h1]
  by_cases hl : x.length > 2
  · rw [if_pos hl] at hb
    obtain ⟨t, -, hb⟩ := Res.bind_eq_ok hb
    cases hb
    rw [List.length_append, List.length_replicate, List.length_drop]
    have := hx.len
    have := hx.size
    omega
  · rw [if_neg hl] at hb
    cases hb; exact hx.size

theorem two_words_lt {h l : Nat} (hl : l < 4294967296) : u64 (h <<< 32) ||| l < 2 ^ (32 + 32) :=
  Nat.or_lt_two_pow (u64_lt _) (by omega)

theorem gcdBuffers_within (fuel : Nat) (hx : Small m x) (hy : Small m y) :
    Within (gcdBuffers fuel x y) (fuel * iterCost m + 6 * (m * m) + 18 * m + 133) d (w + 2 * m) := by
  unfold gcdBuffers
  refine within_lift_bind fun _ _ => within_lift_bind fun _ _ => within_lift_bind fun _ _ => ?_
  have h1 := hx.len'
  have h2 := hy.len'
  have hp := Nat.mul_le_mul_right (2 * m + 4) (show x.length + y.length ≤ 2 * m by omega)
  have e0 : 2 * m * (2 * m + 4) = 4 * (m * m) + 8 * m := by ring
  have e1 : m * (2 * m + 4) = 2 * (m * m) + 4 * m := by ring
  refine (within_bind (t := 2 * (m * m) + 10 * m + 133) (gcdLoop_within fuel hx hy) fun p hp => ?_).mono (by omega) (Nat.le_refl _) (Nat.le_refl _)
  rw [gcdLoop_res] at hp
  obtain ⟨p1, p2⟩ := p
  obtain ⟨s1, s2⟩ := hx.gcdLoop fuel hy hp
  dsimp only at s1 s2 ⊢
  refine within_ite (fun _ => ?_) fun _ => within_pure_any _ _ _ _
  have h3 := Nat.mul_le_mul_right (2 * m + 4) (show p1.length - p2.length ≤ m by have := s1.len'; omega)
  refine (within_bind (t := 3 * m + 129) (s1.reduceBy_within s2) fun r hr => ?_).mono (by omega) (Nat.le_refl _) (Nat.le_refl _)
  rw [reduceBy_res] at hr
  obtain ⟨hr, -, -⟩ := s1.reduceBy hr
  have h4 := hr.size
  have h5 := s2.size
  have h6 := hr.len'
  refine (within_scope (s := 129 + (r.length - 2)) (w := w) _ ?_).mono (by omega) (Nat.le_refl _) (by omega)
  refine within_lift_bind fun _ _ => within_lift_bind fun _ _ => within_lift_bind fun _ _ => within_lift_bind fun y0 hy0 => ?_
  exact within_bind (gcd64_within _ _ (j := 32) (two_words_lt (idx_all hr.words _ _ hy0)) (by omega)) fun _ _ => within_tick_lift _ _ _ _

theorem gcdBuffers_length (fuel : Nat) (hx : Small m x) (hy : Small m y) {r : BitsBuffer} (h : BigIntegerCpp.gcdBuffers fuel x y = .ok r) :
    r.bits.length ≤ m := by
  unfold BigIntegerCpp.gcdBuffers at h
  obtain ⟨_, -, h⟩ := Res.bind_eq_ok h
  obtain ⟨_, -, h⟩ := Res.bind_eq_ok h
  obtain ⟨_, -, h⟩ := Res.bind_eq_ok h
  obtain ⟨⟨p1, p2⟩, hp, h⟩ := Res.bind_eq_ok h
  obtain ⟨s1, s2⟩ := hx.gcdLoop fuel hy hp
  dsimp only at s1 s2 h
  by_cases hl : p2.length > 0
  · rw [if_pos hl] at h
    obtain ⟨l, hl, h⟩ := Res.bind_eq_ok h
    obtain ⟨_, -, h⟩ := Res.bind_eq_ok h
    obtain ⟨_, -, h⟩ := Res.bind_eq_ok h
    obtain ⟨_, -, h⟩ := Res.bind_eq_ok h
    obtain ⟨_, -, h⟩ := Res.bind_eq_ok h
    exact (s1.reduceBy hl).1.overwrite_length h
  · rw [if_neg hl] at h
    cases h; exact s1.size

theorem small_ofWords {v : List Nat} {b : BitsBuffer} (hv : WordsOk v) (hm : v.length ≤ m) (h : BitsBuffer.ofWords v.length v = .ok b) : Small m b := by
  unfold BitsBuffer.ofWords at h
  obtain ⟨_, -, h⟩ := Res.bind_eq_ok h
  have := trimLen_le v
  dsimp only at h
  rw [if_pos this] at h
  cases h
  have e : (v.take (BigIntegerCpp.trimLen v) ++ List.replicate (v.length - BigIntegerCpp.trimLen v) 0).length = v.length := by
    rw [List.length_append, List.length_take, List.length_replicate]; omega
  exact ⟨wordsOk_append.2 ⟨hv.take _, wordsOk_replicate_zero _⟩, e.le.trans hm, this.trans e.ge⟩

theorem ofWords_bits_length {v : List Nat} {n : Nat} {b : BitsBuffer} (h : BitsBuffer.ofWords n v = .ok b) : b.bits.length = n := by
  unfold BitsBuffer.ofWords at h
  obtain ⟨_, -, h⟩ := Res.bind_eq_ok h
  have := trimLen_le v
  dsimp only at h
  by_cases hl : BigIntegerCpp.trimLen v ≤ n
  · rw [if_pos hl] at h
    cases h
    dsimp only
    rw [List.length_append, List.length_take, List.length_replicate]
    omega
  · rw [if_neg hl] at h; cases h

theorem gcdVec_within (fuel : Nat) {l r : List Nat} (hl : WordsOk l) (hr : WordsOk r) (ml : l.length ≤ m) (mr : r.length ≤ m) :
    Within (gcdVec fuel l r) (fuel * iterCost m + 6 * (m * m) + 30 * m + 133) d (w + 7 * m) := by
  unfold gcdVec
  refine (within_scope (s := l.length + (8 * m + (fuel * iterCost m + 6 * (m * m) + 18 * m + 133) + m)) (w := w + 5 * m) _ ?_).mono (by omega) (Nat.le_refl _) (by omega)
  rw [Nat.add_assoc (8 * m)]
  refine within_tick_bind (within_lift_bind fun _ _ => within_lift_bind fun _ _ => within_lift_bind fun _ _ => ?_)
  refine (within_hold (w := w + 2 * m) _ ?_).mono (Nat.le_refl _) (Nat.le_refl _) (by omega)
  refine (within_bind (s := 3 * l.length + l.length) (t := 3 * r.length + r.length + (fuel * iterCost m + 6 * (m * m) + 18 * m + 133 + m))
    (ofWords_within _ _ _ (by omega)) fun lb hlb => ?_).mono (by omega) (Nat.le_refl _) (Nat.le_refl _)
  refine within_bind (ofWords_within _ _ _ (by omega)) fun rb hrb => ?_
  have s1 := small_ofWords hl ml hlb
  have s2 := small_ofWords hr mr hrb
  refine within_bind (gcdBuffers_within fuel s1 s2) fun b hb => ?_
  rw [gcdBuffers_res] at hb
  exact (within_tick_pure _ _ _ _).mono (gcdBuffers_length fuel s1 s2 hb) (Nat.le_refl _) (Nat.le_refl _)

theorem gcdVec_length (fuel : Nat) {l r b : List Nat} (hl : WordsOk l) (hr : WordsOk r) (ml : l.length ≤ m) (mr : r.length ≤ m)
    (h : BigIntegerCpp.gcdVec fuel l r = .ok b) : b.length ≤ m := by
  unfold BigIntegerCpp.gcdVec at h
  obtain ⟨_, -, h⟩ := Res.bind_eq_ok h
  obtain ⟨_, -, h⟩ := Res.bind_eq_ok h
  obtain ⟨_, -, h⟩ := Res.bind_eq_ok h
  obtain ⟨lb, hlb, h⟩ := Res.bind_eq_ok h
  obtain ⟨rb, hrb, h⟩ := Res.bind_eq_ok h
  obtain ⟨c, hc, h⟩ := Res.bind_eq_ok h
  cases h
  exact gcdBuffers_length fuel (small_ofWords hl ml hlb) (small_ofWords hr mr hrb) hc

theorem gcdBits_within (fuel : Nat) {l r : List Nat} (hl : WordsOk l) (hr : WordsOk r) (ml : l.length ≤ m) (mr : r.length ≤ m) :
    Within (gcdBits fuel l r) (fuel * iterCost m + 6 * (m * m) + 34 * m + 133) d (w + 8 * m) := by
  unfold gcdBits
  refine (within_tick_bind (t := fuel * iterCost m + 6 * (m * m) + 33 * m + 133) (within_lift_bind fun _ _ => ?_)).mono (by omega) (Nat.le_refl _) (Nat.le_refl _)
  refine within_ite (fun _ => ?_) fun _ => within_ite (fun h2 => ?_) fun _ => ?_
  · refine within_lift_bind fun _ _ => (within_bind (t := 64) (remainderWord_within _ _ _ _) fun t ht => ?_).mono (by omega) (Nat.le_refl _) (Nat.le_refl _)
    rw [remainderWord_res] at ht
    have : t < 2 ^ 32 := remainderWord_all t ht
    exact within_bind (t := 0) (gcd32_within _ _ 32 this) fun _ _ => within_lift _ _ _
  · refine (within_hold (w := w) _ ?_).mono (Nat.le_refl _) (Nat.le_refl _) (by omega)
    refine (within_bind (t := 129) (remainderVec_within _ _ hl hr) fun t ht => ?_).mono ?_ (Nat.le_refl _) (Nat.le_refl _)
    · rw [remainderVec_res] at ht
      refine within_lift_bind fun _ _ => within_lift_bind fun _ _ => within_lift_bind fun _ _ => within_lift_bind fun t0 h0 => ?_
      exact within_bind (t := 0) (gcd64_within _ _ (j := 32) (two_words_lt (idx_all (remainderVec_all hl t ht) _ _ h0)) (by omega)) fun _ _ => within_lift _ _ _
    · rw [h2]; omega
  · refine (within_hold (w := w + 7 * m) _ ?_).mono (Nat.le_refl _) (Nat.le_refl _) (by omega)
    refine (within_bind (t := 3 * m) (gcdVec_within fuel hl hr ml mr) fun b hb => ?_).mono (by omega) (Nat.le_refl _) (Nat.le_refl _)
    rw [gcdVec_res] at hb
    have := gcdVec_length fuel hl hr ml mr hb
    exact (ofMagnitude_within _ w _ _).mono (by omega) (Nat.le_refl _) (by omega)

theorem gcdWord_within {l : List Nat} {v : Nat} (ml : l.length ≤ m) : Within (gcdWord l v) (2 * m + 64) d (w + m) := by
  unfold gcdWord
  refine (within_scope (s := l.length + 64) (w := w) _ ?_).mono (by omega) (Nat.le_refl _) (by omega)
  refine within_lift_bind fun _ _ => within_lift_bind fun _ _ => within_bind (remainderWord_within _ _ _ _) fun t ht => ?_
  rw [remainderWord_res] at ht
  have : t < 2 ^ 32 := remainderWord_all t ht
  exact gcd32_within _ _ 32 this

theorem gcd_small_within (fuel : Nat) {a b : BigInt} (hb : b.Valid) (h : a.bits = [] ∨ b.bits = [])
    (ma : a.bits.length ≤ m) (mb : b.bits.length ≤ m) : Within (gcd fuel a b) (3 * m + 64) d (w + m) := by
  unfold gcd
  refine within_lift_bind fun _ _ => within_lift_bind fun _ _ => ?_
  refine within_ite (fun h0 => ?_) fun _ => within_ite (fun _ => ?_) fun h1 => within_ite (fun _ => ?_) fun h2 => ?_
  · refine within_lift_bind fun _ _ => within_lift_bind fun y hy => ?_
    have hy : y < 2 ^ 32 := cabs_all hb.signRange y hy
    exact (within_bind (t := 0) (gcd32_within _ _ 32 hy) fun _ _ => within_lift _ _ _).mono (by omega) (Nat.le_refl _) (Nat.le_refl _)
  · refine within_ite (fun _ => within_lift_bind fun _ _ => ?_) fun _ => (ofMagnitude_within _ w _ _).mono (by omega) (Nat.le_refl _) (by omega)
    exact (within_bind (t := 0) (gcdWord_within (w := w) mb) fun _ _ => within_lift _ _ _).mono (by omega) (Nat.le_refl _) (Nat.le_refl _)
  · refine within_ite (fun _ => within_lift_bind fun _ _ => ?_) fun _ => (ofMagnitude_within _ w _ _).mono (by omega) (Nat.le_refl _) (by omega)
    exact (within_bind (t := 0) (gcdWord_within (w := w) ma) fun _ _ => within_lift _ _ _).mono (by omega) (Nat.le_refl _) (Nat.le_refl _)
  · rcases h with h | h
    · exact absurd h h1
    · exact absurd h h2

theorem gcd_big_within (fuel : Nat) {a b : BigInt} (ha : a.Valid) (hb : b.Valid) (ma : a.bits.length ≤ m) (mb : b.bits.length ≤ m) :
    Within (gcd fuel a b) (fuel * iterCost m + 6 * (m * m) + 35 * m + 133) d (w + 8 * m) := by
  by_cases h : a.bits = [] ∨ b.bits = []
  · exact (gcd_small_within (w := w) fuel hb h ma mb).mono (by omega) (Nat.le_refl _) (by omega)
  have h1 : a.bits ≠ [] := fun e => h (.inl e)
  have h2 : b.bits ≠ [] := fun e => h (.inr e)
  unfold gcd
  refine within_lift_bind fun _ _ => within_lift_bind fun _ _ => ?_
  rw [if_neg (fun e => h1 e.1), if_neg h1, if_neg h2]
  refine (within_tick_bind (t := fuel * iterCost m + 6 * (m * m) + 34 * m + 133) ?_).mono (by omega) (Nat.le_refl _) (Nat.le_refl _)
  exact within_ite (fun _ => gcdBits_within fuel hb.words ha.words mb ma) fun _ => gcdBits_within fuel ha.words hb.words ma mb

/-- Two operands of at least one word, the smaller one of at most two. -/
theorem gcd_short_within (fuel : Nat) {a b : BigInt} (ha : a.Valid) (hb : b.Valid) (h : a.bits.length ≤ 2 ∨ b.bits.length ≤ 2)
    (ma : a.bits.length ≤ m) (mb : b.bits.length ≤ m) : Within (gcd fuel a b) (20 * m + 129) d (w + m) := by
  by_cases h0 : a.bits = [] ∨ b.bits = []
  · exact (gcd_small_within (w := w) fuel hb h0 ma mb).mono (by omega) (Nat.le_refl _) (by omega)
  have h1 : a.bits ≠ [] := fun e => h0 (.inl e)
  have h2 : b.bits ≠ [] := fun e => h0 (.inr e)
  have l1 := List.length_pos_iff.2 h1
  have l2 := List.length_pos_iff.2 h2
  have key : ∀ {l r : List Nat}, WordsOk l → WordsOk r → l.length ≤ m → r.length ≤ m → 1 ≤ r.length → r.length ≤ 2 →
      Within (gcdBits fuel l r) (19 * m + 129) d (w + m) := by
    intro l r hl hr ml mr r1 r2
    unfold gcdBits
    refine (within_tick_bind (t := 18 * m + 129) (within_lift_bind fun _ _ => ?_)).mono (by omega) (Nat.le_refl _) (Nat.le_refl _)
    refine within_ite (fun _ => ?_) fun h1 => ?_
    · refine within_lift_bind fun _ _ => (within_bind (t := 64) (remainderWord_within _ _ _ _) fun t ht => ?_).mono (by omega) (Nat.le_refl _) (Nat.le_refl _)
      rw [remainderWord_res] at ht
      have : t < 2 ^ 32 := remainderWord_all t ht
      exact within_bind (t := 0) (gcd32_within _ _ 32 this) fun _ _ => within_lift _ _ _
    · have h2 : r.length = 2 := by omega
      rw [if_pos h2]
      refine (within_hold (w := w) _ ?_).mono (Nat.le_refl _) (Nat.le_refl _) (by omega)
      refine (within_bind (t := 129) (remainderVec_within _ _ hl hr) fun t ht => ?_).mono ?_ (Nat.le_refl _) (Nat.le_refl _)
      · rw [remainderVec_res] at ht
        refine within_lift_bind fun _ _ => within_lift_bind fun _ _ => within_lift_bind fun _ _ => within_lift_bind fun t0 h0 => ?_
        exact within_bind (t := 0) (gcd64_within _ _ (j := 32) (two_words_lt (idx_all (remainderVec_all hl t ht) _ _ h0)) (by omega)) fun _ _ => within_lift _ _ _
      · rw [h2]; omega
  unfold gcd
  refine within_lift_bind fun _ _ => within_lift_bind fun _ _ => ?_
  rw [if_neg (fun e => h1 e.1), if_neg h1, if_neg h2]
  refine (within_tick_bind (t := 19 * m + 129) ?_).mono (by omega) (Nat.le_refl _) (Nat.le_refl _)
  refine within_ite (fun hc => ?_) fun hc => ?_
  · refine key hb.words ha.words mb ma l1 ?_
    by_contra hgt
    unfold compareWords at hc
    rw [if_neg (by omega), if_pos (by omega)] at hc
    omega
  · refine key ha.words hb.words ma mb l2 ?_
    by_contra hgt
    unfold compareWords at hc
    rw [if_pos (by omega)] at hc
    omega

/-! ### more fuel -/

/-- The same outcome at the same cost, unless the first ran out of fuel. -/
def Same {α : Type} (r r' : Counted α) : Prop := r.res = .diverge ∨ r = r'

theorem Same.refl {α : Type} (r : Counted α) : Same r r := .inr rfl

theorem Same.bind {α β : Type} {r r' : Counted α} {f f' : α → Counted β} (h : Same r r') (hf : ∀ x, Same (f x) (f' x)) :
    Same (r >>= f) (r' >>= f') := by
  rcases h with h | rfl
  · exact .inl (by rw [bind_res, h]; rfl)
  · cases hr : r.res with
    | ok a =>
      rcases hf a with h | h
      · exact .inl (by rw [bind_res, hr]; exact h)
      · refine .inr ?_
        show Counted.bind r f = Counted.bind r f'
        unfold Counted.bind
        rw [hr]
        dsimp only
        rw [h]
    | _ =>
      refine .inr ?_
      show Counted.bind r f = Counted.bind r f'
      unfold Counted.bind
      rw [hr]

theorem Same.scope {α : Type} {r r' : Counted α} (n : Nat) (h : Same r r') : Same (scope n r) (scope n r') := by
  rcases h with h | rfl
  · exact .inl h
  · exact .refl _
theorem Same.hold {α : Type} {r r' : Counted α} (n : Nat) (h : Same r r') : Same (hold n r) (hold n r') := by
  rcases h with h | rfl
  · exact .inl h
  · exact .refl _
theorem Same.ite {α : Type} {p : Prop} [Decidable p] {r r' s s' : Counted α} (h : Same r r') (h' : Same s s') :
    Same (if p then r else s) (if p then r' else s') := by
  by_cases hp : p
  · rw [if_pos hp, if_pos hp]; exact h
  · rw [if_neg hp, if_neg hp]; exact h'

theorem gcdLoop_same (fuel : Nat) : ∀ x y : BitsBuffer, Same (gcdLoop fuel x y) (gcdLoop (fuel + 1) x y) := by
  induction fuel with
  | zero => intro x y; exact .inl rfl
  | succ fuel ih =>
    intro x y
    rw [gcdLoop, gcdLoop.eq_def (fuel + 1 + 1)]
    refine .ite ?_ (.refl _)
    refine .bind (.refl _) fun _ => .bind (.refl _) fun _ => .bind (.refl _) fun g => ?_
    refine .ite ?_ ?_
    · exact .bind (.refl _) fun _ => .bind (.refl _) fun _ => ih _ _
    · exact .bind (.refl _) fun _ => .ite (.bind (.refl _) fun _ => ih _ _) (ih _ _)

theorem gcdBits_same (fuel : Nat) (l r : List Nat) : Same (gcdBits fuel l r) (gcdBits (fuel + 1) l r) := by
  unfold gcdBits gcdVec gcdBuffers
  refine .bind (.refl _) fun _ => .bind (.refl _) fun _ => .ite (.refl _) (.ite (.refl _) (.hold _ ?_))
  refine .bind (.scope _ ?_) fun _ => .refl _
  refine .bind (.refl _) fun _ => .bind (.refl _) fun _ => .bind (.refl _) fun _ => .bind (.refl _) fun _ => .hold _ ?_
  refine .bind (.refl _) fun _ => .bind (.refl _) fun _ => .bind ?_ fun _ => .refl _
  exact .bind (.refl _) fun _ => .bind (.refl _) fun _ => .bind (.refl _) fun _ => .bind (gcdLoop_same _ _ _) fun _ => .refl _

theorem gcd_same (fuel : Nat) (a b : BigInt) : Same (gcd fuel a b) (gcd (fuel + 1) a b) := by
  unfold gcd
  refine .bind (.refl _) fun _ => .bind (.refl _) fun _ => .ite (.refl _) (.ite (.refl _) (.ite (.refl _) ?_))
  exact .bind (.refl _) fun _ => .ite (gcdBits_same _ _ _) (gcdBits_same _ _ _)

/-- Once the call has ended, more fuel changes neither the outcome nor the cost. -/
theorem gcd_same_le {n fuel : Nat} (h : n ≤ fuel) (a b : BigInt) (hn : BigInt.gcd n a b ≠ .diverge) : gcd fuel a b = gcd n a b := by
  induction h with
  | refl => rfl
  | step h ih =>
    rename_i k
    rcases gcd_same k a b with h' | h'
    · rw [ih, gcd_res] at h'; exact absurd h' hn
    · rw [← h', ih]

/-! ### from below -/

theorem low_bind {α β : Type} {r : Counted α} {f : α → Counted β} {k n : Nat} (hr : r.res ≠ .diverge) (hk : k ≤ r.steps)
    (hf : ∀ a, r.res = .ok a → (f a).res = .diverge → n ≤ (f a).steps) (h : (r >>= f).res = .diverge) : k + n ≤ (r >>= f).steps := by
  rw [bind_res] at h
  show _ ≤ (Counted.bind r f).steps
  unfold Counted.bind
  cases hres : r.res with
  | ok a =>
    rw [hres] at h
    dsimp only
    exact Nat.add_le_add hk (hf a hres h)
  | diverge => exact absurd hres hr
  | throw e => rw [hres] at h; cases h
  | abort => rw [hres] at h; cases h
  | ub u => rw [hres] at h; cases h

theorem low_bind' {α β : Type} {r : Counted α} {f : α → Counted β} {n : Nat} (hr : r.res ≠ .diverge)
    (hf : ∀ a, r.res = .ok a → (f a).res = .diverge → n ≤ (f a).steps) (h : (r >>= f).res = .diverge) : n ≤ (r >>= f).steps := by
  have := low_bind hr (Nat.zero_le _) hf h
  omega

theorem low_first {α β : Type} {r : Counted α} {f : α → Counted β} {n : Nat} (hr : r.res = .diverge → n ≤ r.steps)
    (hf : ∀ a, (f a).res ≠ .diverge) (h : (r >>= f).res = .diverge) : n ≤ (r >>= f).steps := by
  rw [bind_res] at h
  show _ ≤ (Counted.bind r f).steps
  unfold Counted.bind
  cases hres : r.res with
  | ok a => rw [hres] at h; exact absurd h (hf a)
  | diverge => exact hr hres
  | throw e => rw [hres] at h; cases h
  | abort => rw [hres] at h; cases h
  | ub u => rw [hres] at h; cases h

theorem gcdLoop_low (fuel : Nat) : ∀ {x y : BitsBuffer}, Small m x → Small m y → (gcdLoop fuel x y).res = .diverge →
    fuel * (x.bits.length + y.bits.length + 1) ≤ (gcdLoop fuel x y).steps := by
  induction fuel with
  | zero => intro x y _ _ _; omega
  | succ fuel ih =>
    intro x y hx hy h
    rw [gcdLoop] at h ⊢
    by_cases hl : y.length > 2
    swap
    · rw [if_neg hl] at h; cases h
    rw [if_pos hl] at h ⊢
    have e : (fuel + 1) * (x.bits.length + y.bits.length + 1) = 1 + ((x.bits.length + y.bits.length) + fuel * (x.bits.length + y.bits.length + 1)) := by
      rw [Nat.add_mul fuel]; omega
    rw [e]
    refine low_bind nofun (Nat.le_refl 1) (fun _ _ h => ?_) h
    refine low_bind ?_ (k := x.bits.length + y.bits.length) (by show _ ≤ 0 + _; omega) (fun p hp h => ?_) h
    · rw [extractDigits_res]; exact fun h => ((extractDigits_only (D := False) (E := [])).1 h)
    rw [extractDigits_res] at hp
    obtain ⟨p1, p2⟩ := p
    obtain ⟨l1, l2, -⟩ := extractDigits_lt hx.words hy.words hp
    dsimp only at l1 l2 h ⊢
    refine low_bind' ?_ (fun g hg h => ?_) h
    · rw [lehmerGuess_res]
      exact fun h => ((lehmerGuess_only (D := False) (E := []) _ _ _ (by omega) (by omega)).1 h)
    by_cases hb : g.b = 0
    · rw [if_pos hb] at h ⊢
      refine low_bind' ?_ (fun r hr h => ?_) h
      · rw [reduceBy_res]; exact fun h => ((reduceBy_only (D := False) (E := []) hy.words).1 h)
      rw [reduceBy_res] at hr
      obtain ⟨hr, hlen, -⟩ := hx.reduceBy hr
      refine low_bind' (by rw [swap_res]; nofun) (fun q hq h => ?_) h
      rw [swap_res] at hq
      cases hq
      dsimp only at h ⊢
      have := ih hy hr h
      rw [hlen, Nat.add_comm y.bits.length] at this
      exact this
    · rw [if_neg hb] at h ⊢
      refine low_bind' ?_ (fun r hr h => ?_) h
      · rw [lehmerCore_res]; exact fun h => ((lehmerCore_only (D := False) (E := [])).1 h)
      rw [lehmerCore_res] at hr
      obtain ⟨r1, r2⟩ := r
      obtain ⟨s1, s2, -, e1, e2⟩ := hx.lehmerCore hy hr
      dsimp only at s1 s2 e1 e2 h ⊢
      by_cases hi : g.iteration % 2 = 1
      · rw [if_pos hi] at h ⊢
        refine low_bind' (by rw [swap_res]; nofun) (fun q hq h => ?_) h
        rw [swap_res] at hq
        cases hq
        dsimp only at h ⊢
        have := ih s2 s1 h
        rw [e1, e2, Nat.add_comm y.bits.length] at this
        exact this
      · rw [if_neg hi] at h ⊢
        have := ih s1 s2 h
        rw [e1, e2] at this
        exact this

theorem gcdBits_low (fuel : Nat) {l r : List Nat} (hl : WordsOk l) (hr : WordsOk r) (h1 : 3 ≤ r.length)
    (h : (gcdBits fuel l r).res = .diverge) : fuel * (l.length + r.length + 1) ≤ (gcdBits fuel l r).steps := by
  have hA : ∀ {c : Prop} [Decidable c], (lift (cassert c)).res ≠ .diverge :=
    fun h => (cassert_only (D := False) (E := [])).1 h
  unfold gcdBits at h ⊢
  refine low_bind' nofun (fun _ _ h => ?_) h
  refine low_bind' hA (fun _ _ h => ?_) h
  rw [if_neg (by omega), if_neg (by omega)] at h ⊢
  refine low_first (fun h => ?_) (fun b h => ?_) h
  swap
  · rw [ofMagnitude_res] at h
    exact (ofMagnitude_only (D := False) (E := [])).1 h
  unfold gcdVec at h ⊢
  refine Nat.le_trans ?_ (Nat.le_add_right _ _)
  refine low_bind' nofun (fun _ _ h => ?_) h
  refine low_bind' hA (fun _ _ h => ?_) h
  refine low_bind' hA (fun _ _ h => ?_) h
  refine low_bind' hA (fun _ _ h => ?_) h
  refine low_bind' ?_ (fun lb hlb h => ?_) h
  · rw [ofWords_res]; exact fun h => (BitsBuffer.ofWords_only (D := False) (E := [])).1 h
  refine low_bind' ?_ (fun rb hrb h => ?_) h
  · rw [ofWords_res]; exact fun h => (BitsBuffer.ofWords_only (D := False) (E := [])).1 h
  have s1 := small_ofWords (m := l.length + r.length) hl (by omega) hlb
  have s2 := small_ofWords (m := l.length + r.length) hr (by omega) hrb
  have e1 := ofWords_bits_length hlb
  have e2 := ofWords_bits_length hrb
  refine low_first (fun h => ?_) (fun b h => by cases h) h
  unfold gcdBuffers at h ⊢
  refine low_bind' hA (fun _ _ h => ?_) h
  refine low_bind' hA (fun _ _ h => ?_) h
  refine low_bind' hA (fun _ _ h => ?_) h
  rw [← e1, ← e2]
  rcases hg : (gcdLoop fuel lb rb).res with p | _ | _ | _ | _
  case ok =>
    exfalso
    rw [bind_res, hg] at h
    rw [gcdLoop_res] at hg
    obtain ⟨g1, g2⟩ := s1.gcdLoop fuel s2 hg
    obtain ⟨p1, p2⟩ := p
    dsimp only at g1 g2
    rw [Res.ok_bind] at h
    dsimp only at h
    by_cases hp : p2.length > 0
    · rw [if_pos hp] at h
      simp only [bind_res, scope_res, lift_res, reduceBy_res, gcd64_res, Res.ok_bind, overwrite_res] at h
      exact (Res.Out.bind (reduceBy_only (D := False) (E := []) g2.words) fun _ _ => .bind idx_only fun _ _ => .bind idx_only fun _ _ =>
        .bind idx_only fun _ _ => .bind idx_only fun _ _ => overwrite_only).1 h
    · rw [if_neg hp] at h; cases h
  case diverge =>
    have := gcdLoop_low fuel s1 s2 hg
    refine this.trans ?_
    show _ ≤ (Counted.bind _ _).steps
    unfold Counted.bind
    rw [hg]
  all_goals rw [bind_res, hg] at h; cases h

theorem gcd_low (fuel : Nat) {a b : BigInt} (ha : a.Valid) (hb : b.Valid) (h : BigInt.gcd fuel a b = .diverge) :
    fuel * (a.bits.length + b.bits.length + 1) ≤ (gcd fuel a b).steps := by
  have h2 : 2 < a.bits.length ∧ 2 < b.bits.length := by
    have := (BigInt.gcd_only (fuel := fuel) (E := []) (D := 2 < a.bits.length ∧ 2 < b.bits.length) ha hb fun h1 h2 => ⟨h1, h2⟩).1 h
    exact this
  have n1 : a.bits ≠ [] := by intro e; rw [e] at h2; simp at h2
  have n2 : b.bits ≠ [] := by intro e; rw [e] at h2; simp at h2
  rw [← gcd_res] at h
  unfold gcd at h ⊢
  refine low_bind' (fun h => (assertValid_only (D := False) (E := [])).1 h) (fun _ _ h => ?_) h
  refine low_bind' (fun h => (assertValid_only (D := False) (E := [])).1 h) (fun _ _ h => ?_) h
  rw [if_neg (fun e => n1 e.1), if_neg n1, if_neg n2] at h ⊢
  refine low_bind' nofun (fun _ _ h => ?_) h
  by_cases hc : compareWords a.bits b.bits < 0
  · rw [if_pos hc] at h ⊢
    have := gcdBits_low fuel hb.words ha.words h2.1 h
    rw [Nat.add_comm b.bits.length] at this
    exact this
  · rw [if_neg hc] at h ⊢
    exact gcdBits_low fuel ha.words hb.words h2.2 h

end Cost
end BigIntegerCpp
