import Verif.Model.Gcd
import Verif.GcdSpec
import Verif.Lemmas.PowProps
import Mathlib.Data.Nat.GCD.Basic
/-
Lemmas about Model/Gcd.lean.
-/
set_option linter.unusedSectionVars false
set_option linter.unnecessarySeqFocus false
namespace BigIntegerCpp
variable [Cfg]

theorem gcd32_spec (l r : Nat) : gcd32 l r = Nat.gcd l r := by
  induction r using Nat.strongRecOn generalizing l with
  | ind r ih =>
  rw [gcd32]
  by_cases h : r = 0
  · rw [dif_pos h, h, Nat.gcd_zero_right]
  · rw [dif_neg h, ih _ (Nat.mod_lt _ (by omega)), Nat.gcd_comm l r, Nat.gcd_rec r l, Nat.gcd_comm]

theorem gcd64_spec (l r : Nat) : gcd64 l r = Nat.gcd l r := by
  induction r using Nat.strongRecOn generalizing l with
  | ind r ih =>
  rw [gcd64]
  by_cases h : r > 0xFFFFFFFF
  · rw [dif_pos h, ih _ (Nat.mod_lt _ (by omega)), Nat.gcd_comm l r, Nat.gcd_rec r l, Nat.gcd_comm]
  · rw [dif_neg h]
    by_cases h0 : r = 0
    · rw [if_neg (by simpa using h0), h0, Nat.gcd_zero_right]
    · have := Nat.mod_lt l (Nat.pos_of_ne_zero h0)
      rw [if_pos h0, u32_of_lt (by omega), u32_of_lt (by omega), gcd32_spec, Nat.gcd_comm l r, Nat.gcd_rec r l, Nat.gcd_comm]

/-! ### words of a number -/

theorem getD_eq_digit {xs : List Nat} (hw : WordsOk xs) (i : Nat) : xs[i]?.getD 0 = val xs / 𝔹 ^ i % 𝔹 := by
  induction xs generalizing i with
  | nil => simp
  | cons x xs ih =>
    obtain ⟨hx, hxs⟩ := wordsOk_cons.1 hw
    cases i with
    | zero => simp [val_cons]; omega
    | succ i =>
      rw [List.getElem?_cons_succ, ih hxs, val_cons, pow_succ, Nat.mul_comm (𝔹 ^ i), ← Nat.div_div_eq_div_mul]
      congr 2
      omega

theorem top_three {Y l : Nat} (hl : 3 ≤ l) (hY : Y < 𝔹 ^ l) :
    Y / 𝔹 ^ (l - 3) = Y / 𝔹 ^ (l - 1) % 𝔹 * (𝔹 * 𝔹) + Y / 𝔹 ^ (l - 2) % 𝔹 * 𝔹 + Y / 𝔹 ^ (l - 3) % 𝔹 := by
  have e1 : 𝔹 ^ (l - 2) = 𝔹 ^ (l - 3) * 𝔹 := by rw [← pow_succ]; congr 1; omega
  have e2 : 𝔹 ^ (l - 1) = 𝔹 ^ (l - 3) * 𝔹 * 𝔹 := by rw [← pow_succ, ← pow_succ]; congr 1; omega
  have e3 : 𝔹 ^ l = 𝔹 ^ (l - 3) * (𝔹 * 𝔹 * 𝔹) := by
    rw [← mul_assoc, ← mul_assoc, ← pow_succ, ← pow_succ, ← pow_succ]; congr 1; omega
  have hlt : Y / 𝔹 ^ (l - 3) < 𝔹 * 𝔹 * 𝔹 := by
    rw [Nat.div_lt_iff_lt_mul (by positivity), Nat.mul_comm, ← e3]; exact hY
  rw [e1, e2, ← Nat.div_div_eq_div_mul, ← Nat.div_div_eq_div_mul]
  generalize Y / 𝔹 ^ (l - 3) = T at *
  omega

/-- The 63 leading bits are cut out correctly. -/
theorem combine {z h m l : Nat} (hz : z < 32) (hh : h * 2 ^ z < 4294967296) (hm : m < 4294967296) (hl : l < 4294967296) :
    (u64 (h <<< (32 + z)) ||| u64 (m <<< z) ||| (l >>> (32 - z))) >>> 1 = (h * (𝔹 * 𝔹) + m * 𝔹 + l) / 2 ^ (33 - z) := by
  have hB : (4294967296 : Nat) = 2 ^ (32 - z) * 2 ^ z := by
    rw [← pow_add, show 32 - z + z = 32 by omega]; norm_num
  have hp : 2 ^ z ≤ 2147483648 := by
    have : (2 : Nat) ^ z ≤ 2 ^ 31 := Nat.pow_le_pow_right (by decide) (by omega)
    simpa using this
  have e1 : u64 (h <<< (32 + z)) = 2 ^ (32 + z) * h := by
    rw [Nat.shiftLeft_eq, pow_add, u64_of_lt]
    · ring
    · have : h * (2 ^ 32 * 2 ^ z) = h * 2 ^ z * 4294967296 := by norm_num; ring
      rw [this]; omega
  have hmz : m * 2 ^ z < 2 ^ (32 + z) := by
    rw [pow_add]
    exact Nat.mul_lt_mul_of_pos_right hm (by positivity)
  have e2 : u64 (m <<< z) = m * 2 ^ z := by
    rw [Nat.shiftLeft_eq, u64_of_lt]
    calc m * 2 ^ z ≤ m * 2147483648 := Nat.mul_le_mul_left _ hp
      _ < 18446744073709551616 := by omega
  have hlz : l / 2 ^ (32 - z) < 2 ^ z := by
    rw [Nat.div_lt_iff_lt_mul (by positivity), Nat.mul_comm, ← hB]; exact hl
  rw [e1, e2, Nat.shiftRight_eq_div_pow, Nat.shiftRight_eq_div_pow, ← Nat.two_pow_add_eq_or_of_lt hmz]
  have e3 : 2 ^ (32 + z) * h + m * 2 ^ z = 2 ^ z * (h * 𝔹 + m) := by rw [pow_add]; norm_num; ring
  rw [e3, ← Nat.two_pow_add_eq_or_of_lt hlz]
  have e4 : h * (𝔹 * 𝔹) + m * 𝔹 + l = 2 ^ (32 - z) * (2 ^ z * (h * 𝔹 + m)) + l := by
    rw [← mul_assoc (2 ^ (32 - z)), ← hB]; ring
  rw [e4, show 33 - z = (32 - z) + 1 by omega, pow_succ (2 : Nat) (32 - z), ← Nat.div_div_eq_div_mul,
    Nat.mul_add_div (by positivity), pow_one]

/-- Without the assertion at the end. -/
theorem extractDigits_core {N M : Nat} {xb yb : BitsBuffer} {X Y : Nat} (hx : Buf N xb X) (hy : Buf M yb Y)
    (h3 : 3 ≤ yb.length) (hYX : Y < 2 ^ (Nat.log2 X + 1)) :
    extractDigits xb yb = (do
      cassert (X / 2 ^ (Nat.log2 X - 62) ≥ Y / 2 ^ (Nat.log2 X - 62))
      .ok (X / 2 ^ (Nat.log2 X - 62), Y / 2 ^ (Nat.log2 X - 62))) := by
  have hwx : WLen xb.length X := by rw [hx.len, ← hx.value]; exact wlen_trimLen hx.words
  have hwy : WLen yb.length Y := by rw [hy.len, ← hy.value]; exact wlen_trimLen hy.words
  have hYlt : Y < 𝔹 ^ xb.length := by
    refine lt_of_lt_of_le hYX ?_
    rw [base_pow]
    refine Nat.pow_le_pow_right (by decide) ?_
    rcases Nat.eq_zero_or_pos X with h0 | h0
    · subst h0
      have h1 : Y < 2 := by simpa using hYX
      have h2 : yb.length ≤ 1 := hy.len_le (k := 1) (by omega)
      omega
    · exact (Nat.log2_lt (by omega)).2 (by rw [← base_pow]; exact hwx.1)
  have hlen : yb.length ≤ xb.length := by
    rw [hy.len]; exact trimLen_le_of_val (by rw [hy.value]; exact hYlt)
  have hxs := hx.len_le_size
  have hys := hy.len_le_size
  have hxb := hx.size
  have hyb := hy.size
  have dx : ∀ i, xb.bits[i]?.getD 0 = X / 𝔹 ^ i % 𝔹 := fun i => by rw [getD_eq_digit hx.words, hx.value]
  have dy : ∀ i, yb.bits[i]?.getD 0 = Y / 𝔹 ^ i % 𝔹 := fun i => by rw [getD_eq_digit hy.words, hy.value]
  have dy0 : ∀ i, yb.length ≤ i → Y / 𝔹 ^ i % 𝔹 = 0 := fun i hi => by
    rw [Nat.div_eq_of_lt (lt_of_lt_of_le hwy.1 (Nat.pow_le_pow_right (by decide) hi))]
  unfold extractDigits
  rw [cassert_pos (by omega), Res.ok_bind, cassert_pos (by omega), Res.ok_bind, cassert_pos hlen, Res.ok_bind,
    if_neg (by omega), idx_getD (by omega), Res.ok_bind, idx_getD (by omega), Res.ok_bind, idx_getD (by omega), Res.ok_bind]
  have ey : (if xb.length = yb.length then (do
      let yh ← idx yb.bits (yb.length - 1)
      let ym ← idx yb.bits (yb.length - 2)
      let yl ← idx yb.bits (yb.length - 3)
      .ok (yh, ym, yl) : Res (Nat × Nat × Nat))
    else if xb.length = yb.length + 1 then do
      let ym ← idx yb.bits (yb.length - 1)
      let yl ← idx yb.bits (yb.length - 2)
      .ok (0, ym, yl)
    else if xb.length = yb.length + 2 then do
      let yl ← idx yb.bits (yb.length - 1)
      .ok (0, 0, yl)
    else .ok (0, 0, 0)) = .ok (Y / 𝔹 ^ (xb.length - 1) % 𝔹, Y / 𝔹 ^ (xb.length - 2) % 𝔹, Y / 𝔹 ^ (xb.length - 3) % 𝔹) := by
    by_cases h0 : xb.length = yb.length
    · rw [if_pos h0, idx_getD (by omega), Res.ok_bind, idx_getD (by omega), Res.ok_bind, idx_getD (by omega), Res.ok_bind,
        dy, dy, dy, h0]
    rw [if_neg h0]
    by_cases h1 : xb.length = yb.length + 1
    · rw [if_pos h1, idx_getD (by omega), Res.ok_bind, idx_getD (by omega), Res.ok_bind, dy, dy, h1,
        dy0 (yb.length + 1 - 1) (by omega)]
      rfl
    rw [if_neg h1]
    by_cases h2 : xb.length = yb.length + 2
    · rw [if_pos h2, idx_getD (by omega), Res.ok_bind, dy, h2, dy0 (yb.length + 2 - 1) (by omega),
        dy0 (yb.length + 2 - 2) (by omega)]
      rfl
    · rw [if_neg h2, dy0 _ (by omega), dy0 _ (by omega), dy0 _ (by omega)]
  rw [ey, Res.ok_bind, dx, dx, dx]
  dsimp only
  have hX1 : 𝔹 ^ (xb.length - 1) ≤ X := by
    rcases hwx.2 with h | h
    · omega
    · exact h
  have hBl : 𝔹 ^ xb.length = 𝔹 ^ (xb.length - 1) * 𝔹 := by rw [← pow_succ]; congr 1; omega
  have hqlt : X / 𝔹 ^ (xb.length - 1) < 𝔹 := by
    rw [Nat.div_lt_iff_lt_mul (by positivity), Nat.mul_comm, ← hBl]; exact hwx.1
  have hq0 : X / 𝔹 ^ (xb.length - 1) ≠ 0 := by
    have := Nat.div_pos hX1 (by positivity)
    omega
  have hxh : X / 𝔹 ^ (xb.length - 1) % 𝔹 = X / 𝔹 ^ (xb.length - 1) := Nat.mod_eq_of_lt hqlt
  obtain ⟨z1, z2, z3⟩ := leadingZeros_spec hq0 hqlt
  rw [hxh]
  have hX0 : X ≠ 0 := by
    have : 0 < 𝔹 ^ (xb.length - 1) := by positivity
    omega
  have hlog0 : Nat.log2 X = 32 * (xb.length - 1) + (31 - leadingZeros (X / 𝔹 ^ (xb.length - 1))) := by
    generalize leadingZeros (X / 𝔹 ^ (xb.length - 1)) = z at *
    have hB : (4294967296 : Nat) = 2 ^ (32 - z) * 2 ^ z := by
      rw [← pow_add, show 32 - z + z = 32 by omega]; norm_num
    have hB2 : (2147483648 : Nat) = 2 ^ (31 - z) * 2 ^ z := by
      rw [← pow_add, show 31 - z + z = 31 by omega]; norm_num
    have a1 : 2 ^ (31 - z) ≤ X / 𝔹 ^ (xb.length - 1) := by
      have z2' := le_of_eq_of_le hB2.symm z2
      exact Nat.le_of_mul_le_mul_right z2' (by positivity)
    have a2 : X / 𝔹 ^ (xb.length - 1) < 2 ^ (32 - z) := by
      have z3' := lt_of_lt_of_eq z3 hB
      exact Nat.lt_of_mul_lt_mul_right z3'
    rw [Nat.log2_eq_iff hX0, pow_add, ← base_pow, show 32 * (xb.length - 1) + (31 - z) + 1 =
      32 * (xb.length - 1) + (32 - z) by omega, pow_add, ← base_pow]
    constructor
    · have := Nat.div_mul_le_self X (𝔹 ^ (xb.length - 1))
      calc 𝔹 ^ (xb.length - 1) * 2 ^ (31 - z) ≤ 𝔹 ^ (xb.length - 1) * (X / 𝔹 ^ (xb.length - 1)) := Nat.mul_le_mul_left _ a1
        _ ≤ X := by rw [Nat.mul_comm]; exact this
    · rw [Nat.mul_comm]
      exact (Nat.div_lt_iff_lt_mul (by positivity)).1 a2
  have hlog : Nat.log2 X - 62 = 32 * (xb.length - 3) + (33 - leadingZeros (X / 𝔹 ^ (xb.length - 1))) := by omega
  have hyh : Y / 𝔹 ^ (xb.length - 1) % 𝔹 * 2 ^ leadingZeros (X / 𝔹 ^ (xb.length - 1)) < 4294967296 := by
    have e : Nat.log2 X + 1 = 32 * (xb.length - 1) + (32 - leadingZeros (X / 𝔹 ^ (xb.length - 1))) := by omega
    rw [e, pow_add, ← base_pow] at hYX
    have h1 : Y / 𝔹 ^ (xb.length - 1) < 2 ^ (32 - leadingZeros (X / 𝔹 ^ (xb.length - 1))) := by
      rw [Nat.div_lt_iff_lt_mul (by positivity), Nat.mul_comm]; exact hYX
    have hB : (4294967296 : Nat) = 2 ^ (32 - leadingZeros (X / 𝔹 ^ (xb.length - 1))) * 2 ^ leadingZeros (X / 𝔹 ^ (xb.length - 1)) := by
      rw [← pow_add, show 32 - leadingZeros (X / 𝔹 ^ (xb.length - 1)) + leadingZeros (X / 𝔹 ^ (xb.length - 1)) = 32 by omega]; norm_num
    refine lt_of_lt_of_eq (Nat.mul_lt_mul_of_pos_right (lt_of_le_of_lt (Nat.mod_le _ _) h1) (by positivity)) hB.symm
  generalize hzz : leadingZeros (X / 𝔹 ^ (xb.length - 1)) = z at *
  rw [if_neg (by omega)]
  have hm : ∀ n : Nat, n % 𝔹 < 4294967296 := fun n => Nat.mod_lt _ (by decide)
  have cx := combine z1 z3 (hm (X / 𝔹 ^ (xb.length - 2))) (hm (X / 𝔹 ^ (xb.length - 3)))
  have cy := combine z1 hyh (hm (Y / 𝔹 ^ (xb.length - 2))) (hm (Y / 𝔹 ^ (xb.length - 3)))
  rw [cx, cy, ← top_three (by omega) hYlt]
  have tx := top_three (show 3 ≤ xb.length by omega) hwx.1
  rw [hxh] at tx
  rw [← tx, Nat.div_div_eq_div_mul, Nat.div_div_eq_div_mul, base_pow, ← pow_add, ← hlog]

theorem extractDigits_spec {N M : Nat} {xb yb : BitsBuffer} {X Y : Nat} (hx : Buf N xb X) (hy : Buf M yb Y)
    (h3 : 3 ≤ yb.length) (hle : Y ≤ X) :
    extractDigits xb yb = .ok (X / 2 ^ (Nat.log2 X - 62), Y / 2 ^ (Nat.log2 X - 62)) := by
  rw [extractDigits_core hx hy h3 (lt_of_le_of_lt hle Nat.lt_log2_self), cassert_pos (Nat.div_le_div_right hle), Res.ok_bind]

/-- One round of guessing that gives up at once. -/
theorem lehmerGuess_euclid {x y : Nat} (hx : x < 2 ^ 63)
    (h : y = 0 ∨ 2 ^ 31 ≤ x / y ∨ x % y < x / y) : lehmerGuess x y ⟨1, 0, 0, 1, 0⟩ = .ok ⟨1, 0, 0, 1, 0⟩ := by
  rw [lehmerGuess]
  by_cases h0 : y = 0
  · rw [if_pos h0]
  rw [if_neg h0]
  dsimp only
  by_cases h1 : x / y > 0xFFFFFFFF
  · rw [if_pos h1]
  rw [if_neg h1]
  by_cases h2 : u64 (1 + u64 (x / y * 0)) > 0x7FFFFFFF ∨ u64 (0 + u64 (x / y * 1)) > 0x7FFFFFFF
  · rw [if_pos h2]
  rw [if_neg h2]
  rw [if_pos]
  left
  have e1 : u64 (0 + u64 (x / y * 1)) = x / y := by
    have e : u64 (x / y) = x / y := u64_of_lt (by omega)
    rw [mul_one, zero_add, e, e]
  rw [e1] at h2 ⊢
  have hle := Nat.div_mul_le_self x y
  have e2 : u64sub x (u64 (x / y * y)) = x % y := by
    rw [u64_of_lt (by omega)]
    have := Nat.div_add_mod' x y
    have hm := Nat.mod_lt x (Nat.pos_of_ne_zero h0)
    unfold u64sub u64i
    generalize x / y * y = A at *
    omega
  rw [e2]
  omega

/-! ### the buffers -/

theorem Buf.pos_len {N : Nat} {b : BitsBuffer} {x : Nat} (h : Buf N b x) : 0 < b.length ↔ 0 < x := by
  have hw : WLen b.length x := by rw [h.len, ← h.value]; exact wlen_trimLen h.words
  constructor
  · intro hl
    rcases hw.2 with h0 | h1
    · omega
    · exact lt_of_lt_of_le (by positivity) h1
  · intro hx
    by_contra hc
    have h0 : b.length = 0 := by omega
    have := hw.1
    rw [h0, pow_zero] at this
    omega

theorem Buf.len_gt_two {N : Nat} {b : BitsBuffer} {x : Nat} (h : Buf N b x) : 2 < b.length ↔ 2 ^ 64 ≤ x := by
  have hw : WLen b.length x := by rw [h.len, ← h.value]; exact wlen_trimLen h.words
  constructor
  · intro hl
    rcases hw.2 with h0 | h1
    · omega
    · refine le_trans ?_ h1
      have : 𝔹 ^ 2 ≤ 𝔹 ^ (b.length - 1) := Nat.pow_le_pow_right (by decide) (by omega)
      norm_num at this ⊢
      exact this
  · intro hx
    by_contra hc
    have h2 : 𝔹 ^ b.length ≤ 𝔹 ^ 2 := Nat.pow_le_pow_right (by decide) (by omega)
    have := hw.1
    norm_num at h2 hx
    omega

theorem reduceBy_spec {N M : Nat} {xb yb : BitsBuffer} {X Y : Nat} (hx : Buf N xb X) (hy : Buf M yb Y) (h0 : 0 < Y) :
    ∃ b, xb.reduceBy yb = .ok b ∧ Buf N b (X % Y) := by
  have hl := hy.pos_len.2 h0
  have hs := hy.len_le_size
  have hsz := hy.size
  obtain ⟨b, e, k⟩ := BitsBuffer.reduce_spec hx (hy.words.take yb.length) (m := yb.bits.take yb.length)
    (by intro hc
        have := congrArg List.length hc
        rw [List.length_take_of_le (by omega)] at this
        simp at this; omega)
    (by rw [hy.len]; exact getLast_take_trimLen _)
  rw [hy.val_take] at k
  exact ⟨b, by unfold BitsBuffer.reduceBy; rw [hy.slice, Res.ok_bind, e], k⟩

theorem log2_top (X : Nat) : X / 2 ^ (Nat.log2 X - 62) < 2 ^ 63 := by
  rw [Nat.div_lt_iff_lt_mul (by positivity), ← pow_add]
  exact lt_of_lt_of_le (Nat.lt_log2_self) (Nat.pow_le_pow_right (by decide) (by omega))

theorem gcdLoop_spec {X Y : Nat} (hE : EuclidOnly X Y) (hle : Y ≤ X) {fuel N M : Nat} {xb yb : BitsBuffer}
    (hf : euclidCount X Y < fuel) (hx : Buf N xb X) (hy : Buf M yb Y) (hN : 2 ≤ N) (hM : 2 ≤ M)
    (hN' : N < 2147483648) (hM' : M < 2147483648) :
    ∃ a b N' M' X' Y', gcdLoop fuel xb yb = .ok (a, b) ∧ Buf N' a X' ∧ Buf M' b Y' ∧ 2 ≤ N' ∧ 2 ≤ M' ∧
      N' < 2147483648 ∧ M' < 2147483648 ∧ Y' < 2 ^ 64 ∧ Nat.gcd X' Y' = Nat.gcd X Y := by
  induction hE generalizing fuel N M xb yb with
  | small x y h =>
    cases fuel with
    | zero => omega
    | succ fuel =>
      have h2 := hy.len_gt_two
      rw [gcdLoop, if_neg (by omega)]
      exact ⟨xb, yb, N, M, x, y, rfl, hx, hy, hN, hM, hN', hM', h, rfl⟩
  | step x y h hs hrest ih =>
    cases fuel with
    | zero => omega
    | succ fuel =>
      have h2 := hy.len_gt_two.2 h
      have h0 : 0 < y := by omega
      have hmod := Nat.mod_lt x h0
      obtain ⟨b, e, k⟩ := reduceBy_spec hx hy h0
      rw [euclidCount, if_neg (by omega)] at hf
      obtain ⟨a', b', N', M', X', Y', q1, q2, q3, q4, q5, q6, q7, q8, q9⟩ := ih (le_of_lt hmod) (fuel := fuel) (by omega) hy k hM hN hM' hN'
      refine ⟨a', b', N', M', X', Y', ?_, q2, q3, q4, q5, q6, q7, q8, ?_⟩
      · rw [gcdLoop, if_pos (by omega), extractDigits_spec hx hy (by omega) hle, Res.ok_bind]
        dsimp only
        rw [lehmerGuess_euclid (log2_top x) hs, Res.ok_bind]
        dsimp only
        rw [if_pos (by rfl), e, Res.ok_bind]
        exact q1
      · rw [q9, Nat.gcd_comm x y, Nat.gcd_rec y x, Nat.gcd_comm]

/-- Reading the two low words back. -/
theorem Buf.low64 {N : Nat} {b : BitsBuffer} {x : Nat} (h : Buf N b x) (hx : x < 2 ^ 64) :
    u64 (b.bits[1]?.getD 0 <<< 32) ||| b.bits[0]?.getD 0 = x := by
  rw [getD_eq_digit h.words, getD_eq_digit h.words, h.value, Nat.shiftLeft_eq, pow_one, pow_zero, Nat.div_one]
  rw [u64_of_lt (by have := Nat.mod_lt (x / 𝔹) (show 0 < 𝔹 by decide); omega), Nat.mul_comm _ (2 ^ 32),
    ← Nat.two_pow_add_eq_or_of_lt (by omega)]
  omega

theorem overwrite_spec {N : Nat} {b : BitsBuffer} {x v : Nat} (h : Buf N b x) (hN : 2 ≤ N) (hx : x < 2 ^ 64) (hv : v < 2 ^ 64) :
    ∃ r, b.overwrite v = .ok r ∧ r.bits.length = N ∧ WordsOk r.bits ∧ val r.bits = v := by
  obtain ⟨bits, len⟩ := b
  have h2 := h.len_gt_two
  have hd : bits.drop 2 = List.replicate (N - 2) 0 := by
    have ht : trimLen bits ≤ 2 := by have := h.len; dsimp only at *; omega
    have e := eq_take_append_zeros bits
    rw [e, List.drop_append, length_take_trimLen, List.drop_eq_nil_of_le (by rw [length_take_trimLen]; exact ht),
      List.nil_append, List.drop_replicate]
    have := h.size
    dsimp only at this
    congr 1; have := trimLen_le bits; omega
  unfold BitsBuffer.overwrite
  dsimp only at *
  match bits, h with
  | [], h => have := h.size; simp at this; omega
  | [_], h => have := h.size; simp at this; omega
  | w0 :: w1 :: ws, h =>
    have hs := h.size
    simp only [List.length_cons] at hs
    rw [if_neg (by omega), Res.ok_bind]
    simp only [List.drop_succ_cons, List.drop_zero] at hd
    refine ⟨⟨u32 v :: u32 (v >>> 32) :: ws, if u32 (v >>> 32) ≠ 0 then 2 else if u32 v ≠ 0 then 1 else 0⟩, ?_, ?_, ?_, ?_⟩
    · simp [put]
    · simp; omega
    · have hw := h.words
      rw [wordsOk_cons, wordsOk_cons] at hw ⊢
      exact ⟨u32_lt _, u32_lt _, hw.2.2⟩
    · dsimp only
      rw [val_cons, val_cons, hd, val_replicate_zero, Nat.shiftRight_eq_div_pow]
      unfold u32
      omega

theorem gcdVec_spec {xs ys : List Nat} (hx : WordsOk xs) (hy : WordsOk ys) (htx : xs.getLast? ≠ some 0)
    (hty : ys.getLast? ≠ some 0) (h2 : 2 ≤ ys.length) (hlx : xs.length < 2147483648)
    (hle : val ys ≤ val xs) (hE : EuclidOnly (val xs) (val ys)) {fuel : Nat}
    (hf : euclidCount (val xs) (val ys) < fuel) :
    ∃ bits, gcdVec fuel xs ys = .ok bits ∧ bits.length < 2147483648 ∧ WordsOk bits ∧ val bits = Nat.gcd (val xs) (val ys) := by
  have hlen : ys.length ≤ xs.length := by
    by_contra hc
    have := BigInt.val_lt_of_length hx (ys := ys) (by rintro rfl; simp at h2) hty (by omega)
    omega
  obtain ⟨lb, e1, k1⟩ := BitsBuffer.ofWords_spec (N := xs.length) hx hlx (trimLen_le _)
  obtain ⟨rb, e2, k2⟩ := BitsBuffer.ofWords_spec (N := ys.length) hy (by omega) (trimLen_le _)
  have l1 : lb.length = xs.length := by
    have hw : WLen lb.length (val xs) := by rw [k1.len, ← k1.value]; exact wlen_trimLen k1.words
    have := wlen_trimLen hx
    rw [trimLen_of_top htx] at this
    exact hw.unique this
  have l2 : rb.length = ys.length := by
    have hw : WLen rb.length (val ys) := by rw [k2.len, ← k2.value]; exact wlen_trimLen k2.words
    have := wlen_trimLen hy
    rw [trimLen_of_top hty] at this
    exact hw.unique this
  have key : ∃ r, gcdBuffers fuel lb rb = .ok r ∧ r.bits.length < 2147483648 ∧ WordsOk r.bits ∧
      val r.bits = Nat.gcd (val xs) (val ys) := by
    unfold gcdBuffers
    rw [cassert_pos (by omega), Res.ok_bind, cassert_pos (by omega), Res.ok_bind, cassert_pos (by omega), Res.ok_bind]
    obtain ⟨a, b, N', M', X', Y', q1, q2, q3, q4, q5, q6, q7, q8, q9⟩ :=
      gcdLoop_spec hE hle hf k1 k2 (by omega) h2 (by omega) (by omega)
    rw [q1, Res.ok_bind]
    dsimp only
    by_cases h0 : 0 < Y'
    · rw [if_pos (q3.pos_len.2 h0)]
      obtain ⟨c, e3, k3⟩ := reduceBy_spec q2 q3 h0
      have hlt := Nat.mod_lt X' h0
      have sb := q3.size
      have sc := k3.size
      rw [e3, Res.ok_bind, idx_getD (by omega), Res.ok_bind, idx_getD (by omega), Res.ok_bind, idx_getD (by omega), Res.ok_bind,
        idx_getD (by omega), Res.ok_bind, q3.low64 q8, k3.low64 (by omega), gcd64_spec]
      have hg : Nat.gcd Y' (X' % Y') = Nat.gcd (val xs) (val ys) := by
        rw [← q9, Nat.gcd_comm X' Y', Nat.gcd_rec Y' X', Nat.gcd_comm]
      obtain ⟨r, e4, r1, r2, r3⟩ := overwrite_spec k3 q4 (by omega) (v := Nat.gcd Y' (X' % Y'))
        (lt_of_le_of_lt (Nat.gcd_le_left _ h0) q8)
      exact ⟨r, e4, by omega, r2, by rw [r3, hg]⟩
    · have h00 : Y' = 0 := by omega
      subst h00
      rw [if_neg (fun h => h0 (q3.pos_len.1 h))]
      rw [Nat.gcd_zero_right] at q9
      exact ⟨a, rfl, by rw [q2.size]; exact q6, q2.words, by rw [q2.value, q9]⟩
  obtain ⟨r, e3, r1, r2, r3⟩ := key
  refine ⟨r.bits, ?_, r1, r2, r3⟩
  unfold gcdVec
  rw [cassert_pos (by omega), Res.ok_bind, cassert_pos h2, Res.ok_bind, cassert_pos
    (by rw [compareWords_spec hx hy htx hty, if_neg (by omega)]; split_ifs <;> decide), Res.ok_bind, e1, Res.ok_bind, e2, Res.ok_bind,
    e3, Res.ok_bind]

theorem gcdBits_spec {xs ys : List Nat} (hx : WordsOk xs) (hy : WordsOk ys) (htx : xs.getLast? ≠ some 0)
    (hty : ys.getLast? ≠ some 0) (hne : ys ≠ []) (hlx : xs.length < 2147483648)
    (hle : val ys ≤ val xs) (hE : EuclidOnly (val xs) (val ys)) {fuel : Nat}
    (hf : 2 ^ 64 ≤ val ys → euclidCount (val xs) (val ys) < fuel) :
    Returns (gcdBits fuel xs ys) (Nat.gcd (val xs) (val ys)) := by
  have hlen : ys.length ≤ xs.length := by
    by_contra hc
    have := BigInt.val_lt_of_length hx hne hty (by omega)
    omega
  have hl0 : 1 ≤ ys.length := List.length_pos_iff.2 hne
  unfold gcdBits
  rw [cassert_pos (by rw [compareWords_spec hx hy htx hty, if_neg (by omega)]; split_ifs <;> decide), Res.ok_bind]
  have hgr : Nat.gcd (val ys) (val xs % val ys) = Nat.gcd (val xs) (val ys) := by
    rw [Nat.gcd_comm (val xs), Nat.gcd_rec (val ys) (val xs), Nat.gcd_comm]
  have hpos : 0 < val ys := lt_of_lt_of_le (by positivity) (val_ge_of_top hne hty)
  by_cases h1 : ys.length = 1
  · rw [if_pos h1]
    obtain ⟨w, rfl⟩ := List.length_eq_one_iff.1 h1
    obtain ⟨hw, -⟩ := wordsOk_cons.1 hy
    rw [val_singleton] at *
    have hi : idx [w] 0 = .ok w := rfl
    rw [hi, Res.ok_bind, remainderWord_spec hx (by rintro rfl; simp at hlen) hlx hpos hw, Res.ok_bind, gcd32_spec, hgr]
    exact ofUInt32_spec (lt_of_le_of_lt (Nat.gcd_le_right _ hpos) hw)
  rw [if_neg h1]
  by_cases h2 : ys.length = 2
  · rw [if_pos h2]
    obtain ⟨r, e, k1, k2, k3⟩ := remainderVec_spec hx hy hne hty hlen hlx
    have hm := Nat.mod_lt (val xs) hpos
    have hylt : val ys < 2 ^ 64 := by have := val_lt hy; rw [h2] at this; norm_num at this ⊢; exact this
    have by' : Buf ys.length ⟨ys, trimLen ys⟩ (val ys) := ⟨rfl, hy, rfl, rfl⟩
    have br : Buf r.length ⟨r, trimLen r⟩ (val r) := ⟨rfl, k2, rfl, rfl⟩
    have f1 := by'.low64 hylt
    have f2 := br.low64 (by omega)
    dsimp only at f1 f2
    rw [e, Res.ok_bind, idx_getD (by omega), Res.ok_bind, idx_getD (by omega), Res.ok_bind, idx_getD (by omega), Res.ok_bind,
      idx_getD (by omega), Res.ok_bind, f1, f2, gcd64_spec, k3, hgr]
    exact ofUInt64_spec (lt_of_le_of_lt (Nat.gcd_le_right _ hpos) hylt)
  · rw [if_neg h2]
    obtain ⟨bits, e, k1, k2, k3⟩ := gcdVec_spec hx hy htx hty (by omega) hlx hle hE
      (hf (le_trans (Nat.pow_le_pow_right (by decide) (by omega : 64 ≤ 32 * (ys.length - 1))) (by
        have := val_ge_of_top hne hty
        rwa [show 𝔹 = 2 ^ 32 from rfl, ← pow_mul] at this)))
    rw [e, Res.ok_bind]
    exact returns_ofMagnitude k2 k1 (by rw [k3]; rfl)

namespace BigInt

theorem gcdWord_spec {ws : List Nat} (hw : WordsOk ws) (hne : ws ≠ []) (hl : ws.length < 2147483648) {y : Nat} (h0 : 0 < y)
    (hy : y < 4294967296) : gcdWord ws y = .ok (Nat.gcd (val ws) y) := by
  have := List.length_pos_iff.2 hne
  unfold gcdWord
  rw [cassert_pos (by omega), Res.ok_bind, cassert_pos (by omega), Res.ok_bind, remainderWord_spec hw hne hl h0 hy, Res.ok_bind,
    gcd32_spec, Nat.gcd_comm (val ws), Nat.gcd_rec y (val ws), Nat.gcd_comm]

end BigInt

theorem gcd_spec {a b : BigInt} {x y : Int} (ha : a.Denotes x) (hb : b.Denotes y) (hla : a.bits.length < 2147483648)
    (hlb : b.bits.length < 2147483648)
    (hE : EuclidOnly (max x.natAbs y.natAbs) (min x.natAbs y.natAbs)) {fuel : Nat}
    (hf : 2 ^ 64 ≤ min x.natAbs y.natAbs → euclidCount (max x.natAbs y.natAbs) (min x.natAbs y.natAbs) < fuel) :
    Returns (BigInt.gcd fuel a b) (Int.gcd x y) := by
  unfold BigInt.gcd
  rw [ha.assertValid, Res.ok_bind, hb.assertValid, Res.ok_bind]
  have e : Int.gcd x y = Nat.gcd x.natAbs y.natAbs := rfl
  rw [e]
  rcases ha.shape with ⟨rfl, hx1, hx2⟩ | ⟨s, ws, rfl, hs, hne, hw, ht, hv, rfl⟩ <;>
    rcases hb.shape with ⟨rfl, hy1, hy2⟩ | ⟨s', ws', rfl, hs', hne', hw', ht', hv', rfl⟩ <;> dsimp only at *
  · rw [if_pos ⟨rfl, rfl⟩, cabs_ok (by omega), Res.ok_bind, cabs_ok (by omega), Res.ok_bind, gcd32_spec]
    refine ofUInt32_spec ?_
    rcases Nat.eq_zero_or_pos x.natAbs with h | h
    · rw [h, Nat.gcd_zero_left]; omega
    · exact lt_of_le_of_lt (Nat.gcd_le_left _ h) (by omega)
  · rw [if_neg (by simp [hne']), if_pos (by rfl), natAbs_unit_mul hs']
    by_cases h0 : x = 0
    · rw [if_neg (by simpa using h0), h0]
      refine returns_ofMagnitude hw' hlb ?_
      simp
    · rw [if_pos h0, cabs_ok (by omega), Res.ok_bind, BigInt.gcdWord_spec hw' hne' hlb (by omega) (by omega), Res.ok_bind,
        Nat.gcd_comm]
      exact ofUInt32_spec (lt_of_le_of_lt (Nat.gcd_le_left _ (by omega)) (by omega))
  · rw [if_neg (by simp [hne]), if_neg hne, if_pos (by rfl), natAbs_unit_mul hs]
    by_cases h0 : y = 0
    · rw [if_neg (by simpa using h0), h0]
      refine returns_ofMagnitude hw hla ?_
      simp
    · rw [if_pos h0, cabs_ok (by omega), Res.ok_bind, BigInt.gcdWord_spec hw hne hla (by omega) (by omega), Res.ok_bind]
      exact ofUInt32_spec (lt_of_le_of_lt (Nat.gcd_le_right _ (by omega)) (by omega))
  · rw [if_neg (by simp [hne]), if_neg hne, if_neg hne', compareWords_spec hw hw' ht ht']
    rw [natAbs_unit_mul hs, natAbs_unit_mul hs'] at hE hf ⊢
    by_cases h : val ws < val ws'
    · rw [if_pos h, if_pos (by decide), Nat.gcd_comm]
      rw [Nat.max_eq_right (le_of_lt h), Nat.min_eq_left (le_of_lt h)] at hE
      rw [Nat.max_eq_right (le_of_lt h), Nat.min_eq_left (le_of_lt h)] at hf
      exact gcdBits_spec hw' hw ht' ht hne hlb (le_of_lt h) hE hf
    · rw [if_neg h, if_neg (by split_ifs <;> decide)]
      rw [Nat.max_eq_left (by omega), Nat.min_eq_right (by omega)] at hE
      rw [Nat.max_eq_left (by omega), Nat.min_eq_right (by omega)] at hf
      exact gcdBits_spec hw hw' ht ht' hne' hla (by omega) hE hf

end BigIntegerCpp
