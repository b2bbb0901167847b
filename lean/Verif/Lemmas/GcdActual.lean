import Verif.Lemmas.GcdWrong
import Verif.GcdActualSpec
/-
Every run of Model/Gcd.lean's loop is the run of `gcdRun` on plain numbers.
-/
set_option linter.unusedSectionVars false
set_option linter.unnecessarySeqFocus false
namespace BigIntegerCpp
variable [Cfg]

/-! ### the guess -/

omit [Cfg] in
theorem u64sub_mod {x y : Nat} (hx : x < 2 ^ 63) : u64sub x (u64 (x / y * y)) = x % y := by
  have hle := Nat.div_mul_le_self x y
  have hs := Nat.div_add_mod' x y
  rw [u64_of_lt (by omega)]
  unfold u64sub u64i
  generalize x / y * y = p at *
  omega

omit [Cfg] in
theorem u64sub_le {x y : Nat} (hx : x < 2 ^ 63) (h : y ≤ x) : u64sub x y = x - y := by
  unfold u64sub u64i
  omega

theorem lehmerGuess_actual (y : Nat) {x : Nat} {g : Guess} (hg : g.Small) (ha : 1 ≤ g.a) (hd : 1 ≤ g.d) (hc : g.c ≤ y)
    (hx : x < 2 ^ 63) (hy : y < 2 ^ 63) : ∃ g', lehmerGuess x y g = .ok g' ∧
      lehmerQuotients x y g.a g.b g.c g.d g.iteration = (g'.b, g'.iteration) := by
  induction y using Nat.strongRecOn generalizing x g with
  | ind y ih =>
  obtain ⟨sa, sb, sc, sd⟩ := hg
  rw [lehmerGuess, lehmerQuotients]
  by_cases h0 : y = 0
  · rw [if_pos h0, dif_pos h0]; exact ⟨g, rfl, rfl⟩
  rw [if_neg h0, dif_neg h0]
  dsimp only
  have hlt : x % y < y := Nat.mod_lt _ (by omega)
  rw [u64sub_mod hx, u64sub_le hy hc]
  have hb1 : x / y ≤ x / y * g.d := Nat.le_mul_of_pos_right _ (by omega)
  by_cases h1 : x / y > 0xFFFFFFFF
  · rw [if_pos h1, dif_pos (by generalize x / y * g.d = p at *; omega)]; exact ⟨g, rfl, rfl⟩
  rw [if_neg h1]
  have m1 : x / y * g.d ≤ 0xFFFFFFFF * 0x7FFFFFFF := Nat.mul_le_mul (by omega) sd
  have m2 : x / y * g.c ≤ 0xFFFFFFFF * 0x7FFFFFFF := Nat.mul_le_mul (by omega) sc
  have e1 : u64 (g.a + u64 (x / y * g.c)) = g.a + x / y * g.c := by
    unfold u64; generalize x / y * g.c = p at *; omega
  have e2 : u64 (g.b + u64 (x / y * g.d)) = g.b + x / y * g.d := by
    unfold u64; generalize x / y * g.d = p at *; omega
  rw [e1, e2]
  have hra : 1 ≤ g.a + x / y * g.c := by omega
  generalize g.a + x / y * g.c = r at *
  generalize g.b + x / y * g.d = s at *
  generalize x % y = t at *
  by_cases h2 : r > 0x7FFFFFFF ∨ s > 0x7FFFFFFF
  · rw [if_pos h2, dif_pos (by omega)]; exact ⟨g, rfl, rfl⟩
  rw [if_neg h2]
  have e3 : u64 (t + r) = t + r := by unfold u64; omega
  rw [e3]
  by_cases h3 : t < s ∨ t + r > y - g.c
  · rw [if_pos h3, dif_pos (by omega)]; exact ⟨g, rfl, rfl⟩
  rw [if_neg h3, dif_neg (show ¬ ¬ (r < 2 ^ 31 ∧ s < 2 ^ 31 ∧ s ≤ t ∧ t + r + g.c ≤ y) by omega)]
  have e4 : u32 s = s := by unfold u32; omega
  have e5 : u32 r = r := by unfold u32; omega
  rw [e4, e5]
  by_cases h4 : t = s
  · rw [if_pos h4, dif_pos h4]; exact ⟨_, rfl, rfl⟩
  rw [if_neg h4, dif_neg h4, if_neg (show ¬ t = 0 by omega)]
  have hlt2 : y % t < t := Nat.mod_lt _ (by omega)
  rw [u64sub_mod hy, u64sub_le (by omega) (by omega)]
  have hb2 : y / t ≤ y / t * r := Nat.le_mul_of_pos_right _ (by omega)
  by_cases h6 : y / t > 0xFFFFFFFF
  · rw [if_pos h6, if_pos (by generalize y / t * r = p at *; omega)]; exact ⟨_, rfl, rfl⟩
  rw [if_neg h6]
  have m3 : y / t * s ≤ 0xFFFFFFFF * 0x7FFFFFFF := Nat.mul_le_mul (by omega) (by omega)
  have m4 : y / t * r ≤ 0xFFFFFFFF * 0x7FFFFFFF := Nat.mul_le_mul (by omega) (by omega)
  have e6 : u64 (g.d + u64 (y / t * s)) = g.d + y / t * s := by
    unfold u64; generalize y / t * s = p at *; omega
  have e7 : u64 (g.c + u64 (y / t * r)) = g.c + y / t * r := by
    unfold u64; generalize y / t * r = p at *; omega
  rw [e6, e7]
  have hrd : 1 ≤ g.d + y / t * s := by omega
  generalize g.d + y / t * s = r' at *
  generalize g.c + y / t * r = s' at *
  generalize y % t = t' at *
  by_cases h7 : r' > 0x7FFFFFFF ∨ s' > 0x7FFFFFFF
  · rw [if_pos h7, if_pos (by omega)]; exact ⟨_, rfl, rfl⟩
  rw [if_neg h7]
  have e8 : u64 (t' + r') = t' + r' := by unfold u64; omega
  rw [e8]
  by_cases h8 : t' < s' ∨ t' + r' > t - s
  · rw [if_pos h8, if_pos (by omega)]; exact ⟨_, rfl, rfl⟩
  rw [if_neg h8, if_neg (show ¬ ¬ (s' < 2 ^ 31 ∧ r' < 2 ^ 31 ∧ s' ≤ t' ∧ t' + r' + s ≤ t) by omega)]
  have e9 : u32 s' = s' := by unfold u32; omega
  have e10 : u32 r' = r' := by unfold u32; omega
  rw [e9, e10]
  by_cases h9 : t' = s'
  · rw [if_pos h9, if_pos h9]; exact ⟨_, rfl, rfl⟩
  rw [if_neg h9, if_neg h9, dif_pos (show t' < y by omega)]
  exact ih t' (by omega) (x := t) (g := ⟨r, s, s', r', g.iteration + 1 + 1⟩) ⟨by dsimp only; omega, by dsimp only; omega, by dsimp only; omega, by dsimp only; omega⟩ hra hrd
    (by dsimp only; omega) (by omega) (by omega)

/-! ### the leading bits -/

theorem combine_any {z h m l : Nat} (hz : z < 32) (hm : m < 4294967296) (hl : l < 4294967296) :
    (u64 (h <<< (32 + z)) ||| u64 (m <<< z) ||| (l >>> (32 - z))) >>> 1 =
      (h * (𝔹 * 𝔹) + m * 𝔹 + l) / 2 ^ (33 - z) % 2 ^ 63 := by
  have hB : (4294967296 : Nat) = 2 ^ (32 - z) * 2 ^ z := by
    rw [← pow_add, show 32 - z + z = 32 by omega]; norm_num
  have hh : h % 2 ^ (32 - z) * 2 ^ z < 4294967296 := by
    refine lt_of_lt_of_eq (Nat.mul_lt_mul_of_pos_right (Nat.mod_lt _ (by positivity)) (by positivity)) hB.symm
  have e1 : u64 (h <<< (32 + z)) = u64 ((h % 2 ^ (32 - z)) <<< (32 + z)) := by
    have h64 : (18446744073709551616 : Nat) = 2 ^ (32 - z) * 2 ^ (32 + z) := by
      rw [← pow_add, show 32 - z + (32 + z) = 64 by omega]; norm_num
    unfold u64
    rw [Nat.shiftLeft_eq, Nat.shiftLeft_eq, h64, Nat.mul_mod_mul_right, Nat.mul_mod_mul_right, Nat.mod_mod]
  rw [e1, combine hz hh hm hl]
  have e2 : h * (𝔹 * 𝔹) + m * 𝔹 + l =
      2 ^ (33 - z) * (2 ^ 63 * (h / 2 ^ (32 - z))) + (h % 2 ^ (32 - z) * (𝔹 * 𝔹) + m * 𝔹 + l) := by
    have e3 : (2 : Nat) ^ (33 - z) * 2 ^ 63 = 2 ^ (32 - z) * (𝔹 * 𝔹) := by
      rw [← pow_add, show 33 - z + 63 = 32 - z + 64 by omega, pow_add]; norm_num
    have e4 := Nat.div_add_mod h (2 ^ (32 - z))
    calc h * (𝔹 * 𝔹) + m * 𝔹 + l = (2 ^ (32 - z) * (h / 2 ^ (32 - z)) + h % 2 ^ (32 - z)) * (𝔹 * 𝔹) + m * 𝔹 + l := by rw [e4]
      _ = 2 ^ (33 - z) * 2 ^ 63 * (h / 2 ^ (32 - z)) + (h % 2 ^ (32 - z) * (𝔹 * 𝔹) + m * 𝔹 + l) := by rw [e3]; ring
      _ = _ := by rw [mul_assoc]
  rw [e2, Nat.mul_add_div (by positivity), Nat.mul_add_mod]
  symm
  apply Nat.mod_eq_of_lt
  rw [Nat.div_lt_iff_lt_mul (by positivity), ← pow_add, show 63 + (33 - z) = (32 - z) + 64 by omega, pow_add]
  have e5 : h % 2 ^ (32 - z) + 1 ≤ 2 ^ (32 - z) := Nat.mod_lt _ (by positivity)
  have := Nat.mul_le_mul_right (𝔹 * 𝔹) e5
  norm_num at this ⊢
  generalize h % 2 ^ (32 - z) = w at *
  generalize 2 ^ (32 - z) = w2 at *
  omega

/-- The number of leading zeros of the top word is what is missing from the number of bits. -/
theorem log2_words {l X : Nat} (hwx : WLen l X) (h1 : 1 ≤ l) :
    X / 𝔹 ^ (l - 1) % 𝔹 = X / 𝔹 ^ (l - 1) ∧ leadingZeros (X / 𝔹 ^ (l - 1)) < 32 ∧
      Nat.log2 X = 32 * (l - 1) + (31 - leadingZeros (X / 𝔹 ^ (l - 1))) := by
  have hX1 : 𝔹 ^ (l - 1) ≤ X := by
    rcases hwx.2 with h | h
    · omega
    · exact h
  have hBl : 𝔹 ^ l = 𝔹 ^ (l - 1) * 𝔹 := by rw [← pow_succ]; congr 1; omega
  have hqlt : X / 𝔹 ^ (l - 1) < 𝔹 := by
    rw [Nat.div_lt_iff_lt_mul (by positivity), Nat.mul_comm, ← hBl]; exact hwx.1
  have hq0 : X / 𝔹 ^ (l - 1) ≠ 0 := by
    have := Nat.div_pos hX1 (by positivity)
    omega
  have hxh : X / 𝔹 ^ (l - 1) % 𝔹 = X / 𝔹 ^ (l - 1) := Nat.mod_eq_of_lt hqlt
  obtain ⟨z1, z2, z3⟩ := leadingZeros_spec hq0 hqlt
  have hX0 : X ≠ 0 := by
    have : 0 < 𝔹 ^ (l - 1) := by positivity
    omega
  refine ⟨hxh, z1, ?_⟩
  generalize leadingZeros (X / 𝔹 ^ (l - 1)) = z at *
  have hB : (4294967296 : Nat) = 2 ^ (32 - z) * 2 ^ z := by
    rw [← pow_add, show 32 - z + z = 32 by omega]; norm_num
  have hB2 : (2147483648 : Nat) = 2 ^ (31 - z) * 2 ^ z := by
    rw [← pow_add, show 31 - z + z = 31 by omega]; norm_num
  have a1 : 2 ^ (31 - z) ≤ X / 𝔹 ^ (l - 1) := by
    have z2' := le_of_eq_of_le hB2.symm z2
    exact Nat.le_of_mul_le_mul_right z2' (by positivity)
  have a2 : X / 𝔹 ^ (l - 1) < 2 ^ (32 - z) := by
    have z3' := lt_of_lt_of_eq z3 hB
    exact Nat.lt_of_mul_lt_mul_right z3'
  rw [Nat.log2_eq_iff hX0, pow_add, ← base_pow, show 32 * (l - 1) + (31 - z) + 1 =
    32 * (l - 1) + (32 - z) by omega, pow_add, ← base_pow]
  constructor
  · have := Nat.div_mul_le_self X (𝔹 ^ (l - 1))
    calc 𝔹 ^ (l - 1) * 2 ^ (31 - z) ≤ 𝔹 ^ (l - 1) * (X / 𝔹 ^ (l - 1)) := Nat.mul_le_mul_left _ a1
      _ ≤ X := by rw [Nat.mul_comm]; exact this
  · rw [Nat.mul_comm]
    exact (Nat.div_lt_iff_lt_mul (by positivity)).1 a2

theorem wordCount_of_wlen {l X : Nat} (h : WLen l X) (h1 : 1 ≤ l) : wordCount X = l := by
  obtain ⟨-, z, e⟩ := log2_words h h1
  unfold wordCount
  omega

/-- `extract_digits` when `x` has at least as many words as `y`. -/
theorem extractDigits_any {N M : Nat} {xb yb : BitsBuffer} {X Y : Nat} (hx : Buf N xb X) (hy : Buf M yb Y)
    (h3 : 3 ≤ yb.length) (hlen : yb.length ≤ xb.length) :
    extractDigits xb yb = (do
      cassert (X / 2 ^ (Nat.log2 X - 62) ≥ Y / 2 ^ (Nat.log2 X - 62) % 2 ^ 63)
      .ok (X / 2 ^ (Nat.log2 X - 62), Y / 2 ^ (Nat.log2 X - 62) % 2 ^ 63)) := by
  have hwx : WLen xb.length X := by rw [hx.len, ← hx.value]; exact wlen_trimLen hx.words
  have hwy : WLen yb.length Y := by rw [hy.len, ← hy.value]; exact wlen_trimLen hy.words
  have hYlt : Y < 𝔹 ^ xb.length := lt_of_lt_of_le hwy.1 (Nat.pow_le_pow_right (by decide) hlen)
  have hxs := hx.len_le_size
  have hys := hy.len_le_size
  have hxb := hx.size
  have hyb := hy.size
  have dx : ∀ i, xb.bits[i]?.getD 0 = X / 𝔹 ^ i % 𝔹 := fun i => by rw [getD_eq_digit hx.words, hx.value]
  have dy : ∀ i, yb.bits[i]?.getD 0 = Y / 𝔹 ^ i % 𝔹 := fun i => by rw [getD_eq_digit hy.words, hy.value]
  have dy0 : ∀ i, yb.length ≤ i → Y / 𝔹 ^ i % 𝔹 = 0 := fun i hi => by
    rw [Nat.div_eq_of_lt (lt_of_lt_of_le hwy.1 (Nat.pow_le_pow_right (by decide) hi))]
  unfold extractDigits
  rw [cassert_pos (by omega), Res.ok_bind, cassert_pos (by omega), Res.ok_bind, cassert_pos hlen, Res.ok_bind,
    if_neg (by omega), idx_getD (by omega), Res.ok_bind, idx_getD (by omega), Res.ok_bind, idx_getD (by omega), Res.ok_bind]
  have ey : (if xb.length = yb.length then (do
      let yh ← idx yb.bits (yb.length - 1)
      let ym ← idx yb.bits (yb.length - 2)
      let yl ← idx yb.bits (yb.length - 3)
      .ok (yh, ym, yl) : Res (Nat × Nat × Nat))
    else if xb.length = yb.length + 1 then do
      let ym ← idx yb.bits (yb.length - 1)
      let yl ← idx yb.bits (yb.length - 2)
      .ok (0, ym, yl)
    else if xb.length = yb.length + 2 then do
      let yl ← idx yb.bits (yb.length - 1)
      .ok (0, 0, yl)
    else .ok (0, 0, 0)) = .ok (Y / 𝔹 ^ (xb.length - 1) % 𝔹, Y / 𝔹 ^ (xb.length - 2) % 𝔹, Y / 𝔹 ^ (xb.length - 3) % 𝔹) := by
    by_cases h0 : xb.length = yb.length
    · rw [if_pos h0, idx_getD (by omega), Res.ok_bind, idx_getD (by omega), Res.ok_bind, idx_getD (by omega), Res.ok_bind,
        dy, dy, dy, h0]
    rw [if_neg h0]
    by_cases h1 : xb.length = yb.length + 1
    · rw [if_pos h1, idx_getD (by omega), Res.ok_bind, idx_getD (by omega), Res.ok_bind, dy, dy, h1,
        dy0 (yb.length + 1 - 1) (by omega)]
      rfl
    rw [if_neg h1]
    by_cases h2 : xb.length = yb.length + 2
    · rw [if_pos h2, idx_getD (by omega), Res.ok_bind, dy, h2, dy0 (yb.length + 2 - 1) (by omega),
        dy0 (yb.length + 2 - 2) (by omega)]
      rfl
    · rw [if_neg h2, dy0 _ (by omega), dy0 _ (by omega), dy0 _ (by omega)]
  rw [ey, Res.ok_bind, dx, dx, dx]
  dsimp only
  obtain ⟨hxh, z1, hlog0⟩ := log2_words hwx (by omega)
  rw [hxh]
  have hlog : Nat.log2 X - 62 = 32 * (xb.length - 3) + (33 - leadingZeros (X / 𝔹 ^ (xb.length - 1))) := by omega
  generalize hzz : leadingZeros (X / 𝔹 ^ (xb.length - 1)) = z at *
  rw [if_neg (by omega)]
  have hm : ∀ n : Nat, n % 𝔹 < 4294967296 := fun n => Nat.mod_lt _ (by decide)
  have cx := combine_any (h := X / 𝔹 ^ (xb.length - 1)) z1 (hm (X / 𝔹 ^ (xb.length - 2))) (hm (X / 𝔹 ^ (xb.length - 3)))
  have cy := combine_any (h := Y / 𝔹 ^ (xb.length - 1) % 𝔹) z1 (hm (Y / 𝔹 ^ (xb.length - 2))) (hm (Y / 𝔹 ^ (xb.length - 3)))
  rw [cx, cy, ← top_three (by omega) hYlt]
  have tx := top_three (show 3 ≤ xb.length by omega) hwx.1
  rw [hxh] at tx
  have hlt := log2_top X
  rw [← tx, Nat.div_div_eq_div_mul, Nat.div_div_eq_div_mul, base_pow, ← pow_add, ← hlog, Nat.mod_eq_of_lt hlt]

/-- `extract_digits` when `x` has fewer words than `y`. -/
theorem extractDigits_short {N : Nat} {xb yb : BitsBuffer} {X : Nat} (hx : Buf N xb X) (h3 : xb.length < yb.length) :
    extractDigits xb yb = if Cfg.ndebug then
      (if xb.length < 3 then .ub .outOfBounds else .ok (X / 2 ^ (Nat.log2 X - 62), 0)) else .abort := by
  by_cases hd : Cfg.ndebug = true
  · have hc : ∀ p : Prop, [Decidable p] → cassert p = .ok () := fun p _ => by unfold cassert; rw [hd]; split_ifs <;> simp_all
    rw [hd, if_pos rfl]
    unfold extractDigits
    rw [hc, Res.ok_bind, hc, Res.ok_bind, hc, Res.ok_bind]
    by_cases hl : xb.length < 3
    · rw [if_pos hl, if_pos hl]
    rw [if_neg hl, if_neg hl]
    have hwx : WLen xb.length X := by rw [hx.len, ← hx.value]; exact wlen_trimLen hx.words
    have hxs := hx.len_le_size
    have hxb := hx.size
    have dx : ∀ i, xb.bits[i]?.getD 0 = X / 𝔹 ^ i % 𝔹 := fun i => by rw [getD_eq_digit hx.words, hx.value]
    rw [idx_getD (by omega), Res.ok_bind, idx_getD (by omega), Res.ok_bind, idx_getD (by omega), Res.ok_bind,
      if_neg (by omega), if_neg (by omega), if_neg (by omega), Res.ok_bind, dx, dx, dx]
    dsimp only
    obtain ⟨hxh, z1, hlog0⟩ := log2_words hwx (by omega)
    rw [hxh]
    have hlog : Nat.log2 X - 62 = 32 * (xb.length - 3) + (33 - leadingZeros (X / 𝔹 ^ (xb.length - 1))) := by omega
    generalize hzz : leadingZeros (X / 𝔹 ^ (xb.length - 1)) = z at *
    rw [if_neg (by omega)]
    have hm : ∀ n : Nat, n % 𝔹 < 4294967296 := fun n => Nat.mod_lt _ (by decide)
    have cx := combine_any (h := X / 𝔹 ^ (xb.length - 1)) z1 (hm (X / 𝔹 ^ (xb.length - 2))) (hm (X / 𝔹 ^ (xb.length - 3)))
    have cy := combine_any (h := 0) (m := 0) (l := 0) z1 (by decide) (by decide)
    rw [cx, cy, hc, Res.ok_bind]
    have tx := top_three (show 3 ≤ xb.length by omega) hwx.1
    rw [hxh] at tx
    have hlt := log2_top X
    rw [← tx, Nat.div_div_eq_div_mul, base_pow, ← pow_add, ← hlog, Nat.mod_eq_of_lt hlt]
    simp
  · have hd' : Cfg.ndebug = false := by simpa using hd
    have hc : ∀ p : Prop, [Decidable p] → ¬ p → cassert p = .abort := fun p _ h => by
      unfold cassert; rw [hd', if_neg h]; rfl
    rw [if_neg hd]
    unfold extractDigits
    by_cases h1 : xb.length ≥ 3
    · rw [cassert_pos h1, Res.ok_bind, cassert_pos (by omega), Res.ok_bind, hc _ (by omega)]; rfl
    · rw [hc _ h1]; rfl

/-! ### buffers with forgotten words above the number -/

/-- A buffer of `N` words whose first `k` hold `x`, with the length of `x`; the words above them,
read at their places, are the number `j`. -/
structure JBuf (N k : Nat) (b : BitsBuffer) (x j : Nat) : Prop where
  size : b.bits.length = N
  fits : k ≤ N
  words : WordsOk b.bits
  low : Buf k ⟨b.bits.take k, b.length⟩ x
  junk : val (b.bits.drop k) * 𝔹 ^ k = j

theorem JBuf.of_append {k : Nat} {lo hi : List Nat} {len x : Nat} (h : Buf k ⟨lo, len⟩ x) (hw : WordsOk hi) :
    JBuf (k + hi.length) k ⟨lo ++ hi, len⟩ x (val hi * 𝔹 ^ k) := by
  have hs : lo.length = k := h.size
  have ht : (lo ++ hi).take k = lo := by rw [List.take_append_of_le_length (by omega), List.take_of_length_le (by omega)]
  have hd : (lo ++ hi).drop k = hi := by rw [List.drop_append, List.drop_eq_nil_of_le (by omega), hs]; simp
  refine ⟨by simp [hs], by omega, wordsOk_append.2 ⟨h.words, hw⟩, ?_, ?_⟩
  · dsimp only; rw [ht]; exact h
  · dsimp only; rw [hd]

theorem JBuf.cases {N k x j : Nat} {b : BitsBuffer} (h : JBuf N k b x j) :
    ∃ lo hi len, b = ⟨lo ++ hi, len⟩ ∧ Buf k ⟨lo, len⟩ x ∧ WordsOk hi ∧ val hi * 𝔹 ^ k = j ∧ k + hi.length = N :=
  ⟨b.bits.take k, b.bits.drop k, b.length, by rw [List.take_append_drop], h.low, h.words.drop k, h.junk, by
    have := h.size; have := h.fits; simp; omega⟩

theorem idx_append {lo hi : List Nat} {i : Nat} (h : i < lo.length) : idx (lo ++ hi) i = idx lo i := by
  unfold idx; rw [List.getElem?_append_left h]

theorem slice_append {lo hi : List Nat} {n : Nat} (h : n ≤ lo.length) : slice (lo ++ hi) 0 n = slice lo 0 n := by
  rw [slice_prefix (by simp; omega), slice_prefix h, List.take_append_of_le_length h]

theorem extractDigits_append {lo hi lo' hi' : List Nat} {l l' : Nat} (h : l ≤ lo.length) (h' : l' ≤ lo'.length) (h3 : 3 ≤ l') :
    extractDigits ⟨lo ++ hi, l⟩ ⟨lo' ++ hi', l'⟩ = extractDigits ⟨lo, l⟩ ⟨lo', l'⟩ := by
  unfold extractDigits
  dsimp only
  by_cases hl : l < 3
  · rw [if_pos hl, if_pos hl]
  · rw [if_neg hl, if_neg hl, idx_append (by omega), idx_append (by omega), idx_append (by omega), idx_append (by omega),
      idx_append (by omega), idx_append (by omega)]

theorem reduceBy_append {lo hi lo' hi' : List Nat} {l l' : Nat} (h : l ≤ lo.length) (h' : l' ≤ lo'.length) {r : BitsBuffer}
    (e : BitsBuffer.reduceBy ⟨lo, l⟩ ⟨lo', l'⟩ = .ok r) :
    BitsBuffer.reduceBy ⟨lo ++ hi, l⟩ ⟨lo' ++ hi', l'⟩ = .ok ⟨r.bits ++ hi, r.length⟩ := by
  unfold BitsBuffer.reduceBy at e ⊢
  dsimp only at e ⊢
  rw [slice_append h']
  rw [slice_prefix h', Res.ok_bind] at e ⊢
  unfold BitsBuffer.reduce at e ⊢
  dsimp only at e ⊢
  by_cases hl : l ≥ (lo'.take l').length
  · rw [if_pos hl] at e ⊢
    rw [slice_append h]
    rw [slice_prefix h, Res.ok_bind] at e ⊢
    rcases hd : divideCore (lo.take l) (lo'.take l') [] with ⟨q, r'⟩ | _ | _ | _ | _ <;> rw [hd] at e <;> try cases e
    rw [Res.ok_bind] at e ⊢
    dsimp only at e ⊢
    have ed : (lo ++ hi).drop l = lo.drop l ++ hi := by rw [List.drop_append, show l - lo.length = 0 by omega, List.drop_zero]
    rw [ed, ← List.append_assoc]
    unfold actualLength at e ⊢
    by_cases hs : (lo'.take l').length ≤ (q ++ lo.drop l).length
    · rw [slice_append hs]
      rw [slice_prefix hs, Res.ok_bind] at e ⊢
      rw [Res.ok_bind] at e ⊢
      rw [← Res.ok.inj e]
    · unfold slice at e
      rw [if_neg (by omega)] at e
      cases e
  · rw [if_neg hl] at e ⊢
    rw [← Res.ok.inj e]

theorem JBuf.reduceBy {N k x j M m y i : Nat} {b c : BitsBuffer} (hb : JBuf N k b x j) (hc : JBuf M m c y i) (h0 : 0 < y) :
    ∃ r, b.reduceBy c = .ok r ∧ JBuf N k r (x % y) j := by
  obtain ⟨lo, hi, l, rfl, h1, h2, h3, h4⟩ := hb.cases
  obtain ⟨lo', hi', l', rfl, h1', h2', h3', h4'⟩ := hc.cases
  obtain ⟨r, e, q⟩ := reduceBy_spec h1 h1' h0
  have s1 := h1.size
  have s2 := h1'.size
  have s3 := h1.len_le_size
  have s4 := h1'.len_le_size
  dsimp only at s1 s2 s3 s4
  refine ⟨⟨r.bits ++ hi, r.length⟩, reduceBy_append (by omega) (by omega) e, ?_⟩
  have := JBuf.of_append (lo := r.bits) (len := r.length) q h2
  rwa [h3, h4] at this

omit [Cfg] in
theorem val_replicate (n w : Nat) : val (List.replicate n w) = w * ((𝔹 ^ n - 1) / (𝔹 - 1)) := by
  have h : ∀ w, val (List.replicate n w) * (𝔹 - 1) = w * (𝔹 ^ n - 1) := by
    intro w
    induction n with
    | zero => simp
    | succ n ih =>
      rw [List.replicate_succ, val_cons, pow_succ]
      have : 1 ≤ 𝔹 ^ n := Nat.one_le_pow _ _ (by decide)
      zify [this, show 1 ≤ 𝔹 ^ n * 𝔹 from Nat.one_le_iff_ne_zero.2 (by positivity)] at ih ⊢
      push_cast at ih ⊢
      linear_combination 4294967296 * ih
  have hd : (𝔹 ^ n - 1) / (𝔹 - 1) = val (List.replicate n 1) := by
    refine Nat.div_eq_of_eq_mul_left (by decide) ?_
    rw [h 1, one_mul]
  refine Nat.eq_of_mul_eq_mul_right (show 0 < 𝔹 - 1 by decide) ?_
  rw [h w, hd, mul_assoc, h 1, one_mul]

theorem JBuf.total {N k x j : Nat} {b : BitsBuffer} (h : JBuf N k b x j) : val b.bits = x + j := by
  have e : val b.bits = val (b.bits.take k ++ b.bits.drop k) := by rw [List.take_append_drop]
  rw [e, val_append, h.low.size, ← h.junk]
  have := h.low.value
  dsimp only at this
  rw [this]; ring

theorem JBuf.wlen {N k x j : Nat} {b : BitsBuffer} (h : JBuf N k b x j) : WLen b.length x := by
  have h1 := h.low.len
  have h2 := h.low.value
  dsimp only at h1 h2
  rw [h1, ← h2]; exact wlen_trimLen h.low.words

/-- The Lehmer step on the longer buffer. -/
theorem JBuf.refresh {N k x j : Nat} {b : BitsBuffer} (h : JBuf N k b x j) (hN : N < 2147483648) {n : Nat} (hn : 1 ≤ n) (hm : n ≤ b.length)
    (hm2 : b.length - n ≤ n) :
    ∃ r, b.refresh n = .ok r ∧ JBuf N n r (lehmerCut x n) (j + x / 2 ^ (32 * n) * 2 ^ (32 * n)) := by
  have hs := h.size
  have hf := h.fits
  have hk : b.length ≤ k := h.low.len_le_size
  have hwc := wordCount_of_wlen h.wlen (by omega)
  have hdvd : 𝔹 ^ n ∣ j := by
    rw [← h.junk]
    exact Dvd.dvd.mul_left (pow_dvd_pow _ (by omega)) _
  have hx := h.wlen
  have htot := h.total
  have hta : val (b.bits.take n) = x % 𝔹 ^ n := by
    have e : val b.bits = val (b.bits.take n ++ b.bits.drop n) := by rw [List.take_append_drop]
    rw [val_append, List.length_take_of_le (by omega)] at e
    have hlt := val_lt (h.words.take n)
    rw [List.length_take_of_le (by omega)] at hlt
    obtain ⟨i, rfl⟩ := hdvd
    have : (val (b.bits.take n) + 𝔹 ^ n * val (b.bits.drop n)) % 𝔹 ^ n = (x + 𝔹 ^ n * i) % 𝔹 ^ n := by rw [← htot, e]
    rw [Nat.add_mul_mod_self_left, Nat.add_mul_mod_self_left, Nat.mod_eq_of_lt hlt] at this
    exact this
  have hdr : val (b.bits.drop n) * 𝔹 ^ n = j + x / 2 ^ (32 * n) * 2 ^ (32 * n) := by
    have e : val b.bits = val (b.bits.take n ++ b.bits.drop n) := by rw [List.take_append_drop]
    rw [val_append, List.length_take_of_le (by omega), hta, htot] at e
    rw [← base_pow]
    have := Nat.div_add_mod' x (𝔹 ^ n)
    rw [Nat.mul_comm (𝔹 ^ n)] at e
    omega
  unfold BitsBuffer.refresh
  by_cases hl : b.length > n
  · rw [if_pos hl]
    dsimp only
    rw [slice_prefix (by omega), Res.ok_bind, Res.ok_bind]
    have hu : u32 n = n := by unfold u32; omega
    rw [hu]
    obtain ⟨d, hd⟩ : ∃ d, d = b.length - n := ⟨_, rfl⟩
    rw [← hd] at hm2 ⊢
    have hlen : (List.replicate d n ++ b.bits.drop d).length = N := by simp; omega
    have hwo : WordsOk (List.replicate d n ++ b.bits.drop d) := by
      refine wordsOk_append.2 ⟨fun w hw => ?_, h.words.drop d⟩
      rw [List.eq_of_mem_replicate hw]; omega
    have ht : (List.replicate d n ++ b.bits.drop d).take n = List.replicate d n ++ (b.bits.take n).drop d := by
      rw [List.take_append, List.take_of_length_le (by simp; omega), List.length_replicate, List.drop_take]
    have hdd : (List.replicate d n ++ b.bits.drop d).drop n = b.bits.drop n := by
      rw [List.drop_append, List.drop_eq_nil_of_le (by simp; omega), List.length_replicate, List.drop_drop, List.nil_append]
      congr 1; omega
    unfold actualLength
    rw [slice_prefix (by omega), Res.ok_bind, Res.ok_bind]
    refine ⟨_, rfl, hlen, by omega, hwo, ⟨?_, hwo.take n, ?_, rfl⟩, ?_⟩
    · dsimp only; rw [List.length_take_of_le (by omega)]
    · dsimp only
      rw [ht, val_append, val_replicate, List.length_replicate]
      have e2 : val ((b.bits.take n).drop d) = x % 𝔹 ^ n / 𝔹 ^ d := by
        have e : val (b.bits.take n) = val ((b.bits.take n).take d ++ (b.bits.take n).drop d) := by rw [List.take_append_drop]
        have hltt : ((b.bits.take n).take d).length = d := by simp; omega
        rw [val_append, hltt, hta] at e
        have hlt := val_lt ((h.words.take n).take d)
        rw [hltt] at hlt
        rw [e, Nat.add_mul_div_left _ _ (by positivity), Nat.div_eq_of_lt hlt, zero_add]
      rw [e2]
      unfold lehmerCut
      dsimp only
      rw [hwc, ← hd, if_neg (by omega), base_pow, base_pow, Nat.mul_comm (2 ^ (32 * d)), Nat.add_comm]
    · dsimp only
      rw [hdd, hdr]
  · have he : b.length = n := by omega
    rw [if_neg hl, Res.ok_bind]
    unfold actualLength
    rw [slice_prefix (by omega), Res.ok_bind, Res.ok_bind]
    have hxl : x % 𝔹 ^ n = x := Nat.mod_eq_of_lt (by have := hx.1; rwa [he] at this)
    refine ⟨_, rfl, hs, by omega, h.words, ⟨?_, h.words.take n, ?_, rfl⟩, ?_⟩
    · dsimp only; rw [List.length_take_of_le (by omega)]
    · dsimp only
      unfold lehmerCut
      dsimp only
      rw [hwc, he, Nat.sub_self, if_pos rfl, hta, hxl]
    · dsimp only
      exact hdr

theorem JBuf.refresh_self {N k x j : Nat} {b : BitsBuffer} (h : JBuf N k b x j) : b.refresh b.length = .ok b := by
  have hs := h.size
  have hf := h.fits
  have hk : b.length ≤ k := h.low.len_le_size
  unfold BitsBuffer.refresh
  rw [if_neg (by omega), Res.ok_bind]
  unfold actualLength
  rw [slice_prefix (by omega), Res.ok_bind, Res.ok_bind]
  have hl := h.low.len
  dsimp only at hl
  have e : b.bits.take b.length = (b.bits.take k).take b.length := by rw [List.take_take, Nat.min_eq_left hk]
  have e2 : trimLen (b.bits.take b.length) = b.length := by
    rw [e, trimLen_take (by omega), ← hl]
  rw [e2]

theorem JBuf.lehmerCore {N k x j M m y i : Nat} {b c : BitsBuffer} (hb : JBuf N k b x j) (hc : JBuf M m c y i) (hN : N < 2147483648)
    (h1 : 1 ≤ c.length) (hm : c.length ≤ b.length) (hm2 : b.length - c.length ≤ c.length) {g : Guess} (hg : g.Small) :
    ∃ r, lehmerCore b c g = .ok (r, c) ∧
      JBuf N c.length r (lehmerCut x c.length) (j + x / 2 ^ (32 * c.length) * 2 ^ (32 * c.length)) := by
  obtain ⟨sa, sb, sc, sd⟩ := hg
  obtain ⟨r, e, q⟩ := hb.refresh hN h1 hm hm2
  have s1 := hb.size
  have s2 := hb.fits
  have s3 : b.length ≤ k := hb.low.len_le_size
  have s4 := hc.size
  have s5 := hc.fits
  have s6 : c.length ≤ m := hc.low.len_le_size
  refine ⟨r, ?_, q⟩
  unfold BigIntegerCpp.lehmerCore
  rw [cassert_pos (by omega), Res.ok_bind, cassert_pos (by omega), Res.ok_bind, cassert_pos (by omega), Res.ok_bind,
    cassert_pos ⟨sa, sb⟩, Res.ok_bind, cassert_pos ⟨sc, sd⟩, Res.ok_bind,
    lehmerLoop_ok (by omega) (by omega) (by omega) (by omega) _ hb.words hc.words (by omega) (by omega) (by omega) (by omega),
    Res.ok_bind]
  dsimp only
  rw [e, Res.ok_bind, hc.refresh_self, Res.ok_bind]

/-! ### the loop -/

/-- What a run of the loop amounts to. -/
def LoopEnds (W : Nat) (r : Res (BitsBuffer × BitsBuffer)) : Option GcdEnd → Prop
  | none => r = .diverge
  | some .assertion => r = .abort
  | some .outOfBounds => r = .ub .outOfBounds
  | some (.answer g) => ∃ a b N k x xs M m y ys, r = .ok (a, b) ∧ JBuf N k a x xs ∧ JBuf M m b y ys ∧ 3 ≤ k ∧ 3 ≤ m ∧
      N ≤ W ∧ M ≤ W ∧ y < 2 ^ 64 ∧ g = Nat.gcd x y + xs

omit [Cfg] in
theorem lehmer_words {x y : Nat} (hy : 2 ^ 64 ≤ y) (hv : y / 2 ^ (Nat.log2 x - 62) % 2 ^ 63 ≠ 0) :
    wordCount x ≤ wordCount y + 2 := by
  have h1 : y / 2 ^ (Nat.log2 x - 62) ≠ 0 := fun h => hv (by rw [h]; rfl)
  have h2 : 2 ^ (Nat.log2 x - 62) ≤ y := by
    by_contra hc
    exact h1 (Nat.div_eq_of_lt (by omega))
  have h3 : Nat.log2 x - 62 ≤ Nat.log2 y := (Nat.le_log2 (by omega)).2 h2
  unfold wordCount
  omega

omit [Cfg] in
theorem lehmerQuotients_zero (u a b c d n : Nat) : lehmerQuotients u 0 a b c d n = (b, n) := by
  rw [lehmerQuotients, dif_pos rfl]

theorem gcdLoop_actual (fuel : Nat) {N k x xs M m y ys : Nat} {xb yb : BitsBuffer} (hx : JBuf N k xb x xs) (hy : JBuf M m yb y ys)
    (hk : 3 ≤ k) (hm : 3 ≤ m) {W : Nat} (hW : W < 2147483648) (hN : N ≤ W) (hM : M ≤ W) :
    LoopEnds W (gcdLoop fuel xb yb) (gcdRun (!Cfg.ndebug) fuel x xs y ys) := by
  induction fuel generalizing N k x xs M m y ys xb yb with
  | zero => rw [gcdLoop, gcdRun]; rfl
  | succ fuel ih =>
  rw [gcdLoop, gcdRun]
  have hyl := hy.low.len_gt_two
  have hxl := hx.low.len_gt_two
  dsimp only at hyl hxl
  by_cases h0 : y < 2 ^ 64
  · rw [if_pos h0, if_neg (by omega)]
    exact ⟨xb, yb, N, k, x, xs, M, m, y, ys, rfl, hx, hy, hk, hm, hN, hM, h0, rfl⟩
  rw [if_neg h0, if_pos (by omega)]
  have hwy := wordCount_of_wlen hy.wlen (by omega)
  have hxk : xb.length ≤ k := hx.low.len_le_size
  have hym : yb.length ≤ m := hy.low.len_le_size
  have hshort : wordCount x < wordCount y ↔ xb.length < yb.length := by
    rcases Nat.eq_zero_or_pos xb.length with hz | hz
    · have h1 : x < 1 := by have := hx.wlen.1; rwa [hz, pow_zero] at this
      have h2 : x = 0 := by omega
      have h3 : wordCount x = 1 := by rw [h2]; rfl
      omega
    · rw [wordCount_of_wlen hx.wlen hz, hwy]
  have hE : extractDigits xb yb = extractDigits ⟨xb.bits.take k, xb.length⟩ ⟨yb.bits.take m, yb.length⟩ := by
    have s1 := hx.low.size
    have s2 := hy.low.size
    dsimp only at s1 s2
    have := extractDigits_append (lo := xb.bits.take k) (hi := xb.bits.drop k) (lo' := yb.bits.take m) (hi' := yb.bits.drop m)
      (l := xb.length) (l' := yb.length) (by omega) (by omega) (by omega)
    rwa [List.take_append_drop, List.take_append_drop] at this
  have small1 : Guess.Small ⟨1, 0, 0, 1, 0⟩ := ⟨by decide, by decide, by decide, by decide⟩
  by_cases hs : wordCount x < wordCount y
  · rw [if_pos hs, hE, extractDigits_short (yb := ⟨yb.bits.take m, yb.length⟩) hx.low (show xb.length < yb.length from hshort.1 hs)]
    by_cases hd : Cfg.ndebug = true
    · rw [if_pos hd, hd, if_neg (show ¬ (!true) = true by decide)]
      dsimp only
      by_cases h3 : x < 2 ^ 64
      · rw [if_pos h3, if_pos (by omega)]; rfl
      · rw [if_neg h3, if_neg (by omega), Res.ok_bind]
        dsimp only
        have eg : lehmerGuess (x / 2 ^ (Nat.log2 x - 62)) 0 ⟨1, 0, 0, 1, 0⟩ = .ok ⟨1, 0, 0, 1, 0⟩ := by
          rw [lehmerGuess, if_pos rfl]
        rw [eg, Res.ok_bind]
        dsimp only
        rw [if_pos rfl]
        obtain ⟨r, e, q⟩ := hx.reduceBy hy (by omega)
        have hlt : x < y := by
          have h1 := hx.wlen.1
          have h2 : 𝔹 ^ xb.length ≤ 𝔹 ^ (yb.length - 1) := Nat.pow_le_pow_right (by decide) (by have := hshort.1 hs; omega)
          rcases hy.wlen.2 with h | h
          · omega
          · omega
        rw [Nat.mod_eq_of_lt hlt] at q
        rw [e, Res.ok_bind]
        have := ih hy q hm hk hM hN
        rwa [hd] at this
    · have hd' : Cfg.ndebug = false := by simpa using hd
      rw [if_neg hd, hd', if_pos (show (!false) = true by rfl)]; rfl
  have hle : yb.length ≤ xb.length := by
    have := mt hshort.2 hs
    omega
  have hwx := wordCount_of_wlen hx.wlen (by omega)
  rw [if_neg hs, hE, extractDigits_any hx.low hy.low (show 3 ≤ yb.length by omega) (show yb.length ≤ xb.length from hle)]
  dsimp only
  generalize hu : x / 2 ^ (Nat.log2 x - 62) = u
  generalize hv : y / 2 ^ (Nat.log2 x - 62) % 2 ^ 63 = v
  have hult : u < 2 ^ 63 := by rw [← hu]; exact log2_top x
  have hvlt : v < 2 ^ 63 := by rw [← hv]; exact Nat.mod_lt _ (by decide)
  by_cases hass : (!Cfg.ndebug) = true ∧ u < v
  · have hd' : Cfg.ndebug = false := by simpa using hass.1
    rw [if_pos hass]
    have : cassert (u ≥ v) = .abort := by unfold cassert; rw [hd', if_neg (by have := hass.2; omega)]; rfl
    rw [this]; rfl
  have hc : cassert (u ≥ v) = .ok () := by
    by_cases huv : u ≥ v
    · exact cassert_pos huv
    · have hd : Cfg.ndebug = true := by
        by_contra hd
        exact hass ⟨by simpa using hd, by omega⟩
      unfold cassert; rw [hd]; split_ifs <;> simp_all
  rw [if_neg hass, hc, Res.ok_bind, Res.ok_bind]
  dsimp only
  obtain ⟨g, eg, eq⟩ := lehmerGuess_actual v (x := u) (g := ⟨1, 0, 0, 1, 0⟩) small1 (by decide) (by decide) (Nat.zero_le _) hult hvlt
  dsimp only at eq
  rw [eg, Res.ok_bind, eq]
  dsimp only
  by_cases hb : g.b = 0
  · rw [if_pos hb, if_pos hb]
    obtain ⟨r, e, q⟩ := hx.reduceBy hy (by omega)
    rw [e, Res.ok_bind]
    exact ih hy q hm hk hM hN
  rw [if_neg hb, if_neg hb]
  have hv0 : v ≠ 0 := by
    rintro rfl
    rw [lehmerQuotients_zero] at eq
    exact hb (congrArg Prod.fst eq).symm
  have h2 := lehmer_words (x := x) (y := y) (by omega) (by rw [hv]; exact hv0)
  obtain ⟨r, e, q⟩ := hx.lehmerCore hy (by omega) (by omega) hle (by omega) (lehmerGuess_small _ small1 eg)
  rw [e, Res.ok_bind]
  dsimp only
  rw [hwy]
  by_cases hi : g.iteration % 2 = 1
  · rw [if_pos hi, if_pos hi]
    exact ih hy q hm (by omega) hM hN
  · rw [if_neg hi, if_neg hi]
    exact ih q hy (by omega) hm hN hM

/-! ### after the loop -/

theorem put_append {lo hi : List Nat} {i v : Nat} (h : i < lo.length) : put (lo ++ hi) i v = .ok (lo.set i v ++ hi) := by
  rw [put_ok v (by simp; omega), List.set_append_left _ _ h]

theorem JBuf.overwrite {N k x j v : Nat} {b : BitsBuffer} (h : JBuf N k b x j) (hk : 2 ≤ k) (hx : x < 2 ^ 64) (hv : v < 2 ^ 64) :
    ∃ r, b.overwrite v = .ok r ∧ r.bits.length = N ∧ WordsOk r.bits ∧ val r.bits = v + j := by
  obtain ⟨lo, hi, l, rfl, h1, h2, h3, h4⟩ := h.cases
  have hs := h1.size
  have hl := h1.len_gt_two
  dsimp only at hs hl
  obtain ⟨r, e, q1, q2, q3⟩ := overwrite_spec h1 hk hx hv
  have e' : BitsBuffer.overwrite ⟨lo ++ hi, l⟩ v = .ok ⟨r.bits ++ hi, r.length⟩ := by
    unfold BitsBuffer.overwrite at e ⊢
    dsimp only at e ⊢
    rw [if_neg (by omega), Res.ok_bind] at e ⊢
    rw [put_ok _ (by omega), Res.ok_bind, put_ok _ (by simp; omega), Res.ok_bind] at e
    rw [put_append (by omega), Res.ok_bind, put_append (by simp; omega), Res.ok_bind, ← Res.ok.inj e]
  refine ⟨_, e', by simp; omega, wordsOk_append.2 ⟨q2, h2⟩, ?_⟩
  dsimp only
  rw [val_append, q1, q3, ← h3]; ring

theorem JBuf.low64 {N k x j : Nat} {b : BitsBuffer} (h : JBuf N k b x j) (hk : 2 ≤ k) (hx : x < 2 ^ 64) :
    u64 (b.bits[1]?.getD 0 <<< 32) ||| b.bits[0]?.getD 0 = x := by
  have h0 := h.low.low64 hx
  dsimp only at h0
  rwa [List.getElem?_take_of_lt (by omega), List.getElem?_take_of_lt (by omega)] at h0

theorem gcdBits_actual (fuel : Nat) {xs ys : List Nat} (hx : WordsOk xs) (hy : WordsOk ys) (htx : xs.getLast? ≠ some 0)
    (hty : ys.getLast? ≠ some 0) (hne : ys ≠ []) (hlx : xs.length < 2147483648) (hle : val ys ≤ val xs) (h64 : 2 ^ 64 ≤ val ys) :
    RunEnds (gcdBits fuel xs ys) (gcdRun (!Cfg.ndebug) fuel (val xs) 0 (val ys) 0) ∧
      ∀ g, gcdRun (!Cfg.ndebug) fuel (val xs) 0 (val ys) 0 = some (.answer g) → g < 𝔹 ^ xs.length := by
  have hlen : ys.length ≤ xs.length := by
    by_contra hc
    have := BigInt.val_lt_of_length hx hne hty (by omega)
    omega
  have h3 : 2 < ys.length := by
    have := (show Buf ys.length ⟨ys, trimLen ys⟩ (val ys) from ⟨rfl, hy, rfl, rfl⟩).len_gt_two.2 h64
    dsimp only at this
    have := trimLen_le ys
    omega
  obtain ⟨lb, e1, k1⟩ := BitsBuffer.ofWords_spec (N := xs.length) hx hlx (trimLen_le _)
  obtain ⟨rb, e2, k2⟩ := BitsBuffer.ofWords_spec (N := ys.length) hy (by omega) (trimLen_le _)
  have l1 : rb.length ≤ lb.length := by
    have hw : WLen lb.length (val xs) := by rw [k1.len, ← k1.value]; exact wlen_trimLen k1.words
    exact k2.len_le (lt_of_le_of_lt hle hw.1)
  have l2 := k2.len_gt_two.2 h64
  have hcmp : (compareWords xs ys ≥ 0) := by
    rw [compareWords_spec hx hy htx hty, if_neg (by omega)]; split_ifs <;> decide
  have J : ∀ {N b x}, Buf N b x → JBuf N N b x 0 := by
    intro N b x h
    have hs := h.size
    have ht : b.bits.take N = b.bits := List.take_of_length_le (by omega)
    have hd : b.bits.drop N = [] := List.drop_eq_nil_of_le (by omega)
    refine ⟨hs, le_refl _, h.words, ?_, by rw [hd]; simp⟩
    rw [ht]; exact h
  have hL := gcdLoop_actual fuel (J k1) (J k2) (by omega) (by omega) hlx (le_refl _) hlen
  unfold gcdBits
  rw [cassert_pos hcmp, Res.ok_bind, if_neg (by omega), if_neg (by omega)]
  unfold gcdVec
  rw [cassert_pos (by omega), Res.ok_bind, cassert_pos (by omega), Res.ok_bind, cassert_pos hcmp, Res.ok_bind, e1, Res.ok_bind,
    e2, Res.ok_bind]
  unfold gcdBuffers
  rw [cassert_pos (by omega), Res.ok_bind, cassert_pos (by omega), Res.ok_bind, cassert_pos (by omega), Res.ok_bind]
  rcases hrun : gcdRun (!Cfg.ndebug) fuel (val xs) 0 (val ys) 0 with _ | ⟨g⟩ | _ | _ <;> rw [hrun] at hL
  · rw [show gcdLoop fuel lb rb = .diverge from hL]; exact ⟨rfl, nofun⟩
  · obtain ⟨a, b, N, k, x, xj, M, m, y, yj, q1, q2, q3, q4, q5, q6, q7, q8, q9⟩ := hL
    rw [q1, Res.ok_bind]
    dsimp only
    have key : ∃ r, (if b.length > 0 then (do
        let left ← a.reduceBy b
        let x1 ← idx b.bits 1
        let x0 ← idx b.bits 0
        let y1 ← idx left.bits 1
        let y0 ← idx left.bits 0
        left.overwrite (gcd64 (u64 (x1 <<< 32) ||| x0) (u64 (y1 <<< 32) ||| y0)))
      else (.ok a : Res BitsBuffer)) = .ok r ∧ r.bits.length = N ∧ WordsOk r.bits ∧ val r.bits = g := by
      have hpl := q3.low.pos_len
      dsimp only at hpl
      have sN := q2.fits
      have sM := q3.fits
      by_cases h0 : 0 < y
      · rw [if_pos (hpl.2 h0)]
        obtain ⟨c, e3, k3⟩ := q2.reduceBy q3 h0
        have hlt := Nat.mod_lt x h0
        have sb := q3.size
        have sc := k3.size
        rw [e3, Res.ok_bind, idx_getD (by omega), Res.ok_bind, idx_getD (by omega), Res.ok_bind, idx_getD (by omega), Res.ok_bind,
          idx_getD (by omega), Res.ok_bind, q3.low64 (by omega) q8, k3.low64 (by omega) (by omega), gcd64_spec]
        have hg : Nat.gcd y (x % y) = Nat.gcd x y := by
          rw [Nat.gcd_comm x y, Nat.gcd_rec y x, Nat.gcd_comm]
        obtain ⟨r, e4, r1, r2, r3⟩ := k3.overwrite (by omega) (by omega) (v := Nat.gcd y (x % y))
          (lt_of_le_of_lt (Nat.gcd_le_left _ h0) q8)
        exact ⟨r, e4, r1, r2, by rw [r3, hg, q9]⟩
      · have h00 : y = 0 := by omega
        rw [if_neg (fun h => h0 (hpl.1 h))]
        exact ⟨a, rfl, q2.size, q2.words, by rw [q2.total, q9, h00, Nat.gcd_zero_right]⟩
    obtain ⟨r, e, r1, r2, r3⟩ := key
    rw [e, Res.ok_bind, Res.ok_bind]
    refine ⟨returns_ofMagnitude r2 (by omega) (by rw [r3]; rfl), fun g' hg' => ?_⟩
    cases hg'
    have := val_lt r2
    rw [r3, r1] at this
    exact lt_of_lt_of_le this (Nat.pow_le_pow_right (by decide) q6)
  · rw [show gcdLoop fuel lb rb = .abort from hL]; exact ⟨rfl, nofun⟩
  · rw [show gcdLoop fuel lb rb = .ub .outOfBounds from hL]; exact ⟨rfl, nofun⟩

/-- The whole of `greatest_common_divisor` on numbers of more than 64 bits. -/
theorem gcd_actual {a b : BigInt} {x y : Int} (ha : a.Denotes x) (hb : b.Denotes y) (hla : a.bits.length < 2147483648)
    (hlb : b.bits.length < 2147483648) (hx : 2 ^ 64 ≤ x.natAbs) (hy : 2 ^ 64 ≤ y.natAbs) (fuel : Nat) :
    RunEnds (BigInt.gcd fuel a b) (gcdRun (!Cfg.ndebug) fuel (max x.natAbs y.natAbs) 0 (min x.natAbs y.natAbs) 0) ∧
      ∀ g, gcdRun (!Cfg.ndebug) fuel (max x.natAbs y.natAbs) 0 (min x.natAbs y.natAbs) 0 = some (.answer g) →
        g < 2 ^ (32 * wordCount (max x.natAbs y.natAbs)) := by
  have hcount : ∀ ws : List Nat, ws ≠ [] → WordsOk ws → ws.getLast? ≠ some 0 → 𝔹 ^ ws.length = 2 ^ (32 * wordCount (val ws)) := by
    intro ws hne hw ht
    have h := wlen_trimLen hw
    rw [trimLen_of_top ht] at h
    rw [wordCount_of_wlen h (List.length_pos_iff.2 hne), base_pow]
  unfold BigInt.gcd
  rw [ha.assertValid, Res.ok_bind, hb.assertValid, Res.ok_bind]
  rcases ha.shape with ⟨rfl, hx1, hx2⟩ | ⟨s, ws, rfl, hs, hne, hw, ht, hv, rfl⟩
  · omega
  rcases hb.shape with ⟨rfl, hy1, hy2⟩ | ⟨s', ws', rfl, hs', hne', hw', ht', hv', rfl⟩
  · omega
  dsimp only at *
  rw [natAbs_unit_mul hs] at hx ⊢
  rw [natAbs_unit_mul hs'] at hy ⊢
  rw [if_neg (by simp [hne]), if_neg hne, if_neg hne', compareWords_spec hw hw' ht ht']
  by_cases h : val ws < val ws'
  · rw [if_pos h, if_pos (by decide), Nat.max_eq_right (le_of_lt h), Nat.min_eq_left (le_of_lt h), ← hcount ws' hne' hw' ht']
    exact gcdBits_actual fuel hw' hw ht' ht hne hlb (le_of_lt h) hx
  · rw [if_neg h, if_neg (by split_ifs <;> decide), Nat.max_eq_left (by omega), Nat.min_eq_right (by omega), ← hcount ws hne hw ht]
    exact gcdBits_actual fuel hw hw' ht ht' hne' hla (by omega) hy

end BigIntegerCpp
