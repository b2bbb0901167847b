import Verif.Lemmas.BitLength
/-
Shift operators on objects, all `int` counts.
-/
namespace BigIntegerCpp
set_option linter.unusedSectionVars false
set_option linter.unnecessarySeqFocus false
variable [Cfg]
namespace BigInt

theorem pow_words (n : Nat) : (𝔹 : Nat) ^ n = 2 ^ (32 * n) := by
  rw [show (4294967296 : Nat) = 2 ^ 32 by norm_num, ← pow_mul]

theorem pow_words_int (n : Nat) : (4294967296 : Int) ^ n = 2 ^ (32 * n) := by
  rw [show (4294967296 : Int) = 2 ^ 32 by norm_num, ← pow_mul]

theorem floor_eq_neg {x P Q : Int} (hP : 0 < P) : x / P = -Q ↔ -(P * Q) ≤ x ∧ x < -(P * Q - P) := by
  constructor
  · intro h
    have h1 := Int.mul_ediv_add_emod x P
    have h2 := Int.emod_nonneg x (ne_of_gt hP)
    have h3 := Int.emod_lt_of_pos x hP
    rw [h] at h1
    have : P * -Q = -(P * Q) := by ring
    omega
  · rintro ⟨h1, h2⟩
    have e : x = (x + P * Q) + (-Q) * P := by ring
    rw [e, Int.add_mul_ediv_right _ _ (ne_of_gt hP), Int.ediv_eq_zero_of_lt (by omega) (by omega)]
    omega

theorem misfires_iff {a : BigInt} {x : Int} (ha : a.Denotes x) (hx : x < 0) {n : Nat} (hn : 0 < n) :
    (n % 32 = 0 ∧ n < 32 * Max.max a.bits.length 1 ∧
      x / 2 ^ n = -(𝔹 ^ (Max.max a.bits.length 1 - n / 32) : Int)) ↔ ShiftMisfires x n := by
  have hlt := ha.natAbs_lt
  generalize hwl : Max.max a.bits.length 1 = wl at *
  have hwl1 : 1 ≤ wl := by rw [← hwl]; exact Nat.le_max_right _ _
  push_cast
  have hpos : (0 : Int) < 2 ^ n := by positivity
  constructor
  · rintro ⟨h1, h2, h3⟩
    refine ⟨hn, h1, wl - n / 32, by omega, ?_⟩
    rw [pow_words_int, floor_eq_neg hpos, ← pow_add] at h3
    refine ⟨?_, h3.2⟩
    have he : n + 32 * (wl - n / 32) = 32 * wl := by omega
    rw [he]
    rw [pow_words] at hlt
    have : ((x.natAbs : Nat) : Int) < 2 ^ (32 * wl) := by exact_mod_cast hlt
    omega
  · rintro ⟨-, h1, L, hL, h2, h3⟩
    obtain ⟨d, rfl⟩ : ∃ d, n = 32 * d := ⟨n / 32, by omega⟩
    have hd : 32 * d / 32 = d := by omega
    -- |x| is strictly between two consecutive powers of the base
    have hlow : 2 ^ (32 * (d + L - 1)) ≤ x.natAbs := by
      have e1 : (2 : Int) ^ (32 * d + 32 * L) = 2 ^ (32 * (d + L - 1)) * 4294967296 := by
        rw [show (4294967296 : Int) = 2 ^ 32 by norm_num, ← pow_add]; congr 1; omega
      have e2 : (2 : Int) ^ (32 * d) ≤ 2 ^ (32 * (d + L - 1)) := pow_le_pow_right₀ (by decide) (by omega)
      have e3 : (2 : Int) ^ (32 * (d + L - 1)) ≤ x.natAbs := by
        generalize (2 : Int) ^ (32 * (d + L - 1)) = P at *
        generalize (2 : Int) ^ (32 * d) = Q at *
        omega
      exact_mod_cast e3
    have hhigh : x.natAbs < 𝔹 ^ (d + L) := by
      rw [pow_words]
      have e1 : (x.natAbs : Int) < 2 ^ (32 * (d + L)) := by
        rw [show 32 * (d + L) = 32 * d + 32 * L by ring]; omega
      exact_mod_cast e1
    have hle : d + L ≤ wl := by
      rw [pow_words] at hlt
      have := (Nat.pow_lt_pow_iff_right (by decide : 1 < 2)).1 (lt_of_le_of_lt hlow hlt)
      omega
    have hge : wl ≤ d + L := by
      have := ha.length_le hhigh
      rw [← hwl]
      exact Nat.max_le.2 ⟨this, by omega⟩
    have hL' : wl - 32 * d / 32 = L := by omega
    refine ⟨by omega, by omega, ?_⟩
    rw [hL', pow_words_int, floor_eq_neg hpos, ← pow_add]
    omega

theorem shrPos_spec {a : BigInt} {x : Int} (ha : a.Denotes x) {n : Nat} (hn : 0 < n)
    (hl : a.bits.length < 2147483648) (hl' : x < 0 → a.bits.length < 67108864) (hm : ¬ ShiftMisfires x n) :
    Returns (a.shrPos n) (x / 2 ^ n) := by
  by_cases hx : x < 0
  · have := shrPos_neg ha hx (n := n) (hl' hx)
    rwa [if_neg (mt (misfires_iff ha hx hn).1 hm)] at this
  · exact shrPos_nonneg ha (by omega) hl

theorem shrPos_misfire {a : BigInt} {x : Int} (ha : a.Denotes x) {n : Nat}
    (hl' : a.bits.length < 67108864) (hm : ShiftMisfires x n) : Returns (a.shrPos n) 0 := by
  have hx : x < 0 := by
    obtain ⟨-, -, L, -, h1, h2⟩ := hm
    have : (2 : Int) ^ n ≤ 2 ^ (n + 32 * L) := pow_le_pow_right₀ (by decide) (by omega)
    omega
  have := shrPos_neg ha hx (n := n) hl'
  rwa [if_pos ((misfires_iff ha hx hm.1).2 hm)] at this

theorem div_div_pow (x : Int) (m n : Nat) : x / 2 ^ m / 2 ^ n = x / 2 ^ (m + n) := by
  rw [pow_add, Int.ediv_ediv_of_nonneg (by positivity)]

theorem natAbs_div_le (x : Int) (n : Nat) : (x / 2 ^ n).natAbs ≤ x.natAbs := Int.natAbs_ediv_le_natAbs x _

/-- `<<` with any `int` count. -/
theorem shl_pos {a : BigInt} {x : Int} (ha : a.Denotes x) {n : Int} (hn : 0 ≤ n)
    (hl : a.bits.length + n.toNat / 32 + 2 < 2147483648) : Returns (a.shl n) (x * 2 ^ n.toNat) := by
  unfold shl
  by_cases h0 : n = 0
  · subst h0; rw [if_pos rfl]; simpa using returns_ok ha
  · rw [if_neg h0, if_neg (by omega), if_neg (by omega)]
    apply shlPos_spec ha
    have : Max.max a.bits.length 1 ≤ a.bits.length + 1 := Nat.max_le.2 ⟨by omega, by omega⟩
    omega

theorem shr_pos {a : BigInt} {x : Int} (ha : a.Denotes x) {n : Int} (hn : 0 ≤ n)
    (hl : a.bits.length < 2147483648) (hl' : x < 0 → a.bits.length < 67108864) (hm : ¬ ShiftMisfires x n.toNat) :
    Returns (a.shr n) (x / 2 ^ n.toNat) := by
  unfold shr
  by_cases h0 : n = 0
  · subst h0; rw [if_pos rfl]; simpa using returns_ok ha
  · rw [if_neg h0, if_neg (by omega), if_neg (by omega)]
    exact shrPos_spec ha (by omega) hl hl' hm

theorem shr_misfire {a : BigInt} {x : Int} (ha : a.Denotes x) {n : Int}
    (hl' : a.bits.length < 67108864) (hm : ShiftMisfires x n.toNat) : Returns (a.shr n) 0 := by
  have hn := hm.1
  unfold shr
  rw [if_neg (by omega), if_neg (by omega), if_neg (by omega)]
  exact shrPos_misfire ha hl' hm

/-- `kcbitUint * xl` overflows an `int` for a negative number of `2^26` words or more. -/
theorem shrPos_overflow {a : BigInt} {x : Int} (ha : a.Denotes x) (hx : x < 0) {n : Nat}
    (h1 : 67108864 ≤ a.bits.length) (h2 : a.bits.length < 2147483648) : a.shrPos n = .ub .signedOverflow := by
  obtain ⟨xd, hp, hlen, -, -, -⟩ := partsForBits_spec ha
  have e : xd.length = a.bits.length := by rw [hlen]; exact Nat.max_eq_left (by omega)
  have hsg : a.sign < 0 := by rw [ha.sign_neg]; omega
  unfold shrPos
  rw [hp]
  simp only [Res.ok_bind]
  rw [sizeInt_ok (by omega), Res.ok_bind]
  simp only [hsg, decide_true, if_true]
  rw [show int (32 * (xd.length : Int)) = .ub .signedOverflow by unfold int; rw [if_neg (by omega)]]
  rfl

theorem shr_overflow {a : BigInt} {x : Int} (ha : a.Denotes x) (hx : x < 0) {n : Int} (hn : 0 < n)
    (h1 : 67108864 ≤ a.bits.length) (h2 : a.bits.length < 2147483648) : a.shr n = .ub .signedOverflow := by
  unfold shr
  rw [if_neg (by omega), if_neg (by omega), if_neg (by omega)]
  exact shrPos_overflow ha hx h1 h2

theorem shl_overflow {a : BigInt} {x : Int} (ha : a.Denotes x) (hx : x < 0) {n : Int} (hn : n < 0)
    (h1 : 67108864 ≤ a.bits.length) (h2 : a.bits.length < 2147483648) : a.shl n = .ub .signedOverflow := by
  unfold shl
  rw [if_neg (by omega)]
  by_cases hm : n = -2147483648
  · rw [if_pos hm, shrPos_overflow ha hx h1 h2]; rfl
  · rw [if_neg hm, if_pos hn]; exact shrPos_overflow ha hx h1 h2

theorem not_misfires_of_mod {x : Int} {n : Nat} (h : n % 32 ≠ 0) : ¬ ShiftMisfires x n := fun hm => h hm.2.1

theorem shrPos_twice {a : BigInt} {x : Int} (ha : a.Denotes x) {m k N : Nat} (hN : N = m + k) (hm : m % 32 ≠ 0)
    (hk : k % 32 ≠ 0) (hl : a.bits.length < 2147483648) (hl' : x < 0 → a.bits.length < 67108864) :
    Returns (do let b ← a.shrPos m; b.shrPos k) (x / 2 ^ N) := by
  subst hN
  obtain ⟨b, hb, hd⟩ := shrPos_spec ha (n := m) (by omega) hl hl' (not_misfires_of_mod hm)
  rw [hb, Res.ok_bind]
  have hlen : b.bits.length ≤ Max.max a.bits.length 1 :=
    hd.length_le (lt_of_le_of_lt (natAbs_div_le _ _) ha.natAbs_lt)
  have := shrPos_spec hd (n := k) (by omega) (lt_of_le_of_lt hlen (Nat.max_lt.2 ⟨hl, by norm_num⟩))
    (fun h => lt_of_le_of_lt hlen (Nat.max_lt.2 ⟨hl' (by
      by_contra hc
      have := Int.ediv_nonneg (a := x) (b := 2 ^ m) (by omega) (by positivity)
      omega), by norm_num⟩)) (not_misfires_of_mod hk)
  rwa [div_div_pow] at this

theorem shlPos_twice {a : BigInt} {x : Int} (ha : a.Denotes x) {m k N : Nat} (hN : N = m + k)
    (hl : a.bits.length + m / 32 + k / 32 + 5 < 2147483648) :
    Returns (do let b ← a.shlPos m; b.shlPos k) (x * 2 ^ N) := by
  subst hN
  have hmax : Max.max a.bits.length 1 ≤ a.bits.length + 1 := Nat.max_le.2 ⟨by omega, by omega⟩
  obtain ⟨b, hb, hd⟩ := shlPos_spec ha (n := m) (by omega)
  rw [hb, Res.ok_bind]
  have hlen : b.bits.length ≤ Max.max a.bits.length 1 + (m / 32 + 1) := by
    apply hd.length_le
    rw [Int.natAbs_mul, Int.natAbs_pow, pow_add, pow_words (m / 32 + 1)]
    apply Nat.mul_lt_mul'' ha.natAbs_lt
    exact Nat.pow_lt_pow_right (by decide) (by omega)
  have hmax2 : Max.max b.bits.length 1 ≤ b.bits.length + 1 := Nat.max_le.2 ⟨by omega, by omega⟩
  have := shlPos_spec hd (n := k) (by omega)
  rwa [Int.mul_assoc, ← pow_add] at this

theorem shl_neg {a : BigInt} {x : Int} (ha : a.Denotes x) {n : Int} (hn : n < 0)
    (hl : a.bits.length < 2147483648) (hl' : x < 0 → a.bits.length < 67108864)
    (hm : n ≠ -2147483648 → ¬ ShiftMisfires x (-n).toNat) : Returns (a.shl n) (x / 2 ^ (-n).toNat) := by
  unfold shl
  rw [if_neg (by omega)]
  by_cases h1 : n = -2147483648
  · rw [if_pos h1]
    exact shrPos_twice ha (by omega) (by omega) (by omega) hl hl'
  · rw [if_neg h1, if_pos hn]
    exact shrPos_spec ha (by omega) hl hl' (hm h1)

theorem shl_neg_misfire {a : BigInt} {x : Int} (ha : a.Denotes x) {n : Int} (hn : -2147483648 < n)
    (hl' : a.bits.length < 67108864) (hm : ShiftMisfires x (-n).toNat) : Returns (a.shl n) 0 := by
  have := hm.1
  unfold shl
  rw [if_neg (by omega), if_neg (by omega), if_pos (by omega)]
  exact shrPos_misfire ha hl' hm

theorem shr_neg {a : BigInt} {x : Int} (ha : a.Denotes x) {n : Int} (hn : n < 0)
    (hl : a.bits.length + (-n).toNat / 32 + 5 < 2147483648) : Returns (a.shr n) (x * 2 ^ (-n).toNat) := by
  have hmax : Max.max a.bits.length 1 ≤ a.bits.length + 1 := Nat.max_le.2 ⟨by omega, by omega⟩
  unfold shr
  rw [if_neg (by omega)]
  by_cases h1 : n = -2147483648
  · rw [if_pos h1]
    exact shlPos_twice ha (by omega) (by omega)
  · rw [if_neg h1, if_pos hn]
    apply shlPos_spec ha
    omega

end BigInt
end BigIntegerCpp
