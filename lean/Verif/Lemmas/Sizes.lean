import Mathlib.Data.Nat.Size
import Mathlib.Algebra.Order.Ring.Abs
import Verif.Lemmas.Program
import Verif.Lemmas.Text
/-
The width of an integer in two's complement, under the operations (for C72).
-/
set_option linter.unusedSectionVars false
namespace BigIntegerCpp
variable [Cfg]

/-- The least `n` with `-2^n ≤ x < 2^n`. -/
def width (x : Int) : Nat := if 0 ≤ x then x.toNat.size else (-x - 1).toNat.size

theorem two_pow_cast (n : Nat) : ((2 ^ n : Nat) : Int) = 2 ^ n := by push_cast; rfl

omit [Cfg] in
theorem width_le {x : Int} {n : Nat} : width x ≤ n ↔ -(2 : Int) ^ n ≤ x ∧ x < 2 ^ n := by
  have hp : (0 : Int) < 2 ^ n := by positivity
  have e : ((2 ^ n : Nat) : Int) = 2 ^ n := by push_cast; rfl
  unfold width
  by_cases h : 0 ≤ x
  · rw [if_pos h, Nat.size_le]
    omega
  · rw [if_neg h, Nat.size_le]
    omega

omit [Cfg] in
theorem lt_width {x : Int} {n : Nat} : n < width x ↔ x < -(2 : Int) ^ n ∨ 2 ^ n ≤ x := by
  have := width_le (x := x) (n := n)
  rw [← not_le, this]
  omega

omit [Cfg] in
theorem width_bounds (x : Int) : -(2 : Int) ^ width x ≤ x ∧ x < 2 ^ width x := width_le.1 le_rfl

omit [Cfg] in
/-- A magnitude is at least half the power its width names. -/
theorem half_le {x : Int} (hx : x ≠ 0) : (2 : Int) ^ (width x - 1) ≤ |x| ∧
    (x < 0 → 0 < width x → (2 : Int) ^ (width x - 1) < -x) ∧ (0 < x → 0 < width x) := by
  rcases Nat.eq_zero_or_pos (width x) with h | h
  · obtain ⟨h1, h2⟩ := width_bounds x
    rw [h] at h1 h2 ⊢
    simp only [pow_zero] at h1 h2
    have : x = -1 := by omega
    subst this
    exact ⟨by decide, by omega, by omega⟩
  · have h1 := lt_width.1 (show width x - 1 < width x by omega)
    have hp : (0 : Int) < 2 ^ (width x - 1) := by positivity
    refine ⟨?_, fun h2 _ => by omega, fun _ => h⟩
    rw [Int.abs_eq_natAbs]
    omega

theorem bitLength_width {a : BigInt} {x : Int} (ha : a.Denotes x) (hl : a.bits.length < 2147483648) : a.bitLength = .ok (width x) := by
  obtain ⟨n, h1, h2, h3⟩ := BigInt.bitLength_spec ha hl
  rw [h1]
  congr 1
  exact le_antisymm (h3 _ (width_bounds x).1 (width_bounds x).2) (width_le.2 h2)

theorem natAbs_lt_words {a : BigInt} {x : Int} (ha : a.Denotes x) : x.natAbs < 𝔹 ^ max 1 a.bits.length := by
  by_cases h : a.bits = []
  · rcases ha.shape with ⟨rfl, h1, h2⟩ | ⟨s, ws, rfl, hs, hne, hw, ht, hv, rfl⟩
    · simp
      omega
    · exact absurd h hne
  · exact lt_of_lt_of_le (ha.lt_pow h) (Nat.pow_le_pow_right (by decide) (le_max_right _ _))

/-- A value that a call returns and that is below `2^31 - 1` words has its width as bit length. -/
theorem length_of {r : Res BigInt} {z : Int} (h : Returns r z) {n : Nat} (hz : z.natAbs < 𝔹 ^ n) (hn : n < 2147483648) :
    ∃ c, r = .ok c ∧ c.bitLength = .ok (width z) := by
  obtain ⟨c, h1, h2⟩ := h
  exact ⟨c, h1, bitLength_width h2 (lt_of_le_of_lt (h2.length_le hz) hn)⟩

/-! ### the widths of results -/

omit [Cfg] in
theorem width_add (x y : Int) : width (x + y) ≤ max (width x) (width y) + 1 := by
  rw [width_le, pow_succ]
  have h1 := width_le.1 (le_max_left (width x) (width y))
  have h2 := width_le.1 (le_max_right (width x) (width y))
  omega

omit [Cfg] in
theorem width_not (x : Int) : width (-x - 1) = width x := by
  have h : ∀ y : Int, width (-y - 1) ≤ width y := fun y => by
    have := width_bounds y
    rw [width_le]; omega
  refine le_antisymm (h x) ?_
  have := h (-x - 1)
  rwa [show -(-x - 1) - 1 = x by ring] at this

omit [Cfg] in
theorem width_sub (x y : Int) : width (x - y) ≤ max (width x) (width y) + 1 := by
  rw [width_le, pow_succ]
  have h1 := width_le.1 (le_max_left (width x) (width y))
  have h2 := width_le.1 (le_max_right (width x) (width y))
  omega

omit [Cfg] in
theorem width_neg (x : Int) : width (-x) ≤ width x + 1 ∧ width x ≤ width (-x) + 1 ∧ (width (-x) = width x ∨ ∃ j : Nat, |x| = 2 ^ j) := by
  have h : ∀ y : Int, width (-y) ≤ width y + 1 ∧ (width (-y) ≤ width y ∨ -y = 2 ^ width y) := fun y => by
    have h1 := width_bounds y
    refine ⟨by rw [width_le, pow_succ]; omega, ?_⟩
    by_cases h2 : -y = 2 ^ width y
    · exact .inr h2
    · exact .inl (by rw [width_le]; omega)
  have h1 := h x
  have h2 := h (-x)
  rw [neg_neg] at h2
  refine ⟨h1.1, h2.1, ?_⟩
  rcases h1.2 with h3 | h3
  · rcases h2.2 with h4 | h4
    · exact .inl (le_antisymm h3 h4)
    · refine .inr ⟨width (-x), ?_⟩
      rw [abs_of_nonneg (by rw [h4]; positivity)]
      exact h4
  · refine .inr ⟨width x, ?_⟩
    rw [← abs_neg, abs_of_nonneg (by rw [h3]; positivity)]
    exact h3

omit [Cfg] in
theorem abs_le_width (x : Int) : |x| ≤ 2 ^ width x := by
  have := width_bounds x
  rw [abs_le]; omega

omit [Cfg] in
theorem width_mul (x y : Int) (hx : x ≠ 0) (hy : y ≠ 0) : width x + width y ≤ width (x * y) + 1 ∧
    width (x * y) ≤ width x + width y + 1 ∧
    (width (x * y) = width x + width y + 1 ↔ x = -2 ^ width x ∧ y = -2 ^ width y) := by
  have bx := width_bounds x
  have bY := width_bounds y
  have up := mul_le_mul (abs_le_width x) (abs_le_width y) (abs_nonneg y) (by positivity)
  rw [← abs_mul, ← pow_add] at up
  have up' := abs_le.1 up
  have hpos : (0 : Int) < 2 ^ (width x + width y) := by positivity
  refine ⟨?_, ?_, ?_⟩
  · -- from below
    obtain ⟨x1, x2, x3⟩ := half_le hx
    obtain ⟨y1, y2, y3⟩ := half_le hy
    by_contra hc
    have hlt : width (x * y) ≤ width x + width y - 2 := by omega
    obtain ⟨l1, l2⟩ := width_le.1 hlt
    rcases Nat.eq_zero_or_pos (width x) with h0 | h0
    · rw [h0] at bx; simp only [pow_zero] at bx
      have : x = -1 := by omega
      subst this
      have := (width_neg y).2.1
      rw [show -1 * y = -y by ring, h0] at hc
      omega
    rcases Nat.eq_zero_or_pos (width y) with h0' | h0'
    · rw [h0'] at bY; simp only [pow_zero] at bY
      have : y = -1 := by omega
      subst this
      have := (width_neg x).2.1
      rw [show x * -1 = -x by ring, h0'] at hc
      omega
    have low := mul_le_mul x1 y1 (by positivity) (abs_nonneg x)
    rw [← abs_mul, ← pow_add, show width x - 1 + (width y - 1) = width x + width y - 2 by omega] at low
    rcases lt_or_ge (x * y) 0 with hs | hs
    · rw [abs_of_neg hs] at low
      have he : x * y = -2 ^ (width x + width y - 2) := by omega
      have hsplit : (2 : Int) ^ (width x + width y - 2) = 2 ^ (width x - 1) * 2 ^ (width y - 1) := by
        rw [← pow_add]; congr 1; omega
      rcases mul_neg_iff.1 hs with ⟨hx', hy'⟩ | ⟨hx', hy'⟩
      · have h5 := y2 hy' h0'
        rw [abs_of_pos hx'] at x1
        have := mul_lt_mul' x1 h5 (by positivity) hx'
        rw [← hsplit] at this
        have e : x * -y = -(x * y) := by ring
        omega
      · have h5 := x2 hx' h0
        rw [abs_of_pos hy'] at y1
        have := mul_lt_mul'' h5 (lt_of_lt_of_le (lt_of_le_of_lt y1 (lt_add_one y)) le_rfl) (by positivity) (by positivity)
        have h6 : (2 : Int) ^ (width x - 1) * 2 ^ (width y - 1) < -x * y := mul_lt_mul h5 y1 (by positivity) (by omega)
        rw [← hsplit] at h6
        have e : -x * y = -(x * y) := by ring
        omega
    · rw [abs_of_nonneg hs] at low; omega
  · rw [width_le, pow_succ]; omega
  · constructor
    · intro h
      have h1 := lt_width.1 (show width x + width y < width (x * y) by omega)
      have h2 : x * y = 2 ^ (width x + width y) := by omega
      -- both factors are extreme
      have ax := abs_le_width x
      have ay := abs_le_width y
      have hp1 : (0 : Int) < 2 ^ width x := by positivity
      have hp2 : (0 : Int) < 2 ^ width y := by positivity
      have hxy : |x| * |y| = 2 ^ width x * 2 ^ width y := by
        rw [← abs_mul, h2, abs_of_pos hpos, pow_add]
      have e1 : |x| = 2 ^ width x := by
        by_contra hne
        have h3 : |x| < 2 ^ width x := lt_of_le_of_ne ax hne
        have h4 := mul_lt_mul h3 ay (abs_pos.2 hy) hp1.le
        omega
      have e2 : |y| = 2 ^ width y := by
        rw [e1] at hxy
        exact mul_left_cancel₀ hp1.ne' hxy
      rw [Int.abs_eq_natAbs] at e1 e2
      constructor <;> omega
    · rintro ⟨h1, h2⟩
      have h3 : x * y = 2 ^ (width x + width y) := by
        have : x * y = (-2 ^ width x) * (-2 ^ width y) := by rw [← h1, ← h2]
        rw [this, neg_mul_neg, ← pow_add]
      have h4 : width x + width y < width (x * y) := lt_width.2 (.inr (by omega))
      have h5 : width (x * y) ≤ width x + width y + 1 := by rw [width_le, pow_succ]; omega
      omega

omit [Cfg] in
theorem width_shl (x : Int) (hx : x ≠ 0) (k : Nat) : width (x * 2 ^ k) = width x + k := by
  have hp : (0 : Int) < 2 ^ k := by positivity
  apply le_antisymm
  · rw [width_le, pow_add]
    obtain ⟨h1, h2⟩ := width_bounds x
    constructor
    · have := mul_le_mul_of_nonneg_right h1 hp.le
      rwa [neg_mul] at this
    · exact mul_lt_mul_of_pos_right h2 hp
  · obtain ⟨h1, h2⟩ := width_bounds (x * 2 ^ k)
    by_cases hk : k ≤ width (x * 2 ^ k)
    · have e : (2 : Int) ^ width (x * 2 ^ k) = 2 ^ (width (x * 2 ^ k) - k) * 2 ^ k := by
        rw [← pow_add]; congr 1; omega
      rw [e] at h1 h2
      have h3 : width x ≤ width (x * 2 ^ k) - k := by
        rw [width_le]
        constructor
        · rw [← neg_mul] at h1; exact le_of_mul_le_mul_right h1 hp
        · exact lt_of_mul_lt_mul_right h2 hp.le
      omega
    · exfalso
      have h3 : (2 : Int) ^ width (x * 2 ^ k) < 2 ^ k := pow_lt_pow_right₀ (by decide) (by omega)
      have h4 : 2 ^ k ≤ |x * 2 ^ k| := by
        rw [abs_mul, abs_of_pos hp]
        nlinarith [Int.one_le_abs hx]
      have := abs_le_width (x * 2 ^ k)
      omega

omit [Cfg] in
theorem width_shr (x : Int) (k : Nat) : width (x / 2 ^ k) = width x - k := by
  have hp : (0 : Int) < 2 ^ k := by positivity
  have key : ∀ n, width (x / 2 ^ k) ≤ n ↔ width x ≤ n + k := fun n => by
    rw [width_le, width_le, pow_add, Int.le_ediv_iff_mul_le hp, Int.ediv_lt_iff_lt_mul hp, neg_mul]
  apply le_antisymm
  · rw [key]; omega
  · have := (key _).1 le_rfl
    omega

/-- The bits from the width on are the sign. -/
theorem width_le_bits {x : Int} {n : Nat} : width x ≤ n ↔ ∀ k, n ≤ k → ibit x k = decide (x < 0) := by
  constructor
  · intro h k hk
    have hw : width x ≤ k := h.trans hk
    obtain ⟨h1, h2⟩ := width_le.1 hw
    have hp : (0 : Int) < 2 ^ k := by positivity
    unfold ibit
    by_cases h0 : x < 0
    · have : x / 2 ^ k = -1 := by
        rw [Int.ediv_eq_iff_of_pos hp]
        constructor <;> linarith
      rw [this, decide_eq_true h0]; rfl
    · rw [Int.ediv_eq_zero_of_lt (by omega) h2, decide_eq_false h0]; rfl
  · intro h
    by_contra hc
    -- the shifted value has all its bits equal to the sign: it is 0 or -1
    have e : x / 2 ^ n = if x < 0 then -1 else 0 := by
      apply ibit_ext
      intro k
      have h1 : ibit (x / 2 ^ n) k = ibit x (n + k) := by
        unfold ibit
        rw [Int.ediv_ediv_of_nonneg (by positivity), ← pow_add]
      rw [h1, h _ (by omega)]
      by_cases h0 : x < 0
      · rw [if_pos h0, decide_eq_true h0]
        unfold ibit
        have hp : (0 : Int) < 2 ^ k := by positivity
        have : (-1 : Int) / 2 ^ k = -1 := by
          rw [Int.ediv_eq_iff_of_pos hp]
          constructor <;> linarith
        rw [this]; rfl
      · rw [if_neg h0, decide_eq_false h0]
        unfold ibit
        simp
    have h2 := width_shr x n
    rw [e] at h2
    have h3 : width (if x < 0 then -1 else 0) = 0 := by
      split <;> rfl
    omega

theorem width_bitwise {x y z : Int} {f : Bool → Bool → Bool} (h : ∀ k, ibit z k = f (ibit x k) (ibit y k)) :
    width z ≤ max (width x) (width y) := by
  have hx := width_le_bits.1 (le_max_left (width x) (width y))
  have hy := width_le_bits.1 (le_max_right (width x) (width y))
  rw [width_le_bits]
  intro k hk
  have h1 := h k
  rw [hx k hk, hy k hk] at h1
  have h2 := h (max k (width z))
  rw [hx _ (by omega), hy _ (by omega), width_le_bits.1 le_rfl _ (le_max_right k (width z))] at h2
  rw [h1, h2]

theorem width_tdiv (x y : Int) (hy : y ≠ 0) : width (x.tdiv y) ≤ width x + 1 - width y ∧
    width x ≤ width (x.tdiv y) + width y + 1 := by
  have bx := width_bounds x
  have bY := width_bounds y
  have hq := tdiv_natAbs x y
  have hdm := Nat.div_add_mod x.natAbs y.natAbs
  have hml := Nat.mod_lt x.natAbs (show 0 < y.natAbs by omega)
  have cast : ∀ k, ((2 ^ k : Nat) : Int) = 2 ^ k := fun k => by push_cast; rfl
  obtain ⟨y1, y2, y3⟩ := half_le hy
  constructor
  · by_contra hc
    rcases Nat.eq_zero_or_pos (width y) with h0 | h0
    · rw [h0] at bY; simp only [pow_zero] at bY
      have : y = -1 := by omega
      subst this
      have := (width_neg x).1
      rw [Int.tdiv_neg, Int.tdiv_one, h0] at hc
      omega
    have h1 := lt_width.1 (not_le.1 hc)
    have e : 2 ^ (width x + 1 - width y) * 2 ^ (width y - 1) ≥ 2 ^ width x := by
      rw [← pow_add]; exact Nat.pow_le_pow_right (by decide) (by omega)
    have c1 := cast (width x + 1 - width y)
    have c2 := cast (width y - 1)
    have c3 := cast (width x)
    have hp1 : 0 < 2 ^ (width x + 1 - width y) := Nat.pow_pos (by decide)
    have hp2 : 0 < 2 ^ (width y - 1) := Nat.pow_pos (by decide)
    rw [← c1] at h1
    rw [← c2] at y1 y2
    rw [← c3] at bx
    rw [Int.abs_eq_natAbs] at y1
    have y1' : 2 ^ (width y - 1) ≤ y.natAbs := by omega
    generalize 2 ^ (width x + 1 - width y) = T at *
    generalize 2 ^ (width y - 1) = H at *
    generalize 2 ^ width x = M at *
    generalize hQ : x.natAbs / y.natAbs = Q at *
    have hX : x.natAbs ≤ M := by omega
    rcases h1 with h1 | h1
    · have h2 : T + 1 ≤ Q := by split_ifs at hq <;> omega
      have h3 : (T + 1) * H ≤ y.natAbs * Q := by
        rw [Nat.mul_comm y.natAbs]; exact Nat.mul_le_mul h2 y1'
      have h4 : (T + 1) * H = T * H + H := by ring
      omega
    · have h2 : T ≤ Q := by split_ifs at hq <;> omega
      have h3 : T * y.natAbs ≤ y.natAbs * Q := by
        rw [Nat.mul_comm y.natAbs]; exact Nat.mul_le_mul_right _ h2
      have h4 : T * H ≤ T * y.natAbs := Nat.mul_le_mul_left _ y1'
      have h5 : x < 0 := by omega
      have h6 : y < 0 := by
        by_contra h6
        rw [if_pos (by rw [decide_eq_true h5, decide_eq_false h6]; rfl)] at hq
        omega
      have h7 : H + 1 ≤ y.natAbs := by have := y2 h6 h0; omega
      have h8 : T * (H + 1) ≤ T * y.natAbs := Nat.mul_le_mul_left _ h7
      have h9 : T * (H + 1) = T * H + T := by ring
      omega
  · by_contra hc
    obtain ⟨x1, x2, x3⟩ := half_le (x := x) (by rintro rfl; exact hc (by have : width 0 = 0 := rfl; omega))
    have ub := abs_le_width (x.tdiv y)
    have e : 2 ^ (width (x.tdiv y) + width y + 1) ≤ 2 ^ (width x - 1) := Nat.pow_le_pow_right (by decide) (by omega)
    rw [pow_succ, pow_add] at e
    have hp1 : 0 < 2 ^ width (x.tdiv y) := Nat.pow_pos (by decide)
    have hp2 : 0 < 2 ^ width y := Nat.pow_pos (by decide)
    rw [← cast] at x1 bY ub
    rw [Int.abs_eq_natAbs] at x1 ub
    generalize 2 ^ width (x.tdiv y) = K at *
    generalize 2 ^ width y = N at *
    generalize 2 ^ (width x - 1) = M at *
    generalize hQ : x.natAbs / y.natAbs = Q at *
    have h1 : Q ≤ K := by split_ifs at hq <;> omega
    have h2 : y.natAbs ≤ N := by omega
    have h3 : y.natAbs * Q ≤ N * K := Nat.mul_le_mul h2 h1
    have h4 : K * N = N * K := Nat.mul_comm _ _
    have h5 : N ≤ N * K := Nat.le_mul_of_pos_right _ hp1
    omega

theorem width_tmod (x y : Int) (hy : y ≠ 0) : width (x.tmod y) ≤ width x ∧ width (x.tmod y) ≤ width y := by
  have bx := width_bounds x
  have bY := width_bounds y
  have h1 : x.natAbs % y.natAbs < y.natAbs := Nat.mod_lt _ (by omega)
  have h2 := Nat.mod_le x.natAbs y.natAbs
  have h3 := tmod_natAbs x y
  rw [h3, width_le, width_le]
  by_cases h : x < 0
  · rw [if_pos h]; omega
  · rw [if_neg h]; omega

omit [Cfg] in
theorem width_pow (x : Int) (hx : x ≠ 0) (n : Nat) : width (x ^ n) ≤ n * width x + 1 ∧ n * (width x - 1) ≤ width (x ^ n) := by
  have h1 : |x ^ n| ≤ 2 ^ (n * width x) := by
    rw [abs_pow, Nat.mul_comm, pow_mul]
    exact pow_le_pow_left₀ (abs_nonneg x) (abs_le_width x) n
  have h2 : 2 ^ (n * (width x - 1)) ≤ |x ^ n| := by
    rw [abs_pow, Nat.mul_comm, pow_mul]
    exact pow_le_pow_left₀ (by positivity) (half_le hx).1 n
  constructor
  · have := abs_le.1 h1
    have hp : (0 : Int) < 2 ^ (n * width x) := by positivity
    rw [width_le, pow_succ]; omega
  · by_contra hc
    have h3 := abs_le_width (x ^ n)
    have h4 : (2 : Int) ^ width (x ^ n) < 2 ^ (n * (width x - 1)) := pow_lt_pow_right₀ (by decide) (by omega)
    omega

/-! ### encodings -/

/-- The `L` low digits of a number. -/
def lowDigits (b : Nat) : Nat → Nat → List Nat
  | 0, _ => []
  | L + 1, m => m % b :: lowDigits b L (m / b)

omit [Cfg] in
theorem lowDigits_length (b L m : Nat) : (lowDigits b L m).length = L := by
  induction L generalizing m with
  | zero => rfl
  | succ L ih => rw [lowDigits, List.length_cons, ih]

omit [Cfg] in
theorem lowDigits_lt {b : Nat} (hb : 0 < b) (L m : Nat) : ∀ d ∈ lowDigits b L m, d < b := by
  induction L generalizing m with
  | zero => intro d hd; cases hd
  | succ L ih =>
    intro d hd
    rw [lowDigits, List.mem_cons] at hd
    rcases hd with rfl | hd
    · exact Nat.mod_lt _ hb
    · exact ih _ _ hd

omit [Cfg] in
theorem lowDigits_val (b L m : Nat) : digitsVal b (lowDigits b L m) = m % b ^ L := by
  induction L generalizing m with
  | zero => rw [lowDigits, pow_zero, Nat.mod_one]; rfl
  | succ L ih => rw [lowDigits, digitsVal_cons, ih, pow_succ', Nat.mod_mul]

/-- A value of width below `n * L` has an encoding in `L` digits of `n` bits. -/
theorem exists_signed {n L : Nat} (hn : 0 < n) (hL : 0 < L) {x : Int} (h : width x < n * L) :
    ∃ ws, DigitsOk n ws ∧ ws.length = L ∧ signedVal n ws = x := by
  obtain ⟨h1, h2⟩ := width_le.1 (show width x ≤ n * L - 1 by omega)
  have hp := half_pow hn hL
  have cast : ((2 ^ (n * L - 1) : Nat) : Int) = 2 ^ (n * L - 1) := by push_cast; rfl
  have key : ∀ m : Nat, m < 2 ^ (n * L) → (m : Int) = (if 2 ^ (n * L) ≤ 2 * m then x + (2 : Int) ^ (n * L) else x) →
      ∃ ws, DigitsOk n ws ∧ ws.length = L ∧ signedVal n ws = x := by
    intro m hm hx
    have hd : DigitsOk n (lowDigits (2 ^ n) L m) := lowDigits_lt (Nat.pow_pos (by decide)) L m
    have hl := lowDigits_length (2 ^ n) L m
    have hv : digitsVal (2 ^ n) (lowDigits (2 ^ n) L m) = m := by
      rw [lowDigits_val, ← pow_mul, Nat.mod_eq_of_lt hm]
    have ht := top_digit_iff hn hd (by intro he; rw [he] at hl; simp at hl; omega)
    refine ⟨_, hd, hl, ?_⟩
    unfold signedVal
    rw [hv, hl] at *
    by_cases hc : 2 ^ (n * L) ≤ 2 * m
    · rw [if_pos (ht.2 hc)]
      rw [if_pos hc] at hx
      rw [hx]; ring
    · rw [if_neg (fun h => hc (ht.1 h))]
      rw [if_neg hc] at hx
      exact hx
  have cast' : ((2 ^ (n * L) : Nat) : Int) = 2 ^ (n * L) := by push_cast; rfl
  rw [← cast] at h1 h2
  by_cases h0 : x < 0
  · refine key (x + (2 : Int) ^ (n * L)).toNat ?_ ?_
    · rw [← cast']; omega
    · rw [← cast', if_pos (by omega)]; omega
  · refine key x.toNat (by omega) ?_
    rw [if_neg (by omega)]; omega

end BigIntegerCpp
