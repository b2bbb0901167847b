import Verif.Lemmas.Bits
import Mathlib.Data.Nat.Bitwise
/-
Two's-complement digit lists: sign extension, bits, bounds.
-/
namespace BigIntegerCpp
set_option linter.unusedSectionVars false
set_option linter.unnecessarySeqFocus false
variable [Cfg]

/-- Value of a digit list continued for ever by all-ones (`neg`) or zero digits. -/
def extVal (n : Nat) (neg : Bool) (ws : List Nat) : Int :=
  (digitsVal (2 ^ n) ws : Nat) - (if neg then (2 : Int) ^ (n * ws.length) else 0)

def DigitsOk (n : Nat) (ws : List Nat) : Prop := ∀ w ∈ ws, w < 2 ^ n

theorem digitsOk_cons {n w : Nat} {ws : List Nat} : DigitsOk n (w :: ws) ↔ w < 2 ^ n ∧ DigitsOk n ws := by
  simp [DigitsOk]
theorem digitsOk_nil {n : Nat} : DigitsOk n [] := by simp [DigitsOk]
theorem digitsOk_append {n : Nat} {xs ys : List Nat} : DigitsOk n (xs ++ ys) ↔ DigitsOk n xs ∧ DigitsOk n ys := by
  simp [DigitsOk, or_imp, forall_and]
theorem DigitsOk.take {n : Nat} {xs : List Nat} (h : DigitsOk n xs) (k : Nat) : DigitsOk n (xs.take k) :=
  fun w hw => h w (List.mem_of_mem_take hw)
theorem DigitsOk.drop {n : Nat} {xs : List Nat} (h : DigitsOk n xs) (k : Nat) : DigitsOk n (xs.drop k) :=
  fun w hw => h w (List.mem_of_mem_drop hw)
theorem digitsOk_32 {ws : List Nat} : DigitsOk 32 ws ↔ WordsOk ws := by
  simp [DigitsOk, WordsOk]
theorem digitsOk_8 {ws : List Nat} : DigitsOk 8 ws ↔ BytesOk ws := by
  simp [DigitsOk, BytesOk]

theorem digitsVal_32 (ws : List Nat) : digitsVal (2 ^ 32) ws = val ws := by
  rw [val]; norm_num

theorem extVal_nil {n : Nat} {neg : Bool} : extVal n neg [] = if neg then -1 else 0 := by
  cases neg <;> simp [extVal, digitsVal]

theorem extVal_cons {n : Nat} {neg : Bool} {w : Nat} {ws : List Nat} :
    extVal n neg (w :: ws) = w + 2 ^ n * extVal n neg ws := by
  cases neg <;> simp [extVal, digitsVal, Nat.mul_add, pow_add] <;> ring

theorem extVal_append {n : Nat} {neg : Bool} {xs ys : List Nat} :
    extVal n neg (xs ++ ys) = (digitsVal (2 ^ n) xs : Nat) + 2 ^ (n * xs.length) * extVal n neg ys := by
  induction xs with
  | nil => simp [digitsVal]
  | cons x xs ih =>
    rw [List.cons_append, extVal_cons, ih]
    simp only [digitsVal, List.length_cons, Nat.mul_add, pow_add, Nat.mul_one]
    push_cast
    ring

theorem digitsVal_lt' {n : Nat} {ws : List Nat} (h : DigitsOk n ws) :
    digitsVal (2 ^ n) ws < 2 ^ (n * ws.length) := by
  induction ws with
  | nil => simp [digitsVal]
  | cons w ws ih =>
    obtain ⟨h0, h⟩ := digitsOk_cons.1 h
    have := ih h
    simp only [digitsVal, List.length_cons, Nat.mul_add, pow_add, Nat.mul_one]
    have h2 : 2 ^ n * (digitsVal (2 ^ n) ws + 1) ≤ 2 ^ n * 2 ^ (n * ws.length) := Nat.mul_le_mul_left _ this
    rw [Nat.mul_comm (2 ^ (n * ws.length))]
    rw [Nat.mul_add] at h2
    omega

/-- The extension digit. -/
def extDigit (n : Nat) (neg : Bool) : Nat := if neg then 2 ^ n - 1 else 0

theorem extVal_ext {n : Nat} {neg : Bool} {ws : List Nat} :
    extVal n neg (ws ++ [extDigit n neg]) = extVal n neg ws := by
  rw [extVal_append, extVal_cons, extVal_nil]
  have : 1 ≤ 2 ^ n := Nat.pow_pos (by decide)
  cases neg
  · simp [extVal, extDigit]
  · simp only [extVal, extDigit, if_true]
    push_cast [this]
    ring

/-- `signedVal` is the extension by the top bit. -/
theorem signedVal_eq {n : Nat} {neg : Bool} {ws : List Nat}
    (h : neg = decide (2 ^ (n - 1) ≤ ws.getLast?.getD 0)) : signedVal n ws = extVal n neg ws := by
  subst h
  unfold signedVal extVal
  simp only [decide_eq_true_eq]
  split_ifs <;> simp

theorem extVal_neg_iff {n : Nat} {neg : Bool} {ws : List Nat} (h : DigitsOk n ws) :
    extVal n neg ws < 0 ↔ neg = true := by
  have h1 := digitsVal_lt' h
  have h2 : ((digitsVal (2 ^ n) ws : Nat) : Int) < 2 ^ (n * ws.length) := by exact_mod_cast h1
  cases neg <;> simp [extVal] <;> omega

/-! ### bits -/

theorem ibit_neg_one (k : Nat) : ibit (-1) k = true := by
  unfold ibit
  have : (-1 : Int) / 2 ^ k = -1 := by
    rw [Int.ediv_eq_iff_of_pos (by positivity)]
    have : (0 : Int) < 2 ^ k := by positivity
    omega
  rw [this]; decide

theorem ibit_zero (k : Nat) : ibit 0 k = false := by simp [ibit]

theorem ibit_low {n k w : Nat} {t : Int} (hk : k < n) : ibit (w + 2 ^ n * t) k = w.testBit k := by
  unfold ibit
  have hp : (0 : Int) < 2 ^ k := by positivity
  have : (2 : Int) ^ n * t = 2 ^ k * (2 * (2 ^ (n - k - 1) * t)) := by
    rw [show n = k + (1 + (n - k - 1)) by omega, pow_add, pow_add]
    rw [show k + (1 + (n - k - 1)) - k - 1 = n - k - 1 by omega]
    ring
  rw [this, Int.add_mul_ediv_left _ _ (ne_of_gt hp), Int.add_mul_emod_self_left]
  rw [Nat.testBit_eq_decide_div_mod_eq]
  congr 1
  have : ((w : Int) / 2 ^ k) % 2 = ((w / 2 ^ k % 2 : Nat) : Int) := by push_cast; rfl
  rw [this]
  simp only [eq_iff_iff]
  omega

theorem ibit_high {n k w : Nat} {t : Int} (hw : w < 2 ^ n) (hk : n ≤ k) : ibit (w + 2 ^ n * t) k = ibit t (k - n) := by
  unfold ibit
  have h1 : (2 : Int) ^ k = 2 ^ n * 2 ^ (k - n) := by rw [← pow_add]; congr 1; omega
  have hp : (0 : Int) < 2 ^ n := by positivity
  rw [h1, ← Int.ediv_ediv_of_nonneg (le_of_lt hp), Int.add_mul_ediv_left _ _ (ne_of_gt hp),
    Int.ediv_eq_zero_of_lt (a := (w : Int)) (b := 2 ^ n) (by omega) (by exact_mod_cast hw), zero_add]

theorem testBit_ones {n k : Nat} (hk : k < n) : (2 ^ n - 1).testBit k = true := by
  rw [Nat.testBit_two_pow_sub_one]; simpa using hk

theorem ibit_extVal {n : Nat} (hn : 0 < n) {neg : Bool} {ws : List Nat} (h : DigitsOk n ws) (k : Nat) :
    ibit (extVal n neg ws) k = (ws[k / n]?.getD (extDigit n neg)).testBit (k % n) := by
  induction ws generalizing k with
  | nil =>
    rw [extVal_nil]
    cases neg
    · simp [extDigit, ibit_zero]
    · simp [extDigit, ibit_neg_one, Nat.mod_lt _ hn]
  | cons w ws ih =>
    obtain ⟨h0, h⟩ := digitsOk_cons.1 h
    rw [extVal_cons]
    by_cases hk : k < n
    · rw [ibit_low hk, Nat.div_eq_of_lt hk, Nat.mod_eq_of_lt hk]; simp
    · rw [ibit_high h0 (by omega), ih h]
      have h1 : k / n = (k - n) / n + 1 := by
        rw [Nat.div_eq_sub_div hn (by omega)]
      have h2 : k % n = (k - n) % n := Nat.mod_eq_sub_mod (by omega)
      rw [h1, h2]; simp

/-- Two integers with the same bits are equal. -/
theorem ibit_ext {x y : Int} (h : ∀ k, ibit x k = ibit y k) : x = y := by
  have key : ∀ m : Nat, ∀ x y : Int, x.natAbs + y.natAbs ≤ m → (∀ k, ibit x k = ibit y k) → x = y := by
    intro m
    induction m using Nat.strong_induction_on with
    | _ m ih =>
      intro x y hm h
      have h0 := h 0
      unfold ibit at h0
      simp only [pow_zero, Int.ediv_one, decide_eq_decide] at h0
      have hs : ∀ k, ibit (x / 2) k = ibit (y / 2) k := by
        intro k
        have := h (k + 1)
        unfold ibit at this ⊢
        rwa [pow_succ, Int.mul_comm, ← Int.ediv_ediv_of_nonneg (by decide), ← Int.ediv_ediv_of_nonneg (by decide)] at this
      by_cases hsmall : (x = 0 ∨ x = -1) ∧ (y = 0 ∨ y = -1)
      · obtain ⟨rfl | rfl, rfl | rfl⟩ := hsmall <;> first | rfl | (exfalso; revert h0; decide)
      · have := ih ((x / 2).natAbs + (y / 2).natAbs) (by omega) (x / 2) (y / 2) (le_refl _) hs
        omega
  exact key _ x y (le_refl _) h

theorem ibit_not (x : Int) (k : Nat) : ibit (-x - 1) k = !ibit x k := by
  have hp : (0 : Int) < 2 ^ k := by positivity
  have : (-x - 1) / 2 ^ k = -(x / 2 ^ k) - 1 := by
    rw [Int.ediv_eq_iff_of_pos hp]
    have h1 := Int.mul_ediv_add_emod x (2 ^ k)
    have h2 := Int.emod_nonneg x (ne_of_gt hp)
    have h3 := Int.emod_lt_of_pos x hp
    constructor <;> nlinarith
  unfold ibit
  rw [this, ← decide_not, decide_eq_decide]
  omega

/-! ### the two's-complement constructor -/

theorem and_high {x : Nat} (hx : x < 4294967296) : x &&& 2147483648 = if 2147483648 ≤ x then 2147483648 else 0 := by
  have h1 : x &&& 2147483648 = x &&& 2 ^ 31 := by norm_num
  have ht : x.testBit 31 = decide (2147483648 ≤ x) := by
    rw [Nat.testBit_eq_decide_div_mod_eq, decide_eq_decide]
    omega
  rw [h1, Nat.and_two_pow, ht]
  by_cases h : 2147483648 ≤ x <;> simp [h]

theorem getLast_getD_lt {ws : List Nat} (hw : WordsOk ws) : ws.getLast?.getD 0 < 4294967296 := by
  rcases List.eq_nil_or_concat ws with rfl | ⟨l, x, rfl⟩
  · decide
  · rw [List.concat_eq_append] at hw
    have := (wordsOk_append.1 hw).2 x (by simp)
    simpa using this

theorem top_ge_val {ws : List Nat} (hw : WordsOk ws) (hne : ws ≠ []) :
    2147483648 ≤ ws.getLast?.getD 0 ↔ 𝔹 ^ ws.length ≤ 2 * val ws := by
  rcases List.eq_nil_or_concat ws with rfl | ⟨l, x, rfl⟩
  · exact absurd rfl hne
  · rw [List.concat_eq_append] at hw
    obtain ⟨h1, h2⟩ := wordsOk_append.1 hw
    have hl := val_lt h1
    have hx := h2 x (by simp)
    simp only [List.concat_eq_append, List.getLast?_append, List.getLast?_singleton, Option.some_or, Option.getD_some,
      val_append, val_singleton, List.length_append, List.length_singleton, pow_succ]
    generalize 𝔹 ^ l.length = P at *
    generalize val l = v at *
    constructor
    · intro h
      have : 2147483648 * P ≤ x * P := Nat.mul_le_mul_right _ h
      rw [Nat.mul_comm x] at this
      omega
    · intro h
      by_contra hlt
      have : (x + 1) * P ≤ 2147483648 * P := Nat.mul_le_mul_right _ (by omega)
      rw [Nat.add_mul, Nat.mul_comm x] at this
      omega

theorem i32_eq {n : Nat} (h : n < 4294967296) : i32 n = if n < 2147483648 then (n : Int) else n - 4294967296 := by
  unfold i32; rw [Nat.mod_eq_of_lt h]

theorem val_of_trim_one {ws : List Nat} (h : trimLen ws = 1) : val ws = ws.headD 0 := by
  rw [← val_take_trimLen, h]
  cases ws with
  | nil => simp [trimLen] at h
  | cons x xs => simp

theorem headD_lt {ws : List Nat} (hw : WordsOk ws) : ws.headD 0 < 4294967296 := by
  cases ws with
  | nil => decide
  | cons x xs => exact (wordsOk_cons.1 hw).1

theorem signedVal_32 (ws : List Nat) : signedVal 32 ws =
    if 2147483648 ≤ ws.getLast?.getD 0 then (val ws : Int) - 4294967296 ^ ws.length else val ws := by
  unfold signedVal
  rw [digitsVal_32, pow_mul]
  norm_num

theorem denotes_trim {s : Int} {ws : List Nat} {z : Int} (hw : WordsOk ws) (hs : s = 1 ∨ s = -1)
    (hv : 2147483648 ≤ val ws) (hz : z = s * (val ws : Nat)) : BigInt.Denotes ⟨s, ws.take (trimLen ws)⟩ z := by
  apply BigInt.denotes_big hs _ (hw.take _) (getLast_take_trimLen ws) (by rwa [val_take_trimLen])
    (by rwa [val_take_trimLen])
  intro e
  have := val_take_trimLen ws
  rw [e] at this
  simp at this
  omega

theorem trim_two_le {ws : List Nat} (h : 2 ≤ trimLen ws) : 4294967296 ≤ val ws := by
  have hl := length_take_trimLen ws
  have hne : ws.take (trimLen ws) ≠ [] := by intro e; rw [e] at hl; simp at hl; omega
  have h1 := val_pos_of_top hne (getLast_take_trimLen ws)
  rw [val_take_trimLen, hl] at h1
  have h2 : 4294967296 ^ 1 ≤ 4294967296 ^ (trimLen ws - 1) := Nat.pow_le_pow_right (by decide) (by omega)
  omega

theorem take_trimLen_self {ws : List Nat} (h : trimLen ws = ws.length) : ws.take (trimLen ws) = ws := by
  rw [h, List.take_length]

theorem ofTwos_spec {ws : List Nat} (hw : WordsOk ws) (hl : ws.length < 2147483648) :
    Returns (ofTwos ws) (signedVal 32 ws) := by
  unfold ofTwos
  rw [sizeInt_ok hl, Res.ok_bind, signedVal_32, and_high (getLast_getD_lt hw)]
  have hneg : (ws ≠ [] ∧ (if 2147483648 ≤ ws.getLast?.getD 0 then 2147483648 else 0) = 2147483648) ↔
      2147483648 ≤ ws.getLast?.getD 0 := by
    constructor
    · rintro ⟨-, h⟩; by_contra h2; rw [if_neg h2] at h; omega
    · intro h; refine ⟨?_, by rw [if_pos h]⟩; rintro rfl; simp at h
  simp only [hneg]
  by_cases h0 : trimLen ws = 0
  · rw [if_pos h0]
    have hv := trimLen_eq_zero.1 h0
    have hn : ¬ 2147483648 ≤ ws.getLast?.getD 0 := by
      intro h
      have hne : ws ≠ [] := by rintro rfl; simp at h
      have := (top_ge_val hw hne).1 h
      rw [hv] at this
      have : 0 < 𝔹 ^ ws.length := Nat.pow_pos (by decide)
      omega
    rw [if_neg hn, hv]
    exact returns_checked denotes_zero
  rw [if_neg h0]
  have hne : ws ≠ [] := by rintro rfl; simp [trimLen] at h0
  by_cases h1 : trimLen ws = 1
  · rw [if_pos h1]
    have hv := val_of_trim_one h1
    have hh := headD_lt hw
    rw [hv, i32_eq hh]
    by_cases hn : 2147483648 ≤ ws.getLast?.getD 0
    · rw [if_pos hn]
      have h2 := (top_ge_val hw hne).1 hn
      have hlen : ws.length = 1 := by
        have hge : 1 ≤ ws.length := List.length_pos_iff.2 hne
        by_contra hc
        have h3 : 4294967296 ^ 2 ≤ 4294967296 ^ ws.length := Nat.pow_le_pow_right (by decide) (by omega)
        rw [hv] at h2
        omega
      rw [hv, hlen] at h2
      rw [hlen]
      generalize ws.headD 0 = w at *
      rw [if_neg (show ¬ w < 2147483648 by omega)]
      simp only [hn, not_true_eq_false, and_false, if_false, pow_one]
      split_ifs with h5
      · rw [h5]; exact returns_checked denotes_minInt
      · exact returns_checked (BigInt.denotes_small (by omega) (by omega))
    · rw [if_neg hn]
      generalize ws.headD 0 = w at *
      simp only [hn, not_false_eq_true, and_true]
      by_cases h5 : w < 2147483648
      · rw [if_pos h5, if_neg (by omega), if_neg (by omega)]
        exact returns_checked (BigInt.denotes_small (by omega) (by omega))
      · rw [if_neg h5, if_pos (by omega)]
        exact returns_checked (by simpa using denotes_words1 (s := 1) (.inl rfl) (by omega) hh)
  rw [if_neg h1]
  have h2 := trim_two_le (ws := ws) (by omega)
  by_cases hn : 2147483648 ≤ ws.getLast?.getD 0
  · simp only [hn, not_true_eq_false, if_false, if_true]
    obtain ⟨t1, t2⟩ := twosComplement_spec hw
    have t3 := twosComplement_length ws
    rw [if_neg (by omega)] at t2
    have hlt := val_lt hw
    have hz : (val ws : Int) - 4294967296 ^ ws.length = -((val (twosComplement ws) : Nat) : Int) := by
      rw [t2, Nat.cast_sub (le_of_lt hlt)]; push_cast; ring
    rw [hz]
    have hpos : 0 < val (twosComplement ws) := by rw [t2]; omega
    clear hz t2
    generalize twosComplement ws = vs at *
    have hh := headD_lt t1
    by_cases g1 : trimLen vs = 1 ∧ i32 (vs.headD 0) > 0
    · rw [if_pos g1]
      have hv := val_of_trim_one g1.1
      rw [hv]
      have g2 := g1.2
      rw [i32_eq hh] at g2 ⊢
      generalize vs.headD 0 = w at *
      have hlt : w < 2147483648 := by by_contra h; rw [if_neg h] at g2; omega
      rw [if_pos hlt]
      split_ifs with g3 g4
      · rw [g3]; exact returns_checked denotes_minusOne
      · omega
      · rw [neg_one_mul]; exact returns_checked (BigInt.denotes_small (by omega) (by omega))
    · rw [if_neg g1]
      have hbig : 2147483648 ≤ val vs := by
        rcases Nat.lt_or_ge (trimLen vs) 2 with h | h
        · have h0 : trimLen vs ≠ 0 := fun e => by have := trimLen_eq_zero.1 e; omega
          have h1 : trimLen vs = 1 := by omega
          rw [val_of_trim_one h1] at hpos ⊢
          by_contra hc
          exact g1 ⟨h1, by rw [i32_eq hh, if_pos (by omega)]; omega⟩
        · have := trim_two_le h; omega
      have hd := denotes_trim (z := -((val vs : Nat) : Int)) t1 (.inr rfl) hbig (by ring)
      split_ifs with g4
      · exact returns_checked hd
      · rw [take_trimLen_self (not_not.1 g4)] at hd; exact returns_checked hd
  · simp only [hn, not_false_eq_true, if_true, if_false]
    have hd := denotes_trim (s := 1) (z := ((val ws : Nat) : Int)) hw (.inl rfl) (by omega) (by ring)
    split_ifs with g4
    · exact returns_checked hd
    · rw [take_trimLen_self (not_not.1 g4)] at hd; exact returns_checked hd

/-! ### minimal length -/

theorem digitsVal_append' {n : Nat} (xs ys : List Nat) :
    digitsVal (2 ^ n) (xs ++ ys) = digitsVal (2 ^ n) xs + 2 ^ (n * xs.length) * digitsVal (2 ^ n) ys := by
  induction xs with
  | nil => simp [digitsVal]
  | cons x xs ih =>
    rw [List.cons_append, digitsVal, digitsVal, ih, List.length_cons, show n * (xs.length + 1) = n * xs.length + n by ring, pow_add]
    ring

theorem top_digit_iff {n : Nat} (hn : 0 < n) {ws : List Nat} (hw : DigitsOk n ws) (hne : ws ≠ []) :
    2 ^ (n - 1) ≤ ws.getLast?.getD 0 ↔ 2 ^ (n * ws.length) ≤ 2 * digitsVal (2 ^ n) ws := by
  rcases List.eq_nil_or_concat ws with rfl | ⟨l, x, rfl⟩
  · exact absurd rfl hne
  · rw [List.concat_eq_append] at hw ⊢
    obtain ⟨h1, h2⟩ := digitsOk_append.1 hw
    have hl := digitsVal_lt' h1
    have hx := h2 x (by simp)
    simp only [List.getLast?_append, List.getLast?_singleton, Option.some_or, Option.getD_some,
      digitsVal_append', digitsVal, List.length_append, List.length_singleton, Nat.mul_add, pow_add, Nat.mul_one,
      Nat.mul_zero, Nat.add_zero]
    have hh : 2 ^ n = 2 * 2 ^ (n - 1) := by rw [← pow_succ']; congr 1; omega
    generalize digitsVal (2 ^ n) l = v at *
    rw [hh] at hx ⊢
    generalize 2 ^ (n * l.length) = P at *
    generalize 2 ^ (n - 1) = H at *
    constructor
    · intro h
      have : H * P ≤ x * P := Nat.mul_le_mul_right _ h
      have e : P * (2 * H) = 2 * (H * P) := by ring
      rw [Nat.mul_comm x] at this
      omega
    · intro h
      by_contra hlt
      have : (x + 1) * P ≤ H * P := Nat.mul_le_mul_right _ (by omega)
      have e : P * (2 * H) = 2 * (H * P) := by ring
      rw [Nat.add_mul, Nat.mul_comm x] at this
      omega

theorem half_pow {n l : Nat} (hn : 0 < n) (hl : 0 < l) : 2 ^ (n * l) = 2 * 2 ^ (n * l - 1) := by
  have : 0 < n * l := Nat.mul_pos hn hl
  rw [← pow_succ']; congr 1; omega

theorem signedVal_bounds {n : Nat} (hn : 0 < n) {ws : List Nat} (hw : DigitsOk n ws) (hne : ws ≠ []) :
    -(2 : Int) ^ (n * ws.length - 1) ≤ signedVal n ws ∧ signedVal n ws < 2 ^ (n * ws.length - 1) := by
  have h1 := top_digit_iff hn hw hne
  have h2 := digitsVal_lt' hw
  have h3 := half_pow hn (List.length_pos_iff.2 hne)
  unfold signedVal
  have h4 : (2 : Int) ^ (n * ws.length) = ((2 ^ (n * ws.length) : Nat) : Int) := by push_cast; rfl
  have h5 : (2 : Int) ^ (n * ws.length - 1) = ((2 ^ (n * ws.length - 1) : Nat) : Int) := by push_cast; rfl
  simp only [h1, h4, h5]
  generalize 2 ^ (n * ws.length - 1) = Q at *
  generalize 2 ^ (n * ws.length) = P at *
  generalize digitsVal _ ws = v at *
  split_ifs <;> omega

theorem minimal_bound {n : Nat} (hn : 0 < n) {neg : Bool} {l : List Nat} {t : Nat} (hl : DigitsOk n l)
    (ht : t < 2 ^ n) (hne : l ≠ [])
    (h : t ≠ extDigit n neg ∨ neg ≠ decide (2 ^ (n - 1) ≤ l.getLast?.getD 0)) :
    extVal n neg (l ++ [t]) < -(2 : Int) ^ (n * l.length - 1) ∨ (2 : Int) ^ (n * l.length - 1) ≤ extVal n neg (l ++ [t]) := by
  have h1 := top_digit_iff hn hl hne
  have h2 := digitsVal_lt' hl
  have h3 := half_pow hn (List.length_pos_iff.2 hne)
  have hp : 1 ≤ 2 ^ n := Nat.pow_pos (by decide)
  rw [extVal_append, extVal_cons, extVal_nil]
  simp only [h1] at h
  have h4 : (2 : Int) ^ (n * l.length) = ((2 ^ (n * l.length) : Nat) : Int) := by push_cast; rfl
  have h5 : (2 : Int) ^ (n * l.length - 1) = ((2 ^ (n * l.length - 1) : Nat) : Int) := by push_cast; rfl
  have h6 : (2 : Int) ^ n = ((2 ^ n : Nat) : Int) := by push_cast; rfl
  rw [h4, h5, h6]
  unfold extDigit at h
  generalize 2 ^ n = N at *
  generalize digitsVal N l = v at *
  generalize 2 ^ (n * l.length - 1) = Q at *
  generalize 2 ^ (n * l.length) = P at *
  cases neg
  · simp only [Bool.false_eq_true, if_false, mul_zero, add_zero] at h ⊢
    right
    rcases Nat.eq_zero_or_pos t with rfl | htp
    · simp only [ne_eq, not_true_eq_false, false_or] at h
      have : P ≤ 2 * v := by by_contra hc; simp [hc] at h
      simp; omega
    · have : P * 1 ≤ P * t := Nat.mul_le_mul_left _ htp
      have e : (P : Int) * t = ((P * t : Nat) : Int) := by push_cast; rfl
      rw [e]; omega
  · simp only [if_true] at h ⊢
    left
    by_cases htt : t = N - 1
    · simp only [htt, ne_eq, not_true_eq_false, false_or] at h
      have : ¬ P ≤ 2 * v := by intro hc; simp [hc] at h
      have e : ((t : Int) + N * -1) = -1 := by omega
      rw [e]; omega
    · have e : (P : Int) * (t + N * -1) = -((P * (N - t) : Nat) : Int) := by
        rw [Nat.cast_mul, Nat.cast_sub (le_of_lt ht)]; ring
      have : P * 2 ≤ P * (N - t) := Nat.mul_le_mul_left _ (by omega)
      rw [e]; omega

/-- A digit list with a useful top digit is as short as any with the same value. -/
theorem minimal_length {n : Nat} (hn : 0 < n) {neg : Bool} {l : List Nat} {t : Nat} (hl : DigitsOk n l)
    (ht : t < 2 ^ n) (h : l = [] ∨ t ≠ extDigit n neg ∨ neg ≠ decide (2 ^ (n - 1) ≤ l.getLast?.getD 0))
    {ws : List Nat} (hw : DigitsOk n ws) (hne : ws ≠ []) (hv : signedVal n ws = extVal n neg (l ++ [t])) :
    l.length + 1 ≤ ws.length := by
  have hwl : 1 ≤ ws.length := List.length_pos_iff.2 hne
  by_cases hle : l = []
  · subst hle; simpa using hwl
  have h := h.resolve_left hle
  have hb := minimal_bound hn hl ht hle h
  obtain ⟨h1, h2⟩ := signedVal_bounds hn hw hne
  rw [← hv] at hb
  by_contra hc
  have h3 : (2 : Int) ^ (n * ws.length - 1) ≤ 2 ^ (n * l.length - 1) :=
    pow_le_pow_right₀ (by decide) (Nat.sub_le_sub_right (Nat.mul_le_mul_left _ (by omega)) _)
  omega

/-! ### words to export -/

theorem extVal_replicate {n : Nat} {neg : Bool} (k : Nat) :
    extVal n neg (List.replicate k (extDigit n neg)) = extVal n neg [] := by
  induction k with
  | zero => rfl
  | succ k ih =>
    rw [List.replicate_succ, extVal_cons, ih, extVal_nil]
    have : 1 ≤ 2 ^ n := Nat.pow_pos (by decide)
    cases neg
    · simp [extDigit]
    · simp only [extDigit, if_true]; push_cast [this]; ring

theorem extVal_trim {n : Nat} {neg : Bool} {xs : List Nat} (k : Nat) :
    extVal n neg (xs ++ List.replicate k (extDigit n neg)) = extVal n neg xs := by
  rw [extVal_append, extVal_replicate, ← extVal_append, List.append_nil]

theorem msbIndex_spec (hd : Nat) {ws : List Nat} (hne : ws ≠ []) :
    ∃ l t k, ws = l ++ t :: List.replicate k hd ∧ l.length = BigInt.msbIndex hd ws ∧ (l = [] ∨ t ≠ hd) := by
  induction ws with
  | nil => exact absurd rfl hne
  | cons w ws ih =>
    rw [BigInt.msbIndex]
    by_cases hall : ws.all (· = hd)
    · rw [if_pos hall]
      refine ⟨[], w, ws.length, ?_, rfl, .inl rfl⟩
      simp only [List.nil_append, List.cons.injEq, true_and]
      rw [List.eq_replicate_iff]
      exact ⟨rfl, fun b hb => by simpa using List.all_eq_true.1 hall b hb⟩
    · rw [if_neg hall]
      have hne' : ws ≠ [] := by rintro rfl; simp at hall
      obtain ⟨l, t, k, he, hl, ht⟩ := ih hne'
      refine ⟨w :: l, t, k, by rw [he]; rfl, by simp [hl], .inr ?_⟩
      rcases ht with rfl | ht
      · rintro rfl
        apply hall
        rw [he]
        simp
      · exact ht

/-- What the export returns for a non-zero value. -/
theorem exportWords_spec {neg : Bool} {dw : List Nat} (hw : WordsOk dw) (hne : dw ≠ []) :
    ∃ r, (do
        let w ← idx dw (BigInt.msbIndex (if neg then 4294967295 else 0) dw)
        let needExtraByte := decide (w &&& 0x80000000 ≠ (if neg then 4294967295 else 0) &&& 0x80000000)
        .ok (dw.take (BigInt.msbIndex (if neg then 4294967295 else 0) dw + 1) ++
          (if needExtraByte then [if neg then 4294967295 else 0] else [])) : Res (List Nat)) = .ok r ∧
      WordsOk r ∧ r ≠ [] ∧ r.length ≤ dw.length + 1 ∧ extVal 32 neg r = extVal 32 neg dw ∧
      neg = decide (2147483648 ≤ r.getLast?.getD 0) ∧
      (∀ ws, WordsOk ws → ws ≠ [] → signedVal 32 ws = extVal 32 neg dw → r.length ≤ ws.length) := by
  have hE : (if neg then 4294967295 else 0) = extDigit 32 neg := by cases neg <;> rfl
  rw [hE]
  obtain ⟨l, t, k, he, hl, ht⟩ := msbIndex_spec (extDigit 32 neg) hne
  have hw' := hw
  rw [he] at hw'
  obtain ⟨hwl, hw2⟩ := wordsOk_append.1 hw'
  obtain ⟨htw, -⟩ := wordsOk_cons.1 hw2
  have hidx : idx dw (BigInt.msbIndex (extDigit 32 neg) dw) = .ok t := by
    rw [← hl]; simp [idx, he]
  have htake : dw.take (BigInt.msbIndex (extDigit 32 neg) dw + 1) = l ++ [t] := by
    rw [← hl, he]
    simp [List.take_append, List.take_of_length_le]
  rw [hidx, htake]
  simp only [Res.ok_bind]
  have hlen : l.length + 1 ≤ dw.length := by rw [he]; simp
  have hval : extVal 32 neg (l ++ [t]) = extVal 32 neg dw := by
    conv_rhs => rw [he, show l ++ t :: List.replicate k (extDigit 32 neg) =
      (l ++ [t]) ++ List.replicate k (extDigit 32 neg) by simp]
    rw [extVal_trim]
  have hEt : extDigit 32 neg &&& 2147483648 = if neg then 2147483648 else 0 := by cases neg <;> rfl
  have hElt : extDigit 32 neg < 4294967296 := by cases neg <;> decide
  have hEge : decide (2147483648 ≤ extDigit 32 neg) = neg := by cases neg <;> rfl
  rw [hEt, and_high htw]
  by_cases hx : neg = decide (2147483648 ≤ t)
  · have : ¬ ((if 2147483648 ≤ t then 2147483648 else 0) ≠ (if neg = true then 2147483648 else 0)) := by
      rw [hx]; simp
    simp only [this, decide_false, Bool.false_eq_true, if_false, List.append_nil]
    refine ⟨_, rfl, wordsOk_append.2 ⟨hwl, wordsOk_cons.2 ⟨htw, wordsOk_nil⟩⟩, by simp, by simp; omega, hval, by simpa using hx, ?_⟩
    intro ws h1 h2 h3
    rw [← hval] at h3
    have := minimal_length (n := 32) (by decide) (digitsOk_32.2 hwl) (by simpa using htw)
      (by rcases ht with h | h; exacts [.inl h, .inr (.inl h)]) (digitsOk_32.2 h1) h2 h3
    simpa using this
  · have : (if 2147483648 ≤ t then 2147483648 else 0) ≠ (if neg = true then 2147483648 else 0) := by
      by_cases h : 2147483648 ≤ t <;> cases neg <;> simp [h] at hx ⊢
    simp only [this, ne_eq, not_false_eq_true, decide_true, if_true]
    have hv2 : extVal 32 neg (l ++ [t] ++ [extDigit 32 neg]) = extVal 32 neg dw := by rw [extVal_ext, hval]
    have hwlt : WordsOk (l ++ [t]) := wordsOk_append.2 ⟨hwl, wordsOk_cons.2 ⟨htw, wordsOk_nil⟩⟩
    refine ⟨_, rfl, wordsOk_append.2 ⟨hwlt, wordsOk_cons.2 ⟨hElt, wordsOk_nil⟩⟩, by simp, by simp; omega, hv2,
      by simp [hEge], ?_⟩
    intro ws h1 h2 h3
    rw [← hv2] at h3
    have := minimal_length (n := 32) (by decide) (digitsOk_32.2 hwlt) (by simpa using hElt)
      (.inr (.inr (by simpa using hx))) (digitsOk_32.2 h1) h2 h3
    simpa using this

theorem toUInt32Array_spec {a : BigInt} {x : Int} (ha : a.Denotes x) (hl : a.bits.length < 2147483648) :
    ∃ r, a.toUInt32Array = .ok r ∧ WordsOk r ∧ r.length ≤ a.bits.length + 2 ∧ signedVal 32 r = x ∧
      decide (x < 0) = decide (2147483648 ≤ r.getLast?.getD 0) ∧ (r = [] ↔ x = 0) ∧
      (∀ ws, WordsOk ws → ws ≠ [] → signedVal 32 ws = x → r.length ≤ ws.length) := by
  unfold BigInt.toUInt32Array
  by_cases h0 : x = 0
  · subst h0
    obtain rfl := ha.unique denotes_zero
    exact ⟨[], rfl, wordsOk_nil, by simp, by simp [signedVal, digitsVal], by simp, by simp, by simp⟩
  have hz : ¬ (a.bits.length = 0 ∧ a.sign = 0) := fun h => h0 (ha.sign_zero.1 h.2)
  rw [if_neg hz]
  have key : ∀ (dw : List Nat), WordsOk dw → dw ≠ [] → dw.length ≤ a.bits.length + 1 → dw.length < 2147483648 →
      extVal 32 (decide (x < 0)) dw = x →
      ∃ r, (do
        let _ ← sizeInt dw.length
        let w ← idx dw (BigInt.msbIndex (if decide (x < 0) then 4294967295 else 0) dw)
        let needExtraByte := decide (w &&& 0x80000000 ≠ (if decide (x < 0) then 4294967295 else 0) &&& 0x80000000)
        .ok (dw.take (BigInt.msbIndex (if decide (x < 0) then 4294967295 else 0) dw + 1) ++
          (if needExtraByte then [if decide (x < 0) then 4294967295 else 0] else [])) : Res (List Nat)) = .ok r ∧
      WordsOk r ∧ r.length ≤ a.bits.length + 2 ∧ signedVal 32 r = x ∧
      decide (x < 0) = decide (2147483648 ≤ r.getLast?.getD 0) ∧ (r = [] ↔ x = 0) ∧
      (∀ ws, WordsOk ws → ws ≠ [] → signedVal 32 ws = x → r.length ≤ ws.length) := by
    intro dw g1 g2 g3 g4 g5
    obtain ⟨r, h1, h2, h3, h4, h5, h6, h7⟩ := exportWords_spec (neg := decide (x < 0)) g1 g2
    rw [g5] at h5 h7
    refine ⟨r, by rw [sizeInt_ok g4, Res.ok_bind]; exact h1, h2, by omega, ?_, h6, by simp [h3, h0], h7⟩
    rw [← h5]
    exact signedVal_eq h6
  rcases ha.shape with ⟨rfl, h1, h2⟩ | ⟨s, xs, rfl, hs1, hne1, hw1, ht1, hv1, rfl⟩
  · have := key [u32i x] (wordsOk_cons.2 ⟨u32i_lt _, wordsOk_nil⟩) (by simp) (by simp) (by simp) (by
      rw [extVal_cons, extVal_nil]
      unfold u32i
      simp only [decide_eq_true_eq]
      split_ifs <;> omega)
    simpa using this
  · have hlen : 1 ≤ xs.length := List.length_pos_iff.2 hne1
    have hsx := unit_mul_neg hs1 (n := val xs) (by omega)
    rcases hs1 with rfl | rfl
    · have := key xs hw1 hne1 (by simp) hl (by
        simp only [hsx, extVal, digitsVal_32]; norm_num)
      simp only [hsx, List.length_eq_zero_iff, hne1, if_false] at this ⊢
      simpa using this
    · obtain ⟨t1, t2⟩ := twosComplement_spec hw1
      have t3 := twosComplement_length xs
      rw [if_neg (by omega)] at t2
      have hlt := val_lt hw1
      have := key (twosComplement xs) t1 (by intro e; rw [e] at t3; simp at t3; omega) (by simp [t3]) (by rw [t3]; exact hl) (by
        simp only [hsx, extVal, digitsVal_32, t2, t3, pow_mul, Nat.cast_sub (le_of_lt hlt)]; push_cast; norm_num)
      simp only [hsx, List.length_eq_zero_iff, hne1, if_false] at this ⊢
      simpa using this

end BigIntegerCpp
