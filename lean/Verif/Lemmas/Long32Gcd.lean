import Verif.Model.Long32Gcd
import Verif.Lemmas.Long32
import Verif.Lemmas.GcdActual
import Verif.Lemmas.GcdPrefix
import Verif.Lemmas.GcdCount
/-
The greatest common divisor where `long` has 32 bits: the first Lehmer step is undefined, everything before it is as
with 64 bits.
-/
set_option linter.unusedSectionVars false
namespace BigIntegerCpp.Long32
variable [Cfg]

theorem lehmerCore_ub {N M : Nat} {xb yb : BitsBuffer} {X Y : Nat} (hx : Buf N xb X) (hy : Buf M yb Y)
    (hl : yb.length ≤ xb.length) (h1 : 1 ≤ yb.length) {g : Guess} (hg : g.Small) :
    lehmerCore xb yb g = .ub .badShift := by
  obtain ⟨ha, hb, hc, hd⟩ := hg
  have h2 := hx.len_le_size
  have h3 := hy.len_le_size
  have h4 := hx.size
  have h5 := hy.size
  unfold lehmerCore
  rw [cassert_pos (by omega), Res.ok_bind, cassert_pos (by omega), Res.ok_bind, cassert_pos (by omega), Res.ok_bind,
    cassert_pos ⟨ha, hb⟩, Res.ok_bind, cassert_pos ⟨hc, hd⟩, Res.ok_bind]
  obtain ⟨n, hn⟩ := Nat.exists_eq_add_of_le' h1
  obtain ⟨xs, lx⟩ := xb
  obtain ⟨ys, ly⟩ := yb
  dsimp only at *
  cases xs with
  | nil => simp at h4; omega
  | cons x xs =>
    cases ys with
    | nil => simp at h5; omega
    | cons y ys =>
      rw [hn, lehmerLoop]
      rfl

theorem gcdLoop_only {X Y : Nat} (hE : EuclidOnly X Y) (hle : Y ≤ X) (fuel : Nat) {N M : Nat} {xb yb : BitsBuffer}
    (hx : Buf N xb X) (hy : Buf M yb Y) : gcdLoop fuel xb yb = BigIntegerCpp.gcdLoop fuel xb yb := by
  induction hE generalizing fuel N M xb yb with
  | small x y h =>
    cases fuel with
    | zero => rfl
    | succ fuel =>
      have h2 := hy.len_gt_two
      rw [gcdLoop, BigIntegerCpp.gcdLoop, if_neg (by omega), if_neg (by omega)]
  | step x y h hs hrest ih =>
    cases fuel with
    | zero => rfl
    | succ fuel =>
      have h2 := hy.len_gt_two.2 h
      obtain ⟨b, e, k⟩ := reduceBy_spec hx hy (by omega)
      rw [gcdLoop, BigIntegerCpp.gcdLoop, if_pos (by omega), if_pos (by omega), extractDigits_spec hx hy (by omega) hle,
        Res.ok_bind, Res.ok_bind]
      dsimp only
      rw [lehmerGuess_euclid (log2_top x) hs, Res.ok_bind, Res.ok_bind]
      dsimp only
      rw [if_pos (by rfl), if_pos (by rfl), e, Res.ok_bind, Res.ok_bind]
      exact ih (le_of_lt (Nat.mod_lt x (by omega))) fuel hy k

theorem gcdLoop_ub {P : Nat → Nat → Prop} {X Y : Nat} (hS : EuclidThen P X Y) (hle : Y ≤ X) {fuel : Nat}
    (hf : euclidCount X Y ≤ fuel) {N M : Nat} {xb yb : BitsBuffer}
    (hx : Buf N xb X) (hy : Buf M yb Y) : gcdLoop fuel xb yb = .ub .badShift := by
  induction hS generalizing fuel N M xb yb with
  | here x y h hE hP =>
    rw [euclidCount, if_neg (by omega)] at hf
    cases fuel with
    | zero => omega
    | succ fuel =>
      have h2 := hy.len_gt_two.2 h
      have hl : yb.length ≤ xb.length := by
        have hw : WLen xb.length x := by rw [hx.len, ← hx.value]; exact wlen_trimLen hx.words
        exact hy.len_le (lt_of_le_of_lt hle hw.1)
      unfold EuclidStep at hE
      dsimp only at hE
      push Not at hE
      obtain ⟨e1, e2, e3⟩ := hE
      have hu := log2_top x
      have hvu : y / 2 ^ (Nat.log2 x - 62) ≤ x / 2 ^ (Nat.log2 x - 62) := Nat.div_le_div_right hle
      have hsm : Guess.Small ⟨1, 0, 0, 1, 0⟩ := ⟨by decide, by decide, by decide, by decide⟩
      obtain ⟨g, hg, -⟩ := lehmerGuess_actual (y / 2 ^ (Nat.log2 x - 62)) hsm (le_refl 1) (le_refl 1) (Nat.zero_le _) hu
        (lt_of_le_of_lt hvu hu)
      rw [gcdLoop, if_pos (by omega), extractDigits_spec hx hy (by omega) hle, Res.ok_bind]
      dsimp only
      rw [hg, Res.ok_bind, if_neg (lehmerGuess_lehmer hu hvu e1 e2 e3 hg),
        lehmerCore_ub hx hy hl (by omega) (lehmerGuess_small _ hsm hg)]
      rfl
  | step x y h hs hrest ih =>
    rw [euclidCount, if_neg (by omega)] at hf
    cases fuel with
    | zero => omega
    | succ fuel =>
      have h2 := hy.len_gt_two.2 h
      obtain ⟨b, e, k⟩ := reduceBy_spec hx hy (by omega)
      rw [gcdLoop, if_pos (by omega), extractDigits_spec hx hy (by omega) hle, Res.ok_bind]
      dsimp only
      rw [lehmerGuess_euclid (log2_top x) hs, Res.ok_bind]
      dsimp only
      rw [if_pos (by rfl), e, Res.ok_bind]
      exact ih (le_of_lt (Nat.mod_lt x (by omega))) (by omega) hy k

theorem gcdBits_parts {xs ys : List Nat} (hx : WordsOk xs) (hy : WordsOk ys) (htx : xs.getLast? ≠ some 0)
    (hty : ys.getLast? ≠ some 0) (hne : ys ≠ []) (hlx : xs.length < 2147483648) (hle : val ys ≤ val xs) (fuel : Nat) :
    (ys.length ≤ 2 ∧ gcdBits fuel xs ys = BigIntegerCpp.gcdBits fuel xs ys) ∨
    ∃ (N M : Nat) (lb rb : BitsBuffer) (k : BitsBuffer × BitsBuffer → Res BigInt), Buf N lb (val xs) ∧ Buf M rb (val ys) ∧
      BigIntegerCpp.gcdBits fuel xs ys = (BigIntegerCpp.gcdLoop fuel lb rb >>= k) ∧
      gcdBits fuel xs ys = (gcdLoop fuel lb rb >>= k) := by
  by_cases h2 : ys.length ≤ 2
  · left
    refine ⟨h2, ?_⟩
    have : 0 < ys.length := List.length_pos_iff.2 hne
    unfold gcdBits BigIntegerCpp.gcdBits
    by_cases h1 : ys.length = 1
    · rw [if_pos h1, if_pos h1]
    · rw [if_neg h1, if_neg h1, if_pos (by omega), if_pos (by omega)]
  right
  have hlen : ys.length ≤ xs.length := by
    by_contra hc
    have := BigInt.val_lt_of_length hx hne hty (by omega)
    omega
  obtain ⟨lb, e1, k1⟩ := BitsBuffer.ofWords_spec (N := xs.length) hx hlx (trimLen_le _)
  obtain ⟨rb, e2, k2⟩ := BitsBuffer.ofWords_spec (N := ys.length) hy (by omega) (trimLen_le _)
  have l2 : rb.length = ys.length := by
    have hw : WLen rb.length (val ys) := by rw [k2.len, ← k2.value]; exact wlen_trimLen k2.words
    have := wlen_trimLen hy
    rw [trimLen_of_top hty] at this
    exact hw.unique this
  have l1 : rb.length ≤ lb.length := by
    have hw : WLen lb.length (val xs) := by rw [k1.len, ← k1.value]; exact wlen_trimLen k1.words
    exact k2.len_le (lt_of_le_of_lt hle hw.1)
  have hcmp : (compareWords xs ys ≥ 0) := by
    rw [compareWords_spec hx hy htx hty, if_neg (by omega)]; split_ifs <;> decide
  refine ⟨_, _, lb, rb, ?_, k1, k2, ?_, ?_⟩
  rotate_left
  · unfold BigIntegerCpp.gcdBits
    rw [cassert_pos hcmp, Res.ok_bind, if_neg (by omega), if_neg (by omega)]
    unfold BigIntegerCpp.gcdVec
    rw [cassert_pos (by omega), Res.ok_bind, cassert_pos (by omega), Res.ok_bind, cassert_pos hcmp, Res.ok_bind, e1, Res.ok_bind,
      e2, Res.ok_bind]
    unfold BigIntegerCpp.gcdBuffers
    rw [cassert_pos (by omega), Res.ok_bind, cassert_pos (by omega), Res.ok_bind, cassert_pos (by omega), Res.ok_bind]
    rw [Res.bind_assoc, Res.bind_assoc]
  · unfold gcdBits
    rw [cassert_pos hcmp, Res.ok_bind, if_neg (by omega), if_neg (by omega)]
    unfold gcdVec
    rw [cassert_pos (by omega), Res.ok_bind, cassert_pos (by omega), Res.ok_bind, cassert_pos hcmp, Res.ok_bind, e1, Res.ok_bind,
      e2, Res.ok_bind]
    unfold gcdBuffers
    rw [cassert_pos (by omega), Res.ok_bind, cassert_pos (by omega), Res.ok_bind, cassert_pos (by omega), Res.ok_bind]
    rw [Res.bind_assoc, Res.bind_assoc]

theorem gcdBits_cases {xs ys : List Nat} (hx : WordsOk xs) (hy : WordsOk ys) (htx : xs.getLast? ≠ some 0)
    (hty : ys.getLast? ≠ some 0) (hne : ys ≠ []) (hlx : xs.length < 2147483648) (hle : val ys ≤ val xs) (fuel : Nat) :
    (EuclidOnly (val xs) (val ys) → gcdBits fuel xs ys = BigIntegerCpp.gcdBits fuel xs ys) ∧
    (¬ EuclidOnly (val xs) (val ys) → euclidCount (val xs) (val ys) ≤ fuel → gcdBits fuel xs ys = .ub .badShift) := by
  rcases gcdBits_parts hx hy htx hty hne hlx hle fuel with ⟨h2, e⟩ | ⟨N, M, lb, rb, k, b1, b2, e1, e2⟩
  · refine ⟨fun _ => e, fun h => absurd (.small _ _ ?_) h⟩
    have := val_lt hy
    have h3 : 𝔹 ^ ys.length ≤ 𝔹 ^ 2 := Nat.pow_le_pow_right (by decide) h2
    norm_num at h3 ⊢
    omega
  · refine ⟨fun h => by rw [e1, e2, gcdLoop_only h hle fuel b1 b2], fun h hf => ?_⟩
    rw [e2]
    rcases gcd_cases (val ys) (val xs) with h' | h' | h'
    · exact absurd h' h
    · rw [gcdLoop_ub h' hle hf b1 b2]; rfl
    · rw [gcdLoop_ub h' hle hf b1 b2]; rfl

theorem gcd_spec {a b : BigInt} {x y : Int} (ha : a.Denotes x) (hb : b.Denotes y) (hla : a.bits.length < 2147483648)
    (hlb : b.bits.length < 2147483648) (fuel : Nat) :
    (EuclidOnly (max x.natAbs y.natAbs) (min x.natAbs y.natAbs) → gcd fuel a b = BigInt.gcd fuel a b) ∧
    (¬ EuclidOnly (max x.natAbs y.natAbs) (min x.natAbs y.natAbs) →
      euclidCount (max x.natAbs y.natAbs) (min x.natAbs y.natAbs) ≤ fuel → gcd fuel a b = .ub .badShift) := by
  by_cases h0 : a.bits = [] ∨ b.bits = []
  · refine ⟨fun _ => ?_, fun h => absurd (.small _ _ ?_) h⟩
    · unfold gcd BigInt.gcd
      rcases h0 with h0 | h0
      · by_cases h1 : b.bits = [] <;> simp only [h0, h1, true_and, if_true, if_false]
      · by_cases h1 : a.bits = [] <;> simp [h0, h1]
    · rcases h0 with h0 | h0
      · have := ha.bits_nil.1 h0
        rw [abs_lt] at this
        omega
      · have := hb.bits_nil.1 h0
        rw [abs_lt] at this
        omega
  push Not at h0
  unfold gcd BigInt.gcd
  rw [ha.assertValid, Res.ok_bind, Res.ok_bind, hb.assertValid, Res.ok_bind, Res.ok_bind]
  rcases ha.shape with ⟨rfl, hx1, hx2⟩ | ⟨s, ws, rfl, hs, hne, hw, ht, hv, rfl⟩
  · exact absurd rfl h0.1
  rcases hb.shape with ⟨rfl, hy1, hy2⟩ | ⟨s', ws', rfl, hs', hne', hw', ht', hv', rfl⟩
  · exact absurd rfl h0.2
  dsimp only at *
  rw [natAbs_unit_mul hs, natAbs_unit_mul hs']
  simp only [hne, hne', false_and, if_false]
  rw [compareWords_spec hw hw' ht ht']
  by_cases h : val ws < val ws'
  · rw [if_pos h, if_pos (by decide), if_pos (by decide), Nat.max_eq_right (le_of_lt h), Nat.min_eq_left (le_of_lt h)]
    exact gcdBits_cases hw' hw ht' ht hne hlb (le_of_lt h) fuel
  · rw [if_neg h, if_neg (by split_ifs <;> decide), if_neg (by split_ifs <;> decide), Nat.max_eq_left (by omega), Nat.min_eq_right (by omega)]
    exact gcdBits_cases hw hw' ht ht' hne' hla (by omega) fuel

end BigIntegerCpp.Long32
