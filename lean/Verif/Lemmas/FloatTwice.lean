import Verif.Lemmas.Float
/-
Where the two roundings of `operator float` differ from one.
-/
set_option linter.unusedSectionVars false
namespace BigIntegerCpp
variable [Cfg]

/-- The float of opposite sign. -/
def fltFlip (f : Nat) : Nat := (f + 2 ^ 31) % 2 ^ 32

theorem fltFlip_spec {f : Nat} (h : f < 2 ^ 32) :
    fltFlip f < 2 ^ 32 ∧ fltFlip (fltFlip f) = f ∧ fltFlip f % 2 = f % 2 ∧ (FltFinite (fltFlip f) ↔ FltFinite f) ∧
      fltScaled (fltFlip f) = -fltScaled f := by
  have e1 : fltExp (fltFlip f) = fltExp f := by unfold fltExp fltFlip; omega
  have e2 : fltFrac (fltFlip f) = fltFrac f := by unfold fltFrac fltFlip; omega
  have e3 : fltSign (fltFlip f) = -fltSign f := by
    unfold fltSign fltFlip
    by_cases c : f < 2 ^ 31
    · rw [if_pos c, if_neg (by omega)]
    · rw [if_neg c, if_pos (by omega)]; rfl
  refine ⟨by unfold fltFlip; omega, by unfold fltFlip; omega, by unfold fltFlip; omega, ?_, ?_⟩
  · unfold FltFinite; rw [e1]
  · unfold fltScaled; rw [e1, e2, e3, neg_mul]

theorem nearest_flip {z : Int} {f : Nat} (h : NearestFloat 149 z f) : NearestFloat 149 (-z) (fltFlip f) := by
  obtain ⟨h1, h2, h3⟩ := h
  obtain ⟨f1, f2, f3, f4, f5⟩ := fltFlip_spec h1
  refine ⟨f1, f4.2 h2, fun g hg hgf => ?_⟩
  obtain ⟨g1, g2, g3, g4, g5⟩ := fltFlip_spec hg
  obtain ⟨k1, k2⟩ := h3 (fltFlip g) g1 (g4.2 hgf)
  rw [show 149 - 149 = 0 from rfl, pow_zero, mul_one, mul_one, g5] at *
  rw [f5, f3]
  rw [show |(-z - -fltScaled f)| = |z - fltScaled f| by rw [show -z - -fltScaled f = -(z - fltScaled f) by omega, abs_neg],
    show |(-z - fltScaled g)| = |z - -fltScaled g| by rw [show -z - fltScaled g = -(z - -fltScaled g) by omega, abs_neg]]
  exact ⟨k1, fun e => (k2 e).imp (fun e => by omega) id⟩

theorem nearest_flip_iff {z : Int} {f : Nat} (hf : f < 2 ^ 32) : NearestFloat 149 (-z) (fltFlip f) ↔ NearestFloat 149 z f := by
  refine ⟨fun h => ?_, nearest_flip⟩
  have := nearest_flip h
  rwa [neg_neg, (fltFlip_spec hf).2.1] at this

/-- A float as large as that is a multiple of its unit. -/
theorem flt_multiple {g c : Nat} (hgf : FltFinite g) (hG : (2 ^ 23 * 2 ^ c : Int) ≤ fltScaled g) :
    ∃ t : Nat, fltScaled g = t * 2 ^ c ∧ 2 ^ 23 ≤ t ∧ (t < 2 ^ 24 → g % 2 = t % 2) := by
  have e := (fltScaled_eq g).resolve_right (not_not.2 hgf)
  have hpos : (0 : Int) < 2 ^ 23 * 2 ^ c := by positivity
  have hs : fltSign g = 1 := by
    by_contra hne
    have : fltSign g = -1 := by unfold fltSign at *; split_ifs at * <;> simp_all
    rw [this] at e
    omega
  rw [hs, one_mul] at e
  rw [e] at hG ⊢
  have hm : fltMag (2 ^ 23 + c * 2 ^ 23) ≤ fltMag (g % 2 ^ 31) := by
    rw [fltMag_normal (le_refl _) (by decide)]
    exact_mod_cast hG
  have hp : 2 ^ 23 + c * 2 ^ 23 ≤ g % 2 ^ 31 := fltMag_strictMono.le_iff_le.1 hm
  generalize hP : g % 2 ^ 31 = p at *
  obtain ⟨d, hd⟩ : ∃ d, p / 2 ^ 23 - 1 = c + d := ⟨p / 2 ^ 23 - 1 - c, by omega⟩
  refine ⟨(2 ^ 23 + p % 2 ^ 23) * 2 ^ d, ?_, ?_, fun hlt => ?_⟩
  · unfold fltMag
    rw [if_neg (by omega), hd]
    push_cast
    ring
  · exact le_trans (Nat.le_add_right _ _) (Nat.le_mul_of_pos_right _ (Nat.two_pow_pos _))
  · rcases d with - | d
    · rw [pow_zero]; omega
    · exfalso
      have : (2 ^ 23 + p % 2 ^ 23) * 2 ^ 1 ≤ (2 ^ 23 + p % 2 ^ 23) * 2 ^ (d + 1) :=
        Nat.mul_le_mul_left _ (Nat.pow_le_pow_right (by decide) (by omega))
      omega

/-- There are such floats. -/
theorem flt_exists {m c : Nat} (h1 : 2 ^ 23 ≤ m) (h2 : m < 2 ^ 24) (hc : c ≤ 253) :
    ∃ g, g < 2 ^ 32 ∧ FltFinite g ∧ fltScaled g = m * 2 ^ c ∧ g % 2 = m % 2 := by
  have hb : m + c * 2 ^ 23 < 255 * 2 ^ 23 := by omega
  have hf : FltFinite (m + c * 2 ^ 23) := fltFinite_iff.2 (by omega)
  refine ⟨m + c * 2 ^ 23, by omega, hf, ?_, by omega⟩
  rw [(fltScaled_eq _).resolve_right (not_not.2 hf), Nat.mod_eq_of_lt (by omega), fltMag_normal h1 (by omega)]
  have : fltSign (m + c * 2 ^ 23) = 1 := by unfold fltSign; rw [if_pos (by omega)]
  rw [this, one_mul]
  push_cast
  rfl

theorem nearest_simp {z : Int} {f : Nat} : NearestFloat 149 z f ↔ f < 2 ^ 32 ∧ FltFinite f ∧ ∀ g, g < 2 ^ 32 → FltFinite g →
    |z - fltScaled f| ≤ |z - fltScaled g| ∧ (|z - fltScaled f| = |z - fltScaled g| → fltScaled g = fltScaled f ∨ f % 2 = 0) := by
  unfold NearestFloat
  simp only [show 149 - 149 = 0 from rfl, pow_zero, mul_one]

/-- A value that rounds twice is not rounded to the nearest float. -/
theorem twice_wrong {m c u f : Nat} {ρ : Int} (hu : 2 ^ c = 2 ^ 29 * u) (hc : c ≤ 253) (h1 : 2 ^ 23 ≤ m) (h2 : m < 2 ^ 24) (he : m % 2 = 0)
    (hρ : 0 < ρ) (hr : ρ < u) (hf : NearestFloat 149 (m * 2 ^ c + 2 ^ 28 * u) f) : ¬ NearestFloat 149 (m * 2 ^ c + 2 ^ 28 * u + ρ) f := by
  intro hn
  obtain ⟨-, hff, hf⟩ := nearest_simp.1 hf
  obtain ⟨-, -, hn⟩ := nearest_simp.1 hn
  obtain ⟨g, g1, g2, g3, -⟩ := flt_exists (m := m + 1) (by omega) (by omega) hc
  obtain ⟨l, l1, l2, l3, -⟩ := flt_exists h1 h2 hc
  have kg := (hn g g1 g2).1
  obtain ⟨kl, kl'⟩ := hf l l1 l2
  have hu' : (2 ^ c : Int) = 2 ^ 29 * u := by exact_mod_cast hu
  have hm1 : (((m + 1 : Nat) : Int)) * 2 ^ c = m * 2 ^ c + 2 ^ 29 * u := by push_cast; rw [hu']; ring
  rw [hm1] at g3
  have hup : (0 : Int) < u := by omega
  have hlow : (m * 2 ^ c : Int) < fltScaled f := by
    rw [g3] at kg
    generalize (m * 2 ^ c : Int) = A at *
    rcases abs_cases (A + 2 ^ 28 * u + ρ - fltScaled f) with ⟨a1, a2⟩ | ⟨a1, a2⟩ <;>
      rcases abs_cases (A + 2 ^ 28 * (u : Int) + ρ - (A + 2 ^ 29 * u)) with ⟨b1, b2⟩ | ⟨b1, b2⟩ <;> omega
  have hup' : fltScaled f ≤ m * 2 ^ c + 2 ^ 29 * u := by
    rw [g3] at kg
    generalize (m * 2 ^ c : Int) = A at *
    rcases abs_cases (A + 2 ^ 28 * u + ρ - fltScaled f) with ⟨a1, a2⟩ | ⟨a1, a2⟩ <;>
      rcases abs_cases (A + 2 ^ 28 * (u : Int) + ρ - (A + 2 ^ 29 * u)) with ⟨b1, b2⟩ | ⟨b1, b2⟩ <;> omega
  have hcp : (0 : Int) < 2 ^ c := by positivity
  obtain ⟨t, t1, t2, t3⟩ := flt_multiple (c := c) hff (le_of_lt (lt_of_le_of_lt
    (mul_le_mul_of_nonneg_right (by exact_mod_cast h1) (le_of_lt hcp)) hlow))
  have ht : t = m + 1 := by
    rw [t1] at hlow hup'
    have a1 := lt_of_mul_lt_mul_right hlow (le_of_lt hcp)
    have a2 : (t : Int) * 2 ^ c ≤ (m + 1 : Int) * 2 ^ c := by rw [add_mul, one_mul, hu'] at *; exact hup'
    have a3 := le_of_mul_le_mul_right a2 hcp
    omega
  have hfo := t3 (by omega)
  rw [ht] at t1
  rw [hm1] at t1
  have tie : |(m * 2 ^ c + 2 ^ 28 * u - fltScaled f : Int)| = |(m * 2 ^ c + 2 ^ 28 * u - fltScaled l : Int)| := by
    rw [t1, l3]
    generalize (m * 2 ^ c : Int) = A at *
    rw [show A + 2 ^ 28 * (u : Int) - (A + 2 ^ 29 * u) = -(2 ^ 28 * u) by omega, abs_neg]
    congr 1
    omega
  rcases kl' tie with h | h
  · rw [t1, l3] at h; omega
  · omega

/-- All other values are. -/
theorem twice_right {m c u q f : Nat} {ρ : Int} (hu : 2 ^ c = 2 ^ 29 * u) (hc : c ≤ 253) (h1 : 2 ^ 23 ≤ m) (h2 : m < 2 ^ 24)
    (hq1 : m * 2 ^ 29 ≤ q) (hq2 : q < (m + 1) * 2 ^ 29) (hρ : 0 ≤ ρ) (hr : ρ < u) (hf : NearestFloat 149 (q * u) f)
    (hno : ¬ (q = m * 2 ^ 29 + 2 ^ 28 ∧ m % 2 = 0 ∧ 0 < ρ)) : NearestFloat 149 (q * u + ρ) f := by
  obtain ⟨hf1, hff, hf⟩ := nearest_simp.1 hf
  refine nearest_simp.2 ⟨hf1, hff, fun g hg hgf => ?_⟩
  obtain ⟨k1, k2⟩ := hf g hg hgf
  have hu' : (2 ^ c : Int) = 2 ^ 29 * u := by exact_mod_cast hu
  have hup : (0 : Int) < u := by omega
  have hcp : (0 : Int) < 2 ^ c := by positivity
  rcases lt_trichotomy (fltScaled g) (fltScaled f) with c1 | c1 | c1
  · have h3 : fltScaled f + fltScaled g ≤ 2 * (q * u) := by
      generalize (q * u : Int) = k at *
      rcases abs_cases (k - fltScaled f) with ⟨a1, a2⟩ | ⟨a1, a2⟩ <;>
        rcases abs_cases (k - fltScaled g) with ⟨b1, b2⟩ | ⟨b1, b2⟩ <;> omega
    generalize (q * u : Int) = k at *
    constructor
    · rcases abs_cases (k + ρ - fltScaled f) with ⟨a1, a2⟩ | ⟨a1, a2⟩ <;>
        rcases abs_cases (k + ρ - fltScaled g) with ⟨b1, b2⟩ | ⟨b1, b2⟩ <;> omega
    · intro e
      have : ρ = 0 := by
        rcases abs_cases (k + ρ - fltScaled f) with ⟨a1, a2⟩ | ⟨a1, a2⟩ <;>
          rcases abs_cases (k + ρ - fltScaled g) with ⟨b1, b2⟩ | ⟨b1, b2⟩ <;> omega
      rw [this, add_zero] at e
      exact k2 e
  · rw [c1]; exact ⟨le_refl _, fun _ => .inl rfl⟩
  · have h3 : 2 * (q * u) ≤ fltScaled f + fltScaled g := by
      generalize (q * u : Int) = k at *
      rcases abs_cases (k - fltScaled f) with ⟨a1, a2⟩ | ⟨a1, a2⟩ <;>
        rcases abs_cases (k - fltScaled g) with ⟨b1, b2⟩ | ⟨b1, b2⟩ <;> omega
    by_cases h4 : 2 * (q * u + ρ) < fltScaled f + fltScaled g
    · generalize (q * u : Int) = k at *
      constructor
      · rcases abs_cases (k + ρ - fltScaled f) with ⟨a1, a2⟩ | ⟨a1, a2⟩ <;>
          rcases abs_cases (k + ρ - fltScaled g) with ⟨b1, b2⟩ | ⟨b1, b2⟩ <;> omega
      · intro e
        exfalso
        rcases abs_cases (k + ρ - fltScaled f) with ⟨a1, a2⟩ | ⟨a1, a2⟩ <;>
          rcases abs_cases (k + ρ - fltScaled g) with ⟨b1, b2⟩ | ⟨b1, b2⟩ <;> omega
    · obtain ⟨l, l1, l2, l3, -⟩ := flt_exists h1 h2 hc
      have hA : (m * 2 ^ c : Int) ≤ q * u := by
        rw [hu', ← mul_assoc]
        exact mul_le_mul_of_nonneg_right (by exact_mod_cast hq1) (le_of_lt hup)
      have hF : (m * 2 ^ c : Int) ≤ fltScaled f := by
        have := (hf l l1 l2).1
        rw [l3] at this
        generalize (q * u : Int) = k at *
        generalize (m * 2 ^ c : Int) = A at *
        rcases abs_cases (k - fltScaled f) with ⟨a1, a2⟩ | ⟨a1, a2⟩ <;>
          rcases abs_cases (k - A) with ⟨b1, b2⟩ | ⟨b1, b2⟩ <;> omega
      have hA' : (2 ^ 23 * 2 ^ c : Int) ≤ m * 2 ^ c := mul_le_mul_of_nonneg_right (by exact_mod_cast h1) (le_of_lt hcp)
      obtain ⟨t, t1, t2, t3⟩ := flt_multiple (c := c) hff (le_trans hA' hF)
      obtain ⟨t', t1', t2', t3'⟩ := flt_multiple (c := c) hgf (le_trans hA' (le_trans hF (le_of_lt c1)))
      have hsum : fltScaled f + fltScaled g = ((t + t') * 2 ^ 29 : Int) * u := by rw [t1, t1', hu']; ring
      have hq : ((t + t') * 2 ^ 28 : Int) = q := by
        rw [hsum] at h3 h4
        have a1 : (2 * q : Int) * u ≤ ((t + t') * 2 ^ 29 : Int) * u := by rw [mul_assoc]; exact h3
        have a2 : ((t + t') * 2 ^ 29 : Int) * u < (2 * (q + 1) : Int) * u := by
          have : (2 * (q + 1) : Int) * u = 2 * (q * u) + 2 * u := by ring
          rw [this]
          generalize (q * u : Int) = k at *
          omega
        have a3 := le_of_mul_le_mul_right a1 hup
        have a4 := lt_of_mul_lt_mul_right a2 (le_of_lt hup)
        omega
      have hk : (2 * (q * u) : Int) = fltScaled f + fltScaled g := by rw [hsum, ← hq]; ring
      have tie : |(q * u - fltScaled f : Int)| = |(q * u - fltScaled g : Int)| := by
        generalize (q * u : Int) = k at *
        rcases abs_cases (k - fltScaled f) with ⟨a1, a2⟩ | ⟨a1, a2⟩ <;>
          rcases abs_cases (k - fltScaled g) with ⟨b1, b2⟩ | ⟨b1, b2⟩ <;> omega
      have hev : f % 2 = 0 := (k2 tie).resolve_left (ne_of_gt c1)
      rcases eq_or_lt_of_le hρ with h0 | h0
      · rw [← h0, add_zero]; exact ⟨k1, k2⟩
      · exfalso
        have b1 : t < t' := by
          rw [t1, t1'] at c1
          exact_mod_cast lt_of_mul_lt_mul_right c1 (le_of_lt hcp)
        have b2 : (q : Int) < (m + 1) * 2 ^ 29 := by exact_mod_cast hq2
        have b3 : m ≤ t := by
          rw [t1] at hF
          exact_mod_cast le_of_mul_le_mul_right hF hcp
        have b4 : t = m := by omega
        have b5 : t' = m + 1 := by omega
        have := t3 (by omega)
        exact hno ⟨by omega, by omega, h0⟩

theorem keep_eq {n m s : Nat} (h1 : 2 ^ 23 ≤ m) (h2 : m < 2 ^ 24) (hs : 29 < s) (hm : n / 2 ^ s = m) :
    keepBits 53 n = n / 2 ^ (s - 29) * 2 ^ (s - 29) := by
  have hp := Nat.two_pow_pos s
  have a1 : m * 2 ^ s ≤ n := by rw [← hm]; exact Nat.div_mul_le_self _ _
  have a2 : n < (m + 1) * 2 ^ s := (Nat.div_lt_iff_lt_mul hp).1 (by omega)
  have hl : Nat.log2 n = s + 24 - 1 := log2_eq (by omega)
    (le_trans (by rw [show s + 24 - 1 = 23 + s by omega, pow_add]; exact Nat.mul_le_mul_right _ h1) a1)
    (lt_of_lt_of_le a2 (by rw [show s + 24 = 24 + s by omega, pow_add]; exact Nat.mul_le_mul_right _ h2))
  unfold keepBits
  rw [hl, show s + 24 - 1 + 1 - 53 = s - 29 by omega]

theorem twice_iff {n f : Nat} (h : n < 2 ^ 128) (hf : NearestFloat 149 ((keepBits 53 n : Nat) * 2 ^ 149) f) :
    NearestFloat 149 (n * 2 ^ 149) f ↔ ¬ RoundsTwice n := by
  have split : ∀ {s : Nat}, 29 < s → 2 ^ s = 2 ^ 29 * 2 ^ (s - 29) ∧ 2 ^ (s - 1) = 2 ^ 28 * 2 ^ (s - 29) := fun hs => by
    rw [← pow_add, ← pow_add]
    exact ⟨by congr 1; omega, by congr 1; omega⟩
  constructor
  · rintro hn ⟨m, s, r, h1, h2, h3, h4, h5, h6, h7⟩
    obtain ⟨e1, e2⟩ := split h4
    have hr : r < 2 ^ (s - 1) := lt_of_lt_of_le h6 (Nat.pow_le_pow_right (by decide) (by omega))
    have hss : 2 ^ s = 2 ^ (s - 1) + 2 ^ (s - 1) := by rw [e1, e2]; omega
    have hm : n / 2 ^ s = m := Nat.div_eq_of_lt_le (by omega) (by rw [add_mul, one_mul]; omega)
    have hs : s ≤ 104 := by
      by_contra c
      have : 2 ^ 23 * 2 ^ 105 ≤ m * 2 ^ s := Nat.mul_le_mul h1 (Nat.pow_le_pow_right (by decide) (by omega))
      omega
    have hk : keepBits 53 n = m * 2 ^ s + 2 ^ 28 * 2 ^ (s - 29) := by
      rw [keep_eq h1 h2 h4 hm]
      have hq : n / 2 ^ (s - 29) = m * 2 ^ 29 + 2 ^ 28 := by
        refine Nat.div_eq_of_lt_le ?_ ?_ <;> rw [h7, e1, e2]
        · rw [add_mul, mul_assoc]; omega
        · rw [add_mul, add_mul, one_mul, mul_assoc]; omega
      rw [hq, add_mul, mul_assoc, e1]
    have hsc : (2 : Nat) ^ (s + 149) = 2 ^ 29 * (2 ^ (s - 29) * 2 ^ 149) := by rw [← mul_assoc, ← e1, pow_add]
    refine twice_wrong (m := m) (c := s + 149) (u := 2 ^ (s - 29) * 2 ^ 149) (ρ := (r * 2 ^ 149 : Nat)) hsc (by omega) h1 h2 h3
      (by exact_mod_cast Nat.mul_pos h5 (Nat.two_pow_pos _))
      (by exact_mod_cast Nat.mul_lt_mul_of_pos_right h6 (Nat.two_pow_pos 149)) (f := f) ?_ ?_
    · rw [hk] at hf
      convert hf using 1
      push_cast
      ring
    · rw [h7, e2] at hn
      convert hn using 1
      push_cast
      ring
  · intro hno
    by_cases hs : n < 2 ^ 53
    · rwa [keepBits_small hs] at hf
    · have hn0 : n ≠ 0 := by omega
      have l1 := Nat.log2_self_le hn0
      have l2 := Nat.lt_log2_self (n := n)
      have l3 : 53 ≤ Nat.log2 n := (Nat.le_log2 hn0).2 (by omega)
      have l4 : Nat.log2 n < 128 := (Nat.log2_lt hn0).2 h
      obtain ⟨s, hsd⟩ : ∃ s, Nat.log2 n = s + 23 := ⟨Nat.log2 n - 23, by omega⟩
      rw [hsd] at l1 l2 l3 l4
      have h4 : 29 < s := by omega
      obtain ⟨e1, e2⟩ := split h4
      have h1 : 2 ^ 23 ≤ n / 2 ^ s := by
        rw [Nat.le_div_iff_mul_le (Nat.two_pow_pos _), ← pow_add, show 23 + s = s + 23 by omega]; exact l1
      have h2 : n / 2 ^ s < 2 ^ 24 := by
        rw [Nat.div_lt_iff_lt_mul (Nat.two_pow_pos _), ← pow_add, show 24 + s = s + 23 + 1 by omega]; exact l2
      rw [keep_eq h1 h2 h4 rfl] at hf
      have hd : n / 2 ^ (s - 29) / 2 ^ 29 = n / 2 ^ s := by rw [Nat.div_div_eq_div_mul, mul_comm, ← e1]
      have hdm := Nat.div_add_mod n (2 ^ (s - 29))
      have hml := Nat.mod_lt n (Nat.two_pow_pos (s - 29))
      generalize hQ : n / 2 ^ (s - 29) = q at *
      generalize hM : n / 2 ^ s = m at *
      generalize hR : n % 2 ^ (s - 29) = r at *
      have hsc : (2 : Nat) ^ (s + 149) = 2 ^ 29 * (2 ^ (s - 29) * 2 ^ 149) := by rw [← mul_assoc, ← e1, pow_add]
      have hno' : ¬ (q = m * 2 ^ 29 + 2 ^ 28 ∧ m % 2 = 0 ∧ (0 : Int) < (r * 2 ^ 149 : Nat)) := by
        rintro ⟨k1, k2, k3⟩
        refine hno ⟨m, s, r, h1, h2, k2, h4, ?_, hml, ?_⟩
        · rcases Nat.eq_zero_or_pos r with z | z
          · rw [z, zero_mul] at k3; exact absurd k3 (by decide)
          · exact z
        · rw [← hdm, k1, e1, e2]; ring
      have hf' : NearestFloat 149 (q * (2 ^ (s - 29) * 2 ^ 149 : Nat)) f := by
        convert hf using 1; push_cast; ring
      have hr' : ((r * 2 ^ 149 : Nat) : Int) < (2 ^ (s - 29) * 2 ^ 149 : Nat) :=
        Int.ofNat_lt.2 (Nat.mul_lt_mul_of_pos_right hml (Nat.two_pow_pos 149))
      have := twice_right hsc (by omega) h1 h2 (by omega) (by omega) (Int.natCast_nonneg _) hr' hf' hno'
      convert this using 1
      rw [← hdm]
      push_cast
      ring

end BigIntegerCpp
