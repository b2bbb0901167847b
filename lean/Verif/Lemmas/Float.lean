import Verif.Lemmas.Double
import Verif.Model.Float
import Verif.FloatSpec
import Mathlib.Tactic.Ring
import Mathlib.Algebra.Order.Ring.Abs
import Mathlib.Algebra.Order.Ring.Int
/-
The conversion to float of Model/Float.lean rounds to nearest.
-/
set_option linter.unusedSectionVars false
set_option linter.unnecessarySeqFocus false
namespace BigIntegerCpp

/-- Magnitude (times `2^149`) of the float with pattern `p`, sign bit cleared. -/
def fltMag (p : Nat) : Nat := if p < 2 ^ 23 then p else (2 ^ 23 + p % 2 ^ 23) * 2 ^ (p / 2 ^ 23 - 1)

theorem fltMag_normal {m j : Nat} (h1 : 2 ^ 23 ≤ m) (h2 : m ≤ 2 ^ 24) : fltMag (m + j * 2 ^ 23) = m * 2 ^ j := by
  unfold fltMag
  rw [if_neg (by omega)]
  rcases Nat.lt_or_eq_of_le h2 with h | h
  · rw [show (m + j * 2 ^ 23) % 2 ^ 23 = m - 2 ^ 23 by omega, show (m + j * 2 ^ 23) / 2 ^ 23 - 1 = j by omega,
      show 2 ^ 23 + (m - 2 ^ 23) = m by omega]
  · rw [show (m + j * 2 ^ 23) % 2 ^ 23 = 0 by omega, show (m + j * 2 ^ 23) / 2 ^ 23 - 1 = j + 1 by omega, h]
    rw [pow_succ 2 j]; ring

theorem fltMag_small {p : Nat} (h : p ≤ 2 ^ 24) : fltMag p = p := by
  by_cases h1 : p < 2 ^ 23
  · unfold fltMag; rw [if_pos h1]
  · have := fltMag_normal (m := p) (j := 0) (by omega) h
    simpa using this

theorem fltMag_succ (p : Nat) : fltMag p < fltMag (p + 1) := by
  by_cases h : p < 2 ^ 23
  · rw [fltMag_small (by omega), fltMag_small (by omega)]; omega
  · have e : p = (2 ^ 23 + p % 2 ^ 23) + (p / 2 ^ 23 - 1) * 2 ^ 23 := by omega
    have e' : p + 1 = (2 ^ 23 + p % 2 ^ 23 + 1) + (p / 2 ^ 23 - 1) * 2 ^ 23 := by omega
    rw [e', e, fltMag_normal (by omega) (by omega)]
    rw [← e, fltMag_normal (by omega) (by omega)]
    exact Nat.mul_lt_mul_of_pos_right (by omega) (by positivity)

theorem fltMag_strictMono : StrictMono fltMag := strictMono_nat_of_lt_succ fltMag_succ

theorem fltScaled_eq (f : Nat) : fltScaled f = fltSign f * (fltMag (f % 2 ^ 31) : Int) ∨ ¬ FltFinite f := by
  by_cases h : FltFinite f
  · left
    unfold fltScaled fltMag fltExp fltFrac
    unfold FltFinite fltExp at h
    by_cases h0 : f / 2 ^ 23 % 2 ^ 8 = 0
    · rw [if_pos h0, if_pos (by omega), show f % 2 ^ 23 = f % 2 ^ 31 by omega]
    · rw [if_neg h0, if_neg (by omega), show f % 2 ^ 31 % 2 ^ 23 = f % 2 ^ 23 by omega,
        show f % 2 ^ 31 / 2 ^ 23 = f / 2 ^ 23 % 2 ^ 8 by omega]
  · exact .inr h

theorem fltFinite_iff {f : Nat} : FltFinite f ↔ f % 2 ^ 31 < 255 * 2 ^ 23 := by
  unfold FltFinite fltExp; omega

/-- Rounding a magnitude between two neighbours. -/
theorem nearest_core {p M C h ρ : Nat} (hA : fltMag p * C + ρ = M) (hB : fltMag (p + 1) * C = fltMag p * C + 2 * h)
    (hρ : ρ < 2 * h) {q : Nat} (hq : q = if h < ρ ∨ (ρ = h ∧ p % 2 = 1) then p + 1 else p) (g : Nat) :
    |(M : Int) - fltMag q * C| ≤ |(M : Int) - fltMag g * C| ∧
    (|(M : Int) - fltMag q * C| = |(M : Int) - fltMag g * C| → fltMag g = fltMag q ∨ q % 2 = 0) := by
  have hg : fltMag g * C ≤ fltMag p * C ∧ (fltMag g * C = fltMag p * C → fltMag g = fltMag p) ∨
      fltMag (p + 1) * C ≤ fltMag g * C ∧ (fltMag g * C = fltMag (p + 1) * C → fltMag g = fltMag (p + 1)) := by
    have hC : 0 < C := by
      rcases Nat.eq_zero_or_pos C with rfl | h
      · omega
      · exact h
    rcases Nat.lt_or_ge p g with h1 | h1
    · exact .inr ⟨Nat.mul_le_mul_right _ (fltMag_strictMono.monotone h1), fun e => Nat.eq_of_mul_eq_mul_right hC e⟩
    · exact .inl ⟨Nat.mul_le_mul_right _ (fltMag_strictMono.monotone h1), fun e => Nat.eq_of_mul_eq_mul_right hC e⟩
  have key : ∀ n : Nat, |(M : Int) - fltMag n * C| = |(M : Int) - ((fltMag n * C : Nat) : Int)| := by intro n; push_cast; rfl
  rw [key, key]
  by_cases hc : h < ρ ∨ (ρ = h ∧ p % 2 = 1)
  · rw [if_pos hc] at hq
    subst hq
    generalize fltMag (p + 1) = v at *
    generalize fltMag p = u at *
    generalize fltMag g = w at *
    have e1 : |(M : Int) - ((v * C : Nat) : Int)| = 2 * h - ρ := by rw [abs_of_nonpos (by omega)]; omega
    rw [e1]
    rcases hg with ⟨k1, k2⟩ | ⟨k1, k2⟩
    · rw [abs_of_nonneg (by omega)]
      constructor
      · omega
      · intro e; right; omega
    · rw [abs_of_nonpos (by omega)]
      constructor
      · omega
      · intro e; left; exact k2 (by omega)
  · rw [if_neg hc] at hq
    subst hq
    push Not at hc
    generalize fltMag (q + 1) = v at *
    generalize fltMag q = u at *
    generalize fltMag g = w at *
    have e1 : |(M : Int) - ((u * C : Nat) : Int)| = ρ := by rw [abs_of_nonneg (by omega)]; omega
    rw [e1]
    rcases hg with ⟨k1, k2⟩ | ⟨k1, k2⟩
    · rw [abs_of_nonneg (by omega)]
      constructor
      · omega
      · intro e; left; exact k2 (by omega)
    · rw [abs_of_nonpos (by omega)]
      constructor
      · omega
      · intro e; right
        have : ρ = h := by omega
        have := hc.2 this
        omega

/-- From magnitudes to signed numbers. -/
theorem nearest_signed {s : Int} (hs : s = 1 ∨ s = -1) {M C q b : Nat} (hb : b = if s = 1 then 0 else 1) (hq : q < 255 * 2 ^ 23)
    {k : Nat} (hC : C = 2 ^ (k - 149)) (h0 : M = 0 → q = 0)
    (hn : ∀ g, |(M : Int) - fltMag q * C| ≤ |(M : Int) - fltMag g * C| ∧
      (|(M : Int) - fltMag q * C| = |(M : Int) - fltMag g * C| → fltMag g = fltMag q ∨ q % 2 = 0)) :
    NearestFloat k (s * M) (b * 2 ^ 31 + q) := by
  have hf : b * 2 ^ 31 + q < 2 ^ 32 := by rw [hb]; split_ifs <;> omega
  have hmod : (b * 2 ^ 31 + q) % 2 ^ 31 = q := by omega
  have hfin : FltFinite (b * 2 ^ 31 + q) := fltFinite_iff.2 (by omega)
  have hfs : fltScaled (b * 2 ^ 31 + q) = s * fltMag q := by
    rw [(fltScaled_eq _).resolve_right (not_not.2 hfin), hmod]
    congr 1
    unfold fltSign
    rcases hs with rfl | rfl
    · rw [if_pos rfl] at hb
      exact if_pos (by omega)
    · rw [if_neg (by decide)] at hb
      exact if_neg (by omega)
  refine ⟨hf, hfin, fun g hg hgf => ?_⟩
  have hgs := (fltScaled_eq _).resolve_right (not_not.2 hgf)
  obtain ⟨n1, n2⟩ := hn (g % 2 ^ 31)
  rw [hfs, hgs, show (2 : Int) ^ (k - 149) = (C : Int) by rw [hC]; push_cast; rfl]
  generalize fltMag (g % 2 ^ 31) = w at *
  have hsg : fltSign g = 1 ∨ fltSign g = -1 := by unfold fltSign; split_ifs <;> simp
  have hpar : (b * 2 ^ 31 + q) % 2 = q % 2 := by omega
  rw [hpar]
  have e1 : |s * (M : Int) - s * (fltMag q : Int) * C| = |(M : Int) - fltMag q * C| := by
    rw [show s * (M : Int) - s * (fltMag q : Int) * C = s * ((M : Int) - fltMag q * C) by ring, abs_mul]
    rcases hs with rfl | rfl <;> simp
  rw [e1]
  by_cases hss : fltSign g = s
  · have e2 : |s * (M : Int) - fltSign g * (w : Int) * C| = |(M : Int) - w * C| := by
      rw [hss, show s * (M : Int) - s * (w : Int) * C = s * ((M : Int) - w * C) by ring, abs_mul]
      rcases hs with rfl | rfl <;> simp
    rw [e2]
    refine ⟨n1, fun e => ?_⟩
    rcases n2 e with h | h
    · left; rw [hss, h]
    · exact .inr h
  · have hss' : fltSign g = -s := by rcases hs with rfl | rfl <;> rcases hsg with h | h <;> simp_all
    have e2 : |s * (M : Int) - fltSign g * (w : Int) * C| = (M : Int) + (w * C : Nat) := by
      rw [hss', show s * (M : Int) - -s * (w : Int) * C = s * ((M : Int) + w * C) by ring, abs_mul]
      have : |s| = 1 := by rcases hs with rfl | rfl <;> simp
      rw [this, one_mul, ← Nat.cast_mul, abs_of_nonneg (by omega)]
    rw [e2]
    have e3 : |(M : Int) - w * C| = |(M : Int) - ((w * C : Nat) : Int)| := by push_cast; rfl
    rw [e3] at n1 n2
    have hC0 : 0 < C := by rw [hC]; positivity
    have hle : |(M : Int) - ((w * C : Nat) : Int)| ≤ M + (w * C : Nat) := by rw [abs_le]; constructor <;> omega
    refine ⟨le_trans n1 hle, fun e => ?_⟩
    by_cases hM : M = 0
    · right; rw [h0 hM]
    · -- then w * C = 0
      have h1 : |(M : Int) - ((w * C : Nat) : Int)| = M + (w * C : Nat) := le_antisymm hle (by rw [← e]; exact n1)
      have h2 : w * C = 0 := by
        rcases abs_cases ((M : Int) - ((w * C : Nat) : Int)) with ⟨a1, a2⟩ | ⟨a1, a2⟩ <;> omega
      have h3 : w = 0 := by
        rcases Nat.mul_eq_zero.1 h2 with h | h
        · exact h
        · omega
      rcases n2 (by rw [e, h1]) with h | h
      · left; rw [← h, h3]; simp
      · exact .inr h

theorem mul_pow_split (a b c : Nat) : a * 2 ^ (b + c) = a * 2 ^ b * 2 ^ c := by rw [pow_add, mul_assoc]

/-- The two neighbours among the floats of a finite double. -/
theorem round_data {e frac sig sh p : Nat} (he : e < 2047) (hfr : frac < 2 ^ 52) (hsig : sig = if e = 0 then frac else 2 ^ 52 + frac)
    (hsh : sh = if 897 ≤ e then 29 else 29 + (897 - Nat.max 1 e)) (hp : p = sig / 2 ^ sh + (e - 897) * 2 ^ 23) :
    ∃ t : Nat, (if e = 0 then frac else (2 ^ 52 + frac) * 2 ^ (e - 1)) = sig * 2 ^ t ∧
      fltMag p * 2 ^ 925 = sig / 2 ^ sh * 2 ^ sh * 2 ^ t ∧ fltMag (p + 1) * 2 ^ 925 = (sig / 2 ^ sh + 1) * 2 ^ sh * 2 ^ t := by
  by_cases h : 897 ≤ e
  · rw [if_pos h] at hsh
    rw [if_neg (by omega)] at hsig
    refine ⟨e - 1, by rw [if_neg (by omega), hsig], ?_⟩
    have hm1 : 2 ^ 23 ≤ sig / 2 ^ sh := by rw [hsh]; omega
    have hm2 : sig / 2 ^ sh < 2 ^ 24 := by rw [hsh]; omega
    have hpow : ∀ m : Nat, m * 2 ^ (e - 897) * 2 ^ 925 = m * 2 ^ sh * 2 ^ (e - 1) := by
      intro m
      rw [← mul_pow_split, ← mul_pow_split, show e - 897 + 925 = sh + (e - 1) by omega]
    constructor
    · rw [hp, fltMag_normal hm1 (le_of_lt hm2), hpow]
    · rw [hp, show sig / 2 ^ sh + (e - 897) * 2 ^ 23 + 1 = (sig / 2 ^ sh + 1) + (e - 897) * 2 ^ 23 by omega,
        fltMag_normal (by omega) (by omega), hpow]
  · rw [if_neg h] at hsh
    rw [show e - 897 = 0 by omega, Nat.zero_mul, Nat.add_zero] at hp
    have hmx : Nat.max 1 e = if e = 0 then 1 else e := by
      rcases Nat.eq_zero_or_pos e with rfl | h0
      · rfl
      · rw [if_neg (by omega)]; exact Nat.max_eq_right h0
    have hsl : sig < 2 ^ 53 := by rw [hsig]; split_ifs <;> omega
    have hq : sig / 2 ^ sh < 2 ^ 23 := by
      have h30 : 2 ^ 30 ≤ 2 ^ sh := Nat.pow_le_pow_right (by decide) (by
        rw [hsh, hmx]; split_ifs <;> omega)
      calc sig / 2 ^ sh ≤ sig / 2 ^ 30 := Nat.div_le_div_left h30 (by decide)
        _ < 2 ^ 23 := by omega
    refine ⟨Nat.max 1 e - 1, ?_, ?_⟩
    · rw [hsig, hmx]
      by_cases h0 : e = 0
      · rw [if_pos h0, if_pos h0, if_pos h0, Nat.sub_self, pow_zero, Nat.mul_one]
      · rw [if_neg h0, if_neg h0, if_neg h0]
    · have hpow : ∀ m : Nat, m * 2 ^ 925 = m * 2 ^ sh * 2 ^ (Nat.max 1 e - 1) := by
        intro m
        rw [← mul_pow_split]
        congr 2
        rw [hsh, hmx]; split_ifs <;> omega
      exact ⟨by rw [hp, fltMag_small (by omega), hpow], by rw [hp, fltMag_small (by omega), hpow]⟩

theorem fltLimit_eq : fltLimit = fltMag (255 * 2 ^ 23 - 1) + 2 ^ 252 ∧ fltMag (255 * 2 ^ 23) = fltMag (255 * 2 ^ 23 - 1) + 2 ^ 253 := by
  have h1 : fltMag (255 * 2 ^ 23 - 1) = (2 ^ 24 - 1) * 2 ^ 253 := by
    rw [show 255 * 2 ^ 23 - 1 = (2 ^ 24 - 1) + 253 * 2 ^ 23 by decide]; exact fltMag_normal (by decide) (by decide)
  have h2 : fltMag (255 * 2 ^ 23) = 2 ^ 24 * 2 ^ 253 := by
    rw [show 255 * 2 ^ 23 = 2 ^ 24 + 253 * 2 ^ 23 by decide]; exact fltMag_normal (by decide) (by decide)
  rw [h1, h2]
  unfold fltLimit
  decide

variable [Cfg]

theorem doubleToFloat_spec (d : Nat) (hd : d < 2 ^ 64) (hf : DblFinite d) :
    ((dblScaled d).natAbs < fltLimit * 2 ^ 925 → NearestFloat 1074 (dblScaled d) (doubleToFloat d)) ∧
    (fltLimit * 2 ^ 925 ≤ (dblScaled d).natAbs → doubleToFloat d = fltInfinity (decide (2 ^ 63 ≤ d))) := by
  obtain ⟨hsplit, hs2, he, hfr⟩ := dbl_split d hd
  unfold DblFinite at hf
  unfold doubleToFloat dblScaled
  dsimp only
  change d / 2 ^ 52 % 2 ^ 11 ≠ 2047 at hf
  rw [if_neg hf]
  change dblExp d ≠ 2047 at hf
  rw [show d / 2 ^ 52 % 2 ^ 11 = dblExp d from rfl, show d % 2 ^ 52 = dblFrac d from rfl]
  have hsgn : dblSign d = 1 ∧ d / 2 ^ 63 = 0 ∧ d < 2 ^ 63 ∨ dblSign d = -1 ∧ d / 2 ^ 63 = 1 ∧ 2 ^ 63 ≤ d := by
    unfold dblSign
    rcases Nat.lt_or_ge d (2 ^ 63) with h | h
    · left; rw [if_pos h]; exact ⟨rfl, by omega, h⟩
    · right; rw [if_neg (by omega)]; exact ⟨rfl, by omega, h⟩
  generalize dblExp d = e at *
  generalize dblFrac d = frac at *
  generalize hsig : (if e = 0 then frac else 2 ^ 52 + frac) = sig
  generalize hsh : (if 897 ≤ e then 29 else 29 + (897 - Nat.max 1 e)) = sh
  generalize hp : sig / 2 ^ sh + (e - 897) * 2 ^ 23 = p
  obtain ⟨t, t1, t2, t3⟩ := round_data (by omega) hfr hsig.symm hsh.symm hp.symm
  rw [t1]
  have hsh1 : 29 ≤ sh := by clear t1 t2 t3; rw [← hsh]; split_ifs <;> omega
  generalize hq : (if 2 ^ (sh - 1) < sig % 2 ^ sh ∨ (sig % 2 ^ sh = 2 ^ (sh - 1) ∧ p % 2 = 1) then p + 1 else p) = q
  have hT : 0 < 2 ^ t := Nat.two_pow_pos t
  have hshp : 2 ^ sh = 2 * 2 ^ (sh - 1) := by rw [← pow_succ', Nat.sub_add_cancel (Nat.le_trans (by decide) hsh1)]
  have hdm := Nat.div_add_mod' sig (2 ^ sh)
  have hml := Nat.mod_lt sig (show 0 < 2 ^ sh by positivity)
  have hA : fltMag p * 2 ^ 925 + sig % 2 ^ sh * 2 ^ t = sig * 2 ^ t := by rw [t2, ← Nat.add_mul, hdm]
  have hB : fltMag (p + 1) * 2 ^ 925 = fltMag p * 2 ^ 925 + 2 * (2 ^ (sh - 1) * 2 ^ t) := by
    rw [t2, t3, Nat.add_mul, Nat.one_mul, Nat.add_mul, ← Nat.mul_assoc, ← hshp]
  have hρ : sig % 2 ^ sh * 2 ^ t < 2 * (2 ^ (sh - 1) * 2 ^ t) := by
    rw [← Nat.mul_assoc, ← hshp]; exact Nat.mul_lt_mul_of_pos_right hml hT
  have hq' : q = if 2 ^ (sh - 1) * 2 ^ t < sig % 2 ^ sh * 2 ^ t ∨ (sig % 2 ^ sh * 2 ^ t = 2 ^ (sh - 1) * 2 ^ t ∧ p % 2 = 1)
      then p + 1 else p := by
    rw [← hq]
    refine if_congr (or_congr ?_ (and_congr_left' ?_)) rfl rfl
    · exact (Nat.mul_lt_mul_right hT).symm
    · exact ⟨fun h => by rw [h], fun h => Nat.eq_of_mul_eq_mul_right hT h⟩
  have habs : (dblSign d * ((sig * 2 ^ t : Nat) : Int)).natAbs = sig * 2 ^ t := by
    rcases hsgn with ⟨h, -⟩ | ⟨h, -⟩ <;> rw [h, Int.natAbs_mul, Int.natAbs_natCast] <;> exact Nat.one_mul _
  rw [habs]
  generalize hM : sig * 2 ^ t = M at *
  generalize hρ' : sig % 2 ^ sh * 2 ^ t = ρ at *
  generalize hh : 2 ^ (sh - 1) * 2 ^ t = h at *
  obtain ⟨L1, L2⟩ := fltLimit_eq
  have hlim : M < fltLimit * 2 ^ 925 ↔ q < 255 * 2 ^ 23 := by
    have hP : ∀ n, n < 255 * 2 ^ 23 - 1 → fltMag (n + 1) * 2 ^ 925 ≤ fltMag (255 * 2 ^ 23 - 1) * 2 ^ 925 := fun n hn =>
      Nat.mul_le_mul_right _ (fltMag_strictMono.monotone (by omega))
    have hP' : ∀ n, 255 * 2 ^ 23 - 1 < n → fltMag (255 * 2 ^ 23) * 2 ^ 925 ≤ fltMag n * 2 ^ 925 := fun n hn =>
      Nat.mul_le_mul_right _ (fltMag_strictMono.monotone (by omega))
    have hC : (0 : Nat) < 2 ^ 925 := by positivity
    have f1 : fltLimit * 2 ^ 925 = fltMag (255 * 2 ^ 23 - 1) * 2 ^ 925 + 2 ^ 252 * 2 ^ 925 := by rw [L1, Nat.add_mul]
    have f2 : fltMag (255 * 2 ^ 23) * 2 ^ 925 = fltMag (255 * 2 ^ 23 - 1) * 2 ^ 925 + 2 * (2 ^ 252 * 2 ^ 925) := by
      rw [L2, Nat.add_mul, pow_succ 2 252, Nat.mul_comm _ 2, Nat.mul_assoc]
    have f3 : 0 < 2 ^ 252 * 2 ^ 925 := by positivity
    rcases Nat.lt_trichotomy p (255 * 2 ^ 23 - 1) with hc | hc | hc
    · have := hP p hc
      have hqp : q ≤ p + 1 := by rw [hq']; split_ifs <;> omega
      generalize 2 ^ 252 * 2 ^ 925 = K at *
      generalize fltLimit * 2 ^ 925 = L at *
      generalize fltMag (255 * 2 ^ 23 - 1) * 2 ^ 925 = U at *
      constructor
      · intro _; omega
      · intro _; omega
    · rw [← hc] at f1 f2
      rw [show 255 * 2 ^ 23 = p + 1 by omega] at f2
      generalize fltLimit * 2 ^ 925 = L at *
      generalize 2 ^ 252 * 2 ^ 925 = K at *
      have hK : h = K := by omega
      have hpo : p % 2 = 1 := by rw [hc]; decide
      rw [f1, hq']
      by_cases hc2 : h < ρ ∨ (ρ = h ∧ p % 2 = 1)
      · rw [if_pos hc2]; omega
      · rw [if_neg hc2]; omega
    · have := hP' p hc
      have hqp : p ≤ q := by rw [hq']; split_ifs <;> omega
      generalize 2 ^ 252 * 2 ^ 925 = K at *
      generalize fltLimit * 2 ^ 925 = L at *
      generalize fltMag (255 * 2 ^ 23 - 1) * 2 ^ 925 = U at *
      omega
  constructor
  · intro hlt
    have hqf := hlim.1 hlt
    rw [if_neg (by omega)]
    refine nearest_signed (C := 2 ^ 925) (b := d / 2 ^ 63) ?_ ?_ hqf (by rfl) ?_ fun g => nearest_core hA hB hρ hq' g
    · rcases hsgn with ⟨h, -⟩ | ⟨h, -⟩
      · exact .inl h
      · exact .inr h
    · rcases hsgn with ⟨h, h', -⟩ | ⟨h, h', -⟩
      · rw [h, if_pos rfl, h']
      · rw [h, if_neg (by decide), h']
    · intro hM0
      have hρ0 : ρ = 0 := by omega
      have hm0 : fltMag p * 2 ^ 925 = 0 := by omega
      have hmp : fltMag p = 0 := by
        rcases Nat.mul_eq_zero.1 hm0 with h | h
        · exact h
        · exact absurd h (by positivity)
      have hp0 : p = 0 := by
        by_contra h0
        have := fltMag_strictMono (show 0 < p by omega)
        omega
      rw [hq', if_neg (by omega), hp0]
  · intro hge
    have hqf : ¬ q < 255 * 2 ^ 23 := fun hh => absurd (hlim.2 hh) (by omega)
    rw [if_pos (by omega)]
    unfold fltInfinity
    rcases hsgn with ⟨-, h', h''⟩ | ⟨-, h', h''⟩
    · rw [h', show decide (2 ^ 63 ≤ d) = false from decide_eq_false (by omega)]; rfl
    · rw [h', show decide (2 ^ 63 ≤ d) = true from decide_eq_true h'']; rfl

/-! ### from doubles to integers -/

theorem nearest_unscale {z : Int} {f : Nat} (h : NearestFloat 1074 (z * 2 ^ 925) f) : NearestFloat 149 z f := by
  obtain ⟨h1, h2, h3⟩ := h
  refine ⟨h1, h2, fun g hg hgf => ?_⟩
  have key : ∀ s : Int, |z * 2 ^ 925 - s * 2 ^ (1074 - 149)| = |z - s * 2 ^ (149 - 149)| * 2 ^ 925 := by
    intro s
    rw [show 1074 - 149 = 925 from rfl, show 149 - 149 = 0 from rfl, pow_zero, mul_one, ← sub_mul, abs_mul,
      abs_of_nonneg (a := (2 : Int) ^ 925) (pow_nonneg (by decide) _)]
  have hp : (0 : Int) < 2 ^ 925 := pow_pos (by decide) _
  obtain ⟨k1, k2⟩ := h3 g hg hgf
  rw [key, key] at k1 k2
  exact ⟨le_of_mul_le_mul_right k1 hp, fun e => k2 (by rw [e])⟩

theorem pow_1074 (z : Int) : z * 2 ^ 1074 = z * 2 ^ 149 * 2 ^ 925 := by rw [mul_assoc, ← pow_add]

theorem keepBits_small {m : Nat} (h : m < 2 ^ 53) : keepBits 53 m = m := by
  rcases Nat.eq_zero_or_pos m with rfl | h0
  · decide
  · have : Nat.log2 m < 53 := (Nat.log2_lt (by omega)).2 h
    rw [keepBits, show Nat.log2 m + 1 - 53 = 0 by omega, pow_zero, Nat.div_one, Nat.mul_one]

/-- Truncation gives the greatest number of 53 bits: no shorter number fits in between. -/
theorem keepBits_greatest {n m j : Nat} (hm : m < 2 ^ 53) (h : m * 2 ^ j ≤ n * 2 ^ 149) : m * 2 ^ j ≤ keepBits 53 n * 2 ^ 149 := by
  by_cases hn : n < 2 ^ 53
  · rw [keepBits_small hn]; exact h
  have hL : 53 ≤ Nat.log2 n := (Nat.le_log2 (by omega)).2 (by omega)
  have hle := Nat.log2_self_le (show n ≠ 0 by omega)
  rw [keepBits, show Nat.log2 n + 1 - 53 = Nat.log2 n - 52 by omega]
  generalize Nat.log2 n = L at *
  have hD : 0 < 2 ^ (L - 52) := Nat.two_pow_pos _
  have hT : 0 < 2 ^ 149 := Nat.two_pow_pos _
  by_cases hj : 149 + (L - 52) ≤ j
  · rw [show j = (j - 149 - (L - 52)) + (L - 52) + 149 by omega, pow_add, pow_add] at h ⊢
    rw [← Nat.mul_assoc, ← Nat.mul_assoc] at h ⊢
    have h1 := Nat.le_of_mul_le_mul_right h hT
    exact Nat.mul_le_mul_right _ (Nat.mul_le_mul_right _ ((Nat.le_div_iff_mul_le hD).2 h1))
  · have h1 : 2 ^ 52 ≤ n / 2 ^ (L - 52) := by
      rw [Nat.le_div_iff_mul_le hD, ← pow_add, show 52 + (L - 52) = L by omega]; exact hle
    calc m * 2 ^ j ≤ 2 ^ 53 * 2 ^ j := Nat.mul_le_mul_right _ (le_of_lt hm)
      _ = 2 ^ (53 + j) := (pow_add _ _ _).symm
      _ ≤ 2 ^ (52 + (L - 52) + 149) := Nat.pow_le_pow_right (by decide) (by omega)
      _ = 2 ^ 52 * 2 ^ (L - 52) * 2 ^ 149 := by rw [pow_add, pow_add]
      _ ≤ _ := Nat.mul_le_mul_right _ (Nat.mul_le_mul_right _ h1)

theorem fltMag_form (p : Nat) : ∃ m j, m < 2 ^ 53 ∧ fltMag p = m * 2 ^ j := by
  unfold fltMag
  by_cases h : p < 2 ^ 23
  · rw [if_pos h]; exact ⟨p, 0, by omega, by rw [pow_zero, Nat.mul_one]⟩
  · rw [if_neg h]; exact ⟨_, _, by omega, rfl⟩

theorem fltMag_le_keep {n p : Nat} (h : fltMag p ≤ n * 2 ^ 149) : fltMag p ≤ keepBits 53 n * 2 ^ 149 := by
  obtain ⟨m, j, hm, e⟩ := fltMag_form p
  rw [e] at h ⊢
  exact keepBits_greatest hm h

theorem keepBits_le (n : Nat) : keepBits 53 n ≤ n := Nat.div_mul_le_self _ _

theorem fltLimit_eq' : fltLimit = (2 ^ 128 - 2 ^ 103) * 2 ^ 149 := by unfold fltLimit; decide

theorem keepBits_limit {n : Nat} : fltLimit ≤ keepBits 53 n * 2 ^ 149 ↔ fltLimit ≤ n * 2 ^ 149 := by
  constructor
  · exact fun h => le_trans h (Nat.mul_le_mul_right _ (keepBits_le n))
  · intro h
    have : fltLimit = (2 ^ 25 - 1) * 2 ^ 252 := rfl
    rw [this] at h ⊢
    exact keepBits_greatest (by decide) h

/-- The conversion rounds the truncated value. -/
theorem toFloat_spec {a : BigInt} {x : Int} (ha : a.Denotes x) (hl : a.bits.length < 2147483648) :
    ∃ f, a.toFloat = .ok f ∧
      (x.natAbs < 2 ^ 128 - 2 ^ 103 → NearestFloat 149 ((if x < 0 then -1 else 1) * (keepBits 53 x.natAbs : Nat) * 2 ^ 149) f) ∧
      (2 ^ 128 - 2 ^ 103 ≤ x.natAbs → f = fltInfinity (decide (x < 0))) := by
  obtain ⟨d, e, hd, hinf, hfin⟩ := BigInt.toDouble_spec ha hl
  refine ⟨doubleToFloat d, by unfold BigInt.toFloat; rw [e]; rfl, ?_⟩
  have hT : 0 < 2 ^ 149 := Nat.two_pow_pos _
  have hlim : fltLimit ≤ x.natAbs * 2 ^ 149 ↔ 2 ^ 128 - 2 ^ 103 ≤ x.natAbs := by
    rw [fltLimit_eq']; exact ⟨fun h => Nat.le_of_mul_le_mul_right h hT, fun h => Nat.mul_le_mul_right _ h⟩
  by_cases hx : x.natAbs < 2 ^ 1024
  · obtain ⟨f1, f2⟩ := hfin hx
    obtain ⟨k1, k2⟩ := doubleToFloat_spec d hd f1
    have e2 : dblScaled d = (if x < 0 then -1 else 1) * (keepBits 53 x.natAbs : Nat) * 2 ^ 149 * 2 ^ 925 := by
      rw [f2, ← pow_1074, Nat.cast_mul, Nat.cast_pow, Nat.cast_ofNat, mul_assoc]
    have e3 : (dblScaled d).natAbs = keepBits 53 x.natAbs * 2 ^ 149 * 2 ^ 925 := by
      rw [f2, Int.natAbs_mul, Int.natAbs_natCast, Nat.mul_assoc, ← pow_add]
      split_ifs <;> exact Nat.one_mul _
    rw [e3] at k1 k2
    have hC : 0 < 2 ^ 925 := Nat.two_pow_pos _
    have hiff : fltLimit * 2 ^ 925 ≤ keepBits 53 x.natAbs * 2 ^ 149 * 2 ^ 925 ↔ 2 ^ 128 - 2 ^ 103 ≤ x.natAbs := by
      rw [← hlim, ← keepBits_limit]
      exact ⟨fun h => Nat.le_of_mul_le_mul_right h hC, fun h => Nat.mul_le_mul_right _ h⟩
    constructor
    · intro h
      have := k1 (lt_of_not_ge fun hc => absurd (hiff.1 hc) (not_le.2 h))
      rw [e2] at this
      exact nearest_unscale this
    · intro h
      rw [k2 (hiff.2 h)]
      congr 1
      rw [decide_eq_decide]
      have hK : 0 < keepBits 53 x.natAbs := by
        rcases Nat.eq_zero_or_pos (keepBits 53 x.natAbs) with h0 | h0
        · have := keepBits_limit.2 (hlim.2 h)
          rw [h0, Nat.zero_mul] at this
          exact absurd this (by unfold fltLimit; decide)
        · exact h0
      have hpos : (0 : Int) < ((keepBits 53 x.natAbs * 2 ^ 1074 : Nat) : Int) := Int.natCast_pos.2 (Nat.mul_pos hK (Nat.two_pow_pos _))
      have hsg : dblScaled d < 0 ↔ 2 ^ 63 ≤ d := by
        unfold dblScaled at f2 ⊢
        unfold dblSign
        generalize ((if dblExp d = 0 then dblFrac d else (2 ^ 52 + dblFrac d) * 2 ^ (dblExp d - 1) : Nat)) = w at *
        have hw : w ≠ 0 := by
          rintro rfl
          rw [Nat.cast_zero, mul_zero] at f2
          generalize ((keepBits 53 x.natAbs * 2 ^ 1074 : Nat) : Int) = K at *
          split_ifs at f2 <;> omega
        rcases Nat.lt_or_ge d (2 ^ 63) with h | h
        · rw [if_pos h]; omega
        · rw [if_neg (by omega)]; omega
      rw [← hsg, f2]
      generalize ((keepBits 53 x.natAbs * 2 ^ 1074 : Nat) : Int) = K at *
      split_ifs <;> omega
  · have hd' := hinf (by omega)
    constructor
    · intro h
      exfalso
      exact hx (lt_of_lt_of_le h (le_trans (Nat.sub_le _ _) (Nat.pow_le_pow_right (by decide) (by decide))))
    · intro _
      rw [hd']
      by_cases hneg : x < 0
      · rw [decide_eq_true hneg]; decide
      · rw [decide_eq_false hneg]; decide

end BigIntegerCpp
