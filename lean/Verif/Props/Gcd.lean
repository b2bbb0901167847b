import Verif.Lemmas.GcdCount
import Verif.Lemmas.GcdWrong
import Verif.Props.Samples
/-
C19, C20: greatest common divisor.  The loop of the algorithm is modelled with a bound `fuel` on
its iterations; `.diverge` means that the bound was reached.
-/
namespace BigIntegerCpp
open Samples
variable [Cfg]

/-! ### what holds -/

/-- C19, partial: the full statement has no hypothesis `hE`.  It excludes the pairs on which the
algorithm takes a Lehmer step (see `EuclidStep` in Spec.lean); there it fails, see below.  If the
smaller magnitude has `n` bits, `2 n - 126` iterations are enough. -/
theorem C19_gcd_partial (a b : BigInt) (x y : Int) (ha : a.Denotes x) (hb : b.Denotes y) (fa : a.Fits) (fb : b.Fits)
    (hE : EuclidOnly (max x.natAbs y.natAbs) (min x.natAbs y.natAbs)) (n : Nat) (hn : min x.natAbs y.natAbs < 2 ^ n)
    (fuel : Nat) (hf : 2 * n - 126 ≤ fuel) : Returns (BigInt.gcd fuel a b) (Int.gcd x y) :=
  gcd_spec ha hb (Nat.lt_succ_of_lt fa) (Nat.lt_succ_of_lt fb) hE fun h64 => by
    have h1 := euclidCount_le (max x.natAbs y.natAbs) hn
    have h2 := (Nat.pow_lt_pow_iff_right (by decide)).1 (lt_of_le_of_lt h64 hn)
    omega

/-- One operand below `2^64` (the other of any size): exact, zero included, and the loop is never entered. -/
theorem C19_below_64_bits (a b : BigInt) (x y : Int) (ha : a.Denotes x) (hb : b.Denotes y) (fa : a.Fits) (fb : b.Fits)
    (h : |x| < 2 ^ 64 ∨ |y| < 2 ^ 64) (fuel : Nat) : Returns (BigInt.gcd fuel a b) (Int.gcd x y) := by
  have h' : min x.natAbs y.natAbs < 2 ^ 64 := by
    rw [Int.abs_eq_natAbs, Int.abs_eq_natAbs] at h
    omega
  exact gcd_spec ha hb (Nat.lt_succ_of_lt fa) (Nat.lt_succ_of_lt fb) (.small _ _ h') fun hc => absurd h' (by omega)

/-- Both zero: zero. -/
theorem C19_zero (fuel : Nat) : Returns (BigInt.gcd fuel ⟨0, []⟩ ⟨0, []⟩) 0 :=
  C19_below_64_bits _ _ 0 0 (BigInt.denotes_small (by decide) (by decide)) (BigInt.denotes_small (by decide) (by decide))
    (by decide) (by decide) (.inl (by decide)) fuel

/-- One operand a divisor of the other, whatever their sizes: two iterations. -/
theorem C19_divisor (a b : BigInt) (x y : Int) (ha : a.Denotes x) (hb : b.Denotes y) (fa : a.Fits) (fb : b.Fits)
    (h0 : x ≠ 0) (h : y ∣ x) (fuel : Nat) (hf : 2 ≤ fuel) : Returns (BigInt.gcd fuel a b) y.natAbs := by
  have hd : y.natAbs ∣ x.natAbs := Int.natAbs_dvd_natAbs.2 h
  have hle : y.natAbs ≤ x.natAbs := Nat.le_of_dvd (by omega) hd
  have := gcd_spec ha hb (Nat.lt_succ_of_lt fa) (Nat.lt_succ_of_lt fb) (by
    rw [Nat.max_eq_left hle, Nat.min_eq_right hle]
    exact euclidOnly_of_dvd (by omega) hd) (fuel := fuel) (by
    rw [Nat.max_eq_left hle, Nat.min_eq_right hle]
    intro h64
    rw [euclidCount, if_neg (by omega), Nat.mod_eq_zero_of_dvd hd, euclidCount, if_pos (by decide)]
    omega)
  rwa [show (Int.gcd x y : Int) = y.natAbs from congrArg Nat.cast (Nat.gcd_eq_right hd)] at this

/-- Operands whose sizes differ by 32 bits or more, if the remainder is below `2^64`: two
iterations. -/
theorem C19_one_step (a b : BigInt) (x y : Int) (ha : a.Denotes x) (hb : b.Denotes y) (fa : a.Fits) (fb : b.Fits)
    (h : 2 ^ 32 * y.natAbs ≤ x.natAbs) (hr : x.natAbs % y.natAbs < 2 ^ 64) (fuel : Nat) (hf : 2 ≤ fuel) :
    Returns (BigInt.gcd fuel a b) (Int.gcd x y) := by
  refine gcd_spec ha hb (Nat.lt_succ_of_lt fa) (Nat.lt_succ_of_lt fb) ?_ ?_ <;>
    rw [Nat.max_eq_left (by omega), Nat.min_eq_right (by omega)]
  · by_cases hy : y.natAbs < 2 ^ 64
    · exact .small _ _ hy
    · exact .step _ _ (by omega) (euclidStep_of_far h) (.small _ _ hr)
  · intro h64
    rw [euclidCount, if_neg (by omega), euclidCount, if_pos hr]
    omega

/-- C20, partial: termination and no assertion failure, on the same pairs, within a number of
iterations that is at most twice the number `n` of bits of the smaller magnitude, less 126. -/
theorem C20_terminates_partial (a b : BigInt) (x y : Int) (ha : a.Denotes x) (hb : b.Denotes y) (fa : a.Fits) (fb : b.Fits)
    (hE : EuclidOnly (max x.natAbs y.natAbs) (min x.natAbs y.natAbs)) (n : Nat) (hn : min x.natAbs y.natAbs < 2 ^ n) :
    ∃ r, ∀ fuel, 2 * n - 126 ≤ fuel → BigInt.gcd fuel a b = .ok r := by
  obtain ⟨r, h1, h2⟩ := C19_gcd_partial a b x y ha hb fa fb hE n hn (2 * n - 126) (le_refl _)
  refine ⟨r, fun fuel hf => ?_⟩
  obtain ⟨r', h1', h2'⟩ := C19_gcd_partial a b x y ha hb fa fb hE n hn fuel hf
  rw [h1', h2'.unique h2]

/-- The exact number of iterations, on the same pairs: as many as Euclid's algorithm takes steps to
bring the smaller number below `2^64`, and one more to find that out; with fewer there is no answer. -/
theorem C20_iterations (a b : BigInt) (x y : Int) (ha : a.Denotes x) (hb : b.Denotes y) (fa : a.Fits) (fb : b.Fits)
    (h64 : 2 ^ 64 ≤ min x.natAbs y.natAbs)
    (hE : EuclidOnly (max x.natAbs y.natAbs) (min x.natAbs y.natAbs)) (fuel : Nat) :
    (fuel ≤ euclidCount (max x.natAbs y.natAbs) (min x.natAbs y.natAbs) → BigInt.gcd fuel a b = .diverge) ∧
    (euclidCount (max x.natAbs y.natAbs) (min x.natAbs y.natAbs) < fuel → Returns (BigInt.gcd fuel a b) (Int.gcd x y)) :=
  ⟨gcd_short ha hb (Nat.lt_succ_of_lt fa) (Nat.lt_succ_of_lt fb) h64 hE,
    fun h => gcd_spec ha hb (Nat.lt_succ_of_lt fa) (Nat.lt_succ_of_lt fb) hE fun _ => h⟩

/-- That number is logarithmic. -/
theorem C20_iterations_bound (x y n : Nat) (h : y < 2 ^ n) : euclidCount x y ≤ 2 * n - 127 := euclidCount_le x h

example (fuel : Nat) : Returns (BigInt.gcd fuel neg3 pos2) (Int.gcd (-18446744103774322693) 38654705667) :=
  C19_below_64_bits _ _ _ _ neg3_denotes pos2_denotes neg3_fits pos2_fits (.inr (by decide)) _
example : Returns (BigInt.gcd 2 neg3 neg3) 18446744103774322693 :=
  C19_divisor _ _ _ _ neg3_denotes neg3_denotes neg3_fits neg3_fits (by decide) (dvd_refl _) _ (by decide)

/-- `2^160 + 1` and `2^100`. -/
example : Returns (BigInt.gcd 2 ⟨1, [1, 0, 0, 0, 0, 1]⟩ ⟨-1, [0, 0, 0, 16]⟩) (Int.gcd (2 ^ 160 + 1) (-2 ^ 100)) :=
  C19_one_step _ _ _ _ (BigInt.denotes_big (.inl rfl) (by decide) (by decide) (by decide) (by decide) (by decide))
    (BigInt.denotes_big (.inr rfl) (by decide) (by decide) (by decide) (by decide) (by decide)) (by decide) (by decide)
    (by decide) (by decide) _ (by decide)

/-! ### what does not -/

/-- Two values of the same number of words, at least three, on whose leading bits the algorithm
takes a Lehmer step: it never returns. -/
theorem C20_never_returns (a b : BigInt) (x y : Int) (ha : a.Denotes x) (hb : b.Denotes y) (fa : a.Fits) (fb : b.Fits)
    (h64 : 2 ^ 64 ≤ min x.natAbs y.natAbs) (hlen : a.bits.length = b.bits.length)
    (hE : ¬ EuclidStep (max x.natAbs y.natAbs) (min x.natAbs y.natAbs)) (fuel : Nat) (r : BigInt) :
    BigInt.gcd fuel a b ≠ .ok r :=
  gcd_never ha hb (Nat.lt_succ_of_lt fa) (Nat.lt_succ_of_lt fb) h64 hlen hE fuel r

/-- The same when such a pair is reached after any number of Euclidean steps. -/
theorem C20_never_returns_after (a b : BigInt) (x y : Int) (ha : a.Denotes x) (hb : b.Denotes y) (fa : a.Fits) (fb : b.Fits)
    (hS : LehmerSame (max x.natAbs y.natAbs) (min x.natAbs y.natAbs)) (fuel : Nat) (r : BigInt) :
    BigInt.gcd fuel a b ≠ .ok r :=
  gcd_never_after ha hb (Nat.lt_succ_of_lt fa) (Nat.lt_succ_of_lt fb) hS fuel r

/-- Every pair of numbers is of exactly one of three kinds: those on which the answer is right
(`C19_gcd_partial`), those on which there is none (`C20_never_returns_after`), and those whose first
Lehmer step finds operands of different numbers of words, on which the answer may be wrong
(`C19_wrong`). -/
theorem C20_three_kinds (x y : Nat) :
    (EuclidOnly x y ∧ ¬ LehmerSame x y ∧ ¬ LehmerDifferent x y) ∨ (¬ EuclidOnly x y ∧ LehmerSame x y ∧ ¬ LehmerDifferent x y) ∨
      (¬ EuclidOnly x y ∧ ¬ LehmerSame x y ∧ LehmerDifferent x y) := by
  rcases gcd_cases y x with h | h | h
  · exact .inl ⟨h, fun h' => h'.not_only h, fun h' => h'.not_only h⟩
  · exact .inr (.inl ⟨h.not_only, h, h.excl fun _ _ h1 h2 => h2 h1⟩)
  · exact .inr (.inr ⟨h.not_only, h.excl fun _ _ h1 h2 => h1 h2, h⟩)

/-- What a caller may conclude from the fact that the call returned at all. -/
theorem C20_if_it_returns (a b : BigInt) (x y : Int) (ha : a.Denotes x) (hb : b.Denotes y) (fa : a.Fits) (fb : b.Fits)
    (fuel : Nat) (r : BigInt) (h : BigInt.gcd fuel a b = .ok r)
    (hw : ¬ LehmerDifferent (max x.natAbs y.natAbs) (min x.natAbs y.natAbs)) : r.Denotes (Int.gcd x y) := by
  rcases gcd_cases (min x.natAbs y.natAbs) (max x.natAbs y.natAbs) with hE | hS | hD
  · obtain ⟨r', e, k⟩ := C19_gcd_partial a b x y ha hb fa fb hE _ Nat.lt_two_pow_self
      (max fuel (2 * min x.natAbs y.natAbs)) (by omega)
    have hm := (gcd_mono_le (show fuel ≤ max fuel (2 * min x.natAbs y.natAbs) by omega) a b).resolve_left (by rw [h]; exact nofun)
    rw [h, e] at hm
    exact Res.ok.inj hm ▸ k
  · exact absurd h (C20_never_returns_after a b x y ha hb fa fb hS fuel r)
  · exact absurd hD hw

/-- `gcd(5 * 2^(32j), 3 * 2^(32j))` loops for ever, for every `j >= 2`, in every build. -/
theorem C20_diverges (a b : BigInt) (x y : Int) (j : Nat) (ha : a.Denotes x) (hb : b.Denotes y) (fa : a.Fits) (fb : b.Fits)
    (hj : 2 ≤ j) (hx : |x| = 5 * 2 ^ (32 * j)) (hy : |y| = 3 * 2 ^ (32 * j)) (fuel : Nat) : BigInt.gcd fuel a b = .diverge :=
  gcd_diverges hj ha hb (Nat.lt_succ_of_lt fa) (Nat.lt_succ_of_lt fb) (by zify; exact hx) (by zify; exact hy) fuel

/-- `gcd(3 * 2^(32j), 2 * 2^(32j))` stops at an assertion in a debug build … -/
theorem C20_aborts (a b : BigInt) (x y : Int) (j : Nat) (ha : a.Denotes x) (hb : b.Denotes y) (fa : a.Fits) (fb : b.Fits)
    (hj : 2 ≤ j) (hx : |x| = 3 * 2 ^ (32 * j)) (hy : |y| = 2 * 2 ^ (32 * j)) (hd : Cfg.ndebug = false)
    (fuel : Nat) (hf : 2 ≤ fuel) : BigInt.gcd fuel a b = .abort := by
  obtain ⟨k, rfl⟩ := Nat.exists_eq_add_of_le' hf
  exact gcd_aborts hj ha hb (Nat.lt_succ_of_lt fa) (Nat.lt_succ_of_lt fb) (by zify; exact hx) (by zify; exact hy) hd k

/-- … and loops for ever in a release build. -/
theorem C20_cycles (a b : BigInt) (x y : Int) (j : Nat) (ha : a.Denotes x) (hb : b.Denotes y) (fa : a.Fits) (fb : b.Fits)
    (hj : 2 ≤ j) (hx : |x| = 3 * 2 ^ (32 * j)) (hy : |y| = 2 * 2 ^ (32 * j)) (hd : Cfg.ndebug = true) (fuel : Nat) :
    BigInt.gcd fuel a b = .diverge :=
  gcd_cycles hj ha hb (Nat.lt_succ_of_lt fa) (Nat.lt_succ_of_lt fb) (by zify; exact hx) (by zify; exact hy) hd fuel

section
theorem five_denotes : BigInt.Denotes ⟨1, [0, 0, 5]⟩ (5 * 2 ^ 64) :=
  BigInt.denotes_big (.inl rfl) (by decide) (by decide) (by decide) (by decide) (by decide)
theorem minus_three_denotes : BigInt.Denotes ⟨-1, [0, 0, 3]⟩ (-(3 * 2 ^ 64)) :=
  BigInt.denotes_big (.inr rfl) (by decide) (by decide) (by decide) (by decide) (by decide)
theorem two_denotes : BigInt.Denotes ⟨1, [0, 0, 2]⟩ (2 * 2 ^ 64) :=
  BigInt.denotes_big (.inl rfl) (by decide) (by decide) (by decide) (by decide) (by decide)
example (fuel : Nat) : BigInt.gcd fuel ⟨1, [0, 0, 5]⟩ ⟨-1, [0, 0, 3]⟩ = .diverge :=
  C20_diverges _ _ _ _ 2 five_denotes minus_three_denotes (by decide) (by decide) (by decide) (by decide) (by decide) fuel
example (hd : Cfg.ndebug = false) (fuel : Nat) : BigInt.gcd (fuel + 2) ⟨-1, [0, 0, 3]⟩ ⟨1, [0, 0, 2]⟩ = .abort :=
  C20_aborts _ _ _ _ 2 minus_three_denotes two_denotes (by decide) (by decide) (by decide) (by decide) (by decide) hd _ (by omega)
example (hd : Cfg.ndebug = true) (fuel : Nat) : BigInt.gcd fuel ⟨-1, [0, 0, 3]⟩ ⟨1, [0, 0, 2]⟩ = .diverge :=
  C20_cycles _ _ _ _ 2 minus_three_denotes two_denotes (by decide) (by decide) (by decide) (by decide) (by decide) hd _
/-- `7 * 2^64 + 1` and `5 * 2^64 + 3`. -/
example (fuel : Nat) (r : BigInt) : BigInt.gcd fuel ⟨1, [1, 0, 7]⟩ ⟨1, [3, 0, 5]⟩ ≠ .ok r :=
  C20_never_returns ⟨1, [1, 0, 7]⟩ ⟨1, [3, 0, 5]⟩ (7 * 2 ^ 64 + 1) (5 * 2 ^ 64 + 3)
    (BigInt.denotes_big (.inl rfl) (by decide) (by decide) (by decide) (by decide) (by decide))
    (BigInt.denotes_big (.inl rfl) (by decide) (by decide) (by decide) (by decide) (by decide)) (by decide) (by decide)
    (by decide) rfl (by unfold EuclidStep; decide +kernel) fuel r
/-- One Euclidean step first: `x = 2^64 * y + (5 * 2^64 + 3)` for `y = 7 * 2^64 + 1`. -/
example (fuel : Nat) (r : BigInt) : BigInt.gcd fuel ⟨-1, [3, 0, 6, 0, 7]⟩ ⟨1, [1, 0, 7]⟩ ≠ .ok r :=
  C20_never_returns_after ⟨-1, [3, 0, 6, 0, 7]⟩ ⟨1, [1, 0, 7]⟩ (-(7 * 2 ^ 128 + 6 * 2 ^ 64 + 3)) (7 * 2 ^ 64 + 1)
    (BigInt.denotes_big (.inr rfl) (by decide) (by decide) (by decide) (by decide) (by decide))
    (BigInt.denotes_big (.inl rfl) (by decide) (by decide) (by decide) (by decide) (by decide)) (by decide) (by decide)
    (.step _ _ (by decide) (by unfold EuclidStep; decide +kernel)
      (.here _ _ (by decide +kernel) (by unfold EuclidStep; decide +kernel) (by unfold wordCount; decide +kernel))) fuel r
/-- `C19_wrong`'s pair is of the third kind. -/
example : LehmerDifferent (2 ^ 96) (3 * 2 ^ 94) :=
  .here _ _ (by decide) (by unfold EuclidStep; decide +kernel) (by unfold wordCount; decide +kernel)
end

/-- C20 as stated is false. -/
theorem C20_refuted : ¬ ∀ a b : BigInt, a.Valid → b.Valid → a.Fits → b.Fits → ∃ fuel r, BigInt.gcd fuel a b = .ok r := by
  intro h
  have d1 : BigInt.Denotes ⟨1, [0, 0, 5]⟩ (5 * 2 ^ 64) :=
    BigInt.denotes_big (.inl rfl) (by decide) (by decide) (by decide) (by decide) (by decide)
  have d2 : BigInt.Denotes ⟨1, [0, 0, 3]⟩ (3 * 2 ^ 64) :=
    BigInt.denotes_big (.inl rfl) (by decide) (by decide) (by decide) (by decide) (by decide)
  obtain ⟨fuel, r, e⟩ := h ⟨1, [0, 0, 5]⟩ ⟨1, [0, 0, 3]⟩ d1.1 d2.1 (by decide) (by decide)
  rw [C20_diverges _ _ _ _ 2 d1 d2 (by decide) (by decide) (by decide) (by decide) (by decide)] at e
  cases e

/-- The bound on the iterations never changes an answer: an outcome other than "bound reached" is
the outcome for every larger bound. -/
theorem C20_bound_irrelevant (a b : BigInt) (n : Nat) (h : BigInt.gcd n a b ≠ .diverge) (fuel : Nat) (hf : n ≤ fuel) :
    BigInt.gcd fuel a b = BigInt.gcd n a b :=
  ((gcd_mono_le hf a b).resolve_left h).symm

/-- Where the algorithm does return the answer may be wrong: `gcd(2^96, 3 * 2^94)` is `2^94`, the
code answers 3. -/
theorem C19_wrong (fuel : Nat) (hf : 2 ≤ fuel) :
    BigInt.gcd fuel ⟨1, [0, 0, 0, 1]⟩ ⟨1, [0, 0, 3221225472]⟩ = .ok ⟨3, []⟩ := by
  have h : BigInt.gcd 2 ⟨1, [0, 0, 0, 1]⟩ ⟨1, [0, 0, 3221225472]⟩ = .ok ⟨3, []⟩ := by
    rename_i c
    obtain ⟨d, s⟩ := c
    cases d <;> cases s <;> decide +kernel
  rw [C20_bound_irrelevant _ _ 2 (by rw [h]; exact nofun) fuel hf, h]

/-- The same at every size: for `x = ±(2^(32k) + r)` and `y = ±(3·2^(32k-2) + s)` with small `r`, `s`, in either
order, the answer does not depend on the 32 lowest bits of `r`: they are replaced by the number `k`. -/
theorem C19_low_word_replaced (a b : BigInt) (x y : Int) (ha : a.Denotes x) (hb : b.Denotes y) (fa : a.Fits) (fb : b.Fits)
    (k r s : Nat) (hk : 3 ≤ k) (hr : r < 2 ^ 64) (hr' : r < 2 ^ (32 * k - 62)) (hs : s < 2 ^ (32 * k - 62))
    (h : |x| = 2 ^ (32 * k) + r ∧ |y| = 3 * 2 ^ (32 * k - 2) + s ∨ |y| = 2 ^ (32 * k) + r ∧ |x| = 3 * 2 ^ (32 * k - 2) + s)
    (fuel : Nat) (hf : 2 ≤ fuel) :
    Returns (BigInt.gcd fuel a b) (Nat.gcd (r / 2 ^ 32 * 2 ^ 32 + k) (3 * 2 ^ (32 * k - 2) + s)) := by
  refine gcd_cut ha hb fa fb hk hr hr' hs ?_ fuel hf
  rw [Int.abs_eq_natAbs, Int.abs_eq_natAbs] at h
  exact_mod_cast h

/-- So at every size from four words on there are operands with a wrong answer: of `2^(32k)` and `3·2^(32k-2)`
the greatest common divisor is `2^(32k-2)`; the code returns a number that is at most `k`, and no bound on the
iterations makes it return anything else. -/
theorem C19_wrong_every_size (a b : BigInt) (k : Nat) (hk : 3 ≤ k) (ha : a.Denotes (2 ^ (32 * k)))
    (hb : b.Denotes (3 * 2 ^ (32 * k - 2))) (fa : a.Fits) (fb : b.Fits) :
    Int.gcd (2 ^ (32 * k)) (3 * 2 ^ (32 * k - 2)) = 2 ^ (32 * k - 2) ∧
    (∃ g : Nat, g ≤ k ∧ g < 2 ^ (32 * k - 2) ∧ ∀ fuel, 2 ≤ fuel → Returns (BigInt.gcd fuel a b) g) ∧
    ∀ fuel r, BigInt.gcd fuel a b = .ok r → ¬ r.Denotes (Int.gcd (2 ^ (32 * k)) (3 * 2 ^ (32 * k - 2))) := by
  have hg : Int.gcd (2 ^ (32 * k)) (3 * 2 ^ (32 * k - 2)) = 2 ^ (32 * k - 2) := by
    have e : (2 : Int) ^ (32 * k) = 4 * 2 ^ (32 * k - 2) := by
      rw [show (4 : Int) = 2 ^ 2 by norm_num, ← pow_add]; congr 1; omega
    rw [e, Int.gcd_mul_right, show Int.gcd 4 3 = 1 by decide, one_mul, Int.natAbs_pow]; rfl
  have hlt : Nat.gcd k (3 * 2 ^ (32 * k - 2)) ≤ k := Nat.gcd_le_left _ (by omega)
  have hk2 : k < 2 ^ (32 * k - 2) := lt_trans Nat.lt_two_pow_self (Nat.pow_lt_pow_right (by decide) (by omega))
  have key : ∀ fuel, 2 ≤ fuel → Returns (BigInt.gcd fuel a b) (Nat.gcd k (3 * 2 ^ (32 * k - 2)) : Nat) := by
    intro fuel hf
    have := C19_low_word_replaced a b _ _ ha hb fa fb k 0 0 hk (by decide) (Nat.two_pow_pos _) (Nat.two_pow_pos _)
      (.inl ⟨by rw [Int.abs_eq_natAbs, Int.natAbs_pow]; rfl, by rw [Int.abs_eq_natAbs, Int.natAbs_mul, Int.natAbs_pow]; simp⟩) fuel hf
    simpa using this
  refine ⟨hg, ⟨_, hlt, by omega, key⟩, ?_⟩
  intro fuel r e hr
  obtain ⟨r', e', hr'⟩ := key (fuel + 2) (by omega)
  rw [C20_bound_irrelevant _ _ fuel (by rw [e]; exact nofun) (fuel + 2) (by omega), e] at e'
  cases e'
  have := hr.2.symm.trans hr'.2
  rw [hg] at this
  have : 2 ^ (32 * k - 2) = Nat.gcd k (3 * 2 ^ (32 * k - 2)) := by exact_mod_cast this
  omega

/-- Five words and four words: the answer is 4. -/
example (fuel : Nat) (hf : 2 ≤ fuel) :
    Returns (BigInt.gcd fuel ⟨-1, [77, 0, 0, 0, 1]⟩ ⟨1, [0, 0, 0, 3221225472]⟩) 4 := by
  have := C19_low_word_replaced ⟨-1, [77, 0, 0, 0, 1]⟩ ⟨1, [0, 0, 0, 3221225472]⟩ (-(2 ^ 128 + 77)) (3 * 2 ^ 126)
    (BigInt.denotes_big (.inr rfl) (by decide) (by decide) (by decide) (by decide) (by decide))
    (BigInt.denotes_big (.inl rfl) (by decide) (by decide) (by decide) (by decide) (by decide)) (by decide) (by decide)
    4 77 0 (by decide) (by decide) (by decide) (by decide) (.inl (by decide)) fuel hf
  exact this
example : ¬ ∃ fuel, Returns (BigInt.gcd fuel ⟨1, [0, 0, 0, 0, 1]⟩ ⟨1, [0, 0, 0, 3221225472]⟩) (2 ^ 126) := by
  rintro ⟨fuel, r, e, h⟩
  refine (C19_wrong_every_size ⟨1, [0, 0, 0, 0, 1]⟩ ⟨1, [0, 0, 0, 3221225472]⟩ 4 (by decide)
    (BigInt.denotes_big (.inl rfl) (by decide) (by decide) (by decide) (by decide) (by decide))
    (BigInt.denotes_big (.inl rfl) (by decide) (by decide) (by decide) (by decide) (by decide)) (by decide) (by decide)).2.2 fuel r e ?_
  exact h

/-- C19 as stated is false. -/
theorem C19_refuted : ¬ ∀ (a b : BigInt) (x y : Int), a.Denotes x → b.Denotes y → a.Fits → b.Fits →
    ∀ fuel r, BigInt.gcd fuel a b = .ok r → r.Denotes (Int.gcd x y) := by
  intro h
  have d1 : BigInt.Denotes ⟨1, [0, 0, 0, 1]⟩ (2 ^ 96) :=
    BigInt.denotes_big (.inl rfl) (by decide) (by decide) (by decide) (by decide) (by decide)
  have d2 : BigInt.Denotes ⟨1, [0, 0, 3221225472]⟩ (3 * 2 ^ 94) :=
    BigInt.denotes_big (.inl rfl) (by decide) (by decide) (by decide) (by decide) (by decide)
  have := h _ _ _ _ d1 d2 (by decide) (by decide) 2 _ (C19_wrong 2 (le_refl _))
  exact absurd this.2 (by decide +kernel)

/-! ### instances of the remaining theorems -/

/-- `2^160 + 2^64` and `2^100`: the smaller number has 101 bits, and two steps of Euclid's algorithm
bring it to zero. -/
theorem two_steps : EuclidOnly (2 ^ 160 + 2 ^ 64) (2 ^ 100) :=
  .step _ _ (by decide) (by unfold EuclidStep; decide +kernel) (.step _ _ (by decide) (by unfold EuclidStep; decide +kernel)
    (.small _ _ (by decide)))
theorem two_steps_left : BigInt.Denotes ⟨1, [0, 0, 1, 0, 0, 1]⟩ (2 ^ 160 + 2 ^ 64) :=
  BigInt.denotes_big (.inl rfl) (by decide) (by decide) (by decide) (by decide) (by decide)
theorem two_steps_right : BigInt.Denotes ⟨-1, [0, 0, 0, 16]⟩ (-2 ^ 100) :=
  BigInt.denotes_big (.inr rfl) (by decide) (by decide) (by decide) (by decide) (by decide)
example : Returns (BigInt.gcd 76 ⟨1, [0, 0, 1, 0, 0, 1]⟩ ⟨-1, [0, 0, 0, 16]⟩) (2 ^ 64) :=
  C19_gcd_partial _ _ _ _ two_steps_left two_steps_right (by decide) (by decide) two_steps 101 (by decide) 76 (by decide)
example : ∃ r, ∀ fuel, 76 ≤ fuel → BigInt.gcd fuel ⟨1, [0, 0, 1, 0, 0, 1]⟩ ⟨-1, [0, 0, 0, 16]⟩ = .ok r :=
  C20_terminates_partial _ _ _ _ two_steps_left two_steps_right (by decide) (by decide) two_steps 101 (by decide)
/-- Three iterations, and not two. -/
example : BigInt.gcd 2 ⟨1, [0, 0, 1, 0, 0, 1]⟩ ⟨-1, [0, 0, 0, 16]⟩ = .diverge ∧
    Returns (BigInt.gcd 3 ⟨1, [0, 0, 1, 0, 0, 1]⟩ ⟨-1, [0, 0, 0, 16]⟩) (2 ^ 64) := by
  have hc : euclidCount (2 ^ 160 + 2 ^ 64) (2 ^ 100) = 2 := by decide +kernel
  have k := C20_iterations _ _ _ _ two_steps_left two_steps_right (by decide) (by decide) (by decide) two_steps
  exact ⟨(k 2).1 (le_of_eq hc.symm), (k 3).2 (lt_of_eq_of_lt hc (by decide))⟩
example : euclidCount (2 ^ 160 + 2 ^ 64) (2 ^ 100) ≤ 75 := C20_iterations_bound _ _ 101 (by decide)

end BigIntegerCpp
