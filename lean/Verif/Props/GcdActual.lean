import Verif.Lemmas.GcdRun
import Verif.Props.Gcd
/-
C78 (and C19, C20): exactly what `greatest_common_divisor` does with every pair of operands.
GcdActualSpec.lean describes it for two numbers from `2^64` on, as a run on natural numbers
(`gcdRun`); below `2^64` the answer is right (`C19_below_64_bits`).
-/
set_option linter.unusedSectionVars false
namespace BigIntegerCpp
open Samples
variable [Cfg]

/-! ### every call is a run of `gcdRun` -/

/-- For every bound on the iterations: no answer yet, the answer, a failed assertion, a read outside an array,
exactly as `gcdRun` says. -/
theorem C78_actual (a b : BigInt) (x y : Int) (ha : a.Denotes x) (hb : b.Denotes y) (fa : a.Fits) (fb : b.Fits)
    (hx : 2 ^ 64 ≤ |x|) (hy : 2 ^ 64 ≤ |y|) (fuel : Nat) :
    RunEnds (BigInt.gcd fuel a b) (gcdRun (!Cfg.ndebug) fuel (max x.natAbs y.natAbs) 0 (min x.natAbs y.natAbs) 0) :=
  (gcd_actual ha hb (Nat.lt_succ_of_lt fa) (Nat.lt_succ_of_lt fb) (by rw [Int.abs_eq_natAbs] at hx; exact_mod_cast hx)
    (by rw [Int.abs_eq_natAbs] at hy; exact_mod_cast hy) fuel).1

section
theorem RunEnds.iff {r : Res BigInt} {o : Option GcdEnd} (h : RunEnds r o) :
    (r = .diverge ↔ o = none) ∧ (r = .abort ↔ o = some .assertion) ∧ (r = .ub .outOfBounds ↔ o = some .outOfBounds) ∧
    ((∃ b, r = .ok b) ↔ ∃ g, o = some (.answer g)) ∧ ∀ g : Nat, Returns r g ↔ o = some (.answer g) := by
  rcases o with _ | ⟨g⟩ | _ | _
  · obtain rfl : r = .diverge := h
    exact ⟨⟨fun _ => rfl, fun _ => rfl⟩, ⟨nofun, nofun⟩, ⟨nofun, nofun⟩, ⟨nofun, nofun⟩, fun g => ⟨nofun, nofun⟩⟩
  · obtain ⟨b, rfl, hb⟩ := h
    refine ⟨⟨nofun, nofun⟩, ⟨nofun, nofun⟩, ⟨nofun, nofun⟩, ⟨fun _ => ⟨g, rfl⟩, fun _ => ⟨b, rfl⟩⟩, fun g' => ⟨?_, ?_⟩⟩
    · rintro ⟨b', e, hb'⟩
      cases e
      have : (g : Int) = g' := hb.2.symm.trans hb'.2
      rw [show g = g' by exact_mod_cast this]
    · intro e; cases e; exact ⟨b, rfl, hb⟩
  · obtain rfl : r = .abort := h
    exact ⟨⟨nofun, nofun⟩, ⟨fun _ => rfl, fun _ => rfl⟩, ⟨nofun, nofun⟩, ⟨nofun, nofun⟩, fun g => ⟨nofun, nofun⟩⟩
  · obtain rfl : r = .ub .outOfBounds := h
    exact ⟨⟨nofun, nofun⟩, ⟨nofun, nofun⟩, ⟨fun _ => rfl, fun _ => rfl⟩, ⟨nofun, nofun⟩, fun g => ⟨nofun, nofun⟩⟩

theorem RunEnds.unique {r r' : Res BigInt} {o : Option GcdEnd} (h : RunEnds r o) (h' : RunEnds r' o) : r = r' := by
  rcases o with _ | ⟨g⟩ | _ | _
  · exact h.trans h'.symm
  · obtain ⟨b, rfl, hb⟩ := h
    obtain ⟨b', rfl, hb'⟩ := h'
    rw [hb.unique hb']
  · exact h.trans h'.symm
  · exact h.trans h'.symm
end

/-- C19 made exact: the answer is the greatest common divisor if and only if the run says so. -/
theorem C19_exact_iff (a b : BigInt) (x y : Int) (ha : a.Denotes x) (hb : b.Denotes y) (fa : a.Fits) (fb : b.Fits)
    (hx : 2 ^ 64 ≤ |x|) (hy : 2 ^ 64 ≤ |y|) (fuel : Nat) :
    Returns (BigInt.gcd fuel a b) (Int.gcd x y) ↔
      gcdRun (!Cfg.ndebug) fuel (max x.natAbs y.natAbs) 0 (min x.natAbs y.natAbs) 0 = some (.answer (Int.gcd x y)) :=
  (C78_actual a b x y ha hb fa fb hx hy fuel).iff.2.2.2.2 _

/-- The number of words of a magnitude that fits is a number of words. -/
theorem wordCount_fits {a : BigInt} {x : Int} (ha : a.Denotes x) (fa : a.Fits) (hx : 2 ^ 64 ≤ |x|) : wordCount x.natAbs < 2 ^ 32 := by
  rcases ha.shape with ⟨rfl, hx1, hx2⟩ | ⟨s, ws, rfl, hs, hne, hw, ht, hv, rfl⟩
  · rw [Int.abs_eq_natAbs] at hx; omega
  · rw [natAbs_unit_mul hs]
    have h := wlen_trimLen hw
    rw [trimLen_of_top ht] at h
    rw [wordCount_of_wlen h (List.length_pos_iff.2 hne)]
    have : ws.length < 2147483647 := fa
    omega

/-- C20 made exact: a call that has not ended after `2 (log2 |x| + log2 |y|) + 3` iterations runs for ever; the
outcome after that many is the outcome for every larger bound. -/
theorem C20_decided (a b : BigInt) (x y : Int) (ha : a.Denotes x) (hb : b.Denotes y) (fa : a.Fits) (fb : b.Fits)
    (hx : 2 ^ 64 ≤ |x|) (hy : 2 ^ 64 ≤ |y|) (fuel : Nat) (hf : 2 * (Nat.log2 x.natAbs + Nat.log2 y.natAbs) + 3 ≤ fuel) :
    BigInt.gcd fuel a b = BigInt.gcd (2 * (Nat.log2 x.natAbs + Nat.log2 y.natAbs) + 3) a b := by
  have h1 := C78_actual a b x y ha hb fa fb hx hy fuel
  have h2 := C78_actual a b x y ha hb fa fb hx hy (2 * (Nat.log2 x.natAbs + Nat.log2 y.natAbs) + 3)
  have hmax : wordCount (max x.natAbs y.natAbs) < 2 ^ 32 := by
    rcases Nat.le_total x.natAbs y.natAbs with h | h
    · rw [Nat.max_eq_right h]; exact wordCount_fits hb fb hy
    · rw [Nat.max_eq_left h]; exact wordCount_fits ha fa hx
  have hsum : Nat.log2 (max x.natAbs y.natAbs) + Nat.log2 (min x.natAbs y.natAbs) = Nat.log2 x.natAbs + Nat.log2 y.natAbs := by
    rcases Nat.le_total x.natAbs y.natAbs with h | h
    · rw [Nat.max_eq_right h, Nat.min_eq_left h, Nat.add_comm]
    · rw [Nat.max_eq_left h, Nat.min_eq_right h]
  rw [← hsum] at h2 hf ⊢
  have e : gcdRun (!Cfg.ndebug) fuel (max x.natAbs y.natAbs) 0 (min x.natAbs y.natAbs) 0 =
      gcdRun (!Cfg.ndebug) (2 * (Nat.log2 (max x.natAbs y.natAbs) + Nat.log2 (min x.natAbs y.natAbs)) + 3)
        (max x.natAbs y.natAbs) 0 (min x.natAbs y.natAbs) 0 := by
    rcases hr : gcdRun (!Cfg.ndebug) fuel (max x.natAbs y.natAbs) 0 (min x.natAbs y.natAbs) 0 with _ | e
    · rcases hr' : gcdRun (!Cfg.ndebug) (2 * (Nat.log2 (max x.natAbs y.natAbs) + Nat.log2 (min x.natAbs y.natAbs)) + 3)
        (max x.natAbs y.natAbs) 0 (min x.natAbs y.natAbs) 0 with _ | e
      · rfl
      · rw [gcdRun_mono hr' hf] at hr; cases hr
    · exact (gcdRun_within _ (by omega) hmax hr).symm
  rw [← e] at h2
  exact h1.unique h2

/-- So whether the call returns at all is decided by that many iterations. -/
theorem C20_runs_forever_iff (a b : BigInt) (x y : Int) (ha : a.Denotes x) (hb : b.Denotes y) (fa : a.Fits) (fb : b.Fits)
    (hx : 2 ^ 64 ≤ |x|) (hy : 2 ^ 64 ≤ |y|) :
    (∀ fuel, BigInt.gcd fuel a b = .diverge) ↔
      gcdRun (!Cfg.ndebug) (2 * (Nat.log2 x.natAbs + Nat.log2 y.natAbs) + 3) (max x.natAbs y.natAbs) 0 (min x.natAbs y.natAbs) 0 = none := by
  rw [← (C78_actual a b x y ha hb fa fb hx hy _).iff.1]
  refine ⟨fun h => h _, fun h fuel => ?_⟩
  rcases Nat.le_total (2 * (Nat.log2 x.natAbs + Nat.log2 y.natAbs) + 3) fuel with hf | hf
  · rw [C20_decided a b x y ha hb fa fb hx hy fuel hf, h]
  · by_contra hc
    exact hc ((C20_bound_irrelevant a b fuel hc _ hf).symm.trans h)

/-! ### what holds for all operands -/

/-- The order and the signs of the operands do not matter: the outcome (an answer, right or wrong, none, a failure) is
the same, iteration by iteration, and in the same object. -/
theorem C78_symmetric (a b a' b' : BigInt) (x y x' y' : Int) (ha : a.Denotes x) (hb : b.Denotes y) (ha' : a'.Denotes x')
    (hb' : b'.Denotes y') (fa : a.Fits) (fb : b.Fits) (fa' : a'.Fits) (fb' : b'.Fits)
    (h : |x'| = |x| ∧ |y'| = |y| ∨ |x'| = |y| ∧ |y'| = |x|) (fuel : Nat) : BigInt.gcd fuel a' b' = BigInt.gcd fuel a b := by
  by_cases hs : |x| < 2 ^ 64 ∨ |y| < 2 ^ 64
  · obtain ⟨r, e, hr⟩ := C19_below_64_bits a b x y ha hb fa fb hs fuel
    obtain ⟨r', e', hr'⟩ := C19_below_64_bits a' b' x' y' ha' hb' fa' fb' (by omega) fuel
    have hg : Int.gcd x' y' = Int.gcd x y := by
      rcases h with ⟨h1, h2⟩ | ⟨h1, h2⟩
      · unfold Int.gcd
        rw [Int.abs_eq_natAbs, Int.abs_eq_natAbs] at h1 h2
        rw [show x'.natAbs = x.natAbs by exact_mod_cast h1, show y'.natAbs = y.natAbs by exact_mod_cast h2]
      · rw [Int.gcd_comm x y]
        unfold Int.gcd
        rw [Int.abs_eq_natAbs, Int.abs_eq_natAbs] at h1 h2
        rw [show x'.natAbs = y.natAbs by exact_mod_cast h1, show y'.natAbs = x.natAbs by exact_mod_cast h2]
    rw [hg] at hr'
    rw [e, e', hr'.unique hr]
  · push Not at hs
    have k := C78_actual a b x y ha hb fa fb hs.1 hs.2 fuel
    have k' := C78_actual a' b' x' y' ha' hb' fa' fb' (by omega) (by omega) fuel
    have e : max x'.natAbs y'.natAbs = max x.natAbs y.natAbs ∧ min x'.natAbs y'.natAbs = min x.natAbs y.natAbs := by
      simp only [Int.abs_eq_natAbs] at h
      omega
    rw [e.1, e.2] at k'
    exact k'.unique k

/-- `gcd(a, b)` and `gcd(b, a)`. -/
theorem C78_commutative (a b : BigInt) (ha : a.Valid) (hb : b.Valid) (fa : a.Fits) (fb : b.Fits) (fuel : Nat) :
    BigInt.gcd fuel a b = BigInt.gcd fuel b a :=
  C78_symmetric b a a b _ _ _ _ ⟨hb, rfl⟩ ⟨ha, rfl⟩ ⟨ha, rfl⟩ ⟨hb, rfl⟩ fb fa fa fb (.inr ⟨rfl, rfl⟩) fuel

/-- A debug build does nothing undefined: it answers, runs on, or stops at an assertion. -/
theorem C78_debug_defined (a b : BigInt) (ha : a.Valid) (hb : b.Valid) (fa : a.Fits) (fb : b.Fits) (hd : Cfg.ndebug = false)
    (fuel : Nat) (u : UB) : BigInt.gcd fuel a b ≠ .ub u := by
  intro h
  by_cases hs : |a.toInt| < 2 ^ 64 ∨ |b.toInt| < 2 ^ 64
  · obtain ⟨r, e, -⟩ := C19_below_64_bits a b _ _ ⟨ha, rfl⟩ ⟨hb, rfl⟩ fa fb hs fuel
    rw [h] at e; cases e
  · push Not at hs
    have k := C78_actual a b _ _ ⟨ha, rfl⟩ ⟨hb, rfl⟩ fa fb hs.1 hs.2 fuel
    rw [h] at k
    rcases ho : gcdRun (!Cfg.ndebug) fuel (max a.toInt.natAbs b.toInt.natAbs) 0 (min a.toInt.natAbs b.toInt.natAbs) 0 with _ | ⟨g⟩ | _ | _ <;>
      rw [ho] at k
    · cases k
    · obtain ⟨_, e, -⟩ := k; cases e
    · cases k
    · rw [hd] at ho; exact gcdRun_debug ho

/-- In a release build a read outside an array is the only undefined behaviour, and it needs both operands from `2^64` on. -/
theorem C78_release_undefined (a b : BigInt) (ha : a.Valid) (hb : b.Valid) (fa : a.Fits) (fb : b.Fits)
    (fuel : Nat) (u : UB) (h : BigInt.gcd fuel a b = .ub u) :
    u = .outOfBounds ∧ Cfg.ndebug = true ∧ 2 ^ 64 ≤ |a.toInt| ∧ 2 ^ 64 ≤ |b.toInt| := by
  have hd : Cfg.ndebug = true := by
    by_contra hd
    exact C78_debug_defined a b ha hb fa fb (by simpa using hd) fuel u h
  by_cases hs : |a.toInt| < 2 ^ 64 ∨ |b.toInt| < 2 ^ 64
  · obtain ⟨r, e, -⟩ := C19_below_64_bits a b _ _ ⟨ha, rfl⟩ ⟨hb, rfl⟩ fa fb hs fuel
    rw [h] at e; cases e
  · push Not at hs
    have k := C78_actual a b _ _ ⟨ha, rfl⟩ ⟨hb, rfl⟩ fa fb hs.1 hs.2 fuel
    rw [h] at k
    refine ⟨?_, hd, hs.1, hs.2⟩
    rcases ho : gcdRun (!Cfg.ndebug) fuel (max a.toInt.natAbs b.toInt.natAbs) 0 (min a.toInt.natAbs b.toInt.natAbs) 0 with _ | ⟨g⟩ | _ | _ <;>
      rw [ho] at k
    · cases k
    · obtain ⟨_, e, -⟩ := k; cases e
    · cases k
    · exact Res.ub.inj k

/-- An answer is positive and has no more words than the larger operand. -/
theorem C78_answer (a b : BigInt) (x y : Int) (ha : a.Denotes x) (hb : b.Denotes y) (fa : a.Fits) (fb : b.Fits)
    (h0 : x ≠ 0 ∨ y ≠ 0) (fuel : Nat) (z : Int) (h : Returns (BigInt.gcd fuel a b) z) :
    0 < z ∧ z < 2 ^ (32 * wordCount (max x.natAbs y.natAbs)) := by
  by_cases hs : |x| < 2 ^ 64 ∨ |y| < 2 ^ 64
  · obtain ⟨r, e, hr⟩ := C19_below_64_bits a b x y ha hb fa fb hs fuel
    obtain ⟨r', e', hr'⟩ := h
    rw [e] at e'
    cases e'
    have hz : z = Int.gcd x y := hr'.2.symm.trans hr.2
    have hp : 0 < Int.gcd x y := Int.gcd_pos_iff.2 h0
    have hl : Int.gcd x y ≤ max x.natAbs y.natAbs := by
      unfold Int.gcd
      rcases h0 with h0 | h0
      · exact le_trans (Nat.gcd_le_left _ (by omega)) (le_max_left _ _)
      · exact le_trans (Nat.gcd_le_right _ (by omega)) (le_max_right _ _)
    have hw := lt_wordCount (max x.natAbs y.natAbs)
    refine ⟨by omega, ?_⟩
    rw [hz]
    exact_mod_cast lt_of_le_of_lt hl hw
  · push Not at hs
    have hx : 2 ^ 64 ≤ x.natAbs := by have := hs.1; rw [Int.abs_eq_natAbs] at this; exact_mod_cast this
    have hy : 2 ^ 64 ≤ y.natAbs := by have := hs.2; rw [Int.abs_eq_natAbs] at this; exact_mod_cast this
    obtain ⟨k1, k2⟩ := gcd_actual ha hb (Nat.lt_succ_of_lt fa) (Nat.lt_succ_of_lt fb) hx hy fuel
    obtain ⟨r, e, hr⟩ := h
    obtain ⟨g, hg⟩ := k1.iff.2.2.2.1.1 ⟨r, e⟩
    obtain ⟨r', e', hr'⟩ := (k1.iff.2.2.2.2 g).2 hg
    rw [e] at e'
    cases e'
    have hz : z = g := hr.2.symm.trans hr'.2
    have := gcdRun_pos (.inl (by omega)) hg
    refine ⟨by omega, ?_⟩
    rw [hz]
    exact_mod_cast k2 g hg

/-! ### what does not -/

section
theorem w0_denotes : BigInt.Denotes ⟨1, [0, 0, 1, 0, 1]⟩ (2 ^ 128 + 2 ^ 64) :=
  BigInt.denotes_big (.inl rfl) (by decide) (by decide) (by decide) (by decide) (by decide)
theorem w1_denotes : BigInt.Denotes ⟨1, [4294967288, 4294967295, 0, 3221225472]⟩ (3 * 2 ^ 126 + 2 ^ 64 - 8) :=
  BigInt.denotes_big (.inl rfl) (by decide) (by decide) (by decide) (by decide) (by decide)
theorem w2_denotes : BigInt.Denotes ⟨-1, [0, 0, 0, 0, 2]⟩ (-2 ^ 129) :=
  BigInt.denotes_big (.inr rfl) (by decide) (by decide) (by decide) (by decide) (by decide)
theorem w3_denotes : BigInt.Denotes ⟨1, [0, 0, 0, 12582912]⟩ (3 * 2 ^ 118) :=
  BigInt.denotes_big (.inl rfl) (by decide) (by decide) (by decide) (by decide) (by decide)
end

/-- The answer can be larger than both operands allow: of `2^128 + 2^64` and `3·2^126 + 2^64 - 8` the greatest common
divisor is 8; the answer is `2^128 + 2^64 + 4`, larger than either operand, in every build. -/
theorem C78_too_large (fuel : Nat) (hf : 3 ≤ fuel) :
    Returns (BigInt.gcd fuel ⟨1, [0, 0, 1, 0, 1]⟩ ⟨1, [4294967288, 4294967295, 0, 3221225472]⟩) (2 ^ 128 + 2 ^ 64 + 4) := by
  have k := C78_actual _ _ _ _ w0_denotes w1_denotes (by decide) (by decide) (by decide) (by decide) 3
  have e : ∀ d, gcdRun d 3 (max (2 ^ 128 + 2 ^ 64 : Int).natAbs (3 * 2 ^ 126 + 2 ^ 64 - 8 : Int).natAbs) 0
      (min (2 ^ 128 + 2 ^ 64 : Int).natAbs (3 * 2 ^ 126 + 2 ^ 64 - 8 : Int).natAbs) 0 = some (.answer (2 ^ 128 + 2 ^ 64 + 4)) := by
    decide +kernel
  rw [e] at k
  have k : Returns (BigInt.gcd 3 ⟨1, [0, 0, 1, 0, 1]⟩ ⟨1, [4294967288, 4294967295, 0, 3221225472]⟩) (2 ^ 128 + 2 ^ 64 + 4) := k
  rw [C20_bound_irrelevant _ _ 3 (by obtain ⟨r, e, -⟩ := k; rw [e]; exact nofun) fuel hf]
  exact k

/-- `gcd(-2^129, 3·2^118)`: a release build reads the word before the first one of an array, a debug build stops at
an assertion. -/
theorem C78_reads_before_array (fuel : Nat) (hf : 2 ≤ fuel) :
    BigInt.gcd fuel ⟨-1, [0, 0, 0, 0, 2]⟩ ⟨1, [0, 0, 0, 12582912]⟩ = if Cfg.ndebug then .ub .outOfBounds else .abort := by
  have k := C78_actual _ _ _ _ w2_denotes w3_denotes (by decide) (by decide) (by decide) (by decide) 2
  have e : ∀ d, gcdRun d 2 (max (-2 ^ 129 : Int).natAbs (3 * 2 ^ 118 : Int).natAbs) 0
      (min (-2 ^ 129 : Int).natAbs (3 * 2 ^ 118 : Int).natAbs) 0 = some (if d then .assertion else .outOfBounds) := by
    decide +kernel
  rw [e] at k
  have k : BigInt.gcd 2 ⟨-1, [0, 0, 0, 0, 2]⟩ ⟨1, [0, 0, 0, 12582912]⟩ = if Cfg.ndebug then .ub .outOfBounds else .abort := by
    by_cases hd : Cfg.ndebug = true
    · rw [hd] at k ⊢; exact k
    · rw [show Cfg.ndebug = false by simpa using hd] at k ⊢; exact k
  rw [C20_bound_irrelevant _ _ 2 (by rw [k]; split_ifs <;> exact nofun) fuel hf, k]

/-- The claims that fail, together: a release build need not stay inside its arrays, and an answer need not be at most the
smaller operand. -/
theorem C78_refuted :
    (Cfg.ndebug = true → ∃ a b : BigInt, a.Valid ∧ b.Valid ∧ a.Fits ∧ b.Fits ∧ BigInt.gcd 2 a b = .ub .outOfBounds) ∧
    ∃ (a b : BigInt) (x y z : Int), a.Denotes x ∧ b.Denotes y ∧ a.Fits ∧ b.Fits ∧ Returns (BigInt.gcd 3 a b) z ∧ |x| < z ∧ |y| < z :=
  ⟨fun hd => ⟨_, _, w2_denotes.1, w3_denotes.1, by decide, by decide, by rw [C78_reads_before_array 2 (le_refl _), if_pos hd]⟩,
    _, _, _, _, _, w0_denotes, w1_denotes, by decide, by decide, C78_too_large 3 (le_refl _), by decide, by decide⟩

/-! ### instances -/

/-- `2^128 + 2^64` and `3·2^118`, whose greatest common divisor is `2^64`: the answer is `2^128 + 4`. -/
example : Returns (BigInt.gcd 3 ⟨1, [0, 0, 1, 0, 1]⟩ ⟨1, [0, 0, 0, 12582912]⟩) (2 ^ 128 + 4) :=
  ((C78_actual _ _ _ _ w0_denotes w3_denotes (by decide) (by decide) (by decide) (by decide) 3).iff.2.2.2.2 (2 ^ 128 + 4)).2
    ((show ∀ d, gcdRun d 3 (2 ^ 128 + 2 ^ 64) 0 (3 * 2 ^ 118) 0 = some (.answer (2 ^ 128 + 4)) by decide +kernel) _)
/-- So it is not the right one. -/
example : ¬ Returns (BigInt.gcd 3 ⟨1, [0, 0, 1, 0, 1]⟩ ⟨1, [0, 0, 0, 12582912]⟩) (Int.gcd (2 ^ 128 + 2 ^ 64) (3 * 2 ^ 118)) := by
  rw [C19_exact_iff _ _ _ _ w0_denotes w3_denotes (by decide) (by decide) (by decide) (by decide) 3]
  exact (show ∀ d, ¬ gcdRun d 3 (2 ^ 128 + 2 ^ 64) 0 (3 * 2 ^ 118) 0 = some (.answer (Nat.gcd (2 ^ 128 + 2 ^ 64) (3 * 2 ^ 118))) by
    decide +kernel) _
/-- A right answer in spite of a Lehmer step: `2^96 + 1` and `3·2^94 + 1` have no common divisor. -/
example : Returns (BigInt.gcd 2 ⟨1, [1, 0, 0, 1]⟩ ⟨1, [1, 0, 3221225472]⟩) (Int.gcd (2 ^ 96 + 1) (3 * 2 ^ 94 + 1)) :=
  (C19_exact_iff ⟨1, [1, 0, 0, 1]⟩ ⟨1, [1, 0, 3221225472]⟩ (2 ^ 96 + 1) (3 * 2 ^ 94 + 1)
    (BigInt.denotes_big (.inl rfl) (by decide) (by decide) (by decide) (by decide) (by decide))
    (BigInt.denotes_big (.inl rfl) (by decide) (by decide) (by decide) (by decide) (by decide)) (by decide) (by decide) (by decide)
    (by decide) 2).2 ((show ∀ d, gcdRun d 2 (2 ^ 96 + 1) 0 (3 * 2 ^ 94 + 1) 0 = some (.answer (Nat.gcd (2 ^ 96 + 1) (3 * 2 ^ 94 + 1))) by
      decide +kernel) _)
example (fuel : Nat) (hf : 2 * (Nat.log2 (-2 ^ 129 : Int).natAbs + Nat.log2 (3 * 2 ^ 118 : Int).natAbs) + 3 ≤ fuel) :
    BigInt.gcd fuel ⟨-1, [0, 0, 0, 0, 2]⟩ ⟨1, [0, 0, 0, 12582912]⟩ =
      BigInt.gcd (2 * (Nat.log2 (-2 ^ 129 : Int).natAbs + Nat.log2 (3 * 2 ^ 118 : Int).natAbs) + 3) ⟨-1, [0, 0, 0, 0, 2]⟩ ⟨1, [0, 0, 0, 12582912]⟩ :=
  C20_decided _ _ _ _ w2_denotes w3_denotes (by decide) (by decide) (by decide) (by decide) fuel hf
/-- `7·2^64 + 1` and `5·2^64 + 3` run for ever in a release build, for 265 iterations do. -/
example (hd : Cfg.ndebug = true) (fuel : Nat) : BigInt.gcd fuel ⟨1, [1, 0, 7]⟩ ⟨1, [3, 0, 5]⟩ = .diverge :=
  (C20_runs_forever_iff ⟨1, [1, 0, 7]⟩ ⟨1, [3, 0, 5]⟩ (7 * 2 ^ 64 + 1) (5 * 2 ^ 64 + 3)
    (BigInt.denotes_big (.inl rfl) (by decide) (by decide) (by decide) (by decide) (by decide))
    (BigInt.denotes_big (.inl rfl) (by decide) (by decide) (by decide) (by decide) (by decide)) (by decide) (by decide) (by decide)
    (by decide)).2 (by rw [hd]; decide +kernel) fuel
example (fuel : Nat) : BigInt.gcd fuel ⟨1, [4294967288, 4294967295, 0, 3221225472]⟩ ⟨-1, [0, 0, 0, 0, 2]⟩ =
    BigInt.gcd fuel ⟨1, [0, 0, 0, 0, 2]⟩ ⟨1, [4294967288, 4294967295, 0, 3221225472]⟩ :=
  C78_symmetric ⟨1, [0, 0, 0, 0, 2]⟩ ⟨1, [4294967288, 4294967295, 0, 3221225472]⟩ _ _ (2 ^ 129) (3 * 2 ^ 126 + 2 ^ 64 - 8) _ _
    (BigInt.denotes_big (.inl rfl) (by decide) (by decide) (by decide) (by decide) (by decide)) w1_denotes w1_denotes w2_denotes
    (by decide) (by decide) (by decide) (by decide) (.inr ⟨rfl, by decide⟩) fuel
example (fuel : Nat) : BigInt.gcd fuel neg3 pos2 = BigInt.gcd fuel pos2 neg3 :=
  C78_commutative _ _ neg3_denotes.1 pos2_denotes.1 neg3_fits pos2_fits fuel
example (hd : Cfg.ndebug = false) (fuel : Nat) (u : UB) : BigInt.gcd fuel ⟨-1, [0, 0, 0, 0, 2]⟩ ⟨1, [0, 0, 0, 12582912]⟩ ≠ .ub u :=
  C78_debug_defined _ _ w2_denotes.1 w3_denotes.1 (by decide) (by decide) hd fuel u
/-- The hypothesis of `C78_release_undefined` is met by `C78_reads_before_array`. -/
example (hd : Cfg.ndebug = true) : UB.outOfBounds = .outOfBounds ∧ Cfg.ndebug = true ∧ 2 ^ 64 ≤ |BigInt.toInt ⟨-1, [0, 0, 0, 0, 2]⟩| ∧
    2 ^ 64 ≤ |BigInt.toInt ⟨1, [0, 0, 0, 12582912]⟩| :=
  C78_release_undefined _ _ w2_denotes.1 w3_denotes.1 (by decide) (by decide) 2 _ (by rw [C78_reads_before_array 2 (le_refl _), if_pos hd])
example : (0 : Int) < 2 ^ 128 + 2 ^ 64 + 4 ∧ (2 ^ 128 + 2 ^ 64 + 4 : Int) < 2 ^ (32 * wordCount (max (2 ^ 128 + 2 ^ 64 : Int).natAbs (3 * 2 ^ 126 + 2 ^ 64 - 8 : Int).natAbs)) :=
  C78_answer _ _ _ _ w0_denotes w1_denotes (by decide) (by decide) (.inl (by decide)) 3 _ (C78_too_large 3 (le_refl _))

end BigIntegerCpp
