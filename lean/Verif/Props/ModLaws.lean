import Mathlib.FieldTheory.Finite.Basic
import Mathlib.Tactic.NormNum.Prime
import Verif.Props.Arith
import Verif.Props.Pow
/-
C63: laws of modular powers, as far as they are used in number theory and cryptography.
-/
namespace BigIntegerCpp
open Samples
variable [Cfg]

private theorem small_length {a : BigInt} {x : Int} (ha : a.Denotes x) (h : |x| < 2 ^ 992) : a.bits.length ≤ 31 := by
  refine ha.length_le_of_lt ?_
  rw [show 32 * 31 = 992 from rfl]
  have : ((x.natAbs : Nat) : Int) < ((2 ^ 992 : Nat) : Int) := by
    rw [Int.abs_eq_natAbs] at h; rw [Nat.cast_pow, Nat.cast_ofNat]; exact h
  exact_mod_cast this

private theorem small_fits' {a : BigInt} {x : Int} (ha : a.Denotes x) (h : |x| < 2 ^ 992) : a.Fits :=
  lt_of_le_of_lt (small_length ha h) (by decide)

omit [Cfg] in
private theorem mod_small {x z : Int} (hz : 0 < z) (hz2 : z < 2 ^ 992) : |x % z| < 2 ^ 992 := by
  rw [abs_of_nonneg (Int.emod_nonneg _ (by omega))]
  exact lt_trans (Int.emod_lt_of_pos _ hz) hz2

private theorem modPow_eq {a e m : BigInt} {x z : Int} {n : Nat} (ha : a.Denotes x) (he : e.Denotes n) (hm : m.Denotes z)
    (fa : a.Fits) (hx : 0 ≤ x) (hz : 0 < z) (hz2 : z < 2 ^ 992) : Returns (a.modPow e m) (x ^ n % z) := by
  have := C16_nonneg a e m x z n ha he hm fa (by omega) (by rwa [abs_of_pos hz]) hx
  rwa [abs_of_pos hz] at this

/-- The product of two remainders, reduced. -/
private theorem mul_rem {p q m : BigInt} {u v z : Int} (hp : p.Denotes (u % z)) (hq : q.Denotes (v % z)) (hm : m.Denotes z)
    (hz : 0 < z) (hz2 : z < 2 ^ 992) : ∃ t r, p.mul q = .ok t ∧ t.rem m = .ok r ∧ r.Denotes (u * v % z) := by
  have h1 := small_length hp (mod_small hz hz2)
  have h2 := small_length hq (mod_small hz hz2)
  obtain ⟨t, t1, t2⟩ := C09_multiply p q _ _ hp hq (by omega)
  have hn : 0 ≤ u % z * (v % z) := mul_nonneg (Int.emod_nonneg _ (by omega)) (Int.emod_nonneg _ (by omega))
  have ft : t.Fits := by
    refine lt_of_le_of_lt (t2.length_le_of_lt (k := 62) ?_) (by decide)
    rw [show 32 * 62 = 992 + 992 from rfl, pow_add]
    have hb : ∀ w : Int, (w % z).natAbs < 2 ^ 992 := fun w => by
      have := mod_small (x := w) hz hz2
      rw [Int.abs_eq_natAbs] at this
      have h' : (((w % z).natAbs : Nat) : Int) < ((2 ^ 992 : Nat) : Int) := by rw [Nat.cast_pow, Nat.cast_ofNat]; exact this
      exact_mod_cast h'
    rw [Int.natAbs_mul]
    exact Nat.mul_lt_mul'' (hb u) (hb v)
  obtain ⟨r, r1, r2⟩ := C11_remainder t m _ _ t2 hm (by omega) ft
  rw [Int.tmod_eq_emod_of_nonneg hn, ← Int.mul_emod] at r2
  exact ⟨t, r, t1, r1, r2⟩

/-- `mod_pow(a, e + f, m) == mod_pow(a, e, m) * mod_pow(a, f, m) % m`.  Missing from C63: moduli of
`2^992` and more, negative values. -/
theorem C63_sum_partial (a e f s m : BigInt) (x z : Int) (n k : Nat) (ha : a.Denotes x) (he : e.Denotes n) (hf : f.Denotes k)
    (hs : s.Denotes ((n + k : Nat) : Int)) (hm : m.Denotes z) (fa : a.Fits) (hx : 0 ≤ x) (hz : 0 < z) (hz2 : z < 2 ^ 992) :
    ∃ p q t r, a.modPow e m = .ok p ∧ a.modPow f m = .ok q ∧ p.mul q = .ok t ∧ t.rem m = .ok r ∧ a.modPow s m = .ok r := by
  obtain ⟨p, p1, p2⟩ := modPow_eq ha he hm fa hx hz hz2
  obtain ⟨q, q1, q2⟩ := modPow_eq ha hf hm fa hx hz hz2
  obtain ⟨w, w1, w2⟩ := modPow_eq ha hs hm fa hx hz hz2
  obtain ⟨t, r, t1, r1, r2⟩ := mul_rem p2 q2 hm hz hz2
  rw [← pow_add] at r2
  exact ⟨p, q, t, r, p1, q1, t1, r1, by rw [w1, w2.unique r2]⟩

omit [Cfg] in
private theorem pow_mod (x z : Int) (n : Nat) : (x % z) ^ n % z = x ^ n % z := (Int.mod_modEq x z).pow n

private theorem mul_fits {a b c : BigInt} {x y : Int} (ha : a.Denotes x) (hb : b.Denotes y) (hc : c.Denotes (x * y))
    (hl : a.bits.length + b.bits.length < 2 ^ 31 - 3) : c.Fits := by
  refine lt_of_le_of_lt (hc.length_le_of_lt (k := a.bits.length + b.bits.length + 2) ?_) (show _ < 2147483647 by omega)
  rw [Int.natAbs_mul, pow_mul, show 2 ^ 32 = 𝔹 from rfl]
  refine lt_of_lt_of_le (Nat.mul_lt_mul'' ha.natAbs_lt hb.natAbs_lt) ?_
  rw [← pow_add]
  refine Nat.pow_le_pow_right (by decide) ?_
  rcases Nat.le_total a.bits.length 1 with h | h <;> rcases Nat.le_total b.bits.length 1 with h' | h' <;>
    simp only [max_eq_left, max_eq_right, h, h'] <;> omega

/-- `mod_pow(a * b, e, m) == mod_pow(a, e, m) * mod_pow(b, e, m) % m`. -/
theorem C63_product_partial (a b e m : BigInt) (x y z : Int) (n : Nat) (ha : a.Denotes x) (hb : b.Denotes y) (he : e.Denotes n)
    (hm : m.Denotes z) (hl : a.bits.length + b.bits.length < 2 ^ 31 - 3) (hx : 0 ≤ x) (hy : 0 ≤ y) (hz : 0 < z) (hz2 : z < 2 ^ 992) :
    ∃ c p q t r, a.mul b = .ok c ∧ a.modPow e m = .ok p ∧ b.modPow e m = .ok q ∧ p.mul q = .ok t ∧ t.rem m = .ok r ∧
      c.modPow e m = .ok r := by
  obtain ⟨c, c1, c2⟩ := C09_multiply a b x y ha hb (by omega)
  have fc : c.Fits := mul_fits ha hb c2 hl
  obtain ⟨p, p1, p2⟩ := modPow_eq ha he hm (show a.bits.length < 2147483647 by omega) hx hz hz2
  obtain ⟨q, q1, q2⟩ := modPow_eq hb he hm (show b.bits.length < 2147483647 by omega) hy hz hz2
  obtain ⟨w, w1, w2⟩ := modPow_eq c2 he hm fc (mul_nonneg hx hy) hz hz2
  obtain ⟨t, r, t1, r1, r2⟩ := mul_rem p2 q2 hm hz hz2
  rw [← mul_pow] at r2
  exact ⟨c, p, q, t, r, c1, p1, q1, t1, r1, by rw [w1, w2.unique r2]⟩

/-- `mod_pow(mod_pow(a, e, m), f, m) == mod_pow(a, e * f, m)`. -/
theorem C63_power_partial (a e f s m : BigInt) (x z : Int) (n k : Nat) (ha : a.Denotes x) (he : e.Denotes n) (hf : f.Denotes k)
    (hs : s.Denotes ((n * k : Nat) : Int)) (hm : m.Denotes z) (fa : a.Fits) (hx : 0 ≤ x) (hz : 0 < z) (hz2 : z < 2 ^ 992) :
    ∃ p r, a.modPow e m = .ok p ∧ p.modPow f m = .ok r ∧ a.modPow s m = .ok r := by
  obtain ⟨p, p1, p2⟩ := modPow_eq ha he hm fa hx hz hz2
  obtain ⟨w, w1, w2⟩ := modPow_eq ha hs hm fa hx hz hz2
  obtain ⟨r, r1, r2⟩ := modPow_eq p2 hf hm (small_fits' p2 (mod_small hz hz2)) (Int.emod_nonneg _ (by omega)) hz hz2
  rw [pow_mod, ← pow_mul] at r2
  exact ⟨p, r, p1, r1, by rw [w1, w2.unique r2]⟩

/-- The base may be reduced first: `mod_pow(a, e, m) == mod_pow(a % m, e, m)`. -/
theorem C63_base_partial (a e m : BigInt) (x z : Int) (n : Nat) (ha : a.Denotes x) (he : e.Denotes n)
    (hm : m.Denotes z) (fa : a.Fits) (hx : 0 ≤ x) (hz : 0 < z) (hz2 : z < 2 ^ 992) :
    ∃ b r, a.rem m = .ok b ∧ b.modPow e m = .ok r ∧ a.modPow e m = .ok r := by
  obtain ⟨b, b1, b2⟩ := C11_remainder a m x z ha hm (by omega) fa
  rw [Int.tmod_eq_emod_of_nonneg hx] at b2
  obtain ⟨w, w1, w2⟩ := modPow_eq ha he hm fa hx hz hz2
  obtain ⟨r, r1, r2⟩ := modPow_eq b2 he hm (small_fits' b2 (mod_small hz hz2)) (Int.emod_nonneg _ (by omega)) hz hz2
  rw [pow_mod] at r2
  exact ⟨b, r, b1, r1, by rw [w1, w2.unique r2]⟩

omit [Cfg] in
private theorem prime_lt {p : Nat} (h : p < 2 ^ 992) : (p : Int) < 2 ^ 992 := by
  have : (p : Int) < ((2 ^ 992 : Nat) : Int) := Int.ofNat_lt.2 h
  rwa [Nat.cast_pow, Nat.cast_ofNat] at this

/-- Fermat's little theorem: `mod_pow(a, p - 1, p) == 1` for a prime `p` that does not divide `a`. -/
theorem C63_fermat_partial (a e m : BigInt) (x : Int) (p : Nat) (hp : p.Prime) (ha : a.Denotes x) (he : e.Denotes ((p - 1 : Nat) : Int))
    (hm : m.Denotes p) (fa : a.Fits) (hx : 0 ≤ x) (hd : ¬ (p : Int) ∣ x) (hz2 : p < 2 ^ 992) : Returns (a.modPow e m) 1 := by
  have h := modPow_eq ha he hm fa hx (by exact_mod_cast hp.pos) (prime_lt hz2)
  have : x ^ (p - 1) % p = 1 := by
    have := Fact.mk hp
    have h0 : (x : ZMod p) ≠ 0 := fun h => hd ((ZMod.intCast_zmod_eq_zero_iff_dvd x p).1 h)
    have h1 := ZMod.pow_card_sub_one_eq_one h0
    have h2 : ((x ^ (p - 1) : Int) : ZMod p) = ((1 : Int) : ZMod p) := by push_cast; exact h1
    have h3 := (ZMod.intCast_eq_intCast_iff _ _ p).1 h2
    rw [Int.ModEq] at h3
    rw [h3]
    exact Int.emod_eq_of_lt (by decide) (by exact_mod_cast hp.one_lt)
  rwa [this] at h

omit [Cfg] in
private theorem fermat_mod {p j : Nat} (hp : p.Prime) (x : Int) : x ^ (1 + (p - 1) * j) ≡ x [ZMOD p] := by
  have := Fact.mk hp
  rw [← ZMod.intCast_eq_intCast_iff]
  push_cast
  rw [pow_add, pow_one, pow_mul]
  by_cases h0 : (x : ZMod p) = 0
  · rw [h0, zero_mul]
  · rw [ZMod.pow_card_sub_one_eq_one h0, one_pow, mul_one]

/-- Decryption inverts encryption: with `m = p * q` for two primes and `e * d ≡ 1 mod (p-1)(q-1)`,
`mod_pow(mod_pow(a, e, m), d, m) == a` for every message `a` in `[0, m)`. -/
theorem C63_rsa_partial (a e d m : BigInt) (x : Int) (p q n k j : Nat) (hp : p.Prime) (hq : q.Prime) (hpq : p ≠ q)
    (hnk : n * k = 1 + (p - 1) * (q - 1) * j)
    (ha : a.Denotes x) (he : e.Denotes n) (hd : d.Denotes k) (hm : m.Denotes ((p * q : Nat) : Int)) (hx : 0 ≤ x) (hxm : x < (p * q : Nat))
    (hz2 : p * q < 2 ^ 992) : ∃ c, a.modPow e m = .ok c ∧ c.modPow d m = .ok a := by
  have hz : (0 : Int) < (p * q : Nat) := by exact_mod_cast Nat.mul_pos hp.pos hq.pos
  have hz3 := prime_lt hz2
  have fa : a.Fits := small_fits' ha (by rw [abs_of_nonneg hx]; exact lt_trans hxm hz3)
  obtain ⟨c, c1, c2⟩ := modPow_eq ha he hm fa hx hz hz3
  obtain ⟨r, r1, r2⟩ := modPow_eq c2 hd hm (small_fits' c2 (mod_small hz hz3)) (Int.emod_nonneg _ (by omega)) hz hz3
  have h1 : x ^ (n * k) ≡ x [ZMOD p] := by rw [hnk, mul_assoc]; exact fermat_mod hp x
  have h2 : x ^ (n * k) ≡ x [ZMOD q] := by rw [hnk, mul_comm (p - 1), mul_assoc]; exact fermat_mod hq x
  have hc : (p : Int).natAbs.Coprime (q : Int).natAbs := (Nat.coprime_primes hp hq).2 hpq
  have h3 : x ^ (n * k) ≡ x [ZMOD (p * q : Nat)] := by
    rw [Nat.cast_mul]
    exact (Int.modEq_and_modEq_iff_modEq_mul hc).1 ⟨h1, h2⟩
  rw [pow_mod, ← pow_mul, h3, Int.emod_eq_of_lt hx hxm] at r2
  exact ⟨c, c1, by rw [r1, r2.unique ha]⟩

/-- C63 fails for every odd modulus from `2^992` on: already
`mod_pow(M - 1, 2, M) == mod_pow(M - 1, 1, M) * mod_pow(M - 1, 1, M) % M` is false. -/
theorem C63_every_large_odd (a e s m : BigInt) (z : Int) (ha : a.Denotes (z - 1)) (he : e.Denotes 1) (hs : s.Denotes 2)
    (hm : m.Denotes z) (hz : 2 ^ 992 ≤ z) (hodd : z % 2 = 1) (fm : m.bits.length < 2 ^ 30 - 1) :
    ¬ ∃ p q t r, a.modPow e m = .ok p ∧ a.modPow e m = .ok q ∧ p.mul q = .ok t ∧ t.rem m = .ok r ∧ a.modPow s m = .ok r := by
  rintro ⟨p, q, t, r, h1, h2, h3, h4, h5⟩
  obtain rfl : p = q := Res.ok.inj (h1.symm.trans h2)
  have hz0 : (2 : Int) < z := lt_of_lt_of_le (by decide +kernel) hz
  have hz1 : 2 ^ 992 ≤ |z| := hz.trans (le_abs_self z)
  have hlm : 32 ≤ m.bits.length := len32 hm hz1
  obtain ⟨y, ⟨r'', w1, w2⟩, w3, w4⟩ := C18_every_odd_modulus a s m z ha hs hm hz hodd fm
  obtain rfl : r = r'' := Res.ok.inj (h5.symm.trans w1)
  clear hz
  have first : |z - 1| < |z| → a.bits.length ≤ m.bits.length → (z - 1).natAbs % z.natAbs < z.natAbs → p.Denotes ((z - 1).tmod z) := by
    intro g1 g2 g3
    have := C18_mod_pow_partial a e m (z - 1) z 1 ha he hm (lt_of_le_of_lt g2 (lt_of_lt_of_le fm (by decide)))
      hz1 fm (.inl g1) (.inl ⟨by decide, by rwa [pow_one]⟩)
    rw [pow_one] at this
    obtain ⟨p', k1, k2⟩ := this
    obtain rfl : p = p' := Res.ok.inj (h1.symm.trans k1)
    exact k2
  clear hz1
  have la : a.bits.length ≤ m.bits.length :=
    ha.length_le ((by omega : (z - 1).natAbs ≤ z.natAbs).trans_lt (hm.lt_pow (by rintro h; rw [h] at hlm; simp at hlm)))
  have k2 := first (by rw [abs_of_pos (by omega), abs_of_pos (by omega)]; omega) la (Nat.mod_lt _ (by omega))
  rw [Int.tmod_eq_of_lt (by omega) (by omega)] at k2
  have lp : p.bits.length ≤ m.bits.length := by rw [k2.unique ha]; exact la
  obtain ⟨t', t1, t2⟩ := C09_multiply p p _ _ k2 k2 (by omega)
  obtain rfl : t = t' := Res.ok.inj (h3.symm.trans t1)
  obtain ⟨r', r1, r2⟩ := C11_remainder t m _ _ t2 hm (by omega) (mul_fits k2 k2 t2 (by omega))
  obtain rfl : r = r' := Res.ok.inj (h4.symm.trans r1)
  rw [← sq, w4] at r2
  have := r2.2.symm.trans w2.2
  omega

/-- C63, the exact set of moduli for the simplest law: reducing the base first makes no difference, for
all values and exponents, if and only if the modulus is below `2^992`. -/
theorem C63_base_exact_iff (m : BigInt) (z : Int) (hm : m.Denotes z) (hz : 0 < z) (fm : m.bits.length < 2 ^ 30 - 1) :
    (∀ (a e : BigInt) (x : Int) (n : Nat), a.Denotes x → e.Denotes n → a.Fits → 0 ≤ x →
      ∃ b r, a.rem m = .ok b ∧ b.modPow e m = .ok r ∧ a.modPow e m = .ok r) ↔ z < 2 ^ 992 := by
  refine ⟨fun h => ?_, fun h a e x n ha he fa hx => C63_base_partial a e m x z n ha he hm fa hx hz h⟩
  by_contra hc
  have hz1 : 2 ^ 992 ≤ |z| := (not_lt.1 hc).trans (le_abs_self z)
  have he : BigInt.Denotes ⟨1, []⟩ ((1 : Nat) : Int) := BigInt.denotes_small (by decide) (by decide)
  have fm' : m.Fits := lt_trans fm (by decide)
  obtain ⟨b, r, h1, h2, h3⟩ := h m ⟨1, []⟩ z 1 hm he fm' hz.le
  obtain ⟨b', e1, e2⟩ := C11_remainder m m z z hm hm hz.ne' fm'
  obtain rfl : b = b' := Res.ok.inj (h1.symm.trans e1)
  rw [Int.tmod_self] at e2
  obtain ⟨r1, e3, e4⟩ := (C18_every_modulus ⟨1, []⟩ m z he hm hz1 fm).1
  obtain rfl : r = r1 := Res.ok.inj (h3.symm.trans e3)
  have h0 : |(0 : Int)| < |z| := by rw [abs_zero]; exact abs_pos.2 hz.ne'
  obtain ⟨r2, e5, e6⟩ := C18_mod_pow_partial b ⟨1, []⟩ m 0 z 1 e2 he hm (small_fits' e2 (by rw [abs_zero]; positivity)) hz1 fm (.inl h0)
    (.inr (by rw [Int.natAbs_zero, Nat.zero_mod]; exact Nat.zero_le _))
  obtain rfl : r = r2 := Res.ok.inj (h2.symm.trans e5)
  rw [pow_one, Int.zero_tmod] at e6
  exact hz.ne' (e4.2.symm.trans e6.2)
example : ¬ ∀ (a e : BigInt) (x : Int) (n : Nat), a.Denotes x → e.Denotes n → a.Fits → 0 ≤ x →
    ∃ b r, a.rem big32 = .ok b ∧ b.modPow e big32 = .ok r ∧ a.modPow e big32 = .ok r :=
  fun h => absurd ((C63_base_exact_iff big32 _ big32_denotes (by decide +kernel) (by decide)).1 h) (by decide +kernel)

/-- `2^1023`. -/
private def big32m : BigInt := ⟨1, 0 :: (List.replicate 30 0 ++ [2147483648])⟩

private theorem big32m_denotes : big32m.Denotes (2 ^ 1023 + 1 - 1) :=
  BigInt.denotes_big (.inl rfl) (by decide) (by decide) (by decide) (by decide +kernel) (by decide +kernel)

/-- C63 as a user states it does not hold for all moduli. -/
theorem C63_refuted :
    ¬ ∀ (a e f s m : BigInt) (x z : Int) (n k : Nat), a.Denotes x → e.Denotes n → f.Denotes k → s.Denotes ((n + k : Nat) : Int) →
      m.Denotes z → 0 ≤ x → 0 < z →
      ∃ p q t r, a.modPow e m = .ok p ∧ a.modPow f m = .ok q ∧ p.mul q = .ok t ∧ t.rem m = .ok r ∧ a.modPow s m = .ok r := by
  intro h
  have one : (⟨1, []⟩ : BigInt).Denotes 1 := BigInt.denotes_small (by decide) (by decide)
  have two : (⟨2, []⟩ : BigInt).Denotes 2 := BigInt.denotes_small (by decide) (by decide)
  exact C63_every_large_odd big32m ⟨1, []⟩ ⟨2, []⟩ big32 _ big32m_denotes one two big32_denotes (by decide +kernel) (by decide +kernel)
    (by decide) (h big32m ⟨1, []⟩ ⟨1, []⟩ ⟨2, []⟩ big32 _ _ 1 1 big32m_denotes one one two big32_denotes (by decide +kernel) (by decide +kernel))

private theorem e17 : (⟨17, []⟩ : BigInt).Denotes 17 := BigInt.denotes_small (by decide) (by decide)
private theorem n2 : (⟨1, [262147, 1]⟩ : BigInt).Denotes 4295229443 :=
  BigInt.denotes_big (.inl rfl) (by decide) (by decide) (by decide) (by decide) (by decide)
private theorem d1 : (⟨1, [2779181297]⟩ : BigInt).Denotes 2779181297 :=
  BigInt.denotes_big (.inl rfl) (by decide) (by decide) (by decide) (by decide) (by decide)
private theorem p1 : (⟨65537, []⟩ : BigInt).Denotes 65537 := BigInt.denotes_small (by decide) (by decide)
private theorem p0 : (⟨65536, []⟩ : BigInt).Denotes 65536 := BigInt.denotes_small (by decide) (by decide)
private theorem x1 : (⟨1, [3000000000]⟩ : BigInt).Denotes 3000000000 :=
  BigInt.denotes_big (.inl rfl) (by decide) (by decide) (by decide) (by decide) (by decide)

-- the primes 65537 and 65539, exponents 17 and 2779181297, message 3000000000
example : ∃ c, (⟨1, [3000000000]⟩ : BigInt).modPow ⟨17, []⟩ ⟨1, [262147, 1]⟩ = .ok c ∧
    c.modPow ⟨1, [2779181297]⟩ ⟨1, [262147, 1]⟩ = .ok ⟨1, [3000000000]⟩ :=
  C63_rsa_partial _ _ _ _ _ 65537 65539 17 2779181297 11 (by norm_num) (by norm_num) (by decide) (by decide) x1 e17 d1 n2
    (by decide) (by decide) (by decide +kernel)

example : Returns (pos2.modPow ⟨65536, []⟩ ⟨65537, []⟩) 1 :=
  C63_fermat_partial _ _ _ _ 65537 (by norm_num) pos2_denotes p0 p1 pos2_fits (by decide) (by decide) (by decide +kernel)

example : ∃ p q t r, pos2.modPow ⟨17, []⟩ ⟨1, [262147, 1]⟩ = .ok p ∧ pos2.modPow ⟨65520, []⟩ ⟨1, [262147, 1]⟩ = .ok q ∧ p.mul q = .ok t ∧
    t.rem ⟨1, [262147, 1]⟩ = .ok r ∧ pos2.modPow ⟨65537, []⟩ ⟨1, [262147, 1]⟩ = .ok r :=
  C63_sum_partial _ _ _ _ _ _ _ 17 65520 pos2_denotes e17 (BigInt.denotes_small (by decide) (by decide)) p1 n2 pos2_fits (by decide)
    (by decide) (by decide +kernel)

example : ∃ c p q t r, pos2.mul ⟨1, [3000000000]⟩ = .ok c ∧ pos2.modPow ⟨17, []⟩ ⟨1, [262147, 1]⟩ = .ok p ∧
    (⟨1, [3000000000]⟩ : BigInt).modPow ⟨17, []⟩ ⟨1, [262147, 1]⟩ = .ok q ∧ p.mul q = .ok t ∧ t.rem ⟨1, [262147, 1]⟩ = .ok r ∧
    c.modPow ⟨17, []⟩ ⟨1, [262147, 1]⟩ = .ok r :=
  C63_product_partial _ _ _ _ _ _ _ 17 pos2_denotes x1 e17 n2 (by decide) (by decide) (by decide) (by decide) (by decide +kernel)

example : ∃ p r, pos2.modPow ⟨17, []⟩ ⟨1, [262147, 1]⟩ = .ok p ∧ p.modPow ⟨1000, []⟩ ⟨1, [262147, 1]⟩ = .ok r ∧
    pos2.modPow ⟨17000, []⟩ ⟨1, [262147, 1]⟩ = .ok r :=
  C63_power_partial _ _ _ _ _ _ _ 17 1000 pos2_denotes e17 (BigInt.denotes_small (by decide) (by decide))
    (BigInt.denotes_small (by decide) (by decide)) n2 pos2_fits (by decide) (by decide) (by decide +kernel)

example : ∃ b r, pos2.rem ⟨1, [262147, 1]⟩ = .ok b ∧ b.modPow ⟨17, []⟩ ⟨1, [262147, 1]⟩ = .ok r ∧ pos2.modPow ⟨17, []⟩ ⟨1, [262147, 1]⟩ = .ok r :=
  C63_base_partial _ _ _ _ _ 17 pos2_denotes e17 n2 pos2_fits (by decide) (by decide) (by decide +kernel)

-- the hypotheses of `C63_every_large_odd`: see `C63_refuted`
example : big32m.Denotes (2 ^ 1023 + 1 - 1) ∧ big32.Denotes (2 ^ 1023 + 1) ∧ (2 : Int) ^ 992 ≤ 2 ^ 1023 + 1 :=
  ⟨big32m_denotes, big32_denotes, by decide +kernel⟩

end BigIntegerCpp
