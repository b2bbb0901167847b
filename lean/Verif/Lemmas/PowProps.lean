import Verif.Lemmas.FastReducer
/-
Word counts and values; `mod_pow` with a modulus of 32 words or more.
-/
set_option linter.unusedSectionVars false
set_option linter.unnecessarySeqFocus false
namespace BigIntegerCpp
variable [Cfg]

theorem base_pow (k : Nat) : 𝔹 ^ k = 2 ^ (32 * k) := by rw [pow_mul]; norm_num

namespace BigInt

theorem Denotes.length_le_of_lt {b : BigInt} {z : Int} (h : b.Denotes z) {k : Nat} (hz : z.natAbs < 2 ^ (32 * k)) :
    b.bits.length ≤ k := by
  rcases h.shape with ⟨rfl, -, -⟩ | ⟨s, ws, rfl, hs, hne, hw, ht, hv, rfl⟩
  · exact Nat.zero_le _
  · rw [natAbs_unit_mul hs] at hz
    have := val_ge_of_top hne ht
    by_contra hc
    dsimp only at hc
    have h2 : 𝔹 ^ k ≤ 𝔹 ^ (ws.length - 1) := Nat.pow_le_pow_right (by decide) (by omega)
    rw [base_pow k] at h2
    omega

theorem Denotes.lt_length {b : BigInt} {z : Int} (h : b.Denotes z) {k : Nat} (hz : 2 ^ (32 * k) ≤ z.natAbs) (hk : 1 ≤ k) :
    k < b.bits.length := by
  rcases h.shape with ⟨rfl, h1, h2⟩ | ⟨s, ws, rfl, hs, hne, hw, ht, hv, rfl⟩
  · have : 2 ^ (32 * 1) ≤ 2 ^ (32 * k) := Nat.pow_le_pow_right (by decide) (by omega)
    omega
  · rw [natAbs_unit_mul hs] at hz
    have := val_lt hw
    by_contra hc
    dsimp only at hc
    have h2 : 𝔹 ^ ws.length ≤ 𝔹 ^ k := Nat.pow_le_pow_right (by decide) (by omega)
    rw [base_pow k] at h2
    omega

theorem Denotes.bits_nil {b : BigInt} {z : Int} (h : b.Denotes z) : b.bits = [] ↔ |z| < 2 ^ 31 := by
  rw [abs_lt]
  rcases h.shape with ⟨rfl, h1, h2⟩ | ⟨s, ws, rfl, hs, hne, hw, ht, hv, rfl⟩
  · exact iff_of_true rfl (by omega)
  · refine iff_of_false hne ?_
    rcases hs with rfl | rfl <;> omega

theorem modPow_fast {a e m : BigInt} {x z : Int} {n : Nat} (ha : a.Denotes x) (he : e.Denotes n) (hm : m.Denotes z)
    (h32 : 32 ≤ m.bits.length) (hla : a.bits.length < 2147483648) (hlm : m.bits.length + m.bits.length < 2147483647)
    (hdom : (e.bits = [] ∧ modPowValue a m x z ^ n < z.natAbs) ∨ modPowValue a m x z ≤ 1) :
    Returns (a.modPow e m) ((x ^ n).tmod z) := by
  have hmb : m.bits ≠ [] := by rintro h; rw [h] at h32; simp at h32
  obtain ⟨b, b1, b2, b3⟩ := modPow_large ha he hm hmb hla (by omega)
  rw [b3, tmod_pow_natAbs]
  rcases hm.shape with ⟨rfl, hz1, hz2⟩ | ⟨s, ms, rfl, hs, hne, hwm, htm, hvm, rfl⟩
  · exact absurd rfl hmb
  have hpow : ∀ k, modPowValue a ⟨s, ms⟩ x (s * (val ms : Int)) ^ k % val ms = x.natAbs ^ k % val ms := fun k => by
    have := modPowValue_mod a ⟨s, ms⟩ x (s * (val ms : Int))
    rw [natAbs_unit_mul hs] at this
    rw [Nat.pow_mod, this, ← Nat.pow_mod]
  rw [natAbs_unit_mul hs] at hdom
  have hlt : modPowValue a ⟨s, ms⟩ x (s * (val ms : Int)) ^ n < val ms := by
    rcases hdom with h | h
    · exact h.2
    · have := npow_le_one h n
      omega
  obtain ⟨bits, e1, k1, k2, k3⟩ : ∃ bits, (if e.bits = [] then powCoreMod n ms b else powCoreModWords e.bits ms b) = .ok bits ∧
      bits.length = ms.length + ms.length ∧ WordsOk bits ∧ val bits = x.natAbs ^ n % val ms := by
    by_cases hb : e.bits = []
    · rw [if_pos hb]
      obtain ⟨bits, q1, q2, q3, q4⟩ := powCoreMod_fast hwm hne htm h32 (by omega) b1 hlm b2 n hlt
      exact ⟨bits, q1, q2, q3, by rw [q4, ← hpow, Nat.mod_eq_of_lt hlt]⟩
    · rw [if_neg hb]
      obtain ⟨w1, w2⟩ := he.nat_words hb
      obtain ⟨bits, q1, q2, q3, q4⟩ := powCoreModWords_fast hwm hne htm h32 (by omega) b1 hlm w2 hb
        (hdom.resolve_left fun h => hb h.1)
      exact ⟨bits, q1, q2, q3, by rw [q4, w1, ← hpow, Nat.mod_eq_of_lt hlt]⟩
  dsimp only at *
  rw [e1, Res.ok_bind]
  refine returns_ofMagnitude k2 (by omega) ?_
  rw [k3, natAbs_unit_mul hs]

theorem modPow_fast_one {a e m : BigInt} {x z : Int} (ha : a.Denotes x) (he : e.Denotes 1) (hm : m.Denotes z)
    (h32 : 32 ≤ m.bits.length) (hla : a.bits.length < 2147483648) (hlm : m.bits.length + m.bits.length < 2147483647)
    (hle : a.bits.length ≤ m.bits.length) : Returns (a.modPow e m) x := by
  have hmb : m.bits ≠ [] := by rintro h; rw [h] at h32; simp at h32
  obtain ⟨b, b1, b2, b3⟩ := modPow_large (n := 1) ha he hm hmb hla (by omega)
  have hb : e.bits = [] := he.bits_nil.2 (by decide)
  rw [b3, if_pos hb]
  have hmv : modPowValue a m x z = x.natAbs := by rw [modPowValue, if_neg (by omega)]
  rw [hmv] at b1 b2
  rcases hm.shape with ⟨rfl, hz1, hz2⟩ | ⟨s, ms, rfl, hs, hne, hwm, htm, hvm, rfl⟩
  · exact absurd rfl hmb
  dsimp only at *
  obtain ⟨bits, q1, q2, q3, q4⟩ := powCoreMod_one hwm hne htm h32 b1 hlm b2
  rw [q1, Res.ok_bind]
  refine returns_ofMagnitude q3 (by omega) ?_
  rw [q4]
  by_cases hx : x < 0
  · simp only [hx, decide_true, Bool.true_and]; rw [if_pos (by decide)]; omega
  · simp only [hx, decide_false, Bool.false_and]; rw [if_neg (by decide)]; omega

theorem modPow_fast_two {a e m : BigInt} {x z : Int} (ha : a.Denotes x) (he : e.Denotes 2) (hm : m.Denotes z)
    (h32 : 32 ≤ m.bits.length) (hla : a.bits.length < 2147483648) (hlm : m.bits.length + m.bits.length < 2147483647)
    (hle : a.bits.length ≤ m.bits.length)
    (hc : z.natAbs ≠ 𝔹 ^ (m.bits.length - 1) ∨ x.natAbs * x.natAbs < 𝔹 ^ (m.bits.length + m.bits.length - 1))
    {k : Nat} (hk : WLen k (x.natAbs * x.natAbs % z.natAbs)) :
    Returns (a.modPow e m) ((x.natAbs * x.natAbs % 𝔹 ^ k : Nat) : Int) := by
  have hmb : m.bits ≠ [] := by rintro h; rw [h] at h32; simp at h32
  obtain ⟨b, b1, b2, b3⟩ := modPow_large (n := 2) ha he hm hmb hla (by omega)
  have hb : e.bits = [] := he.bits_nil.2 (by decide)
  rw [b3, if_pos hb]
  have hmv : modPowValue a m x z = x.natAbs := by rw [modPowValue, if_neg (by omega)]
  rw [hmv] at b1 b2
  rcases hm.shape with ⟨rfl, hz1, hz2⟩ | ⟨s, ms, rfl, hs, hne, hwm, htm, hvm, rfl⟩
  · exact absurd rfl hmb
  rw [natAbs_unit_mul hs] at hc hk
  dsimp only at *
  obtain ⟨bits, q1, q2, q3, q4⟩ := powCoreMod_two hwm hne htm h32 b1 hlm b2 hc hk
  rw [q1, Res.ok_bind]
  refine returns_ofMagnitude q3 (by omega) ?_
  rw [q4, if_neg (by simp)]

theorem modPow_fast_two_overrun {a e m : BigInt} {x z : Int} (ha : a.Denotes x) (he : e.Denotes 2) (hm : m.Denotes z)
    (h32 : 32 ≤ m.bits.length) (hla : a.bits.length < 2147483648) (hlm : m.bits.length + m.bits.length < 2147483647)
    (hle : a.bits.length ≤ m.bits.length)
    (hc : z.natAbs = 𝔹 ^ (m.bits.length - 1)) (hx : 𝔹 ^ (m.bits.length + m.bits.length - 1) ≤ x.natAbs * x.natAbs) :
    a.modPow e m = .ub .outOfBounds := by
  have hmb : m.bits ≠ [] := by rintro h; rw [h] at h32; simp at h32
  obtain ⟨b, b1, b2, b3⟩ := modPow_large (n := 2) ha he hm hmb hla (by omega)
  have hb : e.bits = [] := he.bits_nil.2 (by decide)
  rw [b3, if_pos hb]
  have hmv : modPowValue a m x z = x.natAbs := by rw [modPowValue, if_neg (by omega)]
  rw [hmv] at b1 b2
  rcases hm.shape with ⟨rfl, hz1, hz2⟩ | ⟨s, ms, rfl, hs, hne, hwm, htm, hvm, rfl⟩
  · exact absurd rfl hmb
  rw [natAbs_unit_mul hs] at hc
  dsimp only at *
  rw [powCoreMod_two_overrun hwm hne htm h32 b1 hlm b2 hc hx]
  rfl

end BigInt
end BigIntegerCpp
