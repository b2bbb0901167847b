import Verif.Lemmas.UserPrograms
import Verif.Props.Program
import Mathlib.Tactic.NormNum.Prime
import Mathlib.FieldTheory.Finite.Basic
/-
C67: textbook algorithms written with the operators give the right answer at every size, in
particular where the library's own `greatest_common_divisor` (C19) and `mod_pow` with large moduli
(C21) do not.

The programs are in Model/UserPrograms.lean, with the C++ text beside them.  `σ.Shows ρ`: the object
`vi` has the value `ρ i`.
-/
set_option linter.unusedSectionVars false
namespace BigIntegerCpp
variable [Cfg]

/-- Started in `σ` the program ends normally, in a store whose values have `Q`. -/
def EndsWith (p : Prog) (σ : Store) (Q : IntStore → Prop) : Prop :=
  ∃ n σ' ρ', (∀ fuel, n ≤ fuel → p.exec fuel σ = (.ok (), σ')) ∧ σ'.Shows ρ' ∧ Q ρ'

theorem Total.endsWith {p : Prog} {ρ : IntStore} {Q : IntStore → Prop} (h : Total p ρ Q) {σ : Store} (hσ : σ.Shows ρ) : EndsWith p σ Q := by
  obtain ⟨ρ', h1, h2⟩ := h
  obtain ⟨n, σ', h3, h4⟩ := C40_program_partial p ρ ρ' none h1 σ hσ
  exact ⟨n, σ', ρ', h4, h3, h2⟩

/-- C67: Euclid's algorithm with `%` gives the greatest common divisor of any two values. -/
theorem C67_euclid (ρ : IntStore) (hr : ∀ i, InRange (ρ i)) (σ : Store) (hσ : σ.Shows ρ) :
    EndsWith gcdOf σ fun ρ' => ρ' 0 = Int.gcd (ρ 0) (ρ 1) := (gcdOf_total hr).endsWith hσ

/-- C67: repeated squaring with `*=`, `%=` and `>>=` gives the remainder of any power, for any modulus
whose square is in range. -/
theorem C67_power_mod (ρ : IntStore) (hr : ∀ i, InRange (ρ i)) (n : Nat) (he : ρ 1 = n) (hm : ρ 2 ≠ 0)
    (hmm : InRange (ρ 2 * ρ 2)) (σ : Store) (hσ : σ.Shows ρ) :
    EndsWith powerMod σ fun ρ' => ρ' 3 = (ρ 0 ^ n).tmod (ρ 2) := ((powerMod_total hr n he hm hmm).mono fun _ h => h.2.1).endsWith hσ

/-- C67: Newton's method with `/`, `+` and `>>=` ends with the integer square root of any value. -/
theorem C67_square_root (ρ : IntStore) (hr : ∀ i, InRange (ρ i)) (hn : 0 ≤ ρ 0) (hn1 : InRange (ρ 0 + 1)) (σ : Store) (hσ : σ.Shows ρ) :
    EndsWith squareRoot σ fun ρ' => 0 ≤ ρ' 1 ∧ ρ' 1 * ρ' 1 ≤ ρ 0 ∧ ρ 0 < (ρ' 1 + 1) * (ρ' 1 + 1) :=
  (squareRoot_total hr hn hn1).endsWith hσ

/-- C67: the extended algorithm gives, for any value and modulus, the greatest common divisor and a
factor that turns the value into it; an inverse if they have no common divisor. -/
theorem C67_inverse (ρ : IntStore) (hr : ∀ i, InRange (ρ i)) (ha : 0 ≤ ρ 0) (hm : 2 ≤ ρ 1) (hmm : InRange (ρ 1 * ρ 1 + ρ 1))
    (σ : Store) (hσ : σ.Shows ρ) :
    EndsWith inverseMod σ fun ρ' => ρ' 4 = Int.gcd (ρ 0) (ρ 1) ∧ 0 ≤ ρ' 2 ∧ ρ' 2 < ρ 1 ∧ ρ 1 ∣ ρ' 2 * ρ 0 - ρ' 4 :=
  (inverseMod_total hr ha hm hmm).endsWith hσ

/-- C67: so for a value without common divisor with the modulus the product is 1 modulo the modulus. -/
theorem C67_inverse_coprime (ρ : IntStore) (hr : ∀ i, InRange (ρ i)) (ha : 0 ≤ ρ 0) (hm : 2 ≤ ρ 1) (hmm : InRange (ρ 1 * ρ 1 + ρ 1))
    (hc : Int.gcd (ρ 0) (ρ 1) = 1) (σ : Store) (hσ : σ.Shows ρ) : EndsWith inverseMod σ fun ρ' => (ρ' 2 * ρ 0) % ρ 1 = 1 := by
  obtain ⟨n, σ', ρ', h1, h2, h3, h4, h5, h6⟩ := C67_inverse ρ hr ha hm hmm σ hσ
  refine ⟨n, σ', ρ', h1, h2, ?_⟩
  rw [hc] at h3
  rw [h3] at h6
  have e : (ρ' 2 * ρ 0) % ρ 1 = 1 % ρ 1 := Int.emod_eq_emod_iff_emod_sub_eq_zero.2 (Int.emod_eq_zero_of_dvd h6)
  rw [e]
  exact Int.emod_eq_of_lt (by decide) (by omega)

/-- C67: the product `1 · 2 · … · n`. -/
theorem C67_factorial (ρ : IntStore) (hr : ∀ i, InRange (ρ i)) (n : Nat) (hn : ρ 0 = n) (hf : InRange (n.factorial : Int))
    (σ : Store) (hσ : σ.Shows ρ) : EndsWith factorialOf σ fun ρ' => ρ' 1 = n.factorial := (factorialOf_total hr n hn hf).endsWith hσ

/-- C67: Fermat's little theorem observed through the operators: for a prime modulus of any size the
power with exponent `p - 1` is 1. -/
theorem C67_fermat (p : Nat) (hp : p.Prime) (ρ : IntStore) (hr : ∀ i, InRange (ρ i)) (h2 : ρ 2 = p) (h1 : ρ 1 = p - 1)
    (h0 : 0 ≤ ρ 0) (hnd : ¬ (p : Int) ∣ ρ 0) (hmm : InRange (ρ 2 * ρ 2)) (σ : Store) (hσ : σ.Shows ρ) :
    EndsWith powerMod σ fun ρ' => ρ' 3 = 1 := by
  have hp1 := hp.two_le
  obtain ⟨n, σ', ρ', e1, e2, e3⟩ := C67_power_mod ρ hr (p - 1) (by rw [h1]; omega) (by rw [h2]; omega) hmm σ hσ
  refine ⟨n, σ', ρ', e1, e2, ?_⟩
  show ρ' 3 = 1
  rw [e3, h2, Int.tmod_eq_emod_of_nonneg (pow_nonneg h0 _)]
  have := Int.ModEq.pow_card_sub_one_eq_one hp (n := ρ 0) (by
    exact ((Nat.prime_iff_prime_int.1 hp).irreducible.coprime_iff_not_dvd.2 hnd).symm)
  rw [this.eq]
  exact Int.emod_eq_of_lt (by decide) (by omega)

/-- C67: RSA.  For distinct primes `p`, `q` and exponents with `e · d ≡ 1` modulo `p - 1` and modulo
`q - 1`, encrypting and decrypting modulo `p · q` returns every message. -/
theorem C67_rsa (p q e d : Nat) (hp : p.Prime) (hq : q.Prime) (hpq : p ≠ q) (hd1 : p - 1 ∣ e * d - 1) (hd2 : q - 1 ∣ e * d - 1)
    (hed : 0 < e * d) (ρ : IntStore) (hr : ∀ i, InRange (ρ i)) (h1 : ρ 1 = e) (h4 : ρ 4 = d) (h2 : ρ 2 = p * q)
    (h0 : 0 ≤ ρ 0) (hlt : ρ 0 < p * q) (hmm : InRange (ρ 2 * ρ 2)) (σ : Store) (hσ : σ.Shows ρ) :
    EndsWith encryptDecrypt σ fun ρ' => ρ' 3 = ρ 0 := by
  have hn : (0 : Int) < p * q := by have := hp.pos; have := hq.pos; positivity
  refine ((encryptDecrypt_total hr e d h1 h4 (by rw [h2]; omega) hmm).mono fun ρ' h => ?_).endsWith hσ
  rw [h, h2, Int.tmod_eq_emod_of_nonneg (pow_nonneg (pow_nonneg h0 _) _)]
  have := (pow_modEq_self hp hq hpq (ρ 0) hd1 hd2 hed).eq
  push_cast at this
  rw [this, Int.emod_eq_of_lt h0 hlt]

/-! ### Cases that meet the hypotheses -/

/-- Objects showing a list of values, zero after its end. -/
def storeOf (l : List BigInt) : Store := fun i => l.getD i ⟨0, []⟩
def valuesOf (l : List Int) : IntStore := fun i => l.getD i 0

theorem storeOf_shows : ∀ {l : List BigInt} {v : List Int}, List.Forall₂ (fun x z => x.Denotes z) l v → (storeOf l).Shows (valuesOf v)
  | [], [], _, i => BigInt.denotes_small (by decide) (by decide)
  | _ :: _, _ :: _, .cons h hs, i => by
    cases i with
    | zero => exact h
    | succ i => exact storeOf_shows hs i

omit [Cfg] in
theorem valuesOf_inRange : ∀ {v : List Int}, (∀ z ∈ v, z.natAbs < 2 ^ 128) → ∀ i, InRange (valuesOf v i)
  | [], _, i => inRange_of_word (n := 0) (by decide)
  | z :: v, h, i => by
    cases i with
    | zero =>
      exact lt_trans (h z List.mem_cons_self) (Nat.pow_lt_pow_right (by decide) (by decide))
    | succ i => exact valuesOf_inRange (fun z hz => h z (List.mem_cons_of_mem _ hz)) i

omit [Cfg] in
theorem inRange_of_words {z : Int} (h : z.natAbs < 2 ^ 200) : InRange z :=
  lt_trans h (Nat.pow_lt_pow_right (by decide) (by decide))

/-- The pair of `C19_wrong`, `2^96` and `3 * 2^94`: Euclid's algorithm finds `2^94`. -/
example : EndsWith gcdOf (storeOf [⟨1, [0, 0, 0, 1]⟩, ⟨1, [0, 0, 3221225472]⟩]) fun ρ' => ρ' 0 = 2 ^ 94 := by
  have h1 : (BigInt.mk 1 [0, 0, 0, 1]).Denotes (2 ^ 96) :=
    BigInt.denotes_big (.inl rfl) (by decide) (by decide) (by decide) (by decide) (by decide)
  have h2 : (BigInt.mk 1 [0, 0, 3221225472]).Denotes (3 * 2 ^ 94) :=
    BigInt.denotes_big (.inl rfl) (by decide) (by decide) (by decide) (by decide) (by decide)
  have := C67_euclid (valuesOf [2 ^ 96, 3 * 2 ^ 94]) (valuesOf_inRange (by decide)) _ (storeOf_shows (.cons h1 (.cons h2 .nil)))
  rwa [show Int.gcd (valuesOf [2 ^ 96, 3 * 2 ^ 94] 0) (valuesOf [2 ^ 96, 3 * 2 ^ 94] 1) = 2 ^ 94 by decide +kernel] at this

/-- `38654705667 ^ 42 % -18446744103774322693`. -/
example : EndsWith powerMod (storeOf [Samples.pos2, ⟨42, []⟩, Samples.neg3]) fun ρ' => ρ' 3 = 762990751165916183 := by
  have := C67_power_mod (valuesOf [38654705667, 42, -18446744103774322693]) (valuesOf_inRange (by decide)) 42 rfl (by decide)
    (inRange_of_words (by decide)) _ (storeOf_shows (.cons Samples.pos2_denotes
      (.cons (BigInt.denotes_small (by decide) (by decide)) (.cons Samples.neg3_denotes .nil))))
  rwa [show (valuesOf [38654705667, 42, -18446744103774322693] 0 ^ 42).tmod (valuesOf [38654705667, 42, -18446744103774322693] 2) =
    762990751165916183 by decide +kernel] at this

/-- The square root of `38654705667`. -/
example : EndsWith squareRoot (storeOf [Samples.pos2]) fun ρ' => ρ' 1 = 196608 := by
  obtain ⟨n, σ', ρ', h1, h2, h3, h4, h5⟩ := C67_square_root (valuesOf [38654705667]) (valuesOf_inRange (by decide)) (by decide)
    (inRange_of_words (by decide)) _ (storeOf_shows (.cons Samples.pos2_denotes .nil))
  refine ⟨n, σ', ρ', h1, h2, ?_⟩
  have h6 : valuesOf [38654705667] 0 = 38654705667 := rfl
  rw [h6] at h4 h5
  show ρ' 1 = 196608
  nlinarith

/-- The inverse of `41` modulo `38654705667`. -/
example : EndsWith inverseMod (storeOf [⟨41, []⟩, Samples.pos2]) fun ρ' => (ρ' 2 * 41) % 38654705667 = 1 :=
  C67_inverse_coprime (valuesOf [41, 38654705667]) (valuesOf_inRange (by decide)) (by decide) (by decide)
    (inRange_of_words (by decide)) (by decide +kernel) _ (storeOf_shows (.cons (BigInt.denotes_small (by decide) (by decide)) (.cons Samples.pos2_denotes .nil)))

example : EndsWith inverseMod (storeOf [⟨42, []⟩, Samples.pos2]) fun ρ' => ρ' 4 = 3 := by
  obtain ⟨n, σ', ρ', h1, h2, h3, -⟩ := C67_inverse (valuesOf [42, 38654705667]) (valuesOf_inRange (by decide)) (by decide) (by decide)
    (inRange_of_words (by decide)) _ (storeOf_shows (.cons (BigInt.denotes_small (by decide) (by decide)) (.cons Samples.pos2_denotes .nil)))
  exact ⟨n, σ', ρ', h1, h2, h3.trans (by decide +kernel)⟩

/-- `25!`. -/
example : EndsWith factorialOf (storeOf [⟨25, []⟩]) fun ρ' => ρ' 1 = 15511210043330985984000000 :=
  C67_factorial (valuesOf [25]) (valuesOf_inRange (by decide)) 25 rfl (inRange_of_words (by decide)) _
    (storeOf_shows (.cons (BigInt.denotes_small (by decide) (by decide)) .nil))

/-- A base of two words and the prime 65537. -/
example : EndsWith powerMod (storeOf [Samples.pos2, ⟨65536, []⟩, ⟨65537, []⟩]) fun ρ' => ρ' 3 = 1 :=
  C67_fermat 65537 (by norm_num) (valuesOf [38654705667, 65536, 65537]) (valuesOf_inRange (by decide)) rfl (by decide) (by decide) (by decide)
    (inRange_of_words (by decide)) _ (storeOf_shows (.cons Samples.pos2_denotes
      (.cons (BigInt.denotes_small (by decide) (by decide)) (.cons (BigInt.denotes_small (by decide) (by decide)) .nil))))

/-- RSA with the primes 61 and 53 and the exponents 17 and 2753. -/
example : EndsWith encryptDecrypt (storeOf [⟨65, []⟩, ⟨17, []⟩, ⟨3233, []⟩, ⟨0, []⟩, ⟨2753, []⟩]) fun ρ' => ρ' 3 = 65 :=
  C67_rsa 61 53 17 2753 (by norm_num) (by norm_num) (by decide) (by decide) (by decide) (by decide) (valuesOf [65, 17, 3233, 0, 2753])
    (valuesOf_inRange (by decide)) rfl rfl rfl (by decide) (by decide) (inRange_of_words (by decide)) _
    (storeOf_shows (.cons (BigInt.denotes_small (by decide) (by decide)) (.cons (BigInt.denotes_small (by decide) (by decide))
      (.cons (BigInt.denotes_small (by decide) (by decide)) (.cons (BigInt.denotes_small (by decide) (by decide))
        (.cons (BigInt.denotes_small (by decide) (by decide)) .nil))))))

end BigIntegerCpp
