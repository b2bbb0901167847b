import Verif.Lemmas.ModPowSafe
import Verif.Props.Pow
import Verif.Props.PointerBuf
/-
C83: `mod_pow` with a modulus of 32 words or more is often wrong (C18), but apart from the powers of
`2^32` no such modulus makes it access memory out of bounds, overflow or divide by zero, whatever the
value and the exponent.
-/
namespace BigIntegerCpp
open Samples
variable [Cfg]

/-- With any modulus from `2^992` on that is not a power of `2^32`, `mod_pow` returns a number of at
most twice as many words as the modulus, zero or of the sign of the power; in a debug build an
assertion may fail instead. -/
theorem C83_mod_pow_safe (a e m : BigInt) (x z : Int) (n : Nat) (ha : a.Denotes x) (he : e.Denotes n) (hm : m.Denotes z)
    (fa : a.Fits) (hz : 2 ^ 992 ≤ |z|) (fm : m.bits.length < 2 ^ 30 - 1) (hp : ¬ ∃ k : Nat, |z| = (2 ^ 32) ^ k) :
    (∃ y, Returns (a.modPow e m) y ∧ |y| < 2 ^ (64 * m.bits.length) ∧ 0 ≤ y * x ^ n) ∨
      (a.modPow e m = .abort ∧ Cfg.ndebug = false) := by
  have hc : z.natAbs ≠ 𝔹 ^ (m.bits.length - 1) := fun h => hp ⟨m.bits.length - 1, by
    rw [Int.abs_eq_natAbs, h]; push_cast; rfl⟩
  rcases BigInt.modPow_safe ha he hm (len32 hm hz) (Nat.lt_succ_of_lt fa) (by omega) hc with ⟨r, e1, v, hv, hr⟩ | h
  · refine .inl ⟨_, ⟨r, e1, hr⟩, ?_, ?_⟩
    · have h2 : v < 2 ^ (64 * m.bits.length) := by
        rw [base_pow] at hv
        rwa [show 64 * m.bits.length = 32 * (m.bits.length + m.bits.length) by omega]
      have h3 : (v : Int) < 2 ^ (64 * m.bits.length) := by exact_mod_cast h2
      have h4 : |(if x < 0 ∧ n % 2 ≠ 0 then -(v : Int) else v)| = v := by
        by_cases h : x < 0 ∧ n % 2 ≠ 0
        · rw [if_pos h, abs_neg, abs_of_nonneg (by positivity)]
        · rw [if_neg h, abs_of_nonneg (by positivity)]
      rw [h4]; exact h3
    · by_cases h : x < 0 ∧ n % 2 ≠ 0
      · rw [if_pos h]
        have := Odd.pow_neg (n := n) (Nat.odd_iff.2 (by omega)) h.1
        nlinarith [Int.natCast_nonneg v]
      · rw [if_neg h]
        refine mul_nonneg (by positivity) ?_
        rcases not_and_or.1 h with h | h
        · exact pow_nonneg (not_lt.1 h) n
        · exact Even.pow_nonneg (Nat.even_iff.2 (not_not.1 h)) x
  · exact .inr h

/-- Release builds: it returns. -/
theorem C83_release (a e m : BigInt) (x z : Int) (n : Nat) (ha : a.Denotes x) (he : e.Denotes n) (hm : m.Denotes z)
    (fa : a.Fits) (hz : 2 ^ 992 ≤ |z|) (fm : m.bits.length < 2 ^ 30 - 1) (hp : ¬ ∃ k : Nat, |z| = (2 ^ 32) ^ k)
    (hrel : Cfg.ndebug = true) :
    ∃ y, Returns (a.modPow e m) y ∧ |y| < 2 ^ (64 * m.bits.length) ∧ 0 ≤ y * x ^ n :=
  (C83_mod_pow_safe a e m x z n ha he hm fa hz fm hp).resolve_right fun h => by rw [hrel] at h; exact absurd h.2 (by decide)

/-- The call ends in a failed assertion. -/
def isAbort : Res BigInt → Bool | .abort => true | _ => false
omit [Cfg] in
theorem isAbort_eq {r : Res BigInt} (h : isAbort r = true) : r = .abort := by cases r <;> first | rfl | cases h

/-- Any nonzero modulus that is not a power of `2^32` from `2^992` on: no exception, no endless loop
and no undefined behaviour. -/
theorem C83_any_modulus (a e m : BigInt) (x z : Int) (n : Nat) (ha : a.Denotes x) (he : e.Denotes n) (hm : m.Denotes z)
    (fa : a.Fits) (hz : z ≠ 0) (fm : m.bits.length < 2 ^ 30 - 1) (hp : ¬ ∃ k : Nat, 31 ≤ k ∧ |z| = (2 ^ 32) ^ k) :
    (∃ y, Returns (a.modPow e m) y) ∨ (a.modPow e m = .abort ∧ Cfg.ndebug = false) := by
  rcases lt_or_ge |z| (2 ^ 992) with h | h
  · exact .inl ⟨_, C16_below_992_bits a e m x z n ha he hm fa hz h⟩
  · have hp' : ¬ ∃ k : Nat, |z| = (2 ^ 32) ^ k := by
      rintro ⟨k, hk⟩
      refine hp ⟨k, ?_, hk⟩
      by_contra hlt
      have h1 : ((2 : Int) ^ 32) ^ k < (2 ^ 32) ^ 31 := pow_lt_pow_right₀ (by decide) (by omega)
      rw [← hk, ← pow_mul] at h1
      exact absurd h1 (not_lt.2 h)
    rcases C83_mod_pow_safe a e m x z n ha he hm fa h fm hp' with ⟨y, h1, -⟩ | h
    · exact .inl ⟨y, h1⟩
    · exact .inr h

/-- `2^2048 - t`, where `t^4` is a little below a multiple of `2^2048`. -/
def high64 : BigInt :=
  ⟨1, [1583250958, 3122495379, 3384038293, 1596845250, 909399938, 3118348340, 1691498295, 2142072735, 850657971,
    1175554690, 547951647, 3793190902, 4262971753, 419876578, 3146718448, 952282682, 4294967294] ++ List.replicate 47 4294967295⟩
/-- `2^2047 + 2^2040`. -/
def mod64 : BigInt := ⟨1, List.replicate 63 0 ++ [2164260864]⟩

theorem high64_denotes : high64.Denotes high64.toInt :=
  BigInt.denotes_big (.inl rfl) (by decide) (by decide +kernel) (by decide +kernel) (by decide +kernel) (by decide +kernel)
theorem mod64_denotes : mod64.Denotes (2 ^ 2047 + 2 ^ 2040) :=
  BigInt.denotes_big (.inl rfl) (by decide) (by decide +kernel) (by decide +kernel) (by decide +kernel) (by decide +kernel)

omit [Cfg] in
theorem mod64_not_power : ¬ ∃ k : Nat, |(2 : Int) ^ 2047 + 2 ^ 2040| = (2 ^ 32) ^ k := by
  rintro ⟨k, hk⟩
  rcases Nat.lt_or_ge k 64 with h | h
  · have h1 : ((2 : Int) ^ 32) ^ k ≤ (2 ^ 32) ^ 63 := pow_le_pow_right₀ (by decide) (by omega)
    rw [← hk] at h1
    exact absurd h1 (by decide +kernel)
  · have h1 : ((2 : Int) ^ 32) ^ 64 ≤ (2 ^ 32) ^ k := pow_le_pow_right₀ (by decide) h
    rw [← hk] at h1
    exact absurd h1 (by decide +kernel)

/-- An assertion does fail in a debug build: a product computed over old words carries out of its
buffer. -/
theorem C83_debug_abort (hdeb : Cfg.ndebug = false) : ∃ (a e m : BigInt) (x z : Int), a.Denotes x ∧ e.Denotes 5 ∧ m.Denotes z ∧
    a.Fits ∧ 2 ^ 992 ≤ |z| ∧ m.bits.length < 2 ^ 30 - 1 ∧ (¬ ∃ k : Nat, |z| = (2 ^ 32) ^ k) ∧ a.modPow e m = .abort := by
  refine ⟨high64, ⟨5, []⟩, mod64, _, _, high64_denotes, BigInt.denotes_small (by decide) (by decide), mod64_denotes, by decide,
    by decide +kernel, by decide, mod64_not_power, ?_⟩
  rename_i c
  obtain ⟨d, s⟩ := c
  obtain rfl : d = false := hdeb
  cases s
  · exact isAbort_eq (by decide +kernel)
  · exact isAbort_eq (by decide +kernel)

omit [Cfg] in
theorem val_replicate_max (n : Nat) : val (List.replicate n 4294967295) + 1 = 𝔹 ^ n := by
  induction n with
  | zero => rfl
  | succ n ih => rw [List.replicate_succ, val_cons, pow_succ]; omega

theorem denotes_max {L : Nat} (hL : 1 ≤ L) : BigInt.Denotes ⟨1, List.replicate L 4294967295⟩ ((2 : Int) ^ (32 * L) - 1) := by
  have hv := val_replicate_max L
  rw [base_pow] at hv
  have h1 : 2 ^ 32 ≤ 2 ^ (32 * L) := Nat.pow_le_pow_right (by decide) (by omega)
  obtain ⟨k, rfl⟩ : ∃ k, L = k + 1 := ⟨L - 1, by omega⟩
  refine BigInt.denotes_big (.inl rfl) (by simp) ?_ ?_ (by omega) ?_
  · intro w hw
    rw [List.eq_of_mem_replicate hw]; decide
  · rw [List.replicate_succ', List.getLast?_concat]; simp
  · have h2 : ((2 ^ (32 * (k + 1)) : Nat) : Int) = (val (List.replicate (k + 1) 4294967295) : Int) + 1 := by rw [← hv]; push_cast; rfl
    push_cast at h2 ⊢
    omega

/-- The exact set: a modulus from `2^992` on is safe for all values and exponents if and only if it
is not, up to sign, a power of `2^32`. -/
theorem C83_safe_iff (m : BigInt) (z : Int) (hm : m.Denotes z) (hz : 2 ^ 992 ≤ |z|) (fm : m.bits.length < 2 ^ 30 - 1) :
    (∀ (a e : BigInt) (x : Int) (n : Nat), a.Denotes x → e.Denotes n → a.Fits → ∀ u, a.modPow e m ≠ .ub u) ↔
      ¬ ∃ k : Nat, |z| = (2 ^ 32) ^ k := by
  constructor
  · rintro h ⟨k, hk⟩
    have hz2 : z.natAbs = 2 ^ (32 * k) := by
      have : (z.natAbs : Int) = ((2 ^ (32 * k) : Nat) : Int) := by rw [← Int.abs_eq_natAbs, hk, ← pow_mul]; norm_cast
      exact_mod_cast this
    have hk1 : 1 ≤ k := by
      by_contra hc
      obtain rfl : k = 0 := by omega
      rw [hk] at hz
      exact absurd hz (by decide +kernel)
    have hL : m.bits.length - 1 = k := by
      have h1 := hm.lt_length (k := k) (le_of_eq hz2.symm) hk1
      have h2 := hm.length_le_of_lt (k := k + 1) (by rw [hz2]; exact Nat.pow_lt_pow_right (by decide) (by omega))
      omega
    have h32 := len32 hm hz
    have hx : (((2 : Int) ^ (32 * m.bits.length) - 1)).natAbs = 2 ^ (32 * m.bits.length) - 1 := by
      have h1 : 1 ≤ 2 ^ (32 * m.bits.length) := Nat.one_le_two_pow
      have h2 : ((2 ^ (32 * m.bits.length) : Nat) : Int) = (2 : Int) ^ (32 * m.bits.length) := by push_cast; rfl
      omega
    refine h ⟨1, List.replicate m.bits.length 4294967295⟩ ⟨2, []⟩ _ 2 (denotes_max (by omega)) (BigInt.denotes_small (by decide) (by decide))
      (by unfold BigInt.Fits; simp; omega) .outOfBounds ?_
    refine C18_overrun _ _ m _ z (denotes_max (by omega)) (BigInt.denotes_small (by decide) (by decide)) hm hz fm (by simp) ?_ ?_
    · rw [hL]; exact hz2
    · rw [hx]
      have h1 : 2 ^ (32 * (m.bits.length + m.bits.length - 1)) * 2 ^ 32 = 2 ^ (32 * m.bits.length) * 2 ^ (32 * m.bits.length) := by
        rw [← Nat.pow_add, ← Nat.pow_add]; congr 1; omega
      have h2 : 2 ^ 32 ≤ 2 ^ (32 * m.bits.length) := Nat.pow_le_pow_right (by decide) (by omega)
      generalize 2 ^ (32 * (m.bits.length + m.bits.length - 1)) = R at *
      generalize 2 ^ (32 * m.bits.length) = Q at *
      obtain ⟨q, rfl⟩ : ∃ q, Q = q + 1 := ⟨Q - 1, by omega⟩
      rw [Nat.add_sub_cancel]
      nlinarith
  · intro hp a e x n ha he fa u hu
    rcases C83_mod_pow_safe a e m x z n ha he hm fa hz fm hp with ⟨y, ⟨r, h1, -⟩, -⟩ | h
    · rw [hu] at h1; cases h1
    · rw [hu] at h; cases h.1

/-- The same for arrays anywhere in memory, which stays as it was; exponents of one word and of several. -/
theorem C83_memory (m : Mem) (value modulus : Ptr) (k n x z p : Nat) (ps : List Nat) (hk : 1 ≤ k) (hk2 : k < 2 ^ 31) (hn : 32 ≤ n) (hn2 : n < 2 ^ 30 - 1)
    (hx : m.Number value k x) (hz : m.Number modulus n z) (htop : 2 ^ (32 * (n - 1)) < z) (hps : ps ≠ []) :
    ∀ r, r = modPowMem (modPowBaseMem value k modulus n) (powCoreModMem p modulus n) m ∨
        r = modPowMem (modPowBaseMem value k modulus n) (powCoreModWordsMem ps modulus n) m →
      (∃ ws, r = .ok (ws, m) ∧ WordsOk ws ∧ ws.length = 2 * n) ∨ (r = .abort ∧ Cfg.ndebug = false) := by
  obtain ⟨xs, rfl, wx, rfl, ax⟩ := hx
  obtain ⟨ms, rfl, wm, rfl, am⟩ := hz
  have hne : ms ≠ [] := List.length_pos_iff.1 (by omega)
  have ht := top_ne_zero wm (le_of_lt htop)
  obtain ⟨b, v, e1, k1, k2, k3⟩ := base_value wx wm hne ht hk2 (by omega)
  have hc : val ms ≠ 𝔹 ^ (ms.length - 1) := by rw [base_pow]; omega
  have hb := loose_of_buf k1 k2
  have key : ∀ {f : Res (List Nat)} {r : Res (List Nat × Mem)}, f.Safe (Block (ms.length + ms.length)) → r = (f >>= fun ws => .ok (ws, m)) →
      (∃ ws, r = .ok (ws, m) ∧ WordsOk ws ∧ ws.length = 2 * ms.length) ∨ (r = .abort ∧ Cfg.ndebug = false) := by
    rintro f r (⟨ws, rfl, h1, h2⟩ | ⟨rfl, h⟩) rfl
    · exact .inl ⟨ws, rfl, h1, by omega⟩
    · exact .inr ⟨rfl, h⟩
  have nub : ∀ {f : Res (List Nat)}, f.Safe (Block (ms.length + ms.length)) → f ≠ .ub .outOfBounds := by
    rintro f (⟨ws, rfl, -⟩ | ⟨rfl, -⟩) h <;> cases h
  have s1 : (modPowBase xs ms >>= fun v => powCoreMod p ms v).Safe (Block (ms.length + ms.length)) := by
    rw [e1]; exact powCoreMod_safe wm hne ht hn (by omega) hc hb p
  have s2 : (modPowBase xs ms >>= fun v => powCoreModWords ps ms v).Safe (Block (ms.length + ms.length)) := by
    rw [e1]; exact powCoreModWords_safe wm hne ht hn (by omega) hc hps hb
  obtain ⟨h1, h2⟩ := C82_mod_pow_model m value modulus xs ms ps p ax hk am (by omega)
  rintro r (rfl | rfl)
  · exact key s1 (h1 (nub s1))
  · exact key s2 (h2 (nub s2))

omit [Cfg] in
theorem big32_not_power : ¬ ∃ k : Nat, |(2 : Int) ^ 1023 + 1| = (2 ^ 32) ^ k := by
  rintro ⟨k, hk⟩
  rcases Nat.eq_zero_or_pos k with rfl | h
  · exact absurd hk (by decide +kernel)
  · obtain ⟨j, rfl⟩ : ∃ j, k = j + 1 := ⟨k - 1, by omega⟩
    have h1 : |(2 : Int) ^ 1023 + 1| % 2 = 1 := by decide +kernel
    rw [hk, pow_succ] at h1
    omega

/-- `mod_pow(2^1023 + 2, 38654705667, 2^1023 + 1)`. -/
example : (∃ y, Returns (big32'.modPow pos2 big32) y ∧ |y| < 2 ^ (64 * big32.bits.length) ∧ 0 ≤ y * (2 ^ 1023 + 2) ^ 38654705667) ∨
    (big32'.modPow pos2 big32 = .abort ∧ Cfg.ndebug = false) :=
  C83_mod_pow_safe _ _ _ _ _ 38654705667 big32'_denotes pos2_denotes big32_denotes (by decide) (by decide +kernel) (by decide)
    big32_not_power
example (h : Cfg.ndebug = true) : ∃ y, Returns (big32'.modPow pos2 big32) y ∧ |y| < 2 ^ (64 * big32.bits.length) ∧
    0 ≤ y * (2 ^ 1023 + 2) ^ 38654705667 :=
  C83_release _ _ _ _ _ 38654705667 big32'_denotes pos2_denotes big32_denotes (by decide) (by decide +kernel) (by decide)
    big32_not_power h
/-- A modulus of two words. -/
example : (∃ y, Returns (neg3.modPow pos2 neg3) y) ∨ (neg3.modPow pos2 neg3 = .abort ∧ Cfg.ndebug = false) :=
  C83_any_modulus _ _ _ _ _ 38654705667 neg3_denotes pos2_denotes neg3_denotes neg3_fits (by decide) (by decide) (by
    rintro ⟨k, h1, h2⟩
    have h3 : ((2 : Int) ^ 32) ^ 31 ≤ (2 ^ 32) ^ k := pow_le_pow_right₀ (by decide) h1
    rw [← h2] at h3
    exact absurd h3 (by decide +kernel))
/-- `2^1023 + 1` is safe, `-2^992` is not. -/
example : (∀ (a e : BigInt) (x : Int) (n : Nat), a.Denotes x → e.Denotes n → a.Fits → ∀ u, a.modPow e big32 ≠ .ub u) :=
  (C83_safe_iff big32 _ big32_denotes (by decide +kernel) (by decide)).2 big32_not_power
example : ¬ ∀ (a e : BigInt) (x : Int) (n : Nat), a.Denotes x → e.Denotes n → a.Fits → ∀ u,
    a.modPow e ⟨-1, List.replicate 31 0 ++ [1]⟩ ≠ .ub u := fun h =>
  (C83_safe_iff ⟨-1, List.replicate 31 0 ++ [1]⟩ (-2 ^ 992)
    (BigInt.denotes_big (.inr rfl) (by decide) (by decide) (by decide) (by decide +kernel) (by decide +kernel))
    (by decide +kernel) (by decide)).1 h ⟨31, by decide +kernel⟩

/-- Value and modulus in one block, the modulus `2^992 + 2^960 + ... + 2^32 + 1` of 32 words. -/
example : (∃ ws, modPowMem (modPowBaseMem ⟨0, 0⟩ 2 ⟨0, 2⟩ 32) (powCoreModMem 77 ⟨0, 2⟩ 32) [5 :: 6 :: List.replicate 32 1] =
      .ok (ws, [5 :: 6 :: List.replicate 32 1]) ∧ WordsOk ws ∧ ws.length = 2 * 32) ∨
    (modPowMem (modPowBaseMem ⟨0, 0⟩ 2 ⟨0, 2⟩ 32) (powCoreModMem 77 ⟨0, 2⟩ 32) [5 :: 6 :: List.replicate 32 1] = .abort ∧ Cfg.ndebug = false) :=
  C83_memory _ ⟨0, 0⟩ ⟨0, 2⟩ 2 32 _ _ 77 [1, 2, 3] (by decide) (by decide) (by decide) (by decide)
    ⟨[5, 6], rfl, by decide, rfl, by decide⟩ ⟨List.replicate 32 1, rfl, by decide, rfl, by decide⟩ (by decide +kernel) (by decide) _ (.inl rfl)

end BigIntegerCpp
