import Verif.ProgramSpec
import Verif.Model.UserPrograms
import Mathlib.Tactic.Ring
import Mathlib.Tactic.Linarith
import Mathlib.Data.Int.GCD
import Mathlib.Algebra.Order.Ring.Abs
import Mathlib.Algebra.Order.Ring.Int
import Mathlib.Data.Int.ModEq
import Mathlib.FieldTheory.Finite.Basic
import Mathlib.Data.Nat.Factorial.Basic
/-
Total correctness of programs over integers, statement by statement.
-/
namespace BigIntegerCpp

/-- Evaluates variables in a store written out. -/
macro "eval_store" : tactic => `(tactic| simp only [IntStore.set, ↓reduceIte, Nat.reduceEqDiff, OfNat.ofNat_ne_zero, OfNat.zero_ne_ofNat,
  one_ne_zero, zero_ne_one, OfNat.ofNat_ne_one, OfNat.one_ne_ofNat])
macro "eval_store" "at" h:ident : tactic => `(tactic| simp only [IntStore.set, ↓reduceIte, Nat.reduceEqDiff, OfNat.ofNat_ne_zero, OfNat.zero_ne_ofNat,
  one_ne_zero, zero_ne_one, OfNat.ofNat_ne_one, OfNat.one_ne_ofNat] at $h:ident)

/-- The program ends normally, in a state with `Q`. -/
def Total (p : Prog) (ρ : IntStore) (Q : IntStore → Prop) : Prop := ∃ ρ', Runs p ρ none ρ' ∧ Q ρ'

/-- All variables are in range. -/
def AllIn (ρ : IntStore) : Prop := ∀ i, InRange (ρ i)

theorem InRange.mono {x y : Int} (h : InRange y) (hx : x.natAbs ≤ y.natAbs) : InRange x := lt_of_le_of_lt hx h

theorem inRange_of_word {n : Int} (h : n.natAbs ≤ 2 ^ 31) : InRange n := by
  refine lt_of_le_of_lt h (Nat.pow_lt_pow_right (by decide) ?_)
  decide

theorem AllIn.set {ρ : IntStore} (h : AllIn ρ) (x : Nat) {v : Int} (hv : InRange v) : AllIn (ρ.set x v) := by
  intro i
  unfold IntStore.set
  by_cases hi : i = x
  · rw [if_pos hi]; exact hv
  · rw [if_neg hi]; exact h i

theorem Total.mono {p : Prog} {ρ : IntStore} {Q R : IntStore → Prop} (h : Total p ρ Q) (hq : ∀ ρ', Q ρ' → R ρ') : Total p ρ R := by
  obtain ⟨ρ', h1, h2⟩ := h
  exact ⟨ρ', h1, hq ρ' h2⟩

theorem total_skip {ρ : IntStore} {Q : IntStore → Prop} (h : Q ρ) : Total .skip ρ Q := ⟨ρ, .skip ρ, h⟩

theorem total_seq {p q : Prog} {ρ : IntStore} {Q : IntStore → Prop} (h : Total p ρ fun ρ' => Total q ρ' Q) : Total (.seq p q) ρ Q := by
  obtain ⟨ρ1, h1, ρ2, h2, h3⟩ := h
  exact ⟨ρ2, .seq _ _ _ _ _ _ h1 h2, h3⟩

theorem total_if {c : Cond} {p q : Prog} {ρ : IntStore} {Q : IntStore → Prop} (hr : AllIn ρ) (h1 : c.Holds ρ → Total p ρ Q)
    (h2 : ¬ c.Holds ρ → Total q ρ Q) : Total (.ifThen c p q) ρ Q := by
  by_cases h : c.Holds ρ
  · obtain ⟨ρ', e1, e2⟩ := h1 h
    exact ⟨ρ', .ifTrue _ _ _ _ _ _ hr h e1, e2⟩
  · obtain ⟨ρ', e1, e2⟩ := h2 h
    exact ⟨ρ', .ifFalse _ _ _ _ _ _ hr h e1, e2⟩

/-- A loop with an invariant and a measure. -/
theorem total_while {c : Cond} {p : Prog} (I : IntStore → Prop) (μ : IntStore → Nat) (hI : ∀ ρ, I ρ → AllIn ρ)
    (step : ∀ ρ, I ρ → c.Holds ρ → Total p ρ fun ρ' => I ρ' ∧ μ ρ' < μ ρ) {ρ : IntStore} {Q : IntStore → Prop} (h : I ρ)
    (hQ : ∀ ρ, I ρ → ¬ c.Holds ρ → Q ρ) : Total (.whileDo c p) ρ Q := by
  generalize hn : μ ρ = n
  induction n using Nat.strongRecOn generalizing ρ with
  | ind n ih =>
  by_cases hc : c.Holds ρ
  · obtain ⟨ρ1, h1, h2, h3⟩ := step ρ h hc
    obtain ⟨ρ2, h4, h5⟩ := ih (μ ρ1) (by omega) h2 rfl
    exact ⟨ρ2, .whileTrue _ _ _ _ _ _ (hI ρ h) hc h1 h4, h5⟩
  · exact ⟨ρ, .whileFalse _ _ _ (hI ρ h) hc, hQ ρ h hc⟩

/-- A statement that writes one variable. -/
theorem total_set {s : Stmt} {ρ : IntStore} {Q : IntStore → Prop} (x : Nat) (v : Int) (hr : AllIn ρ) (hs : s.Safe ρ)
    (hm : s.meaning ρ = .ok (ρ.set x v)) (hv : InRange v) (h : AllIn (ρ.set x v) → Q (ρ.set x v)) : Total (.stmt s) ρ Q :=
  ⟨ρ.set x v, .stmt s ρ _ hr hs hm (hr.set x hv), h (hr.set x hv)⟩

section
variable {ρ : IntStore} {Q : IntStore → Prop} (hr : AllIn ρ)
include hr

theorem total_copy {z x : Nat} (h : AllIn (ρ.set z (ρ x)) → Q (ρ.set z (ρ x))) : Total (.stmt (.unary .copy z x)) ρ Q :=
  total_set z (ρ x) hr trivial rfl (hr x) h

theorem total_abs {z x : Nat} (h : AllIn (ρ.set z |ρ x|) → Q (ρ.set z |ρ x|)) : Total (.stmt (.unary .abs z x)) ρ Q :=
  total_set z |ρ x| hr trivial rfl ((hr x).mono (by rw [Int.natAbs_abs])) h

theorem total_const {x : Nat} {n : Int} (hn : n.natAbs < 2 ^ 31) (h : AllIn (ρ.set x n) → Q (ρ.set x n)) : Total (.stmt (.const x n)) ρ Q := by
  refine total_set x n hr ?_ rfl (inRange_of_word hn.le) h
  have : (2 : Nat) ^ 31 = 2147483648 := rfl
  show -2147483648 ≤ n ∧ n < 2147483648
  omega

theorem total_rem {z x y : Nat} (hy : ρ y ≠ 0) (h : AllIn (ρ.set z ((ρ x).tmod (ρ y))) → Q (ρ.set z ((ρ x).tmod (ρ y)))) :
    Total (.stmt (.binary .rem z x y)) ρ Q := by
  refine total_set z _ hr trivial ?_ ((hr x).mono ?_) h
  · show (if ρ y = 0 then _ else _ : Except Exn Int).map _ = _
    rw [if_neg hy]; rfl
  · rw [Int.natAbs_tmod]; exact Nat.mod_le _ _

theorem total_div {z x y : Nat} (hy : ρ y ≠ 0) (h : AllIn (ρ.set z ((ρ x).tdiv (ρ y))) → Q (ρ.set z ((ρ x).tdiv (ρ y)))) :
    Total (.stmt (.binary .div z x y)) ρ Q := by
  refine total_set z _ hr trivial ?_ ((hr x).mono ?_) h
  · show (if ρ y = 0 then _ else _ : Except Exn Int).map _ = _
    rw [if_neg hy]; rfl
  · rw [Int.natAbs_tdiv]; exact Nat.div_le_self _ _

theorem total_mul {z x y : Nat} (hv : InRange (ρ x * ρ y)) (h : AllIn (ρ.set z (ρ x * ρ y)) → Q (ρ.set z (ρ x * ρ y))) :
    Total (.stmt (.binary .mul z x y)) ρ Q := total_set z _ hr trivial rfl hv h

theorem total_add {z x y : Nat} (hv : InRange (ρ x + ρ y)) (h : AllIn (ρ.set z (ρ x + ρ y)) → Q (ρ.set z (ρ x + ρ y))) :
    Total (.stmt (.binary .add z x y)) ρ Q := total_set z _ hr trivial rfl hv h

theorem total_sub {z x y : Nat} (hv : InRange (ρ x - ρ y)) (h : AllIn (ρ.set z (ρ x - ρ y)) → Q (ρ.set z (ρ x - ρ y))) :
    Total (.stmt (.binary .sub z x y)) ρ Q := total_set z _ hr trivial rfl hv h

omit hr in
theorem total_update {op : BinOp} {x y : Nat} (h : Total (.stmt (.binary op x x y)) ρ Q) : Total (.stmt (.update op x y)) ρ Q := by
  obtain ⟨ρ', h1, h2⟩ := h
  cases h1 with
  | stmt s ρ ρ' a b c d => exact ⟨ρ', .stmt _ _ _ a trivial c d, h2⟩

theorem total_shr1 {x : Nat} (h : AllIn (ρ.set x (ρ x / 2)) → Q (ρ.set x (ρ x / 2))) : Total (.stmt (.shr x 1)) ρ Q := by
  refine total_set x _ hr ?_ ?_ ((hr x).mono (by omega)) h
  · refine ⟨by decide, fun _ hm => ?_⟩
    exact absurd hm.2.1 (by decide)
  · rfl

theorem total_inc {x : Nat} (hv : InRange (ρ x + 1)) (h : AllIn (ρ.set x (ρ x + 1)) → Q (ρ.set x (ρ x + 1))) : Total (.stmt (.inc x)) ρ Q :=
  total_set x _ hr trivial rfl hv h

theorem total_dec {x : Nat} (hv : InRange (ρ x - 1)) (h : AllIn (ρ.set x (ρ x - 1)) → Q (ρ.set x (ρ x - 1))) : Total (.stmt (.dec x)) ρ Q :=
  total_set x _ hr trivial rfl hv h

end

/-! ### Euclid -/

theorem gcd_tmod (x y : Int) : Int.gcd y (x.tmod y) = Int.gcd x y := by
  rw [Int.gcd, Int.gcd, Int.natAbs_tmod, Nat.gcd_comm, Nat.gcd_comm x.natAbs, Nat.gcd_rec y.natAbs]

theorem gcdOf_total {ρ : IntStore} (hr : AllIn ρ) : Total gcdOf ρ fun ρ' => ρ' 0 = Int.gcd (ρ 0) (ρ 1) := by
  generalize hg : Int.gcd (ρ 0) (ρ 1) = g
  refine total_seq (total_while (fun τ => AllIn τ ∧ Int.gcd (τ 0) (τ 1) = g) (fun τ => (τ 1).natAbs) (fun _ h => h.1) ?_ ⟨hr, hg⟩ ?_)
  · rintro τ ⟨h1, h2⟩ hc
    have hc : τ 1 ≠ 0 := hc
    refine total_seq (total_rem h1 hc fun h3 => total_seq (total_copy h3 fun h4 => total_copy h4 fun h5 => ⟨⟨h5, ?_⟩, ?_⟩))
    · eval_store
      rw [← h2, gcd_tmod]
    · eval_store
      rw [Int.natAbs_tmod]
      exact Nat.mod_lt _ (Int.natAbs_pos.2 hc)
  · rintro τ ⟨h1, h2⟩ hc
    have hc : τ 1 = 0 := not_not.1 hc
    refine total_abs h1 fun _ => ?_
    eval_store
    rw [← h2, hc, Int.gcd_zero_right, Int.abs_eq_natAbs]

/-! ### Powers modulo -/

/-- Having the same remainder. -/
def SameRem (m a b : Int) : Prop := a.tmod m = b.tmod m

theorem SameRem.refl {m : Int} (a : Int) : SameRem m a a := rfl
theorem SameRem.tmod {m : Int} (a : Int) : SameRem m (a.tmod m) a := Int.tmod_tmod_of_dvd a (dvd_refl m)
theorem SameRem.mul {m a b c d : Int} (h1 : SameRem m a b) (h2 : SameRem m c d) : SameRem m (a * c) (b * d) := by
  unfold SameRem at *
  rw [Int.mul_tmod, h1, h2, ← Int.mul_tmod]
theorem SameRem.pow {m a b : Int} (h : SameRem m a b) : ∀ n : Nat, SameRem m (a ^ n) (b ^ n)
  | 0 => by rw [pow_zero, pow_zero]; exact .refl _
  | n + 1 => by rw [pow_succ, pow_succ]; exact (SameRem.pow h n).mul h
theorem SameRem.trans {m a b c : Int} (h1 : SameRem m a b) (h2 : SameRem m b c) : SameRem m a c := Eq.trans h1 h2

theorem natAbs_tmod_lt (a : Int) {m : Int} (hm : m ≠ 0) : (a.tmod m).natAbs < m.natAbs := by
  rw [Int.natAbs_tmod]; exact Nat.mod_lt _ (Int.natAbs_pos.2 hm)

theorem inRange_mul {m a b : Int} (h : InRange (m * m)) (ha : a.natAbs ≤ m.natAbs) (hb : b.natAbs ≤ m.natAbs) : InRange (a * b) :=
  h.mono (by rw [Int.natAbs_mul, Int.natAbs_mul]; exact Nat.mul_le_mul ha hb)

theorem powerMod_total {ρ : IntStore} (hr : AllIn ρ) (n : Nat) (he : ρ 1 = n) (hm : ρ 2 ≠ 0) (hmm : InRange (ρ 2 * ρ 2)) :
    Total powerMod ρ fun ρ' => AllIn ρ' ∧ ρ' 3 = (ρ 0 ^ n).tmod (ρ 2) ∧ ρ' 2 = ρ 2 ∧ ∀ i, 3 < i → ρ' i = ρ i := by
  generalize hx : ρ 0 = x at *
  generalize hz : ρ 2 = m at *
  refine total_seq (total_const hr (by decide) fun h1 => total_seq (total_update (total_rem h1 ?_ fun h2 => total_seq (total_update (total_rem h2 ?_ fun h3 => ?_)))))
  · eval_store; rw [hz]; exact hm
  · eval_store; rw [hz]; exact hm
  refine total_while (fun τ => AllIn τ ∧ τ 2 = m ∧ (τ 0).natAbs ≤ m.natAbs ∧ (τ 3).tmod m = τ 3 ∧ (∀ i, 3 < i → τ i = ρ i) ∧
    ∃ k : Nat, τ 1 = k ∧ SameRem m (τ 3 * τ 0 ^ k) (x ^ n)) (fun τ => (τ 1).toNat) (fun _ h => h.1) ?_ ⟨h3, ?_⟩ ?_
  · rintro τ ⟨t1, t2, t3, t4, tf, k, t5, t6⟩ hc
    have hc : τ 1 ≠ 0 := hc
    have t7 : (τ 3).natAbs ≤ m.natAbs := by rw [← t4]; exact (natAbs_tmod_lt _ hm).le
    -- the part after the `if`
    have rest : ∀ τ' : IntStore, AllIn τ' → τ' 2 = m → τ' 0 = τ 0 → τ' 1 = τ 1 → (τ' 3).tmod m = τ' 3 → (∀ i, 3 < i → τ' i = ρ i) →
        SameRem m (τ' 3 * (τ 0 * τ 0) ^ (k / 2)) (x ^ n) →
        Total (.seq (.stmt (.update .mul 0 0)) (.seq (.stmt (.update .rem 0 2)) (.stmt (.shr 1 1)))) τ' fun ρ' =>
          (AllIn ρ' ∧ ρ' 2 = m ∧ (ρ' 0).natAbs ≤ m.natAbs ∧ (ρ' 3).tmod m = ρ' 3 ∧ (∀ i, 3 < i → ρ' i = ρ i) ∧
            ∃ k : Nat, ρ' 1 = k ∧ SameRem m (ρ' 3 * ρ' 0 ^ k) (x ^ n)) ∧ (ρ' 1).toNat < (τ 1).toNat := by
      intro τ' a1 a2 a3 a4 a5 af a6
      refine total_seq (total_update (total_mul a1 ?_ fun b1 => total_seq (total_update (total_rem b1 ?_ fun b2 => total_shr1 b2 fun b3 => ⟨⟨b3, ?_⟩, ?_⟩))))
      · rw [a3]; exact inRange_mul hmm t3 t3
      · eval_store; rw [a2]; exact hm
      · eval_store
        refine ⟨a2, ?_, a5, fun i hi => ?_, k / 2, ?_, ?_⟩
        · rw [a2]; exact (natAbs_tmod_lt _ hm).le
        · rw [if_neg (by omega), if_neg (by omega), if_neg (by omega)]; exact af i hi
        · rw [a4, t5]; exact (Int.natCast_ediv k 2).symm
        · rw [a2, a3]
          exact (SameRem.mul (.refl _) ((SameRem.tmod _).pow _)).trans a6
      · eval_store
        rw [a4]
        omega
    refine total_seq (total_if t1 (fun hodd => ?_) fun heven => total_skip ?_)
    · have hodd : ¬ 2 ∣ τ 1 := hodd
      refine total_seq (total_update (total_mul t1 (inRange_mul hmm t7 t3) fun b1 => total_update (total_rem b1 ?_ fun b2 => rest _ b2 ?_ ?_ ?_ ?_ (fun i hi => ?_) ?_)))
      · eval_store; rw [t2]; exact hm
      · eval_store; exact t2
      · eval_store
      · eval_store
      · eval_store; rw [t2]; exact SameRem.tmod _
      · eval_store; rw [if_neg (by omega), if_neg (by omega)]; exact tf i hi
      · eval_store
        rw [t2]
        refine (SameRem.mul (SameRem.tmod _) (.refl _)).trans ?_
        have hk : k = 2 * (k / 2) + 1 := by omega
        have e : τ 3 * τ 0 * (τ 0 * τ 0) ^ (k / 2) = τ 3 * τ 0 ^ k := by
          conv_rhs => rw [hk]
          rw [pow_succ, pow_mul, sq]; ring
        rw [e]; exact t6
    · have heven : 2 ∣ τ 1 := not_not.1 heven
      refine rest τ t1 t2 rfl rfl t4 tf ?_
      have hk : k = 2 * (k / 2) := by omega
      have e : τ 3 * (τ 0 * τ 0) ^ (k / 2) = τ 3 * τ 0 ^ k := by
        conv_rhs => rw [hk]
        rw [pow_mul, sq]
      rw [e]; exact t6
  · eval_store
    rw [hz, hx]
    refine ⟨rfl, (natAbs_tmod_lt _ hm).le, SameRem.tmod _, fun i hi => ?_, n, he, ?_⟩
    · rw [if_neg (by omega), if_neg (by omega), if_neg (by omega)]
    have := SameRem.mul (SameRem.tmod (m := m) 1) ((SameRem.tmod (m := m) x).pow n)
    rwa [one_mul] at this
  · rintro τ ⟨t1, t2, t3, t4, tf, k, t5, t6⟩ hc
    have hc : τ 1 = 0 := not_not.1 hc
    obtain rfl : k = 0 := by omega
    rw [pow_zero, mul_one] at t6
    refine ⟨t1, ?_, t2, tf⟩
    rw [← t4]; exact t6

/-! ### RSA -/

theorem pow_modEq_self_of_prime {p : Nat} (hp : p.Prime) (x : Int) {k : Nat} (h : p - 1 ∣ k) : x ^ (k + 1) ≡ x [ZMOD p] := by
  by_cases hd : (p : Int) ∣ x
  · have h0 : x ≡ 0 [ZMOD p] := (Int.modEq_zero_iff_dvd).2 hd
    have h1 := h0.pow (k + 1)
    rw [zero_pow (by omega)] at h1
    exact h1.trans h0.symm
  · obtain ⟨j, rfl⟩ := h
    have h1 := (Int.ModEq.pow_card_sub_one_eq_one hp (n := x)
      ((Nat.prime_iff_prime_int.1 hp).irreducible.coprime_iff_not_dvd.2 hd).symm).pow j
    rw [one_pow, ← pow_mul] at h1
    have h2 := h1.mul_right x
    rwa [one_mul, ← pow_succ] at h2

theorem pow_modEq_self {p q : Nat} (hp : p.Prime) (hq : q.Prime) (hpq : p ≠ q) (x : Int) {e d : Nat}
    (h1 : p - 1 ∣ e * d - 1) (h2 : q - 1 ∣ e * d - 1) (h3 : 0 < e * d) : (x ^ e) ^ d ≡ x [ZMOD (p * q : Nat)] := by
  rw [← pow_mul]
  obtain ⟨k, hk⟩ : ∃ k, e * d = k + 1 := ⟨e * d - 1, by omega⟩
  rw [hk] at h1 h2 ⊢
  rw [Nat.add_sub_cancel] at h1 h2
  push_cast
  exact (Int.modEq_and_modEq_iff_modEq_mul (m := (p : Int)) (n := (q : Int)) (by rw [Int.natAbs_natCast, Int.natAbs_natCast]; exact (Nat.coprime_primes hp hq).2 hpq)).1 ⟨pow_modEq_self_of_prime hp x h1, pow_modEq_self_of_prime hq x h2⟩

theorem encryptDecrypt_total {ρ : IntStore} (hr : AllIn ρ) (e d : Nat) (he : ρ 1 = e) (hd : ρ 4 = d) (hm : ρ 2 ≠ 0) (hmm : InRange (ρ 2 * ρ 2)) :
    Total encryptDecrypt ρ fun ρ' => ρ' 3 = ((ρ 0 ^ e) ^ d).tmod (ρ 2) := by
  refine total_seq ((powerMod_total hr e he hm hmm).mono ?_)
  rintro ρ1 ⟨a1, a2, a3, a4⟩
  refine total_seq (total_copy a1 fun b1 => total_seq (total_copy b1 fun b2 => ?_))
  refine (powerMod_total b2 d ?_ ?_ ?_).mono ?_
  · eval_store; rw [a4 4 (by decide), hd]
  · eval_store; rw [a3]; exact hm
  · eval_store; rw [a3]; exact hmm
  · rintro ρ2 ⟨-, c2, -, -⟩
    rw [c2]
    eval_store
    rw [a2, a3]
    exact (SameRem.tmod _).pow d

/-! ### Square roots -/

theorem squareRoot_total {ρ : IntStore} (hr : AllIn ρ) (hn : 0 ≤ ρ 0) (hn1 : InRange (ρ 0 + 1)) :
    Total squareRoot ρ fun ρ' => 0 ≤ ρ' 1 ∧ ρ' 1 * ρ' 1 ≤ ρ 0 ∧ ρ 0 < (ρ' 1 + 1) * (ρ' 1 + 1) := by
  generalize hx : ρ 0 = n at *
  refine total_seq (total_copy hr fun h1 => total_seq (total_copy h1 fun h2 => total_seq (total_inc h2 ?_ fun h3 =>
    total_seq (total_shr1 h3 fun h4 => ?_))))
  · eval_store; rw [hx]; exact hn1
  refine total_while (fun τ => AllIn τ ∧ τ 0 = n ∧ 0 ≤ τ 1 ∧ τ 1 ≤ n ∧ n < (τ 1 + 1) * (τ 1 + 1) ∧
    ((n = 0 ∧ τ 2 = 0) ∨ (0 < n ∧ 0 < τ 1 ∧ τ 2 = (τ 1 + n / τ 1) / 2))) (fun τ => (τ 1).toNat) (fun _ h => h.1) ?_ ⟨h4, ?_⟩ ?_
  · rintro τ ⟨t1, t2, t3, t4, t5, t6⟩ hc
    have hc : τ 2 < τ 1 := hc
    have t6 : 0 < n ∧ 0 < τ 1 ∧ τ 2 = (τ 1 + n / τ 1) / 2 := by
      rcases t6 with ⟨a, b⟩ | h
      · omega
      · exact h
    obtain ⟨n0, x0, hy⟩ := t6
    generalize hX : τ 1 = X at *
    generalize hY : τ 2 = Y at *
    have q0 : 0 ≤ n / X := Int.ediv_nonneg hn x0.le
    have q1 : n < X * (n / X + 1) := by
      have h1 := Int.emod_add_mul_ediv n X
      have h2 := Int.emod_lt_of_pos n x0
      have h3 : X * (n / X + 1) = X * (n / X) + X := by ring
      omega
    have Y0 : 0 < Y := by
      by_contra hle
      have hz : X + n / X ≤ 1 := by omega
      obtain rfl : X = 1 := by omega
      rw [Int.ediv_one] at hz
      omega
    have hq := Int.ediv_le_self (b := Y) hn
    have hsum : Y + n / Y ≤ n + 1 := by
      have h1 : Y * (n / Y) ≤ n := by
        have h1 := Int.emod_add_mul_ediv n Y
        have h2 := Int.emod_nonneg n Y0.ne'
        omega
      have h2 : 1 ≤ n / Y := (Int.le_ediv_iff_mul_le Y0).2 (by omega)
      nlinarith
    have hdiv0 : 0 ≤ n / Y := Int.ediv_nonneg hn Y0.le
    refine total_seq (total_copy t1 fun b1 => total_seq (total_div b1 ?_ fun b2 => total_seq (total_add b2 ?_ fun b3 =>
      total_shr1 b3 fun b4 => ⟨⟨b4, ?_⟩, ?_⟩)))
    · eval_store; omega
    · eval_store
      rw [hY, t2, Int.tdiv_eq_ediv_of_nonneg hn]
      exact hn1.mono (by omega)
    · eval_store
      rw [hY, t2, Int.tdiv_eq_ediv_of_nonneg hn]
      refine ⟨rfl, Y0.le, by omega, ?_, .inr ⟨n0, Y0, rfl⟩⟩
      have hy2 : X + n / X + 1 ≤ 2 * (Y + 1) := by omega
      nlinarith [sq_nonneg (X - (n / X + 1))]
    · eval_store
      omega
  · eval_store
    rw [hx]
    refine ⟨rfl, hn, le_refl _, by nlinarith, ?_⟩
    by_cases h0 : n = 0
    · subst h0; exact .inl ⟨rfl, rfl⟩
    · exact .inr ⟨by omega, by omega, by rw [Int.ediv_self h0]⟩
  · rintro τ ⟨t1, t2, t3, t4, t5, t6⟩ hc
    have hc : ¬ τ 2 < τ 1 := hc
    refine ⟨t3, ?_, t5⟩
    rcases t6 with ⟨a, b⟩ | ⟨n0, x0, hy⟩
    · have : τ 1 = 0 := by omega
      rw [this, a]; decide
    · have hq : τ 1 ≤ n / τ 1 := by omega
      exact (Int.le_ediv_iff_mul_le x0).1 hq

/-! ### Factorials -/

theorem factorialOf_total {ρ : IntStore} (hr : AllIn ρ) (n : Nat) (hn : ρ 0 = n) (hf : InRange (n.factorial : Int)) :
    Total factorialOf ρ fun ρ' => ρ' 1 = n.factorial := by
  refine total_seq (total_const hr (by decide) fun h1 => ?_)
  refine total_while (fun τ => AllIn τ ∧ ∃ k : Nat, τ 0 = k ∧ τ 1 * k.factorial = n.factorial) (fun τ => (τ 0).toNat) (fun _ h => h.1) ?_ ⟨h1, ?_⟩ ?_
  · rintro τ ⟨t1, k, t2, t3⟩ hc
    have hc : τ 0 ≠ 0 := hc
    obtain ⟨j, rfl⟩ : ∃ j, k = j + 1 := ⟨k - 1, by omega⟩
    have e : τ 1 * τ 0 * j.factorial = n.factorial := by
      rw [← t3, t2, Nat.factorial_succ]; push_cast; ring
    refine total_seq (total_update (total_mul t1 ?_ fun b1 => total_dec b1 ?_ fun b2 => ⟨⟨b2, j, ?_⟩, ?_⟩))
    · refine hf.mono ?_
      rw [← e, Int.natAbs_mul _ (j.factorial : Int), Int.natAbs_natCast]
      exact Nat.le_mul_of_pos_right _ (Nat.factorial_pos j)
    · eval_store
      exact (t1 0).mono (by omega)
    · eval_store
      exact ⟨by rw [t2]; push_cast; ring, e⟩
    · eval_store
      omega
  · eval_store
    exact ⟨n, hn, one_mul _⟩
  · rintro τ ⟨t1, k, t2, t3⟩ hc
    have hc : τ 0 = 0 := not_not.1 hc
    obtain rfl : k = 0 := by omega
    rw [← t3, Nat.factorial_zero]
    push_cast; ring

/-! ### Inverses -/

theorem inverseMod_total {ρ : IntStore} (hr : AllIn ρ) (ha : 0 ≤ ρ 0) (hm : 2 ≤ ρ 1) (hmm : InRange (ρ 1 * ρ 1 + ρ 1)) :
    Total inverseMod ρ fun ρ' => ρ' 4 = Int.gcd (ρ 0) (ρ 1) ∧ 0 ≤ ρ' 2 ∧ ρ' 2 < ρ 1 ∧ ρ 1 ∣ ρ' 2 * ρ 0 - ρ' 4 := by
  generalize hx : ρ 0 = a at *
  generalize hz : ρ 1 = m at *
  refine total_seq (total_copy hr fun h1 => total_seq (total_copy h1 fun h2 => total_seq (total_update (total_rem h2 ?_ fun h3 =>
    total_seq (total_const h3 (by decide) fun h4 => total_seq (total_const h4 (by decide) fun h5 => total_seq ?_))))))
  · eval_store; omega
  refine total_while (fun τ => AllIn τ ∧ τ 1 = m ∧ 0 ≤ τ 5 ∧ τ 5 ≤ m ∧ 0 ≤ τ 4 ∧ τ 4 ≤ m ∧ |τ 2| < m ∧ |τ 3| < m ∧ Int.gcd (τ 4) (τ 5) = Int.gcd a m ∧
    m ∣ τ 2 * a - τ 4 ∧ m ∣ τ 3 * a - τ 5) (fun τ => (τ 5).toNat) (fun _ h => h.1) ?_ ⟨h5, ?_⟩ ?_
  · rintro τ ⟨t1, t2, t3, t4, t5, t6, t7, t8, t9, t10, t11⟩ hc
    have hc : τ 5 ≠ 0 := hc
    have c0 : 0 < τ 5 := by omega
    have q0 : 0 ≤ τ 4 / τ 5 := Int.ediv_nonneg t5 t3
    have q1 : τ 4 / τ 5 ≤ τ 4 := Int.ediv_le_self _ t5
    have hmod := Int.emod_add_mul_ediv (τ 4) (τ 5)
    have hm1 := Int.emod_nonneg (τ 4) hc
    have hm2 := Int.emod_lt_of_pos (τ 4) c0
    have hdv : (τ 4).tdiv (τ 5) = τ 4 / τ 5 := Int.tdiv_eq_ediv_of_nonneg t5
    generalize hQ : τ 4 / τ 5 = Q at *
    have hcomm : Q * τ 5 = τ 5 * Q := mul_comm _ _
    have p0 : 0 ≤ τ 5 * Q := mul_nonneg t3 q0
    generalize hR : τ 4 % τ 5 = R at *
    have hprod : |Q * τ 3| ≤ m * m := by
      rw [abs_mul, abs_of_nonneg q0]
      exact mul_le_mul (by omega) t8.le (abs_nonneg _) (by omega)
    have hmm0 : 0 ≤ m * m := by positivity
    have t8' := abs_lt.1 t8
    have t7' := abs_lt.1 t7
    have hprod' := abs_le.1 hprod
    refine total_seq (total_div t1 hc fun b1 => total_seq (total_mul b1 ?_ fun b2 => total_seq (total_sub b2 ?_ fun b3 =>
      total_seq (total_copy b3 fun b4 => total_seq (total_copy b4 fun b5 => total_seq (total_mul b5 ?_ fun b6 => total_seq (total_sub b6 ?_ fun b7 =>
        total_seq (total_update (total_rem b7 ?_ fun b8 => total_seq (total_copy b8 fun b9 => total_copy b9 fun b10 => ⟨⟨b10, ?_⟩, ?_⟩))))))))))
    · eval_store
      rw [hdv, hcomm]
      generalize τ 5 * Q = P at *
      exact (t1 4).mono (by omega)
    · eval_store
      rw [hdv, hcomm]
      generalize τ 5 * Q = P at *
      exact (t1 4).mono (by omega)
    · eval_store
      rw [hdv]
      exact hmm.mono (by omega)
    · eval_store
      rw [hdv]
      exact hmm.mono (by omega)
    · eval_store; omega
    · eval_store
      rw [hdv, t2]
      have e1 : τ 4 - Q * τ 5 = R := by rw [hcomm]; omega
      have hd : m ∣ (τ 2 - Q * τ 3) - (τ 2 - Q * τ 3).tmod m := Int.dvd_self_sub_tmod
      refine ⟨rfl, by omega, by omega, t3, t4, t8, ?_, ?_, t11, ?_⟩
      · have := natAbs_tmod_lt (τ 2 - Q * τ 3) (m := m) (by omega)
        rw [Int.abs_eq_natAbs]; omega
      · rw [e1, ← t9]
        have := gcd_tmod (τ 4) (τ 5)
        rwa [Int.tmod_eq_emod_of_nonneg t5, hR] at this
      · have := Int.dvd_sub (Int.dvd_sub t10 (t11.mul_left Q)) (hd.mul_right a)
        have e : τ 2 * a - τ 4 - Q * (τ 3 * a - τ 5) - (τ 2 - Q * τ 3 - (τ 2 - Q * τ 3).tmod m) * a =
          (τ 2 - Q * τ 3).tmod m * a - (τ 4 - Q * τ 5) := by ring
        rwa [e] at this
    · eval_store
      rw [hdv]
      have e1 : τ 4 - Q * τ 5 = R := by rw [hcomm]; omega
      rw [e1]
      omega
  · eval_store
    rw [hx, hz, Int.tmod_eq_emod_of_nonneg ha]
    have hm1 := Int.emod_nonneg a (show m ≠ 0 by omega)
    have hm2 := Int.emod_lt_of_pos a (show 0 < m by omega)
    refine ⟨rfl, hm1, hm2.le, by omega, le_refl _, by rw [abs_zero]; omega, by rw [abs_one]; omega, ?_, ?_, ?_⟩
    · have := gcd_tmod a m
      rwa [Int.tmod_eq_emod_of_nonneg ha] at this
    · rw [zero_mul, zero_sub]; exact Int.dvd_neg.2 (Int.dvd_refl m)
    · rw [one_mul]; exact Int.dvd_self_sub_emod
  · rintro τ ⟨t1, t2, t3, t4, t5, t6, t7, t8, t9, t10, t11⟩ hc
    have hc : τ 5 = 0 := not_not.1 hc
    have t7' := abs_lt.1 t7
    rw [hc, Int.gcd_zero_right] at t9
    refine total_seq (total_const t1 (by decide) fun b1 => total_if b1 (fun hneg => ?_) fun hnn => total_skip ?_)
    · have hneg : τ 2 < 0 := hneg
      refine total_update (total_add b1 ?_ fun _ => ?_)
      · eval_store
        rw [t2]
        exact hmm.mono (by have : 0 ≤ m * m := by positivity
                           omega)
      · eval_store
        rw [t2]
        refine ⟨by omega, by omega, by omega, ?_⟩
        have := Int.dvd_add t10 (dvd_mul_right m a)
        rwa [show τ 2 * a - τ 4 + m * a = (τ 2 + m) * a - τ 4 by ring] at this
    · have hnn : ¬ τ 2 < 0 := hnn
      eval_store
      exact ⟨by omega, by omega, by omega, t10⟩

end BigIntegerCpp
