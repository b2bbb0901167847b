import Verif.Model.Oracle
import Verif.Lemmas.Twos
import Verif.Lemmas.Bytes
import Mathlib.Tactic.IntervalCases
/-
The byte-array arithmetic of tests/MyBigInt.cpp.
-/
set_option linter.unusedSectionVars false
namespace BigIntegerCpp
variable [Cfg]
namespace Oracle

/-! ### signed values of byte arrays -/

/-- The array stands for `x`. -/
structure Stands (bs : List Nat) (x : Int) : Prop where
  ok : BytesOk bs
  ne : bs ≠ []
  eq : signedVal 8 bs = x

theorem sv_def (bs : List Nat) : signedVal 8 bs = if 128 ≤ bs.getLast?.getD 0 then (digitsVal 256 bs : Int) - 256 ^ bs.length else (digitsVal 256 bs : Int) := by
  unfold signedVal
  rw [pow_mul]
  norm_num

theorem sv_single {b : Nat} : signedVal 8 [b] = if 128 ≤ b then (b : Int) - 256 else b := by
  rw [sv_def]; simp [digitsVal]

theorem sv_cons {b : Nat} {bs : List Nat} (h : bs ≠ []) : signedVal 8 (b :: bs) = b + 256 * signedVal 8 bs := by
  rw [sv_def, sv_def]
  obtain ⟨c, cs, rfl⟩ := List.exists_cons_of_ne_nil h
  rw [List.getLast?_cons_cons, digitsVal_cons, List.length_cons (a := b), pow_succ]
  split_ifs <;> push_cast <;> ring

theorem sv_append (xs : List Nat) {ys : List Nat} (h : ys ≠ []) : signedVal 8 (xs ++ ys) = digitsVal 256 xs + 256 ^ xs.length * signedVal 8 ys := by
  induction xs with
  | nil => simp
  | cons x xs ih =>
    rw [List.cons_append, sv_cons (by simp [h]), ih, digitsVal_cons, List.length_cons, pow_succ]
    push_cast
    ring

theorem bytesOk_cons {b : Nat} {bs : List Nat} : BytesOk (b :: bs) ↔ b < 256 ∧ BytesOk bs := by simp [BytesOk]
theorem bytesOk_append {xs ys : List Nat} : BytesOk (xs ++ ys) ↔ BytesOk xs ∧ BytesOk ys := by
  simp [BytesOk, or_imp, forall_and]
theorem bytesOk_single {b : Nat} : BytesOk [b] ↔ b < 256 := by simp [BytesOk]
theorem bytesOk_replicate {n b : Nat} (h : b < 256) : BytesOk (List.replicate n b) := by
  intro w hw; rw [List.eq_of_mem_replicate hw]; exact h

theorem dv_lt {bs : List Nat} (h : BytesOk bs) : (digitsVal 256 bs : Int) < 256 ^ bs.length := by exact_mod_cast bytes_lt h

/-- The top byte says the sign. -/
theorem top_iff {bs : List Nat} (h : BytesOk bs) : 128 ≤ bs.getLast?.getD 0 ↔ signedVal 8 bs < 0 := by
  have h1 := dv_lt h
  rw [sv_def]
  split_ifs with hc
  · exact ⟨fun _ => by omega, fun _ => hc⟩
  · exact ⟨fun h => absurd h hc, fun h => by omega⟩

theorem sv_bounds {bs : List Nat} (h : BytesOk bs) (hne : bs ≠ []) : -(256 : Int) ^ bs.length ≤ 2 * signedVal 8 bs ∧ 2 * signedVal 8 bs < 256 ^ bs.length := by
  induction bs with
  | nil => exact absurd rfl hne
  | cons b bs ih =>
    obtain ⟨h0, h⟩ := bytesOk_cons.1 h
    rcases eq_or_ne bs [] with rfl | hb
    · rw [sv_single, List.length_singleton, pow_one]
      split_ifs <;> omega
    · obtain ⟨h1, h2⟩ := ih h hb
      rw [sv_cons hb, List.length_cons, pow_succ]
      have e : (2 : Int) ∣ 256 ^ bs.length := dvd_pow (by decide) (by simp [hb])
      obtain ⟨k, hk⟩ := e
      rw [hk] at h1 h2 ⊢
      omega

theorem sv_cong (bs : List Nat) : ∃ k : Int, signedVal 8 bs = digitsVal 256 bs + k * 256 ^ bs.length := by
  rw [sv_def]
  split_ifs
  · exact ⟨-1, by ring⟩
  · exact ⟨0, by ring⟩

/-- The value is the only one in range with the right residue. -/
theorem sv_unique {bs : List Nat} (h : BytesOk bs) (hne : bs ≠ []) {x k : Int} (hx : x = digitsVal 256 bs + k * 256 ^ bs.length)
    (h1 : -(256 : Int) ^ bs.length ≤ 2 * x) (h2 : 2 * x < 256 ^ bs.length) : signedVal 8 bs = x := by
  obtain ⟨h3, h4⟩ := sv_bounds h hne
  obtain ⟨k', hk'⟩ := sv_cong bs
  generalize signedVal 8 bs = y at *
  have hd : y - x = (k' - k) * 256 ^ bs.length := by rw [hk', hx]; ring
  have hp : (0 : Int) < 256 ^ bs.length := by positivity
  generalize (256 : Int) ^ bs.length = P at *
  have : k' - k = 0 := by
    by_contra hk
    rcases lt_or_gt_of_ne hk with hk | hk
    · have : (k' - k) * P ≤ -1 * P := Int.mul_le_mul_of_nonneg_right (by omega) (by omega)
      omega
    · have : 1 * P ≤ (k' - k) * P := Int.mul_le_mul_of_nonneg_right (by omega) (by omega)
      omega
  rw [this] at hd
  omega

theorem and_80 {b : Nat} (h : b < 256) : b &&& 0x80 = if 128 ≤ b then 128 else 0 := by
  revert b; decide +kernel
theorem and_7f {b : Nat} (h : b < 256) : b &&& 0x7f = b % 128 := by
  revert b; decide +kernel
theorem and_01 {b : Nat} (h : b < 256) : b &&& 1 = b % 2 := by
  revert b; decide +kernel
theorem xor_ff {b : Nat} (h : b < 256) : b ^^^ 0xFF = 255 - b := by
  revert b; decide +kernel

theorem last_spec {bs : List Nat} (h : BytesOk bs) (hne : bs ≠ []) : ∃ t, last bs = .ok t ∧ t < 256 ∧ bs.getLast? = some t ∧ (128 ≤ t ↔ signedVal 8 bs < 0) := by
  rcases List.eq_nil_or_concat bs with rfl | ⟨l, x, rfl⟩
  · exact absurd rfl hne
  · have hl : (l ++ [x]).getLast? = some x := by simp
    rw [List.concat_eq_append] at *
    refine ⟨x, ?_, ?_, hl, ?_⟩
    · unfold last; rw [hl]
    · exact h x (by simp)
    · rw [← top_iff h, hl]; rfl

/-- The sign bit of an array. -/
theorem sign_bit {bs : List Nat} {x : Int} (h : Stands bs x) : ∃ t, last bs = .ok t ∧ t < 256 ∧ bs.getLast? = some t ∧ (128 ≤ t ↔ x < 0) ∧ (t &&& 0x80 ≠ 0 ↔ x < 0) ∧ (t &&& 0x80 = 0 ↔ 0 ≤ x) := by
  obtain ⟨t, h1, h2, h3, h4⟩ := last_spec h.ok h.ne
  rw [h.eq] at h4
  refine ⟨t, h1, h2, h3, h4, ?_, ?_⟩
  · rw [and_80 h2]; split_ifs with hc
    · simpa using h4.1 hc
    · simpa using fun h => hc (h4.2 h)
  · rw [and_80 h2]; split_ifs with hc
    · simpa using h4.1 hc
    · simpa using fun h => hc (h4.2 h)

theorem Stands.bounds {bs : List Nat} {x : Int} (h : Stands bs x) : -(256 : Int) ^ bs.length ≤ 2 * x ∧ 2 * x < 256 ^ bs.length := by
  rw [← h.eq]; exact sv_bounds h.ok h.ne

theorem isZero_iff {bs : List Nat} : isZero bs = true ↔ digitsVal 256 bs = 0 := by
  unfold isZero
  induction bs with
  | nil => simp
  | cons b bs ih =>
    rw [List.all_cons, Bool.and_eq_true, ih, digitsVal_cons, beq_iff_eq]
    omega

theorem isZero_spec {bs : List Nat} {x : Int} (h : Stands bs x) : isZero bs = decide (x = 0) := by
  rw [Bool.eq_iff_iff, isZero_iff, decide_eq_true_eq, ← h.eq, sv_def]
  have := dv_lt h.ok
  split_ifs with hc
  · constructor
    · intro h0
      exfalso
      have : signedVal 8 bs < 0 := (top_iff h.ok).1 hc
      have hb := sv_bounds h.ok h.ne
      rw [sv_def, if_pos hc] at hb
      have hp : (0 : Int) < 256 ^ bs.length := by positivity
      omega
    · intro h0; omega
  · omega

/-! ### Negate -/

theorem negLoop_spec {f c : Bool} (hfc : ¬ (f = true ∧ c = true)) {bs : List Nat} (h : BytesOk bs) :
    BytesOk (negLoop f c bs) ∧ (negLoop f c bs).length = bs.length ∧
    ∃ co : Nat, digitsVal 256 (negLoop f c bs) + digitsVal 256 bs + 1 + co * 256 ^ bs.length = 256 ^ bs.length + (if f = true ∨ c = true then 1 else 0) := by
  induction bs generalizing f c with
  | nil => refine ⟨by simp [negLoop, BytesOk], rfl, if f = true ∨ c = true then 1 else 0, ?_⟩; simp [negLoop]
  | cons b bs ih =>
    obtain ⟨h0, h⟩ := bytesOk_cons.1 h
    have ht : (if f = true then 1 else 0) + (b ^^^ 0xFF) + (if c = true then 1 else 0) = 255 - b + (if f = true ∨ c = true then 1 else 0) := by
      rw [xor_ff h0]; cases f <;> cases c <;> simp_all [Nat.add_comm]
    unfold negLoop
    simp only []
    rw [ht]
    by_cases hc : 255 - b + (if f = true ∨ c = true then 1 else 0) > 0xFF
    · rw [if_pos hc]
      obtain ⟨k1, k2, co, k3⟩ := ih (f := false) (c := true) (by simp) h
      refine ⟨bytesOk_cons.2 ⟨?_, k1⟩, by rw [List.length_cons, k2, List.length_cons], co, ?_⟩
      · split_ifs at hc ⊢ <;> omega
      · simp only [digitsVal_cons, List.length_cons, pow_succ] at *
        have hcp : co * (256 ^ bs.length * 256) = 256 * (co * 256 ^ bs.length) := by ring
        rw [hcp]
        generalize co * 256 ^ bs.length = Q at *
        generalize 256 ^ bs.length = P at *
        simp at k3
        split_ifs at hc ⊢ <;> omega
    · rw [if_neg hc]
      obtain ⟨k1, k2, co, k3⟩ := ih (f := false) (c := false) (by simp) h
      refine ⟨bytesOk_cons.2 ⟨?_, k1⟩, by rw [List.length_cons, k2, List.length_cons], co, ?_⟩
      · split_ifs at hc ⊢ <;> omega
      · simp only [digitsVal_cons, List.length_cons, pow_succ] at *
        have hcp : co * (256 ^ bs.length * 256) = 256 * (co * 256 ^ bs.length) := by ring
        rw [hcp]
        generalize co * 256 ^ bs.length = Q at *
        generalize 256 ^ bs.length = P at *
        simp at k3
        split_ifs at hc ⊢ <;> omega

theorem all_zero_iff {bs : List Nat} : bs.all (· == 0) = true ↔ digitsVal 256 bs = 0 := isZero_iff

theorem small_mul {m P : Int} (h1 : -P < m * P) (h2 : m * P < P) : m = 0 := by
  have hP : 0 < P := by omega
  by_contra hk
  rcases lt_or_gt_of_ne hk with hk | hk
  · have : m * P ≤ -1 * P := Int.mul_le_mul_of_nonneg_right (by omega) (by omega)
    omega
  · have : 1 * P ≤ m * P := Int.mul_le_mul_of_nonneg_right (by omega) (by omega)
    omega

/-- The array is that of the least number of its length. -/
theorem least_iff {bs : List Nat} {t : Nat} (h : BytesOk bs) (ht : bs.getLast? = some t) :
    (decide (t &&& 0x80 ≠ 0) && decide (t &&& 0x7f = 0) && bs.dropLast.all (· == 0)) = true ↔ 2 * digitsVal 256 bs = 256 ^ bs.length := by
  rcases List.eq_nil_or_concat bs with rfl | ⟨l, y, rfl⟩
  · simp at ht
  · rw [List.concat_eq_append] at *
    obtain rfl : y = t := by simpa using ht
    obtain ⟨hl, hy⟩ := bytesOk_append.1 h
    have hy := bytesOk_single.1 hy
    have hlt := bytes_lt hl
    rw [Bool.and_eq_true, Bool.and_eq_true, decide_eq_true_eq, decide_eq_true_eq, all_zero_iff, and_80 hy, and_7f hy, List.dropLast_concat,
      digitsVal_append, digitsVal_cons, digitsVal_nil, Nat.mul_zero, Nat.add_zero, List.length_append, List.length_singleton, pow_succ]
    constructor
    · rintro ⟨⟨h1, h2⟩, h3⟩
      have hy : y = 128 := by split_ifs at h1 <;> omega
      subst hy
      omega
    · intro h
      have hyy : y = 128 := by
        by_contra hc
        rcases (by omega : y ≤ 127 ∨ 129 ≤ y) with h1 | h1
        · have := Nat.mul_le_mul_left (256 ^ l.length) h1
          omega
        · have := Nat.mul_le_mul_left (256 ^ l.length) h1
          omega
      subst hyy
      simp only [le_refl, if_true, ne_eq, OfNat.ofNat_ne_zero, not_false_eq_true, true_and]
      omega

theorem negate_spec {bs : List Nat} {x : Int} (h : Stands bs x) :
    ∃ r, negate bs = .ok r ∧ Stands r (-x) ∧ r.length ≤ bs.length + 1 ∧ (2 * x ≠ -(256 : Int) ^ bs.length → r.length = bs.length) := by
  obtain ⟨k1, k2, co, k3⟩ := negLoop_spec (f := true) (c := false) (by simp) h.ok
  have hne : negLoop true false bs ≠ [] := by
    intro e; rw [e] at k2; exact h.ne (List.eq_nil_of_length_eq_zero k2.symm)
  obtain ⟨hb1, hb2⟩ := h.bounds
  obtain ⟨k, hk⟩ := sv_cong bs
  rw [h.eq] at hk
  obtain ⟨t, ht1, ht2, ht3, ht4⟩ := last_spec k1 hne
  have hcong : -x = (digitsVal 256 (negLoop true false bs) : Int) + (co - 1 - k) * 256 ^ (negLoop true false bs).length := by
    rw [k2, hk]
    have : (digitsVal 256 (negLoop true false bs) : Int) + digitsVal 256 bs + 1 + co * 256 ^ bs.length = 256 ^ bs.length + 1 := by
      exact_mod_cast k3
    linarith
  have hd := dv_lt k1
  have hsame : 2 * digitsVal 256 (negLoop true false bs) = 256 ^ (negLoop true false bs).length ↔ 2 * x = -(256 : Int) ^ bs.length := by
    rw [← Nat.cast_inj (R := Int)]
    push_cast
    rw [k2] at hd hcong ⊢
    generalize (co - 1 - k : Int) = m at *
    generalize (256 : Int) ^ bs.length = P at *
    constructor
    · intro h2
      have := small_mul (m := m) (P := P) (by omega) (by omega)
      subst this
      omega
    · intro h2
      have := small_mul (m := m) (P := P) (by omega) (by omega)
      subst this
      omega
  unfold negate
  simp only []
  rw [ht1, Res.ok_bind]
  by_cases hc : (decide (t &&& 0x80 ≠ 0) && decide (t &&& 0x7f = 0) && (negLoop true false bs).dropLast.all (· == 0)) = true
  · rw [if_pos hc]
    have hc := (least_iff k1 ht3).1 hc
    have hx := hsame.1 hc
    refine ⟨_, rfl, ⟨bytesOk_append.2 ⟨k1, by decide⟩, by simp, ?_⟩, by simp [k2], fun hx' => absurd hx hx'⟩
    rw [sv_append _ (by simp), sv_single, if_neg (by omega)]
    rw [← Nat.cast_inj (R := Int)] at hc
    push_cast at hc ⊢
    rw [k2] at hc
    omega
  · rw [if_neg hc]
    have hx : 2 * x ≠ -(256 : Int) ^ bs.length := fun hx => hc ((least_iff k1 ht3).2 (hsame.2 hx))
    refine ⟨_, rfl, ⟨k1, hne, sv_unique k1 hne hcong ?_ ?_⟩, by omega, fun _ => k2⟩
    · rw [k2]; omega
    · rw [k2]; omega

/-! ### Add -/

theorem addLoop_spec {c : Bool} {xs ys : List Nat} (hx : BytesOk xs) (hy : BytesOk ys) (hl : xs.length = ys.length) :
    BytesOk (addLoop c xs ys) ∧ (addLoop c xs ys).length = xs.length ∧
    ∃ co : Nat, digitsVal 256 (addLoop c xs ys) + co * 256 ^ xs.length = digitsVal 256 xs + digitsVal 256 ys + (if c = true then 1 else 0) := by
  induction xs generalizing c ys with
  | nil =>
    obtain rfl := List.eq_nil_of_length_eq_zero hl.symm
    refine ⟨by simp [addLoop, BytesOk], rfl, if c = true then 1 else 0, by simp [addLoop]⟩
  | cons x xs ih =>
    rcases ys with _ | ⟨y, ys⟩
    · simp at hl
    · obtain ⟨hx0, hx⟩ := bytesOk_cons.1 hx
      obtain ⟨hy0, hy⟩ := bytesOk_cons.1 hy
      have hl : xs.length = ys.length := by simpa using hl
      unfold addLoop
      simp only []
      by_cases hc : x + y + (if c = true then 1 else 0) > 0xFF
      · rw [if_pos hc]
        obtain ⟨k1, k2, co, k3⟩ := ih (c := true) hx hy hl
        refine ⟨bytesOk_cons.2 ⟨?_, k1⟩, by rw [List.length_cons, k2, List.length_cons], co, ?_⟩
        · split_ifs at hc ⊢ <;> omega
        · simp only [digitsVal_cons, List.length_cons, pow_succ] at *
          have hcp : co * (256 ^ xs.length * 256) = 256 * (co * 256 ^ xs.length) := by ring
          rw [hcp]
          generalize co * 256 ^ xs.length = Q at *
          simp only [if_true] at k3
          split_ifs at hc ⊢ <;> omega
      · rw [if_neg hc]
        obtain ⟨k1, k2, co, k3⟩ := ih (c := false) hx hy hl
        refine ⟨bytesOk_cons.2 ⟨?_, k1⟩, by rw [List.length_cons, k2, List.length_cons], co, ?_⟩
        · split_ifs at hc ⊢ <;> omega
        · simp only [digitsVal_cons, List.length_cons, pow_succ] at *
          have hcp : co * (256 ^ xs.length * 256) = 256 * (co * 256 ^ xs.length) := by ring
          rw [hcp]
          generalize co * 256 ^ xs.length = Q at *
          simp only [Bool.false_eq_true, if_false] at k3
          split_ifs at hc ⊢ <;> omega

/-- Sign extension. -/
theorem extend_spec {bs : List Nat} {x : Int} (h : Stands bs x) (n t : Nat) (ht : t &&& 0x80 ≠ 0 ↔ x < 0) :
    Stands (bs ++ List.replicate n (if t &&& 0x80 ≠ 0 then 0xff else 0)) x := by
  obtain ⟨c, hc, hc1⟩ : ∃ c, (if t &&& 0x80 ≠ 0 then 0xff else 0) = c ∧ (x < 0 ∧ c = 255 ∨ 0 ≤ x ∧ c = 0) := by
    refine ⟨_, rfl, ?_⟩
    by_cases hx : x < 0
    · rw [if_pos (ht.2 hx)]; exact .inl ⟨hx, rfl⟩
    · rw [if_neg (fun h => hx (ht.1 h))]; exact .inr ⟨by omega, rfl⟩
  rw [hc]
  induction n with
  | zero => simpa using h
  | succ n ih =>
    rw [List.replicate_succ', ← List.append_assoc]
    generalize bs ++ List.replicate n c = l at *
    have hd := sv_def l
    have hi := top_iff ih.ok
    rw [ih.eq] at hd hi
    simp only [hi] at hd
    refine ⟨bytesOk_append.2 ⟨ih.ok, bytesOk_single.2 (by omega)⟩, by simp, ?_⟩
    rw [sv_append _ (by simp), sv_single]
    rcases hc1 with ⟨hx, rfl⟩ | ⟨hx, rfl⟩
    · rw [if_pos hx] at hd
      rw [if_pos (by omega)]
      push_cast
      omega
    · rw [if_neg (by omega)] at hd
      rw [if_neg (by omega)]
      push_cast
      omega

theorem normalize_spec {as bs : List Nat} {x y : Int} (ha : Stands as x) (hb : Stands bs y) :
    ∃ as' bs', normalizeLengths as bs = .ok (as', bs') ∧ Stands as' x ∧ Stands bs' y ∧ as'.length = Max.max as.length bs.length ∧
      bs'.length = Max.max as.length bs.length := by
  obtain ⟨t, t1, -, -, -, t2, -⟩ := sign_bit ha
  obtain ⟨u, u1, -, -, -, u2, -⟩ := sign_bit hb
  unfold normalizeLengths
  rw [t1, Res.ok_bind, u1, Res.ok_bind]
  refine ⟨_, _, rfl, extend_spec ha _ t t2, extend_spec hb _ u u2, ?_, ?_⟩ <;> simp <;> omega

theorem add_spec {as bs : List Nat} {x y : Int} (ha : Stands as x) (hb : Stands bs y) :
    ∃ r, add as bs = .ok r ∧ Stands r (x + y) ∧ (Max.max as.length bs.length ≤ r.length ∧ r.length ≤ Max.max as.length bs.length + 1) ∧
      (-(256 : Int) ^ Max.max as.length bs.length ≤ 2 * (x + y) → 2 * (x + y) < (256 : Int) ^ Max.max as.length bs.length →
        r.length = Max.max as.length bs.length) := by
  obtain ⟨t, t1, -, -, -, t2, -⟩ := sign_bit ha
  obtain ⟨u, u1, -, -, -, u2, -⟩ := sign_bit hb
  obtain ⟨as', bs', h1, h2, h3, h4, h5⟩ := normalize_spec ha hb
  obtain ⟨k1, k2, co, k3⟩ := addLoop_spec (c := false) h2.ok h3.ok (by rw [h4, h5])
  simp only [Bool.false_eq_true, if_false, Nat.add_zero] at k3
  have hne : addLoop false as' bs' ≠ [] := by
    intro e; rw [e] at k2; exact h2.ne (List.eq_nil_of_length_eq_zero k2.symm)
  obtain ⟨v, v1, v2, v3, v4⟩ := last_spec k1 hne
  have v5 : v &&& 0x80 ≠ 0 ↔ signedVal 8 (addLoop false as' bs') < 0 := by
    rw [and_80 v2, ← v4]; split_ifs <;> simp_all
  unfold add
  rw [t1, Res.ok_bind, u1, Res.ok_bind, h1, Res.ok_bind]
  simp only []
  rw [v1, Res.ok_bind]
  obtain ⟨b1, b2⟩ := h2.bounds
  obtain ⟨b3, b4⟩ := h3.bounds
  have e1 := sv_def as'
  have e2 := sv_def bs'
  have e3 := sv_def (addLoop false as' bs')
  have i1 := top_iff h2.ok
  have i2 := top_iff h3.ok
  have i3 := top_iff k1
  have lr := dv_lt k1
  have l1 := dv_lt h2.ok
  have l2 := dv_lt h3.ok
  have br := sv_bounds k1 hne
  have k3 : (digitsVal 256 (addLoop false as' bs') : Int) + co * 256 ^ as'.length = digitsVal 256 as' + digitsVal 256 bs' := by exact_mod_cast k3
  rw [h2.eq] at e1 i1
  rw [h3.eq] at e2 i2
  simp only [i1] at e1
  simp only [i2] at e2
  simp only [i3] at e3
  rw [k2] at e3 lr br
  rw [h4] at e1 b1 b2 k2 e3 lr k3 l1 br
  rw [h5] at e2 b3 b4 l2
  have hx : decide (t &&& 0x80 ≠ 0) = decide (x < 0) := by simp only [decide_eq_decide]; exact t2
  have hy : decide (u &&& 0x80 ≠ 0) = decide (y < 0) := by simp only [decide_eq_decide]; exact u2
  have hz : decide (v &&& 0x80 ≠ 0) = decide (signedVal 8 (addLoop false as' bs') < 0) := by simp only [decide_eq_decide]; exact v5
  rw [hx, hy, hz]
  generalize addLoop false as' bs' = l at *
  have hp : (0 : Int) < 256 ^ Max.max as.length bs.length := by positivity
  generalize hP : (256 : Int) ^ Max.max as.length bs.length = P at *
  have hco : (co : Int) = 0 ∨ (co : Int) = 1 := by
    by_contra hc
    have : 2 * P ≤ co * P := Int.mul_le_mul_of_nonneg_right (by omega) (by omega)
    split_ifs at e1 e2 <;> omega
  generalize hr : signedVal 8 l = r at *
  by_cases hc : decide (x < 0) = decide (y < 0) ∧ decide (x < 0) ≠ decide (r < 0)
  · rw [if_pos hc]
    obtain ⟨c1, c2⟩ := hc
    rw [decide_eq_decide] at c1
    rw [ne_eq, decide_eq_decide] at c2
    refine ⟨_, rfl, ⟨bytesOk_append.2 ⟨k1, bytesOk_single.2 (by split_ifs <;> decide)⟩, by simp, ?_⟩, by rw [List.length_append, List.length_singleton]; omega, ?_⟩
    · rw [sv_append _ (by simp), sv_single, k2, hP]
      by_cases hx0 : x < 0
      · have hy0 := c1.1 hx0
        have hr0 : ¬ r < 0 := fun h => c2 ⟨fun _ => h, fun _ => hx0⟩
        rw [if_pos hx0] at e1
        rw [if_pos hy0] at e2
        rw [if_neg hr0] at e3
        rw [if_pos (by simp [hx0])]
        simp only [hx0, decide_true, if_true]
        push_cast
        rcases hco with hco | hco <;> rw [hco] at k3 <;> omega
      · have hy0 : ¬ y < 0 := fun h => hx0 (c1.2 h)
        have hr0 : r < 0 := by by_contra h; exact c2 ⟨fun h' => absurd h' hx0, fun h' => absurd h' h⟩
        rw [if_neg hx0] at e1
        rw [if_neg hy0] at e2
        rw [if_pos hr0] at e3
        rw [if_neg (by simp [hx0])]
        simp only [hx0, decide_false, Bool.false_eq_true, if_false]
        push_cast
        rcases hco with hco | hco <;> rw [hco] at k3 <;> omega
    · intro f1 f2
      exfalso
      by_cases hx0 : x < 0
      · have hy0 := c1.1 hx0
        have hr0 : ¬ r < 0 := fun h => c2 ⟨fun _ => h, fun _ => hx0⟩
        rw [if_pos hx0] at e1
        rw [if_pos hy0] at e2
        rw [if_neg hr0] at e3
        rcases hco with hco | hco <;> rw [hco] at k3 <;> omega
      · have hy0 : ¬ y < 0 := fun h => hx0 (c1.2 h)
        have hr0 : r < 0 := by by_contra h; exact c2 ⟨fun h' => absurd h' hx0, fun h' => absurd h' h⟩
        rw [if_neg hx0] at e1
        rw [if_neg hy0] at e2
        rw [if_pos hr0] at e3
        rcases hco with hco | hco <;> rw [hco] at k3 <;> omega
  · rw [if_neg hc]
    refine ⟨_, rfl, ⟨k1, hne, ?_⟩, by omega, fun _ _ => k2⟩
    rw [hr]
    simp only [decide_eq_decide, ne_eq] at hc
    rcases hco with hco | hco <;> rw [hco] at k3 <;> split_ifs at e1 e2 e3 <;> omega

end Oracle
end BigIntegerCpp
