import Verif.Lemmas.Oracle3
import Verif.Lemmas.Convert
import Mathlib.Algebra.Order.Ring.Abs
/-
The byte-array arithmetic of tests/MyBigInt.cpp: products, bits, powers, shifts.
-/
set_option linter.unusedSectionVars false
namespace BigIntegerCpp
variable [Cfg]
namespace Oracle

/-! ### Multiply -/

theorem shiftLeftDrop_spec {bs : List Nat} {v : Int} (h : Stands bs v) :
    ∃ w, Stands (shiftLeftDrop bs) w ∧ (shiftLeftDrop bs).length = bs.length ∧ (256 : Int) ^ bs.length ∣ w - 2 * v := by
  obtain ⟨i1, i2, i3⟩ := doubleLoop_spec (p := 0) h.ok
  have hne : doubleLoop 0 bs ≠ [] := by
    intro e; rw [e] at i2; exact h.ne (List.eq_nil_of_length_eq_zero i2.symm)
  obtain ⟨k, hk⟩ := sv_cong bs
  obtain ⟨k', hk'⟩ := sv_cong (doubleLoop 0 bs)
  rw [h.eq] at hk
  rw [i2] at hk'
  have i3 := congrArg (Nat.cast (R := Int)) i3
  simp only [Nat.reduceLeDiff, if_false, Nat.add_zero] at i3
  push_cast at i3
  refine ⟨_, ⟨i1, hne, rfl⟩, i2, k' - 2 * k - (if 128 ≤ bs.getLast?.getD 0 then 1 else 0), ?_⟩
  change signedVal 8 (doubleLoop 0 bs) - _ = _
  rw [hk', hk]
  linarith

theorem dvd_pow256 {m n : Nat} (h : m ≤ n) : (256 : Int) ^ m ∣ 256 ^ n := pow_dvd_pow _ h

theorem mulLoop_spec {ba : List Bool} {e : Nat} (he : ∀ i, ba.getD i false = e.testBit i) {as : List Nat} {x : Int} (ha : Stands as x)
    {N : Nat} (i : Nat) {bs : List Nat} {v : Int} (hb : Stands bs v) (hl : N ≤ bs.length) :
    ∃ r w, mulLoop ba as i bs = .ok r ∧ Stands r w ∧ N ≤ r.length ∧ (256 : Int) ^ N ∣ w - (v * 2 ^ (i - 1) + x * (e % 2 ^ i : Nat)) := by
  induction i generalizing bs v with
  | zero => exact ⟨bs, v, rfl, hb, hl, by simp [Nat.mod_one]⟩
  | succ i ih =>
    have hstep : ∃ c, (if ba.getD i false = true then add as bs else pure bs : Res (List Nat)) = .ok c ∧
        Stands c (v + x * (if e.testBit i then 1 else 0)) ∧ N ≤ c.length := by
      rw [he]
      cases e.testBit i
      · exact ⟨bs, rfl, by simpa using hb, hl⟩
      · obtain ⟨c, c1, c2, ⟨c3, -⟩, -⟩ := add_spec ha hb
        exact ⟨c, by simpa using c1, by simpa [add_comm] using c2, by omega⟩
    obtain ⟨c, c1, c2, c3⟩ := hstep
    unfold mulLoop
    rw [c1, Res.ok_bind]
    have hmod := mod_two_pow_succ' e i
    by_cases hi : i = 0
    · subst hi
      rw [if_neg (by simp)]
      refine ⟨c, _, rfl, c2, c3, ?_⟩
      rw [hmod, Nat.zero_add, Nat.sub_self, pow_zero, mul_one, pow_zero, Nat.mod_one, Nat.add_zero]
      cases e.testBit 0 <;> simp
    · rw [if_pos hi]
      obtain ⟨w, w1, w2, w3⟩ := shiftLeftDrop_spec c2
      obtain ⟨r, z, r1, r2, r3, r4⟩ := ih w1 (by omega)
      refine ⟨r, z, r1, r2, r3, ?_⟩
      obtain ⟨j, rfl⟩ := Nat.exists_eq_succ_of_ne_zero hi
      have hd : (256 : Int) ^ N ∣ (w - 2 * (v + x * (if e.testBit j.succ then 1 else 0))) * 2 ^ j := (dvd_trans (dvd_pow256 c3) w3).mul_right _
      have := Int.dvd_add r4 hd
      convert this using 1
      rw [hmod]
      simp only [Nat.succ_eq_add_one, Nat.add_sub_cancel]
      push_cast
      rw [pow_succ]
      cases e.testBit (j + 1) <;> simp <;> ring

theorem setLength_spec {bs : List Nat} {v : Int} (h : Stands bs v) {N : Nat} (hN : N ≤ bs.length) (h0 : 1 ≤ N) :
    ∃ r w, setLength bs N = .ok r ∧ Stands r w ∧ r.length = N ∧ (256 : Int) ^ N ∣ w - v := by
  unfold setLength
  rw [if_pos hN]
  have hlen : (bs.take N).length = N := by rw [List.length_take]; omega
  have hne : bs.take N ≠ [] := by intro e; rw [e] at hlen; simp at hlen; omega
  refine ⟨_, _, rfl, ⟨fun w hw => h.ok w (List.mem_of_mem_take hw), hne, rfl⟩, hlen, ?_⟩
  obtain ⟨k, hk⟩ := sv_cong bs
  obtain ⟨k', hk'⟩ := sv_cong (bs.take N)
  rw [h.eq] at hk
  have e : (digitsVal 256 bs : Int) = digitsVal 256 (bs.take N) + 256 ^ N * digitsVal 256 (bs.drop N) := by
    have := digitsVal_append 256 (bs.take N) (bs.drop N)
    rw [List.take_append_drop, hlen] at this
    exact_mod_cast this
  rw [hk', hk, hlen, e]
  have e2 : (256 : Int) ^ bs.length = 256 ^ N * 256 ^ (bs.length - N) := by rw [← pow_add]; congr 1; omega
  rw [e2]
  exact ⟨k' - digitsVal 256 (bs.drop N) - k * 256 ^ (bs.length - N), by ring⟩

theorem abs_bound {bs : List Nat} {x : Int} (h : Stands bs x) : 2 * |x| ≤ 256 ^ bs.length := by
  obtain ⟨h1, h2⟩ := h.bounds
  rcases abs_cases x with ⟨e, -⟩ | ⟨e, -⟩ <;> omega

theorem multiply_spec {as bs : List Nat} {x y : Int} (ha : Stands as x) (hb : Stands bs y) :
    ∃ r, multiply as bs = .ok r ∧ Stands r (x * y) ∧ r.length = 2 * Max.max as.length bs.length := by
  obtain ⟨a1, b1, h1, h2, h3, h4, h5⟩ := normalize_spec ha hb
  have hn : 1 ≤ Max.max as.length bs.length := by
    have := List.length_pos_iff.2 ha.ne; omega
  have hz : Stands (List.replicate (2 * a1.length) 0) 0 := by
    refine ⟨bytesOk_replicate (by decide), ?_, ?_⟩
    · intro e; have := congrArg List.length e; simp at this; rw [this] at h4; simp at h4; omega
    · rw [sv_def]
      have e : digitsVal 256 (List.replicate (2 * a1.length) 0) = 0 := by
        rw [← isZero_iff]; simp [isZero]
      have e2 : (List.replicate (2 * a1.length) 0).getLast?.getD 0 = 0 := by
        rw [List.getLast?_replicate]; split_ifs <;> rfl
      rw [e, e2]; rfl
  obtain ⟨b2, z2, i1, i2, i3, i4, i5⟩ := normalize_spec h3 hz
  obtain ⟨a2, z3, j1, j2, j3, j4, j5⟩ := normalize_spec h2 i3
  unfold multiply
  rw [h1, Res.ok_bind]
  simp only []
  rw [i1, Res.ok_bind]
  simp only []
  rw [j1, Res.ok_bind]
  simp only []
  rw [List.length_replicate] at i4 i5
  generalize Max.max as.length bs.length = n at *
  have hb2 : b2.length = 2 * n := by omega
  have ha2 : a2.length = 2 * n := by omega
  have hz3 : z3.length = 2 * n := by omega
  obtain ⟨r, w, r1, r2, r3, r4⟩ := mulLoop_spec (bitArray_spec i2.ok) j2 (N := 2 * n) (bitArray b2).length j3 (by omega)
  rw [r1, Res.ok_bind, hb2]
  obtain ⟨s, u, s1, s2, s3, s4⟩ := setLength_spec r2 r3 (by omega)
  rw [s1]
  refine ⟨s, rfl, ⟨s2.ok, s2.ne, ?_⟩, s3⟩
  rw [zero_mul, zero_add, Nat.mod_eq_of_lt (by rw [bitArray_length, pow_mul]; exact bytes_lt i2.ok)] at r4
  obtain ⟨k, hk⟩ := sv_cong b2
  rw [i2.eq, hb2] at hk
  obtain ⟨k', hk'⟩ := sv_cong s
  rw [s2.eq, s3] at hk'
  obtain ⟨p, hp⟩ := Int.dvd_add s4 r4
  have hxy : |x * y| * 4 ≤ 256 ^ (2 * n) := by
    have q1 := abs_bound h2
    have q2 := abs_bound h3
    rw [h4] at q1
    rw [h5] at q2
    rw [abs_mul, two_mul n, pow_add]
    have := mul_le_mul q1 q2 (by positivity) (by positivity)
    linarith
  have hpos : (0 : Int) < 256 ^ (2 * n) := by positivity
  refine sv_unique s2.ok s2.ne (k := k' - p + x * k) ?_ ?_ ?_
  · rw [s3, hk]
    rw [hk] at *
    linear_combination (exp := 1) hk' - hp
  · rw [s3]
    have := neg_abs_le (x * y)
    omega
  · rw [s3]
    have := le_abs_self (x * y)
    omega

/-! ### Max, Not -/

theorem max_spec {as bs : List Nat} {x y : Int} (ha : Stands as x) (hb : Stands bs y) :
    ∃ r, max as bs = .ok r ∧ Stands r (Max.max x y) ∧ r.length ≤ Max.max as.length bs.length := by
  obtain ⟨t, t1, -, -, -, -, t2⟩ := sign_bit ha
  obtain ⟨u, u1, -, -, -, -, u2⟩ := sign_bit hb
  unfold max
  rw [t1, Res.ok_bind, u1, Res.ok_bind]
  simp only [t2, u2]
  by_cases hs : decide (0 ≤ x) = decide (0 ≤ y)
  · rw [if_neg (by simpa using hs)]
    obtain ⟨n, n1, n2, -, -⟩ := negate_spec hb
    obtain ⟨s, s1, s2, -, -⟩ := add_spec ha n2
    obtain ⟨v, v1, -, -, -, v2, -⟩ := sign_bit s2
    rw [n1, Res.ok_bind, s1, Res.ok_bind, v1, Res.ok_bind]
    by_cases hc : v &&& 0x80 ≠ 0
    · rw [if_pos hc]
      have := v2.1 hc
      rw [max_eq_right (by omega)]
      exact ⟨_, rfl, hb, le_max_right _ _⟩
    · rw [if_neg hc]
      have : ¬ x + -y < 0 := fun h => hc (v2.2 h)
      rw [max_eq_left (by omega)]
      exact ⟨_, rfl, ha, le_max_left _ _⟩
  · rw [if_pos (by simpa using hs)]
    rw [decide_eq_decide] at hs
    by_cases hx : 0 ≤ x
    · rw [if_pos (by simpa using hx)]
      have : ¬ 0 ≤ y := fun h => hs ⟨fun _ => h, fun _ => hx⟩
      rw [max_eq_left (by omega)]
      exact ⟨_, rfl, ha, le_max_left _ _⟩
    · rw [if_neg (by simpa using hx)]
      have : 0 ≤ y := by by_contra h; exact hs ⟨fun h' => absurd h' hx, fun h' => absurd h' h⟩
      rw [max_eq_right (by omega)]
      exact ⟨_, rfl, hb, le_max_right _ _⟩

theorem not_spec {bs : List Nat} {x : Int} (h : Stands bs x) : Stands (not bs) (-x - 1) ∧ (not bs).length = bs.length := by
  refine ⟨?_, by simp [not]⟩
  obtain ⟨hok, hne, rfl⟩ := h
  induction bs with
  | nil => exact absurd rfl hne
  | cons b bs ih =>
    obtain ⟨hb, hok⟩ := bytesOk_cons.1 hok
    rcases eq_or_ne bs [] with rfl | hc
    · refine ⟨?_, by simp [not], ?_⟩
      · simp only [not, List.map_cons, List.map_nil, xor_ff hb]; exact bytesOk_single.2 (by omega)
      · simp only [not, List.map_cons, List.map_nil, xor_ff hb]
        rw [sv_single, sv_single]
        split_ifs <;> omega
    · obtain ⟨i1, i2, i3⟩ := ih hok hc
      have e : not (b :: bs) = (255 - b) :: not bs := by simp only [not, List.map_cons, xor_ff hb]
      rw [e]
      refine ⟨bytesOk_cons.2 ⟨by omega, i1⟩, by simp, ?_⟩
      rw [sv_cons i2, i3, sv_cons hc]
      omega

/-! ### Or, And, Xor -/

theorem sign_test {b : Nat} (h : b < 256) : b.testBit 7 = decide (128 ≤ b) := by
  revert b; decide +kernel

theorem single_bits {b : Nat} (h : b < 256) (k : Nat) : ibit (signedVal 8 [b]) k = b.testBit (Min.min k 7) := by
  have e : signedVal 8 [b] = b + 2 ^ 8 * (if 128 ≤ b then -1 else 0) := by
    rw [sv_single]; split_ifs <;> omega
  rw [e]
  by_cases hk : k < 8
  · rw [ibit_low hk, min_eq_left (by omega)]
  · rw [ibit_high h (by omega), min_eq_right (by omega), sign_test h]
    by_cases hb : 128 ≤ b
    · rw [if_pos hb, ibit_neg_one]; simp [hb]
    · rw [if_neg hb, ibit_zero]; simp [hb]

theorem cons_bits {b : Nat} (h : b < 256) {bs : List Nat} (hne : bs ≠ []) (k : Nat) :
    ibit (signedVal 8 (b :: bs)) k = if k < 8 then b.testBit k else ibit (signedVal 8 bs) (k - 8) := by
  rw [sv_cons hne, show (256 : Int) = 2 ^ 8 by norm_num]
  by_cases hk : k < 8
  · rw [if_pos hk, ibit_low hk]
  · rw [if_neg hk, ibit_high h (by omega)]

theorem zip_bits {f : Nat → Nat → Nat} {g : Bool → Bool → Bool} (hf : ∀ a b, a < 256 → b < 256 → f a b < 256)
    (hg : ∀ a b k, (f a b).testBit k = g (a.testBit k) (b.testBit k)) {as bs : List Nat} (ha : BytesOk as) (hb : BytesOk bs) (hl : as.length = bs.length)
    (hne : as ≠ []) :
    BytesOk (as.zipWith f bs) ∧ as.zipWith f bs ≠ [] ∧
    ∀ k, ibit (signedVal 8 (as.zipWith f bs)) k = g (ibit (signedVal 8 as) k) (ibit (signedVal 8 bs) k) := by
  induction as generalizing bs with
  | nil => exact absurd rfl hne
  | cons a as ih =>
    rcases bs with _ | ⟨b, bs⟩
    · simp at hl
    · obtain ⟨ha0, ha⟩ := bytesOk_cons.1 ha
      obtain ⟨hb0, hb⟩ := bytesOk_cons.1 hb
      have hl : as.length = bs.length := by simpa using hl
      rcases eq_or_ne as [] with rfl | hc
      · obtain rfl := List.eq_nil_of_length_eq_zero hl.symm
        refine ⟨bytesOk_single.2 (hf a b ha0 hb0), by simp, fun k => ?_⟩
        simp only [List.zipWith_cons_cons, List.zipWith_nil_left]
        rw [single_bits (hf a b ha0 hb0), single_bits ha0, single_bits hb0, hg]
      · have hc' : bs ≠ [] := by rintro rfl; simp at hl; exact hc hl
        obtain ⟨i1, i2, i3⟩ := ih ha hb hl hc
        refine ⟨bytesOk_cons.2 ⟨hf a b ha0 hb0, i1⟩, by simp, fun k => ?_⟩
        rw [List.zipWith_cons_cons, cons_bits (hf a b ha0 hb0) i2, cons_bits ha0 hc, cons_bits hb0 hc', hg, i3]
        split_ifs <;> rfl

theorem bitwise_spec {f : Nat → Nat → Nat} {g : Bool → Bool → Bool} (hf : ∀ a b, a < 256 → b < 256 → f a b < 256)
    (hg : ∀ a b k, (f a b).testBit k = g (a.testBit k) (b.testBit k)) {as bs : List Nat} {x y z : Int} (ha : Stands as x) (hb : Stands bs y)
    (hz : ∀ k, ibit z k = g (ibit x k) (ibit y k)) :
    ∃ r, bitwise f as bs = .ok r ∧ Stands r z ∧ r.length = Max.max as.length bs.length := by
  obtain ⟨a1, b1, h1, h2, h3, h4, h5⟩ := normalize_spec ha hb
  unfold bitwise
  rw [h1, Res.ok_bind]
  obtain ⟨k1, k2, k3⟩ := zip_bits hf hg h2.ok h3.ok (by omega) h2.ne
  refine ⟨_, rfl, ⟨k1, k2, ibit_ext fun k => ?_⟩, by rw [List.length_zipWith]; omega⟩
  rw [k3, h2.eq, h3.eq, hz]

/-! ### GCD -/

theorem gcdLoop_spec {L : Nat} (hL : 1 ≤ L) (n : Nat) {as bs : List Nat} {x y : Int} (ha : Stands as x) (hb : Stands bs y) (hx : 0 ≤ x) (hy : 0 ≤ y)
    (hx2 : 2 * x < 256 ^ L) (hy2 : 2 * y < 256 ^ L) (la : as.length ≤ L + 2) (lb : bs.length ≤ L + 2) (hn : y.natAbs < n) :
    ∃ r, gcdLoop n as bs = .ok r ∧ Stands r (Int.gcd x y) ∧ r.length ≤ L + 2 := by
  induction n generalizing as bs x y with
  | zero => omega
  | succ n ih =>
    unfold gcdLoop
    rw [isZero_spec hb]
    by_cases h0 : y = 0
    · subst h0
      rw [if_pos (by simp)]
      refine ⟨as, rfl, ?_, la⟩
      rw [Int.gcd_zero_right, Int.natAbs_of_nonneg hx]
      exact ha
    · rw [if_neg (by simpa using h0)]
      obtain ⟨r, r1, r2, r3⟩ := remainder_spec ha hb h0 hL (by rwa [abs_of_nonneg hx])
      rw [Int.tmod_eq_emod_of_nonneg hx] at r2
      have h1 := Int.emod_nonneg x h0
      have h2 := Int.emod_lt_of_pos x (by omega : 0 < y)
      rw [r1, Res.ok_bind]
      obtain ⟨s, s1, s2, s3⟩ := ih hb r2 hy h1 hy2 (by omega) lb r3 (by omega)
      refine ⟨s, s1, ?_, s3⟩
      have : Int.gcd y (x % y) = Int.gcd x y := by
        rw [Int.gcd_comm, Int.gcd_emod]
      rwa [this] at s2

theorem gcd_spec {as bs : List Nat} {x y : Int} (ha : Stands as x) (hb : Stands bs y) {L : Nat} (hL : 1 ≤ L) (hx : 2 * |x| < 256 ^ L)
    (hy : 2 * |y| < 256 ^ L) {n : Nat} (hn : y.natAbs < n) :
    ∃ r, gcd n as bs = .ok r ∧ Stands r (Int.gcd x y) ∧ r.length ≤ L + 2 := by
  obtain ⟨t, t1, -, -, -, -, t2⟩ := sign_bit ha
  obtain ⟨u, u1, -, -, -, -, u2⟩ := sign_bit hb
  obtain ⟨a, a1, a2, a3⟩ := absTrim_spec ha t2
  obtain ⟨b, b1, b2, b3⟩ := absTrim_spec hb u2
  unfold gcd
  rw [t1, Res.ok_bind, u1, Res.ok_bind]
  simp only []
  rw [a1, Res.ok_bind, b1, Res.ok_bind]
  have l1 := a3.length_le hL hx
  have l2 := b3.length_le hL hy
  obtain ⟨r, r1, r2, r3⟩ := gcdLoop_spec hL n a2 b2 (abs_nonneg x) (abs_nonneg y) hx hy (by omega) (by omega) (by rwa [Int.natAbs_abs])
  refine ⟨r, r1, ?_, r3⟩
  unfold Int.gcd at r2 ⊢
  rwa [Int.natAbs_abs, Int.natAbs_abs] at r2

end Oracle
end BigIntegerCpp
