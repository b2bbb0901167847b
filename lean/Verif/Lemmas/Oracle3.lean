import Verif.Lemmas.Oracle2
/-
The byte-array arithmetic of tests/MyBigInt.cpp: division.
-/
set_option linter.unusedSectionVars false
namespace BigIntegerCpp
variable [Cfg]
namespace Oracle

/-- A number between -256^L/2 (included) and 256^L/2. -/
theorem max_pow (m n : Nat) : (256 : Int) ^ m ≤ 256 ^ Max.max m n ∧ (256 : Int) ^ n ≤ 256 ^ Max.max m n :=
  ⟨pow256_mono (le_max_left _ _), pow256_mono (le_max_right _ _)⟩

/-- One round of the division loop before the test. -/
theorem divStep {b1 b2 : List Nat} {r D : Int} (h1 : Stands b1 r) (hr : 0 ≤ r) (h2 : Stands b2 D) (hD : 0 ≤ D) :
    ∃ n2 c1 c2 t, negate b2 = .ok n2 ∧ add b1 n2 = .ok c1 ∧ negate n2 = .ok c2 ∧ last c1 = .ok t ∧ (t < 128 ↔ D ≤ r) ∧
      Stands c1 (r - D) ∧ Stands c2 D ∧ c2.length = b2.length ∧ c1.length = Max.max b1.length b2.length := by
  obtain ⟨n2, a1, a2, -, a3⟩ := negate_spec h2
  obtain ⟨c2, d1, d2, -, d3⟩ := negate_spec a2
  obtain ⟨c1, e1, e2, -, e3⟩ := add_spec h1 a2
  obtain ⟨u1, u2⟩ := h1.bounds
  obtain ⟨v1, v2⟩ := h2.bounds
  have hp : (0 : Int) < 256 ^ b2.length := by positivity
  have a3 := a3 (by omega)
  rw [a3] at d3 e3
  have d3 := d3 (by omega)
  obtain ⟨m1, m2⟩ := max_pow b1.length b2.length
  have e3 := e3 (by omega) (by omega)
  have e2 : Stands c1 (r - D) := by rwa [← sub_eq_add_neg] at e2
  obtain ⟨t, t1, -, -, t2, -, -⟩ := sign_bit e2
  exact ⟨n2, c1, c2, t, a1, e1, d1, t1, by omega, e2, by simpa using d2, d3, e3⟩

theorem divLoop_spec (n : Nat) {b1 b2 : List Nat} {br : List Bool} {r d D : Int} (h1 : Stands b1 r) (hr : 0 ≤ r) (h2 : Stands b2 D)
    (hD : n ≠ 0 → D = d * 2 ^ (n - 1)) (hD0 : 0 ≤ D) (hlt : r < d * 2 ^ n) (hn : n ≤ br.length)
    (hbr : ∀ i < n, br.getD i false = false) :
    ∃ b1' br' r', ∃ q : Nat, divLoop n b1 b2 br = .ok (b1', br') ∧ Stands b1' r' ∧ 0 ≤ r' ∧ r' < d ∧ r = q * d + r' ∧ q < 2 ^ n ∧
      b1'.length ≤ Max.max b1.length b2.length ∧ br'.length = br.length ∧
      ∀ i, br'.getD i false = if i < n then q.testBit i else br.getD i false := by
  induction n generalizing b1 b2 br r D with
  | zero => exact ⟨b1, br, r, 0, rfl, h1, hr, by simpa using hlt, by simp, by simp, le_max_left _ _, rfl, by simp⟩
  | succ n ih =>
    have hD : D = d * 2 ^ n := by simpa using hD (by omega)
    obtain ⟨n2, c1, c2, t, s1, s2, s3, s4, s5, s6, s7, s8, s9⟩ := divStep h1 hr h2 hD0
    obtain ⟨z1, z2⟩ := shiftRight_spec s7
    have hhalf : n ≠ 0 → D / 2 = d * 2 ^ (n - 1) := by
      intro hn0
      obtain ⟨m, rfl⟩ := Nat.exists_eq_succ_of_ne_zero hn0
      rw [hD, Nat.succ_sub_one, pow_succ, ← mul_assoc]
      exact Int.mul_ediv_cancel _ (by decide)
    unfold divLoop
    rw [s1, Res.ok_bind, s2, Res.ok_bind, s3, Res.ok_bind, s4, Res.ok_bind]
    by_cases hc : t < 128
    · rw [if_pos hc]
      have hc := s5.1 hc
      obtain ⟨b1', br', r', q, i1, i2, i3, i4, i5, i6, i7, i8, i9⟩ := ih (br := br.set n true) s6 (by omega) z1 hhalf (by omega)
        (by rw [pow_succ, ← mul_assoc] at hlt; omega) (by rw [List.length_set]; omega)
        (fun i hi => by
          have := hbr i (by omega)
          rw [List.getD_eq_getElem?_getD] at this ⊢
          rw [List.getElem?_set_ne (by omega)]; exact this)
      refine ⟨b1', br', r', 2 ^ n * 1 + q, i1, i2, i3, i4, ?_, by rw [pow_succ]; omega, ?_, by simpa using i8, ?_⟩
      · push_cast
        rw [mul_one, add_mul]
        rw [hD] at i5
        linarith
      · rw [z2, s8, s9] at i7; omega
      · intro i
        rw [i9, Nat.testBit_two_pow_mul_add _ i6]
        by_cases hi : i < n
        · rw [if_pos hi, if_pos (by omega), if_pos hi]
        · rw [if_neg hi, if_neg hi]
          rw [List.getD_eq_getElem?_getD, List.getD_eq_getElem?_getD]
          by_cases hin : i = n
          · subst hin
            rw [List.getElem?_set_self (by omega), if_pos (by omega), Nat.sub_self]
            rfl
          · rw [List.getElem?_set_ne (by omega), if_neg (by omega)]
    · rw [if_neg hc]
      have hc : ¬ D ≤ r := fun h => hc (s5.2 h)
      obtain ⟨c3, f1, f2, -, f3⟩ := add_spec s6 s7
      have f2 : Stands c3 r := by simpa using f2
      have f4 : c3.length = Max.max c1.length c2.length := by
        obtain ⟨m1, m2⟩ := max_pow c1.length c2.length
        obtain ⟨u1, u2⟩ := s6.bounds
        obtain ⟨u3, u4⟩ := s7.bounds
        have hp : (0 : Int) < 256 ^ c2.length := by positivity
        exact f3 (by omega) (by omega)
      rw [f1, Res.ok_bind]
      obtain ⟨b1', br', r', q, i1, i2, i3, i4, i5, i6, i7, i8, i9⟩ := ih (br := br) f2 hr z1 hhalf (by omega) (by omega) (by omega)
        (fun i hi => hbr i (by omega))
      refine ⟨b1', br', r', q, i1, i2, i3, i4, i5, by rw [pow_succ]; omega, ?_, i8, ?_⟩
      · rw [f4, z2, s8, s9] at i7; omega
      · intro i
        rw [i9]
        by_cases hi : i < n
        · rw [if_pos hi, if_pos (by omega)]
        · rw [if_neg hi]
          by_cases hin : i = n
          · subst hin
            rw [if_pos (by omega), hbr i (by omega), Nat.testBit_lt_two_pow i6]
          · rw [if_neg (by omega)]

/-- With divisor 0 every bit is set and nothing is subtracted. -/
theorem divLoop_zero (n : Nat) {b1 b2 : List Nat} {br : List Bool} {r : Int} (h1 : Stands b1 r) (hr : 0 ≤ r) (h2 : Stands b2 0) (hn : n ≤ br.length) :
    ∃ b1' br', divLoop n b1 b2 br = .ok (b1', br') ∧ Stands b1' r ∧
      b1'.length ≤ Max.max b1.length b2.length ∧ br'.length = br.length ∧
      ∀ i, br'.getD i false = if i < n then true else br.getD i false := by
  induction n generalizing b1 b2 br with
  | zero => exact ⟨b1, br, rfl, h1, le_max_left _ _, rfl, by simp⟩
  | succ n ih =>
    obtain ⟨n2, c1, c2, t, s1, s2, s3, s4, s5, s6, s7, s8, s9⟩ := divStep h1 hr h2 (le_refl _)
    obtain ⟨z1, z2⟩ := shiftRight_spec s7
    unfold divLoop
    rw [s1, Res.ok_bind, s2, Res.ok_bind, s3, Res.ok_bind, s4, Res.ok_bind, if_pos (s5.2 hr)]
    obtain ⟨b1', br', i1, i2, i7, i8, i9⟩ := ih (br := br.set n true) (by simpa using s6) (by simpa using z1) (by rw [List.length_set]; omega)
    refine ⟨b1', br', i1, i2, by rw [z2, s8, s9] at i7; omega, by simpa using i8, ?_⟩
    intro i
    rw [i9]
    by_cases hi : i < n
    · rw [if_pos hi, if_pos (by omega)]
    · rw [if_neg hi, List.getD_eq_getElem?_getD, List.getD_eq_getElem?_getD]
      by_cases hin : i = n
      · subst hin
        rw [List.getElem?_set_self (by omega), if_pos (by omega)]
        rfl
      · rw [List.getElem?_set_ne (by omega), if_neg (by omega)]

/-! ### GetBytes -/

theorem or_one {b : Nat} (h : b < 256) : b % 2 = 0 → b ||| 1 = b + 1 := by
  revert b; decide +kernel

theorem setOne_spec {bs : List Nat} {x : Int} (h : Stands bs (2 * x)) : Stands (bs.set 0 (bs.headD 0 ||| 1)) (2 * x + 1) := by
  obtain ⟨hok, hne, he⟩ := h
  obtain ⟨b, cs, rfl⟩ := List.exists_cons_of_ne_nil hne
  obtain ⟨hb, hok⟩ := bytesOk_cons.1 hok
  have hh := sv_head b cs
  rw [he] at hh
  have hor : b ||| 1 = b + 1 := or_one hb (by omega)
  simp only [List.headD_cons, List.set_cons_zero, hor]
  refine ⟨bytesOk_cons.2 ⟨by omega, hok⟩, by simp, ?_⟩
  rcases eq_or_ne cs [] with rfl | hc
  · rw [sv_single] at he ⊢
    split_ifs at he ⊢ <;> omega
  · rw [sv_cons hc] at he ⊢
    push_cast; omega

theorem mod_two_pow_succ' (q k : Nat) : q % 2 ^ (k + 1) = (if q.testBit k then 2 ^ k else 0) + q % 2 ^ k := by
  rw [Nat.mod_pow_succ, Nat.testBit_eq_decide_div_mod_eq]
  simp only [decide_eq_true_eq]
  split_ifs with h
  · rw [h]; ring
  · have : (q / 2 ^ k) % 2 = 0 := by omega
    rw [this]; ring

theorem getBytesLoop_spec {ba : List Bool} {q : Nat} (hq : ∀ i, ba.getD i false = q.testBit i) (k : Nat) {mask : List Nat} {m : Int}
    (h : Stands mask m) (hm : 0 ≤ m) (ht : Tight mask m) :
    ∃ r, getBytesLoop ba k mask = .ok r ∧ Stands r (m * 2 ^ k + (q % 2 ^ k : Nat)) ∧ Tight r (m * 2 ^ k + (q % 2 ^ k : Nat)) := by
  induction k generalizing mask m with
  | zero => exact ⟨mask, rfl, by simpa [Nat.mod_one] using h, by simpa [Nat.mod_one] using ht⟩
  | succ k ih =>
    obtain ⟨g, g1, g2, g3⟩ := shiftLeftGrow_spec h
    have g4 := grow_tight ht hm g3
    unfold getBytesLoop
    rw [g1, Res.ok_bind]
    have hcond : (k < ba.length ∧ ba.getD k false = true) ↔ q.testBit k = true := by
      rw [hq]
      refine ⟨fun h => h.2, fun h => ⟨?_, h⟩⟩
      rw [← hq] at h
      by_contra hc
      rw [List.getD_eq_default _ _ (by omega)] at h
      cases h
    have hmod := mod_two_pow_succ' q k
    by_cases hc : q.testBit k = true
    · rw [if_pos (hcond.2 hc)]
      have t2 : Tight (g.set 0 (g.headD 0 ||| 1)) (2 * m + 1) := by
        unfold Tight at *
        rw [List.length_set]
        rcases g4 with h | h
        · exact .inl h
        · exact .inr (by omega)
      obtain ⟨r, i1, i2, i3⟩ := ih (setOne_spec g2) (by omega) t2
      have e : (2 * m + 1) * 2 ^ k + ((q % 2 ^ k : Nat) : Int) = m * 2 ^ (k + 1) + ((q % 2 ^ (k + 1) : Nat) : Int) := by
        rw [hmod, if_pos hc, pow_succ]; push_cast; ring
      rw [e] at i2 i3
      exact ⟨r, i1, i2, i3⟩
    · rw [if_neg (fun h => hc (hcond.1 h))]
      obtain ⟨r, i1, i2, i3⟩ := ih g2 (by omega) g4
      have e : (2 * m) * 2 ^ k + ((q % 2 ^ k : Nat) : Int) = m * 2 ^ (k + 1) + ((q % 2 ^ (k + 1) : Nat) : Int) := by
        rw [hmod, if_neg hc, pow_succ]; push_cast; ring
      rw [e] at i2 i3
      exact ⟨r, i1, i2, i3⟩

theorem stands_zero : Stands [0] 0 := ⟨by decide, by simp, by decide⟩
theorem stands_one : Stands [1] 1 := ⟨by decide, by simp, by decide⟩

theorem getBytes_spec {ba : List Bool} {q : Nat} (hq : ∀ i, ba.getD i false = q.testBit i) :
    ∃ r, getBytes ba = .ok r ∧ Stands r q ∧ Tight r q := by
  obtain ⟨r, i1, i2, i3⟩ := getBytesLoop_spec hq (8 * (ba.length / 8 + 1)) stands_zero (le_refl _) (.inl rfl)
  have hlt : q < 2 ^ (8 * (ba.length / 8 + 1)) := by
    have : q < 2 ^ ba.length := by
      apply Nat.lt_pow_two_of_testBit
      intro i hi
      rw [← hq, List.getD_eq_default _ _ hi]
    exact lt_of_lt_of_le this (Nat.pow_le_pow_right (by decide) (by omega))
  rw [zero_mul, zero_add, Nat.mod_eq_of_lt hlt] at i2 i3
  exact ⟨r, i1, i2, i3⟩

/-! ### Divide, Remainder -/

/-- The absolute value, trimmed. -/
theorem absTrim_spec {bs : List Nat} {x : Int} (h : Stands bs x) {t : Nat} (ht : t &&& 0x80 = 0 ↔ 0 ≤ x) :
    ∃ r, (if decide (t &&& 0x80 = 0) = true then pure bs else negate bs : Res (List Nat)) = .ok r ∧
      Stands (trim r) |x| ∧ Tight (trim r) |x| := by
  by_cases hx : 0 ≤ x
  · rw [if_pos (by simpa using ht.2 hx), abs_of_nonneg hx]
    exact ⟨bs, rfl, (trim_spec h).1, trim_tight h hx⟩
  · rw [if_neg (by simpa using fun h => hx (ht.1 h)), abs_of_neg (by omega)]
    obtain ⟨r, r1, r2, -, -⟩ := negate_spec h
    exact ⟨r, r1, (trim_spec r2).1, trim_tight r2 (by omega)⟩

theorem replicate_getD (n i : Nat) : (List.replicate n false).getD i false = false := by
  rw [List.getD_eq_getElem?_getD, List.getElem?_replicate]
  split_ifs <;> rfl

/-- The common part of `Divide` and `Remainder`: of the absolute values. -/
theorem longDiv_spec {as bs : List Nat} {X Y : Int} (ha : Stands as X) (hb : Stands bs Y) (hX : 0 ≤ X) (hY : 0 < Y) (tb : Tight bs Y) :
    (topBit (bitArray as) < topBit (bitArray bs) → X < Y) ∧
    (¬ topBit (bitArray as) < topBit (bitArray bs) →
      ∃ bs' b1 br, ∃ q : Nat, growLoop (topBit (bitArray as) - topBit (bitArray bs)) bs = .ok bs' ∧
        divLoop (topBit (bitArray as) - topBit (bitArray bs) + 1) as bs' (List.replicate (topBit (bitArray as) - topBit (bitArray bs) + 1) false) = .ok (b1, br) ∧
        Stands b1 (X - q * Y) ∧ 0 ≤ X - q * Y ∧ X - q * Y < Y ∧ (∀ i, br.getD i false = q.testBit i) ∧
        b1.length ≤ as.length + 1) := by
  obtain ⟨u1, u2⟩ := topBit_spec ha.ok
  obtain ⟨v1, v2⟩ := topBit_spec hb.ok
  have ea := dv_nonneg ha hX
  have eb := dv_nonneg hb (by omega)
  have hle := topBit_le as
  generalize topBit (bitArray as) = l1 at *
  generalize topBit (bitArray bs) = l2 at *
  have u1' : X < 2 ^ (l1 + 1) := by rw [← ea]; exact_mod_cast u1
  have v2' : (2 : Int) ^ l2 ≤ Y := by rw [← eb]; exact_mod_cast v2 (by omega)
  constructor
  · intro hlt
    have : (2 : Int) ^ (l1 + 1) ≤ 2 ^ l2 := pow_le_pow_right₀ (by decide) (by omega)
    omega
  · intro hlt
    obtain ⟨bs', g1, g2, g3⟩ := growLoop_spec (l1 - l2) hb (by omega) tb
    have hXY : X < Y * 2 ^ (l1 - l2 + 1) := by
      have : (2 : Int) ^ l2 * 2 ^ (l1 - l2 + 1) ≤ Y * 2 ^ (l1 - l2 + 1) := Int.mul_le_mul_of_nonneg_right v2' (by positivity)
      rw [← pow_add, show l2 + (l1 - l2 + 1) = l1 + 1 by omega] at this
      omega
    obtain ⟨b1, br, r, q, d1, d2, d3, d4, d5, d6, d7, d8, d9⟩ := divLoop_spec (l1 - l2 + 1) (br := List.replicate (l1 - l2 + 1) false) ha hX g2
      (fun _ => by rw [Nat.add_sub_cancel]) (by positivity) hXY (by simp) (fun i _ => replicate_getD _ i)
    have er : X - q * Y = r := by omega
    refine ⟨bs', b1, br, q, g1, d1, by rw [er]; exact d2, by omega, by omega, ?_, ?_⟩
    · intro i
      rw [d9]
      split_ifs with hi
      · rfl
      · rw [replicate_getD, Nat.testBit_lt_two_pow (lt_of_lt_of_le d6 (Nat.pow_le_pow_right (by decide) (by omega)))]
    · have : bs'.length ≤ as.length + 1 := by
        refine g3.length_le (by omega) ?_
        have v1' : Y < 2 ^ (l2 + 1) := by rw [← eb]; exact_mod_cast v1
        have : Y * 2 ^ (l1 - l2) < 2 ^ (l2 + 1) * 2 ^ (l1 - l2) := Int.mul_lt_mul_of_pos_right v1' (by positivity)
        rw [← pow_add, show l2 + 1 + (l1 - l2) = l1 + 1 by omega, pow_succ] at this
        have hl1 : (2 : Int) ^ l1 ≤ 256 ^ as.length := hle
        rw [pow_succ]
        omega
      omega

theorem tdiv_abs (x y : Int) : x.tdiv y = if (decide (0 ≤ x) = decide (0 ≤ y)) then |x| / |y| else -(|x| / |y|) := by
  by_cases hx : 0 ≤ x <;> by_cases hy : 0 ≤ y
  · simp [hx, hy, abs_of_nonneg, Int.tdiv_eq_ediv_of_nonneg]
  · rw [if_neg (by simp [hx, hy]), abs_of_nonneg hx, abs_of_neg (by omega), ← Int.tdiv_eq_ediv_of_nonneg hx, Int.tdiv_neg, neg_neg]
  · rw [if_neg (by simp [hx, hy]), abs_of_nonneg hy, abs_of_neg (by omega), ← Int.tdiv_eq_ediv_of_nonneg (by omega), Int.neg_tdiv, neg_neg]
  · rw [if_pos (by simp [hx, hy]), abs_of_neg (by omega), abs_of_neg (by omega), ← Int.tdiv_eq_ediv_of_nonneg (by omega), Int.neg_tdiv, Int.tdiv_neg, neg_neg]

theorem tmod_abs (x y : Int) : x.tmod y = if 0 ≤ x then |x| % |y| else -(|x| % |y|) := by
  rw [Int.emod_abs]
  by_cases hx : 0 ≤ x
  · rw [if_pos hx, abs_of_nonneg hx, Int.tmod_eq_emod_of_nonneg hx]
  · rw [if_neg hx, abs_of_neg (by omega), ← Int.tmod_eq_emod_of_nonneg (by omega), Int.neg_tmod, neg_neg]

theorem pos_eq {t u : Nat} {x y : Int} (ht : t &&& 0x80 = 0 ↔ 0 ≤ x) (hu : u &&& 0x80 = 0 ↔ 0 ≤ y) :
    (decide (t &&& 0x80 = 0) = decide (u &&& 0x80 = 0)) ↔ (decide (0 ≤ x) = decide (0 ≤ y)) := by
  simp only [ht, hu]

theorem divide_spec {as bs : List Nat} {x y : Int} (ha : Stands as x) (hb : Stands bs y) (hy : y ≠ 0) {L : Nat} (hL : 1 ≤ L) (hx : 2 * |x| < 256 ^ L) :
    ∃ r, divide as bs = .ok r ∧ Stands r (x.tdiv y) ∧ r.length ≤ L + 1 := by
  obtain ⟨t, t1, -, -, -, -, t2⟩ := sign_bit ha
  obtain ⟨u, u1, -, -, -, -, u2⟩ := sign_bit hb
  obtain ⟨a, a1, a2, a3⟩ := absTrim_spec ha t2
  obtain ⟨b, b1, b2, b3⟩ := absTrim_spec hb u2
  have hY : 0 < |y| := abs_pos.2 hy
  have hX := abs_nonneg x
  obtain ⟨l1, l2⟩ := longDiv_spec a2 b2 hX hY b3
  unfold divide
  rw [t1, Res.ok_bind, u1, Res.ok_bind]
  simp only []
  rw [a1, Res.ok_bind, b1, Res.ok_bind, tdiv_abs]
  by_cases hlt : topBit (bitArray (trim a)) < topBit (bitArray (trim b))
  · rw [if_pos hlt, Int.ediv_eq_zero_of_lt hX (l1 hlt)]
    exact ⟨_, rfl, by simpa using stands_zero, by simp⟩
  · rw [if_neg hlt]
    obtain ⟨bs', c1, br, q, d1, d2, d3, d4, d5, d6, d7⟩ := l2 hlt
    rw [d1, Res.ok_bind, d2, Res.ok_bind]
    simp only []
    obtain ⟨r, r1, r2, r3⟩ := getBytes_spec d6
    rw [r1, Res.ok_bind]
    have hq : |x| / |y| = q := ((Int.ediv_emod_unique hY).2 ⟨(by ring : |x| - q * |y| + |y| * q = |x|), d4, d5⟩).1
    have hqx : (q : Int) ≤ |x| := by rw [← hq]; exact Int.ediv_le_self _ hX
    have hlen := r3.length_le hL (by omega)
    rw [hq]
    simp only [pos_eq t2 u2]
    by_cases hs : decide (0 ≤ x) = decide (0 ≤ y)
    · rw [if_pos hs, if_pos hs]
      exact ⟨r, rfl, r2, by omega⟩
    · rw [if_neg hs, if_neg hs]
      obtain ⟨n, n1, n2, n3, -⟩ := negate_spec r2
      exact ⟨n, n1, n2, by omega⟩

theorem remainder_spec {as bs : List Nat} {x y : Int} (ha : Stands as x) (hb : Stands bs y) (hy : y ≠ 0) {L : Nat} (hL : 1 ≤ L) (hx : 2 * |x| < 256 ^ L) :
    ∃ r, remainder as bs = .ok r ∧ Stands r (x.tmod y) ∧ r.length ≤ L + 2 := by
  obtain ⟨t, t1, -, -, -, -, t2⟩ := sign_bit ha
  obtain ⟨u, u1, -, -, -, -, u2⟩ := sign_bit hb
  obtain ⟨a, a1, a2, a3⟩ := absTrim_spec ha t2
  obtain ⟨b, b1, b2, b3⟩ := absTrim_spec hb u2
  have hY : 0 < |y| := abs_pos.2 hy
  have hX := abs_nonneg x
  have hlen := a3.length_le hL hx
  obtain ⟨l1, l2⟩ := longDiv_spec a2 b2 hX hY b3
  unfold remainder
  rw [t1, Res.ok_bind, u1, Res.ok_bind]
  simp only []
  rw [a1, Res.ok_bind, b1, Res.ok_bind, tmod_abs]
  by_cases hlt : topBit (bitArray (trim a)) < topBit (bitArray (trim b))
  · rw [if_pos hlt, Int.emod_eq_of_lt hX (l1 hlt)]
    simp only [decide_eq_true_eq, t2]
    by_cases hs : 0 ≤ x
    · rw [if_pos hs, if_pos hs]
      exact ⟨_, rfl, a2, by omega⟩
    · rw [if_neg hs, if_neg hs]
      obtain ⟨n, n1, n2, n3, -⟩ := negate_spec a2
      exact ⟨n, n1, n2, by omega⟩
  · rw [if_neg hlt]
    obtain ⟨bs', c1, br, q, d1, d2, d3, d4, d5, d6, d7⟩ := l2 hlt
    rw [d1, Res.ok_bind, d2, Res.ok_bind]
    have hq : |x| % |y| = |x| - q * |y| := ((Int.ediv_emod_unique hY).2 ⟨(by ring : |x| - q * |y| + |y| * q = |x|), d4, d5⟩).2
    rw [hq]
    simp only [decide_eq_true_eq, t2]
    by_cases hs : 0 ≤ x
    · rw [if_pos hs, if_pos hs]
      exact ⟨_, rfl, d3, by omega⟩
    · rw [if_neg hs, if_neg hs]
      obtain ⟨n, n1, n2, n3, -⟩ := negate_spec d3
      exact ⟨n, n1, n2, by omega⟩

theorem ones_testBit (n i : Nat) : (2 ^ n - 1).testBit i = decide (i < n) := Nat.testBit_two_pow_sub_one n i

/-- Division by zero is not refused: the quotient has all bits set. -/
theorem divide_zero {as bs : List Nat} {x : Int} (ha : Stands as x) (hb : Stands bs 0) {L : Nat} (hL : 1 ≤ L) (hx : 2 * |x| < 256 ^ L) :
    ∃ r, divide as bs = .ok r ∧ Stands r (if 0 ≤ x then 2 ^ (x.natAbs.log2 + 1) - 1 else -(2 ^ (x.natAbs.log2 + 1) - 1)) ∧ r.length ≤ L + 2 := by
  obtain ⟨t, t1, -, -, -, -, t2⟩ := sign_bit ha
  obtain ⟨u, u1, -, -, -, -, u2⟩ := sign_bit hb
  obtain ⟨a, a1, a2, a3⟩ := absTrim_spec ha t2
  obtain ⟨b, b1, b2, b3⟩ := absTrim_spec hb u2
  have hX := abs_nonneg x
  have hlen := a3.length_le hL hx
  rw [abs_zero] at b2 b3
  have e1 : topBit (bitArray (trim a)) = x.natAbs.log2 := by
    rw [topBit_eq a2.ok]
    have := dv_nonneg a2 hX
    rw [Int.abs_eq_natAbs] at this
    congr 1; exact_mod_cast this
  have e2 : topBit (bitArray (trim b)) = 0 := by
    rw [topBit_eq b2.ok]
    have := dv_nonneg b2 (le_refl _)
    have : digitsVal 256 (trim b) = 0 := by omega
    rw [this]; rfl
  have hle := topBit_le (trim a)
  unfold divide
  rw [t1, Res.ok_bind, u1, Res.ok_bind]
  simp only []
  rw [a1, Res.ok_bind, b1, Res.ok_bind]
  rw [e1] at hle
  simp only [e1, e2]
  rw [if_neg (by omega), Nat.sub_zero]
  generalize x.natAbs.log2 = l at *
  obtain ⟨bs', g1, g2, g3⟩ := growLoop_spec l b2 (le_refl _) b3
  rw [zero_mul] at g2 g3
  obtain ⟨c1, br, d1, d2, d3, d4, d5⟩ := divLoop_zero (l + 1) (br := List.replicate (l + 1) false) a2 hX g2 (by simp)
  rw [g1, Res.ok_bind, d1, Res.ok_bind]
  simp only []
  obtain ⟨r, r1, r2, r3⟩ := getBytes_spec (ba := br) (q := 2 ^ (l + 1) - 1) (fun i => by
    rw [d5, ones_testBit]
    split_ifs with hi
    · simp [hi]
    · rw [replicate_getD]; simp [hi])
  have hone : 1 ≤ 2 ^ (l + 1) := Nat.one_le_two_pow
  push_cast [hone] at r2 r3
  rw [r1, Res.ok_bind]
  have hl : r.length ≤ L + 1 := by
    refine r3.length_le (by omega) ?_
    have := pow256_mono hlen
    rw [pow_succ, pow_succ]; omega
  simp only [pos_eq t2 u2]
  by_cases hs : 0 ≤ x
  · rw [if_pos (by simp [hs]), if_pos hs]
    exact ⟨r, rfl, r2, by omega⟩
  · rw [if_neg (by simp [hs]), if_neg hs]
    obtain ⟨n, n1, n2, n3, -⟩ := negate_spec r2
    exact ⟨n, n1, n2, by omega⟩

/-- The remainder by zero is the number itself. -/
theorem remainder_zero {as bs : List Nat} {x : Int} (ha : Stands as x) (hb : Stands bs 0) {L : Nat} (hL : 1 ≤ L) (hx : 2 * |x| < 256 ^ L) :
    ∃ r, remainder as bs = .ok r ∧ Stands r x ∧ r.length ≤ L + 2 := by
  obtain ⟨t, t1, -, -, -, -, t2⟩ := sign_bit ha
  obtain ⟨u, u1, -, -, -, -, u2⟩ := sign_bit hb
  obtain ⟨a, a1, a2, a3⟩ := absTrim_spec ha t2
  obtain ⟨b, b1, b2, b3⟩ := absTrim_spec hb u2
  have hX := abs_nonneg x
  have hlen := a3.length_le hL hx
  rw [abs_zero] at b2 b3
  have e2 : topBit (bitArray (trim b)) = 0 := by
    rw [topBit_eq b2.ok]
    have := dv_nonneg b2 (le_refl _)
    have : digitsVal 256 (trim b) = 0 := by omega
    rw [this]; rfl
  unfold remainder
  rw [t1, Res.ok_bind, u1, Res.ok_bind]
  simp only []
  rw [a1, Res.ok_bind, b1, Res.ok_bind]
  simp only [e2]
  rw [if_neg (by omega), Nat.sub_zero]
  generalize topBit (bitArray (trim a)) = l at *
  obtain ⟨bs', g1, g2, g3⟩ := growLoop_spec l b2 (le_refl _) b3
  rw [zero_mul] at g2 g3
  have g4 := g3.length_le (L := 1) (le_refl _) (by norm_num)
  obtain ⟨c1, br, d1, d2, d3, d4, d5⟩ := divLoop_zero (l + 1) (br := List.replicate (l + 1) false) a2 hX g2 (by simp)
  rw [g1, Res.ok_bind, d1, Res.ok_bind]
  simp only [decide_eq_true_eq, t2]
  by_cases hs : 0 ≤ x
  · rw [if_pos hs]
    rw [abs_of_nonneg hs] at d2
    exact ⟨_, rfl, d2, by omega⟩
  · rw [if_neg hs]
    obtain ⟨n, n1, n2, n3, -⟩ := negate_spec d2
    rw [abs_of_neg (by omega), neg_neg] at n2
    exact ⟨n, n1, n2, by omega⟩

end Oracle
end BigIntegerCpp
