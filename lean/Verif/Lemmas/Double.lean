import Verif.Lemmas.Convert
/-
Conversions between doubles and integers.
-/
namespace BigIntegerCpp
set_option linter.unusedSectionVars false
set_option linter.unnecessarySeqFocus false
variable [Cfg]

theorem mask_and (d n : Nat) : d &&& (2 ^ n - 1) = d % 2 ^ n := Nat.and_two_pow_sub_one_eq_mod d n

theorem dbl_split (d : Nat) (h : d < 2 ^ 64) :
    d = d / 2 ^ 63 * 2 ^ 63 + dblExp d * 2 ^ 52 + dblFrac d ∧ d / 2 ^ 63 < 2 ∧ dblExp d < 2048 ∧
      dblFrac d < 2 ^ 52 := by
  unfold dblExp dblFrac
  norm_num at *
  omega

theorem doubleIsFinite_iff (d : Nat) (h : d < 2 ^ 64) : doubleIsFinite d = true ↔ DblFinite d := by
  unfold doubleIsFinite DblFinite
  have h1 : d &&& 0x7FFFFFFFFFFFFFFF = d % 2 ^ 63 := mask_and d 63
  obtain ⟨h2, h3, h4, h5⟩ := dbl_split d h
  rw [h1, decide_eq_true_eq]
  norm_num at *
  omega

theorem doubleParts_spec (d : Nat) (h : d < 2 ^ 64) (hf : DblFinite d) :
    doubleParts d = (dblSign d, if dblExp d = 0 then (if dblFrac d ≠ 0 then -1074 else 0) else (dblExp d : Int) - 1075,
      if dblExp d = 0 then dblFrac d else 2 ^ 52 + dblFrac d, true) := by
  obtain ⟨h2, h3, h4, h5⟩ := dbl_split d h
  have e1 : d &&& 0x000FFFFFFFFFFFFF = dblFrac d := mask_and d 52
  have e2 : (d >>> 52) &&& 0x7FF = dblExp d := by
    rw [Nat.shiftRight_eq_div_pow]; exact mask_and _ 11
  have e3 : 1 - (((d >>> 62) &&& 2 : Nat) : Int) = dblSign d := by
    have h6 : d >>> 62 = d / 2 ^ 62 := Nat.shiftRight_eq_div_pow d 62
    have h7 : d / 2 ^ 62 < 4 := by norm_num at *; omega
    have h8 : d / 2 ^ 63 = d / 2 ^ 62 / 2 := by norm_num; omega
    have h9 : d / 2 ^ 63 = 0 ↔ d < 2 ^ 63 := by norm_num; 
    rw [h6]
    unfold dblSign
    generalize d / 2 ^ 62 = q at *
    by_cases hd : d < 2 ^ 63
    · rw [if_pos hd]
      have : q < 2 := by omega
      interval_cases q <;> rfl
    · rw [if_neg hd]
      have : 2 ≤ q := by omega
      interval_cases q <;> rfl
  have e4 : dblFrac d ||| 0x0010000000000000 = 2 ^ 52 + dblFrac d := by
    have := Nat.two_pow_add_eq_or_of_lt h5 1
    rw [Nat.or_comm]; norm_num at *; omega
  have h7 : dblExp d ≠ 2047 := hf
  unfold doubleParts
  simp only [e1, e2, e3]
  by_cases h0 : dblExp d = 0
  · simp only [h0, Nat.cast_zero, if_true]
  · rw [if_neg (by omega), if_neg (by omega), if_neg h0, if_neg h0, e4]

theorem replicate_three (c : Nat) : List.replicate (c + 3) 0 = List.replicate c 0 ++ [0, 0, 0] := by
  rw [← List.replicate_append_replicate]; rfl

theorem put_app (p : List Nat) (i x y z : Nat) (v : Nat) (h : i < 3) :
    put (p ++ [x, y, z]) (p.length + i) v = .ok (p ++ [x, y, z].set i v) := by
  unfold put
  rw [if_pos (by simp; omega), List.set_append_right _ _ (by omega), Nat.add_sub_cancel_left]

/-- `_sign = -_sign` on a freshly built non-negative value. -/
theorem flip_spec {v : Nat} {s : Int} (hs : s = 1 ∨ s = -1) (hv : v < 18446744073709551616) :
    Returns (do
      let b ← ofUInt64 v
      let t ← (if s < 0 then int (-b.sign) else .ok b.sign)
      checked ⟨t, b.bits⟩) (s * v) := by
  obtain ⟨b, hb, hd⟩ := ofUInt64_spec hv
  have hr := hd.sign_ne_min
  rw [hb, Res.ok_bind]
  rcases hs with rfl | rfl
  · rw [if_neg (by omega), Res.ok_bind, one_mul]
    exact returns_checked hd
  · rw [if_pos (by omega), int_ok (by omega) (by omega), Res.ok_bind, neg_one_mul]
    exact returns_checked (BigInt.Denotes.neg' (s := b.sign) (ws := b.bits) hd)

theorem tdiv_unit {s : Int} (hs : s = 1 ∨ s = -1) (n m : Nat) : (s * (n : Int)).tdiv (m : Int) = s * ((n / m : Nat) : Int) := by
  rcases hs with rfl | rfl
  · simp
  · rw [neg_one_mul, neg_one_mul, Int.neg_tdiv]; simp

theorem three_words {M c : Nat} (hc : c < 32) :
    u32 (u32 M <<< (32 - c)) + 𝔹 * (u32 (M >>> c) + 𝔹 * (M >>> (c + 32))) = M * 2 ^ (32 - c) := by
  have h1 : u32 (u32 M <<< (32 - c)) = (M * 2 ^ (32 - c)) % 𝔹 := by
    rw [Nat.shiftLeft_eq]; unfold u32; rw [Nat.mod_mul_mod]
  have h2 : u32 (M >>> c) = M * 2 ^ (32 - c) / 𝔹 % 𝔹 := by
    rw [Nat.shiftRight_eq_div_pow]; unfold u32; congr 1
    rw [show 𝔹 = 2 ^ c * 2 ^ (32 - c) by rw [← pow_add, show c + (32 - c) = 32 by omega]; norm_num,
      Nat.mul_div_mul_right _ _ (Nat.pow_pos (by decide))]
  have h3 : M >>> (c + 32) = M * 2 ^ (32 - c) / 𝔹 / 𝔹 := by
    rw [Nat.shiftRight_eq_div_pow]
    rw [show M * 2 ^ (32 - c) / 𝔹 = M / 2 ^ c by
      rw [show 𝔹 = 2 ^ c * 2 ^ (32 - c) by rw [← pow_add, show c + (32 - c) = 32 by omega]; norm_num,
        Nat.mul_div_mul_right _ _ (Nat.pow_pos (by decide))]]
    rw [Nat.div_div_eq_div_mul, pow_add]; norm_num
  rw [h1, h2, h3]
  generalize M * 2 ^ (32 - c) = P
  omega

theorem ofDouble_spec {d : Nat} (h : d < 2 ^ 64) (hf : DblFinite d) :
    Returns (ofDouble d) ((dblScaled d).tdiv (2 ^ 1074)) := by
  obtain ⟨-, -, h4, h5⟩ := dbl_split d h
  have h7 : dblExp d ≠ 2047 := hf
  have hs : dblSign d = 1 ∨ dblSign d = -1 := by unfold dblSign; split_ifs <;> simp
  have hc : ((2 : Int) ^ 1074) = ((2 ^ 1074 : Nat) : Int) := by rw [Nat.cast_pow, Nat.cast_ofNat]
  unfold ofDouble
  rw [doubleParts_spec d h hf, if_neg (by rw [not_not]; exact (doubleIsFinite_iff d h).2 hf)]
  simp only
  rw [cassert_pos hs]
  simp only [Res.ok_bind]
  rw [hc]
  unfold dblScaled
  rw [tdiv_unit hs]
  generalize dblSign d = s at *
  generalize dblExp d = e at *
  generalize dblFrac d = f at *
  clear hc hf h
  by_cases h0 : e = 0
  · simp only [h0, if_true]
    have hz : f / 2 ^ 1074 = 0 := Nat.div_eq_of_lt (lt_trans h5 (Nat.pow_lt_pow_right (by decide) (by decide)))
    rw [hz]
    simp only [Nat.cast_zero, Int.mul_zero]
    by_cases hf0 : f = 0
    · rw [if_pos hf0]; exact returns_ok denotes_zero
    · rw [if_neg hf0, cassert_pos (by norm_num at h5; omega), Res.ok_bind, cassert_pos (by rw [if_pos hf0]; omega), Res.ok_bind,
        if_pos (by rw [if_pos hf0]; omega), if_pos (by rw [if_pos hf0]; omega)]
      exact returns_ok denotes_zero
  · simp only [h0, if_false]
    have hm1 : 2 ^ 52 ≤ 2 ^ 52 + f := by omega
    have hm2 : 2 ^ 52 + f < 2 ^ 53 := by norm_num at *; omega
    generalize 2 ^ 52 + f = m at *
    clear h5
    rw [if_neg (by norm_num at hm1; omega), cassert_pos (by norm_num at hm2; omega), Res.ok_bind,
      cassert_pos (by norm_num at hm1; omega), Res.ok_bind]
    by_cases he1 : (e : Int) - 1075 ≤ 0
    · rw [if_pos he1]
      by_cases he2 : (e : Int) - 1075 ≤ -64
      · rw [if_pos he2]
        have hz : m * 2 ^ (e - 1) / 2 ^ 1074 = 0 := by
          apply Nat.div_eq_of_lt
          calc m * 2 ^ (e - 1) < 2 ^ 53 * 2 ^ (e - 1) := Nat.mul_lt_mul_of_pos_right hm2 (Nat.pow_pos (by decide))
            _ = 2 ^ (53 + (e - 1)) := (pow_add _ _ _).symm
            _ ≤ 2 ^ 1074 := Nat.pow_le_pow_right (by decide) (by omega)
        rw [hz]; simpa using returns_ok denotes_zero
      · rw [if_neg he2]
        have hz : m * 2 ^ (e - 1) / 2 ^ 1074 = m >>> (-((e : Int) - 1075)).toNat := by
          rw [Nat.shiftRight_eq_div_pow, show 1074 = (-((e : Int) - 1075)).toNat + (e - 1) by omega, pow_add,
            Nat.mul_div_mul_right _ _ (Nat.pow_pos (by decide))]
        rw [hz]
        apply flip_spec hs
        rw [Nat.shiftRight_eq_div_pow]
        exact lt_of_le_of_lt (Nat.div_le_self _ _) (lt_trans hm2 (by norm_num))
    · rw [if_neg he1]
      have hz : m * 2 ^ (e - 1) / 2 ^ 1074 = m * 2 ^ (e - 1075) := by
        rw [show e - 1 = (e - 1075) + 1074 by omega, pow_add, ← mul_assoc,
          Nat.mul_div_cancel _ (Nat.pow_pos (by decide))]
      rw [hz]
      by_cases he3 : (e : Int) - 1075 ≤ 11
      · rw [if_pos he3]
        have hlt : m <<< ((e : Int) - 1075).toNat < 18446744073709551616 := by
          rw [Nat.shiftLeft_eq]
          calc m * 2 ^ ((e : Int) - 1075).toNat < 2 ^ 53 * 2 ^ ((e : Int) - 1075).toNat :=
              Nat.mul_lt_mul_of_pos_right hm2 (Nat.pow_pos (by decide))
            _ = 2 ^ (53 + ((e : Int) - 1075).toNat) := (pow_add _ _ _).symm
            _ ≤ 2 ^ 64 := Nat.pow_le_pow_right (by decide) (by omega)
            _ = 18446744073709551616 := by norm_num
        rw [u64_of_lt hlt]
        have := flip_spec hs hlt
        rw [Nat.shiftLeft_eq, show ((e : Int) - 1075).toNat = e - 1075 by omega] at this
        rwa [Nat.shiftLeft_eq, show ((e : Int) - 1075).toNat = e - 1075 by omega]
      · rw [if_neg he3]
        have hM : u64 (m <<< 11) = m * 2 ^ 11 := by
          rw [Nat.shiftLeft_eq]; apply u64_of_lt; norm_num at *; omega
        rw [hM]
        have hM1 : 2 ^ 63 ≤ m * 2 ^ 11 := by norm_num at *; omega
        have hM2 : m * 2 ^ 11 < 2 ^ 64 := by norm_num at *; omega
        have hME : m * 2 ^ (e - 1075) = m * 2 ^ 11 * 2 ^ (e - 1086) := by
          rw [mul_assoc, ← pow_add, show 11 + (e - 1086) = e - 1075 by omega]
        rw [hME]
        generalize m * 2 ^ 11 = M at *
        -- exponents
        obtain ⟨c, hcu⟩ : ∃ c : Nat, (((e : Int) - 1075 - 11 - 1) / 32 + 1).toNat = c + 1 :=
          ⟨(((e : Int) - 1075 - 11 - 1) / 32).toNat, by omega⟩
        rw [hcu]
        obtain ⟨b, hb, hb32, hbe⟩ : ∃ b : Nat, ((c + 1 : Nat) : Int) * 32 - ((e : Int) - 1075 - 11) = b ∧ b < 32 ∧
            32 * c + (32 - b) = e - 1086 :=
          ⟨(((c + 1 : Nat) : Int) * 32 - ((e : Int) - 1075 - 11)).toNat, by omega, by omega, by omega⟩
        rw [hb, cassert_pos ⟨by omega, by omega⟩, Res.ok_bind, cassert_pos (by omega), Res.ok_bind, Int.toNat_natCast,
          show c + 1 + 2 = c + 3 by ring, replicate_three]
        have hl : (List.replicate c 0).length = c := List.length_replicate
        have p2 := fun x y z v => put_app (List.replicate c 0) 2 x y z v (by omega)
        have p1 := fun x y z v => put_app (List.replicate c 0) 1 x y z v (by omega)
        have p0 := fun x y z v => put_app (List.replicate c 0) 0 x y z v (by omega)
        rw [hl] at p0 p1 p2
        rw [show c + 1 + 1 = c + 2 by ring, p2, Res.ok_bind]
        simp only [List.set_cons_succ, List.set_cons_zero]
        rw [p1, Res.ok_bind]
        simp only [List.set_cons_succ, List.set_cons_zero, Nat.add_sub_cancel]
        have hw0 : (if b > 0 then put (List.replicate c 0 ++ [0, u32 (M >>> b), u32 (M >>> (b + 32))]) c
              (u32 (u32 M <<< (32 - b)))
            else .ok (List.replicate c 0 ++ [0, u32 (M >>> b), u32 (M >>> (b + 32))])) =
            Res.ok (List.replicate c 0 ++ [u32 (u32 M <<< (32 - b)), u32 (M >>> b), u32 (M >>> (b + 32))]) := by
          by_cases hb0 : b > 0
          · rw [if_pos hb0]
            have := p0 0 (u32 (M >>> b)) (u32 (M >>> (b + 32))) (u32 (u32 M <<< (32 - b)))
            simpa using this
          · rw [if_neg hb0]
            obtain rfl : b = 0 := by omega
            have : u32 (u32 M <<< (32 - 0)) = 0 := by
              rw [Nat.shiftLeft_eq]; unfold u32; omega
            rw [this]
        rw [hw0, Res.ok_bind]
        have htop : M >>> (b + 32) < 4294967296 ∧ M >>> (b + 32) ≠ 0 := by
          rw [Nat.shiftRight_eq_div_pow]
          constructor
          · rw [Nat.div_lt_iff_lt_mul (Nat.pow_pos (by decide))]
            calc M < 2 ^ 64 := hM2
              _ = 4294967296 * 2 ^ 32 := by norm_num
              _ ≤ 4294967296 * 2 ^ (b + 32) := Nat.mul_le_mul_left _ (Nat.pow_le_pow_right (by decide) (by omega))
          · have : 0 < M / 2 ^ (b + 32) := by
              apply Nat.div_pos _ (Nat.pow_pos (by decide))
              exact le_trans (Nat.pow_le_pow_right (by decide) (by omega)) hM1
            omega
        have hw := three_words (M := M) hb32
        rw [u32_of_lt htop.1]
        have hval : val (List.replicate c 0 ++ [u32 (u32 M <<< (32 - b)), u32 (M >>> b), M >>> (b + 32)]) =
            M * 2 ^ (e - 1086) := by
          rw [val_append, val_replicate_zero, List.length_replicate, ← hbe, pow_add]
          simp only [val_cons, val_nil]
          rw [show 𝔹 ^ c = 2 ^ (32 * c) by rw [show (4294967296 : Nat) = 2 ^ 32 by norm_num, ← pow_mul]]
          rw [Nat.mul_zero, Nat.add_zero, hw]
          ring
        apply returns_checked
        apply BigInt.denotes_big hs (by simp)
        · rw [wordsOk_append]
          exact ⟨wordsOk_replicate_zero c, by
            simp only [wordsOk_cons, wordsOk_nil, and_true]
            exact ⟨u32_lt _, u32_lt _, htop.1⟩⟩
        · simp [htop.2]
        · rw [hval]
          have : 0 < 2 ^ (e - 1086) := Nat.pow_pos (by decide)
          have := Nat.le_mul_of_pos_right M this
          norm_num at hM1; omega
        · rw [hval]

/-! ### to double -/

theorem leadingZeros_eq {x k : Nat} (h1 : 2 ^ k ≤ x) (h2 : x < 2 ^ (k + 1)) (hk : k < 32) : leadingZeros x = 31 - k := by
  have hx0 : x ≠ 0 := by have : 0 < 2 ^ k := Nat.pow_pos (by decide); omega
  have hx : x < 4294967296 := lt_of_lt_of_le h2 (le_trans (Nat.pow_le_pow_right (by decide) (by omega : k + 1 ≤ 32)) (by norm_num))
  obtain ⟨h3, h4, h5⟩ := leadingZeros_spec hx0 hx
  generalize leadingZeros x = z at *
  have e1 : 2 ^ (k + z) < 2 ^ 32 := by
    rw [pow_add]; exact lt_of_le_of_lt (Nat.mul_le_mul_right _ h1) h5
  have e2 : 2 ^ 31 < 2 ^ (k + 1 + z) := by
    rw [pow_add]; exact lt_of_le_of_lt h4 (Nat.mul_lt_mul_of_pos_right h2 (Nat.pow_pos (by decide)))
  have := (Nat.pow_lt_pow_iff_right (by decide : 1 < 2)).1 e1
  have := (Nat.pow_lt_pow_iff_right (by decide : 1 < 2)).1 e2
  omega

theorem and_high64 {x : Nat} (h : x < 18446744073709551616) : x &&& 0xFFFFFFFF00000000 = 0 ↔ x < 4294967296 := by
  constructor
  · intro h0
    by_contra hc
    have hx0 : x ≠ 0 := by omega
    obtain ⟨k, hk1, hk2⟩ : ∃ k, 2 ^ k ≤ x ∧ x < 2 ^ (k + 1) := ⟨Nat.log2 x, Nat.log2_self_le hx0, Nat.lt_log2_self⟩
    have a1 : 32 ≤ k := by
      by_contra hk
      have : 2 ^ (k + 1) ≤ 2 ^ 32 := Nat.pow_le_pow_right (by decide) (by omega)
      omega
    have a2 : k < 64 := by
      by_contra hk
      have : 2 ^ 64 ≤ 2 ^ k := Nat.pow_le_pow_right (by decide) (by omega)
      omega
    have h1 : (x &&& 0xFFFFFFFF00000000).testBit k = true := by
      rw [Nat.testBit_and]
      have b1 : x.testBit k = true := by
        rw [Nat.testBit_eq_decide_div_mod_eq, decide_eq_true_eq]
        have : x / 2 ^ k = 1 := by
          rw [Nat.div_eq_iff (Nat.pow_pos (by decide))]
          rw [pow_succ] at hk2
          omega
        rw [this]
      have b2 : (0xFFFFFFFF00000000 : Nat).testBit k = true := by
        clear h0 hc hk1 hk2 b1
        interval_cases k <;> decide
      rw [b1, b2]; rfl
    rw [h0] at h1; simp at h1
  · intro h1
    apply Nat.eq_of_testBit_eq
    intro i
    rw [Nat.testBit_and, Nat.zero_testBit]
    by_cases hi : i < 32
    · have : (0xFFFFFFFF00000000 : Nat).testBit i = false := by interval_cases i <;> decide
      rw [this, Bool.and_false]
    · rw [Nat.testBit_lt_two_pow (lt_of_lt_of_le h1 (le_trans (by norm_num) (Nat.pow_le_pow_right (by decide) (by omega : 32 ≤ i)))),
        Bool.false_and]

theorem cbitHighZero64_eq {x k : Nat} (h1 : 2 ^ k ≤ x) (h2 : x < 2 ^ (k + 1)) (hk : k < 64) :
    cbitHighZero64 x = 63 - k := by
  have hx : x < 18446744073709551616 :=
    lt_of_lt_of_le h2 (le_trans (Nat.pow_le_pow_right (by decide) (by omega : k + 1 ≤ 64)) (by norm_num))
  unfold cbitHighZero64 cbitHighZero32
  by_cases hs : x < 4294967296
  · rw [if_pos ((and_high64 hx).2 hs), u32_of_lt hs]
    have hk' : k < 32 := by
      by_contra hc
      have : 2 ^ 32 ≤ 2 ^ k := Nat.pow_le_pow_right (by decide) (by omega)
      omega
    rw [leadingZeros_eq h1 h2 hk']; omega
  · rw [if_neg (mt (and_high64 hx).1 hs), Nat.shiftRight_eq_div_pow]
    have hk' : 32 ≤ k := by
      by_contra hc
      have : 2 ^ (k + 1) ≤ 2 ^ 32 := Nat.pow_le_pow_right (by decide) (by omega)
      omega
    obtain ⟨j, rfl⟩ : ∃ j, k = 32 + j := ⟨k - 32, by omega⟩
    rw [u32_of_lt (by norm_num; omega)]
    rw [leadingZeros_eq (k := j)]
    · omega
    · rw [Nat.le_div_iff_mul_le (by norm_num), mul_comm, ← pow_add]; exact h1
    · rw [Nat.div_lt_iff_lt_mul (by norm_num), mul_comm, ← pow_add]; exact h2
    · omega

/-- The 53 leading bits of `X`, shifted up when `X` has fewer (`L` is the bit length). -/
def top53 (X L : Nat) : Nat := if 53 ≤ L then X / 2 ^ (L - 53) else X * 2 ^ (53 - L)

theorem top53_bounds {X L : Nat} (h0 : 0 < L) (h1 : 2 ^ (L - 1) ≤ X) (h2 : X < 2 ^ L) :
    2 ^ 52 ≤ top53 X L ∧ top53 X L < 2 ^ 53 := by
  unfold top53
  split_ifs with h
  · rw [Nat.le_div_iff_mul_le (Nat.pow_pos (by decide)), Nat.div_lt_iff_lt_mul (Nat.pow_pos (by decide)), ← pow_add, ← pow_add,
      show 52 + (L - 53) = L - 1 by omega, show 53 + (L - 53) = L by omega]
    exact ⟨h1, h2⟩
  · constructor
    · calc 2 ^ 52 = 2 ^ (L - 1) * 2 ^ (53 - L) := by rw [← pow_add]; congr 1; omega
        _ ≤ _ := Nat.mul_le_mul_right _ h1
    · calc _ < 2 ^ L * 2 ^ (53 - L) := Nat.mul_lt_mul_of_pos_right h2 (Nat.pow_pos (by decide))
        _ = 2 ^ 53 := by rw [← pow_add]; congr 1; omega

theorem log2_eq {X L : Nat} (h0 : 0 < L) (h1 : 2 ^ (L - 1) ≤ X) (h2 : X < 2 ^ L) : Nat.log2 X = L - 1 := by
  have hx0 : X ≠ 0 := by have : 0 < 2 ^ (L - 1) := Nat.pow_pos (by decide); omega
  rw [Nat.log2_eq_iff hx0, show L - 1 + 1 = L by omega]
  exact ⟨h1, h2⟩

theorem keepBits_top53 {X L E : Nat} (h0 : 0 < L) (h1 : 2 ^ (L - 1) ≤ X) (h2 : X < 2 ^ L) (hE : E + 53 = L + 1074) :
    top53 X L * 2 ^ E = keepBits 53 X * 2 ^ 1074 := by
  unfold keepBits
  rw [log2_eq h0 h1 h2, show L - 1 + 1 - 53 = L - 53 by omega]
  unfold top53
  split_ifs with h
  · rw [mul_assoc, ← pow_add, show E = L - 53 + 1074 by omega]
  · rw [show L - 53 = 0 by omega, pow_zero, Nat.div_one, mul_one, mul_assoc, ← pow_add,
      show 53 - L + E = 1074 by omega]

theorem dbl_build {neg : Bool} {E f : Nat} (hE : E < 2048) (hf : f < 2 ^ 52) :
    let d := (if neg then 2 ^ 63 else 0) + E * 2 ^ 52 + f
    d < 2 ^ 64 ∧ dblExp d = E ∧ dblFrac d = f ∧ dblSign d = if neg then -1 else 1 := by
  intro d
  unfold dblExp dblFrac dblSign
  cases neg <;> simp only [d, if_true, if_false, Bool.false_eq_true] <;> norm_num at * <;>
    refine ⟨by omega, by omega, by omega, by omega⟩

theorem doubleFromParts_spec {s exp : Int} {man k X L : Nat} (h1 : 2 ^ k ≤ man) (h2 : man < 2 ^ (k + 1)) (hk : k < 64)
    (h0 : 0 < L) (hX1 : 2 ^ (L - 1) ≤ X) (hX2 : X < 2 ^ L) (hL : L ≤ 1024)
    (hm : (if 52 ≤ k then man / 2 ^ (k - 52) else man * 2 ^ (52 - k)) = top53 X L) (he : exp - 52 + k = (L : Int) - 53) :
    ∃ d, doubleFromParts s exp man = .ok d ∧ d < 2 ^ 64 ∧ DblFinite d ∧
      dblScaled d = (if s < 0 then -1 else 1) * ((keepBits 53 X * 2 ^ 1074 : Nat) : Int) := by
  have hman0 : man ≠ 0 := by have : 0 < 2 ^ k := Nat.pow_pos (by decide); omega
  obtain ⟨ht1, ht2⟩ := top53_bounds h0 hX1 hX2
  have hnew : (if ((cbitHighZero64 man : Nat) : Int) - 11 < 0 then man >>> (-(((cbitHighZero64 man : Nat) : Int) - 11)).toNat
      else u64 (man <<< (((cbitHighZero64 man : Nat) : Int) - 11).toNat)) = top53 X L := by
    rw [cbitHighZero64_eq h1 h2 hk]
    by_cases hk52 : 52 < k
    · rw [if_pos (by omega), Nat.shiftRight_eq_div_pow, ← hm, if_pos (by omega)]
      congr 2; omega
    · rw [if_neg (by omega), Nat.shiftLeft_eq, show (((63 - k : Nat) : Int) - 11).toNat = 52 - k by omega]
      have : man * 2 ^ (52 - k) = top53 X L := by
        rw [← hm]
        by_cases hk' : 52 ≤ k
        · obtain rfl : k = 52 := by omega
          simp
        · rw [if_neg hk']
      rw [this]
      apply u64_of_lt
      norm_num at ht2; omega
  have hexp : exp - (((cbitHighZero64 man : Nat) : Int) - 11) + 1075 = (L : Int) + 1022 := by
    rw [cbitHighZero64_eq h1 h2 hk]; omega
  have hf : top53 X L - 2 ^ 52 < 2 ^ 52 := by norm_num at *; omega
  have hb := dbl_build (neg := decide (s < 0)) (E := L + 1022) (f := top53 X L - 2 ^ 52) (by omega) hf
  simp only [decide_eq_true_eq] at hb
  have hor : (top53 X L &&& 0x000FFFFFFFFFFFFF) ||| u64 (((L : Int) + 1022).toNat <<< 52) =
      (L + 1022) * 2 ^ 52 + (top53 X L - 2 ^ 52) := by
    have e1 : top53 X L &&& 0x000FFFFFFFFFFFFF = top53 X L - 2 ^ 52 := by
      rw [show (0x000FFFFFFFFFFFFF : Nat) = 2 ^ 52 - 1 by norm_num, mask_and]
      norm_num at *; omega
    rw [e1, show ((L : Int) + 1022).toNat = L + 1022 by omega, Nat.shiftLeft_eq, u64_of_lt (by norm_num; omega), Nat.or_comm,
      mul_comm, Nat.two_pow_add_eq_or_of_lt hf]
  refine ⟨(if s < 0 then 2 ^ 63 else 0) + (L + 1022) * 2 ^ 52 + (top53 X L - 2 ^ 52), ?_, hb.1, ?_, ?_⟩
  · unfold doubleFromParts
    rw [if_neg hman0]
    simp only [hnew]
    have hr : -2147483648 ≤ exp - (((cbitHighZero64 man : Nat) : Int) - 11) ∧
        exp - (((cbitHighZero64 man : Nat) : Int) - 11) < 2147483648 := by omega
    rw [int_ok hr.1 hr.2, Res.ok_bind, hexp, int_ok (by omega) (by omega), Res.ok_bind, if_neg (by omega), if_neg (by omega),
      Res.ok_bind, hor]
    have hlt : (L + 1022) * 2 ^ 52 + (top53 X L - 2 ^ 52) < 2 ^ 63 := by norm_num at *; omega
    generalize (L + 1022) * 2 ^ 52 = P at *
    generalize top53 X L - 2 ^ 52 = Q at *
    by_cases hs : s < 0
    · rw [if_pos hs, if_pos hs, Nat.or_comm, show (0x8000000000000000 : Nat) = 2 ^ 63 * 1 by norm_num,
        ← Nat.two_pow_add_eq_or_of_lt hlt, Nat.mul_one, Nat.add_assoc]
    · rw [if_neg hs, if_neg hs, Nat.zero_add]
  · show dblExp _ ≠ 2047
    rw [hb.2.1]; omega
  · unfold dblScaled
    rw [hb.2.1, hb.2.2.1, hb.2.2.2, if_neg (show ¬ L + 1022 = 0 by omega), show 2 ^ 52 + (top53 X L - 2 ^ 52) = top53 X L by omega,
      keepBits_top53 h0 hX1 hX2 (by omega)]

theorem toDouble_man {h m l z : Nat} (hz : z < 32) (hh : h * 2 ^ z < 4294967296) (hm : m < 4294967296)
    (hl : l < 4294967296) :
    u64 (h <<< (32 + z)) ||| u64 (m <<< z) ||| (l >>> (32 - z)) = (l + 𝔹 * (m + 𝔹 * h)) / 2 ^ (32 - z) := by
  have hB : (4294967296 : Nat) = 2 ^ (32 - z) * 2 ^ z := by
    rw [← pow_add, show 32 - z + z = 32 by omega]; norm_num
  have h1 : h <<< (32 + z) = 2 ^ (32 + z) * h := by rw [Nat.shiftLeft_eq, mul_comm]
  have h2 : m <<< z = m * 2 ^ z := Nat.shiftLeft_eq _ _
  have hp : 2 ^ (32 + z) = 4294967296 * 2 ^ z := by rw [pow_add]; norm_num
  have hzp : 2 ^ z ≤ 2 ^ 31 := Nat.pow_le_pow_right (by decide) (by omega)
  have h3 : m * 2 ^ z < 2 ^ (32 + z) := by
    rw [hp]; exact Nat.mul_lt_mul_of_pos_right hm (Nat.pow_pos (by decide))
  have h4 : l >>> (32 - z) < 2 ^ z := by
    rw [Nat.shiftRight_eq_div_pow, Nat.div_lt_iff_lt_mul (Nat.pow_pos (by decide)), mul_comm, ← hB]; exact hl
  rw [h1, h2, u64_of_lt (by
      rw [hp, Nat.mul_assoc, Nat.mul_comm (2 ^ z)]
      generalize h * 2 ^ z = a at *; omega),
    u64_of_lt (by
      have : m * 2 ^ z ≤ m * 2 ^ 31 := Nat.mul_le_mul_left _ hzp
      omega),
    ← Nat.two_pow_add_eq_or_of_lt h3]
  have h5 : 2 ^ (32 + z) * h + m * 2 ^ z = 2 ^ z * (m + 𝔹 * h) := by rw [hp]; ring
  rw [h5, ← Nat.two_pow_add_eq_or_of_lt h4, Nat.shiftRight_eq_div_pow]
  have h6 : l + 𝔹 * (m + 𝔹 * h) = l + 2 ^ (32 - z) * (2 ^ z * (m + 𝔹 * h)) := by
    rw [← Nat.mul_assoc, ← hB]
  rw [h6, Nat.add_mul_div_left _ _ (Nat.pow_pos (by decide))]
  omega

theorem intToDouble_spec {z : Int} (h1 : -2147483648 < z) (h2 : z < 2147483648) :
    ∃ d, intToDouble z = .ok d ∧ d < 2 ^ 64 ∧ DblFinite d ∧
      dblScaled d = (if z < 0 then -1 else 1) * ((keepBits 53 z.natAbs * 2 ^ 1074 : Nat) : Int) := by
  unfold intToDouble
  by_cases h0 : z = 0
  · subst h0
    refine ⟨0, rfl, by norm_num, ?_, ?_⟩
    · unfold DblFinite dblExp; norm_num
    · have e1 : dblScaled 0 = 0 := by decide
      have e2 : keepBits 53 (0 : Int).natAbs = 0 := by decide
      rw [e1, e2, Nat.zero_mul]; rfl
  · have hX0 : z.natAbs ≠ 0 := by omega
    obtain ⟨k, hk, hk1, hk2⟩ := exists_log hX0 (by omega)
    apply doubleFromParts_spec (k := k) (L := k + 1) hk1 hk2 (by omega) (by omega) (by simpa using hk1) hk2 (by omega)
    · rw [if_neg (by omega)]
      unfold top53
      rw [if_neg (by omega), show 53 - (k + 1) = 52 - k by omega]
    · omega

namespace BigInt

/-- Top three words (missing ones zero) and how they determine the 53 leading bits. -/
theorem top_three {ws : List Nat} (hne : ws ≠ []) (hw : WordsOk ws) (ht : ws.getLast? ≠ some 0) :
    ∃ h m l, idx ws (ws.length - 1) = .ok h ∧ (if ws.length > 1 then idx ws (ws.length - 2) else .ok 0) = .ok m ∧
      (if ws.length > 2 then idx ws (ws.length - 3) else .ok 0) = .ok l ∧
      h < 4294967296 ∧ h ≠ 0 ∧ m < 4294967296 ∧ l < 4294967296 ∧
      l + 𝔹 * (m + 𝔹 * h) = val ws * 2 ^ 96 / 2 ^ (32 * ws.length) := by
  obtain ⟨l1, h, rfl, hw1, hh, hh0⟩ := split_top hne hw ht
  have i1 : idx (l1 ++ [h]) ((l1 ++ [h]).length - 1) = .ok h := by simp [idx]
  rcases List.eq_nil_or_concat l1 with rfl | ⟨l2, m, rfl⟩
  · refine ⟨h, 0, 0, i1, by simp, by simp, hh, hh0, by omega, by omega, ?_⟩
    simp only [List.nil_append, List.length_singleton, val_singleton]
    norm_num; omega
  · rw [List.concat_eq_append] at *
    obtain ⟨hw2, hm⟩ := wordsOk_append.1 hw1
    have hm : m < 4294967296 := hm m (by simp)
    have i2 : (if (l2 ++ [m] ++ [h]).length > 1 then idx (l2 ++ [m] ++ [h]) ((l2 ++ [m] ++ [h]).length - 2) else .ok 0) = .ok m := by
      rw [if_pos (by simp)]; simp [idx]
    rcases List.eq_nil_or_concat l2 with rfl | ⟨l3, l, rfl⟩
    · refine ⟨h, m, 0, i1, i2, by simp, hh, hh0, hm, by omega, ?_⟩
      simp only [List.nil_append, List.cons_append, val_cons, val_nil, List.length_cons, List.length_nil]
      norm_num; omega
    · rw [List.concat_eq_append] at *
      obtain ⟨hw3, hl⟩ := wordsOk_append.1 hw2
      have hl : l < 4294967296 := hl l (by simp)
      refine ⟨h, m, l, i1, i2, ?_, hh, hh0, hm, hl, ?_⟩
      · rw [if_pos (by simp)]; simp [idx]
      · have hlen : (l3 ++ [l] ++ [m] ++ [h]).length = l3.length + 3 := by simp
        have hval : val (l3 ++ [l] ++ [m] ++ [h]) = val l3 + 𝔹 ^ l3.length * (l + 𝔹 * (m + 𝔹 * h)) := by
          rw [List.append_assoc, List.append_assoc, val_append]
          simp [val_cons]
        rw [hlen, show 32 * (l3.length + 3) = 32 * l3.length + 96 by ring, pow_add,
          Nat.mul_div_mul_right _ _ (by norm_num), hval]
        have hv3 := val_lt hw3
        have hB : 𝔹 ^ l3.length = 2 ^ (32 * l3.length) := by
          rw [show (4294967296 : Nat) = 2 ^ 32 by norm_num, ← pow_mul]
        rw [← hB, Nat.add_mul_div_left _ _ (Nat.pow_pos (by decide)), Nat.div_eq_of_lt hv3, Nat.zero_add]

theorem top53_of_t {X n z t : Nat} (hn : 1 ≤ n) (hz : z < 32) (ht : t = X * 2 ^ 96 / 2 ^ (32 * n)) :
    t / 2 ^ (32 - z) / 2 ^ 11 = top53 X (32 * n - z) := by
  rw [Nat.div_div_eq_div_mul, ← pow_add, ht, Nat.div_div_eq_div_mul, ← pow_add]
  unfold top53
  split_ifs with h
  · rw [show 32 * n + (32 - z + 11) = (32 * n - z - 53) + 96 by omega, pow_add, Nat.mul_div_mul_right _ _ (by norm_num)]
  · rw [show X * 2 ^ 96 = X * 2 ^ (53 - (32 * n - z)) * 2 ^ (32 * n + (32 - z + 11)) by
      rw [Nat.mul_assoc, ← pow_add]; congr 2; omega, Nat.mul_div_cancel _ (Nat.pow_pos (by decide))]

theorem toDouble_spec {a : BigInt} {x : Int} (ha : a.Denotes x) (hl : a.bits.length < 2147483648) :
    ∃ d, a.toDouble = .ok d ∧ d < 2 ^ 64 ∧
      (2 ^ 1024 ≤ x.natAbs → d = dblInfinity (decide (x < 0))) ∧
      (x.natAbs < 2 ^ 1024 → DblFinite d ∧
        dblScaled d = (if x < 0 then -1 else 1) * ((keepBits 53 x.natAbs * 2 ^ 1074 : Nat) : Int)) := by
  unfold toDouble
  rcases ha.shape with ⟨rfl, h1, h2⟩ | ⟨s, xs, rfl, hs1, hne1, hw1, ht1, hv1, rfl⟩
  · rw [if_pos rfl]
    obtain ⟨d, g1, g2, g3, g4⟩ := intToDouble_spec h1 h2
    refine ⟨d, g1, g2, fun hc => ?_, fun _ => ⟨g3, g4⟩⟩
    have : (2 : Nat) ^ 31 ≤ 2 ^ 1024 := Nat.pow_le_pow_right (by decide) (by decide)
    generalize (2 : Nat) ^ 1024 = Y at *
    norm_num at this; omega
  · simp only at hl
    simp only [hne1, if_false]
    rw [sizeInt_ok hl, Res.ok_bind, natAbs_unit_mul hs1]
    have hneg : (s * (val xs : Int) < 0) ↔ s < 0 := unit_mul_neg hs1 (by omega)
    have hpw : ∀ n, 𝔹 ^ n = 2 ^ (32 * n) := fun n => by
      rw [show (4294967296 : Nat) = 2 ^ 32 by norm_num, ← pow_mul]
    by_cases hlen : xs.length > 32
    · rw [if_pos hlen]
      have hbig : 2 ^ 1024 ≤ val xs := by
        have h3 := val_pos_of_top hne1 ht1
        rw [hpw] at h3
        exact le_trans (Nat.pow_le_pow_right (by decide) (by omega)) h3
      refine ⟨_, rfl, ?_, fun _ => ?_, fun hc => ?_⟩
      · split_ifs <;> norm_num
      · unfold dblInfinity
        rcases hs1 with rfl | rfl
        · rw [if_pos rfl, if_neg (by simp)]
        · rw [if_neg (by omega), if_pos (by simp; omega)]
      · generalize (2 : Nat) ^ 1024 = Y at *
        omega
    · rw [if_neg hlen]
      obtain ⟨h, m, l, i1, i2, i3, hh, hh0, hm, hl3, hval⟩ := top_three hne1 hw1 ht1
      rw [i1, Res.ok_bind, i2, Res.ok_bind, i3, Res.ok_bind]
      obtain ⟨k, hk, hk1, hk2⟩ := exists_log hh0 hh
      have hz := leadingZeros_eq hk1 hk2 hk
      have hn1 : 1 ≤ xs.length := List.length_pos_iff.2 hne1
      unfold cbitHighZero32
      simp only [hz]
      rw [if_neg (by omega), int_ok (by omega) (by omega), Res.ok_bind]
      have hhz : h * 2 ^ (31 - k) < 4294967296 := by
        calc h * 2 ^ (31 - k) < 2 ^ (k + 1) * 2 ^ (31 - k) := Nat.mul_lt_mul_of_pos_right hk2 (Nat.pow_pos (by decide))
          _ = 2 ^ 32 := by rw [← pow_add]; congr 1; omega
          _ = 4294967296 := by norm_num
      rw [toDouble_man (by omega) hhz hm hl3]
      -- bounds of the magnitude
      have hlow : 2 ^ (32 * xs.length - (31 - k) - 1) ≤ val xs ∧ val xs < 2 ^ (32 * xs.length - (31 - k)) := by
        obtain ⟨l1, h', rfl, hw1', -, -⟩ := split_top hne1 hw1 ht1
        have : h' = h := by
          have i1' : idx (l1 ++ [h']) ((l1 ++ [h']).length - 1) = .ok h' := by simp [idx]
          rw [i1'] at i1; exact Res.ok.inj i1
        subst this
        rw [val_append, val_singleton, hpw]
        have hv := val_lt hw1'
        rw [hpw] at hv
        simp only [List.length_append, List.length_singleton]
        constructor
        · have : 2 ^ (32 * l1.length) * 2 ^ k ≤ 2 ^ (32 * l1.length) * h' := Nat.mul_le_mul_left _ hk1
          rw [← pow_add] at this
          rw [show 32 * (l1.length + 1) - (31 - k) - 1 = 32 * l1.length + k by omega]
          omega
        · have : 2 ^ (32 * l1.length) * (h' + 1) ≤ 2 ^ (32 * l1.length) * 2 ^ (k + 1) := Nat.mul_le_mul_left _ hk2
          rw [← pow_add, Nat.mul_add] at this
          rw [show 32 * (l1.length + 1) - (31 - k) = 32 * l1.length + (k + 1) by omega]
          omega
      have h53 := top53_of_t hn1 (show 31 - k < 32 by omega) hval
      have htm : 2 ^ 63 ≤ (l + 𝔹 * (m + 𝔹 * h)) / 2 ^ (32 - (31 - k)) ∧
          (l + 𝔹 * (m + 𝔹 * h)) / 2 ^ (32 - (31 - k)) < 2 ^ (63 + 1) := by
        rw [Nat.le_div_iff_mul_le (Nat.pow_pos (by decide)), Nat.div_lt_iff_lt_mul (Nat.pow_pos (by decide)), ← pow_add, ← pow_add,
          show 63 + (32 - (31 - k)) = 64 + k by omega, show 63 + 1 + (32 - (31 - k)) = 64 + (k + 1) by omega,
          pow_add, pow_add 2 64]
        generalize 2 ^ k = P at *
        generalize 2 ^ (k + 1) = Q at *
        norm_num
        omega
      have := doubleFromParts_spec (s := s) (exp := ((xs.length : Int) - 2) * 32 - ((31 - k : Nat) : Int)) (X := val xs)
        (L := 32 * xs.length - (31 - k)) htm.1 htm.2 (by omega) (by omega) hlow.1 hlow.2 (by omega)
        (by rw [if_pos (by omega)]; exact h53) (by omega)
      obtain ⟨d, g1, g2, g3, g4⟩ := this
      refine ⟨d, g1, g2, fun hc => ?_, fun _ => ⟨g3, ?_⟩⟩
      · exfalso
        have : (2 : Nat) ^ (32 * xs.length - (31 - k)) ≤ 2 ^ 1024 := Nat.pow_le_pow_right (by decide) (by omega)
        generalize (2 : Nat) ^ 1024 = Y at *
        omega
      · rw [g4]; simp only [hneg]

end BigInt

/-! ### back and forth -/

theorem dblMag_lt {e1 f1 e2 f2 : Nat} (h1 : f1 < 2 ^ 52) (h : e1 < e2) :
    (if e1 = 0 then f1 else (2 ^ 52 + f1) * 2 ^ (e1 - 1)) < (if e2 = 0 then f2 else (2 ^ 52 + f2) * 2 ^ (e2 - 1)) := by
  rw [if_neg (show ¬ e2 = 0 by omega)]
  have h2 : 2 ^ 52 * 2 ^ (e2 - 1) ≤ (2 ^ 52 + f2) * 2 ^ (e2 - 1) := Nat.mul_le_mul_right _ (by omega)
  refine lt_of_lt_of_le ?_ h2
  by_cases h0 : e1 = 0
  · rw [if_pos h0]
    exact lt_of_lt_of_le h1 (Nat.le_mul_of_pos_right _ (Nat.pow_pos (by decide)))
  · rw [if_neg h0]
    calc (2 ^ 52 + f1) * 2 ^ (e1 - 1) < 2 ^ 53 * 2 ^ (e1 - 1) :=
          Nat.mul_lt_mul_of_pos_right (by norm_num at *; omega) (Nat.pow_pos (by decide))
      _ = 2 ^ (52 + e1) := by rw [← pow_add, show 53 + (e1 - 1) = 52 + e1 by omega]
      _ ≤ 2 ^ (52 + (e2 - 1)) := Nat.pow_le_pow_right (by decide) (by omega)
      _ = _ := pow_add _ _ _

theorem dblMag_inj {e1 f1 e2 f2 : Nat} (h1 : f1 < 2 ^ 52) (h2 : f2 < 2 ^ 52)
    (h : (if e1 = 0 then f1 else (2 ^ 52 + f1) * 2 ^ (e1 - 1)) = (if e2 = 0 then f2 else (2 ^ 52 + f2) * 2 ^ (e2 - 1))) :
    e1 = e2 ∧ f1 = f2 := by
  rcases lt_trichotomy e1 e2 with hlt | rfl | hlt
  · have := dblMag_lt (f2 := f2) h1 hlt; omega
  · refine ⟨rfl, ?_⟩
    by_cases h0 : e1 = 0
    · rwa [if_pos h0, if_pos h0] at h
    · rw [if_neg h0, if_neg h0] at h
      have := Nat.eq_of_mul_eq_mul_right (Nat.pow_pos (by decide)) h
      omega
  · have := dblMag_lt (f2 := f1) h2 hlt; omega

theorem dblScaled_inj {c d : Nat} (hc : c < 2 ^ 64) (hd : d < 2 ^ 64) (h0 : dblScaled c ≠ 0)
    (h : dblScaled c = dblScaled d) : c = d := by
  obtain ⟨c1, c2, c3, c4⟩ := dbl_split c hc
  obtain ⟨d1, d2, d3, d4⟩ := dbl_split d hd
  have key := dblMag_inj (e1 := dblExp c) (e2 := dblExp d) c4 d4
  unfold dblScaled at h h0
  generalize (if dblExp c = 0 then dblFrac c else (2 ^ 52 + dblFrac c) * 2 ^ (dblExp c - 1)) = M at *
  generalize (if dblExp d = 0 then dblFrac d else (2 ^ 52 + dblFrac d) * 2 ^ (dblExp d - 1)) = N at *
  have hcs : (c < 2 ^ 63 ↔ c / 2 ^ 63 = 0) := by norm_num
  have hds : (d < 2 ^ 63 ↔ d / 2 ^ 63 = 0) := by norm_num
  unfold dblSign at h h0
  have hq : M = N ∧ (c < 2 ^ 63 ↔ d < 2 ^ 63) := by
    clear c1 d1 hcs hds key
    by_cases e1 : c < 2 ^ 63
    · rw [if_pos e1] at h h0
      by_cases e2 : d < 2 ^ 63
      · rw [if_pos e2] at h
        exact ⟨by omega, iff_of_true e1 e2⟩
      · rw [if_neg e2] at h; omega
    · rw [if_neg e1] at h h0
      by_cases e2 : d < 2 ^ 63
      · rw [if_pos e2] at h; omega
      · rw [if_neg e2] at h
        exact ⟨by omega, iff_of_false e1 e2⟩
  obtain ⟨k1, k2⟩ := key hq.1
  rw [c1, d1, k1, k2]
  have : c / 2 ^ 63 = d / 2 ^ 63 := by omega
  rw [this]

theorem keepBits_of_scaled {n m e : Nat} (hn : n ≠ 0) (h1 : 2 ^ 52 ≤ m) (h2 : m < 2 ^ 53)
    (h : m * 2 ^ e = n * 2 ^ 1074) : keepBits 53 n = n := by
  unfold keepBits
  by_cases he : 1074 ≤ e
  · have hn' : n = m * 2 ^ (e - 1074) := by
      rw [show e = (e - 1074) + 1074 by omega, pow_add, ← mul_assoc] at h
      exact (Nat.eq_of_mul_eq_mul_right (Nat.pow_pos (by decide)) h).symm
    have hlog : Nat.log2 n = 52 + (e - 1074) := by
      rw [Nat.log2_eq_iff hn, hn', show 52 + (e - 1074) + 1 = 53 + (e - 1074) by omega, pow_add, pow_add]
      exact ⟨Nat.mul_le_mul_right _ h1, Nat.mul_lt_mul_of_pos_right h2 (Nat.pow_pos (by decide))⟩
    rw [hlog, show 52 + (e - 1074) + 1 - 53 = e - 1074 by omega, hn', Nat.mul_div_cancel _ (Nat.pow_pos (by decide))]
  · have hn' : n * 2 ^ (1074 - e) = m := by
      have : 2 ^ 1074 = 2 ^ (1074 - e) * 2 ^ e := by rw [← pow_add, show 1074 - e + e = 1074 by omega]
      rw [this, ← mul_assoc] at h
      exact (Nat.eq_of_mul_eq_mul_right (Nat.pow_pos (by decide)) h).symm
    have hlt : n < 2 ^ 53 := lt_of_le_of_lt (Nat.le_mul_of_pos_right _ (Nat.pow_pos (by decide))) (hn' ▸ h2)
    have hlog : Nat.log2 n < 53 := (Nat.log2_lt hn).2 hlt
    rw [show Nat.log2 n + 1 - 53 = 0 by omega, pow_zero, Nat.div_one, Nat.mul_one]

end BigIntegerCpp
