import Verif.Lemmas.Oracle
/-
The byte-array arithmetic of tests/MyBigInt.cpp: lengths, shifts by one bit, division.
-/
set_option linter.unusedSectionVars false
namespace BigIntegerCpp
variable [Cfg]
namespace Oracle

/-! ### Trim -/

theorem trimRev_spec {rs : List Nat} {x : Int} (h : Stands rs.reverse x) :
    Stands (trimRev rs).reverse x ∧ (trimRev rs).length ≤ rs.length ∧
    ((trimRev rs).length = 1 ∨ ¬ (-(256 : Int) ^ ((trimRev rs).length - 1) ≤ 2 * x ∧ 2 * x < 256 ^ ((trimRev rs).length - 1))) := by
  induction rs with
  | nil => exact absurd rfl h.ne
  | cons t rs ih =>
    rcases rs with _ | ⟨s, rest⟩
    · exact ⟨h, le_refl _, .inl rfl⟩
    · have hb := h.ok
      rw [List.reverse_cons, bytesOk_append] at hb
      obtain ⟨hl, ht⟩ := hb
      have ht := bytesOk_single.1 ht
      have hs : s < 256 := hl s (by simp)
      have hlast : (s :: rest).reverse.getLast?.getD 0 = s := by simp
      have hx := h.eq
      rw [List.reverse_cons, sv_append _ (by simp), sv_single] at hx
      have e := sv_def (s :: rest).reverse
      rw [hlast] at e
      have hd := dv_lt hl
      have hb := sv_bounds hl (by simp)
      have hlen : (s :: rest).reverse.length = (t :: s :: rest).length - 1 := by simp
      unfold trimRev
      rw [and_80 ht, and_80 hs]
      have hp : (0 : Int) < 256 ^ (s :: rest).reverse.length := by positivity
      have key : (t = 0 ∧ s < 128 ∨ t = 255 ∧ 128 ≤ s) → Stands (s :: rest).reverse x := by
        intro hk
        refine ⟨hl, by simp, ?_⟩
        rw [e]
        rcases hk with ⟨rfl, hk⟩ | ⟨rfl, hk⟩
        · rw [if_neg (by omega)] at hx ⊢; push_cast at hx; omega
        · rw [if_pos (by omega)] at hx ⊢; push_cast at hx; omega
      have stop : ¬ (t = 0 ∧ s < 128 ∨ t = 255 ∧ 128 ≤ s) →
          ¬ (-(256 : Int) ^ ((t :: s :: rest).length - 1) ≤ 2 * x ∧ 2 * x < 256 ^ ((t :: s :: rest).length - 1)) := by
        intro hk
        rw [← hlen]
        rw [e] at hb
        have hv : (0 : Int) ≤ digitsVal 256 (s :: rest).reverse := by omega
        generalize (256 : Int) ^ (s :: rest).reverse.length = P at *
        generalize (digitsVal 256 (s :: rest).reverse : Int) = v at *
        by_cases htt : 128 ≤ t
        · rw [if_pos htt] at hx
          by_cases h255 : t = 255
          · subst h255
            rw [if_neg (by omega)] at hb
            push_cast at hx; omega
          · have : P * ((t : Int) - 256) ≤ P * (-2) := Int.mul_le_mul_of_nonneg_left (by omega) (by omega)
            omega
        · rw [if_neg htt] at hx
          by_cases h0 : t = 0
          · subst h0
            rw [if_pos (by omega)] at hb
            push_cast at hx; omega
          · have : P * 1 ≤ P * (t : Int) := Int.mul_le_mul_of_nonneg_left (by omega) (by omega)
            omega
      by_cases hk : t = 0 ∧ s < 128 ∨ t = 255 ∧ 128 ≤ s
      · have : (if (if 128 ≤ t then 128 else 0) = 0 then
            if t = 0 ∧ (if 128 ≤ s then 128 else 0) = 0 then trimRev (s :: rest) else t :: s :: rest
          else if t = 0xFF ∧ (if 128 ≤ s then 128 else 0) ≠ 0 then trimRev (s :: rest) else t :: s :: rest) = trimRev (s :: rest) := by
          rcases hk with ⟨rfl, hk⟩ | ⟨rfl, hk⟩
          · simp [Nat.not_le.2 hk]
          · simp [hk]
        rw [this]
        obtain ⟨i1, i2, i3⟩ := ih (key hk)
        exact ⟨i1, by simp at i2 ⊢; omega, i3⟩
      · have : (if (if 128 ≤ t then 128 else 0) = 0 then
            if t = 0 ∧ (if 128 ≤ s then 128 else 0) = 0 then trimRev (s :: rest) else t :: s :: rest
          else if t = 0xFF ∧ (if 128 ≤ s then 128 else 0) ≠ 0 then trimRev (s :: rest) else t :: s :: rest) = t :: s :: rest := by
          by_cases h1 : 128 ≤ t
          · by_cases h2 : 128 ≤ s
            · simp only [h1, h2, if_true]
              have : t ≠ 255 := by omega
              simp [this]
            · simp [h1, h2]
          · by_cases h2 : 128 ≤ s
            · simp [h1, h2]
            · have : t ≠ 0 := by omega
              simp [h1, h2, this]
        rw [this]
        exact ⟨h, le_refl _, .inr (stop hk)⟩

/-- `Trim` keeps the value and leaves no redundant byte. -/
theorem trim_spec {bs : List Nat} {x : Int} (h : Stands bs x) :
    Stands (trim bs) x ∧ (trim bs).length ≤ bs.length ∧
    ((trim bs).length = 1 ∨ ¬ (-(256 : Int) ^ ((trim bs).length - 1) ≤ 2 * x ∧ 2 * x < 256 ^ ((trim bs).length - 1))) := by
  have := trimRev_spec (rs := bs.reverse) (x := x) (by rwa [List.reverse_reverse])
  unfold trim
  simpa using this

theorem pow256_mono {m n : Nat} (h : m ≤ n) : (256 : Int) ^ m ≤ 256 ^ n := pow_le_pow_right₀ (by decide) h

theorem trim_length {bs : List Nat} {x : Int} (h : Stands bs x) {L : Nat} (hL : 1 ≤ L) (h1 : -(256 : Int) ^ L ≤ 2 * x) (h2 : 2 * x < 256 ^ L) :
    (trim bs).length ≤ L := by
  obtain ⟨-, -, h3⟩ := trim_spec h
  by_contra hc
  have := pow256_mono (show L ≤ (trim bs).length - 1 by omega)
  rcases h3 with h3 | h3
  · omega
  · exact h3 ⟨by omega, by omega⟩

/-- The array of a number that is not negative has no redundant byte. -/
def Tight (bs : List Nat) (x : Int) : Prop := bs.length = 1 ∨ (256 : Int) ^ (bs.length - 1) ≤ 2 * x

theorem trim_tight {bs : List Nat} {x : Int} (h : Stands bs x) (hx : 0 ≤ x) : Tight (trim bs) x := by
  obtain ⟨-, -, h3⟩ := trim_spec h
  rcases h3 with h3 | h3
  · exact .inl h3
  · have hp : (0 : Int) < 256 ^ ((trim bs).length - 1) := by positivity
    exact .inr (by omega)

theorem Tight.length_le {bs : List Nat} {x : Int} (h : Tight bs x) {L : Nat} (hL : 1 ≤ L) (hx : 2 * x < 256 ^ L) : bs.length ≤ L := by
  by_contra hc
  have := pow256_mono (show L ≤ bs.length - 1 by omega)
  rcases h with h | h <;> omega

/-! ### shifts by one bit -/

theorem sv_head (b : Nat) (bs : List Nat) : signedVal 8 (b :: bs) % 2 = (b : Int) % 2 := by
  rcases eq_or_ne bs [] with rfl | h
  · rw [sv_single]; split_ifs <;> omega
  · rw [sv_cons h]; omega

theorem shiftRight_spec {bs : List Nat} {x : Int} (h : Stands bs x) : Stands (shiftRight bs) (x / 2) ∧ (shiftRight bs).length = bs.length := by
  obtain ⟨hok, hne, rfl⟩ := h
  induction bs with
  | nil => exact absurd rfl hne
  | cons b bs ih =>
    obtain ⟨hb, hok⟩ := bytesOk_cons.1 hok
    rcases bs with _ | ⟨c, bs⟩
    · unfold shiftRight
      rw [and_80 hb]
      refine ⟨⟨bytesOk_single.2 ?_, by simp, ?_⟩, rfl⟩
      · split_ifs <;> simp_all <;> omega
      · rw [sv_single, sv_single]
        by_cases h1 : 128 ≤ b
        · simp only [h1, if_true]
          rw [if_pos (by simp)]
          simp; omega
        · simp only [h1, if_false]
          simp; omega
    · obtain ⟨⟨i1, i2, i3⟩, i4⟩ := ih hok (by simp)
      have hc := (bytesOk_cons.1 hok).1
      have hd := sv_head c bs
      unfold shiftRight
      rw [and_01 hc]
      refine ⟨⟨bytesOk_cons.2 ⟨?_, i1⟩, by simp, ?_⟩, by rw [List.length_cons, i4, List.length_cons (a := b)]⟩
      · split_ifs <;> omega
      · rw [sv_cons i2, i3, sv_cons (b := b) (by simp)]
        split_ifs <;> push_cast <;> omega

theorem doubleLoop_spec {p : Nat} {bs : List Nat} (h : BytesOk bs) :
    BytesOk (doubleLoop p bs) ∧ (doubleLoop p bs).length = bs.length ∧
    digitsVal 256 (doubleLoop p bs) + (if 128 ≤ bs.getLast?.getD p then 1 else 0) * 256 ^ bs.length = 2 * digitsVal 256 bs + (if 128 ≤ p then 1 else 0) := by
  induction bs generalizing p with
  | nil => refine ⟨by simp [doubleLoop, BytesOk], rfl, by simp [doubleLoop]; rfl⟩
  | cons b bs ih =>
    obtain ⟨hb, h⟩ := bytesOk_cons.1 h
    obtain ⟨i1, i2, i3⟩ := ih (p := b) h
    have hl : (b :: bs).getLast?.getD p = bs.getLast?.getD b := by
      cases bs <;> simp [List.getLast?_cons]
    unfold doubleLoop
    refine ⟨bytesOk_cons.2 ⟨?_, i1⟩, by rw [List.length_cons, i2, List.length_cons], ?_⟩
    · split_ifs <;> omega
    · rw [hl, digitsVal_cons, digitsVal_cons, List.length_cons, pow_succ, ← mul_assoc]
      generalize (if 128 ≤ bs.getLast?.getD b then 1 else 0) * 256 ^ bs.length = Q at *
      simp only [ge_iff_le, gt_iff_lt]
      split_ifs at i3 ⊢ <;> omega

theorem shiftLeftGrow_spec {bs : List Nat} {x : Int} (h : Stands bs x) :
    ∃ r, shiftLeftGrow bs = .ok r ∧ Stands r (2 * x) ∧ (r.length = bs.length ∨ r.length = bs.length + 1 ∧ ¬ (-(256 : Int) ^ bs.length ≤ 4 * x ∧ 4 * x < 256 ^ bs.length)) := by
  obtain ⟨t, t1, t2, t3, t4, -, -⟩ := sign_bit h
  obtain ⟨i1, i2, i3⟩ := doubleLoop_spec (p := 0) h.ok
  have hne : doubleLoop 0 bs ≠ [] := by
    intro e; rw [e] at i2; exact h.ne (List.eq_nil_of_length_eq_zero i2.symm)
  have e := sv_def bs
  rw [h.eq] at e
  have i3 : (digitsVal 256 (doubleLoop 0 bs) : Int) + (if 128 ≤ t then 1 else 0) * 256 ^ bs.length = 2 * digitsVal 256 bs := by
    rw [t3] at i3
    simpa using congrArg (Nat.cast (R := Int)) i3
  rw [t3, Option.getD_some] at e
  have hr : ∃ P0 v : Int, 0 ≤ v ∧ v < P0 ∧ (256 : Int) ^ bs.length = 256 * P0 ∧ (digitsVal 256 bs : Int) = v + P0 * t := by
    rcases List.eq_nil_or_concat bs with rfl | ⟨l, y, rfl⟩
    · simp at t3
    · rw [List.concat_eq_append] at *
      obtain rfl : y = t := by simpa using t3
      refine ⟨256 ^ l.length, digitsVal 256 l, by omega, dv_lt (bytesOk_append.1 h.ok).1, ?_, ?_⟩
      · rw [List.length_append, List.length_singleton, pow_succ]; ring
      · rw [digitsVal_append]; simp [digitsVal]
  obtain ⟨P0, v, v1, v2, v3, v4⟩ := hr
  unfold shiftLeftGrow
  rw [t1, Res.ok_bind]
  have hmul : ∀ a : Int, a ≤ t → P0 * a ≤ P0 * t := fun a ha => Int.mul_le_mul_of_nonneg_left ha (by omega)
  have hmul' : ∀ a : Int, (t : Int) ≤ a → P0 * t ≤ P0 * a := fun a ha => Int.mul_le_mul_of_nonneg_left ha (by omega)
  have hcase : t ≤ 63 ∨ 64 ≤ t ∧ t ≤ 127 ∨ 128 ≤ t ∧ t ≤ 191 ∨ 192 ≤ t := by omega
  rcases hcase with hc | ⟨hc, hc'⟩ | ⟨hc, hc'⟩ | hc
  · have := hmul' 63 (by omega)
    rw [if_neg (by omega)] at e i3
    rw [if_neg (by omega), if_neg (by omega), List.append_nil, List.append_nil]
    refine ⟨_, rfl, ⟨i1, hne, sv_unique i1 hne (k := 0) (by omega) ?_ ?_⟩, .inl i2⟩ <;> rw [i2] <;> omega
  · have := hmul 64 (by omega)
    rw [if_neg (by omega)] at e i3
    rw [if_pos (by omega), if_neg (by omega), List.append_nil]
    refine ⟨_, rfl, ⟨bytesOk_append.2 ⟨i1, by decide⟩, by simp, ?_⟩, .inr ⟨by simp [i2], by omega⟩⟩
    rw [sv_append _ (by simp), sv_single, i2]
    simp; omega
  · have := hmul' 191 (by omega)
    rw [if_pos (by omega)] at e i3
    rw [if_neg (by omega), if_pos (by omega), List.append_nil]
    refine ⟨_, rfl, ⟨bytesOk_append.2 ⟨i1, by decide⟩, by simp, ?_⟩, .inr ⟨by simp [i2], by omega⟩⟩
    rw [sv_append _ (by simp), sv_single, i2]
    simp; omega
  · have := hmul 192 (by omega)
    rw [if_pos (by omega)] at e i3
    rw [if_neg (by omega), if_neg (by omega), List.append_nil, List.append_nil]
    refine ⟨_, rfl, ⟨i1, hne, sv_unique i1 hne (k := -1) (by rw [i2]; omega) ?_ ?_⟩, .inl i2⟩ <;> rw [i2] <;> omega

theorem grow_tight {bs r : List Nat} {x : Int} (ht : Tight bs x) (hx : 0 ≤ x)
    (hr : r.length = bs.length ∨ r.length = bs.length + 1 ∧ ¬ (-(256 : Int) ^ bs.length ≤ 4 * x ∧ 4 * x < 256 ^ bs.length)) : Tight r (2 * x) := by
  have hp : (0 : Int) < 256 ^ bs.length := by positivity
  rcases hr with hr | ⟨hr, h2⟩
  · unfold Tight at *
    rw [hr]
    rcases ht with h | h
    · exact .inl h
    · exact .inr (by omega)
  · refine .inr ?_
    rw [hr, Nat.add_sub_cancel]
    omega

theorem growLoop_spec (n : Nat) {bs : List Nat} {x : Int} (h : Stands bs x) (hx : 0 ≤ x) (ht : Tight bs x) :
    ∃ r, growLoop n bs = .ok r ∧ Stands r (x * 2 ^ n) ∧ Tight r (x * 2 ^ n) := by
  induction n generalizing bs x with
  | zero => exact ⟨bs, rfl, by simpa using h, by simpa using ht⟩
  | succ n ih =>
    obtain ⟨r, r1, r2, r3⟩ := shiftLeftGrow_spec h
    obtain ⟨r', i1, i2, i3⟩ := ih r2 (by omega) (grow_tight ht hx r3)
    unfold growLoop
    rw [r1, Res.ok_bind]
    have e : x * 2 ^ (n + 1) = 2 * x * 2 ^ n := by rw [pow_succ]; ring
    rw [e]
    exact ⟨r', i1, i2, i3⟩

/-! ### bits -/

theorem bitArray_length (bs : List Nat) : (bitArray bs).length = 8 * bs.length := by
  unfold bitArray
  induction bs with
  | nil => rfl
  | cons b bs ih => simp [ih]; omega

theorem bitArray_spec {bs : List Nat} (h : BytesOk bs) (i : Nat) : (bitArray bs).getD i false = (digitsVal 256 bs).testBit i := by
  induction bs generalizing i with
  | nil => simp [bitArray]
  | cons b bs ih =>
    obtain ⟨hb, h⟩ := bytesOk_cons.1 h
    have e : bitArray (b :: bs) = (List.range 8).map b.testBit ++ bitArray bs := by simp [bitArray]
    have e2 : digitsVal 256 (b :: bs) = 2 ^ 8 * digitsVal 256 bs + b := by rw [digitsVal_cons]; omega
    rw [e, e2, Nat.testBit_two_pow_mul_add _ (by omega)]
    by_cases hi : i < 8
    · rw [if_pos hi, List.getD_append _ _ _ _ (by simpa using hi)]
      simp [hi]
    · rw [if_neg hi, List.getD_append_right _ _ _ _ (by simp; omega), ← ih h]
      simp

theorem lt_of_not_testBit {v n : Nat} (h : v < 2 ^ (n + 1)) (hb : v.testBit n = false) : v < 2 ^ n := by
  by_contra hc
  rw [Nat.testBit_eq_decide_div_mod_eq, decide_eq_false_iff_not] at hb
  have h1 : v / 2 ^ n = 1 := by
    rw [Nat.div_eq_iff (by positivity)]
    rw [pow_succ] at h
    omega
  rw [h1] at hb
  exact hb rfl

theorem topLoop_spec {ba : List Bool} {v : Nat} (h : ∀ i, ba.getD i false = v.testBit i) {n : Nat} (hv : v < 2 ^ n) :
    v < 2 ^ (topLoop ba n + 1) ∧ (0 < v → 2 ^ topLoop ba n ≤ v) := by
  induction n with
  | zero =>
    have : v = 0 := by omega
    subst this
    exact ⟨by positivity, fun h => absurd h (by omega)⟩
  | succ n ih =>
    unfold topLoop
    rw [h n]
    cases hb : v.testBit n with
    | true =>
      rw [if_pos rfl]
      exact ⟨hv, fun _ => Nat.ge_two_pow_of_testBit hb⟩
    | false =>
      rw [if_neg (by decide)]
      exact ih (lt_of_not_testBit hv hb)

theorem topBit_spec {bs : List Nat} (h : BytesOk bs) :
    digitsVal 256 bs < 2 ^ (topBit (bitArray bs) + 1) ∧ (0 < digitsVal 256 bs → 2 ^ topBit (bitArray bs) ≤ digitsVal 256 bs) := by
  refine topLoop_spec (bitArray_spec h) ?_
  rw [bitArray_length, pow_mul]
  exact bytes_lt h

theorem topLoop_zero {ba : List Bool} (h : ∀ i, ba.getD i false = false) (n : Nat) : topLoop ba n = 0 := by
  induction n with
  | zero => rfl
  | succ n ih => unfold topLoop; rw [h n, if_neg (by decide), ih]

theorem topBit_eq {bs : List Nat} (h : BytesOk bs) : topBit (bitArray bs) = Nat.log2 (digitsVal 256 bs) := by
  rcases Nat.eq_zero_or_pos (digitsVal 256 bs) with h0 | h0
  · rw [h0]
    refine (topLoop_zero (fun i => ?_) _)
    rw [bitArray_spec h, h0, Nat.zero_testBit]
  · obtain ⟨h1, h2⟩ := topBit_spec h
    exact ((Nat.log2_eq_iff (by omega)).2 ⟨h2 h0, h1⟩).symm

theorem topLoop_le (ba : List Bool) (n : Nat) : topLoop ba n ≤ n := by
  induction n with
  | zero => exact le_refl _
  | succ n ih => unfold topLoop; split_ifs <;> omega

theorem topBit_le (bs : List Nat) : (2 : Int) ^ topBit (bitArray bs) ≤ 256 ^ bs.length := by
  have := topLoop_le (bitArray bs) (bitArray bs).length
  rw [bitArray_length] at this
  rw [show (256 : Int) = 2 ^ 8 by norm_num, ← pow_mul]
  exact pow_le_pow_right₀ (by decide) (by unfold topBit; rwa [bitArray_length])

theorem dv_nonneg {bs : List Nat} {x : Int} (h : Stands bs x) (hx : 0 ≤ x) : (digitsVal 256 bs : Int) = x := by
  have e := sv_def bs
  have i := top_iff h.ok
  rw [h.eq] at e i
  rw [if_neg (by omega)] at e
  exact e.symm

end Oracle
end BigIntegerCpp
