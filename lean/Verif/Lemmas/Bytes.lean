import Verif.Lemmas.Twos
import Verif.Model.Bytes
/-
Byte-array constructor.
-/
namespace BigIntegerCpp
set_option linter.unusedSectionVars false
set_option linter.unnecessarySeqFocus false
variable [Cfg]

theorem bytesOk_append {xs ys : List Nat} : BytesOk (xs ++ ys) ↔ BytesOk xs ∧ BytesOk ys := by
  simp [BytesOk, or_imp, forall_and]
theorem BytesOk.take {xs : List Nat} (h : BytesOk xs) (k : Nat) : BytesOk (xs.take k) :=
  fun w hw => h w (List.mem_of_mem_take hw)
theorem BytesOk.drop {xs : List Nat} (h : BytesOk xs) (k : Nat) : BytesOk (xs.drop k) :=
  fun w hw => h w (List.mem_of_mem_drop hw)

theorem bytes_lt {xs : List Nat} (h : BytesOk xs) : digitsVal 256 xs < 256 ^ xs.length :=
  digitsVal_lt (by decide) h

/-- Reading access: byte number `p` (from the least significant) is found at `base - step*p`. -/
def Reads (value : List Nat) (step base : Int) (le : List Nat) : Prop :=
  ∀ p (h : p < le.length), idxI value (base - step * p) = .ok le[p]

theorem take_succ_drop {le : List Nat} {p m : Nat} (h : p + m < le.length) :
    (le.drop p).take (m + 1) = (le.drop p).take m ++ [le[p + m]] := by
  rw [List.take_add_one]
  congr 1
  simp [h]

theorem shl8_or {w b : Nat} (hb : b < 256) : u32 (w <<< 8) ||| b = u32 (w * 256 + b) := by
  have e : w <<< 8 = w * 256 := Nat.shiftLeft_eq _ _
  have e2 : u32 (w <<< 8) = (w % 16777216) <<< 8 := by
    rw [e, Nat.shiftLeft_eq]; unfold u32; omega
  rw [e2, ← Nat.shiftLeft_add_eq_or_of_lt (i := 8) (by simpa using hb), Nat.shiftLeft_eq]
  unfold u32; omega

theorem u32_mul_add (a n d : Nat) : u32 (u32 a * n + d) = u32 (a * n + d) := by
  unfold u32; simp [Nat.add_mod, Nat.mul_mod]

theorem packWord_spec {value le : List Nat} {step base : Int} (hr : Reads value step base le) (hb : BytesOk le)
    (p m w : Nat) (hm : p + m ≤ le.length) (hw : w < 4294967296) :
    packWord value step m (base - step * ((p + m : Nat) : Int) + step) w =
      .ok (u32 (w * 256 ^ m + digitsVal 256 ((le.drop p).take m))) := by
  induction m generalizing w with
  | zero => simp [packWord, u32_of_lt hw]
  | succ m ih =>
    unfold packWord
    have hlt : p + m < le.length := by omega
    have e : base - step * ((p + (m + 1) : Nat) : Int) + step = base - step * ((p + m : Nat) : Int) := by
      push_cast; ring
    have hbb : le[p + m] < 256 := hb _ (List.getElem_mem hlt)
    rw [e, hr _ hlt, Res.ok_bind, shl8_or hbb, ih _ (by omega) (u32_lt _), u32_mul_add, take_succ_drop hlt,
      digitsVal_append, List.length_take, List.length_drop, Nat.min_eq_left (by omega)]
    simp only [digitsVal_cons, digitsVal_nil, Nat.mul_zero, Nat.add_zero]
    congr 2
    rw [pow_succ]; ring

theorem packWords_spec {value le : List Nat} {step base : Int} (hr : Reads value step base le) (hb : BytesOk le)
    (k p : Nat) (hk : p + 4 * k ≤ le.length) :
    ∃ ws, packWords value step k (base - step * ((p + 3 : Nat) : Int)) = .ok ws ∧ WordsOk ws ∧ ws.length = k ∧
      val ws = digitsVal 256 ((le.drop p).take (4 * k)) := by
  induction k generalizing p with
  | zero => exact ⟨[], rfl, wordsOk_nil, rfl, by simp⟩
  | succ k ih =>
    obtain ⟨ws, h1, h2, h3, h4⟩ := ih (p + 4) (by omega)
    have hpw := packWord_spec hr hb p 4 0 (by omega) (by decide)
    have hlt4 := bytes_lt (hb.drop p |>.take 4)
    rw [List.length_take, List.length_drop, Nat.min_eq_left (by omega)] at hlt4
    rw [Nat.zero_mul, Nat.zero_add, u32_of_lt (by norm_num at hlt4; exact hlt4)] at hpw
    refine ⟨digitsVal 256 ((le.drop p).take 4) :: ws, ?_, wordsOk_cons.2 ⟨by norm_num at hlt4; exact hlt4, h2⟩,
      by simp [h3], ?_⟩
    · unfold packWords
      rw [show base - step * ((p + 3 : Nat) : Int) = base - step * ((p + 4 : Nat) : Int) + step by push_cast; ring,
        hpw, Res.ok_bind,
        show base - step * ((p + 4 : Nat) : Int) + step + 4 * step - 8 * step =
          base - step * ((p + 4 + 3 : Nat) : Int) by push_cast; ring, h1]
      rfl
    · rw [val_cons, h4, show 4 * (k + 1) = 4 + 4 * k by ring, List.take_add, digitsVal_append, List.length_take,
        List.length_drop, Nat.min_eq_left (by omega), List.drop_drop]
      norm_num

/-- `_sign = (_sign << 8) | value[i]`, followed on bit patterns. -/
theorem i32_u32i (u : Nat) (h : u < 4294967296) : u32i (i32 u) = u := by
  unfold u32i; rw [i32_eq h]; split_ifs <;> omega

theorem shl8_neg {u : Nat} (h : 4278190080 ≤ u) (hu : u < 4294967296) (hs : Cfg.strictShift = false) :
    shl8 (i32 u) = .ok (i32 (u32 (u * 256))) := by
  unfold shl8
  rw [i32_eq hu, if_neg (show ¬ u < 2147483648 by omega), hs, if_neg (by simp), if_neg (by omega)]
  congr 2
  unfold u32i u32; omega

theorem shl8_nonneg {u : Nat} (h : u < 16777216) : shl8 (i32 u) = .ok (i32 (u32 (u * 256))) := by
  unfold shl8
  rw [i32_eq (by omega), if_pos (show u < 2147483648 by omega), if_neg (by omega), if_neg (by omega)]
  congr 2

theorem packSign_spec {value le : List Nat} {step base : Int} (hr : Reads value step base le) (hb : BytesOk le)
    (neg : Bool) (hneg : neg = true → Cfg.strictShift = false) (m : Nat) :
    ∀ (p k u : Nat), p + m ≤ le.length → k + m ≤ 4 → u < 4294967296 →
    (if neg then 4294967296 ≤ u + 256 ^ k else u < 256 ^ k) →
    packSign value step m (base - step * ((p + m : Nat) : Int) + step) (i32 u) =
      .ok (i32 (u32 (u * 256 ^ m + digitsVal 256 ((le.drop p).take m)))) := by
  induction m with
  | zero => intro p k u _ _ hu _; simp [packSign, u32_of_lt hu]
  | succ m ih =>
    intro p k u hm hk hu hc
    unfold packSign
    have hlt : p + m < le.length := by omega
    have e : base - step * ((p + (m + 1) : Nat) : Int) + step = base - step * ((p + m : Nat) : Int) := by
      push_cast; ring
    have hbb : le[p + m] < 256 := hb _ (List.getElem_mem hlt)
    have hk3 : 256 ^ k ≤ 256 ^ 3 := Nat.pow_le_pow_right (by decide) (by omega)
    have hsh : shl8 (i32 u) = .ok (i32 (u32 (u * 256))) := by
      cases neg
      · simp only [Bool.false_eq_true, if_false] at hc
        exact shl8_nonneg (by omega)
      · simp only [if_true] at hc
        exact shl8_neg (by omega) hu (hneg rfl)
    have hor : u32i (i32 (u32 (u * 256))) ||| le[p + m] = u32 (u * 256 + le[p + m]) := by
      rw [i32_u32i _ (u32_lt _), ← shl8_or hbb, Nat.shiftLeft_eq]
    have hc' : if neg then 4294967296 ≤ u32 (u * 256 + le[p + m]) + 256 ^ (k + 1)
        else u32 (u * 256 + le[p + m]) < 256 ^ (k + 1) := by
      rw [pow_succ]
      generalize 256 ^ k = K at *
      cases neg <;> simp only [Bool.false_eq_true, if_false, if_true] at hc ⊢ <;> unfold u32 <;> omega
    rw [hsh, Res.ok_bind, e, hr _ hlt, Res.ok_bind, hor, ih p (k + 1) _ (by omega) (by omega) (u32_lt _) hc',
      u32_mul_add, take_succ_drop hlt, digitsVal_append, List.length_take, List.length_drop,
      Nat.min_eq_left (by omega)]
    simp only [digitsVal_cons, digitsVal_nil, Nat.mul_zero, Nat.add_zero]
    congr 3
    rw [pow_succ]; ring

/-- Strict C++17: the first `-1 << 8` is already undefined. -/
theorem packSign_strict {value : List Nat} {step cur : Int} (m : Nat) (hs : Cfg.strictShift = true) :
    packSign value step (m + 1) cur (-1) = .ub .badShift := by
  unfold packSign shl8
  rw [if_pos ⟨by decide, hs⟩]
  rfl

/-! ### leading zero bytes -/

theorem trimLen_concat_zero (xs : List Nat) : trimLen (xs ++ [0]) = trimLen xs := by
  induction xs with
  | nil => rfl
  | cons x xs ih => simp only [List.cons_append, trimLen, ih]

theorem trimLen_concat {x : Nat} (xs : List Nat) (hx : x ≠ 0) : trimLen (xs ++ [x]) = xs.length + 1 := by
  rw [trimLen_of_top (by simpa using hx)]; simp

theorem dropWhile_reverse (v : List Nat) :
    v.dropWhile (· = 0) = (v.reverse.take (trimLen v.reverse)).reverse := by
  induction v with
  | nil => rfl
  | cons x v ih =>
    by_cases hx : x = 0
    · subst hx
      rw [List.dropWhile_cons_of_pos (by simp), ih, List.reverse_cons, trimLen_concat_zero,
        List.take_append_of_le_length (trimLen_le _)]
    · rw [List.dropWhile_cons_of_neg (by simpa using hx), List.reverse_cons, trimLen_concat _ hx]
      simp [List.take_of_length_le]

theorem digitsVal_take_trimLen (b : Nat) (xs : List Nat) : digitsVal b (xs.take (trimLen xs)) = digitsVal b xs := by
  induction xs with
  | nil => rfl
  | cons x xs ih =>
    have h0 : trimLen xs = 0 → digitsVal b xs = 0 := by
      intro h; rw [h] at ih; simpa using ih.symm
    simp only [trimLen]
    by_cases h : trimLen xs = 0
    · rw [if_pos h]
      by_cases hx : x = 0
      · rw [if_pos hx, hx]; simp [digitsVal_cons, h0 h]
      · rw [if_neg hx]; simp [digitsVal_cons, h0 h]
    · rw [if_neg h, List.take_succ_cons, digitsVal_cons, digitsVal_cons, ih]

theorem reads_be (le : List Nat) : Reads le.reverse 1 ((le.length : Int) - 1) le := by
  intro p h
  unfold idxI
  rw [if_neg (by omega), show ((le.length : Int) - 1 - 1 * p).toNat = le.length - 1 - p by omega,
    idx_eq (by rw [List.length_reverse]; omega)]
  congr 1
  rw [List.getElem_reverse]
  congr 1
  omega

theorem reads_le (value : List Nat) (n : Nat) : Reads value (-1) 0 (value.take n) := by
  intro p h
  unfold idxI
  rw [List.length_take] at h
  rw [if_neg (by omega), show ((0 : Int) - -1 * p).toNat = p by omega, idx_eq (by omega)]
  rw [List.getElem_take]

/-! ### the two ways to finish -/

theorem neg_finish {vs : List Nat} (hw : WordsOk vs) (hpos : 0 < val vs) :
    Returns (let len := trimLen vs
      if len = 1 ∧ vs.headD 0 = 1 then .ok minusOneInt
      else if len = 1 ∧ vs.headD 0 = 2147483648 then .ok minInt
      else if len = 1 ∧ i32 (vs.headD 0) > 0 then checked ⟨-1 * i32 (vs.headD 0), []⟩
      else if len ≠ vs.length then checked ⟨-1, vs.take len⟩
      else checked ⟨-1, vs⟩) (-(val vs : Nat)) := by
  dsimp only
  have hh := headD_lt hw
  by_cases g1 : trimLen vs = 1 ∧ vs.headD 0 = 1
  · rw [if_pos g1, val_of_trim_one g1.1, g1.2]; exact returns_ok denotes_minusOne
  rw [if_neg g1]
  by_cases g2 : trimLen vs = 1 ∧ vs.headD 0 = 2147483648
  · rw [if_pos g2, val_of_trim_one g2.1, g2.2]; exact returns_ok denotes_minInt
  rw [if_neg g2]
  by_cases g3 : trimLen vs = 1 ∧ i32 (vs.headD 0) > 0
  · rw [if_pos g3, val_of_trim_one g3.1]
    have g4 := g3.2
    rw [i32_eq hh] at g4 ⊢
    generalize vs.headD 0 = w at *
    have hlt : w < 2147483648 := by by_contra h; rw [if_neg h] at g4; omega
    rw [if_pos hlt, neg_one_mul]
    exact returns_checked (BigInt.denotes_small (by omega) (by omega))
  rw [if_neg g3]
  have hbig : 2147483648 ≤ val vs := by
    rcases Nat.lt_or_ge (trimLen vs) 2 with h | h
    · have h0 : trimLen vs ≠ 0 := fun e => by have := trimLen_eq_zero.1 e; omega
      have h1 : trimLen vs = 1 := by omega
      rw [val_of_trim_one h1] at hpos ⊢
      by_contra hc
      exact g3 ⟨h1, by rw [i32_eq hh, if_pos (by omega)]; omega⟩
    · have := trim_two_le h; omega
  have hd := denotes_trim (z := -((val vs : Nat) : Int)) hw (.inr rfl) hbig (by ring)
  by_cases g4 : trimLen vs ≠ vs.length
  · rw [if_pos g4]; exact returns_checked hd
  · rw [if_neg g4]
    rw [take_trimLen_self (not_not.1 g4)] at hd; exact returns_checked hd

/-! ### the constructor -/

/-- The constructor after normalisation of its arguments (see `ofBytes_eq`). -/
def ofBytesBody (value : List Nat) (step base : Int) (n : Nat) (neg : Bool) : Res BigInt :=
  if n = 0 then checked zeroInt
  else if n ≤ 4 then do
    let s ← packSign value step n (base - step * (n : Int) + step) (if neg then -1 else 0)
    let b : BigInt := if s < 0 ∧ !neg then ⟨1, [u32i s]⟩ else ⟨s, []⟩
    let b : BigInt := if b.sign = -2147483648 then minInt else b
    checked b
  else do
    let words ← packWords value step (n / 4) (base - step * 3)
    let top ← (if n % 4 ≠ 0 then do
        let w ← packWord value step (n % 4) (base - step * (n : Int) + step) (if neg then 4294967295 else 0)
        .ok [w]
      else .ok [])
    let val := words ++ top
    if neg then
      let val := twosComplement val
      let len := trimLen val
      if len = 1 ∧ val.headD 0 = 1 then .ok minusOneInt
      else if len = 1 ∧ val.headD 0 = 2147483648 then .ok minInt
      else if len = 1 ∧ i32 (val.headD 0) > 0 then checked ⟨-1 * i32 (val.headD 0), []⟩
      else if len ≠ val.length then checked ⟨-1, val.take len⟩
      else checked ⟨-1, val⟩
    else checked ⟨1, val⟩

theorem top_byte_ge {le : List Nat} (hne : le ≠ []) (ht : le.getLast? ≠ some 0) :
    256 ^ (le.length - 1) ≤ digitsVal 256 le := by
  rcases List.eq_nil_or_concat le with rfl | ⟨l, x, rfl⟩
  · exact absurd rfl hne
  · rw [List.concat_eq_append] at *
    have hx : 1 ≤ x := by
      rw [List.getLast?_concat] at ht
      rcases Nat.eq_zero_or_pos x with h | h
      · exact absurd (by rw [h]) ht
      · exact h
    rw [digitsVal_append, List.length_append, List.length_singleton, Nat.add_sub_cancel]
    simp only [digitsVal_cons, digitsVal_nil, Nat.mul_zero, Nat.add_zero]
    have := Nat.mul_le_mul_left (256 ^ l.length) hx
    omega

theorem extVal_8 (neg : Bool) (le : List Nat) :
    extVal 8 neg le = (digitsVal 256 le : Nat) - (if neg then ((256 ^ le.length : Nat) : Int) else 0) := by
  unfold extVal
  rw [pow_mul]
  norm_num

theorem ofBytesBody_small {value le : List Nat} {step base : Int} (hr : Reads value step base le) (hb : BytesOk le)
    (ht : le.getLast? ≠ some 0) (neg : Bool) (hneg : neg = true → 128 ≤ le.getLast?.getD 0)
    (hst : neg = true → Cfg.strictShift = false) (hl : le.length ≤ 4) :
    Returns (ofBytesBody value step base le.length neg) (extVal 8 neg le) := by
  unfold ofBytesBody
  by_cases h0 : le.length = 0
  · rw [if_pos h0]
    have : le = [] := by simpa using h0
    subst this
    have hn : neg = false := by
      cases neg
      · rfl
      · have := hneg rfl; simp at this
    rw [hn, extVal_nil]
    exact returns_checked denotes_zero
  rw [if_neg h0, if_pos hl]
  have hne : le ≠ [] := by rintro rfl; exact h0 rfl
  have hinit : (if neg then (-1 : Int) else 0) = i32 (if neg then 4294967295 else 0) := by cases neg <;> decide
  have hps := packSign_spec hr hb neg hst le.length 0 0 (if neg then 4294967295 else 0) (by omega) (by omega)
    (by cases neg <;> decide) (by cases neg <;> decide)
  rw [Nat.zero_add, List.drop_zero, List.take_length] at hps
  rw [hinit, hps, Res.ok_bind, extVal_8]
  have h1 := bytes_lt hb
  have h3 : 256 ^ le.length ≤ 256 ^ 4 := Nat.pow_le_pow_right (by decide) hl
  cases neg
  · simp only [Bool.false_eq_true, if_false, Nat.zero_mul, Nat.zero_add, Bool.not_false, and_true, sub_zero]
    generalize digitsVal 256 le = d at *
    have hd : d < 4294967296 := by norm_num at h3; omega
    rw [u32_of_lt hd, i32_u32i _ hd, i32_eq hd]
    by_cases hbig : d < 2147483648
    · rw [if_pos hbig, if_neg (show ¬ (d : Int) < 0 by omega), if_neg (show ¬ (d : Int) = -2147483648 by omega)]
      exact returns_checked (BigInt.denotes_small (by omega) (by omega))
    · rw [if_neg hbig, if_pos (show (d : Int) - 4294967296 < 0 by omega), if_neg (show ¬ (1 : Int) = -2147483648 by decide)]
      exact returns_checked (by simpa using denotes_words1 (s := 1) (.inl rfl) (by omega) hd)
  · have h2 := (top_digit_iff (n := 8) (by decide) (digitsOk_8.2 hb) hne).1 (by simpa using hneg rfl)
    rw [pow_mul, show (2 : Nat) ^ 8 = 256 from rfl] at h2
    simp only [if_true, Bool.not_true, Bool.false_eq_true, and_false, if_false]
    have h4 : u32 (4294967295 * 256 ^ le.length + digitsVal 256 le) = 4294967296 - 256 ^ le.length + digitsVal 256 le := by
      have h5 : 1 ≤ 256 ^ le.length := Nat.pow_pos (by decide)
      generalize 256 ^ le.length = P at *
      norm_num at h3
      unfold u32; omega
    rw [h4]
    generalize digitsVal 256 le = d at *
    generalize 256 ^ le.length = P at *
    norm_num at h3
    rw [i32_eq (by omega), if_neg (show ¬ 4294967296 - P + d < 2147483648 by omega)]
    by_cases hmin : ((4294967296 - P + d : Nat) : Int) - 4294967296 = -2147483648
    · rw [if_pos hmin, show (d : Int) - P = -2147483648 by omega]
      exact returns_checked denotes_minInt
    · rw [if_neg hmin, show (d : Int) - P = ((4294967296 - P + d : Nat) : Int) - 4294967296 by omega]
      exact returns_checked (BigInt.denotes_small (by omega) (by omega))

theorem ofBytesBody_strict {value le : List Nat} {step base : Int} (hs : Cfg.strictShift = true)
    (h0 : le ≠ []) (hl : le.length ≤ 4) : ofBytesBody value step base le.length true = .ub .badShift := by
  unfold ofBytesBody
  have h1 : 1 ≤ le.length := List.length_pos_iff.2 h0
  obtain ⟨m, hm⟩ : ∃ m, le.length = m + 1 := ⟨le.length - 1, by omega⟩
  rw [if_neg (by omega), if_pos hl, if_pos rfl, hm, packSign_strict m hs]
  rfl

theorem ofBytesBody_large {value le : List Nat} {step base : Int} (hr : Reads value step base le) (hb : BytesOk le)
    (ht : le.getLast? ≠ some 0) (neg : Bool) (hneg : neg = true → 128 ≤ le.getLast?.getD 0)
    (hl : 4 < le.length) (hl2 : le.length < 2147483648) :
    Returns (ofBytesBody value step base le.length neg) (extVal 8 neg le) := by
  unfold ofBytesBody
  rw [if_neg (by omega), if_neg (by omega)]
  have hne : le ≠ [] := by rintro rfl; simp at hl
  obtain ⟨ws, h1, h2, h3, h4⟩ := packWords_spec hr hb (le.length / 4) 0 (by omega)
  rw [Nat.zero_add, List.drop_zero] at *
  have h1' : packWords value step (le.length / 4) (base - step * 3) = .ok ws := h1
  rw [h1', Res.ok_bind]
  -- the list of all words
  have key : ∃ top, (if le.length % 4 ≠ 0 then (do
        let w ← packWord value step (le.length % 4) (base - step * (le.length : Int) + step) (if neg then 4294967295 else 0)
        .ok [w])
      else .ok [] : Res (List Nat)) = .ok top ∧ WordsOk top ∧ (ws ++ top).length = (le.length + 3) / 4 ∧
      ((val (ws ++ top) : Nat) : Int) - (if neg then ((4294967296 ^ (ws ++ top).length : Nat) : Int) else 0) =
        extVal 8 neg le := by
    rw [extVal_8]
    by_cases hu : le.length % 4 = 0
    · refine ⟨[], by rw [if_neg (by omega)], wordsOk_nil, by simp [h3]; omega, ?_⟩
      rw [List.append_nil, h4, h3]
      have e : 4 * (le.length / 4) = le.length := by omega
      have e2 : (4294967296 : Nat) ^ (le.length / 4) = 256 ^ le.length := by
        conv_rhs => rw [← e, pow_mul]
        norm_num
      rw [e, List.take_length, e2]
    · have hpw := packWord_spec hr hb (4 * (le.length / 4)) (le.length % 4) (if neg then 4294967295 else 0) (by omega)
        (by cases neg <;> decide)
      rw [show 4 * (le.length / 4) + le.length % 4 = le.length by omega, List.take_of_length_le (by simp; omega)] at hpw
      have hsplit := digitsVal_append 256 (le.take (4 * (le.length / 4))) (le.drop (4 * (le.length / 4)))
      rw [List.take_append_drop, List.length_take, Nat.min_eq_left (by omega), ← h4] at hsplit
      have hlt := bytes_lt (hb.drop (4 * (le.length / 4)))
      rw [List.length_drop, show le.length - 4 * (le.length / 4) = le.length % 4 by omega] at hlt
      rw [if_pos hu, hpw]
      refine ⟨_, rfl, wordsOk_cons.2 ⟨u32_lt _, wordsOk_nil⟩, by simp [h3]; omega, ?_⟩
      rw [val_append, h3, hsplit, List.length_append, h3, List.length_singleton, val_singleton]
      have e2 : (256 : Nat) ^ (4 * (le.length / 4)) = 4294967296 ^ (le.length / 4) := by
        rw [pow_mul, show (256 : Nat) ^ 4 = 4294967296 from rfl]
      have e3 : (256 : Nat) ^ le.length = 4294967296 ^ (le.length / 4) * 256 ^ (le.length % 4) := by
        rw [← e2, ← pow_add]; congr 1; omega
      rw [e2, e3, pow_succ]
      have h5 : 256 ^ (le.length % 4) ≤ 256 ^ 3 := Nat.pow_le_pow_right (by decide) (by omega)
      generalize digitsVal 256 (le.drop (4 * (le.length / 4))) = d at *
      have h6 : 1 ≤ 256 ^ (le.length % 4) := Nat.pow_pos (by decide)
      generalize 256 ^ (le.length % 4) = P at *
      generalize 4294967296 ^ (le.length / 4) = Q at *
      norm_num at h5
      cases neg
      · simp only [Bool.false_eq_true, if_false, Nat.zero_mul, Nat.zero_add]
        rw [u32_of_lt (by omega)]
      · simp only [if_true]
        rw [show u32 (4294967295 * P + d) = 4294967296 - P + d by unfold u32; omega]
        push_cast [show P ≤ 4294967296 by omega]
        ring
  obtain ⟨top, g1, g2, g3, g4⟩ := key
  rw [g1, Res.ok_bind, ← g4]
  have hw := wordsOk_append.2 ⟨h2, g2⟩
  have hlt := val_lt hw
  cases neg
  · simp only [Bool.false_eq_true, if_false, sub_zero] at g4 ⊢
    have hval : val (ws ++ top) = digitsVal 256 le := by
      rw [extVal_8] at g4; simp at g4; exact g4
    have hge := top_byte_ge hne ht
    have hge2 : 256 ^ 4 ≤ 256 ^ (le.length - 1) := Nat.pow_le_pow_right (by decide) (by omega)
    -- the top word is not zero, because the number of words is the least possible
    refine returns_checked (BigInt.denotes_big (.inl rfl) (by intro e; rw [e] at g3; simp at g3; omega) hw ?_ ?_ (by simp))
    · intro htop
      rcases List.eq_nil_or_concat (ws ++ top) with e | ⟨l, x, e⟩
      · rw [e] at g3; simp at g3; omega
      · rw [List.concat_eq_append] at e
        rw [e] at htop g3 hw hval
        have hx : x = 0 := by simpa using htop
        subst hx
        rw [val_append] at hval
        simp only [val_singleton, Nat.mul_zero, Nat.add_zero] at hval
        have h6 := val_lt (wordsOk_append.1 hw).1
        rw [List.length_append, List.length_singleton] at g3
        have h7 : (4294967296 : Nat) ^ l.length ≤ 256 ^ (le.length - 1) := by
          rw [show (4294967296 : Nat) = 256 ^ 4 from rfl, ← pow_mul]
          exact Nat.pow_le_pow_right (by decide) (by omega)
        omega
    · rw [hval]; norm_num at hge2; omega
  · simp only [if_true] at g4 ⊢
    obtain ⟨t1, t2⟩ := twosComplement_spec hw
    have h2 := (top_digit_iff (n := 8) (by decide) (digitsOk_8.2 hb) hne).1 (by simpa using hneg rfl)
    rw [pow_mul, show (2 : Nat) ^ 8 = 256 from rfl] at h2
    have hv0 : val (ws ++ top) ≠ 0 := by
      intro e
      rw [e, extVal_8] at g4
      have hP : 256 ^ le.length ≤ 256 ^ (4 * (ws ++ top).length) :=
        Nat.pow_le_pow_right (by decide) (by omega)
      rw [pow_mul, show (256 : Nat) ^ 4 = 4294967296 from rfl] at hP
      simp only [if_true] at g4
      have h7 : 1 ≤ 256 ^ le.length := Nat.pow_pos (by decide)
      generalize 256 ^ le.length = P at *
      generalize digitsVal 256 le = d at *
      generalize 4294967296 ^ (ws ++ top).length = Q at *
      omega
    rw [if_neg hv0] at t2
    have := neg_finish t1 (by omega)
    rw [t2, Nat.cast_sub (le_of_lt hlt)] at this
    rwa [show (val (ws ++ top) : Int) - ((4294967296 ^ (ws ++ top).length : Nat) : Int) =
      -(((4294967296 ^ (ws ++ top).length : Nat) : Int) - (val (ws ++ top) : Int)) by ring]

theorem and_0x80 : ∀ m < 256, (m &&& 0x80 ≠ 0) = (128 ≤ m) := by
  intro m hm
  have e : m &&& 0x80 = if 128 ≤ m then 128 else 0 := by
    have ht : m.testBit 7 = decide (128 ≤ m) := by
      rw [Nat.testBit_eq_decide_div_mod_eq, decide_eq_decide]; omega
    rw [show m &&& 0x80 = m &&& 2 ^ 7 from rfl, Nat.and_two_pow, ht]
    by_cases h : 128 ≤ m <;> simp [h]
  rw [e]
  by_cases h : 128 ≤ m <;> simp [h]

theorem trimLen_top {xs : List Nat} (h : xs.getLast?.getD 0 ≠ 0) : trimLen xs = xs.length :=
  trimLen_of_top (by intro e; rw [e] at h; simp at h)

theorem ofBytes_eq (value : List Nat) (hl : value.length < 2147483648) (hb : BytesOk value) (uns be : Bool) :
    let le0 := if be then value.reverse else value
    let le := le0.take (trimLen le0)
    let neg := decide (128 ≤ le0.getLast?.getD 0) && !uns
    ofBytes value uns be = (if be then ofBytesBody le.reverse 1 ((le.length : Int) - 1) le.length neg
      else ofBytesBody value (-1) 0 le.length neg) := by
  intro le0 le neg
  have hb0 : BytesOk le0 := by
    intro w hw
    cases be
    · exact hb w hw
    · exact hb w (List.mem_reverse.1 hw)
  have hlen0 : le0.length = value.length := by cases be <;> simp [le0]
  have hlel : le.length = trimLen le0 := by
    simp only [le, List.length_take]; exact Nat.min_eq_left (trimLen_le _)
  have hmsb : (if be then value.headD 0 else value.getLast?.getD 0) = le0.getLast?.getD 0 := by
    cases be
    · rfl
    · simp only [le0, if_true, List.getLast?_reverse]; cases value <;> rfl
  have hm : le0.getLast?.getD 0 < 256 := by
    rcases List.eq_nil_or_concat le0 with e | ⟨l, x, e⟩
    · rw [e]; decide
    · rw [e, List.concat_eq_append]
      have : x ∈ le0 := by rw [e]; simp
      simpa using hb0 x this
  have hnegEq : (decide (value.length > 0) && decide (le0.getLast?.getD 0 &&& 0x80 ≠ 0) && !uns) = neg := by
    simp only [and_0x80 _ hm, neg]
    by_cases h : value = []
    · have : le0 = [] := by rw [← List.length_eq_zero_iff, hlen0, h]; rfl
      simp [this, h]
    · have : 0 < value.length := List.length_pos_iff.2 h
      simp [this]
  have hpair : (if value.length > 0 ∧ le0.getLast?.getD 0 = 0 then
      if be then (value.dropWhile (· = 0), (value.dropWhile (· = 0)).length)
      else (value, trimLen value)
    else (value, value.length)) = (if be then le.reverse else value, le.length) := by
    by_cases h : value.length > 0 ∧ le0.getLast?.getD 0 = 0
    · rw [if_pos h]
      cases be
      · simp only [Bool.false_eq_true, if_false, Prod.mk.injEq, true_and]
        exact hlel.symm
      · simp only [if_true, dropWhile_reverse]
        simp [le, le0]
    · rw [if_neg h]
      have htl : trimLen le0 = le0.length := by
        by_cases h1 : value.length = 0
        · have : le0 = [] := by rw [← List.length_eq_zero_iff, hlen0, h1]
          rw [this]; rfl
        · exact trimLen_top (fun h2 => h ⟨by omega, h2⟩)
      have hle : le = le0 := by simp only [le, htl, List.take_length]
      rw [hle, hlen0]
      cases be
      · rfl
      · simp [le0]
  unfold ofBytes
  rw [sizeInt_ok hl, Res.ok_bind]
  simp only [hmsb, hnegEq, hpair]
  cases be
  · simp only [Bool.false_eq_true, if_false]
    unfold ofBytesBody
    have e1 : (0 : Int) - -1 * (le.length : Int) + -1 = (le.length : Int) - 1 := by ring
    have e2 : (0 : Int) - -1 * 3 = 3 := by norm_num
    rw [e1, e2]
  · simp only [if_true]
    unfold ofBytesBody
    have e1 : (le.length : Int) - 1 - 1 * (le.length : Int) + 1 = 0 := by ring
    have e2 : (le.length : Int) - 1 - 1 * 3 = (le.length : Int) - 4 := by ring
    rw [e1, e2]

theorem ofBytes_spec (value : List Nat) (hl : value.length < 2147483648) (hb : BytesOk value) (uns be : Bool) :
    if Cfg.strictShift = true ∧ bytesValue uns be value < 0 ∧ value.length ≤ 4 then
      ofBytes value uns be = .ub .badShift
    else Returns (ofBytes value uns be) (bytesValue uns be value) := by
  have heq := ofBytes_eq value hl hb uns be
  unfold bytesValue
  generalize hle0 : (if be then value.reverse else value) = le0 at heq
  have hb0 : BytesOk le0 := by
    intro w hw
    rw [← hle0] at hw
    cases be
    · exact hb w hw
    · exact hb w (List.mem_reverse.1 hw)
  have hlen0 : le0.length = value.length := by rw [← hle0]; cases be <;> simp
  simp only at heq ⊢
  generalize hle : le0.take (trimLen le0) = le at heq
  generalize hneg : (decide (128 ≤ le0.getLast?.getD 0) && !uns) = neg at heq
  have hb1 : BytesOk le := by rw [← hle]; exact hb0.take _
  have ht : le.getLast? ≠ some 0 := by rw [← hle]; exact getLast_take_trimLen le0
  have hlel : le.length = trimLen le0 := by
    rw [← hle, List.length_take]; exact Nat.min_eq_left (trimLen_le _)
  have htl := trimLen_le le0
  have hle0n : neg = true → le = le0 := by
    intro h
    rw [h] at hneg
    simp only [Bool.and_eq_true, decide_eq_true_eq] at hneg
    rw [← hle, trimLen_top (by omega), List.take_length]
  have hnt : neg = true → 128 ≤ le.getLast?.getD 0 := by
    intro h
    rw [hle0n h]
    rw [h] at hneg
    simp only [Bool.and_eq_true, decide_eq_true_eq] at hneg
    exact hneg.1
  have hv : (if uns then ((digitsVal 256 le0 : Nat) : Int) else signedVal 8 le0) = extVal 8 neg le := by
    have hdv : digitsVal 256 le = digitsVal 256 le0 := by rw [← hle, digitsVal_take_trimLen]
    have hunf : signedVal 8 le0 = extVal 8 (decide (128 ≤ le0.getLast?.getD 0)) le0 := signedVal_eq rfl
    cases uns
    · simp only [Bool.not_false, Bool.and_true] at hneg
      rw [hunf, hneg]
      simp only [Bool.false_eq_true, if_false]
      cases neg
      · rw [extVal_8, extVal_8, hdv]; rfl
      · rw [hle0n rfl]
    · simp only [Bool.not_true, Bool.and_false] at hneg
      rw [← hneg, extVal_8, hdv]; simp
  have hni := extVal_neg_iff (neg := neg) (digitsOk_8.2 hb1)
  rw [hv, heq]
  simp only [hni]
  have hr : ∀ be : Bool, (if be then value.reverse else value) = le0 →
      Reads (if be then le.reverse else value) (if be then 1 else -1) (if be then (le.length : Int) - 1 else 0) le := by
    intro be h
    cases be
    · simp only [Bool.false_eq_true, if_false] at h ⊢
      rw [← hle, ← h]
      exact reads_le _ _
    · exact reads_be le
  have hne : neg = true → le ≠ [] := by
    intro h e
    have := hnt h
    rw [e] at this; simp at this
  by_cases hc : Cfg.strictShift = true ∧ neg = true ∧ value.length ≤ 4
  · rw [if_pos hc, hc.2.1]
    have h4 : le.length ≤ 4 := by omega
    cases be
    · exact ofBytesBody_strict hc.1 (hne hc.2.1) h4
    · exact ofBytesBody_strict hc.1 (hne hc.2.1) h4
  · rw [if_neg hc]
    have hr := hr be hle0
    have hbody : Returns (ofBytesBody (if be then le.reverse else value) (if be then 1 else -1)
        (if be then (le.length : Int) - 1 else 0) le.length neg) (extVal 8 neg le) := by
      by_cases h4 : le.length ≤ 4
      · refine ofBytesBody_small hr hb1 ht neg hnt ?_ h4
        intro h
        by_contra hs
        have : le.length = value.length := by rw [hle0n h, hlen0]
        exact hc ⟨by simpa using hs, h, by omega⟩
      · exact ofBytesBody_large hr hb1 ht neg hnt (by omega) (by omega)
    cases be
    · exact hbody
    · exact hbody

end BigIntegerCpp
