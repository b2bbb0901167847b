import Verif.Model.Pow
import Verif.Lemmas.MulDiv
/-
Lemmas about Model/Pow.lean: buffers, square-and-multiply, `pow`.
-/
set_option linter.unusedSectionVars false
set_option linter.unnecessarySeqFocus false
namespace BigIntegerCpp
variable [Cfg]

/-! ### trailing zero words -/

theorem trimLen_append_zeros (xs : List Nat) (n : Nat) : trimLen (xs ++ List.replicate n 0) = trimLen xs := by
  induction xs with
  | nil => rw [List.nil_append]; exact trimLen_eq_zero.2 (val_replicate_zero n)
  | cons x xs ih => simp only [List.cons_append, trimLen, ih]

theorem drop_trimLen (xs : List Nat) : xs.drop (trimLen xs) = List.replicate (xs.length - trimLen xs) 0 := by
  induction xs with
  | nil => rfl
  | cons x xs ih =>
    by_cases h : trimLen xs = 0
    · rw [h] at ih
      simp only [List.drop_zero, Nat.sub_zero] at ih
      by_cases hx : x = 0
      · simp only [trimLen, h, hx, if_true, List.drop_zero, List.length_cons, Nat.sub_zero, List.replicate_succ]
        rw [← ih]
      · simp only [trimLen, h, hx, if_true, if_false, List.drop_succ_cons, List.drop_zero, List.length_cons,
          Nat.add_sub_cancel]
        exact ih
    · simp only [trimLen, h, if_false, List.drop_succ_cons, ih, List.length_cons, Nat.add_sub_add_right]

theorem eq_take_append_zeros (xs : List Nat) :
    xs = xs.take (trimLen xs) ++ List.replicate (xs.length - trimLen xs) 0 := by
  conv_lhs => rw [← List.take_append_drop (trimLen xs) xs, drop_trimLen]

theorem trimLen_take {xs : List Nat} {n : Nat} (h : trimLen xs ≤ n) : trimLen (xs.take n) = trimLen xs := by
  have e : xs.take n = xs.take (trimLen xs) ++ List.replicate (min (n - trimLen xs) (xs.length - trimLen xs)) 0 := by
    conv_lhs => rw [eq_take_append_zeros xs]
    rw [List.take_append, length_take_trimLen, List.take_take, Nat.min_eq_right h, List.take_replicate]
  rw [e, trimLen_append_zeros, trimLen_of_top (getLast_take_trimLen xs), length_take_trimLen]

theorem trimLen_le_of_val {xs : List Nat} {n : Nat} (h : val xs < 𝔹 ^ n) : trimLen xs ≤ n := by
  induction xs generalizing n with
  | nil => exact Nat.zero_le _
  | cons x xs ih =>
    rw [val_cons] at h
    cases n with
    | zero =>
      have h0 : val (x :: xs) = 0 := by rw [val_cons]; rw [Nat.pow_zero] at h; omega
      rw [trimLen_eq_zero.2 h0]
    | succ n =>
      have := ih (n := n) (by rw [Nat.pow_succ] at h; omega)
      simp only [trimLen]
      split_ifs <;> omega

theorem actualLength_ok {xs : List Nat} {n : Nat} (h : n ≤ xs.length) (h2 : trimLen xs ≤ n) :
    actualLength xs n = .ok (trimLen xs) := by
  unfold actualLength
  rw [slice_prefix h, Res.ok_bind, trimLen_take h2]

/-! ### buffers -/

/-- A buffer of `N` words holding `x`, with the length of `x` and zeros above. -/
structure Buf (N : Nat) (b : BitsBuffer) (x : Nat) : Prop where
  size : b.bits.length = N
  words : WordsOk b.bits
  value : val b.bits = x
  len : b.length = trimLen b.bits

namespace Buf
variable {N : Nat} {b : BitsBuffer} {x : Nat}

theorem len_le_size (h : Buf N b x) : b.length ≤ N := by rw [h.len, ← h.size]; exact trimLen_le _
theorem len_le (h : Buf N b x) {k : Nat} (hx : x < 𝔹 ^ k) : b.length ≤ k := by
  rw [h.len]; exact trimLen_le_of_val (by rw [h.value]; exact hx)
theorem slice (h : Buf N b x) : BigIntegerCpp.slice b.bits 0 b.length = .ok (b.bits.take b.length) :=
  slice_prefix (by rw [h.size]; exact h.len_le_size)
theorem val_take (h : Buf N b x) : val (b.bits.take b.length) = x := by
  rw [h.len, val_take_trimLen, h.value]
theorem drop (h : Buf N b x) : b.bits.drop b.length = List.replicate (N - b.length) 0 := by
  rw [h.len, drop_trimLen, h.size]
theorem lt_len (h : Buf N b x) : x < 𝔹 ^ b.length := by
  have := val_lt (h.words.take b.length)
  rw [h.val_take, List.length_take_of_le (by rw [h.size]; exact h.len_le_size)] at this
  exact this

end Buf

namespace BitsBuffer

theorem ofWord_spec {N w : Nat} (hN : 0 < N) (hw : w < 4294967296) : ∃ b, ofWord N w = .ok b ∧ Buf N b w := by
  cases N with
  | zero => omega
  | succ n =>
    refine ⟨⟨w :: List.replicate n 0, if w ≠ 0 then 1 else 0⟩, ?_, ?_⟩
    · unfold ofWord put
      rw [if_pos (by simp), Res.ok_bind]
      simp [List.replicate_succ]
    · refine ⟨by simp, wordsOk_cons.2 ⟨hw, wordsOk_replicate_zero n⟩, by rw [val_cons, val_replicate_zero]; simp, ?_⟩
      have h0 : trimLen (List.replicate n 0) = 0 := trimLen_eq_zero.2 (val_replicate_zero n)
      simp only [trimLen, h0, if_true]
      by_cases h : w = 0 <;> simp [h]

theorem ofWord_zero {N : Nat} (hN : 0 < N) : ∃ b, ofWord N 0 = .ok b ∧ b.bits = List.replicate N 0 := by
  cases N with
  | zero => omega
  | succ n =>
    refine ⟨⟨0 :: List.replicate n 0, 0⟩, ?_, ?_⟩
    · unfold ofWord put
      rw [if_pos (by simp), Res.ok_bind]
      simp [List.replicate_succ]
    · simp [List.replicate_succ]

theorem ofWords_spec {N : Nat} {v : List Nat} (hw : WordsOk v) (hl : v.length < 2147483648) (hN : trimLen v ≤ N) :
    ∃ b, ofWords N v = .ok b ∧ Buf N b (val v) := by
  refine ⟨⟨v.take (trimLen v) ++ List.replicate (N - trimLen v) 0, trimLen v⟩, ?_, ?_⟩
  · unfold ofWords
    rw [sizeInt_ok hl, Res.ok_bind]
    dsimp only
    rw [if_pos hN]
  · refine ⟨?_, wordsOk_append.2 ⟨hw.take _, wordsOk_replicate_zero _⟩, ?_, ?_⟩
    · rw [List.length_append, length_take_trimLen, List.length_replicate]; omega
    · rw [val_append, val_replicate_zero, val_take_trimLen]; simp
    · dsimp only
      rw [trimLen_append_zeros, trimLen_of_top (getLast_take_trimLen v), length_take_trimLen]

theorem multiplyMem_spec {left right : List Nat} {nl nr N : Nat} (hl : WordsOk left) (hr : WordsOk right)
    (h1 : nl ≤ left.length) (h2 : nr ≤ right.length) (h3 : nr ≤ nl) (h4 : nl + nr ≤ N) :
    ∃ o, multiplyMem left nl right nr (List.replicate N 0) (nl + nr) = .ok o ∧ o.length = N ∧ WordsOk o ∧
      val o = val (left.take nl) * val (right.take nr) := by
  obtain ⟨o, e, k1, k2, k3⟩ := mulCore_spec nr (left := left.take nl) (right := right.take nr) (hl.take _) (hr.take _)
    (List.length_take_of_le h2) (by rw [List.length_take_of_le h1]; exact h3)
  rw [List.length_take_of_le h1] at e k1
  refine ⟨o ++ List.replicate (N - (nl + nr)) 0, ?_, ?_, wordsOk_append.2 ⟨k2, wordsOk_replicate_zero _⟩, ?_⟩
  · unfold multiplyMem
    rw [slice_prefix h1, Res.ok_bind, slice_prefix h2, Res.ok_bind, slice_prefix (by simpa using h4), Res.ok_bind,
      List.take_replicate, Nat.min_eq_left h4, e, Res.ok_bind, List.drop_replicate]
  · rw [List.length_append, k1, List.length_replicate]; omega
  · rw [val_append, val_replicate_zero, k3]; simp

theorem apply_spec {N : Nat} {self temp : BitsBuffer} {x y k : Nat} (hs : Buf N self x) (h1 : temp.bits.length = N)
    (h2 : WordsOk temp.bits) (h3 : val temp.bits = y) (h4 : y < 𝔹 ^ k) (hk : k ≤ N) :
    ∃ r t, apply self temp k = .ok (r, t) ∧ Buf N r y ∧ t.bits = List.replicate N 0 := by
  have ht : trimLen temp.bits ≤ k := trimLen_le_of_val (by rw [h3]; exact h4)
  refine ⟨⟨temp.bits, trimLen temp.bits⟩, ⟨List.replicate N 0, temp.length⟩, ?_, ⟨h1, h2, h3, rfl⟩, rfl⟩
  unfold apply
  rw [hs.slice, Res.ok_bind, actualLength_ok (by omega) ht, Res.ok_bind, hs.drop, List.replicate_append_replicate,
    Nat.add_sub_cancel' hs.len_le_size]

theorem multiplySelf_spec {N : Nat} {self value temp : BitsBuffer} {x y : Nat} (hs : Buf N self x) (hv : Buf N value y)
    (ht : temp.bits = List.replicate N 0) (hl : self.length + value.length ≤ N) :
    ∃ r t, multiplySelf self value temp = .ok (r, t) ∧ Buf N r (x * y) ∧ t.bits = List.replicate N 0 := by
  have hlt : x * y < 𝔹 ^ (self.length + value.length) := by
    rw [Nat.pow_add]; exact Nat.mul_lt_mul'' hs.lt_len hv.lt_len
  have key : ∃ o, (if self.length < value.length then
      multiplyMem value.bits value.length self.bits self.length temp.bits (self.length + value.length)
    else
      multiplyMem self.bits self.length value.bits value.length temp.bits (self.length + value.length)) = .ok o ∧
      o.length = N ∧ WordsOk o ∧ val o = x * y := by
    rw [ht]
    by_cases h : self.length < value.length
    · rw [if_pos h, Nat.add_comm self.length]
      obtain ⟨o, e, k1, k2, k3⟩ := multiplyMem_spec (nl := value.length) (nr := self.length) hv.words hs.words (by rw [hv.size]; exact hv.len_le_size)
        (by rw [hs.size]; exact hs.len_le_size) (le_of_lt h) (N := N) (by omega)
      exact ⟨o, e, k1, k2, by rw [k3, hs.val_take, hv.val_take, Nat.mul_comm]⟩
    · rw [if_neg h]
      obtain ⟨o, e, k1, k2, k3⟩ := multiplyMem_spec (nl := self.length) (nr := value.length) hs.words hv.words (by rw [hs.size]; exact hs.len_le_size)
        (by rw [hv.size]; exact hv.len_le_size) (by omega) (N := N) (by omega)
      exact ⟨o, e, k1, k2, by rw [k3, hs.val_take, hv.val_take]⟩
  obtain ⟨o, e, k1, k2, k3⟩ := key
  unfold multiplySelf
  rw [e, Res.ok_bind]
  exact apply_spec hs k1 k2 k3 hlt hl

theorem squareSelf_spec {N : Nat} {self temp : BitsBuffer} {x : Nat} (hs : Buf N self x)
    (ht : temp.bits = List.replicate N 0) (hl : self.length + self.length ≤ N) :
    ∃ r t, squareSelf self temp = .ok (r, t) ∧ Buf N r (x * x) ∧ t.bits = List.replicate N 0 := by
  have hlt : x * x < 𝔹 ^ (self.length + self.length) := by
    rw [Nat.pow_add]; exact Nat.mul_lt_mul'' hs.lt_len hs.lt_len
  obtain ⟨o, e, k1, k2, k3⟩ := sqCore_spec self.length (hs.words.take self.length)
    (List.length_take_of_le (by rw [hs.size]; exact hs.len_le_size))
    (bits := List.replicate (self.length + self.length) 0) (by simp)
  unfold squareSelf
  rw [hs.slice, Res.ok_bind, ht, slice_prefix (by simpa using hl), Res.ok_bind, List.take_replicate,
    Nat.min_eq_left hl, e, Res.ok_bind, List.drop_replicate]
  refine apply_spec hs ?_ (wordsOk_append.2 ⟨k2, wordsOk_replicate_zero _⟩) ?_ hlt hl
  · rw [List.length_append, k1, List.length_replicate]; omega
  · rw [val_append, val_replicate_zero, k3, hs.val_take]; simp

theorem reduce_spec {N : Nat} {self : BitsBuffer} {x : Nat} {m : List Nat} (hs : Buf N self x) (hw : WordsOk m)
    (hne : m ≠ []) (htop : m.getLast? ≠ some 0) : ∃ b, reduce self m = .ok b ∧ Buf N b (x % val m) := by
  unfold reduce
  have hsl := hs.len_le_size
  by_cases h : self.length ≥ m.length
  · rw [if_pos h, hs.slice, Res.ok_bind]
    have hlen : (self.bits.take self.length).length = self.length := List.length_take_of_le (by rw [hs.size]; exact hsl)
    obtain ⟨l, q, e, k1, k2, k3, -⟩ := divideCore_spec (bits := []) (hs.words.take self.length) hw hne htop
      (by rw [hlen]; exact h) (.inl rfl)
    rw [hlen] at k1
    rw [hs.val_take] at k3
    rw [e, Res.ok_bind]
    dsimp only
    rw [hs.drop]
    have hm : 0 < val m := by
      have := BigInt.val_lt_of_length (xs := []) wordsOk_nil hne htop (List.length_pos_iff.2 hne)
      simpa using this
    have hv : val (l ++ List.replicate (N - self.length) 0) = x % val m := by
      rw [val_append, val_replicate_zero, k3]; simp
    have hlt : x % val m < 𝔹 ^ m.length := lt_trans (Nat.mod_lt _ hm) (val_lt hw)
    have hL : (l ++ List.replicate (N - self.length) 0).length = N := by
      rw [List.length_append, k1, List.length_replicate]; omega
    rw [actualLength_ok (by rw [hL]; omega) (trimLen_le_of_val (by rw [hv]; exact hlt)), Res.ok_bind]
    exact ⟨_, rfl, hL, wordsOk_append.2 ⟨k2, wordsOk_replicate_zero _⟩, hv, rfl⟩
  · rw [if_neg h]
    refine ⟨self, rfl, ?_⟩
    have hlt : x < val m := by
      rw [← hs.val_take]
      exact BigInt.val_lt_of_length (hs.words.take _) hne htop
        (by rw [List.length_take_of_le (by rw [hs.size]; exact hsl)]; omega)
    rw [Nat.mod_eq_of_lt hlt]
    exact hs

end BitsBuffer

/-! ### `pow` -/

theorem powBound_spec (p : Nat) {l r : Nat} (hr : r < 2147483647) :
    powBound p l r = if r + p * l < 2147483647 then .ok (r + p * l) else .throw .overflowError := by
  induction p using Nat.strongRecOn generalizing l r with
  | ind p ih =>
  rw [powBound]
  by_cases h0 : p = 0
  · subst h0
    rw [dif_pos rfl, if_pos (by omega)]; simp
  rw [dif_neg h0]
  have hdiv := Nat.div_add_mod p 2
  have hpl : p * l = (p / 2) * (l + l) + (p % 2) * l := by
    conv_lhs => rw [← hdiv]
    ring
  by_cases h1 : p % 2 = 1
  · rw [h1, one_mul] at hpl
    rw [if_pos h1]
    by_cases h2 : l < 2147483647 - r
    · rw [if_pos h2, Res.ok_bind]
      by_cases h3 : p = 1
      · subst h3
        rw [if_neg (by simp), Res.ok_bind, ih _ (by omega) (by omega)]
        have e : r + l + 1 / 2 * l = r + 1 * l := by omega
        rw [e]
      · rw [if_pos h3]
        by_cases h4 : l < 2147483647 - l
        · rw [if_pos h4, Res.ok_bind, ih _ (by omega) (by omega)]
          have e : r + l + p / 2 * (l + l) = r + p * l := by rw [hpl]; ring
          rw [e]
        · have : 2 * l ≤ p * l := Nat.mul_le_mul_right _ (by omega)
          rw [if_neg h4, if_neg (by omega)]; rfl
    · have : 1 * l ≤ p * l := Nat.mul_le_mul_right _ (by omega)
      rw [if_neg h2, Res.throw_bind, if_neg (show ¬ r + p * l < 2147483647 by omega)]
  · have h1' : p % 2 = 0 := by omega
    rw [h1', zero_mul, add_zero] at hpl
    rw [if_neg h1, Res.ok_bind, if_pos (by omega)]
    by_cases h4 : l < 2147483647 - l
    · rw [if_pos h4, Res.ok_bind, ih _ (by omega) (by omega), hpl]
    · have : 2 * l ≤ p * l := Nat.mul_le_mul_right _ (by omega)
      rw [if_neg h4, if_neg (by omega)]; rfl

theorem pow_split (v p : Nat) : v ^ p = (v * v) ^ (p / 2) * v ^ (p % 2) := by
  conv_lhs => rw [← Nat.div_add_mod p 2, pow_add, pow_mul, pow_two]

theorem powLoop_id {N : Nat} (p : Nat) {value result temp : BitsBuffer} {v r V R : Nat} (hv : Buf N value v)
    (hr : Buf N result r) (ht : temp.bits = List.replicate N 0) (h1 : v < 𝔹 ^ V) (h2 : r < 𝔹 ^ R)
    (h3 : R + p * V ≤ N) :
    ∃ b, powLoop (fun b => .ok b) p value result temp = .ok b ∧ Buf N b (r * v ^ p) := by
  induction p using Nat.strongRecOn generalizing value result temp v r V R with
  | ind p ih =>
  rw [powLoop]
  by_cases h0 : p = 0
  · subst h0
    rw [dif_pos rfl]
    exact ⟨_, rfl, by simpa using hr⟩
  rw [dif_neg h0]
  have hdiv := Nat.div_add_mod p 2
  have hpl : p * V = (p / 2) * (V + V) + (p % 2) * V := by
    conv_lhs => rw [← hdiv]
    ring
  have hvl := hv.len_le h1
  have hrl := hr.len_le h2
  -- the multiplication
  obtain ⟨res, tmp, R', e1, b1, b2, b3, b4⟩ : ∃ res tmp R', (if p % 2 = 1 then do
        let (r, t) ← result.multiplySelf value temp
        let r ← (fun b => .ok b : BitsBuffer → Res BitsBuffer) r
        .ok (r, t)
      else .ok (result, temp)) = .ok (res, tmp) ∧ Buf N res (r * v ^ (p % 2)) ∧ tmp.bits = List.replicate N 0 ∧
        r * v ^ (p % 2) < 𝔹 ^ R' ∧ R' = R + p % 2 * V := by
    by_cases h : p % 2 = 1
    · have hp : 1 * V ≤ p * V := Nat.mul_le_mul_right _ (by omega)
      obtain ⟨a, t, e, k1, k2⟩ := BitsBuffer.multiplySelf_spec hr hv ht (by omega)
      refine ⟨a, t, R + V, ?_, by rw [h, pow_one]; exact k1, k2, ?_, by rw [h]; omega⟩
      · rw [if_pos h, e]; rfl
      · rw [h, pow_one, pow_add]; exact Nat.mul_lt_mul'' h2 h1
    · have h' : p % 2 = 0 := by omega
      exact ⟨result, temp, R, by rw [if_neg h], by rw [h']; simpa using hr, ht, by rw [h']; simpa using h2, by rw [h']; omega⟩
  rw [e1, Res.ok_bind]
  dsimp only
  by_cases hp1 : p = 1
  · subst hp1
    rw [if_neg (by simp), Res.ok_bind]
    obtain ⟨b, e, k⟩ := ih (1 / 2) (by omega) hv b1 b2 h1 b3 (by omega)
    exact ⟨b, e, by simpa using k⟩
  · rw [if_pos hp1]
    have hp : 2 * V ≤ p * V := Nat.mul_le_mul_right _ (by omega)
    obtain ⟨a, t, e, k1, k2⟩ := BitsBuffer.squareSelf_spec hv b2 (by omega)
    rw [e, Res.ok_bind]
    dsimp only
    rw [Res.ok_bind, Res.ok_bind]
    obtain ⟨b, e, k⟩ := ih (p / 2) (by omega) k1 b1 k2 (V := V + V)
      (by rw [pow_add]; exact Nat.mul_lt_mul'' h1 h1) b3 (by omega)
    refine ⟨b, e, ?_⟩
    rw [pow_split v p, mul_comm ((v * v) ^ (p / 2)), ← mul_assoc]
    exact k

theorem powCalc_spec {mk : Nat → Res BitsBuffer} {v len p : Nat} (hp : 1 ≤ p) (hv : v < 𝔹 ^ len)
    (hmk : ∀ N, 0 < N → len ≤ N → ∃ b, mk N = .ok b ∧ Buf N b v) :
    if 1 + p * len < 2147483647 then
      ∃ bits, powCalc mk len p = .ok bits ∧ bits.length < 2147483648 ∧ WordsOk bits ∧ val bits = v ^ p
    else powCalc mk len p = .throw .overflowError := by
  unfold powCalc
  rw [powBound_spec p (by decide)]
  by_cases h : 1 + p * len < 2147483647
  · rw [if_pos h, if_pos h, Res.ok_bind]
    have hl : 1 * len ≤ p * len := Nat.mul_le_mul_right _ hp
    obtain ⟨b, e1, k1⟩ := hmk (1 + p * len) (by omega) (by omega)
    obtain ⟨t, e2, k2⟩ := BitsBuffer.ofWord_zero (N := 1 + p * len) (by omega)
    obtain ⟨r, e3, k3⟩ := BitsBuffer.ofWord_spec (N := 1 + p * len) (w := 1) (by omega) (by decide)
    obtain ⟨o, e4, k4⟩ := powLoop_id p k1 k3 k2 hv (R := 1) (by decide) (le_refl _)
    rw [e1, Res.ok_bind, e2, Res.ok_bind, e3, Res.ok_bind, e4, Res.ok_bind]
    exact ⟨_, rfl, by rw [k4.size]; omega, k4.words, by rw [k4.value, one_mul]⟩
  · rw [if_neg h, if_neg h]; rfl

theorem pow_natAbs (x : Int) (n : Nat) :
    x ^ n = if (decide (x < 0) && decide (n % 2 ≠ 0)) then -((x.natAbs ^ n : Nat) : Int) else ((x.natAbs ^ n : Nat) : Int) := by
  by_cases hx : x < 0
  · have e : x = -(x.natAbs : Int) := by omega
    by_cases hn : n % 2 = 0
    · have hev : Even n := Nat.even_iff.2 hn
      simp only [hx, hn, decide_true, ne_eq, not_true_eq_false, decide_false, Bool.and_false, Bool.false_eq_true, if_false]
      conv_lhs => rw [e]
      rw [hev.neg_pow]; push_cast; rfl
    · have hod : Odd n := Nat.odd_iff.2 (by omega)
      simp only [hx, hn, decide_true, ne_eq, not_false_eq_true, Bool.and_self, if_true]
      conv_lhs => rw [e]
      rw [hod.neg_pow]; push_cast; rfl
  · have e : x = (x.natAbs : Int) := by omega
    simp only [hx, decide_false, Bool.false_and, Bool.false_eq_true, if_false]
    conv_lhs => rw [e]
    push_cast; rfl

namespace BigInt

/-- The word count `pow` uses for its bound: one for values in the `int` range. -/
theorem pow_spec {a : BigInt} {x : Int} (ha : a.Denotes x) (hl : a.bits.length < 2147483648) {n : Nat}
    (hn : n < 2147483648) :
    if (n ≤ 1 ∨ x.natAbs ≤ 1) ∨ 1 + n * Max.max 1 a.bits.length < 2147483647 then Returns (a.pow n) (x ^ n)
    else a.pow n = .throw .overflowError := by
  have hsn := ha.sign_neg
  unfold pow
  rw [if_neg (show ¬ (n : Int) < 0 by omega), ha.assertValid, Res.ok_bind]
  by_cases h0 : n = 0
  · subst h0
    rw [if_pos (.inl (.inl (by omega))), if_pos (by simp)]
    exact returns_ok (by simpa using denotes_one)
  rw [if_neg (show ¬ (n : Int) = 0 by omega)]
  by_cases h1 : n = 1
  · subst h1
    rw [if_pos (.inl (.inl (by omega))), if_pos (by simp)]
    exact returns_ok (by simpa using ha)
  rw [if_neg (show ¬ (n : Int) = 1 by omega)]
  have hmod : (decide ((n : Int) % 2 ≠ 0)) = decide (n % 2 ≠ 0) := by
    by_cases h : n % 2 = 0
    · have : (n : Int) % 2 = 0 := by omega
      simp [h, this]
    · have : (n : Int) % 2 ≠ 0 := by omega
      simp [h, this]
  have hneg : decide (a.sign < 0 ∧ (n : Int) % 2 ≠ 0) = (decide (x < 0) && decide (n % 2 ≠ 0)) := by
    rw [Bool.decide_and, hmod]
    congr 1
    exact decide_eq_decide.2 hsn
  rw [hneg, Int.toNat_natCast]
  have fin : ∀ (c : Res (List Nat)) (L : Nat), (if 1 + n * L < 2147483647 then
        ∃ bits, c = .ok bits ∧ bits.length < 2147483648 ∧ WordsOk bits ∧ val bits = x.natAbs ^ n
        else c = .throw .overflowError) → ¬ x.natAbs ≤ 1 →
      if (n ≤ 1 ∨ x.natAbs ≤ 1) ∨ 1 + n * L < 2147483647 then
        Returns (do let bits ← c; ofMagnitude bits (decide (x < 0) && decide (n % 2 ≠ 0))) (x ^ n)
      else (do let bits ← c; ofMagnitude bits (decide (x < 0) && decide (n % 2 ≠ 0))) = .throw .overflowError := by
    intro c L hc hx
    by_cases h : 1 + n * L < 2147483647
    · rw [if_pos h] at hc
      obtain ⟨bits, rfl, b1, b2, b3⟩ := hc
      rw [if_pos (.inr h), Res.ok_bind]
      exact returns_ofMagnitude b2 b1 (by rw [b3]; exact pow_natAbs x n)
    · rw [if_neg h] at hc
      rw [if_neg (by omega), hc]; rfl
  rcases ha.shape with ⟨rfl, k1, k2⟩ | ⟨s, ws, rfl, hs, hne, hw, ht, hv, rfl⟩
  · simp only [true_and, if_true]
    by_cases e1 : x = 1
    · subst e1
      rw [if_pos (.inl (.inr (by decide))), if_pos rfl]
      exact returns_ok (by rw [one_pow]; exact denotes_one)
    rw [if_neg e1]
    by_cases e2 : x = -1
    · subst e2
      rw [if_pos (.inl (.inr (by decide))), if_pos rfl]
      refine returns_ok ?_
      by_cases h : n % 2 = 0
      · rw [if_neg (by omega), Even.neg_one_pow (Nat.even_iff.2 h)]; exact denotes_one
      · rw [if_pos (by omega), Odd.neg_one_pow (Nat.odd_iff.2 (by omega))]; exact denotes_minusOne
    rw [if_neg e2]
    by_cases e3 : x = 0
    · subst e3
      rw [if_pos (.inl (.inr (by decide))), if_pos rfl]
      exact returns_ok (by rw [zero_pow h0]; exact denotes_zero)
    rw [if_neg e3, cabs_ok (by omega), Res.ok_bind]
    refine fin _ 1 (powCalc_spec (by omega) (by omega) ?_) (by omega)
    intro N hN _
    exact BitsBuffer.ofWord_spec hN (by omega)
  · simp only [hne, false_and, if_false]
    have hlen : 1 ≤ ws.length := List.length_pos_iff.2 hne
    rw [sizeInt_ok hl, Res.ok_bind, Nat.max_eq_right hlen]
    have hab := natAbs_unit_mul hs (val ws)
    refine fin _ ws.length ?_ (by omega)
    rw [hab]
    refine powCalc_spec (by omega) (val_lt hw) ?_
    intro N _ hN
    exact BitsBuffer.ofWords_spec hw hl (le_trans (trimLen_le _) hN)

end BigInt
end BigIntegerCpp
