import Verif.Model.Long32Pow
import Verif.Lemmas.Long32
import Verif.Lemmas.FastReducer
/-
`pow` and `mod_pow` where `long` has 32 bits.
-/
set_option linter.unusedSectionVars false
namespace BigIntegerCpp.Long32
variable [Cfg]

/-! ### buffers -/

omit [Cfg] in
theorem pow31 : (2 : Nat) ^ 992 = 𝔹 ^ 31 := by rw [show 𝔹 = 2 ^ 32 from rfl, ← Nat.pow_mul]

theorem buf_short {N : Nat} {b : BitsBuffer} {x : Nat} (h : Buf N b x) (hx : ¬ 2 ^ 992 ≤ x) : b.length < 32 := by
  rw [pow31] at hx
  have := h.len_le (k := 31) (by omega)
  omega

theorem buf_long {N : Nat} {b : BitsBuffer} {x : Nat} (h : Buf N b x) (hx : 2 ^ 992 ≤ x) : 32 ≤ b.length := by
  rw [pow31] at hx
  by_contra hc
  have h1 := h.lt_len
  have : 𝔹 ^ b.length ≤ 𝔹 ^ 31 := Nat.pow_le_pow_right (by decide) (by omega)
  omega

theorem multiplyMem_eq {left right bits : List Nat} {nl nr n : Nat} (h : nr < 32) :
    multiplyMem left nl right nr bits n = BitsBuffer.multiplyMem left nl right nr bits n := by
  unfold multiplyMem BitsBuffer.multiplyMem
  simp only [mulCore_eq h]

theorem multiplyMem_ub {left right : List Nat} {nl nr N : Nat} (hl : WordsOk left) (hr : WordsOk right)
    (h1 : nl ≤ left.length) (h2 : nr ≤ right.length) (h3 : nr ≤ nl) (h4 : nl + nr ≤ N) (h32 : 32 ≤ nr) :
    multiplyMem left nl right nr (List.replicate N 0) (nl + nr) = .ub .badShift := by
  have e := mulCore_ub nr (left := left.take nl) (right := right.take nr) (hl.take _) (hr.take _)
    (List.length_take_of_le h2) (by rw [List.length_take_of_le h1]; exact h3) h32
  rw [List.length_take_of_le h1] at e
  unfold multiplyMem
  rw [slice_prefix h1, Res.ok_bind, slice_prefix h2, Res.ok_bind, slice_prefix (by simpa using h4), Res.ok_bind,
    List.take_replicate, Nat.min_eq_left h4, e]
  rfl

theorem multiplySelf_eq {self value temp : BitsBuffer} (h : self.length < 32 ∨ value.length < 32) :
    multiplySelf self value temp = self.multiplySelf value temp := by
  unfold multiplySelf BitsBuffer.multiplySelf
  by_cases hlt : self.length < value.length
  · rw [if_pos hlt, if_pos hlt, multiplyMem_eq (by omega)]
  · rw [if_neg hlt, if_neg hlt, multiplyMem_eq (by omega)]

theorem squareSelf_eq {self temp : BitsBuffer} (h : self.length < 32) : squareSelf self temp = self.squareSelf temp := by
  unfold squareSelf BitsBuffer.squareSelf
  simp only [sqCore_eq h]

theorem multiplySelf_ub {N : Nat} {self value temp : BitsBuffer} {x y : Nat} (hs : Buf N self x) (hv : Buf N value y)
    (ht : temp.bits = List.replicate N 0) (hl : self.length + value.length ≤ N) (h1 : 32 ≤ self.length) (h2 : 32 ≤ value.length) :
    multiplySelf self value temp = .ub .badShift := by
  have a1 : self.length ≤ self.bits.length := by rw [hs.size]; exact hs.len_le_size
  have a2 : value.length ≤ value.bits.length := by rw [hv.size]; exact hv.len_le_size
  unfold multiplySelf
  rw [ht]
  by_cases hlt : self.length < value.length
  · rw [if_pos hlt, Nat.add_comm self.length, multiplyMem_ub hv.words hs.words a2 a1 (by omega) (by omega) h1]
    rfl
  · rw [if_neg hlt, multiplyMem_ub hs.words hv.words a1 a2 (by omega) (by omega) h2]
    rfl

theorem squareSelf_ub {N : Nat} {self temp : BitsBuffer} {x : Nat} (hs : Buf N self x)
    (ht : temp.bits = List.replicate N 0) (hl : self.length + self.length ≤ N) (h1 : 32 ≤ self.length) :
    squareSelf self temp = .ub .badShift := by
  unfold squareSelf
  rw [hs.slice, Res.ok_bind, ht, slice_prefix (by simpa using hl), Res.ok_bind, List.take_replicate, Nat.min_eq_left hl,
    sqCore_ub self.length (hs.words.take self.length)
      (List.length_take_of_le (by rw [hs.size]; exact hs.len_le_size)) (by simp) h1]
  rfl

/-! ### when a product of two long factors is met -/

/-- Square-and-multiply from `v` and `r` meets a product of two factors of `H` or more. -/
def Bad (H p v r : Nat) : Prop :=
  if _h : p = 0 then False
  else (p % 2 = 1 ∧ H ≤ r ∧ H ≤ v) ∨ (p ≠ 1 ∧ H ≤ v) ∨ Bad H (p / 2) (v * v) (r * v ^ (p % 2))
termination_by p

omit [Cfg] in
theorem bad_iff {H : Nat} (L : Nat) {p v r : Nat} (hv : 1 ≤ v) (h1 : 2 ^ L ≤ p) (h2 : p < 2 ^ (L + 1)) :
    Bad H p v r ↔ (1 ≤ L ∧ H ≤ v ^ (2 ^ (L - 1))) ∨ (H ≤ v ^ (2 ^ L) ∧ H ≤ r * v ^ (p - 2 ^ L)) := by
  induction L generalizing p v r with
  | zero =>
    have : p = 1 := by omega
    subst this
    rw [Bad, dif_neg (by decide), Bad, dif_pos (by decide)]
    simp
    tauto
  | succ L ih =>
    have hp2 : 2 ≤ p := le_trans (by rw [Nat.pow_succ]; have := Nat.one_le_two_pow (n := L); omega) h1
    have hd := Nat.div_add_mod p 2
    rw [Bad, dif_neg (by omega)]
    have a1 : 2 ^ L ≤ p / 2 := by rw [Nat.pow_succ] at h1; omega
    have a2 : p / 2 < 2 ^ (L + 1) := by rw [Nat.pow_succ] at h2; omega
    rw [ih (Nat.mul_pos hv hv) a1 a2]
    have e1 : (v * v) ^ (2 ^ L) = v ^ (2 ^ (L + 1)) := by
      rw [← pow_two, ← pow_mul, Nat.pow_succ, Nat.mul_comm]
    have e2 : r * v ^ (p % 2) * (v * v) ^ (p / 2 - 2 ^ L) = r * v ^ (p - 2 ^ (L + 1)) := by
      rw [← pow_two, ← pow_mul, mul_assoc, ← pow_add]
      congr 2
      rw [Nat.pow_succ]
      omega
    rw [e1, e2, Nat.add_sub_cancel]
    have m1 : v ≤ v ^ (2 ^ L) := Nat.le_self_pow (by positivity) v
    cases L with
    | zero =>
      simp only [Nat.pow_zero, pow_one]
      have : p ≠ 1 := by omega
      simp only [this, ne_eq, not_false_eq_true, true_and]
      constructor
      · rintro (h | h | h | h)
        · exact .inl ⟨le_refl _, h.2.2⟩
        · exact .inl ⟨le_refl _, h⟩
        · omega
        · exact .inr h
      · rintro (h | h)
        · exact .inr (.inl h.2)
        · exact .inr (.inr (.inr h))
    | succ K =>
      have e3 : (v * v) ^ (2 ^ K) = v ^ (2 ^ (K + 1)) := by
        rw [← pow_two, ← pow_mul, Nat.pow_succ, Nat.mul_comm]
      rw [Nat.add_sub_cancel, e3]
      constructor
      · rintro (h | h | h | h)
        · exact .inl ⟨by omega, h.2.2.trans m1⟩
        · exact .inl ⟨by omega, h.2.trans m1⟩
        · exact .inl ⟨by omega, h.2⟩
        · exact .inr h
      · rintro (h | h)
        · exact .inr (.inr (.inl ⟨by omega, h.2⟩))
        · exact .inr (.inr (.inr h))

/-- From `r = 1`. -/
theorem bad_one_iff {H L p v : Nat} (hH : 2 ≤ H) (h1 : 2 ^ L ≤ p) (h2 : p < 2 ^ (L + 1)) :
    Bad H p v 1 ↔ 1 ≤ L ∧ (H ≤ v ^ (2 ^ (L - 1)) ∨ H ≤ v ^ (p - 2 ^ L)) := by
  rcases Nat.eq_zero_or_pos v with hv | hv
  · subst hv
    have z1 : ∀ k, ¬ H ≤ 0 ^ k := fun k => by
      have := npow_le_one (v := 0) (by omega) k
      omega
    have z2 : ∀ q r, r ≤ 1 → ¬ Bad H q 0 r := by
      intro q
      induction q using Nat.strongRecOn with
      | ind q ih =>
        intro r hr
        rw [Bad]
        by_cases hq : q = 0
        · rw [dif_pos hq]; exact id
        rw [dif_neg hq]
        have := ih (q / 2) (by omega) (r * 0 ^ (q % 2)) (le_trans (nmul_le_right (npow_le_one (by omega) _)) hr)
        rintro (h | h | h)
        · omega
        · omega
        · exact this h
    simp only [z1, z2 p 1 (le_refl _), false_iff]
    tauto
  rw [bad_iff L hv h1 h2, one_mul]
  have hm : v ^ (p - 2 ^ L) ≤ v ^ (2 ^ L) := Nat.pow_le_pow_right hv (by rw [Nat.pow_succ] at h2; omega)
  constructor
  · rintro (h | h)
    · exact ⟨h.1, .inl h.2⟩
    · refine ⟨?_, .inr h.2⟩
      by_contra hc
      have : L = 0 := by omega
      subst this
      have : p = 1 := by omega
      subst this
      simp at h
      omega
  · rintro ⟨h, h' | h'⟩
    · exact .inl ⟨h, h'⟩
    · exact .inr ⟨h'.trans hm, h'⟩

/-! ### `pow` -/

theorem powLoop_id {N : Nat} (p : Nat) {value result temp : BitsBuffer} {v r V R : Nat} (hv : Buf N value v)
    (hr : Buf N result r) (ht : temp.bits = List.replicate N 0) (h1 : v < 𝔹 ^ V) (h2 : r < 𝔹 ^ R)
    (h3 : R + p * V ≤ N) :
    (¬ Bad (2 ^ 992) p v r → ∃ b, powLoop (fun b => .ok b) p value result temp = .ok b ∧ Buf N b (r * v ^ p)) ∧
    (Bad (2 ^ 992) p v r → powLoop (fun b => .ok b) p value result temp = .ub .badShift) := by
  induction p using Nat.strongRecOn generalizing value result temp v r V R with
  | ind p ih =>
  rw [powLoop, Bad]
  by_cases h0 : p = 0
  · subst h0
    rw [dif_pos rfl, dif_pos rfl]
    exact ⟨fun _ => ⟨_, rfl, by simpa using hr⟩, fun h => h.elim⟩
  rw [dif_neg h0, dif_neg h0]
  have hdiv := Nat.div_add_mod p 2
  have hpl : p * V = (p / 2) * (V + V) + (p % 2) * V := by
    conv_lhs => rw [← hdiv]
    ring
  have hvl := hv.len_le h1
  have hrl := hr.len_le h2
  have hp : 1 * V ≤ p * V := Nat.mul_le_mul_right _ (by omega)
  by_cases c1 : p % 2 = 1 ∧ 2 ^ 992 ≤ r ∧ 2 ^ 992 ≤ v
  · refine ⟨fun h => (h (.inl c1)).elim, fun _ => ?_⟩
    rw [if_pos c1.1, multiplySelf_ub hr hv ht (by omega) (buf_long hr c1.2.1) (buf_long hv c1.2.2)]
    rfl
  -- the multiplication
  obtain ⟨res, tmp, R', e1, b1, b2, b3, b4⟩ : ∃ res tmp R', (if p % 2 = 1 then do
        let (r, t) ← multiplySelf result value temp
        let r ← (fun b => .ok b : BitsBuffer → Res BitsBuffer) r
        .ok (r, t)
      else .ok (result, temp)) = .ok (res, tmp) ∧ Buf N res (r * v ^ (p % 2)) ∧ tmp.bits = List.replicate N 0 ∧
        r * v ^ (p % 2) < 𝔹 ^ R' ∧ R' = R + p % 2 * V := by
    by_cases h : p % 2 = 1
    · obtain ⟨a, t, e, k1, k2⟩ := BitsBuffer.multiplySelf_spec hr hv ht (by omega)
      refine ⟨a, t, R + V, ?_, by rw [h, pow_one]; exact k1, k2, ?_, by rw [h]; omega⟩
      · rw [if_pos h, multiplySelf_eq, e]
        · rfl
        by_cases c : 2 ^ 992 ≤ r
        · exact .inr (buf_short hv fun h' => c1 ⟨h, c, h'⟩)
        · exact .inl (buf_short hr c)
      · rw [h, pow_one, pow_add]; exact Nat.mul_lt_mul'' h2 h1
    · have h' : p % 2 = 0 := by omega
      exact ⟨result, temp, R, by rw [if_neg h], by rw [h']; simpa using hr, ht, by rw [h']; simpa using h2, by rw [h']; omega⟩
  rw [e1, Res.ok_bind]
  dsimp only
  by_cases hp1 : p = 1
  · subst hp1
    rw [if_neg (by simp), Res.ok_bind]
    dsimp only
    rw [powLoop, dif_pos (by decide), Bad, dif_pos (by decide)]
    refine ⟨fun _ => ⟨_, rfl, by simpa using b1⟩, ?_⟩
    rintro (h | h | h)
    · exact (c1 h).elim
    · exact (h.1 rfl).elim
    · exact h.elim
  · rw [if_pos hp1]
    have hp : 2 * V ≤ p * V := Nat.mul_le_mul_right _ (by omega)
    by_cases c2 : 2 ^ 992 ≤ v
    · refine ⟨fun h => (h (.inr (.inl ⟨hp1, c2⟩))).elim, fun _ => ?_⟩
      rw [squareSelf_ub hv b2 (by omega) (buf_long hv c2)]
      rfl
    obtain ⟨a, t, e, k1, k2⟩ := BitsBuffer.squareSelf_spec hv b2 (by omega)
    rw [squareSelf_eq (buf_short hv c2), e, Res.ok_bind]
    dsimp only
    rw [Res.ok_bind, Res.ok_bind]
    obtain ⟨i1, i2⟩ := ih (p / 2) (by omega) k1 b1 k2 (V := V + V)
      (by rw [pow_add]; exact Nat.mul_lt_mul'' h1 h1) b3 (by omega)
    constructor
    · intro h
      obtain ⟨b, e, k⟩ := i1 fun h' => h (.inr (.inr h'))
      refine ⟨b, e, ?_⟩
      rw [pow_split v p, mul_comm ((v * v) ^ (p / 2)), ← mul_assoc]
      exact k
    · rintro (h | h | h)
      · exact (c1 h).elim
      · exact (c2 h.2).elim
      · exact i2 h

theorem powCalc_spec {mk : Nat → Res BitsBuffer} {v len p : Nat} (hp : 1 ≤ p) (hv : v < 𝔹 ^ len)
    (hmk : ∀ N, 0 < N → len ≤ N → ∃ b, mk N = .ok b ∧ Buf N b v) (hlen : 1 + p * len < 2147483647) :
    (¬ Bad (2 ^ 992) p v 1 →
      ∃ bits, powCalc mk len p = .ok bits ∧ bits.length < 2147483648 ∧ WordsOk bits ∧ val bits = v ^ p) ∧
    (Bad (2 ^ 992) p v 1 → powCalc mk len p = .ub .badShift) := by
  unfold powCalc
  have hl : 1 * len ≤ p * len := Nat.mul_le_mul_right _ hp
  rw [powBound_spec p (by decide), if_pos hlen, Res.ok_bind]
  obtain ⟨b, e1, k1⟩ := hmk (1 + p * len) (by omega) (by omega)
  obtain ⟨t, e2, k2⟩ := BitsBuffer.ofWord_zero (N := 1 + p * len) (by omega)
  obtain ⟨r, e3, k3⟩ := BitsBuffer.ofWord_spec (N := 1 + p * len) (w := 1) (by omega) (by decide)
  obtain ⟨i1, i2⟩ := powLoop_id p k1 k3 k2 hv (R := 1) (by decide) (le_refl _)
  rw [e1, Res.ok_bind, e2, Res.ok_bind, e3, Res.ok_bind]
  constructor
  · intro h
    obtain ⟨o, e4, k4⟩ := i1 h
    rw [e4, Res.ok_bind]
    exact ⟨_, rfl, by rw [k4.size]; omega, k4.words, by rw [k4.value, one_mul]⟩
  · intro h
    rw [i2 h]
    rfl

theorem pow_spec {a : BigInt} {x : Int} (ha : a.Denotes x) (hl : a.bits.length < 2147483648) {n : Nat} (hn2 : 2 ≤ n)
    (hx : ¬ x.natAbs ≤ 1) (hlen : 1 + n * Max.max 1 a.bits.length < 2147483647) :
    (¬ Bad (2 ^ 992) n x.natAbs 1 → Returns (pow a n) (x ^ n)) ∧ (Bad (2 ^ 992) n x.natAbs 1 → pow a n = .ub .badShift) := by
  have hsn := ha.sign_neg
  unfold pow
  rw [if_neg (show ¬ (n : Int) < 0 by omega), ha.assertValid, Res.ok_bind, if_neg (show ¬ (n : Int) = 0 by omega),
    if_neg (show ¬ (n : Int) = 1 by omega)]
  have hmod : (decide ((n : Int) % 2 ≠ 0)) = decide (n % 2 ≠ 0) := by
    by_cases h : n % 2 = 0
    · have : (n : Int) % 2 = 0 := by omega
      simp [h, this]
    · have : (n : Int) % 2 ≠ 0 := by omega
      simp [h, this]
  have hneg : decide (a.sign < 0 ∧ (n : Int) % 2 ≠ 0) = (decide (x < 0) && decide (n % 2 ≠ 0)) := by
    rw [Bool.decide_and, hmod]
    congr 1
    exact decide_eq_decide.2 hsn
  rw [hneg, Int.toNat_natCast]
  have fin : ∀ (c : Res (List Nat)), ((¬ Bad (2 ^ 992) n x.natAbs 1 →
        ∃ bits, c = .ok bits ∧ bits.length < 2147483648 ∧ WordsOk bits ∧ val bits = x.natAbs ^ n) ∧
        (Bad (2 ^ 992) n x.natAbs 1 → c = .ub .badShift)) →
      (¬ Bad (2 ^ 992) n x.natAbs 1 →
        Returns (do let bits ← c; ofMagnitude bits (decide (x < 0) && decide (n % 2 ≠ 0))) (x ^ n)) ∧
      (Bad (2 ^ 992) n x.natAbs 1 →
        (do let bits ← c; ofMagnitude bits (decide (x < 0) && decide (n % 2 ≠ 0))) = .ub .badShift) := by
    intro c hc
    constructor
    · intro h
      obtain ⟨bits, rfl, b1, b2, b3⟩ := hc.1 h
      rw [Res.ok_bind]
      exact returns_ofMagnitude b2 b1 (by rw [b3]; exact pow_natAbs x n)
    · intro h
      rw [hc.2 h]
      rfl
  rcases ha.shape with ⟨rfl, k1, k2⟩ | ⟨s, ws, rfl, hs, hne, hw, ht, hv, rfl⟩
  · simp only [true_and, if_true]
    rw [if_neg (by omega), if_neg (by omega), if_neg (by omega), cabs_ok (by omega), Res.ok_bind]
    refine fin _ (powCalc_spec (by omega) (by omega) ?_ (by simpa using hlen))
    intro N hN _
    exact BitsBuffer.ofWord_spec hN (by omega)
  · simp only [hne, false_and, if_false]
    have hlen1 : 1 ≤ ws.length := List.length_pos_iff.2 hne
    rw [sizeInt_ok hl, Res.ok_bind]
    have hab := natAbs_unit_mul hs (val ws)
    refine fin _ ?_
    rw [hab]
    refine powCalc_spec (by omega) (val_lt hw) ?_ (by rwa [Nat.max_eq_right hlen1] at hlen)
    intro N _ hN
    exact BitsBuffer.ofWords_spec hw hl (le_trans (trimLen_le _) hN)

end BigIntegerCpp.Long32
