import Verif.Lemmas.Long32
import Verif.Lemmas.Double
import Verif.Lemmas.BitLength
set_option linter.unusedSectionVars false
/-
Text, bit length and conversions with a `long` of 32 bits.
-/
namespace BigIntegerCpp.Long32
variable [Cfg]

/-! ### `parse` -/

/-- The number that the digit loop of `parse` arrives at. -/
def run : List Char → Nat → Nat
  | [], n => n
  | d :: ds, n => run ds (10 * n + (d.toNat - 48) - if CarryLost (10 * n) (d.toNat - 48) then 2 ^ 64 else 0)

/-- At some digit the carry is lost, if the digits before have given `n`. -/
def Loses : List Char → Nat → Prop
  | [], _ => False
  | d :: ds, n => CarryLost (10 * n) (d.toNat - 48) ∨ Loses ds (10 * n + (d.toNat - 48))

omit [Cfg] in
theorem CarryLost.le {x y : Nat} (h : CarryLost x y) : 2 ^ 64 ≤ x + y := by unfold CarryLost at h; omega

omit [Cfg] in
theorem run_le (ds : List Char) {n m : Nat} (h : n ≤ m) : run ds n ≤ Nat.ofDigitChars 10 ds m := by
  induction ds generalizing n m with
  | nil => simpa [run] using h
  | cons d ds ih => rw [run, Nat.ofDigitChars_cons]; apply ih; show _ ≤ 10 * m + (d.toNat - 48); omega

omit [Cfg] in
theorem run_lt (ds : List Char) {n m : Nat} (h : n < m) : run ds n < Nat.ofDigitChars 10 ds m := by
  induction ds generalizing n m with
  | nil => simpa [run] using h
  | cons d ds ih => rw [run, Nat.ofDigitChars_cons]; apply ih; show _ < 10 * m + (d.toNat - 48); omega

omit [Cfg] in
theorem run_eq_iff (ds : List Char) (n : Nat) : run ds n = Nat.ofDigitChars 10 ds n ↔ ¬ Loses ds n := by
  induction ds generalizing n with
  | nil => simp [run, Loses]
  | cons d ds ih =>
    rw [run, Nat.ofDigitChars_cons, Loses]
    by_cases h : CarryLost (10 * n) (d.toNat - 48)
    · have := CarryLost.le h
      rw [if_pos h]
      have h2 := run_lt ds (n := 10 * n + (d.toNat - 48) - 2 ^ 64) (m := 10 * n + (d.toNat - '0'.toNat)) (by
        show _ < 10 * n + (d.toNat - 48); omega)
      simp only [h, true_or, not_true, iff_false]
      omega
    · rw [if_neg h, Nat.sub_zero]
      have := ih (10 * n + (d.toNat - 48))
      simp only [h, false_or]
      exact this

omit [Cfg] in
theorem loses_iff (ds : List Char) (n : Nat) :
    Loses ds n ↔ ∃ pre d post, ds = pre ++ d :: post ∧ CarryLost (10 * Nat.ofDigitChars 10 pre n) (d.toNat - '0'.toNat) := by
  induction ds generalizing n with
  | nil => simp [Loses]
  | cons d ds ih =>
    rw [Loses, ih]
    constructor
    · rintro (h | ⟨pre, e, post, h1, h2⟩)
      · exact ⟨[], d, ds, rfl, by simpa using h⟩
      · exact ⟨d :: pre, e, post, by rw [h1]; rfl, by rw [Nat.ofDigitChars_cons]; exact h2⟩
    · rintro ⟨pre, e, post, h1, h2⟩
      cases pre with
      | nil =>
        obtain ⟨rfl, rfl⟩ := by simpa using h1
        exact .inl (by simpa using h2)
      | cons p pre =>
        obtain ⟨rfl, rfl⟩ := by simpa using h1
        rw [Nat.ofDigitChars_cons] at h2
        exact .inr ⟨pre, e, post, rfl, h2⟩

theorem parseLoop_spec (cs : List Char) : ∀ (b : BigInt) (n k : Nat), b.Denotes n → n < 10 ^ k →
    k + cs.length < 17179869184 → Returns (parseLoop cs b) (run (cs.takeWhile Char.isDigit) n : Nat) := by
  induction cs with
  | nil => intro b n k hb _ _; exact ⟨b, rfl, hb⟩
  | cons ch cs ih =>
    intro b n k hb hn hk
    unfold parseLoop
    by_cases hd : '0' ≤ ch ∧ ch ≤ '9'
    · have hd' : ch.isDigit = true := by
        simpa [Char.isDigit, Char.le_def] using hd
      have hch : ch.toNat - 48 < 10 := by
        have h2 : ch.val ≤ '9'.val := hd.2
        have h3 : ch.val.toNat ≤ 57 := by simpa using UInt32.le_iff_toNat_le.1 h2
        show ch.val.toNat - 48 < 10
        omega
      rw [if_pos hd, List.takeWhile_cons_of_pos hd', run]
      obtain ⟨ten, ht1, ht2⟩ := ofInt32_spec (z := 10) (by decide) (by decide)
      have hten : ten.bits.length = 0 := by
        have := ht2.length_le (n := 0 + 1) (by decide)
        rcases ht2.shape with ⟨rfl, -, -⟩ | ⟨s, ws, rfl, hs, -, -, -, hv, he⟩
        · rfl
        · rcases hs with rfl | rfl <;> omega
      have len : ∀ (c : BigInt) (m j : Nat), c.Denotes m → m < 10 ^ j → c.bits.length ≤ j / 9 + 1 := by
        intro c m j hc hm
        apply hc.length_le
        rw [Int.natAbs_natCast]
        calc m < 10 ^ j := hm
          _ ≤ 10 ^ (9 * (j / 9 + 1)) := Nat.pow_le_pow_right (by decide) (by omega)
          _ = (10 ^ 9) ^ (j / 9 + 1) := pow_mul _ _ _
          _ ≤ 4294967296 ^ (j / 9 + 1) := Nat.pow_le_pow_left (by norm_num) _
      rw [List.length_cons] at hk
      have hbl := len b n k hb hn
      obtain ⟨b1, h1, h2⟩ := mul_spec hb ht2 (by omega) (by omega)
      obtain ⟨d, h3, h4⟩ := ofUInt32_spec (x := ch.toNat - 48) (by omega)
      have hn10 : 10 * n + 9 < 10 ^ (k + 1) := by rw [pow_succ]; omega
      have h2' : b1.Denotes ((10 * n : Nat) : Int) := by rw [Nat.cast_mul, mul_comm]; exact h2
      have hb1 := len b1 (10 * n) (k + 1) h2' (by omega)
      have hdl := len d (ch.toNat - 48) 1 h4 (by omega)
      obtain ⟨b2, h5, h6⟩ := add_spec h2' h4 (by omega) (by omega) (by omega)
      rw [ht1, Res.ok_bind, h1, Res.ok_bind, h3, Res.ok_bind, h5, Res.ok_bind]
      have h7 : b2.Denotes ((10 * n + (ch.toNat - 48) - if CarryLost (10 * n) (ch.toNat - 48) then 2 ^ 64 else 0 : Nat) : Int) := by
        generalize ch.toNat - 48 = e at *
        simp only [Int.natAbs_natCast] at h6
        by_cases hc : CarryLost (10 * n) e
        · have hle := CarryLost.le hc
          have hi : ¬ (IntSized ((10 * n : Nat) : Int) ↔ IntSized (e : Int)) := by unfold IntSized; omega
          rw [if_pos hc]
          rw [if_pos ⟨hi, hc⟩, if_neg (by omega)] at h6
          rw [show ((10 * n + e - 2 ^ 64 : Nat) : Int) = ((10 * n : Nat) : Int) + e + -2 ^ 64 by omega]
          exact h6
        · rw [if_neg hc]
          rw [if_neg (by tauto), add_zero] at h6
          exact_mod_cast h6
      exact ih b2 _ (k + 1) h7 (by omega) (by omega)
    · have hd' : ¬ ch.isDigit = true := by
        simpa [Char.isDigit, Char.le_def] using hd
      rw [if_neg hd, List.takeWhile_cons_of_neg hd']
      exact ⟨b, rfl, hb⟩

omit [Cfg] in
theorem textValue_digits (s : List Char) : textValue s =
    if s.head? = some '-' then -((Nat.ofDigitChars 10 (textDigits s) 0 : Nat) : Int) else (Nat.ofDigitChars 10 (textDigits s) 0 : Nat) := by
  unfold textValue textDigits
  split
  · simp
  · simp
  · rename_i h1 h2
    have hn : ¬ s.head? = some '-' := by
      cases s with
      | nil => simp
      | cons c cs => intro h; simp at h; subst h; exact h1 _ rfl
    rw [if_neg hn]
    split
    · exact absurd rfl (h1 _)
    · exact absurd rfl (h2 _)
    · rfl

theorem parse_spec (s : List Char) (hs : s.length < 2 ^ 34) : Returns (parse s)
    (if s.head? = some '-' then -((run (textDigits s) 0 : Nat) : Int) else (run (textDigits s) 0 : Nat)) := by
  have loop : ∀ cs : List Char, cs.length < 2 ^ 34 →
      Returns (parseLoop cs zeroInt) (run (cs.takeWhile Char.isDigit) 0 : Nat) :=
    fun cs h => parseLoop_spec cs zeroInt 0 0 denotes_zero (by decide) (by norm_num at h ⊢; omega)
  unfold parse
  split
  · rename_i cs
    obtain ⟨b, h1, h2⟩ := loop cs (by simp only [List.length_cons] at hs; omega)
    rw [h1, Res.ok_bind]
    exact BigInt.neg_spec h2
  · exact loop _ (by simp only [List.length_cons] at hs; omega)
  · rename_i h1 h2
    have : textDigits s = s.takeWhile Char.isDigit := by
      unfold textDigits
      split
      · exact absurd rfl (h1 _)
      · exact absurd rfl (h2 _)
      · rfl
    rw [this, if_neg]
    · exact loop s hs
    · cases s with
      | nil => simp
      | cons c cs => intro h; simp at h; subst h; exact h1 _ rfl

/-! ### conversions -/

theorem three_big {ws : List Nat} (hne : ws ≠ []) (ht : ws.getLast? ≠ some 0) (h3 : 3 ≤ ws.length) : 18446744073709551616 ≤ val ws := by
  have := val_pos_of_top hne ht
  have h2 : 𝔹 ^ 2 ≤ 𝔹 ^ (ws.length - 1) := Nat.pow_le_pow_right (by decide) (by omega)
  generalize 𝔹 ^ (ws.length - 1) = P at *
  omega

theorem toLong_spec {a : BigInt} {x : Int} (ha : a.Denotes x) (hl : a.bits.length < 2147483648) :
    toLong a = if x = -2147483648 then .ub .signedOverflow
      else if 4294967296 ≤ x.natAbs ∧ x.natAbs < 18446744073709551616 then .ub .badShift
      else if -2147483648 < x ∧ x < 2147483648 then .ok x else .throw .overflowError := by
  unfold toLong
  rcases ha.shape with ⟨rfl, h1, h2⟩ | ⟨s, xs, rfl, hs1, hne1, hw1, ht1, hv1, rfl⟩
  · rw [if_pos rfl, if_neg (by omega), if_neg (by omega), if_pos (by omega)]
  · have hn := natAbs_unit_mul hs1 (val xs)
    rw [if_neg hne1, sizeInt_ok hl, Res.ok_bind]
    dsimp only at hl ⊢
    rw [hn]
    match xs, hw1, hv1, ht1, hl, hne1, ha with
    | [w], hw1, hv1, _, _, _, _ =>
      have e : val [w] = w := by simp [val_cons, val_nil]
      generalize val [w] = V at *
      subst e
      have hw := (wordsOk_cons.1 hw1).1
      rw [if_neg (by simp), twoWords, if_neg (by simp), if_neg (by omega : ¬ (4294967296 ≤ V ∧ V < 18446744073709551616))]
      have hi : i32 V = (V : Int) - 4294967296 := by unfold i32; split_ifs <;> omega
      simp only [idx, List.getElem?_cons_zero, Res.ok_bind, hi]
      rcases hs1 with rfl | rfl
      · simp only [one_mul]
        rw [if_pos (by decide), Res.ok_bind, if_neg (by omega), if_neg (by omega), if_neg (by omega)]
      · rw [if_neg (by decide)]
        by_cases hm : V = 2147483648
        · subst hm; rw [if_pos (by norm_num)]; rfl
        · rw [if_neg (by omega), if_neg (by omega)]
          unfold long32
          rw [int_ok (by omega) (by omega), Res.ok_bind, if_neg (by omega)]
    | [w, v], hw1, hv1, ht1, _, _, _ =>
      have e : val [w, v] = w + 4294967296 * v := by simp [val_cons, val_nil]
      generalize val [w, v] = V at *
      have hw := wordsOk_cons.1 hw1
      have hv := (wordsOk_cons.1 hw.2).1
      have hv0 : v ≠ 0 := by simpa using ht1
      rw [if_neg (by simp), twoWords, if_pos (by simp), if_neg (by rcases hs1 with rfl | rfl <;> omega), if_pos (by omega)]
      simp [idx, shl]
    | w :: v :: u :: ws, hw1, hv1, ht1, hl, hne1, ha =>
      have := three_big hne1 ht1 (by simp)
      generalize val (w :: v :: u :: ws) = V at *
      rw [if_pos (by simp), if_neg (by rcases hs1 with rfl | rfl <;> omega), if_neg (by omega),
        if_neg (by rcases hs1 with rfl | rfl <;> omega)]

theorem toULong_spec {a : BigInt} {x : Int} (ha : a.Denotes x) (hl : a.bits.length < 2147483648) :
    toULong a = if 4294967296 ≤ x ∧ x < 18446744073709551616 then .ub .badShift
      else if 0 ≤ x ∧ x < 4294967296 then .ok x.toNat else .throw .overflowError := by
  unfold toULong
  rcases ha.shape with ⟨rfl, h1, h2⟩ | ⟨s, xs, rfl, hs1, hne1, hw1, ht1, hv1, rfl⟩
  · rw [if_pos rfl]
    dsimp only
    by_cases hx : x < 0
    · rw [if_pos hx, if_neg (by omega), if_neg (by omega)]
    · rw [if_neg hx, if_neg (by omega), if_pos (by omega)]
      congr 1; unfold u32i; omega
  · rw [if_neg hne1, sizeInt_ok hl, Res.ok_bind]
    dsimp only at hl ⊢
    rcases hs1 with rfl | rfl
    · match xs, hw1, hv1, ht1, hl, hne1, ha with
      | [w], hw1, hv1, _, _, _, _ =>
        have e : val [w] = w := by simp [val_cons, val_nil]
        have hw := (wordsOk_cons.1 hw1).1
        generalize val [w] = V at *
        subst e
        rw [if_neg (by simp), twoWords, if_neg (by simp), if_neg (by omega), if_pos (by omega)]
        simp [idx]
      | [w, v], hw1, hv1, ht1, _, _, _ =>
        have e : val [w, v] = w + 4294967296 * v := by simp [val_cons, val_nil]
        have hw := wordsOk_cons.1 hw1
        have hv := (wordsOk_cons.1 hw.2).1
        have hv0 : v ≠ 0 := by simpa using ht1
        generalize val [w, v] = V at *
        rw [if_neg (by simp), twoWords, if_pos (by simp), if_pos (by omega)]
        simp [idx, shl]
      | w :: v :: u :: ws, hw1, hv1, ht1, hl, hne1, ha =>
        have := three_big hne1 ht1 (by simp)
        generalize val (w :: v :: u :: ws) = V at *
        rw [if_pos (by simp), if_neg (by omega), if_neg (by omega)]
    · rw [if_pos (by right; decide), if_neg (by omega), if_neg (by omega)]

omit [Cfg] in
theorem leadingZeros_le (h : Nat) : leadingZeros h ≤ 32 := by
  unfold leadingZeros
  by_cases h0 : h = 0
  · rw [if_pos h0]
  · rw [if_neg h0]
    have st : ∀ (n : Nat) (p : Nat × Nat) (m k : Nat), p.1 ≤ n →
        (if p.2 &&& m = 0 then (p.1 + k, u32 (p.2 <<< k)) else (p.1, p.2) : Nat × Nat).1 ≤ n + k := by
      intro n p m k h; split_ifs <;> simp <;> omega
    have s1 : (if h &&& 0xFFFF0000 = 0 then (16, u32 (h <<< 16)) else (0, h) : Nat × Nat).1 ≤ 16 := by split_ifs <;> simp
    have s2 := st _ _ 0xFF000000 8 s1
    have s3 := st _ _ 0xF0000000 4 s2
    have s4 := st _ _ 0xC0000000 2 s3
    dsimp only at s2 s3 s4 ⊢
    split_ifs at s4 ⊢ <;> simp_all

theorem toDouble_ub {a : BigInt} (h1 : a.bits ≠ []) (h2 : a.bits.length ≤ 32) :
    toDouble a = .ub .badShift := by
  unfold toDouble
  rw [if_neg h1, sizeInt_ok (by omega), Res.ok_bind, if_neg (by omega)]
  have hpos : 0 < a.bits.length := List.length_pos_iff.2 h1
  have hi : ∀ i < a.bits.length, ∃ w, idx a.bits i = .ok w := by
    intro i hi
    exact ⟨a.bits[i], by simp [idx, hi]⟩
  obtain ⟨h, e1⟩ := hi (a.bits.length - 1) (by omega)
  have e2 : ∃ m, (if a.bits.length > 1 then idx a.bits (a.bits.length - 2) else .ok 0 : Res Nat) = .ok m := by
    by_cases c : a.bits.length > 1
    · rw [if_pos c]; exact hi _ (by omega)
    · rw [if_neg c]; exact ⟨0, rfl⟩
  have e3 : ∃ l, (if a.bits.length > 2 then idx a.bits (a.bits.length - 3) else .ok 0 : Res Nat) = .ok l := by
    by_cases c : a.bits.length > 2
    · rw [if_pos c]; exact hi _ (by omega)
    · rw [if_neg c]; exact ⟨0, rfl⟩
  obtain ⟨m, e2⟩ := e2
  obtain ⟨l, e3⟩ := e3
  rw [e1, Res.ok_bind, e2, Res.ok_bind, e3, Res.ok_bind]
  dsimp only
  have hz : cbitHighZero32 h ≤ 32 := leadingZeros_le h
  rw [int_ok (by omega) (by omega), Res.ok_bind, shl, if_neg (by omega)]
  rfl

theorem toDouble_eq {a : BigInt} (hl : a.bits.length < 2147483648) (h : a.bits = [] ∨ 32 < a.bits.length) : toDouble a = a.toDouble := by
  unfold toDouble BigInt.toDouble
  rcases h with h | h
  · rw [if_pos h, if_pos h]
  · have : a.bits ≠ [] := by intro e; rw [e] at h; simp at h
    rw [if_neg this, if_neg this, sizeInt_ok hl, Res.ok_bind, Res.ok_bind, if_pos h, if_pos h]

omit [Cfg] in
theorem and_63 (n : Nat) : n &&& 0x7FFFFFFFFFFFFFFF = n % 2 ^ 63 := Nat.and_two_pow_sub_one_eq_mod n 63

omit [Cfg] in
theorem classify (d : Nat) : (doubleIsFinite d = true ↔ d % 2 ^ 32 < 2 ^ 31) ∧ (doubleIsNaN d = true ↔ 2 ^ 31 ≤ d % 2 ^ 32) ∧
    doubleIsInfinity d = false := by
  have key : u64i (longOfDouble d) = if d % 2 ^ 32 < 2 ^ 31 then d % 2 ^ 32 else 2 ^ 64 - 2 ^ 32 + d % 2 ^ 32 := by
    unfold longOfDouble i32 u32 u64i
    split_ifs <;> omega
  unfold doubleIsFinite doubleIsNaN doubleIsInfinity
  simp only [and_63, key, decide_eq_true_eq, decide_eq_false_iff_not]
  refine ⟨?_, ?_, ?_⟩ <;> split_ifs <;> omega

theorem ofDouble_throw {d : Nat} (h : 2 ^ 31 ≤ d % 2 ^ 32) : ofDouble d = .throw .overflowError := by
  unfold ofDouble
  rw [if_pos (by rw [(classify d).1]; omega)]

theorem ofDouble_release {d : Nat} (hd : d < 2 ^ 64) (h : d % 2 ^ 32 < 2 ^ 31) (hf : DblFinite d) (hr : Cfg.ndebug = true) :
    ofDouble d = BigIntegerCpp.ofDouble d := by
  unfold ofDouble BigIntegerCpp.ofDouble
  rw [if_neg (by rw [not_not, (classify d).1]; omega), if_neg (by rw [not_not]; exact (doubleIsFinite_iff d hd).2 hf)]
  have hc : ∀ (p : Prop) [Decidable p], cassert p = .ok () := by
    intro p _; unfold cassert; simp [hr]
  simp only [manAsserts, hr, if_true, hc]
  rfl

theorem ofDouble_debug {d : Nat} (h : d % 2 ^ 32 < 2 ^ 31) (hm : dblExp d ≠ 0 ∧ dblExp d ≠ 2047 ∨ dblFrac d ≠ 0) (hd : d < 2 ^ 64)
    (hr : Cfg.ndebug = false) : ofDouble d = .ub .badShift := by
  unfold ofDouble
  rw [if_neg (by rw [not_not, (classify d).1]; omega)]
  have hs : (doubleParts d).1 = 1 ∨ (doubleParts d).1 = -1 := by
    have : (d >>> 62) &&& 2 = 0 ∨ (d >>> 62) &&& 2 = 2 := by
      have h1 : d >>> 62 < 4 := by rw [Nat.shiftRight_eq_div_pow]; omega
      interval_cases d >>> 62 <;> simp
    unfold doubleParts
    dsimp only
    split_ifs <;> rcases this with e | e <;> simp [e]
  have hn : (doubleParts d).2.2.1 ≠ 0 := by
    unfold doubleParts
    dsimp only
    have e1 : d &&& 0x000FFFFFFFFFFFFF = dblFrac d := by
      have := Nat.and_two_pow_sub_one_eq_mod d 52
      simpa [dblFrac] using this
    have e2 : (d >>> 52) &&& 0x7FF = dblExp d := by
      have := Nat.and_two_pow_sub_one_eq_mod (d >>> 52) 11
      rw [Nat.shiftRight_eq_div_pow] at *
      simpa [dblExp] using this
    rw [e1, e2]
    by_cases c1 : (dblExp d : Int) = 0
    · rw [if_pos c1]; exact hm.resolve_left (by omega)
    rw [if_neg c1]
    by_cases c2 : (dblExp d : Int) = 0x7FF
    · rw [if_pos c2]; exact hm.resolve_left (by omega)
    · rw [if_neg c2]
      dsimp only
      intro h0
      rw [Nat.or_eq_zero_iff] at h0
      simp at h0
  dsimp only
  rw [cassert_pos hs, Res.ok_bind, if_neg hn]
  simp [manAsserts, hr]

/-! ### the bit length -/

theorem leadingZerosCount_le {h : Nat} (hh : h < 4294967296) : ∃ lz, BigInt.leadingZerosCount h = .ok lz ∧ lz ≤ 32 := by
  by_cases h0 : h = 0
  · subst h0; exact ⟨_, rfl, by decide⟩
  · obtain ⟨k, hk, hk1, hk2⟩ := exists_log h0 hh
    exact ⟨31 - k, leadingZerosCount_spec hk1 hk2 hk, by omega⟩

theorem bitLength_spec {a : BigInt} {x : Int} (ha : a.Denotes x) (hl : a.bits.length < 2147483648) :
    bitLength a = if a.bits.length < 67108864 then a.bitLength else .ub .signedOverflow := by
  have key : ∀ len high : Nat, 1 ≤ len → high < 4294967296 → (do
      let lz ← BigInt.leadingZerosCount high
      let p ← long32 ((len : Int) * 32)
      let bitLength ← long32 (p - lz)
      if a.sign ≥ 0 then .ok (u64i bitLength)
      else if high &&& u32sub high 1 ≠ 0 then .ok (u64i bitLength)
      else if a.bits.dropLast.all (· = 0) then .ok (u64i (bitLength - 1))
      else .ok (u64i bitLength) : Res Nat) = if len < 67108864 then (do
      let lz ← BigInt.leadingZerosCount high
      let bitLength ← long ((len : Int) * 32 - lz)
      if a.sign ≥ 0 then .ok (u64i bitLength)
      else if high &&& u32sub high 1 ≠ 0 then .ok (u64i bitLength)
      else if a.bits.dropLast.all (· = 0) then .ok (u64i (bitLength - 1))
      else .ok (u64i bitLength)) else .ub .signedOverflow := by
    intro len high h1 hh
    obtain ⟨lz, e, hle⟩ := leadingZerosCount_le hh
    rw [e, Res.ok_bind, Res.ok_bind]
    unfold long32
    by_cases hc : len < 67108864
    · rw [if_pos hc, int_ok (by omega) (by omega), Res.ok_bind, int_ok (by omega) (by omega), Res.ok_bind,
        long_ok (by omega) (by omega), Res.ok_bind]
    · rw [if_neg hc]
      have : int ((len : Int) * 32) = .ub .signedOverflow := by unfold int; rw [if_neg (by omega)]
      rw [this]
      rfl
  unfold bitLength BigInt.bitLength
  rw [ha.assertValid]
  simp only [Res.ok_bind]
  rcases ha.shape with ⟨rfl, h1, h2⟩ | ⟨s, xs, rfl, hs1, hne1, hw1, ht1, hv1, rfl⟩
  · simp only [if_true, List.length_nil]
    rw [if_pos (by omega : 0 < 67108864)]
    by_cases hx : x < 0
    · simp only [hx, if_true]
      rw [int_ok (by omega) (by omega)]
      simp only [Res.ok_bind]
      have := key 1 (u32i (-x)) (by omega) (u32i_lt _)
      rw [if_pos (by omega)] at this
      exact this
    · simp only [hx, if_false]
      simp only [Res.ok_bind]
      have := key 1 (u32i x) (by omega) (u32i_lt _)
      rw [if_pos (by omega)] at this
      exact this
  · rw [if_neg hne1, sizeInt_ok hl]
    simp only [Res.ok_bind]
    have hp := List.length_pos_iff.2 hne1
    have hi : idx xs (xs.length - 1) = .ok xs[xs.length - 1] := by simp [idx, hp]
    rw [hi]
    simp only [Res.ok_bind]
    exact key xs.length _ (by omega) (hw1 _ (List.getElem_mem _))

end BigIntegerCpp.Long32
