import Verif.Lemmas.SquMul
import Mathlib.Tactic.IntervalCases
/-
Correctness of Model/DivRem.lean: division by one word and Knuth's algorithm D as coded.
-/
namespace BigIntegerCpp
set_option linter.unusedSectionVars false
set_option linter.unnecessarySeqFocus false
variable [Cfg]

theorem shl32_or {c x : Nat} (hc : c < 4294967296) (hx : x < 4294967296) :
    u64 (c <<< 32) ||| x = 4294967296 * c + x := by
  rw [u64_of_lt (by rw [Nat.shiftLeft_eq]; omega), ← Nat.shiftLeft_add_eq_or_of_lt (by omega),
    Nat.shiftLeft_eq]
  omega

/-! ### division by one word -/

theorem divWordLoop_spec {xs : List Nat} (hx : WordsOk xs) {y : Nat} (hy0 : 0 < y) (hy : y < 4294967296) :
    ∃ q c, divWordLoop xs y = .ok (q, c) ∧ q.length = xs.length ∧ WordsOk q ∧ c < y ∧
      val xs = val q * y + c := by
  induction xs with
  | nil => exact ⟨[], 0, rfl, rfl, wordsOk_nil, hy0, by simp⟩
  | cons x xs ih =>
    rw [wordsOk_cons] at hx
    obtain ⟨q, c, he, hl, hw, hc, hv⟩ := ih hx.2
    have hxb := hx.1
    have hval := shl32_or (c := c) (x := x) (by omega) hx.1
    set v := 4294967296 * c + x with hvdef
    have hdig : v / y < 4294967296 := by
      rw [Nat.div_lt_iff_lt_mul hy0]
      calc v < 4294967296 * (c + 1) := by omega
        _ ≤ 4294967296 * y := Nat.mul_le_mul_left _ hc
    have hdm := Nat.div_add_mod v y
    have hmod := Nat.mod_lt v hy0
    have hle : v / y * y ≤ v := Nat.div_mul_le_self v y
    have hvb : v < 18446744073709551616 := by omega
    refine ⟨(v / y) :: q, v % y, ?_, by simp [hl], wordsOk_cons.2 ⟨hdig, hw⟩, hmod, ?_⟩
    · simp only [divWordLoop, he, Res.ok_bind, hval]
      rw [if_neg (by omega), u32_of_lt hdig, u64_of_lt (by omega), u64sub_of_le hle hvb]
      congr 2
      rw [Nat.mod_eq_sub_div_mul]
    · rw [val_cons, val_cons, hv]
      linear_combination hvdef - hdm

theorem divWordLoop_zero {xs : List Nat} (hne : xs ≠ []) : divWordLoop xs 0 = .throw .divideByZero := by
  induction xs with
  | nil => exact absurd rfl hne
  | cons x xs ih =>
    cases xs with
    | nil => rfl
    | cons y ys => rw [divWordLoop, ih (by simp)]; rfl

theorem divideWordRem_spec {xs : List Nat} (hx : WordsOk xs) (hne : xs ≠ []) (hs : xs.length < 2147483648)
    {y : Nat} (hy0 : 0 < y) (hy : y < 4294967296) :
    ∃ q, divideWordRem xs y = .ok (q, val xs % y) ∧ q.length = xs.length ∧ WordsOk q ∧
      val q = val xs / y := by
  obtain ⟨q, c, he, hl, hw, hc, hv⟩ := divWordLoop_spec hx hy0 hy
  have h1 : val xs / y = val q := by
    rw [hv, Nat.mul_comm, Nat.mul_add_div hy0, Nat.div_eq_of_lt hc]; rfl
  have h2 : val xs % y = c := by
    rw [hv, Nat.mul_comm, Nat.mul_add_mod, Nat.mod_eq_of_lt hc]
  refine ⟨q, ?_, hl, hw, h1.symm⟩
  simp [divideWordRem, hne, sizeInt_ok hs, he, h2, u32_of_lt (show c < 4294967296 by omega)]

theorem divideWord_spec {xs : List Nat} (hx : WordsOk xs) (hne : xs ≠ []) (hs : xs.length < 2147483648)
    {y : Nat} (hy0 : 0 < y) (hy : y < 4294967296) :
    ∃ q, divideWord xs y = .ok q ∧ q.length = xs.length ∧ WordsOk q ∧ val q = val xs / y := by
  obtain ⟨q, c, he, hl, hw, hc, hv⟩ := divWordLoop_spec hx hy0 hy
  have h1 : val xs / y = val q := by
    rw [hv, Nat.mul_comm, Nat.mul_add_div hy0, Nat.div_eq_of_lt hc]; rfl
  refine ⟨q, ?_, hl, hw, h1.symm⟩
  simp [divideWord, hne, sizeInt_ok hs, he]

theorem remWordLoop_spec {xs : List Nat} (hx : WordsOk xs) {y : Nat} (hy0 : 0 < y) (hy : y < 4294967296) :
    remWordLoop xs y = .ok (val xs % y) := by
  induction xs with
  | nil => simp [remWordLoop]
  | cons x xs ih =>
    rw [wordsOk_cons] at hx
    have hm := Nat.mod_lt (val xs) hy0
    rw [remWordLoop, ih hx.2, Res.ok_bind]
    rw [shl32_or (by omega) hx.1, if_neg (by omega)]
    congr 1
    rw [val_cons, Nat.add_mod, Nat.mul_mod, Nat.mod_mod, ← Nat.mul_mod, ← Nat.add_mod, Nat.add_comm]

theorem remWordLoop_zero {xs : List Nat} (hne : xs ≠ []) : remWordLoop xs 0 = .throw .divideByZero := by
  induction xs with
  | nil => exact absurd rfl hne
  | cons x xs ih =>
    cases xs with
    | nil => rfl
    | cons y ys => rw [remWordLoop, ih (by simp)]; rfl

theorem remainderWord_spec {xs : List Nat} (hx : WordsOk xs) (hne : xs ≠ []) (hs : xs.length < 2147483648)
    {y : Nat} (hy0 : 0 < y) (hy : y < 4294967296) : remainderWord xs y = .ok (val xs % y) := by
  have hm := Nat.mod_lt (val xs) hy0
  simp [remainderWord, hne, sizeInt_ok hs, remWordLoop_spec hx hy0 hy,
    u32_of_lt (show val xs % y < 4294967296 by omega)]

/-! ### add and subtract the divisor -/

theorem addDivisor_spec {w rhs : List Nat} (hw : WordsOk w) (hr : WordsOk rhs) (hlen : w.length = rhs.length)
    (rest : List Nat) {c : Nat} (hc : c ≤ 1) :
    ∃ o c', addDivisor (w ++ rest) rhs c = .ok (o ++ rest, c') ∧ o.length = w.length ∧ WordsOk o ∧ c' ≤ 1 ∧
      val o + 𝔹 ^ w.length * c' = val w + val rhs + c := by
  induction w generalizing rhs c with
  | nil =>
    have : rhs = [] := by simpa using hlen.symm
    subst this
    exact ⟨[], c, by simp [addDivisor, u32_of_lt (show c < 4294967296 by omega)], rfl, wordsOk_nil, hc, by simp⟩
  | cons x xs ih =>
    cases rhs with
    | nil => simp at hlen
    | cons y ys =>
      rw [wordsOk_cons] at hw hr
      have hx0 := hw.1
      have hy0 := hr.1
      have hd : u64 (u64 (x + c) + y) = x + c + y := by
        rw [u64_of_lt (show x + c < _ by omega), u64_of_lt (by omega)]
      obtain ⟨o, c', he, hl, ho, hc', hv⟩ := ih hw.2 hr.2 (by simpa using hlen)
        (c := (x + c + y) / 4294967296) (by omega)
      refine ⟨u32 (x + c + y) :: o, c', by simp [addDivisor, hd, he], by simp [hl],
        wordsOk_cons.2 ⟨u32_lt _, ho⟩, hc', ?_⟩
      have := u32_add_div (x + c + y)
      simp only [val_cons, List.length_cons, pow_succ]
      linear_combination this + 4294967296 * hv

theorem subtractDivisor_spec {w rhs : List Nat} (hw : WordsOk w) (hr : WordsOk rhs) (hlen : w.length = rhs.length)
    (rest : List Nat) {q c : Nat} (hq : q < 4294967296) (hc : c < 4294967296) :
    ∃ o c', subtractDivisor (w ++ rest) rhs q c = .ok (o ++ rest, c') ∧ o.length = w.length ∧ WordsOk o ∧
      c' < 4294967296 ∧ val o + q * val rhs + c = val w + 𝔹 ^ w.length * c' := by
  induction w generalizing rhs c with
  | nil =>
    have : rhs = [] := by simpa using hlen.symm
    subst this
    exact ⟨[], c, by simp [subtractDivisor, u32_of_lt hc], rfl, wordsOk_nil, hc, by simp⟩
  | cons x xs ih =>
    cases rhs with
    | nil => simp at hlen
    | cons y ys =>
      rw [wordsOk_cons] at hw hr
      have hx0 := hw.1
      have hm := mul_lt_sq hr.1 hq
      have hd : u64 (c + u64 (y * q)) = c + y * q := by
        rw [u64_of_lt (n := y * q) (by omega), u64_of_lt (by omega)]
      set c1 := c + y * q with hc1
      have hdm := u32_add_div c1
      have hdl := u32_lt c1
      have hc3 : (if x < u32 c1 then u64 (c1 / 4294967296 + 1) else c1 / 4294967296) < 4294967296 := by
        split_ifs with h
        · rw [u64_of_lt (by omega)]; omega
        · omega
      obtain ⟨o, c', he, hl, ho, hc', hv⟩ := ih hw.2 hr.2 (by simpa using hlen) hc3
      refine ⟨u32sub x (u32 c1) :: o, c', by simp [subtractDivisor, hd, he], by simp [hl],
        wordsOk_cons.2 ⟨u32i_lt _, ho⟩, hc', ?_⟩
      have hword : u32sub x (u32 c1) + c1 = x + 4294967296 * (if x < u32 c1 then u64 (c1 / 4294967296 + 1) else c1 / 4294967296) := by
        split_ifs with h
        · rw [u64_of_lt (by omega)]; unfold u32sub u32i; omega
        · rw [u32sub_of_le (by omega) (by omega)]; omega
      generalize (if x < u32 c1 then u64 (c1 / 4294967296 + 1) else c1 / 4294967296) = c3 at *
      simp only [val_cons, List.length_cons, pow_succ]
      linear_combination hword + 4294967296 * hv - hc1

/-! ### leading zeros -/

theorem and_high_eq_zero {x : Nat} (k : Nat) (hk : k ≤ 32) (hx : x < 4294967296) :
    x &&& (2 ^ 32 - 2 ^ k) = 0 ↔ x < 2 ^ k := by
  have hpk : 0 < 2 ^ k := Nat.pow_pos (by decide)
  have hM : 2 ^ 32 - 2 ^ k = (2 ^ (32 - k) - 1) * 2 ^ k := by
    rw [Nat.sub_mul, ← pow_add, Nat.one_mul]; congr 2; omega
  have hdiv : (x &&& (2 ^ 32 - 2 ^ k)) / 2 ^ k = x / 2 ^ k := by
    rw [← Nat.shiftRight_eq_div_pow, Nat.shiftRight_and_distrib, hM, ← Nat.shiftLeft_eq, Nat.shiftLeft_shiftRight,
      Nat.and_two_pow_sub_one_eq_mod, Nat.shiftRight_eq_div_pow, Nat.mod_eq_of_lt]
    rw [Nat.div_lt_iff_lt_mul hpk, ← pow_add]
    calc x < 2 ^ 32 := hx
      _ = _ := by congr 1; omega
  have hmod : (x &&& (2 ^ 32 - 2 ^ k)) % 2 ^ k = 0 := by
    rw [Nat.and_mod_two_pow, hM, Nat.mul_mod_left, Nat.and_zero]
  constructor
  · intro h
    rw [h, Nat.zero_div] at hdiv
    have := Nat.div_eq_zero_iff.1 hdiv.symm
    omega
  · intro h
    have := Nat.div_add_mod (x &&& (2 ^ 32 - 2 ^ k)) (2 ^ k)
    rw [hdiv, hmod, Nat.div_eq_of_lt h] at this
    simpa using this.symm

theorem leadingZeros_spec {x : Nat} (h0 : x ≠ 0) (hx : x < 4294967296) :
    leadingZeros x < 32 ∧ 2147483648 ≤ x * 2 ^ leadingZeros x ∧ x * 2 ^ leadingZeros x < 4294967296 := by
  have a1 : ∀ v < 4294967296, v &&& 0xFFFF0000 = 0 ↔ v < 65536 := fun v hv => and_high_eq_zero 16 (by decide) hv
  have a2 : ∀ v < 4294967296, v &&& 0xFF000000 = 0 ↔ v < 16777216 := fun v hv => and_high_eq_zero 24 (by decide) hv
  have a3 : ∀ v < 4294967296, v &&& 0xF0000000 = 0 ↔ v < 268435456 := fun v hv => and_high_eq_zero 28 (by decide) hv
  have a4 : ∀ v < 4294967296, v &&& 0xC0000000 = 0 ↔ v < 1073741824 := fun v hv => and_high_eq_zero 30 (by decide) hv
  have a5 : ∀ v < 4294967296, v &&& 0x80000000 = 0 ↔ v < 2147483648 := fun v hv => and_high_eq_zero 31 (by decide) hv
  -- one halving step
  have step : ∀ (v c k M T P : Nat), (∀ v < 4294967296, v &&& M = 0 ↔ v < T) → T * 2 ^ k = 4294967296 →
      P * 2 ^ k = T → v < 4294967296 → P ≤ v → v = x * 2 ^ c →
      ∃ v' c', (if v &&& M = 0 then (c + k, u32 (v <<< k)) else (c, v)) = (c', v') ∧
        v' < 4294967296 ∧ v' = x * 2 ^ c' ∧ T ≤ v' ∧ c' ≤ c + k := by
    intro v c k M T P hM hT hP hv hPv he
    have hk : 0 < 2 ^ k := Nat.pow_pos (by decide)
    by_cases h : v < T
    · rw [if_pos ((hM v hv).2 h)]
      have h1 : v * 2 ^ k < 4294967296 := by rw [← hT]; exact Nat.mul_lt_mul_of_pos_right h hk
      refine ⟨v * 2 ^ k, c + k, ?_, h1, by rw [he, pow_add]; ring, ?_, by omega⟩
      · rw [Nat.shiftLeft_eq, u32_of_lt h1]
      · rw [← hP]; exact Nat.mul_le_mul_right _ hPv
    · rw [if_neg (by rw [hM v hv]; exact h)]
      exact ⟨v, c, rfl, hv, he, by omega, by omega⟩
  obtain ⟨v1, c1, e1, h1, g1, t1, l1⟩ := step x 0 16 _ _ 1 a1 (by norm_num) (by norm_num) hx (by omega) (by simp)
  obtain ⟨v2, c2, e2, h2, g2, t2, l2⟩ := step v1 c1 8 _ _ _ a2 (by norm_num) (by norm_num) h1 t1 g1
  obtain ⟨v3, c3, e3, h3, g3, t3, l3⟩ := step v2 c2 4 _ _ _ a3 (by norm_num) (by norm_num) h2 t2 g2
  obtain ⟨v4, c4, e4, h4, g4, t4, l4⟩ := step v3 c3 2 _ _ _ a4 (by norm_num) (by norm_num) h3 t3 g3
  have hres : leadingZeros x = if v4 < 2147483648 then c4 + 1 else c4 := by
    unfold leadingZeros
    rw [if_neg h0]
    simp only [Nat.zero_add] at e1
    simp only [e1, e2, e3, e4]
    exact if_congr (a5 v4 h4) rfl rfl
  rw [hres]
  split_ifs with h
  · rw [pow_succ, ← Nat.mul_assoc, ← g4]; omega
  · rw [← g4]; omega

/-! ### normalisation of the top words -/

/-- `(hi << s) | (lo >> (32 - s))`. -/
theorem shift_join {lo s : Nat} (hs : s ≤ 32) (hlo : lo < 4294967296) (hi : Nat) :
    (hi <<< s) ||| (lo >>> (32 - s)) = hi * 2 ^ s + lo / 2 ^ (32 - s) := by
  have h1 : lo >>> (32 - s) < 2 ^ s := by
    rw [Nat.shiftRight_eq_div_pow, Nat.div_lt_iff_lt_mul (Nat.pow_pos (by decide)), ← pow_add]
    calc lo < 2 ^ 32 := hlo
      _ = _ := by congr 1; omega
  rw [← Nat.shiftLeft_add_eq_or_of_lt h1, Nat.shiftLeft_eq, Nat.shiftRight_eq_div_pow]

theorem u32_shl {x s : Nat} (hs : s ≤ 32) : u32 (x <<< s) = (x % 2 ^ (32 - s)) <<< s := by
  unfold u32
  have : (4294967296 : Nat) = 2 ^ (32 - s) * 2 ^ s := by rw [← pow_add, show 32 - s + s = 32 by omega]; norm_num
  rw [Nat.shiftLeft_eq, Nat.shiftLeft_eq, this, Nat.mul_mod_mul_right]

/-- The two normalised top words are the top three words divided by `2^(32-s)`. -/
theorem norm_top {hi m lo s : Nat} (hs : s ≤ 32) :
    (hi * 2 ^ s + m / 2 ^ (32 - s)) * 4294967296 + ((m % 2 ^ (32 - s)) * 2 ^ s + lo / 2 ^ (32 - s)) =
      (hi * 4294967296 * 4294967296 + m * 4294967296 + lo) / 2 ^ (32 - s) := by
  have hB : (4294967296 : Nat) = 2 ^ s * 2 ^ (32 - s) := by
    rw [← pow_add, show s + (32 - s) = 32 by omega]; norm_num
  have hc : 0 < 2 ^ (32 - s) := Nat.pow_pos (by decide)
  have hd := Nat.div_add_mod m (2 ^ (32 - s))
  generalize 2 ^ (32 - s) = c at *
  generalize 2 ^ s = f at *
  have : hi * 4294967296 * 4294967296 + m * 4294967296 + lo = lo + c * (f * (hi * 4294967296 + m)) := by
    rw [hB]; ring
  rw [this, Nat.add_mul_div_left _ _ hc]
  conv_rhs => rw [← hd]
  rw [hB]; ring

/-- The top three words below index `i`, missing words being zero. -/
def top3 (l : List Nat) (i : Nat) : Nat :=
  l[i - 1]?.getD 0 * 4294967296 * 4294967296 + (if i > 1 then l[i - 2]?.getD 0 else 0) * 4294967296 +
    (if i > 2 then l[i - 3]?.getD 0 else 0)

theorem val_take_succ {l : List Nat} {i : Nat} (h : i < l.length) :
    val (l.take (i + 1)) = val (l.take i) + 𝔹 ^ i * l[i]?.getD 0 := by
  rw [List.take_add_one, val_append, List.length_take, Nat.min_eq_left (by omega)]
  rw [List.getElem?_eq_getElem h]; simp

theorem top3_spec {l : List Nat} (hw : WordsOk l) {i : Nat} (h0 : 1 ≤ i) (hi : i ≤ l.length) :
    ∃ low, low < 𝔹 ^ (i - 1) ∧ 18446744073709551616 * val (l.take i) = 𝔹 ^ (i - 1) * top3 l i + low := by
  match i, h0 with
  | 1, _ =>
    refine ⟨0, by simp, ?_⟩
    rw [val_take_succ (by omega)]
    simp [top3]; ring
  | 2, _ =>
    refine ⟨0, by simp, ?_⟩
    rw [val_take_succ (by omega), val_take_succ (by omega)]
    simp [top3]; ring
  | k + 3, _ =>
    have hlt := val_lt (hw.take k)
    rw [List.length_take, Nat.min_eq_left (by omega)] at hlt
    refine ⟨18446744073709551616 * val (l.take k), ?_, ?_⟩
    · show _ < 𝔹 ^ (k + 2)
      rw [pow_succ, pow_succ]; omega
    · rw [val_take_succ (by omega), val_take_succ (by omega), val_take_succ (by omega)]
      simp only [top3, show k + 3 > 1 by omega, show k + 3 > 2 by omega, if_true,
        show k + 3 - 1 = k + 2 by omega, show k + 3 - 2 = k + 1 by omega, show k + 3 - 3 = k by omega, pow_succ]
      ring

/-! ### the quotient guess -/

theorem divideGuessTooBig_spec {q valHi valLo divHi divLo : Nat} (hq : q < 4294967296)
    (hdh : divHi < 4294967296) (hdl : divLo < 4294967296) (hvl : valLo < 4294967296) :
    divideGuessTooBig q valHi valLo divHi divLo = decide (valHi * 4294967296 + valLo < q * (divHi * 4294967296 + divLo)) := by
  unfold divideGuessTooBig
  have h1 := mul_lt_sq hdh hq
  have h2 := mul_lt_sq hdl hq
  have e3 : ∀ n : Nat, n &&& 0xFFFFFFFF = n % 4294967296 := fun n => Nat.and_two_pow_sub_one_eq_mod n 32
  simp only [e3]
  rw [u64_of_lt (n := divHi * q) (by omega), u64_of_lt (n := divLo * q) (by omega), u64_of_lt (by omega)]
  have e4 : q * (divHi * 4294967296 + divLo) = divHi * q * 4294967296 + divLo * q := by ring
  rw [e4]
  generalize divHi * q = a at *
  generalize divLo * q = b at *
  split_ifs <;> simp <;> omega

theorem divideGuessTooBig_zero (valHi valLo divHi divLo : Nat) :
    divideGuessTooBig 0 valHi valLo divHi divLo = false := by
  unfold divideGuessTooBig
  simp [u64]

theorem fixGuess_spec {valHi valLo divHi divLo : Nat} (hdh : divHi < 4294967296) (hdl : divLo < 4294967296)
    (hvl : valLo < 4294967296) (hpos : 0 < divHi) {d : Nat} (hd : d < 4294967296) :
    fixGuess valHi valLo divHi divLo d =
      min d ((valHi * 4294967296 + valLo) / (divHi * 4294967296 + divLo)) := by
  have hD : 0 < divHi * 4294967296 + divLo := by omega
  induction d with
  | zero => simp [fixGuess]
  | succ d ih =>
    rw [fixGuess, divideGuessTooBig_spec hd hdh hdl hvl]
    by_cases h : valHi * 4294967296 + valLo < (d + 1) * (divHi * 4294967296 + divLo)
    · rw [if_pos (by simpa using h), ih (by omega)]
      have := (Nat.div_lt_iff_lt_mul hD).2 h
      omega
    · rw [if_neg (by simpa using h)]
      have := (Nat.le_div_iff_mul_le hD).2 (not_lt.1 h)
      omega

/-- The mathematics of one quotient digit.  `D` divisor, `cur` current window, `a` the words
below it, `M = B^(L-1)`, `P = B^n`, `c = 2^(32-s)`; `T`, `U` are the top words of divisor and
window, `Dn`, `V` the normalised ones. -/
theorem guess_bounds {D cur a M P c T U lowd lowu g : Nat} (hc : 0 < c)
    (hlowd : lowd < M) (hlowu : lowu < M * P)
    (hD : 18446744073709551616 * D = M * T + lowd)
    (hU : 18446744073709551616 * (a + P * cur) = M * P * U + lowu)
    (ha : a < P) (hD0 : 0 < D) (hDn : 4294967296 ≤ T / c) (hcur : cur < D * 4294967296)
    (hg : g = min 4294967295 (U / c / (T / c))) :
    cur / D ≤ g ∧ g ≤ cur / D + 1 := by
  generalize hDn' : T / c = Dn at *
  generalize hV : U / c = V at *
  have hDnpos : 0 < Dn := by omega
  have q1 : cur / D * D ≤ cur := Nat.div_mul_le_self cur D
  have q2 : cur / D < 4294967296 := by rw [Nat.div_lt_iff_lt_mul hD0]; rwa [Nat.mul_comm]
  have dn1 : c * Dn ≤ T := by rw [← hDn']; exact Nat.mul_div_le T c
  have dn2 : T < c * (Dn + 1) := by rw [← hDn']; exact Nat.lt_mul_div_succ T hc
  have v1 : c * V ≤ U := by rw [← hV]; exact Nat.mul_div_le U c
  constructor
  · rw [hg]
    refine le_min (by omega) ?_
    rw [Nat.le_div_iff_mul_le hDnpos, ← hV, Nat.le_div_iff_mul_le hc]
    -- q * Dn * c ≤ U
    by_contra hlt
    simp only [not_le] at hlt
    have h1 : U + 1 ≤ cur / D * Dn * c := hlt
    have h2 : M * P * (U + 1) ≤ M * P * (cur / D * Dn * c) := Nat.mul_le_mul_left _ h1
    have h3 : M * P * (cur / D * Dn * c) ≤ P * (cur / D) * (M * T) := by
      calc M * P * (cur / D * Dn * c) = P * (cur / D) * M * (c * Dn) := by ring
        _ ≤ P * (cur / D) * M * T := Nat.mul_le_mul_left _ dn1
        _ = _ := by ring
    have h4 : P * (cur / D) * (M * T) ≤ P * (cur / D) * (18446744073709551616 * D) :=
      Nat.mul_le_mul_left _ (by omega)
    have h5 : P * (cur / D) * (18446744073709551616 * D) ≤ 18446744073709551616 * (P * cur) := by
      calc P * (cur / D) * (18446744073709551616 * D) = 18446744073709551616 * P * (cur / D * D) := by ring
        _ ≤ 18446744073709551616 * P * cur := Nat.mul_le_mul_left _ q1
        _ = _ := by ring
    have h6 : M * P * (U + 1) = M * P * U + M * P := by ring
    omega
  · -- g ≤ q + 1
    by_cases hg0 : g = 0
    · rw [hg0]; exact Nat.zero_le _
    have g1 : g ≤ 4294967295 := by omega
    have g2 : g * Dn ≤ V := by
      rw [← Nat.le_div_iff_mul_le hDnpos]; omega
    have : g - 1 ≤ cur / D := by
      rw [Nat.le_div_iff_mul_le hD0]
      by_contra hlt
      simp only [not_le] at hlt
      obtain ⟨k, rfl⟩ : ∃ k, g = k + 1 := ⟨g - 1, by omega⟩
      simp only [Nat.add_sub_cancel] at hlt
      -- cur + 1 ≤ k * D
      have h1 : 18446744073709551616 * (P * (cur + 1)) ≤ 18446744073709551616 * (P * (k * D)) :=
        Nat.mul_le_mul_left _ (Nat.mul_le_mul_left _ hlt)
      have h2 : 18446744073709551616 * (P * (k * D)) = P * k * (M * T + lowd) := by rw [← hD]; ring
      have h3 : P * k * (M * T + lowd) ≤ P * k * (M * (T + 1)) := Nat.mul_le_mul_left _ (by rw [Nat.mul_add]; omega)
      have h4 : P * k * (M * (T + 1)) ≤ P * k * (M * (c * (Dn + 1))) :=
        Nat.mul_le_mul_left _ (Nat.mul_le_mul_left _ dn2)
      have h5 : k * (Dn + 1) ≤ (k + 1) * Dn := by
        have e1 : k * (Dn + 1) = k * Dn + k := by ring
        have e2 : (k + 1) * Dn = k * Dn + Dn := by ring
        omega
      have h6 : P * k * (M * (c * (Dn + 1))) ≤ M * P * U := by
        calc P * k * (M * (c * (Dn + 1))) = M * P * c * (k * (Dn + 1)) := by ring
          _ ≤ M * P * c * V := Nat.mul_le_mul_left _ (le_trans h5 g2)
          _ = M * P * (c * V) := by ring
          _ ≤ _ := Nat.mul_le_mul_left _ v1
      have h7 : 18446744073709551616 * (P * (cur + 1)) = 18446744073709551616 * (P * cur) + 18446744073709551616 * P := by ring
      have h8 : 18446744073709551616 * (a + P * cur) = 18446744073709551616 * a + 18446744073709551616 * (P * cur) := by ring
      omega
    omega

/-! ### one step of the division loop -/

theorem idx_getD {l : List Nat} {i : Nat} (h : i < l.length) : idx l i = .ok (l[i]?.getD 0) := by
  simp [idx, h]

theorem idx_if {l : List Nat} {i k : Nat} (h : i ≤ l.length) (hk : 0 < k) :
    (if i > k then idx l (i - (k + 1)) else .ok 0 : Res Nat) =
      .ok (if i > k then l[i - (k + 1)]?.getD 0 else 0) := by
  split_ifs with hi
  · exact idx_getD (by omega)
  · rfl

theorem wordsOk_getD {l : List Nat} (hw : WordsOk l) (i : Nat) : l[i]?.getD 0 < 4294967296 := by
  by_cases h : i < l.length
  · rw [List.getElem?_eq_getElem h]; exact hw _ (List.getElem_mem h)
  · rw [List.getElem?_eq_none (by omega)]; decide

theorem normVal {hi m lo s : Nat} (hs : s < 32) (hm : m < 4294967296) (hlo : lo < 4294967296)
    (hhi : hi * 2 ^ s < 18446744073709551616) :
    (if s > 0 then (u64 (hi <<< s) ||| (m >>> (32 - s)), u32 (m <<< s) ||| (lo >>> (32 - s))) else (hi, m)) =
      (hi * 2 ^ s + m / 2 ^ (32 - s), (m % 2 ^ (32 - s)) * 2 ^ s + lo / 2 ^ (32 - s)) := by
  split_ifs with h
  · rw [u64_of_lt (by rwa [Nat.shiftLeft_eq]), shift_join (by omega) hm, u32_shl (by omega), shift_join (by omega) hlo]
  · obtain rfl : s = 0 := by omega
    simp only [pow_zero, Nat.mul_one, Nat.sub_zero]
    rw [Nat.div_eq_of_lt (show m < 2 ^ 32 from hm), Nat.div_eq_of_lt (show lo < 2 ^ 32 from hlo),
      Nat.mod_eq_of_lt (show m < 2 ^ 32 from hm)]
    rfl

theorem normVal_lo_lt {m lo s : Nat} (hs : s < 32) (hlo : lo < 4294967296) :
    (m % 2 ^ (32 - s)) * 2 ^ s + lo / 2 ^ (32 - s) < 4294967296 := by
  have hB : (4294967296 : Nat) = 2 ^ s * 2 ^ (32 - s) := by
    rw [← pow_add, show s + (32 - s) = 32 by omega]; norm_num
  have hc : 0 < 2 ^ (32 - s) := Nat.pow_pos (by decide)
  have h1 := Nat.mod_lt m hc
  have h2 : lo / 2 ^ (32 - s) < 2 ^ s := by rw [Nat.div_lt_iff_lt_mul hc, ← hB]; exact hlo
  generalize 2 ^ (32 - s) = c at *
  generalize 2 ^ s = f at *
  rw [hB]
  calc m % c * f + lo / c < m % c * f + f := by omega
    _ = (m % c + 1) * f := by ring
    _ ≤ c * f := Nat.mul_le_mul_right _ h1
    _ = f * c := by ring

/-- Facts about the divisor that `divideCore` establishes before the loop. -/
structure DivisorOk (rhs : List Nat) (shift divHi divLo : Nat) : Prop where
  words : WordsOk rhs
  pos : 1 ≤ rhs.length
  shift_lt : shift < 32
  top : rhs[rhs.length - 1]?.getD 0 * 2 ^ shift < 4294967296
  hi : divHi < 4294967296
  hi_ge : 2147483648 ≤ divHi
  lo : divLo < 4294967296
  eq : divHi * 4294967296 + divLo = top3 rhs rhs.length / 2 ^ (32 - shift)
  val_ge : 𝔹 ^ (rhs.length - 1) ≤ val rhs

theorem clear_top {pre w rest : List Nat} {i : Nat} (hi : i = pre.length + w.length) :
    ∃ rest0, (if i < (pre ++ (w ++ rest)).length then put (pre ++ (w ++ rest)) i 0 else .ok (pre ++ (w ++ rest)))
        = .ok (pre ++ (w ++ rest0)) ∧ rest0.length = rest.length ∧ (WordsOk rest → WordsOk rest0) ∧
      (val rest.tail = 0 → val rest0 = 0) := by
  cases rest with
  | nil =>
    refine ⟨[], ?_, rfl, fun h => h, by simp⟩
    rw [if_neg (by simp; omega)]
  | cons t z =>
    refine ⟨0 :: z, ?_, by simp, ?_, ?_⟩
    · rw [if_pos (by simp; omega), put_ok _ (by simp; omega), hi]
      congr 1
      rw [List.set_append_right _ _ (by omega), List.set_append_right _ _ (by omega)]
      simp
    · intro h; rw [wordsOk_cons] at h ⊢; exact ⟨by decide, h.2⟩
    · intro h; simp only [List.tail_cons] at h; simp [val_cons, h]

/-- The window: `w` in place, `t` above it, zeros beyond. -/
structure Window (lhs w rest : List Nat) (n L t cur : Nat) : Prop where
  split : lhs = lhs.take n ++ (w ++ rest)
  pre : (lhs.take n).length = n
  drop : lhs.drop n = w ++ rest
  wlen : w.length = L
  wwords : WordsOk w
  rwords : WordsOk rest
  tread : (if n + L < lhs.length then idx lhs (n + L) else .ok 0 : Res Nat) = .ok t
  rest_val : val rest = t
  tail_val : val rest.tail = 0
  tlt : t < 4294967296
  cur_eq : cur = val w + 𝔹 ^ L * t
  take_eq : val (lhs.take (n + L)) = val (lhs.take n) + 𝔹 ^ n * val w

theorem window_exists {lhs : List Nat} {n L : Nat} (hw : WordsOk lhs) (hn : n + L ≤ lhs.length)
    (hcur : val (lhs.drop n) < 𝔹 ^ L * 4294967296) :
    ∃ w rest t, Window lhs w rest n L t (val (lhs.drop n)) := by
  have hdropn : lhs.drop n = (lhs.drop n).take L ++ lhs.drop (n + L) := by
    rw [← List.drop_drop, List.take_append_drop]
  have hlhs : lhs = lhs.take n ++ ((lhs.drop n).take L ++ lhs.drop (n + L)) := by
    rw [← hdropn, List.take_append_drop]
  have hpl : (lhs.take n).length = n := by simp; omega
  have hwl : ((lhs.drop n).take L).length = L := by simp; omega
  have htk : val (lhs.take (n + L)) = val (lhs.take n) + 𝔹 ^ n * val ((lhs.drop n).take L) := by
    rw [List.take_add, val_append, hpl]
  have hrw : WordsOk (lhs.drop (n + L)) := hw.drop _
  have hcureq : val (lhs.drop n) = val ((lhs.drop n).take L) + 𝔹 ^ L * val (lhs.drop (n + L)) := by
    conv_lhs => rw [hdropn, val_append, hwl]
  have hrest : val (lhs.drop (n + L)) < 4294967296 := by
    have : 𝔹 ^ L * val (lhs.drop (n + L)) < 𝔹 ^ L * 4294967296 := by omega
    exact Nat.lt_of_mul_lt_mul_left this
  cases hr : lhs.drop (n + L) with
  | nil =>
    rw [hr] at hdropn hlhs hcureq hrw
    have : lhs.length ≤ n + L := by rw [← List.drop_eq_nil_iff, hr]
    exact ⟨_, _, 0, hlhs, hpl, hdropn, hwl, (hw.drop n).take L, hrw, by rw [if_neg (by omega)], by simp, by simp,
      by omega, by simpa using hcureq, htk⟩
  | cons t z =>
    rw [hr] at hdropn hlhs hcureq hrw hrest
    have hlt : n + L < lhs.length := by
      by_contra h
      have := List.drop_eq_nil_iff.2 (not_lt.1 h)
      rw [hr] at this; simp at this
    have ht : lhs[n + L]? = some t := by
      have := List.getElem?_drop (xs := lhs) (i := n + L) (j := 0)
      rw [hr] at this; simpa using this.symm
    rw [val_cons] at hrest
    have hz : val z = 0 := by omega
    refine ⟨_, _, t, hlhs, hpl, hdropn, hwl, (hw.drop n).take L, hrw, ?_, by simp [val_cons, hz], by simpa using hz,
      by omega, ?_, htk⟩
    · rw [if_pos hlt]; simp [idx, ht]
    · rw [hcureq]; simp [val_cons, hz]

theorem divideApply_spec {lhs rhs w rest : List Nat} {n t cur g : Nat} (hwr : WordsOk rhs)
    (hn : n + rhs.length ≤ lhs.length) (W : Window lhs w rest n rhs.length t cur) (hD : 0 < val rhs)
    (hg : g < 4294967296) (q1 : cur / val rhs ≤ g) (q2 : g ≤ cur / val rhs + 1) :
    ∃ mem, divideApply lhs rhs n t g = .ok (lhs.take n ++ mem, cur / val rhs) ∧
      mem.length = lhs.length - n ∧ WordsOk mem ∧ val mem = cur % val rhs := by
  obtain ⟨hsplit, hpl, hdropn, hwl, hww, hrw, htread, hrv, htail, htb, hcureq, -⟩ := W
  have hDlt := val_lt hwr
  have hdm := Nat.div_add_mod cur (val rhs)
  have hmodlt := Nat.mod_lt cur hD
  have hlen : lhs.length = n + (rhs.length + rest.length) := by
    conv_lhs => rw [hsplit]
    rw [List.length_append, List.length_append, hpl, hwl]
  have hsl : slice lhs n (lhs.length - n) = .ok (w ++ rest) := by
    rw [slice_suffix (by omega), hdropn]
  generalize hL : rhs.length = L at *
  generalize hDe : val rhs = D at *
  generalize hq : cur / D = q at *
  generalize hr : cur % D = r at *
  -- finishing: the new window `o` has value `r`
  have finish : ∀ o : List Nat, o.length = L → WordsOk o → val o = r → ∀ d, d = q →
      ∃ mem, (do
        let lhs ← (if n + L < (lhs.take n ++ (o ++ rest)).length then put (lhs.take n ++ (o ++ rest)) (n + L) 0
          else .ok (lhs.take n ++ (o ++ rest)))
        (.ok (lhs, d) : Res (List Nat × Nat))) = .ok (lhs.take n ++ mem, q) ∧
      mem.length = lhs.length - n ∧ WordsOk mem ∧ val mem = r := by
    intro o hol how hov d hd
    obtain ⟨rest0, hc1, hc2, hc3, hc4⟩ := clear_top (pre := lhs.take n) (w := o) (rest := rest) (i := n + L) (by rw [hpl, hol])
    rw [hc1]
    refine ⟨o ++ rest0, by simp [hd], by simp [hc2, hol]; omega, wordsOk_append.2 ⟨how, hc3 hrw⟩, ?_⟩
    rw [val_append, hc4 htail, hov, Nat.mul_zero, Nat.add_zero]
  unfold divideApply
  rw [hL]
  by_cases hg0 : g = 0
  · subst hg0
    rw [if_neg (by omega)]
    simp only [Res.ok_bind]
    have hq0 : q = 0 := by omega
    have hcr : cur = r := by rw [← hdm, hq0]; omega
    have ht0 : t = 0 := by
      by_contra h
      have : 𝔹 ^ L * 1 ≤ 𝔹 ^ L * t := Nat.mul_le_mul_left _ (by omega)
      omega
    have := finish w hwl hww (by rw [← hcr, hcureq, ht0]; omega) 0 hq0.symm
    rwa [← hsplit] at this
  · rw [if_pos (by omega), hsl]
    simp only [Res.ok_bind]
    rw [cassert_pos (by omega)]
    simp only [Res.ok_bind]
    obtain ⟨o, c', he, hol, how, hc', hov⟩ := subtractDivisor_spec hww hwr (by omega) rest hg (c := 0) (by omega)
    rw [he]
    simp only [Res.ok_bind]
    rw [hwl, hDe] at hov
    have hob := val_lt how
    rw [hol, hwl] at hob
    rcases (show g = q ∨ g = q + 1 by omega) with hgq | hgq
    · -- the guess was right: `val o - r = B^L (c' - t)`
      have heqn : ((val o : Nat) : Int) + (𝔹 ^ L : Nat) * ((t : Int) - c') = (r : Nat) := by
        zify at hov hcureq hdm
        rw [hgq] at hov
        push_cast at hov hcureq hdm ⊢
        linear_combination hov - hcureq - hdm
      obtain ⟨h0, hvo⟩ := carry_zero hob (by omega) heqn
      have hct : c' = t := by omega
      simp only [hct, ne_eq, not_true_eq_false, if_false, Res.ok_bind]
      exact finish o (by omega) how hvo g hgq
    · -- one too large: `val o + D = r + B^L (c' - t)`
      obtain ⟨o2, c2, he2, hol2, how2, hc2, hov2⟩ := addDivisor_spec how hwr (by omega) rest (c := 0) (by omega)
      rw [hol, hwl, hDe] at hov2
      have hob2 := val_lt how2
      rw [hol2, hol, hwl] at hob2
      have heqn : ((val o2 : Nat) : Int) + (𝔹 ^ L : Nat) * ((t : Int) + c2 - c') = (r : Nat) := by
        zify at hov hcureq hdm hov2
        rw [hgq] at hov
        push_cast at hov hcureq hdm hov2 ⊢
        linear_combination hov - hcureq - hdm + hov2
      obtain ⟨h0, hvo⟩ := carry_zero hob2 (by omega) heqn
      have hc2' : c2 = 1 := by
        by_contra hne
        have hz : c2 = 0 := by omega
        rw [hz] at hov2
        omega
      have hct : c' = t + 1 := by omega
      rw [if_pos (by omega), cassert_pos (by rw [u32_of_lt (by omega)]; exact hct)]
      simp only [Res.ok_bind, he2]
      rw [cassert_pos hc2']
      simp only [Res.ok_bind]
      exact finish o2 (by omega) how2 hvo (g - 1) (by omega)

theorem top_shift_lt {t v1 d1 s : Nat} (hs : s < 32) (htd : t ≤ d1) (hd1 : d1 * 2 ^ s < 4294967296)
    (hv1 : v1 < 4294967296) : (4294967296 * t + v1) * 2 ^ s < 18446744073709551616 := by
  have hB : (4294967296 : Nat) = 2 ^ s * 2 ^ (32 - s) := by
    rw [← pow_add, show s + (32 - s) = 32 by omega]; norm_num
  have hfpos : 0 < 2 ^ s := Nat.pow_pos (by decide)
  have h1 : d1 < 2 ^ (32 - s) := by
    by_contra h
    have : 2 ^ (32 - s) * 2 ^ s ≤ d1 * 2 ^ s := Nat.mul_le_mul_right _ (not_lt.1 h)
    rw [Nat.mul_comm, ← hB] at this
    omega
  have h2 : (t + 1) * 2 ^ s ≤ 4294967296 := by
    calc (t + 1) * 2 ^ s ≤ 2 ^ (32 - s) * 2 ^ s := Nat.mul_le_mul_right _ (by omega)
      _ = _ := by rw [Nat.mul_comm, ← hB]
  calc (4294967296 * t + v1) * 2 ^ s < (4294967296 * (t + 1)) * 2 ^ s :=
        Nat.mul_lt_mul_of_pos_right (by omega) hfpos
    _ = 4294967296 * ((t + 1) * 2 ^ s) := by ring
    _ ≤ 4294967296 * 4294967296 := Nat.mul_le_mul_left _ h2

theorem guess_value {VH VL divHi divLo : Nat} (hdh : divHi < 4294967296) (hdl : divLo < 4294967296)
    (hvl : VL < 4294967296) (hpos : 0 < divHi) :
    fixGuess VH VL divHi divLo (if VH / divHi > 0xFFFFFFFF then 0xFFFFFFFF else VH / divHi) =
      min 4294967295 ((VH * 4294967296 + VL) / (divHi * 4294967296 + divLo)) := by
  rw [fixGuess_spec hdh hdl hvl hpos (by split_ifs <;> omega)]
  have h1 : (VH * 4294967296 + VL) / (divHi * 4294967296 + divLo) ≤ VH / divHi := by
    calc (VH * 4294967296 + VL) / (divHi * 4294967296 + divLo)
        ≤ (VH * 4294967296 + VL) / (divHi * 4294967296) := Nat.div_le_div_left (by omega) (by omega)
      _ = (VH * 4294967296 + VL) / 4294967296 / divHi := by rw [Nat.mul_comm divHi, Nat.div_div_eq_div_mul]
      _ = VH / divHi := by congr 1; omega
  split_ifs <;> omega

/-- The word above the window is at most the top word of the divisor. -/
theorem window_top_le {rhs : List Nat} {t x : Nat} (hwr : WordsOk rhs) (hL : 1 ≤ rhs.length)
    (hcur : x + 𝔹 ^ rhs.length * t < val rhs * 4294967296) : t ≤ rhs[rhs.length - 1]?.getD 0 := by
  have h1 : val (rhs.take (rhs.length - 1)) < 𝔹 ^ (rhs.length - 1) := by
    have := val_lt (hwr.take (rhs.length - 1))
    rwa [List.length_take, Nat.min_eq_left (by omega)] at this
  have h2 := val_take_succ (l := rhs) (i := rhs.length - 1) (by omega)
  rw [Nat.sub_add_cancel hL, List.take_of_length_le (le_refl _)] at h2
  have hBL : 𝔹 ^ rhs.length = 𝔹 ^ (rhs.length - 1) * 4294967296 := by rw [← pow_succ]; congr 1; omega
  generalize rhs[rhs.length - 1]?.getD 0 = d1 at *
  generalize 𝔹 ^ (rhs.length - 1) = M at *
  rw [hBL, h2] at hcur
  have : M * 4294967296 * t < M * 4294967296 * (d1 + 1) := by
    calc M * 4294967296 * t < (val (rhs.take (rhs.length - 1)) + M * d1) * 4294967296 := by omega
      _ ≤ (M + M * d1) * 4294967296 := Nat.mul_le_mul_right _ (by omega)
      _ = _ := by ring
  have := Nat.lt_of_mul_lt_mul_left this
  omega

theorem divideGuess_eval {lhs rhs : List Nat} {shift divHi divLo n t : Nat} (hw : WordsOk lhs)
    (hs : shift < 32) (hn : n + rhs.length ≤ lhs.length) (hL : 1 ≤ rhs.length)
    (htread : (if n + rhs.length < lhs.length then idx lhs (n + rhs.length) else .ok 0 : Res Nat) = .ok t)
    (ht : t < 4294967296) (hdiv : 0 < divHi)
    {v1 v2 v3 : Nat} (e1 : v1 = lhs[n + rhs.length - 1]?.getD 0)
    (e2 : v2 = if n + rhs.length > 1 then lhs[n + rhs.length - 2]?.getD 0 else 0)
    (e3 : v3 = if n + rhs.length > 2 then lhs[n + rhs.length - 3]?.getD 0 else 0)
    (hhi : (4294967296 * t + v1) * 2 ^ shift < 18446744073709551616) :
    divideGuess lhs rhs shift divHi divLo n = .ok (t,
      let VH := (4294967296 * t + v1) * 2 ^ shift + v2 / 2 ^ (32 - shift)
      let VL := (v2 % 2 ^ (32 - shift)) * 2 ^ shift + v3 / 2 ^ (32 - shift)
      fixGuess VH VL divHi divLo (if VH / divHi > 0xFFFFFFFF then 0xFFFFFFFF else VH / divHi)) := by
  have hv1 : v1 < 4294967296 := e1 ▸ wordsOk_getD hw _
  have hv2 : v2 < 4294967296 := by
    rw [e2]; split_ifs; exacts [wordsOk_getD hw _, by decide]
  have hv3 : v3 < 4294967296 := by
    rw [e3]; split_ifs; exacts [wordsOk_getD hw _, by decide]
  have hi1 : idx lhs (n + rhs.length - 1) = .ok v1 := by rw [e1]; exact idx_getD (by omega)
  have hi2 := idx_if (l := lhs) (i := n + rhs.length) (k := 1) hn (by omega)
  have hi3 := idx_if (l := lhs) (i := n + rhs.length) (k := 2) hn (by omega)
  rw [show 1 + 1 = 2 from rfl, ← e2] at hi2
  rw [show 2 + 1 = 3 from rfl, ← e3] at hi3
  have hnv := normVal hs hv2 hv3 hhi
  clear e1 e2 e3
  unfold divideGuess
  simp only [htread, hi1, hi2, hi3, Res.ok_bind, shl32_or ht hv1]
  have hprog : (if shift > 0 then
      .ok (u64 ((4294967296 * t + v1) <<< shift) ||| (v2 >>> (32 - shift)), u32 (v2 <<< shift) ||| (v3 >>> (32 - shift)))
      else .ok (4294967296 * t + v1, v2) : Res (Nat × Nat)) =
      .ok ((4294967296 * t + v1) * 2 ^ shift + v2 / 2 ^ (32 - shift), (v2 % 2 ^ (32 - shift)) * 2 ^ shift + v3 / 2 ^ (32 - shift)) := by
    rw [← hnv]
    split_ifs <;> rfl
  rw [hprog]
  simp only [Res.ok_bind]
  rw [if_neg (by omega)]

theorem divideGuess_spec {lhs rhs w rest : List Nat} {shift divHi divLo n t cur : Nat} (hw : WordsOk lhs)
    (hd : DivisorOk rhs shift divHi divLo) (hn : n + rhs.length ≤ lhs.length)
    (W : Window lhs w rest n rhs.length t cur) (hcur : cur < val rhs * 4294967296) :
    ∃ g, divideGuess lhs rhs shift divHi divLo n = .ok (t, g) ∧ g < 4294967296 ∧
      cur / val rhs ≤ g ∧ g ≤ cur / val rhs + 1 := by
  have hcur' := hcur
  rw [W.cur_eq] at hcur'
  have htd := window_top_le hd.words hd.pos hcur'
  have hhi := top_shift_lt hd.shift_lt htd hd.top (wordsOk_getD hw (n + rhs.length - 1))
  have hev := divideGuess_eval (divHi := divHi) (divLo := divLo) hw hd.shift_lt hn hd.pos W.tread W.tlt
    (by have := hd.hi_ge; omega) rfl rfl rfl hhi
  have hv3 : (if n + rhs.length > 2 then lhs[n + rhs.length - 3]?.getD 0 else 0) < 4294967296 := by
    split_ifs; exacts [wordsOk_getD hw _, by decide]
  obtain ⟨lowd, hlowd, hDeq⟩ := top3_spec hd.words hd.pos (le_refl _)
  rw [List.take_of_length_le (le_refl _)] at hDeq
  obtain ⟨lowu, hlowu, hUeq⟩ := top3_spec hw (i := n + rhs.length) (by have := hd.pos; omega) hn
  rw [W.take_eq] at hUeq
  unfold top3 at hUeq
  have hvlo := normVal_lo_lt (m := if n + rhs.length > 1 then lhs[n + rhs.length - 2]?.getD 0 else 0) hd.shift_lt hv3
  have hnt := norm_top (hi := 4294967296 * t + lhs[n + rhs.length - 1]?.getD 0)
    (m := if n + rhs.length > 1 then lhs[n + rhs.length - 2]?.getD 0 else 0)
    (lo := if n + rhs.length > 2 then lhs[n + rhs.length - 3]?.getD 0 else 0) (s := shift)
    (by have := hd.shift_lt; omega)
  have halt := val_lt (hw.take n)
  rw [W.pre] at halt
  have hDpos : 0 < val rhs := lt_of_lt_of_le (Nat.pow_pos (by decide)) hd.val_ge
  have hce := W.cur_eq
  obtain ⟨-, hL, hs, -, hdh, hdhge, hdl, heq, -⟩ := hd
  clear hhi hv3 htd W hcur'
  generalize lhs[n + rhs.length - 1]?.getD 0 = v1 at *
  generalize (if n + rhs.length > 1 then lhs[n + rhs.length - 2]?.getD 0 else 0) = v2 at *
  generalize (if n + rhs.length > 2 then lhs[n + rhs.length - 3]?.getD 0 else 0) = v3 at *
  generalize hVH : (4294967296 * t + v1) * 2 ^ shift + v2 / 2 ^ (32 - shift) = VH at *
  generalize hVL : (v2 % 2 ^ (32 - shift)) * 2 ^ shift + v3 / 2 ^ (32 - shift) = VL at *
  simp only at hev
  rw [guess_value hdh hdl hvlo (by omega)] at hev
  refine ⟨_, hev, lt_of_le_of_lt (Nat.min_le_left _ _) (by norm_num), ?_⟩
  refine guess_bounds (a := val (lhs.take n)) (M := 𝔹 ^ (rhs.length - 1)) (P := 𝔹 ^ n)
    (c := 2 ^ (32 - shift)) (T := top3 rhs rhs.length)
    (U := (4294967296 * t + v1) * 4294967296 * 4294967296 + v2 * 4294967296 + v3)
    (lowd := lowd) (lowu := lowu) (Nat.pow_pos (by decide)) hlowd ?_ hDeq ?_ halt hDpos (by rw [← heq]; omega) hcur
    (by rw [hnt, heq])
  · rw [← pow_add]; rwa [show rhs.length - 1 + n = n + rhs.length - 1 by omega]
  · have hPL : 𝔹 ^ n * 𝔹 ^ rhs.length = 𝔹 ^ (n + rhs.length - 1) * 4294967296 := by
      rw [← pow_add, ← pow_succ]; congr 1; omega
    have hMP : 𝔹 ^ (rhs.length - 1) * 𝔹 ^ n = 𝔹 ^ (n + rhs.length - 1) := by rw [← pow_add]; congr 1; omega
    rw [hMP, hce]
    linear_combination hUeq + 18446744073709551616 * t * hPL

theorem divideStep_spec {lhs rhs : List Nat} {shift divHi divLo n : Nat} (hw : WordsOk lhs)
    (hd : DivisorOk rhs shift divHi divLo) (hn : n + rhs.length ≤ lhs.length)
    (hcur : val (lhs.drop n) < val rhs * 4294967296) :
    ∃ mem, divideStep lhs rhs shift divHi divLo n = .ok (lhs.take n ++ mem, val (lhs.drop n) / val rhs) ∧
      mem.length = lhs.length - n ∧ WordsOk mem ∧ val mem = val (lhs.drop n) % val rhs := by
  have hDlt := val_lt hd.words
  have hDpos : 0 < val rhs := lt_of_lt_of_le (Nat.pow_pos (by decide)) hd.val_ge
  obtain ⟨w, rest, t, W⟩ := window_exists hw hn (lt_of_lt_of_le hcur (Nat.mul_le_mul_right _ (by omega)))
  obtain ⟨g, he, hg, q1, q2⟩ := divideGuess_spec hw hd hn W hcur
  obtain ⟨mem, he2, h⟩ := divideApply_spec hd.words hn W hDpos hg q1 q2
  exact ⟨mem, by simp [divideStep, he, he2], h⟩

/-! ### the loop and the entry points -/

theorem divideLoop_spec {rhs : List Nat} {shift divHi divLo : Nat} (hd : DivisorOk rhs shift divHi divLo) (k : Nat)
    {lhs bits : List Nat} (hw : WordsOk lhs) (hk : k + rhs.length ≤ lhs.length + 1)
    (hrem : val (lhs.drop k) < val rhs) (hb : bits = [] ∨ k ≤ bits.length) :
    ∃ lhs' q, divideLoop rhs shift divHi divLo k lhs bits =
        .ok (lhs', if bits = [] then [] else q ++ bits.drop k) ∧
      lhs'.length = lhs.length ∧ WordsOk lhs' ∧ val lhs' < val rhs ∧ q.length = k ∧ WordsOk q ∧
      val lhs = val rhs * val q + val lhs' := by
  induction k generalizing lhs bits with
  | zero =>
    refine ⟨lhs, [], ?_, rfl, hw, by simpa using hrem, rfl, wordsOk_nil, by simp⟩
    rw [divideLoop]
    split_ifs with h
    · rw [h]
    · simp
  | succ n ih =>
    have hL := hd.pos
    have hDpos : 0 < val rhs := by omega
    have hcons : lhs.drop n = lhs[n]?.getD 0 :: lhs.drop (n + 1) := by
      rw [List.drop_eq_getElem_cons (by omega), List.getElem?_eq_getElem (by omega)]; rfl
    have hwd := wordsOk_getD hw n
    have hcur : val (lhs.drop n) < val rhs * 4294967296 := by
      rw [hcons, val_cons]; omega
    obtain ⟨mem, he, hml, hmw, hmv⟩ := divideStep_spec hw hd (by omega) hcur
    have hq : val (lhs.drop n) / val rhs < 4294967296 := by
      rw [Nat.div_lt_iff_lt_mul hDpos, Nat.mul_comm]; exact hcur
    have hpl : (lhs.take n).length = n := by simp; omega
    have hdrop : (lhs.take n ++ mem).drop n = mem := by
      rw [List.drop_append_of_le_length (by omega), List.drop_eq_nil_of_le (by omega)]; rfl
    have hput : (if bits.length ≠ 0 then put bits n (u32 (val (lhs.drop n) / val rhs)) else .ok bits : Res (List Nat)) =
        .ok (bits.set n (val (lhs.drop n) / val rhs)) := by
      rw [u32_of_lt hq]
      rcases hb with rfl | hb
      · simp
      · rw [if_pos (by omega), put_ok _ (by omega)]
    obtain ⟨lhs', q, he', h1, h2, h3, h4, h5, h6⟩ := ih (lhs := lhs.take n ++ mem)
      (bits := bits.set n (val (lhs.drop n) / val rhs))
      (wordsOk_append.2 ⟨hw.take n, hmw⟩)
      (by rw [List.length_append, hpl, hml]; omega)
      (by rw [hdrop, hmv]; exact Nat.mod_lt _ hDpos)
      (by rcases hb with rfl | hb
          · left; simp
          · right; simp; omega)
    refine ⟨lhs', q ++ [val (lhs.drop n) / val rhs], ?_, ?_, h2, h3, by simp [h4], ?_, ?_⟩
    · rw [divideLoop, he]
      simp only [Res.ok_bind, hput, he', List.set_eq_nil_iff]
      congr 2
      split_ifs with h
      · rfl
      · have hb' : n + 1 ≤ bits.length := by tauto
        rw [List.append_assoc]
        congr 1
        rw [List.drop_eq_getElem_cons (by simp; omega)]
        simp [List.drop_set_of_lt]
    · rw [h1, List.length_append, hpl, hml]; omega
    · exact wordsOk_append.2 ⟨h5, wordsOk_cons.2 ⟨hq, wordsOk_nil⟩⟩
    · have e1 := val_take_add_drop lhs n (by omega)
      have e2 := Nat.div_add_mod (val (lhs.drop n)) (val rhs)
      rw [val_append, hpl, hmv] at h6
      rw [val_append, val_singleton, h4]
      linear_combination h6 - e1 - 𝔹 ^ n * e2

theorem divisorOk_of_top {rhs : List Nat} (hw : WordsOk rhs) (hne : rhs ≠ []) (htop : rhs.getLast? ≠ some 0)
    {divHi divLo : Nat}
    (h : ∀ d1 d2 d3, d1 = rhs[rhs.length - 1]?.getD 0 →
      d2 = (if rhs.length > 1 then rhs[rhs.length - 2]?.getD 0 else 0) →
      d3 = (if rhs.length > 2 then rhs[rhs.length - 3]?.getD 0 else 0) →
      divHi = d1 * 2 ^ leadingZeros d1 + d2 / 2 ^ (32 - leadingZeros d1) ∧
      divLo = (d2 % 2 ^ (32 - leadingZeros d1)) * 2 ^ leadingZeros d1 + d3 / 2 ^ (32 - leadingZeros d1)) :
    DivisorOk rhs (leadingZeros (rhs[rhs.length - 1]?.getD 0)) divHi divLo := by
  have hlen : 0 < rhs.length := List.length_pos_iff.2 hne
  have hd0 : rhs[rhs.length - 1]?.getD 0 ≠ 0 := by
    rw [← List.getLast?_eq_getElem?]
    rw [List.getLast?_eq_some_getLast hne] at htop ⊢
    simpa using htop
  have hd1 := wordsOk_getD hw (rhs.length - 1)
  have hv2 : (if rhs.length > 1 then rhs[rhs.length - 2]?.getD 0 else 0) < 4294967296 := by
    split_ifs; exacts [wordsOk_getD hw _, by decide]
  have hv3 : (if rhs.length > 2 then rhs[rhs.length - 3]?.getD 0 else 0) < 4294967296 := by
    split_ifs; exacts [wordsOk_getD hw _, by decide]
  have hval := val_pos_of_top hne htop
  obtain ⟨e1, e2⟩ := h _ _ _ rfl rfl rfl
  have ht3 : top3 rhs rhs.length = rhs[rhs.length - 1]?.getD 0 * 4294967296 * 4294967296 +
    (if rhs.length > 1 then rhs[rhs.length - 2]?.getD 0 else 0) * 4294967296 +
    (if rhs.length > 2 then rhs[rhs.length - 3]?.getD 0 else 0) := rfl
  obtain ⟨z1, z2, z3⟩ := leadingZeros_spec hd0 hd1
  generalize hg1 : rhs[rhs.length - 1]?.getD 0 = d1 at *
  generalize (if rhs.length > 1 then rhs[rhs.length - 2]?.getD 0 else 0) = d2 at *
  generalize (if rhs.length > 2 then rhs[rhs.length - 3]?.getD 0 else 0) = d3 at *
  have hdl := normVal_lo_lt (m := d2) z1 hv3
  have hnt := norm_top (hi := d1) (m := d2) (lo := d3) (s := leadingZeros d1) (by omega)
  have hup : d1 * 2 ^ leadingZeros d1 + d2 / 2 ^ (32 - leadingZeros d1) < 4294967296 := by
    have hB : (4294967296 : Nat) = 2 ^ leadingZeros d1 * 2 ^ (32 - leadingZeros d1) := by
      rw [← pow_add, show leadingZeros d1 + (32 - leadingZeros d1) = 32 by omega]; norm_num
    have hcpos : 0 < 2 ^ (32 - leadingZeros d1) := Nat.pow_pos (by decide)
    have h2 : d2 / 2 ^ (32 - leadingZeros d1) < 2 ^ leadingZeros d1 := by
      rw [Nat.div_lt_iff_lt_mul hcpos, ← hB]; exact hv2
    generalize 2 ^ leadingZeros d1 = f at *
    generalize 2 ^ (32 - leadingZeros d1) = c at *
    have h1 : d1 < c := by
      by_contra h
      have : c * f ≤ d1 * f := Nat.mul_le_mul_right _ (not_lt.1 h)
      rw [Nat.mul_comm, ← hB] at this; omega
    rw [hB]
    calc d1 * f + d2 / c < d1 * f + f := by omega
      _ = (d1 + 1) * f := by ring
      _ ≤ c * f := Nat.mul_le_mul_right _ h1
      _ = f * c := by ring
  exact ⟨hw, hlen, z1, by rw [hg1]; exact z3, by rw [e1]; exact hup, by rw [e1]; exact le_trans z2 (Nat.le_add_right _ _),
    by rw [e2]; exact hdl, by rw [e1, e2, hnt, ht3], hval⟩

theorem divideCore_spec {lhs rhs bits : List Nat} (hwl : WordsOk lhs) (hwr : WordsOk rhs) (hne : rhs ≠ [])
    (htop : rhs.getLast? ≠ some 0) (hlen : rhs.length ≤ lhs.length)
    (hb : bits = [] ∨ bits.length = lhs.length - rhs.length + 1) :
    ∃ lhs' q, divideCore lhs rhs bits = .ok (lhs', if bits = [] then [] else q) ∧
      lhs'.length = lhs.length ∧ WordsOk lhs' ∧ val lhs' = val lhs % val rhs ∧
      q.length = lhs.length - rhs.length + 1 ∧ WordsOk q ∧ val q = val lhs / val rhs := by
  have hpos : 0 < rhs.length := List.length_pos_iff.2 hne
  have hd0 : rhs[rhs.length - 1]?.getD 0 ≠ 0 := by
    rw [← List.getLast?_eq_getElem?]
    rw [List.getLast?_eq_some_getLast hne] at htop ⊢
    simpa using htop
  have hv1 := wordsOk_getD hwr (rhs.length - 1)
  have hv2 : (if rhs.length > 1 then rhs[rhs.length - 2]?.getD 0 else 0) < 4294967296 := by
    split_ifs; exacts [wordsOk_getD hwr _, by decide]
  have hv3 : (if rhs.length > 2 then rhs[rhs.length - 3]?.getD 0 else 0) < 4294967296 := by
    split_ifs; exacts [wordsOk_getD hwr _, by decide]
  have hi1 : idx rhs (rhs.length - 1) = .ok (rhs[rhs.length - 1]?.getD 0) := idx_getD (by omega)
  have hi2 := idx_if (l := rhs) (i := rhs.length) (k := 1) (le_refl _) (by omega)
  have hi3 := idx_if (l := rhs) (i := rhs.length) (k := 2) (le_refl _) (by omega)
  rw [show 1 + 1 = 2 from rfl] at hi2
  rw [show 2 + 1 = 3 from rfl] at hi3
  have hdiv := divisorOk_of_top hwr hne htop (fun d1 d2 d3 h1 h2 h3 => by
    subst h1; subst h2; subst h3; exact ⟨rfl, rfl⟩)
  obtain ⟨z1, z2, z3⟩ := leadingZeros_spec hd0 hv1
  have hnv := normVal z1 hv2 hv3 (lt_trans z3 (by norm_num))
  unfold divideCore
  rw [cassert_pos (by omega), cassert_pos (by omega), cassert_pos (by omega),
    cassert_pos (by rcases hb with rfl | hb; exacts [.inr rfl, .inl hb]), hi1, hi2, hi3]
  simp only [Res.ok_bind]
  generalize rhs[rhs.length - 1]?.getD 0 = d1 at *
  generalize (if rhs.length > 1 then rhs[rhs.length - 2]?.getD 0 else 0) = d2 at *
  generalize (if rhs.length > 2 then rhs[rhs.length - 3]?.getD 0 else 0) = d3 at *
  have hprog : (if leadingZeros d1 > 0 then
      if leadingZeros d1 ≥ 32 then .ub .badShift else
      .ok (u32 (d1 <<< leadingZeros d1) ||| (d2 >>> (32 - leadingZeros d1)),
        u32 (d2 <<< leadingZeros d1) ||| (d3 >>> (32 - leadingZeros d1)))
      else .ok (d1, d2) : Res (Nat × Nat)) =
      .ok (d1 * 2 ^ leadingZeros d1 + d2 / 2 ^ (32 - leadingZeros d1),
        (d2 % 2 ^ (32 - leadingZeros d1)) * 2 ^ leadingZeros d1 + d3 / 2 ^ (32 - leadingZeros d1)) := by
    rw [← hnv, if_neg (show ¬ leadingZeros d1 ≥ 32 by omega)]
    rw [u32_of_lt (n := d1 <<< leadingZeros d1) (by rw [Nat.shiftLeft_eq]; exact z3),
      u64_of_lt (n := d1 <<< leadingZeros d1) (by rw [Nat.shiftLeft_eq]; exact lt_trans z3 (by norm_num))]
    split_ifs <;> rfl
  rw [hprog]
  simp only [Res.ok_bind]
  have hrem : val (lhs.drop (lhs.length + 1 - rhs.length)) < val rhs := by
    have h1 := val_lt (hwl.drop (lhs.length + 1 - rhs.length))
    rw [List.length_drop, show lhs.length - (lhs.length + 1 - rhs.length) = rhs.length - 1 by omega] at h1
    have := hdiv.val_ge
    omega
  obtain ⟨lhs', q, he, h1, h2, h3, h4, h5, h6⟩ := divideLoop_spec hdiv (lhs.length + 1 - rhs.length) hwl (by omega) hrem
    (bits := bits) (by rcases hb with rfl | hb; exacts [.inl rfl, .inr (by omega)])
  refine ⟨lhs', q, ?_, h1, h2, ?_, by omega, h5, ?_⟩
  · rw [he]
    congr 2
    split_ifs with h
    · rfl
    · rw [List.drop_eq_nil_of_le (by rcases hb with rfl | hb; exacts [absurd rfl h, by omega]), List.append_nil]
  · rw [h6, Nat.mul_add_mod, Nat.mod_eq_of_lt h3]
  · rw [h6, Nat.mul_add_div (by omega), Nat.div_eq_of_lt h3, Nat.add_zero]

theorem divideVecRem_spec {xs ys : List Nat} (hx : WordsOk xs) (hy : WordsOk ys) (hyn : ys ≠ [])
    (hty : ys.getLast? ≠ some 0) (hl : ys.length ≤ xs.length) (hs : xs.length < 2147483648) :
    ∃ q r, divideVecRem xs ys = .ok (q, r) ∧ q.length = xs.length - ys.length + 1 ∧ WordsOk q ∧ val q = val xs / val ys ∧
      r.length = xs.length ∧ WordsOk r ∧ val r = val xs % val ys := by
  obtain ⟨r, q, he, h1, h2, h3, h4, h5, h6⟩ := divideCore_spec hx hy hyn hty hl
    (bits := List.replicate (xs.length - ys.length + 1) 0) (.inr (by simp))
  have hxn : xs ≠ [] := by rintro rfl; simp at hl; exact hyn hl
  refine ⟨q, r, ?_, h4, h5, h6, h1, h2, h3⟩
  rw [if_neg (by simp)] at he
  simp only [divideVecRem, hxn, hyn, ne_eq, not_false_eq_true, cassert_pos, hl, Res.ok_bind, sizeInt_ok hs, he]

theorem divideVec_spec {xs ys : List Nat} (hx : WordsOk xs) (hy : WordsOk ys) (hyn : ys ≠ [])
    (hty : ys.getLast? ≠ some 0) (hl : ys.length ≤ xs.length) (hs : xs.length < 2147483648) :
    ∃ q, divideVec xs ys = .ok q ∧ q.length = xs.length - ys.length + 1 ∧ WordsOk q ∧ val q = val xs / val ys := by
  obtain ⟨r, q, he, h1, h2, h3, h4, h5, h6⟩ := divideCore_spec hx hy hyn hty hl
    (bits := List.replicate (xs.length - ys.length + 1) 0) (.inr (by simp))
  have hxn : xs ≠ [] := by rintro rfl; simp at hl; exact hyn hl
  refine ⟨q, ?_, h4, h5, h6⟩
  rw [if_neg (by simp)] at he
  simp only [divideVec, hxn, hyn, ne_eq, not_false_eq_true, cassert_pos, hl, Res.ok_bind, sizeInt_ok hs, he]

theorem remainderVec_spec {xs ys : List Nat} (hx : WordsOk xs) (hy : WordsOk ys) (hyn : ys ≠ [])
    (hty : ys.getLast? ≠ some 0) (hl : ys.length ≤ xs.length) (hs : xs.length < 2147483648) :
    ∃ r, remainderVec xs ys = .ok r ∧ r.length = xs.length ∧ WordsOk r ∧ val r = val xs % val ys := by
  obtain ⟨r, q, he, h1, h2, h3, h4, h5, h6⟩ := divideCore_spec hx hy hyn hty hl (bits := []) (.inl rfl)
  have hxn : xs ≠ [] := by rintro rfl; simp at hl; exact hyn hl
  refine ⟨r, ?_, h1, h2, h3⟩
  simp only [remainderVec, hxn, hyn, ne_eq, not_false_eq_true, cassert_pos, hl, Res.ok_bind, sizeInt_ok hs, he]

end BigIntegerCpp
