import Verif.Lemmas.MulDiv
import Verif.Model.Text
/-
Decimal text.
-/
namespace BigIntegerCpp
set_option linter.unusedSectionVars false
set_option linter.unnecessarySeqFocus false
variable [Cfg]

/-! ### base 10^9 -/

/-- Base-`10^9` digits. -/
def NineOk (ds : List Nat) : Prop := ∀ d ∈ ds, d < 1000000000

theorem nineOk_append {xs ys : List Nat} : NineOk (xs ++ ys) ↔ NineOk xs ∧ NineOk ys := by
  simp only [NineOk, List.mem_append]
  exact ⟨fun h => ⟨fun w hw => h w (.inl hw), fun w hw => h w (.inr hw)⟩,
    fun h w hw => hw.elim (h.1 w) (h.2 w)⟩

theorem baseLoop_spec (ds : List Nat) (c : Nat) (hd : NineOk ds) (hc : c < 4294967296) :
    ∃ r c', baseLoop ds c = .ok (r, c') ∧ NineOk r ∧ r.length = ds.length ∧ c' < 4294967296 ∧
      digitsVal 1000000000 r + 1000000000 ^ ds.length * c' = 4294967296 * digitsVal 1000000000 ds + c := by
  induction ds generalizing c with
  | nil => exact ⟨[], c, rfl, by simp [NineOk], rfl, hc, by simp⟩
  | cons d ds ih =>
    have h1 : d < 1000000000 := hd d (by simp)
    have e : d <<< 32 = d * 4294967296 := by rw [Nat.shiftLeft_eq]
    have hu : u64 (d <<< 32) ||| c = 4294967296 * d + c := by
      rw [u64_of_lt (by rw [e]; omega), ← Nat.shiftLeft_add_eq_or_of_lt (i := 32) (by simpa using hc), e]
      omega
    have hq : (4294967296 * d + c) / 1000000000 < 4294967296 := by omega
    obtain ⟨r, c', h2, h3, h4, h5, h6⟩ := ih ((4294967296 * d + c) / 1000000000)
      (fun x hx => hd x (by simp [hx])) hq
    refine ⟨(4294967296 * d + c) % 1000000000 :: r, c', ?_, ?_, by simp [h4], h5, ?_⟩
    · unfold baseLoop
      rw [cassert_pos h1, Res.ok_bind]
      simp only [hu]
      rw [u32_of_lt hq, h2, Res.ok_bind, u32_of_lt (by omega)]
    · intro x hx
      rcases List.mem_cons.1 hx with rfl | hx
      · omega
      · exact h3 x hx
    · simp only [digitsVal_cons, List.length_cons, pow_succ]
      have h7 := Nat.div_add_mod (4294967296 * d + c) 1000000000
      generalize (4294967296 * d + c) / 1000000000 = q at *
      generalize (4294967296 * d + c) % 1000000000 = m at *
      have : 1000000000 ^ ds.length * 1000000000 * c' = 1000000000 * (1000000000 ^ ds.length * c') := by ring
      rw [this]
      omega

theorem nine_pos_of_top {xs : List Nat} (hne : xs ≠ []) (ht : xs.getLast? ≠ some 0) :
    1000000000 ^ (xs.length - 1) ≤ digitsVal 1000000000 xs := by
  induction xs with
  | nil => exact absurd rfl hne
  | cons x xs ih =>
    cases xs with
    | nil =>
      simp [digitsVal_cons] at ht ⊢
      omega
    | cons y ys =>
      have := ih (by simp) (by simpa [List.getLast?_cons_cons] using ht)
      rw [digitsVal_cons]
      simp only [List.length_cons, Nat.add_sub_cancel, pow_succ] at this ⊢
      omega

theorem nine_length {m q : Nat} (h : 1000000000 ^ q < 4294967296 ^ m) : q ≤ 10 * m / 9 := by
  by_contra hlt
  have h1 : 10 * m ≤ 9 * q := by omega
  have h2 : (4294967296 ^ m) ^ 9 ≤ (1000000000 ^ q) ^ 9 := by
    calc (4294967296 ^ m) ^ 9 = (4294967296 ^ 9) ^ m := by rw [← pow_mul, ← pow_mul, Nat.mul_comm]
      _ ≤ (1000000000 ^ 10) ^ m := Nat.pow_le_pow_left (by norm_num) _
      _ = 1000000000 ^ (10 * m) := by rw [← pow_mul]
      _ ≤ 1000000000 ^ (9 * q) := Nat.pow_le_pow_right (by decide) h1
      _ = (1000000000 ^ q) ^ 9 := by rw [← pow_mul, Nat.mul_comm]
  have h3 := Nat.pow_lt_pow_left h (show 9 ≠ 0 by decide)
  omega

theorem nine_len_of_val {ds : List Nat} {m v : Nat} (ht : ds.getLast? ≠ some 0)
    (hv : digitsVal 1000000000 ds = v) (hb : v < 4294967296 ^ m) : ds.length ≤ 10 * m / 9 + 1 := by
  by_cases hne : ds = []
  · simp [hne]
  · have := nine_pos_of_top hne ht
    have := nine_length (m := m) (q := ds.length - 1) (by omega)
    omega

theorem pushDigit_ok {n : Nat} {ds : List Nat} (d : Nat) (h : ds.length < n) : pushDigit n ds d = .ok (ds ++ [d]) := by
  simp [pushDigit, h]

theorem toBase_spec (cuMax : Nat) (ws : List Nat) (hw : WordsOk ws) (hm : 10 * ws.length / 9 + 1 < cuMax) :
    ∃ ds, toBase cuMax ws = .ok ds ∧ NineOk ds ∧ ds.getLast? ≠ some 0 ∧ digitsVal 1000000000 ds = val ws := by
  induction ws with
  | nil => exact ⟨[], rfl, by simp [NineOk], by simp, rfl⟩
  | cons w ws ih =>
    rw [wordsOk_cons] at hw
    rw [List.length_cons] at hm
    obtain ⟨ds, h1, h2, h3, h4⟩ := ih hw.2 (by omega)
    obtain ⟨r, c, g1, g2, g3, g4, g5⟩ := baseLoop_spec ds w h2 hw.1
    have hval : digitsVal 1000000000 r + 1000000000 ^ r.length * c = val (w :: ws) := by
      rw [g3, g5, val_cons, h4]; omega
    have hlt : val (w :: ws) < 4294967296 ^ (ws.length + 1) := by
      have := val_lt (wordsOk_cons.2 hw)
      rwa [List.length_cons] at this
    unfold toBase
    rw [h1, Res.ok_bind, g1, Res.ok_bind]
    dsimp only
    by_cases hc : c = 0
    · subst hc
      refine ⟨r, by simp, g2, ?_, by simpa using hval⟩
      by_cases hds : ds = []
      · subst hds
        have : r = [] := by simpa using g3
        simp [this]
      · exfalso
        have k1 := nine_pos_of_top hds h3
        have k2 := digitsVal_lt (b := 1000000000) (by decide) g2
        have k3 : 1 ≤ ds.length := List.length_pos_iff.2 hds
        rw [g3, show ds.length = ds.length - 1 + 1 by omega, pow_succ] at k2
        rw [Nat.mul_zero, Nat.add_zero] at g5
        generalize 1000000000 ^ (ds.length - 1) = P at *
        omega
    · rw [if_pos hc]
      by_cases hc2 : c / 1000000000 = 0
      · have hcm : c % 1000000000 = c := Nat.mod_eq_of_lt (by omega)
        have hv : digitsVal 1000000000 (r ++ [c]) = val (w :: ws) := by
          rw [digitsVal_append, ← hval]; simp [digitsVal_cons]
        have ht : (r ++ [c]).getLast? ≠ some 0 := by simp [hc]
        have hl := nine_len_of_val ht hv hlt
        rw [List.length_append, List.length_singleton] at hl
        refine ⟨r ++ [c], ?_, nineOk_append.2 ⟨g2, by intro x hx; simp at hx; omega⟩, ht, hv⟩
        rw [hcm, pushDigit_ok _ (by omega), Res.ok_bind, if_neg (by simpa using hc2)]
      · have hv : digitsVal 1000000000 (r ++ [c % 1000000000] ++ [c / 1000000000]) = val (w :: ws) := by
          rw [digitsVal_append, digitsVal_append, ← hval, List.length_append]
          simp only [digitsVal_cons, digitsVal_nil, List.length_singleton, pow_succ]
          have := Nat.div_add_mod c 1000000000
          generalize hp : 1000000000 ^ r.length = P
          have e : P * c = P * (1000000000 * (c / 1000000000)) + P * (c % 1000000000) := by
            rw [← Nat.mul_add, this]
          rw [e]
          ring
        have ht : (r ++ [c % 1000000000] ++ [c / 1000000000]).getLast? ≠ some 0 := by
          rw [List.getLast?_append]; simpa using hc2
        have hl := nine_len_of_val ht hv hlt
        simp only [List.length_append, List.length_singleton] at hl
        refine ⟨r ++ [c % 1000000000] ++ [c / 1000000000], ?_, ?_, ht, hv⟩
        · rw [pushDigit_ok _ (by omega), Res.ok_bind, if_pos hc2, pushDigit_ok _ (by simp; omega)]
        · refine nineOk_append.2 ⟨nineOk_append.2 ⟨g2, ?_⟩, ?_⟩ <;> intro x hx <;> simp at hx <;> omega

/-! ### characters -/

theorem digitChar_eq {d : Nat} (h : d < 10) : digitChar d = Nat.digitChar d := by
  interval_cases d <;> rfl

/-- `n` decimal digits of `u`, padded with zeros. -/
def padDigits : Nat → Nat → List Char
  | 0, _ => []
  | n + 1, u => padDigits n (u / 10) ++ [Nat.digitChar (u % 10)]

theorem toDigits_pad (k : Nat) (v u : Nat) (hv : 0 < v) (hu : u < 10 ^ k) :
    Nat.toDigits 10 v ++ padDigits k u = Nat.toDigits 10 (u + 10 ^ k * v) := by
  induction k generalizing u with
  | zero =>
    have : u = 0 := by simpa using hu
    simp [padDigits, this]
  | succ k ih =>
    rw [padDigits, ← List.append_assoc, ih (u / 10) (by rw [pow_succ] at hu; omega), pow_succ]
    have hp : 1 ≤ 10 ^ k * v := Nat.mul_pos (Nat.pow_pos (by decide)) hv
    rw [show 10 ^ k * 10 * v = 10 * (10 ^ k * v) by ring]
    generalize 10 ^ k * v = P at *
    rw [Nat.toDigits_of_base_le (n := u + 10 * P) (by decide) (by omega)]
    rw [show (u + 10 * P) / 10 = u / 10 + P by omega, show (u + 10 * P) % 10 = u % 10 by omega]

theorem putNine_spec (n u i : Nat) (cs : List Char) : putNine n u (i + n, cs) = .ok (i, padDigits n u ++ cs) := by
  induction n generalizing u cs with
  | zero => rfl
  | succ n ih =>
    unfold putNine
    rw [show i + (n + 1) = (i + n) + 1 by omega]
    simp only [pushChar]
    rw [Res.ok_bind, ih, digitChar_eq (Nat.mod_lt _ (by decide))]
    simp [padDigits]

theorem putTop_zero (st : Nat × List Char) : putTop 0 st = .ok st := by
  unfold putTop; simp

theorem putTop_spec (u : Nat) : ∀ (i : Nat) (cs : List Char), 0 < u →
    putTop u (i + (Nat.toDigits 10 u).length, cs) = .ok (i, Nat.toDigits 10 u ++ cs) := by
  induction u using Nat.strong_induction_on with
  | _ u ih =>
    intro i cs hu
    unfold putTop
    rw [dif_neg (by omega)]
    by_cases h : u < 10
    · rw [Nat.toDigits_of_lt_base h]
      simp only [List.length_singleton, pushChar]
      rw [Res.ok_bind, show u / 10 = 0 by omega, putTop_zero, digitChar_eq (by omega), Nat.mod_eq_of_lt h]
      rfl
    · rw [Nat.toDigits_of_base_le (by decide) (by omega)]
      rw [List.length_append, List.length_singleton, ← Nat.add_assoc]
      simp only [pushChar]
      rw [Res.ok_bind, ih (u / 10) (by omega) i _ (by omega), digitChar_eq (by omega)]
      simp

theorem putLimbs_spec (ds : List Nat) (cs : List Char) (hne : ds ≠ []) (hd : NineOk ds)
    (ht : ds.getLast? ≠ some 0) :
    (Nat.toDigits 10 (digitsVal 1000000000 ds)).length ≤ ds.length * 9 ∧
    putLimbs ds (ds.length * 9, cs) =
      .ok (ds.length * 9 - (Nat.toDigits 10 (digitsVal 1000000000 ds)).length,
        Nat.toDigits 10 (digitsVal 1000000000 ds) ++ cs) := by
  have hlen : ∀ xs : List Nat, xs ≠ [] → NineOk xs →
      (Nat.toDigits 10 (digitsVal 1000000000 xs)).length ≤ xs.length * 9 := by
    intro xs hx hn
    have h1 : 1 ≤ xs.length := List.length_pos_iff.2 hx
    rw [Nat.length_toDigits_le_iff (by decide) (by omega), Nat.mul_comm, pow_mul]
    exact digitsVal_lt (b := 1000000000) (by decide) hn
  refine ⟨hlen ds hne hd, ?_⟩
  induction ds generalizing cs with
  | nil => exact absurd rfl hne
  | cons d ds ih =>
    cases ds with
    | nil =>
      have hd0 : d ≠ 0 := by simpa using ht
      have hl := hlen [d] (by simp) hd
      simp only [digitsVal_cons, digitsVal_nil, Nat.mul_zero, Nat.add_zero] at hl ⊢
      simp only [putLimbs]
      generalize hD : (Nat.toDigits 10 d).length = D at *
      rw [show [d].length * 9 = ([d].length * 9 - D) + D by omega, ← hD, putTop_spec _ _ _ (by omega)]
      simp
    | cons y ys =>
      have hd' : NineOk (y :: ys) := fun x hx => hd x (List.mem_cons_of_mem _ hx)
      have ht' : (y :: ys).getLast? ≠ some 0 := by simpa [List.getLast?_cons_cons] using ht
      have h1 : d < 1000000000 := hd d (by simp)
      have hv := nine_pos_of_top (by simp) ht'
      have hv0 : 0 < digitsVal 1000000000 (y :: ys) :=
        lt_of_lt_of_le (Nat.pow_pos (by decide)) hv
      have hpad := toDigits_pad 9 (digitsVal 1000000000 (y :: ys)) d hv0 (by simpa using h1)
      have hpl : ∀ n u, (padDigits n u).length = n := by
        intro n
        induction n with
        | zero => intro u; rfl
        | succ n ih => intro u; simp [padDigits, ih]
      have hlenpad := congrArg List.length hpad
      rw [List.length_append, hpl] at hlenpad
      rw [show (10 : Nat) ^ 9 = 1000000000 by norm_num] at hpad hlenpad
      have hl := hlen (y :: ys) (by simp) hd'
      rw [putLimbs, cassert_pos h1, Res.ok_bind]
      · rw [show (d :: y :: ys).length * 9 = (y :: ys).length * 9 + 9 by simp; omega, putNine_spec, Res.ok_bind,
          ih _ (by simp) hd' ht', digitsVal_cons 1000000000 d (y :: ys), ← hpad, List.append_assoc, List.length_append, hpl]
        congr 2
        omega
      · simp

/-! ### `to_string` -/

theorem int_toString (x : Int) : (toString x).toList =
    (if x < 0 then ['-'] else []) ++ Nat.toDigits 10 x.natAbs := by
  cases x with
  | ofNat n =>
    rw [if_neg (by simp)]
    show (Nat.repr n).toList = _
    rw [Nat.toList_repr]; simp
  | negSucc n =>
    rw [if_pos (Int.negSucc_lt_zero n)]
    show ("-" ++ Nat.repr (Nat.succ n)).toList = _
    rw [String.toList_append, Nat.toList_repr]; rfl

namespace BigInt

theorem toStr_spec {a : BigInt} {x : Int} (ha : a.Denotes x) (hl : a.bits.length ≤ 214748364) :
    a.toStr = if x ≤ -2147483648 ∧ (Nat.toDigits 10 x.natAbs).length % 9 = 0 then .ub .outOfBounds
      else .ok (toString x).toList := by
  unfold toStr
  rcases ha.shape with ⟨rfl, h1, h2⟩ | ⟨s, ws, rfl, hs, hne, hw, ht, hv, rfl⟩
  · rw [if_pos (by rfl), if_neg (by omega)]
  · have hlen : 0 < ws.length := List.length_pos_iff.2 hne
    rw [if_neg (by simp only; omega)]
    simp only at hl ⊢
    rw [sizeInt_ok (by omega), Res.ok_bind, if_neg (by omega)]
    obtain ⟨ds, g1, g2, g3, g4⟩ := toBase_spec (ws.length * 10 / 9 + 2) ws hw (by omega)
    rw [g1, Res.ok_bind]
    have hdl := nine_len_of_val g3 g4 (val_lt hw)
    rw [if_neg (by omega), if_neg (by omega)]
    have hdne : ds ≠ [] := by
      rintro rfl
      simp at g4; omega
    obtain ⟨k1, k2⟩ := putLimbs_spec ds [] hdne g2 g3
    rw [k2, Res.ok_bind, g4, List.append_nil]
    have hnat := natAbs_unit_mul hs (val ws)
    rw [hnat, int_toString, hnat]
    rw [g4] at k1
    have hlow : ds.length * 9 < (Nat.toDigits 10 (val ws)).length + 9 := by
      have h1 : 1 ≤ ds.length := List.length_pos_iff.2 hdne
      rcases Nat.eq_or_lt_of_le h1 with h1 | h1
      · have := Nat.length_toDigits_pos (b := 10) (n := val ws); omega
      · have := nine_pos_of_top hdne g3
        have h3 : ¬ (Nat.toDigits 10 (val ws)).length ≤ (ds.length - 1) * 9 := by
          rw [Nat.length_toDigits_le_iff (by decide) (by omega), Nat.mul_comm, pow_mul, ← g4]
          exact not_lt.2 this
        omega
    generalize (Nat.toDigits 10 (val ws)).length = D at *
    rcases hs with rfl | rfl
    · rw [if_neg (by decide), Res.ok_bind, if_neg (by omega), if_neg (by omega)]; rfl
    · rw [if_pos (by decide), if_pos (show -1 * (val ws : Int) < 0 by omega)]
      by_cases hD : D % 9 = 0
      · rw [if_pos ⟨by omega, hD⟩, show ds.length * 9 - D = 0 by omega]
        rfl
      · rw [if_neg (by omega)]
        obtain ⟨j, hj⟩ : ∃ j, ds.length * 9 - D = j + 1 := ⟨ds.length * 9 - D - 1, by omega⟩
        rw [hj]; rfl

theorem toStr_overflow {a : BigInt} (hl : 214748364 < a.bits.length)
    (hl2 : a.bits.length < 2147483648) : a.toStr = .throw .overflowError := by
  unfold toStr
  rw [if_neg (by omega), sizeInt_ok hl2, Res.ok_bind, if_pos hl]

/-! ### `parse` -/

theorem parseLoop_spec (cs : List Char) : ∀ (b : BigInt) (n k : Nat), b.Denotes n → n < 10 ^ k →
    k + cs.length < 17179869184 →
    Returns (parseLoop cs b) (Nat.ofDigitChars 10 (cs.takeWhile Char.isDigit) n : Nat) := by
  induction cs with
  | nil => intro b n k hb _ _; exact ⟨b, rfl, hb⟩
  | cons ch cs ih =>
    intro b n k hb hn hk
    unfold parseLoop
    by_cases hd : '0' ≤ ch ∧ ch ≤ '9'
    · have hd' : ch.isDigit = true := by
        simpa [Char.isDigit, Char.le_def] using hd
      have hch : ch.toNat - 48 < 10 := by
        have h2 : ch.val ≤ '9'.val := hd.2
        have h3 : ch.val.toNat ≤ 57 := by simpa using UInt32.le_iff_toNat_le.1 h2
        show ch.val.toNat - 48 < 10
        omega
      rw [if_pos hd, List.takeWhile_cons_of_pos hd', Nat.ofDigitChars_cons]
      obtain ⟨ten, ht1, ht2⟩ := ofInt32_spec (z := 10) (by decide) (by decide)
      have hten : ten.bits.length = 0 := by
        have := ht2.length_le (n := 0 + 1) (by decide)
        rcases ht2.shape with ⟨rfl, -, -⟩ | ⟨s, ws, rfl, hs, -, -, -, hv, he⟩
        · rfl
        · rcases hs with rfl | rfl <;> omega
      have len : ∀ (c : BigInt) (m j : Nat), c.Denotes m → m < 10 ^ j → c.bits.length ≤ j / 9 + 1 := by
        intro c m j hc hm
        apply hc.length_le
        rw [Int.natAbs_natCast]
        calc m < 10 ^ j := hm
          _ ≤ 10 ^ (9 * (j / 9 + 1)) := Nat.pow_le_pow_right (by decide) (by omega)
          _ = (10 ^ 9) ^ (j / 9 + 1) := pow_mul _ _ _
          _ ≤ 4294967296 ^ (j / 9 + 1) := Nat.pow_le_pow_left (by norm_num) _
      rw [List.length_cons] at hk
      have hbl := len b n k hb hn
      obtain ⟨b1, h1, h2⟩ := mul_spec hb ht2 (by omega)
      obtain ⟨d, h3, h4⟩ := ofUInt32_spec (x := ch.toNat - 48) (by omega)
      have hn10 : n * 10 + 9 < 10 ^ (k + 1) := by rw [pow_succ]; omega
      have h2' : b1.Denotes ((n * 10 : Nat) : Int) := by rw [Nat.cast_mul]; exact h2
      have hb1 := len b1 (n * 10) (k + 1) h2' (by omega)
      have hdl := len d (ch.toNat - 48) 1 h4 (by omega)
      obtain ⟨b2, h5, h6⟩ := add_spec h2' h4 (by omega) (by omega)
      rw [ht1, Res.ok_bind, h1, Res.ok_bind, h3, Res.ok_bind, h5, Res.ok_bind]
      rw [← Nat.cast_add] at h6
      rw [show 10 * n + (ch.toNat - '0'.toNat) = n * 10 + (ch.toNat - 48) by rw [Nat.mul_comm]; rfl]
      exact ih b2 _ (k + 1) h6 (by omega) (by omega)
    · have hd' : ¬ ch.isDigit = true := by
        simpa [Char.isDigit, Char.le_def] using hd
      rw [if_neg hd, List.takeWhile_cons_of_neg hd']
      exact ⟨b, rfl, hb⟩

theorem parse_spec (s : List Char) (hs : s.length < 2 ^ 34) : Returns (parse s) (textValue s) := by
  have loop : ∀ cs : List Char, cs.length < 2 ^ 34 →
      Returns (parseLoop cs zeroInt) (Nat.ofDigitChars 10 (cs.takeWhile Char.isDigit) 0 : Nat) :=
    fun cs h => parseLoop_spec cs zeroInt 0 0 denotes_zero (by decide) (by norm_num at h ⊢; omega)
  unfold parse
  split
  · rename_i cs
    obtain ⟨b, h1, h2⟩ := loop cs (by simp only [List.length_cons] at hs; omega)
    rw [h1, Res.ok_bind]
    exact neg_spec h2
  · exact loop _ (by simp only [List.length_cons] at hs; omega)
  · rename_i h1 h2
    have : textValue s = (Nat.ofDigitChars 10 (s.takeWhile Char.isDigit) 0 : Nat) := by
      unfold textValue
      split
      · exact absurd rfl (h1 _)
      · exact absurd rfl (h2 _)
      · rfl
    rw [this]
    exact loop s hs

end BigInt
end BigIntegerCpp
