import Verif.Lemmas.Twos
/-
Bitwise operators, bit length, power-of-two test.
-/
namespace BigIntegerCpp
set_option linter.unusedSectionVars false
set_option linter.unnecessarySeqFocus false
variable [Cfg]

theorem zipExt_length (f : Nat → Nat → Nat) (xe ye : Nat) (xs ys : List Nat) :
    (BigInt.zipExt f xe ye xs ys).length = Max.max xs.length ys.length := by
  induction xs generalizing ys with
  | nil =>
    induction ys with
    | nil => simp [BigInt.zipExt]
    | cons y ys ih => simp only [BigInt.zipExt, List.length_cons, ih]; simp
  | cons x xs ih => cases ys <;> simp [BigInt.zipExt, ih]

theorem zipExt_getD (f : Nat → Nat → Nat) (xe ye : Nat) (xs ys : List Nat) (i : Nat) :
    (BigInt.zipExt f xe ye xs ys)[i]?.getD (f xe ye) = f (xs[i]?.getD xe) (ys[i]?.getD ye) := by
  induction xs generalizing ys i with
  | nil =>
    induction ys generalizing i with
    | nil => simp [BigInt.zipExt]
    | cons y ys ih =>
      cases i with
      | zero => simp [BigInt.zipExt]
      | succ i => simpa [BigInt.zipExt] using ih i
  | cons x xs ih =>
    cases ys with
    | nil =>
      cases i with
      | zero => simp [BigInt.zipExt]
      | succ i => simpa [BigInt.zipExt] using ih [] i
    | cons y ys =>
      cases i with
      | zero => simp [BigInt.zipExt]
      | succ i => simpa [BigInt.zipExt] using ih ys i

theorem zipExt_wordsOk {f : Nat → Nat → Nat} (hf : ∀ x y, x < 4294967296 → y < 4294967296 → f x y < 4294967296)
    {xe ye : Nat} (hxe : xe < 4294967296) (hye : ye < 4294967296) {xs ys : List Nat} (hx : WordsOk xs) (hy : WordsOk ys) :
    WordsOk (BigInt.zipExt f xe ye xs ys) := by
  induction xs generalizing ys with
  | nil =>
    induction ys with
    | nil => simp only [BigInt.zipExt]; exact wordsOk_nil
    | cons y ys ih =>
      obtain ⟨h0, hy⟩ := wordsOk_cons.1 hy
      simp only [BigInt.zipExt]
      exact wordsOk_cons.2 ⟨hf _ _ hxe h0, ih hy⟩
  | cons x xs ih =>
    obtain ⟨g0, hx⟩ := wordsOk_cons.1 hx
    cases ys with
    | nil =>
      simp only [BigInt.zipExt]
      exact wordsOk_cons.2 ⟨hf _ _ g0 hye, ih hx wordsOk_nil⟩
    | cons y ys =>
      obtain ⟨h0, hy⟩ := wordsOk_cons.1 hy
      simp only [BigInt.zipExt]
      exact wordsOk_cons.2 ⟨hf _ _ g0 h0, ih hx hy⟩

/-- A word-wise operation given by a boolean function of bits. -/
structure BitOp (f : Nat → Nat → Nat) (g : Bool → Bool → Bool) : Prop where
  bit : ∀ x y j, (f x y).testBit j = g (x.testBit j) (y.testBit j)
  zero : g false false = false

theorem BitOp.lt {f g} (h : BitOp f g) {x y n : Nat} (hx : x < 2 ^ n) (hy : y < 2 ^ n) : f x y < 2 ^ n := by
  apply Nat.lt_pow_two_of_testBit
  intro i hi
  rw [h.bit, Nat.testBit_lt_two_pow (lt_of_lt_of_le hx (Nat.pow_le_pow_right (by decide) hi)),
    Nat.testBit_lt_two_pow (lt_of_lt_of_le hy (Nat.pow_le_pow_right (by decide) hi)), h.zero]

theorem BitOp.ext {f g} (h : BitOp f g) (sx sy : Bool) : f (extDigit 32 sx) (extDigit 32 sy) = extDigit 32 (g sx sy) := by
  have hb : ∀ (s : Bool) j, (extDigit 32 s).testBit j = (decide (j < 32) && s) := by
    intro s j
    cases s
    · simp [extDigit]
    · simp only [extDigit, if_true, Nat.testBit_two_pow_sub_one, Bool.and_true]
  apply Nat.eq_of_testBit_eq
  intro j
  rw [h.bit, hb, hb, hb]
  by_cases hj : j < 32 <;> simp [hj, h.zero]

theorem testBit_31 {x : Nat} (hx : x < 4294967296) : x.testBit 31 = decide (2147483648 ≤ x) := by
  rw [Nat.testBit_eq_decide_div_mod_eq, decide_eq_decide]
  omega

theorem top_of_longer {ws : List Nat} {s : Bool} (hw : WordsOk ws) (hs : s = decide (2147483648 ≤ ws.getLast?.getD 0))
    {L : Nat} (hL : ws.length ≤ L + 1) : (ws[L]?.getD (extDigit 32 s)).testBit 31 = s := by
  by_cases h : ws.length = L + 1
  · have hl : ws.getLast? = ws[L]? := by rw [List.getLast?_eq_getElem?, h]; rfl
    rw [hs, hl, List.getElem?_eq_getElem (by omega)]
    simp only [Option.getD_some]
    exact testBit_31 (hw _ (List.getElem_mem _))
  · rw [List.getElem?_eq_none (by omega)]
    cases s <;> simp [extDigit, Nat.testBit]

theorem zipExt_spec {f g} (h : BitOp f g) {xs ys : List Nat} (hx : WordsOk xs) (hy : WordsOk ys) {sx sy : Bool}
    (hsx : sx = decide (2147483648 ≤ xs.getLast?.getD 0)) (hsy : sy = decide (2147483648 ≤ ys.getLast?.getD 0)) :
    WordsOk (BigInt.zipExt f (extDigit 32 sx) (extDigit 32 sy) xs ys) ∧
    ∀ k, ibit (signedVal 32 (BigInt.zipExt f (extDigit 32 sx) (extDigit 32 sy) xs ys)) k =
      g (ibit (signedVal 32 xs) k) (ibit (signedVal 32 ys) k) := by
  have hE : ∀ s, extDigit 32 s < 4294967296 := by intro s; cases s <;> decide
  have hz : WordsOk (BigInt.zipExt f (extDigit 32 sx) (extDigit 32 sy) xs ys) :=
    zipExt_wordsOk (fun x y h1 h2 => h.lt (n := 32) h1 h2) (hE _) (hE _) hx hy
  refine ⟨hz, fun k => ?_⟩
  have htop : g sx sy = decide (2147483648 ≤ (BigInt.zipExt f (extDigit 32 sx) (extDigit 32 sy) xs ys).getLast?.getD 0) := by
    rw [← testBit_31 (getLast_getD_lt hz), List.getLast?_eq_getElem?]
    have hlen := zipExt_length f (extDigit 32 sx) (extDigit 32 sy) xs ys
    by_cases hne : Max.max xs.length ys.length = 0
    · have h1 : xs = [] := List.length_eq_zero_iff.1 (by omega)
      have h2 : ys = [] := List.length_eq_zero_iff.1 (by omega)
      subst h1; subst h2
      simp only [List.getLast?_nil, Option.getD_none] at hsx hsy
      have : sx = false := by rw [hsx]; decide
      have : sy = false := by rw [hsy]; decide
      subst sx; subst sy
      simp [BigInt.zipExt, h.zero]
    · have hg := zipExt_getD f (extDigit 32 sx) (extDigit 32 sy) xs ys (Max.max xs.length ys.length - 1)
      rw [hlen]
      have hsome : ∃ w, (BigInt.zipExt f (extDigit 32 sx) (extDigit 32 sy) xs ys)[Max.max xs.length ys.length - 1]? = some w :=
        ⟨_, List.getElem?_eq_getElem (by omega)⟩
      obtain ⟨w, hw⟩ := hsome
      rw [hw] at hg ⊢
      simp only [Option.getD_some] at hg ⊢
      rw [hg, h.bit, top_of_longer hx hsx (by omega), top_of_longer hy hsy (by omega)]
  rw [signedVal_eq (n := 32) htop, signedVal_eq (n := 32) hsx, signedVal_eq (n := 32) hsy,
    ibit_extVal (by decide) (digitsOk_32.2 hz), ibit_extVal (by decide) (digitsOk_32.2 hx),
    ibit_extVal (by decide) (digitsOk_32.2 hy), ← h.ext, zipExt_getD, h.bit]

theorem bitOp_and : BitOp (· &&& ·) (· && ·) := ⟨fun x y j => Nat.testBit_and x y j, rfl⟩
theorem bitOp_or : BitOp (· ||| ·) (· || ·) := ⟨fun x y j => Nat.testBit_or x y j, rfl⟩
theorem bitOp_xor : BitOp (· ^^^ ·) Bool.xor := ⟨fun x y j => Nat.testBit_xor x y j, rfl⟩

namespace BigInt

/-- A call returns a value whose bits are `g` of the operands' bits. -/
def BitResult (g : Bool → Bool → Bool) (x y : Int) (r : Res BigInt) : Prop :=
  ∃ z, Returns r z ∧ ∀ k, ibit z k = g (ibit x k) (ibit y k)

theorem bitwise_spec {f g} (h : BitOp f g) {a b : BigInt} {x y : Int} (ha : a.Denotes x) (hb : b.Denotes y)
    (hla : a.bits.length < 2147483646) (hlb : b.bits.length < 2147483646) : BitResult g x y (bitwise f a b) := by
  obtain ⟨r, h1, h2, h3, h4, h5, -, -⟩ := toUInt32Array_spec ha (by omega)
  obtain ⟨s, g1, g2, g3, g4, g5, -, -⟩ := toUInt32Array_spec hb (by omega)
  obtain ⟨z1, z2⟩ := zipExt_spec h h2 g2 h5 g5
  refine ⟨signedVal 32 (zipExt f (extDigit 32 (decide (x < 0))) (extDigit 32 (decide (y < 0))) r s), ?_, ?_⟩
  · unfold bitwise
    rw [h1, g1]
    simp only [Res.ok_bind, ha.sign_neg, hb.sign_neg]
    have hE : ∀ z : Int, (if z < 0 then 4294967295 else 0) = extDigit 32 (decide (z < 0)) := by
      intro z; by_cases hz : z < 0 <;> simp [hz, extDigit]
    rw [hE, hE]
    apply ofTwos_spec z1
    rw [zipExt_length]
    exact Nat.max_lt.2 ⟨by omega, by omega⟩
  · intro k
    rw [z2, h4, g4]

theorem i32_signedVal {n : Nat} (h : n < 4294967296) : i32 n = signedVal 32 [n] := by
  rw [signedVal_32, i32_eq h]
  simp only [List.getLast?_singleton, Option.getD_some, val_singleton, List.length_singleton, pow_one]
  split_ifs <;> omega

theorem signedVal_u32i {s : Int} (h1 : -2147483648 ≤ s) (h2 : s < 2147483648) : signedVal 32 [u32i s] = s := by
  rw [signedVal_32]
  simp only [List.getLast?_singleton, Option.getD_some, val_singleton, List.length_singleton, pow_one]
  unfold u32i
  split_ifs <;> omega

theorem small_bits {f g} (h : BitOp f g) {s t : Int} (h1 : -2147483648 ≤ s) (h2 : s < 2147483648)
    (h3 : -2147483648 ≤ t) (h4 : t < 2147483648) : BitResult g s t (ofInt32 (i32 (f (u32i s) (u32i t)))) := by
  have hlt : f (u32i s) (u32i t) < 4294967296 := h.lt (n := 32) (u32i_lt s) (u32i_lt t)
  obtain ⟨-, z2⟩ := zipExt_spec h (xs := [u32i s]) (ys := [u32i t]) (wordsOk_cons.2 ⟨u32i_lt _, wordsOk_nil⟩)
    (wordsOk_cons.2 ⟨u32i_lt _, wordsOk_nil⟩) rfl rfl
  refine ⟨i32 (f (u32i s) (u32i t)), ?_, ?_⟩
  · rw [i32_eq hlt]
    split_ifs <;> exact ofInt32_spec (by omega) (by omega)
  · intro k
    have := z2 k
    rw [signedVal_u32i h1 h2, signedVal_u32i h3 h4] at this
    rw [i32_signedVal hlt]
    simpa [zipExt] using this

theorem xor_spec {a b : BigInt} {x y : Int} (ha : a.Denotes x) (hb : b.Denotes y)
    (hla : a.bits.length < 2147483646) (hlb : b.bits.length < 2147483646) : BitResult Bool.xor x y (a.xor b) := by
  unfold xor
  split_ifs with h
  · have h1 := ha.sign_ne_min
    have h2 := hb.sign_ne_min
    have := small_bits bitOp_xor (s := a.sign) (t := b.sign) (by omega) (by omega) (by omega) (by omega)
    have e1 := ha.2
    have e2 := hb.2
    simp only [toInt, List.length_eq_zero_iff.1 h.1, List.length_eq_zero_iff.1 h.2, if_true] at e1 e2
    rwa [e1, e2] at this ⊢
  · exact bitwise_spec bitOp_xor ha hb hla hlb

theorem isZero_eq {a : BigInt} {x : Int} (ha : a.Denotes x) : a.isZero = .ok (decide (x = 0)) := by
  unfold isZero
  rw [ha.assertValid, Res.ok_bind]
  simp only [ha.sign_zero]

theorem and_spec {a b : BigInt} {x y : Int} (ha : a.Denotes x) (hb : b.Denotes y)
    (hla : a.bits.length < 2147483646) (hlb : b.bits.length < 2147483646) : BitResult (· && ·) x y (a.and b) := by
  unfold and
  rw [isZero_eq ha, isZero_eq hb]
  simp only [Res.ok_bind, decide_eq_true_eq]
  by_cases hx : x = 0
  · subst hx
    simp only [if_true, Res.ok_bind, true_or]
    exact ⟨0, returns_ok denotes_zero, fun k => by simp [ibit_zero]⟩
  by_cases hy : y = 0
  · subst hy
    simp only [hx, if_false, Res.ok_bind, decide_true, or_true, if_true]
    exact ⟨0, returns_ok denotes_zero, fun k => by simp [ibit_zero]⟩
  simp only [hx, hy, if_false, Res.ok_bind, decide_false, Bool.false_eq_true, or_self]
  split_ifs with h
  · have h1 := ha.sign_ne_min
    have h2 := hb.sign_ne_min
    have := small_bits bitOp_and (s := a.sign) (t := b.sign) (by omega) (by omega) (by omega) (by omega)
    have e1 := ha.2
    have e2 := hb.2
    simp only [toInt, List.length_eq_zero_iff.1 h.1, List.length_eq_zero_iff.1 h.2, if_true] at e1 e2
    rwa [e1, e2] at this ⊢
  · exact bitwise_spec bitOp_and ha hb hla hlb

theorem or_spec {a b : BigInt} {x y : Int} (ha : a.Denotes x) (hb : b.Denotes y)
    (hla : a.bits.length < 2147483646) (hlb : b.bits.length < 2147483646) : BitResult (· || ·) x y (a.or b) := by
  unfold or
  rw [isZero_eq ha, isZero_eq hb]
  simp only [Res.ok_bind, decide_eq_true_eq]
  by_cases hx : x = 0
  · subst hx
    simp only [if_true]
    exact ⟨y, returns_ok hb, fun k => by simp [ibit_zero]⟩
  by_cases hy : y = 0
  · subst hy
    simp only [hx, if_false, if_true]
    exact ⟨x, returns_ok ha, fun k => by simp [ibit_zero]⟩
  simp only [hx, hy, if_false]
  split_ifs with h
  · have h1 := ha.sign_ne_min
    have h2 := hb.sign_ne_min
    have := small_bits bitOp_or (s := a.sign) (t := b.sign) (by omega) (by omega) (by omega) (by omega)
    have e1 := ha.2
    have e2 := hb.2
    simp only [toInt, List.length_eq_zero_iff.1 h.1, List.length_eq_zero_iff.1 h.2, if_true] at e1 e2
    rwa [e1, e2] at this ⊢
  · exact bitwise_spec bitOp_or ha hb hla hlb

end BigInt
end BigIntegerCpp
