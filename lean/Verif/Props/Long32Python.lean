import Verif.Lemmas.Long32Python
/-
C93: Python where `long` has 32 bits (Long32PythonSpec.lean, PythonSpec.lean).
-/
namespace BigIntegerCpp
open Samples
variable [Cfg]

/-! ### `+ - * % / // & | ^` -/

/-- C93.  `l op r` with at least one `BigInteger` operand is the integer operation on the values, in this order, as a
`BigInteger` if `l` is one and as an `int` otherwise.  Missing from the full claim: the operands that are not
`SafeLong32`. -/
theorem C93_binary_partial (op : PyOp) (l r : PyVal) (x y : Int) (hl : l.Stands x) (hr : r.Stands y) (hlr : Bound l r)
    (hx : InRange x) (hy : InRange y) (hs : Cfg.strictShift = false) (h : op.SafeLong32 x y) :
    Yields l (Long32.pyEval op l r) (op.meaning x y) := by
  obtain ⟨R, hR, e⟩ := pyEval_out op hl hr hlr hx hy hs
  have := hR.1 h
  rw [e]
  cases hm : op.meaning x y with
  | ok z =>
    rw [hm] at this
    exact handOn_answers l this (pyOp_bound hx hy hm)
  | error e =>
    rw [hm] at this
    show some _ = some _
    rw [this]; rfl

/-- C93.  A carry that should travel past the second word is lost: the answer is wrong by `2^64`, without an error. -/
theorem C93_binary_wrong (op : PyOp) (l r : PyVal) (x y z : Int) (hl : l.Stands x) (hr : r.Stands y) (hlr : Bound l r)
    (hx : InRange x) (hy : InRange y) (hs : Cfg.strictShift = false) (h : op.LosesCarry x y) (hz : op.meaning x y = .ok z) :
    Answers l (Long32.pyEval op l r) (if x < 0 then z + 2 ^ 64 else z - 2 ^ 64) := by
  obtain ⟨R, hR, e⟩ := pyEval_out op hl hr hlr hx hy hs
  rw [e]
  refine handOn_answers l (hR.2.1 h z hz) (lt_of_le_of_lt ?_ (pyOp_bound hx hy hz))
  clear hx hy
  cases op <;> dsimp only [PyOp.LosesCarry] at h <;> try exact h.elim
  · have := Long32.CarryLost.le h.2.2
    obtain rfl : x + y = z := by injection hz
    by_cases hx : x < 0
    · rw [if_pos hx]; have := h.1.1 hx; omega
    · rw [if_neg hx]; have := mt h.1.2 hx; omega
  · have := Long32.CarryLost.le h.2.2
    obtain rfl : x - y = z := by injection hz
    by_cases hx : x < 0
    · rw [if_pos hx]; have : ¬ y < 0 := fun hy => h.1 ⟨fun _ => hy, fun _ => hx⟩; omega
    · rw [if_neg hx]; have : y < 0 := by by_contra hy; exact h.1 ⟨fun h => absurd h hx, fun h => absurd h hy⟩
      omega

/-- C93.  All other operands: undefined behaviour (a 32-bit number is shifted by 32). -/
theorem C93_binary_undefined (op : PyOp) (l r : PyVal) (x y : Int) (hl : l.Stands x) (hr : r.Stands y) (hlr : Bound l r)
    (hx : InRange x) (hy : InRange y) (hs : Cfg.strictShift = false) (h1 : ¬ op.SafeLong32 x y) (h2 : ¬ op.LosesCarry x y) :
    Long32.pyEval op l r = some (.ub .badShift) := by
  obtain ⟨R, hR, e⟩ := pyEval_out op hl hr hlr hx hy hs
  rw [e, hR.2.2 h1 h2]; rfl

/-- C93.  Exactly when the answer is right. -/
theorem C93_binary_exact_iff (op : PyOp) (l r : PyVal) (x y : Int) (hl : l.Stands x) (hr : r.Stands y) (hlr : Bound l r)
    (hx : InRange x) (hy : InRange y) (hs : Cfg.strictShift = false) :
    Yields l (Long32.pyEval op l r) (op.meaning x y) ↔ op.SafeLong32 x y := by
  refine ⟨fun h => ?_, C93_binary_partial op l r x y hl hr hlr hx hy hs⟩
  by_contra hc
  obtain ⟨z, hz⟩ : ∃ z, op.meaning x y = .ok z := by
    cases op
    · exact ⟨_, rfl⟩
    · exact ⟨_, rfl⟩
    · exact ⟨_, rfl⟩
    all_goals exact absurd trivial hc
  rw [hz] at h
  by_cases hL : op.LosesCarry x y
  · have := answers_inj h (C93_binary_wrong op l r x y z hl hr hlr hx hy hs hL hz)
    clear hx hy
    by_cases hx : x < 0
    · rw [if_pos hx] at this; omega
    · rw [if_neg hx] at this; omega
  · have e := C93_binary_undefined op l r x y hl hr hlr hx hy hs hc hL
    rw [e] at h
    cases l with
    | big a => obtain ⟨b, e, -⟩ := h; cases e
    | int n => cases h

/-- C93 is false of the code: `BigInteger(2**31) - 1` is undefined, and `BigInteger(2**64 - 1) + 1` is 0. -/
theorem C93_refuted (hs : Cfg.strictShift = false) :
    Long32.pyEval .sub (.big ⟨1, [2147483648]⟩) (.int ⟨1, false, by decide⟩) = some (.ub .badShift) ∧
    Answers (.big ⟨1, [4294967295, 4294967295]⟩) (Long32.pyEval .add (.big ⟨1, [4294967295, 4294967295]⟩) (.int ⟨1, false, by decide⟩)) 0 := by
  have d1 : (⟨1, [2147483648]⟩ : BigInt).Denotes 2147483648 := BigInt.denotes_big (.inl rfl) (by decide) (by decide) (by decide) (by decide) (by decide)
  have d2 : (⟨1, [4294967295, 4294967295]⟩ : BigInt).Denotes 18446744073709551615 := BigInt.denotes_big (.inl rfl) (by decide) (by decide) (by decide) (by decide) (by decide)
  have big : ∀ {z : Int}, z.natAbs < 2 ^ 64 → InRange z := fun h => lt_of_lt_of_le h (Nat.pow_le_pow_right (by decide) (by decide))
  refine ⟨C93_binary_undefined .sub _ _ 2147483648 1 d1 rfl trivial (big (by decide)) (big (by decide)) hs
    (by dsimp only [PyOp.SafeLong32]; decide) (by dsimp only [PyOp.LosesCarry]; decide), ?_⟩
  exact C93_binary_wrong .add _ _ 18446744073709551615 1 18446744073709551616 d2 rfl trivial (big (by decide)) (big (by decide)) hs
    (by dsimp only [PyOp.LosesCarry]; decide) rfl

/-- `C93_binary_partial`, `C93_binary_exact_iff`: `3 + BigInteger(9 * 2**32 + 3)` is right, as an `int`. -/
example (hs : Cfg.strictShift = false) :
    Long32.pyEval .add (.int ⟨3, false, by decide⟩) (.big pos2) = some (.ok (.inr 38654705670)) ∧
    ¬ Yields (.int ⟨3, false, by decide⟩) (Long32.pyEval .sub (.int ⟨3, false, by decide⟩) (.big pos2)) (PyOp.sub.meaning 3 38654705667) := by
  have big : ∀ {z : Int}, z.natAbs < 2 ^ 64 → InRange z := fun h => lt_of_lt_of_le h (Nat.pow_le_pow_right (by decide) (by decide))
  refine ⟨C93_binary_partial .add (.int ⟨3, false, by decide⟩) (.big pos2) 3 38654705667 rfl pos2_denotes trivial (big (by decide))
    (big (by decide)) hs (by dsimp only [PyOp.SafeLong32]; decide), ?_⟩
  rw [C93_binary_exact_iff .sub (.int ⟨3, false, by decide⟩) (.big pos2) 3 38654705667 rfl pos2_denotes trivial (big (by decide))
    (big (by decide)) hs]
  dsimp only [PyOp.SafeLong32]; decide

/-! ### `**` -/

/-- C93.  `l ** r` is right if no product on the way has two factors of `2^992` or more, and undefined otherwise. -/
theorem C93_pow (l r : PyVal) (x : Int) (n : Nat) (hl : l.Stands x) (hr : r.Stands n) (hlr : Bound l r)
    (hx : InRange x) (hn : IntRange n) (hz : InRange (x ^ n)) (hs : Cfg.strictShift = false) :
    (ShortFactors x.natAbs n → Answers l (Long32.pyPow l r) (x ^ n)) ∧
    (¬ ShortFactors x.natAbs n → Long32.pyPow l r = some (.ub .badShift)) := by
  have key : ∀ a : BigInt, a.Denotes x → (ShortFactors x.natAbs n → Returns (Long32.pow a n) (x ^ n)) ∧
      (¬ ShortFactors x.natAbs n → Long32.pow a n = .ub .badShift) := by
    intro a ha
    have la := hx.length ha
    refine C86_pow a x n ha (by unfold BigInt.Fits; omega) hn ?_
    by_cases h2 : x.natAbs ≤ 1
    · right; left; rw [abs_le]; omega
    · right; right
      have := pow_size ha (n := n) (by omega) hz
      omega
  have hout : Long32.pyPow l r = some ((match l with
      | .big a => Long32.pow a n
      | .int k => do Long32.pow (← toBigInteger k) n) >>= handOn l) := by
    have h2 : (n : Int) ≠ -2 ^ 31 := by omega
    cases r with
    | big b =>
      have hb : b.toInt32 = .ok (n : Int) := by
        rw [BigInt.toInt32_spec hr, if_neg (by omega), if_pos]
        exact ⟨hn.1, by have := hn.2; omega⟩
      cases l with
      | big a => dsimp only [Long32.pyPow]; rw [hb]; rfl
      | int k =>
        dsimp only [Long32.pyPow]
        rw [hb, Res.bind_assoc]; rfl
    | int k =>
      have hk : k.value = n := hr
      have hc : castInt k = .ok (n : Int) := by
        unfold castInt
        rw [hk, if_pos ⟨hn.1, by have := hn.2; omega⟩]
      cases l with
      | big a => dsimp only [Long32.pyPow]; rw [hc]; rfl
      | int _ => exact hlr.elim
  rw [hout]
  have hzb : (x ^ n).natAbs < 2 ^ (32 * (2 ^ 29 - 1)) := lt_of_lt_of_le hz (Nat.pow_le_pow_right (by decide) (by decide))
  cases l with
  | big a =>
    obtain ⟨k1, k2⟩ := key a hl
    exact ⟨fun h => handOn_answers (.big a) (k1 h) hzb, fun h => by dsimp only; rw [k2 h]; rfl⟩
  | int k =>
    obtain rfl : k.value = x := hl
    obtain ⟨o, h1, h2⟩ := C44_of_int k _ (by norm_num) hx hs
    obtain ⟨k1, k2⟩ := key o h2
    dsimp only
    rw [h1, Res.ok_bind]
    exact ⟨fun h => handOn_answers (.int k) (k1 h) hzb, fun h => by rw [k2 h]; rfl⟩

/-- C93.  An exponent that is not a C++ `int` raises `overflow_error`, a negative one `out_of_range`, as elsewhere. -/
theorem C93_pow_throws (l r : PyVal) (x y : Int) (hl : l.Stands x) (hr : r.Stands y) (hlr : Bound l r)
    (hx : InRange x) (hs : Cfg.strictShift = false) :
    (¬ IntRange y → Long32.pyPow l r = some (.throw .overflowError)) ∧
    (-2 ^ 31 < y → y < 0 → Long32.pyPow l r = some (.throw .outOfRange)) := by
  have hp : y < 0 → ∀ a : BigInt, Long32.pow a y = .throw .outOfRange := fun h a => by unfold Long32.pow; rw [if_pos h]
  cases r with
  | big b =>
    have hb := BigInt.toInt32_spec hr
    have h1 : ¬ IntRange y → b.toInt32 = .throw .overflowError := fun hy => by
      unfold IntRange at hy; rw [hb, if_neg (by omega), if_neg (by omega)]
    have h2 : -2 ^ 31 < y → y < 0 → b.toInt32 = .ok y := fun h1 h2 => by rw [hb, if_neg (by omega), if_pos (by omega)]
    cases l with
    | big a =>
      exact ⟨fun h => by dsimp only [Long32.pyPow]; rw [h1 h]; rfl,
        fun h h' => by dsimp only [Long32.pyPow]; rw [h2 h h', Res.ok_bind, hp h']; rfl⟩
    | int n =>
      obtain rfl : n.value = x := hl
      obtain ⟨o, e, -⟩ := C44_of_int n _ (by norm_num) hx hs
      exact ⟨fun h => by dsimp only [Long32.pyPow]; rw [e, Res.ok_bind, h1 h]; rfl,
        fun h h' => by dsimp only [Long32.pyPow]; rw [e, Res.ok_bind, h2 h h', Res.ok_bind, hp h']; rfl⟩
  | int k =>
    obtain rfl : k.value = y := hr
    cases l with
    | int _ => exact hlr.elim
    | big a =>
      constructor
      · intro h
        have hc : castInt k = .throw .castError := if_neg fun h' => h ⟨h'.1, by omega⟩
        dsimp only [Long32.pyPow]; rw [hc]
      · intro h h'
        have hc : castInt k = .ok k.value := if_pos ⟨by omega, by omega⟩
        dsimp only [Long32.pyPow]; rw [hc]
        dsimp only
        rw [Res.ok_bind, hp h']; rfl

example (hs : Cfg.strictShift = false) : Long32.pyPow (.big pos2) (.big neg3) = some (.throw .overflowError) ∧
    Long32.pyPow (.big pos2) (.big small) = some (.throw .outOfRange) := by
  have big : InRange 38654705667 := lt_of_lt_of_le (b := 2 ^ 64) (by decide) (Nat.pow_le_pow_right (by decide) (by decide))
  exact ⟨(C93_pow_throws (.big pos2) (.big neg3) _ _ pos2_denotes neg3_denotes trivial big hs).1 (by decide),
    (C93_pow_throws (.big pos2) (.big small) _ _ pos2_denotes small_denotes trivial big hs).2 (by decide) (by decide)⟩

/-- C93.  `pow(base, exp, modulus)` is what it is elsewhere if the modulus is below `2^992`. -/
theorem C93_pow_mod (a : BigInt) (e m : PyVal) (x y z : Int) (ha : a.Denotes x) (he : e.Stands y) (hm : m.Stands z) (hem : Bound e m)
    (hx : InRange x) (hy : InRange y) (hz : |z| < 2 ^ 992) (hs : Cfg.strictShift = false) :
    Long32.pyPowMod (.big a) e m = pyPowMod (.big a) e m := by
  have la := hx.length ha
  have fa : a.Fits := by unfold BigInt.Fits; omega
  have hzr : InRange z := by
    rw [Int.abs_eq_natAbs] at hz
    exact lt_of_lt_of_le (show z.natAbs < 2 ^ 992 by exact_mod_cast hz) (Nat.pow_le_pow_right (by decide) (by decide))
  cases e with
  | big e =>
    cases m with
    | big m => exact congrArg some (C86_mod_pow a e m x y z ha he hm fa hz)
    | int k =>
      obtain rfl : k.value = z := hm
      obtain ⟨o, h1, h2⟩ := C44_of_int k _ (by norm_num) hzr hs
      dsimp only [Long32.pyPowMod, pyPowMod]
      rw [h1, Res.ok_bind, Res.ok_bind, C86_mod_pow a e o x y k.value ha he h2 fa hz]
  | int k =>
    cases m with
    | int _ => exact hem.elim
    | big m =>
      obtain rfl : k.value = y := he
      obtain ⟨o, h1, h2⟩ := C44_of_int k _ (by norm_num) hy hs
      dsimp only [Long32.pyPowMod, pyPowMod]
      rw [h1, Res.ok_bind, Res.ok_bind, C86_mod_pow a o m x k.value z ha h2 hm fa hz]

example (hs : Cfg.strictShift = false) :
    Long32.pyPowMod (.big small) (.int ⟨7, false, by decide⟩) (.big pos2) = pyPowMod (.big small) (.int ⟨7, false, by decide⟩) (.big pos2) := by
  have big : ∀ {z : Int}, z.natAbs < 2 ^ 64 → InRange z := fun h => lt_of_lt_of_le h (Nat.pow_le_pow_right (by decide) (by decide))
  exact C93_pow_mod small (.int ⟨7, false, by decide⟩) (.big pos2) (-42) 7 38654705667 small_denotes rfl pos2_denotes trivial
    (big (by decide)) (big (by decide))
    (lt_of_lt_of_le (b := 2 ^ 64) (by decide) (pow_le_pow_right₀ (by decide) (by decide))) hs

/-- C93.  The exponent `-2^31`: as elsewhere, an `int` raises `out_of_range` and a `BigInteger` is undefined. -/
theorem C93_pow_min (l r : PyVal) (x : Int) (hl : l.Stands x) (hr : r.Stands (-2 ^ 31)) (hlr : Bound l r)
    (hx : InRange x) (hs : Cfg.strictShift = false) :
    Long32.pyPow l r = some (match r with | .big _ => .ub .signedOverflow | .int _ => .throw .outOfRange) := by
  cases r with
  | big b =>
    have hb : b.toInt32 = .ub .signedOverflow := by rw [BigInt.toInt32_spec hr, if_pos (by norm_num)]
    cases l with
    | big a => dsimp only [Long32.pyPow]; rw [hb]; rfl
    | int n =>
      obtain rfl : n.value = x := hl
      obtain ⟨o, e, -⟩ := C44_of_int n _ (by norm_num) hx hs
      dsimp only [Long32.pyPow]; rw [e, Res.ok_bind, hb]; rfl
  | int k =>
    have hk : k.value = -2 ^ 31 := hr
    cases l with
    | int _ => exact hlr.elim
    | big a =>
      have hc : castInt k = .ok k.value := if_pos ⟨by omega, by omega⟩
      have hp : Long32.pow a k.value = .throw .outOfRange := by unfold Long32.pow; rw [if_pos (by omega)]
      dsimp only [Long32.pyPow]; rw [hc]
      dsimp only
      rw [Res.ok_bind, hp]; rfl

example (hs : Cfg.strictShift = false) : Long32.pyPow (.big pos2) (.int ⟨-2147483648, false, by decide⟩) = some (.throw .outOfRange) :=
  C93_pow_min (.big pos2) (.int ⟨-2147483648, false, by decide⟩) _ pos2_denotes rfl trivial
    (lt_of_lt_of_le (b := 2 ^ 64) (by decide) (Nat.pow_le_pow_right (by decide) (by decide))) hs

/-- C93.  `pow(base, exp, modulus)` with a modulus of `2^992` or more: right if the power of the base, reduced first or not, is
below the modulus and no product has two factors of 993 bits or more, and undefined otherwise. -/
theorem C93_pow_mod_large (a : BigInt) (e m : PyVal) (x z : Int) (n : Nat) (ha : a.Denotes x) (he : e.Stands n) (hm : m.Stands z)
    (hem : Bound e m) (hn : InRange n) (hz : 2 ^ 992 ≤ |z|) (hz' : InRange z)
    (hx : InRange x) (hs : Cfg.strictShift = false) :
    (PowerBase x z ^ n < z.natAbs ∧ ShortFactors (PowerBase x z) n → ∃ c, Long32.pyPowMod (.big a) e m = some (.ok c) ∧ c.Denotes ((x ^ n).tmod z)) ∧
    (¬ (PowerBase x z ^ n < z.natAbs ∧ ShortFactors (PowerBase x z) n) → ∃ u, Long32.pyPowMod (.big a) e m = some (.ub u)) := by
  have la := hx.length ha
  have fa : a.Fits := by unfold BigInt.Fits; omega
  have key : ∀ e m : BigInt, e.Denotes n → m.Denotes z →
      (PowerBase x z ^ n < z.natAbs ∧ ShortFactors (PowerBase x z) n → Returns (Long32.modPow a e m) ((x ^ n).tmod z)) ∧
      (¬ (PowerBase x z ^ n < z.natAbs ∧ ShortFactors (PowerBase x z) n) → ∃ u, Long32.modPow a e m = .ub u) := by
    intro e m he hm
    have lm := hz'.length hm
    exact C86_mod_pow_any_base a e m x z n ha he hm fa hz (by omega)
  have out : ∀ e m : BigInt, e.Denotes n → m.Denotes z →
      (PowerBase x z ^ n < z.natAbs ∧ ShortFactors (PowerBase x z) n → ∃ c, some (Long32.modPow a e m) = some (.ok c) ∧ c.Denotes ((x ^ n).tmod z)) ∧
      (¬ (PowerBase x z ^ n < z.natAbs ∧ ShortFactors (PowerBase x z) n) → ∃ u, some (Long32.modPow a e m) = some (.ub u)) := by
    intro e m he hm
    refine ⟨fun h => ?_, fun h => ?_⟩
    · obtain ⟨c, h1, h2⟩ := (key e m he hm).1 h
      exact ⟨c, by rw [h1], h2⟩
    · obtain ⟨u, h1⟩ := (key e m he hm).2 h
      exact ⟨u, by rw [h1]⟩
  cases e with
  | big e =>
    cases m with
    | big m => exact out e m he hm
    | int k =>
      obtain rfl : k.value = z := hm
      obtain ⟨o, h1, h2⟩ := C44_of_int k _ (by norm_num) hz' hs
      dsimp only [Long32.pyPowMod]
      rw [h1, Res.ok_bind]
      exact out e o he h2
  | int k =>
    cases m with
    | int _ => exact hem.elim
    | big m =>
      have hk : k.value = n := he
      obtain ⟨o, h1, h2⟩ := C44_of_int k _ (by norm_num) (hk ▸ hn) hs
      dsimp only [Long32.pyPowMod]
      rw [h1, Res.ok_bind]
      exact out o m (hk ▸ h2) hm

example (a m : BigInt) (z : Int) (ha : a.Denotes 3) (hm : m.Denotes z) (hz : 2 ^ 992 ≤ |z|) (hz' : InRange z) (hs : Cfg.strictShift = false) :
    ∃ c, Long32.pyPowMod (.big a) (.int ⟨5, false, by decide⟩) (.big m) = some (.ok c) ∧ c.Denotes ((3 ^ 5 : Int).tmod z) := by
  have big : ∀ {z : Int}, z.natAbs < 2 ^ 64 → InRange z := fun h => lt_of_lt_of_le h (Nat.pow_le_pow_right (by decide) (by decide))
  have small : ∀ {v : Nat}, v < 2 ^ 8 → v < 2 ^ 992 := fun h => h.trans_le (Nat.pow_le_pow_right (by decide) (by decide))
  have hp : PowerBase 3 z = 3 := by
    rw [PowerBase, show (3 : Int).natAbs.log2 / 32 = 0 by decide, if_neg (Nat.not_lt_zero _)]; rfl
  refine (C93_pow_mod_large a (.int ⟨5, false, by decide⟩) (.big m) 3 z 5 ha rfl hm trivial (big (by decide)) hz hz' (big (by decide)) hs).1 ?_
  rw [hp]
  have h992 : 2 ^ 992 ≤ z.natAbs := by rw [Int.abs_eq_natAbs] at hz; exact_mod_cast hz
  exact ⟨(small (by decide)).trans_le h992, .inr ⟨small (by decide), small (by decide)⟩⟩

/-! ### `~` and `get_bit_Length` -/

/-- C93.  `get_bit_Length` is what it is elsewhere. -/
theorem C93_bit_length (a : BigInt) (x : Int) (ha : a.Denotes x) (hx : InRange x) : Long32.pyGetBitLength a = a.bitLength := by
  have la := hx.length ha
  have := C86_bit_length a x ha (by unfold BigInt.Fits; omega)
  rwa [if_pos (by omega)] at this

example : Long32.pyGetBitLength neg3 = neg3.bitLength :=
  C93_bit_length _ _ neg3_denotes (lt_of_lt_of_le (b := 2 ^ 128) (by decide) (Nat.pow_le_pow_right (by decide) (by decide)))

/-- C93.  `~a` is right exactly for numbers between `-2^31` and `2^31`, and for larger positive ones that do not end in 64
one bits; it is undefined for the other negative ones. -/
theorem C93_invert (a : BigInt) (x : Int) (ha : a.Denotes x) (fa : a.Fits) :
    (Returns (Long32.pyInvert a) (-x - 1) ↔ IntSized x ∨ 0 ≤ x ∧ x % 2 ^ 64 ≠ 2 ^ 64 - 1) ∧
    (x ≤ -2 ^ 31 → Long32.pyInvert a = .ub .badShift) := C86_complement a x ha fa

example : Long32.pyInvert neg3 = .ub .badShift ∧ Returns (Long32.pyInvert pos2) (-38654705667 - 1) :=
  ⟨(C93_invert _ _ neg3_denotes neg3_fits).2 (by decide), (C93_invert _ _ pos2_denotes pos2_fits).1.2 (by decide)⟩

/-- `C93_pow`: `BigInteger(9 * 2**32 + 3) ** 2`. -/
example (hs : Cfg.strictShift = false) : Answers (.big pos2) (Long32.pyPow (.big pos2) (.int ⟨2, false, by decide⟩)) (38654705667 ^ 2) :=
  (C93_pow (.big pos2) (.int ⟨2, false, by decide⟩) 38654705667 2 pos2_denotes rfl trivial
    (lt_of_lt_of_le (b := 2 ^ 128) (by decide) (Nat.pow_le_pow_right (by decide) (by decide))) (by decide)
    (lt_of_lt_of_le (b := 2 ^ 128) (by decide) (Nat.pow_le_pow_right (by decide) (by decide))) hs).1 (by decide +kernel)

end BigIntegerCpp
