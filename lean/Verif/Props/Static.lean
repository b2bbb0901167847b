import Verif.Lemmas.Static
import Verif.Props.Basic
import Verif.Props.Bytes
/-
C60: initialisation of the library's constants, and global objects constructed before it.
-/
namespace BigIntegerCpp
open Samples
variable [Cfg]

/-! ### what holds -/

/-- The initialisers run through, in every build, and give the constants their values. -/
theorem C60_constants : ∃ k, initConsts = .ok k ∧ k.minInt.Denotes (-2 ^ 31) ∧ k.one.Denotes 1 ∧ k.zero.Denotes 0 ∧ k.minusOne.Denotes (-1) := by
  refine ⟨⟨minInt, oneInt, zeroInt, minusOneInt⟩, ?_, ?_, ?_, ?_, ?_⟩
  · rename_i c; obtain ⟨d, s⟩ := c; cases d <;> cases s <;> decide +kernel
  · exact BigInt.denotes_big (.inr rfl) (by decide) (by decide) (by decide) (by decide) (by decide)
  all_goals exact BigInt.denotes_small (by decide) (by decide)

/-- After the initialisers have run, the constructors are the ones of the rest of the model. -/
theorem C60_ready (k : Consts) (h : initConsts = .ok k) (z : Int) (ws : List Nat) (f g : Bool) :
    k.ofInt32 z = ofInt32 z ∧ k.ofInt64 z = ofInt64 z ∧ k.ofMagnitude ws f = ofMagnitude ws f ∧ k.ofBytes ws f g = ofBytes ws f g := by
  obtain ⟨k', h', hk⟩ := C60_constants
  obtain rfl : k = k' := by rw [h] at h'; exact Res.ok.inj h'
  obtain ⟨a, b, c, d⟩ := k
  obtain ⟨h1, h2, h3, h4⟩ := hk
  obtain rfl : a = minInt := h1.unique (BigInt.denotes_big (.inr rfl) (by decide) (by decide) (by decide) (by decide) (by decide))
  obtain rfl : b = oneInt := h2.unique (BigInt.denotes_small (by decide) (by decide))
  obtain rfl : c = zeroInt := h3.unique (BigInt.denotes_small (by decide) (by decide))
  obtain rfl : d = minusOneInt := h4.unique (BigInt.denotes_small (by decide) (by decide))
  exact ⟨rfl, rfl, rfl, rfl⟩
example : ∃ k, initConsts = .ok k ∧ k.ofInt32 (-2147483648) = ofInt32 (-2147483648) := by
  obtain ⟨k, h, -⟩ := C60_constants
  exact ⟨k, h, (C60_ready k h (-2147483648) [] false false).1⟩

/-! ### before the initialisers have run -/

/-- `BigInteger(int32_t)`.  Missing from the full claim: `INT_MIN`, see `C60_early_min`. -/
theorem C60_early_int32_partial (z : Int) (h : IntRange z) (hz : z ≠ -2 ^ 31) : Returns (Consts.blank.ofInt32 z) z := by
  have := C01_int32 z h
  unfold ofInt32 at this
  unfold Consts.ofInt32
  rw [if_neg (by omega)] at this ⊢
  exact this
example : Returns (Consts.blank.ofInt32 (-7)) (-7) := C60_early_int32_partial (-7) (by decide) (by decide)

/-- `BigInteger(int64_t)`.  Missing: `INT_MIN`, see `C60_early_min`, and `INT64_MIN` as in C01. -/
theorem C60_early_int64_partial (z : Int) (h : LongRange z) (hz : z ≠ -2 ^ 31) (hmin : z ≠ -2 ^ 63) : Returns (Consts.blank.ofInt64 z) z := by
  have := C01_int64_partial z h hmin
  unfold ofInt64 at this
  unfold Consts.ofInt64
  rw [if_neg (c := z = -2147483648) (by omega)] at this ⊢
  exact this
example : Returns (Consts.blank.ofInt64 (-2 ^ 40)) (-2 ^ 40) := C60_early_int64_partial (-2 ^ 40) (by decide) (by decide) (by decide)

/-- `BigInteger(uint_array, bool)`, through which the results of arithmetic pass: no exception. -/
theorem C60_early_magnitude (ws : List Nat) (negative : Bool) : Consts.blank.ofMagnitude ws negative = ofMagnitude ws negative := by
  unfold Consts.ofMagnitude ofMagnitude
  refine congrArg _ (funext fun _ => ?_)
  have h : ∀ s : Int, s = (if negative then -(i32 (ws.headD 0)) else i32 (ws.headD 0)) → ws.headD 0 < 2147483648 → s ≠ -2147483648 := by
    intro s hs hw
    have : i32 (ws.headD 0) = ws.headD 0 := by unfold i32; omega
    rw [this] at hs
    split_ifs at hs <;> omega
  dsimp only
  by_cases h0 : trimLen ws = 0
  · rw [if_pos h0, if_pos h0]; rfl
  · rw [if_neg h0, if_neg h0]
    by_cases h1 : trimLen ws = 1 ∧ ws.headD 0 < 2147483648
    · rw [if_pos h1, if_pos h1, if_neg (h _ rfl h1.2), if_neg (h _ rfl h1.2)]
    · rw [if_neg h1, if_neg h1]
example : ∃ b, Consts.blank.ofMagnitude [0, 2147483648] true = .ok b ∧ b.Denotes (-2 ^ 63) := by
  rw [C60_early_magnitude]
  exact ofMagnitude_spec (v := [0, 2147483648]) (by decide) (by decide) true

/-- `BigInteger(byte_array, ...)`.  Missing from the full claim: the values -1 and -2^31, see
`C60_early_bytes_refuted`. -/
theorem C60_early_bytes_partial (k : Consts) (v : List Nat) (isUnsigned isBigEndian : Bool) (b : BigInt) (h : ofBytes v isUnsigned isBigEndian = .ok b)
    (h1 : ¬ b.Denotes (-1)) (h2 : ¬ b.Denotes (-2 ^ 31)) : k.ofBytes v isUnsigned isBigEndian = .ok b := by
  have key : SameUnless (ofBytes v isUnsigned isBigEndian) (k.ofBytes v isUnsigned isBigEndian) := by
    unfold ofBytes Consts.ofBytes
    refine .bind fun n => ?_
    dsimp only
    refine .ite .rfl (.ite (.bind fun s => ?_) (.bind fun ws => .bind fun top => .ite ?_ .rfl))
    · split_ifs with hs
      all_goals first
        | exact .rfl
        | exact fun b hb hb2 => absurd (checked_eq hb) hb2
    · refine .ite (fun b hb _ hb2 => absurd (Res.ok.inj hb).symm hb2) (.ite (fun b hb hb2 => absurd (Res.ok.inj hb).symm hb2) .rfl)
  refine key b h ?_ ?_
  · rintro rfl
    exact h2 (BigInt.denotes_big (.inr rfl) (by decide) (by decide) (by decide) (by decide) (by decide))
  · rintro rfl
    exact h1 (BigInt.denotes_small (by decide) (by decide))
example : Consts.blank.ofBytes [1, 2, 3, 4, 5, 255] false false = .ok ⟨-1, [4227661311, 250]⟩ := by
  refine C60_early_bytes_partial _ _ _ _ _ ?_ ?_ ?_
  · rename_i c; obtain ⟨d, s⟩ := c; cases d <;> cases s <;> decide +kernel
  all_goals exact fun h => absurd h.2 (by decide)

/-! ### what fails -/

/-- A global `BigInteger x(INT_MIN);` initialised before the library is zero. -/
theorem C60_early_min : Returns (Consts.blank.ofInt32 (-2 ^ 31)) 0 ∧ Returns (Consts.blank.ofInt64 (-2 ^ 31)) 0 := by
  have h : checked (⟨0, []⟩ : BigInt) = .ok ⟨0, []⟩ := by
    rename_i c; obtain ⟨d, s⟩ := c; cases d <;> cases s <;> decide +kernel
  exact ⟨⟨_, h, BigInt.denotes_small (by decide) (by decide)⟩, ⟨_, h, BigInt.denotes_small (by decide) (by decide)⟩⟩

/-- The integer constructors are right before the initialisation exactly outside these values. -/
theorem C60_early_int32_exact_iff (z : Int) (h : IntRange z) : Returns (Consts.blank.ofInt32 z) z ↔ z ≠ -2 ^ 31 := by
  refine ⟨?_, C60_early_int32_partial z h⟩
  rintro ⟨b, h1, h2⟩ rfl
  obtain ⟨c, h3, h4⟩ := C60_early_min.1
  obtain rfl : b = c := by rw [h1] at h3; exact Res.ok.inj h3
  exact absurd (h2.2.symm.trans h4.2) (by decide)
theorem C60_early_int64_exact_iff (z : Int) (h : LongRange z) : Returns (Consts.blank.ofInt64 z) z ↔ z ≠ -2 ^ 31 ∧ z ≠ -2 ^ 63 := by
  refine ⟨?_, fun hz => C60_early_int64_partial z h hz.1 hz.2⟩
  rintro ⟨b, h1, h2⟩
  constructor
  · rintro rfl
    obtain ⟨c, h3, h4⟩ := C60_early_min.2
    obtain rfl : b = c := by rw [h1] at h3; exact Res.ok.inj h3
    exact absurd (h2.2.symm.trans h4.2) (by decide)
  · rintro rfl
    have : Consts.blank.ofInt64 (-2 ^ 63) = .ub .signedOverflow := by
      rename_i c; obtain ⟨d, s⟩ := c; cases d <;> cases s <;> decide +kernel
    rw [this] at h1
    exact nomatch h1
example : Returns (Consts.blank.ofInt64 (-7)) (-7) ∧ ¬ Returns (Consts.blank.ofInt32 (-2 ^ 31)) (-2 ^ 31) :=
  ⟨(C60_early_int64_exact_iff _ (by decide)).2 (by decide), fun h => (C60_early_int32_exact_iff _ (by decide)).1 h rfl⟩

/-- So are the five bytes of -1. -/
theorem C60_early_bytes_refuted : bytesValue false false [255, 255, 255, 255, 255] = -1 ∧
    Returns (Consts.blank.ofBytes [255, 255, 255, 255, 255] false false) 0 := by
  refine ⟨by decide +kernel, ⟨0, []⟩, ?_, BigInt.denotes_small (by decide) (by decide)⟩
  rename_i c; obtain ⟨d, s⟩ := c; cases d <;> cases s <;> decide +kernel

/-- The full claim, that a constructor gives the same object before and after the initialisation, is
false. -/
theorem C60_refuted : ∃ k z, initConsts = .ok k ∧ IntRange z ∧ Returns (k.ofInt32 z) z ∧ ¬ Returns (Consts.blank.ofInt32 z) z := by
  obtain ⟨k, h, -⟩ := C60_constants
  refine ⟨k, -2 ^ 31, h, by decide, ?_, ?_⟩
  · rw [(C60_ready k h (-2 ^ 31) [] false false).1]
    exact C01_int32 _ (by decide)
  · rintro ⟨b, h1, h2⟩
    obtain ⟨c, h3, h4⟩ := C60_early_min.1
    obtain rfl : b = c := by rw [h1] at h3; exact Res.ok.inj h3
    exact absurd (h2.2.symm.trans h4.2) (by decide)

end BigIntegerCpp
