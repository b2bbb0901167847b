import Verif.Lemmas.Oracle
import Verif.Props.Closure
import Verif.Props.Ends
import Verif.Props.GcdActual
import Verif.Props.OverloadValues
import Verif.Props.PythonObject
import Verif.Props.Words
/-
C02, C51, C52, C59, C76 made exact: what the calls do on the inputs that the `_partial` theorems leave out.
-/
set_option linter.unusedSectionVars false
namespace BigIntegerCpp
open Samples
variable [Cfg]

/-! ### C02 `BigInteger(int, uint_array)` in a release build -/

/-- Every pair is stored as it is given, so the object is canonical exactly when the pair is. -/
theorem C02_parts_release (hd : Cfg.ndebug = true) (n : Int) (ws : List Nat) :
    ∃ b, ofParts n ws = .ok b ∧ b.sign = n ∧ b.bits = ws ∧ (b.Valid ↔ (⟨n, ws⟩ : BigInt).Valid) := by
  have hc : ∀ p : Prop, [Decidable p] → cassert p = .ok () := by
    intro p _
    unfold cassert
    simp [hd]
  exact ⟨⟨n, ws⟩, by simp [ofParts, checked, assertValid, hc], rfl, rfl, Iff.rfl⟩

/-- So the property holds of the constructor exactly on canonical pairs: the object it gives is the one that
every other computation of the same integer gives if and only if the pair is canonical. -/
theorem C02_parts_exact_iff (hd : Cfg.ndebug = true) (n : Int) (ws : List Nat) :
    (∀ a : BigInt, a.Valid → a.toInt = (⟨n, ws⟩ : BigInt).toInt → ofParts n ws = .ok a) ↔ (⟨n, ws⟩ : BigInt).Valid := by
  obtain ⟨⟨s, v⟩, hb, h1, h2, -⟩ := C02_parts_release hd n ws
  dsimp only at h1 h2
  subst h1 h2
  constructor
  · intro h
    obtain ⟨a, ha⟩ := C02_exists (⟨s, v⟩ : BigInt).toInt
    have e := h a ha.1 ha.2
    rw [hb] at e
    cases e
    exact ha.1
  · intro h a ha he
    rw [hb, C02_unique a _ ha h he]

example (hd : Cfg.ndebug = true) :
    (∀ a : BigInt, a.Valid → a.toInt = (⟨-1, [5, 7, 1]⟩ : BigInt).toInt → ofParts (-1) [5, 7, 1] = .ok a) :=
  (C02_parts_exact_iff hd (-1) [5, 7, 1]).2 neg3_denotes.1
/-- A leading zero: the object is not the one that the integer has. -/
example (hd : Cfg.ndebug = true) :
    ¬ ∀ a : BigInt, a.Valid → a.toInt = (⟨1, [5, 7, 0]⟩ : BigInt).toInt → ofParts 1 [5, 7, 0] = .ok a := by
  rw [C02_parts_exact_iff hd]
  exact fun h => absurd h.topNonzero (by decide)
example (hd : Cfg.ndebug = true) : ∃ b, ofParts 1 [5] = .ok b ∧ b.sign = 1 ∧ b.bits = [5] ∧ (b.Valid ↔ (⟨1, [5]⟩ : BigInt).Valid) :=
  C02_parts_release hd 1 [5]

/-! ### C51 `greatest_common_divisor(leftBits, rightBits)` -/

/-- Operands in order, the smaller one of three words or more: exactly the run that `gcdRun` describes. -/
theorem C51_actual (xs ys : List Nat) (hx : WordsOk xs) (hy : WordsOk ys) (htx : xs.getLast? ≠ some 0)
    (hty : ys.getLast? ≠ some 0) (hl : xs.length < 2 ^ 31) (hle : val ys ≤ val xs) (h64 : 2 ^ 64 ≤ val ys) (fuel : Nat) :
    RunEnds (gcdBits fuel xs ys) (gcdRun (!Cfg.ndebug) fuel (val xs) 0 (val ys) 0) :=
  (gcdBits_actual fuel hx hy htx hty (by rintro rfl; exact absurd h64 (by decide)) hl hle h64).1

/-- C51 made exact for operands in order: below `2^64` the answer is always right, from there on if and only if
the run says so. -/
theorem C51_exact_iff (xs ys : List Nat) (hx : WordsOk xs) (hy : WordsOk ys) (htx : xs.getLast? ≠ some 0)
    (hty : ys.getLast? ≠ some 0) (hne : ys ≠ []) (hl : xs.length < 2 ^ 31) (hle : val ys ≤ val xs) (fuel : Nat) :
    Returns (gcdBits fuel xs ys) (Nat.gcd (val xs) (val ys)) ↔
      (2 ^ 64 ≤ val ys → gcdRun (!Cfg.ndebug) fuel (val xs) 0 (val ys) 0 = some (.answer (Nat.gcd (val xs) (val ys)))) := by
  by_cases h64 : 2 ^ 64 ≤ val ys
  · rw [(C51_actual xs ys hx hy htx hty hl hle h64 fuel).iff.2.2.2.2]
    exact ⟨fun h _ => h, fun h => h h64⟩
  · refine ⟨fun _ h => absurd h h64, fun _ => ?_⟩
    exact gcdBits_spec hx hy htx hty hne hl hle (.small _ _ (by omega)) fun h => absurd h h64

/-- It is the function that the call on two objects ends in (C19, C20, C78). -/
theorem C51_objects (a b : BigInt) (x y : Int) (ha : a.Denotes x) (hb : b.Denotes y) (fa : a.Fits) (fb : b.Fits)
    (hx : 2 ^ 64 ≤ |y|) (hle : |y| ≤ |x|) (fuel : Nat) : gcdBits fuel a.bits b.bits = BigInt.gcd fuel a b := by
  have h1 := C78_actual a b x y ha hb fa fb (le_trans hx hle) hx fuel
  rw [Int.abs_eq_natAbs, Int.abs_eq_natAbs] at hle
  rw [Int.abs_eq_natAbs] at hx
  have hle' : y.natAbs ≤ x.natAbs := by omega
  have hy' : 2 ^ 64 ≤ y.natAbs := by exact_mod_cast hx
  rw [Nat.max_eq_left hle', Nat.min_eq_right hle'] at h1
  rcases ha.shape with ⟨rfl, hx1, hx2⟩ | ⟨s, ws, rfl, hs, hne, hw, ht, hv, rfl⟩
  · omega
  rcases hb.shape with ⟨rfl, hy1, hy2⟩ | ⟨s', ws', rfl, hs', hne', hw', ht', hv', rfl⟩
  · omega
  dsimp only
  rw [natAbs_unit_mul hs] at h1 hle'
  rw [natAbs_unit_mul hs'] at h1 hle' hy'
  exact (C51_actual ws ws' hw hw' ht ht' (Nat.lt_succ_of_lt fa) hle' hy' fuel).unique h1

/-- Operands in the wrong order in a release build, the larger one of at most two words: the answer is right unless
the words of the smaller one end before those of the larger one, which is then read past its end. -/
theorem C51_wrong_order_release (hd : Cfg.ndebug = true) (xs ys : List Nat) (hx : WordsOk xs) (hy : WordsOk ys)
    (hty : ys.getLast? ≠ some 0) (hne : ys ≠ []) (hl : xs.length ≤ ys.length) (h2 : ys.length ≤ 2) (hn : xs ≠ []) (fuel : Nat) :
    if xs.length = ys.length then Returns (gcdBits fuel xs ys) (Nat.gcd (val xs) (val ys))
    else gcdBits fuel xs ys = .ub .outOfBounds := by
  have hc : ∀ p : Prop, [Decidable p] → cassert p = .ok () := by
    intro p _
    unfold cassert
    simp [hd]
  have hpos : 0 < val ys := lt_of_lt_of_le (by positivity) (val_ge_of_top hne hty)
  have hgr : Nat.gcd (val ys) (val xs % val ys) = Nat.gcd (val xs) (val ys) := by
    rw [Nat.gcd_comm (val xs), Nat.gcd_rec (val ys) (val xs), Nat.gcd_comm]
  have hl1 : 0 < xs.length := List.length_pos_iff.2 hn
  unfold gcdBits
  rw [hc, Res.ok_bind]
  by_cases h1 : ys.length = 1
  · rw [if_pos (by omega), if_pos h1]
    obtain ⟨w, rfl⟩ := List.length_eq_one_iff.1 h1
    obtain ⟨hw, -⟩ := wordsOk_cons.1 hy
    rw [val_singleton] at *
    have hi : idx [w] 0 = .ok w := rfl
    rw [hi, Res.ok_bind, remainderWord_spec hx hn (by omega) hpos hw, Res.ok_bind, gcd32_spec, hgr]
    exact ofUInt32_spec (lt_of_le_of_lt (Nat.gcd_le_right _ hpos) hw)
  have h22 : ys.length = 2 := by
    have := List.length_pos_iff.2 hne
    omega
  rw [if_neg h1, if_pos h22]
  by_cases he : xs.length = ys.length
  · rw [if_pos he]
    obtain ⟨r, e, k1, k2, k3⟩ := remainderVec_spec hx hy hne hty (le_of_eq he.symm) (by omega)
    have hm := Nat.mod_lt (val xs) hpos
    have hylt : val ys < 2 ^ 64 := by have := val_lt hy; rw [h22] at this; norm_num at this ⊢; exact this
    have by' : Buf ys.length ⟨ys, trimLen ys⟩ (val ys) := ⟨rfl, hy, rfl, rfl⟩
    have br : Buf r.length ⟨r, trimLen r⟩ (val r) := ⟨rfl, k2, rfl, rfl⟩
    have f1 := by'.low64 hylt
    have f2 := br.low64 (by omega)
    dsimp only at f1 f2
    rw [e, Res.ok_bind, idx_getD (by omega), Res.ok_bind, idx_getD (by omega), Res.ok_bind, idx_getD (by omega), Res.ok_bind,
      idx_getD (by omega), Res.ok_bind, f1, f2, gcd64_spec, k3, hgr]
    exact ofUInt64_spec (lt_of_le_of_lt (Nat.gcd_le_right _ hpos) hylt)
  · rw [if_neg he]
    obtain ⟨x, rfl⟩ := List.length_eq_one_iff.1 (show xs.length = 1 by omega)
    obtain ⟨y0, y1, rfl⟩ : ∃ y0 y1, ys = [y0, y1] := by
      rcases ys with _ | ⟨y0, _ | ⟨y1, _ | ⟨y2, ys⟩⟩⟩
      · exact absurd h22 (by simp)
      · exact absurd h22 (by simp)
      · exact ⟨y0, y1, rfl⟩
      · exact absurd h22 (by simp)
    have hy1 : y1 ≠ 0 := by simpa using hty
    have hlz : leadingZeros y1 < 32 := by
      obtain ⟨-, h⟩ := wordsOk_cons.1 hy
      exact (leadingZeros_spec hy1 (h y1 (by simp))).1
    have hr : remainderVec [x] [y0, y1] = .ok [x] := by
      unfold remainderVec divideCore
      simp only [hc, Res.ok_bind]
      rw [sizeInt_ok (by simp), Res.ok_bind]
      have i1 : idx [y0, y1] ([y0, y1].length - 1) = .ok y1 := rfl
      have i2 : idx [y0, y1] ([y0, y1].length - 2) = .ok y0 := rfl
      rw [i1, Res.ok_bind, if_pos (by simp), i2, Res.ok_bind]
      by_cases h0 : leadingZeros y1 > 0
      · rw [if_pos h0, if_neg (by omega), if_neg (by simp)]
        rfl
      · rw [if_neg h0]
        rfl
    rw [hr, Res.ok_bind]
    rfl

private theorem order_words : val [1, 0, 0, 1] = 2 ^ 96 + 1 ∧ val [1, 0, 3221225472] = 3 * 2 ^ 94 + 1 := by decide
/-- A right answer in spite of a Lehmer step. -/
example : Returns (gcdBits 2 [1, 0, 0, 1] [1, 0, 3221225472]) (Nat.gcd (val [1, 0, 0, 1]) (val [1, 0, 3221225472])) := by
  refine (C51_exact_iff [1, 0, 0, 1] [1, 0, 3221225472] (by decide) (by decide) (by decide) (by decide) (by decide) (by decide)
    (by decide) 2).2 fun _ => ?_
  rw [order_words.1, order_words.2]
  exact (show ∀ d, gcdRun d 2 (2 ^ 96 + 1) 0 (3 * 2 ^ 94 + 1) 0 = some (.answer (Nat.gcd (2 ^ 96 + 1) (3 * 2 ^ 94 + 1))) by
    decide +kernel) _
/-- `7·2^64 + 1` and `5·2^64 + 3`: no answer within 100 iterations of a release build. -/
example (hd : Cfg.ndebug = true) : gcdBits 100 [1, 0, 7] [3, 0, 5] = .diverge := by
  refine (C51_actual [1, 0, 7] [3, 0, 5] (by decide) (by decide) (by decide) (by decide) (by decide) (by decide) (by decide)
    100).iff.1.2 ?_
  rw [hd]
  decide +kernel
example (fuel : Nat) : gcdBits fuel [0, 0, 0, 0, 2] [0, 0, 0, 12582912] = BigInt.gcd fuel ⟨-1, [0, 0, 0, 0, 2]⟩ ⟨1, [0, 0, 0, 12582912]⟩ :=
  C51_objects ⟨-1, [0, 0, 0, 0, 2]⟩ ⟨1, [0, 0, 0, 12582912]⟩ (-2 ^ 129) (3 * 2 ^ 118)
    (BigInt.denotes_big (.inr rfl) (by decide) (by decide) (by decide) (by decide) (by decide))
    (BigInt.denotes_big (.inl rfl) (by decide) (by decide) (by decide) (by decide) (by decide)) (by decide) (by decide) (by decide)
    (by decide) fuel
/-- `gcd(6, 4 + 3·2^32)` in the wrong order reads past the end of the remainder; `gcd(6 + 2^32, 4 + 3·2^32)` is right. -/
example (hd : Cfg.ndebug = true) : gcdBits 0 [6] [4, 3] = .ub .outOfBounds :=
  C51_wrong_order_release hd [6] [4, 3] (by decide) (by decide) (by decide) (by decide) (by decide) (by decide) (by decide) 0
example (hd : Cfg.ndebug = true) : Returns (gcdBits 0 [6, 1] [4, 3]) (Nat.gcd (val [6, 1]) (val [4, 3])) :=
  C51_wrong_order_release hd [6, 1] [4, 3] (by decide) (by decide) (by decide) (by decide) (by decide) (by decide) (by decide) 0

/-! ### C52 buffers with a stride -/

private theorem signed_inj : ∀ {xs ys : List Nat}, BytesOk xs → BytesOk ys → xs.length = ys.length →
    signedVal 8 xs = signedVal 8 ys → xs = ys
  | [], [], _, _, _, _ => rfl
  | [a], [b], hx, hy, _, h => by
    have ha := hx a (by simp)
    have hb := hy b (by simp)
    rw [Oracle.sv_single, Oracle.sv_single] at h
    obtain rfl : a = b := by split_ifs at h <;> omega
    rfl
  | a :: a' :: xs, b :: b' :: ys, hx, hy, hl, h => by
    have ha := hx a (by simp)
    have hb := hy b (by simp)
    rw [Oracle.sv_cons (b := a) (bs := a' :: xs) (by simp), Oracle.sv_cons (b := b) (bs := b' :: ys) (by simp)] at h
    obtain rfl : a = b := by omega
    rw [signed_inj (fun w hw => hx w (List.mem_cons_of_mem _ hw)) (fun w hw => hy w (List.mem_cons_of_mem _ hw))
      (by simpa using hl) (by omega)]

/-- The bytes that the constructor reads lie outside the block, or not. -/
theorem C52_out_of_bounds_iff (b : PyBuffer) (hb : b.Ok) (hl : b.size < 2 ^ 31) (hs : Cfg.strictShift = false) :
    ofBuffer b = .ub .outOfBounds ↔ b.memory.length < b.start + b.size := by
  constructor
  · intro h
    by_contra hc
    obtain ⟨r, e, -⟩ := C52_consecutive_bytes b hb.format hb.ndim hb.bytes hl (by omega) hs
    rw [e] at h
    cases h
  · intro h
    unfold ofBuffer slice
    rw [if_neg (by rw [hb.format, hb.ndim]; simp), if_neg (by omega)]
    rfl

/-- C52 made exact: the value is that of `bytes(b)` if and only if every element equals the byte that lies where it
would lie without the stride. -/
theorem C52_exact_iff (b : PyBuffer) (hb : b.Ok) (hl : b.size < 2 ^ 31) (hs : Cfg.strictShift = false) :
    Returns (ofBuffer b) (bytesValue false false b.elements) ↔
      ∀ i, i < b.size → b.memory[b.start + i]? = b.memory[(b.start + (i : Int) * b.stride).toNat]? := by
  have hel : b.elements.length = b.size := by simp [PyBuffer.elements]
  have hi : ∀ i, i < b.size → (b.start + (i : Int) * b.stride).toNat < b.memory.length := fun i h => by
    have := hb.inside i h
    omega
  have hem : ∀ i (h : i < b.size), b.elements[i]? = b.memory[(b.start + (i : Int) * b.stride).toNat]? := by
    intro i h
    rw [List.getElem?_eq_getElem (hi i h)]
    simp only [PyBuffer.elements, List.getElem?_map, List.getElem?_range h, Option.map_some]
    rw [List.getD_eq_getElem _ _ (hi i h)]
  have heb : BytesOk b.elements := by
    intro w hw
    simp only [PyBuffer.elements, List.mem_map, List.mem_range] at hw
    obtain ⟨i, h, rfl⟩ := hw
    rw [List.getD_eq_getElem _ _ (hi i h)]
    exact hb.bytes _ (List.getElem_mem _)
  constructor
  · intro h
    by_cases hm : b.start + b.size ≤ b.memory.length
    · obtain ⟨r, e, k⟩ := h
      obtain ⟨r', e', k'⟩ := C52_consecutive_bytes b hb.format hb.ndim hb.bytes hl hm hs
      rw [e] at e'
      cases e'
      have hv : signedVal 8 b.elements = signedVal 8 ((b.memory.drop b.start).take b.size) := k.2.symm.trans k'.2
      have := signed_inj heb (fun w hw => hb.bytes w (List.mem_of_mem_drop (List.mem_of_mem_take hw)))
        (by rw [hel, List.length_take, List.length_drop]; omega) hv
      intro i hi
      rw [← hem i hi, this, List.getElem?_take_of_lt hi, List.getElem?_drop]
    · obtain ⟨r, e, -⟩ := h
      rw [(C52_out_of_bounds_iff b hb hl hs).2 (by omega)] at e
      cases e
  · intro h
    have hm : b.start + b.size ≤ b.memory.length := by
      have h2 := hb.start
      by_cases h0 : b.size = 0
      · omega
      have h3 := h (b.size - 1) (by omega)
      rw [List.getElem?_eq_getElem (hi _ (by omega))] at h3
      obtain ⟨h4, -⟩ := List.getElem?_eq_some_iff.1 h3
      omega
    have : b.elements = (b.memory.drop b.start).take b.size := by
      apply List.ext_getElem?
      intro i
      by_cases h5 : i < b.size
      · rw [hem i h5, ← h i h5, List.getElem?_take_of_lt h5, List.getElem?_drop]
      · rw [List.getElem?_eq_none (by omega), List.getElem?_eq_none (by rw [List.length_take]; omega)]
    rw [this]
    exact C52_consecutive_bytes b hb.format hb.ndim hb.bytes hl hm hs

/-- Every second byte of `07 07 07 07`. -/
private theorem sevens_ok : PyBuffer.Ok { memory := [7, 7, 7, 7, 0], start := 0, size := 2, stride := 2 } :=
  ⟨by decide, by decide, fun i hi => by
    have : i < 2 := hi
    constructor
    · show (0 : Int) ≤ ((0 : Nat) : Int) + (i : Int) * 2; omega
    · show ((0 : Nat) : Int) + (i : Int) * 2 < 5; omega, rfl, rfl⟩
example (hs : Cfg.strictShift = false) : Returns (ofBuffer { memory := [7, 7, 7, 7, 0], start := 0, size := 2, stride := 2 })
    (bytesValue false false [7, 7]) :=
  (C52_exact_iff _ sevens_ok (by decide) hs).2 (by
    intro i hi
    have : i < 2 := hi
    interval_cases i <;> rfl)
example (hs : Cfg.strictShift = false) :
    ofBuffer { memory := [7, 7, 7, 7, 0], start := 0, size := 2, stride := 2 } ≠ .ub .outOfBounds :=
  fun h => absurd ((C52_out_of_bounds_iff _ sevens_ok (by decide) hs).1 h) (by decide)

/-! ### C59 `greatest_common_divisor` -/

/-- The call ends (and throws nothing) exactly if one operand is below `2^64` or the run of C78 ends. -/
theorem C59_gcd_exact_iff (a b : BigInt) (x y : Int) (ha : a.Denotes x) (hb : b.Denotes y) (fa : a.Fits) (fb : b.Fits) :
    (∃ fuel, (BigInt.gcd fuel a b).Only []) ↔
      |x| < 2 ^ 64 ∨ |y| < 2 ^ 64 ∨ gcdRun (!Cfg.ndebug) (2 * (Nat.log2 x.natAbs + Nat.log2 y.natAbs) + 3) (max x.natAbs y.natAbs) 0
        (min x.natAbs y.natAbs) 0 ≠ none := by
  by_cases hx : |x| < 2 ^ 64
  · exact ⟨fun _ => .inl hx, fun _ => ⟨0, C59_gcd_partial a b ha.1 hb.1 (.inl (by rwa [ha.2])) 0⟩⟩
  by_cases hy : |y| < 2 ^ 64
  · exact ⟨fun _ => .inr (.inl hy), fun _ => ⟨0, C59_gcd_partial a b ha.1 hb.1 (.inr (by rwa [hb.2])) 0⟩⟩
  have h := C20_runs_forever_iff a b x y ha hb fa fb (by omega) (by omega)
  constructor
  · rintro ⟨fuel, ho⟩
    exact .inr (.inr fun e => ho.1 (h.2 e fuel))
  · rintro (h1 | h1 | h1)
    · exact absurd h1 hx
    · exact absurd h1 hy
    · by_contra hc
      refine h1 (h.1 fun fuel => ?_)
      by_contra hf
      exact hc ⟨fuel, hf, fun e he => absurd he (C59_gcd_throws_nothing a b ha.1 hb.1 fuel e)⟩

/-- `2^96 + 1` and `3·2^94 + 1` end; `7·2^64 + 1` and `5·2^64 + 3` do not in a release build. -/
example : ∃ fuel, (BigInt.gcd fuel ⟨1, [1, 0, 0, 1]⟩ ⟨1, [1, 0, 3221225472]⟩).Only [] :=
  (C59_gcd_exact_iff ⟨1, [1, 0, 0, 1]⟩ ⟨1, [1, 0, 3221225472]⟩ (2 ^ 96 + 1) (3 * 2 ^ 94 + 1)
    (BigInt.denotes_big (.inl rfl) (by decide) (by decide) (by decide) (by decide) (by decide))
    (BigInt.denotes_big (.inl rfl) (by decide) (by decide) (by decide) (by decide) (by decide)) (by decide) (by decide)).2
    (.inr (.inr ((show ∀ d, gcdRun d (2 * (Nat.log2 (2 ^ 96 + 1) + Nat.log2 (3 * 2 ^ 94 + 1)) + 3) (2 ^ 96 + 1) 0 (3 * 2 ^ 94 + 1) 0 ≠ none by
      decide +kernel) _)))
example (hd : Cfg.ndebug = true) : ¬ ∃ fuel, (BigInt.gcd fuel ⟨1, [1, 0, 7]⟩ ⟨1, [3, 0, 5]⟩).Only [] := by
  rw [C59_gcd_exact_iff ⟨1, [1, 0, 7]⟩ ⟨1, [3, 0, 5]⟩ (7 * 2 ^ 64 + 1) (5 * 2 ^ 64 + 3)
    (BigInt.denotes_big (.inl rfl) (by decide) (by decide) (by decide) (by decide) (by decide))
    (BigInt.denotes_big (.inl rfl) (by decide) (by decide) (by decide) (by decide) (by decide)) (by decide) (by decide), hd]
  decide +kernel

/-! ### C76 shifts by built-in numbers -/

private theorem shift_iff {o : BigInt} {x k : Int} (left : Bool) (ha : o.Denotes x) (hx : InRange x) (hk : IntRange k) :
    Returns (if left then o.shl k else o.shr k) (shiftInt x (if left then k else -k)) ↔
      ((if left then k < 0 ∧ k ≠ -2 ^ 31 else 0 < k) → ¬ ShiftMisfires x k.natAbs) := by
  have la := hx.length ha
  have fa : o.Fits := by show o.bits.length < _; omega
  cases left with
  | true =>
    simp only [if_true]
    by_cases hn : k < 0
    · have e : shiftInt x k = x / 2 ^ k.natAbs := by
        rw [shiftInt, if_neg (by omega), show k.natAbs = (-k).toNat by omega]
      rw [e, C23_exact_iff o x k ha hk hn fa]
      constructor
      · exact fun h h1 h2 => h.2 ⟨h1.2, h2⟩
      · exact fun h => ⟨fun h1 => absurd h1.2 (by omega), fun h1 => h ⟨hn, h1.1⟩ h1.2⟩
    · exact ⟨fun _ h => absurd h.1 hn, fun _ => shl_in_range ha hx hk fun h => absurd h hn⟩
  | false =>
    simp only [Bool.false_eq_true, if_false]
    by_cases hn : 0 < k
    · have e : shiftInt x (-k) = x / 2 ^ k.natAbs := by
        rw [shiftInt, if_neg (by omega), show k.natAbs = (- -k).toNat by omega]
      obtain ⟨n, rfl⟩ : ∃ n : Nat, k = n := ⟨k.toNat, by omega⟩
      rw [e, Int.natAbs_natCast, C22_exact_iff o x n ha hk fa]
      constructor
      · exact fun h _ => h.2
      · exact fun h => ⟨fun h1 => absurd h1.2.2 (by omega), h hn⟩
    · exact ⟨fun _ h => absurd h hn, fun _ => shr_in_range ha hx hk fun h => absurd h hn⟩

open Overload in
/-- `x << n`, `x >> n` made exact: right if and only if the shift of the library by the `int` that arrives is
(C22, C23). -/
theorem C76_shift_exact_iff (p : Platform) (left c : Bool) (o : BigInt) (b : Operand) (x k : Int) (ha : (Operand.obj c o).Is x)
    (hc : shift p (.obj c) b.arg ≠ none) (hb : b.toInt = .ok k) (hk : IntRange k) :
    (evalShift p left (.obj c o) b).Returns (shiftInt x (if left then k else -k)) ↔
      ((if left then k < 0 ∧ k ≠ -2 ^ 31 else 0 < k) → ¬ ShiftMisfires x k.natAbs) := by
  rw [← shift_iff left ha.1 ha.2 hk]
  have e : evalShift p left (.obj c o) b = .library (if left then o.shl k else o.shr k) := by
    rw [evalShift, show (Operand.obj c o).arg = .obj c from rfl, shift_lib hc, meaning, Operand.toObj, Res.ok_bind, hb, Res.ok_bind]
  rw [e]
  exact ⟨fun ⟨r, h1, h2⟩ => by cases h1; exact h2, fun h => ⟨_, rfl, h⟩⟩

open Overload in
/-- The same for `x <<= n`, `x >>= n`. -/
theorem C76_compound_shift_exact_iff (p : Platform) (left : Bool) (o : BigInt) (n : Number) (x k : Int) (ha : o.Denotes x)
    (hx : InRange x) (hb : n.toInt = .ok k) (hk : IntRange k) :
    (evalCompoundShift p left o (.num n)).Returns (shiftInt x (if left then k else -k)) ↔
      ((if left then k < 0 ∧ k ≠ -2 ^ 31 else 0 < k) → ¬ ShiftMisfires x k.natAbs) := by
  rw [← shift_iff left ha hx hk]
  have e : evalCompoundShift p left o (.num n) = .library (if left then o.shl k else o.shr k) := by
    rw [evalCompoundShift, show (Operand.num n).arg = .num n.ty from rfl, (C76_shift_compiles p n.ty).2.2, meaning, Operand.toInt, hb,
      Res.ok_bind]
  rw [e]
  exact ⟨fun ⟨r, h1, h2⟩ => by cases h1; exact h2, fun h => ⟨_, rfl, h⟩⟩

open Overload in
/-- `x >>= 32u` of `-2^64 + 2^32 - 1` is wrong, `x >>= 33u` is right. -/
example : ¬ (evalCompoundShift .linux false ⟨-1, [1, 4294967295]⟩ (.num (.int .uint 32))).Returns (shiftInt (-18446744069414584321) (-32)) ∧
    (evalCompoundShift .linux false ⟨-1, [1, 4294967295]⟩ (.num (.int .uint 33))).Returns (shiftInt (-18446744069414584321) (-33)) := by
  have hd : BigInt.Denotes ⟨-1, [1, 4294967295]⟩ (-18446744069414584321) :=
    BigInt.denotes_big (.inr rfl) (by decide) (by decide) (by decide) (by decide) (by decide)
  constructor
  · refine fun h => (C76_compound_shift_exact_iff .linux false _ (.int .uint 32) _ 32 hd (inRange_small (by decide)) (by decide)
      (by decide)).1 h (by decide) ⟨by decide, by decide, 1, by decide, by decide, by decide⟩
  · exact (C76_compound_shift_exact_iff .linux false _ (.int .uint 33) _ 33 hd (inRange_small (by decide)) (by decide)
      (by decide)).2 fun _ h => absurd h.2.1 (by decide)
open Overload in
example : (evalShift .linux false (.obj true neg3) (.num (.int .long 33))).Returns (shiftInt (-18446744103774322693) (-33)) :=
  (C76_shift_exact_iff .linux false true neg3 (.num (.int .long 33)) _ 33 ⟨neg3_denotes, lt_of_lt_of_le (show _ < 2 ^ 65 by decide) (Nat.pow_le_pow_right (by decide) (by decide))⟩
    (by rw [show (Operand.num (.int .long 33)).arg = .num .long from rfl, (C76_shift_compiles .linux .long).1]; simp) (by decide)
    (by decide)).2 fun _ h => absurd h.2.1 (by decide)

end BigIntegerCpp
