import Verif.Model.CostBits
import Verif.Lemmas.CostDiv
import Verif.Lemmas.Bitwise
import Verif.Lemmas.Twos
import Verif.Lemmas.ToBytes
import Verif.Lemmas.Sizes
/-
The shifts, bitwise operators, comparisons, queries and byte conversions with costs have the outcomes of
those without; bounds on their costs.
-/
set_option linter.unusedSectionVars false
set_option linter.unusedSimpArgs false
namespace BigIntegerCpp
open Counted
namespace Cost
variable [Cfg]

theorem ite_res {α : Type} {p : Prop} [Decidable p] (x y : Counted α) : (if p then x else y).res = if p then x.res else y.res := by
  split_ifs <;> rfl

/-! ### Outcomes -/

theorem twosComplement_res : ∀ l : List Nat, (twosComplement l).res = .ok (BigIntegerCpp.twosComplement l)
  | [] => rfl
  | x :: xs => by
    rw [twosComplement, BigIntegerCpp.twosComplement]
    by_cases h : u32 (u32not x + 1) = 0
    · simp only [bind_res, tick_res, Res.ok_bind, if_pos h, twosComplement_res xs, pure_res]
    · simp only [bind_res, tick_res, Res.ok_bind, if_neg h, pure_res]

theorem trimLen_res (l : List Nat) : (trimLen l).res = .ok (BigIntegerCpp.trimLen l) := rfl

theorem ofTwos_res (l : List Nat) : (ofTwos l).res = BigIntegerCpp.ofTwos l := by
  unfold ofTwos BigIntegerCpp.ofTwos
  simp only [scope_res, bind_res, lift_res, trimLen_res, twosComplement_res, tick_res, pure_res, ite_res, Res.ok_bind]

theorem partsForBits_res (a : BigInt) : (partsForBits a).res = a.partsForBits := by
  unfold partsForBits
  simp only [ite_res, hold_res, bind_res, tick_res, lift_res, Res.ok_bind, ite_self]

theorem shlLoop_res (s : Nat) : ∀ (l : List Nat) (c : Nat), (shlLoop s l c).res = .ok (BigInt.shlLoop s l c)
  | [], _ => rfl
  | x :: xs, c => by
    rw [shlLoop, BigInt.shlLoop]
    simp only [bind_res, tick_res, Res.ok_bind, shlLoop_res s xs, pure_res]

theorem shlTail_res (n : Bool) (d s : Nat) (xd : List Nat) : (shlTail n d s xd).res =
    BigIntegerCpp.ofMagnitude (List.replicate d 0 ++ (if s = 0 then xd ++ [0] else BigInt.shlLoop s xd 0)) n := by
  unfold shlTail
  by_cases hs : s = 0
  · simp only [if_pos hs, scope_res, bind_res, tick_res, Res.ok_bind, ofMagnitude_res]
  · simp only [if_neg hs, scope_res, bind_res, shlLoop_res, Res.ok_bind, ofMagnitude_res]

private theorem shlPos_aux {α : Type} (p : Counted (List Nat)) (sz : List Nat → Res Nat) (iv : Nat → Res α) (k : List Nat → Counted BigInt) :
    (p >>= fun xd => lift (sz xd) >>= fun xl => lift (iv xl) >>= fun _ => k xd).res = p.res >>= fun xd => sz xd >>= fun xl => iv xl >>= fun _ => (k xd).res := by
  simp only [bind_res, lift_res]

theorem shlPos_res (a : BigInt) (s : Nat) : (shlPos a s).res = a.shlPos s := by
  refine (shlPos_aux (partsForBits a) (fun xd => sizeInt xd.length) (fun xl => int (xl + (s / 32 : Nat) + 1)) _).trans ?_
  simp only [partsForBits_res, shlTail_res]
  rfl

theorem shrLoop_res (b : Bool) (s : Nat) : ∀ l : List Nat, (shrLoop b s l).res = .ok (BigInt.shrLoop b s l)
  | [] => rfl
  | x :: xs => by
    rw [shrLoop, BigInt.shrLoop]
    simp only [bind_res, tick_res, Res.ok_bind, shrLoop_res b s xs, pure_res]

theorem shrTail_res (n : Bool) (d s : Nat) (xd : List Nat) : (shrTail n d s xd).res =
    BigIntegerCpp.ofMagnitude (if n then BigIntegerCpp.twosComplement (if s = 0 then xd.drop d else (BigInt.shrLoop n s (xd.drop d)).1)
      else (if s = 0 then xd.drop d else (BigInt.shrLoop n s (xd.drop d)).1)) n := by
  unfold shrTail
  by_cases hs : s = 0 <;> cases n <;>
    simp only [hs, scope_res, bind_res, tick_res, Res.ok_bind, ite_res, pure_res, shrLoop_res, twosComplement_res, ofMagnitude_res, if_true, if_false, Bool.false_eq_true]

theorem shrPos_res (a : BigInt) (s : Nat) : (shrPos a s).res = a.shrPos s := by
  unfold shrPos BigInt.shrPos
  simp only [hold_res, bind_res, lift_res, partsForBits_res]
  refine bind_congr_of_ok fun xd _ => bind_congr_of_ok fun xl _ => bind_congr_of_ok fun t _ => ?_
  by_cases h : decide (a.sign < 0) = true ∧ (s : Int) ≥ t
  · rw [if_pos h, if_pos h, pure_res]
  · rw [if_neg h, if_neg h]
    by_cases hn : a.sign < 0
    · simp only [hn, decide_true, if_true, bind_res, scope_res, tick_res, twosComplement_res, Res.ok_bind, shrTail_res]
    · simp only [hn, decide_false, Bool.false_eq_true, if_false, shrTail_res]

theorem shl_res (a : BigInt) (s : Int) : (shl a s).res = a.shl s := by
  unfold shl BigInt.shl
  simp only [ite_res, pure_res, bind_res, scope_res, shrPos_res, shlPos_res]

theorem shr_res (a : BigInt) (s : Int) : (shr a s).res = a.shr s := by
  unfold shr BigInt.shr
  simp only [ite_res, pure_res, bind_res, scope_res, shrPos_res, shlPos_res]

theorem toUInt32Array_res (a : BigInt) : (toUInt32Array a).res = a.toUInt32Array := by
  unfold toUInt32Array BigInt.toUInt32Array
  by_cases h : a.bits.length = 0 ∧ a.sign = 0
  · rw [if_pos h, if_pos h, pure_res]
  · rw [if_neg h, if_neg h]
    by_cases h1 : a.bits.length = 0
    · simp only [h1, scope_res, bind_res, ite_res, pure_res, lift_res, tick_res, Res.ok_bind, if_true]
    · by_cases h2 : a.sign = -1
      · simp only [h1, h2, scope_res, bind_res, ite_res, pure_res, lift_res, tick_res, Res.ok_bind, if_true, if_false, twosComplement_res]
      · simp only [h1, h2, scope_res, bind_res, ite_res, pure_res, lift_res, tick_res, Res.ok_bind, if_false]

theorem zipExt_res (f : Nat → Nat → Nat) (u v : Nat) : ∀ x y : List Nat, (zipExt f u v x y).res = .ok (BigInt.zipExt f u v x y)
  | [], [] => by rw [zipExt, BigInt.zipExt, pure_res]
  | x :: xs, [] => by
    rw [zipExt, BigInt.zipExt]
    simp only [bind_res, tick_res, Res.ok_bind, zipExt_res f u v xs [], pure_res]
  | [], y :: ys => by
    rw [zipExt, BigInt.zipExt]
    simp only [bind_res, tick_res, Res.ok_bind, zipExt_res f u v [] ys, pure_res]
  | x :: xs, y :: ys => by
    rw [zipExt, BigInt.zipExt]
    simp only [bind_res, tick_res, Res.ok_bind, zipExt_res f u v xs ys, pure_res]

theorem bitwise_res (f : Nat → Nat → Nat) (a b : BigInt) : (bitwise f a b).res = BigInt.bitwise f a b := by
  unfold bitwise BigInt.bitwise
  simp only [bind_res, hold_res, scope_res, toUInt32Array_res, zipExt_res, Res.ok_bind, ofTwos_res]

theorem xor_res (a b : BigInt) : (xor a b).res = a.xor b := by
  unfold xor BigInt.xor
  simp only [scope_res, ite_res, lift_res, bitwise_res]

theorem and_res (a b : BigInt) : (and a b).res = a.and b := by
  unfold and BigInt.and
  simp only [scope_res, bind_res, ite_res, lift_res, pure_res, Res.ok_bind, bitwise_res]

theorem or_res (a b : BigInt) : (or a b).res = a.or b := by
  unfold or BigInt.or
  simp only [scope_res, bind_res, ite_res, lift_res, pure_res, tick_res, Res.ok_bind, bitwise_res]

theorem neg_res (a : BigInt) : (neg a).res = a.neg := by
  unfold neg
  simp only [scope_res, bind_res, tick_res, lift_res, Res.ok_bind]

theorem compl_res (a : BigInt) : (compl a).res = a.compl := by
  unfold compl BigInt.compl
  simp only [scope_res, bind_res, add_res, neg_res]

theorem diffLength_res (a b : List Nat) : (diffLength a b).res = .ok (BigInt.diffLength a b) := rfl

theorem compareTo_res (a b : BigInt) : (compareTo a b).res = a.compareTo b := by
  unfold compareTo BigInt.compareTo
  simp only [bind_res, ite_res, lift_res, pure_res, diffLength_res, Res.ok_bind]

theorem equals_res (a b : BigInt) : (equals a b).res = a.equals b := by
  unfold equals BigInt.equals
  simp only [bind_res, ite_res, lift_res, pure_res, tick_res, diffLength_res, Res.ok_bind]

theorem hashCode_res (a : BigInt) : (hashCode a).res = .ok a.hashCode := rfl
theorem isPowerOfTwo_res (a : BigInt) : (isPowerOfTwo a).res = a.isPowerOfTwo := by
  unfold isPowerOfTwo
  simp only [bind_res, tick_res, lift_res, Res.ok_bind]
theorem bitLength_res (a : BigInt) : (bitLength a).res = a.bitLength := by
  unfold bitLength
  simp only [bind_res, tick_res, lift_res, Res.ok_bind]

theorem packSign_res (v : List Nat) (p : Int) : ∀ (n : Nat) (c s : Int), (packSign v p n c s).res = BigIntegerCpp.packSign v p n c s
  | 0, _, _ => rfl
  | n + 1, c, s => by
    rw [packSign, BigIntegerCpp.packSign]
    simp only [bind_res, tick_res, lift_res, Res.ok_bind, packSign_res v p n]

theorem packWord_res (v : List Nat) (p : Int) : ∀ (n : Nat) (c : Int) (w : Nat), (packWord v p n c w).res = BigIntegerCpp.packWord v p n c w
  | 0, _, _ => rfl
  | n + 1, c, s => by
    rw [packWord, BigIntegerCpp.packWord]
    simp only [bind_res, tick_res, lift_res, Res.ok_bind, packWord_res v p n]

theorem packWords_res (v : List Nat) (p : Int) : ∀ (n : Nat) (c : Int), (packWords v p n c).res = BigIntegerCpp.packWords v p n c
  | 0, _ => rfl
  | n + 1, c => by
    rw [packWords, BigIntegerCpp.packWords]
    simp only [bind_res, tick_res, pure_res, Res.ok_bind, packWord_res, packWords_res v p n]

theorem ofBytes_res (v : List Nat) (u b : Bool) : (ofBytes v u b).res = BigIntegerCpp.ofBytes v u b := by
  unfold ofBytes BigIntegerCpp.ofBytes
  simp only [scope_res, bind_res, lift_res]
  refine bind_congr_of_ok fun n _ => ?_
  cases b
  · simp only [Bool.false_eq_true, if_false]
    by_cases h : n > 0 ∧ v.getLast?.getD 0 = 0
    · simp only [if_pos h, ite_res, bind_res, pure_res, tick_res, scope_res, trimLen_res, Res.ok_bind,
        packSign_res, packWord_res, packWords_res, lift_res, twosComplement_res]
    · simp only [if_neg h, ite_res, bind_res, pure_res, tick_res, scope_res, trimLen_res, Res.ok_bind,
        packSign_res, packWord_res, packWords_res, lift_res, twosComplement_res]
  · simp only [if_true]
    by_cases h : n > 0 ∧ v.headD 0 = 0
    · simp only [if_pos h, ite_res, bind_res, pure_res, tick_res, scope_res, trimLen_res, Res.ok_bind,
        packSign_res, packWord_res, packWords_res, lift_res, twosComplement_res]
    · simp only [if_neg h, ite_res, bind_res, pure_res, tick_res, scope_res, trimLen_res, Res.ok_bind,
        packSign_res, packWord_res, packWords_res, lift_res, twosComplement_res]

theorem storeBytes_res (i : Int) : ∀ (bs d : List Nat) (c : Int), (storeBytes i bs d c).res = BigIntegerCpp.storeBytes i bs d c
  | [], _, _ => rfl
  | b :: bs, d, c => by
    rw [storeBytes, BigIntegerCpp.storeBytes]
    simp only [bind_res, tick_res, lift_res, Res.ok_bind, storeBytes_res i bs]

theorem firstNonZero_res : ∀ l : List Nat, (firstNonZero l).res = BigIntegerCpp.firstNonZero l
  | [] => rfl
  | x :: xs => by
    rw [firstNonZero, BigIntegerCpp.firstNonZero]
    simp only [ite_res, bind_res, tick_res, pure_res, Res.ok_bind, firstNonZero_res xs]

theorem toBytesMode_res (a : BigInt) (m : GetBytesMode) (u b p : Bool) : (toBytesMode a m u b p).res = a.toBytesMode m u b p := by
  unfold toBytesMode BigInt.toBytesMode
  simp only [ite_res, bind_res, tick_res, pure_res, lift_res, scope_res, Res.ok_bind, firstNonZero_res, storeBytes_res]

theorem toBytes_res (a : BigInt) (u b : Bool) : (toBytes a u b).res = a.toBytes u b := by
  unfold toBytes BigInt.toBytes
  simp only [bind_res, pure_res, toBytesMode_res]

theorem byteCount_res (a : BigInt) (u : Bool) : (byteCount a u).res = a.byteCount u := by
  unfold byteCount BigInt.byteCount
  simp only [bind_res, pure_res, toBytesMode_res]

/-! ### Bounds -/

theorem within_ite {α : Type} {p : Prop} [Decidable p] {x y : Counted α} {s d w : Nat} (hx : p → Within x s d w) (hy : ¬ p → Within y s d w) :
    Within (if p then x else y) s d w := by
  by_cases h : p
  · rw [if_pos h]; exact hx h
  · rw [if_neg h]; exact hy h

theorem within_lift_any {α : Type} (r : Res α) (s d w : Nat) : Within (lift r) s d w := (within_lift r d w).mono (Nat.zero_le _) (Nat.le_refl _) (Nat.le_refl _)
theorem within_pure_any {α : Type} (a : α) (s d w : Nat) : Within (pure a) s d w := (within_pure a d w).mono (Nat.zero_le _) (Nat.le_refl _) (Nat.le_refl _)

theorem within_tick_pure {α : Type} (n : Nat) (a : α) (d w : Nat) : Within (tick n >>= fun _ => pure a) n d w :=
  within_tick_bind (t := 0) (f := fun _ => pure a) (within_pure a _ _)
theorem within_tick_lift {α : Type} (n : Nat) (a : Res α) (d w : Nat) : Within (tick n >>= fun _ => lift a) n d w :=
  within_tick_bind (t := 0) (f := fun _ => lift a) (within_lift a _ _)

variable (d w : Nat)

theorem twosComplement_within : ∀ l : List Nat, Within (twosComplement l) l.length d w
  | [] => within_pure _ _ _
  | x :: xs => by
    rw [twosComplement, List.length_cons, Nat.add_comm xs.length 1]
    refine within_tick_bind ?_
    refine within_ite (fun _ => within_bind_pure (twosComplement_within xs)) fun _ => ?_
    exact within_tick_pure _ _ _ _

theorem trimLen_within (l : List Nat) : Within (trimLen l) (l.length - BigIntegerCpp.trimLen l) d w :=
  within_tick_pure _ _ _ _

theorem ofTwos_within (l : List Nat) : Within (ofTwos l) (4 * l.length) d (w + l.length) := by
  have e : 4 * l.length = 3 * l.length + l.length := by omega
  rw [e]
  refine within_scope _ (within_lift_bind fun _ _ => ?_)
  have ht := trimLen_le l
  have e : 3 * l.length = (l.length - BigIntegerCpp.trimLen l) + (2 * l.length + BigIntegerCpp.trimLen l) := by omega
  rw [e]
  refine within_bind (trimLen_within d w l) fun t h => ?_
  cases h
  refine within_ite (fun _ => within_lift_any _ _ _ _) fun h0 => within_ite (fun h1 => ?_) fun h1 => within_ite (fun _ => ?_) fun _ => ?_
  · refine within_ite (fun _ => ?_) fun _ => within_ite (fun _ => within_lift_any _ _ _ _) fun _ => within_lift_any _ _ _ _
    exact (within_tick_bind (within_lift _ _ _)).mono (by omega) (Nat.le_refl _) (Nat.le_refl _)
  · refine (within_tick_bind (t := 0) ?_).mono (by omega) (Nat.le_refl _) (Nat.le_refl _)
    exact within_ite (fun _ => within_lift _ _ _) fun _ => within_lift _ _ _
  · have : Within (do
        let value ← twosComplement l
        let len ← trimLen value
        if len = 1 ∧ i32 (value.headD 0) > 0 then
          if value.headD 0 = 1 then lift (checked minusOneInt)
          else if value.headD 0 = 2147483648 then lift (checked minInt)
          else lift (checked ⟨-1 * i32 (value.headD 0), []⟩)
        else do
          tick len
          if len ≠ value.length then lift (checked ⟨-1, value.take len⟩)
          else lift (checked ⟨-1, value⟩)) (l.length + l.length) d w := by
      refine within_bind (twosComplement_within d w l) fun v hv => ?_
      rw [twosComplement_res] at hv
      cases hv
      have hl := twosComplement_length l
      have ht := trimLen_le (BigIntegerCpp.twosComplement l)
      refine (within_bind (t := BigIntegerCpp.trimLen (BigIntegerCpp.twosComplement l)) (trimLen_within d w _) fun t h => ?_).mono (by omega) (Nat.le_refl _) (Nat.le_refl _)
      cases h
      refine within_ite (fun _ => ?_) fun _ => ?_
      · exact within_ite (fun _ => within_lift_any _ _ _ _) fun _ => within_ite (fun _ => within_lift_any _ _ _ _) fun _ => within_lift_any _ _ _ _
      · refine within_tick_bind (t := 0) ?_
        exact within_ite (fun _ => within_lift _ _ _) fun _ => within_lift _ _ _
    exact this.mono (by omega) (Nat.le_refl _) (Nat.le_refl _)

/-- The number of words shifts work on. -/
theorem partsForBits_length {a : BigInt} {xd : List Nat} (h : a.partsForBits = .ok xd) : xd.length = max 1 a.bits.length := by
  unfold BigInt.partsForBits at h
  by_cases hb : a.bits = []
  · rw [if_pos hb] at h
    rw [hb]
    by_cases hs : a.sign < 0
    · rw [if_pos hs] at h
      obtain ⟨m, -, h⟩ := Res.bind_eq_ok h
      cases h; rfl
    · rw [if_neg hs] at h
      cases h; rfl
  · rw [if_neg hb] at h
    cases h
    have := List.length_pos_iff.2 hb
    omega

theorem partsForBits_within (a : BigInt) : Within (partsForBits a) (4 * max 1 a.bits.length) d (w + 2 * max 1 a.bits.length) := by
  unfold partsForBits
  refine within_ite (fun _ => ?_) fun h => ?_
  · exact (within_tick_bind (within_lift _ d w)).mono (by omega) (Nat.le_refl _) (by omega)
  · refine (within_hold (2 * a.bits.length) (within_tick_bind (within_lift _ d w))).mono (by omega) (Nat.le_refl _) (by omega)

theorem shlLoop_within (s : Nat) : ∀ (l : List Nat) (c : Nat), Within (shlLoop s l c) l.length d w
  | [], _ => within_pure _ _ _
  | x :: xs, c => by
    rw [shlLoop, List.length_cons, Nat.add_comm _ 1]
    exact within_tick_bind (within_bind_pure (shlLoop_within s xs _))

theorem shlLoop_length (s : Nat) : ∀ (l : List Nat) (c : Nat), (BigInt.shlLoop s l c).length = l.length + 1
  | [], _ => rfl
  | x :: xs, c => by rw [BigInt.shlLoop, List.length_cons, shlLoop_length s xs, List.length_cons]

theorem shlTail_within (n : Bool) (q s : Nat) (xd : List Nat) :
    Within (shlTail n q s xd) (5 * xd.length + 4 * q + 4) d (w + 2 * (xd.length + q + 1)) := by
  unfold shlTail
  have e : (if s = 0 then do
        tick xd.length
        ofMagnitude (List.replicate q 0 ++ (xd ++ [0])) n
      else do
        let z ← shlLoop s xd 0
        ofMagnitude (List.replicate q 0 ++ z) n : Counted BigInt).Within (xd.length + 3 * (xd.length + q + 1)) d (w + (xd.length + q + 1)) := by
    refine within_ite (fun _ => ?_) fun _ => ?_
    · have h := ofMagnitude_within d w (List.replicate q 0 ++ (xd ++ [0])) n
      have hl : (List.replicate q 0 ++ (xd ++ [0])).length = xd.length + q + 1 := by simp; omega
      rw [hl] at h
      exact within_tick_bind h
    · refine within_bind (shlLoop_within _ _ s xd 0) fun z hz => ?_
      rw [shlLoop_res] at hz
      cases hz
      have h := ofMagnitude_within d w (List.replicate q 0 ++ BigInt.shlLoop s xd 0) n
      have hl : (List.replicate q 0 ++ BigInt.shlLoop s xd 0).length = xd.length + q + 1 := by
        rw [List.length_append, List.length_replicate, shlLoop_length]; omega
      rw [hl] at h
      exact h
  exact (within_scope _ e).mono (by omega) (Nat.le_refl _) (by omega)

theorem shlPos_within (a : BigInt) (s : Nat) {m : Nat} (hm : max 1 a.bits.length ≤ m) :
    Within (shlPos a s) (9 * m + 4 * (s / 32) + 4) d (w + (3 * m + 2 * (s / 32) + 2)) := by
  have e : Within (partsForBits a >>= fun xd => lift (sizeInt xd.length) >>= fun xl => lift (int (xl + (s / 32 : Nat) + 1)) >>= fun _ =>
      shlTail (a.sign < 0) (s / 32) (s - s / 32 * 32) xd) (4 * m + (5 * m + 4 * (s / 32) + 4)) d (w + 2 * (m + s / 32 + 1)) := by
    refine within_bind ((partsForBits_within d w a).mono (by omega) (Nat.le_refl _) (by omega)) fun xd hx => ?_
    rw [partsForBits_res] at hx
    have hx := partsForBits_length hx
    refine within_lift_bind fun _ _ => within_lift_bind fun _ _ => ?_
    exact (shlTail_within d w _ _ _ xd).mono (by omega) (Nat.le_refl _) (by omega)
  exact (within_hold (max 1 a.bits.length) e).mono (by omega) (Nat.le_refl _) (by omega)

theorem shrLoop_within (b : Bool) (s : Nat) : ∀ l : List Nat, Within (shrLoop b s l) l.length d w
  | [] => within_pure _ _ _
  | x :: xs => by
    rw [shrLoop, List.length_cons]
    refine within_bind (shrLoop_within b s xs) fun _ _ => ?_
    exact within_tick_pure _ _ _ _

theorem shrLoop_length (b : Bool) (s : Nat) : ∀ l : List Nat, (BigInt.shrLoop b s l).1.length = l.length
  | [] => rfl
  | x :: xs => by rw [BigInt.shrLoop, List.length_cons, List.length_cons, shrLoop_length b s xs]

theorem shrTail_within (n : Bool) (q s : Nat) (xd : List Nat) : Within (shrTail n q s xd) (6 * xd.length) d (w + 2 * xd.length) := by
  have e : Within ((if s = 0 then do
        tick (xd.length - q)
        pure (xd.drop q)
      else do
        let (z, _) ← shrLoop n s (xd.drop q)
        pure z : Counted (List Nat)) >>= fun zd => if n then do
      let zd ← twosComplement zd
      ofMagnitude zd n
    else ofMagnitude zd n) (xd.length + (xd.length + 3 * xd.length)) d (w + xd.length) := by
    have hl : (xd.drop q).length ≤ xd.length := by rw [List.length_drop]; omega
    have h1 : Within (if s = 0 then do
        tick (xd.length - q)
        pure (xd.drop q)
      else do
        let (z, _) ← shrLoop n s (xd.drop q)
        pure z : Counted (List Nat)) xd.length d (w + xd.length) := by
      refine within_ite (fun _ => ?_) fun _ => ?_
      · exact (within_tick_pure _ _ _ _).mono (by omega) (Nat.le_refl _) (Nat.le_refl _)
      · exact (within_bind_pure (shrLoop_within d _ n s _)).mono hl (Nat.le_refl _) (Nat.le_refl _)
    refine within_bind h1 fun zd hz => ?_
    have hz : zd.length ≤ xd.length := by
      rw [ite_res] at hz
      by_cases hs : s = 0
      · rw [if_pos hs] at hz
        cases hz; exact hl
      · rw [if_neg hs, bind_res, shrLoop_res] at hz
        cases hz
        rw [shrLoop_length]; exact hl
    refine within_ite (fun _ => ?_) fun _ => ?_
    · refine within_bind ((twosComplement_within d _ zd).mono hz (Nat.le_refl _) (Nat.le_refl _)) fun t ht => ?_
      rw [twosComplement_res] at ht
      cases ht
      have := twosComplement_length zd
      exact (ofMagnitude_within d w _ n).mono (by omega) (Nat.le_refl _) (by omega)
    · exact (ofMagnitude_within d w zd n).mono (by omega) (Nat.le_refl _) (by omega)
  exact (within_scope _ e).mono (by omega) (Nat.le_refl _) (by omega)

theorem shrPos_within (a : BigInt) (s : Nat) {m : Nat} (hm : max 1 a.bits.length ≤ m) :
    Within (shrPos a s) (13 * m) d (w + 3 * m) := by
  unfold shrPos
  refine (within_hold (s := 4 * m + 9 * m) (w := w + 2 * m) (max 1 a.bits.length) ?_).mono (by omega) (Nat.le_refl _) (by omega)
  refine within_bind ((partsForBits_within d w a).mono (by omega) (Nat.le_refl _) (by omega)) fun xd hx => ?_
  rw [partsForBits_res] at hx
  have hx := partsForBits_length hx
  refine within_lift_bind fun xl hxl => within_lift_bind fun _ _ => ?_
  have hxl : xl = xd.length := by
    unfold sizeInt at hxl
    split_ifs at hxl
    cases hxl; rfl
  refine within_ite (fun _ => within_pure_any _ _ _ _) fun _ => within_ite (fun _ => ?_) fun _ => ?_
  · have h1 : Within (scope xl (do
        tick xl
        twosComplement xd)) (xl + xd.length + xl) d (w + xl) := within_scope xl (within_tick_bind (twosComplement_within d w xd))
    refine (within_bind (t := 6 * xd.length) (h1.mono (Nat.le_refl _) (Nat.le_refl _) (by omega)) fun t ht => ?_).mono (by omega) (Nat.le_refl _) (Nat.le_refl _)
    rw [scope_res, bind_res, tick_res, Res.ok_bind, twosComplement_res] at ht
    cases ht
    have := twosComplement_length xd
    exact (shrTail_within d w _ _ _ _).mono (by omega) (Nat.le_refl _) (by omega)
  · exact (shrTail_within d w _ _ _ xd).mono (by omega) (Nat.le_refl _) (by omega)

theorem checked_eq {b c : BigInt} (h : checked b = .ok c) : c = b := by
  unfold checked at h
  obtain ⟨_, -, h⟩ := Res.bind_eq_ok h
  cases h; rfl

theorem ofMagnitude_length {l : List Nat} {n : Bool} {b : BigInt} (h : BigIntegerCpp.ofMagnitude l n = .ok b) : b.bits.length ≤ l.length := by
  unfold BigIntegerCpp.ofMagnitude at h
  obtain ⟨_, -, h⟩ := Res.bind_eq_ok h
  have h := checked_eq h
  rw [h]
  show (List.take _ _).length ≤ _
  refine (List.length_take_le' _ _).trans ?_
  have := trimLen_le l
  by_cases h0 : BigIntegerCpp.trimLen l = 0
  · rw [if_pos h0]; exact Nat.zero_le _
  · rw [if_neg h0]
    by_cases h1 : BigIntegerCpp.trimLen l = 1 ∧ l.headD 0 < 2147483648
    · rw [if_pos h1]
      have : ∀ s : Int, (if s = -2147483648 then minInt else ⟨s, []⟩ : BigInt).bits.length ≤ 1 := by
        intro s
        by_cases hs : s = -2147483648
        · rw [if_pos hs]; exact Nat.le_refl _
        · rw [if_neg hs]; exact Nat.zero_le _
      exact (this _).trans (by omega)
    · rw [if_neg h1]

theorem shrPos_length {a b : BigInt} {s : Nat} (h : a.shrPos s = .ok b) : b.bits.length ≤ max 1 a.bits.length := by
  unfold BigInt.shrPos at h
  obtain ⟨xd, hx, h⟩ := Res.bind_eq_ok h
  have hx := partsForBits_length hx
  obtain ⟨xl, -, h⟩ := Res.bind_eq_ok h
  obtain ⟨t, -, h⟩ := Res.bind_eq_ok h
  by_cases hc : decide (a.sign < 0) = true ∧ (s : Int) ≥ t
  · rw [if_pos hc] at h
    cases h; exact Nat.zero_le _
  · rw [if_neg hc] at h
    refine (ofMagnitude_length h).trans ?_
    have hz : ∀ xs : List Nat, xs.length ≤ max 1 a.bits.length →
        (if s - s / 32 * 32 = 0 then xs.drop (s / 32) else (BigInt.shrLoop (decide (a.sign < 0)) (s - s / 32 * 32) (xs.drop (s / 32))).1).length ≤ max 1 a.bits.length := by
      intro xs hl
      split_ifs
      · rw [List.length_drop]; omega
      · rw [shrLoop_length, List.length_drop]; omega
    by_cases hn : decide (a.sign < 0) = true
    · rw [if_pos hn, if_pos hn, twosComplement_length]
      exact hz _ (by rw [twosComplement_length]; omega)
    · rw [if_neg hn, if_neg hn]
      exact hz _ (by omega)

theorem shlPos_length {a b : BigInt} {s : Nat} (h : a.shlPos s = .ok b) : b.bits.length ≤ max 1 a.bits.length + s / 32 + 1 := by
  unfold BigInt.shlPos at h
  obtain ⟨xd, hx, h⟩ := Res.bind_eq_ok h
  have hx := partsForBits_length hx
  obtain ⟨xl, -, h⟩ := Res.bind_eq_ok h
  obtain ⟨t, -, h⟩ := Res.bind_eq_ok h
  refine (ofMagnitude_length h).trans ?_
  rw [List.length_append, List.length_replicate]
  by_cases hs : s - s / 32 * 32 = 0
  · rw [if_pos hs, List.length_append, List.length_singleton]; omega
  · rw [if_neg hs, shlLoop_length]; omega

theorem toUInt32Array_within (a : BigInt) {m : Nat} (hm : max 1 a.bits.length ≤ m) : Within (toUInt32Array a) (4 * m + 1) d (w + m) := by
  unfold toUInt32Array
  refine within_ite (fun _ => within_pure_any _ _ _ _) fun _ => ?_
  refine (within_scope (s := max 1 a.bits.length + (2 * max 1 a.bits.length + 1)) (w := w) _ ?_).mono (by omega) (Nat.le_refl _) (by omega)
  have h1 : Within (if a.bits.length = 0 then pure ([u32i a.sign], if a.sign < 0 then 4294967295 else 0)
      else if a.sign = -1 then do
        let d ← twosComplement a.bits
        pure (d, 4294967295)
      else pure (a.bits, 0) : Counted (List Nat × Nat)) (max 1 a.bits.length) d w := by
    refine within_ite (fun _ => within_pure_any _ _ _ _) fun _ => within_ite (fun _ => ?_) fun _ => within_pure_any _ _ _ _
    exact (within_bind_pure (twosComplement_within d w a.bits)).mono (by omega) (Nat.le_refl _) (Nat.le_refl _)
  refine within_bind h1 fun p hp => ?_
  have hp : p.1.length = max 1 a.bits.length := by
    rw [ite_res, ite_res] at hp
    by_cases h0 : a.bits.length = 0
    · rw [if_pos h0] at hp
      cases hp
      rw [h0]; rfl
    · rw [if_neg h0] at hp
      by_cases h2 : a.sign = -1
      · rw [if_pos h2, bind_res, twosComplement_res] at hp
        cases hp
        rw [twosComplement_length]; omega
      · rw [if_neg h2] at hp
        cases hp
        show a.bits.length = _
        omega
  obtain ⟨dw, high⟩ := p
  refine within_lift_bind fun _ _ => ?_
  have hlt : BigInt.msbIndex high dw < max 1 dw.length := by
    by_cases hne : dw = []
    · rw [hne]; exact Nat.one_pos
    · obtain ⟨l, t, k, e1, e2, -⟩ := msbIndex_spec high hne
      rw [← e2]
      have := congrArg List.length e1
      rw [List.length_append, List.length_cons] at this
      omega
  replace hp : dw.length = max 1 a.bits.length := hp
  refine (within_tick_bind (t := 2 * BigInt.msbIndex high dw + 3) ?_).mono (by omega) (Nat.le_refl _) (Nat.le_refl _)
  refine within_lift_bind fun _ _ => ?_
  refine (within_tick_bind (t := BigInt.msbIndex high dw + 1) ?_).mono (by split_ifs <;> omega) (Nat.le_refl _) (Nat.le_refl _)
  exact within_tick_pure _ _ _ _

theorem toUInt32Array_length {a : BigInt} {l : List Nat} (h : a.toUInt32Array = .ok l) : l.length ≤ max 1 a.bits.length + 1 := by
  unfold BigInt.toUInt32Array at h
  by_cases h0 : a.bits.length = 0 ∧ a.sign = 0
  · rw [if_pos h0] at h
    cases h; exact Nat.zero_le _
  · rw [if_neg h0] at h
    have key : ∀ (dw : List Nat) (high : Nat), dw.length = max 1 a.bits.length → (do
        let _ ← sizeInt dw.length
        let msb := BigInt.msbIndex high dw
        let w ← idx dw msb
        let needExtraByte := decide (w &&& 0x80000000 ≠ high &&& 0x80000000)
        .ok (dw.take (msb + 1) ++ (if needExtraByte then [high] else [])) : Res (List Nat)) = .ok l → l.length ≤ max 1 a.bits.length + 1 := by
      intro dw high hd h
      obtain ⟨_, -, h⟩ := Res.bind_eq_ok h
      obtain ⟨x, -, h⟩ := Res.bind_eq_ok h
      cases h
      rw [List.length_append, List.length_take]
      split_ifs <;> simp <;> omega
    by_cases h1 : a.bits.length = 0
    · simp only [if_pos h1] at h
      exact key _ _ (by rw [h1]; rfl) h
    · simp only [if_neg h1] at h
      by_cases h2 : a.sign = -1
      · simp only [if_pos h2] at h
        exact key _ _ (by rw [twosComplement_length]; omega) h
      · simp only [if_neg h2] at h
        exact key _ _ (by omega) h

theorem zipExt_within (f : Nat → Nat → Nat) (u v : Nat) : ∀ x y : List Nat, Within (zipExt f u v x y) (max x.length y.length) d w
  | [], [] => by rw [zipExt]; exact within_pure_any _ _ _ _
  | x :: xs, [] => by
    rw [zipExt]
    refine (within_tick_bind (t := max xs.length 0) ?_).mono (by rw [List.length_cons, List.length_nil]; omega) (Nat.le_refl _) (Nat.le_refl _)
    exact within_bind_pure (zipExt_within f u v xs [])
  | [], y :: ys => by
    rw [zipExt]
    refine (within_tick_bind (t := max 0 ys.length) ?_).mono (by rw [List.length_cons, List.length_nil]; omega) (Nat.le_refl _) (Nat.le_refl _)
    exact within_bind_pure (zipExt_within f u v [] ys)
  | x :: xs, y :: ys => by
    rw [zipExt]
    refine (within_tick_bind (t := max xs.length ys.length) ?_).mono (by rw [List.length_cons, List.length_cons]; omega) (Nat.le_refl _) (Nat.le_refl _)
    exact within_bind_pure (zipExt_within f u v xs ys)

theorem bitwise_within (f : Nat → Nat → Nat) (a b : BigInt) {m : Nat} (ha : max 1 a.bits.length ≤ m) (hb : max 1 b.bits.length ≤ m) :
    Within (bitwise f a b) (14 * m + 8) d (w + 4 * (m + 1)) := by
  unfold bitwise
  refine (within_bind (t := 10 * m + 7) ((toUInt32Array_within d w a ha).mono (Nat.le_refl _) (Nat.le_refl _) (by omega)) fun x hx => ?_).mono (by omega) (Nat.le_refl _) (Nat.le_refl _)
  rw [toUInt32Array_res] at hx
  have hx := toUInt32Array_length hx
  refine (within_hold (w := w + 3 * (m + 1)) x.length ?_).mono (Nat.le_refl _) (Nat.le_refl _) (by omega)
  refine (within_bind (t := 6 * (m + 1)) ((toUInt32Array_within d w b hb).mono (Nat.le_refl _) (Nat.le_refl _) (by omega)) fun y hy => ?_).mono (by omega) (Nat.le_refl _) (Nat.le_refl _)
  rw [toUInt32Array_res] at hy
  have hy := toUInt32Array_length hy
  refine (within_hold (w := w + 2 * (m + 1)) y.length ?_).mono (Nat.le_refl _) (Nat.le_refl _) (by omega)
  refine (within_scope (s := 5 * (m + 1)) (w := w + (m + 1)) (max x.length y.length) ?_).mono (by omega) (Nat.le_refl _) (by omega)
  refine (within_bind (t := 4 * (m + 1)) ((zipExt_within d _ f _ _ x y).mono (show _ ≤ m + 1 by omega) (Nat.le_refl _) (Nat.le_refl _)) fun z hz => ?_).mono (by omega) (Nat.le_refl _) (Nat.le_refl _)
  rw [zipExt_res] at hz
  cases hz
  have hl := zipExt_length f (if a.sign < 0 then 4294967295 else 0) (if b.sign < 0 then 4294967295 else 0) x y
  exact (ofTwos_within d w _).mono (by omega) (Nat.le_refl _) (by omega)

theorem xor_within (a b : BigInt) {m : Nat} (ha : max 1 a.bits.length ≤ m) (hb : max 1 b.bits.length ≤ m) : Within (xor a b) (16 * m + 8) d (w + 5 * m + 4) := by
  unfold xor
  refine (within_scope (s := 14 * m + 8) (w := w + 4 * (m + 1)) _ ?_).mono (by omega) (Nat.le_refl _) (by omega)
  exact within_ite (fun _ => within_lift_any _ _ _ _) fun _ => bitwise_within d w _ a b ha hb

theorem and_within (a b : BigInt) {m : Nat} (ha : max 1 a.bits.length ≤ m) (hb : max 1 b.bits.length ≤ m) : Within (and a b) (16 * m + 8) d (w + 5 * m + 4) := by
  unfold and
  refine (within_scope (s := m + (14 * m + 8)) (w := w + 4 * (m + 1)) _ ?_).mono (by omega) (Nat.le_refl _) (by omega)
  refine within_lift_bind fun _ _ => within_lift_bind fun _ _ => within_ite (fun _ => within_pure_any _ _ _ _) fun _ => ?_
  refine within_bind ((within_scope (s := 0) (w := w) (max a.bits.length b.bits.length) (within_pure _ _ _)).mono (by omega) (Nat.le_refl _) (by omega)) fun _ _ => ?_
  exact within_ite (fun _ => within_lift_any _ _ _ _) fun _ => bitwise_within d w _ a b ha hb

theorem or_within (a b : BigInt) {m : Nat} (ha : max 1 a.bits.length ≤ m) (hb : max 1 b.bits.length ≤ m) : Within (or a b) (16 * m + 8) d (w + 5 * m + 4) := by
  unfold or
  refine (within_scope (s := 14 * m + 8) (w := w + 4 * (m + 1)) _ ?_).mono (by omega) (Nat.le_refl _) (by omega)
  refine within_lift_bind fun _ _ => within_ite (fun _ => (within_tick_pure _ _ _ _).mono (by omega) (Nat.le_refl _) (Nat.le_refl _)) fun _ => ?_
  refine within_lift_bind fun _ _ => within_ite (fun _ => within_pure_any _ _ _ _) fun _ => ?_
  exact within_ite (fun _ => within_lift_any _ _ _ _) fun _ => bitwise_within d w _ a b ha hb

theorem neg_within (a : BigInt) : Within (neg a) (2 * a.bits.length) d (w + a.bits.length) :=
  (within_scope a.bits.length (within_tick_lift a.bits.length a.neg d w)).mono (by omega) (Nat.le_refl _) (Nat.le_refl _)

theorem diffLength_within (a b : List Nat) : Within (diffLength a b) (min a.length b.length) d w :=
  (within_tick_pure _ _ _ _).mono (by omega) (Nat.le_refl _) (Nat.le_refl _)

theorem compareTo_within (a b : BigInt) : Within (compareTo a b) (min a.bits.length b.bits.length) d w := by
  unfold compareTo
  refine within_lift_bind fun _ _ => within_lift_bind fun _ _ => within_ite (fun _ => within_pure_any _ _ _ _) fun _ => within_ite (fun _ => ?_) fun _ => ?_
  · exact within_ite (fun _ => within_pure_any _ _ _ _) fun _ => within_lift_any _ _ _ _
  · refine within_lift_bind fun _ _ => within_lift_bind fun _ _ => within_ite (fun _ => within_pure_any _ _ _ _) fun _ => within_ite (fun _ => within_lift_any _ _ _ _) fun _ => ?_
    refine (within_bind (t := 0) (diffLength_within d w a.bits b.bits) fun _ _ => ?_).mono (by omega) (Nat.le_refl _) (Nat.le_refl _)
    refine within_ite (fun _ => within_pure _ _ _) fun _ => within_lift_bind fun _ _ => within_lift_bind fun _ _ => within_ite (fun _ => within_lift _ _ _) fun _ => within_pure _ _ _

theorem equals_within (a b : BigInt) : Within (equals a b) (2 * min a.bits.length b.bits.length) d w := by
  unfold equals
  refine within_lift_bind fun _ _ => within_lift_bind fun _ _ => within_ite (fun _ => within_pure_any _ _ _ _) fun _ => ?_
  refine (within_tick_bind (t := min a.bits.length b.bits.length) ?_).mono (by split_ifs <;> omega) (Nat.le_refl _) (Nat.le_refl _)
  refine within_ite (fun _ => within_pure_any _ _ _ _) fun _ => within_ite (fun _ => within_pure_any _ _ _ _) fun _ => within_ite (fun _ => within_pure_any _ _ _ _) fun _ => ?_
  exact within_bind_pure (diffLength_within d w a.bits b.bits)

theorem shl_left_within (a : BigInt) {s : Int} (hs : 0 ≤ s) {m : Nat} (hm : max 1 a.bits.length ≤ m) :
    Within (shl a s) (9 * m + 4 * (s.toNat / 32) + 4) d (w + (3 * m + 2 * (s.toNat / 32) + 2)) := by
  unfold shl
  refine within_ite (fun _ => within_pure_any _ _ _ _) fun _ => ?_
  rw [if_neg (by omega), if_neg (by omega)]
  exact shlPos_within d w a _ hm

theorem shl_right_within (a : BigInt) {s : Int} (hs : s < 0) {m : Nat} (hm : max 1 a.bits.length ≤ m) :
    Within (shl a s) (28 * m) d (w + 4 * m) := by
  unfold shl
  rw [if_neg (by omega)]
  have one : ∀ (b : BigInt) (k : Nat), max 1 b.bits.length ≤ m → Within (scope b.bits.length (shrPos b k)) (14 * m) d (w + 4 * m) := fun b k hb =>
    (within_scope _ (shrPos_within d w b k hb)).mono (by omega) (Nat.le_refl _) (by omega)
  refine within_ite (fun _ => ?_) fun _ => ?_
  · refine (within_bind (t := 14 * m) (one a _ hm) fun x hx => ?_).mono (by omega) (Nat.le_refl _) (Nat.le_refl _)
    rw [scope_res, shrPos_res] at hx
    have := shrPos_length hx
    exact one x _ (by omega)
  · rw [if_pos hs]
    exact (one a _ hm).mono (by omega) (Nat.le_refl _) (Nat.le_refl _)

theorem shr_right_within (a : BigInt) {s : Int} (hs : 0 ≤ s) {m : Nat} (hm : max 1 a.bits.length ≤ m) :
    Within (shr a s) (13 * m) d (w + 3 * m) := by
  unfold shr
  refine within_ite (fun _ => within_pure_any _ _ _ _) fun _ => ?_
  rw [if_neg (by omega), if_neg (by omega)]
  exact shrPos_within d w a _ hm

theorem shr_left_within (a : BigInt) {s : Int} (hs : s < 0) {m : Nat} (hm : max 1 a.bits.length ≤ m) :
    Within (shr a s) (20 * m + 14 * (s.natAbs / 32) + 8) d (w + (4 * m + 4 * (s.natAbs / 32) + 4)) := by
  unfold shr
  rw [if_neg (by omega)]
  refine within_ite (fun h => ?_) fun _ => ?_
  · have e : s.natAbs / 32 = 67108864 := by rw [h]; decide
    rw [e]
    refine (within_bind (t := 10 * (m + 67108864) + 4) ((within_scope _ (shlPos_within d w a 2147483647 hm)).mono
      (s' := 10 * m + 4 * 67108863 + 4) (by omega) (Nat.le_refl _) (by omega)) fun x hx => ?_).mono (by omega) (Nat.le_refl _) (Nat.le_refl _)
    rw [scope_res, shlPos_res] at hx
    have := shlPos_length hx
    exact (within_scope _ (shlPos_within d w x 1 (m := m + 67108864) (by omega))).mono (by omega) (Nat.le_refl _) (by omega)
  · rw [if_pos hs]
    refine (shlPos_within d w a _ hm).mono ?_ (Nat.le_refl _) ?_ <;> omega

theorem compl_within {a : BigInt} {x : Int} (ha : a.Denotes x) (hl : a.bits.length < 2147483646) :
    Within (compl a) (11 * max 1 a.bits.length + 6) 0 (3 * max 1 a.bits.length + 2) := by
  unfold compl
  generalize hm : max 1 a.bits.length = m
  refine (within_scope (s := 10 * m + 6) (w := 2 * m + 2) a.bits.length ?_).mono (by omega) (Nat.le_refl _) (by omega)
  refine (within_bind (t := 2 * (m + 1)) (add_within a oneInt (M := m) (by omega) (Nat.zero_le _)) fun r hr => ?_).mono (by omega) (Nat.le_refl _) (Nat.le_refl _)
  rw [add_res] at hr
  obtain ⟨c, h1, h2⟩ := BigInt.add_spec ha denotes_one (by omega) (by decide)
  rw [hr] at h1
  cases h1
  have h3 := natAbs_lt_words ha
  rw [hm] at h3
  have h4 : (x + 1).natAbs < 𝔹 ^ (m + 1) := by
    rw [pow_succ]
    have : 0 < 𝔹 ^ m := Nat.pow_pos (by decide)
    have : 2 * 𝔹 ^ m ≤ 𝔹 ^ m * 𝔹 := by rw [Nat.mul_comm]; exact Nat.mul_le_mul_left _ (by decide)
    omega
  have := h2.length_le h4
  exact (neg_within 0 0 r).mono (by omega) (Nat.le_refl _) (by omega)

theorem packSign_within (v : List Nat) (p : Int) : ∀ (n : Nat) (c s : Int), Within (packSign v p n c s) n d w
  | 0, _, _ => within_pure _ _ _
  | n + 1, c, s => by
    rw [packSign, Nat.add_comm n 1]
    exact within_tick_bind (within_lift_bind fun _ _ => within_lift_bind fun _ _ => packSign_within v p n _ _)

theorem packWord_within (v : List Nat) (p : Int) : ∀ (n : Nat) (c : Int) (x : Nat), Within (packWord v p n c x) n d w
  | 0, _, _ => within_pure _ _ _
  | n + 1, c, x => by
    rw [packWord, Nat.add_comm n 1]
    exact within_tick_bind (within_lift_bind fun _ _ => packWord_within v p n _ _)

theorem packWords_within (v : List Nat) (p : Int) : ∀ (n : Nat) (c : Int), Within (packWords v p n c) (5 * n) d w
  | 0, _ => within_pure _ _ _
  | n + 1, c => by
    rw [packWords]
    refine (within_tick_bind (t := 4 + 5 * n) ?_).mono (by omega) (Nat.le_refl _) (Nat.le_refl _)
    exact within_bind (packWord_within d w v p 4 c 0) fun _ _ => within_bind_pure (packWords_within v p n _)

theorem packWords_length (v : List Nat) (p : Int) : ∀ (n : Nat) (c : Int) {ws : List Nat}, BigIntegerCpp.packWords v p n c = .ok ws → ws.length = n
  | 0, _, ws, h => by cases h; rfl
  | n + 1, c, ws, h => by
    rw [BigIntegerCpp.packWords] at h
    obtain ⟨_, -, h⟩ := Res.bind_eq_ok h
    obtain ⟨t, h1, h⟩ := Res.bind_eq_ok h
    cases h
    rw [List.length_cons, packWords_length v p n _ h1]

theorem ofBytes_within (v : List Nat) (u b : Bool) : Within (ofBytes v u b) (4 * v.length + 3) d (w + 2 * v.length) := by
  unfold ofBytes
  refine (within_scope (s := 3 * v.length + 3) (w := w + v.length) v.length ?_).mono (by omega) (Nat.le_refl _) (by omega)
  refine within_lift_bind fun n hn => ?_
  have hn : n = v.length := by
    unfold sizeInt at hn
    split_ifs at hn
    cases hn; rfl
  subst hn
  generalize (if b = true then v.headD 0 else v.getLast?.getD 0) = msb
  have h1 : Within (if v.length > 0 ∧ msb = 0 then
      if b = true then do
        let v' := v.dropWhile (· = 0)
        tick (v.length - v'.length)
        scope v'.length (pure (v', v'.length))
      else do
        let n ← trimLen v
        pure (v, n)
    else pure (v, v.length) : Counted (List Nat × Nat)) v.length d (w + v.length) := by
    refine within_ite (fun _ => within_ite (fun _ => ?_) fun _ => ?_) fun _ => within_pure_any _ _ _ _
    · have hl : (v.dropWhile (fun x => decide (x = 0))).length ≤ v.length := (List.dropWhile_suffix _).length_le
      refine (within_tick_bind (t := 0 + (v.dropWhile (fun x => decide (x = 0))).length) ?_).mono (by omega) (Nat.le_refl _) (Nat.le_refl _)
      exact (within_scope (w := w) _ (within_pure _ _ _)).mono (Nat.le_refl _) (Nat.le_refl _) (by omega)
    · exact (within_bind_pure (trimLen_within d _ v)).mono (by omega) (Nat.le_refl _) (Nat.le_refl _)
  refine (within_bind (t := 2 * v.length + 3) h1 fun q hq => ?_).mono (by omega) (Nat.le_refl _) (Nat.le_refl _)
  have hq : q.2 ≤ v.length := by
    rw [ite_res, ite_res] at hq
    by_cases h0 : v.length > 0 ∧ msb = 0
    · rw [if_pos h0] at hq
      cases b
      · cases hq
        exact trimLen_le v
      · cases hq
        exact (List.dropWhile_suffix _).length_le
    · rw [if_neg h0] at hq
      cases hq; exact Nat.le_refl _
  obtain ⟨v', n⟩ := q
  replace hq : n ≤ v.length := hq
  refine within_ite (fun _ => within_lift_any _ _ _ _) fun _ => within_ite (fun h4 => ?_) fun h4 => ?_
  · refine (within_bind (s := n) (t := 1) (within_ite (fun _ => packSign_within d _ _ _ n _ _) fun _ => packSign_within d _ _ _ n _ _) fun _ _ => ?_).mono
      (by omega) (Nat.le_refl _) (Nat.le_refl _)
    exact within_tick_lift _ _ _ _
  · refine (within_scope (s := 5 * (n / 4) + (n % 4 + 2 * ((n + 3) / 4))) (w := w) ((n + 3) / 4) ?_).mono (by omega) (Nat.le_refl _) (by omega)
    refine within_bind (within_ite (fun _ => packWords_within d _ _ _ _ _) fun _ => packWords_within d _ _ _ _ _) fun ws hws => ?_
    have hws : ws.length = n / 4 := by
      rw [ite_res] at hws
      by_cases hb : b = true
      · rw [if_pos hb, packWords_res] at hws
        exact packWords_length _ _ _ _ hws
      · rw [if_neg hb, packWords_res] at hws
        exact packWords_length _ _ _ _ hws
    have htop : Within (if n % 4 ≠ 0 then do
        let w0 := if (decide (v.length > 0) && decide (msb &&& 0x80 ≠ 0) && !u) = true then 4294967295 else 0
        let w ← (if b = true then packWord v' 1 (n % 4) 0 w0
          else packWord v' (-1) (n % 4) ((n : Int) - 1) w0)
        pure [w]
      else pure [] : Counted (List Nat)) (n % 4) d w :=
      within_ite (fun _ => within_bind_pure (within_ite (fun _ => packWord_within d _ _ _ _ _ _) fun _ => packWord_within d _ _ _ _ _ _)) fun _ => within_pure_any _ _ _ _
    refine within_bind htop fun top ht => ?_
    have ht : (ws ++ top).length = (n + 3) / 4 := by
      rw [List.length_append, hws]
      rw [ite_res] at ht
      by_cases hu : n % 4 ≠ 0
      · rw [if_pos hu, bind_res] at ht
        obtain ⟨x, -, ht⟩ := Res.bind_eq_ok ht
        cases ht
        rw [List.length_singleton]; omega
      · rw [if_neg hu] at ht
        cases ht
        rw [List.length_nil]; omega
    refine within_ite (fun _ => ?_) fun _ => ?_
    · refine (within_bind (t := (n + 3) / 4) (twosComplement_within d w (ws ++ top)) fun t h => ?_).mono (by omega) (Nat.le_refl _) (Nat.le_refl _)
      rw [twosComplement_res] at h
      cases h
      have hl := twosComplement_length (ws ++ top)
      have htl := trimLen_le (BigIntegerCpp.twosComplement (ws ++ top))
      refine (within_bind (t := BigIntegerCpp.trimLen (BigIntegerCpp.twosComplement (ws ++ top))) (trimLen_within d w _) fun t h => ?_).mono (by omega) (Nat.le_refl _) (Nat.le_refl _)
      cases h
      refine within_tick_bind (t := 0) ?_
      exact within_ite (fun _ => within_pure _ _ _) fun _ => within_ite (fun _ => within_pure _ _ _) fun _ => within_ite (fun _ => within_lift _ _ _) fun _ =>
        within_ite (fun _ => within_lift _ _ _) fun _ => within_lift _ _ _
    · exact (within_tick_lift _ _ _ _).mono (by omega) (Nat.le_refl _) (Nat.le_refl _)

theorem storeBytes_within (i : Int) : ∀ (bs dst : List Nat) (c : Int), Within (storeBytes i bs dst c) bs.length d w
  | [], _, _ => within_pure _ _ _
  | b :: bs, dst, c => by
    rw [storeBytes, List.length_cons, Nat.add_comm bs.length 1]
    exact within_tick_bind (within_lift_bind fun _ _ => storeBytes_within i bs _ _)

theorem firstNonZero_within : ∀ l : List Nat, Within (firstNonZero l) l.length d w
  | [] => within_lift _ _ _
  | x :: xs => by
    rw [firstNonZero, List.length_cons, Nat.add_comm xs.length 1]
    exact within_ite (fun _ => within_tick_bind (within_bind_pure (firstNonZero_within xs))) fun _ => within_pure_any _ _ _ _

/-- The first part of `to_byte_array`. -/
private theorem high_within (a : BigInt) : Within (
      if a.bits.length = 0 then pure ((if a.sign < 0 then 0xff else 0), u32i a.sign, 0)
      else if a.sign = -1 then do
        lift (cassert (a.bits.getLast?.getD 0 ≠ 0))
        let nz ← firstNonZero a.bits
        let h := u32not (a.bits.getLast?.getD 0)
        if a.bits.length - 1 = nz then do
          lift (cassert (h ≤ 4294967294))
          pure (0xff, u32 (h + 1), nz)
        else pure (0xff, h, nz)
      else do
        lift (cassert (a.sign = 1))
        pure (0, a.bits.getLast?.getD 0, 0) : Counted (Nat × Nat × Nat)) a.bits.length d w := by
  refine within_ite (fun _ => within_pure_any _ _ _ _) fun _ => within_ite (fun _ => ?_) fun _ => within_lift_bind fun _ _ => within_pure_any _ _ _ _
  refine within_lift_bind fun _ _ => ?_
  refine (within_bind (t := 0) (firstNonZero_within d w a.bits) fun _ _ => ?_)
  exact within_ite (fun _ => within_lift_bind fun _ _ => within_pure _ _ _) fun _ => within_pure _ _ _

theorem toBytesMode_within (a : BigInt) (u b p : Bool) : Within (toBytesMode a .allocateArray u b p) (11 * a.bits.length + 10) d (w + a.bits.length) := by
  unfold toBytesMode
  refine within_ite (fun _ => (within_tick_lift _ _ _ _).mono (by omega) (Nat.le_refl _) (Nat.le_refl _)) fun _ => within_ite (fun _ => within_lift_any _ _ _ _) fun _ => ?_
  refine (within_scope (s := a.bits.length + (9 * a.bits.length + 10)) (w := w) _ ?_).mono (by omega) (Nat.le_refl _) (Nat.le_refl _)
  refine within_bind (high_within d w a) fun q _ => ?_
  obtain ⟨hb, hd, nz⟩ := q
  have hmi : (if byteOf hd 3 ≠ hb then 3 else if byteOf hd 2 ≠ hb then 2 else if byteOf hd 1 ≠ hb then 1 else 0) ≤ 3 := by split_ifs <;> omega
  simp only []
  generalize (if byteOf hd 3 ≠ hb then 3 else if byteOf hd 2 ≠ hb then 2 else if byteOf hd 1 ≠ hb then 1 else 0) = mi at hmi ⊢
  generalize (decide (byteOf hd mi &&& 0x80 ≠ hb &&& 0x80) && !u) = need
  refine within_lift_bind fun len hlen => ?_
  have hneed : (if need = true then 1 else 0) ≤ 1 := by split_ifs <;> omega
  have hlen : len ≤ 4 * (a.bits.length - 1) + 5 := by
    by_cases h0 : a.bits.length ≠ 0
    · rw [if_pos h0] at hlen
      unfold sizeInt at hlen
      split_ifs at hlen <;> cases hlen <;> omega
    · rw [if_neg h0] at hlen
      cases hlen
      omega
  rw [if_neg (by decide)]
  refine (within_tick_bind (t := 5 * (a.bits.length - 1) + 5) ?_).mono (by omega) (Nat.le_refl _) (Nat.le_refl _)
  refine (within_tick_bind (t := 4 * (a.bits.length - 1) + 5) ?_).mono (by omega) (Nat.le_refl _) (Nat.le_refl _)
  have hlow : ((BigInt.lowDwords (decide (a.bits.length ≠ 0 ∧ a.sign = -1)) nz 0 a.bits.dropLast).flatMap
      fun w => [byteOf w 0, byteOf w 1, byteOf w 2, byteOf w 3]).length = 4 * (a.bits.length - 1) := by
    have four : ∀ l : List Nat, (l.flatMap fun w => [byteOf w 0, byteOf w 1, byteOf w 2, byteOf w 3]).length = 4 * l.length := by
      intro l
      induction l with
      | nil => rfl
      | cons x xs ih => rw [List.flatMap_cons, List.length_append, ih, List.length_cons, List.length_cons, List.length_cons, List.length_cons, List.length_nil, List.length_cons]; omega
    rw [four, BigInt.lowDwords_length, List.length_dropLast]
  refine (within_bind (t := 5) ((storeBytes_within d w _ _ _ _).mono (Nat.le_of_eq hlow) (Nat.le_refl _) (Nat.le_refl _)) fun q _ => ?_)
  obtain ⟨dst, cur⟩ := q
  refine (within_bind (s := 4) (t := 1) ((storeBytes_within d w _ _ _ _).mono ?_ (Nat.le_refl _) (Nat.le_refl _)) fun q _ => ?_)
  · rw [List.length_map, List.length_range]; omega
  obtain ⟨dst, cur⟩ := q
  refine within_lift_bind fun _ _ => within_lift_bind fun _ _ => ?_
  refine within_bind_pure ((storeBytes_within d w _ _ _ _).mono ?_ (Nat.le_refl _) (Nat.le_refl _))
  split_ifs <;> simp

theorem toBytes_within (a : BigInt) (u b : Bool) : Within (toBytes a u b) (11 * a.bits.length + 10) d (w + a.bits.length) :=
  within_bind_pure (toBytesMode_within d w a u b true)

theorem byteCount_within (a : BigInt) (u : Bool) : Within (byteCount a u) (2 * a.bits.length + 1) d (w + a.bits.length) := by
  refine within_bind_pure ?_
  unfold toBytesMode
  refine within_ite (fun _ => (within_tick_lift _ _ _ _).mono (by omega) (Nat.le_refl _) (Nat.le_refl _)) fun _ => within_ite (fun _ => within_lift_any _ _ _ _) fun _ => ?_
  refine (within_scope (s := a.bits.length + 0) (w := w) _ ?_).mono (by omega) (Nat.le_refl _) (Nat.le_refl _)
  refine within_bind (high_within d w a) fun q _ => within_lift_bind fun _ _ => ?_
  rw [if_pos rfl]
  exact within_lift _ _ _

end Cost
end BigIntegerCpp
