import Verif.Model.Loops
import Verif.Lemmas.Memory
import Verif.Lemmas.Bytes
import Verif.Lemmas.Bits
import Mathlib.Data.List.Basic
import Mathlib.Data.List.Induction
/-
The loops over indices compute what the recursions over lists compute: constructors, comparison,
hashing, shifts, bitwise operators.
-/
set_option linter.unusedSectionVars false
namespace BigIntegerCpp
namespace Loop
variable [Cfg]

/-! ### elements in the middle of an array -/

omit [Cfg] in
theorem idx_mid {α : Type} (pre : List α) (x : α) (xs : List α) {i : Nat} (h : i = pre.length) :
    idx (pre ++ x :: xs) i = .ok x := by
  subst h; unfold idx; simp

omit [Cfg] in
theorem put_mid {α : Type} (pre : List α) (x v : α) (xs : List α) {i : Nat} (h : i = pre.length) :
    put (pre ++ x :: xs) i v = .ok (pre ++ v :: xs) := by
  subst h; unfold put; simp

omit [Cfg] in
theorem idx_out {α : Type} {a : List α} {i : Nat} (h : a.length ≤ i) : idx a i = .ub .outOfBounds := by
  unfold idx; simp [h]

omit [Cfg] in
theorem idx_take {α : Type} {a : List α} {i n : Nat} (h : i < n) : idx (a.take n) i = idx a i := by
  unfold idx; rw [List.getElem?_take_of_lt h]

omit [Cfg] in
theorem idx_append_left {α : Type} {a b : List α} {i : Nat} (h : i < a.length) : idx (a ++ b) i = idx a i := by
  unfold idx; rw [List.getElem?_append_left h]

omit [Cfg] in
theorem take_succ_idx {α : Type} {a : List α} {i : Nat} {x : α} (h : idx a i = .ok x) : a.take (i + 1) = a.take i ++ [x] := by
  unfold idx at h
  cases h1 : a[i]? with
  | none => rw [h1] at h; cases h
  | some y =>
    rw [h1] at h; injection h with h; subst h
    rw [List.take_add_one, h1]; rfl

omit [Cfg] in
theorem idx_zero {a : List Nat} (h : a ≠ []) : idx a 0 = .ok (a.headD 0) := by
  cases a with
  | nil => exact absurd rfl h
  | cons x xs => rfl

omit [Cfg] in
theorem idx_last {a : List Nat} (h : a ≠ []) : idx a (a.length - 1) = .ok (a.getLast?.getD 0) := by
  obtain ⟨pre, x, rfl⟩ : ∃ pre x, a = pre ++ [x] := ⟨a.dropLast, a.getLast h, (List.dropLast_concat_getLast h).symm⟩
  rw [idx_mid pre x [] (by simp)]; simp

/-! ### trimming -/

theorem trim_eq (value : List Nat) {n : Nat} (h : n ≤ value.length) : trim value n = .ok (trimLen (value.take n)) := by
  induction n with
  | zero => simp [trim, trimLen]
  | succ n ih =>
    rw [trim, idx_eq (by omega), Res.ok_bind]
    have hs := take_succ_idx (idx_eq (show n < value.length by omega))
    by_cases hx : value[n] = 0
    · rw [if_pos hx, ih (by omega), hs, hx, trimLen_concat_zero]
    · rw [if_neg hx, hs, trimLen_concat _ hx, List.length_take, Nat.min_eq_left (by omega)]

theorem trim_all (value : List Nat) : trim value value.length = .ok (trimLen value) := by
  rw [trim_eq value (le_refl _), List.take_length]

theorem trim_out (value : List Nat) {n : Nat} (h : value.length < n) : trim value n = .ub .outOfBounds := by
  obtain ⟨k, rfl⟩ : ∃ k, n = k + 1 := ⟨n - 1, by omega⟩
  rw [trim, idx_out (by omega)]; rfl

theorem actualLength_eq (value : List Nat) (n : Nat) : actualLength value n = BigIntegerCpp.actualLength value n := by
  unfold actualLength BigIntegerCpp.actualLength
  by_cases h : n ≤ value.length
  · rw [trim_eq value h, slice_prefix h]; rfl
  · rw [trim_out value (by omega)]
    unfold slice; rw [if_neg (by omega)]; rfl

/-! ### two's complement -/

omit [Cfg] in
theorem twosRest (pre xs : List Nat) :
    forLoop (pre ++ xs).length (fun i d => do let x ← idx d i; put d i (u32not x)) pre.length (pre ++ xs) =
      .ok ((pre ++ xs).length, pre ++ xs.map u32not) := by
  induction xs generalizing pre with
  | nil => rw [forLoop_ge _ _ (by simp)]; simp
  | cons x xs ih =>
    rw [forLoop_lt _ _ (by simp), idx_mid _ _ _ rfl, Res.ok_bind, put_mid _ _ _ _ rfl, Res.ok_bind]
    have := ih (pre ++ [u32not x])
    simp only [List.append_assoc, List.singleton_append, List.length_append, List.length_cons, List.length_nil,
      List.map_cons, Nat.zero_add] at this ⊢
    exact this

omit [Cfg] in
theorem twosCarry_eq (pre : List Nat) (p : Nat) (xs : List Nat) (n : Nat) (hn : n = pre.length + 1 + xs.length) :
    (do
      let (i, d) ← twosCarry n (pre ++ p :: xs) (pre.length + 1)
      let (_, d) ← forLoop d.length (fun i d => do let x ← idx d i; put d i (u32not x)) i d
      .ok d) = .ok (pre ++ p :: (if p = 0 then twosComplement xs else xs.map u32not)) := by
  induction xs generalizing pre p with
  | nil =>
    rw [twosCarry, Nat.add_sub_cancel, idx_mid _ _ _ rfl, Res.ok_bind]
    have hr := twosRest (pre ++ [p]) []
    simp only [List.append_nil, List.length_append, List.length_cons, List.length_nil, Nat.zero_add] at hr
    by_cases hp : p = 0
    · rw [if_neg (by simpa using hp), dif_neg (by simp at hn; omega)]
      simp only [Res.ok_bind, List.length_append, List.length_cons, List.length_nil, Nat.zero_add, hr, if_pos hp, twosComplement, List.map_nil, List.append_nil]
    · rw [if_pos hp]
      simp only [Res.ok_bind, List.length_append, List.length_cons, List.length_nil, Nat.zero_add, hr, if_neg hp, List.map_nil]
      simp
  | cons x xs ih =>
    rw [twosCarry, Nat.add_sub_cancel, idx_mid _ _ _ rfl, Res.ok_bind]
    have e : pre ++ p :: x :: xs = (pre ++ [p]) ++ x :: xs := by simp
    by_cases hp : p = 0
    · rw [if_neg (by simpa using hp), dif_pos (by simp at hn; omega), e, idx_mid _ _ _ (by simp), Res.ok_bind,
        put_mid _ _ _ _ (by simp), Res.ok_bind]
      have := ih (pre ++ [p]) (u32 (u32not x + 1)) (by simp at hn ⊢; omega)
      rw [show (pre ++ [p]).length + 1 = pre.length + 1 + 1 by simp] at this
      rw [this, if_pos hp, twosComplement]
      simp
    · rw [if_pos hp]
      have hr := twosRest (pre ++ [p]) (x :: xs)
      rw [show (pre ++ [p]).length = pre.length + 1 by simp] at hr
      rw [e]
      simp only [Res.ok_bind, hr, if_neg hp]
      simp

omit [Cfg] in
theorem twos_eq (d : List Nat) : twos d = .ok (twosComplement d) := by
  cases d with
  | nil => rfl
  | cons x xs =>
    unfold twos
    rw [if_pos (by simp), idx_zero (by simp), Res.ok_bind]
    have := twosCarry_eq [] (u32 (u32not x + 1)) xs (xs.length + 1) (by simp; omega)
    simp only [List.nil_append, List.length_nil, Nat.zero_add] at this
    simp only [List.headD_cons]
    rw [put_ok _ (by simp), Res.ok_bind]
    simp only [List.set_cons_zero, List.length_cons]
    rw [this, twosComplement]

/-! ### constructors from words -/

theorem ofMagnitude_eq (value : List Nat) (negative : Bool) :
    ofMagnitude value negative = BigIntegerCpp.ofMagnitude value negative := by
  unfold ofMagnitude BigIntegerCpp.ofMagnitude
  unfold sizeInt
  by_cases hs : value.length < 2147483648
  swap
  · rw [if_neg hs]; rfl
  rw [if_pos hs]
  simp only [Res.ok_bind, trim_all]
  by_cases h0 : trimLen value = 0
  · simp only [if_pos h0, Res.ok_bind]
  · simp only [if_neg h0]
    have hne : value ≠ [] := by rintro rfl; exact h0 rfl
    by_cases h1 : trimLen value = 1
    · have e : (if trimLen value = 1 then idx value 0 else .ok 4294967295) = .ok (value.headD 0) := by
        rw [if_pos h1, idx_zero hne]
      rw [e, Res.ok_bind]
      by_cases h2 : value.headD 0 < 2147483648
      · simp only [h1, h2, and_self, if_true, Res.ok_bind]
      · simp only [h1, h2, and_false, if_false, Res.ok_bind]
    · simp only [h1, false_and, if_false, Res.ok_bind]

theorem ofTwos_eq (value : List Nat) : ofTwos value = BigIntegerCpp.ofTwos value := by
  unfold ofTwos BigIntegerCpp.ofTwos
  unfold sizeInt
  by_cases hs : value.length < 2147483648
  swap
  · rw [if_neg hs]; rfl
  rw [if_pos hs]
  simp only [Res.ok_bind, trim_all]
  by_cases hne : value = []
  · subst hne; rfl
  rw [if_pos (List.length_pos_iff.2 hne), idx_last hne]
  simp only [Res.ok_bind, twos_eq, trim_all, idx_zero hne]
  have hd : decide (value.getLast?.getD 0 &&& 0x80000000 = 0x80000000) =
      decide (value ≠ [] ∧ value.getLast?.getD 0 &&& 0x80000000 = 0x80000000) := by simp [hne]
  by_cases h0 : trimLen value = 0
  · simp only [if_pos h0]
  simp only [if_neg h0]
  by_cases h1 : trimLen value = 1
  · simp only [if_pos h1]
    by_cases hg : value.getLast?.getD 0 &&& 0x80000000 = 0x80000000 <;> simp [hne, hg]
  simp only [if_neg h1]
  by_cases hg : value.getLast?.getD 0 &&& 0x80000000 = 0x80000000
  · simp only [hne, hg, decide_true, Bool.not_true, ne_eq, not_false_eq_true, true_and, not_true_eq_false, if_false,
      Bool.false_eq_true]
    have hne' : twosComplement value ≠ [] := by
      intro h; apply hne; rw [← List.length_eq_zero_iff, ← twosComplement_length, h]; rfl
    by_cases h2 : trimLen (twosComplement value) = 1
    · simp only [idx_zero hne', Res.ok_bind, h2, true_and, if_true]
      by_cases h3 : i32 ((twosComplement value).headD 0) > 0
      · rw [if_pos h3, if_pos h3]
      · rw [if_neg h3, if_neg h3]
        by_cases h4 : 1 = (twosComplement value).length
        · simp only [← h4, not_true_eq_false, if_false]
        · simp only [h4, not_false_eq_true, if_true]
          rw [slice_prefix (by rw [← h2]; exact trimLen_le _), Res.ok_bind]
    · simp only [if_neg h2, Res.ok_bind, h2, false_and, if_false]
      by_cases h4 : trimLen (twosComplement value) = (twosComplement value).length
      · simp only [h4, not_true_eq_false, if_false]
      · simp only [h4, not_false_eq_true, if_true]
        rw [slice_prefix (trimLen_le _), Res.ok_bind]
  · simp only [hne, hg, decide_false, Bool.not_false, ne_eq, not_false_eq_true, true_and, if_true, and_false]
    by_cases h4 : trimLen value = value.length
    · simp only [h4, not_true_eq_false, if_false]
    · simp only [h4, not_false_eq_true, if_true]
      rw [slice_prefix (trimLen_le _), Res.ok_bind]

/-! ### comparison -/

omit [Cfg] in
theorem diffLength_snoc {xs ys : List Nat} (h : xs.length = ys.length) (x y : Nat) :
    BigInt.diffLength (xs ++ [x]) (ys ++ [y]) = if x ≠ y then xs.length + 1 else BigInt.diffLength xs ys := by
  induction xs generalizing ys with
  | nil =>
    cases ys with
    | nil => simp [BigInt.diffLength]
    | cons => simp at h
  | cons a xs ih =>
    cases ys with
    | nil => simp at h
    | cons b ys =>
      simp only [List.cons_append, BigInt.diffLength, ih (by simpa using h)]
      by_cases hxy : x = y
      · simp [hxy]
      · simp [hxy]

omit [Cfg] in
theorem diffLength_eq {a b : List Nat} {n : Nat} (ha : n ≤ a.length) (hb : n ≤ b.length) :
    diffLength a b n = .ok (BigInt.diffLength (a.take n) (b.take n)) := by
  induction n with
  | zero => simp [diffLength, BigInt.diffLength]
  | succ n ih =>
    rw [diffLength, idx_eq (by omega), Res.ok_bind, idx_eq (by omega), Res.ok_bind,
      take_succ_idx (idx_eq (show n < a.length by omega)), take_succ_idx (idx_eq (show n < b.length by omega)),
      diffLength_snoc (by simp; omega)]
    by_cases h : a[n] ≠ b[n]
    · rw [if_pos h, if_pos h]; simp; omega
    · rw [if_neg h, if_neg h, ih (by omega) (by omega)]

theorem compareTo_eq (a b : BigInt) : compareTo a b = a.compareTo b := by
  unfold compareTo BigInt.compareTo
  refine bind_congr_of_ok fun _ _ => bind_congr_of_ok fun _ _ => ?_
  by_cases h1 : i32 (u32i a.sign ^^^ u32i b.sign) < 0
  · rw [if_pos h1, if_pos h1]
  rw [if_neg h1, if_neg h1]
  by_cases h2 : a.bits = []
  · rw [if_pos h2, if_pos h2]
  rw [if_neg h2, if_neg h2]
  refine bind_congr_of_ok fun x hx => bind_congr_of_ok fun y hy => ?_
  have ex : x = a.bits.length := by unfold sizeInt at hx; split at hx <;> cases hx; rfl
  have ey : y = b.bits.length := by unfold sizeInt at hy; split at hy <;> cases hy; rfl
  by_cases h3 : b.bits = [] ∨ x > y
  · rw [if_pos h3, if_pos h3]
  rw [if_neg h3, if_neg h3]
  by_cases h4 : x < y
  · rw [if_pos h4, if_pos h4]
  rw [if_neg h4, if_neg h4]
  have hl : x = y := by simp only [not_or] at h3; omega
  subst ex
  rw [diffLength_eq (le_refl _) (by omega), List.take_length, List.take_of_length_le (by omega), Res.ok_bind]

theorem equals_eq (a b : BigInt) : equals a b = a.equals b := by
  unfold equals BigInt.equals
  refine bind_congr_of_ok fun _ _ => bind_congr_of_ok fun _ _ => ?_
  by_cases h : a.bits.length ≠ b.bits.length
  · simp only [if_pos h]
  · simp only [if_neg h]
    rw [diffLength_eq (le_refl _) (by omega), List.take_length, List.take_of_length_le (by omega), Res.ok_bind]

omit [Cfg] in
theorem zeroBelow_eq {a : List Nat} {n : Nat} (h : n ≤ a.length) : zeroBelow a n = .ok ((a.take n).all (· = 0)) := by
  induction n with
  | zero => simp [zeroBelow]
  | succ n ih =>
    rw [zeroBelow, idx_eq (by omega), Res.ok_bind, take_succ_idx (idx_eq (show n < a.length by omega)), ih (by omega)]
    generalize a[n] = v
    by_cases hx : v = 0
    · simp [hx]
    · simp [hx]

theorem isPowerOfTwo_eq (a : BigInt) : isPowerOfTwo a = a.isPowerOfTwo := by
  unfold isPowerOfTwo BigInt.isPowerOfTwo
  refine bind_congr_of_ok fun _ _ => ?_
  by_cases h : a.bits.length = 0
  · rw [if_pos h, if_pos h]
  rw [if_neg h, if_neg h]
  have hne : a.bits ≠ [] := fun e => h (by simp [e])
  simp only [idx_last hne, Res.ok_bind, zeroBelow_eq (Nat.sub_le _ _), ← List.dropLast_eq_take]

omit [Cfg] in
theorem hash_loop (bits : List Nat) {n : Nat} (h : n ≤ bits.length) (s : Int) :
    forDown (fun iv hash => do
      let w ← idx bits iv
      .ok (BigInt.combineHash hash (i32 w))) n s =
      .ok ((bits.take n).foldr (fun w h => BigInt.combineHash h (i32 w)) s) := by
  induction n generalizing s with
  | zero => simp [forDown]
  | succ n ih =>
    rw [forDown, idx_eq (by omega), Res.ok_bind, Res.ok_bind, ih (by omega),
      take_succ_idx (idx_eq (show n < bits.length by omega)), List.foldr_append]
    rfl

omit [Cfg] in
theorem hashCode_eq (a : BigInt) : hashCode a = .ok a.hashCode := by
  unfold hashCode BigInt.hashCode
  by_cases h : a.bits = []
  · rw [if_pos h, if_pos h]
  · rw [if_neg h, if_neg h, hash_loop _ (le_refl _), List.take_length]

theorem bitLength_eq (a : BigInt) : bitLength a = a.bitLength := by
  unfold bitLength BigInt.bitLength
  refine bind_congr_of_ok fun _ _ => bind_congr_of_ok fun ⟨len, high⟩ h => bind_congr_of_ok fun lz _ =>
    bind_congr_of_ok fun bl _ => ?_
  have hlen : len - 1 ≤ a.bits.length ∧ a.bits.take (len - 1) = a.bits.dropLast := by
    by_cases hb : a.bits = []
    · rw [if_pos hb] at h
      have : len = 1 := by
        by_cases hs : a.sign < 0
        · rw [if_pos hs] at h
          obtain ⟨m, _, h2⟩ := Res.bind_eq_ok h
          cases h2; rfl
        · rw [if_neg hs] at h; cases h; rfl
      subst this; simp [hb]
    · rw [if_neg hb] at h
      obtain ⟨n, h1, h2⟩ := Res.bind_eq_ok h
      obtain ⟨w, _, h3⟩ := Res.bind_eq_ok h2
      have en : n = a.bits.length := by unfold sizeInt at h1; split at h1 <;> cases h1; rfl
      cases h3
      subst en
      exact ⟨Nat.sub_le _ _, (List.dropLast_eq_take).symm⟩
  rw [zeroBelow_eq hlen.1, hlen.2, Res.ok_bind]

/-! ### left shift -/

omit [Cfg] in
theorem shl_words (d : Nat) (top : List Nat) (xd pre out : List Nat) (ho : out.length = pre.length) :
    forLoop (pre ++ xd).length (fun i zd => do
      let x ← idx (pre ++ xd) i
      put zd (i + d) x) pre.length (List.replicate d 0 ++ out ++ (List.replicate xd.length 0 ++ top)) =
      .ok ((pre ++ xd).length, List.replicate d 0 ++ out ++ (xd ++ top)) := by
  induction xd generalizing pre out with
  | nil => rw [forLoop_ge _ _ (by simp)]; simp
  | cons x xd ih =>
    rw [forLoop_lt _ _ (by simp), idx_mid _ _ _ rfl, Res.ok_bind, List.length_cons, List.replicate_succ, List.cons_append,
      put_mid _ _ _ _ (by simp [ho]; omega), Res.ok_bind]
    have := ih (pre ++ [x]) (out ++ [x]) (by simp [ho])
    simp only [List.append_assoc, List.singleton_append, List.length_append, List.length_cons, List.length_nil,
      Nat.zero_add, List.cons_append] at this ⊢
    exact this

omit [Cfg] in
theorem shl_carry (d s : Nat) (xd pre out : List Nat) (c : Nat) (ho : out.length = pre.length) :
    (do
      let (i, carry, zd) ← forLoop (pre ++ xd).length (fun i (carry, zd) => do
        let rot ← idx (pre ++ xd) i
        let zd ← put zd (i + d) (u32 (rot <<< s) ||| carry)
        .ok (rot >>> (32 - s), zd)) pre.length (c, List.replicate d 0 ++ out ++ List.replicate (xd.length + 1) 0)
      put zd (i + d) carry) =
      .ok (List.replicate d 0 ++ out ++ BigInt.shlLoop s xd c) := by
  induction xd generalizing pre out c with
  | nil =>
    rw [forLoop_ge _ _ (by simp)]
    simp only [Res.ok_bind, List.length_nil, List.replicate_succ, List.replicate_zero, BigInt.shlLoop]
    rw [put_mid _ _ _ _ (by simp [ho]; omega)]
  | cons x xd ih =>
    rw [forLoop_lt _ _ (by simp)]
    simp only [idx_mid pre x xd rfl, Res.ok_bind, List.length_cons]
    rw [List.replicate_succ, put_mid _ _ _ _ (by simp [ho]; omega)]
    simp only [Res.ok_bind]
    have := ih (pre ++ [x]) (out ++ [u32 (x <<< s) ||| c]) (x >>> (32 - s)) (by simp [ho])
    simp only [List.append_assoc, List.singleton_append, List.length_append, List.length_cons, List.length_nil,
      Nat.zero_add, BigInt.shlLoop] at this ⊢
    exact this

theorem shlPos_eq (a : BigInt) (shift : Nat) : shlPos a shift = a.shlPos shift := by
  unfold shlPos BigInt.shlPos
  refine bind_congr_of_ok fun xd _ => bind_congr_of_ok fun xl hxl => ?_
  have exl : xl = xd.length := by unfold sizeInt at hxl; split at hxl <;> cases hxl; rfl
  subst exl
  refine bind_congr_of_ok fun zl hzl => ?_
  have ezl : zl.toNat = shift / 32 + (xd.length + 1) := by
    unfold int at hzl; split at hzl <;> cases hzl; omega
  dsimp only
  rw [ezl, List.replicate_add]
  by_cases hs : shift - shift / 32 * 32 = 0
  · rw [if_pos hs, if_pos hs]
    have := shl_words (shift / 32) [0] xd [] [] rfl
    simp only [List.nil_append, List.length_nil, List.append_nil] at this
    rw [List.replicate_add, List.replicate_one, this]
    simp only [Res.ok_bind, ofMagnitude_eq]
  · rw [if_neg hs, if_neg hs]
    have := shl_carry (shift / 32) (shift - shift / 32 * 32) xd [] [] 0 rfl
    simp only [List.nil_append, List.length_nil, List.append_nil] at this
    rw [this]
    simp only [Res.ok_bind, ofMagnitude_eq]

/-! ### right shift -/

omit [Cfg] in
theorem forDownTo_end {σ : Type} (lo : Nat) (body : Nat → σ → Res σ) {n : Nat} (s : σ) (h : n ≤ lo) :
    forDownTo lo body n s = .ok s := by
  cases n with
  | zero => rfl
  | succ n => rw [forDownTo, if_neg (by omega)]

omit [Cfg] in
theorem forDownTo_step {σ : Type} (lo : Nat) (body : Nat → σ → Res σ) {n : Nat} (s : σ) (h : lo ≤ n) :
    forDownTo lo body (n + 1) s = body n s >>= fun s => forDownTo lo body n s := by
  rw [forDownTo, if_pos h]

omit [Cfg] in
theorem shr_words (low : List Nat) (xs done : List Nat) :
    forDownTo low.length (fun i zd => do
      let x ← idx (low ++ (xs ++ done)) i
      put zd (i - low.length) x) (low.length + xs.length) (List.replicate xs.length 0 ++ done) = .ok (xs ++ done) := by
  induction xs using List.reverseRecOn generalizing done with
  | nil => rw [forDownTo_end _ _ _ (by simp)]; simp
  | append_singleton xs x ih =>
    rw [show low.length + (xs ++ [x]).length = (low.length + xs.length) + 1 by simp; omega, forDownTo_step _ _ _ (by omega)]
    have e : low ++ (xs ++ [x] ++ done) = (low ++ xs) ++ x :: done := by simp
    rw [e, idx_mid _ _ _ (by simp), Res.ok_bind, List.length_append, List.length_singleton, List.replicate_add,
      List.replicate_one, List.append_assoc, List.singleton_append, put_mid _ _ _ _ (by simp), Res.ok_bind]
    have := ih (x :: done)
    simp only [List.append_assoc, List.singleton_append] at this ⊢
    exact this

omit [Cfg] in
/-- Carry with which a word is shifted, given the higher words. -/
theorem shr_carry (neg : Bool) (s : Nat) (low : List Nat) (xs done zs : List Nat) (hz : zs.length = done.length)
    (n : Nat) (hn : n = low.length + xs.length + done.length)
    (hd : (BigInt.shrLoop neg s done).1 = zs) :
    (do
      let (_, zd) ← forDownTo low.length (fun i (carry, zd) => do
        let rot ← idx (low ++ (xs ++ done)) i
        let zd ← (if neg ∧ i = n - 1 then
            put zd (i - low.length) ((rot >>> s) ||| u32 (0xFFFFFFFF <<< (32 - s)))
          else put zd (i - low.length) ((rot >>> s) ||| carry))
        .ok (u32 (rot <<< (32 - s)), zd)) (low.length + xs.length)
          ((BigInt.shrLoop neg s done).2, List.replicate xs.length 0 ++ zs)
      .ok zd) = .ok (BigInt.shrLoop neg s (xs ++ done)).1 := by
  induction xs using List.reverseRecOn generalizing done zs with
  | nil => rw [forDownTo_end _ _ _ (by simp)]; simp [hd]
  | append_singleton xs x ih =>
    rw [show low.length + (xs ++ [x]).length = (low.length + xs.length) + 1 by simp; omega, forDownTo_step _ _ _ (by omega)]
    have hi : (low.length + xs.length = n - 1) ↔ done = [] := by
      rw [← List.length_eq_zero_iff]; simp at hn; omega
    have hidx : idx (low ++ (xs ++ x :: done)) (low.length + xs.length) = .ok x := by
      rw [← List.append_assoc]; exact idx_mid _ _ _ (by simp)
    simp only [
      List.length_append, List.length_singleton, List.replicate_add, List.replicate_one, List.append_assoc, List.singleton_append]
    simp only [hidx, Res.ok_bind]
    have hput : ∀ v, put (List.replicate xs.length 0 ++ 0 :: zs) (low.length + xs.length - low.length) v =
        .ok (List.replicate xs.length 0 ++ v :: zs) := fun v => put_mid _ _ _ _ (by simp)
    have hstep : BigInt.shrLoop neg s (x :: done) =
        ((if neg ∧ done = [] then (x >>> s) ||| u32 (0xFFFFFFFF <<< (32 - s))
          else (x >>> s) ||| (BigInt.shrLoop neg s done).2) :: zs, u32 (x <<< (32 - s))) := by
      rw [BigInt.shrLoop, ← hd]
    have hif : (if neg = true ∧ low.length + xs.length = n - 1 then
          put (List.replicate xs.length 0 ++ 0 :: zs) (low.length + xs.length - low.length) ((x >>> s) ||| u32 (0xFFFFFFFF <<< (32 - s)))
        else put (List.replicate xs.length 0 ++ 0 :: zs) (low.length + xs.length - low.length)
          ((x >>> s) ||| (BigInt.shrLoop neg s done).2)) =
        .ok (List.replicate xs.length 0 ++ (if neg ∧ done = [] then (x >>> s) ||| u32 (0xFFFFFFFF <<< (32 - s))
          else (x >>> s) ||| (BigInt.shrLoop neg s done).2) :: zs) := by
      simp only [hi, hput]
      by_cases h : neg = true ∧ done = []
      · rw [if_pos h, if_pos h]
      · rw [if_neg h, if_neg h]
    rw [hif]
    simp only [Res.ok_bind]
    have := ih (x :: done) _ (by simp [hz]) (by simp at hn ⊢; omega) (congrArg Prod.fst hstep)
    rw [show (BigInt.shrLoop neg s (x :: done)).2 = u32 (x <<< (32 - s)) from congrArg Prod.snd hstep] at this
    simp only [List.append_assoc] at this
    exact this

theorem shrPos_eq (a : BigInt) (shift : Nat) : shrPos a shift = a.shrPos shift := by
  unfold shrPos BigInt.shrPos
  refine bind_congr_of_ok fun xd _ => bind_congr_of_ok fun xl hxl => ?_
  have exl : xl = xd.length := by unfold sizeInt at hxl; split at hxl <;> cases hxl; rfl
  subst exl
  dsimp only
  refine bind_congr_of_ok fun total _ => ?_
  by_cases h1 : decide (a.sign < 0) = true ∧ (shift : Int) ≥ total
  · rw [if_pos h1, if_pos h1]
  rw [if_neg h1, if_neg h1]
  have key : ∀ ys : List Nat, ys.length = xd.length →
      (do
        let zd ← (if shift - shift / 32 * 32 = 0 then
            forDownTo (shift / 32) (fun i zd => do
              let x ← idx ys i
              put zd (i - shift / 32) x) xd.length (List.replicate (xd.length - shift / 32) 0)
          else do
            let (_, zd) ← forDownTo (shift / 32) (fun i (carry, zd) => do
              let rot ← idx ys i
              let zd ← (if decide (a.sign < 0) = true ∧ i = xd.length - 1 then
                  put zd (i - shift / 32) ((rot >>> (shift - shift / 32 * 32)) ||| u32 (0xFFFFFFFF <<< (32 - (shift - shift / 32 * 32))))
                else put zd (i - shift / 32) ((rot >>> (shift - shift / 32 * 32)) ||| carry))
              .ok (u32 (rot <<< (32 - (shift - shift / 32 * 32))), zd)) xd.length (0, List.replicate (xd.length - shift / 32) 0)
            .ok zd)
        let zd ← (if decide (a.sign < 0) = true then twos zd else .ok zd)
        ofMagnitude zd (decide (a.sign < 0))) =
      BigIntegerCpp.ofMagnitude (if decide (a.sign < 0) = true then
          twosComplement (if shift - shift / 32 * 32 = 0 then ys.drop (shift / 32)
            else (BigInt.shrLoop (decide (a.sign < 0)) (shift - shift / 32 * 32) (ys.drop (shift / 32))).1)
        else (if shift - shift / 32 * 32 = 0 then ys.drop (shift / 32)
            else (BigInt.shrLoop (decide (a.sign < 0)) (shift - shift / 32 * 32) (ys.drop (shift / 32))).1)) (decide (a.sign < 0)) := by
    intro ys hys
    generalize hs : shift - shift / 32 * 32 = s
    generalize hd : shift / 32 = d
    have fin : ∀ zd : List Nat, (do
        let zd ← (if decide (a.sign < 0) = true then twos zd else .ok zd)
        ofMagnitude zd (decide (a.sign < 0))) =
        BigIntegerCpp.ofMagnitude (if decide (a.sign < 0) = true then twosComplement zd else zd) (decide (a.sign < 0)) := by
      intro zd
      by_cases hn : decide (a.sign < 0) = true
      · rw [if_pos hn, if_pos hn, twos_eq, Res.ok_bind, ofMagnitude_eq]
      · rw [if_neg hn, if_neg hn, Res.ok_bind, ofMagnitude_eq]
    rw [← fin]
    by_cases hle : xd.length ≤ d
    · have hdr : ys.drop d = [] := List.drop_eq_nil_of_le (by omega)
      rw [forDownTo_end _ _ _ hle, forDownTo_end _ _ _ hle, hdr, Nat.sub_eq_zero_of_le hle]
      by_cases h0 : s = 0
      · rw [if_pos h0, if_pos h0]; rfl
      · rw [if_neg h0, if_neg h0]; rfl
    · have hsplit : ys = ys.take d ++ ys.drop d := (List.take_append_drop d ys).symm
      have hld : (ys.take d).length = d := by rw [List.length_take]; omega
      have hlr : (ys.drop d).length = xd.length - d := by rw [List.length_drop]; omega
      by_cases h0 : s = 0
      · rw [if_pos h0, if_pos h0]
        have := shr_words (ys.take d) (ys.drop d) []
        rw [List.append_nil, List.append_nil, ← hsplit, hld, hlr, show d + (xd.length - d) = xd.length by omega] at this
        rw [this, Res.ok_bind]
      · rw [if_neg h0, if_neg h0]
        have := shr_carry (decide (a.sign < 0)) s (ys.take d) (ys.drop d) [] [] rfl xd.length (by simp [hld, hlr]; omega) rfl
        rw [List.append_nil, List.append_nil, ← hsplit, hld, hlr, show d + (xd.length - d) = xd.length by omega] at this
        have h2 : (BigInt.shrLoop (decide (a.sign < 0)) s []).2 = 0 := rfl
        rw [h2] at this
        rw [this, Res.ok_bind]
  by_cases hn : decide (a.sign < 0) = true
  · have := key (twosComplement xd) (twosComplement_length _)
    rw [if_pos hn, twos_eq, Res.ok_bind, this]
    simp only [if_pos hn]
  · have := key xd rfl
    rw [if_neg hn, Res.ok_bind, this]
    simp only [if_neg hn]

theorem shl_eq (a : BigInt) (shift : Int) : shl a shift = a.shl shift := by
  unfold shl BigInt.shl; simp only [shlPos_eq, shrPos_eq]

theorem shr_eq (a : BigInt) (shift : Int) : shr a shift = a.shr shift := by
  unfold shr BigInt.shr; simp only [shlPos_eq, shrPos_eq]

/-! ### two's-complement words, bitwise operators -/

omit [Cfg] in
theorem msbIndex_snoc (hd : Nat) (xs : List Nat) (x : Nat) :
    BigInt.msbIndex hd (xs ++ [x]) = if xs = [] then 0 else if x ≠ hd then xs.length else BigInt.msbIndex hd xs := by
  induction xs with
  | nil => simp [BigInt.msbIndex]
  | cons y xs ih =>
    simp only [List.cons_append, BigInt.msbIndex, ih, List.all_append]
    by_cases hx : x = hd
    · subst hx
      cases xs with
      | nil => simp [BigInt.msbIndex]
      | cons z zs => simp
    · cases xs with
      | nil => simp [hx]
      | cons z zs => simp [hx]

omit [Cfg] in
theorem msb_eq (hd : Nat) (ws : List Nat) {n : Nat} (h : n + 1 ≤ ws.length) :
    msb hd ws n = .ok (BigInt.msbIndex hd (ws.take (n + 1))) := by
  induction n with
  | zero =>
    cases ws with
    | nil => simp at h
    | cons w ws => simp [msb, BigInt.msbIndex]
  | succ n ih =>
    rw [msb, idx_eq (by omega), Res.ok_bind, take_succ_idx (idx_eq (show n + 1 < ws.length by omega)), msbIndex_snoc,
      if_neg (show ¬ ws.take (n + 1) = [] from
        fun e => by have := congrArg List.length e; rw [List.length_take, List.length_nil] at this; omega)]
    generalize ws[n + 1] = v
    by_cases hx : v ≠ hd
    · rw [if_pos hx, if_pos hx, List.length_take]; congr; omega
    · rw [if_neg hx, if_neg hx, ih (by omega)]

omit [Cfg] in
theorem copy_loop (source : List Nat) (pre xs : List Nat) (rest out tail : List Nat) (hs : source = pre ++ xs ++ rest)
    (ho : out.length = pre.length) :
    forLoop (pre.length + xs.length) (fun i t => do
      let x ← idx source i
      put t i x) pre.length (out ++ (List.replicate xs.length 0 ++ tail)) =
      .ok (pre.length + xs.length, out ++ (xs ++ tail)) := by
  induction xs generalizing pre out with
  | nil => rw [forLoop_ge _ _ (by simp)]; simp
  | cons x xs ih =>
    have hi : idx source pre.length = .ok x := by
      rw [hs, List.append_assoc, List.cons_append, idx_mid _ _ _ rfl]
    rw [forLoop_lt _ _ (by simp), hi, Res.ok_bind, List.length_cons, List.replicate_succ, List.cons_append,
      put_mid _ _ _ _ ho.symm, Res.ok_bind]
    have := ih (pre ++ [x]) (out ++ [x]) (by simp [hs]) (by simp [ho])
    simp only [List.append_assoc, List.singleton_append, List.length_append, List.length_cons, List.length_nil,
      Nat.zero_add, List.cons_append] at this ⊢
    rw [show pre.length + (xs.length + 1) = pre.length + 1 + xs.length by omega]
    exact this

omit [Cfg] in
theorem copy_eq (source : List Nat) {n : Nat} (h : n ≤ source.length) (tail : List Nat) :
    copy source n (List.replicate n 0 ++ tail) = .ok (source.take n ++ tail) := by
  have := copy_loop source [] (source.take n) (source.drop n) [] tail (by simp) rfl
  simp only [List.length_nil, Nat.zero_add, List.nil_append, List.length_take, Nat.min_eq_left h] at this
  unfold copy
  rw [this]; rfl

theorem toUInt32Array_eq (a : BigInt) : toUInt32Array a = a.toUInt32Array := by
  unfold toUInt32Array BigInt.toUInt32Array
  by_cases h : a.bits.length = 0 ∧ a.sign = 0
  · rw [if_pos h, if_pos h]
  rw [if_neg h, if_neg h]
  have key : ∀ (dwords : List Nat) (high : Nat), dwords ≠ [] → (do
      let n ← sizeInt dwords.length
      let msb ← msb high dwords (n - 1)
      let w ← idx dwords msb
      let needExtraByte := decide (w &&& 0x80000000 ≠ high &&& 0x80000000)
      let trimmed := List.replicate (msb + 1 + (if needExtraByte then 1 else 0)) 0
      let trimmed ← copy dwords (msb + 1) trimmed
      if needExtraByte then put trimmed (trimmed.length - 1) high else .ok trimmed) = (do
      let _ ← sizeInt dwords.length
      let msb := BigInt.msbIndex high dwords
      let w ← idx dwords msb
      let needExtraByte := decide (w &&& 0x80000000 ≠ high &&& 0x80000000)
      .ok (dwords.take (msb + 1) ++ (if needExtraByte then [high] else []))) := by
    intro dwords high hne
    have hpos := List.length_pos_iff.2 hne
    refine bind_congr_of_ok fun n hn => ?_
    have en : n = dwords.length := by unfold sizeInt at hn; split at hn <;> cases hn; rfl
    subst en
    rw [msb_eq high dwords (by omega), Res.ok_bind, List.take_of_length_le (by omega)]
    dsimp only
    refine bind_congr_of_ok fun w hw => ?_
    have hm : BigInt.msbIndex high dwords + 1 ≤ dwords.length := by
      by_contra hc
      rw [idx_out (by omega)] at hw; cases hw
    by_cases hx : decide (w &&& 0x80000000 ≠ high &&& 0x80000000) = true
    · simp only [hx, if_true]
      rw [List.replicate_add, copy_eq dwords hm, Res.ok_bind, List.replicate_one,
        put_mid _ _ _ _ (by simp)]
    · rw [Bool.not_eq_true] at hx
      simp only [hx, Bool.false_eq_true, if_false, Nat.add_zero]
      have := copy_eq dwords hm []
      rw [List.append_nil] at this
      rw [this, Res.ok_bind]
  by_cases h0 : a.bits.length = 0
  · simp only [if_pos h0, Res.ok_bind]
    exact key _ _ (by simp)
  simp only [if_neg h0]
  have hne : a.bits ≠ [] := fun e => h0 (by simp [e])
  by_cases h1 : a.sign = -1
  · simp only [if_pos h1, twos_eq, Res.ok_bind]
    refine key _ _ fun e => hne ?_
    rw [← List.length_eq_zero_iff, ← twosComplement_length, e]; rfl
  · simp only [if_neg h1, Res.ok_bind]
    exact key _ _ hne

omit [Cfg] in
theorem zip_loop (f : Nat → Nat → Nat) (xe ye : Nat) (x y xs ys px py out : List Nat) (hx : x = px ++ xs) (hy : y = py ++ ys)
    (hpx : xs ≠ [] → px.length = out.length) (hpx' : px.length ≤ out.length)
    (hpy : ys ≠ [] → py.length = out.length) (hpy' : py.length ≤ out.length) :
    forLoop (out.length + Nat.max xs.length ys.length) (fun i z => do
      let xu ← (if i < x.length then idx x i else .ok xe)
      let yu ← (if i < y.length then idx y i else .ok ye)
      put z i (f xu yu)) out.length (out ++ List.replicate (Nat.max xs.length ys.length) 0) =
      .ok (out.length + Nat.max xs.length ys.length, out ++ BigInt.zipExt f xe ye xs ys) := by
  subst hx hy
  induction xs generalizing ys px py out with
  | nil =>
    induction ys generalizing py out with
    | nil => rw [forLoop_ge _ _ (by simp)]; simp [BigInt.zipExt]
    | cons b ys ih =>
      have e : Nat.max ([] : List Nat).length (b :: ys).length = Nat.max ([] : List Nat).length ys.length + 1 := by
        simp [Nat.max_def]
      have hp := hpy (by simp)
      rw [e, forLoop_lt _ _ (by omega), if_neg (by simp; omega), Res.ok_bind, if_pos (by simp; omega),
        idx_mid _ _ _ hp.symm, Res.ok_bind, List.replicate_succ, put_mid _ _ _ _ rfl, Res.ok_bind]
      have := ih (py ++ [b]) (out ++ [f xe b]) (by simp) (by simp; omega) (by simp [hp]) (by simp [hp])
      simp only [List.append_assoc, List.singleton_append, List.length_append, List.length_cons, List.length_nil,
        Nat.zero_add] at this ⊢
      rw [show out.length + (Nat.max 0 ys.length + 1) = out.length + 1 + Nat.max 0 ys.length by omega]
      rw [this]
      simp [BigInt.zipExt]
  | cons a xs ih =>
    have hp := hpx (by simp)
    cases ys with
    | nil =>
      have e : Nat.max (a :: xs).length ([] : List Nat).length = Nat.max xs.length ([] : List Nat).length + 1 := by
        simp [Nat.max_def]
      rw [e, forLoop_lt _ _ (by omega), if_pos (by simp; omega), idx_mid _ _ _ hp.symm, Res.ok_bind,
        if_neg (by simp; omega), Res.ok_bind, List.replicate_succ, put_mid _ _ _ _ rfl, Res.ok_bind]
      have := ih [] (px ++ [a]) py (out ++ [f a ye]) (by simp [hp]) (by simp [hp]) (by simp) (by simp; omega)
      simp only [List.append_assoc, List.singleton_append, List.length_append, List.length_cons, List.length_nil,
        Nat.zero_add] at this ⊢
      rw [show out.length + (Nat.max xs.length 0 + 1) = out.length + 1 + Nat.max xs.length 0 by omega]
      rw [this]
      simp [BigInt.zipExt]
    | cons b ys =>
      have hq := hpy (by simp)
      have e : Nat.max (a :: xs).length (b :: ys).length = Nat.max xs.length ys.length + 1 := by
        simp only [List.length_cons, Nat.max_def]; split <;> split <;> omega
      rw [e, forLoop_lt _ _ (by omega), if_pos (by simp; omega), idx_mid _ _ _ hp.symm, Res.ok_bind,
        if_pos (by simp; omega), idx_mid _ _ _ hq.symm, Res.ok_bind, List.replicate_succ, put_mid _ _ _ _ rfl, Res.ok_bind]
      have := ih ys (px ++ [a]) (py ++ [b]) (out ++ [f a b]) (by simp [hp]) (by simp [hp]) (by simp [hq]) (by simp [hq])
      simp only [List.append_assoc, List.singleton_append, List.length_append, List.length_cons, List.length_nil,
        Nat.zero_add] at this ⊢
      rw [show out.length + (Nat.max xs.length ys.length + 1) = out.length + 1 + Nat.max xs.length ys.length by omega]
      rw [this]
      simp [BigInt.zipExt]

theorem bitwise_eq (f : Nat → Nat → Nat) (a b : BigInt) : bitwise f a b = BigInt.bitwise f a b := by
  unfold bitwise BigInt.bitwise
  rw [toUInt32Array_eq, toUInt32Array_eq]
  refine bind_congr_of_ok fun x _ => bind_congr_of_ok fun y _ => ?_
  have := zip_loop f (if a.sign < 0 then 4294967295 else 0) (if b.sign < 0 then 4294967295 else 0) x y x y [] [] []
    rfl rfl (by simp) (by simp) (by simp) (by simp)
  simp only [List.length_nil, Nat.zero_add, List.nil_append] at this
  simp only [List.length_replicate]
  rw [this, Res.ok_bind, ofTwos_eq]

theorem xor_eq (a b : BigInt) : xor a b = a.xor b := by
  unfold xor BigInt.xor; simp only [bitwise_eq]
theorem and_eq (a b : BigInt) : and a b = a.and b := by
  unfold and BigInt.and; simp only [bitwise_eq]
theorem or_eq (a b : BigInt) : or a b = a.or b := by
  unfold or BigInt.or; simp only [bitwise_eq]

end Loop
end BigIntegerCpp
