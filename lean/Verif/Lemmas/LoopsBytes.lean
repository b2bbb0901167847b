import Verif.Lemmas.Loops
import Verif.Lemmas.ToBytes
import Verif.Model.Gcd
/-
The loops over indices of the byte-array constructor, of `to_byte_array` and of `lehmer_core`
compute what the recursions over lists compute.
-/
set_option linter.unusedSectionVars false
namespace BigIntegerCpp
namespace Loop
variable [Cfg]

/-! ### the byte-array constructor -/

omit [Cfg] in
theorem skipZeros_eq (pre xs : List Nat) : ∃ k, skipZeros (pre ++ xs) (pre ++ xs).length pre.length = .ok k ∧
    k ≤ (pre ++ xs).length ∧ (pre ++ xs).drop k = xs.dropWhile (· = 0) := by
  induction xs generalizing pre with
  | nil => exact ⟨pre.length, by rw [skipZeros, dif_neg (by simp)], by simp, by simp⟩
  | cons x xs ih =>
    rw [skipZeros, dif_pos (by simp), idx_mid _ _ _ rfl, Res.ok_bind]
    by_cases h : x = 0
    · rw [if_pos h]
      obtain ⟨k, h1, h2, h3⟩ := ih (pre ++ [x])
      simp only [List.append_assoc, List.singleton_append, List.length_append, List.length_cons, List.length_nil,
        Nat.zero_add] at h1 h2 h3 ⊢
      exact ⟨k, h1, h2, by rw [h3]; simp [h]⟩
    · rw [if_neg h]
      exact ⟨pre.length, rfl, by simp, by simp [h]⟩

omit [Cfg] in
theorem idxI_nat {α : Type} (a : List α) (i : Nat) : idxI a (i : Int) = idx a i := by
  unfold idxI; rw [if_neg (by omega), Int.toNat_natCast]

theorem packSign_up (value : List Nat) (n i : Nat) (s : Int) :
    (do
      let (_, s) ← forLoop (i + n) (fun i s => do
        let s ← shl8 s
        let b ← idx value i
        .ok (i32 (u32i s ||| b))) i s
      Res.ok s) = packSign value 1 n i s := by
  induction n generalizing i s with
  | zero => rw [forLoop_ge _ _ (by simp)]; rfl
  | succ n ih =>
    rw [forLoop_lt _ _ (by omega), packSign]
    simp only [Res.bind_assoc, Res.ok_bind, idxI_nat]
    refine bind_congr_of_ok fun s' _ => bind_congr_of_ok fun b _ => ?_
    rw [show i + (n + 1) = i + 1 + n by omega]
    exact ih (i + 1) _

theorem packSign_down (value : List Nat) (n : Nat) (s : Int) :
    forDown (fun i s => do
        let s ← shl8 s
        let b ← idx value i
        .ok (i32 (u32i s ||| b))) n s = packSign value (-1) n ((n : Int) - 1) s := by
  induction n generalizing s with
  | zero => rfl
  | succ n ih =>
    rw [forDown, packSign, show ((n + 1 : Nat) : Int) - 1 = n by omega]
    simp only [Res.bind_assoc, Res.ok_bind, idxI_nat]
    refine bind_congr_of_ok fun s' _ => bind_congr_of_ok fun b _ => ?_
    rw [ih]; rfl

theorem packByte_eq (value : List Nat) (out : List Nat) (w : Nat) (rest : List Nat) (cur : Int) {d : Nat} (hd : d = out.length) :
    packByte value d cur (out ++ w :: rest) =
      (idxI value cur >>= fun b => .ok (out ++ (u32 (w <<< 8) ||| b) :: rest)) := by
  unfold packByte
  refine bind_congr_of_ok fun b _ => ?_
  rw [idx_mid _ _ _ hd, Res.ok_bind, put_mid _ _ _ _ hd]

theorem packWord_loop (value : List Nat) (step : Int) (out rest : List Nat) {d : Nat} (hd : d = out.length) (n k : Nat)
    (cur : Int) (w : Nat) :
    forLoop (k + n) (fun _ (curByte, val) => do
      let val ← packByte value d curByte val
      .ok (curByte + step, val)) k (cur, out ++ w :: rest) =
    (packWord value step n cur w >>= fun w => .ok (k + n, cur + n * step, out ++ w :: rest)) := by
  induction n generalizing k cur w with
  | zero => rw [forLoop_ge _ _ (by simp)]; simp [packWord]
  | succ n ih =>
    rw [forLoop_lt _ _ (by omega), packWord]
    simp only [packByte_eq value out w rest cur hd, Res.bind_assoc, Res.ok_bind]
    refine bind_congr_of_ok fun b _ => ?_
    rw [show k + (n + 1) = k + 1 + n by omega, ih]
    refine bind_congr_of_ok fun w' _ => ?_
    rw [show cur + step + (n : Int) * step = cur + ((n + 1 : Nat) : Int) * step by push_cast; ring]

theorem packWords_loop (value : List Nat) (step : Int) (n : Nat) (cur : Int) (out rest : List Nat) :
    (do
      let (curDword, _, val) ← forLoop (out.length + n) (fun curDword (curByte, val) => do
        let (_, curByte, val) ← forLoop 4 (fun _ (curByte, val) => do
          let val ← packByte value curDword curByte val
          .ok (curByte + step, val)) 0 (curByte, val)
        .ok (curByte - 8 * step, val)) out.length (cur, out ++ (List.replicate n 0 ++ rest))
      Res.ok (curDword, val)) =
    (BigIntegerCpp.packWords value step n cur >>= fun ws => .ok (out.length + n, out ++ (ws ++ rest))) := by
  induction n generalizing cur out with
  | zero => rw [forLoop_ge _ _ (by simp)]; simp [BigIntegerCpp.packWords]
  | succ n ih =>
    rw [forLoop_lt _ _ (by omega), BigIntegerCpp.packWords]
    have h4 := packWord_loop value step out (List.replicate n 0 ++ rest) rfl 4 0 cur 0
    rw [Nat.zero_add] at h4
    simp only [List.replicate_succ, List.cons_append, h4, Res.bind_assoc, Res.ok_bind]
    refine bind_congr_of_ok fun w _ => ?_
    have := ih (cur + ((4 : Nat) : Int) * step - 8 * step) (out ++ [w])
    simp only [List.append_assoc, List.singleton_append, List.length_append, List.length_cons, List.length_nil,
      Nat.zero_add] at this ⊢
    rw [show out.length + (n + 1) = out.length + 1 + n by omega]
    exact this

theorem packWords_eq (value : List Nat) (step : Int) (n : Nat) (cur : Int) (rest : List Nat) :
    packWords value step n cur (List.replicate n 0 ++ rest) =
    (BigIntegerCpp.packWords value step n cur >>= fun ws => .ok (n, ws ++ rest)) := by
  have := packWords_loop value step n cur [] rest
  simp only [List.length_nil, Nat.zero_add, List.nil_append] at this
  exact this

theorem packWords_length {value : List Nat} {step : Int} {n : Nat} {cur : Int} {ws : List Nat}
    (h : BigIntegerCpp.packWords value step n cur = .ok ws) : ws.length = n := by
  induction n generalizing cur ws with
  | zero => cases h; rfl
  | succ n ih =>
    obtain ⟨w, _, h⟩ := Res.bind_eq_ok h
    obtain ⟨ws', h1, h2⟩ := Res.bind_eq_ok h
    cases h2
    simp [ih h1]

theorem packTop_up (value : List Nat) (out rest : List Nat) {d : Nat} (hd : d = out.length) (n k w : Nat) :
    (do
      let (_, val) ← forLoop (k + n) (fun curByte val => packByte value d curByte val) k (out ++ w :: rest)
      Res.ok val) = (packWord value 1 n k w >>= fun w => .ok (out ++ w :: rest)) := by
  induction n generalizing k w with
  | zero => rw [forLoop_ge _ _ (by simp)]; rfl
  | succ n ih =>
    rw [forLoop_lt _ _ (by omega), packWord]
    simp only [packByte_eq value out w rest _ hd, Res.bind_assoc, Res.ok_bind]
    refine bind_congr_of_ok fun b _ => ?_
    rw [show k + (n + 1) = k + 1 + n by omega]
    exact ih (k + 1) _

theorem packTop_down (value : List Nat) (out rest : List Nat) {d : Nat} (hd : d = out.length) (n lo w : Nat) :
    forDownTo lo (fun curByte val => packByte value d curByte val) (lo + n) (out ++ w :: rest) =
      (packWord value (-1) n (((lo + n : Nat) : Int) - 1) w >>= fun w => .ok (out ++ w :: rest)) := by
  induction n generalizing w with
  | zero => rw [forDownTo_end _ _ _ (by simp)]; rfl
  | succ n ih =>
    rw [show lo + (n + 1) = (lo + n) + 1 by omega, forDownTo_step _ _ _ (by omega), packWord,
      show ((lo + n + 1 : Nat) : Int) - 1 = ((lo + n : Nat) : Int) by omega]
    simp only [packByte_eq value out w rest _ hd, Res.bind_assoc, Res.ok_bind]
    refine bind_congr_of_ok fun b _ => ?_
    rw [ih]; rfl

/-- The end of the constructor: sign, trimming and special values. -/
theorem ofBytes_finish (val : List Nat) (isNegative : Bool) :
    (if isNegative = true then do
      let val ← twos val
      let len ← trim val val.length
      let v0 ← (if len = 1 then idx val 0 else .ok 0)
      if len = 1 ∧ v0 = 1 then .ok minusOneInt
      else if len = 1 ∧ v0 = 2147483648 then .ok minInt
      else if len = 1 ∧ i32 v0 > 0 then checked ⟨-1 * i32 v0, []⟩
      else if len ≠ val.length then do
        let bits ← slice val 0 len
        checked ⟨-1, bits⟩
      else checked ⟨-1, val⟩
    else checked ⟨1, val⟩) =
    (if isNegative = true then
      let val := twosComplement val
      let len := trimLen val
      if len = 1 ∧ val.headD 0 = 1 then .ok minusOneInt
      else if len = 1 ∧ val.headD 0 = 2147483648 then .ok minInt
      else if len = 1 ∧ i32 (val.headD 0) > 0 then checked ⟨-1 * i32 (val.headD 0), []⟩
      else if len ≠ val.length then checked ⟨-1, val.take len⟩
      else checked ⟨-1, val⟩
    else checked ⟨1, val⟩) := by
  cases isNegative with
  | false => rfl
  | true =>
    simp only [if_true, twos_eq, Res.ok_bind, trim_all]
    generalize twosComplement val = v
    rw [slice_prefix (trimLen_le v), Res.ok_bind]
    by_cases h : trimLen v = 1
    · have hne : v ≠ [] := by rintro rfl; simp [trimLen] at h
      simp only [h, if_true, idx_zero hne, Res.ok_bind, true_and]
    · simp only [h, if_false, Res.ok_bind, false_and]

theorem ofBytes_eq (value : List Nat) (isUnsigned isBigEndian : Bool) :
    ofBytes value isUnsigned isBigEndian = BigIntegerCpp.ofBytes value isUnsigned isBigEndian := by
  unfold ofBytes BigIntegerCpp.ofBytes
  refine bind_congr_of_ok fun n hn => ?_
  have en : n = value.length := by unfold sizeInt at hn; split at hn <;> cases hn; rfl
  subst en
  -- the trimmed bytes and their number
  have pre : ∃ (neg : Bool) (v : List Nat) (n : Nat),
      (if value.length > 0 then do
        let msb ← idx value (if isBigEndian = true then 0 else value.length - 1)
        let isNegative := decide (msb &&& 0x80 ≠ 0) && !isUnsigned
        if msb = 0 then
          if isBigEndian = true then do
            let offset ← skipZeros value value.length 1
            let value ← slice value offset (value.length - offset)
            .ok (isNegative, value, value.length)
          else do
            let byteCount ← trim value (value.length - 1)
            .ok (isNegative, value, byteCount)
        else .ok (isNegative, value, value.length)
      else Res.ok (false, value, value.length)) = .ok (neg, v, n) ∧
      (decide (value.length > 0) && decide ((if isBigEndian = true then value.headD 0 else value.getLast?.getD 0) &&& 0x80 ≠ 0) &&
        !isUnsigned) = neg ∧
      (if value.length > 0 ∧ (if isBigEndian = true then value.headD 0 else value.getLast?.getD 0) = 0 then
        if isBigEndian = true then
          (value.dropWhile (· = 0), (value.dropWhile (· = 0)).length)
        else (value, trimLen value)
      else (value, value.length)) = (v, n) := by
    by_cases h0 : value.length > 0
    · have hne : value ≠ [] := List.length_pos_iff.1 h0
      have hidx : idx value (if isBigEndian = true then 0 else value.length - 1) =
          .ok (if isBigEndian = true then value.headD 0 else value.getLast?.getD 0) := by
        cases isBigEndian
        · exact idx_last hne
        · exact idx_zero hne
      rw [if_pos h0, hidx]
      simp only [Res.ok_bind, h0, decide_true, Bool.true_and, true_and]
      by_cases hm : (if isBigEndian = true then value.headD 0 else value.getLast?.getD 0) = 0
      · rw [if_pos hm, if_pos hm]
        cases isBigEndian with
        | false =>
          refine ⟨_, value, trimLen value, ?_, rfl, rfl⟩
          simp only [Bool.false_eq_true, if_false] at hm ⊢
          obtain ⟨l, x, rfl⟩ : ∃ l x, value = l ++ [x] :=
            ⟨value.dropLast, value.getLast hne, (List.dropLast_concat_getLast hne).symm⟩
          have hx : x = 0 := by simpa using hm
          subst hx
          rw [trim_eq _ (by simp), Res.ok_bind, trimLen_concat_zero]
          congr 3
          simp
        | true =>
          refine ⟨_, value.dropWhile (· = 0), (value.dropWhile (· = 0)).length, ?_, rfl, rfl⟩
          simp only [if_true] at hm ⊢
          cases value with
          | nil => exact absurd rfl hne
          | cons x xs =>
            have hx : x = 0 := hm
            subst hx
            obtain ⟨k, h1, h2, h3⟩ := skipZeros_eq [0] xs
            simp only [List.singleton_append, List.length_singleton] at h1 h2 h3
            rw [h1, Res.ok_bind, slice_suffix h2, Res.ok_bind, h3]
            simp
      · rw [if_neg hm, if_neg hm]
        exact ⟨_, value, value.length, rfl, rfl, rfl⟩
    · exact ⟨false, value, value.length, by rw [if_neg h0], by simp [h0], by rw [if_neg (by simp [h0])]⟩
  obtain ⟨neg, v, n, h1, h2, h3⟩ := pre
  rw [h1]
  simp only [h2, h3, Res.ok_bind]
  clear h1 h2 h3 hn
  by_cases h0 : n = 0
  · rw [if_pos h0, if_pos h0]
  rw [if_neg h0, if_neg h0]
  by_cases h4 : n ≤ 4
  · rw [if_pos h4, if_pos h4]
    have hs : ∀ s0 : Int, (if isBigEndian = true then do
        let (_, s) ← forLoop n (fun i s => do
          let s ← shl8 s
          let b ← idx v i
          .ok (i32 (u32i s ||| b))) 0 s0
        Res.ok s
      else forDown (fun i s => do
          let s ← shl8 s
          let b ← idx v i
          .ok (i32 (u32i s ||| b))) n s0) =
      (if isBigEndian = true then packSign v 1 n 0 s0 else packSign v (-1) n ((n : Int) - 1) s0) := by
      intro s0
      rw [packSign_down]
      have := packSign_up v n 0 s0
      rw [Nat.zero_add] at this
      rw [this]; rfl
    rw [hs]
  rw [if_neg h4, if_neg h4]
  have hdw : n / 4 + (if n % 4 = 0 then 0 else 1) - (if n % 4 = 0 then 0 else 1) = n / 4 := by omega
  rw [hdw]
  have hp : (if isBigEndian = true then packWords v 1 (n / 4) ((n : Int) - 4) (List.replicate (n / 4 + if n % 4 = 0 then 0 else 1) 0)
      else packWords v (-1) (n / 4) 3 (List.replicate (n / 4 + if n % 4 = 0 then 0 else 1) 0)) =
      ((if isBigEndian = true then BigIntegerCpp.packWords v 1 (n / 4) ((n : Int) - 4)
        else BigIntegerCpp.packWords v (-1) (n / 4) 3) >>= fun ws =>
        .ok (n / 4, ws ++ List.replicate (if n % 4 = 0 then 0 else 1) 0)) := by
    rw [List.replicate_add, packWords_eq, packWords_eq]
    cases isBigEndian <;> rfl
  rw [hp, Res.bind_assoc]
  refine bind_congr_of_ok fun ws hws => ?_
  have hl : ws.length = n / 4 := by
    cases isBigEndian
    · exact packWords_length hws
    · exact packWords_length hws
  simp only [Res.ok_bind]
  by_cases hu : n % 4 = 0
  · simp only [hu, ne_eq, not_true_eq_false, if_true, if_false, Res.ok_bind, List.replicate_zero, Nat.add_zero]
    exact ofBytes_finish _ _
  · have hw : (if neg = true then put (ws ++ List.replicate (if n % 4 = 0 then 0 else 1) 0) (n / 4 + (if n % 4 = 0 then 0 else 1) - 1) 4294967295
        else .ok (ws ++ List.replicate (if n % 4 = 0 then 0 else 1) 0)) = .ok (ws ++ (if neg = true then 4294967295 else 0) :: []) := by
      rw [if_neg hu, List.replicate_one]
      cases neg with
      | false => rfl
      | true => exact put_mid _ _ _ _ (by omega)
    simp only [if_pos (show n % 4 ≠ 0 from hu)]
    rw [hw, Res.ok_bind]
    have hup := packTop_up v ws [] hl.symm (n % 4) 0 (if neg = true then 4294967295 else 0)
    have hdn := packTop_down v ws [] hl.symm (n % 4) (n - n % 4) (if neg = true then 4294967295 else 0)
    rw [Nat.zero_add] at hup
    rw [show n - n % 4 + n % 4 = n by omega] at hdn
    rw [hup, hdn]
    cases isBigEndian with
    | false =>
      simp only [Bool.false_eq_true, if_false, Res.bind_assoc, Res.ok_bind]
      refine bind_congr_of_ok fun w _ => ?_
      exact ofBytes_finish _ _
    | true =>
      simp only [if_true, Res.bind_assoc, Res.ok_bind]
      refine bind_congr_of_ok fun w _ => ?_
      exact ofBytes_finish _ _

/-! ### to_byte_array -/

omit [Cfg] in
theorem firstNonZero_eq (pre xs : List Nat) :
    firstNonZero (pre ++ xs) pre.length = (BigIntegerCpp.firstNonZero xs >>= fun k => .ok (pre.length + k)) := by
  induction xs generalizing pre with
  | nil => rw [firstNonZero, dif_neg (by simp)]; rfl
  | cons x xs ih =>
    rw [firstNonZero, dif_pos (by simp), idx_mid _ _ _ rfl, Res.ok_bind, BigIntegerCpp.firstNonZero]
    by_cases h : x = 0
    · rw [if_pos h, if_pos h]
      have := ih (pre ++ [x])
      simp only [List.append_assoc, List.singleton_append, List.length_append, List.length_cons, List.length_nil,
        Nat.zero_add] at this
      rw [this, Res.bind_assoc]
      refine bind_congr_of_ok fun k _ => ?_
      rw [Res.ok_bind, Nat.add_assoc, Nat.add_comm 1 k]
    · rw [if_neg h, if_neg h]; rfl

omit [Cfg] in
theorem lowBytes_loop (negative : Bool) (nz : Nat) (inc : Int) (pre ws tail dest : List Nat) (cur : Int) :
    (do
      let (_, destination, curByte) ← forLoop (pre.length + ws.length) (fun i (destination, curByte) => do
        let dword ← idx (pre ++ (ws ++ tail)) i
        let dword := if negative then
            (if i ≤ nz then u32 (u32not dword + 1) else u32not dword)
          else dword
        let destination ← putI destination curByte (byteOf dword 0)
        let curByte := curByte + inc
        let destination ← putI destination curByte (byteOf dword 1)
        let curByte := curByte + inc
        let destination ← putI destination curByte (byteOf dword 2)
        let curByte := curByte + inc
        let destination ← putI destination curByte (byteOf dword 3)
        .ok (destination, curByte + inc)) pre.length (dest, cur)
      Res.ok (destination, curByte)) =
    storeBytes inc ((BigInt.lowDwords negative nz pre.length ws).flatMap
        fun w => [byteOf w 0, byteOf w 1, byteOf w 2, byteOf w 3]) dest cur := by
  induction ws generalizing pre dest cur with
  | nil => rw [forLoop_ge _ _ (by simp)]; rfl
  | cons w ws ih =>
    rw [forLoop_lt _ _ (by simp)]
    simp only [List.cons_append, idx_mid pre w _ rfl, Res.ok_bind, Res.bind_assoc, BigInt.lowDwords, List.flatMap_cons,
      List.nil_append, storeBytes]
    refine bind_congr_of_ok fun d1 _ => bind_congr_of_ok fun d2 _ => bind_congr_of_ok fun d3 _ =>
      bind_congr_of_ok fun d4 _ => ?_
    have := ih (pre ++ [w]) d4 (cur + inc + inc + inc + inc)
    simp only [List.append_assoc, List.singleton_append, List.length_append, List.length_cons, List.length_nil,
      Nat.zero_add] at this ⊢
    rw [show pre.length + (ws.length + 1) = pre.length + 1 + ws.length by omega]
    exact this

omit [Cfg] in
theorem lowBytes_eq (bits : List Nat) (negative : Bool) (nz : Nat) (inc : Int) (dest : List Nat) (cur : Int) (h : bits ≠ []) :
    lowBytes bits negative nz inc dest cur = storeBytes inc ((BigInt.lowDwords negative nz 0 bits.dropLast).flatMap
        fun w => [byteOf w 0, byteOf w 1, byteOf w 2, byteOf w 3]) dest cur := by
  have := lowBytes_loop negative nz inc [] bits.dropLast [bits.getLast h] dest cur
  simp only [List.length_nil, Nat.zero_add, List.nil_append, List.dropLast_concat_getLast, List.length_dropLast] at this
  exact this

omit [Cfg] in
theorem topBytes_eq (h m : Nat) (hm : m ≤ 3) (inc : Int) (dest : List Nat) (cur : Int) :
    topBytes h m inc dest cur = (do
      let (d, c) ← storeBytes inc ((List.range (m + 1)).map (byteOf h)) dest cur
      .ok (d, c - inc)) := by
  interval_cases m
  · show _ = (storeBytes inc [byteOf h 0] dest cur >>= fun p => Res.ok (p.1, p.2 - inc))
    simp [topBytes, storeBytes, Res.bind_assoc]
  · show _ = (storeBytes inc [byteOf h 0, byteOf h 1] dest cur >>= fun p => Res.ok (p.1, p.2 - inc))
    simp [topBytes, storeBytes, Res.bind_assoc]
  · show _ = (storeBytes inc [byteOf h 0, byteOf h 1, byteOf h 2] dest cur >>= fun p => Res.ok (p.1, p.2 - inc))
    simp [topBytes, storeBytes, Res.bind_assoc]
  · show _ = (storeBytes inc [byteOf h 0, byteOf h 1, byteOf h 2, byteOf h 3] dest cur >>= fun p => Res.ok (p.1, p.2 - inc))
    simp [topBytes, storeBytes, Res.bind_assoc]

theorem toBytesMode_eq (a : BigInt) (mode : GetBytesMode) (isUnsigned isBigEndian hasPtr : Bool) :
    toBytesMode a mode isUnsigned isBigEndian hasPtr = a.toBytesMode mode isUnsigned isBigEndian hasPtr := by
  unfold toBytesMode BigInt.toBytesMode
  by_cases h0 : a.sign = 0
  · rw [if_pos h0, if_pos h0]
  rw [if_neg h0, if_neg h0]
  by_cases h1 : isUnsigned = true ∧ a.sign < 0
  · rw [if_pos h1, if_pos h1]
  rw [if_neg h1, if_neg h1]
  dsimp only
  have hhigh : (if a.bits.length = 0 then Res.ok ((if a.sign < 0 then 0xff else 0), u32i a.sign, 0)
      else if a.sign = -1 then do
        let top ← idx a.bits (a.bits.length - 1)
        cassert (top ≠ 0)
        let nz ← firstNonZero a.bits 0
        let h := u32not top
        if a.bits.length - 1 = nz then do
          cassert (h ≤ 4294967294)
          .ok (0xff, u32 (h + 1), nz)
        else .ok (0xff, h, nz)
      else do
        cassert (a.sign = 1)
        let top ← idx a.bits (a.bits.length - 1)
        .ok (0, top, 0)) =
      (if a.bits.length = 0 then Res.ok ((if a.sign < 0 then 0xff else 0), u32i a.sign, 0)
      else if a.sign = -1 then do
        cassert (a.bits.getLast?.getD 0 ≠ 0)
        let nz ← BigIntegerCpp.firstNonZero a.bits
        let h := u32not (a.bits.getLast?.getD 0)
        if a.bits.length - 1 = nz then do
          cassert (h ≤ 4294967294)
          .ok (0xff, u32 (h + 1), nz)
        else .ok (0xff, h, nz)
      else do
        cassert (a.sign = 1)
        .ok (0, a.bits.getLast?.getD 0, 0)) := by
    by_cases hb : a.bits.length = 0
    · rw [if_pos hb, if_pos hb]
    rw [if_neg hb, if_neg hb]
    have hne : a.bits ≠ [] := fun e => hb (by simp [e])
    have hf := firstNonZero_eq [] a.bits
    simp only [List.nil_append, List.length_nil, Nat.zero_add] at hf
    have hf2 : firstNonZero a.bits 0 = BigIntegerCpp.firstNonZero a.bits := by
      rw [hf]; cases BigIntegerCpp.firstNonZero a.bits <;> rfl
    simp only [idx_last hne, Res.ok_bind, hf2]
  rw [hhigh]
  refine bind_congr_of_ok fun ⟨highByte, highDword, nz⟩ _ => ?_
  dsimp only
  refine bind_congr_of_ok fun length _ => ?_
  by_cases hmode : mode = .count
  · rw [if_pos hmode, if_pos hmode]
  rw [if_neg hmode, if_neg hmode]
  have hlow : ∀ (inc : Int) (dest : List Nat) (cur : Int),
      (if a.bits.length ≠ 0 then lowBytes a.bits (decide (a.sign = -1)) nz inc dest cur else .ok (dest, cur)) =
      storeBytes inc ((BigInt.lowDwords (decide (a.bits.length ≠ 0 ∧ a.sign = -1)) nz 0 a.bits.dropLast).flatMap
        fun w => [byteOf w 0, byteOf w 1, byteOf w 2, byteOf w 3]) dest cur := by
    intro inc dest cur
    by_cases hb : a.bits = []
    · simp [hb, BigInt.lowDwords, storeBytes]
    · have hl : a.bits.length ≠ 0 := fun e => hb (List.length_eq_zero_iff.1 e)
      rw [if_pos hl, lowBytes_eq _ _ _ _ _ _ hb]
      simp only [hl, ne_eq, not_false_eq_true, true_and]
  rw [hlow]
  refine bind_congr_of_ok fun ⟨dest, cur⟩ _ => ?_
  dsimp only
  rw [topBytes_eq _ _ (by split_ifs <;> omega), Res.bind_assoc]
  refine bind_congr_of_ok fun ⟨dest, cur⟩ _ => ?_
  simp only [Res.ok_bind]
  refine bind_congr_of_ok fun _ _ => bind_congr_of_ok fun _ _ => ?_
  rw [Int.sub_add_cancel]
  have hx : ∀ (extra : Bool) (inc : Int), ((if extra = true then putI dest cur highByte else .ok dest) >>= fun d =>
      Res.ok (d, (none : Option Nat))) = (storeBytes inc (if extra = true then [highByte] else []) dest cur >>= fun p => .ok (p.1, none)) := by
    intro extra inc
    cases extra with
    | false => rfl
    | true => simp only [if_true, storeBytes, Res.bind_assoc, Res.ok_bind]
  exact hx _ _

/-! ### lehmer_core -/

omit [Cfg] in
theorem lehmer_loop (a b c d : Int) (n : Nat) (px py xs ys : List Nat) (hp : px.length = py.length) (xc yc : Int) :
    (do
      let _ ← forLoop (σ := List Nat × List Nat × Int × Int) (px.length + n) (fun i (x, y, xCarry, yCarry) => do
        let xi ← idx x i
        let yi ← idx y i
        let p ← long (a * xi)
        let q ← long (b * yi)
        let e ← long (p - q)
        let xDigit ← long (e + xCarry)
        let p ← long (d * yi)
        let q ← long (c * xi)
        let e ← long (p - q)
        let yDigit ← long (e + yCarry)
        let x ← put x i (u32i xDigit)
        let y ← put y i (u32i yDigit)
        .ok (x, y, xDigit / 4294967296, yDigit / 4294967296)) px.length (px ++ xs, py ++ ys, xc, yc)
      Res.ok ()) = BigIntegerCpp.lehmerLoop a b c d n xs ys xc yc := by
  induction n generalizing px py xs ys xc yc with
  | zero => rw [forLoop_ge _ _ (by simp)]; rfl
  | succ n ih =>
    rw [forLoop_lt _ _ (by omega)]
    cases xs with
    | nil =>
      dsimp only
      rw [idx_out (by simp)]
      rw [BigIntegerCpp.lehmerLoop]; rfl
      all_goals simp
    | cons x xs =>
      cases ys with
      | nil =>
        dsimp only
        rw [idx_mid px x xs rfl, Res.ok_bind, idx_out (by simp [hp]), BigIntegerCpp.lehmerLoop]; rfl
        all_goals simp
      | cons y ys =>
        rw [BigIntegerCpp.lehmerLoop]
        simp only [idx_mid px x xs rfl, idx_mid py y ys hp, Res.ok_bind, Res.bind_assoc]
        refine bind_congr_of_ok fun _ _ => bind_congr_of_ok fun _ _ => bind_congr_of_ok fun _ _ =>
          bind_congr_of_ok fun xd _ => bind_congr_of_ok fun _ _ => bind_congr_of_ok fun _ _ =>
          bind_congr_of_ok fun _ _ => bind_congr_of_ok fun yd _ => ?_
        simp only [put_mid px x _ xs rfl, put_mid py y _ ys hp, Res.ok_bind]
        have := ih (px ++ [u32i xd]) (py ++ [u32i yd]) xs ys (by simp [hp]) (xd / 4294967296) (yd / 4294967296)
        simp only [List.append_assoc, List.singleton_append, List.length_append, List.length_cons, List.length_nil,
          Nat.zero_add] at this
        rw [show px.length + (n + 1) = px.length + 1 + n by omega]
        exact this

omit [Cfg] in
theorem lehmerLoop_eq (a b c d : Int) (n : Nat) (x y : List Nat) :
    lehmerLoop a b c d n x y = BigIntegerCpp.lehmerLoop a b c d n x y 0 0 := by
  have := lehmer_loop a b c d n [] [] x y rfl 0 0
  simp only [List.length_nil, Nat.zero_add, List.nil_append] at this
  exact this

end Loop
end BigIntegerCpp
