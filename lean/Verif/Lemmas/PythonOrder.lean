import Verif.PythonOrderSpec
import Verif.Model.PythonOrder
import Verif.Lemmas.Python
import Verif.Lemmas.Oracle
/-
Helper lemmas for Props/PythonOrder.lean.
-/
set_option linter.unusedSectionVars false
namespace BigIntegerCpp
variable [Cfg]

theorem dv_inj : ∀ {xs ys : List Nat}, BytesOk xs → BytesOk ys → xs.length = ys.length → digitsVal 256 xs = digitsVal 256 ys → xs = ys
  | [], [], _, _, _, _ => rfl
  | a :: xs, b :: ys, hx, hy, hl, h => by
    have ha := hx a (by simp)
    have hb := hy b (by simp)
    rw [digitsVal_cons, digitsVal_cons] at h
    obtain rfl : a = b := by omega
    rw [dv_inj (fun w hw => hx w (List.mem_cons_of_mem _ hw)) (fun w hw => hy w (List.mem_cons_of_mem _ hw))
      (by simpa using hl) (by omega)]

theorem sv_inj : ∀ {xs ys : List Nat}, BytesOk xs → BytesOk ys → xs.length = ys.length → signedVal 8 xs = signedVal 8 ys → xs = ys
  | [], [], _, _, _, _ => rfl
  | [a], [b], hx, hy, _, h => by
    have ha := hx a (by simp)
    have hb := hy b (by simp)
    rw [Oracle.sv_single, Oracle.sv_single] at h
    obtain rfl : a = b := by split_ifs at h <;> omega
    rfl
  | a :: a' :: xs, b :: b' :: ys, hx, hy, hl, h => by
    have ha := hx a (by simp)
    have hb := hy b (by simp)
    rw [Oracle.sv_cons (b := a) (bs := a' :: xs) (by simp), Oracle.sv_cons (b := b) (bs := b' :: ys) (by simp)] at h
    obtain rfl : a = b := by omega
    rw [sv_inj (fun w hw => hx w (List.mem_cons_of_mem _ hw)) (fun w hw => hy w (List.mem_cons_of_mem _ hw))
      (by simpa using hl) (by omega)]

theorem bytesOk_reverse {xs : List Nat} (h : BytesOk xs) : BytesOk xs.reverse := fun w hw => h w (List.mem_reverse.1 hw)

/-- The value, in a fixed form and number of bytes, determines the bytes. -/
theorem bytesValue_inj {u be : Bool} {xs ys : List Nat} (hx : BytesOk xs) (hy : BytesOk ys) (hl : xs.length = ys.length)
    (h : bytesValue u be xs = bytesValue u be ys) : xs = ys := by
  cases be <;> cases u <;> simp only [bytesValue, Bool.false_eq_true, if_false, if_true] at h
  · exact sv_inj hx hy hl h
  · exact dv_inj hx hy hl (by exact_mod_cast h)
  · exact List.reverse_inj.1 (sv_inj (bytesOk_reverse hx) (bytesOk_reverse hy) (by simpa using hl) h)
  · exact List.reverse_inj.1 (dv_inj (bytesOk_reverse hx) (bytesOk_reverse hy) (by simpa using hl) (by exact_mod_cast h))

theorem BigEndianBytes.unique {v : Int} {w w' : List Nat} (h : BigEndianBytes v w) (h' : BigEndianBytes v w') : w = w' :=
  bytesValue_inj h.bytes h'.bytes (h.length.trans h'.length.symm) (h.value.trans h'.value.symm)

theorem magnitudeBytes_eq (v : Int) : magnitudeBytes v = (numBits v + 7) / 8 := by
  unfold magnitudeBytes numBits
  by_cases h : v = 0
  · rw [if_pos h, if_pos h]
  · rw [if_neg h, if_neg h]; omega

theorem lowBytes_zero {j u : Nat} (h : 256 ^ j ∣ u) : lowBytes j u = List.replicate j 0 := by
  induction j generalizing u with
  | zero => rfl
  | succ j ih =>
    rw [pow_succ, Nat.mul_comm] at h
    obtain ⟨c, rfl⟩ := h
    rw [lowBytes, List.replicate_succ, ih (by rw [Nat.mul_assoc, Nat.mul_div_cancel_left _ (by decide)]; exact Nat.dvd_mul_right _ _),
      Nat.mul_assoc, Nat.mul_mod_right]

theorem slice_tail {α : Type} (a : α) (xs : List α) : slice (a :: xs) 1 ((a :: xs).length - 1) = .ok xs := by
  unfold slice
  rw [if_pos (by simp only [List.length_cons]; omega)]
  simp

theorem toBigIntegerIn_nonneg (v : PyInt) (h0 : 0 ≤ v.value) :
    ∃ w, BigEndianBytes v.value w ∧ toBigIntegerIn v true = ofBytes w true false := by
  unfold toBigIntegerIn
  have hb := natAbs_lt_numBits v.value
  have hpow : ∀ k, 2 ^ (8 * k) = 256 ^ k := fun k => by rw [pow_mul]; norm_num
  by_cases hz : v.isZeroObject = true
  · rw [if_pos hz, v.zero_object hz]
    exact ⟨[], ⟨nofun, by decide, by decide⟩, rfl⟩
  rw [if_neg hz]
  dsimp only
  generalize v.value = z at *
  rw [show decide (z < 0) = false by simpa using h0, if_neg (by simp), Nat.add_zero]
  obtain ⟨m, rfl⟩ : ∃ m : Nat, z = m := ⟨z.toNat, by omega⟩
  have hj1 : m < 256 ^ ((numBits (m : Int) + 7) / 8) := by
    rw [← hpow]; exact lt_of_lt_of_le hb (Nat.pow_le_pow_right (by decide) (by omega))
  have hbb : bufferBytes (m : Int) = (numBits (m : Int) + 7) / 8 := by
    rw [bufferBytes, if_pos (by omega), magnitudeBytes_eq]
  have hdec : decide ((0 : Int) ≤ m) = true := by simp
  refine ⟨(lowBytes ((numBits (m : Int) + 7) / 8) m).reverse, ⟨bytesOk_reverse (lowBytes_ok _ _), ?_, ?_⟩, ?_⟩
  · rw [hbb, List.length_reverse, lowBytes_length]
  · rw [hdec]
    simp only [bytesValue, if_true, List.reverse_reverse]
    rw [lowBytes_val, Nat.mod_eq_of_lt hj1]
  · generalize (numBits (m : Int) + 7) / 8 = n at *
    have has : asByteArray (m : Int) n false = some (lowBytes n m) := by
      unfold asByteArray
      rw [if_neg (by simp), if_pos, Int.toNat_natCast]
      exact ⟨by omega, by exact_mod_cast hj1⟩
    rw [asByteArrayIn, has]
    rfl

theorem toBigIntegerIn_neg (v : PyInt) (hneg : v.value < 0) :
    ∃ w, BigEndianBytes v.value w ∧ toBigIntegerIn v true = ofBytes w false false := by
  unfold toBigIntegerIn
  rw [if_neg (fun hz => by rw [v.zero_object hz] at hneg; omega)]
  dsimp only
  generalize v.value = w at *
  clear v
  rename Int => v
  have hb := natAbs_lt_numBits v
  have hpow : ∀ k, 2 ^ (8 * k) = 256 ^ k := fun k => by rw [pow_mul]; norm_num
  have hd : decide (v < 0) = true := by simpa using hneg
  have hd' : decide (0 ≤ v) = false := by simpa using hneg
  rw [hd]
  obtain ⟨j, hj⟩ : ∃ j, (numBits v + 7) / 8 = j + 1 := by
    refine ⟨(numBits v + 7) / 8 - 1, ?_⟩
    unfold numBits
    rw [if_neg (by omega)]; omega
  have hmb : magnitudeBytes v = j + 1 := by rw [magnitudeBytes_eq, hj]
  rw [hj, if_pos rfl]
  have hj1 : v.natAbs < 256 ^ (j + 1) := by
    rw [← hpow]; exact lt_of_lt_of_le hb (Nat.pow_le_pow_right (by decide) (by omega))
  have hlow : 256 ^ j ≤ v.natAbs := by
    by_contra hc
    have := numBits_le (v := v) (k := 8 * j) (by rw [hpow]; omega)
    omega
  have hbb : bufferBytes v = if 2 * v.natAbs ≤ 256 ^ (j + 1) ∧ v.natAbs ≠ 256 ^ j then j + 1 else j + 1 + 1 := by
    rw [bufferBytes, if_neg (by omega), hmb]; rfl
  obtain ⟨m, rfl⟩ : ∃ m : Nat, v = -(m : Int) := ⟨v.natAbs, by omega⟩
  have hm : 0 < m := by omega
  rw [show (-(m : Int)).natAbs = m by omega] at *
  have hP : (256 : Int) ^ (j + 1 + 1) = ((256 * 256 ^ (j + 1) : Nat) : Int) := by push_cast; ring
  have hu : ((-(m : Int)) % (256 : Int) ^ (j + 1 + 1)).toNat = 256 * 256 ^ (j + 1) - m := by
    rw [hP]
    generalize 256 ^ (j + 1) = P at *
    have e : (-(m : Int)) % ((256 * P : Nat) : Int) = ((256 * P - m : Nat) : Int) := by
      rw [show (-(m : Int)) = ((256 * P - m : Nat) : Int) + ((256 * P : Nat) : Int) * (-1) by omega, Int.add_mul_emod_self_left,
        ← Int.natCast_emod, Nat.mod_eq_of_lt (by omega)]
    rw [e, Int.toNat_natCast]
  have has : asByteArray (-(m : Int)) (j + 1 + 1) true = some (lowBytes (j + 1 + 1) (256 * 256 ^ (j + 1) - m)) := by
    unfold asByteArray
    rw [if_pos rfl, if_pos, hu]
    rw [hP]
    generalize 256 ^ (j + 1) = P at *
    omega
  have has' : asByteArrayIn (-(m : Int)) (j + 1 + 1) true true = some (lowBytes (j + 1 + 1) (256 * 256 ^ (j + 1) - m)).reverse := by
    rw [asByteArrayIn, has]; rfl
  rw [has']
  dsimp only
  have htop : (256 * 256 ^ (j + 1) - m) / 256 ^ (j + 1) % 256 = 255 := by
    generalize 256 ^ (j + 1) = P at *
    have : (256 * P - m) / P = 255 := by
      rw [Nat.div_eq_iff (by omega)]
      constructor <;> omega
    rw [this]
  have hlt : 256 * 256 ^ (j + 1) - m < 256 ^ (j + 1 + 1) := by
    rw [pow_succ 256 (j + 1)]
    generalize 256 ^ (j + 1) = P at *
    omega
  have hval := lowBytes_val (j + 1 + 1) (256 * 256 ^ (j + 1) - m)
  rw [Nat.mod_eq_of_lt hlt] at hval
  have hext : extVal 8 true (lowBytes (j + 1 + 1) (256 * 256 ^ (j + 1) - m)) = -(m : Int) := by
    rw [extVal_8, hval, lowBytes_length, if_pos rfl, pow_succ 256 (j + 1)]
    generalize 256 ^ (j + 1) = P at *
    omega
  have hsplit := lowBytes_succ (j + 1) (256 * 256 ^ (j + 1) - m)
  have hsplit2 := lowBytes_succ j (256 * 256 ^ (j + 1) - m)
  rw [htop] at hsplit
  -- the second byte from the top
  have hsec : (256 * 256 ^ (j + 1) - m) / 256 ^ j % 256 = 256 - (m + 256 ^ j - 1) / 256 ^ j := by
    have hPj : (256 : Nat) ^ (j + 1) = 256 * 256 ^ j := by rw [pow_succ, Nat.mul_comm]
    rw [hPj] at hj1 ⊢
    have hpos : 0 < 256 ^ j := Nat.pow_pos (by decide)
    generalize 256 ^ j = Q at *
    obtain ⟨c, hc⟩ : ∃ c, (m + Q - 1) / Q = c := ⟨_, rfl⟩
    rw [hc]
    rw [Nat.div_eq_iff hpos] at hc
    have hc1 : 1 ≤ c := by
      rcases Nat.eq_zero_or_pos c with rfl | h
      · omega
      · exact h
    have hc2 : c ≤ 256 := by
      by_contra hgt
      have : 257 * Q ≤ c * Q := Nat.mul_le_mul_right _ (by omega)
      omega
    have : (256 * (256 * Q) - m) / Q = 65536 - c := by
      rw [Nat.div_eq_iff hpos]
      rw [Nat.sub_mul]
      constructor <;> omega
    rw [this]
    omega
  have hok := lowBytes_ok (j + 1 + 1) (256 * 256 ^ (j + 1) - m)
  have hok2 := lowBytes_ok (j + 1) (256 * 256 ^ (j + 1) - m)
  have hlen := lowBytes_length (j + 1 + 1) (256 * 256 ^ (j + 1) - m)
  have hlen2 := lowBytes_length (j + 1) (256 * 256 ^ (j + 1) - m)
  have hzero : m = 256 ^ j → lowBytes j (256 * 256 ^ (j + 1) - m) = List.replicate j 0 := fun e => lowBytes_zero (by
    rw [e]
    exact Nat.dvd_sub (by rw [pow_succ]; exact ⟨256 * 256, by ring⟩) (Nat.dvd_refl _))
  generalize hb' : (256 * 256 ^ (j + 1) - m) / 256 ^ j % 256 = b at *
  have hb256 : b < 256 := by rw [← hb']; exact Nat.mod_lt _ (by decide)
  generalize 256 * 256 ^ (j + 1) - m = u at *
  have hrev : (lowBytes (j + 1 + 1) u).reverse = 255 :: b :: (lowBytes j u).reverse := by
    rw [hsplit, hsplit2]; simp
  have hrev2 : (lowBytes (j + 1) u).reverse = b :: (lowBytes j u).reverse := by
    rw [hsplit2]; simp
  -- what is kept
  have hfull : BigEndianBytes (-(m : Int)) (lowBytes (j + 1 + 1) u).reverse ↔ ¬ (2 * m ≤ 256 ^ (j + 1) ∧ m ≠ 256 ^ j) := by
    constructor
    · intro h hc
      have := h.length
      rw [hbb, if_pos hc, List.length_reverse, hlen] at this
      omega
    · intro h
      refine ⟨bytesOk_reverse hok, by rw [hbb, if_neg h, List.length_reverse, hlen], ?_⟩
      rw [hd']
      simp only [bytesValue, if_true, Bool.false_eq_true, if_false, List.reverse_reverse]
      rw [signedVal_eq (neg := true), hext]
      rw [hsplit]; simp
  have hpart : 128 ≤ b → 2 * m ≤ 256 ^ (j + 1) ∧ m ≠ 256 ^ j → BigEndianBytes (-(m : Int)) (lowBytes (j + 1) u).reverse := by
    intro h128 h
    refine ⟨bytesOk_reverse hok2, by rw [hbb, if_pos h, List.length_reverse, hlen2], ?_⟩
    rw [hd']
    simp only [bytesValue, if_true, Bool.false_eq_true, if_false, List.reverse_reverse]
    rw [signedVal_eq (neg := true), ← hext, hsplit]
    · exact (extVal_ext (n := 8) (neg := true)).symm
    · rw [hsplit2]; simpa using h128
  have hcond : (128 ≤ b ↔ 2 * m ≤ 256 ^ (j + 1)) ∧ (b = 255 ↔ m = 256 ^ j) := by
    have hPj : (256 : Nat) ^ (j + 1) = 256 * 256 ^ j := by rw [pow_succ, Nat.mul_comm]
    rw [hPj] at hj1 ⊢
    have hpos : 0 < 256 ^ j := Nat.pow_pos (by decide)
    clear hfull hpart hzero hrev hrev2 hext hval hsplit hsplit2 hlt htop has has' hu hP hb' hok hok2 hlen hlen2
    generalize 256 ^ j = Q at *
    obtain ⟨c, hc⟩ : ∃ c, (m + Q - 1) / Q = c := ⟨_, rfl⟩
    rw [hc] at hsec
    rw [Nat.div_eq_iff hpos] at hc
    constructor
    · constructor
      · intro h
        have : c * Q ≤ 128 * Q := Nat.mul_le_mul_right _ (by omega)
        omega
      · intro h
        by_contra hlt
        have : 129 * Q ≤ c * Q := Nat.mul_le_mul_right _ (by omega)
        omega
    · constructor
      · intro h
        obtain rfl : c = 1 := by omega
        omega
      · intro h
        have : c < 2 := by
          by_contra hge
          have : 2 * Q ≤ c * Q := Nat.mul_le_mul_right _ (by omega)
          omega
        have : c ≠ 0 := by rintro rfl; omega
        omega
  have hand : ∀ b : Nat, b < 256 → (b &&& 0x80 ≠ 0xff &&& 0x80 ↔ ¬ 128 ≤ b) := by decide +kernel
  have hfind : ∀ R L, findMsbFirst (255 :: b :: R) L = if b ≠ 0xff then b else findMsbFirst R L := fun R L => by
    rw [findMsbFirst, if_neg (by decide), findMsbFirst]
  obtain ⟨k, hk⟩ : ∃ k, findMsbFirst (lowBytes (j + 1 + 1) u).reverse ((lowBytes (j + 1 + 1) u).reverse.length - 1) = k := ⟨_, rfl⟩
  have hk' : (k &&& 0x80 ≠ 0xff &&& 0x80) ↔ ¬ (128 ≤ b ∧ b ≠ 255) := by
    rw [hrev, hfind] at hk
    by_cases h255 : b = 255
    · rw [if_neg (not_not.2 h255), hzero (hcond.2.1 h255), List.reverse_replicate] at hk
      have : k < 2 := by
        rcases j with _ | j
        · rw [← hk]; show 1 < 2; decide
        · rw [← hk, List.replicate_succ]; show 0 < 2; decide
      rw [hand k (by omega)]
      exact ⟨fun _ h => h.2 h255, fun _ => by omega⟩
    · rw [if_pos h255] at hk
      rw [← hk, hand b hb256]
      exact ⟨fun h h' => h h'.1, fun h h' => h ⟨h', h255⟩⟩
  have hsl : slice (lowBytes (j + 1 + 1) u).reverse 1 ((lowBytes (j + 1 + 1) u).reverse.length - 1) = .ok (b :: (lowBytes j u).reverse) := by
    rw [hrev, slice_tail]
  rw [if_neg (by simp), if_pos rfl, Res.ok_bind, hk]
  by_cases h : 128 ≤ b ∧ b ≠ 255
  · rw [if_neg (fun hc => hk'.1 hc h), if_pos rfl, hsl, Res.ok_bind, ← hrev2]
    exact ⟨_, hpart h.1 ⟨hcond.1.1 h.1, fun e => h.2 (hcond.2.2 e)⟩, rfl⟩
  · rw [if_pos (hk'.2 h)]
    exact ⟨_, hfull.2 fun hc => h ⟨hcond.1.2 hc.1, fun e => hc.2 (hcond.2.1 e)⟩, rfl⟩

end BigIntegerCpp
