import Verif.PythonSpec
import Verif.Lemmas.Program
import Verif.Lemmas.Bytes
import Verif.Lemmas.ToBytes
import Verif.Lemmas.Convert
/-
Helper lemmas for Props/Python.lean.
-/
set_option linter.unusedSectionVars false
set_option linter.unnecessarySeqFocus false
set_option linter.unusedSimpArgs false
namespace BigIntegerCpp
variable [Cfg]

theorem lowBytes_length (n u : Nat) : (lowBytes n u).length = n := by
  induction n generalizing u with
  | zero => rfl
  | succ n ih => rw [lowBytes, List.length_cons, ih]

theorem lowBytes_ok (n u : Nat) : BytesOk (lowBytes n u) := by
  induction n generalizing u with
  | zero => intro w hw; cases hw
  | succ n ih =>
    intro w hw
    rw [lowBytes, List.mem_cons] at hw
    rcases hw with rfl | hw
    · exact Nat.mod_lt _ (by decide)
    · exact ih _ w hw

theorem lowBytes_val (n u : Nat) : digitsVal 256 (lowBytes n u) = u % 256 ^ n := by
  induction n generalizing u with
  | zero => simp [lowBytes, Nat.mod_one]
  | succ n ih => rw [lowBytes, digitsVal_cons, ih, pow_succ, Nat.mul_comm (256 ^ n), Nat.mod_mul]

theorem lowBytes_succ (n u : Nat) : lowBytes (n + 1) u = lowBytes n u ++ [u / 256 ^ n % 256] := by
  induction n generalizing u with
  | zero => simp [lowBytes]
  | succ n ih =>
    rw [lowBytes, ih, lowBytes, Nat.div_div_eq_div_mul, pow_succ, Nat.mul_comm (256 ^ n)]
    rfl

theorem natAbs_lt_numBits (v : Int) : v.natAbs < 2 ^ numBits v := by
  unfold numBits
  split_ifs with h
  · subst h; decide
  · exact Nat.lt_log2_self

theorem numBits_le {v : Int} {k : Nat} (h : v.natAbs < 2 ^ k) : numBits v ≤ k := by
  unfold numBits
  split_ifs with h0
  · omega
  · have h1 : 2 ^ Nat.log2 v.natAbs ≤ v.natAbs := Nat.log2_self_le (by omega)
    have := (Nat.pow_lt_pow_iff_right (a := 2) (by decide)).1 (lt_of_le_of_lt h1 h)
    omega

theorem toBigInteger_neg (v : PyInt) (hneg : v.value < 0) :
    ∃ w, toBigInteger v = ofBytes w false false ∧ BytesOk w ∧ bytesValue false false w = v.value ∧
      (numBits v.value + 7) / 8 ≤ w.length ∧ w.length ≤ (numBits v.value + 7) / 8 + 1 := by
  unfold toBigInteger
  rw [if_neg (fun hz => by rw [v.zero_object hz] at hneg; omega)]
  dsimp only
  generalize v.value = w at *
  clear v
  rename Int => v
  have hb := natAbs_lt_numBits v
  have hpow : ∀ k, 2 ^ (8 * k) = 256 ^ k := fun k => by rw [pow_mul]; norm_num
  have hd : decide (v < 0) = true := by simpa using hneg
  simp only [hd]
  obtain ⟨j, hj⟩ : ∃ j, (numBits v + 7) / 8 = j + 1 := by
    refine ⟨(numBits v + 7) / 8 - 1, ?_⟩
    unfold numBits
    rw [if_neg (by omega)]; omega
  simp only [hj, if_true]
  have hj1 : v.natAbs < 256 ^ (j + 1) := by
    rw [← hpow]; exact lt_of_lt_of_le hb (Nat.pow_le_pow_right (by decide) (by omega))
  obtain ⟨m, rfl⟩ : ∃ m : Nat, v = -(m : Int) := ⟨v.natAbs, by omega⟩
  have hm : 0 < m := by omega
  rw [show (-(m : Int)).natAbs = m by omega] at *
  have hP : (256 : Int) ^ (j + 1 + 1) = ((256 * 256 ^ (j + 1) : Nat) : Int) := by push_cast; ring
  have hu : ((-(m : Int)) % (256 : Int) ^ (j + 1 + 1)).toNat = 256 * 256 ^ (j + 1) - m := by
    rw [hP]
    generalize 256 ^ (j + 1) = P at *
    have e : (-(m : Int)) % ((256 * P : Nat) : Int) = ((256 * P - m : Nat) : Int) := by
      rw [show (-(m : Int)) = ((256 * P - m : Nat) : Int) + ((256 * P : Nat) : Int) * (-1) by omega, Int.add_mul_emod_self_left,
        ← Int.natCast_emod, Nat.mod_eq_of_lt (by omega)]
    rw [e, Int.toNat_natCast]
  have has : asByteArray (-(m : Int)) (j + 1 + 1) true = some (lowBytes (j + 1 + 1) (256 * 256 ^ (j + 1) - m)) := by
    unfold asByteArray
    rw [if_pos rfl, if_pos, hu]
    rw [hP]
    generalize 256 ^ (j + 1) = P at *
    omega
  simp only [has, Bool.not_true, Bool.false_eq_true, if_false]
  have htop : (256 * 256 ^ (j + 1) - m) / 256 ^ (j + 1) % 256 = 255 := by
    generalize 256 ^ (j + 1) = P at *
    have : (256 * P - m) / P = 255 := by
      rw [Nat.div_eq_iff (by omega)]
      constructor <;> omega
    rw [this]
  have hlt : 256 * 256 ^ (j + 1) - m < 256 ^ (j + 1 + 1) := by
    rw [pow_succ 256 (j + 1)]
    generalize 256 ^ (j + 1) = P at *
    omega
  have hval := lowBytes_val (j + 1 + 1) (256 * 256 ^ (j + 1) - m)
  rw [Nat.mod_eq_of_lt hlt] at hval
  have hext : extVal 8 true (lowBytes (j + 1 + 1) (256 * 256 ^ (j + 1) - m)) = -(m : Int) := by
    rw [extVal_8, hval, lowBytes_length, if_pos rfl, pow_succ 256 (j + 1)]
    generalize 256 ^ (j + 1) = P at *
    omega
  have hsplit := lowBytes_succ (j + 1) (256 * 256 ^ (j + 1) - m)
  have hsplit2 := lowBytes_succ j (256 * 256 ^ (j + 1) - m)
  have hlen := lowBytes_length (j + 1 + 1) (256 * 256 ^ (j + 1) - m)
  have hlen2 := lowBytes_length (j + 1) (256 * 256 ^ (j + 1) - m)
  have hlen3 := lowBytes_length j (256 * 256 ^ (j + 1) - m)
  have hok := lowBytes_ok (j + 1 + 1) (256 * 256 ^ (j + 1) - m)
  have hok2 := lowBytes_ok (j + 1) (256 * 256 ^ (j + 1) - m)
  rw [htop] at hsplit
  have hlow : 256 ^ j ≤ m := by
    by_contra hc
    have := numBits_le (v := -(m : Int)) (k := 8 * j) (by rw [hpow]; omega)
    omega
  generalize 256 * 256 ^ (j + 1) - m = u at *
  have hfull : bytesValue false false (lowBytes (j + 1 + 1) u) = -(m : Int) := by
    unfold bytesValue
    simp only [Bool.false_eq_true, if_false]
    rw [signedVal_eq (neg := true), hext]
    rw [hsplit]; simp
  generalize hB : lowBytes (j + 1 + 1) u = B at *
  have hmsb : ∃ msb, findMsb B (B.length - 1) (B.length - 1) = .ok msb ∧
      (msb &&& 0x80 = 0xff &&& 0x80 → 128 ≤ u / 256 ^ j % 256) := by
    rw [hlen, show j + 1 + 1 - 1 = j + 1 by omega, findMsb, hsplit]
    have h1 : idx (lowBytes (j + 1) u ++ [255]) (j + 1) = .ok 255 := by
      simp [idx, hlen2]
    rw [h1, Res.ok_bind, if_neg (by decide)]
    cases j with
    | zero => exact ⟨1, rfl, fun h => absurd h (by decide)⟩
    | succ i =>
      rw [findMsb, hsplit2]
      have h2 : idx (lowBytes (i + 1) u ++ [u / 256 ^ (i + 1) % 256] ++ [255]) (i + 1) = .ok (u / 256 ^ (i + 1) % 256) := by
        rw [List.append_assoc]
        simp [idx, hlen3]
      rw [h2, Res.ok_bind]
      have hb' : u / 256 ^ (i + 1) % 256 < 256 := Nat.mod_lt _ (by decide)
      generalize u / 256 ^ (i + 1) % 256 = b at *
      by_cases h3 : b = 255
      · subst h3
        rw [if_neg (by simp)]
        have : ∀ i, ∃ msb, findMsb (lowBytes (i + 1) u ++ [255] ++ [255]) (i + 1 + 1) i = .ok msb := by
          intro i
          have : ∀ k, k ≤ i → ∃ msb, findMsb (lowBytes (i + 1) u ++ [255] ++ [255]) (i + 1 + 1) k = .ok msb := by
            intro k
            induction k with
            | zero => exact fun _ => ⟨_, rfl⟩
            | succ k ih =>
              intro hk
              rw [findMsb]
              have h4 : ∃ w, idx (lowBytes (i + 1) u ++ [255] ++ [255]) (k + 1) = .ok w := by
                unfold idx
                rw [List.getElem?_eq_getElem (by simp [lowBytes_length]; omega)]
                exact ⟨_, rfl⟩
              obtain ⟨w, hw⟩ := h4
              rw [hw, Res.ok_bind]
              by_cases h5 : w ≠ 255
              · exact ⟨w, if_pos h5⟩
              · obtain ⟨msb, h6⟩ := ih (by omega)
                exact ⟨msb, by rw [if_neg h5, h6]⟩
          exact this i le_rfl
        obtain ⟨msb, h4⟩ := this i
        exact ⟨msb, h4, fun _ => by decide⟩
      · rw [if_pos h3]
        refine ⟨b, rfl, fun h => ?_⟩
        have h4 := and_0x80 b hb'
        by_contra hc
        rw [← h4, not_not] at hc
        rw [hc] at h
        exact absurd h (by decide)
  obtain ⟨msb, hm1, hm2⟩ := hmsb
  simp only [hm1, Res.ok_bind]
  by_cases hx : msb &&& 0x80 ≠ 0xff &&& 0x80
  · simp only [if_pos hx]
    exact ⟨B, rfl, hok, hfull, by omega, by omega⟩
  · simp only [if_neg hx]
    have h128 := hm2 (not_not.1 hx)
    have htake : B.take (B.length - 1) = lowBytes (j + 1) u := by
      rw [hlen, hsplit, show j + 1 + 1 - 1 = (lowBytes (j + 1) u).length by rw [hlen2]; rfl, List.take_left]
    simp only [htake]
    refine ⟨_, rfl, hok2, ?_, by omega, by omega⟩
    unfold bytesValue
    simp only [Bool.false_eq_true, if_false]
    rw [signedVal_eq (neg := true), ← hext, hsplit]
    · exact (extVal_ext (n := 8) (neg := true)).symm
    · rw [hsplit2]; simpa using h128

theorem toBigInteger_spec (v : PyInt) (hn : numBits v.value < 17179869000)
    (hs : Cfg.strictShift = false ∨ 0 ≤ v.value ∨ v.value ≤ -2 ^ 32) : Returns (toBigInteger v) v.value := by
  by_cases hneg : v.value < 0
  · obtain ⟨w, h1, h2, h3, h4, h5⟩ := toBigInteger_neg v hneg
    rw [h1]
    have := ofBytes_spec w (by omega) h2 false false
    rw [if_neg, h3] at this
    · exact this
    · rintro ⟨k1, k2, k3⟩
      rcases hs with hs | hs | hs
      · rw [hs] at k1; cases k1
      · omega
      · have h6 := natAbs_lt_numBits v.value
        have : 2 ^ numBits v.value ≤ 2 ^ 32 := Nat.pow_le_pow_right (by decide) (by omega)
        omega
  unfold toBigInteger
  by_cases hz : v.isZeroObject = true
  · rw [if_pos hz, v.zero_object hz]; exact returns_ok denotes_zero
  rw [if_neg hz]
  clear hz
  dsimp only
  generalize v.value = w at *
  clear v
  rename Int => v
  have hb := natAbs_lt_numBits v
  have hpow : ∀ k, 2 ^ (8 * k) = 256 ^ k := fun k => by rw [pow_mul]; norm_num
  have hd : decide (v < 0) = false := by simpa using hneg
  rw [hd]
  rw [if_neg (by simp), Nat.add_zero]
  obtain ⟨m, rfl⟩ : ∃ m : Nat, v = m := ⟨v.toNat, by omega⟩
  have hj1 : m < 256 ^ ((numBits (m : Int) + 7) / 8) := by
    rw [← hpow]; exact lt_of_lt_of_le hb (Nat.pow_le_pow_right (by decide) (by omega))
  have hn2 : (numBits (m : Int) + 7) / 8 < 2147483648 := by omega
  generalize (numBits (m : Int) + 7) / 8 = n at *
  have has : asByteArray (m : Int) n false = some (lowBytes n m) := by
    unfold asByteArray
    rw [if_neg (by simp), if_pos, Int.toNat_natCast]
    exact ⟨by omega, by exact_mod_cast hj1⟩
  rw [has]
  dsimp only
  rw [if_pos (by simp)]
  have h1 := ofBytes_spec (lowBytes n m) (by rw [lowBytes_length]; exact hn2) (lowBytes_ok n m) true false
  have h2 : bytesValue true false (lowBytes n m) = m := by
    unfold bytesValue
    simp only [Bool.false_eq_true, if_false, if_true]
    rw [lowBytes_val, Nat.mod_eq_of_lt hj1]
  rw [h2, if_neg (by omega)] at h1
  exact h1

theorem toPyInt_spec {a : BigInt} {x : Int} (ha : a.Denotes x) (hl : a.bits.length < 536870912) : toPyInt a = .ok x := by
  unfold toPyInt
  by_cases h0 : x = 0
  · subst h0
    obtain rfl := ha.unique denotes_zero
    rfl
  · obtain ⟨r, r1, r2, r3, r4, -, -, r7⟩ := BigInt.toBytesMode_spec ha h0 false (by simp) hl
    unfold BigInt.toBytes
    rw [r7, if_neg (by decide), Res.ok_bind]
    dsimp only
    rw [Res.ok_bind]
    unfold fromByteArray
    simp only [Bool.false_eq_true, if_false]
    rw [signedVal_eq (r4 rfl), r3]

/-! ### sizes of results -/

theorem ibit_const_bound {z : Int} {N : Nat} {c : Bool} (h : ∀ k, N ≤ k → ibit z k = c) : -(2 : Int) ^ N ≤ z ∧ z < 2 ^ N := by
  have hq : z / 2 ^ N = if c then -1 else 0 := by
    apply ibit_ext
    intro k
    have h1 : ibit (z / 2 ^ N) k = ibit z (N + k) := by
      unfold ibit
      rw [pow_add, Int.ediv_ediv_of_nonneg (by positivity)]
    rw [h1, h _ (by omega)]
    cases c
    · simp [ibit]
    · have := ibit_not 0 k
      simp [ibit] at this ⊢
      omega
  have hp : (0 : Int) < 2 ^ N := by positivity
  have h1 := Int.emod_nonneg z hp.ne'
  have h2 := Int.emod_lt_of_pos z hp
  have h3 := Int.emod_add_mul_ediv z (2 ^ N)
  rw [hq] at h3
  generalize (2 : Int) ^ N = P at *
  generalize z % P = R at *
  cases c
  · simp at h3; omega
  · simp at h3; omega

theorem ibit_above {x : Int} {N : Nat} (h : x.natAbs < 2 ^ N) {k : Nat} (hk : N ≤ k) : ibit x k = decide (x < 0) := by
  have h1 : x.natAbs < 2 ^ k := lt_of_lt_of_le h (Nat.pow_le_pow_right (by decide) hk)
  have h2 : x / 2 ^ k = if x < 0 then -1 else 0 := by
    have hp : (0 : Int) < 2 ^ k := by positivity
    have h1' : (x.natAbs : Int) < 2 ^ k := by exact_mod_cast h1
    split_ifs with hx
    · rw [Int.ediv_eq_iff_of_pos hp]
      generalize (2 : Int) ^ k = P at *
      omega
    · exact Int.ediv_eq_zero_of_lt (by omega) (by omega)
  unfold ibit
  rw [h2]
  split_ifs with hx <;> simp [hx]

theorem bitop_bound {x y z : Int} {N : Nat} {f : Bool → Bool → Bool} (hx : x.natAbs < 2 ^ N) (hy : y.natAbs < 2 ^ N)
    (h : ∀ k, ibit z k = f (ibit x k) (ibit y k)) : z.natAbs ≤ 2 ^ N := by
  have := ibit_const_bound (z := z) (N := N) (c := f (decide (x < 0)) (decide (y < 0))) fun k hk => by
    rw [h, ibit_above hx hk, ibit_above hy hk]
  have hp : (2 : Int) ^ N = ((2 ^ N : Nat) : Int) := by push_cast; rfl
  rw [hp] at this
  generalize 2 ^ N = P at *
  omega

theorem BinOp.meaning_bound' {op : BinOp} {x y z : Int} {N : Nat} (hx : x.natAbs < 2 ^ N) (hy : y.natAbs < 2 ^ N)
    (h : op.meaning x y = .ok z) : z.natAbs < 2 ^ (2 * N + 2) := by
  have e : 2 ^ (2 * N + 2) = 4 * (2 ^ N * 2 ^ N) := by ring
  have hp : 0 < 2 ^ N := by positivity
  have hb : ∀ (f : Bool → Bool → Bool), (∀ k, ibit z k = f (ibit x k) (ibit y k)) → z.natAbs < 2 ^ (2 * N + 2) := by
    intro f hf
    have := bitop_bound hx hy hf
    rw [e]
    generalize 2 ^ N = P at *
    nlinarith
  rw [e]
  rw [e] at hb
  cases op <;> unfold BinOp.meaning at h <;> dsimp only at h
  · obtain rfl := Except.ok.inj h
    have := Int.natAbs_add_le x y
    generalize 2 ^ N = P at *
    nlinarith
  · obtain rfl := Except.ok.inj h
    have := Int.natAbs_sub_le x y
    generalize 2 ^ N = P at *
    nlinarith
  · obtain rfl := Except.ok.inj h
    rw [Int.natAbs_mul]
    have := Nat.mul_lt_mul'' hx hy
    omega
  · by_cases h0 : y = 0
    · rw [if_pos h0] at h; cases h
    rw [if_neg h0] at h
    obtain rfl := Except.ok.inj h
    rw [Int.natAbs_tdiv]
    have : x.natAbs.div y.natAbs ≤ x.natAbs := Nat.div_le_self x.natAbs y.natAbs
    generalize 2 ^ N = P at *
    nlinarith
  · by_cases h0 : y = 0
    · rw [if_pos h0] at h; cases h
    rw [if_neg h0] at h
    obtain rfl := Except.ok.inj h
    rw [Int.natAbs_tmod]
    have := Nat.mod_le x.natAbs y.natAbs
    generalize 2 ^ N = P at *
    nlinarith
  · obtain rfl := Except.ok.inj h
    exact hb (· && ·) fun k => by simp only [← ibit_testBit, Int.testBit_land]
  · obtain rfl := Except.ok.inj h
    exact hb (· || ·) fun k => by simp only [← ibit_testBit, Int.testBit_lor]
  · obtain rfl := Except.ok.inj h
    exact hb Bool.xor fun k => by simp only [← ibit_testBit, Int.testBit_lxor]

theorem BinOp.meaning_bound {op : BinOp} {x y z : Int} (hx : InRange x) (hy : InRange y) (h : op.meaning x y = .ok z) :
    z.natAbs < 2 ^ (32 * (2 ^ 29 - 1)) :=
  lt_of_lt_of_le (op.meaning_bound' hx hy h) (Nat.pow_le_pow_right (by decide) (by decide))

theorem shiftInt_bound {x n : Int} (hx : InRange x) (h1 : -2147483648 ≤ n) (h2 : n ≤ 2147483648) :
    (shiftInt x n).natAbs < 2 ^ (32 * (2 ^ 29 - 1)) := by
  unfold InRange at hx
  unfold shiftInt
  by_cases h : 0 ≤ n
  · rw [if_pos h, Int.natAbs_mul, Int.natAbs_pow]
    have : x.natAbs * 2 ^ n.toNat < 2 ^ (32 * (2 ^ 26 - 1)) * 2 ^ n.toNat := Nat.mul_lt_mul_of_pos_right hx (by positivity)
    refine lt_of_lt_of_le this ?_
    rw [← pow_add]
    exact Nat.pow_le_pow_right (by decide) (by norm_num; omega)
  · rw [if_neg h]
    have h3 : (x / 2 ^ (-n).toNat).natAbs ≤ x.natAbs := Int.natAbs_ediv_le_natAbs x _
    exact lt_of_le_of_lt h3 (lt_of_lt_of_le hx (Nat.pow_le_pow_right (by decide) (by decide)))

/-! ### hashes -/

omit [Cfg] in
private theorem i32_range (n : Nat) : -2147483648 ≤ i32 n ∧ i32 n < 2147483648 := by
  unfold i32; split_ifs <;> omega

omit [Cfg] in
theorem hashCode_range {a : BigInt} {x : Int} (ha : a.Denotes x) : -2147483648 ≤ a.hashCode ∧ a.hashCode < 2147483648 := by
  obtain ⟨s, ws⟩ := a
  cases ws with
  | nil =>
    have := ha.1.signRange
    unfold IntRange at this
    show -2147483648 ≤ s ∧ s < 2147483648
    dsimp only at this
    omega
  | cons w ws => exact i32_range _

omit [Cfg] in
/-- The hash of the bindings is far from zero: its upper half is that of a constant, or the complement. -/
theorem pyHash_far {a : BigInt} {x : Int} (ha : a.Denotes x) : 36028797018963968 < |pyHash a| := by
  have h := hashCode_range ha
  unfold pyHash
  rw [show u64i (2166136261 * 16777619) = 36342608889142559 by decide]
  generalize a.hashCode = x at *
  have hq : 36342608889142559 ^^^ u64i x < 18446744073709551616 := by
    have : u64i x < 2 ^ 64 := by unfold u64i; norm_num; omega
    exact Nat.xor_lt_two_pow (n := 64) (by norm_num) this
  have hd := Nat.xor_div_two_pow (a := 36342608889142559) (b := u64i x) (n := 32)
  have hu : (u64i x / 2 ^ 32 = 0) ∨ (u64i x / 2 ^ 32 = 4294967295) := by
    have : (u64i x : Int) = x ∧ 0 ≤ x ∨ (u64i x : Int) = x + 18446744073709551616 ∧ x < 0 := by unfold u64i; omega
    clear hd hq
    norm_num; omega
  generalize 36342608889142559 ^^^ u64i x = Q at *
  have hQ : Q / 2 ^ 32 = 8461673 ∨ Q / 2 ^ 32 = 4294967295 - 8461673 := by
    rcases hu with e | e <;> rw [e] at hd
    · left; rw [hd]; decide
    · right; rw [hd]; decide
  norm_num at hQ
  unfold i64
  rw [lt_abs]
  split_ifs <;> omega

end BigIntegerCpp
