import Verif.Lemmas.Long32Pow
import Verif.Lemmas.PowProps
/-
`mod_pow` where `long` has 32 bits: below the threshold of the `FastReducer` nothing changes; above it the reducer is
undefined as soon as there is something to reduce.
-/
set_option linter.unusedSectionVars false
namespace BigIntegerCpp.Long32
variable [Cfg]

/-! ### a modulus of fewer than 32 words -/

theorem reduce_short {b b' : BitsBuffer} {ms : List Nat} (hm : ms.length < 32) (h : b.reduce ms = .ok b') : b'.length < 32 := by
  unfold BitsBuffer.reduce at h
  by_cases hc : b.length ≥ ms.length
  · rw [if_pos hc] at h
    obtain ⟨l, -, h⟩ := Res.bind_eq_ok h
    obtain ⟨⟨l', q⟩, -, h⟩ := Res.bind_eq_ok h
    dsimp only at h
    obtain ⟨n, e, h⟩ := Res.bind_eq_ok h
    cases h
    unfold actualLength at e
    obtain ⟨v, e1, e⟩ := Res.bind_eq_ok e
    cases e
    dsimp only
    have := trimLen_le v
    have hv : v.length ≤ ms.length := by
      unfold slice at e1
      split_ifs at e1
      cases e1
      simp
    omega
  · rw [if_neg hc] at h
    cases h
    omega

theorem powLoop_eq {ms : List Nat} (hm : ms.length < 32) (p : Nat) {value result temp : BitsBuffer} (hv : value.length < 32)
    (hr : result.length < 32) :
    powLoop (fun b => b.reduce ms) p value result temp = BigIntegerCpp.powLoop (fun b => b.reduce ms) p value result temp := by
  induction p using Nat.strongRecOn generalizing value result temp with
  | ind p ih =>
  rw [powLoop, BigIntegerCpp.powLoop]
  by_cases h0 : p = 0
  · rw [dif_pos h0, dif_pos h0]
  rw [dif_neg h0, dif_neg h0, multiplySelf_eq (.inl hr)]
  refine bind_congr_of_ok fun st hst => ?_
  obtain ⟨result', temp'⟩ := st
  dsimp only
  have hr' : result'.length < 32 := by
    by_cases h : p % 2 = 1
    · rw [if_pos h] at hst
      obtain ⟨⟨r1, t1⟩, -, hst⟩ := Res.bind_eq_ok hst
      obtain ⟨r2, e, hst⟩ := Res.bind_eq_ok hst
      cases hst
      exact reduce_short hm e
    · rw [if_neg h] at hst
      cases hst
      exact hr
  rw [squareSelf_eq hv]
  refine bind_congr_of_ok fun st hst => ?_
  obtain ⟨value', temp''⟩ := st
  dsimp only
  refine ih (p / 2) (by omega) ?_ hr'
  by_cases h : p ≠ 1
  · rw [if_pos h] at hst
    obtain ⟨⟨r1, t1⟩, -, hst⟩ := Res.bind_eq_ok hst
    obtain ⟨r2, e, hst⟩ := Res.bind_eq_ok hst
    cases hst
    exact reduce_short hm e
  · rw [if_neg h] at hst
    cases hst
    exact hv

theorem powBits_eq {ms : List Nat} (hm : ms.length < 32) (n p : Nat) {value result temp : BitsBuffer} (hv : value.length < 32)
    (hr : result.length < 32) :
    powBits (fun b => b.reduce ms) n p (value, result, temp) = BigIntegerCpp.powBits (fun b => b.reduce ms) n p (value, result, temp) ∧
    ∀ st, BigIntegerCpp.powBits (fun b => b.reduce ms) n p (value, result, temp) = .ok st → st.1.length < 32 ∧ st.2.1.length < 32 := by
  induction n generalizing p value result temp with
  | zero =>
    refine ⟨rfl, ?_⟩
    rintro st h
    cases h
    exact ⟨hv, hr⟩
  | succ n ih =>
    rw [powBits, BigIntegerCpp.powBits, multiplySelf_eq (.inl hr)]
    have key : ∀ result' temp', (if p % 2 = 1 then (do
          let (r, t) ← result.multiplySelf value temp
          let r ← (fun b : BitsBuffer => b.reduce ms) r
          .ok (r, t) : Res (BitsBuffer × BitsBuffer))
        else .ok (result, temp)) = .ok (result', temp') → result'.length < 32 := by
      intro result' temp' hst
      by_cases h : p % 2 = 1
      · rw [if_pos h] at hst
        obtain ⟨⟨r1, t1⟩, -, hst⟩ := Res.bind_eq_ok hst
        obtain ⟨r2, e, hst⟩ := Res.bind_eq_ok hst
        cases hst
        exact reduce_short hm e
      · rw [if_neg h] at hst
        cases hst
        exact hr
    constructor
    · refine bind_congr_of_ok fun st hst => ?_
      obtain ⟨result', temp'⟩ := st
      dsimp only
      rw [squareSelf_eq hv]
      refine bind_congr_of_ok fun st hst2 => ?_
      obtain ⟨value', temp''⟩ := st
      dsimp only
      refine bind_congr_of_ok fun v hst3 => ?_
      exact (ih (p / 2) (reduce_short hm hst3) (key _ _ hst)).1
    · intro st h
      obtain ⟨⟨result', temp'⟩, e1, h⟩ := Res.bind_eq_ok h
      obtain ⟨⟨value', temp''⟩, e2, h⟩ := Res.bind_eq_ok h
      obtain ⟨v, e3, h⟩ := Res.bind_eq_ok h
      exact (ih (p / 2) (reduce_short hm e3) (key _ _ e1)).2 _ h

theorem powWords_eq {ms : List Nat} (hm : ms.length < 32) (ps : List Nat) {value result temp : BitsBuffer} (hv : value.length < 32)
    (hr : result.length < 32) :
    powWords (fun b => b.reduce ms) ps (value, result, temp) = BigIntegerCpp.powWords (fun b => b.reduce ms) ps (value, result, temp) ∧
    ∀ st, BigIntegerCpp.powWords (fun b => b.reduce ms) ps (value, result, temp) = .ok st → st.1.length < 32 ∧ st.2.1.length < 32 := by
  induction ps generalizing value result temp with
  | nil =>
    refine ⟨rfl, ?_⟩
    rintro st h
    cases h
    exact ⟨hv, hr⟩
  | cons p ps ih =>
    rw [powWords, BigIntegerCpp.powWords]
    obtain ⟨q1, q2⟩ := powBits_eq hm 32 p (temp := temp) hv hr
    rw [q1]
    constructor
    · refine bind_congr_of_ok fun st hst => ?_
      obtain ⟨v, r, t⟩ := st
      exact (ih (q2 _ hst).1 (q2 _ hst).2).1
    · intro st h
      obtain ⟨⟨v, r, t⟩, e1, h⟩ := Res.bind_eq_ok h
      exact (ih (q2 _ e1).1 (q2 _ e1).2).2 _ h

theorem ofWord_length {N w : Nat} {b : BitsBuffer} (h : BitsBuffer.ofWord N w = .ok b) : b.length < 32 := by
  unfold BitsBuffer.ofWord at h
  obtain ⟨l, -, h⟩ := Res.bind_eq_ok h
  cases h
  dsimp only
  split_ifs <;> omega

theorem powCoreMod_eq {ms : List Nat} (hm : ms.length < 32) (p : Nat) {value : BitsBuffer} (hv : value.length < 32) :
    powCoreMod p ms value = BigIntegerCpp.powCoreMod p ms value := by
  unfold powCoreMod BigIntegerCpp.powCoreMod
  dsimp only
  refine bind_congr_of_ok fun t _ => bind_congr_of_ok fun r hr => ?_
  rw [if_pos (show ms.length < ReducerThreshold from hm), if_pos (show ms.length < ReducerThreshold from hm),
    powLoop_eq hm p hv (ofWord_length hr)]

theorem powCoreModWords_eq {ms : List Nat} (hm : ms.length < 32) (ps : List Nat) {value : BitsBuffer} (hv : value.length < 32) :
    powCoreModWords ps ms value = BigIntegerCpp.powCoreModWords ps ms value := by
  unfold powCoreModWords BigIntegerCpp.powCoreModWords
  dsimp only
  refine bind_congr_of_ok fun t _ => bind_congr_of_ok fun r hr => bind_congr_of_ok fun last _ => ?_
  obtain ⟨q1, q2⟩ := powWords_eq hm ps.dropLast (temp := t) hv (ofWord_length hr)
  rw [if_pos (show ms.length < ReducerThreshold from hm), if_pos (show ms.length < ReducerThreshold from hm), q1]
  refine bind_congr_of_ok fun st hst => ?_
  obtain ⟨v, r, t⟩ := st
  dsimp only
  rw [powLoop_eq hm last (q2 _ hst).1 (q2 _ hst).2]

/-- What both `mod_pow`s do before and after the modular power proper, for a modulus of several words. -/
theorem modPow_large {a e m : BigInt} {x z : Int} {n : Nat} (ha : a.Denotes x) (he : e.Denotes n) (hm : m.Denotes z)
    (hmb : m.bits ≠ []) (hla : a.bits.length < 2147483648) (hlm : m.bits.length + m.bits.length < 2147483648) :
    ∃ b, Buf (m.bits.length + m.bits.length) b (BigInt.modPowValue a m x z) ∧ BigInt.modPowValue a m x z < 𝔹 ^ m.bits.length ∧
      a.modPow e m = (do
        let bits ← (if e.bits = [] then BigIntegerCpp.powCoreMod n m.bits b else BigIntegerCpp.powCoreModWords e.bits m.bits b)
        ofMagnitude bits (decide (x < 0) && decide (n % 2 ≠ 0))) ∧
      modPow a e m = (do
        let bits ← (if e.bits = [] then powCoreMod n m.bits b else powCoreModWords e.bits m.bits b)
        ofMagnitude bits (decide (x < 0) && decide (n % 2 ≠ 0))) := by
  have hes : ¬ e.sign < 0 := fun h => by have := he.sign_neg.1 h; omega
  have hlen : 1 ≤ m.bits.length := List.length_pos_iff.2 hmb
  rcases hm.shape with ⟨rfl, hz1, hz2⟩ | ⟨s, ms, rfl, hs, hne, hwm, htm, hvm, rfl⟩
  · exact absurd rfl hmb
  dsimp only at *
  have hab := natAbs_unit_mul hs (val ms)
  obtain ⟨b, e1, b1, b2⟩ : ∃ b, (if a.bits = [] then do
          let s ← cabs a.sign
          let size ← sizeInt (ms.length + ms.length)
          BitsBuffer.ofWord size s
        else modPowBase a.bits ms) = .ok b ∧
      Buf (ms.length + ms.length) b (BigInt.modPowValue a ⟨s, ms⟩ x (s * (val ms : Int))) ∧
      BigInt.modPowValue a ⟨s, ms⟩ x (s * (val ms : Int)) < 𝔹 ^ ms.length := by
    unfold BigInt.modPowValue
    rw [hab]
    rcases ha.shape with ⟨rfl, k1, k2⟩ | ⟨t, ws, rfl, ht, hne', hw, htw, hv, rfl⟩
    · rw [if_pos rfl, cabs_ok (by dsimp only; omega), Res.ok_bind, sizeInt_ok hlm, Res.ok_bind, if_neg (by simp)]
      obtain ⟨b, k3, k4⟩ := BitsBuffer.ofWord_spec (N := ms.length + ms.length) (w := x.natAbs) (by omega) (by omega)
      refine ⟨b, k3, k4, ?_⟩
      calc x.natAbs < 𝔹 ^ 1 := by rw [pow_one]; omega
        _ ≤ 𝔹 ^ ms.length := Nat.pow_le_pow_right (by decide) hlen
    · obtain ⟨b, k3, k4⟩ := modPowBase_spec hw hwm hne htm hla hlm
      rw [if_neg hne', natAbs_unit_mul ht]
      refine ⟨b, k3, k4, ?_⟩
      dsimp only
      split_ifs with h
      · exact lt_trans (Nat.mod_lt _ (by omega)) (val_lt hwm)
      · exact lt_of_lt_of_le (val_lt hw) (Nat.pow_le_pow_right (by decide) (by omega))
  refine ⟨b, b1, b2, ?_, ?_⟩
  · unfold BigInt.modPow
    rw [if_neg hes, ha.assertValid, Res.ok_bind, he.assertValid, Res.ok_bind, hm.assertValid, Res.ok_bind,
      BigInt.isEven_spec he, Res.ok_bind]
    dsimp only
    rw [BigInt.modPow_negate ha, if_neg hne, e1, Res.ok_bind]
    rcases he.shape with ⟨rfl, k1, k2⟩ | ⟨t, ws, rfl, ht, hne', -⟩
    · simp only [if_true]
      rw [cabs_ok (by omega), Res.ok_bind]
      simp
    · simp only [hne', if_false]
  · unfold modPow
    rw [if_neg hes, ha.assertValid, Res.ok_bind, he.assertValid, Res.ok_bind, hm.assertValid, Res.ok_bind,
      BigInt.isEven_spec he, Res.ok_bind]
    dsimp only
    rw [BigInt.modPow_negate ha, if_neg hne, e1, Res.ok_bind]
    rcases he.shape with ⟨rfl, k1, k2⟩ | ⟨t, ws, rfl, ht, hne', -⟩
    · simp only [if_true]
      rw [cabs_ok (by omega), Res.ok_bind]
      simp
    · simp only [hne', if_false]

theorem modPow_eq {a e m : BigInt} {x y z : Int} (ha : a.Denotes x) (he : e.Denotes y) (hm : m.Denotes z)
    (h32 : m.bits.length < 32) (hla : a.bits.length < 2147483648) : modPow a e m = a.modPow e m := by
  by_cases hy : y < 0
  · have : e.sign < 0 := he.sign_neg.2 hy
    rw [modPow, BigInt.modPow, if_pos this, if_pos this]
  by_cases hmb : m.bits = []
  · unfold modPow BigInt.modPow
    simp only [hmb, if_true]
  obtain ⟨n, rfl⟩ := Int.eq_ofNat_of_zero_le (not_lt.1 hy)
  obtain ⟨b, b1, b2, e1, e2⟩ := modPow_large ha he hm hmb hla (by omega)
  have hb : b.length < 32 := by
    have := b1.len_le b2
    omega
  rw [e1, e2, powCoreMod_eq h32 n hb, powCoreModWords_eq h32 e.bits hb]

/-! ### the reducer -/

theorem divMul_eq {left right : List Nat} {nl nr size k : Nat} (h : nl - k < 32 ∨ nr < 32) :
    divMul left nl right nr size k = FastReducer.divMul left nl right nr size k := by
  unfold divMul FastReducer.divMul
  dsimp only
  by_cases hlt : nl - k < nr
  · rw [if_pos hlt, if_pos hlt, multiplyMem_eq (by omega)]
  · rw [if_neg hlt, if_neg hlt, multiplyMem_eq (by omega)]

theorem divMul_ub {left right : List Nat} (hl : WordsOk left) (hr : WordsOk right) {nl nr size k : Nat}
    (h1 : nl ≤ left.length) (h2 : nr ≤ right.length) (h3 : 32 ≤ nl - k) (h4 : 32 ≤ nr) :
    ∃ u, divMul left nl right nr size k = .ub u := by
  have hld : nl - k ≤ (left.drop k).length := by rw [List.length_drop]; omega
  unfold divMul
  dsimp only
  rw [if_pos (by omega)]
  by_cases hs : nl - k + nr ≤ size
  · by_cases hlt : nl - k < nr
    · rw [if_pos hlt, Nat.add_comm (nl - k), multiplyMem_ub hr (hl.drop k) h2 hld (by omega) (by omega) h3]
      exact ⟨_, rfl⟩
    · rw [if_neg hlt, multiplyMem_ub (hl.drop k) hr hld h2 (by omega) hs h4]
      exact ⟨_, rfl⟩
  · have : slice (List.replicate size 0) 0 (nl - k + nr) = (.ub .outOfBounds : Res (List Nat)) := by
      unfold slice
      rw [if_neg (by rw [List.length_replicate]; omega)]
    unfold multiplyMem
    by_cases hlt : nl - k < nr
    · rw [if_pos hlt, slice_prefix h2, slice_prefix hld, this]
      exact ⟨_, rfl⟩
    · rw [if_neg hlt, slice_prefix h2, slice_prefix hld, this]
      exact ⟨_, rfl⟩

theorem subtractSelf_nil {left : List Nat} {n : Nat} (hn : n ≤ left.length) : subtractSelf left [] n 0 = .ok left := by
  cases left with
  | nil =>
    have : n = 0 := by simpa using hn
    subst this
    rfl
  | cons x xs =>
    rw [subtractSelf, slice_prefix hn, Res.ok_bind]
    have : ∀ l, carryLoop true l 0 = .ok (l, 0) := by
      intro l
      cases l with
      | nil => rfl
      | cons y ys => rw [carryLoop, if_pos ⟨rfl, rfl⟩]
    rw [this, Res.ok_bind]
    dsimp only
    rw [List.take_append_drop]

theorem subtractSelf_ub {left right : List Nat} {n : Nat} (hl : left ≠ []) (hr : right ≠ []) :
    subtractSelf left right n 0 = .ub .badShift := by
  cases left with
  | nil => exact absurd rfl hl
  | cons x xs =>
    cases right with
    | nil => exact absurd rfl hr
    | cons y ys =>
      rw [subtractSelf, shr_32]
      rfl

section fast
variable {ms : List Nat} {fr : FastReducer}

/-- A value below the modulus is left alone; any other makes the reducer undefined. -/
theorem reduceFast_spec (hw : WordsOk ms) (hne : ms ≠ []) (htop : ms.getLast? ≠ some 0) (h32 : 32 ≤ ms.length)
    (hfr : fr.Ok ms) {b : BitsBuffer} {x : Nat} (hb : Buf (ms.length + ms.length) b x) :
    (x < val ms → reduceFast b fr = .ok b) ∧ (val ms ≤ x → ∃ u, reduceFast b fr = .ub u) := by
  have hmlo := val_ge_of_top hne htop
  have hmhi := val_lt hw
  have hm : 0 < val ms := lt_of_lt_of_le (by positivity) hmlo
  have hbits : b.bits.length = ms.length + ms.length := hb.size
  have hwl : WLen b.length x := by rw [hb.len, ← hb.value]; exact wlen_trimLen hb.words
  have hbl := hb.len_le_size
  have hmu : ms.length + 1 ≤ trimLen fr.mu := by
    by_contra hc
    have h1 := (wlen_trimLen hfr.words).1
    have h2 : 𝔹 ^ trimLen fr.mu ≤ 𝔹 ^ ms.length := Nat.pow_le_pow_right (by decide) (by omega)
    have h3 : 𝔹 ^ ms.length ≤ val fr.mu := by
      rw [hfr.mu, Nat.le_div_iff_mul_le hm, Nat.pow_add]
      exact Nat.mul_le_mul_left _ hmhi.le
    omega
  have hshort : b.length < ms.length → x < val ms := by
    intro hs
    rw [← hb.val_take]
    exact BigInt.val_lt_of_length (hb.words.take _) hne htop (by rw [List.length_take_of_le (by omega)]; exact hs)
  unfold reduceFast fastReduce
  rw [hfr.modulus]
  by_cases hs : b.length < ms.length
  · have := hshort hs
    rw [if_pos hs, Res.ok_bind]
    exact ⟨fun _ => rfl, fun h => by omega⟩
  rw [if_neg hs]
  dsimp only
  have hmut : fr.muLength ≤ fr.mu.length := by rw [hfr.muLength]; exact trimLen_le _
  by_cases hc : val ms ≠ 𝔹 ^ (ms.length - 1) ∨ x < 𝔹 ^ (ms.length + ms.length - 1)
  · obtain ⟨q1, q2, e1, a1, e2, b1, b2, b3, b4, b5⟩ := FastReducer.reduce_parts hw hne htop hfr (le_refl _) hb hc
    constructor
    · intro hx
      have hq2 : val q2 = 0 := by
        rw [Nat.mod_eq_of_lt hx, Nat.mod_eq_of_lt (by omega)] at b5
        omega
      have hq1 : trimLen q1 ≤ ms.length + 1 := by
        by_contra hcon
        have hq : q1.length ≤ ms.length * 2 + 2 := by omega
        have w1 : WordsOk q1 := by
          obtain ⟨o, o1, o2, o3, -⟩ := FastReducer.divMul_spec hb.words hfr.words (nl := b.length) (nr := fr.muLength)
            (size := ms.length * 2 + 2) (k := ms.length - 1) (by omega) hmut (fun _ => by
              have := hb.len_le (k := ms.length) (lt_trans hx hmhi)
              have h6 : trimLen fr.mu ≤ ms.length + 2 := by
                refine trimLen_le_of_val ?_
                rw [hfr.mu, Nat.div_lt_iff_lt_mul hm]
                have hbp : 𝔹 ^ (ms.length + ms.length) = 𝔹 ^ (ms.length - 1) * 𝔹 ^ (ms.length + 1) := by
                  rw [← Nat.pow_add]; congr 1; omega
                rw [hbp]
                calc 𝔹 ^ (ms.length - 1) * 𝔹 ^ (ms.length + 1) < 𝔹 ^ (ms.length - 1) * 𝔹 ^ (ms.length + 2) :=
                      Nat.mul_lt_mul_of_pos_left (Nat.pow_lt_pow_right (by decide) (by omega)) (by positivity)
                  _ ≤ val ms * 𝔹 ^ (ms.length + 2) := Nat.mul_le_mul_right _ hmlo
                  _ = 𝔹 ^ (ms.length + 2) * val ms := by ring
              rw [hfr.muLength]
              omega)
          rw [e1] at o1
          cases o1
          exact o3
        obtain ⟨o, o1, o2, o3, o4⟩ := FastReducer.divMul_spec w1 hw (nl := trimLen q1) (nr := ms.length)
          (size := ms.length * 2 + 1) (k := ms.length + 1) (trimLen_le _) (le_refl _) (fun _ => by
            have := trimLen_le q1
            omega)
        rw [e2] at o1
        cases o1
        rw [val_take_trimLen, hq2, List.take_length] at o4
        have h7 := (wlen_trimLen w1).2.resolve_left (by omega)
        have h8 : 𝔹 ^ (ms.length + 1) ≤ val q1 := le_trans (Nat.pow_le_pow_right (by decide) (by omega)) h7
        have h9 : 0 < val q1 / 𝔹 ^ (ms.length + 1) := Nat.div_pos h8 (by positivity)
        have := Nat.mul_pos h9 hm
        omega
      have hxl := hb.len_le (k := ms.length) (lt_trans hx hmhi)
      have hbn : b.length = ms.length := by omega
      have ht2 : trimLen q2 = 0 := trimLen_eq_zero.2 hq2
      rw [divMul_eq (.inl (by omega)), e1, Res.ok_bind]
      dsimp only
      rw [divMul_eq (.inl (by omega)), e2, Res.ok_bind]
      dsimp only
      unfold subMod
      dsimp only
      rw [ht2, if_neg (by omega), if_neg (by omega), slice_prefix (by omega), Res.ok_bind, List.take_zero,
        subtractSelf_nil (by omega), Res.ok_bind]
      have hact : actualLength b.bits b.length = .ok b.length := by
        rw [actualLength_ok (by omega) (by rw [hb.len]), hb.len]
      rw [hact, Res.ok_bind, subModLoop, hb.slice, Res.ok_bind]
      have hcmp : compareWords (b.bits.take b.length) ms = -1 := by
        rw [compareWords_same_length (hb.words.take _) hw (by rw [List.length_take_of_le (by omega)]; exact hbn), hb.val_take, if_pos hx]
      rw [hcmp, if_neg (by decide), Res.ok_bind]
    · intro hx
      by_cases c1 : b.length - (ms.length - 1) < 32
      · rw [divMul_eq (.inl c1), e1, Res.ok_bind]
        dsimp only
        have w1 : WordsOk q1 := by
          by_cases hd : b.length > ms.length - 1
          · obtain ⟨o, o1, o2, o3, -⟩ := FastReducer.divMul_spec hb.words hfr.words (nl := b.length) (nr := fr.muLength)
              (size := ms.length * 2 + 2) (k := ms.length - 1) (by omega) hmut (fun _ => by
                by_contra hcon
                have : FastReducer.divMul b.bits b.length fr.mu fr.muLength (ms.length * 2 + 2) (ms.length - 1) = .ub .outOfBounds := by
                  have hsl : slice (List.replicate (ms.length * 2 + 2) 0) 0 (b.length - (ms.length - 1) + fr.muLength) =
                      (.ub .outOfBounds : Res (List Nat)) := by
                    unfold slice
                    rw [if_neg (by rw [List.length_replicate]; omega)]
                  unfold FastReducer.divMul
                  dsimp only
                  rw [if_pos hd, hfr.muLength, if_pos (by omega)]
                  unfold BitsBuffer.multiplyMem
                  rw [← hfr.muLength, slice_prefix hmut, Res.ok_bind, slice_prefix (by rw [List.length_drop]; omega), Res.ok_bind, hsl]
                  rfl
                rw [this] at e1
                cases e1)
            rw [e1] at o1
            cases o1
            exact o3
          · omega
        by_cases c2 : trimLen q1 - (ms.length + 1) < 32
        · rw [divMul_eq (.inl c2), e2, Res.ok_bind]
          dsimp only
          unfold subMod
          dsimp only
          have hsl : (if trimLen q2 > ms.length + 1 then ms.length + 1 else trimLen q2) ≤ q2.length := by
            have := trimLen_le q2
            split_ifs <;> omega
          have hbne : b.bits ≠ [] := by
            intro h
            rw [h] at hbits
            simp at hbits
            omega
          rw [slice_prefix hsl, Res.ok_bind]
          by_cases ht2 : trimLen q2 = 0
          · rw [ht2, if_neg (show ¬ 0 > ms.length + 1 by omega), List.take_zero]
            have hq2 : val q2 = 0 := trimLen_eq_zero.1 ht2
            have hxb : x < 𝔹 ^ (ms.length + 1) := by
              rw [Nat.pow_succ]
              omega
            have hbn := hb.len_le hxb
            rw [if_neg (by omega), subtractSelf_nil (by omega), Res.ok_bind]
            have hact : actualLength b.bits b.length = .ok b.length := by
              rw [actualLength_ok (by omega) (by rw [hb.len]), hb.len]
            rw [hact, Res.ok_bind, subModLoop, hb.slice, Res.ok_bind]
            have htb : (b.bits.take b.length).getLast? ≠ some 0 := by
              rw [hb.len]; exact getLast_take_trimLen b.bits
            have hcmp : compareWords (b.bits.take b.length) ms ≥ 0 := by
              rw [compareWords_spec (hb.words.take _) hw htb htop, hb.val_take, if_neg (by omega)]
              split_ifs <;> decide
            rw [if_pos hcmp, subtractSelf_ub hbne hne]
            exact ⟨_, rfl⟩
          · rw [subtractSelf_ub hbne]
            · exact ⟨_, rfl⟩
            · intro h
              have : ((q2.take (if trimLen q2 > ms.length + 1 then ms.length + 1 else trimLen q2))).length = 0 := by rw [h]; rfl
              rw [List.length_take_of_le hsl] at this
              split_ifs at this
              exact ht2 this
        · obtain ⟨u, hu⟩ := divMul_ub (size := ms.length * 2 + 1) (k := ms.length + 1) w1 hw (trimLen_le q1) (le_refl _)
            (by omega) h32
          rw [hu]
          exact ⟨u, rfl⟩
      · obtain ⟨u, hu⟩ := divMul_ub (size := ms.length * 2 + 2) (k := ms.length - 1) hb.words hfr.words
          (show b.length ≤ b.bits.length by omega) hmut (by omega) (by rw [hfr.muLength]; omega)
        rw [hu]
        exact ⟨u, rfl⟩
  · rw [not_or, not_not, not_lt] at hc
    have hlen : ms.length + ms.length - 1 < b.length := by
      by_contra hcon
      have h1 := hwl.1
      have h2 : 𝔹 ^ b.length ≤ 𝔹 ^ (ms.length + ms.length - 1) := Nat.pow_le_pow_right (by decide) (by omega)
      omega
    constructor
    · intro hx
      have : 𝔹 ^ (ms.length - 1) ≤ 𝔹 ^ (ms.length + ms.length - 1) := Nat.pow_le_pow_right (by decide) (by omega)
      omega
    · intro _
      obtain ⟨u, hu⟩ := divMul_ub (size := ms.length * 2 + 2) (k := ms.length - 1) hb.words hfr.words
        (show b.length ≤ b.bits.length by omega) hmut (by omega) (by rw [hfr.muLength]; omega)
      rw [hu]
      exact ⟨u, rfl⟩

/-- Square-and-multiply with the reducer: right as long as nothing reaches the modulus and no two long factors meet. -/
theorem powLoop_fast (hw : WordsOk ms) (hne : ms ≠ []) (htop : ms.getLast? ≠ some 0) (h32 : 32 ≤ ms.length)
    (hfr : fr.Ok ms) (p : Nat) {value result temp : BitsBuffer} {v r : Nat} (hv : Buf (ms.length + ms.length) value v)
    (hr : Buf (ms.length + ms.length) result r) (ht : temp.bits = List.replicate (ms.length + ms.length) 0)
    (hvm : v < 𝔹 ^ ms.length) (hrm : r < val ms) (hrv : v ≤ 1 ∨ 1 ≤ r) :
    (r * v ^ p < val ms ∧ ¬ Bad (2 ^ 992) p v r →
      ∃ b, powLoop (fun b => reduceFast b fr) p value result temp = .ok b ∧ Buf (ms.length + ms.length) b (r * v ^ p)) ∧
    (¬ (r * v ^ p < val ms ∧ ¬ Bad (2 ^ 992) p v r) →
      ∃ u, powLoop (fun b => reduceFast b fr) p value result temp = .ub u) := by
  have hmhi := val_lt hw
  induction p using Nat.strongRecOn generalizing value result temp v r with
  | ind p ih =>
  rw [powLoop, Bad]
  by_cases h0 : p = 0
  · subst h0
    rw [dif_pos rfl, dif_pos rfl, pow_zero, mul_one]
    exact ⟨fun _ => ⟨_, rfl, hr⟩, fun h => (h ⟨hrm, id⟩).elim⟩
  rw [dif_neg h0, dif_neg h0]
  have hvl := hv.len_le hvm
  have hrl := hr.len_le (lt_trans hrm hmhi)
  by_cases c1 : p % 2 = 1 ∧ 2 ^ 992 ≤ r ∧ 2 ^ 992 ≤ v
  · refine ⟨fun h => (h.2 (.inl c1)).elim, fun _ => ⟨.badShift, ?_⟩⟩
    rw [if_pos c1.1, multiplySelf_ub hr hv ht (by omega) (buf_long hr c1.2.1) (buf_long hv c1.2.2)]
    rfl
  -- the power is at least `r * v` and at least `v * v`
  have hge1 : v = 0 ∨ r * v ≤ r * v ^ p := by
    rcases Nat.eq_zero_or_pos v with h | h
    · exact .inl h
    · exact .inr (Nat.mul_le_mul_left r (Nat.le_self_pow h0 v))
  by_cases c3 : p % 2 = 1 ∧ val ms ≤ r * v
  · have hvne : v ≠ 0 := by
      rintro rfl
      have := c3.2
      omega
    refine ⟨fun h => ?_, fun _ => ?_⟩
    · have := hge1.resolve_left hvne
      omega
    obtain ⟨a, t, e, k1, k2⟩ := BitsBuffer.multiplySelf_spec hr hv ht (by omega)
    obtain ⟨u, hu⟩ := (reduceFast_spec hw hne htop h32 hfr k1).2 c3.2
    refine ⟨u, ?_⟩
    rw [if_pos c3.1, multiplySelf_eq, e, Res.ok_bind]
    · dsimp only
      rw [hu]
      rfl
    · by_cases c : 2 ^ 992 ≤ r
      · exact .inr (buf_short hv fun h' => c1 ⟨c3.1, c, h'⟩)
      · exact .inl (buf_short hr c)
  obtain ⟨res, tmp, e1, b1, b2, b3⟩ : ∃ res tmp, (if p % 2 = 1 then (do
        let (r, t) ← multiplySelf result value temp
        let r ← (fun b => reduceFast b fr) r
        .ok (r, t) : Res (BitsBuffer × BitsBuffer))
      else .ok (result, temp)) = .ok (res, tmp) ∧ Buf (ms.length + ms.length) res (r * v ^ (p % 2)) ∧
        tmp.bits = List.replicate (ms.length + ms.length) 0 ∧ r * v ^ (p % 2) < val ms := by
    by_cases h : p % 2 = 1
    · obtain ⟨a, t, e, k1, k2⟩ := BitsBuffer.multiplySelf_spec hr hv ht (by omega)
      have hlt : r * v < val ms := not_le.1 fun h' => c3 ⟨h, h'⟩
      refine ⟨a, t, ?_, by rw [h, pow_one]; exact k1, k2, by rw [h, pow_one]; exact hlt⟩
      rw [if_pos h, multiplySelf_eq, e, Res.ok_bind]
      · dsimp only
        rw [(reduceFast_spec hw hne htop h32 hfr k1).1 hlt, Res.ok_bind]
      · by_cases c : 2 ^ 992 ≤ r
        · exact .inr (buf_short hv fun h' => c1 ⟨h, c, h'⟩)
        · exact .inl (buf_short hr c)
    · have h' : p % 2 = 0 := by omega
      exact ⟨result, temp, by rw [if_neg h], by rw [h']; simpa using hr, ht, by rw [h']; simpa using hrm⟩
  rw [e1, Res.ok_bind]
  dsimp only
  by_cases hp1 : p = 1
  · subst hp1
    rw [if_neg (by simp), Res.ok_bind]
    dsimp only
    rw [powLoop, dif_pos (by decide), Bad, dif_pos (by decide)]
    refine ⟨fun _ => ⟨_, rfl, by simpa using b1⟩, fun h => (h ⟨by simpa using b3, ?_⟩).elim⟩
    rintro (h | h | h)
    · exact c1 h
    · exact h.1 rfl
    · exact h
  rw [if_pos hp1]
  by_cases c2 : 2 ^ 992 ≤ v
  · refine ⟨fun h => (h.2 (.inr (.inl ⟨hp1, c2⟩))).elim, fun _ => ⟨.badShift, ?_⟩⟩
    rw [squareSelf_ub hv b2 (by omega) (buf_long hv c2)]
    rfl
  obtain ⟨a, t, e, k1, k2⟩ := BitsBuffer.squareSelf_spec hv b2 (by omega)
  rw [squareSelf_eq (buf_short hv c2), e, Res.ok_bind]
  dsimp only
  by_cases c4 : val ms ≤ v * v
  · obtain ⟨u, hu⟩ := (reduceFast_spec hw hne htop h32 hfr k1).2 c4
    refine ⟨fun h => ?_, fun _ => ⟨u, by rw [hu]; rfl⟩⟩
    have hv2 : ¬ v ≤ 1 := by
      intro hle
      have h1 : v * v ≤ 1 := le_trans (Nat.mul_le_mul hle hle) (le_refl _)
      have h2 : 𝔹 ^ (ms.length - 1) ≤ val ms := val_ge_of_top hne htop
      have h3 : 1 < 𝔹 ^ (ms.length - 1) := Nat.one_lt_pow (by omega) (by decide)
      omega
    have h5 : v * v ≤ v ^ p := by
      rw [← pow_two]
      exact Nat.pow_le_pow_right (by omega) (by omega)
    have h6 : 1 * v ^ p ≤ r * v ^ p := Nat.mul_le_mul_right _ (hrv.resolve_left hv2)
    omega
  rw [(reduceFast_spec hw hne htop h32 hfr k1).1 (by omega), Res.ok_bind, Res.ok_bind]
  dsimp only
  obtain ⟨i1, i2⟩ := ih (p / 2) (by omega) k1 b1 k2 (by omega) b3 (by
    rcases hrv with h | h
    · exact .inl (le_trans (Nat.mul_le_mul h h) (le_refl _))
    · rcases Nat.lt_or_ge 1 v with h' | h'
      · exact .inr (Nat.mul_pos h (by positivity))
      · exact .inl (le_trans (Nat.mul_le_mul h' h') (le_refl _)))
  have hsplit : r * v ^ (p % 2) * (v * v) ^ (p / 2) = r * v ^ p := by
    rw [pow_split v p, mul_comm ((v * v) ^ (p / 2)), ← mul_assoc]
  rw [hsplit] at i1 i2
  constructor
  · intro h
    exact i1 ⟨h.1, fun h' => h.2 (.inr (.inr h'))⟩
  · intro h
    refine i2 fun h' => h ⟨h'.1, ?_⟩
    rintro (h3 | h3 | h3)
    · exact c1 h3
    · exact c2 h3.2
    · exact h'.2 h3

/-- A full word of the exponent, for a base of 0 or 1. -/
theorem powBits_fast (hw : WordsOk ms) (hne : ms ≠ []) (htop : ms.getLast? ≠ some 0) (h32 : 32 ≤ ms.length) (hfr : fr.Ok ms)
    (h2 : 1 < val ms)
    (n : Nat) {p : Nat} {value result temp : BitsBuffer} {v r : Nat} (hv : Buf (ms.length + ms.length) value v)
    (hp : p < 2 ^ n)
    (hr : Buf (ms.length + ms.length) result r) (ht : temp.bits = List.replicate (ms.length + ms.length) 0)
    (hv1 : v ≤ 1) (hr1 : r ≤ 1) :
    ∃ value' result' temp', powBits (fun b => reduceFast b fr) n p (value, result, temp) = .ok (value', result', temp') ∧
      Buf (ms.length + ms.length) value' v ∧ Buf (ms.length + ms.length) result' (r * v ^ p) ∧
      temp'.bits = List.replicate (ms.length + ms.length) 0 := by
  have hvv : v * v = v := by interval_cases v <;> rfl
  have a2 : value.length ≤ 1 := hv.len_le (k := 1) (by omega)
  induction n generalizing p value result temp r with
  | zero =>
    have : p = 0 := by omega
    subst this
    exact ⟨value, result, temp, rfl, hv, by simpa using hr, ht⟩
  | succ n ih =>
    rw [powBits]
    have hle : ∀ k, r * v ^ k ≤ 1 := fun k => le_trans (nmul_le_right (npow_le_one hv1 k)) hr1
    obtain ⟨b, t, e1, k1, k2⟩ : ∃ b t, (if p % 2 = 1 then (do
          let (r, t) ← multiplySelf result value temp
          let r ← reduceFast r fr
          .ok (r, t) : Res (BitsBuffer × BitsBuffer))
        else .ok (result, temp)) = .ok (b, t) ∧ Buf (ms.length + ms.length) b (r * v ^ (p % 2)) ∧
          t.bits = List.replicate (ms.length + ms.length) 0 := by
      rcases Nat.mod_two_eq_zero_or_one p with hp | hp
      · rw [if_neg (by omega), hp]; exact ⟨result, temp, rfl, by simpa using hr, ht⟩
      · rw [if_pos hp, hp, pow_one]
        have a1 : result.length ≤ 1 := hr.len_le (k := 1) (by omega)
        obtain ⟨b, t, e, k1, k2⟩ := BitsBuffer.multiplySelf_spec hr hv ht (by omega)
        have := hle 1
        rw [pow_one] at this
        rw [multiplySelf_eq (.inl (by omega)), e, Res.ok_bind]; dsimp only
        rw [(reduceFast_spec hw hne htop h32 hfr k1).1 (by omega), Res.ok_bind]
        exact ⟨b, t, rfl, k1, k2⟩
    rw [e1, Res.ok_bind]
    dsimp only
    obtain ⟨c, t', e, k3, k4⟩ := BitsBuffer.squareSelf_spec hv k2 (by omega)
    rw [hvv] at k3
    rw [squareSelf_eq (by omega), e, Res.ok_bind]; dsimp only
    rw [(reduceFast_spec hw hne htop h32 hfr k3).1 (by omega), Res.ok_bind]
    obtain ⟨v', r', t'', e5, q1, q2, q3⟩ := ih (p := p / 2) k3 (by rw [Nat.pow_succ] at hp; omega) k1 k4 (hle _)
      (k3.len_le (k := 1) (by omega))
    refine ⟨v', r', t'', e5, q1, ?_, q3⟩
    have : r * v ^ p = r * v ^ (p % 2) * v ^ (p / 2) := by
      rw [pow_split v p, hvv]; ring
    rw [this]; exact q2

theorem powWords_fast (hw : WordsOk ms) (hne : ms ≠ []) (htop : ms.getLast? ≠ some 0) (h32 : 32 ≤ ms.length) (hfr : fr.Ok ms)
    (h2 : 1 < val ms)
    {ps : List Nat} (hps : WordsOk ps) {value result temp : BitsBuffer} {v r : Nat} (hv : Buf (ms.length + ms.length) value v)
    (hr : Buf (ms.length + ms.length) result r) (ht : temp.bits = List.replicate (ms.length + ms.length) 0)
    (hv1 : v ≤ 1) (hr1 : r ≤ 1) :
    ∃ value' result' temp', powWords (fun b => reduceFast b fr) ps (value, result, temp) = .ok (value', result', temp') ∧
      Buf (ms.length + ms.length) value' v ∧ Buf (ms.length + ms.length) result' (r * v ^ val ps) ∧
      temp'.bits = List.replicate (ms.length + ms.length) 0 := by
  induction ps generalizing value result temp r with
  | nil => exact ⟨value, result, temp, rfl, hv, by simpa using hr, ht⟩
  | cons p ps ih =>
    obtain ⟨hp, hps'⟩ := wordsOk_cons.1 hps
    obtain ⟨a, b, c, e, k1, k2, k3⟩ := powBits_fast hw hne htop h32 hfr h2 32 (p := p) hv (by omega) hr ht hv1 hr1
    rw [powWords, e, Res.ok_bind]
    obtain ⟨a', b', c', e', q1, q2, q3⟩ := ih hps' k1 k2 k3
      (le_trans (nmul_le_right (npow_le_one hv1 p)) hr1)
    refine ⟨a', b', c', e', q1, ?_, q3⟩
    have hv32 : v ^ 4294967296 = v := by interval_cases v <;> simp
    rw [val_cons, pow_add, pow_mul, hv32, ← mul_assoc]
    exact q2

/-- A full word of the exponent, for any other base: the squarings reach 32 words. -/
theorem powBits_ub (hw : WordsOk ms) (hne : ms ≠ []) (htop : ms.getLast? ≠ some 0) (h32 : 32 ≤ ms.length) (hfr : fr.Ok ms)
    (n : Nat) {p : Nat} {value result temp : BitsBuffer} {v r : Nat} (hv : Buf (ms.length + ms.length) value v)
    (hr : Buf (ms.length + ms.length) result r) (ht : temp.bits = List.replicate (ms.length + ms.length) 0)
    (hvm : v < 𝔹 ^ ms.length) (hrm : r < val ms) (hH : 2 ^ 992 ≤ v ^ 2 ^ n) :
    ∃ u, powBits (fun b => reduceFast b fr) (n + 1) p (value, result, temp) = .ub u := by
  have hmhi := val_lt hw
  induction n generalizing p value result temp v r with
  | zero =>
    rw [pow_zero, pow_one] at hH
    have hvl := hv.len_le hvm
    have hrl := hr.len_le (lt_trans hrm hmhi)
    rw [powBits]
    by_cases h : p % 2 = 1
    · rw [if_pos h]
      by_cases c : 2 ^ 992 ≤ r
      · rw [multiplySelf_ub hr hv ht (by omega) (buf_long hr c) (buf_long hv hH)]
        exact ⟨_, rfl⟩
      obtain ⟨a, t, e, k1, k2⟩ := BitsBuffer.multiplySelf_spec hr hv ht (by omega)
      rw [multiplySelf_eq (.inl (buf_short hr c)), e, Res.ok_bind]
      dsimp only
      rcases Nat.lt_or_ge (r * v) (val ms) with hlt | hge
      · rw [(reduceFast_spec hw hne htop h32 hfr k1).1 hlt, Res.ok_bind, Res.ok_bind]
        dsimp only
        rw [squareSelf_ub hv k2 (by omega) (buf_long hv hH)]
        exact ⟨_, rfl⟩
      · obtain ⟨u, hu⟩ := (reduceFast_spec hw hne htop h32 hfr k1).2 hge
        rw [hu]
        exact ⟨u, rfl⟩
    · rw [if_neg h, Res.ok_bind]
      dsimp only
      rw [squareSelf_ub hv ht (by omega) (buf_long hv hH)]
      exact ⟨_, rfl⟩
  | succ n ih =>
    have hvl := hv.len_le hvm
    have hrl := hr.len_le (lt_trans hrm hmhi)
    have hH' : 2 ^ 992 ≤ (v * v) ^ 2 ^ n := by
      rw [← pow_two, ← pow_mul, ← Nat.pow_succ']
      exact hH
    rw [powBits]
    -- the squaring and what follows
    have fin : ∀ (res tmp : BitsBuffer) (r' : Nat), Buf (ms.length + ms.length) res r' → r' < val ms →
        tmp.bits = List.replicate (ms.length + ms.length) 0 →
        ∃ u, (do
          let (value, temp) ← squareSelf value tmp
          let value ← (fun b => reduceFast b fr) value
          powBits (fun b => reduceFast b fr) (n + 1) (p / 2) (value, res, temp)) = .ub u := by
      intro res tmp r' b1 b3 b2
      by_cases c2 : 2 ^ 992 ≤ v
      · rw [squareSelf_ub hv b2 (by omega) (buf_long hv c2)]
        exact ⟨_, rfl⟩
      obtain ⟨a, t, e, k1, k2⟩ := BitsBuffer.squareSelf_spec hv b2 (by omega)
      rw [squareSelf_eq (buf_short hv c2), e, Res.ok_bind]
      dsimp only
      rcases Nat.lt_or_ge (v * v) (val ms) with hlt | hge
      · rw [(reduceFast_spec hw hne htop h32 hfr k1).1 hlt, Res.ok_bind]
        exact ih k1 b1 k2 (by omega) b3 hH'
      · obtain ⟨u, hu⟩ := (reduceFast_spec hw hne htop h32 hfr k1).2 hge
        rw [hu]
        exact ⟨u, rfl⟩
    by_cases h : p % 2 = 1
    · rw [if_pos h]
      by_cases c : 2 ^ 992 ≤ r ∧ 2 ^ 992 ≤ v
      · rw [multiplySelf_ub hr hv ht (by omega) (buf_long hr c.1) (buf_long hv c.2)]
        exact ⟨_, rfl⟩
      obtain ⟨a, t, e, k1, k2⟩ := BitsBuffer.multiplySelf_spec hr hv ht (by omega)
      rw [multiplySelf_eq, e, Res.ok_bind]
      · dsimp only
        rcases Nat.lt_or_ge (r * v) (val ms) with hlt | hge
        · rw [(reduceFast_spec hw hne htop h32 hfr k1).1 hlt, Res.ok_bind, Res.ok_bind]
          exact fin _ _ _ k1 hlt k2
        · obtain ⟨u, hu⟩ := (reduceFast_spec hw hne htop h32 hfr k1).2 hge
          rw [hu]
          exact ⟨u, rfl⟩
      · by_cases c' : 2 ^ 992 ≤ r
        · exact .inr (buf_short hv fun h' => c ⟨c', h'⟩)
        · exact .inl (buf_short hr c')
    · rw [if_neg h, Res.ok_bind]
      exact fin _ _ _ hr hrm ht

end fast

theorem powCoreMod_fast {value : BitsBuffer} {v : Nat} {ms : List Nat} (hw : WordsOk ms) (hne : ms ≠ [])
    (htop : ms.getLast? ≠ some 0) (h32 : 32 ≤ ms.length) (h2 : 1 < val ms) (hv : Buf (ms.length + ms.length) value v)
    (hl : ms.length + ms.length < 2147483647) (h1 : v < 𝔹 ^ ms.length) (p : Nat) :
    (v ^ p < val ms ∧ ¬ Bad (2 ^ 992) p v 1 →
      ∃ bits, powCoreMod p ms value = .ok bits ∧ bits.length = ms.length + ms.length ∧ WordsOk bits ∧ val bits = v ^ p) ∧
    (¬ (v ^ p < val ms ∧ ¬ Bad (2 ^ 992) p v 1) → ∃ u, powCoreMod p ms value = .ub u) := by
  obtain ⟨t, e2, k2⟩ := BitsBuffer.ofWord_zero (N := ms.length + ms.length) (by omega)
  obtain ⟨r, e3, k3⟩ := BitsBuffer.ofWord_spec (N := ms.length + ms.length) (w := 1) (by omega) (by decide)
  obtain ⟨fr, e5, k5⟩ := FastReducer.make_spec hw hne htop hl
  obtain ⟨i1, i2⟩ := powLoop_fast hw hne htop h32 k5 p hv k3 k2 h1 h2 (.inr (le_refl _))
  rw [one_mul] at i1 i2
  unfold powCoreMod
  dsimp only
  rw [hv.size, e2, Res.ok_bind, e3, Res.ok_bind, if_neg (show ¬ ms.length < ReducerThreshold from by unfold ReducerThreshold; omega),
    e5, Res.ok_bind]
  constructor
  · intro h
    obtain ⟨o, e4, k4⟩ := i1 h
    exact ⟨o.bits, by rw [e4, Res.ok_bind], k4.size, k4.words, k4.value⟩
  · intro h
    obtain ⟨u, hu⟩ := i2 h
    exact ⟨u, by rw [hu]; rfl⟩

theorem not_bad_small (p : Nat) {v r : Nat} (hv : v ≤ 1) (hr : r ≤ 1) : ¬ Bad (2 ^ 992) p v r := by
  have hH : (1 : Nat) < 2 ^ 992 := Nat.one_lt_two_pow (by decide)
  generalize (2 : Nat) ^ 992 = H at hH
  induction p using Nat.strongRecOn generalizing v r with
  | ind p ih =>
    rw [Bad]
    by_cases h0 : p = 0
    · rw [dif_pos h0]; exact id
    rw [dif_neg h0]
    have := ih (p / 2) (by omega) (v := v * v) (r := r * v ^ (p % 2)) (le_trans (Nat.mul_le_mul hv hv) (le_refl _))
      (le_trans (nmul_le_right (npow_le_one hv _)) hr)
    rintro (h | h | h)
    · omega
    · omega
    · exact this h

theorem powCoreModWords_fast {value : BitsBuffer} {v : Nat} {ms ps : List Nat} (hw : WordsOk ms) (hne : ms ≠ [])
    (htop : ms.getLast? ≠ some 0) (h32 : 32 ≤ ms.length) (h2 : 1 < val ms) (hv : Buf (ms.length + ms.length) value v)
    (hl : ms.length + ms.length < 2147483647) (h1 : v < 𝔹 ^ ms.length) (hp : WordsOk ps) (hpn : ps ≠ []) :
    (v ≤ 1 → ∃ bits, powCoreModWords ps ms value = .ok bits ∧ bits.length = ms.length + ms.length ∧ WordsOk bits ∧
      val bits = v ^ val ps) ∧
    (2 ≤ v → ∃ u, powCoreModWords ps ms value = .ub u) := by
  obtain ⟨t, e2, k2⟩ := BitsBuffer.ofWord_zero (N := ms.length + ms.length) (by omega)
  obtain ⟨r, e3, k3⟩ := BitsBuffer.ofWord_spec (N := ms.length + ms.length) (w := 1) (by omega) (by decide)
  obtain ⟨fr, e5, k5⟩ := FastReducer.make_spec hw hne htop hl
  obtain ⟨l, q, rfl⟩ : ∃ l q, ps = l ++ [q] := by
    rcases List.eq_nil_or_concat ps with h | ⟨l, q, h⟩
    · exact absurd h hpn
    · exact ⟨l, q, by rw [h, List.concat_eq_append]⟩
  have hidx : idx (l ++ [q]) ((l ++ [q]).length - 1) = .ok q := by
    rw [idx_getD (by simp)]
    simp
  unfold powCoreModWords
  dsimp only
  rw [hv.size, e2, Res.ok_bind, e3, Res.ok_bind, hidx, Res.ok_bind,
    if_neg (show ¬ ms.length < ReducerThreshold from by unfold ReducerThreshold; omega), e5, Res.ok_bind]
  constructor
  · intro hv1
    obtain ⟨a, b, c, e6, d1, d2, d3⟩ := powWords_fast hw hne htop h32 k5 h2 hp hv k3 k2 hv1 (le_refl _)
    rw [one_mul] at d2
    have hle : v ^ val (l ++ [q]) ≤ 1 := npow_le_one hv1 _
    have hle2 : v ^ val (l ++ [q]) * v ^ q ≤ 1 := le_trans (nmul_le_right (npow_le_one hv1 _)) hle
    obtain ⟨o, e4, k4⟩ := (powLoop_fast hw hne htop h32 k5 q d1 d2 d3
      (lt_of_le_of_lt hv1 (Nat.one_lt_pow (by omega) (by decide))) (by omega) (.inl hv1)).1 ⟨by omega, not_bad_small _ hv1 hle⟩
    have hfin : v ^ val (l ++ [q]) * v ^ q = v ^ val (l ++ [q]) := by
      rcases Nat.lt_or_ge v 1 with h | h
      · have : v = 0 := by omega
        subst this
        rcases Nat.eq_zero_or_pos q with hq | hq
        · subst hq; simp
        · rw [Nat.zero_pow hq, mul_zero, Nat.zero_pow]
          rw [val_append, val_singleton]
          have : 0 < 𝔹 ^ l.length * q := Nat.mul_pos (by positivity) hq
          omega
      · have : v = 1 := by omega
        subst this; simp
    refine ⟨o.bits, ?_, k4.size, k4.words, by rw [k4.value, hfin]⟩
    rw [e6, Res.ok_bind]
    dsimp only
    rw [e4, Res.ok_bind]
  · intro hv2
    obtain ⟨p0, ps0, hps0⟩ := List.exists_cons_of_ne_nil hpn
    have hH : 2 ^ 992 ≤ v ^ 2 ^ 31 :=
      le_trans (Nat.pow_le_pow_right (by decide) (by decide : 992 ≤ 2 ^ 31)) (Nat.pow_le_pow_left hv2 _)
    obtain ⟨u, hu⟩ := powBits_ub hw hne htop h32 k5 31 (p := p0) hv k3 k2 h1 h2 hH
    refine ⟨u, ?_⟩
    rw [hps0, powWords, hu]
    rfl

theorem modPow_fast {a e m : BigInt} {x z : Int} {n : Nat} (ha : a.Denotes x) (he : e.Denotes n) (hm : m.Denotes z)
    (h32 : 32 ≤ m.bits.length) (hla : a.bits.length < 2147483648) (hlm : m.bits.length + m.bits.length < 2147483647) :
    (BigInt.modPowValue a m x z ^ n < z.natAbs ∧ ¬ Bad (2 ^ 992) n (BigInt.modPowValue a m x z) 1 →
      Returns (modPow a e m) ((x ^ n).tmod z)) ∧
    (¬ (BigInt.modPowValue a m x z ^ n < z.natAbs ∧ ¬ Bad (2 ^ 992) n (BigInt.modPowValue a m x z) 1) →
      ∃ u, modPow a e m = .ub u) := by
  have hmb : m.bits ≠ [] := by rintro h; rw [h] at h32; simp at h32
  obtain ⟨b, b1, b2, -, b3⟩ := modPow_large ha he hm hmb hla (by omega)
  rw [b3, tmod_pow_natAbs]
  rcases hm.shape with ⟨rfl, hz1, hz2⟩ | ⟨s, ms, rfl, hs, hne, hwm, htm, hvm, rfl⟩
  · exact absurd rfl hmb
  have hpow : ∀ k, BigInt.modPowValue a ⟨s, ms⟩ x (s * (val ms : Int)) ^ k % val ms = x.natAbs ^ k % val ms := fun k => by
    have := BigInt.modPowValue_mod a ⟨s, ms⟩ x (s * (val ms : Int))
    rw [natAbs_unit_mul hs] at this
    rw [Nat.pow_mod, this, ← Nat.pow_mod]
  rw [natAbs_unit_mul hs]
  dsimp only at *
  generalize BigInt.modPowValue a ⟨s, ms⟩ x (s * (val ms : Int)) = v at *
  obtain ⟨i1, i2⟩ : (v ^ n < val ms ∧ ¬ Bad (2 ^ 992) n v 1 →
      ∃ bits, (if e.bits = [] then powCoreMod n ms b else powCoreModWords e.bits ms b) = .ok bits ∧
        bits.length = ms.length + ms.length ∧ WordsOk bits ∧ val bits = v ^ n) ∧
      (¬ (v ^ n < val ms ∧ ¬ Bad (2 ^ 992) n v 1) →
        ∃ u, (if e.bits = [] then powCoreMod n ms b else powCoreModWords e.bits ms b) = .ub u) := by
    by_cases hb : e.bits = []
    · rw [if_pos hb]
      exact powCoreMod_fast hwm hne htm h32 (by omega) b1 hlm b2 n
    · rw [if_neg hb]
      obtain ⟨w1, w2⟩ := he.nat_words hb
      obtain ⟨j1, j2⟩ := powCoreModWords_fast hwm hne htm h32 (by omega) b1 hlm b2 w2 hb
      rw [w1] at j1
      rcases Nat.lt_or_ge 1 v with hv | hv
      · have hn : 2 ^ 31 ≤ n := by
          by_contra hc
          exact hb (he.bits_nil.2 (by rw [abs_lt]; omega))
        have hn0 : n ≠ 0 := by omega
        have hbad : Bad (2 ^ 992) n v 1 := by
          rw [bad_one_iff (Nat.one_lt_two_pow (by decide)) (Nat.log2_self_le hn0) Nat.lt_log2_self]
          have hL : 31 ≤ n.log2 := (Nat.le_log2 hn0).2 hn
          refine ⟨by omega, .inl ?_⟩
          refine le_trans (Nat.pow_le_pow_left hv 992) (Nat.pow_le_pow_right (by omega) ?_)
          exact le_trans (by decide : 992 ≤ 2 ^ 30) (Nat.pow_le_pow_right (by decide) (by omega))
        exact ⟨fun h => (h.2 hbad).elim, fun _ => j2 hv⟩
      · refine ⟨fun _ => j1 hv, fun h => (h ⟨?_, not_bad_small _ hv (le_refl _)⟩).elim⟩
        have := npow_le_one hv n
        omega
  constructor
  · intro h
    obtain ⟨bits, e1, k1, k2, k3⟩ := i1 h
    rw [e1, Res.ok_bind]
    refine returns_ofMagnitude k2 (by omega) ?_
    rw [k3, ← hpow, Nat.mod_eq_of_lt h.1]
  · intro h
    obtain ⟨u, hu⟩ := i2 h
    exact ⟨u, by rw [hu]; rfl⟩

end BigIntegerCpp.Long32
