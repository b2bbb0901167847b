import Verif.StackMachineSpec
import Verif.Lemmas.Program
import Verif.Lemmas.Convert
import Verif.Props.Sizes
import Verif.Props.Pow
/-
Helper lemmas for Props/StackMachine.lean.
-/
set_option linter.unusedSectionVars false
namespace BigIntegerCpp
variable [Cfg]

omit [Cfg] in
theorem word256_iff {z : Int} : Word256 z ↔ width z ≤ 255 := width_le.symm

omit [Cfg] in
theorem inRange_of_width {z : Int} (h : width z ≤ 100000) : InRange z := by
  have h1 := abs_le_width z
  have h2 : (2 : Int) ^ width z = ((2 ^ width z : Nat) : Int) := by push_cast; rfl
  have h3 : 2 ^ width z < 2 ^ (32 * (2 ^ 26 - 1)) :=
    Nat.pow_lt_pow_right (by decide) (lt_of_le_of_lt h (by decide))
  unfold InRange
  rw [h2, Int.abs_eq_natAbs] at h1
  exact lt_of_le_of_lt (Int.ofNat_le.1 h1) h3

omit [Cfg] in
theorem Word256.inRange {z : Int} (h : Word256 z) : InRange z :=
  inRange_of_width ((word256_iff.1 h).trans (by decide))

theorem Word256.length {b : BigInt} {z : Int} (h : Word256 z) (hb : b.Denotes z) : b.bits.length ≤ 67108863 :=
  h.inRange.length hb

namespace MOp

/-- What the library did is what the integers say, and all integers are of 32 bytes. -/
def Agrees (r : Res (Option (List BigInt))) : Option (List Int) → Prop
  | some zs => ∃ st, r = .ok (some st) ∧ List.Forall₂ BigInt.Denotes st zs ∧ ∀ z ∈ zs, Word256 z
  | none => r = .ok none ∨ ∃ e, r = .throw e

theorem byteCount_le {b : BigInt} {z : Int} (hb : b.Denotes z) (hz : InRange z) :
    ∃ n, b.byteCount false = .ok n ∧ (n ≤ 32 ↔ Word256 z) := by
  have hl := hz.length hb
  obtain ⟨m, h1, h2, -⟩ := C72_byte_count b z hb (by omega)
  refine ⟨_, h2, ?_⟩
  rw [bitLength_width hb (by omega)] at h1
  obtain rfl := Res.ok.inj h1
  rw [word256_iff]
  omega

theorem limited_ok {r : Res BigInt} {z : Int} {st : List BigInt} {zs : List Int} (h : Returns r z) (hz : width z ≤ 100000)
    (hs : List.Forall₂ BigInt.Denotes st zs) (hw : ∀ z ∈ zs, Word256 z) : Agrees (limited r st) (fit z zs) := by
  obtain ⟨b, rfl, hb⟩ := h
  obtain ⟨n, h1, h2⟩ := byteCount_le hb (inRange_of_width hz)
  unfold limited fit
  rw [Res.ok_bind, h1, Res.ok_bind]
  by_cases h3 : Word256 z
  · rw [if_pos (h2.2 h3), if_pos h3]
    exact ⟨_, rfl, .cons hb hs, by simpa using ⟨h3, hw⟩⟩
  · rw [if_neg (fun h => h3 (h2.1 h)), if_neg h3]
    exact .inl rfl

theorem limited_word {r : Res BigInt} {z : Int} {st : List BigInt} {zs : List Int} (h : Returns r z) (hz : Word256 z)
    (hs : List.Forall₂ BigInt.Denotes st zs) (hw : ∀ z ∈ zs, Word256 z) : Agrees (limited r st) (some (z :: zs)) := by
  have := limited_ok h ((word256_iff.1 hz).trans (by decide)) hs hw
  unfold fit at this
  rwa [if_pos hz] at this

theorem limited_throw {r : Res BigInt} {e : Exn} {st : List BigInt} (h : r = .throw e) : Agrees (limited r st) none := by
  subst h
  exact .inr ⟨e, rfl⟩

theorem counted_eq {n : BigInt} {k : Int} (hn : n.Denotes k) (f : Int → Res BigInt) (st : List BigInt) :
    (k = -2 ^ 31 → counted n f st = .ub .signedOverflow) ∧
    (0 ≤ k → k ≤ 256 → counted n f st = limited (f k) st) ∧
    (k ≠ -2 ^ 31 → ¬ (0 ≤ k ∧ k ≤ 256) → Agrees (counted n f st) none) := by
  unfold counted count
  rw [BigInt.toInt32_spec hn]
  refine ⟨fun h => ?_, fun h1 h2 => ?_, fun h1 h2 => ?_⟩
  · rw [if_pos (by omega)]; rfl
  · rw [if_neg (by omega), if_pos (by omega), Res.ok_bind, Res.ok_bind, if_pos ⟨h1, h2⟩]
  · rw [if_neg (by omega)]
    by_cases h3 : -2147483648 ≤ k ∧ k < 2147483648
    · rw [if_pos h3, Res.ok_bind, Res.ok_bind, if_neg h2]
      exact .inl rfl
    · rw [if_neg h3]
      exact .inr ⟨_, rfl⟩

theorem truth_ok (b : Bool) {st : List BigInt} {zs : List Int} (hs : List.Forall₂ BigInt.Denotes st zs) (hw : ∀ z ∈ zs, Word256 z) :
    Agrees (truth b st) (some ((if b then 1 else 0) :: zs)) := by
  unfold truth
  apply limited_word (ofInt32_spec (by cases b <;> decide) (by cases b <;> decide)) _ hs hw
  cases b <;> decide

theorem width_bin {op : BinOp} {x y z : Int} (hx : Word256 x) (hy : Word256 y) (h : op.meaning x y = .ok z) : width z ≤ 100000 := by
  rw [word256_iff] at hx hy
  cases op <;> unfold BinOp.meaning at h <;> dsimp only at h
  · obtain rfl := Except.ok.inj h
    have := width_add x y; omega
  · obtain rfl := Except.ok.inj h
    have := width_sub x y; omega
  · obtain rfl := Except.ok.inj h
    by_cases h1 : x = 0
    · subst h1; rw [zero_mul]; omega
    by_cases h2 : y = 0
    · subst h2; rw [mul_zero]; omega
    have := width_mul x y h1 h2; omega
  · by_cases h0 : y = 0
    · rw [if_pos h0] at h; cases h
    rw [if_neg h0] at h
    obtain rfl := Except.ok.inj h
    have := width_tdiv x y h0; omega
  · by_cases h0 : y = 0
    · rw [if_pos h0] at h; cases h
    rw [if_neg h0] at h
    obtain rfl := Except.ok.inj h
    have := width_tmod x y h0; omega
  · obtain rfl := Except.ok.inj h
    have := width_bitwise (z := Int.land x y) (f := and) (x := x) (y := y)
      (fun k => by rw [← ibit_testBit, ← ibit_testBit, ← ibit_testBit, Int.testBit_land])
    omega
  · obtain rfl := Except.ok.inj h
    have := width_bitwise (z := Int.lor x y) (f := or) (x := x) (y := y)
      (fun k => by rw [← ibit_testBit, ← ibit_testBit, ← ibit_testBit, Int.testBit_lor])
    omega
  · obtain rfl := Except.ok.inj h
    have := width_bitwise (z := Int.xor x y) (f := xor) (x := x) (y := y)
      (fun k => by rw [← ibit_testBit, ← ibit_testBit, ← ibit_testBit, Int.testBit_lxor])
    omega

theorem width_un {op : UnOp} {x : Int} (hx : Word256 x) : width (op.meaning x) ≤ 100000 := by
  have h1 := word256_iff.1 hx
  have h2 := (width_neg x).1
  cases op <;> unfold UnOp.meaning <;> dsimp only
  · omega
  · omega
  · omega
  · rw [width_not]; omega
  · rcases abs_choice x with h | h <;> rw [h] <;> omega

theorem word_tmod {x m : Int} (hm : m ≠ 0) (h : Word256 m) : Word256 (x.tmod m) :=
  word256_iff.2 ((width_tmod x m hm).2.trans (word256_iff.1 h))

theorem word_of_small {z : Int} (h1 : -2 ^ 33 ≤ z) (h2 : z < 2 ^ 33) : Word256 z :=
  word256_iff.2 ((width_le.2 ⟨h1, h2⟩).trans (by decide))

theorem bytesOk_map (v : List (Fin 256)) : BytesOk (v.map Fin.val) := by
  intro w hw
  obtain ⟨d, -, rfl⟩ := List.mem_map.1 hw
  exact d.2

theorem word_push {v : List (Fin 256)} (h : v.length ≤ 32) : Word256 (bytesValue false false (v.map Fin.val)) := by
  rw [word256_iff]
  by_cases hv : v = []
  · subst hv; decide
  have h1 := signedVal_bounds (n := 8) (by decide) (ws := v.map Fin.val) (bytesOk_map v) (by simpa using hv)
  refine (width_le.2 h1).trans ?_
  rw [List.length_map]
  omega

theorem width_shl_le {x : Int} (hx : Word256 x) {n : Nat} (hn : n ≤ 256) : width (x * 2 ^ n) ≤ 100000 := by
  rw [word256_iff] at hx
  by_cases h : x = 0
  · subst h; rw [zero_mul]; omega
  · rw [width_shl x h]; omega

theorem width_pow_le {x : Int} (hx : Word256 x) {n : Nat} (hn : n ≤ 256) : width (x ^ n) ≤ 100000 := by
  rw [word256_iff] at hx
  by_cases h : x = 0
  · subst h
    by_cases h0 : n = 0
    · subst h0; decide
    · rw [zero_pow h0]; decide
  · have h1 := (width_pow x h n).1
    have h2 : n * width x ≤ 256 * 255 := Nat.mul_le_mul hn hx
    omega

theorem shr_ok {a : BigInt} {x : Int} (ha : a.Denotes x) (hx : Word256 x) {k : Int} (h0 : 0 ≤ k) (h1 : k ≤ 256)
    (hm : ¬ ShiftMisfires x k.toNat) : Returns (a.shr k) (x / 2 ^ k.toNat) := by
  have h := shr_in_range ha hx.inRange (n := k) ⟨by omega, by omega⟩ (fun _ => hm)
  unfold shiftInt at h
  by_cases hk : k = 0
  · subst hk; simpa using h
  · rw [if_neg (by omega), neg_neg] at h
    exact h

theorem shl_ok {a : BigInt} {x : Int} (ha : a.Denotes x) (hx : Word256 x) {k : Int} (h0 : 0 ≤ k) (h1 : k ≤ 256) :
    Returns (a.shl k) (x * 2 ^ k.toNat) := by
  have h := shl_in_range ha hx.inRange (n := k) ⟨by omega, by omega⟩ (fun h => by omega)
  unfold shiftInt at h
  rwa [if_pos h0] at h

theorem pow_ok {a : BigInt} {x : Int} (ha : a.Denotes x) (hx : Word256 x) {k : Int} (h0 : 0 ≤ k) (h1 : k ≤ 256) :
    Returns (a.pow k) (x ^ k.toNat) := by
  obtain ⟨n, rfl⟩ := Int.eq_ofNat_of_zero_le h0
  exact pow_in_range ha hx.inRange (by omega) (inRange_of_width (width_pow_le hx (by omega)))

theorem word_below_992 {z : Int} (h : Word256 z) : |z| < 2 ^ 992 := by
  refine lt_of_le_of_lt (abs_le_width z) (pow_lt_pow_right₀ (by decide) (lt_of_le_of_lt (word256_iff.1 h) (by decide)))

theorem rel_ok {a b : BigInt} {x y : Int} (ha : a.Denotes x) (hb : b.Denotes y) (hx : Word256 x) (hy : Word256 y) (op : Rel) :
    op.apply a b = .ok (decide (op.Holds x y)) := by
  have la := hx.length ha
  have lb := hy.length hb
  cases op
  · refine (BigInt.lt_spec ha hb (by omega) (by omega)).trans (congrArg Res.ok (decide_eq_decide.2 Iff.rfl))
  · refine (BigInt.le_spec ha hb (by omega) (by omega)).trans (congrArg Res.ok (decide_eq_decide.2 Iff.rfl))
  · refine (BigInt.gt_spec ha hb (by omega) (by omega)).trans (congrArg Res.ok (decide_eq_decide.2 Iff.rfl))
  · refine (BigInt.ge_spec ha hb (by omega) (by omega)).trans (congrArg Res.ok (decide_eq_decide.2 Iff.rfl))
  · refine (BigInt.equals_spec ha hb).trans (congrArg Res.ok (decide_eq_decide.2 Iff.rfl))
  · refine (BigInt.ne_spec ha hb).trans (congrArg Res.ok (decide_eq_decide.2 Iff.rfl))

theorem truth_decide (p : Prop) [Decidable p] {st : List BigInt} {zs : List Int} (hs : List.Forall₂ BigInt.Denotes st zs)
    (hw : ∀ z ∈ zs, Word256 z) : Agrees (truth (decide p) st) (some ((if p then 1 else 0) :: zs)) := by
  have := truth_ok (decide p) hs hw
  simpa only [decide_eq_true_eq] using this

/-- An instruction that does not trip does what it should. -/
theorem exec_ok (o : MOp) {st : List BigInt} {zs : List Int} (hs : List.Forall₂ BigInt.Denotes st zs) (hw : ∀ z ∈ zs, Word256 z)
    (hstrict : Cfg.strictShift = false) (ht : ¬ o.Trips zs) : Agrees (o.exec st) (o.meaning zs) := by
  have hnil : Agrees (.ok none) none := .inl rfl
  cases o with
  | push v =>
    dsimp only [exec, meaning]
    by_cases h : v.length ≤ 32
    · rw [if_pos h, if_pos h]
      have := C25_of_bytes (v.map Fin.val) (bytesOk_map v) (by rw [List.length_map]; omega) false false hstrict
      exact limited_word this (word_push h) hs hw
    · rw [if_neg h, if_neg h]
      exact hnil
  | dup =>
    cases hs with
    | nil => exact hnil
    | cons h1 hs => exact ⟨_, rfl, .cons h1 (.cons h1 hs), by simpa using hw⟩
  | drop =>
    cases hs with
    | nil => exact hnil
    | cons h1 hs => exact ⟨_, rfl, hs, fun z hz => hw z (List.mem_cons_of_mem _ hz)⟩
  | swap =>
    rcases hs with _ | ⟨h1, _ | ⟨h2, hs⟩⟩
    · exact hnil
    · exact hnil
    · exact ⟨_, rfl, .cons h2 (.cons h1 hs), by simp only [List.mem_cons, forall_eq_or_imp] at hw ⊢; tauto⟩
  | over =>
    rcases hs with _ | ⟨h1, _ | ⟨h2, hs⟩⟩
    · exact hnil
    · exact hnil
    · exact ⟨_, rfl, .cons h2 (.cons h1 (.cons h2 hs)), by simp only [List.mem_cons, forall_eq_or_imp] at hw ⊢; tauto⟩
  | rot =>
    rcases hs with _ | ⟨h1, _ | ⟨h2, _ | ⟨h3, hs⟩⟩⟩
    · exact hnil
    · exact hnil
    · exact hnil
    · exact ⟨_, rfl, .cons h3 (.cons h1 (.cons h2 hs)), by simp only [List.mem_cons, forall_eq_or_imp] at hw ⊢; tauto⟩
  | un op =>
    rcases hs with _ | ⟨h1, hs⟩
    · exact hnil
    · simp only [List.mem_cons, forall_eq_or_imp] at hw
      exact limited_ok (UnOp.apply_ok h1 hw.1.inRange) (width_un hw.1) hs hw.2
  | inc =>
    rcases hs with _ | ⟨h1, hs⟩
    · exact hnil
    · simp only [List.mem_cons, forall_eq_or_imp] at hw
      have hl := hw.1.length h1
      exact limited_ok (BigInt.add_spec h1 denotes_one (by omega) (by decide)) (by
        exact width_bin (op := .add) (y := 1) hw.1 (by decide) rfl) hs hw.2
  | dec =>
    rcases hs with _ | ⟨h1, hs⟩
    · exact hnil
    · simp only [List.mem_cons, forall_eq_or_imp] at hw
      have hl := hw.1.length h1
      exact limited_ok (BigInt.sub_spec h1 denotes_one (by omega) (by decide)) (by
        exact width_bin (op := .sub) (y := 1) hw.1 (by decide) rfl) hs hw.2
  | sign =>
    rcases hs with _ | @⟨b, z, _, _, h1, hs⟩
    · exact hnil
    · simp only [List.mem_cons, forall_eq_or_imp] at hw
      have hb : -1 ≤ z.sign ∧ z.sign ≤ 1 := by
        rcases Int.sign_trichotomy z with h | h | h <;> rw [h] <;> decide
      dsimp only [exec, meaning]
      rw [BigInt.signum_spec h1, Res.ok_bind]
      exact limited_word (ofInt32_spec (by omega) (by omega)) (word_of_small (by omega) (by omega)) hs hw.2
  | bin op =>
    rcases hs with _ | @⟨b, y, _, _, h1, _ | @⟨a, x, _, _, h2, hs⟩⟩
    · exact hnil
    · exact hnil
    · simp only [List.mem_cons, forall_eq_or_imp] at hw
      dsimp only [exec, meaning]
      cases h : op.meaning x y with
      | ok z => exact limited_ok (BinOp.apply_ok h2 h1 hw.2.1.inRange hw.1.inRange h) (width_bin hw.2.1 hw.1 h) hs hw.2.2
      | error e => exact limited_throw (BinOp.apply_throw h2 h1 hw.2.1.inRange h)
  | min =>
    rcases hs with _ | @⟨b, y, _, _, h1, _ | @⟨a, x, _, _, h2, hs⟩⟩
    · exact hnil
    · exact hnil
    · simp only [List.mem_cons, forall_eq_or_imp] at hw
      have l1 := hw.1.length h1
      have l2 := hw.2.1.length h2
      refine limited_word (BigInt.min_spec h2 h1 (by omega) (by omega)) ?_ hs hw.2.2
      rcases min_choice x y with h | h <;> rw [h]
      · exact hw.2.1
      · exact hw.1
  | max =>
    rcases hs with _ | @⟨b, y, _, _, h1, _ | @⟨a, x, _, _, h2, hs⟩⟩
    · exact hnil
    · exact hnil
    · simp only [List.mem_cons, forall_eq_or_imp] at hw
      have l1 := hw.1.length h1
      have l2 := hw.2.1.length h2
      refine limited_word (BigInt.max_spec h2 h1 (by omega) (by omega)) ?_ hs hw.2.2
      rcases max_choice x y with h | h <;> rw [h]
      · exact hw.2.1
      · exact hw.1
  | modMul =>
    rcases hs with _ | @⟨m, zm, _, _, h1, _ | @⟨b, y, _, _, h2, _ | @⟨a, x, _, _, h3, hs⟩⟩⟩
    · exact hnil
    · exact hnil
    · exact hnil
    · simp only [List.mem_cons, forall_eq_or_imp] at hw
      obtain ⟨c, hc, hcd⟩ := BinOp.apply_ok (op := .mul) h3 h2 hw.2.2.1.inRange hw.2.1.inRange rfl
      have hc' : a.mul b = .ok c := hc
      have hwid := inRange_of_width (width_bin (op := .mul) hw.2.2.1 hw.2.1 rfl)
      have hl := hwid.length hcd
      dsimp only [exec, meaning]
      rw [hc', Res.ok_bind]
      by_cases h0 : zm = 0
      · rw [if_pos h0]
        subst h0
        exact limited_throw (BigInt.rem_zero_spec hcd h1 (by omega))
      · rw [if_neg h0]
        exact limited_word (BigInt.rem_spec hcd h1 h0 (by omega)) (word_tmod h0 hw.1) hs hw.2.2.2
  | modPow =>
    rcases hs with _ | @⟨m, zm, _, _, h1, _ | @⟨e, n, _, _, h2, _ | @⟨a, x, _, _, h3, hs⟩⟩⟩
    · exact hnil
    · exact hnil
    · exact hnil
    · simp only [List.mem_cons, forall_eq_or_imp] at hw
      have l3 := hw.2.2.1.length h3
      have fa : a.Fits := by show a.bits.length < 2147483647; omega
      dsimp only [exec, meaning]
      dsimp only [Trips] at ht
      by_cases hn : n < 0
      · rw [if_pos (.inl hn)]
        exact limited_throw (C17_negative_exponent a e m n h2 hn)
      obtain ⟨k, rfl⟩ := Int.eq_ofNat_of_zero_le (show 0 ≤ n by omega)
      by_cases h0 : zm = 0
      · rw [if_pos (.inr h0)]
        subst h0
        refine limited_throw (C17_zero_modulus_partial a e m x k h3 h2 h1 fa ?_)
        by_contra hc
        push Not at hc
        exact ht ⟨by omega, .inr ⟨rfl, hc.1, by have := hc.2; omega⟩⟩
      · rw [if_neg (by omega)]
        exact limited_word (C16_mod_pow_partial a e m x zm k h3 h2 h1 fa h0 (word_below_992 hw.1)
          (fun h => ht ⟨by omega, .inl ⟨h0, h⟩⟩)) (word_tmod h0 hw.1) hs hw.2.2.2
  | pow =>
    rcases hs with _ | @⟨n, k, _, _, h1, _ | @⟨a, x, _, _, h2, hs⟩⟩
    · exact hnil
    · exact hnil
    · simp only [List.mem_cons, forall_eq_or_imp] at hw
      dsimp only [exec, meaning]
      dsimp only [Trips] at ht
      obtain ⟨-, c2, c3⟩ := counted_eq h1 a.pow _
      by_cases h : 0 ≤ k ∧ k ≤ 256
      · rw [if_pos h, c2 h.1 h.2]
        exact limited_ok (pow_ok h2 hw.2.1 h.1 h.2) (width_pow_le hw.2.1 (by omega)) hs hw.2.2
      · rw [if_neg h]
        exact c3 ht h
  | shl =>
    rcases hs with _ | @⟨n, k, _, _, h1, _ | @⟨a, x, _, _, h2, hs⟩⟩
    · exact hnil
    · exact hnil
    · simp only [List.mem_cons, forall_eq_or_imp] at hw
      dsimp only [exec, meaning]
      dsimp only [Trips] at ht
      obtain ⟨-, c2, c3⟩ := counted_eq h1 a.shl _
      by_cases h : 0 ≤ k ∧ k ≤ 256
      · rw [if_pos h, c2 h.1 h.2]
        exact limited_ok (shl_ok h2 hw.2.1 h.1 h.2) (width_shl_le hw.2.1 (by omega)) hs hw.2.2
      · rw [if_neg h]
        exact c3 ht h
  | shr =>
    rcases hs with _ | @⟨n, k, _, _, h1, _ | @⟨a, x, _, _, h2, hs⟩⟩
    · exact hnil
    · exact hnil
    · simp only [List.mem_cons, forall_eq_or_imp] at hw
      dsimp only [exec, meaning]
      dsimp only [Trips] at ht
      rw [not_or] at ht
      obtain ⟨-, c2, c3⟩ := counted_eq h1 a.shr _
      by_cases h : 0 ≤ k ∧ k ≤ 256
      · rw [if_pos h, c2 h.1 h.2]
        refine limited_word (shr_ok h2 hw.2.1 h.1 h.2 (fun hm => ht.2 ⟨h.1, h.2, hm⟩)) ?_ hs hw.2.2
        rw [word256_iff, width_shr]
        have := word256_iff.1 hw.2.1
        omega
      · rw [if_neg h]
        exact c3 ht.1 h
  | cmp op =>
    rcases hs with _ | ⟨h1, _ | ⟨h2, hs⟩⟩
    · exact hnil
    · exact hnil
    · simp only [List.mem_cons, forall_eq_or_imp] at hw
      dsimp only [exec, meaning]
      rw [rel_ok h2 h1 hw.2.1 hw.1, Res.ok_bind]
      exact truth_decide _ hs hw.2.2
  | within =>
    rcases hs with _ | @⟨b, zb, _, _, h1, _ | @⟨a, za, _, _, h2, _ | @⟨x, zx, _, _, h3, hs⟩⟩⟩
    · exact hnil
    · exact hnil
    · exact hnil
    · simp only [List.mem_cons, forall_eq_or_imp] at hw
      have e1 : a.le x = .ok (decide (za ≤ zx)) := rel_ok h2 h3 hw.2.1 hw.2.2.1 .le
      have e2 : x.lt b = .ok (decide (zx < zb)) := rel_ok h3 h1 hw.2.2.1 hw.1 .lt
      dsimp only [exec, meaning]
      rw [e1, Res.ok_bind, e2]
      by_cases h : za ≤ zx
      · have := truth_decide (zx < zb) hs hw.2.2.2
        simpa [h, Res.ok_bind] using this
      · have := truth_ok false hs hw.2.2.2
        simpa [h] using this
  | isZero =>
    rcases hs with _ | ⟨h1, hs⟩
    · exact hnil
    · simp only [List.mem_cons, forall_eq_or_imp] at hw
      dsimp only [exec, meaning]
      rw [BigInt.isZero_eq h1, Res.ok_bind]
      exact truth_decide _ hs hw.2

omit [Cfg] in
/-- The integers of a stack of objects. -/
theorem denotes_unique {st : List BigInt} {xs ys : List Int} (h1 : List.Forall₂ BigInt.Denotes st xs)
    (h2 : List.Forall₂ BigInt.Denotes st ys) : xs = ys := by
  induction h1 generalizing ys with
  | nil => cases h2; rfl
  | cons h _ ih =>
    rcases h2 with _ | ⟨h', h2⟩
    rw [ih h2, h.2.symm.trans h'.2]

theorem denotes_mem {st : List BigInt} {zs : List Int} (h : List.Forall₂ BigInt.Denotes st zs) {b : BigInt} (hb : b ∈ st) :
    ∃ x ∈ zs, b.Denotes x := by
  induction h with
  | nil => cases hb
  | cons h _ ih =>
    rcases List.mem_cons.1 hb with rfl | hb
    · exact ⟨_, List.mem_cons_self, h⟩
    · obtain ⟨x, h1, h2⟩ := ih hb
      exact ⟨x, List.mem_cons_of_mem _ h1, h2⟩

theorem objects_unique {st st' : List BigInt} {zs : List Int} (h1 : List.Forall₂ BigInt.Denotes st zs)
    (h2 : List.Forall₂ BigInt.Denotes st' zs) : st = st' := by
  induction h1 generalizing st' with
  | nil => cases h2; rfl
  | cons h _ ih =>
    rcases h2 with _ | ⟨h', h2⟩
    rw [ih h2, h.unique h']

theorem Agrees.does {r : Res (Option (List BigInt))} {o : Option (List Int)} (h : Agrees r o) : Does r o := by
  cases o with
  | none => exact h
  | some zs => obtain ⟨st, h1, h2, -⟩ := h; exact ⟨st, h1, h2⟩

theorem Agrees.unique {r : Res (Option (List BigInt))} {o o' : Option (List Int)} (h : Agrees r o) (h' : Does r o') : o = o' := by
  cases o with
  | none =>
    cases o' with
    | none => rfl
    | some zs =>
      obtain ⟨st, h1, -⟩ := h'
      rcases h with h | ⟨e, h⟩ <;> rw [h1] at h <;> cases h
  | some zs =>
    obtain ⟨st, h1, h2, -⟩ := h
    cases o' with
    | none => rcases h' with h | ⟨e, h⟩ <;> rw [h1] at h <;> cases h
    | some zs' =>
      obtain ⟨st', h3, h4⟩ := h'
      rw [h1] at h3
      cases h3
      rw [denotes_unique h2 h4]

/-- What an instruction that trips does. -/
theorem exec_trips (o : MOp) {st : List BigInt} {zs : List Int} (hs : List.Forall₂ BigInt.Denotes st zs) (hw : ∀ z ∈ zs, Word256 z)
    (ht : o.Trips zs) : (∃ u, (u = .signedOverflow ∨ u = .divByZero) ∧ o.actual zs = .ub u ∧ o.exec st = .ub u ∧ o.meaning zs = none) ∨
      ∃ r, o.actual zs = .ok (some r) ∧ Agrees (o.exec st) (some r) ∧ ∃ r', o.meaning zs = some r' ∧ r' ≠ r := by
  unfold actual
  rw [if_pos ht]
  cases o with
  | pow =>
    rcases hs with _ | @⟨n, k, _, _, h1, _ | @⟨a, x, _, _, h2, hs⟩⟩
    · exact ht.elim
    · exact ht.elim
    · dsimp only [exec, meaning, Trips] at ht ⊢
      left
      exact ⟨_, .inl rfl, rfl, (counted_eq h1 a.pow _).1 ht, if_neg (by omega)⟩
  | shl =>
    rcases hs with _ | @⟨n, k, _, _, h1, _ | @⟨a, x, _, _, h2, hs⟩⟩
    · exact ht.elim
    · exact ht.elim
    · dsimp only [exec, meaning, Trips] at ht ⊢
      left
      exact ⟨_, .inl rfl, rfl, (counted_eq h1 a.shl _).1 ht, if_neg (by omega)⟩
  | shr =>
    rcases hs with _ | @⟨n, k, _, _, h1, _ | @⟨a, x, _, _, h2, hs⟩⟩
    · exact ht.elim
    · exact ht.elim
    · simp only [List.mem_cons, forall_eq_or_imp] at hw
      dsimp only [exec, meaning, Trips] at ht ⊢
      rcases ht with ht | ⟨h3, h4, h5⟩
      · left
        exact ⟨_, .inl rfl, if_pos ht, (counted_eq h1 a.shr _).1 ht, if_neg (by omega)⟩
      · right
        have hl := hw.2.1.length h2
        obtain ⟨j, rfl⟩ := Int.eq_ofNat_of_zero_le h3
        have h6 := C22_misfire a x j h2 (by omega) h5
        rw [if_neg (by omega), (counted_eq h1 a.shr _).2.1 h3 h4]
        refine ⟨_, rfl, limited_word h6.1 (by decide) hs hw.2.2, _, if_pos ⟨h3, h4⟩, ?_⟩
        intro hc
        have h7 : x / 2 ^ j = 0 := (List.cons.inj hc).1
        rw [h7] at h6
        exact absurd h6.2 (by decide)
  | modPow =>
    rcases hs with _ | @⟨m, zm, _, _, h1, _ | @⟨e, n, _, _, h2, _ | @⟨a, x, _, _, h3, hs⟩⟩⟩
    · exact ht.elim
    · exact ht.elim
    · exact ht.elim
    · simp only [List.mem_cons, forall_eq_or_imp] at hw
      have l3 := hw.2.2.1.length h3
      have fa : a.Fits := by show a.bits.length < 2147483647; omega
      dsimp only [exec, meaning, Trips] at ht ⊢
      obtain ⟨hn, ht⟩ := ht
      obtain ⟨k, rfl⟩ := Int.eq_ofNat_of_zero_le hn
      rcases ht with ⟨h0, h4, h5⟩ | ⟨h0, h4, h5⟩
      · right
        rw [if_neg h0]
        refine ⟨_, rfl, limited_word (C16_wrong_sign a e m x zm k h3 h2 h1 fa h0 h4 h5) ?_ hs hw.2.2.2, _, if_neg (by omega), ?_⟩
        · have h6 : (x ^ k).natAbs % zm.natAbs < zm.natAbs := Nat.mod_lt _ (by omega)
          have h7 := tmod_natAbs (x ^ k) zm
          rw [Int.abs_eq_natAbs] at h4
          dsimp only [Int.toNat_natCast] at h5 ⊢
          generalize (x ^ k).natAbs % zm.natAbs = w at h6 h7
          have h8 : -(w : Int) ≤ (x ^ k).tmod zm ∧ (x ^ k).tmod zm ≤ w := by
            rw [h7]; split_ifs <;> omega
          exact word_of_small (by omega) (by omega)
        · intro hc
          have h7 := (List.cons.inj hc).1
          omega
      · left
        subst h0
        rw [if_pos rfl]
        refine ⟨_, .inr rfl, rfl, ?_, if_pos (.inr rfl)⟩
        rw [C17_unchecked a e m x k h3 h2 h1 fa h4 (by omega)]
        rfl
  | _ => exact ht.elim

/-- What an instruction does. -/
theorem exec_actual (o : MOp) {st : List BigInt} {zs : List Int} (hs : List.Forall₂ BigInt.Denotes st zs) (hw : ∀ z ∈ zs, Word256 z)
    (hstrict : Cfg.strictShift = false) :
    (∃ u, (u = .signedOverflow ∨ u = .divByZero) ∧ o.actual zs = .ub u ∧ o.exec st = .ub u) ∨
      ∃ r, o.actual zs = .ok r ∧ Agrees (o.exec st) r := by
  by_cases ht : o.Trips zs
  · rcases exec_trips o hs hw ht with ⟨u, h1, h2, h3, -⟩ | ⟨r, h1, h2, -⟩
    · exact .inl ⟨u, h1, h2, h3⟩
    · exact .inr ⟨_, h1, h2⟩
  · exact .inr ⟨_, if_neg ht, exec_ok o hs hw hstrict ht⟩

end MOp

namespace Machine

/-- The integers of a status are of 32 bytes. -/
def Words (z : Status Int) : Prop := ∀ x ∈ z.stack, Word256 x

/-- One step, whatever it is. -/
theorem step_actual (p : List Instr) {s : Status BigInt} {z : Status Int} (h : s.Shows z) (hw : Words z)
    (hstrict : Cfg.strictShift = false) :
    (∃ u, (u = .signedOverflow ∨ u = .divByZero) ∧ ActualMachine.step p z = .ub u ∧ step p s = .ub u) ∨
      ∃ s' z', ActualMachine.step p z = .ok z' ∧ step p s = .ok s' ∧ s'.Shows z' ∧ Words z' := by
  cases s with
  | halted st =>
    cases z with
    | halted zs => exact .inr ⟨_, _, rfl, rfl, h, hw⟩
    | running _ _ => exact h.elim
    | faulted => exact h.elim
  | faulted =>
    cases z with
    | halted zs => exact h.elim
    | running _ _ => exact h.elim
    | faulted => exact .inr ⟨_, _, rfl, rfl, h, hw⟩
  | running pc st =>
    cases z with
    | halted zs => exact h.elim
    | faulted => exact h.elim
    | running pc' zs =>
      obtain ⟨rfl, hs⟩ := h
      have hw' : ∀ x ∈ zs, Word256 x := hw
      cases hi : p[pc]? with
      | none =>
        right
        refine ⟨.halted st, .halted zs, ?_, ?_, hs, hw'⟩
        · simp [ActualMachine.step, IntMachine.step, hi]
        · simp [step, hi]
      | some i =>
        cases i with
        | op o =>
          rcases MOp.exec_actual o hs hw' hstrict with ⟨u, hu, h1, h2⟩ | ⟨r, h1, h2⟩
          · left
            refine ⟨u, hu, ?_, ?_⟩
            · simp only [ActualMachine.step, hi, h1]; rfl
            · simp only [step, hi, h2]
          · right
            cases r with
            | none =>
              refine ⟨.faulted, .faulted, ?_, ?_, trivial, fun x hx => by cases hx⟩
              · simp only [ActualMachine.step, hi, h1]; rfl
              · rcases h2 with h2 | ⟨e, h2⟩ <;> simp only [step, hi, h2]
            | some zs' =>
              obtain ⟨st', h2, h3, h4⟩ := h2
              refine ⟨.running (pc + 1) st', .running (pc + 1) zs', ?_, ?_, ⟨rfl, h3⟩, h4⟩
              · simp only [ActualMachine.step, hi, h1]; rfl
              · simp only [step, hi, h2]
        | jmp t =>
          right
          refine ⟨.running t st, .running t zs, ?_, ?_, ⟨rfl, hs⟩, hw'⟩
          · simp [ActualMachine.step, IntMachine.step, hi]
          · simp [step, hi]
        | jmpIf t =>
          right
          rcases hs with _ | @⟨a, x, st', zs', h1, hs⟩
          · refine ⟨.faulted, .faulted, ?_, ?_, trivial, fun x hx => by cases hx⟩
            · simp [ActualMachine.step, IntMachine.step, hi]
            · simp [step, hi]
          · refine ⟨.running (if x = 0 then pc + 1 else t) st', .running (if x = 0 then pc + 1 else t) zs', ?_, ?_, ⟨rfl, hs⟩,
              fun y hy => hw' y (List.mem_cons_of_mem _ hy)⟩
            · simp [ActualMachine.step, IntMachine.step, hi]
            · simp [step, hi, BigInt.isZero_eq h1]

/-- Any number of steps. -/
theorem run_actual (p : List Instr) (hstrict : Cfg.strictShift = false) (n : Nat) : ∀ {s : Status BigInt} {z : Status Int},
    s.Shows z → Words z →
    (∃ u, (u = .signedOverflow ∨ u = .divByZero) ∧ ActualMachine.run p n z = .ub u ∧ run p n s = .ub u) ∨
      ∃ s' z', ActualMachine.run p n z = .ok z' ∧ run p n s = .ok s' ∧ s'.Shows z' ∧ Words z' := by
  induction n with
  | zero => intro s z h hw; exact .inr ⟨s, z, rfl, rfl, h, hw⟩
  | succ n ih =>
    intro s z h hw
    unfold ActualMachine.run run
    rcases step_actual p h hw hstrict with ⟨u, hu, h1, h2⟩ | ⟨s', z', h1, h2, h3, h4⟩
    · left
      refine ⟨u, hu, ?_, ?_⟩
      · rw [h1]; rfl
      · rw [h2]; rfl
    · rw [h1, h2, Res.ok_bind, Res.ok_bind]
      exact ih h3 h4

omit [Cfg] in
theorem step_of_not_trips (p : List Instr) {z : Status Int} (h : ¬ IntMachine.Trips p z) :
    ActualMachine.step p z = .ok (IntMachine.step p z) := by
  cases z with
  | halted zs => rfl
  | faulted => rfl
  | running pc zs =>
    cases hi : p[pc]? with
    | none => simp [ActualMachine.step, hi]
    | some i =>
      cases i with
      | jmp t => simp [ActualMachine.step, hi]
      | jmpIf t => simp [ActualMachine.step, hi]
      | op o =>
        have ht : ¬ o.Trips zs := fun ht => h ⟨o, hi, ht⟩
        simp only [ActualMachine.step, IntMachine.step, hi]
        rw [show o.actual zs = .ok (o.meaning zs) from if_neg ht, Res.ok_bind]
        cases o.meaning zs <;> rfl

omit [Cfg] in
theorem run_of_not_trips (p : List Instr) (n : Nat) : ∀ {z : Status Int}, (∀ k < n, ¬ IntMachine.Trips p (IntMachine.run p k z)) →
    ActualMachine.run p n z = .ok (IntMachine.run p n z) := by
  induction n with
  | zero => intro z _; rfl
  | succ n ih =>
    intro z h
    unfold ActualMachine.run IntMachine.run
    have h0 : ¬ IntMachine.Trips p z := h 0 (by omega)
    rw [step_of_not_trips p h0, Res.ok_bind]
    exact ih fun k hk => h (k + 1) (by omega)

omit [Cfg] in
theorem run_succ (p : List Instr) (n : Nat) (z : Status Int) : IntMachine.run p (n + 1) z = IntMachine.step p (IntMachine.run p n z) := by
  induction n generalizing z with
  | zero => rfl
  | succ n ih => rw [IntMachine.run, ih]; rfl

theorem lib_run_succ (p : List Instr) (n : Nat) (s : Status BigInt) : run p (n + 1) s = run p n s >>= step p := by
  induction n generalizing s with
  | zero =>
    show (step p s >>= fun s' => run p 0 s') = step p s
    cases step p s <;> rfl
  | succ n ih =>
    rw [run]
    conv_rhs => rw [run, Res.bind_assoc]
    congr 1
    funext s'
    exact ih s'

/-- Status objects are determined by their integers. -/
theorem shows_unique {s s' : Status BigInt} {z : Status Int} (h : s.Shows z) (h' : s'.Shows z) : s = s' := by
  cases s <;> cases s' <;> cases z <;> simp only [Status.Shows] at h h'
  · rw [h.1, h'.1, MOp.objects_unique h.2 h'.2]
  · rw [MOp.objects_unique h h']
  · rfl

/-- A step that trips does something else. -/
theorem step_trips (p : List Instr) {s : Status BigInt} {z : Status Int} (h : s.Shows z) (hw : Words z) (ht : IntMachine.Trips p z) :
    ¬ ∃ s', step p s = .ok s' ∧ s'.Shows (IntMachine.step p z) := by
  cases z with
  | halted zs => exact ht.elim
  | faulted => exact ht.elim
  | running pc zs =>
    obtain ⟨o, hi, ht⟩ := ht
    cases s with
    | halted _ => exact h.elim
    | faulted => exact h.elim
    | running pc' st =>
      obtain ⟨rfl, hs⟩ := h
      have hw' : ∀ x ∈ zs, Word256 x := hw
      rintro ⟨s', h1, h2⟩
      simp only [step, IntMachine.step, hi] at h1 h2
      rcases MOp.exec_trips o hs hw' ht with ⟨u, -, -, h3, h4⟩ | ⟨r, -, ⟨st', h3, h4, -⟩, r', h5, h6⟩
      · rw [h3] at h1; cases h1
      · rw [h3] at h1
        rw [h5] at h2
        cases h1
        exact h6 (MOp.denotes_unique h2.2 h4)

end Machine
end BigIntegerCpp
