import Verif.Props.Overloads
import Verif.Props.Bits
import Verif.Props.Basic
import Verif.Props.Convert
import Verif.Props.Arith
import Verif.Props.Pow
import Verif.Props.Samples
import Verif.Lemmas.Program
/-
C76: objects and built-in numbers in one expression, continued: what the expressions mean.
-/
set_option linter.unusedSectionVars false
namespace BigIntegerCpp
open Overload Samples

/-! ### C76 what the expressions mean -/

variable [Cfg]

private theorem neg3_range : InRange (-18446744103774322693) :=
  lt_of_lt_of_le (show _ < 2 ^ 65 by decide) (Nat.pow_le_pow_right (by decide) (by decide))

private theorem wrap_of {n : Nat} (hn : 0 < n) {v : Int} (h1 : -2 ^ (n - 1) ≤ v) (h2 : v < 2 ^ (n - 1)) : wrapSigned n v = v := by
  obtain ⟨m, rfl⟩ : ∃ m, n = m + 1 := ⟨n - 1, by omega⟩
  simp only [Nat.add_sub_cancel] at h1 h2
  unfold wrapSigned
  simp only [Nat.add_sub_cancel]
  have : (2 : Int) ^ (m + 1) = 2 ^ m * 2 := pow_succ _ _
  rw [Int.emod_eq_of_lt (by omega) (by omega)]
  omega

private theorem ctor_cases {p : Platform} {t s : Ty} (h : ctorFor p t = some s) :
    (s = .int ∧ t ∈ [Ty.bool, .char, .schar, .uchar, .short, .ushort, .int]) ∨ (s = .uint ∧ t = .uint) ∨ (s = p.int64 ∧ t = p.int64) ∨
    (s = p.uint64 ∧ t = p.uint64) ∨ (s = .double ∧ (t = .float ∨ t = .double)) := by
  have : ∀ p ∈ [Platform.linux, .macos], ∀ t ∈ Ty.all, ∀ s ∈ Ty.all, ctorFor p t = some s →
      (s = .int ∧ t ∈ [Ty.bool, .char, .schar, .uchar, .short, .ushort, .int]) ∨ (s = .uint ∧ t = .uint) ∨ (s = p.int64 ∧ t = p.int64) ∨
      (s = p.uint64 ∧ t = p.uint64) ∨ (s = .double ∧ (t = .float ∨ t = .double)) := by decide +kernel
  exact this p (plat p) t (all_mem t) s (all_mem s) h

/-- An object made from a number has its integral part for value.  `INT64_MIN` as an `int64_t` is left out: there the
constructor is undefined (C01). -/
theorem C76_construct_value (p : Platform) (n : Number) (z : Int) (hn : n.Is z) (hmin : n ≠ .int p.int64 (-2 ^ 63))
    (r : Res BigInt) (hr : construct p n = some r) : Returns r z := by
  obtain ⟨s, hs, rfl⟩ := Option.map_eq_some_iff.1 hr
  cases n with
  | int t v =>
    obtain ⟨h1, h2⟩ := hn
    subst h2
    simp only [callCtor]
    rcases ctor_cases hs with ⟨rfl, ht⟩ | ⟨rfl, ht⟩ | ⟨rfl, ht⟩ | ⟨rfl, ht⟩ | ⟨rfl, ht⟩
    · have hz : IntRange z := by
        unfold Number.ty at ht
        simp only [List.mem_cons, List.not_mem_nil, or_false] at ht
        rcases ht with rfl | rfl | rfl | rfl | rfl | rfl | rfl <;> obtain ⟨g1, g2⟩ := h1 <;> constructor <;> omega
      rw [if_pos rfl, wrap_of (by decide) hz.1 hz.2]
      exact C01_int32 z hz
    · unfold Number.ty at ht
      subst ht
      obtain ⟨g1, g2⟩ := h1
      rw [if_neg (by decide), if_pos rfl, Int.emod_eq_of_lt g1 g2]
      have := C01_uint32 z.toNat (by omega)
      rwa [Int.toNat_of_nonneg g1] at this
    · unfold Number.ty at ht
      subst ht
      have hz : LongRange z := by cases p <;> exact ⟨h1.1, h1.2⟩
      rw [if_neg (by cases p <;> decide), if_neg (by cases p <;> decide), if_pos rfl, wrap_of (by decide) hz.1 hz.2]
      exact C01_int64_partial z hz fun h => hmin (by rw [h])
    · unfold Number.ty at ht
      subst ht
      obtain ⟨g1, g2⟩ : 0 ≤ z ∧ z < 2 ^ 64 := by cases p <;> exact ⟨h1.1, h1.2⟩
      rw [if_neg (by cases p <;> decide), if_neg (by cases p <;> decide), if_neg (by cases p <;> decide), if_pos rfl, Int.emod_eq_of_lt g1 g2]
      have := C01_uint64 z.toNat (by omega)
      rwa [Int.toNat_of_nonneg g1] at this
    · unfold Number.ty at ht
      rcases ht with rfl | rfl <;> exact h1.elim
  | flt t d =>
    obtain ⟨ht, hd, hf, rfl⟩ := hn
    have : s = .double := by
      have : ∀ p ∈ [Platform.linux, .macos], ctorFor p .float = some .double ∧ ctorFor p .double = some .double := by decide
      obtain ⟨g1, g2⟩ := this p (plat p)
      rcases ht with rfl | rfl
      · exact Option.some.inj (hs.symm.trans g1)
      · exact Option.some.inj (hs.symm.trans g2)
    subst this
    simp only [callCtor, if_true]
    exact C36_of_double d hd hf
  | ext m =>
    have : ∀ p ∈ [Platform.linux, .macos], ctorFor p .ldouble = none := by decide
    exact absurd (hs.symm.trans (this p (plat p))) (by simp)
-- `BigInteger x = 'a';`
example : ∃ r, construct .linux (.int .char 97) = some r ∧ Returns r 97 :=
  ⟨_, rfl, C76_construct_value .linux (.int .char 97) 97 ⟨by norm_num [Ty.Holds], rfl⟩ (by simp [Platform.int64]) _ rfl⟩

/-- The one number of a built-in integer type that is excluded above. Making an object of the least 64-bit number negates it in the
64-bit type, which is undefined behaviour. -/
theorem C76_construct_least (p : Platform) : construct p (.int p.int64 (-2 ^ 63)) = some (.ub .signedOverflow) := by
  rename_i c; obtain ⟨d, s⟩ := c; cases d <;> cases s <;> cases p <;> decide
example : construct .linux (.int .long (-9223372036854775808)) = some (.ub .signedOverflow) := C76_construct_least .linux

/-- Infinities and NaNs throw. -/
theorem C76_construct_not_finite (p : Platform) (t : Ty) (d : Nat) (ht : t = .float ∨ t = .double) (hd : d < 2 ^ 64) (hf : ¬ DblFinite d) :
    construct p (.flt t d) = some (.throw .overflowError) := by
  have : ∀ p ∈ [Platform.linux, .macos], ctorFor p .float = some .double ∧ ctorFor p .double = some .double := by decide
  obtain ⟨g1, g2⟩ := this p (plat p)
  have : ctorFor p t = some .double := by rcases ht with rfl | rfl <;> assumption
  simp only [construct, Number.ty, this, Option.map_some, callCtor, if_true, C36_not_finite d hd hf]
example : construct .macos (.flt .float (dblInfinity true)) = some (.throw .overflowError) :=
  C76_construct_not_finite .macos .float _ (.inl rfl) (by decide) (by unfold DblFinite; decide)

private theorem is_bound {n : Number} {z : Int} (h : n.Is z) (hl : n.ty ≠ .ldouble) : z.natAbs < 2 ^ 1024 := by
  cases n with
  | int t v =>
    obtain ⟨h1, h2⟩ := h
    subst h2
    have : z.natAbs < 2 ^ 65 := by
      cases t <;> first | exact h1.elim | (obtain ⟨g1, g2⟩ := h1; omega)
    exact lt_trans this (Nat.pow_lt_pow_right (by decide) (by decide))
  | flt t d =>
    obtain ⟨-, hd, hf, rfl⟩ := h
    have h1 : (dblScaled d).natAbs < 2 ^ 1024 * 2 ^ 1074 := by
      have hs : (dblScaled d).natAbs = if dblExp d = 0 then dblFrac d else (2 ^ 52 + dblFrac d) * 2 ^ (dblExp d - 1) := by
        unfold dblScaled dblSign
        by_cases h : d < 2 ^ 63
        · rw [if_pos h, one_mul, Int.natAbs_natCast]
        · rw [if_neg h, neg_one_mul, Int.natAbs_neg, Int.natAbs_natCast]
      have hfr : dblFrac d < 2 ^ 52 := Nat.mod_lt _ (by decide)
      have hex : dblExp d < 2 ^ 11 := Nat.mod_lt _ (by decide)
      have hex' : dblExp d ≠ 2047 := hf
      rw [hs]
      by_cases he : dblExp d = 0
      · rw [if_pos he, ← pow_add]
        exact lt_trans hfr (Nat.pow_lt_pow_right (by decide) (by decide))
      · rw [if_neg he, ← pow_add]
        calc (2 ^ 52 + dblFrac d) * 2 ^ (dblExp d - 1) < 2 ^ 53 * 2 ^ (dblExp d - 1) :=
              Nat.mul_lt_mul_of_pos_right (by omega) (Nat.pow_pos (by decide))
          _ = 2 ^ (53 + (dblExp d - 1)) := (pow_add _ _ _).symm
          _ ≤ 2 ^ (1024 + 1074) := Nat.pow_le_pow_right (by decide) (by omega)
    rw [Int.natAbs_tdiv, Int.natAbs_pow]
    rw [show Int.natAbs 2 = 2 from rfl]
    generalize (2 : Nat) ^ 1074 = P at *
    generalize (2 : Nat) ^ 1024 = Q at *
    exact Nat.div_lt_of_lt_mul (by rwa [Nat.mul_comm] at h1)
  | ext n => exact absurd rfl hl

private theorem number_size {p : Platform} {n : Number} {z : Int} (h : n.Is z) (hc : ctorFor p n.ty ≠ none) : InRange z := by
  have h1 : n.ty ≠ .ldouble := by
    intro h2
    have : ∀ p ∈ [Platform.linux, .macos], ctorFor p .ldouble = none := by decide
    rw [h2] at hc
    exact hc (this p (plat p))
  exact lt_of_lt_of_le (is_bound h h1) (Nat.pow_le_pow_right (by decide) (by decide))

private theorem toObj_number {p : Platform} {n : Number} {z : Int} (h : n.Is z) (hmin : n ≠ .int p.int64 (-2 ^ 63)) (hc : ctorFor p n.ty ≠ none) :
    ∃ o, (Operand.num n).toObj p = .ok o ∧ o.Denotes z ∧ InRange z := by
  obtain ⟨t, ht⟩ := Option.ne_none_iff_exists'.1 hc
  have hr : construct p n = some (callCtor p t n) := by rw [construct, ht]; rfl
  obtain ⟨o, h1, h2⟩ := C76_construct_value p n z h hmin _ hr
  exact ⟨o, by rw [Operand.toObj, hr, Option.getD_some, h1], h2, number_size h hc⟩

private theorem toObj_obj {p : Platform} {c : Bool} {o : BigInt} {z : Int} (h : (Operand.obj c o).Is z) :
    ∃ o', (Operand.obj c o).toObj p = .ok o' ∧ o'.Denotes z ∧ InRange z := ⟨o, rfl, h.1, h.2⟩

/-- The operands of an expression that compiles to a call of an operator on two objects. -/
private theorem operands {p : Platform} {a b : Operand} {x y : Int} (ha : a.Is x) (hb : b.Is y) (h : OneObject a b)
    (hmin : a ≠ .num (.int p.int64 (-2 ^ 63)) ∧ b ≠ .num (.int p.int64 (-2 ^ 63))) {f : Arg → Arg → Option Callee}
    (h1 : ∀ t, f (.obj false) (.num t) = none ∧ f (.num t) (.obj false) = none)
    (h2 : ∀ t, f (.obj true) (.num t) = (ctorFor p t).map (fun _ => .library) ∧ f (.num t) (.obj true) = (ctorFor p t).map (fun _ => .library))
    (h3 : ∀ c d, f (.obj c) (.obj d) = some .library) (hc : f a.arg b.arg ≠ none) :
    f a.arg b.arg = some .library ∧ (∃ o, a.toObj p = .ok o ∧ o.Denotes x ∧ InRange x) ∧ ∃ o, b.toObj p = .ok o ∧ o.Denotes y ∧ InRange y := by
  cases a with
  | num m =>
    cases b with
    | num n => exact h.elim
    | obj d o =>
      cases d with
      | false => exact absurd (h1 m.ty).2 hc
      | true =>
        have e : f (Operand.num m).arg (Operand.obj true o).arg = _ := (h2 m.ty).2
        have hm : ctorFor p m.ty ≠ none := by
          intro h; rw [e, h] at hc; exact hc rfl
        obtain ⟨t, ht⟩ := Option.ne_none_iff_exists'.1 hm
        exact ⟨by rw [e, ht]; rfl, toObj_number ha (fun h => hmin.1 (by rw [h])) hm, toObj_obj hb⟩
  | obj c o =>
    cases b with
    | num n =>
      cases c with
      | false => exact absurd (h1 n.ty).1 hc
      | true =>
        have e : f (Operand.obj true o).arg (Operand.num n).arg = _ := (h2 n.ty).1
        have hm : ctorFor p n.ty ≠ none := by
          intro h; rw [e, h] at hc; exact hc rfl
        obtain ⟨t, ht⟩ := Option.ne_none_iff_exists'.1 hm
        exact ⟨by rw [e, ht]; rfl, toObj_obj ha, toObj_number hb (fun h => hmin.2 (by rw [h])) hm⟩
    | obj d u => exact ⟨h3 c d, toObj_obj ha, toObj_obj hb⟩

private theorem call_value (op : Op) {a b : BigInt} {x y : Int} (ha : a.Denotes x) (hb : b.Denotes y) (hx : InRange x) (hy : InRange y)
    (h0 : op = .div ∨ op = .rem → y ≠ 0) : ∃ z, op.Result x y z ∧ Returns (op.call a b) z := by
  have la := hx.length ha
  have lb := hy.length hb
  have fa : a.Fits := by unfold BigInt.Fits; omega
  have fb : b.Fits := by unfold BigInt.Fits; omega
  cases op with
  | add => exact ⟨_, rfl, C05_add a b x y ha hb fa fb⟩
  | sub => exact ⟨_, rfl, C06_subtract a b x y ha hb fa fb⟩
  | mul => exact ⟨_, rfl, C09_multiply a b x y ha hb (by omega)⟩
  | div => exact ⟨_, rfl, C10_divide a b x y ha hb (h0 (.inl rfl)) fa⟩
  | rem => exact ⟨_, rfl, C11_remainder a b x y ha hb (h0 (.inr rfl)) fa⟩
  | and => obtain ⟨z, h1, h2⟩ := C24_and a b x y ha hb (by omega) (by omega); exact ⟨z, h2, h1⟩
  | or => obtain ⟨z, h1, h2⟩ := C24_or a b x y ha hb (by omega) (by omega); exact ⟨z, h2, h1⟩
  | xor => obtain ⟨z, h1, h2⟩ := C24_xor a b x y ha hb (by omega) (by omega); exact ⟨z, h2, h1⟩

/-- Every arithmetic and bitwise operator that mixes objects and numbers and compiles returns the exact result on the
integral parts. -/
theorem C76_binary_value (p : Platform) (op : Op) (a b : Operand) (x y : Int) (ha : a.Is x) (hb : b.Is y) (h : OneObject a b)
    (hmin : a ≠ .num (.int p.int64 (-2 ^ 63)) ∧ b ≠ .num (.int p.int64 (-2 ^ 63))) (hc : binary p op a.arg b.arg ≠ none)
    (hy : op = .div ∨ op = .rem → y ≠ 0) : ∃ z, op.Result x y z ∧ (evalBinary p op a b).Returns z := by
  obtain ⟨e, ⟨o, o1, o2, o3⟩, u, u1, u2, u3⟩ := operands ha hb h hmin
    (fun t => ⟨(C76_variable_with_number p op t).1, (C76_variable_with_number p op t).2.1⟩)
    (fun t => ⟨(C76_const_with_number p op t).1, (C76_const_with_number p op t).2.1⟩) (fun c d => (C76_two_objects p op c d).1) hc
  obtain ⟨z, z1, z2⟩ := call_value op o2 u2 o3 u3 hy
  refine ⟨z, z1, _, by rw [evalBinary, e, meaning], ?_⟩
  rwa [o1, u1, Res.ok_bind, Res.ok_bind]
-- `x * 5u` and `1 - x` for a `const` object `x`
example : (evalBinary .linux .mul (.obj true neg3) (.num (.int .uint 5))).Returns (-18446744103774322693 * 5) := by
  obtain ⟨z, rfl, h⟩ := C76_binary_value .linux .mul (.obj true neg3) (.num (.int .uint 5)) (-18446744103774322693) 5
    ⟨neg3_denotes, neg3_range⟩ ⟨by norm_num [Ty.Holds], rfl⟩ trivial
    ⟨by simp, by simp [Platform.int64]⟩
    (by rw [show (Operand.obj true neg3).arg = .obj true from rfl, show (Operand.num (.int .uint 5)).arg = .num .uint from rfl,
          (C76_const_with_number .linux .mul .uint).1]; decide) (by simp)
  exact h
example : (evalBinary .linux .sub (.num (.int .int 1)) (.obj true neg3)).Returns (1 - -18446744103774322693) := by
  obtain ⟨z, rfl, h⟩ := C76_binary_value .linux .sub (.num (.int .int 1)) (.obj true neg3) 1 (-18446744103774322693)
    ⟨by norm_num [Ty.Holds], rfl⟩ ⟨neg3_denotes, neg3_range⟩ trivial
    ⟨by simp [Platform.int64], by simp⟩
    (by rw [show (Operand.obj true neg3).arg = .obj true from rfl, show (Operand.num (.int .int 1)).arg = .num .int from rfl,
          (C76_const_with_number .linux .sub .int).2.1]; decide) (by simp)
  exact h

/-- Division by a number or object that is zero throws. -/
theorem C76_zero_divisor (p : Platform) (op : Op) (ho : op = .div ∨ op = .rem) (a b : Operand) (x : Int) (ha : a.Is x) (hb : b.Is 0)
    (h : OneObject a b) (hmin : a ≠ .num (.int p.int64 (-2 ^ 63))) (hc : binary p op a.arg b.arg ≠ none) :
    evalBinary p op a b = .library (.throw .divideByZero) := by
  have hmin2 : b ≠ .num (.int p.int64 (-2 ^ 63)) := by
    rintro rfl
    exact absurd hb.2 (by decide)
  obtain ⟨e, ⟨o, o1, o2, o3⟩, u, u1, u2, u3⟩ := operands ha hb h ⟨hmin, hmin2⟩
    (fun t => ⟨(C76_variable_with_number p op t).1, (C76_variable_with_number p op t).2.1⟩)
    (fun t => ⟨(C76_const_with_number p op t).1, (C76_const_with_number p op t).2.1⟩) (fun c d => (C76_two_objects p op c d).1) hc
  have la := o3.length o2
  obtain ⟨d1, d2, -⟩ := C12_divide_by_zero o u x o2 u2 (by unfold BigInt.Fits; omega)
  rw [evalBinary, e, meaning, o1, u1, Res.ok_bind, Res.ok_bind]
  rcases ho with rfl | rfl
  · exact congrArg _ d1
  · exact congrArg _ d2
-- `x % false`
example : evalBinary .linux .rem (.obj true neg3) (.num (.int .bool 0)) = .library (.throw .divideByZero) :=
  C76_zero_divisor .linux .rem (.inr rfl) (.obj true neg3) (.num (.int .bool 0)) (-18446744103774322693)
    ⟨neg3_denotes, neg3_range⟩ ⟨by norm_num [Ty.Holds], rfl⟩ trivial
    (by simp)
    (by rw [show (Operand.obj true neg3).arg = .obj true from rfl, show (Operand.num (.int .bool 0)).arg = .num .bool from rfl,
          (C76_const_with_number .linux .rem .bool).1]; decide)

/-- Every comparison that mixes objects and numbers and compiles compares the integral parts. -/
theorem C76_compare_value (p : Platform) (op : Cmp) (a b : Operand) (x y : Int) (ha : a.Is x) (hb : b.Is y) (h : OneObject a b)
    (hmin : a ≠ .num (.int p.int64 (-2 ^ 63)) ∧ b ≠ .num (.int p.int64 (-2 ^ 63))) (hc : Overload.compare p a.arg b.arg ≠ none) :
    evalCompare p op a b = .library (.ok (op.holds x y)) := by
  obtain ⟨e, ⟨o, o1, o2, o3⟩, u, u1, u2, u3⟩ := operands ha hb h hmin
    (fun t => ⟨(C76_variable_with_number p .add t).2.2.1, (C76_variable_with_number p .add t).2.2.2⟩)
    (fun t => ⟨(C76_const_with_number p .add t).2.2.1, (C76_const_with_number p .add t).2.2.2⟩) (fun c d => (C76_two_objects p .add c d).2) hc
  have la := o3.length o2
  have lb := u3.length u2
  obtain ⟨c1, c2, c3, c4, c5, c6⟩ := C03_operators o u x y o2 u2 (by unfold BigInt.Fits; omega) (by unfold BigInt.Fits; omega)
  rw [evalCompare, e, meaning, o1, u1, Res.ok_bind, Res.ok_bind]
  cases op with
  | lt => exact congrArg _ c1
  | gt => exact congrArg _ c3
  | le => exact congrArg _ c2
  | ge => exact congrArg _ c4
  | eq => exact congrArg _ c5
  | ne => exact congrArg _ c6
-- `x < -3000000000L`
example : evalCompare .linux .lt (.obj true neg3) (.num (.int .long (-3000000000))) = .library (.ok true) :=
  C76_compare_value .linux .lt (.obj true neg3) (.num (.int .long (-3000000000))) (-18446744103774322693) (-3000000000)
    ⟨neg3_denotes, neg3_range⟩ ⟨by norm_num [Ty.Holds], rfl⟩ trivial
    ⟨by simp, by simp [Platform.int64]⟩
    (by rw [show (Operand.obj true neg3).arg = .obj true from rfl, show (Operand.num (.int .long (-3000000000))).arg = .num .long from rfl,
          (C76_const_with_number .linux .add .long).2.2.1]; decide)
-- the fraction is lost: `x == 2.5` for a `const` object 2
example : evalCompare .linux .eq (.obj true ⟨2, []⟩) (.num (.flt .double 0x4004000000000000)) = .library (.ok true) :=
  C76_compare_value .linux .eq (.obj true ⟨2, []⟩) (.num (.flt .double 0x4004000000000000)) 2 2
    ⟨BigInt.denotes_small (by decide) (by decide), lt_of_lt_of_le (show _ < 2 ^ 2 by decide) (Nat.pow_le_pow_right (by decide) (by decide))⟩
    ⟨.inr rfl, by decide, by unfold DblFinite; decide, by decide +kernel⟩ trivial
    ⟨by simp, by simp⟩
    (by rw [show (Operand.obj true ⟨2, []⟩).arg = .obj true from rfl, show (Operand.num (.flt .double 0x4004000000000000)).arg = .num .double from rfl,
          (C76_const_with_number .linux .add .double).2.2.1]; decide)

/-- `x op= b`, when it compiles, leaves the exact result in `x`. -/
theorem C76_compound_value (p : Platform) (op : Op) (o : BigInt) (b : Operand) (x y : Int) (ha : o.Denotes x) (hx : InRange x) (hb : b.Is y)
    (hmin : b ≠ .num (.int p.int64 (-2 ^ 63))) (hc : compound p (.obj false) b.arg ≠ none) (hy : op = .div ∨ op = .rem → y ≠ 0) :
    ∃ z, op.Result x y z ∧ (evalCompound p op o b).Returns z := by
  have key : compound p (.obj false) b.arg = some .library ∧ ∃ u, b.toObj p = .ok u ∧ u.Denotes y ∧ InRange y := by
    cases b with
    | num n =>
      have e : compound p (.obj false) (Operand.num n).arg = _ := (C76_compound_compiles p n.ty true).1
      have hm : ctorFor p n.ty ≠ none := by
        intro h; rw [e, h] at hc; exact hc rfl
      obtain ⟨t, ht⟩ := Option.ne_none_iff_exists'.1 hm
      exact ⟨by rw [e, ht]; rfl, toObj_number hb (fun h => hmin (by rw [h])) hm⟩
    | obj d u => exact ⟨(C76_compound_compiles p .int d).2.1, toObj_obj hb⟩
  obtain ⟨e, u, u1, u2, u3⟩ := key
  obtain ⟨z, z1, z2⟩ := call_value op ha u2 hx u3 hy
  refine ⟨z, z1, _, by rw [evalCompound, e, meaning], ?_⟩
  rwa [u1, Res.ok_bind]
-- `x += 7;`
example : (evalCompound .linux .add neg3 (.num (.int .int 7))).Returns (-18446744103774322693 + 7) := by
  obtain ⟨z, rfl, h⟩ := C76_compound_value .linux .add neg3 (.num (.int .int 7)) (-18446744103774322693) 7 neg3_denotes
    neg3_range ⟨by norm_num [Ty.Holds], rfl⟩
    (by simp [Platform.int64]) (by rw [show (Operand.num (.int .int 7)).arg = .num .int from rfl, (C76_compound_compiles .linux .int true).1]; decide) (by simp)
  exact h

/-! ### C76 counts and exponents -/

private theorem wrap_spec (v : Int) : IntRange (wrapSigned 32 v) ∧ (2 : Int) ^ 32 ∣ v - wrapSigned 32 v := by
  unfold wrapSigned IntRange
  norm_num
  constructor
  · omega
  · omega

/-- A number passed as a shift count or exponent arrives unchanged if its integral part is an `int`.  Otherwise an
integer arrives reduced modulo 2^32, without warning; a floating-point number is undefined. -/
theorem C76_count (n : Number) (v : Int) (hn : n.Is v) :
    (IntRange v → n.toInt = .ok v) ∧
    (∀ t w, n = .int t w → ∃ k, n.toInt = .ok k ∧ IntRange k ∧ (2 : Int) ^ 32 ∣ v - k) ∧
    ((∀ t w, n ≠ .int t w) → ¬ IntRange v → n.toInt = .ub .signedOverflow) := by
  cases n with
  | int t w =>
    obtain ⟨h1, h2⟩ := hn
    subst h2
    refine ⟨fun h => ?_, ?_, fun h => absurd rfl (h t v)⟩
    · rw [Number.toInt, wrap_of (by decide) h.1 h.2]
    · intro _ _ _
      exact ⟨_, rfl, wrap_spec v⟩
  | flt t d =>
    obtain ⟨h1, h2, h3, h4⟩ := hn
    have h3' : dblExp d ≠ 2047 := h3
    refine ⟨fun h => ?_, fun _ _ h => (by cases h), fun _ h => ?_⟩
    · simp only [Number.toInt, if_neg h3', ← h4]
      exact if_pos h
    · simp only [Number.toInt, if_neg h3', ← h4]
      exact if_neg h
  | ext m =>
    have hm : m = some v := hn
    subst hm
    refine ⟨fun h => ?_, fun _ _ h => (by cases h), fun _ h => ?_⟩
    · exact if_pos h
    · exact if_neg h
example : (Number.int .long 5).toInt = .ok 5 ∧ (Number.int .long 4294967301).toInt = .ok 5 := by decide
example : ∃ k, (Number.int .long 4294967301).toInt = .ok k ∧ IntRange k ∧ (2 : Int) ^ 32 ∣ 4294967301 - k :=
  (C76_count (.int .long 4294967301) 4294967301 ⟨by norm_num [Ty.Holds], rfl⟩).2.1 _ _ rfl

theorem shift_lib {p : Platform} {c : Bool} {b : Operand} (hc : shift p (.obj c) b.arg ≠ none) : shift p (.obj c) b.arg = some .library := by
  cases b with
  | num n =>
    obtain ⟨h1, h2, -⟩ := C76_shift_compiles p n.ty
    cases c with
    | true => exact h1
    | false =>
      have h2 : shift p (.obj false) (Operand.num n).arg = _ := h2
      rw [h2] at hc ⊢
      by_cases h : n.ty ∈ [Ty.uint, .long, .ulong, .llong, .ullong]
      · rw [if_pos h] at hc; exact absurd rfl hc
      · rw [if_neg h]
  | obj d u =>
    have h1 : shift p (.obj c) (Operand.obj d u).arg = _ := (C76_shift_by_object p .int c d).1
    rw [h1] at hc ⊢
    cases d with
    | false => rfl
    | true => exact absurd rfl hc

/-- `x << n`, `x >> n` with a count of any type that compiles: the shift by the `int` that arrives.  Left out: operands
for which the shift of the library is wrong (C22, C23). -/
theorem C76_shift_value_partial (p : Platform) (left c : Bool) (o : BigInt) (b : Operand) (x k : Int) (ha : (Operand.obj c o).Is x)
    (hc : shift p (.obj c) b.arg ≠ none) (hb : b.toInt = .ok k) (hk : IntRange k)
    (hm : (if left then k < 0 else 0 < k) → ¬ ShiftMisfires x k.natAbs) :
    (evalShift p left (.obj c o) b).Returns (shiftInt x (if left then k else -k)) := by
  refine ⟨_, by rw [evalShift, show (Operand.obj c o).arg = .obj c from rfl, shift_lib hc, meaning], ?_⟩
  rw [Operand.toObj, Res.ok_bind, hb, Res.ok_bind]
  cases left with
  | true =>
    refine shl_in_range ha.1 ha.2 hk fun h => ?_
    have := hm (by simpa using h)
    rwa [show k.natAbs = (-k).toNat by omega] at this
  | false =>
    refine shr_in_range ha.1 ha.2 hk fun h => ?_
    have := hm (by simpa using h)
    rwa [show k.natAbs = k.toNat by omega] at this
-- `x << 75`
example : (evalShift .linux true (.obj false neg3) (.num (.int .int 75))).Returns (shiftInt (-18446744103774322693) 75) :=
  C76_shift_value_partial .linux true false neg3 (.num (.int .int 75)) (-18446744103774322693) 75
    ⟨neg3_denotes, neg3_range⟩
    (by rw [show (Operand.num (.int .int 75)).arg = .num .int from rfl, (C76_shift_compiles .linux .int).2.1]; decide) (by decide) (by decide)
    (fun h => absurd h (by decide))

/-- The same for `x <<= n`, `x >>= n`, which compile for numbers of all types. -/
theorem C76_compound_shift_value_partial (p : Platform) (left : Bool) (o : BigInt) (n : Number) (x k : Int) (ha : o.Denotes x) (hx : InRange x)
    (hb : n.toInt = .ok k) (hk : IntRange k) (hm : (if left then k < 0 else 0 < k) → ¬ ShiftMisfires x k.natAbs) :
    (evalCompoundShift p left o (.num n)).Returns (shiftInt x (if left then k else -k)) := by
  refine ⟨_, by rw [evalCompoundShift, show (Operand.num n).arg = .num n.ty from rfl, (C76_shift_compiles p n.ty).2.2, meaning], ?_⟩
  rw [Operand.toInt, hb, Res.ok_bind]
  cases left with
  | true =>
    refine shl_in_range ha hx hk fun h => ?_
    have := hm (by simpa using h)
    rwa [show k.natAbs = (-k).toNat by omega] at this
  | false =>
    refine shr_in_range ha hx hk fun h => ?_
    have := hm (by simpa using h)
    rwa [show k.natAbs = k.toNat by omega] at this
-- `x <<= 4294967301L;` shifts by 5
example : (evalCompoundShift .linux true neg3 (.num (.int .long 4294967301))).Returns (shiftInt (-18446744103774322693) 5) :=
  C76_compound_shift_value_partial .linux true neg3 (.int .long 4294967301) (-18446744103774322693) 5 neg3_denotes
    neg3_range (by decide) (by decide) (fun h => absurd h (by decide))

/-- So a shift by a `long` (or `unsigned`, …) is not always a shift by its value: with a count that is a multiple of 2^32
nothing is shifted. -/
theorem C76_shift_count_wraps (p : Platform) (left : Bool) (o : BigInt) (x m : Int) (t : Ty) (ha : o.Denotes x) (hx : InRange x)
    (_ht : t.Holds (2 ^ 32 * m)) :
    (evalShift p left (.obj true o) (.num (.int t (2 ^ 32 * m)))).Returns x ∧
    (evalCompoundShift p left o (.num (.int t (2 ^ 32 * m)))).Returns x := by
  have h0 : (Number.int t (2 ^ 32 * m)).toInt = .ok 0 := by
    rw [Number.toInt, wrapSigned]
    norm_num
  have e : shiftInt x (if left then 0 else -0) = x := by
    cases left <;> simp [shiftInt]
  have hm : ∀ b : Bool, (if b then (0 : Int) < 0 else (0 : Int) < 0) → ¬ ShiftMisfires x (0 : Int).natAbs := fun b h => by cases b <;> simp at h
  refine ⟨?_, ?_⟩
  · have := C76_shift_value_partial p left true o (.num (.int t (2 ^ 32 * m))) x 0 ⟨ha, hx⟩
      (by rw [show (Operand.num (.int t (2 ^ 32 * m))).arg = .num t from rfl, (C76_shift_compiles p t).1]; simp) h0 (by decide) (hm left)
    rwa [e] at this
  · have := C76_compound_shift_value_partial p left o (.int t (2 ^ 32 * m)) x 0 ha hx h0 (by decide) (hm left)
    rwa [e] at this
example : (evalShift .linux true (.obj true neg3) (.num (.int .long (2 ^ 32 * 3)))).Returns (-18446744103774322693) :=
  (C76_shift_count_wraps .linux true neg3 (-18446744103774322693) 3 .long neg3_denotes
    neg3_range (by norm_num [Ty.Holds])).1

/-- `BigInteger::pow` with an exponent of any type that compiles: the power by the `int` that arrives. -/
theorem C76_power_value (p : Platform) (c : Bool) (o : BigInt) (b : Operand) (x : Int) (k : Nat) (ha : (Operand.obj c o).Is x)
    (hc : power p (.obj c) b.arg ≠ none) (hb : b.toInt = .ok k) (hk : IntRange k)
    (hsize : k ≤ 1 ∨ |x| ≤ 1 ∨ 1 + k * max 1 o.bits.length < 2 ^ 31 - 1) : (evalPower p (.obj c o) b).Returns (x ^ k) := by
  have hl : power p (.obj c) b.arg = some .library := by
    cases b with
    | num n => exact (C76_power_compiles p n.ty c c).1
    | obj d u =>
      have h1 : power p (.obj c) (Operand.obj d u).arg = _ := (C76_power_compiles p .int c d).2
      rw [h1] at hc ⊢
      cases d with
      | false => rfl
      | true => exact absurd rfl hc
  have la := ha.2.length ha.1
  refine ⟨_, by rw [evalPower, show (Operand.obj c o).arg = .obj c from rfl, hl, meaning], ?_⟩
  rw [Operand.toObj, Res.ok_bind, hb, Res.ok_bind]
  exact C15_pow o x k ha.1 (by unfold BigInt.Fits; omega) hk hsize
-- `BigInteger::pow(x, '\x03')`
example : (evalPower .linux (.obj false neg3) (.num (.int .char 3))).Returns ((-18446744103774322693) ^ 3) :=
  C76_power_value .linux false neg3 (.num (.int .char 3)) (-18446744103774322693) 3
    ⟨neg3_denotes, neg3_range⟩
    (by rw [show (Operand.num (.int .char 3)).arg = .num .char from rfl, (C76_power_compiles .linux .char false false).1]; decide) (by decide) (by decide)
    (.inr (.inr (by decide)))

/-- So a power with an exponent that is a multiple of 2^32 is 1, without warning. -/
theorem C76_exponent_wraps (p : Platform) (c : Bool) (o : BigInt) (x m : Int) (t : Ty) (ha : (Operand.obj c o).Is x) (_ht : t.Holds (2 ^ 32 * m)) :
    (evalPower p (.obj c o) (.num (.int t (2 ^ 32 * m)))).Returns 1 := by
  have h0 : (Number.int t (2 ^ 32 * m)).toInt = .ok ((0 : Nat) : Int) := by
    rw [Number.toInt, wrapSigned]
    norm_num
  have := C76_power_value p c o (.num (.int t (2 ^ 32 * m))) x 0 ha
    (by rw [show (Operand.num (.int t (2 ^ 32 * m))).arg = .num t from rfl, (C76_power_compiles p t c c).1]; simp) h0 (by decide) (.inl (by decide))
  rwa [pow_zero] at this
example : (evalPower .linux (.obj false neg3) (.num (.int .long (2 ^ 32 * 1)))).Returns 1 :=
  C76_exponent_wraps .linux false neg3 (-18446744103774322693) 1 .long
    ⟨neg3_denotes, neg3_range⟩ (by norm_num [Ty.Holds])

/-- A count or exponent that is an object arrives unchanged or throws; `INT_MIN` is left out (C34). -/
theorem C76_count_object (c : Bool) (u : BigInt) (y : Int) (hu : u.Denotes y) (hmin : y ≠ -2 ^ 31) :
    (Operand.obj c u).toInt = if IntRange y then .ok y else .throw .overflowError := C34_to_int_partial u y hu hmin
example : (Operand.obj false pos2).toInt = .throw .overflowError ∧ (Operand.obj false small).toInt = .ok (-42) := by
  rw [C76_count_object _ _ _ pos2_denotes (by decide), C76_count_object _ _ _ small_denotes (by decide)]
  decide

end BigIntegerCpp
