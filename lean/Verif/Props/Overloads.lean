import Verif.OverloadsSpec
/-
C76: objects and built-in numbers in one expression.
-/
set_option linter.unusedSectionVars false
namespace BigIntegerCpp
open Overload

/-! ### C76 which expressions compile -/

theorem Overload.all_mem (t : Ty) : t ∈ Ty.all := by cases t <;> decide
theorem Overload.plat (p : Platform) : p ∈ [Platform.linux, .macos] := by cases p <;> decide
theorem Overload.types_mem (op : Op) : op.types ∈ [promoted, promotedIntegral] := by cases op <;> decide

/-- `BigInteger x = v;` compiles for a number `v` of every type but `long double` and the 64-bit types that `int64_t`
and `uint64_t` are not. -/
theorem C76_construct_compiles (p : Platform) (t : Ty) :
    (ctorFor p t).isSome ↔ t ≠ .ldouble ∧ (p = .linux → t ≠ .llong ∧ t ≠ .ullong) ∧ (p = .macos → t ≠ .long ∧ t ≠ .ulong) := by
  cases p <;> cases t <;> decide
example : (ctorFor .linux .ulong).isSome ∧ ¬ (ctorFor .linux .ullong).isSome := by decide

/-- `T v = x;` compiles exactly for an object that is not `const` and the types that have a conversion function, and uses
that function. -/
theorem C76_convert_compiles (c : Bool) (t : Ty) :
    initNumber (.obj c) t = if c = false ∧ t ∈ [Ty.int, .uint, .long, .ulong, .float, .double] then some t else none := by
  cases c <;> cases t <;> decide
example : initNumber (.obj false) .long = some .long ∧ initNumber (.obj false) .bool = none := by decide

/-- Two objects, `const` or not, are always combined and compared by the library. -/
theorem C76_two_objects (p : Platform) (op : Op) (c d : Bool) :
    binary p op (.obj c) (.obj d) = some .library ∧ Overload.compare p (.obj c) (.obj d) = some .library := by
  have h : ∀ p ∈ [Platform.linux, .macos], ∀ ts ∈ [promoted, promotedIntegral], ∀ c ∈ [true, false], ∀ d ∈ [true, false],
      resolve p [.obj c, .obj d] ((.library, [.obj, .obj]) :: builtins ts) = some .library := by decide +kernel
  have hc : ∀ c : Bool, c ∈ [true, false] := by decide
  exact ⟨h p (plat p) _ (types_mem op) c (hc c) d (hc d), h p (plat p) _ (by simp) c (hc c) d (hc d)⟩

/-- A number and an object that is not `const` cannot be combined or compared, in either order: the library's operator
and the built-in ones are equally good. -/
theorem C76_variable_with_number (p : Platform) (op : Op) (t : Ty) :
    binary p op (.obj false) (.num t) = none ∧ binary p op (.num t) (.obj false) = none ∧
    Overload.compare p (.obj false) (.num t) = none ∧ Overload.compare p (.num t) (.obj false) = none := by
  have h : ∀ p ∈ [Platform.linux, .macos], ∀ ts ∈ [promoted, promotedIntegral], ∀ t ∈ Ty.all,
      resolve p [.obj false, .num t] ((.library, [.obj, .obj]) :: builtins ts) = none ∧
      resolve p [.num t, .obj false] ((.library, [.obj, .obj]) :: builtins ts) = none := by decide +kernel
  have h1 := h p (plat p) _ (types_mem op) t (all_mem t)
  have h2 := h p (plat p) promoted (by simp) t (all_mem t)
  exact ⟨h1.1, h1.2, h2.1, h2.2⟩

/-- A number and a `const` object are combined and compared by the library if the number converts. -/
theorem C76_const_with_number (p : Platform) (op : Op) (t : Ty) :
    binary p op (.obj true) (.num t) = (ctorFor p t).map (fun _ => .library) ∧
    binary p op (.num t) (.obj true) = (ctorFor p t).map (fun _ => .library) ∧
    Overload.compare p (.obj true) (.num t) = (ctorFor p t).map (fun _ => .library) ∧
    Overload.compare p (.num t) (.obj true) = (ctorFor p t).map (fun _ => .library) := by
  have h : ∀ p ∈ [Platform.linux, .macos], ∀ ts ∈ [promoted, promotedIntegral], ∀ t ∈ Ty.all,
      resolve p [.obj true, .num t] ((.library, [.obj, .obj]) :: builtins ts) = (ctorFor p t).map (fun _ => .library) ∧
      resolve p [.num t, .obj true] ((.library, [.obj, .obj]) :: builtins ts) = (ctorFor p t).map (fun _ => .library) := by
    decide +kernel
  have h1 := h p (plat p) _ (types_mem op) t (all_mem t)
  have h2 := h p (plat p) promoted (by simp) t (all_mem t)
  exact ⟨h1.1, h1.2, h2.1, h2.2⟩

/-- `x op= v` compiles if the number converts, `x op= y` always. -/
theorem C76_compound_compiles (p : Platform) (t : Ty) (c : Bool) :
    compound p (.obj false) (.num t) = (ctorFor p t).map (fun _ => .library) ∧ compound p (.obj false) (.obj c) = some .library ∧
    compound p (.obj true) (.num t) = none ∧ compound p (.obj true) (.obj c) = none := by
  cases p <;> cases c <;> cases t <;> decide

/-- `v op= x` never compiles, neither by a built-in operator nor by a function of the library. -/
theorem C76_compound_number (p : Platform) (s : Ty) (c : Bool) :
    compoundNumber p s (.obj c) = none ∧ compound p (.num s) (.obj c) = none ∧ compoundShift p (.num s) (.obj c) = none := by
  cases p <;> cases c <;> cases s <;> decide

/-- Shifts of a `const` object compile with counts of every type; of others with counts of the types up to `int`, and of
the floating-point types. -/
theorem C76_shift_compiles (p : Platform) (t : Ty) :
    shift p (.obj true) (.num t) = some .library ∧
    shift p (.obj false) (.num t) = (if t ∈ [Ty.uint, .long, .ulong, .llong, .ullong] then none else some .library) ∧
    compoundShift p (.obj false) (.num t) = some .library := by
  have h : ∀ p ∈ [Platform.linux, .macos], ∀ t ∈ Ty.all, shift p (.obj true) (.num t) = some .library ∧
    shift p (.obj false) (.num t) = (if t ∈ [Ty.uint, .long, .ulong, .llong, .ullong] then none else some .library) ∧
    compoundShift p (.obj false) (.num t) = some .library := by decide +kernel
  exact h p (plat p) t (all_mem t)

/-- The count may be an object that is not `const`; a number is never shifted by an object. -/
theorem C76_shift_by_object (p : Platform) (t : Ty) (c d : Bool) :
    shift p (.obj c) (.obj d) = (if d then none else some .library) ∧ shift p (.num t) (.obj d) = none := by
  have h : ∀ p ∈ [Platform.linux, .macos], ∀ t ∈ Ty.all, ∀ c ∈ [true, false], ∀ d ∈ [true, false],
    shift p (.obj c) (.obj d) = (if d then none else some .library) ∧ shift p (.num t) (.obj d) = none := by decide +kernel
  have hc : ∀ c : Bool, c ∈ [true, false] := by decide
  exact h p (plat p) t (all_mem t) c (hc c) d (hc d)

/-- `BigInteger::pow(x, v)` compiles for a number of any type, and for an object that is not `const`. -/
theorem C76_power_compiles (p : Platform) (t : Ty) (c d : Bool) :
    power p (.obj c) (.num t) = some .library ∧ power p (.obj c) (.obj d) = (if d then none else some .library) := by
  cases p <;> cases c <;> cases d <;> cases t <;> decide

/-- `-x`, `+x` and `~x` compile for objects that are not `const`, and call the library. -/
theorem C76_unary_compiles (p : Platform) (integral c : Bool) : unary p integral (.obj c) = if c then none else some .library := by
  cases p <;> cases integral <;> cases c <;> decide +kernel

/-- A function of the library for a unary operator is never called on a number. -/
theorem C76_unary_number (p : Platform) (integral : Bool) (t : Ty) : unary p integral (.num t) ≠ some .library := by
  cases p <;> cases integral <;> cases t <;> decide +kernel

/-- An object is not a condition: `if (x)`, `!x`, `x && y` do not compile. -/
theorem C76_no_truth_value (p : Platform) (c : Bool) : truth p (.obj c) = none := by
  cases p <;> cases c <;> decide

/-- No operator with an object among its operands is ever the built-in one on the converted value. -/
theorem C76_never_builtin (p : Platform) (op : Op) (a b : Arg) (h : (∃ c, a = .obj c) ∨ ∃ c, b = .obj c) (l r : Ty) :
    binary p op a b ≠ some (.builtin l r) ∧ Overload.compare p a b ≠ some (.builtin l r) ∧ shift p a b ≠ some (.builtin l r) := by
  cases a with
  | num s =>
    cases b with
    | num t => simp at h
    | obj d =>
      rw [(C76_shift_by_object p s d d).2]
      cases d with
      | false =>
        obtain ⟨-, h2, -, h4⟩ := C76_variable_with_number p op s
        rw [h2, h4]; simp
      | true =>
        obtain ⟨-, h2, -, h4⟩ := C76_const_with_number p op s
        rw [h2, h4]
        cases ctorFor p s <;> simp
  | obj c =>
    cases b with
    | num t =>
      obtain ⟨h1, h2, -⟩ := C76_shift_compiles p t
      cases c with
      | false =>
        obtain ⟨g1, -, g3, -⟩ := C76_variable_with_number p op t
        rw [g1, g3, h2]
        refine ⟨by simp, by simp, ?_⟩
        by_cases ht : t ∈ [Ty.uint, .long, .ulong, .llong, .ullong]
        · rw [if_pos ht]; simp
        · rw [if_neg ht]; simp
      | true =>
        obtain ⟨g1, -, g3, -⟩ := C76_const_with_number p op t
        rw [g1, g3, h1]
        cases ctorFor p t <;> simp
    | obj d =>
      obtain ⟨g1, g2⟩ := C76_two_objects p op c d
      rw [g1, g2, (C76_shift_by_object p .int c d).1]
      cases d <;> simp
example : binary .linux .add (.num .int) (.obj true) ≠ some (.builtin .int .int) := (C76_never_builtin .linux .add _ _ (.inr ⟨true, rfl⟩) .int .int).1
-- without objects the same rules choose a built-in operator
example : binary .linux .add (.num .short) (.num .uint) = some (.builtin .int .uint) := by decide +kernel

end BigIntegerCpp
