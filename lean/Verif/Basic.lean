/-
Machine-level vocabulary of the model: outcomes of a C++ call, build configuration,
fixed-width integers, bounds-checked memory access.
-/
namespace BigIntegerCpp

/-- C++ exceptions thrown by the library (include/exceptions.h:5-9 and the `std::` exceptions
thrown in src/BigInteger.cpp and src/BigIntegerCalculator/PowMod.cpp).  Messages are dropped. -/
inductive Exn where
  | divideByZero   -- DivideByZero
  | overflowError  -- std::overflow_error
  | outOfRange     -- std::out_of_range
  | runtimeError   -- std::runtime_error
  | castError      -- pybind11::cast_error (Python bindings)
  | invalidArgument -- std::invalid_argument (Python bindings)
  deriving DecidableEq, Repr

/-- Kinds of undefined behaviour (and of size narrowing that leads to it) kept apart. -/
inductive UB where
  | signedOverflow -- result of int/long arithmetic not representable
  | outOfBounds    -- read or write outside an array
  | divByZero      -- `/` or `%` by zero on built-in integers
  | nullDeref      -- write through a null pointer
  | badShift       -- shift count not below the width; C++17: left shift of a negative number
  | sizeNarrowing  -- a container size that does not fit the `int` it is stored in
  deriving DecidableEq, Repr

/-- Outcome of a C++ call. -/
inductive Res (α : Type) where
  | ok (a : α)     -- normal return
  | throw (e : Exn)
  | abort          -- a failed `assert`
  | ub (u : UB)
  | diverge        -- the loop did not finish within the given number of iterations
  deriving DecidableEq, Repr

namespace Res

def bind {α β : Type} : Res α → (α → Res β) → Res β
  | ok a, f => f a
  | throw e, _ => throw e
  | abort, _ => abort
  | ub u, _ => ub u
  | diverge, _ => diverge

instance : Monad Res where
  pure := ok
  bind := bind

@[simp] theorem ok_bind {α β : Type} (a : α) (f : α → Res β) : (ok a >>= f) = f a := rfl
@[simp] theorem throw_bind {α β : Type} (e : Exn) (f : α → Res β) : (throw e >>= f) = throw e := rfl
@[simp] theorem abort_bind {α β : Type} (f : α → Res β) : ((abort : Res α) >>= f) = abort := rfl
@[simp] theorem ub_bind {α β : Type} (u : UB) (f : α → Res β) : ((ub u : Res α) >>= f) = ub u := rfl
@[simp] theorem diverge_bind {α β : Type} (f : α → Res β) : ((diverge : Res α) >>= f) = diverge := rfl
@[simp] theorem pure_eq {α : Type} (a : α) : (pure a : Res α) = ok a := rfl

theorem bind_assoc {α β γ : Type} (x : Res α) (f : α → Res β) (g : β → Res γ) :
    ((x >>= f) >>= g) = (x >>= fun a => f a >>= g) := by cases x <;> rfl

theorem bind_eq_ok {α β : Type} {x : Res α} {f : α → Res β} {b : β} (h : (x >>= f) = .ok b) :
    ∃ a, x = .ok a ∧ f a = .ok b := by
  cases x with
  | ok a => exact ⟨a, rfl, h⟩
  | _ => cases h

end Res

theorem bind_congr_of_ok {α β : Type} {x : Res α} {f g : α → Res β} (h : ∀ a, x = .ok a → f a = g a) :
    (x >>= f) = (x >>= g) := by
  cases x with
  | ok a => exact h a rfl
  | _ => rfl

/-- Build configuration.
`ndebug`: compiled with `-DNDEBUG`, so `assert` does nothing.  CMakeLists.txt sets no build
type, so by default asserts are live; setup.py:53 builds `Release`.
`strictShift`: the letter of C++17 (CMakeLists.txt:4), in which `E1 << n` with negative `E1` is
undefined; `false` is what GCC, Clang and C++20 do. -/
class Cfg where
  ndebug : Bool
  strictShift : Bool

/-- `assert(c)`. -/
def cassert [Cfg] (c : Prop) [Decidable c] : Res Unit :=
  if c then .ok () else if Cfg.ndebug then .ok () else .abort

@[simp] theorem cassert_pos [Cfg] {c : Prop} [Decidable c] (h : c) : cassert c = .ok () := by
  simp [cassert, h]

/-- `2^32`, the word base.  A notation, so that `omega` sees the literal. -/
notation "𝔹" => (4294967296 : Nat)

/-- Truncation to `uint32_t`. -/
def u32 (n : Nat) : Nat := n % 4294967296
/-- Truncation to `uint64_t`. -/
def u64 (n : Nat) : Nat := n % 18446744073709551616
/-- `static_cast<uint32_t>` of a signed number. -/
def u32i (z : Int) : Nat := (z % 4294967296).toNat
/-- `static_cast<uint64_t>` of a signed number. -/
def u64i (z : Int) : Nat := (z % 18446744073709551616).toNat
/-- `static_cast<int>(uint32_t)` (two's complement). -/
def i32 (n : Nat) : Int := if n % 4294967296 < 2147483648 then (n % 4294967296 : Nat)
  else (n % 4294967296 : Nat) - 4294967296
/-- `static_cast<long>(unsigned long)` (two's complement). -/
def i64 (n : Nat) : Int := if n % 18446744073709551616 < 9223372036854775808 then (n % 18446744073709551616 : Nat)
  else (n % 18446744073709551616 : Nat) - 18446744073709551616
/-- `uint64_t` subtraction `a - b` (wraps). -/
def u64sub (a b : Nat) : Nat := u64i ((a : Int) - b)
/-- `uint32_t` subtraction `a - b` (wraps). -/
def u32sub (a b : Nat) : Nat := u32i ((a : Int) - b)

/-- Result of a signed `long`/`int64_t` operation (LP64). -/
def long (z : Int) : Res Int :=
  if -9223372036854775808 ≤ z ∧ z < 9223372036854775808 then .ok z else .ub .signedOverflow
/-- Result of a signed `int` operation. -/
def int (z : Int) : Res Int :=
  if -2147483648 ≤ z ∧ z < 2147483648 then .ok z else .ub .signedOverflow
/-- A container size stored in an `int`. -/
def sizeInt (n : Nat) : Res Nat := if n < 2147483648 then .ok n else .ub .sizeNarrowing

/-- `a[i]`. -/
def idx {α : Type} (a : List α) (i : Nat) : Res α :=
  match a[i]? with
  | some x => .ok x
  | none => .ub .outOfBounds
/-- `a[i]` with a signed index. -/
def idxI {α : Type} (a : List α) (i : Int) : Res α :=
  if i < 0 then .ub .outOfBounds else idx a i.toNat
/-- `a[i] = v`. -/
def put {α : Type} (a : List α) (i : Nat) (v : α) : Res (List α) :=
  if i < a.length then .ok (a.set i v) else .ub .outOfBounds
/-- `a[i] = v` with a signed index. -/
def putI {α : Type} (a : List α) (i : Int) (v : α) : Res (List α) :=
  if i < 0 then .ub .outOfBounds else put a i.toNat v
/-- The memory range `[off, off+len)` of an array, as handed to a pointer+length parameter. -/
def slice {α : Type} (a : List α) (off len : Nat) : Res (List α) :=
  if off + len ≤ a.length then .ok ((a.drop off).take len) else .ub .outOfBounds

end BigIntegerCpp
