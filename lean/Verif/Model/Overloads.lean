import Verif.Model.Bits
import Verif.Model.Pow
import Verif.Model.Convert
import Verif.Spec
/-
Which function the compiler calls when objects meet built-in numbers: overload resolution of C++17 ([over.match],
[over.best.ics], [over.built]) for the declarations of include/public/bigintegercpp/BigInteger.h.  Objects convert implicitly in both
directions: from numbers by the constructors (lines 24-32), to numbers by the conversion functions (lines 53-63; the
comment there says "explicit casts", but none is declared `explicit`, and none is `const`).

Simplifications: `char16_t`, `char32_t`, `wchar_t`, enumerations and extended types are left out; so are the candidates
that no number or object converts to (the constructors from arrays, stream operators).
-/
namespace BigIntegerCpp
namespace Overload

/-- The arithmetic types. -/
inductive Ty where
  | bool | char | schar | uchar | short | ushort | int | uint | long | ulong | llong | ullong | float | double | ldouble
  deriving DecidableEq, Repr

/-- All of them. -/
def Ty.all : List Ty :=
  [.bool, .char, .schar, .uchar, .short, .ushort, .int, .uint, .long, .ulong, .llong, .ullong, .float, .double, .ldouble]

/-- What `int64_t` is: `long` on 64-bit Linux, `long long` on macOS.  `int` has 32 bits, `long` and `long long` 64. -/
inductive Platform where
  | linux | macos
  deriving DecidableEq, Repr

def Platform.int64 : Platform → Ty | .linux => .long | .macos => .llong
def Platform.uint64 : Platform → Ty | .linux => .ulong | .macos => .ullong

/-- [over.ics.scs] the rank of the standard conversion from one arithmetic type to another: 0 exact match, 1 promotion
([conv.prom], [conv.fpprom]), 2 conversion. -/
def rank (s t : Ty) : Nat :=
  if s = t then 0
  else if t = .int ∧ s ∈ [Ty.bool, .char, .schar, .uchar, .short, .ushort] then 1
  else if t = .double ∧ s = .float then 1
  else 2

/-- BigInteger.h:24-32 the parameters of the constructors that take one number. -/
def ctors (p : Platform) : List Ty := [.int, .uint, p.int64, p.uint64, .double]

/-- BigInteger.h:53-63 the results of the conversion functions. -/
def convs : List Ty := [.int, .uint, .long, .ulong, .double, .float]

/-- The unique element that is better than all others, if there is one. -/
def best {α : Type} [DecidableEq α] (better : α → α → Bool) (l : List α) : Option α :=
  l.find? fun a => l.all fun b => b = a || better a b

/-- [over.match.copy] the constructor that makes an object from a number of type `s`. -/
def ctorFor (p : Platform) (s : Ty) : Option Ty := best (fun a b => rank s a < rank s b) (ctors p)

/-- [over.match.conv] the conversion function that makes a number of type `t` from an object. -/
def convFor (t : Ty) : Option Ty := best (fun a b => rank a t < rank b t) convs

/-- An operand: a number, or an object that is `const` or not. -/
inductive Arg where
  | num (t : Ty)
  | obj (isConst : Bool)
  deriving DecidableEq, Repr

/-- A parameter: a number, `BigInteger` or `const BigInteger&`, the object of a member function that is not `const`. -/
inductive Param where
  | num (t : Ty)
  | obj
  | self
  deriving DecidableEq, Repr

/-- [over.best.ics] an implicit conversion sequence: standard, by a constructor, by a conversion function (and a
standard conversion after it), or ambiguous. -/
inductive Seq where
  | std (r : Nat)
  | ctor (t : Ty)
  | conv (t : Ty) (r : Nat)
  | ambiguous
  deriving DecidableEq, Repr

/-- [over.best.ics] the conversion of an operand to a parameter; `none` if there is none.  The conversion functions are
not `const`. -/
def sequence (p : Platform) : Arg → Param → Option Seq
  | .num s, .num t => some (.std (rank s t))
  | .num s, .obj => some (match ctorFor p s with | some t => .ctor t | none => .ambiguous)
  | .num _, .self => none
  | .obj c, .num t =>
    if c then none else some (match convFor t with | some f => .conv f (rank f t) | none => .ambiguous)
  | .obj _, .obj => some (.std 0)
  | .obj c, .self => if c then none else some (.std 0)

/-- [over.ics.rank] the first sequence is better: a standard one by its rank, a standard one than any other, two by the
same conversion function by the rank of what follows. -/
def Seq.better : Seq → Seq → Bool
  | .std r, .std s => r < s
  | .std _, _ => true
  | .conv f r, .conv g s => f = g && r < s
  | _, _ => false

/-- A candidate: a function of the library, or a built-in operator on these types. -/
inductive Callee where
  | library
  | builtin (l r : Ty)
  deriving DecidableEq, Repr

/-- A candidate with the conversions of its arguments. -/
structure Cand where
  callee : Callee
  seqs : List Seq
  deriving DecidableEq, Repr

/-- [over.match.best] the first candidate is better: no argument worse, one better. -/
def Cand.better (c d : Cand) : Bool :=
  let pairs := c.seqs.zip d.seqs
  (pairs.all fun (s, t) => !t.better s) && pairs.any fun (s, t) => s.better t

/-- [over.match.viable] the candidate, if every argument converts. -/
def viable (p : Platform) (args : List Arg) (callee : Callee) (params : List Param) : Option Cand :=
  ((args.zip params).mapM fun (a, q) => sequence p a q).map fun seqs => ⟨callee, seqs⟩

/-- [over.match] the function called; `none` if the expression does not compile. -/
def resolve (p : Platform) (args : List Arg) (cands : List (Callee × List Param)) : Option Callee :=
  match best Cand.better (cands.filterMap fun (f, params) => viable p args f params) with
  | some c => if .ambiguous ∈ c.seqs then none else some c.callee
  | none => none

/-- [over.built] promoted integral types and promoted arithmetic types. -/
def promotedIntegral : List Ty := [.int, .uint, .long, .ulong, .llong, .ullong]
def promoted : List Ty := promotedIntegral ++ [.float, .double, .ldouble]

/-- [over.built] the built-in binary operators on pairs of these types. -/
def builtins (ts : List Ty) : List (Callee × List Param) :=
  ts.flatMap fun l => ts.map fun r => (.builtin l r, [.num l, .num r])

/-- The binary operators that take two objects. -/
inductive Op where
  | add | sub | mul | div | rem | and | or | xor
  deriving DecidableEq, Repr
/-- The comparisons. -/
inductive Cmp where
  | lt | gt | le | ge | eq | ne
  deriving DecidableEq, Repr

/-- [over.built] the operand types of the built-in operator: `%`, `&`, `|` and `^` are for integers. -/
def Op.types : Op → List Ty
  | .add | .sub | .mul | .div => promoted
  | .rem | .and | .or | .xor => promotedIntegral

/-- BigInteger.h:204-218 `a op b`: `BigInteger operator+(BigInteger, const BigInteger&)` and so on, and the built-in
operators. -/
def binary (p : Platform) (op : Op) (a b : Arg) : Option Callee :=
  resolve p [a, b] ((.library, [.obj, .obj]) :: builtins op.types)

/-- BigInteger.h:40-50 `a < b` and so on: `friend bool operator<(const BigInteger&, const BigInteger&)`, and the built-in
operators. -/
def compare (p : Platform) (a b : Arg) : Option Callee :=
  resolve p [a, b] ((.library, [.obj, .obj]) :: builtins promoted)

/-- BigInteger.h:220-222 `a << b`, `a >> b`: `BigInteger operator<<(BigInteger, const int)`, and the built-in operators. -/
def shift (p : Platform) (a b : Arg) : Option Callee :=
  resolve p [a, b] ((.library, [.obj, .num .int]) :: builtins promotedIntegral)

/-- BigInteger.h:108-154 `x op= b` for an object `x`: the member function; the built-in operators need an lvalue of
arithmetic type on the left. -/
def compound (p : Platform) (a b : Arg) : Option Callee := resolve p [a, b] [(.library, [.self, .obj])]

/-- BigInteger.h:146-148 `x <<= b`, `x >>= b`. -/
def compoundShift (p : Platform) (a b : Arg) : Option Callee := resolve p [a, b] [(.library, [.self, .num .int])]

/-- [over.built] `v op= x` for a variable `v` of arithmetic type `s`: the built-in operator with any promoted type on the
right. -/
def compoundNumber (p : Platform) (s : Ty) (b : Arg) : Option Callee :=
  resolve p [.num s, b] (promoted.map fun r => (.builtin s r, [.num s, .num r]))

/-- BigInteger.h:124, :136, :156 `+x`, `-x`, `~x`: the member function and the built-in operators (`~` for integers). -/
def unary (p : Platform) (integral : Bool) (a : Arg) : Option Callee :=
  resolve p [a] ((.library, [.self]) :: (if integral then promotedIntegral else promoted).map fun t => (.builtin t t, [.num t]))

/-- `!x`, `if (x)`, and `x && y`, `x || y` from the side of `x`: built-in, on `bool`. -/
def truth (p : Platform) (a : Arg) : Option Callee := resolve p [a] [(.builtin .bool .bool, [.num .bool])]

/-- BigInteger.h:95 `BigInteger::pow(a, b)`. -/
def power (p : Platform) (a b : Arg) : Option Callee := resolve p [a, b] [(.library, [.obj, .num .int])]

/-- `T v = x;` the conversion function used. -/
def initNumber (a : Arg) (t : Ty) : Option Ty :=
  match a with
  | .obj false => convFor t
  | .obj true => none
  | .num s => some s

/-! ### Values -/

/-- A number: of an integer type; of type `float` or `double`, given by the pattern of the `double` of its value; a
`long double`, of which only the integral part is kept (`none` if it is not finite). -/
inductive Number where
  | int (t : Ty) (v : Int)
  | flt (t : Ty) (d : Nat)
  | ext (n : Option Int)

def Number.ty : Number → Ty
  | .int t _ => t
  | .flt t _ => t
  | .ext _ => .ldouble

/-- [conv.integral] conversion to a type of `n` bits (implementation-defined before C++20 for signed types; GCC and
Clang, and C++20: modulo 2^n). -/
def wrapSigned (n : Nat) (v : Int) : Int := (v + 2 ^ (n - 1)) % 2 ^ n - 2 ^ (n - 1)

/-- [conv.integral], [conv.fpint] the argument of a parameter of type `int`; a floating-point number whose integral part
is not an `int` is undefined. -/
def Number.toInt : Number → Res Int
  | .int _ v => .ok (wrapSigned 32 v)
  | .flt _ d =>
    if dblExp d = 2047 then .ub .signedOverflow
    else
      let n := (dblScaled d).tdiv (2 ^ 1074)
      if -2147483648 ≤ n ∧ n < 2147483648 then .ok n else .ub .signedOverflow
  | .ext none => .ub .signedOverflow
  | .ext (some n) => if -2147483648 ≤ n ∧ n < 2147483648 then .ok n else .ub .signedOverflow

section
variable [Cfg]

/-- BigInteger.h:24-32 the call of the constructor with parameter type `t`, after the standard conversion of its
argument.  The combinations left out are never selected. -/
def callCtor (p : Platform) (t : Ty) (n : Number) : Res BigInt :=
  match n with
  | .int _ v =>
    if t = .int then ofInt32 (wrapSigned 32 v)
    else if t = .uint then ofUInt32 (v % 2 ^ 32).toNat
    else if t = p.int64 then ofInt64 (wrapSigned 64 v)
    else if t = p.uint64 then ofUInt64 (v % 2 ^ 64).toNat
    else .diverge
  | .flt _ d => if t = .double then ofDouble d else .diverge
  | .ext _ => .diverge

/-- `BigInteger x = n;`, and the conversion of a number where an object is wanted; `none` if it does not compile. -/
def construct (p : Platform) (n : Number) : Option (Res BigInt) := (ctorFor p n.ty).map fun t => callCtor p t n

/-- What an expression means: it does not compile, a call of the library, a built-in operator. -/
inductive Meaning (α : Type) where
  | error
  | library (r : Res α)
  | builtin (l r : Ty)

/-- The functions of the library behind the operators. -/
def Op.call : Op → BigInt → BigInt → Res BigInt
  | .add => BigInt.add | .sub => BigInt.sub | .mul => BigInt.mul | .div => BigInt.div
  | .rem => BigInt.rem | .and => BigInt.and | .or => BigInt.or | .xor => BigInt.xor
def Cmp.call : Cmp → BigInt → BigInt → Res Bool
  | .lt => BigInt.lt | .gt => BigInt.gt | .le => BigInt.le | .ge => BigInt.ge | .eq => BigInt.equals | .ne => BigInt.ne

/-- An operand with its value. -/
inductive Operand where
  | num (n : Number)
  | obj (isConst : Bool) (x : BigInt)

def Operand.arg : Operand → Arg
  | .num n => .num n.ty
  | .obj c _ => .obj c

/-- An operand where an object is wanted. -/
def Operand.toObj (p : Platform) : Operand → Res BigInt
  | .num n => (construct p n).getD .diverge
  | .obj _ x => .ok x

/-- An operand where an `int` is wanted. -/
def Operand.toInt : Operand → Res Int
  | .num n => n.toInt
  | .obj _ x => x.toInt32

def meaning {α : Type} (c : Option Callee) (r : Res α) : Meaning α :=
  match c with
  | none => .error
  | some .library => .library r
  | some (.builtin l r) => .builtin l r

/-- `a op b`. -/
def evalBinary (p : Platform) (op : Op) (a b : Operand) : Meaning BigInt :=
  meaning (binary p op a.arg b.arg) do op.call (← a.toObj p) (← b.toObj p)
/-- `a < b` and so on. -/
def evalCompare (p : Platform) (op : Cmp) (a b : Operand) : Meaning Bool :=
  meaning (compare p a.arg b.arg) do op.call (← a.toObj p) (← b.toObj p)
/-- `x op= b`: the new value of `x`. -/
def evalCompound (p : Platform) (op : Op) (x : BigInt) (b : Operand) : Meaning BigInt :=
  meaning (compound p (.obj false) b.arg) do op.call x (← b.toObj p)
/-- `a << b`, `a >> b`. -/
def evalShift (p : Platform) (left : Bool) (a b : Operand) : Meaning BigInt :=
  meaning (shift p a.arg b.arg) do
    let x ← a.toObj p
    let n ← b.toInt
    if left then x.shl n else x.shr n
/-- `x <<= b`, `x >>= b`: the new value of `x`. -/
def evalCompoundShift (p : Platform) (left : Bool) (x : BigInt) (b : Operand) : Meaning BigInt :=
  meaning (compoundShift p (.obj false) b.arg) do
    let n ← b.toInt
    if left then x.shl n else x.shr n
/-- `BigInteger::pow(a, b)`. -/
def evalPower (p : Platform) (a b : Operand) : Meaning BigInt :=
  meaning (power p a.arg b.arg) do
    let x ← a.toObj p
    let n ← b.toInt
    x.pow n
end

end Overload
end BigIntegerCpp
