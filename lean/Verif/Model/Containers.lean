import Verif.Model.Program
import Verif.Model.PythonDispatch
/-
Algorithms and containers that hold objects and look at them only through the relational operators, `compare_to` and the
hash: `std::sort`, `std::set`, `std::map`, `std::unordered_set` with `get_hash_code`, Python's `sorted`, `set` and `dict`.
They have no counterpart in the repository; what is modelled is how they use it.
-/
namespace BigIntegerCpp
variable [Cfg]

/-- An algorithm on objects with numbers 0, 1, …: what it asks about them, and what it does depending on the answers. -/
inductive Alg (α : Type) where
  /-- no more questions -/
  | done (a : α)
  /-- `x_i < x_j`, `x_i == x_j`, … -/
  | compare (r : Rel) (i j : Nat) (k : Bool → Alg α)
  /-- the hash of `x_i` -/
  | hash (i : Nat) (k : Int → Alg α)

/-- Sequencing. -/
def Alg.bind {α β : Type} : Alg α → (α → Alg β) → Alg β
  | .done a, f => f a
  | .compare r i j k, f => .compare r i j fun b => (k b).bind f
  | .hash i k, f => .hash i fun h => (k h).bind f

/-- The algorithm on `BigInteger` objects in C++, with BigInteger.h:40-50 and `get_hash_code` (BigInteger.cpp:1772-1779). -/
def Alg.run {α : Type} (σ : Nat → BigInt) : Alg α → Res α
  | .done a => .ok a
  | .compare r i j k => do
    let b ← r.apply (σ i) (σ j)
    (k b).run σ
  | .hash i k => (k (σ i).hashCode).run σ

/-- The comparison of Python for an operator of C++. -/
def Rel.toPy : Rel → PyCmp
  | .lt => .lt | .le => .le | .gt => .gt | .ge => .ge | .eq => .eq | .ne => .ne

/-- CPython's `hash(n)` of an `int` (`long_hash`): the remainder by `2^61 - 1` with the sign of `n`, and -2 for -1. -/
def pyIntHash (z : Int) : Int :=
  let h := z.tmod 2305843009213693951
  if h = -1 then -2 else h

/-- `hash(o)`, for a `BigInteger` by python-bindings.cpp:117-121 (CPython turns -1 into -2). -/
def pyObjectHash : PyObject → Option Int
  | .big a => some (if pyHash a = -1 then -2 else pyHash a)
  | .int n => some (pyIntHash n.value)
  | _ => none

/-- The algorithm on Python objects; exceptions of a comparison end it. -/
def Alg.runPy {α : Type} (σ : Nat → PyObject) : Alg α → PyOut α
  | .done a => .value a
  | .compare r i j k =>
    match pyCompare r.toPy (σ i) (σ j) with
    | .value b => (k b).runPy σ
    | .raises e => .raises e
    | .elsewhere => .elsewhere
    | .cpp (.ub u) => .cpp (.ub u)
    | .cpp .abort => .cpp .abort
    | .cpp _ => .cpp .diverge
  | .hash i k =>
    match pyObjectHash (σ i) with
    | some h => (k h).runPy σ
    | none => .elsewhere

/-! ### sorting, ordered sets, hashed sets -/

/-- Insertion into a sorted sequence, before the first object that is greater (the simplest sorting algorithm; the library's
are covered by the theorems on all algorithms). -/
def insertSorted (i : Nat) : List Nat → Alg (List Nat)
  | [] => .done [i]
  | j :: js => .compare .lt i j fun b => if b then .done (i :: j :: js) else (insertSorted i js).bind fun r => .done (j :: r)

/-- The objects in ascending order, equal ones in the order in which they came. -/
def sortAll : List Nat → List Nat → Alg (List Nat)
  | [], acc => .done acc
  | i :: is, acc => (insertSorted i acc).bind (sortAll is)

/-- Insertion into a `std::set`: two objects are the same key if neither is less than the other.  Simplified: the search runs
along the sequence of keys, not down a tree. -/
def insertKey (i : Nat) : List Nat → Alg (List Nat)
  | [] => .done [i]
  | j :: js => .compare .lt i j fun b => if b then .done (i :: j :: js) else
      .compare .lt j i fun b => if b then (insertKey i js).bind fun r => .done (j :: r) else .done (j :: js)

/-- A `std::set` of the objects. -/
def orderedSet : List Nat → List Nat → Alg (List Nat)
  | [], acc => .done acc
  | i :: is, acc => (insertKey i acc).bind (orderedSet is)

/-- Look-up of `x_i`, of hash `h`, among the entries of a hash table: entries of the same hash are compared with `==`.
Simplified: buckets and probing, which only leave out entries of other hashes, and Python's test for identity before `==`
are not modelled. -/
def findKey (h : Int) (i : Nat) : List (Int × Nat) → Alg Bool
  | [] => .done false
  | (g, j) :: es => if g = h then .compare .eq j i fun b => if b then .done true else findKey h i es else findKey h i es

/-- A hashed set of the objects, in the order in which they were entered (Python's `set`, and the keys of a `dict`;
`std::unordered_set` with `get_hash_code`). -/
def hashedSet : List Nat → List (Int × Nat) → Alg (List Nat)
  | [], es => .done (es.map Prod.snd)
  | i :: is, es => .hash i fun h => (findKey h i es).bind fun b => if b then hashedSet is es else hashedSet is (es ++ [(h, i)])

end BigIntegerCpp
