import Verif.Basic
/-
Memory of the word arrays, for the pointer versions of the routines in
src/BigIntegerCalculator/*.cpp (include/BigIntegerCalculator.h:60-160 declares them with
`uint32_t*` parameters).

The other models give a routine the lists of words its pointers refer to.  Here a pointer is an
address, arrays may be parts of one another, every access is checked against the block it falls
in, and loops run over an index.
-/
namespace BigIntegerCpp

/-- A `uint32_t*`: a block (one `std::vector<uint32_t>`) and an offset in words. -/
structure Ptr where
  blk : Nat
  off : Nat
  deriving DecidableEq, Repr

/-- Pointer arithmetic `p + n`, also `&p[n]`. -/
def Ptr.plus (p : Ptr) (n : Nat) : Ptr := ⟨p.blk, p.off + n⟩

/-- The live blocks.  A new block is appended; local arrays go away in the reverse order of
their creation when their scope ends, so the live blocks are always an initial part. -/
abbrev Mem := List (List Nat)

namespace Mem

/-- The contents of a block; a block that does not exist is empty. -/
def block (m : Mem) (b : Nat) : List Nat := m.getD b []

/-- `p[i]` as a value. -/
def load (m : Mem) (p : Ptr) (i : Nat) : Res Nat := idx (m.block p.blk) (p.off + i)

/-- Overwrite one word. -/
def poke (m : Mem) (p : Ptr) (v : Nat) : Mem := m.set p.blk ((m.block p.blk).set p.off v)

/-- `p[i] = v`. -/
def store (m : Mem) (p : Ptr) (i v : Nat) : Res Mem :=
  if p.off + i < (m.block p.blk).length then .ok (m.poke (p.plus i) v) else .ub .outOfBounds

/-- Definition of a local `uint_array` with the given contents: its address (`.data()`, `&a[0]`)
and the memory with it. -/
def alloc (m : Mem) (ws : List Nat) : Ptr × Mem := (⟨m.length, 0⟩, m ++ [ws])

/-- End of a scope at whose beginning there were `n` blocks. -/
def release (m : Mem) (n : Nat) : Mem := m.take n

end Mem

/-- `for (; i < n; i++) body` with the variables `s`; returns `i` and the variables. -/
def forLoop {σ : Type} (n : Nat) (body : Nat → σ → Res σ) (i : Nat) (s : σ) : Res (Nat × σ) :=
  if _h : i < n then do
    let s ← body i s
    forLoop n body (i + 1) s
  else .ok (i, s)
termination_by n - i

/-- `for (; cond && i < n; i++) body`. -/
def forWhile {σ : Type} (cond : σ → Bool) (n : Nat) (body : Nat → σ → Res σ) (i : Nat) (s : σ) :
    Res (Nat × σ) :=
  if _h : cond s = true ∧ i < n then do
    let s ← body i s
    forWhile cond n body (i + 1) s
  else .ok (i, s)
termination_by n - i

/-- `for (int i = n - 1; i >= 0; i--) body`. -/
def forDown {σ : Type} (body : Nat → σ → Res σ) : Nat → σ → Res σ
  | 0, s => .ok s
  | n + 1, s => do
    let s ← body n s
    forDown body n s

end BigIntegerCpp
