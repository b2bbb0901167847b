import Verif.Spec
import Verif.Model.Memory
/-
Vocabulary for statements about word arrays in memory.
-/
namespace BigIntegerCpp

/-- Word `j` of block `b`, if there is one. -/
def Mem.word (m : Mem) (b j : Nat) : Option Nat := (m.getD b [])[j]?

/-- The memory can be read and written at `p[0], ..., p[n-1]`. -/
def Mem.Room (m : Mem) (p : Ptr) (n : Nat) : Prop := ∀ i, i < n → ∃ w, m.word p.blk (p.off + i) = some w

/-- The words at `p` are `ws`. -/
abbrev Mem.Words (m : Mem) (p : Ptr) (ws : List Nat) : Prop :=
  ∀ i (h : i < ws.length), m.word p.blk (p.off + i) = some ws[i]

/-- The `n` words at `p` are the little-endian form of `v`. -/
def Mem.Number (m : Mem) (p : Ptr) (n v : Nat) : Prop :=
  ∃ ws : List Nat, ws.length = n ∧ WordsOk ws ∧ val ws = v ∧
    ∀ i (h : i < ws.length), m.word p.blk (p.off + i) = some ws[i]

/-- The ranges `p[0..k)` and `q[0..n)` have no word in common. -/
def Apart (p : Ptr) (k : Nat) (q : Ptr) (n : Nat) : Prop :=
  ∀ i j, i < k → j < n → ¬ (p.blk = q.blk ∧ p.off + i = q.off + j)

/-- The two memories have the same blocks, and agree on every word outside `p[0..n)`. -/
def Mem.SameBut (m m' : Mem) (p : Ptr) (n : Nat) : Prop :=
  m'.length = m.length ∧
  ∀ b j, ¬ (b = p.blk ∧ p.off ≤ j ∧ j < p.off + n) → m'.word b j = m.word b j

/-- Likewise outside two ranges. -/
def Mem.SameBut₂ (m m' : Mem) (p : Ptr) (n : Nat) (q : Ptr) (k : Nat) : Prop :=
  m'.length = m.length ∧
  ∀ b j, ¬ (b = p.blk ∧ p.off ≤ j ∧ j < p.off + n) → ¬ (b = q.blk ∧ q.off ≤ j ∧ j < q.off + k) →
    m'.word b j = m.word b j

end BigIntegerCpp
