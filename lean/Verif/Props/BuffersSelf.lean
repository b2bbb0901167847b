import Verif.Lemmas.SelfReduce
import Verif.Lemmas.Buffers
/-
C90: a buffer reduced by itself, in memory: `divide` reads the divisor from the array it changes.
-/
namespace BigIntegerCpp
open Mem
variable [Cfg]

/-- C90.  `b.Reduce(b)` for a buffer that shows a number other than 0: all its words become 0 and its length 0, and
nothing else in memory changes. -/
theorem C90_reduce_self (size x : Nat) (b : MBuf) (m : Mem) (hs : (⟨m.block b.blk, b.length⟩ : BitsBuffer).Shows size x) (hx : x ≠ 0) :
    b.reduce b.data b.length m = .ok (⟨b.blk, 0⟩, m.set b.blk (List.replicate size 0)) := by
  have B := shows_iff.1 hs
  obtain ⟨b1, n⟩ := b
  have hsz : (m.block b1).length = size := B.size
  have hl : n = trimLen (m.block b1) := B.len
  have hv : val (m.block b1) = x := B.value
  have hn : n ≤ (m.block b1).length := by rw [hl]; exact trimLen_le _
  have hne : (m.block b1).take n ≠ [] := by
    intro h
    have := val_take_trimLen (m.block b1)
    rw [← hl, h, hv] at this
    exact hx this.symm
  have hlen : ((m.block b1).take n).length = n := List.length_take_of_le hn
  rw [reduceSelf_eq (b := ⟨b1, n⟩) (xs := (m.block b1).take n) (B.words.take n) (at_take m b1 n) hlen.symm hne
    (by rw [hl]; exact getLast_take_trimLen _), hlen]
  congr 2
  have hd : (m.block b1).drop n = List.replicate (size - n) 0 := by rw [hl, drop_trimLen, hsz]
  have key : (m.write ⟨b1, 0⟩ (List.replicate n 0)).block b1 = List.replicate size 0 := by
    rw [block_write0 (by simpa using hn), List.length_replicate, hd, List.replicate_append_replicate]
    congr 1; omega
  have hb : b1 < m.length := by
    by_contra h
    have : m.block b1 = [] := by unfold Mem.block; rw [List.getD_eq_default _ _ (by omega)]
    rw [this] at hne
    exact hne (by simp)
  have hlw : (m.write ⟨b1, 0⟩ (List.replicate n 0)).length = m.length := length_write _ _ _
  have hother : ∀ i, i ≠ b1 → (m.write ⟨b1, 0⟩ (List.replicate n 0)).block i = m.block i := fun i hi => block_write_ne _ _ _ hi
  show m.write ⟨b1, 0⟩ (List.replicate n 0) = m.set b1 (List.replicate size 0)
  generalize m.write ⟨b1, 0⟩ (List.replicate n 0) = m' at *
  refine List.ext_getElem (by simpa using hlw) fun i h1 h2 => ?_
  have e1 : m'[i] = m'.block i := by unfold Mem.block; rw [List.getD_eq_getElem _ _ h1]
  rw [e1]
  by_cases hi : i = b1
  · subst hi; rw [key]; simp
  · rw [hother i hi, List.getElem_set_ne (Ne.symm hi)]
    unfold Mem.block; rw [List.getD_eq_getElem]

/-- `C90_reduce_self` at `7 · 2^32 + 5` in four words, with another array in memory. -/
example : (⟨1, 2⟩ : MBuf).reduce ⟨1, 0⟩ 2 [[1, 2], [5, 7, 0, 0], [3]] = .ok (⟨1, 0⟩, [[1, 2], [0, 0, 0, 0], [3]]) :=
  C90_reduce_self 4 30064771077 ⟨1, 2⟩ [[1, 2], [5, 7, 0, 0], [3]]
    (shows_iff.2 ⟨rfl, by decide, by decide, by decide⟩) (by decide)

end BigIntegerCpp
