import Verif.Lemmas.Cost
import Verif.Lemmas.DivRem
import Verif.Lemmas.Closure
/-
Division, addition and subtraction: the routines with costs have the outcomes of the routines
without; bounds for the costs.
-/
set_option linter.unusedSectionVars false
namespace BigIntegerCpp
open Counted

namespace Cost
variable [Cfg]

/-! ### Outcomes -/

theorem divWordLoop_res : ∀ (l : List Nat) (y : Nat), (divWordLoop l y).res = BigIntegerCpp.divWordLoop l y
  | [], _ => rfl
  | x :: xs, y => by
    rw [divWordLoop, BigIntegerCpp.divWordLoop]
    simp only [bind_res, divWordLoop_res xs y]
    refine bind_congr_of_ok fun p _ => ?_
    obtain ⟨q, c⟩ := p
    simp only [tick_res, Res.ok_bind]
    by_cases h : y = 0
    · rw [if_pos h, if_pos h]; rfl
    · rw [if_neg h, if_neg h]; rfl

theorem divideWord_res (l : List Nat) (y : Nat) : (divideWord l y).res = BigIntegerCpp.divideWord l y := by
  simp only [divideWord, BigIntegerCpp.divideWord, bind_res, lift_res, tick_res, Res.ok_bind, divWordLoop_res, pure_res]

theorem remWordLoop_res : ∀ (l : List Nat) (y : Nat), (remWordLoop l y).res = BigIntegerCpp.remWordLoop l y
  | [], _ => rfl
  | x :: xs, y => by
    rw [remWordLoop, BigIntegerCpp.remWordLoop]
    simp only [bind_res, remWordLoop_res xs y]
    refine bind_congr_of_ok fun c _ => ?_
    simp only [tick_res, Res.ok_bind]
    by_cases h : y = 0
    · rw [if_pos h, if_pos h]; rfl
    · rw [if_neg h, if_neg h]; rfl

theorem remainderWord_res (l : List Nat) (y : Nat) : (remainderWord l y).res = BigIntegerCpp.remainderWord l y := by
  simp only [remainderWord, BigIntegerCpp.remainderWord, bind_res, lift_res, remWordLoop_res, pure_res]

theorem addDivisor_res : ∀ (l r : List Nat) (c : Nat), (addDivisor l r c).res = BigIntegerCpp.addDivisor l r c
  | l, [], c => by rw [addDivisor, BigIntegerCpp.addDivisor]; rfl
  | [], _ :: _, _ => rfl
  | x :: xs, y :: ys, c => by
    rw [addDivisor, BigIntegerCpp.addDivisor]
    simp only [bind_res, tick_res, Res.ok_bind, addDivisor_res xs ys, pure_res]

theorem subtractDivisor_res : ∀ (l r : List Nat) (q c : Nat), (subtractDivisor l r q c).res = BigIntegerCpp.subtractDivisor l r q c
  | l, [], q, c => by rw [subtractDivisor, BigIntegerCpp.subtractDivisor]; rfl
  | [], _ :: _, _, _ => rfl
  | x :: xs, y :: ys, q, c => by
    rw [subtractDivisor, BigIntegerCpp.subtractDivisor]
    simp only [bind_res, tick_res, Res.ok_bind, subtractDivisor_res xs ys, pure_res]

theorem fixGuess_res (vh vl dh dl : Nat) : ∀ d, (fixGuess vh vl dh dl d).res = .ok (BigIntegerCpp.fixGuess vh vl dh dl d)
  | 0 => rfl
  | d + 1 => by
    rw [fixGuess, BigIntegerCpp.fixGuess]
    simp only [bind_res, tick_res, Res.ok_bind]
    by_cases h : divideGuessTooBig (d + 1) vh vl dh dl = true
    · rw [if_pos h, if_pos h, fixGuess_res]
    · rw [if_neg h, if_neg h]; rfl

theorem divideGuess_res (l r : List Nat) (s h lo n : Nat) : (divideGuess l r s h lo n).res = BigIntegerCpp.divideGuess l r s h lo n := by
  unfold divideGuess BigIntegerCpp.divideGuess
  simp only [bind_res, lift_res]
  refine bind_congr_of_ok fun t _ => bind_congr_of_ok fun v _ => bind_congr_of_ok fun v2 _ => bind_congr_of_ok fun p _ => ?_
  obtain ⟨vh, vl⟩ := p
  dsimp only
  by_cases hd : h = 0
  · rw [if_pos hd, if_pos hd]; rfl
  · rw [if_neg hd, if_neg hd]
    simp only [bind_res, fixGuess_res, Res.ok_bind, pure_res]

theorem divideApply_res (l r : List Nat) (n t d : Nat) : (divideApply l r n t d).res = BigIntegerCpp.divideApply l r n t d := by
  unfold divideApply BigIntegerCpp.divideApply
  dsimp only
  rw [bind_res]
  have e : (if d > 0 then do
      let mem ← lift (slice l n (l.length - n))
      lift (cassert (l.length - n ≥ r.length))
      let (mem, carry) ← subtractDivisor mem r d 0
      if carry ≠ t then do
        lift (cassert (carry = u32 (t + 1)))
        let (mem, carry) ← addDivisor mem r 0
        lift (cassert (carry = 1))
        pure (l.take n ++ mem, d - 1)
      else pure (l.take n ++ mem, d)
    else pure (l, d) : Counted (List Nat × Nat)).res = (if d > 0 then do
      let mem ← slice l n (l.length - n)
      cassert (l.length - n ≥ r.length)
      let (mem, carry) ← BigIntegerCpp.subtractDivisor mem r d 0
      if carry ≠ t then do
        cassert (carry = u32 (t + 1))
        let (mem, carry) ← BigIntegerCpp.addDivisor mem r 0
        cassert (carry = 1)
        .ok (l.take n ++ mem, d - 1)
      else .ok (l.take n ++ mem, d)
    else .ok (l, d) : Res (List Nat × Nat)) := by
    by_cases hd : d > 0
    · rw [if_pos hd, if_pos hd]
      simp only [bind_res, lift_res, subtractDivisor_res]
      refine bind_congr_of_ok fun mem _ => bind_congr_of_ok fun _ _ => bind_congr_of_ok fun p _ => ?_
      obtain ⟨m, c⟩ := p
      dsimp only
      by_cases hc : c ≠ t
      · rw [if_pos hc, if_pos hc]
        simp only [bind_res, lift_res, addDivisor_res, pure_res]
      · rw [if_neg hc, if_neg hc]; rfl
    · rw [if_neg hd, if_neg hd]; rfl
  rw [e]
  refine bind_congr_of_ok fun p _ => ?_
  obtain ⟨m, c⟩ := p
  simp only [bind_res, lift_res, pure_res]

theorem divideStep_res (l r : List Nat) (s h lo n : Nat) : (divideStep l r s h lo n).res = BigIntegerCpp.divideStep l r s h lo n := by
  simp only [divideStep, BigIntegerCpp.divideStep, bind_res, tick_res, Res.ok_bind, divideGuess_res, divideApply_res]

theorem divideLoop_res (r : List Nat) (s h lo : Nat) : ∀ (k : Nat) (l b : List Nat), (divideLoop r s h lo k l b).res = BigIntegerCpp.divideLoop r s h lo k l b
  | 0, l, b => rfl
  | k + 1, l, b => by
    rw [divideLoop, BigIntegerCpp.divideLoop]
    simp only [bind_res, divideStep_res, lift_res, divideLoop_res r s h lo k]

theorem divideCore_res (l r b : List Nat) : (divideCore l r b).res = BigIntegerCpp.divideCore l r b := by
  simp only [divideCore, BigIntegerCpp.divideCore, bind_res, lift_res, divideLoop_res]

theorem divideVec_res (l r : List Nat) : (divideVec l r).res = BigIntegerCpp.divideVec l r := by
  simp only [divideVec, BigIntegerCpp.divideVec, scope_res, bind_res, lift_res, tick_res, Res.ok_bind, divideCore_res, pure_res]

theorem remainderVec_res (l r : List Nat) : (remainderVec l r).res = BigIntegerCpp.remainderVec l r := by
  simp only [remainderVec, BigIntegerCpp.remainderVec, bind_res, lift_res, tick_res, Res.ok_bind, divideCore_res, pure_res]

theorem div_res (a b : BigInt) : (div a b).res = a.div b := by
  unfold div BigInt.div
  simp only [scope_res, bind_res, lift_res]
  refine bind_congr_of_ok fun _ _ => bind_congr_of_ok fun _ _ => ?_
  by_cases h1 : a.bits = [] ∧ b.bits = []
  · rw [if_pos h1, if_pos h1]
    by_cases h : b.sign = 0
    · rw [if_pos h, if_pos h, lift_res]
    · rw [if_neg h, if_neg h]; simp only [bind_res, lift_res]
  rw [if_neg h1, if_neg h1]
  by_cases h2 : a.bits = []
  · rw [if_pos h2, if_pos h2, pure_res]
  rw [if_neg h2, if_neg h2]
  by_cases h3 : b.bits = []
  · rw [if_pos h3, if_pos h3]; simp only [bind_res, lift_res, hold_res, divideWord_res, ofMagnitude_res]
  rw [if_neg h3, if_neg h3]
  by_cases h4 : a.bits.length < b.bits.length
  · rw [if_pos h4, if_pos h4, pure_res]
  · rw [if_neg h4, if_neg h4]; simp only [bind_res, hold_res, divideVec_res, ofMagnitude_res]

theorem rem_res (a b : BigInt) : (rem a b).res = a.rem b := by
  unfold rem BigInt.rem
  simp only [scope_res, bind_res, lift_res]
  refine bind_congr_of_ok fun _ _ => bind_congr_of_ok fun _ _ => ?_
  by_cases h1 : a.bits = [] ∧ b.bits = []
  · rw [if_pos h1, if_pos h1]
    by_cases h : b.sign = 0
    · rw [if_pos h, if_pos h, lift_res]
    · rw [if_neg h, if_neg h]; simp only [bind_res, lift_res]
  rw [if_neg h1, if_neg h1]
  by_cases h2 : a.bits = []
  · rw [if_pos h2, if_pos h2, pure_res]
  rw [if_neg h2, if_neg h2]
  by_cases h3 : b.bits = []
  · rw [if_pos h3, if_pos h3]; simp only [bind_res, lift_res, remainderWord_res]
  rw [if_neg h3, if_neg h3]
  by_cases h4 : a.bits.length < b.bits.length
  · rw [if_pos h4, if_pos h4, pure_res]
  · rw [if_neg h4, if_neg h4]; simp only [bind_res, hold_res, remainderVec_res, ofMagnitude_res]

theorem carryLoop_res : ∀ (l : List Nat) (c : Int), (carryLoop l c).res = BigIntegerCpp.carryLoop l c
  | [], _ => rfl
  | x :: xs, c => by
    rw [carryLoop, BigIntegerCpp.carryLoop]
    simp only [bind_res, tick_res, lift_res, Res.ok_bind, carryLoop_res xs, pure_res]

theorem addWord_res (l : List Nat) (r : Nat) : (addWord l r).res = BigIntegerCpp.addWord l r := by
  unfold addWord BigIntegerCpp.addWord
  simp only [bind_res, lift_res, tick_res, Res.ok_bind]
  refine bind_congr_of_ok fun _ _ => ?_
  cases l with
  | nil => rfl
  | cons x xs => simp only [bind_res, lift_res, carryLoop_res, pure_res]

theorem addVec_res (l r : List Nat) : (addVec l r).res = BigIntegerCpp.addVec l r := by
  simp only [addVec, BigIntegerCpp.addVec, bind_res, lift_res, tick_res, Res.ok_bind, addPtr_res]

theorem subtractWord_res (l : List Nat) (r : Nat) : (subtractWord l r).res = BigIntegerCpp.subtractWord l r := by
  unfold subtractWord BigIntegerCpp.subtractWord
  simp only [bind_res, lift_res, tick_res, Res.ok_bind]
  refine bind_congr_of_ok fun _ _ => bind_congr_of_ok fun _ _ => ?_
  cases l with
  | nil => rfl
  | cons x xs => simp only [bind_res, lift_res, carryLoop_res, pure_res]

theorem subtractLoop_res : ∀ (l r : List Nat) (c : Int), (subtractLoop l r c).res = BigIntegerCpp.subtractLoop l r c
  | xs, [], c => by rw [subtractLoop, BigIntegerCpp.subtractLoop, carryLoop_res]
  | [], _ :: _, _ => rfl
  | x :: xs, y :: ys, c => by
    rw [subtractLoop, BigIntegerCpp.subtractLoop]
    simp only [bind_res, tick_res, lift_res, Res.ok_bind, subtractLoop_res xs ys, pure_res]

theorem subtractPtr_res (l r : List Nat) (n : Nat) : (subtractPtr l r n).res = BigIntegerCpp.subtractPtr l r n := by
  simp only [subtractPtr, BigIntegerCpp.subtractPtr, bind_res, lift_res, tick_res, Res.ok_bind, subtractLoop_res, pure_res]

theorem subtractVec_res (l r : List Nat) : (subtractVec l r).res = BigIntegerCpp.subtractVec l r := by
  simp only [subtractVec, BigIntegerCpp.subtractVec, bind_res, lift_res, tick_res, Res.ok_bind, subtractPtr_res]

theorem addSigned_res (l : List Nat) (s : Int) (r : List Nat) (t : Int) : (addSigned l s r t).res = BigIntegerCpp.addSigned l s r t := by
  unfold addSigned BigIntegerCpp.addSigned
  by_cases h1 : l = [] ∧ r = []
  · rw [if_pos h1, if_pos h1]; simp only [bind_res, lift_res]
  rw [if_neg h1, if_neg h1]
  by_cases h2 : l = []
  · rw [if_pos h2, if_pos h2]; simp only [bind_res, lift_res, hold_res, addWord_res, ofMagnitude_res]
  rw [if_neg h2, if_neg h2]
  by_cases h3 : r = []
  · rw [if_pos h3, if_pos h3]; simp only [bind_res, lift_res, hold_res, addWord_res, ofMagnitude_res]
  rw [if_neg h3, if_neg h3]
  by_cases h4 : l.length < r.length
  · rw [if_pos h4, if_pos h4]; simp only [bind_res, hold_res, addVec_res, ofMagnitude_res]
  · rw [if_neg h4, if_neg h4]; simp only [bind_res, hold_res, addVec_res, ofMagnitude_res]

theorem subtractSigned_res (l : List Nat) (s : Int) (r : List Nat) (t : Int) : (subtractSigned l s r t).res = BigIntegerCpp.subtractSigned l s r t := by
  unfold subtractSigned BigIntegerCpp.subtractSigned
  by_cases h1 : l = [] ∧ r = []
  · rw [if_pos h1, if_pos h1]; simp only [bind_res, lift_res]
  rw [if_neg h1, if_neg h1]
  by_cases h2 : l = []
  · rw [if_pos h2, if_pos h2]; simp only [bind_res, lift_res, hold_res, subtractWord_res, ofMagnitude_res]
  rw [if_neg h2, if_neg h2]
  by_cases h3 : r = []
  · rw [if_pos h3, if_pos h3]; simp only [bind_res, lift_res, hold_res, subtractWord_res, ofMagnitude_res]
  rw [if_neg h3, if_neg h3]
  simp only [bind_res, tick_res, Res.ok_bind]
  by_cases h4 : compareWords l r < 0
  · rw [if_pos h4, if_pos h4]; simp only [bind_res, hold_res, subtractVec_res, ofMagnitude_res]
  · rw [if_neg h4, if_neg h4]; simp only [bind_res, hold_res, subtractVec_res, ofMagnitude_res]

theorem add_res (a b : BigInt) : (add a b).res = a.add b := by
  unfold add BigInt.add
  simp only [bind_res, lift_res]
  refine bind_congr_of_ok fun _ _ => bind_congr_of_ok fun _ _ => ?_
  by_cases h : decide (a.sign < 0) ≠ decide (b.sign < 0)
  · rw [if_pos h, if_pos h]; simp only [bind_res, lift_res, subtractSigned_res]
  · rw [if_neg h, if_neg h, addSigned_res]

theorem sub_res (a b : BigInt) : (sub a b).res = a.sub b := by
  unfold sub BigInt.sub
  simp only [scope_res, bind_res, lift_res]
  refine bind_congr_of_ok fun _ _ => bind_congr_of_ok fun _ _ => ?_
  by_cases h : decide (a.sign < 0) ≠ decide (b.sign < 0)
  · rw [if_pos h, if_pos h]; simp only [bind_res, lift_res, addSigned_res]
  · rw [if_neg h, if_neg h, subtractSigned_res]

/-! ### Lengths of results -/

omit [Cfg] in
theorem put_length {l t : List Nat} {i v : Nat} (h : put l i v = .ok t) : t.length = l.length := by
  unfold put at h
  by_cases hi : i < l.length
  · rw [if_pos hi] at h; cases h; exact List.length_set
  · rw [if_neg hi] at h; cases h

theorem divWordLoop_length : ∀ {l : List Nat} {y : Nat} {p : List Nat × Nat}, BigIntegerCpp.divWordLoop l y = .ok p → p.1.length = l.length
  | [], _, _, h => by cases h; rfl
  | x :: xs, y, p, h => by
    rw [BigIntegerCpp.divWordLoop] at h
    obtain ⟨⟨q, c⟩, hq, h⟩ := Res.bind_eq_ok h
    dsimp only at h
    by_cases hy : y = 0
    · rw [if_pos hy] at h; cases h
    · rw [if_neg hy] at h; cases h
      exact congrArg (· + 1) (divWordLoop_length hq)

theorem divideWord_length {l t : List Nat} {y : Nat} (h : BigIntegerCpp.divideWord l y = .ok t) : t.length = l.length := by
  unfold BigIntegerCpp.divideWord at h
  obtain ⟨_, -, h⟩ := Res.bind_eq_ok h
  obtain ⟨_, -, h⟩ := Res.bind_eq_ok h
  obtain ⟨⟨q, c⟩, hq, h⟩ := Res.bind_eq_ok h
  cases h
  exact divWordLoop_length hq

theorem addDivisor_length : ∀ {l r : List Nat} {c : Nat} {p : List Nat × Nat}, BigIntegerCpp.addDivisor l r c = .ok p → p.1.length = l.length
  | l, [], c, p, h => by rw [BigIntegerCpp.addDivisor] at h; cases h; rfl
  | [], _ :: _, _, _, h => nomatch h
  | x :: xs, y :: ys, c, p, h => by
    rw [BigIntegerCpp.addDivisor] at h
    obtain ⟨⟨q, c'⟩, hq, h⟩ := Res.bind_eq_ok h
    cases h
    exact congrArg (· + 1) (addDivisor_length hq)

theorem subtractDivisor_length : ∀ {l r : List Nat} {q c : Nat} {p : List Nat × Nat},
    BigIntegerCpp.subtractDivisor l r q c = .ok p → p.1.length = l.length
  | l, [], q, c, p, h => by rw [BigIntegerCpp.subtractDivisor] at h; cases h; rfl
  | [], _ :: _, _, _, _, h => nomatch h
  | x :: xs, y :: ys, q, c, p, h => by
    rw [BigIntegerCpp.subtractDivisor] at h
    obtain ⟨⟨q', c'⟩, hq, h⟩ := Res.bind_eq_ok h
    cases h
    exact congrArg (· + 1) (subtractDivisor_length hq)

theorem divideApply_length {l r : List Nat} {n t d : Nat} {p : List Nat × Nat} (h : BigIntegerCpp.divideApply l r n t d = .ok p) :
    p.1.length = l.length := by
  unfold BigIntegerCpp.divideApply at h
  obtain ⟨⟨l', d'⟩, h1, h⟩ := Res.bind_eq_ok h
  have e : l'.length = l.length := by
    by_cases hd : d > 0
    · rw [if_pos hd] at h1
      obtain ⟨mem, hm, h1⟩ := Res.bind_eq_ok h1
      obtain ⟨_, -, h1⟩ := Res.bind_eq_ok h1
      obtain ⟨⟨m1, c1⟩, hs, h1⟩ := Res.bind_eq_ok h1
      obtain ⟨e1, e2⟩ := slice_length hm
      have e3 := subtractDivisor_length hs
      dsimp only at h1 e3
      by_cases hc : c1 ≠ t
      · rw [if_pos hc] at h1
        obtain ⟨_, -, h1⟩ := Res.bind_eq_ok h1
        obtain ⟨⟨m2, c2⟩, ha, h1⟩ := Res.bind_eq_ok h1
        obtain ⟨_, -, h1⟩ := Res.bind_eq_ok h1
        have e4 : m2.length = m1.length := addDivisor_length ha
        cases h1
        show (List.take n l ++ m2).length = l.length
        rw [List.length_append, List.length_take]
        omega
      · rw [if_neg hc] at h1
        cases h1
        rw [List.length_append, List.length_take]
        omega
    · rw [if_neg hd] at h1; cases h1; rfl
  dsimp only at h
  obtain ⟨l2, h2, h⟩ := Res.bind_eq_ok h
  cases h
  by_cases hi : n + r.length < l'.length
  · rw [if_pos hi] at h2; rw [put_length h2, e]
  · rw [if_neg hi] at h2; cases h2; exact e

theorem divideLoop_length {r : List Nat} {s h lo : Nat} : ∀ {k : Nat} {l b : List Nat} {p : List Nat × List Nat},
    BigIntegerCpp.divideLoop r s h lo k l b = .ok p → p.1.length = l.length ∧ p.2.length = b.length
  | 0, l, b, p, e => by cases e; exact ⟨rfl, rfl⟩
  | k + 1, l, b, p, e => by
    rw [BigIntegerCpp.divideLoop] at e
    obtain ⟨⟨l1, d⟩, e1, e⟩ := Res.bind_eq_ok e
    dsimp only at e
    obtain ⟨b1, e2, e⟩ := Res.bind_eq_ok e
    obtain ⟨i1, i2⟩ := divideLoop_length e
    rw [i1, i2]
    unfold BigIntegerCpp.divideStep at e1
    obtain ⟨⟨t, g⟩, -, e1⟩ := Res.bind_eq_ok e1
    refine ⟨divideApply_length e1, ?_⟩
    by_cases hb : b.length ≠ 0
    · rw [if_pos hb] at e2; exact put_length e2
    · rw [if_neg hb] at e2; cases e2; rfl

theorem divideCore_length {l r b : List Nat} {p : List Nat × List Nat} (h : BigIntegerCpp.divideCore l r b = .ok p) :
    p.1.length = l.length ∧ p.2.length = b.length := by
  unfold BigIntegerCpp.divideCore at h
  obtain ⟨_, -, h⟩ := Res.bind_eq_ok h
  obtain ⟨_, -, h⟩ := Res.bind_eq_ok h
  obtain ⟨_, -, h⟩ := Res.bind_eq_ok h
  obtain ⟨_, -, h⟩ := Res.bind_eq_ok h
  obtain ⟨_, -, h⟩ := Res.bind_eq_ok h
  obtain ⟨_, -, h⟩ := Res.bind_eq_ok h
  obtain ⟨⟨_, _⟩, -, h⟩ := Res.bind_eq_ok h
  exact divideLoop_length h

theorem divideVec_length {l r t : List Nat} (h : BigIntegerCpp.divideVec l r = .ok t) : t.length = l.length - r.length + 1 := by
  unfold BigIntegerCpp.divideVec at h
  obtain ⟨_, -, h⟩ := Res.bind_eq_ok h
  obtain ⟨_, -, h⟩ := Res.bind_eq_ok h
  obtain ⟨_, -, h⟩ := Res.bind_eq_ok h
  obtain ⟨_, -, h⟩ := Res.bind_eq_ok h
  obtain ⟨⟨a, b⟩, hc, h⟩ := Res.bind_eq_ok h
  cases h
  rw [(divideCore_length hc).2, List.length_replicate]

theorem remainderVec_length {l r t : List Nat} (h : BigIntegerCpp.remainderVec l r = .ok t) : t.length = l.length := by
  unfold BigIntegerCpp.remainderVec at h
  obtain ⟨_, -, h⟩ := Res.bind_eq_ok h
  obtain ⟨_, -, h⟩ := Res.bind_eq_ok h
  obtain ⟨_, -, h⟩ := Res.bind_eq_ok h
  obtain ⟨_, -, h⟩ := Res.bind_eq_ok h
  obtain ⟨⟨a, b⟩, hc, h⟩ := Res.bind_eq_ok h
  cases h
  exact (divideCore_length hc).1

theorem carryLoop_length : ∀ {l : List Nat} {c : Int} {p : List Nat × Int}, BigIntegerCpp.carryLoop l c = .ok p → p.1.length = l.length
  | [], _, _, h => by cases h; rfl
  | x :: xs, c, p, h => by
    rw [BigIntegerCpp.carryLoop] at h
    obtain ⟨_, -, h⟩ := Res.bind_eq_ok h
    obtain ⟨⟨q, c'⟩, hq, h⟩ := Res.bind_eq_ok h
    cases h
    exact congrArg (· + 1) (carryLoop_length hq)

theorem addWord_length {l t : List Nat} {r : Nat} (h : BigIntegerCpp.addWord l r = .ok t) : t.length = l.length + 1 := by
  unfold BigIntegerCpp.addWord at h
  obtain ⟨_, -, h⟩ := Res.bind_eq_ok h
  cases l with
  | nil => cases h
  | cons x xs =>
    obtain ⟨_, -, h⟩ := Res.bind_eq_ok h
    obtain ⟨⟨q, c'⟩, hq, h⟩ := Res.bind_eq_ok h
    cases h
    have := carryLoop_length hq
    dsimp only at this
    simp [this]

theorem addVec_length {l r t : List Nat} (h : BigIntegerCpp.addVec l r = .ok t) : t.length = l.length + 1 := by
  unfold BigIntegerCpp.addVec at h
  obtain ⟨_, -, h⟩ := Res.bind_eq_ok h
  obtain ⟨_, -, h⟩ := Res.bind_eq_ok h
  obtain ⟨_, -, h⟩ := Res.bind_eq_ok h
  obtain ⟨_, -, h⟩ := Res.bind_eq_ok h
  exact addPtr_length h

theorem subtractWord_length {l t : List Nat} {r : Nat} (h : BigIntegerCpp.subtractWord l r = .ok t) : t.length = l.length := by
  unfold BigIntegerCpp.subtractWord at h
  obtain ⟨_, -, h⟩ := Res.bind_eq_ok h
  obtain ⟨_, -, h⟩ := Res.bind_eq_ok h
  cases l with
  | nil => cases h
  | cons x xs =>
    obtain ⟨_, -, h⟩ := Res.bind_eq_ok h
    obtain ⟨⟨q, c'⟩, hq, h⟩ := Res.bind_eq_ok h
    cases h
    have := carryLoop_length hq
    dsimp only at this
    simp [this]

theorem subtractLoop_length : ∀ {l r : List Nat} {c : Int} {p : List Nat × Int}, BigIntegerCpp.subtractLoop l r c = .ok p → p.1.length = l.length
  | xs, [], c, p, h => by rw [BigIntegerCpp.subtractLoop] at h; exact carryLoop_length h
  | [], _ :: _, _, _, h => nomatch h
  | x :: xs, y :: ys, c, p, h => by
    rw [BigIntegerCpp.subtractLoop] at h
    obtain ⟨_, -, h⟩ := Res.bind_eq_ok h
    obtain ⟨⟨q, c'⟩, hq, h⟩ := Res.bind_eq_ok h
    cases h
    exact congrArg (· + 1) (subtractLoop_length hq)

theorem subtractVec_length {l r t : List Nat} (h : BigIntegerCpp.subtractVec l r = .ok t) : t.length = l.length := by
  unfold BigIntegerCpp.subtractVec at h
  obtain ⟨_, -, h⟩ := Res.bind_eq_ok h
  obtain ⟨_, -, h⟩ := Res.bind_eq_ok h
  obtain ⟨_, -, h⟩ := Res.bind_eq_ok h
  obtain ⟨_, -, h⟩ := Res.bind_eq_ok h
  obtain ⟨_, -, h⟩ := Res.bind_eq_ok h
  unfold BigIntegerCpp.subtractPtr at h
  obtain ⟨_, -, h⟩ := Res.bind_eq_ok h
  obtain ⟨_, -, h⟩ := Res.bind_eq_ok h
  obtain ⟨_, -, h⟩ := Res.bind_eq_ok h
  obtain ⟨⟨q, c⟩, hq, h⟩ := Res.bind_eq_ok h
  obtain ⟨_, -, h⟩ := Res.bind_eq_ok h
  cases h
  exact subtractLoop_length hq

/-! ### Bounds -/

variable (d w : Nat)

theorem divWordLoop_within : ∀ (l : List Nat) (y : Nat), Within (divWordLoop l y) l.length d w
  | [], _ => within_pure _ _ _
  | x :: xs, y => by
    rw [divWordLoop]
    refine within_bind (divWordLoop_within xs y) fun p _ => ?_
    obtain ⟨q, c⟩ := p
    refine within_tick_bind (t := 0) ?_
    by_cases h : y = 0
    · rw [if_pos h]; exact within_lift _ _ _
    · rw [if_neg h]; exact within_pure _ _ _

theorem divideWord_within (l : List Nat) (y : Nat) : Within (divideWord l y) (2 * l.length) d w := by
  unfold divideWord
  refine within_lift_bind fun _ _ => within_lift_bind fun _ _ => ?_
  rw [Nat.two_mul]
  exact within_tick_bind (within_bind_pure (divWordLoop_within d w l y))

theorem remWordLoop_within : ∀ (l : List Nat) (y : Nat), Within (remWordLoop l y) l.length d w
  | [], _ => within_pure _ _ _
  | x :: xs, y => by
    rw [remWordLoop]
    refine within_bind (remWordLoop_within xs y) fun c _ => ?_
    refine within_tick_bind (t := 0) ?_
    by_cases h : y = 0
    · rw [if_pos h]; exact within_lift _ _ _
    · rw [if_neg h]; exact within_pure _ _ _

theorem remainderWord_within (l : List Nat) (y : Nat) : Within (remainderWord l y) l.length d w :=
  within_lift_bind fun _ _ => within_lift_bind fun _ _ => within_bind_pure (remWordLoop_within d w l y)

theorem addDivisor_within : ∀ (l r : List Nat) (c : Nat), Within (addDivisor l r c) r.length d w
  | l, [], c => by rw [addDivisor]; exact within_pure _ _ _
  | [], _ :: _, _ => (within_lift _ _ _).mono (Nat.zero_le _) (Nat.le_refl _) (Nat.le_refl _)
  | x :: xs, y :: ys, c => by
    rw [addDivisor, List.length_cons, Nat.add_comm _ 1]
    refine within_tick_bind ?_
    exact within_bind_pure (addDivisor_within xs ys _)

theorem subtractDivisor_within : ∀ (l r : List Nat) (q c : Nat), Within (subtractDivisor l r q c) r.length d w
  | l, [], q, c => by rw [subtractDivisor]; exact within_pure _ _ _
  | [], _ :: _, _, _ => (within_lift _ _ _).mono (Nat.zero_le _) (Nat.le_refl _) (Nat.le_refl _)
  | x :: xs, y :: ys, q, c => by
    rw [subtractDivisor, List.length_cons, Nat.add_comm _ 1]
    refine within_tick_bind ?_
    exact within_bind_pure (subtractDivisor_within xs ys _ _)

omit [Cfg] in
/-- The guess is lowered once less than it is tested. -/
theorem fixGuess_steps (vh vl dh dl : Nat) : ∀ g, Within (fixGuess vh vl dh dl g) (g - BigIntegerCpp.fixGuess vh vl dh dl g + 1) d w ∧
    BigIntegerCpp.fixGuess vh vl dh dl g ≤ g
  | 0 => ⟨within_bind_pure (within_tick 1 d w), Nat.le_refl _⟩
  | g + 1 => by
    obtain ⟨h1, h2⟩ := fixGuess_steps vh vl dh dl g
    rw [fixGuess, BigIntegerCpp.fixGuess]
    by_cases h : divideGuessTooBig (g + 1) vh vl dh dl = true
    · rw [if_pos h, if_pos h]
      refine ⟨?_, by omega⟩
      exact (within_tick_bind h1).mono (by omega) (Nat.le_refl _) (Nat.le_refl _)
    · rw [if_neg h, if_neg h]
      refine ⟨?_, Nat.le_refl _⟩
      rw [Nat.sub_self, Nat.zero_add]
      exact within_bind (t := 0) (within_tick 1 d w) fun _ _ => within_pure _ _ _

omit [Cfg] in
/-- With a normalised divisor the guess is at most two too large. -/
theorem guess_close {vh vl dh dl g : Nat} (h1 : 2147483648 ≤ dh) (hl : dl < 4294967296) (hg : g < 4294967296) (hq : g ≤ vh / dh) :
    g ≤ (vh * 4294967296 + vl) / (dh * 4294967296 + dl) + 2 := by
  have hD : 0 < dh * 4294967296 + dl := by omega
  have e1 : g * dh ≤ vh := (Nat.le_div_iff_mul_le (by omega)).1 hq
  by_cases h2 : g ≤ 2
  · exact le_trans h2 (Nat.le_add_left _ _)
  obtain ⟨k, rfl⟩ : ∃ k, g = k + 2 := ⟨g - 2, by omega⟩
  refine Nat.add_le_add_right ((Nat.le_div_iff_mul_le hD).2 ?_) 2
  have e2 : k * dl ≤ k * 4294967296 := Nat.mul_le_mul_left _ (by omega)
  have e3 : k * (dh * 4294967296 + dl) = k * dh * 4294967296 + k * dl := by ring
  have e4 : (k + 2) * dh = k * dh + 2 * dh := by ring
  rw [e4] at e1
  rw [e3]
  generalize k * dh = A at *
  generalize k * dl = B at *
  omega

theorem fixGuess_within {vh vl dh dl g : Nat} (h1 : 2147483648 ≤ dh) (h2 : dh < 4294967296) (hl : dl < 4294967296) (hv : vl < 4294967296)
    (hg : g < 4294967296) (hq : g ≤ vh / dh) : Within (fixGuess vh vl dh dl g) 3 d w := by
  have e := (fixGuess_steps d w vh vl dh dl g).1
  rw [fixGuess_spec h2 hl hv (by omega) hg] at e
  have := guess_close (vl := vl) h1 hl hg hq
  exact e.mono (by omega) (Nat.le_refl _) (Nat.le_refl _)

theorem divideGuess_within {l r : List Nat} {s h lo n : Nat} (hw : WordsOk l) (h1 : 2147483648 ≤ h) (h2 : h < 4294967296)
    (hl : lo < 4294967296) : Within (divideGuess l r s h lo n) 3 d w := by
  unfold divideGuess
  refine within_lift_bind fun t _ => within_lift_bind fun v _ => within_lift_bind fun v2 hv2 => within_lift_bind fun p hp => ?_
  have hv2' : v2 < 4294967296 := by
    by_cases hi : n + r.length > 1
    · rw [if_pos hi] at hv2; exact idx_all hw _ _ hv2
    · rw [if_neg hi] at hv2; cases hv2; decide
  have hvl : p.2 < 4294967296 := by
    by_cases hi : s > 0
    · rw [if_pos hi] at hp
      obtain ⟨v3, hv3, hp⟩ := Res.bind_eq_ok hp
      cases hp
      have hv3' : v3 < 4294967296 := by
        by_cases hi : n + r.length > 2
        · rw [if_pos hi] at hv3; exact idx_all hw _ _ hv3
        · rw [if_neg hi] at hv3; cases hv3; decide
      refine Nat.or_lt_two_pow (n := 32) (u32_lt _) ?_
      rw [Nat.shiftRight_eq_div_pow]
      exact lt_of_le_of_lt (Nat.div_le_self _ _) hv3'
    · rw [if_neg hi] at hp; cases hp; exact hv2'
  obtain ⟨vh, vl⟩ := p
  dsimp only at hvl ⊢
  rw [if_neg (by omega)]
  refine within_bind_pure (fixGuess_within d w h1 h2 hl hvl ?_ ?_)
  · by_cases hg : vh / h > 0xFFFFFFFF
    · rw [if_pos hg]; decide
    · rw [if_neg hg]; omega
  · by_cases hg : vh / h > 0xFFFFFFFF
    · rw [if_pos hg]; omega
    · rw [if_neg hg]

theorem divideApply_within (l r : List Nat) (n t g : Nat) : Within (divideApply l r n t g) (2 * r.length) d w := by
  unfold divideApply
  rw [Nat.two_mul]
  refine within_bind (s := r.length + r.length) (t := 0) ?_ fun p _ => ?_
  · by_cases hg : g > 0
    · rw [if_pos hg]
      refine within_lift_bind fun mem _ => within_lift_bind fun _ _ => within_bind (subtractDivisor_within d w mem r g 0) fun p _ => ?_
      obtain ⟨m, c⟩ := p
      dsimp only
      by_cases hc : c ≠ t
      · rw [if_pos hc]
        refine within_lift_bind fun _ _ => within_bind (t := 0) (addDivisor_within d w m r 0) fun p _ => ?_
        exact within_lift_bind fun _ _ => within_pure _ _ _
      · rw [if_neg hc]
        exact (within_pure _ _ _).mono (Nat.zero_le _) (Nat.le_refl _) (Nat.le_refl _)
    · rw [if_neg hg]
      exact (within_pure _ _ _).mono (Nat.zero_le _) (Nat.le_refl _) (Nat.le_refl _)
  · obtain ⟨l', g'⟩ := p
    exact within_lift_bind fun _ _ => within_pure _ _ _

theorem divideStep_within {l r : List Nat} {s h lo n : Nat} (hw : WordsOk l) (h1 : 2147483648 ≤ h) (h2 : h < 4294967296)
    (hl : lo < 4294967296) : Within (divideStep l r s h lo n) (1 + (3 + 2 * r.length)) d w := by
  unfold divideStep
  refine within_tick_bind (within_bind (divideGuess_within d w hw h1 h2 hl) fun p _ => ?_)
  obtain ⟨t, g⟩ := p
  exact divideApply_within d w l r n t g

theorem divideLoop_within {r : List Nat} {s h lo : Nat} (h1 : 2147483648 ≤ h) (h2 : h < 4294967296) (hl : lo < 4294967296) :
    ∀ (k : Nat) (l b : List Nat), WordsOk l → Within (divideLoop r s h lo k l b) (k * (2 * r.length + 4)) d w
  | 0, l, b, _ => (within_pure _ _ _).mono (Nat.zero_le _) (Nat.le_refl _) (Nat.le_refl _)
  | k + 1, l, b, hw => by
    rw [divideLoop]
    refine Within.mono (within_bind (divideStep_within d w (n := k) (r := r) hw h1 h2 hl) (t := k * (2 * r.length + 4)) fun p hp => ?_) ?_ (Nat.le_refl _) (Nat.le_refl _)
    · rw [divideStep_res] at hp
      obtain ⟨l', g⟩ := p
      refine within_lift_bind fun b' _ => divideLoop_within h1 h2 hl k l' b' ?_
      unfold BigIntegerCpp.divideStep at hp
      obtain ⟨⟨t, g'⟩, -, hp⟩ := Res.bind_eq_ok hp
      exact divideApply_all hw _ hp
    · rw [show (k + 1) * (2 * r.length + 4) = k * (2 * r.length + 4) + (2 * r.length + 4) by ring]
      omega

theorem divideCore_within {l r : List Nat} (b : List Nat) (hl : WordsOk l) (hr : WordsOk r) :
    Within (divideCore l r b) ((l.length + 1 - r.length) * (2 * r.length + 4)) d w := by
  unfold divideCore
  refine within_lift_bind fun _ _ => within_lift_bind fun _ _ => within_lift_bind fun _ _ => within_lift_bind fun _ _ => ?_
  refine within_lift_bind fun hi hhi => within_lift_bind fun lo hlo => within_lift_bind fun p hp => ?_
  have hhi' : hi < 4294967296 := idx_all hr _ _ hhi
  have hlo' : lo < 4294967296 := by
    by_cases h : r.length > 1
    · rw [if_pos h] at hlo; exact idx_all hr _ _ hlo
    · rw [if_neg h] at hlo; cases hlo; decide
  have key : 2147483648 ≤ p.1 ∧ p.1 < 4294967296 ∧ p.2 < 4294967296 := by
    by_cases h0 : hi = 0
    · subst h0
      rw [if_pos (by decide), if_pos (by decide)] at hp
      cases hp
    obtain ⟨z1, z2, z3⟩ := leadingZeros_spec h0 hhi'
    by_cases hz : leadingZeros hi > 0
    · rw [if_pos hz, if_neg (by omega)] at hp
      obtain ⟨nx, hnx, hp⟩ := Res.bind_eq_ok hp
      have hnx' : nx < 4294967296 := by
        by_cases h : r.length > 2
        · rw [if_pos h] at hnx; exact idx_all hr _ _ hnx
        · rw [if_neg h] at hnx; cases hnx; decide
      cases hp
      have shr : ∀ x k : Nat, x < 4294967296 → x >>> k < 2 ^ 32 := fun x k hx => by
        rw [Nat.shiftRight_eq_div_pow]
        exact lt_of_le_of_lt (Nat.div_le_self _ _) hx
      refine ⟨?_, Nat.or_lt_two_pow (n := 32) (u32_lt _) (shr _ _ hlo'), Nat.or_lt_two_pow (n := 32) (u32_lt _) (shr _ _ hnx')⟩
      refine le_trans ?_ Nat.left_le_or
      rw [Nat.shiftLeft_eq, u32_of_lt z3]
      exact z2
    · rw [if_neg hz] at hp
      cases hp
      rw [show leadingZeros hi = 0 by omega, pow_zero, Nat.mul_one] at z2
      exact ⟨z2, hhi', hlo'⟩
  obtain ⟨p1, p2⟩ := p
  exact divideLoop_within d w key.1 key.2.1 key.2.2 _ l b hl

theorem divideVec_within {l r : List Nat} (hl : WordsOk l) (hr : WordsOk r) :
    Within (divideVec l r) ((l.length + 1 - r.length) * (2 * r.length + 4) + (l.length - r.length + 1) + (l.length + r.length)) d
      (w + (l.length + r.length)) := by
  unfold divideVec
  refine within_scope _ ?_
  refine within_lift_bind fun _ _ => within_lift_bind fun _ _ => within_lift_bind fun _ _ => within_lift_bind fun _ _ => ?_
  rw [Nat.add_comm _ (l.length - r.length + 1)]
  exact within_tick_bind (within_bind_pure (divideCore_within d w _ hl hr))

theorem remainderVec_within {l r : List Nat} (hl : WordsOk l) (hr : WordsOk r) :
    Within (remainderVec l r) (l.length + (l.length + 1 - r.length) * (2 * r.length + 4)) d w := by
  unfold remainderVec
  refine within_lift_bind fun _ _ => within_lift_bind fun _ _ => within_lift_bind fun _ _ => within_lift_bind fun _ _ => ?_
  exact within_tick_bind (within_bind_pure (divideCore_within d w _ hl hr))

/-- Dividing `m` words by `n` words. -/
theorem div_within {a b : BigInt} (ha : WordsOk a.bits) (hb : WordsOk b.bits) :
    Within (div a b) ((a.bits.length - b.bits.length + 1) * (2 * b.bits.length + 8) + 3 * a.bits.length) 0 (4 * a.bits.length + 2) := by
  generalize hm : a.bits.length = m
  generalize hn : b.bits.length = n
  have e8 : (m - n + 1) * (2 * n + 8) = (m - n + 1) * (2 * n + 4) + 4 * (m - n + 1) := by ring
  unfold div
  rw [hm, hn]
  refine Within.mono (within_scope (s := (m - n + 1) * (2 * n + 8) + 2 * m) (d := 0) (w := 3 * m + 2) m ?_) (by omega) (Nat.le_refl _) (by omega)
  refine within_lift_bind fun _ _ => within_lift_bind fun _ _ => ?_
  by_cases h1 : a.bits = [] ∧ b.bits = []
  · rw [if_pos h1]
    by_cases h : b.sign = 0
    · rw [if_pos h]; exact (within_lift _ _ _).mono (Nat.zero_le _) (Nat.le_refl _) (Nat.le_refl _)
    · rw [if_neg h]
      exact (within_lift_bind fun _ _ => within_lift _ _ _).mono (Nat.zero_le _) (Nat.le_refl _) (Nat.le_refl _)
  rw [if_neg h1]
  by_cases h2 : a.bits = []
  · rw [if_pos h2]; exact (within_pure _ _ _).mono (Nat.zero_le _) (Nat.le_refl _) (Nat.le_refl _)
  rw [if_neg h2]
  by_cases h3 : b.bits = []
  · rw [if_pos h3]
    refine within_lift_bind fun s _ => ?_
    have hn0 : n = 0 := by rw [← hn, h3]; rfl
    subst hn0
    refine Within.mono (within_hold (s := 2 * m + 3 * m) (d := 0) (w := m) m ?_) (by omega) (Nat.le_refl _) (by omega)
    refine within_bind ((divideWord_within 0 m a.bits s).mono (by omega) (Nat.le_refl _) (Nat.le_refl _)) fun t ht => ?_
    rw [divideWord_res] at ht
    have := ofMagnitude_within 0 0 t (BigInt.signXor a b)
    rw [divideWord_length ht, hm, Nat.zero_add] at this
    exact this
  rw [if_neg h3]
  by_cases h4 : m < n
  · rw [if_pos h4]; exact (within_pure _ _ _).mono (Nat.zero_le _) (Nat.le_refl _) (Nat.le_refl _)
  rw [if_neg h4]
  have hn0 : 1 ≤ n := by rw [← hn]; exact List.length_pos_iff.2 h3
  refine Within.mono (within_hold (s := (m + 1 - n) * (2 * n + 4) + (m - n + 1) + (m + n) + 3 * (m - n + 1)) (d := 0) (w := 2 * m + 1) (m - n + 1) ?_)
    ?_ (Nat.le_refl _) (by omega)
  · have hv := divideVec_within 0 (m - n + 1) ha hb
    rw [hm, hn] at hv
    refine within_bind (hv.mono (Nat.le_refl _) (Nat.le_refl _) (by omega)) fun t ht => ?_
    rw [divideVec_res] at ht
    have := ofMagnitude_within 0 0 t (BigInt.signXor a b)
    rw [divideVec_length ht, hm, hn] at this
    exact this.mono (Nat.le_refl _) (Nat.le_refl _) (by omega)
  · rw [e8, show m + 1 - n = m - n + 1 by omega]
    generalize (m - n + 1) * (2 * n + 4) = A
    omega

theorem rem_within {a b : BigInt} (ha : WordsOk a.bits) (hb : WordsOk b.bits) :
    Within (rem a b) ((a.bits.length - b.bits.length + 1) * (2 * b.bits.length + 4) + 4 * a.bits.length + b.bits.length) 0
      (2 * a.bits.length + b.bits.length) := by
  generalize hm : a.bits.length = m
  generalize hn : b.bits.length = n
  unfold rem
  rw [hm, hn]
  refine within_scope n ?_
  refine within_lift_bind fun _ _ => within_lift_bind fun _ _ => ?_
  by_cases h1 : a.bits = [] ∧ b.bits = []
  · rw [if_pos h1]
    by_cases h : b.sign = 0
    · rw [if_pos h]; exact (within_lift _ _ _).mono (Nat.zero_le _) (Nat.le_refl _) (Nat.le_refl _)
    · rw [if_neg h]
      exact (within_lift_bind fun _ _ => within_lift _ _ _).mono (Nat.zero_le _) (Nat.le_refl _) (Nat.le_refl _)
  rw [if_neg h1]
  by_cases h2 : a.bits = []
  · rw [if_pos h2]; exact (within_pure _ _ _).mono (Nat.zero_le _) (Nat.le_refl _) (Nat.le_refl _)
  rw [if_neg h2]
  by_cases h3 : b.bits = []
  · rw [if_pos h3]
    refine within_lift_bind fun s _ => ?_
    have h := within_bind (t := 0) (remainderWord_within 0 (2 * m) a.bits s) fun r _ =>
      within_lift (ofInt64 (if a.sign < 0 then -1 * (r : Int) else r)) 0 (2 * m)
    exact h.mono (by omega) (Nat.le_refl _) (Nat.le_refl _)
  rw [if_neg h3]
  by_cases h4 : m < n
  · rw [if_pos h4]; exact (within_pure _ _ _).mono (Nat.zero_le _) (Nat.le_refl _) (Nat.le_refl _)
  rw [if_neg h4]
  refine Within.mono (within_hold (s := m + (m + 1 - n) * (2 * n + 4) + 3 * m) (d := 0) (w := m) m ?_) ?_ (Nat.le_refl _) (by omega)
  · have hv := remainderVec_within 0 m ha hb
    rw [hm, hn] at hv
    refine within_bind hv fun t ht => ?_
    rw [remainderVec_res] at ht
    have := ofMagnitude_within 0 0 t (decide (a.sign < 0))
    rw [remainderVec_length ht, hm, Nat.zero_add] at this
    exact this
  · rw [show m + 1 - n = m - n + 1 by omega]
    generalize (m - n + 1) * (2 * n + 4) = A
    omega

theorem carryLoop_within : ∀ (l : List Nat) (c : Int), Within (carryLoop l c) l.length d w
  | [], _ => within_pure _ _ _
  | x :: xs, c => by
    rw [carryLoop, List.length_cons, Nat.add_comm _ 1]
    exact within_tick_bind (within_lift_bind fun _ _ => within_bind_pure (carryLoop_within xs _))

theorem addWord_within (l : List Nat) (r : Nat) : Within (addWord l r) (l.length + 1 + l.length) d w := by
  unfold addWord
  refine within_lift_bind fun _ _ => within_tick_bind ?_
  cases l with
  | nil => exact within_lift _ _ _
  | cons x xs =>
    exact (within_lift_bind fun _ _ => within_bind_pure (carryLoop_within d w xs _)).mono (Nat.le_succ _) (Nat.le_refl _) (Nat.le_refl _)

theorem addVec_within (l r : List Nat) : Within (addVec l r) (l.length + 1 + l.length) d w := by
  unfold addVec
  refine within_lift_bind fun _ _ => within_lift_bind fun _ _ => within_lift_bind fun _ _ => within_lift_bind fun _ _ => ?_
  exact within_tick_bind (addPtr_within d w l r _)

theorem subtractWord_within (l : List Nat) (r : Nat) : Within (subtractWord l r) (l.length + l.length) d w := by
  unfold subtractWord
  refine within_lift_bind fun _ _ => within_lift_bind fun _ _ => within_tick_bind ?_
  cases l with
  | nil => exact within_lift _ _ _
  | cons x xs =>
    exact (within_lift_bind fun _ _ => within_bind_pure (carryLoop_within d w xs _)).mono (Nat.le_succ _) (Nat.le_refl _) (Nat.le_refl _)

theorem subtractLoop_within : ∀ (l r : List Nat) (c : Int), Within (subtractLoop l r c) l.length d w
  | xs, [], c => by rw [subtractLoop]; exact carryLoop_within d w xs c
  | [], _ :: _, _ => within_lift _ _ _
  | x :: xs, y :: ys, c => by
    rw [subtractLoop, List.length_cons, Nat.add_comm _ 1]
    exact within_tick_bind (within_lift_bind fun _ _ => within_bind_pure (subtractLoop_within xs ys _))

theorem subtractVec_within (l r : List Nat) : Within (subtractVec l r) (l.length + (l.length + (l.length + l.length))) d w := by
  unfold subtractVec
  refine within_lift_bind fun _ _ => within_lift_bind fun _ _ => within_lift_bind fun _ _ => within_tick_bind ?_
  refine within_lift_bind fun _ _ => within_lift_bind fun _ _ => within_tick_bind ?_
  unfold subtractPtr
  refine within_lift_bind fun _ _ => within_tick_bind ?_
  refine within_lift_bind fun _ _ => within_lift_bind fun _ _ => ?_
  refine within_bind (t := 0) (subtractLoop_within d w l r 0) fun p _ => ?_
  exact within_lift_bind fun _ _ => within_pure _ _ _

theorem addSigned_within (l : List Nat) (s : Int) (r : List Nat) (t : Int) {M : Nat} (hl : l.length ≤ M) (hr : r.length ≤ M) :
    Within (addSigned l s r t) (5 * M + 4) 0 (2 * M + 2) := by
  have mag : ∀ (n : Nat) (x : Counted (List Nat)) (neg : Bool), n ≤ M → Within x (n + 1 + n) 0 (n + 1) → (∀ q, x.res = .ok q → q.length = n + 1) →
      Within (hold (n + 1) (x >>= fun bits => ofMagnitude bits neg)) (5 * M + 4) 0 (2 * M + 2) := by
    intro n x neg hn hx hq
    refine Within.mono (within_hold (s := n + 1 + n + 3 * (n + 1)) (d := 0) (w := n + 1) (n + 1) ?_) (by omega) (Nat.le_refl _) (by omega)
    refine within_bind hx fun q hq' => ?_
    have := ofMagnitude_within 0 0 q neg
    rw [hq q hq', Nat.zero_add] at this
    exact this
  unfold addSigned
  by_cases h1 : l = [] ∧ r = []
  · rw [if_pos h1]
    exact (within_lift_bind fun _ _ => within_lift _ _ _).mono (Nat.zero_le _) (Nat.le_refl _) (Nat.le_refl _)
  rw [if_neg h1]
  by_cases h2 : l = []
  · rw [if_pos h2]
    refine within_lift_bind fun a _ => mag r.length _ _ hr (addWord_within 0 _ r a) fun q hq => ?_
    rw [addWord_res] at hq; exact addWord_length hq
  rw [if_neg h2]
  by_cases h3 : r = []
  · rw [if_pos h3]
    refine within_lift_bind fun a _ => mag l.length _ _ hl (addWord_within 0 _ l a) fun q hq => ?_
    rw [addWord_res] at hq; exact addWord_length hq
  rw [if_neg h3]
  by_cases h4 : l.length < r.length
  · rw [if_pos h4]
    refine mag r.length _ _ hr (addVec_within 0 _ r l) fun q hq => ?_
    rw [addVec_res] at hq; exact addVec_length hq
  · rw [if_neg h4]
    refine mag l.length _ _ hl (addVec_within 0 _ l r) fun q hq => ?_
    rw [addVec_res] at hq; exact addVec_length hq

theorem subtractSigned_within (l : List Nat) (s : Int) (r : List Nat) (t : Int) {M : Nat} (hl : l.length ≤ M) (hr : r.length ≤ M) :
    Within (subtractSigned l s r t) (8 * M) 0 (2 * M) := by
  have mag : ∀ (n : Nat) (x : Counted (List Nat)) (neg : Bool), n ≤ M → Within x (4 * n) 0 n → (∀ q, x.res = .ok q → q.length = n) →
      Within (hold n (x >>= fun bits => ofMagnitude bits neg)) (7 * M) 0 (2 * M) := by
    intro n x neg hn hx hq
    refine Within.mono (within_hold (s := 4 * n + 3 * n) (d := 0) (w := n) n ?_) (by omega) (Nat.le_refl _) (by omega)
    refine within_bind hx fun q hq' => ?_
    have := ofMagnitude_within 0 0 q neg
    rw [hq q hq', Nat.zero_add] at this
    exact this
  unfold subtractSigned
  by_cases h1 : l = [] ∧ r = []
  · rw [if_pos h1]
    exact (within_lift_bind fun _ _ => within_lift _ _ _).mono (Nat.zero_le _) (Nat.le_refl _) (Nat.le_refl _)
  rw [if_neg h1]
  by_cases h2 : l = []
  · rw [if_pos h2]
    refine Within.mono (s := 7 * M) ?_ (by omega) (Nat.le_refl _) (Nat.le_refl _)
    refine within_lift_bind fun a _ => mag r.length _ _ hr ((subtractWord_within 0 _ r a).mono (by omega) (Nat.le_refl _) (Nat.le_refl _)) fun q hq => ?_
    rw [subtractWord_res] at hq; exact subtractWord_length hq
  rw [if_neg h2]
  by_cases h3 : r = []
  · rw [if_pos h3]
    refine Within.mono (s := 7 * M) ?_ (by omega) (Nat.le_refl _) (Nat.le_refl _)
    refine within_lift_bind fun a _ => mag l.length _ _ hl ((subtractWord_within 0 _ l a).mono (by omega) (Nat.le_refl _) (Nat.le_refl _)) fun q hq => ?_
    rw [subtractWord_res] at hq; exact subtractWord_length hq
  rw [if_neg h3]
  refine Within.mono (s := min l.length r.length + 7 * M) (within_tick_bind ?_) (by omega) (Nat.le_refl _) (Nat.le_refl _)
  by_cases h4 : compareWords l r < 0
  · rw [if_pos h4]
    refine mag r.length _ _ hr ((subtractVec_within 0 _ r l).mono (by omega) (Nat.le_refl _) (Nat.le_refl _)) fun q hq => ?_
    rw [subtractVec_res] at hq; exact subtractVec_length hq
  · rw [if_neg h4]
    refine mag l.length _ _ hl ((subtractVec_within 0 _ l r).mono (by omega) (Nat.le_refl _) (Nat.le_refl _)) fun q hq => ?_
    rw [subtractVec_res] at hq; exact subtractVec_length hq

theorem add_within (a b : BigInt) {M : Nat} (ha : a.bits.length ≤ M) (hb : b.bits.length ≤ M) : Within (add a b) (8 * M + 4) 0 (2 * M + 2) := by
  unfold add
  refine within_lift_bind fun _ _ => within_lift_bind fun _ _ => ?_
  by_cases h : decide (a.sign < 0) ≠ decide (b.sign < 0)
  · rw [if_pos h]
    exact within_lift_bind fun s _ => (subtractSigned_within _ _ _ _ ha hb).mono (by omega) (Nat.le_refl _) (by omega)
  · rw [if_neg h]
    exact (addSigned_within _ _ _ _ ha hb).mono (by omega) (Nat.le_refl _) (by omega)

theorem sub_within (a b : BigInt) {M : Nat} (ha : a.bits.length ≤ M) (hb : b.bits.length ≤ M) : Within (sub a b) (9 * M + 4) 0 (3 * M + 2) := by
  unfold sub
  refine Within.mono (within_scope (s := 8 * M + 4) (d := 0) (w := 2 * M + 2) a.bits.length ?_) (by omega) (Nat.le_refl _) (by omega)
  refine within_lift_bind fun _ _ => within_lift_bind fun _ _ => ?_
  by_cases h : decide (a.sign < 0) ≠ decide (b.sign < 0)
  · rw [if_pos h]
    exact within_lift_bind fun s _ => (addSigned_within _ _ _ _ ha hb).mono (by omega) (Nat.le_refl _) (by omega)
  · rw [if_neg h]
    exact (subtractSigned_within _ _ _ _ ha hb).mono (by omega) (Nat.le_refl _) (by omega)

end Cost
end BigIntegerCpp
