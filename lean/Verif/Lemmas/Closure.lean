import Verif.Model.Gcd
import Verif.Model.Text
import Verif.Model.Program
import Verif.ClosureSpec
import Verif.Lemmas.Core
import Verif.Lemmas.Python
import Verif.Lemmas.Bits
import Verif.Lemmas.Twos
import Verif.Lemmas.Arith
import Verif.Lemmas.Gcd
import Verif.Lemmas.Bytes
import Verif.Lemmas.Double
/-
Partial correctness: what holds of the result whenever a call returns normally, whatever the
sizes of the operands and whether or not the algorithm is right.  The calculator functions return
words, the functions of `BigInteger` return canonical objects.
-/
set_option linter.unusedSectionVars false
set_option linter.unnecessarySeqFocus false
namespace BigIntegerCpp
variable [Cfg]

/-- If the call returns normally, the result satisfies `P`. -/
def Res.All {α : Type} (r : Res α) (P : α → Prop) : Prop := ∀ a, r = .ok a → P a

namespace Res
variable {α β : Type}
theorem All.ok {P : α → Prop} {a : α} (h : P a) : (Res.ok a).All P := by rintro _ ⟨⟩; exact h
theorem All.throw {P : α → Prop} {e : Exn} : (Res.throw e : Res α).All P := nofun
theorem All.ub {P : α → Prop} {e : UB} : (Res.ub e : Res α).All P := nofun
theorem All.abort {P : α → Prop} : (Res.abort : Res α).All P := nofun
theorem All.diverge {P : α → Prop} : (Res.diverge : Res α).All P := nofun
theorem All.bind {r : Res α} {f : α → Res β} {P : α → Prop} {Q : β → Prop} (h : r.All P)
    (hf : ∀ a, P a → (f a).All Q) : (r >>= f).All Q := by
  cases r with
  | ok a => exact hf a (h a rfl)
  | _ => exact nofun
theorem All.bind' {r : Res α} {f : α → Res β} {Q : β → Prop} (hf : ∀ a, (f a).All Q) : (r >>= f).All Q :=
  All.bind (P := fun _ => True) (fun _ _ => trivial) fun a _ => hf a
theorem All.ite {c : Prop} [Decidable c] {r s : Res α} {P : α → Prop} (h1 : c → r.All P) (h2 : ¬ c → s.All P) :
    (if c then r else s).All P := by
  by_cases h : c
  · rw [if_pos h]; exact h1 h
  · rw [if_neg h]; exact h2 h
theorem All.mono {r : Res α} {P Q : α → Prop} (h : r.All P) (hpq : ∀ a, P a → Q a) : r.All Q :=
  fun a ha => hpq a (h a ha)
theorem All.trivial {r : Res α} : r.All fun _ => True := fun _ _ => True.intro
end Res
open Res

/-! ### memory -/

theorem wordsOk_set {ws : List Nat} (h : WordsOk ws) {i v : Nat} (hv : v < 4294967296) : WordsOk (ws.set i v) := by
  intro w hw
  rcases List.mem_or_eq_of_mem_set hw with h' | rfl
  · exact h w h'
  · exact hv

theorem idx_all {ws : List Nat} (h : WordsOk ws) (i : Nat) : (idx ws i).All (· < 4294967296) := by
  unfold idx
  split
  · next x hx => exact .ok (h x (List.mem_of_getElem? hx))
  · exact .ub
theorem put_all {ws : List Nat} (h : WordsOk ws) (i : Nat) {v : Nat} (hv : v < 4294967296) : (put ws i v).All WordsOk :=
  .ite (fun _ => .ok (wordsOk_set h hv)) fun _ => .ub
theorem slice_all' {ws : List Nat} (h : WordsOk ws) (i n : Nat) : (slice ws i n).All WordsOk :=
  .ite (fun _ => .ok ((h.drop i).take n)) fun _ => .ub

/-! ### AddSub -/

theorem carryLoop_all {xs : List Nat} {c : Int} : (carryLoop xs c).All fun p => WordsOk p.1 := by
  induction xs generalizing c with
  | nil => exact .ok wordsOk_nil
  | cons x xs ih => exact .bind' fun d => .bind ih fun p hp => .ok (wordsOk_cons.2 ⟨u32i_lt _, hp⟩)

theorem carrySelf_all {xs : List Nat} (hx : WordsOk xs) {c : Int} : (carrySelf xs c).All fun p => WordsOk p.1 := by
  induction xs generalizing c with
  | nil => exact .ok wordsOk_nil
  | cons x xs ih =>
    exact .ite (fun _ => .ok hx) fun _ => .bind' fun d =>
      .bind (ih (wordsOk_cons.1 hx).2) fun p hp => .ok (wordsOk_cons.2 ⟨u32i_lt _, hp⟩)

theorem addWord_all {xs : List Nat} {y : Nat} : (addWord xs y).All WordsOk := by
  refine .bind' fun _ => ?_
  cases xs with
  | nil => exact .ub
  | cons x xs =>
    exact .bind' fun d => .bind carryLoop_all fun p hp => .ok
      (wordsOk_cons.2 ⟨u32i_lt _, wordsOk_append.2 ⟨hp, wordsOk_cons.2 ⟨u32i_lt _, wordsOk_nil⟩⟩⟩)

theorem addLoop_all {xs ys : List Nat} {c : Nat} : (addLoop xs ys c).All WordsOk := by
  induction xs generalizing ys c with
  | nil =>
    cases ys with
    | nil => exact .ok (wordsOk_cons.2 ⟨u32_lt _, wordsOk_nil⟩)
    | cons => exact .ub
  | cons x xs ih =>
    cases ys with
    | nil => exact .bind ih fun p hp => .ok (wordsOk_cons.2 ⟨u32_lt _, hp⟩)
    | cons y ys => exact .bind ih fun p hp => .ok (wordsOk_cons.2 ⟨u32_lt _, hp⟩)

theorem addPtr_all {xs ys : List Nat} {n : Nat} : (addPtr xs ys n).All WordsOk :=
  .bind' fun _ => .bind' fun _ => addLoop_all
theorem addVec_all {xs ys : List Nat} : (addVec xs ys).All WordsOk :=
  .bind' fun _ => .bind' fun _ => .bind' fun _ => .bind' fun _ => addPtr_all

theorem addSelfLoop_all {xs ys : List Nat} (hx : WordsOk xs) {c : Int} : (addSelfLoop xs ys c).All fun p => WordsOk p.1 := by
  induction ys generalizing xs c with
  | nil => rw [addSelfLoop]; exact carrySelf_all hx
  | cons y ys ih =>
    cases xs with
    | nil => exact .ub
    | cons x xs => exact .bind' fun d => .bind (ih (wordsOk_cons.1 hx).2) fun p hp => .ok (wordsOk_cons.2 ⟨u32i_lt _, hp⟩)
theorem addSelf_all {xs ys : List Nat} (hx : WordsOk xs) : (addSelf xs ys).All WordsOk :=
  .bind' fun _ => .bind (addSelfLoop_all hx) fun _ hp => .bind' fun _ => .ok hp

theorem subtractWord_all {xs : List Nat} {y : Nat} : (subtractWord xs y).All WordsOk := by
  refine .bind' fun _ => .bind' fun _ => ?_
  cases xs with
  | nil => exact .ub
  | cons x xs => exact .bind' fun d => .bind carryLoop_all fun p hp => .ok (wordsOk_cons.2 ⟨u32i_lt _, hp⟩)

theorem subtractLoop_all {xs ys : List Nat} {c : Int} : (subtractLoop xs ys c).All fun p => WordsOk p.1 := by
  induction ys generalizing xs c with
  | nil => rw [subtractLoop]; exact carryLoop_all
  | cons y ys ih =>
    cases xs with
    | nil => exact .ub
    | cons x xs => exact .bind' fun d => .bind ih fun p hp => .ok (wordsOk_cons.2 ⟨u32i_lt _, hp⟩)
theorem subtractVec_all {xs ys : List Nat} : (subtractVec xs ys).All WordsOk :=
  .bind' fun _ => .bind' fun _ => .bind' fun _ => .bind' fun _ => .bind' fun _ => .bind' fun _ => .bind' fun _ =>
    .bind' fun _ => .bind subtractLoop_all fun _ hp => .bind' fun _ => .ok hp

/-! ### SquMul -/

theorem mulWordLoop_words {xs : List Nat} {y c : Nat} : WordsOk (mulWordLoop xs y c) := by
  induction xs generalizing c with
  | nil => exact wordsOk_cons.2 ⟨u32_lt _, wordsOk_nil⟩
  | cons x xs ih => exact wordsOk_cons.2 ⟨u32_lt _, ih⟩
theorem multiplyWord_all {xs : List Nat} {y : Nat} : (multiplyWord xs y).All WordsOk :=
  .bind' fun _ => .ok mulWordLoop_words

theorem subtractCoreLoop_all {core lhs rhs : List Nat} (hx : WordsOk core) {c : Int} :
    (subtractCoreLoop core lhs rhs c).All fun p => WordsOk p.1 := by
  induction lhs generalizing core rhs c with
  | nil =>
    cases rhs with
    | nil => rw [subtractCoreLoop]; exact carrySelf_all hx
    | cons => rw [subtractCoreLoop]; exact .ub
  | cons l ls ih =>
    cases core with
    | nil => rw [subtractCoreLoop]; exact .ub
    | cons x xs =>
      cases rhs with
      | nil => exact .bind' fun d => .bind (ih (wordsOk_cons.1 hx).2) fun p hp => .ok (wordsOk_cons.2 ⟨u32i_lt _, hp⟩)
      | cons y ys => exact .bind' fun d => .bind (ih (wordsOk_cons.1 hx).2) fun p hp => .ok (wordsOk_cons.2 ⟨u32i_lt _, hp⟩)
theorem subtractCore_all {core lhs rhs : List Nat} (hx : WordsOk core) : (subtractCore lhs rhs core).All WordsOk :=
  .bind' fun _ => .bind' fun _ => .bind (subtractCoreLoop_all hx) fun _ hp => .ok hp

theorem mulRow_all {bits left : List Nat} (hb : WordsOk bits) {r c : Nat} : (mulRow bits left r c).All WordsOk := by
  induction bits generalizing left c with
  | nil => cases left <;> exact .ub
  | cons b bs ih =>
    cases left with
    | nil => exact .ok (wordsOk_cons.2 ⟨u32_lt _, (wordsOk_cons.1 hb).2⟩)
    | cons l ls => exact .bind (ih (wordsOk_cons.1 hb).2) fun p hp => .ok (wordsOk_cons.2 ⟨u32_lt _, hp⟩)

theorem mulSchool_all {left right bits : List Nat} (hb : WordsOk bits) : (mulSchool left right bits).All WordsOk := by
  induction right generalizing bits with
  | nil => exact .ok hb
  | cons r rs ih =>
    refine .bind (mulRow_all hb) fun p hp => ?_
    cases p with
    | nil => exact .ub
    | cons b bs =>
      obtain ⟨h1, h2⟩ := wordsOk_cons.1 hp
      exact .bind (ih h2) fun t ht => .ok (wordsOk_cons.2 ⟨h1, ht⟩)

theorem mulCore_all (n : Nat) {left right bits : List Nat} (hb : WordsOk bits) : (mulCore left right bits n).All WordsOk := by
  induction n using Nat.strong_induction_on generalizing left right bits with
  | _ n ih =>
    rw [mulCore]
    refine .bind' fun _ => .bind' fun _ => ?_
    split
    · exact mulSchool_all hb
    · next h =>
      simp only [MultiplyThreshold] at h
      refine .bind' fun _ => .bind' fun _ => .bind' fun _ => .bind' fun _ => ?_
      refine .bind (slice_all' hb _ _) fun bl hbl => .bind (slice_all' hb _ _) fun bh hbh => ?_
      refine .bind (ih _ (by omega) hbl) fun bl hbl => .bind (ih _ (by omega) hbh) fun bh hbh => ?_
      refine .bind' fun _ => .bind' fun _ => .bind (ih _ (by omega) (wordsOk_replicate_zero _)) fun co hco => ?_
      refine .bind (subtractCore_all hco) fun co hco => ?_
      have hall := wordsOk_append.2 ⟨hbl, hbh⟩
      exact .bind (slice_all' hall _ _) fun u hu => .bind (addSelf_all hu) fun u hu => .ok
        (wordsOk_append.2 ⟨hall.take _, hu⟩)
theorem multiplyVec_all {xs ys : List Nat} : (multiplyVec xs ys).All WordsOk :=
  .bind' fun _ => .bind' fun _ => .bind' fun _ => .bind' fun _ => mulCore_all _ (wordsOk_replicate_zero _)

theorem sqRow_all {bits pre : List Nat} (hb : WordsOk bits) {v c : Nat} : (sqRow bits pre v c).All WordsOk := by
  induction bits generalizing pre c with
  | nil => cases pre <;> exact .ub
  | cons b bs ih =>
    cases pre with
    | nil =>
      cases bs with
      | nil => exact .ub
      | cons b' bs => exact .ok (wordsOk_cons.2 ⟨u32_lt _, wordsOk_cons.2 ⟨u32_lt _, (wordsOk_cons.1 (wordsOk_cons.1 hb).2).2⟩⟩)
    | cons p ps => rw [sqRow]; exact .bind (ih (wordsOk_cons.1 hb).2) fun p hp => .ok (wordsOk_cons.2 ⟨u32_lt _, hp⟩)

theorem sqSchool_all {pre vs bits : List Nat} (hb : WordsOk bits) : (sqSchool pre vs bits).All WordsOk := by
  induction vs generalizing pre bits with
  | nil => exact .ok hb
  | cons r rs ih =>
    refine .bind (sqRow_all hb) fun p hp => ?_
    cases p with
    | nil => exact .ub
    | cons b bs =>
      obtain ⟨h1, h2⟩ := wordsOk_cons.1 hp
      exact .bind (ih h2) fun t ht => .ok (wordsOk_cons.2 ⟨h1, ht⟩)

theorem sqCore_all (n : Nat) {value bits : List Nat} (hb : WordsOk bits) : (sqCore value bits n).All WordsOk := by
  induction n using Nat.strong_induction_on generalizing value bits with
  | _ n ih =>
    rw [sqCore]
    refine .bind' fun _ => ?_
    split
    · exact sqSchool_all hb
    · next h =>
      simp only [SquareThreshold] at h
      refine .bind' fun _ => .bind' fun _ => ?_
      refine .bind (slice_all' hb _ _) fun bl hbl => .bind (slice_all' hb _ _) fun bh hbh => ?_
      refine .bind (ih _ (by omega) hbl) fun bl hbl => .bind (ih _ (by omega) hbh) fun bh hbh => ?_
      refine .bind' fun _ => .bind (ih _ (by omega) (wordsOk_replicate_zero _)) fun co hco => ?_
      refine .bind (subtractCore_all hco) fun co hco => ?_
      have hall := wordsOk_append.2 ⟨hbl, hbh⟩
      exact .bind (slice_all' hall _ _) fun u hu => .bind (addSelf_all hu) fun u hu => .ok
        (wordsOk_append.2 ⟨hall.take _, hu⟩)
theorem squareVec_all {xs : List Nat} : (squareVec xs).All WordsOk :=
  .bind' fun _ => .bind' fun _ => sqCore_all _ (wordsOk_replicate_zero _)

/-! ### DivRem -/

theorem divWordLoop_all {xs : List Nat} {y : Nat} : (divWordLoop xs y).All fun p => WordsOk p.1 := by
  induction xs with
  | nil => exact .ok wordsOk_nil
  | cons x xs ih => exact .bind ih fun p hp => .ite (fun _ => .throw) fun _ => .ok (wordsOk_cons.2 ⟨u32_lt _, hp⟩)
theorem divideWordRem_all {xs : List Nat} {y : Nat} : (divideWordRem xs y).All fun p => WordsOk p.1 ∧ p.2 < 4294967296 :=
  .bind' fun _ => .bind' fun _ => .bind divWordLoop_all fun _ hp => .ok ⟨hp, u32_lt _⟩
theorem divideWord_all {xs : List Nat} {y : Nat} : (divideWord xs y).All WordsOk :=
  .bind' fun _ => .bind' fun _ => .bind divWordLoop_all fun _ hp => .ok hp
theorem remainderWord_all {xs : List Nat} {y : Nat} : (remainderWord xs y).All (· < 4294967296) :=
  .bind' fun _ => .bind' fun _ => .bind' fun _ => .ok (u32_lt _)

theorem addDivisor_all {xs ys : List Nat} (hx : WordsOk xs) {c : Nat} : (addDivisor xs ys c).All fun p => WordsOk p.1 := by
  induction ys generalizing xs c with
  | nil => rw [addDivisor]; exact .ok hx
  | cons y ys ih =>
    cases xs with
    | nil => exact .ub
    | cons x xs => exact .bind (ih (wordsOk_cons.1 hx).2) fun p hp => .ok (wordsOk_cons.2 ⟨u32_lt _, hp⟩)
theorem subtractDivisor_all {xs ys : List Nat} (hx : WordsOk xs) {q c : Nat} :
    (subtractDivisor xs ys q c).All fun p => WordsOk p.1 := by
  induction ys generalizing xs c with
  | nil => rw [subtractDivisor]; exact .ok hx
  | cons y ys ih =>
    cases xs with
    | nil => exact .ub
    | cons x xs => exact .bind (ih (wordsOk_cons.1 hx).2) fun p hp => .ok (wordsOk_cons.2 ⟨u32i_lt _, hp⟩)

theorem divideApply_all {lhs rhs : List Nat} (hl : WordsOk lhs) {n t d : Nat} :
    (divideApply lhs rhs n t d).All fun p => WordsOk p.1 := by
  refine .bind (P := fun p => WordsOk p.1) ?_ ?_
  · refine .ite (fun _ => ?_) fun _ => .ok hl
    refine .bind (slice_all' hl _ _) fun mem hm => .bind' fun _ => .bind (subtractDivisor_all hm) fun p hp => ?_
    refine .ite (fun _ => ?_) fun _ => .ok (wordsOk_append.2 ⟨hl.take _, hp⟩)
    exact .bind' fun _ => .bind (addDivisor_all hp) fun q hq => .bind' fun _ => .ok (wordsOk_append.2 ⟨hl.take _, hq⟩)
  · rintro ⟨l, d⟩ hp
    exact .bind (P := WordsOk) (.ite (fun _ => put_all hp _ (by decide)) fun _ => .ok hp) fun l hl => .ok hl

theorem divideLoop_all {rhs : List Nat} {s h l : Nat} (k : Nat) {lhs bits : List Nat} (hl : WordsOk lhs) (hb : WordsOk bits) :
    (divideLoop rhs s h l k lhs bits).All fun p => WordsOk p.1 ∧ WordsOk p.2 := by
  induction k generalizing lhs bits with
  | zero => exact .ok ⟨hl, hb⟩
  | succ k ih =>
    refine .bind (P := fun p => WordsOk p.1) (.bind' fun _ => divideApply_all hl) fun p hp => ?_
    exact .bind (P := WordsOk) (.ite (fun _ => put_all hb _ (u32_lt _)) fun _ => .ok hb) fun b hb => ih hp hb

theorem divideCore_all {lhs rhs bits : List Nat} (hl : WordsOk lhs) (hb : WordsOk bits) :
    (divideCore lhs rhs bits).All fun p => WordsOk p.1 ∧ WordsOk p.2 :=
  .bind' fun _ => .bind' fun _ => .bind' fun _ => .bind' fun _ => .bind' fun _ => .bind' fun _ => .bind' fun _ =>
    divideLoop_all _ hl hb
theorem divideVecRem_all {lhs rhs : List Nat} (hl : WordsOk lhs) :
    (divideVecRem lhs rhs).All fun p => WordsOk p.1 ∧ WordsOk p.2 :=
  .bind' fun _ => .bind' fun _ => .bind' fun _ => .bind' fun _ =>
    .bind (divideCore_all hl (wordsOk_replicate_zero _)) fun _ hp => .ok ⟨hp.2, hp.1⟩
theorem divideVec_all {lhs rhs : List Nat} (hl : WordsOk lhs) : (divideVec lhs rhs).All WordsOk :=
  .bind' fun _ => .bind' fun _ => .bind' fun _ => .bind' fun _ =>
    .bind (divideCore_all hl (wordsOk_replicate_zero _)) fun _ hp => .ok hp.2
theorem remainderVec_all {lhs rhs : List Nat} (hl : WordsOk lhs) : (remainderVec lhs rhs).All WordsOk :=
  .bind' fun _ => .bind' fun _ => .bind' fun _ => .bind' fun _ =>
    .bind (divideCore_all hl wordsOk_nil) fun _ hp => .ok hp.1

/-! ### BitsBuffer, pow -/
namespace BitsBuffer
theorem ofWord_all {n v : Nat} (hv : v < 4294967296) : (ofWord n v).All fun b => WordsOk b.bits :=
  .bind (put_all (wordsOk_replicate_zero _) _ hv) fun _ h => .ok h
theorem ofWords_all {n : Nat} {v : List Nat} (hv : WordsOk v) : (ofWords n v).All fun b => WordsOk b.bits :=
  .bind' fun _ => .ite (fun _ => .ok (wordsOk_append.2 ⟨hv.take _, wordsOk_replicate_zero _⟩)) fun _ => .ub
theorem multiplyMem_all {l r b : List Nat} {nl nr nb : Nat} (hb : WordsOk b) : (multiplyMem l nl r nr b nb).All WordsOk :=
  .bind' fun _ => .bind' fun _ => .bind (slice_all' hb _ _) fun _ h => .bind (mulCore_all _ h) fun _ h =>
    .ok (wordsOk_append.2 ⟨h, hb.drop _⟩)
theorem apply_all {s t : BitsBuffer} {n : Nat} (hs : WordsOk s.bits) (ht : WordsOk t.bits) :
    (apply s t n).All fun p => WordsOk p.1.bits ∧ WordsOk p.2.bits :=
  .bind' fun _ => .bind' fun _ => .ok ⟨ht, wordsOk_append.2 ⟨wordsOk_replicate_zero _, hs.drop _⟩⟩
theorem multiplySelf_all {s v t : BitsBuffer} (hs : WordsOk s.bits) (ht : WordsOk t.bits) :
    (multiplySelf s v t).All fun p => WordsOk p.1.bits ∧ WordsOk p.2.bits :=
  .bind (P := WordsOk) (.ite (fun _ => multiplyMem_all ht) fun _ => multiplyMem_all ht) fun _ h => apply_all hs h
theorem squareSelf_all {s t : BitsBuffer} (hs : WordsOk s.bits) (ht : WordsOk t.bits) :
    (squareSelf s t).All fun p => WordsOk p.1.bits ∧ WordsOk p.2.bits :=
  .bind' fun _ => .bind (slice_all' ht _ _) fun _ h => .bind (sqCore_all _ h) fun _ h =>
    apply_all hs (wordsOk_append.2 ⟨h, ht.drop _⟩)
theorem reduce_all {s : BitsBuffer} {m : List Nat} (hs : WordsOk s.bits) : (reduce s m).All fun b => WordsOk b.bits :=
  .ite (fun _ => .bind (slice_all' hs _ _) fun _ h => .bind (divideCore_all h wordsOk_nil) fun _ h => .bind' fun _ =>
    .ok (wordsOk_append.2 ⟨h.1, hs.drop _⟩)) fun _ => .ok hs
theorem reduceFast_all {s : BitsBuffer} {fr : FastReducer} (hs : WordsOk s.bits) : (reduceFast s fr).All fun b => WordsOk b.bits :=
  .bind' fun _ => .ok hs
end BitsBuffer
open BitsBuffer

section
variable {red : BitsBuffer → Res BitsBuffer} (hred : ∀ b, WordsOk b.bits → (red b).All fun b => WordsOk b.bits)
include hred
theorem powLoop_all (p : Nat) {v r t : BitsBuffer} (hv : WordsOk v.bits) (hr : WordsOk r.bits) (ht : WordsOk t.bits) :
    (powLoop red p v r t).All fun b => WordsOk b.bits := by
  induction p using Nat.strong_induction_on generalizing v r t with
  | _ p ih =>
    rw [powLoop]
    split
    · exact .ok hr
    · next h =>
      refine .bind (P := fun p => WordsOk p.1.bits ∧ WordsOk p.2.bits) ?_ ?_
      · exact .ite (fun _ => .bind (multiplySelf_all hr ht) fun p hp => .bind (hred _ hp.1) fun r hr => .ok ⟨hr, hp.2⟩)
          fun _ => .ok ⟨hr, ht⟩
      · rintro ⟨r, t⟩ ⟨hr, ht⟩
        refine .bind (P := fun p => WordsOk p.1.bits ∧ WordsOk p.2.bits) ?_ ?_
        · exact .ite (fun _ => .bind (squareSelf_all hv ht) fun p hp => .bind (hred _ hp.1) fun r hr => .ok ⟨hr, hp.2⟩)
            fun _ => .ok ⟨hv, ht⟩
        · rintro ⟨v, t⟩ ⟨hv, ht⟩
          exact ih _ (by omega) hv hr ht
theorem powBits_all (n p : Nat) {st : BitsBuffer × BitsBuffer × BitsBuffer}
    (h : WordsOk st.1.bits ∧ WordsOk st.2.1.bits ∧ WordsOk st.2.2.bits) :
    (powBits red n p st).All fun st => WordsOk st.1.bits ∧ WordsOk st.2.1.bits ∧ WordsOk st.2.2.bits := by
  induction n generalizing p st with
  | zero => exact .ok h
  | succ n ih =>
    obtain ⟨v, r, t⟩ := st
    obtain ⟨hv, hr, ht⟩ := h
    refine .bind (P := fun p => WordsOk p.1.bits ∧ WordsOk p.2.bits) ?_ ?_
    · exact .ite (fun _ => .bind (multiplySelf_all hr ht) fun p hp => .bind (hred _ hp.1) fun r hr => .ok ⟨hr, hp.2⟩)
        fun _ => .ok ⟨hr, ht⟩
    · rintro ⟨r, t⟩ ⟨hr, ht⟩
      exact .bind (squareSelf_all hv ht) fun p hp => .bind (hred _ hp.1) fun v hv => ih _ ⟨hv, hr, hp.2⟩
theorem powWords_all (ps : List Nat) {st : BitsBuffer × BitsBuffer × BitsBuffer}
    (h : WordsOk st.1.bits ∧ WordsOk st.2.1.bits ∧ WordsOk st.2.2.bits) :
    (powWords red ps st).All fun st => WordsOk st.1.bits ∧ WordsOk st.2.1.bits ∧ WordsOk st.2.2.bits := by
  induction ps generalizing st with
  | nil => exact .ok h
  | cons p ps ih => exact .bind (powBits_all hred 32 p h) fun st h => ih h
end

theorem powCalc_all {mk : Nat → Res BitsBuffer} (hmk : ∀ n, (mk n).All fun b => WordsOk b.bits) {l p : Nat} :
    (powCalc mk l p).All WordsOk :=
  .bind' fun _ => .bind (hmk _) fun _ hv => .bind (ofWord_all (by decide)) fun _ ht => .bind (ofWord_all (by decide)) fun _ hr =>
    .bind (powLoop_all (fun _ h => .ok h) _ hv hr ht) fun _ h => .ok h

theorem powModWord_all (p : Nat) {m v r : Nat} : (powModWord p m v r).All (· < 4294967296) := by
  induction p using Nat.strong_induction_on generalizing v r with
  | _ p ih =>
    rw [powModWord]
    split
    · exact .ite (fun _ => .throw) fun _ => .ok (u32_lt _)
    · exact .bind' fun _ => .bind' fun _ => ih _ (by omega)
theorem powModWords_all (ps : List Nat) {m : Nat} {st : Nat × Nat} : (powModWords m ps st).All (· < 4294967296) := by
  induction ps generalizing st with
  | nil => exact .ub
  | cons p ps ih =>
    cases ps with
    | nil => exact powModWord_all p
    | cons q qs => exact .bind' fun st => ih

theorem powCoreMod_all {p : Nat} {m : List Nat} {v : BitsBuffer} (hv : WordsOk v.bits) : (powCoreMod p m v).All WordsOk :=
  .bind (ofWord_all (by decide)) fun _ ht => .bind (ofWord_all (by decide)) fun _ hr =>
    .ite (fun _ => .bind (powLoop_all (fun _ h => reduce_all h) _ hv hr ht) fun _ h => .ok h)
      fun _ => .bind' fun fr => .bind (powLoop_all (fun _ h => reduceFast_all h) _ hv hr ht) fun _ h => .ok h
theorem powCoreModWords_all {p m : List Nat} {v : BitsBuffer} (hv : WordsOk v.bits) : (powCoreModWords p m v).All WordsOk :=
  .bind (ofWord_all (by decide)) fun _ ht => .bind (ofWord_all (by decide)) fun _ hr => .bind' fun _ =>
    .ite (fun _ => .bind (powWords_all (fun _ h => reduce_all h) _ ⟨hv, hr, ht⟩) fun _ h =>
        .bind (powLoop_all (fun _ h => reduce_all h) _ h.1 h.2.1 h.2.2) fun _ h => .ok h)
      fun _ => .bind' fun fr => .bind (powWords_all (fun _ h => reduceFast_all h) _ ⟨hv, hr, ht⟩) fun _ h =>
        .bind (powLoop_all (fun _ h => reduceFast_all h) _ h.1 h.2.1 h.2.2) fun _ h => .ok h
theorem modPowBase_all {v m : List Nat} (hv : WordsOk v) : (modPowBase v m).All fun b => WordsOk b.bits :=
  .bind' fun _ => .ite (fun _ => .bind (remainderVec_all hv) fun _ h => ofWords_all h) fun _ => ofWords_all hv


/-! ### greatest common divisor -/

theorem refresh_all {b : BitsBuffer} {n : Nat} (hb : WordsOk b.bits) : (b.refresh n).All fun b => WordsOk b.bits := by
  refine .bind (P := WordsOk) (.ite (fun _ => .bind' fun _ => .ok (wordsOk_append.2 ⟨?_, hb.drop _⟩)) fun _ => .ok hb)
    fun _ h => .bind' fun _ => .ok h
  intro w hw
  rw [List.eq_of_mem_replicate hw]
  exact u32_lt _
theorem lehmerCore_all {x y : BitsBuffer} {g : Guess} (hx : WordsOk x.bits) (hy : WordsOk y.bits) :
    (lehmerCore x y g).All fun p => WordsOk p.1.bits ∧ WordsOk p.2.bits :=
  .bind' fun _ => .bind' fun _ => .bind' fun _ => .bind' fun _ => .bind' fun _ => .bind' fun _ =>
    .bind (refresh_all hx) fun _ hx => .bind (refresh_all hy) fun _ hy => .ok ⟨hx, hy⟩
theorem reduceBy_all {x y : BitsBuffer} (hx : WordsOk x.bits) : (x.reduceBy y).All fun b => WordsOk b.bits :=
  .bind' fun _ => reduce_all hx
theorem overwrite_all {b : BitsBuffer} {v : Nat} (hb : WordsOk b.bits) : (b.overwrite v).All fun b => WordsOk b.bits := by
  refine .bind (P := WordsOk) (.ite (fun _ => .bind' fun _ => .ok (wordsOk_append.2 ⟨?_, hb.drop _⟩)) fun _ => .ok hb)
    fun _ h => .bind (put_all h _ (u32_lt _)) fun _ h => .bind (put_all h _ (u32_lt _)) fun _ h => .ok h
  intro w hw
  rw [List.eq_of_mem_replicate hw]
  decide
theorem gcdLoop_all (fuel : Nat) {x y : BitsBuffer} (hx : WordsOk x.bits) (hy : WordsOk y.bits) :
    (gcdLoop fuel x y).All fun p => WordsOk p.1.bits ∧ WordsOk p.2.bits := by
  induction fuel generalizing x y with
  | zero => exact .diverge
  | succ n ih =>
    refine .ite (fun _ => .bind' fun _ => .bind' fun g => .ite (fun _ => ?_) fun _ => ?_) fun _ => .ok ⟨hx, hy⟩
    · exact .bind (reduceBy_all hx) fun _ h => ih hy h
    · exact .bind (lehmerCore_all hx hy) fun _ h => .ite (fun _ => ih h.2 h.1) fun _ => ih h.1 h.2
theorem gcdBuffers_all (fuel : Nat) {x y : BitsBuffer} (hx : WordsOk x.bits) (hy : WordsOk y.bits) :
    (gcdBuffers fuel x y).All fun b => WordsOk b.bits :=
  .bind' fun _ => .bind' fun _ => .bind' fun _ => .bind (gcdLoop_all fuel hx hy) fun _ h =>
    .ite (fun _ => .bind (reduceBy_all h.1) fun _ h => .bind' fun _ => .bind' fun _ => .bind' fun _ => .bind' fun _ =>
      overwrite_all h) fun _ => .ok h.1
theorem gcdVec_all (fuel : Nat) {x y : List Nat} (hx : WordsOk x) (hy : WordsOk y) : (gcdVec fuel x y).All WordsOk :=
  .bind' fun _ => .bind' fun _ => .bind' fun _ => .bind (ofWords_all hx) fun _ hx => .bind (ofWords_all hy) fun _ hy =>
    .bind (gcdBuffers_all fuel hx hy) fun _ h => .ok h

/-! ### objects -/

theorem Returns.all {r : Res BigInt} {z : Int} (h : Returns r z) : r.All BigInt.Valid := by
  obtain ⟨b, rfl, hb⟩ := h
  exact .ok hb.1

theorem ofMagnitude_all {ws : List Nat} (hw : WordsOk ws) (neg : Bool) : (ofMagnitude ws neg).All BigInt.Valid := by
  by_cases hl : ws.length < 2147483648
  · exact (ofMagnitude_spec hw hl neg).all
  · unfold ofMagnitude sizeInt
    rw [if_neg hl]
    exact .ub
theorem ofTwos_all {ws : List Nat} (hw : WordsOk ws) : (ofTwos ws).All BigInt.Valid := by
  by_cases hl : ws.length < 2147483648
  · exact (ofTwos_spec hw hl).all
  · unfold ofTwos sizeInt
    rw [if_neg hl]
    exact .ub
theorem ofBytes_all {v : List Nat} (hb : BytesOk v) (uns be : Bool) : (ofBytes v uns be).All BigInt.Valid := by
  by_cases hl : v.length < 2147483648
  · have := ofBytes_spec v hl hb uns be
    split_ifs at this
    · rw [this]; exact .ub
    · exact this.all
  · unfold ofBytes sizeInt
    rw [if_neg hl]
    exact .ub
theorem ofDouble_all {d : Nat} (hd : d < 2 ^ 64) : (ofDouble d).All BigInt.Valid := by
  by_cases hf : DblFinite d
  · exact (ofDouble_spec hd hf).all
  · unfold ofDouble
    rw [if_pos (mt (doubleIsFinite_iff d hd).1 hf)]
    exact .throw
theorem ofInt32_all {z : Int} (h : IntRange z) : (ofInt32 z).All BigInt.Valid := (ofInt32_spec h.1 h.2).all
theorem ofUInt32_all {n : Nat} (h : n < 4294967296) : (ofUInt32 n).All BigInt.Valid := (ofUInt32_spec h).all
theorem ofUInt64_all {n : Nat} (h : n < 18446744073709551616) : (ofUInt64 n).All BigInt.Valid := (ofUInt64_spec h).all
theorem ofInt64_all {z : Int} (h : LongRange z) : (ofInt64 z).All BigInt.Valid := by
  by_cases hz : z = -9223372036854775808
  · subst hz; intro b hb; exact absurd hb (by unfold ofInt64; simp [long])
  · exact (ofInt64_spec (by have := h.1; omega) h.2).all
theorem long_all (z : Int) : (long z).All LongRange := .ite (fun h => .ok h) fun _ => .ub
theorem int_all (z : Int) : (int z).All IntRange := .ite (fun h => .ok h) fun _ => .ub
theorem cabs_all {z : Int} (h : IntRange z) : (cabs z).All (· < 4294967296) :=
  .ite (fun _ => .ub) fun _ => .ok (by have := h.1; have := h.2; omega)

theorem valid_zero : zeroInt.Valid := (BigInt.denotes_small (s := 0) (by decide) (by decide)).1
theorem valid_one : oneInt.Valid := (BigInt.denotes_small (s := 1) (by decide) (by decide)).1
theorem valid_minusOne : minusOneInt.Valid := (BigInt.denotes_small (s := -1) (by decide) (by decide)).1

theorem addSigned_all {l r : List Nat} {s t : Int} : (addSigned l s r t).All BigInt.Valid :=
  .ite (fun _ => .bind (long_all _) fun _ h => ofInt64_all h) fun _ =>
    .ite (fun _ => .bind' fun _ => .bind addWord_all fun _ h => ofMagnitude_all h _) fun _ =>
    .ite (fun _ => .bind' fun _ => .bind addWord_all fun _ h => ofMagnitude_all h _) fun _ =>
    .ite (fun _ => .bind addVec_all fun _ h => ofMagnitude_all h _) fun _ => .bind addVec_all fun _ h => ofMagnitude_all h _
theorem subtractSigned_all {l r : List Nat} {s t : Int} : (subtractSigned l s r t).All BigInt.Valid :=
  .ite (fun _ => .bind (long_all _) fun _ h => ofInt64_all h) fun _ =>
    .ite (fun _ => .bind' fun _ => .bind subtractWord_all fun _ h => ofMagnitude_all h _) fun _ =>
    .ite (fun _ => .bind' fun _ => .bind subtractWord_all fun _ h => ofMagnitude_all h _) fun _ =>
    .ite (fun _ => .bind subtractVec_all fun _ h => ofMagnitude_all h _) fun _ => .bind subtractVec_all fun _ h => ofMagnitude_all h _

namespace BigInt
variable {a b : BigInt} (ha : a.Valid) (hb : b.Valid)

theorem add_all : (a.add b).All Valid :=
  .bind' fun _ => .bind' fun _ => .ite (fun _ => .bind' fun _ => subtractSigned_all) fun _ => addSigned_all
theorem sub_all : (a.sub b).All Valid :=
  .bind' fun _ => .bind' fun _ => .ite (fun _ => .bind' fun _ => addSigned_all) fun _ => subtractSigned_all
theorem mul_all : (a.mul b).All Valid :=
  .bind' fun _ => .bind' fun _ => .ite (fun _ => .bind (long_all _) fun _ h => ofInt64_all h) fun _ =>
    .ite (fun _ => .bind' fun _ => .bind multiplyWord_all fun _ h => ofMagnitude_all h _) fun _ =>
    .ite (fun _ => .bind' fun _ => .bind multiplyWord_all fun _ h => ofMagnitude_all h _) fun _ =>
    .ite (fun _ => .bind squareVec_all fun _ h => ofMagnitude_all h _) fun _ =>
    .ite (fun _ => .bind multiplyVec_all fun _ h => ofMagnitude_all h _) fun _ => .bind multiplyVec_all fun _ h => ofMagnitude_all h _

theorem tmod_range {x y : Int} (h : IntRange y) (h0 : y ≠ 0) : IntRange (x.tmod y) := by
  obtain ⟨h1, h2⟩ := h
  have := tmod_natAbs x y
  have h3 : x.natAbs % y.natAbs < y.natAbs := Nat.mod_lt _ (by omega)
  unfold IntRange
  omega
include ha in
theorem rem_all (hs : IntRange b.sign) : (a.rem b).All Valid :=
  .bind' fun _ => .bind' fun _ => .ite (fun _ => .ite (fun _ => .throw) fun h => .bind' fun _ => ofInt32_all (tmod_range hs h))
    fun _ => .ite (fun _ => .ok ha) fun _ =>
    .ite (fun _ => .bind' fun _ => .bind remainderWord_all fun r h => ofInt64_all (by unfold LongRange; split_ifs <;> omega))
    fun _ => .ite (fun _ => .ok ha) fun _ => .bind (remainderVec_all ha.words) fun _ h => ofMagnitude_all h _
include ha in
theorem div_all : (a.div b).All Valid :=
  .bind' fun _ => .bind' fun _ => .ite (fun _ => .ite (fun _ => .throw) fun _ => .bind (int_all _) fun q h =>
      ofInt64_all (by unfold IntRange at h; unfold LongRange; omega))
    fun _ => .ite (fun _ => .ok valid_zero) fun _ =>
    .ite (fun _ => .bind' fun _ => .bind divideWord_all fun r h => ofMagnitude_all h _)
    fun _ => .ite (fun _ => .ok valid_zero) fun _ => .bind (divideVec_all ha.words) fun _ h => ofMagnitude_all h _

theorem word_sign {s : Int} {rest : Nat} (h : rest < 4294967296) :
    (if s < 0 then u32i (-1 * (rest : Int)) else rest) < 4294967296 := by
  split_ifs
  · exact u32i_lt _
  · exact h

include ha in
theorem divRem_all (hs : IntRange b.sign) : (a.divRem b).All fun p => p.1.Valid ∧ p.2.Valid :=
  .bind' fun _ => .bind' fun _ => .ite (fun _ => .ite (fun _ => .throw) fun h0 => .bind (int_all _) fun _ h =>
      .bind (ofInt32_all (tmod_range hs h0)) fun _ hr => .bind (ofInt32_all h) fun _ hq => .ok ⟨hq, hr⟩)
    fun _ => .ite (fun _ => .ok ⟨valid_zero, ha⟩) fun _ =>
    .ite (fun _ => .bind' fun _ => .bind divideWordRem_all fun _ h =>
      .bind (ofUInt32_all (word_sign h.2)) fun _ hr => .bind (ofMagnitude_all h.1 _) fun _ hq => .ok ⟨hq, hr⟩)
    fun _ => .ite (fun _ => .ok ⟨valid_zero, ha⟩) fun _ => .bind (divideVecRem_all ha.words) fun _ h =>
      .bind (ofMagnitude_all h.2 _) fun _ hr => .bind (ofMagnitude_all h.1 _) fun _ hq => .ok ⟨hq, hr⟩
include ha in
theorem neg_all : a.neg.All Valid := (neg_spec ⟨ha, rfl⟩).all
include ha in
theorem plus_all : a.plus.All Valid := (plus_spec ⟨ha, rfl⟩).all
theorem inc_all : a.inc.All Valid := add_all
theorem dec_all : a.dec.All Valid := sub_all
theorem compl_all : a.compl.All Valid := .bind add_all fun _ h => neg_all h
include ha in
theorem abs_all : a.abs.All Valid := .bind' fun _ => .ite (fun _ => .ok ha) fun _ => neg_all ha
include ha hb in
theorem max_all : (a.max b).All Valid := .bind' fun _ => .ok (by split_ifs <;> assumption)
include ha hb in
theorem min_all : (a.min b).All Valid := .bind' fun _ => .ok (by split_ifs <;> assumption)

/-! ### bits -/
include ha in
theorem partsForBits_all : a.partsForBits.All WordsOk :=
  .ite (fun _ => .ite (fun _ => .bind' fun _ => .ok (wordsOk_cons.2 ⟨u32i_lt _, wordsOk_nil⟩)) fun _ =>
    .ok (wordsOk_cons.2 ⟨u32i_lt _, wordsOk_nil⟩)) fun _ => .ok ha.words
include ha in
theorem shlPos_all (n : Nat) : (a.shlPos n).All Valid := by
  refine .bind (partsForBits_all ha) fun xd hx => .bind' fun _ => .bind' fun _ => ofMagnitude_all ?_ _
  refine wordsOk_append.2 ⟨wordsOk_replicate_zero _, ?_⟩
  split_ifs with h
  · exact wordsOk_append.2 ⟨hx, wordsOk_cons.2 ⟨by decide, wordsOk_nil⟩⟩
  · exact (shlLoop_spec (by omega) (by omega) hx (Nat.pow_pos (by decide))).2.1

theorem or_word {x y : Nat} (hx : x < 4294967296) (hy : y < 4294967296) : x ||| y < 4294967296 :=
  Nat.or_lt_two_pow (n := 32) hx hy
theorem shr_word {x : Nat} (s : Nat) (hx : x < 4294967296) : x >>> s < 4294967296 := by
  rw [Nat.shiftRight_eq_div_pow]; exact Nat.lt_of_le_of_lt (Nat.div_le_self _ _) hx
theorem shrLoop_words (neg : Bool) (s : Nat) {xs : List Nat} (hx : WordsOk xs) :
    WordsOk (shrLoop neg s xs).1 ∧ (shrLoop neg s xs).2 < 4294967296 := by
  induction xs with
  | nil => exact ⟨wordsOk_nil, show 0 < 4294967296 by decide⟩
  | cons x xs ih =>
    obtain ⟨h0, hx⟩ := wordsOk_cons.1 hx
    obtain ⟨h1, h2⟩ := ih hx
    refine ⟨wordsOk_cons.2 ⟨?_, h1⟩, u32_lt _⟩
    split_ifs
    · exact or_word (shr_word _ h0) (u32_lt _)
    · exact or_word (shr_word _ h0) h2
include ha in
theorem shrPos_all (n : Nat) : (a.shrPos n).All Valid := by
  refine .bind (partsForBits_all ha) fun xd hx => .bind' fun _ => .bind' fun _ =>
    .ite (fun _ => .ok valid_minusOne) fun _ => ofMagnitude_all ?_ _
  have hx : WordsOk (if decide (a.sign < 0) then twosComplement xd else xd) := by
    split_ifs
    · exact (twosComplement_spec hx).1
    · exact hx
  have h3 : ∀ s : Nat, WordsOk (if s = 0 then (if decide (a.sign < 0) then twosComplement xd else xd).drop (n / 32)
      else (shrLoop (decide (a.sign < 0)) s ((if decide (a.sign < 0) then twosComplement xd else xd).drop (n / 32))).1) := by
    intro s
    split
    · exact hx.drop _
    · exact (shrLoop_words _ _ (hx.drop _)).1
  by_cases hn : a.sign < 0
  · rw [if_pos (decide_eq_true hn)]; exact (twosComplement_spec (h3 _)).1
  · rw [if_neg (by simpa using hn)]; exact h3 _
include ha in
theorem shl_all (n : Int) : (a.shl n).All Valid :=
  .ite (fun _ => .ok ha) fun _ => .ite (fun _ => .bind (shrPos_all ha _) fun _ h => shrPos_all h _) fun _ =>
    .ite (fun _ => shrPos_all ha _) fun _ => shlPos_all ha _
include ha in
theorem shr_all (n : Int) : (a.shr n).All Valid :=
  .ite (fun _ => .ok ha) fun _ => .ite (fun _ => .bind (shlPos_all ha _) fun _ h => shlPos_all h _) fun _ =>
    .ite (fun _ => shlPos_all ha _) fun _ => shrPos_all ha _

include ha in
theorem toUInt32Array_all : a.toUInt32Array.All WordsOk := by
  refine .ite (fun _ => .ok wordsOk_nil) fun _ => ?_
  have h : ∀ p : List Nat × Nat, WordsOk p.1 → p.2 < 4294967296 →
      (match p with
        | (dwords, high) => do
          let _ ← sizeInt dwords.length
          let w ← idx dwords (msbIndex high dwords)
          .ok (dwords.take (msbIndex high dwords + 1) ++
            (if decide (w &&& 0x80000000 ≠ high &&& 0x80000000) then [high] else []))).All WordsOk := by
    rintro ⟨d, h⟩ hd hh
    refine .bind' fun _ => .bind' fun _ => .ok (wordsOk_append.2 ⟨hd.take _, ?_⟩)
    split_ifs
    · exact wordsOk_cons.2 ⟨hh, wordsOk_nil⟩
    · exact wordsOk_nil
  have h2 : ∀ (p : List Nat × Nat) , p = (if a.bits.length = 0 then ([u32i a.sign], if a.sign < 0 then 4294967295 else 0)
      else if a.sign = -1 then (twosComplement a.bits, 4294967295) else (a.bits, 0)) → WordsOk p.1 ∧ p.2 < 4294967296 := by
    rintro p rfl
    by_cases h1 : a.bits.length = 0
    · rw [if_pos h1]
      exact ⟨wordsOk_cons.2 ⟨u32i_lt _, wordsOk_nil⟩, by show (if a.sign < 0 then 4294967295 else 0) < 4294967296; split_ifs <;> decide⟩
    rw [if_neg h1]
    by_cases h2 : a.sign = -1
    · rw [if_pos h2]; exact ⟨(twosComplement_spec ha.words).1, by show 4294967295 < 4294967296; decide⟩
    · rw [if_neg h2]; exact ⟨ha.words, by show 0 < 4294967296; decide⟩
  exact h _ (h2 _ rfl).1 (h2 _ rfl).2

theorem zipExt_words {f : Nat → Nat → Nat} (hf : ∀ x y, x < 4294967296 → y < 4294967296 → f x y < 4294967296) {xe ye : Nat}
    (hxe : xe < 4294967296) (hye : ye < 4294967296) {xs ys : List Nat} (hx : WordsOk xs) (hy : WordsOk ys) :
    WordsOk (zipExt f xe ye xs ys) := by
  induction xs generalizing ys with
  | nil =>
    induction ys with
    | nil => rw [zipExt]; exact wordsOk_nil
    | cons y ys ih =>
      obtain ⟨h1, h2⟩ := wordsOk_cons.1 hy
      rw [zipExt]
      exact wordsOk_cons.2 ⟨hf _ _ hxe h1, ih h2⟩
  | cons x xs ih =>
    obtain ⟨h1, h2⟩ := wordsOk_cons.1 hx
    cases ys with
    | nil => rw [zipExt]; exact wordsOk_cons.2 ⟨hf _ _ h1 hye, ih h2 wordsOk_nil⟩
    | cons y ys =>
      obtain ⟨h3, h4⟩ := wordsOk_cons.1 hy
      rw [zipExt]
      exact wordsOk_cons.2 ⟨hf _ _ h1 h3, ih h2 h4⟩

include ha hb in
theorem bitwise_all {f : Nat → Nat → Nat} (hf : ∀ x y, x < 4294967296 → y < 4294967296 → f x y < 4294967296) :
    (bitwise f a b).All Valid :=
  .bind (toUInt32Array_all ha) fun _ hx => .bind (toUInt32Array_all hb) fun _ hy =>
    ofTwos_all (zipExt_words hf (by split_ifs <;> decide) (by split_ifs <;> decide) hx hy)
theorem i32_range (n : Nat) : IntRange (i32 n) := by
  unfold IntRange i32
  split_ifs <;> omega
include ha hb in
theorem xor_all : (a.xor b).All Valid :=
  .ite (fun _ => ofInt32_all (i32_range _)) fun _ => bitwise_all ha hb fun _ _ h1 h2 => Nat.xor_lt_two_pow (n := 32) h1 h2
include ha hb in
theorem and_all : (a.and b).All Valid :=
  .bind' fun _ => .bind' fun _ => .ite (fun _ => .ok valid_zero) fun _ => .ite (fun _ => ofInt32_all (i32_range _)) fun _ =>
    bitwise_all ha hb fun _ _ h1 _ => Nat.lt_of_le_of_lt Nat.and_le_left h1
include ha hb in
theorem or_all : (a.or b).All Valid :=
  .bind' fun _ => .ite (fun _ => .ok hb) fun _ => .bind' fun _ => .ite (fun _ => .ok ha) fun _ =>
    .ite (fun _ => ofInt32_all (i32_range _)) fun _ => bitwise_all ha hb fun _ _ h1 h2 => or_word h1 h2

/-! ### powers, gcd, text -/
include ha in
theorem pow_all (e : Int) : (a.pow e).All Valid :=
  .ite (fun _ => .throw) fun _ => .bind' fun _ => .ite (fun _ => .ok valid_one) fun _ => .ite (fun _ => .ok ha) fun _ =>
    .ite (fun _ => .ok ha) fun _ => .ite (fun _ => .ok (by split_ifs; exacts [ha, valid_one])) fun _ => .ite (fun _ => .ok ha) fun _ =>
    .bind (P := WordsOk) (.ite (fun _ => .bind (cabs_all ha.signRange) fun _ hs => powCalc_all fun _ => ofWord_all hs)
      fun _ => .bind' fun _ => powCalc_all fun _ => ofWords_all ha.words) fun _ h => ofMagnitude_all h _
include ha in
theorem modPow_all (e m : BigInt) : (a.modPow e m).All Valid := by
  refine .ite (fun _ => .throw) fun _ => .bind' fun _ => .bind' fun _ => .bind' fun _ => .bind' fun _ => .ite (fun _ => ?_) fun _ => ?_
  · exact .bind' fun _ => .bind' fun _ => .bind (P := (· < 4294967296)) (.ite (fun _ => .bind' fun _ => powModWord_all _)
      fun _ => powModWords_all _) fun r hr => ofUInt32_all (by split_ifs; exacts [u32i_lt _, hr])
  · exact .bind (P := fun b => WordsOk b.bits) (.ite (fun _ => .bind (cabs_all ha.signRange) fun _ hs => .bind' fun _ => ofWord_all hs)
      fun _ => modPowBase_all ha.words) fun _ hv => .bind (P := WordsOk) (.ite (fun _ => .bind' fun _ => powCoreMod_all hv)
      fun _ => powCoreModWords_all hv) fun _ h => ofMagnitude_all h _

theorem gcd_lt {x y n : Nat} (hx : x < n) (hy : y < n) : Nat.gcd x y < n := by
  rcases Nat.eq_zero_or_pos x with rfl | h
  · rwa [Nat.gcd_zero_left]
  · exact Nat.lt_of_le_of_lt (Nat.gcd_le_left _ h) hx
theorem gcd32_lt {x y : Nat} (hx : x < 4294967296) (hy : y < 4294967296) : gcd32 x y < 4294967296 := by
  rw [gcd32_spec]; exact gcd_lt hx hy
theorem gcd64_lt {x y : Nat} (hx : x < 18446744073709551616) (hy : y < 18446744073709551616) : gcd64 x y < 18446744073709551616 := by
  rw [gcd64_spec]; exact gcd_lt hx hy
theorem pair_lt {h l : Nat} (hl : l < 4294967296) : u64 (h <<< 32) ||| l < 18446744073709551616 :=
  Nat.or_lt_two_pow (n := 64) (u64_lt _) (Nat.lt_trans hl (by decide))

theorem gcdBits_all (fuel : Nat) {x y : List Nat} (hx : WordsOk x) (hy : WordsOk y) : (gcdBits fuel x y).All Valid :=
  .bind' fun _ => .ite (fun _ => .bind (idx_all hy _) fun _ h0 => .bind remainderWord_all fun _ ht => ofUInt32_all (gcd32_lt h0 ht))
    fun _ => .ite (fun _ => .bind (remainderVec_all hx) fun _ ht => .bind' fun _ => .bind (idx_all hy _) fun _ h0 =>
      .bind' fun _ => .bind (idx_all ht _) fun _ ht0 => ofUInt64_all (gcd64_lt (pair_lt h0) (pair_lt ht0)))
    fun _ => .bind (gcdVec_all fuel hx hy) fun _ h => ofMagnitude_all h _
theorem gcdWord_all {x : List Nat} {y : Nat} (hy : y < 4294967296) : (gcdWord x y).All (· < 4294967296) :=
  .bind' fun _ => .bind' fun _ => .bind remainderWord_all fun _ ht => .ok (gcd32_lt hy ht)
include ha hb in
theorem gcd_all (fuel : Nat) : (gcd fuel a b).All Valid :=
  .bind' fun _ => .bind' fun _ => .ite (fun _ => .bind (cabs_all ha.signRange) fun _ h1 => .bind (cabs_all hb.signRange) fun _ h2 =>
      ofUInt32_all (gcd32_lt h1 h2)) fun _ =>
    .ite (fun _ => .ite (fun _ => .bind (cabs_all ha.signRange) fun _ h => .bind (gcdWord_all h) fun _ h => ofUInt32_all h)
      fun _ => ofMagnitude_all hb.words _) fun _ =>
    .ite (fun _ => .ite (fun _ => .bind (cabs_all hb.signRange) fun _ h => .bind (gcdWord_all h) fun _ h => ofUInt32_all h)
      fun _ => ofMagnitude_all ha.words _) fun _ =>
    .ite (fun _ => gcdBits_all fuel hb.words ha.words) fun _ => gcdBits_all fuel ha.words hb.words

theorem parseLoop_all (s : List Char) (ha : a.Valid) : (parseLoop s a).All Valid := by
  induction s generalizing a with
  | nil => exact .ok ha
  | cons c cs ih => exact .ite (fun _ => .bind' fun _ => .bind' fun _ => .bind' fun _ => .bind add_all fun _ h => ih h) fun _ => .ok ha
theorem parse_all (s : List Char) : (parse s).All Valid := by
  unfold parse
  split
  · exact .bind (parseLoop_all _ valid_zero) fun _ h => neg_all h
  · exact parseLoop_all _ valid_zero
  · exact parseLoop_all _ valid_zero
include ha in
theorem tryParse_all (s : List Char) : (tryParse s a).All fun p => p.2.Valid := by
  unfold tryParse
  have := parse_all s
  split
  · next h => exact .ok (this _ h)
  · exact .ok ha
  · exact .abort
  · exact .ub
  · exact .diverge
end BigInt

/-! ### programs -/

/-- Run on canonical objects, the code leaves only canonical objects, however it ends; and what it
returns satisfies `P`. -/
def Cmd.Keeps {α : Type} (m : Cmd α) (P : α → Prop) : Prop :=
  ∀ σ : Store, (∀ i, (σ i).Valid) → (∀ i, ((m σ).2 i).Valid) ∧ (m σ).1.All P

namespace Cmd
variable {α β : Type}
theorem Keeps.bind {m : Cmd α} {f : α → Cmd β} {P : α → Prop} {Q : β → Prop} (h : m.Keeps P) (hf : ∀ a, P a → (f a).Keeps Q) :
    (m >>= f).Keeps Q := by
  intro σ hσ
  obtain ⟨h1, h2⟩ := h σ hσ
  show (∀ i, ((Cmd.bind m f σ).2 i).Valid) ∧ (Cmd.bind m f σ).1.All Q
  unfold Cmd.bind
  generalize m σ = r at *
  obtain ⟨r, σ'⟩ := r
  cases r with
  | ok a => exact hf a (h2 a rfl) σ' h1
  | throw e => exact ⟨h1, .throw⟩
  | abort => exact ⟨h1, .abort⟩
  | ub u => exact ⟨h1, .ub⟩
  | diverge => exact ⟨h1, .diverge⟩
theorem Keeps.lift {r : Res α} {P : α → Prop} (h : r.All P) : (Cmd.lift r).Keeps P := fun _ hσ => ⟨hσ, h⟩
theorem Keeps.pure {a : α} {P : α → Prop} (h : P a) : (Pure.pure a : Cmd α).Keeps P := fun _ hσ => ⟨hσ, .ok h⟩
theorem Keeps.read (i : Nat) : (Cmd.read i).Keeps BigInt.Valid := fun _ hσ => ⟨hσ, .ok (hσ i)⟩
theorem Keeps.ask (c : Cond) : (Cmd.ask c).Keeps fun _ => True := fun _ hσ => ⟨hσ, .trivial⟩
theorem Keeps.write {i : Nat} {v : BigInt} (hv : v.Valid) : (Cmd.write i v).Keeps fun _ => True := by
  intro σ hσ
  refine ⟨fun j => ?_, .trivial⟩
  show (Store.set σ i v j).Valid
  unfold Store.set
  split_ifs
  · exact hv
  · exact hσ j
theorem Keeps.ite {c : Prop} [Decidable c] {m n : Cmd α} {P : α → Prop} (h1 : c → m.Keeps P) (h2 : ¬ c → n.Keeps P) :
    (if c then m else n).Keeps P := by
  by_cases h : c
  · rw [if_pos h]; exact h1 h
  · rw [if_neg h]; exact h2 h
theorem Keeps.bind' {m : Cmd α} {f : α → Cmd β} {P : α → Prop} {Q : β → Prop} (h : m.Keeps P) (hf : ∀ a, (f a).Keeps Q) :
    (m >>= f).Keeps Q := Keeps.bind h fun a _ => hf a
end Cmd
open Cmd

theorem divRemAt_keeps (i j k : Nat) : (divRemAt i j k).Keeps BigInt.Valid := by
  refine .bind (.read i) fun a ha => .bind (.read j) fun b hb => .bind (.lift .trivial) fun _ _ => .bind (.lift .trivial) fun _ _ => ?_
  refine .ite (fun _ => .ite (fun _ => .lift .throw) fun h0 => .bind (.lift .trivial) fun _ _ =>
    .bind (.lift (ofInt32_all (BigInt.tmod_range hb.signRange h0))) fun r hr => .bind (.write hr) fun _ _ =>
      .bind (.read i) fun a ha => .bind (.read j) fun b hb => .ite (fun _ => .lift .ub) fun _ =>
        .bind (.lift (int_all _)) fun q hq => .lift (ofInt32_all hq)) fun _ => ?_
  refine .ite (fun _ => .bind (.write ha) fun _ _ => .pure valid_zero) fun _ => ?_
  refine .ite (fun _ => .bind (.lift .trivial) fun _ _ => .bind (.lift divideWordRem_all) fun p hp =>
    .bind (.lift (ofUInt32_all (BigInt.word_sign hp.2))) fun r hr => .bind (.write hr) fun _ _ => .bind (.read i) fun _ _ =>
      .bind (.read j) fun _ _ => .lift (ofMagnitude_all hp.1 _)) fun _ => ?_
  refine .ite (fun _ => .bind (.write ha) fun _ _ => .pure valid_zero) fun _ => ?_
  exact .bind (.lift (divideVecRem_all ha.words)) fun p hp => .bind (.lift (ofMagnitude_all hp.2 _)) fun r hr =>
    .bind (.write hr) fun _ _ => .bind (.read i) fun _ _ => .bind (.read j) fun _ _ => .lift (ofMagnitude_all hp.1 _)

theorem BinOp.apply_all (op : BinOp) {a b : BigInt} (ha : a.Valid) (hb : b.Valid) : (op.apply a b).All BigInt.Valid := by
  cases op
  · exact BigInt.add_all
  · exact BigInt.sub_all
  · exact BigInt.mul_all
  · exact BigInt.div_all ha
  · exact BigInt.rem_all ha hb.signRange
  · exact BigInt.and_all ha hb
  · exact BigInt.or_all ha hb
  · exact BigInt.xor_all ha hb
theorem UnOp.apply_all (op : UnOp) {a : BigInt} (ha : a.Valid) : (op.apply a).All BigInt.Valid := by
  cases op
  · exact .ok ha
  · exact BigInt.neg_all ha
  · exact BigInt.plus_all ha
  · exact BigInt.compl_all
  · exact BigInt.abs_all ha

theorem postInc_all {a : BigInt} : a.postInc.All fun p => p.1.Valid ∧ p.2.Valid :=
  .bind BigInt.inc_all fun _ h => .ok ⟨h, h⟩
theorem postDec_all {a : BigInt} : a.postDec.All fun p => p.1.Valid ∧ p.2.Valid :=
  .bind BigInt.dec_all fun _ h => .ok ⟨h, h⟩

theorem BigInt.Valid.movedFrom {a : BigInt} (ha : a.Valid) : a.movedFrom.Valid :=
  (movedFrom_denotes ⟨ha, rfl⟩).1

theorem Stmt.exec_keeps (s : Stmt) (hc : (∀ x n, s = .const x n → IntRange n) ∧ (∀ x n, s = .long x n → LongRange n) ∧
    ∀ x n, s = .ulong x n → n < 2 ^ 64) : s.exec.Keeps fun _ => True := by
  cases s with
  | const x n => exact .bind (.lift (ofInt32_all (hc.1 x n rfl))) fun _ h => .write h
  | update op x y => exact .bind (.read x) fun _ ha => .bind (.read y) fun _ hb => .bind (.lift (op.apply_all ha hb)) fun _ h => .write h
  | binary op z x y => exact .bind (.read x) fun _ ha => .bind (.read y) fun _ hb => .bind (.lift (op.apply_all ha hb)) fun _ h => .write h
  | unary op z x => exact .bind (.read x) fun _ ha => .bind (.lift (op.apply_all ha)) fun _ h => .write h
  | shl x n => exact .bind (.read x) fun _ ha => .bind (.lift (BigInt.shl_all ha n)) fun _ h => .write h
  | shr x n => exact .bind (.read x) fun _ ha => .bind (.lift (BigInt.shr_all ha n)) fun _ h => .write h
  | inc x => exact .bind (.read x) fun _ _ => .bind (.lift BigInt.inc_all) fun _ h => .write h
  | dec x => exact .bind (.read x) fun _ _ => .bind (.lift BigInt.dec_all) fun _ h => .write h
  | pow z x n => exact .bind (.read x) fun _ ha => .bind (.lift (BigInt.pow_all ha n)) fun _ h => .write h
  | divRem z x y r => exact .bind (divRemAt_keeps x y r) fun _ h => .write h
  | long x n => exact .bind (.lift (ofInt64_all (hc.2.1 x n rfl))) fun _ h => .write h
  | ulong x n => exact .bind (.lift (ofUInt64_all (hc.2.2 x n rfl))) fun _ h => .write h
  | parse x s => exact .bind (.lift (BigInt.parse_all s)) fun _ h => .write h
  | move x y => exact .bind (.read y) fun _ ha => .bind (.write ha) fun _ _ => .write ha.movedFrom
  | swap x y =>
    exact .bind (.read x) fun _ ha => .bind (.write ha.movedFrom) fun _ _ => .bind (.read y) fun _ hb => .bind (.write hb) fun _ _ =>
      .bind (.write hb.movedFrom) fun _ _ => .write ha
  | postInc z x => exact .bind (.read x) fun _ _ => .bind (.lift postInc_all) fun _ h => .bind (.write h.1) fun _ _ => .write h.2
  | postDec z x => exact .bind (.read x) fun _ _ => .bind (.lift postDec_all) fun _ h => .bind (.write h.1) fun _ _ => .write h.2

theorem Prog.exec_keeps (n : Nat) (p : Prog) (hp : p.LiteralsOk) : (p.exec n).Keeps fun _ => True := by
  induction n generalizing p with
  | zero => exact .lift .diverge
  | succ n ih =>
    cases p with
    | skip => exact .pure trivial
    | stmt s => exact s.exec_keeps hp
    | seq p q => exact .bind (ih p hp.1) fun _ _ => ih q hp.2
    | ifThen c p q =>
      exact .bind (.ask c) fun b _ => .ite (c := b = true) (fun _ => ih p hp.1) fun _ => ih q hp.2
    | whileDo c p =>
      exact .bind (.ask c) fun b _ => .ite (c := b = true) (fun _ => .bind (ih p hp) fun _ _ => ih _ hp) fun _ => .pure trivial
    | attempt p =>
      intro σ hσ
      obtain ⟨h1, -⟩ := ih p hp σ hσ
      refine ⟨?_, .trivial⟩
      dsimp only [Prog.exec]
      generalize p.exec n σ = r at *
      obtain ⟨r, σ'⟩ := r
      cases r <;> exact h1

/-! ### chains of calls -/

theorem cassert_all {p : Prop} [Decidable p] (hd : Cfg.ndebug = false) : (cassert p).All fun _ => p := by
  by_cases h : p
  · exact .mono .trivial fun _ _ => h
  · intro u hu
    unfold cassert at hu
    simp [hd, h] at hu

theorem cassert_or (p : Prop) [Decidable p] : cassert p = .ok () ∨ cassert p = .abort := by
  unfold cassert
  split_ifs
  · exact .inl rfl
  · exact .inl rfl
  · exact .inr rfl
theorem seq_or {r s : Res Unit} (h : r = .ok () ∨ r = .abort) (h' : s = .ok () ∨ s = .abort) :
    (do r; s) = .ok () ∨ (do r; s) = .abort := by
  rcases h with rfl | rfl
  · exact h'
  · exact .inr rfl
theorem assertValid_or (b : BigInt) : assertValid b = .ok () ∨ assertValid b = .abort := by
  unfold assertValid
  split_ifs
  · exact seq_or (cassert_or _) (seq_or (cassert_or _) (cassert_or _))
  · exact cassert_or _
theorem ofParts_or (n : Int) (ws : List Nat) : ofParts n ws = .ok ⟨n, ws⟩ ∨ ofParts n ws = .abort := by
  unfold ofParts checked
  rcases assertValid_or ⟨n, ws⟩ with h | h <;> rw [h]
  · exact .inl rfl
  · exact .inr rfl

theorem ofParts_all (hd : Cfg.ndebug = false) {n : Int} {ws : List Nat} (hn : IntRange n) (hw : WordsOk ws) :
    (ofParts n ws).All BigInt.Valid := by
  by_cases h0 : ws = []
  · subst h0
    refine .bind (r := assertValid ⟨n, []⟩) (P := fun _ => n > -2147483648) (cassert_all hd) fun _ h =>
      .ok ⟨hw, hn, fun _ => ?_, fun h => (h rfl).elim, by simp, by simp⟩
    show n ≠ -2147483648
    omega
  · have h : (assertValid ⟨n, ws⟩).All fun _ => (n = 1 ∨ n = -1) ∧ (ws.length > 1 ∨ ws.headD 0 ≥ 2147483648) ∧ ws.getLast?.getD 0 ≠ 0 :=
      .ite (fun _ => .bind (cassert_all hd) fun _ h1 => .bind (cassert_all hd) fun _ h2 => .mono (cassert_all hd) fun _ h3 => ⟨h1, h2, h3⟩)
        fun h => (h h0).elim
    refine .bind h fun _ ⟨h1, h2, h3⟩ => .ok ⟨hw, hn, fun h => (h0 h).elim, fun _ => h1, ?_, ?_⟩
    · intro e
      apply h3
      show ws.getLast?.getD 0 = 0
      rw [show ws.getLast? = some 0 from e]; rfl
    · intro w e
      have e : ws = [w] := e
      subst e
      rcases h2 with h2 | h2
      · simp at h2
      · exact h2

theorem toBigInteger_all (v : PyInt) : (toBigInteger v).All BigInt.Valid := by
  by_cases hneg : v.value < 0
  · obtain ⟨w, h1, h2, -⟩ := toBigInteger_neg v hneg
    rw [h1]
    exact ofBytes_all h2 _ _
  · refine .ite (fun _ => .ok valid_zero) fun _ => ?_
    dsimp only
    rw [decide_eq_false hneg]
    unfold asByteArray
    by_cases h : 0 ≤ v.value ∧ v.value < (256 : Int) ^ ((numBits v.value + 7) / 8 + if false = true then 1 else 0)
    · rw [if_neg (by decide), if_pos h]
      exact .ite (fun _ => ofBytes_all (lowBytes_ok _ _) _ _) fun h => (h rfl).elim
    · rw [if_neg (by decide), if_neg h]
      exact .throw

theorem Made.valid {a : BigInt} (h : Made a) : a.Valid := by
  induction h with
  | zero => exact valid_zero
  | one => exact valid_one
  | minusOne => exact valid_minusOne
  | int32 h e => exact ofInt32_all h _ e
  | uint32 h e => exact ofUInt32_all h _ e
  | int64 h e => exact ofInt64_all h _ e
  | uint64 h e => exact ofUInt64_all h _ e
  | double h e => exact ofDouble_all h _ e
  | magnitude h e => exact ofMagnitude_all h _ _ e
  | parts hd hn hw e => exact ofParts_all hd hn hw _ e
  | bytes h e => exact ofBytes_all h _ _ _ e
  | parse e => exact BigInt.parse_all _ _ e
  | tryParse _ e ih => exact BigInt.tryParse_all ih _ _ e
  | python e => exact toBigInteger_all _ _ e
  | moved _ ih => exact ih.movedFrom
  | binary _ _ e ha hb => exact BinOp.apply_all _ ha hb _ e
  | unary _ e ha => exact UnOp.apply_all _ ha _ e
  | quotient _ _ e ha hb => exact (BigInt.divRem_all ha hb.signRange _ e).1
  | remainder _ _ e ha hb => exact (BigInt.divRem_all ha hb.signRange _ e).2
  | max _ _ e ha hb => exact BigInt.max_all ha hb _ e
  | min _ _ e ha hb => exact BigInt.min_all ha hb _ e
  | inc _ e => exact BigInt.inc_all _ e
  | dec _ e => exact BigInt.dec_all _ e
  | shl _ _ e ha => exact BigInt.shl_all ha _ _ e
  | shr _ _ e ha => exact BigInt.shr_all ha _ _ e
  | pow _ _ e ha => exact BigInt.pow_all ha _ _ e
  | modPow _ _ _ e ha => exact BigInt.modPow_all ha _ _ _ e
  | gcd _ _ e ha hb => exact BigInt.gcd_all ha hb _ _ e
  | gcdBits hx hy e => exact BigInt.gcdBits_all _ hx hy _ e
  | addSigned e => exact addSigned_all _ e
  | subtractSigned e => exact subtractSigned_all _ e

end BigIntegerCpp
