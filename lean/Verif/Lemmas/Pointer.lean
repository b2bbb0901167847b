import Verif.Lemmas.Memory
import Verif.Model.Pointer
/-
The routines on pointers do on memory what the routines on lists do on lists.
-/
set_option linter.unusedSectionVars false
set_option linter.unnecessarySeqFocus false
namespace BigIntegerCpp
open Mem
variable [Cfg]

/-- Disjointness of ranges by arithmetic. -/
macro "ranges" : tactic => `(tactic| (
  unfold Mem.Disj at *; simp only [Ptr.plus_blk, Ptr.plus_off, List.length_cons] at *; omega))

theorem store_next {m : Mem} {p : Ptr} {i k v : Nat} (h : m.InB (p.plus i) (k + 1)) :
    m.store p i v = .ok (m.poke (p.plus i) v) := by
  apply store_ok
  unfold InB at *; simp only [Ptr.plus_blk, Ptr.plus_off] at *; omega

theorem At.head {m : Mem} {p : Ptr} {i x : Nat} {xs : List Nat} (h : m.At (p.plus i) (x :: xs)) : m.load p i = .ok x := by
  have := h.1; rwa [load_plus] at this

theorem At.tail {m : Mem} {p : Ptr} {i x : Nat} {xs : List Nat} (h : m.At (p.plus i) (x :: xs)) : m.At (p.plus (i + 1)) xs := by
  have := h.2; rwa [Ptr.plus_plus] at this

theorem write_next (m : Mem) (p : Ptr) (i w : Nat) (ws : List Nat) :
    m.write (p.plus i) (w :: ws) = (m.poke (p.plus i) w).write (p.plus (i + 1)) ws := by
  rw [write, Ptr.plus_plus]

theorem Disj.next {p q : Ptr} {i j k n : Nat} (h : Disj (p.plus i) (k + 1) (q.plus j) (n + 1)) :
    Disj (p.plus (i + 1)) k (q.plus (j + 1)) n := by
  unfold Disj at *; simp only [Ptr.plus_blk, Ptr.plus_off] at *; omega

theorem Disj.head {p q : Ptr} {i j k n : Nat} (h : Disj (p.plus i) (k + 1) (q.plus j) (n + 1)) :
    Disj (p.plus i) 1 (q.plus (j + 1)) n := by
  unfold Disj at *; simp only [Ptr.plus_blk, Ptr.plus_off] at *; omega

theorem InB.next {m : Mem} {p : Ptr} {i k : Nat} (h : m.InB (p.plus i) (k + 1)) : m.InB (p.plus (i + 1)) k := by
  unfold InB at *; simp only [Ptr.plus_blk, Ptr.plus_off] at *; omega

theorem bind_congr_ok {α β γ : Type} (x : Res α) (f : α → Res β) (g : β → γ) :
    (x >>= fun a => f a >>= fun b => .ok (g b)) = ((x >>= f) >>= fun b => .ok (g b)) := by cases x <;> rfl

theorem addMem_tail {lhs bits : Ptr} {n : Nat} (xs : List Nat) (c i : Nat) (m : Mem) (hn : n = i + xs.length)
    (hx : m.At (lhs.plus i) xs) (hb : m.InB (bits.plus i) (xs.length + 1))
    (hd : Disj (bits.plus i) (xs.length + 1) (lhs.plus i) xs.length) :
    (do
      let (i, carry, m) ← forLoop n (fun i (carry, m) => do
        let a ← m.load lhs i
        let digit := u64 (a + carry)
        let m ← m.store bits i (u32 digit)
        .ok (digit / 4294967296, m)) i (c, m)
      m.store bits i (u32 carry)) = (addLoop xs [] c >>= fun r => .ok (m.write (bits.plus i) r)) := by
  induction xs generalizing c i m with
  | nil =>
    rw [forLoop_ge _ _ (by simp at hn; omega)]
    simp only [Res.ok_bind, addLoop, store_next hb, write]
  | cons x xs ih =>
    rw [forLoop_lt _ _ (by simp at hn; omega)]
    simp only [At.head hx, Res.ok_bind, store_next hb]
    rw [ih]
    · simp only [addLoop, write_next, Res.bind_assoc, Res.ok_bind]
    · simp at hn; omega
    · exact at_poke (Disj.head hd) (At.tail hx)
    · rw [InB_poke]; exact InB.next hb
    · exact Disj.next hd

theorem addMem_loop {lhs rhs bits : Ptr} {n k : Nat} (xs ys : List Nat) (c i : Nat) (m : Mem) (hn : n = i + xs.length)
    (hk : k = i + ys.length) (hl : ys.length ≤ xs.length)
    (hx : m.At (lhs.plus i) xs) (hy : m.At (rhs.plus i) ys) (hb : m.InB (bits.plus i) (xs.length + 1))
    (hd : Disj (bits.plus i) (xs.length + 1) (lhs.plus i) xs.length)
    (hd' : Disj (bits.plus i) (xs.length + 1) (rhs.plus i) ys.length) :
    (do
      let (i, carry, m) ← forLoop k (fun i (carry, m) => do
        let a ← m.load lhs i
        let b ← m.load rhs i
        let digit := u64 (u64 (a + carry) + b)
        let m ← m.store bits i (u32 digit)
        .ok (digit / 4294967296, m)) i (c, m)
      let (i, carry, m) ← forLoop n (fun i (carry, m) => do
        let a ← m.load lhs i
        let digit := u64 (a + carry)
        let m ← m.store bits i (u32 digit)
        .ok (digit / 4294967296, m)) i (carry, m)
      m.store bits i (u32 carry)) = (addLoop xs ys c >>= fun r => .ok (m.write (bits.plus i) r)) := by
  induction ys generalizing xs c i m with
  | nil =>
    rw [forLoop_ge _ _ (by simp at hk; omega)]
    simp only [Res.ok_bind]
    exact addMem_tail xs c i m hn hx hb hd
  | cons y ys ih =>
    cases xs with
    | nil => simp at hl
    | cons x xs =>
    rw [forLoop_lt _ _ (by simp at hk; omega)]
    simp only [At.head hx, At.head hy, Res.ok_bind, store_next hb]
    rw [ih xs]
    · simp only [addLoop, write_next, Res.bind_assoc, Res.ok_bind]
    · simp at hn; omega
    · simp at hk; omega
    · simpa using hl
    · exact at_poke (Disj.head hd) (At.tail hx)
    · exact at_poke (Disj.head hd') (At.tail hy)
    · rw [InB_poke]; exact InB.next hb
    · exact Disj.next hd
    · exact Disj.next hd'

theorem addMem_eq {lhs rhs bits : Ptr} {xs ys : List Nat} {m : Mem} {bl : Nat} (hl : ys.length ≤ xs.length)
    (hx : m.At lhs xs) (hy : m.At rhs ys) (hb : m.InB bits (xs.length + 1))
    (hd : Disj bits (xs.length + 1) lhs xs.length) (hd' : Disj bits (xs.length + 1) rhs ys.length) :
    addMem lhs xs.length rhs ys.length bits bl m = (addPtr xs ys bl >>= fun r => .ok (m.write bits r)) := by
  unfold addMem addPtr
  have h := addMem_loop (lhs := lhs) (rhs := rhs) (bits := bits) xs ys 0 0 m (Nat.zero_add _).symm (Nat.zero_add _).symm hl
    hx hy hb hd hd'
  simp only [Res.bind_assoc]
  rw [h]
  rfl

theorem carryMem_eq {lhs : Ptr} {n : Nat} (xs : List Nat) (c : Int) (i : Nat) (m : Mem) (hn : n = i + xs.length)
    (hx : m.At (lhs.plus i) xs) :
    carryMem lhs n i c m = (carrySelf xs c >>= fun r => .ok (r.2, m.write (lhs.plus i) r.1)) := by
  induction xs generalizing c i m with
  | nil =>
    unfold carryMem
    rw [forWhile_end _ _ (by simp at hn; omega)]
    simp [carrySelf, write]
  | cons x xs ih =>
    by_cases hc : c = 0
    · unfold carryMem
      rw [forWhile_end _ _ (by simp [hc])]
      subst hc
      simp only [carrySelf, if_true, Res.ok_bind, write_self hx]
    · have hb := hx.length_le (by simp)
      unfold carryMem at ih ⊢
      rw [forWhile_lt _ _ (by simpa using hc) (by simp at hn; omega)]
      simp only [At.head hx, Res.ok_bind, carrySelf, if_neg hc]
      cases hL : long ((x : Int) + c) with
      | ok d =>
        simp only [Res.ok_bind, store_next hb]
        rw [ih]
        · simp only [write_next, Res.bind_assoc, Res.ok_bind]
        · simp at hn; omega
        · refine at_poke ?_ (At.tail hx)
          exact Disj.plus_self lhs (Nat.le_refl _)
      | _ => rfl

theorem addSelfMem_loop {lhs rhs : Ptr} {n k : Nat} (xs ys : List Nat) (c : Int) (i : Nat) (m : Mem) (hn : n = i + xs.length)
    (hk : k = i + ys.length) (hl : ys.length ≤ xs.length)
    (hx : m.At (lhs.plus i) xs) (hy : m.At (rhs.plus i) ys)
    (hd : Disj (lhs.plus i) xs.length (rhs.plus i) ys.length) :
    (do
      let (i, carry, m) ← forLoop k (fun i ((carry : Int), m) => do
        let a ← m.load lhs i
        let b ← m.load rhs i
        let digit ← long ((a : Int) + carry + b)
        let m ← m.store lhs i (u32i digit)
        .ok (digit / 4294967296, m)) i (c, m)
      carryMem lhs n i carry m) = (addSelfLoop xs ys c >>= fun r => .ok (r.2, m.write (lhs.plus i) r.1)) := by
  induction ys generalizing xs c i m with
  | nil =>
    rw [forLoop_ge _ _ (by simp at hk; omega)]
    simp only [Res.ok_bind, carryMem_eq xs c i m hn hx, addSelfLoop]
  | cons y ys ih =>
    cases xs with
    | nil => simp at hl
    | cons x xs =>
    have hb := hx.length_le (by simp)
    rw [forLoop_lt _ _ (by simp at hk; omega)]
    simp only [At.head hx, At.head hy, Res.ok_bind, addSelfLoop]
    cases hL : long ((x : Int) + c + y) with
    | ok d =>
      simp only [Res.ok_bind, store_next hb]
      rw [ih xs]
      · simp only [write_next, Res.bind_assoc, Res.ok_bind]
      · simp at hn; omega
      · simp at hk; omega
      · simpa using hl
      · exact at_poke (Disj.plus_self lhs (Nat.le_refl _)) (At.tail hx)
      · exact at_poke (Disj.head hd) (At.tail hy)
      · exact Disj.next hd
    | _ => rfl

theorem assertRead_ok {p : Ptr} {m : Mem} {xs : List Nat} (h : m.At p xs) (hne : xs ≠ []) : assertRead p m = .ok () := by
  unfold assertRead
  cases xs with
  | nil => exact absurd rfl hne
  | cons x xs =>
    by_cases hd : (Cfg.ndebug : Bool) = true
    · rw [if_pos hd]
    · rw [if_neg hd, h.1]; rfl

theorem addSelfMem_eq {lhs rhs : Ptr} {xs ys : List Nat} {m : Mem} (hl : ys.length ≤ xs.length) (hne : ys ≠ [])
    (hx : m.At lhs xs) (hy : m.At rhs ys) (hd : Disj lhs xs.length rhs ys.length) :
    addSelfMem lhs xs.length rhs ys.length m = (addSelf xs ys >>= fun r => .ok (m.write lhs r)) := by
  have hxne : xs ≠ [] := by rintro rfl; exact hne (List.eq_nil_of_length_eq_zero (by simpa using hl))
  have h := addSelfMem_loop (lhs := lhs) (rhs := rhs) xs ys 0 0 m (Nat.zero_add _).symm (Nat.zero_add _).symm hl
    hx hy hd
  unfold addSelfMem addSelf
  rw [assertRead_ok hx hxne, assertRead_ok hy hne]
  simp only [Res.bind_assoc, Res.ok_bind]
  have h2 := congrArg (fun z => cassert (xs.length ≥ ys.length) >>= fun _ =>
    (z >>= fun r => (do cassert (r.1 = 0); Res.ok r.2))) h
  simp only [Res.bind_assoc, Res.ok_bind] at h2
  exact h2

theorem compareLoop_snoc {xs ys : List Nat} (hl : xs.length = ys.length) (x y : Nat) :
    compareLoop (xs ++ [x]) (ys ++ [y]) = if x < y then -1 else if x > y then 1 else compareLoop xs ys := by
  induction xs generalizing ys with
  | nil =>
    cases ys with
    | nil => simp [compareLoop]
    | cons => simp at hl
  | cons a xs ih =>
    cases ys with
    | nil => simp at hl
    | cons b ys =>
      simp only [List.cons_append, compareLoop, ih (by simpa using hl)]
      by_cases h1 : x < y
      · simp [h1]
      · by_cases h2 : x > y
        · simp [h1, h2]
        · simp [h1, h2]

theorem compareMemLoop_eq {lhs rhs : Ptr} {xs ys : List Nat} {m : Mem} (hl : xs.length = ys.length)
    (hx : m.At lhs xs) (hy : m.At rhs ys) : compareMemLoop lhs rhs xs.length m = .ok (compareLoop xs ys) := by
  suffices H : ∀ k, k ≤ xs.length →
      compareMemLoop lhs rhs k m = .ok (compareLoop (xs.take k) (ys.take k)) by
    have := H xs.length (Nat.le_refl _)
    rw [List.take_length] at this
    rw [this, hl, List.take_length]
  intro k
  induction k with
  | zero => intro _; simp [compareMemLoop, compareLoop]
  | succ k ih =>
    intro hk
    rw [compareMemLoop, hx.load (by omega), hy.load (by omega), List.take_succ_eq_append_getElem (by omega),
      List.take_succ_eq_append_getElem (by omega), compareLoop_snoc (by simp; omega), ih (by omega)]
    simp only [Res.ok_bind]
    by_cases h1 : xs[k]'(by omega) < ys[k]'(by omega)
    · simp [h1]
    · by_cases h2 : xs[k]'(by omega) > ys[k]'(by omega)
      · simp [h1, h2]
      · simp [h1, h2]

theorem compareMem_eq {lhs rhs : Ptr} {xs ys : List Nat} {m : Mem}
    (hx : m.At lhs xs) (hy : m.At rhs ys) :
    compareMem lhs xs.length rhs ys.length m = .ok (compareWords xs ys) := by
  unfold compareMem compareWords
  by_cases h1 : xs.length < ys.length
  · rw [if_pos h1, if_pos h1]
  · by_cases h2 : xs.length > ys.length
    · rw [if_neg h1, if_neg h1, if_pos h2, if_pos h2]
    · rw [if_neg h1, if_neg h1, if_neg h2, if_neg h2, compareMemLoop_eq (by omega) hx hy]

theorem subMem_tail {lhs bits : Ptr} {n : Nat} (xs : List Nat) (c : Int) (i : Nat) (m : Mem) (hn : n = i + xs.length)
    (hx : m.At (lhs.plus i) xs) (hb : m.InB (bits.plus i) xs.length)
    (hd : Disj (bits.plus i) xs.length (lhs.plus i) xs.length) :
    forLoop n (fun i ((carry : Int), m) => do
        let a ← m.load lhs i
        let digit ← long ((a : Int) + carry)
        let m ← m.store bits i (u32i digit)
        .ok (digit / 4294967296, m)) i (c, m)
      = (carryLoop xs c >>= fun r => .ok (n, r.2, m.write (bits.plus i) r.1)) := by
  induction xs generalizing c i m with
  | nil =>
    rw [forLoop_ge _ _ (by simp at hn; omega)]
    simp only [Res.ok_bind, carryLoop, write]
    simp at hn; rw [hn]
  | cons x xs ih =>
    rw [forLoop_lt _ _ (by simp at hn; omega)]
    simp only [At.head hx, Res.ok_bind, carryLoop]
    cases hL : long ((x : Int) + c) with
    | ok d =>
      simp only [Res.ok_bind, store_next hb]
      rw [ih]
      · simp only [write_next, Res.bind_assoc, Res.ok_bind]
      · simp at hn; omega
      · exact at_poke (Disj.head hd) (At.tail hx)
      · rw [InB_poke]; exact InB.next hb
      · exact Disj.next hd
    | _ => rfl

theorem subMem_loop {lhs rhs bits : Ptr} {n k : Nat} (xs ys : List Nat) (c : Int) (i : Nat) (m : Mem) (hn : n = i + xs.length)
    (hk : k = i + ys.length) (hl : ys.length ≤ xs.length)
    (hx : m.At (lhs.plus i) xs) (hy : m.At (rhs.plus i) ys) (hb : m.InB (bits.plus i) xs.length)
    (hd : Disj (bits.plus i) xs.length (lhs.plus i) xs.length)
    (hd' : Disj (bits.plus i) xs.length (rhs.plus i) ys.length) :
    (do
      let (i, carry, m) ← forLoop k (fun i ((carry : Int), m) => do
        let a ← m.load lhs i
        let b ← m.load rhs i
        let digit ← long ((a : Int) + carry - b)
        let m ← m.store bits i (u32i digit)
        .ok (digit / 4294967296, m)) i (c, m)
      forLoop n (fun i ((carry : Int), m) => do
        let a ← m.load lhs i
        let digit ← long ((a : Int) + carry)
        let m ← m.store bits i (u32i digit)
        .ok (digit / 4294967296, m)) i (carry, m))
      = (subtractLoop xs ys c >>= fun r => .ok (n, r.2, m.write (bits.plus i) r.1)) := by
  induction ys generalizing xs c i m with
  | nil =>
    rw [forLoop_ge _ _ (by simp at hk; omega)]
    simp only [Res.ok_bind, subtractLoop]
    exact subMem_tail xs c i m hn hx hb hd
  | cons y ys ih =>
    cases xs with
    | nil => simp at hl
    | cons x xs =>
    rw [forLoop_lt _ _ (by simp at hk; omega)]
    simp only [At.head hx, At.head hy, Res.ok_bind, subtractLoop]
    cases hL : long ((x : Int) + c - y) with
    | ok d =>
      simp only [Res.ok_bind, store_next hb]
      rw [ih xs]
      · simp only [write_next, Res.bind_assoc, Res.ok_bind]
      · simp at hn; omega
      · simp at hk; omega
      · simpa using hl
      · exact at_poke (Disj.head hd) (At.tail hx)
      · exact at_poke (Disj.head hd') (At.tail hy)
      · rw [InB_poke]; exact InB.next hb
      · exact Disj.next hd
      · exact Disj.next hd'
    | _ => rfl

theorem subtractMem_eq {lhs rhs bits : Ptr} {xs ys : List Nat} {m : Mem} {bl : Nat} (hl : ys.length ≤ xs.length)
    (hx : m.At lhs xs) (hy : m.At rhs ys) (hb : m.InB bits xs.length)
    (hd : Disj bits xs.length lhs xs.length) (hd' : Disj bits xs.length rhs ys.length) :
    subtractMem lhs xs.length rhs ys.length bits bl m = (subtractPtr xs ys bl >>= fun r => .ok (m.write bits r)) := by
  have h := subMem_loop (lhs := lhs) (rhs := rhs) (bits := bits) xs ys 0 0 m (Nat.zero_add _).symm (Nat.zero_add _).symm hl
    hx hy hb hd hd'
  have hc : (if Cfg.ndebug = true then Res.ok () else do
      let c ← compareMem lhs xs.length rhs ys.length m
      cassert (c ≥ 0)) = cassert (compareWords xs ys ≥ 0) := by
    rw [compareMem_eq hx hy, Res.ok_bind]
    by_cases hn : Cfg.ndebug = true
    · rw [if_pos hn]; unfold cassert; rw [if_pos hn, ite_self]
    · rw [if_neg hn]
  have h2 := congrArg (fun z => z >>= fun r => (do cassert (r.2.1 = 0); Res.ok r.2.2)) h
  simp only [Res.bind_assoc, Res.ok_bind] at h2
  unfold subtractMem subtractPtr
  rw [hc]
  simp only [Res.bind_assoc, Res.ok_bind]
  exact congrArg (fun z => cassert (xs.length ≥ ys.length) >>= fun _ => cassert (compareWords xs ys ≥ 0) >>= fun _ =>
    cassert (bl = xs.length) >>= fun _ => z) h2

end BigIntegerCpp
