import Verif.Model.Cost
import Verif.Lemmas.SquMul
/-
The routines with costs have the outcomes of the routines without; rules for bounding costs.
-/
set_option linter.unusedSectionVars false
namespace BigIntegerCpp
open Counted

namespace Counted
variable {α β : Type}

@[simp] theorem bind_res (r : Counted α) (f : α → Counted β) : (r >>= f).res = r.res >>= fun a => (f a).res := by
  show (Counted.bind r f).res = _
  unfold Counted.bind
  cases h : r.res <;> rfl
@[simp] theorem pure_res (a : α) : (pure a : Counted α).res = .ok a := rfl
@[simp] theorem lift_res (r : Res α) : (lift r).res = r := rfl
@[simp] theorem tick_res (n : Nat) : (tick n).res = .ok () := rfl
@[simp] theorem call_res (r : Counted α) : (call r).res = r.res := rfl
@[simp] theorem scope_res (w : Nat) (r : Counted α) : (scope w r).res = r.res := rfl
@[simp] theorem hold_res (w : Nat) (r : Counted α) : (hold w r).res = r.res := rfl

/-- The cost is within the given bounds. -/
structure Within (r : Counted α) (s d w : Nat) : Prop where
  steps : r.steps ≤ s
  depth : r.depth ≤ d
  words : r.words ≤ w

theorem Within.mono {r : Counted α} {s d w s' d' w' : Nat} (h : Within r s d w) (hs : s ≤ s') (hd : d ≤ d') (hw : w ≤ w') :
    Within r s' d' w' := ⟨h.1.trans hs, h.2.trans hd, h.3.trans hw⟩

theorem within_pure (a : α) (d w : Nat) : Within (pure a) 0 d w := ⟨Nat.zero_le _, Nat.zero_le _, Nat.zero_le _⟩
theorem within_lift (r : Res α) (d w : Nat) : Within (lift r) 0 d w := ⟨Nat.zero_le _, Nat.zero_le _, Nat.zero_le _⟩
theorem within_tick (n d w : Nat) : Within (tick n) n d w := ⟨Nat.le_refl _, Nat.zero_le _, Nat.zero_le _⟩

theorem within_bind {r : Counted α} {f : α → Counted β} {s t d w : Nat} (hr : Within r s d w)
    (hf : ∀ a, r.res = .ok a → Within (f a) t d w) : Within (r >>= f) (s + t) d w := by
  show Within (Counted.bind r f) _ _ _
  unfold Counted.bind
  obtain ⟨h1, h2, h3⟩ := hr
  cases h : r.res with
  | ok a =>
    obtain ⟨k1, k2, k3⟩ := hf a h
    exact ⟨Nat.add_le_add h1 k1, Nat.max_le.2 ⟨h2, k2⟩, Nat.max_le.2 ⟨h3, k3⟩⟩
  | _ => exact ⟨h1.trans (Nat.le_add_right _ _), h2, h3⟩

/-- A step without cost. -/
theorem within_lift_bind {r : Res α} {f : α → Counted β} {t d w : Nat}
    (hf : ∀ a, r = .ok a → Within (f a) t d w) : Within (lift r >>= f) t d w := by
  have := within_bind (within_lift r d w) hf
  rwa [Nat.zero_add] at this

theorem within_tick_bind {n : Nat} {f : Unit → Counted β} {t d w : Nat} (hf : Within (f ()) t d w) : Within (tick n >>= f) (n + t) d w :=
  within_bind (within_tick n d w) fun _ _ => hf

theorem within_bind_pure {r : Counted α} {f : α → β} {s d w : Nat} (hr : Within r s d w) : Within (r >>= fun a => pure (f a)) s d w :=
  within_bind (t := 0) hr fun _ _ => within_pure _ _ _

theorem within_call {r : Counted α} {s d w : Nat} (h : Within r s d w) : Within (call r) s (d + 1) w := ⟨h.1, Nat.succ_le_succ h.2, h.3⟩
theorem within_scope {r : Counted α} {s d w : Nat} (n : Nat) (h : Within r s d w) : Within (scope n r) (s + n) d (w + n) :=
  ⟨Nat.add_le_add_right h.1 _, h.2, Nat.add_le_add_right h.3 _⟩
theorem within_hold {r : Counted α} {s d w : Nat} (n : Nat) (h : Within r s d w) : Within (hold n r) s d (w + n) :=
  ⟨h.1, h.2, Nat.add_le_add_right h.3 _⟩

end Counted

namespace Cost
variable [Cfg]

theorem addLoop_res : ∀ (l r : List Nat) (c : Nat), (addLoop l r c).res = BigIntegerCpp.addLoop l r c
  | [], [], c => rfl
  | [], _ :: _, _ => rfl
  | x :: xs, [], c => by
    rw [addLoop, BigIntegerCpp.addLoop]
    simp only [bind_res, tick_res, Res.ok_bind, addLoop_res xs [], pure_res]
  | x :: xs, y :: ys, c => by
    rw [addLoop, BigIntegerCpp.addLoop]
    simp only [bind_res, tick_res, Res.ok_bind, addLoop_res xs ys, pure_res]

theorem addPtr_res (l r : List Nat) (n : Nat) : (addPtr l r n).res = BigIntegerCpp.addPtr l r n := by
  simp only [addPtr, BigIntegerCpp.addPtr, bind_res, lift_res, addLoop_res]

theorem carrySelf_res : ∀ (l : List Nat) (c : Int), (carrySelf l c).res = BigIntegerCpp.carrySelf l c
  | [], c => rfl
  | x :: xs, c => by
    rw [carrySelf, BigIntegerCpp.carrySelf]
    by_cases h : c = 0
    · rw [if_pos h, if_pos h]; rfl
    · rw [if_neg h, if_neg h]
      simp only [bind_res, tick_res, lift_res, Res.ok_bind, carrySelf_res xs, pure_res]

theorem addSelfLoop_res : ∀ (l r : List Nat) (c : Int), (addSelfLoop l r c).res = BigIntegerCpp.addSelfLoop l r c
  | xs, [], c => by rw [addSelfLoop, BigIntegerCpp.addSelfLoop, carrySelf_res]
  | [], _ :: _, _ => rfl
  | x :: xs, y :: ys, c => by
    rw [addSelfLoop, BigIntegerCpp.addSelfLoop]
    simp only [bind_res, tick_res, lift_res, Res.ok_bind, addSelfLoop_res xs ys, pure_res]

theorem addSelf_res (l r : List Nat) : (addSelf l r).res = BigIntegerCpp.addSelf l r := by
  simp only [addSelf, BigIntegerCpp.addSelf, bind_res, lift_res, addSelfLoop_res, pure_res]

theorem subtractCoreLoop_res : ∀ (k l r : List Nat) (c : Int), (subtractCoreLoop k l r c).res = BigIntegerCpp.subtractCoreLoop k l r c
  | k, [], [], c => by rw [subtractCoreLoop, BigIntegerCpp.subtractCoreLoop, carrySelf_res]
  | _, [], _ :: _, _ => by rw [subtractCoreLoop, BigIntegerCpp.subtractCoreLoop, lift_res]
  | [], _ :: _, [], _ => rfl
  | [], _ :: _, _ :: _, _ => rfl
  | x :: xs, l :: ls, [], c => by
    rw [subtractCoreLoop, BigIntegerCpp.subtractCoreLoop]
    simp only [bind_res, tick_res, lift_res, Res.ok_bind, subtractCoreLoop_res xs ls [], pure_res]
  | x :: xs, l :: ls, y :: ys, c => by
    rw [subtractCoreLoop, BigIntegerCpp.subtractCoreLoop]
    simp only [bind_res, tick_res, lift_res, Res.ok_bind, subtractCoreLoop_res xs ls ys, pure_res]

theorem subtractCore_res (l r k : List Nat) : (subtractCore l r k).res = BigIntegerCpp.subtractCore l r k := by
  simp only [subtractCore, BigIntegerCpp.subtractCore, bind_res, lift_res, subtractCoreLoop_res, pure_res]

theorem mulRow_res : ∀ (b l : List Nat) (r c : Nat), (mulRow b l r c).res = BigIntegerCpp.mulRow b l r c
  | _ :: bs, [], _, c => rfl
  | [], [], _, _ => rfl
  | [], _ :: _, _, _ => rfl
  | b :: bs, l :: ls, r, c => by
    rw [mulRow, BigIntegerCpp.mulRow]
    simp only [bind_res, tick_res, Res.ok_bind, mulRow_res bs ls, pure_res]

theorem mulSchool_res (left : List Nat) : ∀ (r b : List Nat), (mulSchool left r b).res = BigIntegerCpp.mulSchool left r b
  | [], b => rfl
  | r :: rs, b => by
    rw [mulSchool, BigIntegerCpp.mulSchool]
    simp only [bind_res, tick_res, Res.ok_bind, mulRow_res]
    refine bind_congr_of_ok fun t _ => ?_
    cases t with
    | nil => rfl
    | cons b bs => simp only [bind_res, mulSchool_res left rs, pure_res]

theorem mulCore_res (left right bits : List Nat) (n : Nat) : (mulCore left right bits n).res = BigIntegerCpp.mulCore left right bits n := by
  induction n using Nat.strongRecOn generalizing left right bits with
  | ind n ih =>
  rw [mulCore, BigIntegerCpp.mulCore]
  simp only [call_res, bind_res, lift_res]
  refine bind_congr_of_ok fun _ _ => bind_congr_of_ok fun _ _ => ?_
  by_cases h : n < MultiplyThreshold
  · rw [dif_pos h, dif_pos h, mulSchool_res]
  · rw [dif_neg h, dif_neg h]
    have h' : 32 ≤ n := Nat.le_of_not_lt h
    simp only [bind_res, lift_res, scope_res, pure_res, addPtr_res, subtractCore_res, addSelf_res, ih (n / 2) (by omega),
      ih (n - n / 2) (by omega), ih (n - n / 2 + 1) (by omega)]

theorem sqRow_res : ∀ (b p : List Nat) (v c : Nat), (sqRow b p v c).res = BigIntegerCpp.sqRow b p v c
  | _ :: _ :: bs, [], v, c => rfl
  | b :: bs, p :: ps, v, c => by
    rw [sqRow, BigIntegerCpp.sqRow]
    simp only [bind_res, tick_res, Res.ok_bind, sqRow_res bs ps, pure_res]
  | [], [], _, _ => rfl
  | [], _ :: _, _, _ => rfl
  | [_], [], _, _ => rfl

theorem sqSchool_res : ∀ (p vs b : List Nat), (sqSchool p vs b).res = BigIntegerCpp.sqSchool p vs b
  | _, [], b => rfl
  | p, v :: vs, b => by
    rw [sqSchool, BigIntegerCpp.sqSchool]
    simp only [bind_res, tick_res, Res.ok_bind, sqRow_res]
    refine bind_congr_of_ok fun t _ => ?_
    cases t with
    | nil => rfl
    | cons b bs => simp only [bind_res, sqSchool_res _ vs, pure_res]

theorem sqCore_res (value bits : List Nat) (n : Nat) : (sqCore value bits n).res = BigIntegerCpp.sqCore value bits n := by
  induction n using Nat.strongRecOn generalizing value bits with
  | ind n ih =>
  rw [sqCore, BigIntegerCpp.sqCore]
  simp only [call_res, bind_res, lift_res]
  refine bind_congr_of_ok fun _ _ => ?_
  by_cases h : n < SquareThreshold
  · rw [dif_pos h, dif_pos h, sqSchool_res]
  · rw [dif_neg h, dif_neg h]
    have h' : 32 ≤ n := Nat.le_of_not_lt h
    simp only [bind_res, lift_res, scope_res, pure_res, addPtr_res, subtractCore_res, addSelf_res, ih (n / 2) (by omega),
      ih (n - n / 2) (by omega), ih (n - n / 2 + 1) (by omega)]

theorem multiplyVec_res (l r : List Nat) : (multiplyVec l r).res = BigIntegerCpp.multiplyVec l r := by
  simp only [multiplyVec, BigIntegerCpp.multiplyVec, scope_res, bind_res, lift_res, tick_res, Res.ok_bind, mulCore_res]

theorem squareVec_res (v : List Nat) : (squareVec v).res = BigIntegerCpp.squareVec v := by
  simp only [squareVec, BigIntegerCpp.squareVec, bind_res, lift_res, tick_res, Res.ok_bind, sqCore_res]

theorem multiplyWord_res (l : List Nat) (r : Nat) : (multiplyWord l r).res = BigIntegerCpp.multiplyWord l r := by
  simp only [multiplyWord, scope_res, bind_res, lift_res, tick_res, Res.ok_bind]

theorem ofMagnitude_res (l : List Nat) (s : Bool) : (ofMagnitude l s).res = BigIntegerCpp.ofMagnitude l s := by
  simp only [ofMagnitude, scope_res, bind_res, lift_res, tick_res, Res.ok_bind]

theorem mul_res (a b : BigInt) : (mul a b).res = a.mul b := by
  unfold mul BigInt.mul
  simp only [scope_res, bind_res, lift_res]
  refine bind_congr_of_ok fun _ _ => bind_congr_of_ok fun _ _ => ?_
  by_cases h1 : a.bits = [] ∧ b.bits = []
  · rw [if_pos h1, if_pos h1]; simp only [bind_res, lift_res]
  rw [if_neg h1, if_neg h1]
  by_cases h2 : a.bits = []
  · rw [if_pos h2, if_pos h2]; simp only [bind_res, lift_res, hold_res, multiplyWord_res, ofMagnitude_res]
  rw [if_neg h2, if_neg h2]
  by_cases h3 : b.bits = []
  · rw [if_pos h3, if_pos h3]; simp only [bind_res, lift_res, hold_res, multiplyWord_res, ofMagnitude_res]
  rw [if_neg h3, if_neg h3]
  simp only [bind_res, tick_res, Res.ok_bind, hold_res]
  by_cases h4 : a.bits = b.bits
  · rw [if_pos h4, if_pos h4]; simp only [bind_res, squareVec_res, ofMagnitude_res]
  rw [if_neg h4, if_neg h4]
  by_cases h5 : a.bits.length < b.bits.length
  · rw [if_pos h5, if_pos h5]; simp only [bind_res, multiplyVec_res, ofMagnitude_res]
  · rw [if_neg h5, if_neg h5]; simp only [bind_res, multiplyVec_res, ofMagnitude_res]

/-! ### Lengths of results -/

theorem slice_length {α : Type} {a t : List α} {o n : Nat} (h : slice a o n = .ok t) : t.length = n ∧ o + n ≤ a.length := by
  unfold slice at h
  by_cases hl : o + n ≤ a.length
  · rw [if_pos hl] at h
    cases h
    exact ⟨by rw [List.length_take, List.length_drop]; omega, hl⟩
  · rw [if_neg hl] at h; exact nomatch h

theorem addLoop_length : ∀ {l r : List Nat} {c : Nat} {t : List Nat}, BigIntegerCpp.addLoop l r c = .ok t → t.length = l.length + 1
  | [], [], c, t, h => by cases h; rfl
  | [], _ :: _, _, _, h => nomatch h
  | x :: xs, [], c, t, h => by
    rw [BigIntegerCpp.addLoop] at h
    obtain ⟨r, h1, h2⟩ := Res.bind_eq_ok h
    cases h2
    rw [List.length_cons, addLoop_length h1, List.length_cons]
  | x :: xs, y :: ys, c, t, h => by
    rw [BigIntegerCpp.addLoop] at h
    obtain ⟨r, h1, h2⟩ := Res.bind_eq_ok h
    cases h2
    rw [List.length_cons, addLoop_length h1, List.length_cons]

theorem addPtr_length {l r t : List Nat} {n : Nat} (h : BigIntegerCpp.addPtr l r n = .ok t) : t.length = l.length + 1 := by
  unfold BigIntegerCpp.addPtr at h
  obtain ⟨_, -, h⟩ := Res.bind_eq_ok h
  obtain ⟨_, -, h⟩ := Res.bind_eq_ok h
  exact addLoop_length h

theorem carrySelf_length : ∀ {l : List Nat} {c : Int} {t : List Nat × Int}, BigIntegerCpp.carrySelf l c = .ok t → t.1.length = l.length
  | [], c, t, h => by cases h; rfl
  | x :: xs, c, t, h => by
    rw [BigIntegerCpp.carrySelf] at h
    by_cases hc : c = 0
    · rw [if_pos hc] at h; cases h; rfl
    · rw [if_neg hc] at h
      obtain ⟨_, -, h⟩ := Res.bind_eq_ok h
      obtain ⟨r, h1, h2⟩ := Res.bind_eq_ok h
      cases h2
      rw [List.length_cons, carrySelf_length h1, List.length_cons]

theorem addSelfLoop_length : ∀ {l r : List Nat} {c : Int} {t : List Nat × Int}, BigIntegerCpp.addSelfLoop l r c = .ok t → t.1.length = l.length
  | xs, [], c, t, h => by rw [BigIntegerCpp.addSelfLoop] at h; exact carrySelf_length h
  | [], _ :: _, _, _, h => nomatch h
  | x :: xs, y :: ys, c, t, h => by
    rw [BigIntegerCpp.addSelfLoop] at h
    obtain ⟨_, -, h⟩ := Res.bind_eq_ok h
    obtain ⟨r, h1, h2⟩ := Res.bind_eq_ok h
    cases h2
    rw [List.length_cons, addSelfLoop_length h1, List.length_cons]

theorem addSelf_length {l r t : List Nat} (h : BigIntegerCpp.addSelf l r = .ok t) : t.length = l.length := by
  unfold BigIntegerCpp.addSelf at h
  obtain ⟨_, -, h⟩ := Res.bind_eq_ok h
  obtain ⟨r, h1, h⟩ := Res.bind_eq_ok h
  obtain ⟨_, -, h⟩ := Res.bind_eq_ok h
  cases h
  exact addSelfLoop_length h1

theorem mulRow_length : ∀ {b l : List Nat} {r c : Nat} {t : List Nat}, BigIntegerCpp.mulRow b l r c = .ok t → t.length = b.length
  | _ :: bs, [], _, c, _, h => by cases h; rfl
  | [], [], _, _, _, h => nomatch h
  | [], _ :: _, _, _, _, h => nomatch h
  | b :: bs, l :: ls, r, c, _, h => by
    rw [BigIntegerCpp.mulRow] at h
    obtain ⟨r, h1, h2⟩ := Res.bind_eq_ok h
    cases h2
    rw [List.length_cons, mulRow_length h1, List.length_cons]

theorem mulSchool_length {left : List Nat} : ∀ {r b t : List Nat}, BigIntegerCpp.mulSchool left r b = .ok t → t.length = b.length
  | [], b, _, h => by cases h; rfl
  | r :: rs, b, _, h => by
    rw [BigIntegerCpp.mulSchool] at h
    obtain ⟨q, h1, h2⟩ := Res.bind_eq_ok h
    cases q with
    | nil => exact nomatch h2
    | cons x xs =>
      obtain ⟨t, h3, h4⟩ := Res.bind_eq_ok h2
      cases h4
      rw [List.length_cons, mulSchool_length h3, ← mulRow_length h1, List.length_cons]

theorem mulCore_length {n : Nat} : ∀ {left right bits t : List Nat}, BigIntegerCpp.mulCore left right bits n = .ok t → t.length = bits.length := by
  induction n using Nat.strongRecOn with
  | ind n ih =>
  intro left right bits t h
  rw [BigIntegerCpp.mulCore] at h
  obtain ⟨_, -, h⟩ := Res.bind_eq_ok h
  obtain ⟨_, -, h⟩ := Res.bind_eq_ok h
  by_cases hn : n < MultiplyThreshold
  · rw [dif_pos hn] at h; exact mulSchool_length h
  · rw [dif_neg hn] at h
    have h' : 32 ≤ n := Nat.le_of_not_lt hn
    dsimp only at h
    obtain ⟨_, -, h⟩ := Res.bind_eq_ok h
    obtain ⟨_, -, h⟩ := Res.bind_eq_ok h
    obtain ⟨_, -, h⟩ := Res.bind_eq_ok h
    obtain ⟨_, -, h⟩ := Res.bind_eq_ok h
    obtain ⟨_, l1, h⟩ := Res.bind_eq_ok h
    obtain ⟨_, l2, h⟩ := Res.bind_eq_ok h
    obtain ⟨_, l3, h⟩ := Res.bind_eq_ok h
    obtain ⟨_, l4, h⟩ := Res.bind_eq_ok h
    obtain ⟨_, -, h⟩ := Res.bind_eq_ok h
    obtain ⟨_, -, h⟩ := Res.bind_eq_ok h
    obtain ⟨_, -, h⟩ := Res.bind_eq_ok h
    obtain ⟨_, -, h⟩ := Res.bind_eq_ok h
    obtain ⟨_, l5, h⟩ := Res.bind_eq_ok h
    obtain ⟨_, l6, h⟩ := Res.bind_eq_ok h
    cases h
    have l3 := ih _ (by omega) l3
    have l4 := ih _ (by omega) l4
    have l5 := slice_length l5
    have l6 := addSelf_length l6
    have l1 := slice_length l1
    have l2 := slice_length l2
    rw [List.length_append] at l5
    rw [List.length_append, List.length_take, List.length_append, l6, l5.1]
    omega

theorem sqRow_length : ∀ {b p : List Nat} {v c : Nat} {t : List Nat}, BigIntegerCpp.sqRow b p v c = .ok t → t.length = b.length
  | _ :: _ :: bs, [], v, c, _, h => by cases h; rfl
  | b :: bs, p :: ps, v, c, _, h => by
    rw [BigIntegerCpp.sqRow] at h
    obtain ⟨r, h1, h2⟩ := Res.bind_eq_ok h
    cases h2
    rw [List.length_cons, sqRow_length h1, List.length_cons]
  | [], [], _, _, _, h => nomatch h
  | [], _ :: _, _, _, _, h => nomatch h
  | [_], [], _, _, _, h => nomatch h

theorem sqSchool_length : ∀ {p vs b t : List Nat}, BigIntegerCpp.sqSchool p vs b = .ok t → t.length = b.length
  | _, [], b, _, h => by cases h; rfl
  | p, v :: vs, b, _, h => by
    rw [BigIntegerCpp.sqSchool] at h
    obtain ⟨q, h1, h2⟩ := Res.bind_eq_ok h
    cases q with
    | nil => exact nomatch h2
    | cons x xs =>
      obtain ⟨t, h3, h4⟩ := Res.bind_eq_ok h2
      cases h4
      rw [List.length_cons, sqSchool_length h3, ← sqRow_length h1, List.length_cons]

theorem sqCore_length {n : Nat} : ∀ {value bits t : List Nat}, BigIntegerCpp.sqCore value bits n = .ok t → t.length = bits.length := by
  induction n using Nat.strongRecOn with
  | ind n ih =>
  intro value bits t h
  rw [BigIntegerCpp.sqCore] at h
  obtain ⟨_, -, h⟩ := Res.bind_eq_ok h
  by_cases hn : n < SquareThreshold
  · rw [dif_pos hn] at h; exact sqSchool_length h
  · rw [dif_neg hn] at h
    have h' : 32 ≤ n := Nat.le_of_not_lt hn
    dsimp only at h
    obtain ⟨_, -, h⟩ := Res.bind_eq_ok h
    obtain ⟨_, -, h⟩ := Res.bind_eq_ok h
    obtain ⟨_, l1, h⟩ := Res.bind_eq_ok h
    obtain ⟨_, l2, h⟩ := Res.bind_eq_ok h
    obtain ⟨_, l3, h⟩ := Res.bind_eq_ok h
    obtain ⟨_, l4, h⟩ := Res.bind_eq_ok h
    obtain ⟨_, -, h⟩ := Res.bind_eq_ok h
    obtain ⟨_, -, h⟩ := Res.bind_eq_ok h
    obtain ⟨_, -, h⟩ := Res.bind_eq_ok h
    obtain ⟨_, l5, h⟩ := Res.bind_eq_ok h
    obtain ⟨_, l6, h⟩ := Res.bind_eq_ok h
    cases h
    have l3 := ih _ (by omega) l3
    have l4 := ih _ (by omega) l4
    have l5 := slice_length l5
    have l6 := addSelf_length l6
    have l1 := slice_length l1
    have l2 := slice_length l2
    rw [List.length_append] at l5
    rw [List.length_append, List.length_take, List.length_append, l6, l5.1]
    omega

/-! ### Bounds -/

variable (d w : Nat)

theorem addLoop_within : ∀ (l r : List Nat) (c : Nat), Within (addLoop l r c) l.length d w
  | [], [], c => within_pure _ _ _
  | [], _ :: _, _ => within_lift _ _ _
  | x :: xs, [], c => by
    rw [addLoop, List.length_cons, Nat.add_comm _ 1]
    refine within_tick_bind ?_
    exact within_bind_pure (addLoop_within xs [] _)
  | x :: xs, y :: ys, c => by
    rw [addLoop, List.length_cons, Nat.add_comm _ 1]
    refine within_tick_bind ?_
    exact within_bind_pure (addLoop_within xs ys _)

theorem addPtr_within (l r : List Nat) (n : Nat) : Within (addPtr l r n) l.length d w :=
  within_lift_bind fun _ _ => within_lift_bind fun _ _ => addLoop_within d w l r 0

theorem carrySelf_within : ∀ (l : List Nat) (c : Int), Within (carrySelf l c) l.length d w
  | [], c => within_pure _ _ _
  | x :: xs, c => by
    rw [carrySelf]
    by_cases h : c = 0
    · rw [if_pos h]; exact (within_pure _ d w).mono (Nat.zero_le _) (Nat.le_refl _) (Nat.le_refl _)
    · rw [if_neg h, List.length_cons, Nat.add_comm _ 1]
      exact within_tick_bind (within_lift_bind fun _ _ => within_bind_pure (carrySelf_within xs _))

theorem addSelfLoop_within : ∀ (l r : List Nat) (c : Int), Within (addSelfLoop l r c) l.length d w
  | xs, [], c => by rw [addSelfLoop]; exact carrySelf_within d w xs c
  | [], _ :: _, _ => within_lift _ _ _
  | x :: xs, y :: ys, c => by
    rw [addSelfLoop, List.length_cons, Nat.add_comm _ 1]
    exact within_tick_bind (within_lift_bind fun _ _ => within_bind_pure (addSelfLoop_within xs ys _))

theorem addSelf_within (l r : List Nat) : Within (addSelf l r) l.length d w :=
  within_lift_bind fun _ _ => within_bind (t := 0) (addSelfLoop_within d w l r 0) fun _ _ => within_lift_bind fun _ _ => within_pure _ _ _

theorem subtractCoreLoop_within : ∀ (k l r : List Nat) (c : Int), Within (subtractCoreLoop k l r c) k.length d w
  | k, [], [], c => by rw [subtractCoreLoop]; exact carrySelf_within d w k c
  | _, [], _ :: _, _ => by
    rw [subtractCoreLoop]; exact (within_lift _ d w).mono (Nat.zero_le _) (Nat.le_refl _) (Nat.le_refl _)
  | [], _ :: _, [], _ => within_lift _ _ _
  | [], _ :: _, _ :: _, _ => within_lift _ _ _
  | x :: xs, l :: ls, [], c => by
    rw [subtractCoreLoop, List.length_cons, Nat.add_comm _ 1]
    exact within_tick_bind (within_lift_bind fun _ _ => within_bind_pure (subtractCoreLoop_within xs ls [] _))
  | x :: xs, l :: ls, y :: ys, c => by
    rw [subtractCoreLoop, List.length_cons, Nat.add_comm _ 1]
    exact within_tick_bind (within_lift_bind fun _ _ => within_bind_pure (subtractCoreLoop_within xs ls ys _))

theorem subtractCore_within (l r k : List Nat) : Within (subtractCore l r k) k.length d w :=
  within_lift_bind fun _ _ => within_lift_bind fun _ _ => within_bind_pure (subtractCoreLoop_within d w k l r 0)

theorem mulRow_within : ∀ (b l : List Nat) (r c : Nat), Within (mulRow b l r c) l.length d w
  | _ :: bs, [], _, c => within_pure _ _ _
  | [], [], _, _ => within_lift _ _ _
  | [], _ :: _, _, _ => (within_lift _ d w).mono (Nat.zero_le _) (Nat.le_refl _) (Nat.le_refl _)
  | b :: bs, l :: ls, r, c => by
    rw [mulRow, List.length_cons, Nat.add_comm _ 1]
    refine within_tick_bind ?_
    exact within_bind_pure (mulRow_within bs ls r _)

theorem mulSchool_within (left : List Nat) : ∀ (r b : List Nat), Within (mulSchool left r b) (r.length * (left.length + 1)) d w
  | [], b => by rw [List.length_nil, Nat.zero_mul]; exact within_pure _ _ _
  | r :: rs, b => by
    rw [mulSchool, List.length_cons, Nat.succ_mul, Nat.add_comm, Nat.add_comm left.length 1, Nat.add_assoc]
    refine within_tick_bind (within_bind (mulRow_within d w b left r 0) fun t _ => ?_)
    rw [Nat.add_comm 1]
    cases t with
    | nil => exact (within_lift _ d w).mono (Nat.zero_le _) (Nat.le_refl _) (Nat.le_refl _)
    | cons b bs => exact within_bind_pure (mulSchool_within left rs bs)

theorem sqRow_within : ∀ (b p : List Nat) (v c : Nat), Within (sqRow b p v c) p.length d w
  | _ :: _ :: bs, [], v, c => within_pure _ _ _
  | b :: bs, p :: ps, v, c => by
    rw [sqRow, List.length_cons, Nat.add_comm _ 1]
    refine within_tick_bind ?_
    exact within_bind_pure (sqRow_within bs ps v _)
  | [], [], _, _ => within_lift _ _ _
  | [], _ :: _, _, _ => (within_lift _ d w).mono (Nat.zero_le _) (Nat.le_refl _) (Nat.le_refl _)
  | [_], [], _, _ => within_lift _ _ _

theorem sqSchool_within : ∀ (p vs b : List Nat), Within (sqSchool p vs b) (vs.length * (p.length + vs.length)) d w
  | _, [], b => by rw [List.length_nil, Nat.zero_mul]; exact within_pure _ _ _
  | p, v :: vs, b => by
    rw [sqSchool, List.length_cons]
    have e : (vs.length + 1) * (p.length + (vs.length + 1)) = 1 + (p.length + (vs.length * ((p ++ [v]).length + vs.length) + vs.length)) := by
      rw [List.length_append, List.length_singleton]; ring
    rw [e]
    refine within_tick_bind (within_bind (sqRow_within d w b p v 0) fun t _ => ?_)
    cases t with
    | nil => exact (within_lift _ d w).mono (Nat.zero_le _) (Nat.le_refl _) (Nat.le_refl _)
    | cons b bs => exact (within_bind_pure (sqSchool_within (p ++ [v]) vs bs)).mono (Nat.le_add_right _ _) (Nat.le_refl _) (Nat.le_refl _)

omit [Cfg] in
theorem pow_bounds : ∀ k, 4 ≤ k → 16 ≤ 2 ^ k ∧ 14 * 2 ^ k ≤ 7 * 3 ^ k ∧ (5 ≤ k → 32 ≤ 2 ^ k ∧ 992 + 14 * 2 ^ k ≤ 7 * 3 ^ k)
  | 0, h => absurd h (by decide)
  | k + 1, h => by
    by_cases hk : k + 1 ≤ 5
    · obtain rfl | rfl : k = 3 ∨ k = 4 := by omega
      · decide
      · decide
    · obtain ⟨h1, h2, h3⟩ := pow_bounds k (by omega)
      obtain ⟨h4, h5⟩ := h3 (by omega)
      rw [pow_succ, pow_succ]
      omega

/-- Bound for the steps of a multiplication of `n + e` by `n` words with `n ≤ 2^k + 2`. -/
def mulBound (k e : Nat) : Nat := 7 * 3 ^ k + 2 * (e * 2 ^ k) - 14 * 2 ^ k - 5 * e

omit [Cfg] in
theorem mulBound_succ {k e n : Nat} (hk : 4 ≤ k) (hn : n ≤ 2 ^ (k + 1) + 2) (h32 : 32 ≤ n) :
    mulBound k 0 + (mulBound k e + ((n - n / 2 + e) + ((n - n / 2) + (mulBound k e + ((n - n / 2 + e + 1 + (n - n / 2 + 1)) + (n + e + n - n / 2)))) +
      (n - n / 2 + e + 1 + (n - n / 2 + 1) + (n - n / 2 + e + 1 + (n - n / 2 + 1))))) ≤ mulBound (k + 1) e := by
  obtain ⟨p1, p2, p3⟩ := pow_bounds k hk
  unfold mulBound
  rw [pow_succ] at hn
  rw [pow_succ, pow_succ, ← Nat.mul_assoc e]
  have e3 : e * 16 ≤ e * 2 ^ k := Nat.mul_le_mul_left e p1
  generalize e * 2 ^ k = E at *
  generalize 2 ^ k = P at *
  generalize 3 ^ k = Q at *
  have h2 : n / 2 * 2 ≤ n ∧ n < n / 2 * 2 + 2 := by omega
  generalize n / 2 = a at *
  obtain ⟨b, rfl⟩ : ∃ b, n = a + b := ⟨n - a, by omega⟩
  rw [Nat.add_sub_cancel_left]
  omega

/-- Cost of a multiplication of `n + e` by `n` words for `n ≤ 2^k + 2`. -/
theorem mulCore_within (k : Nat) : 4 ≤ k → ∀ (n e : Nat) (left right bits : List Nat), n ≤ 2 ^ k + 2 → right.length = n → left.length = n + e →
    bits.length = n + e + n →
      Within (mulCore left right bits n) (mulBound k e) (k - 3) (4 * 2 ^ k + (k - 4) * (2 * e + 8)) := by
  induction k with
  | zero => intro h; exact absurd h (by decide)
  | succ k ih =>
  intro hk n e left right bits hn hr hl hb
  obtain ⟨p1, p2, p3⟩ := pow_bounds (k + 1) hk
  by_cases h : n < MultiplyThreshold
  · have hle : n * (n + e + 1) ≤ mulBound (k + 1) e := by
      unfold mulBound
      have hn32 : n ≤ 31 := Nat.le_of_lt_succ h
      have e1 : n * (n + e + 1) = n * (n + 1) + n * e := by ring
      have e2 : n * e ≤ 31 * e := Nat.mul_le_mul_right e hn32
      rw [e1]
      by_cases h5 : k = 3
      · subst h5
        have hn18 : n ≤ 18 := hn
        have : n * (n + 1) ≤ 18 * 19 := Nat.mul_le_mul hn18 (by omega)
        have e2 : n * e ≤ 18 * e := Nat.mul_le_mul_right e hn18
        omega
      · obtain ⟨p4, p5⟩ := p3 (by omega)
        have : n * (n + 1) ≤ 31 * 32 := Nat.mul_le_mul hn32 (by omega)
        have e3 : e * 32 ≤ e * 2 ^ (k + 1) := Nat.mul_le_mul_left e p4
        omega
    rw [mulCore]
    have := mulSchool_within (k - 3) (4 * 2 ^ (k + 1) + (k + 1 - 4) * (2 * e + 8)) left right bits
    rw [hr, hl] at this
    rw [show k + 1 - 3 = k - 3 + 1 by omega]
    refine within_call (within_lift_bind fun _ _ => within_lift_bind fun _ _ => ?_)
    rw [dif_pos h]
    exact this.mono hle (Nat.le_refl _) (Nat.le_refl _)
  · have h32 : 32 ≤ n := Nat.le_of_not_lt h
    have hk4 : 4 ≤ k := by
      by_contra hc
      obtain rfl : k = 3 := by omega
      omega
    have hle := mulBound_succ (e := e) hk4 hn h32
    have hn' := hn
    rw [pow_succ] at hn'
    have hw : 4 * 2 ^ k + (k - 4) * (2 * e + 8) + (n - n / 2 + e + 1 + (n - n / 2 + 1) + (n - n / 2 + e + 1 + (n - n / 2 + 1))) ≤
        4 * 2 ^ (k + 1) + (k + 1 - 4) * (2 * e + 8) := by
      rw [pow_succ, show (k + 1 - 4) * (2 * e + 8) = (k - 4) * (2 * e + 8) + (2 * e + 8) by
        rw [show k + 1 - 4 = k - 4 + 1 by omega]; ring]
      generalize (k - 4) * (2 * e + 8) = W
      omega
    have hw0 : 4 * 2 ^ k + (k - 4) * (2 * 0 + 8) ≤ 4 * 2 ^ k + (k - 4) * (2 * e + 8) :=
      Nat.add_le_add_left (Nat.mul_le_mul_left _ (by omega)) _
    rw [mulCore]
    rw [show k + 1 - 3 = k - 3 + 1 by omega]
    refine within_call ((?_ : Within _ _ (k - 3) (4 * 2 ^ (k + 1) + (k + 1 - 4) * (2 * e + 8))).mono hle (Nat.le_refl _) (Nat.le_refl _))
    refine within_lift_bind fun _ _ => within_lift_bind fun _ _ => ?_
    rw [dif_neg h]
    dsimp only
    refine within_lift_bind fun lLow g1 => within_lift_bind fun lHigh g2 => within_lift_bind fun rLow g3 => within_lift_bind fun rHigh g4 =>
      within_lift_bind fun bLow g5 => within_lift_bind fun bHigh g6 => ?_
    have g1 := (slice_length g1).1
    have g2 := (slice_length g2).1
    have g3 := (slice_length g3).1
    have g4 := (slice_length g4).1
    have g5 := (slice_length g5).1
    have g6 := (slice_length g6).1
    have g2' : lHigh.length = n - n / 2 + e := by omega
    refine within_bind ((ih hk4 (n / 2) 0 lLow rLow bLow (by omega) g3 (by omega) (by omega)).mono (Nat.le_refl _) (Nat.le_refl _) (by omega)) fun bLow' f1 => ?_
    refine within_bind ((ih hk4 (n - n / 2) e lHigh rHigh bHigh (by omega) g4 (by omega) (by omega)).mono (Nat.le_refl _) (Nat.le_refl _) (by omega)) fun bHigh' f2 => ?_
    rw [mulCore_res] at f1 f2
    have f1 := mulCore_length f1
    have f2 := mulCore_length f2
    refine Within.mono (d := k - 3) (w := 4 * 2 ^ k + (k - 4) * (2 * e + 8) + (n - n / 2 + e + 1 + (n - n / 2 + 1) + (n - n / 2 + e + 1 + (n - n / 2 + 1)))) ?_
      (Nat.le_refl _) (Nat.le_refl _) hw
    rw [g2']
    refine within_scope _ ?_
    have t1 := addPtr_within (k - 3) (4 * 2 ^ k + (k - 4) * (2 * e + 8)) lHigh lLow (n - n / 2 + e + 1)
    rw [g2'] at t1
    refine within_bind t1 fun lFold f3 => ?_
    have t2 := addPtr_within (k - 3) (4 * 2 ^ k + (k - 4) * (2 * e + 8)) rHigh rLow (n - n / 2 + 1)
    rw [g4] at t2
    refine within_bind t2 fun rFold f4 => ?_
    rw [addPtr_res] at f3 f4
    have f3 := addPtr_length f3
    have f4 := addPtr_length f4
    refine within_bind (ih hk4 (n - n / 2 + 1) e lFold rFold _ (by omega) (by omega) (by omega) (by rw [List.length_replicate]; omega)) fun core f5 => ?_
    rw [mulCore_res] at f5
    have f5 := mulCore_length f5
    rw [List.length_replicate] at f5
    have t3 := subtractCore_within (k - 3) (4 * 2 ^ k + (k - 4) * (2 * e + 8)) bHigh' bLow' core
    rw [show core.length = n - n / 2 + e + 1 + (n - n / 2 + 1) by omega] at t3
    refine within_bind t3 fun core' _ => ?_
    refine within_lift_bind fun upper f6 => ?_
    have f6 := (slice_length f6).1
    rw [List.length_append] at f6
    have t4 := addSelf_within (k - 3) (4 * 2 ^ k + (k - 4) * (2 * e + 8)) upper core'
    rw [show upper.length = n + e + n - n / 2 by omega] at t4
    exact within_bind_pure t4

/-- Cost of squaring `n` words for `n ≤ 2^k + 2`. -/
theorem sqCore_within (k : Nat) : 4 ≤ k → ∀ (n : Nat) (value bits : List Nat), n ≤ 2 ^ k + 2 → value.length = n → bits.length = n + n →
      Within (sqCore value bits n) (mulBound k 0) (k - 3) (4 * 2 ^ k + (k - 4) * 8) := by
  induction k with
  | zero => intro h; exact absurd h (by decide)
  | succ k ih =>
  intro hk n value bits hn hv hb
  obtain ⟨p1, p2, p3⟩ := pow_bounds (k + 1) hk
  by_cases h : n < SquareThreshold
  · have hle : n * (0 + n) ≤ mulBound (k + 1) 0 := by
      unfold mulBound
      have hn32 : n ≤ 31 := Nat.le_of_lt_succ h
      rw [Nat.zero_add]
      by_cases h5 : k = 3
      · subst h5
        have hn18 : n ≤ 18 := hn
        have : n * n ≤ 18 * 18 := Nat.mul_le_mul hn18 hn18
        omega
      · obtain ⟨p4, p5⟩ := p3 (by omega)
        have : n * n ≤ 31 * 31 := Nat.mul_le_mul hn32 hn32
        omega
    rw [sqCore]
    have := sqSchool_within (k - 3) (4 * 2 ^ (k + 1) + (k + 1 - 4) * 8) [] value bits
    rw [hv, List.length_nil] at this
    rw [show k + 1 - 3 = k - 3 + 1 by omega]
    refine within_call (within_lift_bind fun _ _ => ?_)
    rw [dif_pos h]
    exact this.mono hle (Nat.le_refl _) (Nat.le_refl _)
  · have h32 : 32 ≤ n := Nat.le_of_not_lt h
    have hk4 : 4 ≤ k := by
      by_contra hc
      obtain rfl : k = 3 := by omega
      omega
    have hle := mulBound_succ (e := 0) hk4 hn h32
    have hn' := hn
    rw [pow_succ] at hn'
    rw [sqCore]
    rw [show k + 1 - 3 = k - 3 + 1 by omega]
    refine within_call (Within.mono (s := mulBound k 0 + (mulBound k 0 + (((n - n / 2) + (mulBound k 0 + ((n - n / 2 + 1 + (n - n / 2 + 1)) + (n + n - n / 2)))) +
      (n - n / 2 + 1 + (n - n / 2 + 1 + (n - n / 2 + 1)))))) (d := k - 3) (w := 4 * 2 ^ (k + 1) + (k + 1 - 4) * 8) ?_ (by omega) (Nat.le_refl _) (Nat.le_refl _))
    refine within_lift_bind fun _ _ => ?_
    rw [dif_neg h]
    dsimp only
    refine within_lift_bind fun vLow g1 => within_lift_bind fun vHigh g2 =>
      within_lift_bind fun bLow g5 => within_lift_bind fun bHigh g6 => ?_
    have g1 := (slice_length g1).1
    have g2 := (slice_length g2).1
    have g5 := (slice_length g5).1
    have g6 := (slice_length g6).1
    refine within_bind ((ih hk4 (n / 2) vLow bLow (by omega) g1 (by omega)).mono (Nat.le_refl _) (Nat.le_refl _) (by omega)) fun bLow' f1 => ?_
    refine within_bind ((ih hk4 (n - n / 2) vHigh bHigh (by omega) g2 (by omega)).mono (Nat.le_refl _) (Nat.le_refl _) (by omega)) fun bHigh' f2 => ?_
    rw [sqCore_res] at f1 f2
    have f1 := sqCore_length f1
    have f2 := sqCore_length f2
    refine Within.mono (d := k - 3) (w := 4 * 2 ^ k + (k - 4) * 8 + (n - n / 2 + 1 + (n - n / 2 + 1 + (n - n / 2 + 1)))) ?_
      (Nat.le_refl _) (Nat.le_refl _) (by omega)
    refine within_scope _ ?_
    have t1 := addPtr_within (k - 3) (4 * 2 ^ k + (k - 4) * 8) vHigh vLow (n - n / 2 + 1)
    rw [g2] at t1
    refine within_bind t1 fun fold f3 => ?_
    rw [addPtr_res] at f3
    have f3 := addPtr_length f3
    refine within_bind (ih hk4 (n - n / 2 + 1) fold _ (by omega) (by omega) (by rw [List.length_replicate])) fun core f5 => ?_
    rw [sqCore_res] at f5
    have f5 := sqCore_length f5
    rw [List.length_replicate] at f5
    have t3 := subtractCore_within (k - 3) (4 * 2 ^ k + (k - 4) * 8) bHigh' bLow' core
    rw [f5] at t3
    refine within_bind t3 fun core' _ => ?_
    refine within_lift_bind fun upper f6 => ?_
    have f6 := (slice_length f6).1
    rw [List.length_append] at f6
    have t4 := addSelf_within (k - 3) (4 * 2 ^ k + (k - 4) * 8) upper core'
    rw [show upper.length = n + n - n / 2 by omega] at t4
    exact within_bind_pure t4

theorem multiplyWord_within (l : List Nat) (r : Nat) : Within (multiplyWord l r) (3 * l.length + 1) d (w + l.length) := by
  have h : Within (do tick (l.length + 1 + l.length); lift (BigIntegerCpp.multiplyWord l r)) (l.length + 1 + l.length + 0) d w :=
    within_tick_bind (within_lift _ _ _)
  exact (within_scope l.length h).mono (by omega) (Nat.le_refl _) (Nat.le_refl _)

omit [Cfg] in
theorem mulWordLoop_length : ∀ (l : List Nat) (r c : Nat), (mulWordLoop l r c).length = l.length + 1
  | [], _, _ => rfl
  | x :: xs, r, c => by rw [mulWordLoop, List.length_cons, mulWordLoop_length xs, List.length_cons]

theorem multiplyWord_length {l t : List Nat} {r : Nat} (h : BigIntegerCpp.multiplyWord l r = .ok t) : t.length = l.length + 1 := by
  unfold BigIntegerCpp.multiplyWord at h
  obtain ⟨_, -, h⟩ := Res.bind_eq_ok h
  cases h
  exact mulWordLoop_length l r 0

theorem ofMagnitude_within (l : List Nat) (s : Bool) : Within (ofMagnitude l s) (3 * l.length) d (w + l.length) := by
  have h : Within (do tick (2 * l.length); lift (BigIntegerCpp.ofMagnitude l s)) (2 * l.length + 0) d w :=
    within_tick_bind (within_lift _ _ _)
  exact (within_scope l.length h).mono (by omega) (Nat.le_refl _) (Nat.le_refl _)

theorem multiplyVec_within {k e : Nat} (hk : 4 ≤ k) {l r : List Nat} (hr : r.length ≤ 2 ^ k) (hl : l.length = r.length + e) :
    Within (multiplyVec l r) (2 * (l.length + r.length) + mulBound k e) (k - 3) (4 * 2 ^ k + (k - 4) * (2 * e + 8) + (l.length + r.length)) := by
  have h : Within (do
      lift (cassert (l ≠ []))
      lift (cassert (r ≠ []))
      lift (cassert (l.length ≥ r.length))
      let _ ← lift (sizeInt (l.length + r.length))
      tick (l.length + r.length)
      mulCore l r (List.replicate (l.length + r.length) 0) r.length) (l.length + r.length + mulBound k e) (k - 3) (4 * 2 ^ k + (k - 4) * (2 * e + 8)) := by
    refine within_lift_bind fun _ _ => within_lift_bind fun _ _ => within_lift_bind fun _ _ => within_lift_bind fun _ _ => within_tick_bind ?_
    exact mulCore_within k hk r.length e l r _ (by omega) rfl hl (by rw [List.length_replicate]; omega)
  exact (within_scope (l.length + r.length) h).mono (by omega) (Nat.le_refl _) (Nat.le_refl _)

theorem multiplyVec_length {l r t : List Nat} (h : BigIntegerCpp.multiplyVec l r = .ok t) : t.length = l.length + r.length := by
  unfold BigIntegerCpp.multiplyVec at h
  obtain ⟨_, -, h⟩ := Res.bind_eq_ok h
  obtain ⟨_, -, h⟩ := Res.bind_eq_ok h
  obtain ⟨_, -, h⟩ := Res.bind_eq_ok h
  obtain ⟨_, -, h⟩ := Res.bind_eq_ok h
  rw [mulCore_length h, List.length_replicate]

theorem squareVec_within {k : Nat} (hk : 4 ≤ k) {v : List Nat} (hv : v.length ≤ 2 ^ k) :
    Within (squareVec v) (2 * v.length + mulBound k 0) (k - 3) (4 * 2 ^ k + (k - 4) * 8) := by
  unfold squareVec
  refine within_lift_bind fun _ _ => within_lift_bind fun _ _ => ?_
  rw [Nat.mul_comm 2]
  refine within_tick_bind ?_
  exact sqCore_within k hk v.length v _ (by omega) rfl (by rw [List.length_replicate]; omega)

theorem squareVec_length {v t : List Nat} (h : BigIntegerCpp.squareVec v = .ok t) : t.length = v.length * 2 := by
  unfold BigIntegerCpp.squareVec at h
  obtain ⟨_, -, h⟩ := Res.bind_eq_ok h
  obtain ⟨_, -, h⟩ := Res.bind_eq_ok h
  rw [sqCore_length h, List.length_replicate]

/-- Multiplying an object with `n + e` words and one with `n` words, in either order, `n ≤ 2^k`. -/
theorem mul_within (a b : BigInt) {k n e : Nat} (hk : 4 ≤ k) (hn : n ≤ 2 ^ k) (hmin : min a.bits.length b.bits.length = n)
    (hmax : max a.bits.length b.bits.length = n + e) :
    Within (mul a b) (7 * 3 ^ k + 3 * (e * 2 ^ k)) (k - 3) (4 * 2 ^ k + (k - 4) * (2 * e + 8) + 5 * n + 3 * e + 1) := by
  obtain ⟨p1, p2, -⟩ := pow_bounds k hk
  have e3 : e * 16 ≤ e * 2 ^ k := Nat.mul_le_mul_left e p1
  have lens : (a.bits.length = n ∧ b.bits.length = n + e) ∨ (a.bits.length = n + e ∧ b.bits.length = n) := by
    rcases Nat.le_total a.bits.length b.bits.length with h | h
    · rw [min_eq_left h] at hmin; rw [max_eq_right h] at hmax; exact .inl ⟨hmin, hmax⟩
    · rw [min_eq_right h] at hmin; rw [max_eq_left h] at hmax; exact .inr ⟨hmax, hmin⟩
  have ha : a.bits.length ≤ n + e := by omega
  have hb : b.bits.length ≤ n + e := by omega
  have hab : a.bits.length + b.bits.length = n + e + n := by omega
  have hB : mulBound k e + 14 * 2 ^ k + 5 * e = 7 * 3 ^ k + 2 * (e * 2 ^ k) := by unfold mulBound; omega
  have hB0 : mulBound k 0 ≤ mulBound k e := by unfold mulBound; omega
  have hW0 : 4 * 2 ^ k + (k - 4) * 8 ≤ 4 * 2 ^ k + (k - 4) * (2 * e + 8) := Nat.add_le_add_left (Nat.mul_le_mul_left _ (by omega)) _
  generalize hW : 4 * 2 ^ k + (k - 4) * (2 * e + 8) = W at *
  unfold mul
  refine Within.mono (within_scope (s := 7 * 3 ^ k + 3 * (e * 2 ^ k) - a.bits.length) (d := k - 3) (w := W + 2 * (n + e + n) + 1) a.bits.length ?_)
    (by omega) (Nat.le_refl _) (by omega)
  refine within_lift_bind fun _ _ => within_lift_bind fun _ _ => ?_
  by_cases h1 : a.bits = [] ∧ b.bits = []
  · rw [if_pos h1]
    exact (within_lift_bind fun _ _ => within_lift _ _ _).mono (Nat.zero_le _) (Nat.le_refl _) (Nat.le_refl _)
  rw [if_neg h1]
  by_cases h2 : a.bits = []
  · rw [if_pos h2]
    refine within_lift_bind fun s _ => ?_
    refine Within.mono (within_hold (s := 3 * b.bits.length + 1 + 3 * (b.bits.length + 1)) (d := k - 3) (w := b.bits.length + 1) (b.bits.length + 1) ?_)
      (by omega) (Nat.le_refl _) (by omega)
    refine within_bind ((multiplyWord_within (k - 3) 0 b.bits s).mono (Nat.le_refl _) (Nat.le_refl _) (by omega)) fun bits hbits => ?_
    rw [multiplyWord_res] at hbits
    have := ofMagnitude_within (k - 3) 0 bits (BigInt.signXor a b)
    rw [multiplyWord_length hbits] at this
    exact this.mono (Nat.le_refl _) (Nat.le_refl _) (by omega)
  rw [if_neg h2]
  by_cases h3 : b.bits = []
  · rw [if_pos h3]
    refine within_lift_bind fun s _ => ?_
    refine Within.mono (within_hold (s := 3 * a.bits.length + 1 + 3 * (a.bits.length + 1)) (d := k - 3) (w := a.bits.length + 1) (a.bits.length + 1) ?_)
      (by omega) (Nat.le_refl _) (by omega)
    refine within_bind ((multiplyWord_within (k - 3) 0 a.bits s).mono (Nat.le_refl _) (Nat.le_refl _) (by omega)) fun bits hbits => ?_
    rw [multiplyWord_res] at hbits
    have := ofMagnitude_within (k - 3) 0 bits (BigInt.signXor a b)
    rw [multiplyWord_length hbits] at this
    exact this.mono (Nat.le_refl _) (Nat.le_refl _) (by omega)
  rw [if_neg h3]
  refine Within.mono (s := min a.bits.length b.bits.length + (2 * (n + e + n) + mulBound k e + 3 * (n + e + n))) (d := k - 3) (w := W + (n + e + n) + (n + e + n)) ?_
    (by omega) (Nat.le_refl _) (by omega)
  refine within_tick_bind ?_
  rw [hab]
  refine within_hold _ ?_
  have mag : ∀ t : List Nat, t.length = n + e + n → Within (ofMagnitude t (BigInt.signXor a b)) (3 * (n + e + n)) (k - 3) (W + (n + e + n)) := by
    intro t ht
    have := ofMagnitude_within (k - 3) W t (BigInt.signXor a b)
    rwa [ht] at this
  by_cases h4 : a.bits = b.bits
  · rw [if_pos h4]
    have hl : a.bits.length = b.bits.length := by rw [h4]
    obtain rfl : e = 0 := by omega
    have hs := squareVec_within (v := a.bits) hk (by omega)
    refine within_bind (hs.mono (by omega) (Nat.le_refl _) (by omega)) fun t ht => mag t ?_
    rw [squareVec_res] at ht
    rw [squareVec_length ht]; omega
  rw [if_neg h4]
  by_cases h5 : a.bits.length < b.bits.length
  · rw [if_pos h5]
    have hs := multiplyVec_within (e := e) (l := b.bits) (r := a.bits) hk (by omega) (by omega)
    refine within_bind (hs.mono (by omega) (Nat.le_refl _) (by omega)) fun t ht => mag t ?_
    rw [multiplyVec_res] at ht
    rw [multiplyVec_length ht]; omega
  · rw [if_neg h5]
    have hs := multiplyVec_within (e := e) (l := a.bits) (r := b.bits) hk (by omega) (by omega)
    refine within_bind (hs.mono (by omega) (Nat.le_refl _) (by omega)) fun t ht => mag t ?_
    rw [multiplyVec_res] at ht
    rw [multiplyVec_length ht]; omega

end Cost
end BigIntegerCpp
