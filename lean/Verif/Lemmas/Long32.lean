import Verif.Model.Long32
import Verif.Long32Spec
import Verif.Lemmas.MulDiv
import Verif.Lemmas.PowProps
import Verif.Lemmas.Text
set_option linter.unusedSectionVars false
/-
The routines compiled with a `long` of 32 bits.
-/
namespace BigIntegerCpp.Long32
variable [Cfg]

theorem shr_32 (x : Int) : shr x 32 = .ub .badShift := rfl

theorem toLong32_01 {c : Int} (h : c = 0 ∨ c = 1) : toLong32 c = c := by rcases h with rfl | rfl <;> decide

theorem addWordLoop_zero {xs : List Nat} (h : WordsOk xs) : addWordLoop xs 0 = (xs, 0) := by
  induction xs with
  | nil => rfl
  | cons x xs ih =>
    rw [wordsOk_cons] at h
    have e : u32i ((x : Int) + 0) = x := by unfold u32i; omega
    rw [addWordLoop]
    simp only [e]
    rw [show ((x : Int) / 4294967296) = 0 by omega, show toLong32 0 = 0 by decide, ih h.2]
    have : u32i (x : Int) = x := by simpa using e
    rw [this]

theorem addWord_spec {lhs : List Nat} (hne : lhs ≠ []) (hw : WordsOk lhs) {rhs : Nat} (hr : rhs < 4294967296) :
    ∃ r, addWord lhs rhs = .ok r ∧ r.length = lhs.length + 1 ∧ WordsOk r ∧
      val r + (if CarryLost (val lhs) rhs then 2 ^ 64 else 0) = val lhs + rhs := by
  cases lhs with
  | nil => exact absurd rfl hne
  | cons x xs =>
    rw [wordsOk_cons] at hw
    obtain ⟨hx, hxs⟩ := hw
    have hc : ((x : Int) + rhs) / 4294967296 = 0 ∨ ((x : Int) + rhs) / 4294967296 = 1 := by omega
    have hv : val (x :: xs) % 2 ^ 32 = x := by rw [val_cons]; omega
    have hv2 : val (x :: xs) / 2 ^ 32 = val xs := by rw [val_cons]; omega
    have hrr : rhs % 2 ^ 32 = rhs := by omega
    have hr2 : rhs / 2 ^ 32 = 0 := by omega
    have hL : CarryLost (val (x :: xs)) rhs ↔ 4294967296 ≤ x + rhs ∧ val xs % 4294967296 = 4294967295 := by
      unfold CarryLost; rw [hv, hv2, hrr, hr2]; norm_num
    unfold addWord
    rw [cassert_pos hne, Res.ok_bind]
    dsimp only
    rw [toLong32_01 hc]
    rcases hc with h0 | h1
    · rw [h0, addWordLoop_zero hxs]
      refine ⟨_, rfl, by simp, wordsOk_append.2 ⟨wordsOk_cons.2 ⟨u32i_lt _, hxs⟩, wordsOk_cons.2 ⟨u32i_lt _, wordsOk_nil⟩⟩, ?_⟩
      rw [if_neg (by rw [hL]; omega), val_append]
      have : u32i ((x : Int) + rhs) = x + rhs := by unfold u32i; omega
      simp only [val_cons, val_nil, this, show u32i 0 = 0 from rfl]
      omega
    · rw [h1]
      have e : u32i ((x : Int) + rhs) + 4294967296 = x + rhs := by unfold u32i; omega
      cases xs with
      | nil =>
        rw [addWordLoop]
        refine ⟨_, rfl, by simp, wordsOk_append.2 ⟨wordsOk_cons.2 ⟨u32i_lt _, wordsOk_nil⟩, wordsOk_cons.2 ⟨u32i_lt _, wordsOk_nil⟩⟩, ?_⟩
        rw [if_neg (by rw [hL]; simp [val])]
        simp only [List.cons_append, List.nil_append, val_cons, val_nil, show u32i 1 = 1 from rfl]
        omega
      | cons w ws =>
        rw [wordsOk_cons] at hxs
        have hd : ((u32i ((w : Int) + 1) : Nat) : Int) / 4294967296 = 0 := by have := u32i_lt ((w : Int) + 1); omega
        have hu : u32i ((u32i ((w : Int) + 1) : Nat) : Int) = u32i ((w : Int) + 1) := by
          have := u32i_lt ((w : Int) + 1)
          generalize u32i ((w : Int) + 1) = q at *
          unfold u32i; omega
        rw [addWordLoop]
        simp only [hd, show toLong32 0 = 0 by decide, addWordLoop_zero hxs.2, hu]
        refine ⟨_, rfl, by simp, wordsOk_append.2 ⟨wordsOk_cons.2 ⟨u32i_lt _, wordsOk_cons.2 ⟨u32i_lt _, hxs.2⟩⟩, wordsOk_cons.2 ⟨u32i_lt _, wordsOk_nil⟩⟩, ?_⟩
        have hw2 : val (w :: ws) % 4294967296 = w := by rw [val_cons]; omega
        rw [val_append, show u32i 0 = 0 from rfl]
        by_cases hl : w = 4294967295
        · have : u32i ((w : Int) + 1) = 0 := by rw [hl]; rfl
          rw [if_pos (hL.2 ⟨by omega, by rw [hw2]; exact hl⟩), this]
          simp only [val_cons, val_nil]
          omega
        · have : u32i ((w : Int) + 1) = w + 1 := by unfold u32i; omega
          rw [if_neg (by rw [hL, hw2]; omega), this]
          simp only [val_cons, val_nil]
          omega

theorem subtractWord_ub {lhs : List Nat} (hne : lhs ≠ []) {rhs : Nat} (h : rhs ≤ lhs.headD 0 ∨ 2 ≤ lhs.length) :
    subtractWord lhs rhs = .ub .badShift := by
  unfold subtractWord
  rw [cassert_pos hne, cassert_pos h, Res.ok_bind, Res.ok_bind]
  cases lhs with
  | nil => exact absurd rfl hne
  | cons x xs => dsimp only; rw [shr_32]; rfl

theorem subtractVec_ub {xs ys : List Nat} (hxn : xs ≠ []) (hyn : ys ≠ []) (hl : ys.length ≤ xs.length)
    (hc : 0 ≤ compareWords xs ys) (hs : xs.length < 2147483648) : subtractVec xs ys = .ub .badShift := by
  have : subtractLoop xs ys 0 = .ub .badShift := by
    cases ys with
    | nil => exact absurd rfl hyn
    | cons y ys =>
      cases xs with
      | nil => exact absurd rfl hxn
      | cons x xs => rw [subtractLoop]; dsimp only; rw [shr_32]; rfl
  unfold subtractVec subtractPtr
  rw [cassert_pos hxn, cassert_pos hyn, cassert_pos hl, cassert_pos hc, sizeInt_ok hs, cassert_pos rfl, this]
  rfl

theorem subtractCore_ub {core lhs rhs : List Nat} (h1 : rhs.length ≤ lhs.length) (h2 : lhs.length ≤ core.length) (h3 : rhs ≠ []) :
    subtractCore lhs rhs core = .ub .badShift := by
  have : subtractCoreLoop core lhs rhs 0 = .ub .badShift := by
    match rhs, lhs, core, h3, h1, h2 with
    | y :: ys, l :: ls, x :: xs, _, _, _ => rw [subtractCoreLoop]; dsimp only; rw [shr_32]; rfl
    | _ :: _, [], _, _, h, _ => simp at h
    | _ :: _, _ :: _, [], _, _, h => simp at h
  unfold subtractCore
  rw [cassert_pos h1, cassert_pos h2, this]
  rfl

theorem mulCore_eq {left right bits : List Nat} {n : Nat} (h : n < 32) : mulCore left right bits n = BigIntegerCpp.mulCore left right bits n := by
  rw [mulCore, BigIntegerCpp.mulCore, dif_pos (show n < MultiplyThreshold from h), dif_pos (show n < MultiplyThreshold from h)]

theorem sqCore_eq {value bits : List Nat} {n : Nat} (h : n < 32) : sqCore value bits n = BigIntegerCpp.sqCore value bits n := by
  rw [sqCore, BigIntegerCpp.sqCore, dif_pos (show n < SquareThreshold from h), dif_pos (show n < SquareThreshold from h)]

theorem mulCore_ub (n : Nat) {left right : List Nat} (hl : WordsOk left) (hr : WordsOk right)
    (hn : right.length = n) (hlen : n ≤ left.length) (h32 : 32 ≤ n) :
    mulCore left right (List.replicate (left.length + n) 0) n = .ub .badShift := by
  induction n using Nat.strongRecOn generalizing left right with
  | ind n ih =>
  rw [mulCore]
  rw [cassert_pos (by omega), cassert_pos (by simp)]
  simp only [Res.ok_bind]
  rw [dif_neg (by simp only [MultiplyThreshold]; omega)]
  generalize hm : n / 2 = m at *
  have hm1 : 2 ≤ m := by omega
  have hm2 : m * 2 ≤ n := by omega
  have step : ∀ {k : Nat} {l r : List Nat}, k < n → WordsOk l → WordsOk r → r.length = k → k ≤ l.length →
      mulCore l r (List.replicate (l.length + k) 0) k = .ub .badShift ∨
        ∃ o, mulCore l r (List.replicate (l.length + k) 0) k = .ok o ∧ o.length = l.length + k := by
    intro k l r hk h1 h2 h3 h4
    by_cases h5 : 32 ≤ k
    · exact .inl (ih k hk h1 h2 h3 h4 h5)
    · obtain ⟨o, e, h6, -⟩ := mulCore_spec k h1 h2 h3 h4
      exact .inr ⟨o, by rw [mulCore_eq (by omega), e], h6⟩
  rw [slice_prefix (by omega), slice_suffix (by omega), slice_prefix (by omega)]
  rw [show slice right m (n - m) = .ok (right.drop m) by rw [← hn]; exact slice_suffix (by omega)]
  rw [slice_prefix (by simp; omega)]
  simp only [Res.ok_bind, List.take_replicate]
  rw [slice_suffix (by simp; omega)]
  simp only [Res.ok_bind, List.drop_replicate]
  rw [show min (m * 2) (left.length + n) = (left.take m).length + m by simp; omega]
  rcases step (k := m) (by omega) (hl.take m) (hr.take m) (by simp; omega) (by simp; omega) with e | ⟨lo, he1, hl1⟩
  · rw [e]; rfl
  rw [he1, Res.ok_bind]
  rw [show left.length + n - m * 2 = (left.drop m).length + (n - m) by simp; omega]
  rcases step (k := n - m) (by omega) (hl.drop m) (hr.drop m) (by simp; omega) (by simp; omega) with e | ⟨hi, he2, hl2⟩
  · rw [e]; rfl
  rw [he2, Res.ok_bind]
  obtain ⟨lf, he3, hl3, hw3, -⟩ := addPtr_spec (hl.drop m) (hl.take m) (by simp; omega)
  obtain ⟨rf, he4, hl4, hw4, -⟩ := addPtr_spec (hr.drop m) (hr.take m) (by simp; omega)
  rw [he3, Res.ok_bind]
  rw [show n - m + 1 = (right.drop m).length + 1 by simp; omega, he4, Res.ok_bind, ← hl4]
  rcases step (k := rf.length) (by rw [hl4]; simp; omega) hw3 hw4 rfl (by rw [hl3, hl4]; simp; omega) with e | ⟨co, he5, hl5⟩
  · rw [e]; rfl
  rw [he5, Res.ok_bind]
  simp only [List.length_drop, List.length_take] at *
  rw [subtractCore_ub (by omega) (by omega) (by intro h; rw [h] at hl1; simp at hl1; omega)]
  rfl

theorem sqCore_ub (n : Nat) {value : List Nat} (hw : WordsOk value) (hn : value.length = n) {bits : List Nat}
    (hbits : bits.length = n + n) (h32 : 32 ≤ n) : sqCore value bits n = .ub .badShift := by
  induction n using Nat.strongRecOn generalizing value bits with
  | ind n ih =>
  rw [sqCore]
  rw [cassert_pos hbits, Res.ok_bind]
  rw [dif_neg (by simp only [SquareThreshold]; omega)]
  generalize hm : n / 2 = m at *
  have hm1 : 2 ≤ m := by omega
  have hm2 : m * 2 ≤ n := by omega
  have step : ∀ {k : Nat} {l b : List Nat}, k < n → WordsOk l → l.length = k → b.length = k + k →
      sqCore l b k = .ub .badShift ∨ ∃ o, sqCore l b k = .ok o ∧ o.length = k + k := by
    intro k l b hk h1 h2 h3
    by_cases h5 : 32 ≤ k
    · exact .inl (ih k hk h1 h2 h3 h5)
    · obtain ⟨o, e, h6, -⟩ := sqCore_spec k h1 h2 h3
      exact .inr ⟨o, by rw [sqCore_eq (by omega), e], h6⟩
  dsimp only
  rw [slice_prefix (by omega)]
  rw [show slice value m (n - m) = .ok (value.drop m) by rw [← hn]; exact slice_suffix (by omega)]
  rw [slice_prefix (by omega), slice_suffix (by omega)]
  simp only [Res.ok_bind]
  rcases step (k := m) (b := bits.take (m * 2)) (by omega) (hw.take m) (by simp; omega) (by simp; omega) with e | ⟨lo, he1, hl1⟩
  · rw [e]; rfl
  rw [he1, Res.ok_bind]
  rcases step (k := n - m) (b := bits.drop (m * 2)) (by omega) (hw.drop m) (by simp; omega) (by simp; omega) with e | ⟨hi, he2, hl2⟩
  · rw [e]; rfl
  rw [he2, Res.ok_bind]
  obtain ⟨lf, he3, hl3, hw3, -⟩ := addPtr_spec (hw.drop m) (hw.take m) (by simp; omega)
  rw [show n - m + 1 = (value.drop m).length + 1 by simp; omega, he3, Res.ok_bind, ← hl3]
  rcases step (k := lf.length) (b := List.replicate (lf.length + lf.length) 0) (by rw [hl3]; simp; omega) hw3 rfl (by simp) with e | ⟨co, he5, hl5⟩
  · rw [e]; rfl
  rw [he5, Res.ok_bind]
  simp only [List.length_drop] at *
  rw [subtractCore_ub (by omega) (by omega) (by intro h; rw [h] at hl1; simp at hl1; omega)]
  rfl

/-! ### the operations on objects -/

theorem multiplyVec_spec {xs ys : List Nat} (hx : WordsOk xs) (hy : WordsOk ys) (hxn : xs ≠ []) (hyn : ys ≠ [])
    (hl : ys.length ≤ xs.length) (hs : xs.length + ys.length < 2147483648) (h32 : ys.length < 32) :
    ∃ r, multiplyVec xs ys = .ok r ∧ r.length = xs.length + ys.length ∧ WordsOk r ∧ val r = val xs * val ys := by
  obtain ⟨r, he, h⟩ := mulCore_spec ys.length hx hy rfl hl
  exact ⟨r, by simp [multiplyVec, hl, mulCore_eq h32, he, hxn, hyn, sizeInt_ok hs], h⟩

theorem multiplyVec_ub {xs ys : List Nat} (hx : WordsOk xs) (hy : WordsOk ys) (hxn : xs ≠ []) (hyn : ys ≠ [])
    (hl : ys.length ≤ xs.length) (hs : xs.length + ys.length < 2147483648) (h32 : 32 ≤ ys.length) :
    multiplyVec xs ys = .ub .badShift := by
  simp [multiplyVec, hl, mulCore_ub ys.length hx hy rfl hl h32, hxn, hyn, sizeInt_ok hs]

theorem squareVec_spec {xs : List Nat} (hx : WordsOk xs) (hxn : xs ≠ []) (hs : xs.length * 2 < 2147483648)
    (h32 : xs.length < 32) :
    ∃ r, squareVec xs = .ok r ∧ r.length = xs.length * 2 ∧ WordsOk r ∧ val r = val xs * val xs := by
  obtain ⟨r, he, h⟩ := sqCore_spec xs.length hx rfl (bits := List.replicate (xs.length * 2) 0) (by simp; omega)
  exact ⟨r, by simp [squareVec, sqCore_eq h32, he, hxn, sizeInt_ok hs], by omega, h.2⟩

theorem squareVec_ub {xs : List Nat} (hx : WordsOk xs) (hxn : xs ≠ []) (hs : xs.length * 2 < 2147483648)
    (h32 : 32 ≤ xs.length) : squareVec xs = .ub .badShift := by
  simp [squareVec, sqCore_ub xs.length hx rfl (bits := List.replicate (xs.length * 2) 0) (by simp; omega) h32, hxn, sizeInt_ok hs]

omit [Cfg] in
theorem CarryLost.comm {x y : Nat} : CarryLost x y ↔ CarryLost y x := by
  unfold CarryLost; rw [Nat.add_comm (x % 2 ^ 32), Nat.add_comm (x / 2 ^ 32)]

omit [Cfg] in
theorem not_intSized {s : Int} (hs : s = 1 ∨ s = -1) {n : Nat} (h : 2147483648 ≤ n) : ¬ IntSized (s * n) := by
  unfold IntSized; rcases hs with rfl | rfl <;> omega

theorem addSigned_spec {s t : Int} {xs ys : List Nat} {x y : Int}
    (ha : BigInt.Denotes ⟨s, xs⟩ x) (hb : BigInt.Denotes ⟨t, ys⟩ y)
    (hs : (0 ≤ x ∧ 0 ≤ y) ∨ (x < 0 ∧ y ≤ 0))
    (hlx : xs.length < 2147483647) (hly : ys.length < 2147483647) :
    Returns (addSigned xs s ys t) (x + y + (if ¬ (IntSized x ↔ IntSized y) ∧ CarryLost x.natAbs y.natAbs
      then (if x < 0 then 2 ^ 64 else -2 ^ 64) else 0)) := by
  rcases ha.shape with ⟨he, h1, h2⟩ | ⟨s', xs', he, hs1, hne1, hw1, ht1, hv1, rfl⟩
  · obtain ⟨rfl, rfl⟩ := by simpa using he
    have hi : IntSized s := ⟨by omega, by omega⟩
    rcases hb.shape with ⟨he, h1', h2'⟩ | ⟨t', ys', he, hs2, hne2, hw2, ht2, hv2, rfl⟩
    · obtain ⟨rfl, rfl⟩ := by simpa using he
      have hi2 : IntSized t := ⟨by omega, by omega⟩
      rw [if_neg (by tauto), add_zero]
      simp only [addSigned, and_self, if_true]
      rw [long_ok (by omega) (by omega)]
      exact ofInt64_spec (by omega) (by omega)
    · obtain ⟨rfl, rfl⟩ := by simpa using he
      have hi2 := not_intSized hs2 hv2
      simp only [addSigned, hne2, and_false, if_false, if_true]
      rw [cabs_ok (by omega)]
      obtain ⟨r, hr, hl, hwr, hvr⟩ := addWord_spec hne2 hw2 (rhs := s.natAbs) (by omega)
      simp only [Res.ok_bind, hr]
      apply returns_ofMagnitude hwr (by omega)
      rw [natAbs_unit_mul hs2]
      have hcm := CarryLost.comm (x := s.natAbs) (y := val ys)
      by_cases hc : CarryLost (val ys) s.natAbs
      · rw [if_pos hc] at hvr
        rw [if_pos (by tauto)]
        rcases hs2 with rfl | rfl <;> simp only [decide_eq_true_eq] <;> split_ifs <;> omega
      · rw [if_neg hc] at hvr
        rw [if_neg (by tauto)]
        rcases hs2 with rfl | rfl <;> simp only [decide_eq_true_eq] <;> split_ifs <;> omega
  · obtain ⟨rfl, rfl⟩ := by simpa using he
    have hi := not_intSized hs1 hv1
    rcases hb.shape with ⟨he, h1', h2'⟩ | ⟨t', ys', he, hs2, hne2, hw2, ht2, hv2, rfl⟩
    · obtain ⟨rfl, rfl⟩ := by simpa using he
      have hi2 : IntSized t := ⟨by omega, by omega⟩
      simp only [addSigned, hne1, false_and, if_false, if_true]
      rw [cabs_ok (by omega)]
      obtain ⟨r, hr, hl, hwr, hvr⟩ := addWord_spec hne1 hw1 (rhs := t.natAbs) (by omega)
      simp only [Res.ok_bind, hr]
      apply returns_ofMagnitude hwr (by omega)
      rw [natAbs_unit_mul hs1]
      by_cases hc : CarryLost (val xs) t.natAbs
      · rw [if_pos hc] at hvr
        rw [if_pos (by tauto)]
        rcases hs1 with rfl | rfl <;> simp only [decide_eq_true_eq] <;> split_ifs <;> omega
      · rw [if_neg hc] at hvr
        rw [if_neg (by tauto)]
        rcases hs1 with rfl | rfl <;> simp only [decide_eq_true_eq] <;> split_ifs <;> omega
    · obtain ⟨rfl, rfl⟩ := by simpa using he
      have hi2 := not_intSized hs2 hv2
      rw [if_neg (by tauto)]
      simp only [addSigned, hne1, hne2, and_self, if_false]
      split_ifs with hlt
      · obtain ⟨r, hr, hl, hwr, hvr⟩ := addVec_spec hw2 hw1 hne2 hne1 (by omega) (by omega)
        simp only [Res.ok_bind, hr]
        apply returns_ofMagnitude hwr (by omega)
        rw [hvr]
        rcases hs1 with rfl | rfl <;> rcases hs2 with rfl | rfl <;> simp <;> omega
      · obtain ⟨r, hr, hl, hwr, hvr⟩ := addVec_spec hw1 hw2 hne1 hne2 (by omega) (by omega)
        simp only [Res.ok_bind, hr]
        apply returns_ofMagnitude hwr (by omega)
        rw [hvr]
        rcases hs1 with rfl | rfl <;> rcases hs2 with rfl | rfl <;> simp <;> omega

theorem subtractSigned_spec {s t : Int} {xs ys : List Nat} {x y : Int}
    (ha : BigInt.Denotes ⟨s, xs⟩ x) (hb : BigInt.Denotes ⟨t, ys⟩ y) (hx : IntSized x) (hy : IntSized y) :
    Returns (subtractSigned xs s ys t) (x - y) := by
  obtain ⟨hx1, hx2⟩ := hx
  obtain ⟨hy1, hy2⟩ := hy
  have h1 : xs = [] := ha.bits_nil.2 (by rw [abs_lt]; omega)
  have h2 : ys = [] := hb.bits_nil.2 (by rw [abs_lt]; omega)
  subst h1 h2
  rcases ha.shape with ⟨he, h1, h2⟩ | ⟨s', xs', he, hs1, hne1, hw1, ht1, hv1, rfl⟩
  · obtain ⟨rfl, rfl⟩ := by simpa using he
    rcases hb.shape with ⟨he, h1', h2'⟩ | ⟨t', ys', he, hs2, hne2, hw2, ht2, hv2, rfl⟩
    · obtain ⟨rfl, rfl⟩ := by simpa using he
      simp only [subtractSigned, and_self, if_true]
      rw [long_ok (by omega) (by omega)]
      exact ofInt64_spec (by omega) (by omega)
    · obtain ⟨rfl, rfl⟩ := by simpa using he
      exact absurd rfl hne2
  · obtain ⟨rfl, rfl⟩ := by simpa using he
    exact absurd rfl hne1

theorem subtractSigned_ub {s t : Int} {xs ys : List Nat} {x y : Int}
    (ha : BigInt.Denotes ⟨s, xs⟩ x) (hb : BigInt.Denotes ⟨t, ys⟩ y)
    (hlx : xs.length < 2147483648) (hly : ys.length < 2147483648) (h : ¬ (IntSized x ∧ IntSized y)) :
    subtractSigned xs s ys t = .ub .badShift := by
  have big : ∀ {ws : List Nat} {n : Nat}, WordsOk ws → 2147483648 ≤ val ws → n < 2147483648 → n ≤ ws.headD 0 ∨ 2 ≤ ws.length := by
    intro ws n hw hv hn
    match ws with
    | [] => simp [val] at hv
    | [w] => left; simp [val_cons, val_nil] at hv; simp; omega
    | _ :: _ :: _ => right; simp
  rcases ha.shape with ⟨he, h1, h2⟩ | ⟨s', xs', he, hs1, hne1, hw1, ht1, hv1, rfl⟩
  · obtain ⟨rfl, rfl⟩ := by simpa using he
    have hi : IntSized s := ⟨by omega, by omega⟩
    rcases hb.shape with ⟨he, h1', h2'⟩ | ⟨t', ys', he, hs2, hne2, hw2, ht2, hv2, rfl⟩
    · obtain ⟨rfl, rfl⟩ := by simpa using he
      exact absurd ⟨hi, ⟨by omega, by omega⟩⟩ h
    · obtain ⟨rfl, rfl⟩ := by simpa using he
      simp only [subtractSigned, hne2, and_false, if_false, if_true]
      rw [cabs_ok (by omega), Res.ok_bind, subtractWord_ub hne2 (big hw2 hv2 (by omega))]
      rfl
  · obtain ⟨rfl, rfl⟩ := by simpa using he
    rcases hb.shape with ⟨he, h1', h2'⟩ | ⟨t', ys', he, hs2, hne2, hw2, ht2, hv2, rfl⟩
    · obtain ⟨rfl, rfl⟩ := by simpa using he
      simp only [subtractSigned, hne1, false_and, if_false, if_true]
      rw [cabs_ok (by omega), Res.ok_bind, subtractWord_ub hne1 (big hw1 hv1 (by omega))]
      rfl
    · obtain ⟨rfl, rfl⟩ := by simpa using he
      simp only [subtractSigned, hne1, hne2, and_self, if_false]
      have hcmp := compareWords_spec hw1 hw2 ht1 ht2
      have hcmp2 := compareWords_spec hw2 hw1 ht2 ht1
      have len : ∀ {us vs : List Nat}, WordsOk us → vs.getLast? ≠ some 0 → vs ≠ [] → val vs ≤ val us → vs.length ≤ us.length := by
        intro us vs hu hv hne hle
        by_contra hlt
        have h1 := val_pos_of_top hne hv
        have h2 := val_lt hu
        have h3 : 𝔹 ^ us.length ≤ 𝔹 ^ (vs.length - 1) := Nat.pow_le_pow_right (by decide) (by omega)
        omega
      by_cases hlt : compareWords xs ys < 0
      · have hlt' : val xs < val ys := by split_ifs at hcmp <;> omega
        rw [if_pos hlt, subtractVec_ub hne2 hne1 (len hw2 ht1 hne1 (by omega)) (by rw [hcmp2]; split_ifs <;> omega) (by omega)]
        rfl
      · have hle' : val ys ≤ val xs := by split_ifs at hcmp <;> omega
        rw [if_neg hlt, subtractVec_ub hne1 hne2 (len hw1 ht2 hne2 (by omega)) (by rw [hcmp]; split_ifs <;> omega) (by omega)]
        rfl

theorem add_spec {a b : BigInt} {x y : Int} (ha : a.Denotes x) (hb : b.Denotes y)
    (hla : a.bits.length < 2147483647) (hlb : b.bits.length < 2147483647) (hs : x < 0 ↔ y < 0) :
    Returns (add a b) (x + y + (if ¬ (IntSized x ↔ IntSized y) ∧ CarryLost x.natAbs y.natAbs
      then (if x < 0 then 2 ^ 64 else -2 ^ 64) else 0)) := by
  unfold add
  rw [ha.assertValid, hb.assertValid]
  simp only [Res.ok_bind]
  rw [if_neg (by simp only [ha.sign_neg, hb.sign_neg, hs]; simp)]
  exact addSigned_spec ha hb (by omega) hla hlb

theorem add_mixed {a b : BigInt} {x y : Int} (ha : a.Denotes x) (hb : b.Denotes y)
    (hla : a.bits.length < 2147483647) (hlb : b.bits.length < 2147483647) (hs : ¬ (x < 0 ↔ y < 0)) :
    (IntSized x ∧ IntSized y → Returns (add a b) (x + y)) ∧ (¬ (IntSized x ∧ IntSized y) → add a b = .ub .badShift) := by
  unfold add
  rw [ha.assertValid, hb.assertValid]
  simp only [Res.ok_bind]
  rw [if_pos (by simp only [ha.sign_neg, hb.sign_neg, ne_eq, decide_eq_decide]; exact hs)]
  have hm := hb.sign_ne_min
  rw [int_ok (by omega) (by omega), Res.ok_bind, show -1 * b.sign = -b.sign by ring]
  have hn : BigInt.Denotes ⟨-b.sign, b.bits⟩ (-y) := hb.neg'
  have hin : IntSized (-y) ↔ IntSized y := by unfold IntSized; omega
  refine ⟨fun h => ?_, fun h => ?_⟩
  · have := subtractSigned_spec ha hn h.1 (hin.2 h.2)
    rwa [sub_neg_eq_add] at this
  · exact subtractSigned_ub ha hn (by omega) (by simpa using (by omega : b.bits.length < 2147483648)) (by rw [hin]; exact h)

theorem sub_same {a b : BigInt} {x y : Int} (ha : a.Denotes x) (hb : b.Denotes y)
    (hla : a.bits.length < 2147483647) (hlb : b.bits.length < 2147483647) (hs : x < 0 ↔ y < 0) :
    (IntSized x ∧ IntSized y → Returns (sub a b) (x - y)) ∧ (¬ (IntSized x ∧ IntSized y) → sub a b = .ub .badShift) := by
  unfold sub
  rw [ha.assertValid, hb.assertValid]
  simp only [Res.ok_bind]
  rw [if_neg (by simp only [ha.sign_neg, hb.sign_neg, hs]; simp)]
  exact ⟨fun h => subtractSigned_spec ha hb h.1 h.2, fun h => subtractSigned_ub ha hb (by omega) (by omega) h⟩

theorem sub_mixed {a b : BigInt} {x y : Int} (ha : a.Denotes x) (hb : b.Denotes y)
    (hla : a.bits.length < 2147483647) (hlb : b.bits.length < 2147483647) (hs : ¬ (x < 0 ↔ y < 0)) :
    Returns (sub a b) (x - y + (if ¬ (IntSized x ↔ IntSized y) ∧ CarryLost x.natAbs y.natAbs
      then (if x < 0 then 2 ^ 64 else -2 ^ 64) else 0)) := by
  unfold sub
  rw [ha.assertValid, hb.assertValid]
  simp only [Res.ok_bind]
  rw [if_pos (by simp only [ha.sign_neg, hb.sign_neg, ne_eq, decide_eq_decide]; exact hs)]
  have hm := hb.sign_ne_min
  rw [int_ok (by omega) (by omega), Res.ok_bind, show -1 * b.sign = -b.sign by ring]
  have hn : BigInt.Denotes ⟨-b.sign, b.bits⟩ (-y) := hb.neg'
  have hin : IntSized (-y) ↔ IntSized y := by unfold IntSized; omega
  have := addSigned_spec ha hn (by omega) hla hlb
  simpa only [hin, Int.natAbs_neg, ← sub_eq_add_neg] using this

theorem mul_spec {a b : BigInt} {x y : Int} (ha : a.Denotes x) (hb : b.Denotes y)
    (hl : a.bits.length + b.bits.length < 2147483647) (h32 : a.bits.length < 32 ∨ b.bits.length < 32) :
    Returns (mul a b) (x * y) := by
  unfold mul
  rw [ha.assertValid, hb.assertValid]
  simp only [Res.ok_bind]
  have hsx := fun n hn => BigInt.signXor_mul ha hb (n := n) hn
  rcases ha.shape with ⟨rfl, h1, h2⟩ | ⟨s, xs, rfl, hs1, hne1, hw1, ht1, hv1, rfl⟩ <;>
    rcases hb.shape with ⟨rfl, h1', h2'⟩ | ⟨t, ys, rfl, hs2, hne2, hw2, ht2, hv2, rfl⟩
  · obtain ⟨h5, h6⟩ := BigInt.mul_small h1 h2 h1' h2'
    simp only [and_self, if_true]
    rw [long_ok (by omega) (by omega)]
    exact ofInt64_spec h5 h6
  · simp only [hne2, and_false, if_false, if_true]
    rw [cabs_ok (by omega)]
    obtain ⟨r, hr, hlr, hwr, hvr⟩ := multiplyWord_spec hw2 hne2 (y := x.natAbs) (by omega)
    simp only [Res.ok_bind, hr]
    simp only at hl
    apply returns_ofMagnitude hwr (by rw [hlr]; simp at hl; omega)
    apply hsx
    rw [hvr, natAbs_unit_mul hs2, Nat.mul_comm]
  · simp only [hne1, false_and, if_false, if_true]
    rw [cabs_ok (by omega)]
    obtain ⟨r, hr, hlr, hwr, hvr⟩ := multiplyWord_spec hw1 hne1 (y := y.natAbs) (by omega)
    simp only [Res.ok_bind, hr]
    apply returns_ofMagnitude hwr (by rw [hlr]; simp at hl; omega)
    apply hsx
    rw [hvr, natAbs_unit_mul hs1]
  · simp only [hne1, hne2, and_self, if_false]
    simp only at hl h32
    by_cases he : xs = ys
    · subst he
      rw [if_pos rfl]
      obtain ⟨r, hr, hlr, hwr, hvr⟩ := squareVec_spec hw1 hne1 (by omega) (by omega)
      simp only [Res.ok_bind, hr]
      apply returns_ofMagnitude hwr (by omega)
      apply hsx
      rw [hvr, natAbs_unit_mul hs1, natAbs_unit_mul hs2]
    · rw [if_neg he]
      by_cases hlt : xs.length < ys.length
      · rw [if_pos hlt]
        obtain ⟨r, hr, hlr, hwr, hvr⟩ := multiplyVec_spec hw2 hw1 hne2 hne1 (by omega) (by omega) (by omega)
        simp only [Res.ok_bind, hr]
        apply returns_ofMagnitude hwr (by omega)
        apply hsx
        rw [hvr, natAbs_unit_mul hs1, natAbs_unit_mul hs2, Nat.mul_comm]
      · rw [if_neg hlt]
        obtain ⟨r, hr, hlr, hwr, hvr⟩ := multiplyVec_spec hw1 hw2 hne1 hne2 (by omega) (by omega) (by omega)
        simp only [Res.ok_bind, hr]
        apply returns_ofMagnitude hwr (by omega)
        apply hsx
        rw [hvr, natAbs_unit_mul hs1, natAbs_unit_mul hs2]

theorem mul_ub {a b : BigInt} {x y : Int} (ha : a.Denotes x) (hb : b.Denotes y)
    (hl : a.bits.length + b.bits.length < 2147483647) (h1 : 32 ≤ a.bits.length) (h2 : 32 ≤ b.bits.length) :
    mul a b = .ub .badShift := by
  unfold mul
  rw [ha.assertValid, hb.assertValid]
  simp only [Res.ok_bind]
  rcases ha.shape with ⟨rfl, -, -⟩ | ⟨s, xs, rfl, hs1, hne1, hw1, ht1, hv1, rfl⟩ 
  · simp at h1
  rcases hb.shape with ⟨rfl, -, -⟩ | ⟨t, ys, rfl, hs2, hne2, hw2, ht2, hv2, rfl⟩
  · simp at h2
  simp only [hne1, hne2, and_self, if_false]
  simp only at hl h1 h2
  by_cases he : xs = ys
  · subst he
    rw [if_pos rfl, squareVec_ub hw1 hne1 (by omega) h1]
    rfl
  · rw [if_neg he]
    by_cases hlt : xs.length < ys.length
    · rw [if_pos hlt, multiplyVec_ub hw2 hw1 hne2 hne1 (by omega) (by omega) (by omega)]
      rfl
    · rw [if_neg hlt, multiplyVec_ub hw1 hw2 hne1 hne2 (by omega) (by omega) (by omega)]
      rfl

end BigIntegerCpp.Long32
