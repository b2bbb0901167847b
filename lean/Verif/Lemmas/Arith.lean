import Verif.Lemmas.Core
/-
Addition, subtraction, negation, comparison of objects.
-/
namespace BigIntegerCpp
set_option linter.unusedSectionVars false
set_option linter.unnecessarySeqFocus false
variable [Cfg]

theorem BigInt.Denotes.length_le {b : BigInt} {z : Int} (h : b.Denotes z) {n : Nat}
    (hz : z.natAbs < 𝔹 ^ n) : b.bits.length ≤ n := by
  rcases h.shape with ⟨rfl, -, -⟩ | ⟨s, ws, rfl, hs, hne, hw, ht, hv, rfl⟩
  · simp
  · by_contra hlt
    simp only [not_le] at hlt
    have h1 := val_pos_of_top hne ht
    have h2 : 𝔹 ^ n ≤ 𝔹 ^ (ws.length - 1) := Nat.pow_le_pow_right (by decide) (by omega)
    have : (s * (val ws : Nat)).natAbs = val ws := by rcases hs with rfl | rfl <;> omega
    omega

theorem BigInt.Denotes.lt_pow {b : BigInt} {z : Int} (h : b.Denotes z) (hne : b.bits ≠ []) :
    z.natAbs < 𝔹 ^ b.bits.length := by
  rcases h.shape with ⟨rfl, -, -⟩ | ⟨s, ws, rfl, hs, hne, hw, ht, hv, rfl⟩
  · exact absurd rfl hne
  · have h1 := val_lt hw
    have : (s * (val ws : Nat)).natAbs = val ws := by rcases hs with rfl | rfl <;> omega
    simp only
    omega

theorem BigInt.Denotes.neg' {s : Int} {ws : List Nat} {z : Int} (h : BigInt.Denotes ⟨s, ws⟩ z) :
    BigInt.Denotes ⟨-s, ws⟩ (-z) := by
  rcases h.shape with ⟨he, h1, h2⟩ | ⟨s', ws', he, hs, hne, hw, ht, hv, rfl⟩
  · obtain ⟨rfl, rfl⟩ := by simpa using he
    exact BigInt.denotes_small (by omega) (by omega)
  · obtain ⟨rfl, rfl⟩ := by simpa using he
    exact BigInt.denotes_big (by omega) hne hw ht hv (by rcases hs with rfl | rfl <;> omega)

theorem addSigned_spec {s t : Int} {xs ys : List Nat} {x y : Int}
    (ha : BigInt.Denotes ⟨s, xs⟩ x) (hb : BigInt.Denotes ⟨t, ys⟩ y)
    (hs : (0 ≤ x ∧ 0 ≤ y) ∨ (x < 0 ∧ y ≤ 0))
    (hlx : xs.length < 2147483647) (hly : ys.length < 2147483647) :
    Returns (addSigned xs s ys t) (x + y) := by
  rcases ha.shape with ⟨he, h1, h2⟩ | ⟨s', xs', he, hs1, hne1, hw1, ht1, hv1, rfl⟩
  · obtain ⟨rfl, rfl⟩ := by simpa using he
    rcases hb.shape with ⟨he, h1', h2'⟩ | ⟨t', ys', he, hs2, hne2, hw2, ht2, hv2, rfl⟩
    · obtain ⟨rfl, rfl⟩ := by simpa using he
      simp only [addSigned, and_self, if_true]
      rw [long_ok (by omega) (by omega)]
      exact ofInt64_spec (by omega) (by omega)
    · obtain ⟨rfl, rfl⟩ := by simpa using he
      simp only [addSigned, hne2, and_false, if_false, if_true]
      rw [cabs_ok (by omega)]
      obtain ⟨r, hr, hl, hwr, hvr⟩ := addWord_spec hne2 hw2 (rhs := s.natAbs) (by omega)
      simp only [Res.ok_bind, hr]
      apply returns_ofMagnitude hwr (by omega)
      rw [hvr]
      rcases hs2 with rfl | rfl <;> simp only [decide_eq_true_eq] <;> split_ifs <;> omega
  · obtain ⟨rfl, rfl⟩ := by simpa using he
    rcases hb.shape with ⟨he, h1', h2'⟩ | ⟨t', ys', he, hs2, hne2, hw2, ht2, hv2, rfl⟩
    · obtain ⟨rfl, rfl⟩ := by simpa using he
      simp only [addSigned, hne1, false_and, if_false, if_true]
      rw [cabs_ok (by omega)]
      obtain ⟨r, hr, hl, hwr, hvr⟩ := addWord_spec hne1 hw1 (rhs := t.natAbs) (by omega)
      simp only [Res.ok_bind, hr]
      apply returns_ofMagnitude hwr (by omega)
      rw [hvr]
      rcases hs1 with rfl | rfl <;> simp only [decide_eq_true_eq] <;> split_ifs <;> omega
    · obtain ⟨rfl, rfl⟩ := by simpa using he
      simp only [addSigned, hne1, hne2, and_self, if_false]
      split_ifs with hlt
      · obtain ⟨r, hr, hl, hwr, hvr⟩ := addVec_spec hw2 hw1 hne2 hne1 (by omega) (by omega)
        simp only [Res.ok_bind, hr]
        apply returns_ofMagnitude hwr (by omega)
        rw [hvr]
        rcases hs1 with rfl | rfl <;> rcases hs2 with rfl | rfl <;> simp <;> omega
      · obtain ⟨r, hr, hl, hwr, hvr⟩ := addVec_spec hw1 hw2 hne1 hne2 (by omega) (by omega)
        simp only [Res.ok_bind, hr]
        apply returns_ofMagnitude hwr (by omega)
        rw [hvr]
        rcases hs1 with rfl | rfl <;> rcases hs2 with rfl | rfl <;> simp <;> omega

theorem subtractSigned_spec {s t : Int} {xs ys : List Nat} {x y : Int}
    (ha : BigInt.Denotes ⟨s, xs⟩ x) (hb : BigInt.Denotes ⟨t, ys⟩ y)
    (hs : (0 ≤ x ∧ 0 ≤ y) ∨ (x < 0 ∧ y ≤ 0))
    (hlx : xs.length < 2147483648) (hly : ys.length < 2147483648) :
    Returns (subtractSigned xs s ys t) (x - y) := by
  rcases ha.shape with ⟨he, h1, h2⟩ | ⟨s', xs', he, hs1, hne1, hw1, ht1, hv1, rfl⟩
  · obtain ⟨rfl, rfl⟩ := by simpa using he
    rcases hb.shape with ⟨he, h1', h2'⟩ | ⟨t', ys', he, hs2, hne2, hw2, ht2, hv2, rfl⟩
    · obtain ⟨rfl, rfl⟩ := by simpa using he
      simp only [subtractSigned, and_self, if_true]
      rw [long_ok (by omega) (by omega)]
      exact ofInt64_spec (by omega) (by omega)
    · obtain ⟨rfl, rfl⟩ := by simpa using he
      simp only [subtractSigned, hne2, and_false, if_false, if_true]
      rw [cabs_ok (by omega)]
      obtain ⟨r, hr, hl, hwr, hvr⟩ := subtractWord_spec hne2 hw2 (rhs := s.natAbs) (by omega) (by omega)
      simp only [Res.ok_bind, hr]
      apply returns_ofMagnitude hwr (by omega)
      rw [hvr]
      rcases hs2 with rfl | rfl <;> simp only [decide_eq_true_eq] <;> split_ifs <;> omega
  · obtain ⟨rfl, rfl⟩ := by simpa using he
    rcases hb.shape with ⟨he, h1', h2'⟩ | ⟨t', ys', he, hs2, hne2, hw2, ht2, hv2, rfl⟩
    · obtain ⟨rfl, rfl⟩ := by simpa using he
      simp only [subtractSigned, hne1, false_and, if_false, if_true]
      rw [cabs_ok (by omega)]
      obtain ⟨r, hr, hl, hwr, hvr⟩ := subtractWord_spec hne1 hw1 (rhs := t.natAbs) (by omega) (by omega)
      simp only [Res.ok_bind, hr]
      apply returns_ofMagnitude hwr (by omega)
      rw [hvr]
      rcases hs1 with rfl | rfl <;> simp only [decide_eq_true_eq] <;> split_ifs <;> omega
    · obtain ⟨rfl, rfl⟩ := by simpa using he
      simp only [subtractSigned, hne1, hne2, and_self, if_false]
      have hcmp := compareWords_spec hw1 hw2 ht1 ht2
      split_ifs with hlt
      · have hlt' : val xs < val ys := by split_ifs at hcmp <;> omega
        obtain ⟨r, hr, hl, hwr, hvr⟩ := subtractVec_spec hw2 hw1 hne2 hne1 ht2 ht1 (by omega) (by omega)
        simp only [Res.ok_bind, hr]
        apply returns_ofMagnitude hwr (by omega)
        rw [hvr]
        rcases hs1 with rfl | rfl <;> rcases hs2 with rfl | rfl <;> simp <;> omega
      · have hle' : val ys ≤ val xs := by split_ifs at hcmp <;> omega
        obtain ⟨r, hr, hl, hwr, hvr⟩ := subtractVec_spec hw1 hw2 hne1 hne2 ht1 ht2 (by omega) (by omega)
        simp only [Res.ok_bind, hr]
        apply returns_ofMagnitude hwr (by omega)
        rw [hvr]
        rcases hs1 with rfl | rfl <;> rcases hs2 with rfl | rfl <;> simp <;> omega

namespace BigInt

theorem Denotes.sign_neg {b : BigInt} {z : Int} (h : b.Denotes z) : b.sign < 0 ↔ z < 0 := by
  rcases h.shape with ⟨rfl, -, -⟩ | ⟨s, ws, rfl, hs, hne, hw, ht, hv, rfl⟩
  · simp
  · rcases hs with rfl | rfl <;> simp <;> omega

theorem Denotes.sign_zero {b : BigInt} {z : Int} (h : b.Denotes z) : b.sign = 0 ↔ z = 0 := by
  rcases h.shape with ⟨rfl, -, -⟩ | ⟨s, ws, rfl, hs, hne, hw, ht, hv, rfl⟩
  · simp
  · rcases hs with rfl | rfl <;> simp <;> omega

theorem Denotes.sign_ne_min {b : BigInt} {z : Int} (h : b.Denotes z) :
    -2147483648 < b.sign ∧ b.sign < 2147483648 := by
  rcases h.shape with ⟨rfl, h1, h2⟩ | ⟨s, ws, rfl, hs, hne, hw, ht, hv, rfl⟩
  · exact ⟨h1, h2⟩
  · rcases hs with rfl | rfl <;> simp

theorem Denotes.assertValid {b : BigInt} {z : Int} (h : b.Denotes z) :
    BigIntegerCpp.assertValid b = .ok () := assertValid_ok h.1

theorem add_spec {a b : BigInt} {x y : Int} (ha : a.Denotes x) (hb : b.Denotes y)
    (hla : a.bits.length < 2147483647) (hlb : b.bits.length < 2147483647) :
    Returns (a.add b) (x + y) := by
  have h1 := ha.sign_neg
  have h2 := hb.sign_neg
  have h3 := hb.sign_ne_min
  unfold add
  rw [ha.assertValid, hb.assertValid]
  simp only [Res.ok_bind]
  split_ifs with hs
  · rw [int_ok (by omega) (by omega)]
    simp only [Res.ok_bind]
    have hb' : BigInt.Denotes ⟨-1 * b.sign, b.bits⟩ (-y) := by simpa using hb.neg'
    have := subtractSigned_spec (s := a.sign) (t := -1 * b.sign) ha hb'
      (by by_cases a.sign < 0 <;> by_cases b.sign < 0 <;> simp_all <;> omega) (by omega) (by omega)
    simpa using this
  · apply addSigned_spec (s := a.sign) (t := b.sign) ha hb _ hla hlb
    by_cases a.sign < 0 <;> by_cases b.sign < 0 <;> simp_all <;> omega

theorem sub_spec {a b : BigInt} {x y : Int} (ha : a.Denotes x) (hb : b.Denotes y)
    (hla : a.bits.length < 2147483647) (hlb : b.bits.length < 2147483647) :
    Returns (a.sub b) (x - y) := by
  have h1 := ha.sign_neg
  have h2 := hb.sign_neg
  have h3 := hb.sign_ne_min
  unfold sub
  rw [ha.assertValid, hb.assertValid]
  simp only [Res.ok_bind]
  split_ifs with hs
  · rw [int_ok (by omega) (by omega)]
    simp only [Res.ok_bind]
    have hb' : BigInt.Denotes ⟨-1 * b.sign, b.bits⟩ (-y) := by simpa using hb.neg'
    have := addSigned_spec (s := a.sign) (t := -1 * b.sign) ha hb'
      (by by_cases a.sign < 0 <;> by_cases b.sign < 0 <;> simp_all <;> omega) (by omega) (by omega)
    simpa [sub_eq_add_neg] using this
  · apply subtractSigned_spec (s := a.sign) (t := b.sign) ha hb _ (by omega) (by omega)
    by_cases a.sign < 0 <;> by_cases b.sign < 0 <;> simp_all <;> omega

theorem neg_spec {a : BigInt} {x : Int} (ha : a.Denotes x) : Returns a.neg (-x) := by
  have h3 := ha.sign_ne_min
  unfold neg
  rw [int_ok (by omega) (by omega)]
  exact ofParts_spec ha.neg'

theorem plus_spec {a : BigInt} {x : Int} (ha : a.Denotes x) : Returns a.plus x := ofParts_spec ha

/-! ### comparison -/

theorem diffLength_spec {xs ys : List Nat} (hx : WordsOk xs) (hy : WordsOk ys) (hl : xs.length = ys.length) :
    (diffLength xs ys = 0 ∧ xs = ys) ∨
    (∃ n a b, diffLength xs ys = n + 1 ∧ xs[n]? = some a ∧ ys[n]? = some b ∧ a ≠ b ∧
      (a < b ↔ val xs < val ys) ∧ val xs ≠ val ys) := by
  induction xs generalizing ys with
  | nil =>
    have : ys = [] := by simpa using hl.symm
    subst this; left; simp [diffLength]
  | cons x xs ih => cases ys with
    | nil => simp at hl
    | cons y ys =>
      rw [wordsOk_cons] at hx hy
      obtain ⟨hx0, hxs⟩ := hx
      obtain ⟨hy0, hys⟩ := hy
      rcases ih hxs hys (by simpa using hl) with ⟨h1, rfl⟩ | ⟨n, a, b, h1, h2, h3, h4, h5, h6⟩
      · by_cases hxy : x = y
        · left; simp [diffLength, h1, hxy]
        · right
          refine ⟨0, x, y, by simp [diffLength, h1, hxy], by simp, by simp, hxy, ?_, ?_⟩ <;>
          simp only [val_cons] <;> omega
      · right
        refine ⟨n + 1, a, b, by simp [diffLength, h1], by simpa using h2, by simpa using h3, h4, ?_, ?_⟩ <;>
        simp only [val_cons] <;> omega

theorem i32_xor_neg {s t : Int} (hs : IntRange s) (ht : IntRange t) :
    i32 (u32i s ^^^ u32i t) < 0 ↔ (decide (s < 0) ≠ decide (t < 0)) := by
  unfold IntRange at hs ht
  have h1 : u32i s < 2 ^ 32 := u32i_lt s
  have h2 : u32i t < 2 ^ 32 := u32i_lt t
  have h3 := Nat.xor_lt_two_pow h1 h2
  have key : ∀ n : Nat, n < 2 ^ 32 → (n.testBit 31 = true ↔ 2147483648 ≤ n) := by
    intro n hn
    rw [Nat.testBit_eq_decide_div_mod_eq]
    simp only [decide_eq_true_eq]
    omega
  have ks := key _ h1
  have kt := key _ h2
  have kx := key _ h3
  rw [Nat.testBit_xor] at kx
  have e1 : 2147483648 ≤ u32i s ↔ s < 0 := by unfold u32i; omega
  have e2 : 2147483648 ≤ u32i t ↔ t < 0 := by unfold u32i; omega
  have e3 : i32 (u32i s ^^^ u32i t) < 0 ↔ 2147483648 ≤ (u32i s ^^^ u32i t) := by
    unfold i32; split_ifs <;> omega
  rw [e3, ← kx]
  rw [e1] at ks
  rw [e2] at kt
  clear kx e3 h3 key e1 e2
  generalize (u32i s).testBit 31 = p at *
  generalize (u32i t).testBit 31 = q at *
  cases p <;> cases q <;> simp_all

/-- The sign of a comparison, on integers. -/
def cmpSign (x y : Int) (c : Int) : Prop := (c < 0 ↔ x < y) ∧ (c = 0 ↔ x = y) ∧ (c > 0 ↔ x > y)

theorem compareTo_spec {a b : BigInt} {x y : Int} (ha : a.Denotes x) (hb : b.Denotes y)
    (hla : a.bits.length < 2147483648) (hlb : b.bits.length < 2147483648) :
    ∃ c, a.compareTo b = .ok c ∧ cmpSign x y c := by
  have h1 := ha.sign_neg
  have h2 := hb.sign_neg
  have h3 := ha.sign_ne_min
  have h4 := hb.sign_ne_min
  unfold compareTo
  rw [ha.assertValid, hb.assertValid]
  simp only [Res.ok_bind]
  rw [if_congr (i32_xor_neg ha.1.signRange hb.1.signRange) rfl rfl]
  by_cases hs : decide (a.sign < 0) ≠ decide (b.sign < 0)
  · rw [if_pos hs]
    refine ⟨_, rfl, ?_⟩
    unfold cmpSign
    by_cases a.sign < 0 <;> by_cases b.sign < 0 <;> simp_all <;> omega
  rw [if_neg hs]
  by_cases h7 : a.bits = []
  · rw [if_pos h7]
    rcases ha.shape with ⟨rfl, -, -⟩ | ⟨s, ws, rfl, hs, hne, hw, ht, hv, rfl⟩
    · rcases hb.shape with ⟨rfl, -, -⟩ | ⟨s', ws', rfl, hs', hne', hw', ht', hv', rfl⟩
      · simp only [if_true]
        rcases lt_trichotomy x y with g | g | g
        · exact ⟨-1, by simp [g], by unfold cmpSign; omega⟩
        · exact ⟨0, by simp [g], by unfold cmpSign; omega⟩
        · exact ⟨1, by simp [g, not_lt_of_gt g], by unfold cmpSign; omega⟩
      · simp only [hne', if_false] at *
        refine ⟨_, int_ok (by omega) (by omega), ?_⟩
        unfold cmpSign
        rcases hs' with rfl | rfl <;> simp at * <;> omega
    · exact absurd h7 hne
  rw [if_neg h7]
  · rcases ha.shape with ⟨rfl, -, -⟩ | ⟨s, ws, rfl, hs1, hne, hw, ht, hv, rfl⟩
    · exact absurd rfl h7
    simp only at hla h1 h3 ⊢
    rw [sizeInt_ok hla, sizeInt_ok hlb]
    simp only [Res.ok_bind]
    rcases hb.shape with ⟨rfl, -, -⟩ | ⟨s', ws', rfl, hs', hne', hw', ht', hv', rfl⟩
    · simp only [true_or, if_true]
      refine ⟨_, rfl, ?_⟩
      unfold cmpSign
      rcases hs1 with rfl | rfl <;> simp at * <;> omega
    · simp only [hne', false_or]
      simp only at hlb h2 h4 hs
      have hss : s = s' := by rcases hs1 with rfl | rfl <;> rcases hs' with rfl | rfl <;> simp_all
      subst hss
      have hcmp := compareWords_spec hw hw' ht ht'
      unfold compareWords at hcmp
      by_cases g1 : ws.length > ws'.length
      · rw [if_pos g1]
        refine ⟨_, rfl, ?_⟩
        rw [if_neg (by omega), if_pos g1] at hcmp
        have : val ws' < val ws := by split_ifs at hcmp <;> omega
        unfold cmpSign
        rcases hs1 with rfl | rfl <;> simp <;> omega
      rw [if_neg g1]
      by_cases g2 : ws.length < ws'.length
      · rw [if_pos g2] at hcmp ⊢
        have : val ws < val ws' := by split_ifs at hcmp <;> omega
        refine ⟨_, int_ok (by omega) (by omega), ?_⟩
        unfold cmpSign
        rcases hs1 with rfl | rfl <;> simp <;> omega
      · rw [if_neg g2]
        have hl : ws.length = ws'.length := by omega
        rcases diffLength_spec hw hw' hl with ⟨e1, rfl⟩ | ⟨n, p, q, e1, e2, e3, e4, e5, e6⟩
        · rw [if_pos e1]
          exact ⟨0, rfl, by unfold cmpSign; omega⟩
        · rw [if_neg (by omega), e1]
          simp only [Nat.add_sub_cancel, idx, e2, e3, Res.ok_bind]
          split_ifs with g3
          · refine ⟨_, int_ok (by omega) (by omega), ?_⟩
            unfold cmpSign
            rcases hs1 with rfl | rfl <;> simp <;> omega
          · refine ⟨_, rfl, ?_⟩
            unfold cmpSign
            rcases hs1 with rfl | rfl <;> simp <;> omega

theorem equals_spec {a b : BigInt} {x y : Int} (ha : a.Denotes x) (hb : b.Denotes y) :
    a.equals b = .ok (decide (x = y)) := by
  unfold equals
  rw [ha.assertValid, hb.assertValid]
  simp only [Res.ok_bind]
  by_cases hxy : x = y
  · subst hxy
    have := ha.unique hb
    subst this
    simp
  · have hab : a ≠ b := by
      rintro rfl; exact hxy (ha.2.symm.trans hb.2)
    simp only [hxy, decide_false]
    split_ifs with g1 g2 g3 g4
    · rfl
    · exfalso; apply hab
      cases a; cases b; simp only [ne_eq, not_not] at g1 g2; subst g1; subst g2; rfl
    · rfl
    · rfl
    · rcases diffLength_spec ha.1.words hb.1.words (by omega) with ⟨e1, e2⟩ | ⟨n, p, q, e1, -⟩
      · exact absurd e2 g2
      · simp [e1]

theorem lt_spec {a b : BigInt} {x y : Int} (ha : a.Denotes x) (hb : b.Denotes y)
    (hla : a.bits.length < 2147483648) (hlb : b.bits.length < 2147483648) :
    a.lt b = .ok (decide (x < y)) := by
  obtain ⟨c, hc, h1, h2, h3⟩ := compareTo_spec ha hb hla hlb
  simp [lt, hc, h1]

theorem gt_spec {a b : BigInt} {x y : Int} (ha : a.Denotes x) (hb : b.Denotes y)
    (hla : a.bits.length < 2147483648) (hlb : b.bits.length < 2147483648) :
    a.gt b = .ok (decide (x > y)) := by
  simp [gt, lt_spec hb ha hlb hla]

theorem le_spec {a b : BigInt} {x y : Int} (ha : a.Denotes x) (hb : b.Denotes y)
    (hla : a.bits.length < 2147483648) (hlb : b.bits.length < 2147483648) :
    a.le b = .ok (decide (x ≤ y)) := by
  simp only [le, gt_spec ha hb hla hlb, Res.ok_bind]
  congr 1; rw [← decide_not]; simp

theorem ge_spec {a b : BigInt} {x y : Int} (ha : a.Denotes x) (hb : b.Denotes y)
    (hla : a.bits.length < 2147483648) (hlb : b.bits.length < 2147483648) :
    a.ge b = .ok (decide (x ≥ y)) := by
  simp only [ge, lt_spec ha hb hla hlb, Res.ok_bind]
  congr 1; rw [← decide_not]; simp

theorem ne_spec {a b : BigInt} {x y : Int} (ha : a.Denotes x) (hb : b.Denotes y) :
    a.ne b = .ok (decide (x ≠ y)) := by
  simp [ne, equals_spec ha hb]

theorem max_spec {a b : BigInt} {x y : Int} (ha : a.Denotes x) (hb : b.Denotes y)
    (hla : a.bits.length < 2147483648) (hlb : b.bits.length < 2147483648) :
    Returns (a.max b) (Max.max x y) := by
  obtain ⟨c, hc, h1, h2, h3⟩ := compareTo_spec ha hb hla hlb
  simp only [max, hc, Res.ok_bind]
  split_ifs with g
  · rw [max_eq_right (by omega)]; exact returns_ok hb
  · rw [max_eq_left (by omega)]; exact returns_ok ha

theorem min_spec {a b : BigInt} {x y : Int} (ha : a.Denotes x) (hb : b.Denotes y)
    (hla : a.bits.length < 2147483648) (hlb : b.bits.length < 2147483648) :
    Returns (a.min b) (Min.min x y) := by
  obtain ⟨c, hc, h1, h2, h3⟩ := compareTo_spec ha hb hla hlb
  simp only [min, hc, Res.ok_bind]
  split_ifs with g
  · rw [min_eq_left (by omega)]; exact returns_ok ha
  · rw [min_eq_right (by omega)]; exact returns_ok hb

theorem signum_spec {a : BigInt} {x : Int} (ha : a.Denotes x) : a.signum = .ok x.sign := by
  have h1 := ha.sign_neg
  have h2 := ha.sign_zero
  have h3 := ha.sign_ne_min
  unfold signum
  rw [ha.assertValid, Res.ok_bind, int_ok (by omega) (by omega), Res.ok_bind, int_ok (by omega) (by omega)]
  congr 1
  rcases lt_trichotomy x 0 with hx | hx | hx
  · rw [Int.sign_eq_neg_one_of_neg hx]; omega
  · subst hx; simp; omega
  · rw [Int.sign_eq_one_of_pos hx]; omega

theorem abs_spec {a : BigInt} {x : Int} (ha : a.Denotes x) (hla : a.bits.length < 2147483648) :
    Returns a.abs |x| := by
  unfold abs
  rw [ge_spec ha denotes_zero hla (by simp [zeroInt]), Res.ok_bind]
  by_cases h : x ≥ 0
  · simp only [h, decide_true, if_true]; rw [abs_of_nonneg h]; exact returns_ok ha
  · simp only [h, decide_false]; rw [abs_of_neg (by omega)]; exact neg_spec ha

theorem compl_spec {a : BigInt} {x : Int} (ha : a.Denotes x) (hla : a.bits.length < 2147483647) :
    Returns a.compl (-x - 1) := by
  unfold compl
  obtain ⟨r, hr, hd⟩ := add_spec ha denotes_one hla (by simp [oneInt])
  rw [hr, Res.ok_bind]
  have := neg_spec hd
  rwa [show -x - 1 = -(x + 1) by ring]

/-! ### predicates -/

theorem isZero_spec {a : BigInt} {x : Int} (ha : a.Denotes x) : a.isZero = .ok (decide (x = 0)) := by
  simp [isZero, ha.assertValid, ha.sign_zero]

theorem isOne_spec {a : BigInt} {x : Int} (ha : a.Denotes x) : a.isOne = .ok (decide (x = 1)) := by
  simp only [isOne, ha.assertValid, Res.ok_bind]
  rcases ha.shape with ⟨rfl, -, -⟩ | ⟨s, ws, rfl, hs, hne, hw, ht, hv, rfl⟩
  · simp
  · congr 1; rw [decide_eq_decide]
    simp only [List.length_eq_zero_iff, hne, and_false, false_iff]
    rcases hs with rfl | rfl <;> omega

theorem isEven_spec {a : BigInt} {x : Int} (ha : a.Denotes x) : a.isEven = .ok (decide (x % 2 = 0)) := by
  simp only [isEven, ha.assertValid, Res.ok_bind]
  rcases ha.shape with ⟨rfl, -, -⟩ | ⟨s, ws, rfl, hs, hne, hw, ht, hv, rfl⟩
  · simp only [List.length_nil, if_true, Nat.and_one_is_mod]
    congr 1; rw [decide_eq_decide]; unfold u32i; omega
  · obtain ⟨w, ws, rfl⟩ := List.exists_cons_of_ne_nil hne
    simp only [List.length_cons, Nat.add_eq_zero_iff, one_ne_zero, and_false, if_false, List.headD_cons, Nat.and_one_is_mod]
    congr 1; rw [decide_eq_decide, val_cons]
    rcases hs with rfl | rfl <;> omega

end BigInt
end BigIntegerCpp
