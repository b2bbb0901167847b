import Verif.Lemmas.Gcd
/-
The public word-level `add` and `subtract` on operands of any signs.
-/
set_option linter.unusedSectionVars false
set_option linter.unnecessarySeqFocus false
namespace BigIntegerCpp
variable [Cfg]

theorem addSigned_exact {s t : Int} {xs ys : List Nat} {x y : Int}
    (ha : BigInt.Denotes ⟨s, xs⟩ x) (hb : BigInt.Denotes ⟨t, ys⟩ y) (hbig : xs ≠ [] ∨ ys ≠ [])
    (hlx : xs.length < 2147483647) (hly : ys.length < 2147483647) :
    Returns (addSigned xs s ys t) (if x < 0 then -((x.natAbs : Int) + y.natAbs) else (x.natAbs : Int) + y.natAbs) := by
  rcases ha.shape with ⟨he, h1, h2⟩ | ⟨s', xs', he, hs1, hne1, hw1, ht1, hv1, rfl⟩
  · obtain ⟨rfl, rfl⟩ := by simpa using he
    rcases hb.shape with ⟨he, h1', h2'⟩ | ⟨t', ys', he, hs2, hne2, hw2, ht2, hv2, rfl⟩
    · obtain ⟨rfl, rfl⟩ := by simpa using he
      simp at hbig
    · obtain ⟨rfl, rfl⟩ := by simpa using he
      rw [natAbs_unit_mul hs2]
      simp only [addSigned, hne2, and_false, if_false, if_true]
      rw [cabs_ok (by omega)]
      obtain ⟨r, hr, hl, hwr, hvr⟩ := addWord_spec hne2 hw2 (rhs := s.natAbs) (by omega)
      simp only [Res.ok_bind, hr]
      apply returns_ofMagnitude hwr (by omega)
      rw [hvr]
      by_cases hs : s < 0
      · rw [if_pos hs, if_pos (by simpa using hs)]; omega
      · rw [if_neg hs, if_neg (by simpa using hs)]; omega
  · obtain ⟨rfl, rfl⟩ := by simpa using he
    have hneg : (s * (val xs : Int) < 0) ↔ s < 0 := by rcases hs1 with rfl | rfl <;> omega
    rw [natAbs_unit_mul hs1]
    simp only [hneg]
    rcases hb.shape with ⟨he, h1', h2'⟩ | ⟨t', ys', he, hs2, hne2, hw2, ht2, hv2, rfl⟩
    · obtain ⟨rfl, rfl⟩ := by simpa using he
      simp only [addSigned, hne1, false_and, if_false, if_true]
      rw [cabs_ok (by omega)]
      obtain ⟨r, hr, hl, hwr, hvr⟩ := addWord_spec hne1 hw1 (rhs := t.natAbs) (by omega)
      simp only [Res.ok_bind, hr]
      apply returns_ofMagnitude hwr (by omega)
      rw [hvr]
      by_cases hs : s < 0
      · rw [if_pos hs, if_pos (by simpa using hs)]; omega
      · rw [if_neg hs, if_neg (by simpa using hs)]; omega
    · obtain ⟨rfl, rfl⟩ := by simpa using he
      rw [natAbs_unit_mul hs2]
      simp only [addSigned, hne1, hne2, and_self, if_false]
      by_cases hlt : xs.length < ys.length
      · rw [if_pos hlt]
        obtain ⟨r, hr, hl, hwr, hvr⟩ := addVec_spec hw2 hw1 hne2 hne1 (by omega) (by omega)
        simp only [Res.ok_bind, hr]
        apply returns_ofMagnitude hwr (by omega)
        rw [hvr]
        by_cases hs : s < 0
        · rw [if_pos hs, if_pos (by simpa using hs)]; omega
        · rw [if_neg hs, if_neg (by simpa using hs)]; omega
      · rw [if_neg hlt]
        obtain ⟨r, hr, hl, hwr, hvr⟩ := addVec_spec hw1 hw2 hne1 hne2 (by omega) (by omega)
        simp only [Res.ok_bind, hr]
        apply returns_ofMagnitude hwr (by omega)
        rw [hvr]
        by_cases hs : s < 0
        · rw [if_pos hs, if_pos (by simpa using hs)]; omega
        · rw [if_neg hs, if_neg (by simpa using hs)]; omega

theorem subtractSigned_exact {s t : Int} {xs ys : List Nat} {x y : Int}
    (ha : BigInt.Denotes ⟨s, xs⟩ x) (hb : BigInt.Denotes ⟨t, ys⟩ y) (hbig : xs ≠ [] ∨ ys ≠ [])
    (hlx : xs.length < 2147483648) (hly : ys.length < 2147483648) :
    Returns (subtractSigned xs s ys t) (if x < 0 then -((x.natAbs : Int) - y.natAbs) else (x.natAbs : Int) - y.natAbs) := by
  rcases ha.shape with ⟨he, h1, h2⟩ | ⟨s', xs', he, hs1, hne1, hw1, ht1, hv1, rfl⟩
  · obtain ⟨rfl, rfl⟩ := by simpa using he
    rcases hb.shape with ⟨he, h1', h2'⟩ | ⟨t', ys', he, hs2, hne2, hw2, ht2, hv2, rfl⟩
    · obtain ⟨rfl, rfl⟩ := by simpa using he
      simp at hbig
    · obtain ⟨rfl, rfl⟩ := by simpa using he
      rw [natAbs_unit_mul hs2]
      simp only [subtractSigned, hne2, and_false, if_false, if_true]
      rw [cabs_ok (by omega)]
      obtain ⟨r, hr, hl, hwr, hvr⟩ := subtractWord_spec hne2 hw2 (rhs := s.natAbs) (by omega) (by omega)
      simp only [Res.ok_bind, hr]
      apply returns_ofMagnitude hwr (by omega)
      rw [hvr]
      by_cases hs : s < 0
      · rw [if_pos hs, if_neg (by simpa using hs)]; omega
      · rw [if_neg hs, if_pos (by simpa using hs)]; omega
  · obtain ⟨rfl, rfl⟩ := by simpa using he
    have hneg : (s * (val xs : Int) < 0) ↔ s < 0 := by rcases hs1 with rfl | rfl <;> omega
    rw [natAbs_unit_mul hs1]
    simp only [hneg]
    rcases hb.shape with ⟨he, h1', h2'⟩ | ⟨t', ys', he, hs2, hne2, hw2, ht2, hv2, rfl⟩
    · obtain ⟨rfl, rfl⟩ := by simpa using he
      simp only [subtractSigned, hne1, false_and, if_false, if_true]
      rw [cabs_ok (by omega)]
      obtain ⟨r, hr, hl, hwr, hvr⟩ := subtractWord_spec hne1 hw1 (rhs := t.natAbs) (by omega) (by omega)
      simp only [Res.ok_bind, hr]
      apply returns_ofMagnitude hwr (by omega)
      rw [hvr]
      by_cases hs : s < 0
      · rw [if_pos hs, if_pos (by simpa using hs)]; omega
      · rw [if_neg hs, if_neg (by simpa using hs)]; omega
    · obtain ⟨rfl, rfl⟩ := by simpa using he
      rw [natAbs_unit_mul hs2]
      simp only [subtractSigned, hne1, hne2, and_self, if_false]
      have hcmp := compareWords_spec hw1 hw2 ht1 ht2
      by_cases hlt : compareWords xs ys < 0
      · rw [if_pos hlt]
        have hlt' : val xs < val ys := by split_ifs at hcmp <;> omega
        obtain ⟨r, hr, hl, hwr, hvr⟩ := subtractVec_spec hw2 hw1 hne2 hne1 ht2 ht1 (by omega) (by omega)
        simp only [Res.ok_bind, hr]
        apply returns_ofMagnitude hwr (by omega)
        rw [hvr]
        by_cases hs : s < 0
        · rw [if_pos hs, if_neg (by simpa using hs)]; omega
        · rw [if_neg hs, if_pos (by simpa using hs)]; omega
      · rw [if_neg hlt]
        have hle' : val ys ≤ val xs := by split_ifs at hcmp <;> omega
        obtain ⟨r, hr, hl, hwr, hvr⟩ := subtractVec_spec hw1 hw2 hne1 hne2 ht1 ht2 (by omega) (by omega)
        simp only [Res.ok_bind, hr]
        apply returns_ofMagnitude hwr (by omega)
        rw [hvr]
        by_cases hs : s < 0
        · rw [if_pos hs, if_pos (by simpa using hs)]; omega
        · rw [if_neg hs, if_neg (by simpa using hs)]; omega

end BigIntegerCpp
