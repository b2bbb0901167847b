import Verif.Lemmas.BitLength
import Verif.Model.Convert
/-
Narrowing conversions.
-/
namespace BigIntegerCpp
set_option linter.unusedSectionVars false
set_option linter.unnecessarySeqFocus false
variable [Cfg]
namespace BigInt

theorem twoWords_spec {ws : List Nat} (hw : WordsOk ws) (hne : ws ≠ []) (hl : ws.length ≤ 2) :
    twoWords ws = .ok (val ws) := by
  match ws, hne, hl with
  | [w], _, _ => simp [twoWords, idx]
  | [l, h], _, _ =>
    have h1 : l < 4294967296 := hw l (by simp)
    have h2 : h < 4294967296 := hw h (by simp)
    have e : h <<< 32 = h * 4294967296 := by rw [Nat.shiftLeft_eq]
    have : u64 (h <<< 32) ||| l = l + 4294967296 * h := by
      rw [u64_of_lt (by rw [e]; omega), ← Nat.shiftLeft_add_eq_or_of_lt (i := 32) (by simpa using h1), e]
      omega
    simp [twoWords, idx, this, val_cons]

theorem val_three {ws : List Nat} (ht : ws.getLast? ≠ some 0) (hl : 2 < ws.length) :
    18446744073709551616 ≤ val ws := by
  have := val_pos_of_top (by intro h; simp [h] at hl) ht
  have h2 : 𝔹 ^ 2 ≤ 𝔹 ^ (ws.length - 1) := Nat.pow_le_pow_right (by decide) (by omega)
  omega

theorem val_two {ws : List Nat} (ht : ws.getLast? ≠ some 0) (hl : 1 < ws.length) : 4294967296 ≤ val ws := by
  have := val_pos_of_top (by intro h; simp [h] at hl) ht
  have h2 : 𝔹 ^ 1 ≤ 𝔹 ^ (ws.length - 1) := Nat.pow_le_pow_right (by decide) (by omega)
  omega

theorem val_le_two {ws : List Nat} (hw : WordsOk ws) (hl : ws.length ≤ 2) : val ws < 18446744073709551616 := by
  have := val_lt hw
  have h2 : 𝔹 ^ ws.length ≤ 𝔹 ^ 2 := Nat.pow_le_pow_right (by decide) (by omega)
  omega

theorem toInt32_spec {a : BigInt} {x : Int} (ha : a.Denotes x) :
    a.toInt32 = if x = -2147483648 then .ub .signedOverflow
      else if -2147483648 ≤ x ∧ x < 2147483648 then .ok x else .throw .overflowError := by
  unfold toInt32
  rcases ha.shape with ⟨rfl, h1, h2⟩ | ⟨s, xs, rfl, hs1, hne1, hw1, ht1, hv1, rfl⟩
  · rw [if_pos rfl, if_neg (by omega), if_pos (by omega)]
  · simp only [hne1, if_false]
    by_cases hl : xs.length > 1
    · have := val_two ht1 hl
      rw [if_pos hl]
      rcases hs1 with rfl | rfl <;> rw [if_neg (by omega), if_neg (by omega)]
    · rw [if_neg hl]
      obtain ⟨w, ws, rfl⟩ := List.exists_cons_of_ne_nil hne1
      have : ws = [] := by
        rw [← List.length_eq_zero_iff]; simp at hl; simp [hl]
      subst this
      have hw : w < 4294967296 := hw1 w (by simp)
      rw [val_singleton] at hv1 ⊢
      have hh : [w].headD 0 = w := rfl
      rw [hh]
      rcases hs1 with rfl | rfl
      · rw [if_pos (by omega), if_pos (by omega), if_neg (by omega), if_neg (by omega)]
      · rw [if_neg (by omega)]
        by_cases hw2 : w > 2147483648
        · rw [if_pos hw2, if_neg (by omega), if_neg (by omega)]
        · obtain rfl : w = 2147483648 := by omega
          rfl

theorem toUInt32_spec {a : BigInt} {x : Int} (ha : a.Denotes x) :
    a.toUInt32 = if 0 ≤ x ∧ x < 4294967296 then .ok x.toNat else .throw .overflowError := by
  unfold toUInt32
  rcases ha.shape with ⟨rfl, h1, h2⟩ | ⟨s, xs, rfl, hs1, hne1, hw1, ht1, hv1, rfl⟩
  · simp only [if_true]
    by_cases hx : x < 0
    · rw [if_pos hx, if_neg (by omega)]
    · rw [if_neg hx, if_pos (by omega)]; congr 1; unfold u32i; omega
  · simp only [hne1, if_false]
    by_cases hl : xs.length > 1
    · have := val_two ht1 hl
      rw [if_pos (.inl hl)]
      rcases hs1 with rfl | rfl <;> rw [if_neg (by omega)]
    · obtain ⟨w, ws, rfl⟩ := List.exists_cons_of_ne_nil hne1
      have : ws = [] := by
        rw [← List.length_eq_zero_iff]; simp at hl; simp [hl]
      subst this
      have hw : w < 4294967296 := hw1 w (by simp)
      simp only [List.headD_cons, val_singleton, hl, false_or] at hv1 ⊢
      rcases hs1 with rfl | rfl
      · rw [if_neg (by omega), if_pos (by omega)]; congr 1; omega
      · rw [if_pos (by omega), if_neg (by omega)]

theorem toLong_spec {a : BigInt} {x : Int} (ha : a.Denotes x) (hl : a.bits.length < 2147483648) :
    a.toLong = if x = -9223372036854775808 then .ub .signedOverflow
      else if -9223372036854775808 ≤ x ∧ x < 9223372036854775808 then .ok x else .throw .overflowError := by
  unfold toLong
  rcases ha.shape with ⟨rfl, h1, h2⟩ | ⟨s, xs, rfl, hs1, hne1, hw1, ht1, hv1, rfl⟩
  · rw [if_pos rfl, if_neg (by omega), if_pos (by omega)]
  · simp only at hl
    simp only [hne1, if_false]
    rw [sizeInt_ok hl, Res.ok_bind]
    by_cases hl2 : xs.length > 2
    · have := val_three ht1 hl2
      rw [if_pos hl2]
      rcases hs1 with rfl | rfl <;> rw [if_neg (by omega), if_neg (by omega)]
    · have hlt := val_le_two hw1 (by omega)
      rw [if_neg hl2, twoWords_spec hw1 hne1 (by omega), Res.ok_bind]
      have hi : i64 (val xs) = if val xs < 9223372036854775808 then (val xs : Int)
          else (val xs : Int) - 18446744073709551616 := by
        unfold i64; rw [Nat.mod_eq_of_lt hlt]
      generalize val xs = v at *
      rcases hs1 with rfl | rfl
      · rw [if_pos (by omega), Res.ok_bind, hi]
        by_cases hv : v < 9223372036854775808
        · rw [if_pos hv, if_pos (by omega), if_neg (by omega), if_pos (by omega)]; congr 1; omega
        · rw [if_neg hv, if_neg (by omega), if_neg (by omega), if_neg (by omega)]
      · rw [if_neg (by omega), hi]
        by_cases hv : v < 9223372036854775808
        · rw [if_pos hv, long_ok (by omega) (by omega), Res.ok_bind, if_pos (by omega), if_neg (by omega),
            if_pos (by omega)]; congr 1; omega
        · rw [if_neg hv]
          by_cases hm : v = 9223372036854775808
          · subst hm; rfl
          · rw [long_ok (by omega) (by omega), Res.ok_bind, if_neg (by omega), if_neg (by omega), if_neg (by omega)]

theorem toULong_spec {a : BigInt} {x : Int} (ha : a.Denotes x) (hl : a.bits.length < 2147483648) :
    a.toULong = if 0 ≤ x ∧ x < 18446744073709551616 then .ok x.toNat else .throw .overflowError := by
  unfold toULong
  rcases ha.shape with ⟨rfl, h1, h2⟩ | ⟨s, xs, rfl, hs1, hne1, hw1, ht1, hv1, rfl⟩
  · simp only [if_true]
    by_cases hx : x < 0
    · rw [if_pos hx, if_neg (by omega)]
    · rw [if_neg hx, if_pos (by omega)]; congr 1; unfold u64i; omega
  · simp only at hl
    simp only [hne1, if_false]
    rw [sizeInt_ok hl, Res.ok_bind]
    by_cases hl2 : xs.length > 2
    · have := val_three ht1 hl2
      rw [if_pos (.inl hl2)]
      rcases hs1 with rfl | rfl <;> rw [if_neg (by omega)]
    · have hlt := val_le_two hw1 (by omega)
      rw [twoWords_spec hw1 hne1 (by omega)]
      generalize val xs = v at *
      rcases hs1 with rfl | rfl
      · rw [if_neg (by omega), if_pos (by omega)]; congr 1; omega
      · rw [if_pos (by omega), if_neg (by omega)]

end BigInt
end BigIntegerCpp
