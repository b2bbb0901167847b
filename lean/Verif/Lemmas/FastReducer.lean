import Verif.Lemmas.ModPow
/-
Lemmas about src/BigIntegerCalculator/FastReducer.cpp: what `Reduce` computes on a clean buffer.
-/
set_option linter.unusedSectionVars false
set_option linter.unnecessarySeqFocus false
namespace BigIntegerCpp
variable [Cfg]

theorem val_ge_of_top {xs : List Nat} (hne : xs ≠ []) (htop : xs.getLast? ≠ some 0) : 𝔹 ^ (xs.length - 1) ≤ val xs := by
  obtain ⟨l, t, rfl⟩ : ∃ l t, xs = l ++ [t] := by
    rcases List.eq_nil_or_concat xs with h | ⟨l, q, h⟩
    · exact absurd h hne
    · exact ⟨l, q, by rw [h, List.concat_eq_append]⟩
  have ht : t ≠ 0 := by simpa using htop
  rw [val_append, val_singleton, List.length_append, List.length_singleton, Nat.add_sub_cancel]
  have : 𝔹 ^ l.length * 1 ≤ 𝔹 ^ l.length * t := Nat.mul_le_mul_left _ (by omega)
  omega

theorem npow_le_one {v : Nat} (h : v ≤ 1) (k : Nat) : v ^ k ≤ 1 := by
  rw [← Nat.one_pow k]; exact Nat.pow_le_pow_left h k

theorem nmul_le_right {r w : Nat} (h : w ≤ 1) : r * w ≤ r := by
  simpa using Nat.mul_le_mul_left r h

/-- `n` is the number of words of `y`. -/
def WLen (n y : Nat) : Prop := y < 𝔹 ^ n ∧ (n = 0 ∨ 𝔹 ^ (n - 1) ≤ y)

theorem WLen.unique {n n' y : Nat} (h : WLen n y) (h' : WLen n' y) : n = n' := by
  have key : ∀ {i j : Nat}, WLen i y → WLen j y → i ≤ j := by
    intro i j hi hj
    by_contra hc
    rcases hi.2 with h0 | h1
    · omega
    · have : 𝔹 ^ j ≤ 𝔹 ^ (i - 1) := Nat.pow_le_pow_right (by decide) (by omega)
      have := hj.1
      omega
  exact le_antisymm (key h h') (key h' h)

theorem wlen_trimLen {xs : List Nat} (hw : WordsOk xs) : WLen (trimLen xs) (val xs) := by
  constructor
  · have := val_lt (hw.take (trimLen xs))
    rwa [val_take_trimLen, length_take_trimLen] at this
  · by_cases h : trimLen xs = 0
    · exact .inl h
    · right
      have := val_ge_of_top (xs := xs.take (trimLen xs))
        (fun hc => h (by rw [← length_take_trimLen, hc]; rfl)) (getLast_take_trimLen xs)
      rwa [val_take_trimLen, length_take_trimLen] at this

theorem val_take_eq_mod {xs : List Nat} (hw : WordsOk xs) {n : Nat} (hn : n ≤ xs.length) : val (xs.take n) = val xs % 𝔹 ^ n := by
  have h := val_take_add_drop xs n hn
  have hlt := val_lt (hw.take n)
  rw [List.length_take_of_le hn] at hlt
  rw [← h, Nat.add_mul_mod_self_left, Nat.mod_eq_of_lt hlt]

theorem val_drop_eq_div {xs : List Nat} (hw : WordsOk xs) {n : Nat} (hn : n ≤ xs.length) : val (xs.drop n) = val xs / 𝔹 ^ n := by
  have h := val_take_add_drop xs n hn
  have hlt := val_lt (hw.take n)
  rw [List.length_take_of_le hn] at hlt
  rw [← h, Nat.add_mul_div_left _ _ (by positivity), Nat.div_eq_of_lt hlt, zero_add]

/-- The quotient estimate of Barrett reduction. -/
theorem barrett {x m b P : Nat} (hm : 0 < m) (hb : 0 < b) (hbm : b ≤ m) (hx : x < b * P) :
    ((x / b * (b * P / m)) / P) * m ≤ x ∧ x < ((x / b * (b * P / m)) / P + 3) * m := by
  have hP : 0 < P := Nat.pos_of_ne_zero fun h => by rw [h] at hx; omega
  obtain ⟨s, hs, e1⟩ : ∃ s, s < b ∧ x = x / b * b + s := ⟨x % b, Nat.mod_lt _ hb, by rw [Nat.div_add_mod']⟩
  obtain ⟨t, ht, e2⟩ : ∃ t, t < m ∧ b * P = b * P / m * m + t := ⟨b * P % m, Nat.mod_lt _ hm, by rw [Nat.div_add_mod']⟩
  have ha : x / b < P := by rw [Nat.div_lt_iff_lt_mul hb]; rw [Nat.mul_comm P b]; exact hx
  generalize x / b = a at *
  generalize b * P / m = mu at *
  obtain ⟨u, hu, e3⟩ : ∃ u, u < P ∧ a * mu = a * mu / P * P + u := ⟨a * mu % P, Nat.mod_lt _ hP, by rw [Nat.div_add_mod']⟩
  generalize a * mu / P = q at *
  constructor
  · have : q * m * P ≤ x * P := by
      calc q * m * P = (q * P) * m := by ring
        _ ≤ (a * mu) * m := Nat.mul_le_mul_right _ (by omega)
        _ = a * (mu * m) := by ring
        _ ≤ a * (b * P) := Nat.mul_le_mul_left _ (by omega)
        _ = (a * b) * P := by ring
        _ ≤ x * P := Nat.mul_le_mul_right _ (by omega)
    exact Nat.le_of_mul_le_mul_right this hP
  · have : x * P < (q + 3) * m * P := by
      have h1 : a * t < P * m := by
        calc a * t ≤ a * m := Nat.mul_le_mul_left _ (by omega)
          _ < P * m := Nat.mul_lt_mul_of_pos_right ha hm
      have h2 : s * P ≤ m * P := Nat.mul_le_mul_right _ (by omega)
      have h3 : u * m ≤ P * m := Nat.mul_le_mul_right _ (by omega)
      calc x * P = a * (b * P) + s * P := by conv_lhs => rw [e1]
                                             ring
        _ = (a * mu) * m + a * t + s * P := by rw [e2]; ring
        _ = q * P * m + u * m + a * t + s * P := by rw [e3]; ring
        _ < q * P * m + P * m + P * m + m * P := by omega
        _ = (q + 3) * m * P := by ring
    exact Nat.lt_of_mul_lt_mul_right this

namespace FastReducer

theorem subtractSelf_spec {left right : List Nat} (hl : WordsOk left) (hr : WordsOk right) {n : Nat}
    (h1 : right.length ≤ n) (h2 : n ≤ left.length) {c : Int} (hc1 : -1 ≤ c) (hc2 : c ≤ 0) :
    ∃ r c', subtractSelf left right n c = .ok r ∧ r.length = left.length ∧ WordsOk r ∧
      (val (r.take n) : Int) + (𝔹 ^ n : Nat) * c' = val (left.take n) - val right + c := by
  induction right generalizing left n c with
  | nil =>
    obtain ⟨r, c', e, k1, k2, k3⟩ := carrySelf_spec (hl.take n) (c := c) (by omega) (by omega)
    rw [List.length_take_of_le h2] at k1 k3
    refine ⟨r ++ left.drop n, c', ?_, ?_, wordsOk_append.2 ⟨k2, hl.drop n⟩, ?_⟩
    · rw [subtractSelf, slice_prefix h2, Res.ok_bind, e, Res.ok_bind]
    · rw [List.length_append, k1, List.length_drop]; omega
    · rw [← k1, List.take_left, k1, k3]; simp
  | cons y ys ih =>
    cases n with
    | zero => simp at h1
    | succ n =>
    cases left with
    | nil => simp at h2
    | cons x xs =>
      obtain ⟨hx, hxs⟩ := wordsOk_cons.1 hl
      obtain ⟨hy, hys⟩ := wordsOk_cons.1 hr
      have hd := u32i_add_div ((x : Int) + c - y)
      have hd2 := u32i_lt ((x : Int) + c - y)
      obtain ⟨r, c', e, k1, k2, k3⟩ := ih hxs hys (n := n) (by simpa using h1) (by simpa using h2)
        (c := ((x : Int) + c - y) / 4294967296) (by omega) (by omega)
      refine ⟨u32i ((x : Int) + c - y) :: r, c', ?_, by simp [k1], wordsOk_cons.2 ⟨hd2, k2⟩, ?_⟩
      · rw [subtractSelf, long_ok (by omega) (by omega), Res.ok_bind, Nat.add_sub_cancel, e, Res.ok_bind]
      · rw [List.take_succ_cons, List.take_succ_cons, val_cons, val_cons, val_cons, pow_succ]
        push_cast
        generalize hD : ((x : Int) + c - y) / 4294967296 = D at *
        push_cast at k3
        linear_combination hd + 4294967296 * k3

theorem divMul_spec {left right : List Nat} (hl : WordsOk left) (hr : WordsOk right) {nl nr size k : Nat}
    (h1 : nl ≤ left.length) (h2 : nr ≤ right.length) (h3 : k < nl → nl - k + nr ≤ size) :
    ∃ o, divMul left nl right nr size k = .ok (o, trimLen o) ∧ o.length = size ∧ WordsOk o ∧
      val o = val (left.take nl) / 𝔹 ^ k * val (right.take nr) := by
  unfold divMul
  dsimp only
  by_cases h : nl > k
  · rw [if_pos h]
    have h3 := h3 h
    have e0 : (left.drop k).take (nl - k) = (left.take nl).drop k := by
      rw [List.drop_take]
    have hv : val ((left.drop k).take (nl - k)) = val (left.take nl) / 𝔹 ^ k := by
      rw [e0, val_drop_eq_div (hl.take _) (by rw [List.length_take_of_le h1]; omega)]
    obtain ⟨o, e, k1, k2, k3⟩ : ∃ o, (if nl - k < nr then
        BitsBuffer.multiplyMem right nr (left.drop k) (nl - k) (List.replicate size 0) (nl - k + nr)
      else
        BitsBuffer.multiplyMem (left.drop k) (nl - k) right nr (List.replicate size 0) (nl - k + nr)) = .ok o ∧
        o.length = size ∧ WordsOk o ∧ val o = val (left.take nl) / 𝔹 ^ k * val (right.take nr) := by
      have hdl : nl - k ≤ (left.drop k).length := by rw [List.length_drop]; omega
      by_cases hc : nl - k < nr
      · rw [if_pos hc, Nat.add_comm (nl - k)]
        obtain ⟨o, e, k1, k2, k3⟩ := BitsBuffer.multiplyMem_spec hr (hl.drop k) h2 hdl (le_of_lt hc) (N := size) (by omega)
        exact ⟨o, e, k1, k2, by rw [k3, hv, Nat.mul_comm]⟩
      · rw [if_neg hc]
        obtain ⟨o, e, k1, k2, k3⟩ := BitsBuffer.multiplyMem_spec (hl.drop k) hr hdl h2 (by omega) (N := size) h3
        exact ⟨o, e, k1, k2, by rw [k3, hv]⟩
    rw [e, Res.ok_bind]
    have hlt : val o < 𝔹 ^ (nl - k + nr) := by
      rw [k3, Nat.pow_add]
      have a1 := val_lt ((hl.drop k).take (nl - k))
      have a2 := val_lt (hr.take nr)
      rw [hv, List.length_take_of_le (by rw [List.length_drop]; omega)] at a1
      rw [List.length_take_of_le h2] at a2
      exact Nat.mul_lt_mul'' a1 a2
    rw [actualLength_ok (by omega) (trimLen_le_of_val hlt), Res.ok_bind]
    exact ⟨o, rfl, k1, k2, k3⟩
  · rw [if_neg h]
    have e0 : trimLen (List.replicate size 0) = 0 := trimLen_eq_zero.2 (val_replicate_zero _)
    refine ⟨List.replicate size 0, by rw [e0], by simp, wordsOk_replicate_zero _, ?_⟩
    have a1 := val_lt (hl.take nl)
    rw [List.length_take_of_le h1] at a1
    have a2 : 𝔹 ^ nl ≤ 𝔹 ^ k := Nat.pow_le_pow_right (by decide) (by omega)
    rw [val_replicate_zero, Nat.div_eq_of_lt (by omega), zero_mul]

theorem trimmed_take {l : List Nat} {n : Nat} (hn : n ≤ l.length) :
    val (l.take (trimLen (l.take n))) = val (l.take n) ∧
      (l.take (trimLen (l.take n))).getLast? ≠ some 0 ∧ trimLen (l.take n) ≤ n := by
  have h := trimLen_le (l.take n)
  rw [List.length_take_of_le hn] at h
  have e : l.take (trimLen (l.take n)) = (l.take n).take (trimLen (l.take n)) := by
    rw [List.take_take, Nat.min_eq_left h]
  rw [e]
  exact ⟨val_take_trimLen _, getLast_take_trimLen _, h⟩

theorem subModLoop_rounds {ms : List Nat} (hw : WordsOk ms) (hne : ms ≠ []) (htop : ms.getLast? ≠ some 0) (fuel : Nat)
    {left : List Nat} {ll : Nat} (hl : WordsOk left) (hll : ll ≤ left.length) (ht : (left.take ll).getLast? ≠ some 0)
    (hf : val (left.take ll) < fuel * val ms) :
    ∃ n, subModLoop ms fuel left ll = .ok n ∧ WLen n (val (left.take ll) % val ms) := by
  have hm : 0 < val ms := lt_of_lt_of_le (by positivity) (val_ge_of_top hne htop)
  induction fuel generalizing left ll with
  | zero => rw [Nat.zero_mul] at hf; omega
  | succ fuel ih =>
    rw [Nat.add_mul, Nat.one_mul] at hf
    rw [subModLoop, slice_prefix hll, Res.ok_bind, compareWords_spec (hl.take ll) hw ht htop]
    by_cases hc : val (left.take ll) < val ms
    · rw [if_pos hc, if_neg (by decide)]
      refine ⟨ll, rfl, ?_⟩
      rw [Nat.mod_eq_of_lt hc]
      have := wlen_trimLen (hl.take ll)
      rwa [trimLen_of_top ht, List.length_take_of_le hll] at this
    · rw [if_neg hc, if_pos (by split_ifs <;> decide)]
      have hml : ms.length ≤ ll := by
        by_contra hcon
        exact hc (BigInt.val_lt_of_length (hl.take ll) hne htop (by rw [List.length_take_of_le hll]; omega))
      obtain ⟨r, c', e, k1, k2, k3⟩ := subtractSelf_spec hl hw hml hll (c := 0) (by decide) (by decide)
      rw [e, Res.ok_bind]
      have hrb := val_lt (k2.take ll)
      rw [List.length_take_of_le (by omega)] at hrb
      have hlb := val_lt (hl.take ll)
      rw [List.length_take_of_le hll] at hlb
      have hv : val (r.take ll) = val (left.take ll) - val ms := by
        generalize 𝔹 ^ ll = Q at *
        have hc0 : c' = 0 := by
          rcases lt_trichotomy c' 0 with h | h | h
          · have : (Q : Int) * c' ≤ (Q : Int) * (-1) := by nlinarith
            omega
          · exact h
          · have : (Q : Int) * 1 ≤ (Q : Int) * c' := by nlinarith
            omega
        rw [hc0] at k3; omega
      obtain ⟨t1, t2, t3⟩ := trimmed_take (l := r) (n := ll) (by omega)
      have ea : actualLength r ll = .ok (trimLen (r.take ll)) := by
        unfold actualLength; rw [slice_prefix (by omega), Res.ok_bind]
      rw [ea, Res.ok_bind]
      obtain ⟨n, e2, k4⟩ := ih k2 (ll := trimLen (r.take ll)) (by omega) t2 (by omega)
      refine ⟨n, e2, ?_⟩
      rw [t1, hv] at k4
      rwa [← Nat.mod_eq_sub_mod (by omega)] at k4

theorem subModLoop_spec {ms : List Nat} (hw : WordsOk ms) (hne : ms ≠ []) (htop : ms.getLast? ≠ some 0) (fuel : Nat)
    {left : List Nat} {ll : Nat} (hl : WordsOk left) (hll : ll ≤ left.length) (ht : (left.take ll).getLast? ≠ some 0)
    (hf : val (left.take ll) < fuel) :
    ∃ n, subModLoop ms fuel left ll = .ok n ∧ WLen n (val (left.take ll) % val ms) := by
  have hm : 0 < val ms := lt_of_lt_of_le (by positivity) (val_ge_of_top hne htop)
  exact subModLoop_rounds hw hne htop fuel hl hll ht (lt_of_lt_of_le hf (Nat.le_mul_of_pos_right _ hm))

/-- `SubMod`: one subtraction on `K` words, then as many rounds as the modulus is contained in the difference. -/
theorem subMod_parts {ms left right : List Nat} (hw : WordsOk ms) (hne : ms ≠ []) (htop : ms.getLast? ≠ some 0)
    (hl : WordsOk left) (hr : WordsOk right) (hle : val right ≤ val left) {K : Nat}
    (hK : val left - val right < 𝔹 ^ K) (hKr : K ≤ right.length) :
    ∃ t r j, slice right 0 (if trimLen right > K then K else trimLen right) = .ok t ∧
      subtractSelf left t (if trimLen left > K then K else trimLen left) 0 = .ok r ∧
      actualLength r (if trimLen left > K then K else trimLen left) = .ok j ∧ val left - val right ≤ val r ∧
      ∀ F, val left - val right < F * val ms → ∃ n, subModLoop ms F r j = .ok n ∧ WLen n ((val left - val right) % val ms) := by
  have hlr : trimLen right ≤ trimLen left :=
    trimLen_le_of_val (lt_of_le_of_lt hle (wlen_trimLen hl).1)
  have hll := trimLen_le left
  have hrl := trimLen_le right
  -- the two truncated numbers
  have hA : ∀ l : List Nat, WordsOk l → val (l.take (if trimLen l > K then K else trimLen l)) = val l % 𝔹 ^ K := by
    intro l h
    by_cases hc : trimLen l > K
    · rw [if_pos hc, val_take_eq_mod h (by have := trimLen_le l; omega)]
    · rw [if_neg hc, val_take_trimLen, Nat.mod_eq_of_lt]
      exact lt_of_lt_of_le (wlen_trimLen h).1 (Nat.pow_le_pow_right (by decide) (by omega))
  have eA := hA left hl
  have eB := hA right hr
  have hn1 : (if trimLen left > K then K else trimLen left) ≤ left.length := by split_ifs <;> omega
  have hn2 : (if trimLen right > K then K else trimLen right) ≤ right.length := by split_ifs <;> omega
  have hn3 : (if trimLen right > K then K else trimLen right) ≤ (if trimLen left > K then K else trimLen left) := by
    split_ifs <;> omega
  have hbig : trimLen left ≤ K → (if trimLen left > K then K else trimLen left) = trimLen left := fun h => by
    rw [if_neg (by omega)]
  have hbig2 : ¬ trimLen left ≤ K → (if trimLen left > K then K else trimLen left) = K := fun h => by
    rw [if_pos (by omega)]
  generalize (if trimLen left > K then K else trimLen left) = n1 at *
  generalize (if trimLen right > K then K else trimLen right) = n2 at *
  refine ⟨right.take n2, ?_⟩
  obtain ⟨r, c', e, k1, k2, k3⟩ := subtractSelf_spec hl (hr.take n2) (n := n1) (by rw [List.length_take_of_le hn2]; exact hn3)
    hn1 (c := 0) (by decide) (by decide)
  rw [eA, eB] at k3
  have hrb := val_lt (k2.take n1)
  rw [List.length_take_of_le (by omega)] at hrb
  have hv : val (r.take n1) = val left - val right := by
    by_cases hc : trimLen left ≤ K
    · have h1 := (wlen_trimLen hl).1
      have h2 : val left < 𝔹 ^ K := lt_of_lt_of_le h1 (Nat.pow_le_pow_right (by decide) hc)
      rw [Nat.mod_eq_of_lt h2, Nat.mod_eq_of_lt (lt_of_le_of_lt hle h2)] at k3
      rw [← hbig hc] at h1
      generalize 𝔹 ^ n1 = Q at *
      have hc0 : c' = 0 := by
        rcases lt_trichotomy c' 0 with h | h | h
        · have : (Q : Int) * c' ≤ (Q : Int) * (-1) := by nlinarith
          omega
        · exact h
        · have : (Q : Int) * 1 ≤ (Q : Int) * c' := by nlinarith
          omega
      rw [hc0] at k3; omega
    · rw [hbig2 hc] at k3 hrb ⊢
      have e1 := Nat.div_add_mod (val left) (𝔹 ^ K)
      have e2 := Nat.div_add_mod (val right) (𝔹 ^ K)
      generalize 𝔹 ^ K = Q at *
      have hQ : 0 < Q := by omega
      have hmod : ((val (r.take K) : Int)) % Q = ((val left - val right : Nat) : Int) % Q := by
        rw [Nat.cast_sub hle]
        have e3 : (val (r.take K) : Int) = (val left : Int) - val right +
            (Q : Int) * ((val right / Q : Nat) - (val left / Q : Nat) - c') := by
          have e1' : (Q : Int) * (val left / Q : Nat) + (val left % Q : Nat) = val left := by exact_mod_cast e1
          have e2' : (Q : Int) * (val right / Q : Nat) + (val right % Q : Nat) = val right := by exact_mod_cast e2
          linear_combination k3 + e1' - e2'
        rw [e3, Int.add_mul_emod_self_left]
      rw [Int.emod_eq_of_lt (by omega) (by omega), Int.emod_eq_of_lt (by omega) (by omega)] at hmod
      exact_mod_cast hmod
  obtain ⟨t1, t2, t3⟩ := trimmed_take (l := r) (n := n1) (by omega)
  have ea : actualLength r n1 = .ok (trimLen (r.take n1)) := by
    unfold actualLength; rw [slice_prefix (by omega), Res.ok_bind]
  have hfuel : val (r.take n1) ≤ val r := by
    rw [val_take_eq_mod k2 (by omega)]; exact Nat.mod_le _ _
  refine ⟨r, trimLen (r.take n1), slice_prefix hn2, e, ea, by omega, fun F hF => ?_⟩
  obtain ⟨n, e2, k4⟩ := subModLoop_rounds hw hne htop F k2 (ll := trimLen (r.take n1)) (by omega) t2 (by rw [t1, hv]; exact hF)
  exact ⟨n, e2, by rwa [t1, hv] at k4⟩

theorem subMod_spec {ms left right : List Nat} (hw : WordsOk ms) (hne : ms ≠ []) (htop : ms.getLast? ≠ some 0)
    (hl : WordsOk left) (hr : WordsOk right) (hle : val right ≤ val left) {K : Nat}
    (hK : val left - val right < 𝔹 ^ K) (hKr : K ≤ right.length) :
    ∃ n, subMod left (trimLen left) right (trimLen right) ms K = .ok n ∧
      WLen n ((val left - val right) % val ms) := by
  have hm : 0 < val ms := lt_of_lt_of_le (by positivity) (val_ge_of_top hne htop)
  obtain ⟨t, r, j, e1, e2, e3, h, hn⟩ := subMod_parts hw hne htop hl hr hle hK hKr
  obtain ⟨n, e4, k⟩ := hn (val r + 1) (lt_of_lt_of_le (Nat.lt_succ_of_le h) (Nat.le_mul_of_pos_right _ hm))
  refine ⟨n, ?_, k⟩
  unfold subMod
  dsimp only
  rw [e1, Res.ok_bind, e2, Res.ok_bind, e3, Res.ok_bind, e4]

/-- A constructed reducer. -/
structure Ok (ms : List Nat) (fr : FastReducer) : Prop where
  modulus : fr.modulus = ms
  words : WordsOk fr.mu
  mu : val fr.mu = 𝔹 ^ (ms.length + ms.length) / val ms
  muLength : fr.muLength = trimLen fr.mu

theorem make_spec {ms : List Nat} (hw : WordsOk ms) (hne : ms ≠ []) (htop : ms.getLast? ≠ some 0)
    (hl : ms.length + ms.length < 2147483647) : ∃ fr, make ms = .ok fr ∧ Ok ms fr := by
  have hlen : (List.replicate (ms.length * 2) 0 ++ [1]).length = ms.length + ms.length + 1 := by simp; omega
  have hlen1 : 1 ≤ ms.length := List.length_pos_iff.2 hne
  obtain ⟨q, e, k1, k2, k3⟩ := divideVec_spec (xs := List.replicate (ms.length * 2) 0 ++ [1])
    (wordsOk_append.2 ⟨wordsOk_replicate_zero _, by decide⟩) hw hne htop (by omega) (by omega)
  refine ⟨⟨ms, q, trimLen q⟩, ?_, rfl, k2, ?_, rfl⟩
  · unfold make
    dsimp only
    rw [e, Res.ok_bind, sizeInt_ok (by omega), Res.ok_bind]
  · rw [k3, val_append, val_replicate_zero, List.length_replicate, val_singleton, zero_add, mul_one, Nat.mul_two]

/-- What `Reduce` computes for a buffer of at least the length of the modulus: an estimate `q2` of the
multiple of the modulus to be subtracted, short by less than three times the modulus. -/
theorem reduce_parts {ms : List Nat} {fr : FastReducer} (hw : WordsOk ms) (hne : ms ≠ []) (htop : ms.getLast? ≠ some 0)
    (hfr : Ok ms fr) {N : Nat} (hN : N ≤ ms.length + ms.length) {b : BitsBuffer} {x : Nat} (hb : Buf N b x)
    (hc : val ms ≠ 𝔹 ^ (ms.length - 1) ∨ x < 𝔹 ^ (ms.length + ms.length - 1)) :
    ∃ q1 q2, divMul b.bits b.length fr.mu fr.muLength (ms.length * 2 + 2) (ms.length - 1) = .ok (q1, trimLen q1) ∧
      q1.length = ms.length * 2 + 2 ∧
      divMul q1 (trimLen q1) ms ms.length (ms.length * 2 + 1) (ms.length + 1) = .ok (q2, trimLen q2) ∧
      q2.length = ms.length * 2 + 1 ∧ WordsOk q2 ∧ val q2 ≤ x ∧ x - val q2 < 3 * val ms ∧ (x - val q2) % val ms = x % val ms := by
  have hmlo := val_ge_of_top hne htop
  have hmhi := val_lt hw
  have hlen1 : 1 ≤ ms.length := List.length_pos_iff.2 hne
  have hm : 0 < val ms := lt_of_lt_of_le (by positivity) hmlo
  have hbits : b.bits.length = N := hb.size
  have hwl : WLen b.length x := by rw [hb.len, ← hb.value]; exact wlen_trimLen hb.words
  have hbl' := hb.len_le_size
  have hbl : b.length ≤ ms.length + ms.length := hbl'.trans hN
  -- the estimate
  have hbp : 𝔹 ^ (ms.length + ms.length) = 𝔹 ^ (ms.length - 1) * 𝔹 ^ (ms.length + 1) := by
    rw [← Nat.pow_add]; congr 1; omega
  have hxlt : x < 𝔹 ^ (ms.length - 1) * 𝔹 ^ (ms.length + 1) := by
    rw [← hbp]; exact lt_of_lt_of_le hwl.1 (Nat.pow_le_pow_right (by decide) hbl)
  have bar := barrett hm (b := 𝔹 ^ (ms.length - 1)) (P := 𝔹 ^ (ms.length + 1)) (by positivity) hmlo hxlt
  rw [← hbp, ← hfr.mu] at bar
  -- lengths
  have hmu1 : trimLen fr.mu ≤ ms.length + 2 := by
    refine trimLen_le_of_val ?_
    rw [hfr.mu, Nat.div_lt_iff_lt_mul hm, hbp]
    calc 𝔹 ^ (ms.length - 1) * 𝔹 ^ (ms.length + 1) < 𝔹 ^ (ms.length - 1) * 𝔹 ^ (ms.length + 2) :=
          Nat.mul_lt_mul_of_pos_left (Nat.pow_lt_pow_right (by decide) (by omega)) (by positivity)
      _ ≤ val ms * 𝔹 ^ (ms.length + 2) := Nat.mul_le_mul_right _ hmlo
      _ = 𝔹 ^ (ms.length + 2) * val ms := by ring
  have hsz : b.length - (ms.length - 1) + fr.muLength ≤ ms.length * 2 + 2 := by
    rw [hfr.muLength]
    rcases hc with hc | hc
    · have hmu2 : trimLen fr.mu ≤ ms.length + 1 := by
        refine trimLen_le_of_val ?_
        rw [hfr.mu, Nat.div_lt_iff_lt_mul hm, hbp, Nat.mul_comm (𝔹 ^ (ms.length + 1))]
        exact Nat.mul_lt_mul_of_pos_right (by omega) (by positivity)
      omega
    · have := hb.len_le hc
      omega
  obtain ⟨q1, e1, a1, a2, a3⟩ := divMul_spec hb.words hfr.words (nl := b.length) (nr := fr.muLength)
    (size := ms.length * 2 + 2) (k := ms.length - 1) (by omega) (by rw [hfr.muLength]; exact trimLen_le _) (fun _ => hsz)
  rw [hb.val_take, hfr.muLength, val_take_trimLen] at a3
  have hq1 := trimLen_le q1
  obtain ⟨q2, e2, b1, b2, b3⟩ := divMul_spec a2 hw (nl := trimLen q1) (nr := ms.length)
    (size := ms.length * 2 + 1) (k := ms.length + 1) hq1 (le_refl _) (fun _ => by omega)
  rw [val_take_trimLen, a3, List.take_length] at b3
  refine ⟨q1, q2, e1, a1, e2, b1, b2, ?_⟩
  rw [b3]
  have hle := bar.1
  have h3 := bar.2
  rw [add_mul] at h3
  generalize x / 𝔹 ^ (ms.length - 1) * val fr.mu / 𝔹 ^ (ms.length + 1) = q at *
  refine ⟨hle, by omega, ?_⟩
  conv_rhs => rw [← Nat.sub_add_cancel hle]
  rw [Nat.add_mul_mod_self_right]

/-- What `Reduce` returns for a buffer holding `x`: the number of words of `x % m`. -/
theorem reduce_spec_le {ms : List Nat} {fr : FastReducer} (hw : WordsOk ms) (hne : ms ≠ []) (htop : ms.getLast? ≠ some 0)
    (hfr : Ok ms fr) {N : Nat} (hN : N ≤ ms.length + ms.length) {b : BitsBuffer} {x : Nat} (hb : Buf N b x)
    (hc : val ms ≠ 𝔹 ^ (ms.length - 1) ∨ x < 𝔹 ^ (ms.length + ms.length - 1)) :
    ∃ n, fr.reduce b.bits b.length = .ok n ∧ WLen n (x % val ms) := by
  have hwl : WLen b.length x := by rw [hb.len, ← hb.value]; exact wlen_trimLen hb.words
  have hbits : b.bits.length = N := hb.size
  have hbl' := hb.len_le_size
  unfold reduce
  rw [hfr.modulus]
  by_cases hs : b.length < ms.length
  · rw [if_pos hs]
    refine ⟨_, rfl, ?_⟩
    have : x < val ms := by
      rw [← hb.val_take]
      exact BigInt.val_lt_of_length (hb.words.take _) hne htop (by rw [List.length_take_of_le (by omega)]; exact hs)
    rw [Nat.mod_eq_of_lt this]; exact hwl
  rw [if_neg hs]
  dsimp only
  obtain ⟨q1, q2, e1, a1, e2, b1, b2, b3, b4, b5⟩ := reduce_parts hw hne htop hfr hN hb hc
  rw [e1, Res.ok_bind]
  dsimp only
  rw [e2, Res.ok_bind]
  dsimp only
  rw [hb.len]
  have hmhi := val_lt hw
  obtain ⟨n, e3, k⟩ := subMod_spec hw hne htop hb.words b2 (K := ms.length + 1)
    (by rw [hb.value]; exact b3) (by rw [hb.value, Nat.pow_succ]; omega) (by omega)
  refine ⟨n, e3, ?_⟩
  rwa [hb.value, b5] at k

theorem reduce_spec {ms : List Nat} {fr : FastReducer} (hw : WordsOk ms) (hne : ms ≠ []) (htop : ms.getLast? ≠ some 0)
    (hfr : Ok ms fr) {b : BitsBuffer} {x : Nat} (hb : Buf (ms.length + ms.length) b x)
    (hc : val ms ≠ 𝔹 ^ (ms.length - 1) ∨ x < 𝔹 ^ (ms.length + ms.length - 1)) :
    ∃ n, fr.reduce b.bits b.length = .ok n ∧ WLen n (x % val ms) := reduce_spec_le hw hne htop hfr (le_refl _) hb hc

/-- `Reduce` writes past `_q1` when the modulus is a power of `2^32` and the value has the full
`2L` words. -/
theorem reduce_overrun {ms : List Nat} {fr : FastReducer} (hne : ms ≠ [])
    (hfr : Ok ms fr) {b : BitsBuffer} {x : Nat} (hb : Buf (ms.length + ms.length) b x)
    (hc : val ms = 𝔹 ^ (ms.length - 1)) (hx : 𝔹 ^ (ms.length + ms.length - 1) ≤ x) :
    fr.reduce b.bits b.length = .ub .outOfBounds := by
  have hlen1 : 1 ≤ ms.length := List.length_pos_iff.2 hne
  have hbits : b.bits.length = ms.length + ms.length := hb.size
  have hwl : WLen b.length x := by rw [hb.len, ← hb.value]; exact wlen_trimLen hb.words
  have hbl := hb.len_le_size
  have hlen : b.length = ms.length + ms.length := by
    by_contra hcon
    have h1 := hwl.1
    have h2 : 𝔹 ^ b.length ≤ 𝔹 ^ (ms.length + ms.length - 1) := Nat.pow_le_pow_right (by decide) (by omega)
    omega
  have hmu : val fr.mu = 𝔹 ^ (ms.length + 1) := by
    rw [hfr.mu, hc, Nat.pow_div (by omega) (by decide)]
    congr 1; omega
  have hmul : trimLen fr.mu = ms.length + 2 := by
    refine (wlen_trimLen hfr.words).unique ?_
    rw [hmu]
    exact ⟨Nat.pow_lt_pow_right (by decide) (by omega), .inr (by rw [show ms.length + 2 - 1 = ms.length + 1 by omega])⟩
  unfold reduce
  rw [hfr.modulus, if_neg (by omega)]
  dsimp only
  unfold divMul
  dsimp only
  have htl := trimLen_le fr.mu
  rw [hfr.muLength, hmul, hlen, if_pos (by omega), if_pos (by omega)]
  unfold BitsBuffer.multiplyMem
  rw [slice_prefix (by omega), Res.ok_bind, slice_prefix (by rw [List.length_drop]; omega), Res.ok_bind]
  have : slice (List.replicate (ms.length * 2 + 2) 0) 0 (ms.length + ms.length - (ms.length - 1) + (ms.length + 2)) =
      (.ub .outOfBounds : Res (List Nat)) := by
    unfold slice
    rw [if_neg (by rw [List.length_replicate]; omega)]
  rw [this]
  rfl

end FastReducer

section fast
variable {ms : List Nat} {fr : FastReducer}

/-- Values below the modulus are left alone. -/
theorem reduceFast_id (hw : WordsOk ms) (hne : ms ≠ []) (htop : ms.getLast? ≠ some 0)
    (hfr : fr.Ok ms) {b : BitsBuffer} {x : Nat} (hb : Buf (ms.length + ms.length) b x) (hx : x < val ms) :
    b.reduceFast fr = .ok b := by
  have hlen1 : 1 ≤ ms.length := List.length_pos_iff.2 hne
  have hlt : x < 𝔹 ^ (ms.length + ms.length - 1) :=
    lt_of_lt_of_le (lt_trans hx (val_lt hw)) (Nat.pow_le_pow_right (by decide) (by omega))
  obtain ⟨n, e, k⟩ := FastReducer.reduce_spec hw hne htop hfr hb (.inr hlt)
  rw [Nat.mod_eq_of_lt hx] at k
  have : n = b.length := k.unique (by rw [hb.len, ← hb.value]; exact wlen_trimLen hb.words)
  unfold BitsBuffer.reduceFast
  rw [e, Res.ok_bind, this]

/-- Square-and-multiply while nothing reaches the modulus. -/
theorem powLoop_fast (hw : WordsOk ms) (hne : ms ≠ []) (htop : ms.getLast? ≠ some 0) (hfr : fr.Ok ms) (h2 : 1 < val ms)
    (p : Nat) {value result temp : BitsBuffer} {v r : Nat} (hv : Buf (ms.length + ms.length) value v)
    (hr : Buf (ms.length + ms.length) result r) (ht : temp.bits = List.replicate (ms.length + ms.length) 0)
    (hvm : v < 𝔹 ^ ms.length) (hrm : r < val ms) (h : v ≤ 1 ∨ (1 ≤ r ∧ r * v ^ p < val ms)) :
    ∃ b, powLoop (fun b => b.reduceFast fr) p value result temp = .ok b ∧ Buf (ms.length + ms.length) b (r * v ^ p) := by
  induction p using Nat.strongRecOn generalizing value result temp v r with
  | ind p ih =>
  have hmlt := val_lt hw
  rw [powLoop]
  by_cases h0 : p = 0
  · rw [dif_pos h0]; subst h0; exact ⟨result, rfl, by simpa using hr⟩
  rw [dif_neg h0]
  have hv0 : ∀ k, v ≤ 1 → v ^ k ≤ 1 := fun k h => npow_le_one h k
  have hrv : ∀ k, k ≤ p → r * v ^ k < val ms := by
    intro k hk
    rcases h with h | ⟨h, h'⟩
    · exact lt_of_le_of_lt (nmul_le_right (hv0 k h)) hrm
    · rcases Nat.eq_zero_or_pos v with hz | hz
      · subst hz
        rcases Nat.eq_zero_or_pos k with hk0 | hk0
        · subst hk0; simpa using hrm
        · rw [Nat.zero_pow hk0]; omega
      · exact lt_of_le_of_lt (Nat.mul_le_mul_left _ (Nat.pow_le_pow_right hz hk)) h'
  obtain ⟨b, t, e1, k1, k2⟩ : ∃ b t, (if p % 2 = 1 then (do
        let (r, t) ← result.multiplySelf value temp
        let r ← r.reduceFast fr
        .ok (r, t) : Res (BitsBuffer × BitsBuffer))
      else .ok (result, temp)) = .ok (b, t) ∧ Buf (ms.length + ms.length) b (r * v ^ (p % 2)) ∧
        t.bits = List.replicate (ms.length + ms.length) 0 := by
    rcases Nat.mod_two_eq_zero_or_one p with hp | hp
    · rw [if_neg (by omega), hp]; exact ⟨result, temp, rfl, by simpa using hr, ht⟩
    · rw [if_pos hp, hp, pow_one]
      have a1 := hr.len_le (lt_trans hrm hmlt)
      have a2 := hv.len_le hvm
      obtain ⟨b, t, e, k1, k2⟩ := BitsBuffer.multiplySelf_spec hr hv ht (by omega)
      have := hrv 1 (by omega)
      rw [pow_one] at this
      rw [e, Res.ok_bind]; dsimp only
      rw [reduceFast_id hw hne htop hfr k1 this, Res.ok_bind]
      exact ⟨b, t, rfl, k1, k2⟩
  rw [e1, Res.ok_bind]
  dsimp only
  by_cases hp1 : p = 1
  · rw [if_neg (by omega), Res.ok_bind]
    dsimp only
    subst hp1
    rw [powLoop, dif_pos (by rfl)]
    exact ⟨b, rfl, by simpa using k1⟩
  · rw [if_pos hp1]
    have a2 := hv.len_le hvm
    obtain ⟨c, t', e, k3, k4⟩ := BitsBuffer.squareSelf_spec hv k2 (by omega)
    have hvv : v * v < val ms := by
      rcases h with h | ⟨h, h'⟩
      · have : v * v ≤ 1 := by have := hv0 2 h; rwa [pow_two] at this
        omega
      · rcases Nat.eq_zero_or_pos v with hz | hz
        · subst hz; omega
        · have h3 : v ^ 2 ≤ v ^ p := Nat.pow_le_pow_right hz (by omega)
          have h4 : 1 * v ^ p ≤ r * v ^ p := Nat.mul_le_mul_right _ h
          rw [pow_two] at h3
          omega
    rw [e, Res.ok_bind]; dsimp only
    rw [reduceFast_id hw hne htop hfr k3 hvv, Res.ok_bind, Res.ok_bind]
    dsimp only
    have hsplit : r * v ^ (p % 2) * (v * v) ^ (p / 2) = r * v ^ p := by
      rw [pow_split v p]; ring
    obtain ⟨o, e5, k5⟩ := ih (p / 2) (by omega) k3 k1 k4 (lt_trans hvv hmlt) (hrv _ (Nat.mod_le _ _)) (by
      rcases h with h | ⟨h, h'⟩
      · left; have := hv0 2 h; rwa [pow_two] at this
      · rcases Nat.eq_zero_or_pos v with hz | hz
        · left; subst hz; omega
        · right
          refine ⟨Nat.one_le_iff_ne_zero.2 (Nat.mul_ne_zero (by omega) (pow_ne_zero _ (by omega))), ?_⟩
          rw [hsplit]; exact h')
    exact ⟨o, e5, by rwa [hsplit] at k5⟩

theorem powBits_fast (hw : WordsOk ms) (hne : ms ≠ []) (htop : ms.getLast? ≠ some 0) (hfr : fr.Ok ms) (h2 : 1 < val ms)
    (n : Nat) {p : Nat} {value result temp : BitsBuffer} {v r : Nat} (hv : Buf (ms.length + ms.length) value v)
    (hp : p < 2 ^ n)
    (hr : Buf (ms.length + ms.length) result r) (ht : temp.bits = List.replicate (ms.length + ms.length) 0)
    (hv1 : v ≤ 1) (hr1 : r ≤ 1) :
    ∃ value' result' temp', powBits (fun b => b.reduceFast fr) n p (value, result, temp) = .ok (value', result', temp') ∧
      Buf (ms.length + ms.length) value' v ∧ Buf (ms.length + ms.length) result' (r * v ^ p) ∧
      temp'.bits = List.replicate (ms.length + ms.length) 0 := by
  have hlen1 : 1 ≤ ms.length := List.length_pos_iff.2 hne
  have hvv : v * v = v := by interval_cases v <;> rfl
  have a2 : value.length ≤ 1 := hv.len_le (k := 1) (by omega)
  induction n generalizing p value result temp r with
  | zero =>
    have : p = 0 := by omega
    subst this
    exact ⟨value, result, temp, rfl, hv, by simpa using hr, ht⟩
  | succ n ih =>
    rw [powBits]
    have hle : ∀ k, r * v ^ k ≤ 1 := fun k => le_trans (nmul_le_right (npow_le_one hv1 k)) hr1
    obtain ⟨b, t, e1, k1, k2⟩ : ∃ b t, (if p % 2 = 1 then (do
          let (r, t) ← result.multiplySelf value temp
          let r ← r.reduceFast fr
          .ok (r, t) : Res (BitsBuffer × BitsBuffer))
        else .ok (result, temp)) = .ok (b, t) ∧ Buf (ms.length + ms.length) b (r * v ^ (p % 2)) ∧
          t.bits = List.replicate (ms.length + ms.length) 0 := by
      rcases Nat.mod_two_eq_zero_or_one p with hp | hp
      · rw [if_neg (by omega), hp]; exact ⟨result, temp, rfl, by simpa using hr, ht⟩
      · rw [if_pos hp, hp, pow_one]
        have a1 : result.length ≤ 1 := hr.len_le (k := 1) (by omega)
        obtain ⟨b, t, e, k1, k2⟩ := BitsBuffer.multiplySelf_spec hr hv ht (by omega)
        have := hle 1
        rw [pow_one] at this
        rw [e, Res.ok_bind]; dsimp only
        rw [reduceFast_id hw hne htop hfr k1 (by omega), Res.ok_bind]
        exact ⟨b, t, rfl, k1, k2⟩
    rw [e1, Res.ok_bind]
    dsimp only
    obtain ⟨c, t', e, k3, k4⟩ := BitsBuffer.squareSelf_spec hv k2 (by omega)
    rw [hvv] at k3
    rw [e, Res.ok_bind]; dsimp only
    rw [reduceFast_id hw hne htop hfr k3 (by omega), Res.ok_bind]
    obtain ⟨v', r', t'', e5, q1, q2, q3⟩ := ih (p := p / 2) k3 (by rw [Nat.pow_succ] at hp; omega) k1 k4 (hle _)
      (k3.len_le (k := 1) (by omega))
    refine ⟨v', r', t'', e5, q1, ?_, q3⟩
    have : r * v ^ p = r * v ^ (p % 2) * v ^ (p / 2) := by
      rw [pow_split v p, hvv]; ring
    rw [this]; exact q2

theorem powWords_fast (hw : WordsOk ms) (hne : ms ≠ []) (htop : ms.getLast? ≠ some 0) (hfr : fr.Ok ms) (h2 : 1 < val ms)
    {ps : List Nat} (hps : WordsOk ps) {value result temp : BitsBuffer} {v r : Nat} (hv : Buf (ms.length + ms.length) value v)
    (hr : Buf (ms.length + ms.length) result r) (ht : temp.bits = List.replicate (ms.length + ms.length) 0)
    (hv1 : v ≤ 1) (hr1 : r ≤ 1) :
    ∃ value' result' temp', powWords (fun b => b.reduceFast fr) ps (value, result, temp) = .ok (value', result', temp') ∧
      Buf (ms.length + ms.length) value' v ∧ Buf (ms.length + ms.length) result' (r * v ^ val ps) ∧
      temp'.bits = List.replicate (ms.length + ms.length) 0 := by
  induction ps generalizing value result temp r with
  | nil => exact ⟨value, result, temp, rfl, hv, by simpa using hr, ht⟩
  | cons p ps ih =>
    obtain ⟨hp, hps'⟩ := wordsOk_cons.1 hps
    obtain ⟨a, b, c, e, k1, k2, k3⟩ := powBits_fast hw hne htop hfr h2 32 (p := p) hv (by omega) hr ht hv1 hr1
    rw [powWords, e, Res.ok_bind]
    obtain ⟨a', b', c', e', q1, q2, q3⟩ := ih hps' k1 k2 k3
      (le_trans (nmul_le_right (npow_le_one hv1 p)) hr1)
    refine ⟨a', b', c', e', q1, ?_, q3⟩
    have hv32 : v ^ 4294967296 = v := by interval_cases v <;> simp
    rw [val_cons, pow_add, pow_mul, hv32, ← mul_assoc]
    exact q2

end fast

theorem powCoreMod_fast {value : BitsBuffer} {v : Nat} {ms : List Nat} (hw : WordsOk ms) (hne : ms ≠ [])
    (htop : ms.getLast? ≠ some 0) (h32 : 32 ≤ ms.length) (h2 : 1 < val ms) (hv : Buf (ms.length + ms.length) value v)
    (hl : ms.length + ms.length < 2147483647) (h1 : v < 𝔹 ^ ms.length) (p : Nat) (hp : v ^ p < val ms) :
    ∃ bits, powCoreMod p ms value = .ok bits ∧ bits.length = ms.length + ms.length ∧ WordsOk bits ∧
      val bits = v ^ p := by
  obtain ⟨t, e2, k2⟩ := BitsBuffer.ofWord_zero (N := ms.length + ms.length) (by omega)
  obtain ⟨r, e3, k3⟩ := BitsBuffer.ofWord_spec (N := ms.length + ms.length) (w := 1) (by omega) (by decide)
  obtain ⟨fr, e5, k5⟩ := FastReducer.make_spec hw hne htop hl
  obtain ⟨o, e4, k4⟩ := powLoop_fast hw hne htop k5 h2 p hv k3 k2 h1 h2 (.inr ⟨le_refl _, by rwa [one_mul]⟩)
  refine ⟨o.bits, ?_, k4.size, k4.words, by rw [k4.value, one_mul]⟩
  unfold powCoreMod
  dsimp only
  rw [hv.size, e2, Res.ok_bind, e3, Res.ok_bind, if_neg (show ¬ ms.length < ReducerThreshold from by unfold ReducerThreshold; omega),
    e5, Res.ok_bind, e4, Res.ok_bind]

theorem powCoreModWords_fast {value : BitsBuffer} {v : Nat} {ms ps : List Nat} (hw : WordsOk ms) (hne : ms ≠ [])
    (htop : ms.getLast? ≠ some 0) (h32 : 32 ≤ ms.length) (h2 : 1 < val ms) (hv : Buf (ms.length + ms.length) value v)
    (hl : ms.length + ms.length < 2147483647) (hp : WordsOk ps) (hpn : ps ≠ []) (hv1 : v ≤ 1) :
    ∃ bits, powCoreModWords ps ms value = .ok bits ∧ bits.length = ms.length + ms.length ∧ WordsOk bits ∧
      val bits = v ^ val ps := by
  obtain ⟨t, e2, k2⟩ := BitsBuffer.ofWord_zero (N := ms.length + ms.length) (by omega)
  obtain ⟨r, e3, k3⟩ := BitsBuffer.ofWord_spec (N := ms.length + ms.length) (w := 1) (by omega) (by decide)
  obtain ⟨fr, e5, k5⟩ := FastReducer.make_spec hw hne htop hl
  obtain ⟨l, q, rfl⟩ : ∃ l q, ps = l ++ [q] := by
    rcases List.eq_nil_or_concat ps with h | ⟨l, q, h⟩
    · exact absurd h hpn
    · exact ⟨l, q, by rw [h, List.concat_eq_append]⟩
  obtain ⟨a, b, c, e6, d1, d2, d3⟩ := powWords_fast hw hne htop k5 h2 hp hv k3 k2 hv1 (le_refl _)
  rw [one_mul] at d2
  have hle : v ^ val (l ++ [q]) ≤ 1 := npow_le_one hv1 _
  obtain ⟨o, e4, k4⟩ := powLoop_fast hw hne htop k5 h2 q d1 d2 d3 (lt_of_le_of_lt hv1 (Nat.one_lt_pow (by omega) (by decide)))
    (by omega) (.inl hv1)
  have hfin : v ^ val (l ++ [q]) * v ^ q = v ^ val (l ++ [q]) := by
    rcases Nat.lt_or_ge v 1 with h | h
    · have : v = 0 := by omega
      subst this
      rcases Nat.eq_zero_or_pos q with hq | hq
      · subst hq; simp
      · rw [Nat.zero_pow hq, mul_zero, Nat.zero_pow]
        rw [val_append, val_singleton]
        have : 0 < 𝔹 ^ l.length * q := Nat.mul_pos (by positivity) hq
        omega
    · have : v = 1 := by omega
      subst this; simp
  refine ⟨o.bits, ?_, k4.size, k4.words, by rw [k4.value, hfin]⟩
  unfold powCoreModWords
  dsimp only
  have hidx : idx (l ++ [q]) ((l ++ [q]).length - 1) = .ok q := by
    rw [idx_getD (by simp)]
    simp
  rw [hv.size, e2, Res.ok_bind, e3, Res.ok_bind, hidx, Res.ok_bind,
    if_neg (show ¬ ms.length < ReducerThreshold from by unfold ReducerThreshold; omega),
    e5, Res.ok_bind, e6, Res.ok_bind]
  dsimp only
  rw [e4, Res.ok_bind]

/-- Exponent 1: the value comes back unreduced. -/
theorem powCoreMod_one {value : BitsBuffer} {v : Nat} {ms : List Nat} (hw : WordsOk ms) (hne : ms ≠ [])
    (htop : ms.getLast? ≠ some 0) (h32 : 32 ≤ ms.length) (hv : Buf (ms.length + ms.length) value v)
    (hl : ms.length + ms.length < 2147483647) (h1 : v < 𝔹 ^ ms.length) :
    ∃ bits, powCoreMod 1 ms value = .ok bits ∧ bits.length = ms.length + ms.length ∧ WordsOk bits ∧
      val bits = v := by
  obtain ⟨t, e2, k2⟩ := BitsBuffer.ofWord_zero (N := ms.length + ms.length) (by omega)
  obtain ⟨r, e3, k3⟩ := BitsBuffer.ofWord_spec (N := ms.length + ms.length) (w := 1) (by omega) (by decide)
  obtain ⟨fr, e5, k5⟩ := FastReducer.make_spec hw hne htop hl
  have a1 : r.length ≤ 1 := k3.len_le (k := 1) (by decide)
  have a2 := hv.len_le h1
  obtain ⟨b, t', e6, d1, d2⟩ := BitsBuffer.multiplySelf_spec k3 hv k2 (by omega)
  rw [one_mul] at d1
  obtain ⟨n, e7, -⟩ := FastReducer.reduce_spec hw hne htop k5 d1
    (.inr (lt_of_lt_of_le h1 (Nat.pow_le_pow_right (by decide) (by omega))))
  refine ⟨b.bits, ?_, d1.size, d1.words, d1.value⟩
  unfold powCoreMod
  dsimp only
  rw [hv.size, e2, Res.ok_bind, e3, Res.ok_bind, if_neg (show ¬ ms.length < ReducerThreshold from by unfold ReducerThreshold; omega),
    e5, Res.ok_bind, powLoop, dif_neg (by decide), if_pos (by rfl), e6, Res.ok_bind]
  dsimp only
  unfold BitsBuffer.reduceFast
  rw [e7, Res.ok_bind, Res.ok_bind, Res.ok_bind]
  dsimp only
  rw [if_neg (show ¬ (1 ≠ 1) by decide), Res.ok_bind]
  dsimp only
  rw [powLoop, dif_pos (by rfl), Res.ok_bind]

theorem multiplySelf_dirty {N : Nat} {self value temp : BitsBuffer} {x : Nat} (hs : Buf N self x)
    (h1 : value.bits.length = N) (h2 : WordsOk value.bits)
    (ht : temp.bits = List.replicate N 0) (hl : self.length + value.length ≤ N) :
    ∃ r t, self.multiplySelf value temp = .ok (r, t) ∧ Buf N r (x * val (value.bits.take value.length)) ∧
      t.bits = List.replicate N 0 := by
  have hvl : value.length ≤ value.bits.length := by omega
  have hlt : x * val (value.bits.take value.length) < 𝔹 ^ (self.length + value.length) := by
    rw [Nat.pow_add]
    have := val_lt (h2.take value.length)
    rw [List.length_take_of_le hvl] at this
    exact Nat.mul_lt_mul'' hs.lt_len this
  have hsl : self.length ≤ self.bits.length := by rw [hs.size]; omega
  have key : ∃ o, (if self.length < value.length then
      BitsBuffer.multiplyMem value.bits value.length self.bits self.length temp.bits (self.length + value.length)
    else
      BitsBuffer.multiplyMem self.bits self.length value.bits value.length temp.bits (self.length + value.length)) = .ok o ∧
      o.length = N ∧ WordsOk o ∧ val o = x * val (value.bits.take value.length) := by
    rw [ht]
    by_cases h : self.length < value.length
    · rw [if_pos h, Nat.add_comm self.length]
      obtain ⟨o, e, k1, k2, k3⟩ := BitsBuffer.multiplyMem_spec (nl := value.length) (nr := self.length) h2 hs.words hvl hsl
        (le_of_lt h) (N := N) (by omega)
      exact ⟨o, e, k1, k2, by rw [k3, hs.val_take, Nat.mul_comm]⟩
    · rw [if_neg h]
      obtain ⟨o, e, k1, k2, k3⟩ := BitsBuffer.multiplyMem_spec (nl := self.length) (nr := value.length) hs.words h2 hsl hvl
        (by omega) (N := N) (by omega)
      exact ⟨o, e, k1, k2, by rw [k3, hs.val_take]⟩
  obtain ⟨o, e, k1, k2, k3⟩ := key
  unfold BitsBuffer.multiplySelf
  rw [e, Res.ok_bind]
  exact BitsBuffer.apply_spec hs k1 k2 k3 hlt hl

/-- Exponent 2: the square cut off at the word count of the remainder. -/
theorem powCoreMod_two {value : BitsBuffer} {v : Nat} {ms : List Nat} (hw : WordsOk ms) (hne : ms ≠ [])
    (htop : ms.getLast? ≠ some 0) (h32 : 32 ≤ ms.length) (hv : Buf (ms.length + ms.length) value v)
    (hl : ms.length + ms.length < 2147483647) (h1 : v < 𝔹 ^ ms.length)
    (hc : val ms ≠ 𝔹 ^ (ms.length - 1) ∨ v * v < 𝔹 ^ (ms.length + ms.length - 1)) {k : Nat} (hk : WLen k (v * v % val ms)) :
    ∃ bits, powCoreMod 2 ms value = .ok bits ∧ bits.length = ms.length + ms.length ∧ WordsOk bits ∧
      val bits = v * v % 𝔹 ^ k := by
  obtain ⟨t, e2, k2⟩ := BitsBuffer.ofWord_zero (N := ms.length + ms.length) (by omega)
  obtain ⟨r, e3, k3⟩ := BitsBuffer.ofWord_spec (N := ms.length + ms.length) (w := 1) (by omega) (by decide)
  obtain ⟨fr, e5, k5⟩ := FastReducer.make_spec hw hne htop hl
  have a1 : r.length ≤ 1 := k3.len_le (k := 1) (by decide)
  have a2 := hv.len_le h1
  have hm : 0 < val ms := lt_of_lt_of_le (by positivity) (val_ge_of_top hne htop)
  obtain ⟨b, t', e6, d1, d2⟩ := BitsBuffer.squareSelf_spec hv k2 (by omega)
  obtain ⟨n, e7, hn⟩ := FastReducer.reduce_spec hw hne htop k5 d1 hc
  obtain rfl := hk.unique hn
  have hkl : k ≤ ms.length := by
    by_contra hcon
    rcases hk.2 with h | h
    · omega
    · have h3 := Nat.mod_lt (v * v) hm
      have h4 := val_lt hw
      have h5 : 𝔹 ^ ms.length ≤ 𝔹 ^ (k - 1) := Nat.pow_le_pow_right (by decide) (by omega)
      omega
  obtain ⟨o, t'', e8, c1, c2⟩ := multiplySelf_dirty (value := ⟨b.bits, k⟩) k3 d1.size d1.words d2 (by dsimp only; omega)
  dsimp only at c1
  rw [one_mul, val_take_eq_mod d1.words (by rw [d1.size]; omega), d1.value] at c1
  obtain ⟨n', e9, -⟩ := FastReducer.reduce_spec hw hne htop k5 c1
    (.inr (lt_of_lt_of_le (Nat.mod_lt _ (by positivity)) (Nat.pow_le_pow_right (by decide) (by omega))))
  refine ⟨o.bits, ?_, c1.size, c1.words, c1.value⟩
  unfold powCoreMod
  dsimp only
  rw [hv.size, e2, Res.ok_bind, e3, Res.ok_bind, if_neg (show ¬ ms.length < ReducerThreshold from by unfold ReducerThreshold; omega),
    e5, Res.ok_bind, powLoop, dif_neg (by decide), if_neg (show ¬ (2 % 2 = 1) by decide), Res.ok_bind]
  dsimp only
  rw [if_pos (show (2 ≠ 1) by decide), e6, Res.ok_bind]
  dsimp only
  have er : b.reduceFast fr = .ok ⟨b.bits, k⟩ := by unfold BitsBuffer.reduceFast; rw [e7, Res.ok_bind]
  have er2 : o.reduceFast fr = .ok ⟨o.bits, n'⟩ := by unfold BitsBuffer.reduceFast; rw [e9, Res.ok_bind]
  rw [er, Res.ok_bind, Res.ok_bind]
  dsimp only
  rw [show 2 / 2 = 1 from rfl, powLoop, dif_neg (by decide), if_pos (by rfl), e8, Res.ok_bind]
  dsimp only
  rw [er2, Res.ok_bind, Res.ok_bind]
  dsimp only
  rw [if_neg (show ¬ (1 ≠ 1) by decide), Res.ok_bind]
  dsimp only
  rw [powLoop, dif_pos (by rfl), Res.ok_bind]

/-- Exponent 2 against a power of `2^32`: past the end of a scratch buffer. -/
theorem powCoreMod_two_overrun {value : BitsBuffer} {v : Nat} {ms : List Nat} (hw : WordsOk ms) (hne : ms ≠ [])
    (htop : ms.getLast? ≠ some 0) (h32 : 32 ≤ ms.length) (hv : Buf (ms.length + ms.length) value v)
    (hl : ms.length + ms.length < 2147483647) (h1 : v < 𝔹 ^ ms.length)
    (hc : val ms = 𝔹 ^ (ms.length - 1)) (hx : 𝔹 ^ (ms.length + ms.length - 1) ≤ v * v) :
    powCoreMod 2 ms value = .ub .outOfBounds := by
  obtain ⟨t, e2, k2⟩ := BitsBuffer.ofWord_zero (N := ms.length + ms.length) (by omega)
  obtain ⟨r, e3, k3⟩ := BitsBuffer.ofWord_spec (N := ms.length + ms.length) (w := 1) (by omega) (by decide)
  obtain ⟨fr, e5, k5⟩ := FastReducer.make_spec hw hne htop hl
  have a2 := hv.len_le h1
  obtain ⟨b, t', e6, d1, d2⟩ := BitsBuffer.squareSelf_spec hv k2 (by omega)
  have e7 := FastReducer.reduce_overrun hne k5 d1 hc hx
  unfold powCoreMod
  dsimp only
  rw [hv.size, e2, Res.ok_bind, e3, Res.ok_bind, if_neg (show ¬ ms.length < ReducerThreshold from by unfold ReducerThreshold; omega),
    e5, Res.ok_bind, powLoop, dif_neg (by decide), if_neg (show ¬ (2 % 2 = 1) by decide), Res.ok_bind]
  dsimp only
  rw [if_pos (show (2 ≠ 1) by decide), e6, Res.ok_bind]
  dsimp only
  have er : b.reduceFast fr = .ub .outOfBounds := by unfold BitsBuffer.reduceFast; rw [e7]; rfl
  rw [er]
  rfl

end BigIntegerCpp
