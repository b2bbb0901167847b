import Verif.Lemmas.GcdActual
/-
How long the runs of `gcdRun` that end are.
-/
set_option linter.unusedSectionVars false
namespace BigIntegerCpp

/-- One round of `gcdRun`. -/
def gcdNext (debug : Bool) (x xs y ys : Nat) : GcdEnd ⊕ (Nat × Nat × Nat × Nat) :=
  if y < 2 ^ 64 then .inl (.answer (Nat.gcd x y + xs))
  else if wordCount x < wordCount y then
    if debug then .inl .assertion
    else if x < 2 ^ 64 then .inl .outOfBounds
    else .inr (y, ys, x, xs)
  else if debug ∧ x / 2 ^ (Nat.log2 x - 62) < y / 2 ^ (Nat.log2 x - 62) % 2 ^ 63 then .inl .assertion
  else if (lehmerQuotients (x / 2 ^ (Nat.log2 x - 62)) (y / 2 ^ (Nat.log2 x - 62) % 2 ^ 63) 1 0 0 1 0).1 = 0 then .inr (y, ys, x % y, xs)
  else if (lehmerQuotients (x / 2 ^ (Nat.log2 x - 62)) (y / 2 ^ (Nat.log2 x - 62) % 2 ^ 63) 1 0 0 1 0).2 % 2 = 1 then
    .inr (y, ys, lehmerCut x (wordCount y), xs + x / 2 ^ (32 * wordCount y) * 2 ^ (32 * wordCount y))
  else .inr (lehmerCut x (wordCount y), xs + x / 2 ^ (32 * wordCount y) * 2 ^ (32 * wordCount y), y, ys)

theorem gcdRun_succ (d : Bool) (k x xs y ys : Nat) : gcdRun d (k + 1) x xs y ys =
    match gcdNext d x xs y ys with
    | .inl e => some e
    | .inr (x, xs, y, ys) => gcdRun d k x xs y ys := by
  rw [gcdRun, gcdNext]
  dsimp only
  by_cases h1 : y < 2 ^ 64
  · rw [if_pos h1, if_pos h1]
  rw [if_neg h1, if_neg h1]
  by_cases h2 : wordCount x < wordCount y
  · rw [if_pos h2, if_pos h2]
    by_cases h3 : d = true
    · rw [if_pos h3, if_pos h3]
    rw [if_neg h3, if_neg h3]
    by_cases h4 : x < 2 ^ 64
    · rw [if_pos h4, if_pos h4]
    · rw [if_neg h4, if_neg h4]
  rw [if_neg h2, if_neg h2]
  generalize x / 2 ^ (Nat.log2 x - 62) = u
  generalize y / 2 ^ (Nat.log2 x - 62) % 2 ^ 63 = v
  by_cases h3 : d = true ∧ u < v
  · rw [if_pos h3, if_pos h3]
  rw [if_neg h3, if_neg h3]
  generalize lehmerQuotients u v 1 0 0 1 0 = g
  by_cases h4 : g.1 = 0
  · rw [if_pos h4, if_pos h4]
  rw [if_neg h4, if_neg h4]
  by_cases h5 : g.2 % 2 = 1
  · rw [if_pos h5, if_pos h5]
  · rw [if_neg h5, if_neg h5]

theorem gcdRun_mono {d : Bool} {k x xs y ys : Nat} {e : GcdEnd} (h : gcdRun d k x xs y ys = some e) {n : Nat} (hn : k ≤ n) :
    gcdRun d n x xs y ys = some e := by
  induction k generalizing n x xs y ys with
  | zero => rw [gcdRun] at h; cases h
  | succ k ih =>
    obtain ⟨m, rfl⟩ : ∃ m, n = m + 1 := ⟨n - 1, by omega⟩
    rw [gcdRun_succ] at h ⊢
    rcases hq : gcdNext d x xs y ys with e' | ⟨x', xs', y', ys'⟩ <;> rw [hq] at h
    · exact h
    · exact ih h (by omega)

/-- If the run ends at all, it does so within `k` rounds. -/
def Within (d : Bool) (k x xs y ys : Nat) : Prop := ∀ n e, gcdRun d n x xs y ys = some e → gcdRun d k x xs y ys = some e

theorem Within.inl {d : Bool} {x xs y ys : Nat} {e : GcdEnd} (h : gcdNext d x xs y ys = .inl e) (k : Nat) : Within d (k + 1) x xs y ys := by
  intro n e' hn
  cases n with
  | zero => rw [gcdRun] at hn; cases hn
  | succ n => rw [gcdRun_succ, h] at hn ⊢; exact hn

theorem Within.inr {d : Bool} {x xs y ys x' xs' y' ys' k : Nat} (h : gcdNext d x xs y ys = .inr (x', xs', y', ys'))
    (hk : Within d k x' xs' y' ys') : Within d (k + 1) x xs y ys := by
  intro n e' hn
  cases n with
  | zero => rw [gcdRun] at hn; cases hn
  | succ n => rw [gcdRun_succ, h] at hn ⊢; exact hk n e' hn

theorem Within.mono {d : Bool} {k k' x xs y ys : Nat} (h : Within d k x xs y ys) (hk : k ≤ k') : Within d k' x xs y ys :=
  fun n e hn => gcdRun_mono (h n e hn) hk

/-- A round that changes nothing. -/
theorem Within.self {d : Bool} {x xs y ys : Nat} (h : gcdNext d x xs y ys = .inr (x, xs, y, ys)) (k : Nat) : Within d k x xs y ys := by
  intro n e hn
  exfalso
  induction n with
  | zero => rw [gcdRun] at hn; cases hn
  | succ n ih => rw [gcdRun_succ, h] at hn; exact ih hn

/-- Two rounds that swap the numbers and swap them back. -/
theorem Within.swap {d : Bool} {x xs y ys : Nat} (h : gcdNext d x xs y ys = .inr (y, ys, x, xs))
    (h' : gcdNext d y ys x xs = .inr (x, xs, y, ys)) (k : Nat) : Within d k x xs y ys := by
  intro n e hn
  exfalso
  induction n using Nat.strongRecOn with
  | ind n ih =>
  match n with
  | 0 => rw [gcdRun] at hn; cases hn
  | 1 => rw [gcdRun_succ, h] at hn; dsimp only at hn; rw [gcdRun] at hn; cases hn
  | n + 2 =>
    rw [gcdRun_succ, h] at hn
    dsimp only at hn
    rw [gcdRun_succ, h'] at hn
    exact ih n (by omega) hn

theorem wordCount_mono {x y : Nat} (h : x ≤ y) : wordCount x ≤ wordCount y := by
  unfold wordCount
  rcases Nat.eq_zero_or_pos x with rfl | hx
  · simp
  · have : Nat.log2 x ≤ Nat.log2 y := (Nat.le_log2 (by omega)).2 (le_trans (Nat.log2_self_le (by omega)) h)
    omega

theorem lt_wordCount (x : Nat) : x < 2 ^ (32 * wordCount x) := by
  refine lt_of_lt_of_le Nat.lt_log2_self (Nat.pow_le_pow_right (by decide) ?_)
  unfold wordCount
  omega

theorem wordCount_le_of_lt {x n : Nat} (h1 : 1 ≤ n) (h : x < 2 ^ (32 * n)) : wordCount x ≤ n := by
  unfold wordCount
  rcases Nat.eq_zero_or_pos x with rfl | hx
  · simp; omega
  · have : Nat.log2 x < 32 * n := (Nat.log2_lt (by omega)).2 h
    omega

theorem lehmerCut_same (x : Nat) {n : Nat} (h : wordCount x ≤ n) : lehmerCut x n = x := by
  unfold lehmerCut
  dsimp only
  rw [if_pos (by omega)]

theorem junk_same {x n : Nat} (j : Nat) (h : wordCount x ≤ n) : j + x / 2 ^ (32 * n) * 2 ^ (32 * n) = j := by
  rw [Nat.div_eq_of_lt (lt_of_lt_of_le (lt_wordCount x) (Nat.pow_le_pow_right (by decide) (by omega)))]; omega

theorem lehmerCut_lt {x n : Nat} (h1 : n < wordCount x) (h2 : wordCount x - n ≤ n) (hn : n < 2 ^ 32) : lehmerCut x n < 2 ^ (32 * n) := by
  unfold lehmerCut
  dsimp only
  rw [if_neg (by omega)]
  generalize hk : wordCount x - n = k at *
  have e : (2 : Nat) ^ (32 * n) = 2 ^ (32 * (n - k)) * 2 ^ (32 * k) := by rw [← pow_add]; congr 1; omega
  have a1 : x % 2 ^ (32 * n) / 2 ^ (32 * k) < 2 ^ (32 * (n - k)) := by
    rw [Nat.div_lt_iff_lt_mul (by positivity), ← e]
    exact Nat.mod_lt _ (by positivity)
  have a2 : n * ((2 ^ (32 * k) - 1) / (2 ^ 32 - 1)) ≤ 2 ^ (32 * k) - 1 :=
    le_trans (Nat.mul_le_mul_right _ (by omega : n ≤ 2 ^ 32 - 1)) (Nat.mul_div_le _ _)
  have a3 : 0 < 2 ^ (32 * k) := by positivity
  refine lt_of_lt_of_eq ?_ e.symm
  calc _ ≤ x % 2 ^ (32 * n) / 2 ^ (32 * k) * 2 ^ (32 * k) + (2 ^ (32 * k) - 1) := Nat.add_le_add_left a2 _
    _ < (x % 2 ^ (32 * n) / 2 ^ (32 * k) + 1) * 2 ^ (32 * k) := by rw [Nat.add_mul, one_mul]; omega
    _ ≤ _ := Nat.mul_le_mul_right _ a1

/-- The rounds on two numbers of the same number of words. -/
theorem gcdNext_same {d : Bool} {x xs y ys : Nat} (hw : wordCount x = wordCount y) (hy : 2 ^ 64 ≤ y) :
    gcdNext d x xs y ys = .inl .assertion ∨ gcdNext d x xs y ys = .inr (y, ys, x % y, xs) ∨
    (gcdNext d x xs y ys = .inr (y, ys, x, xs) ∨ gcdNext d x xs y ys = .inr (x, xs, y, ys)) := by
  unfold gcdNext
  rw [if_neg (by omega), if_neg (by omega), lehmerCut_same x (by omega), junk_same xs (by omega)]
  split_ifs <;> simp

/-- A Lehmer round on two numbers of the same number of words: it ends within three rounds or not at all. -/
theorem within_same {d : Bool} {x xs y ys : Nat} (hw : wordCount x = wordCount y) (hy : 2 ^ 64 ≤ y) (hle : y ≤ x)
    (h : gcdNext d x xs y ys = .inr (y, ys, x, xs) ∨ gcdNext d x xs y ys = .inr (x, xs, y, ys)) : Within d 3 x xs y ys := by
  rcases h with h | h
  · rcases gcdNext_same (d := d) (x := y) (xs := ys) (y := x) (ys := xs) hw.symm (by omega) with h' | h' | h' | h'
    · exact .inr h (.inl h' 1)
    · rcases Nat.eq_or_lt_of_le hle with e | hlt
      · subst e
        rw [Nat.mod_self] at h'
        exact .inr h (.inr h' (.inl (if_pos (by decide)) 0))
      · rw [Nat.mod_eq_of_lt hlt] at h'
        exact .swap h h' 3
    · exact .swap h h' 3
    · exact .inr h (.self h' 2)
  · exact .self h 3

theorem log2_lt_of {x n : Nat} (h0 : 1 ≤ n) (h : x < 2 ^ n) : Nat.log2 x < n := by
  rcases Nat.eq_zero_or_pos x with rfl | hx
  · rw [Nat.log2_zero]; exact h0
  · exact (Nat.log2_lt (by omega)).2 h

theorem within_bound (d : Bool) {W : Nat} (hW : W < 2 ^ 32) (μ : Nat) : ∀ {x xs y ys : Nat}, wordCount x ≤ W → wordCount y ≤ W →
    2 * (Nat.log2 x + Nat.log2 y) + (if y ≤ x then 0 else 1) = μ → Within d (μ + 3) x xs y ys := by
  induction μ using Nat.strongRecOn with
  | ind μ ih =>
  intro x xs y ys hx hy hμ
  by_cases h0 : y < 2 ^ 64
  · exact .inl (if_pos h0) _
  have ly : 64 ≤ Nat.log2 y := (Nat.le_log2 (by omega)).2 (by omega)
  by_cases hle : y ≤ x
  · rw [if_pos hle] at hμ
    have lx : 64 ≤ Nat.log2 x := (Nat.le_log2 (by omega)).2 (by omega)
    have hwc := wordCount_mono hle
    have hmod : x % y < y := Nat.mod_lt _ (by omega)
    have hE : ∀ k, 2 * (Nat.log2 x + Nat.log2 y) ≤ k + 1 → Within d (k + 3) y ys (x % y) xs := by
      intro k hk
      have h2 : 2 * (x % y) < x := by
        have := Nat.div_add_mod x y
        have hq : 1 ≤ x / y := (Nat.one_le_div_iff (by omega)).2 hle
        have : y * 1 ≤ y * (x / y) := Nat.mul_le_mul_left _ hq
        omega
      have hl : Nat.log2 (x % y) + 1 ≤ Nat.log2 x := by
        refine log2_lt_of (by omega) ?_
        have := Nat.lt_log2_self (n := x)
        rw [pow_succ] at this
        omega
      have hm : wordCount (x % y) ≤ W := le_trans (wordCount_mono (le_of_lt hmod)) hy
      exact (ih _ (by rw [if_pos (le_of_lt hmod)]; omega) hy hm rfl).mono (by rw [if_pos (le_of_lt hmod)]; omega)
    rcases hn : gcdNext d x xs y ys with e | ⟨x', xs', y', ys'⟩
    · exact .inl hn _
    unfold gcdNext at hn
    rw [if_neg h0, if_neg (by omega)] at hn
    by_cases h1 : d = true ∧ x / 2 ^ (Nat.log2 x - 62) < y / 2 ^ (Nat.log2 x - 62) % 2 ^ 63
    · rw [if_pos h1] at hn; cases hn
    rw [if_neg h1] at hn
    by_cases h2 : (lehmerQuotients (x / 2 ^ (Nat.log2 x - 62)) (y / 2 ^ (Nat.log2 x - 62) % 2 ^ 63) 1 0 0 1 0).1 = 0
    · rw [if_pos h2] at hn
      refine .inr (show gcdNext d x xs y ys = .inr (y, ys, x % y, xs) from ?_) (hE (μ - 1) (by omega) |>.mono (by omega))
      unfold gcdNext
      rw [if_neg h0, if_neg (by omega), if_neg h1, if_pos h2]
    rw [if_neg h2] at hn
    by_cases hs : wordCount x = wordCount y
    · refine (within_same hs (by omega) hle ?_).mono (by omega)
      unfold gcdNext
      rw [if_neg h0, if_neg (by omega), if_neg h1, if_neg h2, lehmerCut_same x (by omega), junk_same xs (by omega)]
      split_ifs <;> simp
    · have hv : y / 2 ^ (Nat.log2 x - 62) % 2 ^ 63 ≠ 0 := by
        intro hv
        rw [hv, lehmerQuotients_zero] at h2
        exact h2 rfl
      have hw2 := lehmer_words (by omega) hv
      have hwy : 3 ≤ wordCount y := by unfold wordCount; omega
      have hcut := lehmerCut_lt (x := x) (n := wordCount y) (by omega) (by omega) (by omega)
      have hcw := wordCount_le_of_lt (by omega) hcut
      have hcl : Nat.log2 (lehmerCut x (wordCount y)) + 1 ≤ Nat.log2 x := by
        have := log2_lt_of (by omega) hcut
        have : wordCount y + 1 ≤ wordCount x := by omega
        unfold wordCount at *
        omega
      by_cases h3 : (lehmerQuotients (x / 2 ^ (Nat.log2 x - 62)) (y / 2 ^ (Nat.log2 x - 62) % 2 ^ 63) 1 0 0 1 0).2 % 2 = 1
      · rw [if_pos h3] at hn
        have hk := ih _ (show 2 * (Nat.log2 y + Nat.log2 (lehmerCut x (wordCount y))) +
          (if lehmerCut x (wordCount y) ≤ y then 0 else 1) < μ by split_ifs <;> omega) (xs := ys)
          (ys := xs + x / 2 ^ (32 * wordCount y) * 2 ^ (32 * wordCount y)) hy (by omega) rfl
        refine (Within.inr ?_ hk).mono (by split_ifs <;> omega)
        unfold gcdNext
        rw [if_neg h0, if_neg (by omega), if_neg h1, if_neg h2, if_pos h3]
      · rw [if_neg h3] at hn
        have hk := ih _ (show 2 * (Nat.log2 (lehmerCut x (wordCount y)) + Nat.log2 y) +
          (if y ≤ lehmerCut x (wordCount y) then 0 else 1) < μ by split_ifs <;> omega) (ys := ys)
          (xs := xs + x / 2 ^ (32 * wordCount y) * 2 ^ (32 * wordCount y)) (by omega) hy rfl
        refine (Within.inr ?_ hk).mono (by split_ifs <;> omega)
        unfold gcdNext
        rw [if_neg h0, if_neg (by omega), if_neg h1, if_neg h2, if_neg h3]
  · rw [if_neg hle] at hμ
    have hwc := wordCount_mono (show x ≤ y by omega)
    have hsw : Within d (μ - 1 + 3) y ys x xs := by
      refine (ih (μ - 1) (by omega) hy hx ?_)
      rw [if_pos (by omega)]; omega
    by_cases hs : wordCount x = wordCount y
    · rcases gcdNext_same (d := d) (xs := xs) (ys := ys) hs (by omega) with h | h | h | h
      · exact .inl h _
      · rw [Nat.mod_eq_of_lt (by omega)] at h
        exact (Within.inr h hsw).mono (by omega)
      · exact (Within.inr h hsw).mono (by omega)
      · exact .self h _
    · have hn : gcdNext d x xs y ys = if d = true then .inl .assertion else if x < 2 ^ 64 then .inl .outOfBounds else .inr (y, ys, x, xs) := by
        unfold gcdNext
        rw [if_neg h0, if_pos (by omega)]
      by_cases hd : d = true
      · rw [if_pos hd] at hn; exact .inl hn _
      rw [if_neg hd] at hn
      by_cases hx64 : x < 2 ^ 64
      · rw [if_pos hx64] at hn; exact .inl hn _
      · rw [if_neg hx64] at hn; exact (Within.inr hn hsw).mono (by omega)

/-- The end of a run from two numbers in order. -/
theorem gcdRun_within (d : Bool) {x y : Nat} (hle : y ≤ x) (hx : wordCount x < 2 ^ 32) {n : Nat} {e : GcdEnd} {xs ys : Nat}
    (h : gcdRun d n x xs y ys = some e) : gcdRun d (2 * (Nat.log2 x + Nat.log2 y) + 3) x xs y ys = some e :=
  within_bound d hx _ (le_refl _) (wordCount_mono hle) (by rw [if_pos hle]; rfl) n e h

/-! ### two facts about the ends -/

theorem gcdRun_pos {d : Bool} {n x xs y ys g : Nat} (h0 : 0 < x ∨ 0 < y) (h : gcdRun d n x xs y ys = some (.answer g)) : 0 < g := by
  induction n generalizing x xs y ys with
  | zero => rw [gcdRun] at h; cases h
  | succ n ih =>
    rw [gcdRun_succ] at h
    unfold gcdNext at h
    by_cases h1 : y < 2 ^ 64
    · rw [if_pos h1] at h
      have e : Nat.gcd x y + xs = g := by simpa using h
      have : 0 < Nat.gcd x y := Nat.gcd_pos_iff.2 h0
      omega
    rw [if_neg h1] at h
    split_ifs at h
    all_goals first
      | exact ih (.inl (by omega)) h
      | exact ih (.inr (by omega)) h
      | cases h

theorem gcdRun_debug {n x xs y ys : Nat} : gcdRun true n x xs y ys ≠ some .outOfBounds := by
  induction n generalizing x xs y ys with
  | zero => rw [gcdRun]; exact nofun
  | succ n ih =>
    intro h
    rw [gcdRun_succ] at h
    unfold gcdNext at h
    split_ifs at h
    all_goals first
      | exact ih h
      | exact absurd rfl ‹¬ true = true›
      | cases h

end BigIntegerCpp
