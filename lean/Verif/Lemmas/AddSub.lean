import Verif.Lemmas.Basic
/-
Correctness of Model/AddSub.lean on word lists.
-/
namespace BigIntegerCpp
set_option linter.unusedSectionVars false
variable [Cfg]

theorem carryLoop_spec {xs : List Nat} (hx : WordsOk xs) {c : Int}
    (h1 : -17179869184 ≤ c) (h2 : c ≤ 17179869184) :
    ∃ r c', carryLoop xs c = .ok (r, c') ∧ r.length = xs.length ∧ WordsOk r ∧
      (val r : Int) + (𝔹 ^ xs.length : Nat) * c' = val xs + c := by
  induction xs generalizing c with
  | nil => exact ⟨[], c, rfl, rfl, wordsOk_nil, by simp⟩
  | cons x xs ih =>
    rw [wordsOk_cons] at hx
    obtain ⟨hx0, hxs⟩ := hx
    obtain ⟨r, c', he, hl, hr, hv⟩ := ih hxs (c := ((x : Int) + c) / 4294967296) (by omega) (by omega)
    refine ⟨u32i ((x : Int) + c) :: r, c', ?_, by simp [hl], ?_, ?_⟩
    · simp only [carryLoop]
      rw [long_ok (by omega) (by omega)]
      simp [he]
    · exact wordsOk_cons.2 ⟨u32i_lt _, hr⟩
    · have := u32i_add_div ((x : Int) + c)
      simp only [val_cons, List.length_cons, pow_succ]
      push_cast at hv ⊢
      linear_combination this + 4294967296 * hv

theorem carrySelf_spec {xs : List Nat} (hx : WordsOk xs) {c : Int}
    (h1 : -17179869184 ≤ c) (h2 : c ≤ 17179869184) :
    ∃ r c', carrySelf xs c = .ok (r, c') ∧ r.length = xs.length ∧ WordsOk r ∧
      (val r : Int) + (𝔹 ^ xs.length : Nat) * c' = val xs + c := by
  induction xs generalizing c with
  | nil => exact ⟨[], c, rfl, rfl, wordsOk_nil, by simp⟩
  | cons x xs ih =>
    by_cases hc : c = 0
    · subst hc
      exact ⟨x :: xs, 0, by simp [carrySelf], rfl, hx, by simp⟩
    rw [wordsOk_cons] at hx
    obtain ⟨hx0, hxs⟩ := hx
    obtain ⟨r, c', he, hl, hr, hv⟩ := ih hxs (c := ((x : Int) + c) / 4294967296) (by omega) (by omega)
    refine ⟨u32i ((x : Int) + c) :: r, c', ?_, by simp [hl], ?_, ?_⟩
    · simp only [carrySelf, hc, if_false]
      rw [long_ok (by omega) (by omega)]
      simp [he]
    · exact wordsOk_cons.2 ⟨u32i_lt _, hr⟩
    · have := u32i_add_div ((x : Int) + c)
      simp only [val_cons, List.length_cons, pow_succ]
      push_cast at hv ⊢
      linear_combination this + 4294967296 * hv

/-- A base-`P` remainder with quotient: `r + P*c = t` with `0 ≤ r < P`, `0 ≤ t < P` forces `c = 0`. -/
theorem carry_zero {r P t : Nat} {c : Int} (hr : r < P) (ht : t < P) (h : (r : Int) + P * c = t) :
    c = 0 ∧ r = t := by
  have hc : c = 0 := by
    rcases lt_trichotomy c 0 with hc | hc | hc
    · have : (P : Int) * c ≤ P * (-1) := by apply mul_le_mul_of_nonneg_left <;> omega
      omega
    · exact hc
    · have : (P : Int) * 1 ≤ P * c := by apply mul_le_mul_of_nonneg_left <;> omega
      omega
  subst hc
  simp at h
  exact ⟨rfl, h⟩

theorem addWord_spec {lhs : List Nat} (hne : lhs ≠ []) (hw : WordsOk lhs) {rhs : Nat}
    (hr : rhs < 4294967296) :
    ∃ r, addWord lhs rhs = .ok r ∧ r.length = lhs.length + 1 ∧ WordsOk r ∧ val r = val lhs + rhs := by
  cases lhs with
  | nil => exact absurd rfl hne
  | cons x xs =>
    have hw' := hw
    rw [wordsOk_cons] at hw
    obtain ⟨hx0, hxs⟩ := hw
    obtain ⟨r, c', he, hl, hr', hv⟩ := carryLoop_spec hxs (c := ((x : Int) + rhs) / 4294967296) (by omega) (by omega)
    have hb := val_lt hxs
    have hb' := val_lt hr'
    have hval : (val (u32i ((x : Int) + rhs) :: r) : Int) + (𝔹 ^ (xs.length + 1) : Nat) * c' = (val (x :: xs) : Nat) + rhs := by
      have := u32i_add_div ((x : Int) + rhs)
      simp only [val_cons, pow_succ]
      push_cast at hv ⊢
      linear_combination this + 4294967296 * hv
    -- the last carry is 0 or 1
    have hc : 0 ≤ c' ∧ c' ≤ 1 := by
      have h1 := val_lt hw'
      have hwr : WordsOk (u32i ((x : Int) + rhs) :: r) := wordsOk_cons.2 ⟨u32i_lt _, hr'⟩
      have h2 := val_lt hwr
      simp only [List.length_cons, hl] at h1 h2
      have hP : (𝔹 ^ (xs.length + 1)) ≥ 4294967296 := by
        have : 1 ≤ 𝔹 ^ xs.length := Nat.one_le_pow _ _ (by decide)
        rw [pow_succ]; omega
      generalize 𝔹 ^ (xs.length + 1) = P at *
      generalize val (u32i ((x : Int) + rhs) :: r) = v at *
      generalize val (x :: xs) = w at *
      constructor
      · by_contra hneg
        have : (P : Int) * c' ≤ P * (-1) := by apply mul_le_mul_of_nonneg_left <;> omega
        omega
      · by_contra hpos
        have : (P : Int) * 2 ≤ P * c' := by apply mul_le_mul_of_nonneg_left <;> omega
        omega
    refine ⟨u32i ((x : Int) + rhs) :: r ++ [u32i c'], ?_, by simp [hl], ?_, ?_⟩
    · simp only [addWord]
      rw [cassert_pos (by simp), long_ok (by omega) (by omega)]
      simp [he]
    · rw [wordsOk_append]
      exact ⟨wordsOk_cons.2 ⟨u32i_lt _, hr'⟩, wordsOk_cons.2 ⟨u32i_lt _, wordsOk_nil⟩⟩
    · have hu : (u32i c' : Int) = c' := u32i_of_range hc.1 (by omega)
      rw [val_append, val_singleton]
      simp only [List.length_cons, hl]
      zify
      rw [hu]
      push_cast at hval ⊢
      exact hval

theorem addLoop_spec {xs ys : List Nat} (hx : WordsOk xs) (hy : WordsOk ys)
    (hl : ys.length ≤ xs.length) {c : Nat} (hc : c ≤ 1) :
    ∃ r, addLoop xs ys c = .ok r ∧ r.length = xs.length + 1 ∧ WordsOk r ∧
      val r = val xs + val ys + c := by
  induction xs generalizing ys c with
  | nil =>
    have : ys = [] := by simpa using hl
    subst this
    refine ⟨[c], ?_, by simp, ?_, by simp⟩
    · simp [addLoop, u32_of_lt (show c < 4294967296 by omega)]
    · exact wordsOk_cons.2 ⟨by omega, wordsOk_nil⟩
  | cons x xs ih =>
    rw [wordsOk_cons] at hx
    obtain ⟨hx0, hxs⟩ := hx
    cases ys with
    | nil =>
      have hd : u64 (x + c) = x + c := u64_of_lt (by omega)
      obtain ⟨r, he, hlr, hr, hv⟩ := ih hxs hy (by simp) (c := (x + c) / 4294967296) (by omega)
      refine ⟨u32 (x + c) :: r, ?_, by simp [hlr], wordsOk_cons.2 ⟨u32_lt _, hr⟩, ?_⟩
      · simp [addLoop, hd, he]
      · have := u32_add_div (x + c)
        simp only [val_cons, hv, val_nil]; omega
    | cons y ys =>
      rw [wordsOk_cons] at hy
      obtain ⟨hy0, hys⟩ := hy
      have hd : u64 (u64 (x + c) + y) = x + c + y := by
        rw [u64_of_lt (show x + c < _ by omega), u64_of_lt (by omega)]
      obtain ⟨r, he, hlr, hr, hv⟩ := ih hxs hys (by simpa using hl) (c := (x + c + y) / 4294967296) (by omega)
      refine ⟨u32 (x + c + y) :: r, ?_, by simp [hlr], wordsOk_cons.2 ⟨u32_lt _, hr⟩, ?_⟩
      · simp [addLoop, hd, he]
      · have := u32_add_div (x + c + y)
        simp only [val_cons, hv]; omega

theorem addPtr_spec {xs ys : List Nat} (hx : WordsOk xs) (hy : WordsOk ys)
    (hl : ys.length ≤ xs.length) :
    ∃ r, addPtr xs ys (xs.length + 1) = .ok r ∧ r.length = xs.length + 1 ∧ WordsOk r ∧
      val r = val xs + val ys := by
  obtain ⟨r, he, h⟩ := addLoop_spec hx hy hl (c := 0) (by omega)
  exact ⟨r, by simp [addPtr, hl, he], h.1, h.2.1, by simpa using h.2.2⟩

theorem addVec_spec {xs ys : List Nat} (hx : WordsOk xs) (hy : WordsOk ys) (hxn : xs ≠ []) (hyn : ys ≠ [])
    (hl : ys.length ≤ xs.length) (hs : xs.length + 1 < 2147483648) :
    ∃ r, addVec xs ys = .ok r ∧ r.length = xs.length + 1 ∧ WordsOk r ∧ val r = val xs + val ys := by
  obtain ⟨r, he, h⟩ := addPtr_spec hx hy hl
  exact ⟨r, by simp [addVec, hl, he, hxn, hyn, sizeInt_ok hs], h⟩

theorem addSelfLoop_spec {xs ys : List Nat} (hx : WordsOk xs) (hy : WordsOk ys)
    (hl : ys.length ≤ xs.length) {c : Int} (h1 : 0 ≤ c) (h2 : c ≤ 1) :
    ∃ r c', addSelfLoop xs ys c = .ok (r, c') ∧ r.length = xs.length ∧ WordsOk r ∧
      (val r : Int) + (𝔹 ^ xs.length : Nat) * c' = val xs + val ys + c := by
  induction xs generalizing ys c with
  | nil =>
    have : ys = [] := by simpa using hl
    subst this
    obtain ⟨r, c', he, h⟩ := carrySelf_spec hx (c := c) (by omega) (by omega)
    refine ⟨r, c', ?_, h.1, h.2.1, by simpa using h.2.2⟩
    simp [addSelfLoop, he]
  | cons x xs ih =>
    cases ys with
    | nil =>
      obtain ⟨r, c', he, h⟩ := carrySelf_spec hx (c := c) (by omega) (by omega)
      refine ⟨r, c', ?_, h.1, h.2.1, by simpa using h.2.2⟩
      simp [addSelfLoop, he]
    | cons y ys =>
      rw [wordsOk_cons] at hx hy
      obtain ⟨hx0, hxs⟩ := hx
      obtain ⟨hy0, hys⟩ := hy
      obtain ⟨r, c', he, hlr, hr, hv⟩ := ih hxs hys (by simpa using hl) (c := ((x : Int) + c + y) / 4294967296) (by omega) (by omega)
      refine ⟨u32i ((x : Int) + c + y) :: r, c', ?_, by simp [hlr], wordsOk_cons.2 ⟨u32i_lt _, hr⟩, ?_⟩
      · simp only [addSelfLoop]
        rw [long_ok (by omega) (by omega)]
        simp [he]
      · have := u32i_add_div ((x : Int) + c + y)
        simp only [val_cons, List.length_cons, pow_succ]
        push_cast at hv ⊢
        linear_combination this + 4294967296 * hv

theorem addSelf_spec {xs ys : List Nat} (hx : WordsOk xs) (hy : WordsOk ys)
    (hl : ys.length ≤ xs.length) (hb : val xs + val ys < 𝔹 ^ xs.length) :
    ∃ r, addSelf xs ys = .ok r ∧ r.length = xs.length ∧ WordsOk r ∧ val r = val xs + val ys := by
  obtain ⟨r, c, he, hlr, hr, hv⟩ := addSelfLoop_spec hx hy hl (c := 0) (by omega) (by omega)
  have hrb := val_lt hr
  rw [hlr] at hrb
  obtain ⟨hc, hv'⟩ := carry_zero hrb hb (c := c) (by rw [hv]; push_cast; ring)
  exact ⟨r, by simp [addSelf, hl, he, hc], hlr, hr, hv'⟩

theorem compareLoop_spec {xs ys : List Nat} (hx : WordsOk xs) (hy : WordsOk ys)
    (hl : xs.length = ys.length) :
    compareLoop xs ys = if val xs < val ys then -1 else if val ys < val xs then 1 else 0 := by
  induction xs generalizing ys with
  | nil =>
    have : ys = [] := by simpa using hl.symm
    subst this; simp [compareLoop]
  | cons x xs ih => cases ys with
    | nil => simp at hl
    | cons y ys =>
      rw [wordsOk_cons] at hx hy
      simp only [compareLoop, ih hx.2 hy.2 (by simpa using hl), val_cons]
      have := hx.1
      have := hy.1
      split_ifs <;> first | rfl | omega

theorem val_pos_of_top {xs : List Nat} (hne : xs ≠ []) (ht : xs.getLast? ≠ some 0) :
    𝔹 ^ (xs.length - 1) ≤ val xs := by
  induction xs with
  | nil => exact absurd rfl hne
  | cons x xs ih =>
    cases xs with
    | nil =>
      simp only [List.getLast?_singleton, ne_eq, Option.some.injEq] at ht
      simp [val_cons]; omega
    | cons y ys =>
      have := ih (by simp) (by simpa using ht)
      simp only [List.length_cons, Nat.add_sub_cancel] at this ⊢
      rw [val_cons, pow_succ]; omega

theorem compareWords_spec {xs ys : List Nat} (hx : WordsOk xs) (hy : WordsOk ys)
    (htx : xs.getLast? ≠ some 0) (hty : ys.getLast? ≠ some 0) :
    compareWords xs ys = if val xs < val ys then -1 else if val ys < val xs then 1 else 0 := by
  unfold compareWords
  have key : ∀ {as bs : List Nat}, WordsOk as → bs.getLast? ≠ some 0 → as.length < bs.length →
      val as < val bs := by
    intro as bs ha hb hl
    have h1 := val_lt ha
    have h2 := val_pos_of_top (xs := bs) (by rintro rfl; simp at hl) hb
    have h3 : 𝔹 ^ as.length ≤ 𝔹 ^ (bs.length - 1) := Nat.pow_le_pow_right (by decide) (by omega)
    omega
  rcases lt_trichotomy xs.length ys.length with h | h | h
  · have := key hx hty h
    rw [if_pos h, if_pos this]
  · rw [if_neg (by omega), if_neg (by omega), compareLoop_spec hx hy h]
  · have := key hy htx h
    rw [if_neg (by omega), if_pos h, if_neg (by omega), if_pos this]

theorem compareWords_same_length {xs ys : List Nat} (hx : WordsOk xs) (hy : WordsOk ys)
    (hl : xs.length = ys.length) :
    compareWords xs ys = if val xs < val ys then -1 else if val ys < val xs then 1 else 0 := by
  unfold compareWords
  rw [if_neg (by omega), if_neg (by omega), compareLoop_spec hx hy hl]

theorem subtractWord_spec {lhs : List Nat} (hne : lhs ≠ []) (hw : WordsOk lhs) {rhs : Nat}
    (hr : rhs < 4294967296) (hle : rhs ≤ val lhs) :
    ∃ r, subtractWord lhs rhs = .ok r ∧ r.length = lhs.length ∧ WordsOk r ∧ val r = val lhs - rhs := by
  cases lhs with
  | nil => exact absurd rfl hne
  | cons x xs =>
    have hw' := hw
    rw [wordsOk_cons] at hw
    obtain ⟨hx0, hxs⟩ := hw
    obtain ⟨r, c', he, hl, hr', hv⟩ := carryLoop_spec hxs (c := ((x : Int) - rhs) / 4294967296) (by omega) (by omega)
    have hwr : WordsOk (u32i ((x : Int) - rhs) :: r) := wordsOk_cons.2 ⟨u32i_lt _, hr'⟩
    have hval : (val (u32i ((x : Int) - rhs) :: r) : Int) + (𝔹 ^ (xs.length + 1) : Nat) * c' = ((val (x :: xs) - rhs : Nat) : Int) := by
      have := u32i_add_div ((x : Int) - rhs)
      rw [Nat.cast_sub hle]
      simp only [val_cons, pow_succ]
      push_cast at hv ⊢
      linear_combination this + 4294967296 * hv
    have h1 := val_lt hw'
    have h2 := val_lt hwr
    simp only [List.length_cons, hl] at h1 h2
    obtain ⟨-, hv'⟩ := carry_zero h2 (by omega) hval
    refine ⟨_, ?_, by simp [hl], hwr, hv'⟩
    simp only [subtractWord]
    rw [cassert_pos (by simp), cassert_pos, long_ok (by omega) (by omega)]
    · simp [he]
    · cases xs with
      | nil => left; simpa using hle
      | cons => right; simp

theorem subtractLoop_spec {xs ys : List Nat} (hx : WordsOk xs) (hy : WordsOk ys)
    (hl : ys.length ≤ xs.length) {c : Int} (h1 : -1 ≤ c) (h2 : c ≤ 0) :
    ∃ r c', subtractLoop xs ys c = .ok (r, c') ∧ r.length = xs.length ∧ WordsOk r ∧
      (val r : Int) + (𝔹 ^ xs.length : Nat) * c' = val xs - val ys + c := by
  induction xs generalizing ys c with
  | nil =>
    have : ys = [] := by simpa using hl
    subst this
    obtain ⟨r, c', he, h⟩ := carryLoop_spec hx (c := c) (by omega) (by omega)
    refine ⟨r, c', ?_, h.1, h.2.1, by simpa using h.2.2⟩
    simp [subtractLoop, he]
  | cons x xs ih =>
    cases ys with
    | nil =>
      obtain ⟨r, c', he, h⟩ := carryLoop_spec hx (c := c) (by omega) (by omega)
      refine ⟨r, c', ?_, h.1, h.2.1, by simpa using h.2.2⟩
      simp [subtractLoop, he]
    | cons y ys =>
      rw [wordsOk_cons] at hx hy
      obtain ⟨hx0, hxs⟩ := hx
      obtain ⟨hy0, hys⟩ := hy
      obtain ⟨r, c', he, hlr, hr, hv⟩ := ih hxs hys (by simpa using hl) (c := ((x : Int) + c - y) / 4294967296) (by omega) (by omega)
      refine ⟨u32i ((x : Int) + c - y) :: r, c', ?_, by simp [hlr], wordsOk_cons.2 ⟨u32i_lt _, hr⟩, ?_⟩
      · simp only [subtractLoop]
        rw [long_ok (by omega) (by omega)]
        simp [he]
      · have := u32i_add_div ((x : Int) + c - y)
        simp only [val_cons, List.length_cons, pow_succ]
        push_cast at hv ⊢
        linear_combination this + 4294967296 * hv

theorem subtractPtr_spec {xs ys : List Nat} (hx : WordsOk xs) (hy : WordsOk ys)
    (hl : ys.length ≤ xs.length) (hc : compareWords xs ys ≥ 0) (hle : val ys ≤ val xs) :
    ∃ r, subtractPtr xs ys xs.length = .ok r ∧ r.length = xs.length ∧ WordsOk r ∧
      val r = val xs - val ys := by
  obtain ⟨r, c, he, hlr, hr, hv⟩ := subtractLoop_spec hx hy hl (c := 0) (by omega) (by omega)
  have hrb := val_lt hr
  rw [hlr] at hrb
  have hxb := val_lt hx
  obtain ⟨hc0, hv'⟩ := carry_zero hrb (t := val xs - val ys) (by omega) (c := c)
    (by rw [hv, Nat.cast_sub hle]; ring)
  exact ⟨r, by simp [subtractPtr, hl, he, hc0, hc], hlr, hr, hv'⟩

theorem subtractVec_spec {xs ys : List Nat} (hx : WordsOk xs) (hy : WordsOk ys) (hxn : xs ≠ []) (hyn : ys ≠ [])
    (htx : xs.getLast? ≠ some 0) (hty : ys.getLast? ≠ some 0)
    (hle : val ys ≤ val xs) (hs : xs.length < 2147483648) :
    ∃ r, subtractVec xs ys = .ok r ∧ r.length = xs.length ∧ WordsOk r ∧ val r = val xs - val ys := by
  have hc : compareWords xs ys ≥ 0 := by
    rw [compareWords_spec hx hy htx hty]; split_ifs <;> omega
  have hl : ys.length ≤ xs.length := by
    by_contra h
    have : compareWords xs ys = -1 := by unfold compareWords; rw [if_pos (by omega)]
    omega
  obtain ⟨r, he, h⟩ := subtractPtr_spec hx hy hl hc hle
  exact ⟨r, by simp [subtractVec, hl, he, hxn, hyn, sizeInt_ok hs, hc], h⟩

end BigIntegerCpp
