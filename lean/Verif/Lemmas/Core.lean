import Verif.Lemmas.AddSub
/-
Canonical form, constructors.
-/
namespace BigIntegerCpp
set_option linter.unusedSectionVars false
set_option linter.unnecessarySeqFocus false
variable [Cfg]

/-! ### trimming -/

theorem trimLen_le (xs : List Nat) : trimLen xs ≤ xs.length := by
  induction xs with
  | nil => simp [trimLen]
  | cons x xs ih => simp only [trimLen, List.length_cons]; split_ifs <;> omega

theorem trimLen_eq_zero {xs : List Nat} : trimLen xs = 0 ↔ val xs = 0 := by
  induction xs with
  | nil => simp [trimLen]
  | cons x xs ih => simp only [trimLen, val_cons]; split_ifs <;> simp_all

theorem val_take_trimLen (xs : List Nat) : val (xs.take (trimLen xs)) = val xs := by
  induction xs with
  | nil => simp
  | cons x xs ih =>
    simp only [trimLen]
    split_ifs with h1 h2
    · have := trimLen_eq_zero.1 h1
      simp [val_cons, this, h2]
    · have := trimLen_eq_zero.1 h1
      simp [val_cons, this]
    · simp [val_cons, ih]

theorem getLast_take_trimLen (xs : List Nat) : (xs.take (trimLen xs)).getLast? ≠ some 0 := by
  induction xs with
  | nil => simp
  | cons x xs ih =>
    simp only [trimLen]
    split_ifs with h1 h2
    · simp
    · simpa using h2
    · simp only [List.take_succ_cons]
      have hne : xs.take (trimLen xs) ≠ [] := by
        simp only [ne_eq, List.take_eq_nil_iff, not_or]
        refine ⟨h1, ?_⟩
        rintro rfl; simp [trimLen] at h1
      obtain ⟨y, ys, hy⟩ := List.exists_cons_of_ne_nil hne
      rw [hy] at ih ⊢
      simpa using ih

theorem trimLen_of_top {xs : List Nat} (h : xs.getLast? ≠ some 0) : trimLen xs = xs.length := by
  induction xs with
  | nil => rfl
  | cons x xs ih =>
    cases xs with
    | nil => simp at h; simp [trimLen, h]
    | cons y ys =>
      have := ih (by simpa using h)
      rw [trimLen, this]; simp

theorem length_take_trimLen (xs : List Nat) : (xs.take (trimLen xs)).length = trimLen xs := by
  rw [List.length_take]; exact Nat.min_eq_left (trimLen_le xs)

/-! ### canonical form -/

namespace BigInt

theorem valid_small {s : Int} (h1 : -2147483648 < s) (h2 : s < 2147483648) : Valid ⟨s, []⟩ :=
  ⟨wordsOk_nil, ⟨le_of_lt h1, h2⟩, fun _ => by simp; omega, fun h => absurd rfl h, by simp, by simp⟩

theorem valid_big {s : Int} {ws : List Nat} (hs : s = 1 ∨ s = -1) (hne : ws ≠ []) (hw : WordsOk ws)
    (ht : ws.getLast? ≠ some 0) (hv : 2147483648 ≤ val ws) : Valid ⟨s, ws⟩ :=
  ⟨hw, by rcases hs with rfl | rfl <;> simp [IntRange], fun h => absurd h hne, fun _ => hs, ht,
    fun w h => by simp only at h; subst h; simpa using hv⟩

theorem Valid.val_ge {b : BigInt} (h : b.Valid) (hne : b.bits ≠ []) : 2147483648 ≤ val b.bits := by
  have := val_pos_of_top hne h.topNonzero
  obtain ⟨x, xs, hx⟩ := List.exists_cons_of_ne_nil hne
  cases xs with
  | nil => have := h.notSmall x hx; rw [hx]; simpa using this
  | cons y ys =>
    have h2 : 𝔹 ^ 1 ≤ 𝔹 ^ (b.bits.length - 1) := Nat.pow_le_pow_right (by decide) (by rw [hx]; simp)
    omega

/-- The two shapes of a well-formed object. -/
theorem Denotes.shape {b : BigInt} {z : Int} (h : b.Denotes z) :
    (b = ⟨z, []⟩ ∧ -2147483648 < z ∧ z < 2147483648) ∨
    (∃ s ws, b = ⟨s, ws⟩ ∧ (s = 1 ∨ s = -1) ∧ ws ≠ [] ∧ WordsOk ws ∧ ws.getLast? ≠ some 0 ∧
      2147483648 ≤ val ws ∧ z = s * (val ws : Nat)) := by
  obtain ⟨hv, hz⟩ := h
  obtain ⟨s, ws⟩ := b
  by_cases hne : ws = []
  · subst hne
    left
    simp only [toInt, if_true] at hz
    subst hz
    have := hv.signRange
    have h3 := hv.small rfl
    unfold IntRange at this
    simp only at this h3
    exact ⟨rfl, by omega, by omega⟩
  · right
    refine ⟨s, ws, rfl, hv.unit hne, hne, hv.words, hv.topNonzero, hv.val_ge hne, ?_⟩
    simp only [toInt, hne, if_false] at hz
    exact hz.symm

theorem denotes_small {s : Int} (h1 : -2147483648 < s) (h2 : s < 2147483648) : Denotes ⟨s, []⟩ s :=
  ⟨valid_small h1 h2, by simp [toInt]⟩

theorem denotes_big {s : Int} {ws : List Nat} {z : Int} (hs : s = 1 ∨ s = -1) (hne : ws ≠ []) (hw : WordsOk ws)
    (ht : ws.getLast? ≠ some 0) (hv : 2147483648 ≤ val ws) (hz : z = s * (val ws : Nat)) :
    Denotes ⟨s, ws⟩ z :=
  ⟨valid_big hs hne hw ht hv, by simp [toInt, hne, hz]⟩

theorem length_eq_of_val {xs ys : List Nat} (hx : WordsOk xs) (hy : WordsOk ys)
    (htx : xs.getLast? ≠ some 0) (hty : ys.getLast? ≠ some 0) (hv : val xs = val ys) :
    xs.length = ys.length := by
  have h1 := compareWords_spec hx hy htx hty
  rw [if_neg (by omega), if_neg (by omega)] at h1
  unfold compareWords at h1
  split_ifs at h1 <;> omega

theorem Denotes.unique {a b : BigInt} {z : Int} (ha : a.Denotes z) (hb : b.Denotes z) : a = b := by
  rcases ha.shape with ⟨rfl, h1, h2⟩ | ⟨s, ws, rfl, hs, hne, hw, ht, hv, hz⟩ <;>
  rcases hb.shape with ⟨rfl, h1', h2'⟩ | ⟨s', ws', rfl, hs', hne', hw', ht', hv', hz'⟩
  · rfl
  · rcases hs' with rfl | rfl <;> omega
  · rcases hs with rfl | rfl <;> omega
  · have hss : s = s' ∧ val ws = val ws' := by
      rcases hs with rfl | rfl <;> rcases hs' with rfl | rfl <;> omega
    obtain ⟨rfl, hvv⟩ := hss
    rw [val_inj hw hw' (length_eq_of_val hw hw' ht ht' hvv) hvv]

end BigInt

theorem assertValid_ok {b : BigInt} (h : b.Valid) : assertValid b = .ok () := by
  unfold assertValid
  split_ifs with hne
  · rw [cassert_pos (h.unit hne), cassert_pos, cassert_pos]
    · rfl
    · have := h.topNonzero
      obtain ⟨x, xs, hx⟩ := List.exists_cons_of_ne_nil hne
      rw [hx] at this ⊢
      rw [List.getLast?_cons] at this ⊢
      simpa using this
    · obtain ⟨x, xs, hx⟩ := List.exists_cons_of_ne_nil hne
      cases xs with
      | nil => right; rw [hx]; exact h.notSmall x hx
      | cons y ys => left; rw [hx]; simp
  · rw [cassert_pos]
    have h1 := h.signRange
    have h2 := h.small (by simpa using hne)
    unfold IntRange at h1
    omega

theorem checked_ok {b : BigInt} (h : b.Valid) : checked b = .ok b := by
  simp [checked, assertValid_ok h]

theorem returns_checked {b : BigInt} {z : Int} (h : b.Denotes z) : Returns (checked b) z :=
  ⟨b, checked_ok h.1, h⟩

theorem denotes_zero : zeroInt.Denotes 0 := BigInt.denotes_small (by omega) (by omega)
theorem denotes_one : oneInt.Denotes 1 := BigInt.denotes_small (by omega) (by omega)
theorem denotes_minusOne : minusOneInt.Denotes (-1) := BigInt.denotes_small (by omega) (by omega)
theorem denotes_minInt : minInt.Denotes (-2147483648) :=
  BigInt.denotes_big (.inr rfl) (by simp) (by simp [WordsOk]) (by simp) (by simp) (by simp)

theorem returns_ok {b : BigInt} {z : Int} (h : b.Denotes z) : Returns (.ok b) z := ⟨b, rfl, h⟩

/-! ### constructors -/

theorem i32_of_lt {n : Nat} (h : n < 2147483648) : i32 n = n := by
  unfold i32; rw [if_pos (by omega)]; omega

theorem ofMagnitude_spec {v : List Nat} (hw : WordsOk v) (hl : v.length < 2147483648) (neg : Bool) :
    Returns (ofMagnitude v neg) (if neg then -(val v : Int) else val v) := by
  unfold ofMagnitude
  rw [sizeInt_ok hl]
  simp only [Res.ok_bind]
  by_cases h0 : trimLen v = 0
  · rw [if_pos h0]
    have := trimLen_eq_zero.1 h0
    simp only [this, zeroInt, List.take_nil]
    apply returns_checked
    simpa [zeroInt] using denotes_zero
  rw [if_neg h0]
  have hvt := val_take_trimLen v
  have hlt := length_take_trimLen v
  have htop := getLast_take_trimLen v
  have hwt := hw.take (trimLen v)
  by_cases h1 : trimLen v = 1 ∧ v.headD 0 < 2147483648
  · rw [if_pos h1]
    obtain ⟨h1, h2⟩ := h1
    obtain ⟨x, xs, rfl⟩ : ∃ x xs, v = x :: xs := by
      cases v with
      | nil => simp [trimLen] at h1
      | cons x xs => exact ⟨x, xs, rfl⟩
    rw [h1] at hvt
    simp only [List.take_succ_cons, List.take_zero, val_singleton] at hvt
    simp only [List.headD_cons] at h2 ⊢
    have hs : ¬ (if neg = true then -i32 x else i32 x) = -2147483648 := by
      rw [i32_of_lt h2]; cases neg <;> simp <;> omega
    simp only [hs, if_false, List.take_nil]
    rw [i32_of_lt h2, ← hvt]
    apply returns_checked
    apply BigInt.denotes_small <;> split_ifs <;> omega
  · rw [if_neg h1]
    apply returns_checked
    simp only
    apply BigInt.denotes_big
    · split_ifs <;> simp
    · intro h; rw [h] at hlt; simp at hlt; omega
    · exact hwt
    · exact htop
    · obtain ⟨x, xs, hx⟩ : ∃ x xs, v.take (trimLen v) = x :: xs := by
        apply List.exists_cons_of_ne_nil; intro h; rw [h] at hlt; simp at hlt; omega
      cases xs with
      | nil =>
        have h1' : trimLen v = 1 := by rw [← hlt, hx]; rfl
        have : v.headD 0 = x := by
          rw [h1'] at hx
          cases v with
          | nil => simp at hx
          | cons y ys => simpa using hx
        rw [hx, val_singleton, ← this]
        omega
      | cons y ys =>
        have := val_pos_of_top (xs := v.take (trimLen v)) (by rw [hx]; simp) htop
        have h2 : 𝔹 ^ 1 ≤ 𝔹 ^ ((v.take (trimLen v)).length - 1) :=
          Nat.pow_le_pow_right (by decide) (by rw [hx]; simp)
        omega
    · rw [hvt]; split_ifs <;> simp

theorem returns_ofMagnitude {v : List Nat} (hw : WordsOk v) (hl : v.length < 2147483648) {neg : Bool} {z : Int}
    (h : z = if neg then -(val v : Int) else val v) : Returns (ofMagnitude v neg) z := by
  rw [h]; exact ofMagnitude_spec hw hl neg

theorem ofInt32_spec {z : Int} (h1 : -2147483648 ≤ z) (h2 : z < 2147483648) : Returns (ofInt32 z) z := by
  unfold ofInt32
  split_ifs with h
  · subst h; exact returns_checked denotes_minInt
  · exact returns_checked (BigInt.denotes_small (by omega) h2)

theorem denotes_words1 {x : Nat} {s : Int} (hs : s = 1 ∨ s = -1) (h1 : 2147483648 ≤ x) (h2 : x < 4294967296) :
    BigInt.Denotes ⟨s, [x]⟩ (s * x) :=
  BigInt.denotes_big hs (by simp) (by simp [WordsOk, h2]) (by simp; omega) (by simpa using h1) (by simp)

theorem denotes_words2 {x : Nat} {s : Int} (hs : s = 1 ∨ s = -1) (h1 : 4294967296 ≤ x)
    (h2 : x < 18446744073709551616) : BigInt.Denotes ⟨s, [u32 x, u32 (x >>> 32)]⟩ (s * x) := by
  have hsh : x >>> 32 = x / 4294967296 := by rw [Nat.shiftRight_eq_div_pow]
  have hu : u32 (x >>> 32) = x / 4294967296 := by rw [hsh, u32_of_lt (by omega)]
  rw [hu]
  have hv : val [u32 x, x / 4294967296] = x := by
    have := u32_add_div x
    simp only [val_cons, val_nil]; omega
  refine BigInt.denotes_big hs (by simp) ?_ ?_ (by omega) (by rw [hv])
  · exact wordsOk_cons.2 ⟨u32_lt _, wordsOk_cons.2 ⟨by omega, wordsOk_nil⟩⟩
  · simp; omega

theorem ofUInt32_spec {x : Nat} (h : x < 4294967296) : Returns (ofUInt32 x) x := by
  unfold ofUInt32
  split_ifs with h1
  · exact returns_checked (BigInt.denotes_small (by omega) (by omega))
  · exact returns_checked (by simpa using denotes_words1 (s := 1) (.inl rfl) (by omega) h)

theorem ofUInt64_spec {x : Nat} (h : x < 18446744073709551616) : Returns (ofUInt64 x) x := by
  unfold ofUInt64
  split_ifs with h1 h2
  · exact returns_checked (BigInt.denotes_small (by omega) (by omega))
  · rw [u32_of_lt (by omega)]
    exact returns_checked (by simpa using denotes_words1 (s := 1) (.inl rfl) (by omega) (by omega))
  · exact returns_checked (by simpa using denotes_words2 (s := 1) (.inl rfl) (by omega) h)

theorem ofInt64_spec {z : Int} (h1 : -9223372036854775808 < z) (h2 : z < 9223372036854775808) :
    Returns (ofInt64 z) z := by
  unfold ofInt64
  split_ifs with h3 h4 h5
  · exact returns_checked (BigInt.denotes_small h3.1 (by omega))
  · subst h4; exact returns_checked denotes_minInt
  · rw [long_ok (by omega) (by omega)]
    simp only [Res.ok_bind]
    obtain ⟨n, hn⟩ : ∃ n : Nat, -z = n := ⟨z.natAbs, by omega⟩
    rw [hn, u64i_natCast (by omega)]
    split_ifs with h6
    · rw [u32_of_lt (by omega)]
      exact returns_checked (by
        have := denotes_words1 (x := n) (s := -1) (.inr rfl) (by omega) (by omega)
        rwa [show z = -1 * (n : Int) by omega])
    · exact returns_checked (by
        have := denotes_words2 (x := n) (s := -1) (.inr rfl) (by omega) (by omega)
        rwa [show z = -1 * (n : Int) by omega])
  · simp only [Res.ok_bind]
    obtain ⟨n, rfl⟩ : ∃ n : Nat, z = n := ⟨z.natAbs, by omega⟩
    rw [u64i_natCast (by omega)]
    split_ifs with h6
    · rw [u32_of_lt (by omega)]
      exact returns_checked (by simpa using denotes_words1 (x := n) (s := 1) (.inl rfl) (by omega) (by omega))
    · exact returns_checked (by simpa using denotes_words2 (x := n) (s := 1) (.inl rfl) (by omega) (by omega))

theorem ofParts_spec {s : Int} {ws : List Nat} {z : Int} (h : BigInt.Denotes ⟨s, ws⟩ z) :
    Returns (ofParts s ws) z := returns_checked h

end BigIntegerCpp
