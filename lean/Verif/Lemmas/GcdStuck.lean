import Verif.Lemmas.Gcd
/-
The Lehmer step of Model/Gcd.lean: it leaves operands of equal length as they are.
-/
set_option linter.unusedSectionVars false
set_option linter.unnecessarySeqFocus false
namespace BigIntegerCpp
variable [Cfg]

def Guess.Small (g : Guess) : Prop := g.a ≤ 0x7FFFFFFF ∧ g.b ≤ 0x7FFFFFFF ∧ g.c ≤ 0x7FFFFFFF ∧ g.d ≤ 0x7FFFFFFF

theorem u32_le {n : Nat} (h : ¬ n > 0x7FFFFFFF) : u32 n ≤ 0x7FFFFFFF := by unfold u32; omega

theorem lehmerGuess_small (y : Nat) {x : Nat} {g g' : Guess} (hg : g.Small) (h : lehmerGuess x y g = .ok g') : g'.Small := by
  induction y using Nat.strongRecOn generalizing x g with
  | ind y ih =>
  rw [lehmerGuess] at h
  obtain ⟨ha, hb, hc, hd⟩ := hg
  by_cases h0 : y = 0
  · rw [if_pos h0] at h; exact Res.ok.inj h ▸ ⟨ha, hb, hc, hd⟩
  rw [if_neg h0] at h
  dsimp only at h
  by_cases h1 : x / y > 0xFFFFFFFF
  · rw [if_pos h1] at h; exact Res.ok.inj h ▸ ⟨ha, hb, hc, hd⟩
  rw [if_neg h1] at h
  generalize u64 (g.a + u64 (x / y * g.c)) = r at h
  generalize u64 (g.b + u64 (x / y * g.d)) = s at h
  generalize u64sub x (u64 (x / y * y)) = t at h
  by_cases h2 : r > 0x7FFFFFFF ∨ s > 0x7FFFFFFF
  · rw [if_pos h2] at h; exact Res.ok.inj h ▸ ⟨ha, hb, hc, hd⟩
  rw [if_neg h2] at h
  push Not at h2
  have hr := u32_le (n := r) (by omega)
  have hs := u32_le (n := s) (by omega)
  by_cases h3 : t < s ∨ u64 (t + r) > u64sub y g.c
  · rw [if_pos h3] at h; exact Res.ok.inj h ▸ ⟨ha, hb, hc, hd⟩
  rw [if_neg h3] at h
  by_cases h4 : t = u32 s
  · rw [if_pos h4] at h; exact Res.ok.inj h ▸ ⟨hr, hs, hc, hd⟩
  rw [if_neg h4] at h
  by_cases h5 : t = 0
  · rw [if_pos h5] at h; cases h
  rw [if_neg h5] at h
  by_cases h6 : y / t > 0xFFFFFFFF
  · rw [if_pos h6] at h; exact Res.ok.inj h ▸ ⟨hr, hs, hc, hd⟩
  rw [if_neg h6] at h
  generalize u64 (g.d + u64 (y / t * u32 s)) = r' at h
  generalize u64 (g.c + u64 (y / t * u32 r)) = s' at h
  generalize u64sub y (u64 (y / t * t)) = t' at h
  by_cases h7 : r' > 0x7FFFFFFF ∨ s' > 0x7FFFFFFF
  · rw [if_pos h7] at h; exact Res.ok.inj h ▸ ⟨hr, hs, hc, hd⟩
  rw [if_neg h7] at h
  push Not at h7
  have hr' := u32_le (n := r') (by omega)
  have hs' := u32_le (n := s') (by omega)
  by_cases h8 : t' < s' ∨ u64 (t' + r') > u64sub t (u32 s)
  · rw [if_pos h8] at h; exact Res.ok.inj h ▸ ⟨hr, hs, hc, hd⟩
  rw [if_neg h8] at h
  by_cases h9 : t' = u32 s'
  · rw [if_pos h9] at h; exact Res.ok.inj h ▸ ⟨hr, hs, hs', hr'⟩
  rw [if_neg h9] at h
  by_cases h10 : t' < y
  · rw [dif_pos h10] at h
    exact ih t' h10 ⟨hr, hs, hs', hr'⟩ h
  · rw [dif_neg h10] at h; cases h

theorem lehmerGuess_mono (y : Nat) {x : Nat} {g g' : Guess} (hg : g.Small) (h : lehmerGuess x y g = .ok g') : g.b ≤ g'.b := by
  induction y using Nat.strongRecOn generalizing x g with
  | ind y ih =>
  rw [lehmerGuess] at h
  obtain ⟨ha, hb, hc, hd⟩ := hg
  by_cases h0 : y = 0
  · rw [if_pos h0] at h; exact Res.ok.inj h ▸ le_refl _
  rw [if_neg h0] at h
  dsimp only at h
  by_cases h1 : x / y > 0xFFFFFFFF
  · rw [if_pos h1] at h; exact Res.ok.inj h ▸ le_refl _
  rw [if_neg h1] at h
  have hsb : g.b ≤ u64 (g.b + u64 (x / y * g.d)) := by
    have := Nat.mul_le_mul (show x / y ≤ 0xFFFFFFFF by omega) hd
    unfold u64
    generalize x / y * g.d = p at *
    omega
  generalize u64 (g.a + u64 (x / y * g.c)) = r at h
  generalize u64 (g.b + u64 (x / y * g.d)) = s at h hsb
  generalize u64sub x (u64 (x / y * y)) = t at h
  by_cases h2 : r > 0x7FFFFFFF ∨ s > 0x7FFFFFFF
  · rw [if_pos h2] at h; exact Res.ok.inj h ▸ le_refl _
  rw [if_neg h2] at h
  push Not at h2
  have hr := u32_le (n := r) (by omega)
  have hs := u32_le (n := s) (by omega)
  have hsb' : g.b ≤ u32 s := by unfold u32; omega
  by_cases h3 : t < s ∨ u64 (t + r) > u64sub y g.c
  · rw [if_pos h3] at h; exact Res.ok.inj h ▸ le_refl _
  rw [if_neg h3] at h
  by_cases h4 : t = u32 s
  · rw [if_pos h4] at h; exact Res.ok.inj h ▸ hsb'
  rw [if_neg h4] at h
  by_cases h5 : t = 0
  · rw [if_pos h5] at h; cases h
  rw [if_neg h5] at h
  by_cases h6 : y / t > 0xFFFFFFFF
  · rw [if_pos h6] at h; exact Res.ok.inj h ▸ hsb'
  rw [if_neg h6] at h
  generalize u64 (g.d + u64 (y / t * u32 s)) = r' at h
  generalize u64 (g.c + u64 (y / t * u32 r)) = s' at h
  generalize u64sub y (u64 (y / t * t)) = t' at h
  by_cases h7 : r' > 0x7FFFFFFF ∨ s' > 0x7FFFFFFF
  · rw [if_pos h7] at h; exact Res.ok.inj h ▸ hsb'
  rw [if_neg h7] at h
  push Not at h7
  have hr' := u32_le (n := r') (by omega)
  have hs' := u32_le (n := s') (by omega)
  by_cases h8 : t' < s' ∨ u64 (t' + r') > u64sub t (u32 s)
  · rw [if_pos h8] at h; exact Res.ok.inj h ▸ hsb'
  rw [if_neg h8] at h
  by_cases h9 : t' = u32 s'
  · rw [if_pos h9] at h; exact Res.ok.inj h ▸ hsb'
  rw [if_neg h9] at h
  by_cases h10 : t' < y
  · rw [dif_pos h10] at h
    exact le_trans hsb' (ih t' h10 ⟨hr, hs, hs', hr'⟩ h)
  · rw [dif_neg h10] at h; cases h

/-- The converse of `lehmerGuess_euclid`: outside those cases a quotient is guessed. -/
theorem lehmerGuess_lehmer {u v : Nat} {g : Guess} (hu : u < 2 ^ 63) (hvu : v ≤ u) (hv : v ≠ 0) (hq : u / v < 2 ^ 31)
    (hm : u / v ≤ u % v) (h : lehmerGuess u v ⟨1, 0, 0, 1, 0⟩ = .ok g) : g.b ≠ 0 := by
  have hq1 : 1 ≤ u / v := (Nat.one_le_div_iff (by omega)).2 hvu
  have hle : u / v * v ≤ u := Nat.div_mul_le_self u v
  have hlt : u % v < v := Nat.mod_lt _ (by omega)
  have hsum : u / v * v + u % v = u := Nat.div_add_mod' u v
  rw [lehmerGuess, if_neg hv] at h
  dsimp only at h
  generalize u / v = q at *
  have e1 : u64 (1 + u64 (q * 0)) = 1 := by simp [u64]
  have e2 : u64 (0 + u64 (q * 1)) = q := by unfold u64; omega
  have e3 : u64sub u (u64 (q * v)) = u % v := by
    rw [u64_of_lt (by omega)]
    unfold u64sub u64i
    generalize q * v = p at *
    omega
  rw [e1, e2, e3] at h
  generalize u % v = t at *
  have e4 : u64 (t + 1) = t + 1 := by unfold u64; omega
  have e5 : u64sub v 0 = v := by
    have : v < 2 ^ 63 := lt_of_le_of_lt hvu hu
    unfold u64sub u64i; omega
  have e6 : u32 q = q := by unfold u32; omega
  have e7 : u32 1 = 1 := rfl
  rw [e4, e5, e6, e7] at h
  rw [if_neg (show ¬ q > 0xFFFFFFFF by omega), if_neg (show ¬ ((1 : Nat) > 0x7FFFFFFF ∨ q > 0x7FFFFFFF) by omega),
    if_neg (show ¬ (t < q ∨ t + 1 > v) by omega)] at h
  by_cases h4 : t = q
  · rw [if_pos h4] at h
    rw [← Res.ok.inj h]; dsimp only; omega
  rw [if_neg h4] at h
  rw [if_neg (show ¬ t = 0 by omega)] at h
  by_cases h6 : v / t > 0xFFFFFFFF
  · rw [if_pos h6] at h; rw [← Res.ok.inj h]; dsimp only; omega
  rw [if_neg h6] at h
  generalize u64 (1 + u64 (v / t * q)) = r' at h
  generalize u64 (0 + u64 (v / t * 1)) = s' at h
  generalize u64sub v (u64 (v / t * t)) = t' at h
  by_cases h7 : r' > 0x7FFFFFFF ∨ s' > 0x7FFFFFFF
  · rw [if_pos h7] at h; rw [← Res.ok.inj h]; dsimp only; omega
  rw [if_neg h7] at h
  push Not at h7
  have hr' := u32_le (n := r') (by omega)
  have hs' := u32_le (n := s') (by omega)
  by_cases h8 : t' < s' ∨ u64 (t' + r') > u64sub t q
  · rw [if_pos h8] at h; rw [← Res.ok.inj h]; dsimp only; omega
  rw [if_neg h8] at h
  by_cases h9 : t' = u32 s'
  · rw [if_pos h9] at h; rw [← Res.ok.inj h]; dsimp only; omega
  rw [if_neg h9] at h
  by_cases h10 : t' < v
  · rw [dif_pos h10] at h
    have := lehmerGuess_mono _ (show Guess.Small _ from ⟨show 1 ≤ _ by decide, show q ≤ _ by omega, hs', hr'⟩) h
    dsimp only at this
    omega
  · rw [dif_neg h10] at h; cases h

theorem lehmerLoop_ok {a b c d : Int} (ha : 0 ≤ a ∧ a ≤ 0x7FFFFFFF) (hb : 0 ≤ b ∧ b ≤ 0x7FFFFFFF)
    (hc : 0 ≤ c ∧ c ≤ 0x7FFFFFFF) (hd : 0 ≤ d ∧ d ≤ 0x7FFFFFFF) (n : Nat) {xs ys : List Nat} (hx : WordsOk xs) (hy : WordsOk ys)
    (h1 : n ≤ xs.length) (h2 : n ≤ ys.length) {xc yc : Int} (hxc : -2147483648 ≤ xc ∧ xc < 2147483648)
    (hyc : -2147483648 ≤ yc ∧ yc < 2147483648) : lehmerLoop a b c d n xs ys xc yc = .ok () := by
  induction n generalizing xs ys xc yc with
  | zero => rw [lehmerLoop]
  | succ n ih =>
    match xs, ys, h1, h2, hx, hy with
    | [], _, h1, _, _, _ => simp at h1
    | _ :: _, [], _, h2, _, _ => simp at h2
    | x :: xs, y :: ys, h1, h2, hx, hy =>
      obtain ⟨hx1, hx2⟩ := wordsOk_cons.1 hx
      obtain ⟨hy1, hy2⟩ := wordsOk_cons.1 hy
      have key : ∀ (a : Int) (x : Nat), 0 ≤ a ∧ a ≤ 0x7FFFFFFF → x < 4294967296 →
          0 ≤ a * x ∧ a * x ≤ 0x7FFFFFFF * 4294967295 := by
        intro a x h hx
        refine ⟨mul_nonneg h.1 (by omega), ?_⟩
        exact mul_le_mul h.2 (by omega) (by omega) (by decide)
      have k1 := key a x ha hx1
      have k2 := key b y hb hy1
      have k3 := key d y hd hy1
      have k4 := key c x hc hx1
      rw [lehmerLoop]
      generalize a * (x : Int) = p1 at *
      generalize b * (y : Int) = p2 at *
      generalize d * (y : Int) = p3 at *
      generalize c * (x : Int) = p4 at *
      rw [long_ok (by omega) (by omega), Res.ok_bind, long_ok (by omega) (by omega), Res.ok_bind,
        long_ok (by omega) (by omega), Res.ok_bind, long_ok (by omega) (by omega), Res.ok_bind,
        long_ok (by omega) (by omega), Res.ok_bind, long_ok (by omega) (by omega), Res.ok_bind,
        long_ok (by omega) (by omega), Res.ok_bind, long_ok (by omega) (by omega), Res.ok_bind]
      exact ih hx2 hy2 (by simpa using h1) (by simpa using h2) (by omega) (by omega)

theorem refresh_id {N : Nat} {b : BitsBuffer} {x : Nat} (h : Buf N b x) : b.refresh b.length = .ok b := by
  have hs := h.len_le_size
  have hsz := h.size
  unfold BitsBuffer.refresh
  rw [if_neg (by omega), Res.ok_bind, actualLength_ok (by omega) (by rw [h.len]), Res.ok_bind, ← h.len]

/-- Operands of equal length come out of the Lehmer step unchanged. -/
theorem lehmerCore_id {N M : Nat} {xb yb : BitsBuffer} {X Y : Nat} (hx : Buf N xb X) (hy : Buf M yb Y)
    (hl : xb.length = yb.length) (h1 : 1 ≤ yb.length) {g : Guess} (hg : g.Small) : lehmerCore xb yb g = .ok (xb, yb) := by
  obtain ⟨ha, hb, hc, hd⟩ := hg
  have h2 := hx.len_le_size
  have h3 := hy.len_le_size
  have h4 := hx.size
  have h5 := hy.size
  unfold lehmerCore
  rw [cassert_pos (by omega), Res.ok_bind, cassert_pos (by omega), Res.ok_bind, cassert_pos (by omega), Res.ok_bind,
    cassert_pos ⟨ha, hb⟩, Res.ok_bind, cassert_pos ⟨hc, hd⟩, Res.ok_bind,
    lehmerLoop_ok (by omega) (by omega) (by omega) (by omega) _ hx.words hy.words (by omega) (by omega) (by omega) (by omega),
    Res.ok_bind]
  dsimp only
  rw [← hl, refresh_id hx, Res.ok_bind, hl, refresh_id hy, Res.ok_bind]

/-- An even number of guessed quotients on operands of equal length: no way out. -/
theorem gcdLoop_stuck {N M : Nat} {xb yb : BitsBuffer} {X Y : Nat} (hx : Buf N xb X) (hy : Buf M yb Y)
    (hl : xb.length = yb.length) (h3 : 3 ≤ yb.length) (hle : Y ≤ X) {g : Guess}
    (hg : lehmerGuess (X / 2 ^ (Nat.log2 X - 62)) (Y / 2 ^ (Nat.log2 X - 62)) ⟨1, 0, 0, 1, 0⟩ = .ok g)
    (hb : g.b ≠ 0) (hi : g.iteration % 2 = 0) (fuel : Nat) : gcdLoop fuel xb yb = .diverge := by
  have hs := lehmerGuess_small _ (show Guess.Small ⟨1, 0, 0, 1, 0⟩ from ⟨by decide, by decide, by decide, by decide⟩) hg
  induction fuel with
  | zero => rw [gcdLoop]
  | succ fuel ih =>
    rw [gcdLoop, if_pos (by omega), extractDigits_spec hx hy h3 hle, Res.ok_bind]
    dsimp only
    rw [hg, Res.ok_bind, if_neg hb, lehmerCore_id hx hy hl (by omega) hs, Res.ok_bind]
    dsimp only
    rw [if_neg (by omega), ih]

/-- An odd number of guessed quotients swaps them. -/
theorem gcdLoop_swap {N M : Nat} {xb yb : BitsBuffer} {X Y : Nat} (hx : Buf N xb X) (hy : Buf M yb Y)
    (hl : xb.length = yb.length) (h3 : 3 ≤ yb.length) (hle : Y ≤ X) {g : Guess}
    (hg : lehmerGuess (X / 2 ^ (Nat.log2 X - 62)) (Y / 2 ^ (Nat.log2 X - 62)) ⟨1, 0, 0, 1, 0⟩ = .ok g)
    (hb : g.b ≠ 0) (hi : g.iteration % 2 = 1) (fuel : Nat) : gcdLoop (fuel + 1) xb yb = gcdLoop fuel yb xb := by
  have hs := lehmerGuess_small _ (show Guess.Small ⟨1, 0, 0, 1, 0⟩ from ⟨by decide, by decide, by decide, by decide⟩) hg
  rw [gcdLoop, if_pos (by omega), extractDigits_spec hx hy h3 hle, Res.ok_bind]
  dsimp only
  rw [hg, Res.ok_bind, if_neg hb, lehmerCore_id hx hy hl (by omega) hs, Res.ok_bind]
  dsimp only
  rw [if_pos hi]

/-- After which a debug build stops at the assertion of `extract_digits`. -/
theorem gcdLoop_assert {N M : Nat} {xb yb : BitsBuffer} {X Y : Nat} (hx : Buf N xb X) (hy : Buf M yb Y)
    (h3 : 3 ≤ yb.length) (hYX : Y < 2 ^ (Nat.log2 X + 1))
    (hlt : X / 2 ^ (Nat.log2 X - 62) < Y / 2 ^ (Nat.log2 X - 62)) (hd : Cfg.ndebug = false) (fuel : Nat) :
    gcdLoop (fuel + 1) xb yb = .abort := by
  rw [gcdLoop, if_pos (by omega), extractDigits_core hx hy h3 hYX]
  unfold cassert
  rw [if_neg (by omega), hd]
  rfl

/-- While a release build goes on with the operands in the wrong order. -/
theorem gcdLoop_swap_back {N M : Nat} {xb yb : BitsBuffer} {X Y : Nat} (hx : Buf N xb X) (hy : Buf M yb Y)
    (h3 : 3 ≤ yb.length) (hYX : Y < 2 ^ (Nat.log2 X + 1)) (hlt : X < Y) {g : Guess}
    (hg : lehmerGuess (X / 2 ^ (Nat.log2 X - 62)) (Y / 2 ^ (Nat.log2 X - 62)) ⟨1, 0, 0, 1, 0⟩ = .ok g)
    (hb : g.b = 0) (hd : Cfg.ndebug = true) (fuel : Nat) :
    ∃ b, Buf N b X ∧ gcdLoop (fuel + 1) xb yb = gcdLoop fuel yb b := by
  obtain ⟨b, e, k⟩ := reduceBy_spec hx hy (by omega)
  rw [Nat.mod_eq_of_lt hlt] at k
  refine ⟨b, k, ?_⟩
  have hc : cassert (X / 2 ^ (Nat.log2 X - 62) ≥ Y / 2 ^ (Nat.log2 X - 62)) = .ok () := by
    unfold cassert; rw [hd]; split_ifs <;> simp_all
  rw [gcdLoop, if_pos (by omega), extractDigits_core hx hy h3 hYX, hc, Res.ok_bind, Res.ok_bind]
  dsimp only
  rw [hg, Res.ok_bind, if_pos hb, e, Res.ok_bind]

/-- What `greatest_common_divisor` does with operands of three words or more. -/
theorem gcd_big {a b : BigInt} {x y : Int} (ha : a.Denotes x) (hb : b.Denotes y) (hla : a.bits.length < 2147483648)
    (hlb : b.bits.length < 2147483648) (hx : 2 ^ 64 ≤ x.natAbs) (hy : 2 ^ 64 ≤ y.natAbs) (fuel : Nat) :
    ∃ (N M : Nat) (lb rb : BitsBuffer) (k : BitsBuffer × BitsBuffer → Res BigInt), Buf N lb (max x.natAbs y.natAbs) ∧
      Buf M rb (min x.natAbs y.natAbs) ∧ BigInt.gcd fuel a b = (gcdLoop fuel lb rb >>= k) := by
  have gen : ∀ xs ys : List Nat, WordsOk xs → WordsOk ys → xs.getLast? ≠ some 0 → ys.getLast? ≠ some 0 → ys ≠ [] →
      xs.length < 2147483648 → val ys ≤ val xs → 2 ^ 64 ≤ val ys →
      ∃ (N M : Nat) (lb rb : BitsBuffer) (k : BitsBuffer × BitsBuffer → Res BigInt), Buf N lb (val xs) ∧
      Buf M rb (val ys) ∧ gcdBits fuel xs ys = (gcdLoop fuel lb rb >>= k) := by
    intro xs ys hx hy htx hty hne hlx hle h64
    have hlen : ys.length ≤ xs.length := by
      by_contra hc
      have := BigInt.val_lt_of_length hx hne hty (by omega)
      omega
    have h3 : 2 < ys.length := by
      have := (show Buf ys.length ⟨ys, trimLen ys⟩ (val ys) from ⟨rfl, hy, rfl, rfl⟩).len_gt_two.2 h64
      dsimp only at this
      have := trimLen_le ys
      omega
    obtain ⟨lb, e1, k1⟩ := BitsBuffer.ofWords_spec (N := xs.length) hx hlx (trimLen_le _)
    obtain ⟨rb, e2, k2⟩ := BitsBuffer.ofWords_spec (N := ys.length) hy (by omega) (trimLen_le _)
    have l1 : rb.length ≤ lb.length := by
      have hw : WLen lb.length (val xs) := by rw [k1.len, ← k1.value]; exact wlen_trimLen k1.words
      exact k2.len_le (lt_of_le_of_lt hle hw.1)
    have l2 := k2.len_gt_two.2 h64
    have hcmp : (compareWords xs ys ≥ 0) := by
      rw [compareWords_spec hx hy htx hty, if_neg (by omega)]; split_ifs <;> decide
    refine ⟨_, _, lb, rb, ?_, k1, k2, ?_⟩
    rotate_left
    · unfold gcdBits
      rw [cassert_pos hcmp, Res.ok_bind, if_neg (by omega), if_neg (by omega)]
      unfold gcdVec
      rw [cassert_pos (by omega), Res.ok_bind, cassert_pos (by omega), Res.ok_bind, cassert_pos hcmp, Res.ok_bind, e1, Res.ok_bind,
        e2, Res.ok_bind]
      unfold gcdBuffers
      rw [cassert_pos (by omega), Res.ok_bind, cassert_pos (by omega), Res.ok_bind, cassert_pos (by omega), Res.ok_bind]
      rw [Res.bind_assoc, Res.bind_assoc]
  unfold BigInt.gcd
  rw [ha.assertValid, Res.ok_bind, hb.assertValid, Res.ok_bind]
  rcases ha.shape with ⟨rfl, hx1, hx2⟩ | ⟨s, ws, rfl, hs, hne, hw, ht, hv, rfl⟩
  · omega
  rcases hb.shape with ⟨rfl, hy1, hy2⟩ | ⟨s', ws', rfl, hs', hne', hw', ht', hv', rfl⟩
  · omega
  dsimp only at *
  rw [natAbs_unit_mul hs] at hx ⊢
  rw [natAbs_unit_mul hs'] at hy ⊢
  rw [if_neg (by simp [hne]), if_neg hne, if_neg hne', compareWords_spec hw hw' ht ht']
  by_cases h : val ws < val ws'
  · rw [if_pos h, if_pos (by decide), Nat.max_eq_right (le_of_lt h), Nat.min_eq_left (le_of_lt h)]
    exact gen _ _ hw' hw ht' ht hne hlb (le_of_lt h) hx
  · rw [if_neg h, if_neg (by split_ifs <;> decide), Nat.max_eq_left (by omega), Nat.min_eq_right (by omega)]
    exact gen _ _ hw hw' ht ht' hne' hla (by omega) hy

/-- On operands of equal length, `>=` three words, whose first step is a Lehmer step, the loop
never ends normally: the two buffers are at best swapped. -/
theorem gcdLoop_never {X Y n : Nat} (hle : Y ≤ X) (hY : 2 ^ 64 ≤ Y) (hn : WLen n X) (hn' : WLen n Y) (hE : ¬ EuclidStep X Y)
    (fuel : Nat) :
    (∀ N M xb yb r, Buf N xb X → Buf M yb Y → gcdLoop fuel xb yb ≠ .ok r) ∧
    (∀ N M xb yb r, Buf N xb X → Buf M yb Y → gcdLoop fuel yb xb ≠ .ok r) := by
  have hlen : ∀ {N b Z}, Buf N b Z → WLen n Z → b.length = n := by
    intro N b Z h hw
    have : WLen b.length Z := by rw [h.len, ← h.value]; exact wlen_trimLen h.words
    exact this.unique hw
  unfold EuclidStep at hE
  dsimp only at hE
  push Not at hE
  obtain ⟨e1, e2, e3⟩ := hE
  have hu := log2_top X
  have hlt : Y < X := by
    refine lt_of_le_of_ne hle fun h => ?_
    subst h
    rw [Nat.mod_self, Nat.div_self (Nat.pos_of_ne_zero e1)] at e3
    exact absurd e3 (by decide)
  have hvu : Y / 2 ^ (Nat.log2 X - 62) ≤ X / 2 ^ (Nat.log2 X - 62) := Nat.div_le_div_right hle
  induction fuel with
  | zero => exact ⟨fun _ _ _ _ _ _ _ => by rw [gcdLoop]; exact nofun, fun _ _ _ _ _ _ _ => by rw [gcdLoop]; exact nofun⟩
  | succ fuel ih =>
    constructor
    · intro N M xb yb r hx hy
      have h3 := hy.len_gt_two.2 hY
      have l1 := hlen hx hn
      have l2 := hlen hy hn'
      rw [gcdLoop, if_pos (by omega), extractDigits_spec hx hy (by omega) hle, Res.ok_bind]
      dsimp only
      rcases hg : lehmerGuess (X / 2 ^ (Nat.log2 X - 62)) (Y / 2 ^ (Nat.log2 X - 62)) ⟨1, 0, 0, 1, 0⟩ with g | _ | _ | _ | _
      case ok =>
        have hs := lehmerGuess_small _ (show Guess.Small ⟨1, 0, 0, 1, 0⟩ from ⟨by decide, by decide, by decide, by decide⟩) hg
        have hb := lehmerGuess_lehmer hu hvu e1 e2 e3 hg
        rw [Res.ok_bind, if_neg hb, lehmerCore_id hx hy (by omega) (by omega) hs, Res.ok_bind]
        dsimp only
        by_cases hi : g.iteration % 2 = 1
        · rw [if_pos hi]; exact ih.2 _ _ _ _ _ hx hy
        · rw [if_neg hi]; exact ih.1 _ _ _ _ _ hx hy
      all_goals exact nofun
    · intro N M xb yb r hx hy
      have h3 := hy.len_gt_two.2 hY
      have l1 := hlen hx hn
      have l2 := hlen hy hn'
      rw [gcdLoop, if_pos (by omega)]
      rcases he : extractDigits yb xb with ⟨u, v⟩ | _ | _ | _ | _
      case ok =>
        rw [Res.ok_bind]
        dsimp only
        rcases hg : lehmerGuess u v ⟨1, 0, 0, 1, 0⟩ with g | _ | _ | _ | _
        case ok =>
          have hs := lehmerGuess_small _ (show Guess.Small ⟨1, 0, 0, 1, 0⟩ from ⟨by decide, by decide, by decide, by decide⟩) hg
          rw [Res.ok_bind]
          by_cases hb : g.b = 0
          · obtain ⟨b, e, k⟩ := reduceBy_spec hy hx (by omega)
            rw [Nat.mod_eq_of_lt hlt] at k
            rw [if_pos hb, e, Res.ok_bind]
            exact ih.1 _ _ _ _ _ hx k
          rw [if_neg hb, lehmerCore_id hy hx (by omega) (by omega) hs, Res.ok_bind]
          dsimp only
          by_cases hi : g.iteration % 2 = 1
          · rw [if_pos hi]; exact ih.1 _ _ _ _ _ hx hy
          · rw [if_neg hi]; exact ih.2 _ _ _ _ _ hx hy
        all_goals exact nofun
      all_goals exact nofun

theorem gcd_never {a b : BigInt} {x y : Int} (ha : a.Denotes x) (hb : b.Denotes y) (hla : a.bits.length < 2147483648)
    (hlb : b.bits.length < 2147483648) (h64 : 2 ^ 64 ≤ min x.natAbs y.natAbs) (hlen : a.bits.length = b.bits.length)
    (hE : ¬ EuclidStep (max x.natAbs y.natAbs) (min x.natAbs y.natAbs)) (fuel : Nat) (r : BigInt) :
    BigInt.gcd fuel a b ≠ .ok r := by
  obtain ⟨N, M, lb, rb, k, b1, b2, e⟩ := gcd_big ha hb hla hlb (by omega) (by omega) fuel
  have wl : ∀ {c : BigInt} {z : Int}, c.Denotes z → 2 ^ 64 ≤ z.natAbs → WLen c.bits.length z.natAbs := by
    intro c z hc hz
    rcases hc.shape with ⟨rfl, hx1, hx2⟩ | ⟨s, ws, rfl, hs, hne, hw, ht, hv, rfl⟩
    · omega
    · rw [natAbs_unit_mul hs]
      have := wlen_trimLen hw
      rwa [trimLen_of_top ht] at this
  have w1 := wl ha (by omega)
  have w2 := wl hb (by omega)
  rw [← hlen] at w2
  have hw : WLen a.bits.length (max x.natAbs y.natAbs) ∧ WLen a.bits.length (min x.natAbs y.natAbs) := by
    rcases le_total x.natAbs y.natAbs with h | h
    · rw [Nat.max_eq_right h, Nat.min_eq_left h]; exact ⟨w2, w1⟩
    · rw [Nat.max_eq_left h, Nat.min_eq_right h]; exact ⟨w1, w2⟩
  have := (gcdLoop_never (Nat.le_trans (Nat.min_le_left _ _) (Nat.le_max_left _ _)) h64 hw.1 hw.2 hE fuel).1 N M lb rb
  rw [e]
  rcases h : gcdLoop fuel lb rb with v | _ | _ | _ | _
  · exact absurd h (this v b1 b2)
  all_goals exact nofun

/-! ### more fuel changes nothing but `.diverge` -/

/-- The same outcome, unless the left one ran out of fuel. -/
def Res.Le {α : Type} (r r' : Res α) : Prop := r = .diverge ∨ r = r'

theorem Res.Le.refl {α : Type} (r : Res α) : r.Le r := .inr rfl

theorem Res.Le.bind {α β : Type} {r r' : Res α} {f f' : α → Res β} (h : r.Le r') (hf : ∀ x, (f x).Le (f' x)) :
    (r >>= f).Le (r' >>= f') := by
  rcases h with rfl | rfl
  · exact .inl rfl
  · cases r
    · exact hf _
    all_goals exact .inr rfl

theorem gcdLoop_mono (fuel : Nat) (xb yb : BitsBuffer) : (gcdLoop fuel xb yb).Le (gcdLoop (fuel + 1) xb yb) := by
  induction fuel generalizing xb yb with
  | zero => exact .inl (by rw [gcdLoop])
  | succ fuel ih =>
    rw [gcdLoop, gcdLoop.eq_def (fuel + 1 + 1)]
    dsimp only
    by_cases h : yb.length > 2
    · rw [if_pos h, if_pos h]
      refine Res.Le.bind (.refl _) fun ⟨x, y⟩ => Res.Le.bind (.refl _) fun g => ?_
      by_cases hb : g.b = 0
      · rw [if_pos hb, if_pos hb]
        exact Res.Le.bind (.refl _) fun l => ih _ _
      · rw [if_neg hb, if_neg hb]
        refine Res.Le.bind (.refl _) fun ⟨l, r⟩ => ?_
        dsimp only
        by_cases hi : g.iteration % 2 = 1
        · rw [if_pos hi, if_pos hi]; exact ih _ _
        · rw [if_neg hi, if_neg hi]; exact ih _ _
    · rw [if_neg h, if_neg h]; exact .refl _

theorem gcd_mono (fuel : Nat) (a b : BigInt) : (BigInt.gcd fuel a b).Le (BigInt.gcd (fuel + 1) a b) := by
  have hb : ∀ xs ys, (gcdBits fuel xs ys).Le (gcdBits (fuel + 1) xs ys) := by
    intro xs ys
    unfold gcdBits
    refine Res.Le.bind (.refl _) fun _ => ?_
    by_cases h1 : ys.length = 1
    · rw [if_pos h1, if_pos h1]; exact .refl _
    rw [if_neg h1, if_neg h1]
    by_cases h2 : ys.length = 2
    · rw [if_pos h2, if_pos h2]; exact .refl _
    rw [if_neg h2, if_neg h2]
    refine Res.Le.bind ?_ fun _ => .refl _
    unfold gcdVec
    refine Res.Le.bind (.refl _) fun _ => Res.Le.bind (.refl _) fun _ => Res.Le.bind (.refl _) fun _ =>
      Res.Le.bind (.refl _) fun _ => Res.Le.bind (.refl _) fun _ => Res.Le.bind ?_ fun _ => .refl _
    unfold gcdBuffers
    exact Res.Le.bind (.refl _) fun _ => Res.Le.bind (.refl _) fun _ => Res.Le.bind (.refl _) fun _ =>
      Res.Le.bind (gcdLoop_mono _ _ _) fun _ => .refl _
  unfold BigInt.gcd
  refine Res.Le.bind (.refl _) fun _ => Res.Le.bind (.refl _) fun _ => ?_
  by_cases h1 : a.bits = [] ∧ b.bits = []
  · rw [if_pos h1, if_pos h1]; exact .refl _
  rw [if_neg h1, if_neg h1]
  by_cases h2 : a.bits = []
  · rw [if_pos h2, if_pos h2]; exact .refl _
  rw [if_neg h2, if_neg h2]
  by_cases h3 : b.bits = []
  · rw [if_pos h3, if_pos h3]; exact .refl _
  rw [if_neg h3, if_neg h3]
  by_cases h4 : compareWords a.bits b.bits < 0
  · rw [if_pos h4, if_pos h4]; exact hb _ _
  rw [if_neg h4, if_neg h4]; exact hb _ _

theorem gcd_mono_le {fuel fuel' : Nat} (h : fuel ≤ fuel') (a b : BigInt) : (BigInt.gcd fuel a b).Le (BigInt.gcd fuel' a b) := by
  induction h with
  | refl => exact .refl _
  | step h ih =>
    rcases ih with ih | ih
    · exact .inl ih
    · rw [ih]; exact gcd_mono _ a b

/-! ### pairs on which only Euclidean steps are taken -/

theorem euclidStep_of_dvd {x y : Nat} (hx : x ≠ 0) (h : y ∣ x) : EuclidStep x y := by
  unfold EuclidStep
  dsimp only
  obtain ⟨k, rfl⟩ := h
  generalize 2 ^ (Nat.log2 (y * k) - 62) = P
  by_cases hv : y / P = 0
  · exact .inl hv
  have hk : k ≠ 0 := by rintro rfl; exact hx (Nat.mul_zero _)
  right; right
  -- u ≥ k * v, u - k*v < k
  have hP : 0 < P := by
    by_contra h0; apply hv; rw [show P = 0 by omega, Nat.div_zero]
  have h1 : k * (y / P) ≤ y * k / P := by
    rw [Nat.le_div_iff_mul_le hP]
    calc k * (y / P) * P = k * (y / P * P) := by ring
      _ ≤ k * y := Nat.mul_le_mul_left _ (Nat.div_mul_le_self _ _)
      _ = y * k := by ring
  have h2 : y * k / P < k * (y / P) + k := by
    rw [Nat.div_lt_iff_lt_mul hP]
    have : y < (y / P + 1) * P := Nat.lt_mul_of_div_lt (Nat.lt_succ_self _) hP
    calc y * k < (y / P + 1) * P * k := Nat.mul_lt_mul_of_pos_right this (by omega)
      _ = (k * (y / P) + k) * P := by ring
  generalize y / P = v at *
  generalize y * k / P = u at *
  have hv0 : 0 < v := by omega
  have h3 : k ≤ u / v := by rw [Nat.le_div_iff_mul_le hv0]; exact h1
  by_cases h4 : u / v = k
  · have := Nat.div_add_mod u v
    rw [h4, Nat.mul_comm] at this
    omega
  · -- then v < k
    have h5 : (k + 1) * v ≤ u := by
      have : k + 1 ≤ u / v := by omega
      exact (Nat.le_div_iff_mul_le hv0).1 this
    have h6 : u % v < v := Nat.mod_lt _ hv0
    have h7 : v < k := by rw [Nat.add_mul, Nat.one_mul] at h5; omega
    omega

theorem euclidOnly_of_dvd {x y : Nat} (hx : x ≠ 0) (h : y ∣ x) : EuclidOnly x y := by
  by_cases hy : y < 2 ^ 64
  · exact .small _ _ hy
  · exact .step _ _ (by omega) (euclidStep_of_dvd hx h) (.small _ _ (by rw [Nat.mod_eq_zero_of_dvd h]; decide))

theorem euclidStep_of_far {x y : Nat} (h : 2 ^ 32 * y ≤ x) : EuclidStep x y := by
  unfold EuclidStep
  dsimp only
  generalize hP : 2 ^ (Nat.log2 x - 62) = P
  have hP0 : 0 < P := by rw [← hP]; positivity
  by_cases hv : y / P = 0
  · exact .inl hv
  right; left
  rw [Nat.le_div_iff_mul_le (Nat.pos_of_ne_zero hv), Nat.le_div_iff_mul_le hP0]
  have := Nat.div_mul_le_self y P
  generalize y / P = v at *
  rw [Nat.mul_assoc]
  omega

/-! ### multiples of a power of `2^32` -/

theorem log2_shift {p j k : Nat} (h1 : 2 ^ k ≤ p) (h2 : p < 2 ^ (k + 1)) : Nat.log2 (p * 2 ^ (32 * j)) = k + 32 * j := by
  have : p * 2 ^ (32 * j) ≠ 0 := Nat.mul_ne_zero (by have : 0 < 2 ^ k := by positivity
                                                     omega) (by positivity)
  rw [Nat.log2_eq_iff this]
  constructor
  · rw [pow_add]; exact Nat.mul_le_mul_right _ h1
  · rw [show k + 32 * j + 1 = (k + 1) + 32 * j by omega, pow_add]
    exact Nat.mul_lt_mul_of_pos_right h2 (by positivity)

theorem top_shift {p q j k : Nat} (h1 : 2 ^ k ≤ p) (h2 : p < 2 ^ (k + 1)) (hk : k ≤ 62) (hj : 2 ≤ j) :
    (q * 2 ^ (32 * j)) / 2 ^ (Nat.log2 (p * 2 ^ (32 * j)) - 62) = q * 2 ^ (62 - k) := by
  rw [log2_shift h1 h2]
  have e : 2 ^ (32 * j) = 2 ^ (62 - k) * 2 ^ (k + 32 * j - 62) := by rw [← pow_add]; congr 1; omega
  rw [e, ← mul_assoc, Nat.mul_div_cancel _ (by positivity)]

theorem Buf.shift_len {N : Nat} {b : BitsBuffer} {p j : Nat} (h : Buf N b (p * 2 ^ (32 * j))) (h1 : 1 ≤ p) (h2 : p < 4294967296) :
    b.length = j + 1 := by
  have hw : WLen b.length (p * 2 ^ (32 * j)) := by rw [h.len, ← h.value]; exact wlen_trimLen h.words
  refine hw.unique ⟨?_, .inr ?_⟩
  · rw [← base_pow, pow_succ, Nat.mul_comm]; exact Nat.mul_lt_mul_of_pos_left h2 (by positivity)
  · rw [Nat.add_sub_cancel, ← base_pow]
    calc 𝔹 ^ j = 1 * 𝔹 ^ j := (one_mul _).symm
      _ ≤ p * 𝔹 ^ j := Nat.mul_le_mul_right _ h1

theorem guess53 : lehmerGuess (5 * 2 ^ (62 - 2)) (3 * 2 ^ (62 - 2)) ⟨1, 0, 0, 1, 0⟩ = .ok ⟨1, 1, 1, 2, 2⟩ := by decide +kernel
theorem guess32 : lehmerGuess (3 * 2 ^ (62 - 1)) (2 * 2 ^ (62 - 1)) ⟨1, 0, 0, 1, 0⟩ = .ok ⟨1, 1, 0, 1, 1⟩ := by decide +kernel
theorem guess23 : lehmerGuess (2 * 2 ^ (62 - 1)) (3 * 2 ^ (62 - 1)) ⟨1, 0, 0, 1, 0⟩ = .ok ⟨1, 0, 1, 1, 2⟩ := by decide +kernel

theorem pow_ge_64 {j : Nat} (hj : 2 ≤ j) : (2 : Nat) ^ 64 ≤ 2 ^ (32 * j) := Nat.pow_le_pow_right (by decide) (by omega)

theorem gcd_diverges {a b : BigInt} {x y : Int} {j : Nat} (hj : 2 ≤ j) (ha : a.Denotes x) (hb : b.Denotes y)
    (hla : a.bits.length < 2147483648) (hlb : b.bits.length < 2147483648)
    (hx : x.natAbs = 5 * 2 ^ (32 * j)) (hy : y.natAbs = 3 * 2 ^ (32 * j)) (fuel : Nat) : BigInt.gcd fuel a b = .diverge := by
  have hp := pow_ge_64 hj
  obtain ⟨N, M, lb, rb, k, b1, b2, e⟩ := gcd_big ha hb hla hlb (by omega) (by omega) fuel
  rw [hx, hy, Nat.max_eq_left (by omega)] at b1
  rw [hx, hy, Nat.min_eq_right (by omega)] at b2
  have l1 := b1.shift_len (by decide) (by decide)
  have l2 := b2.shift_len (by decide) (by decide)
  rw [e, gcdLoop_stuck b1 b2 (by omega) (by omega) (by omega)
    (by rw [top_shift (k := 2) (by decide) (by decide) (by decide) hj,
          top_shift (k := 2) (by decide) (by decide) (by decide) hj]; exact guess53) (by decide) (by decide) fuel]
  rfl

theorem gcd_aborts {a b : BigInt} {x y : Int} {j : Nat} (hj : 2 ≤ j) (ha : a.Denotes x) (hb : b.Denotes y)
    (hla : a.bits.length < 2147483648) (hlb : b.bits.length < 2147483648)
    (hx : x.natAbs = 3 * 2 ^ (32 * j)) (hy : y.natAbs = 2 * 2 ^ (32 * j)) (hd : Cfg.ndebug = false) (fuel : Nat) :
    BigInt.gcd (fuel + 2) a b = .abort := by
  have hp := pow_ge_64 hj
  obtain ⟨N, M, lb, rb, k, b1, b2, e⟩ := gcd_big ha hb hla hlb (by omega) (by omega) (fuel + 2)
  rw [hx, hy, Nat.max_eq_left (by omega)] at b1
  rw [hx, hy, Nat.min_eq_right (by omega)] at b2
  have l1 := b1.shift_len (by decide) (by decide)
  have l2 := b2.shift_len (by decide) (by decide)
  rw [e, gcdLoop_swap b1 b2 (by omega) (by omega) (by omega)
    (by rw [top_shift (k := 1) (by decide) (by decide) (by decide) hj,
          top_shift (k := 1) (by decide) (by decide) (by decide) hj]; exact guess32) (by decide) (by decide) (fuel + 1),
    gcdLoop_assert b2 b1 (by omega) (by
      rw [log2_shift (k := 1) (by decide) (by decide), show 1 + 32 * j + 1 = 2 + 32 * j by omega, pow_add]; omega)
      (by rw [top_shift (k := 1) (by decide) (by decide) (by decide) hj,
          top_shift (k := 1) (by decide) (by decide) (by decide) hj]; decide) hd]
  rfl

theorem gcdLoop_cycle {j : Nat} (hj : 2 ≤ j) (hd : Cfg.ndebug = true) (fuel : Nat) :
    (∀ N M lb rb, Buf N lb (3 * 2 ^ (32 * j)) → Buf M rb (2 * 2 ^ (32 * j)) → gcdLoop fuel lb rb = .diverge) ∧
    (∀ N M lb rb, Buf N lb (2 * 2 ^ (32 * j)) → Buf M rb (3 * 2 ^ (32 * j)) → gcdLoop fuel lb rb = .diverge) := by
  have hp := pow_ge_64 hj
  induction fuel with
  | zero => exact ⟨fun _ _ _ _ _ _ => by rw [gcdLoop], fun _ _ _ _ _ _ => by rw [gcdLoop]⟩
  | succ fuel ih =>
    constructor
    · intro N M lb rb b1 b2
      have l1 := b1.shift_len (by decide) (by decide)
      have l2 := b2.shift_len (by decide) (by decide)
      rw [gcdLoop_swap b1 b2 (by omega) (by omega) (by omega)
        (by rw [top_shift (k := 1) (by decide) (by decide) (by decide) hj,
          top_shift (k := 1) (by decide) (by decide) (by decide) hj]; exact guess32) (by decide) (by decide) fuel]
      exact ih.2 _ _ _ _ b2 b1
    · intro N M lb rb b1 b2
      have l2 := b2.shift_len (by decide) (by decide)
      obtain ⟨b, k1, k2⟩ := gcdLoop_swap_back b1 b2 (by omega) (by
        rw [log2_shift (k := 1) (by decide) (by decide), show 1 + 32 * j + 1 = 2 + 32 * j by omega, pow_add]; omega) (by omega)
        (by rw [top_shift (k := 1) (by decide) (by decide) (by decide) hj,
          top_shift (k := 1) (by decide) (by decide) (by decide) hj]; exact guess23) (by decide) hd fuel
      rw [k2]
      exact ih.1 _ _ _ _ b2 k1

theorem gcd_cycles {a b : BigInt} {x y : Int} {j : Nat} (hj : 2 ≤ j) (ha : a.Denotes x) (hb : b.Denotes y)
    (hla : a.bits.length < 2147483648) (hlb : b.bits.length < 2147483648)
    (hx : x.natAbs = 3 * 2 ^ (32 * j)) (hy : y.natAbs = 2 * 2 ^ (32 * j)) (hd : Cfg.ndebug = true) (fuel : Nat) :
    BigInt.gcd fuel a b = .diverge := by
  have hp := pow_ge_64 hj
  obtain ⟨N, M, lb, rb, k, b1, b2, e⟩ := gcd_big ha hb hla hlb (by omega) (by omega) fuel
  rw [hx, hy, Nat.max_eq_left (by omega)] at b1
  rw [hx, hy, Nat.min_eq_right (by omega)] at b2
  rw [e, (gcdLoop_cycle hj hd fuel).1 _ _ _ _ b1 b2]
  rfl

end BigIntegerCpp
