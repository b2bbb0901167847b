import Verif.Lemmas.GcdStuck
/-
A Lehmer step on operands whose lengths differ: the longer one is cut to its low words, the lowest of
which is overwritten.
-/
set_option linter.unusedSectionVars false
namespace BigIntegerCpp
variable [Cfg]

/-- The words of `t·2^(32k) + r1·2^32 + r0`. -/
def cutWords (t r1 r0 k : Nat) : List Nat := r0 :: r1 :: (List.replicate (k - 2) 0 ++ [t])

theorem cutWords_length {t r1 r0 k : Nat} (hk : 2 ≤ k) : (cutWords t r1 r0 k).length = k + 1 := by
  simp [cutWords]; omega

theorem val_cut (t r1 r0 k : Nat) (hk : 2 ≤ k) : val (cutWords t r1 r0 k) = t * 𝔹 ^ k + r1 * 𝔹 + r0 := by
  unfold cutWords
  rw [val_cons, val_cons, val_append, val_replicate_zero, val_singleton, List.length_replicate]
  obtain ⟨j, rfl⟩ : ∃ j, k = j + 2 := ⟨k - 2, by omega⟩
  rw [Nat.add_sub_cancel, pow_succ, pow_succ]; ring

theorem wordsOk_cut {t r1 r0 : Nat} (k : Nat) (ht : t < 𝔹) (hr1 : r1 < 𝔹) (hr : r0 < 𝔹) : WordsOk (cutWords t r1 r0 k) := by
  intro w hw
  rcases List.mem_cons.1 hw with rfl | hw
  · exact hr
  rcases List.mem_cons.1 hw with rfl | hw
  · exact hr1
  rcases List.mem_append.1 hw with hw | hw
  · rw [List.eq_of_mem_replicate hw]; decide
  · rw [List.mem_singleton.1 hw]; exact ht

theorem take_cut (t r1 r0 : Nat) {k : Nat} (hk : 2 ≤ k) : (cutWords t r1 r0 k).take k = r0 :: r1 :: List.replicate (k - 2) 0 := by
  obtain ⟨j, rfl⟩ : ∃ j, k = j + 2 := ⟨k - 2, by omega⟩
  unfold cutWords
  simp

theorem trimLen_zeros (xs : List Nat) (n : Nat) : trimLen (xs ++ List.replicate n 0) = trimLen xs := by
  induction xs with
  | nil =>
    have h : val (List.replicate n 0) = 0 := val_replicate_zero n
    have := trimLen_le_of_val (xs := List.replicate n 0) (n := 0) (by rw [h]; decide)
    simp at this ⊢
    simpa [trimLen] using this
  | cons x xs ih => simp only [List.cons_append, trimLen, ih]

/-- `Refresh` cuts `t·2^(32k) + r` down to `r` with `k` in place of its lowest word. -/
theorem refresh_cut {t r1 r0 k : Nat} (hk : 2 ≤ k) (hk2 : k < 2147483648) :
    BitsBuffer.refresh ⟨cutWords t r1 r0 k, k + 1⟩ k = .ok ⟨cutWords t r1 k k, if r1 = 0 then 1 else 2⟩ := by
  unfold BitsBuffer.refresh
  dsimp only
  have hu : u32 k = k := by unfold u32; omega
  rw [if_pos (by omega), show k + 1 - k = 1 by omega, slice_prefix (by rw [cutWords_length hk]; omega), Res.ok_bind, Res.ok_bind, hu]
  have e : List.replicate 1 k ++ (cutWords t r1 r0 k).drop 1 = cutWords t r1 k k := rfl
  rw [e]
  unfold actualLength
  rw [slice_prefix (by rw [cutWords_length hk]; omega), Res.ok_bind, Res.ok_bind, take_cut _ _ _ hk,
    show k :: r1 :: List.replicate (k - 2) 0 = [k, r1] ++ List.replicate (k - 2) 0 by rfl, trimLen_zeros]
  congr 2
  have : k ≠ 0 := by omega
  by_cases h : r1 = 0 <;> simp [trimLen, h, this]

/-- The Lehmer step on such operands. -/
theorem lehmerCore_cut {t r1 r0 k : Nat} (hk : 3 ≤ k) (hk2 : k < 2147483648) (ht : t < 𝔹) (hr1 : r1 < 𝔹) (hr0 : r0 < 𝔹)
    {M : Nat} {yb : BitsBuffer} {Y : Nat} (hy : Buf M yb Y) (hl : yb.length = k) {g : Guess} (hg : g.Small) :
    lehmerCore ⟨cutWords t r1 r0 k, k + 1⟩ yb g = .ok (⟨cutWords t r1 k k, if r1 = 0 then 1 else 2⟩, yb) := by
  obtain ⟨ha, hb, hc, hd⟩ := hg
  have h3 := hy.len_le_size
  have h5 := hy.size
  unfold lehmerCore
  dsimp only
  rw [cassert_pos (by omega), Res.ok_bind, cassert_pos (by omega), Res.ok_bind, cassert_pos (by omega), Res.ok_bind,
    cassert_pos ⟨ha, hb⟩, Res.ok_bind, cassert_pos ⟨hc, hd⟩, Res.ok_bind,
    lehmerLoop_ok (by omega) (by omega) (by omega) (by omega) _ (wordsOk_cut k ht hr1 hr0) hy.words
      (by rw [cutWords_length (by omega)]; omega) (by omega) (by omega) (by omega),
    Res.ok_bind, hl, refresh_cut (by omega) hk2, Res.ok_bind, ← hl, refresh_id hy, Res.ok_bind]

/-- `gcd(BitsBuffer&, BitsBuffer&)` from there on. -/
theorem gcdBuffers_cut {t r1 r0 k : Nat} (hk : 3 ≤ k) (hk2 : k < 2147483647) (ht0 : 0 < t) (ht : t < 𝔹) (hr1 : r1 < 𝔹) (hr0 : r0 < 𝔹)
    {xb yb : BitsBuffer} {Y : Nat} (hx : Buf (k + 1) xb (t * 𝔹 ^ k + r1 * 𝔹 + r0)) (hy : Buf k yb Y) (hl : yb.length = k)
    {g : Guess}
    (hg : lehmerGuess ((t * 𝔹 ^ k + r1 * 𝔹 + r0) / 2 ^ (Nat.log2 (t * 𝔹 ^ k + r1 * 𝔹 + r0) - 62))
      (Y / 2 ^ (Nat.log2 (t * 𝔹 ^ k + r1 * 𝔹 + r0) - 62)) ⟨1, 0, 0, 1, 0⟩ = .ok g)
    (hb : g.b ≠ 0) (hi : g.iteration % 2 = 1) (fuel : Nat) :
    ∃ r, gcdBuffers (fuel + 2) xb yb = .ok r ∧ r.bits.length < 2147483648 ∧ WordsOk r.bits ∧
      val r.bits = Nat.gcd (r1 * 𝔹 + k) Y := by
  have hs := lehmerGuess_small _ (show Guess.Small ⟨1, 0, 0, 1, 0⟩ from ⟨by decide, by decide, by decide, by decide⟩) hg
  have hYlt : Y < 𝔹 ^ k := by
    have := val_lt hy.words
    rwa [hy.value, hy.size] at this
  have hle : Y ≤ t * 𝔹 ^ k + r1 * 𝔹 + r0 := by
    have : 1 * 𝔹 ^ k ≤ t * 𝔹 ^ k := Nat.mul_le_mul_right _ ht0
    omega
  have ex : xb = ⟨cutWords t r1 r0 k, k + 1⟩ := by
    have e1 : xb.bits = cutWords t r1 r0 k :=
      val_inj hx.words (wordsOk_cut k ht hr1 hr0) (by rw [hx.size, cutWords_length (by omega)]) (by rw [hx.value, val_cut _ _ _ _ (by omega)])
    have e2 : xb.length = k + 1 := by
      rw [hx.len, e1, trimLen_of_top, cutWords_length (by omega)]
      rw [show cutWords t r1 r0 k = (r0 :: r1 :: List.replicate (k - 2) 0) ++ [t] from rfl, List.getLast?_concat]
      simp; omega
    cases xb
    dsimp only at e1 e2
    rw [e1, e2]
  have hloop : gcdLoop (fuel + 2) xb yb = .ok (yb, ⟨cutWords t r1 k k, if r1 = 0 then 1 else 2⟩) := by
    rw [gcdLoop, if_pos (by omega), extractDigits_spec hx hy (by omega) hle, Res.ok_bind]
    dsimp only
    rw [hg, Res.ok_bind, if_neg hb, ex, lehmerCore_cut hk (by omega) ht hr1 hr0 hy hl hs, Res.ok_bind]
    dsimp only
    rw [if_pos hi, gcdLoop, if_neg (by dsimp only; split_ifs <;> omega)]
  have hlen1 : (if r1 = 0 then 1 else 2) = trimLen [k, r1] := by
    have : k ≠ 0 := by omega
    by_cases h : r1 = 0 <;> simp [trimLen, h, this]
  have hw2 : WordsOk [k, r1] := by rw [wordsOk_cons, wordsOk_cons]; exact ⟨by omega, hr1, nofun⟩
  have hv2 : val [k, r1] = r1 * 𝔹 + k := by rw [val_cons, val_singleton]; ring
  unfold gcdBuffers
  rw [cassert_pos (by rw [ex]; dsimp only; omega), Res.ok_bind, cassert_pos (by omega), Res.ok_bind, cassert_pos (by rw [ex]; dsimp only; omega), Res.ok_bind,
    hloop, Res.ok_bind]
  dsimp only
  rw [if_pos (by split_ifs <;> omega)]
  have hm : slice (cutWords t r1 k k) 0 (if r1 = 0 then 1 else 2) = .ok ([k, r1].take (trimLen [k, r1])) := by
    rw [slice_prefix (by rw [cutWords_length (by omega)]; split_ifs <;> omega), ← hlen1]
    by_cases h : r1 = 0 <;> simp [h, cutWords]
  obtain ⟨c, e3, k3⟩ := BitsBuffer.reduce_spec hy (m := [k, r1].take (trimLen [k, r1])) (hw2.take _)
    (by rw [← hlen1]; split_ifs <;> simp)
    (by rw [← hlen1]; split_ifs with h <;> simp [h]; omega)
  rw [val_take_trimLen, hv2] at k3
  have hpos : 0 < r1 * 𝔹 + k := by omega
  have hsmall : r1 * 𝔹 + k < 2 ^ 64 := by omega
  have hlt := Nat.mod_lt Y hpos
  have sc := k3.size
  unfold BitsBuffer.reduceBy
  dsimp only
  have i1 : idx (cutWords t r1 k k) 1 = .ok r1 := rfl
  have i0 : idx (cutWords t r1 k k) 0 = .ok k := rfl
  have b2 : Buf 2 ⟨[k, r1], trimLen [k, r1]⟩ (r1 * 𝔹 + k) := ⟨rfl, hw2, hv2, rfl⟩
  have lo := b2.low64 hsmall
  simp only [List.getElem?_cons_succ, List.getElem?_cons_zero, Option.getD_some] at lo
  rw [hm, Res.ok_bind, e3, Res.ok_bind, i1, Res.ok_bind, i0, Res.ok_bind, idx_getD (by omega), Res.ok_bind,
    idx_getD (by omega), Res.ok_bind, lo, k3.low64 (by omega), gcd64_spec]
  obtain ⟨r, e4, q1, q2, q3⟩ := overwrite_spec k3 (by omega) (by omega) (v := Nat.gcd (r1 * 𝔹 + k) (Y % (r1 * 𝔹 + k)))
    (lt_of_le_of_lt (Nat.gcd_le_left _ hpos) hsmall)
  refine ⟨r, e4, by omega, q2, ?_⟩
  rw [q3, Nat.gcd_comm, ← Nat.gcd_rec]

/-- `greatest_common_divisor` on operands of three words or more, in terms of `gcd(BitsBuffer&, BitsBuffer&)`. -/
theorem gcd_big_tail {a b : BigInt} {x y : Int} (ha : a.Denotes x) (hb : b.Denotes y) (hla : a.bits.length < 2147483648)
    (hlb : b.bits.length < 2147483648) (hx : 2 ^ 64 ≤ x.natAbs) (hy : 2 ^ 64 ≤ y.natAbs) (fuel : Nat) :
    ∃ (N M : Nat) (lb rb : BitsBuffer), WLen N (max x.natAbs y.natAbs) ∧ WLen M (min x.natAbs y.natAbs) ∧
      Buf N lb (max x.natAbs y.natAbs) ∧ Buf M rb (min x.natAbs y.natAbs) ∧
      BigInt.gcd fuel a b = (gcdBuffers fuel lb rb >>= fun r => ofMagnitude r.bits false) := by
  have gen : ∀ xs ys : List Nat, WordsOk xs → WordsOk ys → xs.getLast? ≠ some 0 → ys.getLast? ≠ some 0 → ys ≠ [] →
      xs.length < 2147483648 → val ys ≤ val xs → 2 ^ 64 ≤ val ys →
      ∃ (N M : Nat) (lb rb : BitsBuffer), WLen N (val xs) ∧ WLen M (val ys) ∧ Buf N lb (val xs) ∧
      Buf M rb (val ys) ∧ gcdBits fuel xs ys = (gcdBuffers fuel lb rb >>= fun r => ofMagnitude r.bits false) := by
    intro xs ys hx hy htx hty hne hlx hle h64
    have hlen : ys.length ≤ xs.length := by
      by_contra hc
      have := BigInt.val_lt_of_length hx hne hty (by omega)
      omega
    have h3 : 2 < ys.length := by
      have := (show Buf ys.length ⟨ys, trimLen ys⟩ (val ys) from ⟨rfl, hy, rfl, rfl⟩).len_gt_two.2 h64
      dsimp only at this
      have := trimLen_le ys
      omega
    obtain ⟨lb, e1, k1⟩ := BitsBuffer.ofWords_spec (N := xs.length) hx hlx (trimLen_le _)
    obtain ⟨rb, e2, k2⟩ := BitsBuffer.ofWords_spec (N := ys.length) hy (by omega) (trimLen_le _)
    have hcmp : (compareWords xs ys ≥ 0) := by
      rw [compareWords_spec hx hy htx hty, if_neg (by omega)]; split_ifs <;> decide
    refine ⟨_, _, lb, rb, ?_, ?_, k1, k2, ?_⟩
    · have := wlen_trimLen hx
      rwa [trimLen_of_top htx] at this
    · have := wlen_trimLen hy
      rwa [trimLen_of_top hty] at this
    · unfold gcdBits
      rw [cassert_pos hcmp, Res.ok_bind, if_neg (by omega), if_neg (by omega)]
      unfold gcdVec
      rw [cassert_pos (by omega), Res.ok_bind, cassert_pos (by omega), Res.ok_bind, cassert_pos hcmp, Res.ok_bind, e1, Res.ok_bind,
        e2, Res.ok_bind, Res.bind_assoc]
      rfl
  unfold BigInt.gcd
  rw [ha.assertValid, Res.ok_bind, hb.assertValid, Res.ok_bind]
  rcases ha.shape with ⟨rfl, hx1, hx2⟩ | ⟨s, ws, rfl, hs, hne, hw, ht, hv, rfl⟩
  · omega
  rcases hb.shape with ⟨rfl, hy1, hy2⟩ | ⟨s', ws', rfl, hs', hne', hw', ht', hv', rfl⟩
  · omega
  dsimp only at *
  rw [natAbs_unit_mul hs] at hx ⊢
  rw [natAbs_unit_mul hs'] at hy ⊢
  rw [if_neg (by simp [hne]), if_neg hne, if_neg hne', compareWords_spec hw hw' ht ht']
  by_cases h : val ws < val ws'
  · rw [if_pos h, if_pos (by decide), Nat.max_eq_right (le_of_lt h), Nat.min_eq_left (le_of_lt h)]
    exact gen _ _ hw' hw ht' ht hne hlb (le_of_lt h) hx
  · rw [if_neg h, if_neg (by split_ifs <;> decide), Nat.max_eq_left (by omega), Nat.min_eq_right (by omega)]
    exact gen _ _ hw hw' ht ht' hne' hla (by omega) hy

/-- The two leading digits of `2^(32k) + r` and `3·2^(32k-2) + s`. -/
theorem cut_digits {k r s : Nat} (hk : 3 ≤ k) (hr : r < 2 ^ 64) (hs : s < 2 ^ (32 * k - 62)) :
    (2 ^ (32 * k) + r) / 2 ^ (Nat.log2 (2 ^ (32 * k) + r) - 62) = 2 ^ 62 + r / 2 ^ (32 * k - 62) ∧
    (3 * 2 ^ (32 * k - 2) + s) / 2 ^ (Nat.log2 (2 ^ (32 * k) + r) - 62) = 3 * 2 ^ 60 := by
  have hlog : Nat.log2 (2 ^ (32 * k) + r) = 32 * k := by
    rw [Nat.log2_eq_iff (by have := Nat.two_pow_pos (32 * k); omega)]
    have : 2 ^ 64 ≤ 2 ^ (32 * k) := Nat.pow_le_pow_right (by decide) (by omega)
    rw [pow_succ]; omega
  rw [hlog]
  have hp := Nat.two_pow_pos (32 * k - 62)
  have e1 : 2 ^ (32 * k) = 2 ^ (32 * k - 62) * 2 ^ 62 := by rw [← pow_add]; congr 1; omega
  have e2 : 3 * 2 ^ (32 * k - 2) = 2 ^ (32 * k - 62) * (3 * 2 ^ 60) := by
    rw [Nat.mul_left_comm, ← pow_add]; congr 2; omega
  rw [e1, e2]
  generalize 2 ^ (32 * k - 62) = P at *
  constructor
  · rw [Nat.mul_add_div hp]
  · rw [Nat.mul_add_div hp, Nat.div_eq_of_lt hs, Nat.add_zero]

/-- `greatest_common_divisor(2^(32k) + r, 3·2^(32k-2) + s)`. -/
theorem gcd_cut {a b : BigInt} {x y : Int} (ha : a.Denotes x) (hb : b.Denotes y) (fa : a.Fits) (fb : b.Fits)
    {k r s : Nat} (hk : 3 ≤ k) (hr : r < 2 ^ 64) (hr' : r < 2 ^ (32 * k - 62)) (hs : s < 2 ^ (32 * k - 62))
    (h : x.natAbs = 2 ^ (32 * k) + r ∧ y.natAbs = 3 * 2 ^ (32 * k - 2) + s ∨
      y.natAbs = 2 ^ (32 * k) + r ∧ x.natAbs = 3 * 2 ^ (32 * k - 2) + s) (fuel : Nat) (hf : 2 ≤ fuel) :
    Returns (BigInt.gcd fuel a b) (Nat.gcd (r / 2 ^ 32 * 2 ^ 32 + k) (3 * 2 ^ (32 * k - 2) + s)) := by
  obtain ⟨d1, d2⟩ := cut_digits hk hr hs
  rw [Nat.div_eq_of_lt hr', Nat.add_zero] at d1
  have hp := Nat.two_pow_pos (32 * k - 62)
  have e2 : 2 ^ (32 * k - 2) = 2 ^ (32 * k - 62) * 2 ^ 60 := by rw [← pow_add]; congr 1; omega
  have e4 : 2 ^ (32 * k) = 2 ^ (32 * k - 62) * 2 ^ 62 := by rw [← pow_add]; congr 1; omega
  have h64 : 2 ^ 64 ≤ 2 ^ (32 * k - 2) := Nat.pow_le_pow_right (by decide) (by omega)
  have hprev : 𝔹 ^ (k - 1) ≤ 2 ^ (32 * k - 2) := by
    rw [base_pow]; exact Nat.pow_le_pow_right (by decide) (by omega)
  have hX : WLen (k + 1) (2 ^ (32 * k) + r) := by
    refine ⟨?_, .inr ?_⟩
    · rw [base_pow, show 32 * (k + 1) = 32 * k + 32 by ring, pow_add]; omega
    · rw [base_pow, Nat.add_sub_cancel]; omega
  have hY : WLen k (3 * 2 ^ (32 * k - 2) + s) := by
    refine ⟨?_, .inr ?_⟩
    · rw [base_pow]; omega
    · omega
  have hXe : 2 ^ (32 * k) + r = 1 * 𝔹 ^ k + r / 𝔹 * 𝔹 + r % 𝔹 := by
    rw [base_pow]; omega
  have hmax : max x.natAbs y.natAbs = 2 ^ (32 * k) + r ∧ min x.natAbs y.natAbs = 3 * 2 ^ (32 * k - 2) + s := by
    omega
  obtain ⟨N, M, lb, rb, n1, n2, b1, b2, e⟩ := gcd_big_tail ha hb (Nat.lt_succ_of_lt fa) (Nat.lt_succ_of_lt fb) (by omega) (by omega) fuel
  rw [hmax.1] at n1 b1
  rw [hmax.2] at n2 b2
  rw [n1.unique hX] at b1
  rw [n2.unique hY] at b2
  have hkb : k < 2147483647 := by
    have key : ∀ {c : BigInt} {z : Int}, c.Denotes z → c.Fits → z.natAbs = 2 ^ (32 * k) + r → k < 2147483647 := by
      intro c z hc fc hz
      have := hc.lt_length (k := k) (by omega) (by omega)
      unfold BigInt.Fits at fc
      omega
    rcases h with h | h
    · exact key ha fa h.1
    · exact key hb fb h.1
  have hl : rb.length = k := by
    have : WLen rb.length (3 * 2 ^ (32 * k - 2) + s) := by rw [b2.len, ← b2.value]; exact wlen_trimLen b2.words
    exact this.unique hY
  obtain ⟨fuel, rfl⟩ : ∃ f, fuel = f + 2 := ⟨fuel - 2, by omega⟩
  rw [hXe] at b1 d1 d2
  obtain ⟨q, e3, q1, q2, q3⟩ := gcdBuffers_cut (g := ⟨1, 1, 0, 1, 1⟩) hk (by omega) (by decide) (by decide) (by omega) (by omega) b1 b2 hl
    (by rw [d1, d2]; decide +kernel) (by decide) (by decide) fuel
  rw [e, e3, Res.ok_bind]
  exact returns_ofMagnitude q2 q1 (by rw [q3]; rfl)

end BigIntegerCpp
