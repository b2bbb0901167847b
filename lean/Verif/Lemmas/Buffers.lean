import Verif.BuffersSpec
import Verif.Lemmas.FastReducer
/-
Helper lemmas for C90.
-/
set_option linter.unusedSectionVars false
namespace BigIntegerCpp
variable [Cfg]

theorem two_pow_words (n : Nat) : 2 ^ (32 * n) = 𝔹 ^ n := by rw [pow_mul]; norm_num

theorem val_digits (x n : Nat) : val ((List.range n).map fun k => x / 2 ^ (32 * k) % 2 ^ 32) = x % 𝔹 ^ n := by
  induction n with
  | zero => simp [Nat.mod_one]
  | succ n ih =>
    rw [List.range_succ, List.map_append, val_append, ih, List.map_singleton, val_singleton, List.length_map, List.length_range,
      two_pow_words, pow_succ 𝔹 n, show (2 : Nat) ^ 32 = 𝔹 from rfl, Nat.mod_mul (x := x)]

theorem shows_iff {N x : Nat} {b : BitsBuffer} : b.Shows N x ↔ Buf N b x := by
  constructor
  · rintro ⟨h1, h2, h3⟩
    have hx : x < 𝔹 ^ N := by rw [← two_pow_words]; exact (h3 N).1 h2
    have hl : b.bits.length = N := by rw [h1]; simp
    have hw : WordsOk b.bits := by
      rw [h1]
      intro w hw
      obtain ⟨k, -, rfl⟩ := List.mem_map.1 hw
      exact Nat.mod_lt _ (by norm_num)
    have hv : val b.bits = x := by rw [h1, val_digits, Nat.mod_eq_of_lt hx]
    refine ⟨hl, hw, hv, le_antisymm ?_ ?_⟩
    · rw [h3, two_pow_words, ← hv]
      have := val_lt (hw.take (trimLen b.bits))
      rwa [val_take_trimLen, List.length_take_of_le (trimLen_le _)] at this
    · refine trimLen_le_of_val ?_
      rw [hv, ← two_pow_words]
      exact (h3 _).1 le_rfl
  · intro h
    have hx : x < 𝔹 ^ N := by rw [← h.value, ← h.size]; exact val_lt h.words
    refine ⟨?_, h.len_le_size, fun n => ?_⟩
    · refine val_inj h.words ?_ (by rw [h.size]; simp) (by rw [h.value, val_digits, Nat.mod_eq_of_lt hx])
      intro w hw
      obtain ⟨k, -, rfl⟩ := List.mem_map.1 hw
      exact Nat.mod_lt _ (by norm_num)
    · rw [two_pow_words]
      exact ⟨fun hn => lt_of_lt_of_le h.lt_len (Nat.pow_le_pow_right (by norm_num) hn), h.len_le⟩

/-- A word that is still there shows. -/
theorem Buf.left_over {N x y k : Nat} {b c : BitsBuffer} (hb : Buf N b x) (hc : Buf N c y) (hk : k < b.length) (hy : y < 𝔹 ^ k)
    (hd : c.bits.drop k = b.bits.drop k) : False := by
  have hN := hb.len_le_size
  have h1 := val_take_add_drop c.bits k (by rw [hc.size]; omega)
  rw [hc.value] at h1
  have h2 : val (c.bits.drop k) = 0 := by
    by_contra h
    have : 𝔹 ^ k * 1 ≤ 𝔹 ^ k * val (c.bits.drop k) := Nat.mul_le_mul_left _ (by omega)
    omega
  have h3 := val_take_add_drop b.bits k (by rw [hb.size]; omega)
  rw [← hd, h2, Nat.mul_zero, Nat.add_zero, hb.value] at h3
  have h4 := val_lt (hb.words.take k)
  rw [h3, List.length_take_of_le (by rw [hb.size]; omega)] at h4
  have := hb.len_le h4
  omega

theorem Buf.lt_length_iff {N x : Nat} {b : BitsBuffer} (h : Buf N b x) (n : Nat) : n < b.length ↔ 2 ^ (32 * n) ≤ x := by
  have := ((shows_iff.2 h).2.2 n)
  omega

theorem two_words {N : Nat} {bits : List Nat} (hl : bits.length = N) (hN : 2 ≤ N) : ∃ a b rest, bits = a :: b :: rest := by
  match bits, hl with
  | [], hl => simp at hl; omega
  | [_], hl => simp at hl; omega
  | a :: b :: rest, _ => exact ⟨a, b, rest, rfl⟩

theorem trimLen_two {a b : Nat} {rest : List Nat} (h : val rest = 0) :
    trimLen (a :: b :: rest) = if b ≠ 0 then 2 else if a ≠ 0 then 1 else 0 := by
  have h0 : trimLen rest = 0 := trimLen_eq_zero.2 h
  simp only [trimLen, h0, if_true]
  by_cases hb : b = 0 <;> by_cases ha : a = 0 <;> simp [hb, ha]

theorem u64_parts {v : Nat} (h : v < 2 ^ 64) : u32 v + 𝔹 * u32 (v >>> 32) = v := by
  have h1 : u32 v = v % 4294967296 := rfl
  have h2 : u32 (v >>> 32) = v / 4294967296 % 4294967296 := by
    show v >>> 32 % 4294967296 = _
    rw [Nat.shiftRight_eq_div_pow]
  rw [h1, h2]
  omega

namespace BitsBuffer

theorem overwrite_spec {N x v : Nat} {b : BitsBuffer} (hb : Buf N b x) (hN : 2 ≤ N) (hv : v < 2 ^ 64) (hx : x < 2 ^ 64) :
    ∃ c, b.overwrite v = .ok c ∧ Buf N c v := by
  have hl : b.length ≤ 2 := by
    by_contra h
    have := (hb.lt_length_iff 2).1 (by omega)
    norm_num at this hx
    omega
  obtain ⟨p, q, rest, e⟩ := two_words hb.size hN
  have hw := hb.words
  have hval := hb.value
  have hsz := hb.size
  rw [e] at hw hval hsz
  rw [val_cons, val_cons] at hval
  obtain ⟨-, hw⟩ := wordsOk_cons.1 hw
  obtain ⟨-, hw⟩ := wordsOk_cons.1 hw
  have h0 : val rest = 0 := by norm_num at hx; omega
  refine ⟨⟨u32 v :: u32 (v >>> 32) :: rest, if u32 (v >>> 32) ≠ 0 then 2 else if u32 v ≠ 0 then 1 else 0⟩, ?_, ?_⟩
  · unfold overwrite
    rw [if_neg (by omega), Res.ok_bind, e]
    dsimp only
    rw [put_ok _ (by simp), Res.ok_bind, put_ok _ (by simp), Res.ok_bind]
    simp
  · refine ⟨by simpa using hsz, wordsOk_cons.2 ⟨Nat.mod_lt _ (by norm_num), wordsOk_cons.2 ⟨Nat.mod_lt _ (by norm_num), hw⟩⟩, ?_,
      (trimLen_two h0).symm⟩
    rw [val_cons, val_cons, h0, Nat.mul_zero, Nat.add_zero, u64_parts hv]

theorem overwriteWord_spec {N x v : Nat} {b : BitsBuffer} (hb : Buf N b x) (hN : 0 < N) (hv : v < 2 ^ 32) (hx : x < 2 ^ 32) :
    ∃ c, b.overwriteWord v = .ok c ∧ Buf N c v := by
  have hl : b.length ≤ 1 := by
    by_contra h
    have := (hb.lt_length_iff 1).1 (by omega)
    norm_num at this hx
    omega
  obtain ⟨p, rest, e⟩ : ∃ p rest, b.bits = p :: rest := by
    cases h : b.bits with
    | nil => have := hb.size; rw [h] at this; simp at this; omega
    | cons p rest => exact ⟨p, rest, rfl⟩
  have hw := hb.words
  have hval := hb.value
  have hsz := hb.size
  rw [e] at hw hval hsz
  rw [val_cons] at hval
  obtain ⟨-, hw⟩ := wordsOk_cons.1 hw
  have h0 : val rest = 0 := by norm_num at hx; omega
  refine ⟨⟨v :: rest, if v ≠ 0 then 1 else 0⟩, ?_, ?_⟩
  · unfold overwriteWord
    rw [if_neg (by omega), Res.ok_bind, e, put_ok _ (by simp), Res.ok_bind]
    simp
  · refine ⟨by simpa using hsz, wordsOk_cons.2 ⟨by norm_num at hv; exact hv, hw⟩, by rw [val_cons, h0]; simp, ?_⟩
    have : trimLen rest = 0 := trimLen_eq_zero.2 h0
    simp only [trimLen, this, if_true]
    by_cases h : v = 0 <;> simp [h]

/-- What `Overwrite(uint64_t)` does to a long number. -/
theorem overwrite_long {N x v : Nat} {b : BitsBuffer} (hb : Buf N b x) (hv : v < 2 ^ 64) (hx : 2 ^ 64 ≤ x) :
    ∃ c, b.overwrite v = .ok c ∧ c.bits.drop (b.length - 1) = b.bits.drop (b.length - 1) ∧ c.bits.length = N ∧
      c.length ≤ 2 ∧ val (c.bits.take c.length) = v := by
  have hl : 2 < b.length := (hb.lt_length_iff 2).2 (by norm_num; norm_num at hx; exact hx)
  have hN := hb.len_le_size
  have hs := hb.size
  obtain ⟨p, q, rest, e⟩ : ∃ p q rest, List.replicate (b.length - 2) 2 ++ b.bits.drop (b.length - 2) = p :: q :: rest :=
    two_words (N := N) (by rw [List.length_append, List.length_replicate, List.length_drop]; omega) (by omega)
  have hrest : rest.length + 2 = N := by
    have := congrArg List.length e
    simp only [List.length_append, List.length_replicate, List.length_drop, List.length_cons] at this
    omega
  refine ⟨⟨u32 v :: u32 (v >>> 32) :: rest, if u32 (v >>> 32) ≠ 0 then 2 else if u32 v ≠ 0 then 1 else 0⟩, ?_, ?_, ?_, ?_, ?_⟩
  · unfold overwrite
    rw [if_pos (by omega), slice_prefix (by omega), Res.ok_bind, Res.ok_bind, e]
    dsimp only
    rw [put_ok _ (by simp), Res.ok_bind, put_ok _ (by simp), Res.ok_bind]
    simp
  · have h1 : ∀ {k : Nat}, 2 ≤ k → ∀ a a' : Nat, (a :: a' :: rest).drop k = rest.drop (k - 2) := by
      intro k hk a a'
      obtain ⟨k, rfl⟩ := Nat.exists_eq_add_of_le hk
      simp [Nat.add_comm 2 k]
    dsimp only
    rw [h1 (by omega), ← h1 (by omega) p q, ← e, List.drop_append, List.drop_replicate, List.length_replicate,
      show b.length - 2 - (b.length - 1) = 0 by omega, List.drop_drop]
    simp only [List.replicate_zero, List.nil_append]
    congr 1
    omega
  · simpa using hrest
  · dsimp only; split_ifs <;> omega
  · have h2 := u64_parts hv
    dsimp only
    by_cases h : u32 (v >>> 32) = 0
    · rw [if_neg (by simpa using h)]
      rw [h] at h2
      by_cases h' : u32 v = 0
      · rw [if_neg (by simpa using h')]
        rw [h'] at h2
        simpa using h2
      · rw [if_pos h', List.take_succ_cons, List.take_zero, val_singleton]; omega
    · rw [if_pos h, List.take_succ_cons, List.take_succ_cons, List.take_zero, val_cons, val_singleton]; omega

/-- What `Overwrite(uint32_t)` does to a long number. -/
theorem overwriteWord_long {N x v : Nat} {b : BitsBuffer} (hb : Buf N b x) (hx : 2 ^ 32 ≤ x) :
    ∃ c, b.overwriteWord v = .ok c ∧ c.bits.drop (b.length - 1) = b.bits.drop (b.length - 1) ∧ c.bits.length = N ∧
      c.length ≤ 1 ∧ val (c.bits.take c.length) = v := by
  have hl : 1 < b.length := (hb.lt_length_iff 1).2 (by norm_num; norm_num at hx; exact hx)
  have hN := hb.len_le_size
  have hs := hb.size
  obtain ⟨p, rest, e⟩ : ∃ p rest, List.replicate (b.length - 1) 1 ++ b.bits.drop (b.length - 1) = p :: rest := by
    obtain ⟨k, hk⟩ := Nat.exists_eq_add_of_lt hl
    rw [hk, show 1 + k + 1 - 1 = k + 1 by omega, List.replicate_succ]
    exact ⟨_, _, rfl⟩
  have hrest : rest.length + 1 = N := by
    have := congrArg List.length e
    simp only [List.length_append, List.length_replicate, List.length_drop, List.length_cons] at this
    omega
  refine ⟨⟨v :: rest, if v ≠ 0 then 1 else 0⟩, ?_, ?_, ?_, ?_, ?_⟩
  · unfold overwriteWord
    rw [if_pos (by omega), slice_prefix (by omega), Res.ok_bind, Res.ok_bind, e, put_ok _ (by simp), Res.ok_bind]
    simp
  · have h1 : ∀ {k : Nat}, 1 ≤ k → ∀ a : Nat, (a :: rest).drop k = rest.drop (k - 1) := by
      intro k hk a
      obtain ⟨k, rfl⟩ := Nat.exists_eq_add_of_le hk
      simp [Nat.add_comm 1 k]
    dsimp only
    rw [h1 (by omega), ← h1 (by omega) p, ← e, List.drop_append, List.drop_replicate, List.length_replicate]
    simp
  · simpa using hrest
  · dsimp only; split_ifs <;> omega
  · dsimp only
    by_cases h : v = 0
    · rw [if_neg (by simpa using h), h]; rfl
    · rw [if_pos h, List.take_succ_cons, List.take_zero, val_singleton]

theorem refresh_spec {N x n : Nat} {b : BitsBuffer} (hb : Buf N b x) (hN : n ≤ N) (hx : n = 0 ∨ x < 2 ^ (32 * n)) :
    ∃ c, b.refresh n = .ok c ∧ Buf N c (x % 2 ^ (32 * n)) := by
  by_cases hl : b.length ≤ n
  · have hlt : x < 2 ^ (32 * n) := ((shows_iff.2 hb).2.2 n).1 hl
    refine ⟨b, ?_, by rw [Nat.mod_eq_of_lt hlt]; exact hb⟩
    unfold refresh
    rw [if_neg (by omega), Res.ok_bind, actualLength_ok (by rw [hb.size]; exact hN) (by rw [← hb.len]; exact hl), Res.ok_bind,
      ← hb.len]
  · have h0 : n = 0 := by
      rcases hx with h | h
      · exact h
      · have := ((shows_iff.2 hb).2.2 n).2 h
        omega
    subst h0
    refine ⟨⟨List.replicate N 0, 0⟩, ?_, ⟨by simp, wordsOk_replicate_zero _, by simp [Nat.mod_one], ?_⟩⟩
    · unfold refresh
      rw [if_pos (by omega)]
      dsimp only
      rw [slice_prefix (by rw [hb.size, Nat.sub_zero]; exact hb.len_le_size), Nat.sub_zero, Res.ok_bind,
        Res.ok_bind, hb.drop, show u32 0 = 0 from rfl, List.replicate_append_replicate, Nat.add_sub_cancel' hb.len_le_size,
        actualLength_ok (by simp) (by rw [trimLen_eq_zero.2 (val_replicate_zero _)]), Res.ok_bind, trimLen_eq_zero.2 (val_replicate_zero _)]
    · exact (trimLen_eq_zero.2 (val_replicate_zero _)).symm

/-- What `Refresh` does to a number that is to be cut. -/
theorem refresh_long {N x n : Nat} {b : BitsBuffer} (hb : Buf N b x) (hx : 2 ^ (32 * n) ≤ x) :
    ∃ c, b.refresh n = .ok c ∧ c.bits = List.replicate (b.length - n) (u32 n) ++ b.bits.drop (b.length - n) := by
  have hl := (hb.lt_length_iff n).2 hx
  have hN := hb.len_le_size
  have hs := hb.size
  refine ⟨⟨List.replicate (b.length - n) (u32 n) ++ b.bits.drop (b.length - n),
    trimLen ((List.replicate (b.length - n) (u32 n) ++ b.bits.drop (b.length - n)).take n)⟩, ?_, rfl⟩
  unfold refresh actualLength
  rw [if_pos hl]
  dsimp only
  rw [slice_prefix (by omega), Res.ok_bind, Res.ok_bind, slice_prefix (by rw [List.length_append, List.length_replicate, List.length_drop]; omega),
    Res.ok_bind, Res.ok_bind]

end BitsBuffer

/-- What a `FastReducer` does to a buffer: the array stays, the length becomes that of the remainder. -/
theorem reduceFast_does {N x : Nat} {m : List Nat} {b : BitsBuffer} (hb : Buf N b x) (hw : WordsOk m) (hne : m ≠ [])
    (htop : m.getLast? ≠ some 0) (hl : 2 * m.length < 2 ^ 31 - 1) (hN : N ≤ 2 * m.length)
    (hc : val m ≠ 2 ^ (32 * (m.length - 1)) ∨ x < 2 ^ (32 * (2 * m.length - 1))) :
    ∃ fr n, FastReducer.make m = .ok fr ∧ b.reduceFast fr = .ok ⟨b.bits, n⟩ ∧ WLen n (x % val m) := by
  obtain ⟨fr, e, h⟩ := FastReducer.make_spec hw hne htop (by norm_num at hl; omega)
  rw [two_pow_words, two_pow_words, Nat.two_mul] at hc
  obtain ⟨n, e2, h2⟩ := FastReducer.reduce_spec_le hw hne htop h (by omega) hb hc
  exact ⟨fr, n, e, by unfold BitsBuffer.reduceFast; rw [e2, Res.ok_bind], h2⟩

theorem wlen_length_iff {n y : Nat} (h : WLen n y) (k : Nat) : n ≤ k ↔ y < 2 ^ (32 * k) := by
  rw [two_pow_words]
  constructor
  · intro hk; exact lt_of_lt_of_le h.1 (Nat.pow_le_pow_right (by norm_num) hk)
  · intro hk
    rcases h.2 with h0 | h1
    · omega
    · by_contra hn
      have : 𝔹 ^ k ≤ 𝔹 ^ (n - 1) := Nat.pow_le_pow_right (by norm_num) (by omega)
      omega

theorem Bench.Shows.set {N i x : Nat} {s : Bench} {ρ : Nat → Nat} {b : BitsBuffer} (h : s.Shows N ρ) (hb : Buf N b x) :
    (s.set i b).Shows N (Function.update ρ i x) := by
  refine ⟨fun j => ?_, h.2⟩
  by_cases hj : j = i
  · subst hj; simp only [Bench.set, Function.update_self]; exact shows_iff.2 hb
  · simp only [Bench.set, Function.update_of_ne hj]; exact h.1 j

theorem Buf.unique {N x y : Nat} {b : BitsBuffer} (h : Buf N b x) (h' : Buf N b y) : x = y := h.value.symm.trans h'.value

theorem exec_meant {N : Nat} {op : BufOp} {s : Bench} {ρ : Nat → Nat} (hs : s.Shows N ρ) (ha : op.Allowed N ρ) (ht : ¬ op.Trips ρ) :
    ∃ s', op.exec N s = .ok s' ∧ s'.Shows N (op.meaning ρ) := by
  have B : ∀ i, Buf N (s.bufs i) (ρ i) := fun i => shows_iff.1 (hs.1 i)
  have one : ∀ {i x : Nat} {r : Res BitsBuffer}, (∃ b, r = .ok b ∧ Buf N b x) →
      ∃ s', (r >>= fun b => .ok (s.set i b)) = .ok s' ∧ s'.Shows N (Function.update ρ i x) := by
    rintro i x r ⟨b, rfl, hb⟩
    exact ⟨_, rfl, hs.set hb⟩
  have two : ∀ {i x : Nat} {r : Res (BitsBuffer × BitsBuffer)}, (∃ b t, r = .ok (b, t) ∧ Buf N b x ∧ t.bits = List.replicate N 0) →
      ∃ s', (r >>= fun p => .ok (⟨Function.update s.bufs i p.1, p.2⟩ : Bench)) = .ok s' ∧ s'.Shows N (Function.update ρ i x) := by
    rintro i x r ⟨b, t, rfl, hb, h2⟩
    exact ⟨_, rfl, (hs.set hb).1, h2⟩
  cases op with
  | word i v => exact one (BitsBuffer.ofWord_spec ha.1 (by have := ha.2; norm_num at this; exact this))
  | words i v =>
    obtain ⟨h1, h2, h3⟩ := ha
    refine one (BitsBuffer.ofWords_spec h1 (by norm_num at h2; exact h2) (trimLen_le_of_val ?_))
    rwa [two_pow_words] at h3
  | multiply i j =>
    obtain ⟨a, b, hab, h1, h2⟩ := ha
    rw [two_pow_words] at h1 h2
    refine two (BitsBuffer.multiplySelf_spec (B i) (B j) hs.2 ?_)
    have := (B i).len_le h1
    have := (B j).len_le h2
    omega
  | square i =>
    obtain ⟨a, hab, h1⟩ := ha
    rw [two_pow_words] at h1
    have := (B i).len_le h1
    simp only [BufOp.meaning, pow_two]
    exact two (BitsBuffer.squareSelf_spec (B i) hs.2 (by omega))
  | reduce i m => exact one (BitsBuffer.reduce_spec (B i) ha.1 ha.2.1 ha.2.2)
  | reduceBy i j =>
    refine one ?_
    unfold BitsBuffer.reduceBy
    rw [(B j).slice, Res.ok_bind, (B j).len]
    have h1 : val ((s.bufs j).bits.take (trimLen (s.bufs j).bits)) = ρ j := by rw [val_take_trimLen, (B j).value]
    have h2 := BitsBuffer.reduce_spec (B i) ((B j).words.take (trimLen (s.bufs j).bits))
      (by intro h; rw [h] at h1; exact ha h1.symm) (getLast_take_trimLen _)
    rwa [h1] at h2
  | reduceFast i m =>
    obtain ⟨h1, h2, h3, h4, h5, h6⟩ := ha
    obtain ⟨fr, n, e, e2, hn⟩ := reduceFast_does (B i) h1 h2 h3 h4 h5 h6
    have hx : ρ i < val m := Nat.lt_of_not_le ht
    simp only [BufOp.exec, BufOp.meaning]
    rw [e, Res.ok_bind]
    refine one ⟨_, e2, ?_⟩
    rw [Nat.mod_eq_of_lt hx] at hn ⊢
    have : n = (s.bufs i).length := hn.unique (by rw [(B i).len, ← (B i).value]; exact wlen_trimLen (B i).words)
    rw [this]
    exact B i
  | overwrite i v => exact one (BitsBuffer.overwrite_spec (B i) ha.1 ha.2 (Nat.lt_of_not_le ht))
  | overwriteWord i v => exact one (BitsBuffer.overwriteWord_spec (B i) ha.1 ha.2 (Nat.lt_of_not_le ht))
  | refresh i n =>
    refine one (BitsBuffer.refresh_spec (B i) ha ?_)
    by_cases h : n = 0
    · exact .inl h
    · exact .inr (Nat.lt_of_not_le fun h' => ht ⟨by omega, h'⟩)

/-- A call that trips returns, and leaves a word that does not belong there. -/
theorem exec_trips {N : Nat} {op : BufOp} {s : Bench} {ρ : Nat → Nat} (hs : s.Shows N ρ) (ha : op.Allowed N ρ) (ht : op.Trips ρ) :
    ∃ s', op.exec N s = .ok s' ∧ ¬ s'.Shows N (op.meaning ρ) := by
  have B : ∀ i, Buf N (s.bufs i) (ρ i) := fun i => shows_iff.1 (hs.1 i)
  have key : ∀ {i y k : Nat} {c : BitsBuffer}, k < (s.bufs i).length → y < 𝔹 ^ k → c.bits.drop k = (s.bufs i).bits.drop k →
      ¬ (s.set i c).Shows N (Function.update ρ i y) := by
    intro i y k c hk hy hd h
    have h1 := shows_iff.1 (h.1 i)
    simp only [Bench.set, Function.update_self] at h1
    exact (B i).left_over h1 hk hy hd
  have mono : ∀ {v a k : Nat}, v < 𝔹 ^ a → a ≤ k → v < 𝔹 ^ k := fun h h' => lt_of_lt_of_le h (Nat.pow_le_pow_right (by norm_num) h')
  cases op with
  | reduceFast i m =>
    obtain ⟨h1, h2, h3, h4, h5, h6⟩ := ha
    obtain ⟨fr, n, e, e2, hn⟩ := reduceFast_does (B i) h1 h2 h3 h4 h5 h6
    have ht : val m ≤ ρ i := ht
    refine ⟨s.set i ⟨(s.bufs i).bits, n⟩, by simp only [BufOp.exec]; rw [e, Res.ok_bind, e2, Res.ok_bind], fun h => ?_⟩
    have h7 := (shows_iff.1 (h.1 i)).value
    simp only [Bench.set, BufOp.meaning, Function.update_self] at h7
    rw [(B i).value] at h7
    have h8 : 0 < val m := by
      have := BigInt.val_lt_of_length (xs := []) wordsOk_nil h2 h3 (List.length_pos_iff.2 h2)
      simpa using this
    have := Nat.mod_lt (ρ i) h8
    omega
  | overwrite i v =>
    have ht : 2 ^ 64 ≤ ρ i := ht
    have hl : 2 < (s.bufs i).length := ((B i).lt_length_iff 2).2 (by norm_num; norm_num at ht; exact ht)
    obtain ⟨c, e, h1, -⟩ := BitsBuffer.overwrite_long (B i) ha.2 ht
    refine ⟨s.set i c, by simp only [BufOp.exec]; rw [e, Res.ok_bind], key (by omega) ?_ h1⟩
    exact mono (a := 2) (by have := ha.2; norm_num at this ⊢; exact this) (by omega)
  | overwriteWord i v =>
    have ht : 2 ^ 32 ≤ ρ i := ht
    have hl : 1 < (s.bufs i).length := ((B i).lt_length_iff 1).2 (by norm_num; norm_num at ht; exact ht)
    obtain ⟨c, e, h1, -⟩ := BitsBuffer.overwriteWord_long (v := v) (B i) ht
    refine ⟨s.set i c, by simp only [BufOp.exec]; rw [e, Res.ok_bind], key (by omega) ?_ h1⟩
    exact mono (a := 1) (by have := ha.2; norm_num at this ⊢; exact this) (by omega)
  | refresh i n =>
    obtain ⟨h0, ht⟩ := ht
    have hl := ((B i).lt_length_iff n).2 ht
    obtain ⟨c, e, h1⟩ := BitsBuffer.refresh_long (B i) ht
    refine ⟨s.set i c, by simp only [BufOp.exec]; rw [e, Res.ok_bind], key (k := (s.bufs i).length - 1) (by omega) ?_ ?_⟩
    · refine mono (a := n) ?_ (by omega)
      rw [two_pow_words]
      exact Nat.mod_lt _ (by positivity)
    · rw [h1, List.drop_append, List.drop_replicate, List.length_replicate, List.drop_drop,
        show (s.bufs i).length - n - ((s.bufs i).length - 1) = 0 by omega]
      simp only [List.replicate_zero, List.nil_append]
      congr 1
      omega
  | _ => exact ht.elim

theorem runOps_meant {N : Nat} (ops : List BufOp) : ∀ {s : Bench} {ρ : Nat → Nat}, s.Shows N ρ → OpsAllowed N ops ρ →
    ∃ s', runOps N ops s = .ok s' ∧ s'.Shows N (opsMeaning ops ρ) := by
  induction ops with
  | nil => intro s ρ hs _; exact ⟨s, rfl, hs⟩
  | cons op ops ih =>
    rintro s ρ hs ⟨⟨ha, ht⟩, hr⟩
    obtain ⟨s1, e, h1⟩ := exec_meant hs ha ht
    obtain ⟨s2, e2, h2⟩ := ih h1 hr
    exact ⟨s2, by simp only [runOps]; rw [e, Res.ok_bind, e2], h2⟩

end BigIntegerCpp
