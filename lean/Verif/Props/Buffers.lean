import Verif.Lemmas.Buffers
/-
C90: the buffers of include/BitsBuffer.h (BuffersSpec.lean).
-/
set_option linter.unusedSectionVars false
namespace BigIntegerCpp
variable [Cfg]

/-- Any sequence of calls on any buffers has the effect of the calculation with numbers; proved unless a call overwrites
or cuts a number that is longer than what is to be left of it. -/
theorem C90_buffers_partial (size : Nat) (ops : List BufOp) (s : Bench) (ρ : Nat → Nat) (hs : s.Shows size ρ)
    (h : OpsAllowed size ops ρ) : ∃ s', runOps size ops s = .ok s' ∧ s'.Shows size (opsMeaning ops ρ) :=
  runOps_meant ops hs h

/-- A call does what is meant exactly if it does not trip. -/
theorem C90_step_exact_iff (size : Nat) (op : BufOp) (s : Bench) (ρ : Nat → Nat) (hs : s.Shows size ρ) (h : op.Allowed size ρ) :
    (∃ s', op.exec size s = .ok s' ∧ s'.Shows size (op.meaning ρ)) ↔ ¬ op.Trips ρ := by
  refine ⟨?_, exec_meant hs h⟩
  rintro ⟨s', e, h1⟩ ht
  obtain ⟨s2, e2, h2⟩ := exec_trips hs h ht
  rw [e] at e2
  obtain rfl := Res.ok.inj e2
  exact h2 h1

/-- No call with what it needs is undefined, throws or fails an assertion, not even one that trips. -/
theorem C90_returns (size : Nat) (op : BufOp) (s : Bench) (ρ : Nat → Nat) (hs : s.Shows size ρ) (h : op.Allowed size ρ) :
    ∃ s', op.exec size s = .ok s' := by
  by_cases ht : op.Trips ρ
  · obtain ⟨s', e, -⟩ := exec_trips hs h ht; exact ⟨s', e⟩
  · obtain ⟨s', e, -⟩ := exec_meant hs h ht; exact ⟨s', e⟩

/-- `Overwrite` always leaves the number it was given in the words below the length; what it can leave wrong is above
them. -/
theorem C90_overwrite (size i v : Nat) (s : Bench) (ρ : Nat → Nat) (hs : s.Shows size ρ) :
    (2 ≤ size → v < 2 ^ 64 → ∃ s', (BufOp.overwrite i v).exec size s = .ok s' ∧
      val ((s'.bufs i).bits.take (s'.bufs i).length) = v ∧ (s'.bufs i).length ≤ 2) ∧
    (0 < size → v < 2 ^ 32 → ∃ s', (BufOp.overwriteWord i v).exec size s = .ok s' ∧
      val ((s'.bufs i).bits.take (s'.bufs i).length) = v ∧ (s'.bufs i).length ≤ 1) := by
  have B := shows_iff.1 (hs.1 i)
  have put : ∀ {r : Res BitsBuffer} {n : Nat}, (∃ c, r = .ok c ∧ val (c.bits.take c.length) = v ∧ c.length ≤ n) →
      ∃ s', (r >>= fun b => .ok (s.set i b)) = .ok s' ∧ val ((s'.bufs i).bits.take (s'.bufs i).length) = v ∧ (s'.bufs i).length ≤ n := by
    rintro r n ⟨c, rfl, h1, h2⟩
    refine ⟨_, rfl, ?_⟩
    simp only [Bench.set, Function.update_self]
    exact ⟨h1, h2⟩
  refine ⟨fun hN hv => put ?_, fun hN hv => put ?_⟩
  · by_cases hx : 2 ^ 64 ≤ ρ i
    · obtain ⟨c, e, -, -, h1, h2⟩ := BitsBuffer.overwrite_long B hv hx
      exact ⟨c, e, h2, h1⟩
    · obtain ⟨c, e, h1⟩ := BitsBuffer.overwrite_spec B hN hv (by omega)
      exact ⟨c, e, h1.val_take, h1.len_le (by norm_num at hv ⊢; exact hv)⟩
  · by_cases hx : 2 ^ 32 ≤ ρ i
    · obtain ⟨c, e, -, -, h1, h2⟩ := BitsBuffer.overwriteWord_long (v := v) B hx
      exact ⟨c, e, h2, h1⟩
    · obtain ⟨c, e, h1⟩ := BitsBuffer.overwriteWord_spec B hN hv (by omega)
      exact ⟨c, e, h1.val_take, h1.len_le (by norm_num at hv ⊢; exact hv)⟩

/-- `Refresh(n)` of a number of `2n` words or more replaces all words it keeps by the number `n`. -/
theorem C90_refresh_wrong (size i n : Nat) (s : Bench) (ρ : Nat → Nat) (hs : s.Shows size ρ) (hn : 0 < n) (hn' : n < 2 ^ 32)
    (hx : 2 ^ (32 * (2 * n - 1)) ≤ ρ i) : ∃ s', (BufOp.refresh i n).exec size s = .ok s' ∧
      (s'.bufs i).bits.take n = List.replicate n n := by
  have B := shows_iff.1 (hs.1 i)
  have hl := (B.lt_length_iff (2 * n - 1)).2 hx
  obtain ⟨c, e, h1⟩ := BitsBuffer.refresh_long (n := n) B
    (le_trans (Nat.pow_le_pow_right (by norm_num) (by omega)) hx)
  refine ⟨s.set i c, by simp only [BufOp.exec]; rw [e, Res.ok_bind], ?_⟩
  simp only [Bench.set, Function.update_self]
  rw [h1, show u32 n = n from Nat.mod_eq_of_lt (by norm_num at hn'; exact hn'), List.take_append_of_le_length (by simp; omega), List.take_replicate,
    Nat.min_eq_left (by omega)]

/-- `Reduce` with a `FastReducer` never changes a word: the array stays as it is, and the length becomes that of the
remainder; with a power of `2^32` as modulus and all words in use it writes past the end of an array. -/
theorem C90_reduce_fast (size i : Nat) (m : List Nat) (s : Bench) (ρ : Nat → Nat) (hs : s.Shows size ρ) (hw : WordsOk m) (hne : m ≠ [])
    (htop : m.getLast? ≠ some 0) (hl : 2 * m.length < 2 ^ 31 - 1) (hN : size ≤ 2 * m.length) :
    ((val m ≠ 2 ^ (32 * (m.length - 1)) ∨ ρ i < 2 ^ (32 * (2 * m.length - 1))) →
      ∃ s', (BufOp.reduceFast i m).exec size s = .ok s' ∧ (s'.bufs i).bits = (s.bufs i).bits ∧
        ∀ n, (s'.bufs i).length ≤ n ↔ ρ i % val m < 2 ^ (32 * n)) ∧
    (val m = 2 ^ (32 * (m.length - 1)) → 2 ^ (32 * (2 * m.length - 1)) ≤ ρ i → (BufOp.reduceFast i m).exec size s = .ub .outOfBounds) := by
  have B := shows_iff.1 (hs.1 i)
  constructor
  · intro hc
    obtain ⟨fr, n, e, e2, hn⟩ := reduceFast_does B hw hne htop hl hN hc
    refine ⟨s.set i ⟨(s.bufs i).bits, n⟩, by simp only [BufOp.exec]; rw [e, Res.ok_bind, e2, Res.ok_bind], ?_⟩
    simp only [Bench.set, Function.update_self]
    exact ⟨trivial, wlen_length_iff hn⟩
  · intro hm hx
    obtain ⟨fr, e, h⟩ := FastReducer.make_spec hw hne htop (by norm_num at hl; omega)
    have h1 := (B.lt_length_iff (2 * m.length - 1)).2 hx
    have h2 := B.len_le_size
    have h3 : size = m.length + m.length := by omega
    subst h3
    rw [two_pow_words] at hm hx
    rw [Nat.two_mul] at hx
    have h4 := FastReducer.reduce_overrun hne h B hm hx
    simp only [BufOp.exec]
    rw [e, Res.ok_bind]
    unfold BitsBuffer.reduceFast
    rw [h4]
    rfl

/-- Squaring and reducing `k` times in buffers of twice the length of the modulus is `x^(2^k)` modulo it. -/
theorem C90_repeated_squaring (size k i : Nat) (m : List Nat) (s : Bench) (ρ : Nat → Nat) (hs : s.Shows size ρ) (hw : WordsOk m)
    (hne : m ≠ []) (htop : m.getLast? ≠ some 0) (hN : 2 * m.length ≤ size) (hx : ρ i < val m) :
    ∃ s', runOps size (List.replicate k [.square i, .reduce i m]).flatten s = .ok s' ∧
      s'.Shows size (Function.update ρ i (ρ i ^ 2 ^ k % val m)) := by
  have key : OpsAllowed size (List.replicate k [.square i, .reduce i m]).flatten ρ ∧
      opsMeaning (List.replicate k [.square i, .reduce i m]).flatten ρ = Function.update ρ i (ρ i ^ 2 ^ k % val m) := by
    clear hs s
    induction k generalizing ρ with
    | zero =>
      refine ⟨trivial, ?_⟩
      simp only [List.replicate_zero, List.flatten_nil, opsMeaning, pow_zero, pow_one]
      rw [Nat.mod_eq_of_lt hx, Function.update_eq_self]
    | succ k ih =>
      have h1 : (BufOp.reduce i m).meaning ((BufOp.square i).meaning ρ) = Function.update ρ i (ρ i ^ 2 % val m) := by
        simp only [BufOp.meaning, Function.update_self, Function.update_idem]
      obtain ⟨h2, h3⟩ := ih (Function.update ρ i (ρ i ^ 2 % val m)) (by rw [Function.update_self]; exact Nat.mod_lt _ (by omega))
      simp only [List.replicate_succ, List.flatten_cons, List.cons_append, List.nil_append, OpsAllowed, opsMeaning, h1]
      refine ⟨⟨⟨⟨m.length, by omega, ?_⟩, id⟩, ⟨⟨hw, hne, htop⟩, id⟩, h2⟩, ?_⟩
      · rw [two_pow_words]; exact lt_trans hx (val_lt hw)
      · rw [h3, Function.update_self, Function.update_idem, ← Nat.pow_mod, ← pow_mul, pow_succ, Nat.mul_comm 2]
  rw [← key.2]
  exact C90_buffers_partial size _ s ρ hs key.1

/-- New buffers of any size show 0. -/
theorem C90_new (size : Nat) : (⟨fun _ => ⟨List.replicate size 0, 0⟩, ⟨List.replicate size 0, 0⟩⟩ : Bench).Shows size (fun _ => 0) :=
  ⟨fun _ => shows_iff.2 ⟨by simp, wordsOk_replicate_zero _, by simp, (trimLen_eq_zero.2 (val_replicate_zero _)).symm⟩, rfl⟩

/-- The code violates the property: 5 written over a number of three words, multiplied by `7 + 7 * 2^32` and the product by
it once more; the words left over become part of the second product. -/
theorem C90_refuted : ∃ (s s' : Bench) (ops : List BufOp), s.Shows 6 (fun _ => 0) ∧
    runOps 6 ops s = .ok s' ∧ opsMeaning ops (fun _ => 0) 1 = 245 + 490 * 2 ^ 32 + 245 * 2 ^ 64 ∧
      (s'.bufs 1).bits = [245, 491, 245, 0, 0, 0] ∧ (s'.bufs 1).length = 3 := by
  have h : (match runOps 6 [.words 0 [1, 1, 1], .words 1 [7, 7], .overwriteWord 0 5, .multiply 0 1, .multiply 1 0]
      ⟨fun _ => ⟨List.replicate 6 0, 0⟩, ⟨List.replicate 6 0, 0⟩⟩ with
      | .ok s => some (s.bufs 1)
      | _ => none) = some ⟨[245, 491, 245, 0, 0, 0], 3⟩ := by
    rename_i c
    obtain ⟨d, t⟩ := c
    cases d <;> cases t <;> decide +kernel
  cases e : runOps 6 [.words 0 [1, 1, 1], .words 1 [7, 7], .overwriteWord 0 5, .multiply 0 1, .multiply 1 0]
      ⟨fun _ => ⟨List.replicate 6 0, 0⟩, ⟨List.replicate 6 0, 0⟩⟩ with
  | ok s' =>
    rw [e] at h
    have h := Option.some.inj h
    exact ⟨_, s', _, C90_new 6, e, by decide, by rw [h], by rw [h]⟩
  | _ => rw [e] at h; cases h

section Examples

/-- `(3 + 2^32) * 7` squared modulo `9 + 5 * 2^32`, in buffers of six words. -/
example : ∃ s', runOps 6 [.words 0 [3, 1, 0], .word 1 7, .multiply 0 1, .square 0, .reduce 0 [9, 5], .overwrite 1 6, .refresh 0 2]
      ⟨fun _ => ⟨List.replicate 6 0, 0⟩, ⟨List.replicate 6 0, 0⟩⟩ = .ok s' ∧
    (s'.bufs 0).Shows 6 (((3 + 2 ^ 32) * 7) ^ 2 % (9 + 5 * 2 ^ 32)) ∧ (s'.bufs 1).Shows 6 6 := by
  obtain ⟨s', e, h⟩ := C90_buffers_partial 6 [.words 0 [3, 1, 0], .word 1 7, .multiply 0 1, .square 0, .reduce 0 [9, 5], .overwrite 1 6, .refresh 0 2]
    _ _ (C90_new 6) (by
      refine ⟨⟨⟨by decide, by decide, by decide⟩, id⟩, ⟨⟨by decide, by decide⟩, id⟩, ⟨⟨2, 1, by decide, by decide, by decide⟩, id⟩,
        ⟨⟨2, by decide, by decide⟩, id⟩, ⟨⟨by decide, by decide, by decide⟩, id⟩, ⟨⟨by decide, by decide⟩, ?_⟩, ⟨?_, ?_⟩, trivial⟩
      · show ¬ 2 ^ 64 ≤ _
        decide
      · show 2 ≤ 6
        decide
      · rintro ⟨-, h⟩
        revert h
        decide)
  exact ⟨s', e, h.1 0, h.1 1⟩

/-- `C90_step_exact_iff`, `C90_returns`, `C90_overwrite` and `C90_refresh_wrong` at a buffer with `2^96`. -/
example : ∃ s : Bench, s.Shows 4 (fun _ => 2 ^ 96) ∧
    ¬ (∃ s', (BufOp.overwrite 3 5).exec 4 s = .ok s' ∧ s'.Shows 4 ((BufOp.overwrite 3 5).meaning fun _ => 2 ^ 96)) ∧
    (∃ s', (BufOp.overwrite 3 5).exec 4 s = .ok s' ∧ val ((s'.bufs 3).bits.take (s'.bufs 3).length) = 5 ∧ (s'.bufs 3).length ≤ 2) ∧
    (∃ s', (BufOp.overwriteWord 3 5).exec 4 s = .ok s') ∧
    (∃ s', (BufOp.refresh 0 2).exec 4 s = .ok s' ∧ (s'.bufs 0).bits.take 2 = [2, 2]) := by
  have h : (⟨fun _ => ⟨[0, 0, 0, 1], 4⟩, ⟨List.replicate 4 0, 0⟩⟩ : Bench).Shows 4 (fun _ => 2 ^ 96) :=
    ⟨fun _ => shows_iff.2 ⟨rfl, show WordsOk [0, 0, 0, 1] by decide, show val [0, 0, 0, 1] = 2 ^ 96 by decide,
      show 4 = trimLen [0, 0, 0, 1] by decide⟩, rfl⟩
  refine ⟨_, h, fun h1 => (C90_step_exact_iff 4 (.overwrite 3 5) _ _ h ⟨by decide, by decide⟩).1 h1 ?_,
    (C90_overwrite 4 3 5 _ _ h).1 (by decide) (by decide), C90_returns 4 (.overwriteWord 3 5) _ _ h ⟨by decide, by decide⟩,
    C90_refresh_wrong 4 0 2 _ _ h (by decide) (by decide) (by decide)⟩
  show 2 ^ 64 ≤ 2 ^ 96
  decide

/-- `C90_reduce_fast`: `2^96` modulo `2^32 + 5` stays `2^96`, modulo `2^32` it overruns. -/
example : ∃ s : Bench, s.Shows 4 (fun _ => 2 ^ 96) ∧
    (∃ s', (BufOp.reduceFast 0 [5, 1]).exec 4 s = .ok s' ∧ (s'.bufs 0).bits = [0, 0, 0, 1] ∧
      ∀ n, (s'.bufs 0).length ≤ n ↔ 2 ^ 96 % val [5, 1] < 2 ^ (32 * n)) ∧
    (BufOp.reduceFast 0 [0, 1]).exec 4 s = .ub .outOfBounds := by
  have h : (⟨fun _ => ⟨[0, 0, 0, 1], 4⟩, ⟨List.replicate 4 0, 0⟩⟩ : Bench).Shows 4 (fun _ => 2 ^ 96) :=
    ⟨fun _ => shows_iff.2 ⟨rfl, show WordsOk [0, 0, 0, 1] by decide, show val [0, 0, 0, 1] = 2 ^ 96 by decide,
      show 4 = trimLen [0, 0, 0, 1] by decide⟩, rfl⟩
  exact ⟨_, h, (C90_reduce_fast 4 0 [5, 1] _ _ h (by decide) (by decide) (by decide) (by decide) (by decide)).1 (.inl (by decide)),
    (C90_reduce_fast 4 0 [0, 1] _ _ h (by decide) (by decide) (by decide) (by decide) (by decide)).2 (by decide) (by decide)⟩

/-- `C90_repeated_squaring`: `5^(2^6)` modulo `1 + 2^32`. -/
example : ∃ s', runOps 4 (.word 2 5 :: (List.replicate 6 [.square 2, .reduce 2 [1, 1]]).flatten)
      ⟨fun _ => ⟨List.replicate 4 0, 0⟩, ⟨List.replicate 4 0, 0⟩⟩ = .ok s' ∧ (s'.bufs 2).Shows 4 (5 ^ 2 ^ 6 % (1 + 2 ^ 32)) := by
  obtain ⟨s1, e1, h1⟩ := C90_buffers_partial 4 [.word 2 5] _ _ (C90_new 4) ⟨⟨⟨by decide, by decide⟩, id⟩, trivial⟩
  obtain ⟨s2, e2, h2⟩ := C90_repeated_squaring 4 6 2 [1, 1] s1 _ h1 (by decide) (by decide) (by decide) (by decide) (by decide)
  refine ⟨s2, ?_, ?_⟩
  · simp only [runOps] at e1 ⊢
    cases h : BufOp.exec 4 ⟨fun _ => ⟨List.replicate 4 0, 0⟩, ⟨List.replicate 4 0, 0⟩⟩ (.word 2 5) with
    | ok s => rw [h] at e1; cases e1; rw [Res.ok_bind]; exact e2
    | _ => rw [h] at e1; cases e1
  · have := h2.1 2
    rw [Function.update_self] at this
    exact this
end Examples

end BigIntegerCpp
