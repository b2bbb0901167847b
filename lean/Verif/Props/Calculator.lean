import Verif.Lemmas.Calculator
import Verif.Props.Oracle
import Verif.Props.Text
/-
C75: what a unit test tests.
-/
set_option linter.unusedSectionVars false
namespace BigIntegerCpp
variable [Cfg]
open Oracle Calculator

theorem readB {bytes : List Nat} (hb : Bytes bytes) (hs : Cfg.strictShift = false) :
    ∃ a, ofBytes (readBack bytes) false false = .ok a ∧ a.Denotes (numberRead bytes) ∧ a.bits.length < 2 ^ 26 := by
  have hl := readBack_length bytes
  have hl2 := hb.2
  obtain ⟨a, a1, a2⟩ := C25_of_bytes (readBack bytes) (readBack_ok hb.1) (by omega) false false hs
  refine ⟨a, a1, a2, ?_⟩
  rcases Nat.eq_zero_or_pos (readBack bytes).length with h0 | h0
  · rw [List.length_eq_zero_iff.1 h0] at a2
    rw [a2.bits_nil.2 (by decide)]
    decide
  · have hst : Stands (readBack bytes) (bytesValue false false (readBack bytes)) := ⟨readBack_ok hb.1, List.length_pos_iff.1 h0, rfl⟩
    have h1 := abs_bound hst
    refine lt_of_le_of_lt (a2.length_le_of_lt (k := (readBack bytes).length / 4 + 1) ?_) (by omega)
    have h2 : (256 : Int) ^ (readBack bytes).length ≤ ((2 ^ (32 * ((readBack bytes).length / 4 + 1)) : Nat) : Int) := by
      rw [show (256 : Int) = 2 ^ 8 by norm_num, ← pow_mul]
      push_cast
      exact pow_le_pow_right₀ (by decide) (by omega)
    have h3 : (0 : Int) < 256 ^ (readBack bytes).length := by positivity
    rw [Int.abs_eq_natAbs] at h1
    generalize 2 ^ (32 * ((readBack bytes).length / 4 + 1)) = P at *
    generalize (256 : Int) ^ (readBack bytes).length = Q at *
    omega

theorem textOf {a : BigInt} {z : Int} (ha : a.Denotes z) (h : Printable z) : a.toStr = .ok (toString z).toList :=
  C30_to_string_partial a z ha (le_trans (ha.length_le_of_lt (k := 214748364) h.2) (by decide)) h.1

private theorem text_inj {z w : Int} : (toString z).toList = (toString w).toList ↔ z = w :=
  ⟨fun h => by rw [← textValue_toString z, h, textValue_toString], fun h => by rw [h]⟩

theorem read_len {bytes : List Nat} (hb : Bytes bytes) (hs : Cfg.strictShift = false) {a : BigInt} (ha : a.Denotes (numberRead bytes)) :
    a.bits.length < 2 ^ 26 := by
  obtain ⟨b, -, b2, b3⟩ := readB hb hs
  rwa [ha.unique b2]

omit [Cfg] in
/-- Non-negative numbers, and numbers of the right number of digits, have a text. -/
theorem printable_of {z : Int} {k : Nat} (h1 : ¬ TextMisfires z) (h2 : z.natAbs < 2 ^ k) (hk : k ≤ 32 * 214748364) : Printable z :=
  ⟨h1, lt_of_lt_of_le h2 (Nat.pow_le_pow_right (by decide) hk)⟩

omit [Cfg] in
theorem not_misfires {z : Int} (h : 0 ≤ z) : ¬ TextMisfires z := by
  rintro ⟨h1, -⟩
  norm_num at h1
  omega

theorem read_lt {bytes : List Nat} (hb : Bytes bytes) (hs : Cfg.strictShift = false) : (numberRead bytes).natAbs < 2 ^ (32 * 2 ^ 26) := by
  obtain ⟨a, -, a2, a3⟩ := readB hb hs
  have h := a2.natAbs_lt
  rw [show 𝔹 = 2 ^ 32 by norm_num, ← pow_mul] at h
  exact lt_of_lt_of_le h (Nat.pow_le_pow_right (by decide) (by omega))

/-! ### C75 operands -/

/-- An array without a blank (0x20) is read back as it is, … -/
theorem C75_operand (bytes : List Nat) (h : 32 ∉ bytes) : numberRead bytes = bytesValue false false bytes := by
  unfold numberRead
  rw [readBack_eq h]
example : numberRead [0xd6, 0xff] = -42 := (C75_operand _ (by decide)).trans (by decide)

/-- … the text of an array puts the number read back on both stacks. -/
theorem C75_make (hs : Cfg.strictShift = false) (bytes : List Nat) (hb : Bytes bytes) (rest : List Char) (n : Nat) (logs : Logs) :
    ∃ a, a.Denotes (numberRead bytes) ∧
      next n logs (start (print bytes ++ rest)) = .ok (some ⟨tokens rest, [a], [a], zeroInt, zeroInt⟩) := by
  obtain ⟨a, a1, a2, -⟩ := readB hb hs
  exact ⟨a, a2, next_make n logs hb.1 rest a1 _ rfl⟩
example (hs : Cfg.strictShift = false) (logs : Logs) : ∃ a, a.Denotes (-42) ∧
    next 0 logs (start (print [0xd6, 0xff] ++ "b>>".toList)) = .ok (some ⟨["b>>".toList], [a], [a], zeroInt, zeroInt⟩) :=
  C75_make hs [0xd6, 0xff] ⟨by decide, by decide⟩ "b>>".toList 0 logs

/-- A single blank is read as zero; so a count of 32 is not tested by the text of the array `{32}`. -/
theorem C75_blank : numberRead [32] = 0 ∧ bytesValue false false [32] = 32 := by decide

/-! ### C75 verdicts -/

/-- A test of a unary operation passes exactly if both sides return the same number. -/
theorem C75_unary_test (hs : Cfg.strictShift = false) (b1 : List Nat) (h1 : Bytes b1) (p1 : Printable (numberRead b1))
    (op : String) (ho : op.toList.head? = some 'u') (hb : ' ' ∉ op.toList) (z w : Int)
    (hz : ∀ a, a.Denotes (numberRead b1) → Replies (libUnary a op) z) (hw : ∀ a, a.Denotes (numberRead b1) → Replies (unary a op) w)
    (pz : Printable z) (pw : Printable w) (n : Nat) (logs : Logs) (k : Nat) (hk : 3 ≤ k) :
    verify false n logs k (start (print b1 ++ op.toList)) = .ok (decide (z = w)) := by
  obtain ⟨a, a1, a2, -⟩ := readB h1 hs
  obtain ⟨s, s1, s2⟩ := hz a a2
  obtain ⟨m, m1, m2⟩ := hw a a2
  obtain ⟨k, rfl⟩ : ∃ j, k = j + 3 := ⟨k - 3, by omega⟩
  rw [verify_step (next_make n logs h1.1 op.toList a1 _ rfl) rfl rfl (textOf a2 p1) (textOf a2 p1), if_pos rfl, tokens_word _ hb]
  dsimp only [start]
  rw [verify_step (next_unary n logs ho a2 s1 m1 [] [] [] zeroInt zeroInt) rfl rfl (textOf s2 pz) (textOf m2 pw)]
  by_cases h : z = w
  · rw [if_pos (text_inj.2 h), verify_end, decide_eq_true h]
  · rw [if_neg (fun hc => h (text_inj.1 hc)), decide_eq_false h]
-- a test of an operation that only the reference implementation knows ends otherwise; the test of `-x` on the two
-- bytes of -42 compares 42 with 42
example (hs : Cfg.strictShift = false) (logs : Logs) : verify false 0 logs 3 (start (print [0xd6, 0xff] ++ "u-".toList)) = .ok true := by
  have hb : Bytes [0xd6, 0xff] := ⟨by decide, by decide⟩
  have hm : ∀ a, a.Denotes (numberRead [0xd6, 0xff]) → Replies (unary a "u-") 42 :=
    fun a ha => (C74_unary hs a _ ha (read_len hb hs ha)).2.2.2.2.2.2.1
  refine C75_unary_test hs _ hb (printable_of (k := 8) (by decide) (by decide) (by decide)) "u-" (by decide) (by decide) 42 42 ?_ hm
    (printable_of (k := 8) (by decide) (by decide) (by decide)) (printable_of (k := 8) (by decide) (by decide) (by decide)) 0 logs 3 le_rfl
  intro a ha
  obtain ⟨c, e1, e2⟩ := C74_agree_unary hs a _ ha (read_len hb hs ha) "u-" (by decide)
  obtain ⟨r, f1, f2⟩ := hm a ha
  rw [f1] at e2
  cases e2
  exact ⟨_, e1, f2⟩

/-- The same for a binary operation; the operand pushed last is the first one. -/
theorem C75_binary_test (hs : Cfg.strictShift = false) (b1 b2 : List Nat) (h1 : Bytes b1) (h2 : Bytes b2) (p1 : Printable (numberRead b1))
    (p2 : Printable (numberRead b2)) (op : String) (ho : op.toList.head? = some 'b') (hb : ' ' ∉ op.toList) (n : Nat) (z w : Int)
    (hz : ∀ a b, a.Denotes (numberRead b1) → b.Denotes (numberRead b2) → ∃ z', RepliesTwo (libBinary n a b op) z z')
    (hw : ∀ a b, a.Denotes (numberRead b1) → b.Denotes (numberRead b2) → ∃ w', RepliesTwo (binary n a b op) w w')
    (pz : Printable z) (pw : Printable w) (logs : Logs) (k : Nat) (hk : 4 ≤ k) :
    verify false n logs k (start (print b2 ++ (print b1 ++ op.toList))) = .ok (decide (z = w)) := by
  obtain ⟨a, a1, a2, -⟩ := readB h1 hs
  obtain ⟨b, c1, c2, -⟩ := readB h2 hs
  obtain ⟨z', s, s', s1, s2, -⟩ := hz a b a2 c2
  obtain ⟨w', m, m', m1, m2, -⟩ := hw a b a2 c2
  obtain ⟨k, rfl⟩ : ∃ j, k = j + 4 := ⟨k - 4, by omega⟩
  rw [verify_step (next_make n logs h2.1 _ c1 _ rfl) rfl rfl (textOf c2 p2) (textOf c2 p2), if_pos rfl]
  rw [verify_step (next_make n logs h1.1 op.toList a1 _ rfl) rfl rfl (textOf a2 p1) (textOf a2 p1), if_pos rfl, tokens_word _ hb]
  dsimp only [start]
  rw [verify_step (next_binary n logs ho a2 c2 s1 m1 [] [] [] zeroInt zeroInt) rfl rfl (textOf s2 pz) (textOf m2 pw)]
  by_cases h : z = w
  · rw [if_pos (text_inj.2 h), verify_end, decide_eq_true h]
  · rw [if_neg (fun hc => h (text_inj.1 hc)), decide_eq_false h]

/-- The same for `mod_pow`. -/
theorem C75_ternary_test (hs : Cfg.strictShift = false) (b1 b2 b3 : List Nat) (h1 : Bytes b1) (h2 : Bytes b2) (h3 : Bytes b3)
    (p1 : Printable (numberRead b1)) (p2 : Printable (numberRead b2)) (p3 : Printable (numberRead b3)) (n : Nat) (z w : Int)
    (hz : ∀ a b c, a.Denotes (numberRead b1) → b.Denotes (numberRead b2) → c.Denotes (numberRead b3) → Returns (libTernary a b c "tModPow") z)
    (hw : ∀ a b c, a.Denotes (numberRead b1) → b.Denotes (numberRead b2) → c.Denotes (numberRead b3) → Returns (ternary a b c "tModPow") w)
    (pz : Printable z) (pw : Printable w) (logs : Logs) (k : Nat) (hk : 5 ≤ k) :
    verify false n logs k (start (print b3 ++ (print b2 ++ (print b1 ++ "tModPow".toList)))) = .ok (decide (z = w)) := by
  obtain ⟨a, a1, a2, -⟩ := readB h1 hs
  obtain ⟨b, c1, c2, -⟩ := readB h2 hs
  obtain ⟨c, d1, d2, -⟩ := readB h3 hs
  obtain ⟨s, s1, s2⟩ := hz a b c a2 c2 d2
  obtain ⟨m, m1, m2⟩ := hw a b c a2 c2 d2
  obtain ⟨k, rfl⟩ : ∃ j, k = j + 5 := ⟨k - 5, by omega⟩
  rw [verify_step (next_make n logs h3.1 _ d1 _ rfl) rfl rfl (textOf d2 p3) (textOf d2 p3), if_pos rfl]
  rw [verify_step (next_make n logs h2.1 _ c1 _ rfl) rfl rfl (textOf c2 p2) (textOf c2 p2), if_pos rfl]
  rw [verify_step (next_make n logs h1.1 _ a1 _ rfl) rfl rfl (textOf a2 p1) (textOf a2 p1), if_pos rfl, tokens_word _ (by decide)]
  dsimp only [start]
  rw [verify_step (next_ternary n logs (by decide) a2 c2 d2 s1 m1 [] [] [] zeroInt zeroInt) rfl rfl (textOf s2 pz) (textOf m2 pw)]
  by_cases h : z = w
  · rw [if_pos (text_inj.2 h), verify_end, decide_eq_true h]
  · rw [if_neg (fun hc => h (text_inj.1 hc)), decide_eq_false h]

theorem out_step {n : Nat} {logs : Logs} {c d : Calc} {s m o u : BigInt} {sn my : List BigInt} {t t' : List Char} {z w : Int}
    (hn : next n logs c = .ok (some d)) (h1 : d.snCalc = s :: sn) (h2 : d.myCalc = m :: my) (h3 : s.toStr = .ok t) (h4 : m.toStr = .ok t')
    (ho : d.snOut = o) (hu : d.myOut = u) (o2 : o.Denotes z) (u2 : u.Denotes w) (k : Nat) :
    verify true n logs (k + 1) c =
      if t = t' then if ¬ Cfg.ndebug ∧ z ≠ w then .abort else verify true n logs k { d with snOut := zeroInt, myOut := zeroInt } else .ok false := by
  rw [verify_out hn h1 h2 h3 h4]
  congr 1
  unfold verifyOutParameter BigInt.ne
  rw [ho, hu, BigInt.equals_spec o2 u2]
  by_cases hd : Cfg.ndebug = true
  · simp [hd, Res.bind]
  · by_cases h : z = w
    · simp [hd, h, Res.bind]
    · simp [hd, h, Res.bind]

/-- A test of `div_rem`: quotients are compared by the test, remainders by an `assert`, so that with `NDEBUG` they are
not compared at all. -/
theorem C75_div_rem_test (hs : Cfg.strictShift = false) (b1 b2 : List Nat) (h1 : Bytes b1) (h2 : Bytes b2) (p1 : Printable (numberRead b1))
    (p2 : Printable (numberRead b2)) (n : Nat) (z z' w w' : Int)
    (hz : ∀ a b, a.Denotes (numberRead b1) → b.Denotes (numberRead b2) → RepliesTwo (libBinary n a b "bDivRem") z z')
    (hw : ∀ a b, a.Denotes (numberRead b1) → b.Denotes (numberRead b2) → RepliesTwo (binary n a b "bDivRem") w w')
    (pz : Printable z) (pw : Printable w) (logs : Logs) (k : Nat) (hk : 4 ≤ k) :
    verify true n logs k (start (print b2 ++ (print b1 ++ "bDivRem".toList))) =
      if z = w then if ¬ Cfg.ndebug ∧ z' ≠ w' then .abort else .ok true else .ok false := by
  obtain ⟨a, a1, a2, -⟩ := readB h1 hs
  obtain ⟨b, c1, c2, -⟩ := readB h2 hs
  obtain ⟨s, s', s1, s2, s3⟩ := hz a b a2 c2
  obtain ⟨m, m', m1, m2, m3⟩ := hw a b a2 c2
  obtain ⟨k, rfl⟩ : ∃ j, k = j + 4 := ⟨k - 4, by omega⟩
  rw [out_step (next_make n logs h2.1 _ c1 _ rfl) rfl rfl (textOf c2 p2) (textOf c2 p2) rfl rfl denotes_zero denotes_zero, if_pos rfl,
    if_neg (by simp)]
  dsimp only
  rw [out_step (next_make n logs h1.1 _ a1 _ rfl) rfl rfl (textOf a2 p1) (textOf a2 p1) rfl rfl denotes_zero denotes_zero, if_pos rfl,
    if_neg (by simp), tokens_word _ (by decide)]
  dsimp only [start]
  rw [out_step (next_binary n logs (by decide) a2 c2 s1 m1 [] [] [] zeroInt zeroInt) rfl rfl (textOf s2 pz) (textOf m2 pw) rfl rfl s3 m3]
  by_cases h : z = w
  · rw [if_pos (text_inj.2 h), if_pos h]
    rfl
  · rw [if_neg (fun hc => h (text_inj.1 hc)), if_neg h]

/-! ### C75 what follows for the tests -/

/-- Tests of these operations pass for all arrays, as long as the numbers have a text. -/
theorem C75_right_operations_pass (hs : Cfg.strictShift = false) (b1 b2 : List Nat) (h1 : Bytes b1) (h2 : Bytes b2) (p1 : Printable (numberRead b1))
    (p2 : Printable (numberRead b2)) (n : Nat) (op : String)
    (hop : op ∈ ["b+", "bAdd", "b-", "bSubtract", "b*", "bMultiply", "bMin", "bMax", "b&", "b|", "b^"] ∨
      numberRead b2 ≠ 0 ∧ op ∈ ["b/", "bDivide", "b%", "bRemainder"])
    (z : Int) (hz : ∀ a b, a.Denotes (numberRead b1) → b.Denotes (numberRead b2) → ∃ z', RepliesTwo (libBinary n a b op) z z') (pz : Printable z)
    (logs : Logs) (k : Nat) (hk : 4 ≤ k) :
    verify false n logs k (start (print b2 ++ (print b1 ++ op.toList))) = .ok true := by
  have ho : op.toList.head? = some 'b' ∧ ' ' ∉ op.toList := by
    simp only [List.mem_cons, List.not_mem_nil, or_false] at hop
    rcases hop with (rfl | rfl | rfl | rfl | rfl | rfl | rfl | rfl | rfl | rfl | rfl) | ⟨-, rfl | rfl | rfl | rfl⟩ <;> decide
  rw [C75_binary_test hs b1 b2 h1 h2 p1 p2 op ho.1 ho.2 n z z hz ?_ pz pz logs k hk, decide_eq_true rfl]
  intro a b ha hb
  obtain ⟨z', c, d, e1, e2, e3⟩ := hz a b ha hb
  obtain ⟨g1, g2⟩ := C74_agree_binary hs n a b _ _ ha hb (read_len h1 hs ha) (read_len h2 hs hb)
  have : Agree (libBinary n a b op) (binary n a b op) := by
    rcases hop with h | ⟨h0, h⟩
    · exact g1 op h
    · exact g2 h0 op h
  obtain ⟨g, f1, f2⟩ := this
  rw [e1] at f1
  cases f1
  exact ⟨z', c, d, f2, e2, e3⟩
-- -42 + 5
example (hs : Cfg.strictShift = false) (logs : Logs) : verify false 0 logs 4 (start (print [5] ++ (print [0xd6, 0xff] ++ "b+".toList))) = .ok true := by
  have h1 : Bytes [0xd6, 0xff] := ⟨by decide, by decide⟩
  have h2 : Bytes [5] := ⟨by decide, by decide⟩
  refine C75_right_operations_pass hs [0xd6, 0xff] [5] h1 h2 (printable_of (k := 8) (by decide) (by decide) (by decide))
    (printable_of (k := 8) (by decide) (by decide) (by decide)) 0 "b+" (.inl (by decide)) (-37) ?_
    (printable_of (k := 8) (by decide) (by decide) (by decide)) logs 4 le_rfl
  intro a b ha hb
  obtain ⟨c, e1, e2⟩ := (C74_agree_binary hs 0 a b _ _ ha hb (read_len h1 hs ha) (read_len h2 hs hb)).1 "b+" (by decide)
  obtain ⟨r, r', f1, f2, f3⟩ := (C74_sums hs 0 a b _ _ ha hb (read_len h1 hs ha) (read_len h2 hs hb)).1 "b+" (by decide)
  rw [f1] at e2
  cases e2
  exact ⟨0, r, r', e1, f2, f3⟩

private theorem shr_replies (hs : Cfg.strictShift = false) {b1 b2 : List Nat} (h1 : Bytes b1) (h2 : Bytes b2) (hy : IntRange (numberRead b2)) (n : Nat) :
    ∀ a b, a.Denotes (numberRead b1) → b.Denotes (numberRead b2) → ∃ w', RepliesTwo (binary n a b "b>>") (shiftInt (numberRead b1) (-numberRead b2)) w' :=
  fun a b ha hb => ⟨0, (C74_shifts hs n a b _ _ ha hb (read_len h1 hs ha) (read_len h2 hs hb) hy).2⟩

/-- A test of `>>` fails on the operands for which the library is wrong and passes on all others. -/
theorem C75_shift_right_test (hs : Cfg.strictShift = false) (b1 b2 : List Nat) (h1 : Bytes b1) (h2 : Bytes b2) (p1 : Printable (numberRead b1))
    (p2 : Printable (numberRead b2)) (hy : IntRange (numberRead b2)) (hmin : numberRead b2 ≠ -2 ^ 31)
    (pz : Printable (shiftInt (numberRead b1) (-numberRead b2))) (n : Nat) (logs : Logs) (k : Nat) (hk : 4 ≤ k) :
    (0 ≤ numberRead b2 ∧ ShiftMisfires (numberRead b1) (numberRead b2).natAbs →
      verify false n logs k (start (print b2 ++ (print b1 ++ "b>>".toList))) = .ok false) ∧
    (¬ (0 ≤ numberRead b2 ∧ ShiftMisfires (numberRead b1) (numberRead b2).natAbs) →
      verify false n logs k (start (print b2 ++ (print b1 ++ "b>>".toList))) = .ok true) := by
  refine ⟨?_, ?_⟩
  · rintro ⟨g1, g2⟩
    have hn : shiftInt (numberRead b1) (-numberRead b2) ≤ -(2 : Int) ^ 32 := by
      obtain ⟨a, -, a2, a3⟩ := readB h1 hs
      have h3 := g2.1
      have := (C22_misfire a _ _ a2 a3 g2).2
      rwa [shiftInt, if_neg (by omega), show (- -numberRead b2).toNat = (numberRead b2).natAbs by omega]
    rw [C75_binary_test hs b1 b2 h1 h2 p1 p2 "b>>" (by decide) (by decide) n 0 _ ?_ (shr_replies hs h1 h2 hy n)
      (printable_of (k := 1) (not_misfires le_rfl) (by decide) (by decide)) pz logs k hk, decide_eq_false]
    · norm_num at hn
      omega
    · intro a b ha hb
      have m := (C22_misfire a _ _ ha (read_len h1 hs ha) g2).1
      rw [show (((numberRead b2).natAbs : Nat) : Int) = numberRead b2 by omega] at m
      obtain ⟨c, c1, c2⟩ := m
      have hc : b.toInt32 = .ok (numberRead b2) := by
        rw [BigInt.toInt32_spec hb, if_neg (by norm_num at hmin ⊢; exact hmin), if_pos ⟨hy.1, by have := hy.2; omega⟩]
      exact ⟨0, c, _, by simp [libBinary, hc, c1], c2, denotes_zero⟩
  · intro g
    rw [C75_binary_test hs b1 b2 h1 h2 p1 p2 "b>>" (by decide) (by decide) n _ _ ?_ (shr_replies hs h1 h2 hy n) pz pz logs k hk, decide_eq_true rfl]
    intro a b ha hb
    obtain ⟨c, e1, e2⟩ := (C74_shifts_iff hs n a b _ _ ha hb (read_len h1 hs ha) (read_len h2 hs hb) hy hmin).1.2 g
    obtain ⟨w', r, r', f1, f2, f3⟩ := shr_replies hs h1 h2 hy n a b ha hb
    rw [f1] at e2
    cases e2
    exact ⟨w', r, r', e1, f2, f3⟩
-- the test whose operands are the bytes of -79228162514264337593543950335 and of 64 fails: the library answers 0
example (hs : Cfg.strictShift = false) (logs : Logs) :
    verify false 0 logs 4 (start (print [64] ++ (print [1, 0, 0, 0, 0, 0, 0, 0, 0, 0, 0, 0, 0xff] ++ "b>>".toList))) = .ok false := by
  have e1 : numberRead [1, 0, 0, 0, 0, 0, 0, 0, 0, 0, 0, 0, 0xff] = -79228162514264337593543950335 := by decide
  have e2 : numberRead [64] = 64 := by decide
  refine (C75_shift_right_test hs _ [64] ⟨by decide, by decide⟩ ⟨by decide, by decide⟩ ?_ ?_ ?_ ?_ ?_ 0 logs 4 le_rfl).1 ?_
  · exact printable_of (k := 96) (by decide +kernel) (by decide) (by decide)
  · exact printable_of (k := 8) (by decide) (by decide) (by decide)
  · rw [e2]; decide
  · rw [e2]; decide
  · rw [e1, e2]; exact printable_of (k := 96) (by decide +kernel) (by decide) (by decide)
  · rw [e1, e2]; exact ⟨by decide, by decide, by decide, 1, by decide, by norm_num, by norm_num⟩

/-- The tests of `>>` by 32 (op_rightshift.cpp:85, :140 and op_leftshift.cpp:95, :150: the count is the array `{32}`) pass for every operand,
wrong or not: they shift by zero. -/
theorem C75_shift_by_32_untested (hs : Cfg.strictShift = false) (b1 : List Nat) (h1 : Bytes b1) (p1 : Printable (numberRead b1)) (n : Nat)
    (logs : Logs) (k : Nat) (hk : 4 ≤ k) : verify false n logs k (start (print [32] ++ (print b1 ++ "b>>".toList))) = .ok true := by
  have h0 := C75_blank.1
  refine (C75_shift_right_test hs b1 [32] h1 ⟨by decide, by decide⟩ p1 ?_ (by rw [h0]; decide) (by rw [h0]; decide) ?_ n logs k hk).2 ?_
  · rw [h0]; exact printable_of (k := 1) (not_misfires le_rfl) (by decide) (by decide)
  · rw [h0, shiftInt, if_pos (by decide)]
    simpa using p1
  · rw [h0]
    rintro ⟨-, h, -⟩
    exact absurd h (by decide)
-- the library's answer for this operand is wrong (C22_misfire), the test passes
example (hs : Cfg.strictShift = false) (logs : Logs) :
    verify false 0 logs 4 (start (print [32] ++ (print [0xff, 0xff, 0xff, 0xff, 0, 0, 0, 0, 0xff] ++ "b>>".toList))) = .ok true ∧
    ShiftMisfires (numberRead [0xff, 0xff, 0xff, 0xff, 0, 0, 0, 0, 0xff]) 32 :=
  ⟨C75_shift_by_32_untested hs _ ⟨by decide, by decide⟩ (printable_of (k := 64) (by decide +kernel) (by decide) (by decide)) 0 logs 4 (by decide),
    by decide, by decide, 1, by decide, by decide, by decide⟩

/-- Where the remainder of `div_rem` is wrong (C13) its test passes in a build with NDEBUG, and in one without it the
assertion ends the program. -/
theorem C75_wrong_remainder (hs : Cfg.strictShift = false) (b1 b2 : List Nat) (h1 : Bytes b1) (h2 : Bytes b2) (p1 : Printable (numberRead b1))
    (hy : numberRead b2 ≠ 0) (hx : 2 ^ 31 ≤ |numberRead b1|) (hy2 : |numberRead b2| < 2 ^ 31) (hr : (numberRead b1).tmod (numberRead b2) < 0)
    (pz : Printable ((numberRead b1).tdiv (numberRead b2))) (n : Nat) (logs : Logs) (k : Nat) (hk : 4 ≤ k) :
    verify true n logs k (start (print b2 ++ (print b1 ++ "bDivRem".toList))) = if Cfg.ndebug then .ok true else .abort := by
  have p2 : Printable (numberRead b2) := by
    rw [abs_lt] at hy2
    refine printable_of (k := 31) (fun h => ?_) (by omega) (by decide)
    have := h.1
    omega
  rw [C75_div_rem_test hs b1 b2 h1 h2 p1 p2 n ((numberRead b1).tdiv (numberRead b2)) ((numberRead b1).tmod (numberRead b2) + 2 ^ 32) _ _ ?_
    (fun a b ha hb => (C74_division hs n a b _ _ ha hb (read_len h1 hs ha) (read_len h2 hs hb) hy).2.2) pz pz logs k hk, if_pos rfl]
  · cases h : Cfg.ndebug <;> simp
  · intro a b ha hb
    obtain ⟨q, r, l1, l2, l3⟩ := C13_wrong_remainder a b _ _ ha hb hy (lt_trans (read_len h1 hs ha) (by decide)) hx hy2 hr
    exact ⟨q, r, by simp [libBinary, l1], l2, l3⟩
-- -2147483649 and 2: the library stores 4294967295 instead of -1
example (hs : Cfg.strictShift = false) (hn : Cfg.ndebug = true) (logs : Logs) :
    verify true 0 logs 4 (start (print [2] ++ (print [0xff, 0xff, 0xff, 0x7f, 0xff] ++ "bDivRem".toList))) = .ok true := by
  rw [C75_wrong_remainder hs [0xff, 0xff, 0xff, 0x7f, 0xff] [2] ⟨by decide, by decide⟩ ⟨by decide, by decide⟩
    (printable_of (k := 32) (by decide +kernel) (by decide) (by decide)) (by decide) (by decide) (by decide) (by decide)
    (printable_of (k := 32) (by decide +kernel) (by decide) (by decide)) 0 logs 4 le_rfl, if_pos hn]

/-- An array whose last byte is at most 0x7f is not negative.  The arrays of `Random::NextBytes` (Random.cpp:12-17), from
which most tests take all their operands, have such bytes only. -/
theorem C75_random_nonneg (bytes : List Nat) (h : BytesOk bytes) (hl : ∀ c ∈ bytes.getLast?, c ≤ 0x7f) : 0 ≤ numberRead bytes := by
  have hr : ∀ c ∈ (readBack bytes).getLast?, c ≤ 0x7f := by
    rcases List.eq_nil_or_concat bytes with rfl | ⟨bs, b, rfl⟩
    · simp [readBack]
    · rw [List.concat_eq_append, List.getLast?_concat] at hl
      have hb := hl b rfl
      rw [List.concat_eq_append, readBack, List.flatMap_append]
      by_cases h32 : b = 32
      · simp [h32]
      · simp [h32, hb]
  rcases Nat.eq_zero_or_pos (readBack bytes).length with h0 | h0
  · unfold numberRead
    rw [List.length_eq_zero_iff.1 h0]
    decide
  · have hst : Stands (readBack bytes) (numberRead bytes) := ⟨readBack_ok h, List.length_pos_iff.1 h0, rfl⟩
    obtain ⟨t, t1, -, -, -, t2, -⟩ := sign_bit hst
    have ht : t ≤ 0x7f := by
      unfold last at t1
      split at t1
      · next b hb =>
        cases t1
        exact hr t hb
      · cases t1
    by_contra hc
    refine t2.2 (by omega) ?_
    have : ∀ t ≤ 0x7f, t &&& 0x80 = 0 := by decide
    exact this t ht
example : 0 ≤ numberRead [0x12, 0x7f] := C75_random_nonneg _ (by decide) (by decide)
example : numberRead [0x12, 0x7f] = 0x7f12 ∧ numberRead [0x12, 0x80] = -32750 := by decide

theorem printable_read {bytes : List Nat} (hb : Bytes bytes) (hs : Cfg.strictShift = false) (h : ∀ c ∈ bytes.getLast?, c ≤ 0x7f) :
    Printable (numberRead bytes) :=
  printable_of (not_misfires (C75_random_nonneg bytes hb.1 h)) (read_lt hb hs) (by decide)

/-- So no test of `>>` built from such an array fails, although the library is wrong for negative operands. -/
theorem C75_random_shift_tests_pass (hs : Cfg.strictShift = false) (b1 b2 : List Nat) (h1 : Bytes b1) (h2 : Bytes b2) (r1 : ∀ c ∈ b1.getLast?, c ≤ 0x7f)
    (p2 : Printable (numberRead b2)) (hy : IntRange (numberRead b2)) (hmin : numberRead b2 ≠ -2 ^ 31) (n : Nat) (logs : Logs) (k : Nat)
    (hk : 4 ≤ k) : verify false n logs k (start (print b2 ++ (print b1 ++ "b>>".toList))) = .ok true := by
  have hx := C75_random_nonneg b1 h1.1 r1
  have hlt := read_lt h1 hs
  refine (C75_shift_right_test hs b1 b2 h1 h2 (printable_read h1 hs r1) p2 hy hmin ?_ n logs k hk).2 ?_
  · have hk2 : (-numberRead b2).toNat ≤ 2 ^ 31 := by have := hy.1; omega
    generalize numberRead b1 = x at *
    obtain ⟨m, rfl⟩ := Int.eq_ofNat_of_zero_le hx
    have hr : ∃ r : Nat, shiftInt (m : Int) (-numberRead b2) = r ∧ r ≤ m * 2 ^ (-numberRead b2).toNat := by
      by_cases h0 : 0 ≤ -numberRead b2
      · exact ⟨m * 2 ^ (-numberRead b2).toNat, by rw [shiftInt, if_pos h0]; push_cast; rfl, le_rfl⟩
      · refine ⟨m / 2 ^ (- -numberRead b2).toNat, by rw [shiftInt, if_neg h0]; push_cast; rfl, ?_⟩
        exact le_trans (Nat.div_le_self _ _) (Nat.le_mul_of_pos_right _ (by positivity))
    obtain ⟨r, e1, e2⟩ := hr
    rw [e1]
    refine printable_of (k := 32 * 2 ^ 26 + (-numberRead b2).toNat) (not_misfires (by omega)) ?_ (by omega)
    rw [Int.natAbs_natCast, pow_add]
    rw [Int.natAbs_natCast] at hlt
    exact lt_of_le_of_lt e2 (Nat.mul_lt_mul_of_pos_right hlt (by positivity))
  · rintro ⟨-, -, -, L, -, -, h⟩
    have : (2 : Int) ^ (numberRead b2).natAbs ≤ 2 ^ ((numberRead b2).natAbs + 32 * L) := pow_le_pow_right₀ (by decide) (by omega)
    generalize (2 : Int) ^ (numberRead b2).natAbs = P at *
    generalize (2 : Int) ^ ((numberRead b2).natAbs + 32 * L) = Q at *
    omega
example (hs : Cfg.strictShift = false) (logs : Logs) :
    verify false 0 logs 4 (start (print [0x40] ++ (print [1, 2, 3, 4, 5, 6, 7, 8, 9, 10] ++ "b>>".toList))) = .ok true :=
  C75_random_shift_tests_pass hs _ _ ⟨by decide, by decide⟩ ⟨by decide, by decide⟩ (by decide)
    (printable_of (k := 8) (by decide) (by decide) (by decide)) (by decide) (by decide) 0 logs 4 (by decide)

/-- Nor a test of `div_rem`, in either build. -/
theorem C75_random_div_rem_tests_pass (hs : Cfg.strictShift = false) (b1 b2 : List Nat) (h1 : Bytes b1) (h2 : Bytes b2) (r1 : ∀ c ∈ b1.getLast?, c ≤ 0x7f)
    (r2 : ∀ c ∈ b2.getLast?, c ≤ 0x7f) (hy : numberRead b2 ≠ 0) (n : Nat) (logs : Logs) (k : Nat) (hk : 4 ≤ k) :
    verify true n logs k (start (print b2 ++ (print b1 ++ "bDivRem".toList))) = .ok true := by
  have hx := C75_random_nonneg b1 h1.1 r1
  have hy0 := C75_random_nonneg b2 h2.1 r2
  have hm : ∀ a b, a.Denotes (numberRead b1) → b.Denotes (numberRead b2) →
      RepliesTwo (binary n a b "bDivRem") ((numberRead b1).tdiv (numberRead b2)) ((numberRead b1).tmod (numberRead b2)) :=
    fun a b ha hb => (C74_division hs n a b _ _ ha hb (read_len h1 hs ha) (read_len h2 hs hb) hy).2.2
  have pz : Printable ((numberRead b1).tdiv (numberRead b2)) := by
    refine printable_of (k := 32 * 2 ^ 26) (not_misfires (Int.tdiv_nonneg hx hy0)) ?_ (by decide)
    rw [Int.natAbs_tdiv]
    exact lt_of_le_of_lt (Nat.div_le_self _ _) (read_lt h1 hs)
  rw [C75_div_rem_test hs b1 b2 h1 h2 (printable_read h1 hs r1) (printable_read h2 hs r2) n _
    ((numberRead b1).tmod (numberRead b2)) _ _ ?_ hm pz pz logs k hk, if_pos rfl,
    if_neg (by simp)]
  intro a b ha hb
  obtain ⟨c, e1, e2⟩ := (C74_div_rem_iff hs n a b _ _ ha hb (read_len h1 hs ha) (read_len h2 hs hb) hy).2
    (fun h => absurd (Int.tmod_nonneg (numberRead b2) hx) (by omega))
  obtain ⟨r, r', f1, f2, f3⟩ := hm a b ha hb
  rw [f1] at e2
  cases e2
  exact ⟨r, r', e1, f2, f3⟩
example (hs : Cfg.strictShift = false) (logs : Logs) :
    verify true 0 logs 4 (start (print [0x40] ++ (print [1, 2, 3, 4, 5, 6, 7, 8, 9, 10] ++ "bDivRem".toList))) = .ok true :=
  C75_random_div_rem_tests_pass hs _ _ ⟨by decide, by decide⟩ ⟨by decide, by decide⟩ (by decide) (by decide) (by decide) 0 logs 4 (by decide)

/-- Nor a test of `mod_pow` with a modulus below 2^992. -/
theorem C75_random_mod_pow_tests_pass (hs : Cfg.strictShift = false) (b1 b2 b3 : List Nat) (h1 : Bytes b1) (h2 : Bytes b2) (h3 : Bytes b3)
    (r1 : ∀ c ∈ b1.getLast?, c ≤ 0x7f) (r2 : ∀ c ∈ b2.getLast?, c ≤ 0x7f) (r3 : ∀ c ∈ b3.getLast?, c ≤ 0x7f) (hz : numberRead b3 ≠ 0) (hz2 : numberRead b3 < 2 ^ 992)
    (n : Nat) (logs : Logs) (k : Nat) (hk : 5 ≤ k) :
    verify false n logs k (start (print b3 ++ (print b2 ++ (print b1 ++ "tModPow".toList)))) = .ok true := by
  have hx := C75_random_nonneg b1 h1.1 r1
  have hy := C75_random_nonneg b2 h2.1 r2
  have hz0 := C75_random_nonneg b3 h3.1 r3
  obtain ⟨e, he⟩ := Int.eq_ofNat_of_zero_le hy
  have hm : ∀ a b c, a.Denotes (numberRead b1) → b.Denotes (numberRead b2) → c.Denotes (numberRead b3) →
      Returns (ternary a b c "tModPow") ((numberRead b1 ^ e).tmod (numberRead b3)) := by
    intro a b c ha hb hc
    obtain ⟨r, g1, g2⟩ := C74_mod_pow hs a b c _ _ e ha (he ▸ hb) hc (read_len h1 hs ha) (read_len h2 hs hb) (read_len h3 hs hc) hz
    exact ⟨r, Option.some.inj g1, g2⟩
  have pz : Printable ((numberRead b1 ^ e).tmod (numberRead b3)) := by
    have h0 := Int.tmod_nonneg (numberRead b3) (pow_nonneg hx e)
    refine printable_of (k := 32 * 2 ^ 26) (not_misfires h0) ?_ (by decide)
    rw [Int.natAbs_tmod]
    exact lt_of_le_of_lt (Nat.mod_lt _ (Int.natAbs_pos.2 hz)).le (read_lt h3 hs)
  rw [C75_ternary_test hs b1 b2 b3 h1 h2 h3 (printable_read h1 hs r1) (printable_read h2 hs r2) (printable_read h3 hs r3) n _ _ ?_ hm pz pz logs k hk,
    decide_eq_true rfl]
  intro a b c ha hb hc
  obtain ⟨d, e1, e2⟩ := (C74_mod_pow_iff hs a b c _ _ e ha (he ▸ hb) hc (read_len h1 hs ha) (read_len h2 hs hb) hz (by rwa [abs_of_nonneg hz0])).2
    (fun h => absurd (Int.tmod_nonneg (numberRead b3) (pow_nonneg hx e)) (by omega))
  obtain ⟨r, f1, f2⟩ := hm a b c ha hb hc
  rw [f1] at e2
  cases e2
  exact ⟨_, Option.some.inj e1, f2⟩
example (hs : Cfg.strictShift = false) (logs : Logs) :
    verify false 0 logs 5 (start (print [0x40] ++ (print [7, 9] ++ (print [1, 2, 3, 4, 5, 6, 7, 8, 9, 10] ++ "tModPow".toList)))) = .ok true :=
  C75_random_mod_pow_tests_pass hs _ _ _ ⟨by decide, by decide⟩ ⟨by decide, by decide⟩ ⟨by decide, by decide⟩ (by decide) (by decide) (by decide)
    (by decide) (lt_of_lt_of_le (show _ < (2 : Int) ^ 8 by decide) (pow_le_pow_right₀ (by decide) (by decide))) 0 logs 5 (by decide)

end BigIntegerCpp
