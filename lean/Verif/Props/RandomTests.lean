import Verif.Lemmas.RandomTests
/-
C87: what the tests with random operands test.
-/
set_option linter.unusedSectionVars false
namespace BigIntegerCpp
variable [Cfg]
open Oracle Calculator RandomTests

/-! ### C87 the arrays -/

-- an engine that counts: arrays of 42 and of two bytes
private def counter : Engine where
  State := Nat
  draw min max s := (if min ≤ max then min + (s : Int) % (max - min + 1) else 0, s + 1)
  within min max s h := by
    rw [if_pos h]
    have := Int.emod_nonneg (s : Int) (show max - min + 1 ≠ 0 by omega)
    have := Int.emod_lt_of_pos (s : Int) (show 0 < max - min + 1 by omega)
    dsimp only
    omega
private theorem counter_large : large counter true 2 (41 : Nat) = .ok ((List.range 42).map (· + 42), (41 : Nat)) := by rfl
private theorem counter_small : small counter 2 (41 : Nat) = .ok ([41, 42], (41 : Nat)) := by rfl

/-- Every function that makes a random array leaves the caller's generator as it was, … -/
theorem C87_generator_unchanged (g : Engine) (sizeFirst : Bool) (rounds size : Nat) (min max : Int) (f : Nat → Gen g (List Nat)) (r : Gen g (List Nat))
    (hr : r = getRandomByteArray g size ∨ r = getNonZeroRandomByteArray g rounds size ∨ r = getRandomPosByteArray g size ∨
      r = ofRandomSize g sizeFirst min max f) (s s' : g.State) (v : List Nat) (h : r s = .ok (v, s')) : s' = s := by
  rcases hr with rfl | rfl | rfl | rfl <;> exact byValue_same h

/-- … so that a second call makes the same array. -/
theorem C87_same_array (g : Engine) (sizeFirst : Bool) (rounds size : Nat) (min max : Int) (f : Nat → Gen g (List Nat)) (r : Gen g (List Nat))
    (hr : r = getRandomByteArray g size ∨ r = getNonZeroRandomByteArray g rounds size ∨ r = getRandomPosByteArray g size ∨
      r = ofRandomSize g sizeFirst min max f) (s s' s'' : g.State) (v w : List Nat) (h : r s = .ok (v, s')) (h' : r s' = .ok (w, s'')) : w = v := by
  rw [C87_generator_unchanged g sizeFirst rounds size min max f r hr s s' v h, h] at h'
  cases h'
  rfl

example (s' s'' : Nat) (w : List Nat) (h : small counter 2 (41 : Nat) = .ok ([41, 42], s')) (h' : small counter 2 s' = .ok (w, s'')) : s' = 41 ∧ w = [41, 42] :=
  ⟨C87_generator_unchanged counter true 2 2 0 0 (fun _ => small counter 2) _ (.inr (.inl rfl)) (41 : Nat) s' _ h,
   C87_same_array counter true 2 2 0 0 (fun _ => small counter 2) _ (.inr (.inl rfl)) (41 : Nat) s' s'' _ _ h h'⟩

/-- The large and small operands of the tests of `greatest_common_divisor`, `div_rem` and `mod_pow`: at most 100 bytes, or two, none above
0x7f and one of them not zero. -/
theorem C87_arrays (g : Engine) (sizeFirst : Bool) (rounds : Nat) (s s' : g.State) (v : List Nat) :
    (large g sizeFirst rounds s = .ok (v, s') → RandomArray 1 100 v ∧ ∃ b ∈ v, b ≠ 0) ∧
    (small g rounds s = .ok (v, s') → RandomArray 2 2 v ∧ ∃ b ∈ v, b ≠ 0) :=
  ⟨fun h => (large_ok h).2, fun h => (small_ok h).2⟩

example : RandomArray 1 100 ((List.range 42).map (· + 42)) := ((C87_arrays counter true 2 (41 : Nat) _ _).1 counter_large).1

/-- The numbers they stand for are not negative and, if no byte is a blank, below 2^800. -/
theorem C87_operands (v : List Nat) (h : RandomArray 1 100 v) : 0 ≤ numberRead v ∧ (32 ∉ v → numberRead v < 2 ^ 800) := by
  have hb := h.bytes (by decide)
  refine ⟨C75_random_nonneg v hb.1 h.last, fun h32 => ?_⟩
  have hst : Stands (readBack v) (numberRead v) := ⟨readBack_ok hb.1, by
    rw [readBack_eq h32]
    exact List.length_pos_iff.1 h.2.1, rfl⟩
  have h1 := abs_bound hst
  rw [readBack_eq h32] at h1
  have h2 : (256 : Int) ^ v.length ≤ 256 ^ 100 := pow_le_pow_right₀ (by decide) h.2.2
  have h3 : (256 : Int) ^ 100 = 2 ^ 800 := by
    rw [show (256 : Int) = 2 ^ 8 by norm_num, ← pow_mul]
  rw [h3] at h2
  have h4 : (0 : Int) < 2 ^ 800 := by positivity
  have h5 := le_abs_self (numberRead v)
  generalize (2 : Int) ^ 800 = P at *
  generalize (256 : Int) ^ v.length = Q at *
  omega

example : 0 ≤ numberRead [1, 2, 0x7f] := (C87_operands [1, 2, 0x7f] (by unfold RandomArray; decide)).1
-- blanks are read as two zeros: an array of 100 bytes that stands for a number of 1584 bits
example : RandomArray 1 100 (List.replicate 99 32 ++ [1]) ∧ numberRead (List.replicate 99 32 ++ [1]) = 2 ^ 1584 := ⟨by unfold RandomArray; decide, by decide +kernel⟩

/-! ### C87 the test of the greatest common divisor -/

private theorem gcd_pair (g : Engine) (hs : Cfg.strictShift = false) (w : Setting) (hn : 256 ^ 200 ≤ w.n) (hk : 4 ≤ w.k) {r1 r2 : Gen g (List Nat)} {s : g.State}
    {b1 b2 : List Nat} {lo1 lo2 hi1 hi2 : Nat} (h1 : r1 s = .ok (b1, s)) (h2 : r2 s = .ok (b2, s)) (a1 : RandomArray lo1 hi1 b1)
    (a2 : RandomArray lo2 hi2 b2) (k1 : hi1 ≤ 100) (k2 : hi2 ≤ 100)
    (h : numberRead b1 = numberRead b2 ∨ |numberRead b1| < 2 ^ 64 ∨ |numberRead b2| < 2 ^ 64) :
    pair w false "bGCD" r1 r2 s = .ok ([gcdPassed b1 b2], s) :=
  pair_ok h1 h2 (gcd_verdict hs a1 a2 k1 k2 h w hn hk)

private theorem small_lt {v : List Nat} (hv : BytesOk v) (hl : v.length ≤ 2) : |numberRead v| < 2 ^ 64 := by
  have := numberRead_lt hv hl
  norm_num at this ⊢
  omega

private theorem gcd_step (hs : Cfg.strictShift = false) {n : Nat} (logs : Logs) {a b : BigInt} {x y : Int} (ha : a.Denotes x) (hb : b.Denotes y)
    (hla : a.bits.length < 2 ^ 26) (hlb : b.bits.length < 2 ^ 26) (h : x = y ∨ |x| < 2 ^ 64 ∨ |y| < 2 ^ 64) (hn : 2 ≤ n) (hy : y.natAbs < n)
    (ops : List (List Char)) (sn my : List BigInt) (so mo : BigInt) : ∃ r o o', r.Denotes (Int.gcd x y) ∧
      Calculator.next n logs ⟨"bGCD".toList :: ops, a :: b :: sn, a :: b :: my, so, mo⟩ = .ok (some ⟨ops, r :: sn, r :: my, o, o'⟩) := by
  obtain ⟨r, o, e1, e2, -⟩ := gcd_lib n ha hb hla hlb h hn
  obtain ⟨m, o', f1, f2, -⟩ := C74_gcd hs n a b x y ha hb hla hlb hy
  cases f2.unique e2
  exact ⟨_, o, o', e2, next_binary n logs (by decide) ha hb e1 f1 ops sn my so mo⟩

private theorem identity_ok {w : Setting} {t1 t2 : List Char} {c d : Calc} {a b : BigInt} {as bs : List BigInt} {z : Int}
    (h1 : runAll w.n w.logs w.k (start t1) = .ok c) (h2 : runAll w.n w.logs w.k (start t2) = .ok d) (hc : c.snCalc = a :: as) (hd : d.snCalc = b :: bs)
    (ha : a.Denotes z) (hb : b.Denotes z) (hz : Printable z) : verifyIdentity w t1 t2 = .ok true := by
  unfold verifyIdentity
  rw [h1, Res.ok_bind, h2, Res.ok_bind, hc, hd]
  show (do let x ← a.toStr; let y ← b.toStr; (Res.ok (decide (x = y)) : Res Bool)) = _
  rw [textOf ha hz, Res.ok_bind, textOf hb hz, Res.ok_bind, decide_eq_true rfl]

private theorem len_of {a : BigInt} {x : Int} (ha : a.Denotes x) (hx : x.natAbs < 2 ^ 64) : a.bits.length < 2 ^ 26 :=
  lt_of_le_of_lt (ha.length_le_of_lt (k := 2) (by omega)) (by decide)

/-- `p q bGCD r bGCD` with numbers below 2^64. -/
private theorem run_literals (hs : Cfg.strictShift = false) (w : Setting) (hn : 2 ^ 64 ≤ w.n) (hk : 4 ≤ w.k) {text p q r : List Char}
    (ht : tokens text = [p, q, "bGCD".toList, r, "bGCD".toList]) (hp : ∀ t ∈ [p, q, r], (t.head? ≠ some 'u' ∧ t.head? ≠ some 'b' ∧ t.head? ≠ some 't') ∧
      t ≠ "make".toList ∧ t ≠ "Corruption".toList ∧ t.length < 2 ^ 34 ∧ (textValue t).natAbs < 2 ^ 64) :
    ∃ c a, runAll w.n w.logs w.k (start text) = .ok c ∧ c.snCalc = [a] ∧
      a.Denotes (Int.gcd (textValue r) (Int.gcd (textValue q) (textValue p))) := by
  obtain ⟨k, hk⟩ : ∃ k, w.k = k + 4 := ⟨w.k - 4, by omega⟩
  obtain ⟨p1, p2, p3, p4, p5⟩ := hp p (by simp)
  obtain ⟨q1, q2, q3, q4, q5⟩ := hp q (by simp)
  obtain ⟨r1, r2, r3, r4, r5⟩ := hp r (by simp)
  obtain ⟨a, a1, -, a2⟩ := C33_always_true p zeroInt p4
  obtain ⟨b, b1, -, b2⟩ := C33_always_true q zeroInt q4
  obtain ⟨c, c1, -, c2⟩ := C33_always_true r zeroInt r4
  have small : ∀ {x : Int}, x.natAbs < 2 ^ 64 → |x| < 2 ^ 64 := fun {x} h => by rw [Int.abs_eq_natAbs]; omega
  have n1 := next_parse w.n w.logs p1 p2 p3 a1 [q, "bGCD".toList, r, "bGCD".toList] [] [] zeroInt zeroInt
  have n2 := next_parse w.n w.logs q1 q2 q3 b1 ["bGCD".toList, r, "bGCD".toList] [a] [a] zeroInt zeroInt
  obtain ⟨d, o, o', d2, n3⟩ := gcd_step hs (n := w.n) w.logs b2 a2 (len_of b2 q5) (len_of a2 p5) (.inr (.inl (small q5))) (by omega) (by omega) [r, "bGCD".toList] [] [] zeroInt zeroInt
  have d5 : (Int.gcd (textValue q) (textValue p) : Int).natAbs < 2 ^ 64 := by
    rw [Int.natAbs_natCast]
    by_cases h0 : textValue p = 0
    · rw [h0, Int.gcd_zero_right]; exact q5
    · exact lt_of_le_of_lt (Int.gcd_le_natAbs_right _ h0) p5
  have n4 := next_parse w.n w.logs r1 r2 r3 c1 ["bGCD".toList] [d] [d] o o'
  obtain ⟨e, u, u', e2, n5⟩ := gcd_step hs (n := w.n) w.logs c2 d2 (len_of c2 r5) (len_of d2 d5) (.inr (.inl (small r5))) (by omega) (by omega) [] [] [] o o'
  refine ⟨⟨[], [e], [e], u, u'⟩, e, ?_, rfl, e2⟩
  rw [hk, start, ht, runAll_two n1 n2, runAll_two n3 n4, runAll_last n5 rfl]

/-- `x x x bGCD bGCD`. -/
private theorem run_equal (hs : Cfg.strictShift = false) (w : Setting) (hn : 256 ^ 200 ≤ w.n) (hk : 4 ≤ w.k) {x : List Nat} (hx : RandomArray 1 100 x) :
    ∃ c a, runAll w.n w.logs w.k (start (print x ++ (print x ++ (print x ++ "bGCD bGCD".toList)))) = .ok c ∧ c.snCalc = [a] ∧ a.Denotes (numberRead x) := by
  obtain ⟨k, hk⟩ : ∃ k, w.k = k + 4 := ⟨w.k - 4, by omega⟩
  have hb := hx.bytes (by decide)
  have h0 := C75_random_nonneg x hb.1 hx.last
  have e1 := numberRead_lt hb.1 hx.2.2
  have hN : (256 : Int) ^ (2 * 100) ≤ (w.n : Int) := by exact_mod_cast hn
  have hp : (0 : Int) < 256 ^ (2 * 100) := by positivity
  have h2n : 2 ≤ w.n := le_trans (by
    calc 2 ≤ 256 ^ 1 := by decide
      _ ≤ 256 ^ 200 := Nat.pow_le_pow_right (by decide) (by decide)) hn
  rw [Int.abs_eq_natAbs] at e1
  generalize (256 : Int) ^ (2 * 100) = P at *
  obtain ⟨a, a1, a2, a3⟩ := readB hb hs
  have hg : ((Int.gcd (numberRead x) (numberRead x) : Nat) : Int) = numberRead x := by
    rw [Int.gcd_self]; omega
  have n1 := next_make w.n w.logs hb.1 (print x ++ (print x ++ "bGCD bGCD".toList)) a1 (start (print x ++ (print x ++ (print x ++ "bGCD bGCD".toList)))) rfl
  have n2 := next_make w.n w.logs hb.1 (print x ++ "bGCD bGCD".toList) a1 ⟨tokens (print x ++ (print x ++ "bGCD bGCD".toList)), [a], [a], zeroInt, zeroInt⟩ rfl
  have n3 := next_make w.n w.logs hb.1 "bGCD bGCD".toList a1 ⟨tokens (print x ++ "bGCD bGCD".toList), [a, a], [a, a], zeroInt, zeroInt⟩ rfl
  rw [show tokens "bGCD bGCD".toList = ["bGCD".toList, "bGCD".toList] by decide] at n3
  obtain ⟨d, o, o', d2, n4⟩ := gcd_step hs (n := w.n) w.logs a2 a2 a3 a3 (.inl rfl) h2n (by omega) ["bGCD".toList] [a] [a] zeroInt zeroInt
  rw [hg] at d2
  cases d2.unique a2
  obtain ⟨e, u, u', e2, n5⟩ := gcd_step hs (n := w.n) w.logs a2 a2 a3 a3 (.inl rfl) h2n (by omega) [] [] [] o o'
  rw [hg] at e2
  refine ⟨⟨[], [e], [e], u, u'⟩, e, ?_, rfl, e2⟩
  rw [hk, runAll_two n1 n2]
  dsimp only
  rw [runAll_two n3 n4, runAll_last n5 rfl]

/-- The test of `greatest_common_divisor`, for every engine, every state of it (so for every seed) and both orders of evaluation: `x` the large and
`y` the small array that it makes.  All its checks pass, and there are nine: of the pairs `x, x` and `y, y`, of `x` and `y` with each other and with
zero, and of two identities, one of literals below 2^64 and one of a text with itself.  So no pair is checked on which the library's answer is wrong
or is never given (C19, C20). -/
theorem C87_gcd_test (g : Engine) (hs : Cfg.strictShift = false) (w : Setting) (hn : 256 ^ 200 ≤ w.n) (hk : 4 ≤ w.k) (sizeFirst : Bool) (rounds : Nat)
    (s s' s'' : g.State) (x y : List Nat) (hx : large g sizeFirst rounds s = .ok (x, s')) (hy : small g rounds s = .ok (y, s'')) :
    runGCDTests g w sizeFirst rounds s = .ok (
      tenTimes [gcdPassed x x] ++ (tenTimes [gcdPassed y y] ++ (tenTimes [gcdPassed x y, gcdPassed y x] ++
      (tenTimes [gcdPassed x [0], gcdPassed [0] x] ++ (tenTimes [gcdPassed y [0], gcdPassed [0] y] ++
      [⟨["9223372036854775807 2147483647 bGCD 32767 bGCD".toList, "2147483647 32767 bGCD 9223372036854775807 bGCD".toList], true⟩,
       ⟨[print x ++ (print x ++ (print x ++ "bGCD bGCD".toList)), print x ++ (print x ++ (print x ++ "bGCD bGCD".toList))], true⟩])))), s) := by
  obtain ⟨rfl, ax, -⟩ := large_ok hx
  obtain ⟨rfl, ay, -⟩ := small_ok hy
  have az : RandomArray 1 1 [0] := by unfold RandomArray; decide
  have ly := small_lt (ay.bytes (by decide)).1 ay.2.2
  have l0 : |numberRead [0]| < 2 ^ 64 := by decide
  have f0 : ∀ s, fixed g [0] s = .ok ([0], s) := fun _ => rfl
  have P := @gcd_pair _ g hs w hn hk
  unfold runGCDTests
  refine andThen_ok (samples_ok (P hx hx ax ax le_rfl le_rfl (.inl rfl))) ?_
  refine andThen_ok (samples_ok (P hy hy ay ay (by decide) (by decide) (.inl rfl))) ?_
  refine andThen_ok (samples_ok (andThen_ok (P hx hy ax ay (by decide) (by decide) (.inr (.inr ly))) (P hy hx ay ax (by decide) (by decide) (.inr (.inl ly))))) ?_
  refine andThen_ok (samples_ok (andThen_ok (P hx (f0 _) ax az (by decide) (by decide) (.inr (.inr l0))) (P (f0 _) hx az ax (by decide) (by decide) (.inr (.inl l0))))) ?_
  refine andThen_ok (samples_ok (andThen_ok (P hy (f0 _) ay az (by decide) (by decide) (.inr (.inr l0))) (P (f0 _) hy az ay (by decide) (by decide) (.inr (.inl l0))))) ?_
  have h64 : 2 ^ 64 ≤ w.n := le_trans (by
    calc 2 ^ 64 = 256 ^ 8 := by norm_num
      _ ≤ 256 ^ 200 := Nat.pow_le_pow_right (by decide) (by decide)) hn
  obtain ⟨c1, a1, e1, f1, g1⟩ := run_literals hs w h64 hk (text := "9223372036854775807 2147483647 bGCD 32767 bGCD".toList) (p := "9223372036854775807".toList)
    (q := "2147483647".toList) (r := "32767".toList) (by decide) (by decide)
  obtain ⟨c2, a2, e2, f2, g2⟩ := run_literals hs w h64 hk (text := "2147483647 32767 bGCD 9223372036854775807 bGCD".toList) (p := "2147483647".toList)
    (q := "32767".toList) (r := "9223372036854775807".toList) (by decide) (by decide)
  have i1 := identity_ok e1 e2 f1 f2 (z := 1) (by convert g1 using 1; decide +kernel) (by convert g2 using 1; decide +kernel)
    (printable_of (k := 1) (by decide) (by decide) (by decide))
  obtain ⟨c3, a3, e3, f3, g3⟩ := run_equal hs w hn hk ax
  have i2 := identity_ok e3 e3 f3 f3 g3 g3 (printable_read (ax.bytes (by decide)) hs ax.last)
  dsimp only
  rw [i1, Res.ok_bind, hx, Res.ok_bind]
  dsimp only
  rw [hx, Res.ok_bind]
  dsimp only
  rw [hx, Res.ok_bind]
  dsimp only
  rw [i2, Res.ok_bind]

example (hs : Cfg.strictShift = false) (logs : Logs) : ∃ l : List Check, l.length = 82 ∧ (∀ c ∈ l, c.passed = true) ∧
    runGCDTests counter ⟨256 ^ 200, 4, logs⟩ true 2 (41 : Nat) = .ok (l, (41 : Nat)) :=
  ⟨_, by rfl, by simp [tenTimes, gcdPassed], C87_gcd_test counter hs ⟨256 ^ 200, 4, logs⟩ le_rfl le_rfl true 2 (41 : Nat) _ _ _ _ counter_large counter_small⟩
-- a second array made with the state the first one leaves behind would be another one
example : nonZeroLoop counter 2 [0, 0] (41 : Nat) = .ok ([41, 42], (43 : Nat)) ∧ nonZeroLoop counter 2 [0, 0] (43 : Nat) = .ok ([43, 44], (45 : Nat)) := by
  exact ⟨by rfl, by rfl⟩
-- and on this pair of numbers below 2^800 the library's answer is wrong
example (fuel : Nat) (hf : 2 ≤ fuel) : BigInt.gcd fuel ⟨1, [0, 0, 0, 1]⟩ ⟨1, [0, 0, 3221225472]⟩ = .ok ⟨3, []⟩ := C19_wrong fuel hf

/-! ### C87 the tests of `div_rem` -/

private theorem div_rem_throws (hs : Cfg.strictShift = false) {x : List Nat} (hb : Bytes x) (hp : Printable (numberRead x)) (w : Setting) (hk : 4 ≤ w.k) :
    verify true w.n w.logs w.k (start (print [0] ++ (print x ++ "bDivRem".toList))) = .throw .divideByZero := by
  obtain ⟨k, hk⟩ : ∃ k, w.k = k + 4 := ⟨w.k - 4, by omega⟩
  have h0 : Bytes [0] := ⟨by decide, by decide⟩
  have e0 : numberRead [0] = 0 := by decide
  have p0 : Printable (numberRead [0]) := printable_of (k := 1) (by decide) (by decide) (by decide)
  obtain ⟨b, c1, c2, -⟩ := readB h0 hs
  obtain ⟨a, a1, a2, a3⟩ := readB hb hs
  rw [hk, out_step (next_make w.n w.logs h0.1 _ c1 _ rfl) rfl rfl (textOf c2 p0) (textOf c2 p0) rfl rfl denotes_zero denotes_zero, if_pos rfl,
    if_neg (by simp)]
  dsimp only
  rw [out_step (next_make w.n w.logs hb.1 _ a1 _ rfl) rfl rfl (textOf a2 hp) (textOf a2 hp) rfl rfl denotes_zero denotes_zero, if_pos rfl,
    if_neg (by simp), tokens_word _ (by decide)]
  dsimp only [start]
  have ht : libBinary w.n a b "bDivRem" = some (.throw .divideByZero) := by
    rw [e0] at c2
    simp [libBinary, (C12_divide_by_zero a b _ a2 c2 (by unfold BigInt.Fits; omega)).2.2]
  have hn : Calculator.next w.n w.logs ⟨["bDivRem".toList], [a, b], [a, b], zeroInt, zeroInt⟩ = .throw .divideByZero := by
    unfold Calculator.next
    dsimp only
    rw [if_neg (by decide), if_pos (by decide), pop_cons, Res.ok_bind]
    dsimp only
    rw [pop_cons, Res.ok_bind]
    dsimp only
    rw [show String.ofList "bDivRem".toList = "bDivRem" by decide, ht]
    rfl
  rw [verify, hn, Res.throw_bind]

private theorem div_rem_zero (g : Engine) (hs : Cfg.strictShift = false) (w : Setting) (hk : 4 ≤ w.k) {r : Gen g (List Nat)} {s : g.State} {x : List Nat} {lo hi : Nat}
    (hr : r s = .ok (x, s)) (hx : RandomArray lo hi x) (hh : hi < 2 ^ 26) (h0 : numberRead x ≠ 0) :
    divRemZero g w r s = .ok ([divRemPassed x [0], divRemPassed [0] x], s) := by
  have hb := hx.bytes hh
  unfold divRemZero
  rw [hr, Res.ok_bind]
  dsimp only
  rw [C75_random_div_rem_tests_pass hs [0] x ⟨by decide, by decide⟩ hb (by decide) hx.last h0 w.n w.logs w.k hk, Res.ok_bind,
    div_rem_throws hs hb (printable_read hb hs hx.last) w hk]
  rfl

/-- The five tests of `div_rem` with random operands: they check the pairs `x, x` and `y, y`, `x` and `y` with each other, zero with `x` and `y`, and
that `x` and `y` divided by zero throw; all pass, unless the calculator reads `x` or `y` as zero.  No dividend is negative, so the wrong remainders
of C13 are not seen. -/
theorem C87_div_rem_tests (g : Engine) (hs : Cfg.strictShift = false) (w : Setting) (hk : 4 ≤ w.k) (sizeFirst : Bool) (rounds : Nat)
    (s s' s'' : g.State) (x y : List Nat) (hx : large g sizeFirst rounds s = .ok (x, s')) (hy : small g rounds s = .ok (y, s''))
    (x0 : numberRead x ≠ 0) (y0 : numberRead y ≠ 0) :
    runDivRemTwoLarge g w sizeFirst rounds s = .ok (tenTimes [divRemPassed x x], s) ∧
    runDivRemTwoSmall g w rounds s = .ok (tenTimes [divRemPassed y y], s) ∧
    runDivRemOneSmallOneLarge g w sizeFirst rounds s = .ok (tenTimes [divRemPassed x y, divRemPassed y x], s) ∧
    runDivRemOneLargeOne0 g w sizeFirst rounds s = .ok (tenTimes [divRemPassed x [0], divRemPassed [0] x], s) ∧
    runDivRemOneSmallOne0 g w rounds s = .ok (tenTimes [divRemPassed y [0], divRemPassed [0] y], s) := by
  obtain ⟨rfl, ax, -⟩ := large_ok hx
  obtain ⟨rfl, ay, -⟩ := small_ok hy
  have V := fun {lo1 hi1 lo2 hi2 : Nat} {b1 b2 : List Nat} (h1 : RandomArray lo1 hi1 b1) (h2 : RandomArray lo2 hi2 b2) (k1 : hi1 < 2 ^ 26) (k2 : hi2 < 2 ^ 26)
    (h0 : numberRead b1 ≠ 0) => C75_random_div_rem_tests_pass hs b2 b1 (h2.bytes k2) (h1.bytes k1) h2.last h1.last h0 w.n w.logs w.k hk
  refine ⟨samples_ok (pair_ok hx hx (V ax ax (by decide) (by decide) x0)), samples_ok (pair_ok hy hy (V ay ay (by decide) (by decide) y0)),
    samples_ok (andThen_ok (pair_ok hx hy (V ax ay (by decide) (by decide) x0)) (pair_ok hy hx (V ay ax (by decide) (by decide) y0))),
    samples_ok (div_rem_zero g hs w hk hx ax (by decide) x0), samples_ok (div_rem_zero g hs w hk hy ay (by decide) y0)⟩
example (hs : Cfg.strictShift = false) (logs : Logs) :
    runDivRemOneSmallOneLarge counter ⟨0, 4, logs⟩ true 2 (41 : Nat) =
      .ok (tenTimes [divRemPassed ((List.range 42).map (· + 42)) [41, 42], divRemPassed [41, 42] ((List.range 42).map (· + 42))], (41 : Nat)) :=
  (C87_div_rem_tests counter hs ⟨0, 4, logs⟩ le_rfl true 2 (41 : Nat) _ _ _ _ counter_large counter_small (by decide +kernel) (by decide)).2.2.1

/-! ### C87 the tests of `mod_pow` -/

/-- Three tests of `mod_pow` with random operands, `p`, `q`, `e` their exponents of one byte, two bytes and up to 100 bytes: base and modulus are the
same number, or one of them has two bytes; none is negative, and no modulus has 2^992 or more unless blanks make it longer.  All pass. -/
theorem C87_mod_pow_tests (g : Engine) (hs : Cfg.strictShift = false) (w : Setting) (hk : 5 ≤ w.k) (sizeFirst : Bool) (rounds : Nat)
    (s s1 s2 s3 s4 s5 : g.State) (x y p q e : List Nat) (hx : large g sizeFirst rounds s = .ok (x, s1)) (hy : small g rounds s = .ok (y, s2))
    (hp : getRandomPosByteArray g 1 s = .ok (p, s3)) (hq : getRandomPosByteArray g 2 s = .ok (q, s4)) (he : largePos g sizeFirst s = .ok (e, s5))
    (x0 : numberRead x ≠ 0) (y0 : numberRead y ≠ 0) (hm : numberRead x < 2 ^ 992) :
    runModPow3Small g w rounds s = .ok (tenTimes [modPowPassed y q y], s) ∧
    runModPow1Large2Small g w sizeFirst rounds s = .ok (tenTimes [modPowPassed y e y, modPowPassed x q y, modPowPassed y p x], s) ∧
    runModPow2Large1Small g w sizeFirst rounds s = .ok (tenTimes [modPowPassed x e y], s) := by
  obtain ⟨rfl, ax, -⟩ := large_ok hx
  obtain ⟨rfl, ay, -⟩ := small_ok hy
  obtain ⟨rfl, p1, p2, p3⟩ := pos_ok hp
  obtain ⟨rfl, q1, q2, q3⟩ := pos_ok hq
  obtain ⟨rfl, e1, -, e2, e3⟩ := largePos_ok he
  have bx := ax.bytes (by decide)
  have bY := ay.bytes (by decide)
  have ym : numberRead y < 2 ^ 992 := lt_of_le_of_lt (le_abs_self _) (lt_trans (small_lt bY.1 ay.2.2) (pow_lt_pow_right₀ (by decide) (by decide)))
  have V := fun {b1 b2 b3 : List Nat} (h1 : Bytes b1) (h2 : Bytes b2) (h3 : Bytes b3) (l1 : ∀ c ∈ b1.getLast?, c ≤ 0x7f) (l2 : ∀ c ∈ b2.getLast?, c ≤ 0x7f)
    (l3 : ∀ c ∈ b3.getLast?, c ≤ 0x7f) (h0 : numberRead b3 ≠ 0) (hm : numberRead b3 < 2 ^ 992) =>
    C75_random_mod_pow_tests_pass hs b1 b2 b3 h1 h2 h3 l1 l2 l3 h0 hm w.n w.logs w.k hk
  have bp : Bytes p := ⟨p1, by omega⟩
  have bq : Bytes q := ⟨q1, by omega⟩
  have be : Bytes e := ⟨e1, by omega⟩
  refine ⟨samples_ok (triple_ok hy hq hy (V bY bq bY ay.last q3 ay.last y0 ym)),
    samples_ok (andThen_ok (triple_ok hy he hy (V bY be bY ay.last e3 ay.last y0 ym))
      (andThen_ok (triple_ok hx hq hy (V bx bq bY ax.last q3 ay.last y0 ym)) (triple_ok hy hp hx (V bY bp bx ay.last p3 ax.last x0 hm)))),
    samples_ok (triple_ok hx he hy (V bx be bY ax.last e3 ay.last y0 ym))⟩
example (hs : Cfg.strictShift = false) (logs : Logs) :
    runModPow2Large1Small counter ⟨0, 5, logs⟩ true 2 (41 : Nat) =
      .ok (tenTimes [modPowPassed ((List.range 42).map (· + 42)) ((List.range 42).map (· + 42)) [41, 42]], (41 : Nat)) := by
  refine (C87_mod_pow_tests counter hs ⟨0, 5, logs⟩ le_rfl true 2 (41 : Nat) _ _ _ _ _ _ _ [41] [41, 42] _ counter_large counter_small (by rfl) (by rfl) (by rfl)
    (by decide +kernel) (by decide) ?_).2.2
  exact lt_of_lt_of_le ((C87_operands _ (by unfold RandomArray; decide)).2 (by decide)) (pow_le_pow_right₀ (by decide) (by decide))

/-! ### C87 two large operands -/

/-- Wherever a test checks a binary operation on two large operands, both are made by the same function from the same generator, so they are the
same number `x`: the tests of `^` compare 0, those of `&`, `|`, `min` and `max` compare `x`, those of `/` and `%` compare 1 and 0. -/
theorem C87_two_large (g : Engine) (hs : Cfg.strictShift = false) (w : Setting) (hk : 4 ≤ w.k) (sizeFirst : Bool) (rounds : Nat) (min max : Int)
    (hmax : max < 2 ^ 26) (f : Nat → Gen g (List Nat)) (hf : f = getRandomByteArray g ∨ f = getNonZeroRandomByteArray g rounds)
    (s s' : g.State) (x : List Nat) (hx : ofRandomSize g sizeFirst min max f s = .ok (x, s')) (op : String) (v : Int)
    (hv : (op, v) ∈ [("b^", 0), ("b&", numberRead x), ("b|", numberRead x), ("bMin", numberRead x), ("bMax", numberRead x)] ∨
      numberRead x ≠ 0 ∧ (op, v) ∈ [("b/", 1), ("bDivide", 1), ("b%", 0), ("bRemainder", 0)]) :
    samples (pair w false op (ofRandomSize g sizeFirst min max f) (ofRandomSize g sizeFirst min max f)) 10 s =
      .ok (tenTimes [⟨[print x ++ (print x ++ op.toList)], true⟩], s) ∧
    ∀ a, a.Denotes (numberRead x) → RepliesTwo (libBinary w.n a a op) v 0 := by
  obtain ⟨rfl, size, t, u, -, k1, k2⟩ := ofRandomSize_ok hx
  have ax : RandomArray size.toNat size.toNat x := by
    rcases hf with rfl | rfl
    · obtain ⟨t', ht⟩ := byValue_ok k2
      obtain ⟨l1, l2⟩ := nextBytes_ok ht
      exact ⟨fun b hb => by have := (l2 b hb).2 (by decide); omega, l1.ge, l1.le⟩
    · exact (nonZero_ok k2).2.1
  have hb := ax.bytes (by omega)
  have hp := printable_read hb hs ax.last
  have hlib : ∀ a, a.Denotes (numberRead x) → RepliesTwo (libBinary w.n a a op) v 0 := by
    intro a ha
    have hl := read_len hb hs ha
    obtain ⟨g1, g2⟩ := C74_agree_binary hs w.n a a _ _ ha ha hl hl
    have main : RepliesTwo (binary w.n a a op) v 0 ∧ Agree (libBinary w.n a a op) (binary w.n a a op) := by
      obtain ⟨⟨z1, b1, b1'⟩, ⟨z2, b2, b2'⟩, z3, b3, b3'⟩ := C74_bitwise hs w.n a a _ _ ha ha hl hl
      obtain ⟨m1, m2⟩ := C74_min_max hs w.n a a _ _ ha ha hl hl
      have i1 : z1 = numberRead x := ibit_ext fun k => by rw [b1', Bool.and_self]
      have i2 : z2 = numberRead x := ibit_ext fun k => by rw [b2', Bool.or_self]
      have i3 : z3 = 0 := ibit_ext fun k => by rw [b3', Bool.xor_self, ibit_zero]
      rw [i1] at b1
      rw [i2] at b2
      rw [i3] at b3
      rw [_root_.min_self] at m1
      rw [_root_.max_self] at m2
      simp only [List.mem_cons, List.not_mem_nil, or_false, Prod.mk.injEq] at hv
      rcases hv with (⟨rfl, rfl⟩ | ⟨rfl, rfl⟩ | ⟨rfl, rfl⟩ | ⟨rfl, rfl⟩ | ⟨rfl, rfl⟩) | ⟨h0, hv⟩
      · exact ⟨b3, g1 _ (by decide)⟩
      · exact ⟨b1, g1 _ (by decide)⟩
      · exact ⟨b2, g1 _ (by decide)⟩
      · exact ⟨m1, g1 _ (by decide)⟩
      · exact ⟨m2, g1 _ (by decide)⟩
      · obtain ⟨d1, d2, -⟩ := C74_division hs w.n a a _ _ ha ha hl hl h0
        rw [Int.tdiv_self h0] at d1
        rw [Int.tmod_self] at d2
        rcases hv with ⟨rfl, rfl⟩ | ⟨rfl, rfl⟩ | ⟨rfl, rfl⟩ | ⟨rfl, rfl⟩
        · exact ⟨d1 _ (by decide), g2 h0 _ (by decide)⟩
        · exact ⟨d1 _ (by decide), g2 h0 _ (by decide)⟩
        · exact ⟨d2 _ (by decide), g2 h0 _ (by decide)⟩
        · exact ⟨d2 _ (by decide), g2 h0 _ (by decide)⟩
    obtain ⟨⟨r, o, e1, e2, e3⟩, c, c1, c2⟩ := main
    rw [e1] at c2
    cases c2
    exact ⟨r, o, c1, e2, e3⟩
  refine ⟨samples_ok (pair_ok hx hx ?_), hlib⟩
  refine C75_right_operations_pass hs x x hb hb hp hp w.n op ?_ v ?_ ?_ w.logs w.k hk
  · simp only [List.mem_cons, List.not_mem_nil, or_false, Prod.mk.injEq] at hv ⊢
    tauto
  · intro a b ha hb'
    rw [hb'.unique ha]
    exact ⟨0, hlib a ha⟩
  · have h1 : Printable 1 := printable_of (k := 1) (by decide) (by decide) (by decide)
    have h0 : Printable 0 := printable_of (k := 1) (by decide) (by decide) (by decide)
    simp only [List.mem_cons, List.not_mem_nil, or_false, Prod.mk.injEq] at hv
    rcases hv with (⟨-, rfl⟩ | ⟨-, rfl⟩ | ⟨-, rfl⟩ | ⟨-, rfl⟩ | ⟨-, rfl⟩) | ⟨-, ⟨-, rfl⟩ | ⟨-, rfl⟩ | ⟨-, rfl⟩ | ⟨-, rfl⟩⟩ <;> assumption
-- op_xor.cpp:40-45
example (hs : Cfg.strictShift = false) (logs : Logs) :
    samples (pair ⟨0, 4, logs⟩ false "b^" (ofRandomSize counter true 0 1024 (getRandomByteArray counter)) (ofRandomSize counter true 0 1024 (getRandomByteArray counter)))
      10 (41 : Nat) = .ok (tenTimes [⟨[print ((List.range 41).map (· + 42)) ++ (print ((List.range 41).map (· + 42)) ++ "b^".toList)], true⟩], (41 : Nat)) :=
  (C87_two_large counter hs ⟨0, 4, logs⟩ le_rfl true 0 0 1024 (by decide) _ (.inl rfl) (41 : Nat) _ _ (by rfl) "b^" 0 (.inl (by decide))).1

end BigIntegerCpp
