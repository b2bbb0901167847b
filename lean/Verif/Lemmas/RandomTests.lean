import Verif.RandomTestsSpec
import Verif.Props.Calculator
import Verif.Props.Gcd
/-
Lemmas about the random operands of the tests.
-/
set_option linter.unusedSectionVars false
namespace BigIntegerCpp
variable [Cfg]
namespace RandomTests
open Oracle Calculator

variable {g : Engine}

theorem byValue_same {α : Type} {f : Gen g α} {s s' : g.State} {a : α} (h : byValue f s = .ok (a, s')) : s' = s := by
  unfold byValue at h
  obtain ⟨⟨b, t⟩, -, h⟩ := Res.bind_eq_ok h
  cases h
  rfl

theorem byValue_ok {α : Type} {f : Gen g α} {s s' : g.State} {a : α} (h : byValue f s = .ok (a, s')) : ∃ t, f s = .ok (a, t) := by
  unfold byValue at h
  obtain ⟨⟨b, t⟩, h1, h⟩ := Res.bind_eq_ok h
  cases h
  exact ⟨t, h1⟩

theorem next_ok {lo hi v : Int} {s s' : g.State} (h : next g lo hi s = .ok (v, s')) : lo ≤ v ∧ v ≤ hi := by
  unfold next at h
  by_cases hc : lo > hi
  · rw [if_pos hc] at h
    cases h
  · rw [if_neg hc] at h
    have := g.within lo hi s (by omega)
    rw [Res.ok.inj h] at this
    exact this

theorem nextBytes_ok {hi : Int} : ∀ {size : Nat} {s s' : g.State} {v : List Nat}, nextBytes g hi size s = .ok (v, s') →
    v.length = size ∧ ∀ b ∈ v, b < 256 ∧ (hi < 256 → (b : Int) ≤ hi)
  | 0, s, s', v, h => by
    unfold nextBytes at h
    cases h
    simp
  | size + 1, s, s', v, h => by
    unfold nextBytes at h
    obtain ⟨⟨b, t⟩, h1, h⟩ := Res.bind_eq_ok h
    obtain ⟨⟨bs, t'⟩, h2, h⟩ := Res.bind_eq_ok h
    cases h
    obtain ⟨k1, k2⟩ := next_ok h1
    obtain ⟨k3, k4⟩ := nextBytes_ok h2
    refine ⟨by simp [k3], ?_⟩
    intro c hc
    rcases List.mem_cons.1 hc with rfl | hc
    · refine ⟨by omega, fun h3 => by omega⟩
    · exact k4 c hc

theorem nonZeroLoop_ok : ∀ {rounds : Nat} {v w : List Nat} {s s' : g.State}, (∀ b ∈ v, b ≤ 0x7f) → nonZeroLoop g rounds v s = .ok (w, s') →
    w.length = v.length ∧ (∀ b ∈ w, b ≤ 0x7f) ∧ ∃ b ∈ w, b ≠ 0
  | 0, _, _, _, _, _, h => by
    unfold nonZeroLoop at h
    cases h
  | rounds + 1, v, w, s, s', hv, h => by
    unfold nonZeroLoop at h
    by_cases hz : isZero v = true
    · rw [if_pos hz] at h
      obtain ⟨⟨u, t⟩, h1, h⟩ := Res.bind_eq_ok h
      obtain ⟨k1, k2⟩ := nextBytes_ok h1
      obtain ⟨k3, k4, k5⟩ := nonZeroLoop_ok (fun b hb => by have := (k2 b hb).2 (by decide); omega) h
      exact ⟨by rw [k3, k1], k4, k5⟩
    · rw [if_neg hz] at h
      cases h
      refine ⟨rfl, hv, ?_⟩
      unfold isZero at hz
      simpa using hz

theorem nonZero_ok {rounds size : Nat} {v : List Nat} {s s' : g.State} (h : getNonZeroRandomByteArray g rounds size s = .ok (v, s')) :
    s' = s ∧ RandomArray size size v ∧ ∃ b ∈ v, b ≠ 0 := by
  obtain ⟨t, ht⟩ := byValue_ok h
  obtain ⟨k1, k2, k3⟩ := nonZeroLoop_ok (by simp) ht
  rw [List.length_replicate] at k1
  exact ⟨byValue_same h, ⟨k2, k1.ge, k1.le⟩, k3⟩

theorem pos_ok {size : Nat} {v : List Nat} {s s' : g.State} (h : getRandomPosByteArray g size s = .ok (v, s')) :
    s' = s ∧ BytesOk v ∧ v.length = size ∧ ∀ c ∈ v.getLast?, c ≤ 0x7f := by
  refine ⟨byValue_same h, ?_⟩
  obtain ⟨t, ht⟩ := byValue_ok h
  obtain ⟨⟨u, t'⟩, h1, h2⟩ := Res.bind_eq_ok ht
  obtain ⟨k1, k2⟩ := nextBytes_ok h1
  rcases List.eq_nil_or_concat u with rfl | ⟨us, c, rfl⟩
  · cases h2
  · rw [List.concat_eq_append] at *
    simp only [List.getLast?_concat, List.dropLast_concat] at h2
    cases h2
    have hc : c &&& 0x7f ≤ 0x7f := Nat.and_le_right
    refine ⟨?_, by simpa using k1, ?_⟩
    · intro b hb
      rcases List.mem_append.1 hb with hb | hb
      · exact (k2 b (List.mem_append_left _ hb)).1
      · rw [List.mem_singleton.1 hb]; omega
    · intro b hb
      rw [List.getLast?_concat] at hb
      cases hb
      exact hc

theorem ofRandomSize_ok {sizeFirst : Bool} {lo hi : Int} {f : Nat → Gen g (List Nat)} {v : List Nat} {s s' : g.State}
    (h : ofRandomSize g sizeFirst lo hi f s = .ok (v, s')) :
    s' = s ∧ ∃ size t u, lo ≤ size ∧ size ≤ hi ∧ f size.toNat t = .ok (v, u) := by
  refine ⟨byValue_same h, ?_⟩
  obtain ⟨t, ht⟩ := byValue_ok h
  obtain ⟨⟨size, t'⟩, h1, h2⟩ := Res.bind_eq_ok ht
  obtain ⟨⟨w, t''⟩, h3, h4⟩ := Res.bind_eq_ok h2
  cases h4
  obtain ⟨k1, k2⟩ := next_ok h1
  exact ⟨size, _, _, k1, k2, h3⟩

theorem large_ok {sizeFirst : Bool} {rounds : Nat} {v : List Nat} {s s' : g.State} (h : large g sizeFirst rounds s = .ok (v, s')) :
    s' = s ∧ RandomArray 1 100 v ∧ ∃ b ∈ v, b ≠ 0 := by
  obtain ⟨h1, size, t, u, h2, h3, h4⟩ := ofRandomSize_ok h
  obtain ⟨-, ⟨k1, k2, k3⟩, k4⟩ := nonZero_ok h4
  exact ⟨h1, ⟨k1, by omega, by omega⟩, k4⟩

theorem small_ok {rounds : Nat} {v : List Nat} {s s' : g.State} (h : small g rounds s = .ok (v, s')) :
    s' = s ∧ RandomArray 2 2 v ∧ ∃ b ∈ v, b ≠ 0 := nonZero_ok h

theorem largePos_ok {sizeFirst : Bool} {v : List Nat} {s s' : g.State} (h : largePos g sizeFirst s = .ok (v, s')) :
    s' = s ∧ BytesOk v ∧ 1 ≤ v.length ∧ v.length ≤ 100 ∧ ∀ c ∈ v.getLast?, c ≤ 0x7f := by
  obtain ⟨h1, size, t, u, h2, h3, h4⟩ := ofRandomSize_ok h
  obtain ⟨-, k1, k2, k3⟩ := pos_ok h4
  exact ⟨h1, k1, by omega, by omega, k3⟩

theorem RandomArray.bytes {lo hi : Nat} {v : List Nat} (h : RandomArray lo hi v) (hh : hi < 2 ^ 26) : Bytes v :=
  ⟨fun b hb => by have := h.1 b hb; show b < 256; omega, lt_of_le_of_lt h.2.2 hh⟩

theorem RandomArray.last {lo hi : Nat} {v : List Nat} (h : RandomArray lo hi v) : ∀ c ∈ v.getLast?, c ≤ 0x7f :=
  fun c hc => h.1 c (List.mem_of_getLast? hc)

/-- The number read from an array of at most `k` bytes. -/
theorem numberRead_lt {v : List Nat} {k : Nat} (hv : BytesOk v) (hk : v.length ≤ k) : 2 * |numberRead v| ≤ 256 ^ (2 * k) := by
  rcases Nat.eq_zero_or_pos (readBack v).length with h0 | h0
  · unfold numberRead
    rw [List.length_eq_zero_iff.1 h0]
    have : (0 : Int) ≤ 256 ^ (2 * k) := by positivity
    have e : bytesValue false false [] = 0 := by decide
    rw [e]
    simp
  · have hst : Stands (readBack v) (numberRead v) := ⟨readBack_ok hv, List.length_pos_iff.1 h0, rfl⟩
    refine le_trans (abs_bound hst) (pow_le_pow_right₀ (by decide) ?_)
    have := readBack_length v
    omega

theorem andThen_ok {p q : Gen g (List Check)} {s : g.State} {l m : List Check} (hp : p s = .ok (l, s)) (hq : q s = .ok (m, s)) :
    andThen p q s = .ok (l ++ m, s) := by
  unfold andThen
  rw [hp, Res.ok_bind]
  dsimp only
  rw [hq, Res.ok_bind]

theorem samples_ok {body : Gen g (List Check)} {s : g.State} {l : List Check} (h : body s = .ok (l, s)) :
    samples body 10 s = .ok (tenTimes l, s) := by
  have hk : ∀ k, samples body k s = .ok ((List.replicate k l).flatten, s) := by
    intro k
    induction k with
    | zero => rfl
    | succ k ih =>
      unfold samples
      rw [andThen_ok h ih, List.replicate_succ, List.flatten_cons]
  rw [hk 10]
  simp [List.replicate, tenTimes]

theorem pair_ok {w : Setting} {out : Bool} {op : String} {r1 r2 : Gen g (List Nat)} {s : g.State} {t1 t2 : List Nat} (h1 : r1 s = .ok (t1, s))
    (h2 : r2 s = .ok (t2, s)) {b : Bool} (hv : verify out w.n w.logs w.k (start (print t1 ++ (print t2 ++ op.toList))) = .ok b) :
    pair w out op r1 r2 s = .ok ([⟨[print t1 ++ (print t2 ++ op.toList)], b⟩], s) := by
  unfold pair
  rw [h1, Res.ok_bind]
  dsimp only
  rw [h2, Res.ok_bind]
  dsimp only
  rw [hv, Res.ok_bind]

theorem triple_ok {w : Setting} {r1 r2 r3 : Gen g (List Nat)} {s : g.State} {t1 t2 t3 : List Nat} (h1 : r1 s = .ok (t1, s))
    (h2 : r2 s = .ok (t2, s)) (h3 : r3 s = .ok (t3, s)) {b : Bool}
    (hv : verify false w.n w.logs w.k (start (print t3 ++ (print t2 ++ (print t1 ++ "tModPow".toList)))) = .ok b) :
    triple g w r1 r2 r3 s = .ok ([⟨[print t3 ++ (print t2 ++ (print t1 ++ "tModPow".toList))], b⟩], s) := by
  unfold triple
  rw [h1, Res.ok_bind]
  dsimp only
  rw [h2, Res.ok_bind]
  dsimp only
  rw [h3, Res.ok_bind]
  dsimp only
  rw [hv, Res.ok_bind]

/-! ### Texts of parsed numbers -/

theorem next_parse (n : Nat) (logs : Logs) {op : List Char} (hop : op.head? ≠ some 'u' ∧ op.head? ≠ some 'b' ∧ op.head? ≠ some 't')
    (h1 : op ≠ "make".toList) (h2 : op ≠ "Corruption".toList) {a : BigInt} (ha : BigInt.tryParse op zeroInt = .ok (true, a))
    (ops : List (List Char)) (sn my : List BigInt) (so mo : BigInt) :
    Calculator.next n logs ⟨op :: ops, sn, my, so, mo⟩ = .ok (some ⟨ops, a :: sn, a :: my, so, mo⟩) := by
  unfold Calculator.next
  dsimp only
  rw [if_neg hop.1, if_neg hop.2.1, if_neg hop.2.2, if_neg h1, if_neg h2, ha, Res.ok_bind]
  rfl

theorem runAll_two {n : Nat} {logs : Logs} {c d e : Calc} (h1 : Calculator.next n logs c = .ok (some d))
    (h2 : Calculator.next n logs d = .ok (some e)) (k : Nat) : runAll n logs (k + 1) c = runAll n logs k e := by
  rw [runAll, h1, Res.ok_bind]
  dsimp only
  rw [h2, Res.ok_bind]

theorem runAll_last {n : Nat} {logs : Logs} {c d : Calc} (h1 : Calculator.next n logs c = .ok (some d))
    (h2 : d.operators = []) (k : Nat) : runAll n logs (k + 2) c = .ok d := by
  have hn : Calculator.next n logs d = .ok none := by unfold Calculator.next; rw [h2]
  rw [runAll, h1, Res.ok_bind]
  dsimp only
  rw [hn, Res.ok_bind]
  dsimp only
  rw [runAll, hn, Res.ok_bind]

/-! ### The library's greatest common divisors in the tests -/

theorem gcd_lib (n : Nat) {a b : BigInt} {x y : Int} (ha : a.Denotes x) (hb : b.Denotes y)
    (hla : a.bits.length < 2 ^ 26) (hlb : b.bits.length < 2 ^ 26) (h : x = y ∨ |x| < 2 ^ 64 ∨ |y| < 2 ^ 64) (hn : 2 ≤ n) :
    RepliesTwo (libBinary n a b "bGCD") (Int.gcd x y) 0 := by
  have fa : a.Fits := by unfold BigInt.Fits; omega
  have fb : b.Fits := by unfold BigInt.Fits; omega
  have key : Returns (BigInt.gcd n a b) (Int.gcd x y) := by
    by_cases hc : |x| < 2 ^ 64 ∨ |y| < 2 ^ 64
    · exact C19_below_64_bits a b x y ha hb fa fb hc n
    · have hxy := h.resolve_right hc
      subst hxy
      rw [Int.gcd_self]
      refine C19_divisor a b x x ha hb fa fb (fun h0 => hc (.inl ?_)) (dvd_refl _) n hn
      rw [h0]; decide
  obtain ⟨r, r1, r2⟩ := key
  exact ⟨r, zeroInt, by simp [libBinary, r1], r2, denotes_zero⟩

theorem gcd_verdict (hs : Cfg.strictShift = false) {lo1 lo2 hi1 hi2 : Nat} {b1 b2 : List Nat} (h1 : RandomArray lo1 hi1 b1) (h2 : RandomArray lo2 hi2 b2)
    (k1 : hi1 ≤ 100) (k2 : hi2 ≤ 100) (h : numberRead b1 = numberRead b2 ∨ |numberRead b1| < 2 ^ 64 ∨ |numberRead b2| < 2 ^ 64)
    (w : Setting) (hn : 256 ^ 200 ≤ w.n) (hk : 4 ≤ w.k) :
    verify false w.n w.logs w.k (start (print b1 ++ (print b2 ++ "bGCD".toList))) = .ok true := by
  have c1 := h1.bytes (by omega)
  have c2 := h2.bytes (by omega)
  have d1 := h1.2.2
  have d2 := h2.2.2
  have e1 := numberRead_lt c1.1 (k := 100) (by omega)
  have e2 := numberRead_lt c2.1 (k := 100) (by omega)
  have hN : (256 : Int) ^ (2 * 100) ≤ (w.n : Int) := by exact_mod_cast hn
  have hp : (0 : Int) < 256 ^ (2 * 100) := by positivity
  have h2n : 2 ≤ w.n := le_trans (by
    calc 2 ≤ 256 ^ 1 := by decide
      _ ≤ 256 ^ 200 := Nat.pow_le_pow_right (by decide) (by decide)) hn
  generalize (256 : Int) ^ (2 * 100) = P at *
  have hw : ∀ a b, a.Denotes (numberRead b2) → b.Denotes (numberRead b1) → ∃ w', RepliesTwo (binary w.n a b "bGCD") (Int.gcd (numberRead b2) (numberRead b1)) w' :=
    fun a b ha hb => ⟨0, C74_gcd hs w.n a b _ _ ha hb (read_len c2 hs ha) (read_len c1 hs hb) (by rw [Int.abs_eq_natAbs] at e1; omega)⟩
  have hz : ∀ a b, a.Denotes (numberRead b2) → b.Denotes (numberRead b1) → ∃ w', RepliesTwo (libBinary w.n a b "bGCD") (Int.gcd (numberRead b2) (numberRead b1)) w' :=
    fun a b ha hb => ⟨0, gcd_lib w.n ha hb (read_len c2 hs ha) (read_len c1 hs hb) (by tauto) h2n⟩
  have pz : Printable (Int.gcd (numberRead b2) (numberRead b1) : Int) := by
    by_cases h0 : numberRead b1 = 0
    · rw [h0, Int.gcd_zero_right]
      have := printable_read c2 hs h2.last
      rwa [← Int.eq_natAbs_of_nonneg (C75_random_nonneg b2 c2.1 h2.last)]
    · refine printable_of (k := 32 * 2 ^ 26) (not_misfires (by omega)) ?_ (by decide)
      refine lt_of_le_of_lt ?_ (read_lt c1 hs)
      rw [Int.natAbs_natCast]
      exact Int.gcd_le_natAbs_right _ (by omega)
  rw [C75_binary_test hs b2 b1 c2 c1 (printable_read c2 hs h2.last) (printable_read c1 hs h1.last) "bGCD" (by decide) (by decide) w.n _ _ hz hw pz pz
    w.logs w.k hk, decide_eq_true rfl]

end RandomTests
end BigIntegerCpp
