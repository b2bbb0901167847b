import Verif.Lemmas.Oracle5
import Verif.CalculatorSpec
import Verif.Props.Samples
import Verif.Props.Basic
import Verif.Props.Arith
import Verif.Props.Bits
import Verif.Props.Bytes
import Verif.Props.Pow
import Verif.Props.Gcd
import Verif.Lemmas.Program
/-
C74: the reference implementation of tests/MyBigInt.cpp, which the unit tests compare the library with, is
right; and where the comparison finds a difference.
-/
set_option linter.unusedSectionVars false
namespace BigIntegerCpp
variable [Cfg]
open Oracle Samples

theorem Replies.same {o p : Option (Res BigInt)} {z : Int} (h : Replies o z) (k : Replies p z) : o = p := by
  obtain ⟨r, rfl, h⟩ := h
  obtain ⟨s, rfl, k⟩ := k
  rw [h.unique k]
theorem RepliesTwo.same {o p : Option (Res (BigInt × BigInt))} {z w : Int} (h : RepliesTwo o z w) (k : RepliesTwo p z w) : o = p := by
  obtain ⟨r, r', rfl, h, h'⟩ := h
  obtain ⟨s, s', rfl, k, k'⟩ := k
  rw [h.unique k, h'.unique k']

theorem Replies.agree {o p : Option (Res BigInt)} {z : Int} (h : Replies o z) (k : Replies p z) : Agree o p := by
  have := h.same k
  obtain ⟨r, h1, -⟩ := h
  exact ⟨r, h1, by rw [← this, h1]⟩
theorem RepliesTwo.agree {o p : Option (Res (BigInt × BigInt))} {z w : Int} (h : RepliesTwo o z w) (k : RepliesTwo p z w) : Agree o p := by
  have := h.same k
  obtain ⟨r, r', h1, -⟩ := h
  exact ⟨_, h1, by rw [← this, h1]⟩
theorem Replies.differ {o p : Option (Res BigInt)} {z z' : Int} (h : Replies o z) (k : Replies p z') (hz : z ≠ z') : ¬ Agree o p := by
  rintro ⟨c, rfl, rfl⟩
  obtain ⟨r, h1, h2⟩ := h
  obtain ⟨r', k1, k2⟩ := k
  cases h1; cases k1
  exact hz (h2.2.symm.trans k2.2)
theorem RepliesTwo.differ {o p : Option (Res (BigInt × BigInt))} {z w z' w' : Int} (h : RepliesTwo o z w) (k : RepliesTwo p z' w')
    (hz : z ≠ z' ∨ w ≠ w') : ¬ Agree o p := by
  rintro ⟨c, rfl, rfl⟩
  obtain ⟨r, r', h1, h2, h3⟩ := h
  obtain ⟨s, s', k1, k2, k3⟩ := k
  cases h1; cases k1
  exact hz.elim (fun hz => hz (h2.2.symm.trans k2.2)) (fun hz => hz (h3.2.symm.trans k3.2))

/-- The operand as the reference implementation reads it. -/
private theorem enc {a : BigInt} {x : Int} (ha : a.Denotes x) (hl : a.bits.length < 2 ^ 26) :
    ∃ v L, a.toBytes false false = .ok v ∧ Stands v x ∧ v.length ≤ L ∧ 1 ≤ L ∧ L ≤ 4 * a.bits.length + 5 ∧ L < 2 ^ 28 + 5 ∧ 2 * |x| < 256 ^ L := by
  obtain ⟨v, h1, ⟨h2, h3⟩, h4, h5, -, -⟩ := C28_minimal_bytes a x ha (by omega) false false (by simp)
  have hs : Stands v x := ⟨h2, h3, h4⟩
  have hx : 2 * |x| < 256 ^ (4 * Max.max a.bits.length 1 + 1) := by
    have := ha.natAbs_lt
    rw [show 𝔹 = 256 ^ 4 by norm_num, ← pow_mul] at this
    have : |x| < 256 ^ (4 * Max.max a.bits.length 1) := by rw [Int.abs_eq_natAbs]; exact_mod_cast this
    have hp : (0 : Int) < 256 ^ (4 * Max.max a.bits.length 1) := by positivity
    rw [pow_succ]
    generalize (256 : Int) ^ (4 * Max.max a.bits.length 1) = P at *
    generalize |x| = X at *
    omega
  refine ⟨v, 4 * Max.max a.bits.length 1 + 1, h1, hs, ?_, by omega, by omega, by omega, hx⟩
  have h6 := h5 (trim v) (trim_spec hs).1.ok (trim_spec hs).1.ne (trim_spec hs).1.eq
  have h7 := neg_abs_le x
  have h8 := le_abs_self x
  exact le_trans h6 (trim_length hs (by omega) (by omega) (by omega))

/-! ### C74 the answers are right -/

section
variable (hs : Cfg.strictShift = false)
include hs

/-- The unary operations. -/
theorem C74_unary (a : BigInt) (x : Int) (ha : a.Denotes x) (hl : a.bits.length < 2 ^ 26) :
    Replies (unary a "uSign") x.sign ∧ Replies (unary a "u~") (-x - 1) ∧ Replies (unary a "uAbs") |x| ∧
    Replies (unary a "u--") (x - 1) ∧ Replies (unary a "u++") (x + 1) ∧ Replies (unary a "uNegate") (-x) ∧ Replies (unary a "u-") (-x) ∧
    Replies (unary a "u+") x ∧ Replies (unary a "uMultiply") (x * x) ∧ Replies (unary a "u*") (x * x) := by
  obtain ⟨v, L, v1, v2, v3, v4, -, v5, v6⟩ := enc ha hl
  have close : ∀ {r : List Nat} {z : Int}, Stands r z → r.length < 2 ^ 31 → ∀ {o : Option (Res BigInt)}, o = some (ofBytes r false false) → Replies o z := by
    rintro r z hr hrl o rfl
    obtain ⟨b, b1, b2⟩ := ofBytes_stands hs hr hrl
    exact ⟨b, by rw [b1], b2⟩
  obtain ⟨n, n1, n2, n3, -⟩ := negate_spec v2
  obtain ⟨m, m1, m2, m3⟩ := multiply_spec v2 v2
  refine ⟨?_, ?_, ?_, ?_, ?_, ?_, ?_, ?_, ?_, ?_⟩
  · simp only [unary, v1, Res.ok_bind]
    rw [isZero_spec v2]
    obtain ⟨k, k1, k2, -⟩ := Oracle.max_spec v2 stands_zero
    simp only [k1, Res.ok_bind, isZero_spec k2, decide_eq_true_eq]
    rcases lt_trichotomy x 0 with h | rfl | h
    · rw [Int.sign_eq_neg_one_of_neg h, if_neg (by decide), if_pos trivial, if_neg (by omega), if_pos (by omega)]
      exact ⟨_, rfl, BigInt.denotes_small (by decide) (by decide)⟩
    · exact ⟨_, rfl, BigInt.denotes_small (by decide) (by decide)⟩
    · rw [Int.sign_eq_one_of_pos h, if_neg (by decide), if_pos trivial, if_neg (by omega), if_neg (by omega)]
      exact ⟨_, rfl, BigInt.denotes_small (by decide) (by decide)⟩
  · exact close (not_spec v2).1 (by rw [(not_spec v2).2]; omega) (by simp [unary, v1])
  · obtain ⟨t, t1, -, -, -, t2, -⟩ := sign_bit v2
    by_cases h : x < 0
    · refine close (z := |x|) (by rw [abs_of_neg h]; exact n2) (by omega) ?_
      simp [unary, v1, t1, t2.2 h, n1]
    · refine close (z := |x|) (by rw [abs_of_nonneg (by omega)]; exact v2) (by omega) ?_
      have : t &&& 0x80 = 0 := by by_contra hc; exact h (t2.1 hc)
      simp [unary, v1, t1, this]
  · obtain ⟨r, r1, r2, ⟨-, r3⟩, -⟩ := Oracle.add_spec v2 (bs := [0xff]) (y := -1) ⟨by decide, by simp, by decide⟩
    refine close (z := x - 1) r2 ?_ (by simp [unary, v1, r1])
    simp at r3; omega
  · obtain ⟨r, r1, r2, ⟨-, r3⟩, -⟩ := Oracle.add_spec v2 stands_one
    refine close r2 ?_ (by simp [unary, v1, r1])
    simp at r3; omega
  · exact close n2 (by omega) (by simp [unary, v1, n1])
  · exact close n2 (by omega) (by simp [unary, v1, n1])
  · exact ⟨a, by simp [unary, v1], ha⟩
  · exact close m2 (by omega) (by simp [unary, v1, m1])
  · exact close m2 (by omega) (by simp [unary, v1, m1])


private theorem bin {n : Nat} {a b : BigInt} {x y z : Int} {op : String} (ha : a.Denotes x) (hb : b.Denotes y) (hla : a.bits.length < 2 ^ 26)
    (hlb : b.bits.length < 2 ^ 26) (f : List Nat → List Nat → Res (List Nat))
    (hop : ∀ v w, a.toBytes false false = .ok v → b.toBytes false false = .ok w →
      binary n a b op = some ((f v w).bind fun r => (ofBytes r false false).bind fun c => .ok (c, zeroInt)))
    (hf : ∀ v w, ∀ L, Stands v x → Stands w y → v.length ≤ L → w.length ≤ L → 1 ≤ L → L < 2 ^ 28 + 5 → 2 * |x| < 256 ^ L → 2 * |y| < 256 ^ L →
      ∃ r, f v w = .ok r ∧ Stands r z ∧ r.length < 2 ^ 31) : RepliesTwo (binary n a b op) z 0 := by
  obtain ⟨v, L, v1, v2, v3, v4, -, v5, v6⟩ := enc ha hla
  obtain ⟨w, M, w1, w2, w3, w4, -, w5, w6⟩ := enc hb hlb
  have m1 : (256 : Int) ^ L ≤ 256 ^ Max.max L M := pow_le_pow_right₀ (by decide) (by omega)
  have m2 : (256 : Int) ^ M ≤ 256 ^ Max.max L M := pow_le_pow_right₀ (by decide) (by omega)
  obtain ⟨r, r1, r2, r3⟩ := hf v w (Max.max L M) v2 w2 (by omega) (by omega) (by omega) (by omega) (by omega) (by omega)
  obtain ⟨c, c1, c2⟩ := ofBytes_stands hs r2 r3
  refine ⟨c, zeroInt, ?_, c2, denotes_zero⟩
  rw [hop v w v1 w1, r1]
  dsimp only [Res.bind]
  rw [c1]

local macro "ops" h:ident h1:ident h2:ident : tactic => `(tactic|
  (simp only [List.mem_cons, List.not_mem_nil, or_false] at $h:ident
   rcases $h:ident with h | h <;> subst h <;> simp [binary, $h1:ident, $h2:ident] <;> rfl))

/-- Sums, differences and products. -/
theorem C74_sums (n : Nat) (a b : BigInt) (x y : Int) (ha : a.Denotes x) (hb : b.Denotes y) (hla : a.bits.length < 2 ^ 26) (hlb : b.bits.length < 2 ^ 26) :
    (∀ op ∈ ["b+", "bAdd"], RepliesTwo (binary n a b op) (x + y) 0) ∧ (∀ op ∈ ["b-", "bSubtract"], RepliesTwo (binary n a b op) (x - y) 0) ∧
    (∀ op ∈ ["b*", "bMultiply"], RepliesTwo (binary n a b op) (x * y) 0) := by
  refine ⟨?_, ?_, ?_⟩
  · intro op hop
    refine bin hs ha hb hla hlb add ?_ ?_
    · intro v w h1 h2
      ops hop h1 h2
    · intro v w L hv hw h1 h2 h3 h4 h5 h6
      obtain ⟨r, r1, r2, ⟨-, r3⟩, -⟩ := Oracle.add_spec hv hw
      exact ⟨r, r1, r2, by omega⟩
  · intro op hop
    refine bin hs ha hb hla hlb (fun v w => (negate w).bind fun w => add v w) ?_ ?_
    · intro v w h1 h2
      ops hop h1 h2
    · intro v w L hv hw h1 h2 h3 h4 h5 h6
      obtain ⟨m, m1, m2, m3, -⟩ := negate_spec hw
      obtain ⟨r, r1, r2, ⟨-, r3⟩, -⟩ := Oracle.add_spec hv m2
      exact ⟨r, by simp only [m1, Res.bind, r1], r2, by omega⟩
  · intro op hop
    refine bin hs ha hb hla hlb multiply ?_ ?_
    · intro v w h1 h2
      ops hop h1 h2
    · intro v w L hv hw h1 h2 h3 h4 h5 h6
      obtain ⟨r, r1, r2, r3⟩ := multiply_spec hv hw
      exact ⟨r, r1, r2, by omega⟩

/-- The smaller and the larger of two numbers. -/
theorem C74_min_max (n : Nat) (a b : BigInt) (x y : Int) (ha : a.Denotes x) (hb : b.Denotes y) (hla : a.bits.length < 2 ^ 26) (hlb : b.bits.length < 2 ^ 26) :
    RepliesTwo (binary n a b "bMin") (min x y) 0 ∧ RepliesTwo (binary n a b "bMax") (max x y) 0 := by
  refine ⟨?_, ?_⟩
  · refine bin hs ha hb hla hlb (fun v w => (negate v).bind fun v => (negate w).bind fun w => (Oracle.max v w).bind fun m => negate m) ?_ ?_
    · intro v w h1 h2
      simp [binary, h1, h2]; rfl
    · intro v w L hv hw h1 h2 h3 h4 h5 h6
      obtain ⟨m, m1, m2, m3, -⟩ := negate_spec hv
      obtain ⟨k, k1, k2, k3, -⟩ := negate_spec hw
      obtain ⟨q, q1, q2, q3⟩ := Oracle.max_spec m2 k2
      obtain ⟨r, r1, r2, r3, -⟩ := negate_spec q2
      refine ⟨r, by simp only [m1, k1, q1, Res.bind, r1], ?_, by omega⟩
      rwa [show min x y = -(max (-x) (-y)) by omega]
  · refine bin hs ha hb hla hlb Oracle.max ?_ ?_
    · intro v w h1 h2
      simp [binary, h1, h2]; rfl
    · intro v w L hv hw h1 h2 h3 h4 h5 h6
      obtain ⟨r, r1, r2, r3⟩ := Oracle.max_spec hv hw
      exact ⟨r, r1, r2, by omega⟩

/-- Truncated quotient and remainder, alone and together. -/
theorem C74_division (n : Nat) (a b : BigInt) (x y : Int) (ha : a.Denotes x) (hb : b.Denotes y) (hla : a.bits.length < 2 ^ 26) (hlb : b.bits.length < 2 ^ 26)
    (hy : y ≠ 0) :
    (∀ op ∈ ["b/", "bDivide"], RepliesTwo (binary n a b op) (x.tdiv y) 0) ∧ (∀ op ∈ ["b%", "bRemainder"], RepliesTwo (binary n a b op) (x.tmod y) 0) ∧
    RepliesTwo (binary n a b "bDivRem") (x.tdiv y) (x.tmod y) := by
  refine ⟨?_, ?_, ?_⟩
  · intro op hop
    refine bin hs ha hb hla hlb divide ?_ ?_
    · intro v w h1 h2
      ops hop h1 h2
    · intro v w L hv hw h1 h2 h3 h4 h5 h6
      obtain ⟨r, r1, r2, r3⟩ := Oracle.divide_spec hv hw hy h3 h5
      exact ⟨r, r1, r2, by omega⟩
  · intro op hop
    refine bin hs ha hb hla hlb remainder ?_ ?_
    · intro v w h1 h2
      ops hop h1 h2
    · intro v w L hv hw h1 h2 h3 h4 h5 h6
      obtain ⟨r, r1, r2, r3⟩ := Oracle.remainder_spec hv hw hy h3 h5
      exact ⟨r, r1, r2, by omega⟩
  · obtain ⟨v, L, v1, v2, v3, v4, -, v5, v6⟩ := enc ha hla
    obtain ⟨w, M, w1, w2, w3, w4, -, w5, w6⟩ := enc hb hlb
    obtain ⟨q, q1, q2, q3⟩ := Oracle.divide_spec v2 w2 hy v4 v6
    obtain ⟨r, r1, r2, r3⟩ := Oracle.remainder_spec v2 w2 hy v4 v6
    obtain ⟨c, c1, c2⟩ := ofBytes_stands hs q2 (by omega)
    obtain ⟨d, d1, d2⟩ := ofBytes_stands hs r2 (by omega)
    exact ⟨c, d, by simp [binary, v1, w1, q1, r1, c1, d1]; rfl, c2, d2⟩

/-- And, or and exclusive or of the infinite two's complement forms. -/
theorem C74_bitwise (n : Nat) (a b : BigInt) (x y : Int) (ha : a.Denotes x) (hb : b.Denotes y) (hla : a.bits.length < 2 ^ 26) (hlb : b.bits.length < 2 ^ 26) :
    (∃ z, RepliesTwo (binary n a b "b&") z 0 ∧ ∀ k, ibit z k = (ibit x k && ibit y k)) ∧
    (∃ z, RepliesTwo (binary n a b "b|") z 0 ∧ ∀ k, ibit z k = (ibit x k || ibit y k)) ∧
    ∃ z, RepliesTwo (binary n a b "b^") z 0 ∧ ∀ k, ibit z k = Bool.xor (ibit x k) (ibit y k) := by
  have key : ∀ (f : Nat → Nat → Nat) (g : Bool → Bool → Bool) (op : String), (∀ a b, a < 256 → b < 256 → f a b < 256) →
      (∀ a b k, (f a b).testBit k = g (a.testBit k) (b.testBit k)) → (∃ z, ∀ k, ibit z k = g (ibit x k) (ibit y k)) →
      (∀ v w, a.toBytes false false = .ok v → b.toBytes false false = .ok w →
        binary n a b op = some ((bitwise f v w).bind fun r => (ofBytes r false false).bind fun c => .ok (c, zeroInt))) →
      ∃ z, RepliesTwo (binary n a b op) z 0 ∧ ∀ k, ibit z k = g (ibit x k) (ibit y k) := by
    rintro f g op hf hg ⟨z, hz⟩ hop
    refine ⟨z, bin hs ha hb hla hlb (bitwise f) hop ?_, hz⟩
    intro v w L hv hw h1 h2 h3 h4 h5 h6
    obtain ⟨r, r1, r2, r3⟩ := bitwise_spec hf hg hv hw hz
    exact ⟨r, r1, r2, by omega⟩
  refine ⟨?_, ?_, ?_⟩
  · obtain ⟨z, -, hz⟩ := C24_and a b x y ha hb (by omega) (by omega)
    refine key (· &&& ·) (· && ·) _ (fun a b h1 h2 => Nat.and_lt_two_pow (n := 8) a h2) (by simp) ⟨z, hz⟩ ?_
    intro v w h1 h2
    simp [binary, h1, h2]; rfl
  · obtain ⟨z, -, hz⟩ := C24_or a b x y ha hb (by omega) (by omega)
    refine key (· ||| ·) (· || ·) _ (fun a b h1 h2 => Nat.or_lt_two_pow (n := 8) h1 h2) (by simp) ⟨z, hz⟩ ?_
    intro v w h1 h2
    simp [binary, h1, h2]; rfl
  · obtain ⟨z, -, hz⟩ := C24_xor a b x y ha hb (by omega) (by omega)
    refine key (· ^^^ ·) Bool.xor _ (fun a b h1 h2 => Nat.xor_lt_two_pow (n := 8) h1 h2) (by simp) ⟨z, hz⟩ ?_
    intro v w h1 h2
    simp [binary, h1, h2]; rfl

/-- Shifts, with counts of either sign. -/
theorem C74_shifts (n : Nat) (a b : BigInt) (x y : Int) (ha : a.Denotes x) (hb : b.Denotes y) (hla : a.bits.length < 2 ^ 26) (hlb : b.bits.length < 2 ^ 26)
    (hy : IntRange y) : RepliesTwo (binary n a b "b<<") (shiftInt x y) 0 ∧ RepliesTwo (binary n a b "b>>") (shiftInt x (-y)) 0 := by
  obtain ⟨y1, y2⟩ := hy
  refine ⟨?_, ?_⟩
  · refine bin hs ha hb hla hlb shiftLeft ?_ ?_
    · intro v w h1 h2
      simp [binary, h1, h2]; rfl
    · intro v w L hv hw h1 h2 h3 h4 h5 h6
      obtain ⟨r, r1, r2, r3⟩ := shiftLeft_spec hs hv hw (by norm_num; omega) (by norm_num; omega) (z := shiftInt x y) rfl
      exact ⟨r, r1, r2, by omega⟩
  · refine bin hs ha hb hla hlb (fun v w => (negate w).bind fun w => shiftLeft v w) ?_ ?_
    · intro v w h1 h2
      simp [binary, h1, h2]; rfl
    · intro v w L hv hw h1 h2 h3 h4 h5 h6
      obtain ⟨m, m1, m2, m3, -⟩ := negate_spec hw
      obtain ⟨r, r1, r2, r3⟩ := shiftLeft_spec hs hv m2 (by norm_num; omega) (by norm_num; omega) (z := shiftInt x (-y)) rfl
      exact ⟨r, by simp only [m1, Res.bind, r1], r2, by omega⟩

/-- The greatest common divisor, given enough rounds. -/
theorem C74_gcd (n : Nat) (a b : BigInt) (x y : Int) (ha : a.Denotes x) (hb : b.Denotes y) (hla : a.bits.length < 2 ^ 26) (hlb : b.bits.length < 2 ^ 26)
    (hn : y.natAbs < n) : RepliesTwo (binary n a b "bGCD") (Int.gcd x y) 0 := by
  refine bin hs ha hb hla hlb (Oracle.gcd n) ?_ ?_
  · intro v w h1 h2
    simp [binary, h1, h2]; rfl
  · intro v w L hv hw h1 h2 h3 h4 h5 h6
    obtain ⟨r, r1, r2, r3⟩ := Oracle.gcd_spec hv hw h3 h5 h6 hn
    exact ⟨r, r1, r2, by omega⟩

/-- Powers with an exponent of the `int` range, whatever their size as long as the bytes can be counted. -/
theorem C74_pow (n : Nat) (a b : BigInt) (x : Int) (e : Nat) (ha : a.Denotes x) (hb : b.Denotes e) (hla : a.bits.length < 2 ^ 26)
    (he : IntRange e) (L : Nat) (hL : L < 2 ^ 31) (hx : 2 * |x ^ e| < 256 ^ L) : RepliesTwo (binary n a b "bPow") (x ^ e) 0 := by
  have he1 : (e : Int) < 2 ^ 31 := by have := he.2; norm_num at this ⊢; omega
  have hbn : b.bits = [] := hb.bits_nil.2 (by rw [abs_of_nonneg (by omega)]; exact he1)
  have hlb : b.bits.length < 2 ^ 26 := by rw [hbn]; decide
  have hi : ofInt32 (e : Int) = .ok b := by
    obtain ⟨c, c1, c2⟩ := ofInt32_spec he.1 (by have := he.2; omega)
    rw [c1, c2.unique hb]
  have ht : b.toInt32 = .ok (e : Int) := by
    rw [BigInt.toInt32_spec hb, if_neg (by omega), if_pos ⟨by omega, by norm_num at he1 ⊢; omega⟩]
  refine bin hs ha hb hla hlb pow ?_ ?_
  · intro v w h1 h2
    simp [binary, h1, h2, hi, ht]; rfl
  · intro v w M hv hw h1 h2 h3 h4 h5 h6
    obtain ⟨r, r1, r2⟩ := Oracle.pow_spec hv hw
    have h7 := neg_abs_le (x ^ e)
    have h8 := le_abs_self (x ^ e)
    have h9 : (256 : Int) ^ L ≤ 256 ^ Max.max L 1 := pow_le_pow_right₀ (by decide) (by omega)
    exact ⟨trim r, r1, (trim_spec r2).1, lt_of_le_of_lt (trim_length r2 (L := Max.max L 1) (by omega) (by omega) (by omega)) (by omega)⟩

/-- Powers modulo a number. -/
theorem C74_mod_pow (a b c : BigInt) (x z : Int) (e : Nat) (ha : a.Denotes x) (hb : b.Denotes e) (hc : c.Denotes z) (hla : a.bits.length < 2 ^ 26)
    (hlb : b.bits.length < 2 ^ 26) (hlc : c.bits.length < 2 ^ 26) (hz : z ≠ 0) : Replies (some (ternary a b c "tModPow")) ((x ^ e).tmod z) := by
  obtain ⟨v, L, v1, v2, v3, v4, -, v5, v6⟩ := enc ha hla
  obtain ⟨w, M, w1, w2, w3, w4, -, w5, w6⟩ := enc hb hlb
  obtain ⟨u, N, u1, u2, u3, u4, -, u5, u6⟩ := enc hc hlc
  obtain ⟨r, r1, r2, r3⟩ := Oracle.modPow_spec v2 w2 u2 hz u4 u6.le
  obtain ⟨d, d1, d2⟩ := ofBytes_stands hs r2 (by omega)
  exact ⟨d, by simp [ternary, v1, w1, u1, r1, d1], d2⟩

/-! ### C74 where it is not right -/

/-- Division by zero is not refused: the quotient is a number with all bits set, the remainder the dividend.
The library throws. -/
theorem C74_zero_divisor (n : Nat) (a b : BigInt) (x : Int) (ha : a.Denotes x) (hb : b.Denotes 0) (hla : a.bits.length < 2 ^ 26) :
    (∀ op ∈ ["b/", "bDivide"], RepliesTwo (binary n a b op) (if 0 ≤ x then 2 ^ (x.natAbs.log2 + 1) - 1 else -(2 ^ (x.natAbs.log2 + 1) - 1)) 0 ∧
      libBinary n a b op = some (.throw .divideByZero)) ∧
    ∀ op ∈ ["b%", "bRemainder"], RepliesTwo (binary n a b op) x 0 ∧ libBinary n a b op = some (.throw .divideByZero) := by
  have hlb : b.bits.length < 2 ^ 26 := by rw [hb.bits_nil.2 (by decide)]; decide
  obtain ⟨t1, t2, -⟩ := C12_divide_by_zero a b x ha hb (by unfold BigInt.Fits; omega)
  refine ⟨?_, ?_⟩
  · intro op hop
    refine ⟨bin hs ha hb hla hlb divide ?_ ?_, ?_⟩
    · intro v w h1 h2
      ops hop h1 h2
    · intro v w L hv hw h1 h2 h3 h4 h5 h6
      obtain ⟨r, r1, r2, r3⟩ := Oracle.divide_zero hv hw h3 h5
      exact ⟨r, r1, r2, by omega⟩
    · simp only [List.mem_cons, List.not_mem_nil, or_false] at hop
      rcases hop with rfl | rfl <;> simp [libBinary, t1]
  · intro op hop
    refine ⟨bin hs ha hb hla hlb remainder ?_ ?_, ?_⟩
    · intro v w h1 h2
      ops hop h1 h2
    · intro v w L hv hw h1 h2 h3 h4 h5 h6
      obtain ⟨r, r1, r2, r3⟩ := Oracle.remainder_zero hv hw h3 h5
      exact ⟨r, r1, r2, by omega⟩
    · simp only [List.mem_cons, List.not_mem_nil, or_false] at hop
      rcases hop with rfl | rfl <;> simp [libBinary, t2]

/-- A unary operation the reference implementation does not know squares; the library's side refuses it. -/
theorem C74_unknown_unary (a : BigInt) (x : Int) (ha : a.Denotes x) (hl : a.bits.length < 2 ^ 26) (op : String)
    (ho : op ∉ ["uLog10", "uLog", "uSign", "u~", "uAbs", "u--", "u++", "uNegate", "u-", "u+", "uMultiply", "u*"]) :
    Replies (unary a op) (x * x) ∧ libUnary a op = some (.throw .invalidArgument) := by
  obtain ⟨v, L, v1, v2, v3, v4, -, v5, v6⟩ := enc ha hl
  obtain ⟨m, m1, m2, m3⟩ := multiply_spec v2 v2
  obtain ⟨d, d1, d2⟩ := ofBytes_stands hs m2 (by omega)
  simp only [List.mem_cons, List.not_mem_nil, or_false, not_or] at ho
  refine ⟨⟨d, by simp [unary, v1, m1, d1, ho], d2⟩, by simp [libUnary, ho]⟩

/-! ### C74 the comparison -/

omit hs in
private theorem lone {r : Res BigInt} {z : Int} (h : Returns r z) : Replies (some r) z := by
  obtain ⟨b, rfl, hb⟩ := h
  exact ⟨b, rfl, hb⟩
omit hs in
private theorem ltwo {r : Res BigInt} {z : Int} (h : Returns r z) : RepliesTwo (some (r.bind fun b => .ok (b, zeroInt))) z 0 := by
  obtain ⟨b, rfl, hb⟩ := h
  exact ⟨b, _, rfl, hb, denotes_zero⟩

/-- On the unary operations both sides agree for every operand. -/
theorem C74_agree_unary (a : BigInt) (x : Int) (ha : a.Denotes x) (hl : a.bits.length < 2 ^ 26) :
    ∀ op ∈ ["uSign", "u~", "uAbs", "u--", "u++", "uNegate", "u-", "u+", "uMultiply", "u*"], Agree (libUnary a op) (unary a op) := by
  obtain ⟨o1, o2, o3, o4, o5, o6, o7, o8, o9, o10⟩ := C74_unary hs a x ha hl
  have fa : a.Fits := by unfold BigInt.Fits; omega
  have l1 : Returns (a.signum.bind fun s => ofInt32 s) x.sign := by
    rw [BigInt.signum_spec ha]
    have : -1 ≤ x.sign ∧ x.sign ≤ 1 := by
      rcases lt_trichotomy x 0 with h | rfl | h
      · rw [Int.sign_eq_neg_one_of_neg h]; decide
      · decide
      · rw [Int.sign_eq_one_of_pos h]; decide
    exact ofInt32_spec (z := x.sign) (by omega) (by omega)
  have l2 : Returns a.compl (-x - 1) := by
    obtain ⟨z, h, rfl, -⟩ := C24_not a x ha fa
    exact h
  have l3 := C07_abs a x ha fa
  obtain ⟨l5, l4⟩ := C08_prefix a x ha fa
  have l6 := C07_negate a x ha
  have l8 := C07_plus a x ha
  have l9 := C09_multiply a a x x ha ha (by omega)
  intro op hop
  simp only [List.mem_cons, List.not_mem_nil, or_false] at hop
  rcases hop with rfl | rfl | rfl | rfl | rfl | rfl | rfl | rfl | rfl | rfl
  · exact (lone l1).agree o1
  · exact (lone l2).agree o2
  · exact (lone l3).agree o3
  · exact (lone l4).agree o4
  · exact (lone l5).agree o5
  · exact (lone l6).agree o6
  · exact (lone l6).agree o7
  · exact (lone l8).agree o8
  · exact (lone l9).agree o9
  · exact (lone l9).agree o10

/-- On these binary operations both sides agree for all operands. -/
theorem C74_agree_binary (n : Nat) (a b : BigInt) (x y : Int) (ha : a.Denotes x) (hb : b.Denotes y) (hla : a.bits.length < 2 ^ 26) (hlb : b.bits.length < 2 ^ 26) :
    (∀ op ∈ ["b+", "bAdd", "b-", "bSubtract", "b*", "bMultiply", "bMin", "bMax", "b&", "b|", "b^"], Agree (libBinary n a b op) (binary n a b op)) ∧
    (y ≠ 0 → ∀ op ∈ ["b/", "bDivide", "b%", "bRemainder"], Agree (libBinary n a b op) (binary n a b op)) := by
  have fa : a.Fits := by unfold BigInt.Fits; omega
  have fb : b.Fits := by unfold BigInt.Fits; omega
  refine ⟨?_, ?_⟩
  · obtain ⟨s1, s2, s3⟩ := C74_sums hs n a b x y ha hb hla hlb
    obtain ⟨m1, m2⟩ := C74_min_max hs n a b x y ha hb hla hlb
    obtain ⟨⟨z1, b1, b1'⟩, ⟨z2, b2, b2'⟩, z3, b3, b3'⟩ := C74_bitwise hs n a b x y ha hb hla hlb
    have hlt : ∀ {c d : BigInt} {u v : Int}, c.Denotes u → d.Denotes v → c.Fits → d.Fits → c.lt d = .ok (decide (u < v)) := by
      intro c d u v hc hd fc fd
      exact (C03_operators c d u v hc hd fc fd).1
    intro op hop
    simp only [List.mem_cons, List.not_mem_nil, or_false] at hop
    rcases hop with rfl | rfl | rfl | rfl | rfl | rfl | rfl | rfl | rfl | rfl | rfl
    · exact (ltwo (C05_add a b x y ha hb fa fb)).agree (s1 _ (by simp))
    · exact (ltwo (C05_add a b x y ha hb fa fb)).agree (s1 _ (by simp))
    · exact (ltwo (C06_subtract a b x y ha hb fa fb)).agree (s2 _ (by simp))
    · exact (ltwo (C06_subtract a b x y ha hb fa fb)).agree (s2 _ (by simp))
    · exact (ltwo (C09_multiply a b x y ha hb (by omega))).agree (s3 _ (by simp))
    · exact (ltwo (C09_multiply a b x y ha hb (by omega))).agree (s3 _ (by simp))
    · refine RepliesTwo.agree (z := min x y) (w := 0) ?_ m1
      refine ⟨if y < x then b else a, zeroInt, ?_, ?_, denotes_zero⟩
      · simp [libBinary, hlt hb ha fb fa]
      · by_cases h : y < x
        · rw [if_pos h, min_eq_right h.le]; exact hb
        · rw [if_neg h, min_eq_left (by omega)]; exact ha
    · refine RepliesTwo.agree (z := max x y) (w := 0) ?_ m2
      refine ⟨if x < y then b else a, zeroInt, ?_, ?_, denotes_zero⟩
      · simp [libBinary, hlt ha hb fa fb]
      · by_cases h : x < y
        · rw [if_pos h, max_eq_right h.le]; exact hb
        · rw [if_neg h, max_eq_left (by omega)]; exact ha
    · obtain ⟨z, l1, l2⟩ := C24_and a b x y ha hb (by omega) (by omega)
      obtain rfl := C24_bits_determine z z1 fun k => by rw [l2, b1']
      exact (ltwo l1).agree b1
    · obtain ⟨z, l1, l2⟩ := C24_or a b x y ha hb (by omega) (by omega)
      obtain rfl := C24_bits_determine z z2 fun k => by rw [l2, b2']
      exact (ltwo l1).agree b2
    · obtain ⟨z, l1, l2⟩ := C24_xor a b x y ha hb (by omega) (by omega)
      obtain rfl := C24_bits_determine z z3 fun k => by rw [l2, b3']
      exact (ltwo l1).agree b3
  · intro hy op hop
    obtain ⟨d1, d2, -⟩ := C74_division hs n a b x y ha hb hla hlb hy
    simp only [List.mem_cons, List.not_mem_nil, or_false] at hop
    rcases hop with rfl | rfl | rfl | rfl
    · exact (ltwo (C10_divide a b x y ha hb hy fa)).agree (d1 _ (by simp))
    · exact (ltwo (C10_divide a b x y ha hb hy fa)).agree (d1 _ (by simp))
    · exact (ltwo (C11_remainder a b x y ha hb hy fa)).agree (d2 _ (by simp))
    · exact (ltwo (C11_remainder a b x y ha hb hy fa)).agree (d2 _ (by simp))

/-- The comparison of `div_rem` fails on exactly the operands for which the library's remainder is wrong. -/
theorem C74_div_rem_iff (n : Nat) (a b : BigInt) (x y : Int) (ha : a.Denotes x) (hb : b.Denotes y) (hla : a.bits.length < 2 ^ 26) (hlb : b.bits.length < 2 ^ 26)
    (hy : y ≠ 0) : Agree (libBinary n a b "bDivRem") (binary n a b "bDivRem") ↔ ¬ (2 ^ 31 ≤ |x| ∧ |y| < 2 ^ 31 ∧ x.tmod y < 0) := by
  have fa : a.Fits := by unfold BigInt.Fits; omega
  obtain ⟨-, -, d⟩ := C74_division hs n a b x y ha hb hla hlb hy
  constructor
  · rintro h ⟨h1, h2, h3⟩
    obtain ⟨q, r, l1, l2, l3⟩ := C13_wrong_remainder a b x y ha hb hy fa h1 h2 h3
    exact RepliesTwo.differ (⟨q, r, by simp [libBinary, l1], l2, l3⟩ : RepliesTwo _ _ _) d (.inr (by omega)) h
  · intro h
    obtain ⟨q, r, l1, l2, l3⟩ := C13_div_rem_partial a b x y ha hb hy fa h
    exact RepliesTwo.agree (⟨q, r, by simp [libBinary, l1], l2, l3⟩ : RepliesTwo _ _ _) d

omit hs in
private theorem near {a : BigInt} {x : Int} (ha : a.Denotes x) (hl : a.bits.length < 2 ^ 26) : InRange x := by
  have := ha.natAbs_lt
  rw [show 𝔹 = 2 ^ 32 by norm_num, ← pow_mul] at this
  exact lt_of_lt_of_le this (Nat.pow_le_pow_right (by decide) (by omega))

/-- The comparison of the shifts fails on exactly the operands for which the library is wrong (C22, C23).  The
count `-2^31`, which `operator int` cannot deliver (C34), is left out. -/
theorem C74_shifts_iff (n : Nat) (a b : BigInt) (x y : Int) (ha : a.Denotes x) (hb : b.Denotes y) (hla : a.bits.length < 2 ^ 26) (hlb : b.bits.length < 2 ^ 26)
    (hy : IntRange y) (hmin : y ≠ -2 ^ 31) :
    (Agree (libBinary n a b "b>>") (binary n a b "b>>") ↔ ¬ (0 ≤ y ∧ ShiftMisfires x y.natAbs)) ∧
    (Agree (libBinary n a b "b<<") (binary n a b "b<<") ↔ ¬ (y < 0 ∧ ShiftMisfires x y.natAbs)) := by
  obtain ⟨o1, o2⟩ := C74_shifts hs n a b x y ha hb hla hlb hy
  have hx := near ha hla
  have hc : b.toInt32 = .ok y := by
    rw [BigInt.toInt32_spec hb, if_neg (by norm_num at hmin ⊢; exact hmin), if_pos ⟨hy.1, by have := hy.2; omega⟩]
  have l1 : ∀ z, Returns (a.shr y) z → RepliesTwo (libBinary n a b "b>>") z 0 := by
    intro z h
    obtain ⟨c, c1, c2⟩ := h
    exact ⟨c, _, by simp [libBinary, hc, c1], c2, denotes_zero⟩
  have l2 : ∀ z, Returns (a.shl y) z → RepliesTwo (libBinary n a b "b<<") z 0 := by
    intro z h
    obtain ⟨c, c1, c2⟩ := h
    exact ⟨c, _, by simp [libBinary, hc, c1], c2, denotes_zero⟩
  refine ⟨⟨?_, ?_⟩, ?_, ?_⟩
  · rintro h ⟨h1, h2⟩
    have e : y = (y.natAbs : Int) := by omega
    obtain ⟨m1, m2⟩ := C22_misfire a x y.natAbs ha hla h2
    rw [← e] at m1
    refine RepliesTwo.differ (l1 _ m1) o2 (.inl ?_) h
    have h3 := h2.1
    rw [shiftInt, if_neg (by omega), show (- -y).toNat = y.natAbs by omega]
    norm_num at m2
    omega
  · intro h
    refine RepliesTwo.agree (l1 _ (shr_in_range ha hx hy fun h1 h2 => h ⟨h1.le, ?_⟩)) o2
    rwa [show y.natAbs = y.toNat by omega]
  · rintro h ⟨h1, h2⟩
    have m1 := C23_misfire a x y ha hy hmin h1 hla h2
    obtain ⟨-, m2⟩ := C22_misfire a x y.natAbs ha hla h2
    refine RepliesTwo.differ (l2 _ m1) o1 (.inl ?_) h
    rw [shiftInt, if_neg (by omega), show (-y).toNat = y.natAbs by omega]
    norm_num at m2
    omega
  · intro h
    refine RepliesTwo.agree (l2 _ (shl_in_range ha hx hy fun h1 h2 => h ⟨h1, ?_⟩)) o1
    rwa [show y.natAbs = (-y).toNat by omega]

/-- Powers agree as long as their bytes can be counted. -/
theorem C74_agree_pow (n : Nat) (a b : BigInt) (x : Int) (e : Nat) (ha : a.Denotes x) (hb : b.Denotes e) (hla : a.bits.length < 2 ^ 26)
    (he : IntRange e) (hsize : e * max 1 a.bits.length < 2 ^ 29) : Agree (libBinary n a b "bPow") (binary n a b "bPow") := by
  have hx : 2 * |x ^ e| < 256 ^ (4 * (e * max 1 a.bits.length) + 1) := by
    have h1 := ha.natAbs_lt
    rw [show 𝔹 = 256 ^ 4 by norm_num, ← pow_mul, max_comm] at h1
    have h2 : |x| ≤ 256 ^ (4 * max 1 a.bits.length) := by rw [Int.abs_eq_natAbs]; exact_mod_cast h1.le
    have h3 : |x ^ e| ≤ 256 ^ (4 * (e * max 1 a.bits.length)) := by
      rw [abs_pow, show 4 * (e * max 1 a.bits.length) = 4 * max 1 a.bits.length * e by ring, pow_mul]
      exact pow_le_pow_left₀ (abs_nonneg x) h2 e
    have h4 : (0 : Int) < 256 ^ (4 * (e * max 1 a.bits.length)) := by positivity
    rw [pow_succ]
    generalize (256 : Int) ^ (4 * (e * max 1 a.bits.length)) = P at *
    generalize |x ^ e| = X at *
    omega
  have ht : b.toInt32 = .ok (e : Int) := by
    rw [BigInt.toInt32_spec hb, if_neg (by omega), if_pos ⟨by omega, by have := he.2; omega⟩]
  obtain ⟨c, c1, c2⟩ := C15_pow a x e ha (by unfold BigInt.Fits; omega) he (.inr (.inr (by omega)))
  exact RepliesTwo.agree (⟨c, zeroInt, by simp [libBinary, ht, c1], c2, denotes_zero⟩ : RepliesTwo _ _ _)
    (C74_pow hs n a b x e ha hb hla he _ (by omega) hx)

/-- Below 992 bits of modulus the comparison of `mod_pow` fails on exactly the operands for which the library's
answer has the wrong sign (C16). -/
theorem C74_mod_pow_iff (a b c : BigInt) (x z : Int) (e : Nat) (ha : a.Denotes x) (hb : b.Denotes e) (hc : c.Denotes z) (hla : a.bits.length < 2 ^ 26)
    (hlb : b.bits.length < 2 ^ 26) (hz : z ≠ 0) (hz2 : |z| < 2 ^ 992) :
    Agree (some (libTernary a b c "tModPow")) (some (ternary a b c "tModPow")) ↔ ¬ (|z| < 2 ^ 31 ∧ (x ^ e).tmod z < 0) := by
  have fa : a.Fits := by unfold BigInt.Fits; omega
  have hlc : c.bits.length < 2 ^ 26 := by
    refine lt_of_le_of_lt (hc.length_le_of_lt (k := 31) ?_) (by decide)
    rw [Int.abs_eq_natAbs] at hz2
    have : ((z.natAbs : Nat) : Int) < ((2 ^ (32 * 31) : Nat) : Int) := by rw [Nat.cast_pow]; exact hz2
    exact Int.ofNat_lt.1 this
  have o := C74_mod_pow hs a b c x z e ha hb hc hla hlb hlc hz
  constructor
  · rintro h ⟨h1, h2⟩
    exact Replies.differ (lone (C16_wrong_sign a b c x z e ha hb hc fa hz h1 h2)) o (by omega) h
  · intro h
    exact (lone (C16_mod_pow_partial a b c x z e ha hb hc fa hz hz2 h)).agree o

/-- The comparison of the greatest common divisors succeeds exactly if the library's answer is right; so it does
whenever one number is below `2^64`, and for the pairs of C19 of every size it does not. -/
theorem C74_gcd_compared (a b : BigInt) (x y : Int) (ha : a.Denotes x) (hb : b.Denotes y) (hla : a.bits.length < 2 ^ 26) (hlb : b.bits.length < 2 ^ 26)
    (n : Nat) (hn : y.natAbs < n) :
    (Agree (libBinary n a b "bGCD") (binary n a b "bGCD") ↔ Returns (BigInt.gcd n a b) (Int.gcd x y)) ∧
    ((|x| < 2 ^ 64 ∨ |y| < 2 ^ 64) → Agree (libBinary n a b "bGCD") (binary n a b "bGCD")) ∧
    ((∃ k, 3 ≤ k ∧ x = 2 ^ (32 * k) ∧ y = 3 * 2 ^ (32 * k - 2)) → ¬ Agree (libBinary n a b "bGCD") (binary n a b "bGCD")) := by
  have fa : a.Fits := by unfold BigInt.Fits; omega
  have fb : b.Fits := by unfold BigInt.Fits; omega
  have o := C74_gcd hs n a b x y ha hb hla hlb hn
  have main : Agree (libBinary n a b "bGCD") (binary n a b "bGCD") ↔ Returns (BigInt.gcd n a b) (Int.gcd x y) := by
    constructor
    · rintro ⟨⟨r, w⟩, h1, h2⟩
      obtain ⟨r', w', h3, h4, -⟩ := o
      rw [h2] at h3
      cases h3
      have h5 : ((BigInt.gcd n a b).bind fun g => .ok (g, zeroInt)) = .ok (r, w) := Option.some.inj h1
      cases hg : BigInt.gcd n a b with
      | ok g => rw [hg] at h5; cases h5; exact ⟨_, rfl, h4⟩
      | _ => rw [hg] at h5; cases h5
    · intro h
      exact (ltwo h).agree o
  refine ⟨main, fun h => main.2 (C19_below_64_bits a b x y ha hb fa fb h n), ?_⟩
  rintro ⟨k, hk, rfl, rfl⟩ h
  obtain ⟨r, r1, r2⟩ := main.1 h
  exact (C19_wrong_every_size a b k hk ha hb fa fb).2.2 n r r1 r2

end

/-! Concrete cases of the theorems above: the hypotheses are met. -/
section
variable (hs : Cfg.strictShift = false)

private theorem d75 : BigInt.Denotes ⟨75, []⟩ 75 := BigInt.denotes_small (by decide) (by decide)
private theorem d5 : BigInt.Denotes ⟨5, []⟩ (5 : Nat) := BigInt.denotes_small (by decide) (by decide)
private theorem dp : BigInt.Denotes ⟨1, [0, 0, 0, 1]⟩ (2 ^ (32 * 3)) := BigInt.denotes_big (.inl rfl) (by decide) (by decide) (by decide) (by decide) (by decide)
private theorem dq : BigInt.Denotes ⟨1, [0, 0, 3221225472]⟩ (3 * 2 ^ (32 * 3 - 2)) :=
  BigInt.denotes_big (.inl rfl) (by decide) (by decide) (by decide) (by decide) (by decide)
private theorem dm : BigInt.Denotes ⟨-1, [1, 4294967295]⟩ (-18446744069414584321) :=
  BigInt.denotes_big (.inr rfl) (by decide) (by decide) (by decide) (by decide) (by decide)
private theorem d32 : BigInt.Denotes ⟨32, []⟩ 32 := BigInt.denotes_small (by decide) (by decide)

example := C74_unary hs neg3 _ neg3_denotes (by decide)
example := C74_sums hs 0 neg3 pos2 _ _ neg3_denotes pos2_denotes (by decide) (by decide)
example := C74_min_max hs 0 neg3 pos2 _ _ neg3_denotes pos2_denotes (by decide) (by decide)
example := C74_division hs 0 neg3 pos2 _ _ neg3_denotes pos2_denotes (by decide) (by decide) (by decide)
example := C74_bitwise hs 0 neg3 pos2 _ _ neg3_denotes pos2_denotes (by decide) (by decide)
example := C74_shifts hs 0 neg3 ⟨75, []⟩ _ 75 neg3_denotes d75 (by decide) (by decide) (by decide)
example := C74_gcd hs 38654705668 neg3 pos2 _ _ neg3_denotes pos2_denotes (by decide) (by decide) (by decide)
example := C74_pow hs 0 neg3 ⟨5, []⟩ _ 5 neg3_denotes d5 (by decide) (by decide) 100 (by decide) (by decide +kernel)
example := C74_mod_pow hs neg3 ⟨5, []⟩ pos2 _ _ 5 neg3_denotes d5 pos2_denotes (by decide) (by decide) (by decide) (by decide)
example := C74_zero_divisor hs 0 neg3 zeroInt _ neg3_denotes denotes_zero (by decide)
example := C74_unknown_unary hs neg3 _ neg3_denotes (by decide) "uSquareRoot" (by decide)
example := C74_agree_unary hs neg3 _ neg3_denotes (by decide)
example := C74_agree_binary hs 0 neg3 pos2 _ _ neg3_denotes pos2_denotes (by decide) (by decide)
/-- `div_rem(-18446744103774322693, -42)`: the comparison fails. -/
example : ¬ Agree (libBinary 0 neg3 small "bDivRem") (binary 0 neg3 small "bDivRem") := by
  rw [C74_div_rem_iff hs 0 neg3 small _ _ neg3_denotes small_denotes (by decide) (by decide) (by decide)]
  decide
/-- … and with a divisor above the `int` range it succeeds. -/
example : Agree (libBinary 0 neg3 pos2 "bDivRem") (binary 0 neg3 pos2 "bDivRem") := by
  rw [C74_div_rem_iff hs 0 neg3 pos2 _ _ neg3_denotes pos2_denotes (by decide) (by decide) (by decide)]
  decide
/-- `-18446744069414584321 >> 32`: the comparison fails. -/
example : ¬ Agree (libBinary 0 ⟨-1, [1, 4294967295]⟩ ⟨32, []⟩ "b>>") (binary 0 ⟨-1, [1, 4294967295]⟩ ⟨32, []⟩ "b>>") := by
  rw [(C74_shifts_iff hs 0 _ _ _ _ dm d32 (by decide) (by decide) (by decide) (by decide)).1, not_not]
  exact ⟨by decide, by decide, by decide, 1, by decide, by decide, by decide⟩
example := C74_agree_pow hs 0 neg3 ⟨5, []⟩ _ 5 neg3_denotes d5 (by decide) (by decide) (by decide)
example := C74_mod_pow_iff hs neg3 ⟨5, []⟩ pos2 _ _ 5 neg3_denotes d5 pos2_denotes (by decide) (by decide) (by decide)
  (lt_trans (b := 2 ^ 64) (by decide) (pow_lt_pow_right₀ (by decide) (by decide)))
/-- `gcd(2^96, 3 * 2^94)`: the comparison fails. -/
example (n : Nat) (hn : 3 * 2 ^ (32 * 3 - 2) < n) :
    ¬ Agree (libBinary n ⟨1, [0, 0, 0, 1]⟩ ⟨1, [0, 0, 3221225472]⟩ "bGCD") (binary n ⟨1, [0, 0, 0, 1]⟩ ⟨1, [0, 0, 3221225472]⟩ "bGCD") :=
  (C74_gcd_compared hs _ _ _ _ dp dq (by decide) (by decide) n (lt_of_le_of_lt (by decide) hn)).2.2 ⟨3, by decide, rfl, rfl⟩
end
end BigIntegerCpp
