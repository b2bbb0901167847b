import Verif.Lemmas.CostText
import Verif.Props.Samples
/-
C69: what conversion to and from decimal text costs.

`Cost.toStr` and `Cost.parse` (Model/CostText.lean) are `to_string` and `parse` with a count of steps
(iterations of a loop, words and characters filled or copied), of the nesting of recursive calls, and of
the words and characters of temporary arrays alive at the same time.
-/
set_option linter.unusedSectionVars false
namespace BigIntegerCpp
variable [Cfg]
open Samples Counted

/-- C69.  The text of a number of `n ≥ 1` words: at most `5/9·n² + 24·n + 41` steps and `12·n + 21` words. -/
theorem C69_to_string {a : BigInt} (ha : a.Valid) (h : a.bits ≠ []) :
    (Cost.toStr a).res = a.toStr ∧
    9 * (Cost.toStr a).steps ≤ 5 * a.bits.length ^ 2 + 213 * a.bits.length + 369 ∧
    (Cost.toStr a).depth = 0 ∧ 9 * (Cost.toStr a).words ≤ 100 * a.bits.length + 189 := by
  obtain ⟨h1, h2, h3, -⟩ := Cost.toStr_cost ha h
  exact ⟨Cost.toStr_res a, by rw [sq]; exact h1, h2, h3⟩

/-- C69.  It is quadratic: a number of `n` words costs at least `(n² + n) / 2` steps (unless it is refused
for its size). -/
theorem C69_to_string_quadratic {a : BigInt} (ha : a.Valid) (h : a.bits ≠ []) (hl : a.bits.length ≤ 214748364) :
    (Cost.toStr a).res = a.toStr ∧ a.bits.length ^ 2 + a.bits.length ≤ 2 * (Cost.toStr a).steps := by
  rw [sq]
  exact ⟨Cost.toStr_res a, (Cost.toStr_cost ha h).2.2.2 hl⟩

/-- C69.  The numbers kept without words: one step per character, at most eleven. -/
theorem C69_to_string_small {a : BigInt} (ha : a.Valid) (h : a.bits = []) :
    (Cost.toStr a).res = a.toStr ∧ (Cost.toStr a).steps ≤ 11 ∧ (Cost.toStr a).words = 0 := by
  refine ⟨Cost.toStr_res a, ?_, ?_⟩
  · unfold Cost.toStr
    rw [if_pos (by rw [h]; rfl)]
    show (toString a.sign).toList.length + 0 ≤ 11
    rw [int_toString, List.length_append]
    have h1 := ha.signRange
    have h2 : (Nat.toDigits 10 a.sign.natAbs).length ≤ 10 := by
      rw [Nat.length_toDigits_le_iff (by decide) (by decide)]
      unfold IntRange at h1
      omega
    have h3 : (if a.sign < 0 then ['-'] else []).length ≤ 1 := by split_ifs <;> decide
    omega
  · unfold Cost.toStr
    rw [if_pos (by rw [h]; rfl)]
    rfl

/-- C69.  The number written in a text of `l` characters: at most `5/6·l² + 25·l + 1` steps and `l/3 + 5`
words. -/
theorem C69_parse (s : List Char) (hs : s.length < 2 ^ 34) :
    (Cost.parse s).res = BigInt.parse s ∧
    18 * (Cost.parse s).steps ≤ 15 * s.length ^ 2 + 433 * s.length + 18 ∧
    (Cost.parse s).depth = 0 ∧ (Cost.parse s).words ≤ 3 * (s.length / 9 + 1) + 2 := by
  norm_num at hs
  refine ⟨Cost.parse_res s, ?_⟩
  have loop : ∀ cs : List Char, cs.length < 17179869184 → _ := fun cs h =>
    Cost.parseLoop_cost cs zeroInt 0 0 cs.length denotes_zero (by decide) (by omega) h
  have plain : ∀ cs : List Char, cs.length ≤ s.length → 18 * (Cost.parseLoop cs zeroInt).steps ≤ 15 * s.length ^ 2 + 433 * s.length + 18 ∧
      (Cost.parseLoop cs zeroInt).depth = 0 ∧ (Cost.parseLoop cs zeroInt).words ≤ 3 * (s.length / 9 + 1) + 2 := by
    intro cs h
    obtain ⟨k1, k2, -⟩ := loop cs (by omega)
    have := Nat.mul_le_mul h h
    have := k1.3
    rw [sq]
    exact ⟨by omega, Nat.le_zero.1 k1.2, by omega⟩
  unfold Cost.parse
  split
  · rename_i cs
    rw [List.length_cons] at hs ⊢
    obtain ⟨k1, k2, k3⟩ := loop cs (by omega)
    have hw : Within (Cost.parseLoop cs zeroInt >>= fun b => scope b.bits.length do
        tick b.bits.length
        lift b.neg) ((Cost.parseLoop cs zeroInt).steps + 2 * (cs.length / 9 + 1)) 0 (3 * (cs.length / 9 + 1) + 2) := by
      refine within_bind k1 fun t ht => ?_
      have := k3 t (by rw [← Cost.parseLoop_res]; exact ht)
      refine (within_scope (s := t.bits.length + 0) (w := 0) t.bits.length (within_tick_bind (within_lift _ _ _))).mono (by omega) (Nat.le_refl _) (by omega)
    have := hw.1
    have := hw.3
    have x : (cs.length + 1) ^ 2 = cs.length * cs.length + 2 * cs.length + 1 := by ring
    rw [x]
    exact ⟨by omega, Nat.le_zero.1 hw.2, by omega⟩
  · exact plain _ (by simp)
  · exact plain _ (Nat.le_refl _)

/-- C69.  It is quadratic: `l + 1` digits, the first of them not zero, with or without a sign, cost at least
`(l² - 14·l) / 5` steps. -/
theorem C69_parse_quadratic (s : List Char) (c : Char) (cs : List Char) (hs : s = c :: cs ∨ s = '-' :: c :: cs ∨ s = '+' :: c :: cs)
    (hc : c.isDigit ∧ c ≠ '0') (hcs : ∀ d ∈ cs, d.isDigit) (hl : cs.length + 2 < 2 ^ 34) :
    (Cost.parse s).res = BigInt.parse s ∧ cs.length ^ 2 ≤ 5 * (Cost.parse s).steps + 14 * cs.length := by
  refine ⟨Cost.parse_res s, ?_⟩
  norm_num at hl
  have dig : ∀ {d : Char}, d.isDigit = true → '0' ≤ d ∧ d ≤ '9' := fun h => by
    simpa [Char.isDigit, Char.le_def] using h
  have k := Cost.parseLoop_low_zero (dig hc.1) hc.2 (fun d h => dig (hcs d h)) hl
  rw [sq]
  rcases hs with rfl | rfl | rfl
  · have h1 : c ≠ '-' := by rintro rfl; exact absurd hc.1 (by decide)
    have h2 : c ≠ '+' := by rintro rfl; exact absurd hc.1 (by decide)
    have e : Cost.parse (c :: cs) = Cost.parseLoop (c :: cs) zeroInt := by
      unfold Cost.parse
      split
      · rename_i h; exact absurd (List.cons.inj h).1 h1
      · rename_i h; exact absurd (List.cons.inj h).1 h2
      · rfl
    rw [e]
    exact k
  · refine k.trans (Nat.add_le_add_right (Nat.mul_le_mul_left 5 ?_) _)
    exact Cost.steps_le_bind _ _
  · exact k

/-- Three words: `18446744103774322693` with a sign. -/
example : 9 * (Cost.toStr neg3).steps ≤ 1053 := (C69_to_string neg3_denotes.1 (by decide)).2.1
example : 3 ^ 2 + 3 ≤ 2 * (Cost.toStr neg3).steps := (C69_to_string_quadratic neg3_denotes.1 (by decide) (by decide)).2
example : (Cost.toStr ⟨-2147483647, []⟩).steps ≤ 11 := (C69_to_string_small (BigInt.denotes_small (by decide) (by decide)).1 rfl).2.1
example : (Cost.parse "-98765432109876543210".toList).steps = 354 ∧ 18 * (Cost.parse "-98765432109876543210".toList).steps ≤ 15726 := by
  refine ⟨?_, (C69_parse "-98765432109876543210".toList (by decide)).2.1⟩
  rename_i c; obtain ⟨d, s⟩ := c; cases d <;> cases s <;> decide +kernel
/-- A million digits: more than 199 billion steps. -/
example (cs : List Char) (hcs : ∀ d ∈ cs, d.isDigit) (hl : cs.length = 1000000) : 199997200000 ≤ (Cost.parse ('7' :: cs)).steps := by
  have := (C69_parse_quadratic ('7' :: cs) '7' cs (.inl rfl) (by decide) hcs (by rw [hl]; decide)).2
  rw [hl] at this
  omega

end BigIntegerCpp
