import Verif.Lemmas.Chains
import Verif.Props.Samples
/-
C89: chains of conversions (ChainsSpec.lean).
-/
set_option linter.unusedSectionVars false
namespace BigIntegerCpp
variable [Cfg]
open Samples

/-- A chain of conversions brings back the integer that was sent, cut to 53 bits if it went through a
`double`, or ends with the exception of the first form that cannot hold it; proved unless a form trips. -/
theorem C89_chain_partial (fs : List Form) (a : BigInt) (x : Int) (ha : a.Denotes x) (hx : InRange x)
    (hs : Cfg.strictShift = false) (ht : ¬ ChainTrips fs x) : ComesBack (chain fs a) (chainMeaning fs x) :=
  chain_meant fs hs ha hx ht

/-- The chains that are undefined, and what goes wrong in them. -/
theorem C89_undefined_iff (fs : List Form) (a : BigInt) (x : Int) (u : UB) (ha : a.Denotes x) (hx : InRange x)
    (hs : Cfg.strictShift = false) : chain fs a = .ub u ↔ ChainFault fs x u := by
  refine ⟨fun h => ?_, chain_fault fs hs ha hx⟩
  by_cases ht : ChainTrips fs x
  · obtain ⟨v, hv⟩ := chainTrips_fault ht
    have h1 := chain_fault fs hs ha hx hv
    rw [h] at h1
    obtain rfl := Res.ub.inj h1
    exact hv
  · exact (comesBack_not_ub (chain_meant fs hs ha hx ht) u h).elim

/-- A chain does what is meant exactly if none of its forms trips. -/
theorem C89_exact_iff (fs : List Form) (a : BigInt) (x : Int) (ha : a.Denotes x) (hx : InRange x)
    (hs : Cfg.strictShift = false) : ComesBack (chain fs a) (chainMeaning fs x) ↔ ¬ ChainTrips fs x := by
  refine ⟨fun h ht => ?_, chain_meant fs hs ha hx⟩
  obtain ⟨u, hu⟩ := chainTrips_fault ht
  exact comesBack_not_ub h u (chain_fault fs hs ha hx hu)

/-- Whatever the chain, if it returns an object then that has the integer that was sent, or its 53 leading bits if there
is a `double` among the forms. -/
theorem C89_result (fs : List Form) (a b : BigInt) (x : Int) (ha : a.Denotes x) (hx : InRange x)
    (hs : Cfg.strictShift = false) (h : chain fs a = .ok b) : b.Denotes (if .double ∈ fs then truncated x else x) := by
  obtain ⟨-, z, hz, hd⟩ := chain_ok ha hx hs h
  rwa [chainMeaning_ok fs hz] at hd

/-- A chain brings back the very object exactly if each of its forms, alone, brings it back. -/
theorem C89_identity_iff (fs : List Form) (a : BigInt) (x : Int) (ha : a.Denotes x) (hx : InRange x)
    (hs : Cfg.strictShift = false) : chain fs a = .ok a ↔ ∀ f ∈ fs, f.through a = .ok a := by
  have key : ∀ gs : List Form, chain gs a = .ok a ↔ ∀ g ∈ gs, g.meaning x = .ok x ∧ ¬ g.Trips x := by
    intro gs
    rw [← chainMeaning_fixed gs]
    constructor
    · intro h
      obtain ⟨ht, z, hz, hd⟩ := chain_ok ha hx hs h
      rw [show z = x from hd.2.symm.trans ha.2] at hz
      exact ⟨hz, ht⟩
    · rintro ⟨h1, h2⟩
      have h3 := chain_meant gs hs ha hx h2
      rw [h1] at h3
      obtain ⟨b, hb, hd⟩ := h3
      rw [hb, hd.unique ha]
  have one : ∀ f : Form, f.through a = .ok a ↔ f.meaning x = .ok x ∧ ¬ f.Trips x := by
    intro f
    have h := key [f]
    have h1 : chain [f] a = f.through a := by
      simp only [chain]; cases f.through a <;> rfl
    rw [h1] at h
    rw [h]
    simp
  rw [key fs]
  exact ⟨fun h f hf => (one f).2 (h f hf), fun h f hf => (one f).1 (h f hf)⟩

/-- Without a `double` among the forms an object comes back as it was or not at all, and the order of the forms is
irrelevant for that. -/
theorem C89_order_irrelevant (fs gs : List Form) (hp : fs.Perm gs) (hd : .double ∉ fs) (a b : BigInt) (x : Int)
    (ha : a.Denotes x) (hx : InRange x) (hs : Cfg.strictShift = false) (h : chain fs a = .ok b) :
    b = a ∧ chain gs a = .ok b := by
  have h1 := C89_result fs a b x ha hx hs h
  rw [if_neg hd] at h1
  obtain rfl := h1.unique ha
  refine ⟨rfl, (C89_identity_iff gs b x ha hx hs).2 fun f hf => ?_⟩
  exact (C89_identity_iff fs b x ha hx hs).1 h f (hp.mem_iff.2 hf)

/-- With any forms, two orders of the same forms never give different objects. -/
theorem C89_same_forms (fs gs : List Form) (hp : fs.Perm gs) (a b c : BigInt) (x : Int) (ha : a.Denotes x)
    (hx : InRange x) (hs : Cfg.strictShift = false) (h : chain fs a = .ok b) (h' : chain gs a = .ok c) : b = c := by
  have h1 := C89_result fs a b x ha hx hs h
  have h2 := C89_result gs a c x ha hx hs h'
  by_cases hd : Form.double ∈ fs
  · rw [if_pos hd] at h1; rw [if_pos (hp.mem_iff.1 hd)] at h2; exact h1.unique h2
  · rw [if_neg hd] at h1; rw [if_neg (fun h => hd (hp.mem_iff.2 h))] at h2; exact h1.unique h2

/-- Chains keep the order of the values. -/
theorem C89_monotone (fs : List Form) (a b c d : BigInt) (x y : Int) (ha : a.Denotes x) (hb : b.Denotes y)
    (hx : InRange x) (hy : InRange y) (hs : Cfg.strictShift = false) (h : chain fs a = .ok c) (h' : chain fs b = .ok d)
    (hle : a.le b = .ok true) : c.le d = .ok true := by
  have fits : ∀ {e : BigInt} {z : Int}, e.Denotes z → InRange z → e.Fits := by
    intro e z he hz
    have := hz.length he
    unfold BigInt.Fits; omega
  have hxy : x ≤ y := by
    have h1 := (C03_operators a b x y ha hb (fits ha hx) (fits hb hy)).2.1
    rw [h1] at hle
    exact of_decide_eq_true (Res.ok.inj hle)
  have h1 := C89_result fs a c x ha hx hs h
  have h2 := C89_result fs b d y hb hy hs h'
  by_cases hd : Form.double ∈ fs
  · rw [if_pos hd] at h1 h2
    rw [(C03_operators c d _ _ h1 h2 (fits h1 (truncated_inRange hx)) (fits h2 (truncated_inRange hy))).2.1,
      decide_eq_true (truncated_mono hxy)]
  · rw [if_neg hd] at h1 h2
    rw [(C03_operators c d _ _ h1 h2 (fits h1 hx) (fits h2 hy)).2.1, decide_eq_true hxy]

/-- One `double` is as good as many: values of at most 53 bits go through all forms with room for them unchanged, and
what has been through a `double` once is not changed by another one. -/
theorem C89_double (fs : List Form) (a b : BigInt) (x : Int) (ha : a.Denotes x) (hx : InRange x)
    (hs : Cfg.strictShift = false) (h : chain (.double :: fs) a = .ok b) :
    b.Denotes (truncated x) ∧ Form.double.through b = .ok b ∧ (|x| < 2 ^ 53 → b = a) := by
  have h1 := C89_result _ a b x ha hx hs h
  rw [if_pos List.mem_cons_self] at h1
  refine ⟨h1, ?_, fun hl => ?_⟩
  · have hx1 : |x| < 2 ^ 1024 := by
      obtain ⟨-, z, hz, -⟩ := chain_ok ha hx hs h
      simp only [chainMeaning, Form.meaning] at hz
      by_contra hn
      rw [if_neg hn] at hz
      cases hz
    have h2 := Form.through_meant (f := .double) h1 (truncated_inRange hx) hs id
    have hx2 : |truncated x| < 2 ^ 1024 := by
      have := truncated_natAbs x
      have h3 := keepBits_le x.natAbs
      have h4 : (((truncated x).natAbs : Nat) : Int) ≤ x.natAbs := by rw [this]; exact_mod_cast h3
      rw [← Int.abs_eq_natAbs, ← Int.abs_eq_natAbs] at h4
      exact lt_of_le_of_lt h4 hx1
    simp only [Form.meaning] at h2
    rw [if_pos hx2, truncated_idem] at h2
    obtain ⟨c, hc, hd⟩ := h2
    rw [hc, hd.unique h1]
  · have h2 : truncated x = x := by
      unfold truncated
      rw [keepBits_small (show x.natAbs < 2 ^ 53 by rw [Int.abs_eq_natAbs] at hl; exact_mod_cast hl)]
      by_cases h0 : x < 0
      · rw [if_pos h0]; omega
      · rw [if_neg h0]; omega
    rw [h2] at h1
    exact h1.unique ha

/-- Debug and release builds convert alike. -/
theorem C89_builds_agree (c d : Cfg) (hc : c.strictShift = false) (hd : d.strictShift = false) (fs : List Form)
    (a : BigInt) (x : Int) (ha : a.Denotes x) (hx : InRange x) : @chain c fs a = @chain d fs a := by
  by_cases ht : ChainTrips fs x
  · obtain ⟨u, hu⟩ := chainTrips_fault ht
    rw [@chain_fault c fs hc a x u ha hx hu, @chain_fault d fs hd a x u ha hx hu]
  · have h1 := @chain_meant c fs hc a x ha hx ht
    have h2 := @chain_meant d fs hd a x ha hx ht
    cases e : chainMeaning fs x with
    | ok z =>
      rw [e] at h1 h2
      obtain ⟨b, hb, hb'⟩ := h1
      obtain ⟨b2, hb2, hb2'⟩ := h2
      rw [hb, hb2, hb'.unique hb2']
    | error ex =>
      rw [e] at h1 h2
      have h1 : @chain c fs a = .throw ex := h1
      have h2 : @chain d fs a = .throw ex := h2
      rw [h1, h2]

/-- The code violates the property: text, the least `int` and the least `long`. -/
theorem C89_refuted (hs : Cfg.strictShift = false) :
    (∃ a : BigInt, a.Denotes (-100000000000000000) ∧ chainMeaning [.words, .text] (-100000000000000000) = .ok (-100000000000000000) ∧
      chain [.words, .text] a = .ub .outOfBounds) ∧
    (∃ a : BigInt, a.Denotes (-2 ^ 31) ∧ chainMeaning [.python, .int32] (-2 ^ 31) = .ok (-2 ^ 31) ∧ chain [.python, .int32] a = .ub .signedOverflow) ∧
    ∃ a : BigInt, a.Denotes (-2 ^ 63 - 5) ∧ chainMeaning [.double, .int64] (-2 ^ 63 - 5) = .ok (-2 ^ 63) ∧
      chain [.double, .int64] a = .ub .signedOverflow := by
  have d1 : BigInt.Denotes ⟨-1, [1569325056, 23283064]⟩ (-100000000000000000) :=
    BigInt.denotes_big (.inr rfl) (by decide) (by decide) (by decide) (by decide) (by decide)
  have d2 : BigInt.Denotes ⟨-1, [2147483648]⟩ (-2 ^ 31) :=
    BigInt.denotes_big (.inr rfl) (by decide) (by decide) (by decide) (by decide) (by decide)
  have d3 : BigInt.Denotes ⟨-1, [5, 2147483648]⟩ (-2 ^ 63 - 5) :=
    BigInt.denotes_big (.inr rfl) (by decide) (by decide) (by decide) (by decide) (by decide)
  refine ⟨⟨_, d1, rfl, ?_⟩, ⟨_, d2, by decide, ?_⟩, ⟨_, d3, by decide +kernel, ?_⟩⟩
  · exact (C89_undefined_iff _ _ _ _ d1 (inRange_small (by decide)) hs).2 (.inr ⟨id, _, rfl, .inl
      ⟨show TextMisfires _ by decide, rfl⟩⟩)
  · exact (C89_undefined_iff _ _ _ _ d2 (inRange_small (by decide)) hs).2 (.inr ⟨id, _, rfl, .inl ⟨rfl, rfl⟩⟩)
  · exact (C89_undefined_iff _ _ _ _ d3 (inRange_small (by decide)) hs).2
      (.inr ⟨id, -2 ^ 63, by decide +kernel, .inl ⟨rfl, rfl⟩⟩)

section Examples

/-- 2^63 + 2^40 + 1, which `double` cuts. -/
private theorem den_cut : BigInt.Denotes ⟨1, [1, 2147483904]⟩ (2 ^ 63 + 2 ^ 40 + 1) :=
  BigInt.denotes_big (.inl rfl) (by decide) (by decide) (by decide) (by decide) (by decide)

private theorem den_cut' : BigInt.Denotes ⟨1, [0, 2147483904]⟩ (2 ^ 63 + 2 ^ 40) :=
  BigInt.denotes_big (.inl rfl) (by decide) (by decide) (by decide) (by decide) (by decide)

private theorem den_two32 : BigInt.Denotes ⟨1, [0, 1]⟩ (2 ^ 32) :=
  BigInt.denotes_big (.inl rfl) (by decide) (by decide) (by decide) (by decide) (by decide)

private theorem den_m31 : BigInt.Denotes ⟨-1, [2147483648]⟩ (-2 ^ 31) :=
  BigInt.denotes_big (.inr rfl) (by decide) (by decide) (by decide) (by decide) (by decide)

/-- 2^63 + 2^40 + 1 through text, a `double`, bytes and `uint64`, which brings 2^63 + 2^40, and with an `int64` behind
them `overflow_error`. -/
example (hs : Cfg.strictShift = false) :
    ComesBack (chain [.text, .double, .bytes true false, .uint64] ⟨1, [1, 2147483904]⟩) (.ok (2 ^ 63 + 2 ^ 40)) ∧
      chain [.text, .double, .bytes true false, .int64] ⟨1, [1, 2147483904]⟩ = .throw .overflowError := by
  have hx : InRange (2 ^ 63 + 2 ^ 40 + 1) := inRange_small (by decide)
  have hf : Form.double.meaning (2 ^ 63 + 2 ^ 40 + 1) = .ok (2 ^ 63 + 2 ^ 40) := by decide +kernel
  have ht : ¬ TextMisfires (2 ^ 63 + 2 ^ 40 + 1) := by decide
  have key : ∀ (fs : List Form) (r : Except Exn Int), ¬ ChainTrips fs (2 ^ 63 + 2 ^ 40 + 1) →
      chainMeaning fs (2 ^ 63 + 2 ^ 40 + 1) = r → ComesBack (chain fs ⟨1, [1, 2147483904]⟩) r := by
    rintro fs r h rfl
    exact C89_chain_partial fs _ _ den_cut hx hs h
  constructor
  · refine key _ _ ?_ (by decide +kernel)
    rintro (h | ⟨_, _, h | ⟨_, _, h | ⟨_, _, h | ⟨_, _, h⟩⟩⟩⟩)
    exacts [ht h, h, h, h, h]
  · refine key _ (.error .overflowError) ?_ (by decide +kernel)
    rintro (h | ⟨_, h1, h | ⟨_, h2, h | ⟨_, h3, h | ⟨_, _, h⟩⟩⟩⟩)
    · exact ht h
    · exact h
    · exact h
    · cases h1
      rw [hf] at h2
      cases h2
      cases h3
      have h : (2 ^ 63 + 2 ^ 40 : Int) = -2 ^ 63 := h
      omega
    · exact h

/-- `C89_undefined_iff` and `C89_exact_iff` at -2^31: undefined with `int32` behind the others, and defined if an
unsigned form ends the chain before. -/
example (hs : Cfg.strictShift = false) :
    chain [.words, .double, .int32, .text] ⟨-1, [2147483648]⟩ = .ub .signedOverflow ∧
      ¬ ComesBack (chain [.int32] ⟨-1, [2147483648]⟩) (chainMeaning [.int32] (-2 ^ 31)) ∧
      ComesBack (chain [.uint64, .int32] ⟨-1, [2147483648]⟩) (.error .overflowError) := by
  have hx : InRange (-2 ^ 31) := inRange_small (by decide)
  refine ⟨(C89_undefined_iff _ _ _ _ den_m31 hx hs).2
      (.inr ⟨id, _, rfl, .inr ⟨id, -2 ^ 31, by decide +kernel, .inl ⟨rfl, rfl⟩⟩⟩),
    fun h => (C89_exact_iff _ _ _ den_m31 hx hs).1 h (.inl rfl), ?_⟩
  exact (C89_exact_iff [.uint64, .int32] _ _ den_m31 hx hs).2 (by
    rintro (h | ⟨y, h, -⟩)
    · exact h
    · simp [Form.meaning] at h)

/-- 2^32 comes back through all of these forms, and in any order of them. -/
private theorem chain_two32 (hs : Cfg.strictShift = false) :
    chain [.words, .bytes false true, .python, .int64] ⟨1, [0, 1]⟩ = .ok ⟨1, [0, 1]⟩ := by
  have hx : InRange (2 ^ 32) := inRange_small (by decide)
  have h := C89_chain_partial [.words, .bytes false true, .python, .int64] _ _ den_two32 hx hs (by
    simp [ChainTrips, Form.Trips, Form.meaning])
  have h1 : chainMeaning [.words, .bytes false true, .python, .int64] (2 ^ 32) = .ok (2 ^ 32) := by decide
  rw [h1] at h
  obtain ⟨b, hb, hd⟩ := h
  rw [hb, hd.unique den_two32]

example (hs : Cfg.strictShift = false) :
    chain [.int64, .words, .bytes false true, .python] ⟨1, [0, 1]⟩ = .ok ⟨1, [0, 1]⟩ ∧ Form.int64.through ⟨1, [0, 1]⟩ = .ok ⟨1, [0, 1]⟩ := by
  have hx : InRange (2 ^ 32) := inRange_small (by decide)
  exact ⟨(C89_order_irrelevant _ _ (by decide) (by decide) _ _ _ den_two32 hx hs (chain_two32 hs)).2,
    (C89_identity_iff _ _ _ den_two32 hx hs).1 (chain_two32 hs) _ (by decide)⟩

private theorem double_cut (hs : Cfg.strictShift = false) (fs : List Form)
    (ht : ¬ ChainTrips fs (2 ^ 63 + 2 ^ 40 + 1)) (hm : chainMeaning fs (2 ^ 63 + 2 ^ 40 + 1) = .ok (2 ^ 63 + 2 ^ 40)) :
    chain fs ⟨1, [1, 2147483904]⟩ = .ok ⟨1, [0, 2147483904]⟩ := by
  have h := C89_chain_partial fs _ _ den_cut (inRange_small (by decide)) hs ht
  rw [hm] at h
  obtain ⟨b, hb, hd⟩ := h
  rw [hb, hd.unique den_cut']

/-- `C89_result`, `C89_same_forms`, `C89_double` and `C89_monotone` with the cut. -/
example (hs : Cfg.strictShift = false) :
    (∃ b, chain [.double, .words] ⟨1, [1, 2147483904]⟩ = .ok b ∧ b.Denotes (truncated (2 ^ 63 + 2 ^ 40 + 1)) ∧
      Form.double.through b = .ok b) ∧
    (∀ b c, chain [.double, .words] ⟨1, [1, 2147483904]⟩ = .ok b → chain [.words, .double] ⟨1, [1, 2147483904]⟩ = .ok c → b = c) ∧
    (∀ c d, chain [.double, .words] ⟨1, [0, 2147483904]⟩ = .ok c → chain [.double, .words] ⟨1, [1, 2147483904]⟩ = .ok d →
      c.le d = .ok true) := by
  have hx : InRange (2 ^ 63 + 2 ^ 40 + 1) := inRange_small (by decide)
  have hx' : InRange (2 ^ 63 + 2 ^ 40) := inRange_small (by decide)
  have h := double_cut hs [.double, .words] (by simp [ChainTrips, Form.Trips]) (by decide +kernel)
  refine ⟨⟨_, h, ?_, (C89_double _ _ _ _ den_cut hx hs h).2.1⟩, fun b c hb hc => ?_, fun c d hc hd => ?_⟩
  · exact C89_result _ _ _ _ den_cut hx hs h
  · exact C89_same_forms _ _ (by decide) _ _ _ _ den_cut hx hs hb hc
  · refine C89_monotone _ _ _ _ _ _ _ den_cut' den_cut hx' hx hs hc hd ?_
    rw [(C03_operators _ _ _ _ den_cut' den_cut (by decide) (by decide)).2.1]
    decide

example : @chain ⟨true, false⟩ [.text, .double] ⟨1, [1, 2147483904]⟩ = @chain ⟨false, false⟩ [.text, .double] ⟨1, [1, 2147483904]⟩ :=
  C89_builds_agree ⟨true, false⟩ ⟨false, false⟩ rfl rfl _ _ _ den_cut (inRange_small (by decide))
end Examples

end BigIntegerCpp
