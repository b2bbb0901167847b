import Verif.ChainsSpec
import Verif.Lemmas.Program
import Verif.Lemmas.Float
import Verif.Props.Basic
import Verif.Props.Bytes
import Verif.Props.Convert
import Verif.Props.Text
import Verif.Props.Python
import Verif.Props.Accessors
/-
Helper lemmas for Props/Chains.lean.
-/
set_option linter.unusedSectionVars false
namespace BigIntegerCpp
variable [Cfg]

/-! ### truncation to 53 bits -/

theorem keepBits_mono {n m : Nat} (h : n ≤ m) : keepBits 53 n ≤ keepBits 53 m := by
  have h0 : n / 2 ^ (Nat.log2 n + 1 - 53) < 2 ^ 53 := by
    rcases Nat.eq_zero_or_pos n with rfl | hn
    · decide
    rw [Nat.div_lt_iff_lt_mul (Nat.two_pow_pos _), ← pow_add]
    exact lt_of_lt_of_le Nat.lt_log2_self (Nat.pow_le_pow_right (by decide) (by omega))
  have h1 : n / 2 ^ (Nat.log2 n + 1 - 53) * 2 ^ (Nat.log2 n + 1 - 53 + 149) ≤ m * 2 ^ 149 := by
    rw [pow_add, ← Nat.mul_assoc]
    exact Nat.mul_le_mul_right _ ((keepBits_le n).trans h)
  have h2 := keepBits_greatest h0 h1
  rw [pow_add, ← Nat.mul_assoc] at h2
  exact Nat.le_of_mul_le_mul_right h2 (Nat.two_pow_pos _)

theorem keepBits_idem (n : Nat) : keepBits 53 (keepBits 53 n) = keepBits 53 n := by
  refine le_antisymm (keepBits_le _) ?_
  have h0 : n / 2 ^ (Nat.log2 n + 1 - 53) < 2 ^ 53 := by
    rcases Nat.eq_zero_or_pos n with rfl | hn
    · decide
    rw [Nat.div_lt_iff_lt_mul (Nat.two_pow_pos _), ← pow_add]
    exact lt_of_lt_of_le Nat.lt_log2_self (Nat.pow_le_pow_right (by decide) (by omega))
  have h1 : n / 2 ^ (Nat.log2 n + 1 - 53) * 2 ^ (Nat.log2 n + 1 - 53 + 149) ≤ keepBits 53 n * 2 ^ 149 := by
    rw [pow_add, ← Nat.mul_assoc]
    exact le_refl _
  have h2 := keepBits_greatest h0 h1
  rw [pow_add, ← Nat.mul_assoc] at h2
  exact Nat.le_of_mul_le_mul_right h2 (Nat.two_pow_pos _)

theorem keepBits_pos {n : Nat} (h : 0 < n) : 0 < keepBits 53 n := by
  have := keepBits_mono h
  rwa [keepBits_small (show Nat.succ 0 < 2 ^ 53 by decide)] at this

theorem truncated_natAbs (x : Int) : (truncated x).natAbs = keepBits 53 x.natAbs := by
  unfold truncated; by_cases h : x < 0
  · rw [if_pos h]; omega
  · rw [if_neg h]; omega

theorem truncated_neg_iff (x : Int) : truncated x < 0 ↔ x < 0 := by
  unfold truncated; by_cases h : x < 0
  · rw [if_pos h]; have := keepBits_pos (n := x.natAbs) (by omega); omega
  · rw [if_neg h]; omega

theorem truncated_idem (x : Int) : truncated (truncated x) = truncated x := by
  have h1 : (truncated (truncated x)).natAbs = (truncated x).natAbs := by
    rw [truncated_natAbs, truncated_natAbs, keepBits_idem]
  have h2 := truncated_neg_iff (truncated x)
  have h3 := truncated_neg_iff x
  omega

theorem truncated_mono {x y : Int} (h : x ≤ y) : truncated x ≤ truncated y := by
  unfold truncated
  by_cases hx : x < 0
  · rw [if_pos hx]
    by_cases hy : y < 0
    · rw [if_pos hy]
      have := keepBits_mono (show y.natAbs ≤ x.natAbs by omega)
      omega
    · rw [if_neg hy]; omega
  · rw [if_neg hx, if_neg (show ¬ y < 0 by omega)]
    have := keepBits_mono (show x.natAbs ≤ y.natAbs by omega)
    omega

theorem truncated_inRange {x : Int} (h : InRange x) : InRange (truncated x) := by
  unfold InRange at *
  rw [truncated_natAbs]
  exact lt_of_le_of_lt (keepBits_le _) h

/-! ### one form -/

theorem Form.meaning_ok {f : Form} {x y : Int} (h : f.meaning x = .ok y) :
    y = if f = .double then truncated x else x := by
  cases f <;> simp only [Form.meaning] at h <;> first
    | (obtain rfl := Except.ok.inj h; simp)
    | (split_ifs at h; cases h; simp)

theorem Form.meaning_inRange {f : Form} {x y : Int} (h : f.meaning x = .ok y) (hx : InRange x) : InRange y := by
  rw [meaning_ok h]
  by_cases hf : f = .double
  · rw [if_pos hf]; exact truncated_inRange hx
  · rw [if_neg hf]; exact hx

theorem Form.meaning_of_trips {f : Form} {x : Int} (h : f.Trips x) : f.meaning x = .ok x := by
  cases f <;> simp only [Form.Trips] at h
  · rfl
  · subst h; decide
  · subst h; decide

theorem returns_of_eq {r : Res BigInt} {a : BigInt} {x : Int} (h : r = .ok a) (ha : a.Denotes x) : Returns r x := ⟨a, h, ha⟩

theorem returns_to_nat {r : Res BigInt} {x : Int} (h : 0 ≤ x) (hr : Returns r (x.toNat : Int)) : Returns r x := by
  rwa [Int.toNat_of_nonneg h] at hr

theorem Form.through_meant {f : Form} {a : BigInt} {x : Int} (ha : a.Denotes x) (hx : InRange x)
    (hs : Cfg.strictShift = false) (ht : ¬ f.Trips x) : ComesBack (f.through a) (f.meaning x) := by
  have hl := hx.length ha
  have fa : a.Fits := by unfold BigInt.Fits; omega
  cases f with
  | bytes u be =>
    simp only [Form.meaning, Form.through]
    by_cases h : u = true ∧ x < 0
    · rw [if_pos h, h.1, (C27_unsigned_negative_throws a x ha be h.2).1]; rfl
    · rw [if_neg h]
      cases u with
      | true =>
        obtain ⟨v, h1, _, h2⟩ := C27_unsigned_bytes_round_trip a x ha (by omega) be (by by_contra h0; exact h ⟨rfl, by omega⟩)
        rw [h1, Res.ok_bind]; exact returns_of_eq h2 ha
      | false =>
        obtain ⟨v, h1, _, h2⟩ := C26_signed_bytes_round_trip a x ha (by omega) be hs
        rw [h1, Res.ok_bind]; exact returns_of_eq h2 ha
  | words => exact returns_of_eq (C54_rebuild a ha.1) ha
  | text =>
    obtain ⟨s, h1, h2⟩ := C32_text_round_trip_partial a x ha (by omega) ht
    simp only [Form.meaning, Form.through]
    rw [h1, Res.ok_bind]; exact returns_of_eq h2 ha
  | int32 =>
    simp only [Form.meaning, Form.through]
    rw [C34_to_int_partial a x ha ht]
    by_cases h : -2 ^ 31 ≤ x ∧ x < 2 ^ 31
    · have h' : IntRange x := by unfold IntRange; omega
      rw [if_pos h, if_pos h', Res.ok_bind]; exact C01_int32 x h'
    · have h' : ¬ IntRange x := by unfold IntRange; omega
      rw [if_neg h, if_neg h', Res.throw_bind]; rfl
  | uint32 =>
    simp only [Form.meaning, Form.through]
    rw [C34_to_uint a x ha]
    by_cases h : 0 ≤ x ∧ x < 2 ^ 32
    · rw [if_pos h, if_pos h, Res.ok_bind]; exact returns_to_nat h.1 (C01_uint32 _ (by omega))
    · rw [if_neg h, if_neg h, Res.throw_bind]; rfl
  | int64 =>
    simp only [Form.meaning, Form.through]
    rw [C34_to_long_partial a x ha fa ht]
    by_cases h : -2 ^ 63 ≤ x ∧ x < 2 ^ 63
    · have h' : LongRange x := by unfold LongRange; omega
      rw [if_pos h, if_pos h', Res.ok_bind]; exact C01_int64_partial x h' ht
    · have h' : ¬ LongRange x := by unfold LongRange; omega
      rw [if_neg h, if_neg h', Res.throw_bind]; rfl
  | uint64 =>
    simp only [Form.meaning, Form.through]
    rw [C34_to_ulong a x ha fa]
    by_cases h : 0 ≤ x ∧ x < 2 ^ 64
    · rw [if_pos h, if_pos h, Res.ok_bind]; exact returns_to_nat h.1 (C01_uint64 _ (by omega))
    · rw [if_neg h, if_neg h, Res.throw_bind]; rfl
  | double =>
    simp only [Form.meaning, Form.through]
    by_cases h : |x| < 2 ^ 1024
    · rw [if_pos h]
      obtain ⟨d, h1, h2, h3, h4⟩ := C35_to_double_truncates a x ha h
      rw [h1, Res.ok_bind]
      have h5 := C36_of_double d h2 h3
      have h6 : (dblScaled d).tdiv (2 ^ 1074) = truncated x := by
        have h7 : dblScaled d = truncated x * 2 ^ 1074 := by
          rw [h4]
          unfold truncated
          by_cases hneg : x < 0
          · rw [if_pos hneg, if_pos hneg]; push_cast; ring
          · rw [if_neg hneg, if_neg hneg]; push_cast; ring
        rw [h7]
        exact Int.mul_tdiv_cancel _ (by positivity)
      rw [h6] at h5
      exact h5
    · rw [if_neg h, C35_to_double_infinity a x ha fa (not_lt.1 h), Res.ok_bind]
      refine C36_not_finite _ ?_ ?_
      · cases decide (x < 0) <;> decide
      · cases decide (x < 0) <;> (unfold DblFinite; decide)
  | python =>
    exact returns_of_eq (C44_round_trip_back a x ha (by omega) hs) ha

theorem Form.through_fault {f : Form} {a : BigInt} {x : Int} (ha : a.Denotes x) (hx : InRange x)
    (ht : f.Trips x) : f.through a = .ub f.fault := by
  have hl := hx.length ha
  have fa : a.Fits := by unfold BigInt.Fits; omega
  cases f <;> simp only [Form.Trips] at ht
  · simp only [Form.through, Form.fault]; rw [C30_misfire a x ha (by omega) ht]; rfl
  · subst ht; simp only [Form.through, Form.fault]; rw [C34_int_min_is_undefined a ha]; rfl
  · subst ht; simp only [Form.through, Form.fault]; rw [C34_long_min_is_undefined a ha fa]; rfl

/-! ### chains -/

theorem chain_meant (fs : List Form) (hs : Cfg.strictShift = false) :
    ∀ {a : BigInt} {x : Int}, a.Denotes x → InRange x → ¬ ChainTrips fs x → ComesBack (chain fs a) (chainMeaning fs x) := by
  induction fs with
  | nil => intro a x ha _ _; exact returns_of_eq rfl ha
  | cons f fs ih =>
    intro a x ha hx ht
    have h1 : ¬ f.Trips x := fun h => ht (.inl h)
    have h2 := Form.through_meant ha hx hs h1
    simp only [chain, chainMeaning]
    cases e : f.meaning x with
    | ok y =>
      rw [e] at h2
      obtain ⟨b, hb, hd⟩ := h2
      rw [hb, Res.ok_bind]
      exact ih hd (Form.meaning_inRange e hx) (fun h => ht (.inr ⟨y, e, h⟩))
    | error ex =>
      rw [e] at h2
      have h2 : f.through a = .throw ex := h2
      rw [h2]; rfl

theorem chain_fault (fs : List Form) (hs : Cfg.strictShift = false) :
    ∀ {a : BigInt} {x : Int} {u : UB}, a.Denotes x → InRange x → ChainFault fs x u → chain fs a = .ub u := by
  induction fs with
  | nil => intro a x u _ _ h; exact h.elim
  | cons f fs ih =>
    intro a x u ha hx h
    simp only [chain]
    rcases h with ⟨h1, rfl⟩ | ⟨h1, y, h2, h3⟩
    · rw [Form.through_fault ha hx h1]; rfl
    · have h4 := Form.through_meant ha hx hs h1
      rw [h2] at h4
      obtain ⟨b, hb, hd⟩ := h4
      rw [hb, Res.ok_bind]
      exact ih hd (Form.meaning_inRange h2 hx) h3

theorem chainTrips_fault {fs : List Form} : ∀ {x : Int}, ChainTrips fs x → ∃ u, ChainFault fs x u := by
  induction fs with
  | nil => intro x h; exact h.elim
  | cons f fs ih =>
    intro x h
    by_cases hf : f.Trips x
    · exact ⟨_, .inl ⟨hf, rfl⟩⟩
    · rcases h with h | ⟨y, h1, h2⟩
      · exact (hf h).elim
      · obtain ⟨u, hu⟩ := ih h2
        exact ⟨u, .inr ⟨hf, y, h1, hu⟩⟩

theorem comesBack_not_ub {r : Res BigInt} {m : Except Exn Int} (h : ComesBack r m) (u : UB) : r ≠ .ub u := by
  cases m with
  | ok z => obtain ⟨b, hb, _⟩ := h; rw [hb]; intro h; cases h
  | error e => have h : r = .throw e := h; rw [h]; intro h; cases h

theorem chainMeaning_ok (fs : List Form) : ∀ {x z : Int}, chainMeaning fs x = .ok z →
    z = if Form.double ∈ fs then truncated x else x := by
  induction fs with
  | nil => intro x z h; rw [if_neg (by simp)]; exact (Except.ok.inj h).symm
  | cons f fs ih =>
    intro x z h
    simp only [chainMeaning] at h
    cases e : f.meaning x with
    | error ex => rw [e] at h; cases h
    | ok y =>
      rw [e] at h
      have h1 := ih h
      have h2 := Form.meaning_ok e
      by_cases hf : f = .double
      · rw [if_pos hf] at h2
        rw [if_pos (by rw [hf]; exact List.mem_cons_self)]
        rw [h1, h2, truncated_idem]
        exact ite_self _
      · rw [if_neg hf] at h2
        subst h2
        rw [h1]
        have : Form.double ∈ f :: fs ↔ Form.double ∈ fs := by
          rw [List.mem_cons]; exact ⟨fun h => h.resolve_left (fun h => hf h.symm), .inr⟩
        by_cases hd : Form.double ∈ fs
        · rw [if_pos hd, if_pos (this.2 hd)]
        · rw [if_neg hd, if_neg (fun h => hd (this.1 h))]

/-- A chain brings an integer back unchanged exactly if each of its forms does. -/
theorem chainMeaning_fixed (fs : List Form) : ∀ {x : Int},
    (chainMeaning fs x = .ok x ∧ ¬ ChainTrips fs x) ↔ ∀ f ∈ fs, f.meaning x = .ok x ∧ ¬ f.Trips x := by
  induction fs with
  | nil => intro x; exact ⟨fun _ f hf => by simp at hf, fun _ => ⟨rfl, id⟩⟩
  | cons f fs ih =>
    intro x
    constructor
    · rintro ⟨h1, h2⟩
      have hz := chainMeaning_ok _ h1
      simp only [chainMeaning] at h1
      cases e : f.meaning x with
      | error ex => rw [e] at h1; cases h1
      | ok y =>
        rw [e] at h1
        have hy : y = x := by
          rw [Form.meaning_ok e]
          by_cases hf : f = .double
          · rw [if_pos hf]; rw [if_pos (by rw [hf]; exact List.mem_cons_self)] at hz; exact hz.symm
          · rw [if_neg hf]
        subst hy
        have h3 := ih.1 ⟨h1, fun h => h2 (.inr ⟨y, e, h⟩)⟩
        intro g hg
        rcases List.mem_cons.1 hg with rfl | hg
        · exact ⟨e, fun h => h2 (.inl h)⟩
        · exact h3 g hg
    · intro h
      have h1 := h f List.mem_cons_self
      have h2 := ih.2 (fun g hg => h g (List.mem_cons_of_mem _ hg))
      refine ⟨by simp only [chainMeaning]; rw [h1.1]; exact h2.1, ?_⟩
      rintro (h3 | ⟨y, h3, h4⟩)
      · exact h1.2 h3
      · rw [h1.1] at h3; obtain rfl := Except.ok.inj h3; exact h2.2 h4

theorem chain_ok {fs : List Form} {a b : BigInt} {x : Int} (ha : a.Denotes x) (hx : InRange x)
    (hs : Cfg.strictShift = false) (h : chain fs a = .ok b) :
    ¬ ChainTrips fs x ∧ ∃ z, chainMeaning fs x = .ok z ∧ b.Denotes z := by
  have ht : ¬ ChainTrips fs x := by
    intro ht
    obtain ⟨u, hu⟩ := chainTrips_fault ht
    rw [chain_fault fs hs ha hx hu] at h; cases h
  refine ⟨ht, ?_⟩
  have h1 := chain_meant fs hs ha hx ht
  cases e : chainMeaning fs x with
  | ok z =>
    rw [e] at h1
    obtain ⟨c, hc, hd⟩ := h1
    rw [h] at hc; obtain rfl := Res.ok.inj hc
    exact ⟨z, rfl, hd⟩
  | error ex =>
    rw [e] at h1
    have h1 : chain fs a = .throw ex := h1
    rw [h] at h1; cases h1

end BigIntegerCpp
