import Verif.ProgramSpec
import Verif.Lemmas.PowProps
import Verif.Lemmas.Shift
import Verif.Lemmas.Bitwise
import Verif.Lemmas.BitLength
import Verif.Lemmas.Text
/-
Helper lemmas for Props/Program.lean.
-/
set_option linter.unusedSectionVars false
set_option linter.unnecessarySeqFocus false
set_option linter.unusedSimpArgs false
namespace BigIntegerCpp
variable [Cfg]

namespace Cmd
variable {α β : Type}
theorem bind_eq (m : Cmd α) (f : α → Cmd β) (σ : Store) : (m >>= f) σ = Cmd.bind m f σ := rfl
theorem pure_apply (a : α) (σ : Store) : (pure a : Cmd α) σ = (.ok a, σ) := rfl
theorem lift_ok_bind (a : α) (f : α → Cmd β) (σ : Store) : (lift (.ok a) >>= f) σ = f a σ := rfl
theorem lift_throw_bind (e : Exn) (f : α → Cmd β) (σ : Store) : (lift (.throw e) >>= f) σ = (.throw e, σ) := rfl
theorem read_bind (i : Nat) (f : BigInt → Cmd β) (σ : Store) : (read i >>= f) σ = f (σ i) σ := rfl
theorem ask_bind (c : Cond) (f : Bool → Cmd β) (σ : Store) : (ask c >>= f) σ = (lift (c.test σ) >>= f) σ := rfl
theorem write_bind (i : Nat) (v : BigInt) (f : Unit → Cmd β) (σ : Store) : (write i v >>= f) σ = f () (σ.set i v) := rfl
theorem bind_ok {m : Cmd α} {f : α → Cmd β} {σ σ' : Store} {a : α} (h : m σ = (.ok a, σ')) : (m >>= f) σ = f a σ' := by
  rw [bind_eq, Cmd.bind, h]
theorem bind_throw {m : Cmd α} {f : α → Cmd β} {σ σ' : Store} {e : Exn} (h : m σ = (.throw e, σ')) : (m >>= f) σ = (.throw e, σ') := by
  rw [bind_eq, Cmd.bind, h]
end Cmd

theorem Store.set_same (σ : Store) (i : Nat) (v : BigInt) : σ.set i v i = v := if_pos rfl
theorem Store.set_ne (σ : Store) {i j : Nat} (v : BigInt) (h : j ≠ i) : σ.set i v j = σ j := if_neg h

theorem Store.Shows.set {σ : Store} {ρ : IntStore} (h : σ.Shows ρ) {i : Nat} {v : BigInt} {z : Int} (hv : v.Denotes z) :
    (σ.set i v).Shows (ρ.set i z) := by
  intro j
  unfold Store.set IntStore.set
  by_cases hj : j = i
  · rw [if_pos hj, if_pos hj]; exact hv
  · rw [if_neg hj, if_neg hj]; exact h j

/-- The store is determined by the integers it shows. -/
theorem Store.Shows.unique {σ τ : Store} {ρ : IntStore} (h : σ.Shows ρ) (h' : τ.Shows ρ) : σ = τ :=
  funext fun i => (h i).unique (h' i)

/-! ### div_rem -/

theorem divRemAt_spec {σ : Store} {i j k : Nat} {x y : Int} (ha : (σ i).Denotes x) (hb : (σ j).Denotes y) (hy : y ≠ 0)
    (hl : (σ i).bits.length < 2147483648) : ∃ r, r.Denotes (BigInt.divRemRest (σ i) (σ j) x y) ∧
    (((σ i).bits = [] ∧ (σ j).bits = [] → divRemAt i j k σ =
        (if ((σ.set k r) j).sign = 0 then .ub .divByZero
         else int (((σ.set k r) i).sign.tdiv ((σ.set k r) j).sign) >>= ofInt32, σ.set k r)) ∧
     (¬ ((σ i).bits = [] ∧ (σ j).bits = []) → ∃ q, divRemAt i j k σ = (.ok q, σ.set k r) ∧
        q.Denotes (if BigInt.signXor ((σ.set k r) i) ((σ.set k r) j) then -((x.natAbs / y.natAbs : Nat) : Int)
          else ((x.natAbs / y.natAbs : Nat) : Int)))) := by
  unfold divRemAt BigInt.divRemRest
  rw [Cmd.read_bind, Cmd.read_bind, ha.assertValid, hb.assertValid, Cmd.lift_ok_bind, Cmd.lift_ok_bind]
  have hsn := ha.sign_neg
  generalize σ i = a at *
  generalize σ j = b at *
  rcases ha.shape with ⟨rfl, h1, h2⟩ | ⟨s, xs, rfl, hs1, hne1, hw1, ht1, hv1, rfl⟩ <;>
    rcases hb.shape with ⟨rfl, h1', h2'⟩ | ⟨t, ys, rfl, hs2, hne2, hw2, ht2, hv2, rfl⟩
  · obtain ⟨h5, h6⟩ := BigInt.tdiv_bounds (y := y) h1 h2
    obtain ⟨h7, h8⟩ := BigInt.tmod_bounds (y := y) h1 h2
    obtain ⟨r, hr, hrd⟩ := ofInt32_spec (z := x.tmod y) (by omega) (by omega)
    refine ⟨r, by simpa using hrd, fun _ => ?_, fun h => absurd ⟨rfl, rfl⟩ h⟩
    rw [if_pos ⟨rfl, rfl⟩, if_neg hy, int_ok (by dsimp only; omega) (by dsimp only; omega), Cmd.lift_ok_bind, hr, Cmd.lift_ok_bind,
      Cmd.write_bind, Cmd.read_bind, Cmd.read_bind]
    by_cases h0 : ((σ.set k r) j).sign = 0
    · rw [if_pos h0, if_pos h0]; rfl
    · rw [if_neg h0, if_neg h0]
      generalize int (((σ.set k r) i).sign.tdiv ((σ.set k r) j).sign) = w
      cases w <;> rfl
  · have hz : x.natAbs / (t * (val ys : Int)).natAbs = 0 := Nat.div_eq_of_lt (by rw [natAbs_unit_mul hs2]; omega)
    refine ⟨⟨x, []⟩, ?_, fun h => absurd h.2 hne2, fun _ => ⟨zeroInt, ?_, ?_⟩⟩
    rotate_left
    · rw [if_neg (fun h => hne2 h.2), if_pos (by rfl), Cmd.write_bind, Cmd.pure_apply]
    · rw [hz]; split_ifs <;> exact denotes_zero
    · rw [if_neg (by simp), BigInt.tmod_self_of_lt (by rw [natAbs_unit_mul hs2]; omega)]; exact ha
  · dsimp only at *
    rw [if_neg (show ¬ (xs = [] ∧ ([] : List Nat) = []) from fun h => hne1 h.1), if_neg hne1,
      if_pos (show ([] : List Nat) = [] by rfl), cabs_ok (by omega), Cmd.lift_ok_bind]
    obtain ⟨q, hq, hlq, hwq, hvq⟩ := divideWordRem_spec hw1 hne1 hl (y := y.natAbs) (by omega) (by omega)
    rw [hq, Cmd.lift_ok_bind]
    dsimp only
    have hm : val xs % y.natAbs < y.natAbs := Nat.mod_lt _ (by omega)
    have hR : Returns (ofUInt32 (if s < 0 then u32i (-1 * ((val xs % y.natAbs : Nat) : Int)) else val xs % y.natAbs))
        (if (s * (val xs : Int)).tmod y < 0 then (s * (val xs : Int)).tmod y + 4294967296 else (s * (val xs : Int)).tmod y) := by
      rw [tmod_natAbs, natAbs_unit_mul hs1]
      simp only [← hsn]
      generalize val xs % y.natAbs = m at hm
      by_cases hs : s < 0
      · rw [if_pos hs, if_pos hs]
        have hu : u32i (-1 * (m : Int)) = if m = 0 then 0 else 4294967296 - m := by
          unfold u32i; split_ifs <;> omega
        obtain ⟨r, hr, hrd⟩ := ofUInt32_spec (x := if m = 0 then 0 else 4294967296 - m) (by split_ifs <;> omega)
        refine ⟨r, by rw [hu, hr], ?_⟩
        convert hrd using 1
        split_ifs <;> omega
      · rw [if_neg hs, if_neg hs, if_neg (by omega)]
        exact ofUInt32_spec (by omega)
    obtain ⟨r, hr, hrd⟩ := hR
    rw [hr, Cmd.lift_ok_bind, Cmd.write_bind, Cmd.read_bind, Cmd.read_bind]
    refine ⟨r, by simpa [hne1] using hrd, fun h => absurd h.1 hne1, fun _ => ?_⟩
    obtain ⟨q', e1, e2⟩ := ofMagnitude_spec hwq (by omega) (BigInt.signXor (σ.set k r i) (σ.set k r j))
    refine ⟨q', by rw [e1]; rfl, ?_⟩
    rw [hvq] at e2
    rwa [natAbs_unit_mul hs1]
  · dsimp only at *
    rw [if_neg (show ¬ (xs = [] ∧ ys = []) from fun h => hne1 h.1), if_neg hne1, if_neg hne2]
    by_cases hlt : xs.length < ys.length
    · have := BigInt.val_lt_of_length hw1 hne2 ht2 hlt
      have hz : (s * (val xs : Int)).natAbs / (t * (val ys : Int)).natAbs = 0 :=
        Nat.div_eq_of_lt (by rw [natAbs_unit_mul hs1, natAbs_unit_mul hs2]; exact this)
      rw [if_pos hlt]
      refine ⟨⟨s, xs⟩, ?_, fun h => absurd h.2 hne2, fun _ => ⟨zeroInt, ?_, ?_⟩⟩
      rotate_left
      · rw [Cmd.write_bind, Cmd.pure_apply]
      · rw [hz]; split_ifs <;> exact denotes_zero
      · rw [if_neg (by simp [hne2]), BigInt.tmod_self_of_lt (by rw [natAbs_unit_mul hs1, natAbs_unit_mul hs2]; omega)]; exact ha
    · rw [if_neg hlt]
      obtain ⟨q, r, hr, hlq, hwq, hvq, hlr, hwr, hvr⟩ := divideVecRem_spec hw1 hw2 hne2 ht2 (by omega) hl
      have : 0 < ys.length := List.length_pos_iff.2 hne2
      obtain ⟨r', hr', hrd⟩ := returns_ofMagnitude hwr (by omega) (neg := decide (s < 0))
        (z := (s * (val xs : Int)).tmod (t * (val ys : Int))) (by
          rw [tmod_natAbs, natAbs_unit_mul hs1, natAbs_unit_mul hs2, hvr]
          simp only [← hsn, decide_eq_true_eq])
      rw [hr, Cmd.lift_ok_bind]
      dsimp only
      rw [hr', Cmd.lift_ok_bind, Cmd.write_bind, Cmd.read_bind, Cmd.read_bind]
      refine ⟨r', by simpa [hne2] using hrd, fun h => absurd h.1 hne1, fun _ => ?_⟩
      obtain ⟨q', e1, e2⟩ := ofMagnitude_spec hwq (by omega) (BigInt.signXor (σ.set k r' i) (σ.set k r' j))
      refine ⟨q', by rw [e1]; rfl, ?_⟩
      rw [hvq] at e2
      rwa [natAbs_unit_mul hs1, natAbs_unit_mul hs2]

theorem bits_nil_natAbs {b : BigInt} {z : Int} (h : b.Denotes z) : b.bits = [] ↔ z.natAbs < 2147483648 := by
  rw [h.bits_nil, Int.abs_eq_natAbs]; omega

theorem divRemRest_eq {a b : BigInt} {x y : Int} (ha : a.Denotes x) (hb : b.Denotes y) :
    BigInt.divRemRest a b x y =
      if 2 ^ 31 ≤ |x| ∧ |y| < 2 ^ 31 ∧ x.tmod y < 0 then x.tmod y + 2 ^ 32 else x.tmod y := by
  unfold BigInt.divRemRest
  have e1 := (bits_nil_natAbs ha)
  have e2 := (bits_nil_natAbs hb)
  rw [Int.abs_eq_natAbs, Int.abs_eq_natAbs]
  have : (a.bits ≠ [] ∧ b.bits = [] ∧ x.tmod y < 0) ↔ ((2 : Int) ^ 31 ≤ (x.natAbs : Int) ∧ (y.natAbs : Int) < 2 ^ 31 ∧ x.tmod y < 0) := by
    rw [ne_eq, e1, e2]
    constructor <;> rintro ⟨h1, h2, h3⟩ <;> exact ⟨by omega, by omega, h3⟩
  by_cases h : a.bits ≠ [] ∧ b.bits = [] ∧ x.tmod y < 0
  · rw [if_pos h, if_pos (this.1 h)]; norm_num
  · rw [if_neg h, if_neg (fun h' => h (this.2 h'))]

theorem signXor_eq {a b : BigInt} {x y : Int} (ha : a.Denotes x) (hb : b.Denotes y) :
    BigInt.signXor a b = (decide (x < 0) ^^ decide (y < 0)) := by
  unfold BigInt.signXor
  rw [decide_eq_decide.2 ha.sign_neg, decide_eq_decide.2 hb.sign_neg]

theorem dvd_iff_natAbs_mod {x y : Int} : y ∣ x ↔ x.natAbs % y.natAbs = 0 := by
  rw [← Int.natAbs_dvd_natAbs, Nat.dvd_iff_mod_eq_zero]

theorem rest_neg {x y : Int} (hy : y ≠ 0) (h : ¬ (x.natAbs < 2147483648 ∧ y.natAbs < 2147483648)) :
    (if (2 : Int) ^ 31 ≤ (x.natAbs : Int) ∧ (y.natAbs : Int) < 2 ^ 31 ∧ x.tmod y < 0 then x.tmod y + 2 ^ 32 else x.tmod y) < 0 ↔
      x < 0 ∧ 2147483648 ≤ y.natAbs ∧ ¬ y ∣ x := by
  rw [tmod_natAbs, dvd_iff_natAbs_mod]
  have hmlt : x.natAbs % y.natAbs < y.natAbs := Nat.mod_lt _ (by omega)
  generalize x.natAbs % y.natAbs = m at *
  split_ifs <;> omega

theorem divRemAt_distinct {σ : Store} {i j k : Nat} {x y : Int} (ha : (σ i).Denotes x) (hb : (σ j).Denotes y) (hy : y ≠ 0)
    (hl : (σ i).bits.length < 2147483648) (hi : i ≠ k) (hj : j ≠ k) :
    ∃ q r, divRemAt i j k σ = (.ok q, σ.set k r) ∧ q.Denotes (x.tdiv y) ∧
      r.Denotes (if 2 ^ 31 ≤ |x| ∧ |y| < 2 ^ 31 ∧ x.tmod y < 0 then x.tmod y + 2 ^ 32 else x.tmod y) := by
  obtain ⟨r, hr, h1, h2⟩ := divRemAt_spec (k := k) ha hb hy hl
  rw [divRemRest_eq ha hb] at hr
  rw [Store.set_ne _ _ hi, Store.set_ne _ _ hj] at h1 h2
  by_cases h : (σ i).bits = [] ∧ (σ j).bits = []
  · have h3 := h1 h
    have b1 := (bits_nil_natAbs ha).1 h.1
    have b2 := (bits_nil_natAbs hb).1 h.2
    have e1 := ha.unique (BigInt.denotes_small (by omega) (by omega))
    have e2 := hb.unique (BigInt.denotes_small (by omega) (by omega))
    obtain ⟨h5, h6⟩ := BigInt.tdiv_bounds (x := x) (y := y) (by omega) (by omega)
    obtain ⟨q, hq, hqd⟩ := ofInt32_spec (z := x.tdiv y) (by omega) (by omega)
    refine ⟨q, r, ?_, hqd, hr⟩
    rw [h3, e1, e2]
    dsimp only
    rw [if_neg hy, int_ok (by omega) (by omega), Res.ok_bind, hq]
  · obtain ⟨q, h3, hq⟩ := h2 h
    refine ⟨q, r, h3, ?_, hr⟩
    rw [signXor_eq ha hb] at hq
    convert hq using 1
    rw [tdiv_natAbs]

theorem divRemAt_over_dividend {σ : Store} {i j : Nat} {x y : Int} (ha : (σ i).Denotes x) (hb : (σ j).Denotes y) (hy : y ≠ 0)
    (hl : (σ i).bits.length < 2147483648) (hij : i ≠ j) :
    ∃ q r, divRemAt i j i σ = (.ok q, σ.set i r) ∧ q.Denotes (quotientOverDividend x y) ∧
      r.Denotes (if 2 ^ 31 ≤ |x| ∧ |y| < 2 ^ 31 ∧ x.tmod y < 0 then x.tmod y + 2 ^ 32 else x.tmod y) := by
  obtain ⟨r, hr, h1, h2⟩ := divRemAt_spec (k := i) ha hb hy hl
  rw [divRemRest_eq ha hb] at hr
  rw [Store.set_same, Store.set_ne _ _ hij.symm] at h1 h2
  have a1 := (bits_nil_natAbs ha)
  have a2 := (bits_nil_natAbs hb)
  have hmlt : x.natAbs % y.natAbs < y.natAbs := Nat.mod_lt _ (by omega)
  have hmle : x.natAbs % y.natAbs ≤ x.natAbs := Nat.mod_le _ _
  rw [Int.abs_eq_natAbs, Int.abs_eq_natAbs] at hr ⊢
  unfold quotientOverDividend
  rw [Int.abs_eq_natAbs, Int.abs_eq_natAbs]
  by_cases h : (σ i).bits = [] ∧ (σ j).bits = []
  · have h3 := h1 h
    have b1 := a1.1 h.1
    have b2 := a2.1 h.2
    rw [if_neg (by omega)] at hr
    obtain ⟨h5, h6⟩ := BigInt.tmod_bounds (x := x) (y := y) (by omega) (by omega)
    have e1 := hr.unique (BigInt.denotes_small (by omega) (by omega))
    have e2 := hb.unique (BigInt.denotes_small (by omega) (by omega))
    obtain ⟨q, hq, hqd⟩ := ofInt32_spec (z := 0) (by omega) (by omega)
    refine ⟨q, r, ?_, by rw [if_pos (by omega)]; exact hqd, by rw [if_neg (by omega)]; exact hr⟩
    have hz : (x.tmod y).tdiv y = 0 := BigInt.tdiv_zero_of_lt (by
      rw [tmod_natAbs]; split_ifs <;> omega)
    rw [h3, e1, e2]
    dsimp only
    rw [if_neg hy, hz, int_ok (by omega) (by omega), Res.ok_bind, hq]
  · obtain ⟨q, h3, hq⟩ := h2 h
    refine ⟨q, r, h3, ?_, hr⟩
    rw [a1, a2] at h
    rw [signXor_eq hr hb] at hq
    simp only [rest_neg hy h] at hq
    convert hq using 1
    rw [tdiv_natAbs]
    generalize x.natAbs / y.natAbs = Q
    rw [if_neg (by omega)]
    have hc : ((y.natAbs : Int) < 2 ^ 31) ↔ y.natAbs < 2147483648 := by omega
    have hc2 : (2147483648 ≤ y.natAbs) ↔ ¬ y.natAbs < 2147483648 := by omega
    have hd : (y ∣ x) ↔ x.natAbs % y.natAbs = 0 := dvd_iff_natAbs_mod
    by_cases c1 : x < 0 <;> by_cases c2 : y < 0 <;> by_cases c3 : y ∣ x <;> by_cases c4 : y.natAbs < 2147483648 <;>
      simp (discharger := omega) only [c1, c2, c3, c4, hc, true_and, and_true, or_true, true_or, or_false, false_or, false_and, and_false,
        not_true, not_false_iff, decide_true, decide_false, Bool.xor_true, Bool.xor_false, Bool.not_true, Bool.not_false, if_true, if_false,
        neg_neg, Bool.false_eq_true, hc2, if_pos, if_neg]

theorem divRemAt_over_divisor {σ : Store} {i j : Nat} {x y : Int} (ha : (σ i).Denotes x) (hb : (σ j).Denotes y) (hy : y ≠ 0)
    (hl : (σ i).bits.length < 2147483648) (hij : i ≠ j) (h : ¬ (x.natAbs < 2147483648 ∧ y.natAbs < 2147483648)) :
    ∃ q r, divRemAt i j j σ = (.ok q, σ.set j r) ∧ q.Denotes (quotientOverDivisor x y) ∧
      r.Denotes (if 2 ^ 31 ≤ |x| ∧ |y| < 2 ^ 31 ∧ x.tmod y < 0 then x.tmod y + 2 ^ 32 else x.tmod y) := by
  obtain ⟨r, hr, h1, h2⟩ := divRemAt_spec (k := j) ha hb hy hl
  rw [divRemRest_eq ha hb] at hr
  rw [Store.set_same, Store.set_ne _ _ hij] at h1 h2
  have a1 := bits_nil_natAbs ha
  have a2 := bits_nil_natAbs hb
  rw [Int.abs_eq_natAbs, Int.abs_eq_natAbs] at hr ⊢
  unfold quotientOverDivisor
  rw [Int.abs_eq_natAbs, Int.abs_eq_natAbs]
  obtain ⟨q, h3, hq⟩ := h2 (by rw [a1, a2]; exact h)
  refine ⟨q, r, h3, ?_, hr⟩
  rw [signXor_eq ha hr] at hq
  simp only [rest_neg hy h] at hq
  convert hq using 1
  rw [tdiv_natAbs, Int.natAbs_natCast]
  have hc0 : ¬ ((y.natAbs : Int) < 0) := by omega
  have hcd : (x.natAbs : Int) / (y.natAbs : Int) = ((x.natAbs / y.natAbs : Nat) : Int) := rfl
  rw [hcd]
  generalize x.natAbs / y.natAbs = Q
  have hc : ((y.natAbs : Int) < 2 ^ 31) ↔ y.natAbs < 2147483648 := by omega
  have hc2 : (2147483648 ≤ y.natAbs) ↔ ¬ y.natAbs < 2147483648 := by omega
  by_cases c1 : x < 0 <;> by_cases c3 : y ∣ x <;> by_cases c4 : y.natAbs < 2147483648 <;>
    simp only [c1, c3, c4, hc, hc0, true_and, and_true, or_true, true_or, or_false, false_or, false_and, and_false,
      not_true, not_false_iff, decide_true, decide_false, Bool.xor_true, Bool.xor_false, Bool.not_true, Bool.not_false, if_true, if_false,
      neg_neg, Bool.false_eq_true, hc2]

theorem divRemAt_over_divisor_small {σ : Store} {i j : Nat} {x y : Int} (ha : (σ i).Denotes x) (hb : (σ j).Denotes y) (hy : y ≠ 0)
    (hij : i ≠ j) (h : x.natAbs < 2147483648 ∧ y.natAbs < 2147483648) :
    (y ∣ x → ∃ σ', divRemAt i j j σ = (.ub .divByZero, σ')) ∧
    (¬ y ∣ x → ∃ q r, divRemAt i j j σ = (.ok q, σ.set j r) ∧ q.Denotes (x.tdiv (x.tmod y)) ∧ r.Denotes (x.tmod y)) := by
  have a1 := (bits_nil_natAbs ha).2 h.1
  have a2 := (bits_nil_natAbs hb).2 h.2
  obtain ⟨r, hr, h1, h2⟩ := divRemAt_spec (k := j) ha hb hy (by rw [a1]; decide)
  rw [divRemRest_eq ha hb, Int.abs_eq_natAbs, if_neg (by omega)] at hr
  rw [Store.set_same, Store.set_ne _ _ hij] at h1
  have h3 := h1 ⟨a1, a2⟩
  obtain ⟨h5, h6⟩ := BigInt.tmod_bounds (x := x) (y := y) (by omega) (by omega)
  have e1 := ha.unique (BigInt.denotes_small (by omega) (by omega))
  have e2 := hr.unique (BigInt.denotes_small (by omega) (by omega))
  rw [e1] at h3
  dsimp only at h3
  have e3 : r.sign = x.tmod y := by rw [e2]
  rw [e3] at h3
  constructor
  · intro hd
    rw [if_pos (Int.tmod_eq_zero_of_dvd hd)] at h3
    exact ⟨_, h3⟩
  · intro hd
    rw [if_neg (fun h0 => hd (Int.dvd_of_tmod_eq_zero h0))] at h3
    obtain ⟨h7, h8⟩ := BigInt.tdiv_bounds (x := x) (y := x.tmod y) (by omega) (by omega)
    obtain ⟨q, hq, hqd⟩ := ofInt32_spec (z := x.tdiv (x.tmod y)) (by omega) (by omega)
    rw [int_ok (by omega) (by omega), Res.ok_bind, hq] at h3
    exact ⟨q, r, h3, hqd, hr⟩

/-- All three the same object. -/
theorem divRemAt_self {σ : Store} {i : Nat} {x : Int} (ha : (σ i).Denotes x) (hx : x ≠ 0)
    (hl : (σ i).bits.length < 2147483648) :
    (x.natAbs < 2147483648 → ∃ σ', divRemAt i i i σ = (.ub .divByZero, σ')) ∧
    (2147483648 ≤ x.natAbs → ∃ q r, divRemAt i i i σ = (.ok q, σ.set i r) ∧ q.Denotes 1 ∧ r.Denotes 0) := by
  obtain ⟨r, hr, h1, h2⟩ := divRemAt_spec (k := i) ha ha hx hl
  rw [Store.set_same] at h1 h2
  have a1 := bits_nil_natAbs ha
  rw [divRemRest_eq ha ha, Int.tmod_self, if_neg (by simp)] at hr
  have e2 := hr.unique denotes_zero
  constructor
  · intro h
    have h3 := h1 ⟨a1.2 h, a1.2 h⟩
    rw [e2, if_pos (by rfl)] at h3
    exact ⟨_, h3⟩
  · intro h
    obtain ⟨q, h3, h4⟩ := h2 (by rw [a1]; omega)
    refine ⟨q, r, h3, ?_, hr⟩
    rw [Nat.div_self (by omega)] at h4
    have : BigInt.signXor r r = false := by unfold BigInt.signXor; exact Bool.xor_self _
    rw [this] at h4
    exact h4

/-! ### the operators on values in range -/

theorem InRange.length {b : BigInt} {z : Int} (h : InRange z) (hb : b.Denotes z) : b.bits.length ≤ 67108863 :=
  le_trans (hb.length_le_of_lt (k := 2 ^ 26 - 1) h) (by decide)

theorem ibit_testBit (z : Int) (k : Nat) : Int.testBit z k = ibit z k := by
  have hn : ∀ m : Nat, ibit (m : Int) k = m.testBit k := by
    intro m
    have := ibit_low (n := k + 1) (k := k) (w := m) (t := 0) (by omega)
    simpa using this
  cases z with
  | ofNat m => rw [Int.ofNat_eq_natCast, hn]; rfl
  | negSucc m =>
    rw [show Int.negSucc m = -(m : Int) - 1 by rw [Int.negSucc_eq]; ring, ibit_not, hn]
    rw [show -(m : Int) - 1 = Int.negSucc m by rw [Int.negSucc_eq]; ring]
    rfl

theorem BinOp.apply_ok {op : BinOp} {a b : BigInt} {x y z : Int} (ha : a.Denotes x) (hb : b.Denotes y) (hx : InRange x) (hy : InRange y)
    (h : op.meaning x y = .ok z) : Returns (op.apply a b) z := by
  have la := hx.length ha
  have lb := hy.length hb
  cases op <;> unfold BinOp.meaning at h <;> unfold BinOp.apply <;> dsimp only at h ⊢
  · obtain rfl := Except.ok.inj h; exact BigInt.add_spec ha hb (by omega) (by omega)
  · obtain rfl := Except.ok.inj h; exact BigInt.sub_spec ha hb (by omega) (by omega)
  · obtain rfl := Except.ok.inj h; exact BigInt.mul_spec ha hb (by omega)
  · by_cases h0 : y = 0
    · rw [if_pos h0] at h; cases h
    rw [if_neg h0] at h
    obtain rfl := Except.ok.inj h; exact BigInt.div_spec ha hb h0 (by omega)
  · by_cases h0 : y = 0
    · rw [if_pos h0] at h; cases h
    rw [if_neg h0] at h
    obtain rfl := Except.ok.inj h; exact BigInt.rem_spec ha hb h0 (by omega)
  · obtain rfl := Except.ok.inj h
    obtain ⟨z, h1, h2⟩ := BigInt.and_spec ha hb (by omega) (by omega)
    have : z = Int.land x y := ibit_ext fun k => by rw [h2, ← ibit_testBit, ← ibit_testBit, ← ibit_testBit, Int.testBit_land]
    exact this ▸ h1
  · obtain rfl := Except.ok.inj h
    obtain ⟨z, h1, h2⟩ := BigInt.or_spec ha hb (by omega) (by omega)
    have : z = Int.lor x y := ibit_ext fun k => by rw [h2, ← ibit_testBit, ← ibit_testBit, ← ibit_testBit, Int.testBit_lor]
    exact this ▸ h1
  · obtain rfl := Except.ok.inj h
    obtain ⟨z, h1, h2⟩ := BigInt.xor_spec ha hb (by omega) (by omega)
    have : z = Int.xor x y := ibit_ext fun k => by rw [h2, ← ibit_testBit, ← ibit_testBit, ← ibit_testBit, Int.testBit_lxor]
    exact this ▸ h1

theorem BinOp.apply_throw {op : BinOp} {a b : BigInt} {x y : Int} {e : Exn} (ha : a.Denotes x) (hb : b.Denotes y) (hx : InRange x)
    (h : op.meaning x y = .error e) : op.apply a b = .throw e := by
  have la := hx.length ha
  cases op <;> unfold BinOp.meaning at h <;> unfold BinOp.apply <;> dsimp only at h ⊢
  all_goals first | (exfalso; cases h) | skip
  · by_cases h0 : y = 0
    · rw [if_pos h0] at h; rw [← Except.error.inj h]; subst h0; exact BigInt.div_zero_spec ha hb (by omega)
    · rw [if_neg h0] at h; cases h
  · by_cases h0 : y = 0
    · rw [if_pos h0] at h; rw [← Except.error.inj h]; subst h0; exact BigInt.rem_zero_spec ha hb (by omega)
    · rw [if_neg h0] at h; cases h

theorem UnOp.apply_ok {op : UnOp} {a : BigInt} {x : Int} (ha : a.Denotes x) (hx : InRange x) : Returns (op.apply a) (op.meaning x) := by
  have la := hx.length ha
  cases op <;> unfold UnOp.meaning <;> unfold UnOp.apply <;> dsimp only
  · exact returns_ok ha
  · exact BigInt.neg_spec ha
  · exact BigInt.plus_spec ha
  · obtain ⟨b, h1, h2⟩ := BigInt.add_spec ha denotes_one (by omega) (by decide)
    obtain ⟨c, h3, h4⟩ := BigInt.neg_spec h2
    refine ⟨c, ?_, ?_⟩
    · unfold BigInt.compl; rw [h1, Res.ok_bind, h3]
    · rwa [show -(x + 1) = -x - 1 by ring] at h4
  · exact BigInt.abs_spec ha (by omega)

theorem pow_size {K : Nat} {a : BigInt} {x : Int} (ha : a.Denotes x) {n : Nat} (h2 : 2 ≤ x.natAbs)
    (h : (x ^ n).natAbs < 2 ^ (32 * K)) : n * Max.max 1 a.bits.length < Max.max (32 * K) (2 * K) := by
  rw [Int.natAbs_pow] at h
  by_cases hw : a.bits.length ≤ 1
  · rw [Nat.max_eq_left hw, Nat.mul_one]
    have h3 : 2 ^ n ≤ x.natAbs ^ n := Nat.pow_le_pow_left h2 n
    have := (Nat.pow_lt_pow_iff_right (a := 2) (by decide)).1 (lt_of_le_of_lt h3 h)
    omega
  · rw [Nat.max_eq_right (by omega)]
    have h4 : 2 ^ (32 * (a.bits.length - 1)) ≤ x.natAbs := by
      by_contra hc
      have := ha.length_le_of_lt (k := a.bits.length - 1) (by omega)
      omega
    have h5 : (2 ^ (32 * (a.bits.length - 1))) ^ n ≤ x.natAbs ^ n := Nat.pow_le_pow_left h4 n
    rw [← pow_mul] at h5
    have h6 := (Nat.pow_lt_pow_iff_right (a := 2) (by decide)).1 (lt_of_le_of_lt h5 h)
    obtain ⟨w, hw'⟩ : ∃ w, a.bits.length = w + 2 := ⟨a.bits.length - 2, by omega⟩
    rw [hw'] at h6 ⊢
    rw [show w + 2 - 1 = w + 1 by omega] at h6
    have h7 : n * (w + 2) ≤ 2 * ((w + 1) * n) := by nlinarith
    have h8 : 32 * (w + 1) * n = 32 * ((w + 1) * n) := by ring
    rw [h8] at h6
    generalize (w + 1) * n = A at *
    omega

theorem pow_in_range {a : BigInt} {x : Int} (ha : a.Denotes x) (hx : InRange x) {n : Nat} (hn : n < 2147483648) (h : InRange (x ^ n)) :
    Returns (a.pow n) (x ^ n) := by
  have la := hx.length ha
  have h1 := BigInt.pow_spec ha (by omega) hn
  rwa [if_pos] at h1
  by_cases h2 : x.natAbs ≤ 1
  · exact .inl (.inr h2)
  · right
    have := pow_size ha (n := n) (by omega) h
    omega

theorem divRemAt_zero {σ : Store} {i j k : Nat} {x : Int} (ha : (σ i).Denotes x) (hb : (σ j).Denotes 0)
    (hl : (σ i).bits.length < 2147483648) : divRemAt i j k σ = (.throw .divideByZero, σ) := by
  unfold divRemAt
  rw [Cmd.read_bind, Cmd.read_bind, ha.assertValid, hb.assertValid, Cmd.lift_ok_bind, Cmd.lift_ok_bind, hb.unique denotes_zero]
  generalize σ i = a at *
  rcases ha.shape with ⟨rfl, h1, h2⟩ | ⟨s, xs, rfl, hs1, hne1, hw1, ht1, hv1, rfl⟩
  · rfl
  · have h3 : divideWordRem xs 0 = .throw .divideByZero := by
      simp [divideWordRem, cassert_pos hne1, sizeInt_ok hl, divWordLoop_zero hne1]
    dsimp only
    rw [if_neg (fun h => hne1 h.1), if_neg hne1, if_pos (by rfl), show cabs zeroInt.sign = .ok 0 by rfl, Cmd.lift_ok_bind, h3]
    rfl

theorem shl_in_range {a : BigInt} {x : Int} (ha : a.Denotes x) (hx : InRange x) {n : Int} (h1 : IntRange n)
    (h2 : n < 0 → ¬ ShiftMisfires x (-n).toNat) : Returns (a.shl n) (shiftInt x n) := by
  have la := hx.length ha
  obtain ⟨h3, h4⟩ := h1
  unfold shiftInt
  by_cases hn : 0 ≤ n
  · rw [if_pos hn]; exact BigInt.shl_pos ha hn (by omega)
  · rw [if_neg hn]; exact BigInt.shl_neg ha (by omega) (by omega) (fun _ => by omega) (fun _ => h2 (by omega))

theorem shr_in_range {a : BigInt} {x : Int} (ha : a.Denotes x) (hx : InRange x) {n : Int} (h1 : IntRange n)
    (h2 : 0 < n → ¬ ShiftMisfires x n.toNat) : Returns (a.shr n) (shiftInt x (-n)) := by
  have la := hx.length ha
  obtain ⟨h3, h4⟩ := h1
  unfold shiftInt
  by_cases hn : 0 < n
  · rw [if_neg (by omega), neg_neg]; exact BigInt.shr_pos ha (by omega) (by omega) (fun _ => by omega) (h2 hn)
  · rw [if_pos (by omega)]
    by_cases h0 : n = 0
    · subst h0; unfold BigInt.shr; rw [if_pos rfl]; simpa using returns_ok ha
    · exact BigInt.shr_neg ha (by omega) (by omega)

/-! ### statements -/

theorem write_returns {σ : Store} {ρ : IntStore} (h : σ.Shows ρ) {m : Res BigInt} {z : Int} (hm : Returns m z) (i : Nat) :
    ∃ σ', (do Cmd.write i (← Cmd.lift m) : Cmd Unit) σ = (.ok (), σ') ∧ σ'.Shows (ρ.set i z) := by
  obtain ⟨b, rfl, hb⟩ := hm
  exact ⟨σ.set i b, rfl, h.set hb⟩

theorem write_throws {σ : Store} {m : Res BigInt} {e : Exn} (hm : m = .throw e) (i : Nat) :
    (do Cmd.write i (← Cmd.lift m) : Cmd Unit) σ = (.throw e, σ) := by subst hm; rfl

theorem movedFrom_denotes {a : BigInt} {x : Int} (ha : a.Denotes x) : a.movedFrom.Denotes (leftBehind x) := by
  unfold BigInt.movedFrom leftBehind
  rw [Int.abs_eq_natAbs]
  rcases ha.shape with ⟨rfl, h1, h2⟩ | ⟨s, ws, rfl, hs, hne, hw, ht, hv, rfl⟩
  · rw [if_pos (by omega)]; exact BigInt.denotes_small h1 h2
  · rcases hs with rfl | rfl
    · rw [if_neg (by omega), Int.sign_eq_one_of_pos (by omega)]; exact BigInt.denotes_small (by dsimp only; omega) (by dsimp only; omega)
    · rw [if_neg (by omega), Int.sign_eq_neg_one_of_neg (by omega)]; exact BigInt.denotes_small (by dsimp only; omega) (by dsimp only; omega)

theorem move_exec {σ : Store} {ρ : IntStore} (h : σ.Shows ρ) (x y : Nat) :
    ∃ σ', (Stmt.move x y).exec σ = (.ok (), σ') ∧ σ'.Shows ((ρ.set x (ρ y)).set y (leftBehind (ρ y))) :=
  ⟨_, rfl, (h.set (h y)).set (movedFrom_denotes (h y))⟩

theorem swap_exec {σ : Store} {ρ : IntStore} (h : σ.Shows ρ) (x y : Nat) :
    ∃ σ', (Stmt.swap x y).exec σ = (.ok (), σ') ∧ σ'.Shows ((ρ.set x (ρ y)).set y (ρ x)) := by
  refine ⟨_, rfl, fun j => ?_⟩
  unfold Store.set IntStore.set
  by_cases hj : j = y
  · rw [if_pos hj, if_pos hj]; exact h x
  · rw [if_neg hj, if_neg hj, if_neg hj]
    by_cases hx : j = x
    · rw [if_pos hx, if_pos hx, if_neg (fun e => hj (hx.trans e.symm))]; exact h y
    · rw [if_neg hx, if_neg hx, if_neg hx]; exact h j

theorem postInc_exec {σ : Store} {ρ : IntStore} (h : σ.Shows ρ) {z x : Nat} (hr : InRange (ρ x)) :
    ∃ σ', (Stmt.postInc z x).exec σ = (.ok (), σ') ∧ σ'.Shows ((ρ.set x (ρ x + 1)).set z (ρ x + 1)) := by
  have la := hr.length (h x)
  obtain ⟨r, h1, h2⟩ := BigInt.add_spec (h x) denotes_one (by omega) (by decide)
  refine ⟨_, ?_, (h.set (i := x) h2).set (i := z) h2⟩
  unfold Stmt.exec
  dsimp only
  rw [Cmd.read_bind, show (σ x).postInc = .ok (r, r) by unfold BigInt.postInc BigInt.inc; rw [h1]; rfl]
  rfl

theorem postDec_exec {σ : Store} {ρ : IntStore} (h : σ.Shows ρ) {z x : Nat} (hr : InRange (ρ x)) :
    ∃ σ', (Stmt.postDec z x).exec σ = (.ok (), σ') ∧ σ'.Shows ((ρ.set x (ρ x - 1)).set z (ρ x - 1)) := by
  have la := hr.length (h x)
  obtain ⟨r, h1, h2⟩ := BigInt.sub_spec (h x) denotes_one (by omega) (by decide)
  refine ⟨_, ?_, (h.set (i := x) h2).set (i := z) h2⟩
  unfold Stmt.exec
  dsimp only
  rw [Cmd.read_bind, show (σ x).postDec = .ok (r, r) by unfold BigInt.postDec BigInt.dec; rw [h1]; rfl]
  rfl

theorem Except.map_ok {α β : Type} {r : Except Exn α} {f : α → β} {b : β} (h : r.map f = .ok b) : ∃ a, r = .ok a ∧ f a = b := by
  cases r with
  | ok a => exact ⟨a, rfl, Except.ok.inj h⟩
  | error e => cases h

theorem Except.map_error {α β : Type} {r : Except Exn α} {f : α → β} {e : Exn} (h : r.map f = .error e) : r = .error e := by
  cases r with
  | ok a => cases h
  | error e' => rw [Except.error.inj h]

theorem Stmt.exec_ok {s : Stmt} {σ : Store} {ρ ρ' : IntStore} (hσ : σ.Shows ρ) (hr : ∀ i, InRange (ρ i)) (hs : s.Safe ρ)
    (hm : s.meaning ρ = .ok ρ') (hr' : ∀ i, InRange (ρ' i)) : ∃ σ', s.exec σ = (.ok (), σ') ∧ σ'.Shows ρ' := by
  cases s <;> unfold Stmt.meaning at hm <;> unfold Stmt.Safe at hs <;> unfold Stmt.exec <;> dsimp only at hm hs ⊢ <;>
    try simp only [Cmd.read_bind]
  case const x n =>
    obtain rfl := Except.ok.inj hm
    exact write_returns hσ (ofInt32_spec hs.1 (by have := hs.2; omega)) x
  case update op x y =>
    obtain ⟨z, h1, rfl⟩ := Except.map_ok hm
    exact write_returns hσ (op.apply_ok (hσ x) (hσ y) (hr x) (hr y) h1) x
  case binary op z x y =>
    obtain ⟨v, h1, rfl⟩ := Except.map_ok hm
    exact write_returns hσ (op.apply_ok (hσ x) (hσ y) (hr x) (hr y) h1) z
  case unary op z x =>
    obtain rfl := Except.ok.inj hm
    exact write_returns hσ (op.apply_ok (hσ x) (hr x)) z
  case shl x n =>
    obtain rfl := Except.ok.inj hm
    exact write_returns hσ (shl_in_range (hσ x) (hr x) hs.1 hs.2) x
  case shr x n =>
    obtain rfl := Except.ok.inj hm
    exact write_returns hσ (shr_in_range (hσ x) (hr x) hs.1 hs.2) x
  case inc x =>
    obtain rfl := Except.ok.inj hm
    have la := (hr x).length (hσ x)
    exact write_returns hσ (BigInt.add_spec (hσ x) denotes_one (by omega) (by decide)) x
  case dec x =>
    obtain rfl := Except.ok.inj hm
    have la := (hr x).length (hσ x)
    exact write_returns hσ (BigInt.sub_spec (hσ x) denotes_one (by omega) (by decide)) x
  case pow z x n =>
    by_cases hn : n < 0
    · rw [if_pos hn] at hm; cases hm
    rw [if_neg hn] at hm
    obtain rfl := Except.ok.inj hm
    obtain ⟨m, rfl⟩ := Int.eq_ofNat_of_zero_le (not_lt.1 hn)
    have h1 := hr' z
    unfold IntStore.set at h1
    rw [if_pos rfl, Int.toNat_natCast] at h1
    have h2 := hs.2
    rw [Int.toNat_natCast]
    exact write_returns hσ (pow_in_range (hσ x) (hr x) (by omega) h1) z
  case divRem z x y r =>
    by_cases h0 : ρ y = 0
    · rw [if_pos h0] at hm; cases hm
    rw [if_neg h0] at hm
    obtain rfl := Except.ok.inj hm
    obtain ⟨h1, h2, h3⟩ := hs
    have la := (hr x).length (hσ x)
    obtain ⟨q, r', h4, h5, h6⟩ := divRemAt_distinct (k := r) (hσ x) (hσ y) h0 (by omega) (Ne.symm h1) (Ne.symm h2)
    rw [if_neg h3] at h6
    rw [Cmd.bind_ok h4]
    exact ⟨_, rfl, (hσ.set h6).set h5⟩
  case long x n =>
    obtain rfl := Except.ok.inj hm
    obtain ⟨⟨h1, h2⟩, h3⟩ := hs
    exact write_returns hσ (ofInt64_spec (by omega) h2) x
  case ulong x n =>
    obtain rfl := Except.ok.inj hm
    exact write_returns hσ (ofUInt64_spec hs) x
  case parse x s =>
    obtain rfl := Except.ok.inj hm
    exact write_returns hσ (BigInt.parse_spec s hs) x
  case move x y =>
    obtain rfl := Except.ok.inj hm
    exact move_exec hσ x y
  case swap x y =>
    obtain rfl := Except.ok.inj hm
    exact swap_exec hσ x y

theorem Stmt.exec_throw {s : Stmt} {σ : Store} {ρ : IntStore} {e : Exn} (hσ : σ.Shows ρ) (hr : ∀ i, InRange (ρ i))
    (hm : s.meaning ρ = .error e) : s.exec σ = (.throw e, σ) := by
  cases s <;> unfold Stmt.meaning at hm <;> unfold Stmt.exec <;> dsimp only at hm ⊢ <;>
    try simp only [Cmd.read_bind]
  all_goals first | (exfalso; cases hm) | skip
  case update op x y => exact write_throws (op.apply_throw (hσ x) (hσ y) (hr x) (Except.map_error hm)) x
  case binary op z x y => exact write_throws (op.apply_throw (hσ x) (hσ y) (hr x) (Except.map_error hm)) z
  case pow z x n =>
    by_cases hn : n < 0
    · rw [if_pos hn] at hm
      rw [← Except.error.inj hm]
      exact write_throws (by unfold BigInt.pow; rw [if_pos hn]) z
    · rw [if_neg hn] at hm; cases hm
  case divRem z x y r =>
    by_cases h0 : ρ y = 0
    · rw [if_pos h0] at hm
      rw [← Except.error.inj hm]
      have la := (hr x).length (hσ x)
      exact Cmd.bind_throw (divRemAt_zero (hσ x) (h0 ▸ hσ y) (by omega))
    · rw [if_neg h0] at hm; cases hm

/-! ### programs -/

open Classical in
theorem Cond.test_eq {σ : Store} {ρ : IntStore} (hσ : σ.Shows ρ) (hr : ∀ i, InRange (ρ i)) (c : Cond) :
    c.test σ = .ok (decide (c.Holds ρ)) := by
  induction c with
  | rel op x y =>
    have la := (hr x).length (hσ x)
    have lb := (hr y).length (hσ y)
    cases op
    · refine (BigInt.lt_spec (hσ x) (hσ y) (by omega) (by omega)).trans (congrArg Res.ok (decide_eq_decide.2 Iff.rfl))
    · refine (BigInt.le_spec (hσ x) (hσ y) (by omega) (by omega)).trans (congrArg Res.ok (decide_eq_decide.2 Iff.rfl))
    · refine (BigInt.gt_spec (hσ x) (hσ y) (by omega) (by omega)).trans (congrArg Res.ok (decide_eq_decide.2 Iff.rfl))
    · refine (BigInt.ge_spec (hσ x) (hσ y) (by omega) (by omega)).trans (congrArg Res.ok (decide_eq_decide.2 Iff.rfl))
    · refine (BigInt.equals_spec (hσ x) (hσ y)).trans (congrArg Res.ok (decide_eq_decide.2 Iff.rfl))
    · refine (BigInt.ne_spec (hσ x) (hσ y)).trans (congrArg Res.ok (decide_eq_decide.2 Iff.rfl))
  | isZero x => exact (BigInt.isZero_spec (hσ x)).trans (congrArg Res.ok (decide_eq_decide.2 Iff.rfl))
  | isOne x => exact (BigInt.isOne_spec (hσ x)).trans (congrArg Res.ok (decide_eq_decide.2 Iff.rfl))
  | isEven x => exact (BigInt.isEven_spec (hσ x)).trans (congrArg Res.ok (decide_eq_decide.2 Int.dvd_iff_emod_eq_zero.symm))
  | isPowerOfTwo x =>
    obtain ⟨r, h1, h2⟩ := BigInt.isPowerOfTwo_spec (hσ x)
    refine h1.trans (congrArg Res.ok ?_)
    rw [Bool.eq_iff_iff, decide_eq_true_iff]
    exact h2
  | not c ih => rw [test, ih, Res.ok_bind, Holds]; simp
  | and c d ih1 ih2 =>
    rw [test, ih1, Res.ok_bind, ih2, Holds]
    by_cases h : c.Holds ρ <;> simp [h]
  | or c d ih1 ih2 =>
    rw [test, ih1, Res.ok_bind, ih2, Holds]
    by_cases h : c.Holds ρ <;> simp [h]

theorem Runs.exec {p : Prog} {ρ ρ' : IntStore} {o : Option Exn} (h : Runs p ρ o ρ') : ∀ {σ : Store}, σ.Shows ρ →
    ∃ n σ', σ'.Shows ρ' ∧ ∀ fuel, n ≤ fuel → p.exec fuel σ = (endsWith o, σ') := by
  have up : ∀ {n fuel : Nat}, n + 1 ≤ fuel → ∃ f, fuel = f + 1 ∧ n ≤ f := fun {n fuel} h => ⟨fuel - 1, by omega, by omega⟩
  induction h with
  | skip ρ =>
    intro σ hσ
    refine ⟨1, σ, hσ, fun fuel hf => ?_⟩
    obtain ⟨f, rfl, hf⟩ := up hf
    rfl
  | stmt s ρ ρ' hr hs hm hr' =>
    intro σ hσ
    obtain ⟨σ', h1, h2⟩ := Stmt.exec_ok hσ hr hs hm hr'
    refine ⟨1, σ', h2, fun fuel hf => ?_⟩
    obtain ⟨f, rfl, hf⟩ := up hf
    exact h1
  | stmtThrow s ρ e hr hs hm =>
    intro σ hσ
    refine ⟨1, σ, hσ, fun fuel hf => ?_⟩
    obtain ⟨f, rfl, hf⟩ := up hf
    exact Stmt.exec_throw hσ hr hm
  | seq p q ρ ρ' ρ'' o _ _ ih1 ih2 =>
    intro σ hσ
    obtain ⟨n, σ', h1, h2⟩ := ih1 hσ
    obtain ⟨m, σ'', h3, h4⟩ := ih2 h1
    refine ⟨Max.max n m + 1, σ'', h3, fun fuel hf => ?_⟩
    obtain ⟨f, rfl, hf⟩ := up hf
    rw [Prog.exec, Cmd.bind_ok (h2 f (by omega))]
    exact h4 f (by omega)
  | seqThrow p q ρ ρ' e _ ih =>
    intro σ hσ
    obtain ⟨n, σ', h1, h2⟩ := ih hσ
    refine ⟨n + 1, σ', h1, fun fuel hf => ?_⟩
    obtain ⟨f, rfl, hf⟩ := up hf
    rw [Prog.exec]
    exact Cmd.bind_throw (h2 f (by omega))
  | ifTrue c p q ρ ρ' o hr hlt _ ih =>
    intro σ hσ
    obtain ⟨n, σ', h1, h2⟩ := ih hσ
    refine ⟨n + 1, σ', h1, fun fuel hf => ?_⟩
    obtain ⟨f, rfl, hf⟩ := up hf
    rw [Prog.exec, Cmd.ask_bind, Cond.test_eq hσ hr, Cmd.lift_ok_bind, if_pos (by simpa using hlt)]
    exact h2 f (by omega)
  | ifFalse c p q ρ ρ' o hr hlt _ ih =>
    intro σ hσ
    obtain ⟨n, σ', h1, h2⟩ := ih hσ
    refine ⟨n + 1, σ', h1, fun fuel hf => ?_⟩
    obtain ⟨f, rfl, hf⟩ := up hf
    rw [Prog.exec, Cmd.ask_bind, Cond.test_eq hσ hr, Cmd.lift_ok_bind, if_neg (by simpa using hlt)]
    exact h2 f (by omega)
  | whileTrue c p ρ ρ' ρ'' o hr hlt _ _ ih1 ih2 =>
    intro σ hσ
    obtain ⟨n, σ', h1, h2⟩ := ih1 hσ
    obtain ⟨m, σ'', h3, h4⟩ := ih2 h1
    refine ⟨Max.max n m + 1, σ'', h3, fun fuel hf => ?_⟩
    obtain ⟨f, rfl, hf⟩ := up hf
    rw [Prog.exec, Cmd.ask_bind, Cond.test_eq hσ hr, Cmd.lift_ok_bind, if_pos (by simpa using hlt), Cmd.bind_ok (h2 f (by omega))]
    exact h4 f (by omega)
  | whileThrow c p ρ ρ' e hr hlt _ ih =>
    intro σ hσ
    obtain ⟨n, σ', h1, h2⟩ := ih hσ
    refine ⟨n + 1, σ', h1, fun fuel hf => ?_⟩
    obtain ⟨f, rfl, hf⟩ := up hf
    rw [Prog.exec, Cmd.ask_bind, Cond.test_eq hσ hr, Cmd.lift_ok_bind, if_pos (by simpa using hlt)]
    exact Cmd.bind_throw (h2 f (by omega))
  | whileFalse c p ρ hr hlt =>
    intro σ hσ
    refine ⟨1, σ, hσ, fun fuel hf => ?_⟩
    obtain ⟨f, rfl, hf⟩ := up hf
    rw [Prog.exec, Cmd.ask_bind, Cond.test_eq hσ hr, Cmd.lift_ok_bind, if_neg (by simpa using hlt)]
    rfl
  | attempt p ρ ρ' o _ ih =>
    intro σ hσ
    obtain ⟨n, σ', h1, h2⟩ := ih hσ
    refine ⟨n + 1, σ', h1, fun fuel hf => ?_⟩
    obtain ⟨f, rfl, hf⟩ := up hf
    rw [Prog.exec]
    dsimp only
    rw [h2 f (by omega)]
    cases o <;> rfl

theorem inRange_small {z : Int} (h : z.natAbs < 2 ^ 64) : InRange z :=
  lt_of_lt_of_le h (Nat.pow_le_pow_right (by decide) (by decide))

/-! ### a statement that throws has no effect -/

theorem checked_not_throw (b : BigInt) (e : Exn) : checked b ≠ .throw e := by
  have hc : ∀ (c : Prop) [Decidable c], cassert c = .ok () ∨ cassert c = .abort := by
    intro c _
    unfold cassert
    split_ifs <;> simp
  unfold checked assertValid
  split_ifs
  · rcases hc (b.sign = 1 ∨ b.sign = -1) with h | h
    · rw [h, Res.ok_bind]
      rcases hc (b.bits.length > 1 ∨ b.bits.headD 0 ≥ 2147483648) with h | h
      · rw [h, Res.ok_bind]
        rcases hc (b.bits.getLast?.getD 0 ≠ 0) with h | h <;> rw [h] <;> exact nofun
      · rw [h]; exact nofun
    · rw [h]; exact nofun
  · rcases hc (b.sign > -2147483648) with h | h <;> rw [h] <;> exact nofun

theorem ofMagnitude_not_throw (ws : List Nat) (n : Bool) (e : Exn) : ofMagnitude ws n ≠ .throw e := by
  unfold ofMagnitude sizeInt
  by_cases h : ws.length < 2147483648
  · rw [if_pos h]; exact checked_not_throw _ e
  · rw [if_neg h]; exact nofun

theorem ofInt32_not_throw (z : Int) (e : Exn) : ofInt32 z ≠ .throw e := by
  unfold ofInt32
  split_ifs <;> exact checked_not_throw _ e

theorem int_not_throw (z : Int) (e : Exn) : int z ≠ .throw e := by
  unfold int
  split_ifs <;> simp

/-- A command whose exceptions leave the store as it was. -/
def Cmd.Clean {α : Type} (m : Cmd α) : Prop := ∀ σ e σ', m σ = (.throw e, σ') → σ' = σ
/-- A command that does not throw. -/
def Cmd.Quiet {α : Type} (m : Cmd α) : Prop := ∀ σ e σ', m σ ≠ (.throw e, σ')

namespace Cmd
variable {α β : Type}
theorem lift_clean (r : Res α) : Clean (lift r) := fun _ _ _ h => by
  have := congrArg Prod.snd h; exact this.symm
theorem lift_quiet {r : Res α} (h : ∀ e, r ≠ .throw e) : Quiet (lift r) := fun _ e _ h' => h e (congrArg Prod.fst h')
theorem write_quiet (i : Nat) (v : BigInt) : Quiet (write i v) := fun _ _ _ h => by cases congrArg Prod.fst h
theorem pure_quiet (a : α) : Quiet (pure a : Cmd α) := fun _ _ _ h => by cases congrArg Prod.fst h
theorem Quiet.clean {m : Cmd α} (h : Quiet m) : Clean m := fun σ e σ' h' => absurd h' (h σ e σ')
theorem bind_quiet {m : Cmd α} {f : α → Cmd β} (h1 : Quiet m) (h2 : ∀ a, Quiet (f a)) : Quiet (m >>= f) := by
  intro σ e σ' h
  rw [bind_eq, Cmd.bind] at h
  split at h
  · exact h2 _ _ _ _ h
  · rename_i heq; exact h1 _ _ _ heq
  all_goals cases congrArg Prod.fst h
/-- Reads may be followed by clean code. -/
theorem lift_bind_clean {r : Res α} {f : α → Cmd β} (h : ∀ a, Clean (f a)) : Clean (lift r >>= f) := by
  intro σ e σ' h'
  rw [bind_eq, Cmd.bind, lift] at h'
  split at h'
  · rename_i heq
    have := congrArg Prod.snd heq
    dsimp only at this
    subst this
    exact h _ _ _ _ h'
  · rename_i heq
    have h1 := congrArg Prod.snd heq
    have h2 := congrArg Prod.snd h'
    dsimp only at h1 h2
    rw [← h2, ← h1]
  all_goals cases congrArg Prod.fst h'
theorem read_bind_clean {i : Nat} {f : BigInt → Cmd β} (h : ∀ a, Clean (f a)) : Clean (read i >>= f) :=
  fun σ e σ' h' => h _ σ e σ' h'
theorem read_bind_quiet {i : Nat} {f : BigInt → Cmd β} (h : ∀ a, Quiet (f a)) : Quiet (read i >>= f) :=
  fun σ e σ' h' => h _ σ e σ' h'
/-- Clean code may be followed by code that does not throw. -/
theorem bind_clean {m : Cmd α} {f : α → Cmd β} (h1 : Clean m) (h2 : ∀ a, Quiet (f a)) : Clean (m >>= f) := by
  intro σ e σ' h
  rw [bind_eq, Cmd.bind] at h
  split at h
  · exact absurd h (h2 _ _ _ _)
  · rename_i heq
    have e1 := congrArg Prod.snd h
    dsimp only at e1
    rw [← e1]
    exact h1 _ _ _ heq
  all_goals cases congrArg Prod.fst h
end Cmd

theorem divRemAt_clean (i j k : Nat) : (divRemAt i j k).Clean := by
  have q1 : ∀ (bits : List Nat), Cmd.Quiet (do
      let a ← Cmd.read i
      let b ← Cmd.read j
      Cmd.lift (ofMagnitude bits (BigInt.signXor a b)) : Cmd BigInt) := fun bits =>
    Cmd.read_bind_quiet fun a => Cmd.read_bind_quiet fun b => Cmd.lift_quiet (ofMagnitude_not_throw _ _)
  unfold divRemAt
  refine Cmd.read_bind_clean fun a => Cmd.read_bind_clean fun b => Cmd.lift_bind_clean fun _ => Cmd.lift_bind_clean fun _ => ?_
  by_cases h1 : a.bits = [] ∧ b.bits = []
  · rw [if_pos h1]
    by_cases h2 : b.sign = 0
    · rw [if_pos h2]; exact Cmd.lift_clean _
    · rw [if_neg h2]
      refine Cmd.lift_bind_clean fun _ => Cmd.lift_bind_clean fun r => (Cmd.bind_quiet (Cmd.write_quiet _ _) fun _ =>
        Cmd.read_bind_quiet fun a => Cmd.read_bind_quiet fun b => ?_).clean
      by_cases h3 : b.sign = 0
      · rw [if_pos h3]; exact Cmd.lift_quiet (by simp)
      · rw [if_neg h3]
        exact Cmd.bind_quiet (Cmd.lift_quiet (int_not_throw _)) fun _ => Cmd.lift_quiet (ofInt32_not_throw _)
  · rw [if_neg h1]
    by_cases h2 : a.bits = []
    · rw [if_pos h2]; exact (Cmd.bind_quiet (Cmd.write_quiet _ _) fun _ => Cmd.pure_quiet _).clean
    · rw [if_neg h2]
      by_cases h3 : b.bits = []
      · rw [if_pos h3]
        refine Cmd.lift_bind_clean fun _ => Cmd.lift_bind_clean fun p => ?_
        exact Cmd.lift_bind_clean fun r => (Cmd.bind_quiet (Cmd.write_quiet _ _) fun _ => q1 _).clean
      · rw [if_neg h3]
        by_cases h4 : a.bits.length < b.bits.length
        · rw [if_pos h4]; exact (Cmd.bind_quiet (Cmd.write_quiet _ _) fun _ => Cmd.pure_quiet _).clean
        · rw [if_neg h4]
          refine Cmd.lift_bind_clean fun p => ?_
          exact Cmd.lift_bind_clean fun r => (Cmd.bind_quiet (Cmd.write_quiet _ _) fun _ => q1 _).clean

theorem Stmt.exec_clean (s : Stmt) : s.exec.Clean := by
  have w : ∀ (r : Res BigInt) (i : Nat), Cmd.Clean (do Cmd.write i (← Cmd.lift r) : Cmd Unit) := fun r i =>
    Cmd.lift_bind_clean fun v => (Cmd.write_quiet i v).clean
  cases s <;> unfold Stmt.exec <;> dsimp only
  case divRem z x y r => exact Cmd.bind_clean (divRemAt_clean x y r) fun v => Cmd.write_quiet z v
  case move x y => exact Cmd.read_bind_clean fun v => (Cmd.bind_quiet (Cmd.write_quiet _ _) fun _ => Cmd.write_quiet _ _).clean
  case swap x y =>
    exact Cmd.read_bind_clean fun t => (Cmd.bind_quiet (Cmd.write_quiet _ _) fun _ => Cmd.read_bind_quiet fun v =>
      Cmd.bind_quiet (Cmd.write_quiet _ _) fun _ => Cmd.bind_quiet (Cmd.write_quiet _ _) fun _ => Cmd.write_quiet _ _).clean
  case postInc z x =>
    exact Cmd.read_bind_clean fun a => Cmd.lift_bind_clean fun p => (Cmd.bind_quiet (Cmd.write_quiet _ _) fun _ => Cmd.write_quiet _ _).clean
  case postDec z x =>
    exact Cmd.read_bind_clean fun a => Cmd.lift_bind_clean fun p => (Cmd.bind_quiet (Cmd.write_quiet _ _) fun _ => Cmd.write_quiet _ _).clean
  all_goals first
    | exact w _ _
    | exact Cmd.read_bind_clean fun a => w _ _
    | exact Cmd.read_bind_clean fun a => Cmd.read_bind_clean fun b => w _ _

/-- The bound on the depth of an execution does not matter once it is large enough. -/
theorem Prog.exec_mono : ∀ (n : Nat) (p : Prog) (σ σ' : Store) (r : Res Unit), p.exec n σ = (r, σ') → r ≠ .diverge →
    ∀ m, n ≤ m → p.exec m σ = (r, σ') := by
  have bindc : ∀ {m : Cmd Unit} {f : Unit → Cmd Unit} {σ σ' : Store} {r : Res Unit}, (m >>= f) σ = (r, σ') → r ≠ .diverge →
      (∃ σ1, m σ = (.ok (), σ1) ∧ f () σ1 = (r, σ')) ∨ (m σ = (r, σ') ∧ ∀ u, r ≠ .ok u) := by
    intro m f σ σ' r h hr
    rw [Cmd.bind_eq, Cmd.bind] at h
    split at h
    · rename_i u σ1 heq; exact .inl ⟨σ1, heq, h⟩
    · rename_i heq; right; rw [heq, ← h]; exact ⟨rfl, fun u h' => by have := congrArg Prod.fst h; rw [h'] at this; cases this⟩
    · rename_i heq; right; rw [heq, ← h]; exact ⟨rfl, fun u h' => by have := congrArg Prod.fst h; rw [h'] at this; cases this⟩
    · rename_i heq; right; rw [heq, ← h]; exact ⟨rfl, fun u h' => by have := congrArg Prod.fst h; rw [h'] at this; cases this⟩
    · rename_i heq; exact absurd (congrArg Prod.fst h).symm hr
  have bind2 : ∀ {m m' : Cmd Unit} {f f' : Unit → Cmd Unit} {σ σ' : Store} {r : Res Unit}, (m >>= f) σ = (r, σ') → r ≠ .diverge →
      (∀ σ σ' r, m σ = (r, σ') → r ≠ .diverge → m' σ = (r, σ')) →
      (∀ σ σ' r, f () σ = (r, σ') → r ≠ .diverge → f' () σ = (r, σ')) → (m' >>= f') σ = (r, σ') := by
    intro m m' f f' σ σ' r h hr h1 h2
    rcases bindc h hr with ⟨σ1, h3, h4⟩ | ⟨h3, h4⟩
    · rw [Cmd.bind_ok (h1 _ _ _ h3 (by simp))]; exact h2 _ _ _ h4 hr
    · have h5 := h1 _ _ _ h3 hr
      rw [Cmd.bind_eq, Cmd.bind, h5]
      cases r with
      | ok u => exact absurd rfl (h4 u)
      | diverge => exact absurd rfl hr
      | _ => rfl
  intro n
  induction n with
  | zero => intro p σ σ' r h hr; rw [Prog.exec] at h; exact absurd (congrArg Prod.fst h).symm hr
  | succ n ih =>
    intro p σ σ' r h hr m hm
    obtain ⟨m, rfl⟩ : ∃ m', m = m' + 1 := ⟨m - 1, by omega⟩
    have ih' : ∀ p σ σ' r, Prog.exec n p σ = (r, σ') → r ≠ .diverge → Prog.exec m p σ = (r, σ') :=
      fun p σ σ' r h hr => ih p σ σ' r h hr m (by omega)
    cases p with
    | skip => exact h
    | stmt s => exact h
    | seq p q =>
      rw [Prog.exec] at h ⊢
      exact bind2 h hr (ih' p) (ih' q)
    | ifThen c p q =>
      rw [Prog.exec, Cmd.ask_bind] at h ⊢
      cases hc : c.test σ with
      | ok b =>
        rw [hc, Cmd.lift_ok_bind] at h
        rw [Cmd.lift_ok_bind]
        by_cases hb : b = true
        · rw [if_pos hb] at h ⊢; exact ih' _ _ _ _ h hr
        · rw [if_neg hb] at h ⊢; exact ih' _ _ _ _ h hr
      | _ => rw [hc] at h; exact h
    | whileDo c p =>
      rw [Prog.exec, Cmd.ask_bind] at h ⊢
      cases hc : c.test σ with
      | ok b =>
        rw [hc, Cmd.lift_ok_bind] at h
        rw [Cmd.lift_ok_bind]
        by_cases hb : b = true
        · rw [if_pos hb] at h ⊢; exact bind2 h hr (ih' p) (ih' _)
        · rw [if_neg hb] at h ⊢; exact h
      | _ => rw [hc] at h; exact h
    | attempt p =>
      rw [Prog.exec] at h ⊢
      dsimp only at h ⊢
      have h0 : Prog.exec n p σ = ((Prog.exec n p σ).1, (Prog.exec n p σ).2) := rfl
      cases hc : (Prog.exec n p σ).1 with
      | diverge =>
        rw [hc] at h0
        rw [h0] at h
        exact absurd (congrArg Prod.fst h).symm hr
      | _ =>
        rw [hc] at h0
        rw [ih' _ _ _ _ h0 (by simp)]
        rw [h0] at h
        exact h

end BigIntegerCpp
