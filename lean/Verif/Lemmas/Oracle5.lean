import Verif.Lemmas.Oracle4
/-
The byte-array arithmetic of tests/MyBigInt.cpp: powers and shifts.
-/
set_option linter.unusedSectionVars false
namespace BigIntegerCpp
variable [Cfg]
namespace Oracle

/-! ### Pow, ModPow -/

/-- What `result` of the loop is: not yet set, or a trimmed array. -/
def Partial (r : List Nat) (e : Nat) (v : Int) : Prop := r = [] ∧ e = 0 ∨ e ≠ 0 ∧ ∃ r0, r = trim r0 ∧ Stands r0 v

theorem powLoop_spec {reduce : List Nat → Res (List Nat)} {ρ : Int → Int} (hred : ∀ bs v, Stands bs v → ∃ r, reduce bs = .ok r ∧ Stands r (ρ v))
    (hρ : ∀ a b, ρ (ρ a * ρ b) = ρ (a * b)) {ba : List Bool} {e : Nat} (he : ∀ i, ba.getD i false = e.testBit i) {x : Int}
    (n i : Nat) {bs res : List Nat} (hb : Stands bs (ρ (x ^ 2 ^ i))) (hr : Partial res (e % 2 ^ i) (ρ (x ^ (e % 2 ^ i)))) :
    ∃ r, powLoop reduce ba n i bs res = .ok r ∧ Partial r (e % 2 ^ (i + n)) (ρ (x ^ (e % 2 ^ (i + n)))) := by
  induction n generalizing i bs res with
  | zero => exact ⟨res, rfl, hr⟩
  | succ n ih =>
    have hmod := mod_two_pow_succ' e i
    have h1 : ∃ b1 r1, (if ba.getD i false = true then do
        let result ← (if res = [] then pure bs else do reduce (← multiply res bs))
        pure (trim bs, trim result)
      else pure (bs, res) : Res (List Nat × List Nat)) = .ok (b1, r1) ∧ Stands b1 (ρ (x ^ 2 ^ i)) ∧
        Partial r1 (e % 2 ^ (i + 1)) (ρ (x ^ (e % 2 ^ (i + 1)))) := by
      rw [he, hmod]
      cases hbit : e.testBit i with
      | false =>
        rw [if_neg (by decide)]
        refine ⟨bs, res, rfl, hb, ?_⟩
        simpa using hr
      | true =>
        rw [if_pos rfl]
        have hpos : 0 < 2 ^ i := by positivity
        rcases hr with ⟨rfl, h0⟩ | ⟨h0, r0, rfl, hr⟩
        · rw [if_pos rfl, h0]
          refine ⟨trim bs, trim bs, rfl, (trim_spec hb).1, .inr ⟨by simp, bs, rfl, ?_⟩⟩
          simpa using hb
        · have hr' := (trim_spec hr).1
          rw [if_neg hr'.ne]
          obtain ⟨m, m1, m2, -⟩ := multiply_spec hr' hb
          obtain ⟨q, q1, q2⟩ := hred m _ m2
          rw [m1, Res.ok_bind, q1, Res.ok_bind]
          refine ⟨trim bs, trim q, rfl, (trim_spec hb).1, .inr ⟨by simp, q, rfl, ?_⟩⟩
          rw [hρ, ← pow_add] at q2
          simpa [add_comm] using q2
    obtain ⟨b1, r1, e1, hb1, hr1⟩ := h1
    unfold powLoop
    rw [e1, Res.ok_bind]
    simp only []
    by_cases hn : n = 0
    · subst hn
      rw [if_neg (by simp)]
      exact ⟨r1, rfl, hr1⟩
    · rw [if_pos hn]
      obtain ⟨m, m1, m2, -⟩ := multiply_spec hb1 hb1
      obtain ⟨q, q1, q2⟩ := hred m _ m2
      rw [hρ, ← pow_add, ← two_mul, ← pow_succ'] at q2
      rw [m1, Res.ok_bind, q1, Res.ok_bind]
      obtain ⟨r, r1, r2⟩ := ih (i + 1) (trim_spec q2).1 hr1
      rw [show i + 1 + n = i + (n + 1) by omega] at r2
      exact ⟨r, r1, r2⟩

theorem pow_spec {as bs : List Nat} {x : Int} {n : Nat} (ha : Stands as x) (hb : Stands bs n) :
    ∃ r0, pow as bs = .ok (trim r0) ∧ Stands r0 (x ^ n) := by
  unfold pow
  rw [isZero_spec hb]
  by_cases h0 : n = 0
  · subst h0
    rw [if_pos (by simp)]
    exact ⟨[1], rfl, by simpa using stands_one⟩
  · rw [if_neg (by simpa using h0)]
    have hv := dv_nonneg hb (by omega)
    have hv : digitsVal 256 bs = n := by omega
    have hbit := bitArray_spec hb.ok
    have ht := (topBit_spec hb.ok).1
    rw [hv] at hbit ht
    obtain ⟨r, r1, r2⟩ := powLoop_spec (reduce := pure) (ρ := id) (fun bs v h => ⟨bs, rfl, h⟩) (fun _ _ => rfl) hbit (x := x)
      (topBit (bitArray bs) + 1) 0 (by simpa using ha) (res := []) (.inl ⟨rfl, by rw [pow_zero, Nat.mod_one]⟩)
    rw [Nat.zero_add, Nat.mod_eq_of_lt ht] at r2
    rcases r2 with ⟨-, h⟩ | ⟨-, r0, rfl, hr⟩
    · exact absurd h h0
    · simp only []
      rw [r1, Res.ok_bind, if_neg (trim_spec hr).1.ne]
      exact ⟨r0, rfl, hr⟩

theorem reduce_spec {cs : List Nat} {z : Int} (hc : Stands cs z) (hz : z ≠ 0) {bs : List Nat} {v : Int} (h : Stands bs v) :
    ∃ r, remainder bs cs = .ok r ∧ Stands r (v.tmod z) := by
  have := abs_bound h
  obtain ⟨r, r1, r2, -⟩ := remainder_spec h hc hz (L := bs.length + 1) (by omega) (by
    rw [pow_succ]
    have : (0 : Int) < 256 ^ bs.length := by positivity
    omega)
  exact ⟨r, r1, r2⟩

theorem modPow_spec {as bs cs : List Nat} {x z : Int} {n : Nat} (ha : Stands as x) (hb : Stands bs n) (hc : Stands cs z) (hz : z ≠ 0)
    {L : Nat} (hL : 1 ≤ L) (hzL : 2 * |z| ≤ 256 ^ L) :
    ∃ r, modPow as bs cs = .ok r ∧ Stands r ((x ^ n).tmod z) ∧ r.length ≤ L + 2 := by
  unfold modPow
  rw [isZero_spec hb]
  by_cases h0 : n = 0
  · subst h0
    rw [if_pos (by simp), pow_zero]
    obtain ⟨r, r1, r2, r3⟩ := remainder_spec stands_one hc hz (le_refl 1) (by norm_num)
    exact ⟨r, r1, r2, by omega⟩
  · rw [if_neg (by simpa using h0)]
    have hv := dv_nonneg hb (by omega)
    have hv : digitsVal 256 bs = n := by omega
    have hbit := bitArray_spec hb.ok
    have ht := (topBit_spec hb.ok).1
    rw [hv] at hbit ht
    obtain ⟨a, a1, a2⟩ := reduce_spec hc hz ha
    simp only []
    rw [a1, Res.ok_bind]
    obtain ⟨r, r1, r2⟩ := powLoop_spec (reduce := fun b => remainder b cs) (ρ := fun v => v.tmod z) (fun bs v h => reduce_spec hc hz h)
      (fun a b => (Int.mul_tmod a b z).symm) hbit (x := x)
      (topBit (bitArray bs) + 1) 0 (by simpa using a2) (res := []) (.inl ⟨rfl, by rw [pow_zero, Nat.mod_one]⟩)
    rw [Nat.zero_add, Nat.mod_eq_of_lt ht] at r2
    rcases r2 with ⟨-, h⟩ | ⟨-, r0, rfl, hr⟩
    · exact absurd h h0
    · rw [r1, Res.ok_bind, if_neg (trim_spec hr).1.ne]
      refine ⟨_, rfl, (trim_spec hr).1, ?_⟩
      have hlt : |(x ^ n).tmod z| < |z| := by
        rw [Int.abs_eq_natAbs, Int.abs_eq_natAbs, Int.natAbs_tmod]
        exact_mod_cast Nat.mod_lt _ (Int.natAbs_pos.2 hz)
      have h1 := neg_abs_le ((x ^ n).tmod z)
      have h2 := le_abs_self ((x ^ n).tmod z)
      have := trim_length hr hL (by omega) (by omega)
      omega

/-! ### ShiftLeft -/

theorem bitShiftLoop_right (n : Nat) {bs : List Nat} {x : Int} (h : Stands bs x) :
    ∃ r, bitShiftLoop true n bs = .ok r ∧ Stands r (x / 2 ^ n) ∧ r.length = bs.length := by
  induction n generalizing bs x with
  | zero => exact ⟨bs, rfl, by simpa using h, rfl⟩
  | succ n ih =>
    obtain ⟨h1, h2⟩ := shiftRight_spec h
    obtain ⟨r, r1, r2, r3⟩ := ih h1
    unfold bitShiftLoop
    refine ⟨r, r1, ?_, by omega⟩
    rwa [Int.ediv_ediv_of_nonneg (by decide), ← pow_succ'] at r2

theorem bitShiftLoop_left (n : Nat) {bs : List Nat} {x : Int} (h : Stands bs x) :
    ∃ r, bitShiftLoop false n bs = .ok r ∧ Stands r (x * 2 ^ n) ∧ r.length ≤ bs.length + n := by
  induction n generalizing bs x with
  | zero => exact ⟨bs, rfl, by simpa using h, le_refl _⟩
  | succ n ih =>
    obtain ⟨g, g1, g2, g3⟩ := shiftLeftGrow_spec h
    obtain ⟨r, r1, r2, r3⟩ := ih g2
    unfold bitShiftLoop
    rw [if_neg (by decide), g1, Res.ok_bind]
    refine ⟨r, r1, ?_, by omega⟩
    rwa [show 2 * x * 2 ^ n = x * 2 ^ (n + 1) by rw [pow_succ]; ring] at r2

theorem drop_spec {bs : List Nat} {x : Int} (h : Stands bs x) {k : Nat} (hk : k < bs.length) : Stands (bs.drop k) (x / 256 ^ k) := by
  have hne : bs.drop k ≠ [] := by
    intro e; have := congrArg List.length e; simp at this; omega
  refine ⟨fun w hw => h.ok w (List.mem_of_mem_drop hw), hne, ?_⟩
  have e := sv_append (bs.take k) hne
  have hlen : (bs.take k).length = k := by rw [List.length_take]; omega
  rw [List.take_append_drop, h.eq, hlen] at e
  have hlt := dv_lt (bs := bs.take k) (fun w hw => h.ok w (List.mem_of_mem_take hw))
  rw [hlen] at hlt
  have hp : (0 : Int) < 256 ^ k := by positivity
  rw [e, Int.add_mul_ediv_left _ _ (by omega), Int.ediv_eq_zero_of_lt (by omega) hlt, zero_add]

theorem zeros_spec {bs : List Nat} {x : Int} (h : Stands bs x) (k : Nat) : Stands (List.replicate k 0 ++ bs) (x * 256 ^ k) := by
  refine ⟨bytesOk_append.2 ⟨bytesOk_replicate (by decide), h.ok⟩, by simp [h.ne], ?_⟩
  have e : digitsVal 256 (List.replicate k 0) = 0 := by rw [← isZero_iff]; simp [isZero]
  rw [sv_append _ h.ne, e, h.eq, List.length_replicate]
  push_cast; ring

theorem ofBytes_stands (hs : Cfg.strictShift = false) {bs : List Nat} {x : Int} (h : Stands bs x) (hl : bs.length < 2 ^ 31) : Returns (ofBytes bs false false) x := by
  have := ofBytes_spec bs (by omega) h.ok false false
  rw [if_neg (by rw [hs]; simp)] at this
  have e : bytesValue false false bs = x := by rw [← h.eq]; rfl
  rwa [e] at this

theorem stands_eight : Stands [8] 8 := ⟨by decide, by simp, by decide⟩

theorem shiftLeft_spec (hs : Cfg.strictShift = false) {as bs : List Nat} {x s : Int} (ha : Stands as x) (hb : Stands bs s) (hs1 : -2 ^ 34 < s) (hs2 : s < 2 ^ 34)
    {z : Int} (hz : z = if 0 ≤ s then x * 2 ^ s.toNat else x / 2 ^ (-s).toNat) :
    ∃ r, shiftLeft as bs = .ok r ∧ Stands r z ∧ r.length ≤ as.length + 8 + s.natAbs / 8 := by
  have hb8 : 2 * |s| < (256 : Int) ^ 5 := by
    norm_num at *
    rcases abs_cases s with ⟨e, -⟩ | ⟨e, -⟩ <;> omega
  obtain ⟨d, d1, d2, d3⟩ := divide_spec hb stands_eight (by decide) (by decide) hb8
  obtain ⟨m, m1, m2, m3⟩ := remainder_spec hb stands_eight (by decide) (by decide) hb8
  obtain ⟨D, D1, D2⟩ := ofBytes_stands hs d2 (by omega)
  obtain ⟨M, M1, M2⟩ := ofBytes_stands hs m2 (by omega)
  have hd : s.tdiv 8 = if 0 ≤ s then s / 8 else -((-s) / 8) := by
    rw [tdiv_abs]
    by_cases h : 0 ≤ s
    · simp [h, abs_of_nonneg]
    · simp [h, abs_of_neg (show s < 0 by omega)]
  have hm : s.tmod 8 = if 0 ≤ s then s % 8 else -((-s) % 8) := by
    rw [tmod_abs]
    by_cases h : 0 ≤ s
    · simp [h, abs_of_nonneg]
    · simp [h, abs_of_neg (show s < 0 by omega)]
  unfold shiftLeft
  rw [d1, Res.ok_bind, D1, Res.ok_bind, BigInt.toInt32_spec D2, m1]
  norm_num at hs1 hs2
  by_cases h0 : 0 ≤ s
  · rw [if_pos h0] at hd hm hz
    rw [hd, if_neg (by omega), if_pos (by omega), Res.ok_bind, Res.ok_bind, M1, Res.ok_bind, BigInt.toInt32_spec M2, hm, if_neg (by omega), if_pos (by omega), Res.ok_bind]
    have : decide (s % 8 < 0) = false := by simpa using by omega
    rw [this]
    obtain ⟨r, r1, r2, r3⟩ := bitShiftLoop_left (s % 8).natAbs ha
    rw [r1, Res.ok_bind, if_neg (by omega)]
    have h3 := zeros_spec r2 (s / 8).toNat
    refine ⟨_, rfl, ?_, ?_⟩
    · have e : x * 2 ^ (s % 8).natAbs * 256 ^ (s / 8).toNat = z := by
        rw [hz, mul_assoc, show (256 : Int) = 2 ^ 8 by norm_num, ← pow_mul, ← pow_add]
        congr 2; omega
      rwa [e] at h3
    · rw [List.length_append, List.length_replicate]; omega
  · rw [if_neg h0] at hd hm hz
    rw [hd, if_neg (by omega), if_pos (by omega), Res.ok_bind, Res.ok_bind, M1, Res.ok_bind, BigInt.toInt32_spec M2, hm, if_neg (by omega), if_pos (by omega), Res.ok_bind]
    have hbit : ∃ r, bitShiftLoop (decide (-((-s) % 8) < 0)) (-((-s) % 8)).natAbs as = .ok r ∧ Stands r (x / 2 ^ ((-s) % 8).toNat) ∧ r.length = as.length := by
      by_cases hz0 : (-s) % 8 = 0
      · rw [hz0]; exact ⟨as, rfl, by simpa using ha, rfl⟩
      · have : decide (-((-s) % 8) < 0) = true := by simpa using by omega
        rw [this, show (-((-s) % 8)).natAbs = ((-s) % 8).toNat by omega]
        exact bitShiftLoop_right _ ha
    obtain ⟨r, r1, r2, r3⟩ := hbit
    rw [r1, Res.ok_bind]
    have e : ∀ k : Nat, k = ((-s) / 8).toNat → x / 2 ^ ((-s) % 8).toNat / 256 ^ k = z := by
      rintro k rfl
      rw [hz, Int.ediv_ediv_of_nonneg (by positivity), show (256 : Int) = 2 ^ 8 by norm_num, ← pow_mul, ← pow_add]
      congr 2; omega
    by_cases hk : (-s) / 8 = 0
    · rw [if_neg (by omega)]
      have := e 0 (by omega)
      rw [pow_zero, Int.ediv_one] at this
      rw [this] at r2
      have : (-((-s) / 8)).toNat = 0 := by omega
      rw [this]
      exact ⟨r, by simp, r2, by omega⟩
    · rw [if_pos (by omega), neg_neg]
      have hi : int ((-s) / 8) = .ok ((-s) / 8) := by
        unfold int
        rw [if_pos (by omega)]
      rw [hi, Res.ok_bind]
      have ez := e _ rfl
      generalize ((-s) / 8).toNat = k at *
      by_cases hkl : k ≥ r.length
      · rw [if_pos hkl]
        obtain ⟨t, t1, -, -, -, t2, -⟩ := sign_bit r2
        rw [t1, Res.ok_bind]
        have hb := r2.bounds
        have hp := pow256_mono hkl
        by_cases hneg : t &&& 0x80 ≠ 0
        · rw [if_pos hneg]
          have := t2.1 hneg
          refine ⟨_, rfl, ?_, by simp; omega⟩
          have : z = -1 := by
            rw [← ez, Int.ediv_eq_iff_of_pos (by positivity)]
            omega
          rw [this]
          exact ⟨by decide, by simp, by decide⟩
        · rw [if_neg hneg]
          have : ¬ x / 2 ^ ((-s) % 8).toNat < 0 := fun h => hneg (t2.2 h)
          refine ⟨_, rfl, ?_, by simp; omega⟩
          have : z = 0 := by
            rw [← ez, Int.ediv_eq_zero_of_lt (by omega) (by omega)]
          rw [this]
          exact stands_zero
      · rw [if_neg hkl]
        have := drop_spec r2 (k := k) (by omega)
        rw [ez] at this
        exact ⟨_, rfl, this, by rw [List.length_drop]; omega⟩

end Oracle
end BigIntegerCpp
