import Verif.Lemmas.PointerReduce
/-
PowMod.cpp in memory does what it does on lists (Model/PointerBuf.lean against Model/Pow.lean).
-/
set_option linter.unusedSectionVars false
namespace BigIntegerCpp
open Mem
variable [Cfg]

omit [Cfg] in
theorem Mem.Grows.cut {m m' : Mem} {n : Nat} (h : m.Grows m') (hn : m.length ≤ n) : m.Grows (m'.release n) := by
  refine ⟨?_, fun b hb => by rw [block_release (by omega), h.2 b hb]⟩
  have := h.1
  unfold Mem.release; rw [List.length_take]; omega

theorem redSim_reduce {m0 : Mem} {v r t N : Nat} {modulus : Ptr} {ms : List Nat} (hm : m0.At modulus ms) (hb : modulus.blk < m0.length)
    (hms : 1 ≤ ms.length) (hv : m0.length ≤ v) (hr : m0.length ≤ r) (ht : m0.length ≤ t) :
    RedSim v r t N (fun m => m0.Grows m) (fun B => B.reduce ms) (fun b m => b.reduce modulus ms.length m) := by
  refine ⟨fun m m' h hk => h.keeps hk (by simp; omega), fun m b B hi hB hbl hN => ?_⟩
  have hlb : m0.length ≤ b.blk := by omega
  refine (reduce_sim hB (hi.at hb hm) (by omega) hms).mono fun B' q _ h => ?_
  obtain ⟨e1, e2, e3, e4⟩ := h
  exact ⟨e1, e2, hi.keeps e3 (by simp; omega), e3.1, fun c _ hc => e3.2 c (by simpa using hc), e4.trans hN⟩

theorem redSim_fast {m0 : Mem} {v r t N : Nat} {fr : MReducer} {F : FastReducer} (hv : m0.length ≤ v) (hr : m0.length ≤ r) (ht : m0.length ≤ t)
    (hq1 : m0.length ≤ fr.q1) (hq2 : m0.length ≤ fr.q2) (hN : F.modulus.length + 1 ≤ N)
    (h1 : fr.modulus ∉ [v, r, t]) (h2 : fr.mu ∉ [v, r, t]) (h3 : fr.q1 ∉ [v, r, t]) (h4 : fr.q2 ∉ [v, r, t]) :
    RedSim v r t N (fun m => m0.Grows m ∧ Red m fr F) (fun B => B.reduceFast F) (fun b m => b.reduceFast fr m) := by
  refine ⟨fun m m' h hk => ⟨h.1.keeps hk (by simp; omega), h.2.keep hk h1 h2 h3 h4⟩, fun m b B hi hB hbl hB' => ?_⟩
  unfold BitsBuffer.reduceFast MBuf.reduceFast
  rw [hB.len]
  refine Sim.bind (fastReduce_sim hi.2 hB.bits hB.lt (by rw [hB']; exact hN)) fun n q _ h => ?_
  obtain ⟨e1, e2, e3⟩ := h
  simp only [List.mem_cons, List.not_mem_nil, or_false, not_or] at h3 h4
  have o1 : b.blk ∉ [fr.q1, fr.q2] := by simp; omega
  refine Sim.ok ⟨rfl, ⟨by simp only; rw [e2.1]; exact hB.lt, ?_, e1⟩, ⟨hi.1.keeps e2 (by simp; omega), e3⟩, e2.1, fun c hc _ => e2.2 c (by simp; omega), hB'⟩
  simp only; rw [e2.2 _ o1, hB.bits]

/-- The buffers of `pow_core` once they are defined. -/
theorem core_start {m0 m : Mem} {value : MBuf} {V : BitsBuffer} (h0 : m0.Grows m) (hv : Holds m value V) {T R : BitsBuffer} {qt qr : MBuf × Mem}
    (hT : Fresh m T qt) (hR : Fresh qt.2 R qr) (sT : T.bits.length = V.bits.length) (sR : R.bits.length = V.bits.length) :
    Three qr.2 value.blk (m.length + 1) m.length V.bits.length (fun m => m0.Grows m) value qr.1 qt.1 V R T ∧ qr.2.length = m.length + 2 := by
  refine ⟨(three_fresh (m0 := m0) hv hT hR ((h0.trans hT.grows).trans hR.grows) rfl sT sR h0).1, ?_⟩
  rw [show qr = _ from hR, show qt = _ from hT]; simp

theorem Three.grow {m m' : Mem} {v r t N : Nat} {Inv Inv' : Mem → Prop} {value result temp : MBuf} {V R T : BitsBuffer}
    (h : Three m v r t N Inv value result temp V R T) (hg : m.Grows m') (hi : Inv' m') : Three m' v r t N Inv' value result temp V R T :=
  ⟨h.bv, h.br, h.bt, h.hv.grow hg, h.hr.grow hg, h.ht.grow hg, hi, h.sv, h.sr, h.st⟩

section Core
variable {m0 m : Mem} {value : MBuf} {V : BitsBuffer} {modulus : Ptr} {ms : List Nat}

theorem powCoreMod_sim (power : Nat) (h0 : m0.Grows m) (hv : Holds m value V) (hvb : m0.length ≤ value.blk) (hm : m0.At modulus ms)
    (hb : modulus.blk < m0.length) (hms : 1 ≤ ms.length) (hsz : V.bits.length = ms.length + ms.length) :
    Sim (fun ws (q : List Nat × Mem) => q.1 = ws ∧ m0.Grows q.2) (powCoreMod power ms V) (powCoreModMem power modulus ms.length value m) := by
  unfold powCoreMod powCoreModMem
  simp only
  rw [hv.bits]
  refine Sim.bind (ofWord_sim _ 0 m) fun T qt hT h1 => ?_
  refine Sim.bind (ofWord_sim _ 1 qt.2) fun R qr hR h2 => ?_
  obtain ⟨h3, l3⟩ := core_start h0 hv h1 h2 (ofWord_size hT) (ofWord_size hR)
  have lv := hv.lt
  have l0 := h0.1
  refine Sim.ite (fun _ => ?_) fun _ => ?_
  · refine Sim.bind (powLoop_sim (redSim_reduce hm hb hms hvb (by omega) (by omega)) (by omega) (by omega) (by omega) power h3) fun B qb _ h4 => ?_
    exact Sim.ok ⟨h4.2.1.bits, h4.2.2.cut h0.1⟩
  · refine Sim.bind (make_sim (m := qr.2) (h3.inv.at hb hm) (by omega) hms) fun F qf _ h4 => ?_
    obtain ⟨r4, g4, n4, b1, b2, b3, b4, b5⟩ := h4
    have h5 := h3.grow (Inv' := fun m => m0.Grows m ∧ Red m qf.1 F) g4 ⟨h3.inv.trans g4, r4⟩
    refine Sim.bind (powLoop_sim (redSim_fast hvb (by omega) (by omega) (by omega) (by omega) (by rw [b5]; omega) (by simp; omega) (by simp; omega)
      (by simp; omega) (by simp; omega)) (by omega) (by omega) (by omega) power h5) fun B qb _ h6 => ?_
    exact Sim.ok ⟨h6.2.1.bits, h6.2.2.1.cut h0.1⟩

theorem powCoreModWords_sim (power : List Nat) (h0 : m0.Grows m) (hv : Holds m value V) (hvb : m0.length ≤ value.blk) (hm : m0.At modulus ms)
    (hb : modulus.blk < m0.length) (hms : 1 ≤ ms.length) (hsz : V.bits.length = ms.length + ms.length) :
    Sim (fun ws (q : List Nat × Mem) => q.1 = ws ∧ m0.Grows q.2) (powCoreModWords power ms V) (powCoreModWordsMem power modulus ms.length value m) := by
  unfold powCoreModWords powCoreModWordsMem
  simp only
  rw [hv.bits]
  refine Sim.bind (ofWord_sim _ 0 m) fun T qt hT h1 => ?_
  refine Sim.bind (ofWord_sim _ 1 qt.2) fun R qr hR h2 => ?_
  obtain ⟨h3, l3⟩ := core_start h0 hv h1 h2 (ofWord_size hT) (ofWord_size hR)
  have lv := hv.lt
  have l0 := h0.1
  refine Sim.same fun last _ => ?_
  refine Sim.ite (fun _ => ?_) fun _ => ?_
  · have hred := redSim_reduce (N := V.bits.length) hm hb hms hvb (show m0.length ≤ m.length + 1 by omega) (show m0.length ≤ m.length by omega)
    refine Sim.bind (powWords_sim hred (by omega) (by omega) (by omega) _ h3) fun ⟨V1, R1, T1⟩ ⟨v1, r1, m1⟩ _ h4 => ?_
    refine Sim.bind (powLoop_sim hred (by omega) (by omega) (by omega) last h4) fun B qb _ h5 => ?_
    exact Sim.ok ⟨h5.2.1.bits, h5.2.2.cut h0.1⟩
  · refine Sim.bind (make_sim (m := qr.2) (h3.inv.at hb hm) (by omega) hms) fun F qf _ h4 => ?_
    obtain ⟨r4, g4, n4, b1, b2, b3, b4, b5⟩ := h4
    have h5 := h3.grow (Inv' := fun m => m0.Grows m ∧ Red m qf.1 F) g4 ⟨h3.inv.trans g4, r4⟩
    have hred := redSim_fast (N := V.bits.length) (fr := qf.1) (F := F) hvb (show m0.length ≤ m.length + 1 by omega) (show m0.length ≤ m.length by omega) (by omega) (by omega)
      (by rw [b5]; omega) (by simp; omega) (by simp; omega) (by simp; omega) (by simp; omega)
    refine Sim.bind (powWords_sim hred (by omega) (by omega) (by omega) _ h5) fun ⟨V1, R1, T1⟩ ⟨v1, r1, m1⟩ _ h6 => ?_
    refine Sim.bind (powLoop_sim hred (by omega) (by omega) (by omega) last h6) fun B qb _ h7 => ?_
    exact Sim.ok ⟨h7.2.1.bits, h7.2.2.1.cut h0.1⟩
end Core

/-- Defining an empty vector, building a buffer above it and assigning it. -/
theorem assign_fresh {m m1 : Mem} {B : BitsBuffer} {q : MBuf × Mem} {e : List (List Nat)} (h : Fresh m1 B q) (hm : m1 = m ++ [[]] ++ e) :
    Fresh m B (⟨m.length, q.1.length⟩, (Mem.assign q.2 m.length q.1.blk).release (m.length + 1)) := by
  have eq : q = _ := h
  unfold Fresh
  have l1 : m1.length = m.length + 1 + e.length := by rw [hm]; simp; omega
  have hq1 : q.1 = ⟨m1.length, B.length⟩ := by rw [eq]
  have hq2 : q.2 = m1 ++ [B.bits] := by rw [eq]
  rw [hq1, hq2]
  refine Prod.ext rfl ?_
  refine ext_block ?_ fun b => ?_
  · simp only; rw [length_release (by rw [length_assign]; simp; omega)]; simp
  · simp only
    by_cases hb : b < m.length + 1
    · rw [block_release hb, block_assign _ _ _ (by simp; omega), block_last]
      by_cases hc : b = m.length
      · rw [if_pos hc, hc, block_last]
      · rw [if_neg hc, block_append_left (by omega), hm, block_append_left (by simp; omega), block_append_left (by omega), block_append_left (by omega)]
    · unfold Mem.release block
      rw [List.getD_eq_default _ _ (by rw [List.length_take]; omega), List.getD_eq_default _ _ (by simp; omega)]

theorem modPowBase_sim {m : Mem} {value modulus : Ptr} {xs ms : List Nat} (hx : m.At value xs) (hxb : value.blk < m.length) (hm : m.At modulus ms)
    (hb : modulus.blk < m.length) (hms : 1 ≤ ms.length) :
    Sim (Fresh m) (modPowBase xs ms) (modPowBaseMem value xs.length modulus ms.length m) := by
  unfold modPowBase modPowBaseMem
  refine Sim.same fun size _ => ?_
  simp only [Mem.alloc]
  have l1 : List.length (m ++ [([] : List Nat)]) = m.length + 1 := by simp
  refine Sim.ite (fun hc => ?_) fun hc => ?_
  · unfold remainderVec
    rw [cassert_pos (c := xs ≠ []) (by rintro rfl; simp at hc), Res.ok_bind, cassert_pos (c := ms ≠ []) (by rintro rfl; simp at hms), Res.ok_bind,
      cassert_pos (c := xs.length ≥ ms.length) (by omega), Res.ok_bind, cassert_pos (c := xs.length ≠ 0) (by omega), Res.ok_bind,
      cassert_pos (c := ms.length ≠ 0) (by omega), Res.ok_bind]
    simp only [Res.bind_assoc]
    refine Sim.same fun _ _ => ?_
    rw [copyMem_block (z := 0) (at_append_mem hx) (by omega), Res.ok_bind]
    have hd := divideMem_eq (lhs := ⟨(m ++ [[]]).length, 0⟩) (rhs := modulus) (bits := nullPtr) (xs := xs) (ys := ms) (bs := []) (m := m ++ [[]] ++ [xs]) hms
      (by omega) (.inr rfl) at_last (at_append_mem (at_append_mem hm)) trivial (.inl (by simp only; omega)) (.inr (.inl (by simp [nullPtr]))) (.inr (.inl (by simp [nullPtr])))
    rw [List.length_nil] at hd
    rw [hd]
    simp only [Res.bind_assoc]
    refine Sim.same fun ⟨l, q⟩ h2 => ?_
    obtain ⟨s1, s2⟩ := divideCore_length (by omega) h2
    simp only at s1 s2
    have q0 : q = [] := List.length_eq_zero_iff.1 (by simpa using s2)
    subst q0
    simp only [Res.ok_bind, Mem.write, write_last s1]
    rw [← s1, show BitsBuffer.ofWords size l = (BitsBuffer.ofWords size l >>= fun x => .ok x) from by cases BitsBuffer.ofWords size l <;> rfl]
    refine Sim.bind (ofWords_sim at_last (by simp)) fun B q _ h3 => ?_
    have := assign_fresh h3 rfl
    rw [l1]
    exact Sim.ok this
  · rw [show BitsBuffer.ofWords size xs = (BitsBuffer.ofWords size xs >>= fun x => .ok x) from by cases BitsBuffer.ofWords size xs <;> rfl]
    refine Sim.bind (ofWords_sim (at_append_mem hx) (by omega)) fun B q _ h3 => ?_
    have := assign_fresh (m := m) (e := []) h3 (by simp)
    rw [l1]
    exact Sim.ok this

theorem modPowMem_sim {m : Mem} {base : Res BitsBuffer} {baseM : Mem → Res (MBuf × Mem)}
    {core : BitsBuffer → Res (List Nat)} {coreM : MBuf → Mem → Res (List Nat × Mem)} (hbase : Sim (Fresh m) base (baseM m))
    (hcore : ∀ V q, base = .ok V → Fresh m V q → Sim (fun ws (p : List Nat × Mem) => p.1 = ws ∧ m.Grows p.2) (core V) (coreM q.1 q.2)) :
    Sim (fun ws p => p = (ws, m)) (base >>= core) (modPowMem baseM coreM m) := by
  unfold modPowMem
  refine Sim.bind hbase fun V q hV h1 => ?_
  simp only
  rw [show core V = (core V >>= fun x => .ok x) from by cases core V <;> rfl]
  refine Sim.bind (hcore V q hV h1) fun ws p _ h2 => ?_
  exact Sim.ok (by rw [h2.1, h2.2.release])

theorem modPowBase_size {xs ms : List Nat} {V : BitsBuffer} (h : modPowBase xs ms = .ok V) : V.bits.length = ms.length + ms.length := by
  unfold modPowBase at h
  obtain ⟨size, h1, h⟩ := Res.bind_eq_ok h
  have hs : size = ms.length + ms.length := by
    unfold sizeInt at h1
    by_cases hc : ms.length + ms.length < 2147483648
    · rw [if_pos hc] at h1; cases h1; rfl
    · rw [if_neg hc] at h1; cases h1
  subst hs
  by_cases hc : xs.length > ms.length
  · rw [if_pos hc] at h
    obtain ⟨t, _, h⟩ := Res.bind_eq_ok h
    exact ofWords_size h
  · rw [if_neg hc] at h
    exact ofWords_size h

end BigIntegerCpp
