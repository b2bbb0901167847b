import Verif.Lemmas.PointerBuf
import Verif.Lemmas.Cost
/-
The power routines and the `FastReducer` in memory do what the ones on lists do.
-/
set_option linter.unusedSectionVars false
namespace BigIntegerCpp
open Mem
variable [Cfg]

omit [Cfg] in
theorem block_push (m : Mem) (xs : List Nat) (b : Nat) : block (m ++ [xs]) b = if b = m.length then xs else m.block b := by
  by_cases h : b = m.length
  · rw [if_pos h, h, block_last]
  · rw [if_neg h]
    by_cases hl : b < m.length
    · rw [block_append_left hl]
    · unfold block
      rw [List.getD_eq_getElem?_getD, List.getD_eq_getElem?_getD, List.getElem?_eq_none (by simp; omega),
        List.getElem?_eq_none (by omega)]

omit [Cfg] in
theorem block_assign (m : Mem) {dst : Nat} (src b : Nat) (h : dst < m.length) :
    (m.assign dst src).block b = if b = dst then m.block src else m.block b := by
  unfold Mem.assign; exact block_set m _ h

omit [Cfg] in
theorem length_assign (m : Mem) (dst src : Nat) : (m.assign dst src).length = m.length := by
  unfold Mem.assign; simp

omit [Cfg] in
theorem Mem.Grows.at {m m' : Mem} (h : m.Grows m') {p : Ptr} {xs : List Nat} (hp : p.blk < m.length) (ha : m.At p xs) : m'.At p xs :=
  ha.congr fun i _ => by unfold Mem.load; rw [h.2 _ hp]

omit [Cfg] in
theorem Mem.Grows.trans {m m' m'' : Mem} (h : m.Grows m') (h' : m'.Grows m'') : m.Grows m'' :=
  ⟨Nat.le_trans h.1 h'.1, fun b hb => by rw [h'.2 b (by have := h.1; omega), h.2 b hb]⟩

theorem Holds.grow {m m' : Mem} {b : MBuf} {B : BitsBuffer} (h : Holds m b B) (hg : m.Grows m') : Holds m' b B :=
  ⟨by have := h.lt; have := hg.1; omega, by rw [hg.2 _ h.lt, h.bits], h.len⟩

theorem Fresh.grows {m : Mem} {B : BitsBuffer} {q : MBuf × Mem} (h : Fresh m B q) : m.Grows q.2 := by
  rw [show q = _ from h]; exact (Grows.refl m).append _

theorem ofWord_size {size w : Nat} {B : BitsBuffer} (h : BitsBuffer.ofWord size w = .ok B) : B.bits.length = size := by
  unfold BitsBuffer.ofWord put at h
  obtain ⟨x, h1, h⟩ := Res.bind_eq_ok h
  cases h
  by_cases hc : 0 < (List.replicate size 0).length
  · rw [if_pos hc] at h1; cases h1; simp
  · rw [if_neg hc] at h1; cases h1

theorem ofWords_size {size : Nat} {xs : List Nat} {B : BitsBuffer} (h : BitsBuffer.ofWords size xs = .ok B) : B.bits.length = size := by
  unfold BitsBuffer.ofWords at h
  obtain ⟨x, h1, h⟩ := Res.bind_eq_ok h
  have := trimLen_le xs
  simp only at h
  by_cases hc : trimLen xs ≤ size
  · rw [if_pos hc] at h; cases h; simp; omega
  · rw [if_neg hc] at h; cases h

/-- The buffers of a power computation: `value` is there, `temp` and `result` are new. -/
theorem three_fresh {m0 m1 : Mem} {value : MBuf} {V T R : BitsBuffer} {qt qr : MBuf × Mem} {N : Nat} {Inv : Mem → Prop} (hv : Holds m1 value V)
    (hT : Fresh m1 T qt) (hR : Fresh qt.2 R qr) (hi : Inv qr.2) (sv : V.bits.length = N) (sT : T.bits.length = N) (sR : R.bits.length = N)
    (_h0 : m0.Grows m1) :
    Three qr.2 value.blk (m1.length + 1) m1.length N Inv value qr.1 qt.1 V R T ∧ qt.1.blk = m1.length ∧ qr.1.blk = m1.length + 1 := by
  have et : qt = _ := hT
  have er : qr = _ := hR
  have b1 : qt.1.blk = m1.length := by rw [et]
  have b2 : qr.1.blk = m1.length + 1 := by rw [er, et]; simp
  exact ⟨⟨rfl, b2, b1, (hv.grow hT.grows).grow hR.grows, hR.holds, hT.holds.grow hR.grows, hi, sv, sR, sT⟩, b1, b2⟩

theorem powCalc_sim {mk : Nat → Res BitsBuffer} {mkM : Nat → Mem → Res (MBuf × Mem)} {m : Mem} (valueLength power : Nat)
    (hmk : ∀ size, Sim (Fresh m) (mk size) (mkM size m)) (hsz : ∀ size B, mk size = .ok B → B.bits.length = size) :
    Sim (fun ws q => q = (ws, m)) (powCalc mk valueLength power) (powCalcMem mkM valueLength power m) := by
  unfold powCalc powCalcMem
  refine Sim.same fun size _ => ?_
  refine Sim.bind (hmk size) fun V q hV h1 => ?_
  refine Sim.bind (ofWord_sim size 0 q.2) fun T qt hT h2 => ?_
  refine Sim.bind (ofWord_sim size 1 qt.2) fun R qr hR h3 => ?_
  have e1 : q = _ := h1
  have lq : q.2.length = m.length + 1 := by rw [e1]; simp
  have bq : q.1.blk = m.length := by rw [e1]
  have g := (h1.grows.trans h2.grows).trans h3.grows
  obtain ⟨h4, -, -⟩ := three_fresh (m0 := m) (N := size) (Inv := fun m' => m.Grows m') h1.holds h2 h3 g (hsz _ _ hV) (ofWord_size hT) (ofWord_size hR) h1.grows
  have hred : RedSim q.1.blk (q.2.length + 1) q.2.length size (fun m' => m.Grows m') (fun b => .ok b) (fun b m => .ok (b, m)) :=
    ⟨fun a b ha hk => ha.keeps hk (by simp [bq, lq]; omega), fun a b B ha hb _ hs => Sim.ok ⟨rfl, hb, ha, rfl, fun _ _ _ => rfl, hs⟩⟩
  refine Sim.bind (powLoop_sim hred (by omega) (by omega) (by omega) power h4) fun B qb _ h5 => ?_
  refine Sim.ok ?_
  rw [h5.2.1.bits, h5.2.2.release]

/-- The members of a reducer, in memory. -/
structure Red (m : Mem) (fr : MReducer) (F : FastReducer) : Prop where
  bmo : m.block fr.modulus = F.modulus
  bmu : m.block fr.mu = F.mu
  bq1 : (m.block fr.q1).length = F.modulus.length * 2 + 2
  bq2 : (m.block fr.q2).length = F.modulus.length * 2 + 1
  len : fr.muLength = F.muLength
  lmo : fr.modulus < m.length
  lmu : fr.mu < m.length
  lq1 : fr.q1 < m.length
  lq2 : fr.q2 < m.length
  d1 : fr.q1 ≠ fr.modulus
  d2 : fr.q1 ≠ fr.mu
  d3 : fr.q2 ≠ fr.modulus
  d4 : fr.q2 ≠ fr.mu
  d5 : fr.q1 ≠ fr.q2

theorem Red.keep {m m' : Mem} {fr : MReducer} {F : FastReducer} {l : List Nat} (h : Red m fr F) (hk : m.Keeps m' l)
    (h1 : fr.modulus ∉ l) (h2 : fr.mu ∉ l) (h3 : fr.q1 ∉ l) (h4 : fr.q2 ∉ l) : Red m' fr F :=
  { h with
    bmo := by rw [hk.2 _ h1, h.bmo]
    bmu := by rw [hk.2 _ h2, h.bmu]
    bq1 := by rw [hk.2 _ h3, h.bq1]
    bq2 := by rw [hk.2 _ h4, h.bq2]
    lmo := by rw [hk.1]; exact h.lmo
    lmu := by rw [hk.1]; exact h.lmu
    lq1 := by rw [hk.1]; exact h.lq1
    lq2 := by rw [hk.1]; exact h.lq2 }

theorem divMul_sim {m : Mem} {left right bits : Nat} {L R : List Nat} {ll rl size k : Nat} (hl : m.block left = L) (hr : m.block right = R)
    (hb : (m.block bits).length = size) (h1 : bits ≠ left) (h2 : bits ≠ right) :
    Sim (fun (u : List Nat × Nat) (q : Nat × Mem) => q.1 = u.2 ∧ q.2.block bits = u.1 ∧ u.1.length = size ∧ m.Keeps q.2 [bits])
      (FastReducer.divMul L ll R rl size k) (MReducer.divMul ⟨left, 0⟩ ll ⟨right, 0⟩ rl ⟨bits, 0⟩ k m) := by
  unfold FastReducer.divMul MReducer.divMul
  have hin : m.InB ⟨bits, 0⟩ size := by unfold InB Mem.size; simp only; omega
  simp only
  rw [hb, fillMem_eq 0 hin, Res.ok_bind]
  generalize hm1 : m.write ⟨bits, 0⟩ (List.replicate size 0) = m1
  have k1 : m.Keeps m1 [bits] := by rw [← hm1]; exact keeps_write m ⟨bits, 0⟩ _
  have hb1 : m1.block bits = List.replicate size 0 := by
    rw [← hm1, block_write0 (by simp; omega)]; simp; omega
  have hl1 : m1.block left = L := by rw [k1.2 _ (by simpa using h1.symm), hl]
  have hr1 : m1.block right = R := by rw [k1.2 _ (by simpa using h2.symm), hr]
  have a1 : m1.At (Ptr.plus ⟨left, 0⟩ k) ((L.drop k).take (ll - k)) := by
    rw [← hl1]; unfold Ptr.plus; simp only [Nat.zero_add]; exact at_slice m1 left k _
  have a2 : m1.At ⟨right, 0⟩ (R.take rl) := by rw [← hr1]; exact at_take m1 right _
  refine Sim.ite (fun hc => ?_) fun hc => ?_
  · refine Sim.bind (P := fun u m' => m'.block bits = u ∧ u.length = (List.replicate size 0).length ∧ m1.Keeps m' [bits])
      (Sim.ite (fun h => ?_) fun h => ?_) fun u m2 _ h2 => ?_
    · rw [Nat.add_comm]
      exact mulMem_bufs (t := ⟨bits, 0⟩) a2 a1 hb1 rfl h2 h1 (by omega)
    · exact mulMem_bufs (t := ⟨bits, 0⟩) a1 a2 hb1 rfl h1 h2 (by omega)
    · obtain ⟨b2, s2, k2⟩ := h2
      refine Sim.bind (actualLength_sim rfl b2) fun x y _ hxy => ?_
      exact Sim.ok ⟨hxy, b2, by simpa using s2, k1.trans' k2⟩
  · exact Sim.ok ⟨rfl, hb1, by simp, k1⟩

theorem subtractSelf_length : ∀ {l r : List Nat} {n : Nat} {c : Int} {t : List Nat}, FastReducer.subtractSelf l r n c = .ok t → t.length = l.length
  | l, [], n, c, t, h => by
    rw [FastReducer.subtractSelf] at h
    obtain ⟨x, h1, h⟩ := Res.bind_eq_ok h
    obtain ⟨⟨y, _⟩, h2, h⟩ := Res.bind_eq_ok h
    cases h
    obtain ⟨hn, rfl⟩ := slice_inv h1
    have := Cost.carrySelf_length h2
    simp only at this
    rw [List.length_append, this, List.length_take, List.length_drop]; omega
  | [], y :: ys, n, c, t, h => by rw [FastReducer.subtractSelf] at h; cases h
  | x :: xs, y :: ys, n, c, t, h => by
    rw [FastReducer.subtractSelf] at h
    obtain ⟨d, h1, h⟩ := Res.bind_eq_ok h
    obtain ⟨z, h2, h⟩ := Res.bind_eq_ok h
    cases h
    rw [List.length_cons, subtractSelf_length h2, List.length_cons]

theorem subModLoop_sim {left modulus : Nat} {M : List Nat} (hne : left ≠ modulus) (fuel : Nat) : ∀ {L : List Nat} {n : Nat} {m : Mem},
    m.block left = L → m.block modulus = M → M.length ≤ L.length →
    Sim (fun x (q : Nat × Mem) => q.1 = x ∧ x ≤ L.length ∧ (q.2.block left).length = L.length ∧ m.Keeps q.2 [left])
      (FastReducer.subModLoop M fuel L n) (MReducer.subModLoop ⟨left, 0⟩ ⟨modulus, 0⟩ M.length fuel n m) := by
  induction fuel with
  | zero => intro L n m hL hM hle; exact Sim.diverge
  | succ fuel ih =>
    intro L n m hL hM hle
    rw [FastReducer.subModLoop, MReducer.subModLoop]
    refine Sim.left slice_or fun xs h1 => ?_
    obtain ⟨hn, rfl⟩ := slice_inv h1
    have e1 : (L.take n).length = n := by rw [List.length_take]; omega
    have a1 : m.At ⟨left, 0⟩ (L.take n) := by rw [← hL]; exact at_take m left n
    have a2 : m.At ⟨modulus, 0⟩ M := by have := at_take m modulus M.length; rwa [hM, List.take_length] at this
    have a3 : m.At ⟨left, 0⟩ L := by have := at_take m left L.length; rwa [hL, List.take_length] at this
    have hc := compareMem_eq a1 a2
    rw [e1] at hc
    rw [hc, Res.ok_bind]
    refine Sim.ite (fun _ => ?_) fun _ => Sim.ok ⟨rfl, hn, by rw [hL], Keeps.refl _ _⟩
    rw [subtractSelfMem_eq hn hle a3 a2 (.inl hne), Res.bind_assoc]
    refine Sim.same fun L' h2 => ?_
    have l2 := subtractSelf_length h2
    rw [Res.ok_bind]
    have hb : (m.write ⟨left, 0⟩ L').block left = L' := by
      rw [block_write0 (by rw [hL, l2]), hL, l2, List.drop_length, List.append_nil]
    have k1 := keeps_write m ⟨left, 0⟩ L'
    refine Sim.bind (actualLength_sim rfl hb) fun x y _ hxy => ?_
    subst hxy
    refine (ih hb (by rw [k1.2 _ (by simpa using hne.symm), hM]) (by omega)).mono fun x q _ h => ?_
    exact ⟨h.1, by rw [← l2]; exact h.2.1, by rw [h.2.2.1, l2], k1.trans' h.2.2.2⟩

theorem subMod_sim {m : Mem} {left right modulus : Nat} {L R M : List Nat} {ll rl k : Nat} (hl : m.block left = L) (hr : m.block right = R)
    (hm : m.block modulus = M) (_l1 : left < m.length) (l2 : right < m.length) (l3 : modulus < m.length) (hM : M.length ≤ L.length)
    (hk : k ≤ L.length) :
    Sim (fun x q => q = (x, m)) (FastReducer.subMod L ll R rl M k) (MReducer.subMod left ll right rl modulus k m) := by
  unfold FastReducer.subMod MReducer.subMod
  simp only [Mem.alloc, List.length_append, List.length_singleton]
  generalize hll : (if ll > k then k else ll) = ll'
  generalize hrl : (if rl > k then k else rl) = rl'
  have hll' : ll' ≤ k := by rw [← hll]; split <;> omega
  have hrl' : rl' ≤ k := by rw [← hrl]; split <;> omega
  have p1 : block (m ++ [L]) right = R := by rw [block_append_left l2, hr]
  have p2 : block (m ++ [L] ++ [R]) modulus = M := by
    rw [block_append_left (by simp; omega), block_append_left l3, hm]
  have p3 : block (m ++ [L] ++ [R] ++ [M]) modulus = M := by rw [block_append_left (by simp; omega), p2]
  rw [hl, p1, p2, p3]
  generalize hm3 : m ++ [L] ++ [R] ++ [M] = m3
  have n3 : m3.length = m.length + 3 := by rw [← hm3]; simp
  have b1 : m3.block m.length = L := by
    rw [← hm3, block_append_left (by simp), block_append_left (by simp), block_last]
  have b2 : m3.block (m.length + 1) = R := by
    rw [← hm3, block_append_left (by simp), block_push, if_pos (by simp)]
  have b3 : m3.block (m.length + 1 + 1) = M := by rw [← hm3, block_push, if_pos (by simp)]
  have g3 : m.Grows m3 := by rw [← hm3]; exact (((Grows.refl m).append _).append _).append _
  refine Sim.left slice_or fun ys h1 => ?_
  obtain ⟨hn, rfl⟩ := slice_inv h1
  have e1 : (R.take rl').length = rl' := by rw [List.length_take]; omega
  have a1 : m3.At ⟨m.length, 0⟩ L := by have := at_take m3 m.length L.length; rwa [b1, List.take_length] at this
  have a2 : m3.At ⟨m.length + 1, 0⟩ (R.take rl') := by rw [← b2]; exact at_take m3 _ _
  have hs := subtractSelfMem_eq (n := ll') (by omega) (by omega) a1 a2 (.inl (by simp))
  rw [e1] at hs
  rw [hs, Res.bind_assoc]
  refine Sim.same fun L' h2 => ?_
  have le := subtractSelf_length h2
  rw [Res.ok_bind]
  generalize hm4 : m3.write ⟨m.length, 0⟩ L' = m4
  have k4 : m3.Keeps m4 [m.length] := by rw [← hm4]; exact keeps_write m3 ⟨m.length, 0⟩ L'
  have c1 : m4.block m.length = L' := by
    rw [← hm4, block_write0 (by rw [b1, le]), b1, le, List.drop_length, List.append_nil]
  have c3 : m4.block (m.length + 1 + 1) = M := by rw [k4.2 _ (by simp; omega), b3]
  refine Sim.bind (actualLength_sim rfl c1) fun x y _ hxy => ?_
  subst hxy
  rw [c1]
  rw [show FastReducer.subModLoop M (val L' + 1) L' y = (FastReducer.subModLoop M (val L' + 1) L' y >>= fun x => .ok x) from by
    cases FastReducer.subModLoop M (val L' + 1) L' y <;> rfl]
  refine Sim.bind (subModLoop_sim (left := m.length) (modulus := m.length + 1 + 1) (M := M) (by omega) (val L' + 1) (n := y) c1 c3 (by omega))
    fun x q _ h => ?_
  obtain ⟨h1, h2, h3, h4⟩ := h
  subst h1
  rw [fillMem_eq _ (by unfold InB Mem.size; simp only; omega), Res.ok_bind]
  refine Sim.ok ?_
  rw [(Grows.keeps (m := m) (l := [m.length]) (Grows.keeps (Grows.keeps g3 k4 (by simp)) h4 (by simp)) (keeps_write q.2 ⟨m.length, 0⟩ _) (by simp)).release]

theorem fastReduce_sim {m : Mem} {fr : MReducer} {F : FastReducer} {value n : Nat} {V : List Nat} (hF : Red m fr F) (hv : m.block value = V)
    (_lv : value < m.length) (hsz : F.modulus.length + 1 ≤ V.length) :
    Sim (fun x (q : Nat × Mem) => q.1 = x ∧ m.Keeps q.2 [fr.q1, fr.q2] ∧ Red q.2 fr F) (F.reduce V n) (fr.reduce value n m) := by
  unfold FastReducer.reduce MReducer.reduce
  have o1 := hF.lmo
  have o2 := hF.lmu
  have o3 := hF.lq1
  have o4 := hF.lq2
  simp only [Mem.alloc, hv, block_append_left o1, hF.bmo]
  generalize hm1 : m ++ [V] = m1
  have n1 : m1.length = m.length + 1 := by rw [← hm1]; simp
  have f1 : ∀ b, b < m.length → m1.block b = m.block b := fun b hb => by rw [← hm1, block_append_left hb]
  have v1 : m1.block m.length = V := by rw [← hm1, block_last]
  refine Sim.ite (fun _ => Sim.ok ⟨rfl, ?_⟩) fun _ => ?_
  · rw [← hm1, release_append]; exact ⟨Keeps.refl _ _, hF⟩
  rw [hF.len]
  refine Sim.bind (divMul_sim (left := m.length) (right := fr.mu) (bits := fr.q1) (size := F.modulus.length * 2 + 2) v1
    (by rw [f1 _ o2, hF.bmu]) (by rw [f1 _ o3, hF.bq1]) (by omega) hF.d2) fun ⟨u1, x1⟩ ⟨y1, m2⟩ _ h1 => ?_
  obtain ⟨e1, b1, s1, k1⟩ := h1
  simp only at e1 b1 s1 k1 ⊢
  subst e1
  refine Sim.bind (divMul_sim (left := fr.q1) (right := fr.modulus) (bits := fr.q2) (size := F.modulus.length * 2 + 1) b1
    (by rw [k1.2 _ (by simpa using hF.d1.symm), f1 _ o1, hF.bmo]) (by rw [k1.2 _ (by simpa using hF.d5.symm), f1 _ o4, hF.bq2])
    hF.d5.symm hF.d3) fun ⟨u2, x2⟩ ⟨y2, m3⟩ _ h2 => ?_
  obtain ⟨e2, b2, s2, k2⟩ := h2
  simp only at e2 b2 s2 k2 ⊢
  subst e2
  have k12 := (k1.trans k2)
  simp only [List.cons_append, List.nil_append] at k12
  have n3 : m3.length = m.length + 1 := by rw [k12.1, n1]
  rw [show FastReducer.subMod V n u2 y2 F.modulus (F.modulus.length + 1) = (FastReducer.subMod V n u2 y2 F.modulus (F.modulus.length + 1) >>= fun x => .ok x) from by
    cases FastReducer.subMod V n u2 y2 F.modulus (F.modulus.length + 1) <;> rfl]
  refine Sim.bind (subMod_sim (left := m.length) (right := fr.q2) (modulus := fr.modulus)
    (by rw [k12.2 _ (by simp; omega), v1]) b2 (by rw [k12.2 _ (by simp [hF.d1.symm, hF.d3.symm]), f1 _ o1, hF.bmo])
    (by omega) (by omega) (by omega) (by omega) hsz) fun x q _ h => ?_
  subst h
  refine Sim.ok ⟨rfl, ?_⟩
  have : Keeps (m ++ [V]) m3 [fr.q1, fr.q2] := by rw [hm1]; exact k12
  have kk := this.release
  refine ⟨kk, ?_⟩
  simp only
  have c1 : ((m3.release m.length).block fr.q1).length = F.modulus.length * 2 + 2 := by
    rw [block_release o3, k2.2 _ (by simpa using hF.d5), b1, s1]
  have c2 : ((m3.release m.length).block fr.q2).length = F.modulus.length * 2 + 1 := by
    rw [block_release o4, b2, s2]
  have n0 : (m3.release m.length).length = m.length := kk.1
  exact { hF with
    bmo := by rw [kk.2 _ (by simp [hF.d1.symm, hF.d3.symm]), hF.bmo]
    bmu := by rw [kk.2 _ (by simp [hF.d2.symm, hF.d4.symm]), hF.bmu]
    bq1 := c1
    bq2 := c2
    lmo := by rw [n0]; exact o1
    lmu := by rw [n0]; exact o2
    lq1 := by rw [n0]; exact o3
    lq2 := by rw [n0]; exact o4 }

theorem copyMem_block {src : Ptr} {m : Mem} {ws : List Nat} {z : Nat} (hs : m.At src ws) (hsb : src.blk < m.length) :
    copyMem src ws.length ⟨m.length, 0⟩ (m ++ [List.replicate ws.length z]) = .ok (m ++ [ws]) := by
  rw [copyMem_eq (at_append_mem hs) (inB_last (by simp)) (.inl (by simp only; omega)), write_last (by simp)]

theorem make_tail {m m5 : Mem} {modulus : Ptr} {ms mu : List Nat} {c : Nat} (hm : m.At modulus ms) (hb : modulus.blk < m.length)
    (n5 : m5.length = m.length + 8) (f5 : ∀ z, z < m.length → m5.block z = m.block z) (b5 : m5.block c = mu) :
    Sim (fun F (q : MReducer × Mem) => Red q.2 q.1 F ∧ m.Grows q.2 ∧ q.2.length = m.length + 4 ∧ q.1.modulus = m.length ∧
        q.1.mu = m.length + 1 ∧ q.1.q1 = m.length + 2 ∧ q.1.q2 = m.length + 3 ∧ F.modulus = ms)
      (sizeInt mu.length >>= fun _ => .ok ⟨ms, mu, trimLen mu⟩)
      (copyMem modulus ms.length ⟨(m5.assign (m.length + 1) c).length, 0⟩ (m5.assign (m.length + 1) c ++ [List.replicate ms.length 0]) >>= fun m6 => 
        sizeInt (Mem.block (Mem.assign (Mem.assign (Mem.assign m6 m.length (m5.assign (m.length + 1) c).length ++ [List.replicate (ms.length * 2 + 2) 0])
          (m.length + 2) (Mem.assign m6 m.length (m5.assign (m.length + 1) c).length).length ++ [List.replicate (ms.length * 2 + 1) 0]) (m.length + 3)
          (Mem.assign (Mem.assign m6 m.length (m5.assign (m.length + 1) c).length ++ [List.replicate (ms.length * 2 + 2) 0])
          (m.length + 2) (Mem.assign m6 m.length (m5.assign (m.length + 1) c).length).length).length) (m.length + 1)).length >>= fun size =>
        actualLengthMem ⟨m.length + 1, 0⟩ size (Mem.assign (Mem.assign (Mem.assign m6 m.length (m5.assign (m.length + 1) c).length ++ [List.replicate (ms.length * 2 + 2) 0])
          (m.length + 2) (Mem.assign m6 m.length (m5.assign (m.length + 1) c).length).length ++ [List.replicate (ms.length * 2 + 1) 0]) (m.length + 3)
          (Mem.assign (Mem.assign m6 m.length (m5.assign (m.length + 1) c).length ++ [List.replicate (ms.length * 2 + 2) 0])
          (m.length + 2) (Mem.assign m6 m.length (m5.assign (m.length + 1) c).length).length).length) >>= fun muLength =>
        .ok (⟨m.length, m.length + 1, m.length + 2, m.length + 3, muLength⟩, 
         (Mem.assign (Mem.assign (Mem.assign m6 m.length (m5.assign (m.length + 1) c).length ++ [List.replicate (ms.length * 2 + 2) 0])
          (m.length + 2) (Mem.assign m6 m.length (m5.assign (m.length + 1) c).length).length ++ [List.replicate (ms.length * 2 + 1) 0]) (m.length + 3)
          (Mem.assign (Mem.assign m6 m.length (m5.assign (m.length + 1) c).length ++ [List.replicate (ms.length * 2 + 2) 0])
          (m.length + 2) (Mem.assign m6 m.length (m5.assign (m.length + 1) c).length).length).length).release (m.length + 4))) := by
  generalize hm6 : m5.assign (m.length + 1) c = m6
  have n6 : m6.length = m.length + 8 := by rw [← hm6, length_assign, n5]
  have f6 : ∀ b, m6.block b = if b = m.length + 1 then mu else m5.block b := fun b => by
    rw [← hm6, block_assign _ _ _ (by omega), b5]
  have a6 : m6.At modulus ms := by
    have : m5.At modulus ms := hm.congr fun i _ => by unfold Mem.load; rw [f5 _ hb]
    exact this.congr fun i _ => by unfold Mem.load; rw [f6, if_neg (by omega)]
  rw [copyMem_block (z := 0) a6 (by omega), Res.ok_bind]
  generalize hm7 : Mem.assign (m6 ++ [ms]) m.length m6.length = m7
  have n7 : m7.length = m.length + 9 := by rw [← hm7, length_assign]; simp; omega
  have f7 : ∀ b, m7.block b = if b = m.length then ms else block (m6 ++ [ms]) b := fun b => by
    rw [← hm7, block_assign _ _ _ (by simp; omega), block_last]
  generalize hm8 : Mem.assign (m7 ++ [List.replicate (ms.length * 2 + 2) 0]) (m.length + 2) m7.length = m8
  have n8 : m8.length = m.length + 10 := by rw [← hm8, length_assign]; simp; omega
  have f8 : ∀ b, m8.block b = if b = m.length + 2 then List.replicate (ms.length * 2 + 2) 0 else block (m7 ++ [List.replicate (ms.length * 2 + 2) 0]) b := fun b => by
    rw [← hm8, block_assign _ _ _ (by simp; omega), block_last]
  generalize hm9 : Mem.assign (m8 ++ [List.replicate (ms.length * 2 + 1) 0]) (m.length + 3) m8.length = m9
  have n9 : m9.length = m.length + 11 := by rw [← hm9, length_assign]; simp; omega
  have f9 : ∀ b, m9.block b = if b = m.length + 3 then List.replicate (ms.length * 2 + 1) 0 else block (m8 ++ [List.replicate (ms.length * 2 + 1) 0]) b := fun b => by
    rw [← hm9, block_assign _ _ _ (by simp; omega), block_last]
  have blk : ∀ b, b < m.length + 4 → m9.block b = if b = m.length + 3 then List.replicate (ms.length * 2 + 1) 0
      else if b = m.length + 2 then List.replicate (ms.length * 2 + 2) 0 else if b = m.length then ms else if b = m.length + 1 then mu else m5.block b := by
    intro b hbl
    rw [f9, block_append_left (by omega), f8, block_append_left (by omega), f7, block_append_left (by omega), f6]
  have B0 : m9.block m.length = ms := by rw [blk _ (by omega), if_neg (by omega), if_neg (by omega), if_pos rfl]
  have B1 : m9.block (m.length + 1) = mu := by rw [blk _ (by omega), if_neg (by omega), if_neg (by omega), if_neg (by omega), if_pos rfl]
  have B2 : m9.block (m.length + 2) = List.replicate (ms.length * 2 + 2) 0 := by rw [blk _ (by omega), if_neg (by omega), if_pos rfl]
  have B3 : m9.block (m.length + 3) = List.replicate (ms.length * 2 + 1) 0 := by rw [blk _ (by omega), if_pos rfl]
  rw [B1]
  refine Sim.same fun sz hsz => ?_
  have hsz : sz = mu.length := by
    unfold sizeInt at hsz
    by_cases hc : mu.length < 2147483648
    · rw [if_pos hc] at hsz; cases hsz; rfl
    · rw [if_neg hc] at hsz; cases hsz
  have am : m9.At ⟨m.length + 1, 0⟩ mu := by have := at_take m9 (m.length + 1) mu.length; rwa [B1, List.take_length] at this
  rw [hsz, actualLengthMem_eq am, Res.ok_bind]
  have nr : (m9.release (m.length + 4)).length = m.length + 4 := by rw [length_release (by omega)]
  refine Sim.ok ⟨⟨?_, ?_, ?_, ?_, rfl, ?_, ?_, ?_, ?_, ?_, ?_, ?_, ?_, ?_⟩, ⟨by simp only; omega, fun b hb' => ?_⟩, nr, rfl, rfl, rfl, rfl, rfl⟩ <;>
    simp only
  · rw [block_release (by omega), B0]
  · rw [block_release (by omega), B1]
  · rw [block_release (by omega), B2]; simp
  · rw [block_release (by omega), B3]; simp
  · omega
  · omega
  · omega
  · omega
  · omega
  · omega
  · omega
  · omega
  · omega
  · rw [block_release (by omega), blk _ (by omega), if_neg (by omega), if_neg (by omega), if_neg (by omega), if_neg (by omega), f5 b hb']

theorem make_sim {m : Mem} {modulus : Ptr} {ms : List Nat} (hm : m.At modulus ms) (hb : modulus.blk < m.length) (hms : 1 ≤ ms.length) :
    Sim (fun F (q : MReducer × Mem) => Red q.2 q.1 F ∧ m.Grows q.2 ∧ q.2.length = m.length + 4 ∧ q.1.modulus = m.length ∧
        q.1.mu = m.length + 1 ∧ q.1.q1 = m.length + 2 ∧ q.1.q2 = m.length + 3 ∧ F.modulus = ms)
      (FastReducer.make ms) (MReducer.make modulus ms.length m) := by
  unfold FastReducer.make MReducer.make divideVec
  simp only [Mem.alloc]
  generalize hm1 : m ++ [[]] ++ [[]] ++ [[]] ++ [[]] = m1
  have n1 : m1.length = m.length + 4 := by rw [← hm1]; simp
  have g1 : m.Grows m1 := by rw [← hm1]; exact ((((Grows.refl m).append _).append _).append _).append _
  have l1 : List.length (m ++ [([] : List Nat)]) = m.length + 1 := by simp
  have l2 : List.length (m ++ [([] : List Nat)] ++ [([] : List Nat)]) = m.length + 2 := by simp
  have l3 : List.length (m ++ [([] : List Nat)] ++ [([] : List Nat)] ++ [([] : List Nat)]) = m.length + 3 := by simp
  rw [l1, l2, l3]
  generalize hR : List.replicate (ms.length * 2) 0 ++ [1] = R
  have hRl : R.length = ms.length * 2 + 1 := by rw [← hR]; simp
  have hst : store (m1 ++ [List.replicate (ms.length * 2 + 1) 0]) ⟨m1.length, 0⟩ (ms.length * 2) 1 = .ok (m1 ++ [R]) := by
    rw [store_ok (inB_last (by simp))]
    unfold poke
    simp only [Ptr.plus_blk, Ptr.plus_off]
    rw [block_last, List.replicate_succ', List.set_append_right _ _ (by simp), ← hR]
    simp
  rw [hst, Res.ok_bind, cassert_pos (by intro h; rw [h] at hRl; simp at hRl), Res.ok_bind, cassert_pos (c := ms ≠ []) (by rintro rfl; simp at hms),
    Res.ok_bind, cassert_pos (c := R.length ≥ ms.length) (by omega), Res.ok_bind, cassert_pos (c := ms.length ≠ 0) (by omega), Res.ok_bind,
    cassert_pos (by omega), Res.ok_bind, hRl]
  simp only [Res.bind_assoc]
  refine Sim.same fun _ _ => ?_
  have a1 : At (m1 ++ [R]) ⟨m1.length, 0⟩ R := at_last
  have c1 := copyMem_block (z := 0) a1 (by simp)
  rw [hRl] at c1
  rw [c1, Res.ok_bind]
  have a2 : At (m1 ++ [R] ++ [R]) modulus ms := at_append_mem (at_append_mem (g1.at hb hm))
  have hb2 : modulus.blk < m1.length := by omega
  rw [copyMem_block (z := 0) a2 (by simp; omega), Res.ok_bind]
  generalize hm4 : m1 ++ [R] ++ [R] ++ [ms] = m4
  have n4 : m4.length = m1.length + 3 := by rw [← hm4]; simp
  have g4 : m1.Grows m4 := by rw [← hm4]; exact (((Grows.refl m1).append _).append _).append _
  have e1 : List.length (m1 ++ [R]) = m1.length + 1 := by simp
  have e2 : List.length (m1 ++ [R] ++ [R]) = m1.length + 2 := by simp
  rw [e1, e2]
  generalize hD : ms.length * 2 + 1 - ms.length + 1 = D
  have a3 : At (m4 ++ [List.replicate D 0]) ⟨m1.length + 1, 0⟩ R := by
    refine at_append_mem ?_
    have := at_last (m := m1 ++ [R]) (ws := R) (e := [ms])
    rw [e1] at this
    rw [← hm4]; simpa using this
  have a4 : At (m4 ++ [List.replicate D 0]) ⟨m1.length + 2, 0⟩ ms := by
    refine at_append_mem ?_
    have := at_last (m := m1 ++ [R] ++ [R]) (ws := ms) (e := [])
    rw [e2] at this
    rw [← hm4]; exact this
  have a5 : At (m4 ++ [List.replicate D 0]) ⟨m4.length, 0⟩ (List.replicate D 0) := at_last
  have hdiv := divideMem_eq (bs := List.replicate D 0) hms (by omega) (.inl (by rw [List.length_replicate, hRl, hD])) a3 a4 a5
    (.inl (by simp)) (.inl (by simp only; omega)) (.inl (by simp only; omega))
  rw [hRl, List.length_replicate] at hdiv
  rw [hdiv, Res.bind_assoc]
  refine Sim.same fun ⟨rm, mu⟩ h2 => ?_
  obtain ⟨s1, s2⟩ := divideCore_length (by omega) h2
  simp only at s1 s2
  rw [List.length_replicate] at s2
  simp only [Res.ok_bind]
  generalize hm5 : ((m4 ++ [List.replicate D 0]).write ⟨m1.length + 1, 0⟩ rm).write ⟨m4.length, 0⟩ mu = m5
  have n5 : m5.length = m1.length + 4 := by rw [← hm5, length_write, length_write]; simp; omega
  have f5 : ∀ b, b < m1.length → m5.block b = m1.block b := fun b hb => by
    rw [← hm5, block_write_ne _ _ _ (by simp only; omega), block_write_ne _ _ _ (by simp only; omega), block_append_left (by omega), g4.2 b hb]
  have b5 : m5.block m4.length = mu := by
    rw [← hm5, block_write0 (by rw [block_write_ne _ _ _ (by simp only; omega), block_last]; simp; omega),
      block_write_ne _ _ _ (by simp only; omega), block_last, s2]; simp
  rw [n1]
  exact make_tail hm hb (by omega) (fun z hz => by rw [f5 z (by omega), g1.2 z hz]) b5

end BigIntegerCpp
