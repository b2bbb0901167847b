import Verif.Lemmas.PointerPow
/-
GcdInv.cpp in memory does what it does on lists (Model/PointerBuf.lean against Model/Gcd.lean).
-/
set_option linter.unusedSectionVars false
namespace BigIntegerCpp
open Mem
variable [Cfg]

omit [Cfg] in
theorem load_block {m : Mem} {b i : Nat} {X : List Nat} (h : m.block b = X) : m.load ⟨b, 0⟩ i = idx X i := by
  unfold Mem.load; simp only; rw [h, Nat.zero_add]

omit [Cfg] in
theorem Sim.idx {γ δ : Type} {Q : γ → δ → Prop} {m : Mem} {b i : Nat} {X : List Nat} {f : Nat → Res γ} {g : Nat → Res δ} (h : m.block b = X)
    (hf : ∀ x, BigIntegerCpp.idx X i = .ok x → Sim Q (f x) (g x)) : Sim Q (BigIntegerCpp.idx X i >>= f) (m.load ⟨b, 0⟩ i >>= g) := by
  rw [load_block h]; exact Sim.same hf

theorem refresh_sim {b : MBuf} {B : BitsBuffer} {m : Mem} (n : Nat) (h : Holds m b B) :
    Sim (Became m b B.bits.length [b.blk]) (B.refresh n) (b.refresh n m) := by
  unfold BitsBuffer.refresh MBuf.refresh
  rw [h.len]
  refine Sim.bind (P := fun bits m' => Holds m' ⟨b.blk, 0⟩ ⟨bits, 0⟩ ∧ m.Keeps m' [b.blk] ∧ bits.length = B.bits.length) (Sim.ite (fun _ => ?_) fun _ => ?_)
    fun bits m' _ h1 => ?_
  · refine Sim.left slice_or fun x hx => ?_
    obtain ⟨h1, -⟩ := slice_inv hx
    rw [fillMem_eq _ (h.inB h1)]
    have := h.write (t := List.replicate (B.length - n) (u32 n)) (by simpa using h1) 0
    rw [List.length_replicate] at this
    exact Sim.ok ⟨this, keeps_write m b.data _, by simp; omega⟩
  · exact Sim.ok ⟨⟨h.lt, h.bits, rfl⟩, Keeps.refl _ _, rfl⟩
  · obtain ⟨e1, e2, e3⟩ := h1
    refine Sim.bind (actualLength_sim (p := b.data) rfl e1.bits) fun x y _ hxy => ?_
    subst hxy
    exact Sim.ok ⟨rfl, ⟨e1.lt, e1.bits, rfl⟩, e2, e3⟩

theorem put_sim {b : MBuf} {bits : List Nat} {m : Mem} (i v : Nat) (h : Holds m ⟨b.blk, 0⟩ ⟨bits, 0⟩) :
    Sim (fun bits' m' => Holds m' ⟨b.blk, 0⟩ ⟨bits', 0⟩ ∧ m.Keeps m' [b.blk] ∧ bits'.length = bits.length) (put bits i v) (m.store b.data i v) := by
  unfold put
  by_cases hi : i < bits.length
  · have hin : m.InB b.data (i + 1) := h.inB (b := ⟨b.blk, 0⟩) (by exact hi)
    rw [if_pos hi, store_ok hin]
    refine Sim.ok ⟨⟨by rw [length_poke]; exact h.lt, ?_, rfl⟩, ⟨length_poke _ _ _, fun c hc => ?_⟩, by simp⟩
    · have hb : m.block b.blk = bits := h.bits
      simp only [MBuf.data]; rw [block_poke, if_pos (by rfl), hb]; simp
    · rw [block_poke, if_neg (by simpa [MBuf.data] using hc)]
  · rw [if_neg hi]; exact Sim.oob

theorem overwrite_sim {b : MBuf} {B : BitsBuffer} {m : Mem} (v : Nat) (h : Holds m b B) :
    Sim (Became m b B.bits.length [b.blk]) (B.overwrite v) (b.overwrite v m) := by
  unfold BitsBuffer.overwrite MBuf.overwrite
  rw [h.len]
  refine Sim.bind (P := fun bits m' => Holds m' ⟨b.blk, 0⟩ ⟨bits, 0⟩ ∧ m.Keeps m' [b.blk] ∧ bits.length = B.bits.length) (Sim.ite (fun _ => ?_) fun _ => ?_)
    fun bits m' _ h1 => ?_
  · refine Sim.left slice_or fun x hx => ?_
    obtain ⟨h1, -⟩ := slice_inv hx
    rw [fillMem_eq _ (h.inB h1)]
    have := h.write (t := List.replicate (B.length - 2) 2) (by simpa using h1) 0
    rw [List.length_replicate] at this
    exact Sim.ok ⟨this, keeps_write m b.data _, by simp; omega⟩
  · exact Sim.ok ⟨⟨h.lt, h.bits, rfl⟩, Keeps.refl _ _, rfl⟩
  · obtain ⟨e1, e2, e3⟩ := h1
    refine Sim.bind (put_sim 0 _ e1) fun bits1 m1 _ h2 => ?_
    refine Sim.bind (put_sim 1 _ h2.1) fun bits2 m2 _ h3 => ?_
    exact Sim.ok ⟨rfl, ⟨h3.1.lt, h3.1.bits, rfl⟩, (e2.trans' h2.2.1).trans' h3.2.1, by simp only; omega⟩

theorem extractDigits_sim {x y : MBuf} {X Y : BitsBuffer} {m : Mem} (hx : Holds m x X) (hy : Holds m y Y) :
    Sim (fun p q => q = (p, m)) (extractDigits X Y) (extractDigitsMem x y m) := by
  unfold extractDigits extractDigitsMem
  simp only [Mem.alloc]
  rw [hx.len, hy.len, hx.bits, block_append_left hy.lt, hy.bits]
  generalize hm : m ++ [X.bits] ++ [Y.bits] = m2
  have b1 : m2.block m.length = X.bits := by rw [← hm, block_append_left (by simp), block_last]
  have b2 : m2.block (List.length (m ++ [X.bits])) = Y.bits := by rw [← hm, block_last]
  have hr : m2.release m.length = m := by rw [← hm, List.append_assoc, release_append]
  refine Sim.same fun _ _ => Sim.same fun _ _ => Sim.same fun _ _ => ?_
  refine Sim.ite (fun _ => Sim.oob) fun _ => ?_
  refine Sim.idx b1 fun xh _ => Sim.idx b1 fun xm _ => Sim.idx b1 fun xl _ => ?_
  refine Sim.bind (P := fun p q => q = p) (Sim.ite (fun _ => ?_) fun _ => Sim.ite (fun _ => ?_) fun _ => Sim.ite (fun _ => ?_) fun _ => Sim.ok rfl) fun p q _ h => ?_
  · exact Sim.idx b2 fun _ _ => Sim.idx b2 fun _ _ => Sim.idx b2 fun _ _ => Sim.ok rfl
  · exact Sim.idx b2 fun _ _ => Sim.idx b2 fun _ _ => Sim.ok rfl
  · exact Sim.idx b2 fun _ _ => Sim.ok rfl
  · subst h
    obtain ⟨yh, ym, yl⟩ := q
    refine Sim.ite (fun _ => Sim.ub) fun _ => ?_
    refine Sim.same fun _ _ => Sim.ok ?_
    rw [hr]

theorem lehmerLoop_sim {a b c d : Int} {bx by' : Nat} (hne : bx ≠ by') (length : Nat) : ∀ (n i : Nat) (xs ys : List Nat) (xc yc : Int) (m : Mem),
    n + i = length → (m.block bx).drop i = xs → (m.block by').drop i = ys →
    Sim (fun _ (q : Nat × Int × Int × Mem) => m.Keeps q.2.2.2 [bx, by']) (lehmerLoop a b c d n xs ys xc yc)
      (forLoop length (fun i ((xc : Int), (yc : Int), m) => do
        let xi ← m.load ⟨bx, 0⟩ i
        let yi ← m.load ⟨by', 0⟩ i
        let p ← long (a * xi)
        let q ← long (b * yi)
        let e ← long (p - q)
        let xDigit ← long (e + xc)
        let p ← long (d * yi)
        let q ← long (c * xi)
        let e ← long (p - q)
        let yDigit ← long (e + yc)
        let m ← m.store ⟨bx, 0⟩ i (u32i xDigit)
        let m ← m.store ⟨by', 0⟩ i (u32i yDigit)
        .ok (xDigit / 4294967296, yDigit / 4294967296, m)) i (xc, yc, m)) := by
  intro n
  induction n with
  | zero =>
    intro i xs ys xc yc m hi _ _
    rw [forLoop_ge _ _ (by omega), lehmerLoop]
    exact Sim.ok (Keeps.refl _ _)
  | succ n ih =>
    intro i xs ys xc yc m hi h1 h2
    rw [forLoop_lt _ _ (by omega)]
    cases xs with
    | nil => rw [lehmerLoop.eq_def]; exact Sim.oob
    | cons x xs =>
    cases ys with
    | nil => rw [lehmerLoop.eq_def]; exact Sim.oob
    | cons y ys =>
      have lx : i < (m.block bx).length := by
        by_contra hc; rw [List.drop_eq_nil_of_le (by omega)] at h1; cases h1
      have ly : i < (m.block by').length := by
        by_contra hc; rw [List.drop_eq_nil_of_le (by omega)] at h2; cases h2
      rw [List.drop_eq_getElem_cons lx] at h1
      rw [List.drop_eq_getElem_cons ly] at h2
      obtain ⟨e1, e2⟩ := List.cons.inj h1
      obtain ⟨e3, e4⟩ := List.cons.inj h2
      have d1 : m.load ⟨bx, 0⟩ i = .ok x := by rw [load_block rfl]; unfold BigIntegerCpp.idx; rw [List.getElem?_eq_getElem lx, e1]
      have d2 : m.load ⟨by', 0⟩ i = .ok y := by rw [load_block rfl]; unfold BigIntegerCpp.idx; rw [List.getElem?_eq_getElem ly, e3]
      rw [lehmerLoop]
      simp only [d1, d2, Res.ok_bind, Res.bind_assoc]
      refine Sim.same fun _ _ => Sim.same fun _ _ => Sim.same fun _ _ => Sim.same fun xd _ => Sim.same fun _ _ => Sim.same fun _ _ => Sim.same fun _ _ =>
        Sim.same fun yd _ => ?_
      rw [store_ok (by unfold InB Mem.size; simp only; omega), Res.ok_bind]
      generalize hm1 : m.poke (Ptr.plus ⟨bx, 0⟩ i) (u32i xd) = m1
      have bl1 : ∀ b, m1.block b = if b = bx then (m.block b).set i (u32i xd) else m.block b := fun b => by
        rw [← hm1, block_poke]; simp
      rw [store_ok (by unfold InB Mem.size; simp only; rw [bl1, if_neg hne.symm]; omega), Res.ok_bind]
      generalize hm2 : m1.poke (Ptr.plus ⟨by', 0⟩ i) (u32i yd) = m2
      have bl2 : ∀ b, m2.block b = if b = by' then (m1.block b).set i (u32i yd) else m1.block b := fun b => by
        rw [← hm2, block_poke]; simp
      refine (ih (i + 1) xs ys _ _ m2 (by omega) ?_ ?_).mono fun _ q _ hq => ?_
      · rw [bl2, if_neg hne, bl1, if_pos rfl, List.drop_set_of_lt (by omega), e2]
      · rw [bl2, if_pos rfl, bl1, if_neg hne.symm, List.drop_set_of_lt (by omega), e4]
      · refine Keeps.trans' ⟨?_, fun b hb => ?_⟩ hq
        · rw [← hm2, length_poke, ← hm1, length_poke]
        · simp only [List.mem_cons, List.not_mem_nil, or_false, not_or] at hb
          rw [bl2, if_neg hb.2, bl1, if_neg hb.1]

/-- The two buffers become the ones of `p`; no other block changes. -/
def Both (m : Mem) (l r : MBuf) (p : BitsBuffer × BitsBuffer) (q : MBuf × MBuf × Mem) : Prop :=
  q.1.blk = l.blk ∧ q.2.1.blk = r.blk ∧ Holds q.2.2 q.1 p.1 ∧ Holds q.2.2 q.2.1 p.2 ∧ m.Keeps q.2.2 [l.blk, r.blk]

omit [Cfg] in
theorem Holds.cut {m : Mem} {b : MBuf} {B : BitsBuffer} {n : Nat} (h : Holds m b B) (hb : b.blk < n) : Holds (m.release n) b B :=
  ⟨by have := h.lt; unfold Mem.release; rw [List.length_take]; omega, by rw [block_release hb, h.bits], h.len⟩

theorem lehmerCore_sim {x y : MBuf} {X Y : BitsBuffer} {m : Mem} (g : Guess) (hx : Holds m x X) (hy : Holds m y Y) (hne : x.blk ≠ y.blk) :
    Sim (Both m x y) (lehmerCore X Y g) (lehmerCoreMem x y g m) := by
  unfold lehmerCore lehmerCoreMem
  simp only [Mem.alloc]
  rw [hx.len, hy.len, hx.bits, block_append_left hy.lt, hy.bits]
  have lx := hx.lt
  have ly := hy.lt
  have b1 : block (m ++ [X.bits] ++ [Y.bits]) m.length = X.bits := by rw [block_append_left (by simp), block_last]
  have b2 : block (m ++ [X.bits] ++ [Y.bits]) (List.length (m ++ [X.bits])) = Y.bits := by rw [block_last]
  refine Sim.same fun _ _ => Sim.same fun _ _ => Sim.same fun _ _ => Sim.same fun _ _ => Sim.same fun _ _ => ?_
  refine Sim.bind (lehmerLoop_sim (by simp) Y.length Y.length 0 X.bits Y.bits 0 0 (m ++ [X.bits] ++ [Y.bits]) rfl (by rw [b1]; rfl) (by rw [b2]; rfl))
    fun _ ⟨i, xc, yc, m3⟩ _ h3 => ?_
  simp only at h3 ⊢
  have hx3 : Holds m3 x X := ((hx.append _).append _).keep h3 (by simp; omega)
  have hy3 : Holds m3 y Y := ((hy.append _).append _).keep h3 (by simp; omega)
  refine Sim.bind (refresh_sim _ hx3) fun X1 ⟨x1, m4⟩ _ h4 => ?_
  obtain ⟨e1, e2, e3, e4⟩ := h4
  simp only at e1 e2 e3 e4 ⊢
  refine Sim.bind (refresh_sim _ (hy3.keep e3 (by simpa using hne.symm))) fun Y1 ⟨y1, m5⟩ _ h5 => ?_
  obtain ⟨f1, f2, f3, f4⟩ := h5
  simp only at f1 f2 f3 f4 ⊢
  have n5 : m5.length = m.length + 2 := by rw [f3.1, e3.1, h3.1]; simp
  refine Sim.ok ⟨e1, f1, ?_, ?_, ⟨length_release (by omega), fun b hb => ?_⟩⟩
  · exact (e2.keep f3 (by rw [e1]; simpa using hne)).cut (by rw [e1]; exact lx)
  · exact f2.cut (by rw [f1]; exact ly)
  · simp only [List.mem_cons, List.not_mem_nil, or_false, not_or] at hb
    simp only
    by_cases hbm : b < m.length
    · rw [block_release hbm, f3.2 _ (by simpa using hb.2), e3.2 _ (by simpa using hb.1), h3.2 _ (by simp; omega), List.append_assoc, block_append_left hbm]
    · unfold Mem.release block
      rw [List.getD_eq_default _ _ (by rw [List.length_take]; omega), List.getD_eq_default _ _ (by omega)]

theorem swap_both {l r : MBuf} {L R : BitsBuffer} {m : Mem} (hl : Holds m l L) (hr : Holds m r R) (hne : l.blk ≠ r.blk) :
    Both m l r (R, L) (swapMem l r m) := by
  unfold swapMem
  simp only [Mem.alloc]
  have l1 := hl.lt
  have l2 := hr.lt
  generalize hm3 : Mem.assign (Mem.assign (m ++ [m.block l.blk]) l.blk r.blk) r.blk m.length = m3
  have n3 : m3.length = m.length + 1 := by rw [← hm3, length_assign, length_assign]; simp
  have hb3 : ∀ b, b < m.length → m3.block b = if b = r.blk then L.bits else if b = l.blk then R.bits else m.block b := by
    intro b hb
    rw [← hm3, block_assign _ _ _ (by rw [length_assign]; simp; omega), block_assign _ _ _ (by simp; omega), if_neg (show ¬ m.length = l.blk by omega), block_last,
      hl.bits, block_assign _ _ _ (by simp; omega), block_append_left l2, hr.bits, block_append_left hb]
  refine ⟨rfl, rfl, ⟨?_, ?_, hr.len⟩, ⟨?_, ?_, hl.len⟩, ⟨length_release (by omega), fun b hb => ?_⟩⟩
  · simp only; rw [length_release (by omega)]; exact l1
  · simp only; rw [block_release l1, hb3 _ l1, if_neg hne, if_pos rfl]
  · simp only; rw [length_release (by omega)]; exact l2
  · simp only; rw [block_release l2, hb3 _ l2, if_pos rfl]
  · simp only [List.mem_cons, List.not_mem_nil, or_false, not_or] at hb
    simp only
    by_cases hbm : b < m.length
    · rw [block_release hbm, hb3 _ hbm, if_neg hb.2, if_neg hb.1]
    · unfold Mem.release block
      rw [List.getD_eq_default _ _ (by rw [List.length_take]; omega), List.getD_eq_default _ _ (by omega)]

theorem reduceBy_sim {l r : MBuf} {L R : BitsBuffer} {m : Mem} (hl : Holds m l L) (hr : Holds m r R) (hne : l.blk ≠ r.blk) (h0 : 1 ≤ R.length) :
    Sim (Became m l L.bits.length [l.blk]) (L.reduceBy R) (l.reduce r.data r.length m) := by
  unfold BitsBuffer.reduceBy
  refine Sim.left slice_or fun xs hx => ?_
  obtain ⟨h1, rfl⟩ := slice_inv hx
  have hlen : (R.bits.take R.length).length = R.length := by rw [List.length_take]; omega
  have := reduce_sim hl (hr.at' R.length) hne.symm (by rw [hlen]; exact h0)
  rw [hlen] at this
  rw [hr.len]
  exact this

theorem Both.trans {m m' : Mem} {l r l' r' : MBuf} {p : BitsBuffer × BitsBuffer} {q : MBuf × MBuf × Mem} (h : Both m' l' r' p q)
    (e1 : l'.blk = l.blk) (e2 : r'.blk = r.blk) (hk : m.Keeps m' [l.blk, r.blk]) : Both m l r p q := by
  obtain ⟨h1, h2, h3, h4, h5⟩ := h
  rw [e1, e2] at h5
  exact ⟨h1.trans e1, h2.trans e2, h3, h4, hk.trans' h5⟩

theorem gcdLoop_sim : ∀ (fuel : Nat) {l r : MBuf} {L R : BitsBuffer} {m : Mem}, Holds m l L → Holds m r R → l.blk ≠ r.blk →
    Sim (fun p q => Both m l r p q ∧ p.2.length ≤ 2) (gcdLoop fuel L R) (gcdLoopMem fuel l r m) := by
  intro fuel
  induction fuel with
  | zero => intro l r L R m _ _ _; exact Sim.diverge
  | succ fuel ih =>
    intro l r L R m hl hr hne
    rw [gcdLoop, gcdLoopMem, hr.len]
    refine Sim.ite (fun h0 => ?_) fun h0 => Sim.ok ⟨⟨rfl, rfl, hl, hr, Keeps.refl _ _⟩, by simp only; omega⟩
    refine Sim.bind (extractDigits_sim hl hr) fun ⟨x, y⟩ q _ hq => ?_
    subst hq
    refine Sim.same fun g _ => ?_
    refine Sim.ite (fun _ => ?_) fun _ => ?_
    · have hred := reduceBy_sim hl hr hne (by omega)
      rw [hr.len] at hred
      refine Sim.bind hred fun L1 ⟨l1, m1⟩ _ h1 => ?_
      obtain ⟨e1, e2, e3, e4⟩ := h1
      simp only at e1 e2 e3 e4 ⊢
      have hr1 := hr.keep e3 (by simpa using hne.symm)
      obtain ⟨s1, s2, s3, s4, s5⟩ := swap_both e2 hr1 (by rw [e1]; exact hne)
      rw [e1] at s1 s5
      refine (ih s3 s4 (by rw [s1, s2]; exact hne)).mono fun p q _ hq => ⟨?_, hq.2⟩
      exact hq.1.trans s1 s2 ((e3.mono (by simp)).trans' s5)
    · refine Sim.bind (lehmerCore_sim g hl hr hne) fun ⟨L1, R1⟩ ⟨l1, r1, m1⟩ _ h1 => ?_
      obtain ⟨e1, e2, e3, e4, e5⟩ := h1
      simp only at e1 e2 e3 e4 e5 ⊢
      refine Sim.ite (fun _ => ?_) fun _ => ?_
      · obtain ⟨s1, s2, s3, s4, s5⟩ := swap_both e3 e4 (by rw [e1, e2]; exact hne)
        rw [e1] at s1 s5
        rw [e2] at s2 s5
        refine (ih s3 s4 (by rw [s1, s2]; exact hne)).mono fun p q _ hq => ⟨?_, hq.2⟩
        exact hq.1.trans s1 s2 (e5.trans' s5)
      · refine (ih e3 e4 (by rw [e1, e2]; exact hne)).mono fun p q _ hq => ⟨?_, hq.2⟩
        exact hq.1.trans e1 e2 e5

theorem gcdBuffers_sim (fuel : Nat) {l r : MBuf} {L R : BitsBuffer} {m : Mem} (hl : Holds m l L) (hr : Holds m r R) (hne : l.blk ≠ r.blk) :
    Sim (fun B (q : MBuf × Mem) => Holds q.2 q.1 B ∧ m.Keeps q.2 [l.blk, r.blk]) (gcdBuffers fuel L R) (gcdBuffersMem fuel l r m) := by
  unfold gcdBuffers gcdBuffersMem
  rw [hl.len, hr.len]
  refine Sim.same fun _ _ => Sim.same fun _ _ => Sim.same fun _ _ => ?_
  refine Sim.bind (gcdLoop_sim fuel hl hr hne) fun ⟨L1, R1⟩ ⟨l1, r1, m1⟩ _ h1 => ?_
  obtain ⟨⟨e1, e2, e3, e4, e5⟩, e6⟩ := h1
  simp only at e1 e2 e3 e4 e5 e6 ⊢
  rw [e4.len]
  refine Sim.ite (fun h0 => ?_) fun _ => Sim.ok ⟨e3, e5⟩
  have hred := reduceBy_sim e3 e4 (by rw [e1, e2]; exact hne) (by omega)
  rw [e4.len] at hred
  refine Sim.bind hred fun L2 ⟨l2, m2⟩ _ h2 => ?_
  obtain ⟨f1, f2, f3, f4⟩ := h2
  simp only [Mem.alloc] at f1 f2 f3 f4 ⊢
  have hr2 := e4.keep f3 (by rw [e1, List.mem_singleton, e2]; exact hne.symm)
  have lr := hr2.lt
  have ll := f2.lt
  rw [hr2.bits, block_append_left ll, f2.bits]
  have b1 : block (m2 ++ [R1.bits] ++ [L2.bits]) m2.length = R1.bits := by rw [block_append_left (by simp), block_last]
  have b2 : block (m2 ++ [R1.bits] ++ [L2.bits]) (List.length (m2 ++ [R1.bits])) = L2.bits := by rw [block_last]
  refine Sim.idx b1 fun x1 hx1 => Sim.idx b1 fun x0 _ => Sim.idx b2 fun y1 _ => Sim.idx b2 fun y0 _ => ?_
  rw [show ∀ v, BitsBuffer.overwrite L2 v = (BitsBuffer.overwrite L2 v >>= fun x => .ok x) from fun v => by cases BitsBuffer.overwrite L2 v <;> rfl]
  refine Sim.bind (overwrite_sim _ ((f2.append _).append _)) fun L3 ⟨l3, m3⟩ _ h3 => ?_
  obtain ⟨g1, g2, g3, g4⟩ := h3
  simp only at g1 g2 g3 g4 ⊢
  have hr3 := ((hr2.append [R1.bits]).append [L2.bits]).keep g3 (by rw [f1, e1, List.mem_singleton, e2]; exact hne.symm)
  have hR : 1 < R1.bits.length := by
    unfold BigIntegerCpp.idx at hx1
    by_contra hc
    rw [List.getElem?_eq_none (by omega)] at hx1
    cases hx1
  have ho : R1.overwrite 0 = .ok ⟨(R1.bits.set 0 0).set 1 0, 0⟩ := by
    unfold BitsBuffer.overwrite
    rw [if_neg (by omega), Res.ok_bind]
    unfold put
    simp only
    rw [if_pos (by omega), Res.ok_bind, if_pos (by rw [List.length_set]; exact hR), Res.ok_bind]
    rfl
  have := overwrite_sim 0 hr3
  rw [ho] at this
  obtain ⟨⟨r4, m4⟩, hm4, k1, k2, k3, k4⟩ := this
  simp only at k1 k2 k3 k4
  rw [hm4, Res.ok_bind]
  have n4 : m4.length = m2.length + 2 := by rw [k3.1, g3.1]; simp
  refine Sim.ok ⟨?_, ⟨by simp only; rw [length_release (by omega), f3.1, e5.1], fun b hb => ?_⟩⟩
  · exact (g2.keep k3 (by rw [g1, f1, e1, List.mem_singleton, e2]; exact hne)).cut (by rw [g1]; exact ll)
  · simp only [List.mem_cons, List.not_mem_nil, or_false, not_or] at hb
    simp only
    have n2 : m2.length = m.length := by rw [f3.1, e5.1]
    by_cases hbm : b < m.length
    · rw [block_release (by omega), k3.2 _ (by rw [e2, List.mem_singleton]; exact hb.2), g3.2 _ (by rw [f1, e1, List.mem_singleton]; exact hb.1), List.append_assoc,
        block_append_left (by omega), f3.2 _ (by rw [e1, List.mem_singleton]; exact hb.1), e5.2 _ (by simp; exact hb)]
    · unfold Mem.release block
      rw [List.getD_eq_default _ _ (by rw [List.length_take]; omega), List.getD_eq_default _ _ (by omega)]

theorem gcdVec_sim (fuel : Nat) {left right : Ptr} {xs ys : List Nat} {m : Mem} (hx : m.At left xs) (hy : m.At right ys)
    (hxb : left.blk < m.length) (hyb : right.blk < m.length) :
    Sim (fun ws q => q = (ws, m)) (gcdVec fuel xs ys) (gcdVecMem fuel left xs.length right ys.length m) := by
  unfold gcdVec gcdVecMem
  refine Sim.same fun _ _ => Sim.same fun _ _ => ?_
  rw [compareMem_eq hx hy]
  refine Sim.bind (P := fun _ _ => True) ?_ fun _ _ _ _ => ?_
  · simp only [Res.ok_bind]
    unfold cassert
    cases hn : Cfg.ndebug
    · by_cases hc : compareWords xs ys ≥ 0 <;> simp [hc] <;> first | exact Sim.ok trivial | rfl
    · simp; exact Sim.ok trivial
  simp only
  refine Sim.bind (ofWords_sim hx hxb) fun L ql _ h1 => ?_
  refine Sim.bind (ofWords_sim (h1.grows.at hyb hy) (by have := h1.grows.1; omega)) fun R qr _ h2 => ?_
  have n1 : ql.1.blk = m.length := by rw [show ql = _ from h1]
  have n2 : ql.2.length = m.length + 1 := by rw [show ql = _ from h1]; simp
  have n3 : qr.1.blk = m.length + 1 := by rw [show qr = _ from h2]; exact n2
  refine Sim.bind (gcdBuffers_sim fuel (h1.holds.grow h2.grows) h2.holds (by omega)) fun B q _ h3 => ?_
  refine Sim.ok ?_
  rw [h3.1.bits, ((h1.grows.trans h2.grows).keeps h3.2 (by simp; omega)).release]

end BigIntegerCpp
