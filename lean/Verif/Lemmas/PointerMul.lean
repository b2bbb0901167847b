import Verif.Lemmas.Pointer
/-
Multiplication and squaring on pointers.
-/
set_option linter.unusedSectionVars false
set_option linter.unnecessarySeqFocus false
namespace BigIntegerCpp
open Mem
variable [Cfg]

theorem subtractCoreMem_tail {lhs core : Ptr} {n N : Nat} (zs xs : List Nat) (c : Int) (i : Nat) (m : Mem)
    (hN : N = i + zs.length) (hn : n = i + xs.length) (hl : xs.length ≤ zs.length)
    (hz : m.At (core.plus i) zs) (hx : m.At (lhs.plus i) xs)
    (hd : Disj (core.plus i) zs.length (lhs.plus i) xs.length) :
    (do
      let (i, carry, m) ← forLoop n (fun i ((carry : Int), m) => do
        let z ← m.load core i
        let a ← m.load lhs i
        let digit ← long ((z : Int) + carry - a)
        let m ← m.store core i (u32i digit)
        .ok (digit / 4294967296, m)) i (c, m)
      carryMem core N i carry m)
      = (subtractCoreLoop zs xs [] c >>= fun r => .ok (r.2, m.write (core.plus i) r.1)) := by
  induction xs generalizing zs c i m with
  | nil =>
    rw [forLoop_ge _ _ (by simp at hn; omega)]
    simp only [Res.ok_bind, carryMem_eq zs c i m hN hz, subtractCoreLoop]
  | cons x xs ih =>
    cases zs with
    | nil => simp at hl
    | cons z zs =>
    have hb := hz.length_le (by simp)
    rw [forLoop_lt _ _ (by simp at hn; omega)]
    simp only [At.head hx, At.head hz, Res.ok_bind, subtractCoreLoop]
    cases hL : long ((z : Int) + c - x) with
    | ok d =>
      simp only [Res.ok_bind, store_next hb]
      rw [ih zs]
      · simp only [write_next, Res.bind_assoc, Res.ok_bind]
      · simp at hN; omega
      · simp at hn; omega
      · simpa using hl
      · exact at_poke (Disj.plus_self core (Nat.le_refl _)) (At.tail hz)
      · exact at_poke (Disj.head hd) (At.tail hx)
      · exact Disj.next hd
    | _ => rfl

theorem subtractCoreMem_loop {lhs rhs core : Ptr} {k n N : Nat} (zs xs ys : List Nat) (c : Int) (i : Nat) (m : Mem)
    (hN : N = i + zs.length) (hn : n = i + xs.length) (hk : k = i + ys.length) (hl : xs.length ≤ zs.length)
    (hl' : ys.length ≤ xs.length)
    (hz : m.At (core.plus i) zs) (hx : m.At (lhs.plus i) xs) (hy : m.At (rhs.plus i) ys)
    (hd : Disj (core.plus i) zs.length (lhs.plus i) xs.length)
    (hd' : Disj (core.plus i) zs.length (rhs.plus i) ys.length) :
    (do
      let (i, carry, m) ← forLoop k (fun i ((carry : Int), m) => do
        let z ← m.load core i
        let a ← m.load lhs i
        let b ← m.load rhs i
        let digit ← long ((z : Int) + carry - a - b)
        let m ← m.store core i (u32i digit)
        .ok (digit / 4294967296, m)) i (c, m)
      let (i, carry, m) ← forLoop n (fun i ((carry : Int), m) => do
        let z ← m.load core i
        let a ← m.load lhs i
        let digit ← long ((z : Int) + carry - a)
        let m ← m.store core i (u32i digit)
        .ok (digit / 4294967296, m)) i (carry, m)
      carryMem core N i carry m)
      = (subtractCoreLoop zs xs ys c >>= fun r => .ok (r.2, m.write (core.plus i) r.1)) := by
  induction ys generalizing zs xs c i m with
  | nil =>
    rw [forLoop_ge _ _ (by simp at hk; omega)]
    simp only [Res.ok_bind]
    exact subtractCoreMem_tail zs xs c i m hN hn hl hz hx hd
  | cons y ys ih =>
    cases xs with
    | nil => simp at hl'
    | cons x xs =>
    cases zs with
    | nil => simp at hl
    | cons z zs =>
    have hb := hz.length_le (by simp)
    rw [forLoop_lt _ _ (by simp at hk; omega)]
    simp only [At.head hx, At.head hz, At.head hy, Res.ok_bind, subtractCoreLoop]
    cases hL : long ((z : Int) + c - x - y) with
    | ok d =>
      simp only [Res.ok_bind, store_next hb]
      rw [ih zs xs]
      · simp only [write_next, Res.bind_assoc, Res.ok_bind]
      · simp at hN; omega
      · simp at hn; omega
      · simp at hk; omega
      · simpa using hl
      · simpa using hl'
      · exact at_poke (Disj.plus_self core (Nat.le_refl _)) (At.tail hz)
      · exact at_poke (Disj.head hd) (At.tail hx)
      · exact at_poke (Disj.head hd') (At.tail hy)
      · exact Disj.next hd
      · exact Disj.next hd'
    | _ => rfl

theorem subtractCoreMem_eq {lhs rhs core : Ptr} {zs xs ys : List Nat} {m : Mem} (hl : xs.length ≤ zs.length)
    (hl' : ys.length ≤ xs.length) (hz : m.At core zs) (hx : m.At lhs xs) (hy : m.At rhs ys)
    (hd : Disj core zs.length lhs xs.length) (hd' : Disj core zs.length rhs ys.length) :
    subtractCoreMem lhs xs.length rhs ys.length core zs.length m
      = (subtractCore xs ys zs >>= fun r => .ok (m.write core r)) := by
  have h := subtractCoreMem_loop (lhs := lhs) (rhs := rhs) (core := core) zs xs ys 0 0 m (Nat.zero_add _).symm
    (Nat.zero_add _).symm (Nat.zero_add _).symm hl hl' hz hx hy hd hd'
  have h2 := congrArg (fun z => z >>= fun r => Res.ok r.2) h
  simp only [Res.bind_assoc, Res.ok_bind] at h2
  unfold subtractCoreMem subtractCore
  simp only [Res.bind_assoc, Res.ok_bind]
  exact congrArg (fun z => cassert (xs.length ≥ ys.length) >>= fun _ => cassert (zs.length ≥ xs.length) >>= fun _ => z) h2

/-- One row of the school multiplication. -/
theorem mulRowMem_eq {left right bits : Ptr} {n i r : Nat} (bs ls : List Nat) (c j : Nat) (m : Mem)
    (hn : n = j + ls.length) (hl : ls.length + 1 ≤ bs.length)
    (hb : m.At (bits.plus (i + j)) bs) (hx : m.At (left.plus j) ls) (hr : m.load right i = .ok r)
    (hd : Disj (bits.plus (i + j)) bs.length (left.plus j) ls.length)
    (hd' : Disj (bits.plus (i + j)) bs.length (right.plus i) 1) :
    (do
      let (_, carry, m) ← forLoop n (fun j (carry, m) => do
        let z ← m.load bits (i + j)
        let a ← m.load left j
        let b ← m.load right i
        let digits := u64 (u64 (z + carry) + u64 (a * b))
        let m ← m.store bits (i + j) (u32 digits)
        .ok (digits / 4294967296, m)) j (c, m)
      m.store bits (i + n) (u32 carry))
      = (mulRow bs ls r c >>= fun t => .ok (m.write (bits.plus (i + j)) t)) := by
  induction ls generalizing bs c j m with
  | nil =>
    cases bs with
    | nil => simp at hl
    | cons b bs =>
      simp only [List.length_nil, Nat.add_zero] at hn
      subst hn
      rw [forLoop_ge _ _ (Nat.le_refl _)]
      simp only [Res.ok_bind, mulRow, store_next (hb.length_le (by simp)), write_next]
      rw [write_self]
      exact at_poke (Disj.plus_self bits (Nat.le_refl _)) (At.tail hb)
  | cons l ls ih =>
    cases bs with
    | nil => simp at hl
    | cons b bs =>
      rw [forLoop_lt _ _ (by simp at hn; omega)]
      simp only [At.head hb, At.head hx, hr, Res.ok_bind, store_next (hb.length_le (by simp)), mulRow]
      rw [ih bs]
      · simp only [write_next, Res.bind_assoc, Res.ok_bind, Nat.add_assoc]
      · simp at hn; omega
      · simpa using hl
      · exact at_poke (Disj.plus_self bits (Nat.le_refl _)) (At.tail hb)
      · exact at_poke (Disj.head hd) (At.tail hx)
      · rw [← hr, load_poke_ne]
        unfold Disj at hd'; simp only [Ptr.plus_blk, Ptr.plus_off, List.length_cons] at hd' ⊢
        omega
      · exact Disj.next hd
      · exact Disj.mono (k := bs.length) (n := 1) (by
          unfold Disj at *; simp only [Ptr.plus_blk, Ptr.plus_off, List.length_cons] at *; omega) (Nat.le_refl _) (Nat.le_refl _)

theorem mulRow_length {bs ls : List Nat} {r c : Nat} {t : List Nat} (h : mulRow bs ls r c = .ok t) : t.length = bs.length := by
  induction ls generalizing bs c t with
  | nil =>
    cases bs with
    | nil => cases h
    | cons b bs => injection h with h; subst h; rfl
  | cons l ls ih =>
    cases bs with
    | nil => cases h
    | cons b bs =>
      rw [mulRow] at h
      obtain ⟨a, h1, h2⟩ := Res.bind_eq_ok h
      injection h2 with h2; subst h2
      simp [ih h1]

theorem mulSchool_length {left rs bs t : List Nat} (h : mulSchool left rs bs = .ok t) : t.length = bs.length := by
  induction rs generalizing bs t with
  | nil => injection h with h; subst h; rfl
  | cons r rs ih =>
    rw [mulSchool] at h
    obtain ⟨a, h1, h2⟩ := Res.bind_eq_ok h
    have := mulRow_length h1
    cases a with
    | nil => cases h2
    | cons a as =>
      obtain ⟨u, h3, h4⟩ := Res.bind_eq_ok h2
      injection h4 with h4; subst h4
      rw [List.length_cons, ih h3, ← this, List.length_cons]

theorem mulSchoolMem_loop {left right bits : Ptr} {k : Nat} (ls rs bs : List Nat) (i : Nat) (m : Mem)
    (hk : k = i + rs.length) (hl : bs.length = ls.length + rs.length)
    (hb : m.At (bits.plus i) bs) (hx : m.At left ls) (hr : m.At (right.plus i) rs)
    (hd : Disj (bits.plus i) bs.length left ls.length)
    (hd' : Disj (bits.plus i) bs.length (right.plus i) rs.length) :
    forLoop k (fun i m => do
      let (_, carry, m) ← forLoop ls.length (fun j (carry, m) => do
        let z ← m.load bits (i + j)
        let a ← m.load left j
        let b ← m.load right i
        let digits := u64 (u64 (z + carry) + u64 (a * b))
        let m ← m.store bits (i + j) (u32 digits)
        .ok (digits / 4294967296, m)) 0 (0, m)
      m.store bits (i + ls.length) (u32 carry)) i m
    = (mulSchool ls rs bs >>= fun t => .ok (k, m.write (bits.plus i) t)) := by
  induction rs generalizing bs i m with
  | nil =>
    rw [forLoop_ge _ _ (by simp at hk; omega), mulSchool, Res.ok_bind, write_self hb]
    simp at hk; rw [hk]
  | cons r rs ih =>
    have row := mulRowMem_eq (left := left) (right := right) (bits := bits) (n := ls.length) (i := i) (r := r) bs ls 0 0 m
      (Nat.zero_add _).symm (by simp at hl; omega) hb hx (At.head hr) hd (hd'.mono (Nat.le_refl _) (by simp))
    rw [forLoop_lt _ _ (by simp at hk; omega)]
    simp only [mulSchool]
    rw [row]
    simp only [Res.bind_assoc, Res.ok_bind]
    refine bind_congr_of_ok fun t ht => ?_
    have hlen := mulRow_length ht
    cases t with
    | nil => simp at hlen; simp at hl; omega
    | cons b t =>
      have hb1 := hb.length_le (by rintro rfl; simp at hlen)
      have hw : (m.write (bits.plus (i + 0)) (b :: t)).At (bits.plus i) (b :: t) := at_write_self (by rw [hlen]; exact hb1)
      rw [ih t (i + 1) _ (by simp at hk; omega) (by simp at hl hlen; omega) (At.tail hw)
        (at_write (by rw [hlen]; exact hd) hx) (at_write (by ranges) (At.tail hr))
        (by ranges) (by ranges)]
      simp only [Res.bind_assoc, Res.ok_bind]
      refine bind_congr_of_ok fun u hu => ?_
      have hul := mulSchool_length hu
      simp only [Nat.add_zero, write_next]
      rw [write_write hul.symm]

theorem mulSchoolMem_eq {left right bits : Ptr} {ls rs bs : List Nat} {m : Mem}
    (hl : bs.length = ls.length + rs.length)
    (hb : m.At bits bs) (hx : m.At left ls) (hr : m.At right rs)
    (hd : Disj bits bs.length left ls.length) (hd' : Disj bits bs.length right rs.length) :
    mulSchoolMem left ls.length right rs.length bits m = (mulSchool ls rs bs >>= fun t => .ok (m.write bits t)) := by
  have h := mulSchoolMem_loop (left := left) (right := right) (bits := bits) ls rs bs 0 m (Nat.zero_add _).symm hl hb hx hr hd hd'
  unfold mulSchoolMem
  rw [h]
  simp only [Res.bind_assoc, Res.ok_bind, Ptr.plus_zero]

/-! Lengths of results. -/
theorem addLoop_length {xs ys : List Nat} {c : Nat} {t : List Nat} (h : addLoop xs ys c = .ok t) : t.length = xs.length + 1 := by
  induction xs generalizing ys c t with
  | nil =>
    cases ys with
    | nil => injection h with h; subst h; rfl
    | cons => cases h
  | cons x xs ih =>
    cases ys with
    | nil =>
      rw [addLoop] at h
      obtain ⟨a, h1, h2⟩ := Res.bind_eq_ok h
      injection h2 with h2; subst h2
      simp [ih h1]
    | cons y ys =>
      rw [addLoop] at h
      obtain ⟨a, h1, h2⟩ := Res.bind_eq_ok h
      injection h2 with h2; subst h2
      simp [ih h1]

theorem addPtr_length {xs ys : List Nat} {n : Nat} {t : List Nat} (h : addPtr xs ys n = .ok t) : t.length = xs.length + 1 := by
  unfold addPtr at h
  obtain ⟨_, _, h⟩ := Res.bind_eq_ok h
  obtain ⟨_, _, h⟩ := Res.bind_eq_ok h
  exact addLoop_length h

theorem carrySelf_length {xs : List Nat} {c : Int} {t : List Nat × Int} (h : carrySelf xs c = .ok t) : t.1.length = xs.length := by
  induction xs generalizing c t with
  | nil => injection h with h; subst h; rfl
  | cons x xs ih =>
    rw [carrySelf] at h
    by_cases hc : c = 0
    · rw [if_pos hc] at h; injection h with h; subst h; rfl
    · rw [if_neg hc] at h
      obtain ⟨d, h1, h2⟩ := Res.bind_eq_ok h
      obtain ⟨a, h3, h4⟩ := Res.bind_eq_ok h2
      injection h4 with h4; subst h4
      simp [ih h3]

theorem addSelfLoop_length {xs ys : List Nat} {c : Int} {t : List Nat × Int} (h : addSelfLoop xs ys c = .ok t) :
    t.1.length = xs.length := by
  induction ys generalizing xs c t with
  | nil => cases xs <;> exact carrySelf_length (by simpa [addSelfLoop] using h)
  | cons y ys ih =>
    cases xs with
    | nil => cases h
    | cons x xs =>
      rw [addSelfLoop] at h
      obtain ⟨d, h1, h2⟩ := Res.bind_eq_ok h
      obtain ⟨a, h3, h4⟩ := Res.bind_eq_ok h2
      injection h4 with h4; subst h4
      simp [ih h3]

theorem addSelf_length {xs ys t : List Nat} (h : addSelf xs ys = .ok t) : t.length = xs.length := by
  unfold addSelf at h
  obtain ⟨_, _, h⟩ := Res.bind_eq_ok h
  obtain ⟨a, h1, h⟩ := Res.bind_eq_ok h
  obtain ⟨_, _, h⟩ := Res.bind_eq_ok h
  injection h with h; subst h
  exact addSelfLoop_length h1

theorem subtractCoreLoop_length {zs xs ys : List Nat} {c : Int} {t : List Nat × Int}
    (h : subtractCoreLoop zs xs ys c = .ok t) : t.1.length = zs.length := by
  induction zs generalizing xs ys c t with
  | nil =>
    cases xs with
    | nil => cases ys with
      | nil => exact carrySelf_length (by simpa [subtractCoreLoop] using h)
      | cons => cases h
    | cons => cases ys <;> cases h
  | cons z zs ih =>
    cases xs with
    | nil => cases ys with
      | nil => exact carrySelf_length (by simpa [subtractCoreLoop] using h)
      | cons => cases h
    | cons x xs =>
      cases ys with
      | nil =>
        rw [subtractCoreLoop] at h
        obtain ⟨d, h1, h2⟩ := Res.bind_eq_ok h
        obtain ⟨a, h3, h4⟩ := Res.bind_eq_ok h2
        injection h4 with h4; subst h4
        simp [ih h3]
      | cons y ys =>
        rw [subtractCoreLoop] at h
        obtain ⟨d, h1, h2⟩ := Res.bind_eq_ok h
        obtain ⟨a, h3, h4⟩ := Res.bind_eq_ok h2
        injection h4 with h4; subst h4
        simp [ih h3]

theorem subtractCore_length {xs ys zs t : List Nat} (h : subtractCore xs ys zs = .ok t) : t.length = zs.length := by
  unfold subtractCore at h
  obtain ⟨_, _, h⟩ := Res.bind_eq_ok h
  obtain ⟨_, _, h⟩ := Res.bind_eq_ok h
  obtain ⟨a, h1, h⟩ := Res.bind_eq_ok h
  injection h with h; subst h
  exact subtractCoreLoop_length h1

theorem slice_in {α : Type} {xs : List α} {o n : Nat} (h : o + n ≤ xs.length) : slice xs o n = .ok ((xs.drop o).take n) := by
  unfold slice; rw [if_pos h]

theorem slice_zero {α : Type} {xs : List α} {n : Nat} (h : n ≤ xs.length) : slice xs 0 n = .ok (xs.take n) := by
  rw [slice_in (by omega)]; simp

theorem slice_rest {α : Type} {xs : List α} {n k : Nat} (h : n ≤ xs.length) (hk : k = xs.length - n) :
    slice xs n k = .ok (xs.drop n) := by
  rw [slice_in (by omega), List.take_of_length_le (by simp; omega)]

theorem mulCore_length (N : Nat) : ∀ {ls rs bs t : List Nat} {rl : Nat}, rl = N → rl = rs.length → rs.length ≤ ls.length →
    bs.length = ls.length + rs.length → mulCore ls rs bs rl = .ok t → t.length = bs.length := by
  induction N using Nat.strongRecOn with
  | _ N ih =>
  intro ls rs bs t rl hN hr hl hb h
  rw [mulCore, cassert_pos (by omega), Res.ok_bind, cassert_pos (by omega), Res.ok_bind] at h
  by_cases hs : rl < MultiplyThreshold
  · rw [dif_pos hs] at h; exact mulSchool_length h
  · rw [dif_neg hs] at h
    have h32 : 32 ≤ rl := by unfold MultiplyThreshold at hs; omega
    dsimp only at h
    rw [slice_zero (by omega), Res.ok_bind, slice_rest (by omega) rfl, Res.ok_bind, slice_zero (by omega), Res.ok_bind,
      slice_rest (by omega) (by omega), Res.ok_bind, slice_zero (by omega), Res.ok_bind,
      slice_rest (by omega) rfl, Res.ok_bind] at h
    obtain ⟨b0, h0, h⟩ := Res.bind_eq_ok h
    obtain ⟨b2, h2, h⟩ := Res.bind_eq_ok h
    obtain ⟨lf, hlf, h⟩ := Res.bind_eq_ok h
    obtain ⟨rf, hrf, h⟩ := Res.bind_eq_ok h
    obtain ⟨c1, hc1, h⟩ := Res.bind_eq_ok h
    obtain ⟨c2, hc2, h⟩ := Res.bind_eq_ok h
    obtain ⟨up, hup, h⟩ := Res.bind_eq_ok h
    obtain ⟨u, hu, h⟩ := Res.bind_eq_ok h
    injection h with h; subst h
    have l0 := ih (rl / 2) (by omega) rfl (by simp; omega) (by simp; omega) (by simp; omega) h0
    have l2 := ih (rl - rl / 2) (by omega) rfl (by simp; omega) (by simp; omega) (by simp; omega) h2
    have lu := addSelf_length hu
    rw [slice_rest (by simp at l0 l2 ⊢; omega) rfl] at hup
    injection hup with hup; subst hup
    simp at l0 l2 lu ⊢
    omega

theorem mulMem_eq (N : Nat) : ∀ {left right bits : Ptr} {ls rs bs : List Nat} {ll rl bl : Nat} {μ : Mem}, rl = N →
    ll = ls.length → rl = rs.length → bl = bs.length → rs.length ≤ ls.length → bs.length = ls.length + rs.length →
    μ.At bits bs → μ.At left ls → μ.At right rs → Disj bits bs.length left ls.length →
    Disj bits bs.length right rs.length →
    mulMem left ll right rl bits bl μ = (mulCore ls rs bs rl >>= fun t => .ok (μ.write bits t)) := by
  induction N using Nat.strongRecOn with
  | _ N ih =>
  intro left right bits ls rs bs ll rl bl m hN hll hr hbl hl hlen hb hx hy hd hd'
  rw [mulMem, mulCore, cassert_pos (by omega), Res.ok_bind, cassert_pos (by omega), Res.ok_bind,
    cassert_pos (by omega), Res.ok_bind, cassert_pos (by omega), Res.ok_bind]
  by_cases hs : rl < MultiplyThreshold
  · rw [dif_pos hs, dif_pos hs, hll, hr]; exact mulSchoolMem_eq hlen hb hx hy hd hd'
  · rw [dif_neg hs, dif_neg hs]
    have h32 : 32 ≤ rl := by unfold MultiplyThreshold at hs; omega
    generalize hn : rl / 2 = n
    have hn1 : 2 * n ≤ rl := by omega
    have hn0 : 16 ≤ n := by omega
    have hn2 : n < rl := by omega
    have hn3 : rl - n < rl := by omega
    have hn4 : rl ≤ 2 * n + 1 := by omega
    dsimp only
    rw [slice_zero (by omega), Res.ok_bind, slice_rest (by omega) rfl, Res.ok_bind, slice_zero (by omega), Res.ok_bind,
      slice_rest (by omega) (by omega), Res.ok_bind, slice_zero (by omega), Res.ok_bind,
      slice_rest (by omega) rfl, Res.ok_bind]
    have hbits := (hb.length_le (by rintro rfl; simp at hlen; omega)).blk_lt (by omega)
    rw [ih n (by omega) (ls := ls.take n) (rs := rs.take n) (bs := bs.take (n * 2)) rfl (by simp; omega) (by simp; omega)
      (by simp; omega) (by simp; omega) (by simp; omega) (hb.take _) (hx.take _) (hy.take _)
      (hd.mono (by simp; omega) (by simp; omega)) (hd'.mono (by simp; omega) (by simp; omega))]
    simp only [Res.bind_assoc, Res.ok_bind]
    refine bind_congr_of_ok fun b0 h0 => ?_
    have l0 := mulCore_length n rfl (by simp; omega) (by simp; omega) (by simp; omega) h0
    simp only [List.length_take] at l0
    rw [Nat.min_eq_left (by omega)] at l0
    have n2le : n * 2 ≤ bs.length := by omega
    have nle : n ≤ ls.length := by omega
    have nle' : n ≤ rs.length := by omega
    rw [ih (rl - n) (by omega) (ls := ls.drop n) (rs := rs.drop n) (bs := bs.drop (n * 2)) rfl (by simp; omega) (by simp; omega)
      (by simp; omega) (by simp; omega) (by simp; omega)
      (at_write (by rw [l0]; exact .inr (.inl (by simp))) (hb.drop n2le))
      (at_write (hd.right (by omega) (by simp; omega)) (hx.drop nle))
      (at_write (hd'.right (by omega) (by simp; omega)) (hy.drop nle'))
      (hd.sub (by simp; omega) (by simp; omega)) (hd'.sub (by simp; omega) (by simp; omega))]
    simp only [Res.bind_assoc, Res.ok_bind]
    refine bind_congr_of_ok fun b2 h2 => ?_
    have l2 := mulCore_length (rl - n) rfl (by simp; omega) (by simp; omega) (by simp; omega) h2
    simp only [List.length_drop] at l2
    have l0' : (n * 2) = b0.length := l0.symm
    have hM : (m.write bits b0).write (bits.plus (n * 2)) b2 = m.write bits (b0 ++ b2) := by rw [write_append, l0]
    rw [hM]
    have lM : (b0 ++ b2).length = bs.length := by simp; omega
    have Mb : (m.write bits (b0 ++ b2)).At bits (b0 ++ b2) := at_write_self (by rw [lM]; exact hb.length_le (by rintro rfl; simp at hlen; omega))
    have Mx : (m.write bits (b0 ++ b2)).At left ls := at_write (by rw [lM]; exact hd) hx
    have My : (m.write bits (b0 ++ b2)).At right rs := at_write (by rw [lM]; exact hd') hy
    have Mlt : bits.blk < (m.write bits (b0 ++ b2)).length := by rw [length_write]; exact hbits
    have hxb := (hx.length_le (List.ne_nil_of_length_pos (by omega))).blk_lt (by omega)
    have hyb := (hy.length_le (List.ne_nil_of_length_pos (by omega))).blk_lt (by omega)
    have hxb' : left.blk < (m.write bits (b0 ++ b2)).length := by rw [length_write]; exact hxb
    have hyb' : right.blk < (m.write bits (b0 ++ b2)).length := by rw [length_write]; exact hyb
    have hfin : ∀ u : List Nat, u.length = bs.length - n → (m.write bits (b0 ++ b2)).write (bits.plus n) u
        = m.write bits ((b0 ++ b2).take n ++ u) := by
      intro u hu
      conv_lhs => rw [← List.take_append_drop n (b0 ++ b2)]
      rw [write_append, write_append, List.length_take, lM, Nat.min_eq_left (by omega), write_write (by rw [List.length_drop, lM, hu])]
    generalize m.write bits (b0 ++ b2) = M at *
    have xl : (ls.drop n).length = ll - n := by simp; omega
    have xl' : (ls.take n).length = n := by simp; omega
    have yl : (rs.drop n).length = rl - n := by simp; omega
    have yl' : (rs.take n).length = n := by simp; omega
    simp only [Mem.alloc, List.append_assoc, List.cons_append, List.nil_append]
    rw [xl]
    have a1 := addMem_eq (lhs := left.plus n) (rhs := left) (bits := ⟨M.length, 0⟩) (xs := ls.drop n) (ys := ls.take n)
      (m := M ++ [List.replicate (ll - n + 1) 0, List.replicate (rl - n + 1) 0, List.replicate (ll - n + 1 + (rl - n + 1)) 0])
      (bl := ll - n + 1) (by omega) (at_append_mem (Mx.drop nle)) (at_append_mem (Mx.take n)) (inB_last (by simp; omega))
      (.inl (by simp; omega)) (.inl (by simp; omega))
    rw [xl, xl'] at a1
    rw [a1]
    simp only [Res.bind_assoc, Res.ok_bind]
    refine bind_congr_of_ok fun lf hlf => ?_
    have llf := addPtr_length hlf
    rw [write_last (by simp; omega)]
    have e1 : ∀ z2 z3 : List Nat, M ++ [lf, z2, z3] = (M ++ [lf]) ++ z2 :: [z3] := by intros; simp
    have a2 := addMem_eq (lhs := right.plus n) (rhs := right) (bits := ⟨(M ++ [lf]).length, 0⟩) (xs := rs.drop n) (ys := rs.take n)
      (m := (M ++ [lf]) ++ List.replicate (rl - n + 1) 0 :: [List.replicate (ll - n + 1 + (rl - n + 1)) 0])
      (bl := rl - n + 1) (by omega) (at_append_mem (at_append_mem (My.drop nle'))) (at_append_mem (at_append_mem (My.take n)))
      (inB_last (by simp; omega)) (.inl (by simp; omega)) (.inl (by simp; omega))
    rw [yl, yl', List.length_append, List.length_singleton] at a2
    simp only [List.length_append, List.length_cons, List.length_nil] at a2 ⊢
    rw [e1, a2]
    simp only [Res.bind_assoc, Res.ok_bind]
    refine bind_congr_of_ok fun rf hrf => ?_
    have lrf := addPtr_length hrf
    have w2 := write_last (m := M ++ [lf]) (ws := List.replicate (rl - n + 1) 0) (rs := rf)
      (e := [List.replicate (ll - n + 1 + (rl - n + 1)) 0]) (by simp; omega)
    simp only [List.length_append, List.length_cons, List.length_nil] at w2
    rw [w2]
    have e2 : ∀ z3 : List Nat, (M ++ [lf]) ++ rf :: [z3] = (M ++ [lf, rf]) ++ [z3] := by intros; simp
    have e3 : ∀ z3 : List Nat, (M ++ [lf, rf]) ++ [z3] = M ++ lf :: [rf, z3] := by intros; simp
    have e4 : ∀ z3 : List Nat, (M ++ [lf, rf]) ++ [z3] = (M ++ [lf]) ++ rf :: [z3] := by intros; simp
    have i1 : ∀ z3 : List Nat, At ((M ++ [lf, rf]) ++ [z3]) ⟨M.length, 0⟩ lf := fun z3 => by rw [e3]; exact at_last
    have i2 : ∀ z3 : List Nat, At ((M ++ [lf, rf]) ++ [z3]) ⟨M.length + 1, 0⟩ rf := fun z3 => by
      rw [e4]; have := at_last (m := M ++ [lf]) (ws := rf) (e := [z3]); simpa using this
    have i3 : ∀ z3 : List Nat, At ((M ++ [lf, rf]) ++ [z3]) ⟨M.length + 2, 0⟩ z3 := fun z3 => by
      have := at_last (m := M ++ [lf, rf]) (ws := z3) (e := []); simpa using this
    have w3 : ∀ z3 t : List Nat, t.length = z3.length → write ((M ++ [lf, rf]) ++ [z3]) ⟨M.length + 2, 0⟩ t = (M ++ [lf, rf]) ++ [t] := by
      intro z3 t ht
      have := write_last (m := M ++ [lf, rf]) (ws := z3) (rs := t) (e := []) ht
      simpa using this
    rw [e2]
    have hm := ih (rl - n + 1) (by omega) (left := ⟨M.length, 0⟩) (right := ⟨M.length + 1, 0⟩) (bits := ⟨M.length + 2, 0⟩)
      (ls := lf) (rs := rf) (bs := List.replicate (lf.length + (rl - n + 1)) 0) (ll := ll - n + 1) (rl := rl - n + 1)
      (bl := ll - n + 1 + (rl - n + 1)) (μ := (M ++ [lf, rf]) ++ [List.replicate (lf.length + (rl - n + 1)) 0])
      rfl (by omega) (by omega) (by simp; omega) (by omega) (by simp; omega) (i3 _) (i1 _) (i2 _)
      (.inl (by simp)) (.inl (by simp))
    have hlf1 : ll - n + 1 = lf.length := by omega
    rw [hlf1] at hm ⊢
    simp only [Nat.zero_add, Nat.reduceAdd] at hm ⊢
    rw [hm]
    simp only [Res.bind_assoc, Res.ok_bind]
    refine bind_congr_of_ok fun c1 hc1 => ?_
    have lc1 := mulCore_length (rl - n + 1) rfl (by omega) (by omega) (by simp; omega) hc1
    rw [w3 _ _ lc1]
    have sc := subtractCoreMem_eq (lhs := bits.plus (n * 2)) (rhs := bits) (core := ⟨M.length + 2, 0⟩) (zs := c1) (xs := b2) (ys := b0)
      (m := (M ++ [lf, rf]) ++ [c1]) (by simp at lc1; omega) (by omega) (i3 _)
      (at_append_mem (at_append_mem (by rw [← l0]; exact (at_append.mp Mb).2))) (at_append_mem (at_append_mem (at_append.mp Mb).1))
      (.inl (by simp; omega)) (.inl (by simp; omega))
    rw [lc1, List.length_replicate, l2, l0, ← hbl] at sc
    rw [sc]
    simp only [Res.bind_assoc, Res.ok_bind]
    refine bind_congr_of_ok fun c2 hc2 => ?_
    have lc2 := subtractCore_length hc2
    rw [w3 _ _ lc2, slice_rest (by simp; omega) (by simp), Res.ok_bind]
    have as := addSelfMem_eq (lhs := bits.plus n) (rhs := ⟨M.length + 2, 0⟩) (xs := (b0 ++ b2).drop n) (ys := c2)
      (m := (M ++ [lf, rf]) ++ [c2]) (by simp at lc1 ⊢; omega) (List.ne_nil_of_length_pos (by simp at lc1; omega))
      (at_append_mem (at_append_mem (Mb.drop (by omega)))) (i3 _) (.inl (by simp; omega))
    rw [lc2, lc1, List.length_replicate, List.length_drop, lM, ← hbl] at as
    rw [as]
    simp only [Res.bind_assoc, Res.ok_bind]
    refine bind_congr_of_ok fun u hu => ?_
    have lu := addSelf_length hu
    rw [List.append_assoc, write_append_mem (by simpa using Mlt)]
    have hr2 := release_append (m := M.write (bits.plus n) u) (e := [lf, rf] ++ [c2])
    rw [length_write] at hr2
    rw [hr2, hfin u (by rw [lu, List.length_drop, lM])]

/-- One row of the school squaring. -/
theorem sqRowMem_eq {value bits : Ptr} {i v : Nat} (bs ps : List Nat) (c j : Nat) (m : Mem)
    (hi : i = j + ps.length) (hl : ps.length + 2 ≤ bs.length)
    (hb : m.At (bits.plus (i + j)) bs) (hp : m.At (value.plus j) ps) (hv : m.load value i = .ok v)
    (hd : Disj (bits.plus (i + j)) bs.length (value.plus j) (ps.length + 1)) :
    (do
      let (_, carry, m) ← forLoop i (fun j (carry, m) => do
        let z ← m.load bits (i + j)
        let digit1 := u64 (z + carry)
        let a ← m.load value j
        let b ← m.load value i
        let digit2 := u64 (a * b)
        let m ← m.store bits (i + j) (u32 (u64 (digit1 + u64 (digit2 * 2))))
        .ok (u64 (digit2 + digit1 / 2) / 2147483648, m)) j (c, m)
      let a ← m.load value i
      let b ← m.load value i
      let digits := u64 (u64 (a * b) + carry)
      let m ← m.store bits (i + i) (u32 digits)
      m.store bits (i + i + 1) (u32 (digits / 4294967296)))
      = (sqRow bs ps v c >>= fun t => .ok (m.write (bits.plus (i + j)) t)) := by
  induction ps generalizing bs c j m with
  | nil =>
    match bs, hl with
    | b1 :: b2 :: bs, _ =>
      simp only [List.length_nil, Nat.add_zero] at hi
      subst hi
      have hb1 := hb.length_le (by simp)
      rw [forLoop_ge _ _ (Nat.le_refl _)]
      simp only [Res.ok_bind, hv, store_next hb1, sqRow, write_next]
      rw [store_next (i := i + i + 1) (k := bs.length) (by rw [InB_poke]; exact InB.next hb1), write_self]
      refine at_poke (Disj.plus_self bits (Nat.le_refl _)) (at_poke (Disj.plus_self bits (by omega)) ?_)
      have := At.tail hb
      exact At.tail this
  | cons p ps ih =>
    cases bs with
    | nil => simp at hl
    | cons b bs =>
      rw [forLoop_lt _ _ (by simp at hi; omega)]
      have hne : bs ≠ [] := by rintro rfl; simp at hl
      simp only [At.head hb, At.head hp, hv, Res.ok_bind, store_next (hb.length_le (by simp))]
      rw [ih bs]
      · cases bs with
        | nil => exact absurd rfl hne
        | cons => simp only [sqRow, write_next, Res.bind_assoc, Res.ok_bind, Nat.add_assoc]
      · simp at hi; omega
      · simp at hl ⊢; omega
      · exact at_poke (Disj.plus_self bits (Nat.le_refl _)) (At.tail hb)
      · exact at_poke (by ranges) (At.tail hp)
      · rw [← hv, load_poke_ne]
        ranges
      · ranges

theorem sqRow_length {bs ps : List Nat} {v c : Nat} {t : List Nat} (h : sqRow bs ps v c = .ok t) : t.length = bs.length := by
  induction ps generalizing bs c t with
  | nil =>
    match bs, h with
    | [], h => cases h
    | [_], h => cases h
    | b1 :: b2 :: bs, h => injection h with h; subst h; rfl
  | cons p ps ih =>
    cases bs with
    | nil => cases h
    | cons b bs =>
      have h' : (sqRow bs ps v (u64 (u64 (p * v) + u64 (b + c) / 2) / 2147483648) >>= fun t =>
        .ok (u32 (u64 (u64 (b + c) + u64 (u64 (p * v) * 2))) :: t)) = Res.ok t := by
        rw [← h]; cases bs <;> rfl
      obtain ⟨a, h1, h2⟩ := Res.bind_eq_ok h'
      injection h2 with h2; subst h2
      simp [ih h1]

theorem sqSchool_length {pre vs bs t : List Nat} (h : sqSchool pre vs bs = .ok t) : t.length = bs.length := by
  induction vs generalizing pre bs t with
  | nil => injection h with h; subst h; rfl
  | cons r rs ih =>
    rw [sqSchool] at h
    obtain ⟨a, h1, h2⟩ := Res.bind_eq_ok h
    have := sqRow_length h1
    cases a with
    | nil => cases h2
    | cons a as =>
      obtain ⟨u, h3, h4⟩ := Res.bind_eq_ok h2
      injection h4 with h4; subst h4
      rw [List.length_cons, ih h3, ← this, List.length_cons]

theorem sqSchoolMem_loop {value bits : Ptr} {k : Nat} (pre vs bs : List Nat) (i : Nat) (m : Mem)
    (hi : i = pre.length) (hk : k = i + vs.length) (hl : bs.length = i + 2 * vs.length)
    (hb : m.At (bits.plus i) bs) (hx : m.At value (pre ++ vs))
    (hd : Disj (bits.plus i) bs.length value k) :
    forLoop k (fun i m => do
      let (_, carry, m) ← forLoop i (fun j (carry, m) => do
        let z ← m.load bits (i + j)
        let digit1 := u64 (z + carry)
        let a ← m.load value j
        let b ← m.load value i
        let digit2 := u64 (a * b)
        let m ← m.store bits (i + j) (u32 (u64 (digit1 + u64 (digit2 * 2))))
        .ok (u64 (digit2 + digit1 / 2) / 2147483648, m)) 0 (0, m)
      let a ← m.load value i
      let b ← m.load value i
      let digits := u64 (u64 (a * b) + carry)
      let m ← m.store bits (i + i) (u32 digits)
      m.store bits (i + i + 1) (u32 (digits / 4294967296))) i m
    = (sqSchool pre vs bs >>= fun t => .ok (k, m.write (bits.plus i) t)) := by
  induction vs generalizing pre bs i m with
  | nil =>
    rw [forLoop_ge _ _ (by simp at hk; omega), sqSchool, Res.ok_bind, write_self hb]
    simp at hk; rw [hk]
  | cons v vs ih =>
    have hvl : m.load value i = .ok v := by
      have h := (at_append.mp hx).2
      rw [← hi] at h
      exact At.head h
    have row := sqRowMem_eq (value := value) (bits := bits) (i := i) (v := v) bs pre 0 0 m
      (by omega) (by simp at hl; omega) hb (at_append.mp hx).1 hvl (hd.mono (Nat.le_refl _) (by simp at hk; omega))
    rw [forLoop_lt _ _ (by simp at hk; omega)]
    simp only [sqSchool]
    rw [row]
    simp only [Res.bind_assoc, Res.ok_bind]
    refine bind_congr_of_ok fun t ht => ?_
    have hlen := sqRow_length ht
    cases t with
    | nil => simp at hlen; simp at hl; omega
    | cons b t =>
      have hb1 := hb.length_le (by rintro rfl; simp at hlen)
      have hw : (m.write (bits.plus (i + 0)) (b :: t)).At (bits.plus i) (b :: t) := at_write_self (by rw [hlen]; exact hb1)
      rw [ih (pre ++ [v]) t (i + 1) _ (by simp; omega) (by simp at hk; omega) (by simp at hl hlen; omega) (At.tail hw)
        (at_write (by rw [hlen]; refine hd.mono (Nat.le_refl _) ?_; simp at hk ⊢; omega) (by simpa using hx))
        (by ranges)]
      simp only [Res.bind_assoc, Res.ok_bind]
      refine bind_congr_of_ok fun u hu => ?_
      have hul := sqSchool_length hu
      simp only [Nat.add_zero, write_next]
      rw [write_write hul.symm]

theorem sqSchoolMem_eq {value bits : Ptr} {vs bs : List Nat} {m : Mem} (hl : bs.length = vs.length + vs.length)
    (hb : m.At bits bs) (hx : m.At value vs) (hd : Disj bits bs.length value vs.length) :
    sqSchoolMem value vs.length bits m = (sqSchool [] vs bs >>= fun t => .ok (m.write bits t)) := by
  have h := sqSchoolMem_loop (value := value) (bits := bits) [] vs bs 0 m rfl (Nat.zero_add _).symm (by omega) hb hx hd
  unfold sqSchoolMem
  rw [h]
  simp only [Res.bind_assoc, Res.ok_bind, Ptr.plus_zero]

theorem sqCore_length (N : Nat) : ∀ {vs bs t : List Nat} {vl : Nat}, vl = N → vl = vs.length →
    bs.length = vs.length + vs.length → sqCore vs bs vl = .ok t → t.length = bs.length := by
  induction N using Nat.strongRecOn with
  | _ N ih =>
  intro vs bs t vl hN hr hb h
  rw [sqCore, cassert_pos (by omega), Res.ok_bind] at h
  by_cases hs : vl < SquareThreshold
  · rw [dif_pos hs] at h; exact sqSchool_length h
  · rw [dif_neg hs] at h
    have h32 : 32 ≤ vl := by unfold SquareThreshold at hs; omega
    dsimp only at h
    rw [slice_zero (by omega), Res.ok_bind, slice_rest (by omega) (by omega), Res.ok_bind, slice_zero (by omega), Res.ok_bind,
      slice_rest (by omega) rfl, Res.ok_bind] at h
    obtain ⟨b0, h0, h⟩ := Res.bind_eq_ok h
    obtain ⟨b2, h2, h⟩ := Res.bind_eq_ok h
    obtain ⟨lf, hlf, h⟩ := Res.bind_eq_ok h
    obtain ⟨c1, hc1, h⟩ := Res.bind_eq_ok h
    obtain ⟨c2, hc2, h⟩ := Res.bind_eq_ok h
    obtain ⟨up, hup, h⟩ := Res.bind_eq_ok h
    obtain ⟨u, hu, h⟩ := Res.bind_eq_ok h
    injection h with h; subst h
    have l0 := ih (vl / 2) (by omega) rfl (by simp; omega) (by simp; omega) h0
    have l2 := ih (vl - vl / 2) (by omega) rfl (by simp; omega) (by simp; omega) h2
    have lu := addSelf_length hu
    rw [slice_rest (by simp at l0 l2 ⊢; omega) rfl] at hup
    injection hup with hup; subst hup
    simp at l0 l2 lu ⊢
    omega

theorem sqMem_eq (N : Nat) : ∀ {value bits : Ptr} {vs bs : List Nat} {vl bl : Nat} {μ : Mem}, vl = N →
    vl = vs.length → bl = bs.length → bs.length = vs.length + vs.length →
    μ.At bits bs → μ.At value vs → Disj bits bs.length value vs.length →
    sqMem value vl bits bl μ = (sqCore vs bs vl >>= fun t => .ok (μ.write bits t)) := by
  induction N using Nat.strongRecOn with
  | _ N ih =>
  intro value bits vs bs vl bl m hN hvl hbl hlen hb hx hd
  rw [sqMem, sqCore, cassert_pos (by omega), Res.ok_bind, cassert_pos (by omega), Res.ok_bind]
  by_cases hs : vl < SquareThreshold
  · rw [dif_pos hs, dif_pos hs, hvl]; exact sqSchoolMem_eq hlen hb hx hd
  · rw [dif_neg hs, dif_neg hs]
    have h32 : 32 ≤ vl := by unfold SquareThreshold at hs; omega
    generalize hn : vl / 2 = n
    have hn1 : 2 * n ≤ vl := by omega
    have hn0 : 16 ≤ n := by omega
    have hn2 : n < vl := by omega
    have hn3 : vl - n < vl := by omega
    have hn4 : vl ≤ 2 * n + 1 := by omega
    dsimp only
    rw [slice_zero (by omega), Res.ok_bind, slice_rest (by omega) (by omega), Res.ok_bind, slice_zero (by omega), Res.ok_bind,
      slice_rest (by omega) rfl, Res.ok_bind]
    have hbits := (hb.length_le (List.ne_nil_of_length_pos (by omega))).blk_lt (by omega)
    rw [ih n (by omega) (vs := vs.take n) (bs := bs.take (n * 2)) rfl (by simp; omega) (by simp; omega)
      (by simp; omega) (hb.take _) (hx.take _) (hd.mono (by simp; omega) (by simp; omega))]
    simp only [Res.bind_assoc, Res.ok_bind]
    refine bind_congr_of_ok fun b0 h0 => ?_
    have l0 := sqCore_length n rfl (by simp; omega) (by simp; omega) h0
    simp only [List.length_take] at l0
    rw [Nat.min_eq_left (by omega)] at l0
    have n2le : n * 2 ≤ bs.length := by omega
    have nle : n ≤ vs.length := by omega
    rw [ih (vl - n) (by omega) (vs := vs.drop n) (bs := bs.drop (n * 2)) rfl (by simp; omega) (by simp; omega)
      (by simp; omega)
      (at_write (by rw [l0]; exact .inr (.inl (by simp))) (hb.drop n2le))
      (at_write (hd.right (by omega) (by simp; omega)) (hx.drop nle))
      (hd.sub (by simp; omega) (by simp; omega))]
    simp only [Res.bind_assoc, Res.ok_bind]
    refine bind_congr_of_ok fun b2 h2 => ?_
    have l2 := sqCore_length (vl - n) rfl (by simp; omega) (by simp; omega) h2
    simp only [List.length_drop] at l2
    have hM : (m.write bits b0).write (bits.plus (n * 2)) b2 = m.write bits (b0 ++ b2) := by rw [write_append, l0]
    rw [hM]
    have lM : (b0 ++ b2).length = bs.length := by simp; omega
    have Mb : (m.write bits (b0 ++ b2)).At bits (b0 ++ b2) :=
      at_write_self (by rw [lM]; exact hb.length_le (List.ne_nil_of_length_pos (by omega)))
    have Mx : (m.write bits (b0 ++ b2)).At value vs := at_write (by rw [lM]; exact hd) hx
    have Mlt : bits.blk < (m.write bits (b0 ++ b2)).length := by rw [length_write]; exact hbits
    have hxb := (hx.length_le (List.ne_nil_of_length_pos (by omega))).blk_lt (by omega)
    have hxb' : value.blk < (m.write bits (b0 ++ b2)).length := by rw [length_write]; exact hxb
    have hfin : ∀ u : List Nat, u.length = bs.length - n → (m.write bits (b0 ++ b2)).write (bits.plus n) u
        = m.write bits ((b0 ++ b2).take n ++ u) := by
      intro u hu
      conv_lhs => rw [← List.take_append_drop n (b0 ++ b2)]
      rw [write_append, write_append, List.length_take, lM, Nat.min_eq_left (by omega), write_write (by rw [List.length_drop, lM, hu])]
    generalize m.write bits (b0 ++ b2) = M at *
    have xl : (vs.drop n).length = vl - n := by simp; omega
    have xl' : (vs.take n).length = n := by simp; omega
    simp only [Mem.alloc, List.append_assoc, List.cons_append, List.nil_append]
    have a1 := addMem_eq (lhs := value.plus n) (rhs := value) (bits := ⟨M.length, 0⟩) (xs := vs.drop n) (ys := vs.take n)
      (m := M ++ [List.replicate (vl - n + 1) 0, List.replicate (vl - n + 1 + (vl - n + 1)) 0])
      (bl := vl - n + 1) (by omega) (at_append_mem (Mx.drop nle)) (at_append_mem (Mx.take n)) (inB_last (by simp; omega))
      (.inl (by simp; omega)) (.inl (by simp; omega))
    rw [xl, xl'] at a1
    rw [a1]
    simp only [Res.bind_assoc, Res.ok_bind]
    refine bind_congr_of_ok fun lf hlf => ?_
    have llf := addPtr_length hlf
    rw [write_last (by simp; omega)]
    have e2 : ∀ z3 : List Nat, M ++ lf :: [z3] = (M ++ [lf]) ++ [z3] := by intros; simp
    have i1 : ∀ z3 : List Nat, At ((M ++ [lf]) ++ [z3]) ⟨M.length, 0⟩ lf := fun z3 => by rw [← e2]; exact at_last
    have i3 : ∀ z3 : List Nat, At ((M ++ [lf]) ++ [z3]) ⟨M.length + 1, 0⟩ z3 := fun z3 => by
      have := at_last (m := M ++ [lf]) (ws := z3) (e := []); simpa using this
    have w3 : ∀ z3 t : List Nat, t.length = z3.length → write ((M ++ [lf]) ++ [z3]) ⟨M.length + 1, 0⟩ t = (M ++ [lf]) ++ [t] := by
      intro z3 t ht
      have := write_last (m := M ++ [lf]) (ws := z3) (rs := t) (e := []) ht
      simpa using this
    rw [e2]
    simp only [List.length_append, List.length_cons, List.length_nil, Nat.zero_add]
    have hm := ih (vl - n + 1) (by omega) (value := ⟨M.length, 0⟩) (bits := ⟨M.length + 1, 0⟩)
      (vs := lf) (bs := List.replicate (vl - n + 1 + (vl - n + 1)) 0) (vl := vl - n + 1)
      (bl := vl - n + 1 + (vl - n + 1)) (μ := (M ++ [lf]) ++ [List.replicate (vl - n + 1 + (vl - n + 1)) 0])
      rfl (by omega) (by simp) (by simp; omega) (i3 _) (i1 _) (.inl (by simp))
    rw [hm]
    simp only [Res.bind_assoc, Res.ok_bind]
    refine bind_congr_of_ok fun c1 hc1 => ?_
    have lc1 := sqCore_length (vl - n + 1) rfl (by omega) (by simp; omega) hc1
    rw [w3 _ _ lc1]
    have sc := subtractCoreMem_eq (lhs := bits.plus (n * 2)) (rhs := bits) (core := ⟨M.length + 1, 0⟩) (zs := c1) (xs := b2) (ys := b0)
      (m := (M ++ [lf]) ++ [c1]) (by simp at lc1; omega) (by omega) (i3 _)
      (at_append_mem (at_append_mem (by rw [← l0]; exact (at_append.mp Mb).2))) (at_append_mem (at_append_mem (at_append.mp Mb).1))
      (.inl (by simp; omega)) (.inl (by simp; omega))
    rw [lc1, List.length_replicate, l2, l0, ← hbl] at sc
    rw [sc]
    simp only [Res.bind_assoc, Res.ok_bind]
    refine bind_congr_of_ok fun c2 hc2 => ?_
    have lc2 := subtractCore_length hc2
    rw [w3 _ _ lc2, slice_rest (by simp; omega) (by simp), Res.ok_bind]
    have as := addSelfMem_eq (lhs := bits.plus n) (rhs := ⟨M.length + 1, 0⟩) (xs := (b0 ++ b2).drop n) (ys := c2)
      (m := (M ++ [lf]) ++ [c2]) (by simp at lc1 ⊢; omega) (List.ne_nil_of_length_pos (by simp at lc1; omega))
      (at_append_mem (at_append_mem (Mb.drop (by omega)))) (i3 _) (.inl (by simp; omega))
    rw [lc2, lc1, List.length_replicate, List.length_drop, lM, ← hbl] at as
    rw [as]
    simp only [Res.bind_assoc, Res.ok_bind]
    refine bind_congr_of_ok fun u hu => ?_
    have lu := addSelf_length hu
    rw [List.append_assoc, write_append_mem (by simpa using Mlt)]
    have hr2 := release_append (m := M.write (bits.plus n) u) (e := [lf] ++ [c2])
    rw [length_write] at hr2
    rw [hr2, hfin u (by rw [lu, List.length_drop, lM])]

end BigIntegerCpp
