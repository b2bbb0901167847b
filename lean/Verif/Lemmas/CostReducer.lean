import Verif.Lemmas.CostPow
import Verif.Lemmas.ModPowSafe
/-
What `mod_pow` costs with a `FastReducer` (moduli of 32 words or more).
-/
set_option linter.unusedSectionVars false
namespace BigIntegerCpp
variable [Cfg]

theorem Res.Safe.get {α : Type} {r : Res α} {P : α → Prop} {a : α} (h : r.Safe P) (e : r = .ok a) : P a := by
  rcases h with ⟨b, e', h⟩ | ⟨e', -⟩
  · rw [e] at e'; cases e'; exact h
  · rw [e] at e'; cases e'

/-! ### The rounds of a reduction -/

namespace FastReducer

theorem muLength_le {ms : List Nat} {fr : FastReducer} (hne : ms ≠ []) (htop : ms.getLast? ≠ some 0) (hfr : Ok ms fr) :
    fr.muLength ≤ ms.length + 2 := by
  have hmlo := val_ge_of_top hne htop
  have hm : 0 < val ms := lt_of_lt_of_le (by positivity) hmlo
  have hlen1 : 1 ≤ ms.length := List.length_pos_iff.2 hne
  have hbp : 𝔹 ^ (ms.length + ms.length) = 𝔹 ^ (ms.length - 1) * 𝔹 ^ (ms.length + 1) := by
    rw [← Nat.pow_add]; congr 1; omega
  rw [hfr.muLength]
  refine trimLen_le_of_val ?_
  rw [hfr.mu, Nat.div_lt_iff_lt_mul hm, hbp]
  calc 𝔹 ^ (ms.length - 1) * 𝔹 ^ (ms.length + 1) < 𝔹 ^ (ms.length - 1) * 𝔹 ^ (ms.length + 2) :=
        Nat.mul_lt_mul_of_pos_left (Nat.pow_lt_pow_right (by decide) (by omega)) (by positivity)
    _ ≤ val ms * 𝔹 ^ (ms.length + 2) := Nat.mul_le_mul_right _ hmlo
    _ = 𝔹 ^ (ms.length + 2) * val ms := by ring

/-- Whatever lies above the length of the buffer: two multiplications, one subtraction and at most two rounds
of the loop. -/
theorem reduce_rounds {ms : List Nat} {fr : FastReducer} (hw : WordsOk ms) (hne : ms ≠ []) (htop : ms.getLast? ≠ some 0)
    (hfr : Ok ms fr) {b : BitsBuffer} (hb : WordsOk b.bits) (hl : b.length ≤ b.bits.length)
    (ht : (b.bits.take b.length).getLast? ≠ some 0) (h2 : b.length ≤ ms.length + ms.length)
    (hc : val ms ≠ 𝔹 ^ (ms.length - 1) ∨ val (b.bits.take b.length) < 𝔹 ^ (ms.length + ms.length - 1)) :
    ∃ q1 q2 t r j n, divMul b.bits b.length fr.mu fr.muLength (ms.length * 2 + 2) (ms.length - 1) = .ok (q1, trimLen q1) ∧
      q1.length = ms.length * 2 + 2 ∧
      divMul q1 (trimLen q1) ms ms.length (ms.length * 2 + 1) (ms.length + 1) = .ok (q2, trimLen q2) ∧
      q2.length = ms.length * 2 + 1 ∧
      slice q2 0 (if trimLen q2 > ms.length + 1 then ms.length + 1 else trimLen q2) = .ok t ∧
      subtractSelf b.bits t (if b.length > ms.length + 1 then ms.length + 1 else b.length) 0 = .ok r ∧
      actualLength r (if b.length > ms.length + 1 then ms.length + 1 else b.length) = .ok j ∧
      subModLoop ms 3 r j = .ok n := by
  have e : (b.bits.take b.length).length = b.length := List.length_take_of_le hl
  have hbuf : Buf b.length ⟨b.bits.take b.length, b.length⟩ (val (b.bits.take b.length)) :=
    ⟨e, hb.take _, rfl, by dsimp only; rw [trimLen_of_top ht, e]⟩
  obtain ⟨q1, q2, e1, a1, e2, b1, b2, b3, b4, -⟩ := reduce_parts hw hne htop hfr h2 hbuf hc
  have hmhi := val_lt hw
  obtain ⟨t, r, j, e3, e4, e5, -, hn⟩ := subMod_parts hw hne htop (hb.take b.length) b2 b3 (K := ms.length + 1)
    (by rw [Nat.pow_succ]; omega) (by omega)
  obtain ⟨n, e6, -⟩ := hn 3 b4
  rw [trimLen_of_top ht, e] at e4 e5
  dsimp only at e1
  have hd : b.bits.take b.length ++ b.bits.drop b.length = b.bits := List.take_append_drop _ _
  refine ⟨q1, q2, t, r ++ b.bits.drop b.length, j, n, ?_, a1, e2, b1, e3, ?_, actualLength_append _ e5, subModLoop_append _ (Nat.le_refl _) e6⟩
  · have := divMul_append (l := b.bits.take b.length) (right := fr.mu) (b.bits.drop b.length) fr.muLength (ms.length * 2 + 2) (ms.length - 1)
    rw [e, hd] at this
    rw [this, e1]
  · have := subtractSelf_append (b.bits.drop b.length) e4
    rwa [hd] at this

/-- With a modulus that is a power of `2^32` and a full buffer the first multiplication does not fit. -/
theorem divMul_overrun {ms : List Nat} {fr : FastReducer} (hne : ms ≠ [])
    (hfr : Ok ms fr) {b : BitsBuffer} (h2 : b.length = ms.length + ms.length) (hc : val ms = 𝔹 ^ (ms.length - 1)) {p : List Nat × Nat} :
    divMul b.bits b.length fr.mu fr.muLength (ms.length * 2 + 2) (ms.length - 1) ≠ .ok p := by
  have hlen1 : 1 ≤ ms.length := List.length_pos_iff.2 hne
  have hmu : fr.muLength = ms.length + 2 := by
    rw [hfr.muLength]
    refine WLen.unique (wlen_trimLen hfr.words) ?_
    have e : val fr.mu = 𝔹 ^ (ms.length + 1) := by
      rw [hfr.mu, hc, Nat.pow_div (by omega) (by decide)]
      congr 1; omega
    rw [e]
    exact ⟨Nat.pow_lt_pow_right (by decide) (by omega), .inr (Nat.pow_le_pow_right (by decide) (by omega))⟩
  intro h
  unfold divMul at h
  rw [if_pos (by omega), hmu, h2] at h
  dsimp only at h
  obtain ⟨o, h1, -⟩ := Res.bind_eq_ok h
  have key : ∀ l nl r nr, nl + nr = 2 * ms.length + 3 →
      BitsBuffer.multiplyMem l nl r nr (List.replicate (ms.length * 2 + 2) 0) (nl + nr) ≠ .ok o := by
    intro l nl r nr hn h
    unfold BitsBuffer.multiplyMem at h
    obtain ⟨_, -, h⟩ := Res.bind_eq_ok h
    obtain ⟨_, -, h⟩ := Res.bind_eq_ok h
    obtain ⟨_, h3, -⟩ := Res.bind_eq_ok h
    have := (Cost.slice_length h3).2
    rw [List.length_replicate] at this
    omega
  rw [if_pos (by omega), Nat.add_comm (ms.length + ms.length - (ms.length - 1))] at h1
  exact key _ _ _ _ (by omega) h1

theorem subModLoop_le {ms : List Nat} : ∀ {f : Nat} {l : List Nat} {n k : Nat}, subModLoop ms f l n = .ok k → k ≤ n := by
  intro f
  induction f with
  | zero => intro l n k h; rw [subModLoop] at h; cases h
  | succ f ih =>
    intro l n k h
    rw [subModLoop] at h
    obtain ⟨t, h1, h⟩ := Res.bind_eq_ok h
    by_cases hc : compareWords t ms ≥ 0
    · rw [if_pos hc] at h
      obtain ⟨u, h2, h⟩ := Res.bind_eq_ok h
      obtain ⟨j, h3, h⟩ := Res.bind_eq_ok h
      refine (ih h).trans ?_
      unfold actualLength at h3
      obtain ⟨v, h4, h3⟩ := Res.bind_eq_ok h3
      cases h3
      exact (trimLen_le v).trans (Cost.slice_length h4).1.le
    · rw [if_neg hc] at h; cases h; exact Nat.le_refl _

end FastReducer

namespace Cost
open Counted

theorem actualLength_top {l : List Nat} {n k : Nat} (h : BigIntegerCpp.actualLength l n = .ok k) : k ≤ n := by
  unfold BigIntegerCpp.actualLength at h
  obtain ⟨v, h4, h⟩ := Res.bind_eq_ok h
  cases h
  exact (trimLen_le v).trans (slice_length h4).1.le

theorem actualLength_all_within (l : List Nat) (n d w : Nat) : Within (actualLength l n) n d w :=
  within_tick_bind (t := 0) (within_lift _ _ _)

theorem subtractSelf_within (d w : Nat) : ∀ (l r : List Nat) (n : Nat) (c : Int), Within (subtractSelf l r n c) (r.length + n) d w
  | left, [], n, c => by
    rw [subtractSelf]
    refine within_lift_bind fun t ht => ?_
    have := carrySelf_within d w t c
    rw [(slice_length ht).1] at this
    exact (within_bind_pure (f := fun p : List Nat × Int => p.1 ++ left.drop n) this).mono (by simp) (Nat.le_refl _) (Nat.le_refl _)
  | [], _ :: _, _, _ => by
    rw [subtractSelf]; exact (within_lift _ _ _).mono (Nat.zero_le _) (Nat.le_refl _) (Nat.le_refl _)
  | x :: xs, y :: ys, n, c => by
    rw [subtractSelf]
    refine (within_tick_bind (t := ys.length + n) (within_lift_bind fun _ _ => ?_)).mono (by simp; omega) (Nat.le_refl _) (Nat.le_refl _)
    exact within_bind_pure ((subtractSelf_within d w xs ys (n - 1) _).mono (by omega) (Nat.le_refl _) (Nat.le_refl _))

/-- Three rounds of the loop, of which the last one only compares. -/
theorem subModLoop_within {ms : List Nat} (d w : Nat) {N : Nat} : ∀ {f f' : Nat} {l : List Nat} {n k : Nat}, n ≤ N →
    FastReducer.subModLoop ms f l n = .ok k → Within (subModLoop ms f' l n) (f * (1 + 2 * ms.length + 2 * N)) d w := by
  intro f
  induction f with
  | zero => intro f' l n k _ h; rw [FastReducer.subModLoop] at h; cases h
  | succ f ih =>
    intro f' l n k hn h
    cases f' with
    | zero => rw [subModLoop]; exact (within_lift _ _ _).mono (Nat.zero_le _) (Nat.le_refl _) (Nat.le_refl _)
    | succ g =>
    rw [FastReducer.subModLoop] at h
    rw [subModLoop]
    obtain ⟨t, h1, h⟩ := Res.bind_eq_ok h
    refine (within_tick_bind (t := ms.length + 2 * N + f * (1 + 2 * ms.length + 2 * N)) (within_lift_bind fun t' ht' => ?_)).mono
      (by rw [Nat.add_mul f]; omega) (Nat.le_refl _) (Nat.le_refl _)
    rw [h1] at ht'
    cases ht'
    by_cases hc : compareWords t ms ≥ 0
    · rw [if_pos hc] at h ⊢
      obtain ⟨u, h2, h⟩ := Res.bind_eq_ok h
      obtain ⟨j, h3, h⟩ := Res.bind_eq_ok h
      refine (within_bind (t := N + f * (1 + 2 * ms.length + 2 * N)) (subtractSelf_within d w l ms n 0) fun u' hu => ?_).mono (by omega) (Nat.le_refl _) (Nat.le_refl _)
      rw [subtractSelf_res, h2] at hu
      cases hu
      refine (within_bind (t := f * (1 + 2 * ms.length + 2 * N)) (actualLength_all_within u n d w) fun j' hj => ?_).mono (by omega) (Nat.le_refl _) (Nat.le_refl _)
      rw [actualLength_res, h3] at hj
      cases hj
      exact ih ((actualLength_top h3).trans hn) h
    · rw [if_neg hc]
      exact (within_pure _ _ _).mono (Nat.zero_le _) (Nat.le_refl _) (Nat.le_refl _)

theorem divMul_within {D W N B : Nat} (hM : MulCost 7 D W N B) {l r : List Nat} {ll rl size k P Q : Nat} (h1 : ll - k ≤ P) (h2 : rl ≤ Q)
    (hP : P ≤ N) (hQ : Q ≤ N) (hB : min P Q ≤ B) :
    Within (divMul l ll r rl size k) (size + (7 * (P * Q) + 2 * (P + Q))) D W := by
  unfold divMul
  refine within_tick_bind ?_
  dsimp only
  by_cases h : ll > k
  · rw [if_pos h]
    have hm : (ll - k) * rl ≤ P * Q := Nat.mul_le_mul h1 h2
    refine (within_bind (s := 7 * (P * Q) + (P + Q)) (t := P + Q) ?_ fun o _ => ?_).mono (by omega) (Nat.le_refl _) (Nat.le_refl _)
    · by_cases hc : ll - k < rl
      · obtain ⟨e, he⟩ : ∃ e, rl = (ll - k) + e := ⟨rl - (ll - k), by omega⟩
        have := multiplyMem_le (left := r) (right := l.drop k) (bits := List.replicate size 0) (n := ll - k) (e := e) hM (by omega) (by omega)
        rw [← he] at this
        rw [if_pos hc, Nat.add_comm (ll - k)]
        exact this.mono (by omega) (Nat.le_refl _) (Nat.le_refl _)
      · obtain ⟨e, he⟩ : ∃ e, ll - k = rl + e := ⟨ll - k - rl, by omega⟩
        have := multiplyMem_le (left := l.drop k) (right := r) (bits := List.replicate size 0) (n := rl) (e := e) hM (by omega) (by omega)
        rw [← he, Nat.mul_comm rl] at this
        rw [if_neg hc]
        exact this.mono (by omega) (Nat.le_refl _) (Nat.le_refl _)
    · exact (within_bind_pure (actualLength_all_within _ _ _ _)).mono (by omega) (Nat.le_refl _) (Nat.le_refl _)
  · rw [if_neg h]
    exact (within_pure _ _ _).mono (Nat.zero_le _) (Nat.le_refl _) (Nat.le_refl _)

theorem subMod_within {b ms q2 t r : List Nat} {len j n : Nat}
    (hq : q2.length = ms.length * 2 + 1) (hb : b.length = ms.length + ms.length)
    (e3 : slice q2 0 (if trimLen q2 > ms.length + 1 then ms.length + 1 else trimLen q2) = .ok t)
    (e4 : FastReducer.subtractSelf b t (if len > ms.length + 1 then ms.length + 1 else len) 0 = .ok r)
    (e5 : BigIntegerCpp.actualLength r (if len > ms.length + 1 then ms.length + 1 else len) = .ok j)
    (e6 : FastReducer.subModLoop ms 3 r j = .ok n) (d w : Nat) :
    Within (subMod b len q2 (trimLen q2) ms (ms.length + 1)) (21 * ms.length + 14) d (w + (5 * ms.length + 1)) := by
  have h1 := (slice_length e3).1
  have h2 := actualLength_top e5
  have hn := FastReducer.subModLoop_le e6
  unfold subMod
  have hN1 : (if trimLen q2 > ms.length + 1 then ms.length + 1 else trimLen q2) ≤ ms.length + 1 := by split_ifs <;> omega
  have hN2 : (if len > ms.length + 1 then ms.length + 1 else len) ≤ ms.length + 1 := by split_ifs <;> omega
  generalize (if trimLen q2 > ms.length + 1 then ms.length + 1 else trimLen q2) = N1 at *
  generalize (if len > ms.length + 1 then ms.length + 1 else len) = N2 at *
  refine (within_scope (s := 16 * ms.length + 13) (w := w) _ ?_).mono (by omega) (Nat.le_refl _) (by omega)
  refine within_lift_bind fun t' ht => ?_
  rw [e3] at ht
  cases ht
  refine (within_bind (t := 14 * ms.length + 11) (subtractSelf_within d w b t N2 0) fun r' hr => ?_).mono (by omega) (Nat.le_refl _) (Nat.le_refl _)
  rw [subtractSelf_res, e4] at hr
  cases hr
  refine (within_bind (t := 13 * ms.length + 10) (actualLength_all_within r N2 d w) fun j' hj => ?_).mono (by omega) (Nat.le_refl _) (Nat.le_refl _)
  rw [actualLength_res, e5] at hj
  cases hj
  refine (within_bind (t := ms.length + 1) (subModLoop_within d w (N := ms.length + 1) (f' := val r + 1) (by omega) e6) fun n' hn' => ?_).mono (by omega) (Nat.le_refl _) (Nat.le_refl _)
  rw [subModLoop_res] at hn'
  have := FastReducer.subModLoop_le hn'
  exact (within_tick_bind (t := 0) (within_pure n' _ _)).mono (by omega) (Nat.le_refl _) (Nat.le_refl _)

/-! ### The loops, whatever lies above the lengths of the buffers -/

theorem multiplyMem_length {l r bits t : List Nat} {nl nr n : Nat} (h : BitsBuffer.multiplyMem l nl r nr bits n = .ok t) : t.length = bits.length := by
  unfold BitsBuffer.multiplyMem at h
  obtain ⟨_, -, h⟩ := Res.bind_eq_ok h
  obtain ⟨_, -, h⟩ := Res.bind_eq_ok h
  obtain ⟨b, h1, h⟩ := Res.bind_eq_ok h
  obtain ⟨o, h2, h⟩ := Res.bind_eq_ok h
  cases h
  have h3 := mulCore_length h2
  have h4 := slice_length h1
  rw [List.length_append, List.length_drop, h3]
  omega

theorem multiplySelf_loose {D W N B K : Nat} (hM : MulCost 7 D W N B) (hw : 2 * K ≤ W) (hN : K ≤ N) (hB : K ≤ B) {self value temp : BitsBuffer}
    (hs : Loose K K self) (hv : Loose K K value) (ht : Block (K + K) temp.bits) :
    Within (multiplySelf self value temp) (7 * (K * K) + 10 * K) D W := by
  have h1 := hs.len
  have h2 := hv.len
  have hmul : self.length * value.length ≤ K * K := Nat.mul_le_mul h1 h2
  unfold multiplySelf
  refine (within_bind (s := 7 * (K * K) + K) (t := self.length + (3 * (K + K) + (self.length + value.length))) ?_ fun t e => ?_).mono (by omega) (Nat.le_refl _) (Nat.le_refl _)
  · by_cases h : self.length < value.length
    · obtain ⟨e, he⟩ : ∃ e, value.length = self.length + e := ⟨value.length - self.length, by omega⟩
      rw [if_pos h, Nat.add_comm self.length value.length]
      have := multiplyMem_le (left := value.bits) (right := self.bits) (bits := temp.bits) (n := self.length) (e := e) hM (by omega) (by omega)
      rw [← he] at this
      exact this.mono (by omega) (Nat.le_refl _) (Nat.le_refl _)
    · obtain ⟨e, he⟩ : ∃ e, self.length = value.length + e := ⟨self.length - value.length, by omega⟩
      rw [if_neg h]
      have := multiplyMem_le (left := self.bits) (right := value.bits) (bits := temp.bits) (n := value.length) (e := e) hM (by omega) (by omega)
      rw [← he, Nat.mul_comm value.length] at this
      exact this.mono (by omega) (Nat.le_refl _) (Nat.le_refl _)
  · refine apply_le hs.size ?_ _ (by omega)
    show t.length = K + K
    by_cases h : self.length < value.length
    · rw [if_pos h, multiplyMem_res] at e
      rw [multiplyMem_length e, ht.2]
    · rw [if_neg h, multiplyMem_res] at e
      rw [multiplyMem_length e, ht.2]

theorem squareSelf_loose {D W N B K : Nat} (hM : MulCost 7 D W N B) (hw : 2 * K ≤ W) (hB : K ≤ B) {self temp : BitsBuffer}
    (hs : Loose K K self) (ht : Block (K + K) temp.bits) :
    Within (squareSelf self temp) (7 * (K * K) + 10 * K) D W := by
  have h1 := hs.len
  have hmul : self.length * self.length ≤ K * K := Nat.mul_le_mul h1 h1
  unfold squareSelf
  refine within_lift_bind fun v hv => within_lift_bind fun b hb => ?_
  have key := (hM self.length 0 (by omega) (Nat.zero_le _)).2 v b (slice_length hv).1 (slice_length hb).1
  refine (within_bind (t := self.length + (3 * (K + K) + (self.length + self.length))) key fun t e => ?_).mono (by omega) (Nat.le_refl _) (Nat.le_refl _)
  refine apply_le hs.size ?_ _ (by omega)
  have h1 := sqCore_length (by rw [← sqCore_res]; exact e)
  have h2 := ht.2
  show (t ++ temp.bits.drop _).length = K + K
  rw [List.length_append, List.length_drop, h1, (slice_length hb).1]
  omega

/-- What the loops need of a counted reduction. -/
def GoodCost (K S D W : Nat) (red : BitsBuffer → Counted BitsBuffer) : Prop :=
  ∀ b, LooseTop K b → Within (red b) S D W ∧ ∀ b', (red b).res = .ok b' → Loose K K b'

/-- Steps of one reduction for a modulus of `K` words. -/
def fastBound (K : Nat) : Nat := 14 * (K + 1) ^ 2 + 35 * K + 25

theorem reduceFast_good_cost {ms : List Nat} {fr : FastReducer} (hw : WordsOk ms) (hne : ms ≠ []) (htop : ms.getLast? ≠ some 0)
    (hfr : fr.Ok ms) {D W N B : Nat} (hM : MulCost 7 D W N B) (hN : ms.length + 2 ≤ N) (hB : ms.length + 1 ≤ B) :
    GoodCost ms.length (fastBound ms.length) D (W + (7 * ms.length + 1)) fun b => reduceFast b fr := by
  intro b hb
  have h1 := hb.size
  have h2 := hb.len
  have hlen : 1 ≤ ms.length := List.length_pos_iff.2 hne
  have hm : 0 < val ms := lt_of_lt_of_le (by positivity) (val_ge_of_top hne htop)
  have hmu := FastReducer.muLength_le hne htop hfr
  have w1 : Within (divMul b.bits b.length fr.mu fr.muLength (ms.length * 2 + 2) (ms.length - 1))
      (ms.length * 2 + 2 + (7 * ((ms.length + 1) * (ms.length + 2)) + 2 * (ms.length + 1 + (ms.length + 2)))) D W :=
    divMul_within hM (by omega) hmu (by omega) (by omega) (by omega)
  have hsum : 7 * ((ms.length + 1) * (ms.length + 2)) + 7 * ((ms.length + 1) * ms.length) = 14 * (ms.length + 1) ^ 2 := by ring
  by_cases hc : val ms ≠ 𝔹 ^ (ms.length - 1) ∨ val (b.bits.take b.length) < 𝔹 ^ (ms.length + ms.length - 1)
  · obtain ⟨q1, q2, t, r, j, n, e1, a1, e2, a2, e3, e4, e5, e6⟩ :=
      FastReducer.reduce_rounds hw hne htop hfr hb.words (by omega) hb.top (by omega) hc
    constructor
    · unfold reduceFast
      refine (within_scope (s := fastBound ms.length - 2 * ms.length) (w := W + (5 * ms.length + 1)) _ ?_).mono (by unfold fastBound; omega) (Nat.le_refl _) (by omega)
      refine within_bind_pure ?_
      rw [hfr.modulus]
      by_cases hs : b.length < ms.length
      · rw [if_pos hs]
        exact (within_pure _ _ _).mono (Nat.zero_le _) (Nat.le_refl _) (Nat.le_refl _)
      rw [if_neg hs]
      dsimp only
      have hq1 := trimLen_le q1
      refine (within_bind (t := ms.length * 2 + 1 + (7 * ((ms.length + 1) * ms.length) + 2 * (ms.length + 1 + ms.length)) + (21 * ms.length + 14))
        (w1.mono (Nat.le_refl _) (Nat.le_refl _) (by omega)) fun p hp => ?_).mono (by unfold fastBound; omega) (Nat.le_refl _) (Nat.le_refl _)
      rw [divMul_res, e1] at hp
      cases hp
      dsimp only
      refine within_bind ((divMul_within hM (P := ms.length + 1) (Q := ms.length) (by omega) (Nat.le_refl _) (by omega) (by omega) (by omega)).mono (Nat.le_refl _) (Nat.le_refl _) (by omega)) fun p hp => ?_
      rw [divMul_res, e2] at hp
      cases hp
      exact subMod_within a2 h1 e3 e4 e5 e6 D W
    · intro b' hb'
      rw [reduceFast_res] at hb'
      obtain ⟨n, e, k⟩ := FastReducer.reduce_dirty hw hne htop hfr hb.words (by omega) hb.top (by omega) hc
      unfold BitsBuffer.reduceFast at hb'
      rw [e, Res.ok_bind] at hb'
      cases hb'
      exact ⟨hb.words, h1, FastReducer.WLen.le k (lt_trans (Nat.mod_lt _ hm) (val_lt hw))⟩
  · obtain ⟨c1, c2⟩ := not_or.1 hc
    have c1 := not_not.1 c1
    have hfull : b.length = ms.length + ms.length := by
      by_contra hcon
      refine c2 (lt_of_lt_of_le (val_lt (hb.words.take b.length)) (Nat.pow_le_pow_right (by decide) ?_))
      rw [List.length_take_of_le (by omega)]
      omega
    have hno := fun p => FastReducer.divMul_overrun hne hfr (b := b) hfull c1 (p := p)
    have hs : ¬ b.length < ms.length := by omega
    constructor
    · unfold reduceFast
      refine (within_scope (s := fastBound ms.length - 2 * ms.length) (w := W + (5 * ms.length + 1)) _ ?_).mono (by unfold fastBound; omega) (Nat.le_refl _) (by omega)
      refine within_bind_pure ?_
      rw [hfr.modulus, if_neg hs]
      dsimp only
      refine (within_bind (t := 0) (w1.mono (Nat.le_refl _) (Nat.le_refl _) (by omega)) fun p hp => ?_).mono (by unfold fastBound; omega) (Nat.le_refl _) (Nat.le_refl _)
      rw [divMul_res] at hp
      exact absurd hp (hno p)
    · intro b' hb'
      rw [reduceFast_res] at hb'
      unfold BitsBuffer.reduceFast FastReducer.reduce at hb'
      rw [hfr.modulus, if_neg hs] at hb'
      obtain ⟨n, hb', -⟩ := Res.bind_eq_ok hb'
      obtain ⟨p, hp, -⟩ := Res.bind_eq_ok hb'
      exact absurd hp (hno p)

section
variable {K S D W N B : Nat} (hM : MulCost 7 D W N B) (hWK : 2 * K ≤ W) (hN : K ≤ N) (hB : K ≤ B) {red : BitsBuffer → Counted BitsBuffer} (hred : GoodCost K S D W red)
include hM hWK hN hB hred

theorem mulIf_loose {p : Nat} {value result temp : BitsBuffer} (hv : Loose K K value) (hr : Loose K K result) (ht : Block (K + K) temp.bits) :
    Within (if p % 2 = 1 then do
        let (r, t) ← multiplySelf result value temp
        let r ← red r
        pure (r, t)
      else pure (result, temp) : Counted (BitsBuffer × BitsBuffer)) (7 * (K * K) + 10 * K + S) D W ∧
    ∀ q, (if p % 2 = 1 then do
        let (r, t) ← multiplySelf result value temp
        let r ← red r
        pure (r, t)
      else pure (result, temp) : Counted (BitsBuffer × BitsBuffer)).res = .ok q → Loose K K q.1 ∧ Block (K + K) q.2.bits := by
  by_cases h : p % 2 = 1
  · rw [if_pos h]
    constructor
    · refine within_bind (multiplySelf_loose hM hWK hN hB hr hv ht) fun q hq => ?_
      rw [multiplySelf_res] at hq
      exact within_bind_pure (hred _ ((multiplySelf_safe hr hv ht).get hq).1).1
    · intro q hq
      rw [bind_res] at hq
      obtain ⟨a, ha, hq⟩ := Res.bind_eq_ok hq
      rw [multiplySelf_res] at ha
      have k := (multiplySelf_safe hr hv ht).get ha
      rw [bind_res] at hq
      obtain ⟨c, hc, hq⟩ := Res.bind_eq_ok hq
      cases hq
      exact ⟨(hred _ k.1).2 _ hc, k.2⟩
  · rw [if_neg h]
    refine ⟨(within_pure _ _ _).mono (Nat.zero_le _) (Nat.le_refl _) (Nat.le_refl _), fun q hq => ?_⟩
    cases hq
    exact ⟨hr, ht⟩

theorem sqDo_loose {value temp : BitsBuffer} (hv : Loose K K value) (ht : Block (K + K) temp.bits) :
    Within (do
        let (v, t) ← squareSelf value temp
        let v ← red v
        pure (v, t) : Counted (BitsBuffer × BitsBuffer)) (7 * (K * K) + 10 * K + S) D W ∧
    ∀ q, (do
        let (v, t) ← squareSelf value temp
        let v ← red v
        pure (v, t) : Counted (BitsBuffer × BitsBuffer)).res = .ok q → Loose K K q.1 ∧ Block (K + K) q.2.bits := by
  constructor
  · refine within_bind (squareSelf_loose hM hWK hB hv ht) fun q hq => ?_
    rw [squareSelf_res] at hq
    exact within_bind_pure (hred _ ((squareSelf_safe hv ht).get hq).1).1
  · intro q hq
    rw [bind_res] at hq
    obtain ⟨a, ha, hq⟩ := Res.bind_eq_ok hq
    rw [squareSelf_res] at ha
    have k := (squareSelf_safe hv ht).get ha
    rw [bind_res] at hq
    obtain ⟨c, hc, hq⟩ := Res.bind_eq_ok hq
    cases hq
    exact ⟨(hred _ k.1).2 _ hc, k.2⟩

theorem powLoop_loose {L : Nat} : ∀ {p : Nat} {value result temp : BitsBuffer}, p < 2 ^ L →
    Loose K K value → Loose K K result → Block (K + K) temp.bits →
    Within (powLoop red p value result temp) ((2 * (7 * (K * K) + 10 * K + S) + 1) * L) D W ∧
    ∀ b, (powLoop red p value result temp).res = .ok b → Loose K K b := by
  induction L with
  | zero =>
    intro p value result temp hp hv hr ht
    rw [powLoop, dif_pos (by simpa using hp)]
    exact ⟨(within_pure _ _ _).mono (Nat.zero_le _) (Nat.le_refl _) (Nat.le_refl _), fun b hb => by cases hb; exact hr⟩
  | succ L ih =>
    intro p value result temp hp hv hr ht
    rw [powLoop]
    by_cases h0 : p = 0
    · rw [dif_pos h0]
      exact ⟨(within_pure _ _ _).mono (Nat.zero_le _) (Nat.le_refl _) (Nat.le_refl _), fun b hb => by cases hb; exact hr⟩
    rw [dif_neg h0]
    have hp' : p / 2 < 2 ^ L := by rw [pow_succ] at hp; omega
    obtain ⟨m1, m2⟩ := mulIf_loose hM hWK hN hB hred (p := p) hv hr ht
    have sq : ∀ t : BitsBuffer, Block (K + K) t.bits → Within (if p ≠ 1 then do
          let (v, t) ← squareSelf value t
          let v ← red v
          pure (v, t)
        else pure (value, t) : Counted (BitsBuffer × BitsBuffer)) (7 * (K * K) + 10 * K + S) D W ∧
      ∀ q, (if p ≠ 1 then do
          let (v, t) ← squareSelf value t
          let v ← red v
          pure (v, t)
        else pure (value, t) : Counted (BitsBuffer × BitsBuffer)).res = .ok q → Loose K K q.1 ∧ Block (K + K) q.2.bits := by
      intro t ht
      by_cases h1 : p ≠ 1
      · rw [if_pos h1]; exact sqDo_loose hM hWK hN hB hred hv ht
      · rw [if_neg h1]
        exact ⟨(within_pure _ _ _).mono (Nat.zero_le _) (Nat.le_refl _) (Nat.le_refl _), fun q hq => by cases hq; exact ⟨hv, ht⟩⟩
    constructor
    · refine (within_tick_bind (t := 7 * (K * K) + 10 * K + S + (7 * (K * K) + 10 * K + S + (2 * (7 * (K * K) + 10 * K + S) + 1) * L))
        (within_bind m1 fun a ha => ?_)).mono (by rw [Nat.mul_add _ L 1]; omega) (Nat.le_refl _) (Nat.le_refl _)
      obtain ⟨k1, k2⟩ := m2 _ ha
      refine within_bind (sq _ k2).1 fun c hc => ?_
      obtain ⟨k3, k4⟩ := (sq _ k2).2 _ hc
      exact (ih hp' k3 k1 k4).1
    · intro b hb
      rw [bind_res, tick_res, Res.ok_bind, bind_res] at hb
      obtain ⟨a, ha, hb⟩ := Res.bind_eq_ok hb
      obtain ⟨k1, k2⟩ := m2 _ ha
      rw [bind_res] at hb
      obtain ⟨c, hc, hb⟩ := Res.bind_eq_ok hb
      obtain ⟨k3, k4⟩ := (sq _ k2).2 _ hc
      exact (ih hp' k3 k1 k4).2 _ hb

theorem powBits_loose (n : Nat) : ∀ {p : Nat} {st : BitsBuffer × BitsBuffer × BitsBuffer}, LooseSt K st →
    Within (powBits red n p st) ((2 * (7 * (K * K) + 10 * K + S) + 1) * n) D W ∧
    ∀ st', (powBits red n p st).res = .ok st' → LooseSt K st' := by
  induction n with
  | zero =>
    intro p st h
    exact ⟨(within_pure _ _ _).mono (Nat.zero_le _) (Nat.le_refl _) (Nat.le_refl _), fun b hb => by cases hb; exact h⟩
  | succ n ih =>
    rintro p ⟨value, result, temp⟩ ⟨hv, hr, ht⟩
    dsimp only at hv hr ht
    rw [powBits]
    obtain ⟨m1, m2⟩ := mulIf_loose hM hWK hN hB hred (p := p) hv hr ht
    constructor
    · refine (within_tick_bind (t := 7 * (K * K) + 10 * K + S + (7 * (K * K) + 10 * K + (S + (2 * (7 * (K * K) + 10 * K + S) + 1) * n)))
        (within_bind m1 fun a ha => ?_)).mono (by rw [Nat.mul_add _ n 1]; omega) (Nat.le_refl _) (Nat.le_refl _)
      obtain ⟨k1, k2⟩ := m2 _ ha
      refine within_bind (squareSelf_loose hM hWK hB hv k2) fun c hc => ?_
      rw [squareSelf_res] at hc
      have k3 := (squareSelf_safe hv k2).get hc
      exact within_bind (hred _ k3.1).1 fun v hv' => (ih ⟨(hred _ k3.1).2 _ hv', k1, k3.2⟩).1
    · intro b hb
      rw [bind_res, tick_res, Res.ok_bind, bind_res] at hb
      obtain ⟨a, ha, hb⟩ := Res.bind_eq_ok hb
      obtain ⟨k1, k2⟩ := m2 _ ha
      rw [bind_res] at hb
      obtain ⟨c, hc, hb⟩ := Res.bind_eq_ok hb
      rw [squareSelf_res] at hc
      have k3 := (squareSelf_safe hv k2).get hc
      rw [bind_res] at hb
      obtain ⟨v, hv', hb⟩ := Res.bind_eq_ok hb
      exact (ih ⟨(hred _ k3.1).2 _ hv', k1, k3.2⟩).2 _ hb

theorem powWords_loose : ∀ {ps : List Nat} {st : BitsBuffer × BitsBuffer × BitsBuffer}, LooseSt K st →
    Within (powWords red ps st) ((2 * (7 * (K * K) + 10 * K + S) + 1) * (32 * ps.length)) D W ∧
    ∀ st', (powWords red ps st).res = .ok st' → LooseSt K st' := by
  intro ps
  induction ps with
  | nil =>
    intro st h
    exact ⟨(within_pure _ _ _).mono (Nat.zero_le _) (Nat.le_refl _) (Nat.le_refl _), fun b hb => by cases hb; exact h⟩
  | cons p ps ih =>
    intro st h
    obtain ⟨w1, w2⟩ := powBits_loose hM hWK hN hB hred 32 (p := p) h
    rw [powWords]
    constructor
    · exact (within_bind w1 fun st' h' => (ih (w2 _ h')).1).mono
        (by rw [List.length_cons, ← Nat.mul_add]; exact Nat.mul_le_mul_left _ (by omega)) (Nat.le_refl _) (Nat.le_refl _)
    · intro st' h'
      rw [bind_res] at h'
      obtain ⟨c, hc, h'⟩ := Res.bind_eq_ok h'
      exact (ih (w2 _ hc)).2 _ h'

end

theorem MulCost.more {c D W W' N B : Nat} (h : MulCost c D W N B) (hw : W ≤ W') : MulCost c D W' N B := fun n e hn he =>
  ⟨fun l r b h1 h2 h3 => ((h n e hn he).1 l r b h1 h2 h3).mono (Nat.le_refl _) (Nat.le_refl _) hw,
    fun v b h1 h2 => ((h n e hn he).2 v b h1 h2).mono (Nat.le_refl _) (Nat.le_refl _) hw⟩

theorem reducer_within {ms : List Nat} (hw : WordsOk ms) (d w : Nat) :
    Within (reducer ms) (2 * (ms.length + 2) ^ 2 + 13 * ms.length + 9) d (w + (6 * ms.length + 2)) := by
  have hl : (List.replicate (ms.length * 2) 0 ++ [1]).length = ms.length * 2 + 1 := by simp
  have hsq : 2 * (ms.length + 2) ^ 2 = (ms.length + 2) * (2 * ms.length + 4) := by ring
  unfold reducer
  refine (within_scope (s := (ms.length + 2) * (2 * ms.length + 4) + 10 * ms.length + 8) (w := w + (3 * ms.length + 1)) _ ?_).mono (by omega) (Nat.le_refl _) (by omega)
  dsimp only
  have h1 := divideVec_within d w (l := List.replicate (ms.length * 2) 0 ++ [1]) (wordsOk_append.2 ⟨wordsOk_replicate_zero _, by decide⟩) hw
  rw [hl, show ms.length * 2 + 1 + 1 - ms.length = ms.length + 2 by omega] at h1
  refine (within_bind (t := 6 * ms.length + 5) (h1.mono (Nat.le_refl _) (Nat.le_refl _) (by omega)) fun mu hmu => ?_).mono (by omega) (Nat.le_refl _) (Nat.le_refl _)
  rw [divideVec_res] at hmu
  have h2 := divideVec_length hmu
  rw [hl] at h2
  refine (within_tick_bind (t := ms.length + 2) (within_lift_bind fun _ _ => ?_)).mono (by omega) (Nat.le_refl _) (Nat.le_refl _)
  exact (within_tick_bind (n := mu.length) (t := 0) (within_pure (⟨ms, mu, trimLen mu⟩ : FastReducer) d _)).mono (by omega) (Nat.le_refl _) (Nat.le_refl _)

/-- Steps for one bit of the exponent. -/
def bitBound (K : Nat) : Nat := 2 * (7 * (K * K) + 10 * K + fastBound K) + 1

/-- Storage of the loops. -/
def fastWords (k K : Nat) : Nat := mulWords k (K + 2) + (7 * K + 1)

section
variable {ms : List Nat} (hw : WordsOk ms) (hne : ms ≠ []) (htop : ms.getLast? ≠ some 0) (h32 : 32 ≤ ms.length)
  (hl : ms.length + ms.length < 2147483647) {k : Nat} (hk : 4 ≤ k) (hk2 : ms.length + 1 ≤ 2 ^ k)
include hw hne htop h32 hl hk hk2

theorem powCoreMod_fast {value : BitsBuffer} {p L : Nat} (hp : p < 2 ^ L) (hv : Loose ms.length ms.length value) :
    Within (powCoreMod p ms value) (2 * (ms.length + 2) ^ 2 + 19 * ms.length + 9 + bitBound ms.length * L) (k - 3)
      (fastWords k ms.length + (6 * ms.length + 5)) ∧
    ∀ bits, (powCoreMod p ms value).res = .ok bits → bits.length = ms.length + ms.length := by
  obtain ⟨t, e2, k2⟩ := BitsBuffer.ofWord_zero (N := ms.length + ms.length) (by omega)
  obtain ⟨r, e3, k3⟩ := BitsBuffer.ofWord_spec (N := ms.length + ms.length) (w := 1) (by omega) (by decide)
  obtain ⟨fr, e5, k5⟩ := FastReducer.make_spec hw hne htop hl
  have kr := loose_of_buf k3 (Nat.one_lt_pow (by omega) (by decide))
  have kt : Block (ms.length + ms.length) t.bits := by rw [k2]; exact ⟨wordsOk_replicate_zero _, by simp⟩
  have hM := mulCost_all hk (ms.length + 2)
  have hg := reduceFast_good_cost hw hne htop k5 hM (by omega) (by omega)
  have loop := powLoop_loose (hM.more (show _ ≤ fastWords k ms.length from Nat.le_add_right _ _)) (by unfold fastWords; omega) (by omega) (by omega) hg hp hv kr kt
  have hWm : 6 * ms.length + 2 ≤ fastWords k ms.length := by unfold fastWords; omega
  unfold powCoreMod
  dsimp only
  rw [if_neg (show ¬ ms.length < ReducerThreshold by unfold ReducerThreshold; omega), hv.size]
  constructor
  · refine (within_bind (t := (ms.length + ms.length) + (2 * (ms.length + 2) ^ 2 + 13 * ms.length + 9 + bitBound ms.length * L + (ms.length + ms.length + 0)))
      (ofWord_within _ _ _ _) fun t' ht' => ?_).mono (by omega) (Nat.le_refl _) (Nat.le_refl _)
    rw [ofWord_res, e2] at ht'
    cases ht'
    refine within_bind (ofWord_within _ _ _ _) fun r' hr' => ?_
    rw [ofWord_res, e3] at hr'
    cases hr'
    refine within_bind (within_hold _ (within_bind ((reducer_within hw _ 0).mono (Nat.le_refl _) (Nat.le_refl _) (by omega)) fun fr' hfr => ?_)) fun o ho => ?_
    · rw [reducer_res, e5] at hfr
      cases hfr
      exact loop.1
    · rw [hold_res, bind_res, reducer_res, e5, Res.ok_bind] at ho
      rw [(loop.2 _ ho).size]
      exact within_tick_bind (t := 0) (within_pure o.bits _ _)
  · intro bits hb
    rw [bind_res, ofWord_res, e2, Res.ok_bind, bind_res, ofWord_res, e3, Res.ok_bind, bind_res, hold_res, bind_res, reducer_res, e5, Res.ok_bind] at hb
    obtain ⟨o, ho, hb⟩ := Res.bind_eq_ok hb
    rw [bind_res, tick_res, Res.ok_bind] at hb
    cases hb
    exact (loop.2 _ ho).size

theorem powCoreModWords_fast {value : BitsBuffer} {ps : List Nat} {q L : Nat} (hp : q < 2 ^ L) (hv : Loose ms.length ms.length value) :
    Within (powCoreModWords (ps ++ [q]) ms value) (2 * (ms.length + 2) ^ 2 + 19 * ms.length + 9 + bitBound ms.length * (32 * (ps.length + 1) + L)) (k - 3)
      (fastWords k ms.length + (6 * ms.length + 5)) ∧
    ∀ bits, (powCoreModWords (ps ++ [q]) ms value).res = .ok bits → bits.length = ms.length + ms.length := by
  obtain ⟨t, e2, k2⟩ := BitsBuffer.ofWord_zero (N := ms.length + ms.length) (by omega)
  obtain ⟨r, e3, k3⟩ := BitsBuffer.ofWord_spec (N := ms.length + ms.length) (w := 1) (by omega) (by decide)
  obtain ⟨fr, e5, k5⟩ := FastReducer.make_spec hw hne htop hl
  have kr := loose_of_buf k3 (Nat.one_lt_pow (by omega) (by decide))
  have kt : Block (ms.length + ms.length) t.bits := by rw [k2]; exact ⟨wordsOk_replicate_zero _, by simp⟩
  have hM := mulCost_all hk (ms.length + 2)
  have hg := reduceFast_good_cost hw hne htop k5 hM (by omega) (by omega)
  have hM' := hM.more (show _ ≤ fastWords k ms.length from Nat.le_add_right _ _)
  have words := powWords_loose hM' (by unfold fastWords; omega) (by omega) (by omega) hg (ps := ps ++ [q]) (st := (value, r, t)) ⟨hv, kr, kt⟩
  have loop := fun (v r t : BitsBuffer) (h : LooseSt ms.length (v, r, t)) =>
    powLoop_loose hM' (by unfold fastWords; omega) (by omega) (by omega) hg hp h.1 h.2.1 h.2.2
  have hWm : 6 * ms.length + 2 ≤ fastWords k ms.length := by unfold fastWords; omega
  have ei : idx (ps ++ [q]) ((ps ++ [q]).length - 1) = .ok q := by rw [idx_getD (by simp)]; simp
  unfold powCoreModWords
  dsimp only
  rw [if_neg (show ¬ ms.length < ReducerThreshold by unfold ReducerThreshold; omega), hv.size]
  constructor
  · refine (within_bind (t := (ms.length + ms.length) + (2 * (ms.length + 2) ^ 2 + 13 * ms.length + 9 +
        (bitBound ms.length * (32 * (ps ++ [q]).length) + bitBound ms.length * L) + (ms.length + ms.length + 0)))
      (ofWord_within _ _ _ _) fun t' ht' => ?_).mono (by rw [← Nat.mul_add, List.length_append, List.length_singleton]; omega) (Nat.le_refl _) (Nat.le_refl _)
    rw [ofWord_res, e2] at ht'
    cases ht'
    refine within_bind (ofWord_within _ _ _ _) fun r' hr' => ?_
    rw [ofWord_res, e3] at hr'
    cases hr'
    rw [ei, lift_ok_bind]
    refine within_bind (within_hold _ (within_bind ((reducer_within hw _ 0).mono (Nat.le_refl _) (Nat.le_refl _) (by omega)) fun fr' hfr => ?_)) fun o ho => ?_
    · rw [reducer_res, e5] at hfr
      cases hfr
      refine within_bind words.1 fun st hst => ?_
      exact (loop _ _ _ (words.2 _ hst)).1
    · rw [hold_res, bind_res, reducer_res, e5, Res.ok_bind, bind_res] at ho
      obtain ⟨st, hst, ho⟩ := Res.bind_eq_ok ho
      rw [((loop _ _ _ (words.2 _ hst)).2 _ ho).size]
      exact within_tick_bind (t := 0) (within_pure o.bits _ _)
  · intro bits hb
    rw [bind_res, ofWord_res, e2, Res.ok_bind, bind_res, ofWord_res, e3, Res.ok_bind, ei, lift_ok_bind, bind_res, hold_res, bind_res, reducer_res, e5, Res.ok_bind, bind_res] at hb
    obtain ⟨o, ho, hb⟩ := Res.bind_eq_ok hb
    obtain ⟨st, hst, ho⟩ := Res.bind_eq_ok ho
    rw [bind_res, tick_res, Res.ok_bind] at hb
    cases hb
    exact ((loop _ _ _ (words.2 _ hst)).2 _ ho).size

end

/-- The buffer the loops start with. -/
theorem start_loose {a m : BigInt} (ha : a.Valid) (hla : a.bits.length < 2147483648) (hm : m.Valid) (hmb : m.bits ≠ []) (h2 : 1 < val m.bits) {v : BitsBuffer}
    (hv : (if a.bits = [] then do
        let s ← lift (cabs a.sign)
        let size ← lift (sizeInt (m.bits.length + m.bits.length))
        ofWord size s
      else modPowBase a.bits m.bits : Counted BitsBuffer).res = .ok v) :
    m.bits.length + m.bits.length < 2147483648 ∧ Loose m.bits.length m.bits.length v := by
  have hlen : 1 ≤ m.bits.length := List.length_pos_iff.2 hmb
  obtain ⟨x, hfit, k1, k2⟩ : ∃ x, m.bits.length + m.bits.length < 2147483648 ∧ Buf (m.bits.length + m.bits.length) v x ∧ x < 𝔹 ^ m.bits.length := by
    by_cases h : a.bits = []
    · rw [if_pos h] at hv
      simp only [bind_res, lift_res] at hv
      obtain ⟨s, hs, hv⟩ := Res.bind_eq_ok hv
      obtain ⟨size, hsz, hv⟩ := Res.bind_eq_ok hv
      unfold sizeInt at hsz
      split_ifs at hsz with hsize
      cases hsz
      have hs := cabs_lt ha hs
      obtain ⟨b, e, k⟩ := BitsBuffer.ofWord_spec (N := m.bits.length + m.bits.length) (by omega) hs
      rw [ofWord_res, e] at hv
      cases hv
      refine ⟨s, by omega, k, lt_of_lt_of_le hs ?_⟩
      exact Nat.le_self_pow (by omega) _
    · rw [if_neg h, modPowBase_res] at hv
      have hsize : m.bits.length + m.bits.length < 2147483648 := by
        by_contra hc
        unfold BigIntegerCpp.modPowBase at hv
        obtain ⟨size, hsz, hv⟩ := Res.bind_eq_ok hv
        unfold sizeInt at hsz
        split_ifs at hsz
      obtain ⟨b, e, k⟩ := modPowBase_spec ha.words hm.words hmb hm.topNonzero hla (by omega)
      rw [e] at hv
      cases hv
      refine ⟨_, hsize, k, ?_⟩
      by_cases h' : a.bits.length > m.bits.length
      · rw [if_pos h']
        exact lt_trans (Nat.mod_lt _ (by omega)) (val_lt hm.words)
      · rw [if_neg h']
        exact lt_of_lt_of_le (val_lt ha.words) (Nat.pow_le_pow_right (by decide) (by omega))
  exact ⟨hfit, loose_of_buf k1 k2⟩

theorem modPow_fast_within {a e m : BigInt} {n L k : Nat} (ha : a.Valid) (hla : a.bits.length < 2147483648) (he : e.Denotes n) (hn : n < 2 ^ L)
    (hm : m.Valid) (h32 : 32 ≤ m.bits.length) (hk : 4 ≤ k) (hk2 : m.bits.length + 1 ≤ 2 ^ k) :
    Within (modPow a e m) (a.bits.length * (2 * m.bits.length + 8) + 2 * (m.bits.length + 2) ^ 2 + 27 * m.bits.length + 9 + bitBound m.bits.length * (L + 32)) (k - 3)
      (2 * a.bits.length + fastWords k m.bits.length + (14 * m.bits.length + 5)) := by
  have hmb : m.bits ≠ [] := by rintro h; rw [h] at h32; simp at h32
  have h2 : 1 < val m.bits := by
    rcases BigInt.Denotes.shape (z := m.toInt) ⟨hm, rfl⟩ with ⟨h', -, -⟩ | ⟨s, ws, h', hs, hne, hw, ht, hv, hz⟩
    · exact absurd (by rw [h']) hmb
    · have : m.bits = ws := by rw [h']
      rw [this]
      omega
  unfold modPow
  by_cases h1 : e.sign < 0
  · rw [if_pos h1]
    exact (within_lift _ _ _).mono (Nat.zero_le _) (Nat.le_refl _) (Nat.le_refl _)
  rw [if_neg h1]
  refine within_lift_bind fun _ _ => within_lift_bind fun _ _ => within_lift_bind fun _ _ => within_lift_bind fun ev _ => ?_
  dsimp only
  rw [if_neg hmb]
  have hWm : 6 * m.bits.length + 2 ≤ fastWords k m.bits.length := by unfold fastWords; omega
  refine (within_hold (w := 2 * a.bits.length + fastWords k m.bits.length + (6 * m.bits.length + 5)) (8 * m.bits.length) (within_bind (s := a.bits.length * (2 * m.bits.length + 8) + 2 * m.bits.length)
    (t := 2 * (m.bits.length + 2) ^ 2 + 19 * m.bits.length + 9 + bitBound m.bits.length * (L + 32) + 6 * m.bits.length) ?_ fun v hv => ?_)).mono (by omega) (Nat.le_refl _) (by omega)
  · by_cases h : a.bits = []
    · rw [if_pos h]
      refine within_lift_bind fun s hs => within_lift_bind fun size hsz => ?_
      unfold sizeInt at hsz
      split_ifs at hsz
      cases hsz
      exact (ofWord_within _ _ _ _).mono (by omega) (Nat.le_refl _) (Nat.le_refl _)
    · rw [if_neg h]
      exact modPowBase_le ha.words hm.words hmb _ (by omega)
  · obtain ⟨hfit, kv⟩ := start_loose ha hla hm hmb h2 hv
    have key : Within (if e.bits = [] then do
          let p ← lift (cabs e.sign)
          powCoreMod p m.bits v
        else powCoreModWords e.bits m.bits v)
        (2 * (m.bits.length + 2) ^ 2 + 19 * m.bits.length + 9 + bitBound m.bits.length * (L + 32)) (k - 3)
        (fastWords k m.bits.length + (6 * m.bits.length + 5)) ∧
      ∀ bits, (if e.bits = [] then do
          let p ← lift (cabs e.sign)
          powCoreMod p m.bits v
        else powCoreModWords e.bits m.bits v : Counted (List Nat)).res = .ok bits → bits.length = m.bits.length + m.bits.length := by
      by_cases h : e.bits = []
      · rw [if_pos h]
        constructor
        · refine within_lift_bind fun p hp => (powCoreMod_fast hm.words hmb hm.topNonzero h32 (by omega) hk hk2 (exponent_word he hn h hp) kv).1.mono ?_ (Nat.le_refl _) (Nat.le_refl _)
          exact Nat.add_le_add_left (Nat.mul_le_mul_left _ (by omega)) _
        · intro bits hb
          rw [bind_res, lift_res] at hb
          obtain ⟨p, hp, hb⟩ := Res.bind_eq_ok hb
          exact (powCoreMod_fast hm.words hmb hm.topNonzero h32 (by omega) hk hk2 (exponent_word he hn h hp) kv).2 _ hb
      · rw [if_neg h]
        obtain ⟨ps, q, l, hb, hw, h3, h4⟩ := exponent_last he hn h
        rw [hb]
        have := powCoreModWords_fast hm.words hmb hm.topNonzero h32 (by omega) hk hk2 (ps := ps) h4 kv
        rwa [show 32 * (ps.length + 1) + l = L + 32 by omega] at this
    refine within_bind (key.1.mono (Nat.le_refl _) (Nat.le_refl _) (by omega)) fun bits hb => ?_
    have := ofMagnitude_within (k - 3) (2 * a.bits.length) bits (decide (a.sign < 0) && !ev)
    rw [key.2 _ hb] at this
    exact this.mono (by omega) (Nat.le_refl _) (by omega)

/-! ### From below -/

omit [Cfg] in
theorem hold_steps {α : Type} (w : Nat) (r : Counted α) : (hold w r).steps = r.steps := rfl

theorem squareSelf_loose_steps {K : Nat} {self temp : BitsBuffer} {p : BitsBuffer × BitsBuffer} (hs : Loose K K self) (ht : Block (K + K) temp.bits)
    (e : self.squareSelf temp = .ok p) : 6 * K ≤ (squareSelf self temp).steps := by
  unfold BitsBuffer.squareSelf at e
  obtain ⟨v, h1, e⟩ := Res.bind_eq_ok e
  obtain ⟨b, h2, e⟩ := Res.bind_eq_ok e
  obtain ⟨o, h3, e⟩ := Res.bind_eq_ok e
  unfold squareSelf
  rw [steps_bind (a := v) h1, steps_bind (a := b) h2, steps_bind (a := o) (by rw [sqCore_res]; exact h3)]
  have h5 := ht.2
  have h6 := (slice_length h2).2
  have := apply_steps (N := K + K) hs.size (by
    show (o ++ temp.bits.drop _).length = K + K
    rw [List.length_append, List.length_drop, sqCore_length h3, (slice_length h2).1]
    omega) e
  omega

section
variable {K S D W N B M : Nat} (hM : MulCost 7 D W N B) (hWK : 2 * K ≤ W) (hN : K ≤ N) (hB : K ≤ B) {red : BitsBuffer → Counted BitsBuffer} (hred : GoodCost K S D W red)
  (hlow : ∀ b, LooseTop K b → M ≤ (red b).steps)
include hM hWK hN hB hred hlow

theorem powBits_loose_steps (n : Nat) : ∀ {p : Nat} {st st' : BitsBuffer × BitsBuffer × BitsBuffer}, LooseSt K st →
    (powBits red n p st).res = .ok st' → n * (6 * K + M) ≤ (powBits red n p st).steps := by
  induction n with
  | zero => intro p st st' _ _; omega
  | succ n ih =>
    rintro p ⟨value, result, temp⟩ st' ⟨hv, hr, ht⟩ hb
    dsimp only at hv hr ht
    rw [powBits] at hb ⊢
    obtain ⟨-, m2⟩ := mulIf_loose hM hWK hN hB hred (p := p) hv hr ht
    rw [bind_res, tick_res, Res.ok_bind, bind_res] at hb
    obtain ⟨a, ha, hb⟩ := Res.bind_eq_ok hb
    obtain ⟨k1, k2⟩ := m2 _ ha
    rw [bind_res] at hb
    obtain ⟨c, hc, hb⟩ := Res.bind_eq_ok hb
    have hc' := hc
    rw [squareSelf_res] at hc'
    have k3 := (squareSelf_safe hv k2).get hc'
    rw [bind_res] at hb
    obtain ⟨v, hv', hb⟩ := Res.bind_eq_ok hb
    have h1 := ih ⟨(hred _ k3.1).2 _ hv', k1, k3.2⟩ hb
    have h2 := squareSelf_loose_steps hv k2 hc'
    have h3 := hlow _ k3.1
    rw [steps_bind (a := ()) rfl, steps_bind ha, steps_bind hc, steps_bind hv', Nat.add_mul n, Nat.one_mul]
    omega

theorem powWords_loose_steps : ∀ {ps : List Nat} {st st' : BitsBuffer × BitsBuffer × BitsBuffer}, LooseSt K st →
    (powWords red ps st).res = .ok st' → 32 * ps.length * (6 * K + M) ≤ (powWords red ps st).steps := by
  intro ps
  induction ps with
  | nil => intro st st' _ _; simp
  | cons p ps ih =>
    intro st st' h hb
    rw [powWords] at hb ⊢
    rw [bind_res] at hb
    obtain ⟨c, hc, hb⟩ := Res.bind_eq_ok hb
    have h1 := powBits_loose_steps hM hWK hN hB hred hlow 32 h hc
    have h2 := ih ((powBits_loose hM hWK hN hB hred 32 h).2 _ hc) hb
    rw [steps_bind hc, List.length_cons, Nat.mul_add 32, Nat.mul_one, Nat.add_mul (32 * ps.length)]
    omega

end

theorem powCoreModWords_low {ms ps bits : List Nat} (hw : WordsOk ms) (hne : ms ≠ []) (htop : ms.getLast? ≠ some 0) (h32 : 32 ≤ ms.length)
    (hl : ms.length + ms.length < 2147483647) {value : BitsBuffer} (hv : Loose ms.length ms.length value)
    (hb : (powCoreModWords ps ms value).res = .ok bits) : 32 * ps.length * (8 * ms.length) ≤ (powCoreModWords ps ms value).steps := by
  obtain ⟨t, e2, k2⟩ := BitsBuffer.ofWord_zero (N := ms.length + ms.length) (by omega)
  obtain ⟨r, e3, k3⟩ := BitsBuffer.ofWord_spec (N := ms.length + ms.length) (w := 1) (by omega) (by decide)
  obtain ⟨fr, e5, k5⟩ := FastReducer.make_spec hw hne htop hl
  have kr := loose_of_buf k3 (Nat.one_lt_pow (by omega) (by decide))
  have kt : Block (ms.length + ms.length) t.bits := by rw [k2]; exact ⟨wordsOk_replicate_zero _, by simp⟩
  obtain ⟨k, hk, hk2⟩ : ∃ k, 4 ≤ k ∧ ms.length + 1 ≤ 2 ^ k := by
    refine ⟨ms.length + 4, by omega, ?_⟩
    have := Nat.lt_two_pow_self (n := ms.length + 4)
    omega
  have hM := mulCost_all hk (ms.length + 2)
  have hg := reduceFast_good_cost hw hne htop k5 hM (by omega) (by omega)
  have hM' := hM.more (show _ ≤ fastWords k ms.length from Nat.le_add_right _ _)
  have words := fun st' => powWords_loose_steps hM' (by unfold fastWords; omega) (by omega) (by omega) hg (M := 2 * ms.length)
    (fun b hb => by
      have := hb.size
      show _ ≤ (_ : Nat) + b.bits.length
      omega) (ps := ps) (st := (value, r, t)) (st' := st') ⟨hv, kr, kt⟩
  unfold powCoreModWords at hb ⊢
  dsimp only at hb ⊢
  rw [if_neg (show ¬ ms.length < ReducerThreshold by unfold ReducerThreshold; omega), hv.size] at hb ⊢
  have e2' : (ofWord (ms.length + ms.length) 0).res = .ok t := by rw [ofWord_res, e2]
  have e3' : (ofWord (ms.length + ms.length) 1).res = .ok r := by rw [ofWord_res, e3]
  have e5' : (reducer ms).res = .ok fr := by rw [reducer_res, e5]
  rw [bind_res, e2', Res.ok_bind, bind_res, e3', Res.ok_bind, bind_res, lift_res] at hb
  obtain ⟨last, hlast, hb⟩ := Res.bind_eq_ok hb
  rw [bind_res, hold_res, bind_res, e5', Res.ok_bind, bind_res] at hb
  obtain ⟨o, ho, hb⟩ := Res.bind_eq_ok hb
  obtain ⟨st, hst, ho⟩ := Res.bind_eq_ok ho
  rw [steps_bind e2', steps_bind e3', hlast, lift_ok_bind]
  refine le_trans ?_ (Nat.le_add_left _ _)
  refine le_trans ?_ (Nat.le_add_left _ _)
  refine le_trans ?_ (steps_le_bind _ _)
  rw [hold_steps, steps_bind e5']
  refine le_trans ?_ (Nat.le_add_left _ _)
  refine le_trans ?_ (steps_le_bind _ _)
  exact (Nat.mul_le_mul_left _ (by omega)).trans (words _ hst)

theorem modPow_low {a e m : BigInt} {r : BigInt} (ha : a.Valid) (hla : a.bits.length < 2147483648) (hm : m.Valid) (h32 : 32 ≤ m.bits.length)
    (he : e.bits ≠ []) (hr : (modPow a e m).res = .ok r) : 32 * e.bits.length * (8 * m.bits.length) ≤ (modPow a e m).steps := by
  have hmb : m.bits ≠ [] := by rintro h; rw [h] at h32; simp at h32
  have h2 : 1 < val m.bits := by
    rcases BigInt.Denotes.shape (z := m.toInt) ⟨hm, rfl⟩ with ⟨h', -, -⟩ | ⟨s, ws, h', hs, hne, hw, ht, hv, hz⟩
    · exact absurd (by rw [h']) hmb
    · have : m.bits = ws := by rw [h']
      rw [this]
      omega
  unfold modPow at hr ⊢
  by_cases h1 : e.sign < 0
  · rw [if_pos h1] at hr; cases hr
  rw [if_neg h1] at hr ⊢
  rw [bind_res, lift_res] at hr
  obtain ⟨_, q1, hr⟩ := Res.bind_eq_ok hr
  rw [bind_res, lift_res] at hr
  obtain ⟨_, q2, hr⟩ := Res.bind_eq_ok hr
  rw [bind_res, lift_res] at hr
  obtain ⟨_, q3, hr⟩ := Res.bind_eq_ok hr
  rw [bind_res, lift_res] at hr
  obtain ⟨ev, q4, hr⟩ := Res.bind_eq_ok hr
  rw [q1, lift_ok_bind, q2, lift_ok_bind, q3, lift_ok_bind, q4, lift_ok_bind]
  dsimp only at hr ⊢
  rw [if_neg hmb, hold_res, bind_res] at hr
  obtain ⟨v, hv, hr⟩ := Res.bind_eq_ok hr
  obtain ⟨hfit, kv⟩ := start_loose ha hla hm hmb h2 hv
  rw [if_neg he, bind_res] at hr
  obtain ⟨bits, hb, hr⟩ := Res.bind_eq_ok hr
  rw [if_neg hmb]
  rw [hold_steps, steps_bind hv, if_neg he]
  refine le_trans ?_ (Nat.le_add_left _ _)
  refine le_trans ?_ (steps_le_bind _ _)
  exact powCoreModWords_low hm.words hmb hm.topNonzero h32 (by omega) kv hb

end Cost
end BigIntegerCpp
