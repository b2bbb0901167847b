import Verif.Lemmas.ModPowSafe
import Verif.Lemmas.Closure
/-
The lowest word of the buffers of `mod_pow`.  With a modulus of 32 words or more the reduction changes the length of a
buffer only, so a divisor of 2^32 that divides the base divides every power.
-/
set_option linter.unusedSectionVars false
namespace BigIntegerCpp
variable [Cfg]
open Res

/-- `d` divides the lowest word (an array without words counts as 0). -/
def LowDvd (d : Nat) (l : List Nat) : Prop := d ∣ l.headD 0

variable {d : Nat}

omit [Cfg] in
theorem LowDvd.take {l : List Nat} (h : LowDvd d l) (n : Nat) : LowDvd d (l.take n) := by
  cases n with
  | zero => exact dvd_zero d
  | succ n => cases l <;> exact h
omit [Cfg] in
theorem LowDvd.append {l r : List Nat} (hl : LowDvd d l) (hr : l = [] → LowDvd d r) : LowDvd d (l ++ r) := by
  cases l with
  | nil => exact hr rfl
  | cons x l => exact hl
omit [Cfg] in
theorem LowDvd.zeros (n : Nat) (l : List Nat) (h : n = 0 → LowDvd d l) : LowDvd d (List.replicate n 0 ++ l) := by
  cases n with
  | zero => exact h rfl
  | succ n => exact dvd_zero d
omit [Cfg] in
theorem LowDvd.val {l : List Nat} (h : LowDvd d l) (hd : d ∣ 4294967296) : d ∣ val l := by
  cases l with
  | nil => exact dvd_zero d
  | cons x l => rw [val_cons]; exact Nat.dvd_add h (hd.mul_right _)

omit [Cfg] in
theorem dvd_u32 (hd : d ∣ 4294967296) {n : Nat} : d ∣ u32 n ↔ d ∣ n := by unfold u32; exact Nat.dvd_mod_iff hd
omit [Cfg] in
theorem dvd_u64 (hd : d ∣ 4294967296) {n : Nat} : d ∣ u64 n ↔ d ∣ n := by
  unfold u64; exact Nat.dvd_mod_iff (hd.trans (by decide))

theorem slice_is {l : List Nat} {o n : Nat} : (slice l o n).All fun r => r = (l.drop o).take n ∧ r.length = n ∧ o + n ≤ l.length := by
  unfold slice
  refine .ite (fun h => .ok ⟨rfl, ?_, h⟩) fun _ => .ub
  rw [List.length_take, List.length_drop]; omega
theorem slice_low {l : List Nat} (h : LowDvd d l) {n : Nat} : (slice l 0 n).All fun r => LowDvd d r ∧ r.length = n :=
  slice_is.mono fun _ ⟨h1, h2, _⟩ => ⟨by rw [h1, List.drop_zero]; exact h.take n, h2⟩

/-! ### products -/

theorem mulRow_low (hd : d ∣ 4294967296) {left bits : List Nat} {r : Nat} (hb : LowDvd d bits) (h : LowDvd d left ∨ d ∣ r) :
    (mulRow bits left r 0).All (LowDvd d) := by
  cases bits with
  | nil => rw [mulRow]; exact .ub
  | cons b bs =>
    cases left with
    | nil => rw [mulRow]; exact .ok ((dvd_u32 hd).2 (dvd_zero d))
    | cons l ls =>
      rw [mulRow]
      refine .bind' fun t => .ok ((dvd_u32 hd).2 ((dvd_u64 hd).2 (Nat.dvd_add ((dvd_u64 hd).2 hb) ((dvd_u64 hd).2 ?_))))
      rcases h with h | h
      · exact (show d ∣ l from h).mul_right r
      · exact h.mul_left l
theorem mulRow_len (left : List Nat) : ∀ (bits : List Nat) (r c : Nat), (mulRow bits left r c).All fun t => t.length = bits.length := by
  induction left with
  | nil =>
    rintro (_ | ⟨b, bs⟩) r c
    · rw [mulRow]; exact .ub
    · rw [mulRow]; exact .ok rfl
  | cons l ls ih =>
    rintro (_ | ⟨b, bs⟩) r c
    · rw [mulRow]; exact .ub
    · rw [mulRow]; exact .bind (ih bs r _) fun t ht => .ok (congrArg (· + 1) ht)

theorem mulSchool_len (left : List Nat) : ∀ right bits : List Nat, (mulSchool left right bits).All fun t => t.length = bits.length := by
  intro right
  induction right with
  | nil => intro bits; exact .ok rfl
  | cons r rs ih =>
    intro bits
    rw [mulSchool]
    refine .bind (mulRow_len left bits r 0) fun t ht => ?_
    cases t with
    | nil => exact .ub
    | cons b bs => exact .bind (ih bs) fun t' ht' => .ok (by rw [← ht]; exact congrArg (· + 1) ht')
theorem mulSchool_low (hd : d ∣ 4294967296) {left right bits : List Nat} (hb : LowDvd d bits) (h : LowDvd d left ∨ LowDvd d right) :
    (mulSchool left right bits).All (LowDvd d) := by
  cases right with
  | nil => exact .ok hb
  | cons r rs =>
    rw [mulSchool]
    refine .bind (mulRow_low hd hb h) fun t ht => ?_
    cases t with
    | nil => exact .ub
    | cons b bs => exact .bind' fun t' => .ok ht

theorem carrySelf_len : ∀ (l : List Nat) (c : Int), (carrySelf l c).All fun q => q.1.length = l.length := by
  intro l
  induction l with
  | nil => intro c; exact .ok rfl
  | cons x xs ih =>
    intro c
    rw [carrySelf]
    exact .ite (fun _ => .ok rfl) fun _ => .bind' fun g => .bind (ih _) fun q hq => .ok (congrArg (· + 1) hq)
theorem addSelfLoop_len (r : List Nat) : ∀ (l : List Nat) (c : Int), (addSelfLoop l r c).All fun q => q.1.length = l.length := by
  induction r with
  | nil => intro l c; rw [addSelfLoop]; exact carrySelf_len l c
  | cons y ys ih =>
    rintro (_ | ⟨x, xs⟩) c
    · rw [addSelfLoop]; exact .ub
    · rw [addSelfLoop]
      exact .bind' fun g => .bind (ih xs _) fun q hq => .ok (congrArg (· + 1) hq)
theorem addSelf_len (l r : List Nat) : (addSelf l r).All fun t => t.length = l.length := by
  unfold addSelf
  exact .bind' fun _ => .bind (addSelfLoop_len r l 0) fun q hq => .bind' fun _ => .ok hq

/-- The last steps of Karatsuba's algorithm leave the lowest words alone. -/
theorem karatsuba_tail {n : Nat} (hn : 1 ≤ n) {lo hi : List Nat} (core : List Nat) (hlo : LowDvd d lo) (hl : n ≤ lo.length) :
    (do
      let upper ← slice (lo ++ hi) n ((lo ++ hi).length - n)
      let upper ← addSelf upper core
      Res.ok ((lo ++ hi).take n ++ upper)).All fun t => LowDvd d t ∧ t.length = (lo ++ hi).length := by
  refine .bind slice_is fun u hu => .bind (addSelf_len u core) fun u' hu' => .ok ⟨?_, ?_⟩
  · refine .append (LowDvd.take (hlo.append fun h => ?_) n) fun h => ?_
    · rw [h] at hl; simp at hl; omega
    · exfalso
      have := congrArg List.length h
      rw [List.length_take, List.length_append, List.length_nil] at this
      omega
  · rw [List.length_append, List.length_take, hu', hu.2.1]
    have := hu.2.2
    omega

theorem mulCore_low (n : Nat) : ∀ {d : Nat} {left right bits : List Nat}, d ∣ 4294967296 → LowDvd d bits → LowDvd d left ∨ LowDvd d right →
    (mulCore left right bits n).All fun t => LowDvd d t ∧ t.length = bits.length := by
  induction n using Nat.strongRecOn with
  | ind n ih =>
  intro d left right bits hd hb h
  rw [mulCore]
  refine .bind' fun _ => .bind' fun _ => ?_
  by_cases hs : n < MultiplyThreshold
  · rw [dif_pos hs]
    exact fun t ht => ⟨mulSchool_low hd hb h t ht, mulSchool_len left right bits t ht⟩
  rw [dif_neg hs]
  have hs' : 32 ≤ n := by simpa [MultiplyThreshold] using hs
  refine .bind (P := fun l => LowDvd d left → LowDvd d l) (slice_is.mono fun l hl hh => by rw [hl.1, List.drop_zero]; exact hh.take _) fun ll hll => .bind' fun lh => ?_
  refine .bind (P := fun l => LowDvd d right → LowDvd d l) (slice_is.mono fun l hl hh => by rw [hl.1, List.drop_zero]; exact hh.take _) fun rl hrl => .bind' fun rh => ?_
  refine .bind (P := fun l => LowDvd d l ∧ l.length = n / 2 * 2 ∧ n / 2 * 2 ≤ bits.length)
    (slice_is.mono fun l hl => ⟨by rw [hl.1, List.drop_zero]; exact hb.take _, hl.2.1, by have := hl.2.2; omega⟩) fun bl hbl => ?_
  refine .bind slice_is fun bh hbh => ?_
  refine .bind (ih (n / 2) (by omega) hd hbl.1 (h.imp hll hrl)) fun bl' hbl' => ?_
  refine .bind (ih (n - n / 2) (by omega) (one_dvd _) (one_dvd _) (.inl (one_dvd _))) fun bh' hbh' => .bind' fun _ => .bind' fun _ => .bind' fun _ => .bind' fun core => ?_
  refine (karatsuba_tail (n := n / 2) (by omega) (lo := bl') (hi := bh') core hbl'.1 (by rw [hbl'.2, hbl.2.1]; omega)).mono fun t ht => ⟨ht.1, ?_⟩
  rw [ht.2, List.length_append, hbl'.2, hbh'.2, hbl.2.1, hbh.2.1]
  omega

theorem sqRow_len (pre : List Nat) : ∀ (bits : List Nat) (v c : Nat), (sqRow bits pre v c).All fun t => t.length = bits.length := by
  induction pre with
  | nil =>
    rintro (_ | ⟨b, _ | ⟨b', bs⟩⟩) v c
    · rw [sqRow] <;> first | exact .ub | exact nofun
    · rw [sqRow] <;> first | exact .ub | exact nofun
    · rw [sqRow]; exact .ok rfl
  | cons p ps ih =>
    rintro (_ | ⟨b, bs⟩) v c
    · rw [sqRow] <;> first | exact .ub | exact nofun
    · rw [sqRow]; exact .bind (ih bs v _) fun t ht => .ok (congrArg (· + 1) ht)
theorem sqSchool_len : ∀ (vs pre bits : List Nat), (sqSchool pre vs bits).All fun t => t.length = bits.length := by
  intro vs
  induction vs with
  | nil => intro pre bits; exact .ok rfl
  | cons v vs ih =>
    intro pre bits
    rw [sqSchool]
    refine .bind (sqRow_len pre bits v 0) fun t ht => ?_
    cases t with
    | nil => exact .ub
    | cons b bs => exact .bind (ih _ bs) fun t' ht' => .ok (by rw [← ht]; exact congrArg (· + 1) ht')
theorem sqSchool_low (hd : d ∣ 4294967296) {vs bits : List Nat} (hb : LowDvd d bits) (h : LowDvd d vs) :
    (sqSchool [] vs bits).All (LowDvd d) := by
  cases vs with
  | nil => exact .ok hb
  | cons v vs =>
    rw [sqSchool]
    refine .bind (P := LowDvd d) ?_ fun t ht => ?_
    · rcases bits with _ | ⟨b, _ | ⟨b', bs⟩⟩
      · rw [sqRow] <;> first | exact .ub | exact nofun
      · rw [sqRow] <;> first | exact .ub | exact nofun
      · rw [sqRow]; exact .ok ((dvd_u32 hd).2 ((dvd_u64 hd).2 ((dvd_u64 hd).2 ((show d ∣ v from h).mul_right v))))
    · cases t with
      | nil => exact .ub
      | cons b bs => exact .bind' fun t' => .ok ht

theorem sqCore_low (n : Nat) : ∀ {d : Nat} {value bits : List Nat}, d ∣ 4294967296 → LowDvd d bits → LowDvd d value →
    (sqCore value bits n).All fun t => LowDvd d t ∧ t.length = bits.length := by
  induction n using Nat.strongRecOn with
  | ind n ih =>
  intro d value bits hd hb h
  rw [sqCore]
  refine .bind' fun _ => ?_
  by_cases hs : n < SquareThreshold
  · rw [dif_pos hs]
    exact fun t ht => ⟨sqSchool_low hd hb h t ht, sqSchool_len value [] bits t ht⟩
  rw [dif_neg hs]
  have hs' : 32 ≤ n := by simpa [SquareThreshold] using hs
  refine .bind (slice_low h) fun vl hvl => .bind' fun vh => ?_
  refine .bind (P := fun l => LowDvd d l ∧ l.length = n / 2 * 2 ∧ n / 2 * 2 ≤ bits.length)
    (slice_is.mono fun l hl => ⟨by rw [hl.1, List.drop_zero]; exact hb.take _, hl.2.1, by have := hl.2.2; omega⟩) fun bl hbl => ?_
  refine .bind slice_is fun bh hbh => ?_
  refine .bind (ih (n / 2) (by omega) hd hbl.1 hvl.1) fun bl' hbl' => ?_
  refine .bind (ih (n - n / 2) (by omega) (one_dvd _) (one_dvd _) (one_dvd _)) fun bh' hbh' => .bind' fun _ => .bind' fun _ => .bind' fun core => ?_
  refine (karatsuba_tail (n := n / 2) (by omega) (lo := bl') (hi := bh') core hbl'.1 (by rw [hbl'.2, hbl.2.1]; omega)).mono fun t ht => ⟨ht.1, ?_⟩
  rw [ht.2, List.length_append, hbl'.2, hbh'.2, hbl.2.1, hbh.2.1]
  omega

/-! ### buffers -/

theorem multiplyMem_low (hd : d ∣ 4294967296) {left right bits : List Nat} (nl nr N : Nat) (hb : LowDvd d bits) (h : LowDvd d left ∨ LowDvd d right) :
    (BitsBuffer.multiplyMem left nl right nr bits N).All (LowDvd d) := by
  unfold BitsBuffer.multiplyMem
  refine .bind (P := fun l => LowDvd d left → LowDvd d l) (slice_is.mono fun l hl hh => by rw [hl.1, List.drop_zero]; exact hh.take _) fun l kl => ?_
  refine .bind (P := fun l => LowDvd d right → LowDvd d l) (slice_is.mono fun l hl hh => by rw [hl.1, List.drop_zero]; exact hh.take _) fun r kr => ?_
  refine .bind (slice_low hb) fun b kb => .bind (mulCore_low nr hd kb.1 (h.imp kl kr)) fun o ko => .ok ?_
  refine ko.1.append fun he => ?_
  have : N = 0 := by rw [← kb.2, ← ko.2, he]; rfl
  rw [this, List.drop_zero]
  exact hb

/-- What is kept of a buffer that is to be multiplied: `d` divides its lowest word, or the word is cleared when the
buffer becomes the temporary one. -/
def LowOr (d : Nat) (b : BitsBuffer) : Prop := LowDvd d b.bits ∨ 1 ≤ b.length

theorem apply_low {self temp : BitsBuffer} {n : Nat} (hs : LowOr d self) (ht : LowDvd d temp.bits) :
    (BitsBuffer.apply self temp n).All fun q => LowDvd d q.1.bits ∧ LowDvd d q.2.bits := by
  unfold BitsBuffer.apply
  refine .bind' fun _ => .bind' fun _ => .ok ⟨ht, .zeros _ _ fun h => ?_⟩
  rw [h, List.drop_zero]
  exact hs.resolve_right (by omega)

theorem multiplySelf_low (hd : d ∣ 4294967296) {self value temp : BitsBuffer} (hs : LowOr d self) (hv : LowDvd d value.bits) (ht : LowDvd d temp.bits) :
    (self.multiplySelf value temp).All fun q => LowDvd d q.1.bits ∧ LowDvd d q.2.bits := by
  unfold BitsBuffer.multiplySelf
  refine .bind (P := LowDvd d) (.ite (fun _ => multiplyMem_low hd _ _ _ ht (.inl hv)) fun _ => multiplyMem_low hd _ _ _ ht (.inr hv)) fun t kt => ?_
  exact apply_low hs kt

theorem squareSelf_low (hd : d ∣ 4294967296) {self temp : BitsBuffer} (hs : LowDvd d self.bits) (ht : LowDvd d temp.bits) :
    (self.squareSelf temp).All fun q => LowDvd d q.1.bits ∧ LowDvd d q.2.bits := by
  unfold BitsBuffer.squareSelf
  refine .bind (slice_low hs) fun v kv => .bind (slice_low ht) fun b kb => .bind (sqCore_low _ hd kb.1 kv.1) fun o ko => ?_
  refine apply_low (.inl hs) (ko.1.append fun he => ?_)
  have : self.length + self.length = 0 := by rw [← kb.2, ← ko.2, he]; rfl
  rw [this, List.drop_zero]
  exact ht

/-- A reduction that leaves the words alone. -/
def KeepsBits (red : BitsBuffer → Res BitsBuffer) : Prop := ∀ b, (red b).All fun r => r.bits = b.bits

theorem reduceFast_keeps (fr : FastReducer) : KeepsBits fun b => b.reduceFast fr := fun b => by
  show (BitsBuffer.reduceFast b fr).All _
  unfold BitsBuffer.reduceFast
  exact .bind' fun _ => .ok rfl

def LowSt (d : Nat) (st : BitsBuffer × BitsBuffer × BitsBuffer) : Prop :=
  LowDvd d st.1.bits ∧ LowOr d st.2.1 ∧ LowDvd d st.2.2.bits

theorem powLoop_low (hd : d ∣ 4294967296) {red : BitsBuffer → Res BitsBuffer} (hred : KeepsBits red) (p : Nat) : ∀ {value result temp : BitsBuffer},
    LowDvd d value.bits → LowDvd d result.bits ∨ (1 ≤ result.length ∧ p ≠ 0) → LowDvd d temp.bits → (powLoop red p value result temp).All fun r => LowDvd d r.bits := by
  induction p using Nat.strongRecOn with
  | ind p ih =>
  intro value result temp hv hr ht
  rw [powLoop]
  by_cases hp : p = 0
  · rw [dif_pos hp]; exact .ok (hr.resolve_right fun h => h.2 hp)
  rw [dif_neg hp]
  refine .bind (P := fun q : BitsBuffer × BitsBuffer => (LowDvd d q.1.bits ∨ (1 ≤ q.1.length ∧ p / 2 ≠ 0)) ∧ LowDvd d q.2.bits)
    (.ite (fun _ => ?_) fun ho => .ok ⟨hr.imp_right fun h => ⟨h.1, by omega⟩, ht⟩) fun q hq => ?_
  · exact .bind (multiplySelf_low hd (hr.imp_right (·.1)) hv ht) fun q hq => .bind (hred _) fun r h => .ok ⟨.inl (by rw [h]; exact hq.1), hq.2⟩
  refine .bind (P := fun q : BitsBuffer × BitsBuffer => LowDvd d q.1.bits ∧ LowDvd d q.2.bits) (.ite (fun _ => ?_) fun _ => .ok ⟨hv, hq.2⟩) fun w hw => ?_
  · exact .bind (squareSelf_low hd hv hq.2) fun q hq => .bind (hred _) fun r h => .ok ⟨by rw [h]; exact hq.1, hq.2⟩
  exact ih (p / 2) (by omega) hw.1 hq.1 hw.2

theorem powBits_low (hd : d ∣ 4294967296) {red : BitsBuffer → Res BitsBuffer} (hred : KeepsBits red) (n : Nat) :
    ∀ {p : Nat} {st : BitsBuffer × BitsBuffer × BitsBuffer}, LowSt d st → (powBits red n p st).All (LowSt d) := by
  induction n with
  | zero => intro p st h; exact .ok h
  | succ n ih =>
    rintro p ⟨value, result, temp⟩ ⟨hv, hr, ht⟩
    rw [powBits]
    refine .bind (P := fun q : BitsBuffer × BitsBuffer => LowOr d q.1 ∧ LowDvd d q.2.bits) (.ite (fun _ => ?_) fun _ => .ok ⟨hr, ht⟩) fun q hq => ?_
    · exact .bind (multiplySelf_low hd hr hv ht) fun q hq => .bind (hred _) fun r h => .ok ⟨.inl (by rw [h]; exact hq.1), hq.2⟩
    exact .bind (squareSelf_low hd hv hq.2) fun w hw => .bind (hred _) fun r h => ih ⟨by rw [h]; exact hw.1, hq.1, hw.2⟩

theorem powWords_low (hd : d ∣ 4294967296) {red : BitsBuffer → Res BitsBuffer} (hred : KeepsBits red) :
    ∀ {ps : List Nat} {st : BitsBuffer × BitsBuffer × BitsBuffer}, LowSt d st → (powWords red ps st).All (LowSt d) := by
  intro ps
  induction ps with
  | nil => intro st h; exact .ok h
  | cons p ps ih =>
    intro st h
    rw [powWords]
    exact .bind (powBits_low hd hred 32 h) fun st' h' => ih h'

/-! ### modular powers -/

theorem ofWord_low {n v : Nat} (h : d ∣ v) : (BitsBuffer.ofWord n v).All fun b => LowDvd d b.bits := by
  unfold BitsBuffer.ofWord put
  refine .bind (P := LowDvd d) (.ite (fun hn => .ok ?_) fun _ => .ub) fun b hb => .ok hb
  cases n with
  | zero => exact dvd_zero d
  | succ n => exact h
theorem ofWord_one {n : Nat} : (BitsBuffer.ofWord n 1).All fun b => b.length = 1 := by
  unfold BitsBuffer.ofWord
  exact .bind' fun _ => .ok rfl

theorem powCoreMod_low (hd : d ∣ 4294967296) {ms : List Nat} (h32 : 32 ≤ ms.length) {p : Nat} (hp : p ≠ 0) {value : BitsBuffer} (hv : LowDvd d value.bits) :
    (powCoreMod p ms value).All (LowDvd d) := by
  unfold powCoreMod
  refine .bind (ofWord_low (dvd_zero d)) fun t ht => .bind ofWord_one fun r hr => ?_
  rw [if_neg (by unfold ReducerThreshold; omega)]
  exact .bind' fun fr => .bind (powLoop_low hd (reduceFast_keeps fr) p hv (.inr ⟨hr.ge, hp⟩) ht) fun b hb => .ok hb

theorem powCoreModWords_low (hd : d ∣ 4294967296) {ms : List Nat} (h32 : 32 ≤ ms.length) {ps : List Nat} (htop : ps.getLast? ≠ some 0) {value : BitsBuffer}
    (hv : LowDvd d value.bits) : (powCoreModWords ps ms value).All (LowDvd d) := by
  unfold powCoreModWords
  refine .bind (ofWord_low (dvd_zero d)) fun t ht => .bind ofWord_one fun r hr => ?_
  refine .bind (P := (· ≠ 0)) (fun x hx => ?_) fun last hl => ?_
  · rintro rfl
    unfold idx at hx
    rw [← List.getLast?_eq_getElem?] at hx
    split at hx
    · next e => cases hx; exact htop e
    · cases hx
  dsimp only
  rw [if_neg (by unfold ReducerThreshold; omega)]
  refine .bind' fun fr => .bind (powWords_low hd (reduceFast_keeps fr) (st := (value, r, t)) ⟨hv, .inr hr.ge, ht⟩) fun st hst => ?_
  exact .bind (powLoop_low hd (reduceFast_keeps fr) last hst.1 (hst.2.1.imp_right fun h => ⟨h, hl⟩) hst.2.2) fun b hb => .ok hb

omit [Cfg] in
theorem lowDvd_of_val {l : List Nat} (hd : d ∣ 4294967296) (h : d ∣ val l) : LowDvd d l := by
  cases l with
  | nil => exact dvd_zero d
  | cons x l => rw [val_cons] at h; exact (Nat.dvd_add_left (hd.mul_right _)).1 h

theorem BigInt.modPow_low_dvd (hd : d ∣ 4294967296) {a e m : BigInt} {x z : Int} {n : Nat} (ha : a.Denotes x) (he : e.Denotes n) (hm : m.Denotes z)
    (h32 : 32 ≤ m.bits.length) (hla : a.bits.length < 2147483648) (hlm : m.bits.length + m.bits.length < 2147483648)
    (hn : n ≠ 0) (hx : d ∣ modPowValue a m x z) : (a.modPow e m).All fun r => (d : Int) ∣ r.toInt := by
  have hmb : m.bits ≠ [] := by rintro h; rw [h] at h32; simp at h32
  obtain ⟨b, b1, b2, b3⟩ := modPow_large ha he hm hmb hla hlm
  rw [b3]
  have hb : LowDvd d b.bits := lowDvd_of_val hd (by rw [b1.value]; exact hx)
  refine .bind (P := fun t => LowDvd d t ∧ WordsOk t) (.ite (fun _ => ?_) fun _ => ?_) fun bits hbits r hr => ?_
  · exact fun t ht => ⟨powCoreMod_low hd h32 hn hb t ht, powCoreMod_all b1.words t ht⟩
  · exact fun t ht => ⟨powCoreModWords_low hd h32 he.1.topNonzero hb t ht, powCoreModWords_all b1.words t ht⟩
  · have hl : bits.length < 2147483648 := by
      by_contra hc
      unfold ofMagnitude sizeInt at hr
      rw [if_neg hc] at hr
      cases hr
    obtain ⟨r', e1, e2⟩ := ofMagnitude_spec hbits.2 hl (decide (x < 0) && decide (n % 2 ≠ 0))
    obtain rfl : r = r' := Res.ok.inj (hr.symm.trans e1)
    have h1 : (d : Int) ∣ (val bits : Int) := Int.natCast_dvd_natCast.2 (hbits.1.val hd)
    rw [e2.2]
    split_ifs
    · exact (Int.dvd_neg).2 h1
    · exact h1
end BigIntegerCpp
