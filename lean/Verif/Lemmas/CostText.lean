import Verif.Model.CostText
import Verif.Lemmas.CostDiv
import Verif.Lemmas.Text
/-
Costs of the conversions from and to decimal text.
-/
set_option linter.unusedSectionVars false
namespace BigIntegerCpp
open Counted
namespace Cost
variable [Cfg]

/-! ### the outcomes -/

theorem baseLoop_res : ∀ (ds : List Nat) (c : Nat), (baseLoop ds c).res = BigIntegerCpp.baseLoop ds c
  | [], c => rfl
  | d :: ds, c => by
    rw [baseLoop, BigIntegerCpp.baseLoop]
    simp only [bind_res, tick_res, lift_res, Res.ok_bind, baseLoop_res ds, pure_res]

theorem toBase_res (m : Nat) : ∀ ws : List Nat, (toBase m ws).res = BigIntegerCpp.toBase m ws
  | [] => rfl
  | w :: ws => by
    rw [toBase, BigIntegerCpp.toBase]
    simp only [bind_res, tick_res, Res.ok_bind, baseLoop_res, toBase_res m ws]
    refine bind_congr_of_ok fun ds _ => bind_congr_of_ok fun p _ => ?_
    by_cases h : p.2 ≠ 0
    · rw [if_pos h, if_pos h]
      simp only [bind_res, lift_res]
      refine bind_congr_of_ok fun t _ => ?_
      by_cases h' : p.2 / 1000000000 ≠ 0
      · rw [if_pos h', if_pos h']; rfl
      · rw [if_neg h', if_neg h']; rfl
    · rw [if_neg h, if_neg h]; rfl

theorem putNine_res : ∀ (n u : Nat) (st : Nat × List Char), (putNine n u st).res = BigIntegerCpp.putNine n u st
  | 0, _, _ => rfl
  | n + 1, u, st => by
    rw [putNine, BigIntegerCpp.putNine]
    simp only [bind_res, tick_res, lift_res, Res.ok_bind, putNine_res n]

theorem putTop_res (u : Nat) : ∀ st : Nat × List Char, (putTop u st).res = BigIntegerCpp.putTop u st := by
  induction u using Nat.strongRecOn with
  | ind u ih =>
  intro st
  rw [putTop, BigIntegerCpp.putTop]
  by_cases h : u = 0
  · rw [dif_pos h, dif_pos h]; rfl
  · rw [dif_neg h, dif_neg h]
    simp only [bind_res, tick_res, lift_res, Res.ok_bind, ih (u / 10) (by omega)]

theorem putLimbs_res : ∀ (ds : List Nat) (st : Nat × List Char), (putLimbs ds st).res = BigIntegerCpp.putLimbs ds st
  | [], _ => rfl
  | [d], st => by rw [putLimbs, BigIntegerCpp.putLimbs, putTop_res]
  | d :: e :: ds, st => by
    rw [putLimbs, BigIntegerCpp.putLimbs]
    · simp only [bind_res, tick_res, lift_res, Res.ok_bind, putNine_res, putLimbs_res (e :: ds)]
    · exact nofun
    · exact nofun

theorem toStr_res (a : BigInt) : (toStr a).res = a.toStr := by
  unfold toStr BigInt.toStr
  by_cases h : a.bits.length = 0
  · rw [if_pos h, if_pos h]; rfl
  rw [if_neg h, if_neg h]
  simp only [bind_res, lift_res]
  refine bind_congr_of_ok fun n _ => ?_
  by_cases h : n > 214748364
  · rw [if_pos h, if_pos h]; rfl
  rw [if_neg h, if_neg h]
  simp only [scope_res, bind_res, toBase_res]
  refine bind_congr_of_ok fun ds _ => ?_
  by_cases h : ds.length > 238609294
  · rw [if_pos h, if_pos h]; rfl
  rw [if_neg h, if_neg h]
  by_cases h : ds.length * 9 = 2147483647
  · rw [if_pos h, if_pos h]; rfl
  rw [if_neg h, if_neg h]
  simp only [hold_res, bind_res, putLimbs_res]
  refine bind_congr_of_ok fun st _ => ?_
  by_cases h : a.sign < 0
  · rw [if_pos h, if_pos h]
    simp only [bind_res, tick_res, lift_res, Res.ok_bind, pure_res]
  · rw [if_neg h, if_neg h]
    simp only [tick_res, Res.ok_bind, pure_res]

theorem parseLoop_res : ∀ (cs : List Char) (b : BigInt), (parseLoop cs b).res = b.parseLoop cs
  | [], _ => rfl
  | ch :: cs, b => by
    rw [parseLoop, BigInt.parseLoop]
    by_cases h : '0' ≤ ch ∧ ch ≤ '9'
    · rw [if_pos h, if_pos h]
      simp only [bind_res, tick_res, lift_res, Res.ok_bind, mul_res, add_res, parseLoop_res cs]
    · rw [if_neg h, if_neg h]
      simp only [bind_res, tick_res, Res.ok_bind, pure_res]

theorem parse_res (s : List Char) : (parse s).res = BigInt.parse s := by
  unfold parse
  split
  · simp only [BigInt.parse, bind_res, scope_res, tick_res, Res.ok_bind, lift_res, parseLoop_res]
  · exact parseLoop_res _ _
  · rename_i h1 h2
    rw [parseLoop_res]
    unfold BigInt.parse
    split
    · exact absurd rfl (h1 _)
    · exact absurd rfl (h2 _)
    · rfl

omit [Cfg] in
theorem steps_bind {α β : Type} {r : Counted α} {f : α → Counted β} {a : α} (h : r.res = .ok a) : (r >>= f).steps = r.steps + (f a).steps := by
  show (Counted.bind r f).steps = _
  unfold Counted.bind
  rw [h]

/-! ### `to_string` -/

variable {w : Nat}

theorem baseLoop_within : ∀ (ds : List Nat) (c : Nat), Within (baseLoop ds c) ds.length 0 w
  | [], c => within_pure _ _ _
  | d :: ds, c => by
    rw [baseLoop, List.length_cons, Nat.add_comm]
    exact within_tick_bind (within_lift_bind fun _ _ => within_bind_pure (baseLoop_within ds _))

theorem baseLoop_steps : ∀ (ds : List Nat) (c : Nat) {p : List Nat × Nat}, BigIntegerCpp.baseLoop ds c = .ok p →
    (baseLoop ds c).steps = ds.length
  | [], c, _, _ => rfl
  | d :: ds, c, p, h => by
    rw [BigIntegerCpp.baseLoop] at h
    obtain ⟨u, h1, h⟩ := Res.bind_eq_ok h
    obtain ⟨q, h2, h⟩ := Res.bind_eq_ok h
    rw [baseLoop, steps_bind (tick_res 1), steps_bind (a := u) (by rw [lift_res]; exact h1), steps_bind (a := q) (by rw [baseLoop_res]; exact h2),
      baseLoop_steps ds _ h2, List.length_cons]
    show 1 + (0 + (ds.length + 0)) = _
    omega

/-- The passes over the base-10^9 digits: about `5/9` of the square of the number of words, and at
least half of it. -/
theorem toBase_cost (m : Nat) (ws : List Nat) (hw : WordsOk ws) (hm : 10 * ws.length / 9 + 1 < m) :
    Within (toBase m ws) ((toBase m ws).steps) 0 w ∧ 9 * (toBase m ws).steps ≤ 5 * (ws.length * ws.length) + 13 * ws.length ∧
    (ws.getLast? ≠ some 0 → ws.length * ws.length + ws.length ≤ 2 * (toBase m ws).steps) := by
  induction ws with
  | nil => exact ⟨within_pure _ _ _, Nat.zero_le _, fun _ => Nat.zero_le _⟩
  | cons x ws ih =>
    rw [wordsOk_cons] at hw
    rw [List.length_cons] at hm
    obtain ⟨k1, k2, k3⟩ := ih hw.2 (by omega)
    obtain ⟨ds, h1, h2, h3, h4⟩ := toBase_spec m ws hw.2 (by omega)
    obtain ⟨r, c, g1, g2, g3, g4, g5⟩ := baseLoop_spec ds x h2 hw.1
    have hl := nine_len_of_val h3 h4 (val_lt hw.2)
    have hrest : ∀ (ds : List Nat) (c : Nat), Within (if c ≠ 0 then (do
        let ds ← lift (pushDigit m ds (c % 1000000000))
        if c / 1000000000 ≠ 0 then lift (pushDigit m ds (c / 1000000000)) else pure ds) else pure ds : Counted (List Nat)) 0 0 w := by
      intro ds c
      by_cases hc : c ≠ 0
      · rw [if_pos hc]
        refine within_lift_bind fun t _ => ?_
        by_cases hc' : c / 1000000000 ≠ 0
        · rw [if_pos hc']; exact within_lift _ _ _
        · rw [if_neg hc']; exact within_pure _ _ _
      · rw [if_neg hc]; exact within_pure _ _ _
    have hs : (toBase m (x :: ws)).steps = (toBase m ws).steps + (1 + ds.length) := by
      rw [toBase, steps_bind (a := ds) (by rw [toBase_res]; exact h1), steps_bind (tick_res 1),
        steps_bind (a := (r, c)) (by rw [baseLoop_res]; exact g1), baseLoop_steps ds x g1]
      have := (hrest r c).1
      show _ + (1 + (ds.length + Counted.steps (if c ≠ 0 then _ else _))) = _
      omega
    refine ⟨?_, ?_, ?_⟩
    · rw [hs, toBase]
      refine within_bind k1 fun t ht => within_tick_bind (within_bind (t := 0) ?_ fun p _ => hrest _ _)
      rw [toBase_res, h1] at ht
      cases ht
      exact baseLoop_within ds x
    · rw [hs, List.length_cons]
      have : (ws.length + 1) * (ws.length + 1) = ws.length * ws.length + 2 * ws.length + 1 := by ring
      omega
    · intro ht
      rw [hs, List.length_cons]
      have e : (ws.length + 1) * (ws.length + 1) = ws.length * ws.length + 2 * ws.length + 1 := by ring
      by_cases hne : ws = []
      · subst hne
        simp only [List.length_nil] at *
        omega
      · have ht' : ws.getLast? ≠ some 0 := by
          obtain ⟨y, ys, rfl⟩ := List.exists_cons_of_ne_nil hne
          rwa [List.getLast?_cons_cons] at ht
        have hge : ws.length ≤ ds.length := by
          by_contra hc
          have v1 := val_ge_of_top hne ht'
          have v2 := digitsVal_lt (b := 1000000000) (by decide) h2
          have : 1000000000 ^ ds.length ≤ 4294967296 ^ (ws.length - 1) :=
            (Nat.pow_le_pow_left (by decide) _).trans (Nat.pow_le_pow_right (by decide) (by omega))
          rw [h4] at v2
          exact absurd (lt_of_lt_of_le v2 this) (by omega)
        have := k3 ht'
        omega

theorem putNine_within : ∀ (n u : Nat) (st : Nat × List Char), Within (putNine n u st) n 0 w
  | 0, _, _ => within_pure _ _ _
  | n + 1, u, st => by
    rw [putNine, Nat.add_comm]
    exact within_tick_bind (within_lift_bind fun _ _ => putNine_within n _ _)

theorem putTop_within : ∀ (k u : Nat) (st : Nat × List Char), u < 10 ^ k → Within (putTop u st) k 0 w
  | 0, u, st, h => by
    rw [putTop, dif_pos (by simpa using h)]
    exact within_pure _ _ _
  | k + 1, u, st, h => by
    rw [putTop]
    by_cases h0 : u = 0
    · rw [dif_pos h0]; exact (within_pure _ _ _).mono (Nat.zero_le _) (Nat.le_refl _) (Nat.le_refl _)
    · rw [dif_neg h0, Nat.add_comm]
      exact within_tick_bind (within_lift_bind fun _ _ => putTop_within k _ _ (by rw [pow_succ] at h; omega))

theorem putLimbs_within : ∀ (ds : List Nat) (st : Nat × List Char), NineOk ds → Within (putLimbs ds st) (10 * ds.length) 0 w
  | [], _, _ => within_lift _ _ _
  | [d], st, h => by
    rw [putLimbs]
    exact (putTop_within 9 d st (h d (by simp))).mono (by simp) (Nat.le_refl _) (Nat.le_refl _)
  | d :: e :: ds, st, h => by
    rw [putLimbs]
    · have ht := fun st => putLimbs_within (e :: ds) st fun x hx => h x (List.mem_cons_of_mem _ hx)
      have := within_tick_bind (n := 1) (f := fun _ => do
          lift (cassert (d < 1000000000))
          let st ← putNine 9 d st
          putLimbs (e :: ds) st) (within_lift_bind fun _ _ => within_bind (putNine_within (w := w) 9 d st) fun st _ => ht st)
      exact this.mono (by simp only [List.length_cons]; omega) (Nat.le_refl _) (Nat.le_refl _)
    · exact nofun

theorem pushChar_length {st st' : Nat × List Char} {c : Char} (h : pushChar st c = .ok st') : st'.1 + st'.2.length = st.1 + st.2.length := by
  obtain ⟨i, cs⟩ := st
  cases i with
  | zero => cases h
  | succ i => cases h; simp only [List.length_cons]; omega

theorem putNine_length : ∀ (n u : Nat) {st st' : Nat × List Char}, BigIntegerCpp.putNine n u st = .ok st' →
    st'.1 + st'.2.length = st.1 + st.2.length
  | 0, _, _, _, h => by cases h; rfl
  | n + 1, u, st, st', h => by
    rw [BigIntegerCpp.putNine] at h
    obtain ⟨t, h1, h2⟩ := Res.bind_eq_ok h
    rw [putNine_length n _ h2, pushChar_length h1]

theorem putTop_length (u : Nat) : ∀ {st st' : Nat × List Char}, BigIntegerCpp.putTop u st = .ok st' →
    st'.1 + st'.2.length = st.1 + st.2.length := by
  induction u using Nat.strongRecOn with
  | ind u ih =>
  intro st st' h
  rw [BigIntegerCpp.putTop] at h
  by_cases h0 : u = 0
  · rw [dif_pos h0] at h; cases h; rfl
  · rw [dif_neg h0] at h
    obtain ⟨t, h1, h2⟩ := Res.bind_eq_ok h
    rw [ih (u / 10) (by omega) h2, pushChar_length h1]

theorem putLimbs_length : ∀ (ds : List Nat) {st st' : Nat × List Char}, BigIntegerCpp.putLimbs ds st = .ok st' →
    st'.1 + st'.2.length = st.1 + st.2.length
  | [], _, _, h => by cases h
  | [d], st, st', h => by rw [BigIntegerCpp.putLimbs] at h; exact putTop_length d h
  | d :: e :: ds, st, st', h => by
    rw [BigIntegerCpp.putLimbs] at h
    · obtain ⟨_, -, h⟩ := Res.bind_eq_ok h
      obtain ⟨t, h1, h2⟩ := Res.bind_eq_ok h
      rw [putLimbs_length (e :: ds) h2, putNine_length 9 d h1]
    · exact nofun

omit [Cfg] in
theorem lift_ok_bind {α β : Type} (a : α) (f : α → Counted β) : (lift (.ok a) >>= f) = f a := by
  show Counted.mk (f a).res (0 + (f a).steps) (max 0 (f a).depth) (max 0 (f a).words) = f a
  rw [Nat.zero_add, Nat.zero_max, Nat.zero_max]

theorem toStr_cost {a : BigInt} (ha : a.Valid) (h0 : a.bits ≠ []) :
    9 * (toStr a).steps ≤ 5 * (a.bits.length * a.bits.length) + 213 * a.bits.length + 369 ∧ (toStr a).depth = 0 ∧
    9 * (toStr a).words ≤ 100 * a.bits.length + 189 ∧
    (a.bits.length ≤ 214748364 → a.bits.length * a.bits.length + a.bits.length ≤ 2 * (toStr a).steps) := by
  have hlen := List.length_pos_iff.2 h0
  have zero : ∀ {r : Counted (List Char)}, r.steps = 0 → r.depth = 0 → r.words = 0 → a.bits.length > 214748364 →
      9 * r.steps ≤ 5 * (a.bits.length * a.bits.length) + 213 * a.bits.length + 369 ∧ r.depth = 0 ∧
      9 * r.words ≤ 100 * a.bits.length + 189 ∧
      (a.bits.length ≤ 214748364 → a.bits.length * a.bits.length + a.bits.length ≤ 2 * r.steps) := by
    intro r h1 h2 h3 h4
    rw [h1, h2, h3]
    exact ⟨Nat.zero_le _, rfl, Nat.zero_le _, fun h => by omega⟩
  unfold toStr
  rw [if_neg (by omega)]
  by_cases h31 : a.bits.length < 2147483648
  · rw [sizeInt_ok h31, lift_ok_bind]
    by_cases hbig : a.bits.length > 214748364
    · rw [if_pos hbig]
      exact zero rfl rfl rfl hbig
    rw [if_neg hbig]
    dsimp only
    generalize hm : a.bits.length * 10 / 9 + 2 = m
    obtain ⟨k1, k2, k3⟩ := toBase_cost (w := 9 * m + 1) m a.bits ha.words (by omega)
    have k3 := k3 ha.topNonzero
    obtain ⟨ds, h1, h2, h3, h4⟩ := toBase_spec m a.bits ha.words (by omega)
    have hl := nine_len_of_val h3 h4 (val_lt ha.words)
    have hrest : Within (if ds.length > 238609294 then lift (.throw .overflowError) else
        if ds.length * 9 = 2147483647 then lift (.throw .overflowError) else
        hold (ds.length * 9 + 1) (do
          let st ← putLimbs ds (ds.length * 9, [])
          let st ← (if a.sign < 0 then do tick 1; lift (pushChar st '-') else pure st)
          tick st.2.length
          pure st.2) : Counted (List Char)) (10 * ds.length + (1 + 9 * ds.length)) 0 (9 * m + 1) := by
      by_cases h : ds.length > 238609294
      · rw [if_pos h]; exact (within_lift _ _ _).mono (Nat.zero_le _) (Nat.le_refl _) (Nat.le_refl _)
      rw [if_neg h]
      by_cases h : ds.length * 9 = 2147483647
      · rw [if_pos h]; exact (within_lift _ _ _).mono (Nat.zero_le _) (Nat.le_refl _) (Nat.le_refl _)
      rw [if_neg h]
      refine (within_hold (w := 0) _ (within_bind (putLimbs_within ds _ h2) fun st hst => ?_)).mono (Nat.le_refl _) (Nat.le_refl _) (by omega)
      rw [putLimbs_res] at hst
      have c1 := putLimbs_length ds hst
      refine within_bind (s := 1) (t := 9 * ds.length) ?_ fun st' hst' => ?_
      · by_cases h : a.sign < 0
        · rw [if_pos h]
          exact within_tick_bind (n := 1) (t := 0) (within_lift _ _ _)
        · rw [if_neg h]; exact (within_pure _ _ _).mono (Nat.zero_le _) (Nat.le_refl _) (Nat.le_refl _)
      · have c2 : st'.1 + st'.2.length = st.1 + st.2.length := by
          by_cases h : a.sign < 0
          · rw [if_pos h, bind_res, tick_res, Res.ok_bind, lift_res] at hst'
            exact pushChar_length hst'
          · rw [if_neg h, pure_res] at hst'
            cases hst'; rfl
        simp only [List.length_nil, Nat.add_zero] at c1
        have := within_tick_bind (n := st'.2.length) (f := fun _ => pure st'.2) (within_pure (α := List Char) _ 0 0)
        exact this.mono (by omega) (Nat.le_refl _) (Nat.le_refl _)
    have hall := within_bind (f := fun ds => (if ds.length > 238609294 then lift (.throw .overflowError) else
        if ds.length * 9 = 2147483647 then lift (.throw .overflowError) else
        hold (ds.length * 9 + 1) (do
          let st ← putLimbs ds (ds.length * 9, [])
          let st ← (if a.sign < 0 then do tick 1; lift (pushChar st '-') else pure st)
          tick st.2.length
          pure st.2) : Counted (List Char))) k1 fun t ht => by
      rw [toBase_res, h1] at ht
      cases ht
      exact hrest
    have hsc := within_scope m hall
    have hlow := steps_bind (r := toBase m a.bits) (f := fun ds => (if ds.length > 238609294 then lift (.throw .overflowError) else
        if ds.length * 9 = 2147483647 then lift (.throw .overflowError) else
        hold (ds.length * 9 + 1) (do
          let st ← putLimbs ds (ds.length * 9, [])
          let st ← (if a.sign < 0 then do tick 1; lift (pushChar st '-') else pure st)
          tick st.2.length
          pure st.2) : Counted (List Char))) (a := ds) (by rw [toBase_res]; exact h1)
    refine ⟨?_, Nat.le_zero.1 hsc.2, ?_, fun _ => ?_⟩
    · have := hsc.1
      omega
    · have := hsc.3
      omega
    · refine le_trans k3 (Nat.mul_le_mul_left 2 ?_)
      show _ ≤ Counted.steps _ + m
      rw [hlow]
      omega
  · have e : sizeInt a.bits.length = .ub .sizeNarrowing := by unfold sizeInt; rw [if_neg (by omega)]
    rw [e]
    exact zero rfl rfl rfl (by omega)

/-! ### `parse` -/

theorem mul_small_within {a b : BigInt} (hb : b.bits = []) : Within (mul a b) (7 * a.bits.length + 4) 0 (3 * a.bits.length + 2) := by
  unfold mul
  refine (within_scope (s := 6 * a.bits.length + 4) (w := 2 * a.bits.length + 2) _ ?_).mono (by omega) (Nat.le_refl _) (by omega)
  refine within_lift_bind fun _ _ => within_lift_bind fun _ _ => ?_
  by_cases h1 : a.bits = [] ∧ b.bits = []
  · rw [if_pos h1]
    exact within_lift_bind fun _ _ => (within_lift _ _ _).mono (Nat.zero_le _) (Nat.le_refl _) (Nat.le_refl _)
  rw [if_neg h1, if_neg (fun h => h1 ⟨h, hb⟩), if_pos hb]
  refine within_lift_bind fun _ _ => ?_
  refine (within_hold (s := 6 * a.bits.length + 4) (w := a.bits.length + 1) _ ?_).mono (Nat.le_refl _) (Nat.le_refl _) (by omega)
  refine (within_bind ((multiplyWord_within 0 1 a.bits _).mono (Nat.le_refl _) (Nat.le_refl _) (by omega)) fun t ht => ?_).mono
    (s := 3 * a.bits.length + 1 + (3 * a.bits.length + 3)) (by omega) (Nat.le_refl _) (Nat.le_refl _)
  rw [multiplyWord_res] at ht
  have := multiplyWord_length ht
  exact (ofMagnitude_within 0 0 t _).mono (by omega) (Nat.le_refl _) (by omega)

omit [Cfg] in
theorem steps_le_bind {α β : Type} (r : Counted α) (f : α → Counted β) : r.steps ≤ (r >>= f).steps := by
  show _ ≤ (Counted.bind r f).steps
  unfold Counted.bind
  cases r.res <;> first | exact Nat.le_add_right _ _ | exact Nat.le_refl _

theorem mul_small_steps {a b : BigInt} {x y : Int} (ha : a.Denotes x) (hb : b.Denotes y) (hs : b.bits = []) :
    4 * a.bits.length ≤ (mul a b).steps := by
  by_cases h0 : a.bits = []
  · simp [h0]
  unfold mul
  rw [ha.assertValid, hb.assertValid, lift_ok_bind, lift_ok_bind, if_neg (fun h => h0 h.1), if_neg h0, if_pos hs]
  have hy : y.natAbs < 2147483648 := by
    rcases hb.shape with ⟨rfl, h1, h2⟩ | ⟨s, ws, rfl, -, hne, -⟩
    · omega
    · exact absurd hs hne
  have hc : ∃ n, cabs b.sign = .ok n := by
    rcases hb.shape with ⟨rfl, h1, h2⟩ | ⟨s, ws, rfl, -, hne, -⟩
    · exact ⟨_, cabs_ok (by dsimp only; omega)⟩
    · exact absurd hs hne
  obtain ⟨n, hn⟩ := hc
  rw [hn, lift_ok_bind]
  have h := steps_le_bind (multiplyWord a.bits n) fun bits => ofMagnitude bits (BigInt.signXor a b)
  have h' : 3 * a.bits.length + 1 ≤ (multiplyWord a.bits n).steps := by
    have := steps_le_bind (tick (a.bits.length + 1 + a.bits.length)) fun _ => lift (BigIntegerCpp.multiplyWord a.bits n)
    show _ ≤ Counted.steps _ + a.bits.length
    have e : (tick (a.bits.length + 1 + a.bits.length)).steps = a.bits.length + 1 + a.bits.length := rfl
    rw [e] at this
    refine le_trans ?_ (Nat.add_le_add_right this _)
    omega
  show _ ≤ Counted.steps _ + a.bits.length
  refine le_trans ?_ (Nat.add_le_add_right (h'.trans h) _)
  omega

theorem words_of_digits {c : BigInt} {m j : Nat} (hc : c.Denotes m) (hm : m < 10 ^ j) : c.bits.length ≤ j / 9 + 1 := by
  apply hc.length_le
  rw [Int.natAbs_natCast]
  calc m < 10 ^ j := hm
    _ ≤ 10 ^ (9 * (j / 9 + 1)) := Nat.pow_le_pow_right (by decide) (by omega)
    _ = (10 ^ 9) ^ (j / 9 + 1) := pow_mul _ _ _
    _ ≤ 4294967296 ^ (j / 9 + 1) := Nat.pow_le_pow_left (by norm_num) _

theorem digits_of_words {c : BigInt} {m j : Nat} (hc : c.Denotes m) (hm : 10 ^ j ≤ m) : j / 10 ≤ c.bits.length := by
  rcases hc.shape with ⟨rfl, h1, h2⟩ | ⟨s, ws, rfl, hs, hne, hw, ht, hv, he⟩
  · have : j < 10 := by
      by_contra h
      have := Nat.pow_le_pow_right (n := 10) (by decide) (show 10 ≤ j by omega)
      norm_num at this
      omega
    simp only [List.length_nil]
    omega
  · have hv := val_lt hw
    have e : m = val ws := by
      have := congrArg Int.natAbs he
      rwa [Int.natAbs_natCast, natAbs_unit_mul hs] at this
    have h1 : 10 ^ j < 10 ^ (10 * ws.length) := by
      calc 10 ^ j ≤ val ws := by rw [← e]; exact hm
        _ < 4294967296 ^ ws.length := hv
        _ ≤ (10 ^ 10) ^ ws.length := Nat.pow_le_pow_left (by norm_num) _
        _ = 10 ^ (10 * ws.length) := (pow_mul _ _ _).symm
    have := (Nat.pow_lt_pow_iff_right (by decide)).1 h1
    dsimp only
    omega

/-- One digit of the loop: the intermediate values. -/
theorem parseLoop_digit {ch : Char} (hd : '0' ≤ ch ∧ ch ≤ '9') {b : BigInt} {n k : Nat} (hb : b.Denotes n) (hn : n < 10 ^ k)
    (hk : k + 1 < 17179869184) :
    ∃ ten b1 d b2 : BigInt, ofInt32 10 = .ok ten ∧ ten.Denotes 10 ∧ ten.bits = [] ∧ b.mul ten = .ok b1 ∧ b1.Denotes ((n * 10 : Nat) : Int) ∧
      ofUInt32 (ch.toNat - 48) = .ok d ∧ d.bits = [] ∧ b1.add d = .ok b2 ∧ b2.Denotes ((n * 10 + (ch.toNat - 48) : Nat) : Int) ∧
      ch.toNat - 48 < 10 := by
  have hch : ch.toNat - 48 < 10 := by
    have h2 : ch.val ≤ '9'.val := hd.2
    have h3 : ch.val.toNat ≤ 57 := by simpa using UInt32.le_iff_toNat_le.1 h2
    show ch.val.toNat - 48 < 10
    omega
  have empty : ∀ {c : BigInt} {m : Nat}, c.Denotes m → m ≤ 10 → c.bits = [] := by
    intro c m hc hm
    rcases hc.shape with ⟨rfl, -, -⟩ | ⟨s, ws, rfl, hs, -, -, -, hv, he⟩
    · rfl
    · rcases hs with rfl | rfl <;> omega
  obtain ⟨ten, ht1, ht2⟩ := ofInt32_spec (z := 10) (by decide) (by decide)
  have hten : ten.bits = [] := empty (m := 10) ht2 (by decide)
  have hbl := words_of_digits hb hn
  obtain ⟨b1, h1, h2⟩ := BigInt.mul_spec hb ht2 (by rw [hten, List.length_nil]; omega)
  obtain ⟨d, h3, h4⟩ := ofUInt32_spec (x := ch.toNat - 48) (by omega)
  have h2' : b1.Denotes ((n * 10 : Nat) : Int) := by rw [Nat.cast_mul]; exact h2
  have hb1 := words_of_digits h2' (show n * 10 < 10 ^ (k + 1) by rw [pow_succ]; omega)
  have hdl := empty h4 (by omega)
  obtain ⟨b2, h5, h6⟩ := BigInt.add_spec h2' h4 (by omega) (by rw [hdl]; decide)
  rw [← Nat.cast_add] at h6
  exact ⟨ten, b1, d, b2, ht1, ht2, hten, h1, h2', h3, hdl, h5, h6, hch⟩

theorem parseLoop_cost (cs : List Char) : ∀ (b : BigInt) (n k K : Nat), b.Denotes n → n < 10 ^ k → k + cs.length ≤ K → K < 17179869184 →
    Within (parseLoop cs b) (parseLoop cs b).steps 0 (3 * (K / 9 + 1) + 2) ∧
    18 * (parseLoop cs b).steps ≤ 15 * (cs.length * cs.length) + 30 * (k * cs.length) + 433 * cs.length + 18 ∧
    ∀ r, BigInt.parseLoop cs b = .ok r → r.bits.length ≤ K / 9 + 1 := by
  induction cs with
  | nil =>
    intro b n k K hb hn hk hK
    refine ⟨within_pure _ _ _, Nat.zero_le _, fun r hr => ?_⟩
    cases hr
    have := words_of_digits hb hn
    omega
  | cons ch cs ih =>
    intro b n k K hb hn hk hK
    rw [List.length_cons] at hk ⊢
    by_cases hd : '0' ≤ ch ∧ ch ≤ '9'
    · obtain ⟨ten, b1, d, b2, e1, e2, e3, e4, e5, e6, e7, e8, e9, e10⟩ := parseLoop_digit hd hb hn (by omega)
      have hn' : n * 10 + (ch.toNat - 48) < 10 ^ (k + 1) := by rw [pow_succ]; omega
      obtain ⟨i1, i2, i3⟩ := ih b2 _ (k + 1) K e9 hn' (by omega) hK
      have l0 := words_of_digits hb hn
      have l1 := words_of_digits e5 (show n * 10 < 10 ^ (k + 1) by omega)
      have m1 := mul_small_within (a := b) e3
      have a1 := add_within b1 d (M := b1.bits.length) (Nat.le_refl _) (by rw [e7]; exact Nat.zero_le _)
      have es : (parseLoop (ch :: cs) b).steps = 1 + ((mul b ten).steps + ((add b1 d).steps + (parseLoop cs b2).steps)) := by
        rw [parseLoop, if_pos hd, steps_bind (tick_res 1), e1, lift_ok_bind, steps_bind (a := b1) (by rw [mul_res]; exact e4), e6, lift_ok_bind,
          steps_bind (a := b2) (by rw [add_res]; exact e8)]
        rfl
      refine ⟨?_, ?_, fun r hr => i3 r ?_⟩
      · rw [es, parseLoop, if_pos hd, e1]
        refine within_tick_bind ?_
        rw [lift_ok_bind]
        refine within_bind (Within.mono ⟨Nat.le_refl _, m1.2, m1.3⟩ (Nat.le_refl _) (Nat.le_refl _) (by omega)) fun t ht => ?_
        rw [mul_res, e4] at ht
        cases ht
        rw [e6, lift_ok_bind]
        refine within_bind (Within.mono ⟨Nat.le_refl _, a1.2, a1.3⟩ (Nat.le_refl _) (Nat.le_refl _) (by omega)) fun t ht => ?_
        rw [add_res, e8] at ht
        cases ht
        exact i1
      · rw [es]
        have := m1.1
        have := a1.1
        have x1 : (cs.length + 1) * (cs.length + 1) = cs.length * cs.length + 2 * cs.length + 1 := by ring
        have x2 : k * (cs.length + 1) = k * cs.length + k := by ring
        have x3 : (k + 1) * cs.length = k * cs.length + cs.length := by ring
        rw [x1, x2]
        rw [x3] at i2
        omega
      · rwa [BigInt.parseLoop, if_pos hd, e1, Res.ok_bind, e4, Res.ok_bind, e6, Res.ok_bind, e8, Res.ok_bind] at hr
    · rw [parseLoop, if_neg hd]
      have h : Within (do tick 1; pure b : Counted BigInt) 1 0 (3 * (K / 9 + 1) + 2) := within_tick_bind (n := 1) (t := 0) (within_pure _ _ _)
      refine ⟨⟨Nat.le_refl _, h.2, h.3⟩, ?_, fun r hr => ?_⟩
      · have := h.1
        omega
      · rw [BigInt.parseLoop, if_neg hd] at hr
        cases hr
        have := words_of_digits hb hn
        omega

theorem parseLoop_low (cs : List Char) (hcs : ∀ c ∈ cs, '0' ≤ c ∧ c ≤ '9') : ∀ (b : BigInt) (n k : Nat), b.Denotes n → 10 ^ k ≤ n → n < 10 ^ (k + 1) →
    k + 1 + cs.length < 17179869184 →
    cs.length * cs.length + 2 * (k * cs.length) ≤ 5 * (parseLoop cs b).steps + 14 * cs.length := by
  induction cs with
  | nil => intro b n k hb hn hn' hk; exact Nat.zero_le _
  | cons ch cs ih =>
    intro b n k hb hl hn hk
    rw [List.length_cons] at hk ⊢
    have hd := hcs ch (by simp)
    obtain ⟨ten, b1, d, b2, e1, e2, e3, e4, e5, e6, e7, e8, e9, e10⟩ := parseLoop_digit hd hb hn (by omega)
    have hn' : n * 10 + (ch.toNat - 48) < 10 ^ (k + 1 + 1) := by rw [pow_succ 10 (k + 1)]; omega
    have i := ih (fun c hc => hcs c (List.mem_cons_of_mem _ hc)) b2 _ (k + 1) e9 (by rw [pow_succ]; omega) hn' (by omega)
    have l0 := digits_of_words hb hl
    have m1 := mul_small_steps hb e2 e3
    have es : (parseLoop (ch :: cs) b).steps = 1 + ((mul b ten).steps + ((add b1 d).steps + (parseLoop cs b2).steps)) := by
      rw [parseLoop, if_pos hd, steps_bind (tick_res 1), e1, lift_ok_bind, steps_bind (a := b1) (by rw [mul_res]; exact e4), e6, lift_ok_bind,
        steps_bind (a := b2) (by rw [add_res]; exact e8)]
      rfl
    rw [es]
    have x1 : (cs.length + 1) * (cs.length + 1) = cs.length * cs.length + 2 * cs.length + 1 := by ring
    have x2 : k * (cs.length + 1) = k * cs.length + k := by ring
    have x3 : (k + 1) * cs.length = k * cs.length + cs.length := by ring
    rw [x1, x2]
    rw [x3] at i
    omega

/-- The same from the first digit on. -/
theorem parseLoop_low_zero {c : Char} {cs : List Char} (hc : '0' ≤ c ∧ c ≤ '9') (h0 : c ≠ '0') (hcs : ∀ c ∈ cs, '0' ≤ c ∧ c ≤ '9')
    (hl : cs.length + 2 < 17179869184) : cs.length * cs.length ≤ 5 * (parseLoop (c :: cs) zeroInt).steps + 14 * cs.length := by
  obtain ⟨ten, b1, d, b2, e1, e2, e3, e4, e5, e6, e7, e8, e9, e10⟩ := parseLoop_digit hc (n := 0) (k := 0) denotes_zero (by decide) (by decide)
  have h1 : 1 ≤ c.toNat - 48 := by
    have h2 : 48 ≤ c.val.toNat := by simpa using UInt32.le_iff_toNat_le.1 hc.1
    have h3 : c.val.toNat ≠ 48 := fun h => h0 (Char.ext (UInt32.toNat.inj h))
    show 1 ≤ c.val.toNat - 48
    omega
  have i := parseLoop_low cs hcs b2 _ 0 e9 (by rw [pow_zero]; omega) (by rw [zero_add, pow_one]; omega) (by omega)
  have es : (parseLoop cs b2).steps ≤ (parseLoop (c :: cs) zeroInt).steps := by
    rw [parseLoop, if_pos hc, steps_bind (tick_res 1), e1, lift_ok_bind, steps_bind (a := b1) (by rw [mul_res]; exact e4), e6, lift_ok_bind,
      steps_bind (a := b2) (by rw [add_res]; exact e8)]
    omega
  omega

end Cost
end BigIntegerCpp
