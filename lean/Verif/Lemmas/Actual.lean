import Verif.ActualSpec
import Verif.Lemmas.Program
/-
Helper lemmas for `C40_actual`.
-/
set_option linter.unusedSectionVars false
set_option linter.unnecessarySeqFocus false
namespace BigIntegerCpp
variable [Cfg]

theorem shr_actual {a : BigInt} {x : Int} (ha : a.Denotes x) (hx : InRange x) {n : Int} (h0 : 0 ≤ n) :
    Returns (a.shr n) (shrActual x n.toNat) := by
  have la := hx.length ha
  unfold shrActual
  by_cases hm : ShiftMisfires x n.toNat
  · rw [if_pos hm]; exact BigInt.shr_misfire ha (by omega) hm
  · rw [if_neg hm]; exact BigInt.shr_pos ha h0 (by omega) (fun _ => by omega) hm

theorem shl_actual {a : BigInt} {x : Int} (ha : a.Denotes x) (hx : InRange x) {n : Int} (h1 : IntRange n) :
    Returns (a.shl n) (if 0 ≤ n then x * 2 ^ n.toNat else if n = -2 ^ 31 then x / 2 ^ (2 ^ 31) else shrActual x (-n).toNat) := by
  have la := hx.length ha
  obtain ⟨h3, h4⟩ := h1
  by_cases hn : 0 ≤ n
  · rw [if_pos hn]; exact BigInt.shl_pos ha hn (by omega)
  · rw [if_neg hn]
    by_cases hmin : n = -2 ^ 31
    · rw [if_pos hmin]
      have := BigInt.shl_neg ha (n := n) (by omega) (by omega) (fun _ => by omega) (fun h => absurd hmin h)
      rwa [show (-n).toNat = 2 ^ 31 by rw [hmin]; rfl] at this
    · rw [if_neg hmin]
      unfold shrActual
      by_cases hm : ShiftMisfires x (-n).toNat
      · rw [if_pos hm]
        have : n ≠ -2147483648 := hmin
        exact BigInt.shl_neg_misfire ha (by omega) (by omega) hm
      · rw [if_neg hm]; exact BigInt.shl_neg ha (by omega) (by omega) (fun _ => by omega) (fun _ => hm)

private theorem matches_write {σ : Store} {ρ : IntStore} (h : σ.Shows ρ) {m : Res BigInt} {z : Int} (hm : Returns m z) (i : Nat) :
    ∃ r σ', (do Cmd.write i (← Cmd.lift m) : Cmd Unit) σ = (r, σ') ∧ Ending.normal.Matches (ρ.set i z) r σ' := by
  obtain ⟨σ', h1, h2⟩ := write_returns h hm i
  exact ⟨_, σ', h1, rfl, h2⟩

private theorem matches_throw {σ : Store} {ρ : IntStore} (h : σ.Shows ρ) {m : Res BigInt} {e : Exn} (hm : m = .throw e) (i : Nat) :
    ∃ r σ', (do Cmd.write i (← Cmd.lift m) : Cmd Unit) σ = (r, σ') ∧ (Ending.exception e).Matches ρ r σ' :=
  ⟨_, σ, write_throws hm i, rfl, h⟩

theorem Cmd.bind_ub {α β : Type} {m : Cmd α} {f : α → Cmd β} {σ σ' : Store} {u : UB} (h : m σ = (.ub u, σ')) :
    (m >>= f) σ = (.ub u, σ') := by
  rw [bind_eq, Cmd.bind, h]

theorem divRem_actual {z x y r : Nat} {σ : Store} {ρ : IntStore} (hσ : σ.Shows ρ) (hr : ∀ i, InRange (ρ i)) (h0 : ρ y ≠ 0) :
    ∃ res σ', (do Cmd.write z (← divRemAt x y r) : Cmd Unit) σ = (res, σ') ∧
      (divRemActual z x y r ρ).1.Matches (divRemActual z x y r ρ).2 res σ' := by
  have la := (hr x).length (hσ x)
  have fin : ∀ {q r' : BigInt} {a b : Int}, divRemAt x y r σ = (.ok q, σ.set r r') → q.Denotes a → r'.Denotes b →
      ∃ res σ', (do Cmd.write z (← divRemAt x y r) : Cmd Unit) σ = (res, σ') ∧
        Ending.normal.Matches ((ρ.set r b).set z a) res σ' := by
    intro q r' a b h1 h2 h3
    rw [Cmd.bind_ok h1]
    exact ⟨_, _, rfl, rfl, (hσ.set h3).set h2⟩
  have bad : ∀ {u : UB} {σ1 : Store}, divRemAt x y r σ = (.ub u, σ1) →
      ∃ res σ', (do Cmd.write z (← divRemAt x y r) : Cmd Unit) σ = (res, σ') ∧ Ending.undefined.Matches ρ res σ' := by
    intro u σ1 h1
    rw [Cmd.bind_ub h1]
    exact ⟨_, _, rfl, u, rfl⟩
  have small : (|ρ x| < 2 ^ 31 ∧ |ρ y| < 2 ^ 31) ↔ ((ρ x).natAbs < 2147483648 ∧ (ρ y).natAbs < 2147483648) := by
    rw [Int.abs_eq_natAbs, Int.abs_eq_natAbs]; omega
  unfold divRemActual
  dsimp only
  by_cases h1 : r = x
  · rw [if_pos h1]
    by_cases h2 : r = y
    · rw [if_pos h2]
      obtain rfl : x = y := h1.symm.trans h2
      subst h1
      have key := divRemAt_self (hσ r) h0 (by omega)
      by_cases h3 : |ρ r| < 2 ^ 31 ∧ |ρ r| < 2 ^ 31
      · rw [if_pos h3]
        obtain ⟨σ', h4⟩ := key.1 (small.1 h3).1
        exact bad h4
      · rw [if_neg h3]
        obtain ⟨q, r', h4, h5, h6⟩ := key.2 (by rw [small] at h3; omega)
        exact fin h4 h5 h6
    · rw [if_neg h2]
      subst h1
      obtain ⟨q, r', h4, h5, h6⟩ := divRemAt_over_dividend (hσ r) (hσ y) h0 (by omega) h2
      exact fin h4 h5 h6
  · rw [if_neg h1]
    by_cases h2 : r = y
    · rw [if_pos h2]
      subst h2
      by_cases h3 : |ρ x| < 2 ^ 31 ∧ |ρ r| < 2 ^ 31
      · rw [if_pos h3]
        have key := divRemAt_over_divisor_small (hσ x) (hσ r) h0 (Ne.symm h1) (small.1 h3)
        by_cases h4 : ρ r ∣ ρ x
        · rw [if_pos h4]
          obtain ⟨σ', h5⟩ := key.1 h4
          exact bad h5
        · rw [if_neg h4]
          obtain ⟨q, r', h5, h6, h7⟩ := key.2 h4
          exact fin h5 h6 h7
      · rw [if_neg h3]
        obtain ⟨q, r', h4, h5, h6⟩ := divRemAt_over_divisor (hσ x) (hσ r) h0 (by omega) (Ne.symm h1) (by rwa [small] at h3)
        exact fin h4 h5 h6
    · rw [if_neg h2]
      obtain ⟨q, r', h4, h5, h6⟩ := divRemAt_distinct (k := r) (hσ x) (hσ y) h0 (by omega) (Ne.symm h1) (Ne.symm h2)
      exact fin h4 h5 h6

theorem Stmt.exec_actual (s : Stmt) {σ : Store} {ρ : IntStore} (hσ : σ.Shows ρ) (hr : ∀ i, InRange (ρ i)) (hl : s.Literals)
    (hr' : ∀ i, InRange ((s.actual ρ).2 i)) :
    ∃ r σ', s.exec σ = (r, σ') ∧ (s.actual ρ).1.Matches (s.actual ρ).2 r σ' := by
  cases s with
  | const x n => exact matches_write hσ (ofInt32_spec hl.1 (by have := hl.2; omega)) x
  | update op x y =>
    unfold Stmt.exec Stmt.actual
    dsimp only
    simp only [Cmd.read_bind]
    cases hm : op.meaning (ρ x) (ρ y) with
    | ok v => exact matches_write hσ (op.apply_ok (hσ x) (hσ y) (hr x) (hr y) hm) x
    | error e => exact matches_throw hσ (op.apply_throw (hσ x) (hσ y) (hr x) hm) x
  | binary op z x y =>
    unfold Stmt.exec Stmt.actual
    dsimp only
    simp only [Cmd.read_bind]
    cases hm : op.meaning (ρ x) (ρ y) with
    | ok v => exact matches_write hσ (op.apply_ok (hσ x) (hσ y) (hr x) (hr y) hm) z
    | error e => exact matches_throw hσ (op.apply_throw (hσ x) (hσ y) (hr x) hm) z
  | unary op z x => exact matches_write hσ (op.apply_ok (hσ x) (hr x)) z
  | shl x n => exact matches_write hσ (shl_actual (hσ x) (hr x) hl) x
  | shr x n =>
    have h : Returns ((σ x).shr n) (if 0 ≤ n then shrActual (ρ x) n.toNat else ρ x * 2 ^ (-n).toNat) := by
      have la := (hr x).length (hσ x)
      by_cases hn : 0 ≤ n
      · rw [if_pos hn]; exact shr_actual (hσ x) (hr x) hn
      · rw [if_neg hn]; exact BigInt.shr_neg (hσ x) (by omega) (by have := hl.1; omega)
    exact matches_write hσ h x
  | inc x =>
    have la := (hr x).length (hσ x)
    exact matches_write hσ (BigInt.add_spec (hσ x) denotes_one (by omega) (by decide)) x
  | dec x =>
    have la := (hr x).length (hσ x)
    exact matches_write hσ (BigInt.sub_spec (hσ x) denotes_one (by omega) (by decide)) x
  | pow z x n =>
    unfold Stmt.exec
    simp only [Cmd.read_bind]
    unfold Stmt.actual at hr' ⊢
    dsimp only at hr' ⊢
    by_cases hn : n < 0
    · rw [if_pos hn]
      exact matches_throw hσ (by unfold BigInt.pow; rw [if_pos hn]) z
    · rw [if_neg hn] at hr' ⊢
      have h1 := hr' z
      unfold IntStore.set at h1
      dsimp only at h1
      rw [if_pos rfl] at h1
      obtain ⟨m, rfl⟩ := Int.eq_ofNat_of_zero_le (not_lt.1 hn)
      rw [Int.toNat_natCast] at h1 ⊢
      have h2 := hl.2
      exact matches_write hσ (pow_in_range (hσ x) (hr x) (by omega) h1) z
  | divRem z x y r =>
    unfold Stmt.exec Stmt.actual
    dsimp only
    by_cases h0 : ρ y = 0
    · rw [if_pos h0]
      have la := (hr x).length (hσ x)
      exact ⟨_, σ, Cmd.bind_throw (divRemAt_zero (hσ x) (h0 ▸ hσ y) (by omega)), rfl, hσ⟩
    · rw [if_neg h0]; exact divRem_actual hσ hr h0
  | long x n =>
    unfold Stmt.exec Stmt.actual
    dsimp only
    by_cases hn : n = -2 ^ 63
    · rw [if_pos hn, show ofInt64 n = .ub .signedOverflow by rw [hn]; unfold ofInt64; simp [BigIntegerCpp.long]]
      exact ⟨_, σ, rfl, _, rfl⟩
    · rw [if_neg hn]; exact matches_write hσ (ofInt64_spec (by have := hl.1; omega) hl.2) x
  | ulong x n => exact matches_write hσ (ofUInt64_spec hl) x
  | parse x s => exact matches_write hσ (BigInt.parse_spec s hl) x
  | move x y =>
    obtain ⟨σ', h1, h2⟩ := move_exec hσ x y
    exact ⟨_, σ', h1, rfl, h2⟩
  | swap x y =>
    obtain ⟨σ', h1, h2⟩ := swap_exec hσ x y
    exact ⟨_, σ', h1, rfl, h2⟩
  | postInc z x =>
    obtain ⟨σ', h1, h2⟩ := postInc_exec (z := z) hσ (hr x)
    exact ⟨_, σ', h1, rfl, h2⟩
  | postDec z x =>
    obtain ⟨σ', h1, h2⟩ := postDec_exec (z := z) hσ (hr x)
    exact ⟨_, σ', h1, rfl, h2⟩

theorem Does.exec {p : Prog} {ρ ρ' : IntStore} {o : Ending} (h : Does p ρ o ρ') : ∀ {σ : Store}, σ.Shows ρ →
    ∃ n r σ', o.Matches ρ' r σ' ∧ ∀ fuel, n ≤ fuel → p.exec fuel σ = (r, σ') := by
  have up : ∀ {n fuel : Nat}, n + 1 ≤ fuel → ∃ f, fuel = f + 1 ∧ n ≤ f := fun {n fuel} h => ⟨fuel - 1, by omega, by omega⟩
  have stop : ∀ {o : Ending} {ρ : IntStore} {r : Res Unit} {σ0 σ1 : Store} {m : Cmd Unit} {f : Unit → Cmd Unit}, o ≠ .normal →
      o.Matches ρ r σ1 → m σ0 = (r, σ1) → (m >>= f) σ0 = (r, σ1) := by
    intro o ρ r σ0 σ1 m f ho hm h
    cases o with
    | normal => exact absurd rfl ho
    | exception e => obtain ⟨rfl, -⟩ := hm; exact Cmd.bind_throw h
    | undefined => obtain ⟨u, rfl⟩ := hm; exact Cmd.bind_ub h
  induction h with
  | skip ρ =>
    intro σ hσ
    refine ⟨1, _, σ, ⟨rfl, hσ⟩, fun fuel hf => ?_⟩
    obtain ⟨f, rfl, hf⟩ := up hf
    rfl
  | stmt s ρ hr hl hr' =>
    intro σ hσ
    obtain ⟨r, σ', h1, h2⟩ := s.exec_actual hσ hr hl hr'
    refine ⟨1, r, σ', h2, fun fuel hf => ?_⟩
    obtain ⟨f, rfl, hf⟩ := up hf
    exact h1
  | seq p q ρ ρ' ρ'' o _ _ ih1 ih2 =>
    intro σ hσ
    obtain ⟨n, _, σ', ⟨rfl, h1⟩, h2⟩ := ih1 hσ
    obtain ⟨m, r, σ'', h3, h4⟩ := ih2 h1
    refine ⟨Max.max n m + 1, r, σ'', h3, fun fuel hf => ?_⟩
    obtain ⟨f, rfl, hf⟩ := up hf
    rw [Prog.exec, Cmd.bind_ok (h2 f (by omega))]
    exact h4 f (by omega)
  | seqEnd p q ρ ρ' o _ ho ih =>
    intro σ hσ
    obtain ⟨n, r, σ', h1, h2⟩ := ih hσ
    refine ⟨n + 1, r, σ', h1, fun fuel hf => ?_⟩
    obtain ⟨f, rfl, hf⟩ := up hf
    rw [Prog.exec]
    exact stop ho h1 (h2 f (by omega))
  | ifTrue c p q ρ ρ' o hr hlt _ ih =>
    intro σ hσ
    obtain ⟨n, r, σ', h1, h2⟩ := ih hσ
    refine ⟨n + 1, r, σ', h1, fun fuel hf => ?_⟩
    obtain ⟨f, rfl, hf⟩ := up hf
    rw [Prog.exec, Cmd.ask_bind, Cond.test_eq hσ hr, Cmd.lift_ok_bind, if_pos (by simpa using hlt)]
    exact h2 f (by omega)
  | ifFalse c p q ρ ρ' o hr hlt _ ih =>
    intro σ hσ
    obtain ⟨n, r, σ', h1, h2⟩ := ih hσ
    refine ⟨n + 1, r, σ', h1, fun fuel hf => ?_⟩
    obtain ⟨f, rfl, hf⟩ := up hf
    rw [Prog.exec, Cmd.ask_bind, Cond.test_eq hσ hr, Cmd.lift_ok_bind, if_neg (by simpa using hlt)]
    exact h2 f (by omega)
  | whileTrue c p ρ ρ' ρ'' o hr hlt _ _ ih1 ih2 =>
    intro σ hσ
    obtain ⟨n, _, σ', ⟨rfl, h1⟩, h2⟩ := ih1 hσ
    obtain ⟨m, r, σ'', h3, h4⟩ := ih2 h1
    refine ⟨Max.max n m + 1, r, σ'', h3, fun fuel hf => ?_⟩
    obtain ⟨f, rfl, hf⟩ := up hf
    rw [Prog.exec, Cmd.ask_bind, Cond.test_eq hσ hr, Cmd.lift_ok_bind, if_pos (by simpa using hlt), Cmd.bind_ok (h2 f (by omega))]
    exact h4 f (by omega)
  | whileEnd c p ρ ρ' o hr hlt _ ho ih =>
    intro σ hσ
    obtain ⟨n, r, σ', h1, h2⟩ := ih hσ
    refine ⟨n + 1, r, σ', h1, fun fuel hf => ?_⟩
    obtain ⟨f, rfl, hf⟩ := up hf
    rw [Prog.exec, Cmd.ask_bind, Cond.test_eq hσ hr, Cmd.lift_ok_bind, if_pos (by simpa using hlt)]
    exact stop ho h1 (h2 f (by omega))
  | whileFalse c p ρ hr hlt =>
    intro σ hσ
    refine ⟨1, _, σ, ⟨rfl, hσ⟩, fun fuel hf => ?_⟩
    obtain ⟨f, rfl, hf⟩ := up hf
    rw [Prog.exec, Cmd.ask_bind, Cond.test_eq hσ hr, Cmd.lift_ok_bind, if_neg (by simpa using hlt)]
    rfl
  | attempt p ρ ρ' o _ ho ih =>
    intro σ hσ
    obtain ⟨n, r, σ', h1, h2⟩ := ih hσ
    have hs : σ'.Shows ρ' := by
      cases o with
      | normal => exact h1.2
      | exception e => exact h1.2
      | undefined => exact absurd rfl ho
    refine ⟨n + 1, _, σ', ⟨rfl, hs⟩, fun fuel hf => ?_⟩
    obtain ⟨f, rfl, hf⟩ := up hf
    rw [Prog.exec]
    dsimp only
    rw [h2 f (by omega)]
    cases o with
    | normal => obtain ⟨rfl, -⟩ := h1; rfl
    | exception e => obtain ⟨rfl, -⟩ := h1; rfl
    | undefined => exact absurd rfl ho
  | attemptUndefined p ρ ρ' _ ih =>
    intro σ hσ
    obtain ⟨n, _, σ', ⟨u, rfl⟩, h2⟩ := ih hσ
    refine ⟨n + 1, _, σ', ⟨u, rfl⟩, fun fuel hf => ?_⟩
    obtain ⟨f, rfl, hf⟩ := up hf
    rw [Prog.exec]
    dsimp only
    rw [h2 f (by omega)]

omit [Cfg] in
/-- On statements clear of the known faults the description is what the statement should do. -/
theorem Stmt.actual_of_safe {s : Stmt} {ρ : IntStore} (hs : s.Safe ρ) :
    s.Literals ∧ s.actual ρ = match s.meaning ρ with
      | .ok ρ' => (.normal, ρ')
      | .error e => (.exception e, ρ) := by
  cases s with
  | const x n => exact ⟨hs, rfl⟩
  | update op x y =>
    refine ⟨trivial, ?_⟩
    unfold Stmt.actual Stmt.meaning
    dsimp only
    cases op.meaning (ρ x) (ρ y) <;> rfl
  | binary op z x y =>
    refine ⟨trivial, ?_⟩
    unfold Stmt.actual Stmt.meaning
    dsimp only
    cases op.meaning (ρ x) (ρ y) <;> rfl
  | unary op z x => exact ⟨trivial, rfl⟩
  | shl x n =>
    refine ⟨hs.1, ?_⟩
    unfold Stmt.actual Stmt.meaning shiftInt
    dsimp only
    by_cases hn : 0 ≤ n
    · rw [if_pos hn, if_pos hn]
    · rw [if_neg hn, if_neg hn]
      by_cases hm : n = -2 ^ 31
      · rw [if_pos hm, show (-n).toNat = 2 ^ 31 by rw [hm]; rfl]
      · rw [if_neg hm]
        unfold shrActual
        rw [if_neg (hs.2 (by omega))]
  | shr x n =>
    refine ⟨hs.1, ?_⟩
    unfold Stmt.actual Stmt.meaning shiftInt
    dsimp only
    by_cases hn : 0 ≤ n
    · rw [if_pos hn]
      unfold shrActual
      rcases eq_or_lt_of_le hn with rfl | h0
      · rw [if_neg (fun h => by have := h.1; omega)]; simp
      · rw [if_neg (hs.2 h0), if_neg (by omega), neg_neg]
    · rw [if_neg hn, if_pos (by omega)]
  | inc x => exact ⟨trivial, rfl⟩
  | dec x => exact ⟨trivial, rfl⟩
  | pow z x n =>
    refine ⟨hs, ?_⟩
    unfold Stmt.actual Stmt.meaning
    dsimp only
    by_cases hn : n < 0
    · rw [if_pos hn, if_pos hn]
    · rw [if_neg hn, if_neg hn]
  | divRem z x y r =>
    refine ⟨trivial, ?_⟩
    obtain ⟨h1, h2, h3⟩ := hs
    unfold Stmt.actual Stmt.meaning
    dsimp only
    by_cases h0 : ρ y = 0
    · rw [if_pos h0, if_pos h0]
    · rw [if_neg h0, if_neg h0]
      unfold divRemActual storedRemainder
      dsimp only
      rw [if_neg h1, if_neg h2, if_neg h3]
  | long x n => exact ⟨hs.1, by unfold Stmt.actual; dsimp only; rw [if_neg hs.2]; rfl⟩
  | ulong x n => exact ⟨hs, rfl⟩
  | parse x s => exact ⟨hs, rfl⟩
  | move x y => exact ⟨trivial, rfl⟩
  | swap x y => exact ⟨trivial, rfl⟩
  | postInc z x => exact hs.elim
  | postDec z x => exact hs.elim

omit [Cfg] in
theorem Runs.does {p : Prog} {ρ ρ' : IntStore} {o : Option Exn} (h : Runs p ρ o ρ') : Does p ρ (ending o) ρ' := by
  induction h with
  | skip ρ => exact .skip ρ
  | stmt s ρ ρ' hr hs hm hr' =>
    obtain ⟨h1, h2⟩ := Stmt.actual_of_safe hs
    rw [hm] at h2
    have := Does.stmt s ρ hr h1 (by rw [h2]; exact hr')
    rwa [h2] at this
  | stmtThrow s ρ e hr hs hm =>
    obtain ⟨h1, h2⟩ := Stmt.actual_of_safe hs
    rw [hm] at h2
    have := Does.stmt s ρ hr h1 (by rw [h2]; exact hr)
    rwa [h2] at this
  | seq p q ρ ρ' ρ'' o _ _ ih1 ih2 => exact .seq _ _ _ _ _ _ ih1 ih2
  | seqThrow p q ρ ρ' e _ ih => exact .seqEnd _ _ _ _ _ ih nofun
  | ifTrue c p q ρ ρ' o hr hlt _ ih => exact .ifTrue _ _ _ _ _ _ hr hlt ih
  | ifFalse c p q ρ ρ' o hr hlt _ ih => exact .ifFalse _ _ _ _ _ _ hr hlt ih
  | whileTrue c p ρ ρ' ρ'' o hr hlt _ _ ih1 ih2 => exact .whileTrue _ _ _ _ _ _ hr hlt ih1 ih2
  | whileThrow c p ρ ρ' e hr hlt _ ih => exact .whileEnd _ _ _ _ _ hr hlt ih nofun
  | whileFalse c p ρ hr hlt => exact .whileFalse _ _ _ hr hlt
  | attempt p ρ ρ' o _ ih => exact .attempt _ _ _ _ ih (by cases o <;> exact nofun)

omit [Cfg] in
theorem Does.inRange {p : Prog} {ρ ρ' : IntStore} {o : Ending} (h : Does p ρ o ρ') (hr : ∀ i, InRange (ρ i)) : ∀ i, InRange (ρ' i) := by
  induction h with
  | skip _ => exact hr
  | stmt _ _ _ _ h => exact h
  | seq _ _ _ _ _ _ _ _ ih1 ih2 => exact ih2 (ih1 hr)
  | seqEnd _ _ _ _ _ _ _ ih => exact ih hr
  | ifTrue _ _ _ _ _ _ _ _ _ ih => exact ih hr
  | ifFalse _ _ _ _ _ _ _ _ _ ih => exact ih hr
  | whileTrue _ _ _ _ _ _ _ _ _ _ ih1 ih2 => exact ih2 (ih1 hr)
  | whileEnd _ _ _ _ _ _ _ _ _ ih => exact ih hr
  | whileFalse => exact hr
  | attempt _ _ _ _ _ _ ih => exact ih hr
  | attemptUndefined _ _ _ _ ih => exact ih hr

/-- An outcome that matches is one of three kinds. -/
theorem Ending.Matches.cases {o : Ending} {ρ : IntStore} {r : Res Unit} {σ : Store} (h : o.Matches ρ r σ) :
    (o = .normal ∧ r = .ok () ∧ σ.Shows ρ) ∨ (∃ e, o = .exception e ∧ r = .throw e ∧ σ.Shows ρ) ∨ (∃ u, o = .undefined ∧ r = .ub u) := by
  cases o with
  | normal => exact .inl ⟨rfl, h⟩
  | exception e => exact .inr (.inl ⟨e, rfl, h⟩)
  | undefined => obtain ⟨u, hu⟩ := h; exact .inr (.inr ⟨u, rfl, hu⟩)

/-- Sequencing, by the outcome of the first part. -/
private theorem bind_outcome {m : Cmd Unit} {f : Unit → Cmd Unit} {σ σ' : Store} {r : Res Unit} (h : (m >>= f) σ = (r, σ')) (hr : r ≠ .diverge) :
    ∃ r1 σ1, m σ = (r1, σ1) ∧ r1 ≠ .diverge ∧ ((r1 = .ok () ∧ f () σ1 = (r, σ')) ∨ (r1 ≠ .ok () ∧ r = r1 ∧ σ' = σ1)) := by
  rw [Cmd.bind_eq, Cmd.bind] at h
  cases hm : m σ with
  | mk r1 σ1 =>
    rw [hm] at h
    refine ⟨r1, σ1, rfl, ?_⟩
    cases r1 with
    | ok a => exact ⟨nofun, .inl ⟨rfl, h⟩⟩
    | throw e => cases h; exact ⟨nofun, .inr ⟨nofun, rfl, rfl⟩⟩
    | abort => cases h; exact ⟨nofun, .inr ⟨nofun, rfl, rfl⟩⟩
    | ub u => cases h; exact ⟨nofun, .inr ⟨nofun, rfl, rfl⟩⟩
    | diverge => cases h; exact absurd rfl hr

theorem Does.complete (fuel : Nat) : ∀ {p : Prog} {ρ : IntStore} {σ σ' : Store} {r : Res Unit}, p.Literals → (∀ i, InRange (ρ i)) → σ.Shows ρ →
    p.exec fuel σ = (r, σ') → r ≠ .diverge → Leaves p ρ ∨ ∃ o ρ', Does p ρ o ρ' ∧ o.Matches ρ' r σ' := by
  induction fuel with
  | zero => intro p ρ σ σ' r _ _ _ h hr; cases h; exact absurd rfl hr
  | succ n ih =>
    have two : ∀ {p q pq : Prog} {ρ : IntStore} {σ σ' : Store} {r : Res Unit}, p.Literals → q.Literals → (∀ i, InRange (ρ i)) → σ.Shows ρ →
        ((p.exec n) >>= fun _ => q.exec n) σ = (r, σ') → r ≠ .diverge → (Leaves p ρ → Leaves pq ρ) →
        (∀ ρ', Does p ρ .normal ρ' → Leaves q ρ' → Leaves pq ρ) →
        (∀ ρ' ρ'' o, Does p ρ .normal ρ' → Does q ρ' o ρ'' → Does pq ρ o ρ'') →
        (∀ ρ' o, Does p ρ o ρ' → o ≠ .normal → Does pq ρ o ρ') →
        Leaves pq ρ ∨ ∃ o ρ', Does pq ρ o ρ' ∧ o.Matches ρ' r σ' := by
      intro p q pq ρ σ σ' r lp lq hρ hσ h hr k1 k2 k3 k4
      obtain ⟨r1, σ1, h1, h2, h3⟩ := bind_outcome h hr
      rcases ih lp hρ hσ h1 h2 with h4 | ⟨o, ρ', h4, h5⟩
      · exact .inl (k1 h4)
      · rcases h3 with ⟨rfl, h3⟩ | ⟨h3, rfl, rfl⟩
        · rcases h5.cases with ⟨rfl, -, hs⟩ | ⟨e, -, he, -⟩ | ⟨u, -, hu⟩
          · rcases ih lq (h4.inRange hρ) hs h3 hr with h6 | ⟨o, ρ'', h6, h7⟩
            · exact .inl (k2 _ h4 h6)
            · exact .inr ⟨o, ρ'', k3 _ _ _ h4 h6, h7⟩
          · cases he
          · cases hu
        · refine .inr ⟨o, ρ', k4 _ _ h4 fun ho => ?_, h5⟩
          subst ho
          exact h3 h5.1
    intro p ρ σ σ' r lp hρ hσ h hr
    cases p with
    | skip => cases h; exact .inr ⟨_, _, .skip ρ, rfl, hσ⟩
    | stmt s =>
      by_cases hin : ∀ i, InRange ((s.actual ρ).2 i)
      · obtain ⟨r1, σ1, h1, h2⟩ := s.exec_actual hσ hρ lp hin
        rw [Prog.exec, h1] at h
        cases h
        exact .inr ⟨_, _, .stmt s ρ hρ lp hin, h2⟩
      · obtain ⟨i, hi⟩ := not_forall.1 hin
        exact .inl (.stmt s ρ i hi)
    | seq p q =>
      rw [Prog.exec] at h
      exact two lp.1 lp.2 hρ hσ h hr (.first _ _ _) (fun _ => .second _ _ _ _) (fun _ _ _ => .seq _ _ _ _ _ _) (fun _ _ => .seqEnd _ _ _ _ _)
    | ifThen c p q =>
      rw [Prog.exec, Cmd.ask_bind, Cond.test_eq hσ hρ, Cmd.lift_ok_bind] at h
      by_cases hlt : c.Holds ρ
      · rw [if_pos (by simpa using hlt)] at h
        rcases ih lp.1 hρ hσ h hr with h1 | ⟨o, ρ', h1, h2⟩
        · exact .inl (.ifTrue _ _ _ _ hlt h1)
        · exact .inr ⟨o, ρ', .ifTrue _ _ _ _ _ _ hρ hlt h1, h2⟩
      · rw [if_neg (by simpa using hlt)] at h
        rcases ih lp.2 hρ hσ h hr with h1 | ⟨o, ρ', h1, h2⟩
        · exact .inl (.ifFalse _ _ _ _ hlt h1)
        · exact .inr ⟨o, ρ', .ifFalse _ _ _ _ _ _ hρ hlt h1, h2⟩
    | whileDo c p =>
      rw [Prog.exec, Cmd.ask_bind, Cond.test_eq hσ hρ, Cmd.lift_ok_bind] at h
      by_cases hlt : c.Holds ρ
      · rw [if_pos (by simpa using hlt)] at h
        exact two (p := p) (q := .whileDo c p) lp lp hρ hσ h hr (.body _ _ _ hlt) (fun _ => .again _ _ _ _ hlt)
          (fun _ _ _ => .whileTrue _ _ _ _ _ _ hρ hlt) (fun _ _ => .whileEnd _ _ _ _ _ hρ hlt)
      · rw [if_neg (by simpa using hlt)] at h
        cases h
        exact .inr ⟨_, _, .whileFalse _ _ _ hρ hlt, rfl, hσ⟩
    | attempt p =>
      rw [Prog.exec] at h
      dsimp only at h
      cases hp : p.exec n σ with
      | mk r1 σ1 =>
        rw [hp] at h
        have hd : r1 ≠ .diverge := by rintro rfl; cases h; exact hr rfl
        rcases ih (p := p) lp hρ hσ hp hd with h1 | ⟨o, ρ', h1, h2⟩
        · exact .inl (.attempt _ _ h1)
        · rcases h2.cases with ⟨rfl, rfl, hs⟩ | ⟨e, rfl, rfl, hs⟩ | ⟨u, rfl, rfl⟩
          · cases h; exact .inr ⟨_, _, .attempt _ _ _ _ h1 nofun, rfl, hs⟩
          · cases h; exact .inr ⟨_, _, .attempt _ _ _ _ h1 nofun, rfl, hs⟩
          · cases h; exact .inr ⟨_, ρ', .attemptUndefined _ _ _ h1, u, rfl⟩

end BigIntegerCpp
