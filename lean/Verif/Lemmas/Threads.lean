import Verif.ThreadsSpec
import Verif.Lemmas.Program
/-
Threads: footprints, simulation of a thread among others by the thread alone, and of the thread alone
by `Prog.exec`.
-/
set_option linter.unusedSectionVars false
namespace BigIntegerCpp
variable [Cfg]

/-! ### footprints -/

/-- The code reads only `R`, writes only `W`, and returns only values in `Q`. -/
def Act.Within {α : Type} (R W : Nat → Prop) (Q : α → Prop) : Act α → Prop
  | .done (.ok a) => Q a
  | .done _ => True
  | .getSign i k => R i ∧ ∀ s, (k s).Within R W Q
  | .getBits i k => R i ∧ ∀ ws, (k ws).Within R W Q
  | .setSign i _ k => W i ∧ k.Within R W Q
  | .setBits i _ k => W i ∧ k.Within R W Q

section
variable {α β : Type} {R W : Nat → Prop}

theorem Act.Within.bind {Q : α → Prop} {Q' : β → Prop} {m : Act α} {f : α → Act β} (hm : m.Within R W Q)
    (hf : ∀ a, Q a → (f a).Within R W Q') : (m >>= f).Within R W Q' := by
  induction m with
  | done r =>
    cases r with
    | ok a => exact hf a hm
    | _ => trivial
  | getSign i k ih => exact ⟨hm.1, fun s => ih s (hm.2 s)⟩
  | getBits i k ih => exact ⟨hm.1, fun s => ih s (hm.2 s)⟩
  | setSign i s k ih => exact ⟨hm.1, ih hm.2⟩
  | setBits i ws k ih => exact ⟨hm.1, ih hm.2⟩

theorem Act.within_lift (r : Res α) : (Act.lift r).Within R W fun _ => True := by
  cases r <;> trivial
theorem Act.within_pure {Q : α → Prop} {a : α} (h : Q a) : (pure a : Act α).Within R W Q := h
theorem Act.within_read {i : Nat} (h : R i) : (Act.read i).Within R W fun _ => True := ⟨h, fun _ => ⟨h, fun _ => trivial⟩⟩
theorem Act.within_write {i : Nat} {v : BigInt} (h : W i) : (Act.write i v).Within R W fun _ => True := ⟨h, h, trivial⟩
theorem Act.within_copy {z x : Nat} (hz : W z) (hx : R x) : (Act.copy z x).Within R W fun _ => True :=
  ⟨hx, fun _ => ⟨hz, hx, fun _ => ⟨hz, trivial⟩⟩⟩
theorem Act.within_move {x y : Nat} (hx : W x) (hy : W y) (hr : R y) : (Act.move x y).Within R W fun _ => True :=
  ⟨hr, fun _ => ⟨hx, hr, fun _ => ⟨hx, hy, trivial⟩⟩⟩

theorem within_divRem {i j k : Nat} (hi : R i) (hj : R j) (hk : W k) : (divRemActs i j k).Within R W fun _ => True := by
  unfold divRemActs
  refine (Act.within_read hi).bind fun a _ => (Act.within_read hj).bind fun b _ => (Act.within_lift _).bind fun _ _ => (Act.within_lift _).bind fun _ _ => ?_
  by_cases h1 : a.bits = [] ∧ b.bits = []
  · rw [if_pos h1]
    by_cases h2 : b.sign = 0
    · rw [if_pos h2]; exact Act.within_lift _
    · rw [if_neg h2]
      refine (Act.within_lift _).bind fun _ _ => (Act.within_lift _).bind fun r _ => (Act.within_write hk).bind fun _ _ =>
        (Act.within_read hi).bind fun a _ => (Act.within_read hj).bind fun b _ => ?_
      by_cases h3 : b.sign = 0
      · rw [if_pos h3]; exact Act.within_lift _
      · rw [if_neg h3]
        exact (Act.within_lift _).bind fun _ _ => Act.within_lift _
  rw [if_neg h1]
  by_cases h2 : a.bits = []
  · rw [if_pos h2]
    exact (Act.within_copy hk hi).bind fun _ _ => trivial
  rw [if_neg h2]
  by_cases h3 : b.bits = []
  · rw [if_pos h3]
    exact (Act.within_lift _).bind fun _ _ => (Act.within_lift _).bind fun _ _ => (Act.within_lift _).bind fun _ _ => (Act.within_write hk).bind fun _ _ =>
        (Act.within_read hi).bind fun a _ => (Act.within_read hj).bind fun b _ => Act.within_lift _
  rw [if_neg h3]
  by_cases h4 : a.bits.length < b.bits.length
  · rw [if_pos h4]
    exact (Act.within_copy hk hi).bind fun _ _ => trivial
  rw [if_neg h4]
  exact (Act.within_lift _).bind fun _ _ => (Act.within_lift _).bind fun _ _ => (Act.within_write hk).bind fun _ _ =>
        (Act.within_read hi).bind fun a _ => (Act.within_read hj).bind fun b _ => Act.within_lift _

theorem Stmt.within (s : Stmt) (hR : ∀ i, s.Writes i ∨ s.Reads i → R i) (hW : ∀ i, s.Writes i → W i) :
    s.acts.Within R W fun _ => True := by
  cases s with
  | const x n => exact (Act.within_lift _).bind fun _ _ => Act.within_write (hW _ rfl)
  | update op x y =>
    exact (Act.within_read (hR _ (.inl rfl))).bind fun _ _ => (Act.within_read (hR _ (.inr rfl))).bind fun _ _ =>
      (Act.within_lift _).bind fun _ _ => Act.within_write (hW _ rfl)
  | binary op z x y =>
    exact (Act.within_read (hR _ (.inr (.inl rfl)))).bind fun _ _ => (Act.within_read (hR _ (.inr (.inr rfl)))).bind fun _ _ =>
      (Act.within_lift _).bind fun _ _ => Act.within_write (hW _ rfl)
  | unary op z x =>
    have h : (do Act.write z (← Act.lift (op.apply (← Act.read x))) : Act Unit).Within R W fun _ => True :=
      (Act.within_read (hR _ (.inr rfl))).bind fun _ _ => (Act.within_lift _).bind fun _ _ => Act.within_write (hW _ rfl)
    cases op with
    | copy => exact Act.within_copy (hW _ rfl) (hR _ (.inr rfl))
    | _ => exact h
  | shl x n => exact (Act.within_read (hR _ (.inl rfl))).bind fun _ _ => (Act.within_lift _).bind fun _ _ => Act.within_write (hW _ rfl)
  | shr x n => exact (Act.within_read (hR _ (.inl rfl))).bind fun _ _ => (Act.within_lift _).bind fun _ _ => Act.within_write (hW _ rfl)
  | inc x => exact (Act.within_read (hR _ (.inl rfl))).bind fun _ _ => (Act.within_lift _).bind fun _ _ => Act.within_write (hW _ rfl)
  | dec x => exact (Act.within_read (hR _ (.inl rfl))).bind fun _ _ => (Act.within_lift _).bind fun _ _ => Act.within_write (hW _ rfl)
  | pow z x n => exact (Act.within_read (hR _ (.inr rfl))).bind fun _ _ => (Act.within_lift _).bind fun _ _ => Act.within_write (hW _ rfl)
  | divRem z x y r =>
    exact (within_divRem (hR _ (.inr (.inl rfl))) (hR _ (.inr (.inr rfl))) (hW _ (.inr rfl))).bind fun _ _ => Act.within_write (hW _ (.inl rfl))
  | long x n => exact (Act.within_lift _).bind fun _ _ => Act.within_write (hW _ rfl)
  | ulong x n => exact (Act.within_lift _).bind fun _ _ => Act.within_write (hW _ rfl)
  | parse x n => exact (Act.within_lift _).bind fun _ _ => Act.within_write (hW _ rfl)
  | move x y => exact Act.within_move (hW _ (.inl rfl)) (hW _ (.inr rfl)) (hR _ (.inl (.inr rfl)))
  | swap x y =>
    exact ⟨hR _ (.inl (.inl rfl)), fun _ => ⟨hR _ (.inl (.inl rfl)), fun _ => ⟨hW _ (.inl rfl),
      (Act.within_move (hW _ (.inl rfl)) (hW _ (.inr rfl)) (hR _ (.inl (.inr rfl)))).bind fun _ _ => Act.within_write (hW _ (.inr rfl))⟩⟩⟩
  | postInc z x =>
    exact (Act.within_read (hR _ (.inl (.inr rfl)))).bind fun _ _ => (Act.within_lift _).bind fun _ _ => (Act.within_write (hW _ (.inr rfl))).bind fun _ _ =>
      Act.within_copy (hW _ (.inl rfl)) (hR _ (.inl (.inr rfl)))
  | postDec z x =>
    exact (Act.within_read (hR _ (.inl (.inr rfl)))).bind fun _ _ => (Act.within_lift _).bind fun _ _ => (Act.within_write (hW _ (.inr rfl))).bind fun _ _ =>
      Act.within_copy (hW _ (.inl rfl)) (hR _ (.inl (.inr rfl)))

theorem Cond.within (c : Cond) (hR : ∀ i, c.Reads i → R i) : c.acts.Within R W fun _ => True := by
  induction c with
  | rel op x y =>
    exact (Act.within_read (hR _ (.inl rfl))).bind fun _ _ => (Act.within_read (hR _ (.inr rfl))).bind fun _ _ => Act.within_lift _
  | isZero x => exact (Act.within_read (hR _ rfl)).bind fun _ _ => Act.within_lift _
  | isOne x => exact (Act.within_read (hR _ rfl)).bind fun _ _ => Act.within_lift _
  | isEven x => exact (Act.within_read (hR _ rfl)).bind fun _ _ => Act.within_lift _
  | isPowerOfTwo x => exact (Act.within_read (hR _ rfl)).bind fun _ _ => Act.within_lift _
  | not c ih => exact (ih hR).bind fun _ _ => trivial
  | and c d ih1 ih2 =>
    refine (ih1 fun i h => hR i (.inl h)).bind fun b _ => ?_
    cases b
    · trivial
    · exact ih2 fun i h => hR i (.inr h)
  | or c d ih1 ih2 =>
    refine (ih1 fun i h => hR i (.inl h)).bind fun b _ => ?_
    cases b
    · exact ih2 fun i h => hR i (.inr h)
    · trivial

/-- The program names only objects in `R` and assigns only to objects in `W`. -/
def Prog.Within (R W : Nat → Prop) (p : Prog) : Prop := (∀ i, p.Names i → R i) ∧ ∀ i, p.Writes i → W i
def Frame.Within (R W : Nat → Prop) : Frame → Prop
  | .thenDo p => p.Within R W
  | .endTry => True
def Thread.Within (R W : Nat → Prop) (t : Thread) : Prop := t.now.Within R W (Prog.Within R W) ∧ ∀ f ∈ t.rest, f.Within R W

theorem Prog.within_skip : Prog.skip.Within R W := ⟨nofun, nofun⟩

theorem Prog.within_enter {p : Prog} (h : p.Within R W) {fs : List Frame} (hf : ∀ f ∈ fs, f.Within R W) : (p.enter fs).Within R W := by
  cases p with
  | skip => exact ⟨h, hf⟩
  | stmt s => exact ⟨(s.within h.1 h.2).bind fun _ _ => Prog.within_skip, hf⟩
  | seq p q =>
    refine ⟨⟨fun i hi => h.1 i (.inl hi), fun i hi => h.2 i (.inl hi)⟩, fun f hm => ?_⟩
    rcases List.mem_cons.1 hm with rfl | hm
    · exact ⟨fun i hi => h.1 i (.inr hi), fun i hi => h.2 i (.inr hi)⟩
    · exact hf f hm
  | ifThen c p q =>
    refine ⟨(c.within fun i hi => h.1 i (.inl hi)).bind fun b _ => ?_, hf⟩
    cases b
    · exact ⟨fun i hi => h.1 i (.inr (.inr hi)), fun i hi => h.2 i (.inr hi)⟩
    · exact ⟨fun i hi => h.1 i (.inr (.inl hi)), fun i hi => h.2 i (.inl hi)⟩
  | whileDo c p =>
    refine ⟨(c.within fun i hi => h.1 i (.inl hi)).bind fun b _ => ?_, hf⟩
    cases b
    · exact Prog.within_skip
    · exact ⟨fun i hi => hi.elim (fun hi => h.1 i (.inr hi)) (h.1 i), fun i hi => hi.elim (h.2 i) (h.2 i)⟩
  | attempt p =>
    refine ⟨⟨h.1, h.2⟩, fun f hm => ?_⟩
    rcases List.mem_cons.1 hm with rfl | hm
    · trivial
    · exact hf f hm

theorem Thread.Within.step {t : Thread} (h : t.Within R W) (σ : Store) : (t.step σ).1.Within R W := by
  obtain ⟨n, fs⟩ := t
  obtain ⟨h1, h2⟩ := h
  cases n with
  | getSign i k => exact ⟨h1.2 _, h2⟩
  | getBits i k => exact ⟨h1.2 _, h2⟩
  | setSign i s k => exact ⟨h1.2, h2⟩
  | setBits i s k => exact ⟨h1.2, h2⟩
  | done r =>
    have ht : ∀ f fs', fs = f :: fs' → ∀ g ∈ fs', g.Within R W := fun f fs' e g hg => h2 g (e ▸ List.mem_cons_of_mem _ hg)
    cases r with
    | ok p =>
      by_cases hp : p = .skip
      · subst hp
        rcases fs with _ | ⟨_ | _, fs⟩
        · exact ⟨h1, h2⟩
        · exact ⟨h2 _ List.mem_cons_self, ht _ _ rfl⟩
        · exact ⟨h1, ht _ _ rfl⟩
      · have e : Thread.step ⟨.done (.ok p), fs⟩ σ = (p.enter fs, σ) := by
          cases p <;> first | rfl | exact absurd rfl hp
        rw [e]
        exact Prog.within_enter h1 h2
    | throw e =>
      rcases fs with _ | ⟨_ | _, fs⟩
      · exact ⟨h1, h2⟩
      · exact ⟨trivial, ht _ _ rfl⟩
      · exact ⟨Prog.within_skip, ht _ _ rfl⟩
    | _ =>
      rcases fs with _ | ⟨_, fs⟩
      · exact ⟨h1, h2⟩
      · exact ⟨trivial, ht _ _ rfl⟩

/-- A step depends only on what the thread may read, and changes only what it may write. -/
theorem Thread.Within.local {t : Thread} (h : t.Within R W) {σ τ : Store} (hσ : ∀ i, R i → σ i = τ i) :
    (t.step σ).1 = (t.step τ).1 ∧ (∀ i, R i → (t.step σ).2 i = (t.step τ).2 i) := by
  obtain ⟨n, fs⟩ := t
  obtain ⟨h1, h2⟩ := h
  cases n with
  | getSign i k => exact ⟨by simp only [Thread.step, hσ i h1.1], hσ⟩
  | getBits i k => exact ⟨by simp only [Thread.step, hσ i h1.1], hσ⟩
  | setSign i s k =>
    refine ⟨rfl, fun j hj => ?_⟩
    simp only [Thread.step, Store.set]
    by_cases hji : j = i
    · subst hji; rw [if_pos rfl, if_pos rfl, hσ _ hj]
    · rw [if_neg hji, if_neg hji, hσ _ hj]
  | setBits i s k =>
    refine ⟨rfl, fun j hj => ?_⟩
    simp only [Thread.step, Store.set]
    by_cases hji : j = i
    · subst hji; rw [if_pos rfl, if_pos rfl, hσ _ hj]
    · rw [if_neg hji, if_neg hji, hσ _ hj]
  | done r =>
    cases r with
    | ok p =>
      by_cases hp : p = .skip
      · subst hp
        rcases fs with _ | ⟨_ | _, fs⟩ <;> exact ⟨rfl, hσ⟩
      · have e : ∀ σ, Thread.step ⟨.done (.ok p), fs⟩ σ = (p.enter fs, σ) := fun σ => by
          cases p <;> first | rfl | exact absurd rfl hp
        rw [e, e]
        exact ⟨rfl, hσ⟩
    | _ => rcases fs with _ | ⟨_ | _, fs⟩ <;> exact ⟨rfl, hσ⟩

theorem Thread.Within.frame {t : Thread} (h : t.Within R W) (σ : Store) {i : Nat} (hi : ¬ W i) : (t.step σ).2 i = σ i := by
  obtain ⟨n, fs⟩ := t
  obtain ⟨h1, h2⟩ := h
  cases n with
  | getSign j k => rfl
  | getBits j k => rfl
  | setSign j s k =>
    have : i ≠ j := fun e => hi (e ▸ h1.1)
    simp only [Thread.step, Store.set, if_neg this]
  | setBits j s k =>
    have : i ≠ j := fun e => hi (e ▸ h1.1)
    simp only [Thread.step, Store.set, if_neg this]
  | done r =>
    cases r with
    | ok p =>
      by_cases hp : p = .skip
      · subst hp
        rcases fs with _ | ⟨_ | _, fs⟩ <;> rfl
      · have e : ∀ σ, Thread.step ⟨.done (.ok p), fs⟩ σ = (p.enter fs, σ) := fun σ => by
          cases p <;> first | rfl | exact absurd rfl hp
        rw [e]
    | _ => rcases fs with _ | ⟨_ | _, fs⟩ <;> rfl

/-- The next access is within the footprint. -/
theorem Thread.Within.next {t : Thread} (h : t.Within R W) {i : Nat} {m w : Bool} (hn : t.next = some (i, m, w)) : if w then W i else R i := by
  obtain ⟨n, fs⟩ := t
  obtain ⟨h1, h2⟩ := h
  cases n with
  | getSign j k => obtain ⟨rfl, rfl, rfl⟩ : j = i ∧ false = m ∧ false = w := by simpa [Thread.next] using hn
                   exact h1.1
  | getBits j k => obtain ⟨rfl, rfl, rfl⟩ : j = i ∧ true = m ∧ false = w := by simpa [Thread.next] using hn
                   exact h1.1
  | setSign j s k => obtain ⟨rfl, rfl, rfl⟩ : j = i ∧ false = m ∧ true = w := by simpa [Thread.next] using hn
                     exact h1.1
  | setBits j s k => obtain ⟨rfl, rfl, rfl⟩ : j = i ∧ true = m ∧ true = w := by simpa [Thread.next] using hn
                     exact h1.1
  | done r => cases hn
end

/-! ### a thread among others -/

/-- `n` steps of a thread alone. -/
def Thread.steps : Nat → Thread × Store → Thread × Store
  | 0, c => c
  | n + 1, c => Thread.steps n (c.1.step c.2)

theorem Prog.writes_names {p : Prog} {i : Nat} (h : p.Writes i) : p.Names i := by
  induction p with
  | skip => exact h
  | stmt s => exact .inl h
  | seq p q ih1 ih2 => exact h.imp ih1 ih2
  | ifThen c p q ih1 ih2 => exact .inr (h.imp ih1 ih2)
  | whileDo c p ih => exact .inr (ih h)
  | attempt p ih => exact ih h

/-- A thread of a pool goes through the states it goes through alone. -/
theorem Pool.simulation {R W : Nat → Nat → Prop} {t : Nat} (hap : ∀ u, u ≠ t → ∀ i, W u i → ¬ R t i) (sched : List Nat) :
    ∀ {T : Pool} {σ : Store}, (∀ t, (T t).Within (R t) (W t)) → ∀ (τ : Store), (∀ i, R t i → σ i = τ i) →
      (Pool.run sched (T, σ)).1 t = (Thread.steps (sched.count t) (T t, τ)).1 ∧
      (∀ i, R t i → (Pool.run sched (T, σ)).2 i = (Thread.steps (sched.count t) (T t, τ)).2 i) := by
  induction sched with
  | nil => intro T σ hT τ h; exact ⟨rfl, h⟩
  | cons s sched ih =>
    intro T σ hT τ h
    have hT' : ∀ u, ((Pool.step s (T, σ)).1 u).Within (R u) (W u) := fun u => by
      simp only [Pool.step]
      by_cases hu : u = s
      · subst hu; rw [if_pos rfl]; exact (hT _).step σ
      · rw [if_neg hu]; exact hT u
    by_cases hts : t = s
    · subst hts
      obtain ⟨h1, h2⟩ := (hT t).local h
      have := ih hT' ((T t).step τ).2 (fun i hi => h2 i hi)
      rw [List.count_cons_self]
      have e : (Pool.step t (T, σ)).1 t = ((T t).step τ).1 := by
        simp only [Pool.step, if_pos]; exact h1
      rw [e] at this
      exact this
    · rw [List.count_cons_of_ne (fun e => hts e.symm)]
      have e : (Pool.step s (T, σ)).1 t = T t := by simp only [Pool.step, if_neg hts]
      have := ih hT' τ (fun i hi => by
        show ((T s).step σ).2 i = τ i
        rw [(hT s).frame σ (fun hw => hap s (fun e => hts e.symm) i hw hi), h i hi])
      rw [e] at this
      exact this

/-- Threads stay within their footprints, races or not. -/
theorem Pool.within {R W : Nat → Nat → Prop} (sched : List Nat) : ∀ {T : Pool} {σ : Store}, (∀ t, (T t).Within (R t) (W t)) →
    (∀ u, ((Pool.run sched (T, σ)).1 u).Within (R u) (W u)) ∧ ∀ i, (∀ t, ¬ W t i) → (Pool.run sched (T, σ)).2 i = σ i := by
  induction sched with
  | nil => intro T σ hT; exact ⟨hT, fun _ _ => rfl⟩
  | cons s sched ih =>
    intro T σ hT
    have hT' : ∀ u, ((Pool.step s (T, σ)).1 u).Within (R u) (W u) := fun u => by
      simp only [Pool.step]
      by_cases hu : u = s
      · subst hu; rw [if_pos rfl]; exact (hT _).step σ
      · rw [if_neg hu]; exact hT u
    refine ⟨(ih hT').1, fun i hi => ?_⟩
    exact ((ih hT').2 i hi).trans ((hT s).frame σ (hi s))

/-! ### a thread alone -/

/-- Code executed alone. -/
def Act.run {α : Type} : Act α → Cmd α
  | .done r, σ => (r, σ)
  | .getSign i k, σ => (k (σ i).sign).run σ
  | .getBits i k, σ => (k (σ i).bits).run σ
  | .setSign i s k, σ => k.run (σ.set i ⟨s, (σ i).bits⟩)
  | .setBits i ws k, σ => k.run (σ.set i ⟨(σ i).sign, ws⟩)

section
variable {α β : Type}

theorem Act.run_bind (m : Act α) (f : α → Act β) (σ : Store) : (m >>= f).run σ = Cmd.bind m.run (fun a => (f a).run) σ := by
  induction m generalizing σ with
  | done r => cases r <;> rfl
  | getSign i k ih => exact ih _ _
  | getBits i k ih => exact ih _ _
  | setSign i s k ih => exact ih _
  | setBits i ws k ih => exact ih _

omit [Cfg] in
theorem Store.set_self (σ : Store) (i : Nat) : σ.set i (σ i) = σ := by
  funext j; unfold Store.set; by_cases h : j = i
  · rw [if_pos h, h]
  · rw [if_neg h]
omit [Cfg] in
theorem Store.set_set (σ : Store) (i : Nat) (v w : BigInt) : (σ.set i v).set i w = σ.set i w := by
  funext j; unfold Store.set; by_cases h : j = i
  · rw [if_pos h, if_pos h]
  · rw [if_neg h, if_neg h, if_neg h]
omit [Cfg] in
theorem Store.set_at (σ : Store) (i : Nat) (v : BigInt) : (σ.set i v) i = v := if_pos rfl

theorem Act.run_read (i : Nat) (σ : Store) : (Act.read i).run σ = Cmd.read i σ := rfl
theorem Act.run_lift (r : Res α) (σ : Store) : (Act.lift r).run σ = Cmd.lift r σ := rfl
theorem Act.run_write (i : Nat) (v : BigInt) (σ : Store) : (Act.write i v).run σ = Cmd.write i v σ := by
  simp only [Act.write, Act.run, Store.set_set, Store.set_at, Cmd.write]
theorem Act.run_copy (z x : Nat) (σ : Store) : (Act.copy z x).run σ = Cmd.write z (σ x) σ := by
  simp only [Act.copy, Act.run, Store.set_set, Store.set_at, Cmd.write]
  by_cases h : x = z
  · subst h; rw [Store.set_at]
  · rw [show (σ.set z ⟨(σ x).sign, (σ z).bits⟩) x = σ x from if_neg h]
theorem Act.run_move (x y : Nat) (σ : Store) : (Act.move x y).run σ = (.ok (), (σ.set x (σ y)).set y (σ y).movedFrom) := by
  simp only [Act.move, Act.run, Store.set_set, Store.set_at]
  by_cases h : y = x
  · subst h; simp only [Store.set_set, Store.set_at]; rfl
  · rw [show (σ.set x ⟨(σ y).sign, (σ x).bits⟩) y = σ y from if_neg h, show (σ.set x (σ y)) y = σ y from if_neg h]
    rfl
end

section
variable {α β : Type}
theorem Act.run_read_bind {i : Nat} {f : BigInt → Act β} {g : BigInt → Cmd β} {σ : Store} (h : (f (σ i)).run σ = g (σ i) σ) :
    (Act.read i >>= f).run σ = (Cmd.read i >>= g) σ := h
theorem Act.run_lift_bind {r : Res α} {f : α → Act β} {g : α → Cmd β} {σ : Store} (h : ∀ a, (f a).run σ = g a σ) :
    (Act.lift r >>= f).run σ = (Cmd.lift r >>= g) σ := by
  cases r <;> first | rfl | exact h _
theorem Act.run_write_bind {i : Nat} {v : BigInt} {f : Unit → Act β} {g : Unit → Cmd β} {σ : Store} (h : (f ()).run (σ.set i v) = g () (σ.set i v)) :
    (Act.write i v >>= f).run σ = (Cmd.write i v >>= g) σ := by
  rw [Act.run_bind]
  show Cmd.bind (Act.write i v).run _ σ = _
  unfold Cmd.bind
  rw [Act.run_write]
  exact h
theorem Act.run_copy_bind {z x : Nat} {f : Unit → Act β} {g : Unit → Cmd β} {σ : Store} (h : (f ()).run (σ.set z (σ x)) = g () (σ.set z (σ x))) :
    (Act.copy z x >>= f).run σ = (Cmd.write z (σ x) >>= g) σ := by
  rw [Act.run_bind]
  show Cmd.bind (Act.copy z x).run _ σ = _
  unfold Cmd.bind
  rw [Act.run_copy]
  exact h
end

theorem divRemActs_run (i j k : Nat) (σ : Store) : (divRemActs i j k).run σ = divRemAt i j k σ := by
  unfold divRemActs divRemAt
  refine Act.run_read_bind (Act.run_read_bind (Act.run_lift_bind fun _ => Act.run_lift_bind fun _ => ?_))
  by_cases h1 : (σ i).bits = [] ∧ (σ j).bits = []
  · rw [if_pos h1, if_pos h1]
    by_cases h2 : (σ j).sign = 0
    · rw [if_pos h2, if_pos h2]; rfl
    · rw [if_neg h2, if_neg h2]
      refine Act.run_lift_bind fun _ => Act.run_lift_bind fun r => Act.run_write_bind (Act.run_read_bind (Act.run_read_bind ?_))
      by_cases h3 : ((σ.set k r) j).sign = 0
      · rw [if_pos h3, if_pos h3]; rfl
      · rw [if_neg h3, if_neg h3]
        exact Act.run_lift_bind fun _ => rfl
  rw [if_neg h1, if_neg h1]
  by_cases h2 : (σ i).bits = []
  · rw [if_pos h2, if_pos h2]
    exact Act.run_copy_bind rfl
  rw [if_neg h2, if_neg h2]
  by_cases h3 : (σ j).bits = []
  · rw [if_pos h3, if_pos h3]
    exact Act.run_lift_bind fun _ => Act.run_lift_bind fun _ => Act.run_lift_bind fun _ => Act.run_write_bind (Act.run_read_bind (Act.run_read_bind rfl))
  rw [if_neg h3, if_neg h3]
  by_cases h4 : (σ i).bits.length < (σ j).bits.length
  · rw [if_pos h4, if_pos h4]
    exact Act.run_copy_bind rfl
  rw [if_neg h4, if_neg h4]
  exact Act.run_lift_bind fun _ => Act.run_lift_bind fun _ => Act.run_write_bind (Act.run_read_bind (Act.run_read_bind rfl))

private theorem post_run (z x : Nat) (r : Res BigInt) (σ : Store) :
    (do let v ← Act.lift r; Act.write x v; Act.copy z x : Act Unit).run σ =
      (do let (obj, ret) ← Cmd.lift (do let v ← r; .ok (v, v)); Cmd.write x obj; Cmd.write z ret : Cmd Unit) σ := by
  cases r with
  | ok v =>
    refine Act.run_write_bind (f := fun _ => Act.copy z x) (g := fun _ => Cmd.write z v) ?_
    rw [Act.run_copy, Store.set_at]
  | _ => rfl

theorem Stmt.acts_run (s : Stmt) (σ : Store) : s.acts.run σ = s.exec σ := by
  cases s with
  | const x n => exact Act.run_lift_bind fun _ => Act.run_write _ _ _
  | update op x y => exact Act.run_read_bind (Act.run_read_bind (Act.run_lift_bind fun _ => Act.run_write _ _ _))
  | binary op z x y => exact Act.run_read_bind (Act.run_read_bind (Act.run_lift_bind fun _ => Act.run_write _ _ _))
  | unary op z x =>
    cases op with
    | copy => exact Act.run_copy _ _ _
    | _ => exact Act.run_read_bind (Act.run_lift_bind fun _ => Act.run_write _ _ _)
  | shl x n => exact Act.run_read_bind (Act.run_lift_bind fun _ => Act.run_write _ _ _)
  | shr x n => exact Act.run_read_bind (Act.run_lift_bind fun _ => Act.run_write _ _ _)
  | inc x => exact Act.run_read_bind (Act.run_lift_bind fun _ => Act.run_write _ _ _)
  | dec x => exact Act.run_read_bind (Act.run_lift_bind fun _ => Act.run_write _ _ _)
  | pow z x n => exact Act.run_read_bind (Act.run_lift_bind fun _ => Act.run_write _ _ _)
  | divRem z x y r =>
    show (divRemActs x y r >>= _).run σ = (divRemAt x y r >>= _) σ
    rw [Act.run_bind]
    show _ = Cmd.bind (divRemAt x y r) _ σ
    unfold Cmd.bind
    rw [divRemActs_run]
    rcases divRemAt x y r σ with ⟨q, τ⟩
    cases q <;> first | rfl | exact Act.run_write _ _ _
  | long x n => exact Act.run_lift_bind fun _ => Act.run_write _ _ _
  | ulong x n => exact Act.run_lift_bind fun _ => Act.run_write _ _ _
  | parse x n => exact Act.run_lift_bind fun _ => Act.run_write _ _ _
  | move x y => exact Act.run_move x y σ
  | swap x y =>
    show (Act.move x y >>= fun _ => Act.write y ⟨(σ x).sign, (σ x).bits⟩).run (σ.set x ⟨(σ x).sign, []⟩) = _
    rw [Act.run_bind]
    unfold Cmd.bind
    rw [Act.run_move]
    exact Act.run_write _ _ _
  | postInc z x => exact Act.run_read_bind (post_run z x (σ x).inc σ)
  | postDec z x => exact Act.run_read_bind (post_run z x (σ x).dec σ)

theorem Cond.acts_run (c : Cond) (σ : Store) : c.acts.run σ = Cmd.ask c σ := by
  have key : ∀ {α β : Type} (m : Act α) (r : Res α) (f : α → Act β) (g : α → Res β), m.run σ = (r, σ) → (∀ a, (f a).run σ = (g a, σ)) →
      (m >>= f).run σ = ((do let a ← r; g a), σ) := by
    intro α β m r f g h1 h2
    rw [Act.run_bind]
    unfold Cmd.bind
    rw [h1]
    cases r <;> first | rfl | exact h2 _
  induction c with
  | rel op x y => rfl
  | isZero x => rfl
  | isOne x => rfl
  | isEven x => rfl
  | isPowerOfTwo x => rfl
  | not c ih => exact key _ _ _ _ ih fun b => rfl
  | and c d ih1 ih2 =>
    refine key _ _ _ _ ih1 fun b => ?_
    cases b
    · rfl
    · exact ih2
  | or c d ih1 ih2 =>
    refine key _ _ _ _ ih1 fun b => ?_
    cases b
    · exact ih2
    · rfl

theorem Thread.steps_add (m n : Nat) (c : Thread × Store) : Thread.steps (m + n) c = Thread.steps n (Thread.steps m c) := by
  induction m generalizing c with
  | zero => rw [Nat.zero_add]; rfl
  | succ m ih => rw [Nat.succ_add]; exact ih _

/-- `c` comes to `d`. -/
def Thread.Comes (c d : Thread × Store) : Prop := ∃ n, Thread.steps n c = d
theorem Thread.Comes.refl (c : Thread × Store) : Thread.Comes c c := ⟨0, rfl⟩
theorem Thread.Comes.trans {c d e : Thread × Store} (h : Thread.Comes c d) (h' : Thread.Comes d e) : Thread.Comes c e := by
  obtain ⟨m, rfl⟩ := h
  obtain ⟨n, rfl⟩ := h'
  exact ⟨m + n, Thread.steps_add m n c⟩
theorem Thread.Comes.head {t : Thread} {σ : Store} {e : Thread × Store} (h : Thread.Comes (t.step σ) e) : Thread.Comes (t, σ) e := by
  obtain ⟨n, rfl⟩ := h
  exact ⟨n + 1, rfl⟩

theorem Act.comes (m : Act Prog) (fs : List Frame) (σ : Store) : Thread.Comes (⟨m, fs⟩, σ) (⟨.done (m.run σ).1, fs⟩, (m.run σ).2) := by
  induction m generalizing σ with
  | done r => exact .refl _
  | getSign i k ih => exact .head (ih _ _)
  | getBits i k ih => exact .head (ih _ _)
  | setSign i s k ih => exact .head (ih _)
  | setBits i ws k ih => exact .head (ih _)

/-- The end of a program as the end of code. -/
def Res.thenSkip : Res Unit → Res Prog
  | .ok _ => .ok .skip
  | .throw e => .throw e
  | .abort => .abort
  | .ub u => .ub u
  | .diverge => .diverge

theorem Prog.comes : ∀ (n : Nat) (p : Prog) (σ σ' : Store) (r : Res Unit), p.exec n σ = (r, σ') → r ≠ .diverge → ∀ fs,
    Thread.Comes (⟨.done (.ok p), fs⟩, σ) (⟨.done r.thenSkip, fs⟩, σ') := by
  intro n
  induction n with
  | zero => intro p σ σ' r h hr; cases h; exact absurd rfl hr
  | succ n ih =>
    intro p σ σ' r h hr fs
    -- sequencing
    have seq : ∀ (p q : Prog) (σ : Store), Cmd.bind (p.exec n) (fun _ => q.exec n) σ = (r, σ') →
        Thread.Comes (⟨.done (.ok p), .thenDo q :: fs⟩, σ) (⟨.done r.thenSkip, fs⟩, σ') := by
      intro p q σ h
      unfold Cmd.bind at h
      rcases hp : p.exec n σ with ⟨r1, σ1⟩
      rw [hp] at h
      have h1 := ih p σ σ1 r1 hp
      cases r1 with
      | ok u => exact (h1 nofun _).trans (.head (ih q σ1 σ' r h hr fs))
      | throw e => cases h; exact (h1 nofun _).trans (.head (.refl _))
      | abort => cases h; exact (h1 nofun _).trans (.head (.refl _))
      | ub u => cases h; exact (h1 nofun _).trans (.head (.refl _))
      | diverge => cases h; exact absurd rfl hr
    cases p with
    | skip => cases h; exact .refl _
    | stmt s =>
      refine .head ((Act.comes _ _ _).trans ?_)
      have e : (s.acts >>= fun _ => pure Prog.skip).run σ = (r.thenSkip, σ') := by
        rw [Act.run_bind]
        unfold Cmd.bind
        rw [Stmt.acts_run, show s.exec σ = (r, σ') from h]
        cases r <;> rfl
      rw [e]
      exact .refl _
    | seq p q => exact .head (seq p q σ h)
    | ifThen c p q =>
      refine .head ((Act.comes _ _ _).trans ?_)
      change Cmd.bind (Cmd.ask c) _ σ = _ at h
      rw [Act.run_bind]
      unfold Cmd.bind at h ⊢
      rw [Cond.acts_run]
      unfold Cmd.ask at h ⊢
      cases hc : c.test σ with
      | ok b =>
        rw [hc] at h
        cases b
        · exact ih q σ σ' r h hr fs
        · exact ih p σ σ' r h hr fs
      | diverge => rw [hc] at h; cases h; exact absurd rfl hr
      | _ => rw [hc] at h; cases h; exact .refl _
    | whileDo c p =>
      refine .head ((Act.comes _ _ _).trans ?_)
      change Cmd.bind (Cmd.ask c) _ σ = _ at h
      rw [Act.run_bind]
      unfold Cmd.bind at h ⊢
      rw [Cond.acts_run]
      unfold Cmd.ask at h ⊢
      cases hc : c.test σ with
      | ok b =>
        rw [hc] at h
        cases b
        · cases h; exact .refl _
        · exact .head (seq p (.whileDo c p) σ h)
      | diverge => rw [hc] at h; cases h; exact absurd rfl hr
      | _ => rw [hc] at h; cases h; exact .refl _
    | attempt p =>
      rcases hp : p.exec n σ with ⟨r1, σ1⟩
      have h1 := ih p σ σ1 r1 hp
      have h' : (match (r1, σ1) with | (.throw _, σ') => ((.ok () : Res Unit), σ') | r => r) = (r, σ') := by rw [← hp]; exact h
      refine .head ?_
      cases r1 with
      | diverge => cases h'; exact absurd rfl hr
      | _ => cases h'; exact (h1 nofun _).trans (.head (.refl _))

/-! ### and back -/

/-- `c` is unfinished, or the same as `d`. -/
def EndLe (c d : Res Unit × Store) : Prop := c.1 = .diverge ∨ c = d
theorem EndLe.refl (c : Res Unit × Store) : EndLe c c := .inr rfl
theorem EndLe.trans {c d e : Res Unit × Store} (h : EndLe c d) (h' : EndLe d e) : EndLe c e := by
  rcases h with h | rfl
  · exact .inl h
  · exact h'

theorem EndLe.bind {α : Type} {m : Cmd α} {f g : α → Cmd Unit} {σ : Store} (h : ∀ a τ, EndLe (f a τ) (g a τ)) :
    EndLe (Cmd.bind m f σ) (Cmd.bind m g σ) := by
  unfold Cmd.bind
  rcases m σ with ⟨r, τ⟩
  cases r <;> first | exact .refl _ | exact h _ _

theorem EndLe.bind' {m m' f f' : Cmd Unit} {σ : Store} (hm : EndLe (m σ) (m' σ)) (h : ∀ τ, EndLe (f τ) (f' τ)) :
    EndLe (Cmd.bind m (fun _ => f) σ) (Cmd.bind m' (fun _ => f') σ) := by
  unfold Cmd.bind
  rcases hm with hm | hm
  · rcases hs : m σ with ⟨r, τ⟩
    rw [hs] at hm
    cases hm
    exact .inl rfl
  · rw [hm]
    rcases m' σ with ⟨r, τ⟩
    cases r <;> first | exact .refl _ | exact h _

theorem Prog.exec_le (p : Prog) {n m : Nat} (h : n ≤ m) (σ : Store) : EndLe (p.exec n σ) (p.exec m σ) := by
  by_cases hd : (p.exec n σ).1 = .diverge
  · exact .inl hd
  · exact .inr (Prog.exec_mono n p σ _ _ rfl hd m h).symm

/-- What frames make of the end of the code before them. -/
def framesExec (n : Nat) : List Frame → Res Unit × Store → Res Unit × Store
  | [], c => c
  | .thenDo p :: fs, (.ok _, σ) => framesExec n fs (p.exec n σ)
  | .endTry :: fs, (.throw _, σ) => framesExec n fs (.ok (), σ)
  | _ :: fs, c => framesExec n fs c

theorem framesExec_diverge (n : Nat) (fs : List Frame) (σ : Store) : framesExec n fs (.diverge, σ) = (.diverge, σ) := by
  induction fs with
  | nil => rfl
  | cons f fs ih => cases f <;> exact ih

theorem framesExec_le {n : Nat} (fs : List Frame) {c d : Res Unit × Store} (h : EndLe c d) : EndLe (framesExec n fs c) (framesExec (n + 1) fs d) := by
  induction fs generalizing c d with
  | nil => exact h
  | cons f fs ih =>
    obtain ⟨r, σ⟩ := c
    rcases h with h | rfl
    · cases h
      rw [framesExec_diverge]
      exact .inl rfl
    · cases f with
      | thenDo p =>
        cases r with
        | ok u => exact ih (p.exec_le (Nat.le_succ n) σ)
        | _ => exact ih (.refl _)
      | endTry => cases r <;> exact ih (.refl _)

/-- How a thread ends, by `Prog.exec`. -/
def Thread.exec (n : Nat) (t : Thread) (σ : Store) : Res Unit × Store :=
  framesExec n t.rest (Cmd.bind t.now.run (fun p => p.exec n) σ)

theorem Prog.enter_le {n : Nat} (p : Prog) (fs : List Frame) (σ : Store) : EndLe ((p.enter fs).exec n σ) (framesExec (n + 1) fs (p.exec (n + 1) σ)) := by
  cases p with
  | skip => exact framesExec_le fs (Prog.exec_le _ (Nat.le_succ n) σ)
  | stmt s =>
    refine framesExec_le fs ?_
    show EndLe (Cmd.bind (s.acts >>= fun _ => pure Prog.skip).run _ σ) (s.exec σ)
    unfold Cmd.bind
    rw [Act.run_bind]
    unfold Cmd.bind
    rw [Stmt.acts_run]
    rcases s.exec σ with ⟨r, τ⟩
    cases r with
    | ok u =>
      cases n with
      | zero => exact .inl rfl
      | succ n => exact .refl _
    | _ => exact .refl _
  | seq p q =>
    show EndLe (framesExec n (.thenDo q :: fs) (p.exec n σ)) (framesExec (n + 1) fs (Cmd.bind (p.exec n) (fun _ => q.exec n) σ))
    unfold Cmd.bind
    rcases p.exec n σ with ⟨r, τ⟩
    cases r <;> exact framesExec_le fs (.refl _)
  | ifThen c p q =>
    refine framesExec_le fs ?_
    show EndLe (Cmd.bind (c.acts >>= fun b => pure (if b then p else q)).run _ σ) (Cmd.bind (Cmd.ask c) (fun b => if b then p.exec n else q.exec n) σ)
    unfold Cmd.bind
    rw [Act.run_bind]
    unfold Cmd.bind
    rw [Cond.acts_run]
    unfold Cmd.ask
    cases c.test σ with
    | ok b => cases b <;> exact .refl _
    | _ => exact .refl _
  | whileDo c p =>
    refine framesExec_le fs ?_
    show EndLe (Cmd.bind (c.acts >>= fun b => pure (if b then Prog.seq p (.whileDo c p) else .skip)).run _ σ) (Cmd.bind (Cmd.ask c) (fun b => if b then Cmd.bind (p.exec n) (fun _ => (Prog.whileDo c p).exec n) else pure ()) σ)
    unfold Cmd.bind
    rw [Act.run_bind]
    unfold Cmd.bind
    rw [Cond.acts_run]
    unfold Cmd.ask
    cases c.test σ with
    | ok b =>
      cases n with
      | zero => exact .inl rfl
      | succ n =>
        cases b
        · exact .refl _
        · exact EndLe.bind' (m := p.exec n) (m' := p.exec (n + 1)) (f := (Prog.whileDo c p).exec n) (f' := (Prog.whileDo c p).exec (n + 1)) (p.exec_le (Nat.le_succ n) σ) fun τ => Prog.exec_le _ (Nat.le_succ n) τ
    | _ => exact .refl _
  | attempt p =>
    show EndLe (framesExec n (.endTry :: fs) (p.exec n σ)) (framesExec (n + 1) fs (match p.exec n σ with | (.throw _, σ') => (.ok (), σ') | r => r))
    rcases p.exec n σ with ⟨r, τ⟩
    cases r <;> exact framesExec_le fs (.refl _)

theorem Thread.step_le {n : Nat} (t : Thread) (σ : Store) : EndLe ((t.step σ).1.exec n (t.step σ).2) (t.exec (n + 1) σ) := by
  have up : ∀ (t : Thread) (σ : Store), EndLe (t.exec n σ) (t.exec (n + 1) σ) := fun t σ =>
    framesExec_le _ (EndLe.bind fun p τ => p.exec_le (Nat.le_succ n) τ)
  obtain ⟨m, fs⟩ := t
  cases m with
  | getSign i k => exact up ⟨k (σ i).sign, fs⟩ σ
  | getBits i k => exact up ⟨k (σ i).bits, fs⟩ σ
  | setSign i s k => exact up ⟨k, fs⟩ _
  | setBits i s k => exact up ⟨k, fs⟩ _
  | done r =>
    cases r with
    | ok p =>
      by_cases hp : p = .skip
      · subst hp
        rcases fs with _ | ⟨q | _, fs⟩
        · exact up _ _
        · exact framesExec_le fs (q.exec_le (Nat.le_succ n) σ)
        · exact framesExec_le fs (Prog.exec_le _ (Nat.le_succ n) σ)
      · have e : Thread.step ⟨.done (.ok p), fs⟩ σ = (p.enter fs, σ) := by
          cases p <;> first | rfl | exact absurd rfl hp
        rw [e]
        exact p.enter_le fs σ
    | throw e =>
      rcases fs with _ | ⟨q | _, fs⟩
      · exact up _ _
      · exact framesExec_le fs (.refl _)
      · refine framesExec_le fs ?_
        show EndLe (Prog.skip.exec n σ) (.ok (), σ)
        cases n with
        | zero => exact .inl rfl
        | succ n => exact .refl _
    | _ =>
      rcases fs with _ | ⟨_ | _, fs⟩
      · exact up _ _
      · exact framesExec_le fs (.refl _)
      · exact framesExec_le fs (.refl _)

theorem Thread.steps_le (k n : Nat) (c : Thread × Store) : EndLe ((Thread.steps k c).1.exec n (Thread.steps k c).2) (c.1.exec (n + k) c.2) := by
  induction k generalizing c with
  | zero => exact .refl _
  | succ k ih => exact (ih _).trans (Thread.step_le _ _)

theorem Thread.result_exec {t : Thread} {r : Res Unit} (h : t.result = some r) (σ : Store) : r ≠ .diverge ∧ t.exec 1 σ = (r, σ) ∧ ∀ τ, t.step τ = (t, τ) := by
  obtain ⟨m, fs⟩ := t
  cases m with
  | done q =>
    rcases fs with _ | ⟨f, fs⟩
    · cases q with
      | ok p =>
        cases p <;> first | (cases h; exact ⟨nofun, rfl, fun _ => rfl⟩) | cases h
      | diverge => cases h
      | _ => cases h; exact ⟨nofun, rfl, fun _ => rfl⟩
    · cases q with
      | ok p => cases p <;> cases h
      | _ => cases h
  | _ => cases h

theorem Thread.steps_end {t : Thread} {r : Res Unit} (h : t.result = some r) (n : Nat) (σ : Store) : Thread.steps n (t, σ) = (t, σ) := by
  induction n with
  | zero => rfl
  | succ n ih =>
    show Thread.steps n (t.step σ) = _
    rw [(Thread.result_exec h σ).2.2, ih]

theorem Thread.steps_ended {m n : Nat} {c : Thread × Store} (hm : (Thread.steps m c).1.result ≠ none) (hn : (Thread.steps n c).1.result ≠ none) :
    Thread.steps m c = Thread.steps n c := by
  have key : ∀ {m n : Nat}, (Thread.steps m c).1.result ≠ none → m ≤ n → Thread.steps n c = Thread.steps m c := by
    intro m n hm h
    obtain ⟨d, rfl⟩ := Nat.exists_eq_add_of_le h
    obtain ⟨r, hr⟩ := Option.ne_none_iff_exists'.1 hm
    rw [Thread.steps_add]
    exact Thread.steps_end hr d _
  rcases Nat.le_total m n with h | h
  · exact (key hm h).symm
  · exact key hn h

/-- A thread that has come to its end alone has done what `Prog.exec` says. -/
theorem Prog.of_steps {p : Prog} {n : Nat} {σ : Store} {r : Res Unit} (h : (Thread.steps n (p.thread, σ)).1.result = some r) :
    p.exec (1 + n) σ = (r, (Thread.steps n (p.thread, σ)).2) := by
  obtain ⟨h1, h2, -⟩ := Thread.result_exec h (Thread.steps n (p.thread, σ)).2
  have h3 := Thread.steps_le n 1 (p.thread, σ)
  rw [h2] at h3
  rcases h3 with h3 | h3
  · exact absurd h3 h1
  · exact h3.symm

/-- And what `Prog.exec` says it does, in some number of steps. -/
theorem Prog.to_steps {p : Prog} {n : Nat} {σ σ' : Store} {r : Res Unit} (h : p.exec n σ = (r, σ')) (hr : r ≠ .diverge) :
    ∃ k, ∀ m, k ≤ m → (Thread.steps m (p.thread, σ)).1.result = some r ∧ (Thread.steps m (p.thread, σ)).2 = σ' := by
  obtain ⟨k, hk⟩ := Prog.comes n p σ σ' r h hr []
  refine ⟨k, fun m hm => ?_⟩
  obtain ⟨d, rfl⟩ := Nat.exists_eq_add_of_le hm
  have e : Thread.result ⟨.done r.thenSkip, []⟩ = some r := by
    cases r <;> first | rfl | exact absurd rfl hr
  have : Thread.steps (k + d) (p.thread, σ) = (⟨.done r.thenSkip, []⟩, σ') := by
    rw [Thread.steps_add]
    show Thread.steps d (Thread.steps k (⟨.done (.ok p), []⟩, σ)) = _
    rw [hk, Thread.steps_end e]
  rw [this]
  exact ⟨e, rfl⟩

theorem threads_within (P : Nat → Prog) (t : Nat) : (threads P t).Within (P t).Names (P t).Writes :=
  ⟨⟨fun _ h => h, fun _ h => h⟩, fun f hf => by cases hf⟩

end BigIntegerCpp
