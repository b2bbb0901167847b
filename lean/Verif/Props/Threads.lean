import Verif.Lemmas.Threads
import Verif.Props.Program
import Verif.Props.Samples
/-
C73: threads.  `Pool.run sched (threads P, σ)`: the threads `t` executing the programs `P t` on the
shared objects `σ` take steps in the order `sched` (Model/Threads.lean), a step being one access to one
member of an object; the result is what the threads have still to do and the objects.
-/
namespace BigIntegerCpp
open Samples
variable [Cfg]

/-- No data races: if no thread assigns to an object another one names, no schedule leads to a moment
at which two threads access the same member of an object and one of them writes. -/
theorem C73_no_races (P : Nat → Prog) (hP : ShareOnlyRead P) (σ : Store) (sched : List Nat) : ¬ Race (Pool.run sched (threads P, σ)).1 := by
  rintro ⟨t, u, htu, i, m, w, w', h1, h2, h3⟩
  obtain ⟨hw, -⟩ := Pool.within sched (σ := σ) (threads_within P)
  have h1 := (hw t).next h1
  have h2 := (hw u).next h2
  rcases h3 with rfl | rfl
  · refine hP t u htu i h1 ?_
    cases w' with
    | false => exact h2
    | true => exact Prog.writes_names h2
  · refine hP u t (Ne.symm htu) i h2 ?_
    cases w with
    | false => exact h1
    | true => exact Prog.writes_names h1

/-- A thread whose objects no other thread assigns to, once it has ended, has ended as its program
would have alone, and so have the objects it names. -/
theorem C73_as_if_alone (P : Nat → Prog) (t : Nat) (hP : Undisturbed P t) (σ : Store) (sched : List Nat) (r : Res Unit)
    (h : ((Pool.run sched (threads P, σ)).1 t).result = some r) :
    ∃ fuel σ', (P t).exec fuel σ = (r, σ') ∧ ∀ i, (P t).Names i → (Pool.run sched (threads P, σ)).2 i = σ' i := by
  obtain ⟨h1, h2⟩ := Pool.simulation (R := fun t => (P t).Names) (W := fun t => (P t).Writes) (t := t) hP sched (σ := σ) (threads_within P) σ (fun _ _ => rfl)
  rw [h1] at h
  exact ⟨_, _, Prog.of_steps h, h2⟩

/-- And it does end, if its program does: after enough steps of its own, however many the others take
before, after or in between. -/
theorem C73_ends (P : Nat → Prog) (t : Nat) (hP : Undisturbed P t) (σ σ' : Store) (fuel : Nat) (r : Res Unit)
    (h : (P t).exec fuel σ = (r, σ')) (hr : r ≠ .diverge) :
    ∃ n, ∀ sched : List Nat, n ≤ sched.count t →
      ((Pool.run sched (threads P, σ)).1 t).result = some r ∧ ∀ i, (P t).Names i → (Pool.run sched (threads P, σ)).2 i = σ' i := by
  obtain ⟨n, hn⟩ := Prog.to_steps h hr
  refine ⟨n, fun sched hs => ?_⟩
  obtain ⟨h1, h2⟩ := Pool.simulation (R := fun t => (P t).Names) (W := fun t => (P t).Writes) (t := t) hP sched (σ := σ) (threads_within P) σ (fun _ _ => rfl)
  obtain ⟨h3, h4⟩ := hn _ hs
  exact ⟨by rw [h1]; exact h3, fun i hi => by rw [h2 i hi]; exact congrFun h4 i⟩

/-- Objects to which no thread assigns are left as they are, at any time. -/
theorem C73_untouched (P : Nat → Prog) (σ : Store) (sched : List Nat) (i : Nat) (hi : ∀ t, ¬ (P t).Writes i) :
    (Pool.run sched (threads P, σ)).2 i = σ i := (Pool.within sched (threads_within P)).2 i hi

/-- Once all threads have ended, the schedule makes no difference to anything. -/
theorem C73_schedule_irrelevant (P : Nat → Prog) (hP : ShareOnlyRead P) (σ : Store) (sched sched' : List Nat)
    (h : ∀ t, ((Pool.run sched (threads P, σ)).1 t).result ≠ none) (h' : ∀ t, ((Pool.run sched' (threads P, σ)).1 t).result ≠ none) :
    Pool.run sched (threads P, σ) = Pool.run sched' (threads P, σ) := by
  have key : ∀ t, (Pool.run sched (threads P, σ)).1 t = (Pool.run sched' (threads P, σ)).1 t ∧
      ∀ i, (P t).Names i → (Pool.run sched (threads P, σ)).2 i = (Pool.run sched' (threads P, σ)).2 i := by
    intro t
    have hu : Undisturbed P t := fun u hu => hP u t hu
    obtain ⟨h1, h2⟩ := Pool.simulation (R := fun t => (P t).Names) (W := fun t => (P t).Writes) (t := t) hu sched (σ := σ) (threads_within P) σ (fun _ _ => rfl)
    obtain ⟨h3, h4⟩ := Pool.simulation (R := fun t => (P t).Names) (W := fun t => (P t).Writes) (t := t) hu sched' (σ := σ) (threads_within P) σ (fun _ _ => rfl)
    have ht := h t
    have ht' := h' t
    rw [h1] at ht
    rw [h3] at ht'
    have e := Thread.steps_ended ht ht'
    exact ⟨by rw [h1, h3, e], fun i hi => by rw [h2 i hi, h4 i hi, e]⟩
  refine Prod.ext (funext fun t => (key t).1) (funext fun i => ?_)
  by_cases hi : ∃ t, (P t).Writes i
  · obtain ⟨t, ht⟩ := hi
    exact (key t).2 i (Prog.writes_names ht)
  · rw [C73_untouched P σ sched i (fun t ht => hi ⟨t, ht⟩), C73_untouched P σ sched' i (fun t ht => hi ⟨t, ht⟩)]

/-- In terms of integers: a program that, read over the integers (`Runs`, ProgramSpec.lean), goes from
`ρ` to `ρ'`, does so as a thread among others, on the objects it names. -/
theorem C73_integers (P : Nat → Prog) (t : Nat) (hP : Undisturbed P t) (σ : Store) (ρ ρ' : IntStore) (o : Option Exn)
    (hσ : σ.Shows ρ) (h : Runs (P t) ρ o ρ') :
    ∃ n, ∀ sched : List Nat, n ≤ sched.count t →
      ((Pool.run sched (threads P, σ)).1 t).result = some (endsWith o) ∧
      ∀ i, (P t).Names i → ((Pool.run sched (threads P, σ)).2 i).Denotes (ρ' i) := by
  obtain ⟨k, σ', h1, h2⟩ := h.exec hσ
  obtain ⟨n, hn⟩ := C73_ends P t hP σ σ' k (endsWith o) (h2 k (Nat.le_refl k)) (by cases o <;> nofun)
  refine ⟨n, fun sched hs => ⟨(hn sched hs).1, fun i hi => ?_⟩⟩
  rw [(hn sched hs).2 i hi]
  exact h1 i

/-- `v₃ = v₂ * v₂` -/
def squareShared : Prog := .stmt (.binary .mul 3 2 2)

/-- Thread 0 computes a factorial of the number in object 2, thread 1 its square, the other threads
do nothing. -/
def factorialAndSquare : Nat → Prog := fun t => if t = 0 then factorial else if t = 1 then squareShared else .skip

omit [Cfg] in
theorem factorialAndSquare_apart : ShareOnlyRead factorialAndSquare := by
  intro t u htu i
  unfold factorialAndSquare
  by_cases h0 : t = 0
  · subst h0
    rw [if_pos rfl, if_neg (Ne.symm htu)]
    by_cases h1 : u = 1
    · rw [if_pos h1]
      simp only [factorial, squareShared, Prog.Writes, Prog.Names, Stmt.Writes, Stmt.Reads]
      omega
    · rw [if_neg h1]
      exact fun _ h => h
  · rw [if_neg h0]
    by_cases h1 : t = 1
    · subst h1
      rw [if_pos rfl]
      by_cases h2 : u = 0
      · rw [if_pos h2]
        simp only [factorial, squareShared, Prog.Writes, Prog.Names, Stmt.Writes, Stmt.Reads, Cond.Reads]
        rintro rfl
        simp
      · rw [if_neg h2, if_neg (Ne.symm htu)]
        exact fun _ h => h
    · rw [if_neg h1]
      exact fun h => h.elim

/-- An unbounded family to which the theorems apply: both threads get the right result from the shared
object, under every schedule in which they have enough steps. -/
example (n : Nat) (h : InRange (n.factorial : Int)) (h' : InRange ((n : Int) * n)) (σ : Store) (ρ : IntStore) (hσ : σ.Shows ρ)
    (h0 : ρ 0 = 1) (h1 : ρ 1 = 0) (h2 : ρ 2 = n) (hr : ∀ i, InRange (ρ i)) :
    ∃ m, ∀ sched : List Nat, m ≤ sched.count 0 → m ≤ sched.count 1 →
      ((Pool.run sched (threads factorialAndSquare, σ)).2 0).Denotes n.factorial ∧
      ((Pool.run sched (threads factorialAndSquare, σ)).2 3).Denotes (n * n) ∧
      (Pool.run sched (threads factorialAndSquare, σ)).2 2 = σ 2 := by
  have hu : ∀ t, Undisturbed factorialAndSquare t := fun t u hut => factorialAndSquare_apart u t hut
  obtain ⟨ρ', hρ', e⟩ := factorial_runs n h ρ h0 h1 h2 hr
  obtain ⟨m, hm⟩ := C73_integers factorialAndSquare 0 (hu 0) σ ρ ρ' none hσ hρ'
  have hs : Runs squareShared ρ none (ρ.set 3 (ρ 2 * ρ 2)) := by
    refine .stmt _ _ _ hr trivial rfl fun i => ?_
    unfold IntStore.set
    by_cases hi : i = 3
    · rw [if_pos hi, h2]; exact h'
    · rw [if_neg hi]; exact hr i
  obtain ⟨m', hm'⟩ := C73_integers factorialAndSquare 1 (hu 1) σ ρ _ none hσ hs
  refine ⟨max m m', fun sched h3 h4 => ⟨?_, ?_, ?_⟩⟩
  · rw [← e]
    exact (hm sched (by omega)).2 0 (.inr (.inr (.inl rfl)))
  · have := (hm' sched (by omega)).2 3 (.inl rfl)
    rw [show (ρ.set 3 (ρ 2 * ρ 2)) 3 = (n : Int) * n from by rw [← h2]; rfl] at this
    exact this
  · refine C73_untouched _ σ sched 2 fun t => ?_
    unfold factorialAndSquare
    by_cases t0 : t = 0
    · rw [if_pos t0]
      simp [factorial, Prog.Writes, Stmt.Writes]
    · rw [if_neg t0]
      by_cases t1 : t = 1
      · rw [if_pos t1]
        simp [squareShared, Prog.Writes, Stmt.Writes]
      · rw [if_neg t1]
        exact fun h => h

/-- Thread 0: `v₀ = v₁`; thread 1: `v₂ = v₀`. -/
def tearing : Nat → Prog := fun t => if t = 0 then .stmt (.unary .copy 0 1) else if t = 1 then .stmt (.unary .copy 2 0) else .skip
def tearingObjects : Store := fun i => if i = 0 then ⟨-5, []⟩ else if i = 1 then pos2 else zeroInt

/-- Without that condition the theorems fail: a thread reads an object another thread is assigning to,
and gets a value the object never had (`1`; `v₀` was -5 and becomes 38654705667).  There is a race, and
the outcome depends on the schedule. -/
theorem C73_condition_needed :
    Race (Pool.run [0, 0, 1] (threads tearing, tearingObjects)).1 ∧
    (Pool.run [0, 0, 0, 1, 1, 1, 1, 1, 0, 0] (threads tearing, tearingObjects)).2 2 = ⟨1, []⟩ ∧
    (Pool.run [1, 1, 1, 1, 1, 0, 0, 0, 0, 0] (threads tearing, tearingObjects)).2 2 = ⟨-5, []⟩ ∧
    (Pool.run [0, 0, 0, 0, 0, 1, 1, 1, 1, 1] (threads tearing, tearingObjects)).2 2 = pos2 := by
  refine ⟨⟨0, 1, by decide, 0, false, true, false, rfl, rfl, .inl rfl⟩, ?_, ?_, ?_⟩ <;> rfl

/-- `v₀ += v₁` in two threads: an update can be lost (5 instead of 10). -/
example : (Pool.run [0, 0, 0, 0, 0, 1, 1, 1, 1, 1, 1, 1, 0, 0]
    (threads (fun t => if t < 2 then .stmt (.update .add 0 1) else .skip), fun i => if i = 1 then ⟨5, []⟩ else zeroInt)).2 0 = ⟨5, []⟩ := by
  rename_i c; obtain ⟨d, s⟩ := c; cases d <;> cases s <;> rfl

end BigIntegerCpp
