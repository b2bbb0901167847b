import Verif.Lemmas.StackMachine
/-
C88: a stack machine with 32-byte integers on top of the library (StackMachineSpec.lean).
-/
set_option linter.unusedSectionVars false
namespace BigIntegerCpp
variable [Cfg]
open Samples

/-- One instruction, on any stack of 32-byte integers: the library does what is meant exactly where the instruction
does not trip. -/
theorem C88_instruction_exact_iff (o : MOp) (st : List BigInt) (zs : List Int) (hs : List.Forall₂ BigInt.Denotes st zs)
    (hw : ∀ z ∈ zs, Word256 z) (hstrict : Cfg.strictShift = false) : MOp.Does (o.exec st) (o.meaning zs) ↔ ¬ o.Trips zs := by
  constructor
  · intro h ht
    rcases MOp.exec_trips o hs hw ht with ⟨u, -, -, h1, h2⟩ | ⟨r, -, h1, r', h2, h3⟩
    · rw [h1, h2] at h
      rcases h with h | ⟨e, h⟩ <;> cases h
    · rw [h2] at h
      exact h3 (Option.some.inj (h1.unique h)).symm
  · intro ht
    exact (MOp.exec_ok o hs hw hstrict ht).does

/-- Every program, for any number of steps: what the machine does, undefined behaviour included.  In particular it never
aborts, and no exception leaves it. -/
theorem C88_every_program (p : List Instr) (n : Nat) (s : Status BigInt) (z : Status Int) (h : s.Shows z)
    (hw : ∀ x ∈ z.stack, Word256 x) (hstrict : Cfg.strictShift = false) :
    (∃ u, ActualMachine.run p n z = .ub u ∧ Machine.run p n s = .ub u) ∨
    ∃ s' z', ActualMachine.run p n z = .ok z' ∧ Machine.run p n s = .ok s' ∧ s'.Shows z' ∧ ∀ x ∈ z'.stack, Word256 x := by
  rcases Machine.run_actual p hstrict n h hw with ⟨u, -, h1, h2⟩ | h
  · exact .inl ⟨u, h1, h2⟩
  · exact .inr h

/-- Programs that never reach an instruction that trips run as meant, step by step, whatever their loops do.  Missing:
the programs that do (`C88_exact_iff`, `C88_refuted`). -/
theorem C88_machine_partial (p : List Instr) (n : Nat) (s : Status BigInt) (z : Status Int) (h : s.Shows z)
    (hw : ∀ x ∈ z.stack, Word256 x) (hstrict : Cfg.strictShift = false)
    (ht : ∀ k < n, ¬ IntMachine.Trips p (IntMachine.run p k z)) :
    ∃ s', Machine.run p n s = .ok s' ∧ s'.Shows (IntMachine.run p n z) := by
  have h1 := Machine.run_of_not_trips p n ht
  rcases Machine.run_actual p hstrict n h hw with ⟨u, -, h2, -⟩ | ⟨s', z', h2, h3, h4, -⟩
  · rw [h1] at h2; cases h2
  · rw [h1] at h2; cases h2
    exact ⟨s', h3, h4⟩

/-- And only those do. -/
theorem C88_exact_iff (p : List Instr) (n : Nat) (s : Status BigInt) (z : Status Int) (h : s.Shows z)
    (hw : ∀ x ∈ z.stack, Word256 x) (hstrict : Cfg.strictShift = false) :
    (∀ k ≤ n, ∃ s', Machine.run p k s = .ok s' ∧ s'.Shows (IntMachine.run p k z)) ↔
      ∀ k < n, ¬ IntMachine.Trips p (IntMachine.run p k z) := by
  constructor
  · intro hr k hk
    induction k using Nat.strong_induction_on with
    | _ k ih =>
      intro ht
      have h1 := Machine.run_of_not_trips p k (z := z) fun j hj => ih j hj (by omega)
      rcases Machine.run_actual p hstrict k h hw with ⟨u, -, h2, -⟩ | ⟨s', z', h2, h3, h4, h5⟩
      · rw [h1] at h2; cases h2
      · rw [h1] at h2; cases h2
        refine Machine.step_trips p h4 h5 ht ?_
        have := hr (k + 1) hk
        rwa [Machine.lib_run_succ, h3, Res.ok_bind, Machine.run_succ] at this
  · intro ht k hk
    exact C88_machine_partial p k s z h hw hstrict fun j hj => ht j (by omega)

/-- Programs without `pow`, `shl`, `shr` and `modPow` run as meant from any stack of 32-byte integers, for ever. -/
theorem C88_plain (p : List Instr) (hp : ∀ o, .op o ∈ p → o.Plain) (n : Nat) (s : Status BigInt) (z : Status Int) (h : s.Shows z)
    (hw : ∀ x ∈ z.stack, Word256 x) (hstrict : Cfg.strictShift = false) :
    ∃ s', Machine.run p n s = .ok s' ∧ s'.Shows (IntMachine.run p n z) := by
  refine C88_machine_partial p n s z h hw hstrict fun k _ ht => ?_
  cases hz : IntMachine.run p k z with
  | halted _ => rw [hz] at ht; exact ht
  | faulted => rw [hz] at ht; exact ht
  | running pc st =>
    rw [hz] at ht
    obtain ⟨o, h1, h2⟩ := ht
    have := hp o (List.mem_of_getElem? h1)
    cases o <;> first | exact this | exact h2

/-- From the empty stack, whatever the program and whether it trips or not: every object on the stack is the one of an
integer of 32 bytes, and its `to_byte_array` gives at most 32 bytes that stand for that integer. -/
theorem C88_bytes (p : List Instr) (n : Nat) (s : Status BigInt) (hstrict : Cfg.strictShift = false)
    (h : Machine.run p n (.running 0 []) = .ok s) (b : BigInt) (hb : b ∈ s.stack) :
    ∃ x v, b.Denotes x ∧ Word256 x ∧ b.toBytes false false = .ok v ∧ v.length ≤ 32 ∧ bytesValue false false v = x := by
  rcases C88_every_program p n (.running 0 []) (.running 0 []) ⟨rfl, .nil⟩ (fun x hx => by cases hx) hstrict with ⟨u, -, h2⟩ | ⟨s', z', -, h2, h3, h4⟩
  · rw [h] at h2; cases h2
  · rw [h] at h2; cases h2
    have hs : List.Forall₂ BigInt.Denotes s.stack z'.stack := by
      cases s <;> cases z' <;> first | exact h3.elim | exact h3.2 | exact h3 | exact .nil
    obtain ⟨x, hx, hd⟩ := MOp.denotes_mem hs hb
    replace hx := h4 x hx
    have hl := hx.length hd
    obtain ⟨v, e1, -, e2, -, e3, -⟩ := C28_minimal_bytes _ _ hd (by omega) false false (by simp)
    refine ⟨_, v, hd, hx, e1, ?_, e2⟩
    obtain ⟨m, f1, f2⟩ := MOp.byteCount_le hd hx.inRange
    rw [e3] at f1
    cases f1
    exact f2.2 hx

/-- The only undefined behaviour is a signed overflow or a division by zero. -/
theorem C88_undefined (p : List Instr) (n : Nat) (hstrict : Cfg.strictShift = false) :
    (∃ s, Machine.run p n (.running 0 []) = .ok s) ∨ Machine.run p n (.running 0 []) = .ub .signedOverflow ∨
      Machine.run p n (.running 0 []) = .ub .divByZero := by
  rcases Machine.run_actual p hstrict n (s := .running 0 []) (z := .running 0 []) ⟨rfl, .nil⟩ (fun x hx => by cases hx)
    with ⟨u, rfl | rfl, -, h2⟩ | ⟨s', z', -, h2, -⟩
  · exact .inr (.inl h2)
  · exact .inr (.inr h2)
  · exact .inl ⟨s', h2⟩

/-- Debug and release builds run every program alike, undefined behaviour included. -/
theorem C88_builds_agree (c d : Cfg) (hc : c.strictShift = false) (hd : d.strictShift = false) (p : List Instr) (n : Nat) :
    @Machine.run c p n (.running 0 []) = @Machine.run d p n (.running 0 []) := by
  have h0 : Status.Shows (.running 0 []) (.running 0 []) := ⟨rfl, .nil⟩
  have hw : ∀ x ∈ (Status.running 0 ([] : List Int)).stack, Word256 x := fun x hx => by cases hx
  rcases @C88_every_program c p n _ _ h0 hw hc with ⟨u, h1, h2⟩ | ⟨s, z, h1, h2, h3, -⟩ <;>
    rcases @C88_every_program d p n _ _ h0 hw hd with ⟨u', h1', h2'⟩ | ⟨s', z', h1', h2', h3', -⟩ <;>
    rw [h1] at h1' <;> cases h1' <;> rw [h2, h2']
  rw [@Machine.shows_unique c _ _ _ h3 h3']

/-! Programs -/

/-- The bytes of a number, for the examples. -/
def bytesOf (l : List Nat) : List (Fin 256) := l.map (Fin.ofNat 256)

/-- `1; while (true) top += top;` -/
def doubling : List Instr := [.op (.push (bytesOf [1])), .op .dup, .op (.bin .add), .jmp 1]

/-- The doubling loop works up to `2^254` and then faults. -/
theorem C88_doubling (hstrict : Cfg.strictShift = false) :
    (∃ b, Machine.run doubling 763 (.running 0 []) = .ok (.running 1 [b]) ∧ b.Denotes (2 ^ 254)) ∧
    Machine.run doubling 765 (.running 0 []) = .ok .faulted := by
  have h := fun n => C88_plain doubling (by
    intro o ho
    simp only [doubling, List.mem_cons, Instr.op.injEq, List.not_mem_nil, or_false, reduceCtorEq] at ho
    rcases ho with rfl | rfl | rfl <;> trivial) n (.running 0 []) (.running 0 []) ⟨rfl, .nil⟩ (fun x hx => by cases hx) hstrict
  constructor
  · obtain ⟨s, h1, h2⟩ := h 763
    rw [show IntMachine.run doubling 763 (.running 0 []) = .running 1 [2 ^ 254] by decide +kernel] at h2
    cases s with
    | halted _ => exact h2.elim
    | faulted => exact h2.elim
    | running pc st =>
      obtain ⟨rfl, h3⟩ := h2
      rcases h3 with _ | ⟨h4, _ | _⟩
      exact ⟨_, h1, h4⟩
  · obtain ⟨s, h1, h2⟩ := h 765
    rw [show IntMachine.run doubling 765 (.running 0 []) = .faulted by decide +kernel] at h2
    cases s with
    | halted _ => exact h2.elim
    | running _ _ => exact h2.elim
    | faulted => exact h1

/-- `(1 - 2^64) >> 32` -/
def shiftProgram : List Instr :=
  [.op (.push (bytesOf [1, 0, 0, 0, 0, 0, 0, 0, 255])), .op (.push (bytesOf [32])), .op .shr]
/-- `1 << INT_MIN` -/
def countProgram : List Instr := [.op (.push (bytesOf [1])), .op (.push (bytesOf [0, 0, 0, 128])), .op .shl]
/-- `(-3)^3 mod 10` -/
def powerProgram : List Instr :=
  [.op (.push (bytesOf [253])), .op (.push (bytesOf [3])), .op (.push (bytesOf [10])), .op .modPow]

/-- Three programs that should leave `-2^32`, fault, and leave `-7`. -/
theorem C88_refuted (hstrict : Cfg.strictShift = false) :
    (IntMachine.run shiftProgram 4 (.running 0 []) = .halted [-2 ^ 32] ∧
      ∃ b, Machine.run shiftProgram 4 (.running 0 []) = .ok (.halted [b]) ∧ b.Denotes 0) ∧
    (IntMachine.run countProgram 4 (.running 0 []) = .faulted ∧
      Machine.run countProgram 4 (.running 0 []) = .ub .signedOverflow) ∧
    (IntMachine.run powerProgram 5 (.running 0 []) = .halted [-7] ∧
      ∃ b, Machine.run powerProgram 5 (.running 0 []) = .ok (.halted [b]) ∧ b.Denotes (2 ^ 32 - 7)) := by
  have hz : BigInt.Denotes ⟨0, []⟩ 0 := denotes_zero
  have hb : BigInt.Denotes ⟨1, [4294967289]⟩ (2 ^ 32 - 7) :=
    BigInt.denotes_big (.inl rfl) (by decide) (by decide) (by decide) (by decide) (by decide)
  rename_i c
  obtain ⟨d, s⟩ := c
  obtain rfl : s = false := hstrict
  refine ⟨⟨by decide +kernel, ⟨0, []⟩, ?_, hz⟩, ⟨by decide +kernel, ?_⟩, by decide +kernel, ⟨1, [4294967289]⟩, ?_, hb⟩
  · cases d <;> decide +kernel
  · cases d <;> decide +kernel
  · cases d <;> decide +kernel

/-- A stack of 32-byte integers on which `>>` does not trip. -/
example (hstrict : Cfg.strictShift = false) : MOp.Does (MOp.shr.exec [⟨64, []⟩, neg3]) (some [-2]) :=
  (C88_instruction_exact_iff .shr _ [64, -18446744103774322693] (.cons (BigInt.denotes_small (by decide) (by decide)) (.cons neg3_denotes .nil))
    (by decide) hstrict).2 (by
      rintro (h | ⟨-, -, -, -, L, h1, h2, h3⟩)
      · exact absurd h (by decide)
      · have h4 : (2 : Int) ^ 96 ≤ 2 ^ (Int.toNat 64 + 32 * L) := pow_le_pow_right₀ (by decide) (by simp; omega)
        have h5 : ((2 : Int) ^ 96 - 2 ^ 64) ≤ 2 ^ (Int.toNat 64 + 32 * L) - 2 ^ Int.toNat 64 := sub_le_sub_right h4 _
        exact absurd (lt_of_lt_of_le h3 (neg_le_neg h5)) (by decide))

/-- `2^10 > 1000 ? 7 : ...` -/
def powProgram : List Instr :=
  [.op (.push (bytesOf [2])), .op (.push (bytesOf [10])), .op .pow, .op (.push (bytesOf [232, 3])), .op (.cmp .gt), .jmpIf 7, .op .drop,
    .op (.push (bytesOf [7]))]

/-- A program with `pow` and a branch that trips nowhere. -/
example (hstrict : Cfg.strictShift = false) : ∃ s, Machine.run powProgram 8 (.running 0 []) = .ok s ∧ s.Shows (.halted [7]) := by
  have h := C88_machine_partial powProgram 8 (.running 0 []) (.running 0 []) ⟨rfl, .nil⟩ (fun x hx => by cases hx) hstrict (by
    intro k hk ht
    have : k = 0 ∨ k = 1 ∨ k = 2 ∨ k = 3 ∨ k = 4 ∨ k = 5 ∨ k = 6 ∨ k = 7 := by omega
    rcases this with rfl | rfl | rfl | rfl | rfl | rfl | rfl | rfl
    · obtain ⟨o, h1, h2⟩ := ht; cases h1; exact h2
    · rw [show IntMachine.run powProgram 1 _ = .running 1 [2] by decide +kernel] at ht
      obtain ⟨o, h1, h2⟩ := ht; cases h1; exact h2
    · rw [show IntMachine.run powProgram 2 _ = .running 2 [10, 2] by decide +kernel] at ht
      obtain ⟨o, h1, h2⟩ := ht; cases h1; exact absurd (show (10 : Int) = -2 ^ 31 from h2) (by decide)
    · rw [show IntMachine.run powProgram 3 _ = .running 3 [1024] by decide +kernel] at ht
      obtain ⟨o, h1, h2⟩ := ht; cases h1; exact h2
    · rw [show IntMachine.run powProgram 4 _ = .running 4 [1000, 1024] by decide +kernel] at ht
      obtain ⟨o, h1, h2⟩ := ht; cases h1; exact h2
    · rw [show IntMachine.run powProgram 5 _ = .running 5 [1] by decide +kernel] at ht
      obtain ⟨o, h1, h2⟩ := ht; cases h1
    · rw [show IntMachine.run powProgram 6 _ = .running 7 [] by decide +kernel] at ht
      obtain ⟨o, h1, h2⟩ := ht; cases h1; exact h2
    · rw [show IntMachine.run powProgram 7 _ = .running 8 [7] by decide +kernel] at ht
      obtain ⟨o, h1, h2⟩ := ht; cases h1)
  rwa [show IntMachine.run powProgram 8 _ = .halted [7] by decide +kernel] at h

/-- The program that trips first runs as meant for two steps. -/
example (hstrict : Cfg.strictShift = false) :
    ∀ k ≤ 2, ∃ s', Machine.run shiftProgram k (.running 0 []) = .ok s' ∧ s'.Shows (IntMachine.run shiftProgram k (.running 0 [])) :=
  (C88_exact_iff shiftProgram 2 (.running 0 []) (.running 0 []) ⟨rfl, .nil⟩ (fun x hx => by cases hx) hstrict).2 fun k hk ht => by
    have : k = 0 ∨ k = 1 := by omega
    rcases this with rfl | rfl <;> (obtain ⟨o, h1, h2⟩ := ht; cases h1; exact h2)

/-- A loop, from a stack with a number of nine bytes. -/
example (hstrict : Cfg.strictShift = false) : ∃ s', Machine.run [.op (.bin .mul), .op .dup, .jmp 1] 10 (.running 0 [neg3, pos2]) = .ok s' ∧
    s'.Shows (IntMachine.run [.op (.bin .mul), .op .dup, .jmp 1] 10 (.running 0 [-18446744103774322693, 38654705667])) :=
  C88_plain _ (by
    intro o ho
    simp only [List.mem_cons, Instr.op.injEq, List.not_mem_nil, or_false, reduceCtorEq] at ho
    rcases ho with rfl | rfl <;> trivial) 10 _ _ ⟨rfl, .cons neg3_denotes (.cons pos2_denotes .nil)⟩ (by decide) hstrict
example (hstrict : Cfg.strictShift = false) :
    (∃ u, ActualMachine.run [.op .shr] 1 (.running 0 [38654705667, -18446744103774322693]) = .ub u ∧
      Machine.run [.op .shr] 1 (.running 0 [pos2, neg3]) = .ub u) ∨
    ∃ s' z', ActualMachine.run [.op .shr] 1 (.running 0 [38654705667, -18446744103774322693]) = .ok z' ∧
      Machine.run [.op .shr] 1 (.running 0 [pos2, neg3]) = .ok s' ∧ s'.Shows z' ∧ ∀ x ∈ z'.stack, Word256 x :=
  C88_every_program _ _ _ _ ⟨rfl, .cons pos2_denotes (.cons neg3_denotes .nil)⟩ (by decide) hstrict
example (hstrict : Cfg.strictShift = false) : ∃ b, ∃ x v, BigInt.Denotes b x ∧ Word256 x ∧ b.toBytes false false = .ok v ∧ v.length ≤ 32 ∧
    bytesValue false false v = x := by
  obtain ⟨⟨b, h, -⟩, -⟩ := C88_doubling hstrict
  exact ⟨b, C88_bytes doubling 763 _ hstrict h b (by simp [Status.stack])⟩
example (hstrict : Cfg.strictShift = false) : (∃ s, Machine.run countProgram 4 (.running 0 []) = .ok s) ∨
    Machine.run countProgram 4 (.running 0 []) = .ub .signedOverflow ∨ Machine.run countProgram 4 (.running 0 []) = .ub .divByZero :=
  C88_undefined _ _ hstrict
example : @Machine.run ⟨true, false⟩ powerProgram 5 (.running 0 []) = @Machine.run ⟨false, false⟩ powerProgram 5 (.running 0 []) :=
  C88_builds_agree ⟨true, false⟩ ⟨false, false⟩ rfl rfl _ _

end BigIntegerCpp
