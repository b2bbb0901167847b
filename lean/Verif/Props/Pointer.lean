import Verif.Lemmas.PointerSpec
/-
C57: the routines on `uint32_t*` (src/BigIntegerCalculator/AddSub.cpp, SquMul.cpp, DivRem.cpp).
Given arrays that lie anywhere in memory, the result range apart from the operands, they compute
the right number, write no word outside the result range, read no word outside the arrays, and
leave no block of their own behind.
-/
set_option linter.unusedSectionVars false
namespace BigIntegerCpp
open Mem
variable [Cfg]

/-- `add(lhs, lhsLength, rhs, rhsLength, bits, bitsLength)`. -/
theorem C57_add (m : Mem) (lhs rhs bits : Ptr) (n k x y : Nat) (hk : 1 ≤ k) (hkn : k ≤ n)
    (hx : m.Number lhs n x) (hy : m.Number rhs k y) (hb : m.Room bits (n + 1))
    (hl : Apart bits (n + 1) lhs n) (hr : Apart bits (n + 1) rhs k) :
    ∃ m', addMem lhs n rhs k bits (n + 1) m = .ok m' ∧ m'.Number bits (n + 1) (x + y) ∧ m.SameBut m' bits (n + 1) := by
  obtain ⟨xs, rfl, wx, rfl, ax⟩ := hx.elim
  obtain ⟨ys, rfl, wy, rfl, ay⟩ := hy.elim
  have ib := hb.inB (by omega)
  obtain ⟨r, e, l, w, v⟩ := addPtr_spec wx wy hkn
  exact ⟨_, by rw [addMem_eq hkn ax ay ib (hl.disj (by omega) (by omega)) (hr.disj (by omega) (by omega)), e, Res.ok_bind],
    wrote ib l w v⟩

/-- Two arrays and the result in one block: `lhs` at 0, `rhs` at 2, `bits` at 3. -/
def sampleMem : Mem := [[4294967295, 4294967295, 7, 11, 12, 13, 14]]

theorem sample_lhs : sampleMem.Number ⟨0, 0⟩ 2 (2 ^ 64 - 1) :=
  ⟨[4294967295, 4294967295], rfl, by decide, by decide, by decide⟩
theorem sample_rhs : sampleMem.Number ⟨0, 2⟩ 1 7 := ⟨[7], rfl, by decide, by decide, by decide⟩
theorem sample_room {n : Nat} (h : n ≤ 4) : sampleMem.Room ⟨0, 3⟩ n := by
  intro i hi
  have : ∀ i, i < 4 → (sampleMem.word 0 (3 + i)).isSome = true := by decide
  exact Option.isSome_iff_exists.1 (this i (by omega))

/-- The operands and the result may be parts of one block. -/
example : ∃ m', addMem ⟨0, 0⟩ 2 ⟨0, 2⟩ 1 ⟨0, 3⟩ 3 sampleMem = .ok m' ∧ m'.Number ⟨0, 3⟩ 3 (2 ^ 64 - 1 + 7) ∧
    sampleMem.SameBut m' ⟨0, 3⟩ 3 :=
  C57_add sampleMem ⟨0, 0⟩ ⟨0, 2⟩ ⟨0, 3⟩ 2 1 _ _ (by decide) (by decide) sample_lhs sample_rhs (sample_room (by decide))
    (by intro i j hi hj; simp only; omega) (by intro i j hi hj; simp only; omega)

/-- `add_self(lhs, lhsLength, rhs, rhsLength)`: the sum replaces `lhs`. -/
theorem C57_add_self (m : Mem) (lhs rhs : Ptr) (n k x y : Nat) (hk : 1 ≤ k) (hkn : k ≤ n)
    (hx : m.Number lhs n x) (hy : m.Number rhs k y) (hs : x + y < 2 ^ (32 * n)) (hl : Apart lhs n rhs k) :
    ∃ m', addSelfMem lhs n rhs k m = .ok m' ∧ m'.Number lhs n (x + y) ∧ m.SameBut m' lhs n := by
  obtain ⟨xs, rfl, wx, rfl, ax⟩ := hx.elim
  obtain ⟨ys, rfl, wy, rfl, ay⟩ := hy.elim
  have ib := hx.room.inB (by omega)
  obtain ⟨r, e, l, w, v⟩ := addSelf_spec wx wy hkn (by rw [Nat.pow_mul] at hs; exact hs)
  exact ⟨_, by rw [addSelfMem_eq hkn (List.ne_nil_of_length_pos (by omega)) ax ay (hl.disj (by omega) (by omega)), e, Res.ok_bind],
    wrote ib l w v⟩

example : ∃ m', addSelfMem ⟨0, 2⟩ 3 ⟨0, 0⟩ 2 sampleMem = .ok m' ∧ m'.Number ⟨0, 2⟩ 3 (7 + 11 * 2 ^ 32 + 12 * 2 ^ 64 + (2 ^ 64 - 1)) ∧
    sampleMem.SameBut m' ⟨0, 2⟩ 3 :=
  C57_add_self sampleMem ⟨0, 2⟩ ⟨0, 0⟩ 3 2 _ _ (by decide) (by decide) ⟨[7, 11, 12], rfl, by decide, by decide, by decide⟩ sample_lhs
    (by decide) (by intro i j hi hj; simp only; omega)

/-- `subtract(lhs, lhsLength, rhs, rhsLength, bits, bitsLength)`. -/
theorem C57_subtract (m : Mem) (lhs rhs bits : Ptr) (n k x y : Nat) (hk : 1 ≤ k) (hkn : k ≤ n) (hyx : y ≤ x)
    (hx : m.Number lhs n x) (hy : m.Number rhs k y) (hb : m.Room bits n)
    (hl : Apart bits n lhs n) (hr : Apart bits n rhs k) :
    ∃ m', subtractMem lhs n rhs k bits n m = .ok m' ∧ m'.Number bits n (x - y) ∧ m.SameBut m' bits n := by
  obtain ⟨xs, rfl, wx, rfl, ax⟩ := hx.elim
  obtain ⟨ys, rfl, wy, rfl, ay⟩ := hy.elim
  have ib := hb.inB (by omega)
  obtain ⟨r, e, l, w, v⟩ := subtractPtr_spec wx wy hkn (compare_nonneg wx wy hkn hyx) hyx
  exact ⟨_, by rw [subtractMem_eq hkn ax ay ib (hl.disj (by omega) (by omega)) (hr.disj (by omega) (by omega)), e, Res.ok_bind],
    wrote ib l w v⟩

example : ∃ m', subtractMem ⟨0, 0⟩ 2 ⟨0, 2⟩ 1 ⟨0, 3⟩ 2 sampleMem = .ok m' ∧ m'.Number ⟨0, 3⟩ 2 (2 ^ 64 - 1 - 7) ∧
    sampleMem.SameBut m' ⟨0, 3⟩ 2 :=
  C57_subtract sampleMem ⟨0, 0⟩ ⟨0, 2⟩ ⟨0, 3⟩ 2 1 _ _ (by decide) (by decide) (by decide) sample_lhs sample_rhs (sample_room (by decide))
    (by intro i j hi hj; simp only; omega) (by intro i j hi hj; simp only; omega)

/-- `subtract_self(left, leftLength, right, rightLength)`: the difference replaces `left`. -/
theorem C57_subtract_self (m : Mem) (left right : Ptr) (n k x y : Nat) (hk : 1 ≤ k) (hkn : k ≤ n) (hyx : y ≤ x)
    (hx : m.Number left n x) (hy : m.Number right k y) (hl : Apart left n right k) :
    ∃ m', subtractSelfMem left n right k m = .ok m' ∧ m'.Number left n (x - y) ∧ m.SameBut m' left n := by
  obtain ⟨xs, rfl, wx, rfl, ax⟩ := hx.elim
  obtain ⟨ys, rfl, wy, rfl, ay⟩ := hy.elim
  have ib := hx.room.inB (by omega)
  obtain ⟨r, c, e, l, w, v⟩ := FastReducer.subtractSelf_spec wx wy hkn (Nat.le_refl _) (c := 0) (by omega) (by omega)
  have hv : val r = val xs - val ys := by
    rw [List.take_of_length_le (by omega), List.take_of_length_le (Nat.le_refl _)] at v
    have hrb := val_lt w
    have hxb := val_lt wx
    rw [l] at hrb
    exact (carry_zero hrb (t := val xs - val ys) (by omega) (c := c) (by rw [v, Nat.cast_sub hyx]; ring)).2
  exact ⟨_, by rw [subtractSelfMem_eq (Nat.le_refl _) hkn ax ay (hl.disj (by omega) (by omega)), e, Res.ok_bind], wrote ib l w hv⟩

example : ∃ m', subtractSelfMem ⟨0, 0⟩ 2 ⟨0, 2⟩ 1 sampleMem = .ok m' ∧ m'.Number ⟨0, 0⟩ 2 (2 ^ 64 - 1 - 7) ∧
    sampleMem.SameBut m' ⟨0, 0⟩ 2 :=
  C57_subtract_self sampleMem ⟨0, 0⟩ ⟨0, 2⟩ 2 1 _ _ (by decide) (by decide) (by decide) sample_lhs sample_rhs (by intro i j hi hj; simp only; omega)

/-- `compare(lhs, lhsLength, rhs, rhsLength)`: on arrays of equal length, or without leading
zeros, the order of the numbers. -/
theorem C57_compare (m : Mem) (lhs rhs : Ptr) (n k x y : Nat) (hx : m.Number lhs n x) (hy : m.Number rhs k y)
    (h : n = k ∨ (2 ^ (32 * (n - 1)) ≤ x ∧ 2 ^ (32 * (k - 1)) ≤ y)) :
    compareMem lhs n rhs k m = .ok (if x < y then -1 else if y < x then 1 else 0) := by
  obtain ⟨xs, rfl, wx, rfl, ax⟩ := hx.elim
  obtain ⟨ys, rfl, wy, rfl, ay⟩ := hy.elim
  rw [compareMem_eq ax ay]
  rcases h with h | ⟨h1, h2⟩
  · rw [compareWords_same_length wx wy h]
  · rw [compareWords_spec wx wy (top_ne_zero wx h1) (top_ne_zero wy h2)]

example : compareMem ⟨0, 0⟩ 2 ⟨0, 2⟩ 1 sampleMem = .ok 1 :=
  C57_compare sampleMem ⟨0, 0⟩ ⟨0, 2⟩ 2 1 _ _ sample_lhs sample_rhs (.inr (by decide))

/-- `multiply(left, leftLength, right, rightLength, bits, bitsLength)` with `bits` cleared, for
any lengths: the recursion and its local arrays included. -/
theorem C57_multiply (m : Mem) (left right bits : Ptr) (n k x y : Nat) (hk : 1 ≤ k) (hkn : k ≤ n)
    (hx : m.Number left n x) (hy : m.Number right k y) (hb : m.Number bits (n + k) 0)
    (hl : Apart bits (n + k) left n) (hr : Apart bits (n + k) right k) :
    ∃ m', mulMem left n right k bits (n + k) m = .ok m' ∧ m'.Number bits (n + k) (x * y) ∧ m.SameBut m' bits (n + k) := by
  obtain ⟨xs, rfl, wx, rfl, ax⟩ := hx.elim
  obtain ⟨ys, rfl, wy, rfl, ay⟩ := hy.elim
  have ib := hb.room.inB (by omega)
  obtain ⟨bs, lb, wb, vb, ab⟩ := hb.elim
  obtain ⟨r, e, l, w, v⟩ := mulCore_spec ys.length wx wy rfl hkn
  have hbs : bs = List.replicate (xs.length + ys.length) 0 := by rw [val_zero_replicate vb.symm, ← lb]
  exact ⟨_, by rw [mulMem_eq _ rfl rfl rfl lb hkn lb.symm ab ax ay (by rw [← lb]; exact hl.disj (by omega) (by omega))
    (by rw [← lb]; exact hr.disj (by omega) (by omega)), hbs, e, Res.ok_bind], wrote ib l w v⟩

/-- Operands of any length, so also those for which the recursion is used. -/
example (n : Nat) (hn : 1 ≤ n) : ∃ m', mulMem ⟨0, 0⟩ n ⟨1, 0⟩ n ⟨2, 0⟩ (n + n)
      [List.replicate n 5, List.replicate n 4294967295, List.replicate (n + n) 0] = .ok m' ∧
    m'.Number ⟨2, 0⟩ (n + n) (val (List.replicate n 5) * val (List.replicate n 4294967295)) ∧
    Mem.SameBut [List.replicate n 5, List.replicate n 4294967295, List.replicate (n + n) 0] m' ⟨2, 0⟩ (n + n) :=
  C57_multiply _ ⟨0, 0⟩ ⟨1, 0⟩ ⟨2, 0⟩ n n _ _ hn (Nat.le_refl _)
    (number_block rfl (wordsOk_replicate (by decide)) (by simp) rfl) (number_block rfl (wordsOk_replicate (by decide)) (by simp) rfl)
    (number_block rfl (wordsOk_replicate_zero _) (by simp) (val_replicate_zero _)) (apart_blocks (by decide)) (apart_blocks (by decide))

/-- `square(value, valueLength, bits, bitsLength)`, whatever `bits` holds. -/
theorem C57_square (m : Mem) (value bits : Ptr) (n x : Nat) (hn : 1 ≤ n)
    (hx : m.Number value n x) (hb : m.Room bits (n + n)) (hl : Apart bits (n + n) value n) :
    ∃ m', sqMem value n bits (n + n) m = .ok m' ∧ m'.Number bits (n + n) (x * x) ∧ m.SameBut m' bits (n + n) := by
  obtain ⟨xs, rfl, wx, rfl, ax⟩ := hx.elim
  have ib := hb.inB (by omega)
  obtain ⟨bs, lb, ab⟩ := ib.at
  obtain ⟨r, e, l, w, v⟩ := sqCore_spec xs.length wx rfl lb
  exact ⟨_, by rw [sqMem_eq _ rfl rfl lb.symm lb ab ax (by rw [lb]; exact hl.disj (by omega) (by omega)), e, Res.ok_bind],
    wrote ib l w v⟩

example (n : Nat) (hn : 1 ≤ n) : ∃ m', sqMem ⟨0, 0⟩ n ⟨1, 0⟩ (n + n) [List.replicate n 5, List.replicate (n + n) 9] = .ok m' ∧
    m'.Number ⟨1, 0⟩ (n + n) (val (List.replicate n 5) * val (List.replicate n 5)) ∧
    Mem.SameBut [List.replicate n 5, List.replicate (n + n) 9] m' ⟨1, 0⟩ (n + n) :=
  C57_square _ ⟨0, 0⟩ ⟨1, 0⟩ n _ hn (number_block rfl (wordsOk_replicate (by decide)) (by simp) rfl)
    (Mem.Number.room (v := val (List.replicate (n + n) 9)) (number_block (ws := List.replicate (n + n) 9) rfl (wordsOk_replicate (by decide)) (by simp) rfl)) (apart_blocks (by decide))

/-- `divide(lhs, lhsLength, rhs, rhsLength, bits, bitsLength)` with a divisor whose top word is
not zero: quotient in `bits`, remainder in `lhs`. -/
theorem C57_divide (m : Mem) (lhs rhs bits : Ptr) (n k x y : Nat) (hk : 1 ≤ k) (hkn : k ≤ n)
    (hx : m.Number lhs n x) (hy : m.Number rhs k y) (htop : 2 ^ (32 * (k - 1)) ≤ y) (hb : m.Room bits (n - k + 1))
    (hlr : Apart lhs n rhs k) (hl : Apart bits (n - k + 1) lhs n) (hr : Apart bits (n - k + 1) rhs k) :
    ∃ m', divideMem lhs n rhs k bits (n - k + 1) m = .ok m' ∧ m'.Number bits (n - k + 1) (x / y) ∧
      m'.Number lhs n (x % y) ∧ m.SameBut₂ m' lhs n bits (n - k + 1) := by
  obtain ⟨xs, rfl, wx, rfl, ax⟩ := hx.elim
  obtain ⟨ys, rfl, wy, rfl, ay⟩ := hy.elim
  have ib := hb.inB (by omega)
  have ix := hx.room.inB (by omega)
  obtain ⟨bs, lb, ab⟩ := ib.at
  have hbn : bs ≠ [] := List.ne_nil_of_length_pos (by omega)
  obtain ⟨r, q, e, lr, wr, vr, lq, wq, vq⟩ := divideCore_spec wx wy (List.ne_nil_of_length_pos (by omega)) (top_ne_zero wy htop) hkn
    (.inr lb)
  rw [if_neg hbn] at e
  have dl := hl.disj (by omega) (by omega)
  refine ⟨(m.write lhs r).write bits q, ?_, ?_, ?_, sameBut₂_write lr lq⟩
  · have h := divideMem_eq hk hkn (.inl lb) ax ay ab (hlr.disj (by omega) (by omega)) (by rw [lb]; exact dl)
      (by rw [lb]; exact hr.disj (by omega) (by omega))
    rw [lb, e, Res.ok_bind] at h
    exact h
  · exact number_of_at (at_write_self (by rw [InB_write, lq]; exact ib)) wq lq vq
  · exact number_of_at (at_write (by rw [lr, lq]; exact dl) (at_write_self (by rw [lr]; exact ix))) wr lr vr

example : ∃ m', divideMem ⟨0, 0⟩ 2 ⟨0, 2⟩ 1 ⟨0, 3⟩ 2 sampleMem = .ok m' ∧ m'.Number ⟨0, 3⟩ 2 ((2 ^ 64 - 1) / 7) ∧
    m'.Number ⟨0, 0⟩ 2 ((2 ^ 64 - 1) % 7) ∧ sampleMem.SameBut₂ m' ⟨0, 0⟩ 2 ⟨0, 3⟩ 2 :=
  C57_divide sampleMem ⟨0, 0⟩ ⟨0, 2⟩ ⟨0, 3⟩ 2 1 _ _ (by decide) (by decide) sample_lhs sample_rhs (by decide) (sample_room (by decide))
    (by intro i j hi hj; simp only; omega) (by intro i j hi hj; simp only; omega) (by intro i j hi hj; simp only; omega)

/-- The same call with `bits` null and `bitsLength` 0: only the remainder. -/
theorem C57_divide_remainder (m : Mem) (lhs rhs bits : Ptr) (n k x y : Nat) (hk : 1 ≤ k) (hkn : k ≤ n)
    (hx : m.Number lhs n x) (hy : m.Number rhs k y) (htop : 2 ^ (32 * (k - 1)) ≤ y) (hlr : Apart lhs n rhs k) :
    ∃ m', divideMem lhs n rhs k bits 0 m = .ok m' ∧ m'.Number lhs n (x % y) ∧ m.SameBut m' lhs n := by
  obtain ⟨xs, rfl, wx, rfl, ax⟩ := hx.elim
  obtain ⟨ys, rfl, wy, rfl, ay⟩ := hy.elim
  have ix := hx.room.inB (by omega)
  obtain ⟨r, q, e, lr, wr, vr, _⟩ := divideCore_spec wx wy (List.ne_nil_of_length_pos (by omega)) (top_ne_zero wy htop) hkn
    (bits := []) (.inl rfl)
  have h := divideMem_eq (bits := ⟨lhs.blk + rhs.blk + 1, 0⟩) (bs := []) hk hkn (.inr rfl) ax ay trivial
    (hlr.disj (by omega) (by omega)) (.inl (by simp only; omega)) (.inl (by simp only; omega))
  rw [e, Res.ok_bind, if_pos rfl] at h
  have hp : ∀ p q : Ptr, divideMem lhs xs.length rhs ys.length p 0 m = divideMem lhs xs.length rhs ys.length q 0 m :=
    fun _ _ => by simp only [divideMem, divideMemStep, ne_eq, not_true, if_false]
  exact ⟨_, (hp _ _).trans h, wrote ix lr wr vr⟩

example (p : Ptr) : ∃ m', divideMem ⟨0, 0⟩ 2 ⟨0, 2⟩ 1 p 0 sampleMem = .ok m' ∧
    m'.Number ⟨0, 0⟩ 2 ((2 ^ 64 - 1) % 7) ∧ sampleMem.SameBut m' ⟨0, 0⟩ 2 :=
  C57_divide_remainder sampleMem ⟨0, 0⟩ ⟨0, 2⟩ p 2 1 _ _ (by decide) (by decide) sample_lhs sample_rhs (by decide) (by intro i j hi hj; simp only; omega)

/-- The loop of `divide(uint_array, uint32_t)`. -/
theorem C57_divide_word (m : Mem) (lhs quotient : Ptr) (n x y : Nat) (hn : 1 ≤ n) (hy : 0 < y) (hy' : y < 2 ^ 32)
    (hx : m.Number lhs n x) (hb : m.Room quotient n) (hl : Apart quotient n lhs n) :
    ∃ m', divideWordMem lhs n y quotient m = .ok (x % y, m') ∧ m'.Number quotient n (x / y) ∧ m.SameBut m' quotient n := by
  obtain ⟨xs, rfl, wx, rfl, ax⟩ := hx.elim
  have ib := hb.inB (by omega)
  obtain ⟨q, c, e, l, w, hc, v⟩ := divWordLoop_spec wx hy hy'
  have h1 : val xs / y = val q := by
    rw [v, Nat.mul_comm, Nat.mul_add_div hy, Nat.div_eq_of_lt hc]; rfl
  have h2 : val xs % y = c := by
    rw [v, Nat.mul_comm, Nat.mul_add_mod, Nat.mod_eq_of_lt hc]
  exact ⟨_, by rw [divideWordMem_eq ax ib (hl.disj (by omega) (by omega)), e, Res.ok_bind, h2], wrote ib l w h1.symm⟩

example : ∃ m', divideWordMem ⟨0, 0⟩ 2 10 ⟨0, 3⟩ sampleMem = .ok ((2 ^ 64 - 1) % 10, m') ∧ m'.Number ⟨0, 3⟩ 2 ((2 ^ 64 - 1) / 10) ∧
    sampleMem.SameBut m' ⟨0, 3⟩ 2 :=
  C57_divide_word sampleMem ⟨0, 0⟩ ⟨0, 3⟩ 2 _ 10 (by decide) (by decide) (by decide) sample_lhs (sample_room (by decide)) (by intro i j hi hj; simp only; omega)

/-- The loop of `remainder(uint_array, uint32_t)`. -/
theorem C57_remainder_word (m : Mem) (lhs : Ptr) (n x y : Nat) (hy : 0 < y) (hy' : y < 2 ^ 32) (hx : m.Number lhs n x) :
    remainderWordMem lhs n y m = .ok (x % y) := by
  obtain ⟨xs, rfl, wx, rfl, ax⟩ := hx.elim
  rw [remainderWordMem_eq ax, remWordLoop_spec wx hy hy']

example : remainderWordMem ⟨0, 0⟩ 2 10 sampleMem = .ok 5 :=
  C57_remainder_word sampleMem ⟨0, 0⟩ 2 _ 10 (by decide) (by decide) sample_lhs

/-- The loop of `multiply(uint_array, uint32_t)`. -/
theorem C57_multiply_word (m : Mem) (lhs bits : Ptr) (n x y : Nat) (hn : 1 ≤ n) (hy' : y < 2 ^ 32)
    (hx : m.Number lhs n x) (hb : m.Room bits (n + 1)) (hl : Apart bits (n + 1) lhs n) :
    ∃ m', multiplyWordMem lhs n y bits m = .ok m' ∧ m'.Number bits (n + 1) (x * y) ∧ m.SameBut m' bits (n + 1) := by
  obtain ⟨xs, rfl, wx, rfl, ax⟩ := hx.elim
  have ib := hb.inB (by omega)
  obtain ⟨l, w, v⟩ := mulWordLoop_spec wx hy' (c := 0) (by omega)
  exact ⟨_, multiplyWordMem_eq ax ib (hl.disj (by omega) (by omega)), wrote ib l w v⟩

example : ∃ m', multiplyWordMem ⟨0, 0⟩ 2 10 ⟨0, 3⟩ sampleMem = .ok m' ∧ m'.Number ⟨0, 3⟩ 3 ((2 ^ 64 - 1) * 10) ∧
    sampleMem.SameBut m' ⟨0, 3⟩ 3 :=
  C57_multiply_word sampleMem ⟨0, 0⟩ ⟨0, 3⟩ 2 _ 10 (by decide) (by decide) sample_lhs (sample_room (by decide)) (by intro i j hi hj; simp only; omega)

/-- The loop of `add(uint_array, uint32_t)`. -/
theorem C57_add_word (m : Mem) (lhs bits : Ptr) (n x y : Nat) (hn : 1 ≤ n) (hy' : y < 2 ^ 32)
    (hx : m.Number lhs n x) (hb : m.Room bits (n + 1)) (hl : Apart bits (n + 1) lhs n) :
    ∃ m', addWordMem lhs n y bits m = .ok m' ∧ m'.Number bits (n + 1) (x + y) ∧ m.SameBut m' bits (n + 1) := by
  obtain ⟨xs, rfl, wx, rfl, ax⟩ := hx.elim
  have ib := hb.inB (by omega)
  have hne := List.ne_nil_of_length_pos (l := xs) (by omega)
  obtain ⟨r, e, l, w, v⟩ := addWord_spec hne wx hy'
  exact ⟨_, by rw [addWordMem_eq hne ax ib (hl.disj (by omega) (by omega)), e, Res.ok_bind], wrote ib l w v⟩

example : ∃ m', addWordMem ⟨0, 0⟩ 2 10 ⟨0, 3⟩ sampleMem = .ok m' ∧ m'.Number ⟨0, 3⟩ 3 ((2 ^ 64 - 1) + 10) ∧
    sampleMem.SameBut m' ⟨0, 3⟩ 3 :=
  C57_add_word sampleMem ⟨0, 0⟩ ⟨0, 3⟩ 2 _ 10 (by decide) (by decide) sample_lhs (sample_room (by decide)) (by intro i j hi hj; simp only; omega)

/-- The loop of `subtract(uint_array, uint32_t)`. -/
theorem C57_subtract_word (m : Mem) (lhs bits : Ptr) (n x y : Nat) (hn : 1 ≤ n) (hy' : y < 2 ^ 32) (hyx : y ≤ x)
    (hx : m.Number lhs n x) (hb : m.Room bits n) (hl : Apart bits n lhs n) :
    ∃ m', subtractWordMem lhs n y bits m = .ok m' ∧ m'.Number bits n (x - y) ∧ m.SameBut m' bits n := by
  obtain ⟨xs, rfl, wx, rfl, ax⟩ := hx.elim
  have ib := hb.inB (by omega)
  have hne := List.ne_nil_of_length_pos (l := xs) (by omega)
  obtain ⟨r, e, l, w, v⟩ := subtractWord_spec hne wx hy' hyx
  have h2 : xs.headD 0 ≥ y ∨ xs.length ≥ 2 := by
    by_cases h : xs.length ≥ 2
    · exact .inr h
    · obtain ⟨a, rfl⟩ := List.length_eq_one_iff.1 (show xs.length = 1 by omega)
      exact .inl (by simpa [val, digitsVal] using hyx)
  exact ⟨_, by rw [subtractWordMem_eq hne h2 ax ib (hl.disj (by omega) (by omega)), e, Res.ok_bind], wrote ib l w v⟩

example : ∃ m', subtractWordMem ⟨0, 0⟩ 2 10 ⟨0, 3⟩ sampleMem = .ok m' ∧ m'.Number ⟨0, 3⟩ 2 ((2 ^ 64 - 1) - 10) ∧
    sampleMem.SameBut m' ⟨0, 3⟩ 2 :=
  C57_subtract_word sampleMem ⟨0, 0⟩ ⟨0, 3⟩ 2 _ 10 (by decide) (by decide) (by decide) sample_lhs (sample_room (by decide)) (by intro i j hi hj; simp only; omega)

/-! The list functions of the other models are these routines run on separate arrays: same
result, same failure, for any words. -/

theorem C57_add_model (xs ys zs : List Nat) (bl : Nat) (h : ys.length ≤ xs.length) (hz : zs.length = xs.length + 1) :
    addMem ⟨0, 0⟩ xs.length ⟨1, 0⟩ ys.length ⟨2, 0⟩ bl [xs, ys, zs] = (addPtr xs ys bl >>= fun r => .ok [xs, ys, r]) := by
  rw [addMem_eq h at_block0 at_block1 (inB_block2 (by omega)) (.inl (by decide)) (.inl (by decide))]
  exact bind_congr_of_ok fun r hr => by rw [write_block2 (by rw [addPtr_length hr, hz])]

example : addMem ⟨0, 0⟩ 2 ⟨1, 0⟩ 1 ⟨2, 0⟩ 3 [[4294967295, 4294967295], [1], [7, 7, 7]] = .ok [[4294967295, 4294967295], [1], [0, 0, 1]] := by
  have h := C57_add_model [4294967295, 4294967295] [1] [7, 7, 7] 3 (by decide) rfl
  exact h.trans (by rename_i c; obtain ⟨d, s⟩ := c; cases d <;> cases s <;> decide +kernel)

theorem C57_subtract_model (xs ys zs : List Nat) (bl : Nat) (h : ys.length ≤ xs.length) (hz : zs.length = xs.length) :
    subtractMem ⟨0, 0⟩ xs.length ⟨1, 0⟩ ys.length ⟨2, 0⟩ bl [xs, ys, zs]
      = (subtractPtr xs ys bl >>= fun r => .ok [xs, ys, r]) := by
  rw [subtractMem_eq h at_block0 at_block1 (inB_block2 (by omega)) (.inl (by decide)) (.inl (by decide))]
  exact bind_congr_of_ok fun r hr => by rw [write_block2 (by rw [subtractPtr_length h hr, hz])]

example : subtractMem ⟨0, 0⟩ 2 ⟨1, 0⟩ 1 ⟨2, 0⟩ 2 [[0, 1], [1], [7, 7]] = .ok [[0, 1], [1], [4294967295, 0]] := by
  have h := C57_subtract_model [0, 1] [1] [7, 7] 2 (by decide) rfl
  exact h.trans (by rename_i c; obtain ⟨d, s⟩ := c; cases d <;> cases s <;> decide +kernel)

theorem C57_multiply_model (xs ys zs : List Nat) (h : ys.length ≤ xs.length) (hz : zs.length = xs.length + ys.length) :
    mulMem ⟨0, 0⟩ xs.length ⟨1, 0⟩ ys.length ⟨2, 0⟩ zs.length [xs, ys, zs]
      = (mulCore xs ys zs ys.length >>= fun r => .ok [xs, ys, r]) := by
  rw [mulMem_eq _ rfl rfl rfl rfl h hz at_block2 at_block0 at_block1 (.inl (by decide)) (.inl (by decide))]
  exact bind_congr_of_ok fun r hr => by rw [write_block2 (by rw [mulCore_length _ rfl rfl h hz hr])]

example : mulMem ⟨0, 0⟩ 2 ⟨1, 0⟩ 1 ⟨2, 0⟩ 3 [[0, 1], [5], [0, 0, 0]] = .ok [[0, 1], [5], [0, 5, 0]] := by
  have h := C57_multiply_model [0, 1] [5] [0, 0, 0] (by decide) rfl
  exact h.trans (by rename_i c; obtain ⟨d, s⟩ := c; cases d <;> cases s <;> decide +kernel)

theorem C57_square_model (xs zs : List Nat) (hz : zs.length = xs.length + xs.length) :
    sqMem ⟨0, 0⟩ xs.length ⟨1, 0⟩ zs.length [xs, zs] = (sqCore xs zs xs.length >>= fun r => .ok [xs, r]) := by
  rw [sqMem_eq _ rfl rfl rfl hz at_block1 at_block0 (.inl (by decide))]
  exact bind_congr_of_ok fun r hr => by rw [write_block1 (by rw [sqCore_length _ rfl rfl hz hr])]

example : sqMem ⟨0, 0⟩ 2 ⟨1, 0⟩ 4 [[3, 1], [7, 7, 7, 7]] = .ok [[3, 1], [9, 6, 1, 0]] := by
  have h := C57_square_model [3, 1] [7, 7, 7, 7] rfl
  exact h.trans (by rename_i c; obtain ⟨d, s⟩ := c; cases d <;> cases s <;> decide +kernel)

theorem C57_divide_model (xs ys zs : List Nat) (hy : 1 ≤ ys.length) (h : ys.length ≤ xs.length)
    (hz : zs.length = xs.length - ys.length + 1 ∨ zs = []) :
    divideMem ⟨0, 0⟩ xs.length ⟨1, 0⟩ ys.length ⟨2, 0⟩ zs.length [xs, ys, zs]
      = (divideCore xs ys zs >>= fun r => .ok [r.1, ys, r.2]) := by
  rw [divideMem_eq hy h hz at_block0 at_block1 at_block2 (.inl (by decide)) (.inl (by decide)) (.inl (by decide))]
  exact bind_congr_of_ok fun r hr => by
    obtain ⟨h1, h2⟩ := divideCore_length h hr
    rw [write_block0 h1, write_block2 h2]

example : divideMem ⟨0, 0⟩ 2 ⟨1, 0⟩ 1 ⟨2, 0⟩ 2 [[5, 1], [2], [7, 7]] = .ok [[1, 0], [2], [2147483650, 0]] := by
  have h := C57_divide_model [5, 1] [2] [7, 7] (by decide) (by decide) (.inl rfl)
  exact h.trans (by rename_i c; obtain ⟨d, s⟩ := c; cases d <;> cases s <;> decide +kernel)

end BigIntegerCpp
