import Verif.Model.Core
import Mathlib.Tactic.Ring
import Mathlib.Tactic.Linarith
import Mathlib.Tactic.NormNum
import Mathlib.Tactic.LinearCombination
/-
Helper lemmas: values of word lists, truncations, bounds-checked access.
-/
namespace BigIntegerCpp

/-! ### machine integers -/

theorem u32_lt (n : Nat) : u32 n < 4294967296 := Nat.mod_lt _ (by decide)
theorem u64_lt (n : Nat) : u64 n < 18446744073709551616 := Nat.mod_lt _ (by decide)
theorem u32_of_lt {n : Nat} (h : n < 4294967296) : u32 n = n := Nat.mod_eq_of_lt h
theorem u64_of_lt {n : Nat} (h : n < 18446744073709551616) : u64 n = n := Nat.mod_eq_of_lt h
theorem u32_add_div (n : Nat) : u32 n + 4294967296 * (n / 4294967296) = n := by
  unfold u32; omega
theorem u32i_lt (z : Int) : u32i z < 4294967296 := by unfold u32i; omega
theorem u32i_add_div (z : Int) : (u32i z : Int) + 4294967296 * (z / 4294967296) = z := by
  unfold u32i; omega
theorem u32i_of_range {z : Int} (h0 : 0 ≤ z) (h1 : z < 4294967296) : (u32i z : Int) = z := by
  unfold u32i; omega
theorem u32i_natCast {n : Nat} (h : n < 4294967296) : u32i (n : Int) = n := by
  unfold u32i; omega
theorem u64i_lt (z : Int) : u64i z < 18446744073709551616 := by unfold u64i; omega
theorem u64i_natCast {n : Nat} (h : n < 18446744073709551616) : u64i (n : Int) = n := by
  unfold u64i; omega
theorem u64sub_of_le {a b : Nat} (h : b ≤ a) (ha : a < 18446744073709551616) : u64sub a b = a - b := by
  unfold u64sub u64i; omega
theorem u32sub_of_le {a b : Nat} (h : b ≤ a) (ha : a < 4294967296) : u32sub a b = a - b := by
  unfold u32sub u32i; omega

theorem long_ok {z : Int} (h : -9223372036854775808 ≤ z) (h' : z < 9223372036854775808) :
    long z = .ok z := by simp [long, h, h']
theorem int_ok {z : Int} (h : -2147483648 ≤ z) (h' : z < 2147483648) : int z = .ok z := by
  simp [int, h, h']
theorem sizeInt_ok {n : Nat} (h : n < 2147483648) : sizeInt n = .ok n := by simp [sizeInt, h]
theorem cabs_ok {z : Int} (h : z ≠ -2147483648) : cabs z = .ok z.natAbs := by simp [cabs, h]

/-! ### values of digit lists -/

@[simp] theorem digitsVal_nil (b : Nat) : digitsVal b [] = 0 := rfl
theorem digitsVal_cons (b w : Nat) (ws : List Nat) : digitsVal b (w :: ws) = w + b * digitsVal b ws := rfl

theorem digitsVal_append (b : Nat) (xs ys : List Nat) :
    digitsVal b (xs ++ ys) = digitsVal b xs + b ^ xs.length * digitsVal b ys := by
  induction xs with
  | nil => simp
  | cons x xs ih => simp only [List.cons_append, digitsVal_cons, ih, List.length_cons, pow_succ]; ring

theorem digitsVal_replicate_zero (b n : Nat) : digitsVal b (List.replicate n 0) = 0 := by
  induction n with
  | zero => rfl
  | succ n ih => simp [List.replicate_succ, digitsVal_cons, ih]

theorem digitsVal_lt {b : Nat} (_hb : 0 < b) {xs : List Nat} (h : ∀ w ∈ xs, w < b) :
    digitsVal b xs < b ^ xs.length := by
  induction xs with
  | nil => simp
  | cons x xs ih =>
    have hx := h x (by simp)
    have := ih (fun w hw => h w (by simp [hw]))
    simp only [digitsVal_cons, List.length_cons, pow_succ]
    calc x + b * digitsVal b xs < b + b * digitsVal b xs := by omega
      _ = b * (digitsVal b xs + 1) := by ring
      _ ≤ b * b ^ xs.length := Nat.mul_le_mul_left _ this
      _ = b ^ xs.length * b := by ring

@[simp] theorem val_nil : val [] = 0 := rfl
theorem val_cons (w : Nat) (ws : List Nat) : val (w :: ws) = w + 𝔹 * val ws := rfl
@[simp] theorem val_singleton (w : Nat) : val [w] = w := by simp [val_cons]
theorem val_append (xs ys : List Nat) : val (xs ++ ys) = val xs + 𝔹 ^ xs.length * val ys :=
  digitsVal_append _ xs ys
@[simp] theorem val_replicate_zero (n : Nat) : val (List.replicate n 0) = 0 :=
  digitsVal_replicate_zero _ n
theorem val_lt {xs : List Nat} (h : WordsOk xs) : val xs < 𝔹 ^ xs.length :=
  digitsVal_lt (by decide) h

theorem wordsOk_nil : WordsOk [] := by simp [WordsOk]
theorem wordsOk_cons {x : Nat} {xs : List Nat} : WordsOk (x :: xs) ↔ x < 4294967296 ∧ WordsOk xs := by
  simp [WordsOk]
theorem wordsOk_append {xs ys : List Nat} : WordsOk (xs ++ ys) ↔ WordsOk xs ∧ WordsOk ys := by
  simp only [WordsOk, List.mem_append]
  constructor
  · intro h; exact ⟨fun w hw => h w (.inl hw), fun w hw => h w (.inr hw)⟩
  · rintro ⟨h1, h2⟩ w (h | h); exacts [h1 w h, h2 w h]
theorem WordsOk.take {xs : List Nat} (h : WordsOk xs) (n : Nat) : WordsOk (xs.take n) :=
  fun w hw => h w (List.mem_of_mem_take hw)
theorem WordsOk.drop {xs : List Nat} (h : WordsOk xs) (n : Nat) : WordsOk (xs.drop n) :=
  fun w hw => h w (List.mem_of_mem_drop hw)
theorem wordsOk_replicate_zero (n : Nat) : WordsOk (List.replicate n 0) := by
  intro w hw; rw [List.eq_of_mem_replicate hw]; decide

theorem val_take_add_drop (xs : List Nat) (n : Nat) (h : n ≤ xs.length) :
    val (xs.take n) + 𝔹 ^ n * val (xs.drop n) = val xs := by
  conv_rhs => rw [← List.take_append_drop n xs, val_append]
  rw [List.length_take, Nat.min_eq_left h]

theorem val_inj {xs ys : List Nat} (hx : WordsOk xs) (hy : WordsOk ys)
    (hl : xs.length = ys.length) (hv : val xs = val ys) : xs = ys := by
  induction xs generalizing ys with
  | nil => cases ys with
    | nil => rfl
    | cons => simp at hl
  | cons x xs ih => cases ys with
    | nil => simp at hl
    | cons y ys =>
      rw [wordsOk_cons] at hx hy
      simp only [val_cons] at hv
      have h1 : x = y := by omega
      have h2 : val xs = val ys := by omega
      rw [h1, ih hx.2 hy.2 (by simpa using hl) h2]

/-! ### access -/

theorem idx_eq {α : Type} {a : List α} {i : Nat} (h : i < a.length) : idx a i = .ok a[i] := by
  simp [idx, h]
theorem slice_ok {α : Type} {a : List α} {off len : Nat} (h : off + len ≤ a.length) :
    slice a off len = .ok ((a.drop off).take len) := by simp [slice, h]
theorem slice_prefix {α : Type} {a : List α} {len : Nat} (h : len ≤ a.length) :
    slice a 0 len = .ok (a.take len) := by simp [slice, h]
theorem slice_suffix {α : Type} {a : List α} {off : Nat} (h : off ≤ a.length) :
    slice a off (a.length - off) = .ok (a.drop off) := by
  rw [slice_ok (by omega)]
  congr 1
  rw [List.take_of_length_le]; simp
theorem slice_all {α : Type} (a : List α) : slice a 0 a.length = .ok a := by
  simp [slice]
theorem put_ok {α : Type} {a : List α} {i : Nat} (v : α) (h : i < a.length) :
    put a i v = .ok (a.set i v) := by simp [put, h]

end BigIntegerCpp
