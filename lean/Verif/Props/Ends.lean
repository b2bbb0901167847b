import Verif.Lemmas.Convert
import Verif.Lemmas.Ends
import Verif.Props.Samples
/-
C59: how calls end.  `Res.Only` (EndsSpec.lean): the call does not run for ever, and lets out no
exception but the ones listed.  There is no limit on the sizes of the operands anywhere in this
file.  At sizes where the `int` arithmetic of the library overflows, a call may end in
undefined behaviour; this file then says that the model finds no other exception and no endless
loop before that point.
-/
namespace BigIntegerCpp
open Samples
variable [Cfg]

theorem nonzero_word {b : BigInt} (hb : b.Valid) (h : b.toInt ≠ 0) : b.bits = [] → b.sign ≠ 0 :=
  fun _ h0 => h ((BigInt.Denotes.sign_zero ⟨hb, rfl⟩).1 h0)

/-- Operators other than `/` and `%`, for any two object states. -/
theorem C59_arithmetic (op : BinOp) (h : op ≠ .div ∧ op ≠ .rem) (a b : BigInt) : (op.apply a b).Only [] := by
  cases op
  · exact BigInt.add_only
  · exact BigInt.sub_only
  · exact BigInt.mul_only
  · exact (h.1 rfl).elim
  · exact (h.2 rfl).elim
  · exact BigInt.and_only
  · exact BigInt.or_only
  · exact BigInt.xor_only
example : (neg3.mul pos2).Only [] := C59_arithmetic .mul (by decide) neg3 pos2

/-- Negation, complement, absolute value, increment, decrement. -/
theorem C59_unary (a : BigInt) :
    (∀ op : UnOp, (op.apply a).Only []) ∧ a.inc.Only [] ∧ a.dec.Only [] ∧ a.postInc.Only [] ∧ a.postDec.Only [] := by
  refine ⟨fun op => ?_, BigInt.inc_only, BigInt.dec_only, BigInt.postInc_only, BigInt.postDec_only⟩
  cases op
  · exact Res.Out.ok
  · exact BigInt.neg_only
  · exact BigInt.plus_only
  · exact BigInt.compl_only
  · exact BigInt.abs_only
example : neg3.neg.Only [] := (C59_unary neg3).1 .neg

/-- Shifts by any amount. -/
theorem C59_shifts (a : BigInt) (n : Int) : (a.shl n).Only [] ∧ (a.shr n).Only [] := ⟨BigInt.shl_only, BigInt.shr_only⟩
example : (neg3.shr (-2147483648)).Only [] := (C59_shifts neg3 _).2

/-- Comparisons, `equals`, `max`, `min`. -/
theorem C59_comparisons (a b : BigInt) :
    (∀ r : Rel, (r.apply a b).Only []) ∧ (a.compareTo b).Only [] ∧ (a.max b).Only [] ∧ (a.min b).Only [] := by
  refine ⟨fun r => ?_, BigInt.compareTo_only, BigInt.max_only, BigInt.min_only⟩
  cases r
  · exact BigInt.lt_only
  · exact BigInt.le_only
  · exact BigInt.gt_only
  · exact BigInt.ge_only
  · exact BigInt.equals_only
  · exact BigInt.ne_only
example : (neg3.le pos2).Only [] := (C59_comparisons neg3 pos2).1 .le

/-- Queries.  (`get_hash_code` is a plain function in the model.) -/
theorem C59_queries (a : BigInt) : a.isZero.Only [] ∧ a.isOne.Only [] ∧ a.isEven.Only [] ∧ a.isPowerOfTwo.Only [] ∧
    a.signum.Only [] ∧ a.bitLength.Only [] ∧ a.toUInt32Array.Only [] ∧ a.toDouble.Only [] :=
  ⟨BigInt.isZero_only, BigInt.isOne_only, BigInt.isEven_only, BigInt.isPowerOfTwo_only, BigInt.signum_only,
    BigInt.bitLength_only, BigInt.toUInt32Array_only, BigInt.toDouble_only⟩
example : neg3.bitLength.Only [] := (C59_queries neg3).2.2.2.2.2.1

/-- Logarithms, whatever the arithmetic rounds to. -/
theorem C59_log [Fpu] (a : BigInt) (base : Dbl) : (a.log base).Only [] := BigInt.log_only
example [Fpu] : (neg3.log (.fin 2)).Only [] := C59_log _ _

/-- Division by a canonical divisor: nothing but the division-by-zero exception, and not even that
unless the divisor is zero. -/
theorem C59_division (a b : BigInt) (hb : b.Valid) :
    ((a.div b).Only [.divideByZero] ∧ (a.rem b).Only [.divideByZero] ∧ (a.divRem b).Only [.divideByZero]) ∧
    (b.toInt ≠ 0 → (a.div b).Only [] ∧ (a.rem b).Only [] ∧ (a.divRem b).Only []) := by
  refine ⟨⟨BigInt.div_only hb.words (.inr (by decide)), BigInt.rem_only hb.words (.inr (by decide)), BigInt.divRem_only hb.words (.inr (by decide))⟩, fun h => ?_⟩
  have h := nonzero_word hb h
  exact ⟨BigInt.div_only hb.words (.inl h), BigInt.rem_only hb.words (.inl h), BigInt.divRem_only hb.words (.inl h)⟩
example : (neg3.div pos2).Only [] := ((C59_division neg3 pos2 pos2_denotes.1).2 (by rw [pos2_denotes.2]; decide)).1
/-- The exception listed does occur. -/
example : (BigInt.div ⟨5, []⟩ ⟨0, []⟩) = .throw .divideByZero := by
  rename_i c; obtain ⟨d, s⟩ := c; cases d <;> cases s <;> decide +kernel

/-- `pow` of a canonical base: out-of-range only for a negative exponent, overflow otherwise. -/
theorem C59_pow (a : BigInt) (ha : a.Valid) (n : Int) :
    (a.pow n).Only [.outOfRange, .overflowError] ∧ (0 ≤ n → (a.pow n).Only [.overflowError]) :=
  ⟨BigInt.pow_only ha (.inr (by decide)) (by decide), fun h => BigInt.pow_only ha (.inl h) (by decide)⟩
example : (neg3.pow 1000).Only [.overflowError] := (C59_pow neg3 neg3_denotes.1 1000).2 (by decide)
example : (BigInt.pow ⟨5, []⟩ (-1)) = .throw .outOfRange := by
  rename_i c; obtain ⟨d, s⟩ := c; cases d <;> cases s <;> decide +kernel

/-- `mod_pow` of canonical base and modulus: out-of-range only for a negative exponent, division by
zero only for modulus zero. -/
theorem C59_mod_pow (a e m : BigInt) (ha : a.Valid) (he : e.Valid) (hm : m.Valid) :
    (a.modPow e m).Only [.outOfRange, .divideByZero] ∧
    (0 ≤ e.toInt → (a.modPow e m).Only [.divideByZero]) ∧
    (m.toInt ≠ 0 → (a.modPow e m).Only [.outOfRange]) ∧
    (0 ≤ e.toInt → m.toInt ≠ 0 → (a.modPow e m).Only []) := by
  have hs : 0 ≤ e.toInt → 0 ≤ e.sign := fun h => by have := BigInt.Denotes.sign_neg (b := e) ⟨he, rfl⟩; omega
  exact ⟨BigInt.modPow_only ha hm (.inr (by decide)) (.inr (by decide)),
    fun h => BigInt.modPow_only ha hm (.inl (hs h)) (.inr (by decide)),
    fun h => BigInt.modPow_only ha hm (.inr (by decide)) (.inl (nonzero_word hm h)),
    fun h h' => BigInt.modPow_only ha hm (.inl (hs h)) (.inl (nonzero_word hm h'))⟩
example : (neg3.modPow pos2 neg3).Only [] :=
  (C59_mod_pow neg3 pos2 neg3 neg3_denotes.1 pos2_denotes.1 neg3_denotes.1).2.2.2 (by rw [pos2_denotes.2]; decide) (by rw [neg3_denotes.2]; decide)
example : (BigInt.modPow ⟨5, []⟩ ⟨2, []⟩ ⟨0, []⟩) = .throw .divideByZero ∧ (BigInt.modPow ⟨5, []⟩ ⟨-2, []⟩ ⟨7, []⟩) = .throw .outOfRange := by
  rename_i c; obtain ⟨d, s⟩ := c; cases d <;> cases s <;> decide +kernel

/-- `greatest_common_divisor` of canonical operands throws nothing. -/
theorem C59_gcd_throws_nothing (a b : BigInt) (ha : a.Valid) (hb : b.Valid) (fuel : Nat) (e : Exn) : BigInt.gcd fuel a b ≠ .throw e := fun h => by
  have := (BigInt.gcd_only (D := True) (E := []) (fuel := fuel) ha hb fun _ _ => trivial).2 e h
  simp at this
/-- It ends if one of the operands is below `2^64` in magnitude.  Missing from the full claim: the
other pairs, on some of which it runs for ever (`C20_refuted`). -/
theorem C59_gcd_partial (a b : BigInt) (ha : a.Valid) (hb : b.Valid) (h : |a.toInt| < 2 ^ 64 ∨ |b.toInt| < 2 ^ 64) (fuel : Nat) :
    (BigInt.gcd fuel a b).Only [] := by
  refine BigInt.gcd_only ha hb fun h1 h2 => ?_
  have key : ∀ {c : BigInt}, c.Valid → 2 < c.bits.length → ¬ |c.toInt| < 2 ^ 64 := by
    intro c hc hl
    obtain ⟨s, ws⟩ := c
    have hne : ws ≠ [] := by rintro rfl; simp at hl
    have h2 : 18446744073709551616 ≤ val ws := BigInt.val_three hc.topNonzero hl
    rcases hc.unit hne with rfl | rfl <;> · rw [BigInt.toInt, if_neg hne]; simp only [abs_mul]; norm_num; exact_mod_cast h2
  exact h.elim (key ha h1) (key hb h2)
example : (BigInt.gcd 5 neg3 ⟨12, []⟩).Only [] :=
  C59_gcd_partial neg3 ⟨12, []⟩ neg3_denotes.1 (BigInt.denotes_small (by decide) (by decide)).1 (.inr (by decide)) 5
example (fuel : Nat) : BigInt.gcd fuel neg3 pos2 ≠ .throw .overflowError := C59_gcd_throws_nothing neg3 pos2 neg3_denotes.1 pos2_denotes.1 _ _

/-- Constructors, given anything. -/
theorem C59_constructors (z : Int) (n : Nat) (ws : List Nat) (f g : Bool) :
    (ofInt32 z).Only [] ∧ (ofUInt32 n).Only [] ∧ (ofInt64 z).Only [] ∧ (ofUInt64 n).Only [] ∧ (ofParts z ws).Only [] ∧
    (ofMagnitude ws f).Only [] ∧ (ofBytes ws f g).Only [] :=
  ⟨ofInt32_only, ofUInt32_only, ofInt64_only, ofUInt64_only, ofParts_only, ofMagnitude_only, ofBytes_only⟩
example : (ofBytes [1, 2, 3, 4, 128] false true).Only [] := (C59_constructors 0 0 _ _ _).2.2.2.2.2.2

/-- `BigInteger(double)`: overflow only for infinities and NaN. -/
theorem C59_double (d : Nat) : (ofDouble d).Only [.overflowError] ∧ (doubleIsFinite d → (ofDouble d).Only []) :=
  ⟨ofDouble_only (.inr (by decide)), fun h => ofDouble_only (.inl h)⟩
example : (ofDouble 0x4059000000000000).Only [] := (C59_double _).2 (by decide +kernel)
example : ofDouble 0x7FF0000000000000 = .throw .overflowError := by
  rename_i c; obtain ⟨d, s⟩ := c; cases d <;> cases s <;> decide +kernel

/-- Casts to built-in integers and `to_string`: overflow only. -/
theorem C59_conversions (a : BigInt) : a.toInt32.Only [.overflowError] ∧ a.toUInt32.Only [.overflowError] ∧
    a.toLong.Only [.overflowError] ∧ a.toULong.Only [.overflowError] ∧ a.toStr.Only [.overflowError] :=
  ⟨BigInt.toInt32_only (by decide), BigInt.toUInt32_only (by decide), BigInt.toLong_only (by decide), BigInt.toULong_only (by decide),
    BigInt.toStr_only (by decide)⟩
example : neg3.toStr.Only [.overflowError] := (C59_conversions neg3).2.2.2.2
example : neg3.toInt32 = .throw .overflowError := by
  rename_i c; obtain ⟨d, s⟩ := c; cases d <;> cases s <;> decide +kernel

/-- Serialisation: the runtime error only for an unsigned form of a negative value. -/
theorem C59_bytes (a : BigInt) (ha : a.Valid) (u be : Bool) :
    ((a.toBytes u be).Only [.runtimeError] ∧ (a.byteCount u).Only [.runtimeError]) ∧
    (u = false ∨ 0 ≤ a.toInt → (a.toBytes u be).Only [] ∧ (a.byteCount u).Only []) := by
  refine ⟨⟨BigInt.toBytes_only (.inr (by decide)), BigInt.byteCount_only (.inr (by decide))⟩, fun h => ?_⟩
  have h : u = true → 0 ≤ a.sign := fun hu => by
    have := BigInt.Denotes.sign_neg (b := a) ⟨ha, rfl⟩
    rcases h with rfl | h
    · cases hu
    · omega
  exact ⟨BigInt.toBytes_only (.inl h), BigInt.byteCount_only (.inl h)⟩
example : (neg3.toBytes false true).Only [] := ((C59_bytes neg3 neg3_denotes.1 false true).2 (.inl rfl)).1
example : neg3.toBytes true true = .throw .runtimeError := by
  rename_i c; obtain ⟨d, s⟩ := c; cases d <;> cases s <;> decide +kernel

/-- Parsing, of any text of any length. -/
theorem C59_parse (s : List Char) (result : BigInt) : (BigInt.parse s).Only [] ∧ (BigInt.tryParse s result).Only [] :=
  ⟨BigInt.parse_only, BigInt.tryParse_only⟩
example : (BigInt.parse "12x".toList).Only [] := (C59_parse _ zeroInt).1

/-- So `try_parse` never reports failure, whatever the text and however long: if it returns, it
returns true (compare `C33_always_true`). -/
theorem C33_never_false (s : List Char) (result b : BigInt) (f : Bool) (h : BigInt.tryParse s result = .ok (f, b)) : f = true := by
  unfold BigInt.tryParse at h
  split at h
  · cases h; rfl
  · next e he => exact absurd ((C59_parse s result).1.2 e he) (by simp)
  all_goals cases h
example : ∃ b, BigInt.tryParse "4x".toList zeroInt = .ok (true, b) := by
  rename_i c; obtain ⟨d, s⟩ := c; cases d <;> cases s <;> exact ⟨_, rfl⟩

/-- The Python constructor from an `int`. -/
theorem C59_python (v : PyInt) : (toBigInteger v).Only [] := toBigInteger_only
example : (toBigInteger ⟨-(2 ^ 200), false, nofun⟩).Only [] := C59_python _

/-- Statements on canonical objects, aliased or not. -/
theorem C59_statement (s : Stmt) (σ : Store) (hσ : ∀ i, (σ i).Valid) :
    (s.exec σ).1.Only [.divideByZero, .outOfRange, .overflowError] :=
  s.exec_only hσ (by decide) (by decide) (by decide)
example : ((Stmt.divRem 0 0 0 0).exec fun _ => neg3).1.Only [.divideByZero, .outOfRange, .overflowError] :=
  C59_statement _ _ fun _ => neg3_denotes.1

/-- Programs without loops. -/
theorem C59_program (p : Prog) (hl : p.LoopFree) (hp : p.LiteralsOk) (σ : Store) (hσ : ∀ i, (σ i).Valid) :
    ∃ n, ∀ fuel, n ≤ fuel → (p.exec fuel σ).1.Only [.divideByZero, .outOfRange, .overflowError] :=
  ⟨p.depth, fun fuel h => p.exec_only fuel hl hp h hσ (by decide) (by decide) (by decide)⟩
example : (Prog.ifThen (.rel .lt 0 1) (.attempt (.stmt (.divRem 1 0 2 0))) (.stmt (.pow 0 0 5))).LoopFree ∧
    (Prog.ifThen (.rel .lt 0 1) (.attempt (.stmt (.divRem 1 0 2 0))) (.stmt (.pow 0 0 5))).LiteralsOk :=
  ⟨⟨trivial, trivial⟩, ⟨nofun, nofun, nofun⟩, nofun, nofun, nofun⟩
/-- A loop need not end. -/
example (fuel : Nat) : ((Prog.whileDo (.rel .eq 0 0) .skip).exec fuel fun _ => neg3).1 = .diverge := by
  have h : ((Cond.rel .eq 0 0).test fun _ => neg3) = .ok true := by
    rename_i c; obtain ⟨d, s⟩ := c; cases d <;> cases s <;> decide +kernel
  induction fuel with
  | zero => rfl
  | succ n ih =>
    rw [Prog.exec]
    show (Cmd.bind (Cmd.ask _) _ _).1 = _
    unfold Cmd.bind Cmd.ask
    rw [h]
    show (Cmd.bind (Prog.skip.exec n) _ _).1 = _
    cases n with
    | zero => rfl
    | succ n => exact ih

end BigIntegerCpp
