import Verif.Lemmas.PointerGcd
import Verif.Lemmas.ModPow
import Verif.Lemmas.GcdCount
import Verif.Props.Pointer
/-
C82: `pow`, `pow` modulo several words and `gcd` of several words
(src/BigIntegerCalculator/{BitsBuffer,FastReducer,PowMod,GcdInv}.cpp) on arrays that lie anywhere
in memory: what they return, and that every block is the same afterwards, none left behind.
-/
set_option linter.unusedSectionVars false
namespace BigIntegerCpp
open Mem
variable [Cfg]

theorem at_lt {m : Mem} {p : Ptr} {ws : List Nat} (h : m.At p ws) (hne : 1 ≤ ws.length) : p.blk < m.length := by
  have h1 := at_iff.1 h 0 (by omega)
  by_contra hc
  unfold Mem.load Mem.block at h1
  rw [List.getD_eq_default _ _ (by omega)] at h1
  cases h1

theorem at_words {m : Mem} {p : Ptr} {ws : List Nat} (h : m.At p ws) : m.Words p ws := fun i hi => word_of_load.1 (at_iff.1 h i hi)

theorem pow_word_mem (w p : Nat) (m : Mem) :
    Sim (fun ws q => q = (ws, m)) (powCalc (fun size => BitsBuffer.ofWord size w) 1 p) (powCalcMem (fun size => MBuf.ofWord size w) 1 p m) :=
  powCalc_sim 1 p (fun size => ofWord_sim size w m) fun _ _ h => ofWord_size h

theorem pow_words_mem {value : Ptr} {xs : List Nat} {m : Mem} (p : Nat) (hx : m.At value xs) (hb : value.blk < m.length) :
    Sim (fun ws q => q = (ws, m)) (powCalc (fun size => BitsBuffer.ofWords size xs) xs.length p)
      (powCalcMem (fun size => MBuf.ofWords size value xs.length) xs.length p m) :=
  powCalc_sim xs.length p (fun _ => ofWords_sim hx hb) fun _ _ h => ofWords_size h

/-- `pow(value, power)` for a value in `k` words: `x^p`, or `overflow_error` where the result
would need too many words; the memory is as before. -/
theorem C82_pow (m : Mem) (value : Ptr) (k x p : Nat) (hk : 1 ≤ k) (hk2 : k < 2 ^ 31) (hp : 1 ≤ p) (hx : m.Number value k x) :
    (1 + p * k < 2 ^ 31 - 1 →
      ∃ ws, powCalcMem (fun size => MBuf.ofWords size value k) k p m = .ok (ws, m) ∧ WordsOk ws ∧ val ws = x ^ p) ∧
    (2 ^ 31 - 1 ≤ 1 + p * k → powCalcMem (fun size => MBuf.ofWords size value k) k p m = .throw .overflowError) := by
  obtain ⟨xs, rfl, wx, rfl, ax⟩ := hx.elim
  have hs := pow_words_mem p ax (at_lt ax hk)
  have := powCalc_spec (mk := fun size => BitsBuffer.ofWords size xs) hp (val_lt wx) fun N _ hN =>
    BitsBuffer.ofWords_spec wx hk2 (Nat.le_trans (trimLen_le _) hN)
  refine ⟨fun h => ?_, fun h => ?_⟩
  · rw [if_pos (by simpa using h)] at this
    obtain ⟨ws, e, _, hw, hv⟩ := this
    refine ⟨ws, ?_, hw, hv⟩
    rw [hs.eq (by rw [e]; nofun) (f := fun ws => (ws, m)) fun _ _ _ h => h, e, Res.ok_bind]
  · rw [if_neg (by simpa using h)] at this
    rw [hs.eq (by rw [this]; nofun) (f := fun ws => (ws, m)) fun _ _ _ h => h, this]
    rfl

/-- `(2^64 - 1)^3`, the base in the first two words of a block of seven. -/
example : ∃ ws, powCalcMem (fun size => MBuf.ofWords size ⟨0, 0⟩ 2) 2 3 sampleMem = .ok (ws, sampleMem) ∧ WordsOk ws ∧ val ws = (2 ^ 64 - 1) ^ 3 :=
  (C82_pow sampleMem ⟨0, 0⟩ 2 _ 3 (by decide) (by decide) (by decide) sample_lhs).1 (by decide)
example : powCalcMem (fun size => MBuf.ofWords size ⟨0, 0⟩ 2) 2 (2 ^ 30) sampleMem = .throw .overflowError :=
  (C82_pow sampleMem ⟨0, 0⟩ 2 _ (2 ^ 30) (by decide) (by decide) (by decide) sample_lhs).2 (by decide)

/-- `pow(value, power)` for a value of one word. -/
theorem C82_pow_word (m : Mem) (w p : Nat) (hw : w < 2 ^ 32) (hp : 1 ≤ p) :
    (1 + p < 2 ^ 31 - 1 →
      ∃ ws, powCalcMem (fun size => MBuf.ofWord size w) 1 p m = .ok (ws, m) ∧ WordsOk ws ∧ val ws = w ^ p) ∧
    (2 ^ 31 - 1 ≤ 1 + p → powCalcMem (fun size => MBuf.ofWord size w) 1 p m = .throw .overflowError) := by
  have hs := pow_word_mem w p m
  have := powCalc_spec (mk := fun size => BitsBuffer.ofWord size w) (len := 1) (v := w) hp (by simpa using hw) fun N hN _ =>
    BitsBuffer.ofWord_spec hN (by simpa using hw)
  rw [Nat.mul_one] at this
  refine ⟨fun h => ?_, fun h => ?_⟩
  · rw [if_pos (by simpa using h)] at this
    obtain ⟨ws, e, _, hw, hv⟩ := this
    refine ⟨ws, ?_, hw, hv⟩
    rw [hs.eq (by rw [e]; nofun) (f := fun ws => (ws, m)) fun _ _ _ h => h, e, Res.ok_bind]
  · rw [if_neg (by simpa using h)] at this
    rw [hs.eq (by rw [this]; nofun) (f := fun ws => (ws, m)) fun _ _ _ h => h, this]
    rfl

example : ∃ ws, powCalcMem (fun size => MBuf.ofWord size 10) 1 40 sampleMem = .ok (ws, sampleMem) ∧ WordsOk ws ∧ val ws = 10 ^ 40 :=
  (C82_pow_word sampleMem 10 40 (by decide) (by decide)).1 (by decide)
example : powCalcMem (fun size => MBuf.ofWord size 10) 1 (2 ^ 31) sampleMem = .throw .overflowError :=
  (C82_pow_word sampleMem 10 (2 ^ 31) (by decide) (by decide)).2 (by decide)

/-! ### with a modulus of several words -/

theorem mod_pow_mem {m : Mem} {value modulus : Ptr} {xs ms : List Nat} (p : Nat) (hx : m.At value xs) (hxb : value.blk < m.length)
    (hm : m.At modulus ms) (hms : 1 ≤ ms.length) :
    Sim (fun ws q => q = (ws, m)) (modPowBase xs ms >>= fun v => powCoreMod p ms v)
      (modPowMem (modPowBaseMem value xs.length modulus ms.length) (powCoreModMem p modulus ms.length) m) :=
  have hb := at_lt hm hms
  modPowMem_sim (modPowBase_sim hx hxb hm hb hms) fun V q hV hq =>
    powCoreMod_sim p hq.grows hq.holds (by rw [show q = _ from hq]) hm hb hms (modPowBase_size hV)

theorem mod_pow_words_mem {m : Mem} {value modulus : Ptr} {xs ms : List Nat} (ps : List Nat) (hx : m.At value xs) (hxb : value.blk < m.length)
    (hm : m.At modulus ms) (hms : 1 ≤ ms.length) :
    Sim (fun ws q => q = (ws, m)) (modPowBase xs ms >>= fun v => powCoreModWords ps ms v)
      (modPowMem (modPowBaseMem value xs.length modulus ms.length) (powCoreModWordsMem ps modulus ms.length) m) :=
  have hb := at_lt hm hms
  modPowMem_sim (modPowBase_sim hx hxb hm hb hms) fun V q hV hq =>
    powCoreModWords_sim ps hq.grows hq.holds (by rw [show q = _ from hq]) hm hb hms (modPowBase_size hV)

theorem base_value {xs ms : List Nat} (hx : WordsOk xs) (hw : WordsOk ms) (hne : ms ≠ []) (htop : ms.getLast? ≠ some 0)
    (hl : xs.length < 2147483648) (hl2 : ms.length + ms.length < 2147483648) :
    ∃ b v, modPowBase xs ms = .ok b ∧ Buf (ms.length + ms.length) b v ∧ v < 𝔹 ^ ms.length ∧ ∀ p, v ^ p % val ms = val xs ^ p % val ms := by
  obtain ⟨b, e, k⟩ := modPowBase_spec hx hw hne htop hl hl2
  have hm : 0 < val ms := by
    have := BigInt.val_lt_of_length (xs := []) wordsOk_nil hne htop (List.length_pos_iff.2 hne)
    simpa using this
  refine ⟨b, _, e, k, ?_, fun p => ?_⟩
  · by_cases h : xs.length > ms.length
    · rw [if_pos h]; exact lt_trans (Nat.mod_lt _ hm) (val_lt hw)
    · rw [if_neg h]; exact lt_of_lt_of_le (val_lt hx) (Nat.pow_le_pow_right (by decide) (by omega))
  · by_cases h : xs.length > ms.length
    · rw [if_pos h, ← Nat.pow_mod]
    · rw [if_neg h]

/-- `pow(value, power, modulus)` for a value in `k` and a modulus in `n` words, fewer than 32 of
them, the highest not zero: `x^p mod z`.  The two arrays may overlap or be the same. -/
theorem C82_mod_pow (m : Mem) (value modulus : Ptr) (k n x z p : Nat) (hk : 1 ≤ k) (hk2 : k < 2 ^ 31) (hn : 1 ≤ n) (hn2 : n < 32)
    (hx : m.Number value k x) (hz : m.Number modulus n z) (htop : 2 ^ (32 * (n - 1)) ≤ z) (h1 : 1 < z) :
    ∃ ws, modPowMem (modPowBaseMem value k modulus n) (powCoreModMem p modulus n) m = .ok (ws, m) ∧ WordsOk ws ∧ val ws = x ^ p % z := by
  obtain ⟨xs, rfl, wx, rfl, ax⟩ := hx.elim
  obtain ⟨ms, rfl, wm, rfl, am⟩ := hz.elim
  have hne : ms ≠ [] := List.length_pos_iff.1 hn
  have ht := top_ne_zero wm htop
  obtain ⟨b, v, e1, k1, k2, k3⟩ := base_value wx wm hne ht hk2 (by omega)
  obtain ⟨ws, e2, _, hw, hv⟩ := powCoreMod_spec wm hne ht hn2 h1 k1 k2 p
  have e : (modPowBase xs ms >>= fun v => powCoreMod p ms v) = .ok ws := by rw [e1, Res.ok_bind, e2]
  refine ⟨ws, ?_, hw, by rw [hv, k3]⟩
  rw [(mod_pow_mem p ax (at_lt ax hk) am hn).eq (by rw [e]; nofun) (f := fun ws => (ws, m)) fun _ _ _ h => h, e, Res.ok_bind]

/-- `pow(value, power, modulus)` for an exponent of several words. -/
theorem C82_mod_pow_words (m : Mem) (value modulus : Ptr) (k n x z : Nat) (ps : List Nat) (hk : 1 ≤ k) (hk2 : k < 2 ^ 31) (hn : 1 ≤ n) (hn2 : n < 32)
    (hx : m.Number value k x) (hz : m.Number modulus n z) (htop : 2 ^ (32 * (n - 1)) ≤ z) (h1 : 1 < z) (hp : WordsOk ps) (hpn : ps ≠ []) :
    ∃ ws, modPowMem (modPowBaseMem value k modulus n) (powCoreModWordsMem ps modulus n) m = .ok (ws, m) ∧ WordsOk ws ∧ val ws = x ^ val ps % z := by
  obtain ⟨xs, rfl, wx, rfl, ax⟩ := hx.elim
  obtain ⟨ms, rfl, wm, rfl, am⟩ := hz.elim
  have hne : ms ≠ [] := List.length_pos_iff.1 hn
  have ht := top_ne_zero wm htop
  obtain ⟨b, v, e1, k1, k2, k3⟩ := base_value wx wm hne ht hk2 (by omega)
  obtain ⟨ws, e2, _, hw, hv⟩ := powCoreModWords_spec wm hne ht hn2 h1 k1 k2 hp hpn
  have e : (modPowBase xs ms >>= fun v => powCoreModWords ps ms v) = .ok ws := by rw [e1, Res.ok_bind, e2]
  refine ⟨ws, ?_, hw, by rw [hv, k3]⟩
  rw [(mod_pow_words_mem ps ax (at_lt ax hk) am hn).eq (by rw [e]; nofun) (f := fun ws => (ws, m)) fun _ _ _ h => h, e, Res.ok_bind]

theorem sample_whole : sampleMem.Number ⟨0, 0⟩ 7 (val [4294967295, 4294967295, 7, 11, 12, 13, 14]) := ⟨_, rfl, by decide, rfl, by decide⟩
theorem sample_modulus : sampleMem.Number ⟨0, 3⟩ 2 (11 + 12 * 2 ^ 32) := ⟨[11, 12], rfl, by decide, by decide, by decide⟩

/-- The whole block to the power 1000, modulo two words in its middle. -/
example : ∃ ws, modPowMem (modPowBaseMem ⟨0, 0⟩ 7 ⟨0, 3⟩ 2) (powCoreModMem 1000 ⟨0, 3⟩ 2) sampleMem = .ok (ws, sampleMem) ∧ WordsOk ws ∧
    val ws = val [4294967295, 4294967295, 7, 11, 12, 13, 14] ^ 1000 % (11 + 12 * 2 ^ 32) :=
  C82_mod_pow sampleMem ⟨0, 0⟩ ⟨0, 3⟩ 7 2 _ _ 1000 (by decide) (by decide) (by decide) (by decide) sample_whole sample_modulus (by decide) (by decide)
example : ∃ ws, modPowMem (modPowBaseMem ⟨0, 0⟩ 2 ⟨0, 3⟩ 2) (powCoreModWordsMem [5, 1, 7] ⟨0, 3⟩ 2) sampleMem = .ok (ws, sampleMem) ∧ WordsOk ws ∧
    val ws = (2 ^ 64 - 1) ^ val [5, 1, 7] % (11 + 12 * 2 ^ 32) :=
  C82_mod_pow_words sampleMem ⟨0, 0⟩ ⟨0, 3⟩ 2 2 _ _ [5, 1, 7] (by decide) (by decide) (by decide) (by decide) sample_lhs sample_modulus (by decide) (by decide)
    (by decide) (by decide)

/-- For a modulus of any length, so also where the reducer is used: the routines in memory do what
the ones on lists do (the subject of C18), and change nothing, unless the latter access a vector
out of bounds. -/
theorem C82_mod_pow_model (m : Mem) (value modulus : Ptr) (xs ms ps : List Nat) (p : Nat) (hx : m.Words value xs) (hxn : 1 ≤ xs.length)
    (hm : m.Words modulus ms) (hms : 1 ≤ ms.length) :
    ((modPowBase xs ms >>= fun v => powCoreMod p ms v) ≠ .ub .outOfBounds →
      modPowMem (modPowBaseMem value xs.length modulus ms.length) (powCoreModMem p modulus ms.length) m =
        (modPowBase xs ms >>= fun v => powCoreMod p ms v) >>= fun ws => .ok (ws, m)) ∧
    ((modPowBase xs ms >>= fun v => powCoreModWords ps ms v) ≠ .ub .outOfBounds →
      modPowMem (modPowBaseMem value xs.length modulus ms.length) (powCoreModWordsMem ps modulus ms.length) m =
        (modPowBase xs ms >>= fun v => powCoreModWords ps ms v) >>= fun ws => .ok (ws, m)) :=
  ⟨fun h => (mod_pow_mem p hx.at (at_lt hx.at hxn) hm.at hms).eq h fun _ _ _ h => h,
    fun h => (mod_pow_words_mem ps hx.at (at_lt hx.at hxn) hm.at hms).eq h fun _ _ _ h => h⟩

/-- The power of one word, modulo an array of any length. -/
theorem C82_mod_pow_word_model (m : Mem) (modulus : Ptr) (w : Nat) (ms ps : List Nat) (p : Nat) (hm : m.Words modulus ms) (hms : 1 ≤ ms.length) :
    ((BitsBuffer.ofWord (ms.length + ms.length) w >>= fun v => powCoreMod p ms v) ≠ .ub .outOfBounds →
      modPowMem (MBuf.ofWord (ms.length + ms.length) w) (powCoreModMem p modulus ms.length) m =
        (BitsBuffer.ofWord (ms.length + ms.length) w >>= fun v => powCoreMod p ms v) >>= fun ws => .ok (ws, m)) ∧
    ((BitsBuffer.ofWord (ms.length + ms.length) w >>= fun v => powCoreModWords ps ms v) ≠ .ub .outOfBounds →
      modPowMem (MBuf.ofWord (ms.length + ms.length) w) (powCoreModWordsMem ps modulus ms.length) m =
        (BitsBuffer.ofWord (ms.length + ms.length) w >>= fun v => powCoreModWords ps ms v) >>= fun ws => .ok (ws, m)) :=
  have hb := at_lt hm.at hms
  ⟨fun h => (modPowMem_sim (ofWord_sim _ w m) fun _ q hV hq => powCoreMod_sim p hq.grows hq.holds (by rw [show q = _ from hq]) hm.at hb hms (ofWord_size hV)).eq h
      fun _ _ _ h => h,
    fun h => (modPowMem_sim (ofWord_sim _ w m) fun _ q hV hq => powCoreModWords_sim ps hq.grows hq.holds (by rw [show q = _ from hq]) hm.at hb hms (ofWord_size hV)).eq h
      fun _ _ _ h => h⟩

/-- A modulus of 32 words, for which the reducer is used. -/
def sampleWide : List Nat := List.replicate 31 7 ++ [4000000000]

example : modPowMem (modPowBaseMem ⟨0, 0⟩ 2 ⟨1, 0⟩ 32) (powCoreModMem 3 ⟨1, 0⟩ 32) [[1, 2], sampleWide] =
    (modPowBase [1, 2] sampleWide >>= fun v => powCoreMod 3 sampleWide v) >>= fun ws => .ok (ws, [[1, 2], sampleWide]) :=
  (C82_mod_pow_model [[1, 2], sampleWide] ⟨0, 0⟩ ⟨1, 0⟩ [1, 2] sampleWide [1, 1] 3 (by decide) (by decide) (by decide) (by decide)).1
    (by rename_i c; obtain ⟨d, s⟩ := c; cases d <;> cases s <;> decide +kernel)
example : modPowMem (MBuf.ofWord 64 1) (powCoreModWordsMem [1, 1] ⟨0, 0⟩ 32) [sampleWide] =
    (BitsBuffer.ofWord 64 1 >>= fun v => powCoreModWords [1, 1] sampleWide v) >>= fun ws => .ok (ws, [sampleWide]) :=
  (C82_mod_pow_word_model [sampleWide] ⟨0, 0⟩ 1 sampleWide [1, 1] 3 (by decide) (by decide)).2
    (by rename_i c; obtain ⟨d, s⟩ := c; cases d <;> cases s <;> decide +kernel)

/-! ### greatest common divisor -/

/-- `gcd(left, right)` for arrays in memory does what it does on lists (the subject of C19, C20,
C74), and changes nothing, unless the latter accesses a vector out of bounds. -/
theorem C82_gcd_model (fuel : Nat) (m : Mem) (left right : Ptr) (xs ys : List Nat) (hx : m.Words left xs) (hy : m.Words right ys)
    (hxn : 1 ≤ xs.length) (hyn : 1 ≤ ys.length) (h : gcdVec fuel xs ys ≠ .ub .outOfBounds) :
    gcdVecMem fuel left xs.length right ys.length m = gcdVec fuel xs ys >>= fun ws => .ok (ws, m) :=
  (gcdVec_sim fuel hx.at hy.at (at_lt hx.at hxn) (at_lt hy.at hyn)).eq h fun _ _ _ h => h

/-- Where Lehmer's guess is never taken, the result is the greatest common divisor. -/
theorem C82_gcd (m : Mem) (left right : Ptr) (k n x y : Nat) (hn : 2 ≤ n) (hk2 : k < 2 ^ 31) (hx : m.Number left k x) (hy : m.Number right n y)
    (htx : 2 ^ (32 * (k - 1)) ≤ x) (hty : 2 ^ (32 * (n - 1)) ≤ y) (hle : y ≤ x) (hE : EuclidOnly x y) (fuel : Nat) (hf : 64 * n ≤ fuel) :
    ∃ ws, gcdVecMem fuel left k right n m = .ok (ws, m) ∧ WordsOk ws ∧ val ws = Nat.gcd x y := by
  obtain ⟨xs, rfl, wx, rfl, ax⟩ := hx.elim
  obtain ⟨ys, rfl, wy, rfl, ay⟩ := hy.elim
  have tx := top_ne_zero wx htx
  have ty := top_ne_zero wy hty
  have hyl : val ys < 2 ^ (32 * ys.length) := by have := val_lt wy; rwa [Nat.pow_mul]
  have hxn : 1 ≤ xs.length := by
    by_contra hc
    have : xs = [] := List.length_eq_zero_iff.1 (by omega)
    subst this
    have h0 : 0 < 2 ^ (32 * (ys.length - 1)) := by positivity
    simp only [val_nil] at hle
    omega
  have hcount := euclidCount_le (val xs) hyl
  obtain ⟨ws, e, _, hw, hv⟩ := gcdVec_spec wx wy tx ty hn hk2 hle hE (fuel := fuel) (by omega)
  exact ⟨ws, by rw [C82_gcd_model fuel m left right xs ys (at_words ax) (at_words ay) hxn (by omega) (by rw [e]; nofun), e, Res.ok_bind], hw, hv⟩

/-- `2^160 + 1` and `2^100`, in one block. -/
example : ∃ ws, gcdVecMem 256 ⟨0, 0⟩ 6 ⟨0, 6⟩ 4 [[1, 0, 0, 0, 0, 1, 0, 0, 0, 16]] = .ok (ws, [[1, 0, 0, 0, 0, 1, 0, 0, 0, 16]]) ∧ WordsOk ws ∧
    val ws = Nat.gcd (2 ^ 160 + 1) (2 ^ 100) :=
  C82_gcd _ ⟨0, 0⟩ ⟨0, 6⟩ 6 4 _ _ (by decide) (by decide) ⟨[1, 0, 0, 0, 0, 1], rfl, by decide, by decide, by decide⟩
    ⟨[0, 0, 0, 16], rfl, by decide, by decide, by decide⟩ (by decide) (by decide) (by decide)
    (.step _ _ (by decide) (by unfold EuclidStep; decide +kernel) (.small _ _ (by decide))) 256 (by decide)
/-- `2^96` and `3 * 2^94`, where the guess is taken and the result is wrong (C19). -/
example : gcdVecMem 2 ⟨0, 0⟩ 4 ⟨1, 0⟩ 3 [[0, 0, 0, 1], [0, 0, 3221225472]] =
    gcdVec 2 [0, 0, 0, 1] [0, 0, 3221225472] >>= fun ws => .ok (ws, [[0, 0, 0, 1], [0, 0, 3221225472]]) :=
  C82_gcd_model 2 _ ⟨0, 0⟩ ⟨1, 0⟩ [0, 0, 0, 1] [0, 0, 3221225472] (by decide) (by decide) (by decide) (by decide)
    (by rename_i c; obtain ⟨d, s⟩ := c; cases d <;> cases s <;> decide +kernel)

end BigIntegerCpp
