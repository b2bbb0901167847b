import Mathlib.Data.Nat.ModEq
import Verif.Lemmas.Pow
/-
Lemmas about `mod_pow`: one-word moduli, moduli below the reducer threshold, and the part of the
`FastReducer` path on which nothing needs reducing.
-/
set_option linter.unusedSectionVars false
set_option linter.unnecessarySeqFocus false
namespace BigIntegerCpp
variable [Cfg]

/-! ### one-word moduli -/

theorem pow_split_mod (r v p m : Nat) :
    (r * v ^ p) % m = (r * v ^ (p % 2) % m * (v * v % m) ^ (p / 2)) % m := by
  conv_lhs => rw [pow_split v p, mul_comm ((v * v) ^ (p / 2)), ← mul_assoc]
  exact (((Nat.mod_modEq _ m).mul ((Nat.mod_modEq _ m).pow _)).symm : Nat.ModEq m _ _)

theorem powModWord_spec {m : Nat} (hm : 0 < m) (hm2 : m ≤ 4294967296) (p : Nat) {v r : Nat} (hv : v < 4294967296)
    (hr : r < 4294967296) : powModWord p m v r = .ok ((r * v ^ p) % m) := by
  induction p using Nat.strongRecOn generalizing v r with
  | ind p ih =>
  rw [powModWord]
  by_cases h0 : p = 0
  · subst h0
    rw [dif_pos rfl, if_neg (by omega), u32_of_lt (lt_of_lt_of_le (Nat.mod_lt _ hm) hm2)]; simp
  rw [dif_neg h0]
  have hmul : ∀ a b : Nat, a < 4294967296 → b < 4294967296 → u64 (a * b) = a * b := fun a b ha hb =>
    u64_of_lt (lt_of_le_of_lt (mul_lt_sq ha hb) (by norm_num))
  obtain ⟨r', e1, e2, e3⟩ : ∃ r', (if p % 2 = 1 then
        if m = 0 then .throw .divideByZero else .ok (u64 (r * v) % m) else .ok r : Res Nat) = .ok r' ∧
        r' % m = r * v ^ (p % 2) % m ∧ r' < 4294967296 := by
    by_cases h : p % 2 = 1
    · refine ⟨r * v % m, ?_, by rw [h, pow_one, Nat.mod_mod], lt_of_lt_of_le (Nat.mod_lt _ hm) hm2⟩
      rw [if_pos h, if_neg (by omega), hmul _ _ hr hv]
    · exact ⟨r, by rw [if_neg h], by rw [show p % 2 = 0 by omega]; simp, hr⟩
  rw [e1, Res.ok_bind]
  by_cases hp1 : p = 1
  · subst hp1
    rw [if_neg (by simp), Res.ok_bind, ih (1 / 2) (by omega) hv e3]
    simp at e2 ⊢
    exact e2
  · rw [if_pos hp1, if_neg (by omega), hmul _ _ hv hv, Res.ok_bind,
      ih (p / 2) (by omega) (lt_of_lt_of_le (Nat.mod_lt _ hm) hm2) e3, pow_split_mod r v p m, ← e2, Nat.mod_mul_mod]

theorem powModWord_zero (p v r : Nat) : powModWord p 0 v r = .throw .divideByZero := by
  induction p using Nat.strongRecOn generalizing v r with
  | ind p ih =>
  rw [powModWord]
  by_cases h0 : p = 0
  · rw [dif_pos h0, if_pos rfl]
  rw [dif_neg h0]
  by_cases h : p % 2 = 1
  · rw [if_pos h, if_pos rfl]; rfl
  · rw [if_neg h, Res.ok_bind, if_pos (by omega), if_pos rfl]; rfl

theorem powModBits_spec {m : Nat} (hm : 0 < m) (hm2 : m ≤ 4294967296) (n : Nat) {p v r : Nat} (hp : p < 2 ^ n)
    (hv : v < 4294967296) (hr : r < 4294967296) :
    ∃ v' r', powModBits m n p (v, r) = .ok (v', r') ∧ v' < 4294967296 ∧ r' < 4294967296 ∧
      v' % m = v ^ 2 ^ n % m ∧ r' % m = r * v ^ p % m := by
  induction n generalizing p v r with
  | zero =>
    refine ⟨v, r, rfl, hv, hr, by simp, ?_⟩
    rw [show p = 0 by simpa using hp]; simp
  | succ n ih =>
    have hmul : ∀ a b : Nat, a < 4294967296 → b < 4294967296 → u64 (a * b) = a * b := fun a b ha hb =>
      u64_of_lt (lt_of_le_of_lt (mul_lt_sq ha hb) (by norm_num))
    obtain ⟨r1, e1, e2, e3⟩ : ∃ r', (if p % 2 = 1 then
          if m = 0 then .ub .divByZero else .ok (u64 (r * v) % m) else .ok r : Res Nat) = .ok r' ∧
          r' % m = r * v ^ (p % 2) % m ∧ r' < 4294967296 := by
      by_cases h : p % 2 = 1
      · refine ⟨r * v % m, ?_, by rw [h, pow_one, Nat.mod_mod], lt_of_lt_of_le (Nat.mod_lt _ hm) hm2⟩
        rw [if_pos h, if_neg (by omega), hmul _ _ hr hv]
      · exact ⟨r, by rw [if_neg h], by rw [show p % 2 = 0 by omega]; simp, hr⟩
    obtain ⟨v', r', k1, k2, k3, k4, k5⟩ := ih (p := p / 2) (v := v * v % m) (r := r1)
      (by rw [pow_succ] at hp; omega) (lt_of_lt_of_le (Nat.mod_lt _ hm) hm2) e3
    refine ⟨v', r', ?_, k2, k3, ?_, ?_⟩
    · rw [powModBits, e1, Res.ok_bind, if_neg (by omega), hmul _ _ hv hv, Res.ok_bind, k1]
    · rw [k4, ← Nat.pow_mod, pow_succ, mul_comm (2 ^ n), pow_mul, pow_two]
    · rw [k5, pow_split_mod r v p m, ← e2, Nat.mod_mul_mod]

theorem powModWords_spec {m : Nat} (hm : 0 < m) (hm2 : m ≤ 4294967296) {ps : List Nat} (hw : WordsOk ps) (hne : ps ≠ [])
    {v r : Nat} (hv : v < 4294967296) (hr : r < 4294967296) :
    powModWords m ps (v, r) = .ok ((r * v ^ val ps) % m) := by
  induction ps generalizing v r with
  | nil => exact absurd rfl hne
  | cons p ps ih =>
    obtain ⟨hp, hw'⟩ := wordsOk_cons.1 hw
    cases ps with
    | nil => rw [powModWords, powModWord_spec hm hm2 p hv hr, val_singleton]
    | cons q qs =>
      obtain ⟨v', r', k1, k2, k3, k4, k5⟩ := powModBits_spec hm hm2 32 (p := p) (v := v) (r := r) (by simpa using hp) hv hr
      rw [powModWords, k1, Res.ok_bind, ih hw' (by simp) k2 k3, val_cons p]
      · congr 1
        rw [Nat.mul_mod, Nat.pow_mod, k4, k5, ← Nat.pow_mod, ← Nat.mul_mod, ← pow_mul, pow_add, mul_assoc]
        norm_num
      · simp

theorem powModWords_zero {ps : List Nat} (hne : ps ≠ []) (v r : Nat) :
    powModWords 0 ps (v, r) = if ps.length = 1 then .throw .divideByZero else .ub .divByZero := by
  match ps with
  | [] => exact absurd rfl hne
  | [p] => rw [powModWords, powModWord_zero, if_pos (by rfl)]
  | p :: q :: qs =>
    rw [powModWords, if_neg (by simp), powModBits]
    · by_cases h : p % 2 = 1
      · simp only [h, if_true]; rfl
      · simp only [h, if_false]; rfl
    · simp

/-! ### moduli below the threshold -/

/-- `red` reduces every buffer of `N` words modulo `m`. -/
def Reduces (N m : Nat) (red : BitsBuffer → Res BitsBuffer) : Prop :=
  ∀ b x, Buf N b x → ∃ b', red b = .ok b' ∧ Buf N b' (x % m)

theorem mulRed {N m k : Nat} {red : BitsBuffer → Res BitsBuffer} (hred : Reduces N m red) (hN : k + k ≤ N)
    {value result temp : BitsBuffer} {v r : Nat} (hv : Buf N value v) (hr : Buf N result r)
    (ht : temp.bits = List.replicate N 0) (h1 : v < 𝔹 ^ k) (h2 : r < 𝔹 ^ k) :
    ∃ b t, (do
        let (r, t) ← result.multiplySelf value temp
        let r ← red r
        .ok (r, t) : Res (BitsBuffer × BitsBuffer)) = .ok (b, t) ∧ Buf N b (r * v % m) ∧ t.bits = List.replicate N 0 := by
  have := hv.len_le h1
  have := hr.len_le h2
  obtain ⟨a, t, e, k1, k2⟩ := BitsBuffer.multiplySelf_spec hr hv ht (by omega)
  obtain ⟨b, e2, k3⟩ := hred _ _ k1
  exact ⟨b, t, by rw [e, Res.ok_bind]; dsimp only; rw [e2, Res.ok_bind], k3, k2⟩

theorem sqRed {N m k : Nat} {red : BitsBuffer → Res BitsBuffer} (hred : Reduces N m red) (hN : k + k ≤ N)
    {value temp : BitsBuffer} {v : Nat} (hv : Buf N value v) (ht : temp.bits = List.replicate N 0) (h1 : v < 𝔹 ^ k) :
    ∃ a t b, value.squareSelf temp = .ok (a, t) ∧ red a = .ok b ∧ Buf N b (v * v % m) ∧ t.bits = List.replicate N 0 := by
  have := hv.len_le h1
  obtain ⟨a, t, e, k1, k2⟩ := BitsBuffer.squareSelf_spec hv ht (by omega)
  obtain ⟨b, e2, k3⟩ := hred _ _ k1
  exact ⟨a, t, b, e, e2, k3, k2⟩

theorem powLoop_mod {N m k : Nat} {red : BitsBuffer → Res BitsBuffer} (hred : Reduces N m red) (hN : k + k ≤ N)
    (hm : 0 < m) (hmk : m ≤ 𝔹 ^ k) (p : Nat) {value result temp : BitsBuffer} {v r : Nat} (hv : Buf N value v)
    (hr : Buf N result r) (ht : temp.bits = List.replicate N 0) (h1 : v < 𝔹 ^ k) (h2 : r < 𝔹 ^ k) (h3 : r < m) :
    ∃ b, powLoop red p value result temp = .ok b ∧ Buf N b (r * v ^ p % m) := by
  induction p using Nat.strongRecOn generalizing value result temp v r with
  | ind p ih =>
  rw [powLoop]
  by_cases h0 : p = 0
  · subst h0
    rw [dif_pos rfl]
    exact ⟨_, rfl, by rw [pow_zero, mul_one, Nat.mod_eq_of_lt h3]; exact hr⟩
  rw [dif_neg h0]
  obtain ⟨res, tmp, e1, b1, b2⟩ : ∃ res tmp, (if p % 2 = 1 then do
        let (r, t) ← result.multiplySelf value temp
        let r ← red r
        .ok (r, t)
      else .ok (result, temp)) = .ok (res, tmp) ∧ Buf N res (r * v ^ (p % 2) % m) ∧ tmp.bits = List.replicate N 0 := by
    by_cases h : p % 2 = 1
    · obtain ⟨b, t, e, q1, q2⟩ := mulRed hred hN hv hr ht h1 h2
      exact ⟨b, t, by rw [if_pos h, e], by rw [h, pow_one]; exact q1, q2⟩
    · have h' : p % 2 = 0 := by omega
      exact ⟨result, temp, by rw [if_neg h], by rw [h', pow_zero, mul_one, Nat.mod_eq_of_lt h3]; exact hr, ht⟩
  rw [e1, Res.ok_bind]
  dsimp only
  have hlt := Nat.mod_lt (r * v ^ (p % 2)) hm
  by_cases hp1 : p = 1
  · subst hp1
    rw [if_neg (by simp), Res.ok_bind]
    obtain ⟨b, e, q⟩ := ih (1 / 2) (by omega) hv b1 b2 h1 (lt_of_lt_of_le hlt hmk) hlt
    exact ⟨b, e, by simpa using q⟩
  · rw [if_pos hp1]
    obtain ⟨a, t, b, e, e2, q1, q2⟩ := sqRed hred hN hv b2 h1
    rw [e, Res.ok_bind]
    dsimp only
    rw [e2, Res.ok_bind, Res.ok_bind]
    obtain ⟨o, e3, q3⟩ := ih (p / 2) (by omega) q1 b1 q2 (lt_of_lt_of_le (Nat.mod_lt _ hm) hmk) (lt_of_lt_of_le hlt hmk) hlt
    exact ⟨o, e3, by rw [pow_split_mod]; exact q3⟩

theorem powBits_mod {N m k : Nat} {red : BitsBuffer → Res BitsBuffer} (hred : Reduces N m red) (hN : k + k ≤ N)
    (hm : 0 < m) (hmk : m ≤ 𝔹 ^ k) (n : Nat) {p : Nat} {value result temp : BitsBuffer} {v r : Nat} (hp : p < 2 ^ n)
    (hv : Buf N value v) (hr : Buf N result r) (ht : temp.bits = List.replicate N 0) (h1 : v < 𝔹 ^ k) (h3 : r < m) :
    ∃ value' result' temp' v' r', powBits red n p (value, result, temp) = .ok (value', result', temp') ∧
      Buf N value' v' ∧ Buf N result' r' ∧ temp'.bits = List.replicate N 0 ∧ v' < 𝔹 ^ k ∧ r' < m ∧
      v' % m = v ^ 2 ^ n % m ∧ r' % m = r * v ^ p % m := by
  induction n generalizing p value result temp v r with
  | zero =>
    refine ⟨_, _, _, v, r, rfl, hv, hr, ht, h1, h3, by simp, ?_⟩
    rw [show p = 0 by simpa using hp]; simp
  | succ n ih =>
    obtain ⟨res, tmp, e1, b1, b2⟩ : ∃ res tmp, (if p % 2 = 1 then do
          let (r, t) ← result.multiplySelf value temp
          let r ← red r
          .ok (r, t)
        else .ok (result, temp)) = .ok (res, tmp) ∧ Buf N res (r * v ^ (p % 2) % m) ∧ tmp.bits = List.replicate N 0 := by
      by_cases h : p % 2 = 1
      · obtain ⟨b, t, e, q1, q2⟩ := mulRed hred hN hv hr ht h1 (lt_of_lt_of_le h3 hmk)
        exact ⟨b, t, by rw [if_pos h, e], by rw [h, pow_one]; exact q1, q2⟩
      · have h' : p % 2 = 0 := by omega
        exact ⟨result, temp, by rw [if_neg h], by rw [h', pow_zero, mul_one, Nat.mod_eq_of_lt h3]; exact hr, ht⟩
    obtain ⟨a, t, b, e, e2, q1, q2⟩ := sqRed hred hN hv b2 h1
    obtain ⟨value', result', temp', v', r', c1, c2, c3, c4, c5, c6, c7, c8⟩ := ih (p := p / 2)
      (by rw [pow_succ] at hp; omega) q1 b1 q2 (lt_of_lt_of_le (Nat.mod_lt _ hm) hmk) (Nat.mod_lt _ hm)
    refine ⟨value', result', temp', v', r', ?_, c2, c3, c4, c5, c6, ?_, ?_⟩
    · rw [powBits, e1, Res.ok_bind]
      dsimp only
      rw [e, Res.ok_bind]
      dsimp only
      rw [e2, Res.ok_bind, c1]
    · rw [c7, ← Nat.pow_mod, pow_succ, mul_comm (2 ^ n), pow_mul, pow_two]
    · rw [c8, ← pow_split_mod]

theorem powWords_mod {N m k : Nat} {red : BitsBuffer → Res BitsBuffer} (hred : Reduces N m red) (hN : k + k ≤ N)
    (hm : 0 < m) (hmk : m ≤ 𝔹 ^ k) {ps : List Nat} (hw : WordsOk ps) {value result temp : BitsBuffer} {v r : Nat}
    (hv : Buf N value v) (hr : Buf N result r) (ht : temp.bits = List.replicate N 0) (h1 : v < 𝔹 ^ k) (h3 : r < m) :
    ∃ value' result' temp' v' r', powWords red ps (value, result, temp) = .ok (value', result', temp') ∧
      Buf N value' v' ∧ Buf N result' r' ∧ temp'.bits = List.replicate N 0 ∧ v' < 𝔹 ^ k ∧ r' < m ∧
      v' % m = v ^ 𝔹 ^ ps.length % m ∧ r' % m = r * v ^ val ps % m := by
  induction ps generalizing value result temp v r with
  | nil => exact ⟨_, _, _, v, r, rfl, hv, hr, ht, h1, h3, by simp, by simp⟩
  | cons p ps ih =>
    obtain ⟨hp, hw'⟩ := wordsOk_cons.1 hw
    obtain ⟨value', result', temp', v', r', c1, c2, c3, c4, c5, c6, c7, c8⟩ := powBits_mod hred hN hm hmk 32 (p := p)
      (by simpa using hp) hv hr ht h1 h3
    obtain ⟨value2, result2, temp2, v2, r2, d1, d2, d3, d4, d5, d6, d7, d8⟩ := ih hw' c2 c3 c4 c5 c6
    refine ⟨value2, result2, temp2, v2, r2, ?_, d2, d3, d4, d5, d6, ?_, ?_⟩
    · rw [powWords, c1, Res.ok_bind, d1]
    · rw [d7, Nat.pow_mod, c7, ← Nat.pow_mod, ← pow_mul, List.length_cons, pow_succ 𝔹, mul_comm (𝔹 ^ ps.length)]
      norm_num
    · rw [d8, Nat.mul_mod, Nat.pow_mod, c7, c8, ← Nat.pow_mod, ← Nat.mul_mod, ← pow_mul, val_cons, pow_add, mul_assoc]
      norm_num

theorem powCoreMod_spec {value : BitsBuffer} {v : Nat} {ms : List Nat} (hw : WordsOk ms) (hne : ms ≠ [])
    (htop : ms.getLast? ≠ some 0) (h32 : ms.length < 32) (h2 : 1 < val ms) (hv : Buf (ms.length + ms.length) value v)
    (h1 : v < 𝔹 ^ ms.length) (p : Nat) :
    ∃ bits, powCoreMod p ms value = .ok bits ∧ bits.length = ms.length + ms.length ∧ WordsOk bits ∧
      val bits = v ^ p % val ms := by
  have hlen : 1 ≤ ms.length := List.length_pos_iff.2 hne
  obtain ⟨t, e2, k2⟩ := BitsBuffer.ofWord_zero (N := ms.length + ms.length) (by omega)
  obtain ⟨r, e3, k3⟩ := BitsBuffer.ofWord_spec (N := ms.length + ms.length) (w := 1) (by omega) (by decide)
  obtain ⟨o, e4, k4⟩ := powLoop_mod (fun b x hb => BitsBuffer.reduce_spec hb hw hne htop) (le_refl _) (by omega)
    (le_of_lt (val_lt hw)) p hv k3 k2 h1 (lt_trans h2 (val_lt hw)) h2
  refine ⟨o.bits, ?_, k4.size, k4.words, by rw [k4.value, one_mul]⟩
  unfold powCoreMod
  dsimp only
  rw [hv.size, e2, Res.ok_bind, e3, Res.ok_bind, if_pos (show ms.length < ReducerThreshold from h32), e4, Res.ok_bind]

theorem powCoreModWords_spec {value : BitsBuffer} {v : Nat} {ms ps : List Nat} (hw : WordsOk ms) (hne : ms ≠ [])
    (htop : ms.getLast? ≠ some 0) (h32 : ms.length < 32) (h2 : 1 < val ms) (hv : Buf (ms.length + ms.length) value v)
    (h1 : v < 𝔹 ^ ms.length) (hp : WordsOk ps) (hpn : ps ≠ []) :
    ∃ bits, powCoreModWords ps ms value = .ok bits ∧ bits.length = ms.length + ms.length ∧ WordsOk bits ∧
      val bits = v ^ val ps % val ms := by
  have hlen : 1 ≤ ms.length := List.length_pos_iff.2 hne
  obtain ⟨l, q, rfl⟩ : ∃ l q, ps = l ++ [q] := by
    rcases List.eq_nil_or_concat ps with h | ⟨l, q, h⟩
    · exact absurd h hpn
    · exact ⟨l, q, by rw [h, List.concat_eq_append]⟩
  obtain ⟨hpl, hpq⟩ := wordsOk_append.1 hp
  have hred : Reduces (ms.length + ms.length) (val ms) (fun b => b.reduce ms) :=
    fun b x hb => BitsBuffer.reduce_spec hb hw hne htop
  obtain ⟨t, e2, k2⟩ := BitsBuffer.ofWord_zero (N := ms.length + ms.length) (by omega)
  obtain ⟨r, e3, k3⟩ := BitsBuffer.ofWord_spec (N := ms.length + ms.length) (w := 1) (by omega) (by decide)
  obtain ⟨value2, result2, temp2, v2, r2, d1, d2, d3, d4, d5, d6, d7, d8⟩ := powWords_mod hred (le_refl _) (by omega)
    (le_of_lt (val_lt hw)) hpl hv k3 k2 h1 h2
  obtain ⟨o, e4, k4⟩ := powLoop_mod hred (le_refl _) (by omega)
    (le_of_lt (val_lt hw)) q d2 d3 d4 d5 (lt_trans d6 (val_lt hw)) d6
  refine ⟨o.bits, ?_, k4.size, k4.words, ?_⟩
  · unfold powCoreModWords
    dsimp only
    rw [hv.size, e2, Res.ok_bind, e3, Res.ok_bind, idx_getD (by simp), Res.ok_bind,
      if_pos (show ms.length < ReducerThreshold from h32), List.dropLast_concat, d1, Res.ok_bind]
    dsimp only
    rw [show (l ++ [q])[(l ++ [q]).length - 1]?.getD 0 = q by simp, e4, Res.ok_bind]
  · rw [k4.value, Nat.mul_mod, Nat.pow_mod, d7, d8, ← Nat.pow_mod, ← Nat.mul_mod, one_mul, ← pow_mul, val_append, pow_add]
    simp

/-- The buffer built from a multi-word base. -/
theorem modPowBase_spec {xs ms : List Nat} (hx : WordsOk xs) (hw : WordsOk ms) (hne : ms ≠ [])
    (htop : ms.getLast? ≠ some 0) (hl : xs.length < 2147483648) (hl2 : ms.length + ms.length < 2147483648) :
    ∃ b, modPowBase xs ms = .ok b ∧
      Buf (ms.length + ms.length) b (if xs.length > ms.length then val xs % val ms else val xs) := by
  have hm : 0 < val ms := by
    have := BigInt.val_lt_of_length (xs := []) wordsOk_nil hne htop (List.length_pos_iff.2 hne)
    simpa using this
  unfold modPowBase
  rw [sizeInt_ok hl2, Res.ok_bind]
  by_cases h : xs.length > ms.length
  · obtain ⟨r, e, k1, k2, k3⟩ := remainderVec_spec hx hw hne htop (by omega) hl
    have hlt : val r < 𝔹 ^ ms.length := by rw [k3]; exact lt_trans (Nat.mod_lt _ hm) (val_lt hw)
    obtain ⟨b, e2, k4⟩ := BitsBuffer.ofWords_spec (N := ms.length + ms.length) k2 (by omega)
      (le_trans (trimLen_le_of_val hlt) (by omega))
    rw [if_pos h, if_pos h, e, Res.ok_bind]
    exact ⟨b, e2, by rw [← k3]; exact k4⟩
  · rw [if_neg h, if_neg h]
    exact BitsBuffer.ofWords_spec hx hl (le_trans (trimLen_le _) (by omega))

/-! ### `mod_pow` -/

theorem tmod_pow_natAbs (x z : Int) (n : Nat) : (x ^ n).tmod z =
    if (decide (x < 0) && decide (n % 2 ≠ 0)) then -((x.natAbs ^ n % z.natAbs : Nat) : Int)
    else ((x.natAbs ^ n % z.natAbs : Nat) : Int) := by
  rw [tmod_natAbs, Int.natAbs_pow]
  by_cases hx : x < 0
  · by_cases hn : n % 2 = 0
    · have : ¬ x ^ n < 0 := not_lt.2 (Even.pow_nonneg (Nat.even_iff.2 hn) x)
      rw [if_neg this]; simp [hn]
    · have : x ^ n < 0 := (Nat.odd_iff.2 (by omega) : Odd n).pow_neg hx
      rw [if_pos this]; simp [hn, hx]
  · have : ¬ x ^ n < 0 := not_lt.2 (pow_nonneg (by omega) n)
    rw [if_neg this]; simp [hx]

namespace BigInt

/-- The sign decision of `mod_pow` (BigInteger.cpp:1582). -/
theorem modPow_negate {a : BigInt} {x : Int} {n : Nat} (ha : a.Denotes x) :
    (decide (a.sign < 0) && !(decide ((n : Int) % 2 = 0))) = (decide (x < 0) && decide (n % 2 ≠ 0)) := by
  congr 1
  · exact decide_eq_decide.2 ha.sign_neg
  · by_cases h : n % 2 = 0
    · have : (n : Int) % 2 = 0 := by omega
      simp [h, this]
    · have : ¬ (n : Int) % 2 = 0 := by omega
      simp [h, this]

/-- The result of `mod_pow` for a modulus in the `int` range: off by `2^32` when it should be
negative. -/
theorem modPow_small {a e m : BigInt} {x z : Int} {n : Nat} (ha : a.Denotes x) (he : e.Denotes n) (hm : m.Denotes z)
    (hz : z ≠ 0) (hmb : m.bits = []) (hla : a.bits.length < 2147483648) :
    Returns (a.modPow e m) (if (x ^ n).tmod z < 0 then (x ^ n).tmod z + 4294967296 else (x ^ n).tmod z) := by
  have hes : ¬ e.sign < 0 := fun h => by have := he.sign_neg.1 h; omega
  unfold modPow
  rw [if_neg hes, ha.assertValid, Res.ok_bind, he.assertValid, Res.ok_bind, hm.assertValid, Res.ok_bind,
    isEven_spec he, Res.ok_bind]
  dsimp only
  rw [modPow_negate ha, if_pos hmb]
  rcases hm.shape with ⟨rfl, hz1, hz2⟩ | ⟨s, ws, rfl, hs, hne, -⟩
  swap
  · exact absurd hmb hne
  dsimp only
  rw [cabs_ok (by omega), Res.ok_bind]
  have hzp : 0 < z.natAbs := by omega
  -- the base
  obtain ⟨v, e1, v1, v2⟩ : ∃ v, (if a.bits = [] then cabs a.sign else remainderWord a.bits z.natAbs) = .ok v ∧
      v < 4294967296 ∧ v % z.natAbs = x.natAbs % z.natAbs := by
    rcases ha.shape with ⟨rfl, k1, k2⟩ | ⟨s, ws, rfl, hs, hne, hw, ht, hv, rfl⟩
    · refine ⟨x.natAbs, ?_, by omega, rfl⟩
      rw [if_pos rfl, cabs_ok (by dsimp only; omega)]
    · refine ⟨val ws % z.natAbs, ?_, lt_trans (Nat.mod_lt _ hzp) (by omega), ?_⟩
      · rw [if_neg hne, remainderWord_spec hw hne hla hzp (by omega)]
      · rw [natAbs_unit_mul hs, Nat.mod_mod]
  rw [e1, Res.ok_bind]
  -- the power
  have e2 : (if e.bits = [] then do
        let p ← cabs e.sign
        powModWord p z.natAbs v 1
      else powModWords z.natAbs e.bits (v, 1)) = .ok (x.natAbs ^ n % z.natAbs) := by
    have hpow : ∀ k, v ^ k % z.natAbs = x.natAbs ^ k % z.natAbs := fun k => by
      rw [Nat.pow_mod, v2, ← Nat.pow_mod]
    rcases he.shape with ⟨rfl, k1, k2⟩ | ⟨s, ws, rfl, hs, hne, hw, ht, hv, hval⟩
    · rw [if_pos rfl, cabs_ok (by dsimp only; omega), Res.ok_bind,
        powModWord_spec hzp (by omega) _ v1 (by decide), one_mul, hpow]
      simp
    · rw [if_neg hne, powModWords_spec hzp (by omega) hw hne v1 (by decide), one_mul, hpow]
      congr 3
      rcases hs with rfl | rfl
      · omega
      · omega
  rw [e2, Res.ok_bind, tmod_pow_natAbs]
  have hlt := Nat.mod_lt (x.natAbs ^ n) hzp
  generalize x.natAbs ^ n % z.natAbs = w at *
  by_cases hng : (decide (x < 0) && decide (n % 2 ≠ 0)) = true
  · simp only [hng, if_true]
    by_cases hw0 : w = 0
    · subst hw0
      rw [if_neg (by simp)]
      exact ofUInt32_spec (by decide)
    · have e3 : u32i (-1 * (w : Int)) = 4294967296 - w := by unfold u32i; omega
      rw [if_pos (by omega), e3]
      have := ofUInt32_spec (x := 4294967296 - w) (by omega)
      rwa [show (((4294967296 - w : Nat)) : Int) = -(w : Int) + 4294967296 by omega] at this
  · simp only [hng]
    rw [if_neg (by simp)]
    exact ofUInt32_spec (by omega)

/-- The base as `mod_pow` stores it for a multi-word modulus. -/
def modPowValue (a m : BigInt) (x z : Int) : Nat :=
  if a.bits.length > m.bits.length then x.natAbs % z.natAbs else x.natAbs

theorem modPowValue_mod (a m : BigInt) (x z : Int) : modPowValue a m x z % z.natAbs = x.natAbs % z.natAbs := by
  unfold modPowValue
  split_ifs
  · exact Nat.mod_mod _ _
  · rfl

/-- Everything `mod_pow` does before and after the modular power proper, for a multi-word
modulus. -/
theorem modPow_large {a e m : BigInt} {x z : Int} {n : Nat} (ha : a.Denotes x) (he : e.Denotes n) (hm : m.Denotes z)
    (hmb : m.bits ≠ []) (hla : a.bits.length < 2147483648) (hlm : m.bits.length + m.bits.length < 2147483648) :
    ∃ b, Buf (m.bits.length + m.bits.length) b (modPowValue a m x z) ∧ modPowValue a m x z < 𝔹 ^ m.bits.length ∧
      a.modPow e m = (do
        let bits ← (if e.bits = [] then powCoreMod n m.bits b else powCoreModWords e.bits m.bits b)
        ofMagnitude bits (decide (x < 0) && decide (n % 2 ≠ 0))) := by
  have hes : ¬ e.sign < 0 := fun h => by have := he.sign_neg.1 h; omega
  have hlen : 1 ≤ m.bits.length := List.length_pos_iff.2 hmb
  rcases hm.shape with ⟨rfl, hz1, hz2⟩ | ⟨s, ms, rfl, hs, hne, hwm, htm, hvm, rfl⟩
  · exact absurd rfl hmb
  dsimp only at *
  have hab := natAbs_unit_mul hs (val ms)
  obtain ⟨b, e1, b1, b2⟩ : ∃ b, (if a.bits = [] then do
          let s ← cabs a.sign
          let size ← sizeInt (ms.length + ms.length)
          BitsBuffer.ofWord size s
        else modPowBase a.bits ms) = .ok b ∧
      Buf (ms.length + ms.length) b (modPowValue a ⟨s, ms⟩ x (s * (val ms : Int))) ∧
      modPowValue a ⟨s, ms⟩ x (s * (val ms : Int)) < 𝔹 ^ ms.length := by
    unfold modPowValue
    rw [hab]
    rcases ha.shape with ⟨rfl, k1, k2⟩ | ⟨t, ws, rfl, ht, hne', hw, htw, hv, rfl⟩
    · rw [if_pos rfl, cabs_ok (by dsimp only; omega), Res.ok_bind, sizeInt_ok hlm, Res.ok_bind, if_neg (by simp)]
      obtain ⟨b, k3, k4⟩ := BitsBuffer.ofWord_spec (N := ms.length + ms.length) (w := x.natAbs) (by omega) (by omega)
      refine ⟨b, k3, k4, ?_⟩
      calc x.natAbs < 𝔹 ^ 1 := by rw [pow_one]; omega
        _ ≤ 𝔹 ^ ms.length := Nat.pow_le_pow_right (by decide) hlen
    · obtain ⟨b, k3, k4⟩ := modPowBase_spec hw hwm hne htm hla hlm
      rw [if_neg hne', natAbs_unit_mul ht]
      refine ⟨b, k3, k4, ?_⟩
      dsimp only
      split_ifs with h
      · exact lt_trans (Nat.mod_lt _ (by omega)) (val_lt hwm)
      · exact lt_of_lt_of_le (val_lt hw) (Nat.pow_le_pow_right (by decide) (by omega))
  refine ⟨b, b1, b2, ?_⟩
  unfold modPow
  rw [if_neg hes, ha.assertValid, Res.ok_bind, he.assertValid, Res.ok_bind, hm.assertValid, Res.ok_bind,
    isEven_spec he, Res.ok_bind]
  dsimp only
  rw [modPow_negate ha, if_neg hne, e1, Res.ok_bind]
  rcases he.shape with ⟨rfl, k1, k2⟩ | ⟨t, ws, rfl, ht, hne', -⟩
  · simp only [if_true]
    rw [cabs_ok (by omega), Res.ok_bind]
    simp
  · simp only [hne', if_false]

theorem Denotes.nat_words {e : BigInt} {n : Nat} (he : e.Denotes n) (hne : e.bits ≠ []) :
    val e.bits = n ∧ WordsOk e.bits := by
  rcases he.shape with ⟨rfl, k1, k2⟩ | ⟨s, ws, rfl, hs, hne', hw, ht, hv, hval⟩
  · exact absurd rfl hne
  · refine ⟨?_, hw⟩
    rcases hs with rfl | rfl <;> dsimp only <;> omega

/-- Exact below the threshold of the `FastReducer`. -/
theorem modPow_mid {a e m : BigInt} {x z : Int} {n : Nat} (ha : a.Denotes x) (he : e.Denotes n) (hm : m.Denotes z)
    (hmb : m.bits ≠ []) (h32 : m.bits.length < 32) (hla : a.bits.length < 2147483648) :
    Returns (a.modPow e m) ((x ^ n).tmod z) := by
  obtain ⟨b, b1, b2, b3⟩ := modPow_large ha he hm hmb hla (by omega)
  rw [b3, tmod_pow_natAbs]
  rcases hm.shape with ⟨rfl, hz1, hz2⟩ | ⟨s, ms, rfl, hs, hne, hwm, htm, hvm, rfl⟩
  · exact absurd rfl hmb
  have hpow : ∀ k, modPowValue a ⟨s, ms⟩ x (s * (val ms : Int)) ^ k % val ms = x.natAbs ^ k % val ms := fun k => by
    have := modPowValue_mod a ⟨s, ms⟩ x (s * (val ms : Int))
    rw [natAbs_unit_mul hs] at this
    rw [Nat.pow_mod, this, ← Nat.pow_mod]
  obtain ⟨bits, e1, k1, k2, k3⟩ : ∃ bits, (if e.bits = [] then powCoreMod n ms b else powCoreModWords e.bits ms b) = .ok bits ∧
      bits.length = ms.length + ms.length ∧ WordsOk bits ∧ val bits = x.natAbs ^ n % val ms := by
    by_cases hb : e.bits = []
    · rw [if_pos hb]
      obtain ⟨bits, q1, q2, q3, q4⟩ := powCoreMod_spec hwm hne htm h32 (by omega) b1 b2 n
      exact ⟨bits, q1, q2, q3, by rw [q4, hpow]⟩
    · rw [if_neg hb]
      obtain ⟨w1, w2⟩ := he.nat_words hb
      obtain ⟨bits, q1, q2, q3, q4⟩ := powCoreModWords_spec hwm hne htm h32 (by omega) b1 b2 w2 hb
      exact ⟨bits, q1, q2, q3, by rw [q4, w1, hpow]⟩
  dsimp only at *
  rw [e1, Res.ok_bind]
  refine returns_ofMagnitude k2 (by omega) ?_
  rw [k3, natAbs_unit_mul hs]

/-! bad arguments -/

theorem modPow_negative {a e m : BigInt} {y : Int} (he : e.Denotes y) (hy : y < 0) :
    a.modPow e m = .throw .outOfRange := by
  unfold modPow
  rw [if_pos (he.sign_neg.2 hy)]

theorem modPow_zero {a e m : BigInt} {x : Int} {n : Nat} (ha : a.Denotes x) (he : e.Denotes n) (hm : m.Denotes 0)
    (hla : a.bits.length < 2147483648) :
    a.modPow e m = if a.bits = [] ∧ 1 < e.bits.length then .ub .divByZero else .throw .divideByZero := by
  have hes : ¬ e.sign < 0 := fun h => by have := he.sign_neg.1 h; omega
  obtain rfl := hm.unique denotes_zero
  unfold modPow
  rw [if_neg hes, ha.assertValid, Res.ok_bind, he.assertValid, Res.ok_bind, hm.assertValid, Res.ok_bind,
    isEven_spec he, Res.ok_bind]
  dsimp only
  rw [if_pos (show zeroInt.bits = [] from rfl), show cabs zeroInt.sign = .ok 0 from rfl, Res.ok_bind]
  by_cases hb : a.bits = []
  · rw [if_pos hb, cabs_ok (by have := ha.sign_ne_min; omega), Res.ok_bind]
    by_cases hbe : e.bits = []
    · rw [if_pos hbe, cabs_ok (by have := he.sign_ne_min; omega), Res.ok_bind, powModWord_zero, hbe, if_neg (by simp)]
      rfl
    · rw [if_neg hbe, powModWords_zero hbe]
      have := List.length_pos_iff.2 hbe
      by_cases h1 : e.bits.length = 1
      · rw [if_pos h1, if_neg (by omega)]; rfl
      · rw [if_neg h1, if_pos ⟨hb, by omega⟩]; rfl
  · rw [if_neg hb, if_neg (by tauto)]
    unfold remainderWord
    rw [cassert_pos hb, Res.ok_bind, sizeInt_ok hla, Res.ok_bind, remWordLoop_zero hb]
    rfl

end BigInt
end BigIntegerCpp
