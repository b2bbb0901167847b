import Verif.Lemmas.AddSub
/-
Correctness of Model/SquMul.lean.
-/
namespace BigIntegerCpp
set_option linter.unusedSectionVars false
set_option linter.unnecessarySeqFocus false
variable [Cfg]

theorem mul_lt_sq {x y B : Nat} (hx : x < B) (hy : y < B) : x * y ≤ (B - 1) * (B - 1) :=
  Nat.mul_le_mul (by omega) (by omega)

theorem mulWordLoop_spec {xs : List Nat} (hx : WordsOk xs) {y c : Nat} (hy : y < 4294967296) (hc : c < 4294967296) :
    (mulWordLoop xs y c).length = xs.length + 1 ∧ WordsOk (mulWordLoop xs y c) ∧
      val (mulWordLoop xs y c) = val xs * y + c := by
  induction xs generalizing c with
  | nil =>
    simp only [mulWordLoop, u32_of_lt hc]
    exact ⟨rfl, wordsOk_cons.2 ⟨hc, wordsOk_nil⟩, by simp⟩
  | cons x xs ih =>
    rw [wordsOk_cons] at hx
    have hm := mul_lt_sq hx.1 hy
    have hd : u64 (u64 (x * y) + c) = x * y + c := by
      rw [u64_of_lt (n := x * y) (by omega), u64_of_lt (by omega)]
    obtain ⟨h1, h2, h3⟩ := ih hx.2 (c := (x * y + c) / 4294967296) (by omega)
    simp only [mulWordLoop, hd]
    refine ⟨by simp [h1], wordsOk_cons.2 ⟨u32_lt _, h2⟩, ?_⟩
    rw [val_cons, h3, val_cons]
    have := u32_add_div (x * y + c)
    linear_combination this

theorem multiplyWord_spec {xs : List Nat} (hx : WordsOk xs) (hne : xs ≠ []) {y : Nat} (hy : y < 4294967296) :
    ∃ r, multiplyWord xs y = .ok r ∧ r.length = xs.length + 1 ∧ WordsOk r ∧ val r = val xs * y := by
  obtain ⟨h1, h2, h3⟩ := mulWordLoop_spec hx hy (c := 0) (by omega)
  exact ⟨_, by simp [multiplyWord, hne], h1, h2, by simpa using h3⟩

theorem subtractCoreLoop_spec {core lhs rhs : List Nat} (hc : WordsOk core) (hl : WordsOk lhs) (hr : WordsOk rhs)
    (h1 : rhs.length ≤ lhs.length) (h2 : lhs.length ≤ core.length) {c : Int} (hc1 : -2 ≤ c) (hc2 : c ≤ 0) :
    ∃ r c', subtractCoreLoop core lhs rhs c = .ok (r, c') ∧ r.length = core.length ∧ WordsOk r ∧
      (val r : Int) + (𝔹 ^ core.length : Nat) * c' = val core - val lhs - val rhs + c := by
  induction core generalizing lhs rhs c with
  | nil =>
    have : lhs = [] := by simpa using h2
    subst this
    have : rhs = [] := by simpa using h1
    subst this
    obtain ⟨r, c', he, h⟩ := carrySelf_spec hc (c := c) (by omega) (by omega)
    refine ⟨r, c', ?_, h.1, h.2.1, by simpa using h.2.2⟩
    simp [subtractCoreLoop, he]
  | cons x xs ih =>
    cases lhs with
    | nil =>
      have : rhs = [] := by simpa using h1
      subst this
      obtain ⟨r, c', he, h⟩ := carrySelf_spec hc (c := c) (by omega) (by omega)
      refine ⟨r, c', ?_, h.1, h.2.1, by simpa using h.2.2⟩
      simp [subtractCoreLoop, he]
    | cons l ls =>
      rw [wordsOk_cons] at hc hl
      obtain ⟨hx0, hxs⟩ := hc
      obtain ⟨hl0, hls⟩ := hl
      cases rhs with
      | nil =>
        obtain ⟨r, c', he, hlr, hr', hv⟩ := ih hxs hls hr (by simp) (by simpa using h2)
          (c := ((x : Int) + c - l) / 4294967296) (by omega) (by omega)
        refine ⟨u32i ((x : Int) + c - l) :: r, c', ?_, by simp [hlr], wordsOk_cons.2 ⟨u32i_lt _, hr'⟩, ?_⟩
        · simp only [subtractCoreLoop]
          rw [long_ok (by omega) (by omega)]
          simp [he]
        · have := u32i_add_div ((x : Int) + c - l)
          simp only [val_cons, List.length_cons, pow_succ, val_nil] at hv ⊢
          push_cast at hv ⊢
          linear_combination this + 4294967296 * hv
      | cons y ys =>
        rw [wordsOk_cons] at hr
        obtain ⟨hy0, hys⟩ := hr
        obtain ⟨r, c', he, hlr, hr', hv⟩ := ih hxs hls hys (by simpa using h1) (by simpa using h2)
          (c := ((x : Int) + c - l - y) / 4294967296) (by omega) (by omega)
        refine ⟨u32i ((x : Int) + c - l - y) :: r, c', ?_, by simp [hlr], wordsOk_cons.2 ⟨u32i_lt _, hr'⟩, ?_⟩
        · simp only [subtractCoreLoop]
          rw [long_ok (by omega) (by omega)]
          simp [he]
        · have := u32i_add_div ((x : Int) + c - l - y)
          simp only [val_cons, List.length_cons, pow_succ] at hv ⊢
          push_cast at hv ⊢
          linear_combination this + 4294967296 * hv

theorem subtractCore_spec {core lhs rhs : List Nat} (hc : WordsOk core) (hl : WordsOk lhs) (hr : WordsOk rhs)
    (h1 : rhs.length ≤ lhs.length) (h2 : lhs.length ≤ core.length) (hle : val lhs + val rhs ≤ val core) :
    ∃ r, subtractCore lhs rhs core = .ok r ∧ r.length = core.length ∧ WordsOk r ∧
      val r = val core - (val lhs + val rhs) := by
  obtain ⟨r, c, he, hlr, hr, hv⟩ := subtractCoreLoop_spec hc hl hr h1 h2 (c := 0) (by omega) (by omega)
  have hrb := val_lt hr
  rw [hlr] at hrb
  have hxb := val_lt hc
  obtain ⟨hc0, hv'⟩ := carry_zero hrb (t := val core - (val lhs + val rhs)) (by omega) (c := c)
    (by rw [hv, Nat.cast_sub hle]; push_cast; ring)
  exact ⟨r, by simp [subtractCore, h1, h2, he], hlr, hr, hv'⟩

theorem mulRow_spec {w left : List Nat} (hw : WordsOk w) (hl : WordsOk left) (hlen : w.length = left.length)
    {x r c : Nat} (rest : List Nat) (hr : r < 4294967296) (hc : c < 4294967296) :
    ∃ o, mulRow (w ++ x :: rest) left r c = .ok (o ++ rest) ∧ o.length = w.length + 1 ∧ WordsOk o ∧
      val o = val w + val left * r + c := by
  induction w generalizing left c with
  | nil =>
    have : left = [] := by simpa using hlen.symm
    subst this
    exact ⟨[c], by simp [mulRow, u32_of_lt hc], rfl, wordsOk_cons.2 ⟨hc, wordsOk_nil⟩, by simp⟩
  | cons b w ih =>
    cases left with
    | nil => simp at hlen
    | cons l ls =>
      rw [wordsOk_cons] at hw hl
      have hm := mul_lt_sq hl.1 hr
      have hb := hw.1
      have hd : u64 (u64 (b + c) + u64 (l * r)) = b + c + l * r := by
        rw [u64_of_lt (n := b + c) (by omega), u64_of_lt (n := l * r) (by omega), u64_of_lt (by omega)]
      obtain ⟨o, he, h1, h2, h3⟩ := ih hw.2 hl.2 (by simpa using hlen) (c := (b + c + l * r) / 4294967296) (by omega)
      refine ⟨u32 (b + c + l * r) :: o, by simp [mulRow, hd, he], by simp [h1], wordsOk_cons.2 ⟨u32_lt _, h2⟩, ?_⟩
      have := u32_add_div (b + c + l * r)
      simp only [val_cons, h3]
      linear_combination this

theorem mulSchool_spec {w left right : List Nat} (hw : WordsOk w) (hl : WordsOk left) (hr : WordsOk right)
    (hlen : w.length = left.length) {rest : List Nat} (hrest : rest.length = right.length) :
    ∃ o, mulSchool left right (w ++ rest) = .ok o ∧ o.length = w.length + rest.length ∧ WordsOk o ∧
      val o = val w + val left * val right := by
  induction right generalizing w rest with
  | nil =>
    have : rest = [] := by simpa using hrest
    subst this
    exact ⟨w, by simp [mulSchool], by simp, hw, by simp⟩
  | cons r rs ih =>
    cases rest with
    | nil => simp at hrest
    | cons x rest =>
      rw [wordsOk_cons] at hr
      obtain ⟨o, he, h1, h2, h3⟩ := mulRow_spec hw hl hlen (x := x) rest hr.1 (c := 0) (by omega)
      cases o with
      | nil => simp at h1
      | cons b bs =>
        rw [wordsOk_cons] at h2
        have hbs : bs.length = w.length := by simpa using h1
        obtain ⟨t, he', h1', h2', h3'⟩ := ih h2.2 hr.2 (by omega) (by simpa using hrest)
        refine ⟨b :: t, ?_, by simp [h1', hbs]; omega, wordsOk_cons.2 ⟨h2.1, h2'⟩, ?_⟩
        · simp [mulSchool, he, he']
        · rw [val_cons] at h3 ⊢
          rw [h3', val_cons]
          linear_combination h3

/-- Recombination of a Karatsuba step: the middle part is added at offset `n` and does not overflow. -/
theorem karatsuba_combine {all core : List Nat} {n : Nat} (ha : WordsOk all) (hc : WordsOk core)
    (hn : n ≤ all.length) (hl : core.length ≤ all.length - n)
    (hb : val all + 𝔹 ^ n * val core < 𝔹 ^ all.length) :
    ∃ o, (do let upper ← slice all n (all.length - n)
             let upper ← addSelf upper core
             (.ok (all.take n ++ upper) : Res (List Nat))) = .ok o ∧ o.length = all.length ∧ WordsOk o ∧
      val o = val all + 𝔹 ^ n * val core := by
  have hsplit := val_take_add_drop all n hn
  have hP : 𝔹 ^ all.length = 𝔹 ^ n * 𝔹 ^ (all.length - n) := by
    rw [← pow_add]; congr 1; omega
  have hpos : 0 < 𝔹 ^ n := Nat.pow_pos (by decide)
  have hb' : val (all.drop n) + val core < 𝔹 ^ (all.drop n).length := by
    rw [List.length_drop]
    apply Nat.lt_of_mul_lt_mul_left (a := 𝔹 ^ n)
    rw [← hP]
    calc 𝔹 ^ n * (val (all.drop n) + val core)
        ≤ val (all.take n) + 𝔹 ^ n * val (all.drop n) + 𝔹 ^ n * val core := by rw [Nat.mul_add]; omega
      _ < _ := by rw [hsplit]; exact hb
  obtain ⟨o, he, h1, h2, h3⟩ := addSelf_spec (ha.drop n) hc (by rw [List.length_drop]; exact hl) hb'
  rw [slice_suffix hn]
  simp only [Res.ok_bind, he]
  refine ⟨_, rfl, ?_, wordsOk_append.2 ⟨ha.take n, h2⟩, ?_⟩
  · simp [h1]; omega
  · rw [val_append, h3, List.length_take, Nat.min_eq_left hn]
    linear_combination hsplit

theorem mulCore_spec (n : Nat) {left right : List Nat} (hl : WordsOk left) (hr : WordsOk right)
    (hn : right.length = n) (hlen : n ≤ left.length) :
    ∃ o, mulCore left right (List.replicate (left.length + n) 0) n = .ok o ∧
      o.length = left.length + n ∧ WordsOk o ∧ val o = val left * val right := by
  induction n using Nat.strongRecOn generalizing left right with
  | ind n ih =>
  rw [mulCore]
  rw [cassert_pos (by omega), cassert_pos (by simp)]
  simp only [Res.ok_bind]
  split_ifs with hth
  · obtain ⟨o, he, h1, h2, h3⟩ := mulSchool_spec (wordsOk_replicate_zero left.length) hl hr (by simp)
      (rest := List.replicate n 0) (by simp [hn])
    rw [List.replicate_append_replicate] at he
    exact ⟨o, he, by simpa using h1, h2, by simpa using h3⟩
  · simp only [MultiplyThreshold, not_lt] at hth
    generalize hm : n / 2 = m at *
    have hm1 : 2 ≤ m := by omega
    have hm2 : m * 2 ≤ n := by omega
    rw [slice_prefix (by omega), slice_suffix (by omega), slice_prefix (by omega)]
    rw [show slice right m (n - m) = .ok (right.drop m) by rw [← hn]; exact slice_suffix (by omega)]
    rw [slice_prefix (by simp; omega)]
    simp only [Res.ok_bind, List.take_replicate]
    rw [slice_suffix (by simp; omega)]
    simp only [Res.ok_bind, List.drop_replicate]
    -- low and high products
    obtain ⟨lo, he1, hl1, hw1, hv1⟩ := ih m (by omega) (hl.take m) (hr.take m) (by simp; omega) (by simp; omega)
    obtain ⟨hi, he2, hl2, hw2, hv2⟩ := ih (n - m) (by omega) (hl.drop m) (hr.drop m) (by simp; omega) (by simp; omega)
    rw [List.length_take, Nat.min_eq_left (by omega)] at he1 hl1
    rw [List.length_drop] at he2 hl2
    rw [show min (m * 2) (left.length + n) = m + m by omega, he1]
    simp only [Res.ok_bind]
    rw [show left.length + n - m * 2 = left.length - m + (n - m) by omega, he2]
    simp only [Res.ok_bind]
    -- folds
    obtain ⟨lf, he3, hl3, hw3, hv3⟩ := addPtr_spec (hl.drop m) (hl.take m) (by simp; omega)
    obtain ⟨rf, he4, hl4, hw4, hv4⟩ := addPtr_spec (hr.drop m) (hr.take m) (by simp; omega)
    rw [he3]
    simp only [Res.ok_bind]
    rw [show n - m + 1 = (right.drop m).length + 1 by simp; omega, he4]
    simp only [Res.ok_bind]
    -- middle product
    obtain ⟨co, he5, hl5, hw5, hv5⟩ := ih (rf.length) (by rw [hl4]; simp; omega) hw3 hw4 rfl
      (by rw [hl3, hl4]; simp; omega)
    rw [← hl4, he5]
    simp only [Res.ok_bind]
    rw [List.length_drop] at hl3 hl4
    have e1 := val_take_add_drop left m (by omega)
    have e2 := val_take_add_drop right m (by omega)
    have hB : 0 < 𝔹 ^ m := Nat.pow_pos (by decide)
    have hprod : val co = val hi + val lo + (val (left.take m) * val (right.drop m) + val (left.drop m) * val (right.take m)) := by
      rw [hv5, hv3, hv4, hv1, hv2]; ring
    obtain ⟨c2, he6, hl6, hw6, hv6⟩ := subtractCore_spec hw5 hw2 hw1 (by omega) (by omega) (by omega)
    rw [he6]
    simp only [Res.ok_bind]
    have hc2 : val c2 = val (left.take m) * val (right.drop m) + val (left.drop m) * val (right.take m) := by omega
    have hall : val (lo ++ hi) + 𝔹 ^ m * val c2 = val left * val right := by
      rw [val_append, hl1, hv1, hv2, hc2, ← e1, ← e2, pow_add]; ring
    have hlb := val_lt hl
    have hrb := val_lt hr
    obtain ⟨o, he7, hl7, hw7, hv7⟩ := karatsuba_combine (all := lo ++ hi) (core := c2) (n := m)
      (wordsOk_append.2 ⟨hw1, hw2⟩) hw6 (by simp; omega) (by simp; omega) (by
        rw [hall]
        have : (lo ++ hi).length = left.length + right.length := by simp; omega
        rw [this, pow_add]
        exact Nat.mul_lt_mul'' hlb hrb)
    refine ⟨o, he7, by rw [hl7]; simp; omega, hw7, by rw [hv7, hall]⟩

theorem multiplyVec_spec {xs ys : List Nat} (hx : WordsOk xs) (hy : WordsOk ys) (hxn : xs ≠ []) (hyn : ys ≠ [])
    (hl : ys.length ≤ xs.length) (hs : xs.length + ys.length < 2147483648) :
    ∃ r, multiplyVec xs ys = .ok r ∧ r.length = xs.length + ys.length ∧ WordsOk r ∧ val r = val xs * val ys := by
  obtain ⟨r, he, h⟩ := mulCore_spec ys.length hx hy rfl hl
  exact ⟨r, by simp [multiplyVec, hl, he, hxn, hyn, sizeInt_ok hs], h⟩

/-! ### squaring -/

theorem sqRow_spec {w pre : List Nat} (hw : WordsOk w) (hp : WordsOk pre) (hlen : w.length = pre.length)
    {x y v c : Nat} (rest : List Nat) (hv : v < 4294967296) (hc : c ≤ 8589934590) :
    ∃ o, sqRow (w ++ x :: y :: rest) pre v c = .ok (o ++ rest) ∧ o.length = w.length + 2 ∧ WordsOk o ∧
      val o = val w + 2 * val pre * v + 𝔹 ^ pre.length * (v * v) + c := by
  induction w generalizing pre c with
  | nil =>
    have : pre = [] := by simpa using hlen.symm
    subst this
    have hm := mul_lt_sq hv hv
    have hd : u64 (u64 (v * v) + c) = v * v + c := by
      rw [u64_of_lt (n := v * v) (by omega), u64_of_lt (by omega)]
    refine ⟨[u32 (v * v + c), u32 ((v * v + c) / 4294967296)], by simp [sqRow, hd], rfl, ?_, ?_⟩
    · exact wordsOk_cons.2 ⟨u32_lt _, wordsOk_cons.2 ⟨u32_lt _, wordsOk_nil⟩⟩
    · rw [u32_of_lt (n := (v * v + c) / 4294967296) (by omega)]
      have := u32_add_div (v * v + c)
      simp only [val_cons, val_nil, List.length_nil, pow_zero]
      linear_combination this
  | cons b w ih =>
    cases pre with
    | nil => simp at hlen
    | cons p ps =>
      rw [wordsOk_cons] at hw hp
      have hm := mul_lt_sq hp.1 hv
      have hb := hw.1
      have hd1 : u64 (b + c) = b + c := u64_of_lt (by omega)
      have hd2 : u64 (p * v) = p * v := u64_of_lt (by omega)
      have hcar : u64 (p * v + (b + c) / 2) / 2147483648 = (b + c + 2 * (p * v)) / 4294967296 := by
        rw [u64_of_lt (by omega)]; omega
      have hlow : u32 (u64 (b + c + u64 (p * v * 2))) = u32 (b + c + 2 * (p * v)) := by
        unfold u32 u64; omega
      obtain ⟨o, he, h1, h2, h3⟩ := ih hw.2 hp.2 (by simpa using hlen)
        (c := (b + c + 2 * (p * v)) / 4294967296) (by omega)
      refine ⟨u32 (b + c + 2 * (p * v)) :: o, by simp [sqRow, hd1, hd2, hcar, hlow, he], by simp [h1],
        wordsOk_cons.2 ⟨u32_lt _, h2⟩, ?_⟩
      have := u32_add_div (b + c + 2 * (p * v))
      simp only [val_cons, h3, List.length_cons, pow_succ]
      linear_combination this

theorem sqSchool_spec {w pre vs : List Nat} (hw : WordsOk w) (hp : WordsOk pre) (hv : WordsOk vs)
    (hlen : w.length = pre.length) {rest : List Nat} (hrest : rest.length = 2 * vs.length) :
    ∃ o, sqSchool pre vs (w ++ rest) = .ok o ∧ o.length = w.length + rest.length ∧ WordsOk o ∧
      val o = val w + 2 * val pre * val vs + 𝔹 ^ pre.length * (val vs * val vs) := by
  induction vs generalizing w pre rest with
  | nil =>
    have : rest = [] := by simpa using hrest
    subst this
    exact ⟨w, by simp [sqSchool], by simp, hw, by simp⟩
  | cons v vs ih =>
    match rest, hrest with
    | [], h => simp at h
    | [_], h => simp at h; omega
    | x :: y :: rest, hrest =>
      rw [wordsOk_cons] at hv
      obtain ⟨o, he, h1, h2, h3⟩ := sqRow_spec hw hp hlen (x := x) (y := y) rest hv.1 (c := 0) (by omega)
      cases o with
      | nil => simp at h1
      | cons b bs =>
        rw [wordsOk_cons] at h2
        have hbs : bs.length = w.length + 1 := by simpa using h1
        simp only [List.length_cons] at hrest
        obtain ⟨t, he', h1', h2', h3'⟩ := ih h2.2
          (wordsOk_append.2 ⟨hp, wordsOk_cons.2 ⟨hv.1, wordsOk_nil⟩⟩) hv.2 (by simp; omega) (rest := rest) (by omega)
        refine ⟨b :: t, ?_, by simp [h1', hbs]; omega, wordsOk_cons.2 ⟨h2.1, h2'⟩, ?_⟩
        · simp [sqSchool, he, he']
        · rw [val_cons] at h3 ⊢
          rw [h3', val_cons, val_append, val_singleton]
          simp only [List.length_append, List.length_singleton, pow_succ]
          linear_combination h3

theorem sqCore_spec (n : Nat) {value : List Nat} (hw : WordsOk value) (hn : value.length = n) {bits : List Nat}
    (hbits : bits.length = n + n) :
    ∃ o, sqCore value bits n = .ok o ∧ o.length = n + n ∧ WordsOk o ∧ val o = val value * val value := by
  induction n using Nat.strongRecOn generalizing value bits with
  | ind n ih =>
  rw [sqCore]
  rw [cassert_pos hbits]
  simp only [Res.ok_bind]
  split_ifs with hth
  · obtain ⟨o, he, h1, h2, h3⟩ := sqSchool_spec wordsOk_nil wordsOk_nil hw rfl (rest := bits) (by omega)
    exact ⟨o, he, by simpa [hbits] using h1, h2, by simpa using h3⟩
  · simp only [SquareThreshold, not_lt] at hth
    generalize hm : n / 2 = m at *
    have hm1 : 2 ≤ m := by omega
    have hm2 : m * 2 ≤ n := by omega
    rw [slice_prefix (by omega)]
    rw [show slice value m (n - m) = .ok (value.drop m) by rw [← hn]; exact slice_suffix (by omega)]
    rw [slice_prefix (by omega), slice_suffix (by omega)]
    simp only [Res.ok_bind]
    obtain ⟨lo, he1, hl1, hw1, hv1⟩ := ih m (by omega) (hw.take m) (by simp; omega) (bits := bits.take (m * 2)) (by simp; omega)
    obtain ⟨hi, he2, hl2, hw2, hv2⟩ := ih (n - m) (by omega) (hw.drop m) (by simp; omega) (bits := bits.drop (m * 2)) (by simp; omega)
    rw [he1]
    simp only [Res.ok_bind]
    rw [he2]
    simp only [Res.ok_bind]
    obtain ⟨lf, he3, hl3, hw3, hv3⟩ := addPtr_spec (hw.drop m) (hw.take m) (by simp; omega)
    rw [show n - m + 1 = (value.drop m).length + 1 by simp; omega, he3]
    simp only [Res.ok_bind]
    rw [← hl3]
    obtain ⟨co, he5, hl5, hw5, hv5⟩ := ih (lf.length) (by rw [hl3]; simp; omega) hw3 rfl
      (bits := List.replicate (lf.length + lf.length) 0) (by simp)
    rw [he5]
    simp only [Res.ok_bind]
    rw [List.length_drop] at hl3
    have e1 := val_take_add_drop value m (by omega)
    have hprod : val co = val hi + val lo + 2 * (val (value.take m) * val (value.drop m)) := by
      rw [hv5, hv3, hv1, hv2]; ring
    obtain ⟨c2, he6, hl6, hw6, hv6⟩ := subtractCore_spec hw5 hw2 hw1 (by omega) (by omega) (by omega)
    rw [he6]
    simp only [Res.ok_bind]
    have hc2 : val c2 = 2 * (val (value.take m) * val (value.drop m)) := by omega
    have hall : val (lo ++ hi) + 𝔹 ^ m * val c2 = val value * val value := by
      rw [val_append, hl1, hv1, hv2, hc2, ← e1, pow_add]; ring
    have hlb := val_lt hw
    obtain ⟨o, he7, hl7, hw7, hv7⟩ := karatsuba_combine (all := lo ++ hi) (core := c2) (n := m)
      (wordsOk_append.2 ⟨hw1, hw2⟩) hw6 (by simp; omega) (by simp; omega) (by
        rw [hall]
        have : (lo ++ hi).length = value.length + value.length := by simp; omega
        rw [this, pow_add]
        exact Nat.mul_lt_mul'' hlb hlb)
    exact ⟨o, he7, by rw [hl7]; simp; omega, hw7, by rw [hv7, hall]⟩

theorem squareVec_spec {xs : List Nat} (hx : WordsOk xs) (hxn : xs ≠ []) (hs : xs.length * 2 < 2147483648) :
    ∃ r, squareVec xs = .ok r ∧ r.length = xs.length * 2 ∧ WordsOk r ∧ val r = val xs * val xs := by
  obtain ⟨r, he, h⟩ := sqCore_spec xs.length hx rfl (bits := List.replicate (xs.length * 2) 0) (by simp; omega)
  exact ⟨r, by simp [squareVec, he, hxn, sizeInt_ok hs], by omega, h.2⟩

end BigIntegerCpp
