import Verif.Lemmas.Loops
import Verif.Lemmas.Text
/-
The loops over indices of `to_string` and `parse` compute what the recursions over lists compute.
-/
set_option linter.unusedSectionVars false
namespace BigIntegerCpp
namespace Loop
variable [Cfg]

/-! ### conversion to base 10^9 -/

omit [Cfg] in
theorem put_out {α : Type} {a : List α} {i : Nat} {v : α} (h : a.length ≤ i) : put a i v = .ub .outOfBounds := by
  unfold put; rw [if_neg (by omega)]

theorem baseLoop_eq (pre ds tail : List Nat) (c : Nat) :
    (do
      let (_, c, dst) ← forLoop (pre.length + ds.length) (fun iuDst (uCarry, dst) => do
        let d ← idx dst iuDst
        cassert (d < 1000000000)
        let uuRes := u64 (d <<< 32) ||| uCarry
        let dst ← put dst iuDst (u32 (uuRes % 1000000000))
        .ok (u32 (uuRes / 1000000000), dst)) pre.length (c, pre ++ (ds ++ tail))
      Res.ok (c, dst)) =
    (do
      let (r, c) ← baseLoop ds c
      .ok (c, pre ++ (r ++ tail))) := by
  induction ds generalizing pre c with
  | nil => rw [forLoop_ge _ _ (by simp)]; simp [baseLoop]
  | cons d ds ih =>
    rw [forLoop_lt _ _ (by simp)]
    simp only [List.cons_append, idx_mid pre d _ rfl, Res.ok_bind, baseLoop, Res.bind_assoc]
    refine bind_congr_of_ok fun _ _ => ?_
    simp only [put_mid pre d _ _ rfl, Res.ok_bind]
    have := ih (pre ++ [u32 ((u64 (d <<< 32) ||| c) % 1000000000)]) (u32 ((u64 (d <<< 32) ||| c) / 1000000000))
    simp only [List.append_assoc, List.singleton_append, List.length_append, List.length_cons, List.length_nil,
      Nat.zero_add] at this ⊢
    rw [show pre.length + (ds.length + 1) = pre.length + 1 + ds.length by omega]
    exact this

theorem baseLoop_length {ds r : List Nat} {c c' : Nat} (h : baseLoop ds c = .ok (r, c')) : r.length = ds.length := by
  induction ds generalizing c r with
  | nil => cases h; rfl
  | cons d ds ih =>
    obtain ⟨_, _, h⟩ := Res.bind_eq_ok h
    obtain ⟨⟨r', c''⟩, h1, h2⟩ := Res.bind_eq_ok h
    cases h2
    simp [ih h1]

/-- One source word of the conversion. -/
def baseStep (cuMax w : Nat) (ds : List Nat) : Res (List Nat) := do
  let (ds, c) ← baseLoop ds w
  if c ≠ 0 then do
    let ds ← pushDigit cuMax ds (c % 1000000000)
    if c / 1000000000 ≠ 0 then pushDigit cuMax ds (c / 1000000000) else .ok ds
  else .ok ds

/-- The words of `ws`, most significant first, starting from the digits `ds`. -/
def baseFrom (cuMax : Nat) : List Nat → List Nat → Res (List Nat)
  | [], ds => .ok ds
  | w :: ws, ds => do
    let ds ← baseFrom cuMax ws ds
    baseStep cuMax w ds

theorem toBase_from (cuMax : Nat) (ws : List Nat) : BigIntegerCpp.toBase cuMax ws = baseFrom cuMax ws [] := by
  induction ws with
  | nil => rfl
  | cons w ws ih => rw [BigIntegerCpp.toBase, baseFrom, ih]; rfl

theorem baseFrom_snoc (cuMax : Nat) (ws : List Nat) (w : Nat) (ds : List Nat) :
    baseFrom cuMax (ws ++ [w]) ds = baseStep cuMax w ds >>= baseFrom cuMax ws := by
  induction ws with
  | nil =>
    simp only [List.nil_append, baseFrom, Res.ok_bind]
    cases baseStep cuMax w ds <;> rfl
  | cons v ws ih => rw [List.cons_append, baseFrom, ih, Res.bind_assoc]; rfl

/-- The array of `cuMax` words with the digits `ds`, and the number of these. -/
def digitArray (cuMax : Nat) (ds : List Nat) : Nat × List Nat := (ds.length, ds ++ List.replicate (cuMax - ds.length) 0)

theorem pushDigit_eq (cuMax : Nat) (ds : List Nat) (d : Nat) :
    (put (digitArray cuMax ds).2 ds.length d >>= fun a => Res.ok (ds.length + 1, a)) =
      (pushDigit cuMax ds d >>= fun ds => .ok (digitArray cuMax ds)) := by
  unfold pushDigit digitArray
  by_cases h : ds.length < cuMax
  · obtain ⟨k, hk⟩ : ∃ k, cuMax - ds.length = k + 1 := ⟨cuMax - ds.length - 1, by omega⟩
    rw [if_pos h]
    simp only [hk, List.replicate_succ]
    rw [put_mid _ _ _ _ rfl]
    simp only [Res.ok_bind, List.length_append, List.length_singleton, List.append_assoc, List.singleton_append]
    rw [show cuMax - (ds.length + 1) = k by omega]
  · rw [if_neg h, put_out (by simp; omega)]; rfl

/-- Body of the loop over the source words. -/
def baseBody (bits : List Nat) : Nat → Nat × List Nat → Res (Nat × List Nat) := fun iuSrc (cuDst, dst) => do
    let uCarry ← idx bits iuSrc
    let (_, uCarry, dst) ← forLoop cuDst (fun iuDst (uCarry, dst) => do
      let d ← idx dst iuDst
      cassert (d < 1000000000)
      let uuRes := u64 (d <<< 32) ||| uCarry
      let dst ← put dst iuDst (u32 (uuRes % 1000000000))
      .ok (u32 (uuRes / 1000000000), dst)) 0 (uCarry, dst)
    if uCarry ≠ 0 then do
      let dst ← put dst cuDst (uCarry % 1000000000)
      let cuDst := cuDst + 1
      let uCarry := uCarry / 1000000000
      if uCarry ≠ 0 then do
        let dst ← put dst cuDst uCarry
        .ok (cuDst + 1, dst)
      else .ok (cuDst, dst)
    else .ok (cuDst, dst)

theorem baseBody_eq (cuMax : Nat) (pre : List Nat) (w : Nat) (suf ds : List Nat) :
    baseBody (pre ++ w :: suf) pre.length (digitArray cuMax ds) =
      (baseStep cuMax w ds >>= fun ds => .ok (digitArray cuMax ds)) := by
  have hl := baseLoop_eq [] ds (List.replicate (cuMax - ds.length) 0) w
  simp only [List.length_nil, Nat.zero_add, List.nil_append] at hl
  unfold baseBody baseStep
  simp only [idx_mid pre w suf rfl, Res.ok_bind, Res.bind_assoc]
  have hl2 : ∀ {β : Type} (f : Nat → List Nat → Res β), (do
      let (_, c, dst) ← forLoop (digitArray cuMax ds).1 (fun iuDst (uCarry, dst) => do
        let d ← idx dst iuDst
        cassert (d < 1000000000)
        let uuRes := u64 (d <<< 32) ||| uCarry
        let dst ← put dst iuDst (u32 (uuRes % 1000000000))
        .ok (u32 (uuRes / 1000000000), dst)) 0 (w, (digitArray cuMax ds).2)
      f c dst) = (do
      let (r, c) ← baseLoop ds w
      f c (r ++ List.replicate (cuMax - ds.length) 0)) := by
    intro β f
    have := congrArg (fun t => t >>= fun p : Nat × List Nat => f p.1 p.2) hl
    simp only [Res.bind_assoc, Res.ok_bind] at this
    exact this
  rw [hl2 (fun uCarry dst => if uCarry ≠ 0 then do
      let dst ← put dst (digitArray cuMax ds).1 (uCarry % 1000000000)
      let cuDst := (digitArray cuMax ds).1 + 1
      let uCarry := uCarry / 1000000000
      if uCarry ≠ 0 then do
        let dst ← put dst cuDst uCarry
        .ok (cuDst + 1, dst)
      else .ok (cuDst, dst)
    else .ok ((digitArray cuMax ds).1, dst))]
  refine bind_congr_of_ok fun ⟨r, c⟩ hr => ?_
  have hrl := baseLoop_length hr
  have e1 : (digitArray cuMax ds).1 = r.length := hrl.symm
  have e2 : r ++ List.replicate (cuMax - ds.length) 0 = (digitArray cuMax r).2 := by rw [← hrl]; rfl
  simp only [e1, e2]
  by_cases hc : c ≠ 0
  · simp only [if_pos hc]
    have h1 := congrArg (fun t => t >>= fun p : Nat × List Nat =>
      if c / 1000000000 ≠ 0 then put p.2 p.1 (c / 1000000000) >>= fun dst => Res.ok (p.1 + 1, dst) else .ok p)
      (pushDigit_eq cuMax r (c % 1000000000))
    simp only [Res.bind_assoc, Res.ok_bind] at h1
    refine Eq.trans h1 ?_
    rw [Res.bind_assoc]
    refine bind_congr_of_ok fun ds' _ => ?_
    by_cases hc2 : c / 1000000000 ≠ 0
    · simp only [if_pos hc2]; exact pushDigit_eq cuMax ds' (c / 1000000000)
    · simp only [if_neg hc2, Res.ok_bind]
  · simp only [if_neg hc, Res.ok_bind]; rfl

theorem baseLoopDown_eq (cuMax : Nat) (pre suf ds : List Nat) :
    forDown (baseBody (pre ++ suf)) pre.length (digitArray cuMax ds) =
      (baseFrom cuMax pre ds >>= fun ds => .ok (digitArray cuMax ds)) := by
  induction pre using List.reverseRecOn generalizing suf ds with
  | nil => rfl
  | append_singleton pre w ih =>
    rw [List.length_append, List.length_singleton, forDown, List.append_assoc, List.singleton_append, baseBody_eq,
      baseFrom_snoc, Res.bind_assoc, Res.bind_assoc]
    refine bind_congr_of_ok fun ds' _ => ?_
    rw [Res.ok_bind, ih]

theorem toBase_eq (cuMax : Nat) (bits : List Nat) :
    toBase cuMax bits = (BigIntegerCpp.toBase cuMax bits >>= fun ds => .ok (digitArray cuMax ds)) := by
  have := baseLoopDown_eq cuMax bits [] []
  rw [List.append_nil] at this
  rw [toBase_from, ← this]
  rfl

/-! ### the characters -/

/-- The array of characters with the characters `st.2` from index `st.1` on. -/
def charArray (st : Nat × List Char) : Chars := (List.replicate st.1 none ++ (st.2.map some ++ [none]), st.1)

theorem putChar_eq (st : Nat × List Char) (ch : Char) :
    putChar (charArray st) ch = (pushChar st ch >>= fun st => .ok (charArray st)) := by
  obtain ⟨i, cs⟩ := st
  unfold putChar putI charArray
  dsimp only
  cases i with
  | zero => rw [if_pos (by simp)]; rfl
  | succ i =>
    simp only [pushChar, Res.ok_bind]
    rw [if_neg (by omega), show ((i + 1 : Nat) : Int) - 1 = i by omega, Int.toNat_natCast, List.replicate_add, List.replicate_one,
      List.append_assoc, List.singleton_append, put_mid _ _ _ _ (by simp)]
    rfl

theorem pushChar_length {st st' : Nat × List Char} {ch : Char} (h : pushChar st ch = .ok st') :
    st'.1 + st'.2.length = st.1 + st.2.length := by
  obtain ⟨i, cs⟩ := st
  cases i with
  | zero => cases h
  | succ i => cases h; simp; omega

theorem putNine_eq (n u : Nat) (st : Nat × List Char) :
    putNine n u (charArray st) = (BigIntegerCpp.putNine n u st >>= fun st => .ok (charArray st)) := by
  induction n generalizing u st with
  | zero => rfl
  | succ n ih =>
    rw [putNine, BigIntegerCpp.putNine, putChar_eq, Res.bind_assoc, Res.bind_assoc]
    refine bind_congr_of_ok fun st' _ => ?_
    rw [Res.ok_bind, ih]

theorem putNine_length {n u : Nat} {st st' : Nat × List Char} (h : BigIntegerCpp.putNine n u st = .ok st') :
    st'.1 + st'.2.length = st.1 + st.2.length := by
  induction n generalizing u st with
  | zero => cases h; rfl
  | succ n ih =>
    obtain ⟨st1, h1, h2⟩ := Res.bind_eq_ok h
    rw [ih h2, pushChar_length h1]

theorem putTop_eq (u : Nat) (st : Nat × List Char) :
    putTop u (charArray st) = (BigIntegerCpp.putTop u st >>= fun st => .ok (charArray st)) := by
  induction u using Nat.strongRecOn generalizing st with
  | _ u ih =>
    rw [putTop, BigIntegerCpp.putTop]
    by_cases h : u = 0
    · rw [dif_pos h, dif_pos h]; rfl
    · rw [dif_neg h, dif_neg h, putChar_eq, Res.bind_assoc, Res.bind_assoc]
      refine bind_congr_of_ok fun st' _ => ?_
      rw [Res.ok_bind, ih _ (by omega)]

theorem putTop_length {u : Nat} {st st' : Nat × List Char} (h : BigIntegerCpp.putTop u st = .ok st') :
    st'.1 + st'.2.length = st.1 + st.2.length := by
  induction u using Nat.strongRecOn generalizing st with
  | _ u ih =>
    rw [BigIntegerCpp.putTop] at h
    by_cases hu : u = 0
    · rw [dif_pos hu] at h; cases h; rfl
    · rw [dif_neg hu] at h
      obtain ⟨st1, h1, h2⟩ := Res.bind_eq_ok h
      rw [ih _ (by omega) h2, pushChar_length h1]

theorem putLimbs_length {ds : List Nat} {st st' : Nat × List Char} (h : putLimbs ds st = .ok st') :
    st'.1 + st'.2.length = st.1 + st.2.length := by
  induction ds generalizing st with
  | nil => cases h
  | cons d ds ih =>
    cases ds with
    | nil => exact putTop_length h
    | cons d' ds =>
      obtain ⟨_, _, h⟩ := Res.bind_eq_ok h
      obtain ⟨st1, h1, h2⟩ := Res.bind_eq_ok h
      rw [ih h2, putNine_length h1]

theorem putLimbs_eq (pre ds tail : List Nat) (st : Nat × List Char) :
    (do
      let (_, st) ← forLoop (pre.length + ds.length - 1) (fun iuDst st => do
        let uDig ← idx (pre ++ (ds ++ tail)) iuDst
        cassert (uDig < 1000000000)
        putNine 9 uDig st) pre.length (charArray st)
      let uDig ← idxI (pre ++ (ds ++ tail)) (((pre.length + ds.length : Nat) : Int) - 1)
      putTop uDig st) =
    (if pre = [] ∧ ds = [] then .ub .outOfBounds else if ds = [] then (do
      let uDig ← idxI (pre ++ (ds ++ tail)) (((pre.length + ds.length : Nat) : Int) - 1)
      putTop uDig (charArray st)) else putLimbs ds st >>= fun st => .ok (charArray st)) := by
  induction ds generalizing pre st with
  | nil =>
    rw [forLoop_ge _ _ (by simp)]
    simp only [Res.ok_bind]
    by_cases h : pre = []
    · subst h; rw [if_pos ⟨rfl, trivial⟩]; rfl
    · rw [if_neg (by simp [h]), if_pos trivial]
  | cons d ds ih =>
    rw [if_neg (by simp), if_neg (by simp)]
    cases ds with
    | nil =>
      rw [forLoop_ge _ _ (by simp)]
      simp only [Res.ok_bind, idxI, List.length_singleton]
      rw [if_neg (by omega), show (((pre.length + 1 : Nat) : Int) - 1).toNat = pre.length by omega, List.singleton_append,
        idx_mid _ _ _ rfl, Res.ok_bind, putTop_eq]
      rfl
    | cons d' ds =>
      rw [forLoop_lt _ _ (by simp)]
      simp only [List.cons_append, idx_mid pre d _ rfl, Res.ok_bind, putLimbs, Res.bind_assoc]
      refine bind_congr_of_ok fun _ _ => ?_
      rw [putNine_eq, Res.bind_assoc]
      refine bind_congr_of_ok fun st' _ => ?_
      rw [Res.ok_bind]
      have := ih (pre ++ [d]) st'
      rw [if_neg (by simp), if_neg (by simp)] at this
      simp only [List.append_assoc, List.singleton_append, List.cons_append, List.length_append, List.length_cons, List.length_nil,
        Nat.zero_add] at this ⊢
      rw [show pre.length + (ds.length + 1 + 1) = pre.length + 1 + (ds.length + 1) by omega]
      exact this

theorem written_eq (cs : List Char) : written (cs.map some) = .ok cs := by
  induction cs with
  | nil => rfl
  | cons c cs ih => rw [List.map_cons, written, ih]; rfl

theorem toStr_eq (a : BigInt) : toStr a = a.toStr := by
  unfold toStr BigInt.toStr
  by_cases h : a.bits.length = 0
  · rw [if_pos h, if_pos h]
  rw [if_neg h, if_neg h]
  refine bind_congr_of_ok fun cuSrc _ => ?_
  by_cases h1 : cuSrc > 214748364
  · rw [if_pos h1, if_pos h1]
  rw [if_neg h1, if_neg h1]
  dsimp only
  rw [toBase_eq, Res.bind_assoc]
  refine bind_congr_of_ok fun ds _ => ?_
  simp only [Res.ok_bind, digitArray]
  by_cases h2 : ds.length > 238609294
  · rw [if_pos h2, if_pos h2]
  rw [if_neg h2, if_neg h2]
  by_cases h3 : ds.length * 9 = 2147483647
  · rw [if_pos h3, if_pos h3]
  rw [if_neg h3, if_neg h3]
  have hl := putLimbs_eq [] ds (List.replicate (cuSrc * 10 / 9 + 2 - ds.length) 0) (ds.length * 9, [])
  have hc : charArray (ds.length * 9, []) = (List.replicate (ds.length * 9 + 1) none, ((ds.length * 9 : Nat) : Int)) := by
    simp only [charArray, List.map_nil, List.nil_append]
    rw [List.replicate_add, List.replicate_one]
  have hl2 : (do
      let (_, st) ← forLoop (ds.length - 1) (fun iuDst st => do
        let uDig ← idx (ds ++ List.replicate (cuSrc * 10 / 9 + 2 - ds.length) 0) iuDst
        cassert (uDig < 1000000000)
        putNine 9 uDig st) 0 (List.replicate (ds.length * 9 + 1) none, ((ds.length * 9 : Nat) : Int))
      let uDig ← idxI (ds ++ List.replicate (cuSrc * 10 / 9 + 2 - ds.length) 0) ((ds.length : Int) - 1)
      putTop uDig st) = (putLimbs ds (ds.length * 9, []) >>= fun st => .ok (charArray st)) := by
    rw [← hc]
    simp only [List.length_nil, Nat.zero_add, List.nil_append, true_and] at hl
    rw [hl]
    by_cases hd : ds = []
    · subst hd; rfl
    · rw [if_neg hd, if_neg hd]
  have hl3 := congrArg (fun t => t >>= fun st : Chars => do
    let st ← (if a.sign < 0 then putChar st '-' else .ok st)
    let s ← (if st.2 < 0 then .ub .outOfBounds else slice st.1 st.2.toNat (ds.length * 9 - st.2.toNat))
    written s) hl2
  simp only [Res.bind_assoc] at hl3
  refine Eq.trans hl3 ?_
  refine bind_congr_of_ok fun st hst => ?_
  have hlen := putLimbs_length hst
  simp only [List.length_nil, Nat.add_zero] at hlen
  have hs : (if a.sign < 0 then putChar (charArray st) '-' else .ok (charArray st)) =
      ((if a.sign < 0 then pushChar st '-' else .ok st) >>= fun st => .ok (charArray st)) := by
    by_cases hn : a.sign < 0
    · rw [if_pos hn, if_pos hn, putChar_eq]
    · rw [if_neg hn, if_neg hn, Res.ok_bind]
  simp only [Res.ok_bind]
  rw [hs, Res.bind_assoc]
  refine bind_congr_of_ok fun st' hst' => ?_
  have hlen' : st'.1 + st'.2.length = ds.length * 9 := by
    by_cases hn : a.sign < 0
    · rw [if_pos hn] at hst'; rw [pushChar_length hst', hlen]
    · rw [if_neg hn] at hst'; cases hst'; exact hlen
  simp only [Res.ok_bind, charArray]
  rw [if_neg (by omega), Int.toNat_natCast, slice_ok (by simp; omega), Res.ok_bind, List.drop_left' (by simp),
    List.take_left' (by simp; omega), written_eq]

/-! ### parse -/

theorem parseLoop_eq (pre cs : List Char) (b : BigInt) : parseLoop (pre ++ cs) pre.length b = BigInt.parseLoop cs b := by
  induction cs generalizing pre b with
  | nil => rw [parseLoop]; simp [BigInt.parseLoop]
  | cons c cs ih =>
    rw [parseLoop, dif_pos (by simp), idx_mid _ _ _ rfl, Res.ok_bind, BigInt.parseLoop]
    by_cases h : '0' ≤ c ∧ c ≤ '9'
    · rw [if_pos h, if_pos h]
      refine bind_congr_of_ok fun _ _ => bind_congr_of_ok fun _ _ => bind_congr_of_ok fun _ _ =>
        bind_congr_of_ok fun b' _ => ?_
      have := ih (pre ++ [c]) b'
      simpa using this
    · rw [if_neg h, if_neg h]

theorem parse_eq (s : List Char) : parse s = BigInt.parse s := by
  cases s with
  | nil =>
    have := parseLoop_eq [] [] zeroInt
    unfold parse BigInt.parse
    simp only [List.headD_nil, show (Char.ofNat 0 = '-') = False by decide, show (Char.ofNat 0 = '+') = False by decide, if_false]
    simp only [List.append_nil, List.length_nil] at this
    rw [this]
    simp [BigInt.parseLoop]
  | cons c cs =>
    have h1 := parseLoop_eq [c] cs zeroInt
    have h0 := parseLoop_eq [] (c :: cs) zeroInt
    simp only [List.singleton_append, List.length_singleton, List.nil_append, List.length_nil] at h0 h1
    unfold parse
    dsimp -zeta only
    extract_lets s0
    have hs0 : s0 = c := rfl
    clear_value s0
    subst hs0
    by_cases hm : s0 = '-'
    · subst hm
      simp only [if_true, h1]
      rfl
    · by_cases hp : s0 = '+'
      · subst hp
        rw [if_neg hm, if_pos rfl]
        dsimp only
        rw [h1]
        show (BigInt.parseLoop cs zeroInt >>= fun b => .ok b) = BigInt.parseLoop cs zeroInt
        cases BigInt.parseLoop cs zeroInt <;> rfl
      · rw [if_neg hm, if_neg hp]
        dsimp only
        rw [h0]
        have e : BigInt.parse (s0 :: cs) = BigInt.parseLoop (s0 :: cs) zeroInt := by
          unfold BigInt.parse
          split
          · rename_i h; cases h; exact absurd rfl hm
          · rename_i h; cases h; exact absurd rfl hp
          · rfl
        rw [e]
        cases BigInt.parseLoop (s0 :: cs) zeroInt <;> rfl

end Loop
end BigIntegerCpp
