import Verif.Model.Calculator
import Verif.Lemmas.Oracle5
import Verif.CalculatorSpec
/- Lemmas about the calculator of the unit tests. -/
set_option linter.unusedSectionVars false
namespace BigIntegerCpp
variable [Cfg]
namespace Calculator
open Oracle

omit [Cfg] in
theorem tokens_blank (w rest : List Char) (hw : ' ' ∉ w) : tokens (w ++ ' ' :: rest) = w :: tokens rest := by
  induction w with
  | nil => simp [tokens]
  | cons c cs ih =>
    simp only [List.mem_cons, not_or] at hw
    simp only [List.cons_append, tokens, ih hw.2, if_neg (Ne.symm hw.1)]

omit [Cfg] in
theorem tokens_word (w : List Char) (hw : ' ' ∉ w) : tokens w = [w] := by
  induction w with
  | nil => rfl
  | cons c cs ih =>
    simp only [List.mem_cons, not_or] at hw
    simp only [tokens, ih hw.2, if_neg (Ne.symm hw.1)]

omit [Cfg] in
theorem char_byte {b : Nat} (hb : b < 256) : (Char.ofNat b).toNat = b ∧ (Char.ofNat b = ' ' ↔ b = 32) ∧ [Char.ofNat b] ≠ "endmake".toList := by
  have : ∀ b < 256, (Char.ofNat b).toNat = b ∧ (Char.ofNat b = ' ' ↔ b = 32) := by decide +kernel
  exact ⟨(this b hb).1, (this b hb).2, fun h => by have := congrArg List.length h; simp at this⟩

theorem construct_cons (op : List Char) (ops : List (List Char)) : construct (op :: ops) =
    if op = "endmake".toList then .ok ([], ops)
    else (construct ops).bind fun p => .ok ((match op with | c :: _ => c.toNat | [] => 0) :: p.1, p.2) := rfl

omit [Cfg] in
theorem endmake_blank : "endmake ".toList = "endmake".toList ++ [' '] := by decide
omit [Cfg] in
theorem make_blank : "make ".toList = "make".toList ++ [' '] := by decide

theorem construct_bytes {bytes : List Nat} (hb : BytesOk bytes) (rest : List Char) :
    construct (tokens (bytes.flatMap (fun b => [Char.ofNat b, ' ']) ++ ("endmake ".toList ++ rest))) = .ok (readBack bytes, tokens rest) := by
  induction bytes with
  | nil =>
    rw [List.flatMap_nil, List.nil_append, endmake_blank, List.append_assoc, List.singleton_append, tokens_blank _ _ (by decide), construct_cons,
      if_pos rfl]
    rfl
  | cons b bs ih =>
    have hb0 : b < 256 := hb b (by simp)
    obtain ⟨h1, h2, h3⟩ := char_byte hb0
    have ih := ih fun c hc => hb c (by simp [hc])
    rw [List.flatMap_cons, List.append_assoc]
    by_cases h : b = 32
    · rw [h2.2 h, List.cons_append, List.cons_append, List.nil_append]
      rw [tokens, if_pos rfl, tokens, if_pos rfl, construct_cons, if_neg (by decide), construct_cons, if_neg (by decide), ih]
      simp [readBack, h, Res.bind]
    · have hn : ' ' ∉ [Char.ofNat b] := by
        simp only [List.mem_cons, List.not_mem_nil, or_false]
        exact fun hc => h (h2.1 hc.symm)
      rw [show [Char.ofNat b, ' '] = [Char.ofNat b] ++ [' '] from rfl, List.append_assoc, List.singleton_append (x := ' '), tokens_blank _ _ hn, construct_cons, if_neg h3, ih]
      simp [readBack, h, h1, Res.bind]

omit [Cfg] in
theorem readBack_ok {bytes : List Nat} (hb : BytesOk bytes) : BytesOk (readBack bytes) := by
  intro c hc
  obtain ⟨b, h1, h2⟩ := List.mem_flatMap.1 hc
  by_cases h : b = 32
  · rw [if_pos h] at h2
    simp at h2
    omega
  · rw [if_neg h] at h2
    simp at h2
    subst h2
    exact hb _ h1

omit [Cfg] in
theorem readBack_length (bytes : List Nat) : (readBack bytes).length ≤ 2 * bytes.length := by
  induction bytes with
  | nil => simp [readBack]
  | cons b bs ih =>
    unfold readBack at *
    rw [List.flatMap_cons, List.length_append, List.length_cons]
    by_cases h : b = 32
    · rw [if_pos h, List.length_cons, List.length_singleton]; omega
    · rw [if_neg h, List.length_singleton]; omega

omit [Cfg] in
theorem readBack_eq {bytes : List Nat} (h : 32 ∉ bytes) : readBack bytes = bytes := by
  induction bytes with
  | nil => rfl
  | cons b bs ih =>
    simp only [List.mem_cons, not_or] at h
    have ih := ih h.2
    unfold readBack at *
    rw [List.flatMap_cons, ih, if_neg (Ne.symm h.1)]
    rfl

/-- The first step on the text of an array of bytes. -/
theorem next_make (n : Nat) (logs : Logs) {bytes : List Nat} (hb : BytesOk bytes) (rest : List Char) {a : BigInt}
    (ha : ofBytes (readBack bytes) false false = .ok a) (c : Calc) (hc : c.operators = tokens (print bytes ++ rest)) :
    next n logs c = .ok (some { c with operators := tokens rest, snCalc := a :: c.snCalc, myCalc := a :: c.myCalc }) := by
  have ht : tokens (print bytes ++ rest) = "make".toList :: tokens (bytes.flatMap (fun b => [Char.ofNat b, ' ']) ++ ("endmake ".toList ++ rest)) := by
    rw [← tokens_blank _ _ (by decide)]
    unfold print
    rw [make_blank]
    simp only [List.append_assoc, List.cons_append, List.nil_append]
  unfold next
  rw [hc, ht]
  dsimp only
  rw [if_neg (by decide), if_neg (by decide), if_neg (by decide), if_pos rfl, construct_bytes hb, Res.ok_bind]
  dsimp only
  rw [ha, Res.ok_bind]

theorem ne_self {a : BigInt} {x : Int} (ha : a.Denotes x) : a.ne a = .ok false := by
  unfold BigInt.ne
  rw [BigInt.equals_spec ha ha]
  simp

theorem pop_cons (a : BigInt) (as : List BigInt) : pop (a :: as) = .ok (a, as) := rfl

theorem next_unary (n : Nat) (logs : Logs) {op : String} (ho : op.toList.head? = some 'u') {a s m : BigInt} {x : Int} (ha : a.Denotes x)
    (hs : libUnary a op = some (.ok s)) (hm : unary a op = some (.ok m)) (ops : List (List Char)) (sn my : List BigInt) (so mo : BigInt) :
    next n logs ⟨op.toList :: ops, a :: sn, a :: my, so, mo⟩ = .ok (some ⟨ops, s :: sn, m :: my, so, mo⟩) := by
  unfold next
  dsimp only
  rw [if_pos ho]
  simp only [pop_cons, Res.ok_bind, String.ofList_toList, hs, hm, Option.getD_some, ne_self ha, Bool.false_eq_true, if_false]

theorem next_binary (n : Nat) (logs : Logs) {op : String} (ho : op.toList.head? = some 'b') {a b s m s' m' : BigInt} {x y : Int} (ha : a.Denotes x)
    (hb : b.Denotes y) (hs : libBinary n a b op = some (.ok (s, s'))) (hm : binary n a b op = some (.ok (m, m'))) (ops : List (List Char))
    (sn my : List BigInt) (so mo : BigInt) :
    next n logs ⟨op.toList :: ops, a :: b :: sn, a :: b :: my, so, mo⟩ = .ok (some ⟨ops, s :: sn, m :: my, s', m'⟩) := by
  unfold next
  dsimp only
  rw [if_neg (by rw [ho]; decide), if_pos ho]
  simp only [pop_cons, Res.ok_bind, String.ofList_toList, hs, hm, Option.getD_some, ne_self ha, ne_self hb, Bool.false_eq_true, if_false]

theorem next_ternary (n : Nat) (logs : Logs) {op : String} (ho : op.toList.head? = some 't') {a b d s m : BigInt} {x y z : Int} (ha : a.Denotes x)
    (hb : b.Denotes y) (hd : d.Denotes z) (hs : libTernary a b d op = .ok s) (hm : ternary a b d op = .ok m) (ops : List (List Char))
    (sn my : List BigInt) (so mo : BigInt) :
    next n logs ⟨op.toList :: ops, a :: b :: d :: sn, a :: b :: d :: my, so, mo⟩ = .ok (some ⟨ops, s :: sn, m :: my, so, mo⟩) := by
  unfold next
  dsimp only
  rw [if_neg (by rw [ho]; decide), if_neg (by rw [ho]; decide), if_pos ho]
  simp only [pop_cons, Res.ok_bind, String.ofList_toList, hs, hm, ne_self ha, ne_self hb, ne_self hd, Bool.false_eq_true, if_false]

/-- One round of the loop of a test without out parameter. -/
theorem verify_step {n : Nat} {logs : Logs} {c d : Calc} {s m : BigInt} {sn my : List BigInt} {t u : List Char} (hn : next n logs c = .ok (some d))
    (h1 : d.snCalc = s :: sn) (h2 : d.myCalc = m :: my) (h3 : s.toStr = .ok t) (h4 : m.toStr = .ok u) (k : Nat) :
    verify false n logs (k + 1) c = if t = u then verify false n logs k d else .ok false := by
  rw [verify, hn, Res.ok_bind]
  dsimp only
  simp only [h1, h2, pop_cons, Res.ok_bind, h3, h4, Bool.false_eq_true, if_false]

theorem verify_out {n : Nat} {logs : Logs} {c d : Calc} {s m : BigInt} {sn my : List BigInt} {t u : List Char} (hn : next n logs c = .ok (some d))
    (h1 : d.snCalc = s :: sn) (h2 : d.myCalc = m :: my) (h3 : s.toStr = .ok t) (h4 : m.toStr = .ok u) (k : Nat) :
    verify true n logs (k + 1) c = if t = u then (verifyOutParameter d).bind (verify true n logs k) else .ok false := by
  rw [verify, hn, Res.ok_bind]
  dsimp only
  simp only [h1, h2, pop_cons, Res.ok_bind, h3, h4, if_true]
  rfl

theorem verify_end {out : Bool} {n : Nat} {logs : Logs} (k : Nat) (sn my : List BigInt) (so mo : BigInt) :
    verify out n logs (k + 1) ⟨[], sn, my, so, mo⟩ = .ok true := rfl

end Calculator
end BigIntegerCpp
