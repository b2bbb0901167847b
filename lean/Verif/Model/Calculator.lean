import Verif.Model.Oracle
import Verif.Model.Text
/-
The calculator of the unit tests, tests/stack_calc.cpp: it runs a text of operands and operations in postfix order
on the library and on the reference implementation (`Model/Oracle.lean`).  A text is a list of characters with codes
below 256.
-/
namespace BigIntegerCpp
variable [Cfg]
namespace Calculator

/-- stack_calc.cpp:4-15 the constructor: the text cut at every blank (so two blanks in a row, or one at the end, give an
empty piece). -/
def tokens : List Char → List (List Char)
  | [] => [[]]
  | c :: cs =>
    if c = ' ' then [] :: tokens cs
    else match tokens cs with
      | t :: ts => (c :: t) :: ts
      | [] => [[c]]

/-- MyBigInt.cpp:12-18 `Print`: the text that makes the number with these bytes. -/
def print (bytes : List Nat) : List Char :=
  "make ".toList ++ bytes.flatMap (fun b => [Char.ofNat b, ' ']) ++ "endmake ".toList

/-- stack_calc.h:16-29 the members of `StackCalc`; the top of a stack is the head of the list. -/
structure Calc where
  operators : List (List Char)
  snCalc : List BigInt
  myCalc : List BigInt
  snOut : BigInt
  myOut : BigInt

/-- stack_calc.cpp:4-15 a new calculator for a text. -/
def start (text : List Char) : Calc := ⟨tokens text, [], [], zeroInt, zeroInt⟩

/-- What the two sides do on the logarithms, which are not modelled: any functions of the operation and its operands. -/
structure Logs where
  lib : String → List BigInt → Res BigInt
  mine : String → List BigInt → Res BigInt

/-- `top()`, and the stack after `pop()`; on an empty stack undefined. -/
def pop : List BigInt → Res (BigInt × List BigInt)
  | a :: as => .ok (a, as)
  | [] => .ub .outOfBounds

/-- stack_calc.cpp:110-123 `DoConstruction`: first characters up to `endmake` (that of an empty piece is the
terminating zero; `front` of an empty queue is undefined). -/
def construct : List (List Char) → Res (List Nat × List (List Char))
  | [] => .ub .outOfBounds
  | op :: ops =>
    if op = "endmake".toList then .ok ([], ops)
    else do
      let (bytes, ops) ← construct ops
      .ok ((match op with | c :: _ => c.toNat | [] => 0) :: bytes, ops)

/-- stack_calc.cpp:17-108 `DoNextOperation`; `none` if it returns false.  Note that it compares the operands, not the
results.  `n` bounds the rounds of the greatest common divisors. -/
def next (n : Nat) (logs : Logs) (c : Calc) : Res (Option Calc) :=
  match c.operators with
  | [] => .ok none
  | op :: ops =>
    let name := String.ofList op
    let after (differ : Bool) := if differ then ops ++ ["Corruption".toList] else ops
    if op.head? = some 'u' then do
      let (s1, sn) ← pop c.snCalc
      let s ← (Oracle.libUnary s1 name).getD (logs.lib name [s1])
      let (m1, my) ← pop c.myCalc
      let m ← (Oracle.unary m1 name).getD (logs.mine name [m1])
      .ok (some { c with operators := after (← s1.ne m1), snCalc := s :: sn, myCalc := m :: my })
    else if op.head? = some 'b' then do
      let (s1, sn) ← pop c.snCalc
      let (s2, sn) ← pop sn
      let (s, snOut) ← (Oracle.libBinary n s1 s2 name).getD (do .ok (← logs.lib name [s1, s2], zeroInt))
      let (m1, my) ← pop c.myCalc
      let (m2, my) ← pop my
      let (m, myOut) ← (Oracle.binary n m1 m2 name).getD (do .ok (← logs.mine name [m1, m2], zeroInt))
      let differ ← (do if ← s1.ne m1 then .ok true else s2.ne m2)
      .ok (some ⟨after differ, s :: sn, m :: my, snOut, myOut⟩)
    else if op.head? = some 't' then do
      let (s1, sn) ← pop c.snCalc
      let (s2, sn) ← pop sn
      let (s3, sn) ← pop sn
      let s ← Oracle.libTernary s1 s2 s3 name
      let (m1, my) ← pop c.myCalc
      let (m2, my) ← pop my
      let (m3, my) ← pop my
      let m ← Oracle.ternary m1 m2 m3 name
      let differ ← (do if ← s1.ne m1 then .ok true else if ← s2.ne m2 then .ok true else s3.ne m3)
      .ok (some { c with operators := after differ, snCalc := s :: sn, myCalc := m :: my })
    else if op = "make".toList then do
      let (bytes, ops) ← construct ops
      let a ← ofBytes bytes false false
      .ok (some { c with operators := ops, snCalc := a :: c.snCalc, myCalc := a :: c.myCalc })
    else if op = "Corruption".toList then do
      .ok (some { c with operators := ops, snCalc := (← ofInt32 (-33)) :: c.snCalc, myCalc := (← ofInt32 (-555)) :: c.myCalc })
    else do
      let (parsed, a) ← BigInt.tryParse op zeroInt
      if parsed then .ok (some { c with operators := ops, snCalc := a :: c.snCalc, myCalc := a :: c.myCalc })
      else .ok (some { c with operators := ops })

/-- stack_calc.cpp:219-223 `VerifyOutParameter`: an `assert`. -/
def verifyOutParameter (c : Calc) : Res Calc := do
  if ¬ Cfg.ndebug then
    if ← c.snOut.ne c.myOut then .abort else .ok { c with snOut := zeroInt, myOut := zeroInt }
  else .ok { c with snOut := zeroInt, myOut := zeroInt }

/-- The loop of the tests, e.g. op_rightshift.cpp:7-14: after every operation the texts of the tops of both stacks must be
equal; `out`: with `VerifyOutParameter` as in divrem.cpp:11-14.  `false`: the test fails.  `k` bounds the rounds. -/
def verify (out : Bool) (n : Nat) (logs : Logs) : Nat → Calc → Res Bool
  | 0, _ => .diverge
  | k + 1, c => do
    match ← next n logs c with
    | none => .ok true
    | some c => do
      let (s, _) ← pop c.snCalc
      let (m, _) ← pop c.myCalc
      if (← s.toStr) = (← m.toStr) then do
        let c ← (if out then verifyOutParameter c else .ok c)
        verify out n logs k c
      else .ok false

end Calculator
end BigIntegerCpp
