import Verif.Model.Cost
import Verif.Model.Text
/-
The conversions from and to decimal text again, with what they cost.  Everything else is as in
Model/Text.lean; that the outcomes are the same is proved in Lemmas/CostText.lean (`…_res`).

A step is one iteration of a loop, or one word or character filled or copied; characters of a
temporary buffer are counted like words.
-/
namespace BigIntegerCpp
open Counted
namespace Cost
variable [Cfg]

/-- BigInteger.cpp:858-863, one step per base-10^9 digit. -/
def baseLoop : List Nat → Nat → Counted (List Nat × Nat)
  | [], c => pure ([], c)
  | d :: ds, c => do
    tick 1
    lift (cassert (d < 1000000000))
    let uuRes := u64 (d <<< 32) ||| c
    let (r, c') ← baseLoop ds (u32 (uuRes / 1000000000))
    pure (u32 (uuRes % 1000000000) :: r, c')

/-- BigInteger.cpp:856-872, one more step per word. -/
def toBase (cuMax : Nat) : List Nat → Counted (List Nat)
  | [] => pure []
  | w :: ws => do
    let ds ← toBase cuMax ws
    tick 1
    let (ds, c) ← baseLoop ds w
    if c ≠ 0 then do
      let ds ← lift (pushDigit cuMax ds (c % 1000000000))
      if c / 1000000000 ≠ 0 then lift (pushDigit cuMax ds (c / 1000000000)) else pure ds
    else pure ds

/-- BigInteger.cpp:896-899, one step per character. -/
def putNine : Nat → Nat → Nat × List Char → Counted (Nat × List Char)
  | 0, _, st => pure st
  | n + 1, u, st => do
    tick 1
    let st ← lift (pushChar st (digitChar (u % 10)))
    putNine n (u / 10) st

/-- BigInteger.cpp:902-905, one step per character. -/
def putTop (u : Nat) (st : Nat × List Char) : Counted (Nat × List Char) :=
  if _h : u = 0 then pure st
  else do
    tick 1
    let st ← lift (pushChar st (digitChar (u % 10)))
    putTop (u / 10) st
termination_by u

/-- BigInteger.cpp:893-905, one more step per base-10^9 digit. -/
def putLimbs : List Nat → Nat × List Char → Counted (Nat × List Char)
  | [], _ => lift (.ub .outOfBounds)
  | [d], st => putTop d st
  | d :: ds, st => do
    tick 1
    lift (cassert (d < 1000000000))
    let st ← putNine 9 d st
    putLimbs ds st

/-- BigInteger.cpp:833-916 `to_string`: `rguDst` is filled with zeros (851); `rgch` (888) is allocated
and not filled, and alive until its contents are copied into the result (913). -/
def toStr (a : BigInt) : Counted (List Char) :=
  if a.bits.length = 0 then do
    tick (toString a.sign).toList.length
    pure (toString a.sign).toList
  else do
    let cuSrc ← lift (sizeInt a.bits.length)
    if cuSrc > 214748364 then lift (.throw .overflowError) else do
    let cuMax := cuSrc * 10 / 9 + 2
    scope cuMax do
    let ds ← toBase cuMax a.bits
    if ds.length > 238609294 then lift (.throw .overflowError) else do
    let cchMax := ds.length * 9
    if cchMax = 2147483647 then lift (.throw .overflowError) else do
    hold (cchMax + 1) do
    let st ← putLimbs ds (cchMax, [])
    let st ← (if a.sign < 0 then do tick 1; lift (pushChar st '-') else pure st)
    tick st.2.length
    pure st.2

/-- BigInteger.cpp:818-826, one step per character. -/
def parseLoop : List Char → BigInt → Counted BigInt
  | [], b => pure b
  | ch :: cs, b =>
    if '0' ≤ ch ∧ ch ≤ '9' then do
      tick 1
      let ten ← lift (ofInt32 10)
      let b ← mul b ten
      let d ← lift (ofUInt32 (ch.toNat - 48))
      let b ← add b d
      parseLoop cs b
    else do
      tick 1
      pure b

/-- BigInteger.cpp:807-831 `parse`; the sign (828-829) costs two copies (87-89). -/
def parse (s : List Char) : Counted BigInt :=
  match s with
  | '-' :: cs => do
    let b ← parseLoop cs zeroInt
    scope b.bits.length do
    tick b.bits.length
    lift b.neg
  | '+' :: cs => parseLoop cs zeroInt
  | cs => parseLoop cs zeroInt

end Cost
end BigIntegerCpp
