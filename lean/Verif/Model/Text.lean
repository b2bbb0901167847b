import Verif.Model.Core
/-
Model of src/BigInteger.cpp: decimal text.  A `std::string` is a list of characters.
-/
namespace BigIntegerCpp
variable [Cfg]

/-- BigInteger.cpp:858-863: one pass `uuRes = rguDst[i] * 2^32 + uCarry` over the base-10^9
digits; returns the new digits and the final carry. -/
def baseLoop : List Nat → Nat → Res (List Nat × Nat)
  | [], c => .ok ([], c)
  | d :: ds, c => do
    cassert (d < 1000000000)
    let uuRes := u64 (d <<< 32) ||| c
    let (r, c') ← baseLoop ds (u32 (uuRes / 1000000000))
    .ok (u32 (uuRes % 1000000000) :: r, c')

/-- `rguDst[cuDst++] = d` into an array of `cuMax` words. -/
def pushDigit (cuMax : Nat) (ds : List Nat) (d : Nat) : Res (List Nat) :=
  if ds.length < cuMax then .ok (ds ++ [d]) else .ub .outOfBounds

/-- BigInteger.cpp:856-872: the words from the most significant down; `ws` is the little-endian
list, so the recursion handles the higher words first. -/
def toBase (cuMax : Nat) : List Nat → Res (List Nat)
  | [] => .ok []
  | w :: ws => do
    let ds ← toBase cuMax ws
    let (ds, c) ← baseLoop ds w
    if c ≠ 0 then do
      let ds ← pushDigit cuMax ds (c % 1000000000)
      if c / 1000000000 ≠ 0 then pushDigit cuMax ds (c / 1000000000) else .ok ds
    else .ok ds

/-- `rgch[--ichDst] = ch`: the buffer contents from `ichDst` on; index -1 is out of bounds. -/
def pushChar (st : Nat × List Char) (ch : Char) : Res (Nat × List Char) :=
  match st with
  | (0, _) => .ub .outOfBounds
  | (i + 1, cs) => .ok (i, ch :: cs)

/-- `'0' + d`. -/
def digitChar (d : Nat) : Char := Char.ofNat (48 + d)

/-- BigInteger.cpp:896-899: nine digits of one base-10^9 limb, `n` of them left. -/
def putNine : Nat → Nat → Nat × List Char → Res (Nat × List Char)
  | 0, _, st => .ok st
  | n + 1, u, st => do
    let st ← pushChar st (digitChar (u % 10))
    putNine n (u / 10) st

/-- BigInteger.cpp:902-905: the digits of the top limb, without leading zeros. -/
def putTop (u : Nat) (st : Nat × List Char) : Res (Nat × List Char) :=
  if _h : u = 0 then .ok st
  else do
    let st ← pushChar st (digitChar (u % 10))
    putTop (u / 10) st
termination_by u

/-- BigInteger.cpp:893-905: all limbs, least significant first. -/
def putLimbs : List Nat → Nat × List Char → Res (Nat × List Char)
  | [], _ => .ub .outOfBounds
  | [d], st => putTop d st
  | d :: ds, st => do
    cassert (d < 1000000000)
    let st ← putNine 9 d st
    putLimbs ds st

namespace BigInt

/-- BigInteger.cpp:833-916 `to_string`.  The small case is `std::to_string(int)`, taken to be the
usual decimal notation.  The `cchMax` characters in front of the terminator are the state
`(ichDst, characters from ichDst on)`. -/
def toStr (a : BigInt) : Res (List Char) :=
  if a.bits.length = 0 then .ok (toString a.sign).toList
  else do
    let cuSrc ← sizeInt a.bits.length
    if cuSrc > 214748364 then .throw .overflowError else do
    let cuMax := cuSrc * 10 / 9 + 2
    let ds ← toBase cuMax a.bits
    if ds.length > 238609294 then .throw .overflowError else do
    let cchMax := ds.length * 9
    if cchMax = 2147483647 then .throw .overflowError else do
    let st ← putLimbs ds (cchMax, [])
    let st ← (if a.sign < 0 then pushChar st '-' else .ok st)
    .ok st.2

/-- BigInteger.cpp:818-826: the digit loop of `parse`; stops at the first other character. -/
def parseLoop : List Char → BigInt → Res BigInt
  | [], b => .ok b
  | ch :: cs, b =>
    if '0' ≤ ch ∧ ch ≤ '9' then do
      let ten ← ofInt32 10
      let b ← b.mul ten
      let d ← ofUInt32 (ch.toNat - 48)
      let b ← b.add d
      parseLoop cs b
    else .ok b

/-- BigInteger.cpp:807-831 `parse`.  `s[0]` of an empty `std::string` is the null character. -/
def parse (s : List Char) : Res BigInt :=
  match s with
  | '-' :: cs => do
    let b ← parseLoop cs zeroInt
    b.neg
  | '+' :: cs => parseLoop cs zeroInt
  | cs => parseLoop cs zeroInt

/-- BigInteger.cpp:798-805 `try_parse`: (returned flag, value of `result` afterwards). -/
def tryParse (s : List Char) (result : BigInt) : Res (Bool × BigInt) :=
  match parse s with
  | .ok b => .ok (true, b)
  | .throw _ => .ok (false, result)
  | .abort => .abort
  | .ub u => .ub u
  | .diverge => .diverge

end BigInt
end BigIntegerCpp
