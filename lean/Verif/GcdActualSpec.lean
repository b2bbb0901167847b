import Verif.GcdSpec
/-
What `greatest_common_divisor` really does with two numbers of more than 64 bits, in terms of plain
natural numbers.  This is a description of the code, not of what it should do.
-/
namespace BigIntegerCpp

/-- How a run ends. -/
inductive GcdEnd
  | answer (g : Nat)
  /-- An `assert` fails (debug builds). -/
  | assertion
  /-- A word before the start of an array is read. -/
  | outOfBounds
  deriving DecidableEq

/-- Lehmer's method: Euclid's algorithm on the leading bits `u`, `v` with the cofactors `a`, `b`, `c`,
`d`, two quotients at a time, as long as the quotients are those of the full numbers for sure and the
cofactors below `2^31`.  The result is the last `b`, and how many quotients were accepted. -/
def lehmerQuotients (u v a b c d n : Nat) : Nat × Nat :=
  if hv : v = 0 then (b, n) else
  let q := u / v
  let r := u % v
  let a' := a + q * c
  let b' := b + q * d
  if h1 : ¬ (a' < 2 ^ 31 ∧ b' < 2 ^ 31 ∧ b' ≤ r ∧ r + a' + c ≤ v) then (b, n) else
  if h2 : r = b' then (b', n + 1) else
  let q' := v / r
  let r' := v % r
  let c' := c + q' * a'
  let d' := d + q' * b'
  if ¬ (c' < 2 ^ 31 ∧ d' < 2 ^ 31 ∧ c' ≤ r' ∧ r' + d' + b' ≤ r) then (b', n + 1) else
  if r' = c' then (b', n + 2) else
  lehmerQuotients r r' a' b' c' d' (n + 2)
termination_by v
decreasing_by
  have hr : u % v < v := Nat.mod_lt _ (by omega)
  exact Nat.lt_trans (Nat.mod_lt _ (by omega)) hr

/-- What becomes of the larger number, of `m` words, in a Lehmer step next to a number of `n` words:
if `m > n`, the words from the `n`-th on are forgotten and the lowest `m - n` words all become `n`. -/
def lehmerCut (x n : Nat) : Nat :=
  let k := wordCount x - n
  if k = 0 then x else x % 2 ^ (32 * n) / 2 ^ (32 * k) * 2 ^ (32 * k) + n * ((2 ^ (32 * k) - 1) / (2 ^ 32 - 1))

/-- The run, for at most `fuel` rounds, on the current numbers `x` and `y`.  The forgotten words of
their arrays, `xs` and `ys`, are not looked at again, but those of `x` are part of the answer. -/
def gcdRun (debug : Bool) : (fuel x xs y ys : Nat) → Option GcdEnd
  | 0, _, _, _, _ => none
  | fuel + 1, x, xs, y, ys =>
    if y < 2 ^ 64 then some (.answer (Nat.gcd x y + xs))
    else if wordCount x < wordCount y then
      if debug then some .assertion
      else if x < 2 ^ 64 then some .outOfBounds
      else gcdRun debug fuel y ys x xs
    else
      let u := x / 2 ^ (Nat.log2 x - 62)
      let v := y / 2 ^ (Nat.log2 x - 62) % 2 ^ 63
      if debug ∧ u < v then some .assertion else
      let g := lehmerQuotients u v 1 0 0 1 0
      if g.1 = 0 then gcdRun debug fuel y ys (x % y) xs
      else
        let n := wordCount y
        let x' := lehmerCut x n
        let xs' := xs + x / 2 ^ (32 * n) * 2 ^ (32 * n)
        if g.2 % 2 = 1 then gcdRun debug fuel y ys x' xs' else gcdRun debug fuel x' xs' y ys

/-- The outcome of a call against the end of such a run. -/
def RunEnds (r : Res BigInt) : Option GcdEnd → Prop
  | none => r = .diverge
  | some .assertion => r = .abort
  | some .outOfBounds => r = .ub .outOfBounds
  | some (.answer g) => Returns r g

end BigIntegerCpp
