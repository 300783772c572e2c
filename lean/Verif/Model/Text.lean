import Mathlib.Data.Rat.Floor
import Mathlib.Algebra.Order.Floor.Ring
import Mathlib.Algebra.Field.Rat
import Verif.Model.Basic

/-!
# Model of the formatted text written and read by the code

The files of meshes and snakes are written with `fprintf` and read with `fscanf`
(SRCC/src/grid/mesh.cpp:1736-1875, SRCC/src/snake/snake.cpp:47-74); the conversions used
are `%i`, `%.16lf`, `%lf` and white space.  This file models these conversions character
by character.

Simplifications: integers are unbounded; the numbers are finite (no `inf`, `nan`, no
hexadecimal floating point text; negative zero is zero); a conversion which finds no number
is the outcome `ub`, because the variables then read from (`n`, `i`, `ii`) are uninitialised.
-/

namespace RSVS.Text

/-- A text. -/
abbrev Str := List Char

/-- A scanner: takes characters off the front of the text. -/
abbrev Scan (α : Type) := StateT Str (Except Fault) α

/-- `isspace` in the "C" locale: `\t`, `\n`, `\v`, `\f`, `\r` and the space. -/
def isSpace (c : Char) : Bool := (9 ≤ c.toNat && c.toNat ≤ 13) || c.toNat == 32

/-- White space in a scan format: takes off all the white space in front. -/
def dropSpace (s : Str) : Str := s.dropWhile isSpace

/-- The character of a decimal digit. -/
def digitChar : Nat → Char
  | 0 => '0' | 1 => '1' | 2 => '2' | 3 => '3' | 4 => '4'
  | 5 => '5' | 6 => '6' | 7 => '7' | 8 => '8' | _ => '9'

/-- The decimal digits of a number, without leading zeros. -/
def dec (n : Nat) : Str :=
  if n < 10 then [digitChar n] else dec (n / 10) ++ [digitChar (n % 10)]
termination_by n

/-- The last `k` decimal digits of a number, with leading zeros. -/
def decPad : Nat → Nat → Str
  | 0, _ => []
  | k + 1, n => decPad k (n / 10) ++ [digitChar (n % 10)]

/-- `fprintf` with the conversion `%i`. -/
def printInt (i : Int) : Str :=
  if i < 0 then '-' :: dec i.natAbs else dec i.natAbs

/-- The integer nearest to a number, the even one of two. -/
def nearestInt (x : ℚ) : Int :=
  if x - ⌊x⌋ < 1 / 2 then ⌊x⌋
  else if 1 / 2 < x - ⌊x⌋ then ⌊x⌋ + 1
  else if ⌊x⌋ % 2 = 0 then ⌊x⌋ else ⌊x⌋ + 1

/-- The number of units in decimal place `p` printed for a magnitude. -/
def fixedUnits (p : Nat) (x : ℚ) : Nat := (nearestInt (|x| * 10 ^ p)).toNat

/-- `fprintf` with the conversion `%.{p}lf` (`%lf` is `%.6lf`), for `p > 0`: the exact value
rounded to `p` decimals. -/
def printFixed (p : Nat) (x : ℚ) : Str :=
  (if x < 0 then ['-'] else []) ++ dec (fixedUnits p x / 10 ^ p) ++
    '.' :: decPad p (fixedUnits p x % 10 ^ p)

/-- The value of a digit; of a letter in hexadecimal. -/
def charVal (c : Char) : Nat :=
  if '0' ≤ c ∧ c ≤ '9' then c.toNat - 48
  else if 'a' ≤ c ∧ c ≤ 'f' then c.toNat - 87
  else if 'A' ≤ c ∧ c ≤ 'F' then c.toNat - 55
  else 99

/-- Is this a digit in base `b`? -/
def isDigit (b : Nat) (c : Char) : Bool := charVal c < b

/-- The number written by digits in base `b`. -/
def digitsVal (b : Nat) (s : Str) : Nat := s.foldl (fun n c => n * b + charVal c) 0

/-- A possible sign in front of a number. -/
def scanSign : Str → Bool × Str
  | '-' :: s => (true, s)
  | '+' :: s => (false, s)
  | s => (false, s)

/-- The digits in base `b` in front of a text; none at all is a failure. -/
def scanDigits (b : Nat) (s : Str) : Res (Nat × Str) :=
  if s.takeWhile (isDigit b) = [] then .error .ub
  else .ok (digitsVal b (s.takeWhile (isDigit b)), s.dropWhile (isDigit b))

/-- The number of the conversion `%i` of `fscanf` after its sign: `0x` starts a hexadecimal
number, another `0` an octal number. -/
def scanNat : Str → Res (Nat × Str)
  | '0' :: 'x' :: s => scanDigits 16 s
  | '0' :: 'X' :: s => scanDigits 16 s
  | '0' :: s => scanDigits 8 ('0' :: s)
  | s => scanDigits 10 s

/-- `fscanf` with the conversion `%i`: skips white space first. -/
def scanInt : Scan Int := fun s => do
  let (neg, t) := scanSign (dropSpace s)
  let (n, r) ← scanNat t
  .ok (if neg then -(n : Int) else (n : Int), r)

/-- A possible exponent after a number; `e` without digits is a failure. -/
def scanExp : Str → Res (Int × Str)
  | c :: s =>
    if c = 'e' ∨ c = 'E' then do
      let (neg, t) := scanSign s
      let (n, r) ← scanDigits 10 t
      .ok (if neg then -(n : Int) else (n : Int), r)
    else if c = 'x' ∨ c = 'X' then .error .ub
    else .ok (0, c :: s)
  | [] => .ok (0, [])

/-- The digits after a possible decimal point. -/
def scanFrac : Str → Str × Str
  | '.' :: s => (s.takeWhile (isDigit 10), s.dropWhile (isDigit 10))
  | s => ([], s)

/-- `fscanf` with the conversion `%lf`: the decimal number read is rounded to a `double` by
`rd`. -/
def scanReal (rd : ℚ → ℚ) : Scan ℚ := fun s => do
  let (neg, t) := scanSign (dropSpace s)
  let ip := t.takeWhile (isDigit 10)
  let (fp, u) := scanFrac (t.dropWhile (isDigit 10))
  if ip = [] ∧ fp = [] then .error .ub
  else do
    let (e, r) ← scanExp u
    let x : ℚ := (digitsVal 10 (ip ++ fp) : ℚ) * (10 : ℚ) ^ (e - (fp.length : Int))
    .ok (rd (if neg then -x else x), r)

/-- White space in a scan format. -/
def scanSpace : Scan Unit := fun s => .ok ((), dropSpace s)

/-- `fprintf(fid, "%i ", i)`. -/
def wInt (i : Int) : Str := printInt i ++ [' ']

/-- `fprintf(fid, "%.{p}lf ", x)`. -/
def wReal (p : Nat) (x : ℚ) : Str := printFixed p x ++ [' ']

/-- `fscanf(fid, "%i ", &i)`. -/
def rInt : Scan Int := do
  let i ← scanInt
  scanSpace
  pure i

/-- `fscanf(fid, "%lf ", &x)`. -/
def rReal (rd : ℚ → ℚ) : Scan ℚ := do
  let x ← scanReal rd
  scanSpace
  pure x

/-- `for (i = 0; i < n; ++i) read`. -/
def rMany {α : Type} (r : Scan α) : Nat → Scan (List α)
  | 0 => pure []
  | n + 1 => do
    let a ← r
    let l ← rMany r n
    pure (a :: l)

/-- `vector.assign(n, 0)`: a negative number becomes a huge size, which throws. -/
def rSize (n : Int) : Scan Nat := if n < 0 then throw .throws else pure n.toNat

end RSVS.Text
