/-
Models of the small parts of the Go standard library that the modelled code uses on text:
`strings.Split` (single-character separator), `strings.TrimSpace`-like helpers, `strconv.Atoi`,
`strconv.Itoa`/`fmt %d`.  Text is `List Char`; these are part of the trusted base
(documentation of Go's `strings` and `strconv` packages).
-/
namespace Shellfish.Text

/-- `strings.Split(s, sep)` for a one-character separator: always at least one piece. -/
def splitOn (sep : Char) : List Char → List (List Char)
  | [] => [[]]
  | c :: cs =>
    if c = sep then [] :: splitOn sep cs
    else match splitOn sep cs with
      | [] => [[c]]
      | t :: ts => (c :: t) :: ts

/-- `strings.Join(ts, sep)` for a one-character separator. -/
def joinWith (sep : Char) : List (List Char) → List Char
  | [] => []
  | [t] => t
  | t :: ts => t ++ sep :: joinWith sep ts

/-- Remove leading characters satisfying `p`. -/
def trimLeft (p : Char → Bool) : List Char → List Char
  | [] => []
  | c :: cs => if p c then trimLeft p cs else c :: cs

/-- Remove trailing characters satisfying `p`. -/
def trimRight (p : Char → Bool) (s : List Char) : List Char := (trimLeft p s.reverse).reverse

/-- `strings.Trim(s, cutset)` with `p` the membership test of the cutset. -/
def trim (p : Char → Bool) (s : List Char) : List Char := trimRight p (trimLeft p s)

/-- Decimal digit value. -/
def digitVal (c : Char) : Option Nat :=
  if '0'.toNat ≤ c.toNat ∧ c.toNat ≤ '9'.toNat then some (c.toNat - '0'.toNat) else none

/-- Value of a digit string (most significant first); `none` when a non-digit occurs. -/
def digitsVal : Nat → List Char → Option Nat
  | acc, [] => some acc
  | acc, c :: cs => match digitVal c with
    | none => none
    | some d => digitsVal (acc * 10 + d) cs

/-- Unsigned part: at least one digit. -/
def natVal (s : List Char) : Option Nat := if s = [] then none else digitsVal 0 s

/-- Largest Go `int` (64-bit platforms). -/
def maxInt : Int := 9223372036854775807
/-- Smallest Go `int` (64-bit platforms). -/
def minInt : Int := -9223372036854775808

/-- Range check of `strconv.Atoi`. -/
def inIntRange (n : Int) : Option Int := if minInt ≤ n ∧ n ≤ maxInt then some n else none

/-- `strconv.Atoi` on a 64-bit platform: optional sign, then one or more decimal digits, in range. -/
def atoi (s : List Char) : Option Int :=
  match s with
  | '-' :: t => (natVal t).bind fun n => inIntRange (-(n : Int))
  | '+' :: t => (natVal t).bind fun n => inIntRange (n : Int)
  | t => (natVal t).bind fun n => inIntRange (n : Int)

/-- The character of a decimal digit. -/
def digitChar (d : Nat) : Char := Char.ofNat ('0'.toNat + d)

/-- Decimal digits of a natural number, most significant first. -/
def natDigits (n : Nat) : List Char :=
  if n < 10 then [digitChar n] else natDigits (n / 10) ++ [digitChar (n % 10)]

/-- `fmt.Sprintf("%d", n)` / `strconv.Itoa`. -/
def itoa (n : Int) : List Char :=
  if n < 0 then '-' :: natDigits n.natAbs else natDigits n.natAbs

/-- Go `fmt` padding `%*d` (right-justify with blanks to width `w`). -/
def padLeft (w : Nat) (s : List Char) : List Char := List.replicate (w - s.length) ' ' ++ s

end Shellfish.Text
