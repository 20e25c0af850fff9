/-
The text of a floating point number: `fmt.Sprintf("%.6g", x)` (cmd/catalog/catalog.go:125-140) and `strconv.ParseFloat(s, 64)` (cmd/catalog/catalog.go:317-321), from the documentation and
the source of Go's package strconv (ftoa.go: `formatDigits`, `%e`, `%f`; atof.go: `readFloat`).  A float64 is a rational number: infinities, NaN, the sign of zero, subnormal numbers and the
hexadecimal form of ParseFloat are not modelled.
-/
import Verif.Model.Round
import Verif.Model.Catalog

namespace Shellfish.FloatText
open Shellfish.Round (nearest r64)
open Shellfish.Text (natDigits digitsVal natVal digitVal trimRight)

/-- The six significant digits of a positive number, rounded to nearest (ties to even, as strconv rounds the exact decimal value), and the exponent of the first one. -/
def sig6 (a : ℚ) : ℕ × ℤ :=
  let e := Int.log 10 a
  let m := (nearest (a / 10 ^ (e - 5))).toNat
  if m = 10 ^ 6 then (10 ^ 5, e + 1) else (m, e)

/-- strconv/ftoa.go `decimalSlice`: the digits without trailing zeros and the position `dp` of the point (0.d₁d₂… · 10^dp). -/
def digs (a : ℚ) : List Char × ℤ := if a = 0 then ([], 0) else (trimRight (· == '0') (natDigits (sig6 a).1), (sig6 a).2 + 1)

/-- strconv/ftoa.go `fmtE`: the exponent has at least two digits. -/
def expText (e : ℤ) : List Char := 'e' :: (if e < 0 then '-' else '+') :: (if e.natAbs < 10 then '0' :: natDigits e.natAbs else natDigits e.natAbs)

/-- strconv/ftoa.go `fmtE` with as many digits as there are. -/
def fmtE (ds : List Char) (dp : ℤ) : List Char :=
  ds.headD '0' :: (if 1 < ds.length then '.' :: ds.drop 1 else []) ++ expText (if ds = [] then 0 else dp - 1)

/-- strconv/ftoa.go `fmtF` with `max(nd - dp, 0)` digits behind the point. -/
def fmtF (ds : List Char) (dp : ℤ) : List Char :=
  (if 0 < dp then ds.take dp.toNat ++ List.replicate (dp.toNat - ds.length) '0' else ['0']) ++
    (if 0 < (ds.length : ℤ) - dp then '.' :: (List.replicate (-dp).toNat '0' ++ ds.drop dp.toNat) else [])

/-- strconv/ftoa.go `formatDigits`, case 'g', precision 6. -/
def fmtG (ds : List Char) (dp : ℤ) : List Char :=
  let eprec : ℤ := if 6 > ds.length ∧ (ds.length : ℤ) ≥ dp then ds.length else 6
  if dp - 1 < -4 ∨ dp - 1 ≥ eprec then fmtE ds dp else fmtF ds dp

/-- `fmt.Sprintf("%.6g", x)`. -/
def fmt6 (x : ℚ) : List Char := if x < 0 then '-' :: fmtG (digs |x|).1 (digs |x|).2 else fmtG (digs |x|).1 (digs |x|).2

/-- A decimal digit. -/
def isDigit (c : Char) : Bool := (digitVal c).isSome

/-- The exponent of a decimal number, after the letter. -/
def exponent : List Char → Option ℤ
  | [] => none
  | c :: d => if c = '+' then (natVal d).map fun n : ℕ => (n : ℤ) else if c = '-' then (natVal d).map fun n : ℕ => -(n : ℤ) else (natVal (c :: d)).map fun n : ℕ => (n : ℤ)

/-- The digits behind the point and the rest. -/
def fraction : List Char → List Char × List Char
  | [] => ([], [])
  | c :: t => if c = '.' then (t.takeWhile isDigit, t.dropWhile isDigit) else ([], c :: t)

/-- The value of the digits `m`, `k` of them behind the point, with the exponent that follows. -/
def scaled (m k : ℕ) : List Char → Option ℚ
  | [] => some ((m : ℚ) * 10 ^ (-(k : ℤ)))
  | c :: t => if c = 'e' ∨ c = 'E' then (exponent t).map fun e : ℤ => (m : ℚ) * 10 ^ (e - (k : ℤ)) else none

/-- strconv/atof.go `readFloat`: digits with at most one point, then an exponent; the exact value. -/
def unsignedDec (s : List Char) : Option ℚ :=
  let ip := s.takeWhile isDigit
  let fr := fraction (s.dropWhile isDigit)
  if ip ++ fr.1 = [] then none else (digitsVal 0 (ip ++ fr.1)).bind fun m => scaled m fr.1.length fr.2

/-- The exact value of a decimal number with a sign. -/
def decimal : List Char → Option ℚ
  | [] => none
  | c :: t => if c = '-' then (unsignedDec t).map fun v => -v else if c = '+' then unsignedDec t else unsignedDec (c :: t)

/-- `strconv.ParseFloat(s, 64)` of a decimal number: the nearest float64; `none` is an error (syntax, or out of range). -/
def parseFloat (s : List Char) : Option ℚ := (decimal s).bind fun v => if |r64 v| < 2 ^ 1024 then some (r64 v) else none

/-- The two functions for catalogues (cmd/catalog/catalog.go). -/
def float64Fmt : Shellfish.Catalog.FloatFmt ℚ := ⟨fmt6, parseFloat⟩

end Shellfish.FloatText
