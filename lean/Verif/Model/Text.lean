import Verif.Model.Outcome
import Mathlib.Data.Nat.Notation
import Mathlib.Data.Int.Notation

/-!
# Text streams

Character-level model of the part of the C++ standard library that OpenANN's text formats use:
`std::istream` with its `eofbit`/`failbit`, formatted extraction (`>>`),
`std::atoi`, printing of integers and Eigen's printing of rows and columns.

It is used by the models of src/FANN.cpp, src/LibSVM.cpp and `Net::save`/`Net::load`
(src/Net.cpp lines 222-426).

`badbit` (hardware errors) is not modelled; `int` does not overflow.
-/

namespace Verif.Text

/-- Whitespace of the "C" locale (`std::isspace`), as skipped by `operator>>`. -/
def isSpace (c : Char) : Bool :=
  c = ' ' || c = '\t' || c = '\n' || c = '\r' || c = Char.ofNat 11 || c = Char.ofNat 12

/-- The digit character of `d < 10`. -/
def digitChar (d : ℕ) : Char := Char.ofNat (48 + d)

/-- Is it one of `0`, ..., `9`? -/
def isDigit (c : Char) : Bool := 48 ≤ c.toNat && c.toNat ≤ 57

/-- The value of a digit character. -/
def digitVal (c : Char) : ℕ := c.toNat - 48

/-- Decimal notation of a natural number. -/
def printNat (n : ℕ) : List Char :=
  if n < 10 then [digitChar n] else printNat (n / 10) ++ [digitChar (n % 10)]
decreasing_by omega

/-- `stream << i` for an `int`. -/
def printInt (z : ℤ) : List Char :=
  if z < 0 then '-' :: printNat z.natAbs else printNat z.natAbs

/-- `stream << b` for a `bool` (without `std::boolalpha`). -/
def printBool (b : Bool) : List Char := if b then ['1'] else ['0']

/-- Reads digits as long as there are any; `acc` is the value of the digits read so far. -/
def scanDigits (acc : ℕ) : List Char → ℕ × List Char
  | [] => (acc, [])
  | c :: cs => if isDigit c then scanDigits (acc * 10 + digitVal c) cs else (acc, c :: cs)

/-- An optional sign: is the number negative, and the remaining characters. -/
def scanSign : List Char → Bool × List Char
  | '-' :: cs => (true, cs)
  | '+' :: cs => (false, cs)
  | cs => (false, cs)

/-- What `std::num_get` does for an `int` (base 10): an optional sign and as many digits as
possible; the conversion fails if there is no digit.  Returns the value and the characters
that have not been consumed. -/
def scanInt (l : List Char) : Option ℤ × List Char :=
  let (neg, r) := scanSign l
  match r with
  | [] => (none, [])
  | c :: cs =>
    if isDigit c then
      let (n, r') := scanDigits 0 (c :: cs)
      (some (if neg then -(n : ℤ) else (n : ℤ)), r')
    else (none, c :: cs)

/-- `std::atoi`: skip whitespace, then sign and digits; 0 if there is no number. -/
def atoi (l : List Char) : ℤ :=
  ((scanInt (l.dropWhile isSpace)).1).getD 0

/-- The state of a `std::istream`: characters to come, `eofbit` and `failbit`. -/
structure IStream where
  rest : List Char
  eof : Bool := false
  fail : Bool := false
  deriving DecidableEq, Repr

/-- `stream.good()`. -/
def IStream.good (s : IStream) : Bool := !s.eof && !s.fail

/-- A stream that delivers `l`. -/
def IStream.of (l : List Char) : IStream := { rest := l }

/-- A `std::ifstream` whose file could not be opened: `failbit` is set by the constructor. -/
def IStream.notOpened : IStream := { rest := [], fail := true }

/-- Formatted extraction `stream >> x` of a number with the conversion function `scan`.

* The sentry sets `failbit` and leaves `x` alone if the stream is not good or only
  whitespace is left (then also `eofbit`): result `none`.
* Otherwise characters are consumed and `x` is assigned; when the conversion fails `x` becomes `zero` (since
  C++11) and `failbit` is set.  `eofbit` is set iff the conversion ran into the end. -/
def extractNum {α : Type} (zero : α) (scan : List Char → Option α × List Char) (s : IStream) :
    Option α × IStream :=
  if !s.good then (none, { s with fail := true })
  else
    match s.rest.dropWhile isSpace with
    | [] => (none, { rest := [], eof := true, fail := true })
    | c :: cs =>
      match scan (c :: cs) with
      | (some v, r) => (some v, { rest := r, eof := r.isEmpty, fail := false })
      | (none, r) => (some zero, { rest := r, eof := r.isEmpty, fail := true })

/-- `stream >> i` for an `int`. -/
def extractInt (s : IStream) : Option ℤ × IStream := extractNum 0 scanInt s

/-- `stream >> word` for a `std::string`: the longest run of non-whitespace after whitespace;
the string keeps its old value (`none`) if the sentry fails. -/
def extractWord (s : IStream) : Option (List Char) × IStream :=
  if !s.good then (none, { s with fail := true })
  else
    match s.rest.dropWhile isSpace with
    | [] => (none, { rest := [], eof := true, fail := true })
    | c :: cs =>
      let r := (c :: cs).dropWhile (fun c => !isSpace c)
      (some ((c :: cs).takeWhile (fun c => !isSpace c)), { rest := r, eof := r.isEmpty, fail := false })

/-- `stream >> b` for a `bool`: reads a number; 0 and 1 are accepted, any other number gives `true` and
sets `failbit`. -/
def extractBool (s : IStream) : Option Bool × IStream :=
  match extractInt s with
  | (none, s') => (none, s')
  | (some z, s') =>
    if s'.fail then (some false, s')
    else if z = 0 then (some false, s')
    else if z = 1 then (some true, s')
    else (some true, { s' with fail := true })

/-- Printing and reading of `double`s with the stream's default settings.

The digits themselves are abstract: `fmt x` is the text of `stream << x`, `scan` is the
conversion of `stream >> x`, `atof` is `std::atof`, and `round x` is the number that the
text of `x` denotes (six significant digits by default).  The laws say that a printed number
is a non-empty word, that reading it back gives the number it denotes, that reading does not create characters, and that integral values
with at most six digits are printed like integers.  Only finite numbers are considered (a printed `nan` or `inf`
cannot be read back by `operator>>`). -/
structure NumFormat (K : Type) [IntCast K] [Zero K] where
  fmt : K → List Char
  scan : List Char → Option K × List Char
  atof : List Char → K
  round : K → K
  fmt_ne : ∀ x, fmt x ≠ []
  fmt_no_space : ∀ x, ∀ c ∈ fmt x, isSpace c = false
  scan_fmt : ∀ x rest, (∀ c ∈ rest.head?, isSpace c = true) → scan (fmt x ++ rest) = (some (round x), rest)
  scan_le : ∀ l, (scan l).2.length ≤ l.length
  atof_fmt : ∀ x, atof (fmt x) = round x
  round_zero : round 0 = 0
  fmt_int : ∀ z : ℤ, z.natAbs < 1000000 → fmt (z : K) = printInt z

/-- `stream >> x` for a `double`. -/
def NumFormat.extract {K : Type} [IntCast K] [Zero K] (F : NumFormat K) (s : IStream) : Option K × IStream :=
  extractNum 0 F.scan s

/-- Right alignment to width `w`. -/
def padLeft (w : ℕ) (l : List Char) : List Char := List.replicate (w - l.length) ' ' ++ l

/-- The widest of some texts (Eigen aligns all coefficients of a printed matrix). -/
def maxWidth (ls : List (List Char)) : ℕ := (ls.map List.length).foldr max 0

/-- Texts with a separator between them. -/
def joinWith (sep : List Char) : List (List Char) → List Char
  | [] => []
  | [l] => l
  | l :: ls => l ++ sep ++ joinWith sep ls

/-- `stream << m` for an Eigen row vector with the default `IOFormat`: coefficients
right-aligned to a common width and separated by blanks. -/
def printRow (ls : List (List Char)) : List Char :=
  joinWith [' '] (ls.map (padLeft (maxWidth ls)))

/-- `stream << m` for an Eigen column vector with the default `IOFormat`: coefficients
right-aligned to a common width and separated by newlines. -/
def printCol (ls : List (List Char)) : List Char :=
  joinWith ['\n'] (ls.map (padLeft (maxWidth ls)))

/-- An `Eigen::MatrixXd` as list of rows; `cols` is kept because there may be no rows. -/
structure Mat (K : Type) where
  cols : ℕ
  rows : List (List K)
  deriving DecidableEq, Repr

/-- All rows have the right length. -/
def Mat.WF {K : Type} (m : Mat K) : Prop := ∀ r ∈ m.rows, r.length = m.cols

end Verif.Text
