/-!
Bytes, C strings and the `<ctype.h>` predicates the code uses (C/POSIX locale).

Trusted: pound never calls `setlocale`, so `isspace`, `isdigit`, ... are those of
the "C" locale on `unsigned char` values.
-/

namespace Pound

abbrev Bytes := List UInt8

open Lean in
/-- `b!"abc"` is the literal list of the (ASCII) codes of `abc`. -/
macro:max "b!" s:str : term => do
  let elems ← s.getString.toList.mapM fun c =>
    let n := Syntax.mkNumLit (toString c.toNat)
    `(($n : UInt8))
  `([$(elems.toArray),*])

open Lean in
/-- `ch%'x'` is the code of the (ASCII) character `x`. -/
macro:max "ch%" c:char : term => do
  let n := Syntax.mkNumLit (toString c.getChar.toNat)
  `(($n : UInt8))

/-- `isdigit` in the C locale. -/
def isDigit (c : UInt8) : Bool := 48 ≤ c && c ≤ 57
/-- `isupper` in the C locale. -/
def isUpper (c : UInt8) : Bool := 65 ≤ c && c ≤ 90
/-- `islower` in the C locale. -/
def isLower (c : UInt8) : Bool := 97 ≤ c && c ≤ 122
/-- `isalpha` in the C locale. -/
def isAlpha (c : UInt8) : Bool := isUpper c || isLower c
/-- `isalnum` in the C locale. -/
def isAlnum (c : UInt8) : Bool := isAlpha c || isDigit c
/-- `isspace` in the C locale: space, \t \n \v \f \r. -/
def isSpace (c : UInt8) : Bool := c == 32 || (9 ≤ c && c ≤ 13)
/-- `iscntrl` in the C locale. -/
def isCntrl (c : UInt8) : Bool := c < 32 || c == 127
/-- `isxdigit` in the C locale. -/
def isXDigit (c : UInt8) : Bool := isDigit c || (65 ≤ c && c ≤ 70) || (97 ≤ c && c ≤ 102)
/-- `tolower` in the C locale. -/
def toLower (c : UInt8) : UInt8 := if isUpper c then c + 32 else c
/-- `toupper` in the C locale. -/
def toUpper (c : UInt8) : UInt8 := if isLower c then c - 32 else c

/-- `strcasecmp (a, b) == 0` (C locale) on the byte lists of two C strings. -/
def ciEq (a b : Bytes) : Bool := a.map toLower == b.map toLower

/-- Outcome of a computation in the model of a C function: a value, or undefined
behaviour (out-of-bounds access, use after free, NULL dereference ...). -/
inductive Res (α : Type) where
  | ok (a : α)
  | ub
deriving Repr, DecidableEq

end Pound
