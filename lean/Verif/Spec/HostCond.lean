import Verif.Model.HostCond
import Verif.Spec.Lexer

/-!
What Host conditions are documented to mean: /repo/doc/pound.8:1400-1415, 1440-1475.
-/

namespace Pound.Spec

/-- The same text, up to letter case unless -case is given -/
def SameName (ic : Bool) (a b : Bytes) : Prop := if ic then a.map toLower = b.map toLower else a = b

/-- White space -/
def SpaceRun (s : Bytes) : Prop := ∀ c ∈ s, isSpace c = true

/-- A header is a Host header with this value: the name, a colon, white space, the value. -/
def HostIs (ic : Bool) (h v : Bytes) : Prop := ∃ n ws, h = n ++ ws ++ v ∧ SameName ic b!"Host:" n ∧ SpaceRun ws

/-- A text that matches a name if each dot stands for any character -/
inductive DotMatch (ic : Bool) : Bytes → Bytes → Prop
  | nil : DotMatch ic [] []
  | dot {c : UInt8} {a b : Bytes} : DotMatch ic a b → DotMatch ic (ch%'.' :: a) (c :: b)
  | chr {c d : UInt8} {a b : Bytes} : c ≠ ch%'.' → SameName ic [c] [d] → DotMatch ic a b → DotMatch ic (c :: a) (d :: b)

/-- The characters host names (with ports) consist of -/
def HostChars (s : Bytes) : Prop := ∀ c ∈ s, isAlpha c = true ∨ isDigit c = true ∨ c ∈ b!"-._:"

/-- A name without anchors and bars -/
def PlainName (n : Bytes) : Prop := ∀ c ∈ n, c ≠ ch%'^' ∧ c ≠ ch%'$' ∧ c ≠ ch%'|'

/-- A line of a file of patterns with what it denotes: white space around it removed; `none` for empty lines and comments -/
def PatternLine (line : Bytes) (p : Option Bytes) : Prop :=
  ∃ a w b, line = a ++ w ++ b ∧ (∀ c ∈ a, c = 32 ∨ c = 9) ∧ (∀ c ∈ b, c = 32 ∨ c = 9) ∧
    (w = [] ∧ p = none ∨
      (∃ c t, w = c :: t ∧ c ≠ 32 ∧ c ≠ 9) ∧ (∃ c t, w = t ++ [c] ∧ c ≠ 32 ∧ c ≠ 9) ∧ p = if w.head? = some ch%'#' then none else some w)

/-- A file of such lines, of less than 4095 bytes each -/
inductive PatternFile : Bytes → List (Option Bytes) → Prop
  | last {l : Bytes} {p : Option Bytes} : PatternLine l p → 0 ∉ l → 10 ∉ l → l.length < 4095 → PatternFile l [p]
  | line {l r : Bytes} {p : Option Bytes} {ps : List (Option Bytes)} : PatternLine l p → 0 ∉ l → 10 ∉ l → l.length < 4095 → PatternFile r ps → PatternFile (l ++ 10 :: r) (p :: ps)

end Pound.Spec
