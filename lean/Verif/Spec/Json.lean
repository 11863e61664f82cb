import Verif.Model.Json

/-!
What JSON objects, strings and documents should be: maps, byte strings, and the grammar of
RFC 8259.  Only the data types of the model are used.
-/

namespace Pound.Spec

open Pound

/-- Byte-wise lexicographic order of strings -/
def LexLt (x y : Bytes) : Prop :=
  (∃ b t, y = x ++ b :: t) ∨
  ∃ p a b s t, x = p ++ a :: s ∧ y = p ++ b :: t ∧ a < b

/-- The value of the last assignment to `k`, if there is one -/
def lastSet {V} (sets : List (Bytes × V)) (k : Bytes) : Option V :=
  (sets.reverse.find? (fun p => p.1 == k)).map (·.2)

/-- A hexadecimal digit (RFC 5234 HEXDIG, either case) -/
def Hex (c : UInt8) : Prop :=
  (48 ≤ c ∧ c ≤ 57) ∨ (65 ≤ c ∧ c ≤ 70) ∨ (97 ≤ c ∧ c ≤ 102)

/-- A backspace or a form feed followed by three hexadecimal digits occurs in s -/
def HasTrap (s : Bytes) : Prop :=
  ∃ pre x a b c post, s = pre ++ x :: a :: b :: c :: post ∧
    (x = 8 ∨ x = 12) ∧ Hex a ∧ Hex b ∧ Hex c

/-! The grammar of RFC 8259 -/

/-- ws of RFC 8259, section 2 -/
def Ws (s : Bytes) : Prop := ∀ c ∈ s, c = 32 ∨ c = 9 ∨ c = 10 ∨ c = 13

/-- char of RFC 8259, section 7 (bytes above 127 are taken for parts of UTF-8 characters) -/
inductive StrChar : Bytes → Prop
  | plain (c : UInt8) : 0x20 ≤ c → c ≠ 0x22 → c ≠ 0x5c → StrChar [c]
  | esc (c : UInt8) : c ∈ b!"\"\\/bfnrt" → StrChar [0x5c, c]
  | uni (a b c d : UInt8) : Hex a → Hex b → Hex c → Hex d → StrChar [0x5c, ch%'u', a, b, c, d]

/-- string of RFC 8259, section 7 -/
def JsonString (t : Bytes) : Prop :=
  ∃ cs : List Bytes, (∀ c ∈ cs, StrChar c) ∧ t = 0x22 :: cs.flatten ++ [0x22]

mutual
/-- value of RFC 8259, sections 3-6; `num` says which texts are numbers. -/
inductive JsonText (num : Bytes → Prop) : Bytes → Prop
  | null : JsonText num b!"null"
  | true : JsonText num b!"true"
  | false : JsonText num b!"false"
  | number (t : Bytes) : num t → JsonText num t
  | string (t : Bytes) : JsonString t → JsonText num t
  | emptyArray (w : Bytes) : Ws w → JsonText num (91 :: w ++ [93])
  | array (t : Bytes) : JsonItems num t → JsonText num (91 :: t ++ [93])
  | emptyObject (w : Bytes) : Ws w → JsonText num (123 :: w ++ [125])
  | object (t : Bytes) : JsonMembers num t → JsonText num (123 :: t ++ [125])
/-- value *( value-separator value ), with the white space around the values -/
inductive JsonItems (num : Bytes → Prop) : Bytes → Prop
  | one (w t w' : Bytes) : Ws w → JsonText num t → Ws w' → JsonItems num (w ++ t ++ w')
  | more (w t w' l : Bytes) : Ws w → JsonText num t → Ws w' → JsonItems num l →
      JsonItems num (w ++ t ++ w' ++ 44 :: l)
/-- member *( value-separator member ) -/
inductive JsonMembers (num : Bytes → Prop) : Bytes → Prop
  | one (w k w1 w2 t w' : Bytes) : Ws w → JsonString k → Ws w1 → Ws w2 → JsonText num t →
      Ws w' → JsonMembers num (w ++ k ++ w1 ++ 58 :: w2 ++ t ++ w')
  | more (w k w1 w2 t w' l : Bytes) : Ws w → JsonString k → Ws w1 → Ws w2 → JsonText num t →
      Ws w' → JsonMembers num l →
      JsonMembers num (w ++ k ++ w1 ++ 58 :: w2 ++ t ++ w' ++ 44 :: l)
end

/-- int of RFC 8259, section 6, with an optional minus sign: no leading zeroes -/
def JsonInt (t : Bytes) : Prop :=
  ∃ s d ds, t = s ++ d :: ds ∧ (s = [] ∨ s = [45]) ∧ (∀ c ∈ d :: ds, 48 ≤ c ∧ c ≤ 57) ∧
    (d = 48 → ds = [])

end Pound.Spec

namespace Pound.Spec
open Pound

/-- What may follow a number: the end of the text, a separator or white space -/
def Delim (rest : Bytes) : Prop :=
  rest = [] ∨ ∃ c t, rest = c :: t ∧ c ∈ b!",]} \t\n\r"

/-- The text `t` of the number `d` starts like a number, and strtod reads it back, whatever
separator comes next. -/
def NumRead {D} (N : NumLib D) (t : Bytes) (d : D) : Prop :=
  (∃ c r, t = c :: r ∧ c ∈ b!"-+.0123456789") ∧ N.negHuge d = false ∧ N.posHuge d = false ∧
    ∀ rest, Delim rest → N.strtod (t ++ rest) = (d, rest)

/-- A string the parser reads back: no NUL, no trap -/
def StrFits (s : Bytes) : Prop := (0 : UInt8) ∉ s ∧ ¬ HasTrap s

mutual
/-- A value whose numbers and strings can be read back, and whose objects are maps (ascending
keys), as built by json_object_set -/
def Fits {D} (N : NumLib D) : JVal D → Prop
  | .null => True
  | .bool _ => True
  | .num d => NumRead N (N.fmtNum d) d
  | .int d => NumRead N (N.fmtInt d) d
  | .str s => StrFits s
  | .arr l => FitsL N l
  | .obj c l => c = l.length ∧ l.Pairwise (fun a b => LexLt a.1 b.1) ∧ FitsP N l
def FitsL {D} (N : NumLib D) : List (JVal D) → Prop
  | [] => True
  | v :: l => Fits N v ∧ FitsL N l
def FitsP {D} (N : NumLib D) : List (Bytes × JVal D) → Prop
  | [] => True
  | (k, v) :: l => StrFits k ∧ Fits N v ∧ FitsP N l
end

mutual
/-- The same value, with its integers turned into numbers -/
def plain {D} : JVal D → JVal D
  | .null => .null
  | .bool b => .bool b
  | .num d => .num d
  | .int d => .num d
  | .str s => .str s
  | .arr l => .arr (plainL l)
  | .obj c l => .obj c (plainP l)
def plainL {D} : List (JVal D) → List (JVal D)
  | [] => []
  | v :: l => plain v :: plainL l
def plainP {D} : List (Bytes × JVal D) → List (Bytes × JVal D)
  | [] => []
  | (k, v) :: l => (k, plain v) :: plainP l
end

/-- No control character but \b \f \n \r \t -/
def StrValid (s : Bytes) : Prop :=
  ∀ c ∈ s, 0x20 ≤ c ∨ c = 8 ∨ c = 12 ∨ c = 10 ∨ c = 13 ∨ c = 9

mutual
/-- The strings of a value have no control character but \b \f \n \r \t, and its numbers are
written as `num` asks; pair_count is zero only for empty objects. -/
def Clean {D} (N : NumLib D) (num : Bytes → Prop) : JVal D → Prop
  | .null => True
  | .bool _ => True
  | .num d => num (N.fmtNum d)
  | .int d => num (N.fmtInt d)
  | .str s => StrValid s
  | .arr l => CleanL N num l
  | .obj c l => c = l.length ∧ CleanP N num l
def CleanL {D} (N : NumLib D) (num : Bytes → Prop) : List (JVal D) → Prop
  | [] => True
  | v :: l => Clean N num v ∧ CleanL N num l
def CleanP {D} (N : NumLib D) (num : Bytes → Prop) : List (Bytes × JVal D) → Prop
  | [] => True
  | (k, v) :: l => StrValid k ∧ Clean N num v ∧ CleanP N num l
end

end Pound.Spec
