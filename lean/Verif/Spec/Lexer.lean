import Verif.Model.Input
import Verif.Spec.Control

/-!
The lexical rules of configuration files (/repo/doc/pound.8:325-365); from the model only the types of tokens and files are used.
-/

namespace Pound.Spec

/-- The text between the quotes, and the string it denotes -/
inductive StrBody : Bytes → Bytes → Prop where
  | nil : StrBody [] []
  | plain {b s : Bytes} (c : UInt8) : c ≠ ch%'"' → c ≠ ch%'\\' → c ≠ 10 → StrBody b s → StrBody (c :: b) (c :: s)
  | esc {b s : Bytes} (c : UInt8) : c = ch%'"' ∨ c = ch%'\\' → StrBody b s → StrBody (ch%'\\' :: c :: b) (c :: s)

/-- The same with other characters escaped; the number of these -/
inductive StrLax : Bytes → Bytes → Nat → Prop where
  | nil : StrLax [] [] 0
  | plain {b s : Bytes} {n : Nat} (c : UInt8) : c ≠ ch%'"' → c ≠ ch%'\\' → c ≠ 10 → StrLax b s n → StrLax (c :: b) (c :: s) n
  | esc {b s : Bytes} {n : Nat} (c : UInt8) : c = ch%'"' ∨ c = ch%'\\' → StrLax b s n → StrLax (ch%'\\' :: c :: b) (c :: s) n
  | other {b s : Bytes} {n : Nat} (c : UInt8) : c ≠ ch%'"' → c ≠ ch%'\\' → c ≠ 10 → StrLax b s n → StrLax (ch%'\\' :: c :: b) (c :: s) (n + 1)

/-- How to write a string -/
def quote (s : Bytes) : Bytes := b!"\"" ++ s.flatMap (fun c => if c = ch%'"' ∨ c = ch%'\\' then [ch%'\\', c] else [c]) ++ b!"\""

/-- White space within a line -/
def HSpace (s : Bytes) : Prop := ∀ c ∈ s, isSpace c = true ∧ c ≠ 10

/-- A word: no white space, and it begins neither a string nor a comment. -/
structure Word (w : Bytes) : Prop where
  ne : w ≠ []
  sp : ∀ c ∈ w, isSpace c = false
  nul : (0 : UInt8) ∉ w
  quo : w.head? ≠ some ch%'"'
  com : w.head? ≠ some ch%'#'

/-- A letter or underscore -/
def Letter (c : UInt8) : Prop := isAlpha c = true ∨ c = ch%'_'

/-- Which token a word is -/
inductive WordTok (w : Bytes) : Tok → Prop where
  | ident : (∃ c t, w = c :: t ∧ Letter c) → (∀ c ∈ w, Letter c ∨ isDigit c = true) → WordTok w (.ident w)
  | number : (∀ c ∈ w, isDigit c = true) → WordTok w (.number w)
  | literal : (¬ ((∃ c t, w = c :: t ∧ Letter c) ∧ ∀ c ∈ w, Letter c ∨ isDigit c = true)) → (¬ ∀ c ∈ w, isDigit c = true) → WordTok w (.literal w)

/-- Nothing follows, or white space -/
def SpaceNext (r : Bytes) : Prop := ∀ c t, r = c :: t → isSpace c = true

/-- The texts of a token, given the text that follows it -/
inductive TokText : Tok → Bytes → Bytes → Prop where
  | string {b s r : Bytes} : StrBody b s → (0 : UInt8) ∉ s → TokText (.string s) (b!"\"" ++ b ++ b!"\"") r
  | word {w r : Bytes} {t : Tok} : Word w → WordTok w t → SpaceNext r → TokText t w r
  | newline {r : Bytes} : TokText .nl b!"\n" r
  | comment {c r : Bytes} : 10 ∉ c → TokText .nl (b!"#" ++ c ++ b!"\n") r

/-- A text and the tokens it consists of -/
inductive Tokens : Bytes → List Tok → Prop where
  | nil {sp : Bytes} : HSpace sp → Tokens sp []
  | comment {sp c : Bytes} : HSpace sp → 10 ∉ c → Tokens (sp ++ b!"#" ++ c) []
  | cons {sp x r : Bytes} {t : Tok} {ts : List Tok} : HSpace sp → TokText t x r → Tokens r ts → Tokens (sp ++ x ++ r) (t :: ts)

/-- The line consists of the word End. -/
def EndLine (l : Bytes) : Prop := ∃ a w b, l = a ++ w ++ b ∧ (∀ c ∈ a ++ b, isSpace c = true) ∧ ciEq w b!"end" = true

/-- Lines, each followed by a newline -/
def linesText (ls : List Bytes) : Bytes := ls.flatMap (fun l => l ++ [10])

/-- An octal number -/
def IsOctal (s : Bytes) (n : Nat) : Prop := s ≠ [] ∧ (∀ c ∈ s, 48 ≤ c.toNat ∧ c.toNat ≤ 55) ∧ n = s.foldl (fun v c => v * 8 + (c.toNat - 48)) 0

end Pound.Spec
