import Verif.Spec.Lexer

/-!
Places in texts.
-/

namespace Pound.Spec

/-- The number of the line that begins or goes on after a text -/
def lineAfter (pre : Bytes) : Nat := 1 + pre.count 10

/-- What is on that line already -/
def lineSoFar (pre : Bytes) : Bytes := (pre.reverse.takeWhile (· != 10)).reverse

/-- What follows on the line -/
def lineRest (s : Bytes) : Bytes := s.takeWhile (· != 10)

/-- The column of the last character of a text on one line: tabulators are set every eight columns, columns count from 1. -/
def columnOf (l : Bytes) : Nat := l.foldl (fun c x => if x = 9 then (c / 8 + 1) * 8 else c + 1) 0

/-- Tabulators are at the beginning of the line only. -/
def TabsFirst (l : Bytes) : Prop := ∃ (n : Nat) (t : Bytes), l = List.replicate n 9 ++ t ∧ 9 ∉ t

/-- A token in a text: what is before it, its own text, what is after it -/
structure TokAt where
  tok : Tok
  pre : Bytes
  text : Bytes
  post : Bytes

/-- The tokens of a text that comes after `pre`, and where they are -/
inductive TokensAt : Bytes → Bytes → List TokAt → Prop where
  | nil {pre sp : Bytes} : HSpace sp → TokensAt pre sp []
  | comment {pre sp c : Bytes} : HSpace sp → 10 ∉ c → TokensAt pre (sp ++ b!"#" ++ c) []
  | cons {pre sp x r : Bytes} {t : Tok} {l : List TokAt} : HSpace sp → TokText t x r → TokensAt (pre ++ sp ++ x) r l →
      TokensAt pre (sp ++ x ++ r) (⟨t, pre ++ sp, x, r⟩ :: l)

/-- The line a token is on -/
def TokAt.line (x : TokAt) : Bytes := lineSoFar x.pre ++ lineRest (x.text ++ x.post)

/-- A number in decimal -/
def numText (n : Nat) : Bytes := (Nat.toDigits 10 n).map fun c => UInt8.ofNat c.toNat

/-- The place of a token in messages: the file, the line, the column of its first character and, if it has more than one, that of the last. -/
def placeText (file : Bytes) (x : TokAt) : Bytes :=
  let first := columnOf (lineSoFar x.pre ++ x.text.take 1)
  let last := columnOf (lineSoFar x.pre ++ x.text)
  file ++ b!":" ++ numText (lineAfter x.pre) ++ b!"." ++ numText first ++ if first = last then [] else b!"-" ++ numText last

end Pound.Spec
