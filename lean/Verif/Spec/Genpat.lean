import Verif.Model.Basic

/-! What fixed-string patterns mean. -/

namespace Pound.Spec

open Pound

/-- The same letter, in either case -/
def SameLetter (a b : UInt8) : Prop :=
  a = b ∨ (65 ≤ a ∧ a ≤ 90 ∧ b = a + 32) ∨ (65 ≤ b ∧ b ≤ 90 ∧ a = b + 32)

/-- Equal strings; up to letter case if `ci` -/
def SameText (ci : Bool) (x y : Bytes) : Prop :=
  x.length = y.length ∧
  ∀ (i : Nat) a b, x[i]? = some a → y[i]? = some b → if ci then SameLetter a b else a = b

/-- s starts with p -/
def StartsWith (ci : Bool) (p s : Bytes) : Prop := ∃ q r, s = q ++ r ∧ SameText ci q p

/-- s ends with p -/
def EndsWith (ci : Bool) (p s : Bytes) : Prop := ∃ q r, s = r ++ q ∧ SameText ci q p

/-- p occurs in s -/
def Contains (ci : Bool) (p s : Bytes) : Prop := ∃ a q b, s = a ++ q ++ b ∧ SameText ci q p

/-- Whenever a proper non-empty part b of p is both at its start and (as b') at its end, it
consists of repetitions of one letter. -/
def PlainBorders (ci : Bool) (p : Bytes) : Prop :=
  ∀ b c d b', p = b ++ c → p = d ++ b' → d ≠ [] → SameText ci b b' →
    ∀ x ∈ b, ∀ y ∈ b, if ci then SameLetter x y else x = y

end Pound.Spec
