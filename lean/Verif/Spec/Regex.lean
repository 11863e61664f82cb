import Verif.Model.Regex
import Verif.Spec.Expand

/-!
Specification of groups of patterns: what a group stands for is the text that it matched, or nothing if it took no part.
-/

namespace Pound.Spec

/-- The texts of groups at the given places of the subject -/
inductive GroupTexts (subject : Bytes) : List (Option (Nat × Nat)) → List Bytes → Prop
  | nil : GroupTexts subject [] []
  | unset {os gs} : GroupTexts subject os gs → GroupTexts subject (none :: os) ([] :: gs)
  | set {a g b os gs} : subject = a ++ g ++ b → GroupTexts subject os gs → GroupTexts subject (some (a.length, a.length + g.length) :: os) (g :: gs)

/-- A match that was tried: the kind of the pattern, what the library found, what was in the memory for the groups, and the text -/
structure Tried where
  kind : RxKind
  res : LibRes
  mem : List (Int × Int)
  subject : Bytes

/-- There is a place for each group of the pattern. -/
def Tried.roomy (x : Tried) : Prop := ∀ gs, x.res = .found gs → x.mem.length = if x.kind = .fixed then 0 else gs.length

/-- The groups of a match: `none` if there was none; patterns that are fixed strings have no groups. -/
def MeansGroups (x : Tried) : Option (List Bytes) → Prop
  | some ts => ∃ gs, x.res = .found gs ∧ if x.kind = .fixed then ts = [] else GroupTexts x.subject gs ts
  | none => x.res = .noMatch

/-- The last group took part. -/
def LastSet (gs : List (Option (Nat × Nat))) : Prop := ∃ p, gs.getLast? = some (some p)

end Pound.Spec
