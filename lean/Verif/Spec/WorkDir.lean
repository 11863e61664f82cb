import Verif.Model.WorkDir

/-! Where files named in the configuration are -/

namespace Pound.Spec

open Pound

/-- A name that begins with a slash -/
def Absolute (n : Bytes) : Prop := n.head? = some 47

instance (n : Bytes) : Decidable (Absolute n) := inferInstanceAs (Decidable (_ = _))

/-- The file of that name, seen from a directory -/
def inDir (d n : Bytes) : Bytes := if Absolute n then n else d ++ 47 :: n

/-- The include directory at start: the one given, or the current one -/
def startDir (cwd : Bytes) : Option Bytes → Bytes
  | none => cwd
  | some n => inDir cwd n

/-- Files that statements use, given the include directory -/
def wanted (cwd : Bytes) : Bytes → List WdStmt → List (Option Bytes)
  | _, [] => []
  | _, .includeDir n :: t => none :: wanted cwd (inDir cwd n) t
  | d, .include n :: t => some (inDir d n) :: wanted cwd d t
  | d, .file n :: t => some (inDir d n) :: wanted cwd d t
  | d, .cert n :: t => some (inDir d n) :: wanted cwd d t
  | d, .passwd _ :: t => none :: wanted cwd d t

/-- The include directory in the end -/
def lastDir (cwd : Bytes) : Bytes → List WdStmt → Bytes
  | d, [] => d
  | _, .includeDir n :: t => lastDir cwd (inDir cwd n) t
  | d, _ :: t => lastDir cwd d t

/-- Names of password files -/
def passwds (l : List WdStmt) : List Bytes := l.filterMap fun o => match o with | .passwd n => some n | _ => none

/-- All directories that are named can be opened. -/
def DirsExist (isDir : Bytes → Bool) (cwd : Bytes) (incDir : Option Bytes) (stmts : List WdStmt) (jail : Bool) : Prop :=
  (∀ n, incDir = some n ∨ .includeDir n ∈ stmts → n ≠ [] ∧ isDir (inDir cwd n) = true) ∧
    (jail = true → ∀ n, .passwd n ∈ stmts → Absolute n → ∃ d b, n = d ++ 47 :: b ∧ 47 ∉ b ∧ Absolute d ∧ isDir d = true)

/-- Names of certificate files begin with a slash. -/
def CertsAbsolute (stmts : List WdStmt) : Prop := ∀ n, .cert n ∈ stmts → Absolute n

/-- A file is opened before the include directory is changed for the first time. -/
def FileFirst : List WdStmt → Prop
  | .includeDir _ :: _ => False
  | .cert _ :: t => FileFirst t
  | .passwd _ :: t => FileFirst t
  | _ => True

end Pound.Spec
