import Verif.Model.CtlMain
import Verif.Spec.CfgParser

/-!
What poundctl is asked to do: /repo/doc/poundctl.8:134-330 and POSIX.1-2017, XBD 12.2 (arguments).
-/

namespace Pound.Spec

/-- An argument made of options without arguments of their own, maybe followed by one that takes the rest as its argument, or lacks it -/
inductive Cluster (spec : UInt8 → Option Bool) : Bytes → List OptItem → Option UInt8 → Prop
  | done : Cluster spec [] [] none
  | flag {c : UInt8} {cs : Bytes} {os : List OptItem} {p : Option UInt8} :
      spec c = some false → Cluster spec cs os p → Cluster spec (c :: cs) (.opt c none :: os) p
  | attached {c : UInt8} {arg : Bytes} : spec c = some true → arg ≠ [] → Cluster spec (c :: arg) [.opt c (some arg)] none
  | next {c : UInt8} : spec c = some true → Cluster spec [c] [] (some c)

/-- A command line without mistakes, its options and operands -/
inductive CmdLine (spec : UInt8 → Option Bool) (posix : Bool) : List Bytes → List OptItem → List Bytes → Prop
  | done : CmdLine spec posix [] [] []
  | dashes {t : List Bytes} : CmdLine spec posix (b!"--" :: t) [] t
  | options {cs : Bytes} {t : List Bytes} {o os : List OptItem} {args : List Bytes} :
      cs ≠ [] → cs ≠ b!"-" → Cluster spec cs o none → CmdLine spec posix t os args → CmdLine spec posix ((ch%'-' :: cs) :: t) (o ++ os) args
  | optArg {cs v : Bytes} {c : UInt8} {t : List Bytes} {o os : List OptItem} {args : List Bytes} :
      cs ≠ [] → cs ≠ b!"-" → Cluster spec cs o (some c) → CmdLine spec posix t os args →
      CmdLine spec posix ((ch%'-' :: cs) :: v :: t) (o ++ .opt c (some v) :: os) args
  | operand {a : Bytes} {t : List Bytes} {os : List OptItem} {args : List Bytes} :
      (a.head? ≠ some ch%'-' ∨ a = b!"-") → posix = false → CmdLine spec posix t os args → CmdLine spec posix (a :: t) os (a :: args)
  | operands {a : Bytes} {t : List Bytes} :
      (a.head? ≠ some ch%'-' ∨ a = b!"-") → posix = true → CmdLine spec posix (a :: t) [] (a :: t)

/-- The server selected: the argument of the last -S -/
def selected (cur : Option Bytes) : List OptItem → Option Bytes
  | [] => cur
  | .opt c a :: r => if c = ch%'S' then selected a r else selected cur r
  | _ :: r => selected cur r

/-- The options given while server `n` is the one selected -/
def givenFor (n cur : Option Bytes) : List OptItem → List OptItem
  | [] => []
  | .opt c a :: r => if c = ch%'S' then givenFor n a r else if cur = n then .opt c a :: givenFor n cur r else givenFor n cur r
  | _ :: r => givenFor n cur r

/-- The argument of the last option `c` for which `ok` holds -/
def lastArg (c : UInt8) (ok : Bytes → Bool) : List OptItem → Option Bytes
  | [] => none
  | .opt d (some a) :: r => (lastArg c ok r).or (if d = c ∧ ok a = true then some a else none)
  | _ :: r => lastArg c ok r

/-- The statements in section Server "n" of a file, or outside sections (`none`) -/
def sectStmts (n cur : Option Bytes) : List Ev → List (Bytes × List Tok)
  | [] => []
  | .stmt _ name a :: r => if cur = n then (name, a) :: sectStmts n cur r else sectStmts n cur r
  | .opened _ _ [t] :: r => sectStmts n (some t.text) r
  | .opened _ _ _ :: r => sectStmts n cur r
  | .closed :: r => sectStmts n none r

/-- The value in the last statement `kw` -/
def lastStmt (kw : Bytes) : List (Bytes × List Tok) → Option Bytes
  | [] => none
  | (name, [t]) :: r => (lastStmt kw r).or (if ciEq kw name = true then some t.text else none)
  | _ :: r => lastStmt kw r

/-- How often section Server "n" is opened -/
def timesOpened (n : Bytes) : List Ev → Nat
  | [] => 0
  | .opened _ _ [t] :: r => (if t.text = n then 1 else 0) + timesOpened n r
  | _ :: r => timesOpened n r

/-- The values that mean yes -/
def yesWords : List Bytes := [b!"1", b!"yes", b!"true", b!"on"]

/-- The file that the environment asks to read, with its text: POUNDCTL_CONF in the home directory, if set, else ~/.poundctl if it exists -/
inductive ConfigText (E : CtlEnv) : Option Bytes → Prop
  | env {n text : Bytes} : E.pconf = some n → n ≠ [] →
      E.fs (if n.head? = some ch%'/' then n else E.home ++ b!"/" ++ n) = .reg text → ConfigText E (some text)
  | off : E.pconf = some [] → ConfigText E none
  | file {text : Bytes} : E.pconf = none → E.fs (E.home ++ b!"/.poundctl") = .reg text → ConfigText E (some text)
  | noFile : E.pconf = none → E.fs (E.home ++ b!"/.poundctl") = .absent → ConfigText E none

/-- The statements of that file -/
def ConfigEvs (E : CtlEnv) (evs : List Ev) : Prop :=
  (ConfigText E none ∧ evs = []) ∨
  ∃ text ts n, ConfigText E (some text) ∧ Yields [⟨0, text, []⟩] ts ∧ Stmts ctlGram 0 (ts ++ [.nl]) evs n

/-- An element of the search path: a tilde at its beginning is the home directory. -/
inductive PathExpands (home : Bytes) : Bytes → Bytes → Prop
  | plain {el : Bytes} : el.head? ≠ some ch%'~' → PathExpands home el el
  | slash {r : Bytes} : PathExpands home (ch%'~' :: ch%'/' :: r) (home ++ ch%'/' :: r)
  | name {r : Bytes} : r.head? ≠ some ch%'/' → PathExpands home (ch%'~' :: r) (home ++ ch%'/' :: r)

/-- The file that an element of the search path provides: itself, or the file of that name in the directory it names -/
inductive Provides (fs : Bytes → CtlNode) (home name : Bytes) : Bytes → Bytes → CtlNode → Prop
  | file {el f t : Bytes} : el ≠ [] → PathExpands home el f → fs f = .reg t → Provides fs home name el f (.reg t)
  | dir {el f : Bytes} {x : CtlNode} : el ≠ [] → PathExpands home el f → fs f = .dir → fs (f ++ b!"/" ++ name) = x → x ≠ .absent → x ≠ .refused →
      Provides fs home name el (f ++ b!"/" ++ name) x

/-- The elements of a search path -/
def Elements (path : Bytes) (els : List Bytes) : Prop :=
  els ≠ [] ∧ List.intercalate [ch%':'] els = path ∧ ∀ e ∈ els, ch%':' ∉ e

/-- The file provided by the first element that provides one -/
def FirstFile (fs : Bytes → CtlNode) (home path name f : Bytes) (x : CtlNode) : Prop :=
  ∃ els pre el post, Elements path els ∧ els = pre ++ el :: post ∧ Provides fs home name el f x ∧
    ∀ e ∈ pre, ∀ g y, ¬ Provides fs home name e g y

end Pound.Spec
