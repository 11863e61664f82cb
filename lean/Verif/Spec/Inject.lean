import Verif.Spec.Transit
import Verif.Model.Cond

/-!
Specification of rewriting rules by which clients can't inject header lines or requests.
-/

namespace Pound.Spec

mutual
/-- The templates of a condition are single lines. -/
def CondLines : Cond → Prop
  | .elem (.strMatch t _) => OneLine t
  | .elem _ => True
  | .bool _ cs => CondsLines cs
def CondsLines : List Cond → Prop
  | [] => True
  | c :: cs => CondLines c ∧ CondsLines cs
end

/-- The texts of an operation are single lines. -/
def PrimLines : RwPrim → Prop
  | .hdrDel _ => True
  | .hdrSet t => OneLine t
  | .paramSet n t => OneLine n ∧ OneLine t
  | .urlSet t => OneLine t
  | .pathSet t => OneLine t
  | .querySet t => OneLine t

/-- An operation does not concern the headers by which the end of the body is found, and the name of a header that is set is given by the configuration alone. -/
def PrimFraming : RwPrim → Prop
  | .hdrDel re => ∀ t, Named t b!"Transfer-Encoding" ∨ Named t b!"Content-Length" → (re t).ok = false
  | .hdrSet t => ∃ n v, HeaderLine t n v ∧ ch%'$' ∉ n ∧ ch%'%' ∉ n ∧ ¬ ciEq n b!"Transfer-Encoding" ∧ ¬ ciEq n b!"Content-Length"
  | _ => True

mutual
/-- All conditions and operations of these rules are such. -/
def OpAll (C : Cond → Prop) (P : RwPrim → Prop) : RwOp → Prop
  | .prim p => P p
  | .rule r => RuleAll C P r
def OpsAll (C : Cond → Prop) (P : RwPrim → Prop) : List RwOp → Prop
  | [] => True
  | o :: t => OpAll C P o ∧ OpsAll C P t
def RuleAll (C : Cond → Prop) (P : RwPrim → Prop) : RwRule → Prop
  | .null => True
  | .mk c ops iffalse => C c ∧ OpsAll C P ops ∧ RuleAll C P iffalse
end

/-- The texts in the rules are single lines. -/
def RulesLines (rs : List RwRule) : Prop := ∀ r ∈ rs, RuleAll CondLines PrimLines r

/-- The rules leave the framing of requests alone. -/
def RulesFraming (rs : List RwRule) : Prop := ∀ r ∈ rs, RuleAll (fun _ => True) PrimFraming r

end Pound.Spec
