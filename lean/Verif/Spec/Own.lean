import Verif.Model.Own
import Verif.Spec.Exchange

/-!
Specification of the use of memory: what runs to its end without faults and gives back what it took; and which messages and rules that is said of.
-/

namespace Pound.Spec

/-- Blocks in use have been handed out, and each is in use once. -/
def Mem.Fit (m : Mem) : Prop := (∀ b ∈ m.live, b < m.next) ∧ m.live.Nodup

/-- The program runs to its end without reading or releasing memory that is not allocated and without reading through NULL; then the same blocks are in use as before. -/
def Tidy {α : Type} (p : HM α) (m : Mem) : Prop := ∃ a m', p m = .ok a m' ∧ m'.live.Perm m.live

/-- No allocation fails. -/
def Plenty (m : Mem) : Prop := ∀ k, m.oom k = false

def HeaderText (t : Bytes) : Prop := ∃ n v, HeaderLine t n v

/-- If it is a Content-Length header, it declares a length. -/
def LengthOk (t : Bytes) : Prop := ∀ n v, HeaderLine t n v → ciEq n b!"Content-Length" = true → ∃ k, DeclaresLength v k

/-- What rules for responses may do: set and delete headers. -/
def HeaderOp : MsgOp → Prop
  | .append t m => HeaderText t ∧ LengthOk t ∧ m ≠ .append
  | .change _ t => HeaderText t ∧ LengthOk t
  | .filter _ => True
  | .value _ => True
  | _ => False

/-- What is done to requests: headers that are set are header lines. -/
def RequestOp : MsgOp → Prop
  | .append t _ => HeaderText t
  | .change _ t => HeaderText t
  | _ => True

/-- What is not among the operations that lose memory when there is too little of it. -/
def Frugal : MsgOp → Prop
  | .append _ m => m ≠ .append
  | .setParam _ _ => False
  | .getParam _ => False
  | _ => True

/-- Responses: their Content-Length headers declare lengths. `table`: the headers that are combined. -/
structure TameResp (table : List Bytes) (i : RespInput) : Prop where
  first : table = [] ∨ i.head.first ≠ none
  lines : ∀ l ∈ i.head.lines, LengthOk l
  ops : ∀ o ∈ i.ops, HeaderOp o
  loc : ∀ h t, i.loc h = some t → HeaderText t ∧ LengthOk t

/-- Requests: anything may be sent. -/
structure TameReq (table : List Bytes) (i : ReqInput) : Prop where
  first : table = [] ∨ i.head.first ≠ none
  ops : ∀ o ∈ i.ops, RequestOp o
  resps : ∀ r ∈ i.resps, TameResp table r

end Pound.Spec
