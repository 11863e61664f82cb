import Verif.Spec.Inject

/-!
Specification of the stream of responses a client reads: what a client that follows RFC 7230, 3.3.3, without limits on lengths, takes a sequence of bytes for, given the requests it
has sent.
-/

namespace Pound.Spec

/-- No body follows, whatever the headers say (RFC 7230, 3.3.3, number 1); `head`: the method of the request is HEAD. -/
def NoBody (head : Bool) (code : Nat) : Prop := head = true ∨ code / 100 = 1 ∨ code = 204 ∨ code = 304

/-- The last of the transfer codings is `chunked`, and no other is. -/
def FinalChunked (te : List Bytes) : Prop := ∃ vs v, te = vs ++ [v] ∧ (∀ x ∈ vs, ¬ HasTok x b!"chunked") ∧ EndsWithTok v b!"chunked"

/-- How a client finds the end of a response, given the values of Transfer-Encoding and Content-Length (RFC 7230, 3.3.3, numbers 1, 3, 5 and 7) -/
def ClientFraming (head : Bool) (code : Nat) (te cl : List Bytes) : BodyKind → Prop
  | .none => NoBody head code
  | .chunked => ¬ NoBody head code ∧ FinalChunked te
  | .length n => ¬ NoBody head code ∧ te = [] ∧ cl ≠ [] ∧ ∀ v ∈ cl, DeclaresLength v n
  | .untilEof => ¬ NoBody head code ∧ ((te ≠ [] ∧ ¬ FinalChunked te) ∨ (te = [] ∧ cl = []))

/-- A client takes the bytes `w` for this response, which ends in this way.  A body that lasts until the end of the stream takes all that follows. -/
def Answers (strict head : Bool) (w : Bytes) (m : Msg) (k : BodyKind) : Prop :=
  ∃ hdr lines ver code te cl body, w = m.line ++ [13, 10] ++ (hdr ++ body) ∧ OneLine m.line ∧ ResponseLine m.line ver code ∧ CrlfLines hdr lines ∧ Fields lines m.fields ∧
    Values b!"Transfer-Encoding" m.fields te ∧ Values b!"Content-Length" m.fields cl ∧ ClientFraming head code te cl k ∧
    (if k = .untilEof then body = m.payload else BodyOf strict k body m.payload)

/-- A client that has sent requests (for each: whether its method was HEAD) takes the bytes for these responses, one after another. -/
inductive Answered (strict : Bool) : List Bool → Bytes → List Msg → Prop where
  | nil : Answered strict [] [] []
  | cons {head w m k heads ws ms} : Answers strict head w m k → k ≠ .untilEof → Answered strict heads ws ms → Answered strict (head :: heads) (w ++ ws) (m :: ms)
  | last {head w m} : Answers strict head w m .untilEof → Answered strict [head] w [m]

end Pound.Spec
