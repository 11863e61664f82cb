import Verif.Spec.Headers

/-!
Specifications for the framing of requests and responses.
-/

namespace Pound.Spec

/-- `vs` are the values of the headers called `name`, in order, among the header lines. -/
inductive Values (name : Bytes) : List Bytes → List Bytes → Prop
  | nil : Values name [] []
  | hit {t n v ts vs} : HeaderLine t n v → ciEq n name → Values name ts vs →
      Values name (t :: ts) (v :: vs)
  | miss {t ts vs} : ¬ Named t name → Values name ts vs → Values name (t :: ts) vs

/-- Some element of the comma-separated list is the token. -/
def HasTok (v tok : Bytes) : Prop := ∃ es e rest, ElemAt v es e rest ∧ IsTok true tok e

/-- The token is the last element of the comma-separated list and no other is
(the list may end with a comma). -/
def EndsWithTok (v tok : Bytes) : Prop :=
  ∃ es e, ElemAt v es e [] ∧ IsTok true tok e ∧ ∀ x ∈ es, ¬ IsTok true tok x

/-- How the body of a message is delimited. -/
inductive BodyKind where
  | none
  | length (n : Nat)
  | chunked
  | untilEof
deriving DecidableEq

/-- The header value declares the length `n`. -/
def DeclaresLength (v : Bytes) (n : Nat) : Prop :=
  n < 2 ^ 63 ∧ ∃ ws ds ws', v = ws ++ ds ++ ws' ∧ Blank ws ∧ Denotes 10 ds n ∧ Blank ws'

/-- The header lines of a request delimit its body unambiguously. -/
def Framing (ts : List Bytes) : BodyKind → Prop
  | .none => Values b!"Transfer-Encoding" ts [] ∧ Values b!"Content-Length" ts []
  | .length n => Values b!"Transfer-Encoding" ts [] ∧
      ∃ v, Values b!"Content-Length" ts [v] ∧ DeclaresLength v n
  | .chunked => Values b!"Content-Length" ts [] ∧
      ∃ vs v, Values b!"Transfer-Encoding" ts (vs ++ [v]) ∧
        (∀ x ∈ vs, ¬ HasTok x b!"chunked") ∧ EndsWithTok v b!"chunked"
  | .untilEof => False

/-- A response line `HTTP/1.v ccc ...` with version and code. -/
def ResponseLine (line : Bytes) (ver code : Nat) : Prop :=
  ∃ v a b c ws tail, line = b!"HTTP/1." ++ [v] ++ ws ++ [a, b, c] ++ tail ∧
    v.toNat = 48 + ver ∧ ver ≤ 1 ∧ ws ≠ [] ∧ Blank ws ∧
    (∃ x y z, a.toNat = 48 + x ∧ b.toNat = 48 + y ∧ c.toNat = 48 + z ∧ 1 ≤ x ∧ x ≤ 5 ∧ y ≤ 9 ∧ z ≤ 9 ∧
      code = 100 * x + 10 * y + z) ∧
    (tail = [] ∨ ∃ d t, tail = d :: t ∧ (d = 32 ∨ d = 9))

/-- No body can follow this response (RFC 7230 3.3.3; 305 and 306 have none
in this program). -/
def Bodiless (head : Bool) (code : Nat) : Prop :=
  head = true ∨ code / 100 = 1 ∨ code = 204 ∨ code = 304 ∨ code = 305 ∨ code = 306

/-- How the body of a final response is delimited: chunked coding (HTTP/1.1 only), length,
end of stream, in this order. -/
def RespFraming (head : Bool) (ver code : Nat) (te cl : List Bytes) : BodyKind → Prop
  | .none => Bodiless head code
  | .chunked => ¬ Bodiless head code ∧ ver = 1 ∧ ∃ v ∈ te, HasTok v b!"chunked"
  | .length n => ¬ Bodiless head code ∧ ¬ (ver = 1 ∧ ∃ v ∈ te, HasTok v b!"chunked") ∧
      cl ≠ [] ∧ ∀ v ∈ cl, DeclaresLength v n
  | .untilEof => ¬ Bodiless head code ∧ ¬ (ver = 1 ∧ ∃ v ∈ te, HasTok v b!"chunked") ∧ cl = []

end Pound.Spec
