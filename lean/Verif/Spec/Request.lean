import Verif.Model.Basic

/-!
Specifications for request lines, URIs and query parameters.
-/

namespace Pound.Spec

/-- The request methods of each level of `xHTTP` (/repo/doc/pound.texi, "xHTTP"). -/
def methodsOfLevel : Nat → List Bytes
  | 0 => [b!"GET", b!"POST", b!"HEAD"]
  | 1 => [b!"PUT", b!"PATCH", b!"DELETE"]
  | 2 => [b!"LOCK", b!"UNLOCK", b!"PROPFIND", b!"PROPPATCH", b!"SEARCH", b!"MKCOL", b!"MOVE",
          b!"COPY", b!"OPTIONS", b!"TRACE", b!"MKACTIVITY", b!"CHECKOUT", b!"MERGE", b!"REPORT"]
  | 3 => [b!"SUBSCRIBE", b!"UNSUBSCRIBE", b!"BPROPPATCH", b!"POLL", b!"BMOVE", b!"BCOPY",
          b!"BDELETE", b!"BPROPFIND", b!"NOTIFY", b!"CONNECT"]
  | _ => []

/-- One or more spaces. -/
def Spaces (s : Bytes) : Prop := s ≠ [] ∧ ∀ c ∈ s, c = 32

/-- `line` is a request line whose three fields are a spelling of the method `m`,
the URI `url` and the HTTP version 1.`v`. -/
def RequestLine (line m url : Bytes) (v : Nat) : Prop :=
  ∃ name s1 s2, line = name ++ s1 ++ url ++ s2 ++ b!"HTTP/1." ++ [UInt8.ofNat (48 + v)] ∧
    ciEq name m ∧ Spaces s1 ∧ Spaces s2 ∧ url ≠ [] ∧ (∀ c ∈ url, c ≠ 32) ∧ v ≤ 1

/-- RFC 3986: the path of a request URI is the part before the first question mark,
the query is what follows it. -/
def SplitsAs (url path : Bytes) (query : Option Bytes) : Prop :=
  ch%'?' ∉ path ∧ match query with
    | none => url = path
    | some q => url = path ++ ch%'?' :: q

/-- Query parameters: name and optional value. -/
abbrev Params := List (Bytes × Option Bytes)

/-- Text of one parameter. -/
def paramText : Bytes × Option Bytes → Bytes
  | (n, none) => n
  | (n, some v) => n ++ ch%'=' :: v

/-- `q` lists the parameters `ps`: their texts, separated by single ampersands. -/
inductive Lists : Bytes → Params → Prop
  | nil : Lists [] []
  | one (p) : Lists (paramText p) [p]
  | cons {q ps} (p) : ps ≠ [] → Lists q ps → Lists (paramText p ++ ch%'&' :: q) (p :: ps)

/-- The value of the first parameter with the given name: `none` if there is no such
parameter, `some none` if it has no value. -/
def lookup (k : Bytes) : Params → Option (Option Bytes)
  | [] => none
  | (n, v) :: t => if n = k then some v else lookup k t

/-- What the other names see: the parameters not named `k`, in order. -/
def others (k : Bytes) (ps : Params) : Params := ps.filter fun p => p.1 ≠ k

/-- The values of all parameters named `k`, in order. -/
def valuesOf (k : Bytes) (ps : Params) : List (Option Bytes) :=
  (ps.filter fun p => p.1 = k).map (·.2)

/-- Set (`some v`) or remove (`none`) the first parameter named `k`; a parameter that is
not there is added at the end. -/
def update (k : Bytes) (v : Option Bytes) (ps : Params) : Params :=
  let before := ps.takeWhile fun p => p.1 ≠ k
  match ps.dropWhile (fun p => p.1 ≠ k), v with
  | _ :: after, some v => before ++ (k, some v) :: after
  | _ :: after, none => before ++ after
  | [], some v => ps ++ [(k, some v)]
  | [], none => ps

end Pound.Spec
