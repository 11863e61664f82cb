import Verif.Spec.Framing

/-!
Specifications for header lines, header lists (as lists of texts) and token lists.
-/

namespace Pound.Spec

/-- RFC 7230 `tchar`. -/
def TChar (c : UInt8) : Prop :=
  (48 ≤ c.toNat ∧ c.toNat ≤ 57) ∨ (65 ≤ c.toNat ∧ c.toNat ≤ 90) ∨ (97 ≤ c.toNat ∧ c.toNat ≤ 122) ∨
  c ∈ b!"!#$%&'*+-.^_`|~"

/-- `t` is a header line with the given name and value (leading blanks of the value
do not count). -/
def HeaderLine (t name value : Bytes) : Prop :=
  ∃ ws, t = name ++ ch%':' :: (ws ++ value) ∧ name ≠ [] ∧ (∀ c ∈ name, TChar c) ∧
    (∀ c ∈ ws, c = 32 ∨ c = 9) ∧ ∀ c, value.head? = some c → c ≠ 32 ∧ c ≠ 9

/-- How to add a header that may already be there. -/
inductive HowAdd where
  | keep | replace | append

/-- `t` is a header line of that name, up to letter case. -/
def Named (t name : Bytes) : Prop := ∃ n v, HeaderLine t n v ∧ ciEq n name

/-- Effect of adding the header line `text` (name `n`, value `v`) to the list `before`:
only the first header of that name is concerned. -/
inductive Adds (text n v : Bytes) : List Bytes → List Bytes → HowAdd → Prop
  | new {before m} : (∀ t ∈ before, ¬ Named t n) → Adds text n v before (before ++ [text]) m
  | keep {a t b} : (∀ t ∈ a, ¬ Named t n) → Named t n →
      Adds text n v (a ++ t :: b) (a ++ t :: b) .keep
  | replace {a t b} : (∀ t ∈ a, ¬ Named t n) → Named t n →
      Adds text n v (a ++ t :: b) (a ++ text :: b) .replace
  | fill {a t b n'} : (∀ t ∈ a, ¬ Named t n) → HeaderLine t n' [] → ciEq n' n →
      Adds text n v (a ++ t :: b) (a ++ text :: b) .append
  | append {a t b n' v' t' ws} : (∀ t ∈ a, ¬ Named t n) → HeaderLine t n' v' → ciEq n' n → v' ≠ [] →
      HeaderLine t' n' (v' ++ ch%',' :: (ws ++ v)) → (∀ c ∈ ws, c = 32 ∨ c = 9) →
      Adds text n v (a ++ t :: b) (a ++ t' :: b) .append

/-- The lines of a header block (text, name, value), combined: headers whose names are
in the set `comb` are merged in the place of the first one, their values joined by `, `.
`seen` are the names merged further up. -/
def combine (comb : Bytes → Bool) (seen : List Bytes) : List (Bytes × Bytes × Bytes) → List Bytes
  | [] => []
  | (t, n, v) :: rest =>
    if comb n then
      if seen.any (ciEq · n) then combine comb seen rest
      else
        let same := rest.filter fun x => ciEq x.2.1 n
        (n ++ b!": " ++ List.intercalate b!", " (v :: same.map (·.2.2))) ::
          combine comb (n :: seen) rest
    else t :: combine comb seen rest

/-- The header lines, with name and value, among the lines of a header block. -/
inductive Legal : List Bytes → List (Bytes × Bytes × Bytes) → Prop
  | nil : Legal [] []
  | take {t n v ts L} : HeaderLine t n v → Legal ts L → Legal (t :: ts) ((t, n, v) :: L)
  | skip {t ts L} : (¬ ∃ n v, HeaderLine t n v) → Legal ts L → Legal (t :: ts) L

/-- Any number of empty lines on the wire. -/
inductive Blanks (lim : Nat) : Bytes → Prop
  | nil : Blanks lim []
  | cons {w t} : WireLine lim w [] → Blanks lim t → Blanks lim (w ++ t)

/-- A header block on the wire: non-empty lines ended by an empty one. -/
inductive Block (lim : Nat) : Bytes → List Bytes → Prop
  | done {w} : WireLine lim w [] → Block lim w []
  | more {w l t ls} : WireLine lim w l → l ≠ [] → Block lim t ls → Block lim (w ++ t) (l :: ls)

/-- The stream `inp` starts with the head of a request: empty lines, the request line,
the header block; `rest` follows. -/
def HeadOf (inp req : Bytes) (lines : List Bytes) (rest : Bytes) : Prop :=
  ∃ bl w blk, Blanks 4095 bl ∧ WireLine 4095 w req ∧ req ≠ [] ∧ Block 4095 blk lines ∧
    Consumed inp (bl ++ (w ++ blk)) rest

/-- `a` is `b` with blank (white space) margins stripped. -/
def Trims (b a : Bytes) : Prop :=
  ∃ l r, b = l ++ a ++ r ∧ (∀ c ∈ l, isSpace c) ∧ (∀ c ∈ r, isSpace c) ∧
    (∀ c, a.head? = some c → isSpace c = false) ∧ (∀ c, a.getLast? = some c → isSpace c = false)

/-- The element `e` of a comma-separated list is the token. -/
def IsTok (ci : Bool) (tok e : Bytes) : Prop :=
  ∃ a, Trims e a ∧ if ci then ciEq a tok = true else a = tok

/-- `v` is a comma-separated list with the elements `es`, then `e`; `rest` is what
follows `e` and its comma. -/
def ElemAt (v : Bytes) (es : List Bytes) (e rest : Bytes) : Prop :=
  (∀ x ∈ es, ch%',' ∉ x) ∧ ch%',' ∉ e ∧
  ∃ tail, v = es.flatMap (· ++ [ch%',']) ++ e ++ tail ∧
    ((tail = [] ∧ rest = []) ∨ tail = ch%',' :: rest)

end Pound.Spec
