import Verif.Spec.Headers

/-!
Specification of what happens to the headers of a forwarded request.  Header lists are lists of texts.
-/

namespace Pound.Spec

open Classical in
/-- The headers of that name, in order -/
noncomputable def HeadersNamed (n : Bytes) (ts : List Bytes) : List Bytes := ts.filter fun t => decide (Named t n)

open Classical in
/-- The headers that have none of the names, in order -/
noncomputable def HeadersNotNamed (ns : List Bytes) (ts : List Bytes) : List Bytes := ts.filter fun t => decide (∀ n ∈ ns, ¬ Named t n)

/-- The headers of one name, before and after the value `v` has been added to the first of them; `text` is used if it is missing or empty. -/
inductive Extended (text v : Bytes) : List Bytes → List Bytes → Prop where
  | new : Extended text v [] [text]
  | fill {t r n} : HeaderLine t n [] → Extended text v (t :: r) (text :: r)
  | append {t r n v' ws t'} : HeaderLine t n v' → v' ≠ [] → HeaderLine t' n (v' ++ ch%',' :: (ws ++ v)) → (∀ c ∈ ws, c = 32 ∨ c = 9) → Extended text v (t :: r) (t' :: r)

/-- `s` is a line of printable text of at most 4094 bytes, not empty: blanks and then `v`, which starts with something else. -/
def Printed (s v : Bytes) : Prop :=
  s ≠ [] ∧ s.length ≤ 4094 ∧ (∀ c ∈ s, Text c) ∧ ∃ ws, s = ws ++ v ∧ (∀ c ∈ ws, c = 32 ∨ c = 9) ∧ ∀ c, v.head? = some c → c ≠ 32 ∧ c ≠ 9

end Pound.Spec
