import Verif.Model.HashTab

/-!
What a table holds.
-/

namespace Pound.Spec

/-- What is done to a table -/
inductive TabOp (κ ν : Type) where
  | add (k : κ) (v : ν)
  | del (k : κ)

/-- The value added last under a key, unless it was removed since; the history begins with what was done last. -/
def lastAdded {κ ν : Type} (same : κ → κ → Bool) : List (TabOp κ ν) → κ → Option ν
  | [], _ => none
  | .add k' v :: r, k => if same k' k then some v else lastAdded same r k
  | .del k' :: r, k => if same k' k then none else lastAdded same r k

/-- `same` is an equality: reflexive, symmetric and transitive. -/
structure Equality {κ : Type} (same : κ → κ → Bool) : Prop where
  refl (a : κ) : same a a = true
  symm {a b : κ} : same a b = true → same b a = true
  trans {a b c : κ} : same a b = true → same b c = true → same a c = true

/-- The states of a table after a history.  `fresh`: with `true`, nothing is added under a key that is present.  The order of nodes may change at any time. -/
inductive TabRun {κ ν : Type} (K : TabKind κ) (d : DupRule) (fresh : Bool) : List (TabOp κ ν) → TabSt κ ν → Prop
  | start : TabRun K d fresh [] { }
  | add {hist : List (TabOp κ ν)} {s s' : TabSt κ ν} {k : κ} {v : ν} {dup : Bool} :
      TabRun K d fresh hist s → (fresh = true → lastAdded K.same hist k = none) → tabAdd K d s k v = .ok (dup, s') → TabRun K d fresh (.add k v :: hist) s'
  | del {hist : List (TabOp κ ν)} {s s' : TabSt κ ν} {k : κ} : TabRun K d fresh hist s → tabDel K s k = .ok s' → TabRun K d fresh (.del k :: hist) s'
  | moved {hist : List (TabOp κ ν)} {s : TabSt κ ν} {nodes : List (UInt64 × Nat)} :
      TabRun K d fresh hist s → nodes.Perm s.nodes → TabRun K d fresh hist { s with nodes := nodes }

end Pound.Spec
