import Verif.Model.BeCfg

/-!
The numbers of backends: those of a service are numbered in the order in which they are declared, the normal ones first.
-/

namespace Pound.Spec

/-- The backend with this number, which is one of the group at place `k` -/
def Numbered (fs : List FGrp) (id k : Nat) (f : FBe) : Prop :=
  ∃ g p, fs[k]? = some g ∧ g.bes[p]? = some f ∧ id = ((fs.take k).flatMap (·.bes)).length + p

end Pound.Spec
