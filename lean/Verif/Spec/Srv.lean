import Verif.Spec.DynBe
import Verif.Model.Srv

/-!
Vocabulary for dynamic backends made out of SRV records.
-/

namespace Pound.Spec

/-- The state after the configuration file has been read -/
structure SrvConfigured (s : SrvSt) : Prop where
  dyn : DynConfigured s.dyn
  tables : ∀ k, (s.srv k).tab = []
  matrices : ∀ m, (s.sub m).parent = none ∧ s.mark m = false

/-- A state some history leads to -/
def SrvReach (s : SrvSt) : Prop := ∃ s0 ops, SrvConfigured s0 ∧ srvRun s0 ops = .ok s

/-- The answer of a look-up is sorted before it is used; qsort may put equal elements in any order. -/
def QsortOf (casecmp : Bytes → Bytes → Int) (ans recs : List SrvRec) : Prop := recs.Perm ans ∧ recs.Pairwise fun a b => srvCmp casecmp a b ≤ 0

/-- The record names this host (in any letter case) and port. -/
def NamesTarget (r : SrvRec) (host : Bytes) (port : Nat) : Prop := ciEq host r.host = true ∧ port = r.port

/-- No two records name the same host and port. -/
def DistinctTargets (recs : List SrvRec) : Prop := recs.Pairwise fun a b => ¬ NamesTarget a b.host b.port

/-- The priority that the backends of a record get: its weight; 1 if all records of the group have weight 0; that of the configuration with IgnoreSRVWeight. -/
def WeightOf (ignore : Bool) (own : Nat) (ans : List SrvRec) (r : SrvRec) (p : Nat) : Prop :=
  if ignore = true then p = own
  else ((∀ r' ∈ ans, r'.prio = r.prio → r'.weight = 0) → p = 1) ∧ ((∃ r' ∈ ans, r'.prio = r.prio ∧ r'.weight ≠ 0) → p = r.weight)

/-- Backend k (with `Resolve srv`) looks up the addresses of target m. -/
def SrvTarget (s : SrvSt) (k m : Nat) : Prop := (s.sub m).parent = some k ∧ (s.dyn.mtx m).disabled = false

/-- A backend in service that was generated from an address of a target of backend k -/
def SrvGenerated (s : SrvSt) (k i : Nat) : Prop := ∃ m, (s.sub m).parent = some k ∧ Generated s.dyn m i

/-- Requests are balanced over this backend in the group of this weight. -/
def InGroup (s : DynSt) (w i : Nat) : Prop := ∃ b ∈ s.bals, b.weight = w ∧ i ∈ b.members

end Pound.Spec
