import Verif.Model.DynBe

/-!
Vocabulary for dynamic backends.
-/

namespace Pound.Spec

/-- Requests are balanced over this backend. -/
def InService (s : DynSt) (i : Nat) : Prop := ∃ b ∈ s.bals, i ∈ b.members

/-- A backend that is in service and was generated by this matrix -/
def Generated (s : DynSt) (m i : Nat) : Prop := InService s i ∧ (s.be i).parent = some m

/-- The state after the configuration file has been read: some backends in the balancers, none of them generated, nothing going on. -/
structure DynConfigured (s : DynSt) : Prop where
  weights : s.bals.Pairwise fun a b => a.weight < b.weight
  members : ∀ b ∈ s.bals, b.members.Nodup ∧ (∀ i ∈ b.members, i < s.next ∧ (s.be i).bal = some b.weight) ∧ (∀ c, b.cur = some c → c ∈ b.members)
  backends : ∀ i < s.next, (s.be i).parent = none ∧ (s.be i).refs = 1 ∧ (s.be i).bal ≠ none
  fresh : ∀ i, (s.be i).freed = false ∧ (s.be i).mark = false
  tables : ∀ m, (s.mtx m).tab = []
  removed : s.rem = []
  sessions : s.sess = []
  requests : s.held = []
  jobs : s.jobs = []

/-- A state some history leads to -/
def DynReach (s : DynSt) : Prop := ∃ s0 ops, DynConfigured s0 ∧ dynRun s0 ops = .ok s

/-- The addresses an update has to provide for: all of them, or the first one only -/
def Wanted (x : DynMtx) (ans : List Bytes) : List Bytes := if x.first then ans.take 1 else ans

/-- The steps that may end the program -/
inductive Risky (s : DynSt) : DynOp → Prop
  /-- an answer without addresses, when only backends of this matrix are balanced together with it -/
  | update (m : Nat) (ans : List Bytes) : (s.mtx m).disabled = false → Wanted (s.mtx m) ans = [] →
      (∀ b ∈ s.bals, b.weight = (s.mtx m).weight → ∀ i ∈ b.members, Generated s m i) → Risky s (.update m ans)
  | enable (m : Nat) (ans : List Bytes) : (s.mtx m).disabled = true → Wanted (s.mtx m) ans = [] →
      (∀ b ∈ s.bals, b.weight = (s.mtx m).weight → ∀ i ∈ b.members, Generated s m i) → Risky s (.enable m ans)
  /-- a request, when some balancer is left without any backend -/
  | take (w i : Nat) (cur : Option Nat) (key : Option Bytes) : (∃ b ∈ s.bals, b.members = []) → Risky s (.take w i cur key)
  /-- a request with a session that outlived its backend, with the session types for which responses create sessions -/
  | takeSess (k : Bytes) (i : Nat) : s.late = true → (k, i) ∈ s.sess → ¬ InService s i → Risky s (.takeSess k)
  /-- a request that cannot connect to a backend taken out of service meanwhile -/
  | kill (i : Nat) : i ∈ s.held → ¬ InService s i → Risky s (.kill i)

end Pound.Spec
