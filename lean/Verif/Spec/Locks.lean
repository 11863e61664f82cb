import Verif.Model.Locks

/-! Waiting for mutexes and accesses to tables: what must not happen. -/

namespace Pound.Spec

open Pound

/-- States that can be reached when threads make steps in any order -/
inductive Interleaved (ts : List MThread) : List MThread → Prop
  | start : Interleaved ts ts
  | step {us vs} (i : Nat) : Interleaved ts us → mStep us i = some vs → Interleaved ts vs

/-- Thread `i` is about to do `a`. -/
def AboutTo (ts : List MThread) (i : Nat) (a : MAct) : Prop := ∃ t r, ts[i]? = some t ∧ t.rest = a :: r

/-- Thread `i` waits for a mutex that thread `j` holds. -/
def WaitsFor (ts : List MThread) (i j : Nat) : Prop := i ≠ j ∧ ∃ m, AboutTo ts i (.lock m) ∧ ∃ u, ts[j]? = some u ∧ m ∈ u.held

/-- Some threads wait for each other. -/
def CircularWait (ts : List MThread) : Prop := ∃ is : List Nat, is ≠ [] ∧ ∀ i ∈ is, ∃ j ∈ is, WaitsFor ts i j

/-- All threads have come to their end. -/
def AllDone (ts : List MThread) : Prop := ∀ t ∈ ts, t.rest = []

/-- A thread changes tables of a service while another one uses them. -/
def Race (ts : List MThread) (s : Nat) : Prop := ∃ i j, i ≠ j ∧ AboutTo ts i (.write s) ∧ (AboutTo ts j (.write s) ∨ AboutTo ts j (.read s))

/-- Kinds of backends -/
inductive BeKind where
  | srv | addr | regular
deriving DecidableEq, Repr

/-- Backends are of the kinds that the code takes them for: dynamic backends for SRV records make those for addresses, which make regular ones. -/
def GoodMtxKid (kind : Nat → BeKind) (k : MtxKid) : Prop := kind k.id = .addr ∧ ∀ b ∈ k.kids, kind b = .regular

def GoodMtxAns (kind : Nat → BeKind) (m : Nat) : MtxAns → Prop
  | .addr (.found _ kids again) => kind m ≠ .regular ∧ (∀ k ∈ kids, kind k.1 = .regular) ∧ ∀ b ∈ again, kind b = .regular
  | .srv (.found _ kids prio new) => kind m = .srv ∧ (∀ k ∈ kids, GoodMtxKid kind k) ∧ (∀ b ∈ prio, kind b = .regular) ∧ ∀ b ∈ new, kind b = .addr
  | _ => True

def GoodKinds (kind : Nat → BeKind) : LockOp → Prop
  | .resolver _ m a => GoodMtxAns kind m a
  | .mtxEnable _ m a => GoodMtxAns kind m a
  | .mtxDisable _ kids => ∀ b ∈ kids, kind b = .regular
  | .srvDisable _ kids => ∀ k ∈ kids, GoodMtxKid kind k
  | _ => True

/-- The timer thread does not come to cancel jobs that hold references. -/
def NoCancel : LockOp → Prop
  | .timer c => ∀ j ∈ c, j = none
  | _ => True

/-- Requests other than control requests for a backend, or to disable a service, or to add a session -/
def NotByControl : LockOp → Prop
  | .listOne .. => False
  | .addSession .. => False
  | .control .. => False
  | .disableService .. => False
  | .mtxDisable .. => False
  | .srvDisable .. => False
  | .mtxEnable .. => False
  | _ => True

end Pound.Spec
