import Verif.Proof.Locks

/-! C85: threads never wait for each other in a circle, give back all mutexes, and never change tables of a service that others use.

`Interleaved (ops.map MThread.start) ts`: threads that each run any pieces of the code, one after the other, come to the state `ts` when they make steps in some order. -/

namespace Pound.Props
open Pound Spec

variable (kind : Nat → BeKind) (ops : List (List LockOp)) (ts : List MThread)

/-- Threads do not wait for each other in a circle if the timer thread has no jobs of backends to cancel.  Missing: cancelled jobs, for which see
`C85_cancel_fails`. -/
theorem C85_no_circle_partial (hk : ∀ os ∈ ops, ∀ o ∈ os, GoodKinds kind o ∧ NoCancel o) (h : Interleaved (ops.map MThread.start) ts) : ¬ CircularWait ts :=
  no_circle (inter_keeps stepClosed_ordered (start_ordered hk) h) (inter_exclusive h)

/-- In all states that they can come to, some thread can go on, or all have come to the end.  Missing: cancelled jobs. -/
theorem C85_goes_on_partial (hk : ∀ os ∈ ops, ∀ o ∈ os, GoodKinds kind o ∧ NoCancel o) (h : Interleaved (ops.map MThread.start) ts) : AllDone ts ∨ ∃ i us, mStep ts i = some us :=
  lock_progress (inter_keeps stepClosed_ordered (start_ordered hk) h) (inter_exclusive h) (inter_keeps stepClosed_after (start_after ops) h)

/-- Whatever they run: mutexes have one owner, and threads that come to the end hold none. -/
theorem C85_released (h : Interleaved (ops.map MThread.start) ts) :
    (∀ i j : Nat, i ≠ j → ∀ t u, ts[i]? = some t → ts[j]? = some u → ∀ m ∈ t.held, m ∉ u.held) ∧ ∀ t ∈ ts, t.rest = [] → t.held = [] := by
  refine ⟨inter_exclusive h, fun t ht hr => ?_⟩
  have := inter_keeps stepClosed_after (start_after ops) h t ht
  rw [hr] at this
  exact this

/-- Nobody changes tables of a service while others use them, as long as no control requests come for single backends, services, or new sessions.
Missing: those requests, for which see the theorems below. -/
theorem C85_exclusive_partial (hk : ∀ os ∈ ops, ∀ o ∈ os, NotByControl o) (h : Interleaved (ops.map MThread.start) ts) (s : Nat) : ¬ Race ts s :=
  no_race (inter_keeps stepClosed_guarded (start_guarded hk) h) (inter_exclusive h) s

/-- Steps of these threads, one after the other -/
def runSteps (ts : List MThread) : List Nat → Option (List MThread)
  | [] => some ts
  | i :: r => (mStep ts i).bind fun us => runSteps us r

theorem runSteps_inter {ts us vs : List MThread} {l : List Nat} (h : Interleaved ts us) (e : runSteps us l = some vs) : Interleaved ts vs := by
  induction l generalizing us with
  | nil => cases e; exact h
  | cons i r ih =>
    unfold runSteps at e
    cases e1 : mStep us i with
    | none => rw [e1] at e; cases e
    | some ws => rw [e1] at e; exact ih (.step i h e1) e

theorem aboutTo_of_map {ts : List MThread} {l : List (Option MAct)} {i : Nat} {a : MAct} (e : (ts.map fun t => t.rest.head?) = l) (h : l[i]? = some (some a)) : AboutTo ts i a := by
  subst e
  rw [List.getElem?_map] at h
  obtain ⟨t, ht, hr⟩ := Option.map_eq_some_iff.1 h
  cases hrest : t.rest with
  | nil => rw [hrest] at hr; cases hr
  | cons x r =>
    rw [hrest] at hr
    cases hr
    exact ⟨t, r, ht, hrest⟩

/-! Cases that meet the hypotheses: an address look-up that finds two known backends, one of them again, beside a request, an SRV look-up, a timer round and a failing backend. -/

def sampleKind : Nat → BeKind
  | 0 => .srv
  | 1 => .addr
  | 2 => .addr
  | _ => .regular

def sampleThreads : List (List LockOp) :=
  [[.timer [none], .message], [.resolver 0 1 (.addr (.found false [(5, true), (6, false)] [6]))], [.resolver 0 0 (.srv (.found false [⟨1, false, []⟩, ⟨2, true, [7]⟩] [6] [1]))],
    [.getBackend 0 (some 5) true false, .killBe 0 5 true, .backend 5], [.list 0 [(5, true)], .queue true]]

example : (∀ os ∈ sampleThreads, ∀ o ∈ os, GoodKinds sampleKind o ∧ NoCancel o ∧ NotByControl o) ∧
    ((runSteps (sampleThreads.map MThread.start) [1, 1, 1, 1, 3, 0, 0]).isNone) ∧ ((runSteps (sampleThreads.map MThread.start) [1, 1, 1, 1, 0, 0]).isSome) := by
  refine ⟨?_, by decide +kernel, by decide +kernel⟩
  intro os hos o ho
  simp only [sampleThreads, List.mem_cons, List.not_mem_nil, or_false] at hos
  rcases hos with rfl | rfl | rfl | rfl | rfl <;> simp only [List.mem_cons, List.not_mem_nil, or_false] at ho <;>
    first
    | (rcases ho with rfl | rfl | rfl <;> simp [GoodKinds, GoodMtxAns, GoodMtxKid, NoCancel, NotByControl, sampleKind])
    | (rcases ho with rfl | rfl <;> simp [GoodKinds, GoodMtxAns, GoodMtxKid, NoCancel, NotByControl, sampleKind])
    | (subst ho; simp [GoodKinds, GoodMtxAns, GoodMtxKid, NoCancel, NotByControl, sampleKind])

/-- Threads that run forever do wait in a circle when the timer thread cancels the look-up of a dynamic backend that is being looked up: it holds the mutex of the job
queue and waits for that of the backend, of which the other thread is the owner, who waits for the job queue to put the next look-up there. -/
theorem C85_cancel_fails : ∃ ts, Interleaved ([[.timer [some 1]], [.mtxEnable 0 1 (.addr (.found false [] []))]].map MThread.start) ts ∧ CircularWait ts ∧
    ¬ AllDone ts ∧ ∀ i, mStep ts i = none := by
  have e : (runSteps ([[.timer [some 1]], [.mtxEnable 0 1 (.addr (.found false [] []))]].map MThread.start) [1, 1, 1, 1, 1, 1, 1, 1, 0]) =
      some [⟨[.job], [.lock (.be 1), .unlock (.be 1), .unlock .job]⟩, ⟨[.be 1, .svc 0], [.lock .job, .unlock .job, .unlock (.be 1), .unlock (.svc 0)]⟩] := by decide +kernel
  refine ⟨_, runSteps_inter .start e, ⟨[0, 1], by simp, ?_⟩, ?_, ?_⟩
  · intro i hi
    simp only [List.mem_cons, List.not_mem_nil, or_false] at hi
    rcases hi with rfl | rfl
    · exact ⟨1, by simp, by omega, .be 1, ⟨_, _, rfl, rfl⟩, _, rfl, by simp⟩
    · exact ⟨0, by simp, by omega, .job, ⟨_, _, rfl, rfl⟩, _, rfl, by simp⟩
  · intro h
    have := h _ (List.mem_cons_self ..)
    cases this
  · intro i
    match i with
    | 0 => decide +kernel
    | 1 => decide +kernel
    | n + 2 => rfl

/-- A dynamic backend that is disabled: the backends it made go, and the priorities of the service are computed anew, while a worker looks for a backend there. -/
theorem C85_disable_fails : ∃ ts, Interleaved ([[.mtxDisable 0 [5]], [.getBackend 0 (some 5) false false]].map MThread.start) ts ∧ Race ts 0 := by
  have e : (runSteps ([[.mtxDisable 0 [5]], [.getBackend 0 (some 5) false false]].map MThread.start) [0, 0, 0, 0, 1]).map (fun ts => ts.map fun t => t.rest.head?) =
      some [some (.write 0), some (.read 0)] := by decide +kernel
  obtain ⟨ts, e1, e2⟩ := Option.map_eq_some_iff.1 e
  refine ⟨ts, runSteps_inter .start e1, 0, 1, by omega, ?_, Or.inr ?_⟩
  · exact aboutTo_of_map e2 rfl
  · exact aboutTo_of_map e2 rfl

/-- Control requests look for backends in the lists of a service before they lock it, while a look-up changes the lists: to list one backend, -/
theorem C85_list_fails : ∃ ts, Interleaved ([[.resolver 0 1 (.addr (.found false [] []))], [.listOne 0 5 false]].map MThread.start) ts ∧ Race ts 0 := by
  have e : (runSteps ([[.resolver 0 1 (.addr (.found false [] []))], [.listOne 0 5 false]].map MThread.start) [0, 0]).map (fun ts => ts.map fun t => t.rest.head?) =
      some [some (.write 0), some (.read 0)] := by decide +kernel
  obtain ⟨ts, e1, e2⟩ := Option.map_eq_some_iff.1 e
  exact ⟨ts, runSteps_inter .start e1, 0, 1, by omega, aboutTo_of_map e2 rfl, Or.inr (aboutTo_of_map e2 rfl)⟩

/-- to disable or enable one, -/
theorem C85_control_fails : ∃ ts, Interleaved ([[.resolver 0 1 (.addr (.found false [] []))], [.control 0 5]].map MThread.start) ts ∧ Race ts 0 := by
  have e : (runSteps ([[.resolver 0 1 (.addr (.found false [] []))], [.control 0 5]].map MThread.start) [0, 0]).map (fun ts => ts.map fun t => t.rest.head?) =
      some [some (.write 0), some (.read 0)] := by decide +kernel
  obtain ⟨ts, e1, e2⟩ := Option.map_eq_some_iff.1 e
  exact ⟨ts, runSteps_inter .start e1, 0, 1, by omega, aboutTo_of_map e2 rfl, Or.inr (aboutTo_of_map e2 rfl)⟩

/-- to add a session, -/
theorem C85_session_fails : ∃ ts, Interleaved ([[.resolver 0 1 (.addr (.found false [] []))], [.addSession 0 true false]].map MThread.start) ts ∧ Race ts 0 := by
  have e : (runSteps ([[.resolver 0 1 (.addr (.found false [] []))], [.addSession 0 true false]].map MThread.start) [0, 0]).map (fun ts => ts.map fun t => t.rest.head?) =
      some [some (.write 0), some (.read 0)] := by decide +kernel
  obtain ⟨ts, e1, e2⟩ := Option.map_eq_some_iff.1 e
  exact ⟨ts, runSteps_inter .start e1, 0, 1, by omega, aboutTo_of_map e2 rfl, Or.inr (aboutTo_of_map e2 rfl)⟩

/-- and to disable a service. -/
theorem C85_service_fails : ∃ ts, Interleaved ([[.resolver 0 1 (.addr (.found false [] []))], [.disableService 0]].map MThread.start) ts ∧ Race ts 0 := by
  have e : (runSteps ([[.resolver 0 1 (.addr (.found false [] []))], [.disableService 0]].map MThread.start) [0, 0]).map (fun ts => ts.map fun t => t.rest.head?) =
      some [some (.write 0), some (.read 0)] := by decide +kernel
  obtain ⟨ts, e1, e2⟩ := Option.map_eq_some_iff.1 e
  exact ⟨ts, runSteps_inter .start e1, 0, 1, by omega, aboutTo_of_map e2 rfl, Or.inr (aboutTo_of_map e2 rfl)⟩

end Pound.Props
