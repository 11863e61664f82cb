import Verif.Proof.OwnErr
import Verif.Props.Own

/-!
C97: the memory of the replies of Error backends.
-/

namespace Pound.Props
open Pound Spec

theorem ruleOp_ok {o : MsgOp} (h : HeaderOp o) : OpOk true false false o := headerOp_ok h

/-- If no allocation fails and rules set only what are header lines: any number of replies of Error backends read and release only what is allocated, and then all that they allocated is released.
Each has the headers of errors, changed by the rules. -/
theorem C97_errors_partial (os : List (List MsgOp)) (m : Mem) (hm : Mem.Fit m) (hp : Plenty m) (ho : ∀ ops ∈ os, ∀ o ∈ ops, HeaderOp o) :
    ∃ rs m', errorRepliesP os m = .ok rs m' ∧ m'.live.Perm m.live ∧
      Each (fun r ops => ∃ hs, r = some hs ∧
        opsHdrs (.append b!"Expires: now" .replace :: .append b!"Pragma: no-cache" .replace :: .append b!"Cache-control: no-cache,no-store" .replace :: ops) [] = .ok hs) rs os := by
  obtain ⟨rs, m', h1, h2, h3⟩ := Hoare.run (errorReplies_h os fun ops h o h' => ruleOp_ok (ho ops h o h')) hm.1 hm.2 (fun _ => hp)
  exact ⟨rs, m', h1, h3, h2⟩

/-- Two replies, one with a rule that sets a header and one that deletes -/
example : ∀ ops ∈ [[MsgOp.append b!"X-A: b" .replace], [.filter fun t => t.length = 12]], ∀ o ∈ ops, HeaderOp o := by
  intro ops h o h'
  simp only [List.mem_cons, List.not_mem_nil, or_false] at h
  rcases h with rfl | rfl
  · rw [List.mem_singleton.1 h']
    exact ⟨headerText_of _ (by decide +kernel), lengthOk_other _ b!"X-A" b!"b" ⟨b!" ", by decide, by decide, by unfold TChar; decide +kernel, by decide, by decide⟩ (by decide), by decide⟩
  · rw [List.mem_singleton.1 h']
    trivial

example : (match errorRepliesP [[.append b!"X-A: b" .replace], [.filter fun t => t.length = 12]] mem0 with
  | .ok [some a, some b] m => a.map (·.text) == [b!"Expires: now", b!"Pragma: no-cache", b!"Cache-control: no-cache,no-store", b!"X-A: b"] &&
      b.map (·.text) == [b!"Pragma: no-cache", b!"Cache-control: no-cache,no-store"] && m.live.isEmpty
  | _ => false) = true := by decide +kernel

/-- A rule for responses that sets a header without a name, as it may come from a match in what a client sent: every such reply loses the memory of its headers, so that the memory in use grows without
bound with the number of requests. -/
theorem C97_errors_fails (k : Nat) : ∃ m', errorRepliesP (List.replicate k [.append b!"x" .replace]) mem0 = .ok (List.replicate k none) m' ∧ 6 * k ≤ m'.live.length := by
  obtain ⟨m', h1, h2⟩ := errorReplies_lose k mem0 ⟨mem0_fit.1, mem0_fit.2⟩ fun _ => rfl
  exact ⟨m', h1, Nat.le_trans (Nat.le_add_left _ _) h2⟩

/-- So it is if memory is short while the headers are made. -/
theorem C97_error_memory_fails : ended (errorReplyP [] (memFail 9)) = some 4 := by decide +kernel

end Pound.Props
