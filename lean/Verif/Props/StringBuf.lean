import Verif.Proof.StringBuf

/-!
C29: string buffers.
-/

namespace Pound.Props
open Spec

/-- After any history of operations, with memory allocations failing at any point, the buffer holds exactly what the operations that
reported success put there; its length is within its capacity, and the capacity is the size of the block it owns. -/
theorem C29_content (al : Alloc) (junk : Junk) (hal : SaneAlloc al) (sb : SBuf) (c : Bytes) (clean : Bool) (h : SbReach al junk sb c clean) :
    sb.value = c ∧ sb.len = c.length ∧ sb.len ≤ sb.size ∧ (sb.base.getD []).length = sb.size := by
  obtain ⟨i, rfl⟩ := reach_inv hal h
  exact ⟨rfl, i.valueLen.symm, i.len, i.blockLen⟩

/-- In every such state every allowed operation ends, and writes only inside the block (no undefined behaviour). -/
theorem C29_no_overflow (al : Alloc) (junk : Junk) (hal : SaneAlloc al) (sb : SBuf) (c : Bytes) (clean : Bool) (h : SbReach al junk sb c clean)
    (o : SbOp) (ho : SbAllowed o c) : ∃ r, o.exec al junk sb = .ok r := by
  obtain ⟨i, rfl⟩ := reach_inv hal h
  obtain ⟨s', ok, e, _⟩ := exec_good (junk := junk) hal i ho
  exact ⟨_, e⟩

/-- An allocator that fails every third call, and one that never does. -/
def exAlloc : Alloc := fun k n => k % 3 != 2 && n < 2 ^ 63
def fullAlloc : Alloc := fun _ n => n < 2 ^ 63

/-- An allocator that grants one request. -/
def exOnce : Alloc := fun k n => k == 0 && n < 2 ^ 63

/-- The state after some operations (for the examples). -/
def exRun (al : Alloc) (os : List SbOp) : SBuf := match sbExec al (fun _ => 7) os .init with | .ok r => r.1 | .ub => .init

/-- Example: a string is added to a new buffer, cut, extended and consumed. -/
example : SaneAlloc exAlloc ∧ ∃ sb, SbReach exAlloc (fun _ => 7) sb b!"bc!!" true := by
  refine ⟨fun k n h => by simp [exAlloc] at h; omega, ?_⟩
  refine ⟨exRun exAlloc [.add b!"abcd", .truncate 3, .set 33 2, .consume 1],
    .step (o := .consume 1) (ok := true) (sb := exRun exAlloc [.add b!"abcd", .truncate 3, .set 33 2])
    (.step (o := .set 33 2) (ok := true) (sb := exRun exAlloc [.add b!"abcd", .truncate 3])
    (.step (o := .truncate 3) (ok := true) (sb := exRun exAlloc [.add b!"abcd"])
    (.step (o := .add b!"abcd") (ok := true) .init ?_ ?_) ?_ ?_) ?_ ?_) ?_ ?_⟩
  all_goals first
    | rfl
    | trivial
    | (show _ < _; decide)
    | (show _ ≤ _; decide)

/-- When the allocator grants what is asked for (up to half of the address space) and nothing has failed before, the operations succeed.  The exceptions
are formatted output of 2^31 bytes or more and an empty formatted date (see below). -/
theorem C29_success_partial (al : Alloc) (junk : Junk) (hal : SaneAlloc al) (hg : ∀ k n, n < 2 ^ 63 → al k n = true) (sb : SBuf) (c : Bytes)
    (h : SbReach al junk sb c true) (o : SbOp) (ho : SbAllowed o c) (hlen : c.length + sbCost o ≤ 2 ^ 62)
    (hp : ∀ x, o = .printf x → x.length < 2 ^ 31) (hs : o ≠ .strftime []) : ∃ sb', o.exec al junk sb = .ok (sb', true) := by
  have he := reach_err hal h rfl
  obtain ⟨i, rfl⟩ := reach_inv hal h
  obtain ⟨s', ok, e, _⟩ := exec_good (junk := junk) hal i ho
  have := exec_succeeds hal hg i ho he hlen hp hs e
  simp only at this; subst this
  exact ⟨s', e⟩

/-- A finished string is the content, then a zero byte; and it is delivered if no operation has failed and memory is available. -/
theorem C29_finish_partial (al : Alloc) (junk : Junk) (hal : SaneAlloc al) (sb : SBuf) (c : Bytes) (clean : Bool)
    (h : SbReach al junk sb c clean) : ∃ sb' r, sb.finish al junk = .ok (sb', r) ∧ (r = some (c ++ [0]) ∨ r = none) ∧
      (clean = true → (∀ k n, n < 2 ^ 63 → al k n = true) → c.length < 2 ^ 62 → r = some (c ++ [0])) := by
  have he := reach_err hal h
  obtain ⟨i, rfl⟩ := reach_inv hal h
  obtain ⟨s', r, e, _, hr⟩ := finish_good (junk := junk) hal i
  refine ⟨s', r, e, ?_, fun hc hg hl => ?_⟩
  · rcases hr with ⟨_, h1, _⟩ | ⟨_, h1, _⟩ | ⟨_, h1, _⟩
    · exact .inr h1
    · exact .inr h1
    · exact .inl h1
  · have hx : SbOp.exec al junk .finish sb = .ok (s', r.isSome) := by simp [SbOp.exec, e, Res.bind]
    have := exec_succeeds (o := .finish) hal hg i trivial (he hc) (by simp only [sbCost]; omega) (fun x hx => by cases hx) (by simp) hx
    simp only at this
    rcases hr with ⟨_, h1, _⟩ | ⟨_, h1, _⟩ | ⟨_, h1, _⟩
    · rw [h1] at this; cases this
    · rw [h1] at this; cases this
    · exact h1

/-- Example for both: the content is "ab". -/
example : SaneAlloc fullAlloc ∧ (∀ k n, n < 2 ^ 63 → fullAlloc k n = true) ∧ (∃ sb, SbReach fullAlloc (fun _ => 7) sb b!"ab" true) ∧
    SbAllowed (.add b!"xyz") b!"ab" := by
  refine ⟨fun k n h => by simp [fullAlloc] at h; omega, fun k n h => by simp [fullAlloc]; omega, ⟨exRun fullAlloc [.add b!"ab"], .step (o := .add b!"ab") (ok := true) .init ?_ ?_⟩, ?_⟩
  · show _ < _; decide
  · rfl
  · show _ < _; decide

/-- Right after an operation that failed, no finished string is delivered. -/
theorem C29_finish_after_failure (al : Alloc) (junk : Junk) (hal : SaneAlloc al) (sb sb' : SBuf) (c : Bytes) (clean : Bool)
    (h : SbReach al junk sb c clean) (o : SbOp) (ho : SbAllowed o c) (he : o.exec al junk sb = .ok (sb', false)) :
    sb'.finish al junk = .ok (sb', none) := by
  obtain ⟨i, rfl⟩ := reach_inv hal h
  obtain ⟨s', ok, e, _, _, hf⟩ := exec_good (junk := junk) hal i ho
  rw [he] at e; cases e
  simp [SBuf.finish, hf rfl]

/-- Example: no memory is left for the second addition. -/
example : ∃ s0, SbReach exOnce (fun _ => 7) s0 b!"a" true ∧ ∃ s1, SbOp.exec exOnce (fun _ => 7) (.add (List.replicate 100 ch%'b')) s0 = .ok (s1, false) := by
  refine ⟨exRun exOnce [.add b!"a"], .step (o := .add b!"a") (ok := true) .init ?_ ?_, exRun exOnce [.add b!"a", .add (List.replicate 100 ch%'b')], ?_⟩
  all_goals first
    | (show List.length _ < _; decide)
    | decide +kernel

/-- Growing an array of elements of any size: the new number of elements is greater than the old one, and its size in bytes is not
reduced modulo 2^64; the growth is refused only if it would exceed the address space by this computation (2/3 of it is in use). -/
theorem C29_capacity (old : Bool) (n s : Nat) (hs : 0 < s) (hs' : s < 2 ^ 64) (hn : n < 2 ^ 64) (hold : old = false → n = 0) (hold' : old = true → 0 < n) :
    (∀ n', growCount old n s = some n' → n < n' ∧ n' * s < 2 ^ 64) ∧
    (growCount old n s = none → 2 * (2 ^ 64 - 1) ≤ 3 * ((n + 1) * s)) := by
  cases old with
  | false =>
    obtain rfl := hold rfl
    refine ⟨fun n' h => ?_, fun h => ?_⟩
    · simp [growCount] at h
      subst h
      split
      · rename_i h
        have : 64 / s = 0 := Nat.div_eq_of_lt (by omega)
        rw [this]; exact ⟨by omega, by omega⟩
      · rename_i h
        have h1 := Nat.div_mul_le_self 64 s
        have h2 : 0 < 64 / s := Nat.div_pos (by omega) hs
        exact ⟨by omega, by rw [Nat.add_zero]; omega⟩
    · simp [growCount] at h
  | true =>
    have key : (sizeMod - 1) / 3 * 2 = 12297829382473034410 := by decide
    refine ⟨fun n' h => ?_, fun h => ?_⟩
    · simp only [growCount, key] at h
      simp at h
      obtain ⟨h1, h2⟩ := h
      have h3 : n < 12297829382473034410 / s := h1
      have h4 : (n + 1) * s ≤ 12297829382473034410 := by
        have : n + 1 ≤ 12297829382473034410 / s := h3
        exact Nat.le_trans (Nat.mul_le_mul_right s this) (Nat.div_mul_le_self _ s)
      have h5 : n + 1 ≤ 12297829382473034410 := Nat.le_trans (Nat.le_mul_of_pos_right _ hs) h4
      have e1 : (n + 1) % sizeMod = n + 1 := Nat.mod_eq_of_lt (by simp only [sizeMod]; omega)
      have e2 : (n + (n + 1) / 2) % sizeMod = n + (n + 1) / 2 := Nat.mod_eq_of_lt (by simp only [sizeMod]; omega)
      rw [e1, e2] at h2
      subst h2
      have hd : (n + 1) / 2 * 2 ≤ n + 1 := Nat.div_mul_le_self _ _
      have h6 : (n + (n + 1) / 2) * 2 ≤ (n + 1) * 3 := by omega
      have h7 : (n + (n + 1) / 2) * 2 * s ≤ (n + 1) * 3 * s := Nat.mul_le_mul_right s h6
      have h8 : (n + 1) * 3 * s = (n + 1) * s * 3 := Nat.mul_right_comm _ _ _
      have h9 : (n + (n + 1) / 2) * 2 * s = (n + (n + 1) / 2) * s * 2 := Nat.mul_right_comm _ _ _
      generalize (n + (n + 1) / 2) * s = X at *
      generalize (n + 1) * s = Y at *
      have := hold' rfl
      exact ⟨by omega, by omega⟩
    · simp only [growCount, key] at h
      simp at h
      have h1 : 12297829382473034410 < (n + 1) * s := by
        have := Nat.lt_div_mul_add (a := 12297829382473034410) (b := s) hs
        have h2 : 12297829382473034410 / s * s ≤ n * s := Nat.mul_le_mul_right s h
        rw [Nat.add_mul, Nat.one_mul]; omega
      omega

/-- Example: growing 64 one-byte elements gives 96; an array filling the address space is refused. -/
example : growCount true 64 1 = some 96 ∧ growCount true (2 ^ 64 - 1) 1 = none ∧ growCount false 0 24 = some 2 := by decide

/-- Deviation: a failed addition is forgotten when a later one succeeds: the finished string lacks a part and no error is reported. -/
theorem C29_error_forgotten_fails : ∃ al, SaneAlloc al ∧ ∃ sb sb', SbReach al (fun _ => 7) sb b!"ac" false ∧
    (∃ s0, SbReach al (fun _ => 7) s0 b!"a" true ∧ ∃ s1, SbOp.exec al (fun _ => 7) (.add (List.replicate 100 ch%'b')) s0 = .ok (s1, false) ∧
      SbOp.exec al (fun _ => 7) (.add b!"c") s1 = .ok (sb, true)) ∧
    sb.finish al (fun _ => 7) = .ok (sb', some (b!"ac" ++ [0])) := by
  let os : List SbOp := [.add b!"a", .add (List.replicate 100 ch%'b'), .add b!"c", .finish]
  refine ⟨exOnce, fun k n h => by simp [exOnce] at h; omega, exRun exOnce (os.take 3), exRun exOnce os,
    .step (o := .add b!"c") (ok := true) (sb := exRun exOnce (os.take 2)) (.step (o := .add (List.replicate 100 ch%'b')) (ok := false)
    (sb := exRun exOnce (os.take 1))
    (.step (o := .add b!"a") (ok := true) .init ?_ ?_) ?_ ?_) ?_ ?_, ⟨exRun exOnce (os.take 1), .step (o := .add b!"a") (ok := true) .init ?_ ?_,
      exRun exOnce (os.take 2), ?_, ?_⟩, ?_⟩
  all_goals first
    | (show List.length _ < _; decide)
    | decide +kernel

/-- Deviation: the size needed is computed modulo 2^64, so that a request for nearly 2^64 bytes is not refused but writes outside the
block (no caller in pound asks for this). -/
theorem C29_wrap_fails : ∃ sb, SbReach fullAlloc (fun _ => 7) sb b!"ab" true ∧ sb.set fullAlloc (fun _ => 7) 32 (2 ^ 64 - 1) = .ub := by
  refine ⟨exRun fullAlloc [.add b!"ab"], .step (o := .add b!"ab") (ok := true) .init ?_ ?_, ?_⟩
  · show _ < _; decide
  · rfl
  · decide +kernel

/-- Deviation: a date format that expands to nothing never succeeds: the buffer is enlarged until the allocator refuses, and the operation fails. -/
theorem C29_empty_date_fails (al : Alloc) (junk : Junk) (hal : SaneAlloc al) (sb : SBuf) (c : Bytes) (clean : Bool) (h : SbReach al junk sb c clean) :
    ∃ sb', sb.strftime al junk [] = .ok (sb', false) ∧ sb'.err = true := by
  obtain ⟨i, rfl⟩ := reach_inv hal h
  obtain ⟨s', ok, e, _, _, f, g⟩ := strftime_spec (junk := junk) (out := []) hal (fuel := sizeMod) i (by omega)
  cases ok with
  | true => exact absurd rfl (g rfl).2
  | false => exact ⟨s', by simp [SBuf.strftime, e], f rfl⟩

/-- Deviation: truncating to more than the current length exposes uninitialised memory as content (no caller in pound does this). -/
theorem C29_truncate_grows_fails : ∃ sb, SbReach fullAlloc (fun _ => 7) sb b!"ab" true ∧
    ∃ sb', sb.truncate fullAlloc (fun _ => 7) 4 = .ok (sb', true) ∧ sb'.value = [97, 98, 7, 7] := by
  refine ⟨exRun fullAlloc [.add b!"ab"], .step (o := .add b!"ab") (ok := true) .init ?_ ?_, exRun fullAlloc [.add b!"ab", .truncate 4], ?_, ?_⟩
  · show _ < _; decide
  · rfl
  · rfl
  · rfl

end Pound.Props
