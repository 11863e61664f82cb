import Verif.Proof.Lists

/-!
C28: the intrusive lists implement sequences.
-/

namespace Pound.Props
open Spec

/-- Nothing allocated, all list heads initialised. -/
def dStart : DSt := ⟨fun _ => none, fun _ => ⟨none, none⟩⟩
/-- The same for singly-linked lists. -/
def sStart : SSt := ⟨fun _ => none, fun _ => ⟨none, none⟩⟩

theorem dStart_repr : DRepr dStart .empty :=
  ⟨fun _ => List.nodup_nil, (fun _ _ _ h => by cases h), fun _ => ⟨fun h => h.elim, (fun h => by cases h)⟩, fun _ => rfl, fun _ => trivial⟩

theorem sStart_repr : SRepr sStart .empty :=
  ⟨fun _ => List.nodup_nil, (fun _ _ _ h => by cases h), fun _ => ⟨fun h => h.elim, (fun h => by cases h)⟩, fun _ => rfl, fun _ => trivial⟩

/-- Doubly-linked lists: whatever operations the callers perform on any number of lists and elements (as long as each is one that makes
sense for sequences: `Spec.DStep`), no operation follows a dangling or null link, and afterwards each list, traversed forwards, gives
exactly the specified sequence, traversed backwards its reverse, and its first and last pointers designate the first and last element. -/
theorem C28_doubly_linked (os : List DOp) (q : Seqs) (h : DRun os .empty q) :
    ∃ s, dExec os dStart = .ok s ∧ ∀ l fuel, (q.seq l).length ≤ fuel →
      dWalk s fuel (s.heads l).first = .ok (some (q.seq l)) ∧
      dWalkBack s fuel (s.heads l).last = .ok (some (q.seq l).reverse) ∧
      (s.heads l).first = (q.seq l).head? ∧ (s.heads l).last = (q.seq l).getLast? := by
  obtain ⟨s, e, r⟩ := drun_spec dStart_repr h
  refine ⟨s, e, fun l fuel hf => ?_⟩
  rw [r.head l]
  exact ⟨dwalk_seg (r.seg l) hf, dwalkBack_seg (r.seg l) hf, rfl, rfl⟩

/-- Example: elements 1..4 in two lists, one of them moved between the lists. -/
def exDOps : List DOp := [.alloc 1 ⟨none, none⟩, .alloc 2 ⟨some 7, none⟩, .alloc 3 ⟨none, some 9⟩, .alloc 4 ⟨none, none⟩,
  .insertTail 0 1, .insertTail 0 2, .insertHead 0 3, .insertBefore 0 (some 1) 4, .remove 0 1, .insertAfter 1 none 1]
example : ∃ q, DRun exDOps .empty q ∧ q.seq 0 = [3, 4, 2] ∧ q.seq 1 = [1] := by
  refine ⟨_, .cons (.alloc (by simp [Seqs.empty])) (.cons (.alloc (by simp [Seqs.empty])) (.cons (.alloc (by simp [Seqs.empty]))
    (.cons (.alloc (by simp [Seqs.empty]))
    (.cons (.insertTail ⟨by simp, by simp [Seqs.empty]⟩) (.cons (.insertTail ⟨by simp, ?_⟩) (.cons (.insertHead ⟨by simp, ?_⟩)
    (.cons (.insertBefore (pre := [3]) (post := [2]) ⟨by simp, ?_⟩ ?_)
    (.cons (.remove (pre := [3, 4]) (post := [2]) ?_) (.cons (.insertAfterNull ⟨by simp, ?_⟩) .nil))))))))), ?_, ?_⟩
  all_goals first
    | rfl
    | (intro l; simp [upd, Seqs.empty]; try split <;> simp)

/-- Two further consequences: an element is never in two lists or twice in one, and every element of a list is allocated. -/
theorem C28_doubly_linked_disjoint (os : List DOp) (q : Seqs) (h : DRun os .empty q) :
    (∀ l, (q.seq l).Nodup) ∧ (∀ l l' a, a ∈ q.seq l → a ∈ q.seq l' → l = l') ∧ (∀ l a, a ∈ q.seq l → q.live a) := by
  obtain ⟨s, _, r⟩ := drun_spec dStart_repr h
  exact ⟨r.nodup, r.disj, fun l a ha => (r.live a).2 (seg_live (r.seg l) ha)⟩

/-- Removing and freeing elements while traversing a list with the "safe" loop: at any point of any history, the loop ends, follows no
dangling link, and leaves exactly the elements that do not satisfy the condition, in the same order; other lists are not affected. -/
theorem C28_sweep (os : List DOp) (q : Seqs) (h : DRun os .empty q) (l : Nat) (p : Addr → Bool) (fuel : Nat) (hf : (q.seq l).length ≤ fuel) :
    ∃ s s', dExec os dStart = .ok s ∧ dForeachSafe l p fuel s = .ok (some s') ∧
      ∀ k fuel', (q.seq k).length ≤ fuel' →
        dWalk s' fuel' (s'.heads k).first = .ok (some (if k = l then (q.seq l).filter fun x => !p x else q.seq k)) ∧
        dWalkBack s' fuel' (s'.heads k).last = .ok (some (if k = l then (q.seq l).filter fun x => !p x else q.seq k).reverse) := by
  obtain ⟨s, e, r⟩ := drun_spec dStart_repr h
  obtain ⟨s', e', r'⟩ := dSweep_spec (p := p) r (pre := []) (post := q.seq l) rfl hf
  refine ⟨s, s', e, ?_, fun k fuel' hk => ?_⟩
  · simp only [dForeachSafe, r.head l]
    rw [dTmp_seg (r.seg l)]
    exact e'
  · have h1 := r'.seg k
    have h2 := r'.head k
    simp only [upd, List.nil_append] at h1 h2
    rw [h2]
    have hlen : (if k = l then (q.seq l).filter (fun x => !p x) else q.seq k).length ≤ fuel' := by
      split
      · rename_i hkl; rw [hkl] at hk; exact Nat.le_trans (List.length_filter_le _ _) hk
      · exact hk
    exact ⟨dwalk_seg h1 hlen, dwalkBack_seg h1 hlen⟩

/-- Example: the hypotheses hold of a list of two elements, the first of which is removed. -/
example : ∃ q, DRun [.alloc 1 ⟨none, none⟩, .alloc 2 ⟨none, none⟩, .insertTail 0 1, .insertTail 0 2] .empty q ∧
    (q.seq 0).filter (fun x => !(x == 1)) = [2] := by
  refine ⟨_, .cons (.alloc (by simp [Seqs.empty])) (.cons (.alloc (by simp [Seqs.empty]))
    (.cons (.insertTail ⟨by simp, by simp [Seqs.empty]⟩) (.cons (.insertTail ⟨by simp, ?_⟩) .nil))), ?_⟩
  · intro l; simp [upd, Seqs.empty]
  · rfl

/-- Why the "safe" loop is needed: the plain loop with the same body reads the link of a freed element. -/
theorem C28_unsafe_sweep_fails : ∃ os q s, DRun os .empty q ∧ dExec os dStart = .ok s ∧
    dForeachUnsafe 0 (fun _ => true) 5 (s.heads 0).first s = .ub := by
  have hrun : DRun [.alloc 1 ⟨none, none⟩, .insertTail 0 1] .empty _ :=
    .cons (.alloc (by simp [Seqs.empty])) (.cons (.insertTail ⟨by simp, by simp [Seqs.empty]⟩) .nil)
  obtain ⟨s, e, r⟩ := drun_spec dStart_repr hrun
  refine ⟨_, _, s, hrun, e, ?_⟩
  have : s = ⟨fun x => if x = 1 then some ⟨none, none⟩ else none, fun k => if k = 0 then ⟨some 1, some 1⟩ else ⟨none, none⟩⟩ := by
    simp [dExec, DOp.exec, dStart, dAlloc, dInsertTail, DSt.setNext, DSt.setPrev, DSt.setFirst, DSt.setLast, Res.bind] at e
    rw [← e]
    congr 1
    · funext x; by_cases hx : x = 1 <;> simp [hx]
    · funext x; by_cases hx : x = 0 <;> simp [hx]
  subst this
  simp [dForeachUnsafe, dRemove, DSt.get, DSt.setFirst, DSt.setLast, dFree, Res.bind]

/-- Singly-linked lists, for every history in which SLIST_CONCAT is not applied to a non-empty list and an empty one. -/
theorem C28_singly_linked_partial (os : List SOp) (q : Seqs) (h : SRun os .empty q) :
    ∃ s, sExec os sStart = .ok s ∧ ∀ l fuel, (q.seq l).length ≤ fuel →
      sWalk s fuel (s.heads l).first = .ok (some (q.seq l)) ∧
      (s.heads l).first = (q.seq l).head? ∧ (s.heads l).last = (q.seq l).getLast? := by
  obtain ⟨s, e, r⟩ := srun_spec sStart_repr h
  refine ⟨s, e, fun l fuel hf => ?_⟩
  rw [r.head l]
  exact ⟨swalk_seg (r.seg l) hf, rfl, rfl⟩

/-- Example: two lists are built and concatenated. -/
example : ∃ q, SRun [.alloc 1 none, .alloc 2 none, .alloc 3 none, .insertTail 0 1, .insertHead 1 2, .insertAfter 1 2 3, .concat 0 1] .empty q ∧
    q.seq 0 = [1, 2, 3] ∧ q.seq 1 = [] := by
  refine ⟨_, .cons (.alloc (by simp [Seqs.empty])) (.cons (.alloc (by simp [Seqs.empty])) (.cons (.alloc (by simp [Seqs.empty]))
    (.cons (.insertTail ⟨by simp, by simp [Seqs.empty]⟩) (.cons (.insertHead ⟨by simp, ?_⟩)
    (.cons (.insertAfter (pre := []) (post := []) ⟨by simp, ?_⟩ ?_) (.cons (.concat (by simp) ?_) .nil)))))), ?_, ?_⟩
  all_goals first
    | rfl
    | (simp [upd, Seqs.empty]; done)
    | (intro l; simp [upd, Seqs.empty]; try split <;> simp)
    | (intro l; simp [upd, Seqs.empty]; repeat split <;> simp)

/-- Deviation: concatenating an empty list to a non-empty one loses the tail pointer, and the next append then replaces the whole list. -/
theorem C28_concat_empty_fails :
    (match sExec [.alloc 1 none, .alloc 2 none, .alloc 3 none, .insertTail 0 1, .insertTail 0 2, .concat 0 1, .insertTail 0 3] sStart with
      | .ok s => decide ((s.heads 0).last = some 3 ∧ sWalk s 10 (s.heads 0).first = .ok (some [3]))
      | .ub => false) = true := by decide

end Pound.Props
