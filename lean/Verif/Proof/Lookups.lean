import Verif.Proof.Jobs
import Verif.Spec.Lookups

/-! Look-ups of names: references and numbers of look-ups. -/

namespace Pound
open Spec

theorem set_be (s : LkSt) (b : Nat) (r : LkBe) (x : Nat) : (s.set b r).be x = if x = b then r else s.be x := rfl
theorem set_q (s : LkSt) (b : Nat) (r : LkBe) : (s.set b r).q = s.q := rfl
theorem set_run (s : LkSt) (b : Nat) (r : LkBe) : (s.set b r).run = s.run := rfl

/-- Number of queued look-ups, cancelled or not -/
def queued (s : LkSt) (b : Nat) : Nat := s.q.jobs.countP fun j => decide (j.data = some b)

theorem countP_insertJob {α} (p : Job α → Bool) (j : Job α) (l : List (Job α)) : (insertJob j l).countP p = l.countP p + (if p j then 1 else 0) := by
  rw [(insertJob_perm j l).countP_eq p, List.countP_cons]

theorem jobRemove_found {α} {id : Nat} {l : List (Job α)} {j : Job α} (h : l.find? (fun j => j.id = id) = some j) : l.Perm (j :: jobRemove id l) := by
  induction l with
  | nil => simp at h
  | cons t r ih =>
    rw [List.find?_cons] at h
    rw [jobRemove]
    by_cases ht : t.id = id
    · simp only [ht, decide_true] at h
      cases h
      rw [if_pos ht]
    · simp only [ht, decide_false] at h
      rw [if_neg ht]
      exact ((ih h).cons t).trans (.swap _ _ _)

theorem count_eraseIdx {l : List Nat} {k b : Nat} (h : l[k]? = some b) (x : Nat) : l.count x = (l.eraseIdx k).count x + if x = b then 1 else 0 := by
  induction l generalizing k with
  | nil => simp at h
  | cons a t ih =>
    cases k with
    | zero =>
      simp only [List.getElem?_cons_zero, Option.some.injEq] at h
      subst h
      rw [List.eraseIdx_zero, List.tail_cons, List.count_cons]
      by_cases hx : x = a
      · subst hx; simp
      · simp [hx]; exact fun e => hx e.symm
    | succ k =>
      simp only [List.getElem?_cons_succ] at h
      rw [List.eraseIdx_cons_succ, List.count_cons, List.count_cons, ih h]
      omega

/-! ### References -/

/-- The references are those of the owner, of queued look-ups and of running ones. -/
structure RefInv (s : LkSt) : Prop where
  live : ∀ b, (s.be b).created = true → (s.be b).freed = false → (s.be b).ref = (if (s.be b).kept then 1 else 0) + queued s b + s.run.count b
  dead : ∀ b, ((s.be b).created = false ∨ (s.be b).freed = true) → queued s b = 0 ∧ s.run.count b = 0 ∧ (s.be b).kept = false
  fresh : ∀ b, (s.be b).created = false → (s.be b).freed = false

theorem refInv_init : RefInv LkSt.init := by
  refine ⟨?_, ?_, ?_⟩
  · intro b h; cases h
  · intro b _; exact ⟨rfl, rfl, rfl⟩
  · intro b _; rfl

theorem enqueue_queued (s : LkSt) (b : Nat) (ts : TS) (x : Nat) : queued (lkEnqueue b ts s).1 x = queued s x + if x = b then 1 else 0 := by
  unfold queued lkEnqueue JobQ.enqueue
  dsimp only [set_q]
  rw [countP_insertJob]
  by_cases h : x = b
  · subst h; simp
  · simp [h]; exact fun e => h e.symm

theorem enqueue_ref {s : LkSt} {b : Nat} (ts : TS) (h : RefInv s) (hc : (s.be b).created = true) (hf : (s.be b).freed = false) : RefInv (lkEnqueue b ts s).1 := by
  have hbe : ∀ x, (lkEnqueue b ts s).1.be x = if x = b then { s.be b with ref := (s.be b).ref + 1 } else s.be x := fun x => rfl
  have hrun : (lkEnqueue b ts s).1.run = s.run := rfl
  refine ⟨?_, ?_, ?_⟩ <;> intro x <;> rw [hbe x]
  · rw [enqueue_queued, hrun]
    by_cases hx : x = b
    · subst hx
      rw [if_pos rfl]
      intro _ _
      have := h.live x hc hf
      simp only [if_true]
      omega
    · rw [if_neg hx]
      simp only [hx, if_false, Nat.add_zero]
      exact h.live x
  · rw [enqueue_queued, hrun]
    by_cases hx : x = b
    · subst hx
      rw [if_pos rfl]
      intro hh
      rcases hh with hh | hh
      · rw [hc] at hh; cases hh
      · rw [hf] at hh; cases hh
    · rw [if_neg hx]
      simp only [hx, if_false, Nat.add_zero]
      exact h.dead x
  · by_cases hx : x = b
    · subst hx; rw [if_pos rfl]; intro hh; rw [hc] at hh; cases hh
    · rw [if_neg hx]; exact h.fresh x

/-- Changes of fields that do not matter for references -/
theorem setRef_same {s : LkSt} {b : Nat} {r : LkBe} (h : RefInv s) (h1 : r.created = (s.be b).created) (h2 : r.freed = (s.be b).freed) (h3 : r.ref = (s.be b).ref)
    (h4 : r.kept = (s.be b).kept) : RefInv (s.set b r) := by
  refine ⟨?_, ?_, ?_⟩ <;> intro x <;> rw [set_be] <;> by_cases hx : x = b
  · subst hx; rw [if_pos rfl, h1, h2, h3, h4]; exact h.live x
  · rw [if_neg hx]; exact h.live x
  · subst hx; rw [if_pos rfl, h1, h2, h4]; exact h.dead x
  · rw [if_neg hx]; exact h.dead x
  · subst hx; rw [if_pos rfl, h1, h2]; exact h.fresh x
  · rw [if_neg hx]; exact h.fresh x

theorem update_ref {s : LkSt} {b : Nat} (ans : LkAns) (h : RefInv s) (hc : (s.be b).created = true) (hf : (s.be b).freed = false) : RefInv (lkUpdate b ans s) := by
  cases ans with
  | found ts =>
    unfold lkUpdate
    dsimp only
    split
    · exact h
    · exact setRef_same (enqueue_ref ts h hc hf) rfl rfl rfl rfl
  | temp ts => exact enqueue_ref ts h hc hf
  | failed => exact h

theorem update_be (s : LkSt) (b : Nat) (ans : LkAns) (x : Nat) : ((lkUpdate b ans s).be x).created = (s.be x).created ∧ ((lkUpdate b ans s).be x).freed = (s.be x).freed ∧
    ((lkUpdate b ans s).be x).kept = (s.be x).kept ∧ (s.be x).ref ≤ ((lkUpdate b ans s).be x).ref ∧ ((lkUpdate b ans s).be x).disabled = (s.be x).disabled := by
  have he : ∀ ts, ((lkEnqueue b ts s).1.be x).created = (s.be x).created ∧ ((lkEnqueue b ts s).1.be x).freed = (s.be x).freed ∧
    ((lkEnqueue b ts s).1.be x).kept = (s.be x).kept ∧ (s.be x).ref ≤ ((lkEnqueue b ts s).1.be x).ref ∧ ((lkEnqueue b ts s).1.be x).disabled = (s.be x).disabled := by
    intro ts
    have : (lkEnqueue b ts s).1.be x = if x = b then { s.be b with ref := (s.be b).ref + 1 } else s.be x := rfl
    rw [this]
    by_cases hx : x = b
    · subst hx; simp
    · simp [hx]
  cases ans with
  | found ts =>
    unfold lkUpdate
    dsimp only
    split
    · exact ⟨rfl, rfl, rfl, Nat.le_refl _, rfl⟩
    · rw [set_be]
      by_cases hx : x = b
      · subst hx; rw [if_pos rfl]; exact he ts
      · rw [if_neg hx]; exact he ts
  | temp ts => exact he ts
  | failed => exact ⟨rfl, rfl, rfl, Nat.le_refl _, rfl⟩

theorem unref_ok {s : LkSt} {b : Nat} (hf : (s.be b).freed = false) (h : 0 < (s.be b).ref) :
    lkUnref b s = some (s.set b { s.be b with ref := (s.be b).ref - 1 }) := by
  unfold lkUnref
  rw [if_neg]
  rintro (hh | hh)
  · rw [hf] at hh; cases hh
  · omega

/-- One reference too many for `b` -/
structure RefInv1 (b : Nat) (s : LkSt) : Prop where
  created : (s.be b).created = true
  freed : (s.be b).freed = false
  count : (s.be b).ref = (if (s.be b).kept then 1 else 0) + queued s b + s.run.count b + 1
  live : ∀ x, x ≠ b → (s.be x).created = true → (s.be x).freed = false → (s.be x).ref = (if (s.be x).kept then 1 else 0) + queued s x + s.run.count x
  dead : ∀ x, x ≠ b → ((s.be x).created = false ∨ (s.be x).freed = true) → queued s x = 0 ∧ s.run.count x = 0 ∧ (s.be x).kept = false
  fresh : ∀ x, (s.be x).created = false → (s.be x).freed = false

theorem refInv1_unref {b : Nat} {s : LkSt} (h : RefInv1 b s) : ∃ s', lkUnref b s = some s' ∧ RefInv s' := by
  refine ⟨_, unref_ok h.freed (by rw [h.count]; omega), ?_, ?_, ?_⟩ <;> intro x <;> rw [set_be] <;> by_cases hx : x = b
  · subst hx
    rw [if_pos rfl]
    intro _ _
    have := h.count
    show (s.be x).ref - 1 = (if (s.be x).kept then 1 else 0) + queued s x + s.run.count x
    omega
  · rw [if_neg hx]; exact h.live x hx
  · subst hx
    rw [if_pos rfl]
    intro hh
    rcases hh with hh | hh
    · rw [h.created] at hh; cases hh
    · rw [h.freed] at hh; cases hh
  · rw [if_neg hx]; exact h.dead x hx
  · subst hx; rw [if_pos rfl]; exact h.fresh x
  · rw [if_neg hx]; exact h.fresh x

theorem refInv_used {s : LkSt} (h : RefInv s) {b : Nat} (hu : 0 < queued s b ∨ 0 < s.run.count b ∨ (s.be b).kept = true) :
    (s.be b).created = true ∧ (s.be b).freed = false := by
  have : ¬ ((s.be b).created = false ∨ (s.be b).freed = true) := by
    intro hh
    obtain ⟨h1, h2, h3⟩ := h.dead b hh
    rcases hu with hu | hu | hu
    · omega
    · omega
    · rw [h3] at hu; cases hu
  cases hc : (s.be b).created <;> cases hf : (s.be b).freed <;> simp_all

theorem cancelOne_ref {s : LkSt} (h : RefInv s) (id : Nat) : ∃ s', lkCancelOne id s = some s' ∧ RefInv s' := by
  unfold lkCancelOne
  cases hf : s.q.jobs.find? fun j => j.id = id with
  | none => exact ⟨s, rfl, h⟩
  | some j =>
    have hp := jobRemove_found hf
    have hq : ∀ x, queued s x = queued { s with q := { s.q with jobs := jobRemove id s.q.jobs } } x + if j.data = some x then 1 else 0 := by
      intro x
      unfold queued
      rw [hp.countP_eq, List.countP_cons]
      simp
    dsimp only at hq ⊢
    cases hd : j.data with
    | none =>
      refine ⟨_, rfl, ?_, ?_, ?_⟩
      · intro x hc hfr; have := h.live x hc hfr; have := hq x; rw [hd] at this; simp at this; rw [← this]; assumption
      · intro x hh; have h' := h.dead x hh; have := hq x; rw [hd] at this; simp at this; rw [← this]; exact h'
      · exact h.fresh
    | some b =>
      apply refInv1_unref
      have hqb := hq b
      rw [hd, if_pos rfl] at hqb
      obtain ⟨hc, hfr⟩ := refInv_used h (b := b) (Or.inl (by omega))
      refine ⟨hc, hfr, ?_, ?_, ?_, h.fresh⟩
      · have := h.live b hc hfr
        show (s.be b).ref = (if (s.be b).kept then 1 else 0) + _ + s.run.count b + 1
        omega
      · intro x hx hc' hf'
        have := h.live x hc' hf'
        have hqx := hq x
        rw [hd, if_neg (by simpa using Ne.symm hx)] at hqx
        show (s.be x).ref = (if (s.be x).kept then 1 else 0) + _ + s.run.count x
        omega
      · intro x hx hh
        have h' := h.dead x hh
        have hqx := hq x
        rw [hd, if_neg (by simpa using Ne.symm hx)] at hqx
        exact ⟨by omega, h'.2⟩

theorem cancels_ref : ∀ (ids : List Nat) {s : LkSt}, RefInv s → ∃ s', lkCancels ids s = some s' ∧ RefInv s'
  | [], s, h => ⟨s, rfl, h⟩
  | id :: t, s, h => by
    obtain ⟨s1, e, h1⟩ := cancelOne_ref h id
    rw [lkCancels, e]
    exact cancels_ref t h1

/-- No step fails, and references stay right. -/
theorem step_ref {s : LkSt} (h : RefInv s) (o : LkOp) : ∃ s', lkStep s o = some s' ∧ RefInv s' := by
  cases o with
  | create b now =>
    unfold lkStep
    dsimp only
    cases hc : (s.be b).created with
    | true => exact ⟨s, rfl, h⟩
    | false =>
      refine ⟨_, rfl, enqueue_ref now ?_ (by simp [set_be]) (by simp [set_be])⟩
      obtain ⟨h1, h2, h3⟩ := h.dead b (Or.inl hc)
      refine ⟨?_, ?_, ?_⟩ <;> intro x <;> rw [set_be] <;> by_cases hx : x = b
      · subst hx
        rw [if_pos rfl]
        intro _ _
        show 1 = 1 + queued s x + s.run.count x
        omega
      · rw [if_neg hx]; exact h.live x
      · subst hx; rw [if_pos rfl]; intro hh; rcases hh with hh | hh <;> cases hh
      · rw [if_neg hx]; exact h.dead x
      · subst hx; rw [if_pos rfl]; intro _; rfl
      · rw [if_neg hx]; exact h.fresh x
  | other ts =>
    have hq : ∀ x, queued { s with q := (s.q.enqueue ts none).1 } x = queued s x := by
      intro x
      unfold queued JobQ.enqueue
      dsimp only
      rw [countP_insertJob]
      simp
    refine ⟨_, rfl, ?_, ?_, h.fresh⟩
    · intro x hc hf; rw [hq]; exact h.live x hc hf
    · intro x hh; rw [hq]; exact h.dead x hh
  | cancels =>
    unfold lkStep
    exact cancels_ref _ ⟨h.live, h.dead, h.fresh⟩
  | start =>
    unfold lkStep
    dsimp only
    cases hj : s.q.jobs with
    | nil => exact ⟨s, rfl, h⟩
    | cons j r =>
      have hq : ∀ x, queued s x = queued { s with q := { s.q with jobs := r } } x + if j.data = some x then 1 else 0 := by
        intro x
        unfold queued
        rw [hj, List.countP_cons]
        simp
      dsimp only
      cases hd : j.data with
      | none =>
        refine ⟨_, rfl, ?_, ?_, h.fresh⟩
        · intro x hc hfr; have := h.live x hc hfr; have := hq x; rw [hd] at this; simp at this; rw [← this]; assumption
        · intro x hh; have h' := h.dead x hh; have := hq x; rw [hd] at this; simp at this; rw [← this]; exact h'
      | some b =>
        have hcnt : ∀ x, (s.run ++ [b]).count x = s.run.count x + if x = b then 1 else 0 := by
          intro x
          rw [List.count_append, List.count_cons, List.count_nil]
          by_cases hx : x = b
          · subst hx; simp
          · simp [hx]; exact fun e => hx e.symm
        refine ⟨_, rfl, ?_, ?_, h.fresh⟩
        · intro x hc hfr
          have h1 := h.live x hc hfr
          have h2 := hq x
          show (s.be x).ref = (if (s.be x).kept then 1 else 0) + queued { s with q := { s.q with jobs := r } } x + (s.run ++ [b]).count x
          rw [hcnt]
          rw [hd] at h2
          by_cases hx : x = b
          · subst hx; simp at h2 ⊢; omega
          · simp [hx, Ne.symm hx] at h2 ⊢; omega
        · intro x hh
          have h1 := h.dead x hh
          have h2 := hq x
          show queued { s with q := { s.q with jobs := r } } x = 0 ∧ (s.run ++ [b]).count x = 0 ∧ (s.be x).kept = false
          rw [hcnt]
          rw [hd] at h2
          by_cases hx : x = b
          · subst hx; simp at h2; omega
          · simp [hx, Ne.symm hx] at h2 ⊢; exact ⟨by omega, by simpa using h1.2.1, h1.2.2⟩
  | done k ans =>
    unfold lkStep
    dsimp only
    cases hk : s.run[k]? with
    | none => exact ⟨s, rfl, h⟩
    | some b =>
      have hcnt := count_eraseIdx hk
      have hpos : 0 < s.run.count b := by rw [hcnt b, if_pos rfl]; omega
      obtain ⟨hc, hf⟩ := refInv_used h (b := b) (Or.inr (Or.inl hpos))
      dsimp only
      rw [if_neg (by simp [hf])]
      -- the state without this look-up has one reference too many
      have h1 : RefInv1 b { s with run := s.run.eraseIdx k } := by
        refine ⟨hc, hf, ?_, ?_, ?_, h.fresh⟩
        · have h2 := h.live b hc hf
          have h3 := hcnt b
          rw [if_pos rfl] at h3
          show (s.be b).ref = (if (s.be b).kept then 1 else 0) + queued s b + (s.run.eraseIdx k).count b + 1
          omega
        · intro x hx hc' hf'
          have h2 := h.live x hc' hf'
          have h3 := hcnt x
          rw [if_neg hx] at h3
          show (s.be x).ref = (if (s.be x).kept then 1 else 0) + queued s x + (s.run.eraseIdx k).count x
          omega
        · intro x hx hh
          have h2 := h.dead x hh
          have h3 := hcnt x
          rw [if_neg hx] at h3
          exact ⟨h2.1, by show (s.run.eraseIdx k).count x = 0; omega, h2.2.2⟩
      apply refInv1_unref
      -- queueing another one keeps it so
      have henq : ∀ ts, RefInv1 b (lkEnqueue b ts { s with run := s.run.eraseIdx k }).1 := by
        intro ts
        have hbe : ∀ x, (lkEnqueue b ts { s with run := s.run.eraseIdx k }).1.be x = if x = b then { s.be b with ref := (s.be b).ref + 1 } else s.be x := fun x => rfl
        have hrun : (lkEnqueue b ts { s with run := s.run.eraseIdx k }).1.run = s.run.eraseIdx k := rfl
        have hcount := h1.count
        refine ⟨by rw [hbe, if_pos rfl]; exact hc, by rw [hbe, if_pos rfl]; exact hf, ?_, ?_, ?_, ?_⟩
        · rw [hbe, if_pos rfl, enqueue_queued, if_pos rfl, hrun]
          change (s.be b).ref + 1 = (if (s.be b).kept then 1 else 0) + _ + _ + 1
          change (s.be b).ref = (if (s.be b).kept then 1 else 0) + _ + (s.run.eraseIdx k).count b + 1 at hcount
          omega
        · intro x hx
          rw [hbe, if_neg hx, enqueue_queued, if_neg hx, hrun]
          exact h1.live x hx
        · intro x hx
          rw [hbe, if_neg hx, enqueue_queued, if_neg hx, hrun]
          exact h1.dead x hx
        · intro x
          rw [hbe]
          by_cases hx : x = b
          · subst hx; rw [if_pos rfl]; exact h.fresh x
          · rw [if_neg hx]; exact h.fresh x
      cases ans with
      | failed => exact h1
      | temp ts => exact henq ts
      | found ts =>
        unfold lkUpdate
        dsimp only
        split
        · exact h1
        · have h2 := henq ts
          refine ⟨by rw [set_be, if_pos rfl]; exact h2.created, by rw [set_be, if_pos rfl]; exact h2.freed, by rw [set_be, if_pos rfl]; exact h2.count, ?_, ?_, ?_⟩
          · intro x hx; rw [set_be, if_neg hx]; exact h2.live x hx
          · intro x hx; rw [set_be, if_neg hx]; exact h2.dead x hx
          · intro x; rw [set_be]; by_cases hx : x = b
            · subst hx; rw [if_pos rfl]; exact h2.fresh x
            · rw [if_neg hx]; exact h2.fresh x
  | disable b =>
    unfold lkStep
    dsimp only
    split
    · refine ⟨_, rfl, setRef_same (s := { s with q := s.q.cancel (s.be b).jid }) ⟨h.live, h.dead, h.fresh⟩ rfl rfl rfl rfl⟩
    · exact ⟨s, rfl, h⟩
  | enable b ans =>
    unfold lkStep
    dsimp only
    split
    · rename_i hk
      split
      · obtain ⟨hc, hf⟩ := refInv_used h (Or.inr (Or.inr hk))
        refine ⟨_, rfl, update_ref ans (setRef_same h rfl rfl rfl rfl) ?_ ?_⟩
        · rw [set_be, if_pos rfl]; exact hc
        · rw [set_be, if_pos rfl]; exact hf
      · exact ⟨s, rfl, h⟩
    · exact ⟨s, rfl, h⟩
  | drop b =>
    unfold lkStep
    dsimp only
    split
    · rename_i hk
      obtain ⟨hc, hf⟩ := refInv_used h (Or.inr (Or.inr hk))
      apply refInv1_unref
      have hl := h.live b hc hf
      rw [if_pos hk] at hl
      refine ⟨by rw [set_be, if_pos rfl]; exact hc, by rw [set_be, if_pos rfl]; exact hf, ?_, ?_, ?_, ?_⟩
      · rw [set_be, if_pos rfl]
        show (s.be b).ref = (if false = true then 1 else 0) + queued s b + s.run.count b + 1
        simp
        omega
      · intro x hx; rw [set_be, if_neg hx]; exact h.live x
      · intro x hx; rw [set_be, if_neg hx]; exact h.dead x
      · intro x; rw [set_be]; by_cases hx : x = b
        · subst hx; rw [if_pos rfl]; exact h.fresh x
        · rw [if_neg hx]; exact h.fresh x
    · exact ⟨s, rfl, h⟩
  | free b =>
    unfold lkStep
    dsimp only
    split
    · rename_i hh
      obtain ⟨hc, hk, hr⟩ := hh
      refine ⟨_, rfl, ?_, ?_, ?_⟩ <;> intro x <;> rw [set_be] <;> by_cases hx : x = b
      · subst hx; rw [if_pos rfl]; intro _ h'; cases h'
      · rw [if_neg hx]; exact h.live x
      · subst hx
        rw [if_pos rfl]
        intro _
        cases hf : (s.be x).freed with
        | true => exact h.dead x (Or.inr hf)
        | false =>
          have := h.live x hc hf
          exact ⟨by show queued s x = 0; omega, by show s.run.count x = 0; omega, hk⟩
      · rw [if_neg hx]; exact h.dead x
      · subst hx; rw [if_pos rfl]; intro h'; change (s.be x).created = false at h'; rw [hc] at h'; cases h'
      · rw [if_neg hx]; exact h.fresh x
    · exact ⟨s, rfl, h⟩

theorem run_ref : ∀ (ops : List LkOp) {s : LkSt}, RefInv s → ∃ s', lkRun s ops = some s' ∧ RefInv s'
  | [], s, h => ⟨s, rfl, h⟩
  | o :: t, s, h => by
    obtain ⟨s1, e, h1⟩ := step_ref h o
    rw [lkRun, e]
    exact run_ref t h1

/-! ### Numbers of look-ups -/

theorem pending_eq (s : LkSt) (b : Nat) : pending s b = s.q.jobs.countP (fun j => decide (LookupFor b j ∧ j.id ∉ s.q.cancels)) + s.run.count b := by
  rw [pending, List.countP_eq_length_filter]

theorem pending_le_queued (s : LkSt) (b : Nat) : pending s b ≤ queued s b + s.run.count b := by
  rw [pending_eq]
  refine Nat.add_le_add_right ?_ _
  apply List.countP_mono_left
  intro j _ hj
  simp only [decide_eq_true_eq] at hj ⊢
  exact hj.1

/-- Invariant of the numbers of jobs -/
structure LkInv (s : LkSt) : Prop where
  uniq : s.q.jobs.Pairwise fun a b => a.id ≠ b.id
  bound : ∀ j ∈ s.q.jobs, j.serial < s.q.next
  small : s.q.next ≤ jobIds
  canc : ∀ c ∈ s.q.cancels, c < s.q.next
  jid : ∀ b, (s.be b).jid = 0 ∨ (s.be b).jid < s.q.next
  kept : ∀ b, (s.be b).kept = true → 0 < s.q.next
  own : ∀ b, ∀ j ∈ s.q.jobs, j.id = (s.be b).jid → (s.be b).jid ≠ 0 → j.data = some b

theorem lkInv_init : LkInv LkSt.init :=
  ⟨List.Pairwise.nil, (by intro j h; cases h), (by decide), (by intro j h; cases h), fun _ => Or.inl rfl, (fun _ h => nomatch h), (by intro b j h; cases h)⟩

theorem LkInv.id_eq {s : LkSt} (h : LkInv s) {j : Job (Option Nat)} (hj : j ∈ s.q.jobs) : j.id = j.serial :=
  Nat.mod_eq_of_lt (Nat.lt_of_lt_of_le (h.bound j hj) h.small)

theorem LkInv.id_lt {s : LkSt} (h : LkInv s) {j : Job (Option Nat)} (hj : j ∈ s.q.jobs) : j.id < s.q.next := by
  rw [h.id_eq hj]; exact h.bound j hj

/-- Equal but for references -/
structure SameLk (s s' : LkSt) : Prop where
  q : s'.q = s.q
  run : s'.run = s.run
  jid : ∀ b, (s'.be b).jid = (s.be b).jid
  created : ∀ b, (s'.be b).created = (s.be b).created
  disabled : ∀ b, (s'.be b).disabled = (s.be b).disabled
  kept : ∀ b, (s'.be b).kept = (s.be b).kept

theorem SameLk.refl (s : LkSt) : SameLk s s := ⟨rfl, rfl, fun _ => rfl, fun _ => rfl, fun _ => rfl, fun _ => rfl⟩

theorem SameLk.trans {a b c : LkSt} (h : SameLk a b) (h' : SameLk b c) : SameLk a c :=
  ⟨h'.q.trans h.q, h'.run.trans h.run, fun x => (h'.jid x).trans (h.jid x), fun x => (h'.created x).trans (h.created x),
    fun x => (h'.disabled x).trans (h.disabled x), fun x => (h'.kept x).trans (h.kept x)⟩

theorem unref_same {b : Nat} {s s' : LkSt} (h : lkUnref b s = some s') : SameLk s s' := by
  unfold lkUnref at h
  split at h
  · cases h
  · cases h
    refine ⟨rfl, rfl, ?_, ?_, ?_, ?_⟩ <;> intro x <;> rw [set_be] <;> by_cases hx : x = b <;> simp [hx]

theorem SameLk.inv {s s' : LkSt} (h : SameLk s s') (hi : LkInv s) : LkInv s' := by
  obtain ⟨h1, h2, h3, h4, h5, h6⟩ := hi.jid |> fun _ => h
  refine ⟨by rw [h1]; exact hi.uniq, by rw [h1]; exact hi.bound, by rw [h1]; exact hi.small, by rw [h1]; exact hi.canc, ?_, ?_, ?_⟩
  · intro b; rw [h3, h1]; exact hi.jid b
  · intro b; rw [h6, h1]; exact hi.kept b
  · intro b; rw [h3, h1]; exact hi.own b

theorem SameLk.pending {s s' : LkSt} (h : SameLk s s') (b : Nat) : pending s' b = pending s b := by
  rw [pending_eq, pending_eq, h.q, h.run]

theorem enqueue_next (s : LkSt) (b : Nat) (ts : TS) : (lkEnqueue b ts s).1.q.next = s.q.next + 1 := rfl

theorem enqueue_lkInv {s : LkSt} (h : LkInv s) (b : Nat) (ts : TS) (hs : s.q.next + 1 ≤ jobIds) : LkInv (lkEnqueue b ts s).1 := by
  have hid : (⟨s.q.next, ts, some b⟩ : Job (Option Nat)).id = s.q.next := Nat.mod_eq_of_lt hs
  have hjid : ∀ x, ((lkEnqueue b ts s).1.be x).jid = (s.be x).jid := by
    intro x
    show (if x = b then { s.be b with ref := (s.be b).ref + 1 } else s.be x).jid = _
    by_cases hx : x = b <;> simp [hx]
  have hjobs : (lkEnqueue b ts s).1.q.jobs = insertJob ⟨s.q.next, ts, some b⟩ s.q.jobs := rfl
  refine ⟨?_, ?_, hs, ?_, ?_, ?_, ?_⟩
  · rw [hjobs]
    refine ((insertJob_perm _ _).pairwise_iff fun hxy e => hxy e.symm).2 (List.pairwise_cons.2 ⟨?_, h.uniq⟩)
    intro j hj
    rw [hid]
    have := h.id_lt hj
    omega
  · rw [hjobs, enqueue_next]
    intro j hj
    rcases mem_insertJob.1 hj with rfl | hj
    · exact Nat.lt_succ_self _
    · have := h.bound j hj; omega
  · intro c hc
    have := h.canc c hc
    rw [enqueue_next]
    omega
  · intro x
    rw [hjid, enqueue_next]
    have := h.jid x
    omega
  · intro x _
    rw [enqueue_next]
    omega
  · intro x j hj
    rw [hjid]
    rw [hjobs] at hj
    rcases mem_insertJob.1 hj with rfl | hj
    · rw [hid]
      intro e hne
      rcases h.jid x with h' | h' <;> omega
    · exact h.own x j hj

theorem enqueue_pending {s : LkSt} (h : LkInv s) (b : Nat) (ts : TS) (hs : s.q.next + 1 ≤ jobIds) (x : Nat) :
    pending (lkEnqueue b ts s).1 x = pending s x + if x = b then 1 else 0 := by
  have hid : (⟨s.q.next, ts, some b⟩ : Job (Option Nat)).id = s.q.next := Nat.mod_eq_of_lt hs
  have hn : s.q.next ∉ s.q.cancels := fun hc => Nat.lt_irrefl _ (h.canc _ hc)
  rw [pending_eq, pending_eq]
  show (insertJob ⟨s.q.next, ts, some b⟩ s.q.jobs).countP (fun j => decide (LookupFor x j ∧ j.id ∉ s.q.cancels)) + s.run.count x = _
  rw [countP_insertJob, hid]
  by_cases hx : x = b
  · subst hx
    simp only [LookupFor, hn, not_false_eq_true, and_self, decide_true, if_true]
    omega
  · have : ¬ b = x := fun e => hx e.symm
    simp only [LookupFor, Option.some.injEq, this, false_and, decide_false, hx, if_false]
    simp

theorem setJid_lkInv {s : LkSt} (h : LkInv s) (b : Nat) (r : LkBe) (hr : (r.jid = 0 ∨ r.jid < s.q.next) ∧ ∀ j ∈ s.q.jobs, j.id = r.jid → r.jid ≠ 0 → j.data = some b)
    (hk : r.kept = true → 0 < s.q.next) : LkInv (s.set b r) := by
  refine ⟨h.uniq, h.bound, h.small, h.canc, ?_, ?_, ?_⟩ <;> intro x <;> rw [set_be] <;> by_cases hx : x = b
  · subst hx; rw [if_pos rfl]; exact hr.1
  · rw [if_neg hx]; exact h.jid x
  · subst hx; rw [if_pos rfl]; exact hk
  · rw [if_neg hx]; exact h.kept x
  · subst hx; rw [if_pos rfl]; exact hr.2
  · rw [if_neg hx]; exact h.own x

/-- Changes of other fields -/
theorem setSame_lkInv {s : LkSt} (h : LkInv s) (b : Nat) (r : LkBe) (hr : r.jid = (s.be b).jid) (hk : r.kept = true → 0 < s.q.next) : LkInv (s.set b r) := by
  refine setJid_lkInv h b r ?_ hk
  rw [hr]
  exact ⟨h.jid b, h.own b⟩

theorem update_next (s : LkSt) (b : Nat) (ans : LkAns) : s.q.next ≤ (lkUpdate b ans s).q.next := by
  cases ans with
  | failed => exact Nat.le_refl _
  | temp ts => exact Nat.le_succ _
  | found ts =>
    unfold lkUpdate
    dsimp only
    split
    · exact Nat.le_refl _
    · exact Nat.le_succ _

theorem update_lkInv {s : LkSt} (h : LkInv s) (b : Nat) (ans : LkAns) (hs : (lkUpdate b ans s).q.next ≤ jobIds) : LkInv (lkUpdate b ans s) := by
  cases ans with
  | failed => exact h
  | temp ts => exact enqueue_lkInv h b ts hs
  | found ts =>
    unfold lkUpdate at hs ⊢
    dsimp only at hs ⊢
    split
    · exact h
    · rename_i hd
      rw [if_neg hd] at hs
      have hs' : s.q.next + 1 ≤ jobIds := hs
      have h' := enqueue_lkInv h b ts hs'
      have hid : (lkEnqueue b ts s).2 = s.q.next := Nat.mod_eq_of_lt hs'
      refine setJid_lkInv h' b _ ?_ (fun _ => Nat.succ_pos _)
      dsimp only
      rw [hid]
      refine ⟨Or.inr (Nat.lt_succ_self _), ?_⟩
      intro j hj e _
      rcases mem_insertJob.1 hj with rfl | hj
      · rfl
      · have := h.id_lt hj
        omega

/-- How many look-ups an answer leads to -/
def answers (s : LkSt) (b : Nat) : LkAns → Nat
  | .found _ => if (s.be b).disabled then 0 else 1
  | .temp _ => 1
  | .failed => 0

theorem update_pending {s : LkSt} (h : LkInv s) (b : Nat) (ans : LkAns) (hs : (lkUpdate b ans s).q.next ≤ jobIds) (x : Nat) :
    pending (lkUpdate b ans s) x = pending s x + if x = b then answers s b ans else 0 := by
  cases ans with
  | failed => simp [lkUpdate, answers]
  | temp ts => exact enqueue_pending h b ts hs x
  | found ts =>
    unfold lkUpdate answers
    dsimp only
    cases hd : (s.be b).disabled with
    | true => simp
    | false =>
      have hs' : s.q.next + 1 ≤ jobIds := by
        unfold lkUpdate at hs
        dsimp only at hs
        rw [hd] at hs
        exact hs
      simp only [if_false, Bool.false_eq_true]
      exact enqueue_pending h b ts hs' x

theorem jobRemove_filter {α} (id : Nat) {l : List (Job α)} (hu : l.Pairwise fun a b => a.id ≠ b.id) : jobRemove id l = l.filter fun j => decide (j.id ≠ id) := by
  induction l with
  | nil => rfl
  | cons t r ih =>
    rw [List.pairwise_cons] at hu
    rw [jobRemove, List.filter_cons]
    by_cases ht : t.id = id
    · rw [if_pos ht, if_neg (by simp [ht])]
      symm
      rw [List.filter_eq_self]
      intro j hj
      have := hu.1 j hj
      rw [ht] at this
      simpa using Ne.symm this
    · rw [if_neg ht, if_pos (by simp [ht]), ih hu.2]

theorem applyCancels_filter {α} (ids : List Nat) {l : List (Job α)} (hu : l.Pairwise fun a b => a.id ≠ b.id) : applyCancels ids l = l.filter fun j => decide (j.id ∉ ids) := by
  induction ids generalizing l with
  | nil => rw [applyCancels]; symm; rw [List.filter_eq_self]; intro j _; simp
  | cons i t ih =>
    rw [applyCancels, ih (hu.sublist (jobRemove_sublist i l)), jobRemove_filter i hu, List.filter_filter]
    congr 1
    funext j
    by_cases h1 : j.id = i <;> by_cases h2 : j.id ∈ t <;> simp [h1, h2]

theorem jobRemove_none {α} {id : Nat} {l : List (Job α)} (h : l.find? (fun j => j.id = id) = none) : jobRemove id l = l := by
  induction l with
  | nil => rfl
  | cons t r ih =>
    rw [List.find?_cons] at h
    by_cases ht : t.id = id
    · simp [ht] at h
    · simp only [ht, decide_false] at h
      rw [jobRemove, if_neg ht, ih h]

theorem cancelOne_same {id : Nat} {s s' : LkSt} (h : lkCancelOne id s = some s') : SameLk { s with q := { s.q with jobs := jobRemove id s.q.jobs } } s' := by
  unfold lkCancelOne at h
  cases hf : s.q.jobs.find? fun j => j.id = id with
  | none =>
    rw [hf] at h
    cases h
    rw [jobRemove_none hf]
    exact SameLk.refl _
  | some j =>
    rw [hf] at h
    dsimp only at h
    cases hd : j.data with
    | none => rw [hd] at h; cases h; exact SameLk.refl _
    | some b => rw [hd] at h; exact unref_same h

theorem cancels_same : ∀ (ids : List Nat) {s s' : LkSt}, lkCancels ids s = some s' → SameLk { s with q := { s.q with jobs := applyCancels ids s.q.jobs } } s'
  | [], s, s', h => by cases h; exact SameLk.refl _
  | id :: t, s, s', h => by
    rw [lkCancels] at h
    cases e : lkCancelOne id s with
    | none => rw [e] at h; cases h
    | some s1 =>
      rw [e] at h
      have h1 := cancelOne_same e
      have h2 := cancels_same t h
      refine SameLk.trans ?_ h2
      refine ⟨?_, h1.run, h1.jid, h1.created, h1.disabled, h1.kept⟩
      show { s1.q with jobs := applyCancels t s1.q.jobs } = _
      rw [h1.q]
      rfl

theorem cancelsStep_pending {s s' : LkSt} (h : LkInv s) (e : lkStep s .cancels = some s') (x : Nat) : pending s' x = pending s x := by
  have h1 := cancels_same _ e
  rw [h1.pending, pending_eq, pending_eq]
  show (applyCancels s.q.cancels s.q.jobs).countP (fun j => decide (LookupFor x j ∧ j.id ∉ ([] : List Nat))) + s.run.count x = _
  rw [applyCancels_filter _ h.uniq, List.countP_filter]
  congr 2
  funext j
  simp

theorem cancelsStep_inv {s s' : LkSt} (h : LkInv s) (e : lkStep s .cancels = some s') : LkInv s' := by
  refine (cancels_same _ e).inv ?_
  have hsub := applyCancels_sublist s.q.cancels s.q.jobs
  exact ⟨h.uniq.sublist hsub, fun j hj => h.bound j (hsub.subset hj), h.small, (by intro c hc; cases hc), h.jid, h.kept, fun b j hj => h.own b j (hsub.subset hj)⟩

theorem cancel_lkInv {s : LkSt} (h : LkInv s) {b : Nat} (hk : (s.be b).kept = true) : LkInv { s with q := s.q.cancel (s.be b).jid } := by
  refine ⟨h.uniq, h.bound, h.small, ?_, h.jid, h.kept, h.own⟩
  intro c hc
  rcases List.mem_append.1 hc with hc | hc
  · exact h.canc c hc
  · rw [List.mem_singleton] at hc
    subst hc
    have := h.kept b hk
    have := h.jid b
    show _ < s.q.next
    omega

/-- Cancelling does not add look-ups. -/
theorem cancel_pending_le (s : LkSt) (id x : Nat) : pending { s with q := s.q.cancel id } x ≤ pending s x := by
  rw [pending_eq, pending_eq]
  refine Nat.add_le_add_right ?_ _
  apply List.countP_mono_left
  intro j _ hj
  simp only [decide_eq_true_eq, JobQ.cancel, List.mem_append, not_or] at hj ⊢
  exact ⟨hj.1, hj.2.1⟩

/-- Cancelling leaves look-ups of others alone. -/
theorem cancel_pending_eq {s : LkSt} {id x : Nat} (h : ∀ j ∈ s.q.jobs, j.id = id → j.data ≠ some x) : pending { s with q := s.q.cancel id } x = pending s x := by
  rw [pending_eq, pending_eq]
  congr 1
  apply List.countP_congr
  intro j hj
  simp only [decide_eq_true_eq, JobQ.cancel, List.mem_append, not_or, List.mem_singleton]
  constructor
  · rintro ⟨h1, h2⟩; exact ⟨h1, h2.1⟩
  · rintro ⟨h1, h2⟩; exact ⟨h1, h2, fun e => h j hj e h1⟩

/-- Cancelling a look-up that waits -/
theorem cancel_pending_lt {s : LkSt} {id x : Nat} (h : ∃ j ∈ s.q.jobs, LookupFor x j ∧ j.id = id ∧ j.id ∉ s.q.cancels) :
    pending { s with q := s.q.cancel id } x + 1 ≤ pending s x := by
  obtain ⟨j, hj, h1, h2, h3⟩ := h
  rw [pending_eq, pending_eq]
  have key : ∀ l : List (Job (Option Nat)), j ∈ l → l.countP (fun j => decide (LookupFor x j ∧ j.id ∉ s.q.cancels ++ [id])) + 1 ≤ l.countP (fun j => decide (LookupFor x j ∧ j.id ∉ s.q.cancels)) := by
    intro l hl
    have hmono : ∀ l : List (Job (Option Nat)), l.countP (fun j => decide (LookupFor x j ∧ j.id ∉ s.q.cancels ++ [id])) ≤ l.countP (fun j => decide (LookupFor x j ∧ j.id ∉ s.q.cancels)) := by
      intro l
      apply List.countP_mono_left
      intro j _ hj
      simp only [decide_eq_true_eq, List.mem_append, not_or] at hj ⊢
      exact ⟨hj.1, hj.2.1⟩
    induction l with
    | nil => cases hl
    | cons t r ih =>
      rw [List.countP_cons, List.countP_cons]
      rcases List.mem_cons.1 hl with rfl | hl
      · have := hmono r
        rw [if_neg (by simp [h2]), if_pos (by simp [h1, h3])]
        omega
      · have := ih hl
        have hstep : (if decide (LookupFor x t ∧ t.id ∉ s.q.cancels ++ [id]) = true then 1 else 0) ≤ (if decide (LookupFor x t ∧ t.id ∉ s.q.cancels) = true then 1 else 0) := by
          split
          · rename_i hh
            simp only [decide_eq_true_eq, List.mem_append, not_or] at hh
            rw [if_pos (by simp only [decide_eq_true_eq]; exact ⟨hh.1, hh.2.1⟩)]
            exact Nat.le_refl _
          · exact Nat.zero_le _
        omega
  have := key s.q.jobs hj
  show s.q.jobs.countP (fun j => decide (LookupFor x j ∧ j.id ∉ s.q.cancels ++ [id])) + s.run.count x + 1 ≤ _
  omega

/-! ### One step -/

theorem startStep {s : LkSt} {j : Job (Option Nat)} {r : List (Job (Option Nat))} (hj : s.q.jobs = j :: r) {s' : LkSt} (e : lkStep s .start = some s') (x : Nat) :
    pending s x ≤ pending s' x ∧ (j.id ∉ s.q.cancels → pending s' x = pending s x) := by
  have key : pending s' x + (if LookupFor x j ∧ j.id ∉ s.q.cancels then 1 else 0) = pending s x + if LookupFor x j then 1 else 0 := by
    unfold lkStep at e
    dsimp only at e
    rw [hj] at e
    dsimp only at e
    rw [pending_eq, pending_eq s, hj, List.countP_cons]
    simp only [decide_eq_true_eq]
    cases hd : j.data with
    | none =>
      rw [hd] at e
      cases e
      have : ¬ LookupFor x j := by unfold LookupFor; rw [hd]; simp
      simp [this]
    | some b =>
      rw [hd] at e
      cases e
      dsimp only
      rw [List.count_append, List.count_cons, List.count_nil]
      by_cases hx : b = x
      · subst hx
        have : LookupFor b j := hd
        simp [this]
        omega
      · have : ¬ LookupFor x j := by unfold LookupFor; rw [hd]; simpa using hx
        simp [this, hx]
  by_cases h1 : LookupFor x j <;> by_cases h2 : j.id ∈ s.q.cancels <;> simp [h1, h2] at key ⊢ <;> omega

theorem doneStep {s s' : LkSt} {k b : Nat} {ans : LkAns} (hk : s.run[k]? = some b) (e : lkStep s (.done k ans) = some s') :
    SameLk (lkUpdate b ans { s with run := s.run.eraseIdx k }) s' := by
  unfold lkStep at e
  dsimp only at e
  rw [hk] at e
  dsimp only at e
  split at e
  · cases e
  · exact unref_same e

theorem run_lkInv {s : LkSt} (h : LkInv s) (r : List Nat) : LkInv { s with run := r } := ⟨h.uniq, h.bound, h.small, h.canc, h.jid, h.kept, h.own⟩

theorem run_pending {s : LkSt} {k b : Nat} (hk : s.run[k]? = some b) (x : Nat) :
    pending s x = pending { s with run := s.run.eraseIdx k } x + if x = b then 1 else 0 := by
  have := count_eraseIdx hk x
  rw [pending_eq, pending_eq]
  dsimp only
  omega

theorem step_next {s s' : LkSt} {o : LkOp} (e : lkStep s o = some s') : s.q.next ≤ s'.q.next := by
  cases o with
  | create b now =>
    unfold lkStep at e
    dsimp only at e
    split at e <;> cases e
    · exact Nat.le_refl _
    · exact Nat.le_succ _
  | other ts => cases e; exact Nat.le_succ _
  | cancels => rw [(cancels_same _ e).q]; exact Nat.le_refl _
  | start =>
    unfold lkStep at e
    dsimp only at e
    split at e
    · cases e; exact Nat.le_refl _
    · split at e <;> cases e <;> exact Nat.le_refl _
  | done k ans =>
    cases hk : s.run[k]? with
    | none =>
      unfold lkStep at e
      dsimp only at e
      rw [hk] at e
      cases e
      exact Nat.le_refl _
    | some b =>
      rw [(doneStep hk e).q]
      exact update_next { s with run := s.run.eraseIdx k } b ans
  | disable b =>
    unfold lkStep at e
    dsimp only at e
    split at e <;> cases e <;> exact Nat.le_refl _
  | enable b ans =>
    unfold lkStep at e
    dsimp only at e
    split at e
    · split at e
      · cases e; exact update_next (s.set b { s.be b with disabled := false }) b ans
      · cases e; exact Nat.le_refl _
    · cases e; exact Nat.le_refl _
  | drop b =>
    unfold lkStep at e
    dsimp only at e
    split at e
    · rw [(unref_same e).q]; exact Nat.le_refl _
    · cases e; exact Nat.le_refl _
  | free b =>
    unfold lkStep at e
    dsimp only at e
    split at e <;> cases e <;> exact Nat.le_refl _

theorem run_next : ∀ (ops : List LkOp) {s s' : LkSt}, lkRun s ops = some s' → s.q.next ≤ s'.q.next
  | [], s, s', h => by cases h; exact Nat.le_refl _
  | o :: t, s, s', h => by
    rw [lkRun] at h
    cases e : lkStep s o with
    | none => rw [e] at h; cases h
    | some s1 =>
      rw [e] at h
      exact Nat.le_trans (step_next e) (run_next t h)

theorem step_lkInv {s s' : LkSt} {o : LkOp} (h : LkInv s) (e : lkStep s o = some s') (hs : s'.q.next ≤ jobIds) : LkInv s' := by
  cases o with
  | create b now =>
    unfold lkStep at e
    dsimp only at e
    split at e <;> cases e
    · exact h
    · have hs' : s.q.next + 1 ≤ jobIds := hs
      -- the new backend has no job yet; the number is only stored in it
      have h0 : LkInv (s.set b ⟨true, false, 0, 1, false, false⟩) := setJid_lkInv h b _ ⟨Or.inl rfl, fun _ _ _ hne => absurd rfl hne⟩ (fun hk => nomatch hk)
      have h1 := enqueue_lkInv h0 b now hs'
      have := setJid_lkInv h1 b { (lkEnqueue b now (s.set b ⟨true, false, 0, 1, true, false⟩)).1.be b with kept := true }
        (by
          have : ((lkEnqueue b now (s.set b ⟨true, false, 0, 1, true, false⟩)).1.be b).jid = 0 := by
            show (if b = b then _ else _ : LkBe).jid = 0
            rw [if_pos rfl, set_be, if_pos rfl]
          dsimp only
          rw [this]
          exact ⟨Or.inl rfl, fun _ _ _ hne => absurd rfl hne⟩) (fun _ => Nat.succ_pos _)
      refine ⟨this.uniq, this.bound, this.small, this.canc, ?_, fun _ _ => Nat.succ_pos _, ?_⟩
      · intro x
        have hj := this.jid x
        rw [set_be] at hj
        by_cases hx : x = b
        · subst hx; rw [if_pos rfl] at hj; exact hj
        · rw [if_neg hx] at hj
          have : ∀ r, ((lkEnqueue b now (s.set b r)).1.be x) = s.be x := by
            intro r
            show (if x = b then _ else if x = b then _ else _ : LkBe) = _
            rw [if_neg hx, if_neg hx]
          rw [this] at hj ⊢
          exact hj
      · intro x
        have hj := this.own x
        rw [set_be] at hj
        by_cases hx : x = b
        · subst hx; rw [if_pos rfl] at hj; exact hj
        · rw [if_neg hx] at hj
          have : ∀ r, ((lkEnqueue b now (s.set b r)).1.be x) = s.be x := by
            intro r
            show (if x = b then _ else if x = b then _ else _ : LkBe) = _
            rw [if_neg hx, if_neg hx]
          rw [this] at hj ⊢
          exact hj
  | other ts =>
    cases e
    have hs' : s.q.next + 1 ≤ jobIds := hs
    have hid : (⟨s.q.next, ts, none⟩ : Job (Option Nat)).id = s.q.next := Nat.mod_eq_of_lt hs'
    have hjobs : (s.q.enqueue ts none).1.jobs = insertJob ⟨s.q.next, ts, none⟩ s.q.jobs := rfl
    refine ⟨?_, ?_, hs', ?_, ?_, fun _ _ => Nat.succ_pos _, ?_⟩
    · refine ((insertJob_perm _ _).pairwise_iff fun hxy e => hxy e.symm).2 (List.pairwise_cons.2 ⟨?_, h.uniq⟩)
      intro j hj
      rw [hid]
      have := h.id_lt hj
      omega
    · intro j hj
      rcases mem_insertJob.1 hj with rfl | hj
      · exact Nat.lt_succ_self _
      · exact Nat.lt_succ_of_lt (h.bound j hj)
    · intro c hc
      exact Nat.lt_succ_of_lt (h.canc c hc)
    · intro x
      rcases h.jid x with h' | h'
      · exact Or.inl h'
      · exact Or.inr (Nat.lt_succ_of_lt h')
    · intro x j hj
      rcases mem_insertJob.1 hj with rfl | hj
      · rw [hid]
        show s.q.next = (s.be x).jid → _
        intro e hne
        rcases h.jid x with h' | h'
        · exact absurd h' hne
        · omega
      · exact h.own x j hj
  | cancels => exact cancelsStep_inv h e
  | start =>
    unfold lkStep at e
    dsimp only at e
    split at e
    · cases e; exact h
    · rename_i j r hj
      have h' : LkInv { s with q := { s.q with jobs := r } } := by
        have hsub : r.Sublist s.q.jobs := by rw [hj]; exact List.sublist_cons_self _ _
        exact ⟨h.uniq.sublist hsub, fun j hj => h.bound j (hsub.subset hj), h.small, h.canc, h.jid, h.kept, fun b j hj => h.own b j (hsub.subset hj)⟩
      split at e
      · cases e; exact h'
      · cases e; exact run_lkInv h' _
  | done k ans =>
    cases hk : s.run[k]? with
    | none =>
      unfold lkStep at e
      dsimp only at e
      rw [hk] at e
      cases e
      exact h
    | some b =>
      have hd := doneStep hk e
      rw [hd.q] at hs
      exact hd.inv (update_lkInv (run_lkInv h _) b ans hs)
  | disable b =>
    unfold lkStep at e
    dsimp only at e
    split at e <;> cases e
    · rename_i hk
      exact setSame_lkInv (s := { s with q := s.q.cancel (s.be b).jid }) (cancel_lkInv h hk) b _ rfl (h.kept b)
    · exact h
  | enable b ans =>
    unfold lkStep at e
    dsimp only at e
    split at e
    · rename_i hk
      split at e
      · cases e
        exact update_lkInv (setSame_lkInv h b { s.be b with disabled := false } rfl (h.kept b)) b ans hs
      · cases e; exact h
    · cases e; exact h
  | drop b =>
    unfold lkStep at e
    dsimp only at e
    split at e
    · rename_i hk
      exact (unref_same e).inv (setSame_lkInv (s := { s with q := s.q.cancel (s.be b).jid }) (cancel_lkInv h hk) b _ rfl (fun hk => nomatch hk))
    · cases e; exact h
  | free b =>
    unfold lkStep at e
    dsimp only at e
    split at e <;> cases e
    · exact setSame_lkInv h b _ rfl (h.kept b)
    · exact h

/-! ### Look-ups go on -/

/-- The number of the job is not that of a look-up of another backend. -/
def OwnJob (s : LkSt) (b : Nat) : Prop := ∀ j ∈ s.q.jobs, j.id = (s.be b).jid → j.data = none ∨ j.data = some b

/-- What is cancelled is one's own. -/
def SafeOp (s : LkSt) : LkOp → Prop
  | .disable b => OwnJob s b
  | .drop b => OwnJob s b
  | _ => True

theorem notTooEarly_safe {s : LkSt} (h : LkInv s) {o : LkOp} (hn : NotTooEarly s o) : SafeOp s o := by
  have key : ∀ b, ((s.be b).jid ≠ 0 ∨ ∀ j ∈ s.q.jobs, j.id = 0 → j.data = none ∨ j.data = some b) → OwnJob s b := by
    intro b hb j hj e
    by_cases h0 : (s.be b).jid = 0
    · rcases hb with hb | hb
      · exact absurd h0 hb
      · exact hb j hj (e.trans h0)
    · exact Or.inr (h.own b j hj e h0)
  cases o <;> first | trivial | exact key _ hn

theorem create_pending {s : LkSt} (h : LkInv s) (b : Nat) (now : TS) (hs : s.q.next + 1 ≤ jobIds) (x : Nat) (r : LkBe) :
    pending (lkEnqueue b now (s.set b r)).1 x = pending s x + if x = b then 1 else 0 := by
  have h0 : LkInv (s.set b { r with jid := 0, kept := false }) := setJid_lkInv h b _ ⟨Or.inl rfl, fun _ _ _ hne => absurd rfl hne⟩ (fun hk => nomatch hk)
  exact enqueue_pending h0 b now hs x

theorem other_pending (s : LkSt) (ts : TS) (x : Nat) : pending { s with q := (s.q.enqueue ts none).1 } x = pending s x := by
  rw [pending_eq, pending_eq]
  show (insertJob ⟨s.q.next, ts, none⟩ s.q.jobs).countP (fun j => decide (LookupFor x j ∧ j.id ∉ s.q.cancels)) + s.run.count x = _
  rw [countP_insertJob]
  simp [LookupFor]

theorem uniq_eq {l : List (Job (Option Nat))} (hu : l.Pairwise fun a b => a.id ≠ b.id) {i j : Job (Option Nat)} (hi : i ∈ l) (hj : j ∈ l) (e : i.id = j.id) : i = j := by
  induction l with
  | nil => cases hi
  | cons t r ih =>
    rw [List.pairwise_cons] at hu
    rcases List.mem_cons.1 hi with hi' | hi' <;> rcases List.mem_cons.1 hj with hj' | hj'
    · rw [hi', hj']
    · subst hi'; exact absurd e (hu.1 j hj')
    · subst hj'; exact absurd e.symm (hu.1 i hi')
    · exact ih hu.2 hi' hj'

theorem step_pending_ge {s s' : LkSt} {o : LkOp} (h : LkInv s) (e : lkStep s o = some s') (hs : s'.q.next ≤ jobIds) (hf : NoFailure o) (hsafe : SafeOp s o) {x : Nat}
    (hd : NotDisabling x o) (ha : LookedUp s x) : pending s x ≤ pending s' x := by
  cases o with
  | create b now =>
    unfold lkStep at e
    dsimp only at e
    split at e <;> cases e
    · exact Nat.le_refl _
    · rw [create_pending h b now hs]; omega
  | other ts =>
    cases e
    rw [other_pending]
    exact Nat.le_refl _
  | cancels => rw [cancelsStep_pending h e]; exact Nat.le_refl _
  | start =>
    cases hj : s.q.jobs with
    | nil =>
      unfold lkStep at e
      dsimp only at e
      rw [hj] at e
      cases e
      exact Nat.le_refl _
    | cons j r => exact (startStep hj e x).1
  | done k ans =>
    cases hk : s.run[k]? with
    | none =>
      unfold lkStep at e
      dsimp only at e
      rw [hk] at e
      cases e
      exact Nat.le_refl _
    | some b =>
      have hsm := doneStep hk e
      rw [hsm.q] at hs
      rw [hsm.pending, update_pending (run_lkInv h _) b ans hs, run_pending hk x]
      by_cases hx : x = b
      · subst hx
        rw [if_pos rfl, if_pos rfl]
        have : answers { s with run := s.run.eraseIdx k } x ans = 1 := by
          cases ans with
          | failed => exact absurd rfl hf
          | temp ts => rfl
          | found ts => show (if (s.be x).disabled = true then 0 else 1) = 1; rw [ha.2]; rfl
        omega
      · rw [if_neg hx, if_neg hx]
        omega
  | disable b =>
    unfold lkStep at e
    dsimp only at e
    split at e <;> cases e
    · refine Nat.le_of_eq (Eq.symm ?_)
      refine cancel_pending_eq ?_
      intro j hj he hc
      rcases hsafe j hj he with h1 | h1
      · rw [hc] at h1; cases h1
      · rw [hc] at h1; exact hd (Option.some.inj h1).symm
    · exact Nat.le_refl _
  | enable b ans =>
    unfold lkStep at e
    dsimp only at e
    split at e
    · rename_i hk
      split at e
      · cases e
        rw [update_pending (setSame_lkInv h b { s.be b with disabled := false } rfl (h.kept b)) b ans hs]
        exact Nat.le_add_right _ _
      · cases e; exact Nat.le_refl _
    · cases e; exact Nat.le_refl _
  | drop b =>
    unfold lkStep at e
    dsimp only at e
    split at e
    · rw [(unref_same e).pending]
      refine Nat.le_of_eq (Eq.symm ?_)
      refine cancel_pending_eq ?_
      intro j hj he hc
      rcases hsafe j hj he with h1 | h1
      · rw [hc] at h1; cases h1
      · rw [hc] at h1; exact hd (Option.some.inj h1).symm
    · cases e; exact Nat.le_refl _
  | free b =>
    unfold lkStep at e
    dsimp only at e
    split at e <;> cases e <;> exact Nat.le_refl _

theorem set_active {s : LkSt} {b x : Nat} {r : LkBe} (hx : x ≠ b) (h : LookedUp (s.set b r) x) : LookedUp s x := by
  unfold LookedUp at h ⊢
  rw [set_be, if_neg hx] at h
  exact h

theorem same_active {s s' : LkSt} (h : SameLk s s') {x : Nat} : LookedUp s' x ↔ LookedUp s x := by
  unfold LookedUp
  rw [h.created, h.disabled]

theorem update_active {s : LkSt} {b x : Nat} {ans : LkAns} (h : LookedUp (lkUpdate b ans s) x) : LookedUp s x := by
  have := update_be s b ans x
  unfold LookedUp at h ⊢
  rw [this.1, this.2.2.2.2] at h
  exact h

/-- How a backend came to be in use -/
theorem active_before {s s' : LkSt} {o : LkOp} (e : lkStep s o = some s') {x : Nat} (ha : LookedUp s' x) :
    LookedUp s x ∧ (NotDisabling x o ∨ s' = s) ∨ (∃ now, o = .create x now ∧ (s.be x).created = false) ∨
      ∃ ans, o = .enable x ans ∧ (s.be x).kept = true ∧ (s.be x).disabled = true := by
  cases o with
  | create b now =>
    unfold lkStep at e
    dsimp only at e
    split at e <;> cases e
    · exact Or.inl ⟨ha, Or.inr rfl⟩
    · rename_i hc
      by_cases hx : x = b
      · subst hx; exact Or.inr (Or.inl ⟨now, rfl, by simpa using hc⟩)
      · exact Or.inl ⟨set_active hx (set_active hx ha), Or.inl trivial⟩
  | other ts => cases e; exact Or.inl ⟨ha, Or.inl trivial⟩
  | cancels => exact Or.inl ⟨(same_active (cancels_same _ e)).1 ha, Or.inl trivial⟩
  | start =>
    refine Or.inl ⟨?_, Or.inl trivial⟩
    unfold lkStep at e
    dsimp only at e
    split at e
    · cases e; exact ha
    · split at e <;> cases e <;> exact ha
  | done k ans =>
    refine Or.inl ⟨?_, Or.inl trivial⟩
    cases hk : s.run[k]? with
    | none =>
      unfold lkStep at e
      dsimp only at e
      rw [hk] at e
      cases e
      exact ha
    | some b => exact update_active (s := { s with run := s.run.eraseIdx k }) ((same_active (doneStep hk e)).1 ha)
  | disable b =>
    unfold lkStep at e
    dsimp only at e
    split at e <;> cases e
    · by_cases hx : x = b
      · subst hx
        have := ha.2
        rw [set_be, if_pos rfl] at this
        cases this
      · exact Or.inl ⟨set_active (s := { s with q := s.q.cancel (s.be b).jid }) hx ha, Or.inl (fun e => hx e.symm)⟩
    · exact Or.inl ⟨ha, Or.inr rfl⟩
  | enable b ans =>
    unfold lkStep at e
    dsimp only at e
    split at e
    · rename_i hk
      split at e
      · rename_i hd
        cases e
        have h1 := update_active ha
        by_cases hx : x = b
        · subst hx; exact Or.inr (Or.inr ⟨ans, rfl, hk, hd⟩)
        · exact Or.inl ⟨set_active hx h1, Or.inl trivial⟩
      · cases e; exact Or.inl ⟨ha, Or.inr rfl⟩
    · cases e; exact Or.inl ⟨ha, Or.inr rfl⟩
  | drop b =>
    unfold lkStep at e
    dsimp only at e
    split at e
    · have h1 := (same_active (unref_same e)).1 ha
      by_cases hx : x = b
      · subst hx
        have := h1.2
        rw [set_be, if_pos rfl] at this
        cases this
      · exact Or.inl ⟨set_active (s := { s with q := s.q.cancel (s.be b).jid }) hx h1, Or.inl (fun e => hx e.symm)⟩
    · cases e; exact Or.inl ⟨ha, Or.inr rfl⟩
  | free b =>
    unfold lkStep at e
    dsimp only at e
    split at e <;> cases e
    · refine Or.inl ⟨?_, Or.inl trivial⟩
      by_cases hx : x = b
      · subst hx
        unfold LookedUp at ha ⊢
        rw [set_be, if_pos rfl] at ha
        exact ha
      · exact set_active hx ha
    · exact Or.inl ⟨ha, Or.inr rfl⟩

theorem step_goes_on {s s' : LkSt} {o : LkOp} (h : LkInv s) (hp : ∀ x, LookedUp s x → 1 ≤ pending s x) (e : lkStep s o = some s') (hs : s'.q.next ≤ jobIds) (hf : NoFailure o)
    (hsafe : SafeOp s o) {x : Nat} (ha : LookedUp s' x) : 1 ≤ pending s' x := by
  rcases active_before e ha with ⟨h1, h2⟩ | ⟨now, rfl, hc⟩ | ⟨ans, rfl, hk, hd⟩
  · rcases h2 with h2 | rfl
    · exact Nat.le_trans (hp x h1) (step_pending_ge h e hs hf hsafe h2 h1)
    · exact hp x h1
  · unfold lkStep at e
    dsimp only at e
    rw [if_neg (by simp [hc])] at e
    cases e
    rw [create_pending h x now hs, if_pos rfl]
    omega
  · unfold lkStep at e
    dsimp only at e
    rw [if_pos hk, if_pos hd] at e
    cases e
    rw [update_pending (setSame_lkInv h x { s.be x with disabled := false } rfl (h.kept x)) x ans hs, if_pos rfl]
    have : answers (s.set x { s.be x with disabled := false }) x ans = 1 := by
      cases ans with
      | failed => exact absurd rfl hf
      | temp ts => rfl
      | found ts => unfold answers; rw [set_be, if_pos rfl]; rfl
    omega

theorem run_goes_on : ∀ (ops : List LkOp) {s s' : LkSt}, LkInv s → (∀ x, LookedUp s x → 1 ≤ pending s x) → Along (fun s o => NoFailure o ∧ NotTooEarly s o) s ops →
    lkRun s ops = some s' → s'.q.next ≤ jobIds → ∀ x, LookedUp s' x → 1 ≤ pending s' x
  | [], s, s', _, hp, _, h, _ => by cases h; exact hp
  | o :: t, s, s', hi, hp, hal, h, hs => by
    rw [lkRun] at h
    cases e : lkStep s o with
    | none => rw [e] at h; cases h
    | some s1 =>
      rw [e] at h
      have hs1 := Nat.le_trans (run_next t h) hs
      exact run_goes_on t (step_lkInv hi e hs1) (fun x ha => step_goes_on hi hp e hs1 hal.1.1 (notTooEarly_safe hi hal.1.2) ha) (hal.2 s1 e) h hs

/-- Look-ups do not become fewer. -/
theorem run_pending_ge (b : Nat) : ∀ (ops : List LkOp) {s s' : LkSt}, LkInv s → LookedUp s b → Along (fun s o => NoFailure o ∧ NotTooEarly s o ∧ NotDisabling b o) s ops →
    lkRun s ops = some s' → s'.q.next ≤ jobIds → LookedUp s' b ∧ pending s b ≤ pending s' b
  | [], s, s', _, ha, _, h, _ => by cases h; exact ⟨ha, Nat.le_refl _⟩
  | o :: t, s, s', hi, ha, hal, h, hs => by
    rw [lkRun] at h
    cases e : lkStep s o with
    | none => rw [e] at h; cases h
    | some s1 =>
      rw [e] at h
      have hs1 := Nat.le_trans (run_next t h) hs
      have h1 := step_pending_ge hi e hs1 hal.1.1 (notTooEarly_safe hi hal.1.2.1) hal.1.2.2 ha
      have h2 := run_pending_ge b t (step_lkInv hi e hs1) (active_after e ha hal.1.2.2) (hal.2 s1 e) h hs
      exact ⟨h2.1, Nat.le_trans h1 h2.2⟩
where
  active_after {s s' : LkSt} {o : LkOp} (e : lkStep s o = some s') {x : Nat} (ha : LookedUp s x) (hn : NotDisabling x o) : LookedUp s' x := by
    cases o with
    | create b now =>
      unfold lkStep at e
      dsimp only at e
      split at e <;> cases e
      · exact ha
      · rename_i hc
        have hx : x ≠ b := by rintro rfl; exact hc ha.1
        show (if x = b then _ else if x = b then _ else _ : LkBe).created = true ∧ (if x = b then _ else if x = b then _ else _ : LkBe).disabled = false
        rw [if_neg hx, if_neg hx]
        exact ha
    | other ts => cases e; exact ha
    | cancels => exact (same_active (cancels_same _ e)).2 ha
    | start =>
      unfold lkStep at e
      dsimp only at e
      split at e
      · cases e; exact ha
      · split at e <;> cases e <;> exact ha
    | done k ans =>
      cases hk : s.run[k]? with
      | none =>
        unfold lkStep at e
        dsimp only at e
        rw [hk] at e
        cases e
        exact ha
      | some b =>
        refine (same_active (doneStep hk e)).2 ?_
        have := update_be { s with run := s.run.eraseIdx k } b ans x
        unfold LookedUp
        rw [this.1, this.2.2.2.2]
        exact ha
    | disable b =>
      unfold lkStep at e
      dsimp only at e
      split at e <;> cases e
      · unfold LookedUp
        rw [set_be, if_neg (fun e => hn e.symm)]
        exact ha
      · exact ha
    | enable b ans =>
      unfold lkStep at e
      dsimp only at e
      split at e
      · split at e
        · cases e
          have := update_be (s.set b { s.be b with disabled := false }) b ans x
          unfold LookedUp
          rw [this.1, this.2.2.2.2, set_be]
          by_cases hx : x = b
          · subst hx; rw [if_pos rfl]; exact ⟨ha.1, rfl⟩
          · rw [if_neg hx]; exact ha
        · cases e; exact ha
      · cases e; exact ha
    | drop b =>
      unfold lkStep at e
      dsimp only at e
      split at e
      · refine (same_active (unref_same e)).2 ?_
        unfold LookedUp
        rw [set_be, if_neg (fun e => hn e.symm)]
        exact ha
      · cases e; exact ha
    | free b =>
      unfold lkStep at e
      dsimp only at e
      split at e <;> cases e
      · unfold LookedUp
        rw [set_be]
        by_cases hx : x = b
        · subst hx; rw [if_pos rfl]; exact ha
        · rw [if_neg hx]; exact ha
      · exact ha

/-! ### No look-up too many -/

/-- At most one look-up, and none for disabled backends; what disabled backends would cancel is theirs. -/
structure OnceInv (s : LkSt) : Prop where
  most : ∀ x, pending s x ≤ if (s.be x).disabled then 0 else 1
  own : ∀ x, (s.be x).disabled = true → OwnJob s x ∧ 0 < s.q.next

theorem waiting_own {s : LkSt} (h : LkInv s) {b : Nat} (hw : ∃ j ∈ s.q.jobs, LookupFor b j ∧ j.id = (s.be b).jid ∧ j.id ∉ s.q.cancels) : OwnJob s b := by
  obtain ⟨j, hj, h1, h2, _⟩ := hw
  intro i hi he
  have : i = j := uniq_eq h.uniq hi hj (he.trans h2.symm)
  rw [this]
  exact Or.inr h1

theorem whileWaiting_safe {s : LkSt} (h : LkInv s) (ho : OnceInv s) {o : LkOp} (hw : WhileWaiting s o) : SafeOp s o := by
  have key : ∀ b, ((s.be b).disabled = true ∨ ∃ j ∈ s.q.jobs, LookupFor b j ∧ j.id = (s.be b).jid ∧ j.id ∉ s.q.cancels) → OwnJob s b := by
    intro b hb
    rcases hb with hb | hb
    · exact (ho.own b hb).1
    · exact waiting_own h hb
  cases o <;> first | trivial | exact key _ hw

theorem enqueue_jobs {s : LkSt} (b : Nat) (ts : TS) (hs : s.q.next + 1 ≤ jobIds) : ∀ j ∈ (lkEnqueue b ts s).1.q.jobs, j ∈ s.q.jobs ∨ j.id = s.q.next := by
  intro j hj
  rcases mem_insertJob.1 hj with rfl | hj
  · exact Or.inr (Nat.mod_eq_of_lt hs)
  · exact Or.inl hj

theorem update_jobs {s : LkSt} (b : Nat) (ans : LkAns) (hs : (lkUpdate b ans s).q.next ≤ jobIds) : ∀ j ∈ (lkUpdate b ans s).q.jobs, j ∈ s.q.jobs ∨ j.id = s.q.next := by
  cases ans with
  | failed => exact fun j hj => Or.inl hj
  | temp ts => exact enqueue_jobs b ts hs
  | found ts =>
    unfold lkUpdate at hs ⊢
    dsimp only at hs ⊢
    split
    · exact fun j hj => Or.inl hj
    · rename_i hd
      rw [if_neg hd] at hs
      exact enqueue_jobs b ts hs

theorem update_jid {s : LkSt} (b : Nat) (ans : LkAns) {x : Nat} (hx : x = b → (s.be x).disabled = true) : ((lkUpdate b ans s).be x).jid = (s.be x).jid := by
  have he : ∀ ts, ((lkEnqueue b ts s).1.be x).jid = (s.be x).jid := by
    intro ts
    show (if x = b then _ else _ : LkBe).jid = _
    by_cases hx : x = b <;> simp [hx]
  cases ans with
  | failed => rfl
  | temp ts => exact he ts
  | found ts =>
    unfold lkUpdate
    dsimp only
    split
    · rfl
    · rename_i hd
      rw [set_be]
      by_cases h : x = b
      · exact absurd (h ▸ hx h) hd
      · rw [if_neg h]; exact he ts

theorem step_jobs {s s' : LkSt} {o : LkOp} (e : lkStep s o = some s') (hs : s'.q.next ≤ jobIds) : ∀ j ∈ s'.q.jobs, j ∈ s.q.jobs ∨ j.id = s.q.next := by
  cases o with
  | create b now =>
    unfold lkStep at e
    dsimp only at e
    split at e <;> cases e
    · exact fun j hj => Or.inl hj
    · exact enqueue_jobs (s := s.set b ⟨true, false, 0, 1, true, false⟩) b now hs
  | other ts =>
    cases e
    intro j hj
    rcases mem_insertJob.1 hj with rfl | hj
    · exact Or.inr (Nat.mod_eq_of_lt hs)
    · exact Or.inl hj
  | cancels =>
    rw [(cancels_same _ e).q]
    exact fun j hj => Or.inl ((applyCancels_sublist _ _).subset hj)
  | start =>
    unfold lkStep at e
    dsimp only at e
    split at e
    · cases e; exact fun j hj => Or.inl hj
    · rename_i j r hj
      have : ∀ i ∈ r, i ∈ s.q.jobs ∨ i.id = s.q.next := fun i hi => Or.inl (by rw [hj]; exact List.mem_cons_of_mem _ hi)
      split at e <;> cases e <;> exact this
  | done k ans =>
    cases hk : s.run[k]? with
    | none =>
      unfold lkStep at e
      dsimp only at e
      rw [hk] at e
      cases e
      exact fun j hj => Or.inl hj
    | some b =>
      have hd := doneStep hk e
      rw [hd.q] at hs ⊢
      exact update_jobs (s := { s with run := s.run.eraseIdx k }) b ans hs
  | disable b =>
    unfold lkStep at e
    dsimp only at e
    split at e <;> cases e <;> exact fun j hj => Or.inl hj
  | enable b ans =>
    unfold lkStep at e
    dsimp only at e
    split at e
    · split at e
      · cases e; exact update_jobs (s := s.set b { s.be b with disabled := false }) b ans hs
      · cases e; exact fun j hj => Or.inl hj
    · cases e; exact fun j hj => Or.inl hj
  | drop b =>
    unfold lkStep at e
    dsimp only at e
    split at e
    · rw [(unref_same e).q]; exact fun j hj => Or.inl hj
    · cases e; exact fun j hj => Or.inl hj
  | free b =>
    unfold lkStep at e
    dsimp only at e
    split at e <;> cases e <;> exact fun j hj => Or.inl hj

/-- How a backend came to be disabled -/
theorem disabled_before {s s' : LkSt} {o : LkOp} (e : lkStep s o = some s') {x : Nat} (hd : (s'.be x).disabled = true) :
    (s'.be x).jid = (s.be x).jid ∧ ((s.be x).disabled = true ∨ (o = .disable x ∨ o = .drop x) ∧ (s.be x).kept = true) := by
  cases o with
  | create b now =>
    unfold lkStep at e
    dsimp only at e
    split at e <;> cases e
    · exact ⟨rfl, Or.inl hd⟩
    · change (if x = b then _ else if x = b then _ else _ : LkBe).disabled = true at hd
      show (if x = b then _ else if x = b then _ else _ : LkBe).jid = _ ∧ _
      by_cases hx : x = b
      · subst hx
        rw [if_pos rfl, set_be, if_pos rfl] at hd
        cases hd
      · rw [if_neg hx, if_neg hx] at hd ⊢
        exact ⟨rfl, Or.inl hd⟩
  | other ts => cases e; exact ⟨rfl, Or.inl hd⟩
  | cancels => rw [(cancels_same _ e).disabled] at hd; rw [(cancels_same _ e).jid]; exact ⟨rfl, Or.inl hd⟩
  | start =>
    unfold lkStep at e
    dsimp only at e
    split at e
    · cases e; exact ⟨rfl, Or.inl hd⟩
    · split at e <;> cases e <;> exact ⟨rfl, Or.inl hd⟩
  | done k ans =>
    cases hk : s.run[k]? with
    | none =>
      unfold lkStep at e
      dsimp only at e
      rw [hk] at e
      cases e
      exact ⟨rfl, Or.inl hd⟩
    | some b =>
      have h1 := doneStep hk e
      rw [h1.disabled, (update_be _ b ans x).2.2.2.2] at hd
      rw [h1.jid, update_jid b ans (fun _ => hd)]
      exact ⟨rfl, Or.inl hd⟩
  | disable b =>
    unfold lkStep at e
    dsimp only at e
    split at e <;> cases e
    · rename_i hk
      rw [set_be] at hd ⊢
      by_cases hx : x = b
      · subst hx; rw [if_pos rfl]; exact ⟨rfl, Or.inr ⟨Or.inl rfl, hk⟩⟩
      · rw [if_neg hx] at hd ⊢; exact ⟨rfl, Or.inl hd⟩
    · exact ⟨rfl, Or.inl hd⟩
  | enable b ans =>
    unfold lkStep at e
    dsimp only at e
    split at e
    · split at e
      · cases e
        rw [(update_be _ b ans x).2.2.2.2, set_be] at hd
        by_cases hx : x = b
        · subst hx
          rw [if_pos rfl] at hd
          cases hd
        · rw [if_neg hx] at hd
          rw [update_jid b ans (fun h => absurd h hx), set_be, if_neg hx]
          exact ⟨rfl, Or.inl hd⟩
      · cases e; exact ⟨rfl, Or.inl hd⟩
    · cases e; exact ⟨rfl, Or.inl hd⟩
  | drop b =>
    unfold lkStep at e
    dsimp only at e
    split at e
    · rename_i hk
      have h1 := unref_same e
      rw [h1.disabled, set_be] at hd
      rw [h1.jid, set_be]
      by_cases hx : x = b
      · subst hx; rw [if_pos rfl]; exact ⟨rfl, Or.inr ⟨Or.inr rfl, hk⟩⟩
      · rw [if_neg hx] at hd ⊢; exact ⟨rfl, Or.inl hd⟩
    · cases e; exact ⟨rfl, Or.inl hd⟩
  | free b =>
    unfold lkStep at e
    dsimp only at e
    split at e <;> cases e
    · rw [set_be] at hd ⊢
      by_cases hx : x = b
      · subst hx; rw [if_pos rfl] at hd ⊢; exact ⟨rfl, Or.inl hd⟩
      · rw [if_neg hx] at hd ⊢; exact ⟨rfl, Or.inl hd⟩
    · exact ⟨rfl, Or.inl hd⟩

theorem answers_le (s : LkSt) (b : Nat) (ans : LkAns) : answers s b ans ≤ 1 := by
  cases ans <;> simp only [answers] <;> (try split) <;> omega

theorem step_once {s s' : LkSt} {o : LkOp} (h : LkInv s) (hr : RefInv s) (ho : OnceInv s) (e : lkStep s o = some s') (hs : s'.q.next ≤ jobIds) (hw : WhileWaiting s o) : OnceInv s' := by
  refine ⟨?_, ?_⟩
  · intro x
    cases o with
    | create b now =>
      unfold lkStep at e
      dsimp only at e
      split at e <;> cases e
      · exact ho.most x
      · rename_i hc
        rw [create_pending h b now hs]
        show _ ≤ if (if x = b then _ else if x = b then _ else _ : LkBe).disabled = true then 0 else 1
        by_cases hx : x = b
        · subst hx
          rw [if_pos rfl, if_pos rfl, set_be, if_pos rfl]
          have h0 := hr.dead x (Or.inl (by simpa using hc))
          have h1 := pending_le_queued s x
          simp only [Bool.false_eq_true, if_false]
          omega
        · rw [if_neg hx, if_neg hx, if_neg hx]
          exact ho.most x
    | other ts => cases e; rw [other_pending]; exact ho.most x
    | cancels => rw [cancelsStep_pending h e, (cancels_same _ e).disabled]; exact ho.most x
    | start =>
      cases hj : s.q.jobs with
      | nil =>
        unfold lkStep at e
        dsimp only at e
        rw [hj] at e
        cases e
        exact ho.most x
      | cons j r =>
        rw [(startStep hj e x).2 (hw j r hj)]
        have : s'.be = s.be := by
          unfold lkStep at e
          dsimp only at e
          rw [hj] at e
          dsimp only at e
          split at e <;> cases e <;> rfl
        rw [this]
        exact ho.most x
    | done k ans =>
      cases hk : s.run[k]? with
      | none =>
        unfold lkStep at e
        dsimp only at e
        rw [hk] at e
        cases e
        exact ho.most x
      | some b =>
        have hsm := doneStep hk e
        rw [hsm.q] at hs
        rw [hsm.pending, update_pending (run_lkInv h _) b ans hs, hsm.disabled, (update_be _ b ans x).2.2.2.2]
        have h1 := run_pending hk x
        have h2 := ho.most x
        have h3 := answers_le { s with run := s.run.eraseIdx k } b ans
        by_cases hx : x = b
        · subst hx
          rw [if_pos rfl] at h1 ⊢
          show _ ≤ if (s.be x).disabled = true then 0 else 1
          omega
        · rw [if_neg hx] at h1 ⊢
          show _ ≤ if (s.be x).disabled = true then 0 else 1
          omega
    | disable b =>
      unfold lkStep at e
      dsimp only at e
      split at e <;> cases e
      · have h1 := cancel_pending_le s (s.be b).jid x
        have h2 := ho.most x
        rw [set_be]
        by_cases hx : x = b
        · subst hx
          rw [if_pos rfl]
          show pending { s with q := s.q.cancel (s.be x).jid } x ≤ if true = true then 0 else 1
          rw [if_pos rfl]
          rcases hw with hw | hw
          · rw [if_pos hw] at h2; omega
          · have h3 := cancel_pending_lt hw
            have : (if (s.be x).disabled = true then 0 else 1) ≤ 1 := by split <;> omega
            omega
        · rw [if_neg hx]
          exact Nat.le_trans h1 h2
      · exact ho.most x
    | enable b ans =>
      unfold lkStep at e
      dsimp only at e
      split at e
      · split at e
        · rename_i hd
          cases e
          rw [update_pending (setSame_lkInv h b { s.be b with disabled := false } rfl (h.kept b)) b ans hs, (update_be _ b ans x).2.2.2.2, set_be]
          have h2 := ho.most x
          have h3 := answers_le (s.set b { s.be b with disabled := false }) b ans
          by_cases hx : x = b
          · subst hx
            rw [if_pos hd] at h2
            rw [if_pos rfl, if_pos rfl]
            show pending s x + _ ≤ 1
            omega
          · rw [if_neg hx, if_neg hx]
            exact h2
        · cases e; exact ho.most x
      · cases e; exact ho.most x
    | drop b =>
      unfold lkStep at e
      dsimp only at e
      split at e
      · have hsm := unref_same e
        rw [hsm.pending, hsm.disabled]
        have h1 := cancel_pending_le s (s.be b).jid x
        have h2 := ho.most x
        rw [set_be]
        by_cases hx : x = b
        · subst hx
          rw [if_pos rfl]
          show pending { s with q := s.q.cancel (s.be x).jid } x ≤ if true = true then 0 else 1
          rw [if_pos rfl]
          rcases hw with hw | hw
          · rw [if_pos hw] at h2; omega
          · have h3 := cancel_pending_lt hw
            have : (if (s.be x).disabled = true then 0 else 1) ≤ 1 := by split <;> omega
            omega
        · rw [if_neg hx]
          exact Nat.le_trans h1 h2
      · cases e; exact ho.most x
    | free b =>
      unfold lkStep at e
      dsimp only at e
      split at e <;> cases e
      · rw [set_be]
        by_cases hx : x = b
        · subst hx; rw [if_pos rfl]; exact ho.most x
        · rw [if_neg hx]; exact ho.most x
      · exact ho.most x
  · intro x hd
    obtain ⟨hj, hb⟩ := disabled_before e hd
    have hpos : OwnJob s x ∧ 0 < s.q.next := by
      rcases hb with hb | ⟨hb, hk⟩
      · exact ho.own x hb
      · have := whileWaiting_safe h ho hw
        refine ⟨?_, h.kept x hk⟩
        rcases hb with rfl | rfl <;> exact this
    refine ⟨?_, Nat.lt_of_lt_of_le hpos.2 (step_next e)⟩
    intro j hj' he
    rw [hj] at he
    rcases step_jobs e hs j hj' with h1 | h1
    · exact hpos.1 j h1 he
    · have h2 := h.jid x
      have h3 := hpos.2
      omega

theorem onceInv_init : OnceInv LkSt.init := ⟨fun _ => Nat.zero_le _, fun _ h => nomatch h⟩

theorem run_once : ∀ (ops : List LkOp) {s s' : LkSt}, LkInv s → RefInv s → OnceInv s → Along WhileWaiting s ops → lkRun s ops = some s' → s'.q.next ≤ jobIds → OnceInv s'
  | [], s, s', _, _, ho, _, h, _ => by cases h; exact ho
  | o :: t, s, s', hi, hr, ho, hal, h, hs => by
    rw [lkRun] at h
    cases e : lkStep s o with
    | none => rw [e] at h; cases h
    | some s1 =>
      rw [e] at h
      have hs1 := Nat.le_trans (run_next t h) hs
      obtain ⟨s2, e2, hr2⟩ := step_ref hr o
      rw [e] at e2
      cases e2
      exact run_once t (step_lkInv hi e hs1) hr2 (step_once hi hr ho e hs1 hal.1) (hal.2 s1 e) h hs

theorem run_exact : ∀ (ops : List LkOp) {s s' : LkSt}, LkInv s → RefInv s → OnceInv s → (∀ x, LookedUp s x → 1 ≤ pending s x) →
    Along (fun s o => NoFailure o ∧ WhileWaiting s o) s ops → lkRun s ops = some s' → s'.q.next ≤ jobIds → ∀ x, LookedUp s' x → 1 ≤ pending s' x
  | [], s, s', _, _, _, hp, _, h, _ => by cases h; exact hp
  | o :: t, s, s', hi, hr, ho, hp, hal, h, hs => by
    rw [lkRun] at h
    cases e : lkStep s o with
    | none => rw [e] at h; cases h
    | some s1 =>
      rw [e] at h
      have hs1 := Nat.le_trans (run_next t h) hs
      obtain ⟨s2, e2, hr2⟩ := step_ref hr o
      rw [e] at e2
      cases e2
      exact run_exact t (step_lkInv hi e hs1) hr2 (step_once hi hr ho e hs1 hal.1.2)
        (fun x ha => step_goes_on hi hp e hs1 hal.1.1 (whileWaiting_safe hi ho hal.1.2) ha) (hal.2 s1 e) h hs

/-- All states of histories -/
theorem run_lkInv' : ∀ (ops : List LkOp) {s s' : LkSt}, LkInv s → lkRun s ops = some s' → s'.q.next ≤ jobIds → LkInv s'
  | [], s, s', hi, h, _ => by cases h; exact hi
  | o :: t, s, s', hi, h, hs => by
    rw [lkRun] at h
    cases e : lkStep s o with
    | none => rw [e] at h; cases h
    | some s1 =>
      rw [e] at h
      exact run_lkInv' t (step_lkInv hi e (Nat.le_trans (run_next t h) hs)) h hs

end Pound
