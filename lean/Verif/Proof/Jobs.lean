import Verif.Model.Session
import Verif.Spec.Session

namespace Pound
open Spec

theorem cmp_lt (a b : TS) : a.cmp b < 0 ↔ Before a b := by
  unfold TS.cmp Before; repeat' split
  all_goals omega

theorem cmp_le (a b : TS) : a.cmp b ≤ 0 ↔ NotAfter a b := by
  unfold TS.cmp NotAfter; repeat' split
  all_goals omega

theorem notAfter_iff (a b : TS) : NotAfter a b ↔ ¬ Before b a := by
  unfold NotAfter Before; omega

theorem NotAfter.refl (a : TS) : NotAfter a a := by unfold NotAfter; omega

theorem NotAfter.trans {a b c : TS} (h : NotAfter a b) (h' : NotAfter b c) : NotAfter a c := by
  unfold NotAfter at *; omega

theorem Before.notAfter {a b : TS} (h : Before a b) : NotAfter a b := by
  unfold NotAfter Before at *; omega

theorem NotAfter.add {a b : TS} (n : Int) (h : NotAfter a b) : NotAfter (a.addSec n) (b.addSec n) := by
  unfold NotAfter TS.addSec at *; simp only; omega

theorem notAfter_cases {a b : TS} (h : NotAfter a b) : Before a b ∨ a = b := by
  rcases a with ⟨x, y⟩; rcases b with ⟨z, w⟩
  unfold NotAfter Before at *; simp only [TS.mk.injEq] at *; omega

/-- Order of the queue. -/
def JobLt {α} (a b : Job α) : Prop := Earlier (a.ts, a.serial) (b.ts, b.serial)

theorem JobLt.le {α} {a b : Job α} (h : JobLt a b) : NotAfter a.ts b.ts := by
  rcases h with h | h
  · exact Before.notAfter h
  · simp only at h; rw [h.1]; exact NotAfter.refl _

theorem mem_insertJob {α} {j x : Job α} {l : List (Job α)} : x ∈ insertJob j l ↔ x = j ∨ x ∈ l := by
  induction l with
  | nil => simp [insertJob]
  | cons t r ih =>
    simp only [insertJob]
    split
    · simp
    · simp only [List.mem_cons, ih]
      constructor
      · rintro (h | h | h) <;> simp [h]
      · rintro (h | h | h) <;> simp [h]

theorem insertJob_sorted {α} {j : Job α} {l : List (Job α)} (h : l.Pairwise JobLt)
    (hs : ∀ x ∈ l, x.serial < j.serial) : (insertJob j l).Pairwise JobLt := by
  induction l with
  | nil => simp [insertJob]
  | cons t r ih =>
    rw [List.pairwise_cons] at h
    simp only [insertJob]
    split
    · rename_i hc
      have hb := (cmp_lt _ _).1 hc
      rw [List.pairwise_cons]
      refine ⟨fun x hx => ?_, List.pairwise_cons.2 h⟩
      left
      rcases List.mem_cons.1 hx with rfl | hx
      · exact hb
      · have := (h.1 x hx).le
        simp only
        unfold Before NotAfter at *; omega
    · rename_i hc
      have hb : NotAfter t.ts j.ts := (notAfter_iff _ _).2 fun hb => hc ((cmp_lt _ _).2 hb)
      rw [List.pairwise_cons]
      refine ⟨fun x hx => ?_, ih h.2 fun x hx => hs x (by simp [hx])⟩
      rcases mem_insertJob.1 hx with rfl | hx
      · rcases notAfter_cases hb with hb | hb
        · exact .inl hb
        · exact .inr ⟨hb, hs t (by simp)⟩
      · exact h.1 x hx

theorem insertJob_perm {α} (j : Job α) (l : List (Job α)) : (insertJob j l).Perm (j :: l) := by
  induction l with
  | nil => exact .refl _
  | cons t r ih =>
    simp only [insertJob]
    split
    · exact .refl _
    · exact (ih.cons t).trans (.swap _ _ _)

theorem jobRemove_sublist {α} (id : Nat) (l : List (Job α)) : (jobRemove id l).Sublist l := by
  induction l with
  | nil => exact .slnil
  | cons t r ih =>
    simp only [jobRemove]
    split
    · exact List.sublist_cons_self _ _
    · exact ih.cons₂ _

theorem applyCancels_sublist {α} (ids : List Nat) (l : List (Job α)) : (applyCancels ids l).Sublist l := by
  induction ids generalizing l with
  | nil => exact .refl _
  | cons i t ih => exact (ih _).trans (jobRemove_sublist i l)

theorem jobRemove_keeps {α} {id : Nat} {l : List (Job α)} {j : Job α} (h : j ∈ l) (hn : j.id ≠ id) : j ∈ jobRemove id l := by
  induction l with
  | nil => simp at h
  | cons t r ih =>
    simp only [jobRemove]
    rcases List.mem_cons.1 h with rfl | h
    · rw [if_neg hn]; simp
    · split
      · exact h
      · exact List.mem_cons_of_mem _ (ih h)

theorem applyCancels_keeps {α} {ids : List Nat} {l : List (Job α)} {j : Job α} (h : j ∈ l) (hn : j.id ∉ ids) :
    j ∈ applyCancels ids l := by
  induction ids generalizing l with
  | nil => exact h
  | cons i t ih =>
    simp only [List.mem_cons, not_or] at hn
    exact ih (jobRemove_keeps h hn.1) hn.2

theorem jobRemove_removes {α} {id : Nat} {l : List (Job α)} (hu : l.Pairwise fun a b => a.id ≠ b.id) {j : Job α}
    (h : j.id = id) : j ∉ jobRemove id l := by
  induction l with
  | nil => simp [jobRemove]
  | cons t r ih =>
    rw [List.pairwise_cons] at hu
    simp only [jobRemove]
    split
    · rename_i ht
      exact fun hm => hu.1 j hm (by rw [ht, h])
    · rename_i ht
      simp only [List.mem_cons, not_or]
      exact ⟨fun e => ht (e ▸ h), ih hu.2⟩

theorem applyCancels_removes {α} {ids : List Nat} {l : List (Job α)} (hu : l.Pairwise fun a b => a.id ≠ b.id) {j : Job α}
    (h : j.id ∈ ids) : j ∉ applyCancels ids l := by
  induction ids generalizing l with
  | nil => simp at h
  | cons i t ih =>
    rcases List.mem_cons.1 h with rfl | h
    · exact fun hm => jobRemove_removes hu rfl ((applyCancels_sublist t _).subset hm)
    · exact ih (hu.sublist (jobRemove_sublist i l)) h

/-- The part of the invariant about the queue. -/
structure TimerCore {α} (s : Timer α) : Prop where
  sorted : s.q.jobs.Pairwise JobLt
  bound : ∀ j ∈ s.q.jobs, j.serial < s.q.next
  sbound : ∀ e ∈ s.started, e.1.serial < s.q.next
  uniq : (s.q.jobs.map (·.serial) ++ s.started.map (·.1.serial)).Nodup
  due : ∀ e ∈ s.started, NotAfter e.1.ts e.2

/-- Invariant of the timer. -/
structure TimerInv {α} (s : Timer α) : Prop extends TimerCore s where
  pc : ∀ n d, s.pc = .timed n d → ∃ j ∈ s.q.jobs, j.serial = n ∧ j.ts = d
  calm : s.woken = false → s.q.cancels = [] ∧ (s.pc = .idle → s.q.jobs = []) ∨
    ∃ n d, s.pc = .timed n d ∧ NotAfter d s.clock
  first : ∀ n d, s.pc = .timed n d → s.woken = false → NotAfter d s.clock ∨ ∃ j r, s.q.jobs = j :: r ∧ j.serial = n

theorem timerInv_init {α} (t : TS) : TimerInv (Timer.init t : Timer α) := by
  refine ⟨⟨?_, ?_, ?_, ?_, ?_⟩, ?_, ?_, ?_⟩ <;> simp [Timer.init, JobQ.init]

theorem timerInv_top {α} {s : Timer α} (h : TimerCore s) : TimerInv s.top := by
  have hsub := applyCancels_sublist s.q.cancels s.q.jobs
  have hsorted := h.sorted.sublist hsub
  have huniq : ((applyCancels s.q.cancels s.q.jobs).map (·.serial) ++ s.started.map (·.1.serial)).Nodup :=
    h.uniq.sublist ((hsub.map _).append (.refl _))
  have hbound : ∀ j ∈ applyCancels s.q.cancels s.q.jobs, j.serial < s.q.next := fun j hj => h.bound j (hsub.subset hj)
  unfold Timer.top
  generalize applyCancels s.q.cancels s.q.jobs = l at *
  cases l with
  | nil => exact ⟨⟨hsorted, hbound, h.sbound, huniq, h.due⟩, by simp, by simp, by simp⟩
  | cons j r =>
    refine ⟨⟨hsorted, hbound, h.sbound, huniq, h.due⟩, ?_, by simp, ?_⟩
    · simp only [TimerPc.timed.injEq]
      rintro n d ⟨rfl, rfl⟩
      exact ⟨j, by simp, rfl, rfl⟩
    · simp only [TimerPc.timed.injEq]
      rintro n d ⟨rfl, rfl⟩ _
      exact .inr ⟨j, r, rfl, rfl⟩

theorem broadcast_fields {α} (s : Timer α) : s.broadcast.q = s.q ∧ s.broadcast.pc = s.pc ∧ s.broadcast.clock = s.clock ∧
    s.broadcast.started = s.started ∧ (s.woken = true → s.broadcast.woken = true) := by
  unfold Timer.broadcast
  split <;> simp_all

theorem broadcast_calm {α} {s : Timer α} (h : s.broadcast.woken = false) :
    ∃ n d, s.pc = .timed n d ∧ NotAfter d s.clock := by
  unfold Timer.broadcast at h
  split at h
  · simp at h
  · rename_i n d hp
    refine ⟨n, d, hp, ?_⟩
    simp only [Bool.or_eq_false_iff, decide_eq_false_iff_not] at h
    exact (notAfter_iff _ _).2 fun hb => h.2 ((cmp_lt _ _).2 hb)

theorem timerInv_step {α} {s : Timer α} (h : TimerInv s) (e : TimerEv α) (hc : s.can e) : TimerInv (s.step e) := by
  cases e with
  | tick t =>
    have ht : NotAfter s.clock t := (cmp_le _ _).1 hc
    refine ⟨⟨h.sorted, h.bound, h.sbound, h.uniq, h.due⟩, h.pc, ?_, ?_⟩
    · intro hw
      rcases h.calm hw with h1 | ⟨n, d, h1, h2⟩
      · exact .inl h1
      · exact .inr ⟨n, d, h1, NotAfter.trans h2 ht⟩
    · intro n d hp hw
      rcases h.first n d hp hw with h1 | h1
      · exact .inl (NotAfter.trans h1 ht)
      · exact .inr h1
  | enqueue ts a =>
    have hins : TimerInv { s with q := (s.q.enqueue ts a).1, woken := true } := by
      refine ⟨⟨?_, ?_, ?_, ?_, h.due⟩, ?_, by simp, by simp⟩
      · exact insertJob_sorted h.sorted h.bound
      · intro j hj
        rcases mem_insertJob.1 hj with rfl | hj
        · exact Nat.lt_succ_self _
        · exact Nat.lt_succ_of_lt (h.bound j hj)
      · exact fun e he => Nat.lt_succ_of_lt (h.sbound e he)
      · have hp := ((insertJob_perm ⟨s.q.next, ts, a⟩ s.q.jobs).map (·.serial)).append_right (s.started.map (·.1.serial))
        refine (List.Perm.nodup_iff hp).2 ?_
        simp only [List.map_cons, List.cons_append, List.nodup_cons]
        refine ⟨?_, h.uniq⟩
        simp only [List.mem_append, List.mem_map, not_or, not_exists, not_and]
        exact ⟨fun j hj => Nat.ne_of_lt (h.bound j hj), fun e he => Nat.ne_of_lt (h.sbound e he)⟩
      · intro n d hp
        obtain ⟨j, h1, h2⟩ := h.pc n d hp
        exact ⟨j, mem_insertJob.2 (.inr h1), h2⟩
    show TimerInv (s.enqueue ts a)
    unfold Timer.enqueue
    by_cases hn : s.q.newFirst ts
    · simp only [hn, if_true]
      obtain ⟨f1, f2, f3, f4, f5⟩ := broadcast_fields { s with q := (s.q.enqueue ts a).1 }
      refine ⟨⟨by rw [f1]; exact hins.sorted, by rw [f1]; exact hins.bound, by rw [f1, f4]; exact hins.sbound,
        by rw [f1, f4]; exact hins.uniq, by rw [f4]; exact h.due⟩, by rw [f1, f2]; exact hins.pc, ?_, ?_⟩
      · intro hw
        obtain ⟨n, d, h1, h2⟩ := broadcast_calm hw
        exact .inr ⟨n, d, by rw [f2]; exact h1, by rw [f3]; exact h2⟩
      · intro n d hp hw
        obtain ⟨n', d', h1, h2⟩ := broadcast_calm hw
        rw [f2] at hp
        rw [hp] at h1
        simp only [TimerPc.timed.injEq] at h1
        rw [f3, h1.2]; exact .inl h2
    · simp only [hn]
      have hj : ∃ t r, s.q.jobs = t :: r ∧ ¬ ts.cmp t.ts < 0 := by
        unfold JobQ.newFirst at hn
        cases hq : s.q.jobs with
        | nil => simp [hq] at hn
        | cons t r => rw [hq] at hn; exact ⟨t, r, rfl, by simpa using hn⟩
      obtain ⟨t, r, hq, hlt⟩ := hj
      refine ⟨⟨hins.sorted, hins.bound, hins.sbound, hins.uniq, h.due⟩, hins.pc, ?_, ?_⟩
      · intro hw
        rcases h.calm hw with h1 | h1
        · exact .inl ⟨h1.1, fun hp => by have := h1.2 hp; rw [hq] at this; simp at this⟩
        · exact .inr h1
      · intro n d hp hw
        rcases h.first n d hp hw with h1 | ⟨j, r', h1, h2⟩
        · exact .inl h1
        · right
          rw [hq] at h1
          simp only [List.cons.injEq] at h1
          refine ⟨t, insertJob ⟨s.q.next, ts, a⟩ r, ?_, by rw [h1.1]; exact h2⟩
          simp [JobQ.enqueue, hq, insertJob, hlt]
  | cancel id =>
    show TimerInv (s.cancel id)
    unfold Timer.cancel
    obtain ⟨f1, f2, f3, f4, f5⟩ := broadcast_fields { s with q := s.q.cancel id }
    refine ⟨⟨by rw [f1]; exact h.sorted, by rw [f1]; exact h.bound, by rw [f1, f4]; exact h.sbound,
        by rw [f1, f4]; exact h.uniq, by rw [f4]; exact h.due⟩, by rw [f1, f2]; exact h.pc, ?_, ?_⟩
    · intro hw
      obtain ⟨n, d, h1, h2⟩ := broadcast_calm hw
      exact .inr ⟨n, d, by rw [f2]; exact h1, by rw [f3]; exact h2⟩
    · intro n d hp hw
      obtain ⟨n', d', h1, h2⟩ := broadcast_calm hw
      rw [f2] at hp
      rw [hp] at h1
      simp only [TimerPc.timed.injEq] at h1
      rw [f3, h1.2]; exact .inl h2
  | wake => exact timerInv_top h.toTimerCore
  | timeout =>
    obtain ⟨hw, n, d, hp, hd⟩ := hc
    show TimerInv s.timeout
    unfold Timer.timeout
    rw [hp]
    cases hq : s.q.jobs with
    | nil => exact timerInv_top h.toTimerCore
    | cons j r =>
      dsimp only
      by_cases hj : j.serial = n
      · rw [if_pos hj]
        apply timerInv_top
        have hsorted := h.sorted
        rw [hq] at hsorted
        have hbound := h.bound
        rw [hq] at hbound
        have huniq := h.uniq
        rw [hq] at huniq
        have hts : j.ts = d := by
          obtain ⟨j', h1, h2, h3⟩ := h.pc n d hp
          rw [hq] at h1
          rcases List.mem_cons.1 h1 with rfl | h1
          · exact h3
          · exfalso
            simp only [List.map_cons, List.cons_append, List.nodup_cons] at huniq
            exact huniq.1 (List.mem_append.2 (.inl (List.mem_map.2 ⟨j', h1, by rw [h2, hj]⟩)))
        rw [List.pairwise_cons] at hsorted
        refine ⟨hsorted.2, fun x hx => hbound x (by simp [hx]), ?_, ?_, ?_⟩
        · simp only [List.mem_append, List.mem_singleton]
          rintro e (he | rfl)
          · exact h.sbound e he
          · exact hbound j (by simp)
        · simp only [List.map_append, List.map_cons, List.map_nil, ← List.append_assoc]
          simp only [List.map_cons, List.cons_append] at huniq
          exact (List.Perm.nodup_iff (List.perm_append_singleton _ _)).2 huniq
        · simp only [List.mem_append, List.mem_singleton]
          rintro e (he | rfl)
          · exact h.due e he
          · rw [hts]; exact (cmp_le _ _).1 hd
      · rw [if_neg hj]; exact timerInv_top h.toTimerCore

end Pound
