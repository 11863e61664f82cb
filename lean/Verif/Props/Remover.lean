import Verif.Proof.Remover

/-! C86: backends that are no longer wanted are released once, when nobody uses them, and not before; and the threads that do so come to an end. -/

namespace Pound.Props
open Pound Spec

/-- Whatever happens, in any order, no assertion fails and no released memory is used. -/
theorem C86_safe (ops : List RmOp) : ∃ s, rmRun .init ops = some s := by
  obtain ⟨s, e, _⟩ := rmRun_inv ops rmInit
  exact ⟨s, e⟩

/-- Backends that were released are in no table, in no request and in no job; those that were removed and not released yet are all on the list. -/
theorem C86_unused {s : RmSt} (h : RmReach s) (b : Nat) : ((s.be b).freed = true → (s.be b).kept = false ∧ (s.be b).held = 0 ∧ b ∉ s.rem) ∧
    ((s.be b).created = true → (s.be b).kept = false → (s.be b).freed = false → b ∈ s.rem) ∧ s.rem.Nodup := by
  have hi := rmReach_inv h
  refine ⟨fun hf => ⟨(hi.freed b hf).2, (hi.freed b hf).1, fun hb => ?_⟩, fun h1 h2 h3 => (hi.rem b).2 ⟨h1, h2, h3⟩, hi.nodup⟩
  have := ((hi.rem b).1 hb).2.2
  rw [hf] at this
  cases this

/-- The backend is released in a step of a remover, when it has no references left, and was removed before. -/
theorem C86_when {s s' : RmSt} (h : RmReach s) {o : RmOp} (e : rmStep s o = some s') {b : Nat} (h0 : (s.be b).freed = false) (h1 : (s'.be b).freed = true) :
    (∃ k, o = .look k) ∧ (s.be b).held = 0 ∧ (s.be b).created = true ∧ (s.be b).kept = false ∧ b ∈ s.rem := by
  have hi := rmReach_inv h
  have hne : ∀ {s1 : RmSt}, s1.be b = s.be b → s'.be b = s1.be b → False := by
    intro s1 ha hb
    rw [hb, ha, h0] at h1
    cases h1
  cases o with
  | create x =>
    unfold rmStep at e
    dsimp only at e
    split at e
    · cases e; exact (hne rfl rfl).elim
    · cases e
      by_cases hx : b = x
      · subst hx; rw [rm_set_self] at h1; cases h1
      · rw [rm_set_other s _ hx, h0] at h1; cases h1
  | take x =>
    unfold rmStep at e
    dsimp only at e
    split at e
    · split at e
      · cases e
      · cases e
        by_cases hx : b = x
        · subst hx; rw [rm_set_self] at h1; dsimp only at h1; rw [h0] at h1; cases h1
        · rw [rm_set_other s _ hx, h0] at h1; cases h1
    · cases e; exact (hne rfl rfl).elim
  | put x w =>
    unfold rmStep at e
    dsimp only at e
    have aux : ((s.set x { s.be x with ref := (s.be x).ref - 1, held := (s.be x).held - 1 }).be b).freed = false := by
      by_cases hx : b = x
      · subst hx; rw [rm_set_self]; exact h0
      · rw [rm_set_other s _ hx]; exact h0
    split at e
    · cases e; exact (hne rfl rfl).elim
    · split at e
      · cases e
      · split at e <;> cases e <;> (have h1 : ((s.set x { s.be x with ref := (s.be x).ref - 1, held := (s.be x).held - 1 }).be b).freed = true := h1) <;> rw [aux] at h1 <;> cases h1
  | sweep bs start =>
    have aux : ∀ (bs : List Nat) (s1 s2 : RmSt), rmSweep s1 bs = some s2 → (s2.be b).freed = (s1.be b).freed := by
      intro bs
      induction bs with
      | nil => intro s1 s2 e; cases e; rfl
      | cons x t ih =>
        intro s1 s2 e
        unfold rmSweep at e
        cases e1 : rmSweep1 s1 x with
        | none => rw [e1] at e; cases e
        | some s3 =>
          rw [e1] at e
          rw [ih s3 s2 e]
          unfold rmSweep1 at e1
          split at e1
          · split at e1
            · cases e1
            · cases e1
              show ((s1.set x { s1.be x with kept := false, ref := (s1.be x).ref - 1 }).be b).freed = _
              by_cases hx : b = x
              · subst hx; rw [rm_set_self]
              · rw [rm_set_other s1 _ hx]
          · cases e1; rfl
    unfold rmStep at e
    dsimp only at e
    split at e
    · cases e; exact (hne rfl rfl).elim
    · cases e1 : rmSweep s bs with
      | none => rw [e1] at e; cases e
      | some s1 =>
        rw [e1] at e
        have h2 := aux bs s s1 e1
        rw [h0] at h2
        dsimp only at e
        have h3 : s'.be b = s1.be b := by
          split at e <;> cases e <;> rfl
        rw [h3, h2] at h1
        cases h1
  | lock k =>
    unfold rmStep at e
    dsimp only at e
    split at e <;> cases e <;> exact (hne (s1 := s) rfl rfl).elim
  | look k =>
    refine ⟨⟨k, rfl⟩, ?_⟩
    unfold rmStep at e
    dsimp only at e
    cases hk : s.thr[k]? with
    | none => rw [hk] at e; cases e; exact (hne rfl rfl).elim
    | some t =>
      rw [hk] at e
      cases t with
      | ready => cases e; exact (hne rfl rfl).elim
      | waiting => cases e; exact (hne rfl rfl).elim
      | done => cases e; exact (hne rfl rfl).elim
      | scan r =>
        cases r with
        | nil => cases e; exact (hne rfl rfl).elim
        | cons x r =>
          dsimp only at e
          split at e
          · cases e
          · split at e
            · rename_i hr
              cases e
              have h1 : ((s.set x { s.be x with freed := true }).be b).freed = true := h1
              by_cases hx : b = x
              · subst hx
                have hb := (hi.scan k _ hk).2 b (by simp)
                have := (hi.rem b).1 hb
                have href := hi.ref b
                exact ⟨by omega, this.1, this.2.1, hb⟩
              · rw [rm_set_other s _ hx, h0] at h1; cases h1
            · cases e; exact (hne (s1 := s) rfl rfl).elim
  | last k =>
    unfold rmStep at e
    dsimp only at e
    split at e <;> cases e <;> exact (hne (s1 := s) rfl rfl).elim
  | wake k =>
    unfold rmStep at e
    dsimp only at e
    split at e <;> cases e <;> exact (hne (s1 := s) rfl rfl).elim

/-- Once no remover has anything left to do, all removed backends still there are in use.  Missing: histories in which the last reference to a backend
is dropped when the remover has passed it, and those in which backends are removed without a remover being started (`Heard`); see the theorems below. -/
theorem C86_released_partial {ops : List RmOp} (hh : Heard .init ops) {s : RmSt} (e : rmRun .init ops = some s) (hq : RmQuiet s) {b : Nat}
    (hc : (s.be b).created = true) (hk : (s.be b).kept = false) (h0 : (s.be b).held = 0) : (s.be b).freed = true := by
  have hi := rmReach_inv ⟨ops, e⟩
  cases hf : (s.be b).freed with
  | true => rfl
  | false =>
    have := seen_quiet (rmRun_seen hh rmInit rmSeen_init e) hi hq ((hi.rem b).2 ⟨hc, hk, hf⟩)
    omega

/-- Whatever happened before, backends that were left over are released after the next look-up that gives addresses, even if it changes nothing.
Missing: the same histories from then on. -/
theorem C86_next_partial {s0 s1 s : RmSt} (h : RmReach s0) (hl : ∀ r, RmThr.scan r ∉ s0.thr) {bs : List Nat} (e1 : rmStep s0 (.sweep bs true) = some s1) {ops : List RmOp}
    (hh : Heard s1 ops) (e : rmRun s1 ops = some s) (hq : RmQuiet s) {b : Nat} (hc : (s.be b).created = true) (hk : (s.be b).kept = false) (h0 : (s.be b).held = 0) :
    (s.be b).freed = true := by
  have hi0 := rmReach_inv h
  have hlock : s0.locked = false := by
    cases hl1 : s0.locked with
    | false => rfl
    | true =>
      obtain ⟨r, hr⟩ := locked_iff hl1
      exact absurd hr (hl r)
  obtain ⟨s1', e1', hi1⟩ := rmStep_inv hi0 (.sweep bs true)
  rw [e1] at e1'
  cases e1'
  obtain ⟨s', e', hi⟩ := rmRun_inv ops hi1
  rw [e] at e'
  cases e'
  cases hf : (s.be b).freed with
  | true => rfl
  | false =>
    have := seen_quiet (rmRun_seen hh hi1 (seen_started hi0 hlock e1) e) hi hq ((hi.rem b).2 ⟨hc, hk, hf⟩)
    omega

/-! A case that meets the hypotheses: a backend is removed while a request uses it; the remover waits; the request ends; the remover releases the backend and ends. -/

def sampleRemoval : List RmOp := [.create 7, .create 8, .take 7, .sweep [7] true, .lock 0, .look 0, .last 0, .put 7 0, .lock 0, .look 0, .last 0]

example : (rmRun .init sampleRemoval).map (fun s => (s.be 7, s.be 8, s.rem, s.thr)) =
    some (⟨true, false, 0, 0, true⟩, ⟨true, true, 1, 0, false⟩, [], [.done]) := by decide +kernel

theorem heard_step {s s' : RmSt} {o : RmOp} {t : List RmOp} (e : rmStep s o = some s') (h1 : ¬ Unheard s o) (h2 : ¬ NotStarted o) (h : Heard s' t) : Heard s (o :: t) :=
  .cons h1 h2 fun s'' e' => by rw [e] at e'; cases e'; exact h

example : Heard .init sampleRemoval := by
  refine heard_step rfl id id ?_
  refine heard_step rfl id id ?_
  refine heard_step rfl id id ?_
  refine heard_step rfl id (by simp [NotStarted]) ?_
  refine heard_step rfl id id ?_
  refine heard_step rfl id id ?_
  refine heard_step rfl id id ?_
  refine heard_step rfl ?_ id ?_
  · rintro ⟨_, ⟨r, hr, _⟩, _⟩
    simp [RmSt.set, RmSt.init] at hr
  refine heard_step rfl id id ?_
  refine heard_step rfl id id ?_
  refine heard_step rfl id id ?_
  exact .nil _

/-- What is seen of a state -/
def rmView (s : RmSt) (b : Nat) : RmBe × List Nat × List RmThr := (s.be b, s.rem, s.thr)

/-- A request that ends while the remover is at the end of the list: the signal is lost.  The backend is never released, unless something else wakes
the remover, which waits. -/
theorem C86_lost_fails : ∃ s, RmReach s ∧ RmQuiet s ∧ (s.be 7).created = true ∧ (s.be 7).kept = false ∧ (s.be 7).held = 0 ∧ (s.be 7).freed = false ∧ s.thr = [.waiting] := by
  have e : (rmRun .init [.create 7, .take 7, .sweep [7] true, .lock 0, .look 0, .put 7 0, .last 0]).map (rmView · 7) =
      some (⟨true, false, 0, 0, false⟩, [7], [.waiting]) := by decide +kernel
  obtain ⟨s, e1, e2⟩ := Option.map_eq_some_iff.1 e
  have hb : s.be 7 = ⟨true, false, 0, 0, false⟩ := congrArg (·.1) e2
  have ht : s.thr = [.waiting] := congrArg (·.2.2) e2
  refine ⟨s, ⟨_, e1⟩, ?_, by rw [hb], by rw [hb], by rw [hb], by rw [hb], ht⟩
  intro t h
  rw [ht] at h
  exact Or.inl (List.mem_singleton.1 h)

/-- Backends removed because of SRV records that are gone, or because a dynamic backend is disabled: no thread is started to release them. -/
theorem C86_sweep_fails : ∃ s, RmReach s ∧ RmQuiet s ∧ (s.be 7).created = true ∧ (s.be 7).kept = false ∧ (s.be 7).held = 0 ∧ (s.be 7).freed = false ∧ s.thr = [] := by
  have e : (rmRun .init [.create 7, .sweep [7] false]).map (rmView · 7) = some (⟨true, false, 0, 0, false⟩, [7], []) := by decide +kernel
  obtain ⟨s, e1, e2⟩ := Option.map_eq_some_iff.1 e
  have hb : s.be 7 = ⟨true, false, 0, 0, false⟩ := congrArg (·.1) e2
  have ht : s.thr = [] := congrArg (·.2.2) e2
  exact ⟨s, ⟨_, e1⟩, fun t h => (by rw [ht] at h; cases h), by rw [hb], by rw [hb], by rw [hb], by rw [hb], ht⟩

theorem rmRun_append {s s1 : RmSt} : ∀ {a b : List RmOp}, rmRun s a = some s1 → rmRun s (a ++ b) = rmRun s1 b
  | [], _, e => by cases e; rfl
  | o :: t, b, e => by
    rw [List.cons_append]
    unfold rmRun at e
    cases e1 : rmStep s o with
    | none => rw [e1] at e; cases e
    | some s2 =>
      rw [e1] at e
      refine Eq.trans ?_ (rmRun_append (b := b) e)
      conv => lhs; unfold rmRun
      rw [e1]

theorem replicate_set_end {n : Nat} {a t u : RmThr} : (List.replicate n a ++ [t]).set n u = List.replicate n a ++ [u] := by
  rw [List.set_append_right _ _ (by simp)]
  simp

theorem replicate_get_end {n : Nat} {a t : RmThr} : (List.replicate n a ++ [t])[n]? = some t := by
  rw [List.getElem?_append_right (by simp)]
  simp

theorem replicate_unlocked {b : Nat → RmBe} {r : List Nat} {n : Nat} {l : List RmThr} (h : RmSt.locked ⟨b, r, l⟩ = false) : RmSt.locked ⟨b, r, List.replicate n .waiting ++ l⟩ = false := by
  unfold RmSt.locked at h ⊢
  dsimp only at h ⊢
  rw [List.any_append, h]
  simp [List.any_replicate]

/-- One look-up more while a removed backend is in use -/
theorem pile_up {b : Nat → RmBe} (hb : b 7 = ⟨true, false, 1, 1, false⟩) (n : Nat) :
    rmRun ⟨b, [7], List.replicate n .waiting⟩ [.sweep [] true, .lock n, .look n, .last n] = some ⟨b, [7], List.replicate (n + 1) .waiting⟩ := by
  have hl0 : RmSt.locked ⟨b, [7], List.replicate n .waiting⟩ = false := by
    have := replicate_unlocked (b := b) (r := [7]) (n := n) (l := []) rfl
    rwa [List.append_nil] at this
  have hl1 : RmSt.locked ⟨b, [7], List.replicate n .waiting ++ [.ready]⟩ = false := replicate_unlocked rfl
  have e1 : rmStep ⟨b, [7], List.replicate n .waiting⟩ (.sweep [] true) = some ⟨b, [7], List.replicate n .waiting ++ [.ready]⟩ := by
    unfold rmStep
    dsimp only
    rw [hl0]
    rfl
  have e2 : rmStep ⟨b, [7], List.replicate n .waiting ++ [.ready]⟩ (.lock n) = some ⟨b, [7], List.replicate n .waiting ++ [.scan [7]]⟩ := by
    unfold rmStep
    dsimp only
    rw [if_pos ⟨hl1, replicate_get_end⟩, replicate_set_end]
  have e3 : rmStep ⟨b, [7], List.replicate n .waiting ++ [.scan [7]]⟩ (.look n) = some ⟨b, [7], List.replicate n .waiting ++ [.scan []]⟩ := by
    unfold rmStep
    dsimp only
    rw [replicate_get_end]
    dsimp only
    rw [if_neg (by rw [hb]; exact Bool.false_ne_true), if_neg (by rw [hb]; exact Nat.one_ne_zero), replicate_set_end]
  have e4 : rmStep ⟨b, [7], List.replicate n .waiting ++ [.scan []]⟩ (.last n) = some ⟨b, [7], List.replicate n .waiting ++ [.waiting]⟩ := by
    unfold rmStep
    dsimp only
    rw [replicate_get_end]
    dsimp only
    rw [if_neg (by simp), replicate_set_end]
  simp only [rmRun, e1, e2, e3, e4]
  rw [List.replicate_succ']

theorem piled {s : RmSt} (hb : s.be 7 = ⟨true, false, 1, 1, false⟩) (hr : s.rem = [7]) (ht : s.thr = [.waiting]) : ∀ n, ∃ ops, rmRun s ops = some ⟨s.be, [7], List.replicate (n + 1) .waiting⟩
  | 0 => ⟨[], by cases s; cases hr; cases ht; rfl⟩
  | n + 1 => by
    obtain ⟨ops, e⟩ := piled hb hr ht n
    exact ⟨_, (rmRun_append e).trans (pile_up hb (n + 1))⟩

/-- As long as a request uses a backend that was removed, each look-up starts another thread.  When the request ends, one of them releases the backend and ends.  The
others wait, though there is nothing to be released any more: for any number `n`, so many threads can be left. -/
theorem C86_threads_fails (n : Nat) : ∃ s, RmReach s ∧ RmQuiet s ∧ s.rem = [] ∧ s.thr = .done :: List.replicate n .waiting := by
  have e : (rmRun .init [.create 7, .take 7, .sweep [7] true, .lock 0, .look 0, .last 0]).map (rmView · 7) = some (⟨true, false, 1, 1, false⟩, [7], [.waiting]) := by decide +kernel
  obtain ⟨s, e1, e2⟩ := Option.map_eq_some_iff.1 e
  have hb : s.be 7 = ⟨true, false, 1, 1, false⟩ := congrArg (·.1) e2
  obtain ⟨ops, e3⟩ := piled hb (congrArg (·.2.1) e2) (congrArg (·.2.2) e2) n
  have hl : RmSt.locked ⟨(s.set 7 ⟨true, false, 0, 0, false⟩).be, [7], .ready :: List.replicate n .waiting⟩ = false := by
    unfold RmSt.locked
    simp [List.any_replicate]
  have f1 : rmStep ⟨s.be, [7], List.replicate (n + 1) .waiting⟩ (.put 7 0) = some ⟨(s.set 7 ⟨true, false, 0, 0, false⟩).be, [7], .ready :: List.replicate n .waiting⟩ := by
    unfold rmStep
    dsimp only
    rw [hb]
    dsimp only
    rw [if_neg (by omega), if_neg (by rintro (h | h) <;> cases h), if_pos rfl]
    unfold rmSignal RmSt.set
    simp [List.replicate_succ]
  have f2 : rmStep ⟨(s.set 7 ⟨true, false, 0, 0, false⟩).be, [7], .ready :: List.replicate n .waiting⟩ (.lock 0) =
      some ⟨(s.set 7 ⟨true, false, 0, 0, false⟩).be, [7], .scan [7] :: List.replicate n .waiting⟩ := by
    unfold rmStep
    dsimp only
    rw [if_pos ⟨hl, rfl⟩]
    rfl
  have f3 : ∃ be, rmStep ⟨(s.set 7 ⟨true, false, 0, 0, false⟩).be, [7], .scan [7] :: List.replicate n .waiting⟩ (.look 0) = some ⟨be, [], .scan [] :: List.replicate n .waiting⟩ := by
    unfold rmStep
    dsimp only
    exact ⟨_, rfl⟩
  obtain ⟨be, f3⟩ := f3
  have f4 : rmStep ⟨be, [], .scan [] :: List.replicate n .waiting⟩ (.last 0) = some ⟨be, [], .done :: List.replicate n .waiting⟩ := rfl
  refine ⟨⟨be, [], .done :: List.replicate n .waiting⟩, ⟨[.create 7, .take 7, .sweep [7] true, .lock 0, .look 0, .last 0] ++ (ops ++ [.put 7 0, .lock 0, .look 0, .last 0]), ?_⟩, ?_, rfl, rfl⟩
  · rw [rmRun_append e1, rmRun_append e3]
    simp only [rmRun, f1, f2, f3, f4]
  · intro t h
    rcases List.mem_cons.1 h with h | h
    · exact Or.inr h
    · exact Or.inl (List.eq_of_mem_replicate h)

end Pound.Props
