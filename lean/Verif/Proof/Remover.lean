import Verif.Spec.Remover

/-! The remover threads: what holds in all histories -/

namespace Pound
open Spec

/-- What holds in all states -/
structure RmInv (s : RmSt) : Prop where
  ref : ∀ b, (s.be b).ref = (s.be b).held + if (s.be b).kept then 1 else 0
  kept : ∀ b, (s.be b).kept = true → (s.be b).created = true ∧ (s.be b).freed = false
  fresh : ∀ b, (s.be b).created = false → (s.be b).held = 0 ∧ (s.be b).freed = false
  rem : ∀ b, b ∈ s.rem ↔ (s.be b).created = true ∧ (s.be b).kept = false ∧ (s.be b).freed = false
  nodup : s.rem.Nodup
  freed : ∀ b, (s.be b).freed = true → (s.be b).held = 0 ∧ (s.be b).kept = false
  scan : ∀ (k : Nat) (r : List Nat), s.thr[k]? = some (.scan r) → r.Nodup ∧ ∀ b ∈ r, b ∈ s.rem
  one : ∀ (k j : Nat) (r q : List Nat), s.thr[k]? = some (.scan r) → s.thr[j]? = some (.scan q) → k = j

theorem rmInit : RmInv RmSt.init where
  ref := fun _ => rfl
  kept := fun _ h => nomatch h
  fresh := fun _ _ => ⟨rfl, rfl⟩
  rem := fun b => ⟨(fun h => nomatch h), (fun h => nomatch h.1)⟩
  nodup := List.nodup_nil
  freed := fun _ h => nomatch h
  scan := fun _ _ h => by cases h
  one := fun _ _ _ _ h => by cases h

theorem rm_set_self (s : RmSt) (b : Nat) (r : RmBe) : (s.set b r).be b = r := if_pos rfl
theorem rm_set_other (s : RmSt) {b x : Nat} (r : RmBe) (h : x ≠ b) : (s.set b r).be x = s.be x := if_neg h

theorem not_locked {s : RmSt} (h : s.locked = false) (k : Nat) (r : List Nat) : s.thr[k]? ≠ some (.scan r) := by
  intro e
  have := List.any_eq_false.1 h _ (List.mem_of_getElem? e)
  exact this rfl

theorem locked_iff {s : RmSt} (h : s.locked = true) : ∃ r, RmThr.scan r ∈ s.thr := by
  obtain ⟨t, ht, e⟩ := List.any_eq_true.1 h
  cases t with
  | scan r => exact ⟨r, ht⟩
  | ready => cases e
  | waiting => cases e
  | done => cases e

/-- Signals make no thread scan. -/
theorem signal_scan {w : Nat} {ts : List RmThr} {k : Nat} {r : List Nat} : (rmSignal w ts)[k]? = some (.scan r) ↔ ts[k]? = some (.scan r) := by
  have aux : ∀ j : Nat, ts[j]? = some .waiting → ((ts.set j .ready)[k]? = some (.scan r) ↔ ts[k]? = some (.scan r)) := by
    intro j hj
    rw [List.getElem?_set]
    by_cases h : j = k
    · subst h
      rw [if_pos rfl]
      constructor
      · intro e; split at e <;> cases e
      · intro e; rw [hj] at e; cases e
    · rw [if_neg h]
  unfold rmSignal
  split
  · rename_i h; exact aux w h
  · split
    · rename_i j hj
      refine aux j ?_
      obtain ⟨hl, h1, _⟩ := List.findIdx?_eq_some_iff_getElem.1 hj
      rw [List.getElem?_eq_getElem hl]
      exact congrArg some (of_decide_eq_true h1)
    · exact Iff.rfl

theorem rmSweep1_inv {s s' : RmSt} {b : Nat} (hi : RmInv s) (hl : s.locked = false) (e : rmSweep1 s b = some s') : RmInv s' ∧ s'.thr = s.thr := by
  unfold rmSweep1 at e
  split at e
  · rename_i hk
    have hc := hi.kept b hk
    have href := hi.ref b
    rw [if_pos hk] at href
    have hb : b ∉ s.rem := fun h => by have := ((hi.rem b).1 h).2.1; rw [hk] at this; cases this
    split at e
    · cases e
    · cases e
      refine ⟨⟨?_, ?_, ?_, ?_, ?_, ?_, ?_, ?_⟩, rfl⟩
      · intro x
        show ((s.set b _).be x).ref = ((s.set b _).be x).held + if ((s.set b _).be x).kept then 1 else 0
        by_cases h : x = b
        · subst h; rw [rm_set_self]; simp only [Bool.false_eq_true, if_false]; omega
        · rw [rm_set_other s _ h]; exact hi.ref x
      · intro x hx
        by_cases h : x = b
        · subst h; rw [show (RmSt.be _ x) = _ from rm_set_self s x _] at hx; cases hx
        · rw [show (RmSt.be _ x) = _ from rm_set_other s _ h] at hx ⊢; exact hi.kept x hx
      · intro x hx
        by_cases h : x = b
        · subst h; rw [show (RmSt.be _ x) = _ from rm_set_self s x _] at hx; dsimp only at hx; rw [hc.1] at hx; cases hx
        · rw [show (RmSt.be _ x) = _ from rm_set_other s _ h] at hx ⊢; exact hi.fresh x hx
      · intro x
        rw [show (x ∈ RmSt.rem _) = (x ∈ s.rem ++ [b]) from rfl, List.mem_append, List.mem_singleton]
        by_cases h : x = b
        · subst h; rw [show (RmSt.be _ x) = _ from rm_set_self s x _]; simp [hc]
        · rw [show (RmSt.be _ x) = _ from rm_set_other s _ h, hi.rem x]; simp [h]
      · exact List.nodup_append.2 ⟨hi.nodup, (by simp : [b].Nodup), fun x hx y hy => by rw [List.mem_singleton] at hy; subst hy; intro h; subst h; exact hb hx⟩
      · intro x hx
        by_cases h : x = b
        · subst h; rw [show (RmSt.be _ x) = _ from rm_set_self s x _] at hx; dsimp only at hx; rw [hc.2] at hx; cases hx
        · rw [show (RmSt.be _ x) = _ from rm_set_other s _ h] at hx ⊢; exact hi.freed x hx
      · intro k r h; exact absurd h (not_locked hl k r)
      · intro k j r q h; exact absurd h (not_locked hl k r)
  · cases e; exact ⟨hi, rfl⟩

theorem rmSweep1_total {s : RmSt} (hi : RmInv s) (b : Nat) : ∃ s', rmSweep1 s b = some s' := by
  unfold rmSweep1
  split
  · rename_i hk
    have href := hi.ref b
    rw [if_pos hk] at href
    rw [if_neg (by omega)]
    exact ⟨_, rfl⟩
  · exact ⟨_, rfl⟩

theorem locked_congr {s s' : RmSt} (h : s'.thr = s.thr) : s'.locked = s.locked := by unfold RmSt.locked; rw [h]

theorem rmSweep_inv : ∀ (bs : List Nat) {s : RmSt}, RmInv s → s.locked = false → ∃ s', rmSweep s bs = some s' ∧ RmInv s' ∧ s'.thr = s.thr
  | [], s, hi, _ => ⟨s, rfl, hi, rfl⟩
  | b :: t, s, hi, hl => by
    obtain ⟨s1, e1⟩ := rmSweep1_total hi b
    obtain ⟨h1, h2⟩ := rmSweep1_inv hi hl e1
    obtain ⟨s2, e2, h3, h4⟩ := rmSweep_inv t h1 ((locked_congr h2).trans hl)
    refine ⟨s2, ?_, h3, h4.trans h2⟩
    unfold rmSweep
    rw [e1]
    exact e2

/-- Scanning threads after one changes -/
theorem set_scan {ts : List RmThr} {k j : Nat} {t : RmThr} {r : List Nat} (h : (ts.set k t)[j]? = some (.scan r)) : (j = k ∧ t = .scan r) ∨ (j ≠ k ∧ ts[j]? = some (.scan r)) := by
  rw [List.getElem?_set] at h
  by_cases hk : k = j
  · rw [if_pos hk] at h
    split at h
    · cases h; exact Or.inl ⟨hk.symm, rfl⟩
    · cases h
  · rw [if_neg hk] at h
    exact Or.inr ⟨Ne.symm hk, h⟩

/-- Threads change without scanning more. -/
theorem RmInv.thr {s : RmSt} (hi : RmInv s) {ts : List RmThr} (h : ∀ (k : Nat) (r : List Nat), ts[k]? = some (.scan r) → s.thr[k]? = some (.scan r)) : RmInv { s with thr := ts } :=
  { hi with
    scan := fun k r e => hi.scan k r (h k r e)
    one := fun k j r q e f => hi.one k j r q (h k r e) (h j q f) }

theorem rmStep_inv {s : RmSt} (hi : RmInv s) (o : RmOp) : ∃ s', rmStep s o = some s' ∧ RmInv s' := by
  cases o with
  | create b =>
    unfold rmStep
    dsimp only
    split
    · exact ⟨s, rfl, hi⟩
    · rename_i hc
      have hc : (s.be b).created = false := by simpa using hc
      have hf := hi.fresh b hc
      have hr : b ∉ s.rem := fun h => by have := ((hi.rem b).1 h).1; rw [hc] at this; cases this
      refine ⟨_, rfl, ⟨?_, ?_, ?_, ?_, hi.nodup, ?_, hi.scan, hi.one⟩⟩
      · intro x
        by_cases h : x = b
        · subst h; rw [rm_set_self]; rfl
        · rw [rm_set_other s _ h]; exact hi.ref x
      · intro x hx
        by_cases h : x = b
        · subst h; rw [rm_set_self]; exact ⟨rfl, rfl⟩
        · rw [rm_set_other s _ h] at hx ⊢; exact hi.kept x hx
      · intro x hx
        by_cases h : x = b
        · subst h; rw [rm_set_self] at hx; cases hx
        · rw [rm_set_other s _ h] at hx ⊢; exact hi.fresh x hx
      · intro x
        show x ∈ s.rem ↔ _
        by_cases h : x = b
        · subst h; rw [rm_set_self]; simp [hr]
        · rw [rm_set_other s _ h]; exact hi.rem x
      · intro x hx
        by_cases h : x = b
        · subst h; rw [rm_set_self] at hx; cases hx
        · rw [rm_set_other s _ h] at hx ⊢; exact hi.freed x hx
  | take b =>
    unfold rmStep
    dsimp only
    split
    · rename_i hc
      have hk := hi.kept b hc.2
      have href := hi.ref b
      rw [if_neg (by rw [hk.2]; exact Bool.false_ne_true)]
      refine ⟨_, rfl, ⟨?_, ?_, ?_, ?_, hi.nodup, ?_, hi.scan, hi.one⟩⟩
      · intro x
        by_cases h : x = b
        · subst h; rw [rm_set_self]; dsimp only; omega
        · rw [rm_set_other s _ h]; exact hi.ref x
      · intro x hx
        by_cases h : x = b
        · subst h; rw [rm_set_self]; exact hk
        · rw [rm_set_other s _ h] at hx ⊢; exact hi.kept x hx
      · intro x hx
        by_cases h : x = b
        · subst h; rw [rm_set_self] at hx; dsimp only at hx; rw [hk.1] at hx; cases hx
        · rw [rm_set_other s _ h] at hx ⊢; exact hi.fresh x hx
      · intro x
        show x ∈ s.rem ↔ _
        by_cases h : x = b
        · subst h; rw [rm_set_self]; exact hi.rem x
        · rw [rm_set_other s _ h]; exact hi.rem x
      · intro x hx
        by_cases h : x = b
        · subst h; rw [rm_set_self] at hx; dsimp only at hx; rw [hk.2] at hx; cases hx
        · rw [rm_set_other s _ h] at hx ⊢; exact hi.freed x hx
    · exact ⟨s, rfl, hi⟩
  | put b w =>
    unfold rmStep
    dsimp only
    split
    · exact ⟨s, rfl, hi⟩
    · rename_i hh
      have href := hi.ref b
      have hf : (s.be b).freed = false := by
        cases hf : (s.be b).freed with
        | false => rfl
        | true => exact absurd (hi.freed b hf).1 hh
      rw [if_neg (by rw [hf]; rintro (h | h); cases h; omega)]
      have hi' : RmInv (s.set b { s.be b with ref := (s.be b).ref - 1, held := (s.be b).held - 1 }) := by
        refine ⟨?_, ?_, ?_, ?_, hi.nodup, ?_, hi.scan, hi.one⟩
        · intro x
          by_cases h : x = b
          · subst h; rw [rm_set_self]; dsimp only; omega
          · rw [rm_set_other s _ h]; exact hi.ref x
        · intro x hx
          by_cases h : x = b
          · subst h; rw [rm_set_self] at hx ⊢; exact hi.kept x hx
          · rw [rm_set_other s _ h] at hx ⊢; exact hi.kept x hx
        · intro x hx
          by_cases h : x = b
          · subst h; rw [rm_set_self] at hx; exact absurd (hi.fresh x hx).1 hh
          · rw [rm_set_other s _ h] at hx ⊢; exact hi.fresh x hx
        · intro x
          show x ∈ s.rem ↔ _
          by_cases h : x = b
          · subst h; rw [rm_set_self]; exact hi.rem x
          · rw [rm_set_other s _ h]; exact hi.rem x
        · intro x hx
          by_cases h : x = b
          · subst h; rw [rm_set_self] at hx; dsimp only at hx; rw [hf] at hx; cases hx
          · rw [rm_set_other s _ h] at hx ⊢; exact hi.freed x hx
      split
      · exact ⟨_, rfl, hi'.thr fun k r h => signal_scan.1 h⟩
      · exact ⟨_, rfl, hi'⟩
  | sweep bs start =>
    unfold rmStep
    dsimp only
    split
    · exact ⟨s, rfl, hi⟩
    · rename_i hl
      have hl : s.locked = false := by simpa using hl
      obtain ⟨s', e, h1, h2⟩ := rmSweep_inv bs hi hl
      rw [e]
      dsimp only
      split
      · refine ⟨_, rfl, h1.thr fun k r h => ?_⟩
        rw [List.getElem?_append] at h
        split at h
        · exact h
        · have := List.mem_of_getElem? h
          simp at this
      · exact ⟨_, rfl, h1⟩
  | lock k =>
    unfold rmStep
    dsimp only
    split
    · rename_i hc
      refine ⟨_, rfl, { hi with scan := ?_, one := ?_ }⟩
      · intro j r h
        rcases set_scan h with ⟨_, h⟩ | ⟨_, h⟩
        · cases h; exact ⟨hi.nodup, fun _ h => h⟩
        · exact absurd h (not_locked hc.1 j r)
      · intro i j r q h h'
        rcases set_scan h with ⟨rfl, _⟩ | ⟨_, h⟩
        · rcases set_scan h' with ⟨rfl, _⟩ | ⟨_, h'⟩
          · rfl
          · exact absurd h' (not_locked hc.1 j q)
        · exact absurd h (not_locked hc.1 i r)
    · exact ⟨s, rfl, hi⟩
  | look k =>
    unfold rmStep
    dsimp only
    cases hk : s.thr[k]? with
    | none => exact ⟨s, rfl, hi⟩
    | some t =>
      cases t with
      | ready => exact ⟨s, rfl, hi⟩
      | waiting => exact ⟨s, rfl, hi⟩
      | done => exact ⟨s, rfl, hi⟩
      | scan r =>
        cases r with
        | nil => exact ⟨s, rfl, hi⟩
        | cons b r =>
          dsimp only
          obtain ⟨hn, hm⟩ := hi.scan k _ hk
          have hb := (hi.rem b).1 (hm b (by simp))
          have hone : ∀ (j : Nat) (q : List Nat), (s.thr.set k (.scan r))[j]? = some (.scan q) → j = k ∧ q = r := by
            intro j q h
            rcases set_scan h with ⟨h1, h2⟩ | ⟨h1, h2⟩
            · cases h2; exact ⟨h1, rfl⟩
            · exact absurd (hi.one j k _ _ h2 hk) h1
          have hone' : ∀ (i j : Nat) (p q : List Nat), (s.thr.set k (.scan r))[i]? = some (.scan p) → (s.thr.set k (.scan r))[j]? = some (.scan q) → i = j :=
            fun i j p q h h' => (hone i p h).1.trans (hone j q h').1.symm
          rw [if_neg (by rw [hb.2.2]; exact Bool.false_ne_true)]
          split
          · rename_i h0
            have href := hi.ref b
            refine ⟨_, rfl, ⟨?_, ?_, ?_, ?_, hi.nodup.erase b, ?_, ?_, hone'⟩⟩
            · intro x
              show ((s.set b _).be x).ref = ((s.set b _).be x).held + if ((s.set b _).be x).kept then 1 else 0
              by_cases h : x = b
              · subst h; rw [rm_set_self]; exact hi.ref x
              · rw [rm_set_other s _ h]; exact hi.ref x
            · intro x hx
              by_cases h : x = b
              · subst h; rw [show (RmSt.be _ x) = _ from rm_set_self s x _] at hx; dsimp only at hx; rw [hb.2.1] at hx; cases hx
              · rw [show (RmSt.be _ x) = _ from rm_set_other s _ h] at hx ⊢; exact hi.kept x hx
            · intro x hx
              by_cases h : x = b
              · subst h; rw [show (RmSt.be _ x) = _ from rm_set_self s x _] at hx; dsimp only at hx; rw [hb.1] at hx; cases hx
              · rw [show (RmSt.be _ x) = _ from rm_set_other s _ h] at hx ⊢; exact hi.fresh x hx
            · intro x
              rw [show (x ∈ RmSt.rem _) = (x ∈ s.rem.erase b) from rfl, hi.nodup.mem_erase_iff]
              by_cases h : x = b
              · subst h; rw [show (RmSt.be _ x) = _ from rm_set_self s x _]; simp
              · rw [show (RmSt.be _ x) = _ from rm_set_other s _ h, hi.rem x]; simp [h]
            · intro x hx
              by_cases h : x = b
              · subst h; rw [show (RmSt.be _ x) = _ from rm_set_self s x _]; exact ⟨by dsimp only; omega, hb.2.1⟩
              · rw [show (RmSt.be _ x) = _ from rm_set_other s _ h] at hx ⊢; exact hi.freed x hx
            · intro j q h
              obtain ⟨_, rfl⟩ := hone j q h
              rw [List.nodup_cons] at hn
              exact ⟨hn.2, fun x hx => (hi.nodup.mem_erase_iff).2 ⟨fun h => by subst h; exact hn.1 hx, hm x (by simp [hx])⟩⟩
          · refine ⟨_, rfl, { hi with scan := ?_, one := hone' }⟩
            intro j q h
            obtain ⟨_, rfl⟩ := hone j q h
            rw [List.nodup_cons] at hn
            exact ⟨hn.2, fun x hx => hm x (by simp [hx])⟩
  | last k =>
    unfold rmStep
    dsimp only
    split
    · refine ⟨_, rfl, hi.thr fun j r h => ?_⟩
      rcases set_scan h with ⟨_, h⟩ | ⟨_, h⟩
      · split at h <;> cases h
      · exact h
    · exact ⟨s, rfl, hi⟩
  | wake k =>
    unfold rmStep
    dsimp only
    split
    · refine ⟨_, rfl, hi.thr fun j r h => ?_⟩
      rcases set_scan h with ⟨_, h⟩ | ⟨_, h⟩
      · cases h
      · exact h
    · exact ⟨s, rfl, hi⟩

theorem rmRun_inv : ∀ (ops : List RmOp) {s : RmSt}, RmInv s → ∃ s', rmRun s ops = some s' ∧ RmInv s'
  | [], s, hi => ⟨s, rfl, hi⟩
  | o :: t, s, hi => by
    obtain ⟨s1, e1, h1⟩ := rmStep_inv hi o
    obtain ⟨s2, e2, h2⟩ := rmRun_inv t h1
    refine ⟨s2, ?_, h2⟩
    unfold rmRun
    rw [e1]
    exact e2

theorem rmReach_inv {s : RmSt} (h : RmReach s) : RmInv s := by
  obtain ⟨ops, e⟩ := h
  obtain ⟨s', e', h'⟩ := rmRun_inv ops rmInit
  rw [e] at e'
  cases e'
  exact h'

/-! ### Release in the end -/

/-- Backends without references will be seen by a thread, and somebody listens as long as there are backends to be removed. -/
structure RmSeen (s : RmSt) : Prop where
  seen : ∀ b ∈ s.rem, (s.be b).ref = 0 → RmThr.ready ∈ s.thr ∨ ∃ r, RmThr.scan r ∈ s.thr ∧ b ∈ r
  live : s.rem ≠ [] → RmThr.ready ∈ s.thr ∨ RmThr.waiting ∈ s.thr ∨ ∃ r, RmThr.scan r ∈ s.thr

theorem rmSeen_init : RmSeen RmSt.init := ⟨(fun _ h => nomatch h), fun h => absurd rfl h⟩

theorem mem_set_ready {ts : List RmThr} {k : Nat} (h : ts[k]? = some .waiting) : RmThr.ready ∈ ts.set k .ready := by
  obtain ⟨hl, _⟩ := List.getElem?_eq_some_iff.1 h
  exact List.mem_set hl .ready

/-- Threads that do not wait stay what they are. -/
theorem mem_set_of_ne {ts : List RmThr} {k : Nat} {t u v : RmThr} (hk : ts[k]? = some v) (h : t ∈ ts) (hne : t ≠ v) : t ∈ ts.set k u := by
  obtain ⟨j, hj⟩ := List.getElem?_of_mem h
  refine List.mem_of_getElem? (i := j) ?_
  rw [List.getElem?_set]
  by_cases hkj : k = j
  · subst hkj
    rw [hk] at hj
    cases hj
    exact absurd rfl hne
  · rw [if_neg hkj]; exact hj

theorem signal_keeps {w : Nat} {ts : List RmThr} {t : RmThr} (h : t ∈ ts) (hne : t ≠ .waiting) : t ∈ rmSignal w ts := by
  unfold rmSignal
  split
  · rename_i hw; exact mem_set_of_ne hw h hne
  · split
    · rename_i j hj
      obtain ⟨hl, h1, _⟩ := List.findIdx?_eq_some_iff_getElem.1 hj
      refine mem_set_of_ne (v := .waiting) ?_ h hne
      rw [List.getElem?_eq_getElem hl]
      exact congrArg some (of_decide_eq_true h1)
    · exact h

theorem signal_wakes {w : Nat} {ts : List RmThr} (h : RmThr.waiting ∈ ts) : RmThr.ready ∈ rmSignal w ts := by
  unfold rmSignal
  split
  · rename_i hw; exact mem_set_ready hw
  · split
    · rename_i j hj
      obtain ⟨hl, h1, _⟩ := List.findIdx?_eq_some_iff_getElem.1 hj
      refine mem_set_ready ?_
      rw [List.getElem?_eq_getElem hl]
      exact congrArg some (of_decide_eq_true h1)
    · rename_i hj
      have := List.findIdx?_eq_none_iff.1 hj _ h
      simp at this

theorem seen_of_ready {s : RmSt} (h : RmThr.ready ∈ s.thr) : RmSeen s := ⟨fun _ _ _ => Or.inl h, fun _ => Or.inl h⟩

theorem seen_started {s s' : RmSt} (hi : RmInv s) (hl : s.locked = false) {bs : List Nat} (e : rmStep s (.sweep bs true) = some s') : RmSeen s' := by
  unfold rmStep at e
  dsimp only at e
  rw [if_neg (by rw [hl]; exact Bool.false_ne_true)] at e
  obtain ⟨s1, e1, h1, h2⟩ := rmSweep_inv bs hi hl
  rw [e1] at e
  dsimp only at e
  split at e
  · cases e
    exact seen_of_ready (by simp)
  · rename_i hn
    have : s1.rem = [] := Classical.byContradiction fun h => hn ⟨rfl, h⟩
    cases e
    exact ⟨fun b hb => absurd hb (by rw [this]; exact List.not_mem_nil), fun h => absurd this h⟩

theorem rmStep_seen {s s' : RmSt} {o : RmOp} (hi : RmInv s) (hs : RmSeen s) (h1 : ¬ Unheard s o) (h2 : ¬ NotStarted o) (e : rmStep s o = some s') : RmSeen s' := by
  cases o with
  | create b =>
    unfold rmStep at e
    dsimp only at e
    split at e
    · cases e; exact hs
    · rename_i hc
      have hc : (s.be b).created = false := by simpa using hc
      cases e
      refine ⟨fun x hx h0 => ?_, hs.live⟩
      by_cases h : x = b
      · subst h; have := ((hi.rem x).1 hx).1; rw [hc] at this; cases this
      · rw [rm_set_other s _ h] at h0; exact hs.seen x hx h0
  | take b =>
    unfold rmStep at e
    dsimp only at e
    split at e
    · rename_i hc
      split at e
      · cases e
      · cases e
        refine ⟨fun x hx h0 => ?_, hs.live⟩
        by_cases h : x = b
        · subst h; have := ((hi.rem x).1 hx).2.1; rw [hc.2] at this; cases this
        · rw [rm_set_other s _ h] at h0; exact hs.seen x hx h0
    · cases e; exact hs
  | put b w =>
    unfold rmStep at e
    dsimp only at e
    split at e
    · cases e; exact hs
    · split at e
      · cases e
      · split at e
        · rename_i hr
          cases e
          by_cases hw : RmThr.waiting ∈ s.thr
          · exact seen_of_ready (signal_wakes hw)
          · by_cases hready : RmThr.ready ∈ s.thr
            · exact seen_of_ready (signal_keeps hready (by simp))
            · refine ⟨fun x hx h0 => ?_, fun hne => ?_⟩
              · by_cases h : x = b
                · subst h
                  rcases hs.live (List.ne_nil_of_mem hx) with h | h | ⟨r, h⟩
                  · exact absurd h hready
                  · exact absurd h hw
                  · refine Or.inr ⟨r, signal_keeps h (by simp), ?_⟩
                    by_cases hxr : x ∈ r
                    · exact hxr
                    · exact absurd ⟨hr, ⟨r, h, hxr⟩, hw, hready⟩ h1
                · have h0 : ((s.set b { s.be b with ref := (s.be b).ref - 1, held := (s.be b).held - 1 }).be x).ref = 0 := h0
                  rw [rm_set_other s _ h] at h0
                  rcases hs.seen x hx h0 with h | ⟨r, h, hxr⟩
                  · exact absurd h hready
                  · exact Or.inr ⟨r, signal_keeps h (by simp), hxr⟩
              · rcases hs.live hne with h | h | ⟨r, h⟩
                · exact absurd h hready
                · exact absurd h hw
                · exact Or.inr (Or.inr ⟨r, signal_keeps h (by simp)⟩)
        · rename_i hr1 hr2
          cases e
          refine ⟨fun x hx h0 => ?_, hs.live⟩
          by_cases h : x = b
          · subst h; rw [rm_set_self] at h0; dsimp only at h0; omega
          · rw [rm_set_other s _ h] at h0; exact hs.seen x hx h0
  | sweep bs start =>
    cases start with
    | false => exact absurd rfl h2
    | true =>
      cases hl : s.locked with
      | true => unfold rmStep at e; dsimp only at e; rw [if_pos hl] at e; cases e; exact hs
      | false => exact seen_started hi hl e
  | lock k =>
    unfold rmStep at e
    dsimp only at e
    split at e
    · rename_i hc
      obtain ⟨hlt, _⟩ := List.getElem?_eq_some_iff.1 hc.2
      cases e
      have hm : RmThr.scan s.rem ∈ s.thr.set k (.scan s.rem) := List.mem_set hlt _
      exact ⟨fun b hb _ => Or.inr ⟨_, hm, hb⟩, fun _ => Or.inr (Or.inr ⟨_, hm⟩)⟩
    · cases e; exact hs
  | look k =>
    unfold rmStep at e
    dsimp only at e
    cases hk : s.thr[k]? with
    | none => rw [hk] at e; cases e; exact hs
    | some t =>
      rw [hk] at e
      cases t with
      | ready => cases e; exact hs
      | waiting => cases e; exact hs
      | done => cases e; exact hs
      | scan r =>
        cases r with
        | nil => cases e; exact hs
        | cons b r =>
          dsimp only at e
          obtain ⟨hlt, _⟩ := List.getElem?_eq_some_iff.1 hk
          have hm : RmThr.scan r ∈ s.thr.set k (.scan r) := List.mem_set hlt _
          -- threads that scan are this one
          have honly : ∀ q, RmThr.scan q ∈ s.thr → q = b :: r := by
            intro q hq
            obtain ⟨j, hj⟩ := List.getElem?_of_mem hq
            have := hi.one j k _ _ hj hk
            subst this
            rw [hk] at hj
            cases hj
            rfl
          have hrest : ∀ x, x ∈ s.rem → x ≠ b → (s.be x).ref = 0 → RmThr.ready ∈ s.thr.set k (.scan r) ∨ ∃ q, RmThr.scan q ∈ s.thr.set k (.scan r) ∧ x ∈ q := by
            intro x hx hxb h0
            rcases hs.seen x hx h0 with h | ⟨q, h, hxq⟩
            · exact Or.inl (mem_set_of_ne hk h (by simp))
            · rw [honly q h] at hxq
              rcases List.mem_cons.1 hxq with h | h
              · exact absurd h hxb
              · exact Or.inr ⟨r, hm, h⟩
          split at e
          · cases e
          · split at e
            · cases e
              refine ⟨fun x hx h0 => ?_, fun _ => Or.inr (Or.inr ⟨r, hm⟩)⟩
              have hx : x ∈ s.rem.erase b := hx
              rw [hi.nodup.mem_erase_iff] at hx
              have h0 : ((s.set b { s.be b with freed := true }).be x).ref = 0 := h0
              rw [rm_set_other s _ hx.1] at h0
              exact hrest x hx.2 hx.1 h0
            · rename_i hne
              cases e
              refine ⟨fun x hx h0 => ?_, fun _ => Or.inr (Or.inr ⟨r, hm⟩)⟩
              exact hrest x hx (fun h => by subst h; exact hne h0) h0
  | last k =>
    unfold rmStep at e
    dsimp only at e
    cases hk : s.thr[k]? with
    | none => rw [hk] at e; cases e; exact hs
    | some t =>
      rw [hk] at e
      cases t with
      | ready => cases e; exact hs
      | waiting => cases e; exact hs
      | done => cases e; exact hs
      | scan r =>
        cases r with
        | cons b r => cases e; exact hs
        | nil =>
          cases e
          obtain ⟨hlt, _⟩ := List.getElem?_eq_some_iff.1 hk
          refine ⟨fun x hx h0 => ?_, fun hne => ?_⟩
          · rcases hs.seen x hx h0 with h | ⟨q, h, hxq⟩
            · exact Or.inl (mem_set_of_ne hk h (by simp))
            · refine Or.inr ⟨q, mem_set_of_ne hk h ?_, hxq⟩
              intro h
              cases h
              cases hxq
          · have hne : s.rem ≠ [] := hne
            refine Or.inr (Or.inl ?_)
            show RmThr.waiting ∈ s.thr.set k (if s.rem = [] then .done else .waiting)
            rw [if_neg hne]
            exact List.mem_set hlt _
  | wake k =>
    unfold rmStep at e
    dsimp only at e
    split at e
    · rename_i h; cases e; exact seen_of_ready (mem_set_ready h)
    · cases e; exact hs

theorem rmRun_seen {s : RmSt} {ops : List RmOp} (hh : Heard s ops) : ∀ {s' : RmSt}, RmInv s → RmSeen s → rmRun s ops = some s' → RmSeen s' := by
  induction hh with
  | nil s => intro s' _ hs e; cases e; exact hs
  | cons h1 h2 _ ih =>
    intro s' hi hs e
    unfold rmRun at e
    obtain ⟨s1, e1, hi1⟩ := rmStep_inv hi _
    rw [e1] at e
    exact ih s1 e1 hi1 (rmStep_seen hi hs h1 h2 e1) e

theorem seen_quiet {s : RmSt} (hs : RmSeen s) (hi : RmInv s) (hq : RmQuiet s) {b : Nat} (hb : b ∈ s.rem) : 0 < (s.be b).held := by
  have href := hi.ref b
  rw [if_neg (by rw [((hi.rem b).1 hb).2.1]; exact Bool.false_ne_true)] at href
  have : (s.be b).ref ≠ 0 := by
    intro h0
    rcases hs.seen b hb h0 with h | ⟨r, h, _⟩
    · rcases hq _ h with h | h <;> cases h
    · rcases hq _ h with h | h <;> cases h
  omega

end Pound
