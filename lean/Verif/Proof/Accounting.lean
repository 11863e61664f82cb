import Verif.Proof.Balance

/-! Lemmas on the accounting of active backends in a service. -/

namespace Pound
open Spec

/-- The backends of a service. -/
abbrev SvcSt.all (s : SvcSt) : List Be := s.bals.flatMap (·.backends)

/-- A change that only concerns what a backend is doing. -/
def Light (h : Be → Be) : Prop := ∀ b, (h b).id = b.id ∧ (h b).prio = b.prio ∧ (h b).type = b.type

/-- The balancers after a change of the backends, with numbers that are right. -/
def Updated (h : Be → Be) (a b : List Bal) : Prop :=
  ∃ F : Bal → Bal, b = a.map F ∧ ∀ bal ∈ a, (F bal).backends = bal.backends.map h ∧ SameFrame bal (F bal) ∧ Totals (F bal)

theorem Updated.flat {h : Be → Be} {a b : List Bal} (hu : Updated h a b) :
    b.flatMap (·.backends) = (a.flatMap (·.backends)).map h := by
  obtain ⟨F, rfl, hF⟩ := hu
  induction a with
  | nil => rfl
  | cons x t ih =>
    simp only [List.map_cons, List.flatMap_cons, List.map_append]
    rw [(hF x (List.mem_cons_self ..)).1, ih fun y hy => hF y (List.mem_cons_of_mem _ hy)]

theorem Updated.ok {h : Be → Be} {a b : List Bal} (hl : Light h) (hu : Updated h a b) (ha : BalsOk a) : BalsOk b := by
  have hf := hu.flat
  obtain ⟨F, rfl, hF⟩ := hu
  refine ⟨⟨?_, ?_, ?_, ?_⟩, ?_, ?_⟩
  · rw [hf, List.map_map]
    have : ((·.id) ∘ h : Be → Nat) = (·.id) := by funext x; exact (hl x).1
    rw [this]; exact ha.cfg.distinct
  · intro bal hb
    obtain ⟨x, hx, rfl⟩ := List.mem_map.1 hb
    rw [(hF x hx).1]
    have := ha.cfg.nonempty x hx
    intro h0; exact this (List.map_eq_nil_iff.1 h0)
  · intro bal hb c hc
    obtain ⟨x, hx, rfl⟩ := List.mem_map.1 hb
    rw [(hF x hx).1] at hc
    obtain ⟨d, hd, rfl⟩ := List.mem_map.1 hc
    rw [(hl d).2.1]; exact ha.cfg.prios x hx d hd
  · intro bal hb
    obtain ⟨x, hx, rfl⟩ := List.mem_map.1 hb
    rw [(hF x hx).1, List.map_map]
    have : ((·.prio) ∘ h : Be → Nat) = (·.prio) := by funext x; exact (hl x).2.1
    rw [this]; exact ha.cfg.bound x hx
  · intro bal hb
    obtain ⟨x, hx, rfl⟩ := List.mem_map.1 hb
    exact (hF x hx).2.2
  · intro bal hb i hi
    obtain ⟨x, hx, rfl⟩ := List.mem_map.1 hb
    rw [(hF x hx).1, List.length_map]
    exact ha.cursor x hx i (by rw [← hi]; exact (hF x hx).2.1.2.2.2)

theorem find_map_light {h : Be → Be} (hl : Light h) (j : Nat) : ∀ l : List Be,
    (l.map h).find? (fun b => decide (b.id = j)) = (l.find? fun b => decide (b.id = j)).map h
  | [] => rfl
  | b :: t => by
    rw [List.map_cons, List.find?_cons, List.find?_cons, (hl b).1, find_map_light hl j t]
    split <;> rfl

theorem configured_fits {bals : List Bal} (h : Configured bals) {bal} (hb : bal ∈ bals) : Fits bal.backends := by
  refine ⟨fun b hb' => ?_, ?_⟩
  · have := (h.prios bal hb b hb').2; unfold intMax; omega
  · have := h.bound bal hb; unfold longMax; omega

theorem cbDisable_light (id : Nat) (m : DisableMode) : Light (cbDisable id m) := by
  intro b
  unfold cbDisable
  split
  · cases m <;> exact ⟨rfl, rfl, rfl⟩
  · exact ⟨rfl, rfl, rfl⟩

theorem map_no_id {id : Nat} {g : Be → Be} : ∀ {l : List Be}, (l.any fun b => decide (b.id = id)) = false →
    l.map (fun b => if b.id = id then g b else b) = l
  | [], _ => rfl
  | b :: t, h => by
    simp only [List.any_cons, Bool.or_eq_false_iff, decide_eq_false_iff_not] at h
    rw [List.map_cons, if_neg h.1, map_no_id h.2]

theorem killBe_updated {s : SvcSt} (h : BalsOk s.bals) {id : Nat} {m : DisableMode} {b} (hb : s.be? id = some b)
    (ht : b.type = .regular) : Updated (cbDisable id m) s.bals (s.killBe id m).bals := by
  unfold SvcSt.killBe
  rw [hb]; dsimp only; rw [if_pos ht]
  refine ⟨_, rfl, fun bal hbal => ?_⟩
  split
  · exact ⟨recompute_backends (fun b => (cbDisable_light id m b).2.1) (configured_fits h.cfg hbal), recompute_spec _ _⟩
  · rename_i hn
    refine ⟨?_, .refl _, h.totals bal hbal⟩
    have := map_no_id (id := id) (g := fun b => match m with
      | .disable => { b with disabled := true }
      | .kill => { b with alive := false }
      | .enable => { b with disabled := false }) (l := bal.backends) (by simpa using hn)
    exact this.symm

/-- A list with one place changed. -/
theorem split_unique {l : List Be} (hn : (l.map (·.id)).Nodup) {b} (hb : b ∈ l) :
    ∃ pre post, l = pre ++ b :: post ∧ (∀ x ∈ pre, x.id ≠ b.id) ∧ ∀ x ∈ post, x.id ≠ b.id := by
  obtain ⟨pre, post, rfl⟩ := List.append_of_mem hb
  rw [List.map_append, List.map_cons] at hn
  have := List.nodup_append.1 hn
  refine ⟨pre, post, rfl, fun x hx h => ?_, fun x hx h => ?_⟩
  · exact this.2.2 x.id (List.mem_map.2 ⟨x, hx, rfl⟩) b.id (List.mem_cons_self ..) h
  · exact (List.nodup_cons.1 this.2.1).1 (List.mem_map.2 ⟨x, hx, h⟩)

theorem map_id_of_ne {id : Nat} {g : Be → Be} {l : List Be} (h : ∀ x ∈ l, x.id ≠ id) :
    l.map (fun b => if b.id = id then g b else b) = l := by
  conv => rhs; rw [← List.map_id l]
  exact List.map_congr_left fun x hx => by rw [if_neg (h x hx)]; rfl

theorem mem_unique {l : List Be} (hn : (l.map (·.id)).Nodup) {a b : Be} (ha : a ∈ l) (hb : b ∈ l) (h : a.id = b.id) : a = b := by
  obtain ⟨pre, post, rfl, h1, h2⟩ := split_unique hn hb
  rcases List.mem_append.1 ha with hx | hx
  · exact absurd h (h1 a hx)
  · rcases List.mem_cons.1 hx with hx | hx
    · exact hx
    · exact absurd h (h2 a hx)

theorem flatMap_nodup {bals : List Bal} (hn : ((bals.flatMap (·.backends)).map (·.id)).Nodup) {bal} (hb : bal ∈ bals) :
    (bal.backends.map (·.id)).Nodup := by
  refine hn.sublist (List.Sublist.map _ ?_)
  obtain ⟨pre, post, rfl⟩ := List.append_of_mem hb
  rw [List.flatMap_append, List.flatMap_cons]
  exact (List.sublist_append_left _ _).trans (List.sublist_append_right _ _)

theorem be?_mem {s : SvcSt} {id b} (h : s.be? id = some b) : b ∈ s.all ∧ b.id = id := by
  unfold SvcSt.be? at h
  exact ⟨List.mem_of_find?_eq_some h, by simpa using List.find?_some h⟩

theorem be?_iff {s : SvcSt} (hn : (s.all.map (·.id)).Nodup) {id b} : s.be? id = some b ↔ b ∈ s.all ∧ b.id = id := by
  refine ⟨be?_mem, fun ⟨h1, h2⟩ => ?_⟩
  unfold SvcSt.be?
  cases hf : (s.bals.flatMap (·.backends)).find? fun b => decide (b.id = id) with
  | none =>
    have := List.find?_eq_none.1 hf b h1
    simp [h2] at this
  | some c =>
    have hc := be?_mem (s := s) (id := id) (b := c) hf
    rw [mem_unique hn hc.1 h1 (hc.2.trans h2.symm)]

theorem reviveIn_light (id : Nat) : Light fun b => if b.id = id then { b with alive := true } else b := by
  intro b; dsimp only; split <;> exact ⟨rfl, rfl, rfl⟩

/-- What reviving does to the numbers. -/
theorem actives_revive {l : List Be} (hn : (l.map (·.id)).Nodup) {b} (hb : b ∈ l) (ht : b.type = .regular) (hd : b.alive = false) :
    (b.disabled = true → (actives (reviveIn b.id l)).length = (actives l).length ∧ prioSum (reviveIn b.id l) = prioSum l ∧
      prioMax (reviveIn b.id l) = prioMax l) ∧
    (b.disabled = false → (actives (reviveIn b.id l)).length = (actives l).length + 1 ∧
      prioSum (reviveIn b.id l) = prioSum l + b.prio ∧ prioMax (reviveIn b.id l) = max (prioMax l) b.prio) := by
  obtain ⟨pre, post, rfl, h1, h2⟩ := split_unique hn hb
  have e : reviveIn b.id (pre ++ b :: post) = pre ++ { b with alive := true } :: post := by
    unfold reviveIn
    rw [List.map_append, List.map_cons, map_id_of_ne h1, map_id_of_ne h2, if_pos rfl]
  rw [e]
  have hnb : ¬ Active b := by unfold Active; simp [ht, hd]
  have hc : ∀ (x : Be) (t : List Be), (actives (x :: t)).length = (if Active x then 1 else 0) + (actives t).length := by
    intro x t; unfold actives; by_cases hx : Active x <;> simp [hx]; omega
  simp only [actives_append, List.length_append, prioSum_append, prioMax_append, prioSum_cons, prioMax_cons, hc, if_neg hnb]
  refine ⟨fun hdis => ?_, fun hdis => ?_⟩
  · have hr : ¬ Active { b with alive := true } := by unfold Active; simp [hdis]
    simp only [if_neg hr]
    refine ⟨trivial, trivial, trivial⟩
  · have hr : Active { b with alive := true } := by unfold Active; simp [hdis, ht]
    simp only [if_pos hr]
    refine ⟨by omega, by omega, by omega⟩

theorem sum_le_of_mem_prio {l : List Be} : prioSum l ≤ (l.map (·.prio)).sum := by
  induction l with
  | nil => simp [prioSum, actives]
  | cons b t ih =>
    rw [prioSum_cons, List.map_cons, List.sum_cons]
    split <;> omega

theorem find_of_mem {l : List Be} (hn : (l.map (·.id)).Nodup) {b} (hb : b ∈ l) :
    l.find? (fun x => decide (x.id = b.id)) = some b := by
  cases hf : l.find? fun x => decide (x.id = b.id) with
  | none => have := List.find?_eq_none.1 hf b hb; simp at this
  | some c =>
    have h1 := List.mem_of_find?_eq_some hf
    have h2 : c.id = b.id := by simpa using List.find?_some hf
    rw [mem_unique hn h1 hb h2]

/-- Reviving a dead backend. -/
theorem revive_updated {s : SvcSt} (h : BalsOk s.bals) {id : Nat} {b} (hb : s.be? id = some b)
    (ht : b.type = .regular) (hd : b.alive = false) :
    Updated (fun c => if c.id = id then { c with alive := true } else c) s.bals
      (if b.disabled then s.setAlive id else (s.setAlive id).countAlive id).bals := by
  obtain ⟨hmem, hid⟩ := be?_mem hb
  have key : ∀ bal ∈ s.bals, b ∈ bal.backends ∨ ∀ x ∈ bal.backends, x.id ≠ id := by
    intro bal hbal
    by_cases hx : ∃ x ∈ bal.backends, x.id = id
    · obtain ⟨x, hx, hxi⟩ := hx
      have : x = b := mem_unique h.cfg.distinct (List.mem_flatMap.2 ⟨bal, hbal, hx⟩) hmem (hxi.trans hid.symm)
      exact .inl (this ▸ hx)
    · exact .inr fun x hx' hh => hx ⟨x, hx', hh⟩
  cases hdis : b.disabled with
  | true =>
    rw [if_pos rfl]
    refine ⟨fun bal => { bal with backends := reviveIn id bal.backends }, rfl, fun bal hbal => ⟨rfl, ⟨rfl, rfl, rfl, rfl⟩, ?_⟩⟩
    have ht0 := h.totals bal hbal
    rcases key bal hbal with hin | hno
    · have := (actives_revive (flatMap_nodup h.cfg.distinct hbal) hin ht hd).1 hdis
      rw [hid] at this
      exact ⟨ht0.count.trans this.1.symm, fun hr => (ht0.sum hr).trans this.2.1.symm, fun hr => (ht0.max hr).trans this.2.2.symm⟩
    · have : reviveIn id bal.backends = bal.backends := map_id_of_ne hno
      dsimp only
      rw [this]; exact ht0
  | false =>
    rw [if_neg (by simp)]
    refine ⟨Bal.countAlive id ∘ (fun bal => { bal with backends := reviveIn id bal.backends }), ?_, fun bal hbal => ?_⟩
    · show List.map _ (List.map _ s.bals) = _
      rw [List.map_map]
    · have ht0 := h.totals bal hbal
      simp only [Function.comp, Bal.countAlive]
      rcases key bal hbal with hin | hno
      · have hnd := flatMap_nodup h.cfg.distinct hbal
        have hac := (actives_revive hnd hin ht hd).2 hdis
        rw [hid] at hac
        have hfind : (reviveIn id bal.backends).find? (fun b => decide (b.id = id)) = some { b with alive := true } := by
          unfold reviveIn
          rw [find_map_light (reviveIn_light id)]
          have := find_of_mem hnd hin
          rw [hid] at this
          rw [this]; simp [hid]
        rw [hfind]; dsimp only
        have hfr := priUpdate_frame { bal with backends := reviveIn id bal.backends } { b with alive := true }
        have hfit := configured_fits h.cfg hbal
        have hok : (({ bal with backends := reviveIn id bal.backends } : Bal).priUpdate { b with alive := true }).2 = false := by
          unfold Bal.priUpdate
          dsimp only
          cases hal : bal.algo with
          | random =>
            dsimp only
            have h1 := ht0.sum hal
            have h2 : prioSum (reviveIn id bal.backends) ≤ longMax := by
              refine Nat.le_trans sum_le_of_mem_prio ?_
              unfold reviveIn
              rw [List.map_map]
              have : ((·.prio) ∘ fun c : Be => if c.id = id then { c with alive := true } else c) = (·.prio) := by
                funext x; simp only [Function.comp]; split <;> rfl
              rw [this]; exact hfit.2
            rw [if_neg (by omega)]
          | iwrr =>
            dsimp only
            have := hfit.1 b hin
            rw [if_neg (by omega)]
            split <;> rfl
        have hup := priUpdate_ok hok
        refine ⟨hfr.2.1, ⟨hfr.1.1, hfr.1.2.1, hfr.1.2.2.1, hfr.1.2.2.2⟩, ⟨?_, ?_, ?_⟩⟩
        · dsimp only
          rw [hfr.2.1, hfr.2.2, hac.1]; dsimp only; rw [ht0.count]
        · dsimp only
          intro hr
          rw [← hfr.1.1] at hr
          rw [hfr.2.1, hac.2.1, hup.1 hr]; dsimp only; rw [ht0.sum hr]
        · dsimp only
          intro hr
          rw [← hfr.1.1] at hr
          rw [hfr.2.1, hac.2.2, hup.2 hr]; dsimp only; rw [ht0.max hr]
      · have : reviveIn id bal.backends = bal.backends := map_id_of_ne hno
        rw [this]
        have hf : bal.backends.find? (fun b => decide (b.id = id)) = none :=
          List.find?_eq_none.2 fun x hx => by simpa using hno x hx
        rw [hf]
        exact ⟨(map_id_of_ne hno).symm, ⟨rfl, rfl, rfl, rfl⟩, ht0⟩

end Pound
