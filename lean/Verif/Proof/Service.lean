import Verif.Proof.Accounting

/-! Lemmas on the choice of a backend for a request. -/

namespace Pound
open Spec

theorem active_up {b : Be} (h : Active b) : Up b := ⟨h.2.1, h.2.2⟩

/-- Events concerning backends. -/
def SvcSt.event (s : SvcSt) : BeEv → SvcSt
  | .disable i => s.killBe i .disable
  | .enable i => s.killBe i .enable
  | .kill i => s.killBe i .kill
  | .probe i up => s.touch i up

/-- What an event does to one backend. -/
def evEffect : BeEv → Be → Be
  | .disable i, b => if b.id = i ∧ b.type = .regular then { b with disabled := true } else b
  | .enable i, b => if b.id = i ∧ b.type = .regular then { b with disabled := false } else b
  | .kill i, b => if b.id = i ∧ b.type = .regular then { b with alive := false } else b
  | .probe i up, b => if b.id = i ∧ b.type = .regular then { b with alive := b.alive || up } else b

theorem evEffect_light (e : BeEv) : Light (evEffect e) := by
  intro b
  cases e <;> (unfold evEffect; dsimp only; split <;> exact ⟨rfl, rfl, rfl⟩)

theorem Updated.congr {h h' : Be → Be} {a b : List Bal} (hu : Updated h a b) (he : ∀ bal ∈ a, ∀ x ∈ bal.backends, h x = h' x) :
    Updated h' a b := by
  obtain ⟨F, hb, hF⟩ := hu
  refine ⟨F, hb, fun bal hbal => ⟨?_, (hF bal hbal).2⟩⟩
  rw [(hF bal hbal).1]
  exact List.map_congr_left fun x hx => he bal hbal x hx

theorem updated_id {a : List Bal} (h : ∀ bal ∈ a, Totals bal) {g : Be → Be} (hg : ∀ bal ∈ a, ∀ x ∈ bal.backends, g x = x) :
    Updated g a a := by
  refine ⟨id, by simp, fun bal hbal => ⟨?_, .refl _, h bal hbal⟩⟩
  conv => lhs; rw [show (id bal : Bal).backends = bal.backends from rfl, ← List.map_id bal.backends]
  exact List.map_congr_left fun x hx => (hg bal hbal x hx).symm

theorem event_updated {s : SvcSt} (h : BalsOk s.bals) (e : BeEv) : Updated (evEffect e) s.bals (s.event e).bals := by
  have uniq : ∀ {id b}, s.be? id = some b → ∀ bal ∈ s.bals, ∀ x ∈ bal.backends, x.id = id → x = b := by
    intro id b hb bal hbal x hx hi
    obtain ⟨h1, h2⟩ := be?_mem hb
    exact mem_unique h.cfg.distinct (List.mem_flatMap.2 ⟨bal, hbal, hx⟩) h1 (hi.trans h2.symm)
  have none' : ∀ {id}, s.be? id = none → ∀ bal ∈ s.bals, ∀ x ∈ bal.backends, x.id ≠ id := by
    intro id hb bal hbal x hx hi
    have := List.find?_eq_none.1 hb x (List.mem_flatMap.2 ⟨bal, hbal, hx⟩)
    simp [hi] at this
  have kill : ∀ (id : Nat) (m : DisableMode) (e : BeEv), (∀ b, b.type = .regular → evEffect e b = cbDisable id m b) →
      (∀ b, b.id ≠ id ∨ b.type ≠ .regular → evEffect e b = b) → Updated (evEffect e) s.bals (s.killBe id m).bals := by
    intro id m e h1 h2
    cases hb : s.be? id with
    | none =>
      have : s.killBe id m = s := by unfold SvcSt.killBe; rw [hb]
      rw [this]
      exact updated_id h.totals fun bal hbal x hx => h2 x (.inl (none' hb bal hbal x hx))
    | some b =>
      by_cases ht : b.type = .regular
      · refine (killBe_updated h hb ht).congr fun bal hbal x hx => ?_
        by_cases hi : x.id = id
        · have := uniq hb bal hbal x hx hi
          subst this
          exact (h1 x ht).symm
        · rw [h2 x (.inl hi)]
          unfold cbDisable; rw [if_neg hi]
      · have : s.killBe id m = s := by unfold SvcSt.killBe; rw [hb]; dsimp only; rw [if_neg ht]
        rw [this]
        refine updated_id h.totals fun bal hbal x hx => ?_
        by_cases hi : x.id = id
        · have := uniq hb bal hbal x hx hi
          subst this
          exact h2 x (.inr ht)
        · exact h2 x (.inl hi)
  cases e with
  | disable i =>
    refine kill i .disable _ (fun b hb => ?_) (fun b hb => ?_)
    · unfold evEffect cbDisable; by_cases hi : b.id = i <;> simp [hi, hb]
    · unfold evEffect; dsimp only; rw [if_neg]; rcases hb with hb | hb <;> simp [hb]
  | enable i =>
    refine kill i .enable _ (fun b hb => ?_) (fun b hb => ?_)
    · unfold evEffect cbDisable; by_cases hi : b.id = i <;> simp [hi, hb]
    · unfold evEffect; dsimp only; rw [if_neg]; rcases hb with hb | hb <;> simp [hb]
  | kill i =>
    refine kill i .kill _ (fun b hb => ?_) (fun b hb => ?_)
    · unfold evEffect cbDisable; by_cases hi : b.id = i <;> simp [hi, hb]
    · unfold evEffect; dsimp only; rw [if_neg]; rcases hb with hb | hb <;> simp [hb]
  | probe i up =>
    show Updated _ s.bals (s.touch i up).bals
    unfold SvcSt.touch
    cases hb : s.be? i with
    | none =>
      refine updated_id h.totals fun bal hbal x hx => ?_
      unfold evEffect; dsimp only; rw [if_neg]; intro hi; exact none' hb bal hbal x hx hi.1
    | some b =>
      dsimp only
      have stay : (b.type = .regular → b.alive = true ∨ up = false) → Updated (evEffect (.probe i up)) s.bals s.bals := by
        intro hst
        refine updated_id h.totals fun bal hbal x hx => ?_
        unfold evEffect
        dsimp only
        split
        · rename_i hi
          have := uniq hb bal hbal x hx hi.1
          subst this
          rcases hst hi.2 with hh | hh
          · rw [hh]; cases x; simp_all
          · rw [hh]; cases x; simp_all
        · rfl
      split
      · rename_i ht
        split
        · rename_i hal; exact stay fun _ => .inl hal
        · rename_i hal
          split
          · rename_i hup
            have := revive_updated (s := { s with touching := s.touching.erase i }) h hb ht (by simpa using hal)
            refine Updated.congr ?_ (h := fun c => if c.id = i then { c with alive := true } else c) fun bal hbal x hx => ?_
            · exact this
            · unfold evEffect
              dsimp only
              by_cases hi : x.id = i
              · have := uniq hb bal hbal x hx hi
                subst this
                rw [if_pos hi, if_pos ⟨hi, ht⟩, hup]; simp
              · rw [if_neg hi, if_neg (by simp [hi])]
          · rename_i hup; exact stay fun _ => .inr (by simpa using hup)
      · rename_i ht; exact stay fun h => absurd h ht

theorem event_ok {s : SvcSt} (h : BalsOk s.bals) (e : BeEv) : BalsOk (s.event e).bals :=
  (event_updated h e).ok (evEffect_light e) h

theorem event_all {s : SvcSt} (h : BalsOk s.bals) (e : BeEv) : (s.event e).all = s.all.map (evEffect e) :=
  (event_updated h e).flat

theorem event_be? {s : SvcSt} (h : BalsOk s.bals) (e : BeEv) (j : Nat) : (s.event e).be? j = (s.be? j).map (evEffect e) := by
  have := event_all h e
  unfold SvcSt.be?
  rw [show (s.event e).bals.flatMap (·.backends) = _ from this]
  exact find_map_light (evEffect_light e) j _

/-- `service_has_backends` tells whether there is an active backend. -/
theorem hasBackends_iff {s : SvcSt} (h : ∀ bal ∈ s.bals, Totals bal) : s.hasBackends = true ↔ ∃ b ∈ s.all, Active b := by
  unfold SvcSt.hasBackends
  rw [List.any_eq_true]
  constructor
  · rintro ⟨bal, hb, hp⟩
    simp only [gt_iff_lt, decide_eq_true_eq] at hp
    rw [(h bal hb).count] at hp
    obtain ⟨x, hx⟩ := List.exists_mem_of_length_pos hp
    have := List.mem_filter.1 hx
    exact ⟨x, List.mem_flatMap.2 ⟨bal, hb, this.1⟩, by simpa using this.2⟩
  · rintro ⟨x, hx, ha⟩
    obtain ⟨bal, hb, hxb⟩ := List.mem_flatMap.1 hx
    refine ⟨bal, hb, ?_⟩
    simp only [gt_iff_lt, decide_eq_true_eq]
    rw [(h bal hb).count]
    exact List.length_pos_of_mem (List.mem_filter.2 ⟨hxb, by simpa using ha⟩)

theorem BalsOk.sane {bals : List Bal} (h : BalsOk bals) : ∀ b ∈ bals, Sane b := by
  intro bal hb
  refine ⟨h.cfg.nonempty bal hb, h.totals bal hb, h.cursor bal hb, fun b hb' _ => (h.cfg.prios bal hb b hb').1, ?_⟩
  exact Nat.le_trans sum_le_of_mem_prio (configured_fits h.cfg hb).2

theorem SameBals.flat : ∀ {a b : List Bal}, SameBals a b → b.flatMap (·.backends) = a.flatMap (·.backends)
  | _, _, .nil => rfl
  | _, _, .cons h t => by
    simp only [List.flatMap_cons]
    rw [h.2.2.2.1, SameBals.flat t]

theorem SameBals.mem : ∀ {a b : List Bal}, SameBals a b → ∀ y ∈ b, ∃ x ∈ a, SameBal x y
  | _, _, .nil, _, h => by simp at h
  | _, _, .cons h t, y, hy => by
    rcases List.mem_cons.1 hy with rfl | hy
    · exact ⟨_, List.mem_cons_self .., h⟩
    · obtain ⟨x, hx, hs⟩ := SameBals.mem t y hy
      exact ⟨x, List.mem_cons_of_mem _ hx, hs⟩

theorem SameBals.trans {a b c : List Bal} (h : SameBals a b) (h' : SameBals b c) : SameBals a c := by
  induction h generalizing c with
  | nil => exact h'
  | cons hh _ ih => cases h' with | cons q r => exact .cons (hh.trans q) (ih r)

theorem SameBals.ok {a b : List Bal} (h : SameBals a b) (ha : BalsOk a) (hc : ∀ x ∈ b, CursorOk x) : BalsOk b := by
  refine ⟨⟨?_, ?_, ?_, ?_⟩, ?_, hc⟩
  · rw [h.flat]; exact ha.cfg.distinct
  all_goals
    intro y hy
    obtain ⟨x, hx, hs⟩ := h.mem y hy
  · rw [← hs.2.2.2.1]; exact ha.cfg.nonempty x hx
  · rw [← hs.2.2.2.1]; exact ha.cfg.prios x hx
  · rw [← hs.2.2.2.1]; exact ha.cfg.bound x hx
  · exact (hs.sane (ha.sane x hx) (hc y hy)).totals

theorem SameBals.safe : ∀ {a b : List Bal}, SameBals a b → SafeOrder a → SafeOrder b
  | _, _, .nil, _ => trivial
  | _, _, .cons h t, ho => by
    refine ⟨fun hn ha => ?_, SameBals.safe t ho.2⟩
    rw [← h.2.2.2.1]
    refine ho.1 ?_ (h.1.trans ha)
    cases t with
    | nil => exact absurd rfl hn
    | cons => simp

theorem Updated.safe {h : Be → Be} {a b : List Bal} (hu : Updated h a b) (ho : SafeOrder a) : SafeOrder b := by
  obtain ⟨F, rfl, hF⟩ := hu
  induction a with
  | nil => trivial
  | cons x t ih =>
    have hx := hF x (List.mem_cons_self ..)
    refine ⟨fun hn ha => ?_, ih ho.2 (fun y hy => hF y (List.mem_cons_of_mem _ hy))⟩
    rw [hx.1, List.length_map]
    refine ho.1 ?_ (hx.2.1.1.trans ha)
    intro h0; rw [h0] at hn; exact hn rfl

/-- Every session leads to a backend that is up. -/
def SessUp (s : SvcSt) : Prop := ∀ x ∈ s.tab.head, ∃ b ∈ s.all, b.id = x.be ∧ Up b

/-- A state of a service, at a time. -/
structure SvcOk (ttl : Nat) (now : TS) (s : SvcSt) : Prop where
  bals : BalsOk s.bals
  sess : SessInv s.tab (now.addSec ttl)
  up : SessUp s

theorem SvcOk.later {ttl : Nat} {t now : TS} {s : SvcSt} (h : SvcOk ttl t s) (hn : NotAfter t now) : SvcOk ttl now s :=
  ⟨h.bals, h.sess.mono (NotAfter.add ttl hn), h.up⟩

theorem mem_add {tab : SessTab} {ttl : Nat} {now : TS} {key : Bytes} {be : Nat} {x : Sess} (h : x ∈ (tab.add ttl now key be).1.head) :
    x ∈ tab.head ∨ x = ⟨tab.fresh, key, be, now.addSec ttl⟩ := by
  unfold SessTab.add at h
  dsimp only at h
  rcases List.mem_append.1 h with h | h
  · split at h
    · exact .inl (mem_unlink.1 h).1
    · exact .inl h
  · exact .inr (List.mem_singleton.1 h)

theorem mem_find {tab : SessTab} {bd} (hi : SessInv tab bd) {ttl : Nat} {now : TS} {key : Bytes} {x : Sess}
    (h : x ∈ (tab.find ttl now key).1.head) : ∃ y ∈ tab.head, y.be = x.be := by
  rcases find_spec hi (ttl := ttl) (now := now) key with ⟨_, he⟩ | ⟨s, hs, _, he⟩
  · rw [he] at h; exact ⟨x, h, rfl⟩
  · rw [he] at h
    rcases List.mem_append.1 h with h | h
    · exact ⟨x, (mem_unlink.1 h).1, rfl⟩
    · rw [List.mem_singleton.1 h]; exact ⟨s, hs, rfl⟩

theorem mem_removeBe {tab : SessTab} {be : Nat} {x : Sess} (h : x ∈ (tab.removeBe be).head) : x ∈ tab.head ∧ x.be ≠ be := by
  unfold SessTab.removeBe at h
  rw [removeBeLoop_eq] at h
  simpa using h

theorem killBe_tab {s : SvcSt} {id : Nat} {m : DisableMode} : (s.killBe id m).tab = s.tab ∨
    (s.killBe id m).tab = s.tab.removeBe id := by
  unfold SvcSt.killBe
  split
  · exact .inl rfl
  · split
    · dsimp only; split
      · exact .inr rfl
      · exact .inl rfl
    · exact .inl rfl

theorem killBe_kill_tab {s : SvcSt} {id : Nat} {b} (hb : s.be? id = some b) (ht : b.type = .regular) :
    (s.killBe id .kill).tab = s.tab.removeBe id := by
  unfold SvcSt.killBe
  rw [hb]; dsimp only; rw [if_pos ht]; rfl

theorem touch_tab {s : SvcSt} {id : Nat} {up : Bool} : (s.touch id up).tab = s.tab := by
  unfold SvcSt.touch
  split
  · rfl
  · split
    · split
      · rfl
      · split
        · dsimp only; split <;> rfl
        · rfl
    · rfl

theorem event_tab {s : SvcSt} {e : BeEv} : (s.event e).tab = s.tab ∨ ∃ i, e = .kill i ∧ (s.event e).tab = s.tab.removeBe i := by
  cases e with
  | disable i =>
    refine .inl ?_
    show (s.killBe i .disable).tab = _
    unfold SvcSt.killBe
    split
    · rfl
    · split <;> rfl
  | enable i =>
    refine .inl ?_
    show (s.killBe i .enable).tab = _
    unfold SvcSt.killBe
    split
    · rfl
    · split <;> rfl
  | kill i =>
    rcases killBe_tab (s := s) (id := i) (m := .kill) with h | h
    · exact .inl h
    · exact .inr ⟨i, rfl, h⟩
  | probe i up => exact .inl touch_tab

theorem event_svcOk {ttl : Nat} {now : TS} {s : SvcSt} (h : SvcOk ttl now s) (e : BeEv) : SvcOk ttl now (s.event e) := by
  refine ⟨event_ok h.bals e, ?_, ?_⟩
  · rcases event_tab (s := s) (e := e) with ht | ⟨i, _, ht⟩
    · rw [ht]; exact h.sess
    · rw [ht]; exact (sessInv_removeBe h.sess i).1
  · intro x hx
    have hin : x ∈ s.tab.head ∧ ∀ i, e = .kill i → (s.event e).tab = s.tab.removeBe i → x.be ≠ i := by
      rcases event_tab (s := s) (e := e) with ht | ⟨i, hi, ht⟩
      · rw [ht] at hx
        refine ⟨hx, fun i hi ht' => ?_⟩
        rw [ht'] at ht; rw [← ht] at hx
        exact (mem_removeBe hx).2
      · rw [ht] at hx
        refine ⟨(mem_removeBe hx).1, fun j hj _ => ?_⟩
        rw [hi] at hj; cases hj
        exact (mem_removeBe hx).2
    obtain ⟨b, hb, hbi, hup⟩ := h.up x hin.1
    refine ⟨evEffect e b, by rw [event_all h.bals]; exact List.mem_map.2 ⟨b, hb, rfl⟩, ((evEffect_light e b).1).trans hbi, ?_⟩
    cases e with
    | disable i => unfold evEffect; dsimp only; split <;> exact hup
    | enable i => unfold evEffect; dsimp only; split <;> exact hup
    | probe i up =>
      unfold evEffect; dsimp only; split
      · exact ⟨hup.1, fun hr => by dsimp only; rw [hup.2 hr]; rfl⟩
      · exact hup
    | kill i =>
      unfold evEffect; dsimp only; split
      · rename_i hi
        have hf : s.be? i = some b := (be?_iff h.bals.cfg.distinct).2 ⟨hb, hi.1⟩
        exact absurd (hbi.symm.trans hi.1) (hin.2 i rfl (killBe_kill_tab hf hi.2))
      · exact hup

/-- Selection does not change the table. -/
theorem lb_done {s s' : SvcSt} {n rnd ob} (hc : ∀ b ∈ s.bals, CursorOk b) (h : s.lb n rnd = .done ob s') :
    SameBals s.bals s'.bals ∧ (∀ b ∈ s'.bals, CursorOk b) ∧ s'.tab = s.tab ∧ s'.touching = s.touching ∧
    ∀ i, ob = some i → ∃ b ∈ s.all, b.id = i ∧ Active b := by
  unfold SvcSt.lb at h
  split at h
  · rename_i b bals hl
    cases h
    have := lbSelect_same hc hl
    refine ⟨this.1, this.2, rfl, rfl, fun i hi => ?_⟩
    cases b with
    | none => cases hi
    | some b =>
      obtain ⟨h1, bal, h2, h3⟩ := lbSelect_active hl
      cases hi
      exact ⟨b, List.mem_flatMap.2 ⟨bal, h2, h3⟩, rfl, h1⟩
  · cases h
  · cases h

/-- What holds after a backend was looked for: only sessions and positions of round robins changed; a backend found is up, and
is active unless a session led to it. -/
theorem getBackend_done {ttl : Nat} {now : TS} {s s' : SvcSt} (h : SvcOk ttl now s) {n rnd key ob}
    (hg : s.getBackend ttl now n rnd key = .done ob s') :
    SvcOk ttl now s' ∧ SameBals s.bals s'.bals ∧ s'.touching = s.touching ∧ ∀ i, ob = some i → ∃ b ∈ s.all, b.id = i ∧ Up b := by
  have build : ∀ {s1 : SvcSt} {tab}, SameBals s.bals s1.bals → (∀ b ∈ s1.bals, CursorOk b) → s1.tab = tab →
      SessInv tab (now.addSec ttl) → (∀ x ∈ tab.head, ∃ b ∈ s.all, b.id = x.be ∧ Up b) → SvcOk ttl now s1 := by
    intro s1 tab h1 h2 h3 h4 h5
    refine ⟨h1.ok h.bals h2, by rw [h3]; exact h4, fun x hx => ?_⟩
    rw [h3] at hx
    obtain ⟨b, hb, hh⟩ := h5 x hx
    exact ⟨b, by show b ∈ s1.bals.flatMap _; rw [h1.flat]; exact hb, hh⟩
  unfold SvcSt.getBackend at hg
  split at hg
  · split at hg
    · rename_i k
      unfold SvcSt.byKey at hg
      have hfi := sessInv_find h.sess (NotAfter.refl now) (k.take keySize)
      have hfm : ∀ x ∈ (s.tab.find ttl now (k.take keySize)).1.head, ∃ b ∈ s.all, b.id = x.be ∧ Up b := by
        intro x hx
        obtain ⟨y, hy, he⟩ := mem_find h.sess hx
        rw [← he]; exact h.up y hy
      split at hg
      · rename_i tab b hf
        cases hg
        have e1 : (s.tab.find ttl now (k.take keySize)).1 = tab := by rw [hf]
        rw [e1] at hfi hfm
        refine ⟨build (.refl _) h.bals.cursor rfl hfi hfm, .refl _, rfl, fun i hi => ?_⟩
        cases hi
        rcases find_spec h.sess (ttl := ttl) (now := now) (k.take keySize) with ⟨_, he⟩ | ⟨x, hx, _, he⟩
        · rw [hf] at he; cases he
        · rw [hf] at he; cases he
          exact h.up x hx
      · rename_i tab hf
        have e1 : (s.tab.find ttl now (k.take keySize)).1 = tab := by rw [hf]
        rw [e1] at hfi hfm
        split at hg
        · rename_i b s1 hl
          cases hg
          obtain ⟨h1, h2, h3, h4, h5⟩ := lb_done (s := { s with tab := tab }) h.bals.cursor hl
          dsimp only at h3 h4
          obtain ⟨c, hc, hci, hca⟩ := h5 b rfl
          refine ⟨build (s1 := { s1 with tab := _ }) h1 h2 rfl ?_ ?_, h1, h4, fun i hi => ?_⟩
          · rw [h3]; exact sessInv_add hfi (NotAfter.refl now) _ _
          · intro x hx
            rw [h3] at hx
            rcases mem_add hx with hx | rfl
            · exact hfm x hx
            · exact ⟨c, hc, hci, active_up hca⟩
          · cases hi; exact ⟨c, hc, hci, active_up hca⟩
        · rename_i s1 hl
          obtain ⟨h1, h2, h3, h4, h5⟩ := lb_done (s := { s with tab := tab }) h.bals.cursor hl
          dsimp only at h1 h2 h3 h4
          obtain ⟨k1, k2, k3, k4, k5⟩ := lb_done h2 hg
          have h12 : SameBals s.bals s'.bals := h1.trans k1
          refine ⟨build h12 k2 (k3.trans h3) hfi hfm, h12, k4.trans h4, fun i hi => ?_⟩
          obtain ⟨c, hc, hci, hca⟩ := k5 i hi
          refine ⟨c, ?_, hci, active_up hca⟩
          have := h1.flat
          show c ∈ s.bals.flatMap _
          rw [← this]; exact hc
        · rename_i hs hne
          cases ob with
          | none => exact absurd hg (fun h => hne _ h)
          | some b => exact absurd hg (fun h => hs _ _ h)
    · obtain ⟨h1, h2, h3, h4, h5⟩ := lb_done h.bals.cursor hg
      refine ⟨build h1 h2 h3 h.sess h.up, h1, h4, fun i hi => ?_⟩
      obtain ⟨c, hc, hci, hca⟩ := h5 i hi
      exact ⟨c, hc, hci, active_up hca⟩
  · cases hg
    exact ⟨h, .refl _, rfl, fun i hi => by cases hi⟩

theorem Draws.usable : ∀ {bals : List Bal} {rnd}, Draws bals rnd → UsableAll rnd bals
  | [], _, _ => trivial
  | bal :: t, rnd, h => by
    refine ⟨fun _ => ?_, Draws.usable fun i => ?_⟩
    · obtain ⟨r, hr, hb⟩ := h 0
      have h1 := hb bal (List.mem_cons_self ..)
      have h2 := sum_le_of_mem_prio (l := bal.backends)
      unfold Usable
      by_cases h0 : prioSum bal.backends < 2
      · exact .inl h0
      · refine .inr ⟨r, hr, ?_⟩
        have := Nat.mod_lt (2 ^ 64) (y := prioSum bal.backends) (by omega)
        omega
    · obtain ⟨r, hr, hb⟩ := h (i + 1)
      exact ⟨r, hr, fun b hb' => hb b (List.mem_cons_of_mem _ hb')⟩

theorem Draws.same {a b : List Bal} {rnd} (h : Draws a rnd) (hs : SameBals a b) : Draws b rnd := by
  intro i
  obtain ⟨r, hr, hb⟩ := h i
  refine ⟨r, hr, fun y hy => ?_⟩
  obtain ⟨x, hx, hs⟩ := hs.mem y hy
  rw [← hs.2.2.2.1]; exact hb x hx

theorem Draws.updated {h : Be → Be} {a b : List Bal} {rnd} (hd : Draws a rnd) (hl : Light h) (hu : Updated h a b) : Draws b rnd := by
  obtain ⟨F, rfl, hF⟩ := hu
  intro i
  obtain ⟨r, hr, hb⟩ := hd i
  refine ⟨r, hr, fun y hy => ?_⟩
  obtain ⟨x, hx, rfl⟩ := List.mem_map.1 hy
  rw [(hF x hx).1, List.map_map]
  have : ((fun b : Be => b.prio) ∘ h) = fun b => b.prio := funext fun b => (hl b).2.1
  rw [this]; exact hb x hx

/-- A backend is found if there is an active one. -/
theorem lb_found {s : SvcSt} (h : BalsOk s.bals) (ho : SafeOrder s.bals) {rnd} (hd : UsableAll rnd s.bals)
    (ha : ∃ b ∈ s.all, Active b) : ∃ n0 i s', ∀ n, n0 ≤ n → s.lb n rnd = .done (some i) s' := by
  obtain ⟨b, hb, hba⟩ := ha
  obtain ⟨bal, hbal, hx⟩ := List.mem_flatMap.1 hb
  obtain ⟨n0, _, _, _, c, bals', _, _, _, hf⟩ := lbSelect_found h.sane ho hd ⟨bal, hbal, b, hx, hba⟩
  refine ⟨n0, c.id, { s with bals := bals' }, fun n hn => ?_⟩
  unfold SvcSt.lb
  rw [hf n hn]; rfl

theorem getBackend_none_of_lb {s s' : SvcSt} (h : BalsOk s.bals) {n rnd} {tab : SessTab} (hl : ({ s with tab := tab } : SvcSt).lb n rnd = .done none s') :
    ∀ b ∈ s.all, ¬ Active b := by
  unfold SvcSt.lb at hl
  dsimp only at hl
  split at hl
  · rename_i ob bals' he
    cases ob with
    | none =>
      intro b hb
      obtain ⟨bal, hbal, hx⟩ := List.mem_flatMap.1 hb
      exact lbSelect_done_none h.sane he bal hbal b hx
    | some c => cases hl
  · cases hl
  · cases hl

/-- Looking for a backend ends, with one unless none is active. -/
theorem getBackend_total {ttl : Nat} {now : TS} {s : SvcSt} (h : SvcOk ttl now s) (ho : SafeOrder s.bals) {rnd}
    (hd : UsableAll rnd s.bals) (key : Option Bytes) :
    ∃ n0 ob s', (∀ n, n0 ≤ n → s.getBackend ttl now n rnd key = .done ob s') ∧
      (ob = none → s' = s ∧ ∀ b ∈ s.all, ¬ Active b) := by
  by_cases ha : ∃ b ∈ s.all, Active b
  · have hh := (hasBackends_iff h.bals.totals).2 ha
    unfold SvcSt.getBackend
    simp only [hh, if_true]
    cases key with
    | none =>
      obtain ⟨n0, i, s', hf⟩ := lb_found h.bals ho hd ha
      exact ⟨n0, some i, s', hf, fun h => by cases h⟩
    | some k =>
      dsimp only
      unfold SvcSt.byKey
      rcases hf : s.tab.find ttl now (k.take keySize) with ⟨tab, _ | b⟩
      · dsimp only
        obtain ⟨n0, i, s', hf⟩ := lb_found (s := { s with tab := tab }) h.bals ho hd ha
        refine ⟨n0, some i, { s' with tab := (s'.tab.add ttl now (k.take keySize) i).1 }, fun n hn => ?_, fun h => by cases h⟩
        rw [hf n hn]
      · exact ⟨0, some b, _, fun _ _ => rfl, fun h => by cases h⟩
  · refine ⟨0, none, s, fun n _ => ?_, fun _ => ⟨rfl, fun b hb hba => ha ⟨b, hb, hba⟩⟩⟩
    unfold SvcSt.getBackend
    rw [if_neg (fun h' => ha ((hasBackends_iff h.bals.totals).1 h'))]

/-- The number of regular backends that are alive. -/
def upCount (s : SvcSt) : Nat := (s.all.filter fun b => decide (b.type = .regular) && b.alive).length

/-- Backends marked dead. -/
def markDead (R : List Nat) (l : List Be) : List Be := l.map fun c => if c.id ∈ R then { c with alive := false } else c

theorem markDead_nil (l : List Be) : markDead [] l = l := by simp [markDead]

theorem markDead_append (a b : List Nat) (l : List Be) : markDead b (markDead a l) = markDead (a ++ b) l := by
  simp only [markDead, List.map_map]
  refine List.map_congr_left fun c _ => ?_
  simp only [Function.comp, List.mem_append]
  by_cases h1 : c.id ∈ a <;> by_cases h2 : c.id ∈ b <;> simp [h1, h2]

theorem kill_markDead {s : SvcSt} (h : BalsOk s.bals) {b : Be} (hb : b ∈ s.all) (ht : b.type = .regular) :
    (s.killBe b.id .kill).all = markDead [b.id] s.all := by
  have := event_all h (.kill b.id)
  show (s.event (.kill b.id)).all = _
  rw [this]
  refine List.map_congr_left fun c hc => ?_
  unfold evEffect
  dsimp only
  by_cases hi : c.id = b.id
  · have := mem_unique h.cfg.distinct hc hb hi
    subst this
    simp [ht]
  · simp [hi]

theorem filter_map_length_lt {l : List Be} {g : Be → Be} {p : Be → Bool} (hle : ∀ x ∈ l, p (g x) = true → p x = true)
    {b} (hb : b ∈ l) (h1 : p b = true) (h2 : p (g b) = false) : ((l.map g).filter p).length < (l.filter p).length := by
  have le : ∀ l : List Be, (∀ x ∈ l, p (g x) = true → p x = true) → ((l.map g).filter p).length ≤ (l.filter p).length := by
    intro l
    induction l with
    | nil => simp
    | cons x t ih =>
      intro h
      have := ih fun y hy => h y (List.mem_cons_of_mem _ hy)
      have hx := h x (List.mem_cons_self ..)
      simp only [List.map_cons, List.filter_cons]
      by_cases h1 : p (g x) = true
      · rw [if_pos h1, if_pos (hx h1)]; simpa using this
      · rw [if_neg h1]
        by_cases h2 : p x = true
        · rw [if_pos h2]; simp; omega
        · rw [if_neg h2]; exact this
  induction l with
  | nil => simp at hb
  | cons x t ih =>
    simp only [List.map_cons, List.filter_cons]
    have hle' : ∀ y ∈ t, p (g y) = true → p y = true := fun y hy => hle y (List.mem_cons_of_mem _ hy)
    rcases List.mem_cons.1 hb with rfl | hb
    · rw [if_pos h1, if_neg (by simp [h2])]
      have := le t hle'
      simp; omega
    · have := ih hle' hb
      have hx := hle x (List.mem_cons_self ..)
      by_cases h1 : p (g x) = true
      · rw [if_pos h1, if_pos (hx h1)]; simpa using this
      · rw [if_neg h1]
        by_cases h2 : p x = true
        · rw [if_pos h2]; simp; omega
        · rw [if_neg h2]; exact this

theorem upCount_kill {s : SvcSt} (h : BalsOk s.bals) {b : Be} (hb : b ∈ s.all) (ht : b.type = .regular) (ha : b.alive = true) :
    upCount (s.killBe b.id .kill) < upCount s := by
  unfold upCount
  rw [kill_markDead h hb ht, markDead]
  refine filter_map_length_lt (fun x _ hx => ?_) hb (by simp [ht, ha]) (by simp)
  by_cases hi : x.id ∈ [b.id]
  · rw [if_pos hi] at hx; simp at hx
  · rwa [if_neg hi] at hx

theorem upCount_same {s s' : SvcSt} (h : SameBals s.bals s'.bals) : upCount s' = upCount s := by
  unfold upCount SvcSt.all
  rw [h.flat]

/-- What an attempt to connect came to. -/
structure Outcome (conn : Nat → Nat → Conn) (k : Nat) (s : SvcSt) (l : Link) (b : Nat) (status : Option Status) (s' : SvcSt) (l' : Link)
    (R : List Nat) (last : Option Nat) : Prop where
  nodup : (R ++ last.toList).Nodup
  was : ∀ i ∈ R ++ last.toList, ∃ c ∈ s.all, c.id = i ∧ c.type = .regular ∧ c.alive = true
  first : R ++ last.toList ≠ [] → (R ++ last.toList).head? = some b
  refused : ∀ j i, R[j]? = some i → conn (k + j) i = .refused
  notRefused : ∀ i, last = some i → conn (k + R.length) i ≠ .refused
  dead : s'.all = markDead R s.all
  ok : ∀ i, last = some i → conn (k + R.length) i = .ok → status = none ∧ l'.isOpen = true ∧ l'.backend = some i
  bad : ∀ i, last = some i → conn (k + R.length) i ≠ .ok → status = some .serviceUnavailable ∧ l'.backend = l.backend ∧ l'.isOpen = false
  ended : last = none → (status = none ∧ ∃ c ∈ s'.all, c.type ≠ .regular ∧ Up c ∧ l'.backend = some c.id ∧ l'.isOpen = false) ∨
    (status = some .serviceUnavailable ∧ l'.backend = l.backend ∧ l'.isOpen = false ∧ ∀ c ∈ s'.all, ¬ Active c)
  refs : (∀ j, l.refs j = (if l.backend = some j then 1 else 0) + if j = b then 1 else 0) →
    ∀ j, l'.refs j = (if l'.backend = some j then 1 else 0) +
      if last = some j ∧ conn (k + R.length) j = .openFails then 1 else 0

theorem connect_spec (ttl : Nat) (now : TS) (rnd : Nat → Nat → List Nat) (key : Option Bytes) (conn : Nat → Nat → Conn) :
    ∀ (m : Nat) (s : SvcSt) (l : Link) (tried : List Nat) (b : Be), SvcOk ttl now s → SafeOrder s.bals → (∀ k, Draws s.bals (rnd k)) →
      b ∈ s.all → Up b → l.isOpen = false → upCount s ≤ m →
      ∃ fuel0 status s' l' R last, (∀ fuel, fuel0 ≤ fuel → ∀ n, m < n → connectLoop ttl now fuel rnd key conn n s l tried b.id =
        .done status s' l' (tried ++ (R ++ last.toList))) ∧ SvcOk ttl now s' ∧
        Outcome conn tried.length s l b.id status s' l' R last := by
  intro m
  induction m with
  | zero =>
    intro s l tried b h ho hd hb hu hop hc
    have hf : s.be? b.id = some b := (be?_iff h.bals.cfg.distinct).2 ⟨hb, rfl⟩
    have ht : b.type ≠ .regular := by
      intro ht
      have : b ∈ s.all.filter fun b => decide (b.type = .regular) && b.alive := List.mem_filter.2 ⟨hb, by simp [ht, hu.2 ht]⟩
      have := List.length_pos_of_mem this
      unfold upCount at hc; omega
    refine ⟨0, none, s, { l with backend := some b.id, refs := addRef l.refs l.backend (-1) }, [], none, ?_, h, ?_⟩
    · intro fuel _ n hn
      obtain ⟨n, rfl⟩ : ∃ k, n = k + 1 := ⟨n - 1, by omega⟩
      unfold connectLoop
      rw [show s.isRegular b.id = false by unfold SvcSt.isRegular; rw [hf]; simp [ht]]
      simp
    · refine ⟨by simp, by simp, by simp, by simp, by simp, by simp [markDead_nil], by simp, by simp, ?_, ?_⟩
      · exact fun _ => .inl ⟨rfl, b, hb, ht, hu, rfl, hop⟩
      · intro hr j
        simp only [addRef]
        cases hb : l.backend with
        | none => simp [hr, hb, eq_comm]
        | some i =>
          by_cases hj : j = i
          · subst hj; simp [hr, hb, eq_comm]; split <;> omega
          · simp [hj, hr, hb, Ne.symm hj, eq_comm]
  | succ m ih =>
    intro s l tried b h ho hd hb hu hop hc
    have hf : s.be? b.id = some b := (be?_iff h.bals.cfg.distinct).2 ⟨hb, rfl⟩
    by_cases ht : b.type = .regular
    · have hreg : s.isRegular b.id = true := by unfold SvcSt.isRegular; rw [hf]; simp [ht]
      cases hco : conn tried.length b.id with
      | unusable =>
        refine ⟨0, some .serviceUnavailable, s, { l with refs := addRef l.refs (some b.id) (-1) }, [], some b.id, ?_, h, ?_⟩
        · intro fuel _ n hn
          obtain ⟨n, rfl⟩ : ∃ k, n = k + 1 := ⟨n - 1, by omega⟩
          unfold connectLoop
          simp [hreg, hco]
        · refine ⟨by simp, ?_, by simp, by simp, ?_, by simp [markDead_nil], ?_, ?_, by simp, ?_⟩
          · intro i hi; simp at hi; subst hi; exact ⟨b, hb, rfl, ht, hu.2 ht⟩
          · intro i hi; cases hi; simp [hco]
          · intro i hi; cases hi; simp [hco]
          · intro i hi; cases hi; simp [hop]
          · intro hr j
            simp only [addRef]
            by_cases hj : j = b.id
            · subst hj; simp [hr, hco]; omega
            · simp [hj, hr, Ne.symm hj]
      | ok =>
        refine ⟨0, none, s, { isOpen := true, backend := some b.id, refs := addRef l.refs l.backend (-1) }, [], some b.id, ?_, h, ?_⟩
        · intro fuel _ n hn
          obtain ⟨n, rfl⟩ : ∃ k, n = k + 1 := ⟨n - 1, by omega⟩
          unfold connectLoop
          simp [hreg, hco]
        · refine ⟨by simp, ?_, by simp, by simp, ?_, by simp [markDead_nil], ?_, ?_, by simp, ?_⟩
          · intro i hi; simp at hi; subst hi; exact ⟨b, hb, rfl, ht, hu.2 ht⟩
          · intro i hi; cases hi; simp [hco]
          · intro i hi; cases hi; simp
          · intro i hi; cases hi; simp [hco]
          · intro hr j
            have hne : ¬ (some b.id = some j ∧ conn (tried.length + ([] : List Nat).length) j = .openFails) := by
              rintro ⟨hj, hq⟩; cases hj; simp [hco] at hq
            rw [if_neg hne]
            simp only [addRef]
            cases hb : l.backend with
            | none => simp [hr, hb, eq_comm]
            | some i =>
              by_cases hj : j = i
              · subst hj; simp [hr, hb, eq_comm]; split <;> omega
              · simp [hj, hr, hb, Ne.symm hj, eq_comm]
      | openFails =>
        refine ⟨0, some .serviceUnavailable, s, { l with isOpen := false }, [], some b.id, ?_, h, ?_⟩
        · intro fuel _ n hn
          obtain ⟨n, rfl⟩ : ∃ k, n = k + 1 := ⟨n - 1, by omega⟩
          unfold connectLoop
          simp [hreg, hco]
        · refine ⟨by simp, ?_, by simp, by simp, ?_, by simp [markDead_nil], ?_, ?_, by simp, ?_⟩
          · intro i hi; simp at hi; subst hi; exact ⟨b, hb, rfl, ht, hu.2 ht⟩
          · intro i hi; cases hi; simp [hco]
          · intro i hi; cases hi; simp [hco]
          · intro i hi; cases hi; simp
          · intro hr j
            dsimp only
            rw [hr]
            by_cases hj : j = b.id
            · subst hj; simp [hco]
            · simp [hj, Ne.symm hj]
      | refused =>
        have hk : SvcOk ttl now (s.killBe b.id .kill) := event_svcOk h (.kill b.id)
        have hupd := event_updated h.bals (.kill b.id)
        have hko : SafeOrder (s.killBe b.id .kill).bals := hupd.safe ho
        have hkd : ∀ k, Draws (s.killBe b.id .kill).bals (rnd k) := fun k => (hd k).updated (evEffect_light _) hupd
        have hkc := upCount_kill h.bals hb ht (hu.2 ht)
        have hka := kill_markDead h.bals hb ht
        obtain ⟨n0, ob, s1, hg, hgn⟩ := getBackend_total hk hko (hkd (tried.length + 1)).usable key
        have hgd := getBackend_done hk (hg n0 (Nat.le_refl _))
        cases ob with
        | none =>
          obtain ⟨rfl, hna⟩ := hgn rfl
          refine ⟨n0, some .serviceUnavailable, _, { l with refs := addRef l.refs (some b.id) (-1) }, [b.id], none, ?_, hk, ?_⟩
          · intro fuel hfu n hn
            obtain ⟨n, rfl⟩ : ∃ k, n = k + 1 := ⟨n - 1, by omega⟩
            unfold connectLoop
            simp [hreg, hco, hg fuel hfu]
          · refine ⟨by simp, ?_, by simp, ?_, by simp, hka, by simp, by simp, ?_, ?_⟩
            · intro i hi; simp at hi; subst hi; exact ⟨b, hb, rfl, ht, hu.2 ht⟩
            · intro j i hi
              cases j with
              | zero => simp at hi; subst hi; simpa using hco
              | succ j => simp at hi
            · exact fun _ => .inr ⟨rfl, rfl, hop, hna⟩
            · intro hr j
              simp only [addRef]
              by_cases hj : j = b.id
              · subst hj; simp [hr]; omega
              · simp [hj, hr]
        | some b' =>
          obtain ⟨hs1, hsame, _, hbu⟩ := hgd
          obtain ⟨c, hc1, hci, hcu⟩ := hbu b' rfl
          subst hci
          have hall : s1.all = (s.killBe b.id .kill).all := hsame.flat
          have hcs : c ∈ s1.all := by rw [hall]; exact hc1
          obtain ⟨f1, status, s', l', R, last, hrun, hok, out⟩ := ih s1 { l with refs := addRef (addRef l.refs (some b.id) (-1)) (some c.id) 1 }
            (tried ++ [b.id]) c hs1 (hsame.safe hko) (fun k => (hkd k).same hsame) hcs hcu hop
            (by rw [upCount_same hsame]; omega)
          have hlen : (tried ++ [b.id]).length = tried.length + 1 := by simp
          have hidx : ∀ j, (tried ++ [b.id]).length + j = tried.length + (j + 1) := by intro j; rw [hlen]; omega
          have hnotin : b.id ∉ R ++ last.toList := by
            intro hin
            obtain ⟨x, hx, hxi, hxt, hxa⟩ := out.was _ hin
            rw [hall, hka] at hx
            obtain ⟨y, _, rfl⟩ := List.mem_map.1 hx
            split at hxa
            · simp at hxa
            · rename_i hny; rw [if_neg hny] at hxi; simp [hxi] at hny
          refine ⟨max n0 f1, status, s', l', b.id :: R, last, ?_, hok, ?_⟩
          · intro fuel hfu n hn
            obtain ⟨n, rfl⟩ : ∃ k, n = k + 1 := ⟨n - 1, by omega⟩
            have := hrun fuel (by omega) n (by omega)
            conv => lhs; unfold connectLoop
            simp only [hreg, if_true, hco, hg fuel (by omega)]
            rw [this]; simp
          · constructor
            · simp only [List.cons_append, List.nodup_cons]
              exact ⟨hnotin, out.nodup⟩
            · intro i hi
              simp only [List.cons_append, List.mem_cons] at hi
              rcases hi with rfl | hi
              · exact ⟨b, hb, rfl, ht, hu.2 ht⟩
              · obtain ⟨x, hx, hxi, hxt, hxa⟩ := out.was i hi
                rw [hall, hka] at hx
                obtain ⟨y, hy, rfl⟩ := List.mem_map.1 hx
                split at hxa
                · simp at hxa
                · rename_i hny; rw [if_neg hny] at hxi hxt; exact ⟨y, hy, hxi, hxt, hxa⟩
            · intro _; simp
            · intro j i hi
              cases j with
              | zero => simp at hi; subst hi; simpa using hco
              | succ j =>
                have := out.refused j i (by simpa using hi)
                rwa [hidx] at this
            · intro i hi
              have := out.notRefused i hi
              rw [hidx] at this; simpa using this
            · rw [out.dead, hall, hka, markDead_append]; rfl
            · intro i hi hq
              exact out.ok i hi (by rw [hidx]; simpa using hq)
            · intro i hi hq
              exact out.bad i hi (by rw [hidx]; simpa using hq)
            · exact out.ended
            · intro hr j
              have := out.refs (fun j => ?_) j
              · rw [hidx] at this; simpa using this
              · have hrj := hr j
                simp only [addRef]
                by_cases hj' : j = c.id
                · rw [if_pos hj', if_pos hj']
                  by_cases hj : j = b.id
                  · rw [if_pos hj]; rw [if_pos hj] at hrj; omega
                  · rw [if_neg hj]; rw [if_neg hj] at hrj; omega
                · rw [if_neg hj', if_neg hj']
                  by_cases hj : j = b.id
                  · rw [if_pos hj]; rw [if_pos hj] at hrj; omega
                  · rw [if_neg hj]; rw [if_neg hj] at hrj; omega
    · refine ⟨0, none, s, { l with backend := some b.id, refs := addRef l.refs l.backend (-1) }, [], none, ?_, h, ?_⟩
      · intro fuel _ n hn
        obtain ⟨n, rfl⟩ : ∃ k, n = k + 1 := ⟨n - 1, by omega⟩
        unfold connectLoop
        rw [show s.isRegular b.id = false by unfold SvcSt.isRegular; rw [hf]; simp [ht]]
        simp
      · refine ⟨by simp, by simp, by simp, by simp, by simp, by simp [markDead_nil], by simp, by simp, ?_, ?_⟩
        · exact fun _ => .inl ⟨rfl, b, hb, ht, hu, rfl, hop⟩
        · intro hr j
          simp only [addRef]
          cases hb : l.backend with
          | none => simp [hr, hb, eq_comm]
          | some i =>
            by_cases hj : j = i
            · subst hj; simp [hr, hb, eq_comm]; split <;> omega
            · simp [hj, hr, hb, Ne.symm hj, eq_comm]

end Pound
