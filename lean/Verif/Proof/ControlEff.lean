import Verif.Proof.Control

namespace Pound

open Spec

theorem modify_eq_mapIdx {α} (l : List α) (i : Nat) (f : α → α) : l.modify i f = l.mapIdx fun j a => if j = i then f a else a := by
  apply List.ext_getElem?
  intro j
  rw [List.getElem?_modify, List.getElem?_mapIdx]
  cases l[j]? with
  | none => simp
  | some a =>
    by_cases h : i = j
    · subst h; simp
    · have : ¬ j = i := fun e => h e.symm
      simp [h, this]

theorem mapIdx_congr {α β} {l : List α} {f g : Nat → α → β} (h : ∀ j a, l[j]? = some a → f j a = g j a) : l.mapIdx f = l.mapIdx g := by
  apply List.ext_getElem?
  intro j
  rw [List.getElem?_mapIdx, List.getElem?_mapIdx]
  cases hj : l[j]? with
  | none => rfl
  | some a => simp [h j a hj]

theorem mapIdx_id {α} {l : List α} {f : Nat → α → α} (h : ∀ j a, l[j]? = some a → f j a = a) : l.mapIdx f = l := by
  apply List.ext_getElem?
  intro j
  rw [List.getElem?_mapIdx]
  cases hj : l[j]? with
  | none => rfl
  | some a => simp [h j a hj]

theorem flagSvc_id {dis : Bool} {o : Obj} {l : Option Nat} {i : Nat} {s : CSvc} (h1 : o ≠ .service l i) (h2 : ∀ p, o ≠ .backend l i p) :
    flagSvc dis o l i s = s := by
  unfold flagSvc
  simp [h1, h2]

theorem setFlag_listener (dis : Bool) (k : Nat) (c : Conf) :
    { c with listeners := c.listeners.modify k (fun l : CLst => { l with disabled := dis }) } = setFlag dis (.listener (some k)) c := by
  unfold setFlag
  rw [modify_eq_mapIdx]
  congr 1
  · apply mapIdx_congr
    intro j a _
    rw [mapIdx_id (fun j a _ => flagSvc_id (by simp) (by simp))]
    by_cases h : j = k
    · subst h; simp
    · have : ¬ k = j := fun e => h e.symm
      simp [h, this]
  · rw [mapIdx_id (fun j a _ => flagSvc_id (by simp) (by simp))]

/-- setSvc as a pointwise change -/
theorem setSvc_eq (c : Conf) (l : Option Nat) (i : Nat) (f : CSvc → CSvc) :
    c.setSvc l i f =
      { listeners := c.listeners.mapIdx fun k l' => { l' with services := l'.services.mapIdx fun j s => if some k = l ∧ j = i then f s else s }
        services := c.services.mapIdx fun j s => if none = l ∧ j = i then f s else s } := by
  unfold Conf.setSvc
  cases l with
  | none =>
    dsimp only
    rw [modify_eq_mapIdx]
    congr 1
    · symm
      apply mapIdx_id
      intro j a _
      rw [mapIdx_id (by simp)]
    · simp
  | some k =>
    dsimp only
    rw [modify_eq_mapIdx]
    congr 1
    · apply mapIdx_congr
      intro j a _
      by_cases h : j = k
      · subst h
        rw [if_pos rfl, modify_eq_mapIdx]
        simp
      · rw [if_neg h]
        rw [mapIdx_id]
        intro j' a' _
        simp [h]
    · symm
      apply mapIdx_id
      simp

theorem setFlag_service (dis : Bool) (l : Option Nat) (i : Nat) (c : Conf) :
    c.setSvc l i (fun s : CSvc => { s with disabled := dis }) = setFlag dis (.service l i) c := by
  have h : ∀ l' j (s : CSvc), (if l' = l ∧ j = i then { s with disabled := dis } else s) = flagSvc dis (.service l i) l' j s := by
    intro l' j s
    unfold flagSvc
    by_cases h : l' = l ∧ j = i
    · obtain ⟨rfl, rfl⟩ := h
      simp
    · have : ¬ (l = l' ∧ i = j) := fun e => h ⟨e.1.symm, e.2.symm⟩
      simp [h, this]
  rw [setSvc_eq]
  unfold setFlag
  simp only [h]
  simp

theorem setFlag_backend (dis : Bool) (l : Option Nat) (i p : Nat) (c : Conf)
    (hk : ∀ s, (servicesOf c l)[i]? = some s → ∀ b ∈ s.balancers.flatten, b.ptr = p → b.kind = .regular ∨ b.kind = .matrix) :
    c.setSvc l i (CSvc.disableBe dis p) = setFlag dis (.backend l i p) c := by
  have h : ∀ l' j (s : CSvc), (servicesOf c l')[j]? = some s →
      (if l' = l ∧ j = i then CSvc.disableBe dis p s else s) = flagSvc dis (.backend l i p) l' j s := by
    intro l' j s hs
    unfold flagSvc CSvc.disableBe
    by_cases h : l' = l ∧ j = i
    · obtain ⟨rfl, rfl⟩ := h
      simp only [and_self, if_true]
      congr 1
      apply List.map_congr_left
      intro bl hbl
      apply List.map_congr_left
      intro b hb
      have hm := hk s hs b (List.mem_flatten.mpr ⟨bl, hbl, hb⟩)
      unfold beDisable
      by_cases hp : b.ptr = p
      · subst hp
        simp [hm rfl]
      · have : ¬ p = b.ptr := fun e => hp e.symm
        simp [hp, this]
    · have h' : ¬ (l = l' ∧ i = j) := fun e => h ⟨e.1.symm, e.2.symm⟩
      rw [if_neg h]
      have h'' : ∀ q, ¬ (l = l' ∧ i = j ∧ p = q) := fun q e => h' ⟨e.1, e.2.1⟩
      simp [h'']
  rw [setSvc_eq]
  unfold setFlag
  congr 1
  · apply mapIdx_congr
    intro k a ha
    have : a.services.mapIdx (fun j s => if some k = l ∧ j = i then CSvc.disableBe dis p s else s) =
        a.services.mapIdx (flagSvc dis (.backend l i p) (some k)) := by
      apply mapIdx_congr
      intro j s hs
      exact h (some k) j s (by simp [servicesOf, ha, hs])
    simp only [this]
    simp
  · apply mapIdx_congr
    intro j s hs
    exact h none j s hs

/-- Nothing happens for backends of other types. -/
theorem disableBe_other (dis : Bool) (l : Option Nat) (i p : Nat) (c : Conf)
    (hk : ∀ s, (servicesOf c l)[i]? = some s → ∀ b ∈ s.balancers.flatten, b.ptr = p → ¬ (b.kind = .regular ∨ b.kind = .matrix)) :
    c.setSvc l i (CSvc.disableBe dis p) = c := by
  have h : ∀ l' j (s : CSvc), (servicesOf c l')[j]? = some s → (if l' = l ∧ j = i then CSvc.disableBe dis p s else s) = s := by
    intro l' j s hs
    split
    · rename_i h
      obtain ⟨rfl, rfl⟩ := h
      unfold CSvc.disableBe
      have : (s.balancers.map fun bl => bl.map (beDisable dis p)) = s.balancers := by
        rw [List.map_congr_left (g := id), List.map_id]
        intro bl hbl
        rw [List.map_congr_left (g := id), List.map_id]
        · rfl
        intro b hb
        unfold beDisable
        rw [if_neg]
        · rfl
        rintro ⟨hp, hq⟩
        exact hk s hs b (List.mem_flatten.mpr ⟨bl, hbl, hb⟩) hp hq
      rw [this]
    · rfl
  rw [setSvc_eq]
  have e1 : (c.listeners.mapIdx fun k l' => { l' with services := l'.services.mapIdx fun j s => if some k = l ∧ j = i then CSvc.disableBe dis p s else s }) =
      c.listeners := by
    apply mapIdx_id
    intro k a ha
    rw [mapIdx_id]
    intro j s hs
    exact h (some k) j s (by simp [servicesOf, ha, hs])
  have e2 : (c.services.mapIdx fun j s => if none = l ∧ j = i then CSvc.disableBe dis p s else s) = c.services :=
    mapIdx_id fun j s hs => h none j s hs
  rw [e1, e2]

theorem onSessions_eq (l : Option Nat) (i : Nat) (f : CSvc → SessTab) (c : Conf) :
    c.setSvc l i (fun s : CSvc => { s with sessions := f s }) = onSessions l i f c := by
  have h : ∀ l' j (s : CSvc), (if l' = l ∧ j = i then { s with sessions := f s } else s) = sessSvc l i f l' j s := by
    intro l' j s
    unfold sessSvc
    split <;> rfl
  rw [setSvc_eq]
  unfold onSessions
  simp only [h]

theorem tableAt_eq (c : Conf) (l : Option Nat) (i : Nat) {sv : CSvc} (h : (servicesOf c l)[i]? = some sv) : c.tableAt l i = sv.hasTable := by
  have e : c.svcs l = servicesOf c l := by
    cases l with
    | none => rfl
    | some k =>
      unfold Conf.svcs servicesOf
      dsimp only
      cases c.listeners[k]? <;> rfl
  unfold Conf.tableAt
  rw [e, h]

theorem servicesOf_setFlag (dis : Bool) (o : Obj) (c : Conf) (l : Option Nat) :
    servicesOf (setFlag dis o c) l = (servicesOf c l).mapIdx (flagSvc dis o l) := by
  cases l with
  | none => rfl
  | some k =>
    unfold servicesOf setFlag
    dsimp only
    rw [List.getElem?_mapIdx]
    cases c.listeners[k]? <;> simp

theorem servicesOf_onSessions (l : Option Nat) (i : Nat) (f : CSvc → SessTab) (c : Conf) (l' : Option Nat) :
    servicesOf (onSessions l i f c) l' = (servicesOf c l').mapIdx (sessSvc l i f l') := by
  cases l' with
  | none => rfl
  | some k =>
    unfold servicesOf onSessions
    dsimp only
    rw [List.getElem?_mapIdx]
    cases c.listeners[k]? <;> simp

theorem beIsControl_iff {c : Conf} (hc : GoodConf c) (l : Option Nat) (i p : Nat) :
    beIsControl (svcBe c l i p) = true ↔ ServesControl c (.backend l i p) := by
  unfold svcBe ServesControl
  rw [svcs_eq]
  cases hs : (servicesOf c l)[i]? with
  | none => simp [beIsControl, hs]
  | some s =>
    dsimp only
    have hn := (hc.distinct l s (List.mem_of_getElem? hs)).1
    have huniq : ∀ (L : List CBe), (L.map (·.ptr)).Nodup → (beIsControl (L.find? fun b => b.ptr == p) = true ↔ ∃ b ∈ L, b.ptr = p ∧ b.kind = .control) := by
      intro L
      induction L with
      | nil => intro _; simp [beIsControl]
      | cons x L ih =>
        intro hnd
        rw [List.map_cons, List.nodup_cons] at hnd
        rw [List.find?_cons]
        by_cases hp : x.ptr = p
        · have : (x.ptr == p) = true := by simpa using hp
          rw [this]
          dsimp only
          constructor
          · intro h
            exact ⟨x, by simp, hp, by simpa [beIsControl] using h⟩
          · rintro ⟨b, hb, hbp, hk⟩
            rcases List.mem_cons.mp hb with rfl | hb
            · simp [beIsControl, hk]
            · exact absurd (List.mem_map.mpr ⟨b, hb, hbp.trans hp.symm⟩) hnd.1
        · have : (x.ptr == p) = false := by simpa using hp
          rw [this]
          dsimp only
          rw [ih hnd.2]
          constructor
          · rintro ⟨b, hb, h⟩; exact ⟨b, by simp [hb], h⟩
          · rintro ⟨b, hb, hbp, hk⟩
            rcases List.mem_cons.mp hb with rfl | hb
            · exact absurd hbp hp
            · exact ⟨b, hb, hbp, hk⟩
    rw [huniq _ hn]
    constructor
    · rintro ⟨b, hb, h⟩; exact ⟨s, b, hs, hb, h⟩
    · rintro ⟨s', b, e, hb, h⟩; rw [hs] at e; cases e; exact ⟨b, hb, h⟩

theorem hasControl_iff (s : CSvc) : s.hasControl = true ↔ ∃ b ∈ s.balancers.flatten, b.kind = .control := by
  unfold CSvc.hasControl
  simp only [List.any_eq_true, beq_iff_eq, List.mem_flatten]
  constructor
  · rintro ⟨bl, h1, b, h2, h3⟩; exact ⟨b, ⟨bl, h1, h2⟩, h3⟩
  · rintro ⟨b, ⟨bl, h1, h2⟩, h3⟩; exact ⟨bl, h1, b, h2, h3⟩

theorem svcIsControl_iff (c : Conf) (l : Option Nat) (i : Nat) :
    svcIsControl (c.svcs l)[i]? = true ↔ ServesControl c (.service l i) := by
  rw [svcs_eq]
  unfold ServesControl
  cases hs : (servicesOf c l)[i]? with
  | none => simp [svcIsControl, hs]
  | some s =>
    show s.hasControl = true ↔ _
    rw [hasControl_iff]
    constructor
    · rintro ⟨b, hb, h⟩; exact ⟨s, b, hs, hb, h⟩
    · rintro ⟨s', b, e, hb, h⟩; rw [hs] at e; cases e; exact ⟨b, hb, h⟩

theorem lstIsControl_iff (c : Conf) (k : Nat) : lstIsControl c.listeners[k]? = true ↔ ServesControl c (.listener (some k)) := by
  unfold ServesControl
  cases hs : c.listeners[k]? with
  | none => simp [lstIsControl, hs]
  | some l =>
    show l.services.any CSvc.hasControl = true ↔ _
    simp only [List.any_eq_true, hasControl_iff]
    constructor
    · rintro ⟨s, hs', b, hb, h⟩; exact ⟨l, s, b, hs, hs', hb, h⟩
    · rintro ⟨l', s, b, e, hs', hb, h⟩; rw [hs] at e; cases e; exact ⟨s, hs', b, hb, h⟩

/-- The type of backend named by an address, in a good configuration -/
theorem kind_dich {c : Conf} (hc : GoodConf c) (l : Option Nat) (i p : Nat) :
    (∀ s, (servicesOf c l)[i]? = some s → ∀ b ∈ s.balancers.flatten, b.ptr = p → b.kind = .regular ∨ b.kind = .matrix) ∨
    (∀ s, (servicesOf c l)[i]? = some s → ∀ b ∈ s.balancers.flatten, b.ptr = p → ¬ (b.kind = .regular ∨ b.kind = .matrix)) := by
  cases hs : (servicesOf c l)[i]? with
  | none => left; intro s e; cases e
  | some s =>
    have hn := (hc.distinct l s (List.mem_of_getElem? hs)).1
    by_cases h : ∃ b ∈ s.balancers.flatten, b.ptr = p ∧ (b.kind = .regular ∨ b.kind = .matrix)
    · left
      obtain ⟨b, hb, hp, hk⟩ := h
      intro s' e b' hb' hp'
      cases e
      have : b' = b := by
        have huniq : ∀ (L : List CBe), (L.map (·.ptr)).Nodup → ∀ b ∈ L, ∀ b' ∈ L, b.ptr = b'.ptr → b' = b := by
          intro L
          induction L with
          | nil => intro _ b hb; cases hb
          | cons x L ih =>
            intro hnd b hb b' hb' e
            rw [List.map_cons, List.nodup_cons] at hnd
            rcases List.mem_cons.mp hb with rfl | hb1 <;> rcases List.mem_cons.mp hb' with rfl | hb1'
            · rfl
            · exact absurd (List.mem_map.mpr ⟨b', hb1', e.symm⟩) hnd.1
            · exact absurd (List.mem_map.mpr ⟨b, hb1, e⟩) hnd.1
            · exact ih hnd.2 b hb1 b' hb1' e
        exact huniq _ hn b hb b' hb' (hp.trans hp'.symm)
      rw [this]; exact hk
    · right
      intro s' e b hb hp hk
      cases e
      exact h ⟨b, hb, hp, hk⟩

theorem disable_effect {c c' : Conf} (hc : GoodConf c) {dis : Bool} {o : Obj} {url : Bytes} {r : CReply}
    (h : disableHandler dis c o url = .ok (c', r)) : c' = c ∨ (¬ ServesControl c o ∧ c' = setFlag dis o c) := by
  unfold disableHandler at h
  have fin : ∀ c1 : Conf, (match sendJson .true url with | .ub => .ub | .ok r => Res.ok (c1, r)) = Res.ok (c', r) → c' = c1 := by
    intro c1 h
    split at h
    · cases h
    · cases h; rfl
  split at h
  · cases h; exact Or.inl rfl
  · dsimp only at h
    split at h
    · rename_i l i p
      split at h
      · cases h; exact Or.inl rfl
      · rename_i hn
        rw [beIsControl_iff hc] at hn
        have := fin _ h
        rcases kind_dich hc l i p with hk | hk
        · right; exact ⟨hn, this.trans (setFlag_backend dis l i p c hk)⟩
        · left; exact this.trans (disableBe_other dis l i p c hk)
    · rename_i l i
      split at h
      · cases h; exact Or.inl rfl
      · rename_i hn
        rw [svcIsControl_iff] at hn
        right; exact ⟨hn, (fin _ h).trans (setFlag_service dis l i c)⟩
    · cases h
    · rename_i k
      split at h
      · cases h; exact Or.inl rfl
      · rename_i hn
        rw [lstIsControl_iff] at hn
        right; exact ⟨hn, (fin _ h).trans (setFlag_listener dis k c)⟩

/-- What any control request may do -/
inductive Effect (c : Conf) (m : CMeth) : Conf → Prop
  | none : Effect c m c
  | flag {o dis} : ¬ ServesControl c o → (m = .delete ∧ dis = true ∨ m = .put ∧ dis = false) → Effect c m (setFlag dis o c)
  | sessions {l i f} : (m = .delete ∨ m = .put) → Effect c m (onSessions l i f c)

theorem withPath_effect {c c' : Conf} {url : Bytes} {find : Bytes → Option (Obj × Bytes)} {f : Obj → Bytes → Res (Conf × CReply)} {r : CReply}
    {P : Conf → Prop} (h0 : P c) (hf : ∀ o u r c', f o u = .ok (c', r) → P c') (h : withPath c url find f = .ok (c', r)) : P c' := by
  unfold withPath at h
  split at h
  · split at h
    · cases h; exact h0
    · exact hf _ _ _ _ h
  · cases h; exact h0

theorem pureReply_effect {c c' : Conf} {x : Res CReply} {r : CReply} (h : pureReply c x = .ok (c', r)) : c' = c := by
  unfold pureReply at h
  split at h
  · cases h
  · cases h; rfl

theorem remove_effect {c c' : Conf} {o : Obj} {url : Bytes} {r : CReply} (h : sessionRemoveHandler c o url = .ok (c', r)) :
    Effect c .delete c' := by
  unfold sessionRemoveHandler at h
  split at h
  · split at h
    · cases h
    · cases h; exact .none
    · split at h
      · cases h
      dsimp only at h
      split at h
      · cases h
      · cases h
        rw [onSessions_eq]
        exact .sessions (Or.inl rfl)
  · cases h; exact .none

theorem add_effect {now : TS} {c c' : Conf} {o : Obj} {url : Bytes} {r : CReply} (h : sessionAddHandler now c o url = .ok (c', r)) :
    Effect c .put c' := by
  unfold sessionAddHandler at h
  split at h
  · split at h
    · cases h
    · cases h; exact .none
    · split at h
      · cases h
      dsimp only at h
      split at h
      · cases h
      · cases h
        rw [onSessions_eq _ _ (fun s => (s.sessions.add s.ttl now _ _).1)]
        exact .sessions (Or.inr rfl)
  · cases h; exact .none

end Pound
