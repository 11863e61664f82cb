import Verif.Proof.ControlEff

namespace Pound
open Spec

/-- What requests do not change -/
def keysOf (s : CSvc) : List (Nat × BeKind) := s.balancers.flatten.map fun b => (b.ptr, b.kind)

def SameShape (c c' : Conf) : Prop :=
  c'.listeners.length = c.listeners.length ∧ ∀ l, (servicesOf c' l).map keysOf = (servicesOf c l).map keysOf

theorem keysOf_flagSvc (dis : Bool) (o : Obj) (l : Option Nat) (i : Nat) (s : CSvc) : keysOf (flagSvc dis o l i s) = keysOf s := by
  unfold keysOf flagSvc
  rw [← List.map_flatten, List.map_map]
  rfl

theorem map_mapIdx_same {α β} {f : α → β} {g : Nat → α → α} (h : ∀ i a, f (g i a) = f a) (l : List α) : (l.mapIdx g).map f = l.map f := by
  apply List.ext_getElem?
  intro i
  rw [List.getElem?_map, List.getElem?_mapIdx, List.getElem?_map]
  cases l[i]? <;> simp [h]

theorem shape_setFlag (dis : Bool) (o : Obj) (c : Conf) : SameShape c (setFlag dis o c) := by
  refine ⟨by unfold setFlag; simp, ?_⟩
  intro l
  rw [servicesOf_setFlag]
  exact map_mapIdx_same (fun i a => keysOf_flagSvc dis o l i a) _

theorem shape_onSessions (l : Option Nat) (i : Nat) (f : CSvc → SessTab) (c : Conf) : SameShape c (onSessions l i f c) := by
  refine ⟨by unfold onSessions; simp, ?_⟩
  intro l'
  rw [servicesOf_onSessions]
  exact map_mapIdx_same (f := keysOf) (g := sessSvc l i f l') (fun i a => rfl) _

theorem keys_get {c c' : Conf} (h : SameShape c c') {l : Option Nat} {i : Nat} {s : CSvc} (hs : (servicesOf c l)[i]? = some s) :
    ∃ s', (servicesOf c' l)[i]? = some s' ∧ keysOf s' = keysOf s := by
  have := congrArg (fun x => x[i]?) (h.2 l)
  simp only [List.getElem?_map, hs, Option.map_some] at this
  obtain ⟨s', h1, h2⟩ := Option.map_eq_some_iff.mp this
  exact ⟨s', h1, h2⟩

theorem shape_symm {c c' : Conf} (h : SameShape c c') : SameShape c' c := ⟨h.1.symm, fun l => (h.2 l).symm⟩

theorem serves_listener (c : Conf) (k : Nat) :
    ServesControl c (.listener (some k)) ↔ ∃ i, ServesControl c (.service (some k) i) := by
  unfold ServesControl
  dsimp only
  constructor
  · rintro ⟨l, s, b, h1, h2, h3, h4⟩
    obtain ⟨i, hi⟩ := List.getElem?_of_mem h2
    refine ⟨i, s, b, ?_, h3, h4⟩
    unfold servicesOf
    dsimp only
    rw [h1]
    exact hi
  · rintro ⟨i, s, b, h1, h3, h4⟩
    unfold servicesOf at h1
    dsimp only at h1
    cases hl : c.listeners[k]? with
    | none => rw [hl] at h1; cases h1
    | some l =>
      rw [hl] at h1
      exact ⟨l, s, b, rfl, List.mem_of_getElem? h1, h3, h4⟩

theorem serves_mono {c c' : Conf} (h : SameShape c c') (o : Obj) (ho : ServesControl c o) : ServesControl c' o := by
  have hsv : ∀ l i, ServesControl c (.service l i) → ServesControl c' (.service l i) := by
    rintro l i ⟨s, b, h1, h2, h3⟩
    obtain ⟨s', h4, h5⟩ := keys_get h h1
    have hm : (b.ptr, b.kind) ∈ keysOf s' := by rw [h5]; exact List.mem_map.mpr ⟨b, h2, rfl⟩
    obtain ⟨b', h6, h7⟩ := List.mem_map.mp hm
    exact ⟨s', b', h4, h6, (congrArg Prod.snd h7).trans h3⟩
  cases o with
  | listener l =>
    cases l with
    | none => exact ho
    | some k =>
      rw [serves_listener] at ho ⊢
      obtain ⟨i, hi⟩ := ho
      exact ⟨i, hsv _ _ hi⟩
  | service l i => exact hsv _ _ ho
  | backend l i p =>
    obtain ⟨s, b, h1, h2, h2', h3⟩ := ho
    obtain ⟨s', h4, h5⟩ := keys_get h h1
    have hm : (b.ptr, b.kind) ∈ keysOf s' := by rw [h5]; exact List.mem_map.mpr ⟨b, h2, rfl⟩
    obtain ⟨b', h6, h7⟩ := List.mem_map.mp hm
    exact ⟨s', b', h4, h6, (congrArg Prod.fst h7).trans h2', (congrArg Prod.snd h7).trans h3⟩

theorem good_mono {c c' : Conf} (h : SameShape c c') (hc : GoodConf c) : GoodConf c' := by
  refine ⟨h.1 ▸ hc.listeners, ?_, ?_⟩
  · intro l
    have := congrArg List.length (h.2 l)
    simp only [List.length_map] at this
    rw [this]
    exact hc.services l
  · intro l s hs
    obtain ⟨i, hi⟩ := List.getElem?_of_mem hs
    obtain ⟨s', h1, h2⟩ := keys_get (shape_symm h) hi
    obtain ⟨h3, h4⟩ := hc.distinct l s' (List.mem_of_getElem? h1)
    have e : ∀ s : CSvc, s.balancers.flatten.map (·.ptr) = (keysOf s).map Prod.fst := by
      intro s; unfold keysOf; rw [List.map_map]; rfl
    have e2 : ∀ s : CSvc, s.balancers.flatten.length = (keysOf s).length := by
      intro s; unfold keysOf; rw [List.length_map]
    rw [e, e2, ← h2, ← e, ← e2]
    exact ⟨h3, h4⟩

theorem listeners_setFlag (dis : Bool) (o : Obj) (c : Conf) (k : Nat) :
    ((setFlag dis o c).listeners[k]?).map (·.disabled) = (c.listeners[k]?).map fun l => if o = .listener (some k) then dis else l.disabled := by
  unfold setFlag
  rw [List.getElem?_mapIdx]
  cases c.listeners[k]? <;> simp

theorem find_map_same {α} {f : α → α} {p : α → Bool} (h : ∀ a, p (f a) = p a) : ∀ l : List α, (l.map f).find? p = (l.find? p).map f
  | [] => rfl
  | a :: l => by
    rw [List.map_cons, List.find?_cons, List.find?_cons, h]
    cases p a with
    | true => rfl
    | false => exact find_map_same h l

/-- The flag of one object becomes `dis`, all others remain. -/
theorem flagOf_setFlag (dis : Bool) (o : Obj) (c : Conf) (o' : Obj) :
    flagOf (setFlag dis o c) o' = (flagOf c o').map fun x => if o' = o then dis else x := by
  cases o' with
  | listener l =>
    cases l with
    | none => rfl
    | some k =>
      unfold flagOf
      dsimp only
      rw [listeners_setFlag]
      cases c.listeners[k]? with
      | none => rfl
      | some l =>
        simp only [Option.map_some, Option.some.injEq]
        by_cases h : o = .listener (some k)
        · rw [if_pos h, if_pos h.symm]
        · rw [if_neg h, if_neg (fun e => h e.symm)]
  | service l i =>
    unfold flagOf
    dsimp only
    rw [servicesOf_setFlag, List.getElem?_mapIdx]
    cases (servicesOf c l)[i]? with
    | none => rfl
    | some s =>
      simp only [Option.map_some, Option.some.injEq, flagSvc]
      by_cases h : o = .service l i
      · rw [if_pos h, if_pos h.symm]
      · rw [if_neg h, if_neg (fun e => h e.symm)]
  | backend l i p =>
    unfold flagOf
    dsimp only
    rw [servicesOf_setFlag, List.getElem?_mapIdx]
    cases (servicesOf c l)[i]? with
    | none => rfl
    | some s =>
      simp only [Option.map_some, Option.bind_some, flagSvc]
      rw [← List.map_flatten, find_map_same, Option.map_map, Option.map_map]
      · cases hf : s.balancers.flatten.find? (·.ptr == p) with
        | none => rfl
        | some b =>
          have hb : b.ptr = p := by simpa using List.find?_some hf
          simp only [Option.map_some, Function.comp, Option.some.injEq, hb]
          by_cases h : o = .backend l i p
          · rw [if_pos h, if_pos h.symm]
          · rw [if_neg h, if_neg (fun e => h e.symm)]
      · intro a; rfl

theorem flagOf_onSessions (l : Option Nat) (i : Nat) (f : CSvc → SessTab) (c : Conf) (o : Obj) : flagOf (onSessions l i f c) o = flagOf c o := by
  cases o with
  | listener l =>
    cases l with
    | none => rfl
    | some k =>
      unfold flagOf onSessions
      dsimp only
      rw [List.getElem?_mapIdx]
      cases c.listeners[k]? <;> rfl
  | service l i =>
    unfold flagOf
    dsimp only
    rw [servicesOf_onSessions, List.getElem?_mapIdx]
    cases (servicesOf c l)[i]? <;> rfl
  | backend l i p =>
    unfold flagOf
    dsimp only
    rw [servicesOf_onSessions, List.getElem?_mapIdx]
    cases (servicesOf c l)[i]? <;> rfl

end Pound
