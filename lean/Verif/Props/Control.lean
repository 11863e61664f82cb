import Verif.Proof.ControlDisp
import Verif.Proof.ControlHist

/-!
C25-C27: the control interface.
-/

namespace Pound.Props
open Spec

/-! ### C25 -/

/-- A configuration for the examples: two listeners, the second with the control interface -/
def exCBe (p : Nat) (k : BeKind) : CBe := ⟨p, k, false⟩
def exCSvc (n : Option Bytes) (bals : List (List CBe)) : CSvc := ⟨n, false, bals, true, SessTab.init, 60, true⟩
def exCConf : Conf :=
  ⟨[⟨some b!"web", false, [exCSvc none [[exCBe 1 .regular], [exCBe 2 .regular, exCBe 3 .other]], exCSvc (some b!"api") [[exCBe 4 .matrix]]]⟩,
    ⟨some b!"ctl", false, [{ exCSvc none [[exCBe 5 .control]] with hasSessions := false, hasTable := false }]⟩], [exCSvc (some b!"-x") [[exCBe 6 .regular]]]⟩

/-- Requests under /listener: the path LISTENER[/SERVICE[/BACKEND]] is resolved to exactly the object it names, in the order of the configuration;
a longer path, or one that names no object, gets 404.  DELETE disables the object and PUT enables it, nothing else changes, and
objects which serve the control interface are refused.
Missing: empty segments, numbers with a sign or space (see below); the global level can only be listed; backends that are no regular or
matrix ones are not changed. -/
theorem C25_switch_partial (now : TS) (c : Conf) (hc : GoodConf c) (segs : List Bytes) (hs : ∀ s ∈ segs, Segment s) (hne : segs ≠ [])
    (q : Bytes) (n : Nat) (hq : IndentQuery q n) (m : CMeth) (dis : Bool) (hm : m = .delete ∧ dis = true ∨ m = .put ∧ dis = false) :
    (∀ o, Resolves c segs o → ServesControl c o →
      controlResponse now c m (b!"/listener" ++ slashes segs ++ q) = .ok (c, ⟨.badRequest, none⟩)) ∧
    (∀ o, Resolves c segs o → ¬ ServesControl c o → o ≠ .listener none →
      (∀ l i p, o = .backend l i p → ∀ s ∈ servicesOf c l, ∀ b ∈ s.balancers.flatten, b.ptr = p → b.kind = .regular ∨ b.kind = .matrix) →
      controlResponse now c m (b!"/listener" ++ slashes segs ++ q) = .ok (setFlag dis o c, ⟨.ok, some (.true, n)⟩)) ∧
    ((∀ o, ¬ Resolves c segs o) → controlResponse now c m (b!"/listener" ++ slashes segs ++ q) = .ok (c, ⟨.notFound, none⟩)) := by
  have hqh := indentQuery_head hq
  have hend : EndOr (slashes segs ++ q) := endOr_slashes hqh
  have hresp : controlResponse now c m (b!"/listener" ++ slashes segs ++ q) = withPath c (slashes segs ++ q) (ctlListener c) (disableHandler dis c) := by
    unfold controlResponse
    rcases hm with ⟨rfl, rfl⟩ | ⟨rfl, rfl⟩
    · rw [List.append_assoc, endpoint_at (e := ⟨b!"/listener", .delete, .disableListener⟩) (by decide) hend (by decide)]
      rfl
    · rw [List.append_assoc, endpoint_at (e := ⟨b!"/listener", .put, .enableListener⟩) (by decide) hend (by decide)]
      rfl
  have hhead : (slashes segs ++ q).head? = some ch%'/' := by
    cases segs with
    | nil => exact absurd rfl hne
    | cons s r => rfl
  have hmq : more q = false := by have := more_slashes (segs := []) hqh; simpa [slashes] using this
  rw [hresp]
  unfold withPath
  rw [if_pos hhead]
  refine ⟨?_, ?_, ?_⟩
  · intro o ho hctl
    have hp := (path_iff hc hs hne hqh o q).mpr ⟨segs, [], by simp, ho, rfl, by simp⟩
    rw [hp]
    dsimp only
    unfold disableHandler
    rw [hmq]
    simp only [Bool.false_eq_true, if_false]
    cases o with
    | backend l i p => simp only [(beIsControl_iff hc l i p).mpr hctl, if_true]
    | service l i => simp only [(svcIsControl_iff c l i).mpr hctl, if_true]
    | listener l =>
      cases l with
      | none => exact hctl.elim
      | some k => simp only [(lstIsControl_iff c k).mpr hctl, if_true]
  · intro o ho hctl hng hk
    have hp := (path_iff hc hs hne hqh o q).mpr ⟨segs, [], by simp, ho, rfl, by simp⟩
    rw [hp]
    dsimp only
    unfold disableHandler
    rw [hmq, sendJson_query hq]
    simp only [Bool.false_eq_true, if_false]
    cases o with
    | backend l i p =>
      have : ¬ beIsControl (svcBe c l i p) = true := fun h => hctl ((beIsControl_iff hc l i p).mp h)
      dsimp only
      rw [if_neg this]
      rw [setFlag_backend]
      intro s hs b hb hbp
      exact hk l i p rfl s (List.mem_of_getElem? hs) b hb hbp
    | service l i =>
      have : ¬ svcIsControl (c.svcs l)[i]? = true := fun h => hctl ((svcIsControl_iff c l i).mp h)
      dsimp only
      rw [if_neg this, setFlag_service]
    | listener l =>
      cases l with
      | none => exact absurd rfl hng
      | some k =>
        have : ¬ lstIsControl c.listeners[k]? = true := fun h => hctl ((lstIsControl_iff c k).mp h)
        dsimp only
        rw [if_neg this, setFlag_listener]
  · intro hno
    cases hx : ctlListener c (slashes segs ++ q) with
    | none => rfl
    | some x =>
      obtain ⟨o, u⟩ := x
      obtain ⟨s1, s2, e, h1, rfl, h3⟩ := (path_iff hc hs hne hqh o u).mp hx
      dsimp only
      have hs2 : s2 ≠ [] := by
        rintro rfl
        rw [List.append_nil] at e
        exact hno o (e ▸ h1)
      unfold disableHandler
      rw [if_pos]
      rw [more_slashes hqh]
      cases s2 with
      | nil => exact absurd rfl hs2
      | cons => rfl

/-- A path names at most one object. -/
theorem C25_unique (c : Conf) (segs : List Bytes) (o o' : Obj) (h : Resolves c segs o) (h' : Resolves c segs o') : o = o' := by
  have hd : ∀ names s i j, Designates names s i → Designates names s j → i = j := by
    intro names s i j h h'
    cases h with
    | index h1 _ =>
      cases h' with
      | index h2 _ => exact isIndex_fun h1 h2
      | name h2 _ _ => exact absurd h1 (h2 _)
    | name h1 h2 h3 =>
      cases h' with
      | index k _ => exact absurd k (h1 _)
      | name _ k2 k3 =>
        rcases Nat.lt_trichotomy i j with hlt | rfl | hlt
        · exact absurd h2 (k3 i hlt)
        · rfl
        · exact absurd k2 (h3 j hlt)
  have hl : ∀ a l l', Resolves c [a] (.listener l) → Resolves c [a] (.listener l') → l = l' := by
    intro a l l' h h'
    cases h with
    | global =>
      cases h' with
      | global => rfl
      | listener h1 _ => exact absurd rfl h1
    | listener h1 h2 =>
      cases h' with
      | global => exact absurd rfl h1
      | listener _ k2 => rw [hd _ _ _ _ h2 k2]
  have hsv : ∀ a s l i l' i', Resolves c [a, s] (.service l i) → Resolves c [a, s] (.service l' i') → l = l' ∧ i = i' := by
    intro a s l i l' i' h h'
    cases h with
    | service h1 h2 =>
      cases h' with
      | service k1 k2 =>
        obtain rfl := hl _ _ _ h1 k1
        exact ⟨rfl, hd _ _ _ _ h2 k2⟩
  cases h with
  | global =>
    cases h' with
    | global => rfl
    | listener h1 _ => exact absurd rfl h1
  | listener h1 h2 =>
    cases h' with
    | global => exact absurd rfl h1
    | listener _ k2 => rw [hd _ _ _ _ h2 k2]
  | service h1 h2 =>
    cases h' with
    | service k1 k2 =>
      obtain ⟨rfl, rfl⟩ := hsv _ _ _ _ _ _ (.service h1 h2) (.service k1 k2)
      rfl
  | backend h1 h2 h3 h4 =>
    cases h' with
    | backend k1 k2 k3 k4 =>
      obtain ⟨rfl, rfl⟩ := hsv _ _ _ _ _ _ h1 k1
      rw [h2] at k2
      cases k2
      rw [isIndex_fun h3 k3, k4] at h4
      cases h4
      rfl

/-- GET lists the object that is named. -/
theorem C25_list (now : TS) (c : Conf) (hc : GoodConf c) (segs : List Bytes) (hs : ∀ s ∈ segs, Segment s) (hne : segs ≠ [])
    (q : Bytes) (n : Nat) (hq : IndentQuery q n) :
    (∀ o, Resolves c segs o → controlResponse now c .get (b!"/listener" ++ slashes segs ++ q) = .ok (c, ⟨.ok, some (.object o, n)⟩)) ∧
    ((∀ o, ¬ Resolves c segs o) → controlResponse now c .get (b!"/listener" ++ slashes segs ++ q) = .ok (c, ⟨.notFound, none⟩)) := by
  have hqh := indentQuery_head hq
  have hend : EndOr (slashes segs ++ q) := endOr_slashes hqh
  have hhead : (slashes segs ++ q).head? = some ch%'/' := by
    cases segs with
    | nil => exact absurd rfl hne
    | cons s r => rfl
  have hmq : more q = false := by have := more_slashes (segs := []) hqh; simpa [slashes] using this
  unfold controlResponse
  rw [List.append_assoc, endpoint_at (e := ⟨b!"/listener", .get, .listListener⟩) (by decide) hend (by decide)]
  have e1 : (b!"/listener" ++ (slashes segs ++ q)).drop (b!"/listener").length = slashes segs ++ q := rfl
  dsimp only
  rw [e1]
  unfold endFn withPath
  dsimp only
  rw [if_pos hhead]
  refine ⟨?_, ?_⟩
  · intro o ho
    have hp := (path_iff hc hs hne hqh o q).mpr ⟨segs, [], by simp, ho, rfl, by simp⟩
    rw [hp]
    dsimp only
    unfold listHandler
    rw [hmq, sendJson_query hq]
    rfl
  · intro hno
    cases hx : ctlListener c (slashes segs ++ q) with
    | none => rfl
    | some x =>
      obtain ⟨o, u⟩ := x
      obtain ⟨s1, s2, e, h1, rfl, h3⟩ := (path_iff hc hs hne hqh o u).mp hx
      dsimp only
      have hs2 : s2 ≠ [] := by
        rintro rfl
        rw [List.append_nil] at e
        exact hno o (e ▸ h1)
      unfold listHandler
      rw [if_pos]
      · rfl
      · rw [more_slashes hqh]
        cases s2 with
        | nil => exact absurd rfl hs2
        | cons => rfl

/-- Requests to /service/SERVICE[/BACKEND] are the same as to SERVICE[/BACKEND] of the listener "-". -/
theorem C25_service (now : TS) (c : Conf) (hc : GoodConf c) (segs : List Bytes) (hs : ∀ s ∈ segs, Segment s) (hne : segs ≠ [])
    (q : Bytes) (hqh : ∀ c, q.head? = some c → c = ch%'?') (m : CMeth) (hm : m = .get ∨ m = .delete ∨ m = .put) :
    controlResponse now c m (b!"/service" ++ slashes segs ++ q) = controlResponse now c m (b!"/listener" ++ slashes (b!"-" :: segs) ++ q) := by
  have hend : EndOr (slashes segs ++ q) := endOr_slashes hqh
  have hend' : EndOr (slashes (b!"-" :: segs) ++ q) := endOr_slashes hqh
  have hl : ctlListener c (slashes (b!"-" :: segs) ++ q) = ctlService c (slashes segs ++ q) none := by
    apply Option.ext
    intro x
    rw [slashes_cons, ctlListener_iff hc.listeners dash_segment hend]
    have hm : more (slashes segs ++ q) = true := by
      rw [more_slashes hqh]
      cases segs with
      | nil => exact absurd rfl hne
      | cons => rfl
    constructor
    · rintro ⟨l, h1, h2⟩
      cases h1 with
      | global => unfold ctlListenerAt at h2; rwa [if_pos hm] at h2
      | listener h _ => exact absurd rfl h
    · intro h
      exact ⟨none, .global, by unfold ctlListenerAt; rwa [if_pos hm]⟩
  have hhead : (slashes segs ++ q).head? = some ch%'/' := by
    cases segs with
    | nil => exact absurd rfl hne
    | cons s r => rfl
  have hw : ∀ f, withPath c (slashes segs ++ q) (fun u => ctlService c u none) f = withPath c (slashes (b!"-" :: segs) ++ q) (ctlListener c) f := by
    intro f
    unfold withPath
    rw [if_pos hhead, if_pos (by rfl), hl]
  unfold controlResponse
  rw [List.append_assoc, List.append_assoc]
  rcases hm with rfl | rfl | rfl
  · rw [endpoint_at (e := ⟨b!"/service", .get, .listService⟩) (by decide) hend (by decide),
      endpoint_at (e := ⟨b!"/listener", .get, .listListener⟩) (by decide) hend' (by decide)]
    exact hw _
  · rw [endpoint_at (e := ⟨b!"/service", .delete, .disableService⟩) (by decide) hend (by decide),
      endpoint_at (e := ⟨b!"/listener", .delete, .disableListener⟩) (by decide) hend' (by decide)]
    exact hw _
  · rw [endpoint_at (e := ⟨b!"/service", .put, .enableService⟩) (by decide) hend (by decide),
      endpoint_at (e := ⟨b!"/listener", .put, .enableListener⟩) (by decide) hend' (by decide)]
    exact hw _

/-- PUT /session/LISTENER/SERVICE/BACKEND?key=KEY makes a session of that service lead to that backend, DELETE
/session/LISTENER/SERVICE?key=KEY removes it; nothing else changes.  Missing: services without a session table (C25_no_table_fails). -/
theorem C25_sessions_partial (now : TS) (c : Conf) (hc : GoodConf c) (segs : List Bytes) (hs : ∀ s ∈ segs, Segment s) (hne : segs ≠ [])
    (k : Bytes) (hk : ∀ c ∈ k, c ≠ ch%'&') (hl : k.length ≤ 127) :
    (∀ l i p sv, Resolves c segs (.backend l i p) → (servicesOf c l)[i]? = some sv → sv.hasTable = true → controlResponse now c .put (b!"/session" ++ slashes segs ++ (b!"?key=" ++ k)) =
      .ok (onSessions l i (fun s => (s.sessions.add s.ttl now k p).1) c, ⟨.ok, some (.object (.service l i), 0)⟩)) ∧
    (∀ l i sv, Resolves c segs (.service l i) → (servicesOf c l)[i]? = some sv → sv.hasTable = true → controlResponse now c .delete (b!"/session" ++ slashes segs ++ (b!"?key=" ++ k)) =
      .ok (onSessions l i (fun s => s.sessions.removeKey k) c, ⟨.ok, some (.object (.service l i), 0)⟩)) := by
  have hqh : ∀ c, (b!"?key=" ++ k).head? = some c → c = ch%'?' := by
    intro c hc
    exact (Option.some.inj hc).symm
  have hend : EndOr (slashes segs ++ (b!"?key=" ++ k)) := endOr_slashes hqh
  have hhead : (slashes segs ++ (b!"?key=" ++ k)).head? = some ch%'/' := by
    cases segs with
    | nil => exact absurd rfl hne
    | cons s r => rfl
  have e1 : (b!"/session" ++ (slashes segs ++ (b!"?key=" ++ k))).drop (b!"/session").length = slashes segs ++ (b!"?key=" ++ k) := rfl
  unfold controlResponse
  rw [List.append_assoc]
  refine ⟨?_, ?_⟩
  · intro l i p sv ho hsv htab
    rw [endpoint_at (e := ⟨b!"/session", .put, .addSession⟩) (by decide) hend (by decide)]
    dsimp only
    rw [e1]
    unfold endFn withPath
    dsimp only
    rw [if_pos hhead, (path_iff hc hs hne hqh _ _).mpr ⟨segs, [], by simp, ho, rfl, by simp⟩]
    dsimp only
    unfold sessionAddHandler
    rw [show slashes [] ++ (b!"?key=" ++ k) = b!"?key=" ++ k from rfl, sessionKey_query hk hl]
    dsimp only
    rw [tableAt_eq c l i hsv, htab, if_neg (by simp), sendJson_key hk]
    dsimp only
    rw [onSessions_eq _ _ (fun s => (s.sessions.add s.ttl now k p).1)]
  · intro l i sv ho hsv htab
    rw [endpoint_at (e := ⟨b!"/session", .delete, .deleteSession⟩) (by decide) hend (by decide)]
    dsimp only
    rw [e1]
    unfold endFn withPath
    dsimp only
    rw [if_pos hhead, (path_iff hc hs hne hqh _ _).mpr ⟨segs, [], by simp, ho, rfl, by simp⟩]
    dsimp only
    unfold sessionRemoveHandler
    rw [show slashes [] ++ (b!"?key=" ++ k) = b!"?key=" ++ k from rfl, sessionKey_query hk hl]
    dsimp only
    rw [tableAt_eq c l i hsv, htab, if_neg (by simp), sendJson_key hk]
    dsimp only
    rw [onSessions_eq _ _ (fun s => s.sessions.removeKey k)]

/-- Whatever the request (any method, any text): either nothing changes, or the flag of one object that does not serve
the control interface, or the sessions of one service; and only DELETE disables, only PUT enables. -/
theorem C25_effect (now : TS) (c c' : Conf) (hc : GoodConf c) (m : CMeth) (url : Bytes) (r : CReply)
    (h : controlResponse now c m url = .ok (c', r)) :
    c' = c ∨
    (∃ o dis, ¬ ServesControl c o ∧ (m = .delete ∧ dis = true ∨ m = .put ∧ dis = false) ∧ c' = setFlag dis o c) ∨
    (∃ l i f, (m = .delete ∨ m = .put) ∧ c' = onSessions l i f c) := by
  have key : Effect c m c' := by
    unfold controlResponse at h
    split at h
    · cases h
    · rename_i ep he
      by_cases hp : PathOk url
      · have hm := ((endpoint_iff hp ep).mp he)
        obtain ⟨h1, h2, -, -⟩ := hm
        have hfn : ∀ e ∈ endpoints, (e.fn = .listAll ∨ e.fn = .listCore ∨ e.fn = .listListener ∨ e.fn = .listService) ∧ e.method = .get ∨
            (e.fn = .disableListener ∨ e.fn = .disableService ∨ e.fn = .deleteSession) ∧ e.method = .delete ∨
            (e.fn = .enableListener ∨ e.fn = .enableService ∨ e.fn = .addSession) ∧ e.method = .put := by decide +kernel
        have pure_ : ∀ o u r c', pureReply c (listHandler o u) = .ok (c', r) → Effect c m c' := by
          intro o u r c' h; rw [pureReply_effect h]; exact .none
        have dis_ : ∀ dis, (m = .delete ∧ dis = true ∨ m = .put ∧ dis = false) → ∀ o u r c', disableHandler dis c o u = .ok (c', r) → Effect c m c' := by
          intro dis hm o u r c' h
          rcases disable_effect hc h with rfl | ⟨hn, rfl⟩
          · exact .none
          · exact .flag hn hm
        rcases hfn ep h1 with ⟨hf, hme⟩ | ⟨hf, hme⟩ | ⟨hf, hme⟩ <;> rw [hme] at h2 <;> subst h2
        · rcases hf with hf | hf | hf | hf <;> rw [hf] at h
          · rw [pureReply_effect h]; exact .none
          · rw [pureReply_effect h]; exact .none
          · exact withPath_effect .none pure_ h
          · exact withPath_effect (find := fun u => ctlService c u none) .none pure_ h
        · rcases hf with hf | hf | hf <;> rw [hf] at h
          · exact withPath_effect .none (dis_ true (by simp)) h
          · exact withPath_effect (find := fun u => ctlService c u none) .none (dis_ true (by simp)) h
          · exact withPath_effect .none (fun o u r c' h => remove_effect h) h
        · rcases hf with hf | hf | hf <;> rw [hf] at h
          · exact withPath_effect .none (dis_ false (by simp)) h
          · exact withPath_effect (find := fun u => ctlService c u none) .none (dis_ false (by simp)) h
          · exact withPath_effect .none (fun o u r c' h => add_effect h) h
      · exfalso
        unfold findEndpoint at he
        dsimp only at he
        rw [if_pos] at he
        · cases he
        · cases url with
          | nil => rfl
          | cons d t =>
            rw [List.takeWhile_cons, if_neg]
            · rfl
            · intro hd
              exact hp ⟨d, t, rfl, by simpa [notQm] using hd⟩
    · cases h; exact .none
  cases key with
  | none => exact Or.inl rfl
  | flag h1 h2 => exact Or.inr (Or.inl ⟨_, _, h1, h2, rfl⟩)
  | sessions h1 => exact Or.inr (Or.inr ⟨_, _, _, h1, rfl⟩)

/-- The configurations reached by any number of control requests (at any times, any methods and texts) -/
inductive Reached (c : Conf) : Conf → Prop
  | start : Reached c c
  | step {c1 c2 now m url r} : Reached c c1 → controlResponse now c1 m url = .ok (c2, r) → Reached c c2

/-- Whatever requests were made: what serves the control interface still does and was not disabled (or enabled), so the interface can not be
lost; and the objects are the same ones as before. -/
theorem C25_never_lost (c c' : Conf) (hc : GoodConf c) (h : Reached c c') :
    GoodConf c' ∧ (∀ o, ServesControl c o ↔ ServesControl c' o) ∧ (∀ o, ServesControl c o → flagOf c' o = flagOf c o) ∧
    (∀ o, (flagOf c' o).isSome = (flagOf c o).isSome) := by
  induction h with
  | start => exact ⟨hc, fun _ => Iff.rfl, fun _ _ => rfl, fun _ => rfl⟩
  | @step c1 c2 now m url r _ hr ih =>
    obtain ⟨h1, h2, h3, h4⟩ := ih
    rcases C25_effect now c1 c2 h1 m url r hr with rfl | ⟨o', dis, hn, -, rfl⟩ | ⟨l, i, f, -, rfl⟩
    · exact ⟨h1, h2, h3, h4⟩
    · have hs := shape_setFlag dis o' c1
      refine ⟨good_mono hs h1, fun o => (h2 o).trans ⟨serves_mono hs o, serves_mono (shape_symm hs) o⟩, ?_, ?_⟩
      · intro o ho
        rw [flagOf_setFlag, ← h3 o ho]
        have hne : o ≠ o' := fun e => hn (e ▸ (h2 o).mp ho)
        cases flagOf c1 o <;> simp [hne]
      · intro o
        rw [flagOf_setFlag, Option.isSome_map, h4]
    · have hs := shape_onSessions l i f c1
      refine ⟨good_mono hs h1, fun o => (h2 o).trans ⟨serves_mono hs o, serves_mono (shape_symm hs) o⟩, ?_, ?_⟩
      · intro o ho
        rw [flagOf_onSessions, h3 o ho]
      · intro o
        rw [flagOf_onSessions, h4]

/-- Enabling is the inverse of disabling, and the state shown is the one set last. -/
theorem C25_flag (dis : Bool) (o o' : Obj) (c : Conf) :
    flagOf (setFlag dis o c) o' = (flagOf c o').map (fun x => if o' = o then dis else x) := flagOf_setFlag dis o c o'

theorem exCConf_good : GoodConf exCConf := by
  have h1 : ∀ l : Option Nat, servicesOf exCConf l = exCConf.services ∨ servicesOf exCConf l = [] ∨
      servicesOf exCConf l = (exCConf.listeners.head?.map (·.services)).getD [] ∨ servicesOf exCConf l = (exCConf.listeners[1]?.map (·.services)).getD [] := by
    intro l
    match l with
    | none => exact Or.inl rfl
    | some 0 => exact Or.inr (Or.inr (Or.inl rfl))
    | some 1 => exact Or.inr (Or.inr (Or.inr rfl))
    | some (n + 2) => exact Or.inr (Or.inl rfl)
  refine ⟨by decide, ?_, ?_⟩ <;> intro l <;> rcases h1 l with h | h | h | h <;> rw [h] <;> decide
example : Resolves exCConf [b!"web", b!"0", b!"2"] (.backend (some 0) 0 3) := by
  have h1 : Resolves exCConf [b!"web"] (.listener (some 0)) := by
    refine .listener (by decide) (.name ?_ rfl (by intro j hj; omega))
    rintro n ⟨-, h, -⟩
    exact absurd (h 119 (by decide)) (by decide)
  have h2 : Resolves exCConf [b!"web", b!"0"] (.service (some 0) 0) := .service h1 (.index ⟨by decide, by decide, rfl⟩ (by decide))
  exact .backend (n := 2) h2 rfl ⟨by decide, by decide, rfl⟩ rfl
example : controlResponse ⟨0, 0⟩ exCConf .delete b!"/listener/web/api/0" =
    .ok (setFlag true (.backend (some 0) 1 4) exCConf, ⟨.ok, some (.true, 0)⟩) := by decide +kernel
example : controlResponse ⟨0, 0⟩ exCConf .delete b!"/listener/ctl/0" = .ok (exCConf, ⟨.badRequest, none⟩) := by decide +kernel

/-- A request for the whole configuration is not refused, but makes the program crash. -/
theorem C25_global_fails (now : TS) : controlResponse now exCConf .delete b!"/listener/-" = .ub := by rfl

/-- An empty segment counts as the number 0: with a slash at the end of the path another object is switched. -/
theorem C25_empty_segment_fails :
    controlResponse ⟨0, 0⟩ exCConf .delete b!"/listener/web/" = .ok (setFlag true (.service (some 0) 0) exCConf, ⟨.ok, some (.true, 0)⟩) := by
  decide +kernel

/-- Large negative numbers are taken modulo 2^32. -/
theorem C25_negative_fails :
    controlResponse ⟨0, 0⟩ exCConf .delete b!"/listener/-4294967296" = .ok (setFlag true (.listener (some 0)) exCConf, ⟨.ok, some (.true, 0)⟩) := by
  decide +kernel

/-- Backends that are no servers can not be disabled, but success is reported. -/
theorem C25_other_fails :
    controlResponse ⟨0, 0⟩ exCConf .delete b!"/listener/0/0/2" = .ok (exCConf, ⟨.ok, some (.true, 0)⟩) := by decide +kernel

/-- Adding or removing a session of a service made for Control (or ACME) makes the program crash: it has no session table, and this is not checked. -/
theorem C25_no_table_fails (now : TS) : controlResponse now exCConf .put b!"/session/ctl/0/0?key=a" = .ub ∧ controlResponse now exCConf .delete b!"/session/ctl/0?key=a" = .ub := ⟨rfl, rfl⟩

/-- A session is added although the path names nothing. -/
theorem C25_session_path_fails :
    controlResponse ⟨0, 0⟩ exCConf .put b!"/session/0/0/0/junk?key=a" =
      .ok (onSessions (some 0) 0 (fun s => (s.sessions.add s.ttl ⟨0, 0⟩ b!"a" 1).1) exCConf, ⟨.ok, some (.object (.service (some 0) 0), 0)⟩) := by
  decide +kernel

/-! ### C26 -/

/-- The handler is the one of the endpoint with the longest URI among those of the request's method that are a prefix of the
path, on the boundary of a segment. -/
theorem C26_dispatch_partial (now : TS) (c : Conf) (m : CMeth) (uri : Bytes) (h : PathOk uri) (e : Endpoint) (he : e ∈ endpoints) (hm : e.method = m)
    (hc : Covers e.uri uri) (hmax : ∀ e' ∈ endpoints, e'.method = m → Covers e'.uri uri → e'.uri.length ≤ e.uri.length) :
    controlResponse now c m uri = endFn now c (uri.drop e.uri.length) e.fn := by
  unfold controlResponse
  rw [(endpoint_iff h e).mpr ⟨he, hm, hc, hmax⟩]

/-- If there is none, the request is refused without effect, with 404 if no endpoint of any method is a prefix, and 400 otherwise. -/
theorem C26_refused_partial (now : TS) (c : Conf) (m : CMeth) (uri : Bytes) (h : PathOk uri) (hn : ∀ e ∈ endpoints, Covers e.uri uri → e.method ≠ m) :
    controlResponse now c m uri = .ok (c, ⟨if uri.head? = some ch%'/' then .badRequest else .notFound, none⟩) := by
  obtain ⟨d, t, rfl, hd⟩ := h
  have hp : PathOk (d :: t) := ⟨d, t, rfl, hd⟩
  have hcov : (∃ e ∈ endpoints, Covers e.uri (d :: t)) ↔ d = ch%'/' := by
    constructor
    · rintro ⟨e, he, r, h1, h2⟩
      cases hu : e.uri with
      | nil =>
        rw [hu, List.nil_append] at h1
        rcases h2 d (h1 ▸ rfl) with h | h
        · exact h
        · exact absurd h hd
      | cons x y =>
        rw [hu] at h1
        cases h1
        have : ∀ e ∈ endpoints, e.uri = [] ∨ e.uri.head? = some ch%'/' := by decide +kernel
        rcases this e he with h | h
        · rw [hu] at h; cases h
        · rw [hu] at h; exact Option.some.inj h
    · rintro rfl
      exact ⟨⟨[], .get, .listAll⟩, by decide, ch%'/' :: t, rfl, fun c hc => Or.inl (Option.some.inj hc).symm⟩
  unfold controlResponse
  by_cases hs : d = ch%'/'
  · rw [(endpoint_error hp .badRequest).mpr ⟨hn, Or.inl ⟨hcov.mpr hs, rfl⟩⟩, if_pos (by simp [hs])]
  · rw [(endpoint_error hp .notFound).mpr ⟨hn, Or.inr ⟨fun h => hs (hcov.mp h), rfl⟩⟩, if_neg (by simpa using hs)]

/-- The endpoints listed in the manual are found, whatever follows. -/
theorem C26_listed (e : Endpoint) (he : e ∈ endpoints) (hne : e.uri ≠ []) (now : TS) (c : Conf) (r : Bytes)
    (hr : ∀ c, r.head? = some c → c = ch%'/' ∨ c = ch%'?') : controlResponse now c e.method (e.uri ++ r) = endFn now c r e.fn := by
  unfold controlResponse
  rw [endpoint_at he hr hne]
  simp

example : (⟨b!"/core", .get, .listCore⟩ : Endpoint) ∈ endpoints := by decide
example : PathOk b!"/core?indent=4" := ⟨_, _, rfl, by decide⟩
example : controlResponse ⟨0, 0⟩ exCConf .get b!"/core?indent=4" = .ok (exCConf, ⟨.ok, some (.core, 4)⟩) := by decide +kernel
example : controlResponse ⟨0, 0⟩ exCConf (.other 1) b!"/core" = .ok (exCConf, ⟨.badRequest, none⟩) := by decide +kernel

/-- A path whose longest listed prefix has no GET method is not refused: the whole configuration is listed. -/
theorem C26_wrong_method_fails : controlResponse ⟨0, 0⟩ exCConf .get b!"/session/0" = .ok (exCConf, ⟨.ok, some (.object (.listener none), 0)⟩) := by
  decide +kernel

/-- A path that does not exist is not 404. -/
theorem C26_unknown_fails : controlResponse ⟨0, 0⟩ exCConf .delete b!"/nosuch" = .ok (exCConf, ⟨.badRequest, none⟩) ∧
    controlResponse ⟨0, 0⟩ exCConf .get b!"/nosuch" = .ok (exCConf, ⟨.ok, some (.object (.listener none), 0)⟩) := by
  decide +kernel

/-- The refused request may have had its effect. -/
theorem C26_refused_effect_fails : controlResponse ⟨0, 0⟩ exCConf .delete b!"/listener/web?indent=99" =
    .ok (setFlag true (.listener (some 0)) exCConf, ⟨.badRequest, none⟩) := by decide +kernel

/-- A path that starts with '?' gets an undefined status; an empty query makes the program use an undefined length. -/
theorem C26_undefined_fails (now : TS) (c : Conf) : controlResponse now c .get b!"?indent=1" = .ub ∧ controlResponse now c .get b!"/core?" = .ub :=
  ⟨rfl, rfl⟩

/-! ### C27 -/

/-- The index of the parent of a generated backend is the position of the backend in the listing of the service. -/
theorem C27_parent (bals : List (List CBe)) (p n : Nat) (hn : (bals.flatten.map (·.ptr)).Nodup) :
    findBackendIndex p bals 0 = some n ↔ ∃ b, bals.flatten[n]? = some b ∧ b.ptr = p := by
  have hin : ∀ (bl : List CBe) (k : Nat), fbiInner p bl k = match bl.findIdx? (fun b => b.ptr == p) with | some i => .inl (k + i) | none => .inr (k + bl.length) := by
    intro bl
    induction bl with
    | nil => intro k; rfl
    | cons b r ih =>
      intro k
      unfold fbiInner
      rw [List.findIdx?_cons]
      by_cases h : b.ptr = p
      · simp [h]
      · have : (b.ptr == p) = false := by simpa using h
        rw [if_neg h, ih, this]
        cases List.findIdx? (fun b => b.ptr == p) r with
        | none => simp; omega
        | some i => simp; omega
  have hout : ∀ (bals : List (List CBe)) (k : Nat), findBackendIndex p bals k = (bals.flatten.findIdx? (fun b => b.ptr == p)).map (k + ·) := by
    intro bals
    induction bals with
    | nil => intro k; rfl
    | cons bl r ih =>
      intro k
      unfold findBackendIndex
      rw [hin, List.flatten_cons, List.findIdx?_append]
      cases List.findIdx? (fun b => b.ptr == p) bl with
      | some i => simp
      | none =>
        simp only [ih, Option.none_or]
        cases List.findIdx? (fun b => b.ptr == p) r.flatten with
        | none => rfl
        | some i => simp; omega
  rw [hout]
  have : (fun x => 0 + x) = (id : Nat → Nat) := by funext x; simp
  rw [this, Option.map_id]
  simp only [id]
  rw [List.findIdx?_eq_some_iff_getElem]
  constructor
  · rintro ⟨h, h1, -⟩
    exact ⟨_, List.getElem?_eq_getElem h, by simpa using h1⟩
  · rintro ⟨b, h1, h2⟩
    obtain ⟨h, rfl⟩ := List.getElem?_eq_some_iff.mp h1
    refine ⟨h, by simpa using h2, ?_⟩
    intro j hj
    intro e
    rw [beq_iff_eq] at e
    have h3 : (bals.flatten.map (·.ptr))[j]? = (bals.flatten.map (·.ptr))[n]? := by
      simp only [List.getElem?_map, List.getElem?_eq_getElem (Nat.lt_trans hj h), List.getElem?_eq_getElem h, Option.map_some, e, h2]
    have := (List.getElem?_inj (by rw [List.length_map]; exact Nat.lt_trans hj h) hn).mp h3
    omega

theorem jBuild_eq {D} : ∀ (l : List (Bytes × JVal D)) (o : JObj (JVal D)), jBuild l o = jSets o l
  | [], _ => rfl
  | (k, v) :: l, o => by
    unfold jBuild jSets
    cases jSet o k v with
    | ub => rfl
    | ok o => exact jBuild_eq l o

theorem jObject_spec {D} (l : List (Bytes × JVal D)) : ∃ v, jObject l = .ok v ∧ ∀ k, member v k = lastSet l k := by
  obtain ⟨o, h, -, hl⟩ := jSets_spec l jNew jinv_new
  refine ⟨.obj o.count o.pairs, ?_, ?_⟩
  · unfold jObject; rw [jBuild_eq, h]
  · intro k
    have := hl k
    rw [show lookupL (jNew (V := JVal D)).pairs k = none from rfl, Option.or_none] at this
    exact this

theorem resMap_spec {α β} {f : α → Res β} : ∀ (xs : List α), (∀ x ∈ xs, ∃ v, f x = .ok v) →
    ∃ l, resMap f xs = .ok l ∧ l.length = xs.length ∧ ∀ (n : Nat) x, xs[n]? = some x → ∃ v, l[n]? = some v ∧ f x = .ok v := by
  intro xs
  induction xs with
  | nil => intro _; exact ⟨[], rfl, rfl, by simp⟩
  | cons x xs ih =>
    intro h
    obtain ⟨v, hv⟩ := h x (by simp)
    obtain ⟨l, h1, h2, h3⟩ := ih (fun y hy => h y (by simp [hy]))
    refine ⟨v :: l, by unfold resMap; rw [hv]; dsimp only; rw [h1], by simp [h2], ?_⟩
    intro n y hy
    cases n with
    | zero => simp at hy; subst hy; exact ⟨v, rfl, hv⟩
    | succ n => exact h3 n y hy

/-- The listing of a service is always produced.  It has the backends in the order of the configuration, which is also the order in which control requests
number them, each with its state; and all its sessions. -/
theorem C27_listing {D} (L : ShowLib D) (hL : ∀ b v, (b!"enabled", v) ∉ L.extra b) (s : CSvc) (hne : s.balancers ≠ []) :
    ∃ v, svcSerialize L s = .ok v ∧ member v b!"enabled" = some (.bool !s.disabled) ∧
      member v b!"name" = some (match s.name with | some n => .str n | none => .null) ∧
      (∃ bl, member v b!"backends" = some (.arr bl) ∧ bl.length = s.balancers.flatten.length ∧
        ∀ (n : Nat) b, locateBackend s (.num n) = some b → ∃ w, bl[n]? = some w ∧ member w b!"enabled" = some (.bool !b.disabled)) ∧
      (s.hasSessions = true → ∃ sl, member v b!"sessions" = some (.arr sl) ∧ sl.length = s.sessions.head.length ∧
        ∀ (n : Nat) x, s.sessions.head[n]? = some x → ∃ w, sl[n]? = some w ∧ member w b!"key" = some (.str x.key) ∧
          member w b!"expire" = some (.str (L.time x.expire)) ∧
          member w b!"backend" = some (.int (L.int (sessionBackendIndex x.be s.balancers 0)))) := by
  have hbe : ∀ b, ∃ v, beSerialize L b = .ok v ∧ member v b!"enabled" = some (.bool !b.disabled) := by
    intro b
    obtain ⟨v, h1, h2⟩ := jObject_spec ((b!"enabled", (.bool !b.disabled : JVal D)) :: L.extra b)
    refine ⟨v, h1, ?_⟩
    rw [h2]
    unfold lastSet
    rw [List.reverse_cons, List.find?_append, List.find?_eq_none.mpr]
    · rfl
    · intro x hx e
      have : x.1 = b!"enabled" := by simpa using e
      exact hL b x.2 (by rw [← this]; exact List.mem_reverse.mp hx)
  have hse : ∀ x, ∃ w, sessSerialize L s.balancers x = .ok w ∧ member w b!"key" = some (.str x.key) ∧
          member w b!"expire" = some (.str (L.time x.expire)) ∧
          member w b!"backend" = some (.int (L.int (sessionBackendIndex x.be s.balancers 0))) := by
    intro x
    obtain ⟨v, h1, h2⟩ := jObject_spec [(b!"key", (.str x.key : JVal D)), (b!"backend", .int (L.int (sessionBackendIndex x.be s.balancers 0))),
      (b!"expire", .str (L.time x.expire))]
    exact ⟨v, h1, by rw [h2]; rfl, by rw [h2]; rfl, by rw [h2]; rfl⟩
  obtain ⟨bl, hb1, hb2, hb3⟩ := resMap_spec (f := beSerialize L) s.balancers.flatten (fun b _ => ⟨_, (hbe b).choose_spec.1⟩)
  have hbs : backendsSerialize L s.balancers = .ok (.arr bl) := by unfold backendsSerialize; rw [if_neg hne, hb1]
  obtain ⟨sl, hs1, hs2, hs3⟩ := resMap_spec (f := sessSerialize L s.balancers) s.sessions.head (fun b _ => ⟨_, (hse b).choose_spec.1⟩)
  obtain ⟨sv, hsv, hsv'⟩ : ∃ sv, sessionsSerialize L s = .ok sv ∧ (s.hasSessions = true → sv = .arr sl) := by
    unfold sessionsSerialize
    by_cases h : s.hasSessions = true
    · rw [if_pos h, hs1]; exact ⟨_, rfl, fun _ => rfl⟩
    · rw [if_neg h]; exact ⟨_, rfl, fun h' => absurd h' h⟩
  obtain ⟨v, h1, h2⟩ := jObject_spec [(b!"name", match s.name with | some n => (.str n : JVal D) | none => .null), (b!"enabled", .bool !s.disabled),
    (b!"sessions", sv), (b!"backends", .arr bl)]
  refine ⟨v, ?_, by rw [h2]; rfl, ?_, ⟨bl, by rw [h2]; rfl, hb2, ?_⟩, ?_⟩
  · unfold svcSerialize; rw [hsv, hbs]; exact h1
  · rw [h2]; cases s.name <;> rfl
  · intro n b hb
    have hb' : s.balancers.flatten[n]? = some b := by
      have : locateBe n s.balancers 0 = some b := hb
      rwa [locateBe_spec n _ 0 (by omega), Nat.sub_zero] at this
    obtain ⟨w, hw1, hw2⟩ := hb3 n b hb'
    obtain ⟨w', hw3, hw4⟩ := hbe b
    rw [hw3] at hw2
    cases hw2
    exact ⟨w, hw1, hw4⟩
  · intro h
    refine ⟨sl, by rw [h2, ← hsv' h]; rfl, hs2, ?_⟩
    intro n x hx
    obtain ⟨w, hw1, hw2⟩ := hs3 n x hx
    obtain ⟨w', hw3, hw4⟩ := hse x
    rw [hw3] at hw2
    cases hw2
    exact ⟨w, hw1, hw4⟩

/-- The index shown for a session is the position of its backend in the listing - if the backend is in the last group.
Missing: the other groups, see below. -/
theorem C27_session_partial (front : List (List CBe)) (last : List CBe) (p n : Nat) (b : CBe)
    (hf : ∀ x ∈ front.flatten, x.ptr ≠ p) (hb : (front ++ [last]).flatten[n]? = some b) (hp : b.ptr = p)
    (hfirst : ∀ j x, j < n → (front ++ [last]).flatten[j]? = some x → x.ptr ≠ p) :
    sessionBackendIndex p (front ++ [last]) 0 = n := by
  have hskip : ∀ (bl : List CBe) (k : Nat), (∀ x ∈ bl, x.ptr ≠ p) → sbiInner p bl k = k + bl.length := by
    intro bl
    induction bl with
    | nil => intro k _; rfl
    | cons x r ih =>
      intro k h
      unfold sbiInner
      rw [if_neg (h x (by simp)), ih _ (fun y hy => h y (by simp [hy])), List.length_cons]; omega
  have hin : ∀ (bl : List CBe) (k i : Nat), (∃ x, bl[i]? = some x ∧ x.ptr = p) → (∀ j x, j < i → bl[j]? = some x → x.ptr ≠ p) → sbiInner p bl k = k + i := by
    intro bl
    induction bl with
    | nil => rintro k i ⟨x, h, -⟩; simp at h
    | cons x r ih =>
      rintro k i ⟨y, h1, h2⟩ h3
      unfold sbiInner
      cases i with
      | zero => simp at h1; subst h1; rw [if_pos h2]; rfl
      | succ i =>
        rw [if_neg (h3 0 x (by omega) rfl), ih (k + 1) i ⟨y, h1, h2⟩ (fun j z hj hz => h3 (j + 1) z (by omega) hz)]
        omega
  have hout : ∀ (front : List (List CBe)) (k : Nat), (∀ x ∈ front.flatten, x.ptr ≠ p) →
      sessionBackendIndex p (front ++ [last]) k = sbiInner p last (k + front.flatten.length) := by
    intro front
    induction front with
    | nil => intro k _; rfl
    | cons bl r ih =>
      intro k h
      rw [List.flatten_cons] at h
      show sessionBackendIndex p (r ++ [last]) (sbiInner p bl k) = _
      rw [hskip bl k (fun x hx => h x (by simp [hx])), ih _ (fun x hx => h x (List.mem_append_right _ hx)), List.flatten_cons, List.length_append,
        Nat.add_assoc]
  rw [hout front 0 hf, Nat.zero_add]
  have hfl : (front ++ [last]).flatten = front.flatten ++ last := by simp
  rw [hfl] at hb hfirst
  have hge : front.flatten.length ≤ n := by
    apply Classical.byContradiction
    intro h
    rw [List.getElem?_append_left (by omega)] at hb
    exact hf b (List.mem_of_getElem? hb) hp
  rw [List.getElem?_append_right hge] at hb
  rw [hin last _ (n - front.flatten.length) ⟨b, hb, hp⟩]
  · omega
  · intro j x hj hx
    refine hfirst (front.flatten.length + j) x (by omega) ?_
    rw [List.getElem?_append_right (by omega), Nat.add_sub_cancel_left]
    exact hx

/-- ... so that the value of "backend" in a listed session leads to the backend of the session. -/
theorem C27_session_roundtrip_partial (front : List (List CBe)) (last : List CBe) (b : CBe) (hn : ((front ++ [last]).flatten.map (·.ptr)).Nodup)
    (hb : b ∈ last) : locateBe (sessionBackendIndex b.ptr (front ++ [last]) 0) (front ++ [last]) 0 = some b := by
  obtain ⟨i, hi⟩ := List.getElem?_of_mem hb
  have hfl : (front ++ [last]).flatten = front.flatten ++ last := by simp
  have hg : (front ++ [last]).flatten[front.flatten.length + i]? = some b := by
    rw [hfl, List.getElem?_append_right (by omega), Nat.add_sub_cancel_left]; exact hi
  have huniq : ∀ j x, (front ++ [last]).flatten[j]? = some x → x.ptr = b.ptr → j = front.flatten.length + i := by
    intro j x hx hp
    have h3 : ((front ++ [last]).flatten.map (·.ptr))[j]? = ((front ++ [last]).flatten.map (·.ptr))[front.flatten.length + i]? := by
      rw [List.getElem?_map, List.getElem?_map, hx, hg, Option.map_some, Option.map_some, hp]
    have hlt : j < (front ++ [last]).flatten.length := (List.getElem?_eq_some_iff.mp hx).1
    exact (List.getElem?_inj (by rw [List.length_map]; exact hlt) hn).mp h3
  have hf : ∀ x ∈ front.flatten, x.ptr ≠ b.ptr := by
    intro x hx hp
    obtain ⟨j, hj⟩ := List.getElem?_of_mem hx
    have hlt : j < front.flatten.length := (List.getElem?_eq_some_iff.mp hj).1
    have := huniq j x (by rw [hfl, List.getElem?_append_left hlt]; exact hj) hp
    omega
  rw [C27_session_partial front last b.ptr (front.flatten.length + i) b hf hg rfl]
  · rw [locateBe_spec _ _ 0 (by omega), Nat.sub_zero]; exact hg
  · intro j x hj hx hp
    have := huniq j x hx hp
    omega

example : sessionBackendIndex 2 [[exCBe 1 .regular], [exCBe 2 .regular, exCBe 3 .regular]] 0 = 1 := by decide
example : ∀ b v, (b!"enabled", v) ∉ (⟨id, fun _ => [], fun b => [(b!"type", .int b.ptr)]⟩ : ShowLib Nat).extra b := by
  intro b v h
  simp at h

/-- With several groups (backends of normal and emergency use, or different weights) the index shown for a backend of the first group is wrong: it leads to another backend, or to none. -/
theorem C27_session_fails :
    sessionBackendIndex 1 [[exCBe 1 .regular], [exCBe 2 .regular]] 0 = 1 ∧
    locateBe (sessionBackendIndex 1 [[exCBe 1 .regular], [exCBe 2 .regular]] 0) [[exCBe 1 .regular], [exCBe 2 .regular]] 0 = some (exCBe 2 .regular) ∧
    locateBe (sessionBackendIndex 2 [[exCBe 1 .regular, exCBe 2 .regular], [exCBe 3 .regular, exCBe 4 .regular, exCBe 5 .regular]] 0)
      [[exCBe 1 .regular, exCBe 2 .regular], [exCBe 3 .regular, exCBe 4 .regular, exCBe 5 .regular]] 0 = some (exCBe 5 .regular) := by
  decide +kernel

end Pound.Props
