import Verif.Proof.Tunnel

/-!
C91: connections are switched to the WebSocket protocol by agreement, and relayed faithfully.
-/

namespace Pound.Props
open Pound Spec

/-- If the request does not ask for it, there is no switch: whatever the backend answers, the outcome does not depend on what would be relayed after a switch. -/
theorem C91_unasked (cfg : LstnCfg) (inp : Bytes) (a : Accepted) (h : acceptRequest cfg inp = .ok a) :
    ∃ lines ts, HeadOf inp a.line lines a.rest ∧ Seen cfg.table lines ts ∧
      (¬ AsksSwitch a.line ts → ∀ sched edit env beIn r, serve cfg sched a (.regular edit (RespEnv.tunnel env r) beIn) = serve cfg sched a (.regular edit env beIn)) := by
  obtain ⟨lines, ts, h1, h2, h3⟩ := accepted_ws h
  refine ⟨lines, ts, h1, h2, fun hn sched edit env beIn r => ?_⟩
  have hw : (a.scan.ws.get && a.scan.ws.connUpgrade && a.scan.ws.upgradeWs) = false := by
    cases hb : (a.scan.ws.get && a.scan.ws.connUpgrade && a.scan.ws.upgradeWs) with
    | false => rfl
    | true => exact absurd (h3.1 hb) hn
  unfold serve RespEnv.tunnel
  simp only [backendResponse_unasked _ _ _ _ hw]

/-- A request that asks for the switch, and a response to it.  If the response agrees (and does not announce a chunked body), the client gets its head (`relocated` is about Location), and then the bytes
that are relayed, and the connection is not used for further requests; in all other cases there is no switch.  Missing for the full property: responses after an interim one,
see `C91_after_100_fails`. -/
theorem C91_switch_partial (cfg : LstnCfg) (inp : Bytes) (a : Accepted) (ha : acceptRequest cfg inp = .ok a)
    (sched : Nat → Nat) (edit : Bytes → List Header → Option (Bytes × List Header)) (env : RespEnv) (beIn sl rest : Bytes) (lines : List Bytes) (hs' : List Header)
    (ver code : Nat) (te cl : List Bytes) (r : WsState × Option WsEnd)
    (hh : HeadOf beIn sl lines rest) (hl : ResponseLine sl ver code) (h100 : code ≠ 100)
    (he : env.edit (buildHeaders env.table lines) = some hs') (hg : HeaderList hs')
    (hte : Values b!"Transfer-Encoding" (hs'.map (·.text)) te) (hcl : Values b!"Content-Length" (hs'.map (·.text)) cl) (hlen : ∀ v ∈ cl, ∃ n, DeclaresLength v n) :
    ∃ lines ts, HeadOf inp a.line lines a.rest ∧ Seen cfg.table lines ts ∧
      ((AsksSwitch a.line ts ∧ AgreesSwitch code (hs'.map (·.text)) ∧ ∀ v ∈ te, ¬ HasTok v b!"chunked") →
        ∀ h, serve cfg sched a (.regular edit (env.tunnel r) beIn) = .ok h →
          (h.toClient = sendHead sl (hs'.map (relocated env)) ++ r.1.toC ∧ h.closed = true ∧ h.res = (if r.2 = some .failed then none else some .ok)) ∨
          -- the request could not be sent
          (h.toClient = [] ∧ ∃ st, st ≠ .ok ∧ h.res = some st)) ∧
      (¬ (AsksSwitch a.line ts ∧ AgreesSwitch code (hs'.map (·.text)) ∧ ∀ v ∈ te, ¬ HasTok v b!"chunked") →
        serve cfg sched a (.regular edit (env.tunnel r) beIn) = serve cfg sched a (.regular edit env beIn)) := by
  obtain ⟨ln, ts, h1, h2, h3⟩ := accepted_ws ha
  refine ⟨ln, ts, h1, h2, ?_⟩
  have hrd : ∀ w f, httpRequestRead ({ env with wsOut := w, wsFail := f } : RespEnv).table beIn = .ok sl (buildHeaders env.table lines) rest :=
    fun w f => (httpRequestRead_iff _ _ _ _ _).2 ⟨lines, hh, rfl⟩
  have hval := (validate_iff _ _ _).2 hl
  have hte := values_det hte (values_te hg.fine)
  have hcl := values_det hcl (values_cl hg.fine)
  subst hte hcl
  have h100' : (code == 100) = false := by simpa using h100
  -- the response, with any outcome of the relaying
  have hresp : ∀ (w : Bytes) (f : Bool) (hd closed : Bool) (fuel : Nat),
      ((AsksSwitch a.line ts ∧ AgreesSwitch code (hs'.map (·.text)) ∧ ∀ v ∈ valsOf .transferEncoding hs', ¬ HasTok v b!"chunked") →
        backendResponse { env with wsOut := w, wsFail := f } a.scan.ws (fuel + 1) false hd closed false false false beIn [] =
          if f then ⟨.ok none, sendHead sl (hs'.map (relocated env)) ++ w, [], true, true⟩ else ⟨.ok (some .ok), sendHead sl (hs'.map (relocated env)) ++ w, [], false, true⟩) ∧
      (¬ (AsksSwitch a.line ts ∧ AgreesSwitch code (hs'.map (·.text)) ∧ ∀ v ∈ valsOf .transferEncoding hs', ¬ HasTok v b!"chunked") →
        backendResponse { env with wsOut := w, wsFail := f } a.scan.ws (fuel + 1) false hd closed false false false beIn [] =
        backendResponse env a.scan.ws (fuel + 1) false hd closed false false false beIn []) := by
    intro w f hd closed fuel
    obtain ⟨s, r1, r2, r3, r4, -, -⟩ := respHeaders_all env hs' (fun x hx => (hg.fine x hx).1)
      { noCont := noContOf hd code, connClosed := closed, wsConn := false, wsUpg := false }
      (by
        intro v hv h0
        obtain ⟨n, hn⟩ := hlen v hv
        rw [(declares_iff v n).2 hn] at h0
        unfold noContentLength at h0; omega)
    obtain ⟨u1, u2⟩ := respHeaders_ws env hs' (fun x hx => (hg.fine x hx).1) r1
    simp only [Bool.false_eq_true, false_or] at u1 u2
    have hag : AgreesSwitch code (hs'.map (·.text)) ↔ code = 101 ∧ s.wsConn = true ∧ s.wsUpg = true := by
      unfold AgreesSwitch
      rw [values_ex (values_conn hg.fine), values_ex (values_upg hg.fine), u1, u2]
    have hnoc : code = 101 → (s.noCont = true ↔ ∀ v ∈ valsOf .transferEncoding hs', ¬ HasTok v b!"chunked") := by
      intro h
      rw [r4]
      subst h
      simp [noContOf]
    have hrd0 := hrd env.wsOut env.wsFail
    have hrd1 := hrd w f
    dsimp only at hrd0 hrd1
    constructor
    · rintro ⟨c1, c2, c3⟩
      obtain ⟨rfl, d2, d3⟩ := hag.1 c2
      have hn := (hnoc rfl).2 c3
      have hw := h3.2 c1
      unfold backendResponse
      simp only [hrd1, hval, he, respHeaders_env, r1, r2, h100', d2, d3, hn, hw, Bool.or_false, Bool.false_eq_true, if_false, List.nil_append, Bool.not_true, beq_self_eq_true,
        Bool.or_true, Bool.and_true, if_true]
    · intro hno
      have hsw : s.noCont = false ∨ (a.scan.ws.get && a.scan.ws.connUpgrade && a.scan.ws.upgradeWs && (false || code == 101) && s.wsConn && s.wsUpg) = false := by
        cases hnc : s.noCont with
        | false => exact .inl rfl
        | true =>
          right
          cases hb : (a.scan.ws.get && a.scan.ws.connUpgrade && a.scan.ws.upgradeWs && (false || code == 101) && s.wsConn && s.wsUpg) with
          | false => rfl
          | true =>
            rw [Bool.and_eq_true, Bool.and_eq_true, Bool.and_eq_true] at hb
            obtain ⟨⟨⟨b1, b2⟩, b3⟩, b4⟩ := hb
            have b2 : code = 101 := by simpa using b2
            exact absurd ⟨h3.1 b1, hag.2 ⟨b2, b3, b4⟩, (hnoc b2).1 hnc⟩ hno
      unfold backendResponse
      simp only [hrd0, hval, he, respHeaders_env, r1]
      rcases hsw with hsw | hsw
      · simp only [hsw, Bool.not_false, if_true, h100', Bool.or_false, Bool.false_eq_true, if_false]
      · simp only [hsw, h100', Bool.or_false, Bool.false_eq_true, if_false]
  constructor
  · intro hyes h hserve
    unfold serve RespEnv.tunnel at hserve
    dsimp only at hserve
    rw [(hresp r.1.toC (r.2 == some .failed) _ _ _).1 hyes] at hserve
    split at hserve
    · left
      by_cases hf : r.2 = some .failed
      · rw [hf] at hserve ⊢
        simp only [beq_self_eq_true, if_true, Res.ok.injEq] at hserve
        subst hserve
        exact ⟨rfl, rfl, rfl⟩
      · have hf' : (r.2 == some .failed) = false := by simpa using hf
        rw [if_neg hf]
        rw [hf'] at hserve
        simp only [Bool.false_eq_true, if_false, Res.ok.injEq] at hserve
        subst hserve
        exact ⟨rfl, rfl, rfl⟩
    · rename_i st hst hfin
      right
      simp only [Res.ok.injEq] at hserve
      subst hserve
      exact ⟨rfl, st, hst, rfl⟩
    · cases hserve
  · intro hno
    unfold serve RespEnv.tunnel
    dsimp only
    rw [(hresp r.1.toC (r.2 == some .failed) _ _ _).2 hno]

/-- A request to switch, and an answer that agrees -/
def wsRequest : Bytes := b!"GET /chat HTTP/1.1\r\nHost: a\r\nConnection: keep-alive, Upgrade\r\nUpgrade: websocket\r\n\r\nping"
def wsAnswer : Bytes := b!"HTTP/1.1 101 Switching Protocols\r\nConnection: upgrade\r\nUpgrade: websocket\r\n\r\npong"

/-- Exchange of the answer given, the loop going through the iterations given. -/
def wsExchange (answer : Bytes) (es : List WsIter) : Option (Bytes × Bytes × Bool × Option Status) :=
  match acceptRequest { } wsRequest with
  | .ok a =>
    match serve { } (fun _ => 2) a (.regular (fun l hs => some (l, hs)) (RespEnv.tunnel { } (wsLoop es (wsStart a.rest b!"bye" b!"po" b!"ng"))) answer) with
    | .ok r => some (a.rest, r.toClient, r.closed, r.res)
    | .ub => none
  | _ => none

-- the client gets the head of the response and what the backend sends after it
example : wsExchange wsAnswer [{ }, { poll := .backend, readB := some (9, 0) }, { }] =
    some (b!"ping", b!"HTTP/1.1 101 Switching Protocols\r\nConnection: upgrade\r\nUpgrade: websocket\r\n\r\npong", true, some .ok) := by decide +kernel
-- no agreement, no switch
example : wsExchange b!"HTTP/1.1 101 Switching Protocols\r\nConnection: upgrade\r\nUpgrade: h2c\r\n\r\npong" [{ }, { poll := .backend, readB := some (9, 0) }, { }] =
    some (b!"ping", b!"HTTP/1.1 101 Switching Protocols\r\nConnection: upgrade\r\nUpgrade: h2c\r\n\r\n", false, some .ok) := by decide +kernel

/-- After an interim response with code 100 the head of the response that agrees to switch is not sent to the client, but the bytes that follow it are. -/
theorem C91_after_100_fails :
    wsExchange (b!"HTTP/1.1 100 Continue\r\n\r\n" ++ wsAnswer) [{ }, { poll := .backend, readB := some (9, 0) }, { }] = some (b!"ping", b!"pong", true, some .internalError) := by
  decide +kernel

/-- After a switch no further request is taken from the connection. -/
theorem C91_last (cfg : LstnCfg) (msie : Accepted → Bool) (sched : Nat → Nat) (world : Nat → Accepted → Serve) (fuel i : Nat) (inp : Bytes)
    (pre post : List Handled) (x : Handled) (h : (doHttp cfg msie sched world fuel i inp).1 = pre ++ x :: post) (hx : x.closed = true) : post = [] := by
  cases post with
  | nil => rfl
  | cons y post =>
    have := (C42_reused_only_if cfg msie sched world fuel i inp pre post x y h).2.2.1
    rw [hx] at this
    cases this

/-! ### Relaying -/

/-- Whatever each peer sends, and whatever happens, the other one gets a part of it from the beginning, in order and unchanged: bytes that were read together with the head
first.  What has been taken from a peer has been passed on, unless writing fails, or the peer to which it goes has ended its stream. -/
theorem C91_in_order (bufC sockC bufB sockB : Bytes) (es : List WsIter) :
    ∃ r, wsLoop es (wsStart bufC sockC bufB sockB) = r ∧
    r.1.toB <+: bufC ++ sockC ∧ r.1.toC <+: bufB ++ sockB ∧
    (r.2 ≠ some .failed → r.1.toB ++ r.1.c.buf ++ r.1.c.sock = bufC ++ sockC ∧ r.1.toC ++ r.1.b.buf ++ r.1.b.sock = bufB ++ sockB ∧ r.1.count = r.1.toC.length) ∧
    (r.2 = some .idle ∨ r.2 = some .clientEnd ∨ r.2 = some .clientError → r.1.c.buf = [] ∧ r.1.b.buf = []) ∧
    (r.2 = some .backendEnd ∨ r.2 = some .backendError → r.1.b.buf = []) := by
  refine ⟨_, rfl, ?_⟩
  have h0 : WsInv (bufC ++ sockC) (bufB ++ sockB) (wsStart bufC sockC bufB sockB) := ⟨rfl, rfl, rfl⟩
  obtain ⟨n, ⟨hp, -⟩ | ⟨h1, h2, -⟩⟩ := wsLoop_post es _ h0
  · refine ⟨hp.pc, hp.pb, fun h => ⟨(hp.inv h).c, (hp.inv h).b, (hp.inv h).count⟩, ?_, ?_⟩
    · rintro (h | h | h)
      · exact hp.idle h
      · exact ⟨(hp.ce h).1, (hp.ce h).2.1⟩
      · exact hp.ce' h
    · rintro (h | h)
      · exact (hp.be h).1
      · exact hp.be' h
  · refine ⟨h2.pre.1, h2.pre.2, fun _ => ⟨h2.c, h2.b, h2.count⟩, ?_, ?_⟩
    · rintro (h | h | h) <;> (rw [h1] at h; cases h)
    · rintro (h | h) <;> (rw [h1] at h; cases h)

/-- If the stream of a peer was read up to its end, all of it was passed on.  Missing for the full property: what the other peer sent before that, see
`C91_half_closed_fails`. -/
theorem C91_complete_partial (bufC sockC bufB sockB : Bytes) (es : List WsIter) (s : WsState) :
    (wsLoop es (wsStart bufC sockC bufB sockB) = (s, some .clientEnd) → s.toB = bufC ++ sockC) ∧
    (wsLoop es (wsStart bufC sockC bufB sockB) = (s, some .backendEnd) → s.toC = bufB ++ sockB) := by
  have h0 : WsInv (bufC ++ sockC) (bufB ++ sockB) (wsStart bufC sockC bufB sockB) := ⟨rfl, rfl, rfl⟩
  obtain ⟨n, ⟨hp, -⟩ | ⟨h1, -⟩⟩ := wsLoop_post es _ h0
  · constructor
    · intro h
      rw [h] at hp
      obtain ⟨a1, -, a3⟩ := hp.ce rfl
      have := (hp.inv nofun).c
      dsimp only at a1 a3 this
      rw [a1, a3] at this
      simpa using this
    · intro h
      rw [h] at hp
      obtain ⟨a1, a3⟩ := hp.be rfl
      have := (hp.inv nofun).b
      dsimp only at a1 a3 this
      rw [a1, a3] at this
      simpa using this
  · constructor <;> (intro h; rw [h] at h1; cases h1)

/-- The loop does not spin: in every iteration that is followed by another one, bytes are passed on. -/
theorem C91_no_spin (bufC sockC bufB sockB : Bytes) (es : List WsIter) (s : WsState) (h : wsLoop es (wsStart bufC sockC bufB sockB) = (s, none)) :
    es.length ≤ s.toB.length + s.toC.length := by
  have h0 : WsInv (bufC ++ sockC) (bufB ++ sockB) (wsStart bufC sockC bufB sockB) := ⟨rfl, rfl, rfl⟩
  obtain ⟨n, ⟨-, hp⟩ | ⟨-, -, h3⟩⟩ := wsLoop_post es _ h0
  · rw [h] at hp
    exact absurd rfl hp
  · rw [h] at h3
    simpa [wsStart] using h3

/-- Nothing goes wrong in an iteration: what is pending can be copied, both sockets are found, and blocks of at most 4096 bytes are written as a whole. -/
def NoFault (e : WsIter) : Prop :=
  e.failC = none ∧ e.failB = none ∧ e.found = true ∧ (∀ n, e.writeB = some n → 4096 ≤ n) ∧ ∀ n, e.writeC = some n → 4096 ≤ n

theorem wsDrain_none : ∀ l : Bytes, wsDrain none l = (l, true)
  | [] => rfl
  | x :: t => by unfold wsDrain; rw [wsDrain_none t]

theorem wsWrite_whole {f : Option Nat} {x : Bytes} (hf : ∀ n, f = some n → 4096 ≤ n) (hx : x.length ≤ 4096) : wsWrite f x = (x, true) := by
  unfold wsWrite
  split
  · rfl
  · rw [if_neg (by have := hf _ rfl; omega)]

theorem wsRead_len {n k : Nat} {s : WsSide} {got : Bytes} {c : WsSide} (h : wsRead n k s = some (got, c)) : got.length ≤ 4096 := by
  unfold wsRead at h
  dsimp only at h
  split at h
  · cases h
  · cases h
    rw [List.length_take]
    omega

theorem wsIter_fault {e : WsIter} (he : NoFault e) (s : WsState) : (wsIter e s).2 ≠ some .failed := by
  obtain ⟨h1, h2, h3, h4, h5⟩ := he
  have hb : ∀ s, (wsFromBackend e s).2 ≠ some .failed := fun s => by
    unfold wsFromBackend
    split
    · split
      · nofun
      · split
        · nofun
        · rename_i hr
          rw [wsWrite_whole h5 (wsRead_len hr)]
          nofun
    · nofun
  have hc : ∀ s, (wsFromClient e s).2 ≠ some .failed := fun s => by
    unfold wsFromClient
    split
    · split
      · nofun
      · split
        · nofun
        · rename_i hr
          rw [wsWrite_whole h4 (wsRead_len hr)]
          exact hb _
    · exact hb _
  have hp : ∀ s, (wsPending e s).2 ≠ some .failed := fun s => by
    unfold wsPending
    simp only [h1, h2, h3, wsDrain_none, Bool.and_self, if_true]
    exact hc _
  unfold wsIter
  split
  · exact hp _
  · split
    · nofun
    all_goals exact hp _

/-- Relaying fails only if something has gone wrong. -/
theorem C91_faults : ∀ (es : List WsIter) (s : WsState), (∀ e ∈ es, NoFault e) → (wsLoop es s).2 ≠ some .failed
  | [], _, _ => nofun
  | e :: t, s, h => by
    unfold wsLoop
    have := wsIter_fault (h e List.mem_cons_self) s
    split
    · exact C91_faults t _ fun x hx => h x (List.mem_cons_of_mem _ hx)
    · exact this

example : NoFault { poll := .both, readC := some (5, 0), readB := some (3, 0), writeB := some 4096 } :=
  ⟨rfl, rfl, rfl, fun n h => (by cases h; exact Nat.le_refl _), fun n h => (by cases h)⟩

/-- A client that has sent all it wanted to and closes its side of the connection does not get what the backend has sent, although poll reported it in time. -/
theorem C91_half_closed_fails :
    wsLoop [{ poll := .client, readC := some (9, 0) }, { poll := .both, readC := some (9, 0), readB := some (9, 0) }] (wsStart [] b!"bye" [] b!"result") =
      ({ c := ⟨[], []⟩, b := ⟨[], b!"result"⟩, evC := true, evB := true, toB := b!"bye" }, some .clientEnd) := by
  decide +kernel

-- pending bytes go first; the rest of a TLS record is not overtaken by what follows
example : wsLoop [{ }, { poll := .client, readC := some (1, 2) }, { }, { poll := .both, readC := some (5, 0), readB := some (3, 0) }, { poll := .backend, readB := some (0, 0) }]
    (wsStart b!"ab" b!"cdefgh" b!"" b!"xyz") =
    ({ c := ⟨[], []⟩, b := ⟨[], []⟩, toB := b!"abcdefgh", toC := b!"xyz", count := 3, evB := true }, some .backendEnd) := by decide +kernel

end Pound.Props
