import Verif.Model.Tunnel
import Verif.Spec.Tunnel
import Verif.Props.Exchange

/-!
Lemmas about the switch to WebSocket and the relaying after it.
-/

namespace Pound
open Spec

/-! ### The word `upgrade` -/

theorem wordSep_iff (c : UInt8) : (isWs c || c == ch%',') = true ↔ WordSep c := by
  unfold WordSep
  rw [Bool.or_eq_true, isWs_iff, beq_iff_eq, or_assoc]

theorem connUpgrade_iff (st : Bool) (s : Bytes) :
    connUpgrade st s = true ↔ ∃ p w t, s = p ++ w ++ t ∧ ciEq w b!"upgrade" = true ∧
      (p = [] ∧ st = true ∨ ∃ q d, p = q ++ [d] ∧ WordSep d) ∧ (t = [] ∨ ∃ d u, t = d :: u ∧ WordSep d) := by
  induction s generalizing st with
  | nil =>
    simp only [connUpgrade, Bool.false_eq_true, false_iff]
    rintro ⟨p, w, t, h, hw, -⟩
    have := ciEq_length hw
    have h2 := congrArg List.length h
    simp at this h2
    omega
  | cons c l ih =>
    unfold connUpgrade
    dsimp only
    rw [Bool.or_eq_true, ih]
    constructor
    · rintro (h | ⟨p, w, t, rfl, hw, hp, ht⟩)
      · simp only [Bool.and_eq_true, decide_eq_true_eq] at h
        obtain ⟨⟨⟨h1, h2⟩, h3⟩, h4⟩ := h
        refine ⟨[], (c :: l).take 7, (c :: l).drop 7, by simp, h3, .inl ⟨rfl, h1⟩, ?_⟩
        generalize (c :: l).drop 7 = u at h4
        cases u with
        | nil => exact .inl rfl
        | cons d u => exact .inr ⟨d, u, rfl, (wordSep_iff d).1 h4⟩
      · refine ⟨c :: p, w, t, by simp, hw, .inr ?_, ht⟩
        rcases hp with ⟨rfl, h⟩ | ⟨q, d, rfl, h⟩
        · exact ⟨[], c, rfl, (wordSep_iff c).1 h⟩
        · exact ⟨c :: q, d, rfl, h⟩
    · rintro ⟨p, w, t, h, hw, hp, ht⟩
      have hl := ciEq_length hw
      cases p with
      | nil =>
        left
        have hst : st = true := by
          rcases hp with ⟨-, h⟩ | ⟨q, d, h, -⟩
          · exact h
          · simp at h
        have h7 : w.length = 7 := hl
        rw [List.nil_append] at h
        have e1 : (c :: l).take 7 = w := by rw [h, List.take_left' h7]
        have e2 : (c :: l).drop 7 = t := by rw [h, List.drop_left' h7]
        have e3 : 7 ≤ (c :: l).length := by rw [h, List.length_append]; omega
        simp only [Bool.and_eq_true, decide_eq_true_eq]
        refine ⟨⟨⟨hst, e3⟩, by rw [e1]; exact hw⟩, ?_⟩
        rw [e2]
        rcases ht with rfl | ⟨d, u, rfl, hd⟩
        · rfl
        · exact (wordSep_iff d).2 hd
      | cons x p =>
        right
        rw [List.cons_append, List.cons_append] at h
        injection h with h1 h2
        subst h1
        refine ⟨p, w, t, h2, hw, ?_, ht⟩
        rcases hp with ⟨h, -⟩ | ⟨q, d, h, hd⟩
        · cases h
        · cases q with
          | nil => injection h with h1 h2; subst h1 h2; exact .inl ⟨rfl, (wordSep_iff c).2 hd⟩
          | cons y q => injection h with h1 h2; exact .inr ⟨q, d, h2, hd⟩

theorem saysUpgrade_iff (v : Bytes) : connUpgrade true v = true ↔ SaysUpgrade v := by
  rw [connUpgrade_iff]
  unfold SaysUpgrade
  simp

theorem close_not_upgrade {v : Bytes} (h : ciEq b!"close" v = true) : connUpgrade true v = false := by
  cases hu : connUpgrade true v with
  | false => rfl
  | true =>
    obtain ⟨p, w, s, rfl, hw, -⟩ := (saysUpgrade_iff v).1 hu
    have h1 := ciEq_length h
    have h2 := ciEq_length hw
    simp at h1 h2
    omega

/-! ### What the header loops find -/

theorem scanHeader_ws {s s' : ScanState} {h : Header} (hg : Good h) (hk : scanHeader s h = .ok s') :
    s'.ws.get = s.ws.get ∧
    (s'.ws.connUpgrade = true ↔ s.ws.connUpgrade = true ∨ h.code = .connection ∧ SaysUpgrade h.rawValue ∧ ¬ HasTok h.rawValue b!"close") ∧
    (s'.ws.upgradeWs = true ↔ s.ws.upgradeWs = true ∨ h.code = .upgrade ∧ HasTok h.rawValue b!"websocket") := by
  have hv := hg.value
  unfold scanHeader at hk
  cases hc : h.code <;> simp only [hc, hv] at hk
  case connection =>
    rw [← saysUpgrade_iff, ← csLocate_isSome _ _ (by simp)]
    split at hk
    · rename_i h1
      simp only [ScanRes.ok.injEq] at hk
      subst hk
      simp [h1]
    · rename_i h1
      split at hk
      · rename_i h2
        simp only [ScanRes.ok.injEq] at hk
        subst hk
        simp [h1, h2]
      · rename_i h2
        simp only [ScanRes.ok.injEq] at hk
        subst hk
        simp [h2]
  case upgrade =>
    rw [← csLocate_isSome h.rawValue b!"websocket" (by simp)]
    split at hk
    · rename_i h1
      simp only [ScanRes.ok.injEq] at hk
      subst hk
      simp [h1]
    · rename_i h1
      simp only [ScanRes.ok.injEq] at hk
      subst hk
      simp [h1]
  all_goals
    repeat' split at hk
    all_goals first
      | (simp only [ScanRes.ok.injEq] at hk; subst hk; simp)
      | (cases hk; done)

theorem scanHeaders_ws (hs : List Header) (hg : ∀ h ∈ hs, Good h) {s s' : ScanState} (hk : scanHeaders s hs = .ok s') :
    s'.ws.get = s.ws.get ∧
    (s'.ws.connUpgrade = true ↔ s.ws.connUpgrade = true ∨ ∃ v ∈ valsOf .connection hs, SaysUpgrade v ∧ ¬ HasTok v b!"close") ∧
    (s'.ws.upgradeWs = true ↔ s.ws.upgradeWs = true ∨ ∃ v ∈ valsOf .upgrade hs, HasTok v b!"websocket") := by
  induction hs generalizing s with
  | nil => simp [scanHeaders] at hk; subst hk; simp [valsOf]
  | cons h t ih =>
    unfold scanHeaders at hk
    cases hh : scanHeader s h with
    | err st => rw [hh] at hk; cases hk
    | ub => rw [hh] at hk; cases hk
    | ok s1 =>
      rw [hh] at hk
      obtain ⟨a1, a2, a3⟩ := ih (fun x hx => hg x (by simp [hx])) hk
      obtain ⟨b1, b2, b3⟩ := scanHeader_ws (hg h (by simp)) hh
      refine ⟨a1.trans b1, ?_, ?_⟩
      · rw [a2, b2, valsOf_cons]
        by_cases hc : h.code = .connection <;> simp [hc, or_assoc]
      · rw [a3, b3, valsOf_cons]
        by_cases hc : h.code = .upgrade <;> simp [hc, or_assoc]

theorem mem_upg : (b!"Upgrade", HCode.upgrade) ∈ hdTypes := by decide

theorem values_upg {hs : List Header} (hf : ∀ h ∈ hs, Fine h) : Values b!"Upgrade" (hs.map (·.text)) (valsOf .upgrade hs) := values_valsOf mem_upg hf

theorem values_ex {name : Bytes} {ts vs : List Bytes} (h : Values name ts vs) (P : Bytes → Prop) :
    (∃ vs, Values name ts vs ∧ ∃ v ∈ vs, P v) ↔ ∃ v ∈ vs, P v := by
  constructor
  · rintro ⟨vs', h', hv⟩
    rw [values_det h h']
    exact hv
  · exact fun hv => ⟨vs, h, hv⟩

theorem parse_get {line : Bytes} {group : Nat} {r : ReqLine} (h : parseHttpRequest line group = .ok r) :
    (r.meth == METH b!"GET") = true ↔ ∃ url v, RequestLine line b!"GET" url v := by
  constructor
  · intro hm
    obtain ⟨m, l, -, -, h3, h4⟩ := (Props.C06_accepted_iff _ _ _).1 h
    rw [beq_iff_eq.1 hm] at h3
    have : methodName (METH b!"GET") = some b!"GET" := by decide
    rw [this] at h3
    cases h3
    exact ⟨_, _, h4⟩
  · rintro ⟨url, v, hl⟩
    have : parseHttpRequest line group = .ok { r with meth := METH b!"GET", url := url, version := v } :=
      (Props.C06_accepted_iff _ _ _).2 ⟨b!"GET", 0, by decide, by omega, by show methodName (METH b!"GET") = _; decide, hl⟩
    rw [h] at this
    injection this with this
    rw [this]
    exact beq_self_eq_true _

/-- The three bits of the request. -/
theorem accepted_ws {cfg : LstnCfg} {inp : Bytes} {a : Accepted} (h : acceptRequest cfg inp = .ok a) :
    ∃ lines ts, HeadOf inp a.line lines a.rest ∧ Props.Seen cfg.table lines ts ∧
      ((a.scan.ws.get && a.scan.ws.connUpgrade && a.scan.ws.upgradeWs) = true ↔ AsksSwitch a.line ts) := by
  obtain ⟨hs, h1, h2, hf, h4, -⟩ := accepted_inv h
  obtain ⟨lines, hh, rfl⟩ := (httpRequestRead_iff _ _ _ _ _).1 h1
  refine ⟨lines, _, hh, Props.seen_build _ _, ?_⟩
  unfold scanAll at h4
  split at h4
  · rename_i s hs'
    have : a.scan = s := by
      unfold checkFraming at h4
      repeat' split at h4
      all_goals first
        | (cases h4; done)
        | (injection h4 with h4; exact h4.symm)
    rw [this]
    obtain ⟨g1, g2, g3⟩ := scanHeaders_ws _ (fun x hx => (hf x hx).1) hs'
    dsimp only at g1 g2 g3
    unfold AsksSwitch
    rw [values_ex (values_conn hf), values_ex (values_upg hf), ← parse_get h2]
    simp only [Bool.and_eq_true, g1, g2, g3, Bool.false_eq_true, false_or, and_assoc]
  · cases h4
  · cases h4

theorem respHeader_ws {env : RespEnv} {s s' : RespScan} {h : Header} (hg : Good h) (hk : respHeader env s h = .ok s') :
    (s'.wsConn = true ↔ s.wsConn = true ∨ h.code = .connection ∧ SaysUpgrade h.rawValue) ∧
    (s'.wsUpg = true ↔ s.wsUpg = true ∨ h.code = .upgrade ∧ HasTok h.rawValue b!"websocket") := by
  have hv := hg.value
  unfold respHeader at hk
  cases hc : h.code <;> simp only [hc, hv] at hk
  case connection =>
    rw [← saysUpgrade_iff]
    split at hk
    · rename_i h1
      simp only [Res.ok.injEq] at hk
      subst hk
      simp [close_not_upgrade h1]
    · split at hk
      · rename_i h2
        simp only [Res.ok.injEq] at hk
        subst hk
        simp [h2]
      · rename_i h2
        simp only [Res.ok.injEq] at hk
        subst hk
        simp [h2]
  case upgrade =>
    rw [← csLocate_isSome _ _ (by simp)]
    split at hk
    · rename_i h1
      simp only [Res.ok.injEq] at hk
      subst hk
      simp [h1]
    · rename_i h1
      simp only [Res.ok.injEq] at hk
      subst hk
      simp [h1]
  all_goals
    repeat' split at hk
    all_goals first
      | (simp only [Res.ok.injEq] at hk; subst hk; simp)
      | (cases hk; done)

theorem respHeaders_ws (env : RespEnv) (hs : List Header) (hg : ∀ h ∈ hs, Good h) {s s' : RespScan} (hk : respHeaders env s hs = .ok s') :
    (s'.wsConn = true ↔ s.wsConn = true ∨ ∃ v ∈ valsOf .connection hs, SaysUpgrade v) ∧
    (s'.wsUpg = true ↔ s.wsUpg = true ∨ ∃ v ∈ valsOf .upgrade hs, HasTok v b!"websocket") := by
  induction hs generalizing s with
  | nil => simp [respHeaders] at hk; subst hk; simp [valsOf]
  | cons h t ih =>
    unfold respHeaders at hk
    cases hh : respHeader env s h with
    | ub => rw [hh] at hk; cases hk
    | ok s1 =>
      rw [hh] at hk
      obtain ⟨a2, a3⟩ := ih (fun x hx => hg x (by simp [hx])) hk
      obtain ⟨b2, b3⟩ := respHeader_ws (hg h (by simp)) hh
      refine ⟨?_, ?_⟩
      · rw [a2, b2, valsOf_cons]
        by_cases hc : h.code = .connection <;> simp [hc, or_assoc]
      · rw [a3, b3, valsOf_cons]
        by_cases hc : h.code = .upgrade <;> simp [hc, or_assoc]

/-! ### The response -/

theorem respHeaders_env (env : RespEnv) (w : Bytes) (f : Bool) (s : RespScan) (hs : List Header) :
    respHeaders { env with wsOut := w, wsFail := f } s hs = respHeaders env s hs := by
  induction hs generalizing s with
  | nil => rfl
  | cons h t ih =>
    unfold respHeaders
    have : respHeader { env with wsOut := w, wsFail := f } s h = respHeader env s h := rfl
    rw [this]
    cases respHeader env s h with
    | ub => rfl
    | ok s1 => exact ih s1

/-- Without the wish of the client, what could be relayed after a switch does not matter. -/
theorem backendResponse_unasked (env : RespEnv) (w : Bytes) (f : Bool) (ws : WsReq) (hw : (ws.get && ws.connUpgrade && ws.upgradeWs) = false) (fuel : Nat) :
    ∀ (skip noCont closed x y z : Bool) (inp out : Bytes),
      backendResponse { env with wsOut := w, wsFail := f } ws fuel skip noCont closed x y z inp out = backendResponse env ws fuel skip noCont closed x y z inp out := by
  induction fuel with
  | zero => intros; rfl
  | succ fuel ih =>
    intro skip noCont closed x y z inp out
    unfold backendResponse
    simp only [respHeaders_env, ih, hw, Bool.false_and, Bool.false_eq_true, if_false]

/-! ### Relaying -/

theorem wsDrain_prefix (f : Option Nat) (b : Bytes) : (wsDrain f b).1 <+: b ∧ ((wsDrain f b).2 = true → (wsDrain f b).1 = b) := by
  induction b generalizing f with
  | nil => cases f <;> simp [wsDrain]
  | cons x t ih =>
    cases f with
    | none =>
      obtain ⟨h1, h2⟩ := ih none
      simp only [wsDrain, List.prefix_cons_inj, List.cons.injEq, true_and]
      exact ⟨h1, h2⟩
    | some n =>
      cases n with
      | zero => simp [wsDrain]
      | succ n =>
        obtain ⟨h1, h2⟩ := ih (some n)
        simp only [wsDrain, List.prefix_cons_inj, List.cons.injEq, true_and]
        exact ⟨h1, h2⟩

theorem wsWrite_prefix (f : Option Nat) (b : Bytes) : (wsWrite f b).1 <+: b ∧ ((wsWrite f b).2 = true → (wsWrite f b).1 = b) := by
  unfold wsWrite
  split
  · simp
  · split
    · exact ⟨List.take_prefix _ _, nofun⟩
    · simp

theorem wsRead_none {n k : Nat} {s : WsSide} : wsRead n k s = none ↔ s.sock = [] := by
  unfold wsRead
  dsimp only
  split
  · rename_i h
    have : s.sock = [] ∨ min (n + 1) 4096 = 0 := by simpa [or_comm] using h
    simp only [true_iff]
    rcases this with h | h
    · exact h
    · omega
  · rename_i h
    simp only [reduceCtorEq, false_iff]
    intro h2
    rw [h2] at h
    exact h (by simp)

theorem wsRead_some {n k : Nat} {s s' : WsSide} {got : Bytes} (h : wsRead n k s = some (got, s')) (hb : s.buf = []) :
    s.sock = got ++ s'.buf ++ s'.sock ∧ got ≠ [] := by
  unfold wsRead at h
  dsimp only at h
  split at h
  · cases h
  · rename_i h1
    simp only [Option.some.injEq, Prod.mk.injEq] at h
    obtain ⟨rfl, rfl⟩ := h
    refine ⟨?_, h1⟩
    dsimp only
    rw [hb, List.nil_append, List.append_assoc, List.take_append_drop, List.take_append_drop]

/-- Everything taken from either peer was passed on, or is pending. -/
structure WsInv (sc sb : Bytes) (s : WsState) : Prop where
  c : s.toB ++ s.c.buf ++ s.c.sock = sc
  b : s.toC ++ s.b.buf ++ s.b.sock = sb
  count : s.count = s.toC.length

/-- The outcome of (a part of) an iteration after `n` bytes have been passed on. -/
structure WsPost (sc sb : Bytes) (n : Nat) (r : WsState × Option WsEnd) : Prop where
  pc : r.1.toB <+: sc
  pb : r.1.toC <+: sb
  inv : r.2 ≠ some .failed → WsInv sc sb r.1
  ev : r.2 = none → r.1.evC = false ∧ r.1.evB = false ∧ n < r.1.toB.length + r.1.toC.length
  idle : r.2 = some .idle → r.1.c.buf = [] ∧ r.1.b.buf = []
  ce : r.2 = some .clientEnd → r.1.c.buf = [] ∧ r.1.b.buf = [] ∧ r.1.c.sock = []
  ce' : r.2 = some .clientError → r.1.c.buf = [] ∧ r.1.b.buf = []
  be : r.2 = some .backendEnd → r.1.b.buf = [] ∧ r.1.b.sock = []
  be' : r.2 = some .backendError → r.1.b.buf = []

theorem WsInv.pre {sc sb : Bytes} {s : WsState} (h : WsInv sc sb s) : s.toB <+: sc ∧ s.toC <+: sb :=
  ⟨⟨s.c.buf ++ s.c.sock, by rw [← List.append_assoc]; exact h.c⟩, ⟨s.b.buf ++ s.b.sock, by rw [← List.append_assoc]; exact h.b⟩⟩

theorem prefix_mid {w g t x s : Bytes} (hw : w <+: g) (h : t ++ (g ++ x) = s) : t ++ w <+: s := by
  obtain ⟨u, rfl⟩ := hw
  exact ⟨u ++ x, by rw [← h]; simp⟩

theorem wsFromBackend_post {sc sb : Bytes} {n : Nat} (e : WsIter) (s : WsState) (h : WsInv sc sb s) (hb : s.b.buf = []) (hev : s.evC = false)
    (hn : n < s.toB.length + s.toC.length ∨ s.evB = true ∧ n ≤ s.toB.length + s.toC.length) : WsPost sc sb n (wsFromBackend e s) := by
  unfold wsFromBackend
  split
  · rename_i he
    have hn' : n ≤ s.toB.length + s.toC.length := by omega
    split
    · exact ⟨h.pre.1, h.pre.2, fun _ => h, nofun, nofun, nofun, nofun, nofun, fun _ => hb⟩
    · split
      · rename_i hr
        exact ⟨h.pre.1, h.pre.2, fun _ => h, nofun, nofun, nofun, nofun, fun _ => ⟨hb, wsRead_none.1 hr⟩, nofun⟩
      · rename_i got b hr
        obtain ⟨h1, h2⟩ := wsRead_some hr hb
        obtain ⟨w1, w2⟩ := wsWrite_prefix e.writeC got
        have hs : s.toC ++ (got ++ (b.buf ++ b.sock)) = sb := by
          rw [← h.b, hb, h1]
          simp
        dsimp only
        split
        · rename_i hw
          have hw := w2 hw
          refine ⟨h.pre.1, prefix_mid w1 hs, fun _ => ⟨h.c, ?_, ?_⟩, fun _ => ⟨hev, rfl, ?_⟩, nofun, nofun, nofun, nofun, nofun⟩
          · dsimp only
            rw [hw, ← hs]
            simp
          · dsimp only
            rw [hw, h.count]
            simp
          · dsimp only
            rw [hw, List.length_append]
            have := List.length_pos_iff.2 h2
            omega
        · exact ⟨h.pre.1, prefix_mid w1 hs, fun h => absurd rfl h, nofun, nofun, nofun, nofun, nofun, nofun⟩
  · rename_i he
    refine ⟨h.pre.1, h.pre.2, fun _ => h, fun _ => ⟨hev, by simpa using he, ?_⟩, nofun, nofun, nofun, nofun, nofun⟩
    rcases hn with hn | hn
    · exact hn
    · exact absurd hn.1 he

theorem wsFromClient_post {sc sb : Bytes} {n : Nat} (e : WsIter) (s : WsState) (h : WsInv sc sb s) (hc : s.c.buf = []) (hb : s.b.buf = [])
    (hn : n < s.toB.length + s.toC.length ∨ (s.evC = true ∨ s.evB = true) ∧ n ≤ s.toB.length + s.toC.length) : WsPost sc sb n (wsFromClient e s) := by
  unfold wsFromClient
  split
  · rename_i he
    have hn' : n ≤ s.toB.length + s.toC.length := by omega
    split
    · exact ⟨h.pre.1, h.pre.2, fun _ => h, nofun, nofun, nofun, fun _ => ⟨hc, hb⟩, nofun, nofun⟩
    · split
      · rename_i hr
        exact ⟨h.pre.1, h.pre.2, fun _ => h, nofun, nofun, fun _ => ⟨hc, hb, wsRead_none.1 hr⟩, nofun, nofun, nofun⟩
      · rename_i got c hr
        obtain ⟨h1, h2⟩ := wsRead_some hr hc
        obtain ⟨w1, w2⟩ := wsWrite_prefix e.writeB got
        have hs : s.toB ++ (got ++ (c.buf ++ c.sock)) = sc := by
          rw [← h.c, hc, h1]
          simp
        dsimp only
        split
        · rename_i hw
          have hw := w2 hw
          apply wsFromBackend_post
          · refine ⟨?_, h.b, h.count⟩
            dsimp only
            rw [hw, ← hs]
            simp
          · exact hb
          · rfl
          · left
            dsimp only
            rw [hw, List.length_append]
            have := List.length_pos_iff.2 h2
            omega
        · exact ⟨prefix_mid w1 hs, h.pre.2, fun h => absurd rfl h, nofun, nofun, nofun, nofun, nofun, nofun⟩
  · rename_i he
    apply wsFromBackend_post e s h hb (by simpa using he)
    rcases hn with hn | ⟨hn | hn, hm⟩
    · exact .inl hn
    · exact absurd hn he
    · exact .inr ⟨hn, hm⟩

theorem wsPending_post {sc sb : Bytes} {n : Nat} (e : WsIter) (s : WsState) (h : WsInv sc sb s) (hm : n ≤ s.toB.length + s.toC.length)
    (hn : s.evC = true ∨ s.evB = true ∨ s.c.buf ≠ [] ∨ s.b.buf ≠ []) : WsPost sc sb n (wsPending e s) := by
  unfold wsPending
  obtain ⟨d1, d2⟩ := wsDrain_prefix e.failC s.c.buf
  obtain ⟨f1, f2⟩ := wsDrain_prefix e.failB s.b.buf
  have hcs : s.toB ++ (s.c.buf ++ s.c.sock) = sc := by rw [← h.c]; simp
  have hbs : s.toC ++ (s.b.buf ++ s.b.sock) = sb := by rw [← h.b]; simp
  dsimp only
  split
  · rename_i hd
    have hd := d2 hd
    split
    · rename_i hf
      rw [Bool.and_eq_true] at hf
      have hf := f2 hf.1
      rw [hd, hf]
      apply wsFromClient_post
      · refine ⟨?_, ?_, ?_⟩
        · dsimp only
          rw [← hcs]
          simp
        · dsimp only
          rw [← hbs]
          simp
        · dsimp only
          rw [h.count]
          simp
      · simp
      · simp
      · dsimp only
        simp only [List.length_append]
        rcases hn with hn | hn | hn | hn
        · exact .inr ⟨.inl hn, by omega⟩
        · exact .inr ⟨.inr hn, by omega⟩
        · have := List.length_pos_iff.2 hn
          exact .inl (by omega)
        · have := List.length_pos_iff.2 hn
          exact .inl (by omega)
    · refine ⟨?_, prefix_mid f1 hbs, fun h => absurd rfl h, nofun, nofun, nofun, nofun, nofun, nofun⟩
      exact prefix_mid d1 hcs
  · exact ⟨prefix_mid d1 hcs, h.pre.2, fun h => absurd rfl h, nofun, nofun, nofun, nofun, nofun, nofun⟩

theorem wsIter_post {sc sb : Bytes} (e : WsIter) (s : WsState) (h : WsInv sc sb s) : WsPost sc sb (s.toB.length + s.toC.length) (wsIter e s) := by
  unfold wsIter
  split
  · rename_i hp
    refine wsPending_post e s h (Nat.le_refl _) ?_
    rw [Bool.or_eq_true] at hp
    rcases hp with hp | hp
    · exact .inr (.inr (.inl (by simpa using hp)))
    · exact .inr (.inr (.inr (by simpa using hp)))
  · rename_i hp
    have hbuf : s.c.buf = [] ∧ s.b.buf = [] := by simpa using hp
    split
    · exact ⟨h.pre.1, h.pre.2, fun _ => h, nofun, fun _ => hbuf, nofun, nofun, nofun, nofun⟩
    · exact wsPending_post e _ ⟨h.c, h.b, h.count⟩ (Nat.le_refl _) (.inl rfl)
    · exact wsPending_post e _ ⟨h.c, h.b, h.count⟩ (Nat.le_refl _) (.inr (.inl rfl))
    · exact wsPending_post e _ ⟨h.c, h.b, h.count⟩ (Nat.le_refl _) (.inl rfl)

theorem wsLoop_post {sc sb : Bytes} (es : List WsIter) (s : WsState) (h : WsInv sc sb s) :
    ∃ n, WsPost sc sb n (wsLoop es s) ∧ (wsLoop es s).2 ≠ none ∨ (wsLoop es s).2 = none ∧ WsInv sc sb (wsLoop es s).1 ∧
      s.toB.length + s.toC.length + es.length ≤ (wsLoop es s).1.toB.length + (wsLoop es s).1.toC.length := by
  induction es generalizing s with
  | nil => exact ⟨0, .inr ⟨rfl, h, by simp [wsLoop]⟩⟩
  | cons e t ih =>
    have hi := wsIter_post e s h
    unfold wsLoop
    split
    · rename_i s' hs
      rw [hs] at hi
      have hv := hi.ev rfl
      obtain ⟨n, hh | ⟨h1, h2, h3⟩⟩ := ih s' (hi.inv nofun)
      · exact ⟨n, .inl hh⟩
      · refine ⟨n, .inr ⟨h1, h2, ?_⟩⟩
        have := hv.2.2
        dsimp only at this
        simp only [List.length_cons]
        omega
    · rename_i r hr
      refine ⟨_, .inl ⟨hi, fun h2 => hr (wsIter e s).1 ?_⟩⟩
      rw [← h2]

end Pound
