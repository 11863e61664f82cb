import Verif.Proof.Relay
import Verif.Spec.BeCfg
import Verif.Props.Inject
import Verif.Props.Location

/-!
Property C95: clients read the responses of backends one for one.
-/

namespace Pound.Props
open Pound Spec

/-! ## C95 Clients read the responses of backends one for one -/

/-- A backend answers with this message, as the proxy reads it. -/
def BackendSays (strict head : Bool) (table : List Bytes) (beIn : Bytes) (m : Msg) (k : BodyKind) : Prop :=
  ∃ lines rest ver code te cl, HeadOf beIn m.line lines rest ∧ Seen table lines m.fields ∧ ResponseLine m.line ver code ∧
    Values b!"Transfer-Encoding" m.fields te ∧ Values b!"Content-Length" m.fields cl ∧ ClientFraming head code te cl k ∧
    (if k = .untilEof then m.payload = rest else ∃ rest', BodyFrom strict k rest m.payload rest')

/-- The response of a backend begins with the head of a final response whose end can be found (so there is only one length, for instance).  Transfer codings are not used in responses
without a body, nor with HTTP/1.0, and the last one is `chunked`; all lengths are valid, also where they do not matter; the obsolete codes 305 and 306 are not used. -/
def SaneHead (head : Bool) (table : List Bytes) (beIn : Bytes) : Prop :=
  ∃ line lines rest ts ver code te cl k, HeadOf beIn line lines rest ∧ Seen table lines ts ∧ ResponseLine line ver code ∧
    Values b!"Transfer-Encoding" ts te ∧ Values b!"Content-Length" ts cl ∧ ClientFraming head code te cl k ∧
    code / 100 ≠ 1 ∧ code ≠ 305 ∧ code ≠ 306 ∧ (te ≠ [] → ver = 1 ∧ FinalChunked te ∧ ¬ NoBody head code) ∧ ∀ v ∈ cl, ∃ n, DeclaresLength v n

/-- Responses are changed only by rules whose texts are single lines and that leave the headers alone by which the end of a body is found, whatever happened on the connection before, and by
the rewriting of Location and Content-Location (not at all if `RewriteLocation` is 0), for a Host header of one line.  Backends answer in time. -/
structure RelaysSafely (env : RespEnv) : Prop where
  rules : ∃ x svc lstn, RulesLines svc ∧ RulesLines lstn ∧ RulesFraming svc ∧ RulesFraming lstn ∧
    ∀ hs hs', (∀ h ∈ hs, OneLine h.text) → env.edit hs = some hs' →
      ∃ st st', OnConn st ∧ st.req.request ≠ [] ∧ st.hs = hs ∧ rewriteResponse x svc lstn st = (st', .val 0) ∧ hs' = st'.hs
  loc : ∃ e ssl vhost, (∀ v, vhost = some v → OneLine v) ∧ env.loc = locText e ssl vhost
  readable : env.readable = true

/-- A header of a response after Location and Content-Location have been rewritten by `loc`: other headers stay as they are. -/
inductive Moved (loc : HCode → Bytes → Option Bytes) : Bytes → Bytes → Prop where
  | other {t} : ¬ Named t b!"Location" → ¬ Named t b!"Content-location" → Moved loc t t
  | location {t n v} : HeaderLine t n v → ciEq n b!"Location" = true → Moved loc t ((loc .location v).getD t)
  | content {t n v} : HeaderLine t n v → ciEq n b!"Content-location" = true → Moved loc t ((loc .contLocation v).getD t)

/-- What becomes of a backend's response: its status line and payload are those of the backend, its headers are rewritten by the rules, then Location and Content-Location. -/
def Presented (env : RespEnv) (m m' : Msg) : Prop :=
  m'.line = m.line ∧ m'.payload = m.payload ∧ ∃ hs hs', HeaderList hs ∧ hs.map (·.text) = m.fields ∧ env.edit hs = some hs' ∧ Each (Moved env.loc) (hs'.map (·.text)) m'.fields

theorem moved_of {loc : HCode → Bytes → Option Bytes} {h : Header} (hf : Fine h) :
    Moved loc h.text ((if h.code = .location ∨ h.code = .contLocation then loc h.code h.rawValue else none).getD h.text) := by
  have hl := codeOf_iff (e := (b!"Location", .location)) (by decide) h.name
  have hc := codeOf_iff (e := (b!"Content-location", .contLocation)) (by decide) h.name
  rw [← hf.2] at hl hc
  by_cases h1 : h.code = .location
  · rw [if_pos (.inl h1), h1]
    exact .location (Good.line hf.1) (hl.1 h1)
  · by_cases h2 : h.code = .contLocation
    · rw [if_pos (.inr h2), h2]
      exact .content (Good.line hf.1) (hc.1 h2)
    · rw [if_neg (fun h => h.elim h1 h2)]
      refine .other (fun hn => ?_) (fun hn => ?_)
      · obtain ⟨n, v, a1, a2⟩ := hn
        rw [← (line_unique (Good.line hf.1) a1).1] at a2
        exact h1 (hl.2 a2)
      · obtain ⟨n, v, a1, a2⟩ := hn
        rw [← (line_unique (Good.line hf.1) a1).1] at a2
        exact h2 (hc.2 a2)

theorem moved_all {loc : HCode → Bytes → Option Bytes} : ∀ {hs : List Header}, (∀ h ∈ hs, Fine h) →
    Each (Moved loc) (hs.map (·.text)) (hs.map fun h => (if h.code = .location ∨ h.code = .contLocation then loc h.code h.rawValue else none).getD h.text)
  | [], _ => .nil
  | h :: hs, hf => .cons (moved_of (hf h (by simp))) (moved_all fun x hx => hf x (by simp [hx]))

/-- The responses `ms` are those of the backends to these requests, one by one. -/
inductive RelayedFrom (strict : Bool) (world : Nat → Accepted → Serve) : Nat → List Handled → List Msg → Prop where
  | nil {i} : RelayedFrom strict world i [] []
  | cons {i x xs ms edit env beIn m m' k} : world i x.req = .regular edit env beIn → BackendSays strict (x.req.rl.meth == METH b!"HEAD") env.table beIn m k → Presented env m m' →
      RelayedFrom strict world (i + 1) xs ms → RelayedFrom strict world i (x :: xs) (m' :: ms)

/-- Where a response ends, unless it lasts until the end of the stream, and what it is, is unambiguous. -/
theorem C95_answer_once (strict head : Bool) (w w' r r' : Bytes) (m m' : Msg) (k k' : BodyKind) (h : Answers strict head w m k) (h' : Answers strict head w' m' k')
    (e : w ++ r = w' ++ r') : k = k' ∧ m.line = m'.line ∧ m.fields = m'.fields ∧ (k ≠ .untilEof → w = w' ∧ m = m' ∧ r = r') ∧ (r = [] → r' = [] → w = w' ∧ m = m') := by
  obtain ⟨hdr, lines, ver, code, te, cl, body, rfl, h2, h3, h4, h5, h6, h7, h8, h9⟩ := h
  obtain ⟨hdr', lines', ver', code', te', cl', body', rfl, h2', h3', h4', h5', h6', h7', h8', h9'⟩ := h'
  rw [List.append_assoc, List.append_assoc (m'.line ++ _)] at e
  obtain ⟨e1, e2⟩ := oneLine_split h2 h2' e
  rw [List.append_assoc, List.append_assoc] at e2
  obtain ⟨rfl, rfl, e3⟩ := crlfLines_split h4 h4' e2
  have e4 := fields_det h5 h5'
  rw [← e1] at h3'
  rw [← e4] at h6' h7'
  obtain ⟨rfl, rfl⟩ := responseLine_det h3 h3'
  have e5 := values_det h6 h6'
  have e6 := values_det h7 h7'
  subst e5 e6
  have ek := clientFraming_det h8 h8'
  subst ek
  refine ⟨rfl, e1, e4, ?_, ?_⟩
  · intro hk
    rw [if_neg hk] at h9 h9'
    obtain ⟨rfl, e7, rfl⟩ := bodyOf_split h9 h9' e3
    refine ⟨by rw [e1], ?_, rfl⟩
    cases m; cases m'
    simp only at e1 e4 e7
    rw [e1, e4, e7]
  · rintro rfl rfl
    simp only [List.append_nil] at e3
    subst e3
    refine ⟨by rw [e1], ?_⟩
    have e7 : m.payload = m'.payload := by
      by_cases hk : k = .untilEof
      · rw [if_pos hk] at h9 h9'
        rw [← h9, ← h9']
      · rw [if_neg hk] at h9 h9'
        exact (bodyOf_split (r := []) (r' := []) h9 h9' rfl).2.1
    cases m; cases m'
    simp only at e1 e4 e7
    rw [e1, e4, e7]

theorem answers_ne_nil {strict head : Bool} {w : Bytes} {m : Msg} {k : BodyKind} (h : Answers strict head w m k) : w ≠ [] := by
  obtain ⟨hdr, lines, ver, code, te, cl, body, rfl, -⟩ := h
  simp

/-- What a client takes a stream of responses for is unambiguous. -/
theorem C95_read_once (strict : Bool) (heads : List Bool) (bytes : Bytes) (ms ms' : List Msg) (h : Answered strict heads bytes ms) (h' : Answered strict heads bytes ms') : ms = ms' := by
  induction h generalizing ms' with
  | nil => cases h'; rfl
  | cons h1 h2 h3 ih =>
    rename_i head w m k heads ws ms
    generalize hz : w ++ ws = z at h'
    cases h' with
    | cons g1 g2 g3 =>
      obtain ⟨-, -, -, e, -⟩ := C95_answer_once strict _ _ _ _ _ _ _ _ _ h1 g1 hz
      obtain ⟨-, rfl, rfl⟩ := e h2
      rw [ih _ g3]
    | last g1 =>
      obtain ⟨e, -⟩ := C95_answer_once strict _ _ _ _ [] _ _ _ _ h1 g1 (by rw [hz, List.append_nil])
      exact absurd e h2
  | last h1 =>
    rename_i head w m
    generalize hz : w = z at h'
    generalize hy : [head] = y at h'
    cases h' with
    | nil => cases hy
    | cons g1 g2 g3 =>
      injection hy with hy1 hy2
      subst hy1
      obtain ⟨e, -⟩ := C95_answer_once strict _ _ _ [] _ _ _ _ _ h1 g1 (by rw [List.append_nil]; exact hz)
      exact absurd e.symm g2
    | last g1 =>
      injection hy with hy1 hy2
      subst hy1
      obtain ⟨-, -, -, -, e⟩ := C95_answer_once strict _ _ _ [] [] _ _ _ _ h1 g1 (by rw [List.append_nil, List.append_nil]; exact hz)
      rw [(e rfl rfl).2]

theorem relocated_text {env : RespEnv} (hl : PlainLoc env) {h : Header} (ho : OneLine h.text) :
    (relocated env h).text = (if h.code = .location ∨ h.code = .contLocation then env.loc h.code h.rawValue else none).getD h.text := by
  unfold relocated
  split
  · rename_i hc
    cases ht : env.loc h.code h.rawValue with
    | none => rfl
    | some t =>
      obtain ⟨-, n, v', h2, -⟩ := hl _ _ _ hc (rawValue_oneLine ho) ht
      exact (change_good (h := h) h2).2
  · rfl

/-- Rules of this kind leave well-formed headers, single lines, and the framing. -/
theorem safely_edits {env : RespEnv} (h : RelaysSafely env) {hs hs' : List Header} (ho : ∀ h ∈ hs, OneLine h.text) (hf : ∀ h ∈ hs, Fine h) (he : env.edit hs = some hs') :
    (∀ h ∈ hs', Fine h ∧ OneLine h.text) ∧ HeadersNamed b!"Transfer-Encoding" (hs'.map (·.text)) = HeadersNamed b!"Transfer-Encoding" (hs.map (·.text)) ∧
      HeadersNamed b!"Content-Length" (hs'.map (·.text)) = HeadersNamed b!"Content-Length" (hs.map (·.text)) := by
  obtain ⟨x, svc, lstn, r1, r2, r3, r4, hr⟩ := h.rules
  obtain ⟨st, st', c, hne, rfl, e, rfl⟩ := hr hs hs' ho he
  have c := C94_response_lines x svc lstn st c ⟨r1, r2⟩
  have f := rewriteRequest_inv (x := x) (I := fun s => FramingSt (HeadersNamed b!"Transfer-Encoding" (texts st.hs)) (HeadersNamed b!"Content-Length" (texts st.hs)) s ∧ ∀ h ∈ s.hs, Fine h)
    (fun c st _ h => matchCond_fine x c st h) (fun p st hp h => rwPrim_fine hp h) svc lstn st r3 r4 ⟨⟨fun y hy => (hf y hy).1, rfl, rfl, hne⟩, hf⟩
  have e' : rewriteRequest x svc lstn st = (st', .val 0) := e
  rw [e'] at f
  rw [e] at c
  exact ⟨fun y hy => ⟨f.2 y hy, c y hy⟩, f.1.te, f.1.cl⟩

/-- One exchange -/
theorem answer_one {strict : Bool} {cfg : LstnCfg} {sched : Nat → Nat} {edit : Bytes → List Header → Option (Bytes × List Header)} {env : RespEnv} {beIn : Bytes} {x : Handled}
    (hw : RelaysSafely env) (hsane : SaneHead (x.req.rl.meth == METH b!"HEAD") env.table beIn) (hs : serve cfg sched x.req (.regular edit env beIn) = .ok x) (hok : x.res = some .ok)
    (hst : strict = true → ∀ line lines rest wire payload rest', HeadOf beIn line lines rest → Chunked false 4095 wire payload → Consumed rest wire rest' → Chunked true 4095 wire payload) :
    ∃ m m' k, BackendSays strict (x.req.rl.meth == METH b!"HEAD") env.table beIn m k ∧ Presented env m m' ∧ Answers strict (x.req.rl.meth == METH b!"HEAD") x.toClient m' k ∧
      (k = .untilEof → x.closed = true) := by
  generalize hhead : (x.req.rl.meth == METH b!"HEAD") = head at hsane ⊢
  obtain ⟨line, lines, rest, ts, ver, code, te, cl, k, h1, h2, h3, h4, h5, h6, s1, s2, s3, s4, s5⟩ := hsane
  -- the request was sent
  unfold serve at hs
  dsimp only at hs
  generalize hr : sendToBackend sched edit x.req.line x.req.scan.headers (x.req.rl.version == 1 && x.req.scan.te == .chunked) x.req.scan.cl cfg.maxReq x.req.rest = r at hs
  rw [hhead] at hs
  generalize hq : backendResponse env x.req.scan.ws (beIn.length + 1) false head x.req.scan.connClosed false false false beIn [] = q at hs
  have hx : q.fin = .ok (some .ok) ∧ x.toClient = q.out ∧ x.closed = q.connClosed := by
    cases hf : r.fin with
    | stuck => rw [hf] at hs; cases hs
    | ub => rw [hf] at hs; cases hs
    | status st =>
      rw [hf] at hs
      by_cases hst' : st = .ok
      · subst hst'
        dsimp only at hs
        cases hqf : q.fin with
        | ub => rw [hqf] at hs; cases hs
        | ok res =>
          rw [hqf] at hs
          injection hs with hs
          have e1 : x.res = res := by rw [← hs]
          exact ⟨by rw [← e1, hok], by rw [← hs], by rw [← hs]⟩
      · exfalso
        have : ∃ y, x = y ∧ y.res = some st := by
          cases st <;> first | exact absurd rfl hst' | (injection hs with hs; exact ⟨_, hs.symm, rfl⟩)
        obtain ⟨y, rfl, e⟩ := this
        rw [hok] at e
        injection e with e
        exact hst' e.symm
  obtain ⟨hx1, hx2, hx3⟩ := hx
  have hrd : httpRequestRead env.table beIn = .ok line (buildHeaders env.table lines) rest := (httpRequestRead_iff _ _ _ _ _).2 ⟨lines, h1, rfl⟩
  have ets : ts = (buildHeaders env.table lines).map (·.text) := seen_det h2 (seen_build env.table lines)
  have hone : ∀ h ∈ buildHeaders env.table lines, OneLine h.text := fun h hh => seen_oneLine h1 h2 _ (by rw [ets]; exact List.mem_map.2 ⟨h, hh, rfl⟩)
  cases he : env.edit (buildHeaders env.table lines) with
  | none =>
    exfalso
    unfold backendResponse at hq
    simp only [hrd, (validate_iff _ _ _).2 h3, he] at hq
    rw [← hq] at hx1
    cases hx1
  | some hs' =>
    obtain ⟨f1, f2, f3⟩ := safely_edits hw hone (buildHeaders_fine _ _) he
    obtain ⟨le, lssl, lv, lv1, lv2⟩ := hw.loc
    have hpl : PlainLoc env := locText_plain lv1 lv2
    obtain ⟨n1, n2⟩ := relocated_named hpl hs' f1
    rw [← ets] at f2 f3
    have v1 := values_of_named f2 h4
    have v2 := values_of_named f3 h5
    have w1 := values_of_named n1 v1
    have w2 := values_of_named n2 v2
    have hbn : Bodiless head code ↔ NoBody head code := by
      unfold Bodiless NoBody
      constructor
      · rintro (h | h | h | h | h | h)
        · exact .inl h
        · exact .inr (.inl h)
        · exact .inr (.inr (.inl h))
        · exact .inr (.inr (.inr h))
        · exact absurd h s2
        · exact absurd h s3
      · rintro (h | h | h | h)
        · exact .inl h
        · exact .inr (.inl h)
        · exact .inr (.inr (.inl h))
        · exact .inr (.inr (.inr (.inl h)))
    have hno : Bodiless head code → ∀ v ∈ te, ¬ HasTok v b!"chunked" := by
      intro hb v hv
      exact absurd (hbn.1 hb) (s4 (fun e => by rw [e] at hv; cases hv)).2.2
    have hk : RespFraming head ver code te cl k := by
      cases k with
      | none => exact hbn.2 h6
      | chunked =>
        obtain ⟨a1, a2⟩ := h6
        have a3 := a2
        obtain ⟨vs, v, e, -, a4⟩ := a3
        exact ⟨fun hb => a1 (hbn.1 hb), (s4 (by rw [e]; simp)).1, v, by rw [e]; simp, endsWith_has a4⟩
      | length n =>
        obtain ⟨a1, rfl, a3, a4⟩ := h6
        exact ⟨fun hb => a1 (hbn.1 hb), (by rintro ⟨-, v, hv, -⟩; cases hv), a3, a4⟩
      | untilEof =>
        obtain ⟨a1, ⟨a2, a3⟩ | ⟨rfl, a3⟩⟩ := h6
        · exact absurd (s4 a2).2.1 a3
        · exact ⟨fun hb => a1 (hbn.1 hb), (by rintro ⟨-, v, hv, -⟩; cases hv), a3⟩
    obtain ⟨q', hq', key⟩ := final_response env x.req.scan.ws beIn.length head x.req.scan.connClosed beIn line rest lines hs' ver code te cl k hw.readable h1 h3 s1 he
      (fun y hy => (f1 y hy).1) v1 v2 s5 hno hk
    rw [hq] at hq'
    subst hq'
    obtain ⟨ls, k1, k2⟩ := fields_of_texts ((hs'.map (relocated env)).map (·.text)) (by
      intro t ht
      rw [List.map_map] at ht
      obtain ⟨y, hy, rfl⟩ := List.mem_map.1 ht
      obtain ⟨o1, o2, -⟩ := relocated_line hpl (f1 y hy).1 (f1 y hy).2
      exact ⟨⟨_, [], by simp, o1, by simp⟩, o2⟩)
    have hsend : sendHead line (hs'.map (relocated env)) = line ++ [13, 10] ++ (((hs'.map (relocated env)).map (·.text)).flatMap (· ++ crlf) ++ crlf) := by
      unfold sendHead
      rw [List.flatMap_map (f := fun h : Header => h.text)]
      simp [crlf]
    have hfl : (hs'.map (relocated env)).map (·.text) = hs'.map fun h => (if h.code = .location ∨ h.code = .contLocation then env.loc h.code h.rawValue else none).getD h.text := by
      rw [List.map_map]
      apply List.map_congr_left
      intro y hy
      exact relocated_text hpl (f1 y hy).2
    have fin : ∀ payload body, (if k = .untilEof then payload = rest else ∃ rest', BodyFrom strict k rest payload rest') →
        (if k = .untilEof then body = payload else BodyOf strict k body payload) → x.toClient = sendHead line (hs'.map (relocated env)) ++ body → (k = .untilEof → x.closed = true) →
        ∃ m m' k, BackendSays strict head env.table beIn m k ∧ Presented env m m' ∧ Answers strict head x.toClient m' k ∧ (k = .untilEof → x.closed = true) := by
      intro payload body b1 b2 b3 b4
      refine ⟨⟨line, ts, payload⟩, ⟨line, (hs'.map (relocated env)).map (·.text), payload⟩, k, ⟨lines, rest, ver, code, te, cl, h1, h2, h3, h4, h5, h6, b1⟩,
        ⟨rfl, rfl, _, hs', .read, ets.symm, he, by rw [hfl]; exact moved_all fun y hy => (f1 y hy).1⟩, ⟨_, ls, ver, code, te, cl, body, ?_, (headOf_line h1).2, h3, k1, k2, w1, w2, h6, b2⟩, b4⟩
      rw [b3, hsend]
      simp
    cases k with
    | none =>
      obtain ⟨-, b1, -⟩ := key
      exact fin [] [] ⟨rest, .none⟩ .none (by rw [hx2, b1]; simp) (by simp)
    | length n =>
      dsimp only at key
      split at key
      · rename_i hle
        obtain ⟨-, b1, -⟩ := key
        have hlen : (rest.take n).length = n := by simp [hle]
        refine fin (rest.take n) (rest.take n) ⟨rest.drop n, ?_⟩ (.length hlen) (by rw [hx2, b1]) (by simp)
        have := BodyFrom.length (strict := strict) (r := rest.drop n) hlen
        rw [List.take_append_drop] at this
        exact this
      · rw [key.1] at hx1
        cases hx1
    | untilEof =>
      obtain ⟨-, b1, b2, -⟩ := key
      exact fin rest rest rfl rfl (by rw [hx2, b1]) (fun _ => by rw [hx3, b2])
    | chunked =>
      obtain ⟨-, -, b⟩ := key
      obtain ⟨b1, b2⟩ := b hx1
      obtain ⟨wire, payload, c1, c2, -, -⟩ := C02_chunked_sound_partial env.sched false 0 rest b1
      have cs : Chunked strict 4095 wire payload := by
        cases strict with
        | false => exact c1
        | true => exact hst rfl line lines rest wire payload _ h1 c1 c2
      have co := copyChunks_out env.sched cs 0 c2 b1
      exact fin payload _ ⟨_, .chunked cs c2⟩ (.chunked co) (by rw [hx2, b2]) (by simp)

/-- For every connection of a client: if the requests up to some point were answered by backends that follow the standard, then what was sent to the client is read, by clients with the same
notion of chunked bodies, or strict ones if the backends are strict, as the responses of these backends to the client's requests, one for one, and in no other way; they have the status lines and
payloads that the backends sent.  So no backend can make a client take a part of its response for the response to another request.
Missing for the full property: responses generated by the server (see C90 for these), interim responses (`C41_after_100_fails`, `C41_after_103_fails`), and backends
that do not follow the standard, or not in time, which can do so (`C95_codings_fails`, `C95_proxy_codes_fails`, `C95_late_fails`). -/
theorem C95_one_for_one_partial (strict : Bool) (cfg : LstnCfg) (msie : Accepted → Bool) (sched : Nat → Nat) (world : Nat → Accepted → Serve) (fuel i : Nat) (inp : Bytes)
    (pre post : List Handled) (h : (doHttp cfg msie sched world fuel i inp).1 = pre ++ post) (hok : ∀ x ∈ pre, x.res = some .ok)
    (hw : ∀ i a, ∃ edit env beIn, world i a = .regular edit env beIn ∧ RelaysSafely env ∧ SaneHead (a.rl.meth == METH b!"HEAD") env.table beIn ∧
      (strict = true → ∀ line lines rest wire payload rest', HeadOf beIn line lines rest → Chunked false 4095 wire payload → Consumed rest wire rest' → Chunked true 4095 wire payload)) :
    ∃ ms, RelayedFrom strict world i pre ms ∧
      ∀ ms', Answered strict (pre.map (·.req.rl.meth == METH b!"HEAD")) (pre.flatMap (·.toClient)) ms' ↔ ms' = ms := by
  suffices ∃ ms, RelayedFrom strict world i pre ms ∧ Answered strict (pre.map (·.req.rl.meth == METH b!"HEAD")) (pre.flatMap (·.toClient)) ms by
    obtain ⟨ms, h1, h2⟩ := this
    exact ⟨ms, h1, fun ms' => ⟨fun h3 => C95_read_once _ _ _ _ _ h3 h2, fun e => e ▸ h2⟩⟩
  induction pre generalizing fuel i inp with
  | nil => exact ⟨[], .nil, .nil⟩
  | cons x pre ih =>
    obtain ⟨f, rfl, h1, h2, h3⟩ := doHttp_cons h
    obtain ⟨edit, env, beIn, w1, w2, w3, w4⟩ := hw i x.req
    rw [w1] at h2
    obtain ⟨m, m', k, a1, a2, a3, a4⟩ := answer_one w2 w3 h2 (hok x (by simp)) w4
    by_cases hn : pre = []
    · subst hn
      by_cases hk : k = .untilEof
      · subst hk
        exact ⟨[m'], .cons w1 a1 a2 .nil, by simpa using Answered.last a3⟩
      · exact ⟨[m'], .cons w1 a1 a2 .nil, by simpa using Answered.cons a3 hk .nil⟩
    · have hl : pre ++ post ≠ [] := fun e => hn (List.append_eq_nil_iff.1 e).1
      obtain ⟨e1, -, e2, -⟩ := h3 hl
      have hk : k ≠ .untilEof := by
        intro hk
        rw [a4 hk] at e2
        cases e2
      obtain ⟨ms, m1, m2⟩ := ih f (i + 1) x.rest e1.symm (fun y hy => hok y (by simp [hy]))
      exact ⟨m' :: ms, .cons w1 a1 a2 m1, .cons a3 hk m2⟩

/-- Heads with these lines -/
theorem sane_calc (head : Bool) (beIn line rest : Bytes) (hs : List Header) (L : List (Bytes × Bytes × Bytes)) (ver code : Nat) (te cl : List Bytes) (k : BodyKind)
    (h1 : httpRequestRead [] beIn = .ok line hs rest) (h2 : hs.map (·.text) = L.map (·.1)) (h3 : ∀ x ∈ L, asLine x.1 = some x) (h4 : httpResponseValidate line = some (ver, code))
    (h5 : (L.filter fun x => ciEq x.2.1 b!"Transfer-Encoding").map (·.2.2) = te) (h6 : (L.filter fun x => ciEq x.2.1 b!"Content-Length").map (·.2.2) = cl)
    (h7 : ClientFraming head code te cl k)
    (h8 : code / 100 ≠ 1 ∧ code ≠ 305 ∧ code ≠ 306) (h9 : te ≠ [] → ver = 1 ∧ FinalChunked te ∧ ¬ NoBody head code) (h10 : ∀ v ∈ cl, ∃ n, DeclaresLength v n) : SaneHead head [] beIn := by
  obtain ⟨lines, g1, rfl⟩ := (httpRequestRead_iff _ _ _ _ _).1 h1
  refine ⟨line, lines, rest, L.map (·.1), ver, code, te, cl, k, g1, h2 ▸ seen_build [] lines, (validate_iff _ _ _).1 h4, ?_, ?_, h7, h8.1, h8.2.1, h8.2.2, h9, h10⟩
  · rw [← h5]; exact values_calc _ L h3
  · rw [← h6]; exact values_calc _ L h3

/-- Rules: the header `Server` is deleted, another one is set. -/
def relayRule : RwRule :=
  .mk (.bool .and []) [.prim (.hdrDel fun t => ⟨t.take 7 = b!"Server:", []⟩), .prim (.hdrSet b!"X-Via: pound")] .null

theorem relayRule_lines : RulesLines [relayRule] := by
  intro r hr
  simp only [List.mem_singleton] at hr
  subst hr
  unfold relayRule
  simp only [RuleAll, OpsAll, OpAll, PrimLines, CondLines, CondsLines]
  exact ⟨trivial, ⟨trivial, oneLine_bool _ (by decide), trivial⟩, trivial⟩

theorem serverLine_named {t : Bytes} (h : t.take 7 = b!"Server:") (n : Bytes) (hn : ciEq b!"Server" n = false) : ¬ Named t n := by
  have e : t = b!"Server" ++ ch%':' :: (t.drop 7) := by
    have := List.take_append_drop 7 t
    rw [h] at this
    exact this.symm
  have hl : ∃ v, HeaderLine t b!"Server" v := by
    refine ⟨(t.drop 7).dropWhile (fun c : UInt8 => c == 32 || c == 9), (t.drop 7).takeWhile (fun c : UInt8 => c == 32 || c == 9), ?_, by decide, ?_, ?_, ?_⟩
    · rw [List.takeWhile_append_dropWhile]; exact e
    · unfold TChar; decide
    · intro c hc
      obtain ⟨_, -, -, -, -, h3⟩ := takeWhile_split (fun c : UInt8 => c == 32 || c == 9) (t.drop 7)
      simpa using h3 c hc
    · intro c hc
      have := List.head?_dropWhile_not (fun c : UInt8 => c == 32 || c == 9) (t.drop 7)
      rw [hc] at this
      simpa using this
  obtain ⟨v, hl⟩ := hl
  intro hx
  rw [(named_iff_line hl n).1 hx] at hn
  cases hn

theorem relayRule_framing : RulesFraming [relayRule] := by
  intro r hr
  simp only [List.mem_singleton] at hr
  subst hr
  unfold relayRule
  simp only [RuleAll, OpsAll, OpAll, PrimFraming]
  refine ⟨trivial, ⟨?_, ?_, trivial⟩, trivial⟩
  · intro t ht
    cases hb : decide (t.take 7 = b!"Server:") with
    | false => rfl
    | true =>
      have hb := of_decide_eq_true hb
      rcases ht with ht | ht
      · exact absurd ht (serverLine_named hb _ (by decide))
      · exact absurd ht (serverLine_named hb _ (by decide))
  · exact ⟨b!"X-Via", b!"pound", (asLine_some (x := (b!"X-Via: pound", b!"X-Via", b!"pound")) (by decide)).2, by decide, by decide, by decide, by decide⟩

/-- The state in which the headers of a response are rewritten -/
def relayState (hs : List Header) : PState := ⟨⟨b!"HTTP/1.1 200 OK", none, 0, 1, [], [], none, [], false⟩, hs, .init, some (Req.fresh b!"GET / HTTP/1.1" ⟨METH b!"GET", b!"/", 1⟩, [])⟩

/-- Responses are rewritten by this rule; Location is rewritten if it leads to the backend. -/
def relayEnv : RespEnv where
  edit := fun hs => match rewriteResponse injCtx [relayRule] [] (relayState hs) with
    | (st, .val 0) => some st.hs
    | _ => none
  loc := locText (exLoc 2) false (some b!"example.org")

theorem relayEnv_safely : RelaysSafely relayEnv where
  rules := by
    refine ⟨injCtx, [relayRule], [], relayRule_lines, (by intro r hr; cases hr), relayRule_framing, (by intro r hr; cases hr), ?_⟩
    intro hs hs' ho he
    unfold relayEnv at he
    dsimp only at he
    split at he
    · rename_i st hst
      injection he with he
      refine ⟨relayState hs, st, ?_, by simp [relayState], rfl, hst, he.symm⟩
      exact OnConn.response (st := ⟨Req.fresh b!"GET / HTTP/1.1" ⟨METH b!"GET", b!"/", 1⟩, [], .init, none⟩) (.first (g := 0) (oneLine_bool _ (by decide)) (by decide +kernel) (by simp)) rfl
        (oneLine_bool _ (by decide)) (Nat.le_refl 1) ho
    · cases he
  loc := ⟨exLoc 2, false, some b!"example.org", by intro v h; injection h with h; subst h; exact oneLine_bool _ (by decide), rfl⟩
  readable := rfl

/-- A response with a chunked body, one with a length -/
def relayChunked : Bytes :=
  b!"HTTP/1.1 201 Created\r\nServer: s\r\nTransfer-Encoding: chunked\r\nLocation: http://10.0.0.3:8080/new\r\n\r\n8\r\nHTTP/1.1\r\n0\r\n\r\n"

def relayLength : Bytes := b!"HTTP/1.1 200 OK\r\nContent-Length: 3\r\n\r\nabc"

def relayWorld : Nat → Accepted → Serve := fun i a =>
  .regular (transitEdit plainCfg) relayEnv (if a.rl.meth == METH b!"HEAD" then b!"HTTP/1.1 200 OK\r\nContent-Length: 3\r\n\r\n" else if i = 0 then relayChunked else relayLength)

def relayInput : Bytes := b!"POST /a HTTP/1.1\r\nContent-Length: 1\r\n\r\nxHEAD /b HTTP/1.1\r\n\r\nGET /c HTTP/1.1\r\n\r\n"

theorem declares3 : DeclaresLength b!"3" 3 := (declares_iff _ _).1 (by decide +kernel)

/-- `C95_one_for_one_partial` applies to this connection, and this is what the client gets. -/
example : (∀ i a, ∃ edit env beIn, relayWorld i a = .regular edit env beIn ∧ RelaysSafely env ∧ SaneHead (a.rl.meth == METH b!"HEAD") env.table beIn) ∧
    (doHttp {} (fun _ => false) (fun n => n) relayWorld 9 0 relayInput).1.map (fun x => (x.res, x.toClient)) =
      [(some .ok, b!"HTTP/1.1 201 Created\r\nTransfer-Encoding: chunked\r\nLocation: http://example.org/new\r\nX-Via: pound\r\n\r\n8\r\nHTTP/1.1\r\n0\r\n\r\n"),
       (some .ok, b!"HTTP/1.1 200 OK\r\nContent-Length: 3\r\nX-Via: pound\r\n\r\n"),
       (some .ok, b!"HTTP/1.1 200 OK\r\nContent-Length: 3\r\nX-Via: pound\r\n\r\nabc")] := by
  refine ⟨?_, by decide +kernel⟩
  intro i a
  refine ⟨_, _, _, rfl, relayEnv_safely, ?_⟩
  show SaneHead _ [] _
  have hl : ∀ x ∈ [b!"3"], ∃ n, DeclaresLength x n := by
    intro x hx
    simp only [List.mem_singleton] at hx
    subst hx
    exact ⟨3, declares3⟩
  have hl' : ∀ x ∈ [b!"3"], DeclaresLength x 3 := by
    intro x hx
    simp only [List.mem_singleton] at hx
    subst hx
    exact declares3
  cases a.rl.meth == METH b!"HEAD" with
  | true =>
    exact sane_calc true _ b!"HTTP/1.1 200 OK" [] _ [plainLine b!"Content-Length" b!"3"] 1 200 [] [b!"3"] .none rfl (by decide +kernel) (by decide +kernel) (by decide +kernel) (by decide +kernel)
      (by decide +kernel) (.inl rfl) (by decide) (by simp) hl
  | false =>
    simp only [Bool.false_eq_true, if_false]
    have hnb : ∀ c, c = 200 ∨ c = 201 → ¬ NoBody false c := by
      intro c hc
      unfold NoBody
      rcases hc with rfl | rfl <;> simp
    have hfc : FinalChunked [b!"chunked"] := ⟨[], b!"chunked", rfl, by simp, [], b!"chunked", ⟨by simp, by decide, [], rfl, .inl ⟨rfl, rfl⟩⟩,
      ⟨b!"chunked", ⟨[], [], rfl, by simp, by simp, by decide, by decide⟩, by decide⟩, by simp⟩
    split
    · exact sane_calc false _ b!"HTTP/1.1 201 Created" b!"8\r\nHTTP/1.1\r\n0\r\n\r\n" _
        [plainLine b!"Server" b!"s", plainLine b!"Transfer-Encoding" b!"chunked", plainLine b!"Location" b!"http://10.0.0.3:8080/new"] 1 201 [b!"chunked"] [] .chunked
        rfl (by decide +kernel) (by decide +kernel) (by decide +kernel) (by decide +kernel) (by decide +kernel) ⟨hnb _ (.inr rfl), hfc⟩ (by decide)
        (fun _ => ⟨rfl, hfc, hnb _ (.inr rfl)⟩) (by simp)
    · exact sane_calc false _ b!"HTTP/1.1 200 OK" b!"abc" _ [plainLine b!"Content-Length" b!"3"] 1 200 [] [b!"3"] (.length 3) rfl (by decide +kernel) (by decide +kernel)
        (by decide +kernel) (by decide +kernel) (by decide +kernel) ⟨hnb _ (.inl rfl), rfl, by simp, hl'⟩ (by decide) (by simp) hl

/-- What a client reads: a status line, header lines and a body -/
theorem answers_calc (head : Bool) (line body payload : Bytes) (L : List (Bytes × Bytes × Bytes)) (ver code : Nat) (te cl : List Bytes) (k : BodyKind)
    (h2 : line.all (fun c => c != 13 && c != 10) = true) (h3 : ∀ x ∈ L, asLine x.1 = some x ∧ x.1.all (fun c => c != 13 && c != 10) = true) (h4 : httpResponseValidate line = some (ver, code))
    (h5 : (L.filter fun x => ciEq x.2.1 b!"Transfer-Encoding").map (·.2.2) = te) (h6 : (L.filter fun x => ciEq x.2.1 b!"Content-Length").map (·.2.2) = cl)
    (h7 : ClientFraming head code te cl k) (h8 : if k = .untilEof then body = payload else BodyOf false k body payload) :
    Answers false head (line ++ [13, 10] ++ ((L.map (·.1)).flatMap (· ++ crlf) ++ crlf ++ body)) ⟨line, L.map (·.1), payload⟩ k := by
  obtain ⟨lines, g1, g2⟩ := fields_of_texts (L.map (·.1)) (by
    intro t ht
    obtain ⟨x, hx, rfl⟩ := List.mem_map.1 ht
    exact ⟨⟨x.1, [], by simp, oneLine_bool _ (h3 x hx).2, by simp⟩, _, _, (asLine_some (h3 x hx).1).2⟩)
  refine ⟨_, lines, ver, code, te, cl, body, rfl, oneLine_bool _ h2, (validate_iff _ _ _).1 h4, g1, g2, ?_, ?_, h7, h8⟩
  · rw [← h5]; exact values_calc _ L fun x hx => (h3 x hx).1
  · rw [← h6]; exact values_calc _ L fun x hx => (h3 x hx).1

/-- A response that lasts until the end of the stream is the only one. -/
theorem only_one {head : Bool} {heads : List Bool} {w : Bytes} {m : Msg} (h : Answers false head w m .untilEof) (hh : heads ≠ []) : ¬ ∃ ms, Answered false (head :: heads) w ms := by
  rintro ⟨ms, h'⟩
  generalize hz : w = z at h'
  cases h' with
  | cons g1 g2 g3 =>
    obtain ⟨e, -⟩ := C95_answer_once false _ _ _ [] _ _ _ _ _ h g1 (by rw [List.append_nil]; exact hz)
    exact g2 e.symm
  | last _ => exact hh rfl

/-- Two requests, answered by backends that send these bytes -/
def twice (env : RespEnv) (first second : Bytes) : List Handled :=
  (doHttp {} (fun _ => false) (fun n => n) (fun i _ => .regular (transitEdit plainCfg) env (if i = 0 then first else second)) 9 0
    b!"GET /a HTTP/1.1\r\n\r\nGET /b HTTP/1.1\r\n\r\n").1

/-- A response with another transfer coding than `chunked` lasts until the end of the connection.  The server goes by Content-Length and keeps the connection: the client takes the next
response, which may be of another backend, for a part of this one. -/
theorem C95_codings_fails : ∃ first second, (twice {} first second).map (·.res) = [some .ok, some .ok] ∧
    (¬ ∃ ms, Answered false [false, false] ((twice {} first second).flatMap (·.toClient)) ms) ∧
    ∃ m, Answered false [false] ((twice {} first second).flatMap (·.toClient)) [m] ∧ m.payload = b!"ok" ++ second := by
  have h : Answers false false _ _ .untilEof := answers_calc false b!"HTTP/1.1 200 OK" b!"okHTTP/1.1 204 No\r\n\r\n" b!"okHTTP/1.1 204 No\r\n\r\n"
    [plainLine b!"Transfer-Encoding" b!"gzip", plainLine b!"Content-Length" b!"2"] 1 200 [b!"gzip"] [b!"2"] .untilEof (by decide) (by decide +kernel) (by decide +kernel)
    (by decide +kernel) (by decide +kernel) (by
      refine ⟨by unfold NoBody; simp, .inl ⟨by simp, ?_⟩⟩
      rintro ⟨vs, v, e, -, h⟩
      have hv : v = b!"gzip" := by
        have := congrArg List.getLast? e
        simp at this
        exact this.symm
      rw [hv] at h
      have h1 := endsWith_has h
      rw [← csLocate_isSome _ _ (by simp)] at h1
      exact absurd h1 (by decide +kernel)) (by rfl)
  have e : (twice {} b!"HTTP/1.1 200 OK\r\nTransfer-Encoding: gzip\r\nContent-Length: 2\r\n\r\nok" b!"HTTP/1.1 204 No\r\n\r\n").flatMap (·.toClient) =
      b!"HTTP/1.1 200 OK" ++ [13, 10] ++ (([plainLine b!"Transfer-Encoding" b!"gzip", plainLine b!"Content-Length" b!"2"].map (·.1)).flatMap (· ++ crlf) ++ crlf ++
        b!"okHTTP/1.1 204 No\r\n\r\n") := by decide +kernel
  refine ⟨b!"HTTP/1.1 200 OK\r\nTransfer-Encoding: gzip\r\nContent-Length: 2\r\n\r\nok", b!"HTTP/1.1 204 No\r\n\r\n", by decide +kernel, ?_, ?_⟩
  · rw [e]; exact only_one h (by simp)
  · rw [e]; exact ⟨_, .last h, rfl⟩

/-- A response with the code 305 and a body is relayed without it, and the connection is kept: the client takes the next response for the body. -/
theorem C95_proxy_codes_fails : ∃ first second, (twice {} first second).map (·.res) = [some .ok, some .ok] ∧
    ∃ m, Answered false [false] ((twice {} first second).flatMap (·.toClient)) [m] ∧ m.payload = second := by
  have hd : DeclaresLength b!"19" 19 := (declares_iff _ _).1 (by decide +kernel)
  have h : Answers false false _ _ (.length 19) := answers_calc false b!"HTTP/1.1 305 Use Proxy" b!"HTTP/1.1 204 No\r\n\r\n" b!"HTTP/1.1 204 No\r\n\r\n"
    [plainLine b!"Content-Length" b!"19"] 1 305 [] [b!"19"] (.length 19) (by decide) (by decide +kernel) (by decide +kernel)
    (by decide +kernel) (by decide +kernel) (by
      refine ⟨by unfold NoBody; simp, rfl, by simp, ?_⟩
      intro v hv
      simp only [List.mem_singleton] at hv
      subst hv
      exact hd) (.length (by decide))
  have e : (twice {} b!"HTTP/1.1 305 Use Proxy\r\nContent-Length: 19\r\n\r\n<p>Use a proxy.</p>" b!"HTTP/1.1 204 No\r\n\r\n").flatMap (·.toClient) =
      b!"HTTP/1.1 305 Use Proxy" ++ [13, 10] ++ (([plainLine b!"Content-Length" b!"19"].map (·.1)).flatMap (· ++ crlf) ++ crlf ++ b!"HTTP/1.1 204 No\r\n\r\n") := by decide +kernel
  refine ⟨b!"HTTP/1.1 305 Use Proxy\r\nContent-Length: 19\r\n\r\n<p>Use a proxy.</p>", b!"HTTP/1.1 204 No\r\n\r\n", by decide +kernel, ?_⟩
  rw [e]
  have := Answered.cons h (by simp) .nil
  rw [List.append_nil] at this
  exact ⟨_, this, rfl⟩

/-- A response that lasts until the end of the connection, whose body is not there in time, is relayed without it, and the connection to the client is kept: the client takes the next
response for the body. -/
theorem C95_late_fails : ∃ first second, (twice { readable := false } first second).map (·.res) = [some .ok, some .ok] ∧
    ∃ m, Answered false [false] ((twice { readable := false } first second).flatMap (·.toClient)) [m] ∧ m.payload = second := by
  have h : Answers false false _ _ .untilEof := answers_calc false b!"HTTP/1.1 200 OK" b!"HTTP/1.1 204 No\r\n\r\n" b!"HTTP/1.1 204 No\r\n\r\n"
    [] 1 200 [] [] .untilEof (by decide) (by decide +kernel) (by decide +kernel)
    (by decide +kernel) (by decide +kernel) ⟨by unfold NoBody; simp, .inr ⟨rfl, rfl⟩⟩ (by rfl)
  have e : (twice { readable := false } b!"HTTP/1.1 200 OK\r\n\r\nlate" b!"HTTP/1.1 204 No\r\n\r\n").flatMap (·.toClient) =
      b!"HTTP/1.1 200 OK" ++ [13, 10] ++ ((([] : List (Bytes × Bytes × Bytes)).map (·.1)).flatMap (· ++ crlf) ++ crlf ++ b!"HTTP/1.1 204 No\r\n\r\n") := by decide +kernel
  refine ⟨b!"HTTP/1.1 200 OK\r\n\r\nlate", b!"HTTP/1.1 204 No\r\n\r\n", by decide +kernel, ?_⟩
  rw [e]
  exact ⟨_, .last h, rfl⟩

end Pound.Props
