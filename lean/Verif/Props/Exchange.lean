import Verif.Proof.Exchange
import Verif.Props.Headers
import Verif.Props.Framing
import Verif.Props.Request

/-!
Properties C05, C41, C42 and C53: framing of requests and responses on a client connection.
-/

namespace Pound.Props
open Pound Spec

theorem HeaderList.fine {hs : List Header} (h : HeaderList hs) : ∀ x ∈ hs, Fine x := by
  induction h with
  | empty => simp
  | read => exact buildHeaders_fine _ _
  | add h hl ha ih => exact listAppend_fine ih hl ha
  | remove p _ ih => exact fun x hx => ih x (List.mem_filter.1 hx).1
  | change _ hl ih =>
    intro x hx
    rcases List.mem_append.1 hx with hx | hx
    · exact ih x (List.mem_append_left _ hx)
    · rcases List.mem_cons.1 hx with rfl | hx
      · exact change_fine hl
      · exact ih x (List.mem_append_right _ (List.mem_cons_of_mem _ hx))

/-- The header lines of a request as the rest of the program sees them: the well-formed lines
of the header block, combinable ones merged. -/
def Seen (table : List Bytes) (lines ts : List Bytes) : Prop :=
  ∃ L, Legal lines L ∧ ts = combine (fun n => table.any fun m => ciEq m n) [] L

theorem seen_build (table : List Bytes) (lines : List Bytes) :
    Seen table lines ((buildHeaders table lines).map (·.text)) :=
  ⟨_, legal_asLine lines, buildHeaders_texts table lines⟩

theorem seen_det {table : List Bytes} {lines ts ts' : List Bytes} (h : Seen table lines ts)
    (h' : Seen table lines ts') : ts = ts' := by
  obtain ⟨L, h1, rfl⟩ := h
  obtain ⟨L', h1', rfl⟩ := h'
  rw [legal_det h1 h1']

/-! ## C05 Ambiguous request framing is refused -/

/-- A request that is accepted has headers that delimit its body in exactly one way, and this is
how the program understands them: no body, `cl` bytes, or chunked. -/
theorem C05_accepted_framing (cfg : LstnCfg) (inp : Bytes) (a : Accepted)
    (h : acceptRequest cfg inp = .ok a) :
    ∃ lines ts, HeadOf inp a.line lines a.rest ∧ Seen cfg.table lines ts ∧
      ((Framing ts .none ∧ a.scan.te = .none ∧ a.scan.cl = -1) ∨
       (∃ n : Nat, Framing ts (.length n) ∧ a.scan.te = .none ∧ a.scan.cl = n) ∨
       (Framing ts .chunked ∧ a.scan.te = .chunked ∧ a.scan.cl = -1)) := by
  obtain ⟨hs, h1, -, hf, h4, -⟩ := accepted_inv h
  obtain ⟨lines, hh, rfl⟩ := (httpRequestRead_iff _ _ _ _ _).1 h1
  refine ⟨lines, _, hh, seen_build _ _, ?_⟩
  rcases scanAll_spec hf { get := a.rl.meth == METH b!"GET" } with ⟨s, g1, g2, g3, g4, g5, g6, -⟩ | ⟨⟨st, g1, -⟩, -⟩
  · rw [h4] at g1
    injection g1 with g1
    subst g1
    rcases g5 with g5 | g5
    · rcases g4 with g4 | ⟨n, g4⟩
      · left
        rw [g5, g4] at g2
        exact ⟨g2, g5, g4⟩
      · right; left
        rw [g5, g4] at g2
        have : kindOf .none (n : Int) = .length n := by
          unfold kindOf noContentLength
          rw [if_neg (by simp), if_neg (by omega)]; simp
        rw [this] at g2
        exact ⟨n, g2, g5, g4⟩
    · right; right
      rw [g5, g6 g5] at g2
      exact ⟨g2, g5, g6 g5⟩
  · rw [h4] at g1; cases g1

/-- A request whose headers do not delimit its body is not served: the connection ends with an
error reply (400 or 501 unless the request line is already at fault), nothing is forwarded. -/
theorem C05_ambiguous_refused (cfg : LstnCfg) (msie : Accepted → Bool) (sched : Nat → Nat)
    (world : Nat → Accepted → Serve) (fuel i : Nat) (inp req rest : Bytes) (lines ts : List Bytes)
    (hh : HeadOf inp req lines rest) (hs : Seen cfg.table lines ts) (hno : ∀ k, ¬ Framing ts k) :
    ∃ st, doHttp cfg msie sched world (fuel + 1) i inp = ([], .errReply st) ∧ st ≠ .ok := by
  have hr : httpRequestRead cfg.table inp = .ok req (buildHeaders cfg.table lines) rest :=
    (httpRequestRead_iff _ _ _ _ _).2 ⟨lines, hh, rfl⟩
  have hts := seen_det hs (seen_build cfg.table lines)
  subst hts
  have key : ∃ st, acceptRequest cfg inp = .err st ∧ st ≠ .ok := by
    rw [acceptRequest_eq, hr]
    dsimp only
    cases hp : parseHttpRequest req cfg.verb with
    | err st =>
      refine ⟨st, rfl, ?_⟩
      rintro rfl
      have : ∀ (l : Bytes) (g : Nat), parseHttpRequest l g ≠ .err .ok := by
        intro l g h
        unfold parseHttpRequest at h
        dsimp only at h
        repeat' split at h
        all_goals simp_all
      exact this _ _ hp
    | ok rl =>
      dsimp only
      generalize urlBad cfg rl.url = up
      cases up with
      | true => exact ⟨.notImplemented, rfl, by decide⟩
      | false =>
        simp only [Bool.false_eq_true, if_false]
        rcases scanAll_spec (buildHeaders_fine cfg.table lines) { get := rl.meth == METH b!"GET" } with
          ⟨s, -, g2, -⟩ | ⟨⟨st, g1, g2⟩, -⟩
        · exact absurd g2 (hno _)
        · rw [g1]
          refine ⟨st, rfl, ?_⟩
          rcases g2 with rfl | rfl <;> decide
  obtain ⟨st, h1, h2⟩ := key
  refine ⟨st, ?_, h2⟩
  unfold doHttp
  rw [h1]

/-- Headers delimit a body in at most one way. -/
theorem C05_unambiguous (ts : List Bytes) (k k' : BodyKind) (h : Framing ts k) (h' : Framing ts k') :
    k = k' := by
  cases k <;> cases k' <;> simp only [Framing] at h h' <;> first | rfl | exact h.elim | exact h'.elim | skip
  · obtain ⟨-, h2⟩ := h; obtain ⟨-, v, h3, -⟩ := h'; cases values_det h2 h3
  · obtain ⟨h2, -⟩ := h; obtain ⟨-, vs, v, h3, -⟩ := h'
    have := values_det h2 h3
    simp at this
  · obtain ⟨-, v, h3, -⟩ := h; obtain ⟨-, h2⟩ := h'; cases values_det h2 h3
  · obtain ⟨-, v, h3, h4⟩ := h; obtain ⟨-, v', h3', h4'⟩ := h'
    have := values_det h3 h3'
    simp at this
    subst this
    have e1 := (declares_iff v _).2 h4
    have e2 := (declares_iff v _).2 h4'
    rw [e1] at e2
    congr 1
    exact Int.ofNat.inj e2
  · obtain ⟨h2, -⟩ := h; obtain ⟨-, vs, v, h3, -⟩ := h'
    have := values_det h2 h3
    simp at this
  · obtain ⟨-, vs, v, h3, -⟩ := h; obtain ⟨h2, -⟩ := h'
    have := values_det h2 h3
    simp at this
  · obtain ⟨-, vs, v, h3, -⟩ := h; obtain ⟨h2, -⟩ := h'
    have := values_det h2 h3
    simp at this

/-- Each kind of ambiguity in the list makes the framing undefined: both mechanisms; more than
one length; a list-valued length; a length that is not a number; chunked twice; chunked not at
the end; a transfer coding but no chunked. -/
theorem C05_clauses (ts te cl : List Bytes) (hte : Values b!"Transfer-Encoding" ts te)
    (hcl : Values b!"Content-Length" ts cl)
    (h : (te ≠ [] ∧ cl ≠ []) ∨ 2 ≤ cl.length ∨ (∃ v ∈ cl, ch%',' ∈ v) ∨
      (∃ v ∈ cl, ∀ n, ¬ DeclaresLength v n) ∨
      (∃ a b c x y, te = a ++ x :: (b ++ y :: c) ∧ HasTok x b!"chunked" ∧ HasTok y b!"chunked") ∨
      (∃ v ∈ te, HasTok v b!"chunked" ∧ ¬ EndsWithTok v b!"chunked") ∨
      (∃ a x c, te = a ++ x :: c ∧ HasTok x b!"chunked" ∧ c ≠ []) ∨
      (te ≠ [] ∧ ∀ v ∈ te, ¬ HasTok v b!"chunked")) :
    ∀ k, ¬ Framing ts k := by
  intro k hk
  have hlast : ∀ (us : List Bytes) (w x : Bytes) (a c : List Bytes), us ++ [w] = a ++ x :: c →
      (∀ u ∈ us, ¬ HasTok u b!"chunked") → HasTok x b!"chunked" → c = [] ∧ x = w := by
    intro us w x a c he hu hx
    rcases List.eq_nil_or_concat c with rfl | ⟨c', z, rfl⟩
    · have := List.append_inj_right' he (by simp)
      simp at this
      exact ⟨rfl, this.symm⟩
    · exfalso
      have he' : us ++ [w] = (a ++ x :: c') ++ [z] := by simpa using he
      have := List.append_inj_left' he' (by simp)
      exact hu x (by rw [this]; simp) hx
  have ends_has : ∀ v, EndsWithTok v b!"chunked" → HasTok v b!"chunked" := by
    rintro v ⟨es, e, h1, h2, -⟩; exact ⟨es, e, _, h1, h2⟩
  cases k with
  | none =>
    have h1 := values_det hte hk.1
    have h2 := values_det hcl hk.2
    subst h1 h2
    simp at h
  | length n =>
    obtain ⟨h1, v, h2, h3⟩ := hk
    have h1 := values_det hte h1
    have h2 := values_det hcl h2
    subst h1 h2
    simp at h
    rcases h with h | h
    · have := declares_no_comma h3
      simp at this
      exact this h
    · exact h n h3
  | chunked =>
    obtain ⟨h1, us, w, h2, h3, h4⟩ := hk
    have h1 := values_det hcl h1
    have h2 := values_det hte h2
    subst h1 h2
    simp only [ne_eq, not_true_eq_false, and_false, List.length_nil, show ¬ (2 ≤ 0) by decide,
      List.not_mem_nil, false_and, exists_false, false_or] at h
    rcases h with ⟨a, b, c, x, y, he, hx, hy⟩ | ⟨v, hv, hx, hy⟩ | ⟨a, x, c, he, hx, hc⟩ | ⟨-, h⟩
    · have := (hlast us w x a _ he h3 hx).1
      simp at this
    · rcases List.mem_append.1 hv with hv | hv
      · exact h3 v hv hx
      · simp at hv; subst hv; exact hy h4
    · exact hc (hlast us w x a c he h3 hx).1
    · exact h w (by simp) (ends_has _ h4)
  | untilEof => exact hk

example : acceptRequest { } b!"POST / HTTP/1.1\r\nHost: a\r\nContent-Length: 5\r\n\r\nhello" ≠ .noRequest := by
  decide +kernel
example : (match acceptRequest { } b!"POST / HTTP/1.1\r\nTransfer-Encoding: chunked\r\nHost: a\r\n\r\n0\r\n\r\n" with
    | .ok a => some (a.scan.te, a.scan.cl, a.rest) | _ => none) =
    some (.chunked, -1, b!"0\r\n\r\n") := by decide +kernel
example : acceptRequest { } b!"POST / HTTP/1.1\r\nTransfer-Encoding: chunked\r\nContent-Length: 5\r\n\r\n" =
    .err .badRequest := by decide +kernel
example : acceptRequest { } b!"POST / HTTP/1.1\r\ntransfer-encoding: gzip\r\n\r\n" =
    .err .notImplemented := by decide +kernel

/-! ## C53 A request is forwarded with the body it announces -/

/-- The headers passed on are those received, in order, except `Expect: 100-continue`. -/
theorem C53_headers_kept (cfg : LstnCfg) (inp : Bytes) (a : Accepted)
    (h : acceptRequest cfg inp = .ok a) :
    ∃ lines ts, HeadOf inp a.line lines a.rest ∧ Seen cfg.table lines ts ∧
      ∃ keep : Bytes → Bool, (∀ t ∈ ts, keep t = false ↔
          ∃ n v, HeaderLine t n v ∧ ciEq n b!"Expect" ∧ ciEq v b!"100-continue") ∧
        a.scan.headers.map (·.text) = ts.filter keep := by
  obtain ⟨hs, h1, -, hf, h4, -⟩ := accepted_inv h
  obtain ⟨lines, hh, rfl⟩ := (httpRequestRead_iff _ _ _ _ _).1 h1
  refine ⟨lines, _, hh, seen_build _ _, ?_⟩
  rcases scanAll_spec hf { get := a.rl.meth == METH b!"GET" } with ⟨s, g1, g2, g3, -⟩ | ⟨⟨st, g1, -⟩, -⟩
  · rw [h4] at g1
    injection g1 with g1
    subst g1
    classical
    refine ⟨fun t => !decide (∃ n v, HeaderLine t n v ∧ ciEq n b!"Expect" ∧ ciEq v b!"100-continue"), ?_, ?_⟩
    · intro t ht; simp
    · rw [g3, List.filter_map]
      congr 1
      apply List.filter_congr
      intro x hx
      have hfx := hf x hx
      have hiff : keptHdr x = false ↔ ∃ n v, HeaderLine x.text n v ∧ ciEq n b!"Expect" = true ∧ ciEq v b!"100-continue" = true := by
        have hme : (b!"Expect", HCode.expect) ∈ hdTypes := by decide
        unfold keptHdr
        simp only [Bool.not_eq_eq_eq_not, Bool.not_false, Bool.and_eq_true, beq_iff_eq]
        constructor
        · rintro ⟨e1, e2⟩
          rw [hfx.2] at e1
          exact ⟨_, _, hfx.1.line, (codeOf_iff hme _).1 e1, ciEq_symm e2⟩
        · rintro ⟨n, v, e1, e2, e3⟩
          obtain ⟨rfl, rfl⟩ := hfx.1.name_of e1
          exact ⟨by rw [hfx.2]; exact (codeOf_iff hme _).2 e2, ciEq_symm e3⟩
      simp only [Function.comp]
      cases hk : keptHdr x with
      | false =>
        have := hiff.1 hk
        simp [this]
      | true =>
        have hn : ¬ ∃ n v, HeaderLine x.text n v ∧ ciEq n b!"Expect" = true ∧ ciEq v b!"100-continue" = true := by
          intro h; rw [hiff.2 h] at hk; cases hk
        rw [decide_eq_false hn]; rfl
  · rw [h4] at g1; cases g1

/-- What is sent to a backend for an accepted request: the head and, after it, the body the
request announced, taken from the client's stream; nothing beyond it is consumed.
Missing for the full property: HTTP/1.0 requests with a chunked body, see
`C53_http10_chunked_fails`. -/
theorem C53_body_partial (cfg : LstnCfg) (sched : Nat → Nat) (inp : Bytes) (a : Accepted)
    (edit : Bytes → List Header → Option (Bytes × List Header)) (env : RespEnv) (beIn : Bytes)
    (line' : Bytes) (hs' : List Header) (r : Handled) (lines ts : List Bytes) (k : BodyKind)
    (h : acceptRequest cfg inp = .ok a) (hh : HeadOf inp a.line lines a.rest)
    (hseen : Seen cfg.table lines ts) (hk : Framing ts k)
    (he : edit a.line a.scan.headers = some (line', hs'))
    (hr : serve cfg sched a (.regular edit env beIn) = .ok r)
    (hv : k = .chunked → a.rl.version = 1) :
    match k with
    | .none => r.toBackend = sendHead line' hs' ∧ r.rest = a.rest
    | .length n =>
      if n ≤ a.rest.length then r.toBackend = sendHead line' hs' ++ a.rest.take n ∧ r.rest = a.rest.drop n
      else r.res ≠ some .ok
    | .chunked =>
      (∃ wire payload o, Chunked false 4095 wire payload ∧ Consumed a.rest wire r.rest ∧
        Chunked false 4096 o payload ∧ r.toBackend = sendHead line' hs' ++ o) ∨
      r.res ≠ some .ok
    | .untilEof => False := by
  obtain ⟨lines', ts', g1, g2, g3⟩ := C05_accepted_framing cfg inp a h
  have hlines : Seen cfg.table lines ts' := by
    have e1 : httpRequestRead cfg.table inp = .ok a.line (buildHeaders cfg.table lines) a.rest :=
      (httpRequestRead_iff _ _ _ _ _).2 ⟨lines, hh, rfl⟩
    have e2 : httpRequestRead cfg.table inp = .ok a.line (buildHeaders cfg.table lines') a.rest :=
      (httpRequestRead_iff _ _ _ _ _).2 ⟨lines', g1, rfl⟩
    rw [e1] at e2
    injection e2 with _ e2 _
    have := seen_det g2 (seen_build cfg.table lines')
    rw [this, ← e2]
    exact seen_build _ _
  have hts := seen_det hseen hlines
  subst hts
  unfold serve sendToBackend at hr
  simp only [he] at hr
  rcases g3 with ⟨f, t1, t2⟩ | ⟨n, f, t1, t2⟩ | ⟨f, t1, t2⟩
  · have := C05_unambiguous _ _ _ hk f
    subst this
    simp only [t1, t2] at hr
    rw [if_neg (by simp), if_neg (by decide)] at hr
    dsimp only at hr
    split at hr
    · cases hr
    · injection hr with hr; subst hr; exact ⟨rfl, rfl⟩
  · have := C05_unambiguous _ _ _ hk f
    subst this
    simp only [t1, t2] at hr
    rw [if_neg (by simp)] at hr
    by_cases hn : n = 0
    · subst hn
      rw [if_neg (by decide)] at hr
      dsimp only at hr
      split at hr
      · cases hr
      · injection hr with hr; subst hr; simp
    · rw [if_pos (by omega), Int.toNat_natCast, copyBin_spec] at hr
      by_cases hle : n ≤ a.rest.length
      · simp only [hle, if_true] at hr ⊢
        split at hr
        · cases hr
        · injection hr with hr; subst hr; exact ⟨rfl, rfl⟩
      · simp only [hle, if_false] at hr ⊢
        simp only [Bool.false_eq_true, if_false] at hr
        injection hr with hr; subst hr; simp
  · have := C05_unambiguous _ _ _ hk f
    subst this
    have hver := hv rfl
    simp only [t1, hver] at hr
    rw [if_pos (by decide)] at hr
    dsimp only at hr ⊢
    cases hfin : (copyChunks sched false cfg.maxReq a.rest).fin with
    | stuck => rw [hfin] at hr; cases hr
    | ub => rw [hfin] at hr; cases hr
    | status st =>
      by_cases hst : st = .ok
      · subst hst
        left
        obtain ⟨wire, payload, c1, c2, -, c4⟩ := C02_chunked_sound_partial sched false cfg.maxReq a.rest hfin
        simp only [Bool.false_eq_true, if_false] at c4
        rw [hfin] at hr
        dsimp only at hr
        split at hr
        · cases hr
        · injection hr with hr; subst hr
          exact ⟨wire, payload, _, c1, c2, c4, rfl⟩
      · right
        rw [hfin] at hr
        have : (match ChunkEnd.status st with
          | .status .ok => false | _ => true) = true := by
          cases st <;> first | rfl | exact absurd rfl hst
        cases st <;> first
          | exact absurd rfl hst
          | (simp only [Res.ok.injEq] at hr; subst hr; simp)

/-- The head sent is read back as the same request line and header lines, and the body follows:
no header value can add lines or end the head early. -/
theorem C53_head_reads_back (line : Bytes) (hs : List Header) (body : Bytes)
    (hl : line ≠ [] ∧ (∀ c ∈ line, Text c) ∧ line.length ≤ 4093)
    (hh : ∀ h ∈ hs, h.text ≠ [] ∧ (∀ c ∈ h.text, Text c) ∧ h.text.length ≤ 4093) :
    HeadOf (sendHead line hs ++ body) line (hs.map (·.text)) body := sendHead_head line hs body hl hh

/-- A chunked HTTP/1.0 request: its head is forwarded with the Transfer-Encoding header, but no
body, so that the backend waits for one or takes it from what follows. -/
theorem C53_http10_chunked_fails :
    ∃ a, acceptRequest { } b!"POST / HTTP/1.0\r\nTransfer-Encoding: chunked\r\n\r\n3\r\nabc\r\n0\r\n\r\n" = .ok a ∧
      a.scan.te = .chunked ∧
      ∃ r, serve { } (fun n => n) a (.regular (fun l hs => some (l, hs)) { } b!"HTTP/1.0 200 OK\r\n\r\n") = .ok r ∧
        r.toBackend = b!"POST / HTTP/1.0\r\nTransfer-Encoding: chunked\r\n\r\n" ∧
        r.rest = b!"3\r\nabc\r\n0\r\n\r\n" := by
  let a : Accepted := ⟨b!"POST / HTTP/1.0", ⟨1, b!"/", 0⟩, ⟨.chunked, -1, false, ⟨false, false, false⟩,
    [headerAlloc b!"Transfer-Encoding: chunked"]⟩, b!"3\r\nabc\r\n0\r\n\r\n"⟩
  let r : Handled := ⟨a, b!"POST / HTTP/1.0\r\nTransfer-Encoding: chunked\r\n\r\n", b!"HTTP/1.0 200 OK\r\n\r\n",
      some .ok, true, b!"3\r\nabc\r\n0\r\n\r\n"⟩
  exact ⟨a, by decide +kernel, rfl, r, by decide +kernel, rfl, rfl⟩

example : (match acceptRequest { } b!"POST /x HTTP/1.1\r\nHost: a\r\nContent-Length: 5\r\n\r\nhelloGET" with
    | .ok a => (match serve { } (fun _ => 2) a (.regular (fun l hs => some (l, hs)) { }
        b!"HTTP/1.1 204 No\r\n\r\n") with
      | .ok r => some (r.toBackend, r.toClient, r.rest, r.res) | .ub => none)
    | _ => none) =
    some (b!"POST /x HTTP/1.1\r\nHost: a\r\nContent-Length: 5\r\n\r\nhello", b!"HTTP/1.1 204 No\r\n\r\n",
      b!"GET", some .ok) := by decide +kernel

/-! ## C42 When a connection is reused -/

/-- Serving a request keeps the client's wish to close the connection. -/
theorem serve_closed {cfg : LstnCfg} {sched : Nat → Nat} {a : Accepted} {sv : Serve} {h : Handled}
    (hs : serve cfg sched a sv = .ok h) :
    h.req = a ∧ (a.scan.connClosed = true → h.closed = true) := by
  unfold serve at hs
  cases sv with
  | none st => simp at hs; subst hs; exact ⟨rfl, fun _ => rfl⟩
  | internal res => simp at hs; subst hs; exact ⟨rfl, fun h => h⟩
  | regular edit env beIn =>
    dsimp only at hs
    split at hs
    · split at hs
      · cases hs
      · injection hs with hs
        subst hs
        refine ⟨rfl, fun hc => ?_⟩
        simp only [hc]
        exact backendResponse_closed _ _ _ _ _ _ _ _ _ _
    · injection hs with hs
      subst hs
      exact ⟨rfl, fun h => h⟩
    · cases hs

theorem doHttp_cons {cfg : LstnCfg} {msie : Accepted → Bool} {sched : Nat → Nat}
    {world : Nat → Accepted → Serve} {fuel i : Nat} {inp : Bytes} {x : Handled} {l : List Handled}
    (h : (doHttp cfg msie sched world fuel i inp).1 = x :: l) :
    ∃ f, fuel = f + 1 ∧ acceptRequest cfg inp = .ok x.req ∧
      serve cfg sched x.req (world i x.req) = .ok x ∧
      (l ≠ [] → l = (doHttp cfg msie sched world f (i + 1) x.rest).1 ∧
        x.req.rl.version ≠ 0 ∧ x.closed = false ∧ x.res = some .ok ∧ forceHttp10 cfg (msie x.req) = false) := by
  cases fuel with
  | zero => simp [doHttp] at h
  | succ f =>
    refine ⟨f, rfl, ?_⟩
    unfold doHttp at h
    cases ha : acceptRequest cfg inp with
    | noRequest => rw [ha] at h; cases h
    | err st => rw [ha] at h; cases h
    | ub => rw [ha] at h; cases h
    | ok a =>
      rw [ha] at h
      dsimp only at h
      have key : ∀ sv, world i a = sv →
          (match serve cfg sched a sv with
            | .ub => ([], ConnEnd.ub)
            | .ok h =>
              match h.res with
              | Option.none => ([h], .closed)
              | some st =>
                if a.rl.version = 0 ∨ ((h.closed || forceHttp10 cfg (msie a)) || st != Status.ok) = true then ([h], .closed)
                else
                  (h :: (doHttp cfg msie sched world f (i + 1) h.rest).1, (doHttp cfg msie sched world f (i + 1) h.rest).2)).1 = x :: l →
          AcceptRes.ok a = .ok x.req ∧
            serve cfg sched x.req (world i x.req) = .ok x ∧
            (l ≠ [] → l = (doHttp cfg msie sched world f (i + 1) x.rest).1 ∧
              x.req.rl.version ≠ 0 ∧ x.closed = false ∧ x.res = some .ok ∧ forceHttp10 cfg (msie x.req) = false) := by
        intro sv hsv h
        cases hs : serve cfg sched a sv with
        | ub => rw [hs] at h; cases h
        | ok y =>
          have hreq := (serve_closed hs).1
          rw [hs] at h
          dsimp only at h
          cases hres : y.res with
          | none =>
            rw [hres] at h
            simp only [List.cons.injEq] at h
            obtain ⟨rfl, rfl⟩ := h
            refine ⟨by rw [hreq], by rw [hreq, hsv]; exact hs, by simp⟩
          | some st =>
            rw [hres] at h
            dsimp only at h
            split at h
            · simp only [List.cons.injEq] at h
              obtain ⟨rfl, rfl⟩ := h
              refine ⟨by rw [hreq], by rw [hreq, hsv]; exact hs, by simp⟩
            · rename_i hcond
              simp only [List.cons.injEq] at h
              obtain ⟨rfl, rfl⟩ := h
              refine ⟨by rw [hreq], by rw [hreq, hsv]; exact hs, fun _ => ⟨rfl, ?_⟩⟩
              rw [hreq, hres]
              simp only [not_or, Bool.or_eq_true, Bool.not_eq_true, bne_iff_ne, ne_eq, Classical.not_not] at hcond
              obtain ⟨c1, ⟨c2, c3⟩, c4⟩ := hcond
              exact ⟨c1, c2, by rw [c4], c3⟩
      cases hw : world i a with
      | none st => rw [hw] at h; cases h
      | internal res => rw [hw] at h; exact key _ hw h
      | regular edit env beIn => rw [hw] at h; exact key _ hw h

/-- If another request is served on a connection after `x`, then: the client speaks HTTP/1.1, did
not ask to close the connection, the exchange succeeded without anything asking to close, the listener does not
forbid it (NoHTTPS11, for all clients or some browsers), and the next request is read from exactly the input left by `x`. -/
theorem C42_reused_only_if (cfg : LstnCfg) (msie : Accepted → Bool) (sched : Nat → Nat)
    (world : Nat → Accepted → Serve) (fuel i : Nat) (inp : Bytes) (pre post : List Handled) (x y : Handled)
    (h : (doHttp cfg msie sched world fuel i inp).1 = pre ++ x :: y :: post) :
    x.req.rl.version = 1 ∧ x.res = some .ok ∧ x.closed = false ∧
      acceptRequest cfg x.rest = .ok y.req ∧
      ¬ (cfg.ssl = true ∧ (cfg.noHttps11 = 1 ∨ cfg.noHttps11 = 2 ∧ msie x.req = true)) ∧
      (∃ inp' lines ts vs, HeadOf inp' x.req.line lines x.req.rest ∧ Seen cfg.table lines ts ∧
        Values b!"Connection" ts vs ∧ ∀ v ∈ vs, ¬ HasTok v b!"close") := by
  induction pre generalizing fuel i inp with
  | nil =>
    obtain ⟨f, rfl, h1, h2, h3⟩ := doHttp_cons h
    obtain ⟨g1, g2, g3, g4, g5⟩ := h3 (by simp)
    obtain ⟨f', -, k1, -⟩ := doHttp_cons g1.symm
    obtain ⟨hs, a1, a2, hf, a4, -⟩ := accepted_inv h1
    have hcl : x.req.scan.connClosed = false := by
      cases hc : x.req.scan.connClosed with
      | false => rfl
      | true => have := (serve_closed h2).2 hc; rw [g3] at this; cases this
    refine ⟨?_, g4, g3, k1, fun hc => Bool.false_ne_true (g5.symm.trans (forceHttp10_iff.2 hc)), ?_⟩
    · obtain ⟨m, l, -, -, -, hl⟩ := (C06_accepted_iff _ _ _).1 a2
      obtain ⟨_, _, _, _, _, _, _, _, _, hv⟩ := hl
      omega
    · obtain ⟨lines, hh, rfl⟩ := (httpRequestRead_iff _ _ _ _ _).1 a1
      refine ⟨inp, lines, _, _, hh, seen_build _ _, values_conn hf, ?_⟩
      rcases scanAll_spec hf { get := x.req.rl.meth == METH b!"GET" } with ⟨s, b1, -, -, -, -, -, b7⟩ | ⟨⟨st, b1, -⟩, -⟩
      · rw [a4] at b1
        injection b1 with b1
        subst b1
        intro v hv ht
        have := b7.2 ⟨v, hv, ht⟩
        rw [hcl] at this; cases this
      · rw [a4] at b1; cases b1
  | cons z pre ih =>
    obtain ⟨f, rfl, h1, h2, h3⟩ := doHttp_cons h
    exact ih f (i + 1) z.rest (h3 (by simp)).1.symm

/-- A response that says `Connection: close` is not followed by another request.
Missing for the full property: `close` as one element of a list, see
`C42_close_in_list_fails`. -/
theorem C42_response_close_partial (cfg : LstnCfg) (sched : Nat → Nat) (a : Accepted)
    (edit : Bytes → List Header → Option (Bytes × List Header)) (env : RespEnv) (beIn : Bytes) (h : Handled)
    (hs : serve cfg sched a (.regular edit env beIn) = .ok h)
    (sl rest : Bytes) (lines : List Bytes) (hs' : List Header) (hh : HeadOf beIn sl lines rest)
    (ver code : Nat) (hl : ResponseLine sl ver code)
    (he : env.edit (buildHeaders env.table lines) = some hs') (hg : HeaderList hs')
    (vs : List Bytes) (hv : Values b!"Connection" (hs'.map (·.text)) vs)
    (hc : ∃ v ∈ vs, ciEq v b!"close") : h.closed = true ∨ h.res ≠ some .ok := by
  unfold serve at hs
  dsimp only at hs
  split at hs
  · split at hs
    · cases hs
    · rename_i res hq
      injection hs with hs
      subst hs
      left
      have hrd : httpRequestRead env.table beIn = .ok sl (buildHeaders env.table lines) rest :=
        (httpRequestRead_iff _ _ _ _ _).2 ⟨lines, hh, rfl⟩
      have hval := (validate_iff _ _ _).2 hl
      have hvs := values_det hv (values_conn hg.fine)
      subst hvs
      dsimp only
      unfold backendResponse at hq ⊢
      simp only [hrd, hval, he] at hq ⊢
      generalize hrh : respHeaders env _ hs' = rh at hq ⊢
      cases rh with
      | ub => simp at hq
      | ok s =>
        have hcl := (respHeaders_closed env hs' (fun x hx => (hg.fine x hx).1) _ s hrh).2 (Or.inr hc)
        simp only [hcl]
        repeat' split
        all_goals first
          | exact backendResponse_closed _ _ _ _ _ _ _ _ _ _
          | rfl
          | simp_all
  · rename_i st hne _
    injection hs with hs
    subst hs
    right
    intro h0
    injection h0 with h0
    subst h0
    exact absurd rfl (by assumption)
  · cases hs

/-- When an error is replied, no further request is read: the loop has ended. -/
theorem C42_error_closes (cfg : LstnCfg) (msie : Accepted → Bool) (sched : Nat → Nat)
    (world : Nat → Accepted → Serve) (fuel i : Nat) (inp : Bytes) (pre post : List Handled) (x : Handled)
    (h : (doHttp cfg msie sched world fuel i inp).1 = pre ++ x :: post) (he : x.res ≠ some .ok) :
    post = [] := by
  cases post with
  | nil => rfl
  | cons y post => exact absurd (C42_reused_only_if cfg msie sched world fuel i inp pre post x y h).2.1 he

/-- A response with `Connection: foo, close` leaves the connection open. -/
theorem C42_close_in_list_fails :
    ∃ a h, acceptRequest { } b!"GET / HTTP/1.1\r\nHost: a\r\n\r\n" = .ok a ∧
      serve { } (fun n => n) a (.regular (fun l hs => some (l, hs)) { }
        b!"HTTP/1.1 200 OK\r\nConnection: foo, close\r\nContent-Length: 0\r\n\r\n") = .ok h ∧
      h.res = some .ok ∧ h.closed = false := by
  let a : Accepted := ⟨b!"GET / HTTP/1.1", ⟨0, b!"/", 1⟩, ⟨.none, -1, false, ⟨true, false, false⟩,
    [headerAlloc b!"Host: a"]⟩, []⟩
  let h : Handled := ⟨a, b!"GET / HTTP/1.1\r\nHost: a\r\n\r\n",
    b!"HTTP/1.1 200 OK\r\nConnection: foo, close\r\nContent-Length: 0\r\n\r\n", some .ok, false, []⟩
  exact ⟨a, h, by decide +kernel, by decide +kernel, rfl, rfl⟩

/-- The stream of one POST request whose body looks like a request. -/
def smuggle : Bytes :=
  b!"POST / HTTP/1.1\r\nHost: a\r\nContent-Length: 28\r\n\r\nGET /x HTTP/1.1\r\nHost: b\r\n\r\n"

/-- When pound itself generates the reply (redirect, error backend, ACME, control socket,
metrics), the body of the request is not read but taken for the next request, although the reply
announces `Connection: close`. -/
theorem C42_unread_body_fails :
    Framing [b!"Host: a", b!"Content-Length: 28"] (.length 28) ∧
    ((doHttp { } (fun _ => false) (fun n => n) (fun _ _ => .internal (some .ok)) 3 0 smuggle).1.map
      (·.req.rl.url)) = [b!"/", b!"/x"] := by
  refine ⟨⟨?_, b!"28", ?_, ?_⟩, by decide +kernel⟩
  · have := values_te (hs := buildHeaders [] [b!"Host: a", b!"Content-Length: 28"]) (buildHeaders_fine _ _)
    exact this
  · have := values_cl (hs := buildHeaders [] [b!"Host: a", b!"Content-Length: 28"]) (buildHeaders_fine _ _)
    exact this
  · exact (declares_iff _ _).1 (by decide)

example : ((doHttp { } (fun _ => false) (fun n => n) (fun _ _ => .regular (fun l hs => some (l, hs)) { }
      b!"HTTP/1.1 204 No Content\r\n\r\n") 4 0
      b!"GET /1 HTTP/1.1\r\n\r\nGET /2 HTTP/1.1\r\nConnection: close\r\n\r\nGET /3 HTTP/1.1\r\n\r\n").1.map
      (·.req.rl.url)) = [b!"/1", b!"/2"] := by decide +kernel

/-! ## C41 Relaying responses -/

/-- A status line is accepted exactly if it is one, with that version and code. -/
theorem C41_status_line (line : Bytes) (ver code : Nat) :
    httpResponseValidate line = some (ver, code) ↔ ResponseLine line ver code := validate_iff line ver code

/-- `C41_final_response_partial` for headers as produced by `qualify_header`, with the copied chunks -/
theorem final_response (env : RespEnv) (ws : WsReq) (fuel : Nat) (head closed : Bool)
    (beIn sl rest : Bytes) (lines : List Bytes) (hs' : List Header) (ver code : Nat) (te cl : List Bytes)
    (k : BodyKind)
    (hread : env.readable = true)
    (hh : HeadOf beIn sl lines rest) (hl : ResponseLine sl ver code) (hfinal : code / 100 ≠ 1)
    (he : env.edit (buildHeaders env.table lines) = some hs') (hg : ∀ x ∈ hs', Fine x)
    (hte : Values b!"Transfer-Encoding" (hs'.map (·.text)) te)
    (hcl : Values b!"Content-Length" (hs'.map (·.text)) cl)
    (hlen : ∀ v ∈ cl, ∃ n, DeclaresLength v n)
    (hno : Bodiless head code → ∀ v ∈ te, ¬ HasTok v b!"chunked")
    (hk : RespFraming head ver code te cl k) :
    ∃ q, backendResponse env ws (fuel + 1) false head closed false false false beIn [] = q ∧
    match k with
    | .none => q.fin = .ok (some .ok) ∧ q.out = sendHead sl (hs'.map (relocated env)) ∧ q.rest = rest
    | .length n =>
      if n ≤ rest.length then
        q.fin = .ok (some .ok) ∧ q.out = sendHead sl (hs'.map (relocated env)) ++ rest.take n ∧ q.rest = rest.drop n
      else q.fin = .ok none ∧ q.out = sendHead sl (hs'.map (relocated env)) ++ rest
    | .chunked =>
      (q.fin = .ok (some .ok) → ∃ wire payload o, Chunked false 4095 wire payload ∧
        Consumed rest wire q.rest ∧ Chunked false 4096 o payload ∧ q.out = sendHead sl (hs'.map (relocated env)) ++ o) ∧
      (∀ wire payload rest', Chunked true 4095 wire payload → payload.length < 2 ^ 63 →
        rest = wire ++ rest' → q.fin = .ok (some .ok) ∧ q.rest = rest') ∧
      (q.fin = .ok (some .ok) → (copyChunks env.sched false 0 rest).fin = .status .ok ∧
        q.out = sendHead sl (hs'.map (relocated env)) ++ (copyChunks env.sched false 0 rest).out)
    | .untilEof => q.fin = .ok (some .ok) ∧ q.out = sendHead sl (hs'.map (relocated env)) ++ rest ∧ q.connClosed = true ∧
        q.keep = false := by
  refine ⟨_, rfl, ?_⟩
  have hrd : httpRequestRead env.table beIn = .ok sl (buildHeaders env.table lines) rest :=
    (httpRequestRead_iff _ _ _ _ _).2 ⟨lines, hh, rfl⟩
  have hval := (validate_iff _ _ _).2 hl
  have hte := values_det hte (values_te hg)
  have hcl := values_det hcl (values_cl hg)
  subst hte hcl
  have hver : ver = 0 ∨ ver = 1 := by
    obtain ⟨_, _, _, _, _, _, _, _, h, _⟩ := hl; omega
  have h100 : (code == 100) = false := by
    simp only [beq_eq_false_iff_ne]; rintro rfl; exact hfinal (by decide)
  have h101 : (code == 101) = false := by
    simp only [beq_eq_false_iff_ne]; rintro rfl; exact hfinal (by decide)
  have hnc : noContOf head code = true ↔ Bodiless head code := by
    unfold noContOf Bodiless
    have e1 : code ≠ 100 := by simpa using h100
    have e2 : code ≠ 101 := by simpa using h101
    rw [if_neg e1, if_neg e2]
    split
    · rename_i h; simp only [true_iff]; rcases h with h | h | h | h <;> simp [h]
    · rename_i h
      simp only [not_or] at h
      simp [h, hfinal]
  obtain ⟨s, r1, r2, r3, r4, r5, r6⟩ := respHeaders_all env hs' (fun x hx => (hg x hx).1)
    { noCont := noContOf head code, connClosed := closed, wsConn := false, wsUpg := false }
    (by
      intro v hv h0
      obtain ⟨n, hn⟩ := hlen v hv
      rw [(declares_iff v n).2 hn] at h0
      unfold noContentLength at h0; omega)
  unfold backendResponse
  simp only [hrd, hval, he, h100, h101, r1, Bool.or_false, Bool.false_eq_true, if_false, List.nil_append, r2,
    Bool.and_false, Bool.false_and]
  simp only [Bool.false_eq_true, false_or] at r3
  rw [hnc] at r4
  by_cases hb : Bodiless head code
  · have hn : s.noCont = true := r4.2 ⟨hb, fun ⟨v, h1, h2⟩ => hno hb v h1 h2⟩
    simp only [hn, Bool.not_true, Bool.false_eq_true, if_false]
    cases k with
    | none => exact ⟨trivial, trivial, trivial⟩
    | length n => exact absurd hb hk.1
    | chunked => exact absurd hb hk.1
    | untilEof => exact absurd hb hk.1
  · have hn : s.noCont = false := by
      cases h : s.noCont with
      | false => rfl
      | true => exact absurd (r4.1 h).1 hb
    simp only [hn, Bool.not_false, if_true]
    cases k with
    | none => exact absurd hk hb
    | chunked =>
      obtain ⟨-, rfl, hc⟩ := hk
      have hch := r3.2 hc
      simp only [hch, Bool.and_true, beq_self_eq_true, if_true]
      refine ⟨?_, ?_, ?_⟩
      · intro hfin
        have hfin' : (copyChunks env.sched false 0 rest).fin = .status .ok := by
          cases hf : (copyChunks env.sched false 0 rest).fin with
          | ub => rw [hf] at hfin; simp at hfin
          | stuck => rw [hf] at hfin; simp at hfin
          | status st =>
            by_cases hst : st = .ok
            · rw [hst]
            · rw [hf] at hfin
              cases st <;> first | exact absurd rfl hst | simp at hfin
        obtain ⟨wire, payload, c1, c2, -, c4⟩ := C02_chunked_sound_partial env.sched false 0 rest hfin'
        simp only [Bool.false_eq_true, if_false] at c4
        rw [hfin']
        exact ⟨wire, payload, _, c1, c2, c4, rfl⟩
      · intro wire payload rest' hw hp hrest
        subst hrest
        obtain ⟨c1, c2⟩ := C02_chunked_complete env.sched false 0 wire payload rest' hw hp (by omega)
        rw [c1]
        exact ⟨rfl, c2⟩
      · intro hfin
        have hfin' : (copyChunks env.sched false 0 rest).fin = .status .ok := by
          cases hf : (copyChunks env.sched false 0 rest).fin with
          | ub => rw [hf] at hfin; simp at hfin
          | stuck => rw [hf] at hfin; simp at hfin
          | status st =>
            by_cases hst : st = .ok
            · rw [hst]
            · rw [hf] at hfin
              cases st <;> first | exact absurd rfl hst | simp at hfin
        rw [hfin']
        exact ⟨rfl, rfl⟩
    | length n =>
      obtain ⟨-, h1, h2, h3⟩ := hk
      have hsc : (ver == 1 && s.chunked) = false := by
        cases h : (ver == 1 && s.chunked) with
        | false => rfl
        | true =>
          simp only [Bool.and_eq_true, beq_iff_eq] at h
          exact absurd ⟨h.1, r3.1 h.2⟩ h1
      have hscl : s.cl = n := by
        rw [r5, List.getLastD_eq_getLast?]
        obtain ⟨v, hv⟩ : ∃ v, (valsOf .contentLength hs').getLast? = some v := by
          cases hg : (valsOf .contentLength hs').getLast? with
          | none => rw [List.getLast?_eq_none_iff] at hg; exact absurd hg h2
          | some v => exact ⟨v, rfl⟩
        rw [List.getLast?_map, hv]
        simp only [Option.map_some, Option.getD_some]
        exact (declares_iff v n).2 (h3 v (List.mem_of_getLast? hv))
      simp only [hsc, Bool.false_eq_true, if_false, hscl]
      have hge : (n : Int) ≥ 0 := by omega
      simp only [hge, if_true, Int.toNat_natCast, copyBin_spec]
      by_cases hle : n ≤ rest.length
      · simp [hle]
      · simp [hle]
    | untilEof =>
      obtain ⟨-, h1, h2⟩ := hk
      have hsc : (ver == 1 && s.chunked) = false := by
        cases h : (ver == 1 && s.chunked) with
        | false => rfl
        | true =>
          simp only [Bool.and_eq_true, beq_iff_eq] at h
          exact absurd ⟨h.1, r3.1 h.2⟩ h1
      have hscl : s.cl = -1 := by rw [r5, h2]; rfl
      simp only [hsc, Bool.false_eq_true, if_false, hscl]
      rw [if_neg (by decide)]
      simp [hread]

/-- A final response is relayed with its status line, headers (as rewritten; `relocated` is about Location) and the body it announces.
`head`: the request method is HEAD. Missing for the full property: responses after interim ones
(`C41_after_100_fails`, `C41_after_103_fails`), a Transfer-Encoding header in a response
to HEAD or with code 204 or 304 (`C41_head_chunked_fails`), an invalid Content-Length (`C41_bad_length_fails`). -/
theorem C41_final_response_partial (env : RespEnv) (ws : WsReq) (fuel : Nat) (head closed : Bool)
    (beIn sl rest : Bytes) (lines : List Bytes) (hs' : List Header) (ver code : Nat) (te cl : List Bytes)
    (k : BodyKind)
    (hread : env.readable = true)
    (hh : HeadOf beIn sl lines rest) (hl : ResponseLine sl ver code) (hfinal : code / 100 ≠ 1)
    (he : env.edit (buildHeaders env.table lines) = some hs') (hg : HeaderList hs')
    (hte : Values b!"Transfer-Encoding" (hs'.map (·.text)) te)
    (hcl : Values b!"Content-Length" (hs'.map (·.text)) cl)
    (hlen : ∀ v ∈ cl, ∃ n, DeclaresLength v n)
    (hno : Bodiless head code → ∀ v ∈ te, ¬ HasTok v b!"chunked")
    (hk : RespFraming head ver code te cl k) :
    ∃ q, backendResponse env ws (fuel + 1) false head closed false false false beIn [] = q ∧
    match k with
    | .none => q.fin = .ok (some .ok) ∧ q.out = sendHead sl (hs'.map (relocated env)) ∧ q.rest = rest
    | .length n =>
      if n ≤ rest.length then
        q.fin = .ok (some .ok) ∧ q.out = sendHead sl (hs'.map (relocated env)) ++ rest.take n ∧ q.rest = rest.drop n
      else q.fin = .ok none ∧ q.out = sendHead sl (hs'.map (relocated env)) ++ rest
    | .chunked =>
      (q.fin = .ok (some .ok) → ∃ wire payload o, Chunked false 4095 wire payload ∧
        Consumed rest wire q.rest ∧ Chunked false 4096 o payload ∧ q.out = sendHead sl (hs'.map (relocated env)) ++ o) ∧
      (∀ wire payload rest', Chunked true 4095 wire payload → payload.length < 2 ^ 63 →
        rest = wire ++ rest' → q.fin = .ok (some .ok) ∧ q.rest = rest')
    | .untilEof => q.fin = .ok (some .ok) ∧ q.out = sendHead sl (hs'.map (relocated env)) ++ rest ∧ q.connClosed = true ∧
        q.keep = false := by
  obtain ⟨q, e, h⟩ := final_response env ws fuel head closed beIn sl rest lines hs' ver code te cl k hread hh hl hfinal he hg.fine hte hcl hlen hno hk
  refine ⟨q, e, ?_⟩
  cases k with
  | chunked => exact ⟨h.1, h.2.1⟩
  | _ => exact h

/-- The response to a plain request without any rewriting configured. -/
def relay (head : Bool) (beIn : Bytes) : RespRes :=
  backendResponse { } { } (beIn.length + 1) false head false false false false beIn []

/-- After an interim 100 response the final response is swallowed and the exchange fails. -/
theorem C41_after_100_fails :
    relay false b!"HTTP/1.1 100 Continue\r\n\r\nHTTP/1.1 200 OK\r\nContent-Length: 2\r\n\r\nok" =
      ⟨.ok (some .internalError), [], [], true, false⟩ := by decide +kernel

/-- After an interim 103 response the final response is not relayed at all. -/
theorem C41_after_103_fails :
    relay false b!"HTTP/1.1 103 Early Hints\r\n\r\nHTTP/1.1 200 OK\r\nContent-Length: 2\r\n\r\nok" =
      ⟨.ok (some .ok), b!"HTTP/1.1 103 Early Hints\r\n\r\n",
       b!"HTTP/1.1 200 OK\r\nContent-Length: 2\r\n\r\nok", true, false⟩ := by decide +kernel

/-- A response to HEAD that mentions chunked coding is taken to have a body: what follows is read
as chunks, and when there is nothing the exchange fails. -/
theorem C41_head_chunked_fails :
    (relay true b!"HTTP/1.1 200 OK\r\nTransfer-Encoding: chunked\r\n\r\n").fin = .ok none := by
  decide +kernel

/-- A response with an invalid Content-Length makes the program use freed memory. -/
theorem C41_bad_length_fails :
    (relay false b!"HTTP/1.1 200 OK\r\nContent-Length: x\r\n\r\n").fin = .ub := by decide +kernel

example : relay false b!"HTTP/1.1 200 OK\r\nA: b\r\nContent-Length: 2\r\n\r\nokHTTP" =
    ⟨.ok (some .ok), b!"HTTP/1.1 200 OK\r\nA: b\r\nContent-Length: 2\r\n\r\nok", b!"HTTP", true, false⟩ := by
  decide +kernel
example : relay true b!"HTTP/1.1 200 OK\r\nContent-Length: 2\r\n\r\nHTTP" =
    ⟨.ok (some .ok), b!"HTTP/1.1 200 OK\r\nContent-Length: 2\r\n\r\n", b!"HTTP", true, false⟩ := by
  decide +kernel
example : relay false b!"HTTP/1.0 200 OK\r\n\r\nall the rest" =
    ⟨.ok (some .ok), b!"HTTP/1.0 200 OK\r\n\r\nall the rest", [], false, true⟩ := by decide +kernel

end Pound.Props
