import Verif.Proof.Transit
import Verif.Props.Exchange
import Verif.Props.Forward

/-!
Property C93: a backend reads the requests of a client one for one.
-/

namespace Pound.Props
open Pound Spec

/-! ## C93 Backends read the requests of clients one for one -/

/-- The client's stream `inp` begins with this request, as the proxy sees it; `rest` follows. -/
def Taken (strict : Bool) (table : List Bytes) (inp : Bytes) (m : Msg) (rest : Bytes) : Prop :=
  ∃ lines rest1 k, HeadOf inp m.line lines rest1 ∧ Seen table lines m.fields ∧ Framing m.fields k ∧ BodyFrom strict k rest1 m.payload rest

/-- The client's stream, request by request, and what is sent for them: nothing for requests without a body that the proxy answers itself; for others the bytes `w`, which a server
takes for the request `m'`.  That is the client's request, with the same payload, its headers prepared and rewritten by the rules. -/
inductive Carried (strict : Bool) (table : List Bytes) (R : Rewrites) : Bytes → List (Msg × Bytes) → Bytes → Prop where
  | nil {inp} : Carried strict table R inp [] inp
  | own {inp m rest l r} : Taken strict table inp m rest → m.payload = [] → Carried strict table R rest l r → Carried strict table R inp l r
  | sent {inp m rest w m' mid hs' l r} : Taken strict table inp m rest → PassedOn m.fields (List.map (·.text) mid) →
      R m.line mid m'.line hs' → m'.fields = hs'.map (·.text) → m'.payload = m.payload → Sends strict w m' →
      Carried strict table R rest l r → Carried strict table R inp ((m', w) :: l) r

/-- The headers, single lines, are prepared for a backend and then rewritten. -/
def Forwards (R : Rewrites) (edit : Bytes → List Header → Option (Bytes × List Header)) : Prop :=
  ∃ c, CleanFwd c ∧ ∀ line hs mid line' hs', OneLine line → (∀ h ∈ hs, OneLine h.text) → HeaderList hs → forwardHead c hs = .ok mid → edit line hs = some (line', hs') → R line mid line' hs'

/-- What a server reads from a stream is unambiguous: where a request ends and what it is. -/
theorem C93_read_once (strict : Bool) (w w' r r' : Bytes) (m m' : Msg) (h : Sends strict w m) (h' : Sends strict w' m') (e : w ++ r = w' ++ r') :
    w = w' ∧ m = m' ∧ r = r' := by
  obtain ⟨hdr, lines, k, body, rfl, h1, h2, h3, h4, h5, h6⟩ := h
  obtain ⟨hdr', lines', k', body', rfl, h1', h2', h3', h4', h5', h6'⟩ := h'
  rw [List.append_assoc, List.append_assoc (m'.line ++ _)] at e
  obtain ⟨e1, e2⟩ := oneLine_split h2 h2' e
  rw [List.append_assoc, List.append_assoc] at e2
  obtain ⟨rfl, rfl, e3⟩ := crlfLines_split h3 h3' e2
  have e4 := fields_det h4 h4'
  have e5 : k = k' := C05_unambiguous _ _ _ h5 (e4 ▸ h5')
  subst e5
  obtain ⟨rfl, e6, rfl⟩ := bodyOf_split h6 h6' e3
  refine ⟨by rw [e1], ?_, rfl⟩
  cases m; cases m'
  simp only at e1 e4 e6
  rw [e1, e4, e6]

theorem sends_ne_nil {strict : Bool} {w : Bytes} {m : Msg} (h : Sends strict w m) : w ≠ [] := by
  obtain ⟨hdr, lines, k, body, rfl, h1, -⟩ := h
  simp

/-- If the bytes sent to a backend are any selection of those sent for the client's requests, in order, a server reads exactly these requests. -/
theorem C93_reads_these (strict : Bool) (table : List Bytes) (R : Rewrites) (inp rest : Bytes) (l sel : List (Msg × Bytes))
    (h : Carried strict table R inp l rest) (hs : sel.Sublist l) (ms : List Msg) : Stream strict (sel.flatMap (·.2)) ms ↔ ms = sel.map (·.1) := by
  have hl : ∀ x ∈ l, Sends strict x.2 x.1 := by
    clear hs
    induction h with
    | nil => simp
    | own _ _ _ ih => exact ih
    | sent _ _ _ _ _ h _ ih =>
      intro x hx
      rcases List.mem_cons.1 hx with rfl | hx
      · exact h
      · exact ih x hx
  have hx : ∀ x ∈ sel, Sends strict x.2 x.1 := fun x hx => hl x (hs.subset hx)
  clear hl hs h
  induction sel generalizing ms with
  | nil =>
    constructor
    · intro h
      generalize hz : List.flatMap (·.2) ([] : List (Msg × Bytes)) = z at h
      cases h with
      | nil => rfl
      | cons h1 _ =>
        rename_i w m ws ms
        simp only [List.flatMap_nil] at hz
        exact absurd (List.append_eq_nil_iff.1 hz.symm).1 (sends_ne_nil h1)
    · rintro rfl; exact .nil
  | cons x t ih =>
    have ih' := fun ms => ih ms (fun y hy => hx y (by simp [hy]))
    constructor
    · intro h
      generalize hz : List.flatMap (·.2) (x :: t) = z at h
      cases h with
      | nil =>
        simp only [List.flatMap_cons] at hz
        exact absurd (List.append_eq_nil_iff.1 hz).1 (sends_ne_nil (hx x (by simp)))
      | cons h1 h2 =>
        simp only [List.flatMap_cons] at hz
        obtain ⟨rfl, rfl, rfl⟩ := C93_read_once strict _ _ _ _ _ _ (hx x (by simp)) h1 hz
        rw [(ih' _).1 h2]
        rfl
    · rintro rfl
      exact .cons (hx x (by simp)) ((ih' _).2 rfl)

/-- A request line that was read -/
theorem headOf_line {inp line : Bytes} {lines : List Bytes} {rest : Bytes} (h : HeadOf inp line lines rest) : line ≠ [] ∧ OneLine line := by
  obtain ⟨bl, w, blk, -, h1, h2, -⟩ := h
  exact ⟨h2, oneLine_text h1.1⟩

theorem block_text {lim : Nat} {w : Bytes} {ls : List Bytes} (h : Block lim w ls) : ∀ l ∈ ls, OneLine l := by
  induction h with
  | done _ => simp
  | more h1 _ _ ih =>
    intro l hl
    rcases List.mem_cons.1 hl with rfl | hl
    · exact oneLine_text h1.1
    · exact ih l hl

theorem oneLine_intercalate (ls : List Bytes) (h : ∀ l ∈ ls, OneLine l) : OneLine (List.intercalate b!", " ls) := by
  induction ls with
  | nil => simp [List.intercalate, OneLine]
  | cons l r ih =>
    cases r with
    | nil => simpa [List.intercalate] using h l (by simp)
    | cons x xs =>
      have e : List.intercalate b!", " (l :: x :: xs) = l ++ (b!", " ++ List.intercalate b!", " (x :: xs)) := by simp [List.intercalate, List.intersperse]
      rw [e, oneLine_append, oneLine_append]
      exact ⟨h l (by simp), oneLine_bool _ (by decide), ih (fun y hy => h y (by simp [hy]))⟩

theorem combine_oneLine (comb : Bytes → Bool) : ∀ (L : List (Bytes × Bytes × Bytes)) (seen : List Bytes), (∀ x ∈ L, OneLine x.1 ∧ OneLine x.2.1 ∧ OneLine x.2.2) →
    ∀ t ∈ combine comb seen L, OneLine t
  | [], _, _, t, ht => by cases ht
  | (t0, n, v) :: rest, seen, h, t, ht => by
    have hr : ∀ x ∈ rest, OneLine x.1 ∧ OneLine x.2.1 ∧ OneLine x.2.2 := fun x hx => h x (by simp [hx])
    unfold combine at ht
    split at ht
    · split at ht
      · exact combine_oneLine comb rest seen hr t ht
      · dsimp only at ht
        rcases List.mem_cons.1 ht with rfl | ht
        · rw [oneLine_append, oneLine_append]
          refine ⟨⟨(h _ List.mem_cons_self).2.1, oneLine_bool _ (by decide)⟩, oneLine_intercalate _ ?_⟩
          intro l hl
          rcases List.mem_cons.1 hl with rfl | hl
          · exact (h (t0, n, l) (by simp)).2.2
          · obtain ⟨x, hx, rfl⟩ := List.mem_map.1 hl
            exact (hr x (List.mem_filter.1 hx).1).2.2
        · exact combine_oneLine comb rest _ hr t ht
    · rcases List.mem_cons.1 ht with rfl | ht
      · exact (h _ List.mem_cons_self).1
      · exact combine_oneLine comb rest seen hr t ht

theorem legal_oneLine {ls : List Bytes} {L : List (Bytes × Bytes × Bytes)} (h : Legal ls L) (ho : ∀ l ∈ ls, OneLine l) : ∀ x ∈ L, OneLine x.1 ∧ OneLine x.2.1 ∧ OneLine x.2.2 := by
  induction h with
  | nil => simp
  | take h1 _ ih =>
    rename_i t n v ts L _
    intro x hx
    rcases List.mem_cons.1 hx with rfl | hx
    · have ht := ho t (by simp)
      refine ⟨ht, ?_⟩
      obtain ⟨ws, e, -⟩ := h1
      rw [e] at ht
      exact ⟨fun c hc => ht c (by simp [hc]), fun c hc => ht c (by simp [hc])⟩
    · exact ih (fun l hl => ho l (by simp [hl])) x hx
  | skip _ _ ih => exact ih (fun l hl => ho l (by simp [hl]))

/-- The header lines of a request are single lines. -/
theorem seen_oneLine {table lines ts : List Bytes} {inp line rest : Bytes} (h : HeadOf inp line lines rest) (hs : Seen table lines ts) : ∀ t ∈ ts, OneLine t := by
  obtain ⟨bl, w, blk, -, -, -, hb, -⟩ := h
  obtain ⟨L, hl, rfl⟩ := hs
  exact combine_oneLine _ L [] (legal_oneLine hl (block_text hb))

theorem hn_filter {n : Bytes} {ts : List Bytes} {keep : Bytes → Bool} (h : ∀ t ∈ ts, keep t = false → ¬ Named t n) : HeadersNamed n (ts.filter keep) = HeadersNamed n ts := by
  unfold HeadersNamed
  rw [List.filter_filter]
  apply List.filter_congr
  intro t ht
  cases hk : keep t with
  | true => simp
  | false => simp [h t ht hk]

/-- What the server knows about a request it accepted -/
theorem accepted_taken {cfg : LstnCfg} {inp : Bytes} {a : Accepted} (h : acceptRequest cfg inp = .ok a) :
    ∃ lines ts keep, HeadOf inp a.line lines a.rest ∧ Seen cfg.table lines ts ∧ HeaderList a.scan.headers ∧
      (∀ t ∈ ts, keep t = false ↔ ∃ n v, HeaderLine t n v ∧ ciEq n b!"Expect" ∧ ciEq v b!"100-continue") ∧ a.scan.headers.map (·.text) = ts.filter keep := by
  obtain ⟨lines, ts, h1, h2, keep, h3, h4⟩ := C53_headers_kept cfg inp a h
  refine ⟨lines, ts, keep, h1, h2, ?_, h3, h4⟩
  obtain ⟨hs, g1, -, hf, g4, -⟩ := accepted_inv h
  obtain ⟨lines', hh, rfl⟩ := (httpRequestRead_iff _ _ _ _ _).1 g1
  rcases scanAll_spec hf { get := a.rl.meth == METH b!"GET" } with ⟨s, e1, -, e3, -⟩ | ⟨⟨st, e1, -⟩, -⟩
  · rw [g4] at e1
    injection e1 with e1
    subst e1
    rw [e3]
    exact .remove _ .read
  · rw [g4] at e1; cases e1

/-- One exchange with a backend -/
theorem sent_at {strict : Bool} {cfg : LstnCfg} {sched : Nat → Nat} {R : Rewrites} {edit : Bytes → List Header → Option (Bytes × List Header)} {env : RespEnv} {beIn inp : Bytes} {x : Handled}
    (hrw : Harmless R) {c : FwdCfg} (hc : CleanFwd c)
    (he : ∀ mid line' hs', OneLine x.req.line → (∀ h ∈ x.req.scan.headers, OneLine h.text) → HeaderList x.req.scan.headers → forwardHead c x.req.scan.headers = .ok mid →
      edit x.req.line x.req.scan.headers = some (line', hs') → R x.req.line mid line' hs') (h : acceptRequest cfg inp = .ok x.req) (hs : serve cfg sched x.req (.regular edit env beIn) = .ok x)
    (hok : x.res = some .ok) (hv : x.req.rl.version = 1)
    (hst : strict = true → ∀ wire payload rest, Chunked false 4095 wire payload → Consumed x.req.rest wire rest → Chunked true 4095 wire payload) :
    ∃ m m' mid hs', Taken strict cfg.table inp m x.rest ∧ PassedOn m.fields (List.map (·.text) mid) ∧ R m.line mid m'.line hs' ∧
      m'.fields = hs'.map (·.text) ∧ m'.payload = m.payload ∧ Sends strict x.toBackend m' := by
  obtain ⟨lines, ts, keep, h1, h2, h3, h4, h5⟩ := accepted_taken h
  have hp : c.peer ≠ .unix [] := by
    intro e
    have := hc.addr
    rw [e] at this
    exact this.1 rfl
  obtain ⟨mid, hm⟩ := C67_total_partial c x.req.scan.headers h3 hp
  have hts := seen_oneLine h1 h2
  have htx : ∀ t ∈ texts x.req.scan.headers, OneLine t := by
    intro t ht
    unfold texts at ht
    rw [h5] at ht
    exact hts t (List.mem_filter.1 ht).1
  obtain ⟨hw, hg⟩ := forwardHead_folded hc h3.coded htx hm
  obtain ⟨f1, f2⟩ := forwardHead_framing h3.coded hm
  have hgm : ∀ h ∈ mid, Folded h.text ∧ ∃ n v, HeaderLine h.text n v := fun y hy =>
    ⟨wellFolded_lines _ _ (Nat.le_refl _) (hw y.text (List.mem_map.2 ⟨y, hy, rfl⟩)), _, _, (hg y hy).line⟩
  have hone : ∀ h ∈ x.req.scan.headers, OneLine h.text := fun h hh => htx _ (List.mem_map.2 ⟨h, hh, rfl⟩)
  cases hedit : edit x.req.line x.req.scan.headers with
  | none =>
    exfalso
    unfold serve sendToBackend at hs
    simp only [hedit] at hs
    injection hs with hs
    rw [← hs] at hok
    cases hok
  | some p =>
    obtain ⟨line', hs'⟩ := p
    have hr := he mid line' hs' (headOf_line h1).2 hone h3 hm hedit
    obtain ⟨hl1, hl2⟩ := headOf_line h1
    obtain ⟨r1, r2, r3, r4, r5⟩ := hrw _ _ _ _ hr hl1 hl2 hgm
    have hne : ∀ n, ciEq b!"Expect" n = false → HeadersNamed n (ts.filter keep) = HeadersNamed n ts := by
      intro n hn
      refine hn_filter fun t ht hk => ?_
      obtain ⟨n', v, e1, e2, -⟩ := (h4 t ht).1 hk
      exact named_other (n := b!"Expect") ⟨n', v, e1, e2⟩ hn
    have q1 : HeadersNamed b!"Transfer-Encoding" (hs'.map (·.text)) = HeadersNamed b!"Transfer-Encoding" ts := by
      rw [r4]
      refine f1.trans ?_
      unfold texts
      rw [h5]
      exact hne _ (by decide)
    have q2 : HeadersNamed b!"Content-Length" (hs'.map (·.text)) = HeadersNamed b!"Content-Length" ts := by
      rw [r5]
      refine f2.trans ?_
      unfold texts
      rw [h5]
      exact hne _ (by decide)
    obtain ⟨ls, k1, k2⟩ := fields_of_texts (hs'.map (·.text)) (by
      intro t ht
      obtain ⟨y, hy, rfl⟩ := List.mem_map.1 ht
      exact r3 y hy)
    have hsend : sendHead line' hs' = line' ++ [13, 10] ++ ((hs'.map (·.text)).flatMap (· ++ crlf) ++ crlf) := by
      unfold sendHead
      rw [List.flatMap_map]
      simp [crlf]
    have hpass : PassedOn ts (mid.map (·.text)) := ⟨keep, h4, by rw [← h5]; exact C69_others c x.req.scan.headers mid h3 hm⟩
    obtain ⟨lines', ts', g1, g2, g3⟩ := C05_accepted_framing cfg inp x.req h
    have hts' : ts' = ts := by
      have e1 : httpRequestRead cfg.table inp = .ok x.req.line (buildHeaders cfg.table lines) x.req.rest := (httpRequestRead_iff _ _ _ _ _).2 ⟨lines, h1, rfl⟩
      have e2 : httpRequestRead cfg.table inp = .ok x.req.line (buildHeaders cfg.table lines') x.req.rest := (httpRequestRead_iff _ _ _ _ _).2 ⟨lines', g1, rfl⟩
      rw [e1] at e2
      injection e2 with _ e2 _
      rw [seen_det g2 (seen_build cfg.table lines'), seen_det h2 (seen_build cfg.table lines), e2]
    subst hts'
    have fin : ∀ k payload body, Framing ts' k → BodyFrom strict k x.req.rest payload x.rest → BodyOf strict k body payload → x.toBackend = sendHead line' hs' ++ body →
        ∃ m m' mid hs', Taken strict cfg.table inp m x.rest ∧ PassedOn m.fields (List.map (·.text) mid) ∧ R m.line mid m'.line hs' ∧
          m'.fields = hs'.map (·.text) ∧ m'.payload = m.payload ∧ Sends strict x.toBackend m' := by
      intro k payload body w1 w2 w3 w4
      refine ⟨⟨x.req.line, ts', payload⟩, ⟨line', hs'.map (·.text), payload⟩, mid, hs', ⟨lines, x.req.rest, k, h1, h2, w1, w2⟩, hpass, hr, rfl, rfl, ?_⟩
      refine ⟨_, ls, k, body, ?_, r1, r2, k1, k2, (framing_congr q1 q2).1 w1, w3⟩
      rw [w4, hsend]
      simp
    have hb := C53_body_partial cfg sched inp x.req edit env beIn line' hs' x lines ts'
    rcases g3 with ⟨f, -, -⟩ | ⟨n, f, -, -⟩ | ⟨f, t1, t2⟩
    · obtain ⟨b1, b2⟩ := hb .none h h1 h2 f hedit hs (by simp)
      rw [b2] at fin
      exact b2 ▸ fin .none [] [] f .none .none (by simpa using b1)
    · have b := hb (.length n) h h1 h2 f hedit hs (by simp)
      dsimp only at b
      split at b
      · obtain ⟨b1, b2⟩ := b
        rename_i hle
        have hlen : (x.req.rest.take n).length = n := by simp [hle]
        refine fin (.length n) (x.req.rest.take n) (x.req.rest.take n) f ?_ (.length hlen) b1
        have := BodyFrom.length (strict := strict) (r := x.req.rest.drop n) hlen
        rw [List.take_append_drop] at this
        rw [b2]
        exact this
      · exact absurd hok b
    · -- the body is copied chunk by chunk
      unfold serve sendToBackend at hs
      simp only [hedit, t1, hv] at hs
      rw [if_pos (by decide)] at hs
      dsimp only at hs
      cases hfin : (copyChunks sched false cfg.maxReq x.req.rest).fin with
      | stuck => rw [hfin] at hs; cases hs
      | ub => rw [hfin] at hs; cases hs
      | status st =>
        rw [hfin] at hs
        by_cases hst' : st = .ok
        · subst hst'
          dsimp only at hs
          obtain ⟨wire, payload, c1, c2, -, -⟩ := C02_chunked_sound_partial sched false cfg.maxReq x.req.rest hfin
          have cs : Chunked strict 4095 wire payload := by
            cases strict with
            | false => exact c1
            | true => exact hst rfl wire payload _ c1 c2
          have co := copyChunks_out sched cs cfg.maxReq c2 hfin
          split at hs
          · cases hs
          · injection hs with hs
            have e1 : x.toBackend = sendHead line' hs' ++ (copyChunks sched false cfg.maxReq x.req.rest).out := by rw [← hs]
            have e2 : x.rest = (copyChunks sched false cfg.maxReq x.req.rest).rest := by rw [← hs]
            exact fin .chunked payload _ f (.chunked cs (by rw [e2]; exact c2)) (.chunked co) e1
        · exfalso
          have : ∃ y, x = y ∧ y.res = some st := by
            cases st <;> first | exact absurd rfl hst' | (injection hs with hs; exact ⟨_, hs.symm, rfl⟩)
          obtain ⟨y, rfl, e⟩ := this
          rw [hok] at e
          injection e with e
          exact hst' e.symm

theorem sent_one {strict : Bool} {cfg : LstnCfg} {sched : Nat → Nat} {R : Rewrites} {edit : Bytes → List Header → Option (Bytes × List Header)} {env : RespEnv} {beIn inp : Bytes} {x : Handled}
    (hrw : Harmless R) (hf : Forwards R edit) (h : acceptRequest cfg inp = .ok x.req) (hs : serve cfg sched x.req (.regular edit env beIn) = .ok x)
    (hok : x.res = some .ok) (hv : x.req.rl.version = 1)
    (hst : strict = true → ∀ wire payload rest, Chunked false 4095 wire payload → Consumed x.req.rest wire rest → Chunked true 4095 wire payload) :
    ∃ m m' mid hs', Taken strict cfg.table inp m x.rest ∧ PassedOn m.fields (List.map (·.text) mid) ∧ R m.line mid m'.line hs' ∧
      m'.fields = hs'.map (·.text) ∧ m'.payload = m.payload ∧ Sends strict x.toBackend m' := by
  obtain ⟨c, hc, he⟩ := hf
  exact sent_at hrw hc (he _ _) h hs hok hv hst

/-- For every connection of a client: the requests that were served, up to any point, are those of the client's stream, one after another, and what was sent to backends for each of them is
read as that request, by servers with the same notion of chunked bodies, or strict ones if the client is strict.  With `C93_reads_these`: a client can't make a backend see a request that the
proxy did not see, or see it otherwise.
Missing for the full property: requests with a body that the server answers itself (`C93_unread_body_fails`), bodies with junk after the data of a chunk, for strict backends
(`C93_strict_fails`), and chunked requests of HTTP/1.0 (`C93_http10_fails`); after the latter, and after failures, no request follows. -/
theorem C93_one_for_one_partial (strict : Bool) (cfg : LstnCfg) (msie : Accepted → Bool) (sched : Nat → Nat) (world : Nat → Accepted → Serve)
    (R : Rewrites) (fuel i : Nat) (inp : Bytes) (pre post : List Handled) (hrw : Harmless R)
    (hw : ∀ i a edit env beIn, world i a = .regular edit env beIn → Forwards R edit)
    (hi : ∀ i a res inp, world i a = .internal res → acceptRequest cfg inp = .ok a →
      ∃ lines ts k, HeadOf inp a.line lines a.rest ∧ Seen cfg.table lines ts ∧ Framing ts k ∧ (k = .none ∨ k = .length 0))
    (h : (doHttp cfg msie sched world fuel i inp).1 = pre ++ post) (hok : ∀ x ∈ pre, x.res = some .ok ∧ x.req.rl.version = 1)
    (hst : strict = true → ∀ x ∈ pre, ∀ wire payload rest, Chunked false 4095 wire payload → Consumed x.req.rest wire rest → Chunked true 4095 wire payload) :
    ∃ l rest, Carried strict cfg.table R inp l rest ∧ l.map (·.2) = (pre.map (·.toBackend)).filter (· ≠ []) ∧
      ∀ y post', post = y :: post' → acceptRequest cfg rest = .ok y.req := by
  induction pre generalizing fuel i inp with
  | nil =>
    refine ⟨[], inp, .nil, rfl, ?_⟩
    rintro y post' rfl
    obtain ⟨f, -, h1, -⟩ := doHttp_cons h
    exact h1
  | cons x pre ih =>
    obtain ⟨f, rfl, h1, h2, h3⟩ := doHttp_cons h
    obtain ⟨x1, x2⟩ := hok x (by simp)
    have key : ∃ l rest, Carried strict cfg.table R x.rest l rest ∧ l.map (·.2) = (pre.map (·.toBackend)).filter (· ≠ []) ∧
        ∀ y post', post = y :: post' → acceptRequest cfg rest = .ok y.req := by
      by_cases hn : pre ++ post = []
      · obtain ⟨rfl, rfl⟩ := List.append_eq_nil_iff.1 hn
        exact ⟨[], x.rest, .nil, rfl, by simp⟩
      · exact ih f (i + 1) x.rest (h3 hn).1.symm (fun y hy => hok y (by simp [hy])) (fun e y hy => hst e y (by simp [hy]))
    obtain ⟨l, rest, k1, k2, k3⟩ := key
    cases hsv : world i x.req with
    | none st =>
      rw [hsv] at h2
      unfold serve at h2
      injection h2 with h2
      rw [← h2] at x1
      simp only [Option.some.injEq] at x1
      exfalso
      unfold doHttp at h
      rw [h1] at h
      dsimp only at h
      rw [hsv] at h
      cases h
    | internal res =>
      obtain ⟨lines, ts, k, e1, e2, e3, e4⟩ := hi i x.req res inp hsv h1
      rw [hsv] at h2
      unfold serve at h2
      injection h2 with h2
      have er : x.rest = x.req.rest := by rw [← h2]
      have et : x.toBackend = [] := by rw [← h2]
      refine ⟨l, rest, .own (m := ⟨x.req.line, ts, []⟩) ⟨lines, x.req.rest, k, e1, e2, e3, ?_⟩ rfl k1, ?_, k3⟩
      · rw [er]
        rcases e4 with rfl | rfl
        · exact .none
        · exact .length (p := []) rfl
      · rw [k2]; simp [et]
    | regular edit env beIn =>
      rw [hsv] at h2
      obtain ⟨m, m', mid, hs', t1, t2, t3, t4, t5, t6⟩ := sent_one hrw (hw i x.req edit env beIn hsv) h1 h2 x1 x2 (fun e => hst e x (by simp))
      refine ⟨(m', x.toBackend) :: l, rest, .sent t1 t2 t3 t4 t5 t6 k1, ?_, k3⟩
      have := sends_ne_nil t6
      simp [k2, this]

/-- There are no rules. -/
def unchanged : Rewrites := fun line hs line' hs' => line' = line ∧ hs' = hs

theorem harmless_none : Harmless unchanged := by
  intro line hs line' hs' h h1 h2 h3
  obtain ⟨rfl, rfl⟩ := h
  exact ⟨h1, h2, h3, rfl, rfl⟩

/-- A backend on port 81, for a client at 10.0.0.1; there are no rewriting rules. -/
def transitCfg : FwdCfg := ⟨false, true, true, .inet b!"10.0.0.1" b!"4711", 80, none, b!"10.0.0.9:81", false, some b!"inner"⟩

def transitEdit (c : FwdCfg) (line : Bytes) (hs : List Header) : Option (Bytes × List Header) :=
  match forwardHead c hs with
  | .ok hs' => some (line, hs')
  | .ub => none

def transitWorld (c : FwdCfg) : Nat → Accepted → Serve := fun _ _ => .regular (transitEdit c) {} b!"HTTP/1.1 204 No\r\n\r\n"

theorem transit_forwards {c : FwdCfg} (hc : CleanFwd c) : Forwards unchanged (transitEdit c) := by
  refine ⟨c, hc, ?_⟩
  intro line hs mid line' hs' _ _ _ h he
  unfold transitEdit at he
  rw [h] at he
  injection he with he
  injection he with e1 e2
  exact ⟨e1.symm, e2.symm⟩

theorem transit_clean : CleanFwd transitCfg where
  addr := oneLine_bool _ (by decide)
  be := oneLine_bool _ (by decide)
  name := by intro n h; injection h with h; subst h; exact oneLine_bool _ (by decide)
  cipher := by intro e v d h; cases h

def transitInput : Bytes :=
  b!"POST /a HTTP/1.1\r\nHost: a\r\nTransfer-Encoding: chunked\r\nExpect: 100-continue\r\n\r\n3\r\nGET\r\n0\r\n\r\nGET /b HTTP/1.1\r\nHost: b\r\n\r\n"

/-- The hypotheses hold for this client: two requests, a chunked body. -/
example : (∀ i a edit env beIn, transitWorld transitCfg i a = .regular edit env beIn → Forwards unchanged edit) ∧
    (∀ x ∈ (doHttp {} (fun _ => false) (fun n => n) (transitWorld transitCfg) 9 0 transitInput).1, x.res = some .ok ∧ x.req.rl.version = 1) ∧
    (doHttp {} (fun _ => false) (fun n => n) (transitWorld transitCfg) 9 0 transitInput).1.map (·.toBackend) =
      [b!"POST /a HTTP/1.1\r\nHost: inner\r\nTransfer-Encoding: chunked\r\nX-Forwarded-For: 10.0.0.1\r\nX-Forwarded-Proto: http\r\nX-Forwarded-Port: 80\r\n\r\n3\r\nGET\r\n0\r\n\r\n",
       b!"GET /b HTTP/1.1\r\nHost: inner\r\nX-Forwarded-For: 10.0.0.1\r\nX-Forwarded-Proto: http\r\nX-Forwarded-Port: 80\r\n\r\n"] := by
  refine ⟨?_, by decide +kernel, by decide +kernel⟩
  intro i a edit env beIn h
  injection h with h1 _ _
  subst h1
  exact transit_forwards transit_clean

theorem chunked_lim {strict : Bool} {lim lim' : Nat} {w p : Bytes} (h : Chunked strict lim w p) (hl : w.length ≤ lim') : Chunked strict lim' w p := by
  have wl : ∀ {w l : Bytes}, WireLine lim w l → w.length ≤ lim' → WireLine lim' w l := fun h1 h2 => ⟨h1.1, h1.2.1, h2⟩
  have tl : ∀ {t : Bytes}, Trailer lim t → t.length ≤ lim' → Trailer lim' t := by
    intro t h
    induction h with
    | done h1 => intro hl; exact .done (wl h1 hl)
    | more h1 h2 h3 ih => intro hl; simp at hl; exact .more (wl h1 (by omega)) h2 (ih (by omega))
  induction h with
  | last h1 h2 h3 => simp at hl; exact .last (wl h1 (by omega)) h2 (tl h3 (by omega))
  | chunk h1 h2 h3 h4 h5 h6 h7 ih => simp at hl; exact .chunk (wl h1 (by omega)) h2 h3 h4 (wl h5 (by omega)) h6 (ih (by omega))

/-- What a server reads after a header that announces a chunked body -/
theorem sends_chunked {strict : Bool} {line hdr body w r : Bytes} {lines fs : List Bytes} {m : Msg} (hl : OneLine line) (h1 : CrlfLines hdr lines) (h2 : Fields lines fs)
    (h3 : Framing fs .chunked) (h : Sends strict w m) (e : line ++ [13, 10] ++ (hdr ++ body) = w ++ r) : ∃ lim b, Chunked strict lim b m.payload ∧ body = b ++ r := by
  obtain ⟨hdr', lines', k, body', rfl, -, g2, g3, g4, g5, g6⟩ := h
  rw [List.append_assoc (m.line ++ _)] at e
  obtain ⟨-, e2⟩ := oneLine_split hl g2 e
  rw [List.append_assoc] at e2
  obtain ⟨rfl, rfl, e3⟩ := crlfLines_split h1 g3 e2
  have e4 := fields_det h2 g4
  have e5 := C05_unambiguous _ _ _ h3 (e4 ▸ g5)
  subst e5
  cases g6 with
  | chunked hc => exact ⟨_, _, hc, e3⟩

theorem framing_te : Framing [b!"Transfer-Encoding: chunked"] .chunked := by
  refine ⟨.miss ?_ .nil, [], b!"chunked", .hit (n := b!"Transfer-Encoding") ?_ (by decide) .nil, by simp, [], b!"chunked", ⟨by simp, by decide, [], rfl, .inl ⟨rfl, rfl⟩⟩,
    ⟨b!"chunked", ⟨[], [], rfl, by simp, by simp, by decide, by decide⟩, by decide⟩, by simp⟩
  · rintro ⟨n, v, h, h2⟩
    have hl : HeaderLine b!"Transfer-Encoding: chunked" b!"Transfer-Encoding" b!"chunked" :=
      (asLine_some (x := (b!"Transfer-Encoding: chunked", b!"Transfer-Encoding", b!"chunked")) (by decide)).2
    have := (named_iff_line hl b!"Content-Length").1 ⟨n, v, h, h2⟩
    exact absurd this (by decide)
  · exact (asLine_some (x := (b!"Transfer-Encoding: chunked", b!"Transfer-Encoding", b!"chunked")) (by decide)).2

theorem lines_te : CrlfLines b!"Transfer-Encoding: chunked\r\n\r\n" [b!"Transfer-Encoding: chunked"] ∧ Fields [b!"Transfer-Encoding: chunked"] [b!"Transfer-Encoding: chunked"] := by
  constructor
  · exact CrlfLines.more (l := b!"Transfer-Encoding: chunked") (oneLine_bool _ (by decide)) (by decide) .done
  · have := Fields.field (l := b!"Transfer-Encoding: chunked") (cs := []) (by unfold Continues; decide) (by simp) Fields.nil
    simpa using this

/-- A backend without additional headers -/
def plainCfg : FwdCfg := ⟨false, false, false, .inet b!"10.0.0.1" b!"4711", 80, none, b!"10.0.0.9:81", false, none⟩

/-- A chunked body with junk after the data of a chunk is sent as it is, with success; a strict server can't read a request from it. -/
theorem C93_strict_fails : ∃ sent, (doHttp {} (fun _ => false) (fun n => n) (transitWorld plainCfg) 9 0 (b!"POST / HTTP/1.1\r\nTransfer-Encoding: chunked\r\n\r\n" ++ junkStream)).1.map
      (fun x => (x.res, x.toBackend)) = [(some .ok, sent)] ∧ ∀ w m r, sent = w ++ r → ¬ Sends true w m := by
  refine ⟨b!"POST / HTTP/1.1\r\nTransfer-Encoding: chunked\r\n\r\n" ++ junkStream, by decide +kernel, ?_⟩
  intro w m r e h
  have e' : b!"POST / HTTP/1.1" ++ [13, 10] ++ (b!"Transfer-Encoding: chunked\r\n\r\n" ++ junkStream) = w ++ r := by
    rw [← e]; decide +kernel
  obtain ⟨lim, b, hc, hb⟩ := sends_chunked (oneLine_bool _ (by decide)) lines_te.1 lines_te.2 framing_te h e'
  obtain ⟨h1, -, h3⟩ := C02_strict_framing_fails
  obtain ⟨wire, payload, c1, c2, -⟩ := C02_chunked_sound_partial (fun _ => 1) false 0 junkStream h1
  have hrest : (copyChunks (fun _ => 1) false 0 junkStream).rest = [] := by decide
  rw [hrest] at c2
  have hw : wire = junkStream := by
    rcases c2 with h | ⟨_, _, b, h⟩
    · simpa using h.symm
    · exfalso
      have := congrArg List.getLast? h
      simp [junkStream] at this
  subst hw
  obtain ⟨rfl, -, rfl⟩ := chunked_split (r := []) c1 hc (by simpa using hb)
  exact h3 ⟨_, _, chunked_lim (lim' := 4095) hc (by decide), .inl (by simp)⟩

/-- A chunked request of HTTP/1.0 is sent without its body, with success; a server can't read a request from it. -/
theorem C93_http10_fails : ∃ sent, (doHttp {} (fun _ => false) (fun n => n) (transitWorld plainCfg) 9 0 b!"POST / HTTP/1.0\r\nTransfer-Encoding: chunked\r\n\r\n1\r\na\r\n0\r\n\r\n").1.map
      (fun x => (x.res, x.toBackend)) = [(some .ok, sent)] ∧ ∀ strict w m r, sent = w ++ r → ¬ Sends strict w m := by
  refine ⟨b!"POST / HTTP/1.0\r\nTransfer-Encoding: chunked\r\n\r\n", by decide +kernel, ?_⟩
  intro strict w m r e h
  have e' : b!"POST / HTTP/1.0" ++ [13, 10] ++ (b!"Transfer-Encoding: chunked\r\n\r\n" ++ []) = w ++ r := by
    rw [← e]; decide +kernel
  obtain ⟨lim, b, hc, hb⟩ := sends_chunked (oneLine_bool _ (by decide)) lines_te.1 lines_te.2 framing_te h e'
  exact chunked_ne_nil hc (List.append_eq_nil_iff.1 hb.symm).1

/-- A client that sends one request, with a body, which the server answers itself (say, by a redirection): the body is taken for the next request and sent to a backend. -/
theorem C93_unread_body_fails : ∃ inp m, Stream true inp [m] ∧
    (doHttp {} (fun _ => false) (fun n => n) (fun i a => if i = 0 then .internal (some .ok) else transitWorld plainCfg i a) 9 0 inp).1.map (fun x => (x.res, x.toBackend)) =
      [(some .ok, []), (some .ok, b!"GET /admin HTTP/1.1\r\n\r\n")] := by
  refine ⟨b!"POST / HTTP/1.1\r\nContent-Length: 23\r\n\r\n" ++ b!"GET /admin HTTP/1.1\r\n\r\n",
    ⟨b!"POST / HTTP/1.1", [b!"Content-Length: 23"], b!"GET /admin HTTP/1.1\r\n\r\n"⟩, ?_, by decide +kernel⟩
  have := Stream.cons (strict := true) (w := b!"POST / HTTP/1.1\r\nContent-Length: 23\r\n\r\n" ++ b!"GET /admin HTTP/1.1\r\n\r\n")
    (m := ⟨b!"POST / HTTP/1.1", [b!"Content-Length: 23"], b!"GET /admin HTTP/1.1\r\n\r\n"⟩) ?_ .nil
  · simpa using this
  · refine ⟨b!"Content-Length: 23\r\n\r\n", [b!"Content-Length: 23"], .length 23, b!"GET /admin HTTP/1.1\r\n\r\n", by decide, by decide, oneLine_bool _ (by decide), ?_, ?_, ?_,
      .length (by decide)⟩
    · exact CrlfLines.more (l := b!"Content-Length: 23") (oneLine_bool _ (by decide)) (by decide) .done
    · have := Fields.field (l := b!"Content-Length: 23") (cs := []) (by unfold Continues; decide) (by simp) Fields.nil
      simpa using this
    · have hl : HeaderLine b!"Content-Length: 23" b!"Content-Length" b!"23" :=
        (asLine_some (x := (b!"Content-Length: 23", b!"Content-Length", b!"23")) (by decide)).2
      refine ⟨.miss ?_ .nil, b!"23", .hit hl (by decide) .nil, by decide, [], b!"23", [], by simp, by simp [Blank], ⟨by decide, by decide, by decide⟩, by simp [Blank]⟩
      intro hn
      exact absurd ((named_iff_line hl _).1 hn) (by decide)

end Pound.Props
