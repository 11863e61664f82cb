import Verif.Proof.Request

/-!
Properties C06-C08: request lines, URIs, query parameters.
-/

namespace Pound.Props
open Pound Spec

/-! ## C06 Only well-formed request lines are accepted -/

/-- A line is accepted exactly if it is METHOD SPACES URI SPACES HTTP/1.v with a method of
a level enabled on the listener, and then the method, URI and version are its fields. -/
theorem C06_accepted_iff (line : Bytes) (group : Nat) (r : ReqLine) :
    parseHttpRequest line group = .ok r ↔
      ∃ m l, m ∈ methodsOfLevel l ∧ l ≤ group ∧ methodName r.meth = some m ∧
        RequestLine line m r.url r.version := by
  constructor
  · intro h
    obtain ⟨md, url, v, hm, hs⟩ := parse_to_spec (line := line) (group := group) (by rw [h]; simp)
    rw [parse_of_spec hm hs] at h
    split at h
    · cases h
    · injection h with h
      subst h
      exact ⟨md.name, md.group, (level_of_mem hm _).2 rfl, by omega, methodName_of_mem hm, hs⟩
  · rintro ⟨m, l, h1, h2, h3, h4⟩
    obtain ⟨md, hm, hi, rfl⟩ := methodName_some h3
    rw [parse_of_spec hm h4]
    have := (level_of_mem hm l).1 h1
    rw [if_neg (by omega), hi]

/-- 405 is answered exactly to well-formed lines with a method of a higher level. -/
theorem C06_not_allowed_iff (line : Bytes) (group : Nat) :
    parseHttpRequest line group = .err .methodNotAllowed ↔
      ∃ m l url v, m ∈ methodsOfLevel l ∧ group < l ∧ RequestLine line m url v := by
  constructor
  · intro h
    obtain ⟨md, url, v, hm, hs⟩ := parse_to_spec (line := line) (group := group) (by rw [h]; simp)
    rw [parse_of_spec hm hs] at h
    split at h
    · exact ⟨md.name, md.group, url, v, (level_of_mem hm _).2 rfl, by omega, hs⟩
    · cases h
  · rintro ⟨m, l, url, v, h1, h2, h3⟩
    obtain ⟨md, hm, rfl⟩ := mem_of_level h1
    rw [parse_of_spec hm h3]
    have := (level_of_mem hm l).1 h1
    rw [if_pos (by omega)]

/-- Every other line is answered 400. -/
theorem C06_else_bad_request (line : Bytes) (group : Nat)
    (h : ¬ ∃ m l url v, m ∈ methodsOfLevel l ∧ RequestLine line m url v) :
    parseHttpRequest line group = .err .badRequest := by
  by_cases hb : parseHttpRequest line group = .err .badRequest
  · exact hb
  · obtain ⟨md, url, v, hm, hs⟩ := parse_to_spec hb
    exact absurd ⟨md.name, md.group, url, v, (level_of_mem hm _).2 rfl, hs⟩ h

example : parseHttpRequest b!"GET /index.html?a=b HTTP/1.1" 0 =
    .ok ⟨0, b!"/index.html?a=b", 1⟩ := by decide
example : RequestLine b!"get  /x HTTP/1.0" b!"GET" b!"/x" 0 :=
  ⟨b!"get", b!"  ", b!" ", by decide, by decide, ⟨by decide, by decide⟩, ⟨by decide, by decide⟩,
    by decide, by decide, by omega⟩
example : parseHttpRequest b!"PUT /x HTTP/1.1" 0 = .err .methodNotAllowed := by decide
example : parseHttpRequest b!"GET /x y HTTP/1.1" 3 = .err .badRequest := by decide

/-- The line that is sent after a request has been modified reads back as the same
method, version and the new URI, provided the URI is one (non-empty, no spaces). -/
theorem C06_rebuilt_line_reads_back (r : Req) (m : Bytes) (hm : methodName r.meth = some m)
    (hv : r.version ≤ 1) (hu : r.url ≠ []) (hs : ∀ c ∈ r.url, c ≠ 32) :
    parseHttpRequest r.rebuildLine.request 3 = .ok ⟨r.meth, r.url, r.version⟩ := by
  obtain ⟨md, hmem, hi, rfl⟩ := methodName_some hm
  have hl : RequestLine r.rebuildLine.request md.name r.url r.version := by
    refine ⟨md.name, [32], [32], ?_, by simp [ciEq], ⟨by simp, by simp⟩, ⟨by simp, by simp⟩, hu, hs, hv⟩
    simp [Req.rebuildLine, hm, Nat.add_comm]
  rw [parse_of_spec hmem hl, if_neg (by have := methods_group _ hmem; omega), hi]

example : (Req.setUrl (Req.fresh b!"get /a HTTP/1.1" ⟨0, b!"/a", 1⟩) b!"/b?x").request =
    b!"GET /b?x HTTP/1.1" := by decide

/-! ## C07 Splitting a URL -/

/-- URIs with at most one question mark (not in the first place) are split at it; an
empty query counts as no query.  Missing for the full property: URIs with several
question marks are cut at the last one instead of the first, see `C07_first_qmark_fails`. -/
theorem C07_split_partial (r : Req) (path : Bytes) (query : Option Bytes) (hs : r.split = true)
    (h : SplitsAs r.url path query) (hp : path ≠ []) (hq : ∀ q, query = some q → ch%'?' ∉ q) :
    r.getPath.2 = path ∧ r.getQuery.2 = (if query = some [] then none else query) := by
  obtain ⟨h1, h2⟩ := h
  cases query with
  | none =>
    simp only at h2
    have : ch%'?' ∉ r.url.drop 1 := fun hm => h1 (h2 ▸ List.mem_of_mem_drop hm)
    simp [Req.getPath, Req.getQuery, doSplit_noq hs this, h2]
  | some q =>
    simp only at h2
    rw [Req.getPath, Req.getQuery, doSplit_q hs hp h2 (hq q rfl)]
    simp

/-- A URI with two question marks: path and query are not those of RFC 3986, so a
condition on the path can be evaded by adding a second question mark. -/
theorem C07_first_qmark_fails :
    let r := Req.fresh b!"GET /admin?x?y HTTP/1.1" ⟨0, b!"/admin?x?y", 1⟩
    SplitsAs r.url b!"/admin" (some b!"x?y") ∧ r.getPath.2 = b!"/admin?x" ∧ r.getQuery.2 = some b!"y" := by
  refine ⟨⟨by decide, rfl⟩, by decide, by decide⟩

/-- Nothing is lost: path and query re-assemble to the URI, but for a final `?`. -/
theorem C07_lossless (r : Req) (hs : r.split = true) :
    (match r.getQuery.2 with
     | some q => r.getPath.2 ++ ch%'?' :: q = r.url ∧ q ≠ []
     | none => r.getPath.2 = r.url ∨ r.getPath.2 ++ [ch%'?'] = r.url) := by
  rcases last_qmark r.url with hn | ⟨path, q, hp, hu, hq⟩
  · simp [Req.getPath, Req.getQuery, doSplit_noq hs hn]
  · rw [Req.getPath, Req.getQuery, doSplit_q hs hp hu hq]
    by_cases hq' : q = []
    · subst hq'; simp [hu]
    · simp [hq', hu]

/-- Setting the path to itself gives back the URI, but for a final `?`. -/
theorem C07_reassemble (r : Req) (hs : r.split = true) :
    (r.setPath r.getPath.2).url = r.url ∨ (r.setPath r.getPath.2).url ++ [ch%'?'] = r.url := by
  have h := C07_lossless r hs
  have e : (r.setPath r.getPath.2).url =
      r.getPath.2 ++ (match r.getQuery.2 with | some q => b!"?" ++ q | none => []) := rfl
  rw [e]
  cases hq : r.getQuery.2 with
  | none => rw [hq] at h; simpa using h
  | some q => rw [hq] at h; left; simpa using h.1

/-- Reading path, query or a parameter does not change the URI to be sent. -/
theorem C07_reading_is_pure (r : Req) (k : Bytes) :
    r.getPath.1.url = r.url ∧ r.getQuery.1.url = r.url ∧ (r.getParam k).1.url = r.url ∧
    (r.getParam k).1.request = r.request := by
  refine ⟨doSplit_url r, doSplit_url r, ?_, ?_⟩
  · simp only [Req.getParam, Req.loadParams]
    split
    · split <;> exact doSplit_url r
    · exact doSplit_url r
  · have : r.doSplit.request = r.request := by
      unfold Req.doSplit
      split
      · dsimp only; split <;> rfl
      · rfl
    simp only [Req.getParam, Req.loadParams]
    split
    · split <;> exact this
    · exact this

example : SplitsAs b!"/a/b?x=1&y" b!"/a/b" (some b!"x=1&y") := ⟨by decide, rfl⟩
example : (Req.fresh b!"GET /a/b?x=1&y HTTP/1.1" ⟨0, b!"/a/b?x=1&y", 1⟩).getQuery.2
    = some b!"x=1&y" := by decide

/-- Edits of a request. -/
inductive Edit where
  | setUrl (u : Bytes) | setPath (p : Bytes) | setQuery (q : Bytes)
  | setParam (k : Bytes) (v : Option Bytes)
  | getPath | getQuery | getParam (k : Bytes)

def Edit.run (r : Req) : Edit → Req
  | .setUrl u => r.setUrl u
  | .setPath p => r.setPath p
  | .setQuery q => r.setQuery q
  | .setParam k v => r.setParam k v
  | .getPath => r.getPath.1
  | .getQuery => r.getQuery.1
  | .getParam k => (r.getParam k).1

/-- After any history of edits and reads, the URI to be sent is the path, then `?` and the
query if there is one (but for a final `?` of the original URI). -/
theorem C07_views_agree (r : Req) (hs : r.split = true) (es : List Edit) :
    let r' := es.foldl Edit.run r
    r'.url = r'.getPath.2 ++ (match r'.getQuery.2 with | some q => ch%'?' :: q | none => []) ∨
      (r'.getQuery.2 = none ∧ r'.url = r'.getPath.2 ++ [ch%'?']) := by
  intro r'
  have hc : Coherent r' := by
    have h0 : Coherent r := by intro h; rw [hs] at h; cases h
    show Coherent (es.foldl Edit.run r)
    clear r' hs
    induction es generalizing r with
    | nil => exact h0
    | cons e es ih =>
      apply ih
      cases e with
      | setUrl u => intro h; cases h
      | setPath p => exact coherent_rebuildUrl _
      | setQuery q => exact coherent_rebuildUrl _
      | getPath => exact coherent_doSplit _ h0
      | getQuery => exact coherent_doSplit _ h0
      | getParam k => exact coherent_loadParams _ h0
      | setParam k v =>
        have := coherent_loadParams _ h0
        simp only [Edit.run, Req.setParam, Req.getParam]
        split
        · exact this
        · exact coherent_rebuildUrl _
        · exact coherent_rebuildUrl _
        · exact coherent_rebuildUrl _
  have := coherent_doSplit _ hc (doSplit_split _)
  rw [doSplit_url] at this
  exact this

/-- After any history of edits and reads the line to be sent is METHOD URI HTTP/1.v with
the current URI, or it is still the line received with the URI received. -/
theorem C07_line_is_current (line : Bytes) (rl : ReqLine) (es : List Edit) :
    let r' := es.foldl Edit.run (Req.fresh line rl)
    (r'.request = line ∧ r'.url = rl.url) ∨
    r'.request = (methodName rl.meth).getD [] ++ b!" " ++ r'.url ++ b!" HTTP/1." ++
      [UInt8.ofNat (48 + rl.version)] := by
  intro r'
  have key : ∀ (es : List Edit) (r : Req), r.meth = rl.meth ∧ r.version = rl.version ∧
      ((r.request = line ∧ r.url = rl.url) ∨ r.request = lineOf r) →
      (es.foldl Edit.run r).meth = rl.meth ∧ (es.foldl Edit.run r).version = rl.version ∧
      (((es.foldl Edit.run r).request = line ∧ (es.foldl Edit.run r).url = rl.url) ∨
        (es.foldl Edit.run r).request = lineOf (es.foldl Edit.run r)) := by
    intro es
    induction es with
    | nil => intro r h; exact h
    | cons e es ih =>
      intro r h
      apply ih
      have hd : r.doSplit.meth = r.meth ∧ r.doSplit.version = r.version ∧
          r.doSplit.request = r.request ∧ r.doSplit.url = r.url := by
        unfold Req.doSplit
        split
        · dsimp only; split <;> exact ⟨rfl, rfl, rfl, rfl⟩
        · exact ⟨rfl, rfl, rfl, rfl⟩
      have hl : r.loadParams.meth = r.meth ∧ r.loadParams.version = r.version ∧
          r.loadParams.request = r.request ∧ r.loadParams.url = r.url := by
        unfold Req.loadParams
        dsimp only
        split
        · split <;> exact hd
        · exact hd
      have pure : ∀ r1 : Req, r1.meth = r.meth ∧ r1.version = r.version ∧
          r1.request = r.request ∧ r1.url = r.url → r1.meth = rl.meth ∧ r1.version = rl.version ∧
          ((r1.request = line ∧ r1.url = rl.url) ∨ r1.request = lineOf r1) := by
        intro r1 ⟨a, b, c, d⟩
        refine ⟨a.trans h.1, b.trans h.2.1, ?_⟩
        rw [c, d]
        rcases h.2.2 with h2 | h2
        · exact Or.inl h2
        · right; rw [h2]; simp only [lineOf, a, b, d]
      have reb : ∀ r1 : Req, r1.meth = r.meth → r1.version = r.version →
          r1.rebuildLine.meth = rl.meth ∧ r1.rebuildLine.version = rl.version ∧
          ((r1.rebuildLine.request = line ∧ r1.rebuildLine.url = rl.url) ∨
            r1.rebuildLine.request = lineOf r1.rebuildLine) := by
        intro r1 a b
        exact ⟨a.trans h.1, b.trans h.2.1, Or.inr (rebuildLine_line r1)⟩
      cases e with
      | setUrl u => exact reb _ rfl rfl
      | setPath p => exact reb _ hd.1 hd.2.1
      | setQuery q => exact reb _ hd.1 hd.2.1
      | getPath => exact pure _ hd
      | getQuery => exact pure _ hd
      | getParam k => exact pure _ hl
      | setParam k v =>
        simp only [Edit.run, Req.setParam, Req.getParam]
        split
        · exact pure _ hl
        · exact reb _ hl.1 hl.2.1
        · exact reb _ hl.1 hl.2.1
        · exact reb _ hl.1 hl.2.1
  obtain ⟨h1, h2, h3⟩ := key es (Req.fresh line rl) ⟨rfl, rfl, Or.inl ⟨rfl, rfl⟩⟩
  rcases h3 with h3 | h3
  · exact Or.inl h3
  · right; show (es.foldl Edit.run (Req.fresh line rl)).request = _
    rw [h3]; simp only [lineOf, h1, h2]; rfl

/-! ## C08 Query parameters behave as an ordered map -/

/-- The parameters read from a request are those its query lists (up to a final
ampersand), with no `&` or `=` in names and no `&` in values. -/
theorem C08_parse_exact (q : Bytes) :
    (∃ q0, (q = q0 ∨ q = q0 ++ [ch%'&']) ∧ Lists q0 (parseQuery q)) ∧
    ∀ n v, (n, v) ∈ parseQuery q → ch%'&' ∉ n ∧ ch%'=' ∉ n ∧ ∀ w, v = some w → ch%'&' ∉ w := by
  refine ⟨lists_parse q, fun n v h => ?_⟩
  have hc := parseQuery_clean q _ h
  exact ⟨fun hm => (hc.1 _ hm).1 rfl, fun hm => (hc.1 _ hm).2 rfl, fun w hw hm => hc.2 w hw _ hm rfl⟩

/-- The parameters of a request whose URI was received or set are those of the query
part of that URI. -/
theorem C08_params_of_uri (r : Req) (u : Bytes) (hs : r.split = true) :
    r.paramsOf = (match r.getQuery.2 with | some q => parseQuery q | none => []) ∧
    (r.setUrl u).paramsOf =
      (match (r.setUrl u).getQuery.2 with | some q => parseQuery q | none => []) := by
  have key : ∀ r : Req, r.split = true →
      r.paramsOf = (match r.getQuery.2 with | some q => parseQuery q | none => []) := by
    intro r hs
    have hp : r.doSplit.params = [] := by
      rcases last_qmark r.url with hn | ⟨path, q, hp, hu, hq⟩
      · rw [doSplit_noq hs hn]
      · rw [doSplit_q hs hp hu hq]
    unfold Req.paramsOf Req.loadParams Req.getQuery
    simp only [hp, List.isEmpty_nil, if_true, List.nil_append]
    cases r.doSplit.query with
    | none => exact hp
    | some q => rfl
  exact ⟨key r hs, key _ rfl⟩

/-- After setting the query, its parameters are those of the new query. -/
theorem C08_params_of_query (r : Req) (raw : Bytes) :
    (r.setQuery raw).paramsOf = parseQuery raw := by
  have h : (r.setQuery raw).doSplit = r.setQuery raw := doSplit_of_not (doSplit_split r)
  unfold Req.paramsOf Req.loadParams
  rw [h]
  rfl

/-- Setting a parameter makes it read as set. -/
theorem C08_get_set (r : Req) (k v : Bytes) :
    ((r.setParam k (some v)).getParam k).2 = some (some v) := by
  simp only [Req.getParam, lookup_eq]
  have := setParam_paramsOf r k (some v)
  unfold Req.paramsOf at this
  rw [this]; unfold specSet
  cases hl : lookup k r.loadParams.params with
  | none => simp [lookup_append, hl, lookup]
  | some w => exact lookup_replace k v _ (by rw [hl]; simp)

/-- Setting or removing a parameter leaves the other ones, and their order, unchanged. -/
theorem C08_others (r : Req) (k : Bytes) (v : Option Bytes) :
    others k (r.setParam k v).paramsOf = others k r.paramsOf := by
  rw [setParam_paramsOf]; unfold specSet
  cases hl : lookup k r.paramsOf <;> cases v <;> simp only
  · simp [others]
  · exact others_remove _ _
  · exact others_replace _ _ _

/-- So all other names read the same as before. -/
theorem C08_get_other (r : Req) (k k' : Bytes) (v : Option Bytes) (h : k' ≠ k) :
    ((r.setParam k v).getParam k').2 = (r.getParam k').2 := by
  simp only [Req.getParam, lookup_eq]
  have := C08_others r k v
  unfold Req.paramsOf at this
  rw [lookup_others h, this, ← lookup_others h]

/-- Setting an existing parameter keeps the sequence of names. -/
theorem C08_order (r : Req) (k v : Bytes) (h : (r.getParam k).2 ≠ none) :
    (r.setParam k (some v)).paramsOf.map (·.1) = r.paramsOf.map (·.1) := by
  rw [setParam_paramsOf]; unfold specSet
  simp only [Req.getParam, lookup_eq] at h
  unfold Req.paramsOf
  cases hl : lookup k r.loadParams.params with
  | none => exact absurd hl h
  | some w => exact names_replace _ _ _

/-- Removing a parameter removes its first occurrence: reads find the next one, if any. -/
theorem C08_remove (r : Req) (k : Bytes) :
    valuesOf k (r.setParam k none).paramsOf = (valuesOf k r.paramsOf).tail ∧
    ((r.setParam k none).getParam k).2 = (valuesOf k r.paramsOf).tail.head? := by
  have h1 : valuesOf k (r.setParam k none).paramsOf = (valuesOf k r.paramsOf).tail := by
    rw [setParam_paramsOf]; unfold specSet
    cases hl : lookup k r.paramsOf with
    | none => simp [lookup_none_valuesOf hl]
    | some w => exact valuesOf_remove k _
  refine ⟨h1, ?_⟩
  rw [← h1, ← lookup_valuesOf]
  simp only [Req.getParam, lookup_eq]
  rfl

/-- Any history of set and remove operations acts on the list of parameters exactly as
the abstract update does. -/
theorem C08_history (r : Req) (ops : List (Bytes × Option Bytes)) (k : Bytes) :
    ((ops.foldl (fun r o => r.setParam o.1 o.2) r).getParam k).2 =
      lookup k (ops.foldl (fun ps o => update o.1 o.2 ps) r.paramsOf) := by
  have : ∀ (ops : List (Bytes × Option Bytes)) (r : Req),
      (ops.foldl (fun r o => r.setParam o.1 o.2) r).paramsOf =
      ops.foldl (fun ps o => update o.1 o.2 ps) r.paramsOf := by
    intro ops
    induction ops with
    | nil => intro r; rfl
    | cons o ops ih => intro r; simp only [List.foldl_cons]; rw [ih, setParam_paramsOf, specSet_eq]
  rw [← this]
  simp only [Req.getParam, lookup_eq]; rfl

/-- What is sent after a change: the unchanged path, `?`, and a query listing exactly
the new parameters. -/
theorem C08_wire (r : Req) (k : Bytes) (v : Option Bytes)
    (h : v ≠ none ∨ (r.getParam k).2 ≠ none) :
    ∃ q, (r.setParam k v).url = r.getPath.2 ++ ch%'?' :: q ∧ Lists q (r.setParam k v).paramsOf := by
  have hp : r.loadParams.path = r.getPath.2 := by
    unfold Req.loadParams Req.getPath
    dsimp only
    split
    · split <;> rfl
    · rfl
  have key : ∀ r1 : Req, r1.split = false → r1.path = r.getPath.2 →
      ∃ q, r1.rebuildQuery.url = r.getPath.2 ++ ch%'?' :: q ∧ Lists q r1.rebuildQuery.paramsOf := by
    intro r1 h1 h2
    refine ⟨renderLoop false r1.params, by rw [← h2]; rfl, ?_⟩
    rw [Req.paramsOf, rebuildQuery_params r1 h1]
    exact lists_render _
  have hs := loadParams_split r
  unfold Req.setParam
  cases hg : (r.getParam k).2 with
  | none =>
    cases v with
    | none => rw [hg] at h; simp at h
    | some v =>
      rw [show r.getParam k = ((r.getParam k).1, (r.getParam k).2) from rfl, hg]
      exact key _ hs hp
  | some w =>
    rw [show r.getParam k = ((r.getParam k).1, (r.getParam k).2) from rfl, hg]
    cases v with
    | none => exact key _ hs hp
    | some v => exact key _ hs hp

/-- The parameters of an unmodified query survive being written and read again, but for
a final nameless and valueless one (`a&&` has two parameters and is rewritten `a&`). -/
theorem C08_rebuild (q : Bytes) :
    parseQuery (renderLoop false (parseQuery q)) =
      if (parseQuery q).getLast? = some ([], none) then (parseQuery q).dropLast else parseQuery q :=
  parse_render _ (parseQuery_clean q)

def sampleReq : Req := Req.fresh b!"GET /p?a=1&b&a=2 HTTP/1.1" ⟨0, b!"/p?a=1&b&a=2", 1⟩

example : ((sampleReq.setParam b!"a" (some b!"9")).getParam b!"a").2 = some (some b!"9") :=
  C08_get_set _ _ _
example : (sampleReq.getParam b!"a").2 ≠ none := by decide +kernel
example : (sampleReq.setParam b!"a" none).url = b!"/p?b&a=2" := by decide +kernel
example : (sampleReq.setParam b!"c" (some b!"x")).request = b!"GET /p?a=1&b&a=2&c=x HTTP/1.1" := by
  decide +kernel

end Pound.Props
