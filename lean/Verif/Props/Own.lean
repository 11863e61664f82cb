import Verif.Spec.Own
import Verif.Proof.OwnConn

/-!
C97: the memory of requests and responses.
-/

namespace Pound.Props
open Pound Spec

theorem declares_of_ne {v : Bytes} (h : ∃ k, DeclaresLength v k) : getContentLength v .header ≠ noContentLength := by
  obtain ⟨k, hk⟩ := h
  rw [(declares_iff v k).2 hk]
  unfold noContentLength
  omega

theorem linesOk_of {cl : Bool} {ls : List Bytes} (h : ∀ l ∈ ls, LengthOk l) : LinesOk cl ls := by
  intro _ l hl hc
  have hex : ∃ n v, HeaderLine l n v := Classical.byContradiction fun h' => by
    have : (headerAlloc l).code = .illegal := qualify_illegal.2 h'
    rw [this] at hc
    cases hc
  obtain ⟨n, v, hline⟩ := hex
  have h1 := (alloc_good hline).1.line
  rw [(alloc_good hline).2] at h1
  refine declares_of_ne (h l hl _ _ h1 ?_)
  rw [(alloc_fine hline).2] at hc
  exact (codeOf_iff (e := (b!"Content-length", .contentLength)) (by decide) _).1 hc

theorem textOk_of {cl : Bool} {t : Bytes} (h : HeaderText t) (h' : cl = true → LengthOk t) : TextOk cl t := by
  refine ⟨h, fun hc hcode => ?_⟩
  exact linesOk_of (cl := true) (ls := [t]) (fun l hl => by rw [List.mem_singleton.1 hl]; exact h' hc) rfl t (List.mem_singleton.2 rfl) hcode

theorem headerOp_ok {nf cl : Bool} {o : MsgOp} (h : HeaderOp o) : OpOk nf cl false o := by
  cases o with
  | append t m => exact ⟨textOk_of h.1 fun _ => h.2.1, fun hm => absurd hm h.2.2⟩
  | change i t => exact textOk_of h.1 fun _ => h.2
  | filter m => trivial
  | value i => trivial
  | _ => exact h.elim

theorem requestOp_ok {nf : Bool} {o : MsgOp} (h : RequestOp o) (hf : nf = true ∨ Frugal o) : OpOk nf false true o := by
  cases o with
  | append t m =>
    refine ⟨textOk_of h fun h => (by cases h), fun hm => ⟨?_, rfl⟩⟩
    rcases hf with hf | hf
    · exact hf
    · exact absurd hm hf
  | change i t => exact textOk_of h fun h => (by cases h)
  | setParam n v =>
    refine ⟨rfl, ?_⟩
    rcases hf with hf | hf
    · exact hf
    · exact hf.elim
  | getParam n =>
    refine ⟨rfl, ?_⟩
    rcases hf with hf | hf
    · exact hf
    · exact hf.elim
  | filter m => trivial
  | value i => trivial
  | setUrl u => rfl
  | setPath u => rfl
  | setQuery u => rfl
  | get => rfl

theorem tameResp_ok {nf : Bool} {table : List Bytes} {i : RespInput} (h : TameResp table i) : RespOk nf table i :=
  ⟨⟨h.first, linesOk_of h.lines⟩, fun o ho => headerOp_ok (h.ops o ho), fun x t ht => textOk_of (h.loc x t ht).1 fun _ => (h.loc x t ht).2⟩

/-- Whatever allocations fail: a connection on which no headers are combined reads and releases only what is allocated, and at its end all that it allocated is released. Clients may send anything. Of responses it
is asked that their Content-Length headers declare lengths (`C97_response_fails`). -/
theorem C97_failures_partial (group : Nat) (is : List ReqInput) (m : Mem) (hm : Mem.Fit m) (hi : ∀ i ∈ is, TameReq [] i) (hf : ∀ i ∈ is, ∀ o ∈ i.ops, Frugal o) : Tidy (connP [] group is) m := by
  obtain ⟨a, m', h1, -, h2⟩ := Hoare.run (nf := false) (conn_h group (.inl rfl) (fun n h => (by cases h)) is fun i h => ⟨.inl rfl, fun o ho => requestOp_ok ((hi i h).ops o ho) (.inr (hf i h o ho)),
    fun r hr => tameResp_ok ((hi i h).resps r hr)⟩) hm.1 hm.2 (fun h => (by cases h))
  exact ⟨a, m', h1, h2⟩

/-- If no allocation fails, the same holds of all rules and of combined headers, unless the first line of a message is refused (`C97_combine_fails`). -/
theorem C97_released_partial (table : List Bytes) (group : Nat) (is : List ReqInput) (m : Mem) (hm : Mem.Fit m) (hp : Plenty m) (ht : ∀ n ∈ table, ciEq n b!"Content-Length" = false) (hi : ∀ i ∈ is, TameReq table i) :
    Tidy (connP table group is) m := by
  obtain ⟨a, m', h1, -, h2⟩ := Hoare.run (nf := true) (conn_h group (.inr rfl) ht is fun i h => ⟨(hi i h).first, fun o ho => requestOp_ok ((hi i h).ops o ho) (.inl rfl), fun r hr => tameResp_ok ((hi i h).resps r hr)⟩)
    hm.1 hm.2 (fun _ => hp)
  exact ⟨a, m', h1, h2⟩

/-- A head that is said to have been read is the one that was sent, even if allocations failed. -/
theorem C97_read (i : HeadInput) (m m' : Mem) (r : PReq) (hm : Mem.Fit m) (h : readP [] i PReq.init m = .ok (r, .ok) m') :
    i.whole = true ∧ r.request.map (·.txt) = i.first ∧ r.headers.map (·.hdr) = buildHeaders [] i.lines := by
  obtain ⟨a, h', e, -, -, p, -⟩ := read_h (nf := false) (cl := false) (table := []) i (.inl rfl) (.inl rfl) (fun h => (by cases h)) (fun h => (by cases h)) m (fun x => m.live.count x) ⟨hm.1, hm.2⟩ (fun h => (by cases h))
    (fun x => by rw [zr_at, Nat.zero_add])
  rw [h] at e
  cases e
  obtain ⟨s, hs, p1, p2, p3, -, p5⟩ := p.1 rfl
  dsimp only at p1
  rw [p1]
  exact ⟨p3, by rw [p2]; rfl, p5⟩

/-- The value of a header is asked for: it is the value in its present text, whatever was done to it before and whatever allocations failed. -/
theorem C97_value (i : HeadInput) (ops : List MsgOp) (k : Nat) (m m1 m2 m3 : Mem) (r r' : PReq) (b : Bool) (h h' : PHdr) (v : Bytes) (hm : Mem.Fit m) (ho : ∀ o ∈ ops, HeaderOp o)
    (h1 : readP [] i PReq.init m = .ok (r, .ok) m1) (h2 : runOpsP r ops m1 = .ok (r', b) m2) (h3 : r'.headers[k]? = some h) (h4 : hdrValueP h m2 = .ok (h', some v) m3) : ∃ n, HeaderLine h.hdr.text n v := by
  obtain ⟨a1, x1, e1, ok1, -, p1, c1⟩ := read_h (nf := false) (cl := false) (table := []) i (.inl rfl) (.inl rfl) (fun h => (by cases h)) (fun h => (by cases h)) m (fun x => m.live.count x) ⟨hm.1, hm.2⟩ (fun h => (by cases h))
    (fun x => by rw [zr_at, Nat.zero_add])
  rw [h1] at e1
  cases e1
  obtain ⟨s, hs, q1, -, -, q4, -⟩ := p1.1 rfl
  dsimp only at q1
  obtain ⟨a2, x2, e2, ok2, -, p2, c2⟩ := ops_h (nf := false) (cl := false) (req := false) ops r ⟨by rw [q1]; exact q4, fun h => (by cases h)⟩ (fun o h => headerOp_ok (ho o h)) m1 _ ok1 (fun h => (by cases h)) c1
  rw [h2] at e2
  cases e2
  have hok := p2.1.hdrs h (List.mem_of_getElem? h3)
  obtain ⟨rest, r1, -⟩ := hdrsOwn_at h3
  obtain ⟨a3, x3, e3, -, -, p3, -⟩ := hdrValue_h (nf := false) hok m2 (fun x => rest x + (strOwn r'.request x + strOwn r'.orig x + strOwn r'.url x + strOwn r'.path x + strOwn r'.query x + paramsOwn r'.params x) + m.live.count x)
    ok2 (fun h => (by cases h)) (fun x => by have := c2 x; have := r1 x; simp only [reqOwn_at] at *; omega)
  rw [h4] at e3
  cases e3
  rcases p3.2.2.2 with hv | ⟨hv, -⟩
  · injection hv with hv
    rw [hv]
    exact ⟨_, hok.good.line⟩
  · cases hv

/-- If no allocation fails, a request that is read, parsed and worked on is the one that the other properties speak of: the line is what Model/Request.lean computes, the headers are what Model/Headers.lean computes. -/
theorem C97_texts (table : List Bytes) (group : Nat) (i : HeadInput) (ops : List MsgOp) (line : Bytes) (rl : ReqLine) (m : Mem) (hm : Mem.Fit m) (hp : Plenty m) (ho : ∀ o ∈ ops, RequestOp o) (hw : i.whole = true)
    (hl : i.first = some line) (hrl : parseHttpRequest line group = .ok rl) : ∃ r r1 r2 m1 m2 m3, readP table i PReq.init m = .ok (r, .ok) m1 ∧ parseLineP r group m1 = .ok (r1, .ok) m2 ∧
      runOpsP r1 ops m2 = .ok (r2, true) m3 ∧ r2.view = opsLine ops (Req.fresh line rl) ∧ opsHdrs ops (buildHeaders table i.lines) = .ok (r2.headers.map (·.hdr)) := by
  obtain ⟨a1, x1, e1, ok1, o1, p1, c1⟩ := read_h (nf := true) (cl := false) (table := table) i (.inr rfl) (.inr (by rw [hl]; intro h; cases h)) (fun h => (by cases h)) (fun h => (by cases h)) m (fun x => m.live.count x) ⟨hm.1, hm.2⟩
    (fun _ => hp) (fun x => by rw [zr_at, Nat.zero_add])
  obtain ⟨r, st⟩ := a1
  have hst : st = .ok := Classical.byContradiction fun h => by
    rcases p1.2 rfl h with h | h
    · rw [hl] at h
      cases h
    · rw [hw] at h
      cases h
  subst hst
  obtain ⟨s, hs, q1, q2, -, q4, q5⟩ := p1.1 rfl
  dsimp only at q1 c1
  rw [hl] at q2
  injection q2 with q2
  obtain ⟨a2, x2, e2, ok2, o2, p2, c2⟩ := parseLine_h (nf := true) (r := r) (s := s) (by rw [q1]) (by rw [q1]; rfl) group x1 _ ok1 (fun _ => by rw [o1]; exact hp) c1
  obtain ⟨r1, st⟩ := a2
  have hst : st = .ok := Classical.byContradiction fun h => by
    have := p2.2.2 rfl h
    rw [← q2, hrl] at this
    cases this
  subst hst
  obtain ⟨hinv, rl', hrl', hr1, hu⟩ := p2.2.1 rfl
  rw [← q2, hrl] at hrl'
  cases hrl'
  have hh : r1.headers = hs := by rw [p2.1, q1]
  obtain ⟨a3, x3, e3, -, -, p3, -⟩ := opsView_h (cl := false) (req := true) ops r1 ⟨by rw [hh]; exact q4, fun _ => hinv⟩ (fun o h => requestOp_ok (ho o h) (.inl rfl)) x2 _ ok2 (fun _ => by rw [o2, o1]; exact hp) c2
  obtain ⟨r2, b⟩ := a3
  obtain ⟨-, p31, p32, p33⟩ := p3
  dsimp only at p31 p32 p33
  subst p31
  refine ⟨r, r1, r2, x1, x2, x3, e1, e2, e3, ?_, ?_⟩
  · rw [p32]
    congr 1
    dsimp only at hr1 hu
    rw [hr1, q1]
    unfold PReq.view Req.fresh PReq.init
    dsimp only
    rw [hu, q2]
    rfl
  · rw [p33, hh, q5]

/-! ### Cases -/

def mem0 : Mem := ⟨[], 0, fun _ => false⟩
/-- The allocation `k` fails. -/
def memFail (k : Nat) : Mem := ⟨[], 0, fun j => j == k⟩

theorem memFail_fit (k : Nat) : Mem.Fit (memFail k) := ⟨fun b h => (by cases h), List.nodup_nil⟩
theorem mem0_fit : Mem.Fit mem0 := ⟨fun b h => (by cases h), List.nodup_nil⟩

def headOf (ls : List Bytes) : HeadInput := ⟨some b!"GET /a?b=c HTTP/1.1", ls, true⟩
def respOf (ls : List Bytes) : RespInput := ⟨⟨some b!"HTTP/1.1 200 OK", ls, true⟩, [.append b!"X-A: b" .replace], fun _ => none⟩
def reqOf (ls : List Bytes) (ops : List MsgOp) (resps : List RespInput) : ReqInput := ⟨headOf ls, fun _ => false, ops, resps⟩

theorem headerText_of (t : Bytes) (h : (headerAlloc t).code ≠ .illegal) : HeaderText t := Classical.byContradiction fun h' => h (qualify_illegal.2 h')

theorem lengthOk_five : LengthOk b!"Content-Length: 5" := by
  intro n v h _
  have h0 : HeaderLine b!"Content-Length: 5" b!"Content-Length" b!"5" := ⟨b!" ", by decide, by decide, by unfold TChar; decide +kernel, by decide, by decide⟩
  obtain ⟨-, rfl⟩ := line_unique h h0
  exact ⟨5, (declares_iff _ _).1 (by decide +kernel)⟩

theorem lengthOk_other (t n v : Bytes) (h0 : HeaderLine t n v) (hn : ciEq n b!"Content-Length" = false) : LengthOk t := by
  intro n' v' h hc
  obtain ⟨rfl, -⟩ := line_unique h h0
  rw [hn] at hc
  cases hc

theorem tame_resp (table : List Bytes) : TameResp table (respOf [b!"Content-Length: 5"]) := by
  refine ⟨.inr (by decide), fun l hl => ?_, fun o ho => ?_, fun h t ht => (by cases ht)⟩
  · rw [List.mem_singleton.1 hl]
    exact lengthOk_five
  · rw [List.mem_singleton.1 ho]
    exact ⟨headerText_of _ (by decide +kernel), lengthOk_other _ b!"X-A" b!"b" ⟨b!" ", by decide, by decide, by unfold TChar; decide +kernel, by decide, by decide⟩ (by decide), by decide⟩

/-- `C97_failures_partial` speaks of a connection with rules and a response, for every allocation that may fail. -/
example (k : Nat) : Tidy (connP [] 3 [reqOf [b!"Host: h", b!"Expect: 100-continue"] [.append b!"X-B: c" .replace, .setPath b!"/z", .setQuery b!"q", .value 0] [respOf [b!"Content-Length: 5"]]]) (memFail k) := by
  refine C97_failures_partial 3 _ _ (memFail_fit k) (fun i hi => ?_) fun i hi o ho => ?_
  · rw [List.mem_singleton.1 hi]
    refine ⟨.inl rfl, fun o ho => ?_, fun r hr => by rw [List.mem_singleton.1 hr]; exact tame_resp []⟩
    simp only [reqOf, List.mem_cons, List.not_mem_nil, or_false] at ho
    rcases ho with rfl | rfl | rfl | rfl
    · exact headerText_of _ (by decide +kernel)
    all_goals trivial
  · rw [List.mem_singleton.1 hi] at ho
    simp only [reqOf, List.mem_cons, List.not_mem_nil, or_false] at ho
    rcases ho with rfl | rfl | rfl | rfl
    · exact show HMode.replace ≠ .append by decide
    all_goals trivial

/-- `C97_released_partial`: headers are combined and parameters changed. -/
example : Tidy (connP [b!"Accept"] 3 [reqOf [b!"Accept: a", b!"Host: h", b!"accept: b"] [.append b!"Host: z" .append, .setParam b!"d" (some b!"e"), .getParam b!"b"] [respOf [b!"Content-Length: 5"]]]) mem0 := by
  refine C97_released_partial [b!"Accept"] 3 _ _ mem0_fit (fun _ => rfl) (by decide) fun i hi => ?_
  rw [List.mem_singleton.1 hi]
  refine ⟨.inr (by decide), fun o ho => ?_, fun r hr => by rw [List.mem_singleton.1 hr]; exact tame_resp _⟩
  simp only [reqOf, List.mem_cons, List.not_mem_nil, or_false] at ho
  rcases ho with rfl | rfl | rfl
  · exact headerText_of _ (by decide +kernel)
  all_goals trivial

/-- How a run ended, and how many blocks are then in use -/
def ended {α : Type} : Out α → Option Nat
  | .ok _ m => some m.live.length
  | _ => none

def isBad {α : Type} : Out α → Bool
  | .bad => true
  | _ => false

def isNull {α : Type} : Out α → Bool
  | .null => true
  | _ => false

/-- `C97_read` and `C97_texts`: heads are read; `C97_value`: after a header was replaced, its value is the new one. -/
example : (match readP [] (headOf [b!"Host: h", b!"X-A: 1"]) PReq.init mem0 with
  | .ok (r, .ok) m => match runOpsP r [.value 1, .append b!"X-A: 22" .replace] m with
    | .ok (r, true) m => match r.headers[1]? with
      | some h => match hdrValueP h m with
        | .ok (_, some v) _ => v == b!"22" && h.val.isNone
        | _ => false
      | none => false
    | _ => false
  | _ => false) = true := by decide +kernel

example : (match parseHttpRequest b!"GET /a?b=c HTTP/1.1" 3 with | .ok rl => (opsLine [.setParam b!"d" (some b!"e")] (Req.fresh b!"GET /a?b=c HTTP/1.1" rl)).request | _ => []) = b!"GET /a?b=c&d=e HTTP/1.1" := by decide +kernel

/-! ### What fails -/

/-- A response whose Content-Length header is not a number: the header is released and then the next one is looked up in it. -/
theorem C97_response_fails : ¬ ∀ (is : List ReqInput) (m : Mem), Mem.Fit m → Plenty m → ∃ u m', connP [] 3 is m = .ok u m' := by
  intro h
  obtain ⟨u, m', h⟩ := h [reqOf [b!"Host: h"] [] [respOf [b!"Content-Length: x"]]] mem0 mem0_fit fun _ => rfl
  have : isBad (connP [] 3 [reqOf [b!"Host: h"] [] [respOf [b!"Content-Length: x"]]] mem0) = true := by decide +kernel
  rw [h] at this
  cases this

/-- Headers are combined and the first line of a request is refused (it is too long, say): the table of combined headers is lost. -/
theorem C97_combine_fails : ¬ ∀ (table : List Bytes) (is : List ReqInput) (m : Mem), Mem.Fit m → Plenty m → (∀ i ∈ is, i.ops = [] ∧ i.resps = []) → Tidy (connP table 3 is) m := by
  intro h
  obtain ⟨u, m', h, hp⟩ := h [b!"Accept"] [⟨⟨none, [], true⟩, fun _ => false, [], []⟩] mem0 mem0_fit (fun _ => rfl) fun i hi => by
    rw [List.mem_singleton.1 hi]
    exact ⟨rfl, rfl⟩
  have : ended (connP [b!"Accept"] 3 [⟨⟨none, [], true⟩, fun _ => false, [], []⟩] mem0) = some 1 := by decide +kernel
  rw [h] at this
  injection this with this
  rw [hp.length_eq] at this
  cases this

/-- Too little memory for the value of an X-Forwarded-For header to which an address is to be added: NULL is read. -/
theorem C97_append_fails : ¬ ∀ (is : List ReqInput) (m : Mem), Mem.Fit m → (∀ i ∈ is, TameReq [] i) → ∃ u m', connP [] 3 is m = .ok u m' := by
  intro h
  obtain ⟨u, m', h⟩ := h [reqOf [b!"X-Forwarded-For: a"] [.append b!"X-Forwarded-For: b" .append] []] (memFail 6) (memFail_fit 6) fun i hi => by
    rw [List.mem_singleton.1 hi]
    refine ⟨.inl rfl, fun o ho => ?_, fun r hr => (by cases hr)⟩
    rw [List.mem_singleton.1 ho]
    exact headerText_of _ (by decide +kernel)
  have : isNull (connP [] 3 [reqOf [b!"X-Forwarded-For: a"] [.append b!"X-Forwarded-For: b" .append] []] (memFail 6)) = true := by decide +kernel
  rw [h] at this
  cases this

/-- Too little memory for a parameter of the query: its value is lost. -/
theorem C97_params_fails : ¬ ∀ (is : List ReqInput) (m : Mem), Mem.Fit m → (∀ i ∈ is, TameReq [] i) → (∀ i ∈ is, ∀ o ∈ i.ops, ∃ n, o = .getParam n) → Tidy (connP [] 3 is) m := by
  intro h
  obtain ⟨u, m', h, hp⟩ := h [reqOf [b!"Host: a"] [.getParam b!"b"] []] (memFail 7) (memFail_fit 7) (fun i hi => by
    rw [List.mem_singleton.1 hi]
    exact ⟨.inl rfl, fun o ho => by rw [List.mem_singleton.1 ho]; trivial, fun r hr => (by cases hr)⟩) fun i hi o ho => by
    rw [List.mem_singleton.1 hi] at ho
    exact ⟨_, List.mem_singleton.1 ho⟩
  have : ended (connP [] 3 [reqOf [b!"Host: a"] [.getParam b!"b"] []] (memFail 7)) = some 1 := by decide +kernel
  rw [h] at this
  injection this with this
  rw [hp.length_eq] at this
  cases this

/-- Too little memory while headers are combined: the header is lost. -/
theorem C97_composed_fails : ¬ ∀ (table : List Bytes) (is : List ReqInput) (m : Mem), Mem.Fit m → (∀ i ∈ is, TameReq table i ∧ i.ops = [] ∧ i.resps = []) → Tidy (connP table 3 is) m := by
  intro h
  obtain ⟨u, m', h, hp⟩ := h [b!"Accept"] [reqOf [b!"Accept: a", b!"Accept: b"] [] []] (memFail 4) (memFail_fit 4) fun i hi => by
    rw [List.mem_singleton.1 hi]
    exact ⟨⟨.inr (by decide), fun o ho => (by cases ho), fun r hr => (by cases hr)⟩, rfl, rfl⟩
  have : ended (connP [b!"Accept"] 3 [reqOf [b!"Accept: a", b!"Accept: b"] [] []] (memFail 4)) = some 2 := by decide +kernel
  rw [h] at this
  injection this with this
  rw [hp.length_eq] at this
  cases this

end Pound.Props
