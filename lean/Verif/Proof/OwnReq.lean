import Verif.Proof.Own

namespace Pound

/-! ### Parameters -/

def PParam.own (p : PParam) : Rsrc := fun x => one p.blk x + one p.name.blk x + strOwn p.val x

def paramsOwn : List PParam → Rsrc
  | [], _ => 0
  | p :: t, x => p.own x + paramsOwn t x

theorem pown_at (p : PParam) (x : Nat) : p.own x = one p.blk x + one p.name.blk x + strOwn p.val x := rfl
theorem paramsOwn_nil (x : Nat) : paramsOwn [] x = 0 := rfl
theorem paramsOwn_cons (p : PParam) (t : List PParam) (x : Nat) : paramsOwn (p :: t) x = p.own x + paramsOwn t x := rfl

theorem paramsOwn_append (s t : List PParam) (x : Nat) : paramsOwn (s ++ t) x = paramsOwn s x + paramsOwn t x := by
  induction s with
  | nil => exact (Nat.zero_add _).symm
  | cons h s ih =>
    show h.own x + paramsOwn (s ++ t) x = _
    rw [ih, paramsOwn_cons]
    omega

def reqOwn (r : PReq) : Rsrc := fun x => strOwn r.request x + strOwn r.orig x + strOwn r.url x + strOwn r.path x + strOwn r.query x + paramsOwn r.params x + hdrsOwn r.headers x

theorem reqOwn_at (r : PReq) (x : Nat) :
    reqOwn r x = strOwn r.request x + strOwn r.orig x + strOwn r.url x + strOwn r.path x + strOwn r.query x + paramsOwn r.params x + hdrsOwn r.headers x := rfl

/-- Sums of resources of requests -/
macro "rq" : tactic => `(tactic| (intro x; (try simp only [zr_at, optOwn_none, optOwn_some, strOwn_none, strOwn_some, psbInit_base, own_at, phOwn_none, phOwn_some, hdrsOwn_nil, hdrsOwn_cons, hdrsOwn_append,
  pown_at, paramsOwn_nil, paramsOwn_cons, paramsOwn_append, reqOwn_at]) <;> omega))

theorem paramsFree_h (ps : List PParam) : Hoare nf (paramsOwn ps) (paramsFreeP ps) (fun _ => zr) (fun _ => True) := by
  induction ps with
  | nil => exact Hoare.pure trivial fun _ => rfl
  | cons p t ih =>
    refine Hoare.bind (use_h p.blk) (fun x => one p.name.blk x + strOwn p.val x + paramsOwn t x) (by rq) fun _ _ => ?_
    refine Hoare.bind (free_h (some p.name.blk)) (fun x => one p.blk x + strOwn p.val x + paramsOwn t x) (by rq) fun _ _ => ?_
    refine Hoare.bind (freeS_h p.val) (fun x => one p.blk x + paramsOwn t x) (by rq) fun _ _ => ?_
    refine Hoare.bind (free_h (some p.blk)) (fun x => paramsOwn t x) (by rq) fun _ _ => ?_
    exact Hoare.pre ih (by rq)

theorem useParams_h (ps : List PParam) : Hoare nf (paramsOwn ps) (useParamsP ps) (fun _ => paramsOwn ps) (fun _ => True) := by
  induction ps with
  | nil => exact Hoare.pure trivial fun _ => rfl
  | cons p t ih =>
    refine Hoare.bind (use_h p.blk) (fun x => one p.name.blk x + strOwn p.val x + paramsOwn t x) (by rq) fun _ _ => ?_
    refine Hoare.bind (use_h p.name.blk) (fun x => one p.blk x + strOwn p.val x + paramsOwn t x) (by rq) fun _ _ => ?_
    exact Hoare.frame ih p.own (by rq) (fun _ _ => by rq) fun _ h => h

def PParam.view (p : PParam) : Bytes × Option Bytes := (p.name.txt, p.val.map (·.txt))

/-! ### The request line -/

/-- The request as in `Req` -/
def PReq.view (r : PReq) : Req :=
  ⟨(r.request.map (·.txt)).getD [], r.orig.map (·.txt), r.meth, r.version, (r.url.map (·.txt)).getD [], (r.path.map (·.txt)).getD [], r.query.map (·.txt), r.params.map PParam.view, r.split⟩

/-- A request whose line was parsed -/
structure RInv (r : PReq) : Prop where
  request : r.request.isSome = true
  url : r.url.isSome = true
  path : r.split = false → r.path.isSome = true

/-- What an operation on the request line does: it keeps the headers, and does what `f` does if no allocation fails. -/
def LineOp (nf : Bool) (r : PReq) (m : HM (PReq × Bool)) (f : Req → Req) : Prop :=
  Hoare nf (reqOwn r) m (fun x => reqOwn x.1) (fun x => RInv x.1 ∧ x.1.headers = r.headers ∧ (nf = true → x.2 = true ∧ x.1.view = f r.view))

theorem nf_of {nf : Bool} {s : Option PStr} (h : nf = true → s.isSome = true) (hs : s = none) : nf = false := by
  cases nf with
  | false => rfl
  | true =>
    rw [hs] at h
    cases h rfl

theorem readO_h {s : Option PStr} {u : PStr} (h : s = some u) : Hoare nf (strOwn s) (readS s) (fun _ => strOwn s) (fun a => a = u.txt) := by
  subst h
  exact readS_h u

theorem split_h {r : PReq} (hi : RInv r) : Hoare nf (reqOwn r) (splitP r) (fun x => reqOwn x.1)
    (fun x => RInv x.1 ∧ x.1.headers = r.headers ∧ (x.2 = true → x.1.split = false) ∧ (nf = true → x.2 = true ∧ x.1.view = r.view.doSplit)) := by
  unfold splitP
  split
  case isFalse h =>
    have h' : r.split = false := by simpa using h
    refine Hoare.pure ⟨hi, rfl, fun _ => h', fun _ => ⟨rfl, ?_⟩⟩ fun _ => rfl
    unfold Req.doSplit
    rw [if_neg (show ¬ r.view.split = true from h)]
  case isTrue h =>
    obtain ⟨u, hu⟩ := Option.isSome_iff_exists.1 hi.url
    refine Hoare.bind (readO_h hu) (fun x => strOwn r.request x + strOwn r.orig x + strOwn r.path x + strOwn r.query x + paramsOwn r.params x + hdrsOwn r.headers x) (by rq) fun url hurl => ?_
    subst hurl
    have key : ∀ s : Bytes × Bytes, (r.view.doSplit = { r.view with path := s.1, query := if s.2.length > 0 then some s.2 else none, params := [], split := false }) →
        Hoare nf (fun x => strOwn r.url x + (strOwn r.request x + strOwn r.orig x + strOwn r.path x + strOwn r.query x + paramsOwn r.params x + hdrsOwn r.headers x))
        (do
          freeS r.path
          let p ← dupS s.1
          match p with
          | none => pure ({ r with path := none }, false)
          | some p => do
            freeS r.query
            paramsFreeP r.params
            if s.2.length > 0 then do
              let q ← dupS s.2
              match q with
              | none => pure ({ r with path := some p, query := none, params := [] }, false)
              | some q => pure ({ r with path := some p, query := some q, params := [], split := false }, true)
            else pure ({ r with path := some p, query := none, params := [], split := false }, true))
        (fun x => reqOwn x.1)
        (fun x => RInv x.1 ∧ x.1.headers = r.headers ∧ (x.2 = true → x.1.split = false) ∧ (nf = true → x.2 = true ∧ x.1.view = r.view.doSplit)) := by
      intro s hs
      refine Hoare.bind (freeS_h r.path) (fun x => strOwn r.url x + (strOwn r.request x + strOwn r.orig x + strOwn r.query x + paramsOwn r.params x + hdrsOwn r.headers x)) (by rq) fun _ _ => ?_
      refine Hoare.bind (dupS_h s.1) (fun x => strOwn r.url x + (strOwn r.request x + strOwn r.orig x + strOwn r.query x + paramsOwn r.params x + hdrsOwn r.headers x)) (by rq) fun p hp => ?_
      cases p with
      | none =>
        refine Hoare.pure ⟨⟨hi.request, hi.url, fun hc => ?_⟩, rfl, fun hc => (by cases hc), fun hn => by cases hp.2 hn⟩ (by rq)
        exact absurd (show r.split = false from hc) (by rw [h]; decide)
      | some p =>
        dsimp only
        refine Hoare.bind (freeS_h r.query) (fun x => strOwn r.url x + (strOwn r.request x + strOwn r.orig x + one p.blk x + paramsOwn r.params x + hdrsOwn r.headers x)) (by rq) fun _ _ => ?_
        refine Hoare.bind (paramsFree_h r.params) (fun x => strOwn r.url x + (strOwn r.request x + strOwn r.orig x + one p.blk x + hdrsOwn r.headers x)) (by rq) fun _ _ => ?_
        split
        · rename_i hq
          refine Hoare.bind (dupS_h s.2) (fun x => strOwn r.url x + (strOwn r.request x + strOwn r.orig x + one p.blk x + hdrsOwn r.headers x)) (by rq) fun q hq' => ?_
          cases q with
          | none => exact Hoare.pure ⟨⟨hi.request, hi.url, fun _ => rfl⟩, rfl, fun hc => (by cases hc), fun hn => by cases hq'.2 hn⟩ (by rq)
          | some q =>
            refine Hoare.pure ⟨⟨hi.request, hi.url, fun _ => rfl⟩, rfl, fun _ => rfl, fun hn => ⟨rfl, ?_⟩⟩ (by rq)
            rw [hs, if_pos hq, ← hp.1 p rfl, ← hq'.1 q rfl]
            rfl
        · rename_i hq
          refine Hoare.pure ⟨⟨hi.request, hi.url, fun _ => rfl⟩, rfl, fun _ => rfl, fun hn => ⟨rfl, ?_⟩⟩ (by rq)
          rw [hs, if_neg hq, ← hp.1 p rfl]
          rfl
    have hvu : r.view.url = u.txt := by
      show (r.url.map (·.txt)).getD [] = _
      rw [hu]
      rfl
    refine key _ ?_
    unfold Req.doSplit
    rw [if_pos (show r.view.split = true from h)]
    dsimp only
    rw [hvu]
    cases findQmark u.txt u.txt.length <;> rfl

theorem rebuildLine_h {r : PReq} (hi : RInv r) : LineOp nf r (rebuildLineP r) Req.rebuildLine := by
  obtain ⟨u, hu⟩ := Option.isSome_iff_exists.1 hi.url
  obtain ⟨q, hq⟩ := Option.isSome_iff_exists.1 hi.request
  unfold LineOp rebuildLineP
  refine Hoare.bind (readO_h hu) (fun x => strOwn r.request x + strOwn r.orig x + strOwn r.path x + strOwn r.query x + paramsOwn r.params x + hdrsOwn r.headers x) (by rq) fun url hurl => ?_
  subst hurl
  refine Hoare.bind (sbText_h _) (reqOwn r) (by rq) fun s hs => ?_
  cases s with
  | none => exact Hoare.pure ⟨hi, rfl, fun hn => by obtain ⟨s', h, _⟩ := hs hn; cases h⟩ (by rq)
  | some s =>
    have hs : nf = true → s.txt = (methodName r.view.meth).getD [] ++ b!" " ++ r.view.url ++ b!" " ++ b!"HTTP/1." ++ [UInt8.ofNat (r.view.version + 48)] := by
      intro hn
      obtain ⟨s', h, h'⟩ := hs hn
      cases h
      rw [h']
      have hvu : r.view.url = u.txt := by
        show (r.url.map (·.txt)).getD [] = _
        rw [hu]
        rfl
      rw [hvu]
      show _ ++ (_ ++ (_ ++ (_ ++ (_ ++ (_ ++ []))))) = _
      simp only [List.append_nil, List.append_assoc]
      rfl
    dsimp only
    cases ho : r.orig with
    | some o =>
      dsimp only
      refine Hoare.bind (freeS_h r.request) (fun x => one s.blk x + (strOwn r.url x + strOwn r.orig x + strOwn r.path x + strOwn r.query x + paramsOwn r.params x + hdrsOwn r.headers x))
        (by rq) fun _ _ => ?_
      refine Hoare.pure ⟨⟨rfl, hi.url, hi.path⟩, rfl, fun hn => ⟨rfl, ?_⟩⟩ (fun x => by simp only [reqOwn_at, ho, strOwn_some, zr_at]; omega)
      unfold Req.rebuildLine
      rw [← hs hn]
      unfold PReq.view
      simp only [ho]
      rfl
    | none =>
      refine Hoare.pure ⟨⟨rfl, hi.url, hi.path⟩, rfl, fun hn => ⟨rfl, ?_⟩⟩ (fun x => by simp only [reqOwn_at, ho, strOwn_some, strOwn_none]; omega)
      unfold Req.rebuildLine
      rw [← hs hn]
      unfold PReq.view
      simp only [ho, hq]
      rfl

theorem LineOp.mono {r r' : PReq} {m : HM (PReq × Bool)} {f g : Req → Req} {A : Rsrc} (h : LineOp nf r m f) (hA : ∀ x, A x = reqOwn r x) (hh : r.headers = r'.headers) (hv : nf = true → f r.view = g r'.view) :
    Hoare nf A m (fun x => reqOwn x.1) (fun x => RInv x.1 ∧ x.1.headers = r'.headers ∧ (nf = true → x.2 = true ∧ x.1.view = g r'.view)) :=
  Hoare.post (Hoare.pre h hA) (fun _ _ _ => rfl) fun _ hx => ⟨hx.1, by rw [hx.2.1, hh], fun hn => ⟨(hx.2.2 hn).1, by rw [(hx.2.2 hn).2, hv hn]⟩⟩

theorem optPieces_h (sep : Bytes) (q : Option PStr) : Hoare nf (strOwn q) (optPiecesP sep q) (fun _ => strOwn q) (fun ds => ds.flatten = match q.map (·.txt) with | some q => sep ++ q | none => []) := by
  cases q with
  | none => exact Hoare.pure rfl fun _ => rfl
  | some q => exact Hoare.bind (use_h q.blk) zr (by rq) fun _ _ => Hoare.pure (by simp) (by rq)

theorem rebuildUrl_h {r : PReq} (hi : RInv r) (hp : r.path.isSome = true) : LineOp nf r (rebuildUrlP r) Req.rebuildUrl := by
  obtain ⟨p, hp⟩ := Option.isSome_iff_exists.1 hp
  refine Hoare.bind (readO_h hp) (fun x => strOwn r.request x + strOwn r.orig x + strOwn r.url x + strOwn r.query x + paramsOwn r.params x + hdrsOwn r.headers x) (by rq) fun path hpath => ?_
  subst hpath
  refine Hoare.bind (optPieces_h _ r.query) (fun x => strOwn r.request x + strOwn r.orig x + strOwn r.url x + strOwn r.path x + paramsOwn r.params x + hdrsOwn r.headers x) (by rq) fun ds hds => ?_
  refine Hoare.bind (sbText_h _) (reqOwn r) (by rq) fun s hs => ?_
  cases s with
  | none => exact Hoare.pure ⟨hi, rfl, fun hn => by obtain ⟨s', h, _⟩ := hs hn; cases h⟩ (by rq)
  | some s =>
    dsimp only
    refine Hoare.bind (freeS_h r.url) (fun x => one s.blk x + (strOwn r.request x + strOwn r.orig x + strOwn r.path x + strOwn r.query x + paramsOwn r.params x + hdrsOwn r.headers x)) (by rq) fun _ _ => ?_
    refine LineOp.mono (rebuildLine_h (r := { r with url := some s }) ⟨hi.request, rfl, hi.path⟩) (by rq) rfl fun hn => ?_
    obtain ⟨s', h, h'⟩ := hs hn
    cases h
    unfold Req.rebuildUrl
    dsimp only
    congr 1
    unfold PReq.view
    simp only [Option.map_some, Option.getD_some, h', hp, List.flatten_cons, hds]
    cases r.query <;> rfl

theorem renderPieces_h (more : Bool) (ps : List PParam) : Hoare nf (paramsOwn ps) (renderPiecesP more ps) (fun _ => paramsOwn ps) (fun ds => ds.flatten = renderLoop more (ps.map PParam.view)) := by
  induction ps generalizing more with
  | nil => exact Hoare.pure rfl fun _ => rfl
  | cons p t ih =>
    refine Hoare.bind (use_h p.blk) (fun x => one p.name.blk x + strOwn p.val x + paramsOwn t x) (by rq) fun _ _ => ?_
    refine Hoare.bind (use_h p.name.blk) (fun x => one p.blk x + strOwn p.val x + paramsOwn t x) (by rq) fun _ _ => ?_
    refine Hoare.bind (optPieces_h _ p.val) (fun x => one p.blk x + one p.name.blk x + paramsOwn t x) (by rq) fun v hv => ?_
    refine Hoare.bind (ih true) p.own (by rq) fun rest hr => Hoare.pure ?_ (by rq)
    rw [List.map_cons]
    rw [show p.view = (p.name.txt, p.val.map (·.txt)) from rfl]
    unfold renderLoop
    simp only [List.flatten_append, hv, hr]
    cases more <;> cases p.val <;> simp

theorem rebuildQuery_h {r : PReq} (hi : RInv r) (hp : r.path.isSome = true) : LineOp nf r (rebuildQueryP r) Req.rebuildQuery := by
  refine Hoare.bind (renderPieces_h false r.params) (fun x => strOwn r.request x + strOwn r.orig x + strOwn r.url x + strOwn r.path x + strOwn r.query x + hdrsOwn r.headers x) (by rq) fun ds hds => ?_
  refine Hoare.bind (sbText_h _) (reqOwn r) (by rq) fun s hs => ?_
  cases s with
  | none => exact Hoare.pure ⟨hi, rfl, fun hn => by obtain ⟨s', h, _⟩ := hs hn; cases h⟩ (by rq)
  | some s =>
    dsimp only
    refine Hoare.bind (freeS_h r.query) (fun x => one s.blk x + (strOwn r.request x + strOwn r.orig x + strOwn r.url x + strOwn r.path x + paramsOwn r.params x + hdrsOwn r.headers x)) (by rq) fun _ _ => ?_
    refine LineOp.mono (rebuildUrl_h (r := { r with query := some s }) ⟨hi.request, hi.url, hi.path⟩ hp) (by rq) rfl fun hn => ?_
    obtain ⟨s', h, h'⟩ := hs hn
    cases h
    unfold Req.rebuildQuery
    congr 1
    unfold PReq.view
    simp only [Option.map_some, h', hds]

theorem setUrl_h {r : PReq} (hi : RInv r) (url : Bytes) : LineOp nf r (setUrlP r url) (·.setUrl url) := by
  refine Hoare.bind (dupS_h url) (reqOwn r) (by rq) fun s hs => ?_
  cases s with
  | none => exact Hoare.pure ⟨hi, rfl, fun hn => by cases hs.2 hn⟩ (by rq)
  | some s =>
    dsimp only
    refine Hoare.bind (freeS_h r.url) (fun x => one s.blk x + (strOwn r.request x + strOwn r.orig x + strOwn r.path x + strOwn r.query x + paramsOwn r.params x + hdrsOwn r.headers x)) (by rq) fun _ _ => ?_
    refine LineOp.mono (r' := r) (g := (·.setUrl url)) (rebuildLine_h (r := { r with url := some s, split := true }) ⟨hi.request, rfl, fun h => (by cases h)⟩) (by rq) rfl fun hn => ?_
    show Req.rebuildLine _ = Req.rebuildLine _
    congr 1
    unfold PReq.view
    simp only [Option.map_some, Option.getD_some, hs.1 s rfl]

theorem splitOp_h {r : PReq} (hi : RInv r) : LineOp nf r (splitP r) Req.doSplit :=
  Hoare.post (split_h hi) (fun _ _ _ => rfl) fun _ h => ⟨h.1, h.2.1, h.2.2.2⟩

theorem setPath_h {r : PReq} (hi : RInv r) (path : Bytes) : LineOp nf r (setPathP r path) (·.setPath path) := by
  refine Hoare.bind (split_h hi) zr (by rq) fun y hy => ?_
  obtain ⟨q1, q2, q3, q4⟩ := hy
  split
  · rename_i h
    exact Hoare.pure ⟨q1, q2, fun hn => by rw [(q4 hn).1] at h; cases h⟩ (by rq)
  · rename_i h
    have hs := q3 (by simpa using h)
    refine Hoare.bind (dupS_h path) (reqOwn y.1) (by rq) fun s hs => ?_
    cases s with
    | none => exact Hoare.pure ⟨q1, q2, fun hn => by cases hs.2 hn⟩ (by rq)
    | some s =>
      dsimp only
      refine Hoare.bind (freeS_h y.1.path) (fun x => one s.blk x + (strOwn y.1.request x + strOwn y.1.orig x + strOwn y.1.url x + strOwn y.1.query x + paramsOwn y.1.params x + hdrsOwn y.1.headers x)) (by rq) fun _ _ => ?_
      refine LineOp.mono (r' := r) (g := (·.setPath path)) (rebuildUrl_h (r := { y.1 with path := some s }) ⟨q1.request, q1.url, fun _ => rfl⟩ rfl) (by rq) q2 fun hn => ?_
      show Req.rebuildUrl _ = Req.rebuildUrl _
      congr 1
      rw [← (q4 hn).2]
      unfold PReq.view
      simp only [Option.map_some, Option.getD_some, hs.1 s rfl]

theorem setQuery_h {r : PReq} (hi : RInv r) (raw : Bytes) : LineOp nf r (setQueryP r raw) (·.setQuery raw) := by
  refine Hoare.bind (split_h hi) zr (by rq) fun y hy => ?_
  obtain ⟨q1, q2, q3, q4⟩ := hy
  split
  · rename_i h
    exact Hoare.pure ⟨q1, q2, fun hn => by rw [(q4 hn).1] at h; cases h⟩ (by rq)
  · rename_i h
    have hsp := q3 (by simpa using h)
    refine Hoare.bind (dupS_h raw) (reqOwn y.1) (by rq) fun s hs => ?_
    cases s with
    | none => exact Hoare.pure ⟨q1, q2, fun hn => by cases hs.2 hn⟩ (by rq)
    | some s =>
      dsimp only
      refine Hoare.bind (freeS_h y.1.query) (fun x => one s.blk x + (strOwn y.1.request x + strOwn y.1.orig x + strOwn y.1.url x + strOwn y.1.path x + paramsOwn y.1.params x + hdrsOwn y.1.headers x)) (by rq) fun _ _ => ?_
      refine Hoare.bind (paramsFree_h y.1.params) (fun x => one s.blk x + (strOwn y.1.request x + strOwn y.1.orig x + strOwn y.1.url x + strOwn y.1.path x + hdrsOwn y.1.headers x)) (by rq) fun _ _ => ?_
      refine LineOp.mono (r' := r) (g := (·.setQuery raw)) (rebuildUrl_h (r := { y.1 with query := some s, params := [] }) ⟨q1.request, q1.url, q1.path⟩ (q1.path hsp)) (by rq) q2 fun hn => ?_
      show Req.rebuildUrl _ = Req.rebuildUrl _
      congr 1
      rw [← (q4 hn).2]
      unfold PReq.view
      simp only [Option.map_some, List.map_nil, hs.1 s rfl]

/-! ### Parameters: only if no allocation fails -/

theorem dupOpt_h (v : Option Bytes) : Hoare true zr (dupOptP v) (fun r => strOwn r.1) (fun r => r.2 = true ∧ r.1.map (·.txt) = v) := by
  cases v with
  | none => exact Hoare.pure ⟨rfl, rfl⟩ fun _ => rfl
  | some v =>
    refine Hoare.bind (dupS_h v) zr (by rq) fun s hs => Hoare.pure ⟨hs.2 rfl, ?_⟩ (by rq)
    obtain ⟨s', h⟩ := Option.isSome_iff_exists.1 (hs.2 rfl)
    subst h
    rw [Option.map_some, hs.1 s' rfl]

theorem parseParams_h (l : List (Bytes × Option Bytes)) (acc : List PParam) : Hoare true (paramsOwn acc) (parseParamsP acc l) (fun r => paramsOwn r.1) (fun r => r.2 = true ∧ r.1.map PParam.view = acc.map PParam.view ++ l) := by
  induction l generalizing acc with
  | nil => exact Hoare.pure ⟨rfl, (List.append_nil _).symm⟩ fun _ => rfl
  | cons q t ih =>
    obtain ⟨n, v⟩ := q
    refine Hoare.bind (dupOpt_h v) (paramsOwn acc) (by rq) fun v' hv => ?_
    rw [hv.1]
    rw [show (!true) = false from rfl, if_neg (by decide)]
    refine Hoare.bind alloc_h (fun x => strOwn v'.1 x + paramsOwn acc x) (by rq) fun b hb => ?_
    obtain ⟨b, rfl⟩ := hb rfl
    dsimp only
    refine Hoare.bind (dupS_h n) (fun x => one b x + strOwn v'.1 x + paramsOwn acc x) (by rq) fun s hs => ?_
    obtain ⟨s, rfl⟩ := Option.isSome_iff_exists.1 (hs.2 rfl)
    dsimp only
    refine Hoare.post (Hoare.pre (ih (acc ++ [⟨b, s, v'.1⟩])) (by rq)) (fun _ _ _ => rfl) fun r hr => ⟨hr.1, ?_⟩
    rw [hr.2, List.map_append, List.append_assoc]
    congr 1
    show PParam.view _ :: t = _
    unfold PParam.view
    rw [hs.1 s rfl]
    dsimp only
    rw [hv.2]

theorem loadParams_h {r : PReq} (hi : RInv r) : Hoare true (reqOwn r) (loadParamsP r) (fun x => reqOwn x.1) (fun x => RInv x.1 ∧ x.1.headers = r.headers ∧ x.1.split = false ∧ x.2 = true ∧ x.1.view = r.view.loadParams) := by
  refine Hoare.bind (split_h hi) zr (by rq) fun y hy => ?_
  obtain ⟨q1, q2, q3, q4⟩ := hy
  obtain ⟨q4, q5⟩ := q4 rfl
  rw [q4]
  dsimp only
  unfold Req.loadParams
  rw [← q5]
  dsimp only
  have he : y.1.view.params.isEmpty = y.1.params.isEmpty := by
    show (y.1.params.map _).isEmpty = _
    cases y.1.params <;> rfl
  rw [he]
  have hsp := q3 q4
  rw [show (!true) = false from rfl, if_neg (by decide)]
  split
  · rename_i hpe
    cases hq : y.1.query with
    | none =>
      refine Hoare.pure ⟨q1, q2, hsp, rfl, ?_⟩ (by rq)
      rw [show y.1.view.query = none by show y.1.query.map _ = _; rw [hq]; rfl]
    | some q =>
      dsimp only
      have hpn : y.1.params = [] := List.isEmpty_iff.1 hpe
      refine Hoare.bind (use_h q.blk) (fun x => strOwn y.1.request x + strOwn y.1.orig x + strOwn y.1.url x + strOwn y.1.path x + hdrsOwn y.1.headers x)
        (fun x => by rw [reqOwn_at, hq, hpn, strOwn_some, paramsOwn_nil, zr_at]; omega) fun _ _ => ?_
      refine Hoare.bind (parseParams_h _ []) (fun x => strOwn y.1.request x + strOwn y.1.orig x + strOwn y.1.url x + strOwn y.1.path x + strOwn y.1.query x + hdrsOwn y.1.headers x)
        (fun x => by rw [hq, strOwn_some, paramsOwn_nil]; omega) fun ps hps => ?_
      refine Hoare.pure ⟨⟨q1.request, q1.url, q1.path⟩, q2, hsp, hps.1, ?_⟩ (fun x => by simp only [reqOwn_at, hq]; omega)
      rw [show y.1.view.query = some q.txt by show y.1.query.map _ = _; rw [hq]; rfl]
      dsimp only
      rw [show y.1.view.params = [] by show y.1.params.map _ = _; rw [hpn]; rfl]
      unfold PReq.view
      simp only [hps.2, hq]
      rfl
  · exact Hoare.pure ⟨q1, q2, hsp, rfl, rfl⟩ (by rq)

theorem removeParam_h (name : Bytes) (ps : List PParam) : Hoare nf (paramsOwn ps) (removeParamP name ps) paramsOwn (fun r => r.map PParam.view = removeFirst name (ps.map PParam.view)) := by
  induction ps with
  | nil => exact Hoare.pure rfl fun _ => rfl
  | cons p t ih =>
    unfold removeParamP removeFirst
    rw [List.map_cons]
    dsimp only
    rw [show (p.view).1 = p.name.txt from rfl]
    split
    · refine Hoare.bind (free_h (some p.name.blk)) (fun x => one p.blk x + strOwn p.val x + paramsOwn t x) (by rq) fun _ _ => ?_
      refine Hoare.bind (freeS_h p.val) (fun x => one p.blk x + paramsOwn t x) (by rq) fun _ _ => ?_
      exact Hoare.bind (free_h (some p.blk)) (paramsOwn t) (by rq) fun _ _ => Hoare.pure rfl (by rq)
    · refine Hoare.bind ih p.own (by rq) fun r hr => Hoare.pure ?_ (by rq)
      rw [List.map_cons, hr]

theorem replaceParam_h (name : Bytes) (s : PStr) (ps : List PParam) (ha : ps.any (fun p => p.name.txt == name) = true) :
    Hoare nf (fun x => paramsOwn ps x + one s.blk x) (replaceParamP name s ps) paramsOwn (fun r => r.map PParam.view = replaceFirst name s.txt (ps.map PParam.view)) := by
  induction ps with
  | nil => cases ha
  | cons p t ih =>
    unfold replaceParamP replaceFirst
    rw [List.map_cons]
    dsimp only
    rw [show (p.view).1 = p.name.txt from rfl]
    split
    · exact Hoare.bind (freeS_h p.val) (fun x => one p.blk x + one p.name.blk x + paramsOwn t x + one s.blk x) (by rq) fun _ _ => Hoare.pure rfl (by rq)
    · rename_i hne
      refine Hoare.bind (ih ?_) p.own (by rq) fun r hr => Hoare.pure ?_ (by rq)
      · rw [List.any_cons] at ha
        simpa [hne] using ha
      · rw [List.map_cons, hr]

theorem find_any (name : Bytes) (ps : List PParam) : ((ps.map PParam.view).find? (fun p => p.1 == name)).isSome = ps.any (fun p => p.name.txt == name) := by
  induction ps with
  | nil => rfl
  | cons p t ih =>
    rw [List.map_cons, List.find?_cons, List.any_cons, show (p.view).1 = p.name.txt from rfl]
    cases p.name.txt == name with
    | true => rfl
    | false => exact ih

theorem setParam_h {r : PReq} (hi : RInv r) (name : Bytes) (v : Option Bytes) : LineOp true r (setParamP r name v) (·.setParam name v) := by
  refine Hoare.bind (loadParams_h hi) zr (by rq) fun y hy => ?_
  obtain ⟨q1, q2, q3, q4, q5⟩ := hy
  rw [q4]
  rw [show (!true) = false from rfl, if_neg (by decide)]
  refine Hoare.bind (useParams_h y.1.params) (fun x => strOwn y.1.request x + strOwn y.1.orig x + strOwn y.1.url x + strOwn y.1.path x + strOwn y.1.query x + hdrsOwn y.1.headers x) (by rq) fun _ _ => ?_
  unfold Req.setParam Req.getParam
  dsimp only
  rw [← q5]
  have hf := find_any name y.1.params
  rw [show y.1.params.map PParam.view = y.1.view.params from rfl] at hf
  have hrb := fun (ps : List PParam) => rebuildQuery_h (nf := true) (r := { y.1 with params := ps }) ⟨q1.request, q1.url, q1.path⟩ (q1.path q3)
  cases ha : y.1.params.any (fun p => p.name.txt == name) with
  | false =>
    rw [ha] at hf
    cases hfd : List.find? (fun p => p.1 == name) y.1.view.params with
    | some z => rw [hfd] at hf; cases hf
    | none =>
      cases v with
      | none => exact Hoare.pure ⟨q1, q2, fun _ => ⟨rfl, rfl⟩⟩ (by rq)
      | some v =>
        dsimp only
        refine Hoare.bind (dupS_h v) (reqOwn y.1) (by rq) fun s hs => ?_
        obtain ⟨s, rfl⟩ := Option.isSome_iff_exists.1 (hs.2 rfl)
        dsimp only
        refine Hoare.bind alloc_h (fun x => one s.blk x + reqOwn y.1 x) (by rq) fun b hb => ?_
        obtain ⟨b, rfl⟩ := hb rfl
        dsimp only
        refine Hoare.bind (dupS_h name) (fun x => one b x + one s.blk x + reqOwn y.1 x) (by rq) fun n hn => ?_
        obtain ⟨n, rfl⟩ := Option.isSome_iff_exists.1 (hn.2 rfl)
        dsimp only
        refine Hoare.post (Hoare.pre (hrb _) (by rq)) (fun _ _ _ => rfl) fun z hz => ⟨hz.1, by rw [hz.2.1]; exact q2, fun _ => ⟨(hz.2.2 rfl).1, ?_⟩⟩
        rw [(hz.2.2 rfl).2]
        show Req.rebuildQuery _ = Req.rebuildQuery _
        congr 1
        unfold PReq.view
        simp only [List.map_append, List.map_cons, List.map_nil, PParam.view, hn.1 n rfl, hs.1 s rfl, Option.map_some]
  | true =>
    rw [ha] at hf
    cases hfd : List.find? (fun p => p.1 == name) y.1.view.params with
    | none => rw [hfd] at hf; cases hf
    | some z =>
      cases v with
      | none =>
        dsimp only
        refine Hoare.bind (removeParam_h name y.1.params) (fun x => strOwn y.1.request x + strOwn y.1.orig x + strOwn y.1.url x + strOwn y.1.path x + strOwn y.1.query x + hdrsOwn y.1.headers x) (by rq) fun ps hps => ?_
        refine Hoare.post (Hoare.pre (hrb ps) (by rq)) (fun _ _ _ => rfl) fun z hz => ⟨hz.1, by rw [hz.2.1]; exact q2, fun _ => ⟨(hz.2.2 rfl).1, ?_⟩⟩
        rw [(hz.2.2 rfl).2]
        show Req.rebuildQuery _ = Req.rebuildQuery _
        congr 1
        unfold PReq.view
        simp only [hps]
      | some v =>
        dsimp only
        refine Hoare.bind (dupS_h v) (reqOwn y.1) (by rq) fun s hs => ?_
        obtain ⟨s, rfl⟩ := Option.isSome_iff_exists.1 (hs.2 rfl)
        dsimp only
        refine Hoare.bind (replaceParam_h name s y.1.params ha) (fun x => strOwn y.1.request x + strOwn y.1.orig x + strOwn y.1.url x + strOwn y.1.path x + strOwn y.1.query x + hdrsOwn y.1.headers x) (by rq) fun ps hps => ?_
        refine Hoare.post (Hoare.pre (hrb ps) (by rq)) (fun _ _ _ => rfl) fun z hz => ⟨hz.1, by rw [hz.2.1]; exact q2, fun _ => ⟨(hz.2.2 rfl).1, ?_⟩⟩
        rw [(hz.2.2 rfl).2]
        show Req.rebuildQuery _ = Req.rebuildQuery _
        congr 1
        unfold PReq.view
        simp only [hps, hs.1 s rfl]

/-! ### Release and parsing -/

theorem reqFree_h (r : PReq) : Hoare nf (reqOwn r) (reqFreeP r) (fun _ => zr) (fun q => q = PReq.init) := by
  refine Hoare.bind (freeS_h r.request) (fun x => strOwn r.orig x + strOwn r.url x + strOwn r.path x + strOwn r.query x + paramsOwn r.params x + hdrsOwn r.headers x) (by rq) fun _ _ => ?_
  refine Hoare.bind (listFree_h r.headers) (fun x => strOwn r.orig x + strOwn r.url x + strOwn r.path x + strOwn r.query x + paramsOwn r.params x) (by rq) fun _ _ => ?_
  refine Hoare.bind (freeS_h r.url) (fun x => strOwn r.orig x + strOwn r.path x + strOwn r.query x + paramsOwn r.params x) (by rq) fun _ _ => ?_
  refine Hoare.bind (freeS_h r.path) (fun x => strOwn r.orig x + strOwn r.query x + paramsOwn r.params x) (by rq) fun _ _ => ?_
  refine Hoare.bind (freeS_h r.query) (fun x => strOwn r.orig x + paramsOwn r.params x) (by rq) fun _ _ => ?_
  refine Hoare.bind (paramsFree_h r.params) (fun x => strOwn r.orig x) (by rq) fun _ _ => ?_
  exact Hoare.bind (freeS_h r.orig) zr (by rq) fun _ _ => Hoare.pure rfl (by rq)

theorem parseLine_h {r : PReq} {s : PStr} (hr : r.request = some s) (hu : r.url = none) (group : Nat) : Hoare nf (reqOwn r) (parseLineP r group) (fun x => reqOwn x.1)
    (fun x => x.1.headers = r.headers ∧ (x.2 = .ok → RInv x.1 ∧ ∃ rl, parseHttpRequest s.txt group = .ok rl ∧ x.1 = { r with meth := rl.meth, url := x.1.url, version := rl.version, split := true } ∧ x.1.url.map (·.txt) = some rl.url) ∧
      (nf = true → x.2 ≠ .ok → parseHttpRequest s.txt group = .err x.2)) := by
  refine Hoare.bind (readO_h hr) (fun x => strOwn r.orig x + strOwn r.url x + strOwn r.path x + strOwn r.query x + paramsOwn r.params x + hdrsOwn r.headers x) (by rq) fun line hl => ?_
  subst hl
  cases hp : parseHttpRequest s.txt group with
  | err st =>
    refine Hoare.pure ⟨rfl, fun h => ?_, fun _ _ => rfl⟩ (by rq)
    exfalso
    simp only at h
    subst h
    unfold parseHttpRequest at hp
    dsimp only at hp
    repeat' split at hp
    all_goals first | (injection hp with hp; cases hp; done) | (injection hp with hp; contradiction) | cases hp
  | ok rl =>
    dsimp only
    refine Hoare.bind (dupS_h rl.url) (reqOwn r) (by rq) fun u hu' => ?_
    cases u with
    | none => exact Hoare.pure ⟨rfl, fun h => (by cases h), fun hn => by cases hu'.2 hn⟩ (fun x => by simp only [reqOwn_at, hu, strOwn_none]; omega)
    | some u => exact Hoare.pure ⟨rfl, fun _ => ⟨⟨by rw [hr]; rfl, rfl, fun h => (by cases h)⟩, rl, rfl, rfl, by rw [Option.map_some, hu'.1 u rfl]⟩, fun _ h => absurd rfl h⟩ (fun x => by simp only [reqOwn_at, hu, strOwn_none, strOwn_some]; omega)

end Pound
