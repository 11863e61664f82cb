import Verif.Proof.OwnRead

namespace Pound
open Spec

/-! ### The loops over headers -/

theorem forall_cons {P : PHdr → Prop} {y : PHdr} {t : List PHdr} (hy : P y) (ht : ∀ z ∈ t, P z) : ∀ z ∈ y :: t, P z := by
  intro z hz
  rcases List.mem_cons.1 hz with rfl | h
  · exact hy
  · exact ht z h

theorem reqLoop_h {cl : Bool} (refuse : Header → Bool) (hs : List PHdr) (hh : ∀ y ∈ hs, HOk cl y) : Hoare nf (hdrsOwn hs) (reqLoopP refuse hs) (fun r => hdrsOwn r.1) (fun r => ∀ y ∈ r.1, HOk cl y) := by
  induction hs with
  | nil => exact Hoare.pure hh fun _ => rfl
  | cons y t ih =>
    have hy := hh y List.mem_cons_self
    have ht := fun z h => hh z (List.mem_cons_of_mem y h)
    have ih := ih ht
    refine Hoare.bind (use_h y.blk) (fun x => one y.tblk x + strOwn y.val x + hdrsOwn t x) (by rh) fun _ _ => ?_
    dsimp only
    split
    · refine Hoare.bind (hdrValue_h hy) (hdrsOwn t) (by rh) fun v hv => ?_
      obtain ⟨v1, v2, v3, v4⟩ := hv
      cases v.2 with
      | none => exact Hoare.pure (forall_cons v1 ht) (by rh)
      | some val =>
        dsimp only
        split
        · exact Hoare.pure (forall_cons v1 ht) (by rh)
        · split
          · exact Hoare.bind (hdrFree_h v.1) (hdrsOwn t) (by rh) fun _ _ => Hoare.pre ih (by rh)
          · exact Hoare.bind ih v.1.own (by rh) fun r hr => Hoare.pure (forall_cons v1 hr) (by rh)
    · split
      · refine Hoare.bind (use_h y.tblk) (fun x => one y.blk x + strOwn y.val x + hdrsOwn t x) (by rh) fun _ _ => ?_
        exact Hoare.bind (hdrFree_h y) (hdrsOwn t) (by rh) fun _ _ => Hoare.pre ih (by rh)
      · exact Hoare.bind ih y.own (by rh) fun r hr => Hoare.pure (forall_cons hy hr) (by rh)

theorem respLoop_h (loc : Header → Option Bytes) (hloc : ∀ h t, loc h = some t → TextOk true t) (hs : List PHdr) (hh : ∀ y ∈ hs, HOk true y) :
    Hoare nf (hdrsOwn hs) (respLoopP loc hs) (fun r => hdrsOwn r.1) (fun r => ∀ y ∈ r.1, HOk true y) := by
  induction hs with
  | nil => exact Hoare.pure hh fun _ => rfl
  | cons y t ih =>
    have hy := hh y List.mem_cons_self
    have ht := fun z h => hh z (List.mem_cons_of_mem y h)
    have ih := ih ht
    refine Hoare.bind (use_h y.blk) (fun x => one y.tblk x + strOwn y.val x + hdrsOwn t x) (by rh) fun _ _ => ?_
    dsimp only
    split
    · refine Hoare.bind (hdrValue_h hy) (hdrsOwn t) (by rh) fun v hv => ?_
      obtain ⟨v1, v2, v3, v4⟩ := hv
      cases hv2 : v.2 with
      | none => exact Hoare.pure (forall_cons v1 ht) (by rh)
      | some val =>
        dsimp only
        have hval : val = y.hdr.rawValue := by
          rw [hv2] at v4
          rcases v4 with h | ⟨h, _⟩
          · injection h
          · cases h
        rw [if_neg (fun hc => by
          have := hy.text.2 rfl
          rw [← hy.std] at this
          exact this hc.1 (by rw [← hval]; exact hc.2))]
        cases hl : (if y.hdr.code = .location ∨ y.hdr.code = .contLocation then loc y.hdr else none) with
        | none =>
          dsimp only
          refine Hoare.bind (use_h y.blk) (fun x => one v.1.tblk x + strOwn v.1.val x + hdrsOwn t x) (fun x => by rw [own_at, v2]; omega) fun _ _ => ?_
          exact Hoare.bind ih v.1.own (fun x => by rw [own_at, v2]; omega) fun r hr => Hoare.pure (forall_cons v1 hr) (by rh)
        | some text =>
          dsimp only
          have htext : TextOk true text := by
            split at hl
            · exact hloc _ _ hl
            · cases hl
          obtain ⟨n, w, hline⟩ := htext.1
          refine Hoare.bind (sbText1_h text) (fun x => v.1.own x + hdrsOwn t x) (by rh) fun s hs => ?_
          cases s with
          | none => exact Hoare.pure (forall_cons v1 ht) (by rh)
          | some s =>
            dsimp only
            refine Hoare.bind (hdrTake_h v.1 s) (hdrsOwn t) (by rh) fun z hz => ?_
            have hz' : z = ⟨y.blk, s.blk, headerAlloc text, none⟩ := by rw [hz, hs.1 s rfl, change_std hline, v2]
            have hzok : HOk true z := by rw [hz']; exact hOk_new htext
            have hzb : z.blk = y.blk := by rw [hz']
            refine Hoare.bind (use_h y.blk) (fun x => one z.tblk x + strOwn z.val x + hdrsOwn t x) (fun x => by rw [own_at, hzb]; omega) fun _ _ => ?_
            exact Hoare.bind ih z.own (fun x => by rw [own_at, hzb]; omega) fun r hr => Hoare.pure (forall_cons hzok hr) (by rh)
    · refine Hoare.bind (use_h y.blk) (fun x => one y.tblk x + strOwn y.val x + hdrsOwn t x) (by rh) fun _ _ => ?_
      exact Hoare.bind ih y.own (by rh) fun r hr => Hoare.pure (forall_cons hy hr) (by rh)

/-! ### Operations -/

/-- What is known of a request (`req`) or a response between operations -/
structure MInv (cl req : Bool) (r : PReq) : Prop where
  hdrs : ∀ y ∈ r.headers, HOk cl y
  line : req = true → RInv r

/-- The operations that are safe: header texts are header lines; the request line is changed in requests only; what loses memory only if no allocation fails. -/
def OpOk (nf cl req : Bool) : MsgOp → Prop
  | .append t m => TextOk cl t ∧ (m = .append → nf = true ∧ cl = false)
  | .filter _ => True
  | .value _ => True
  | .change _ t => TextOk cl t
  | .setUrl _ => req = true
  | .setPath _ => req = true
  | .setQuery _ => req = true
  | .setParam _ _ => req = true ∧ nf = true
  | .get => req = true
  | .getParam _ => req = true ∧ nf = true

theorem minv_hdrs {cl req : Bool} {r : PReq} {hs : List PHdr} (hm : MInv cl req r) (hh : ∀ y ∈ hs, HOk cl y) : MInv cl req { r with headers := hs } :=
  ⟨hh, fun h => ⟨(hm.line h).request, (hm.line h).url, (hm.line h).path⟩⟩

theorem minv_line {cl req : Bool} {r r' : PReq} (hm : MInv cl req r) (hr : RInv r') (hh : r'.headers = r.headers) : MInv cl req r' := ⟨by rw [hh]; exact hm.hdrs, fun _ => hr⟩

/-- A text is made, the operation is done, the text is released. -/
theorem withText_h {cl req : Bool} {r : PReq} (hm : MInv cl req r) (t : Bytes) {m : HM (PReq × Bool)} {f : Req → Req} (h : LineOp nf r m f) : Hoare nf (reqOwn r) (do
      let s ← sbTextP [t]
      match s with
      | none => pure (r, false)
      | some s => do
        let x ← m
        freeP (some s.blk)
        pure x) (fun x => reqOwn x.1) (fun x => MInv cl req x.1 ∧ (nf = true → x.2 = true ∧ x.1.view = f r.view ∧ x.1.headers = r.headers)) := by
  refine Hoare.bind (sbText1_h t) (reqOwn r) (by rq) fun s hs => ?_
  cases s with
  | none => exact Hoare.pure ⟨hm, fun hn => by cases hs.2 hn⟩ (by rq)
  | some s =>
    dsimp only
    refine Hoare.bind h (one s.blk) (by rq) fun y hy => ?_
    exact Hoare.bind (free_h (some s.blk)) (reqOwn y.1) (by rq) fun _ _ => Hoare.pure ⟨minv_line hm hy.1 hy.2.1, fun hn => ⟨(hy.2.2 hn).1, (hy.2.2 hn).2, hy.2.1⟩⟩ (by rq)

theorem op_h {cl req : Bool} {r : PReq} (o : MsgOp) (hm : MInv cl req r) (ho : OpOk nf cl req o) : Hoare nf (reqOwn r) (o.run r) (fun x => reqOwn x.1)
    (fun x => MInv cl req x.1 ∧ (nf = true → x.2 = true ∧ x.1.view = o.lineDo r.view ∧ .ok (x.1.headers.map (·.hdr)) = o.hdrsDo (r.headers.map (·.hdr)))) := by
  have L : ∀ {t : Bytes} {m : HM (PReq × Bool)} {f : Req → Req}, LineOp nf r m f → f r.view = o.lineDo r.view → o.hdrsDo (r.headers.map (·.hdr)) = .ok (r.headers.map (·.hdr)) → Hoare nf (reqOwn r) (do
      let s ← sbTextP [t]
      match s with
      | none => pure (r, false)
      | some s => do
        let x ← m
        freeP (some s.blk)
        pure x) (fun x => reqOwn x.1) (fun x => MInv cl req x.1 ∧ (nf = true → x.2 = true ∧ x.1.view = o.lineDo r.view ∧ .ok (x.1.headers.map (·.hdr)) = o.hdrsDo (r.headers.map (·.hdr)))) := by
    intro t m f h hf hh
    refine Hoare.post (withText_h hm t h) (fun _ _ _ => rfl) fun x hx => ⟨hx.1, fun hn => ?_⟩
    obtain ⟨h1, h2, h3⟩ := hx.2 hn
    exact ⟨h1, by rw [h2, hf], by rw [h3, hh]⟩
  cases o with
  | append t mode =>
    refine Hoare.bind (sbText1_h t) (reqOwn r) (by rq) fun s hs => ?_
    cases s with
    | none => exact Hoare.pure ⟨hm, fun hn => by cases hs.2 hn⟩ (by rq)
    | some s =>
      dsimp only
      refine Hoare.bind (listAppend_h r.headers t mode hm.hdrs ho.1 ho.2) (fun x => one s.blk x + (strOwn r.request x + strOwn r.orig x + strOwn r.url x + strOwn r.path x + strOwn r.query x + paramsOwn r.params x)) (by rq) fun y hy => ?_
      refine Hoare.bind (free_h (some s.blk)) (fun x => hdrsOwn y.2 x + (strOwn r.request x + strOwn r.orig x + strOwn r.url x + strOwn r.path x + strOwn r.query x + paramsOwn r.params x)) (by rq) fun _ _ => ?_
      refine Hoare.pure ⟨minv_hdrs hm hy.1, fun hn => ⟨?_, rfl, ?_⟩⟩ (by rq)
      · dsimp only
        rw [(hy.2 hn).1]
        rfl
      · show _ = (match listAppend _ _ _ with | .ok r => Res.ok r.2 | .ub => .ub)
        rw [(hy.2 hn).2]
  | filter m =>
    refine Hoare.bind (listFilter_h m r.headers hm.hdrs) (fun x => strOwn r.request x + strOwn r.orig x + strOwn r.url x + strOwn r.path x + strOwn r.query x + paramsOwn r.params x) (by rq) fun y hy => ?_
    exact Hoare.pure ⟨minv_hdrs hm hy.1, fun _ => ⟨rfl, rfl, congrArg Res.ok hy.2⟩⟩ (by rq)
  | value i =>
    unfold MsgOp.run
    dsimp only
    cases hi : r.headers[i]? with
    | none => exact Hoare.pure ⟨hm, fun _ => ⟨rfl, rfl, rfl⟩⟩ fun _ => rfl
    | some y =>
      dsimp only
      obtain ⟨rest, r1, r2⟩ := hdrsOwn_at hi
      refine Hoare.bind (hdrValue_h (hm.hdrs y (List.mem_of_getElem? hi))) (fun x => rest x + (strOwn r.request x + strOwn r.orig x + strOwn r.url x + strOwn r.path x + strOwn r.query x + paramsOwn r.params x))
        (fun x => by have := r1 x; simp only [reqOwn_at]; omega) fun v hv => ?_
      refine Hoare.pure ⟨minv_hdrs hm (mem_set_ok hm.hdrs hv.1), fun hn => ⟨?_, rfl, ?_⟩⟩ (fun x => by have := r2 v.1 x; simp only [reqOwn_at]; omega)
      · rcases hv.2.2.2 with h | ⟨_, h⟩
        · dsimp only
          rw [h]
          rfl
        · rw [hn] at h
          cases h
      · show Res.ok _ = Res.ok _
        congr 1
        rw [map_set_hdr, hv.2.2.1]
        apply List.ext_getElem?
        intro j
        rw [List.getElem?_set]
        split
        · rename_i hj
          subst hj
          split
          · rw [List.getElem?_map, hi]
            rfl
          · rename_i hlt
            rw [List.getElem?_eq_none (by omega)]
        · rfl
  | change i t =>
    unfold MsgOp.run
    dsimp only
    cases hi : r.headers[i]? with
    | none =>
      refine Hoare.pure ⟨hm, fun _ => ⟨rfl, rfl, ?_⟩⟩ fun _ => rfl
      show Res.ok _ = Res.ok _
      rw [List.getElem?_map, hi]
      rfl
    | some y =>
      dsimp only
      obtain ⟨rest, r1, r2⟩ := hdrsOwn_at hi
      obtain ⟨n, w, hline⟩ := ho.1
      refine Hoare.bind (sbText1_h t) (reqOwn r) (by rq) fun s hs => ?_
      cases s with
      | none => exact Hoare.pure ⟨hm, fun hn => by cases hs.2 hn⟩ (by rq)
      | some s =>
        dsimp only
        refine Hoare.bind (hdrTake_h y s) (fun x => rest x + (strOwn r.request x + strOwn r.orig x + strOwn r.url x + strOwn r.path x + strOwn r.query x + paramsOwn r.params x))
          (fun x => by have := r1 x; simp only [reqOwn_at, strOwn_some]; omega) fun z hz => ?_
        have hz' : z = ⟨y.blk, s.blk, headerAlloc t, none⟩ := by rw [hz, hs.1 s rfl, change_std hline]
        refine Hoare.pure ⟨minv_hdrs hm (mem_set_ok hm.hdrs (by rw [hz']; exact hOk_new ho)), fun hn => ⟨rfl, rfl, ?_⟩⟩ (fun x => by have := r2 z x; simp only [reqOwn_at]; omega)
        show Res.ok _ = Res.ok _
        rw [List.getElem?_map, hi]
        dsimp only [Option.map_some]
        rw [map_set_hdr, hz', change_std hline]
  | setUrl u => exact L (setUrl_h (hm.line ho) u) rfl rfl
  | setPath u => exact L (setPath_h (hm.line ho) u) rfl rfl
  | setQuery u => exact L (setQuery_h (hm.line ho) u) rfl rfl
  | setParam n v =>
    obtain ⟨o1, o2⟩ := ho
    subst o2
    exact L (setParam_h (hm.line o1) n v) rfl rfl
  | get => exact Hoare.post (splitOp_h (hm.line ho)) (fun _ _ _ => rfl) fun x hx => ⟨minv_line hm hx.1 hx.2.1, fun hn => ⟨(hx.2.2 hn).1, (hx.2.2 hn).2, by rw [hx.2.1]; rfl⟩⟩
  | getParam n =>
    obtain ⟨o1, o2⟩ := ho
    subst o2
    refine Hoare.bind (loadParams_h (hm.line o1)) zr (by rq) fun y hy => ?_
    obtain ⟨q1, q2, q3, q4, q5⟩ := hy
    rw [if_pos q4]
    refine Hoare.bind (useParams_h y.1.params) (fun x => strOwn y.1.request x + strOwn y.1.orig x + strOwn y.1.url x + strOwn y.1.path x + strOwn y.1.query x + hdrsOwn y.1.headers x) (by rq) fun _ _ => ?_
    exact Hoare.pure ⟨minv_line hm q1 q2, fun hn => ⟨q4, q5, by rw [q2]; rfl⟩⟩ (by rq)

theorem ops_h {cl req : Bool} (os : List MsgOp) (r : PReq) (hm : MInv cl req r) (ho : ∀ o ∈ os, OpOk nf cl req o) : Hoare nf (reqOwn r) (runOpsP r os) (fun x => reqOwn x.1) (fun x => MInv cl req x.1 ∧ (nf = true → x.2 = true)) := by
  induction os generalizing r with
  | nil => exact Hoare.pure ⟨hm, fun _ => rfl⟩ fun _ => rfl
  | cons o os ih =>
    refine Hoare.bind (op_h o hm (ho o List.mem_cons_self)) zr (by rq) fun x hx => ?_
    split
    · exact Hoare.pre (ih x.1 hx.1 fun o h => ho o (List.mem_cons_of_mem _ h)) (by rq)
    · rename_i h
      exact Hoare.pure ⟨hx.1, fun hn => absurd (hx.2 hn).1 h⟩ (by rq)

/-- If no allocation fails, the operations do what they do to the texts. -/
theorem opsView_h {cl req : Bool} (os : List MsgOp) (r : PReq) (hm : MInv cl req r) (ho : ∀ o ∈ os, OpOk true cl req o) : Hoare true (reqOwn r) (runOpsP r os) (fun x => reqOwn x.1)
    (fun x => MInv cl req x.1 ∧ x.2 = true ∧ x.1.view = opsLine os r.view ∧ .ok (x.1.headers.map (·.hdr)) = opsHdrs os (r.headers.map (·.hdr))) := by
  induction os generalizing r with
  | nil => exact Hoare.pure ⟨hm, rfl, rfl, rfl⟩ fun _ => rfl
  | cons o os ih =>
    refine Hoare.bind (op_h o hm (ho o List.mem_cons_self)) zr (by rq) fun x hx => ?_
    obtain ⟨h1, h2, h3⟩ := hx.2 rfl
    rw [if_pos h1]
    refine Hoare.post (Hoare.pre (ih x.1 hx.1 fun o h => ho o (List.mem_cons_of_mem _ h)) (by rq)) (fun _ _ _ => rfl) fun y hy => ⟨hy.1, hy.2.1, ?_, ?_⟩
    · rw [hy.2.2.1, h2]
      rfl
    · rw [hy.2.2.2]
      show _ = (match o.hdrsDo _ with | .ok hs => opsHdrs os hs | .ub => .ub)
      rw [← h3]

/-! ### Connections -/

/-- Heads that can be read without loss: if headers are composed, the first line is not refused. -/
def HeadOk (cl : Bool) (table : List Bytes) (i : HeadInput) : Prop := (table = [] ∨ i.first ≠ none) ∧ LinesOk cl i.lines

structure RespOk (nf : Bool) (table : List Bytes) (i : RespInput) : Prop where
  head : HeadOk true table i.head
  ops : ∀ o ∈ i.ops, OpOk nf true false o
  loc : ∀ h t, i.loc h = some t → TextOk true t

structure ReqOk (nf : Bool) (table : List Bytes) (i : ReqInput) : Prop where
  head : table = [] ∨ i.head.first ≠ none
  ops : ∀ o ∈ i.ops, OpOk nf false true o
  resps : ∀ r ∈ i.resps, RespOk nf table r

theorem respRound_h {table : List Bytes} (ht : table = [] ∨ nf = true) (hcl : ∀ n ∈ table, ciEq n b!"Content-Length" = false) (old : PReq) (i : RespInput) (hi : RespOk nf table i) :
    Hoare nf (reqOwn old) (respRoundP table old i) (fun x => reqOwn x.1) (fun _ => True) := by
  refine Hoare.bind (reqFree_h old) zr (by rq) fun q hq => ?_
  subst hq
  refine Hoare.bind (read_h (cl := true) i.head ht hi.head.1 (fun _ => hcl) hi.head.2) zr (by rq) fun r hr => ?_
  split
  · exact Hoare.pure trivial (by rq)
  · rename_i hok
    have hok : r.2 = .ok := Classical.not_not.1 hok
    obtain ⟨s, hs, h1, h2, h3, h4, h5⟩ := hr.1 hok
    have hm : MInv true false r.1 := ⟨by rw [h1]; exact h4, fun h => (by cases h)⟩
    refine Hoare.bind (ops_h i.ops r.1 hm hi.ops) zr (by rq) fun y hy => ?_
    split
    · exact Hoare.pure trivial (by rq)
    · refine Hoare.bind (respLoop_h i.loc hi.loc y.1.headers hy.1.hdrs) (fun x => strOwn y.1.request x + strOwn y.1.orig x + strOwn y.1.url x + strOwn y.1.path x + strOwn y.1.query x + paramsOwn y.1.params x) (by rq) fun l _ => ?_
      exact Hoare.pure trivial (by rq)

theorem respRounds_h {table : List Bytes} (ht : table = [] ∨ nf = true) (hcl : ∀ n ∈ table, ciEq n b!"Content-Length" = false) (is : List RespInput) (old : PReq) (hi : ∀ i ∈ is, RespOk nf table i) :
    Hoare nf (reqOwn old) (respRoundsP table old is) reqOwn (fun _ => True) := by
  induction is generalizing old with
  | nil => exact Hoare.pure trivial fun _ => rfl
  | cons i is ih =>
    refine Hoare.bind (respRound_h ht hcl old i (hi i List.mem_cons_self)) zr (by rq) fun x _ => ?_
    split
    · exact Hoare.pre (ih x.1 fun j h => hi j (List.mem_cons_of_mem _ h)) (by rq)
    · exact Hoare.pure trivial (by rq)

theorem reqRound_h {table : List Bytes} (group : Nat) (ht : table = [] ∨ nf = true) (hcl : ∀ n ∈ table, ciEq n b!"Content-Length" = false) (req resp : PReq) (i : ReqInput) (hi : ReqOk nf table i) :
    Hoare nf (fun x => reqOwn req x + reqOwn resp x) (reqRoundP table group req resp i) (fun x z => reqOwn x.1 z + reqOwn x.2.1 z) (fun _ => True) := by
  refine Hoare.bind (reqFree_h req) (reqOwn resp) (by rq) fun q hq => ?_
  refine Hoare.bind (reqFree_h resp) zr (by rq) fun p hp => ?_
  subst hq
  subst hp
  refine Hoare.bind (read_h (cl := false) i.head ht hi.head (fun h => (by cases h)) fun h => (by cases h)) zr (by rq) fun r hr => ?_
  have hz := reqOwn_init
  split
  · exact Hoare.pure trivial (fun x => by have := hz x; simp only [zr_at]; omega)
  · rename_i hok
    have hok : r.2 = .ok := Classical.not_not.1 hok
    obtain ⟨s, hs, h1, h2, h3, h4, h5⟩ := hr.1 hok
    refine Hoare.bind (parseLine_h (s := s) (by rw [h1]) (by rw [h1]; rfl) group) zr (by rq) fun r' hr' => ?_
    split
    · exact Hoare.pure trivial (fun x => by have := hz x; simp only [zr_at]; omega)
    · rename_i hok'
      have hok' : r'.2 = .ok := Classical.not_not.1 hok'
      have hh : ∀ y ∈ r'.1.headers, HOk false y := by
        rw [hr'.1, h1]
        exact h4
      refine Hoare.bind (reqLoop_h i.refuse r'.1.headers hh) (fun x => strOwn r'.1.request x + strOwn r'.1.orig x + strOwn r'.1.url x + strOwn r'.1.path x + strOwn r'.1.query x + paramsOwn r'.1.params x) (by rq) fun l hl => ?_
      split
      · exact Hoare.pure trivial (fun x => by have := hz x; simp only [reqOwn_at] at *; omega)
      · have hri := (hr'.2.1 hok').1
        refine Hoare.bind (ops_h i.ops { r'.1 with headers := l.1 } ⟨hl, fun _ => ⟨hri.request, hri.url, hri.path⟩⟩ hi.ops) zr (by rq) fun y hy => ?_
        refine Hoare.bind (reqFree_h PReq.init) (reqOwn y.1) (fun x => by have := hz x; simp only [zr_at]; omega) fun p hp => ?_
        subst hp
        split
        · exact Hoare.pure trivial (fun x => by have := hz x; simp only [zr_at]; omega)
        · refine Hoare.bind (respRounds_h ht hcl i.resps PReq.init hi.resps) (reqOwn y.1) (fun x => by have := hz x; simp only [zr_at]; omega) fun p _ => ?_
          exact Hoare.pure trivial (fun x => by dsimp only; omega)

theorem connRounds_h {table : List Bytes} (group : Nat) (ht : table = [] ∨ nf = true) (hcl : ∀ n ∈ table, ciEq n b!"Content-Length" = false) (is : List ReqInput) (req resp : PReq) (hi : ∀ i ∈ is, ReqOk nf table i) :
    Hoare nf (fun x => reqOwn req x + reqOwn resp x) (connRoundsP table group req resp is) (fun x z => reqOwn x.1 z + reqOwn x.2 z) (fun _ => True) := by
  induction is generalizing req resp with
  | nil => exact Hoare.pure trivial fun _ => rfl
  | cons i is ih =>
    refine Hoare.bind (reqRound_h group ht hcl req resp i (hi i List.mem_cons_self)) zr (by rq) fun x _ => ?_
    split
    · exact Hoare.pre (ih x.1 x.2.1 fun j h => hi j (List.mem_cons_of_mem _ h)) (by rq)
    · exact Hoare.pure trivial (by rq)

theorem conn_h {table : List Bytes} (group : Nat) (ht : table = [] ∨ nf = true) (hcl : ∀ n ∈ table, ciEq n b!"Content-Length" = false) (is : List ReqInput) (hi : ∀ i ∈ is, ReqOk nf table i) :
    Hoare nf zr (connP table group is) (fun _ => zr) (fun _ => True) := by
  have hz := reqOwn_init
  refine Hoare.bind (connRounds_h group ht hcl is PReq.init PReq.init hi) zr (fun x => by have := hz x; simp only [zr_at]; omega) fun x _ => ?_
  refine Hoare.bind (reqFree_h x.1) (reqOwn x.2) (by rq) fun _ _ => ?_
  exact Hoare.bind (reqFree_h x.2) zr (by rq) fun _ _ => Hoare.pure trivial (by rq)

/-- What a triple says of memory in which other blocks are in use -/
theorem Hoare.run {α : Type} {nf : Bool} {m : HM α} {P : α → Prop} (h : Hoare nf zr m (fun _ => zr) P) {h0 : Mem} (h1 : ∀ b ∈ h0.live, b < h0.next) (h2 : h0.live.Nodup) (h3 : nf = true → ∀ k, h0.oom k = false) :
    ∃ a h', m h0 = .ok a h' ∧ P a ∧ h'.live.Perm h0.live := by
  obtain ⟨a, h', e, -, -, p, c⟩ := h h0 (fun x => h0.live.count x) ⟨h1, h2⟩ h3 (fun x => by rw [zr_at, Nat.zero_add])
  exact ⟨a, h', e, p, List.perm_iff_count.2 fun x => by rw [c x]; exact Nat.zero_add _⟩

end Pound
