import Verif.Model.OwnErr
import Verif.Proof.OwnConn
import Verif.Spec.Own
import Verif.Spec.BeCfg

namespace Pound

open Spec

variable {nf : Bool}

theorem parseText_h (ls : List Bytes) : ∀ (hs : List PHdr) (sb : PSb), (∀ y ∈ hs, HOk false y) → (∀ l ∈ ls, HeaderText l) →
    Hoare true (fun x => hdrsOwn hs x + optOwn sb.base x) (parseTextP hs sb ls) (fun r => hdrsOwn r.1)
      (fun r => (∀ y ∈ r.1, HOk false y) ∧ r.2 = true ∧ opsHdrs (ls.map fun l => .append l .replace) (hs.map (·.hdr)) = .ok (r.1.map (·.hdr))) := by
  induction ls with
  | nil =>
    intro hs sb hh _
    exact Hoare.bind (free_h sb.base) (hdrsOwn hs) (by rh) fun _ _ => Hoare.pure ⟨hh, rfl, rfl⟩ (by rh)
  | cons l ls ih =>
    intro hs sb hh hl
    refine Hoare.bind (sbAdd_h { sb with txt := [] } l) (hdrsOwn hs) (by rh) fun sb1 h1 => ?_
    refine Hoare.bind (sbFinish_h sb1) (hdrsOwn hs) (by rh) fun f hf => ?_
    have e1 := h1.1 rfl
    obtain ⟨s, hs1, hs2⟩ := hf.2 rfl (by rw [e1])
    obtain ⟨hb, -, -⟩ := hf.1 s hs1
    have ht : s.txt = l := by rw [hs2, e1]; rfl
    rw [hs1]
    dsimp only
    refine Hoare.bind (use_h s.blk) (hdrsOwn hs) (by intro x; simp only [hb, optOwn_some]; try omega) fun _ _ => ?_
    rw [ht]
    refine Hoare.bind (listAppend_h (cl := false) hs l .replace hh ⟨hl l List.mem_cons_self, fun h => (by cases h)⟩ fun h => (by cases h)) (one s.blk) (by rh) fun x hx => ?_
    obtain ⟨p1, p2⟩ := hx
    obtain ⟨p2, p3⟩ := p2 rfl
    rw [if_pos p2]
    refine Hoare.post (Hoare.pre (ih x.2 f.1 p1 fun l h => hl l (List.mem_cons_of_mem _ h)) (by intro x; simp only [hb, optOwn_some])) (fun _ _ _ => rfl) fun y hy => ⟨hy.1, hy.2.1, ?_⟩
    rw [← hy.2.2, List.map_cons]
    simp only [opsHdrs, MsgOp.hdrsDo, p3]

theorem errHeaderLines_ok : ∀ l ∈ errHeaderLines, HeaderText l := by
  intro l hl
  refine Classical.byContradiction fun h' => ?_
  have h1 : (headerAlloc l).code = .illegal := qualify_illegal.2 h'
  have : ∀ l ∈ errHeaderLines, (headerAlloc l).code ≠ .illegal := by decide +kernel
  exact this l hl h1

theorem errorReply_h (ops : List MsgOp) (ho : ∀ o ∈ ops, OpOk true false false o) : Hoare true zr (errorReplyP ops) (fun _ => zr)
    (fun r => ∃ hs, r = some hs ∧ opsHdrs (errHeaderLines.map (fun l => .append l .replace) ++ ops) [] = .ok hs) := by
  refine Hoare.bind (parseText_h errHeaderLines [] PSb.init (fun y h => (by cases h)) errHeaderLines_ok) zr (by rh) fun h hp => ?_
  obtain ⟨p1, p2, p3⟩ := hp
  rw [if_pos p2]
  refine Hoare.bind (opsView_h (cl := false) (req := false) ops { PReq.init with headers := h.1 } ⟨p1, fun h => (by cases h)⟩ ho) zr (fun x => ?_) fun x hx => ?_
  · simp only [reqOwn_at, PReq.init, strOwn_none, zr_at]
    have : paramsOwn [] x = 0 := rfl
    omega
  · rw [if_pos hx.2.1]
    refine Hoare.bind (reqFree_h x.1) zr (by rq) fun _ _ => Hoare.pure ⟨_, rfl, ?_⟩ (by rq)
    rw [hx.2.2.2]
    have happ : ∀ (a b : List MsgOp) (hs hs' : List Header), opsHdrs a hs = .ok hs' → opsHdrs (a ++ b) hs = opsHdrs b hs' := by
      intro a b
      induction a with
      | nil => intro hs hs' h; cases h; rfl
      | cons o os ih =>
        intro hs hs' h
        simp only [List.cons_append, opsHdrs] at h ⊢
        split at h
        · exact ih _ _ h
        · cases h
    exact happ _ _ _ _ p3

theorem errorReplies_h (os : List (List MsgOp)) (ho : ∀ ops ∈ os, ∀ o ∈ ops, OpOk true false false o) : Hoare true zr (errorRepliesP os) (fun _ => zr)
    (fun rs => Each (fun r ops => ∃ hs, r = some hs ∧ opsHdrs (errHeaderLines.map (fun l => .append l .replace) ++ ops) [] = .ok hs) rs os) := by
  induction os with
  | nil => exact Hoare.pure .nil (by rq)
  | cons o os ih =>
    refine Hoare.bind (errorReply_h o (ho o List.mem_cons_self)) zr (by rq) fun r hr => ?_
    refine Hoare.bind (ih fun p h => ho p (List.mem_cons_of_mem _ h)) zr (by rq) fun rs hrs => Hoare.pure (.cons hr hrs) (by rq)

/-! ### What a failing rule loses -/

theorem listAppendBad_h (hs : List PHdr) (text : Bytes) (mode : HMode) (hl : locateName (hs.map (·.hdr)) text = none) (hc : (headerAlloc text).code = .illegal) :
    Hoare nf (hdrsOwn hs) (listAppendP hs text mode) (fun r => hdrsOwn r.2) (fun r => r.2 = hs ∧ r.1 ≠ 0) := by
  refine Hoare.bind (useHdrs_h hs) zr (by rh) fun _ _ => ?_
  rw [hl]
  dsimp only
  refine Hoare.bind (hdrAlloc_h text) (hdrsOwn hs) (by rh) fun o ho => ?_
  cases o with
  | none => exact Hoare.pure ⟨rfl, fun h => by simp at h⟩ (by rh)
  | some x =>
    dsimp only
    rw [if_pos (by rw [(ho.1 x rfl).1]; exact hc)]
    exact Hoare.bind (hdrFree_h x) (hdrsOwn hs) (by rh) fun _ _ => Hoare.pure ⟨rfl, fun h => by simp at h⟩ (by rh)

/-- The blocks of headers -/
def hdrBlocks (hs : List PHdr) : List Nat := hs.flatMap fun h => h.blk :: h.tblk :: (h.val.map (·.blk)).toList

theorem hdrBlocks_count (hs : List PHdr) (x : Nat) : (hdrBlocks hs).count x = hdrsOwn hs x := by
  induction hs with
  | nil => rfl
  | cons h t ih =>
    have : hdrBlocks (h :: t) = h.blk :: h.tblk :: ((h.val.map (·.blk)).toList ++ hdrBlocks t) := rfl
    rw [this, hdrsOwn_cons, ← ih, own_at, List.count_cons, List.count_cons, List.count_append]
    have e : ∀ b : Nat, (if (b == x) = true then 1 else 0) = one b x := by
      intro b
      unfold one
      by_cases h : x = b
      · simp [h]
      · rw [if_neg h, if_neg (by simpa using fun h' => h h'.symm)]
    rw [e, e]
    cases h.val with
    | none => simp only [Option.map_none, Option.toList_none, List.count_nil, strOwn_none]; omega
    | some v =>
      simp only [Option.map_some, Option.toList_some, List.count_cons, List.count_nil, strOwn_some, e]
      omega

theorem hdrBlocks_length (hs : List PHdr) : 2 * hs.length ≤ (hdrBlocks hs).length := by
  induction hs with
  | nil => exact Nat.le_refl 0
  | cons h t ih =>
    have : hdrBlocks (h :: t) = h.blk :: h.tblk :: ((h.val.map (·.blk)).toList ++ hdrBlocks t) := rfl
    rw [this]
    simp only [List.length_cons, List.length_append]
    omega

theorem errorReply_loses (m : Mem) (hm : m.Ok) (hp : ∀ k, m.oom k = false) :
    ∃ m', errorReplyP [.append b!"x" .replace] m = .ok none m' ∧ m'.Ok ∧ m'.oom = m.oom ∧ m.live.length + 6 ≤ m'.live.length := by
  obtain ⟨h, m1, e1, ok1, o1, ⟨p1, p2, p3⟩, c1⟩ := parseText_h errHeaderLines [] PSb.init (fun y h => (by cases h)) errHeaderLines_ok m (fun x => m.live.count x) hm (fun _ => hp)
    (fun x => by simp only [hdrsOwn_nil, psbInit_base, optOwn_none]; omega)
  have hh : h.1.map (·.hdr) = errHeaderLines.map headerAlloc := by
    have : opsHdrs (errHeaderLines.map fun l => .append l .replace) ([].map PHdr.hdr) = .ok (errHeaderLines.map headerAlloc) := by decide +kernel
    rw [this] at p3
    injection p3 with p3
    exact p3.symm
  have hop : Hoare true (hdrsOwn h.1) (runOpsP { PReq.init with headers := h.1 } [.append b!"x" .replace]) (fun x => hdrsOwn x.1.headers) (fun x => x.2 = false ∧ x.1.headers = h.1) := by
    refine Hoare.bind (m := MsgOp.run (.append b!"x" .replace) { PReq.init with headers := h.1 }) (A1 := hdrsOwn h.1) (R1 := fun x => hdrsOwn x.1.headers) (P1 := fun x => x.2 = false ∧ x.1.headers = h.1) ?_ zr (by rh) fun x hx => ?_
    · refine Hoare.bind (sbText1_h b!"x") (hdrsOwn h.1) (by rh) fun s hs => ?_
      obtain ⟨s', rfl⟩ := Option.isSome_iff_exists.1 (hs.2 rfl)
      dsimp only
      refine Hoare.bind (listAppendBad_h h.1 b!"x" .replace (by rw [hh]; decide +kernel) (by decide +kernel)) (one s'.blk) (by rh) fun x hx => ?_
      refine Hoare.bind (free_h (some s'.blk)) (hdrsOwn x.2) (by rh) fun _ _ => ?_
      exact Hoare.pure ⟨decide_eq_false hx.2, hx.1⟩ (by rh)
    · rw [if_neg (by rw [hx.1]; decide)]
      exact Hoare.pure hx (by rh)
  obtain ⟨x, m2, e2, ok2, o2, ⟨q1, q2⟩, c2⟩ := hop m1 (fun x => m.live.count x) ok1 (fun _ k => by rw [o1]; exact hp k) c1
  refine ⟨m2, ?_, ok2, by rw [o2, o1], ?_⟩
  · show HM.bind _ _ m = _
    unfold HM.bind
    rw [e1]
    dsimp only
    rw [if_pos p2]
    show HM.bind _ _ m1 = _
    unfold HM.bind
    rw [e2]
    dsimp only
    rw [if_neg (by rw [q1]; decide)]
    rfl
  · have hperm : m2.live.Perm (hdrBlocks h.1 ++ m.live) := List.perm_iff_count.2 fun y => by rw [c2 y, List.count_append, hdrBlocks_count]; dsimp only; rw [q2]
    have hl := hdrBlocks_length h.1
    have h3 : h.1.length = 3 := by
      have := congrArg List.length hh
      rw [List.length_map, List.length_map] at this
      rw [this]
      rfl
    rw [hperm.length_eq, List.length_append]
    omega

theorem errorReplies_lose (k : Nat) : ∀ m : Mem, m.Ok → (∀ k, m.oom k = false) →
    ∃ m', errorRepliesP (List.replicate k [.append b!"x" .replace]) m = .ok (List.replicate k none) m' ∧ m.live.length + 6 * k ≤ m'.live.length := by
  induction k with
  | zero => exact fun m _ _ => ⟨m, rfl, Nat.le_refl _⟩
  | succ k ih =>
    intro m hm hp
    obtain ⟨m1, e1, ok1, o1, l1⟩ := errorReply_loses m hm hp
    obtain ⟨m2, e2, l2⟩ := ih m1 ok1 fun k => by rw [o1]; exact hp k
    refine ⟨m2, ?_, by omega⟩
    rw [List.replicate_succ, List.replicate_succ]
    show HM.bind _ _ m = _
    unfold HM.bind
    rw [e1]
    show HM.bind _ _ m1 = _
    unfold HM.bind
    rw [e2]
    rfl

end Pound
