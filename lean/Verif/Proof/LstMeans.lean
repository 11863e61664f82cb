import Verif.Proof.LstCfg

namespace Pound

open Spec

/-- What a setting does where it is accepted -/
def lstEff : LstSet → LstSt → LstSt
  | .addr h, s => { s with addrStr := some h }
  | .port p, s => { s with portStr := some p }
  | .sockFrom p, s => { s with sock := some p }
  | .xhttp n, s => { s with verb := n }
  | .client n, s => { s with to := n }
  | .checkUrl p, s => { s with urlPat := some p }
  | .err c t, s => { s with err := fun k => if k = c then some t else s.err k }
  | .maxReq n, s => { s with maxReq := n }
  | .maxUri n, s => { s with maxUri := n }
  | .hdrOpts os, s => { s with hdr := os.foldl HdrOpts.app s.hdr }
  | .rewrLoc n, s => { s with rewrLoc := n }
  | .rewrDest b, s => { s with rewrDest := b }
  | .logLevel n, s => { s with logLevel := n }
  | .fwdHdr n, s => { s with fwdHdr := some n }
  | .cert fs, s => { s with ctxs := s.ctxs ++ fs.map fun f => ⟨f, []⟩ }
  | .clientCert m k, s => { s with ctxs := s.ctxs.map fun c => { c with ops := c.ops ++ [.verify m k] }, clntCheck := m }
  | .disable n, s => { s with noProto := max s.noProto n }
  | .ciphers l, s => { s with ctxs := s.ctxs.map fun c => { c with ops := c.ops ++ [.ciphers l] } }
  | .honor b, s => { s with prefOn := b, prefOff := !b }
  | .reneg n, s => { s with reneg := n, legacyOn := n == 2, legacyOff := n != 2 }
  | .caList f, s => { s with ctxs := s.ctxs.map fun c => { c with ops := c.ops ++ [.caList f] } }
  | .verifyList f, s => { s with ctxs := s.ctxs.map fun c => { c with ops := c.ops ++ [.verifyList f] } }
  | .crl f, s => { s with ctxs := s.ctxs.map fun c => { c with ops := c.ops ++ [.crl f] } }
  | .noHttps11 n, s => { s with noHttps11 := n }

theorem onCtxs_some {s s' : LstSt} {o : LCtxOp} (h : s.onCtxs o = some s') : s.ctxs ≠ [] ∧ s' = { s with ctxs := s.ctxs.map fun c => { c with ops := c.ops ++ [o] } } := by
  unfold LstSt.onCtxs at h
  split at h
  · cases h
  · rename_i hn; cases h; exact ⟨hn, rfl⟩

theorem lstApply_eff {x : LstSet} {s s' : LstSt} (h : lstApply x s = some s') : s' = lstEff x s := by
  cases x <;> simp only [lstApply, Option.some.injEq, Option.map_eq_some_iff] at h <;> first
    | exact h.symm
    | (split at h
       · cases h
       · cases h; rfl)
    | exact (onCtxs_some h).2
    | (obtain ⟨s1, h1, rfl⟩ := h; rw [(onCtxs_some h1).2]; rfl)

/-- When a setting is refused -/
theorem lstApply_some {x : LstSet} {s : LstSt} : (lstApply x s).isSome = true ↔
    ((sockSet x).isSome = true → s.addrStr = none ∧ s.portStr = none) ∧ ((urlSet x).isSome = true → s.urlPat = none) ∧ ((lctxSet x).isSome = true → s.ctxs ≠ []) := by
  have hc : ∀ o, (s.onCtxs o).isSome = true ↔ s.ctxs ≠ [] := by
    intro o
    unfold LstSt.onCtxs
    split <;> rename_i h <;> simp [h]
  cases x <;> simp only [lstApply, sockSet, urlSet, lctxSet, Option.isSome_none, Option.isSome_some, Bool.false_eq_true, false_implies, true_implies, true_and, and_true, Option.isSome_map, hc]
  case sockFrom p =>
    cases h1 : s.addrStr <;> cases h2 : s.portStr <;> simp
  case checkUrl p =>
    cases h1 : s.urlPat <;> simp

theorem hdr_fold (os : List HdrOpt) : ∀ h : HdrOpts, (os.foldl HdrOpts.app h).fwd = lastOr h.fwd (os.filterMap fwdSays) ∧
    (os.foldl HdrOpts.app h).ssl = lastOr h.ssl (os.filterMap sslSays) := by
  induction os with
  | nil => intro h; exact ⟨rfl, rfl⟩
  | cons o os ih =>
    intro h
    obtain ⟨h1, h2⟩ := ih (h.app o)
    have f1 : (h.app o).fwd = (fwdSays o).getD h.fwd := by
      cases o with
      | none => rfl
      | add f t => cases f <;> simp [HdrOpts.app, fwdSays]
      | del f t => cases f <;> simp [HdrOpts.app, fwdSays]
    have f2 : (h.app o).ssl = (sslSays o).getD h.ssl := by
      cases o with
      | none => rfl
      | add f t => cases t <;> simp [HdrOpts.app, sslSays]
      | del f t => cases t <;> simp [HdrOpts.app, sslSays]
    rw [List.foldl_cons, h1, h2, f1, f2, lastOr_cons, lastOr_cons]
    constructor
    · congr 1
      rw [List.filterMap_cons]
      cases fwdSays o <;> rfl
    · congr 1
      rw [List.filterMap_cons]
      cases sslSays o <;> rfl

theorem hdr_all {l : List LstSet} : ∀ {s s' : LstSt}, appAll lstApply l s = some s' → s'.hdr = (l.flatMap hdrSet).foldl HdrOpts.app s.hdr := by
  induction l with
  | nil => intro s s' h; cases h; rfl
  | cons x l ih =>
    intro s s' h
    simp only [appAll, Option.bind_eq_some_iff] at h
    obtain ⟨s1, h1, h2⟩ := h
    rw [ih h2, lstApply_eff h1, List.flatMap_cons, List.foldl_append]
    cases x <;> rfl

theorem ctxs_all {l : List LstSet} : ∀ {s s' : LstSt}, appAll lstApply l s = some s' →
    s'.ctxs = s.ctxs.map (fun c => ⟨c.file, c.ops ++ l.filterMap lctxSet⟩) ++ certsOf l := by
  induction l with
  | nil => intro s s' h; cases h; simp [certsOf]
  | cons x l ih =>
    intro s s' h
    simp only [appAll, Option.bind_eq_some_iff] at h
    obtain ⟨s1, h1, h2⟩ := h
    rw [ih h2, lstApply_eff h1]
    cases x <;> simp [lstEff, certsOf, lctxSet, List.filterMap_cons]

theorem proto_all {l : List LstSet} : ∀ {s s' : LstSt}, appAll lstApply l s = some s' → s'.noProto = (l.filterMap noProtoSet).foldl max s.noProto := by
  induction l with
  | nil => intro s s' h; cases h; rfl
  | cons x l ih =>
    intro s s' h
    simp only [appAll, Option.bind_eq_some_iff] at h
    obtain ⟨s1, h1, h2⟩ := h
    rw [ih h2, lstApply_eff h1]
    cases x <;> rfl

theorem max_fold (l : List Nat) : ∀ a : Nat, a ≤ l.foldl max a ∧ (∀ k ∈ l, k ≤ l.foldl max a) ∧ (l.foldl max a = a ∨ l.foldl max a ∈ l) := by
  induction l with
  | nil => intro a; simp
  | cons x l ih =>
    intro a
    obtain ⟨h1, h2, h3⟩ := ih (max a x)
    rw [List.foldl_cons]
    refine ⟨by omega, ?_, ?_⟩
    · intro k hk
      rcases List.mem_cons.mp hk with rfl | hk
      · omega
      · exact h2 k hk
    · rcases h3 with h3 | h3
      · by_cases hx : a ≤ x
        · right; rw [h3, Nat.max_eq_right hx]; exact List.mem_cons_self
        · left; rw [h3]; omega
      · right; exact List.mem_cons_of_mem _ h3

theorem fm_map {δ α β : Type} (set : δ → Option α) (f : α → β) (l : List δ) : l.filterMap (fun x => (set x).map f) = (l.filterMap set).map f := by
  induction l with
  | nil => rfl
  | cons x l ih =>
    cases h : set x with
    | none => simp [List.filterMap_cons, h, ih]
    | some v => simp [List.filterMap_cons, h, ih]

theorem lst_means {d : LstDfl} {l : List LstSet} {s : LstSt} (h : appAll lstApply l (lstInit d) = some s) : LstMeans d l s where
  addr := appAll_opt (·.addrStr) laddrSet (fun x s s' h => by rw [lstApply_eff h]; cases x <;> rfl) h rfl
  port := appAll_opt (·.portStr) lportSet (fun x s s' h => by rw [lstApply_eff h]; cases x <;> rfl) h rfl
  sock := appAll_opt (·.sock) sockSet (fun x s s' h => by rw [lstApply_eff h]; cases x <;> rfl) h rfl
  verb := appAll_field (·.verb) verbSet (fun x s s' h => by rw [lstApply_eff h]; cases x <;> rfl) h
  to := appAll_field (·.to) clientSet (fun x s s' h => by rw [lstApply_eff h]; cases x <;> rfl) h
  url := appAll_opt (·.urlPat) urlSet (fun x s s' h => by rw [lstApply_eff h]; cases x <;> rfl) h rfl
  err := by
    intro c
    refine appAll_opt (fun s => s.err c) (errSet c) (fun x s s' h => ?_) h rfl
    rw [lstApply_eff h]
    cases x <;> try rfl
    rename_i k t
    by_cases hk : k = c
    · subst hk; simp [lstEff, errSet]
    · have hk' : ¬ c = k := fun h => hk h.symm
      simp [lstEff, errSet, hk, hk']
  maxReq := appAll_field (·.maxReq) maxReqSet (fun x s s' h => by rw [lstApply_eff h]; cases x <;> rfl) h
  maxUri := appAll_field (·.maxUri) maxUriSet (fun x s s' h => by rw [lstApply_eff h]; cases x <;> rfl) h
  fwd := by rw [hdr_all h, (hdr_fold _ _).1]; rfl
  ssl := by rw [hdr_all h, (hdr_fold _ _).2]; rfl
  rewrLoc := appAll_field (·.rewrLoc) rewrLocSet (fun x s s' h => by rw [lstApply_eff h]; cases x <;> rfl) h
  rewrDest := appAll_field (·.rewrDest) rewrDestSet (fun x s s' h => by rw [lstApply_eff h]; cases x <;> rfl) h
  logLevel := appAll_field (·.logLevel) logLevelSet (fun x s s' h => by rw [lstApply_eff h]; cases x <;> rfl) h
  fwdHdr := appAll_opt (·.fwdHdr) fwdHdrSet (fun x s s' h => by rw [lstApply_eff h]; cases x <;> rfl) h rfl
  ctxs := by rw [ctxs_all h]; rfl
  clntCheck := appAll_field (·.clntCheck) clientCertSet (fun x s s' h => by rw [lstApply_eff h]; cases x <;> rfl) h
  disabled := by rw [proto_all h]; exact (max_fold _ _).2.1
  disable := by rw [proto_all h]; exact (max_fold _ _).2.2
  prefOn := by
    have := appAll_field (·.prefOn) honorSet (fun x s s' h => by rw [lstApply_eff h]; cases x <;> rfl) h
    rw [this]
    unfold lastOr
    cases hg : (l.filterMap honorSet).getLast? with
    | none => rfl
    | some b => cases b <;> rfl
  prefOff := by
    have := appAll_field (·.prefOff) (fun x => (honorSet x).map not) (fun x s s' h => by rw [lstApply_eff h]; cases x <;> rfl) h
    rw [this, fm_map]
    unfold lastOr
    rw [List.getLast?_map]
    cases hg : (l.filterMap honorSet).getLast? with
    | none => rfl
    | some b => cases b <;> rfl
  reneg := appAll_field (·.reneg) renegSet (fun x s s' h => by rw [lstApply_eff h]; cases x <;> rfl) h
  legacyOn := by
    have h1 := appAll_field (·.legacyOn) (fun x => (renegSet x).map (· == 2)) (fun x s s' h => by rw [lstApply_eff h]; cases x <;> rfl) h
    have h2 := appAll_field (·.reneg) renegSet (fun x s s' h => by rw [lstApply_eff h]; cases x <;> rfl) h
    rw [h1, h2, fm_map]
    unfold lastOr
    rw [List.getLast?_map]
    cases hg : (l.filterMap renegSet).getLast? with
    | none => rfl
    | some b => rfl
  legacyOff := by
    have h1 := appAll_field (·.legacyOff) (fun x => (renegSet x).map (· != 2)) (fun x s s' h => by rw [lstApply_eff h]; cases x <;> rfl) h
    have h2 := appAll_field (·.reneg) renegSet (fun x s s' h => by rw [lstApply_eff h]; cases x <;> rfl) h
    rw [h1, h2, fm_map]
    unfold lastOr
    rw [List.getLast?_map]
    cases hg : (l.filterMap renegSet).getLast? with
    | none => rfl
    | some b =>
      by_cases hb : b = 2
      · subst hb; rfl
      · simp [hb, bne]
  noHttps11 := appAll_field (·.noHttps11) noHttps11Set (fun x s s' h => by rw [lstApply_eff h]; cases x <;> rfl) h

theorem lst_unique {d : LstDfl} {l : List LstSet} {s s' : LstSt} (h : LstMeans d l s) (h' : LstMeans d l s') : s = s' := by
  have e1 : s.err = s'.err := funext fun c => by rw [h.err, h'.err]
  have e2 : s.hdr = s'.hdr := by
    have := h.fwd.trans h'.fwd.symm
    have := h.ssl.trans h'.ssl.symm
    cases hs : s.hdr; cases hs' : s'.hdr
    simp_all
  have e3 : s.noProto = s'.noProto := by
    have a1 : s.noProto ≤ s'.noProto := by
      rcases h.disable with h0 | h0
      · omega
      · exact h'.disabled _ h0
    have a2 : s'.noProto ≤ s.noProto := by
      rcases h'.disable with h0 | h0
      · omega
      · exact h.disabled _ h0
    omega
  have e4 : s.reneg = s'.reneg := h.reneg.trans h'.reneg.symm
  have e5 : s.legacyOn = s'.legacyOn := by rw [h.legacyOn, h'.legacyOn, e4]
  have e6 : s.legacyOff = s'.legacyOff := by rw [h.legacyOff, h'.legacyOff, e4]
  have a1 := h.addr.trans h'.addr.symm
  have a2 := h.port.trans h'.port.symm
  have a3 := h.sock.trans h'.sock.symm
  have a4 := h.verb.trans h'.verb.symm
  have a5 := h.to.trans h'.to.symm
  have a6 := h.url.trans h'.url.symm
  have a7 := h.maxReq.trans h'.maxReq.symm
  have a8 := h.maxUri.trans h'.maxUri.symm
  have a9 := h.rewrLoc.trans h'.rewrLoc.symm
  have b1 := h.rewrDest.trans h'.rewrDest.symm
  have b2 := h.logLevel.trans h'.logLevel.symm
  have b3 := h.fwdHdr.trans h'.fwdHdr.symm
  have b4 := h.ctxs.trans h'.ctxs.symm
  have b5 := h.clntCheck.trans h'.clntCheck.symm
  have b6 := h.prefOn.trans h'.prefOn.symm
  have b7 := h.prefOff.trans h'.prefOff.symm
  have b8 := h.noHttps11.trans h'.noHttps11.symm
  clear h h'
  cases s
  cases s'
  simp only at *
  subst_vars
  rfl

theorem certsOf_ne {l : List LstSet} : certsOf l ≠ [] ↔ ∃ fs, .cert fs ∈ l ∧ fs ≠ [] := by
  induction l with
  | nil => simp [certsOf]
  | cons x l ih =>
    cases x <;> first
      | (simp only [certsOf, List.mem_cons, reduceCtorEq, false_or]; exact ih)
      | skip
    case cert fs =>
      simp only [certsOf, ne_eq, List.append_eq_nil_iff, List.map_eq_nil_iff, List.mem_cons, LstSet.cert.injEq]
      constructor
      · intro h
        by_cases hf : fs = []
        · have hc : certsOf l ≠ [] := fun hc => h ⟨hf, hc⟩
          obtain ⟨gs, h1, h2⟩ := ih.mp hc
          exact ⟨gs, .inr h1, h2⟩
        · exact ⟨fs, .inl rfl, hf⟩
      · rintro ⟨gs, h1 | h1, h2⟩ ⟨h3, h4⟩
        · exact h2 (h1.trans h3)
        · exact ih.mpr ⟨gs, h1, h2⟩ h4

theorem getLast?_none {α : Type} {l : List α} : l.getLast? = none ↔ l = [] := List.getLast?_eq_none_iff

theorem sockSet_some {x : LstSet} : (sockSet x).isSome = true ↔ ∃ p, x = .sockFrom p := by
  cases x <;> simp [sockSet]

theorem order_of {d : LstDfl} {l : List LstSet} {s : LstSt} (h : appAll lstApply l (lstInit d) = some s) : LstOrder l := by
  have pref : ∀ {pre x post}, l = pre ++ x :: post → ∃ s1, appAll lstApply pre (lstInit d) = some s1 ∧ (lstApply x s1).isSome = true := by
    rintro pre x post rfl
    rw [appAll_app] at h
    obtain ⟨s1, h1, h2⟩ := Option.bind_eq_some_iff.mp h
    simp only [appAll, Option.bind_eq_some_iff] at h2
    obtain ⟨s2, h2, _⟩ := h2
    exact ⟨s1, h1, by rw [h2]; rfl⟩
  refine ⟨?_, ?_, ?_⟩
  · intro pre p post hl
    obtain ⟨s1, h1, h2⟩ := pref hl
    obtain ⟨h3, h4⟩ := (lstApply_some.mp h2).1 rfl
    have hm := lst_means h1
    exact ⟨getLast?_none.mp (by rw [← hm.addr]; exact h3), getLast?_none.mp (by rw [← hm.port]; exact h4)⟩
  · have key : ∀ (post pre : List LstSet), l = pre ++ post → (pre.filterMap urlSet).length ≤ 1 → (l.filterMap urlSet).length ≤ 1 := by
      intro post
      induction post with
      | nil => rintro pre hl hp; rw [hl, List.append_nil]; exact hp
      | cons x post ih =>
        intro pre hl hp
        refine ih (pre ++ [x]) (by simpa using hl) ?_
        rw [List.filterMap_append]
        cases hx : urlSet x with
        | none => simpa [hx] using hp
        | some v =>
          obtain ⟨s1, h1, h2⟩ := pref hl
          have h3 := (lstApply_some.mp h2).2.1 (by rw [hx]; rfl)
          have hm := lst_means h1
          have : pre.filterMap urlSet = [] := getLast?_none.mp (by rw [← hm.url]; exact h3)
          rw [this]
          simp [hx]
    exact key l [] rfl (by simp)
  · intro pre x post hl hx
    obtain ⟨s1, h1, h2⟩ := pref hl
    have h3 := (lstApply_some.mp h2).2.2 hx
    rw [(lst_means h1).ctxs] at h3
    exact certsOf_ne.mp h3

theorem order_pre {l l' : List LstSet} (h : LstOrder (l ++ l')) : LstOrder l where
  sock := fun pre p post hl => h.sock pre p (post ++ l') (by rw [hl]; simp)
  url := by
    have := h.url
    rw [List.filterMap_append, List.length_append] at this
    omega
  certs := fun pre x post hl hx => h.certs pre x (post ++ l') (by rw [hl]; simp) hx

theorem of_order {d : LstDfl} (l : List LstSet) (h : LstOrder l) : ∃ s, appAll lstApply l (lstInit d) = some s := by
  have key : ∀ (post pre : List LstSet), l = pre ++ post → (∃ s, appAll lstApply pre (lstInit d) = some s) → ∃ s, appAll lstApply l (lstInit d) = some s := by
    intro post
    induction post with
    | nil => rintro pre hl hp; rw [hl, List.append_nil]; exact hp
    | cons x post ih =>
      rintro pre hl ⟨s1, h1⟩
      refine ih (pre ++ [x]) (by simpa using hl) ?_
      have hm := lst_means h1
      have : (lstApply x s1).isSome = true := by
        rw [lstApply_some]
        refine ⟨fun hx => ?_, fun hx => ?_, fun hx => ?_⟩
        · obtain ⟨p, rfl⟩ := sockSet_some.mp hx
          obtain ⟨h2, h3⟩ := h.sock pre p post hl
          rw [hm.addr, hm.port, h2, h3]
          exact ⟨rfl, rfl⟩
        · have h2 := h.url
          rw [hl, List.filterMap_append, List.length_append] at h2
          obtain ⟨v, hv⟩ := Option.isSome_iff_exists.mp hx
          rw [List.filterMap_cons, hv, List.length_cons] at h2
          have : (pre.filterMap urlSet) = [] := List.eq_nil_of_length_eq_zero (by omega)
          rw [hm.url, this]
          rfl
        · rw [hm.ctxs]
          exact certsOf_ne.mpr (h.certs pre x post hl hx)
      obtain ⟨s2, h2⟩ := Option.isSome_iff_exists.mp this
      refine ⟨s2, ?_⟩
      rw [appAll_append, h1]
      exact h2
  exact key l [] rfl ⟨_, rfl⟩

theorem lst_iff {d : LstDfl} {l : List LstSet} {s : LstSt} : appAll lstApply l (lstInit d) = some s ↔ LstOrder l ∧ LstMeans d l s := by
  constructor
  · intro h; exact ⟨order_of h, lst_means h⟩
  · rintro ⟨h1, h2⟩
    obtain ⟨s', h3⟩ := of_order (d := d) l h1
    rw [lst_unique h2 (lst_means h3)]
    exact h3

/-! ### Addresses and client certificates -/

theorem resolve_iff {e : LstEnv} {d : LstDfl} {l : List LstSet} {s : LstSt} (h : LstMeans d l s) {dp : Bytes} {a : LAddr} :
    lstResolve e s dp = some a ↔ ListensAt e dp l a := by
  have hp : s.portStr.getD dp = lastOr dp (l.filterMap lportSet) := by rw [h.port]; rfl
  unfold lstResolve
  rw [hp, h.addr]
  cases hs : s.sock with
  | some p =>
    rw [h.sock] at hs
    have hne : l.filterMap sockSet ≠ [] := fun h0 => by rw [h0] at hs; cases hs
    dsimp only
    constructor
    · intro h1; cases h1; exact .sockFrom hs
    · intro h1
      cases h1 with
      | sockFrom h2 => rw [hs] at h2; cases h2; rfl
      | first h2 => exact absurd h2 hne
      | second h2 => exact absurd h2 hne
  | none =>
    rw [h.sock] at hs
    have hn := getLast?_none.mp hs
    dsimp only
    cases hg : e.gai (l.filterMap laddrSet).getLast? (lastOr dp (l.filterMap lportSet)) with
    | nil =>
      constructor
      · intro h1; cases h1
      · intro h1
        cases h1 with
        | sockFrom h2 => rw [hs] at h2; cases h2
        | first _ h2 => rw [hg] at h2; cases h2
        | second _ h2 => rw [hg] at h2; cases h2
    | cons x t =>
      cases t with
      | nil =>
        dsimp only
        constructor
        · intro h1; cases h1; exact .first hn hg (by intro b r' h; cases h)
        · intro h1
          cases h1 with
          | sockFrom h2 => rw [hs] at h2; cases h2
          | first _ h2 => rw [hg] at h2; cases h2; rfl
          | second _ h2 => rw [hg] at h2; cases h2
      | cons y t =>
        dsimp only
        by_cases hc : x.v6 = false ∧ x.any = true ∧ y.v6 = true ∧ y.any = true
        · rw [if_pos hc]
          constructor
          · intro h1; cases h1; exact .second hn hg ⟨hc.1, hc.2.1⟩ hc.2.2
          · intro h1
            cases h1 with
            | sockFrom h2 => rw [hs] at h2; cases h2
            | first _ h2 h3 => rw [hg] at h2; cases h2; exact absurd ⟨⟨hc.1, hc.2.1⟩, hc.2.2⟩ (h3 _ _ rfl)
            | second _ h2 => rw [hg] at h2; cases h2; rfl
        · rw [if_neg hc]
          constructor
          · intro h1
            cases h1
            refine .first hn hg ?_
            intro b r' h2 h3
            cases h2
            exact hc ⟨h3.1.1, h3.1.2, h3.2⟩
          · intro h1
            cases h1 with
            | sockFrom h2 => rw [hs] at h2; cases h2
            | first _ h2 => rw [hg] at h2; cases h2; rfl
            | second _ h2 h3 h4 => rw [hg] at h2; cases h2; exact absurd ⟨h3.1, h3.2, h4⟩ hc

/-- The modes of ClientCert are not negative. -/
theorem clntCheck_iff {d : LstDfl} {l : List LstSet} {s : LstSt} (h : LstMeans d l s) (hl : ∀ x ∈ l, ∀ m, clientCertSet x = some m → 0 ≤ m) :
    s.clntCheck = -1 ↔ l.filterMap clientCertSet = [] := by
  rw [h.clntCheck]
  unfold lastOr
  cases hg : (l.filterMap clientCertSet).getLast? with
  | none => rw [getLast?_none.mp hg]; simp
  | some m =>
    have hm := List.mem_of_getLast? hg
    obtain ⟨x, hx, hx2⟩ := List.mem_filterMap.mp hm
    have := hl x hx m hx2
    simp only [Option.getD_some]
    constructor
    · intro h; omega
    · intro h; rw [h] at hm; cases hm

theorem certs_iff {d : LstDfl} {l : List LstSet} {s : LstSt} (h : LstMeans d l s) (hl : ∀ x ∈ l, ∀ m, clientCertSet x = some m → 0 ≤ m) {tls : Bool} {certs : List Bytes}
    {e : LstEnv} {a : LAddr} {s' : LstSt} : lstFinish e tls certs s = some (a, s') ↔
      ListensAt e (if tls then b!"443" else b!"80") l a ∧ (tls = true → certsOf l ≠ []) ∧ ClientCerts tls certs l s s' := by
  unfold lstFinish
  cases hr : lstResolve e s (if tls then b!"443" else b!"80") with
  | none =>
    constructor
    · intro h1; cases h1
    · rintro ⟨h1, _⟩
      rw [← resolve_iff h, hr] at h1
      cases h1
  | some a' =>
    have ha : ListensAt e (if tls then b!"443" else b!"80") l a ↔ a' = a := by
      rw [← resolve_iff h, hr, Option.some.injEq]
    dsimp only
    rw [ha, ← h.ctxs]
    have hck := clntCheck_iff h hl
    cases tls with
    | false =>
      simp only [Bool.false_eq_true, if_false, false_implies, true_and]
      by_cases hc : certs = []
      · rw [if_pos hc]
        constructor
        · intro h1; cases h1; exact ⟨rfl, ⟨fun _ => hc, fun _ => rfl, fun h => absurd hc h, fun h => absurd hc h⟩⟩
        · rintro ⟨rfl, h1⟩; rw [h1.same hc]
      · rw [if_neg hc]
        constructor
        · intro h1; cases h1
        · rintro ⟨rfl, h1⟩; exact absurd (h1.plain rfl) hc
    | true =>
      simp only [if_true, true_implies]
      by_cases hx : s.ctxs = []
      · rw [if_pos hx]
        constructor
        · intro h1; cases h1
        · rintro ⟨_, h1, _⟩; exact absurd hx h1
      · rw [if_neg hx]
        simp only [Option.map_eq_some_iff, Prod.mk.injEq]
        unfold flushCerts
        by_cases hc : certs = []
        · rw [if_pos hc]
          constructor
          · rintro ⟨s1, h1, rfl, rfl⟩; cases h1
            exact ⟨rfl, hx, ⟨fun h => (by cases h), fun _ => rfl, fun h => absurd hc h, fun h => absurd hc h⟩⟩
          · rintro ⟨rfl, _, h1⟩; exact ⟨s, rfl, rfl, (h1.same hc).symm⟩
        · rw [if_neg hc]
          by_cases hk : s.clntCheck = -1
          · rw [if_neg (by simp [hk])]
            constructor
            · rintro ⟨s1, h1, rfl, rfl⟩; cases h1
              refine ⟨rfl, hx, ⟨fun h => (by cases h), fun h => absurd h hc, fun _ => hck.mp hk, fun _ => ?_⟩⟩
              simp only [List.append_assoc]
            · rintro ⟨rfl, _, h1⟩
              refine ⟨_, rfl, rfl, ?_⟩
              rw [h1.ask hc]
              simp only [List.append_assoc]
          · rw [if_pos hk]
            constructor
            · rintro ⟨s1, h1, _⟩; cases h1
            · rintro ⟨_, _, h1⟩; exact absurd (hck.mpr (h1.free hc)) hk

theorem args_mode {e : LstEnv} {d : LstDfl} {tls : Bool} {w : Bytes} {a : List Tok} {x : LstSet} (h : ListenArgs e d tls w a x) {m : Int} (hm : clientCertSet x = some m) : 0 ≤ m := by
  cases tls with
  | false => cases h <;> cases hm
  | true =>
    cases h with
    | http h => cases h <;> cases hm
    | noClientCert _ => cases hm; decide
    | clientCert _ h _ _ => cases hm; omega
    | _ => cases hm

theorem body_mode {ω : Type} {e : LstEnv} {d : LstDfl} {tls : Bool} {other : List Tok → ω → ω → Prop} {t : List Tok} {l : List LstSet} {o o' : ω}
    (h : SetBody (ListenArgs e d tls) other t l o o') : ∀ x ∈ l, ∀ m, clientCertSet x = some m → 0 ≤ m := by
  induction h with
  | stop _ => intro x hx; cases hx
  | blank _ ih => exact ih
  | set h1 _ _ ih =>
    intro x hx m hm
    rcases List.mem_cons.mp hx with rfl | hx
    · exact args_mode h1 hm
    · exact ih x hx m hm
  | other _ _ ih => exact ih

theorem body_start {ω : Type} {e : LstEnv} {d : LstDfl} {tls : Bool} {other : List Tok → ω → ω → Prop} {t : List Tok} {l : List LstSet} {o o' : ω}
    (h : SetBody (ListenArgs e d tls) other t l o o') (ho : ∀ t o o', other t o o' → ∃ n a, t = .ident n :: a) : ∀ s r, t ≠ .string s :: r := by
  intro s r ht
  cases h with
  | stop _ => cases ht
  | blank _ => cases ht
  | set _ _ _ => cases ht
  | other h1 _ =>
    obtain ⟨n, a, rfl⟩ := ho _ _ _ h1
    cases ht

theorem body_ne {ω : Type} {e : LstEnv} {d : LstDfl} {tls : Bool} {other : List Tok → ω → ω → Prop} {t : List Tok} {l : List LstSet} {o o' : ω}
    (h : SetBody (ListenArgs e d tls) other t l o o') (ho : ∀ t o o', other t o o' → ∃ n a, t = .ident n :: a) : t ≠ [] := by
  cases h with
  | stop _ => simp
  | blank _ => simp
  | set _ _ _ => simp
  | other h1 _ =>
    obtain ⟨n, a, rfl⟩ := ho _ _ _ h1
    simp

theorem listen_sound {ω : Type} {e : LstEnv} {d : LstDfl} {N : Nat} {other : Bytes → Option (LParser ω)} {ostmt : List Tok → ω → ω → Prop} (ho : OtherSpec N other ostmt)
    {init : ω} {certs : ω → List Bytes} {tls : Bool} {n : Nat} (hd : ∀ w p, other w = some p → lstFind e d tls w = none) {ls ls' : List (Lst ω)} {ts r : List Tok} {er er' : Nat}
    (h : listenParser e d other init certs tls n ⟨ls, ts, er⟩ = .ok ⟨ls', r, er'⟩) : er ≤ er' ∧ (er' = er → ∃ t x, ts = t ++ r ∧ ls' = ls ++ [x] ∧ x.tls = tls ∧
      Listens e d ostmt init certs (ls.filterMap (·.name)) t x) := by
  have go : ∀ {name : Option Bytes} {body : List Tok}, (match cfgL (bothFind (lstFind e d tls) other) false true n ⟨(lstInit d, init), body, er⟩ with
      | .ok s2 =>
        match lstFinish e tls (certs s2.data.2) s2.data.1 with
        | none => .fail
        | some (a, st) => .ok ⟨ls ++ [⟨name, tls, a, st, s2.data.2⟩], s2.toks, s2.errs⟩
      | _ => .fail) = LR.ok ⟨ls', r, er'⟩ → er ≤ er' ∧ (er' = er → ∃ t l s a st o, body = t ++ r ∧ ls' = ls ++ [⟨name, tls, a, st, o⟩] ∧
        SetBody (ListenArgs e d tls) ostmt t l init o ∧ LstOrder l ∧ LstMeans d l s ∧ (tls = true → certsOf l ≠ []) ∧
        ListensAt e (if tls then b!"443" else b!"80") l a ∧ ClientCerts tls (certs o) l s st) := by
    intro name body hg
    split at hg
    · rename_i s2 h2
      obtain ⟨⟨st0, o⟩, r2, e2⟩ := s2
      dsimp only at hg
      split at hg
      · cases hg
      · rename_i a st h3
        simp only [LR.ok.injEq, LSt.mk.injEq] at hg
        obtain ⟨h4, h5, h6⟩ := hg
        subst h5 h6
        obtain ⟨h7, h8⟩ := sect_sound (both_spec (lstFind_spec e d tls N) ho hd) n _ _ _ _ _ _ h2
        refine ⟨h7, fun he => ?_⟩
        obtain ⟨t, h9, h10⟩ := h8 he
        obtain ⟨l, h11, h12⟩ := sect_body h10
        dsimp only at h11 h12
        obtain ⟨h13, h14⟩ := lst_iff.mp h12
        obtain ⟨h15, h16, h17⟩ := (certs_iff h14 (body_mode h11)).mp h3
        exact ⟨t, l, st0, a, st, o, h9, h4.symm, h11, h13, h14, h16, h15, h17⟩
    · cases hg
  unfold listenParser at h
  dsimp only at h
  split at h
  · rename_i nm r0
    split at h
    · cases h
    · rename_i hn
      obtain ⟨h1, h2⟩ := go h
      refine ⟨h1, fun he => ?_⟩
      obtain ⟨t, l, s, a, st, o, rfl, h4, h5, h6, h7, h8, h9, h10⟩ := h2 he
      refine ⟨.string nm :: t, _, rfl, h4, rfl, ⟨t, l, s, .inr ⟨nm, rfl, rfl, ?_⟩, h5, h6, h7, h8, h9, h10⟩⟩
      intro hm
      apply hn
      obtain ⟨y, hy, hy2⟩ := List.mem_filterMap.mp hm
      rw [List.any_eq_true]
      exact ⟨y, hy, by simp [hy2]⟩
  · obtain ⟨h1, h2⟩ := go h
    refine ⟨h1, fun he => ?_⟩
    obtain ⟨t, l, s, a, st, o, rfl, h4, h5, h6, h7, h8, h9, h10⟩ := h2 he
    exact ⟨t, _, rfl, h4, rfl, ⟨t, l, s, .inl ⟨rfl, rfl⟩, h5, h6, h7, h8, h9, h10⟩⟩

theorem listen_complete {ω : Type} {e : LstEnv} {d : LstDfl} {N : Nat} {other : Bytes → Option (LParser ω)} {ostmt : List Tok → ω → ω → Prop} (ho : OtherSpec N other ostmt)
    (hs : ∀ t o o', ostmt t o o' → ∃ n a, t = .ident n :: a)
    {init : ω} {certs : ω → List Bytes} {ls : List (Lst ω)} {t : List Tok} {x : Lst ω} (hd : ∀ w p, other w = some p → lstFind e d x.tls w = none)
    (h : Listens e d ostmt init certs (ls.filterMap (·.name)) t x) {n : Nat} (hn : t.length ≤ n) (hN : t.length ≤ N) (r : List Tok) (er : Nat) :
    listenParser e d other init certs x.tls n ⟨ls, t ++ r, er⟩ = .ok ⟨ls ++ [x], r, er⟩ := by
  obtain ⟨body, l, s, h1, h2, h3, h4, h5, h6, h7⟩ := h.settings
  have ha := (lst_iff (d := d)).mpr ⟨h3, h4⟩
  have hf := (certs_iff h4 (body_mode h2)).mpr ⟨h6, h5, h7⟩
  have hb : body.length ≤ t.length := by
    rcases h1 with ⟨rfl, _⟩ | ⟨nm, rfl, _⟩
    · exact Nat.le_refl _
    · simp
  have hc := sect_complete (both_spec (lstFind_spec e d x.tls N) ho hd) (body_sect h2 ha) n (by omega) (by omega) r er
  unfold listenParser
  dsimp only
  rcases h1 with ⟨rfl, hnm⟩ | ⟨nm, rfl, hnm, hm⟩
  · split
    · rename_i s' r' heq
      exfalso
      cases ht : t with
      | nil => exact body_ne h2 hs ht
      | cons u t' =>
        rw [ht] at heq
        cases heq
        exact body_start h2 hs _ _ ht
    · rw [hc]
      dsimp only
      rw [hf]
      dsimp only
      cases x
      simp only at hnm
      rw [hnm]
  · dsimp only [List.cons_append]
    rw [if_neg]
    · rw [hc]
      dsimp only
      rw [hf]
      dsimp only
      cases x
      simp only at hnm
      rw [hnm]
    · intro hany
      obtain ⟨y, hy, hy2⟩ := List.any_eq_true.mp hany
      apply hm
      rw [List.mem_filterMap]
      exact ⟨y, hy, by simpa using hy2⟩

end Pound
