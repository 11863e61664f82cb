import Verif.Props.FullFail
import Verif.Proof.DynStep

/-!
C22 and C101: how the requests to a service are shared by its backends, with weighted round robin, in terms of requests and of the text of a configuration.
-/

namespace Pound.Props
open Pound Spec

/-- Successive requests without a session, at any times: the backends that they are given. -/
def requestsGiven (ttl : Nat) (now : Nat → TS) (n : Nat) : Nat → SvcSt → Option (List Nat × SvcSt)
  | 0, s => some ([], s)
  | m + 1, s =>
    match s.getBackend ttl (now m) n (fun _ => []) none with
    | .done (some id) s => (requestsGiven ttl now n m s).map fun r => (id :: r.1, r.2)
    | _ => none

theorem lbSelect_skip (n : Nat) {bal : Bal} {post : List Bal} {b : Be} {bal' : Bal} (h : balSelect n [] bal = .done (some b) bal') :
    ∀ pre : List Bal, (∀ x ∈ pre, ∃ c, x.backends = [c] ∧ ¬ Active c) → lbSelect n (fun _ => []) (pre ++ bal :: post) = .done (some b) (pre ++ bal' :: post)
  | [], _ => by
    rw [List.nil_append, lbSelect, h]
    rfl
  | x :: pre, hp => by
    obtain ⟨c, h1, h2⟩ := hp x (by simp)
    have hx : balSelect n [] x = .done none x := by
      unfold balSelect
      rw [h1]
      dsimp only
      rw [if_neg (fun hc => h2 ((isActive_iff c).1 hc))]
    rw [List.cons_append, lbSelect, hx]
    dsimp only
    rw [lbSelect_skip n h pre (fun y hy => hp y (by simp [hy]))]
    rfl

theorem requests_of (ttl : Nat) (now : Nat → TS) (n : Nat) {pre post : List Bal} (hp : ∀ x ∈ pre, ∃ c, x.backends = [c] ∧ ¬ Active c) :
    ∀ (m : Nat) (s : SvcSt) (bal : Bal) {l bal'}, s.bals = pre ++ bal :: post → 0 < bal.actNum → CursorOk bal → selections n m bal = some (l, bal') →
      requestsGiven ttl now n m s = some (l.map (·.id), { s with bals := pre ++ bal' :: post })
  | 0, s, bal, l, bal', hs, _, _, h => by
    simp only [selections, Option.some.injEq, Prod.mk.injEq] at h
    obtain ⟨rfl, rfl⟩ := h
    rw [requestsGiven, ← hs]
    rfl
  | m + 1, s, bal, l, bal', hs, ha, hc, h => by
    rw [selections] at h
    split at h
    · rename_i b bal1 hb
      obtain ⟨r, hr, he⟩ := Option.map_eq_some_iff.mp h
      obtain ⟨l1, bal2⟩ := r
      simp only [Prod.mk.injEq] at he
      obtain ⟨rfl, rfl⟩ := he
      obtain ⟨q1, q2⟩ := balSelect_same hc hb
      have hg : s.getBackend ttl (now m) n (fun _ => []) none = .done (some b.id) { s with bals := pre ++ bal1 :: post } := by
        unfold SvcSt.getBackend
        have hh : s.hasBackends = true := by
          unfold SvcSt.hasBackends
          rw [hs]
          simp [ha]
        rw [if_pos hh]
        dsimp only
        unfold SvcSt.lb
        rw [hs, lbSelect_skip n hb pre hp]
        rfl
      rw [requestsGiven, hg]
      dsimp only
      rw [requests_of ttl now n hp m _ bal1 rfl (by rw [← q1.2.2.1]; exact ha) q2 hr]
      rfl
    · cases h

theorem count_ids {bs : List Be} (hn : (bs.map (·.id)).Nodup) {b : Be} (hb : b ∈ bs) : ∀ l : List Be, (∀ x ∈ l, x ∈ bs) → (l.map (·.id)).count b.id = l.count b
  | [], _ => rfl
  | x :: l, h => by
    rw [List.map_cons, List.count_cons, List.count_cons, count_ids hn hb l fun y hy => h y (by simp [hy])]
    congr 1
    by_cases e : x = b
    · subst e; simp
    · have hne : x.id ≠ b.id := fun hc => e (nodup_map_inj hn (h x (by simp)) hb hc)
      rw [if_neg (by simpa using hne), if_neg (by simpa using e)]

/-- Weighted round robin in terms of requests: if the groups before hold single backends that cannot be used, and some backend of a group can, then of requests without a session, in as many
as the priorities of the backends that can be used in this group add up to, or any multiple of that, each of these backends is given exactly as many as its priority, times that multiple;
and no other backend is given any.
With several backends in a group before, this strategy does not come to this one (C20_emergency_fails). -/
theorem C22_requests {ttl : Nat} {now : Nat → TS} {s : SvcSt} (hok : BalsOk s.bals) {pre post : List Bal} {bal : Bal} (hs : s.bals = pre ++ bal :: post)
    (hp : ∀ x ∈ pre, ∃ c, x.backends = [c] ∧ ¬ Active c) (ha : bal.algo = .iwrr) (hact : ∃ b ∈ bal.backends, Active b) (cycles : Nat) :
    ∃ N ids s', (∀ n, N ≤ n → requestsGiven ttl now n (cycles * prioSum bal.backends) s = some (ids, s')) ∧
      (∀ b ∈ bal.backends, ids.count b.id = cycles * if Active b then b.prio else 0) ∧ (∀ id ∈ ids, ∃ b ∈ bal.backends, b.id = id ∧ Active b) := by
  have hm : bal ∈ s.bals := by rw [hs]; simp
  have hids : (bal.backends.map (·.id)).Nodup := by
    have h1 := hok.cfg.distinct
    rw [hs, List.flatMap_append, List.flatMap_cons, List.map_append, List.map_append] at h1
    exact (List.nodup_append.mp (List.nodup_append.mp h1).2.1).1
  have hnd : bal.backends.Nodup := List.Pairwise.of_map (·.id) (fun a b h e => h (congrArg _ e)) hids
  obtain ⟨N, l, bal', h1, h2, h3, -⟩ := C22_fair ha (hok.totals bal hm) (hok.cursor bal hm) (hok.cfg.nonempty bal hm) hnd cycles
  have hpos : 0 < bal.actNum := by
    rw [(hok.totals bal hm).count]
    obtain ⟨b, hb, hba⟩ := hact
    exact List.length_pos_of_mem (List.mem_filter.2 ⟨hb, by simpa using hba⟩)
  refine ⟨N, _, _, fun n hn => requests_of ttl now n hp _ s bal hs hpos (hok.cursor bal hm) (h1 n hn), fun b hb => ?_, fun id hid => ?_⟩
  · rw [count_ids hids hb l fun x hx => (h3 x hx).1]
    exact h2 b hb
  · obtain ⟨b, hb, rfl⟩ := List.mem_map.mp hid
    exact ⟨b, (h3 b hb).1, rfl, (h3 b hb).2⟩

/-! ### From the text -/

/-- What never changes about balancers: the strategy, and the numbers and priorities of backends -/
def shareFrame (bals : List Bal) : List (Algo × List (Nat × Nat)) := bals.map fun bal => (bal.algo, bal.backends.map fun b => (b.id, b.prio))

theorem share_updated {f : Be → Be} (hf : Light f) {a b : List Bal} (h : Updated f a b) : shareFrame b = shareFrame a := by
  obtain ⟨F, rfl, hF⟩ := h
  unfold shareFrame
  rw [List.map_map]
  refine List.map_congr_left fun bal hb => ?_
  rw [Function.comp, (hF bal hb).1, List.map_map, (hF bal hb).2.1.1]
  congr 1
  refine List.map_congr_left fun x _ => ?_
  rw [Function.comp, (hf x).1, (hf x).2.1]

theorem share_same {a b : List Bal} (h : SameBals a b) : shareFrame b = shareFrame a := by
  induction h with
  | nil => rfl
  | cons h1 _ ih =>
    unfold shareFrame at *
    rw [List.map_cons, List.map_cons, ih, h1.2.2.2.1, h1.1]

theorem share_reach {ttl : Nat} {bals : List Bal} {t0 : TS} (hb : BalsOk bals) {s : SvcSt} {t : TS} (h : SvcReach ttl bals t0 s t) : shareFrame s.bals = shareFrame bals := by
  induction h with
  | init => rfl
  | backend e hr ih => rw [← ih]; exact share_updated (evEffect_light e) (event_updated (svcReach_ok hb hr).bals e)
  | request hr hn hg ih => rw [← ih]; exact share_same (getBackend_done ((svcReach_ok hb hr).later hn) hg).2.1
  | @response s t now key b _ _ _ _ ih =>
    rw [← ih]
    unfold SvcSt.updSession
    cases key with
    | none => rfl
    | some k => dsimp only; split <;> rfl
  | expire _ _ ih => exact ih
  | remove _ _ ih => exact ih

theorem be_prio (i : Nat) (f : FBe) : (f.be i).prio = f.prio.toNat := by
  unfold FBe.be
  split <;> rfl

/-- The groups of a service are those that were declared, with the priorities that were. -/
theorem reach_groups {algo : Algo} {fs : List FGrp} (hf : ∀ g ∈ fs, g.bes ≠ [] ∧ g.bes.length ≤ 2 ^ 47 ∧ ∀ b ∈ g.bes, 1 ≤ b.prio ∧ b.prio ≤ 65535)
    (hb : BalsOk (finalBals algo 0 fs)) {ttl : Nat} {t0 : TS} {s : SvcSt} {t : TS} (h : SvcReach ttl (finalBals algo 0 fs) t0 s t) :
    (∀ (k : Nat) (bal : Bal), s.bals[k]? = some bal → bal.algo = algo ∧ ∀ b ∈ bal.backends, ∃ f, Numbered fs b.id k f ∧ b.prio = f.prio.toNat) ∧
    ∀ id k f, Numbered fs id k f → ∃ bal b, s.bals[k]? = some bal ∧ b ∈ bal.backends ∧ b.id = id ∧ b.prio = f.prio.toNat := by
  have hg : GroupsFit fs := fun x hx => (hf x hx).2
  obtain ⟨-, -, b3⟩ := finalBals_spec algo 0 fs hf
  have hfr := share_reach hb h
  have hat : ∀ (k : Nat) (bal : Bal), s.bals[k]? = some bal → ∃ bal0, (finalBals algo 0 fs)[k]? = some bal0 ∧ bal.algo = bal0.algo ∧
      (bal.backends.map fun b => (b.id, b.prio)) = bal0.backends.map fun b => (b.id, b.prio) := by
    intro k bal hk
    have h1 : (shareFrame s.bals)[k]? = some (bal.algo, bal.backends.map fun b => (b.id, b.prio)) := by
      unfold shareFrame
      rw [List.getElem?_map, hk]
      rfl
    rw [hfr] at h1
    unfold shareFrame at h1
    rw [List.getElem?_map] at h1
    cases hq : (finalBals algo 0 fs)[k]? with
    | none => rw [hq] at h1; cases h1
    | some bal0 =>
      rw [hq] at h1
      simp only [Option.map_some, Option.some.injEq, Prod.mk.injEq] at h1
      exact ⟨bal0, rfl, h1.1.symm, h1.2.symm⟩
  refine ⟨fun k bal hk => ?_, ?_⟩
  · obtain ⟨bal0, h1, h2, h3⟩ := hat k bal hk
    refine ⟨h2.trans (b3 bal0 (List.mem_of_getElem? h1)).1, fun b hbm => ?_⟩
    obtain ⟨g, h4, h5⟩ := finalBals_at algo 0 fs k bal0 hg h1
    have hm := List.mem_map_of_mem (f := fun b : Be => (b.id, b.prio)) hbm
    rw [h3, h5] at hm
    obtain ⟨x, hx, hxe⟩ := List.mem_map.mp hm
    obtain ⟨p, f, h6, rfl⟩ := numberBes_at _ _ _ hx
    simp only [Prod.mk.injEq, be_id, be_prio] at hxe
    exact ⟨f, ⟨g, p, h4, h6, by omega⟩, hxe.2.symm⟩
  · rintro id k f ⟨g, p, h1, h2, rfl⟩
    obtain ⟨bal0, h3⟩ := finalBals_some algo 0 fs k g h1
    obtain ⟨g', h4, h5⟩ := finalBals_at algo 0 fs k bal0 hg h3
    rw [h1] at h4
    cases h4
    have hlen : s.bals.length = (finalBals algo 0 fs).length := by
      have := congrArg List.length hfr
      unfold shareFrame at this
      simpa using this
    have hk : k < s.bals.length := by
      rw [hlen]
      exact (List.getElem?_eq_some_iff.mp h3).1
    obtain ⟨bal1, h6, -, h7⟩ := hat k s.bals[k] (List.getElem?_eq_getElem hk)
    rw [h3] at h6
    cases h6
    have hm := List.mem_map_of_mem (f := fun b : Be => (b.id, b.prio)) (numberBes_mem (0 + ((fs.take k).flatMap (·.bes)).length) g.bes p f h2)
    rw [← h5, ← h7] at hm
    obtain ⟨x, hx, hxe⟩ := List.mem_map.mp hm
    simp only [Prod.mk.injEq, be_id, be_prio] at hxe
    exact ⟨_, x, List.getElem?_eq_getElem hk, hx, by omega, hxe.2⟩

theorem numberBes_length : ∀ (i : Nat) (l : List FBe), (numberBes i l).length = l.length
  | _, [] => rfl
  | i, x :: t => by rw [numberBes, List.length_cons, List.length_cons, numberBes_length]

/-- The groups have as many backends as were declared. -/
theorem reach_lengths {algo : Algo} {fs : List FGrp} (hf : ∀ g ∈ fs, g.bes ≠ [] ∧ g.bes.length ≤ 2 ^ 47 ∧ ∀ b ∈ g.bes, 1 ≤ b.prio ∧ b.prio ≤ 65535)
    (hb : BalsOk (finalBals algo 0 fs)) {ttl : Nat} {t0 : TS} {s : SvcSt} {t : TS} (h : SvcReach ttl (finalBals algo 0 fs) t0 s t) :
    ∀ (k : Nat) (g : FGrp), fs[k]? = some g → ∃ bal, s.bals[k]? = some bal ∧ bal.backends.length = g.bes.length := by
  intro k g h1
  have hfr := share_reach hb h
  obtain ⟨bal0, h3⟩ := finalBals_some algo 0 fs k g h1
  obtain ⟨g', h4, h5⟩ := finalBals_at algo 0 fs k bal0 (fun x hx => (hf x hx).2) h3
  rw [h1] at h4
  cases h4
  have h6 := congrArg (fun l => l[k]?) hfr
  unfold shareFrame at h6
  rw [List.getElem?_map, List.getElem?_map, h3] at h6
  cases hq : s.bals[k]? with
  | none => rw [hq] at h6; cases h6
  | some bal =>
    rw [hq] at h6
    simp only [Option.map_some, Option.some.injEq, Prod.mk.injEq] at h6
    refine ⟨bal, rfl, ?_⟩
    have := congrArg List.length h6.2
    rw [List.length_map, List.length_map, h5, numberBes_length] at this
    exact this

/-- How requests are shared in a documented configuration with `Balancer iwrr`: it is accepted, and whatever has happened in a service of it, there is a number such that, of that many
requests without a session, or any multiple of it, each backend that can be used in the first group which has one (the Emergency backends being the last) is given exactly as many as its Priority
in the text, times that multiple; and no other backend is given any.
Groups before this one have to have one backend each, see `C101_endless_fails`.
Missing: as in `C22_requests` and `C101_served_partial`; requests between which backends fail or come back. -/
theorem C101_shares_partial (e : TopEnv) (t : List Tok) (g : Glob) (o : FullObjs) (h : FullConfigures e t g o) (hp : PlainText t) (hn : ∀ nb ∈ o.named, nb.m.host ≠ none) :
    ∃ o' N, (∀ n, N ≤ n → parseFull e n t = some (g, o', 0)) ∧
      ∀ (j i : Nat) (l : Lst LOther) (v : FullSvc), o.lsts[j]? = some l → (l.other.svcs ++ o.svcs)[i]? = some v → v.rest.bes.algo = .iwrr →
        ∃ l' v', o'.lsts[j]? = some l' ∧ (l'.other.svcs ++ o'.svcs)[i]? = some v' ∧
          ∀ (fe : FinEnv) (fs : List FGrp), Each (GroupFinal fe o.named) v.rest.bes.groups fs → (∀ g ∈ fs, g.bes.length ≤ 2 ^ 47) →
            serviceFinalize fe o'.named v'.rest.bes.groups = .ok (some fs) ∧
            ∀ (t0 : TS) (s : SvcSt) (last : TS) (now : Nat → TS) (k : Nat), SvcReach v'.rest.sess.ttl (finalBals v'.rest.bes.algo 0 fs) t0 s last → (∀ q gq, q < k → fs[q]? = some gq → gq.bes.length = 1) →
              (∃ b f, b ∈ s.all ∧ Active b ∧ Numbered fs b.id k f) → (∀ b ∈ s.all, Active b → ∃ k' f', Numbered fs b.id k' f' ∧ k ≤ k') →
              ∃ total, 0 < total ∧ ∀ cycles, ∃ M ids s', (∀ n, M ≤ n → requestsGiven v'.rest.sess.ttl now n (cycles * total) s = some (ids, s')) ∧
                (∀ id f, Numbered fs id k f → ∃ b ∈ s.all, b.id = id ∧ ids.count id = cycles * if Active b then f.prio.toNat else 0) ∧ (∀ id ∈ ids, ∃ f, Numbered fs id k f) := by
  have hfit := full_fit h
  obtain ⟨o', N, h1, h2⟩ := C101_served_partial e t g o h hp hn
  refine ⟨o', N, h1, fun j i l v hj hi halgo => ?_⟩
  obtain ⟨l', v', g1, g2, g3, g4⟩ := h2 j i l v hj hi
  refine ⟨l', v', g1, g2, fun fe fs hf hl => ⟨(g4 fe fs hf hl).1, fun t0 s last now k hr hbefore hex hfirst => ?_⟩⟩
  have hv : SvcFit v := by
    rcases List.mem_append.mp (List.mem_of_getElem? hi) with hm | hm
    · exact hfit.lsts l (List.mem_of_getElem? hj) v hm
    · exact hfit.svcs v hm
  obtain ⟨be, bd, algo, u, items, hi1, hi2⟩ := hv
  obtain ⟨q1, q2⟩ := final_groups hi1 hi2 hfit.prio hf
  have hg : ∀ x ∈ fs, x.bes ≠ [] ∧ x.bes.length ≤ 2 ^ 47 ∧ ∀ b ∈ x.bes, 1 ≤ b.prio ∧ b.prio ≤ 65535 := fun x hx => ⟨(q1 x hx).1, hl x hx, (q1 x hx).2⟩
  obtain ⟨b1, b2, b3⟩ := finalBals_spec v.rest.bes.algo 0 fs hg
  have hb : BalsOk (finalBals v.rest.bes.algo 0 fs) := by
    refine ⟨⟨?_, fun bal hb => (b3 bal hb).2.2.2.1, fun bal hb => (b3 bal hb).2.2.2.2.1, fun bal hb => (b3 bal hb).2.2.2.2.2⟩, fun bal hb => (b3 bal hb).2.1,
      fun bal hb => (b3 bal hb).2.2.1⟩
    rw [b1]
    exact List.nodup_range'
  rw [g3] at hr ⊢
  have hok := (svcReach_ok hb hr).bals
  obtain ⟨r1, r2⟩ := reach_groups hg hb hr
  have rl := reach_lengths hg hb hr
  have hls : s.bals.length = fs.length := by
    have x1 := congrArg List.length (share_reach hb hr)
    have x2 := congrArg List.length b2
    simp only [shareFrame, List.length_map] at x1 x2
    omega
  have inj : ∀ {x y : Be}, x ∈ s.all → y ∈ s.all → x.id = y.id → x = y := fun hx hy e => nodup_map_inj hok.cfg.distinct hx hy e
  -- a backend stands in one group only
  have place : ∀ {b : Be} {k : Nat} {f : FBe}, b ∈ s.all → Numbered fs b.id k f → ∃ bal, s.bals[k]? = some bal ∧ b ∈ bal.backends ∧ b.prio = f.prio.toNat := by
    intro b k f hbm hnum
    obtain ⟨bal, x, x1, x2, x3, x4⟩ := r2 _ _ _ hnum
    have := inj (at_all x1 x2) hbm x3
    subst this
    exact ⟨bal, x1, x2, x4⟩
  obtain ⟨b0, f0, m1, m2, m3⟩ := hex
  obtain ⟨bal, p1, p2, -⟩ := place m1 m3
  have hkl := (List.getElem?_eq_some_iff.mp p1).1
  have hsplit : s.bals = s.bals.take k ++ bal :: s.bals.drop (k + 1) := by
    have e : s.bals[k] = bal := (List.getElem?_eq_some_iff.mp p1).2
    conv => lhs; rw [← List.take_append_drop k s.bals, List.drop_eq_getElem_cons hkl, e]
  have hpre : ∀ x ∈ s.bals.take k, ∃ c, x.backends = [c] ∧ ¬ Active c := by
    intro x hx
    obtain ⟨j, hj1, hj2⟩ := List.getElem_of_mem hx
    rw [List.length_take] at hj1
    have hjk : j < k := by omega
    have hxj : s.bals[j]? = some x := by
      rw [List.getElem_take] at hj2
      rw [← hj2]
      exact List.getElem?_eq_getElem _
    have hlt : x.backends.length < 2 := by
      obtain ⟨x', y1, y2⟩ := rl j fs[j] (List.getElem?_eq_getElem (by omega))
      rw [hxj] at y1
      cases y1
      rw [hbefore j fs[j] hjk (List.getElem?_eq_getElem (by omega))] at y2
      omega
    have hne := hok.cfg.nonempty x (List.mem_of_getElem? hxj)
    match hbs : x.backends with
    | [] => exact absurd hbs hne
    | [c] =>
      refine ⟨c, rfl, fun hc => ?_⟩
      have hcm : c ∈ x.backends := by rw [hbs]; simp
      obtain ⟨k', f', y1, y2⟩ := hfirst c (at_all hxj hcm) hc
      -- the group of c comes before
      obtain ⟨bal', z1, z2, -⟩ := place (at_all hxj hcm) y1
      have hd := hok.cfg.distinct
      have : s.bals = s.bals.take k' ++ s.bals.drop k' := (List.take_append_drop ..).symm
      rw [this, List.flatMap_append, List.map_append] at hd
      refine (List.nodup_append.mp hd).2.2 c.id (List.mem_map.mpr ⟨c, List.mem_flatMap.mpr ⟨x, ?_, hcm⟩, rfl⟩) c.id
        (List.mem_map.mpr ⟨c, List.mem_flatMap.mpr ⟨bal', ?_, z2⟩, rfl⟩) rfl
      · exact List.mem_of_getElem? (i := j) (by rw [List.getElem?_take, if_pos (by omega)]; exact hxj)
      · exact List.mem_of_getElem? (i := 0) (by rw [List.getElem?_drop, Nat.add_zero]; exact z1)
    | c :: d :: r => rw [hbs] at hlt; simp only [List.length_cons] at hlt; omega
  refine ⟨prioSum bal.backends, ?_, fun cycles => ?_⟩
  · exact Nat.lt_of_lt_of_le (hok.cfg.prios bal (List.mem_of_getElem? p1) b0 p2).1 (prio_le_sum p2 m2)
  · obtain ⟨M, ids, s', c1, c2, c3⟩ := C22_requests (ttl := v.rest.sess.ttl) (now := now) hok hsplit hpre ((r1 k bal p1).1.trans halgo) ⟨b0, p2, m2⟩ cycles
    refine ⟨M, ids, s', c1, fun id f hnum => ?_, fun id hid => ?_⟩
    · obtain ⟨bal', x, x1, x2, x3, x4⟩ := r2 id k f hnum
      rw [p1] at x1
      cases x1
      refine ⟨x, at_all p1 x2, x3, ?_⟩
      rw [← x3, c2 x x2, x4]
    · obtain ⟨b, y1, y2, -⟩ := c3 id hid
      obtain ⟨f, y3, -⟩ := (r1 k bal p1).2 b y1
      exact ⟨f, y2 ▸ y3⟩

/-- A service with sessions, weighted round robin, a backend and two for emergencies with different priorities -/
def sharesText : List Tok := cfgToks b!"ListenHTTP\n Address 10.0.0.1\n Port 80\n Service\n  Session\n   Type IP\n   TTL 60\n  End\n  Balancer iwrr\n  Backend\n   Address 10.0.0.1\n   Port 8080\n  End\n  Emergency\n   Address 10.0.0.2\n   Port 8080\n   Priority 2\n  End\n  Emergency\n   Address 10.0.0.3\n   Port 8080\n   Priority 1\n  End\n End\nEnd\n"

/-- What becomes of its backends -/
def sharesBes : List FGrp :=
  [⟨0, [⟨5, false, .regular (.inet b!"10.0.0.1") 8080 15 15 600 none none⟩]⟩,
   ⟨65535, [⟨2, false, .regular (.inet b!"10.0.0.2") 8080 120 120 120 none none⟩, ⟨1, false, .regular (.inet b!"10.0.0.3") 8080 120 120 120 none none⟩]⟩]

private theorem shares_seen : seen (fun o => match o.lsts, o.svcs with
  | [l], [] => (match l.other.svcs with
    | [v] => decide (serviceFinalize ⟨fun h _ => some h, true⟩ o.named v.rest.bes.groups = .ok (some sharesBes)) && o.named.all (fun nb => nb.m.host.isSome) &&
      decide ((o.named.map (·.name)).Nodup) && v.rest.sess.ttl == 60 && v.rest.bes.algo == .iwrr
    | _ => false)
  | _, _ => false) sharesText = true := by decide +kernel

theorem shares_plain : PlainText sharesText := cfg_plain (by decide +kernel) (by decide +kernel)

/-- The service when the first backend has failed -/
def sharesSt : SvcSt := (⟨finalBals .iwrr 0 sharesBes, .init, []⟩ : SvcSt).event (.kill 0)

/-- Six requests then: four to the one with priority 2 and two to the other one -/
theorem shares_six : (requestsGiven 60 (fun _ => ⟨100, 0⟩) 20 6 sharesSt).map (·.1) = some [1, 2, 1, 1, 2, 1] := by decide +kernel

set_option maxRecDepth 100000 in
/-- The hypotheses of `C22_requests` and `C101_shares_partial` are met with the first group out of service. -/
theorem shares_met : ∃ t g o l v fe fs s, FullConfigures topEnv0 t g o ∧ PlainText t ∧ (∀ nb ∈ o.named, nb.m.host ≠ none) ∧ o.lsts[0]? = some l ∧ (l.other.svcs ++ o.svcs)[0]? = some v ∧
    v.rest.bes.algo = .iwrr ∧ Each (GroupFinal fe o.named) v.rest.bes.groups fs ∧ (∀ g ∈ fs, g.bes.length ≤ 2 ^ 47) ∧ (∀ q gq, q < 1 → fs[q]? = some gq → gq.bes.length = 1) ∧
    SvcReach v.rest.sess.ttl (finalBals v.rest.bes.algo 0 fs) ⟨100, 0⟩ s ⟨100, 0⟩ ∧ (∃ b f, b ∈ s.all ∧ Active b ∧ Numbered fs b.id 1 f) ∧
    (∀ b ∈ s.all, Active b → ∃ k' f', Numbered fs b.id k' f' ∧ 1 ≤ k') ∧ s = sharesSt ∧ v.rest.sess.ttl = 60 := by
  obtain ⟨g, o, h1, h2⟩ := seen_iff shares_seen
  obtain ⟨t, ht, h3⟩ := C101_sound_partial _ _ _ _ _ h1 shares_plain
  have hpt : PlainText t := by
    rcases ht with rfl | rfl
    · exact shares_plain
    · exact cfg_plain (by decide +kernel) (by decide +kernel)
  split at h2
  rotate_left
  · simp at h2
  rename_i l hl hs
  split at h2
  rotate_left
  · simp at h2
  rename_i v hv
  simp only [Bool.and_eq_true, decide_eq_true_eq, beq_iff_eq, List.all_eq_true] at h2
  obtain ⟨⟨⟨⟨hf, hn⟩, hd⟩, htl⟩, hal⟩ := h2
  have hn' : ∀ nb ∈ o.named, nb.m.host ≠ none := fun nb hm he => by have := hn nb hm; rw [he] at this; cases this
  have n1 : Numbered sharesBes 1 1 ⟨2, false, .regular (.inet b!"10.0.0.2") 8080 120 120 120 none none⟩ := ⟨_, 0, rfl, rfl, rfl⟩
  have n2 : Numbered sharesBes 2 1 ⟨1, false, .regular (.inet b!"10.0.0.3") 8080 120 120 120 none none⟩ := ⟨_, 1, rfl, rfl, rfl⟩
  have hall : ∀ b ∈ sharesSt.all, Active b → b.id = 1 ∨ b.id = 2 := by decide +kernel
  have hex : ∃ b ∈ sharesSt.all, Active b ∧ b.id = 1 := by decide +kernel
  refine ⟨t, g, o, l, v, ⟨fun h _ => some h, true⟩, sharesBes, sharesSt, h3, hpt, hn',
    by rw [hl]; rfl, by rw [hv]; rfl, hal, ((C75_final _ _ ⟨hd, hn'⟩ _).1 _).mp hf, by decide, ?_, ?_, ?_, fun b hb ha => ?_, rfl, htl⟩
  · intro q gq hq hg
    obtain rfl : q = 0 := by omega
    cases hg
    rfl
  · rw [hal]; exact .backend _ .init
  · obtain ⟨b, x1, x2, x3⟩ := hex
    exact ⟨b, _, x1, x2, by rw [x3]; exact n1⟩
  · rcases hall b hb ha with e | e
    · exact ⟨1, _, by rw [e]; exact n1, Nat.le_refl _⟩
    · exact ⟨1, _, by rw [e]; exact n2, Nat.le_refl _⟩

end Pound.Props
