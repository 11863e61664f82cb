import Verif.Props.FullRandom

/-!
C20 and C101: when weighted round robin does not come to an end, in terms of requests and of the text of a configuration.
-/

namespace Pound.Props
open Pound Spec

theorem lbSelect_endless (n : Nat) {bal : Bal} {post : List Bal} (h : ∀ rs, balSelect n rs bal = .more) :
    ∀ (pre : List Bal) (rnd : Nat → List Nat), (∀ x ∈ pre, ∃ c, x.backends = [c] ∧ ¬ Active c) → lbSelect n rnd (pre ++ bal :: post) = .more
  | [], rnd, _ => by
    rw [List.nil_append, lbSelect, h]
  | x :: pre, rnd, hp => by
    obtain ⟨c, h1, h2⟩ := hp x (by simp)
    have hx : balSelect n (rnd 0) x = .done none x := by
      unfold balSelect
      rw [h1]
      dsimp only
      rw [if_neg (fun hc => h2 ((isActive_iff c).1 hc))]
    rw [List.cons_append, lbSelect, hx]
    dsimp only
    rw [lbSelect_endless n h pre _ (fun y hy => hp y (by simp [hy]))]

/-- Deviation: whenever weighted round robin comes to a group with several backends none of which can be used, while some backend of the service can, a request without a session is never given
a backend: the selection does not end, with any number of steps. -/
theorem C20_endless_fails {s : SvcSt} (hok : BalsOk s.bals) {pre post : List Bal} {bal : Bal} (hs : s.bals = pre ++ bal :: post)
    (hp : ∀ x ∈ pre, ∃ c, x.backends = [c] ∧ ¬ Active c) (ha : bal.algo = .iwrr) (hl : 2 ≤ bal.backends.length) (hin : ∀ c ∈ bal.backends, ¬ Active c)
    (hact : ∃ b ∈ s.all, Active b) (ttl : Nat) (now : TS) (n : Nat) (rnd : Nat → List Nat) : s.getBackend ttl now n rnd none = .more := by
  have hm : bal ∈ s.bals := by rw [hs]; simp
  unfold SvcSt.getBackend
  rw [if_pos ((hasBackends_iff hok.totals).mpr hact)]
  dsimp only
  unfold SvcSt.lb
  rw [hs, lbSelect_endless n (fun rs => by rw [balSelect_iwrr ha hl]; exact iwrrSelect_endless (hok.cfg.nonempty bal hm) (hok.cursor bal hm) hin n) pre rnd hp]

theorem lbSelect_exact {bal : Bal} {post : List Bal} (hact : ∃ b ∈ bal.backends, Active b) : ∀ (pre : List Bal) (rnd : Nat → List Nat), (∀ x ∈ pre ++ bal :: post, Sane x) →
    UsableAll rnd (pre ++ bal :: post) → (∀ x ∈ pre, ∀ c ∈ x.backends, ¬ Active c) →
    ((∀ x ∈ pre, x.algo = .iwrr → x.backends.length < 2) →
      ∃ n0 b bals', (∀ n, n0 ≤ n → lbSelect n rnd (pre ++ bal :: post) = .done (some b) bals') ∧ b ∈ bal.backends ∧ Active b) ∧
    ((∃ x ∈ pre, x.algo = .iwrr ∧ 2 ≤ x.backends.length) → ∀ n, lbSelect n rnd (pre ++ bal :: post) = .more)
  | [], rnd, hs, hu, _ => by
    have hs0 := hs bal (by simp)
    refine ⟨fun _ => ?_, fun ⟨x, hx, _⟩ => by cases hx⟩
    obtain ⟨n0, b, bal', hf⟩ := balSelect_found hs0 hact (rnd 0) (fun hr => by rw [hs0.totals.sum hr]; exact hu.1 hr)
    obtain ⟨a1, a2⟩ := balSelect_active (hf n0 (Nat.le_refl _))
    refine ⟨n0, b, bal' :: post, fun n hn => ?_, a2, a1⟩
    rw [List.nil_append, lbSelect, hf n hn]
  | x :: pre, rnd, hs, hu, hi => by
    have hs0 := hs x (by simp)
    have hx := hi x (by simp)
    obtain ⟨i1, i2⟩ := lbSelect_exact hact pre (fun i => rnd (i + 1)) (fun y hy => hs y (by rw [List.cons_append]; exact List.mem_cons_of_mem _ hy)) hu.2
      (fun y hy => hi y (by simp [hy]))
    by_cases hc : x.algo = .iwrr → x.backends.length < 2
    · have hn := fun n => balSelect_none (n := n) (rs := rnd 0) hs0 hx hc
      refine ⟨fun h => ?_, fun ⟨y, hy, h1, h2⟩ n => ?_⟩
      · obtain ⟨n0, b, bals', j1, j2⟩ := i1 fun y hy => h y (by simp [hy])
        refine ⟨n0, b, x :: bals', fun n hn' => ?_, j2⟩
        rw [List.cons_append, lbSelect, hn n]
        dsimp only
        rw [j1 n hn']
      · rcases List.mem_cons.mp hy with rfl | hy
        · have := hc h1; omega
        · rw [List.cons_append, lbSelect, hn n]
          dsimp only
          rw [i2 ⟨y, hy, h1, h2⟩ n]
    · have h1 : x.algo = .iwrr := Classical.byContradiction fun h => hc fun h' => absurd h' h
      have h2 : 2 ≤ x.backends.length := Nat.le_of_not_lt fun h => hc fun _ => h
      refine ⟨fun h => absurd (h x (by simp)) hc, fun _ n => ?_⟩
      rw [List.cons_append, lbSelect, balSelect_iwrr h1 h2, iwrrSelect_endless hs0.some hs0.cursor hx]

/-- Exactly when one is found: let `bal` be the first group with a backend that can be used. If none of the groups before it has several backends and weighted round robin, a backend
of this group that can be used is selected; otherwise the selection never ends. -/
theorem C20_found_exactly {bals : List Bal} (hb : BalsOk bals) {rnd : Nat → List Nat} (hu : UsableAll rnd bals) {pre post : List Bal} {bal : Bal} (he : bals = pre ++ bal :: post)
    (hpre : ∀ x ∈ pre, ∀ c ∈ x.backends, ¬ Active c) (hact : ∃ b ∈ bal.backends, Active b) :
    ((∀ x ∈ pre, x.algo = .iwrr → x.backends.length < 2) →
      ∃ n0 b bals', (∀ n, n0 ≤ n → lbSelect n rnd bals = .done (some b) bals') ∧ b ∈ bal.backends ∧ Active b) ∧
    ((∃ x ∈ pre, x.algo = .iwrr ∧ 2 ≤ x.backends.length) → ∀ n, lbSelect n rnd bals = .more) := by
  subst he
  exact lbSelect_exact hact pre rnd hb.sane hu hpre

/-- Both cases occur: before the two backends have failed, and after. -/
example : (∃ pre bal post, exIwrr = pre ++ bal :: post ∧ (∀ x ∈ pre, ∀ c ∈ x.backends, ¬ Active c) ∧ (∃ b ∈ bal.backends, Active b) ∧ ∀ x ∈ pre, x.algo = .iwrr → x.backends.length < 2) ∧
    ∃ pre bal post, (((⟨exIwrr, .init, []⟩ : SvcSt).killBe 1 .kill).killBe 2 .kill).bals = pre ++ bal :: post ∧ (∀ x ∈ pre, ∀ c ∈ x.backends, ¬ Active c) ∧
      (∃ b ∈ bal.backends, Active b) ∧ ∃ x ∈ pre, x.algo = .iwrr ∧ 2 ≤ x.backends.length := by
  refine ⟨⟨[], exIwrr[0], exIwrr.drop 1, by decide, by simp, by decide, by simp⟩,
    [(((⟨exIwrr, .init, []⟩ : SvcSt).killBe 1 .kill).killBe 2 .kill).bals[0]'(by decide)], (((⟨exIwrr, .init, []⟩ : SvcSt).killBe 1 .kill).killBe 2 .kill).bals[1]'(by decide), [], by decide, by decide, by decide, by decide⟩

theorem one_group {bals : List Bal} (hd : ((bals.flatMap (·.backends)).map (·.id)).Nodup) {j k : Nat} {x y : Bal} {c : Be} (hx : bals[j]? = some x) (hy : bals[k]? = some y) (hj : j < k)
    (h1 : c ∈ x.backends) (h2 : c ∈ y.backends) : False := by
  rw [← List.take_append_drop k bals, List.flatMap_append, List.map_append] at hd
  refine (List.nodup_append.mp hd).2.2 c.id (List.mem_map.mpr ⟨c, List.mem_flatMap.mpr ⟨x, ?_, h1⟩, rfl⟩) c.id (List.mem_map.mpr ⟨c, List.mem_flatMap.mpr ⟨y, ?_, h2⟩, rfl⟩) rfl
  · exact List.mem_of_getElem? (i := j) (by rw [List.getElem?_take, if_pos hj]; exact hx)
  · exact List.mem_of_getElem? (i := 0) (by rw [List.getElem?_drop, Nat.add_zero]; exact hy)

/-- Deviation, from the text: in every documented configuration with `Balancer iwrr` in a service and several backends in a group of it (after groups with one backend, if any), once none of these
can be used, but one of a later group can (an Emergency backend), requests without a session are never given it. -/
theorem C101_endless_fails (e : TopEnv) (t : List Tok) (g : Glob) (o : FullObjs) (h : FullConfigures e t g o) (hp : PlainText t) (hn : ∀ nb ∈ o.named, nb.m.host ≠ none) :
    ∃ o' N, (∀ n, N ≤ n → parseFull e n t = some (g, o', 0)) ∧
      ∀ (j i : Nat) (l : Lst LOther) (v : FullSvc), o.lsts[j]? = some l → (l.other.svcs ++ o.svcs)[i]? = some v → v.rest.bes.algo = .iwrr →
        ∃ l' v', o'.lsts[j]? = some l' ∧ (l'.other.svcs ++ o'.svcs)[i]? = some v' ∧
          ∀ (fe : FinEnv) (fs : List FGrp), Each (GroupFinal fe o.named) v.rest.bes.groups fs → (∀ g ∈ fs, g.bes.length ≤ 2 ^ 47) →
            serviceFinalize fe o'.named v'.rest.bes.groups = .ok (some fs) ∧
            ∀ (t0 : TS) (s : SvcSt) (last : TS) (k : Nat) (gk : FGrp), SvcReach v'.rest.sess.ttl (finalBals v'.rest.bes.algo 0 fs) t0 s last →
              fs[k]? = some gk → 2 ≤ gk.bes.length → (∀ q gq, q < k → fs[q]? = some gq → gq.bes.length = 1) →
              (∃ b ∈ s.all, Active b) → (∀ b ∈ s.all, Active b → ∃ k' f', Numbered fs b.id k' f' ∧ k < k') →
              ∀ now n rnd, s.getBackend v'.rest.sess.ttl now n rnd none = .more := by
  have hfit := full_fit h
  obtain ⟨o', N, h1, h2⟩ := C101_served_partial e t g o h hp hn
  refine ⟨o', N, h1, fun j i l v hj hi halgo => ?_⟩
  obtain ⟨l', v', g1, g2, g3, g4⟩ := h2 j i l v hj hi
  refine ⟨l', v', g1, g2, fun fe fs hf hl => ⟨(g4 fe fs hf hl).1, fun t0 s last k gk hr hk hk2 hbefore hex hlater => ?_⟩⟩
  have hv : SvcFit v := by
    rcases List.mem_append.mp (List.mem_of_getElem? hi) with hm | hm
    · exact hfit.lsts l (List.mem_of_getElem? hj) v hm
    · exact hfit.svcs v hm
  obtain ⟨be, bd, algo, u, items, hi1, hi2⟩ := hv
  obtain ⟨q1, q2⟩ := final_groups hi1 hi2 hfit.prio hf
  have hg : ∀ x ∈ fs, x.bes ≠ [] ∧ x.bes.length ≤ 2 ^ 47 ∧ ∀ b ∈ x.bes, 1 ≤ b.prio ∧ b.prio ≤ 65535 := fun x hx => ⟨(q1 x hx).1, hl x hx, (q1 x hx).2⟩
  obtain ⟨b1, b2, b3⟩ := finalBals_spec v.rest.bes.algo 0 fs hg
  have hb : BalsOk (finalBals v.rest.bes.algo 0 fs) := by
    refine ⟨⟨?_, fun bal hb => (b3 bal hb).2.2.2.1, fun bal hb => (b3 bal hb).2.2.2.2.1, fun bal hb => (b3 bal hb).2.2.2.2.2⟩, fun bal hb => (b3 bal hb).2.1,
      fun bal hb => (b3 bal hb).2.2.1⟩
    rw [b1]
    exact List.nodup_range'
  rw [g3] at hr ⊢
  have hok := (svcReach_ok hb hr).bals
  obtain ⟨r1, r2⟩ := reach_groups hg hb hr
  have rl := reach_lengths hg hb hr
  have idle : ∀ {q : Nat} {x : Bal} {c : Be}, q ≤ k → s.bals[q]? = some x → c ∈ x.backends → ¬ Active c := by
    intro q x c hq hx hcm hc
    obtain ⟨k', f', y1, y2⟩ := hlater c (at_all hx hcm) hc
    obtain ⟨bal', d, z1, z2, z3, -⟩ := r2 _ _ _ y1
    have := nodup_map_inj hok.cfg.distinct (at_all z1 z2) (at_all hx hcm) z3
    subst this
    exact one_group hok.cfg.distinct hx z1 (by omega) hcm z2
  obtain ⟨bal, p1, p2⟩ := rl k gk hk
  have hkl := (List.getElem?_eq_some_iff.mp p1).1
  have hsplit : s.bals = s.bals.take k ++ bal :: s.bals.drop (k + 1) := by
    have e : s.bals[k] = bal := (List.getElem?_eq_some_iff.mp p1).2
    conv => lhs; rw [← List.take_append_drop k s.bals, List.drop_eq_getElem_cons hkl, e]
  refine fun now n rnd => C20_endless_fails hok hsplit (fun x hx => ?_) ((r1 k bal p1).1.trans halgo) (by omega) (fun c hc => idle (Nat.le_refl _) p1 hc) hex _ now n rnd
  obtain ⟨q, hj1, hj2⟩ := List.getElem_of_mem hx
  rw [List.length_take] at hj1
  have hjk : q < k := by omega
  have hxj : s.bals[q]? = some x := by
    rw [List.getElem_take] at hj2
    rw [← hj2]
    exact List.getElem?_eq_getElem _
  have hkf : k < fs.length := (List.getElem?_eq_some_iff.mp hk).1
  obtain ⟨x', y1, y2⟩ := rl q fs[q] (List.getElem?_eq_getElem (by omega))
  rw [hxj] at y1
  cases y1
  rw [hbefore q fs[q] hjk (List.getElem?_eq_getElem (by omega))] at y2
  obtain ⟨c, hc⟩ := List.length_eq_one_iff.mp y2
  exact ⟨c, hc, idle (Nat.le_of_lt hjk) hxj (by rw [hc]; simp)⟩

/-- A service with weighted round robin, two backends and one for emergencies -/
def endlessText : List Tok := cfgToks b!"ListenHTTP\n Address 10.0.0.1\n Port 80\n Service\n  Balancer iwrr\n  Backend\n   Address 10.0.0.1\n   Port 8080\n  End\n  Backend\n   Address 10.0.0.2\n   Port 8080\n   Priority 3\n  End\n  Emergency\n   Address 10.0.0.3\n   Port 8080\n  End\n End\nEnd\n"

private theorem endless_seen : seen (fun o => match o.lsts, o.svcs with
  | [l], [] => (match l.other.svcs with
    | [v] => decide (serviceFinalize ⟨fun h _ => some h, true⟩ o.named v.rest.bes.groups = .ok (some servedBes)) && o.named.all (fun nb => nb.m.host.isSome) &&
      decide ((o.named.map (·.name)).Nodup) && v.rest.bes.algo == .iwrr
    | _ => false)
  | _, _ => false) endlessText = true := by decide +kernel

theorem endless_plain : PlainText endlessText := cfg_plain (by decide +kernel) (by decide +kernel)

/-- The service when both backends have failed -/
def endlessSt : SvcSt := ((⟨finalBals .iwrr 0 servedBes, .init, []⟩ : SvcSt).event (.kill 0)).event (.kill 1)

/-- As long as both can be used, they share the requests by their priorities, as `C101_shares_partial` says for the first group. -/
theorem endless_eight : (requestsGiven 60 (fun _ => ⟨100, 0⟩) 20 8 ⟨finalBals .iwrr 0 servedBes, .init, []⟩).map (fun r => (r.1.count 0, r.1.count 1, r.1.count 2)) = some (5, 3, 0) := by
  decide +kernel

set_option maxRecDepth 100000 in
/-- The hypotheses of `C20_endless_fails` and `C101_endless_fails` are met by a service whose two backends have failed, while the one for emergencies can be used. -/
example : ∃ t g o l v fe fs s gk, FullConfigures topEnv0 t g o ∧ PlainText t ∧ (∀ nb ∈ o.named, nb.m.host ≠ none) ∧ o.lsts[0]? = some l ∧ (l.other.svcs ++ o.svcs)[0]? = some v ∧
    v.rest.bes.algo = .iwrr ∧ Each (GroupFinal fe o.named) v.rest.bes.groups fs ∧ (∀ g ∈ fs, g.bes.length ≤ 2 ^ 47) ∧
    SvcReach v.rest.sess.ttl (finalBals v.rest.bes.algo 0 fs) ⟨100, 0⟩ s ⟨100, 0⟩ ∧ fs[0]? = some gk ∧ 2 ≤ gk.bes.length ∧ (∃ b ∈ s.all, Active b) ∧
    (∀ b ∈ s.all, Active b → ∃ k' f', Numbered fs b.id k' f' ∧ 0 < k') := by
  obtain ⟨g, o, h1, h2⟩ := seen_iff endless_seen
  obtain ⟨t, ht, h3⟩ := C101_sound_partial _ _ _ _ _ h1 endless_plain
  have hpt : PlainText t := by
    rcases ht with rfl | rfl
    · exact endless_plain
    · exact cfg_plain (by decide +kernel) (by decide +kernel)
  split at h2
  rotate_left
  · simp at h2
  rename_i l hl hs
  split at h2
  rotate_left
  · simp at h2
  rename_i v hv
  simp only [Bool.and_eq_true, decide_eq_true_eq, beq_iff_eq, List.all_eq_true] at h2
  obtain ⟨⟨⟨hf, hn⟩, hd⟩, hal⟩ := h2
  have hn' : ∀ nb ∈ o.named, nb.m.host ≠ none := fun nb hm he => by have := hn nb hm; rw [he] at this; cases this
  have n2 : Numbered servedBes 2 1 ⟨5, false, .regular (.inet b!"10.0.0.3") 8080 120 120 120 none none⟩ := ⟨_, 0, rfl, rfl, rfl⟩
  have hall : ∀ b ∈ endlessSt.all, Active b → b.id = 2 := by decide +kernel
  have hex : ∃ b ∈ endlessSt.all, Active b := by decide +kernel
  refine ⟨t, g, o, l, v, ⟨fun h _ => some h, true⟩, servedBes, endlessSt, _, h3, hpt, hn',
    by rw [hl]; rfl, by rw [hv]; rfl, hal, ((C75_final _ _ ⟨hd, hn'⟩ _).1 _).mp hf, by decide, ?_, rfl, by decide, hex, fun b hb ha => ?_⟩
  · rw [hal]; exact .backend _ (.backend _ .init)
  · rw [hall b hb ha]
    exact ⟨_, _, n2, by omega⟩

end Pound.Props
