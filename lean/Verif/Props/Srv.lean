import Verif.Proof.SrvHist

/-!
C81: dynamic backends made out of SRV records.
-/

namespace Pound.Props

open Spec

/-! ### A concrete service: no backend in the configuration file but number 0, which has `Resolve srv`, and number 1, which has it with IgnoreSRVWeight and priority 3. -/

private def sv0 : SrvSt :=
  { dyn := { be := fun _ => ⟨b!"", none, false, false, true, 1, some 0, false⟩, next := 0, bals := [], mtx := fun _ => ⟨0, false, false, []⟩, rem := [], sess := [], late := false, held := [], jobs := [] }
    nextM := 0
    sub := fun _ => ⟨b!"", 0, 0, none⟩
    mark := fun _ => false
    srv := fun k => ⟨[], k == 1, 3, false⟩
    bePrio := fun _ => 0
    bePort := fun _ => 0 }

private theorem sv0_configured : SrvConfigured sv0 := by
  refine ⟨⟨List.Pairwise.nil, ?_, ?_, ?_, fun _ => rfl, rfl, rfl, rfl, rfl⟩, fun _ => rfl, fun _ => ⟨rfl, rfl⟩⟩
  · intro b hb; cases hb
  · intro i hi; exact absurd hi (Nat.not_lt_zero i)
  · intro i; exact ⟨rfl, rfl⟩

/-- Observing the outcome of a history -/
private def after (ops : List SrvOp) (f : SrvSt → Bool) : Bool :=
  match srvRun sv0 ops with
  | .ok s => f s
  | _ => false

private theorem after_reach {ops : List SrvOp} {f : SrvSt → Bool} (h : after ops f = true) : ∃ s, SrvReach s ∧ srvRun sv0 ops = .ok s ∧ f s = true := by
  unfold after at h
  split at h
  · rename_i s hs
    exact ⟨s, ⟨_, _, sv0_configured, hs⟩, hs, h⟩
  · cases h

/-- The records of the manual: /repo/doc/pound.texi:1734-1742 -/
private def manual : List SrvRec := [⟨10, 70, 8082, b!"be1.example.org"⟩, ⟨10, 40, 8081, b!"be0.example.org"⟩, ⟨20, 10, 8081, b!"ha1.example.org"⟩, ⟨20, 10, 8081, b!"ha2.example.org"⟩]

/-- The manual's example: two groups of two backends, with these ports and priorities (/repo/doc/pound.texi:1744-1768) -/
example : after [.srvUpdate 0 manual, .dyn (.update 0 [b!"1"]), .dyn (.update 1 [b!"2"]), .dyn (.update 2 [b!"3"]), .dyn (.update 3 [b!"4"])]
    (fun s => s.dyn.bals.map (fun b => (b.weight, b.members.map fun i => ((s.dyn.be i).addr, s.bePort i, s.bePrio i))) ==
      [(10, [(b!"1", 8082, 70), (b!"2", 8081, 40)]), (20, [(b!"3", 8081, 10), (b!"4", 8081, 10)])]) = true := by decide +kernel

/-- These are records as the resolver gives them. -/
example : QsortOf (fun a b => if a = b then 0 else if a < b then -1 else 1) [manual[1], manual[3], manual[0], manual[2]] manual := by
  refine ⟨?_, ?_⟩
  · decide +kernel
  · decide +kernel

/-! ### Targets -/

/-- An SRV look-up, whatever the records and the state, succeeds; so do disabling and enabling. -/
theorem C81_total {s : SrvSt} (h : SrvReach s) (k : Nat) (recs : List SrvRec) :
    (∃ s', srvStep s (.srvUpdate k recs) = .ok s') ∧ (∃ s', srvStep s (.srvDisable k) = .ok s') ∧ ∃ s', srvStep s (.srvEnable k recs) = .ok s' := by
  have h := sinv_reach h
  have up : ∀ {s : SrvSt}, SInv s → ∃ s', srvUpdate k recs s = .ok s' := by
    intro s h
    cases hd : (s.srv k).disabled with
    | true => exact ⟨s, by unfold srvUpdate; rw [hd, if_pos rfl]⟩
    | false => obtain ⟨s', e, -⟩ := supdated (k := k) (recs := recs) h hd; exact ⟨s', e⟩
  refine ⟨up h, ?_, ?_⟩
  · obtain ⟨s', -, e, -⟩ := sdisabled (k := k) h
    exact ⟨s', e⟩
  · show ∃ s', srvEnable k recs s = .ok s'
    unfold srvEnable
    split
    · exact up (sinv_flag h false)
    · exact ⟨s, rfl⟩

private theorem updated_of {s s' : SrvSt} (h : SrvReach s) {k : Nat} {recs : List SrvRec} (hd : (s.srv k).disabled = false) (e : srvStep s (.srvUpdate k recs) = .ok s') : SUpdated k recs s s' := by
  obtain ⟨s1, e1, u⟩ := supdated (k := k) (recs := recs) (sinv_reach h) hd
  have e' : srvUpdate k recs s = .ok s' := e
  rw [e1] at e'
  cases e'
  exact u

/-- After an SRV look-up there is exactly one target for every host and port that a record names, and no other one. -/
theorem C81_targets {s s' : SrvSt} (h : SrvReach s) {k : Nat} {recs : List SrvRec} (hd : (s.srv k).disabled = false) (e : srvStep s (.srvUpdate k recs) = .ok s') :
    (∀ r ∈ recs, ∃ m, SrvTarget s' k m ∧ NamesTarget r (s'.sub m).host (s'.sub m).port ∧
      ∀ m', SrvTarget s' k m' → NamesTarget r (s'.sub m').host (s'.sub m').port → m' = m) ∧
    ∀ m, SrvTarget s' k m → ∃ r ∈ recs, NamesTarget r (s'.sub m).host (s'.sub m).port := by
  have u := updated_of h hd e
  constructor
  · intro r hr
    obtain ⟨m, hm, hn⟩ := u.found r hr
    refine ⟨m, (u.inv.tab k m).mp hm, hn, fun m' hm' hn' => ?_⟩
    exact u.inv.uniq k m' m ((u.inv.tab k m').mpr hm') hm (ciEq_trans' hn'.1 (ciEq_symm' hn.1)) (hn'.2.trans hn.2.symm)
  · intro m hm
    exact ((u.tab m).mp ((u.inv.tab k m).mpr hm)).2

/-- In no state do two targets of a backend have the same host and port. -/
theorem C81_unique {s : SrvSt} (h : SrvReach s) {k m m' : Nat} (h1 : SrvTarget s k m) (h2 : SrvTarget s k m') (hh : ciEq (s.sub m).host (s.sub m').host = true)
    (hp : (s.sub m).port = (s.sub m').port) : m = m' :=
  let i := sinv_reach h
  i.uniq k m m' ((i.tab k m).mpr h1) ((i.tab k m').mpr h2) hh hp

/-- Targets that are still listed stay, with all of their backends, their sessions and the group they are in; and with no others. -/
theorem C81_kept {s s' : SrvSt} (h : SrvReach s) {k : Nat} {recs : List SrvRec} (hd : (s.srv k).disabled = false) (e : srvStep s (.srvUpdate k recs) = .ok s')
    {m : Nat} (hm : SrvTarget s k m) {r : SrvRec} (hr : r ∈ recs) (hn : NamesTarget r (s.sub m).host (s.sub m).port) :
    SrvTarget s' k m ∧ (s'.sub m).host = (s.sub m).host ∧ (s'.sub m).port = (s.sub m).port ∧ (∀ i, Generated s'.dyn m i ↔ Generated s.dyn m i) ∧
    ∀ i, Generated s.dyn m i → s'.dyn.be i = s.dyn.be i ∧ (∀ w, InGroup s'.dyn w i ↔ InGroup s.dyn w i) ∧ ∀ c, (c, i) ∈ s'.dyn.sess ↔ (c, i) ∈ s.dyn.sess := by
  have u := updated_of h hd e
  have h := sinv_reach h
  have hl : Listed s recs m := ⟨r, hr, hn⟩
  have lt := h.lt hm.1
  have mt := u.kept m lt (fun _ => hl)
  have keep : ∀ i, i ∈ (s.dyn.mtx m).tab → ∀ m' ∈ (s.srv k).tab, i ∈ (s.dyn.mtx m').tab → Listed s recs m' := by
    intro i hi m' _ hi'
    rw [tab_disjoint h.good hi' hi]; exact hl
  refine ⟨⟨(u.old m lt).2.2.trans hm.1, by rw [mt]; exact hm.2⟩, (u.old m lt).1, (u.old m lt).2.1, fun i => ?_, fun i hi => ?_⟩
  · constructor
    · intro x
      have := generated_tab u.inv.good.inv x
      rw [mt] at this
      exact tab_generated h.good.inv this
    · intro x
      have := generated_tab h.good.inv x
      rw [← mt] at this
      exact tab_generated u.inv.good.inv this
  · have hi' := generated_tab h.good.inv hi
    refine ⟨u.be i (keep i hi'), fun w => ?_, fun c => ?_⟩
    · exact (u.inBal w i).trans ⟨fun x => x.1, fun x => ⟨x, keep i hi'⟩⟩
    · exact (u.sess (c, i)).trans ⟨fun x => x.1, fun x => ⟨x, keep i hi'⟩⟩

/-- Targets that are not listed any more go, and their backends with them: these get no requests by balancing, then and ever after, and their sessions end. -/
theorem C81_removed {s s' : SrvSt} (h : SrvReach s) {k : Nat} {recs : List SrvRec} (hd : (s.srv k).disabled = false) (e : srvStep s (.srvUpdate k recs) = .ok s')
    {m : Nat} (hm : SrvTarget s k m) (hn : ∀ r ∈ recs, ¬ NamesTarget r (s.sub m).host (s.sub m).port) :
    ∀ i, Generated s.dyn m i → (s'.dyn.be i).disabled = true ∧ (∀ c, (c, i) ∉ s'.dyn.sess) ∧
      ∀ ops s'', srvRun s' ops = .ok s'' → ¬ InService s''.dyn i ∧ ¬ SrvTarget s'' k m := by
  intro i hi
  have u := updated_of h hd e
  have h := sinv_reach h
  have hl : ¬ Listed s recs m := fun ⟨r, hr, x⟩ => hn r hr x
  have ht : m ∈ (s.srv k).tab := (h.tab k m).mpr hm
  have hit := generated_tab h.good.inv hi
  refine ⟨u.gone m ht hl i hit, fun c x => hl (((u.sess (c, i)).mp x).2 m ht hit), fun ops s'' er => ?_⟩
  have n := snext_run u.inv er
  have hp : (s'.sub m).parent = some k := (u.old m (h.lt hm.1)).2.2.trans hm.1
  have dis : (s''.dyn.mtx m).disabled = true := n.off m k hp (by rw [u.out m ht hl])
  have hi0 : i < s.dyn.next := (h.good.inv.tab m i hit).1
  refine ⟨fun x => ?_, fun x => by rw [x.2] at dis; cases dis⟩
  have pi : (s''.dyn.be i).parent = some m := by
    rw [n.parent i (by rw [u.next]; exact hi0), u.parent i hi0]
    exact hi.2
  have := generated_tab n.inv.good.inv ⟨x, pi⟩
  rw [n.inv.off m k ((n.sub m (u.inv.lt hp)).2.2.trans hp) dis] at this
  cases this

/-- All other backends stay as they are: those of the configuration file, of other dynamic backends, and of the targets of other backends with `Resolve srv`;
nothing happens to requests being served. -/
theorem C81_others {s s' : SrvSt} (h : SrvReach s) {k : Nat} {recs : List SrvRec} (e : srvStep s (.srvUpdate k recs) = .ok s')
    {i : Nat} (hi : ¬ SrvGenerated s k i) :
    s'.dyn.be i = s.dyn.be i ∧ (∀ w, InGroup s'.dyn w i ↔ InGroup s.dyn w i) ∧ (∀ c, (c, i) ∈ s'.dyn.sess ↔ (c, i) ∈ s.dyn.sess) ∧
    s'.bePrio i = s.bePrio i ∧ s'.bePort i = s.bePort i ∧ s'.dyn.held = s.dyn.held ∧ s'.dyn.jobs = s.dyn.jobs := by
  cases hd : (s.srv k).disabled with
  | true =>
    have e' : srvUpdate k recs s = .ok s' := e
    unfold srvUpdate at e'
    rw [hd, if_pos rfl] at e'
    cases e'
    exact ⟨rfl, fun _ => Iff.rfl, fun _ => Iff.rfl, rfl, rfl, rfl, rfl⟩
  | false =>
    have u := updated_of h hd e
    have h := sinv_reach h
    have no : ∀ m ∈ (s.srv k).tab, i ∉ (s.dyn.mtx m).tab := fun m hm x => hi ⟨m, ((h.tab k m).mp hm).1, tab_generated h.good.inv x⟩
    have keep : ∀ m' ∈ (s.srv k).tab, i ∈ (s.dyn.mtx m').tab → Listed s recs m' := fun m' hm' x => absurd x (no m' hm')
    refine ⟨u.be i keep, fun w => (u.inBal w i).trans ⟨fun x => x.1, fun x => ⟨x, keep⟩⟩, fun c => (u.sess (c, i)).trans ⟨fun x => x.1, fun x => ⟨x, keep⟩⟩, u.bePrio i no, ?_, u.held, u.jobs⟩
    rw [u.port]

/-- There are such targets and backends: two look-ups, the second one with another spelling of a host, without the other one, and with a new one -/
example : after [.srvUpdate 0 manual, .dyn (.update 0 [b!"1"]), .dyn (.update 1 [b!"2"]), .srvUpdate 0 [⟨10, 5, 8082, b!"BE1.example.org"⟩, ⟨20, 7, 8083, b!"ha1.example.org"⟩]]
    (fun s => s.dyn.bals.map (fun b => (b.weight, b.members.map fun i => ((s.dyn.be i).addr, s.bePort i, s.bePrio i))) == [(10, [(b!"1", 8082, 5)])] &&
      (s.srv 0).tab == [0, 4]) = true := by decide +kernel

/-! ### Ports and priorities -/

/-- At all times, the backends of a target have the port and the priority of the target. -/
theorem C81_same {s : SrvSt} (h : SrvReach s) {m i : Nat} (hi : Generated s.dyn m i) : s.bePort i = (s.sub m).port ∧ s.bePrio i = (s.sub m).prio :=
  let x := sinv_reach h
  let y := x.vals m i (generated_tab x.good.inv hi)
  ⟨y.2, y.1⟩

/-- Until the next SRV look-up of the backend, whatever happens otherwise, every backend made from a record has its port, and as priority its weight: 1 if all records of the
group have weight 0, and the one from the configuration file with IgnoreSRVWeight.  `ans` is the answer in the order of the name server, `recs` is sorted.
This is about answers in which no two records name the same host and port. -/
theorem C81_weight_partial {s s' s'' : SrvSt} (h : SrvReach s) {k : Nat} {casecmp : Bytes → Bytes → Int} {ans recs : List SrvRec} (hq : QsortOf casecmp ans recs) (hu : DistinctTargets ans)
    (hd : (s.srv k).disabled = false) (e : srvStep s (.srvUpdate k recs) = .ok s')
    {ops : List SrvOp} (ho : ∀ o ∈ ops, ∀ recs, o ≠ .srvUpdate k recs ∧ o ≠ .srvEnable k recs) (er : srvRun s' ops = .ok s'')
    {m : Nat} (hm : SrvTarget s'' k m) {r : SrvRec} (hr : r ∈ ans) (hn : NamesTarget r (s''.sub m).host (s''.sub m).port) {i : Nat} (hi : Generated s''.dyn m i) :
    s''.bePort i = r.port ∧ WeightOf (s.srv k).ignore (s.srv k).prio ans r (s''.bePrio i) := by
  have u := updated_of h hd e
  have n := snext_run u.inv er
  have kp := skeep_run u.inv ho er
  have hm2 := (n.inv.tab k m).mpr hm
  have hm1 := kp.tab m hm2
  have lt1 := u.inv.lt ((u.inv.tab k m).mp hm1).1
  have v := n.inv.vals m i (generated_tab n.inv.good.inv hi)
  obtain ⟨p, hp, hpn, hpe⟩ := u.prio m hm1
  have hs : recs.Pairwise fun a b => a.prio ≤ b.prio := hq.2.imp srvCmp_prio
  have w := pairs_weight hs hp (s.srv k)
  have hpr : p.2 ∈ ans := by
    refine hq.1.mem_iff.mp ?_
    rw [← srvPairs_recs recs]
    exact List.mem_map.mpr ⟨p, hp, rfl⟩
  rw [(n.sub m lt1).1, (n.sub m lt1).2.1] at hn
  have er : p.2 = r := by
    have key : ∀ l : List SrvRec, DistinctTargets l → p.2 ∈ l → r ∈ l → p.2 = r := by
      have na : NamesTarget p.2 r.host r.port := ⟨ciEq_trans' (ciEq_symm' hn.1) hpn.1, hn.2.symm.trans hpn.2⟩
      have nb : NamesTarget r p.2.host p.2.port := ⟨ciEq_symm' na.1, na.2.symm⟩
      intro l
      induction l with
      | nil => intro _ x; cases x
      | cons a l ih =>
        intro hl x y
        have hl' := List.pairwise_cons.mp hl
        rcases List.mem_cons.mp x with x | x <;> rcases List.mem_cons.mp y with y | y
        · rw [x, y]
        · exact absurd (by rw [← x]; exact na) (hl'.1 r y)
        · exact absurd (by rw [← y]; exact nb) (hl'.1 p.2 x)
        · exact ih hl'.2 x y
    exact key ans hu hpr hr
  rw [er] at w
  refine ⟨?_, ?_⟩
  · rw [v.2, (n.sub m lt1).2.1]; exact hn.2
  · rw [v.1, kp.prio m hm2, hpe, er]
    unfold WeightOf at w ⊢
    split at w
    · rename_i x; rw [if_pos x]; exact w
    · rename_i x
      rw [if_neg x]
      constructor
      · intro y
        exact w.1 fun r' hr' => y r' (hq.1.mem_iff.mp hr')
      · rintro ⟨r', hr', y⟩
        exact w.2 ⟨r', hq.1.mem_iff.mpr hr', y⟩

/-- Weights that are all 0, in one of two groups; weights that are ignored -/
example : after [.srvUpdate 0 [⟨1, 0, 80, b!"a"⟩, ⟨1, 0, 80, b!"b"⟩, ⟨2, 7, 80, b!"c"⟩, ⟨2, 0, 80, b!"d"⟩], .srvUpdate 1 [⟨1, 9, 80, b!"a"⟩],
      .dyn (.update 0 [b!"1"]), .dyn (.update 1 [b!"2"]), .dyn (.update 2 [b!"3"]), .dyn (.update 3 [b!"4"]), .dyn (.update 4 [b!"5"])]
    (fun s => s.dyn.bals.map (fun b => (b.weight, b.members.map fun i => ((s.dyn.be i).addr, s.bePrio i))) ==
      [(1, [(b!"1", 1), (b!"2", 1), (b!"5", 3)]), (2, [(b!"3", 7), (b!"4", 0)])]) = true := by decide +kernel

example : DistinctTargets manual := by
  unfold DistinctTargets NamesTarget
  decide +kernel

/-- The same host and port in two groups: there are backends in the first group only, with the weight from the second one. -/
theorem C81_twice_fails : ∃ s casecmp, ∃ ans : List SrvRec, SrvReach s ∧ QsortOf casecmp ans ans ∧ ans = [⟨1, 10, 80, b!"a"⟩, ⟨2, 20, 80, b!"a"⟩] ∧
    (∃ s1, SrvReach s1 ∧ ∃ s2, srvRun s1 [.srvUpdate 0 ans, .dyn (.update 0 [b!"1"])] = .ok s2 ∧ s2 = s) ∧
    s.dyn.bals.map (fun b => (b.weight, b.members, b.members.map s.bePrio)) = [(1, [0], [20])] := by
  obtain ⟨s, hr, hs, hf⟩ := after_reach (ops := [.srvUpdate 0 [⟨1, 10, 80, b!"a"⟩, ⟨2, 20, 80, b!"a"⟩], .dyn (.update 0 [b!"1"])])
    (f := fun s => s.dyn.bals.map (fun b => (b.weight, b.members, b.members.map s.bePrio)) == [(1, [0], [20])]) (by decide +kernel)
  refine ⟨s, fun _ _ => 0, _, hr, ⟨List.Perm.refl _, ?_⟩, rfl, ⟨sv0, ⟨sv0, [], sv0_configured, rfl⟩, s, hs, rfl⟩, by simpa using hf⟩
  decide +kernel

/-! ### Groups -/

/-- If the records of a target have always had the same priority, `P`, then at all times the backends of the target are in the group of that weight.  What is missing: the
priority of a record may change. -/
theorem C81_group_partial {s0 s : SrvSt} (h0 : SrvConfigured s0) {ops : List SrvOp} (e : srvRun s0 ops = .ok s) {k : Nat} {P : Bytes → Nat → Nat}
    (hP : ∀ o ∈ ops, ∀ recs, o = .srvUpdate k recs ∨ o = .srvEnable k recs → ∀ r ∈ recs, P (r.host.map toLower) r.port = r.prio)
    {m i : Nat} (hm : SrvTarget s k m) (hi : Generated s.dyn m i) : InGroup s.dyn (P ((s.sub m).host.map toLower) (s.sub m).port) i ∧
      ∀ w, InGroup s.dyn w i → w = P ((s.sub m).host.map toLower) (s.sub m).port := by
  have key : ∀ (ops : List SrvOp) (s0 s : SrvSt), SInv s0 → (∀ m, (s0.sub m).parent = some k → (s0.dyn.mtx m).weight = P ((s0.sub m).host.map toLower) (s0.sub m).port) →
      (∀ o ∈ ops, ∀ recs, o = .srvUpdate k recs ∨ o = .srvEnable k recs → ∀ r ∈ recs, P (r.host.map toLower) r.port = r.prio) → srvRun s0 ops = .ok s →
      SInv s ∧ ∀ m, (s.sub m).parent = some k → (s.dyn.mtx m).weight = P ((s.sub m).host.map toLower) (s.sub m).port := by
    intro ops
    induction ops with
    | nil => intro s0 s h hw _ e; cases e; exact ⟨h, hw⟩
    | cons o r ih =>
      intro s0 s h hw hP e
      obtain ⟨s1, e1, e2⟩ := srvRun_cons.mp e
      have n := snext_step h e1
      refine ih s1 s n.inv ?_ (fun o' ho' => hP o' (List.mem_cons_of_mem _ ho')) e2
      intro m hp
      rcases Nat.lt_or_ge m s0.nextM with x | x
      · have y := n.sub m x
        have hp0 : (s0.sub m).parent = some k := y.2.2.symm.trans hp
        rw [n.weight m k hp0, y.1, y.2.1]
        exact hw m hp0
      · have lt := n.inv.lt hp
        have new : ∀ {k' : Nat} {recs : List SrvRec} {a b : SrvSt}, SUpdated k' recs a b → a.nextM = s0.nextM → b = s1 → (k' = k → ∀ r ∈ recs, P (r.host.map toLower) r.port = r.prio) →
            (s1.dyn.mtx m).weight = P ((s1.sub m).host.map toLower) (s1.sub m).port := by
          intro k' recs a b u ea eb hr
          subst eb
          obtain ⟨n1, -, -, r, hr1, n4, n5⟩ := u.new m (by rw [ea]; exact x) lt
          rw [hp] at n1
          cases n1
          rw [n5, ← hr rfl r hr1, n4.2]
          congr 1
          have := n4.1
          unfold ciEq at this
          exact (beq_iff_eq.mp this).symm
        have same : s1.nextM ≠ s0.nextM := by omega
        cases o with
        | srvUpdate k' recs =>
          have e1' : srvUpdate k' recs s0 = .ok s1 := e1
          cases hd : (s0.srv k').disabled with
          | true =>
            unfold srvUpdate at e1'
            rw [hd, if_pos rfl] at e1'
            cases e1'; exact absurd rfl same
          | false =>
            obtain ⟨s2, e3, u⟩ := supdated (k := k') (recs := recs) h hd
            rw [e3] at e1'; cases e1'
            exact new u rfl rfl (fun z => hP _ List.mem_cons_self recs (Or.inl (by rw [z])))
        | srvNoAnswer k' => cases e1; exact absurd rfl same
        | srvDisable k' =>
          obtain ⟨s2, s3, e3, a, es, -⟩ := sdisabled (k := k') h
          have e1' : srvDisable k' s0 = .ok s1 := e1
          rw [e3] at e1'; cases e1'
          rw [es] at same
          exact absurd a.nextM same
        | srvEnable k' recs =>
          have e1' : srvEnable k' recs s0 = .ok s1 := e1
          unfold srvEnable at e1'
          split at e1'
          · obtain ⟨s2, e3, u⟩ := supdated (k := k') (recs := recs) (sinv_flag (k := k') h false) (by dsimp only; rw [if_pos rfl])
            rw [e3] at e1'; cases e1'
            exact new u rfl rfl (fun z => hP _ List.mem_cons_self recs (Or.inr (by rw [z])))
          · cases e1'; exact absurd rfl same
        | dyn o => exact absurd (sinv_dyn h e1).2.1 same
  obtain ⟨hs, hw⟩ := key ops s0 s (sinv_configured h0) (fun m hp => by rw [(h0.matrices m).1] at hp; cases hp) hP e
  have ht := generated_tab hs.good.inv hi
  rw [← hw m hm.1]
  have ib := (hs.good.inv.tab m i ht).2.2.2
  refine ⟨ib, fun w hw' => ?_⟩
  have x : InBal s.dyn.bals w i := hw'
  have b1 := (hs.good.inv.mem w i x).2.1
  have b2 := (hs.good.inv.mem _ i ib).2.1
  rw [b1] at b2
  exact Option.some.inj b2

/-- A new target is balanced in the group of its priority: `P` exists whenever the answer is all there has been, and no two records name the same host and port. -/
example : ∀ r ∈ manual, (fun (h : Bytes) (_ : Nat) => if h.take 2 = b!"be" then 10 else 20) (r.host.map toLower) r.port = r.prio := by decide +kernel

/-- The priority of a record changes from 1 to 2: the backend stays in group 1. -/
theorem C81_group_fails : ∃ s s' r, SrvReach s ∧ r = (⟨2, 5, 80, b!"a"⟩ : SrvRec) ∧ srvRun s [.srvUpdate 0 [r], .dyn (.update 0 [b!"1"])] = .ok s' ∧ SrvTarget s' 0 0 ∧
    NamesTarget r (s'.sub 0).host (s'.sub 0).port ∧ s'.dyn.bals = [⟨1, [0], none⟩] := by
  obtain ⟨s, hr, hs, hf⟩ := after_reach (ops := [.srvUpdate 0 [⟨1, 5, 80, b!"a"⟩], .dyn (.update 0 [b!"1"])])
    (f := fun s => match srvRun s [.srvUpdate 0 [⟨2, 5, 80, b!"a"⟩], .dyn (.update 0 [b!"1"])] with
      | .ok s' => (s'.sub 0).parent == some 0 && !(s'.dyn.mtx 0).disabled && ciEq (s'.sub 0).host b!"a" && (s'.sub 0).port == 80 && s'.dyn.bals == [⟨1, [0], none⟩]
      | _ => false) (by decide +kernel)
  split at hf
  · rename_i s' e
    simp only [Bool.and_eq_true, beq_iff_eq, Bool.not_eq_true'] at hf
    exact ⟨s, s', _, hr, rfl, e, ⟨hf.1.1.1.1, hf.1.1.1.2⟩, ⟨hf.1.1.2, hf.1.2⟩, hf.2⟩
  · cases hf

/-! ### Addresses -/

/-- The addresses of a target: after a look-up of them there is exactly one backend for every address, and none for any other. -/
theorem C81_addresses {s s' : SrvSt} (h : SrvReach s) {k m : Nat} (hm : SrvTarget s k m) {ans : List Bytes} (e : srvStep s (.dyn (.update m ans)) = .ok s') :
    (∀ a ∈ ans, ∃ i, Generated s'.dyn m i ∧ (s'.dyn.be i).addr = a ∧ ∀ j, Generated s'.dyn m j → (s'.dyn.be j).addr = a → j = i) ∧
    (∀ i, Generated s'.dyn m i → (s'.dyn.be i).addr ∈ ans) ∧ SrvTarget s' k m := by
  have h := sinv_reach h
  obtain ⟨i1, i2, i3, i4, i5, i6, i7, i8⟩ := sinv_dyn h (show srvDyn (.update m ans) s = .ok s' from e)
  have hd := i8 (by show decide (m < s.nextM) = true; exact decide_eq_true (h.lt hm.1))
  have u := step_update h.good hm.2 hd
  have hw : Wanted (s.dyn.mtx m) ans = ans := by unfold Wanted; rw [h.all m k hm.1, if_neg (by decide)]
  have ht : SrvTarget s' k m := (i1.tab k m).mp (by rw [i5]; exact (h.tab k m).mpr hm)
  refine ⟨?_, ?_, ht⟩
  · intro a ha
    obtain ⟨i, hi, hia⟩ := u.found a (by rw [hw]; exact ha)
    refine ⟨i, tab_generated u.inv hi, hia, fun j hj hja => ?_⟩
    exact nodup_map_inj (u.inv.tabA m) (generated_tab u.inv hj) hi (hja.trans hia.symm)
  · intro i hi
    rcases (u.tab i).mp (generated_tab u.inv hi) with x | x
    · rw [(u.gone i (h.good.inv.tab m i x.1).1).1, ← hw]; exact x.2
    · rw [← hw]
      exact (u.new i x.1 x.2).1

/-! ### Disabling -/

/-- Disabling takes all targets and all of their backends out of service; until it is enabled there are none. -/
theorem C81_disable {s s' s'' : SrvSt} (h : SrvReach s) {k : Nat} (e : srvStep s (.srvDisable k) = .ok s') {ops : List SrvOp} (ho : ∀ o ∈ ops, ∀ recs, o ≠ .srvEnable k recs)
    (er : srvRun s' ops = .ok s'') (m : Nat) : ¬ SrvTarget s'' k m ∧ ∀ i, ¬ SrvGenerated s'' k i := by
  have P : ∀ (ops : List SrvOp) (s s'' : SrvSt), SInv s → (s.srv k).disabled = true → (s.srv k).tab = [] → (∀ o ∈ ops, ∀ recs, o ≠ .srvEnable k recs) → srvRun s ops = .ok s'' →
      SInv s'' ∧ (s''.srv k).tab = [] := by
    intro ops
    induction ops with
    | nil => intro s s'' h _ ht _ e; cases e; exact ⟨h, ht⟩
    | cons o r ih =>
      intro s s'' h hd ht ho e
      obtain ⟨s1, e1, e2⟩ := srvRun_cons.mp e
      have x := soff_step h hd ht (ho o List.mem_cons_self) e1
      exact ih s1 s'' (snext_step h e1).inv x.1 x.2 (fun o' ho' => ho o' (List.mem_cons_of_mem _ ho')) e2
  have h := sinv_reach h
  obtain ⟨s1, s2, e1, a, es, u⟩ := sdisabled (k := k) h
  have e' : srvDisable k s = .ok s' := e
  rw [e1] at e'; cases e'
  have hd : (s'.srv k).disabled = true := by rw [es]; exact congrArg SrvMtx.disabled (if_pos rfl)
  have ht : (s'.srv k).tab = [] := by
    rw [es]
    refine (congrArg SrvMtx.tab (if_pos rfl)).trans ?_
    show (s2.srv k).tab = []
    cases hx : (s2.srv k).tab with
    | nil => rfl
    | cons x r =>
      have hx' : x ∈ (s2.srv k).tab := by rw [hx]; exact List.mem_cons_self
      obtain ⟨y, z⟩ := (a.tab x).mp hx'
      have y' : x ∈ (s.srv k).tab := y
      exact absurd ⟨y', if_pos y'⟩ z
  obtain ⟨hi, hn⟩ := P ops s' s'' u hd ht ho er
  have no : ∀ m, ¬ SrvTarget s'' k m := by
    intro m x
    have := (hi.tab k m).mpr x
    rw [hn] at this
    cases this
  refine ⟨no m, ?_⟩
  rintro i ⟨m', hp, hg⟩
  have ht' := generated_tab hi.good.inv hg
  cases hdis : (s''.dyn.mtx m').disabled with
  | false => exact no m' ⟨hp, hdis⟩
  | true => rw [hi.off m' k hp hdis] at ht'; cases ht'

/-- A disabled backend makes no use of SRV look-ups. -/
theorem C81_disabled {s s' : SrvSt} {k : Nat} {recs : List SrvRec} (hd : (s.srv k).disabled = true) (e : srvStep s (.srvUpdate k recs) = .ok s') : s' = s := by
  have e' : srvUpdate k recs s = .ok s' := e
  unfold srvUpdate at e'
  rw [hd, if_pos rfl] at e'
  cases e'; rfl

/-- Enabling it makes targets out of the records looked up then. -/
theorem C81_enable {s s' : SrvSt} (h : SrvReach s) {k : Nat} {recs : List SrvRec} (hd : (s.srv k).disabled = true) (e : srvStep s (.srvEnable k recs) = .ok s') :
    (s'.srv k).disabled = false ∧
    (∀ r ∈ recs, ∃ m, SrvTarget s' k m ∧ NamesTarget r (s'.sub m).host (s'.sub m).port ∧
      ∀ m', SrvTarget s' k m' → NamesTarget r (s'.sub m').host (s'.sub m').port → m' = m) ∧
    ∀ m, SrvTarget s' k m → ∃ r ∈ recs, NamesTarget r (s'.sub m).host (s'.sub m).port := by
  have e' : srvEnable k recs s = .ok s' := e
  unfold srvEnable at e'
  rw [if_pos hd] at e'
  obtain ⟨s1, e1, u⟩ := supdated (k := k) (recs := recs) (sinv_flag (k := k) (sinv_reach h) false) (by dsimp only; rw [if_pos rfl])
  rw [e1] at e'
  cases e'
  refine ⟨?_, ?_, ?_⟩
  · rw [(u.srv k).2.2.1]
    exact congrArg SrvMtx.disabled (if_pos rfl)
  · intro r hr
    obtain ⟨m, hm, hn⟩ := u.found r hr
    refine ⟨m, (u.inv.tab k m).mp hm, hn, fun m' hm' hn' => ?_⟩
    exact u.inv.uniq k m' m ((u.inv.tab k m').mpr hm') hm (ciEq_trans' hn'.1 (ciEq_symm' hn.1)) (hn'.2.trans hn.2.symm)
  · intro m hm
    exact ((u.tab m).mp ((u.inv.tab k m).mpr hm)).2

/-- There are such histories. -/
example : after [.srvUpdate 0 manual, .dyn (.update 0 [b!"1"]), .srvDisable 0, .srvUpdate 0 manual, .dyn .remover]
    (fun s => (s.srv 0).disabled && s.dyn.bals == [] && (s.dyn.be 0).freed &&
      (match srvStep s (.srvEnable 0 manual) with | .ok s' => !(s'.srv 0).disabled && (s'.srv 0).tab == [4, 5, 6, 7] | _ => false)) = true := by decide +kernel

/-- A target goes while its first address look-up is pending, and that look-up ends afterwards: it leaves a group without backends, and the next request ends the program. -/
theorem C81_pending_fails : ∃ s, SrvReach s ∧ ¬ SrvTarget s 0 0 ∧ (∀ i, ¬ InService s.dyn i) ∧ srvStep s (.dyn (.take 1 0 none none)) = .ub := by
  obtain ⟨s, hr, -, hf⟩ := after_reach (ops := [.srvUpdate 0 [⟨1, 5, 80, b!"a"⟩], .srvUpdate 0 [], .dyn (.update 0 [b!"1"])])
    (f := fun s => (s.dyn.mtx 0).disabled && (s.dyn.bals.all fun b => b.members.isEmpty) && (match srvStep s (.dyn (.take 1 0 none none)) with | .ub => true | _ => false)) (by decide +kernel)
  simp only [Bool.and_eq_true, List.all_eq_true, List.isEmpty_iff] at hf
  obtain ⟨⟨h1, h2⟩, h3⟩ := hf
  refine ⟨s, hr, fun x => (by rw [x.2] at h1; cases h1), ?_, ?_⟩
  · rintro i ⟨b, hb, hi⟩
    rw [h2 b hb] at hi
    cases hi
  · split at h3
    · rename_i e; exact e
    · cases h3

end Pound.Props
