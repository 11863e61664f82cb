import Verif.Props.FullEndless

/-!
C22: the shares of weighted round robin among requests of all kinds, with sessions and without.
-/

namespace Pound.Props
open Pound Spec

/-- What happens in a service as long as no backend fails, comes back or is switched: requests without a session, which are given the backends listed; requests of a session that is in the table;
and any changes of the table (sessions made for responses, and removed). -/
inductive Traffic (ttl : Nat) : SvcSt → List Nat → SvcSt → Prop
  | nothing {s} : Traffic ttl s [] s
  | balanced {s s1 s2 now n rnd key id l} : (∀ k, key = some k → (s.tab.find ttl now (k.take keySize)).2 = none) → s.getBackend ttl now n rnd key = .done (some id) s1 →
      Traffic ttl s1 l s2 → Traffic ttl s (id :: l) s2
  | session {s s1 s2 now n rnd k b id l} : (s.tab.find ttl now (k.take keySize)).2 = some b → s.getBackend ttl now n rnd (some k) = .done (some id) s1 →
      Traffic ttl s1 l s2 → Traffic ttl s l s2
  | table {s s2 tab l} : Traffic ttl { s with tab := tab } l s2 → Traffic ttl s l s2

theorem iwrrLoop_more_steps : ∀ {n m : Nat} {bal : Bal} {ob bal'}, n ≤ m → iwrrLoop n bal = .done ob bal' → iwrrLoop m bal = .done ob bal'
  | 0, _, _, _, _, _, h => by cases h
  | n + 1, 0, _, _, _, hn, _ => by omega
  | n + 1, m + 1, bal, ob, bal', hn, h => by
    unfold iwrrLoop at h ⊢
    split at h
    · cases h
    · rename_i i hi
      split at h
      · cases h
      · rename_i b hb
        split at h
        · rename_i hc
          first | exact h | (rw [if_pos hc]; exact h)
        · rename_i hc
          first | exact iwrrLoop_more_steps (by omega) h | (rw [if_neg hc]; exact iwrrLoop_more_steps (by omega) h)

theorem balSelect_more_steps {n m : Nat} {rs rs' : List Nat} {bal : Bal} {ob bal'} (ha : bal.algo = .iwrr) (hn : n ≤ m) (h : balSelect n rs bal = .done ob bal') :
    balSelect m rs' bal = .done ob bal' := by
  unfold balSelect at h ⊢
  split at h
  · cases h
  · rename_i b hb
    exact h
  · rename_i h1 h2
    rw [ha] at h
    dsimp only at h
    rw [ha]
    dsimp only
    unfold iwrrSelect at h ⊢
    split at h
    · exact iwrrLoop_more_steps hn h
    · dsimp only at h ⊢
      split at h
      · exact h
      · exact iwrrLoop_more_steps hn h

theorem lbSelect_pick {n : Nat} {bal : Bal} {post : List Bal} (hs : Sane bal) (hact : ∃ b ∈ bal.backends, Active b) :
    ∀ (pre : List Bal) (rnd : Nat → List Nat) {ob bals}, (∀ x ∈ pre, ∃ c, x.backends = [c] ∧ ¬ Active c) → lbSelect n rnd (pre ++ bal :: post) = .done ob bals →
      ∃ rs b bal1, balSelect n rs bal = .done (some b) bal1 ∧ ob = some b ∧ bals = pre ++ bal1 :: post
  | [], rnd, ob, bals, _, h => by
    rw [List.nil_append, lbSelect] at h
    split at h
    · rename_i b bal1 hb
      cases h
      exact ⟨_, b, bal1, hb, rfl, rfl⟩
    · rename_i bal1 hb
      obtain ⟨b, hbm, hba⟩ := hact
      exact absurd hba (balSelect_done_none hs hb b hbm)
    · cases h
    · cases h
  | x :: pre, rnd, ob, bals, hp, h => by
    obtain ⟨c, h1, h2⟩ := hp x (by simp)
    have hx : balSelect n (rnd 0) x = .done none x := by
      unfold balSelect
      rw [h1]
      dsimp only
      rw [if_neg (fun hc => h2 ((isActive_iff c).1 hc))]
    rw [List.cons_append, lbSelect, hx] at h
    dsimp only at h
    split at h
    · rename_i b t ht
      cases h
      obtain ⟨rs, b, bal1, e1, e2, e3⟩ := lbSelect_pick hs hact pre _ (fun y hy => hp y (by simp [hy])) ht
      exact ⟨rs, b, bal1, e1, e2, by rw [e3]; rfl⟩
    · rename_i hno
      exact absurd h (hno _ _)

theorem getBackend_pick {ttl : Nat} {now : TS} {n : Nat} {rnd : Nat → List Nat} {key : Option Bytes} {s s1 : SvcSt} {id : Nat} {pre post : List Bal} {bal : Bal}
    (hs : s.bals = pre ++ bal :: post) (hsane : Sane bal) (hact : ∃ b ∈ bal.backends, Active b) (hp : ∀ x ∈ pre, ∃ c, x.backends = [c] ∧ ¬ Active c)
    (hk : ∀ k, key = some k → (s.tab.find ttl now (k.take keySize)).2 = none) (h : s.getBackend ttl now n rnd key = .done (some id) s1) :
    ∃ rs b bal1, balSelect n rs bal = .done (some b) bal1 ∧ b.id = id ∧ s1.bals = pre ++ bal1 :: post := by
  have hlb : ∀ {s0 : SvcSt} {ob : Option Nat} {s2 : SvcSt}, s0.bals = s.bals → s0.lb n rnd = .done ob s2 →
      ∃ rs b bal1, balSelect n rs bal = .done (some b) bal1 ∧ ob = some b.id ∧ s2.bals = pre ++ bal1 :: post := by
    intro s0 ob s2 he h
    unfold SvcSt.lb at h
    rw [he, hs] at h
    split at h
    · rename_i b bals hb
      cases h
      obtain ⟨rs, b', bal1, e1, e2, e3⟩ := lbSelect_pick hsane hact pre rnd hp hb
      exact ⟨rs, b', bal1, e1, by rw [e2]; rfl, e3⟩
    · cases h
    · cases h
  unfold SvcSt.getBackend at h
  split at h
  case isFalse => cases h
  cases key with
  | none =>
    obtain ⟨rs, b, bal1, e1, e2, e3⟩ := hlb rfl h
    exact ⟨rs, b, bal1, e1, (Option.some.inj e2).symm, e3⟩
  | some k =>
    dsimp only at h
    unfold SvcSt.byKey at h
    have hf := hk k rfl
    split at h
    · rename_i tab b hfb
      rw [hfb] at hf
      cases hf
    · rename_i tab hfn
      split at h
      · rename_i b s2 hl
        cases h
        obtain ⟨rs, b', bal1, e1, e2, e3⟩ := hlb (s0 := { s with tab := tab }) rfl hl
        exact ⟨rs, b', bal1, e1, (Option.some.inj e2).symm, e3⟩
      · rename_i s2 hl
        obtain ⟨_, _, _, _, e2, _⟩ := hlb (s0 := { s with tab := tab }) rfl hl
        cases e2
      · rename_i r h1 h2
        obtain ⟨rs, b', bal1, e1, e2, e3⟩ := hlb (s0 := { s with tab := tab }) rfl h
        exact ⟨rs, b', bal1, e1, (Option.some.inj e2).symm, e3⟩

theorem getBackend_known {ttl : Nat} {now : TS} {n : Nat} {rnd : Nat → List Nat} {k : Bytes} {s s1 : SvcSt} {id b : Nat}
    (hk : (s.tab.find ttl now (k.take keySize)).2 = some b) (h : s.getBackend ttl now n rnd (some k) = .done (some id) s1) : s1.bals = s.bals := by
  unfold SvcSt.getBackend at h
  split at h
  case isFalse => cases h
  dsimp only at h
  unfold SvcSt.byKey at h
  split at h
  · cases h; rfl
  · rename_i tab hfn
    rw [hfn] at hk
    cases hk

theorem traffic_selections {ttl : Nat} {s s' : SvcSt} {ids : List Nat} (h : Traffic ttl s ids s') :
    ∀ {pre post : List Bal} {bal : Bal}, s.bals = pre ++ bal :: post → Sane bal → (∃ b ∈ bal.backends, Active b) → (∀ x ∈ pre, ∃ c, x.backends = [c] ∧ ¬ Active c) → bal.algo = .iwrr →
      ∃ N l bal', (∀ n, N ≤ n → selections n ids.length bal = some (l, bal')) ∧ l.map (·.id) = ids := by
  induction h with
  | nothing => exact fun _ _ _ _ _ => ⟨0, [], _, fun n _ => rfl, rfl⟩
  | @balanced s s1 s2 now n rnd key id l hk hg _ ih =>
    intro pre post bal hs hsane hact hp ha
    obtain ⟨rs, b, bal1, e1, rfl, e3⟩ := getBackend_pick hs hsane hact hp hk hg
    obtain ⟨q1, q2⟩ := balSelect_same hsane.cursor e1
    have hbe : bal1.backends = bal.backends := q1.2.2.2.1.symm
    obtain ⟨N, l', bal', i1, i2⟩ := ih e3 ⟨by rw [hbe]; exact hsane.some, totals_same q1 hsane.totals, q2, by rw [hbe]; exact hsane.prio, by rw [hbe]; exact hsane.bound⟩
      (by rw [hbe]; exact hact) hp (by rw [← q1.1]; exact ha)
    refine ⟨max n N, b :: l', bal', fun m hm => ?_, by rw [List.map_cons, i2]⟩
    rw [List.length_cons, selections, balSelect_more_steps ha (Nat.le_trans (Nat.le_max_left ..) hm) e1]
    dsimp only
    rw [i1 m (Nat.le_trans (Nat.le_max_right ..) hm)]
    rfl
  | session hk hg _ ih => exact fun hs => ih ((getBackend_known hk hg).trans hs)
  | table _ ih => exact fun hs => ih hs

/-- Weighted round robin among requests of all kinds, in any order and at any times: those that are not of a session in the table are given the backends in proportion to their priorities, exactly so
whenever their number is a multiple of the sum of the priorities, whatever requests of sessions and changes of the table come between them. -/
theorem C22_traffic {ttl : Nat} {s s' : SvcSt} (hok : BalsOk s.bals) {pre post : List Bal} {bal : Bal} (hs : s.bals = pre ++ bal :: post)
    (hp : ∀ x ∈ pre, ∃ c, x.backends = [c] ∧ ¬ Active c) (ha : bal.algo = .iwrr) (hact : ∃ b ∈ bal.backends, Active b) {ids : List Nat} (h : Traffic ttl s ids s') {cycles : Nat}
    (hlen : ids.length = cycles * prioSum bal.backends) :
    (∀ b ∈ bal.backends, ids.count b.id = cycles * if Active b then b.prio else 0) ∧ (∀ id ∈ ids, ∃ b ∈ bal.backends, b.id = id ∧ Active b) := by
  have hm : bal ∈ s.bals := by rw [hs]; simp
  have hids : (bal.backends.map (·.id)).Nodup := by
    have h1 := hok.cfg.distinct
    rw [hs, List.flatMap_append, List.flatMap_cons, List.map_append, List.map_append] at h1
    exact (List.nodup_append.mp (List.nodup_append.mp h1).2.1).1
  have hnd : bal.backends.Nodup := List.Pairwise.of_map (·.id) (fun a b h e => h (congrArg _ e)) hids
  obtain ⟨N, l, bal', h1, h2, h3, -⟩ := C22_fair ha (hok.totals bal hm) (hok.cursor bal hm) (hok.cfg.nonempty bal hm) hnd cycles
  obtain ⟨M, l', bal2, g1, rfl⟩ := traffic_selections h hs (hok.sane bal hm) hact hp ha
  have e := g1 (max N M) (Nat.le_max_right ..)
  rw [hlen, h1 (max N M) (Nat.le_max_left ..)] at e
  simp only [Option.some.injEq, Prod.mk.injEq] at e
  obtain ⟨rfl, -⟩ := e
  refine ⟨fun b hb => ?_, fun id hid => ?_⟩
  · rw [count_ids hids hb l fun x hx => (h3 x hx).1]
    exact h2 b hb
  · obtain ⟨b, hb, rfl⟩ := List.mem_map.mp hid
    exact ⟨b, (h3 b hb).1, rfl, (h3 b hb).2⟩

/-- The state after a request -/
def afterReq (s : SvcSt) (key : Option Bytes) : SvcSt :=
  match s.getBackend 60 ⟨100, 0⟩ 20 (fun _ => []) key with
  | .done _ s => s
  | _ => s

/-- The first request starts a session, the second one belongs to it and is given the same backend; the others have none. -/
theorem traffic_ex : ∃ s', Traffic 60 sharesSt [1, 2, 1] s' := by
  refine ⟨afterReq (afterReq (afterReq (afterReq sharesSt (some b!"k")) (some b!"k")) none) none, ?_⟩
  refine .balanced (s1 := afterReq sharesSt (some b!"k")) (now := ⟨100, 0⟩) (n := 20) (rnd := fun _ => []) (key := some b!"k") (fun k hk => ?_) (by decide +kernel) ?_
  · cases hk; decide +kernel
  refine .session (s1 := afterReq (afterReq sharesSt (some b!"k")) (some b!"k")) (now := ⟨100, 0⟩) (n := 20) (rnd := fun _ => []) (k := b!"k") (b := 1) (id := 1) (by decide +kernel)
    (by decide +kernel) ?_
  refine .balanced (s1 := afterReq (afterReq (afterReq sharesSt (some b!"k")) (some b!"k")) none) (now := ⟨100, 0⟩) (n := 20) (rnd := fun _ => []) (key := none)
    (fun k hk => by cases hk) (by decide +kernel) ?_
  exact .balanced (now := ⟨100, 0⟩) (n := 20) (rnd := fun _ => []) (key := none) (fun k hk => by cases hk) (by decide +kernel) .nothing

/-- The hypotheses of `C22_traffic` are met. -/
example : ∃ s s' pre post bal, BalsOk s.bals ∧ s.bals = pre ++ bal :: post ∧ (∀ x ∈ pre, ∃ c, x.backends = [c] ∧ ¬ Active c) ∧ bal.algo = .iwrr ∧ (∃ b ∈ bal.backends, Active b) ∧
    Traffic 60 s [1, 2, 1] s' ∧ [1, 2, 1].length = 1 * prioSum bal.backends := by
  obtain ⟨s', h⟩ := traffic_ex
  have hb : BalsOk (finalBals .iwrr 0 sharesBes) := by
    have hg : ∀ x ∈ sharesBes, x.bes ≠ [] ∧ x.bes.length ≤ 2 ^ 47 ∧ ∀ b ∈ x.bes, 1 ≤ b.prio ∧ b.prio ≤ 65535 := by decide
    obtain ⟨b1, b2, b3⟩ := finalBals_spec .iwrr 0 sharesBes hg
    refine ⟨⟨?_, fun bal hb => (b3 bal hb).2.2.2.1, fun bal hb => (b3 bal hb).2.2.2.2.1, fun bal hb => (b3 bal hb).2.2.2.2.2⟩, fun bal hb => (b3 bal hb).2.1,
      fun bal hb => (b3 bal hb).2.2.1⟩
    rw [b1]
    exact List.nodup_range'
  have hr : SvcReach 60 (finalBals .iwrr 0 sharesBes) ⟨100, 0⟩ sharesSt ⟨100, 0⟩ := .backend _ .init
  refine ⟨sharesSt, s', sharesSt.bals.take 1, [], sharesSt.bals[1]'(by decide +kernel), (svcReach_ok hb hr).bals, by decide +kernel, ?_, by decide +kernel, by decide +kernel, h, by decide +kernel⟩
  have : ∀ x ∈ sharesSt.bals.take 1, x.backends.length = 1 ∧ ∀ c ∈ x.backends, ¬ Active c := by decide +kernel
  intro x hx
  obtain ⟨h1, h2⟩ := this x hx
  obtain ⟨c, hc⟩ := List.length_eq_one_iff.mp h1
  exact ⟨c, hc, h2 c (by rw [hc]; simp)⟩

theorem selections_total {bal : Bal} (ha : bal.algo = .iwrr) (ht : Totals bal) (hc : CursorOk bal) (hne : bal.backends ≠ []) (hn : bal.backends.Nodup) (hpos : 0 < prioSum bal.backends) (m : Nat)
    {l bal'} {M : Nat} (h : ∀ n, M ≤ n → selections n m bal = some (l, bal')) :
    (∀ b ∈ bal.backends, m / prioSum bal.backends * (if Active b then b.prio else 0) ≤ l.count b ∧ l.count b ≤ (m / prioSum bal.backends + 1) * if Active b then b.prio else 0) ∧
    ∀ b ∈ l, b ∈ bal.backends ∧ Active b := by
  obtain ⟨N1, l1, bal1, a1, a2, -, -⟩ := C22_fair ha ht hc hne hn (m / prioSum bal.backends)
  obtain ⟨N2, l2, bal2, c1, c2, c3, -⟩ := C22_fair ha ht hc hne hn (m / prioSum bal.backends + 1)
  have e0 := Nat.div_add_mod' m (prioSum bal.backends)
  have e1 := Nat.mod_lt m hpos
  generalize hS : prioSum bal.backends = S at *
  generalize m / S = q at *
  have n1 : N1 ≤ N1 + N2 + M := by omega
  have n2 : N2 ≤ N1 + N2 + M := by omega
  have n3 : M ≤ N1 + N2 + M := by omega
  have s1 := selections_add (N1 + N2 + M) (q * S) (m - q * S) bal (a1 _ n1)
  rw [show q * S + (m - q * S) = m by omega, h _ n3] at s1
  obtain ⟨r1, x1, x2⟩ := Option.map_eq_some_iff.mp s1.symm
  simp only [Prod.mk.injEq] at x2
  have s2 := selections_add (N1 + N2 + M) m ((q + 1) * S - m) bal (h _ n3)
  have e2 : (q + 1) * S = q * S + S := Nat.succ_mul q S
  rw [show m + ((q + 1) * S - m) = (q + 1) * S by omega, c1 _ n2] at s2
  obtain ⟨r2, y1, y2⟩ := Option.map_eq_some_iff.mp s2.symm
  simp only [Prod.mk.injEq] at y2
  refine ⟨fun b hb => ⟨?_, ?_⟩, fun b hb => c3 b (by rw [← y2.1]; exact List.mem_append_left _ hb)⟩
  · rw [← a2 b hb, ← x2.1, List.count_append]
    omega
  · rw [← c2 b hb, ← y2.1, List.count_append]
    omega

/-- For any number of requests that are not of a session: each backend has been given its share of the whole cycles, and at most its priority more. -/
theorem C22_any_number {ttl : Nat} {s s' : SvcSt} (hok : BalsOk s.bals) {pre post : List Bal} {bal : Bal} (hs : s.bals = pre ++ bal :: post)
    (hp : ∀ x ∈ pre, ∃ c, x.backends = [c] ∧ ¬ Active c) (ha : bal.algo = .iwrr) (hact : ∃ b ∈ bal.backends, Active b) {ids : List Nat} (h : Traffic ttl s ids s') :
    ∀ b ∈ bal.backends, (Active b → ids.length / prioSum bal.backends * b.prio ≤ ids.count b.id ∧ ids.count b.id ≤ (ids.length / prioSum bal.backends + 1) * b.prio) ∧
      (¬ Active b → ids.count b.id = 0) := by
  have hm : bal ∈ s.bals := by rw [hs]; simp
  have hsane := hok.sane bal hm
  have hids : (bal.backends.map (·.id)).Nodup := by
    have h1 := hok.cfg.distinct
    rw [hs, List.flatMap_append, List.flatMap_cons, List.map_append, List.map_append] at h1
    exact (List.nodup_append.mp (List.nodup_append.mp h1).2.1).1
  have hnd : bal.backends.Nodup := List.Pairwise.of_map (·.id) (fun a b h e => h (congrArg _ e)) hids
  have hpos : 0 < prioSum bal.backends := by
    obtain ⟨b, hb, hba⟩ := hact
    exact Nat.lt_of_lt_of_le (hsane.prio b hb hba) (prio_le_sum hb hba)
  obtain ⟨M, l, bal2, g1, g2⟩ := traffic_selections h hs hsane hact hp ha
  obtain ⟨k1, k2⟩ := selections_total ha hsane.totals hsane.cursor hsane.some hnd hpos ids.length g1
  intro b hb
  obtain ⟨j1, j2⟩ := k1 b hb
  rw [← count_ids hids hb l fun x hx => (k2 x hx).1, g2] at j1 j2
  refine ⟨fun hb' => ?_, fun hb' => ?_⟩
  · rw [if_pos hb'] at j1 j2
    exact ⟨j1, j2⟩
  · rw [if_neg hb', Nat.mul_zero] at j2
    omega

/-- With less than a cycle -/
example : ∃ s', Traffic 60 sharesSt [1, 2] s' ∧ [1, 2].length / 3 = 0 := by
  refine ⟨afterReq (afterReq sharesSt none) none, ?_, rfl⟩
  refine .balanced (s1 := afterReq sharesSt none) (now := ⟨100, 0⟩) (n := 20) (rnd := fun _ => []) (key := none) (fun k hk => by cases hk) (by decide +kernel) ?_
  exact .balanced (now := ⟨100, 0⟩) (n := 20) (rnd := fun _ => []) (key := none) (fun k hk => by cases hk) (by decide +kernel) .nothing

/-- The same from the text: in a documented configuration with `Balancer iwrr`, whatever has happened in a service of it, there is a number such that whenever that many requests, or a multiple of it,
were not of a session in the table, the backends of the first group with one that can be used were given exactly as many of them as their Priority in the text says, times that multiple, whatever
requests of sessions came between them; and for any number of them, their shares of the whole cycles, and at most their Priority more.
Missing: as in `C101_shares_partial`. -/
theorem C101_traffic_partial (e : TopEnv) (t : List Tok) (g : Glob) (o : FullObjs) (h : FullConfigures e t g o) (hp : PlainText t) (hn : ∀ nb ∈ o.named, nb.m.host ≠ none) :
    ∃ o' N, (∀ n, N ≤ n → parseFull e n t = some (g, o', 0)) ∧
      ∀ (j i : Nat) (l : Lst LOther) (v : FullSvc), o.lsts[j]? = some l → (l.other.svcs ++ o.svcs)[i]? = some v → v.rest.bes.algo = .iwrr →
        ∃ l' v', o'.lsts[j]? = some l' ∧ (l'.other.svcs ++ o'.svcs)[i]? = some v' ∧
          ∀ (fe : FinEnv) (fs : List FGrp), Each (GroupFinal fe o.named) v.rest.bes.groups fs → (∀ g ∈ fs, g.bes.length ≤ 2 ^ 47) →
            serviceFinalize fe o'.named v'.rest.bes.groups = .ok (some fs) ∧
            ∀ (t0 : TS) (s : SvcSt) (last : TS) (k : Nat), SvcReach v'.rest.sess.ttl (finalBals v'.rest.bes.algo 0 fs) t0 s last → (∀ q gq, q < k → fs[q]? = some gq → gq.bes.length = 1) →
              (∃ b f, b ∈ s.all ∧ Active b ∧ Numbered fs b.id k f) → (∀ b ∈ s.all, Active b → ∃ k' f', Numbered fs b.id k' f' ∧ k ≤ k') →
              ∃ total, 0 < total ∧
                (∀ cycles ids s', Traffic v'.rest.sess.ttl s ids s' → ids.length = cycles * total →
                  (∀ id f, Numbered fs id k f → ∃ b ∈ s.all, b.id = id ∧ ids.count id = cycles * if Active b then f.prio.toNat else 0) ∧ (∀ id ∈ ids, ∃ f, Numbered fs id k f)) ∧
                ∀ ids s', Traffic v'.rest.sess.ttl s ids s' → ∀ id f, Numbered fs id k f → ∃ b ∈ s.all, b.id = id ∧ (¬ Active b → ids.count id = 0) ∧
                  (Active b → ids.length / total * f.prio.toNat ≤ ids.count id ∧ ids.count id ≤ (ids.length / total + 1) * f.prio.toNat) := by
  have hfit := full_fit h
  obtain ⟨o', N, h1, h2⟩ := C101_served_partial e t g o h hp hn
  refine ⟨o', N, h1, fun j i l v hj hi halgo => ?_⟩
  obtain ⟨l', v', g1, g2, g3, g4⟩ := h2 j i l v hj hi
  refine ⟨l', v', g1, g2, fun fe fs hf hl => ⟨(g4 fe fs hf hl).1, fun t0 s last k hr hbefore hex hfirst => ?_⟩⟩
  have hv : SvcFit v := by
    rcases List.mem_append.mp (List.mem_of_getElem? hi) with hm | hm
    · exact hfit.lsts l (List.mem_of_getElem? hj) v hm
    · exact hfit.svcs v hm
  obtain ⟨be, bd, algo, u, items, hi1, hi2⟩ := hv
  obtain ⟨q1, q2⟩ := final_groups hi1 hi2 hfit.prio hf
  have hg : ∀ x ∈ fs, x.bes ≠ [] ∧ x.bes.length ≤ 2 ^ 47 ∧ ∀ b ∈ x.bes, 1 ≤ b.prio ∧ b.prio ≤ 65535 := fun x hx => ⟨(q1 x hx).1, hl x hx, (q1 x hx).2⟩
  obtain ⟨b1, b2, b3⟩ := finalBals_spec v.rest.bes.algo 0 fs hg
  have hb : BalsOk (finalBals v.rest.bes.algo 0 fs) := by
    refine ⟨⟨?_, fun bal hb => (b3 bal hb).2.2.2.1, fun bal hb => (b3 bal hb).2.2.2.2.1, fun bal hb => (b3 bal hb).2.2.2.2.2⟩, fun bal hb => (b3 bal hb).2.1,
      fun bal hb => (b3 bal hb).2.2.1⟩
    rw [b1]
    exact List.nodup_range'
  rw [g3] at hr ⊢
  have hok := (svcReach_ok hb hr).bals
  obtain ⟨r1, r2⟩ := reach_groups hg hb hr
  have rl := reach_lengths hg hb hr
  have hls : s.bals.length = fs.length := by
    have x1 := congrArg List.length (share_reach hb hr)
    have x2 := congrArg List.length b2
    simp only [shareFrame, List.length_map] at x1 x2
    omega
  have inj : ∀ {x y : Be}, x ∈ s.all → y ∈ s.all → x.id = y.id → x = y := fun hx hy e => nodup_map_inj hok.cfg.distinct hx hy e
  -- a backend stands in one group only
  have place : ∀ {b : Be} {k : Nat} {f : FBe}, b ∈ s.all → Numbered fs b.id k f → ∃ bal, s.bals[k]? = some bal ∧ b ∈ bal.backends ∧ b.prio = f.prio.toNat := by
    intro b k f hbm hnum
    obtain ⟨bal, x, x1, x2, x3, x4⟩ := r2 _ _ _ hnum
    have := inj (at_all x1 x2) hbm x3
    subst this
    exact ⟨bal, x1, x2, x4⟩
  obtain ⟨b0, f0, m1, m2, m3⟩ := hex
  obtain ⟨bal, p1, p2, -⟩ := place m1 m3
  have hkl := (List.getElem?_eq_some_iff.mp p1).1
  have hsplit : s.bals = s.bals.take k ++ bal :: s.bals.drop (k + 1) := by
    have e : s.bals[k] = bal := (List.getElem?_eq_some_iff.mp p1).2
    conv => lhs; rw [← List.take_append_drop k s.bals, List.drop_eq_getElem_cons hkl, e]
  have hpre : ∀ x ∈ s.bals.take k, ∃ c, x.backends = [c] ∧ ¬ Active c := by
    intro x hx
    obtain ⟨j, hj1, hj2⟩ := List.getElem_of_mem hx
    rw [List.length_take] at hj1
    have hjk : j < k := by omega
    have hxj : s.bals[j]? = some x := by
      rw [List.getElem_take] at hj2
      rw [← hj2]
      exact List.getElem?_eq_getElem _
    have hlt : x.backends.length < 2 := by
      obtain ⟨x', y1, y2⟩ := rl j fs[j] (List.getElem?_eq_getElem (by omega))
      rw [hxj] at y1
      cases y1
      rw [hbefore j fs[j] hjk (List.getElem?_eq_getElem (by omega))] at y2
      omega
    have hne := hok.cfg.nonempty x (List.mem_of_getElem? hxj)
    match hbs : x.backends with
    | [] => exact absurd hbs hne
    | [c] =>
      refine ⟨c, rfl, fun hc => ?_⟩
      have hcm : c ∈ x.backends := by rw [hbs]; simp
      obtain ⟨k', f', y1, y2⟩ := hfirst c (at_all hxj hcm) hc
      -- the group of c comes before
      obtain ⟨bal', z1, z2, -⟩ := place (at_all hxj hcm) y1
      have hd := hok.cfg.distinct
      have : s.bals = s.bals.take k' ++ s.bals.drop k' := (List.take_append_drop ..).symm
      rw [this, List.flatMap_append, List.map_append] at hd
      refine (List.nodup_append.mp hd).2.2 c.id (List.mem_map.mpr ⟨c, List.mem_flatMap.mpr ⟨x, ?_, hcm⟩, rfl⟩) c.id
        (List.mem_map.mpr ⟨c, List.mem_flatMap.mpr ⟨bal', ?_, z2⟩, rfl⟩) rfl
      · exact List.mem_of_getElem? (i := j) (by rw [List.getElem?_take, if_pos (by omega)]; exact hxj)
      · exact List.mem_of_getElem? (i := 0) (by rw [List.getElem?_drop, Nat.add_zero]; exact z1)
    | c :: d :: r => rw [hbs] at hlt; simp only [List.length_cons] at hlt; omega
  refine ⟨prioSum bal.backends, ?_, fun cycles ids s' htr hlen => ?_, fun ids s' htr id f hnum => ?_⟩
  · exact Nat.lt_of_lt_of_le (hok.cfg.prios bal (List.mem_of_getElem? p1) b0 p2).1 (prio_le_sum p2 m2)
  · obtain ⟨c2, c3⟩ := C22_traffic hok hsplit hpre ((r1 k bal p1).1.trans halgo) ⟨b0, p2, m2⟩ htr hlen
    refine ⟨fun id f hnum => ?_, fun id hid => ?_⟩
    · obtain ⟨bal', x, x1, x2, x3, x4⟩ := r2 id k f hnum
      rw [p1] at x1
      cases x1
      refine ⟨x, at_all p1 x2, x3, ?_⟩
      rw [← x3, c2 x x2, x4]
    · obtain ⟨b, y1, y2, -⟩ := c3 id hid
      obtain ⟨f, y3, -⟩ := (r1 k bal p1).2 b y1
      exact ⟨f, y2 ▸ y3⟩
  · obtain ⟨bal', x, x1, x2, x3, x4⟩ := r2 id k f hnum
    rw [p1] at x1
    cases x1
    obtain ⟨d1, d2⟩ := C22_any_number hok hsplit hpre ((r1 k bal p1).1.trans halgo) ⟨b0, p2, m2⟩ htr x x2
    rw [x3, x4] at d1
    rw [x3] at d2
    exact ⟨x, at_all p1 x2, x3, d2, d1⟩

/-- The hypotheses are met, by requests with a session and without. -/
example : ∃ t g o l v fe fs s s', FullConfigures topEnv0 t g o ∧ PlainText t ∧ (∀ nb ∈ o.named, nb.m.host ≠ none) ∧ o.lsts[0]? = some l ∧ (l.other.svcs ++ o.svcs)[0]? = some v ∧
    v.rest.bes.algo = .iwrr ∧ Each (GroupFinal fe o.named) v.rest.bes.groups fs ∧ (∀ g ∈ fs, g.bes.length ≤ 2 ^ 47) ∧ (∀ q gq, q < 1 → fs[q]? = some gq → gq.bes.length = 1) ∧
    SvcReach v.rest.sess.ttl (finalBals v.rest.bes.algo 0 fs) ⟨100, 0⟩ s ⟨100, 0⟩ ∧ (∃ b f, b ∈ s.all ∧ Active b ∧ Numbered fs b.id 1 f) ∧
    (∀ b ∈ s.all, Active b → ∃ k' f', Numbered fs b.id k' f' ∧ 1 ≤ k') ∧ Traffic v.rest.sess.ttl s [1, 2, 1] s' := by
  obtain ⟨t, g, o, l, v, fe, fs, s, h1, h2, h3, h4, h5, h6, h7, h8, h9, h10, h11, h12, rfl, hl⟩ := shares_met
  obtain ⟨s', h⟩ := traffic_ex
  exact ⟨t, g, o, l, v, fe, fs, _, s', h1, h2, h3, h4, h5, h6, h7, h8, h9, h10, h11, h12, by rw [hl]; exact h⟩

end Pound.Props
