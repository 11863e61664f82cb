import Verif.Props.FullServed
import Verif.Props.Transit

/-!
C24 and C101: the requests of a session, over any history, in a service as it is configured.
-/

namespace Pound.Props
open Pound Spec

/-- What may happen in a service from one time to another without ending the session of `key` with the backend `be`, last known to be used at `since`: anything but that this backend is
found dead, that the session is removed by a control request, and that sessions are removed which end so late. -/
inductive Meanwhile (ttl : Nat) (key : Bytes) (be : Nat) (since : TS) : SvcSt → TS → SvcSt → TS → Prop
  | nothing {s t} : Meanwhile ttl key be since s t s t
  | backend {s t s1 t1} (e : BeEv) : Meanwhile ttl key be since s t s1 t1 → e ≠ .kill be → Meanwhile ttl key be since s t (s1.event e) t1
  | request {s t s1 t1 now n rnd k ob s2} : Meanwhile ttl key be since s t s1 t1 → NotAfter t1 now → s1.getBackend ttl now n rnd k = .done ob s2 →
      Meanwhile ttl key be since s t s2 now
  | response {s t s1 t1 now k} {b : Be} : Meanwhile ttl key be since s t s1 t1 → NotAfter t1 now → b ∈ s1.all → Up b →
      Meanwhile ttl key be since s t (s1.updSession ttl now k b.id) now
  | expire {s t s1 t1} (upTo : TS) : Meanwhile ttl key be since s t s1 t1 → Before upTo (since.addSec ttl) →
      Meanwhile ttl key be since s t { s1 with tab := (s1.tab.expire upTo).1 } t1
  | remove {s t s1 t1} (k : Bytes) : Meanwhile ttl key be since s t s1 t1 → k ≠ key → Meanwhile ttl key be since s t { s1 with tab := s1.tab.removeKey k } t1

/-- There is a session that ends at some time or later. -/
def KeptTab (tab : SessTab) (key : Bytes) (be : Nat) (ends : TS) : Prop := ∃ x ∈ tab.head, x.key = key ∧ x.be = be ∧ NotAfter ends x.expire

theorem kept_find {tab : SessTab} {bd now : TS} {ttl : Nat} {key : Bytes} {be : Nat} {ends : TS} (hi : SessInv tab bd) (hn : NotAfter ends (now.addSec ttl))
    (h : KeptTab tab key be ends) (k : Bytes) : KeptTab (tab.find ttl now k).1 key be ends := by
  obtain ⟨x, hx, hk, hb, he⟩ := h
  rcases find_spec hi (ttl := ttl) (now := now) k with ⟨_, e⟩ | ⟨y, hy, hky, e⟩
  · rw [e]; exact ⟨x, hx, hk, hb, he⟩
  · rw [e]
    by_cases hp : x.ptr = y.ptr
    · have := ptr_inj hi.ptrs hx hy hp
      subst this
      exact ⟨_, List.mem_append.2 (.inr (List.mem_singleton.2 rfl)), hk, hb, hn⟩
    · exact ⟨x, List.mem_append.2 (.inl (mem_unlink.2 ⟨hx, hp⟩)), hk, hb, he⟩

theorem kept_add {tab : SessTab} {bd now : TS} {ttl : Nat} {key : Bytes} {be : Nat} {ends : TS} (hi : SessInv tab bd)
    (h : KeptTab tab key be ends) (k : Bytes) (hno : ∀ y ∈ tab.head, y.key ≠ k) (b : Nat) : KeptTab (tab.add ttl now k b).1 key be ends := by
  obtain ⟨x, hx, hk, hb, he⟩ := h
  have hd : (tab.add ttl now k b).1.head = without tab k ++ [⟨tab.fresh, k, b, now.addSec ttl⟩] := by
    unfold SessTab.add without hashInsert
    cases tab.hash.lookup k <;> rfl
  refine ⟨x, ?_, hk, hb, he⟩
  rw [hd]
  exact List.mem_append.2 (.inl ((mem_without hi).2 ⟨hx, hno x hx⟩))

theorem kept_get {ttl : Nat} {now : TS} {s s' : SvcSt} (hok : SvcOk ttl now s) {n rnd k ob} (hg : s.getBackend ttl now n rnd k = .done ob s')
    {key : Bytes} {be : Nat} {ends : TS} (hn : NotAfter ends (now.addSec ttl)) (h : KeptTab s.tab key be ends) : KeptTab s'.tab key be ends := by
  cases k with
  | none => rw [C24_without_key hok.bals hg]; exact h
  | some k =>
    unfold SvcSt.getBackend at hg
    split at hg
    · dsimp only at hg
      unfold SvcSt.byKey at hg
      have hf := kept_find (ttl := ttl) (now := now) hok.sess hn h (k.take keySize)
      rcases find_spec hok.sess (ttl := ttl) (now := now) (k.take keySize) with ⟨hno, e⟩ | ⟨y, hy, hky, e⟩
      · rw [e] at hg
        dsimp only at hg
        split at hg
        · rename_i b s1 hl
          cases hg
          obtain ⟨_, _, h3, _, _⟩ := lb_done (s := { s with tab := s.tab }) hok.bals.cursor hl
          dsimp only at h3 ⊢
          rw [h3]
          exact kept_add hok.sess h _ hno _
        · rename_i s1 hl
          obtain ⟨_, h2, h3, _, _⟩ := lb_done (s := { s with tab := s.tab }) hok.bals.cursor hl
          obtain ⟨_, _, k3, _, _⟩ := lb_done h2 hg
          rw [k3, h3]; exact h
        · rename_i hs hne
          cases ob with
          | none => exact absurd hg (fun h => hne _ h)
          | some b => exact absurd hg (fun h => hs _ _ h)
      · rw [e] at hg hf
        cases hg
        exact hf
    · cases hg; exact h

theorem kept_upd {ttl : Nat} {now : TS} {s : SvcSt} (hok : SvcOk ttl now s) (k : Option Bytes) (b : Nat)
    {key : Bytes} {be : Nat} {ends : TS} (hn : NotAfter ends (now.addSec ttl)) (h : KeptTab s.tab key be ends) : KeptTab (s.updSession ttl now k b).tab key be ends := by
  unfold SvcSt.updSession
  cases k with
  | none => exact h
  | some k =>
    have hf := kept_find (ttl := ttl) (now := now) hok.sess hn h k
    dsimp only
    rcases find_spec hok.sess (ttl := ttl) (now := now) k with ⟨hno, e⟩ | ⟨y, hy, hky, e⟩
    · rw [e]; exact kept_add hok.sess h _ hno _
    · rw [e] at hf ⊢; exact hf

theorem meanwhile_reach {ttl : Nat} {bals : List Bal} {t0 since : TS} {key : Bytes} {be : Nat} {s t s2 t2} (h : SvcReach ttl bals t0 s t) (hm : Meanwhile ttl key be since s t s2 t2) :
    SvcReach ttl bals t0 s2 t2 := by
  induction hm with
  | nothing => exact h
  | backend e _ _ ih => exact .backend e ih
  | request _ hn hg ih => exact .request ih hn hg
  | response _ hn hb hu ih => exact .response ih hn hb hu
  | expire u _ _ ih => exact .expire u ih
  | remove k _ _ ih => exact .remove k ih

theorem meanwhile_kept {ttl : Nat} {bals : List Bal} {t0 since : TS} {key : Bytes} {be : Nat} (hb : BalsOk bals) {s t s2 t2} (h : SvcReach ttl bals t0 s t) (hs : NotAfter since t)
    (hm : Meanwhile ttl key be since s t s2 t2) (hk : KeptTab s.tab key be (since.addSec ttl)) : NotAfter since t2 ∧ KeptTab s2.tab key be (since.addSec ttl) := by
  induction hm with
  | nothing => exact ⟨hs, hk⟩
  | backend e hm he ih =>
    obtain ⟨i1, i2⟩ := ih
    refine ⟨i1, ?_⟩
    rename_i s1 _
    rcases event_tab (s := s1) (e := e) with ht | ⟨i, hi, ht⟩
    · rw [ht]; exact i2
    · rw [ht]
      obtain ⟨x, hx, h1, h2, h3⟩ := i2
      refine ⟨x, ?_, h1, h2, h3⟩
      unfold SessTab.removeBe
      rw [removeBeLoop_eq]
      refine List.mem_filter.2 ⟨hx, ?_⟩
      have : x.be ≠ i := fun hc => he (by rw [hi, ← hc, h2])
      simpa using this
  | request hm hn hg ih =>
    obtain ⟨i1, i2⟩ := ih
    have i3 := NotAfter.trans i1 hn
    exact ⟨i3, kept_get ((svcReach_ok hb (meanwhile_reach h hm)).later hn) hg (NotAfter.add ttl i3) i2⟩
  | response hm hn _ _ ih =>
    obtain ⟨i1, i2⟩ := ih
    have i3 := NotAfter.trans i1 hn
    exact ⟨i3, kept_upd ((svcReach_ok hb (meanwhile_reach h hm)).later hn) _ _ (NotAfter.add ttl i3) i2⟩
  | expire u hm hu ih =>
    obtain ⟨i1, x, hx, h1, h2, h3⟩ := ih
    refine ⟨i1, x, ?_, h1, h2, h3⟩
    dsimp only
    unfold SessTab.expire
    rw [expireLoop_eq]
    refine (sorted_dropWhile (svcReach_ok hb (meanwhile_reach h hm)).sess.sorted u).2 ⟨hx, fun hc => ?_⟩
    have := NotAfter.trans h3 hc
    unfold NotAfter at this
    unfold Before at hu
    omega
  | remove k hm hne ih =>
    obtain ⟨i1, x, hx, h1, h2, h3⟩ := ih
    refine ⟨i1, x, ?_, h1, h2, h3⟩
    have hd : ∀ tab : SessTab, (tab.removeKey k).head = without tab k := by
      intro tab
      unfold SessTab.removeKey without hashDelete
      cases tab.hash.lookup k <;> rfl
    dsimp only
    rw [hd]
    exact (mem_without (svcReach_ok hb (meanwhile_reach h hm)).sess).2 ⟨hx, fun hc => hne (by rw [← hc, h1])⟩

/-- A request with a key that was given a backend leaves a session with it. -/
theorem given_kept {ttl : Nat} {bals : List Bal} {t0 : TS} (hb : BalsOk bals) {s t now} (h : SvcReach ttl bals t0 s t) (hn : NotAfter t now)
    {key : Bytes} {n rnd be s1} (hg : s.getBackend ttl now n rnd (some key) = .done (some be) s1) : KeptTab s1.tab (key.take 127) be (now.addSec ttl) := by
  have hok := (svcReach_ok hb h).later hn
  by_cases hex : ∃ b e, sessionOf s (key.take 127) b e
  · obtain ⟨b, e, hs⟩ := hex
    have ha : ∃ b ∈ s.all, Active b := by
      unfold SvcSt.getBackend at hg
      split at hg
      · rename_i hh; exact (hasBackends_iff hok.bals.totals).1 hh
      · cases hg
    obtain ⟨_, s', hr, _, hx⟩ := C24_sticky_partial hb h hn hs ha
    rw [hr n rnd] at hg
    cases hg
    obtain ⟨x, x1, x2, x3, x4⟩ := (hx (key.take 127) be (now.addSec ttl)).2 (by rw [if_pos rfl]; exact ⟨rfl, rfl⟩)
    exact ⟨x, x1, x2, x3, by rw [x4]; exact NotAfter.refl _⟩
  · obtain ⟨_, hx⟩ := C24_new_session_partial hb h hn (fun b e hs => hex ⟨b, e, hs⟩) hg
    obtain ⟨x, x1, x2, x3, x4⟩ := (hx (key.take 127) be (now.addSec ttl)).2 (by rw [if_pos rfl]; exact ⟨rfl, rfl⟩)
    exact ⟨x, x1, x2, x3, by rw [x4]; exact NotAfter.refl _⟩

/-- The requests of a client go to one backend: if a request with a key was given a backend, then, whatever requests and responses there are meanwhile, for this key or for others, whichever
backends fail, come back, are disabled or enabled, and whichever other sessions end or are removed, the next request with that key is given the same backend, unless this backend failed, the
session was removed by a control request, or the time of sessions has passed since the first request.
Missing: as in `C24_sticky_partial`. -/
theorem C24_history_partial {ttl : Nat} {bals : List Bal} {t0 : TS} (hb : BalsOk bals) {s t now} (h : SvcReach ttl bals t0 s t) (hn : NotAfter t now)
    {key : Bytes} {n rnd be s1} (hg : s.getBackend ttl now n rnd (some key) = .done (some be) s1)
    {s2 t2 now2} (hm : Meanwhile ttl (key.take 127) be now s1 now s2 t2) (hn2 : NotAfter t2 now2) (ha : ∃ b ∈ s2.all, Active b) :
    (∃ b ∈ s2.all, b.id = be ∧ Up b) ∧ ∃ s3, ∀ n rnd, s2.getBackend ttl now2 n rnd (some key) = .done (some be) s3 := by
  have hr := SvcReach.request h hn hg
  obtain ⟨_, x, x1, x2, x3, x4⟩ := meanwhile_kept hb hr (NotAfter.refl _) hm (given_kept hb h hn hg)
  obtain ⟨g1, s3, g2, _⟩ := C24_sticky_partial hb (meanwhile_reach hr hm) hn2 (key := key) ⟨x, x1, x2, x3, rfl⟩ ha
  exact ⟨g1, s3, g2⟩

/-- Example: meanwhile another backend fails, another client gets a session, which is removed, and sessions are removed that end before the first one may. -/
example : ∃ s1 s2, (⟨exBals, .init, []⟩ : SvcSt).getBackend 300 ⟨101, 0⟩ 0 (fun _ => [1007]) (some b!"k") = .done (some 2) s1 ∧
    Meanwhile 300 (b!"k".take 127) 2 ⟨101, 0⟩ s1 ⟨101, 0⟩ s2 ⟨110, 0⟩ ∧ NotAfter ⟨110, 0⟩ ⟨120, 0⟩ ∧ ∃ b ∈ s2.all, Active b := by
  refine ⟨_, _, show _ = GetRes.done (some 2) ⟨exBals, ⟨[(b!"k", 0)], [⟨0, b!"k", 2, ⟨401, 0⟩⟩], 1⟩, []⟩ by decide,
    .remove b!"m" (.expire ⟨400, 0⟩ (.request (now := ⟨110, 0⟩) (n := 0) (rnd := fun _ => [1007]) (k := some b!"m") (ob := some 2)
      (.backend (.kill 1) .nothing (by decide)) (by unfold NotAfter; decide)
      (show _ = GetRes.done (some 2) ⟨((⟨exBals, .init, []⟩ : SvcSt).event (.kill 1)).bals, ⟨[(b!"m", 1), (b!"k", 0)], [⟨0, b!"k", 2, ⟨401, 0⟩⟩, ⟨1, b!"m", 2, ⟨410, 0⟩⟩], 2⟩, [1]⟩ by
        decide +kernel)) (by unfold Before; decide)) (by decide), by unfold NotAfter; decide, ⟨exBe 2 3 false true, by decide, by decide⟩⟩

/-- The sessions of a documented configuration: it is accepted, and in each of its services, what identifies the session of a request is what the Session section says by its type and name;
if a request with that was given a backend, this is one which the text has in the service, and it is given to each later request identified by the same, whatever happens meanwhile, within
the time that the Session section says.
Missing: as in `C24_sticky_partial` and in `C101_served_partial`. -/
theorem C101_sticky_partial (e : TopEnv) (t : List Tok) (g : Glob) (o : FullObjs) (h : FullConfigures e t g o) (hp : PlainText t) (hn : ∀ nb ∈ o.named, nb.m.host ≠ none) :
    ∃ o' N, (∀ n, N ≤ n → parseFull e n t = some (g, o', 0)) ∧
      ∀ (j i : Nat) (l : Lst LOther) (v : FullSvc) (sid : Bytes), o.lsts[j]? = some l → (l.other.svcs ++ o.svcs)[i]? = some v → sid = v.rest.sess.id.getD [] →
        ∃ l' v', o'.lsts[j]? = some l' ∧ (l'.other.svcs ++ o'.svcs)[i]? = some v' ∧
          ∀ (fe : FinEnv) (fs : List FGrp), Each (GroupFinal fe o.named) v.rest.bes.groups fs → (∀ g ∈ fs, g.bes.length ≤ 2 ^ 47) →
            serviceFinalize fe o'.named v'.rest.bes.groups = .ok (some fs) ∧
            ∀ (t0 : TS) (s : SvcSt) (last now : TS), SvcReach v'.rest.sess.ttl (finalBals v'.rest.bes.algo 0 fs) t0 s last → NotAfter last now →
            ∀ (addr1 addr2 : Bytes) (r1 r2 : Req) (hs1 hs2 : List Header) (vals1 vals2 : Bytes → List Bytes) (key1 key2 : Bytes), HeaderList hs1 → HeaderList hs2 →
              (∀ nm, Values nm (hs1.map (·.text)) (vals1 nm)) → (∀ nm, Values nm (hs2.map (·.text)) (vals2 nm)) →
              Spec.sessionKey sid addr1 r1.getPath.2 (r1.getParam sid).2 (fun nm => (vals1 nm).head?) v.rest.sess.type = some key1 →
              Spec.sessionKey sid addr2 r2.getPath.2 (r2.getParam sid).2 (fun nm => (vals2 nm).head?) v.rest.sess.type = some key2 → key1.take 127 = key2.take 127 →
              ∃ k1 k2, (requestKey v'.rest.sess.type (v'.rest.sess.id.getD []) addr1 r1 hs1).2 = .ok k1 ∧ (requestKey v'.rest.sess.type (v'.rest.sess.id.getD []) addr2 r2 hs2).2 = .ok k2 ∧
                ∀ (n : Nat) (rnd : Nat → List Nat) (id : Nat) (s1 : SvcSt), s.getBackend v'.rest.sess.ttl now n rnd k1 = .done (some id) s1 →
                  ∃ q f, Numbered fs id q f ∧ (∀ m, f.v ≠ .matrix m) ∧
                    ∀ (s2 : SvcSt) (t2 now2 : TS), Meanwhile v.rest.sess.ttl (key1.take 127) id now s1 now s2 t2 → NotAfter t2 now2 → (∃ b ∈ s2.all, Active b) →
                      ∃ s3, ∀ n rnd, s2.getBackend v'.rest.sess.ttl now2 n rnd k2 = .done (some id) s3 := by
  obtain ⟨o', N, h1, h2⟩ := C101_served_partial e t g o h hp hn
  have hfit := full_fit h
  refine ⟨o', N, h1, fun j i l v sid hj hi hsid => ?_⟩
  obtain ⟨l', v', g1, g2, g3, g4⟩ := h2 j i l v hj hi
  refine ⟨l', v', g1, g2, fun fe fs hf hl => ?_⟩
  obtain ⟨f1, f2⟩ := g4 fe fs hf hl
  refine ⟨f1, fun t0 s last now hr hnow addr1 addr2 r1 r2 hs1 hs2 vals1 vals2 key1 key2 hh1 hh2 hv1 hv2 hk1 hk2 hkk => ?_⟩
  have hv : SvcFit v := by
    rcases List.mem_append.mp (List.mem_of_getElem? hi) with hm | hm
    · exact hfit.lsts l (List.mem_of_getElem? hj) v hm
    · exact hfit.svcs v hm
  obtain ⟨be, bd, algo, u, items, hi1, hi2⟩ := hv
  obtain ⟨q1, q2⟩ := final_groups hi1 hi2 hfit.prio hf
  obtain ⟨b1, b2, b3⟩ := finalBals_spec v.rest.bes.algo 0 fs fun x hx => ⟨(q1 x hx).1, hl x hx, (q1 x hx).2⟩
  have hb : BalsOk (finalBals v.rest.bes.algo 0 fs) := by
    refine ⟨⟨?_, fun bal hb => (b3 bal hb).2.2.2.1, fun bal hb => (b3 bal hb).2.2.2.2.1, fun bal hb => (b3 bal hb).2.2.2.2.2⟩, fun bal hb => (b3 bal hb).2.1,
      fun bal hb => (b3 bal hb).2.2.1⟩
    rw [b1]
    exact List.nodup_range'
  have e1 := C24_key v.rest.sess.type sid addr1 r1 hs1 (HeaderList.good hh1) vals1 hv1
  have e2 := C24_key v.rest.sess.type sid addr2 r2 hs2 (HeaderList.good hh2) vals2 hv2
  obtain ⟨k1, c1, d1⟩ := e1
  obtain ⟨k2, c2, d2⟩ := e2
  rw [hk1] at d1
  rw [hk2] at d2
  rw [hsid] at c1 c2
  rw [g3] at hr f2 ⊢
  refine ⟨k1, k2, c1, c2, fun n rnd id s1 hg => ?_⟩
  obtain ⟨q, f, b, p1, p2, -⟩ := ((f2 t0 s last now hr hnow).1 n rnd k1 _ s1 hg).1 id rfl
  refine ⟨q, f, p1, p2, fun s2 t2 now2 hm hn2 ha => ?_⟩
  cases k1 with
  | none => cases d1
  | some k1 =>
  cases k2 with
  | none => cases d2
  | some k2 =>
  injection d1 with d1
  injection d2 with d2
  dsimp only at d1 d2
  rw [← d1] at hm
  obtain ⟨_, s3, hs3⟩ := C24_history_partial hb hr hnow hg hm hn2 ha
  refine ⟨s3, fun n rnd => ?_⟩
  rw [← hs3 n rnd]
  have : k2.take 127 = k1.take 127 := by rw [d1, d2, hkk]
  simp only [SvcSt.getBackend, SvcSt.byKey, keySize, this]

private theorem sticky_seen : seen (fun o => match o.lsts, o.svcs with
  | [l], [] => (match l.other.svcs with
    | [v] => decide (serviceFinalize ⟨fun h _ => some h, true⟩ o.named v.rest.bes.groups = .ok (some servedBes)) && o.named.all (fun nb => nb.m.host.isSome) &&
      decide ((o.named.map (·.name)).Nodup) && v.rest.sess == ⟨.ip, 60, none⟩ && v.rest.bes.algo == .random
    | _ => false)
  | _, _ => false) servedText = true := by decide +kernel

set_option maxRecDepth 100000 in
/-- Sessions by address: the second of two requests, when the other backend that is not for emergencies failed. -/
example : ∃ t g o l v fe fs s s1 s2, FullConfigures topEnv0 t g o ∧ PlainText t ∧ (∀ nb ∈ o.named, nb.m.host ≠ none) ∧ o.lsts[0]? = some l ∧ (l.other.svcs ++ o.svcs)[0]? = some v ∧
    Each (GroupFinal fe o.named) v.rest.bes.groups fs ∧ (∀ g ∈ fs, g.bes.length ≤ 2 ^ 47) ∧
    SvcReach v.rest.sess.ttl (finalBals v.rest.bes.algo 0 fs) ⟨100, 0⟩ s ⟨100, 0⟩ ∧ NotAfter ⟨100, 0⟩ ⟨101, 0⟩ ∧
    (∀ r : Req, Spec.sessionKey [] b!"10.1.1.1" r.getPath.2 (r.getParam []).2 (fun _ => none) v.rest.sess.type = some b!"10.1.1.1") ∧
    s.getBackend v.rest.sess.ttl ⟨101, 0⟩ 0 (fun _ => [1007]) (some b!"10.1.1.1") = .done (some 1) s1 ∧
    Meanwhile v.rest.sess.ttl (b!"10.1.1.1".take 127) 1 ⟨101, 0⟩ s1 ⟨101, 0⟩ s2 ⟨101, 0⟩ ∧ NotAfter ⟨101, 0⟩ ⟨160, 0⟩ ∧ ∃ b ∈ s2.all, Active b := by
  obtain ⟨g, o, h1, h2⟩ := seen_iff sticky_seen
  obtain ⟨t, ht, h3⟩ := C101_sound_partial _ _ _ _ _ h1 served_plain
  have hpt : PlainText t := by
    rcases ht with rfl | rfl
    · exact served_plain
    · exact cfg_plain (by decide +kernel) (by decide +kernel)
  split at h2
  rotate_left
  · simp at h2
  rename_i l hl hs
  split at h2
  rotate_left
  · simp at h2
  rename_i v hv
  simp only [Bool.and_eq_true, decide_eq_true_eq, beq_iff_eq, List.all_eq_true] at h2
  obtain ⟨⟨⟨⟨hf, hn⟩, hd⟩, htl⟩, hal⟩ := h2
  have hn' : ∀ nb ∈ o.named, nb.m.host ≠ none := fun nb hm he => by have := hn nb hm; rw [he] at this; cases this
  refine ⟨t, g, o, l, v, ⟨fun h _ => some h, true⟩, servedBes, ⟨finalBals .random 0 servedBes, .init, []⟩,
    ⟨finalBals .random 0 servedBes, ⟨[(b!"10.1.1.1", 0)], [⟨0, b!"10.1.1.1", 1, ⟨161, 0⟩⟩], 1⟩, []⟩,
    (⟨finalBals .random 0 servedBes, ⟨[(b!"10.1.1.1", 0)], [⟨0, b!"10.1.1.1", 1, ⟨161, 0⟩⟩], 1⟩, []⟩ : SvcSt).event (.kill 0), h3, hpt, hn',
    by rw [hl]; rfl, by rw [hv]; rfl, ((C75_final _ _ ⟨hd, hn'⟩ _).1 _).mp hf, by decide, ?_, by unfold NotAfter; decide, ?_, ?_, ?_, by unfold NotAfter; decide, ?_⟩
  · rw [hal, htl]; exact .init
  · intro r; rw [htl]; rfl
  · rw [htl]; decide +kernel
  · exact .backend (.kill 0) .nothing (by decide)
  · decide +kernel

end Pound.Props
