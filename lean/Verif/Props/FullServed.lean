import Verif.Proof.FullServed
import Verif.Props.FullCfg
import Verif.Props.BeCfg

/-!
C101, from the text of a configuration to the backends that requests are given.
-/

namespace Pound.Props
open Pound Spec

/-- A documented configuration gives requests the backends that it is documented to: it is accepted, and each of its services has the sessions, the balancing and the backends that its
text says; `fs` are these backends with the addresses that their names stand for.  Then, whatever has happened since the start (requests, responses, sessions, backends that fail, come
back, are disabled or enabled), a request that the service handles is given one of the backends which the text has in that service and which is up; without a session it is one that is not
disabled either, and it is an Emergency backend only if no other can be used.  No backend is given only if none can be used.  And the search for one ends if groups are searched in a safe
order (see C20).
Missing: as above; backends whose addresses are looked up at run time get no requests themselves, for those made for their addresses see C37 and C82. -/
theorem C101_served_partial (e : TopEnv) (t : List Tok) (g : Glob) (o : FullObjs) (h : FullConfigures e t g o) (hp : PlainText t) (hn : ∀ nb ∈ o.named, nb.m.host ≠ none) :
    ∃ o' N, (∀ n, N ≤ n → parseFull e n t = some (g, o', 0)) ∧
      ∀ (j i : Nat) (l : Lst LOther) (v : FullSvc), o.lsts[j]? = some l → (l.other.svcs ++ o.svcs)[i]? = some v →
        ∃ l' v', o'.lsts[j]? = some l' ∧ (l'.other.svcs ++ o'.svcs)[i]? = some v' ∧ v'.rest = v.rest ∧
          ∀ (fe : FinEnv) (fs : List FGrp), Each (GroupFinal fe o.named) v.rest.bes.groups fs → (∀ g ∈ fs, g.bes.length ≤ 2 ^ 47) →
            serviceFinalize fe o'.named v'.rest.bes.groups = .ok (some fs) ∧
            ∀ (t0 : TS) (s : SvcSt) (last now : TS), SvcReach v'.rest.sess.ttl (finalBals v'.rest.bes.algo 0 fs) t0 s last → NotAfter last now →
              (∀ (n : Nat) (rnd : Nat → List Nat) (key : Option Bytes) (ob : Option Nat) (s' : SvcSt), s.getBackend v'.rest.sess.ttl now n rnd key = .done ob s' →
                (∀ id, ob = some id → ∃ k f b, Numbered fs id k f ∧ (∀ m, f.v ≠ .matrix m) ∧ b ∈ s.all ∧ b.id = id ∧ Up b ∧
                  (key = none → Active b ∧ ∀ c ∈ s.all, Active c → ∃ k' f', Numbered fs c.id k' f' ∧ k ≤ k')) ∧
                (ob = none → ∀ b ∈ s.all, ¬ Active b)) ∧
              (SafeOrder (finalBals v.rest.bes.algo 0 fs) → ∀ rnd, Draws (finalBals v.rest.bes.algo 0 fs) rnd → ∀ key,
                ∃ n0 ob s', ∀ n, n0 ≤ n → s.getBackend v'.rest.sess.ttl now n rnd key = .done ob s') := by
  have hfit := full_fit h
  obtain ⟨o', N, h1, h2⟩ := full_accept h hp
  refine ⟨o', N, h2, fun j i l v hj hi => ?_⟩
  obtain ⟨l', h3, h4⟩ := each_at h1.lsts j l hj
  obtain ⟨v', h5, h6⟩ := each_at (each_join_append h4.other.svcs h1.svcs) i v hi
  refine ⟨l', v', h3, h5, h6.rest, fun fe fs hf hl => ?_⟩
  have hv : SvcFit v := by
    rcases List.mem_append.mp (List.mem_of_getElem? hi) with hm | hm
    · exact hfit.lsts l (List.mem_of_getElem? hj) v hm
    · exact hfit.svcs v hm
  obtain ⟨be, bd, algo, u, items, hi1, hi2⟩ := hv
  obtain ⟨g1, g2⟩ := final_groups hi1 hi2 hfit.prio hf
  have hg : GroupsFit fs := fun x hx => ⟨hl x hx, (g1 x hx).2⟩
  obtain ⟨b1, b2, b3⟩ := finalBals_spec v.rest.bes.algo 0 fs fun x hx => ⟨(g1 x hx).1, hl x hx, (g1 x hx).2⟩
  have hb : BalsOk (finalBals v.rest.bes.algo 0 fs) := by
    refine ⟨⟨?_, fun bal hb => (b3 bal hb).2.2.2.1, fun bal hb => (b3 bal hb).2.2.2.2.1, fun bal hb => (b3 bal hb).2.2.2.2.2⟩, fun bal hb => (b3 bal hb).2.1,
      fun bal hb => (b3 bal hb).2.2.1⟩
    rw [b1]
    exact List.nodup_range'
  rw [h6.rest, h1.named]
  refine ⟨((C75_final fe o.named ⟨hfit.names, hn⟩ _).1 fs).mpr hf, fun t0 s last now hr hnow => ?_⟩
  have hok := (svcReach_ok hb hr).later hnow
  refine ⟨fun n rnd key ob s' hgb => ⟨fun id hid => ?_, fun hnone => ?_⟩, fun hso rnd hd key => ?_⟩
  · subst hid
    cases key with
    | some key =>
      obtain ⟨b, hm, hbi, hu⟩ := (getBackend_done hok hgb).2.2.2 id rfl
      obtain ⟨k, bal, hk, hbm⟩ := all_at hm
      obtain ⟨f, hf1, hf2⟩ := reach_numbered hg hb hr hk hbm
      refine ⟨k, f, b, hbi ▸ hf1, fun m hmx => hu.1 (hf2.mpr ⟨m, hmx⟩), hm, hbi, hu, fun hx => by cases hx⟩
    | none =>
      unfold SvcSt.getBackend at hgb
      split at hgb
      case isFalse => cases hgb
      dsimp only at hgb
      unfold SvcSt.lb at hgb
      split at hgb
      · rename_i ob bals hsel
        cases ob with
        | none => cases hgb
        | some b =>
          cases hgb
          obtain ⟨k, bal, hk, hbm, hpre⟩ := lbSelect_first hok.bals.sane hsel
          have hact := (lbSelect_active hsel).1
          obtain ⟨f, hf1, hf2⟩ := reach_numbered hg hb hr hk hbm
          refine ⟨k, f, b, hf1, fun m hmx => hact.2.1 (hf2.mpr ⟨m, hmx⟩), at_all hk hbm, rfl, hact.2, fun _ => ⟨hact, fun c hc hca => ?_⟩⟩
          obtain ⟨k', bal', hk', hcm⟩ := all_at hc
          obtain ⟨f', hf', _⟩ := reach_numbered hg hb hr hk' hcm
          refine ⟨k', f', hf', Nat.le_of_not_lt fun hlt => hpre k' bal' hlt hk' c hcm hca⟩
      · cases hgb
      · cases hgb
  · subst hnone
    exact getBackend_none hok.bals hgb
  · obtain ⟨q1, q2⟩ := svcReach_frame hb hr
    obtain ⟨n0, ob, s', hx, _⟩ := getBackend_total hok (q1 hso) (q2 rnd hd).usable key
    exact ⟨n0, ob, s', hx⟩

/-- A backend with a name; a service with two backends, one of which is that, one for emergencies and a session -/
def servedText : List Tok := cfgToks b!"Backend \"n\"\n Address 10.0.0.2\n Port 8080\nEnd\nListenHTTP\n Address 10.0.0.1\n Port 80\n Service\n  Session\n   Type IP\n   TTL 60\n  End\n  Backend\n   Address 10.0.0.1\n   Port 8080\n  End\n  Backend \"n\"\n   Priority 3\n  End\n  Emergency\n   Address 10.0.0.3\n   Port 8080\n  End\n End\nEnd\n"

/-- What becomes of its backends -/
def servedBes : List FGrp :=
  [⟨0, [⟨5, false, .regular (.inet b!"10.0.0.1") 8080 15 15 600 none none⟩, ⟨3, false, .regular (.inet b!"10.0.0.2") 8080 15 15 600 none none⟩]⟩,
   ⟨65535, [⟨5, false, .regular (.inet b!"10.0.0.3") 8080 120 120 120 none none⟩]⟩]

private theorem served_seen : seen (fun o => match o.lsts, o.svcs with
  | [l], [] => (match l.other.svcs with
    | [v] => decide (serviceFinalize ⟨fun h _ => some h, true⟩ o.named v.rest.bes.groups = .ok (some servedBes)) && o.named.all (fun nb => nb.m.host.isSome) &&
      decide ((o.named.map (·.name)).Nodup) && v.rest.sess.ttl == 60 && v.rest.bes.algo == .random
    | _ => false)
  | _, _ => false) servedText = true := by decide +kernel

theorem served_plain : PlainText servedText := cfg_plain (by decide +kernel) (by decide +kernel)

set_option maxRecDepth 100000 in
/-- When the first two fail, the third is given. -/
example : ∃ t g o l v fe fs s now, FullConfigures topEnv0 t g o ∧ PlainText t ∧ (∀ nb ∈ o.named, nb.m.host ≠ none) ∧ o.lsts[0]? = some l ∧ (l.other.svcs ++ o.svcs)[0]? = some v ∧
    Each (GroupFinal fe o.named) v.rest.bes.groups fs ∧ (∀ g ∈ fs, g.bes.length ≤ 2 ^ 47) ∧ SafeOrder (finalBals v.rest.bes.algo 0 fs) ∧
    SvcReach v.rest.sess.ttl (finalBals v.rest.bes.algo 0 fs) ⟨100, 0⟩ s ⟨100, 0⟩ ∧ NotAfter ⟨100, 0⟩ now ∧ s.getBackend v.rest.sess.ttl now 9 (fun _ => [1000]) none = .done (some 2) s := by
  obtain ⟨g, o, h1, h2⟩ := seen_iff served_seen
  obtain ⟨t, ht, h3⟩ := C101_sound_partial _ _ _ _ _ h1 served_plain
  have hpt : PlainText t := by
    rcases ht with rfl | rfl
    · exact served_plain
    · exact cfg_plain (by decide +kernel) (by decide +kernel)
  split at h2
  rotate_left
  · simp at h2
  rename_i l hl hs
  split at h2
  rotate_left
  · simp at h2
  rename_i v hv
  simp only [Bool.and_eq_true, decide_eq_true_eq, beq_iff_eq, List.all_eq_true] at h2
  obtain ⟨⟨⟨⟨hf, hn⟩, hd⟩, htl⟩, hal⟩ := h2
  have hn' : ∀ nb ∈ o.named, nb.m.host ≠ none := fun nb hm he => by have := hn nb hm; rw [he] at this; cases this
  refine ⟨t, g, o, l, v, ⟨fun h _ => some h, true⟩, servedBes, ((⟨finalBals .random 0 servedBes, .init, []⟩ : SvcSt).event (.kill 0)).event (.kill 1), ⟨100, 0⟩, h3, hpt, hn',
    by rw [hl]; rfl, by rw [hv]; rfl, ((C75_final _ _ ⟨hd, hn'⟩ _).1 _).mp hf, by decide, ?_, ?_, NotAfter.refl _, ?_⟩
  · rw [hal]; exact ⟨fun _ h => absurd h (by decide), fun _ h => absurd h (by decide), trivial⟩
  · rw [hal, htl]; exact .backend _ (.backend _ .init)
  · rw [htl]; decide +kernel

end Pound.Props
