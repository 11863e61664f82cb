import Verif.Proof.FullAcc
import Verif.Proof.BeFinal
import Verif.Props.Balance
import Verif.Spec.FullServed

/-!
From the text of a configuration to the backends that requests are given.
-/

namespace Pound
open Spec Props

/-! ### Numbers of backends -/

/-- What never changes about balancers -/
def balFrame (bals : List Bal) : List (List (Nat × BeType)) := bals.map fun bal => bal.backends.map fun b => (b.id, b.type)

theorem frame_updated {f : Be → Be} (hf : Light f) {a b : List Bal} (h : Updated f a b) : balFrame b = balFrame a := by
  obtain ⟨F, rfl, hF⟩ := h
  unfold balFrame
  rw [List.map_map]
  refine List.map_congr_left fun bal hb => ?_
  rw [Function.comp, (hF bal hb).1, List.map_map]
  refine List.map_congr_left fun x _ => ?_
  rw [Function.comp, (hf x).1, (hf x).2.2]

theorem frame_same {a b : List Bal} (h : SameBals a b) : balFrame b = balFrame a := by
  induction h with
  | nil => rfl
  | cons h1 _ ih =>
    unfold balFrame at *
    rw [List.map_cons, List.map_cons, ih, h1.2.2.2.1]

theorem frame_reach {ttl : Nat} {bals : List Bal} {t0 : TS} (hb : BalsOk bals) {s : SvcSt} {t : TS} (h : SvcReach ttl bals t0 s t) : balFrame s.bals = balFrame bals := by
  induction h with
  | init => rfl
  | backend e hr ih => rw [← ih]; exact frame_updated (evEffect_light e) (event_updated (svcReach_ok hb hr).bals e)
  | request hr hn hg ih => rw [← ih]; exact frame_same (getBackend_done ((svcReach_ok hb hr).later hn) hg).2.1
  | @response s t now key b _ _ _ _ ih =>
    rw [← ih]
    unfold SvcSt.updSession
    cases key with
    | none => rfl
    | some k => dsimp only; split <;> rfl
  | expire _ _ ih => exact ih
  | remove _ _ ih => exact ih

theorem numberBes_at (i : Nat) : ∀ (l : List FBe) (x : Be), x ∈ numberBes i l → ∃ (p : Nat) (f : FBe), l[p]? = some f ∧ x = f.be (i + p)
  | [], _, h => by cases h
  | f :: l, x, h => by
    rw [numberBes] at h
    rcases List.mem_cons.mp h with rfl | h
    · exact ⟨0, f, rfl, rfl⟩
    · obtain ⟨p, f', h1, h2⟩ := numberBes_at (i + 1) l x h
      exact ⟨p + 1, f', by simpa using h1, by rw [h2]; congr 1; omega⟩

/-- Groups as they are after reading -/
def GroupsFit (fs : List FGrp) : Prop := ∀ g ∈ fs, g.bes.length ≤ 2 ^ 47 ∧ ∀ b ∈ g.bes, 1 ≤ b.prio ∧ b.prio ≤ 65535

theorem finalBals_at (algo : Algo) : ∀ (i : Nat) (fs : List FGrp) (k : Nat) (bal : Bal), GroupsFit fs → (finalBals algo i fs)[k]? = some bal →
    ∃ g, fs[k]? = some g ∧ bal.backends = numberBes (i + ((fs.take k).flatMap (·.bes)).length) g.bes
  | i, [], k, bal, _, h => by simp [finalBals] at h
  | i, g :: t, 0, bal, hg, h => by
    simp only [finalBals, List.getElem?_cons_zero, Option.some.injEq] at h
    subst h
    exact ⟨g, rfl, (finalBal_spec algo i g (hg g (by simp)).2 (hg g (by simp)).1).1⟩
  | i, g :: t, k + 1, bal, hg, h => by
    simp only [finalBals, List.getElem?_cons_succ] at h
    obtain ⟨g', h1, h2⟩ := finalBals_at algo (i + g.bes.length) t k bal (fun x hx => hg x (by simp [hx])) h
    refine ⟨g', by simpa using h1, ?_⟩
    rw [h2, List.take_succ_cons, List.flatMap_cons, List.length_append, Nat.add_assoc]

/-- A backend in a group of a service is the one that was declared there. -/
theorem reach_numbered {algo : Algo} {fs : List FGrp} (hg : GroupsFit fs) (hb : BalsOk (finalBals algo 0 fs)) {ttl : Nat} {t0 : TS} {s : SvcSt} {t : TS}
    (h : SvcReach ttl (finalBals algo 0 fs) t0 s t) {k : Nat} {bal : Bal} (hk : s.bals[k]? = some bal) {b : Be} (hm : b ∈ bal.backends) :
    ∃ f, Numbered fs b.id k f ∧ (b.type = .matrix ↔ ∃ m, f.v = .matrix m) := by
  have hfr := frame_reach hb h
  have h1 : (balFrame s.bals)[k]? = some (bal.backends.map fun b => (b.id, b.type)) := by
    unfold balFrame
    rw [List.getElem?_map, hk]
    rfl
  rw [hfr] at h1
  unfold balFrame at h1
  rw [List.getElem?_map] at h1
  cases hq : (finalBals algo 0 fs)[k]? with
  | none => rw [hq] at h1; cases h1
  | some bal0 =>
    rw [hq] at h1
    simp only [Option.map_some, Option.some.injEq] at h1
    obtain ⟨g, h2, h3⟩ := finalBals_at algo 0 fs k bal0 hg hq
    have hm' : (b.id, b.type) ∈ bal0.backends.map fun b => (b.id, b.type) := by
      rw [h1]
      exact List.mem_map.mpr ⟨b, hm, rfl⟩
    obtain ⟨x, hx, hxe⟩ := List.mem_map.mp hm'
    rw [h3] at hx
    obtain ⟨p, f, h4, h5⟩ := numberBes_at _ _ _ hx
    have e1 : x.id = b.id := congrArg Prod.fst hxe
    have e2 : x.type = b.type := congrArg Prod.snd hxe
    refine ⟨f, ⟨g, p, h2, h4, ?_⟩, ?_⟩
    · rw [← e1, h5, be_id]; omega
    · rw [← e2, h5]
      unfold FBe.be
      cases f.v <;> simp

/-! ### Selection -/

/-- The first group that has an active backend is the one that is selected from. -/
theorem lbSelect_first : ∀ {bals : List Bal} {n : Nat} {rnd b bals'}, (∀ b ∈ bals, Sane b) → lbSelect n rnd bals = .done (some b) bals' →
    ∃ (k : Nat) (bal : Bal), bals[k]? = some bal ∧ b ∈ bal.backends ∧ ∀ k' x, k' < k → bals[k']? = some x → ∀ c ∈ x.backends, ¬ Active c
  | [], _, _, _, _, _, h => by simp [lbSelect] at h
  | bal :: t, n, rnd, b, bals', hs, h => by
    unfold lbSelect at h
    split at h
    · rename_i b' bal' hb
      cases h
      exact ⟨0, bal, rfl, (balSelect_active hb).2, fun k' x hk _ => by omega⟩
    · rename_i bal' hb
      have hno := balSelect_done_none (hs _ (List.mem_cons_self ..)) hb
      split at h
      · rename_i hl
        cases h
        obtain ⟨k, bl, h1, h2, h3⟩ := lbSelect_first (fun x hx => hs x (List.mem_cons_of_mem _ hx)) hl
        refine ⟨k + 1, bl, by simpa using h1, h2, fun k' x hk hx => ?_⟩
        cases k' with
        | zero =>
          simp only [List.getElem?_cons_zero, Option.some.injEq] at hx
          subst hx
          exact hno
        | succ k' => exact h3 k' x (by omega) (by simpa using hx)
      · rename_i hne
        rw [h] at hne
        exact absurd rfl (hne _ _)
    · cases h
    · cases h

theorem all_at {s : SvcSt} {b : Be} (h : b ∈ s.all) : ∃ (k : Nat) (bal : Bal), s.bals[k]? = some bal ∧ b ∈ bal.backends := by
  obtain ⟨bal, h1, h2⟩ := List.mem_flatMap.mp h
  obtain ⟨k, hk, he⟩ := List.getElem_of_mem h1
  exact ⟨k, bal, by rw [List.getElem?_eq_getElem hk, he], h2⟩

theorem at_all {s : SvcSt} {k : Nat} {bal : Bal} {b : Be} (h : s.bals[k]? = some bal) (hb : b ∈ bal.backends) : b ∈ s.all :=
  List.mem_flatMap.mpr ⟨bal, List.mem_of_getElem? h, hb⟩

theorem lb_none {s s' : SvcSt} (hb : BalsOk s.bals) {n : Nat} {rnd : Nat → List Nat} (h : s.lb n rnd = .done none s') : ∀ b ∈ s.all, ¬ Active b := by
  unfold SvcSt.lb at h
  split at h
  · rename_i ob bals hl
    cases ob with
    | some b => cases h
    | none =>
      intro b hm
      obtain ⟨bal, h1, h2⟩ := List.mem_flatMap.mp hm
      exact lbSelect_done_none hb.sane hl bal h1 b h2
  · cases h
  · cases h

theorem getBackend_none {ttl : Nat} {now : TS} {s s' : SvcSt} (hb : BalsOk s.bals) {n : Nat} {rnd : Nat → List Nat} {key : Option Bytes}
    (h : s.getBackend ttl now n rnd key = .done none s') : ∀ b ∈ s.all, ¬ Active b := by
  unfold SvcSt.getBackend at h
  split at h
  · cases key with
    | none => exact lb_none hb h
    | some k =>
      unfold SvcSt.byKey at h
      dsimp only at h
      split at h
      · cases h
      · split at h
        · cases h
        · rename_i tab _ _ s1 h1
          exact lb_none (s := { s with tab := tab }) hb h1
        · rename_i h1 h2
          exact absurd h (h2 _)
  · rename_i hh
    intro b hm ha
    exact hh ((hasBackends_iff hb.totals).2 ⟨b, hm, ha⟩)

/-! ### What the text of a configuration guarantees -/

/-- A service whose backends are as some text says -/
def SvcFit (x : FullSvc) : Prop := ∃ (be : BeEnv) (bd : BeDfl) (algo : Algo) (t : List Tok) (l : List SvcItem), Items (SvcBeLine be bd) t l ∧ SvcMeans algo l x.rest.bes

theorem restItems {e : CfgEnv} {be : BeEnv} {bd : BeDfl} {d d' : Dfl} {t : List Tok} {cs : List (Formula CTest)} {ss : List RwStmt} {b : Option Bool} {l : List RestItem}
    (h : SvcBody e (RestLine e be bd) d d' t cs ss b l) : ∃ t', Items (SvcBeLine be bd) t' (l.filterMap beItem) := by
  induction h with
  | nil => exact ⟨[.ident b!"End"], .stop (by decide)⟩
  | blank _ ih => exact ih
  | cond _ _ ih => exact ih
  | act _ _ ih => exact ih
  | rewrite _ _ _ _ ih => exact ih
  | disabled _ _ _ ih => exact ih
  | ignoreCase _ _ _ ih => exact ih
  | other hx _ ih =>
    obtain ⟨t', ih⟩ := ih
    cases hx with
    | be h => exact ⟨_, .item h ih⟩
    | session _ _ => exact ⟨t', ih⟩
    | fwd _ => exact ⟨t', ih⟩
    | trusted _ _ => exact ⟨t', ih⟩
    | nets _ _ _ => exact ⟨t', ih⟩
    | suppress _ _ _ _ => exact ⟨t', ih⟩

theorem svcFit {e : CfgEnv} {be : BeEnv} {bd : BeDfl} {algo : Algo} {d d' : Dfl} {names : List Bytes} {t : List Tok} {x : FullSvc}
    (h : SvcSays e be bd algo d names t x d') : SvcFit x := by
  obtain ⟨body, w, cs, ss, b, l, _, _, hb, _, _, _, _, _, _, hr⟩ := h.text
  obtain ⟨t', ht⟩ := restItems hb
  exact ⟨be, bd, algo, t', _, ht, hr.bes⟩

theorem lstFit {e : CfgEnv} {be : BeEnv} {bd : BeDfl} {algo : Algo} {δ : Type} {args : Bytes → List Tok → δ → Prop} {t : List Tok} {l : List δ} {o o' : LOther}
    (h : SetBody args (LstStmt e be bd algo) t l o o') (ho : ∀ x ∈ o.svcs, SvcFit x) : ∀ x ∈ o'.svcs, SvcFit x := by
  induction h with
  | stop _ => exact ho
  | blank _ ih => exact ih ho
  | set _ _ _ ih => exact ih ho
  | other h1 _ ih =>
    refine ih ?_
    cases h1 with
    | service _ hs =>
      intro x hx
      rcases List.mem_append.mp hx with hx | hx
      · exact ho x hx
      · rw [List.mem_singleton] at hx
        subst hx
        exact svcFit hs
    | trusted _ _ => exact ho
    | act _ _ => exact ho
    | rewrite _ _ _ _ => exact ho

/-- What configurations define -/
structure ObjsFit (o : FullObjs) : Prop where
  names : (o.named.map (·.name)).Nodup
  prio : ∀ nb ∈ o.named, 1 ≤ nb.prio
  svcs : ∀ x ∈ o.svcs, SvcFit x
  lsts : ∀ l ∈ o.lsts, ∀ x ∈ l.other.svcs, SvcFit x

theorem fullStmt_fit {e : TopEnv} {g : Glob} {t : List Tok} {o o' : FullObjs} {xs : List TopSet} (h : FullStmt e g t o xs o') (ho : ObjsFit o) : ObjsFit o' := by
  obtain ⟨h1, h2, h3, h4⟩ := ho
  cases h with
  | acl _ _ _ => exact ⟨h1, h2, h3, h4⟩
  | trusted _ _ => exact ⟨h1, h2, h3, h4⟩
  | @backend n name t b o _ hb hx =>
    refine ⟨?_, ?_, h3, h4⟩
    · show ((_ :: o.named).map (·.name)).Nodup
      rw [List.map_cons, List.nodup_cons]
      refine ⟨fun hm => ?_, h1⟩
      obtain ⟨x, q1, q2⟩ := List.mem_map.mp hm
      exact hx x q1 q2
    · intro nb hm
      rcases List.mem_cons.mp hm with rfl | hm
      · exact beSection_prio hb
      · exact h2 nb hm
  | service _ hs =>
    refine ⟨h1, h2, fun x hx => ?_, h4⟩
    rcases List.mem_append.mp hx with hx | hx
    · exact h3 x hx
    · rw [List.mem_singleton] at hx
      subst hx
      exact svcFit hs
  | listener _ hl =>
    refine ⟨h1, h2, h3, fun l hm => ?_⟩
    rcases List.mem_append.mp hm with hm | hm
    · exact h4 l hm
    · rw [List.mem_singleton] at hm
      subst hm
      obtain ⟨body, sl, s, _, hb, _⟩ := hl.settings
      exact lstFit hb (by intro x hx; cases hx)
  | control _ => exact ⟨h1, h2, h3, h4⟩
  | resolver _ => exact ⟨h1, h2, h3, h4⟩

theorem fullBody_fit {e : TopEnv} {t : List Tok} {l l' : List TopSet} {o o' : FullObjs} (h : FullBody e t l o l' o') (ho : ObjsFit o) : ObjsFit o' := by
  induction h with
  | stop => exact ho
  | blank _ ih => exact ih ho
  | set _ _ _ ih => exact ih ho
  | stmt _ hs _ ih => exact ih (fullStmt_fit hs ho)

theorem full_fit {e : TopEnv} {t : List Tok} {g : Glob} {o : FullObjs} (h : FullConfigures e t g o) : ObjsFit o := by
  obtain ⟨l, hb, _, _⟩ := h.body
  exact fullBody_fit hb ⟨List.nodup_nil, by simp, by simp, by simp⟩

end Pound
