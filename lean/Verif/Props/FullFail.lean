import Verif.Props.FullServed

/-!
C101, fail-over between the backends that the text of a configuration has in a service.
-/

namespace Pound.Props
open Pound Spec

/-- A backend to which connections are made -/
def ConnectsTo (f : FBe) : Prop := ∃ addr port to connTo wsTo ctx sni, f.v = .regular addr port to connTo wsTo ctx sni

theorem finalBals_some (algo : Algo) : ∀ (i : Nat) (fs : List FGrp) (k : Nat) (g : FGrp), fs[k]? = some g → ∃ bal, (finalBals algo i fs)[k]? = some bal
  | _, [], _, _, h => by simp at h
  | i, g :: t, 0, _, _ => ⟨finalBal algo i g, rfl⟩
  | i, g :: t, k + 1, g', h => by
    simp only [finalBals, List.getElem?_cons_succ] at h ⊢
    exact finalBals_some algo _ t k g' h

theorem numberBes_mem (i : Nat) : ∀ (l : List FBe) (p : Nat) (f : FBe), l[p]? = some f → f.be (i + p) ∈ numberBes i l
  | [], _, _, h => by simp at h
  | f :: l, 0, f', h => by
    simp only [List.getElem?_cons_zero, Option.some.injEq] at h
    subst h
    exact List.mem_cons_self ..
  | f :: l, p + 1, f', h => by
    simp only [List.getElem?_cons_succ] at h
    have := numberBes_mem (i + 1) l p f' h
    rw [Nat.add_right_comm, Nat.add_assoc] at this
    exact List.mem_cons_of_mem _ this

theorem be_type (i : Nat) (f : FBe) : ((f.be i).type = .regular ↔ ConnectsTo f) ∧ ((f.be i).type = .matrix ↔ ∃ m, f.v = .matrix m) := by
  unfold FBe.be ConnectsTo
  cases f.v <;> simp

/-- The backends of a service are those that were declared there, with their kinds. -/
theorem reach_declared {algo : Algo} {fs : List FGrp} (hg : GroupsFit fs) (hb : BalsOk (finalBals algo 0 fs)) {ttl : Nat} {t0 : TS} {s : SvcSt} {t : TS}
    (h : SvcReach ttl (finalBals algo 0 fs) t0 s t) :
    (∀ b ∈ s.all, ∃ k f, Numbered fs b.id k f ∧ (b.type = .regular ↔ ConnectsTo f) ∧ (b.type = .matrix ↔ ∃ m, f.v = .matrix m)) ∧
    ∀ id k f, Numbered fs id k f → ∃ b ∈ s.all, b.id = id := by
  have hfr := frame_reach hb h
  constructor
  · intro b hm
    obtain ⟨k, bal, hk, hbm⟩ := all_at hm
    have h1 : (balFrame s.bals)[k]? = some (bal.backends.map fun b => (b.id, b.type)) := by
      unfold balFrame
      rw [List.getElem?_map, hk]
      rfl
    rw [hfr] at h1
    unfold balFrame at h1
    rw [List.getElem?_map] at h1
    cases hq : (finalBals algo 0 fs)[k]? with
    | none => rw [hq] at h1; cases h1
    | some bal0 =>
      rw [hq] at h1
      simp only [Option.map_some, Option.some.injEq] at h1
      obtain ⟨g, h2, h3⟩ := finalBals_at algo 0 fs k bal0 hg hq
      have hm' : (b.id, b.type) ∈ bal0.backends.map fun b => (b.id, b.type) := by
        rw [h1]
        exact List.mem_map.mpr ⟨b, hbm, rfl⟩
      obtain ⟨x, hx, hxe⟩ := List.mem_map.mp hm'
      rw [h3] at hx
      obtain ⟨p, f, h4, h5⟩ := numberBes_at _ _ _ hx
      have e1 : x.id = b.id := congrArg Prod.fst hxe
      have e2 : x.type = b.type := congrArg Prod.snd hxe
      refine ⟨k, f, ⟨g, p, h2, h4, ?_⟩, ?_⟩
      · rw [← e1, h5, be_id]; omega
      · rw [← e2, h5]
        exact be_type _ f
  · rintro id k f ⟨g, p, h1, h2, rfl⟩
    obtain ⟨bal, h3⟩ := finalBals_some algo 0 fs k g h1
    obtain ⟨g', h4, h5⟩ := finalBals_at algo 0 fs k bal hg h3
    rw [h1] at h4
    cases h4
    have h6 := numberBes_mem (0 + ((fs.take k).flatMap (·.bes)).length) g.bes p f h2
    rw [← h5] at h6
    have h7 : (balFrame (finalBals algo 0 fs))[k]? = some (bal.backends.map fun b => (b.id, b.type)) := by
      unfold balFrame
      rw [List.getElem?_map, h3]
      rfl
    rw [← hfr] at h7
    unfold balFrame at h7
    rw [List.getElem?_map] at h7
    cases hq : s.bals[k]? with
    | none => rw [hq] at h7; cases h7
    | some bal1 =>
      rw [hq] at h7
      simp only [Option.map_some, Option.some.injEq] at h7
      have h8 := List.mem_map_of_mem (f := fun b : Be => (b.id, b.type)) h6
      rw [← h7] at h8
      obtain ⟨x, hx, hxe⟩ := List.mem_map.mp h8
      refine ⟨x, at_all hq hx, ?_⟩
      have : x.id = _ := congrArg Prod.fst hxe
      rw [this, be_id]
      omega

/-- Fail-over in a documented configuration: it is accepted, and whatever has happened in a service of it and whatever comes of each attempt to connect, a request is dealt with in finitely
many attempts, each with another one of the backends that the text has in that service.  Those before the last refused.  If the last one is connected to, it serves the request.  Otherwise the
connection of the request before serves it, or a backend of the text that needs none; or the client is told that the service is unavailable, and then each backend that the text has in it was
tried and refused now, or was disabled or dead before, or set-up failed after connecting (see C43_setup_fails).
Missing: as in `C43_failover_partial` and `C101_served_partial`. -/
theorem C101_failover_partial (e : TopEnv) (t : List Tok) (g : Glob) (o : FullObjs) (h : FullConfigures e t g o) (hp : PlainText t) (hn : ∀ nb ∈ o.named, nb.m.host ≠ none) :
    ∃ o' N, (∀ n, N ≤ n → parseFull e n t = some (g, o', 0)) ∧
      ∀ (j i : Nat) (l : Lst LOther) (v : FullSvc), o.lsts[j]? = some l → (l.other.svcs ++ o.svcs)[i]? = some v →
        ∃ l' v', o'.lsts[j]? = some l' ∧ (l'.other.svcs ++ o'.svcs)[i]? = some v' ∧
          ∀ (fe : FinEnv) (fs : List FGrp), Each (GroupFinal fe o.named) v.rest.bes.groups fs → (∀ g ∈ fs, g.bes.length ≤ 2 ^ 47) → SafeOrder (finalBals v.rest.bes.algo 0 fs) →
            serviceFinalize fe o'.named v'.rest.bes.groups = .ok (some fs) ∧
            ∀ (t0 : TS) (s : SvcSt) (last now : TS), SvcReach v'.rest.sess.ttl (finalBals v'.rest.bes.algo 0 fs) t0 s last → NotAfter last now →
            ∀ (rnd : Nat → Nat → List Nat), (∀ k, Draws (finalBals v.rest.bes.algo 0 fs) (rnd k)) → ∀ (key : Option Bytes) (conn : Nat → Nat → Conn) (lk : Link), RefsOk lk →
              ∃ fuel0 status s' lk' R fin, (∀ fuel, fuel0 ≤ fuel → ∀ n, s.all.length < n →
                  selectBackend v'.rest.sess.ttl now fuel rnd key conn n s lk = .done status s' lk' (R ++ fin.toList)) ∧
                (R ++ fin.toList).Nodup ∧ (∀ id ∈ R ++ fin.toList, ∃ q f, Numbered fs id q f ∧ ConnectsTo f) ∧
                (∀ p id, R[p]? = some id → conn p id = .refused) ∧ (∀ id, fin = some id → conn R.length id ≠ .refused) ∧
                (∀ id, fin = some id → conn R.length id = .ok → status = none ∧ lk'.isOpen = true ∧ lk'.backend = some id) ∧
                (∀ id, fin = some id → conn R.length id ≠ .ok → status = some .serviceUnavailable ∧ lk'.isOpen = false) ∧
                (fin = none → (status = none ∧ R = [] ∧ lk' = lk ∧ lk.isOpen = true) ∨
                  (status = none ∧ ∃ id q f, Numbered fs id q f ∧ ¬ ConnectsTo f ∧ (∀ m, f.v ≠ .matrix m) ∧ lk'.backend = some id) ∨
                  (status = some .serviceUnavailable ∧ ∀ id q f, Numbered fs id q f → id ∈ R ∨ ∃ b ∈ s.all, b.id = id ∧ ¬ Active b)) := by
  have hfit := full_fit h
  obtain ⟨o', N, h1, h2⟩ := C101_served_partial e t g o h hp hn
  refine ⟨o', N, h1, fun j i l v hj hi => ?_⟩
  obtain ⟨l', v', g1, g2, g3, g4⟩ := h2 j i l v hj hi
  refine ⟨l', v', g1, g2, fun fe fs hf hl hso => ⟨(g4 fe fs hf hl).1, fun t0 s last now hr hnow rnd hd key conn lk hlk => ?_⟩⟩
  have hv : SvcFit v := by
    rcases List.mem_append.mp (List.mem_of_getElem? hi) with hm | hm
    · exact hfit.lsts l (List.mem_of_getElem? hj) v hm
    · exact hfit.svcs v hm
  obtain ⟨be, bd, algo, u, items, hi1, hi2⟩ := hv
  obtain ⟨q1, q2⟩ := final_groups hi1 hi2 hfit.prio hf
  have hg : GroupsFit fs := fun x hx => ⟨hl x hx, (q1 x hx).2⟩
  obtain ⟨b1, b2, b3⟩ := finalBals_spec v.rest.bes.algo 0 fs fun x hx => ⟨(q1 x hx).1, hl x hx, (q1 x hx).2⟩
  have hb : BalsOk (finalBals v.rest.bes.algo 0 fs) := by
    refine ⟨⟨?_, fun bal hb => (b3 bal hb).2.2.2.1, fun bal hb => (b3 bal hb).2.2.2.2.1, fun bal hb => (b3 bal hb).2.2.2.2.2⟩, fun bal hb => (b3 bal hb).2.1,
      fun bal hb => (b3 bal hb).2.2.1⟩
    rw [b1]
    exact List.nodup_range'
  rw [g3] at hr ⊢
  obtain ⟨d1, d2⟩ := reach_declared hg hb hr
  obtain ⟨fuel0, status, s', lk', R, fin, c1, c2, c3, c4, c5, c6, c7, c8, c9, _⟩ := C43_failover_partial hb hso hr hnow rnd hd key conn lk hlk
  refine ⟨fuel0, status, s', lk', R, fin, fun fuel hf n hn => c1 fuel hf n (Nat.lt_of_le_of_lt (List.length_filter_le _ _) hn), c2, fun id hid => ?_, c4, c5, c7, c8, fun hfin => ?_⟩
  · obtain ⟨c, x1, x2, x3, _⟩ := c3 id hid
    obtain ⟨k, f, y1, y2, _⟩ := d1 c x1
    exact ⟨k, f, x2 ▸ y1, y2.mp x3⟩
  · rcases c9 hfin with x | ⟨x1, c, x2, x3, x4, x5⟩ | ⟨x1, x2⟩
    · exact .inl x
    · refine .inr (.inl ⟨x1, ?_⟩)
      rw [c6] at x2
      obtain ⟨c0, z1, z2⟩ := List.mem_map.mp x2
      have e1 : c0.id = c.id := by rw [← z2]; split <;> rfl
      have e2 : c0.type = c.type := by rw [← z2]; split <;> rfl
      obtain ⟨k, f, y1, y2, y3⟩ := d1 c0 z1
      refine ⟨c.id, k, f, e1 ▸ y1, fun hc => x3 (e2 ▸ y2.mpr hc), fun m hm => x4.1 (e2 ▸ y3.mpr ⟨m, hm⟩), x5⟩
    · refine .inr (.inr ⟨x1, fun id q f hnum => ?_⟩)
      obtain ⟨b, z1, z2⟩ := d2 id q f hnum
      by_cases hR : id ∈ R
      · exact .inl hR
      · refine .inr ⟨b, z1, z2, x2 b ?_⟩
        rw [c6]
        exact List.mem_map.mpr ⟨b, z1, by rw [if_neg (by rw [z2]; exact hR)]⟩

private theorem fail_seen : seen (fun o => match o.lsts, o.svcs with
  | [l], [] => (match l.other.svcs with
    | [v] => decide (serviceFinalize ⟨fun h _ => some h, true⟩ o.named v.rest.bes.groups = .ok (some servedBes)) && o.named.all (fun nb => nb.m.host.isSome) &&
      decide ((o.named.map (·.name)).Nodup) && v.rest.sess.ttl == 60 && v.rest.bes.algo == .random
    | _ => false)
  | _, _ => false) servedText = true := by decide +kernel

set_option maxRecDepth 100000 in
/-- The first two refuse, and the one for emergencies serves the request. -/
example : ∃ t g o l v fe fs s, FullConfigures topEnv0 t g o ∧ PlainText t ∧ (∀ nb ∈ o.named, nb.m.host ≠ none) ∧ o.lsts[0]? = some l ∧ (l.other.svcs ++ o.svcs)[0]? = some v ∧
    Each (GroupFinal fe o.named) v.rest.bes.groups fs ∧ (∀ g ∈ fs, g.bes.length ≤ 2 ^ 47) ∧ SafeOrder (finalBals v.rest.bes.algo 0 fs) ∧
    SvcReach v.rest.sess.ttl (finalBals v.rest.bes.algo 0 fs) ⟨100, 0⟩ s ⟨100, 0⟩ ∧ NotAfter ⟨100, 0⟩ ⟨100, 0⟩ ∧
    (∀ k : Nat, Draws (finalBals v.rest.bes.algo 0 fs) ((fun _ _ => [1000]) k)) ∧ RefsOk ⟨false, none, fun _ => 0⟩ ∧
    (match selectBackend v.rest.sess.ttl ⟨100, 0⟩ 10 (fun _ _ => [1000]) none (fun k _ => if k < 2 then .refused else .ok) 10 s ⟨false, none, fun _ => 0⟩ with
      | .done st _ lk tr => decide (st = none ∧ lk.backend = some 2 ∧ tr = [0, 1, 2])
      | _ => false) = true := by
  obtain ⟨g, o, h1, h2⟩ := seen_iff fail_seen
  obtain ⟨t, ht, h3⟩ := C101_sound_partial _ _ _ _ _ h1 served_plain
  have hpt : PlainText t := by
    rcases ht with rfl | rfl
    · exact served_plain
    · exact cfg_plain (by decide +kernel) (by decide +kernel)
  split at h2
  rotate_left
  · simp at h2
  rename_i l hl hs
  split at h2
  rotate_left
  · simp at h2
  rename_i v hv
  simp only [Bool.and_eq_true, decide_eq_true_eq, beq_iff_eq, List.all_eq_true] at h2
  obtain ⟨⟨⟨⟨hf, hn⟩, hd⟩, htl⟩, hal⟩ := h2
  have hn' : ∀ nb ∈ o.named, nb.m.host ≠ none := fun nb hm he => by have := hn nb hm; rw [he] at this; cases this
  refine ⟨t, g, o, l, v, ⟨fun h _ => some h, true⟩, servedBes, ⟨finalBals .random 0 servedBes, .init, []⟩, h3, hpt, hn',
    by rw [hl]; rfl, by rw [hv]; rfl, ((C75_final _ _ ⟨hd, hn'⟩ _).1 _).mp hf, by decide, ?_, ?_, NotAfter.refl _, ?_, fun _ => rfl, ?_⟩
  · rw [hal]; exact ⟨fun _ h => absurd h (by decide), fun _ h => absurd h (by decide), trivial⟩
  · rw [hal, htl]; exact .init
  · rw [hal]
    intro _ i
    exact ⟨1000, by simp, by decide +kernel⟩
  · rw [htl]; decide +kernel

end Pound.Props
