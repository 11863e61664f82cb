import Verif.Props.FullShares

/-!
C21 and C101: how the numbers that random () gives share the requests to a service among its backends, in terms of requests and of the text of a configuration.
-/

namespace Pound.Props
open Pound Spec

/-- A request without a session is given the backend with this number, if `random ()` gives `r`. -/
def givesBy (ttl : Nat) (now : TS) (s : SvcSt) (id r : Nat) : Bool :=
  match s.getBackend ttl now 0 (fun _ => [r]) none with
  | .done (some i) _ => i == id
  | _ => false

theorem balSelect_rand1 {bal : Bal} (h : Sane bal) (ha : bal.algo = .random) (hact : ∃ b ∈ bal.backends, Active b) {r : Nat} (hr : 2 ^ 64 % prioSum bal.backends ≤ r) (n : Nat) :
    balSelect n [r] bal = .done (randPick ((r % prioSum bal.backends : Nat) : Int) bal.backends) bal := by
  obtain ⟨b, hb, hba⟩ := hact
  have hpos : 1 ≤ prioSum bal.backends := Nat.le_trans (h.prio b hb hba) (prio_le_sum hb hba)
  have hsum := h.totals.sum ha
  match hbs : bal.backends with
  | [] => rw [hbs] at hb; cases hb
  | [x] =>
    rw [hbs, List.mem_singleton] at hb
    subst hb
    have hx : b.isActive = true := (isActive_iff b).2 hba
    have hp : prioSum [b] = b.prio := by rw [prioSum_cons, if_pos hba]; rfl
    rw [hbs, hp] at hpos
    have hlt := Nat.mod_lt r hpos
    unfold balSelect randPick
    rw [hbs]
    dsimp only
    rw [hx, hp, if_pos rfl, if_pos rfl, if_pos (by omega)]
  | x :: y :: t =>
    rw [← hbs]
    by_cases h2 : 2 ≤ bal.sumPri
    · rw [← hsum] at hr ⊢
      exact balSelect_random h ha (by rw [hbs]; simp) h2 hr n
    · have h1 : bal.sumPri = 1 := by omega
      unfold balSelect
      rw [hbs]
      dsimp only
      rw [ha]
      dsimp only
      unfold randSelect randomInRange
      rw [if_pos (by omega : bal.sumPri < 2), ← hbs, ← hsum, h1, Nat.mod_one, hbs]
      rfl

theorem randPick_inactive : ∀ {l : List Be} (p : Int), (∀ c ∈ l, ¬ Active c) → randPick p l = none
  | [], _, _ => rfl
  | x :: l, p, h => by
    rw [randPick, if_neg (fun hc => h x (by simp) ((isActive_iff x).1 hc)), randPick_inactive p fun c hc => h c (by simp [hc])]

theorem prioSum_inactive : ∀ {l : List Be}, (∀ c ∈ l, ¬ Active c) → prioSum l = 0
  | [], _ => rfl
  | x :: l, h => by
    rw [prioSum_cons, if_neg (h x (by simp)), prioSum_inactive fun c hc => h c (by simp [hc])]

theorem balSelect_rand0 {bal : Bal} (h : Sane bal) (ha : bal.algo = .random) (hin : ∀ c ∈ bal.backends, ¬ Active c) (n : Nat) (rs : List Nat) : balSelect n rs bal = .done none bal := by
  have hsum := h.totals.sum ha
  rw [prioSum_inactive hin] at hsum
  match hbs : bal.backends with
  | [] => exact absurd hbs h.some
  | [x] =>
    unfold balSelect
    rw [hbs]
    dsimp only
    rw [if_neg (fun hc => hin x (by rw [hbs]; simp) ((isActive_iff x).1 hc))]
  | x :: y :: t =>
    unfold balSelect
    rw [hbs]
    dsimp only
    rw [ha]
    dsimp only
    unfold randSelect randomInRange
    rw [if_pos (by omega : bal.sumPri < 2), hbs]
    dsimp only [List.isEmpty_cons]
    rw [if_neg (by simp), ← hbs, randPick_inactive _ hin]

theorem lbSelect_rand (n r : Nat) {bal : Bal} {post : List Bal} {b : Be} (h : balSelect n [r] bal = .done (some b) bal) :
    ∀ pre : List Bal, (∀ x ∈ pre, balSelect n [r] x = .done none x) → lbSelect n (fun _ => [r]) (pre ++ bal :: post) = .done (some b) (pre ++ bal :: post)
  | [], _ => by
    rw [List.nil_append, lbSelect, h]
  | x :: pre, hp => by
    rw [List.cons_append, lbSelect, hp x (by simp)]
    dsimp only
    rw [lbSelect_rand n r h pre (fun y hy => hp y (by simp [hy]))]

/-- Random balancing in terms of requests: if no backend of the groups before can be used, and some backend of a group can, then of any consecutive numbers from `random ()`, in as many
as the priorities of the backends that can be used in this group add up to, each of these backends is given the request with exactly as many as its priority, and the others with none.
The numbers below `2 ^ 64` modulo this sum are drawn again (C21_redraw). -/
theorem C21_requests {ttl : Nat} {now : TS} {s : SvcSt} (hok : BalsOk s.bals) {pre post : List Bal} {bal : Bal} (hs : s.bals = pre ++ bal :: post)
    (hp : ∀ x ∈ pre, x.algo = .random ∧ ∀ c ∈ x.backends, ¬ Active c) (ha : bal.algo = .random) (hact : ∃ b ∈ bal.backends, Active b) (a : Nat)
    (hm : 2 ^ 64 % prioSum bal.backends ≤ a) :
    (∀ b ∈ bal.backends, countFrom (givesBy ttl now s b.id) a (prioSum bal.backends) = if Active b then b.prio else 0) ∧
    ∀ r, a ≤ r → ∃ b ∈ bal.backends, givesBy ttl now s b.id r = true := by
  have hmem : bal ∈ s.bals := by rw [hs]; simp
  have hsane := hok.sane bal hmem
  have hids : (bal.backends.map (·.id)).Nodup := by
    have h1 := hok.cfg.distinct
    rw [hs, List.flatMap_append, List.flatMap_cons, List.map_append, List.map_append] at h1
    exact (List.nodup_append.mp (List.nodup_append.mp h1).2.1).1
  have hnd : bal.backends.Nodup := List.Pairwise.of_map (·.id) (fun a b h e => h (congrArg _ e)) hids
  have hpos : 0 < bal.actNum := by
    rw [(hok.totals bal hmem).count]
    obtain ⟨b, hb, hba⟩ := hact
    exact List.length_pos_of_mem (List.mem_filter.2 ⟨hb, by simpa using hba⟩)
  have hsum : 0 < prioSum bal.backends := by
    obtain ⟨b, hb, hba⟩ := hact
    exact Nat.lt_of_lt_of_le (hsane.prio b hb hba) (prio_le_sum hb hba)
  have hgive : ∀ r, 2 ^ 64 % prioSum bal.backends ≤ r → ∃ x ∈ bal.backends, randPick ((r % prioSum bal.backends : Nat) : Int) bal.backends = some x ∧
      ∀ id, givesBy ttl now s id r = (x.id == id) := by
    intro r hr
    obtain ⟨x, hx⟩ := randPick_some (Nat.mod_lt r hsum)
    refine ⟨x, (randPick_active hx).2, hx, fun id => ?_⟩
    have hb := balSelect_rand1 hsane ha hact hr 0
    rw [hx] at hb
    unfold givesBy SvcSt.getBackend
    have hh : s.hasBackends = true := by
      unfold SvcSt.hasBackends
      rw [hs]
      simp [hpos]
    rw [if_pos hh]
    dsimp only
    unfold SvcSt.lb
    rw [hs, lbSelect_rand 0 r hb pre fun y hy => balSelect_rand0 (hok.sane y (by rw [hs]; simp [hy])) (hp y hy).1 (hp y hy).2 0 [r]]
    rfl
  refine ⟨fun b hb => ?_, fun r hr => ?_⟩
  · have hper : ∀ r, decide (randPick (((r + prioSum bal.backends) % prioSum bal.backends : Nat) : Int) bal.backends = some b) =
        decide (randPick ((r % prioSum bal.backends : Nat) : Int) bal.backends = some b) := by
      intro r; rw [Nat.add_mod_right]
    have e : countFrom (givesBy ttl now s b.id) a (prioSum bal.backends) =
        countFrom (fun r => decide (randPick ((r % prioSum bal.backends : Nat) : Int) bal.backends = some b)) a (prioSum bal.backends) := by
      unfold countFrom
      congr 1
      refine List.filter_congr fun v _ => ?_
      obtain ⟨x, h1, h2, h3⟩ := hgive (a + v) (by omega)
      dsimp only
      rw [h3, h2, Bool.eq_iff_iff, beq_iff_eq, decide_eq_true_eq, Option.some.injEq]
      exact ⟨fun e => nodup_map_inj hids h1 hb e, fun e => by rw [e]⟩
    rw [e, countFrom_shift hper a, ← randPick_count hnd hb]
    unfold countFrom
    congr 1
    refine List.filter_congr fun v hv => ?_
    dsimp only
    rw [Nat.zero_add, Nat.mod_eq_of_lt (List.mem_range.1 hv)]
  · obtain ⟨x, h1, h2, h3⟩ := hgive r (by omega)
    exact ⟨x, h1, by rw [h3]; simp⟩

/-! ### From the text -/

/-- How requests are shared in a documented configuration with `Balancer random`, or none: it is accepted, and whatever has happened in a service of it, there is a number such that, of any
that many consecutive numbers from `random ()`, each backend that can be used in the first group which has one (the Emergency backends being the last) is given a request without a session with
exactly as many as its Priority in the text; and all numbers are shared by the backends of this group.
Missing: as in `C101_served_partial`; that all numbers together are shared exactly, see `C21_uniform_fails`. -/
theorem C101_random_partial (e : TopEnv) (t : List Tok) (g : Glob) (o : FullObjs) (h : FullConfigures e t g o) (hp : PlainText t) (hn : ∀ nb ∈ o.named, nb.m.host ≠ none) :
    ∃ o' N, (∀ n, N ≤ n → parseFull e n t = some (g, o', 0)) ∧
      ∀ (j i : Nat) (l : Lst LOther) (v : FullSvc), o.lsts[j]? = some l → (l.other.svcs ++ o.svcs)[i]? = some v → v.rest.bes.algo = .random →
        ∃ l' v', o'.lsts[j]? = some l' ∧ (l'.other.svcs ++ o'.svcs)[i]? = some v' ∧
          ∀ (fe : FinEnv) (fs : List FGrp), Each (GroupFinal fe o.named) v.rest.bes.groups fs → (∀ g ∈ fs, g.bes.length ≤ 2 ^ 47) →
            serviceFinalize fe o'.named v'.rest.bes.groups = .ok (some fs) ∧
            ∀ (t0 : TS) (s : SvcSt) (last : TS) (now : TS) (k : Nat), SvcReach v'.rest.sess.ttl (finalBals v'.rest.bes.algo 0 fs) t0 s last →
              (∃ b f, b ∈ s.all ∧ Active b ∧ Numbered fs b.id k f) → (∀ b ∈ s.all, Active b → ∃ k' f', Numbered fs b.id k' f' ∧ k ≤ k') →
              ∃ total, 0 < total ∧ ∀ a, 2 ^ 64 % total ≤ a →
                (∀ id f, Numbered fs id k f → ∃ b ∈ s.all, b.id = id ∧ countFrom (givesBy v'.rest.sess.ttl now s id) a total = if Active b then f.prio.toNat else 0) ∧
                ∀ r, a ≤ r → ∃ id f, Numbered fs id k f ∧ givesBy v'.rest.sess.ttl now s id r = true := by
  have hfit := full_fit h
  obtain ⟨o', N, h1, h2⟩ := C101_served_partial e t g o h hp hn
  refine ⟨o', N, h1, fun j i l v hj hi halgo => ?_⟩
  obtain ⟨l', v', g1, g2, g3, g4⟩ := h2 j i l v hj hi
  refine ⟨l', v', g1, g2, fun fe fs hf hl => ⟨(g4 fe fs hf hl).1, fun t0 s last now k hr hex hfirst => ?_⟩⟩
  have hv : SvcFit v := by
    rcases List.mem_append.mp (List.mem_of_getElem? hi) with hm | hm
    · exact hfit.lsts l (List.mem_of_getElem? hj) v hm
    · exact hfit.svcs v hm
  obtain ⟨be, bd, algo, u, items, hi1, hi2⟩ := hv
  obtain ⟨q1, q2⟩ := final_groups hi1 hi2 hfit.prio hf
  have hg : ∀ x ∈ fs, x.bes ≠ [] ∧ x.bes.length ≤ 2 ^ 47 ∧ ∀ b ∈ x.bes, 1 ≤ b.prio ∧ b.prio ≤ 65535 := fun x hx => ⟨(q1 x hx).1, hl x hx, (q1 x hx).2⟩
  obtain ⟨b1, b2, b3⟩ := finalBals_spec v.rest.bes.algo 0 fs hg
  have hb : BalsOk (finalBals v.rest.bes.algo 0 fs) := by
    refine ⟨⟨?_, fun bal hb => (b3 bal hb).2.2.2.1, fun bal hb => (b3 bal hb).2.2.2.2.1, fun bal hb => (b3 bal hb).2.2.2.2.2⟩, fun bal hb => (b3 bal hb).2.1,
      fun bal hb => (b3 bal hb).2.2.1⟩
    rw [b1]
    exact List.nodup_range'
  rw [g3] at hr ⊢
  have hok := (svcReach_ok hb hr).bals
  obtain ⟨r1, r2⟩ := reach_groups hg hb hr
  have inj : ∀ {x y : Be}, x ∈ s.all → y ∈ s.all → x.id = y.id → x = y := fun hx hy e => nodup_map_inj hok.cfg.distinct hx hy e
  -- a backend stands in one group only
  have place : ∀ {b : Be} {k : Nat} {f : FBe}, b ∈ s.all → Numbered fs b.id k f → ∃ bal, s.bals[k]? = some bal ∧ b ∈ bal.backends ∧ b.prio = f.prio.toNat := by
    intro b k f hbm hnum
    obtain ⟨bal, x, x1, x2, x3, x4⟩ := r2 _ _ _ hnum
    have := inj (at_all x1 x2) hbm x3
    subst this
    exact ⟨bal, x1, x2, x4⟩
  obtain ⟨b0, f0, m1, m2, m3⟩ := hex
  obtain ⟨bal, p1, p2, -⟩ := place m1 m3
  have hkl := (List.getElem?_eq_some_iff.mp p1).1
  have hsplit : s.bals = s.bals.take k ++ bal :: s.bals.drop (k + 1) := by
    have e : s.bals[k] = bal := (List.getElem?_eq_some_iff.mp p1).2
    conv => lhs; rw [← List.take_append_drop k s.bals, List.drop_eq_getElem_cons hkl, e]
  have hpre : ∀ x ∈ s.bals.take k, x.algo = .random ∧ ∀ c ∈ x.backends, ¬ Active c := by
    intro x hx
    obtain ⟨j, hj1, hj2⟩ := List.getElem_of_mem hx
    rw [List.length_take] at hj1
    have hjk : j < k := by omega
    have hxj : s.bals[j]? = some x := by
      rw [List.getElem_take] at hj2
      rw [← hj2]
      exact List.getElem?_eq_getElem _
    refine ⟨(r1 j x hxj).1.trans halgo, fun c hcm hc => ?_⟩
    obtain ⟨k', f', y1, y2⟩ := hfirst c (at_all hxj hcm) hc
    obtain ⟨bal', z1, z2, -⟩ := place (at_all hxj hcm) y1
    have hd := hok.cfg.distinct
    have : s.bals = s.bals.take k' ++ s.bals.drop k' := (List.take_append_drop ..).symm
    rw [this, List.flatMap_append, List.map_append] at hd
    refine (List.nodup_append.mp hd).2.2 c.id (List.mem_map.mpr ⟨c, List.mem_flatMap.mpr ⟨x, ?_, hcm⟩, rfl⟩) c.id
      (List.mem_map.mpr ⟨c, List.mem_flatMap.mpr ⟨bal', ?_, z2⟩, rfl⟩) rfl
    · exact List.mem_of_getElem? (i := j) (by rw [List.getElem?_take, if_pos (by omega)]; exact hxj)
    · exact List.mem_of_getElem? (i := 0) (by rw [List.getElem?_drop, Nat.add_zero]; exact z1)
  refine ⟨prioSum bal.backends, ?_, fun a hm => ?_⟩
  · exact Nat.lt_of_lt_of_le (hok.cfg.prios bal (List.mem_of_getElem? p1) b0 p2).1 (prio_le_sum p2 m2)
  · obtain ⟨c1, c2⟩ := C21_requests (ttl := v.rest.sess.ttl) (now := now) hok hsplit hpre ((r1 k bal p1).1.trans halgo) ⟨b0, p2, m2⟩ a hm
    refine ⟨fun id f hnum => ?_, fun r hr => ?_⟩
    · obtain ⟨bal', x, x1, x2, x3, x4⟩ := r2 id k f hnum
      rw [p1] at x1
      cases x1
      refine ⟨x, at_all p1 x2, x3, ?_⟩
      rw [← x3, c1 x x2, x4]
    · obtain ⟨b, y1, y2⟩ := c2 r hr
      obtain ⟨f, y3, -⟩ := (r1 k bal p1).2 b y1
      exact ⟨b.id, f, y3, y2⟩

private theorem random_seen : seen (fun o => match o.lsts, o.svcs with
  | [l], [] => (match l.other.svcs with
    | [v] => decide (serviceFinalize ⟨fun h _ => some h, true⟩ o.named v.rest.bes.groups = .ok (some servedBes)) && o.named.all (fun nb => nb.m.host.isSome) &&
      decide ((o.named.map (·.name)).Nodup) && v.rest.bes.algo == .random
    | _ => false)
  | _, _ => false) servedText = true := by decide +kernel

/-- Of eight consecutive numbers, five give the request to the first backend and three to the second one. -/
theorem random_eight : countFrom (givesBy 60 ⟨100, 0⟩ ⟨finalBals .random 0 servedBes, .init, []⟩ 0) 1001 8 = 5 ∧
    countFrom (givesBy 60 ⟨100, 0⟩ ⟨finalBals .random 0 servedBes, .init, []⟩ 1) 1001 8 = 3 := by decide +kernel

set_option maxRecDepth 100000 in
/-- The hypotheses of `C21_requests` and `C101_random_partial` are met. -/
example : ∃ t g o l v fe fs s, FullConfigures topEnv0 t g o ∧ PlainText t ∧ (∀ nb ∈ o.named, nb.m.host ≠ none) ∧ o.lsts[0]? = some l ∧ (l.other.svcs ++ o.svcs)[0]? = some v ∧
    v.rest.bes.algo = .random ∧ Each (GroupFinal fe o.named) v.rest.bes.groups fs ∧ (∀ g ∈ fs, g.bes.length ≤ 2 ^ 47) ∧
    SvcReach v.rest.sess.ttl (finalBals v.rest.bes.algo 0 fs) ⟨100, 0⟩ s ⟨100, 0⟩ ∧ (∃ b f, b ∈ s.all ∧ Active b ∧ Numbered fs b.id 0 f) ∧
    (∀ b ∈ s.all, Active b → ∃ k' f', Numbered fs b.id k' f' ∧ 0 ≤ k') := by
  obtain ⟨g, o, h1, h2⟩ := seen_iff random_seen
  obtain ⟨t, ht, h3⟩ := C101_sound_partial _ _ _ _ _ h1 served_plain
  have hpt : PlainText t := by
    rcases ht with rfl | rfl
    · exact served_plain
    · exact cfg_plain (by decide +kernel) (by decide +kernel)
  split at h2
  rotate_left
  · simp at h2
  rename_i l hl hs
  split at h2
  rotate_left
  · simp at h2
  rename_i v hv
  simp only [Bool.and_eq_true, decide_eq_true_eq, beq_iff_eq, List.all_eq_true] at h2
  obtain ⟨⟨⟨hf, hn⟩, hd⟩, hal⟩ := h2
  have hn' : ∀ nb ∈ o.named, nb.m.host ≠ none := fun nb hm he => by have := hn nb hm; rw [he] at this; cases this
  have n0 : Numbered servedBes 0 0 ⟨5, false, .regular (.inet b!"10.0.0.1") 8080 15 15 600 none none⟩ := ⟨_, 0, rfl, rfl, rfl⟩
  have n1 : Numbered servedBes 1 0 ⟨3, false, .regular (.inet b!"10.0.0.2") 8080 15 15 600 none none⟩ := ⟨_, 1, rfl, rfl, rfl⟩
  have n2 : Numbered servedBes 2 1 ⟨5, false, .regular (.inet b!"10.0.0.3") 8080 120 120 120 none none⟩ := ⟨_, 0, rfl, rfl, rfl⟩
  have hall : ∀ b ∈ (⟨finalBals .random 0 servedBes, .init, []⟩ : SvcSt).all, b.id = 0 ∨ b.id = 1 ∨ b.id = 2 := by decide +kernel
  have hex : ∃ b ∈ (⟨finalBals .random 0 servedBes, .init, []⟩ : SvcSt).all, Active b ∧ b.id = 0 := by decide +kernel
  refine ⟨t, g, o, l, v, ⟨fun h _ => some h, true⟩, servedBes, ⟨finalBals .random 0 servedBes, .init, []⟩, h3, hpt, hn',
    by rw [hl]; rfl, by rw [hv]; rfl, hal, ((C75_final _ _ ⟨hd, hn'⟩ _).1 _).mp hf, by decide, ?_, ?_, fun b hb _ => ?_⟩
  · rw [hal]; exact .init
  · obtain ⟨b, x1, x2, x3⟩ := hex
    exact ⟨b, _, x1, x2, by rw [x3]; exact n0⟩
  · rcases hall b hb with e | e | e <;> rw [e]
    · exact ⟨_, _, n0, Nat.zero_le _⟩
    · exact ⟨_, _, n1, Nat.zero_le _⟩
    · exact ⟨_, _, n2, Nat.zero_le _⟩

end Pound.Props
