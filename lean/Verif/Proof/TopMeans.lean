import Verif.Proof.TopCfg

namespace Pound

open Spec

/-- What a setting does where it is accepted -/
def topEff : TopSet → Glob → Glob
  | .user s, g => { g with user := some s }
  | .group s, g => { g with group := some s }
  | .jail s, g => { g with jail := some s }
  | .daemon b, g => { g with daemon := b }
  | .supervisor b, g => { g with supervisor := b }
  | .wMin n, g => { g with wMin := n }
  | .wMax n, g => { g with wMax := n }
  | .threads n, g => { g with wMin := n, wMax := n }
  | .wIdle n, g => { g with wIdle := n }
  | .grace n, g => { g with grace := n }
  | .facility f, g => { g with facility := f }
  | .logName s, g => { g with logLevel := (levelIn g.formats (.logName s)).getD 0 }
  | .logNum s, g => { g with logLevel := (levelIn g.formats (.logNum s)).getD 0 }
  | .logFormat n _, g => { g with formats := g.formats ++ [n] }
  | .logTag s, g => { g with logTag := some s }
  | .alive n, g => { g with alive := n }
  | .client n, g => { g with client := n }
  | .timeOut n, g => { g with timeOut := n }
  | .wsTimeOut n, g => { g with wsTimeOut := n }
  | .connTo n, g => { g with connTo := n }
  | .balancer a, g => { g with algo := a }
  | .hdrOpts os, g => { g with hdr := os.foldl HdrOpts.app g.hdr }
  | .anon, g => { g with anon := true }
  | .pidFile s, g => { g with pidFile := some s }
  | .stats b, g => { g with stats := b }
  | .fwdHdr s, g => { g with fwdHdr := some s }
  | .combine ns, g => { g with combine := g.combine ++ ns }
  | .reType k, g => { g with re := { g.re with reType := k } }
  | .icase b, g => { g with re := { g.re with icase := b } }

theorem topApply_eff {x : TopSet} {s s' : Glob} (h : topApply x s = some s') : s' = topEff x s := by
  cases x <;> simp only [topApply, Option.some.injEq] at h <;> first
    | exact h.symm
    | (obtain ⟨n, h1, rfl⟩ := Option.map_eq_some_iff.mp h
       simp only [logLvlArg] at h1
       simp only [topEff, levelIn, h1, Option.getD_some]; done)
    | skip
  case logFormat n f =>
    split at h
    · cases h
    · split at h
      · cases h
      · split at h
        · cases h; rfl
        · cases h

def LevelSet (x : TopSet) : Prop := (∃ s, x = .logName s) ∨ ∃ s, x = .logNum s

theorem formatOk_iff {f : Bytes} : formatOk f = true ↔ ∃ r p, compileFormat f = .ok r ∧ r.accepted = some p := by
  unfold formatOk
  cases h : compileFormat f with
  | ub => simp
  | ok r => simp [Option.isSome_iff_exists]

/-- When a setting is refused -/
theorem topApply_some {x : TopSet} {s : Glob} (hl : s.formats.length ≤ 32) : (topApply x s).isSome = true ↔
    (LevelSet x → (levelIn s.formats x).isSome = true) ∧
    (∀ n f, x = .logFormat n f → n ∉ s.formats ∧ s.formats.length < 32 ∧ ∃ r p, compileFormat f = .ok r ∧ r.accepted = some p) := by
  cases x <;> simp only [topApply, LevelSet, Option.isSome_some, Option.isSome_map, logLvlArg, levelIn, reduceCtorEq, exists_false, or_false, false_or, false_implies, implies_true, and_self,
    and_true, true_and, TopSet.logName.injEq, TopSet.logNum.injEq, exists_eq', true_implies]
  case logFormat n f =>
    have hc : s.formats.contains n = true ↔ n ∈ s.formats := by simp
    constructor
    · intro h n' f' hx
      cases hx
      split at h
      · cases h
      · rename_i h1
        split at h
        · cases h
        · rename_i h2
          split at h
          · rename_i h3
            exact ⟨fun hm => h1 (hc.mpr hm), by omega, formatOk_iff.mp h3⟩
          · cases h
    · intro h
      obtain ⟨h1, h2, h3⟩ := h n f rfl
      rw [if_neg (fun hx => h1 (hc.mp hx)), if_neg (by omega), if_pos (formatOk_iff.mpr h3)]
      rfl

theorem formats_all {l : List TopSet} : ∀ {s s' : Glob}, appAll topApply l s = some s' → s'.formats = s.formats ++ l.filterMap topFormat := by
  induction l with
  | nil => intro s s' h; cases h; simp
  | cons x l ih =>
    intro s s' h
    simp only [appAll, Option.bind_eq_some_iff] at h
    obtain ⟨s1, h1, h2⟩ := h
    rw [ih h2, topApply_eff h1]
    cases x <;> simp [topEff, topFormat, List.filterMap_cons]

theorem formats_le {l : List TopSet} : ∀ {s s' : Glob}, appAll topApply l s = some s' → s.formats.length ≤ 32 → s'.formats.length ≤ 32 := by
  induction l with
  | nil => intro s s' h; cases h; exact id
  | cons x l ih =>
    intro s s' h hl
    simp only [appAll, Option.bind_eq_some_iff] at h
    obtain ⟨s1, h1, h2⟩ := h
    refine ih h2 ?_
    have hs : (topApply x s).isSome = true := by rw [h1]; rfl
    obtain ⟨_, h4⟩ := (topApply_some hl).mp hs
    rw [topApply_eff h1]
    cases x <;> try exact hl
    obtain ⟨_, h5, _⟩ := h4 _ _ rfl
    simp only [topEff, List.length_append, List.length_cons, List.length_nil]
    omega

theorem level_mono {fs gs : List Bytes} {x : TopSet} {n : Nat} (h : levelIn fs x = some n) : levelIn (fs ++ gs) x = some n := by
  cases x <;> simp only [levelIn, reduceCtorEq] at h ⊢
  · rw [List.findIdx?_append, h]; rfl
  · unfold logLevelNum at h ⊢
    split at h
    · rename_i k hk
      split at h
      · cases h
      · rename_i h1
        split at h
        · rename_i h2
          cases h
          rw [if_neg h1, if_pos (by rw [List.length_append]; omega)]
        · cases h
    · cases h

theorem thdr_all {l : List TopSet} : ∀ {s s' : Glob}, appAll topApply l s = some s' → s'.hdr = (l.flatMap topHdr).foldl HdrOpts.app s.hdr := by
  induction l with
  | nil => intro s s' h; cases h; rfl
  | cons x l ih =>
    intro s s' h
    simp only [appAll, Option.bind_eq_some_iff] at h
    obtain ⟨s1, h1, h2⟩ := h
    rw [ih h2, topApply_eff h1, List.flatMap_cons, List.foldl_append]
    cases x <;> rfl

theorem combine_all {l : List TopSet} : ∀ {s s' : Glob}, appAll topApply l s = some s' → s'.combine = s.combine ++ l.flatMap topCombine := by
  induction l with
  | nil => intro s s' h; cases h; simp
  | cons x l ih =>
    intro s s' h
    simp only [appAll, Option.bind_eq_some_iff] at h
    obtain ⟨s1, h1, h2⟩ := h
    rw [ih h2, topApply_eff h1, List.flatMap_cons]
    cases x <;> simp [topEff, topCombine]

theorem lastOr_filterMap_cons {δ α : Type} (f : δ → Option α) (d : α) (x : δ) (l : List δ) : lastOr d ((x :: l).filterMap f) = lastOr ((f x).getD d) (l.filterMap f) := by
  rw [lastOr_cons]
  congr 1
  rw [List.filterMap_cons]
  cases f x <;> rfl

/-- The log level, by the formats at the end -/
theorem level_all {l : List TopSet} : ∀ {s s' : Glob} (gs : List Bytes), s.formats.length ≤ 32 → appAll topApply l s = some s' →
    s'.logLevel = lastOr s.logLevel (l.filterMap (levelIn (s'.formats ++ gs))) := by
  induction l with
  | nil => intro s s' gs _ h; cases h; rfl
  | cons x l ih =>
    intro s s' gs hl h
    simp only [appAll, Option.bind_eq_some_iff] at h
    obtain ⟨s1, h1, h2⟩ := h
    have hl1 : s1.formats.length ≤ 32 := formats_le (l := [x]) (by simp [appAll, h1]) hl
    rw [ih gs hl1 h2, lastOr_filterMap_cons]
    congr 1
    have hs : (topApply x s).isSome = true := by rw [h1]; rfl
    obtain ⟨h3, _⟩ := (topApply_some hl).mp hs
    have hf : s'.formats ++ gs = s.formats ++ (([x] : List TopSet).filterMap topFormat ++ (l.filterMap topFormat ++ gs)) := by
      rw [formats_all h2, formats_all (l := [x]) (s := s) (s' := s1) (by simp [appAll, h1])]
      simp
    rw [topApply_eff h1]
    by_cases hx : LevelSet x
    · obtain ⟨n, hn⟩ := Option.isSome_iff_exists.mp (h3 hx)
      rw [hf, level_mono hn]
      rcases hx with ⟨t, rfl⟩ | ⟨t, rfl⟩
      · simp only [topEff, hn, Option.getD_some]
      · simp only [topEff, hn, Option.getD_some]
    · cases x <;> first
        | rfl
        | exact absurd (.inl ⟨_, rfl⟩) hx
        | exact absurd (.inr ⟨_, rfl⟩) hx

theorem glob_means {l : List TopSet} {g : Glob} (h : appAll topApply l globInit = some g) : GlobMeans l g where
  user := appAll_opt (·.user) topUser (fun x s s' h => by rw [topApply_eff h]; cases x <;> rfl) h rfl
  group := appAll_opt (·.group) topGroup (fun x s s' h => by rw [topApply_eff h]; cases x <;> rfl) h rfl
  jail := appAll_opt (·.jail) topJail (fun x s s' h => by rw [topApply_eff h]; cases x <;> rfl) h rfl
  daemon := appAll_field (·.daemon) topDaemon (fun x s s' h => by rw [topApply_eff h]; cases x <;> rfl) h
  supervisor := appAll_field (·.supervisor) topSupervisor (fun x s s' h => by rw [topApply_eff h]; cases x <;> rfl) h
  wMin := appAll_field (·.wMin) topWMin (fun x s s' h => by rw [topApply_eff h]; cases x <;> rfl) h
  wMax := appAll_field (·.wMax) topWMax (fun x s s' h => by rw [topApply_eff h]; cases x <;> rfl) h
  wIdle := appAll_field (·.wIdle) topWIdle (fun x s s' h => by rw [topApply_eff h]; cases x <;> rfl) h
  grace := appAll_field (·.grace) topGrace (fun x s s' h => by rw [topApply_eff h]; cases x <;> rfl) h
  facility := appAll_field (·.facility) topFacility (fun x s s' h => by rw [topApply_eff h]; cases x <;> rfl) h
  logTag := appAll_opt (·.logTag) topLogTag (fun x s s' h => by rw [topApply_eff h]; cases x <;> rfl) h rfl
  alive := appAll_field (·.alive) topAlive (fun x s s' h => by rw [topApply_eff h]; cases x <;> rfl) h
  client := appAll_field (·.client) topClient (fun x s s' h => by rw [topApply_eff h]; cases x <;> rfl) h
  timeOut := appAll_field (·.timeOut) topTimeOut (fun x s s' h => by rw [topApply_eff h]; cases x <;> rfl) h
  wsTimeOut := appAll_field (·.wsTimeOut) topWsTimeOut (fun x s s' h => by rw [topApply_eff h]; cases x <;> rfl) h
  connTo := appAll_field (·.connTo) topConnTo (fun x s s' h => by rw [topApply_eff h]; cases x <;> rfl) h
  algo := appAll_field (·.algo) topBalancer (fun x s s' h => by rw [topApply_eff h]; cases x <;> rfl) h
  anon := appAll_field (·.anon) topAnon (fun x s s' h => by rw [topApply_eff h]; cases x <;> rfl) h
  pidFile := appAll_opt (·.pidFile) topPidFile (fun x s s' h => by rw [topApply_eff h]; cases x <;> rfl) h rfl
  stats := appAll_field (·.stats) topStats (fun x s s' h => by rw [topApply_eff h]; cases x <;> rfl) h
  fwdHdr := appAll_opt (·.fwdHdr) topFwdHdr (fun x s s' h => by rw [topApply_eff h]; cases x <;> rfl) h rfl
  reType := appAll_field (·.re.reType) topReType (fun x s s' h => by rw [topApply_eff h]; cases x <;> rfl) h
  icase := appAll_field (·.re.icase) topIcase (fun x s s' h => by rw [topApply_eff h]; cases x <;> rfl) h
  fwd := by rw [thdr_all h, (hdr_fold _ _).1]; rfl
  ssl := by rw [thdr_all h, (hdr_fold _ _).2]; rfl
  combine := by rw [combine_all h]; rfl
  formats := by rw [formats_all h]; rfl
  logLevel := by
    have h1 := level_all [] (by decide) h
    have h2 := formats_all h
    rw [List.append_nil, h2] at h1
    exact h1

theorem glob_unique {l : List TopSet} {s s' : Glob} (h : GlobMeans l s) (h' : GlobMeans l s') : s = s' := by
  have e1 : s.hdr = s'.hdr := by
    have := h.fwd.trans h'.fwd.symm
    have := h.ssl.trans h'.ssl.symm
    cases hs : s.hdr; cases hs' : s'.hdr
    simp_all
  have e2 : s.re = s'.re := by
    have := h.reType.trans h'.reType.symm
    have := h.icase.trans h'.icase.symm
    cases hs : s.re; cases hs' : s'.re
    simp_all
  have a0 := h.user.trans h'.user.symm
  have a1 := h.group.trans h'.group.symm
  have a2 := h.jail.trans h'.jail.symm
  have a3 := h.daemon.trans h'.daemon.symm
  have a4 := h.supervisor.trans h'.supervisor.symm
  have a5 := h.wMin.trans h'.wMin.symm
  have a6 := h.wMax.trans h'.wMax.symm
  have a7 := h.wIdle.trans h'.wIdle.symm
  have a8 := h.grace.trans h'.grace.symm
  have a9 := h.facility.trans h'.facility.symm
  have a10 := h.logTag.trans h'.logTag.symm
  have a11 := h.alive.trans h'.alive.symm
  have a12 := h.client.trans h'.client.symm
  have a13 := h.timeOut.trans h'.timeOut.symm
  have a14 := h.wsTimeOut.trans h'.wsTimeOut.symm
  have a15 := h.connTo.trans h'.connTo.symm
  have a16 := h.algo.trans h'.algo.symm
  have a17 := h.anon.trans h'.anon.symm
  have a18 := h.pidFile.trans h'.pidFile.symm
  have a19 := h.stats.trans h'.stats.symm
  have a20 := h.fwdHdr.trans h'.fwdHdr.symm
  have a21 := h.combine.trans h'.combine.symm
  have a22 := h.formats.trans h'.formats.symm
  have a23 := h.logLevel.trans h'.logLevel.symm
  clear h h'
  cases s
  cases s'
  simp only at *
  subst_vars
  rfl

theorem glob_order {l : List TopSet} {g : Glob} (h : appAll topApply l globInit = some g) : GlobOrder l := by
  have pref : ∀ {pre x post}, l = pre ++ x :: post → ∃ s1, appAll topApply pre globInit = some s1 ∧ (topApply x s1).isSome = true := by
    rintro pre x post rfl
    rw [appAll_app] at h
    obtain ⟨s1, h1, h2⟩ := Option.bind_eq_some_iff.mp h
    simp only [appAll, Option.bind_eq_some_iff] at h2
    obtain ⟨s2, h2, _⟩ := h2
    exact ⟨s1, h1, by rw [h2]; rfl⟩
  refine ⟨?_, ?_⟩
  · intro pre x post hl hx
    obtain ⟨s1, h1, h2⟩ := pref hl
    have h3 := ((topApply_some (formats_le h1 (by decide))).mp h2).1 hx
    rw [formats_all h1] at h3
    exact h3
  · intro pre n f post hl
    obtain ⟨s1, h1, h2⟩ := pref hl
    have h3 := ((topApply_some (formats_le h1 (by decide))).mp h2).2 n f rfl
    rw [formats_all h1] at h3
    exact h3

theorem of_globOrder (l : List TopSet) (h : GlobOrder l) : ∃ s, appAll topApply l globInit = some s := by
  have key : ∀ (post pre : List TopSet), l = pre ++ post → (∃ s, appAll topApply pre globInit = some s) → ∃ s, appAll topApply l globInit = some s := by
    intro post
    induction post with
    | nil => rintro pre hl hp; rw [hl, List.append_nil]; exact hp
    | cons x post ih =>
      rintro pre hl ⟨s1, h1⟩
      refine ih (pre ++ [x]) (by simpa using hl) ?_
      have hf : s1.formats = formatsOf pre := formats_all h1
      have : (topApply x s1).isSome = true := by
        rw [topApply_some (formats_le h1 (by decide)), hf]
        refine ⟨h.level pre x post hl, ?_⟩
        rintro n f rfl
        exact h.format pre n f post hl
      obtain ⟨s2, h2⟩ := Option.isSome_iff_exists.mp this
      refine ⟨s2, ?_⟩
      rw [appAll_append, h1]
      exact h2
  exact key l [] rfl ⟨_, rfl⟩

theorem glob_iff {l : List TopSet} {g : Glob} : appAll topApply l globInit = some g ↔ GlobOrder l ∧ GlobMeans l g := by
  constructor
  · intro h; exact ⟨glob_order h, glob_means h⟩
  · rintro ⟨h1, h2⟩
    obtain ⟨s', h3⟩ := of_globOrder l h1
    rw [glob_unique h2 (glob_means h3)]
    exact h3

theorem globOrder_pre {l l' : List TopSet} (h : GlobOrder (l ++ l')) : GlobOrder l where
  level := fun pre x post hl hx => h.level pre x (post ++ l') (by rw [hl]; simp) hx
  format := fun pre n f post hl => h.format pre n f (post ++ l') (by rw [hl]; simp)

end Pound
