import Verif.Proof.PoundCmd

/-!
C99: The command line of pound means what the manual says.  Model: /verif/lean/Verif/Model/PoundCmd.lean.
-/

namespace Pound.Props
open Pound Spec

/-- -W takes exactly the arguments documented, and each does what it says: for every argument, state of the features and file system. -/
theorem C99_feature_partial (isDir : Bytes → Option Bool) (f f' : Features) (arg : Bytes) :
    featureSet isDir f arg = .go f' ↔ ∃ g, FeatureArg isDir arg g ∧ f' = g f := by
  constructor
  · exact featureSet_sound
  · rintro ⟨g, h, rfl⟩
    exact featureSet_complete h f

example : featureSet (fun d => if d = b!"/srv/pound" then some true else none) { dir := some b!"/etc" } b!"include-dir=/srv/pound" =
    .go { dir := some b!"/srv/pound", incl := 1 } := by decide +kernel
example : featureSet (fun _ => none) { dir := some b!"/etc" } b!"no-dns=1" = .exit 1 := by decide +kernel
example : featureSet (fun _ => none) { dir := some b!"/etc" } b!"no-" = .exit 1 := by decide +kernel

theorem poundStart_bad {isDir : Bytes → Option Bool} {s s' : PoundOptSt} {os : List OptItem} (h : poundOpts isDir s os = .go s') : OptItem.bad ∉ os := by
  induction os generalizing s with
  | nil => simp
  | cons o r ih =>
    unfold poundOpts at h
    cases o with
    | bad => cases h
    | opt c a =>
      cases hp : poundOpt isDir s (.opt c a) with
      | ub => rw [hp] at h; cases h
      | exit n => rw [hp] at h; cases h
      | go s1 =>
        rw [hp] at h
        intro hm
        rcases List.mem_cons.mp hm with e | hm
        · cases e
        · exact ih h hm

/-- pound starts exactly if its command line consists of options it knows and no more arguments, none of the options is -c, -h or -V, the features are as documented,
and the file given with the last -f (the default one without) is accepted and has listeners.  It then detaches if the configuration does not say otherwise and neither
-F nor -e was given; the last -p wins over PidFile, which wins over the default; messages go to stderr if -e was given or the configuration asks for it, but never when
detached, when syslog is used instead; -v makes them go to both. -/
theorem C99_start_partial (E : PoundEnv) (argv : List Bytes) (r : PoundRun) :
    configParse E argv = .go r ↔
      ∃ os, CmdLine poundOptSpec E.posix argv os [] ∧
        .opt ch%'c' none ∉ os ∧ .opt ch%'h' none ∉ os ∧ .opt ch%'V' none ∉ os ∧
        FeatureArgs E.isDir os { dir := some E.sysconf } r.feat ∧
        E.parse ((lastArg ch%'f' (fun _ => true) os).getD E.confName) r.feat = some r.conf ∧
        r.conf.listeners = true ∧
        (r.daemon = true ↔ r.conf.daemon = true ∧ .opt ch%'F' none ∉ os ∧ .opt ch%'e' none ∉ os) ∧
        r.pid = (lastArg ch%'p' (fun _ => true) os).getD (r.conf.pidFile.getD E.pidName) ∧
        (.opt ch%'e' none ∈ os → r.facility = none) ∧
        (.opt ch%'e' none ∉ os → r.facility = if r.daemon then some (r.conf.facility.getD 3) else r.conf.facility) ∧
        (r.printLog = true ↔ .opt ch%'v' none ∈ os) := by
  constructor
  · intro h
    unfold configParse at h
    cases hp : poundOpts E.isDir { conf := E.confName, feat := { dir := some E.sysconf } } (getoptArgs poundOptSpec E.posix argv).1 with
    | ub => rw [hp] at h; cases h
    | exit n => rw [hp] at h; cases h
    | go s =>
      rw [hp] at h
      dsimp only at h
      split at h
      · cases h
      · rename_i ha
        have ha : (getoptArgs poundOptSpec E.posix argv).2 = [] := Classical.not_not.mp ha
        have hcl := getopt_sound (spec := poundOptSpec) (posix := E.posix) _ argv (Nat.le_refl _) (poundStart_bad hp)
        rw [ha] at hcl
        obtain ⟨hh, hV, f, hf, hs⟩ := (poundOpts_iff _ _ _ (cmdLine_spec hcl)).mp hp
        refine ⟨_, hcl, ?_⟩
        revert hf hs hh hV
        generalize (getoptArgs poundOptSpec E.posix argv).1 = os
        intro hh hV hf hs
        subst hs
        cases hc : E.parse (optTo { conf := E.confName, feat := { dir := some E.sysconf } } os f).conf (optTo { conf := E.confName, feat := { dir := some E.sysconf } } os f).feat with
        | none => rw [hc] at h; cases h
        | some c =>
          rw [hc] at h
          dsimp only at h
          split at h
          · cases h
          · rename_i hck
            split at h
            · cases h
            · rename_i hl
              injection h with h
              subst h
              refine ⟨?_, hh, hV, hf, hc, ?_, ?_, ?_, ?_, ?_, ?_⟩
              · intro hm; apply hck; simp [optTo, hm]
              · simpa using hl
              · by_cases hF : OptItem.opt ch%'F' none ∈ os <;> by_cases he : OptItem.opt ch%'e' none ∈ os <;> simp [optTo, hF, he]
              · simp [optTo]
              · intro he; simp [optTo, he]
              · intro he
                by_cases hF : OptItem.opt ch%'F' none ∈ os
                · simp [optTo, hF, he]
                · cases hd : c.daemon
                  · simp [optTo, hF, he, hd]
                  · cases hfa : c.facility <;> simp [optTo, hF, he, hd, hfa]
              · simp [optTo]
  · rintro ⟨os, hcl, hc, hh, hV, hf, hp, hl, hd, hpid, he, hne, hv⟩
    unfold configParse
    rw [getopt_complete hcl]
    dsimp only
    rw [(poundOpts_iff os { conf := E.confName, feat := { dir := some E.sysconf } } _ (cmdLine_spec hcl)).mpr ⟨hh, hV, _, hf, rfl⟩]
    dsimp only
    rw [if_neg (by simp)]
    have e1 : (optTo { conf := E.confName, feat := { dir := some E.sysconf } } os r.feat).conf = (lastArg ch%'f' (fun _ => true) os).getD E.confName := rfl
    have e2 : (optTo { conf := E.confName, feat := { dir := some E.sysconf } } os r.feat).feat = r.feat := rfl
    rw [e1, e2, hp]
    dsimp only
    rw [if_neg (by simp [optTo, hc]), if_neg (by simp [hl])]
    obtain ⟨rd, rp, rf, rv, rfe, rc⟩ := r
    dsimp only at *
    congr 1
    by_cases hE : OptItem.opt ch%'e' none ∈ os
    · have hf0 := he hE
      subst hf0 hpid
      have : rd = false := by cases rd with
        | false => rfl
        | true => exact absurd hE (hd.mp rfl).2.2
      subst this
      have : rv = decide (OptItem.opt ch%'v' none ∈ os) := by
        by_cases h : OptItem.opt ch%'v' none ∈ os
        · simp [h, hv.mpr h]
        · have : rv ≠ true := fun e => h (hv.mp e)
          simp [h]; simpa using this
      subst this
      simp [optTo, hE]
    · have hf0 := hne hE
      subst hpid
      have : rd = (if OptItem.opt ch%'F' none ∈ os then false else rc.daemon) := by
        by_cases h : OptItem.opt ch%'F' none ∈ os
        · rw [if_pos h]; cases rd with
          | false => rfl
          | true => exact absurd h (hd.mp rfl).2.1
        · rw [if_neg h]
          cases rd with
          | true => exact (hd.mp rfl).1.symm
          | false =>
            cases hcd : rc.daemon with
            | false => rfl
            | true => exact absurd (hd.mpr ⟨hcd, h, hE⟩) (by decide)
      have hv' : rv = decide (OptItem.opt ch%'v' none ∈ os) := by
        by_cases h : OptItem.opt ch%'v' none ∈ os
        · simp [h, hv.mpr h]
        · have : rv ≠ true := fun e => h (hv.mp e)
          simp [h]; simpa using this
      subst hv' this
      rw [hf0]
      clear hf0 hne he
      by_cases hF : OptItem.opt ch%'F' none ∈ os
      · simp [optTo, hF, hE]
      · cases hcd : rc.daemon
        · simp [optTo, hF, hE, hcd]
        · cases hfa : rc.facility <;> simp [optTo, hF, hE, hcd, hfa]

/-- With -c (and neither -h nor -V), pound exits with status 0 exactly if the file is accepted, and else with status 1: it does not start in either case. -/
theorem C99_check_only_partial (E : PoundEnv) (argv args : List Bytes) (os : List OptItem) (f : Features)
    (h : CmdLine poundOptSpec E.posix argv os args) (hc : .opt ch%'c' none ∈ os) (hh : .opt ch%'h' none ∉ os) (hV : .opt ch%'V' none ∉ os)
    (hf : FeatureArgs E.isDir os { dir := some E.sysconf } f) :
    configParse E argv = .exit (if args = [] ∧ (E.parse ((lastArg ch%'f' (fun _ => true) os).getD E.confName) f).isSome = true then 0 else 1) := by
  unfold configParse
  rw [getopt_complete h]
  dsimp only
  rw [(poundOpts_iff os { conf := E.confName, feat := { dir := some E.sysconf } } _ (cmdLine_spec h)).mpr ⟨hh, hV, _, hf, rfl⟩]
  dsimp only
  have e1 : (optTo { conf := E.confName, feat := { dir := some E.sysconf } } os f).conf = (lastArg ch%'f' (fun _ => true) os).getD E.confName := rfl
  have e2 : (optTo { conf := E.confName, feat := { dir := some E.sysconf } } os f).feat = f := rfl
  by_cases ha : args = []
  · subst ha
    rw [if_neg (by simp), e1, e2]
    cases E.parse ((lastArg ch%'f' (fun _ => true) os).getD E.confName) f with
    | none => rfl
    | some c =>
      dsimp only
      rw [if_pos (by simp [optTo, hc])]
      rfl
  · rw [if_pos ha, if_neg (by rintro ⟨h, -⟩; exact ha h)]

theorem poundOpts_exit {isDir : Bytes → Option Bool} {n : Nat} : ∀ {os : List OptItem} {s : PoundOptSt}, poundOpts isDir s os = .exit n →
    (n = 1 ∨ n = 0 ∧ (.opt ch%'h' none ∈ os ∨ .opt ch%'V' none ∈ os)) := by
  have hfs : ∀ {f : Features} {a : Bytes} {n}, featureSet isDir f a = .exit n → n = 1 := by
    intro f a n h
    have hl : ∀ {en name val}, featureLoop isDir f en name val = .exit n → n = 1 := by
      intro en name val h
      unfold featureLoop at h
      split at h
      · cases val with
        | none => cases h
        | some v => injection h with h; exact h.symm
      · split at h
        · unfold setIncludeDir at h
          cases en with
          | false => cases h
          | true =>
            cases val with
            | none => cases h
            | some v =>
              simp only [if_true] at h
              by_cases hv : v = [] ∨ v = b!"."
              · rw [if_pos hv] at h; cases h
              · rw [if_neg hv] at h
                cases hd : isDir v with
                | none => rw [hd] at h; injection h with h; exact h.symm
                | some b => cases b <;> rw [hd] at h <;> first | (cases h; done) | (injection h with h; exact h.symm)
        · split at h
          · cases val with
            | none => cases h
            | some v => injection h with h; exact h.symm
          · injection h with h; exact h.symm
    unfold featureSet at h
    dsimp only at h
    split at h
    · exact hl h
    · split at h
      · split at h
        · injection h with h; exact h.symm
        · exact hl h
      · split at h
        · injection h with h; exact h.symm
        · exact hl h
  intro os
  induction os with
  | nil => intro s h; cases h
  | cons o r ih =>
    intro s h
    unfold poundOpts at h
    cases hp : poundOpt isDir s o with
    | ub => rw [hp] at h; cases h
    | go s1 =>
      rw [hp] at h
      rcases ih h with h | ⟨h, h'⟩
      · exact Or.inl h
      · exact Or.inr ⟨h, h'.imp (List.mem_cons_of_mem _) (List.mem_cons_of_mem _)⟩
    | exit m =>
      rw [hp] at h
      injection h with h
      subst h
      cases o with
      | bad => injection hp with hp; exact Or.inl hp.symm
      | opt c a =>
        cases a with
        | some a =>
          unfold poundOpt at hp
          dsimp only at hp
          split at hp
          · cases hp
          · split at hp
            · cases hp
            · split at hp
              · cases hf : featureSet isDir s.feat a with
                | ub => rw [hf] at hp; cases hp
                | go _ => rw [hf] at hp; cases hp
                | exit k => rw [hf] at hp; injection hp with hp; subst hp; exact Or.inl (hfs hf)
              · injection hp with hp; exact Or.inl hp.symm
        | none =>
          by_cases h1 : c = ch%'h'
          · subst h1; injection hp with hp; exact Or.inr ⟨hp.symm, Or.inl List.mem_cons_self⟩
          · by_cases h2 : c = ch%'V'
            · subst h2; injection hp with hp; exact Or.inr ⟨hp.symm, Or.inr List.mem_cons_self⟩
            · unfold poundOpt at hp
              dsimp only at hp
              split at hp
              · cases hp
              · split at hp
                · cases hp
                · split at hp
                  · cases hp
                  · split at hp
                    · cases hp
                    · injection hp with hp; exact Or.inl hp.symm

/-- Whatever the command line, status 0 means that help or the version was asked for, or that -c was given and the file was accepted; every other failure has status 1. -/
theorem C99_status_partial (E : PoundEnv) (argv : List Bytes) (n : Nat) (h : configParse E argv = .exit n) :
    n = 1 ∨ n = 0 ∧ (.opt ch%'h' none ∈ (getoptArgs poundOptSpec E.posix argv).1 ∨ .opt ch%'V' none ∈ (getoptArgs poundOptSpec E.posix argv).1 ∨
      ∃ os f c, CmdLine poundOptSpec E.posix argv os [] ∧ .opt ch%'c' none ∈ os ∧ FeatureArgs E.isDir os { dir := some E.sysconf } f ∧
        E.parse ((lastArg ch%'f' (fun _ => true) os).getD E.confName) f = some c) := by
  unfold configParse at h
  cases hp : poundOpts E.isDir { conf := E.confName, feat := { dir := some E.sysconf } } (getoptArgs poundOptSpec E.posix argv).1 with
  | ub => rw [hp] at h; cases h
  | exit m =>
    rw [hp] at h
    injection h with h
    subst h
    rcases poundOpts_exit hp with h | ⟨h, h'⟩
    · exact Or.inl h
    · exact Or.inr ⟨h, h'.imp id Or.inl⟩
  | go s =>
    rw [hp] at h
    dsimp only at h
    split at h
    · injection h with h; exact Or.inl h.symm
    · rename_i ha
      have ha : (getoptArgs poundOptSpec E.posix argv).2 = [] := Classical.not_not.mp ha
      have hcl := getopt_sound (spec := poundOptSpec) (posix := E.posix) _ argv (Nat.le_refl _) (poundStart_bad hp)
      rw [ha] at hcl
      obtain ⟨hh, hV, f, hf, hs⟩ := (poundOpts_iff _ _ _ (cmdLine_spec hcl)).mp hp
      cases hc : E.parse s.conf s.feat with
      | none => rw [hc] at h; injection h with h; exact Or.inl h.symm
      | some c =>
        rw [hc] at h
        dsimp only at h
        split at h
        · rename_i hck
          injection h with h
          refine Or.inr ⟨h.symm, Or.inr (Or.inr ⟨_, f, c, hcl, ?_, hf, ?_⟩)⟩
          · subst hs; simpa [optTo] using hck
          · subst hs; exact hc
        · split at h
          · injection h with h; exact Or.inl h.symm
          · cases h

/-- A file system and configurations -/
def exPoundEnv : PoundEnv where
  isDir := fun d => if d = b!"/srv/pound" then some true else none
  parse := fun n f =>
    if n = b!"/etc/pound.cfg" then some { pidFile := some b!"/run/p.pid" }
    else if n = b!"/tmp/a.cfg" then (if f.dns = 0 then some { facility := none } else none)
    else if n = b!"/tmp/empty.cfg" then some { listeners := false }
    else none

example : configParse exPoundEnv [] = .go ⟨true, b!"/run/p.pid", some 3, false, { dir := some b!"/etc" }, { pidFile := some b!"/run/p.pid" }⟩ := by decide +kernel
example : configParse exPoundEnv [b!"-ep", b!"/x", b!"-v"] =
    .go ⟨false, b!"/x", none, true, { dir := some b!"/etc" }, { pidFile := some b!"/run/p.pid" }⟩ := by decide +kernel
example : configParse exPoundEnv [b!"-f", b!"/nonexistent", b!"-f/tmp/a.cfg", b!"-Wno-dns", b!"-Winclude-dir=/srv/pound"] =
    .go ⟨true, b!"/run/pound.pid", some 3, false, { dns := 0, dir := some b!"/srv/pound", incl := 1 }, { facility := none }⟩ := by decide +kernel
example : configParse exPoundEnv [b!"-F", b!"-f/tmp/a.cfg", b!"-Wno-dns"] =
    .go ⟨false, b!"/run/pound.pid", none, false, { dns := 0, dir := some b!"/etc" }, { facility := none }⟩ := by decide +kernel
example : configParse exPoundEnv [b!"-c"] = .exit 0 ∧ configParse exPoundEnv [b!"-cf", b!"/tmp/a.cfg"] = .exit 1 ∧ configParse exPoundEnv [b!"start"] = .exit 1 ∧
    configParse exPoundEnv [b!"-x"] = .exit 1 ∧ configParse exPoundEnv [b!"-Fh"] = .exit 0 := by decide +kernel

/-- Defect: pound -c says that a file is OK with which pound does not start: it has no listeners. -/
theorem C99_check_fails : configParse exPoundEnv [b!"-c", b!"-f", b!"/tmp/empty.cfg"] = .exit 0 ∧ configParse exPoundEnv [b!"-f", b!"/tmp/empty.cfg"] = .exit 1 := by
  decide +kernel

/-- Defect: -W include-dir without a value, which the usage message offers, makes pound call stat with a null pointer. -/
theorem C99_include_dir_fails : configParse exPoundEnv [b!"-W", b!"include-dir"] = .ub := by decide +kernel

end Pound.Props
