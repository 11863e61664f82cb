import Verif.Spec.CtlMain
import Verif.Proof.CfgParser

/-! Proofs about the options, the configuration and the templates of poundctl. -/

namespace Pound
open Spec

/-! ### getopt -/

theorem cluster_sound {spec : UInt8 → Option Bool} : ∀ cs : Bytes, .bad ∉ (clusterOpts spec cs).1 →
    Cluster spec cs (clusterOpts spec cs).1 (clusterOpts spec cs).2
  | [], _ => .done
  | c :: cs, h => by
    unfold clusterOpts at h ⊢
    split at h
    · simp at h
    · rename_i e
      dsimp only at h ⊢
      simp only [List.mem_cons, reduceCtorEq, false_or] at h
      exact .flag e (cluster_sound cs h)
    · rename_i e
      by_cases hc : cs = []
      · subst hc; rw [if_pos rfl]; exact .next e
      · rw [if_neg hc]; exact .attached e hc

theorem cluster_complete {spec : UInt8 → Option Bool} {cs : Bytes} {os : List OptItem} {p : Option UInt8} (h : Cluster spec cs os p) :
    clusterOpts spec cs = (os, p) := by
  induction h with
  | done => rfl
  | flag e _ ih => simp [clusterOpts, e, ih]
  | attached e hne => simp [clusterOpts, e, hne]
  | next e => simp [clusterOpts, e]

theorem isOptArg_iff {a : Bytes} (hd : a ≠ b!"--") : isOptArg a = true ↔ ∃ cs, a = ch%'-' :: cs ∧ cs ≠ [] ∧ cs ≠ b!"-" := by
  unfold isOptArg
  constructor
  · intro h
    simp only [Bool.and_eq_true, beq_iff_eq, decide_eq_true_eq] at h
    cases a with
    | nil => simp at h
    | cons x cs =>
      simp at h
      obtain ⟨rfl, h⟩ := h
      refine ⟨cs, rfl, ?_, ?_⟩
      · intro e; subst e; simp at h
      · intro e; subst e; exact hd rfl
  · rintro ⟨cs, rfl, h1, h2⟩
    cases cs with
    | nil => exact absurd rfl h1
    | cons x cs => simp

theorem operand_of {a : Bytes} (h : isOptArg a = false) : a.head? ≠ some ch%'-' ∨ a = b!"-" := by
  unfold isOptArg at h
  cases a with
  | nil => left; simp
  | cons x cs =>
    by_cases hx : x = ch%'-'
    · right
      subst hx
      cases cs with
      | nil => rfl
      | cons y cs => simp at h
    · left; simpa using hx

theorem isOptArg_operand {a : Bytes} (h : a.head? ≠ some ch%'-' ∨ a = b!"-") : isOptArg a = false ∧ a ≠ b!"--" := by
  rcases h with h | rfl
  · refine ⟨?_, ?_⟩
    · unfold isOptArg
      cases hb : a.head? == some ch%'-' with
      | false => rfl
      | true => exact absurd (by simpa using hb) h
    · rintro rfl; exact h rfl
  · exact ⟨by decide, by decide⟩

theorem getopt_sound {spec : UInt8 → Option Bool} {posix : Bool} : ∀ (k : Nat) (argv : List Bytes), argv.length ≤ k → .bad ∉ (getoptArgs spec posix argv).1 →
    CmdLine spec posix argv (getoptArgs spec posix argv).1 (getoptArgs spec posix argv).2
  | _, [], _, _ => .done
  | 0, _ :: _, hk, _ => by simp at hk
  | k + 1, a :: t, hk, h => by
    have hk' : t.length ≤ k := by simpa using hk
    unfold getoptArgs at h ⊢
    by_cases h1 : a = b!"--"
    · subst h1; simp only [if_true]; exact .dashes
    rw [if_neg h1] at h ⊢
    by_cases h2 : isOptArg a = true
    · rw [if_pos h2] at h ⊢
      obtain ⟨cs, rfl, hc1, hc2⟩ := (isOptArg_iff h1).mp h2
      have e : List.drop 1 (ch%'-' :: cs) = cs := rfl
      rw [e] at h ⊢
      rcases hco : clusterOpts spec cs with ⟨os, _ | c⟩
      · rw [hco] at h
        dsimp only at h ⊢
        simp only [List.mem_append, not_or] at h
        have := cluster_sound (spec := spec) cs (by rw [hco]; exact h.1)
        rw [hco] at this
        exact .options hc1 hc2 this (getopt_sound k t hk' h.2)
      · rw [hco] at h
        cases t with
        | nil => simp at h
        | cons v t =>
          dsimp only at h ⊢
          simp only [List.mem_append, List.mem_cons, reduceCtorEq, false_or, not_or] at h
          have := cluster_sound (spec := spec) cs (by rw [hco]; exact h.1)
          rw [hco] at this
          exact .optArg hc1 hc2 this (getopt_sound k t (by simp at hk'; omega) h.2)
    · rw [if_neg h2] at h ⊢
      have ho := operand_of (by simpa using h2)
      cases posix with
      | true => simp only [if_true]; exact .operands ho rfl
      | false =>
        simp only [Bool.false_eq_true, if_false] at h ⊢
        exact .operand ho rfl (getopt_sound k t hk' h)

theorem getopt_complete {spec : UInt8 → Option Bool} {posix : Bool} {argv : List Bytes} {os : List OptItem} {args : List Bytes}
    (h : CmdLine spec posix argv os args) : getoptArgs spec posix argv = (os, args) := by
  induction h with
  | done => rfl
  | dashes => simp [getoptArgs]
  | options h1 h2 hc hcl ih =>
    rename_i cs t o os args
    unfold getoptArgs
    have hd : ch%'-' :: cs ≠ b!"--" := by intro e; exact h2 (by simpa using e)
    rw [if_neg hd, if_pos ((isOptArg_iff hd).mpr ⟨cs, rfl, h1, h2⟩)]
    have e : List.drop 1 (ch%'-' :: cs) = cs := rfl
    rw [e, cluster_complete hc, ih]
  | optArg h1 h2 hc hcl ih =>
    rename_i cs v c t o os args
    unfold getoptArgs
    have hd : ch%'-' :: cs ≠ b!"--" := by intro e; exact h2 (by simpa using e)
    rw [if_neg hd, if_pos ((isOptArg_iff hd).mpr ⟨cs, rfl, h1, h2⟩)]
    have e : List.drop 1 (ch%'-' :: cs) = cs := rfl
    rw [e, cluster_complete hc]
    dsimp only
    rw [ih]
  | operand h hp _ ih =>
    unfold getoptArgs
    rw [if_neg (isOptArg_operand h).2, (isOptArg_operand h).1, hp]
    subst hp
    simp [ih]
  | operands h hp =>
    unfold getoptArgs
    rw [if_neg (isOptArg_operand h).2, (isOptArg_operand h).1, hp]
    simp

theorem cluster_good {spec : UInt8 → Option Bool} {cs : Bytes} {os : List OptItem} {p : Option UInt8} (h : Cluster spec cs os p) : OptItem.bad ∉ os := by
  induction h with
  | done => simp
  | flag _ _ ih => simpa using ih
  | attached _ _ => simp
  | next _ => simp

theorem cmdLine_good {spec : UInt8 → Option Bool} {posix : Bool} {argv : List Bytes} {os : List OptItem} {args : List Bytes}
    (h : CmdLine spec posix argv os args) : OptItem.bad ∉ os := by
  induction h with
  | done => simp
  | dashes => simp
  | options _ _ hc _ ih => simp [cluster_good hc, ih]
  | optArg _ _ hc _ ih => simp [cluster_good hc, ih]
  | operand _ _ _ ih => exact ih
  | operands _ _ => simp

/-! ### Servers -/

theorem get_mod (c : CtlCfg) (f : CtlSrv → CtlSrv) (n m : Option Bytes) : (c.mod f n).get m = if n = m then (c.get m).map f else c.get m := by
  cases n with
  | none =>
    cases m with
    | none => rfl
    | some m => simp [CtlCfg.mod, CtlCfg.get]
  | some n =>
    cases m with
    | none => simp [CtlCfg.mod, CtlCfg.get]
    | some m =>
      unfold CtlCfg.mod CtlCfg.get
      dsimp only
      generalize c.servers = l
      by_cases hnm : n = m
      · subst hnm
        rw [if_pos rfl]
        induction l with
        | nil => rfl
        | cons e l ih =>
          obtain ⟨k, v⟩ := e
          by_cases hk : k = n
          · subst hk; simp
          · have : (k == n) = false := by simpa using hk
            simp only [List.map_cons, List.find?_cons, this, Bool.false_eq_true, if_false]
            exact ih
      · rw [if_neg (by simpa using hnm)]
        congr 1
        induction l with
        | nil => rfl
        | cons e l ih =>
          obtain ⟨k, v⟩ := e
          by_cases hk : k = n
          · subst hk
            have : (k == m) = false := by simpa using hnm
            simp only [List.map_cons, List.find?_cons, beq_self_eq_true, if_true, this]
            exact ih
          · have hkn : (k == n) = false := by simpa using hk
            simp only [List.map_cons, List.find?_cons, hkn, Bool.false_eq_true, if_false]
            cases k == m with
            | true => rfl
            | false => exact ih

/-- What options given for a server make of it -/
def OptsGive (fs : Bytes → CtlNode) (G : List OptItem) (v v' : CtlSrv) : Prop :=
  v'.url = (lastArg ch%'s' (fun _ => true) G).or v.url ∧
  v'.cert = (lastArg ch%'K' (fun _ => true) G).or v.cert ∧
  v'.caPath = (lastArg ch%'C' (fun a => decide (fs a = .dir)) G).or v.caPath ∧
  v'.caFile = (lastArg ch%'C' (fun a => !decide (fs a = .dir)) G).or v.caFile ∧
  v'.verify = (v.verify && !decide (.opt ch%'k' none ∈ G))

theorem or_step (a : Option Bytes) (x : Option Bytes) (b : Option Bytes) : (a.or x).or b = a.or (x.or b) := by
  cases a <;> rfl

/-- The options that are about one server -/
theorem optsGive_cons {fs : Bytes → CtlNode} {G : List OptItem} {c : UInt8} {a : Option Bytes} {v v1 v' : CtlSrv}
    (h1 : OptsGive fs [.opt c a] v v1) (h : OptsGive fs G v1 v') : OptsGive fs (.opt c a :: G) v v' := by
  obtain ⟨a1, a2, a3, a4, a5⟩ := h1
  obtain ⟨b1, b2, b3, b4, b5⟩ := h
  cases a with
  | none =>
    simp only [lastArg, Option.none_or] at a1 a2 a3 a4
    refine ⟨by rw [b1, a1]; rfl, by rw [b2, a2]; rfl, by rw [b3, a3]; rfl, by rw [b4, a4]; rfl, ?_⟩
    rw [b5, a5]
    by_cases hk : c = ch%'k' <;> by_cases hg : OptItem.opt ch%'k' none ∈ G <;> simp [hk, hg, Bool.and_assoc]
    all_goals exact fun e => absurd e.symm hk
  | some a =>
    rw [lastArg, lastArg, Option.none_or] at a1 a2 a3 a4
    refine ⟨?_, ?_, ?_, ?_, ?_⟩
    · rw [b1, a1, lastArg, or_step]
    · rw [b2, a2, lastArg, or_step]
    · rw [b3, a3, lastArg, or_step]
    · rw [b4, a4, lastArg, or_step]
    · rw [b5, a5]
      simp

theorem optsGive_nil {fs : Bytes → CtlNode} (v : CtlSrv) : OptsGive fs [] v v := ⟨rfl, rfl, rfl, rfl, by simp⟩

/-- One option: the servers it changes, and the settings that belong to none -/
structure OptStep (fs : Bytes → CtlNode) (c : UInt8) (a : Option Bytes) (s s' : CtlOptSt) : Prop where
  sel : s'.sel = if c = ch%'S' then a else s.sel
  found : c = ch%'S' → (s'.cfg.get a).isSome
  srv : ∀ n v, s.cfg.get n = some v → ∃ v', s'.cfg.get n = some v' ∧
    if c ≠ ch%'S' ∧ s.sel = n then OptsGive fs [.opt c a] v v' else v' = v
  new : ∀ n, s.cfg.get n = none → s'.cfg.get n = none
  conf : s'.conf = (lastArg ch%'f' (fun _ => true) [.opt c a]).getD s.conf
  tfile : s'.cfg.tmplFile = (lastArg ch%'t' (fun _ => true) [.opt c a]).getD s.cfg.tmplFile
  tname : s'.cfg.tmplName = (lastArg ch%'T' (fun _ => true) [.opt c a]).getD s.cfg.tmplName
  indent : s'.indent = (lastArg ch%'i' (fun _ => true) [.opt c a]).or s.indent
  json : s'.json = (s.json || decide (c = ch%'j' ∧ a = none))

theorem mod_fields (c : CtlCfg) (f : CtlSrv → CtlSrv) (n : Option Bytes) :
    (c.mod f n).tmplFile = c.tmplFile ∧ (c.mod f n).tmplName = c.tmplName ∧ (c.mod f n).tmplPath = c.tmplPath := by
  cases n <;> exact ⟨rfl, rfl, rfl⟩

/-- An option that changes only the server selected -/
theorem optStep_mod {fs : Bytes → CtlNode} {c : UInt8} {a : Option Bytes} {s : CtlOptSt} {f : CtlSrv → CtlSrv}
    (hS : c ≠ ch%'S') (hf : ∀ v, OptsGive fs [.opt c a] v (f v))
    (h1 : lastArg ch%'f' (fun _ => true) [.opt c a] = none) (h2 : lastArg ch%'t' (fun _ => true) [.opt c a] = none)
    (h3 : lastArg ch%'T' (fun _ => true) [.opt c a] = none) (h4 : lastArg ch%'i' (fun _ => true) [.opt c a] = none) (h5 : ¬ (c = ch%'j' ∧ a = none)) :
    OptStep fs c a s { s with cfg := s.cfg.mod f s.sel } where
  sel := by rw [if_neg hS]
  found := fun h => absurd h hS
  srv := by
    intro n v hv
    dsimp only
    rw [get_mod]
    by_cases hn : s.sel = n
    · rw [if_pos hn, hv]
      exact ⟨f v, rfl, by rw [if_pos ⟨hS, hn⟩]; exact hf v⟩
    · rw [if_neg hn]
      exact ⟨v, hv, by rw [if_neg (fun h => hn h.2)]⟩
  new := by
    intro n hn
    dsimp only
    rw [get_mod, hn]
    split <;> rfl
  conf := by rw [h1]; rfl
  tfile := by rw [h2]; exact (mod_fields _ _ _).1
  tname := by rw [h3]; exact (mod_fields _ _ _).2.1
  indent := by rw [h4]; rfl
  json := by simp [h5]

/-- An option that changes no server -/
theorem optStep_same {fs : Bytes → CtlNode} {c : UInt8} {a : Option Bytes} {s s' : CtlOptSt}
    (hS : c ≠ ch%'S') (hg : ∀ v, OptsGive fs [.opt c a] v v) (hc : ∀ n, s'.cfg.get n = s.cfg.get n) (hsel : s'.sel = s.sel)
    (h1 : s'.conf = (lastArg ch%'f' (fun _ => true) [.opt c a]).getD s.conf)
    (h2 : s'.cfg.tmplFile = (lastArg ch%'t' (fun _ => true) [.opt c a]).getD s.cfg.tmplFile)
    (h3 : s'.cfg.tmplName = (lastArg ch%'T' (fun _ => true) [.opt c a]).getD s.cfg.tmplName)
    (h4 : s'.indent = (lastArg ch%'i' (fun _ => true) [.opt c a]).or s.indent)
    (h5 : s'.json = (s.json || decide (c = ch%'j' ∧ a = none))) : OptStep fs c a s s' where
  sel := by rw [if_neg hS]; exact hsel
  found := fun h => absurd h hS
  srv := by
    intro n v hv
    refine ⟨v, by rw [hc]; exact hv, ?_⟩
    split
    · exact hg v
    · rfl
  new := fun n hn => by rw [hc]; exact hn
  conf := h1
  tfile := h2
  tname := h3
  indent := h4
  json := h5

theorem optsGive_one {fs : Bytes → CtlNode} {c : UInt8} {a : Bytes} (v : CtlSrv) (h1 : c ≠ ch%'s') (h2 : c ≠ ch%'K') (h3 : c ≠ ch%'C') :
    OptsGive fs [.opt c (some a)] v v := by
  refine ⟨?_, ?_, ?_, ?_, ?_⟩ <;> simp [lastArg, h1, h2, h3]

theorem optsGive_flag {fs : Bytes → CtlNode} {c : UInt8} (v : CtlSrv) (h : c ≠ ch%'k') : OptsGive fs [.opt c none] v v := by
  refine ⟨?_, ?_, ?_, ?_, ?_⟩ <;> simp [lastArg, Ne.symm h]

theorem ctlOpt_step {fs : Bytes → CtlNode} {s s' : CtlOptSt} {o : OptItem} (h : ctlOpt fs s o = .inr s') :
    ∃ c a, o = .opt c a ∧ OptStep fs c a s s' := by
  cases o with
  | bad => cases h
  | opt c a =>
    refine ⟨c, a, rfl, ?_⟩
    cases a with
    | none =>
      unfold ctlOpt at h
      dsimp only at h
      split at h
      · cases h
      · split at h
        · rename_i hc; subst hc; cases h
          exact optStep_same (by decide) (fun v => optsGive_flag v (by decide)) (fun _ => rfl) rfl rfl rfl rfl rfl (by simp)
        · split at h
          · rename_i hc; subst hc; cases h
            exact optStep_mod (by decide) (fun v => ⟨rfl, rfl, rfl, rfl, by simp⟩) rfl rfl rfl rfl (by decide)
          · split at h
            · cases h
            · split at h
              · rename_i hk _ hc; subst hc; cases h
                exact optStep_same (by decide) (fun v => optsGive_flag v (by decide)) (fun _ => rfl) rfl rfl rfl rfl rfl (by simp)
              · cases h
    | some a =>
      unfold ctlOpt at h
      dsimp only at h
      split at h
      · rename_i hc; subst hc
        have hno : ∀ d : UInt8, d ≠ ch%'C' → lastArg d (fun _ => true) [.opt ch%'C' (some a)] = none := by
          intro d hd; simp [lastArg, Ne.symm hd]
        split at h
        · cases h
        · rename_i hd; cases h
          exact optStep_mod (by decide) (fun v => ⟨by rw [hno _ (by decide)]; rfl, by rw [hno _ (by decide)]; rfl, by simp [lastArg, hd], by simp [lastArg, hd], by simp⟩)
            (hno _ (by decide)) (hno _ (by decide)) (hno _ (by decide)) (hno _ (by decide)) (by simp)
        · rename_i hd; cases h
          have hd' : ¬ fs a = .dir := hd
          exact optStep_mod (by decide) (fun v => ⟨by rw [hno _ (by decide)]; rfl, by rw [hno _ (by decide)]; rfl, by simp [lastArg, hd'], by simp [lastArg, hd'], by simp⟩)
            (hno _ (by decide)) (hno _ (by decide)) (hno _ (by decide)) (hno _ (by decide)) (by simp)
      · split at h
        · rename_i hc; subst hc; cases h
          exact optStep_same (by decide) (fun v => optsGive_one v (by decide) (by decide) (by decide)) (fun _ => rfl) rfl rfl rfl rfl rfl (by simp)
        · split at h
          · rename_i hc; subst hc
            split at h
            · rename_i hs; cases h
              exact ⟨rfl, fun _ => hs, fun n v hv => ⟨v, hv, by simp⟩, fun n hn => hn, rfl, rfl, rfl, rfl, by simp⟩
            · cases h
          · split at h
            · rename_i hc; subst hc; cases h
              exact optStep_mod (by decide) (fun v => ⟨rfl, rfl, rfl, rfl, by simp⟩) rfl rfl rfl rfl (by simp)
            · split at h
              · rename_i hc; subst hc; cases h
                exact optStep_same (by decide) (fun v => optsGive_one v (by decide) (by decide) (by decide)) (fun _ => rfl) rfl rfl rfl rfl rfl (by simp)
              · split at h
                · rename_i hc; subst hc; cases h
                  exact optStep_mod (by decide) (fun v => ⟨rfl, rfl, rfl, rfl, by simp⟩) rfl rfl rfl rfl (by simp)
                · split at h
                  · rename_i hc; subst hc; cases h
                    exact optStep_same (by decide) (fun v => optsGive_one v (by decide) (by decide) (by decide)) (fun n => by cases n <;> rfl) rfl rfl rfl rfl rfl (by simp)
                  · split at h
                    · rename_i hc; subst hc; cases h
                      exact optStep_same (by decide) (fun v => optsGive_one v (by decide) (by decide) (by decide)) (fun n => by cases n <;> rfl) rfl rfl rfl rfl rfl (by simp)
                    · cases h

theorem lastArg_cons (c : UInt8) (ok : Bytes → Bool) (o : OptItem) (r : List OptItem) : lastArg c ok (o :: r) = (lastArg c ok r).or (lastArg c ok [o]) := by
  cases o with
  | bad => simp [lastArg]
  | opt d a => cases a <;> simp [lastArg]

theorem getD_or (a b : Option Bytes) (x : Bytes) : (a.or b).getD x = a.getD (b.getD x) := by cases a <;> rfl

/-- All options -/
structure OptsDone (fs : Bytes → CtlNode) (os : List OptItem) (s s' : CtlOptSt) : Prop where
  good : OptItem.bad ∉ os
  sel : s'.sel = selected s.sel os
  srv : ∀ n v, s.cfg.get n = some v → ∃ v', s'.cfg.get n = some v' ∧ OptsGive fs (givenFor n s.sel os) v v'
  new : ∀ n, s.cfg.get n = none → s'.cfg.get n = none
  selFound : (s.cfg.get s.sel).isSome → (s'.cfg.get s'.sel).isSome
  conf : s'.conf = (lastArg ch%'f' (fun _ => true) os).getD s.conf
  tfile : s'.cfg.tmplFile = (lastArg ch%'t' (fun _ => true) os).getD s.cfg.tmplFile
  tname : s'.cfg.tmplName = (lastArg ch%'T' (fun _ => true) os).getD s.cfg.tmplName
  indent : s'.indent = (lastArg ch%'i' (fun _ => true) os).or s.indent
  json : s'.json = (s.json || decide (.opt ch%'j' none ∈ os))

theorem ctlOpts_done {fs : Bytes → CtlNode} : ∀ (os : List OptItem) (s s' : CtlOptSt), ctlOpts fs s os = .inr s' → OptsDone fs os s s'
  | [], s, s', h => by
    cases h
    exact ⟨by simp, rfl, fun n v hv => ⟨v, hv, optsGive_nil v⟩, fun n hn => hn, fun h => h, rfl, rfl, rfl, rfl, by simp⟩
  | o :: r, s, s', h => by
    unfold ctlOpts at h
    cases h1 : ctlOpt fs s o with
    | inl n => rw [h1] at h; cases h
    | inr s1 =>
      rw [h1] at h
      obtain ⟨c, a, rfl, st⟩ := ctlOpt_step h1
      have d := ctlOpts_done r s1 s' h
      refine ⟨by simp [d.good], ?_, ?_, ?_, ?_, ?_, ?_, ?_, ?_, ?_⟩
      · rw [d.sel, st.sel, selected]
        split <;> rfl
      · intro n v hv
        obtain ⟨v1, h2, h3⟩ := st.srv n v hv
        obtain ⟨v', h4, h5⟩ := d.srv n v1 h2
        refine ⟨v', h4, ?_⟩
        rw [st.sel] at h5
        rw [givenFor]
        by_cases hS : c = ch%'S'
        · rw [if_pos hS] at h5 ⊢
          rw [if_neg (fun h => h.1 hS)] at h3
          subst h3
          exact h5
        · rw [if_neg hS] at h5 ⊢
          by_cases hn : s.sel = n
          · rw [if_pos ⟨hS, hn⟩] at h3
            rw [if_pos hn]
            exact optsGive_cons h3 h5
          · rw [if_neg (fun h => hn h.2)] at h3
            rw [if_neg hn]
            subst h3
            exact h5
      · exact fun n hn => d.new n (st.new n hn)
      · intro hs
        apply d.selFound
        rw [st.sel]
        by_cases hS : c = ch%'S'
        · rw [if_pos hS]; exact st.found hS
        · rw [if_neg hS]
          obtain ⟨v, hv⟩ := Option.isSome_iff_exists.mp hs
          obtain ⟨v1, h2, -⟩ := st.srv _ v hv
          rw [h2]; rfl
      · rw [d.conf, st.conf, ← getD_or, ← lastArg_cons]
      · rw [d.tfile, st.tfile, ← getD_or, ← lastArg_cons]
      · rw [d.tname, st.tname, ← getD_or, ← lastArg_cons]
      · rw [d.indent, st.indent, ← or_step, ← lastArg_cons]
      · rw [d.json, st.json, Bool.or_assoc]
        congr 1
        by_cases hj : c = ch%'j' ∧ a = none
        · obtain ⟨rfl, rfl⟩ := hj; simp
        · have : ¬ OptItem.opt ch%'j' none = OptItem.opt c a := by
            intro e; injection e with e1 e2; exact hj ⟨e1.symm, e2.symm⟩
          simp [hj, this]

/-! ### The configuration -/

/-- What the statements of a section make of a server -/
def StmtsGive (S : List (Bytes × List Tok)) (v v' : CtlSrv) : Prop :=
  v'.url = (lastStmt b!"URL" S).or v.url ∧
  v'.cert = (lastStmt b!"ClientCert" S).or v.cert ∧
  v'.caPath = (lastStmt b!"CAPath" S).or v.caPath ∧
  v'.caFile = (lastStmt b!"CAFile" S).or v.caFile ∧
  v'.verify = (match lastStmt b!"Verify" S with | some w => decide (w ∈ yesWords) | none => v.verify)

/-- Verify has a boolean argument. -/
def BoolStmts (evs : List Ev) : Prop := ∀ ctx name t, .stmt ctx name [t] ∈ evs → ciEq b!"Verify" name = true → boolTok t = true

theorem boolTok_yes {t : Tok} (h : boolTok t = true) : assignBool t = .ok (some true) ↔ t.text ∈ yesWords := by
  unfold boolTok at h
  unfold assignBool withTok at h ⊢
  cases he : expectTok isUnqTok t with
  | ub => rw [he] at h; cases h
  | ok o =>
    cases o with
    | none => rw [he] at h; cases h
    | some u =>
      rw [he] at h
      dsimp only at h ⊢
      have hu : u = t := by
        unfold expectTok at he
        repeat' split at he
        all_goals first | cases he; done | (injection he with he; injection he with he; exact he.symm)
      subst hu
      unfold yesWords
      split
      · rename_i hy; simpa using hy
      · rename_i hy
        split <;> simpa using hy

theorem lastStmt_one (kw name : Bytes) (t : Tok) (S : List (Bytes × List Tok)) :
    lastStmt kw ((name, [t]) :: S) = (lastStmt kw S).or (if ciEq kw name = true then some t.text else none) := rfl

theorem kw_excl {k1 k2 name : Bytes} (h : ciEq k1 k2 = false) (h1 : ciEq k1 name = true) : ciEq k2 name = false := by
  cases h2 : ciEq k2 name with
  | false => rfl
  | true => rw [ciEq_trans h1 (ciEq_symm h2)] at h; cases h

theorem stmtsGive_cons {name : Bytes} {t : Tok} {S : List (Bytes × List Tok)} {v v' : CtlSrv}
    (hb : ciEq b!"Verify" name = true → boolTok t = true) (h : StmtsGive S (srvStmt name t v) v') : StmtsGive ((name, [t]) :: S) v v' := by
  obtain ⟨b1, b2, b3, b4, b5⟩ := h
  unfold StmtsGive
  simp only [lastStmt_one, or_step]
  by_cases h1 : ciEq b!"URL" name = true
  · have e2 := kw_excl (k2 := b!"CAFile") (by decide) h1
    have e3 := kw_excl (k2 := b!"CAPath") (by decide) h1
    have e4 := kw_excl (k2 := b!"ClientCert") (by decide) h1
    have e5 := kw_excl (k2 := b!"Verify") (by decide) h1
    have e : srvStmt name t v = { v with url := some t.text } := by unfold srvStmt; rw [if_pos h1]
    rw [e] at b1 b2 b3 b4 b5
    rw [h1, e2, e3, e4, e5]
    exact ⟨b1, b2, b3, b4, by rw [b5]; cases lastStmt b!"Verify" S <;> rfl⟩
  by_cases h2 : ciEq b!"CAFile" name = true
  · have e3 := kw_excl (k2 := b!"CAPath") (by decide) h2
    have e4 := kw_excl (k2 := b!"ClientCert") (by decide) h2
    have e5 := kw_excl (k2 := b!"Verify") (by decide) h2
    have e : srvStmt name t v = { v with caFile := some t.text } := by unfold srvStmt; rw [if_neg h1, if_pos h2]
    rw [e] at b1 b2 b3 b4 b5
    rw [Bool.not_eq_true] at h1
    rw [h1, h2, e3, e4, e5]
    exact ⟨b1, b2, b3, b4, by rw [b5]; cases lastStmt b!"Verify" S <;> rfl⟩
  by_cases h3 : ciEq b!"CAPath" name = true
  · have e4 := kw_excl (k2 := b!"ClientCert") (by decide) h3
    have e5 := kw_excl (k2 := b!"Verify") (by decide) h3
    have e : srvStmt name t v = { v with caPath := some t.text } := by unfold srvStmt; rw [if_neg h1, if_neg h2, if_pos h3]
    rw [e] at b1 b2 b3 b4 b5
    rw [Bool.not_eq_true] at h1 h2
    rw [h1, h2, h3, e4, e5]
    exact ⟨b1, b2, b3, b4, by rw [b5]; cases lastStmt b!"Verify" S <;> rfl⟩
  by_cases h4 : ciEq b!"ClientCert" name = true
  · have e5 := kw_excl (k2 := b!"Verify") (by decide) h4
    have e : srvStmt name t v = { v with cert := some t.text } := by unfold srvStmt; rw [if_neg h1, if_neg h2, if_neg h3, if_pos h4]
    rw [e] at b1 b2 b3 b4 b5
    rw [Bool.not_eq_true] at h1 h2 h3
    rw [h1, h2, h3, h4, e5]
    exact ⟨b1, b2, b3, b4, by rw [b5]; cases lastStmt b!"Verify" S <;> rfl⟩
  by_cases h5 : ciEq b!"Verify" name = true
  · have e : srvStmt name t v = { v with verify := assignBool t = .ok (some true) } := by
      unfold srvStmt; rw [if_neg h1, if_neg h2, if_neg h3, if_neg h4, if_pos h5]
    rw [e] at b1 b2 b3 b4 b5
    rw [Bool.not_eq_true] at h1 h2 h3 h4
    rw [h1, h2, h3, h4, h5]
    refine ⟨b1, b2, b3, b4, ?_⟩
    rw [b5]
    cases lastStmt b!"Verify" S with
    | some w => rfl
    | none =>
      dsimp only [Option.none_or, if_true]
      exact decide_eq_decide.mpr (boolTok_yes (hb h5))
  · have e : srvStmt name t v = v := by unfold srvStmt; rw [if_neg h1, if_neg h2, if_neg h3, if_neg h4, if_neg h5]
    rw [e] at b1 b2 b3 b4 b5
    rw [Bool.not_eq_true] at h1 h2 h3 h4 h5
    rw [h1, h2, h3, h4, h5]
    exact ⟨b1, b2, b3, b4, by rw [b5]; cases lastStmt b!"Verify" S <;> rfl⟩

theorem stmtsGive_nil (v : CtlSrv) : StmtsGive [] v v := ⟨rfl, rfl, rfl, rfl, rfl⟩

theorem get_tmplStmt (name : Bytes) (t : Tok) (c : CtlCfg) (n : Option Bytes) : (tmplStmt name t c).get n = c.get n := by
  unfold tmplStmt
  repeat' split
  all_goals cases n <;> rfl

theorem get_snoc (c : CtlCfg) (m : Bytes) (v : CtlSrv) (n : Option Bytes) (h : c.get (some m) = none) :
    CtlCfg.get { c with servers := c.servers ++ [(m, v)] } n = if n = some m then some v else c.get n := by
  cases n with
  | none => simp [CtlCfg.get]
  | some n =>
    unfold CtlCfg.get at h ⊢
    dsimp only at h ⊢
    rw [List.find?_append]
    by_cases hn : n = m
    · subst hn
      rw [Option.map_eq_none_iff] at h
      rw [h, if_pos rfl]
      simp
    · rw [if_neg (by simpa using hn)]
      have : (m == n) = false := by simpa using Ne.symm hn
      simp [List.find?_cons, this]

/-- The settings outside sections that are about templates -/
def topTmpl (kw : Bytes) (S : List (Bytes × List Tok)) (d : Bytes) : Bytes := (lastStmt kw S).getD d

/-- What a file makes of the settings -/
structure EvsDone (evs : List Ev) (c : CtlCfg) (cur : Option Bytes) (c' : CtlCfg) : Prop where
  srv : ∀ n v, c.get n = some v → ∃ v', c'.get n = some v' ∧ StmtsGive (sectStmts n cur evs) v v'
  fresh : ∀ n, c.get (some n) = none →
    (timesOpened n evs = 0 ∧ c'.get (some n) = none) ∨ (timesOpened n evs = 1 ∧ ∃ v', c'.get (some n) = some v' ∧ StmtsGive (sectStmts (some n) cur evs) { } v')
  old : ∀ n, (c.get (some n)).isSome → timesOpened n evs = 0

theorem ctlEvs_done : ∀ (evs : List Ev) (c c' : CtlCfg) (cur : Option Bytes), BoolStmts evs → (c.get cur).isSome → ctlEvs c cur evs = some c' → EvsDone evs c cur c'
  | [], c, c', cur, _, _, h => by
    cases h
    exact ⟨fun n v hv => ⟨v, hv, stmtsGive_nil v⟩, fun n hn => Or.inl ⟨rfl, hn⟩, fun _ _ => rfl⟩
  | e :: r, c, c', cur, hb, hcur, h => by
    have hbr : BoolStmts r := fun ctx name t ht => hb ctx name t (List.mem_cons_of_mem _ ht)
    unfold ctlEvs at h
    cases he : ctlEv c cur e with
    | none => rw [he] at h; cases h
    | some p =>
      obtain ⟨c1, cur1⟩ := p
      rw [he] at h
      dsimp only at h
      unfold ctlEv at he
      split at he
      · -- a statement
        rename_i ctx name t
        injection he with he
        obtain ⟨hc1, rfl⟩ := Prod.mk.inj he
        have hg : ∀ n, c1.get n = if cur = n then (c.get n).map (srvStmt name t) else c.get n := by
          intro n
          rw [← hc1, get_mod]
          split <;> split <;> first | rw [get_tmplStmt] | rfl
        have hsome : ∀ n, (c1.get n).isSome = (c.get n).isSome := by
          intro n; rw [hg]; split
          · simp
          · rfl
        have d := ctlEvs_done r c1 c' cur hbr (by rw [hsome]; exact hcur) h
        refine ⟨?_, ?_, ?_⟩
        · intro n v hv
          rw [sectStmts]
          by_cases hn : cur = n
          · rw [if_pos hn]
            have h1 := hg n
            rw [if_pos hn, hv] at h1
            obtain ⟨v', h2, h3⟩ := d.srv n _ h1
            exact ⟨v', h2, stmtsGive_cons (hb ctx name t List.mem_cons_self) h3⟩
          · rw [if_neg hn]
            have h1 := hg n
            rw [if_neg hn, hv] at h1
            exact d.srv n v h1
        · intro n hn
          have hne : cur ≠ some n := by
            intro e; rw [e, hn] at hcur; cases hcur
          have h1 := hg (some n)
          rw [if_neg hne, hn] at h1
          rw [sectStmts, if_neg hne, timesOpened]
          · exact d.fresh n h1
          · intro _ _ _ e; cases e
        · intro n hn
          rw [timesOpened]
          · exact d.old n (by rw [hsome]; exact hn)
          · intro _ _ _ e; cases e
      · -- a section begins
        rename_i ctx name t
        split at he
        · cases he
        · rename_i hno
          injection he with he
          obtain ⟨hc1, rfl⟩ := Prod.mk.inj he
          have hnone : c.get (some t.text) = none := by simpa using hno
          have hg : ∀ n, c1.get n = if n = some t.text then some { } else c.get n := by
            intro n; rw [← hc1]; exact get_snoc c _ _ n hnone
          have d := ctlEvs_done r c1 c' (some t.text) hbr (by rw [hg, if_pos rfl]; rfl) h
          refine ⟨?_, ?_, ?_⟩
          · intro n v hv
            have hne : n ≠ some t.text := by rintro rfl; rw [hnone] at hv; cases hv
            have h1 := hg n
            rw [if_neg hne, hv] at h1
            exact d.srv n v h1
          · intro n hn
            have h1 := hg (some n)
            by_cases hnt : n = t.text
            · subst hnt
              rw [if_pos rfl] at h1
              right
              refine ⟨?_, ?_⟩
              · rw [timesOpened, if_pos rfl, d.old _ (by rw [h1]; rfl)]
              · exact d.srv _ _ h1
            · rw [if_neg (by simpa using hnt), hn] at h1
              rw [timesOpened, if_neg (fun e => hnt e.symm), Nat.zero_add]
              exact d.fresh n h1
          · intro n hn
            have hnt : n ≠ t.text := by rintro rfl; rw [hnone] at hn; cases hn
            rw [timesOpened, if_neg (fun e => hnt e.symm), Nat.zero_add]
            apply d.old
            rw [hg, if_neg (by simpa using hnt)]
            exact hn
      · -- a section ends
        injection he with he
        obtain ⟨rfl, rfl⟩ := Prod.mk.inj he
        have d := ctlEvs_done r c c' none hbr rfl h
        exact ⟨d.srv, d.fresh, d.old⟩
      · cases he

/-- The settings about templates -/
theorem ctlEvs_tmpl : ∀ (evs : List Ev) (c c' : CtlCfg) (cur : Option Bytes), ctlEvs c cur evs = some c' →
    c'.tmplFile = (lastStmt b!"TemplateFile" (sectStmts none cur evs)).getD c.tmplFile ∧
    c'.tmplName = (lastStmt b!"TemplateName" (sectStmts none cur evs)).getD c.tmplName
  | [], c, c', cur, h => by cases h; exact ⟨rfl, rfl⟩
  | e :: r, c, c', cur, h => by
    unfold ctlEvs at h
    cases he : ctlEv c cur e with
    | none => rw [he] at h; cases h
    | some p =>
      obtain ⟨c1, cur1⟩ := p
      rw [he] at h
      dsimp only at h
      have ih := ctlEvs_tmpl r c1 c' cur1 h
      unfold ctlEv at he
      split at he
      · rename_i ctx name t
        injection he with he
        obtain ⟨hc1, rfl⟩ := Prod.mk.inj he
        rw [sectStmts]
        by_cases hn : cur = none
        · rw [if_pos hn] at hc1 ⊢
          rw [lastStmt_one, lastStmt_one, getD_or, getD_or, ih.1, ih.2, ← hc1]
          rw [(mod_fields _ _ _).1, (mod_fields _ _ _).2.1]
          unfold tmplStmt
          by_cases h1 : ciEq b!"TemplateFile" name = true
          · rw [if_pos h1, kw_excl (k2 := b!"TemplateName") (by decide) h1, h1]; exact ⟨rfl, rfl⟩
          · rw [if_neg h1]
            by_cases h2 : ciEq b!"TemplatePath" name = true
            · rw [if_pos h2, kw_excl (k2 := b!"TemplateName") (by decide) h2, kw_excl (k2 := b!"TemplateFile") (by decide) h2]; exact ⟨rfl, rfl⟩
            · rw [if_neg h2]
              rw [Bool.not_eq_true] at h1
              by_cases h3 : ciEq b!"TemplateName" name = true
              · rw [if_pos h3, h1, h3]; exact ⟨rfl, rfl⟩
              · rw [if_neg h3]
                rw [Bool.not_eq_true] at h3
                rw [h1, h3]; exact ⟨rfl, rfl⟩
        · rw [if_neg hn] at hc1 ⊢
          rw [ih.1, ih.2, ← hc1, (mod_fields _ _ _).1, (mod_fields _ _ _).2.1]
          exact ⟨rfl, rfl⟩
      · rename_i ctx name t
        split at he
        · cases he
        · injection he with he
          obtain ⟨hc1, rfl⟩ := Prod.mk.inj he
          rw [ih.1, ih.2, ← hc1]
          exact ⟨rfl, rfl⟩
      · injection he with he
        obtain ⟨rfl, rfl⟩ := Prod.mk.inj he
        exact ih
      · cases he

theorem verify_kind {ctx : Nat} {name : Bytes} {ps : List (Tok → Bool)} (h : ctlGram ctx name = some (.simple ps)) (hv : ciEq b!"Verify" name = true) :
    ps = [boolTok] := by
  have n1 := kw_excl (k2 := b!"URL") (by decide) hv
  have n2 := kw_excl (k2 := b!"CAFile") (by decide) hv
  have n3 := kw_excl (k2 := b!"CAPath") (by decide) hv
  have n4 := kw_excl (k2 := b!"ClientCert") (by decide) hv
  have n5 := kw_excl (k2 := b!"End") (by decide) hv
  unfold ctlGram ctlKindOf at h
  split at h
  · simp [ctlTopTab, List.find?_cons, n1, n2, n3, n4, hv] at h
    exact h.symm
  · simp [serverTab, List.find?_cons, n1, n2, n3, n4, n5, hv] at h
    exact h.symm

theorem boolStmts_of {ctx : Nat} {ts : List Tok} {evs : List Ev} {k : Nat} (h : Stmts ctlGram ctx ts evs k) : BoolStmts evs := by
  induction h with
  | nil => intro _ _ _ h; cases h
  | blank _ ih => exact ih
  | stmt hg ha _ ih =>
    intro ctx name t hm hv
    rcases List.mem_cons.mp hm with e | hm
    · injection e with e1 e2 e3
      subst e1 e2 e3
      rw [verify_kind hg hv] at ha
      cases ha with
      | cons h _ _ _ _ => exact h
    · exact ih ctx name t hm hv
  | sect _ _ _ _ _ ih1 ih2 =>
    intro ctx name t hm hv
    rcases List.mem_cons.mp hm with e | hm
    · cases e
    · rcases List.mem_append.mp hm with hm | hm
      · exact ih1 ctx name t hm hv
      · rcases List.mem_cons.mp hm with e | hm
        · cases e
        · exact ih2 ctx name t hm hv
  | junk _ _ _ _ _ ih => exact ih

/-! ### The search path -/

theorem tw_self_iff {p : UInt8 → Bool} : ∀ {l : Bytes}, l.takeWhile p = l ↔ ∀ x ∈ l, p x = true
  | [] => by simp
  | x :: l => by
    rw [List.takeWhile_cons]
    by_cases hx : p x = true
    · rw [if_pos hx, List.cons.injEq, tw_self_iff (l := l)]
      simp [hx]
    · rw [if_neg hx]
      simp [hx]

theorem tw_mem {p : UInt8 → Bool} : ∀ {l : Bytes} {x : UInt8}, x ∈ l.takeWhile p → p x = true
  | [], _, h => by simp at h
  | y :: l, x, h => by
    rw [List.takeWhile_cons] at h
    by_cases hy : p y = true
    · rw [if_pos hy] at h
      rcases List.mem_cons.mp h with rfl | h
      · exact hy
      · exact tw_mem h
    · rw [if_neg hy] at h; cases h

theorem expands_elem (home : Bytes) (el : Bytes) : PathExpands home el (tmplElem home el) := by
  unfold tmplElem
  split
  · rename_i r
    by_cases hr : r.head? = some ch%'/'
    · rw [if_pos hr]
      cases r with
      | nil => cases hr
      | cons x r =>
        have : x = ch%'/' := by simpa using hr
        subst this
        rw [List.append_nil]
        exact .slash
    · rw [if_neg hr, List.append_assoc]
      exact .name hr
  · rename_i h
    refine .plain ?_
    intro hh
    cases el with
    | nil => cases hh
    | cons x r =>
      have : x = 126 := by simpa using hh
      subst this
      exact h r rfl

theorem expands_fun {home el f : Bytes} (h : PathExpands home el f) : f = tmplElem home el := by
  cases h with
  | plain h =>
    unfold tmplElem
    split
    · simp at h
    · rfl
  | slash => simp [tmplElem]
  | name h =>
    simp [tmplElem, h]

theorem tmplTry_iff (fs : Bytes → CtlNode) (home name el f : Bytes) (x : CtlNode) :
    (if el = [] then none else tmplTry fs home name el) = some (f, x) ↔ Provides fs home name el f x := by
  by_cases hel : el = []
  · rw [if_pos hel]
    constructor
    · intro h; cases h
    · intro h
      cases h with
      | file h _ _ => exact absurd hel h
      | dir h _ _ _ _ _ => exact absurd hel h
  rw [if_neg hel]
  unfold tmplTry
  constructor
  · intro h
    dsimp only at h
    split at h
    · rename_i t hf
      injection h with h
      obtain ⟨rfl, rfl⟩ := Prod.mk.inj h
      exact .file hel (expands_elem home el) hf
    · rename_i hf
      split at h
      · cases h
      · cases h
      · rename_i n1 n2
        injection h with h
        obtain ⟨rfl, rfl⟩ := Prod.mk.inj h
        exact .dir hel (expands_elem home el) hf rfl n1 n2
    · cases h
  · intro h
    cases h with
    | file _ he hf =>
      rw [expands_fun he] at hf ⊢
      dsimp only
      rw [hf]
    | dir _ he hf hx n1 n2 =>
      rw [expands_fun he] at hf hx ⊢
      dsimp only
      rw [hf]
      dsimp only
      split
      · rename_i e; rw [hx] at e; exact absurd e n1
      · rename_i e; rw [hx] at e; exact absurd e n2
      · rw [hx]

theorem elements_cons {path : Bytes} (els : List Bytes) (el : Bytes) (h : Elements path (el :: els)) :
    path.takeWhile (· != ch%':') = el ∧
    ((els = [] ∧ path.drop el.length = []) ∨ (els ≠ [] ∧ ∃ rest, path.drop el.length = ch%':' :: rest ∧ Elements rest els)) := by
  obtain ⟨-, hp, hc⟩ := h
  have hel : ∀ c ∈ el, (c != ch%':') = true := by
    intro c hc'
    have := hc el List.mem_cons_self
    simp
    rintro rfl
    exact this hc'
  cases els with
  | nil =>
    have e : path = el := by rw [← hp]; simp [List.intercalate]
    rw [e]
    exact ⟨tw_self_iff.mpr hel, Or.inl ⟨rfl, by simp⟩⟩
  | cons e2 es =>
    have e : path = el ++ ch%':' :: List.intercalate [ch%':'] (e2 :: es) := by
      rw [← hp]; simp [List.intercalate]
    rw [e]
    refine ⟨?_, Or.inr ⟨by simp, List.intercalate [ch%':'] (e2 :: es), by simp, by simp, rfl, fun x hx => hc x (List.mem_cons_of_mem _ hx)⟩⟩
    rw [List.takeWhile_append_of_pos hel]
    simp

theorem elements_exist : ∀ (k : Nat) (path : Bytes), path.length ≤ k → ∃ els, Elements path els
  | k, path, hk => by
    by_cases hc : ch%':' ∈ path
    · have h1 := List.takeWhile_append_dropWhile (p := (· != ch%':')) (l := path)
      cases hd : path.dropWhile (· != ch%':') with
      | nil =>
        exfalso
        rw [hd, List.append_nil] at h1
        have := tw_self_iff.mp h1 _ hc
        simp at this
      | cons x rest =>
        have hx : x = ch%':' := by
          have := List.head?_dropWhile_not (p := (· != ch%':')) path
          rw [hd] at this
          simpa using this
        subst hx
        rw [hd] at h1
        cases k with
        | zero => have := congrArg List.length h1; simp at this; omega
        | succ k =>
          obtain ⟨els, h2, h3, h4⟩ := elements_exist k rest (by have := congrArg List.length h1; simp at this; omega)
          refine ⟨path.takeWhile (· != ch%':') :: els, by simp, ?_, ?_⟩
          · cases els with
            | nil => exact absurd rfl h2
            | cons e es =>
              have e' : List.intercalate [ch%':'] (path.takeWhile (· != ch%':') :: e :: es) =
                  path.takeWhile (· != ch%':') ++ ch%':' :: List.intercalate [ch%':'] (e :: es) := by simp [List.intercalate]
              rw [e', h3, h1]
          · intro e he
            rcases List.mem_cons.mp he with rfl | he
            · intro hm
              have := tw_mem hm
              simp at this
            · exact h4 e he
    · exact ⟨[path], by simp, by simp [List.intercalate], by simpa using hc⟩

theorem tmplSearch_elems (fs : Bytes → CtlNode) (home name : Bytes) : ∀ (els : List Bytes) (path : Bytes) (fuel : Nat), Elements path els → path.length < fuel →
    tmplSearch fs home name fuel path = els.findSome? fun el => if el = [] then none else tmplTry fs home name el
  | [], path, fuel, h, _ => absurd rfl h.1
  | el :: els, path, 0, h, hf => by omega
  | el :: els, path, fuel + 1, h, hf => by
    obtain ⟨h1, h2⟩ := elements_cons els el h
    unfold tmplSearch
    by_cases hp : path = []
    · subst hp
      rw [if_pos rfl]
      have : el = [] := by rw [← h1]; rfl
      subst this
      rcases h2 with ⟨rfl, -⟩ | ⟨-, rest, h3, -⟩
      · simp
      · simp at h3
    · rw [if_neg hp]
      dsimp only
      rw [h1, List.findSome?_cons]
      cases ht : (if el = [] then none else tmplTry fs home name el) with
      | some r => rfl
      | none =>
        dsimp only
        rcases h2 with ⟨rfl, h3⟩ | ⟨hne, rest, h3, h4⟩
        · rw [h3]
          cases fuel with
          | zero => rfl
          | succ f => simp [tmplSearch]
        · rw [h3]
          have hl : rest.length < fuel := by
            have := congrArg List.length h3
            simp at this
            omega
          exact tmplSearch_elems fs home name els rest fuel h4 hl

theorem tmplSearch_first (fs : Bytes → CtlNode) (home name path f : Bytes) (x : CtlNode) :
    tmplSearch fs home name (path.length + 1) path = some (f, x) ↔ FirstFile fs home path name f x := by
  constructor
  · intro h
    obtain ⟨els, he⟩ := elements_exist _ path (Nat.le_refl _)
    rw [tmplSearch_elems fs home name els path _ he (Nat.lt_succ_self _)] at h
    obtain ⟨pre, el, post, h1, h2, h3⟩ := List.findSome?_eq_some_iff.mp h
    refine ⟨els, pre, el, post, he, h1, (tmplTry_iff fs home name el f x).mp h2, ?_⟩
    intro e hm g y hg
    have := h3 e hm
    rw [(tmplTry_iff fs home name e g y).mpr hg] at this
    cases this
  · rintro ⟨els, pre, el, post, he, h1, h2, h3⟩
    rw [tmplSearch_elems fs home name els path _ he (Nat.lt_succ_self _)]
    apply List.findSome?_eq_some_iff.mpr
    refine ⟨pre, el, post, h1, (tmplTry_iff fs home name el f x).mpr h2, ?_⟩
    intro e hm
    cases ht : (if e = [] then none else tmplTry fs home name e) with
    | none => rfl
    | some r => exact absurd ((tmplTry_iff fs home name e r.1 r.2).mp ht) (h3 e hm r.1 r.2)

end Pound
