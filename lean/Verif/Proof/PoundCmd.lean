import Verif.Spec.PoundCmd
import Verif.Proof.CtlMain

/-! Proofs about the command line of pound. -/

namespace Pound
open Spec

theorem featureLoop_go {isDir : Bytes → Option Bool} {f f' : Features} {en : Bool} {name : Bytes} {val : Option Bytes}
    (h : featureLoop isDir f en name val = .go f') :
    (name = b!"dns" ∧ val = none ∧ f' = { f with dns := featVal en }) ∨
    (name = b!"warn-deprecated" ∧ val = none ∧ f' = { f with warn := featVal en }) ∨
    (name = b!"include-dir" ∧ en = false ∧ f' = { f with dir := none, incl := 0 }) ∨
    (name = b!"include-dir" ∧ en = true ∧ ∃ v, val = some v ∧
      (((v = [] ∨ v = b!".") ∧ f' = { f with dir := none, incl := 1 }) ∨
       (v ≠ [] ∧ v ≠ b!"." ∧ isDir v = some true ∧ f' = { f with dir := some v, incl := 1 }))) := by
  unfold featureLoop at h
  split at h
  · rename_i hn
    cases val with
    | none => left; injection h with h; exact ⟨hn, rfl, h.symm⟩
    | some v => cases h
  · split at h
    · rename_i hn
      cases en with
      | false =>
        right; right; left
        unfold setIncludeDir at h
        simp only [Bool.false_eq_true, if_false, featVal] at h
        injection h with h
        exact ⟨hn, rfl, h.symm⟩
      | true =>
        right; right; right
        refine ⟨hn, rfl, ?_⟩
        unfold setIncludeDir at h
        simp only [if_true] at h
        cases val with
        | none => cases h
        | some v =>
          refine ⟨v, rfl, ?_⟩
          dsimp only at h
          by_cases hv : v = [] ∨ v = b!"."
          · rw [if_pos hv] at h
            left
            injection h with h
            exact ⟨hv, h.symm⟩
          · rw [if_neg hv] at h
            right
            cases hd : isDir v with
            | none => rw [hd] at h; cases h
            | some b =>
              cases b with
              | false => rw [hd] at h; cases h
              | true =>
                rw [hd] at h
                injection h with h
                exact ⟨fun e => hv (Or.inl e), fun e => hv (Or.inr e), rfl, h.symm⟩
    · split at h
      · rename_i hn
        cases val with
        | none => right; left; injection h with h; exact ⟨hn, rfl, h.symm⟩
        | some v => cases h
      · cases h

theorem tw_eq_split (arg : Bytes) : arg = arg.takeWhile (· != ch%'=') ++ arg.drop (arg.takeWhile (· != ch%'=')).length := by
  have : ∀ (p : UInt8 → Bool) (l : Bytes), l = l.takeWhile p ++ l.drop (l.takeWhile p).length := by
    intro p l
    induction l with
    | nil => rfl
    | cons x l ih =>
      rw [List.takeWhile_cons]
      split
      · simp; exact ih
      · simp
  exact this _ arg

theorem featureSet_sound {isDir : Bytes → Option Bool} {f f' : Features} {arg : Bytes} (h : featureSet isDir f arg = .go f') :
    ∃ g, FeatureArg isDir arg g ∧ f' = g f := by
  have hs := tw_eq_split arg
  unfold featureSet at h
  dsimp only at h
  revert hs h
  generalize hn : arg.takeWhile (· != ch%'=') = name
  have hno : ch%'=' ∉ name := by
    rw [← hn]; intro hm; have := tw_mem hm; simp at this
  have hhead : ∀ c r, arg.drop name.length = c :: r → c = ch%'=' := by
    intro c r hc
    rw [← hn] at hc
    have : ∀ (l : Bytes) (c : UInt8) (r : Bytes), l.drop (l.takeWhile (· != ch%'=')).length = c :: r → c = ch%'=' := by
      intro l
      induction l with
      | nil => intro c r h; simp at h
      | cons x l ih =>
        intro c r h
        rw [List.takeWhile_cons] at h
        split at h
        · simp at h; exact ih c r h
        · rename_i hx; simp at h hx; rw [← h.1]; exact hx
    exact this arg c r hc
  intro h hs
  cases hd : arg.drop name.length with
  | cons c val =>
    have hc := hhead c val hd
    subst hc
    rw [hd] at h hs
    dsimp only at h
    rcases featureLoop_go h with ⟨-, e, -⟩ | ⟨-, e, -⟩ | ⟨-, e, -⟩ | ⟨rfl, -, v, e, hh⟩
    · cases e
    · cases e
    · cases e
    · injection e with e
      subst e
      rcases hh with ⟨rfl | rfl, rfl⟩ | ⟨h1, h2, h3, rfl⟩
      · exact ⟨_, by rw [hs]; exact .cwd', rfl⟩
      · exact ⟨_, by rw [hs]; exact .cwd, rfl⟩
      · exact ⟨_, by rw [hs]; exact .dir h1 h2 h3, rfl⟩
  | nil =>
    rw [hd] at h hs
    rw [List.append_nil] at hs
    subst hs
    dsimp only at h
    split at h
    · rename_i ht
      split at h
      · cases h
      · have hname : arg = b!"no-" ++ arg.drop 3 := by rw [← ht, List.take_append_drop]
        rcases featureLoop_go h with ⟨e, -, rfl⟩ | ⟨e, -, rfl⟩ | ⟨e, -, rfl⟩ | ⟨-, e, -⟩
        · exact ⟨_, by rw [hname, e]; exact .noDns, rfl⟩
        · exact ⟨_, by rw [hname, e]; exact .noWarn, rfl⟩
        · exact ⟨_, by rw [hname, e]; exact .noDir, rfl⟩
        · cases e
    · split at h
      · cases h
      · rcases featureLoop_go h with ⟨rfl, -, rfl⟩ | ⟨rfl, -, rfl⟩ | ⟨-, e, -⟩ | ⟨-, -, v, e, -⟩
        · exact ⟨_, .dns, rfl⟩
        · exact ⟨_, .warn, rfl⟩
        · cases e
        · cases e

theorem featureSet_complete {isDir : Bytes → Option Bool} {arg : Bytes} {g : Features → Features} (h : FeatureArg isDir arg g) (f : Features) :
    featureSet isDir f arg = .go (g f) := by
  cases h with
  | dir h1 h2 h3 =>
    rename_i d
    have e1 : (b!"include-dir=" ++ d).takeWhile (· != ch%'=') = b!"include-dir" := by simp
    unfold featureSet
    rw [e1]
    have e2 : (b!"include-dir=" ++ d).drop (b!"include-dir").length = ch%'=' :: d := by simp
    dsimp only
    rw [e2]
    dsimp only
    unfold featureLoop setIncludeDir
    rw [if_neg (by decide), if_pos rfl]
    simp [h1, h2, h3, featVal]
  | _ => rfl

/-- Options as getopt delivers them -/
def SpecOpts (os : List OptItem) : Prop := ∀ o ∈ os, ∃ c a, o = .opt c a ∧ poundOptSpec c = some a.isSome

/-- What is stored -/
def optTo (s : PoundOptSt) (os : List OptItem) (f : Features) : PoundOptSt where
  check := s.check || decide (.opt ch%'c' none ∈ os)
  conf := (lastArg ch%'f' (fun _ => true) os).getD s.conf
  pid := (lastArg ch%'p' (fun _ => true) os).or s.pid
  fg := s.fg || decide (.opt ch%'e' none ∈ os) || decide (.opt ch%'F' none ∈ os)
  stderr := s.stderr || decide (.opt ch%'e' none ∈ os)
  printLog := s.printLog || decide (.opt ch%'v' none ∈ os)
  feat := f

theorem featureArgs_cons {isDir : Bytes → Option Bool} {c : UInt8} {a : Option Bytes} {r : List OptItem} {f f' : Features} (hc : c ≠ ch%'W') :
    FeatureArgs isDir (.opt c a :: r) f f' ↔ FeatureArgs isDir r f f' := by
  constructor
  · intro h
    cases h with
    | set _ _ => exact absurd rfl hc
    | other _ h => exact h
  · exact .other hc

theorem featureArg_fun {isDir : Bytes → Option Bool} {a : Bytes} {g g' : Features → Features} (h : FeatureArg isDir a g) (h' : FeatureArg isDir a g') (f : Features) :
    g f = g' f := by
  have := featureSet_complete h f
  rw [featureSet_complete h' f] at this
  injection this with this
  exact this.symm

theorem mem_opt_ne {c d : UInt8} {a : Option Bytes} {r : List OptItem} (h : c ≠ d) : OptItem.opt d none ∈ OptItem.opt c a :: r ↔ OptItem.opt d none ∈ r := by
  simp only [List.mem_cons, OptItem.opt.injEq, or_iff_right_iff_imp]
  rintro ⟨e, -⟩
  exact absurd e.symm h

theorem poundOpts_iff {isDir : Bytes → Option Bool} : ∀ (os : List OptItem) (s s' : PoundOptSt), SpecOpts os →
    (poundOpts isDir s os = .go s' ↔ .opt ch%'h' none ∉ os ∧ .opt ch%'V' none ∉ os ∧ ∃ f, FeatureArgs isDir os s.feat f ∧ s' = optTo s os f)
  | [], s, s', _ => by
    constructor
    · intro h
      injection h with h
      subst h
      refine ⟨by simp, by simp, s.feat, .nil, ?_⟩
      simp [optTo, lastArg]
    · rintro ⟨-, -, f, hf, rfl⟩
      cases hf
      simp [optTo, lastArg, poundOpts]
  | o :: r, s, s', hw => by
    have hr : SpecOpts r := fun x hx => hw x (List.mem_cons_of_mem _ hx)
    obtain ⟨c, a, rfl, hc⟩ := hw o List.mem_cons_self
    -- an option that is stored
    have step : ∀ s1 : PoundOptSt, poundOpt isDir s (.opt c a) = .go s1 → c ≠ ch%'h' → c ≠ ch%'V' → c ≠ ch%'W' → s1.feat = s.feat →
        (∀ f, optTo s1 r f = optTo s (.opt c a :: r) f) →
        (poundOpts isDir s (.opt c a :: r) = .go s' ↔ .opt ch%'h' none ∉ OptItem.opt c a :: r ∧ .opt ch%'V' none ∉ OptItem.opt c a :: r ∧
          ∃ f, FeatureArgs isDir (.opt c a :: r) s.feat f ∧ s' = optTo s (.opt c a :: r) f) := by
      intro s1 h1 n1 n2 n3 hf he
      unfold poundOpts
      rw [h1]
      dsimp only
      rw [poundOpts_iff r s1 s' hr, hf, mem_opt_ne n1, mem_opt_ne n2]
      constructor
      · rintro ⟨x, y, f, h, rfl⟩; exact ⟨x, y, f, (featureArgs_cons n3).mpr h, he f⟩
      · rintro ⟨x, y, f, h, rfl⟩; exact ⟨x, y, f, (featureArgs_cons n3).mp h, (he f).symm⟩
    unfold poundOptSpec at hc
    cases a with
    | some a =>
      split at hc
      · rename_i hm
        simp only [List.mem_cons, List.not_mem_nil, or_false] at hm
        rcases hm with rfl | rfl | rfl
        · refine step _ rfl (by decide) (by decide) (by decide) rfl ?_
          intro f; simp [optTo, lastArg, getD_or]
        · refine step _ rfl (by decide) (by decide) (by decide) rfl ?_
          intro f; simp [optTo, lastArg]
        · -- a feature
          unfold poundOpts
          have e : poundOpt isDir s (.opt ch%'W' (some a)) = (match featureSet isDir s.feat a with
              | .ub => .ub
              | .exit n => .exit n
              | .go f => .go { s with feat := f }) := rfl
          rw [e]
          rw [mem_opt_ne (by decide), mem_opt_ne (by decide)]
          have hne : ∀ f f1, optTo { s with feat := f1 } r f = optTo s (.opt ch%'W' (some a) :: r) f := by
            intro f f1; simp [optTo, lastArg]
          cases hf : featureSet isDir s.feat a with
          | ub =>
            constructor
            · intro h; cases h
            · rintro ⟨-, -, f, h, -⟩
              cases h with
              | set h _ => rw [featureSet_complete h] at hf; cases hf
              | other h _ => exact absurd rfl h
          | exit n =>
            constructor
            · intro h; cases h
            · rintro ⟨-, -, f, h, -⟩
              cases h with
              | set h _ => rw [featureSet_complete h] at hf; cases hf
              | other h _ => exact absurd rfl h
          | go f1 =>
            dsimp only
            rw [poundOpts_iff r _ s' hr]
            obtain ⟨g, hg, rfl⟩ := featureSet_sound hf
            constructor
            · rintro ⟨x, y, f, h, rfl⟩
              exact ⟨x, y, f, .set hg h, hne f _⟩
            · rintro ⟨x, y, f, h, rfl⟩
              cases h with
              | set h1 h2 =>
                rw [featureArg_fun h1 hg] at h2
                exact ⟨x, y, f, h2, (hne f _).symm⟩
              | other h _ => exact absurd rfl h
      · split at hc <;> cases hc
    | none =>
      split at hc
      · cases hc
      · split at hc
        · rename_i hm
          simp only [List.mem_cons, List.not_mem_nil, or_false] at hm
          have bad : ∀ n, poundOpts isDir s (.opt c none :: r) = .exit n → (c = ch%'h' ∨ c = ch%'V') →
              (poundOpts isDir s (.opt c none :: r) = .go s' ↔ .opt ch%'h' none ∉ OptItem.opt c none :: r ∧ .opt ch%'V' none ∉ OptItem.opt c none :: r ∧
                ∃ f, FeatureArgs isDir (.opt c none :: r) s.feat f ∧ s' = optTo s (.opt c none :: r) f) := by
            intro n h1 h2
            rw [h1]
            constructor
            · intro h; cases h
            · rintro ⟨x, y, -⟩
              rcases h2 with rfl | rfl
              · exact absurd List.mem_cons_self x
              · exact absurd List.mem_cons_self y
          rcases hm with rfl | rfl | rfl | rfl | rfl | rfl
          · refine step _ rfl (by decide) (by decide) (by decide) rfl ?_
            intro f; simp [optTo, lastArg]
          · refine step _ rfl (by decide) (by decide) (by decide) rfl ?_
            intro f; simp [optTo, lastArg]
          · refine step _ rfl (by decide) (by decide) (by decide) rfl ?_
            intro f; simp [optTo, lastArg]
          · exact bad 0 rfl (Or.inl rfl)
          · exact bad 0 rfl (Or.inr rfl)
          · refine step _ rfl (by decide) (by decide) (by decide) rfl ?_
            intro f; simp [optTo, lastArg]
        · cases hc

theorem cluster_spec {spec : UInt8 → Option Bool} {cs : Bytes} {os : List OptItem} {p : Option UInt8} (h : Cluster spec cs os p) :
    (∀ o ∈ os, ∃ c a, o = .opt c a ∧ spec c = some a.isSome) ∧ ∀ c, p = some c → spec c = some true := by
  induction h with
  | done => exact ⟨by simp, by simp⟩
  | flag h _ ih =>
    refine ⟨?_, ih.2⟩
    intro o ho
    rcases List.mem_cons.mp ho with rfl | ho
    · exact ⟨_, none, rfl, h⟩
    · exact ih.1 o ho
  | attached h _ =>
    refine ⟨?_, by simp⟩
    intro o ho
    have := List.mem_singleton.mp ho
    subst this
    exact ⟨_, _, rfl, h⟩
  | next h => exact ⟨by simp, by rintro _ ⟨⟩; exact h⟩

theorem cmdLine_spec {spec : UInt8 → Option Bool} {posix : Bool} {argv : List Bytes} {os : List OptItem} {args : List Bytes}
    (h : CmdLine spec posix argv os args) : ∀ o ∈ os, ∃ c a, o = .opt c a ∧ spec c = some a.isSome := by
  induction h with
  | done => simp
  | dashes => simp
  | options _ _ hc _ ih =>
    intro o ho
    rcases List.mem_append.mp ho with ho | ho
    · exact (cluster_spec hc).1 o ho
    · exact ih o ho
  | optArg _ _ hc _ ih =>
    intro o ho
    rcases List.mem_append.mp ho with ho | ho
    · exact (cluster_spec hc).1 o ho
    · rcases List.mem_cons.mp ho with rfl | ho
      · exact ⟨_, _, rfl, (cluster_spec hc).2 _ rfl⟩
      · exact ih o ho
  | operand _ _ _ ih => exact ih
  | operands _ _ => simp

end Pound
