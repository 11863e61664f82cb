import Verif.Proof.TopMeans

namespace Pound

open Spec

theorem kw_spec {ω : Type} {N : Nat} {kw : Bytes} {p : LParser ω} {stmt : List Tok → ω → ω → Prop} (hno : ∀ s x, p s ≠ .nonl x ∧ p s ≠ .fin x)
    (sound : ∀ n, ciEq kw n = true → ∀ s ts e s' r e', p ⟨s, ts, e⟩ = .ok ⟨s', r, e'⟩ → e ≤ e' ∧ (e' = e → ∃ a, ts = a ++ r ∧ stmt (.ident n :: (a ++ [.nl])) s s'))
    (complete : ∀ t s s', stmt t s s' → t.length ≤ N → ∃ n a, t = .ident n :: (a ++ [.nl]) ∧ ciEq kw n = true ∧ ∀ r e, p ⟨s, a ++ .nl :: r, e⟩ = .ok ⟨s', .nl :: r, e⟩) :
    OtherSpec N (kwStmt kw p) stmt where
  fin := by
    intro n q hq s x
    obtain ⟨_, rfl⟩ := kwStmt_some hq
    exact (hno s x).2
  ok := by
    intro n q hq s ts e s' r e' h
    obtain ⟨hk, rfl⟩ := kwStmt_some hq
    exact sound n hk _ _ _ _ _ _ h
  nonl := by
    intro n q hq s ts e s' r e' h
    obtain ⟨hk, rfl⟩ := kwStmt_some hq
    exact absurd h (hno _ _).1
  complete := by
    intro t s s' h hN
    obtain ⟨n, a, h1, h2, h3⟩ := complete t s s' h hN
    exact ⟨n, a ++ [.nl], p, h1, kwStmt_of h2, .inr ⟨a, rfl, h3⟩⟩

/-! ### Sections of settings -/

theorem sect_settings {δ σ : Type} {args : Bytes → List Tok → δ → Prop} {app : δ → σ → Option σ} {t : List Tok} {s s' : σ} (h : Sect (SetStmt args app) t s s') :
    ∃ l, Settings args t l ∧ appAll app l s = some s' := by
  induction h with
  | stop hw => exact ⟨[], .stop hw, rfl⟩
  | blank _ ih =>
    obtain ⟨l, h1, h2⟩ := ih
    exact ⟨l, .blank h1, h2⟩
  | stmt hs _ ih =>
    obtain ⟨l, h1, h2⟩ := ih
    obtain ⟨w, n, b, y, h3, h4, rfl, h5⟩ := hs
    refine ⟨y :: l, ?_, by rw [appAll, h5]; exact h2⟩
    have := SetBody.set h3 h4 h1
    simpa [Settings] using this

theorem settings_aux {δ σ : Type} {args : Bytes → List Tok → δ → Prop} {app : δ → σ → Option σ} {t : List Tok} {l : List δ} {u v : Unit}
    (h : SetBody args (fun _ (_ _ : Unit) => False) t l u v) : ∀ {s s' : σ}, appAll app l s = some s' → Sect (SetStmt args app) t s s' := by
  induction h with
  | stop hw => intro s s' hs; cases hs; exact .stop hw
  | blank _ ih => intro s s' hs; exact .blank (ih hs)
  | @set w n a t x l o o' h1 h2 _ ih =>
    intro s s' hs
    simp only [appAll, Option.bind_eq_some_iff] at hs
    obtain ⟨s1, h3, h4⟩ := hs
    have := Sect.stmt (stmt := SetStmt args app) ⟨w, n, a, x, h1, h2, rfl, h3⟩ (ih h4)
    simpa using this
  | other h1 _ _ => exact h1.elim

theorem settings_sect {δ σ : Type} {args : Bytes → List Tok → δ → Prop} {app : δ → σ → Option σ} {t : List Tok} {l : List δ} (h : Settings args t l)
    {s s' : σ} (hs : appAll app l s = some s') : Sect (SetStmt args app) t s s' := settings_aux h hs

/-! ### Backend -/

theorem namedParser_ok {e : BeEnv} {d : BeDfl} {n : Nat} (s : LSt (List NamedBe)) (x : LSt (List NamedBe)) : namedParser e d n s ≠ .nonl x ∧ namedParser e d n s ≠ .fin x := by
  unfold namedParser
  split
  · split
    · split <;> simp
    · simp
  · simp

def NamedStmt (e : BeEnv) (d : BeDfl) (t : List Tok) (tab tab' : List NamedBe) : Prop :=
  ∃ n name t' b, ciEq b!"Backend" n = true ∧ BeSection e d t' b ∧ (∀ x ∈ tab, x.name ≠ name) ∧ t = .ident n :: .string name :: (t' ++ [.nl]) ∧ tab' = ⟨name, b.prio, b.disabled, b.m⟩ :: tab

theorem named_spec (e : BeEnv) (d : BeDfl) (N : Nat) : OtherSpec N (kwStmt b!"Backend" (namedParser e d N)) (NamedStmt e d) := by
  refine kw_spec namedParser_ok ?_ ?_
  · intro n hn s ts er s' r er' h
    obtain ⟨h1, h2⟩ := (named_section e d N s ts er).1 _ _ _ h
    refine ⟨h1, fun he => ?_⟩
    obtain ⟨name, t, b, rfl, h3, h4, rfl⟩ := h2 he
    exact ⟨.string name :: t, rfl, n, name, t, b, hn, h3, h4, rfl, rfl⟩
  · rintro t s s' ⟨n, name, t', b, hn, h3, h4, rfl, rfl⟩ hN
    refine ⟨n, .string name :: t', rfl, hn, fun r er => ?_⟩
    exact (named_section e d N s _ er).2 name t' (.nl :: r) b rfl h3 h4 (by simp at hN; omega)

/-! ### Listeners -/

theorem listenParser_ok {ω : Type} {e : LstEnv} {d : LstDfl} {other : Bytes → Option (LParser ω)} {init : ω} {certs : ω → List Bytes} {tls : Bool} {n : Nat}
    (s : LSt (List (Lst ω))) (x : LSt (List (Lst ω))) : listenParser e d other init certs tls n s ≠ .nonl x ∧ listenParser e d other init certs tls n s ≠ .fin x := by
  unfold listenParser
  dsimp only
  split
  · split
    · simp
    · split
      · split <;> simp
      · simp
  · split
    · split <;> simp
    · simp

def listenKw (tls : Bool) : Bytes := if tls then b!"ListenHTTPS" else b!"ListenHTTP"

def ListenStmt (e : TopEnv) (g : Glob) (tls : Bool) (t : List Tok) (ls ls' : List TopLst) : Prop :=
  ∃ n t' x, ciEq (listenKw tls) n = true ∧ x.tls = tls ∧
    Listens { e.lst with formats := g.formats } ⟨g.client, g.logLevel, g.hdr, g.re⟩ (SvcStmt e.be ⟨g.timeOut, g.connTo, g.wsTimeOut⟩ g.algo) [] (fun _ => []) (ls.filterMap (·.name)) t' x ∧
    t = .ident n :: (t' ++ [.nl]) ∧ ls' = ls ++ [x]

theorem listen_spec (e : TopEnv) (g : Glob) (tls : Bool) (N : Nat) : OtherSpec N (kwStmt (listenKw tls) (topListen e g N tls)) (ListenStmt e g tls) := by
  refine kw_spec listenParser_ok ?_ ?_
  · intro n hn s ts er s' r er' h
    obtain ⟨h1, h2⟩ := listen_sound (svcStmt_spec e.be g.beDfl g.algo N) (fun w p => svcStmt_disj w p) h
    refine ⟨h1, fun he => ?_⟩
    obtain ⟨t, x, rfl, h3, h4, h5⟩ := h2 he
    exact ⟨t, rfl, n, t, x, hn, h4, h5, rfl, h3⟩
  · rintro t s s' ⟨n, t', x, hn, rfl, h3, rfl, rfl⟩ hN
    refine ⟨n, t', rfl, hn, fun r er => ?_⟩
    have hl : t'.length ≤ N := by simp at hN; omega
    exact listen_complete (svcStmt_spec e.be g.beDfl g.algo N) (fun _ _ _ => svcStmt_start) (fun w p => svcStmt_disj w p) h3 hl hl (.nl :: r) er

/-! ### Control -/

theorem ctlArg_sound {w : Bytes} {k : CtlKw} {ts r : List Tok} {x : CtlSet} (hw : (w, k) ∈ ctlTable) (h : ctlArg k ts = some (x, r)) :
    ∃ a, ts = a ++ (if (fun _ => false) k then .nl :: r else r) ∧ CtlArgs w a x := by
  cases k <;> simp [ctlTable] at hw <;> simp only [ctlArg] at h <;> subst hw <;> split at h <;> first
    | cases h; done
    | (obtain ⟨v, h1, h2⟩ := Option.map_eq_some_iff.mp h
       cases h2)
  · obtain ⟨rfl, h2⟩ := sockArg_some.mp h1
    exact ⟨[_], rfl, .sock h2⟩
  · exact ⟨[_], rfl, .chown (resArg_some.mp h1)⟩
  · exact ⟨[_], rfl, .mode (resArg_some.mp h1)⟩

theorem ctlArg_complete {w : Bytes} {a : List Tok} {x : CtlSet} (h : CtlArgs w a x) :
    ∃ k, (w, k) ∈ ctlTable ∧ ∀ r, ctlArg k (a ++ (if (fun _ => false) k then .nl :: r else r)) = some (x, r) := by
  cases h with
  | sock h1 => exact ⟨.sock, by decide, fun r => by simp [ctlArg, sockArg_some.mpr ⟨rfl, h1⟩]⟩
  | chown h1 => exact ⟨.chown, by decide, fun r => by simp [ctlArg, h1, resArg]⟩
  | mode h1 => exact ⟨.mode, by decide, fun r => by simp [ctlArg, h1, resArg]⟩

theorem ctl_table : SetTable ctlTable ctlArg (fun _ => false) CtlArgs where
  stop := by decide
  find := by decide
  sound := ctlArg_sound
  complete := ctlArg_complete

theorem ctl_sect (N : Nat) : StmtSpec N ctlFind (SetStmt CtlArgs ctlApply) := set_spec ctl_table ctlApply N

theorem ctl_apply_all (l : List CtlSet) : ∀ s, ∃ s', appAll ctlApply l s = some s' := by
  induction l with
  | nil => intro s; exact ⟨s, rfl⟩
  | cons x l ih =>
    intro s
    rw [appAll]
    cases x <;> simp only [ctlApply, Option.bind_some] <;> exact ih _

theorem ctl_means {l : List CtlSet} {s : CtlSt} (h : appAll ctlApply l ⟨none, false, 0o600⟩ = some s) :
    s.path = (l.filterMap ctlSock).getLast? ∧ s.chown = lastOr false (l.filterMap ctlChown) ∧ s.mode = lastOr 0o600 (l.filterMap ctlMode) := by
  refine ⟨appAll_opt (·.path) ctlSock ?_ h rfl, appAll_field (·.chown) ctlChown ?_ h, appAll_field (·.mode) ctlMode ?_ h⟩ <;>
  · intro x s s' h
    cases x <;> simp only [ctlApply, Option.some.injEq] at h <;> subst h <;> rfl

theorem ctlParser_ok {g : Glob} {n : Nat} (s x : LSt (List Ctl)) : ctlParser g n s ≠ .nonl x ∧ ctlParser g n s ≠ .fin x := by
  unfold ctlParser
  split
  · split
    · split <;> simp
    · simp
  · split <;> simp
  · simp

theorem ctl_spec (g : Glob) (N : Nat) : OtherSpec N (kwStmt b!"Control" (ctlParser g N)) (fun t l l' => ∃ c, CtlStmt g t c ∧ l' = l ++ [c]) := by
  refine kw_spec ctlParser_ok ?_ ?_
  · intro n hn s ts er s' r er' h
    unfold ctlParser at h
    dsimp only at h
    split at h
    · rename_i r1
      split at h
      · rename_i s2 hs2
        obtain ⟨st, r2, er2⟩ := s2
        dsimp only at h
        split at h
        · cases h
        · rename_i p hp
          cases h
          obtain ⟨h1, h2⟩ := sect_sound (ctl_sect N) _ _ _ _ _ _ _ hs2
          refine ⟨h1, fun he => ?_⟩
          obtain ⟨t, rfl, ht⟩ := h2 he
          obtain ⟨l, h3, h4⟩ := sect_settings ht
          obtain ⟨h5, h6, h7⟩ := ctl_means h4
          refine ⟨.nl :: t, rfl, _, ?_, rfl⟩
          rw [h6, h7]
          exact .sect hn h3 (h5 ▸ hp)
      · cases h
    · rename_i p r1
      split at h
      · cases h
      · rename_i hp
        cases h
        exact ⟨Nat.le_refl _, fun _ => ⟨[.string p], rfl, _, .path hn (by unfold unixPathMax at hp; omega), rfl⟩⟩
    · cases h
  · rintro t s s' ⟨c, hc, rfl⟩ hN
    cases hc with
    | @path n p h1 h2 =>
      refine ⟨n, [.string p], rfl, h1, fun r er => ?_⟩
      unfold ctlParser
      dsimp only [List.cons_append, List.nil_append]
      rw [if_neg (by unfold unixPathMax; omega)]
    | @sect n p t l h1 h2 h3 =>
      refine ⟨n, .nl :: t, rfl, h1, fun r er => ?_⟩
      obtain ⟨st, hst⟩ := ctl_apply_all l ⟨none, false, 0o600⟩
      obtain ⟨h5, h6, h7⟩ := ctl_means hst
      have hl : t.length ≤ N := by simp at hN; omega
      have := sect_complete (ctl_sect N) (settings_sect h2 hst) N hl hl (.nl :: r) er
      unfold ctlParser
      dsimp only [List.cons_append]
      rw [this]
      dsimp only
      rw [h5, h3]
      dsimp only
      rw [h6, h7]

/-! ### Resolver -/

theorem resCfgArg_sound {file : Bytes → Option Bytes} {w : Bytes} {k : ResKw} {ts r : List Tok} {x : ResSet} (hw : (w, k) ∈ resTable) (h : resCfgArg file k ts = some (x, r)) :
    ∃ a, ts = a ++ (if (fun _ => false) k then .nl :: r else r) ∧ ResArgs file w a x := by
  cases k <;> simp [resTable] at hw <;> simp only [resCfgArg] at h <;> subst hw <;> split at h <;> first
    | cases h; done
    | (obtain ⟨v, h1, h2⟩ := Option.map_eq_some_iff.mp h
       cases h2)
  · exact ⟨[_], rfl, .conf h1⟩
  · exact ⟨[_], rfl, .debug (resArg_some.mp h1)⟩
  · exact ⟨[_], rfl, .chain (resArg_some.mp h1)⟩
  · exact ⟨[_], rfl, .retry (resArg_some.mp h1)⟩

theorem resCfgArg_complete {file : Bytes → Option Bytes} {w : Bytes} {a : List Tok} {x : ResSet} (h : ResArgs file w a x) :
    ∃ k, (w, k) ∈ resTable ∧ ∀ r, resCfgArg file k (a ++ (if (fun _ => false) k then .nl :: r else r)) = some (x, r) := by
  cases h with
  | conf h1 => exact ⟨.conf, by decide, fun r => by simp [resCfgArg, h1]⟩
  | debug h1 => exact ⟨.debug, by decide, fun r => by simp [resCfgArg, h1, resArg]⟩
  | chain h1 => exact ⟨.chain, by decide, fun r => by simp [resCfgArg, h1, resArg]⟩
  | retry h1 => exact ⟨.retry, by decide, fun r => by simp [resCfgArg, h1, resArg]⟩

theorem res_table (file : Bytes → Option Bytes) : SetTable resTable (resCfgArg file) (fun _ => false) (ResArgs file) where
  stop := by decide
  find := by decide
  sound := resCfgArg_sound
  complete := resCfgArg_complete

theorem res_sect (file : Bytes → Option Bytes) (N : Nat) : StmtSpec N (resFind file) (SetStmt (ResArgs file) resApply) := set_spec (res_table file) resApply N

theorem res_apply_all (l : List ResSet) : ∀ s, ∃ s', appAll resApply l s = some s' := by
  induction l with
  | nil => intro s; exact ⟨s, rfl⟩
  | cons x l ih =>
    intro s
    rw [appAll]
    cases x <;> simp only [resApply, Option.bind_some] <;> exact ih _

theorem res_means {l : List ResSet} {s0 s : ResCfg} (h : appAll resApply l s0 = some s) :
    s = ⟨lastOr s0.conf ((l.filterMap resConf).map some), lastOr s0.debug (l.filterMap resDebug), lastOr s0.chain (l.filterMap resChain), lastOr s0.retry (l.filterMap resRetry)⟩ := by
  have tac : ∀ {α : Type} (get : ResCfg → α) (set : ResSet → Option α), (∀ x s, ∀ s', resApply x s = some s' → get s' = (set x).getD (get s)) → get s = lastOr (get s0) (l.filterMap set) :=
    fun get set hg => appAll_field get set hg h
  have h1 := tac (·.conf) (fun x => (resConf x).map some) (by intro x s s' h; cases x <;> simp only [resApply, Option.some.injEq] at h <;> subst h <;> rfl)
  have h2 := tac (·.debug) resDebug (by intro x s s' h; cases x <;> simp only [resApply, Option.some.injEq] at h <;> subst h <;> rfl)
  have h3 := tac (·.chain) resChain (by intro x s s' h; cases x <;> simp only [resApply, Option.some.injEq] at h <;> subst h <;> rfl)
  have h4 := tac (·.retry) resRetry (by intro x s s' h; cases x <;> simp only [resApply, Option.some.injEq] at h <;> subst h <;> rfl)
  rw [fm_map] at h1
  cases s
  simp only at h1 h2 h3 h4
  rw [h1, h2, h3, h4]

theorem resParser_ok {file : Bytes → Option Bytes} {n : Nat} (s x : LSt ResCfg) : resParser file n s ≠ .nonl x ∧ resParser file n s ≠ .fin x := by
  unfold resParser
  split <;> simp

theorem res_spec (file : Bytes → Option Bytes) (N : Nat) : OtherSpec N (kwStmt b!"Resolver" (resParser file N)) (fun t r r' => ResStmt file r t r') := by
  refine kw_spec resParser_ok ?_ ?_
  · intro n hn s ts er s' r er' h
    unfold resParser at h
    split at h
    · rename_i s2 hs2
      cases h
      obtain ⟨h1, h2⟩ := sect_sound (res_sect file N) _ _ _ _ _ _ _ hs2
      refine ⟨h1, fun he => ?_⟩
      obtain ⟨t, rfl, ht⟩ := h2 he
      obtain ⟨l, h3, h4⟩ := sect_settings ht
      refine ⟨t, rfl, ?_⟩
      rw [res_means h4]
      exact .sect hn h3
    · cases h
  · rintro t s s' hc hN
    cases hc with
    | @sect n t l h1 h2 =>
      refine ⟨n, t, rfl, h1, fun r er => ?_⟩
      obtain ⟨st, hst⟩ := res_apply_all l s
      have hl : t.length ≤ N := by simp at hN; omega
      have := sect_complete (res_sect file N) (settings_sect h2 hst) N hl hl (.nl :: r) er
      unfold resParser
      rw [this]
      dsimp only
      rw [res_means hst]

/-! ### All of them -/

theorem kw_disj {ω : Type} {kw kw' : Bytes} {p : LParser ω} (h : ciEq kw kw' = false) {n : Bytes} (hn : ciEq kw' n = true) : kwStmt kw p n = none := by
  unfold kwStmt
  rw [if_neg]
  intro hk
  rw [ciEq_comm] at hn
  rw [ciEq_trans hk hn] at h
  cases h

def otherWords : List Bytes := [b!"Backend", b!"Service", b!"ListenHTTP", b!"ListenHTTPS", b!"Control", b!"Resolver"]

theorem orFind_word {ω : Type} {f g : Bytes → Option (LParser ω)} {n : Bytes} {q : LParser ω} (h : orFind f g n = some q) : f n = some q ∨ g n = some q := by
  unfold orFind at h
  split at h
  · rename_i p hp; cases h; exact .inl hp
  · exact .inr h

theorem topOther_word {e : TopEnv} {N : Nat} {g : Glob} {n : Bytes} {p : LParser TopObjs} (h : topOther e N g n = some p) : ∃ w ∈ otherWords, ciEq w n = true := by
  unfold topOther at h
  rcases orFind_word h with h | h
  · exact ⟨_, by decide, (kwStmt_some h).1⟩
  rcases orFind_word h with h | h
  · exact ⟨_, by decide, (kwStmt_some h).1⟩
  rcases orFind_word h with h | h
  · exact ⟨_, by decide, (kwStmt_some h).1⟩
  rcases orFind_word h with h | h
  · exact ⟨_, by decide, (kwStmt_some h).1⟩
  rcases orFind_word h with h | h
  · exact ⟨_, by decide, (kwStmt_some h).1⟩
  · exact ⟨_, by decide, (kwStmt_some h).1⟩

theorem other_not_set : ∀ w ∈ otherWords, kwFind topTable w = none := by decide

theorem topOther_spec (e : TopEnv) (N : Nat) (g : Glob) : OtherSpec N (topOther e N g) (TopStmt e g) := by
  have hd : ∀ {kw : Bytes} {p : LParser TopObjs} {f : Bytes → Option (LParser TopObjs)} (ws : List Bytes), (∀ w ∈ ws, ciEq kw w = false) →
      (∀ n q, f n = some q → ∃ w ∈ ws, ciEq w n = true) → ∀ n q, f n = some q → kwStmt kw p n = none := by
    intro kw p f ws h1 h2 n q hq
    obtain ⟨w, hw, hn⟩ := h2 n q hq
    exact kw_disj (h1 w hw) hn
  have h1 := lens_spec (named_spec e.be g.beDfl N) TopObjs.named (fun o x => { o with named := x })
  have h2 := lens_spec (svcStmt_spec e.be g.beDfl g.algo N : OtherSpec N (kwStmt b!"Service" (svcParser e.be g.beDfl g.algo N)) _) TopObjs.svcs (fun o x => { o with svcs := x })
  have h3 := lens_spec (listen_spec e g false N) TopObjs.lsts (fun o x => { o with lsts := x })
  have h4 := lens_spec (listen_spec e g true N) TopObjs.lsts (fun o x => { o with lsts := x })
  have h5 := lens_spec (ctl_spec g N) TopObjs.ctls (fun o x => { o with ctls := x })
  have h6 := lens_spec (res_spec e.lst.file N) TopObjs.res (fun o x => { o with res := x })
  have w6 : ∀ n q, kwStmt b!"Resolver" (onLens TopObjs.res (fun o x => { o with res := x }) (resParser e.lst.file N)) n = some q → ∃ w ∈ [b!"Resolver"], ciEq w n = true :=
    fun n q h => ⟨_, by decide, (kwStmt_some h).1⟩
  have w' : ∀ {kw : Bytes} {p : LParser TopObjs} {f : Bytes → Option (LParser TopObjs)} {ws : List Bytes}, (∀ n q, f n = some q → ∃ w ∈ ws, ciEq w n = true) →
      ∀ n q, orFind (kwStmt kw p) f n = some q → ∃ w ∈ kw :: ws, ciEq w n = true := by
    intro kw p f ws h n q hq
    rcases orFind_word hq with h7 | h7
    · exact ⟨kw, List.mem_cons_self, (kwStmt_some h7).1⟩
    · obtain ⟨w, hw, hn⟩ := h n q h7
      exact ⟨w, List.mem_cons_of_mem _ hw, hn⟩
  have w5 := w' (kw := b!"Control") (p := onLens TopObjs.ctls (fun o x => { o with ctls := x }) (ctlParser g N)) w6
  have w4 := w' (kw := listenKw true) (p := onLens TopObjs.lsts (fun o x => { o with lsts := x }) (topListen e g N true)) w5
  have w3 := w' (kw := listenKw false) (p := onLens TopObjs.lsts (fun o x => { o with lsts := x }) (topListen e g N false)) w4
  have w2 := w' (kw := b!"Service") (p := onLens TopObjs.svcs (fun o x => { o with svcs := x }) (svcParser e.be g.beDfl g.algo N)) w3
  have c5 := or_spec h5 h6 (hd _ (by decide) w6)
  have c4 := or_spec h4 c5 (hd _ (by decide) w5)
  have c3 := or_spec h3 c4 (hd _ (by decide) w4)
  have c2 := or_spec h2 c3 (hd _ (by decide) w3)
  have c1 := or_spec h1 c2 (hd _ (by decide) w2)
  refine (?_ : _ = TopStmt e g) ▸ c1
  funext t o o'
  apply propext
  constructor
  · rintro (h | h | h | h | h | h)
    · obtain ⟨x, ⟨n, name, t', b, k1, k2, k3, rfl, rfl⟩, rfl⟩ := h
      exact .backend k1 k2 k3
    · obtain ⟨x, k1, rfl⟩ := h
      exact .service k1
    · obtain ⟨x, ⟨n, t', y, k1, k2, k3, rfl, rfl⟩, rfl⟩ := h
      exact .listener (by rw [k2]; exact k1) k3
    · obtain ⟨x, ⟨n, t', y, k1, k2, k3, rfl, rfl⟩, rfl⟩ := h
      exact .listener (by rw [k2]; exact k1) k3
    · obtain ⟨x, ⟨c, k1, rfl⟩, rfl⟩ := h
      exact .control k1
    · obtain ⟨x, k1, rfl⟩ := h
      exact .resolver k1
  · intro h
    cases h with
    | backend k1 k2 k3 => exact .inl ⟨_, ⟨_, _, _, _, k1, k2, k3, rfl, rfl⟩, rfl⟩
    | service k1 => exact .inr (.inl ⟨_, k1, rfl⟩)
    | @listener n t o x k1 k2 =>
      cases hx : x.tls with
      | false => rw [hx] at k1; exact .inr (.inr (.inl ⟨_, ⟨n, t, x, k1, hx, k2, rfl, rfl⟩, rfl⟩))
      | true => rw [hx] at k1; exact .inr (.inr (.inr (.inl ⟨_, ⟨n, t, x, k1, hx, k2, rfl, rfl⟩, rfl⟩)))
    | control k1 => exact .inr (.inr (.inr (.inr (.inl ⟨_, ⟨_, k1, rfl⟩, rfl⟩))))
    | resolver k1 => exact .inr (.inr (.inr (.inr (.inr ⟨_, k1, rfl⟩))))

theorem top_spec (e : TopEnv) (N : Nat) : OtherSpec N (depFind (topFind e.lst.cfg.pcre) (topOther e N)) (DepStmt (SetStmt (TopArgs e.lst.cfg.pcre) topApply) (TopStmt e)) := by
  refine dep_spec (f := topFind e.lst.cfg.pcre) (other_tab (top_table e.lst.cfg.pcre) topApply N) (topOther_spec e N) ?_
  intro g n p h
  obtain ⟨w, hw, hn⟩ := topOther_word h
  unfold topFind
  rw [kwFind_congr _ hn, other_not_set w hw]
  rfl

/-- The statements one after the other, and the settings -/
theorem seq_body {e : TopEnv} {t : List Tok} {s s' : Glob × TopObjs} (h : TopSeq (DepStmt (SetStmt (TopArgs e.lst.cfg.pcre) topApply) (TopStmt e)) t s s') :
    ∀ {l : List TopSet}, appAll topApply l globInit = some s.1 → ∃ l', TopBody e t l s.2 l' s'.2 ∧ appAll topApply l' globInit = some s'.1 := by
  induction h with
  | stop => intro l hl; exact ⟨l, .stop, hl⟩
  | blank _ ih =>
    intro l hl
    obtain ⟨l', h1, h2⟩ := ih hl
    exact ⟨l', .blank h1, h2⟩
  | stmt hs _ ih =>
    intro l hl
    rcases hs with ⟨⟨w, n, a, x, k1, k2, rfl, k3⟩, k4⟩ | ⟨k1, k2⟩
    · obtain ⟨l', h1, h2⟩ := ih (l := l ++ [x]) (by rw [appAll_append, hl]; exact k3)
      refine ⟨l', ?_, h2⟩
      rw [k4] at h1
      have := TopBody.set k1 k2 h1
      simpa using this
    · obtain ⟨l', h1, h2⟩ := ih (l := l) (by rw [k2]; exact hl)
      exact ⟨l', .stmt (glob_means hl) k1 h1, h2⟩

theorem body_pre {e : TopEnv} {t : List Tok} {l l' : List TopSet} {o o' : TopObjs} (h : TopBody e t l o l' o') : ∃ post, l' = l ++ post := by
  induction h with
  | stop => exact ⟨[], by simp⟩
  | blank _ ih => exact ih
  | @set w n a t x l l' o o' _ _ _ ih =>
    obtain ⟨post, rfl⟩ := ih
    exact ⟨x :: post, by simp⟩
  | stmt _ _ _ ih => exact ih

theorem body_seq {e : TopEnv} {t : List Tok} {l l' : List TopSet} {o o' : TopObjs} (h : TopBody e t l o l' o') (ho : GlobOrder l') : ∀ {g g' : Glob},
    appAll topApply l globInit = some g → appAll topApply l' globInit = some g' → TopSeq (DepStmt (SetStmt (TopArgs e.lst.cfg.pcre) topApply) (TopStmt e)) t (g, o) (g', o') := by
  induction h with
  | stop =>
    intro g g' h1 h2
    rw [h1] at h2
    cases h2
    exact .stop
  | blank _ ih => intro g g' h1 h2; exact .blank (ih ho h1 h2)
  | @set w n a t x l l' o o' k1 k2 hb ih =>
    intro g g' h1 h2
    obtain ⟨post, rfl⟩ := body_pre hb
    obtain ⟨g1, hg1⟩ := of_globOrder _ (globOrder_pre ho)
    have hx := hg1
    rw [appAll_append, h1] at hx
    have := TopSeq.stmt (stmt := DepStmt (SetStmt (TopArgs e.lst.cfg.pcre) topApply) (TopStmt e)) (s := (g, o)) (s1 := (g1, o))
      (.inl ⟨⟨w, n, a, x, k1, k2, rfl, hx⟩, rfl⟩) (ih ho hg1 h2)
    simpa using this
  | @stmt a t g0 l l' o o1 o' k1 k2 _ ih =>
    intro g g' h1 h2
    have : g0 = g := glob_unique k1 (glob_means h1)
    subst this
    exact TopSeq.stmt (s := (g0, o)) (s1 := (g0, o1)) (.inr ⟨k2, rfl⟩) (ih ho h1 h2)

theorem top_config (e : TopEnv) (n : Nat) (ts : List Tok) :
    (∀ g o er, parseTop e n ts = some (g, o, er) → g.wMin ≤ g.wMax ∧ (er = 0 → ∃ t, (t = ts ∨ t = ts ++ [.nl]) ∧ Configures e t g o)) ∧
    (∀ g o, Configures e ts g o → ts.length < n → parseTop e n ts = some (g, o, 0)) := by
  constructor
  · intro g o er h
    unfold parseTop at h
    split at h
    · rename_i g1 o1 er1 hr
      split at h
      · cases h
      · rename_i hw
        cases h
        refine ⟨by omega, fun he => ?_⟩
        subst he
        obtain ⟨_, h2⟩ := top_sound (top_spec e n) _ _ _ _ _ _ hr
        obtain ⟨t, ht, hs⟩ := h2 rfl
        obtain ⟨l, h3, h4⟩ := seq_body hs (l := []) rfl
        exact ⟨t, ht, ⟨l, h3, (glob_iff.mp h4).1, (glob_iff.mp h4).2⟩, by omega⟩
    · cases h
  · rintro g o ⟨⟨l, h1, h2, h3⟩, hw⟩ hn
    have h4 := glob_iff.mpr ⟨h2, h3⟩
    have := top_complete (top_spec e n) (body_seq h1 h2 (g := globInit) rfl h4) n hn (by omega) 0
    unfold parseTop
    have ho : objsInit = ⟨[], [], [], [], ⟨none, false, 0, 600⟩⟩ := rfl
    rw [ho, this]
    dsimp only
    rw [if_neg (by omega)]

end Pound
