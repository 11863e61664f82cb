import Verif.Spec.FullCfg
import Verif.Proof.SoundSpec
import Verif.Proof.SvcMatch

namespace Pound

open Spec

theorem PlainText.right {a r : List Tok} (h : PlainText (a ++ r)) : PlainText r :=
  ⟨fun x => h.1 (NotNot_right x), fun k x => h.2.1 k (HostFile_right x), fun x => h.2.2 (Response_right x)⟩

theorem PlainText.toks {ts : List Tok} (h : PlainText ts) (k : GKind) : PlainToks k ts := ⟨h.1, h.2.1 k⟩

/-! ### Certificates -/

mutual
theorem condCerts_eq : ∀ c : CCond, condCerts c = (testsIn c).filterMap fun | .cert f => some f | _ => none
  | .test t => by cases t <;> rfl
  | .bool op cs => by simp only [condCerts, testsIn]; exact condsCerts_eq cs
theorem condsCerts_eq : ∀ cs : List CCond, condsCerts cs = (testsInAll cs).filterMap fun | .cert f => some f | _ => none
  | [] => rfl
  | c :: cs => by simp only [condsCerts, testsInAll, List.filterMap_append]; rw [condCerts_eq c, condsCerts_eq cs]
end

theorem svcsCerts_eq : svcsCerts = askedCerts := by
  funext l
  unfold svcsCerts askedCerts
  congr 1
  funext x
  exact condsCerts_eq _

/-! ### Services -/

theorem svcBody_re {ι : Type} {e : CfgEnv} {item : List Tok → ι → Prop} {d d' : Dfl} {t : List Tok} {cs : List (Formula CTest)} {ss : List RwStmt} {b : Option Bool} {l : List ι}
    (h : SvcBody e item d d' t cs ss b l) : d'.reType = d.reType := by
  induction h with
  | nil => rfl
  | blank _ ih => exact ih
  | cond _ _ ih => exact ih
  | act _ _ ih => exact ih
  | rewrite _ _ _ _ ih => exact ih
  | disabled _ _ _ ih => exact ih
  | ignoreCase _ _ _ ih => exact ih
  | other _ _ ih => exact ih

theorem says_re {e : CfgEnv} {be : BeEnv} {bd : BeDfl} {algo : Algo} {d d' : Dfl} {names : List Bytes} {t : List Tok} {x : FullSvc} (h : SvcSays e be bd algo d names t x d') :
    d'.reType = d.reType := by
  obtain ⟨body, w, cs, ss, b, l, _, _, h1, _⟩ := h.text
  exact svcBody_re h1

theorem parseService_mono {e : CfgEnv} {be : BeEnv} {n : Nat} {names : List Bytes} {d : SvcDfl} {ts : List Tok} {er : Nat} {s' : LSt (SvcCfg × SvcRest)}
    (h : parseService e be n names d ts er = .ok s') : er ≤ s'.errs := by
  have hm : ∀ name p, svcTable e n (svcRestFind e be d.be n) name = some p → MonoP p := fun name p hp => svcTable_mono (svcRest_spec e be d.be n) name p hp
  have key : ∀ ts, cfgL (svcTable e n (svcRestFind e be d.be n)) false true n ⟨(⟨d.re, [], [], [], false⟩, SvcRest.init d.algo), ts, er⟩ = .ok s' → er ≤ s'.errs :=
    fun ts h => cfgL_mono hm false true n ⟨_, ts, er⟩ s' (by rw [h]; rfl)
  unfold parseService at h
  dsimp only at h
  split at h
  · cases h
  · cases h
  · cases h
  · split at h
    · cases h
    · exact key _ h
  · exact key _ h

theorem parseService_says {e : CfgEnv} {be : BeEnv} {n : Nat} {names : List Bytes} {d : SvcDfl} {ts : List Tok} {er : Nat} {s' : LSt (SvcCfg × SvcRest)}
    (h : parseService e be n names d ts er = .ok s') (he : s'.errs = er) (hp : PlainText ts) :
    ∃ a, ts = a ++ s'.toks ∧ SvcSays e be d.be d.algo d.re names a ⟨svcName ts, s'.data.1, s'.data.2⟩ s'.data.1.dfl := by
  obtain ⟨x', ts', er'⟩ := s'
  simp only at he
  subst he
  have hg := svcRest_spec e be d.be n
  have hm : ∀ name p, svcTable e n (svcRestFind e be d.be n) name = some p → MonoP p := fun name p hp => svcTable_mono hg name p hp
  have key : ∀ ts, cfgL (svcTable e n (svcRestFind e be d.be n)) false true n ⟨(⟨d.re, [], [], [], false⟩, SvcRest.init d.algo), ts, er'⟩ = .ok ⟨x', ts', er'⟩ →
      PlainText ts → SvcEnds e (RestLine e be d.be) restApp (⟨d.re, [], [], [], false⟩, SvcRest.init d.algo) ts x' ts' :=
    fun ts h hp => svc_sound hg (cfgL_run hm true n _ _ _ _ _ h) (PlainText.toks hp _) hp.2.2
  unfold parseService at h
  dsimp only at h
  split at h
  · cases h
  · cases h
  · cases h
  · rename_i nm r
    split at h
    · cases h
    · rename_i hnm
      obtain ⟨body, w, cs, ss, b, l, rfl, h2, h3, h4, h5, h6, h7, h8⟩ := key _ h (PlainText.right (a := [.string nm]) hp)
      refine ⟨.string nm :: (body ++ [.ident w]), by simp, ⟨body, w, _, ss, b, l, .inr ⟨nm, rfl, rfl, by simpa using hnm⟩, h2, h3, ?_, ?_, ?_, h6.1, h7, rest_iff.mp h8⟩⟩
      · simp only at h4; rw [h4]; rfl
      · simp only at h4; rw [h4]; exact h6.2
      · simpa [rulesStmts] using h5
  · rename_i ts0 n1 n2 n3 n4
    obtain ⟨body, w, cs, ss, b, l, rfl, h2, h3, h4, h5, h6, h7, h8⟩ := key _ h hp
    refine ⟨body ++ [.ident w], by simp, ⟨body, w, _, ss, b, l, .inl ⟨rfl, ?_⟩, h2, h3, ?_, ?_, ?_, h6.1, h7, rest_iff.mp h8⟩⟩
    · unfold svcName
      dsimp only
      split
      · rename_i nm r heq; exact absurd heq (n4 _ _)
      · rfl
    · simp only at h4; rw [h4]; rfl
    · simp only at h4; rw [h4]; exact h6.2
    · simpa [rulesStmts] using h5

def SvcsStmt (e : CfgEnv) (be : BeEnv) (bd : BeDfl) (algo : Algo) (t : List Tok) (o o' : Dfl × List FullSvc) : Prop :=
  ∃ n t' x, ciEq b!"Service" n = true ∧ t = .ident n :: (t' ++ [.nl]) ∧ SvcSays e be bd algo o.1 (o.2.filterMap (·.name)) t' x o'.1 ∧ o'.2 = o.2 ++ [x]

theorem svcs_sound (e : CfgEnv) (be : BeEnv) (bd : BeDfl) (algo : Algo) (n : Nat) :
    SoundSpec PlainText (kwStmt b!"Service" (fullSvcParser e be bd algo n)) (SvcsStmt e be bd algo) := by
  refine kw_sound ?_ ?_
  · intro s x
    unfold fullSvcParser
    split <;> simp
  · intro w hw s ts er s' r er' h
    unfold fullSvcParser at h
    dsimp only at h
    split at h
    · rename_i t ht
      cases h
      refine ⟨parseService_mono ht, fun he hp => ?_⟩
      obtain ⟨a, h1, h2⟩ := parseService_says ht he (PlainText.right (a := [.ident w]) hp)
      exact ⟨a, h1, w, a, _, hw, rfl, h2, rfl⟩
    · cases h

/-! ### Access lists -/

theorem aclRef_text {e : CfgEnv} {ts r : List Tok} {t : CTest} (h : aclRef e ts = some (t, r)) : ∃ a, ts = a ++ r ∧ TrustText e a t := by
  obtain ⟨a, h1, h2⟩ := aclRef_sound h
  refine ⟨a, h1, ?_⟩
  cases h2 with
  | trusted h3 => exact .name h3
  | nets h3 h4 => exact .list ⟨_, _, rfl, h3, h4⟩

theorem trust_sound (e : CfgEnv) {P : List Tok → Prop} : SoundSpec P (kwStmt b!"TrustedIP" (trustParser e))
    (fun t _ o' => ∃ n t' a, ciEq b!"TrustedIP" n = true ∧ t = .ident n :: (t' ++ [.nl]) ∧ TrustText e t' a ∧ o' = some a) := by
  refine kw_sound ?_ ?_
  · intro s x
    unfold trustParser
    split <;> simp
  · intro w hw s ts er s' r er' h
    unfold trustParser at h
    split at h
    · rename_i t r1 ht
      cases h
      obtain ⟨a, h1, h2⟩ := aclRef_text ht
      exact ⟨Nat.le_refl _, fun _ _ => ⟨a, h1, w, a, t, hw, rfl, h2, rfl⟩⟩
    · cases h

theorem acl_sound (e : CfgEnv) {P : List Tok → Prop} : SoundSpec P (kwStmt b!"ACL" (namedAclParser e))
    (fun t o o' => ∃ n name t' l, ciEq b!"ACL" n = true ∧ t = .ident n :: .string name :: (t' ++ [.nl]) ∧ AclText e t' l ∧ (∀ x ∈ o, x.1 ≠ name) ∧ o' = o ++ [(name, l)]) := by
  refine kw_sound ?_ ?_
  · intro s x
    unfold namedAclParser
    split
    · split
      · simp
      · split <;> simp
    · simp
  · intro w hw s ts er s' r er' h
    unfold namedAclParser at h
    dsimp only at h
    split at h
    · rename_i nm r1
      split at h
      · cases h
      · rename_i hnm
        split at h
        · rename_i l r2 hl
          cases h
          obtain ⟨t, v, l', rfl, rfl, h3, h4⟩ := aclLoop_sound _ _ _ _ hl
          refine ⟨Nat.le_refl _, fun _ _ => ⟨.string nm :: .nl :: (t ++ [.ident v]), by simp, w, nm, .nl :: (t ++ [.ident v]), _, hw, rfl, ⟨t, v, rfl, by simpa using h3, h4⟩, ?_, rfl⟩⟩
          intro x hx hn
          apply hnm
          rw [List.any_eq_true]
          exact ⟨x, hx, by simp [hn]⟩
        · cases h
    · cases h

theorem nets_acls {e : CfgEnv} {as : List (Bytes × List Bytes)} {t : List Tok} {l : List Bytes} (h : Nets (e.withAcls as) t l) : Nets e t l := by
  induction h with
  | nil => exact .nil
  | nl _ ih => exact .nl ih
  | net h1 _ ih => exact .net h1 ih

/-! ### Listeners -/

/-- What a rule in a listener is -/
theorem lstRewrite_sound (e : CfgEnv) (be : BeEnv) (bd : BeDfl) (algo : Algo) (n : Nat) : SoundSpec PlainText (kwStmt b!"Rewrite" (lstRewrite e n)) (LstStmt e be bd algo) := by
  refine kw_sound ?_ ?_
  · intro s x
    unfold lstRewrite
    split
    · simp
    · split
      · split <;> simp
      · simp
  · intro w hw s ts er s' r er' h
    unfold lstRewrite at h
    dsimp only at h
    split at h
    · cases h
    · rename_i resp r1 hra
      split at h
      · rename_i x r2 er2 hl
        have hm := ruleLoop_mono e s.re n ⟨resp, false⟩ ⟨.empty, r1, er⟩ ⟨x, .nl :: r2, er2⟩ (by rw [hl]; rfl)
        dsimp only at hm
        have hout : er' = er2 := by split at h <;> (cases h; rfl)
        subst hout
        refine ⟨hm, fun he hp => ?_⟩
        subst he
        have hres : resp = false := by
          rcases rewriteArg_sound hra with ⟨v, rfl, ⟨h1, _⟩ | ⟨_, h2⟩⟩ | ⟨_, h2, _⟩
          · exact absurd ⟨[], w, v, _, rfl, hw, h1⟩ hp.2.2
          · exact h2
          · exact h2
        subst hres
        simp only [Bool.false_eq_true, if_false] at h
        cases h
        have hpt : PlainText ts := PlainText.right (a := [.ident w]) hp
        have hpr : PlainToks s.re.reType r1 := by
          rcases rewriteArg_sound hra with ⟨v, rfl, _⟩ | ⟨rfl, _⟩
          · exact PlainText.toks (PlainText.right (a := [.ident v]) hpt) _
          · exact PlainText.toks hpt _
        rcases ruleLoop_sound e _ n _ _ _ _ hl rfl hpr with h3 | ⟨a, v, r3, h3, h4, h5, h6⟩
        · exact absurd h3 not_ended_nl
        · simp only [afterEnd, Bool.false_eq_true, if_false] at h5
          subst h5
          have hsplit : ∃ aa t1, ts = (aa ++ t1) ++ .nl :: r2 ∧ RequestArg aa ∧ Branches e s.re t1 (ruleBranches x.rule) := by
            rcases rewriteArg_sound hra with ⟨w', rfl, ⟨_, h'⟩ | ⟨h', _⟩⟩ | ⟨rfl, _, _, hne⟩
            · cases h'
            · exact ⟨[.ident w'], a ++ [.ident v], by rw [h3]; simp, Or.inr ⟨w', rfl, h'⟩, h6⟩
            · rcases branches_head h6 with ⟨q, hq⟩ | ⟨q1, q, hq⟩
              · rw [hq] at h6
                refine ⟨[.nl], q, ?_, Or.inl rfl, branches_tail h6⟩
                rw [h3, show a ++ Tok.ident v :: Tok.nl :: r2 = (a ++ [.ident v]) ++ .nl :: r2 by simp, hq]
                simp
              · refine absurd ?_ (hne q1 (q ++ .nl :: r2))
                rw [h3, show a ++ Tok.ident v :: Tok.nl :: r2 = (a ++ [.ident v]) ++ .nl :: r2 by simp, hq]
                simp
          obtain ⟨aa, t1, h9, h7, h8⟩ := hsplit
          refine ⟨aa ++ t1, h9, ?_⟩
          rw [List.append_assoc]
          refine .rewrite hw h7 h8 ?_
          rw [rulesStmts_append]
          exact sameProg_refl _
      · cases h

theorem lstOp_sound (e : CfgEnv) (be : BeEnv) (bd : BeDfl) (algo : Algo) : SoundSpec PlainText (lstOp e) (LstStmt e be bd algo) := by
  have hs : ∀ {n p}, lstOp e n = some p → ∃ k, kwFind opTable n = some k ∧ ∀ s ts er, p ⟨s, ts, er⟩ = match parseOp e s.re k ts with
      | none => .fail
      | some (o, r) => .ok ⟨{ s with req := addUncond (.prim o) s.req }, r, er⟩ := by
    intro n p h
    unfold lstOp at h
    rw [Option.map_eq_some_iff] at h
    obtain ⟨k, hk, rfl⟩ := h
    exact ⟨k, hk, fun _ _ _ => rfl⟩
  constructor
  · intro n p h s x hx
    obtain ⟨k, _, h2⟩ := hs h
    obtain ⟨s, ts, er⟩ := s
    rw [h2] at hx
    split at hx <;> cases hx
  · intro n p h s ts er s' r er' hx
    obtain ⟨k, h1, h2⟩ := hs h
    rw [h2] at hx
    split at hx
    · cases hx
    · rename_i o r1 ho
      cases hx
      refine ⟨Nat.le_refl _, fun _ _ => ?_⟩
      obtain ⟨a, h3, h4⟩ := act_sound h1 ho
      exact ⟨a, h3, .act (t := .ident n :: a) h4 (addUncond_prog o s.req)⟩
  · intro n p h s ts er s' r er' hx
    obtain ⟨k, _, h2⟩ := hs h
    rw [h2] at hx
    split at hx <;> cases hx

theorem lstOther_sound (e : CfgEnv) (be : BeEnv) (bd : BeDfl) (algo : Algo) (n : Nat) : SoundSpec PlainText (lstOther e be bd algo n) (LstStmt e be bd algo) := by
  refine (or_sound (lens_sound (trust_sound e) LOther.trusted (fun o x => { o with trusted := x }))
    (or_sound (lens_sound (svcs_sound e be bd algo n) (fun o : LOther => (o.re, o.svcs)) (fun o x => { o with re := x.1, svcs := x.2 }))
      (or_sound (lstRewrite_sound e be bd algo n) (lstOp_sound e be bd algo)))).mono ?_
  rintro t o o' (⟨x, ⟨w, t', a, h1, rfl, h2, rfl⟩, rfl⟩ | ⟨⟨d', l'⟩, ⟨w, t', x, h1, rfl, h2, h3⟩, rfl⟩ | h | h)
  · exact .trusted h1 h2
  · dsimp only at h2 h3 ⊢
    subst h3
    exact .service h1 h2
  · exact h
  · exact h

theorem setBody_re {δ : Type} {args : Bytes → List Tok → δ → Prop} {e : CfgEnv} {be : BeEnv} {bd : BeDfl} {algo : Algo} {t : List Tok} {l : List δ} {o o' : LOther}
    (h : SetBody args (LstStmt e be bd algo) t l o o') : o'.re.reType = o.re.reType := by
  induction h with
  | stop _ => rfl
  | blank _ ih => exact ih
  | set _ _ _ ih => exact ih
  | other h1 _ ih =>
    rw [ih]
    cases h1 with
    | service _ h2 => exact says_re h2
    | trusted _ _ => rfl
    | act _ _ => rfl
    | rewrite _ _ _ _ => rfl

theorem fullListen_sound (e : TopEnv) (c : CfgEnv) (g : Glob) (n : Nat) (tls : Bool) : SoundSpec PlainText (kwStmt (listenKw tls) (fullListen e c g n tls))
    (fun t ls ls' => ∃ w t' x, ciEq (listenKw tls) w = true ∧ x.tls = tls ∧ t = .ident w :: (t' ++ [.nl]) ∧ ls' = ls ++ [x] ∧ x.other.re.reType = g.re.reType ∧
      Listens { e.lst with formats := g.formats } ⟨g.client, g.logLevel, g.hdr, g.re⟩ (LstStmt c e.be ⟨g.timeOut, g.connTo, g.wsTimeOut⟩ g.algo) ⟨g.re, [], none, [], []⟩
        (fun y => askedCerts y.svcs) (ls.filterMap (·.name)) t' x) := by
  refine kw_sound listenParser_ok ?_
  intro w hw s ts er s' r er' h
  obtain ⟨h1, h2⟩ := listen_soundP (P := PlainText) PlainText.right (lstOther_sound c e.be g.beDfl g.algo n) h
  refine ⟨h1, fun he hp => ?_⟩
  obtain ⟨t, x, h3, h4, h5, h6⟩ := h2 he (PlainText.right (a := [.ident w]) hp)
  refine ⟨t, h3, w, t, x, hw, h5, rfl, h4, ?_, ?_⟩
  · obtain ⟨body, l, s0, _, k, _⟩ := h6.settings
    exact setBody_re k
  · rw [svcsCerts_eq] at h6
    exact h6

/-! ### The top level -/

theorem icase_app {g : Glob} {d : Dfl} (h : d.reType = g.re.reType) : appAll topApply [.icase d.icase] g = some { g with re := d } := by
  obtain ⟨k, i⟩ := d
  simp only at h
  subst h
  rfl

/-- A statement that is not a setting, and the settings afterwards -/
def FullStep (e : TopEnv) (t : List Tok) (x x' : Glob × FullObjs) : Prop := ∃ xs, FullStmt e x.1 t x.2 xs x'.2 ∧ appAll topApply xs x.1 = some x'.1

theorem withAcls_eq (e : CfgEnv) (as : List (Bytes × List Bytes)) : e.withAcls as = aclsDefined e as := by
  unfold CfgEnv.withAcls aclsDefined
  congr 1
  funext s
  rw [Bool.eq_iff_iff]
  simp

theorem fullOther_sound (e : TopEnv) (n : Nat) (g : Glob) (o : FullObjs) :
    SoundSpec PlainText (fullOther e n g o) (fun t x x' => x = (g, o) → FullStep e t x x') := by
  have h1 := lens_sound (acl_sound (e.lst.cfg.withAcls o.acls) (P := PlainText)) (fun x : Glob × FullObjs => x.2.acls) (fun x y => (x.1, { x.2 with acls := y }))
  have h2 := lens_sound (trust_sound (e.lst.cfg.withAcls o.acls) (P := PlainText)) (fun x : Glob × FullObjs => x.2.trusted) (fun x y => (x.1, { x.2 with trusted := y }))
  have h3 := lens_sound ((named_spec e.be g.beDfl n).sound (P := PlainText)) (fun x : Glob × FullObjs => x.2.named) (fun x y => (x.1, { x.2 with named := y }))
  have h4 := lens_sound (svcs_sound (e.lst.cfg.withAcls o.acls) e.be g.beDfl g.algo n) (fun x : Glob × FullObjs => (x.1.re, x.2.svcs)) (fun x y => ({ x.1 with re := y.1 }, { x.2 with svcs := y.2 }))
  have h5 := lens_sound (fullListen_sound e (e.lst.cfg.withAcls o.acls) g n false) (fun x : Glob × FullObjs => x.2.lsts) (fun x y => ({ x.1 with re := reAfter x.1.re y }, { x.2 with lsts := y }))
  have h6 := lens_sound (fullListen_sound e (e.lst.cfg.withAcls o.acls) g n true) (fun x : Glob × FullObjs => x.2.lsts) (fun x y => ({ x.1 with re := reAfter x.1.re y }, { x.2 with lsts := y }))
  have h7 := lens_sound ((ctl_spec g n).sound (P := PlainText)) (fun x : Glob × FullObjs => x.2.ctls) (fun x y => (x.1, { x.2 with ctls := y }))
  have h8 := lens_sound ((res_spec e.lst.file n).sound (P := PlainText)) (fun x : Glob × FullObjs => x.2.res) (fun x y => (x.1, { x.2 with res := y }))
  have hL : ∀ (w : Bytes) (t' : List Tok) (y : Lst LOther) (b : Bool), ciEq (listenKw b) w = true → y.tls = b → y.other.re.reType = g.re.reType →
      Listens { e.lst with formats := g.formats } ⟨g.client, g.logLevel, g.hdr, g.re⟩ (LstStmt (aclsDefined e.lst.cfg o.acls) e.be ⟨g.timeOut, g.connTo, g.wsTimeOut⟩ g.algo) ⟨g.re, [], none, [], []⟩
        (fun y => askedCerts y.svcs) (o.lsts.filterMap (·.name)) t' y →
      FullStep e (.ident w :: (t' ++ [.nl])) (g, o) ({ g with re := reAfter g.re (o.lsts ++ [y]) }, { o with lsts := o.lsts ++ [y] }) := by
    rintro w t' y b k1 rfl k4 k5
    refine ⟨_, .listener k1 k5, ?_⟩
    rw [icase_app k4]
    simp [reAfter]
  have hA := withAcls_eq e.lst.cfg o.acls
  refine (or_sound h1 (or_sound h2 (or_sound h3 (or_sound h4 (or_sound h5 (or_sound h6 (or_sound h7 h8))))))).mono ?_
  rintro t x x' h rfl
  rcases h with h | h | h | h | h | h | h | h
  · obtain ⟨y, ⟨w, name, t', l, k1, rfl, ⟨u, v, rfl, k2, k3⟩, k4, rfl⟩, rfl⟩ := h
    exact ⟨[], .acl k1 k4 ⟨u, v, rfl, nets_acls k2, k3⟩, rfl⟩
  · obtain ⟨y, ⟨w, t', a, k1, rfl, k2, rfl⟩, rfl⟩ := h
    exact ⟨[], .trusted k1 (hA ▸ k2), rfl⟩
  · obtain ⟨y, ⟨w, name, t', b, k1, k2, k3, rfl, rfl⟩, rfl⟩ := h
    exact ⟨[], .backend k1 k2 k3, rfl⟩
  · obtain ⟨⟨d', l'⟩, ⟨w, t', y, k1, rfl, k2, k3⟩, rfl⟩ := h
    dsimp only at k2 k3
    subst k3
    exact ⟨[.icase d'.icase], .service k1 (hA ▸ k2), icase_app (says_re k2)⟩
  · obtain ⟨y, ⟨w, t', z, k1, k2, rfl, rfl, k4, k5⟩, rfl⟩ := h
    exact hL w t' z _ k1 k2 k4 (hA ▸ k5)
  · obtain ⟨y, ⟨w, t', z, k1, k2, rfl, rfl, k4, k5⟩, rfl⟩ := h
    exact hL w t' z _ k1 k2 k4 (hA ▸ k5)
  · obtain ⟨y, ⟨c, k1, rfl⟩, rfl⟩ := h
    exact ⟨[], .control k1, rfl⟩
  · obtain ⟨y, k1, rfl⟩ := h
    exact ⟨[], .resolver k1, rfl⟩

theorem fullFind_sound (e : TopEnv) (n : Nat) : SoundSpec PlainText (fullFind e n)
    (fun t x x' => (SetStmt (TopArgs e.lst.cfg.pcre) topApply t x.1 x'.1 ∧ x'.2 = x.2) ∨ FullStep e t x x') := by
  have hf : OtherSpec n (topFind e.lst.cfg.pcre) (SetStmt (TopArgs e.lst.cfg.pcre) topApply) := other_tab (top_table e.lst.cfg.pcre) topApply n
  have hs : ∀ {w p}, fullFind e n w = some p → (∃ q, topFind e.lst.cfg.pcre w = some q ∧ p = onFst q) ∨ p = dynFind (fun x => fullOther e n x.1 x.2) w := by
    intro w p h
    unfold fullFind at h
    split at h
    · rename_i q hq; cases h; exact .inl ⟨q, hq, rfl⟩
    · cases h; exact .inr rfl
  constructor
  · intro w p h s x hx
    rcases hs h with ⟨q, h1, rfl⟩ | rfl
    · obtain ⟨s', x', h2⟩ := onFst_fin hx
      exact hf.fin h1 h2
    · unfold dynFind at hx
      split at hx
      · rename_i q hq; exact (fullOther_sound e n _ _).fin hq hx
      · cases hx
  · intro w p h s ts er s' r er' hr
    rcases hs h with ⟨q, h1, rfl⟩ | rfl
    · obtain ⟨h2, h3⟩ := onFst_ok hr
      obtain ⟨h4, h5⟩ := hf.ok h1 h2
      exact ⟨h4, fun he _ => let ⟨a, h6, h7⟩ := h5 he; ⟨a, h6, .inl ⟨h7, h3⟩⟩⟩
    · unfold dynFind at hr
      dsimp only at hr
      split at hr
      · rename_i q hq
        obtain ⟨h4, h5⟩ := (fullOther_sound e n _ _).ok hq hr
        exact ⟨h4, fun he hp => let ⟨a, h6, h7⟩ := h5 he hp; ⟨a, h6, .inr (h7 rfl)⟩⟩
      · cases hr
  · intro w p h s ts er s' r er' hr
    rcases hs h with ⟨q, h1, rfl⟩ | rfl
    · obtain ⟨h2, h3⟩ := onFst_nonl hr
      obtain ⟨h4, h5⟩ := hf.nonl h1 h2
      exact ⟨h4, fun he _ => let ⟨a, h6, h7⟩ := h5 he; ⟨a, h6, .inl ⟨h7, h3⟩⟩⟩
    · unfold dynFind at hr
      dsimp only at hr
      split at hr
      · rename_i q hq
        obtain ⟨h4, h5⟩ := (fullOther_sound e n _ _).nonl hq hr
        exact ⟨h4, fun he hp => let ⟨a, h6, h7⟩ := h5 he hp; ⟨a, h6, .inr (h7 rfl)⟩⟩
      · cases hr

theorem fullSeq_body {e : TopEnv} {t : List Tok} {s s' : Glob × FullObjs}
    (h : TopSeq (fun t x x' => (SetStmt (TopArgs e.lst.cfg.pcre) topApply t x.1 x'.1 ∧ x'.2 = x.2) ∨ FullStep e t x x') t s s') :
    ∀ {l : List TopSet}, appAll topApply l globInit = some s.1 → ∃ l', FullBody e t l s.2 l' s'.2 ∧ appAll topApply l' globInit = some s'.1 := by
  induction h with
  | stop => intro l hl; exact ⟨l, .stop, hl⟩
  | blank _ ih =>
    intro l hl
    obtain ⟨l', h1, h2⟩ := ih hl
    exact ⟨l', .blank h1, h2⟩
  | stmt hs _ ih =>
    intro l hl
    rcases hs with ⟨⟨w, n, a, x, k1, k2, rfl, k3⟩, k4⟩ | ⟨xs, k1, k2⟩
    · obtain ⟨l', h1, h2⟩ := ih (l := l ++ [x]) (by rw [appAll_append, hl]; exact k3)
      refine ⟨l', ?_, h2⟩
      rw [k4] at h1
      have := FullBody.set k1 k2 h1
      simpa using this
    · obtain ⟨l', h1, h2⟩ := ih (l := l ++ xs) (by rw [appAll_app, hl]; exact k2)
      exact ⟨l', .stmt (glob_means hl) k1 h1, h2⟩

theorem full_config {e : TopEnv} {n : Nat} {ts : List Tok} {g : Glob} {o : FullObjs} (h : parseFull e n ts = some (g, o, 0)) (hp : PlainText ts) :
    ∃ t, (t = ts ∨ t = ts ++ [.nl]) ∧ FullConfigures e t g o := by
  unfold parseFull at h
  split at h
  · rename_i g1 o1 er1 hr
    split at h
    · cases h
    · rename_i hc
      split at h
      · cases h
      · rename_i hw
        cases h
        obtain ⟨_, h2⟩ := top_soundP (P := PlainText) PlainText.right (fullFind_sound e n) _ _ _ _ _ _ hr
        obtain ⟨t, ht, hs⟩ := h2 rfl hp
        obtain ⟨l, h3, h4⟩ := fullSeq_body hs (l := []) rfl
        refine ⟨t, ht, ⟨l, h3, (glob_iff.mp h4).1, (glob_iff.mp h4).2⟩, by omega, ?_⟩
        rw [← svcsCerts_eq]
        exact Decidable.not_not.mp hc
  · cases h

end Pound
