import Verif.Proof.CtlMain
import Verif.Props.CfgParser

/-!
C98: poundctl does what its command line and its configuration ask for.
-/

namespace Pound.Props
open Pound Spec

/-- getopt reports no mistake exactly if the command line has none, and then delivers its options and operands, in order. -/
theorem C98_command_line (spec : UInt8 → Option Bool) (posix : Bool) (argv args : List Bytes) (os : List OptItem) :
    (getoptArgs spec posix argv = (os, args) ∧ OptItem.bad ∉ os) ↔ CmdLine spec posix argv os args := by
  constructor
  · rintro ⟨h, hb⟩
    have := getopt_sound (spec := spec) (posix := posix) _ argv (Nat.le_refl _) (by rw [h]; exact hb)
    rw [h] at this
    exact this
  · exact fun h => ⟨getopt_complete h, cmdLine_good h⟩

example : CmdLine ctlOptSpec false [b!"list", b!"-jS", b!"web", b!"-i2", b!"--", b!"-x"]
    [.opt ch%'j' none, .opt ch%'S' (some b!"web"), .opt ch%'i' (some b!"2")] [b!"list", b!"-x"] :=
  (C98_command_line _ _ _ _ _).mp (by decide)

/-- A file ~/.poundctl of any kind is read as its statements say. -/
theorem ctlConfig_evs {text : Bytes} {c : CtlCfg} (h : ctlConfig text = some c) :
    ∃ ts evs n, Yields [⟨0, text, []⟩] ts ∧ Stmts ctlGram 0 (ts ++ [.nl]) evs n ∧ ctlEvs { } none evs = some c := by
  unfold ctlConfig at h
  split at h
  · rename_i s hp
    obtain ⟨ts, hts, -⟩ := C65_tokens text
    obtain ⟨d, i, m⟩ := s
    exact ⟨ts, d, m, hts, (C65_accepted_partial ctlGram text ts hts d m).mp ⟨_, _, i, hp⟩, h⟩
  · cases h

theorem ctlReadConfig_evs {E : CtlEnv} {c : CtlCfg} (h : ctlReadConfig E = some c) :
    ∃ evs, ConfigEvs E evs ∧ BoolStmts evs ∧ ctlEvs { } none evs = some c := by
  have file : ∀ name, ctlParseFile E name = some c → (∀ text, E.fs name = .reg text → ConfigText E (some text)) →
      ∃ evs, ConfigEvs E evs ∧ BoolStmts evs ∧ ctlEvs { } none evs = some c := by
    intro name h hc
    unfold ctlParseFile at h
    split at h
    · rename_i text hf
      obtain ⟨ts, evs, n, h1, h2, h3⟩ := ctlConfig_evs h
      exact ⟨evs, Or.inr ⟨text, ts, n, hc text hf, h1, h2⟩, boolStmts_of h2, h3⟩
    · cases h
  have hhome : inHome E.home b!".poundctl" = E.home ++ b!"/.poundctl" := by
    unfold inHome
    rw [if_neg (by decide), List.append_assoc]
    rfl
  unfold ctlReadConfig at h
  split at h
  · rename_i n hn
    split at h
    · rename_i he
      subst he
      injection h with h
      exact ⟨[], Or.inl ⟨.off hn, rfl⟩, (by intro _ _ _ h; cases h), by rw [← h]; rfl⟩
    · rename_i he
      exact file _ h fun text hf => .env hn he hf
  · rename_i hn
    split at h
    · rename_i hf
      injection h with h
      rw [hhome] at hf
      exact ⟨[], Or.inl ⟨.noFile hn hf, rfl⟩, (by intro _ _ _ h; cases h), by rw [← h]; rfl⟩
    · exact file _ h fun text hf => .file hn (by rw [← hhome]; exact hf)

/-- Whenever poundctl gets to the point of connecting, its command line has no mistakes, the configuration file is one it accepts, and it uses for each setting
of the server the last value given by an option while that server was selected (by -S), else the last one in the section of that server, else (for the
URL) what it finds in the configuration of pound.
Missing for the full property: sections without Verify, where the documented default is not used (`C98_verify_default_fails`); options before -S, which are
dropped (`C98_option_order_fails`). -/
theorem C98_settings_partial (E : CtlEnv) (argv : List Bytes) (p : CtlPlan) (h : ctlMain E argv = .inr p) :
    ∃ evs os args, ConfigEvs E evs ∧ CmdLine ctlOptSpec E.posix argv os args ∧
      let n := selected none os
      let S := sectStmts n none evs
      let G := givenFor n none os
      (∀ m, n = some m → timesOpened m evs = 1) ∧
      (∃ url, p.srv.url = some url ∧ urlParse E.resolve url = some p.url ∧
        ((lastArg ch%'s' (fun _ => true) G).or (lastStmt b!"URL" S) = some url ∨
          ((lastArg ch%'s' (fun _ => true) G).or (lastStmt b!"URL" S) = none ∧
            ∃ text, E.fs ((lastArg ch%'f' (fun _ => true) os).getD E.poundConf) = .reg text ∧ getSocketName text = some url))) ∧
      p.srv.cert = (lastArg ch%'K' (fun _ => true) G).or (lastStmt b!"ClientCert" S) ∧
      p.srv.caPath = (lastArg ch%'C' (fun a => decide (E.fs a = .dir)) G).or (lastStmt b!"CAPath" S) ∧
      p.srv.caFile = (lastArg ch%'C' (fun a => !decide (E.fs a = .dir)) G).or (lastStmt b!"CAFile" S) ∧
      (p.srv.verify = true ↔ .opt ch%'k' none ∉ G ∧
        ((∃ w ∈ yesWords, lastStmt b!"Verify" S = some w) ∨ (lastStmt b!"Verify" S = none ∧ n = none))) ∧
      (p.json = true ↔ .opt ch%'j' none ∈ os) ∧ p.indent = lastArg ch%'i' (fun _ => true) os ∧
      p.tmplName = ((lastArg ch%'T' (fun _ => true) os).or (lastStmt b!"TemplateName" (sectStmts none none evs))).getD b!"default" ∧
      ctlCommand args = some (p.verb, p.args) ∧
      readTemplate E (E.tpath.getD (b!"~/.poundctl.tmpl:" ++ E.pkgdata))
        (((lastArg ch%'t' (fun _ => true) os).or (lastStmt b!"TemplateFile" (sectStmts none none evs))).getD b!"poundctl.tmpl") = .inr p.tmpl := by
  unfold ctlMain at h
  cases hc : ctlReadConfig E with
  | none => rw [hc] at h; cases h
  | some cfg =>
    rw [hc] at h
    dsimp only at h
    cases ho : ctlOpts E.fs { cfg := cfg, conf := E.poundConf } (getoptArgs ctlOptSpec E.posix argv).1 with
    | inl n => rw [ho] at h; cases h
    | inr s =>
      rw [ho] at h
      dsimp only at h
      have d := ctlOpts_done _ _ _ ho
      have hcl := (C98_command_line ctlOptSpec E.posix argv _ _).mp ⟨rfl, d.good⟩
      revert hcl d h
      generalize (getoptArgs ctlOptSpec E.posix argv).1 = os
      generalize (getoptArgs ctlOptSpec E.posix argv).2 = args
      intro h d hcl
      obtain ⟨evs, he, hb, hev⟩ := ctlReadConfig_evs hc
      have dd := ctlEvs_done evs _ _ none hb rfl hev
      have dt := ctlEvs_tmpl evs _ _ none hev
      have hsel := d.selFound rfl
      have hs := d.sel
      dsimp only at hs
      obtain ⟨v, hv⟩ := Option.isSome_iff_exists.mp hsel
      -- the server selected
      have key : ∃ v0, cfg.get s.sel = some v0 ∧ (∀ m, s.sel = some m → timesOpened m evs = 1) ∧
          StmtsGive (sectStmts s.sel none evs) { verify := decide (s.sel = none) } v0 := by
        cases hm : s.sel with
        | none =>
          obtain ⟨v0, h1, h2⟩ := dd.srv none _ rfl
          exact ⟨v0, h1, by simp, h2⟩
        | some m =>
          rcases dd.fresh m rfl with ⟨-, h1⟩ | ⟨h1, v0, h2, h3⟩
          · have := d.new (some m) h1
            rw [hm, this] at hv
            cases hv
          · exact ⟨v0, h2, by rintro _ ⟨⟩; exact h1, h3⟩
      obtain ⟨v0, h0, hone, hgive⟩ := key
      obtain ⟨v1, h1, hopts⟩ := d.srv s.sel v0 h0
      rw [hv] at h1
      injection h1 with h1
      subst h1
      rw [hv] at h
      dsimp only [Option.getD_some] at h
      cases hu : v.url.orElse fun _ => socketFrom E s.conf with
      | none => rw [hu] at h; cases h
      | some url =>
        rw [hu] at h
        dsimp only at h
        cases hcmd : ctlCommand args with
        | none => rw [hcmd] at h; cases h
        | some va =>
          obtain ⟨verb, as⟩ := va
          rw [hcmd] at h
          dsimp only at h
          cases hrt : readTemplate E (E.tpath.getD (dfltTmplPath E)) s.cfg.tmplFile with
          | inl n => rw [hrt] at h; cases h
          | inr tmpl =>
            rw [hrt] at h
            dsimp only at h
            cases hup : urlParse E.resolve url with
            | none => rw [hup] at h; cases h
            | some u =>
              rw [hup] at h
              injection h with h
              subst h
              refine ⟨evs, os, args, he, hcl, ?_⟩
              have hs' : selected none os = s.sel := hs.symm
              dsimp only
              rw [hs']
              obtain ⟨g1, g2, g3, g4, g5⟩ := hgive
              obtain ⟨o1, o2, o3, o4, o5⟩ := hopts
              dsimp only at o1 o2 o3 o4 o5
              simp only [Option.or_none] at g1 g2 g3 g4
              rw [g1] at o1
              rw [g2] at o2
              rw [g3] at o3
              rw [g4] at o4
              rw [g5] at o5
              have hcon := d.conf
              have hind := d.indent
              have hjs := d.json
              have htn := d.tname
              have htf := d.tfile
              dsimp only at hcon hind hjs htn htf
              refine ⟨hone, ⟨url, rfl, hup, ?_⟩, o2, o3, o4, ?_, ?_, ?_, ?_, hcmd, ?_⟩
              · rw [o1] at hu
                cases hx : (lastArg ch%'s' (fun _ => true) (givenFor s.sel none os)).or (lastStmt b!"URL" (sectStmts s.sel none evs)) with
                | some w =>
                  rw [hx] at hu
                  left
                  simpa using hu
                | none =>
                  rw [hx] at hu
                  right
                  refine ⟨rfl, ?_⟩
                  have hu' : socketFrom E s.conf = some url := by simpa using hu
                  rw [hcon] at hu'
                  unfold socketFrom at hu'
                  split at hu'
                  · rename_i text hf; exact ⟨text, hf, hu'⟩
                  · cases hu'
              · rw [o5]
                by_cases hk : OptItem.opt ch%'k' none ∈ givenFor s.sel none os
                · simp [hk]
                · cases hw : lastStmt b!"Verify" (sectStmts s.sel none evs) with
                  | none => simp [hk]
                  | some w => simp [hk]
              · rw [hjs]; simp
              · rw [hind]; simp
              · rw [htn, dt.2, ← getD_or]
              · have e : dfltTmplPath E = b!"~/.poundctl.tmpl:" ++ E.pkgdata := rfl
                rw [htf, dt.1, ← getD_or, e] at hrt
                exact hrt

/-- The template file is the one named, if the name begins with `/`, `./` or `../`; else the one provided by the first element of the search path that
provides one.  Missing for the full property: other names given by -t or TemplateFile, which are not used verbatim (`C98_template_verbatim_fails`), and
TemplatePath (`C98_template_path_fails`). -/
theorem C98_template_partial (E : CtlEnv) (path name : Bytes) :
    (∀ f text, readTemplate E path name = .inr (some (f, text)) ↔
      text ≠ [] ∧ E.tmplOk text = true ∧
        if name.head? = some ch%'/' ∨ name.take 2 = b!"./" ∨ name.take 3 = b!"../" then f = name ∧ E.fs name = .reg text
        else FirstFile E.fs E.home path name f (.reg text)) ∧
    (readTemplate E path name = .inr none ↔
      ¬ (name.head? = some ch%'/' ∨ name.take 2 = b!"./" ∨ name.take 3 = b!"../") ∧ ∀ f x, ¬ FirstFile E.fs E.home path name f x) := by
  have hfind : ¬ (name.head? = some ch%'/' ∨ name.take 2 = b!"./" ∨ name.take 3 = b!"../") →
      findTemplate E.fs E.home path name = .inr (tmplSearch E.fs E.home name (path.length + 1) path) := fun h => by
    unfold findTemplate; rw [if_neg h]
  constructor
  · intro f text
    unfold readTemplate
    by_cases hd : name.head? = some ch%'/' ∨ name.take 2 = b!"./" ∨ name.take 3 = b!"../"
    · rw [if_pos hd]
      unfold findTemplate
      rw [if_pos hd]
      cases hf : E.fs name with
      | absent => simp
      | refused => simp
      | dir => simp
      | other => simp
      | reg t =>
        dsimp only
        by_cases ht : t = []
        · subst ht; simp; rintro h - - rfl; exact h rfl
        · rw [if_neg ht]
          by_cases hok : E.tmplOk t = true
          · rw [if_pos hok]
            constructor
            · intro h; injection h with h; injection h with h
              obtain ⟨rfl, rfl⟩ := Prod.mk.inj h
              exact ⟨ht, hok, rfl, rfl⟩
            · rintro ⟨-, -, rfl, h⟩
              injection h with h
              subst h
              rfl
          · rw [if_neg hok]
            constructor
            · intro h; cases h
            · rintro ⟨-, h, -, e⟩
              injection e with e
              subst e
              exact absurd h hok
    · rw [if_neg hd, hfind hd, ← tmplSearch_first]
      cases hs : tmplSearch E.fs E.home name (path.length + 1) path with
      | none => simp
      | some r =>
        obtain ⟨g, x⟩ := r
        cases x with
        | absent => simp
        | refused => simp
        | dir => simp
        | other => simp
        | reg t =>
          dsimp only
          by_cases ht : t = []
          · subst ht; simp; rintro h - - rfl; exact h rfl
          · rw [if_neg ht]
            by_cases hok : E.tmplOk t = true
            · rw [if_pos hok]
              constructor
              · intro h; injection h with h; injection h with h
                obtain ⟨rfl, rfl⟩ := Prod.mk.inj h
                exact ⟨ht, hok, rfl⟩
              · rintro ⟨-, -, h⟩
                simp only [Option.some.injEq, Prod.mk.injEq, CtlNode.reg.injEq] at h
                obtain ⟨rfl, rfl⟩ := h
                rfl
            · rw [if_neg hok]
              constructor
              · intro h; cases h
              · rintro ⟨-, h, e⟩
                injection e with e
                obtain ⟨-, e⟩ := Prod.mk.inj e
                injection e with e
                subst e
                exact absurd h hok
  · unfold readTemplate
    by_cases hd : name.head? = some ch%'/' ∨ name.take 2 = b!"./" ∨ name.take 3 = b!"../"
    · unfold findTemplate
      rw [if_pos hd]
      constructor
      · intro h
        exfalso
        repeat' split at h
        all_goals first | cases h; done | skip
        all_goals (rename_i e; repeat' split at e)
        all_goals cases e
      · exact fun h => absurd hd h.1
    · rw [hfind hd]
      constructor
      · intro h
        refine ⟨hd, ?_⟩
        intro f x hx
        rw [← tmplSearch_first] at hx
        rw [hx] at h
        cases x <;> first | cases h; done | skip
        dsimp only at h
        repeat' split at h
        all_goals cases h
      · intro h
        cases hs : tmplSearch E.fs E.home name (path.length + 1) path with
        | none => rfl
        | some r => exact absurd ((tmplSearch_first _ _ _ _ _ _).mp hs) (h.2 r.1 r.2)

/-- With Verify on, poundctl goes on only if the authorities given were loaded and the certificate of the server, if it has one, was issued by one of them; the
client's certificate is presented if it is configured.
Missing for the full property: the name in the certificate is not looked at (`C98_other_host_fails`). -/
theorem C98_verified_partial (T : CtlTls) (srv : CtlSrv) (host : Bytes) (h : ctlTlsOpen T srv host = true) :
    T.handshake = true ∧ (∀ c, srv.cert = some c → T.certOk c = true) ∧
    (srv.verify = true → T.loads srv.caFile srv.caPath = true ∧ (T.peer ≠ none → T.chainOk srv.caFile srv.caPath = true)) := by
  unfold ctlTlsOpen at h
  simp only [Bool.if_false_left, Bool.if_true_right, Bool.and_eq_true, Bool.not_eq_true', decide_eq_true_eq, Bool.or_eq_true, Bool.not_eq_eq_eq_not,
    Bool.not_true, decide_eq_false_iff_not] at h
  obtain ⟨h1, h2, h3, h4⟩ := h
  refine ⟨by simpa using h3, ?_, ?_⟩
  · intro c hc
    rw [hc] at h2
    simpa [ctlCertOk] using h2
  · intro hv
    rw [hv] at h1 h4
    refine ⟨by simpa using h1, ?_⟩
    intro hp
    cases hpe : T.peer with
    | none => exact absurd hpe hp
    | some x => rw [hpe] at h4; simpa using h4

/-! ### Examples -/

/-- A configuration with two servers; templates are in the home directory. -/
def exCtlEnv : CtlEnv where
  fs n :=
    if n = b!"/home/u/.poundctl" then .reg b!"URL \"/run/pound\"\nServer \"web\"\n URL \"https://web.example.com/ctl\"\n CAFile \"/ca.pem\"\nEnd\nServer \"b\"\n Verify on\n URL \"http://b\"\nEnd\nTemplatePath \"/opt/tmpl\"\n"
    else if n = b!"/usr/share/pound" then .dir
    else if n = b!"/opt/tmpl" then .dir
    else if n = b!"/opt/tmpl/poundctl.tmpl" then .reg b!"opt"
    else if n = b!"/usr/share/pound/poundctl.tmpl" then .reg b!"share"
    else if n = b!"/usr/share/pound/my.tmpl" then .reg b!"other"
    else if n = b!"my.tmpl" then .reg b!"mine"
    else if n = b!"./my.tmpl" then .reg b!"mine"
    else .absent
  home := b!"/home/u"

example : ctlMain exCtlEnv [b!"-t", b!"./my.tmpl", b!"off", b!"/0/1"] =
    .inr ⟨{ url := some b!"/run/pound", verify := true }, ⟨false, .unix b!"/run/pound", b!"localhost", [], none, none⟩, .disable, [b!"/0/1"], false, none,
      b!"default", some (b!"./my.tmpl", b!"mine")⟩ := by decide +kernel

example : ctlMain exCtlEnv [b!"-S", b!"b", b!"-j", b!"-k"] =
    .inr ⟨{ url := some b!"http://b" }, ⟨false, .inet b!"b" b!"80", b!"b", [], none, none⟩, .list, [], true, none,
      b!"default", some (b!"/usr/share/pound/poundctl.tmpl", b!"share")⟩ := by decide +kernel

/-- Unknown option, server, command; missing argument -/
example : ctlMain exCtlEnv [b!"-x"] = .inl 1 ∧ ctlMain exCtlEnv [b!"-S", b!"c"] = .inl 1 ∧ ctlMain exCtlEnv [b!"stop"] = .inl 1 ∧
    ctlMain exCtlEnv [b!"-S"] = .inl 1 ∧ ctlMain exCtlEnv [b!"-h"] = .inl 0 := by decide +kernel

/-- A server is defined twice. -/
example : ctlConfig b!"Server \"a\"\nEnd\nServer \"a\"\nEnd\n" = none := by decide +kernel

/-- The certificate of a server in a section without Verify is not verified, although the documented default is on. -/
theorem C98_verify_default_fails : (ctlMain exCtlEnv [b!"-S", b!"web"]).map id (fun p => (p.srv.verify, p.url.tls)) = .inr (false, true) ∧
    ∃ T : CtlTls, (∀ a b, T.chainOk a b = false) ∧ ctlTlsOpen T { url := some b!"https://web.example.com/ctl", caFile := some b!"/ca.pem" } b!"web.example.com" = true :=
  ⟨by decide +kernel, ⟨fun _ _ => true, fun _ => true, true, some [b!"web.example.com"], fun _ _ => false⟩, fun _ _ => rfl, rfl⟩

/-- Options before -S are dropped: another server is used than the one given with -s, and its certificate is verified despite -k. -/
theorem C98_option_order_fails : (ctlMain exCtlEnv [b!"-k", b!"-s", b!"http://localhost", b!"-S", b!"b"]).map id (fun p => (p.srv.url, p.srv.verify)) =
      .inr (some b!"http://b", true) ∧
    (ctlMain exCtlEnv [b!"-S", b!"b", b!"-k", b!"-s", b!"http://localhost"]).map id (fun p => (p.srv.url, p.srv.verify)) =
      .inr (some b!"http://localhost", false) := by decide +kernel

/-- TemplatePath in the configuration has no effect: the template is read from the default path. -/
theorem C98_template_path_fails : (ctlMain exCtlEnv []).map id (·.tmpl) = .inr (some (b!"/usr/share/pound/poundctl.tmpl", b!"share")) ∧
    exCtlEnv.fs b!"/opt/tmpl/poundctl.tmpl" = .reg b!"opt" := by decide +kernel

/-- The file given with -t is searched for, although there is a file of that name. -/
theorem C98_template_verbatim_fails : (ctlMain exCtlEnv [b!"-t", b!"my.tmpl"]).map id (·.tmpl) =
      .inr (some (b!"/usr/share/pound/my.tmpl", b!"other")) ∧ exCtlEnv.fs b!"my.tmpl" = .reg b!"mine" := by decide +kernel

/-- An empty template file makes poundctl fail, whatever it is asked to do. -/
theorem C98_empty_template_fails : ctlMain { exCtlEnv with tpath := some b!"/e", fs := fun n => if n = b!"/e" then .reg [] else exCtlEnv.fs n } [b!"off", b!"/0"] = .inl 1 := by
  decide +kernel

/-- A certificate issued for another host is accepted. -/
theorem C98_other_host_fails : ∃ T : CtlTls, T.peer = some [b!"evil.example.com"] ∧ ctlTlsOpen T { verify := true } b!"web.example.com" = true :=
  ⟨⟨fun _ _ => true, fun _ => true, true, some [b!"evil.example.com"], fun _ _ => true⟩, rfl, rfl⟩

end Pound.Props
