import Verif.Proof.HostCond
import Verif.Proof.SvcMatch
import Verif.Proof.CfgList

/-!
C70, C71: the conditions and the rewriting rules of a service are those written in the configuration file.
-/

namespace Pound.Props

open Spec

/-! ### Concrete services -/

/-- Everything compiles and exists; there is one file of patterns. -/
private def env : CfgEnv := ⟨false, fun _ => true, fun _ => true, fun _ => true, fun _ => true, fun f => if f = b!"pat" then some b!"/x\n/y\n" else none⟩

/-- The tokens of a text -/
private def toksOf (s : Bytes) : List Tok :=
  let rec go : Nat → Bytes → List Tok
    | 0, _ => []
    | n + 1, s => if (lexTok s).tok = .eof then [] else (lexTok s).tok :: go n (lexTok s).rest
  go s.length s

private def beEnv : BeEnv := ⟨fun _ => none, fun _ => true, fun _ => none⟩

private def dfl : SvcDfl := ⟨⟨.posix, false⟩, ⟨15, 15, 600⟩, .random⟩

private def isKw (kw : Bytes) : Tok → Bool
  | .ident n => ciEq kw n
  | _ => false

private def notNext : List Tok → Bool
  | .nl :: r => notNext r
  | t :: _ => isKw b!"Not" t
  | [] => false

def hasNotNot : List Tok → Bool
  | [] => false
  | t :: r => (isKw b!"Not" t && notNext r) || hasNotNot r

/-- The options at the beginning select a file of names. -/
private def namesFile : List Bytes → List Tok → Bool
  | o, .literal x :: r => namesFile (o ++ [x]) r
  | o, .string _ :: _ => o.contains b!"-file" && [GKind.exact, .beg, .suffix, .contain].contains (lastOr .exact (o.filterMap (optKind .posix)))
  | _, _ => false

private def hasHostFile : List Tok → Bool
  | [] => false
  | t :: r => (isKw b!"Host" t && namesFile [] r) || hasHostFile r

private def hasResponse : List Tok → Bool
  | .ident n :: .ident m :: r => (ciEq b!"Rewrite" n && ciEq m b!"response") || hasResponse (.ident m :: r)
  | _ :: r => hasResponse r
  | [] => false

theorem notNot_of {ts : List Tok} (h : hasNotNot ts = false) : ¬ NotNot ts := by
  rintro ⟨pre, n, bl, m, post, rfl, hb, h1, h2⟩
  induction pre with
  | nil =>
    have : notNext (bl ++ .ident m :: post) = true := by
      clear h
      induction bl with
      | nil => simp [notNext, isKw, h2]
      | cons t bl ih =>
        have ht := hb t (by simp)
        subst ht
        exact ih fun t ht => hb t (by simp [ht])
    simp [hasNotNot, isKw, h1, this] at h
  | cons t pre ih => simp [hasNotNot] at h; exact ih (by simpa using h.2)

private theorem namesFile_lits (o opts : List Bytes) (p : Bytes) (post : List Tok) :
    namesFile o (opts.map .literal ++ .string p :: post) = namesFile (o ++ opts) (.string p :: post) := by
  induction opts generalizing o with
  | nil => simp
  | cons x opts ih => rw [List.map_cons, List.cons_append, namesFile, ih]; simp

private theorem hostFile_of {ts : List Tok} (h : hasHostFile ts = false) : ¬ HostFile .posix ts := by
  rintro ⟨pre, n, opts, p, post, rfl, h1, h2, h3⟩
  induction pre with
  | nil =>
    have : namesFile [] (opts.map .literal ++ .string p :: post) = true := by
      rw [namesFile_lits, namesFile, List.nil_append, Bool.and_eq_true]
      exact ⟨by simpa using h2, by simpa using h3⟩
    simp [hasHostFile, isKw, h1, this] at h
  | cons t pre ih => simp [hasHostFile] at h; exact ih (by simpa using h.2)

private theorem hasResponse_tail {t : Tok} {r : List Tok} (h : hasResponse (t :: r) = false) : hasResponse r = false := by
  unfold hasResponse at h
  split at h
  · rename_i h'; cases h'; simpa using (Bool.or_eq_false_iff.mp h).2
  · rename_i h'; cases h'; exact h
  · rename_i h'; cases h'

private theorem response_of {ts : List Tok} (h : hasResponse ts = false) : ¬ Response ts := by
  rintro ⟨pre, n, m, post, rfl, h1, h2⟩
  induction pre with
  | nil => simp [hasResponse, h1, h2] at h
  | cons t pre ih => exact ih (hasResponse_tail h)

/-- A service with conditions of several kinds and with rules -/
private def exText : List Tok := toksOf b!"\"web\"\n  Host -end \".example.org\"\n  Host -re -file \"pat\"\n  Match OR\n    URL \"^/a\"\n    Not Path -beg -icase \"/b\"\n    Query -file \"pat\"\n  End\n  SetHeader \"X-A: 1\"\n  Rewrite\n    Path \"/c\"\n    SetPath \"/d\"\n  Else\n    Header \"^X: y\"\n    Rewrite\n      SetQuery \"q\"\n    End\n  End\n  Backend\n    Address \"/tmp/s\"\n  End\n  Session\n    Type COOKIE\n    ID \"sid\"\n    TTL 300\n  End\n  TrustedIP \"lan\"\n  LogSuppress info success\n  Disabled yes\nEnd\n"

private theorem exPlain : ¬ NotNot exText ∧ ¬ HostFile .posix exText ∧ ¬ Response exText :=
  ⟨notNot_of (by decide +kernel), hostFile_of (by decide +kernel), response_of (by decide +kernel)⟩

/-- What is read from it -/
private def exSvc : SvcCfg where
  dfl := dfl.re
  conds := [.test (.host ⟨.posix, true, false, b!"^Host:[[:space:]]*.*\\.example\\.org$"⟩),
    .bool .or [.test (.host ⟨.posix, true, false, b!"^Host:[[:space:]]*/x"⟩), .test (.host ⟨.posix, true, false, b!"^Host:[[:space:]]*/y"⟩)],
    .bool .or [.test (.url ⟨.posix, false, false, b!"^/a"⟩), .bool .not [.test (.path ⟨.beg, true, false, b!"/b"⟩)],
      .bool .or [.test (.query ⟨.posix, false, false, b!"/x"⟩), .test (.query ⟨.posix, false, false, b!"/y"⟩)]]]
  req := [.mk [] [.prim (.hdrSet b!"X-A: 1")] .null,
    .mk [.test (.path ⟨.posix, false, false, b!"/c"⟩)] [.prim (.pathSet b!"/d")]
      (.mk [.test (.hdr ⟨.posix, true, true, b!"^X: y"⟩)] [.rule (.mk [] [.prim (.querySet b!"q")] .null)] .null)]
  resp := []
  disabled := true

private def exRest : SvcRest where
  bes := ⟨.random, [⟨0, [⟨5, 0, .mtx ⟨some b!"/tmp/s", 0, .any, .immediate, 0, false, 0, 15, 15, 600, none, none⟩⟩]⟩]⟩
  sess := ⟨.cookie, 300, some b!"sid"⟩
  fwd := none
  trusted := some (.acl b!"lan")
  suppress := 6

set_option maxRecDepth 100000 in
private theorem exAccepted : parseService env beEnv 30 [] dfl exText 0 = .ok ⟨(exSvc, exRest), [.nl], 0⟩ := rfl

/-! ## C70 The conditions of a service are those written in its section -/

/-- If a service is accepted, without messages about stray tokens, then the text up to where parsing stopped is a section as documented; the conditions of the service are
the formulas written in it, in order, and it is disabled if the last Disabled says so.  Missing: `Not Not` (see below), Host with a file of names (C70_name_file_fails) and rules for responses. -/
theorem C70_as_written_partial (e : CfgEnv) (be : BeEnv) (n : Nat) (names : List Bytes) (d : SvcDfl) (ts : List Tok) (er : Nat) (s : LSt (SvcCfg × SvcRest))
    (h : parseService e be n names d ts er = .ok s) (he : s.errs = er) (hn : ¬ NotNot ts) (hh : ¬ HostFile d.re.reType ts) (hr : ¬ Response ts) :
    ∃ a cs ss l, ts = a ++ s.toks ∧ SvcSect e (RestLine e be d.be) d.re names a cs ss s.data.1.disabled l ∧ condFormulas s.data.1.conds = cs := by
  obtain ⟨a, cs, ss, b, l, h1, h2, h3, _, h5, _⟩ := parseService_sound h he ⟨hn, hh⟩ hr
  exact ⟨a, cs, ss, l, h1, h5 ▸ h2, h3⟩

example : ∃ a cs ss l, exText = a ++ [.nl] ∧ SvcSect env (RestLine env beEnv dfl.be) dfl.re [] a cs ss true l ∧ condFormulas exSvc.conds = cs :=
  C70_as_written_partial env beEnv 30 [] dfl exText 0 _ exAccepted rfl exPlain.1 exPlain.2.1 exPlain.2.2

/-- Conversely every section as documented is accepted, whatever follows it, and gives these conditions.  (`N` bounds the number of statements and how deep they are nested:
the program has no such limit.) -/
theorem C70_accepted_partial (e : CfgEnv) (be : BeEnv) (d : SvcDfl) (names : List Bytes) (a : List Tok) (cs : List (Formula CTest)) (ss : List RwStmt) (b : Bool)
    (l : List RestItem) (h : SvcSect e (RestLine e be d.be) d.re names a cs ss b l) (hs : SessOrder l) (hn : ¬ NotNot a) (hh : ¬ HostFile d.re.reType a) :
    ∃ (x : SvcCfg) (y : SvcRest) (N : Nat), condFormulas x.conds = cs ∧ x.disabled = b ∧ ∀ n, N ≤ n → ∀ r er, parseService e be n names d (a ++ r) er = .ok ⟨(x, y), r, er⟩ := by
  obtain ⟨x, y, N, h1, _, _, h4, h5⟩ := parseService_accepts h ⟨hn, hh⟩ hs
  exact ⟨x, y, N, h1, h4, h5⟩

/-- The section of the example -/
private theorem exSect : ∃ a cs ss l, exText = a ++ [.nl] ∧ SvcSect env (RestLine env beEnv dfl.be) dfl.re [] a cs ss true l ∧ cs = condFormulas exSvc.conds ∧
    SameRuns (rulesStmts exSvc.req) ss ∧ StmtsOrs ss ∧ SessOrder l := by
  obtain ⟨a, cs, ss, b, l, h1, h2, h3, h4, h5, _, h6, _⟩ := parseService_sound exAccepted rfl ⟨exPlain.1, exPlain.2.1⟩ exPlain.2.2
  have hb : b = true := h5.symm
  subst hb
  refine ⟨a, cs, ss, l, h1, h2, h3.symm, h4.runs, h4.ors.mp ?_, h6⟩
  simp [exSvc, rulesStmts, ruleBranches, StmtsOrs, StmtOrs, BranchOrs, NoEmptyOr, NoEmptyOrs, condFormulas, condFormula, ropStmts, ropStmt]

example : ∃ a cs ss l, SvcSect env (RestLine env beEnv dfl.be) dfl.re [] a cs ss true l ∧ SessOrder l ∧ ¬ NotNot a ∧ ¬ HostFile .posix a ∧ cs.length = 3 := by
  obtain ⟨a, cs, ss, l, h1, h2, h3, _, _, h6⟩ := exSect
  exact ⟨a, cs, ss, l, h2, h6, fun h => exPlain.1 (h1 ▸ NotNot_left h), fun h => exPlain.2.1 (h1 ▸ HostFile_left h), by rw [h3]; rfl⟩

/-- What a written condition tests, given the compiled patterns and the numbers of the access lists, files of users and certificates -/
inductive TestsAs (k : Installed) : CTest → Elem → Prop
  | acl {n : Bytes} : TestsAs k (.acl n) (.acl (k.acl n))
  | nets {l : List Bytes} : TestsAs k (.aclOf l) (.acl (k.nets l))
  | url {p : Pattern} : TestsAs k (.url p) (.url (k.re p))
  | path {p : Pattern} : TestsAs k (.path p) (.path (k.re p))
  | query {p : Pattern} : TestsAs k (.query p) (.query (k.re p))
  | param {n : Bytes} {p : Pattern} : TestsAs k (.param n p) (.param n (k.re p))
  | hdr {p : Pattern} : TestsAs k (.hdr p) (.hdr (k.re p))
  | host {p : Pattern} : TestsAs k (.host p) (.host (k.re p))
  | auth {f : Bytes} : TestsAs k (.auth f) (.auth (k.auth f))
  | str {t : Bytes} {p : Pattern} : TestsAs k (.strMatch t p) (.strMatch t (k.re p))
  | cert {f : Bytes} : TestsAs k (.cert f) (.cert (k.cert f))

/-- What a written modification does -/
inductive ActsAs (k : Installed) : CPrim → RwPrim → Prop
  | del {p : Pattern} : ActsAs k (.hdrDel p) (.hdrDel (k.re p))
  | set {t : Bytes} : ActsAs k (.hdrSet t) (.hdrSet t)
  | param {n t : Bytes} : ActsAs k (.paramSet n t) (.paramSet n t)
  | url {t : Bytes} : ActsAs k (.urlSet t) (.urlSet t)
  | path {t : Bytes} : ActsAs k (.pathSet t) (.pathSet t)
  | query {t : Bytes} : ActsAs k (.querySet t) (.querySet t)

theorem testsAs_eq (k : Installed) (c : CondCtx) :
    (fun (t : CTest) (s : View) (v : Option Bool) (s' : View) => ∃ el, TestsAs k t el ∧ Test c el s v s') = fun t => Test c (k.test t) := by
  funext t s v s'
  refine propext ⟨?_, fun h => ⟨k.test t, by cases t <;> constructor, h⟩⟩
  rintro ⟨el, h1, h2⟩
  cases h1 <;> exact h2

theorem actsAs_eq (k : Installed) :
    (fun (p : CPrim) (s : View) (ok : Bool) (s' : View) => ∃ q, ActsAs k p q ∧ Act q s ok s') = fun p => Act (k.prim p) := by
  funext p s ok s'
  refine propext ⟨?_, fun h => ⟨k.prim p, by cases p <;> constructor, h⟩⟩
  rintro ⟨q, h1, h2⟩
  cases h1 <;> exact h2

/-- From the text to the choice of the service: a request is tested against the conjunction of the conditions written in the section, whatever the elementary tests do.
Missing, besides the above: disjunctions without operands (see C14). -/
theorem C70_request_tested_partial (e : CfgEnv) (be : BeEnv) (d : SvcDfl) (names : List Bytes) (a : List Tok) (cs : List (Formula CTest)) (ss : List RwStmt) (b : Bool)
    (l : List RestItem) (h : SvcSect e (RestLine e be d.be) d.re names a cs ss b l) (hs : SessOrder l) (hn : ¬ NotNot a) (hh : ¬ HostFile d.re.reType a) (ho : NoEmptyOrs cs) :
    ∃ (x : SvcCfg) (y : SvcRest) (N : Nat), (∀ n, N ≤ n → ∀ r er, parseService e be n names d (a ++ r) er = .ok ⟨(x, y), r, er⟩) ∧
      ∀ (k : Installed), (k.svc x).disabled = b ∧
        ∀ (c : CondCtx) (st : PState) (s s' : View) (v : Option Bool), Looks st s →
          Evals (fun t s v s' => ∃ el, TestsAs k t el ∧ Test c el s v s') (.and cs) s v s' →
          ∃ st', matchCond c (k.svc x).cond st = (st', .val (condCode v)) ∧ Looks st' s' := by
  obtain ⟨x, y, N, h1, _, _, h4, h5⟩ := parseService_accepts h ⟨hn, hh⟩ hs
  refine ⟨x, y, N, h5, fun k => ⟨h4, fun c st s s' v hl hv => ?_⟩⟩
  rw [← h1] at hv ho
  rw [testsAs_eq] at hv
  exact conds_eval k c ho hl hv

example : NoEmptyOrs (condFormulas exSvc.conds) := by
  simp [exSvc, NoEmptyOr, NoEmptyOrs, condFormulas, condFormula]

/-- The patterns of a file are its lines, without white space around them, empty lines and comments. -/
theorem C70_file_lines (text : Bytes) (ps : List (Option Bytes)) (h : PatternFile text ps) : fileLines text = ps.filterMap id :=
  patLines_spec h _ (Nat.le_refl _)

example : PatternFile b!"/x \n#y" [some b!"/x", none] :=
  .line (l := b!"/x ") ⟨[], b!"/x", b!" ", rfl, by simp, by simp, Or.inr ⟨⟨_, _, rfl, by decide, by decide⟩, ⟨_, b!"/", rfl, by decide, by decide⟩, by decide⟩⟩ (by decide) (by decide)
    (by decide) (.last ⟨[], b!"#y", [], rfl, by simp, by simp, Or.inr ⟨⟨_, _, rfl, by decide, by decide⟩, ⟨_, b!"#", rfl, by decide, by decide⟩, by decide⟩⟩ (by decide) (by decide)
      (by decide))

/-- There is one file with two names. -/
private def nfEnv : CfgEnv := { env with file := fun f => if f = b!"names" then some b!"a.b\nc.d\n" else none }

set_option maxRecDepth 100000 in
/-- Of a file of names only the first one is one: the second is taken for a regular expression, in which a dot stands for any character. -/
theorem C70_name_file_fails : ∃ x y, parseService nfEnv beEnv 20 [] dfl (toksOf b!"\nHost -file \"names\"\nEnd\n") 0 = .ok ⟨(x, y), [.nl], 0⟩ ∧
    condFormulas x.conds = [.or [.test (.host (hostPat .exact true b!"a.b")), .test (.host (hostPat .posix true b!"c.d"))]] ∧
    hostPat .posix true b!"c.d" ≠ hostPat .exact true b!"c.d" :=
  ⟨_, _, rfl, rfl, by decide +kernel⟩

/-- The conditions of a service with a double negation -/
private def nnText : List Tok := toksOf b!"\nNot Not URL \"/a\"\nHost \"admin\"\nEnd\n"

set_option maxRecDepth 100000 in
/-- A double negation is accepted, but it takes in the condition after it, which is then never tested: this service gets every request for /a, not only those for the host
admin. -/
theorem C70_not_not_fails : ∃ x y, parseService env beEnv 20 [] dfl nnText 0 = .ok ⟨(x, y), [.nl], 0⟩ ∧
    condFormulas x.conds = [.not (.not (.test (.url ⟨.posix, false, false, b!"/a"⟩)))] :=
  ⟨_, _, rfl, rfl⟩

/-- Two services, the first of which has IgnoreCase -/
private def icText1 : List Tok := toksOf b!"\nIgnoreCase yes\nEnd\n"
private def icText2 : List Tok := toksOf b!"\nURL \"/a\"\nEnd\n"

set_option maxRecDepth 100000 in
/-- IgnoreCase in a service is documented to override the global setting in it (see /repo/doc/pound.8); the following services have it too: the second one is parsed with the
defaults the first one leaves. -/
theorem C70_ignore_case_fails : ∃ x1 x2 x3 y1 y2 y3, parseService env beEnv 20 [] dfl icText1 0 = .ok ⟨(x1, y1), [.nl], 0⟩ ∧
    parseService env beEnv 20 [] { dfl with re := x1.dfl } icText2 0 = .ok ⟨(x2, y2), [.nl], 0⟩ ∧ condFormulas x2.conds = [.test (.url ⟨.posix, true, false, b!"/a"⟩)] ∧
    parseService env beEnv 20 [] dfl icText2 0 = .ok ⟨(x3, y3), [.nl], 0⟩ ∧ condFormulas x3.conds = [.test (.url ⟨.posix, false, false, b!"/a"⟩)] :=
  ⟨_, _, _, _, _, _, rfl, rfl, rfl, rfl, rfl⟩

/-- Parsing on tokens is parsing on the text of the files: the parser loop of C65 gives the same result on open files as it does here on their tokens, if the parsers of the
statements do. -/
theorem C70_tokens {σ : Type} (c : ParserCfg σ) (find : Bytes → Option (LParser σ)) (hd : c.depr = .ok)
    (hf : ∀ name, match c.lookup name, find name with
      | none, none => True
      | some f, some q => SameParser f.p q
      | _, _ => False)
    (n : Nat) (s : PSt σ) (ts : List Tok) (hy : Yields s.inp ts) : SameOpt (cfgparser c n s) (cfgL find c.single c.block n ⟨s.data, ts, s.msgs⟩) :=
  cfgparser_list c find hd hf n s _ ⟨rfl, hy, rfl⟩

/-- A table with one statement, which takes a string, and End -/
private def oneCfg : ParserCfg (List Bytes) where
  find name :=
    if ciEq b!"End" name then some ⟨fun s => (.fin, s), 0, false⟩
    else if ciEq b!"Name" name then
      some ⟨fun s => match s.get with | (.string x, s1) => (.ok, { s1 with data := s1.data ++ [x] }) | (_, s1) => (.fail, s1), 0, false⟩
    else none
  incl s := (.fail, s)
  single := true
  depr := .ok
  block := false

private def oneFind (name : Bytes) : Option (LParser (List Bytes)) :=
  if ciEq b!"End" name then some endParser
  else if ciEq b!"Name" name then some fun s => match s.toks with | .string x :: r => .ok ⟨s.data ++ [x], r, s.errs⟩ | _ => .fail
  else none

example (n : Nat) (s : PSt (List Bytes)) (ts : List Tok) (hy : Yields s.inp ts) : SameOpt (cfgparser oneCfg n s) (cfgL oneFind true false n ⟨s.data, ts, s.msgs⟩) := by
  refine C70_tokens oneCfg oneFind rfl (fun name => ?_) n s ts hy
  unfold ParserCfg.lookup oneCfg oneFind
  dsimp only
  cases ciEq b!"End" name with
  | true => exact fun s l h => ⟨rfl, h⟩
  | false =>
    cases ciEq b!"Name" name with
    | false => trivial
    | true =>
      rintro s ⟨d, ts, er⟩ ⟨h1, h2, h3⟩
      cases ts with
      | nil =>
        have h0 : s.get.1 = .eof := yields_nil h2
        show SameRes (match s.get with | (.string x, s1) => (.ok, { s1 with data := s1.data ++ [x] }) | (_, s1) => (.fail, s1)) .fail
        rw [show s.get = (.eof, s.get.2) by rw [← h0]]
        rfl
      | cons t r =>
        obtain ⟨h0, _, hy⟩ := yields_cons h2
        have h0 : s.get.1 = t := h0
        have he : s.get = (t, s.get.2) := by rw [← h0]
        cases t with
        | string x =>
          show SameRes (match s.get with | (.string x, s1) => (.ok, { s1 with data := s1.data ++ [x] }) | (_, s1) => (.fail, s1)) (.ok ⟨d ++ [x], r, er⟩)
          rw [he]
          exact ⟨rfl, by rw [show d = s.data from h1.symm]; rfl, hy, h3⟩
        | _ =>
          show SameRes (match s.get with | (.string x, s1) => (.ok, { s1 with data := s1.data ++ [x] }) | (_, s1) => (.fail, s1)) .fail
          rw [he]
          rfl

/-! ## C71 The modifications of a service are those written in its section -/

/-- If a service is accepted, what it does to requests is what the text says: of each Rewrite section the branch whose conditions are all true first, statements outside of
them always, everything in the order of the text. -/
theorem C71_as_written_partial (e : CfgEnv) (be : BeEnv) (n : Nat) (names : List Bytes) (d : SvcDfl) (ts : List Tok) (er : Nat) (s : LSt (SvcCfg × SvcRest))
    (h : parseService e be n names d ts er = .ok s) (he : s.errs = er) (hn : ¬ NotNot ts) (hh : ¬ HostFile d.re.reType ts) (hr : ¬ Response ts) :
    ∃ a cs ss b l, ts = a ++ s.toks ∧ SvcSect e (RestLine e be d.be) d.re names a cs ss b l ∧ SameRuns (rulesStmts s.data.1.req) ss ∧ s.data.1.resp = [] := by
  obtain ⟨a, cs, ss, b, l, h1, h2, _, h4, _, h6, _⟩ := parseService_sound h he ⟨hn, hh⟩ hr
  exact ⟨a, cs, ss, b, l, h1, h2, h4.runs, h6⟩

example : ∃ a cs ss b l, exText = a ++ [.nl] ∧ SvcSect env (RestLine env beEnv dfl.be) dfl.re [] a cs ss b l ∧ SameRuns (rulesStmts exSvc.req) ss ∧ exSvc.resp = [] :=
  C71_as_written_partial env beEnv 30 [] dfl exText 0 _ exAccepted rfl exPlain.1 exPlain.2.1 exPlain.2.2

/-- From the text to the request that is sent: every section as documented is accepted; the request is modified as the text says, and the request line sent is the resulting
one. -/
theorem C71_request_rewritten_partial (e : CfgEnv) (be : BeEnv) (d : SvcDfl) (names : List Bytes) (a : List Tok) (cs : List (Formula CTest)) (ss : List RwStmt) (b : Bool)
    (l : List RestItem) (h : SvcSect e (RestLine e be d.be) d.re names a cs ss b l) (hs : SessOrder l) (hn : ¬ NotNot a) (hh : ¬ HostFile d.re.reType a) (ho : StmtsOrs ss) :
    ∃ (x : SvcCfg) (y : SvcRest) (N : Nat), (∀ n, N ≤ n → ∀ r er, parseService e be n names d (a ++ r) er = .ok ⟨(x, y), r, er⟩) ∧
      ∀ (k : Installed) (c : CondCtx) (st : PState) (s s' : View) (ok : Bool), Looks st s →
        Spec.Runs (Evals fun t s v s' => ∃ el, TestsAs k t el ∧ Test c el s v s') (fun p s ok s' => ∃ q, ActsAs k p q ∧ Act q s ok s') ss s ok s' →
        ∃ st' r, rewriteRequest c [] (x.req.map k.rule) st = (st', .val r) ∧ (ok = true ↔ r = 0) ∧ Looks st' s' ∧ st'.req.request = s'.req.request := by
  obtain ⟨x, y, N, _, h2, _, _, h5⟩ := parseService_accepts h ⟨hn, hh⟩ hs
  refine ⟨x, y, N, h5, fun k c st s s' ok hl hv => ?_⟩
  rw [testsAs_eq, actsAs_eq] at hv
  exact rules_run k c (h2.ors.mpr ho) hl ((h2.runs _ _ _ _ _ _).mpr hv)

example : ∃ a cs ss l, SvcSect env (RestLine env beEnv dfl.be) dfl.re [] a cs ss true l ∧ SessOrder l ∧ ¬ NotNot a ∧ ¬ HostFile .posix a ∧ StmtsOrs ss := by
  obtain ⟨a, cs, ss, l, h1, h2, _, _, h3, h6⟩ := exSect
  exact ⟨a, cs, ss, l, h2, h6, fun h => exPlain.1 (h1 ▸ NotNot_left h), fun h => exPlain.2.1 (h1 ▸ HostFile_left h), h3⟩

private def respText : List Tok := toksOf b!"\nRewrite response\n  Header \"^X\"\n  SetHeader \"Y: 1\"\nElse\n  Not URL \"/a\"\n  SetHeader \"Y: 2\"\nElse\n  SetURL \"/b\"\nEnd\nEnd\n"

set_option maxRecDepth 100000 in
/-- In a rule for responses, whose only modifications are documented to be those of headers and whose conditions are Header, StringMatch, Match and Not: any condition on
requests is accepted after Not, and after a second Else any modification of requests. -/
theorem C71_response_fails : ∃ x y h1 h2, parseService env beEnv 30 [] dfl respText 0 = .ok ⟨(x, y), [.nl], 0⟩ ∧
    rulesStmts x.resp = [.cases [(.and [.test (.hdr h1)], [.act (.hdrSet b!"Y: 1")]), (.and [.not (.test (.url h2))], [.act (.hdrSet b!"Y: 2")]),
      (.and [], [.act (.urlSet b!"/b")])]] :=
  ⟨_, _, _, _, rfl, rfl⟩

set_option maxRecDepth 100000 in
-- At the place of the first Else, it is refused.
example : parseService env beEnv 30 [] dfl (toksOf b!"\nRewrite response\n  SetURL \"/b\"\nEnd\nEnd\n") 0 = .fail ∧
    parseService env beEnv 30 [] dfl (toksOf b!"\nRewrite response\nElse\n  SetURL \"/b\"\nEnd\nEnd\n") 0 = .fail :=
  ⟨rfl, rfl⟩

end Pound.Props
