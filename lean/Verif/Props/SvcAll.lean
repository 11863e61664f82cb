import Verif.Proof.SvcAll
import Verif.Model.Balance

/-!
C92: a service section as a whole, with its sessions, is read as written.
-/

namespace Pound.Props

open Spec

/-! ### Concrete services -/

private def env : CfgEnv := ⟨false, fun _ => true, fun _ => true, fun _ => true, fun _ => true, fun _ => none⟩

private def beEnv : BeEnv := ⟨fun _ => none, fun _ => true, fun _ => none⟩

private def dfl : SvcDfl := ⟨⟨.posix, false⟩, ⟨15, 15, 600⟩, .random⟩

/-- The tokens of a text -/
private def toksOf (s : Bytes) : List Tok :=
  let rec go : Nat → Bytes → List Tok
    | 0, _ => []
    | n + 1, s => if (lexTok s).tok = .eof then [] else (lexTok s).tok :: go n (lexTok s).rest
  go s.length s

private def isWord (l : List Bytes) : Tok → Bool
  | .ident n => l.any fun w => ciEq w n
  | _ => false

private theorem plain_of {ts : List Tok} (h : (ts.any (isWord [b!"Not", b!"Host", b!"Rewrite"])) = false) : ¬ NotNot ts ∧ ¬ HostFile .posix ts ∧ ¬ Response ts := by
  have key : ∀ {w n : Bytes} {pre post : List Tok}, ts = pre ++ .ident n :: post → w ∈ [b!"Not", b!"Host", b!"Rewrite"] → ciEq w n = true → False := by
    rintro w n pre post rfl hw hn
    have : (pre ++ .ident n :: post).any (isWord [b!"Not", b!"Host", b!"Rewrite"]) = true := by
      rw [List.any_append, List.any_cons, show isWord [b!"Not", b!"Host", b!"Rewrite"] (.ident n) = true from List.any_eq_true.mpr ⟨w, hw, hn⟩]
      simp
    rw [this] at h
    cases h
  refine ⟨?_, ?_, ?_⟩
  · rintro ⟨pre, n, bl, m, post, rfl, hb, h1, h2⟩
    exact key rfl (by simp) h1
  · rintro ⟨pre, n, opts, p, post, rfl, h1, h2, h3⟩
    exact key rfl (by simp) h1
  · rintro ⟨pre, n, m, post, rfl, h1, h2⟩
    exact key rfl (by simp) h1

/-- A service that has two kinds of backends, sessions, trusted addresses, a name of a header and a condition -/
private def exText : List Tok := toksOf b!"\"s\"\n  URL \"^/a\"\n  Error 404\n  Session\n    TTL 300\n    Type Cookie\n    ID \"x\"\n    ID \"sid\"\n  End\n  Emergency\n    Address \"/tmp/s\"\n  End\n  TrustedIP\n    \"10.0.0.0/8\"\n    \"::1\"\n  End\n  ForwardedHeader \"X-Fwd\"\n  LogSuppress info\n  Balancer iwrr\nEnd\n"

private theorem exPlain : ¬ NotNot exText ∧ ¬ HostFile .posix exText ∧ ¬ Response exText := plain_of (by decide +kernel)

private def exSvc : SvcCfg := ⟨dfl.re, [.test (.url ⟨.posix, false, false, b!"^/a"⟩)], [], [], false⟩

private def exRest : SvcRest where
  bes := ⟨.iwrr, [⟨0, [⟨1, 0, .error 404 none⟩]⟩, ⟨65535, [⟨5, 0, .mtx ⟨some b!"/tmp/s", 0, .any, .immediate, 0, false, 0, 120, 120, 120, none, none⟩⟩]⟩]⟩
  sess := ⟨.cookie, 300, some b!"sid"⟩
  fwd := some b!"X-Fwd"
  trusted := some (.aclOf [b!"10.0.0.0/8", b!"::1"])
  suppress := 2

set_option maxRecDepth 100000 in
private theorem exAccepted : parseService env beEnv 30 [] dfl exText 0 = .ok ⟨(exSvc, exRest), [.nl], 0⟩ := rfl

/-! ## C92 A service is what its section says -/

/-- If a service is accepted, without messages about stray tokens, then the text up to where parsing stopped is a section as documented, each Session section in it is complete
where it ends, and the backends, the sessions, the trusted addresses, the name of the header and what is not logged are those written, the last one of each kind.
Missing: what C70 and C71 leave out. -/
theorem C92_as_written_partial (e : CfgEnv) (be : BeEnv) (n : Nat) (names : List Bytes) (d : SvcDfl) (ts : List Tok) (er : Nat) (s : LSt (SvcCfg × SvcRest))
    (h : parseService e be n names d ts er = .ok s) (he : s.errs = er) (hn : ¬ NotNot ts) (hh : ¬ HostFile d.re.reType ts) (hr : ¬ Response ts) :
    ∃ a cs ss l, ts = a ++ s.toks ∧ SvcSect e (RestLine e be d.be) d.re names a cs ss s.data.1.disabled l ∧ SessOrder l ∧ RestMeans d.algo l s.data.2 := by
  obtain ⟨a, cs, ss, b, l, h1, h2, _, _, h5, _, h7, h8⟩ := parseService_sound h he ⟨hn, hh⟩ hr
  exact ⟨a, cs, ss, l, h1, h5 ▸ h2, h7, h8⟩

example : ∃ a cs ss l, exText = a ++ [.nl] ∧ SvcSect env (RestLine env beEnv dfl.be) dfl.re [] a cs ss false l ∧ SessOrder l ∧ RestMeans .random l exRest :=
  C92_as_written_partial env beEnv 30 [] dfl exText 0 _ exAccepted rfl exPlain.1 exPlain.2.1 exPlain.2.2

/-- Conversely every section as documented, in which sessions are complete, is accepted, whatever follows it, and gives the service it says. -/
theorem C92_accepted_partial (e : CfgEnv) (be : BeEnv) (d : SvcDfl) (names : List Bytes) (a : List Tok) (cs : List (Formula CTest)) (ss : List RwStmt) (b : Bool)
    (l : List RestItem) (y : SvcRest) (h : SvcSect e (RestLine e be d.be) d.re names a cs ss b l) (hs : SessOrder l) (hy : RestMeans d.algo l y)
    (hn : ¬ NotNot a) (hh : ¬ HostFile d.re.reType a) :
    ∃ (x : SvcCfg) (N : Nat), condFormulas x.conds = cs ∧ x.disabled = b ∧ ∀ n, N ≤ n → ∀ r er, parseService e be n names d (a ++ r) er = .ok ⟨(x, y), r, er⟩ := by
  obtain ⟨x, N, h1, _, _, h4, h5⟩ := parseService_complete h ⟨hn, hh⟩ hs hy
  exact ⟨x, N, h1, h4, h5⟩

example : ∃ a cs ss l, SvcSect env (RestLine env beEnv dfl.be) dfl.re [] a cs ss false l ∧ SessOrder l ∧ RestMeans .random l exRest ∧ ¬ NotNot a ∧ ¬ HostFile .posix a := by
  obtain ⟨a, cs, ss, l, h1, h2, h3, h4⟩ := C92_as_written_partial env beEnv 30 [] dfl exText 0 _ exAccepted rfl exPlain.1 exPlain.2.1 exPlain.2.2
  exact ⟨a, cs, ss, l, h2, h3, h4, fun h => exPlain.1 (h1 ▸ NotNot_left h), fun h => exPlain.2.1 (h1 ▸ HostFile_left h)⟩

/-- Whatever is written in a section that is accepted, with messages or not: the service has no sessions, or it has a type of sessions and a time that is not zero, and a name
if its type of sessions looks for one. -/
theorem C92_sessions_complete (e : CfgEnv) (be : BeEnv) (n : Nat) (names : List Bytes) (d : SvcDfl) (ts : List Tok) (er : Nat) (s : LSt (SvcCfg × SvcRest))
    (h : parseService e be n names d ts er = .ok s) :
    s.data.2.sess.type = .none ∨ (s.data.2.sess.ttl ≠ 0 ∧ (s.data.2.sess.type = .url ∨ s.data.2.sess.type = .cookie ∨ s.data.2.sess.type = .header → s.data.2.sess.id ≠ none)) := by
  rcases parseService_safe h with h | h
  · exact .inl h
  · right
    simp only [sessOk, Bool.and_eq_true, bne_iff_ne, ne_eq] at h
    refine ⟨h.1.2, ?_⟩
    rintro (hk | hk | hk) hi <;> rw [hk, hi] at h <;> exact absurd h.2 (by decide)

example : exRest.sess.type = .none ∨ (exRest.sess.ttl ≠ 0 ∧ (exRest.sess.type = .url ∨ exRest.sess.type = .cookie ∨ exRest.sess.type = .header → exRest.sess.id ≠ none)) :=
  C92_sessions_complete env beEnv 30 [] dfl exText 0 _ exAccepted

/-- So the name of sessions is never used in a service that has none: the keys of requests and of replies do not depend on it. -/
theorem C92_name_not_used (e : CfgEnv) (be : BeEnv) (n : Nat) (names : List Bytes) (d : SvcDfl) (ts : List Tok) (er : Nat) (s : LSt (SvcCfg × SvcRest))
    (h : parseService e be n names d ts er = .ok s) (hi : s.data.2.sess.id = none) (x y addr : Bytes) (r : Req) (hs : List Header) :
    requestKey s.data.2.sess.type x addr r hs = requestKey s.data.2.sess.type y addr r hs ∧ responseKey s.data.2.sess.type x hs = responseKey s.data.2.sess.type y hs := by
  have := C92_sessions_complete e be n names d ts er s h
  cases hk : s.data.2.sess.type with
  | cookie => rw [hk] at this; simp [hi] at this
  | url => rw [hk] at this; simp [hi] at this
  | header => rw [hk] at this; simp [hi] at this
  | _ => exact ⟨rfl, rfl⟩

private def ipText : List Tok := toksOf b!"\nSession\nType IP\nTTL 60\nEnd\nEnd\n"

set_option maxRecDepth 100000 in
example : ∃ s, parseService env beEnv 20 [] dfl ipText 0 = .ok s ∧ s.data.2.sess.id = none ∧ s.data.2.sess.type = .ip := ⟨_, rfl, rfl, rfl⟩

set_option maxRecDepth 100000 in
/-- ID is documented to be permitted only in sessions of the types URL, COOKIE and HEADER; it is accepted, and ignored, in those of other types (/repo/doc/pound.8:2181-2184). -/
theorem C92_id_fails : ∃ x y, parseService env beEnv 20 [] dfl (toksOf b!"\nSession\nType IP\nID \"sid\"\nTTL 60\nEnd\nEnd\n") 0 = .ok ⟨(x, y), [.nl], 0⟩ ∧
    y.sess = ⟨.ip, 60, some b!"sid"⟩ := ⟨_, _, rfl, rfl⟩

set_option maxRecDepth 100000 in
/-- Type and TTL are documented to be mandatory; after a first Session section, one without them is accepted. -/
theorem C92_mandatory_fails : ∃ x y, parseService env beEnv 30 [] dfl (toksOf b!"\nSession\nType COOKIE\nID \"sid\"\nTTL 60\nEnd\nSession\nID \"t\"\nEnd\nEnd\n") 0 =
    .ok ⟨(x, y), [.nl], 0⟩ ∧ y.sess = ⟨.cookie, 60, some b!"t"⟩ := ⟨_, _, rfl, rfl⟩

set_option maxRecDepth 100000 in
-- In the first one they are mandatory; a time of zero is none.
example : parseService env beEnv 20 [] dfl (toksOf b!"\nSession\nType COOKIE\nTTL 60\nEnd\nEnd\n") 0 = .fail ∧
    parseService env beEnv 20 [] dfl (toksOf b!"\nSession\nType IP\nTTL 0\nEnd\nEnd\n") 0 = .fail ∧
    parseService env beEnv 20 [] dfl (toksOf b!"\nSession\nTTL 5\nEnd\nEnd\n") 0 = .fail := ⟨rfl, rfl, rfl⟩

end Pound.Props
