import Verif.Proof.Forward
import Verif.Props.Headers
import Verif.Model.Acl
import Verif.Spec.Location

/-!
Properties C67, C68 and C69: what a backend is told about the client.
-/

namespace Pound.Props
open Pound Spec

theorem HeaderList.coded {hs : List Header} (h : HeaderList hs) : ∀ x ∈ hs, Good x ∧ Coded x := by
  have : ∀ x ∈ hs, Coded x := by
    induction h with
    | empty => simp
    | read => exact build_coded _ _
    | add _ _ ha ih => exact listAppend_coded ih ha
    | remove p _ ih => exact fun x hx => ih x (List.mem_filter.1 hx).1
    | change _ _ ih =>
      intro x hx
      rcases List.mem_append.1 hx with hx | hx
      · exact ih x (List.mem_append_left _ hx)
      · rcases List.mem_cons.1 hx with rfl | hx
        · exact change_coded _ _
        · exact ih x (List.mem_append_right _ (List.mem_cons_of_mem _ hx))
  exact fun x hx => ⟨h.good x hx, this x hx⟩

theorem forward_stages {c : FwdCfg} {hs hs' : List Header} (hh : HeaderList hs) (h : forwardHead c hs = .ok hs') : ∃ f h1 h2 h3, Stages c f hs h1 h2 h3 hs' :=
  forwardHead_inv hh.coded h

/-- A client at 10.0.0.1 that sends a Host header, the header X-Forwarded-For twice and X-SSL-Subject; it does not use TLS. -/
def fwdSample : List Header :=
  buildHeaders [] [b!"Host: a", b!"x-forwarded-for: 1.1.1.1", b!"X-Forwarded-For: 2.2.2.2", b!"X-Forwarded-Proto: https", b!"X-SSL-Subject: CN = root",
    b!"Destination: http://a:8080/x"]

def fwdSampleCfg : FwdCfg := ⟨true, true, true, .inet b!"10.0.0.1" b!"4711", 80, none, b!"10.0.0.9:81", false, some b!"inner"⟩

/-! ## C67 Forwarding headers tell who the client is -/

/-- The preparations succeed, whatever the client sends; only clients with an unnamed UNIX socket are excluded.
Missing: those, see `C67_unix_fails`. -/
theorem C67_total_partial (c : FwdCfg) (hs : List Header) (hh : HeaderList hs) (hp : c.peer ≠ .unix []) : ∃ hs', forwardHead c hs = .ok hs' := by
  have : ∃ f, fwdTexts c = .ok f := by
    unfold fwdTexts
    split
    · have : ∃ a, addr2str maxAddrBuf c.peer true = .ok a := by
        unfold addr2str
        dsimp only
        split
        · rename_i p hpp
          rw [if_neg]
          · exact ⟨_, rfl⟩
          · intro e
            apply hp
            rw [hpp]
            cases p with
            | nil => rfl
            | cons x y => simp [maxAddrBuf] at e
        · exact ⟨_, rfl⟩
        · exact ⟨_, rfl⟩
      obtain ⟨a, ha⟩ := this
      rw [ha]
      exact ⟨_, rfl⟩
    · exact ⟨_, rfl⟩
  obtain ⟨f, hf⟩ := this
  obtain ⟨h1, h2, h3, h4, e, -⟩ := forwardHead_stages c hs hh.coded hf
  exact ⟨h4, e⟩

/-- A client that connects to a UNIX socket without a name of its own, as clients do, makes the server read outside a buffer and use one that is not initialised. -/
theorem C67_unix_fails (c : FwdCfg) (hs : List Header) (hh : HeaderList hs) (hf : c.forwarded = true) (hp : c.peer = .unix []) : forwardHead c hs = .ub := by
  obtain ⟨h1, e1, -⟩ := dest_stage c hs hh.coded
  unfold forwardHead
  rw [e1]
  simp only [fwdTexts, hf, hp, if_true]
  rfl

/-- X-Forwarded-Proto: the first header of that name tells whether the client uses TLS. -/
theorem C67_proto_partial (c : FwdCfg) (hs hs' : List Header) (hh : HeaderList hs) (h : forwardHead c hs = .ok hs') (hf : c.forwarded = true) :
    HeadersNamed b!"X-Forwarded-Proto" (hs'.map (·.text)) =
      (if c.tls.isSome then b!"X-Forwarded-Proto: https" else b!"X-Forwarded-Proto: http") :: (HeadersNamed b!"X-Forwarded-Proto" (hs.map (·.text))).drop 1 := by
  obtain ⟨f, h1, h2, h3, s⟩ := forward_stages hh h
  refine (s.proto hf).trans ?_
  split <;> rfl

/-- X-Forwarded-Port: the first header of that name shows the listener's port; for UNIX sockets the header is left as the client sends it. -/
theorem C67_port_partial (c : FwdCfg) (hs hs' : List Header) (hh : HeaderList hs) (h : forwardHead c hs = .ok hs') (hf : c.forwarded = true) :
    ((∀ p, c.peer ≠ .unix p) → HeadersNamed b!"X-Forwarded-Port" (hs'.map (·.text)) =
      (b!"X-Forwarded-Port: " ++ dec c.port) :: (HeadersNamed b!"X-Forwarded-Port" (hs.map (·.text))).drop 1) ∧
    ((∃ p, c.peer = .unix p) → HeadersNamed b!"X-Forwarded-Port" (hs'.map (·.text)) = HeadersNamed b!"X-Forwarded-Port" (hs.map (·.text))) := by
  obtain ⟨f, h1, h2, h3, s⟩ := forward_stages hh h
  exact ⟨s.port hf, fun ⟨p, hp⟩ => s.noport hf hp⟩

/-- The host of a client, as it is shown -/
inductive Shown : PeerAddr → Bytes → Prop where
  | inet {h p} : h.length ≤ 1025 → Shown (.inet h p) h
  | inet6 {h p} : h.length ≤ 1025 → Shown (.inet6 h p) (b!"[" ++ h ++ b!"]")
  | unix {p s} : p.length ≤ 108 → p ≠ [] → (∀ c ∈ p, c ≠ 0) → (s = [] ∨ s.head? = some 0) → (p ++ s).length ≤ 108 → Shown (.unix (p ++ s)) p

theorem shown_text {a : PeerAddr} {t : Bytes} (h : Shown a t) : addr2str maxAddrBuf a true = .ok t := by
  cases h with
  | inet h => simp only [addr2str, true_or, if_true]; rw [List.take_of_length_le (by simp [maxAddrBuf]; omega)]
  | inet6 h => simp only [addr2str, true_or, if_true]; rw [List.take_of_length_le (by simp [maxAddrBuf]; omega)]
  | unix h1 h2 h3 h4 h5 =>
    simp only [addr2str]
    rw [List.take_of_length_le (by simp [maxAddrBuf] at h5 ⊢; omega), if_neg (by simp [h2])]
    congr 1
    have hn : ∀ c ∈ t, notNul c = true := fun c hc => by simp [notNul, h3 c hc]
    refine (takeWhile_append_of hn ?_).1
    intro c r e
    rcases h4 with rfl | h4
    · cases e
    · rw [e] at h4; injection h4 with h4; rw [h4]; rfl

/-- X-Forwarded-For: the client's address is added to the end of the first header of that name (or is a header of its own). -/
theorem C67_for_partial (c : FwdCfg) (hs hs' : List Header) (hh : HeaderList hs) (h : forwardHead c hs = .ok hs') (hf : c.forwarded = true)
    (addr : Bytes) (ha : Shown c.peer addr) (hb : ∀ x, addr.head? = some x → x ≠ 32 ∧ x ≠ 9) :
    Extended (b!"X-Forwarded-For: " ++ addr) addr (HeadersNamed b!"X-Forwarded-For" (hs.map (·.text))) (HeadersNamed b!"X-Forwarded-For" (hs'.map (·.text))) := by
  obtain ⟨f, h1, h2, h3, s⟩ := forward_stages hh h
  obtain ⟨a, e, x⟩ := s.for_ hf
  rw [shown_text ha] at e
  injection e with e
  rw [← e] at x
  have : addr.dropWhile isWs = addr := by
    cases addr with
    | nil => rfl
    | cons z r =>
      have := hb z rfl
      rw [List.dropWhile_cons, if_neg]
      intro hw
      rcases (isWs_iff z).1 hw with e | e
      · exact this.1 e
      · exact this.2 e
  rw [this] at x
  exact x

/-- Switched off, the forwarding headers are those that the client sends. -/
theorem C67_off (c : FwdCfg) (hs hs' : List Header) (hh : HeaderList hs) (h : forwardHead c hs = .ok hs') (hf : c.forwarded = false) (n : Bytes)
    (hn : n ∈ [b!"X-Forwarded-For", b!"X-Forwarded-Proto", b!"X-Forwarded-Port"]) :
    HeadersNamed n (hs'.map (·.text)) = HeadersNamed n (hs.map (·.text)) := by
  obtain ⟨f, h1, h2, h3, s⟩ := forward_stages hh h
  have d : ∀ n ∈ [b!"X-Forwarded-For", b!"X-Forwarded-Proto", b!"X-Forwarded-Port"], (∀ m ∈ sslNames, ciEq m n = false) ∧ ciEq b!"Host" n = false ∧ ciEq b!"Destination" n = false := by
    decide +kernel
  refine (s.after2 (d n hn).1 (d n hn).2.1).trans ?_
  rw [s.off hf]
  exact s.before2 (d n hn).2.2

/-- If a client sends each of these headers at most once, the backend sees each exactly once: the protocol and the port are true and the list of addresses ends with the client's.
Missing: requests with several headers of one name, see `C67_forged_fails`. -/
theorem C67_truth_partial (c : FwdCfg) (hs hs' : List Header) (hh : HeaderList hs) (h : forwardHead c hs = .ok hs') (hf : c.forwarded = true)
    (addr : Bytes) (ha : Shown c.peer addr) (hb : ∀ x, addr.head? = some x → x ≠ 32 ∧ x ≠ 9) (hi : ∀ p, c.peer ≠ .unix p)
    (hone : ∀ n ∈ [b!"X-Forwarded-For", b!"X-Forwarded-Proto", b!"X-Forwarded-Port"], (HeadersNamed n (hs.map (·.text))).length ≤ 1) :
    HeadersNamed b!"X-Forwarded-Proto" (hs'.map (·.text)) = [if c.tls.isSome then b!"X-Forwarded-Proto: https" else b!"X-Forwarded-Proto: http"] ∧
    HeadersNamed b!"X-Forwarded-Port" (hs'.map (·.text)) = [b!"X-Forwarded-Port: " ++ dec c.port] ∧
    ∃ t n v, HeadersNamed b!"X-Forwarded-For" (hs'.map (·.text)) = [t] ∧ HeaderLine t n v ∧ (v = addr ∨ ∃ a ws, v = a ++ ch%',' :: (ws ++ addr) ∧ ∀ c ∈ ws, c = 32 ∨ c = 9) := by
  have drop1 : ∀ l : List Bytes, l.length ≤ 1 → l.drop 1 = [] := fun l hl => List.drop_eq_nil_of_le hl
  refine ⟨?_, ?_, ?_⟩
  · rw [C67_proto_partial c hs hs' hh h hf, drop1 _ (hone _ (by decide))]
  · rw [(C67_port_partial c hs hs' hh h hf).1 hi, drop1 _ (hone _ (by decide))]
  · have x := C67_for_partial c hs hs' hh h hf addr ha hb
    have h1 := hone b!"X-Forwarded-For" (by decide)
    have hl : HeaderLine (b!"X-Forwarded-For: " ++ addr) b!"X-Forwarded-For" addr := by
      refine ⟨[32], by simp, by decide, ?_, by simp, hb⟩
      intro c hc
      exact (isTChar_iff c).1 ((names_tchar b!"X-Forwarded-For" (by decide)).2 c hc)
    generalize HeadersNamed b!"X-Forwarded-For" (hs.map (·.text)) = before at *
    generalize HeadersNamed b!"X-Forwarded-For" (hs'.map (·.text)) = after at *
    cases x with
    | new => exact ⟨_, _, _, rfl, hl, .inl rfl⟩
    | fill h2 =>
      rename_i t r n
      have : r = [] := by cases r with
        | nil => rfl
        | cons _ _ => simp at h1
      subst this
      exact ⟨_, _, _, rfl, hl, .inl rfl⟩
    | append h2 h3 h4 h5 =>
      rename_i t r n v' ws t'
      have : r = [] := by cases r with
        | nil => rfl
        | cons _ _ => simp at h1
      subst this
      exact ⟨_, _, _, rfl, h4, .inr ⟨_, _, rfl, h5⟩⟩

example : ∃ hs', forwardHead fwdSampleCfg fwdSample = .ok hs' ∧ hs'.map (·.text) =
    [b!"Host: inner", b!"x-forwarded-for: 1.1.1.1, 10.0.0.1", b!"X-Forwarded-For: 2.2.2.2", b!"X-Forwarded-Proto: http", b!"X-SSL-Subject: CN = root",
      b!"Destination: http://10.0.0.9:81/x", b!"X-Forwarded-Port: 80"] := by
  refine ⟨_, rfl, ?_⟩
  decide +kernel

/-- A client that sends X-Forwarded-For twice has its second header passed on: for the backend, which takes the last address of the list as the one the proxy saw, the client is
whoever it says. -/
theorem C67_forged_fails : ∃ (lines : List Bytes) (hs' : List Header), forwardHead fwdSampleCfg (buildHeaders [] lines) = .ok hs' ∧
    hs'.map (·.text) = [b!"Host: inner", b!"X-Forwarded-For: 1.1.1.1, 10.0.0.1", b!"X-Forwarded-For: 127.0.0.1", b!"X-Forwarded-Proto: http", b!"X-Forwarded-Proto: https",
      b!"X-Forwarded-Port: 80"] :=
  ⟨[b!"Host: a", b!"X-Forwarded-For: 1.1.1.1", b!"X-Forwarded-For: 127.0.0.1", b!"X-Forwarded-Proto: x", b!"X-Forwarded-Proto: https"], _, rfl, by decide +kernel⟩

/-- One server behind another one: the address of an IPv6 client is written in brackets, which the second server, reading addresses with a function that does not know brackets,
does not take for an address, whichever proxies it trusts. -/
theorem C67_brackets_fails (N : Bytes → Option (List Sockaddr)) (hN : ∀ s, s.head? = some ch%'[' → N s = none) (acl : List Cidr) (h p : Bytes) (hl : h.length ≤ 1025)
    (hc : ∀ c ∈ h, c ≠ ch%',' ∧ isSpace c = false) :
    ∃ a, addr2str maxAddrBuf (.inet6 h p) true = .ok a ∧ scanForwarded N (some a) (some acl) = none := by
  refine ⟨_, shown_text (.inet6 hl), ?_⟩
  have hw : segWord (b!"[" ++ h ++ b!"]") = b!"[" ++ h ++ b!"]" := by
    unfold segWord
    dsimp only
    rw [if_neg (by simp)]
    have h0 : (b!"[" ++ h ++ b!"]").dropWhile isSpace = b!"[" ++ h ++ b!"]" := by
      show (ch%'[' :: (h ++ b!"]")).dropWhile isSpace = _
      rw [List.dropWhile_cons, if_neg (by decide)]; rfl
    rw [h0]
    have ht : ∀ c ∈ b!"[" ++ h ++ b!"]", notSpace c = true := by
      intro c hcm
      simp only [List.mem_append, List.mem_singleton] at hcm
      rcases hcm with (rfl | hcm) | rfl
      · decide
      · simp [notSpace, (hc c hcm).2]
      · decide
    have := (takeWhile_append_of (p := []) ht (by simp)).1
    rwa [List.append_nil] at this
  have hs : ∀ k, segStart (b!"[" ++ h ++ b!"]") k = 0 := by
    intro k
    induction k with
    | zero => rfl
    | succ k ih =>
      unfold segStart
      rw [if_neg, ih]
      intro e
      have := List.mem_of_getElem? e
      simp only [List.mem_append, List.mem_singleton] at this
      rcases this with (e | e) | e
      · exact absurd e (by decide)
      · exact (hc _ e).1 rfl
      · exact absurd e (by decide)
  unfold scanForwarded
  dsimp only
  unfold scanFwd
  rw [if_neg (by simp)]
  simp only [hs, List.drop_zero, hw, aclMatchIp]
  rw [hN _ (by simp)]
  rfl

example : addr2str maxAddrBuf (.inet6 b!"::1" b!"4711") true = .ok b!"[::1]" := by decide +kernel

/-! ## C68 TLS headers come from the client's certificate -/

/-- A listener that asks for certificates, and a client that has one -/
structure HasCert (c : FwdCfg) (e : SslEnv) (x : ClientCert) : Prop where
  on : c.ssl = true
  tls : c.tls = some e
  check : e.check = true
  cert : e.cert = some x
  /-- OpenSSL prints the fields without line ends. -/
  lines : (10 : UInt8) ∉ x.subject ∧ (10 : UInt8) ∉ x.issuer ∧ (10 : UInt8) ∉ x.notBefore ∧ (10 : UInt8) ∉ x.notAfter

theorem HasCert.texts {c : FwdCfg} {e : SslEnv} {x : ClientCert} (h : HasCert c e x) : tlsTexts c = cipherTexts e.cipher ++
    ((headerFromBio b!"X-SSL-Subject" x.subject).1 ++ (headerFromBio b!"X-SSL-Issuer" x.issuer).1 ++ (headerFromBio b!"X-SSL-notBefore" x.notBefore).1 ++
      (headerFromBio b!"X-SSL-notAfter" x.notAfter).1 ++ [(b!"X-SSL-serial: " ++ decInt x.serial, .replace)] ++
      [(b!"X-SSL-certificate: " ++ List.intercalate [13, 10, 9] (pemLines (x.pem.length + 1) x.pem), .replace)]) := by
  unfold tlsTexts sslTexts
  rw [h.tls]
  dsimp only
  rw [h.cert]
  simp only [h.on, h.check, if_true]
  rw [cert_split h.lines.1 h.lines.2.1 h.lines.2.2.1 h.lines.2.2.2]

/-- Each header made from the certificate replaces the first header of its name; names and dates must be printed in at most 4094 bytes.
Missing: longer ones (`C68_long_fails`), further headers of the same name (`C68_second_fails`), and clients without certificate (`C68_plain_fails`). -/
theorem C68_cert_partial (c : FwdCfg) (hs hs' : List Header) (hh : HeaderList hs) (h : forwardHead c hs = .ok hs') (e : SslEnv) (x : ClientCert) (hc : HasCert c e x) :
    (∀ v, Printed x.subject v → HeadersNamed b!"X-SSL-Subject" (hs'.map (·.text)) = (b!"X-SSL-Subject: " ++ v) :: (HeadersNamed b!"X-SSL-Subject" (hs.map (·.text))).drop 1) ∧
    (∀ v, Printed x.issuer v → HeadersNamed b!"X-SSL-Issuer" (hs'.map (·.text)) = (b!"X-SSL-Issuer: " ++ v) :: (HeadersNamed b!"X-SSL-Issuer" (hs.map (·.text))).drop 1) ∧
    (∀ v, Printed x.notBefore v → HeadersNamed b!"X-SSL-notBefore" (hs'.map (·.text)) = (b!"X-SSL-notBefore: " ++ v) :: (HeadersNamed b!"X-SSL-notBefore" (hs.map (·.text))).drop 1) ∧
    (∀ v, Printed x.notAfter v → HeadersNamed b!"X-SSL-notAfter" (hs'.map (·.text)) = (b!"X-SSL-notAfter: " ++ v) :: (HeadersNamed b!"X-SSL-notAfter" (hs.map (·.text))).drop 1) ∧
    HeadersNamed b!"X-SSL-serial" (hs'.map (·.text)) = (b!"X-SSL-serial: " ++ decInt x.serial) :: (HeadersNamed b!"X-SSL-serial" (hs.map (·.text))).drop 1 ∧
    (∀ ls, x.pem = ls.flatMap (· ++ [10]) → (∀ l ∈ ls, (∀ c ∈ l, Text c) ∧ l.length ≤ 4094) →
      HeadersNamed b!"X-SSL-certificate" (hs'.map (·.text)) =
        (b!"X-SSL-certificate: " ++ List.intercalate [13, 10, 9] ls) :: (HeadersNamed b!"X-SSL-certificate" (hs.map (·.text))).drop 1) := by
  obtain ⟨f, h1, h2, h3, s⟩ := forward_stages hh h
  have ht := hc.texts
  have lc := cipher_lines e.cipher
  have l1 := bio_lines (n := b!"X-SSL-Subject") x.subject (by decide)
  have l2 := bio_lines (n := b!"X-SSL-Issuer") x.issuer (by decide)
  have l3 := bio_lines (n := b!"X-SSL-notBefore") x.notBefore (by decide)
  have l4 := bio_lines (n := b!"X-SSL-notAfter") x.notAfter (by decide)
  have l5 : LinesIn [(b!"X-SSL-serial: " ++ decInt x.serial, .replace)] [b!"X-SSL-serial"] := LinesIn.one (n := b!"X-SSL-serial") (by decide) (by decide) _ _
  have l6 : LinesIn [(b!"X-SSL-certificate: " ++ List.intercalate [13, 10, 9] (pemLines (x.pem.length + 1) x.pem), .replace)] [b!"X-SSL-certificate"] :=
    LinesIn.one (n := b!"X-SSL-certificate") (by decide) (by decide) _ _
  refine ⟨?_, ?_, ?_, ?_, ?_, ?_⟩
  · intro v hv
    rw [bio_printed hv] at ht
    refine s.ssl (n := b!"X-SSL-Subject") (r := v) (A := cipherTexts e.cipher) (as := sslNames.take 1) (bs := sslNames.drop 2) (ht.trans ?_) (lc.mono (by decide))
      ((l2.mono (by decide)).append ((l3.mono (by decide)).append ((l4.mono (by decide)).append ((l5.mono (by decide)).append (l6.mono (by decide))))))
      (by decide) (by decide +kernel) (by decide +kernel)
    simp only [List.append_assoc, List.cons_append, List.nil_append]
  · intro v hv
    rw [bio_printed hv] at ht
    refine s.ssl (n := b!"X-SSL-Issuer") (r := v) (A := cipherTexts e.cipher ++ (headerFromBio b!"X-SSL-Subject" x.subject).1) (as := sslNames.take 2) (bs := sslNames.drop 3) (ht.trans ?_)
      ((lc.mono (by decide)).append (l1.mono (by decide)))
      ((l3.mono (by decide)).append ((l4.mono (by decide)).append ((l5.mono (by decide)).append (l6.mono (by decide)))))
      (by decide) (by decide +kernel) (by decide +kernel)
    simp only [List.append_assoc, List.cons_append, List.nil_append]
  · intro v hv
    rw [bio_printed hv] at ht
    refine s.ssl (n := b!"X-SSL-notBefore") (r := v) (A := cipherTexts e.cipher ++ ((headerFromBio b!"X-SSL-Subject" x.subject).1 ++ (headerFromBio b!"X-SSL-Issuer" x.issuer).1))
      (as := sslNames.take 3) (bs := sslNames.drop 4) (ht.trans ?_)
      ((lc.mono (by decide)).append ((l1.mono (by decide)).append (l2.mono (by decide))))
      ((l4.mono (by decide)).append ((l5.mono (by decide)).append (l6.mono (by decide))))
      (by decide) (by decide +kernel) (by decide +kernel)
    simp only [List.append_assoc, List.cons_append, List.nil_append]
  · intro v hv
    rw [bio_printed hv] at ht
    refine s.ssl (n := b!"X-SSL-notAfter") (r := v)
      (A := cipherTexts e.cipher ++ ((headerFromBio b!"X-SSL-Subject" x.subject).1 ++ ((headerFromBio b!"X-SSL-Issuer" x.issuer).1 ++ (headerFromBio b!"X-SSL-notBefore" x.notBefore).1)))
      (as := sslNames.take 4) (bs := sslNames.drop 5) (ht.trans ?_)
      ((lc.mono (by decide)).append ((l1.mono (by decide)).append ((l2.mono (by decide)).append (l3.mono (by decide)))))
      ((l5.mono (by decide)).append (l6.mono (by decide)))
      (by decide) (by decide +kernel) (by decide +kernel)
    simp only [List.append_assoc, List.cons_append, List.nil_append]
  · refine s.ssl (n := b!"X-SSL-serial") (r := decInt x.serial)
      (A := cipherTexts e.cipher ++ ((headerFromBio b!"X-SSL-Subject" x.subject).1 ++ ((headerFromBio b!"X-SSL-Issuer" x.issuer).1 ++
        ((headerFromBio b!"X-SSL-notBefore" x.notBefore).1 ++ (headerFromBio b!"X-SSL-notAfter" x.notAfter).1))))
      (as := sslNames.take 5) (bs := sslNames.drop 6) (ht.trans ?_)
      ((lc.mono (by decide)).append ((l1.mono (by decide)).append ((l2.mono (by decide)).append ((l3.mono (by decide)).append (l4.mono (by decide))))))
      (l6.mono (by decide))
      (by decide) (by decide +kernel) (by decide +kernel)
    simp only [List.append_assoc, List.cons_append, List.nil_append]
  · intro ls hp hls
    have hpem : pemLines (x.pem.length + 1) x.pem = ls := by
      rw [hp]; exact pem_spec ls _ hls (Nat.lt_succ_of_le (pem_length ls))
    rw [hpem] at ht
    refine s.ssl (n := b!"X-SSL-certificate") (r := List.intercalate [13, 10, 9] ls)
      (A := cipherTexts e.cipher ++ ((headerFromBio b!"X-SSL-Subject" x.subject).1 ++ ((headerFromBio b!"X-SSL-Issuer" x.issuer).1 ++
        ((headerFromBio b!"X-SSL-notBefore" x.notBefore).1 ++ ((headerFromBio b!"X-SSL-notAfter" x.notAfter).1 ++ [(b!"X-SSL-serial: " ++ decInt x.serial, .replace)])))))
      (B := []) (as := sslNames.take 6) (bs := []) (ht.trans ?_)
      ((lc.mono (by decide)).append ((l1.mono (by decide)).append ((l2.mono (by decide)).append ((l3.mono (by decide)).append ((l4.mono (by decide)).append (l5.mono (by decide)))))))
      (.nil _) (by decide) (by decide +kernel) (by decide +kernel)
    simp only [List.append_assoc, List.cons_append, List.nil_append]

/-- The cipher in use replaces the first X-SSL-cipher. -/
theorem C68_cipher_partial (c : FwdCfg) (hs hs' : List Header) (hh : HeaderList hs) (h : forwardHead c hs = .ok hs') (e : SslEnv) (hon : c.ssl = true) (ht : c.tls = some e)
    (v d : Bytes) (hv : e.cipher = some (v, d ++ [10])) (hd : ∀ z ∈ d, z ≠ 10 ∧ z ≠ 13) :
    HeadersNamed b!"X-SSL-cipher" (hs'.map (·.text)) = (b!"X-SSL-cipher: " ++ v ++ b!"/" ++ d) :: (HeadersNamed b!"X-SSL-cipher" (hs.map (·.text))).drop 1 := by
  obtain ⟨f, h1, h2, h3, s⟩ := forward_stages hh h
  have hse : stripEol (d ++ [10]) = d := by
    clear hv
    induction d with
    | nil => rfl
    | cons z d ih =>
      have hz := hd z (by simp)
      show stripEol (z :: (d ++ [10])) = z :: d
      unfold stripEol
      rw [if_neg (by simp [hz.1, hz.2]), ih (fun y hy => hd y (by simp [hy]))]
  have key : ∃ B, LinesIn B (sslNames.drop 1) ∧ tlsTexts c = [] ++ (b!"X-SSL-cipher" ++ b!": " ++ (v ++ b!"/" ++ d), .replace) :: B := by
    unfold tlsTexts sslTexts
    rw [ht]
    dsimp only
    rw [hv]
    simp only [hon, if_true, cipherTexts, hse]
    refine ⟨_, ?_, by simp only [List.append_assoc, List.cons_append, List.nil_append]; rfl⟩
    split
    · split
      · exact cert_lines _
      · exact .nil _
    · exact .nil _
  obtain ⟨B, hB, hk⟩ := key
  have := s.ssl (n := b!"X-SSL-cipher") (r := v ++ b!"/" ++ d) hk (.nil []) hB (by decide) (by decide) (by decide +kernel)
  refine Eq.trans this ?_
  simp [texts]

/-- If a client sends each of the headers at most once, and has a certificate, they all come from the certificate.
Missing: see `C68_cert_partial`. -/
theorem C68_trust_partial (c : FwdCfg) (hs hs' : List Header) (hh : HeaderList hs) (h : forwardHead c hs = .ok hs') (e : SslEnv) (x : ClientCert) (hc : HasCert c e x)
    (subject issuer : Bytes) (h1 : Printed x.subject subject) (h2 : Printed x.issuer issuer)
    (hone : ∀ n ∈ [b!"X-SSL-Subject", b!"X-SSL-Issuer", b!"X-SSL-serial"], (HeadersNamed n (hs.map (·.text))).length ≤ 1) :
    HeadersNamed b!"X-SSL-Subject" (hs'.map (·.text)) = [b!"X-SSL-Subject: " ++ subject] ∧
    HeadersNamed b!"X-SSL-Issuer" (hs'.map (·.text)) = [b!"X-SSL-Issuer: " ++ issuer] ∧
    HeadersNamed b!"X-SSL-serial" (hs'.map (·.text)) = [b!"X-SSL-serial: " ++ decInt x.serial] := by
  have drop1 : ∀ l : List Bytes, l.length ≤ 1 → l.drop 1 = [] := fun l hl => List.drop_eq_nil_of_le hl
  obtain ⟨a, b, -, -, d, -⟩ := C68_cert_partial c hs hs' hh h e x hc
  rw [a _ h1, b _ h2, d, drop1 _ (hone _ (by decide)), drop1 _ (hone _ (by decide)), drop1 _ (hone _ (by decide))]
  exact ⟨rfl, rfl, rfl⟩

def sampleCert : ClientCert := ⟨b!"        CN = alice", b!"        CN = ca", b!"Nov 15 00:00:00 2026 GMT", b!"Nov 15 00:00:00 2027 GMT", 77, b!"-----BEGIN CERTIFICATE-----\nAAAA\n-----END CERTIFICATE-----\n"⟩
def sampleTls : SslEnv := ⟨some (b!"TLSv1.3", b!"AES\n"), true, some sampleCert⟩

example : HasCert { fwdSampleCfg with tls := some sampleTls } sampleTls sampleCert := ⟨rfl, rfl, rfl, rfl, by decide +kernel⟩

example : ∃ hs', forwardHead { fwdSampleCfg with tls := some sampleTls } fwdSample = .ok hs' ∧ hs'.map (·.text) =
    [b!"Host: inner", b!"x-forwarded-for: 1.1.1.1, 10.0.0.1", b!"X-Forwarded-For: 2.2.2.2", b!"X-Forwarded-Proto: https", b!"X-SSL-Subject: CN = alice",
      b!"Destination: http://10.0.0.9:81/x", b!"X-Forwarded-Port: 80", b!"X-SSL-cipher: TLSv1.3/AES", b!"X-SSL-Issuer: CN = ca", b!"X-SSL-notBefore: Nov 15 00:00:00 2026 GMT",
      b!"X-SSL-notAfter: Nov 15 00:00:00 2027 GMT", b!"X-SSL-serial: 77",
      b!"X-SSL-certificate: -----BEGIN CERTIFICATE-----\r\n\tAAAA\r\n\t-----END CERTIFICATE-----"] := by
  refine ⟨_, rfl, ?_⟩
  decide +kernel

/-- Without TLS (or with these headers off), all X-SSL headers that a client sends are passed on as they are: any client can claim any certificate. -/
theorem C68_plain_fails (c : FwdCfg) (hs hs' : List Header) (hh : HeaderList hs) (h : forwardHead c hs = .ok hs') (hp : c.tls = none ∨ c.ssl = false) :
    ∀ n ∈ [b!"X-SSL-cipher", b!"X-SSL-Subject", b!"X-SSL-Issuer", b!"X-SSL-notBefore", b!"X-SSL-notAfter", b!"X-SSL-serial", b!"X-SSL-certificate"],
      HeadersNamed n (hs'.map (·.text)) = HeadersNamed n (hs.map (·.text)) := by
  obtain ⟨f, h1, h2, h3, s⟩ := forward_stages hh h
  intro n hn
  have ht : tlsTexts c = [] := by
    unfold tlsTexts
    rcases hp with e | e
    · rw [e]
    · split
      · rw [if_neg (by simp [e])]
      · rfl
  exact s.nossl (as := []) (ht ▸ .nil _) hn (by simp)

/-- The same with TLS, for clients without a certificate and listeners that do not ask for one -/
theorem C68_nocert_fails (c : FwdCfg) (hs hs' : List Header) (hh : HeaderList hs) (h : forwardHead c hs = .ok hs') (e : SslEnv) (ht : c.tls = some e)
    (hp : e.cert = none ∨ e.check = false) :
    ∀ n ∈ [b!"X-SSL-Subject", b!"X-SSL-Issuer", b!"X-SSL-notBefore", b!"X-SSL-notAfter", b!"X-SSL-serial", b!"X-SSL-certificate"],
      HeadersNamed n (hs'.map (·.text)) = HeadersNamed n (hs.map (·.text)) := by
  obtain ⟨f, h1, h2, h3, s⟩ := forward_stages hh h
  intro n hn
  have hl : LinesIn (tlsTexts c) [b!"X-SSL-cipher"] := by
    unfold tlsTexts sslTexts
    rw [ht]
    dsimp only
    split
    · refine .append (cipher_lines _) ?_
      rcases hp with e | e
      · rw [e]; exact .nil _
      · split
        · rw [if_neg (by simp [e])]; exact .nil _
        · exact .nil _
    · exact .nil _
  have d : ∀ n ∈ [b!"X-SSL-Subject", b!"X-SSL-Issuer", b!"X-SSL-notBefore", b!"X-SSL-notAfter", b!"X-SSL-serial", b!"X-SSL-certificate"],
      n ∈ sslNames ∧ ∀ x ∈ [b!"X-SSL-cipher"], ciEq x n = false := by decide +kernel
  exact s.nossl hl (d n hn).1 (d n hn).2

/-- A subject that is printed in more than 4094 bytes is not passed on at all; the client's own header is. -/
theorem C68_long_fails (c : FwdCfg) (hs hs' : List Header) (hh : HeaderList hs) (h : forwardHead c hs = .ok hs') (e : SslEnv) (x : ClientCert) (hc : HasCert c e x)
    (ht : ∀ z ∈ x.subject, Text z) (hl : 4095 ≤ x.subject.length) :
    HeadersNamed b!"X-SSL-Subject" (hs'.map (·.text)) = HeadersNamed b!"X-SSL-Subject" (hs.map (·.text)) := by
  obtain ⟨f, h1, h2, h3, s⟩ := forward_stages hh h
  have htx := hc.texts
  rw [bio_long ht hl] at htx
  refine s.nossl (as := sslNames.take 1 ++ sslNames.drop 2) ?_ (by decide) (by decide +kernel)
  rw [htx]
  refine .append ((cipher_lines _).mono (by decide +kernel)) (.append (.append (.append (.append (.append (.nil _) ?_) ?_) ?_) ?_) ?_)
  · exact (bio_lines _ (by decide)).mono (by decide +kernel)
  · exact (bio_lines _ (by decide)).mono (by decide +kernel)
  · exact (bio_lines _ (by decide)).mono (by decide +kernel)
  · exact LinesIn.one (n := b!"X-SSL-serial") (by decide) (by decide +kernel) _ _
  · exact LinesIn.one (n := b!"X-SSL-certificate") (by decide) (by decide +kernel) _ _

example : (∀ z ∈ List.replicate 5000 ch%'x', Text z) ∧ 4095 ≤ (List.replicate 5000 ch%'x').length := by
  refine ⟨fun z hz => ?_, by rw [List.length_replicate]; omega⟩
  rw [List.eq_of_mem_replicate hz]
  unfold Text; decide

/-- Of two X-SSL-Subject headers only the first one is replaced: the client's second one is passed on. -/
theorem C68_second_fails : ∃ hs', forwardHead { fwdSampleCfg with tls := some sampleTls } (buildHeaders [] [b!"X-SSL-Subject: a", b!"X-SSL-Subject: CN = root"]) = .ok hs' ∧
    ∀ t ∈ [b!"X-SSL-Subject: CN = alice", b!"X-SSL-Subject: CN = root"], t ∈ hs'.map (·.text) :=
  ⟨_, rfl, by decide +kernel⟩

/-! ## C69 Nothing but the headers that concern the backend is changed -/

/-- All headers but Destination, Host and the ones about the client are sent as they are, in their order. -/
theorem C69_others (c : FwdCfg) (hs hs' : List Header) (hh : HeaderList hs) (h : forwardHead c hs = .ok hs') :
    HeadersNotNamed [b!"Destination", b!"Host", b!"X-Forwarded-For", b!"X-Forwarded-Proto", b!"X-Forwarded-Port", b!"X-SSL-cipher", b!"X-SSL-Subject", b!"X-SSL-Issuer",
      b!"X-SSL-notBefore", b!"X-SSL-notAfter", b!"X-SSL-serial", b!"X-SSL-certificate"] (hs'.map (·.text)) =
    HeadersNotNamed [b!"Destination", b!"Host", b!"X-Forwarded-For", b!"X-Forwarded-Proto", b!"X-Forwarded-Port", b!"X-SSL-cipher", b!"X-SSL-Subject", b!"X-SSL-Issuer",
      b!"X-SSL-notBefore", b!"X-SSL-notAfter", b!"X-SSL-serial", b!"X-SSL-certificate"] (hs.map (·.text)) := by
  obtain ⟨f, h1, h2, h3, s⟩ := forward_stages hh h
  exact s.rest

/-- Host: the first one is replaced if the backend has a ServerName; otherwise it stays. -/
theorem C69_host (c : FwdCfg) (hs hs' : List Header) (hh : HeaderList hs) (h : forwardHead c hs = .ok hs') :
    (∀ n, c.servername = some n → HeadersNamed b!"Host" (hs'.map (·.text)) = (b!"Host: " ++ n) :: (HeadersNamed b!"Host" (hs.map (·.text))).drop 1) ∧
    (c.servername = none → HeadersNamed b!"Host" (hs'.map (·.text)) = HeadersNamed b!"Host" (hs.map (·.text))) := by
  obtain ⟨f, h1, h2, h3, s⟩ := forward_stages hh h
  exact ⟨fun n hn => s.host hn, fun hn => s.nohost hn⟩

/-- Destination: unless RewriteDestination is on, it stays. -/
theorem C69_dest_off (c : FwdCfg) (hs hs' : List Header) (hh : HeaderList hs) (h : forwardHead c hs = .ok hs') (hr : c.rewrDest = false) :
    HeadersNamed b!"Destination" (hs'.map (·.text)) = HeadersNamed b!"Destination" (hs.map (·.text)) := by
  obtain ⟨f, h1, h2, h3, s⟩ := forward_stages hh h
  have e := s.e1
  rw [if_neg (by simp [hr])] at e
  injection e with e
  exact (s.afterDest (by decide +kernel)).trans (by rw [e]; rfl)

/-- With RewriteDestination, the first Destination that is a URL gets the scheme and the address of the backend; its path stays.  One without any URL stays as it is. -/
theorem C69_dest_partial (c : FwdCfg) (hs hs' : List Header) (hh : HeaderList hs) (h : forwardHead c hs = .ok hs') (hr : c.rewrDest = true) (t : Bytes) (r : List Bytes)
    (hd : HeadersNamed b!"Destination" (hs.map (·.text)) = t :: r) (n v : Bytes) (hl : HeaderLine t n v) :
    (∀ scheme auth path, AbsUrl v scheme auth path →
      HeadersNamed b!"Destination" (hs'.map (·.text)) =
        ((if c.beTls then b!"Destination: https://" else b!"Destination: http://") ++ c.beAddr ++ path) :: r) ∧
    ((¬ ∃ pre u scheme auth path, v = pre ++ u ∧ AbsUrl u scheme auth path) →
      HeadersNamed b!"Destination" (hs'.map (·.text)) = t :: r) := by
  obtain ⟨f, h1, h2, h3, s⟩ := forward_stages hh h
  have e := s.e1
  rw [if_pos hr] at e
  obtain ⟨h1', e1, g1, hcase⟩ := changeDest_spec c.beAddr c.beTls hs hh.coded
  rw [e] at e1
  injection e1 with e1
  have hfin : HeadersNamed b!"Destination" (hs'.map (·.text)) = HeadersNamed b!"Destination" (texts h1) := s.afterDest (by decide +kernel)
  rw [hfin, e1]
  have hd' : HeadersNamed b!"Destination" (texts hs) = t :: r := hd
  rcases hcase with ⟨a1, a2⟩ | ⟨a, t', b, n', v', p, q, path', b1, b2, b3, b4, b5, b6⟩
  · rw [a1, hd']
    rcases a2 with a2 | ⟨t', r', n', v', c1, c2, c3⟩
    · rw [hd'] at a2; cases a2
    · rw [hd'] at c1
      injection c1 with c1 c1'
      rw [← c1] at c2
      have hv := (line_unique hl c2).2
      refine ⟨fun scheme auth path hu => ?_, fun _ => rfl⟩
      rw [hv] at hu
      rw [locationMatch_abs hu] at c3
      cases c3
  · have hx : HeadersNamed b!"Destination" (texts hs) = t' :: HeadersNamed b!"Destination" b := by
      rw [b1, hn_append, hn_none b2, hn_cons_pos b4]; rfl
    rw [hd'] at hx
    injection hx with hx1 hx2
    rw [← hx1] at b3
    have hv := (line_unique hl b3).2
    have hx3 : HeadersNamed b!"Destination" (texts h1') =
        (b!"Destination: " ++ (if c.beTls then b!"https" else b!"http") ++ b!"://" ++ c.beAddr ++ path') :: r := by
      rw [b6, hn_append, hn_none b2, hn_cons_pos ((named_iff_line (dest_line _ _ _) _).2 (ciEq_refl _)), hx2]; rfl
    rw [hx3]
    refine ⟨fun scheme auth path hu => ?_, fun hno => ?_⟩
    · rw [hv] at hu
      rw [locationMatch_abs hu] at b5
      injection b5 with b5
      injection b5 with _ b5
      injection b5 with _ b5
      rw [b5]
      congr 1
      split <;> simp
    · exfalso
      obtain ⟨pre, u, w1, w2⟩ := locationMatch_sound b5
      exact hno ⟨pre, u, p, q, path', by rw [hv, w1], w2⟩

example : AbsUrl b!"http://a:8080/x" b!"http" b!"a:8080" b!"/x" := ⟨by decide, by decide, by decide, by decide⟩

/-- A Destination that is a path with a URL in its query becomes the path of that URL. -/
theorem C69_embedded_fails : ∃ hs', forwardHead fwdSampleCfg (buildHeaders [] [b!"Destination: /move?to=http://x.org/etc"]) = .ok hs' ∧
    b!"Destination: http://10.0.0.9:81/etc" ∈ hs'.map (·.text) :=
  ⟨_, rfl, by decide +kernel⟩

/-- A backend on a UNIX socket: the name of the socket becomes part of the path. -/
theorem C69_unix_fails : ∃ be hs', addr2str maxAddrBuf (.unix b!"/run/app.sock\x00") false = .ok be ∧
    forwardHead { fwdSampleCfg with beAddr := be } (buildHeaders [] [b!"Destination: http://www/x"]) = .ok hs' ∧
    b!"Destination: http:///run/app.sock/x" ∈ hs'.map (·.text) :=
  ⟨b!"/run/app.sock", _, by decide +kernel, rfl, by decide +kernel⟩

example : HeaderList fwdSample := .read

end Pound.Props
