import Verif.Proof.Replies

/-!
# C90 Every request is answered once, with the page that is configured

Theorems about connections to the program's own backends: `Error`, `Redirect`, `ACME`, and requests that are refused.
-/

namespace Pound.Props
open Pound Spec

/-- Two clients that read the same stream after the same requests get the same replies. -/
theorem C90_read_once {heads : List Bool} {w : Bytes} {xs ys : List (Nat × Bytes)} (h : Replies heads w xs) (h' : Replies heads w ys) :
    xs = ys := replies_det h h'

/-- On every connection the client gets one reply for each of its requests, in order, each with the code and page that the configuration
asks for, and nothing else.  Missing for the full property: HEAD requests, which get a body (`C90_head_fails`), and files of ACME
challenges that cannot be read to their end (`C90_acme_fails`). -/
theorem C90_answers_partial (cfg : LstnCfg) (msie : Accepted → Bool) (pg : Pages) (sel : Nat → Accepted → Status ⊕ OwnBe)
    (hsel : ∀ i a be, sel i a = .inr be → OwnOk be) (inp : Bytes)
    (hend : (ownConn cfg msie pg sel (inp.length + 1) 0 inp).2 = .closed)
    (hb : (ownConn cfg msie pg sel (inp.length + 1) 0 inp).1.length < 2 ^ 63) :
    ∃ l, Served cfg msie pg sel 0 inp l ∧ ((∀ x ∈ l, x.1 = false) →
      Replies (l.map (·.1)) (ownConn cfg msie pg sel (inp.length + 1) 0 inp).1 (l.map (·.2))) :=
  ownConn_served cfg msie pg sel hsel _ _ _ hend hb

/-- Connections end. -/
theorem C90_ends (cfg : LstnCfg) (msie : Accepted → Bool) (pg : Pages) (sel : Nat → Accepted → Status ⊕ OwnBe) (inp : Bytes) :
    (ownConn cfg msie pg sel (inp.length + 1) 0 inp).2 ≠ .fuel := ownConn_fuel cfg msie pg sel _ _ _ (by omega)

/-- A listener -/
def rpCfg : LstnCfg := { verb := 0, table := [], urlPat := none, maxUri := 0, maxReq := 0, noHttps11 := 0, ssl := false }

/-- An Error backend without rewriting rules -/
def rpErr (st : Status) (t : Option Bytes) : OwnBe := .error st t ⟨fun _ => 0, fun _ _ => 0, fun _ => false⟩ [] [] ⟨⟨[], none, 0, 0, [], [], none, [], false⟩, [], .init, none⟩

/-- Two requests on one connection: first one to an Error backend, then one that no service wants. -/
def rpSel : Nat → Accepted → Status ⊕ OwnBe := fun i _ => if i = 0 then .inr (rpErr .notFound none) else .inl .serviceUnavailable

/-- The pages of the listener: one for 503 -/
def rpPages : Pages := fun st => if st = .serviceUnavailable then some b!"later" else none

def rpIn : Bytes := b!"GET /a HTTP/1.1" ++ [13, 10, 13, 10] ++ b!"GET /b HTTP/1.1" ++ [13, 10, 13, 10]

example : (ownConn rpCfg (fun _ => false) rpPages rpSel (rpIn.length + 1) 0 rpIn) =
    (b!"HTTP/1.1 404 Not Found" ++ [13, 10] ++ b!"Content-Length: 47" ++ [13, 10] ++ b!"Connection: close" ++ [13, 10] ++
     b!"Expires: now" ++ [13, 10] ++ b!"Pragma: no-cache" ++ [13, 10] ++ b!"Cache-control: no-cache,no-store" ++ [13, 10, 13, 10] ++
     b!"The requested URL was not found on this server." ++
     b!"HTTP/1.1 503 Service Unavailable" ++ [13, 10] ++ b!"Content-Type: text/html" ++ [13, 10] ++ b!"Content-Length: 5" ++ [13, 10] ++
     b!"Connection: close" ++ [13, 10] ++ b!"Expires: now" ++ [13, 10] ++ b!"Pragma: no-cache" ++ [13, 10] ++
     b!"Cache-control: no-cache,no-store" ++ [13, 10, 13, 10] ++ b!"later", .closed) := by decide +kernel

/-- The hypotheses of `C90_answers_partial` hold for it. -/
example : ∀ i a be, rpSel i a = .inr be → OwnOk be := by
  intro i a be h
  unfold rpSel at h
  split at h
  · injection h with h
    subst h
    intro st0 st1 h0 h1
    rw [errState_eq] at h0
    injection h0 with h0
    subst h0
    injection h1 with h1 _
    subst h1
    intro h hh
    simp only [errHs, List.mem_cons, List.not_mem_nil, or_false] at hh
    rcases hh with rfl | rfl | rfl
    · have hl := headerLine_mk (n := b!"Expires") (v := b!"now") (by decide) (by unfold TChar; decide) (by unfold NotAt; decide)
      exact ⟨⟨_, _, hl⟩, by unfold Text; decide +kernel, not_named hl (by decide)⟩
    · have hl := headerLine_mk (n := b!"Pragma") (v := b!"no-cache") (by decide) (by unfold TChar; decide) (by unfold NotAt; decide)
      exact ⟨⟨_, _, hl⟩, by unfold Text; decide +kernel, not_named hl (by decide)⟩
    · have hl := headerLine_mk (n := b!"Cache-control") (v := b!"no-cache,no-store") (by decide) (by unfold TChar; decide) (by unfold NotAt; decide)
      exact ⟨⟨_, _, hl⟩, by unfold Text; decide +kernel, not_named hl (by decide)⟩
  · cases h

/-- What is written if the file of a challenge seems to have 10 bytes and has 3 -/
def rpShort : Bytes :=
  (ownConn rpCfg (fun _ => false) (fun _ => some b!"sorry") (fun _ _ => .inr (.acme (.file 10 b!"abc"))) 30 0 (b!"GET /c HTTP/1.1" ++ [13, 10, 13, 10])).1

/-- A request for a challenge whose file is shorter than it seemed (or cannot be read, as a directory): after the head of a reply that announces
10 bytes, and the 3 that there are, comes another reply. This cannot be read as one reply. -/
theorem C90_acme_fails : ¬ ∃ ys, Replies [false] rpShort ys := by
  rintro ⟨ys, h⟩
  have e : rpShort = (b!"HTTP/1.1 200 OK" ++ [13, 10]) ++ (([b!"Content-Type: text/html", b!"Content-Length: 10", b!"Connection: close"].flatMap (· ++ [13, 10]) ++ [13, 10]) ++
      (b!"abc" ++ errReply 1 .internalError b!"sorry")) := by decide +kernel
  rw [e] at h
  have hl : HeaderLine (b!"Content-Type: " ++ b!"text/html") b!"Content-Type" b!"text/html" := type_line (by unfold NotAt; decide)
  have := one_reply_length (v := dec 10) (n := 10) (by unfold Text; decide) (by unfold Text; decide)
    (.miss (not_named hl (by decide)) (.hit (cl_line 10) (by decide) (.miss (not_named close_line (by decide)) .nil)))
    ⟨by decide, [], _, [], by simp, by simp [Blank], dec_denotes _, by simp [Blank]⟩ h
  revert this
  decide +kernel

/-- What is written in reply to a HEAD request to an Error backend with a text -/
def rpHead : Bytes :=
  (ownConn rpCfg (fun _ => false) rpPages (fun _ _ => .inr (rpErr .notFound (some b!"gone"))) 30 0 (b!"HEAD /c HTTP/1.1" ++ [13, 10, 13, 10])).1

/-- The replies to HEAD requests have bodies. -/
theorem C90_head_fails : ¬ ∃ ys, Replies [true] rpHead ys := by
  rintro ⟨ys, h⟩
  have e : rpHead = (b!"HTTP/1.1 404 Not Found" ++ [13, 10]) ++ (([b!"Content-Length: 4", b!"Connection: close", b!"Expires: now", b!"Pragma: no-cache",
      b!"Cache-control: no-cache,no-store"].flatMap (· ++ [13, 10]) ++ [13, 10]) ++ b!"gone") := by decide +kernel
  rw [e] at h
  have := one_reply_head (by unfold Text; decide) (by unfold Text; decide +kernel) h
  cases this

/-- The reply to the first of the two requests above says that the connection will be closed, but the second request is served on it. -/
theorem C90_close_fails : ∃ w w', (ownConn rpCfg (fun _ => false) rpPages rpSel (rpIn.length + 1) 0 rpIn).1 = w ++ w' ∧
    SaysClose w ∧ (∃ y, Replies [false] w [y]) ∧ ∃ y, Replies [false] w' [y] := by
  have e : (ownConn rpCfg (fun _ => false) rpPages rpSel (rpIn.length + 1) 0 rpIn).1 =
      (replyStartList 1 404 b!"Not Found" errHs 47 ++ statusText .notFound) ++ errReply 1 .serviceUnavailable b!"later" := by decide +kernel
  have e2 : replyStartList 1 404 b!"Not Found" errHs 47 ++ statusText .notFound =
      (b!"HTTP/1.1 404 Not Found" ++ [13, 10]) ++ (([b!"Content-Length: 47", b!"Connection: close", b!"Expires: now", b!"Pragma: no-cache",
      b!"Cache-control: no-cache,no-store"].flatMap (· ++ [13, 10]) ++ [13, 10]) ++ statusText .notFound) := by decide +kernel
  have hx : ∀ {n v : Bytes} {name : Bytes}, HeaderLine (n ++ b!": " ++ v) n v → ciEq n name = false → ¬ Named (n ++ b!": " ++ v) name :=
    fun h1 h2 => not_named h1 h2
  have l1 := headerLine_mk (n := b!"Expires") (v := b!"now") (by decide) (by unfold TChar; decide) (by unfold NotAt; decide)
  have l2 := headerLine_mk (n := b!"Pragma") (v := b!"no-cache") (by decide) (by unfold TChar; decide) (by unfold NotAt; decide)
  have l3 := headerLine_mk (n := b!"Cache-control") (v := b!"no-cache,no-store") (by decide) (by unfold TChar; decide) (by unfold NotAt; decide)
  refine ⟨_, _, e, ?_, ?_, ?_⟩
  · rw [e2]
    obtain ⟨lim, h1, h2⟩ := framed_lines (line := b!"HTTP/1.1 404 Not Found") (lines := [b!"Content-Length: 47", b!"Connection: close", b!"Expires: now", b!"Pragma: no-cache",
      b!"Cache-control: no-cache,no-store"]) (by unfold Text; decide) (by unfold Text; decide +kernel)
    refine ⟨lim, _, _, _, _, _, b!"close", rfl, h1, h2, ?_, ?_⟩
    · exact .miss (not_named (cl_line 47) (by decide)) (.hit close_line (by decide) (.miss (hx l1 (by decide)) (.miss (hx l2 (by decide))
        (.miss (hx l3 (by decide)) .nil))))
    · refine ⟨[], b!"close", [], ⟨by simp, by decide, [], by simp, .inl ⟨rfl, rfl⟩⟩, b!"close", ⟨[], [], by simp, by simp, by simp, ?_, ?_⟩, by decide⟩
      · intro c hc; simp at hc; subst hc; decide
      · intro c hc; simp at hc; subst hc; decide
  · have hf := framed (ver := 1) (code := 404) (pre := []) (hs := [b!"Expires: now", b!"Pragma: no-cache", b!"Cache-control: no-cache,no-store"])
      (body := statusText .notFound) (respLine_mk (ver := 1) (by decide) (by decide) b!"Not Found") (respLine_text (by unfold Text; decide))
      (fun l hl => by cases hl) (by
        intro l hl
        simp only [List.mem_cons, List.not_mem_nil, or_false] at hl
        rcases hl with rfl | rfl | rfl
        · exact ⟨by unfold Text; decide, hx l1 (by decide), hx l1 (by decide)⟩
        · exact ⟨by unfold Text; decide, hx l2 (by decide), hx l2 (by decide)⟩
        · exact ⟨by unfold Text; decide, hx l3 (by decide), hx l3 (by decide)⟩) (by decide +kernel)
      (w := replyStartList 1 404 b!"Not Found" errHs 47 ++ statusText .notFound) (by decide +kernel)
    have := hf.1 rfl .nil
    rw [List.append_nil] at this
    exact ⟨_, this⟩
  · exact ⟨_, (errReply_frames (ver := 1) (by decide) .serviceUnavailable (page := b!"later") (by decide)).only (by decide)⟩

end Pound.Props
