import Verif.Proof.Expand
import Verif.Props.Exchange

/-!
Properties C11-C13, C54, C55: redirect locations, string expansion, the history of
matches, replies made by the program itself, ACME challenges.
-/

namespace Pound.Props
open Pound Spec

/-! ## C13 The submatch history returns the latest matches -/

/-- The history after the given matches, latest first, on a new connection. -/
def history (ms : List (MatchRes × Bytes)) : Smq :=
  ms.foldr (fun x q => q.record x.1 x.2) Smq.init

theorem history_wf (ms : List (MatchRes × Bytes)) : (history ms).Wf := by
  induction ms with
  | nil => exact Smq.init_wf
  | cons x ms ih => exact Smq.record_wf ih _ _

/-- The `n`-th latest match, `n < 8`, is the `n`-th one counted from the latest that was
recorded (with its subject, if it was successful, and its groups), or an empty record if
there were not so many; the access is always in bounds. -/
theorem C13_history (ms : List (MatchRes × Bytes)) (n : Nat) (hn : n < 8) :
    (history ms).get n = .ok (match ms[n]? with
      | some (m, s) => ⟨if m.ok then some s else none, m.groups.length, m.groups⟩
      | none => ⟨none, 0, []⟩) := by
  induction ms generalizing n with
  | nil =>
    have : ∀ n, n < 8 → (history []).get n = .ok ⟨none, 0, []⟩ := by decide
    simpa using this n hn
  | cons x ms ih =>
    show ((history ms).record x.1 x.2).get n = _
    cases n with
    | zero => rw [Smq.get_record_zero (history_wf ms)]; rfl
    | succ n => rw [Smq.get_record_succ (history_wf ms) _ _ _ hn, ih n (by omega)]; simp

/-- The documentation speaks of the "most recently matched statement"; but a pattern that did
not match takes a place in the history too. -/
theorem C13_only_matches_fails :
    let q := history [(⟨false, [(-1, -1)]⟩, b!"/b"), (⟨true, [(0, 2)]⟩, b!"/a")]
    (∃ s, q.get 0 = .ok s ∧ s.subject = none) ∧ ∃ s, q.get 1 = .ok s ∧ s.subject = some b!"/a" := by
  refine ⟨⟨⟨none, 1, [(-1, -1)]⟩, by decide, rfl⟩, ⟨⟨some b!"/a", 1, [(0, 2)]⟩, by decide, rfl⟩⟩

example : (history ((List.range 20).map fun (i : Nat) => (⟨true, [(0, Int.ofNat i)]⟩, b!"subject"))).get 3 =
    .ok ⟨some b!"subject", 1, [(0, 3)]⟩ := by decide

/-! ## C12 String templates expand to their defined value -/

/-- `groups m` are the groups of the `m`-th latest match, if it is among the latest eight and was
successful. -/
def HistoryOf (ms : List (MatchRes × Bytes)) (groups : Nat → Option (List Bytes)) : Prop :=
  ∀ m,
    (m < 8 ∧ ∃ x s gs, ms[m]? = some (x, s) ∧ x.ok = true ∧ groups m = some gs ∧ GroupsAt s x.groups gs ∧
      gs.length < 2 ^ 64) ∨
    ((8 ≤ m ∨ ms[m]? = none ∨ ∃ x s, ms[m]? = some (x, s) ∧ x.ok = false) ∧ groups m = none)

/-- The accessors of a request. -/
def accessorsOf (r : Req) (hs : List Header) : Bytes → AccVal → Prop :=
  Accesses r.url r.getPath.2 r.getQuery.2 (fun a => (r.getParam a).2) (hs.map (·.text))

/-- The history `q` shows the matches `ms`, latest first: subject and groups of the successful
ones among the latest eight, nothing for the others. -/
structure Recorded (q : Smq) (ms : List (MatchRes × Bytes)) : Prop where
  wf : q.Wf
  shows : ∀ n, n < 8 → ∃ sm, q.get n = .ok sm ∧
    ((∃ m s, ms[n]? = some (m, s) ∧ m.ok = true ∧ sm = ⟨some s, m.groups.length, m.groups⟩) ∨
     ((∀ m s, ms[n]? = some (m, s) → m.ok = false) ∧ sm.subject = none))

theorem recorded_history (ms : List (MatchRes × Bytes)) : Recorded (history ms) ms := by
  refine ⟨history_wf ms, fun n hn => ⟨_, C13_history ms n hn, ?_⟩⟩
  cases h : ms[n]? with
  | none => exact .inr ⟨fun m s e => (nomatch e), rfl⟩
  | some x =>
    obtain ⟨m, s⟩ := x
    cases hm : m.ok with
    | true => exact .inl ⟨m, s, rfl, hm, by simp [hm]⟩
    | false => exact .inr ⟨fun m' s' e => by simp only [Option.some.injEq, Prod.mk.injEq] at e; rw [← e.1]; exact hm, by simp [hm]⟩

theorem sees_history {q : Smq} {ms : List (MatchRes × Bytes)} {groups} (hq : Recorded q ms) (h : HistoryOf ms groups) :
    (∀ m, m < 8 → ∃ sm, q.get m = .ok sm ∧
      ((sm.subject = none ∧ groups m = none) ∨
       ∃ s gs, sm.subject = some s ∧ groups m = some gs ∧ GroupsAt s sm.matchv gs ∧ sm.matchn = gs.length)) ∧
    (∀ m, 8 ≤ m → groups m = none) ∧ ∀ m gs, groups m = some gs → gs.length < 2 ^ 64 := by
  refine ⟨?_, ?_, ?_⟩
  · intro m hm
    obtain ⟨sm, hg, hsm⟩ := hq.shows m hm
    refine ⟨sm, hg, ?_⟩
    rcases h m with ⟨_, x, s, gs, h1, h2, h3, h4, _⟩ | ⟨hn, h3⟩
    · rcases hsm with ⟨x', s', e1, e2, rfl⟩ | ⟨e1, e2⟩
      · rw [h1] at e1
        simp only [Option.some.injEq, Prod.mk.injEq] at e1
        obtain ⟨rfl, rfl⟩ := e1
        exact .inr ⟨s, gs, rfl, h3, h4, groupsAt_length h4⟩
      · rw [e1 _ _ h1] at h2; cases h2
    · rcases hsm with ⟨x', s', e1, e2, rfl⟩ | ⟨e1, e2⟩
      · rcases hn with h1 | h1 | ⟨x, s, h1, h2⟩
        · omega
        · rw [h1] at e1; cases e1
        · rw [h1] at e1
          simp only [Option.some.injEq, Prod.mk.injEq] at e1
          rw [← e1.1, h2] at e2; cases e2
      · exact .inl ⟨e2, h3⟩
  · intro m hm
    rcases h m with ⟨h1, _⟩ | ⟨_, h1⟩
    · omega
    · exact h1
  · intro m gs hg
    rcases h m with ⟨_, x, s, gs', _, _, h3, _, h5⟩ | ⟨_, h1⟩
    · rw [h3] at hg; injection hg with hg; rw [← hg]; exact h5
    · rw [h1] at hg; cases hg

/-- For any history and any request, a template expands as documented: to its text, or
to an error.  Missing for the full property: the notation `$%`, references to the group just
after the last one, group numbers beyond 2^64, a sign at the end of the template, and the
accessors `query` (without query) and those whose argument is followed by blanks: see the
`_fails` theorems. -/
theorem C12_expand_partial (q : Smq) (ms : List (MatchRes × Bytes)) (hq : Recorded q ms) (r : Req) (hs : List Header)
    (hh : HeaderList hs) (groups : Nat → Option (List Bytes)) (hist : HistoryOf ms groups)
    (t : Bytes) (x : Option (Bytes × Nat))
    (h : Expands ⟨groups, some (accessorsOf r hs)⟩ (okScope ⟨groups, some (accessorsOf r hs)⟩) t x) :
    expandString ⟨q, some (accessor r hs)⟩ t = (match x with | some (o, _) => .str o | none => .null) ∧
    ∀ hasUri, expandUrl ⟨q, some (accessor r hs)⟩ r.url t hasUri =
      (match x with
       | some (o, n) => .str (if hasUri = true ∨ 0 < n then o else o ++ r.url)
       | none => .null) := by
  obtain ⟨h1, h2, h3⟩ := sees_history hq hist
  have hE : Sees ⟨q, some (accessor r hs)⟩ ⟨groups, some (accessorsOf r hs)⟩ :=
    ⟨h1, h2, fun f hf => ⟨_, rfl, fun nm v hv => by
        simp only [Option.some.injEq] at hf; subst hf
        exact accessor_of_spec hh.good hv⟩, fun hf => by cases hf⟩
  obtain ⟨o, v, h4, h5, h6⟩ := expands_run hE h3 h [] 0 (by omega)
  have e : expandToBuffer ⟨q, some (accessor r hs)⟩ t = .ok o v := h4
  cases x with
  | none =>
    have := h6 rfl
    subst this
    simp [expandString, expandUrl, e]
  | some p =>
    obtain ⟨s, k⟩ := p
    obtain ⟨rfl, rfl⟩ := h5 s k rfl
    have hk : ¬ (0 + (k : Int) = -1) := by omega
    constructor
    · simp only [expandString, e]
      rw [if_neg (by simp)]
    · intro u
      simp only [expandUrl, e]
      rw [if_neg (by simp)]
      by_cases h0 : 0 < k
      · simp [h0, Nat.pos_iff_ne_zero.1 h0]
      · have : k = 0 := by omega
        subst this
        simp

/-- The same without a request: accessors are not interpreted. -/
theorem C12_expand_noreq_partial (q : Smq) (ms : List (MatchRes × Bytes)) (hq : Recorded q ms)
    (groups : Nat → Option (List Bytes)) (hist : HistoryOf ms groups)
    (t : Bytes) (x : Option (Bytes × Nat)) (h : Expands ⟨groups, none⟩ (okScope ⟨groups, none⟩) t x) :
    expandString ⟨q, none⟩ t = (match x with | some (o, _) => .str o | none => .null) := by
  obtain ⟨h1, h2, h3⟩ := sees_history hq hist
  have hE : Sees ⟨q, none⟩ ⟨groups, none⟩ :=
    ⟨h1, h2, (fun f hf => by cases hf), fun _ => rfl⟩
  obtain ⟨o, v, h4, h5, h6⟩ := expands_run hE h3 h [] 0 (by omega)
  have e : expandToBuffer ⟨q, none⟩ t = .ok o v := h4
  cases x with
  | none =>
    have := h6 rfl
    subst this
    simp [expandString, e]
  | some p =>
    obtain ⟨s, k⟩ := p
    obtain ⟨rfl, rfl⟩ := h5 s k rfl
    simp only [expandString, e]
    rw [if_neg (by simp)]

/-- Text without dollar and percent signs is copied. -/
theorem C12_text_verbatim (env : ExpEnv) (t : Bytes) (h : ∀ c ∈ t, c ≠ ch%'$' ∧ c ≠ ch%'%') :
    expandString env t = .str t := by
  have h1 : expRun env (t ++ []) [] 0 = expRun env [] ([] ++ t) 0 :=
    expRun_lit fun c hc => by simp [notSign, h c hc]
  rw [List.append_nil, expRun_nil] at h1
  have e : expandToBuffer env t = .ok t 0 := h1
  simp [expandString, e]

/-- `$%` should give a percent sign (see `Item.percent`); it gives a dollar sign. -/
theorem C12_percent_fails (E : Env) (env : ExpEnv) :
    Expands E .all b!"$%" (some (b!"%", 0)) ∧ expandString env b!"$%" = .str b!"$" := by
  constructor
  · have h := Expands.cons (E := E) (S := .all) (w := b!"$%") (t := []) (.percent trivial) .nil
    exact h
  · have h : expRun env b!"$%" [] 0 = expRun env [] ([] ++ b!"$") 0 :=
      expRun_sign (u := .same) (by decide) (by simp [expandStep])
    rw [expRun_nil] at h
    have e : expandToBuffer env b!"$%" = .ok b!"$" 0 := h
    simp [expandString, e]

/-- A template that ends with a sign is read beyond its end. -/
theorem C12_trailing_sign_fails (env : ExpEnv) (t : Bytes) (h : ∀ c ∈ t, c ≠ ch%'$' ∧ c ≠ ch%'%') (c : UInt8)
    (hc : c = ch%'$' ∨ c = ch%'%') : expandString env (t ++ [c]) = .ub := by
  have h1 : expRun env (t ++ [c]) [] 0 = expRun env [c] ([] ++ t) 0 :=
    expRun_lit fun c hc => by simp [notSign, h c hc]
  have h2 : notSign c = false := by rcases hc with rfl | rfl <;> decide
  have h3 : ∀ out, expRun env [c] out 0 = .ub := by
    intro out
    simp [expRun, expandLoop, expandStep, h2, List.takeWhile_cons]
  rw [h3] at h1
  have e : expandToBuffer env (t ++ [c]) = .ub := h1
  simp [expandString, e]

/-- A reference to the group after the last one reads beyond the array of groups. In particular
`$0` does so if the latest match was that of a fixed string, which has no groups at all. -/
theorem C12_group_bound_fails (ms : List (MatchRes × Bytes)) (subj : Bytes) (os : List (Int × Int))
    (hl : os.length < 2 ^ 64) (acc : Option (Bytes → AccRes)) :
    expandString ⟨history ((⟨true, os⟩, subj) :: ms), acc⟩ (ch%'$' :: dec os.length) = .ub := by
  have hd := dec_denotes os.length
  have hg := C13_history ((⟨true, os⟩, subj) :: ms) 0 (by omega)
  simp only [List.getElem?_cons_zero, if_true] at hg
  have h1 := step_digits (env := ⟨history ((⟨true, os⟩, subj) :: ms), acc⟩) (t := []) hd
    (fun c hc => by cases hc) hl (.inl rfl)
  rw [expRef_plain (.inr fun c hc => by cases hc), List.append_nil] at h1
  simp only [if_true] at h1
  have h2 : ∀ p, expGroup ⟨history ((⟨true, os⟩, subj) :: ms), acc⟩ (ch%'$' :: dec os.length) p 0 os.length = .ub := by
    intro p
    simp [expGroup, hg, Submatch.groupText]
  rw [h2] at h1
  have h3 : notSign ch%'$' = false := by decide
  have e : expandToBuffer ⟨history ((⟨true, os⟩, subj) :: ms), acc⟩ (ch%'$' :: dec os.length) = .ub := by
    unfold expandToBuffer expandLoop
    simp only [List.takeWhile_cons, h3, Bool.false_eq_true, if_false, List.length_nil, List.drop_zero, h1]
  simp [expandString, e]

/-- Look-up of an accessor whose argument is followed by a blank never ends. -/
theorem C12_accessor_blank_fails (r : Req) (hs : List Header) (smq : Smq) :
    expandString ⟨smq, some (accessor r hs)⟩ b!"%[header X-A ]" = .stuck := by
  have h1 : accessor r hs b!"header X-A " = .stuck := by
    have : findAccessor b!"header X-A " = .stuck := by decide
    simp [accessor, this]
  have h2 : (b!"header X-A ]").takeWhile notBracket = b!"header X-A " := by decide
  have h3 : notSign ch%'%' = false := by decide
  have hx : isXDigit ch%'[' = false := by decide
  have h4 : expandStep ⟨smq, some (accessor r hs)⟩ b!"%[header X-A ]" = .stuck := by
    simp [expandStep, h1, h2, hx]
  have e : expandToBuffer ⟨smq, some (accessor r hs)⟩ b!"%[header X-A ]" = .stuck := by
    unfold expandToBuffer expandLoop
    simp only [List.takeWhile_cons, h3, Bool.false_eq_true, if_false, List.length_nil, List.drop_zero, h4]
  simp [expandString, e]

/-- `%[query]` uses an uninitialised pointer if the request has no query. -/
theorem C12_no_query_fails (r : Req) (hs : List Header) (smq : Smq) (hq : r.getQuery.2 = none) :
    expandString ⟨smq, some (accessor r hs)⟩ b!"%[query]" = .ub := by
  have h1 : accessor r hs b!"query" = .ub := by
    have : findAccessor b!"query" = .found b!"query" [] := by decide
    simp [accessor, this, callAccessor, hq]
  have h2 : (b!"query]").takeWhile notBracket = b!"query" := by decide
  have h3 : notSign ch%'%' = false := by decide
  have hx : isXDigit ch%'[' = false := by decide
  have h4 : expandStep ⟨smq, some (accessor r hs)⟩ b!"%[query]" = .ub := by
    simp [expandStep, h1, h2, hx]
  have e : expandToBuffer ⟨smq, some (accessor r hs)⟩ b!"%[query]" = .ub := by
    unfold expandToBuffer expandLoop
    simp only [List.takeWhile_cons, h3, Bool.false_eq_true, if_false, List.length_nil, List.drop_zero, h4]
  simp [expandString, e]

/-- Group numbers that do not fit are copied without reporting an error. -/
theorem C12_huge_number_fails :
    Expands ⟨fun _ => none, none⟩ .all b!"$18446744073709551616" none ∧
    expandString ⟨.init, none⟩ b!"$18446744073709551616" = .str b!"$18446744073709551616" := by
  constructor
  · have hd : Denotes 10 b!"18446744073709551616" 18446744073709551616 :=
      ⟨by decide, by decide, by decide +kernel⟩
    have h := Expands.cons (E := ⟨fun _ => none, none⟩) (S := .all) (w := b!"$18446744073709551616") (t := [])
      (.noGroup (.plain hd (fun c hc => by cases hc)) (fun gs h => by cases h) trivial trivial) .nil
    exact h
  · decide +kernel

/-- The host part of a `Host` header with an IPv6 address is cut in the middle of the address. -/
theorem C12_host_ipv6_fails (r : Req) :
    accessor r [headerAlloc b!"Host: [::1]:8080"] b!"host" = .val b!"[" := by
  have h1 : findAccessor b!"host" = .found b!"host" [] := by decide
  have h2 : accHeader [headerAlloc b!"Host: [::1]:8080"] b!"host" = .val b!"[::1]:8080" := by decide +kernel
  have h3 : (b!"[::1]:8080").takeWhile notColon = b!"[" := by decide
  simp [accessor, h1, callAccessor, h2, h3]

/-! A template with text, escapes, references and accessors, and its expansion. -/

example :
    let r := Req.fresh b!"GET /a?x=1 HTTP/1.1" ⟨0, b!"/a?x=1", 1⟩
    let hs := [headerAlloc b!"Host: example.org:80"]
    let smq := history [(⟨true, [(0, 5), (1, 3)]⟩, b!"/abcd"), (⟨true, [(0, 2)]⟩, b!"xy")]
    expandString ⟨smq, some (accessor r hs)⟩ b!"https://%[host]/$1$$%20${0(1)}-%[param x]%0" =
      .str b!"https://example.org/ab$%20xy-1xy" := by decide +kernel

example (groups : Nat → Option (List Bytes)) (h : groups 0 = some [b!"/abcd", b!"ab"]) (acc) :
    Expands ⟨groups, acc⟩ (okScope ⟨groups, acc⟩) b!"a$1$$%20" (some (b!"aab$%20", 1)) := by
  have hd : Denotes 10 b!"1" 1 := ⟨by decide, by decide, by decide⟩
  have h1 := Expands.cons (E := ⟨groups, acc⟩) (S := okScope ⟨groups, acc⟩) (w := b!"%20") (t := [])
    (.escape (by unfold HexDigit; decide) (by unfold HexDigit; decide)) .nil
  have h2 := Expands.cons (w := b!"$$") .dollar h1
  have h3 := Expands.cons (w := b!"$1")
    (.group (.plain hd (fun c hc => by simp at hc; subst hc; unfold Digit; decide)) h rfl) h2
  have h4 := Expands.cons (w := b!"a") (.text (by decide) (by decide)) h3
  exact h4

example : HistoryOf [(⟨true, [(0, 5), (1, 3)]⟩, b!"/abcd")]
    (fun m => if m = 0 then some [b!"/abcd", b!"ab"] else none) := by
  intro m
  cases m with
  | zero =>
    refine .inl ⟨by omega, _, _, _, rfl, rfl, rfl, ?_, by decide⟩
    exact .set (a := []) (g := b!"/abcd") (b := []) rfl (.set (a := b!"/") (g := b!"ab") (b := b!"cd") rfl .nil)
  | succ m => exact .inr ⟨.inr (.inl (by simp)), by simp⟩

/-! ## C11 Redirect locations cannot inject or be mangled -/

/-- Every redirect sends a response whose header lines are exactly the fixed ones and one
`Location`, whose value consists of URL-safe characters and percent signs only: nothing in the
target URL can add a line or end the header.  The body length is announced correctly. -/
theorem C11_no_injection (env : ExpEnv) (reqUrl : Bytes) (ver code : Nat) (target : Bytes) (hasUri : Bool)
    (reply : Bytes) (h : redirectResponse env reqUrl ver code target hasUri = .sent reply) (hv : ver ≤ 1) :
    ∃ lim sl blk line loc body, reply = sl ++ (blk ++ body) ∧ WireLine lim sl line ∧
      ResponseLine line ver code ∧ 300 ≤ code ∧ code < 400 ∧
      Block lim blk ((b!"Content-Type: text/html") ::
        ((if ver = 1 then [b!"Content-Length: " ++ dec body.length, b!"Connection: close"] else []) ++
          [b!"Location: " ++ loc])) ∧
      ∀ c ∈ loc, LocationChar c := by
  unfold redirectResponse at h
  split at h
  · cases h
  · rename_i msg hmsg
    split at h
    · cases h
    · cases h
    · cases h
    · rename_i xurl hx
      dsimp only at h
      injection h with h
      have hm : ∀ c ∈ msg, Text c := by
        unfold redirectText at hmsg
        repeat' split at hmsg
        all_goals simp only [Option.some.injEq, reduceCtorEq] at hmsg
        all_goals (subst hmsg; unfold Text; decide)
      obtain ⟨lim, sl, blk, h1, h2, h3⟩ := reply_block ver code msg b!"text/html"
        (b!"<html><head><title>Redirect</title></head><body><h1>Redirect</h1>" ++
          b!"<p>You should go to <a href=\"" ++ sanitize xurl ++ b!"\">" ++ sanitize xurl ++ b!"</a></p></body></html>")
        [b!"Location: " ++ sanitize xurl] hm (by unfold Text; decide) (by
          intro l hl
          simp only [List.mem_singleton] at hl
          subst hl
          refine ⟨by simp, ?_⟩
          intro c hc
          rcases List.mem_append.1 hc with hc | hc
          · have hloc : ∀ c ∈ b!"Location: ", Text c := by unfold Text; decide
            exact hloc c hc
          · exact location_text (sanitize_location xurl c hc))
      have hcode : (code = 301 ∨ code = 302 ∨ code = 303 ∨ code = 307 ∨ code = 308) := by
        unfold redirectText at hmsg
        repeat' split at hmsg
        all_goals simp_all
      have hresp : ResponseLine (b!"HTTP/1." ++ dec ver ++ b!" " ++ dec code ++ b!" " ++ msg) ver code := by
        refine ⟨UInt8.ofNat (48 + ver), (dec code).getD 0 0, (dec code).getD 1 0, (dec code).getD 2 0, [32],
          32 :: msg, ?_, ?_, hv, by simp, ?_, ?_, .inr ⟨_, _, rfl, .inl rfl⟩⟩
        · have : ver = 0 ∨ ver = 1 := by omega
          have e : ∀ n, n = 301 ∨ n = 302 ∨ n = 303 ∨ n = 307 ∨ n = 308 →
              dec n = [(dec n).getD 0 0, (dec n).getD 1 0, (dec n).getD 2 0] := by
            rintro n (rfl | rfl | rfl | rfl | rfl) <;> decide
          have e' : dec ver = [UInt8.ofNat (48 + ver)] := by rcases this with rfl | rfl <;> decide
          rw [← e code hcode, e']; simp
        · have : ver = 0 ∨ ver = 1 := by omega
          rcases this with rfl | rfl <;> decide
        · intro c hc; simp at hc; exact .inl hc
        · refine ⟨code / 100, code / 10 % 10, code % 10, ?_⟩
          rcases hcode with rfl | rfl | rfl | rfl | rfl <;> decide
      refine ⟨lim, sl, blk, _, sanitize xurl, _, ?_, h2, hresp, by omega, by omega, h3, sanitize_location xurl⟩
      rw [← h, ← h1]
      simp

/-- The location is the percent-encoding of the expanded target URL if that is ASCII.
Missing for the full property: other bytes, see `C11_nonascii_fails`. -/
theorem C11_decodes_partial (env : ExpEnv) (reqUrl : Bytes) (ver code : Nat) (target xurl : Bytes) (hasUri : Bool)
    (hx : expandUrl env reqUrl target hasUri = .str xurl) (ha : ∀ c ∈ xurl, c < 128)
    (hc : code = 301 ∨ code = 302 ∨ code = 303 ∨ code = 307 ∨ code = 308) :
    ∃ pre loc post, redirectResponse env reqUrl ver code target hasUri =
        .sent (pre ++ b!"Location: " ++ loc ++ [13, 10, 13, 10] ++ post) ∧ PctEncodes xurl loc := by
  have : ∃ m, redirectText code = some m := by
    rcases hc with rfl | rfl | rfl | rfl | rfl <;> exact ⟨_, rfl⟩
  obtain ⟨m, hm⟩ := this
  let pre := b!"HTTP/1." ++ dec ver ++ b!" " ++ dec code ++ b!" " ++ m ++ [13, 10] ++
    b!"Content-Type: " ++ b!"text/html" ++ [13, 10]
  unfold redirectResponse
  rw [hm]
  simp only [hx]
  generalize hcont : (b!"<html><head><title>Redirect</title></head><body><h1>Redirect</h1>" ++
          b!"<p>You should go to <a href=\"" ++ sanitize xurl ++ b!"\">" ++ sanitize xurl ++ b!"</a></p></body></html>" : Bytes) = cont
  refine ⟨pre ++ (if ver = 1 then b!"Content-Length: " ++ dec cont.length ++ [13, 10] ++ b!"Connection: close" ++ [13, 10] else []),
    sanitize xurl, cont, ?_, sanitize_encodes ha⟩
  simp [httpReply, replyStart, pre]

/-- Bytes above 127 are not percent-encoded: e.g. `é` in UTF-8 becomes `%ffffffc3%ffffffa9`. -/
theorem C11_nonascii_fails : sanitize [0xc3, 0xa9] = b!"%ffffffc3%ffffffa9" ∧
    ¬ PctEncodes [0xc3, 0xa9] (sanitize [0xc3, 0xa9]) := by
  have h : sanitize [0xc3, 0xa9] = b!"%ffffffc3%ffffffa9" := by decide
  refine ⟨h, ?_⟩
  rw [h]
  intro hp
  cases hp with
  | esc h1 h2 h3 _ =>
    have e1 : digit? 16 ch%'f' = some 15 := by decide
    rw [e1] at h1 h2
    injection h1 with h1; injection h2 with h2
    subst h1; subst h2
    revert h3; decide

example : ∃ r, redirectResponse ⟨.init, none⟩ b!"/x" 1 302 b!"http://h/a b" true = .sent r := ⟨_, rfl⟩
example : sanitize b!"http://h/a b" = b!"http://h/a%20b" := by decide

/-! ## C54 Replies made by the program itself are self-delimited -/

/-- Status codes of HTTP (RFC 7231 6). -/
def statusNumber : Status → Nat
  | .ok => 200
  | .badRequest => 400
  | .unauthorized => 401
  | .forbidden => 403
  | .notFound => 404
  | .methodNotAllowed => 405
  | .payloadTooLarge => 413
  | .uriTooLong => 414
  | .internalError => 500
  | .notImplemented => 501
  | .serviceUnavailable => 503

/-- Every error reply is a response line with the code of that error, a header block and a
body; to HTTP/1.1 requests it declares exactly the length of its body, no transfer coding,
and `Connection: close`. -/
theorem C54_error_replies (st : Status) (page : Bytes) (ver : Nat) (hp : page.length < 2 ^ 63) (hv : ver ≤ 1) :
    ∃ lim sl blk line lines, errReply ver st page = sl ++ (blk ++ page) ∧ WireLine lim sl line ∧
      ResponseLine line ver (statusNumber st) ∧ Block lim blk lines ∧
      Values b!"Transfer-Encoding" lines [] ∧
      (ver = 1 → ∃ v, Values b!"Content-Length" lines [v] ∧ DeclaresLength v page.length ∧
        Values b!"Connection" lines [b!"close"]) := by
  have happ := reply_block ver (statusInfo st).1 (statusInfo st).2 b!"text/html" page
    [b!"Expires: now", b!"Pragma: no-cache", b!"Cache-control: no-cache,no-store"]
    (by cases st <;> (unfold Text; decide)) (by unfold Text; decide) (by unfold Text; decide)
  obtain ⟨lim, sl, blk, h1, h2, h3⟩ := happ
  have hT : ∀ n ∈ [b!"Content-Type", b!"Content-Length", b!"Connection", b!"Expires", b!"Pragma",
      b!"Cache-control"], n ≠ [] ∧ ∀ c ∈ n, TChar c := by unfold TChar; decide
  have hline : ∀ n ∈ [b!"Content-Type", b!"Content-Length", b!"Connection", b!"Expires", b!"Pragma",
      b!"Cache-control"], ∀ v, NotAt (fun c => c = 32 ∨ c = 9) v → HeaderLine (n ++ b!": " ++ v) n v :=
    fun n hn v hv => headerLine_mk (hT n hn).1 (hT n hn).2 hv
  have hfix : ∀ v ∈ [b!"text/html", b!"close", b!"now", b!"no-cache", b!"no-cache,no-store"],
      NotAt (fun c => c = 32 ∨ c = 9) v := by unfold NotAt; decide
  have hdec : NotAt (fun c => c = 32 ∨ c = 9) (dec page.length) := by
    intro c hc
    have := dec_text page.length c (List.mem_of_mem_head? hc)
    rintro (rfl | rfl) <;> revert this <;> unfold Digit <;> decide
  have l1 := hline b!"Content-Type" (by decide) b!"text/html" (hfix _ (by decide))
  have l2 := hline b!"Content-Length" (by decide) _ hdec
  have l3 := hline b!"Connection" (by decide) b!"close" (hfix _ (by decide))
  have l4 := hline b!"Expires" (by decide) b!"now" (hfix _ (by decide))
  have l5 := hline b!"Pragma" (by decide) b!"no-cache" (hfix _ (by decide))
  have l6 := hline b!"Cache-control" (by decide) b!"no-cache,no-store" (hfix _ (by decide))
  have tl : ∀ name, name = b!"Transfer-Encoding" ∨ name = b!"Content-Length" ∨ name = b!"Connection" →
      Values name [b!"Expires: now", b!"Pragma: no-cache", b!"Cache-control: no-cache,no-store"] [] := by
    intro name hn
    refine .miss (not_named l4 ?_) (.miss (not_named l5 ?_) (.miss (not_named l6 ?_) .nil)) <;>
      rcases hn with rfl | rfl | rfl <;> decide
  have hresp : ResponseLine (b!"HTTP/1." ++ dec ver ++ b!" " ++ dec (statusInfo st).1 ++ b!" " ++ (statusInfo st).2)
      ver (statusNumber st) := by
    have hn : statusNumber st = (statusInfo st).1 := by cases st <;> rfl
    rw [hn]
    refine ⟨UInt8.ofNat (48 + ver), (dec (statusInfo st).1).getD 0 0, (dec (statusInfo st).1).getD 1 0,
      (dec (statusInfo st).1).getD 2 0, [32], 32 :: (statusInfo st).2, ?_, ?_, hv, by simp, ?_, ?_, .inr ⟨_, _, rfl, .inl rfl⟩⟩
    · have : ver = 0 ∨ ver = 1 := by omega
      rcases this with rfl | rfl <;> cases st <;> decide
    · have : ver = 0 ∨ ver = 1 := by omega
      rcases this with rfl | rfl <;> decide
    · intro c hc; simp at hc; exact .inl hc
    · refine ⟨(statusInfo st).1 / 100, (statusInfo st).1 / 10 % 10, (statusInfo st).1 % 10, ?_⟩
      cases st <;> decide
  refine ⟨lim, sl, blk, _, _, h1, h2, hresp, h3, ?_, ?_⟩
  · refine .miss (not_named l1 (by decide)) ?_
    by_cases h : ver = 1
    · rw [if_pos h]
      exact .miss (not_named l2 (by decide)) (.miss (not_named l3 (by decide)) (tl _ (.inl rfl)))
    · rw [if_neg h]
      exact tl _ (.inl rfl)
  · intro h
    rw [if_pos h]
    refine ⟨dec page.length, ?_, ⟨hp, [], dec page.length, [], by simp, by simp [Blank], dec_denotes _, by simp [Blank]⟩, ?_⟩
    · exact .miss (not_named l1 (by decide)) (.hit l2 (by decide) (.miss (not_named l3 (by decide))
        (tl _ (.inr (.inl rfl)))))
    · exact .miss (not_named l1 (by decide)) (.miss (not_named l2 (by decide)) (.hit l3 (by decide)
        (tl _ (.inr (.inr rfl)))))

example : errReply 1 .notFound b!"gone" =
    b!"HTTP/1.1 404 Not Found" ++ [13, 10] ++ b!"Content-Type: text/html" ++ [13, 10] ++
    b!"Content-Length: 4" ++ [13, 10] ++ b!"Connection: close" ++ [13, 10] ++ b!"Expires: now" ++ [13, 10] ++
    b!"Pragma: no-cache" ++ [13, 10] ++ b!"Cache-control: no-cache,no-store" ++ [13, 10] ++ [13, 10] ++ b!"gone" := by
  decide +kernel

/-! ## C55 ACME challenges are answered from the configured directory -/

/-- What the pattern of an ACME service (/repo/src/config.c:2709) matches, with its group. -/
def acmeMatch (name : Bytes) : MatchRes × Bytes :=
  let subject := b!"/.well-known/acme-challenge/" ++ name
  (⟨true, [(0, (subject.length : Nat)), (28, (subject.length : Nat))]⟩, subject)

/-- A relative name that stays in the directory: no component is `..`. -/
def Inside (name : Bytes) : Prop :=
  name.head? ≠ some ch%'/' ∧ ∀ a b, name ≠ a ++ b!".." ++ b ∨ (a ≠ [] ∧ a.getLast? ≠ some ch%'/') ∨
    (b ≠ [] ∧ b.head? ≠ some ch%'/')

/-- The name of the file is what follows the fixed part of the URL.  Missing for the full
property (that the file is inside of the directory): names such as `../x` and `/x`
are used as they are, see `C55_escape_fails`. -/
theorem C55_file_name_partial (ms : List (MatchRes × Bytes)) (acc) (name : Bytes) (hn : name.length < 2 ^ 32) :
    acmeFile ⟨history (acmeMatch name :: ms), acc⟩ = .str name := by
  have hg := C13_history (acmeMatch name :: ms) 0 (by omega)
  simp only [List.getElem?_cons_zero, acmeMatch, if_true] at hg
  have hd : Denotes 10 b!"1" 1 := ⟨by decide, by decide, by decide⟩
  have h1 := step_digits (env := ⟨history (acmeMatch name :: ms), acc⟩) (t := []) hd
    (fun c hc => by cases hc) (by decide) (.inl rfl)
  rw [expRef_plain (.inr fun c hc => by cases hc), List.append_nil] at h1
  simp only [if_true] at h1
  have hgt : ∀ p, expGroup ⟨history (acmeMatch name :: ms), acc⟩ b!"$1" p 0 1 = .emit name p .inc := by
    intro p
    simp only [expGroup, acmeMatch, hg]
    by_cases h0 : name = []
    · subst h0; simp [Submatch.groupText]
    · have hl := List.length_pos_iff.2 h0
      simp only [Submatch.groupText, List.length_cons, List.length_nil, List.length_append, List.getElem?_cons_succ,
        List.getElem?_cons_zero]
      rw [if_pos (by omega), if_neg (by omega), if_pos (by omega)]
      simp
      exact List.take_of_length_le (by omega)
  rw [hgt] at h1
  have h2 : expRun ⟨history (acmeMatch name :: ms), acc⟩ b!"$1" [] 0 = _ := expRun_sign (by decide) h1
  rw [expRun_nil] at h2
  have e : expandToBuffer ⟨history (acmeMatch name :: ms), acc⟩ b!"$1" = .ok name 1 := h2
  simp [acmeFile, expandUrl, e]

/-- Files outside of the directory can be asked for: with `..`, or by an absolute name. -/
theorem C55_escape_fails (ms : List (MatchRes × Bytes)) (acc) :
    (acmeFile ⟨history (acmeMatch b!"../../etc/passwd" :: ms), acc⟩ = .str b!"../../etc/passwd" ∧
      ¬ Inside b!"../../etc/passwd") ∧
    (acmeFile ⟨history (acmeMatch b!"/etc/passwd" :: ms), acc⟩ = .str b!"/etc/passwd" ∧
      ¬ Inside b!"/etc/passwd") := by
  refine ⟨⟨C55_file_name_partial ms acc _ (by decide), ?_⟩, C55_file_name_partial ms acc _ (by decide), ?_⟩
  · rintro ⟨_, h⟩
    rcases h [] b!"/../etc/passwd" with h | h | h
    · exact h rfl
    · exact h.1 rfl
    · exact h.2 rfl
  · rintro ⟨h, _⟩
    exact h rfl

end Pound.Props
