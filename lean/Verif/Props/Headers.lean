import Verif.Proof.Headers

/-!
Properties C09, C10 and C52: header lists and token lists.
-/

namespace Pound.Props
open Pound Spec

/-- The header lists that arise: read from a client, or edited. -/
inductive HeaderList : List Header → Prop
  | empty : HeaderList []
  | read {table lines} : HeaderList (buildHeaders table lines)
  | add {hs hs' text n v m rc} : HeaderList hs → HeaderLine text n v →
      listAppend hs text m = .ok (rc, hs') → HeaderList hs'
  | remove {hs} (p) : HeaderList hs → HeaderList (hs.filter p)
  | change {a b h text n v} : HeaderList (a ++ h :: b) → HeaderLine text n v → HeaderList (a ++ h.change text :: b)

theorem HeaderList.good {hs : List Header} (h : HeaderList hs) : ∀ x ∈ hs, Good x := by
  induction h with
  | empty => simp
  | read => exact buildHeaders_good _ _
  | add h hl ha ih =>
    rename_i m _
    obtain ⟨hs'', h1, h2, -⟩ := listAppend_spec ih hl m
    rw [ha] at h1
    simp only [Res.ok.injEq, Prod.mk.injEq] at h1
    rw [h1.2]; exact h2
  | remove p _ ih => exact fun x hx => ih x (List.mem_filter.1 hx).1
  | change _ hl ih =>
    intro x hx
    rcases List.mem_append.1 hx with hx | hx
    · exact ih x (List.mem_append_left _ hx)
    · rcases List.mem_cons.1 hx with rfl | hx
      · exact (change_good hl).1
      · exact ih x (List.mem_append_right _ (List.mem_cons_of_mem _ hx))

/-! ## C09 Adding a header honours the requested mode -/

/-- Adding a well-formed header line succeeds and has the effect the mode asks for. -/
theorem C09_add (hs : List Header) (text n v : Bytes) (hh : HeaderList hs)
    (hl : HeaderLine text n v) :
    (∃ hs', listAppend hs text .keep = .ok (0, hs') ∧
      Adds text n v (hs.map (·.text)) (hs'.map (·.text)) .keep) ∧
    (∃ hs', listAppend hs text .replace = .ok (0, hs') ∧
      Adds text n v (hs.map (·.text)) (hs'.map (·.text)) .replace) ∧
    (∃ hs', listAppend hs text .append = .ok (0, hs') ∧
      Adds text n v (hs.map (·.text)) (hs'.map (·.text)) .append) := by
  refine ⟨?_, ?_, ?_⟩
  · obtain ⟨hs', h1, _, h2⟩ := listAppend_spec hh.good hl .keep; exact ⟨hs', h1, h2⟩
  · obtain ⟨hs', h1, _, h2⟩ := listAppend_spec hh.good hl .replace; exact ⟨hs', h1, h2⟩
  · obtain ⟨hs', h1, _, h2⟩ := listAppend_spec hh.good hl .append; exact ⟨hs', h1, h2⟩

/-- The stored name and value of every header are those of its text. -/
theorem C09_fields (hs : List Header) (hh : HeaderList hs) (h : Header) (hm : h ∈ hs) :
    ∃ v, HeaderLine h.text h.name v ∧ h.value = .ok v :=
  ⟨_, (hh.good h hm).line, (hh.good h hm).value⟩

/-- Malformed text is refused and changes nothing, unless it is, up to letter case, just the
name of an existing header (without a colon).
Missing for the full property: that case, see `C09_malformed_fails`. -/
theorem C09_malformed_partial (hs : List Header) (text : Bytes) (hh : HeaderList hs)
    (hl : ¬ ∃ n v, HeaderLine text n v) (hn : ∀ t ∈ hs.map (·.text), ¬ Named t text) (m : HMode) :
    listAppend hs text m = .ok (1, hs) := by
  have hloc : locateName hs text = none := by
    rcases locate_split hs text _ rfl with ⟨h1, -⟩ | ⟨a, h, b, rfl, h2, h4, h3⟩
    · exact h1
    · exfalso
      have hg := hh.good h (by simp)
      obtain ⟨b', hb1, -, -, hb4, hb5⟩ := takeWhile_split notColon text
      have hlen := ciEq_length h3
      have htn := hg.line
      cases b' with
      | nil =>
        have : text.takeWhile notColon = text := by simpa using hb1.symm
        rw [this] at h3
        exact hn h.text (by simp) ⟨_, _, hg.line, h3⟩
      | cons c rest =>
        have hc : c = ch%':' := by
          have := hb4 c rest rfl
          simpa [notColon] using this
        subst hc
        apply hl
        obtain ⟨ws, hw1, hw2, hw3, -, -⟩ := htn
        obtain ⟨wr, hr1, -, -, hr4, hr5⟩ := takeWhile_split isWs rest
        refine ⟨text.takeWhile notColon, wr, rest.takeWhile isWs, ?_, ?_, ?_, ?_, ?_⟩
        · rw [← hr1]; exact hb1
        · intro h0
          rw [h0] at hlen
          exact hw2 (List.length_eq_zero_iff.1 (by simpa using hlen))
        · intro c hc
          rw [← isTChar_iff]
          exact tchar_of_ciEq (fun c hc => (isTChar_iff c).2 (hw3 c hc)) h3 c hc
        · intro c hc
          have := hr5 c hc
          simpa [isWs_iff] using this
        · intro c hc
          cases wr with
          | nil => simp at hc
          | cons d wr =>
            simp at hc; subst hc
            have := hr4 _ _ rfl
            have h' : ¬ (isWs d = true) := by simp [this]
            rw [isWs_iff] at h'
            simpa [not_or] using h'
  unfold listAppend
  rw [hloc]
  have : (headerAlloc text).code = .illegal := qualify_illegal.2 hl
  simp only [this, if_true]

/-- The name of an existing header without a colon does damage: in mode 'replace' the header
loses its value, in mode 'append' memory beyond the text is read. -/
theorem C09_malformed_fails :
    ∃ hs text, HeaderList hs ∧ (¬ ∃ n v, HeaderLine text n v) ∧
      (∃ hs', listAppend hs text .replace = .ok (0, hs') ∧ hs'.map (·.text) ≠ hs.map (·.text)) ∧
      listAppend hs text .append = .ub := by
  refine ⟨buildHeaders [] [b!"Host: a"], b!"Host", .read, ?_, ⟨_, rfl, by decide⟩, by decide⟩
  rw [← asLine_none]
  decide

example : HeaderLine b!"X-Forwarded-For: 10.0.0.1" b!"X-Forwarded-For" b!"10.0.0.1" :=
  (asLine_some (x := (b!"X-Forwarded-For: 10.0.0.1", b!"X-Forwarded-For", b!"10.0.0.1")) (by decide)).2
example : (match listAppend (buildHeaders [] [b!"Host: a", b!"x-forwarded-for: 1.1.1.1", b!"A: b"])
    b!"X-Forwarded-For: 10.0.0.1" .append with
    | .ok (0, hs) => hs.map (·.text) | _ => []) =
    [b!"Host: a", b!"x-forwarded-for: 1.1.1.1, 10.0.0.1", b!"A: b"] := by decide
example : ¬ ∃ n v, HeaderLine b!"no header" n v := asLine_none.1 (by decide)

/-! ## C10 Comma-separated token search is exact -/

/-- A non-empty token is found exactly if an element equals it; what is reported as the rest
is what follows the first such element. -/
theorem C10_found_iff (v tok rest : Bytes) (ci : Bool) (ht : tok ≠ []) :
    (∃ p, csLocate v tok ci = some ⟨p, rest⟩) ↔
      ∃ es e, ElemAt v es e rest ∧ IsTok ci tok e ∧ ∀ x ∈ es, ¬ IsTok ci tok x :=
  csLocate_iff v tok rest ci ht

/-- It is not found exactly if no element equals it. -/
theorem C10_not_found_iff (v tok : Bytes) (ci : Bool) (ht : tok ≠ []) :
    csLocate v tok ci = none ↔ ∀ es e rest, ElemAt v es e rest → ¬ IsTok ci tok e :=
  csLocate_none_iff v tok ci ht

example : csLocate b!"keep-alive , Upgrade,x" b!"upgrade" true = some ⟨b!"Upgrade,x", b!"x"⟩ := by
  decide +kernel
example : csLocate b!"keep-alive , Upgrade2,x" b!"upgrade" true = none := by decide +kernel

/-! ## C52 The head of a request is read exactly -/

/-- A request head is accepted exactly if the stream starts with one; what follows it is left
in the stream. -/
theorem C52_head_exact (table : List Bytes) (inp req rest : Bytes) :
    (∃ hs, httpRequestRead table inp = .ok req hs rest) ↔ ∃ lines, HeadOf inp req lines rest := by
  constructor
  · rintro ⟨hs, h⟩
    obtain ⟨lines, h1, -⟩ := (httpRequestRead_iff _ _ _ _ _).1 h
    exact ⟨lines, h1⟩
  · rintro ⟨lines, h⟩
    exact ⟨_, (httpRequestRead_iff _ _ _ _ _).2 ⟨lines, h, rfl⟩⟩

/-- The headers of an accepted request are its well-formed header lines, in order; those whose
name is in the table of combinable headers are merged into one. -/
theorem C52_headers (table : List Bytes) (inp req rest : Bytes) (hs : List Header)
    (h : httpRequestRead table inp = .ok req hs rest) :
    ∃ lines L, HeadOf inp req lines rest ∧ Legal lines L ∧
      hs.map (·.text) = combine (fun n => table.any fun m => ciEq m n) [] L := by
  obtain ⟨lines, h1, rfl⟩ := (httpRequestRead_iff _ _ _ _ _).1 h
  exact ⟨lines, _, h1, legal_asLine lines, buildHeaders_texts table lines⟩

/-- In particular, with no combinable headers, they are the well-formed lines themselves. -/
theorem C52_plain (inp req rest : Bytes) (hs : List Header)
    (h : httpRequestRead [] inp = .ok req hs rest) :
    ∃ lines L, HeadOf inp req lines rest ∧ Legal lines L ∧ hs.map (·.text) = L.map (·.1) := by
  obtain ⟨lines, L, h1, h2, h3⟩ := C52_headers [] inp req rest hs h
  refine ⟨lines, L, h1, h2, ?_⟩
  rw [h3]
  have : ∀ L : List (Bytes × Bytes × Bytes),
      combine (fun n => ([] : List Bytes).any fun m => ciEq m n) [] L = L.map (·.1) := by
    intro L
    induction L with
    | nil => rfl
    | cons x L ih => simpa [combine] using ih
  exact this L

/-- Name and value of each header are those of its text. -/
theorem C52_fields (table : List Bytes) (inp req rest : Bytes) (hs : List Header)
    (h : httpRequestRead table inp = .ok req hs rest) :
    ∀ x ∈ hs, ∃ v, HeaderLine x.text x.name v ∧ x.value = .ok v := by
  obtain ⟨lines, -, rfl⟩ := (httpRequestRead_iff _ _ _ _ _).1 h
  exact fun x hx => C09_fields _ .read x hx

example : (match httpRequestRead [b!"accept"]
    b!"\r\nGET / HTTP/1.1\r\nAccept: a\nbad line\r\nHost: h\r\nACCEPT:b\r\n\r\nbody" with
    | .ok req hs rest => some (req, hs.map (·.text), rest)
    | _ => none) =
    some (b!"GET / HTTP/1.1", [b!"Accept: a, b", b!"Host: h"], b!"body") := by decide +kernel

end Pound.Props
