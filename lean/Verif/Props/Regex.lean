import Verif.Spec.Regex
import Verif.Props.Expand

/-!
C96: what is recorded of matches of all kinds of patterns, and what references to groups expand to.
-/

namespace Pound.Props
open Pound Spec

theorem groupTexts_at {subject : Bytes} {gs : List (Option (Nat × Nat))} {ts : List Bytes} (h : GroupTexts subject gs ts) : GroupsAt subject (gs.map offPair) ts := by
  induction h with
  | nil => exact .nil
  | unset _ ih => exact .unset ih
  | set e _ ih => exact .set e ih

theorem groupTexts_len {subject : Bytes} {gs : List (Option (Nat × Nat))} {ts : List Bytes} (h : GroupTexts subject gs ts) : ts.length = gs.length := by
  induction h with
  | nil => rfl
  | unset _ ih => simp [ih]
  | set e _ ih => simp [ih]

theorem pcreCount_last {gs : List (Option (Nat × Nat))} (h : LastSet gs) : pcreCount gs = gs.length := by
  obtain ⟨p, hp⟩ := h
  obtain ⟨t, rfl⟩ := List.getLast?_eq_some_iff.1 hp
  unfold pcreCount
  rw [List.reverse_append, List.reverse_cons, List.reverse_nil, List.nil_append, List.singleton_append, List.dropWhile_cons_of_neg (by simp)]
  simp

theorem written_all (gs : List (Option (Nat × Nat))) (mem : List (Int × Int)) (h : mem.length = gs.length) :
    (gs.take gs.length).map offPair ++ mem.drop gs.length = gs.map offPair := by
  rw [List.take_of_length_le (Nat.le_refl _), ← h, List.drop_length, List.append_nil]

/-- Whether a pattern of any kind matches is what the library says, if it does not report an error. -/
theorem C96_verdict (k : RxKind) (r : LibRes) (mem : List (Int × Int)) (h : r ≠ .error) : (rxMatch k r mem).ok = true ↔ ∃ gs, r = .found gs := by
  unfold rxMatch rxExec
  cases r with
  | error => exact absurd rfl h
  | noMatch => cases k <;> simp [posixExec, pcre1Exec, pcre2Exec]
  | found gs =>
    refine ⟨fun _ => ⟨gs, rfl⟩, fun _ => ?_⟩
    cases k <;> simp only [posixExec, pcre1Exec, pcre2Exec]
    split <;> rfl

/-- What is recorded of a match are the places of its groups, whatever was in the memory before; with PCRE, if the last group took part. -/
theorem C96_recorded_partial (k : RxKind) (gs : List (Option (Nat × Nat))) (mem : List (Int × Int)) (hl : mem.length = if k = .fixed then 0 else gs.length) (hp : k = .pcre ∨ k = .pcre2 → LastSet gs) :
    rxMatch k (.found gs) mem = ⟨true, if k = .fixed then [] else gs.map offPair⟩ := by
  unfold rxMatch rxExec
  cases k with
  | fixed =>
    rw [if_pos rfl] at hl
    rw [List.eq_nil_of_length_eq_zero hl]
    rfl
  | posix =>
    rw [if_neg (by intro h; cases h)] at hl ⊢
    simp only [posixExec, hl, Nat.min_self]
    rw [written_all gs mem hl]
  | pcre =>
    rw [if_neg (by intro h; cases h)] at hl ⊢
    have hc := pcreCount_last (hp (.inl rfl))
    obtain ⟨p, hg⟩ := hp (.inl rfl)
    have hpos : gs.length > 0 := by
      cases gs with
      | nil => cases hg
      | cons a t => exact Nat.succ_pos _
    simp only [pcre1Exec, hc, hl, Nat.min_self]
    rw [if_pos hpos, written_all gs mem hl]
  | pcre2 =>
    rw [if_neg (by intro h; cases h)] at hl ⊢
    have hc := pcreCount_last (hp (.inr rfl))
    simp only [pcre2Exec, hc, hl, Nat.min_self]
    rw [written_all gs mem hl]

/-- After any matches (the latest first), templates expand with the texts that the groups of the patterns matched. Missing: errors of the libraries, and patterns of PCRE whose last group took no part; and what is missing
in C12. -/
theorem C96_expands_partial (xs : List Tried) (groups : Nat → Option (List Bytes))
    (hr : ∀ x ∈ xs, x.roomy) (hp : ∀ x ∈ xs, x.kind = .pcre ∨ x.kind = .pcre2 → ∀ gs, x.res = .found gs → LastSet gs)
    (hg : ∀ m x, m < 8 → xs[m]? = some x → MeansGroups x (groups m)) (hn : ∀ m, 8 ≤ m ∨ xs[m]? = none → groups m = none) (hb : ∀ m ts, groups m = some ts → ts.length < 2 ^ 64)
    (r : Req) (hs : List Header) (hh : HeaderList hs) (t : Bytes) (y : Option (Bytes × Nat))
    (h : Expands ⟨groups, some (accessorsOf r hs)⟩ (okScope ⟨groups, some (accessorsOf r hs)⟩) t y) :
    expandString ⟨history (xs.map fun x => (rxMatch x.kind x.res x.mem, x.subject)), some (accessor r hs)⟩ t = (match y with | some (o, _) => .str o | none => .null) := by
  have hist : HistoryOf (xs.map fun x => (rxMatch x.kind x.res x.mem, x.subject)) groups := fun m => ?_
  · have := (C12_expand_partial _ _ (recorded_history _) r hs hh groups hist t y h).1
    cases y <;> exact this
  by_cases hm : 8 ≤ m
  · exact .inr ⟨.inl hm, hn m (.inl hm)⟩
  · cases hx : xs[m]? with
    | none => exact .inr ⟨.inr (.inl (by rw [List.getElem?_map, hx]; rfl)), hn m (.inr hx)⟩
    | some x =>
      have hmem := List.mem_of_getElem? hx
      have hms : (xs.map fun x => (rxMatch x.kind x.res x.mem, x.subject))[m]? = some (rxMatch x.kind x.res x.mem, x.subject) := by rw [List.getElem?_map, hx]; rfl
      have hmg := hg m x (by omega) hx
      cases hq : groups m with
      | none =>
        rw [hq] at hmg
        have hmg : x.res = .noMatch := hmg
        refine .inr ⟨.inr (.inr ⟨_, _, hms, ?_⟩), rfl⟩
        cases hok : (rxMatch x.kind x.res x.mem).ok with
        | false => rfl
        | true =>
          obtain ⟨gs, hgs⟩ := (C96_verdict x.kind x.res x.mem (by rw [hmg]; intro h; cases h)).1 hok
          rw [hmg] at hgs
          cases hgs
      | some ts =>
        rw [hq] at hmg
        obtain ⟨gs, h1, h2⟩ := hmg
        have hrec := C96_recorded_partial x.kind gs x.mem (hr x hmem gs h1) fun hk => hp x hmem hk gs h1
        refine .inl ⟨by omega, _, _, ts, hms, ?_, rfl, ?_, hb m ts hq⟩
        · rw [h1, hrec]
        · rw [h1, hrec]
          dsimp only
          split at h2
          · rename_i hk
            rw [if_pos hk, h2]
            exact .nil
          · rename_i hk
            rw [if_neg hk]
            exact groupTexts_at h2

/-- Patterns `^/(a)?(b)` of PCRE and `/(x)?y` of POSIX -/
def exTried : List Tried :=
  [⟨.pcre2, .found [some (0, 2), none, some (1, 2)], [(7, 7), (100, 3), (5, 900)], b!"/b"⟩, ⟨.posix, .found [some (0, 2), none], [(9, 1), (4, 400)], b!"/y"⟩, ⟨.fixed, .found [], [], b!"/fixed"⟩, ⟨.pcre, .noMatch, [(3, 4)], b!"/z"⟩]

example : (∀ x ∈ exTried, x.roomy) ∧ (∀ x ∈ exTried, x.kind = .pcre ∨ x.kind = .pcre2 → ∀ gs, x.res = .found gs → LastSet gs) ∧
    (∀ x, exTried[0]? = some x → MeansGroups x (some [b!"/b", [], b!"b"])) := by
  refine ⟨?_, ?_, ?_⟩
  · intro x hx gs hg
    simp only [exTried, List.mem_cons, List.not_mem_nil, or_false] at hx
    rcases hx with rfl | rfl | rfl | rfl <;> cases hg <;> rfl
  · intro x hx hk gs hg
    simp only [exTried, List.mem_cons, List.not_mem_nil, or_false] at hx
    rcases hx with rfl | rfl | rfl | rfl
    · cases hg; exact ⟨(1, 2), rfl⟩
    · rcases hk with hk | hk <;> cases hk
    · rcases hk with hk | hk <;> cases hk
    · cases hg
  · intro x hx
    cases hx
    refine ⟨_, rfl, ?_⟩
    rw [if_neg (by intro h; cases h)]
    exact .set (a := []) (g := b!"/b") (b := []) rfl (.unset (.set (a := b!"/") (g := b!"b") (b := []) rfl .nil))
example : expandString ⟨history (exTried.map fun x => (rxMatch x.kind x.res x.mem, x.subject)), none⟩ b!"[$1][$2][$0(1)]" = .str b!"[][b][/y]" := by decide +kernel

/-- A group of a PCRE pattern that took no part, with none after it that did, stands for whatever was in the memory: another part of the request, or what is beyond the end of it. The pattern here is `^/(a)?` and the
path is `/secret`; the group should be empty, as `(b)` of POSIX is. -/
theorem C96_unset_fails (k : RxKind) (hk : k = .pcre ∨ k = .pcre2) :
    GroupTexts b!"/secret" [some (0, 1), none] [b!"/", []] ∧
      expandString ⟨history [(rxMatch k (.found [some (0, 1), none]) [(0, 0), (0, 0)], b!"/secret")], none⟩ b!"$1" = .str [] ∧
      expandString ⟨history [(rxMatch k (.found [some (0, 1), none]) [(0, 0), (1, 7)], b!"/secret")], none⟩ b!"$1" = .str b!"secret" ∧
      expandString ⟨history [(rxMatch k (.found [some (0, 1), none]) [(0, 0), (0, 4096)], b!"/secret")], none⟩ b!"$1" = .ub ∧
      ∀ mem, mem.length = 2 → expandString ⟨history [(rxMatch .posix (.found [some (0, 1), none]) mem, b!"/secret")], none⟩ b!"$1" = .str [] := by
  refine ⟨.set (a := []) (g := b!"/") (b := b!"secret") rfl (.unset .nil), ?_, ?_, ?_, fun mem hm => ?_⟩
  · rcases hk with rfl | rfl <;> decide +kernel
  · rcases hk with rfl | rfl <;> decide +kernel
  · rcases hk with rfl | rfl <;> decide +kernel
  · rw [C96_recorded_partial .posix [some (0, 1), none] mem hm (fun h => by rcases h with h | h <;> cases h)]
    decide +kernel

/-- If regexec reports an error, as it does when memory runs out, a POSIX pattern is taken to match, and its groups are what was in the memory. -/
theorem C96_posix_error_fails (mem : List (Int × Int)) : rxMatch .posix .error mem = ⟨true, mem⟩ := rfl

/-- With PCRE, an error (such as too many steps of backtracking, which those who send requests may bring about) is taken for a text that does not match; so a condition that is negated holds. -/
theorem C96_pcre_error_fails (k : RxKind) (hk : k = .pcre ∨ k = .pcre2) (mem : List (Int × Int)) : (rxMatch k .error mem).ok = false := by
  rcases hk with rfl | rfl <;> rfl

end Pound.Props
