import Verif.Proof.HostCond

/-!
C47: Host conditions.  `headers` are the headers of a request as texts.
-/

namespace Pound.Props

open Spec

/-- An exact condition holds for a host that is the one configured, up to letter case ... -/
theorem C47_complete (name v : Bytes) (hn : PlainName name) (headers : List Bytes) (h : Bytes) (hh : h ∈ headers) (hv : HostIs true h v) (hs : SameName true name v) :
    hostHolds .exact true name headers := by
  obtain ⟨n, ws, rfl, h1, h2⟩ := hv
  refine ⟨_, hh, _, comp_exact hn, ?_⟩
  rw [exec_host (ones_nobol name)]
  refine ⟨n, ws, v, rfl, h1, h2, ?_⟩
  have := (seq_ones (ic := true) (r := []) (by simp) name false v).mpr ⟨v, [], by simp, hs, .nil⟩
  simpa using this

/-- ... and for others only if their name begins with it.  The same condition is the one meant by -beg. -/
theorem C47_exact_partial (ic : Bool) (name : Bytes) (hn : PlainName name) (headers : List Bytes) :
    (hostHolds .exact ic name headers ↔ ∃ h ∈ headers, ∃ v rest, HostIs ic h (v ++ rest) ∧ SameName ic name v) ∧
    (hostHolds .beg ic name headers ↔ ∃ h ∈ headers, ∃ v rest, HostIs ic h (v ++ rest) ∧ SameName ic name v) := by
  have key : hostHolds .exact ic name headers ↔ ∃ h ∈ headers, ∃ v rest, HostIs ic h (v ++ rest) ∧ SameName ic name v := by
    constructor
    · rintro ⟨h, hh, br, hb, hx⟩
      have e := comp_exact hn
      have : ereComp (hostRegex .exact name).1 = some [.bol :: (hostItems ++ name.map fun c => .one (.chr c))] := e
      rw [this] at hb
      cases hb
      obtain ⟨n, ws, s', rfl, h1, h2, h3⟩ := (exec_host (ones_nobol name) h).mp hx
      have h3' : EreSeq ic (name.map (fun c => .one (.chr c)) ++ []) false s' := by simpa using h3
      obtain ⟨v, rest, rfl, hv, -⟩ := (seq_ones (by simp) name false s').mp h3'
      exact ⟨_, hh, v, rest, ⟨n, ws, rfl, h1, h2⟩, hv⟩
    · rintro ⟨h, hh, v, rest, ⟨n, ws, rfl, h1, h2⟩, hv⟩
      refine ⟨_, hh, _, comp_exact hn, ?_⟩
      rw [exec_host (ones_nobol name)]
      refine ⟨n, ws, v ++ rest, rfl, h1, h2, ?_⟩
      have := (seq_ones (ic := ic) (r := []) (by simp) name false (v ++ rest)).mpr ⟨v, rest, rfl, hv, .nil⟩
      simpa using this
  exact ⟨key, key⟩

/-- A condition with -end holds exactly if what follows "Host:" ends with the text ... -/
theorem C47_end (ic : Bool) (name : Bytes) (hn : PlainName name) (headers : List Bytes) :
    hostHolds .suffix ic name headers ↔ ∃ h ∈ headers, ∃ a v, HostIs ic h (a ++ v) ∧ SameName ic name v := by
  have nb : EItem.bol ∉ name.map (fun c => EItem.one (.chr c)) ++ [.eol] := by simp
  have nb2 : EItem.bol ∉ EItem.star .any :: (name.map (fun c => EItem.one (.chr c)) ++ [.eol]) := by simp
  constructor
  · rintro ⟨h, hh, br, hb, hx⟩
    have : ereComp (hostRegex .suffix name).1 = some [.bol :: (hostItems ++ (.star .any :: (name.map (fun c => .one (.chr c)) ++ [.eol])))] := comp_suffix hn
    rw [this] at hb
    cases hb
    obtain ⟨n, ws, s', rfl, h1, h2, h3⟩ := (exec_host nb2 h).mp hx
    obtain ⟨a, s2, rfl, -, h4⟩ := (seq_star nb .any false s').mp h3
    obtain ⟨v, s3, rfl, hv, h5⟩ := (seq_ones (by simp) name false s2).mp h4
    cases h5 with
    | eol => exact ⟨_, hh, a, v, ⟨n, ws, by simp, h1, h2⟩, hv⟩
  · rintro ⟨h, hh, a, v, ⟨n, ws, rfl, h1, h2⟩, hv⟩
    refine ⟨_, hh, _, comp_suffix hn, ?_⟩
    rw [exec_host nb2]
    refine ⟨n, ws, a ++ v, rfl, h1, h2, ?_⟩
    rw [seq_star nb]
    exact ⟨a, v, rfl, fun _ _ => rfl, (seq_ones (by simp) name false v).mpr ⟨v, [], by simp, hv, .eol .nil⟩⟩

/-- ... and one with -contain exactly if it contains it. -/
theorem C47_contain (ic : Bool) (name : Bytes) (hn : PlainName name) (headers : List Bytes) :
    hostHolds .contain ic name headers ↔ ∃ h ∈ headers, ∃ a v b, HostIs ic h (a ++ v ++ b) ∧ SameName ic name v := by
  have nb2 : EItem.bol ∉ EItem.star .any :: (name.map (fun c => EItem.one (.chr c))) := by simp
  constructor
  · rintro ⟨h, hh, br, hb, hx⟩
    have : ereComp (hostRegex .contain name).1 = some [.bol :: (hostItems ++ (.star .any :: name.map (fun c => .one (.chr c))))] := comp_contain hn
    rw [this] at hb
    cases hb
    obtain ⟨n, ws, s', rfl, h1, h2, h3⟩ := (exec_host nb2 h).mp hx
    obtain ⟨a, s2, rfl, -, h4⟩ := (seq_star (ones_nobol name) .any false s').mp h3
    have h4' : EreSeq ic (name.map (fun c => .one (.chr c)) ++ []) false s2 := by simpa using h4
    obtain ⟨v, b, rfl, hv, -⟩ := (seq_ones (by simp) name false s2).mp h4'
    exact ⟨_, hh, a, v, b, ⟨n, ws, by simp, h1, h2⟩, hv⟩
  · rintro ⟨h, hh, a, v, b, ⟨n, ws, rfl, h1, h2⟩, hv⟩
    refine ⟨_, hh, _, comp_contain hn, ?_⟩
    rw [exec_host nb2]
    refine ⟨n, ws, a ++ v ++ b, rfl, h1, h2, ?_⟩
    rw [seq_star (ones_nobol name)]
    refine ⟨a, v ++ b, by simp, fun _ _ => rfl, ?_⟩
    have := (seq_ones (ic := ic) (r := []) (by simp) name false (v ++ b)).mpr ⟨v, b, rfl, hv, .nil⟩
    simpa using this

/-- The condition does not hold for the configured host only: any continuation of its name will do. -/
theorem C47_only_fails : hostHolds .exact true b!"example.com" [b!"Host: example.com.attacker.net"] ∧
    ¬ ∃ v, HostIs true b!"Host: example.com.attacker.net" v ∧ SameName true b!"example.com" v := by
  constructor
  · refine (C47_exact_partial true b!"example.com" (by unfold PlainName; decide) _).1.mpr ⟨_, List.mem_singleton.mpr rfl, b!"example.com", b!".attacker.net", ⟨b!"Host:", b!" ", by decide, ?_, ?_⟩, ?_⟩
    · show List.map _ _ = List.map _ _; rfl
    · unfold SpaceRun; decide
    · show List.map _ _ = List.map _ _; rfl
  · rintro ⟨v, ⟨n, ws, e, h1, h2⟩, h3⟩
    have l1 : n.length = 5 := by have := congrArg List.length (show List.map toLower b!"Host:" = List.map toLower n from h1); simp at this; omega
    have l3 : v.length = 11 := by have := congrArg List.length (show List.map toLower b!"example.com" = List.map toLower v from h3); simp at this; omega
    have le := congrArg List.length e
    simp [l1, l3] at le
    have hw : ws.length = 14 := by omega
    have hd : ws = (b!"Host: example.com.attacker.net".drop 5).take 14 := by
      rw [e]
      have e2 : n ++ ws ++ v = n ++ (ws ++ v) := by simp
      rw [e2, ← l1, List.drop_left, ← hw, List.take_left]
    have := h2 ch%'e' (by rw [hd]; decide)
    revert this
    decide

/-- With -case the name of the header must be written as Host, although names of headers are not case-sensitive. -/
theorem C47_case_fails : ¬ hostHolds .exact false b!"example.com" [b!"host: example.com"] := by
  rw [(C47_exact_partial false b!"example.com" (by unfold PlainName; decide) _).1]
  rintro ⟨h, hh, v, rest, ⟨n, ws, e, h1, -⟩, -⟩
  simp only [List.mem_singleton] at hh
  subst hh
  have h1' : b!"Host:" = n := h1
  rw [← h1'] at e
  have := congrArg List.head? e
  simp at this

/-- Anchors and bars in a name are not escaped: the second branch of "x|y" is looked for in every header. -/
theorem C47_bar_fails : hostHolds .exact true b!"x|y" [b!"Cookie: y"] := by
  refine ⟨_, List.mem_singleton.mpr rfl, [.bol :: (hostItems ++ [.one (.chr ch%'x')]), [.one (.chr ch%'y')]], by decide +kernel, ?_⟩
  exact ⟨[.one (.chr ch%'y')], by simp, b!"Cookie: ", b!"y", rfl, .one (by decide) .nil⟩

/-- Names from a file: comments, empty lines and white space around them are dropped; the first name is treated as above, the others as regular expressions. -/
theorem C47_file_partial (m : PatKind) (ic : Bool) (text : Bytes) (ps : List (Option Bytes)) (hf : PatternFile text ps) (headers : List Bytes) :
    hostFileHolds m ic text headers ↔ ∃ first rest, ps.filterMap id = first :: rest ∧ (hostHolds m ic first headers ∨ ∃ x ∈ rest, hostHolds .posix ic x headers) := by
  unfold hostFileHolds
  rw [patLines_spec hf _ (Nat.le_refl _)]
  cases ps.filterMap id with
  | nil => simp [hostRegexes]
  | cons first rest =>
    rw [regexes_cons]
    constructor
    · rintro ⟨pat, hp, h⟩
      refine ⟨first, rest, rfl, ?_⟩
      rcases List.mem_cons.mp hp with rfl | hp
      · exact Or.inl h
      · obtain ⟨x, hx, rfl⟩ := List.mem_map.mp hp
        exact Or.inr ⟨x, hx, h⟩
    · rintro ⟨f, r, e, h⟩
      simp only [List.cons.injEq] at e
      obtain ⟨rfl, rfl⟩ := e
      rcases h with h | ⟨x, hx, h⟩
      · exact ⟨_, List.mem_cons_self, h⟩
      · exact ⟨_, List.mem_cons_of_mem _ (List.mem_map.mpr ⟨x, hx, rfl⟩), h⟩

/-- For a host name that means that its dots stand for any character. -/
theorem C47_later_partial (ic : Bool) (name : Bytes) (hn : HostChars name) (headers : List Bytes) :
    hostHolds .posix ic name headers ↔ ∃ h ∈ headers, ∃ v rest, HostIs ic h (v ++ rest) ∧ DotMatch ic name v := by
  have nb : EItem.bol ∉ name.map fun c => EItem.one (dotItem c) := by simp
  have hd : (hostRegex .posix name).1 = b!"^Host:[[:space:]]*" ++ name := by
    unfold hostRegex
    dsimp only
    rw [if_neg]
    intro h
    have hm := hn ch%'^' (List.mem_of_mem_head? h)
    revert hm
    decide
  constructor
  · rintro ⟨h, hh, br, hb, hx⟩
    rw [hd, comp_posix hn] at hb
    cases hb
    obtain ⟨n, ws, s', rfl, h1, h2, h3⟩ := (exec_host nb h).mp hx
    obtain ⟨v, rest, rfl, hv⟩ := (seq_dots name false s').mp h3
    exact ⟨_, hh, v, rest, ⟨n, ws, rfl, h1, h2⟩, hv⟩
  · rintro ⟨h, hh, v, rest, ⟨n, ws, rfl, h1, h2⟩, hv⟩
    refine ⟨_, hh, _, by rw [hd]; exact comp_posix hn, ?_⟩
    rw [exec_host nb]
    exact ⟨n, ws, v ++ rest, rfl, h1, h2, (seq_dots name false _).mpr ⟨v, rest, rfl, hv⟩⟩

/-- So a second line a.b admits the host aXb. -/
theorem C47_file_fails : hostFileHolds .exact true b!"x.y\na.b\n" [b!"Host: aXb"] := by
  have hf : PatternFile b!"x.y\na.b\n" [some b!"x.y", some b!"a.b", none] := by
    refine .line (l := b!"x.y") ⟨[], b!"x.y", [], rfl, by simp, by simp, Or.inr ⟨⟨_, _, rfl, by decide, by decide⟩, ⟨_, b!"x.", rfl, by decide, by decide⟩, by decide⟩⟩ (by decide) (by decide) (by decide) ?_
    refine .line (l := b!"a.b") ⟨[], b!"a.b", [], rfl, by simp, by simp, Or.inr ⟨⟨_, _, rfl, by decide, by decide⟩, ⟨_, b!"a.", rfl, by decide, by decide⟩, by decide⟩⟩ (by decide) (by decide) (by decide) ?_
    exact .last ⟨[], [], [], rfl, by simp, by simp, Or.inl ⟨rfl, rfl⟩⟩ (by decide) (by decide) (by decide)
  refine (C47_file_partial .exact true _ _ hf _).mpr ⟨b!"x.y", [b!"a.b"], rfl, Or.inr ⟨_, List.mem_singleton.mpr rfl, ?_⟩⟩
  refine (C47_later_partial true b!"a.b" (by unfold HostChars; decide) _).mpr ⟨_, List.mem_singleton.mpr rfl, b!"aXb", [], ⟨b!"Host:", b!" ", rfl, rfl, by unfold SpaceRun; decide⟩, ?_⟩
  exact .chr (by decide) rfl (.dot (.chr (by decide) rfl .nil))

example : hostHolds .exact true b!"Example.com" [b!"Accept: x", b!"HOST:example.COM"] :=
  C47_complete b!"Example.com" b!"example.COM" (by unfold PlainName; decide) _ _ (by simp) ⟨b!"HOST:", [], rfl, rfl, by intro c h; cases h⟩ rfl
example : (hostRegex .exact b!"a.b").1 = b!"^Host:[[:space:]]*a\\.b" := by decide

end Pound.Props
