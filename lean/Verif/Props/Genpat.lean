import Verif.Proof.Genpat

/-!
C33: fixed-string patterns.
-/

namespace Pound.Props
open Spec

/-- "-exact": matches exactly the subjects equal to the pattern. -/
theorem C33_exact (ci : Bool) (pat subj : Bytes) : exactExec ci pat subj = true ↔ SameText ci subj pat :=
  exactExec_iff ci pat subj

/-- "-beg": matches exactly the subjects that start with the pattern. -/
theorem C33_begins (ci : Bool) (pat subj : Bytes) : prefixExec ci pat subj = true ↔ StartsWith ci pat subj :=
  prefixExec_iff ci pat subj

/-- "-end": matches exactly the subjects that end with the pattern. -/
theorem C33_ends (ci : Bool) (pat subj : Bytes) : suffixExec ci pat subj = true ↔ EndsWith ci pat subj :=
  suffixExec_iff ci pat subj

example : prefixExec true b!"/Admin" b!"/aDMIN/x" = true ∧ suffixExec false b!".cgi" b!"/a.cgi" = true ∧
    exactExec false b!"a" b!"A" = false := by decide +kernel

/-- "-contain", for every pattern that is not empty, if the byte 255 appears neither in the pattern nor in the subject: the search stops
without accessing anything out of bounds, and if it succeeds, the subject contains the pattern. -/
theorem C33_contains_sound_partial (ci : Bool) (pat subj : Bytes) (hne : pat ≠ []) (hp : (255 : UInt8) ∉ pat) (hs : (255 : UInt8) ∉ subj) :
    (containMatch ci pat subj = .found ∨ containMatch ci pat subj = .notFound) ∧
    (containMatch ci pat subj = .found → Contains ci pat subj) := by
  rcases containMatch_spec ci pat subj hne hp hs with ⟨h, c⟩ | ⟨h, -⟩
  · exact ⟨Or.inl h, fun _ => c⟩
  · exact ⟨Or.inr h, fun e => by rw [h] at e; cases e⟩

/-- The full claim: a "-contain" pattern matches exactly the subjects that contain it.  Proved for the patterns no part of which,
other than repetitions of one letter, appears both at the start and at the end (see `plain_examples`).  Missing: the other patterns, for which it is false (below). -/
theorem C33_contains_partial (ci : Bool) (pat subj : Bytes) (hne : pat ≠ []) (hb : PlainBorders ci pat) (hp : (255 : UInt8) ∉ pat)
    (hs : (255 : UInt8) ∉ subj) :
    (containMatch ci pat subj = .found ↔ Contains ci pat subj) ∧ (containMatch ci pat subj = .notFound ↔ ¬ Contains ci pat subj) := by
  rcases containMatch_spec ci pat subj hne hp hs with ⟨h, c⟩ | ⟨h, n⟩
  · rw [h]; exact ⟨⟨fun _ => c, fun _ => rfl⟩, ⟨fun e => (by cases e), fun e => absurd c e⟩⟩
  · rw [h]; exact ⟨⟨fun e => (by cases e), fun e => absurd e (n hb)⟩, ⟨fun _ => n hb, fun _ => rfl⟩⟩

/-- Typical patterns meet the condition, including some with repetitions. -/
theorem plain_examples : PlainBorders true b!"/wp-admin" ∧ PlainBorders false b!"aab_aaa" ∧ PlainBorders false b!"aaaa" ∧
    PlainBorders true b!"../" ∧ PlainBorders true b!"<script" :=
  ⟨plainCheck_ok (by decide +kernel), plainCheck_ok (by decide +kernel), plainCheck_ok (by decide +kernel), plainCheck_ok (by decide +kernel),
   plainCheck_ok (by decide +kernel)⟩
example : containMatch true b!"/wp-admin" b!"/x/y//WP-Admin?1" = .found ∧ containMatch false b!"aab_aaa" b!"aab_aab_aaa" = .found ∧
    containMatch false b!"aab_aaa" b!"aab_aab_aa_aab_aa" = .notFound := by decide +kernel

/-- Not so in general: the request /abXabcab contains "abcab", but does not match. -/
theorem C33_contains_fails : Contains false b!"abcab" b!"abXabcab" ∧ containMatch false b!"abcab" b!"abXabcab" = .notFound :=
  ⟨⟨b!"abX", b!"abcab", [], rfl, rfl, by intro i a b h1 h2; rw [h1] at h2; simpa using h2⟩, by decide +kernel⟩

/-- An empty "-contain" pattern makes the compiler of patterns leave its arrays. -/
theorem C33_contains_empty_fails (ci : Bool) (subj : Bytes) : containMatch ci [] subj = .ub := rfl

/-- The byte 255 in the pattern, or at a mismatch in the subject, makes it leave the table of 255 entries. -/
theorem C33_contains_255_fails : containMatch false [97, 255] b!"xa" = .ub ∧ containMatch false b!"ab" [97, 255, 98] = .ub := by
  decide +kernel

end Pound.Props
