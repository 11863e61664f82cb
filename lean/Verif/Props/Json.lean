import Verif.Proof.JsonMore

/-!
JSON: objects are maps (C30), strings and documents survive formatting and parsing
(C31, C56), the formatted text is JSON (C57), the parser always stops and arrays keep their
elements (C58).
-/

namespace Pound.Props

open Pound Pound.Spec

/-! ### C30 -/

/-- After any sequence of sets on a new object, every get gives the last value set for the
key, and ENOENT if there is none; no set and no get has undefined behaviour. -/
theorem C30_last_value {V : Type} (sets : List (Bytes × V)) :
    ∃ o, jSets jNew sets = .ok o ∧ ∀ k, jGet o k = .ok (lastSet sets k) := by
  obtain ⟨o, h, hi, hl⟩ := jSets_spec sets jNew jinv_new
  refine ⟨o, h, fun k => ?_⟩
  rw [jGet_spec hi, hl]
  simp [jNew, lookupL]

/-- After any sequence of sets on a new object, its keys are listed in strictly ascending
order, and they are exactly the keys that were set. -/
theorem C30_keys_ascending {V : Type} (sets : List (Bytes × V)) (o : JObj V)
    (h : jSets jNew sets = .ok o) :
    (o.pairs.map (·.1)).Pairwise LexLt ∧
    (∀ k, k ∈ o.pairs.map (·.1) ↔ k ∈ sets.map (·.1)) ∧ o.count = o.pairs.length := by
  obtain ⟨o', h', hi, hl⟩ := jSets_spec sets jNew jinv_new
  rw [h] at h'
  cases h'
  refine ⟨?_, ?_, hi.1⟩
  · rw [List.pairwise_map]
    exact hi.2.imp fun {a b} h => (strcmp_lt_iff _ _).mp h
  · intro k
    have hk := hl k
    have e1 : ∀ (l : List (Bytes × V)) (k : Bytes),
        (l.find? (fun p => p.1 == k)).isSome = true ↔ k ∈ l.map (·.1) := by
      intro l k
      simp [List.find?_isSome]
    rw [← e1 o.pairs k]
    have e2 : k ∈ sets.map (·.1) ↔ k ∈ sets.reverse.map (·.1) := by simp
    rw [e2, ← e1 sets.reverse k]
    have hk' : (lookupL o.pairs k).isSome = (lastSet sets k).isSome := by
      rw [hk]; simp [jNew, lookupL]
    simpa [lookupL, lastSet] using congrArg (· = true) hk'

example : jSets (V := Nat) jNew [(b!"m", 1), (b!"c", 2), (b!"z", 3), (b!"c", 4), (b!"k", 5)]
    = .ok ⟨4, [(b!"c", 4), (b!"k", 5), (b!"m", 1), (b!"z", 3)]⟩ := by decide +kernel

example : lastSet [(b!"m", 1), (b!"c", 2), (b!"c", 4)] b!"c" = some 4 := by decide

/-- json_object_filter leaves pair_count unchanged: looking up a key in an object whose pairs
have all been filtered out dereferences NULL. -/
theorem C30_filter_fails :
    ∃ (sets : List (Bytes × Nat)) (o : JObj Nat) (pred : Bytes → Nat → Bool) (k : Bytes),
      jSets jNew sets = .ok o ∧ jGet (jFilter o pred) k = .ub :=
  ⟨[(b!"a", 1)], ⟨1, [(b!"a", 1)]⟩, fun _ _ => true, b!"a", by decide +kernel, by decide +kernel⟩

/-! ### C31 -/

/-- Formatting a string and reading the result gives it back, with exactly the text after the
closing quote left, and no access outside of the buffers - provided no backspace or form feed
in it is followed by three hexadecimal digits.
Missing: those strings, see the `_fails` theorems. -/
theorem C31_string_round_trip_partial (s rest : Bytes) (hz : (0 : UInt8) ∉ s)
    (ht : ¬ HasTrap s) :
    ∃ body, fmtStr s ++ rest = 34 :: body ∧ jGetText body = .ok (some (s, rest)) :=
  ⟨s.flatMap fmtCh ++ 34 :: rest, by simp [fmtStr], jGetText_fmt hz ht rest⟩

theorem notrap_of_no_bf {s : Bytes} (h : ∀ c ∈ s, c ≠ 8 ∧ c ≠ 12) : ¬ HasTrap s := by
  rintro ⟨pre, x, a, b, c, post, rfl, hx, -⟩
  have := h x (by simp)
  rcases hx with rfl | rfl
  · exact this.1 rfl
  · exact this.2 rfl

/-- In particular every string without backspaces and form feeds is read back. -/
theorem C31_text_round_trip_partial (s rest : Bytes)
    (h : ∀ c ∈ s, c ≠ 0 ∧ c ≠ 8 ∧ c ≠ 12) :
    ∃ body, fmtStr s ++ rest = 34 :: body ∧ jGetText body = .ok (some (s, rest)) :=
  C31_string_round_trip_partial s rest (fun h0 => (h 0 h0).1 rfl)
    (notrap_of_no_bf fun c hc => (h c hc).2)

example : fmtStr b!"a\"b\\c\n" = b!"\"a\\\"b\\\\c\\n\"" := by decide

/-- A string with a backspace followed by hexadecimal digits is not read back: the parser
writes beyond the memory it allocated. -/
theorem C31_round_trip_fails :
    ∃ s : Bytes, (0 : UInt8) ∉ s ∧ ∃ body, fmtStr s = 34 :: body ∧ jGetText body = .ub :=
  ⟨[8] ++ b!"cdeXX", by decide, (([8] ++ b!"cdeXX" : Bytes).flatMap fmtCh ++ [34]), by decide +kernel,
    by decide +kernel⟩

/-- ... or takes the closing quote for a part of the string, and refuses it. -/
theorem C31_rejects_fails :
    ∃ s : Bytes, (0 : UInt8) ∉ s ∧ ∃ body, fmtStr s = 34 :: body ∧ jGetText body = .ok none :=
  ⟨[8] ++ b!"cde", by decide, (([8] ++ b!"cde" : Bytes).flatMap fmtCh ++ [34]), by decide +kernel,
    by decide +kernel⟩

/-- Reading a string never leaves the buffers: false.  A text ending in a backslash is read
beyond its end. -/
theorem C31_overread_fails : jGetText b!"\\" = .ub := by decide +kernel

/-- ... and eight hexadecimal digits after a backslash overflow the allocated memory. -/
theorem C31_overflow_fails : jGetText b!"\\7fffffff\"" = .ub := by decide +kernel

/-- The escape sequence \u00e9 of JSON is not understood. -/
theorem C31_unicode_fails : jGetText b!"\\u00e9\"" = .ok (some (b!"u00e9", [])) := by
  decide +kernel

/-! ### C56 -/

/-- Formatting a value (with any indentation, at any level) and parsing the result gives the
value back (integers become numbers), with the text that follows left unread - provided its
strings are read back (C31) and its numbers are read back by strtod. -/
theorem C56_document_round_trip_partial {D : Type} (N : NumLib D) (ind level : Nat) (v : JVal D)
    (h : Fits N v) (rest : Bytes) (hr : Delim rest) :
    jsonParse N (fmtVal N ind level v ++ rest) = .ok (plain v) rest :=
  jsonParse_fmt N ind level h hr

/-- The condition on numbers holds of all the integers. -/
theorem C56_integers (n : Int) : NumRead intLib (intLib.fmtInt n) n := intLib_reads n

/-- A non-trivial value meeting the hypotheses -/
def sampleDoc : JVal Int :=
  .obj 3 [(b!"a", .arr [.int (-17), .null, .str b!"x\"y"]), (b!"b", .obj 0 []),
    (b!"c", .arr [.bool true, .arr []])]

theorem sampleDoc_fits : Fits intLib sampleDoc := by
  have hs : ∀ s : Bytes, (∀ c ∈ s, c ≠ 0 ∧ c ≠ 8 ∧ c ≠ 12) → StrFits s := fun s h =>
    ⟨fun h0 => (h 0 h0).1 rfl, notrap_of_no_bf fun c hc => (h c hc).2⟩
  have lt1 : LexLt b!"a" b!"b" := Or.inr ⟨[], 97, 98, [], [], rfl, rfl, by decide⟩
  have lt2 : LexLt b!"a" b!"c" := Or.inr ⟨[], 97, 99, [], [], rfl, rfl, by decide⟩
  have lt3 : LexLt b!"b" b!"c" := Or.inr ⟨[], 98, 99, [], [], rfl, rfl, by decide⟩
  simp only [sampleDoc, Fits, FitsP, FitsL, and_true, true_and]
  refine ⟨rfl, ?_, hs _ (by decide), ⟨intLib_reads _, hs _ (by decide)⟩, hs _ (by decide),
    ⟨rfl, List.Pairwise.nil⟩, hs _ (by decide)⟩
  simp [lt1, lt2, lt3]

example : fmtVal intLib 0 0 sampleDoc =
    b!"{\"a\":[-17, null, \"x\\\"y\"], \"b\":{}, \"c\":[true, []]}" := by decide +kernel

example : jsonParse intLib b!"{\"a\":[-17, null, \"x\\\"y\"], \"b\":{}, \"c\":[true, []]}"
    = .ok (plain sampleDoc) [] := by rfl

/-- Values built by json_object_set from values of this kind are of this kind. -/
theorem C56_sets_fit {D : Type} (N : NumLib D) (sets : List (Bytes × JVal D)) (o : JObj (JVal D))
    (h : jSets jNew sets = .ok o) (hs : ∀ p ∈ sets, StrFits p.1 ∧ Fits N p.2) :
    Fits N (.obj o.count o.pairs) := by
  obtain ⟨o', h', hi, hl⟩ := jSets_spec sets jNew jinv_new
  rw [h] at h'; cases h'
  have hmem : ∀ p ∈ o.pairs, p ∈ sets := by
    intro p hp
    have e : lookupL o.pairs p.1 = some p.2 := by
      obtain ⟨A, B, eAB⟩ := List.append_of_mem hp
      have hpw := hi.2
      rw [eAB, List.pairwise_append] at hpw
      rw [eAB, show p = (p.1, p.2) from rfl, lookupL_mid]
      · simp
      · intro q hq eq
        have := hpw.2.2 q hq p List.mem_cons_self
        rw [eq] at this; exact strcmp_irrefl _ this
    have e2 := hl p.1
    rw [e] at e2
    simp only [jNew, lookupL, lastSet, List.find?_nil, Option.map_none, Option.or_none] at e2
    cases hf : sets.reverse.find? (fun q => q.1 == p.1) with
    | none => simp [hf] at e2
    | some q =>
      rw [hf] at e2
      have hq := List.mem_of_find?_eq_some hf
      have hq1 := List.find?_some hf
      simp at e2 hq1
      have : q = p := Prod.ext hq1 e2.symm
      subst this; simpa using hq
  have hsort : o.pairs.Pairwise (fun a b => LexLt a.1 b.1) :=
    hi.2.imp fun {a b} h => (strcmp_lt_iff _ _).mp h
  refine ⟨hi.1, hsort, ?_⟩
  have : ∀ l : List (Bytes × JVal D), (∀ p ∈ l, StrFits p.1 ∧ Fits N p.2) → FitsP N l := by
    intro l
    induction l with
    | nil => intro _; simp [FitsP]
    | cons p l ih =>
      intro hl
      obtain ⟨k, v⟩ := p
      rw [FitsP]
      exact ⟨(hl _ List.mem_cons_self).1, (hl _ List.mem_cons_self).2,
        ih fun q hq => hl q (List.mem_cons_of_mem _ hq)⟩
  exact this o.pairs fun p hp => hs p (hmem p hp)

/-! ### C57 -/

/-- The text of a value is a JSON text (RFC 8259), provided its strings have no control
characters other than \b \f \n \r \t, and its numbers are written as JSON numbers.
Missing: the other control characters. -/
theorem C57_valid_json_partial {D : Type} (N : NumLib D) (num : Bytes → Prop) (ind level : Nat)
    (v : JVal D) (h : Clean N num v) : JsonText num (fmtVal N ind level v) :=
  text_val N num ind v level h

/-- Integers are written as JSON numbers. -/
theorem C57_integers (n : Int) : JsonInt (intLib.fmtInt n) := intLib_json n

example : Clean intLib JsonInt sampleDoc := by
  have h := intLib_json (-17)
  simp only [sampleDoc, Clean, CleanP, CleanL, StrValid, and_true, true_and]
  exact ⟨rfl, by decide, ⟨h, by decide⟩, by decide, rfl, by decide⟩

theorem strChar_first {t : Bytes} (h : StrChar t) : ∃ c r, t = c :: r ∧ 0x20 ≤ c := by
  cases h with
  | plain c h _ _ => exact ⟨c, [], rfl, h⟩
  | esc c _ => exact ⟨_, _, rfl, by decide⟩
  | uni a b c d _ _ _ _ => exact ⟨_, _, rfl, by decide⟩

/-- A control character such as 1 is written as it is: the text is not JSON. -/
theorem C57_control_fails : ∃ s : Bytes, (0 : UInt8) ∉ s ∧ ¬ JsonString (fmtStr s) := by
  refine ⟨[1], by decide, ?_⟩
  rintro ⟨cs, hcs, e⟩
  have e1 : fmtStr [1] = [34, 1, 34] := by decide
  rw [e1] at e
  simp only [List.cons_append, List.cons.injEq, true_and] at e
  cases cs with
  | nil => simp at e
  | cons t cs =>
    obtain ⟨c, r, rfl, hc⟩ := strChar_first (hcs t List.mem_cons_self)
    simp only [List.flatten_cons, List.cons_append, List.cons.injEq] at e
    rw [← e.1] at hc
    exact absurd hc (by decide)

/-! ### C58 -/

/-- The parser stops on every text, whatever strtod accepts. -/
theorem C58_parser_stops {D : Type} (N : NumLib D) (hN : ∀ p, ∃ q, p = q ++ (N.strtod p).2)
    (input : Bytes) : jsonParse N input ≠ .hung :=
  jsonParse_stops hN input

example : ∀ p, ∃ q, p = q ++ (intLib.strtod p).2 := intLib_sane

/-- After appending values to a new array, however the memory is extended, element i is the
i-th value, and ENOENT is reported from the end on. -/
theorem C58_arrays_keep {V : Type} (extra : Nat → Nat) (l : List V) (i : Nat) :
    jArrGet (jArrAppends extra ⟨0, []⟩ l) i = .ok l[i]? := by
  have h : JArrInv (⟨0, []⟩ : JArr V) [] := ⟨rfl, [], rfl⟩
  have := jArrAppends_inv l extra ⟨0, []⟩ [] h
  exact jArrGet_inv this i

example : jArrGet (jArrAppends (fun _ => 3) ⟨0, []⟩ [10, 20, 30]) 1 = .ok (some 20) := by
  decide +kernel

/-- json_array_insert beyond the end leaves the slots before it unset. -/
theorem C58_insert_gap_fails : ∃ (idx i : Nat), i < idx ∧
    jArrGet (jArrInsert (V := Nat) 0 ⟨0, []⟩ idx 7) i = .ub := ⟨2, 1, by decide, by decide +kernel⟩

end Pound.Props
