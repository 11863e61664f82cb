import Verif.Model.Expand

/-!
The kinds of patterns (/repo/src/genpat.c, /repo/src/regex_pcre.c, /repo/src/regex_pcre2.c) and what is recorded of their matches (/repo/src/http.c:253-330).

The libraries are parameters: `LibRes` is what regexec, pcre_exec or pcre2_match find. Memory does not run out, offsets fit in `int`, and the number of groups of a pattern is known (pcre_fullinfo and pcre2_pattern_info
do not fail).
-/

namespace Pound

/-- What the library finds: nothing, an error (out of memory, or a limit was exceeded), or the offsets of the groups 0, 1, ... of the pattern; `none` for those that took no part. -/
inductive LibRes where
  | noMatch
  | error
  | found (gs : List (Option (Nat × Nat)))
deriving DecidableEq, Repr

/-- Offsets as they are copied: those of unset groups are -1 (PCRE2_UNSET is converted to -1), /repo/src/genpat.c:153-154, /repo/src/regex_pcre2.c:136-137. -/
def offPair : Option (Nat × Nat) → Int × Int
  | none => (-1, -1)
  | some (a, b) => (a, b)

/-- posix_pattern_exec, /repo/src/genpat.c:132-159: `n` elements of `mem` may be written. The result: whether 0 is returned, and the memory. -/
def posixExec (n : Nat) (r : LibRes) (mem : List (Int × Int)) : Bool × List (Int × Int) :=
  match r with
  | .noMatch => (false, mem)
  | .error => (true, mem)
  | .found gs =>
    let n := min n gs.length
    (true, (gs.take n).map offPair ++ mem.drop n)

/-- What pcre_exec and pcre2_match return: one more than the number of the last group that took part -/
def pcreCount (gs : List (Option (Nat × Nat))) : Nat := (gs.reverse.dropWhile (·.isNone)).length

/-- pcre2_pattern_exec, /repo/src/regex_pcre2.c:111-142 -/
def pcre2Exec (n : Nat) (r : LibRes) (mem : List (Int × Int)) : Bool × List (Int × Int) :=
  match r with
  | .noMatch => (false, mem)
  | .error => (false, mem)
  | .found gs =>
    let n := min n (pcreCount gs)
    (true, (gs.take n).map offPair ++ mem.drop n)

/-- pcre_pattern_exec, /repo/src/regex_pcre.c:76-107; the vector has room for all groups. -/
def pcre1Exec (n : Nat) (r : LibRes) (mem : List (Int × Int)) : Bool × List (Int × Int) :=
  match r with
  | .noMatch => (false, mem)
  | .error => (false, mem)
  | .found gs =>
    if pcreCount gs > 0 then
      let n := min n (pcreCount gs)
      (true, (gs.take n).map offPair ++ mem.drop n)
    else (true, mem)

/-- Kinds of patterns, /repo/src/genpat.c:19-32: those of fixed strings have no groups, /repo/src/genpat.c:233-237. -/
inductive RxKind where
  | posix | pcre | pcre2 | fixed
deriving DecidableEq, Repr

/-- genpat_match, /repo/src/genpat.c:68-73. Of fixed strings, only whether they match is taken from `r`. -/
def rxExec (k : RxKind) (n : Nat) (r : LibRes) (mem : List (Int × Int)) : Bool × List (Int × Int) :=
  match k with
  | .posix => posixExec n r mem
  | .pcre => pcre1Exec n r mem
  | .pcre2 => pcre2Exec n r mem
  | .fixed => (match r with | .found _ => true | _ => false, mem)

/-- A match as submatch_exec records it, /repo/src/http.c:312-330: the array has been allocated for this pattern (253-266, after submatch_free) and `mem` is what was in the memory that realloc gave. -/
def rxMatch (k : RxKind) (r : LibRes) (mem : List (Int × Int)) : MatchRes :=
  ⟨(rxExec k mem.length r mem).1, (rxExec k mem.length r mem).2⟩

end Pound
