import Verif.Model.Basic

/-!
Fixed-string patterns: /repo/src/genpat.c.  Strings are C strings: bytes without NUL.
Lengths fit in `int`.
-/

namespace Pound

/-- strcmp or strcasecmp (x, y) == 0, as chosen at /repo/src/genpat.c:253 -/
def strEqC (ci : Bool) (x y : Bytes) : Bool := if ci then ciEq x y else x == y

/-- exact_exec, /repo/src/genpat.c:245-254: does the subject match? -/
def exactExec (ci : Bool) (pat subj : Bytes) : Bool :=
  if subj.length ≠ pat.length then false else strEqC ci subj pat

/-- prefix_exec, /repo/src/genpat.c:257-266; strncmp compares the first `len` bytes, which
both strings have. -/
def prefixExec (ci : Bool) (pat subj : Bytes) : Bool :=
  if subj.length < pat.length then false else strEqC ci (subj.take pat.length) (pat.take pat.length)

/-- suffix_exec, /repo/src/genpat.c:269-278 -/
def suffixExec (ci : Bool) (pat subj : Bytes) : Bool :=
  if subj.length < pat.length then false
  else strEqC ci ((subj.drop (subj.length - pat.length)).take pat.length) (pat.take pat.length)

/-! ### Boyer-Moore -/

/-- UC, /repo/src/genpat.c:361, with casemap, :317-350: the table maps lower-case ASCII
letters to upper-case ones. -/
def ucMap (ci : Bool) (c : UInt8) : UInt8 := if ci then toUpper c else c

/-- Update of one entry of a table -/
def updT {α} [DecidableEq α] (t : α → Nat) (i : α) (v : Nat) : α → Nat :=
  fun k => if k = i then v else t k

/-- The second loop of fill_bad_char_delta, /repo/src/genpat.c:381-382, from index `i` of the
pattern of length `m` on. -/
def badLoop (m : Nat) : Nat → Bytes → (UInt8 → Nat) → UInt8 → Nat
  | _, [], t => t
  | i, c :: p, t => badLoop m (i + 1) p (updT t c (m - 1 - i))

/-- fill_bad_char_delta, /repo/src/genpat.c:374-383.  The pattern is not empty, and has been
converted.  The table has UCHAR_MAX = 255 entries: there is none for the byte 255. -/
def badDelta (pat : Bytes) : UInt8 → Nat :=
  badLoop pat.length 0 pat (fun _ => pat.length - 1)

/-- is_prefix, /repo/src/genpat.c:391-395: memcmp () != 0, i.e. true if it is *not* a prefix. -/
def isPrefixC (pat : Bytes) (pos : Nat) : Bool := pat.take (pat.length - pos) != pat.drop pos

/-- longest_suffix_length, /repo/src/genpat.c:401-411, from `i` on -/
def sufLoop (pat : Bytes) (pos : Nat) : Nat → Nat → Nat
  | 0, i => i
  | f + 1, i =>
    if i < pos then
      if pat[pos - i]? ≠ pat[pat.length - 1 - i]? then i else sufLoop pat pos f (i + 1)
    else i

def sufLen (pat : Bytes) (pos : Nat) : Nat := sufLoop pat pos pos 0

/-- The first loop of fill_good_pfx_delta, /repo/src/genpat.c:441-446: the value of j after
the iteration for index pat.length - 1 - k (k counts the iterations). -/
def goodJ (pat : Bytes) : Nat → Nat
  | 0 => if isPrefixC pat pat.length then pat.length else 1
  | k + 1 =>
    if isPrefixC pat (pat.length - 1 - k) then pat.length - 1 - k else goodJ pat k

/-- The table after the first loop, /repo/src/genpat.c:441-446 -/
def goodFirst (pat : Bytes) (i : Nat) : Nat := goodJ pat (pat.length - 1 - i) + pat.length - 1 - i

/-- One iteration of the second loop, /repo/src/genpat.c:448-453 -/
def goodStep (pat : Bytes) (t : Nat → Nat) (i : Nat) : Nat → Nat :=
  let s := sufLen pat i
  if pat[i - s]? ≠ pat[pat.length - 1 - s]? then updT t (pat.length - 1 - s) (pat.length - 1 - i + s)
  else t

/-- fill_good_pfx_delta, /repo/src/genpat.c:433-454 -/
def goodDelta (pat : Bytes) : Nat → Nat :=
  (List.range (pat.length - 1)).foldl (goodStep pat) (goodFirst pat)

/-- struct strstr_pattern, /repo/src/genpat.c:352-359 -/
structure BmPat where
  pat : Bytes
  bad : UInt8 → Nat
  good : Nat → Nat

/-- strstr_compile, /repo/src/genpat.c:475-491.  An empty pattern makes the second loop of
fill_good_pfx_delta run from 0 to SIZE_MAX, reading and writing before the arrays; a byte 255
in the pattern is written beyond the end of bad_char_delta. -/
def bmCompile (ci : Bool) (pat : Bytes) : Res BmPat :=
  let p := pat.map (ucMap ci)
  if p = [] then .ub
  else if 255 ∈ p then .ub
  else .ok ⟨p, badDelta p, goodDelta p⟩

/-- The comparison from right to left, /repo/src/genpat.c:511-512: `k` is j + 1, the other
argument is i + 1.  `ok none`: j < 0 (all matched), otherwise the i and j of the mismatch. -/
def bmBack (ci : Bool) (subj pat : Bytes) : Nat → Nat → Res (Option (Nat × Nat))
  | 0, _ => .ok none
  | _ + 1, 0 => .ub
  | k + 1, i + 1 =>
    match subj[i]?, pat[k]? with
    | some c, some p => if ucMap ci c = p then bmBack ci subj pat k i else .ok (some (i, k))
    | _, _ => .ub

/-- The outcome of a search: found or not, undefined, or out of the bound of iterations -/
inductive BmRes where
  | found
  | notFound
  | ub
  | hung
deriving DecidableEq, Repr

/-- The loop of strstr_exec, /repo/src/genpat.c:507-519 -/
def bmLoop (ci : Bool) (sp : BmPat) (subj : Bytes) : Nat → Nat → BmRes
  | 0, _ => .hung
  | f + 1, i =>
    if i < subj.length then
      match bmBack ci subj sp.pat sp.pat.length (i + 1) with
      | .ub => .ub
      | .ok none => .found
      | .ok (some (i, j)) =>
        match subj[i]? with
        | none => .ub
        | some c =>
          if ucMap ci c = 255 then .ub
          else bmLoop ci sp subj f (i + max (sp.bad (ucMap ci c)) (sp.good j))
    else .notFound

/-- strstr_exec, /repo/src/genpat.c:495-520 -/
def bmExec (ci : Bool) (sp : BmPat) (subj : Bytes) : BmRes :=
  if sp.pat.length = 0 then .found
  else bmLoop ci sp subj (subj.length + 1) (sp.pat.length - 1)

/-- Compiling a "contain" pattern and matching a subject, /repo/src/genpat.c:34-55, :68-73 -/
def containMatch (ci : Bool) (pat subj : Bytes) : BmRes :=
  match bmCompile ci pat with
  | .ub => .ub
  | .ok sp => bmExec ci sp subj

end Pound
