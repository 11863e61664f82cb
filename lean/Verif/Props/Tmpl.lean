import Verif.Proof.Printf
import Verif.Proof.TmplEval
import Verif.Proof.TmplParse
import Verif.Props.Json

/-!
C76: a template written as the manual says is accepted.
C77: it prints what the manual says.
C78: printf in templates.
-/

namespace Pound.Props

open Spec

/-! ### Numbers for examples -/

/-- Numbers in thousandths, for examples -/
def milliLib : TNum Int :=
  { intLib with
    fmtNum := fun d => decInt (d / 1000) ++ b!"." ++ dec (d % 1000).toNat
    fmtInt := fun d => decInt (d / 1000)
    ofInt := fun n => n * 1000
    toLong := fun d =>
      if -(2 ^ 63) ≤ d.tdiv 1000 ∧ d.tdiv 1000 < 2 ^ 63 then some (d.tdiv 1000) else none
    lt := fun a b => decide (a < b)
    small := fun d => decide (-1 ≤ d ∧ d ≤ 1)
    add := (· + ·)
    sub := (· - ·)
    mul := fun a b => a * b / 1000
    div := fun a b => a * 1000 / b
    fmtG := fun d => decInt (d / 1000)
    fmtDouble := fun _ _ _ _ d => decInt d }

/-- What a text does: parsed with no templates defined and run for a value.  `none`: it is not
accepted. -/
def tmDo (fuel : Nat) (text : Bytes) (v : JVal Int) : TOut (Option (Bytes × TOut Bool)) :=
  match templateParse fuel [] text with
  | .ok (defs, .ok as) => .ok (some (templateRun milliLib fuel defs as v))
  | .ok (_, .error _) => .ok none
  | .die => .die
  | .abort => .abort
  | .ub => .ub
  | .hang => .hang

/-! ### C76 -/

/-- C76: every well-formed template is accepted.  (The text has no NUL byte.)
Missing: what the manual allows and `TmBody.Ok` excludes, see the theorems below. -/
theorem C76_accepted_partial (b : TmBody) (hb : b.Ok .out []) (_h0 : 0 ∉ b.text) :
    ∃ n, ∀ fuel ≥ n, ∃ defs acts, templateParse fuel [] b.text = .ok (defs, .ok acts) := by
  obtain ⟨n, h⟩ := template_scan b hb
  exact ⟨n, fun f hf => ⟨_, _, h f hf⟩⟩

/-- C76: a call without a value, `{{template "x"}}`, is not accepted at the end of the text or
before another action.  Before a text, a NULL pointer is printed. -/
theorem C76_template_fails :
    tmDo 60 b!"{{define \"x\"}}y{{end}}{{template \"x\"}}" .null = .ok none ∧
    tmDo 60 b!"{{define \"x\"}}y{{end}}{{template \"x\"}}{{.}}" .null = .ok none ∧
    tmDo 60 b!"{{define \"x\"}}y{{end}}{{template \"x\"}} text" .null
      = .ok (some (b!"y text", .ub)) := by
  decide +kernel

/-- C76: a quote in a string cannot be written, `"a\"b"` is not accepted. -/
theorem C76_quote_fails : tmDo 60 b!"{{printf \"a\\\"b\" }}" .null = .ok none := by
  decide +kernel

/-- C76: numbers with a fraction are not understood. -/
theorem C76_fraction_fails : tmDo 60 b!"{{add 1.5 1}}" .null = .ok (some ([], .die)) := by
  decide +kernel

/-- C76: `with` and `range` on a variable (`{{range $x}}`) are not accepted, and memory is freed
twice. -/
theorem C76_variable_fails :
    tmDo 60 b!"{{with $x = .}}{{with $x}}y{{end}}{{end}}" (.int 1000) = .ub ∧
    tmDo 60 b!"{{with $x = .}}{{range $x}}y{{end}}{{end}}" (.arr [.int 1000]) = .ub := by
  decide +kernel

/-- C76: a block whose template is already defined ends at its first delimiter: its `{{end}}` is
an error. -/
theorem C76_block_fails :
    tmDo 60 b!"{{define \"x\"}}y{{end}}{{block \"x\" .}}z{{end}}" .null = .ok none := by
  decide +kernel

/-- C76: the program is aborted by a string without end at the start of an action; a number
that is too large is undefined. -/
theorem C76_abort_fails :
    tmDo 60 b!"{{\"abc}}" .null = .abort ∧ tmDo 60 b!"{{9223372036854775808}}" .null = .ub := by
  decide +kernel

/-- The state within `add 1` at the end of the text -/
theorem loop_args (t : TTok) (b : Bytes) (e : Option TErr) (rest : Bytes)
    (hr : rest = b!"1" ∨ rest = b!" 1") :
    ∀ f, scanArgs f ⟨b, rest, t, false, e⟩ = .hang := by
  intro f
  induction f generalizing t b rest with
  | zero => rfl
  | succ f ih =>
    cases f with
    | zero => rfl
    | succ f =>
      have h : ∃ b', gettok ⟨b, rest, t, false, e⟩ = .ok ⟨b', b!"1", .num 1, false, e⟩ := by
        rcases hr with rfl | rfl
        · exact ⟨b, rfl⟩
        · exact ⟨32 :: b, rfl⟩
      obtain ⟨b', h⟩ := h
      have := ih (.num 1) b' b!"1" (Or.inl rfl)
      rw [scanArgs, scanArg, h]
      show (scanArgs (f + 1) _ >>= _) = TOut.hang
      rw [this]
      rfl

/-- C76: with a text that ends within a function call, the program does not end. -/
theorem C76_loop_fails : ∀ fuel, templateParse fuel [] b!"{{add 1" = .hang
  | 0 => rfl
  | 1 => rfl
  | 2 => rfl
  | 3 => rfl
  | f + 4 => by
    have h : ∀ t b e, scanArgs f ⟨b, b!" 1", t, false, e⟩ = .hang :=
      fun t b e => loop_args t b e _ (Or.inr rfl) f
    show (((((scanArgs f ⟨b!"dda{{", b!" 1", .ident b!"add", false, none⟩ >>= _) >>= _) >>= _) >>= _) >>= _) = TOut.hang
    rw [h]
    rfl

/-- C76: with a comment that is cut short after an asterisk, the program does not end. -/
theorem C76_comment_fails : tmDo 60 b!"{{/* x *" .null = .hang := by
  decide +kernel

/-- C76: errors that are not found: a function that does not exist, a missing parenthesis, an
`else` of range that is left with `{{break}}`. -/
theorem C76_unknown_fails :
    tmDo 60 b!"{{add 1 foo}}" .null = tmDo 60 b!"{{add 1}}" .null ∧
    tmDo 60 b!"{{(add 1 2}}" .null = tmDo 60 b!"{{(add 1 2)}}" .null ∧
    tmDo 60 b!"{{range .}}x{{else}}{{break}}y{{end}}z" (.arr []) = .ok (some ([], .ok true)) := by
  decide +kernel

/-! A template for examples -/

/-- `{{range $i, $b = .}}{{if $b.up}}{{$i}}: {{printf "%-5s" $b.name}}{{else}}-{{end}}|{{end}}` -/
def tmDemo : TmBody :=
  .item [] (.range ⟨none, [], none⟩ b!" " (some ⟨b!"i", [], b!" ", b!"b", b!" ", b!" "⟩)
    (.one (.arg .dot)) ⟨[], none⟩
    (.item [] (.cond ⟨none, [], none⟩ b!" " (.one (.arg (.var b!"b" [b!"up"]))) ⟨[], none⟩
      (.item [] (.print ⟨none, [], none⟩ (.one (.arg (.var b!"i" []))) ⟨[], none⟩)
        (.item b!": " (.print ⟨none, [], none⟩
          (.one (.call .printf (.cons b!" " (.str [.plain 37, .plain 45, .plain 53, .plain 115])
            (.cons b!" " (.var b!"b" [b!"name"]) .nil)))) ⟨[], none⟩) (.done [])))
      (.els ⟨none, [], none⟩ ⟨[], none⟩ (.done b!"-") ⟨none, [], none⟩ ⟨[], none⟩))
      (.done b!"|"))
    (.fin ⟨none, [], none⟩ ⟨[], none⟩)) (.done b!"\n")

example : tmDemo.text =
    b!"{{range $i, $b = .}}{{if $b.up}}{{$i}}: {{printf \"%-5s\" $b.name}}{{else}}-{{end}}|{{end}}\n" := by
  decide +kernel

/-- Text without a brace -/
theorem tmText_plain {t : Bytes} (h : 123 ∉ t) : TmText t := by
  intro hi
  have := hi.sublist.count_le 123
  rw [List.count_append, List.count_eq_zero_of_not_mem h] at this
  simp at this

theorem tmDemo_ok : tmDemo.Ok .out [] := by
  simp [tmDemo, TmBody.Ok, TmItem.Ok, TmTail.Ok, TmTail.NoElif, TmOpen.Ok, TmClose.Ok, TmPipe.Ok,
    TmCmd.Ok, TmArgs.Ok, TmArg.Ok, TmVars.Ok, TmGap, TmWs, tmText_plain]
  decide +kernel

example : tmDemo.Ok .out [] ∧ 0 ∉ tmDemo.text := ⟨tmDemo_ok, by decide +kernel⟩

/-! ### C77 -/

/-- C77: a well-formed template is accepted, and prints what it should for every value. `pf` is
printf, which gives what `Formats` says (or nothing, if it is not to be used). Missing: what
`TmBody.Ok` excludes, and what has no value in `TmPrints`. -/
theorem C77_prints_partial {D : Type} (N : TNum D) (pf : Bytes → List (JVal D) → Option Bytes)
    (hpf : ∀ fmt args o, pf fmt args = some o → Formats N fmt args o)
    (b : TmBody) (hb : b.Ok .out []) (_h0 : 0 ∉ b.text) (v : JVal D) (hv : TmGood v) (out : Bytes)
    (h : TmPrints N pf b v out) :
    ∃ n, ∀ fuel ≥ n, ∃ defs acts z, templateParse fuel [] b.text = .ok (defs, .ok acts) ∧
      templateRun N fuel defs acts v = (out, .ok z) := by
  obtain ⟨n, hp⟩ := template_scan b hb
  obtain ⟨m, z, hr⟩ := template_prints (fun fmt args o _ h => printf_formats (hpf fmt args o h)) b hb
    v hv out h
  exact ⟨max n m, fun f hf => ⟨_, _, z, hp f (by omega), hr f (by omega)⟩⟩

/-- C77: a text without actions is printed as it is. -/
theorem C77_plain {D : Type} (N : TNum D) (t : Bytes) (ht : ¬ b!"{{" <:+: t ++ b!"{") (_h0 : 0 ∉ t)
    (v : JVal D) (hv : TmGood v) :
    ∃ n, ∀ fuel ≥ n, ∃ defs acts z, templateParse fuel [] t = .ok (defs, .ok acts) ∧
      templateRun N fuel defs acts v = (t, .ok z) :=
  C77_prints_partial N (fun _ _ => none) (by simp) (.done t) ht _h0 v hv t
    ⟨0, .norm, by simp [TmBody.run, tmTrim]⟩

/-- printf for the example -/
def pfDemo (fmt : Bytes) (args : List (JVal Int)) : Option Bytes :=
  match args with
  | [.str s] =>
    if fmt = b!"%-5s" ∧ s.length < 2 ^ 31 then some (s ++ List.replicate (5 - s.length) 32) else none
  | _ => none

theorem pfDemo_ok : ∀ fmt args o, pfDemo fmt args = some o → Formats milliLib fmt args o := by
  intro fmt args o h
  unfold pfDemo at h
  split at h
  · next s =>
    split at h
    · next hc =>
      obtain ⟨rfl, hl⟩ := hc
      simp only [Option.some.injEq] at h
      subst h
      refine ⟨[.spec ⟨b!"-", .digits b!"5", none, .s⟩], ?_, by decide, ?_⟩
      · simp [PfItem.Ok, PfSpec.Ok, PfWidth.Ok]
        decide
      · simp [pfRun, pfConv, pfText, pfField, pfCut, tmNat, hl]
    · simp at h
  · simp at h

/-- A value for the example -/
def tmDemoVal : JVal Int :=
  .arr [.obj 2 [(b!"name", .str b!"web"), (b!"up", .bool true)],
    .obj 2 [(b!"name", .str b!"old"), (b!"up", .bool false)], .obj 0 []]

theorem tmDemo_prints : TmPrints milliLib pfDemo tmDemo tmDemoVal b!"0: web  |-|-|\n" :=
  ⟨1, .norm, by decide +kernel⟩

theorem tmDemoVal_good : TmGood tmDemoVal := by
  have h : LexLt b!"name" b!"up" := Or.inr ⟨[], 110, 117, b!"ame", b!"p", rfl, rfl, by decide⟩
  simp [tmDemoVal, TmGood, TmGoodL, TmGoodP, h]

example : ∃ n, ∀ fuel ≥ n, ∃ defs acts z,
    templateParse fuel [] tmDemo.text = .ok (defs, .ok acts) ∧
      templateRun milliLib fuel defs acts tmDemoVal = (b!"0: web  |-|-|\n", .ok z) :=
  C77_prints_partial milliLib pfDemo pfDemo_ok tmDemo tmDemo_ok (by decide +kernel) tmDemoVal
    tmDemoVal_good _ tmDemo_prints

/-- The same by computation -/
example : tmDo 60 tmDemo.text tmDemoVal = .ok (some (b!"0: web  |-|-|\n", .ok false)) := by
  decide +kernel

/-- Keys of arrays may be texts, and true and false -/
example : tmIndex milliLib (.arr [.str b!"a", .str b!"b"]) (.str b!" +1") = some (.str b!"b") ∧
    tmIndex milliLib (.arr [.str b!"a", .str b!"b"]) (.bool false) = some (.str b!"a") ∧
    tmTextInt b!"-9223372036854775808" = -2 ^ 63 ∧ tmTextInt b!"9223372036854775808" = 0 ∧
    tmDo 60 b!"{{index . \"1\"}}" (.arr [.str b!"a", .str b!"b"]) = .ok (some (b!"b", .ok false)) := by
  refine ⟨rfl, rfl, by decide +kernel, by decide +kernel, by decide +kernel⟩

/-- C77: `{{continue}}` in an `if` does not stop the iteration. -/
theorem C77_continue_fails :
    tmDo 60 b!"{{range .}}{{if .}}{{continue}}{{end}}x{{end}}" (.arr [.bool true])
      = .ok (some (b!"x", .ok false)) := by
  decide +kernel

/-- C77: numbers that are not 0 but close to it are taken for empty. -/
theorem C77_small_fails :
    tmDo 60 b!"{{if .}}yes{{else}}no{{end}}" (.num 1) = .ok (some (b!"no", .ok false)) := by
  decide +kernel

/-- C77: `eq` finds true and false equal, and 1.5 and 1; 1 is not less than 1.5. -/
theorem C77_compare_fails :
    tmDo 60 b!"{{eq true false}}" .null = .ok (some (b!"true", .ok false)) ∧
    tmDo 60 b!"{{eq . 1}}" (.num 1500) = .ok (some (b!"true", .ok false)) ∧
    tmDo 60 b!"{{lt 1 .}}" (.num 1500) = .ok (some (b!"false", .ok false)) := by
  decide +kernel

/-- C77: an index that is not there gives the array itself; without arguments `index`, `and` and
`or` are undefined. -/
theorem C77_index_fails :
    tmDo 60 b!"{{index . 1}}" (.arr [.bool true]) = .ok (some (b!"[true]", .ok false)) ∧
    tmDo 60 b!"{{index}}" .null = .ok (some ([], .ub)) ∧
    tmDo 60 b!"{{and}}" .null = .ok (some ([], .ub)) ∧
    tmDo 60 b!"{{or}}" .null = .ok (some ([], .ub)) := by
  decide +kernel

/-- C77: the variables of the caller are seen in a called template, outside of the control
structure in which they are declared. -/
theorem C77_scope_fails :
    tmDo 60 b!"{{define \"x\"}}{{$v}}{{end}}{{with $v = .}}{{template \"x\" 1}}{{end}}"
      (.str b!"seen") = .ok (some (b!"seen", .ok false)) := by
  decide +kernel

/-! ### C78 -/

/-- C78: printf gives what printf(3) says.  Missing: what has no value in `pfRun`. -/
theorem C78_printf_partial {D : Type} (N : TNum D) (fmt : Bytes) (args : List (JVal D)) (o : Bytes)
    (h : Formats N fmt args o) : funPrintf N (.str fmt :: args) = .ok (.str o) :=
  printf_formats h

example : Formats milliLib b!"%05d|%-4s|%#x|%*u|%.2s|100%%"
    [.int (-42000), .str b!"ab", .int 255000, .int 3000, .int 7000, .str b!"xyz"]
    b!"-0042|ab  |0xff|  7|xy|100%" :=
  ⟨[.spec ⟨b!"0", .digits b!"5", none, .d⟩, .lit 124, .spec ⟨b!"-", .digits b!"4", none, .s⟩,
    .lit 124, .spec ⟨b!"#", .none, none, .x⟩, .lit 124, .spec ⟨[], .star, none, .u⟩, .lit 124,
    .spec ⟨[], .none, some b!"2", .s⟩, .lit 124, .lit 49, .lit 48, .lit 48, .pct],
    by simp [PfItem.Ok, PfSpec.Ok, PfWidth.Ok]; decide, by decide +kernel, by decide +kernel⟩

/-- C78: numbered arguments are off by one, and the first one aborts the program. -/
theorem C78_position_fails :
    funPrintf milliLib [.str b!"%2$s", .str b!"a", .str b!"b"] = .ok (.str b!"a") ∧
    funPrintf milliLib [.str b!"%1$s", .str b!"a"] = .abort :=
  ⟨rfl, rfl⟩

/-- C78: the width of a floating-point number is ignored without a precision; with one, the flag
0 is. -/
theorem C78_float_fails {D : Type} (N : TNum D) (x : D) :
    funPrintf N [.str b!"%10f", .num x] = .ok (.str (N.fmtDouble {} none none ch%'f' x ++ [])) ∧
    funPrintf N [.str b!"%08.2f", .num x]
      = .ok (.str (N.fmtDouble {} (some 8) (some 2) ch%'f' x ++ [])) :=
  ⟨rfl, rfl⟩

/-- C78: `%x` prints 32 bits only; `%.3o` cuts digits off; a precision of 0 is ignored for strings
and prints a digit for 0; `%#x` has a prefix for 0. -/
theorem C78_digits_fails :
    funPrintf milliLib [.str b!"%x", .int 4294967297000] = .ok (.str b!"1") ∧
    funPrintf milliLib [.str b!"%.3o", .int 8000] = .ok (.str b!"01") ∧
    funPrintf milliLib [.str b!"%.0s", .str b!"abc"] = .ok (.str b!"abc") ∧
    funPrintf milliLib [.str b!"%.0d", .int 0] = .ok (.str b!"0") ∧
    funPrintf milliLib [.str b!"%#x", .int 0] = .ok (.str b!"0x0") :=
  ⟨rfl, rfl, rfl, rfl, rfl⟩

/-- C78: a negative width does not adjust to the left; an asterisk for the precision does not
take an argument. -/
theorem C78_star_fails :
    funPrintf milliLib [.str b!"%*d|", .int (-5000), .int 3000] = .ok (.str b!"    3|") ∧
    funPrintf milliLib [.str b!"%.*d", .int 3000, .int 4000] = .ok (.str b!"003") :=
  ⟨rfl, rfl⟩

/-- C78: an array cannot be printed with `%s`: a pointer is taken for a number, for every array. -/
theorem C78_array_fails {D : Type} (N : TNum D) (l : List (JVal D)) : funPrintf N [.str b!"%s", .arr l] = .ub := rfl

example : Formats milliLib b!"%s|%5s|%s|%s|%d" [.int (-42000), .bool true, .null, .obj 2 [], .num 7000] b!"-42| true||2|7" :=
  ⟨[.spec ⟨[], .none, none, .s⟩, .lit ch%'|', .spec ⟨[], .digits b!"5", none, .s⟩, .lit ch%'|', .spec ⟨[], .none, none, .s⟩, .lit ch%'|', .spec ⟨[], .none, none, .s⟩, .lit ch%'|',
    .spec ⟨[], .none, none, .d⟩], by simp [PfItem.Ok, PfSpec.Ok, PfWidth.Ok, TmDigit]; decide, rfl, by decide +kernel⟩

/-- C78: a precision that is larger than the buffer is written past its end, for every number and
every precision from 63 on. -/
theorem C78_overflow_fails (p : Nat) (h1 : 63 ≤ p) (h2 : p < 2 ^ 31) :
    convD ⟨{}, 0, p, true⟩ 1 = .ub := by
  have : dec (1 : Int).natAbs = b!"1" := rfl
  simp only [convD, zeroFill, this]
  have h3 : p ≠ 0 ∧ [(49 : UInt8)].length < p := ⟨by omega, by simp; omega⟩
  rw [if_neg (by decide), if_pos h3, if_pos (by omega)]
  rfl

example : funPrintf milliLib [.str b!"%.63d", .int 1000] = .ub := rfl

/-- C78: without arguments a NULL pointer is dereferenced; a percent sign at the end is lost. -/
theorem C78_missing_fails :
    funPrintf milliLib [.str b!"%s"] = .ub ∧
    funPrintf milliLib [.str b!"50%"] = .ok (.str b!"50") :=
  ⟨rfl, rfl⟩

end Pound.Props
