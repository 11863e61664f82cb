import Verif.Proof.Log
import Verif.Proof.Headers
import Verif.Model.Lists

/-!
C39: log formats.  C59: which requests are logged, and with which status.
-/

namespace Pound.Props
open Spec

/-- A format compiles without an error message exactly if it is a sequence of texts and specifiers that exist and have the argument they need. -/
theorem C39_exact (fmt : Bytes) (r : Compiled) (h : compileFormat fmt = .ok r) (x : LogCtx) :
    (∀ d ∈ r.diags, d = false) ↔ ∃ is, fmt = renderAll is ∧ ∀ i ∈ is, i.Writable ∧ (i.value x).isSome := by
  simp only [item_ok_iff]
  constructor
  · intro hd
    obtain ⟨D, h1, h2⟩ := loop_sound _ _ _ _ _ h
    rw [List.nil_append] at h1
    exact h2 (fun d hd' => hd d (h1 ▸ hd'))
  · rintro ⟨is, rfl, his⟩
    obtain ⟨f', t', P, D, h1, h2, h3, h4, -⟩ := log_items [] is [] ((renderAll is).length + 1) [] [] (by simp) his (by simp)
    simp only [List.nil_append, List.append_nil] at h2 h4
    obtain ⟨g, rfl⟩ : ∃ g, f' = g + 1 := ⟨f' - 1, by omega⟩
    unfold compileFormat at h
    rw [h4, pct_split h1] at h
    cases h
    exact h3

/-- A format that consists of such items is accepted, and prints the text and the documented value of each specifier, in order, for every request.
Missing: `%D` and `%{sec}t`, which do not print what is documented. -/
theorem C39_prints_partial (is : List LItem) (hw : ∀ i ∈ is, i.Writable ∧ i.odd = false) (hv : ∀ x, ∀ i ∈ is, (i.value x).isSome) :
    ∃ r p, compileFormat (renderAll is) = .ok r ∧ r.accepted = some p ∧
      ∀ x, GoodCtx x → p.flatMap (LInstr.print x) = is.flatMap fun i => (i.value x).getD [] := by
  have hok : ∀ (x : LogCtx), ∀ i ∈ is, i.Writable ∧ itemOk i = true := fun x i hi => ⟨(hw i hi).1, by rw [← item_ok_iff x]; exact hv x i hi⟩
  have x0 : LogCtx := ⟨none, false, none, [], 0, false, [], none, none, [], [], 0, ⟨0, 0⟩, ⟨0, 0⟩, none, none, 0, fun _ => none, [], .regular, none, none, none, none, fun _ _ => []⟩
  obtain ⟨f', t', P, D, h1, h2, h3, h4, h5⟩ := log_items [] is [] ((renderAll is).length + 1) [] [] (by simp) (hok x0) (by simp)
  simp only [List.nil_append, List.append_nil] at h2 h4 h5
  obtain ⟨g, rfl⟩ : ∃ g, f' = g + 1 := ⟨f' - 1, by omega⟩
  refine ⟨⟨some (P ++ litInstr t'), D⟩, P ++ litInstr t', ?_, ?_, ?_⟩
  · unfold compileFormat
    rw [h4, pct_split h1]
  · unfold Compiled.accepted
    rw [if_neg]
    intro hl
    have := h3 true (List.mem_of_getLast? hl)
    cases this
  · intro x hx
    show outOf x (P ++ litInstr t') = _
    rw [out_append, out_lit, h5 x]
    have : ∀ l : List LItem, (∀ i ∈ l, i ∈ is) → l.flatMap (fun i => outOf x (itemInstrs i)) = l.flatMap fun i => (i.value x).getD [] := by
      intro l
      induction l with
      | nil => intro _; rfl
      | cons i l ih =>
        intro hl
        rw [List.flatMap_cons, List.flatMap_cons, ih (fun j hj => hl j (by simp [hj]))]
        have hi := hl i (by simp)
        obtain ⟨v, hvv⟩ := Option.isSome_iff_exists.mp (hv x i hi)
        rw [item_print hx hvv (hw i hi).2, hvv]
        rfl
    exact this is (fun _ h => h)

/-- A request used in the examples: 1.25 s long -/
def exLog : LogCtx where
  forwarded := some b!"192.0.2.7"
  anonymise := true
  remote := some b!"10.0.0.1"
  localIp := b!"10.0.0.2"
  resBytes := 5
  tls := true
  method := b!"GET"
  query := some b!"q"
  path := some b!"/p"
  reqLine := b!"GET /p?q HTTP/1.1"
  respLine := b!"HTTP/1.1 404 Not found"
  respCode := 404
  start := ⟨100, 900000000⟩
  fin := ⟨102, 150000000⟩
  user := none
  lstnName := some b!"main"
  tid := 7
  header := fun n => if n = b!"Host" then some b!"example.org" else none
  backendName := b!"10.0.0.3:80"
  beKind := .regular
  svcName := some b!"web"
  beLocus := none
  svcLocus := none
  lstnLocus := none
  strftime := fun _ _ => b!"now"

theorem exLog_good : GoodCtx exLog := ⟨by decide, by decide, by decide, by decide, rfl⟩

/-- The documented value of "%h %r - %>s %{Host}I %{f}T%%" -/
example : (compileFormat b!"%h %r - %>s %{Host}I %{f}T%% %{end:msec}t").bind (fun r => Res.ok ((r.accepted.map fun p => p.flatMap (LInstr.print exLog)))) =
    Res.ok (some b!"10.0.0.0 GET /p?q HTTP/1.1 - HTTP/1.1 404 Not found example.org 1.250% 102150") := by decide +kernel

example : [LItem.conv none ch%'h', .text b!" x ", .conv (some b!"f") ch%'T', .respLine].all (fun i => !i.odd && (i.value exLog).isSome) = true := by decide +kernel

/-- A format with an error in it is refused, if the last message issued for it is about an error. -/
theorem C39_refuses_partial (fmt : Bytes) (r : Compiled) (h : compileFormat fmt = .ok r) (x : LogCtx)
    (hbad : ¬ ∃ is, fmt = renderAll is ∧ ∀ i ∈ is, i.Writable ∧ (i.value x).isSome) (hwarn : ∀ d ∈ r.diags, d = true) : r.accepted = none := by
  have : ¬ ∀ d ∈ r.diags, d = false := fun hh => hbad ((C39_exact fmt r h x).mp hh)
  unfold Compiled.accepted
  cases hl : r.diags.getLast? with
  | none =>
    rw [List.getLast?_eq_none_iff] at hl
    rw [hl] at this
    simp at this
  | some d =>
    rw [hwarn d (List.mem_of_getLast? hl)]
    rfl

/-- The format `x%!y`, with a specifier that does not exist, is such a format. -/
example : compileFormat b!"x%!y" = .ok ⟨some [⟨.print, false, some b!"x"⟩, ⟨.print, false, some b!"x%!"⟩, ⟨.print, false, some b!"y"⟩], [true]⟩ ∧
    (Compiled.accepted ⟨some [⟨.print, false, some b!"x"⟩, ⟨.print, false, some b!"x%!"⟩, ⟨.print, false, some b!"y"⟩], [true]⟩) = none := by decide +kernel

/-- It is not refused if a warning follows: a superfluous argument makes up for the error, and the text before the unknown specifier is printed twice. -/
theorem C39_warning_fails : ∃ fmt r p, compileFormat fmt = .ok r ∧ true ∈ r.diags ∧ r.accepted = some p ∧
    ∀ x : LogCtx, x.remote = none → p.flatMap (LInstr.print x) = b!"abab%!csocket" :=
  ⟨b!"ab%!c%{x}h", _, _, rfl, by decide, rfl, by
    intro x hx
    show b!"abab%!c" ++ (x.remoteIp ++ []) = _
    unfold LogCtx.remoteIp
    rw [hx]
    rfl⟩

/-- Reading goes beyond the end of the format only if it ends in a percent sign or in an argument. -/
theorem C39_end (fmt : Bytes) (h : compileFormat fmt = .ub) : ∃ pre, fmt = pre ++ b!"%" ∨ ∃ a, fmt = pre ++ b!"%{" ++ a ++ b!"}" :=
  loop_ub _ _ _ _ (by omega) h

/-- And it does, whatever valid items precede the percent sign. -/
theorem C39_trailing_fails (is : List LItem) (x : LogCtx) (h : ∀ i ∈ is, i.Writable ∧ (i.value x).isSome) : compileFormat (renderAll is ++ b!"%") = .ub := by
  simp only [item_ok_iff] at h
  obtain ⟨f', t', P, D, h1, h2, -, h4, -⟩ := log_items b!"%" is [] ((renderAll is ++ b!"%").length + 1) [] [] (by simp) h (by simp)
  obtain ⟨g, rfl⟩ : ∃ g, f' = g + 1 := ⟨f' - 1, by omega⟩
  unfold compileFormat
  rw [List.nil_append] at h4
  rw [h4]
  conv => lhs; unfold compileLoop
  obtain ⟨e1, e2⟩ := takeWhile_lit (r := []) h1
  simp only [e1, e2, show logArg [] = some (none, []) from rfl]

/-- `%D` is documented as the time taken in microseconds, but it prints milliseconds. -/
theorem C39_micro_fails : ∃ r p, compileFormat b!"%D" = .ok r ∧ r.accepted = some p ∧
    (∀ x, GoodCtx x → p.flatMap (LInstr.print x) = dec (elapsed x / 1000000)) ∧ (LItem.conv none ch%'D').value exLog = some b!"1250000" ∧
    p.flatMap (LInstr.print exLog) = b!"1250" := by
  refine ⟨_, _, rfl, rfl, ?_, by decide +kernel, by decide +kernel⟩
  intro x hx
  have := took_print hx b!"ms"
  have h2 : some (dec (elapsed x / 1000000)) = some ((mkInstr .processMs false none).print x) := this
  rw [Option.some.injEq] at h2
  show outOf x [mkInstr .processMs false none] = _
  rw [one_out, ← h2]

/-- `%{sec}t` is documented as the number of seconds since the Epoch, but `sec` is taken as a format of strftime, in which it is plain text. -/
theorem C39_sec_fails : ∃ r p, compileFormat b!"%{sec}t" = .ok r ∧ r.accepted = some p ∧
    (∀ x, p.flatMap (LInstr.print x) = x.strftime b!"sec" x.start.sec) ∧ (LItem.conv (some b!"sec") ch%'t').value exLog = some b!"100" :=
  ⟨_, _, rfl, rfl, fun x => one_out x _, by decide +kernel⟩

/-! ### The table of formats -/

/-- Names of formats are unique, there are at most 32 of them, and defining one changes no other. -/
theorem C39_table (t t' : LogTab) (name fmt : Bytes) (h : t.define name fmt = .ok (some t')) (hu : (t.fmts.map (·.1)).Nodup) (hn : t.fmts.length ≤ 32) :
    (t'.fmts.map (·.1)).Nodup ∧ t'.fmts.length ≤ 32 ∧ t.fmts <+: t'.fmts ∧
      ∃ r p, compileFormat fmt = .ok r ∧ r.accepted = some p ∧ t'.fmts[t.fmts.length]? = some (name, p) ∧ t'.find name = some t.fmts.length := by
  unfold LogTab.define at h
  split at h
  · cases h
  · rename_i hf
    split at h
    · cases h
    · rename_i hl
      split at h
      · cases h
      · rename_i r hr
        split at h
        · cases h
        · rename_i p hp
          cases h
          have hnot : ∀ e ∈ t.fmts, e.1 ≠ name := by
            intro e he hen
            apply hf
            unfold LogTab.find
            have : (t.fmts.findIdx? (·.1 == name)).isSome := by
              rw [List.findIdx?_isSome, List.any_eq_true]
              exact ⟨e, he, by simpa using hen⟩
            obtain ⟨i, hi⟩ := Option.isSome_iff_exists.mp this
            rw [hi]; rfl
          refine ⟨?_, ?_, List.prefix_append _ _, r, p, hr, hp, by simp, ?_⟩
          · rw [List.map_append, List.nodup_append]
            refine ⟨hu, by simp, ?_⟩
            intro a ha b hb
            obtain ⟨e, he, rfl⟩ := List.mem_map.mp ha
            simp only [List.map_cons, List.map_nil, List.mem_singleton] at hb
            rw [hb]
            exact hnot e he
          · simp only [List.length_append, List.length_singleton]; omega
          · unfold LogTab.find
            dsimp only
            rw [List.findIdx?_append]
            have h0 : t.fmts.findIdx? (·.1 == name) = none := by
              rw [List.findIdx?_eq_none_iff]
              intro e he
              simpa using hnot e he
            rw [h0]
            simp

/-- The built-in formats compile, and log levels 0 to 5 are what is documented. -/
theorem C39_canned : ∃ t, cannedTab cannedFormats ⟨[]⟩ = .ok (some t) ∧ t.fmts.map (·.1) = [b!"null", b!"regular", b!"extended", b!"vhost_combined", b!"combined", b!"detailed"] :=
  ⟨_, rfl, rfl⟩

/-- With anonymisation, what is logged of an address is its text with the last part replaced by 0. -/
theorem C39_anonymous (a : Bytes) : Anonymised a (anonIp true a) := by
  have up : ∀ (z : UInt8) (s : Bytes), (z ∈ s → ∃ p q, s = p ++ z :: q ∧ z ∉ q ∧ upToLast (· == z) s = some (p ++ [z])) ∧ (z ∉ s → upToLast (· == z) s = none) := by
    intro z s
    constructor
    · intro hz
      have hany : s.any (· == z) = true := List.any_eq_true.mpr ⟨z, hz, by simp⟩
      have hspl : s.reverse = s.reverse.takeWhile (fun c => !(c == z)) ++ s.reverse.dropWhile (fun c => !(c == z)) := (List.takeWhile_append_dropWhile).symm
      cases hd : s.reverse.dropWhile (fun c => !(c == z)) with
      | nil =>
        exfalso
        rw [hd, List.append_nil] at hspl
        have hm : z ∈ s.reverse := by simpa using hz
        rw [hspl] at hm
        have := mem_tw (p := fun c => !(c == z)) hm
        simp at this
      | cons y ys =>
        have hy : y = z := by
          have := dw_head (p := fun c => !(c == z)) hd
          simpa using this
        subst hy
        refine ⟨ys.reverse, (s.reverse.takeWhile (fun c => !(c == y))).reverse, ?_, ?_, ?_⟩
        · rw [hd] at hspl
          have := congrArg List.reverse hspl
          rw [List.reverse_reverse] at this
          conv => lhs; rw [this]
          simp
        · intro hm
          rw [List.mem_reverse] at hm
          have := mem_tw (p := fun c => !(c == y)) hm
          simp at this
        · unfold upToLast
          rw [if_pos hany]
          simp only [hd]
          simp
    · intro hz
      unfold upToLast
      rw [if_neg]
      intro hany
      obtain ⟨c, hc, e⟩ := List.any_eq_true.mp hany
      simp only [beq_iff_eq] at e
      exact hz (e ▸ hc)
  unfold anonIp Anonymised
  rw [if_pos rfl]
  by_cases h1 : ch%'.' ∈ a
  · obtain ⟨p, q, e1, e2, e3⟩ := (up ch%'.' a).1 h1
    rw [e3]
    exact Or.inl ⟨p, q, e1, e2, by simp⟩
  · rw [(up ch%'.' a).2 h1]
    by_cases h2 : ch%':' ∈ a
    · obtain ⟨p, q, e1, e2, e3⟩ := (up ch%':' a).1 h2
      dsimp only
      rw [e3]
      exact Or.inr (Or.inl ⟨h1, p, q, e1, e2, by simp⟩)
    · dsimp only
      rw [(up ch%':' a).2 h2]
      exact Or.inr (Or.inr ⟨h1, h2, rfl⟩)

example : anonIp true b!"192.0.2.77" = b!"192.0.2.0" ∧ anonIp true b!"2001:db8::7" = b!"2001:db8::0" ∧ anonIp false b!"192.0.2.77" = b!"192.0.2.77" := by decide

/-! ### Which requests are logged -/

/-- With a LogSuppress statement, a request with a status from 100 to 599 is logged exactly if its listener's format is not empty and no word of the
statement stands for the class of its status. -/
theorem C59_suppress (fmts : List (List LInstr)) (level : Nat) (prog : List LInstr) (hl : fmts[level]? = some prog) (ws : List Bytes) (m : Nat)
    (hm : suppressMask 0 ws = some m) (x : LogCtx) (hc : 100 ≤ x.respCode ∧ x.respCode < 600) :
    ((prog = [] ∨ ∃ w ∈ ws, suppressClass w (x.respCode / 100)) → httpLog fmts level m x = none) ∧
    (¬ (prog = [] ∨ ∃ w ∈ ws, suppressClass w (x.respCode / 100)) → httpLog fmts level m x = some (prog.flatMap (LInstr.print x))) := by
  have hk : m.testBit (x.respCode / 100) = true ↔ ∃ w ∈ ws, suppressClass w (x.respCode / 100) := by
    have := mask_bits ws 0 m hm (x.respCode / 100) (by omega)
    simpa using this
  have hb : ((2 ^ (x.respCode / 100)) &&& m ≠ 0) ↔ m.testBit (x.respCode / 100) = true := by
    exact bit_and _ _
  unfold httpLog
  rw [hl]
  dsimp only
  constructor
  · rintro (h | h)
    · rw [if_pos h]
      split <;> rfl
    · rw [if_pos (hb.mpr (hk.mpr h))]
  · intro h
    rw [if_neg (fun hh => h (Or.inr (hk.mp (hb.mp hh)))), if_neg (fun hh => h (Or.inl hh))]

example : ∃ m, suppressMask 0 [b!"Success", b!"3"] = some m ∧ (httpLog [[], [mkInstr .status false none]] 1 m exLog).isSome ∧
    httpLog [[], [mkInstr .status false none]] 1 m { exLog with respCode := 304 } = none ∧ httpLog [[], [mkInstr .status false none]] 0 m exLog = none :=
  ⟨12, by decide +kernel⟩

/-- Only the documented words, and the digit 6, are accepted. -/
theorem C59_words (w : Bytes) : (suppressWord w).isSome ↔ w = b!"6" ∨ ∃ k, suppressClass w k := word_accepted w

/-- "all" does not cover other codes, which backends may send. -/
theorem C59_all_fails : suppressMask 0 [b!"all"] = some 62 ∧ suppressClass b!"all" 7 ∧
    (httpLog [[mkInstr .status false none]] 0 62 { exLog with respCode := 700 }).isSome := by
  refine ⟨by decide +kernel, Or.inl (by decide), by decide +kernel⟩

/-- The status that is logged is the one the client got, for the first request on a connection, if no status was stored before the handler failed. -/
theorem C59_status_partial (set : Option Nat) (res : Status) (h : res = .ok ∨ set = none) (hs : set ≠ some 0) : loggedCode 0 set res = sentCode set res := by
  cases set with
  | none =>
    unfold loggedCode sentCode
    cases res <;> rfl
  | some c =>
    rcases h with rfl | h
    · unfold loggedCode sentCode
      have : c ≠ 0 := fun e => hs (by rw [e])
      dsimp only [Option.getD_some]
      rw [if_neg this]
    · cases h

example : loggedCode 0 none .serviceUnavailable = 503 ∧ loggedCode 0 (some 404) .ok = 404 ∧ loggedCode 0 none .ok = 200 := by decide

/-- Otherwise it is that of the previous request on the connection, or the one the backend sent before it failed (for instance 100). -/
theorem C59_status_fails (before : Nat) (hb : before ≠ 0) (res : Status) :
    loggedCode before none res = before ∧ loggedCode 0 (some 100) .serviceUnavailable = 100 ∧ sentCode (some 100) .serviceUnavailable = 503 ∧
    (∃ r, sentCode none r ≠ before) := by
  refine ⟨?_, by decide, by decide, ?_⟩
  · unfold loggedCode
    dsimp only [Option.getD_none]
    rw [if_neg hb]
  · by_cases h : before = 200
    · exact ⟨.serviceUnavailable, by rw [h]; decide⟩
    · exact ⟨.ok, fun e => h e.symm⟩

end Pound.Props
