import Verif.Spec.Poundctl
import Verif.Proof.Headers
import Verif.Proof.Request
import Verif.Proof.Exchange
import Verif.Proof.ControlDisp
import Verif.Proof.ControlHist
import Verif.Proof.LexNum
import Verif.Proof.JsonMore
import Verif.Proof.Expand

namespace Pound

open Spec

/-! ### base64 -/

theorem b64Of_visible : ∀ n, n < 64 → 32 < (b64Of n).toNat ∧ (b64Of n).toNat < 127 ∧ b64Of n ≠ ch%'"' ∧ isSpace (b64Of n) = false := by
  have : ∀ n : Fin 64, 32 < (b64Of n).toNat ∧ (b64Of n).toNat < 127 ∧ b64Of n ≠ ch%'"' ∧ isSpace (b64Of n) = false := by decide +kernel
  intro n hn
  exact this ⟨n, hn⟩

theorem base64_chars : ∀ s : Bytes, ∀ c ∈ base64 s, 32 < c.toNat ∧ c.toNat < 127 ∧ c ≠ ch%'"' ∧ isSpace c = false
  | [], c, h => by cases h
  | [a], c, h => by
    have ha := a.toNat_lt
    simp only [base64, List.mem_cons, List.not_mem_nil, or_false] at h
    rcases h with rfl | rfl | rfl | rfl
    · exact b64Of_visible _ (by omega)
    · exact b64Of_visible _ (by omega)
    · decide
    · decide
  | [a, b], c, h => by
    have ha := a.toNat_lt
    have hb := b.toNat_lt
    simp only [base64, List.mem_cons, List.not_mem_nil, or_false] at h
    rcases h with rfl | rfl | rfl | rfl
    · exact b64Of_visible _ (by omega)
    · exact b64Of_visible _ (by omega)
    · exact b64Of_visible _ (by omega)
    · decide
  | a :: b :: d :: t, c, h => by
    have ha := a.toNat_lt
    have hb := b.toNat_lt
    have hd := d.toNat_lt
    simp only [base64, List.mem_cons] at h
    rcases h with rfl | rfl | rfl | rfl | h
    · exact b64Of_visible _ (by omega)
    · exact b64Of_visible _ (by omega)
    · exact b64Of_visible _ (by omega)
    · exact b64Of_visible _ (by omega)
    · exact base64_chars t c h

theorem base64_length : ∀ s : Bytes, (base64 s).length = (s.length + 2) / 3 * 4
  | [] => rfl
  | [_] => by simp [base64]
  | [_, _] => by simp [base64]
  | a :: b :: d :: t => by
    simp only [base64, List.length_cons, base64_length t]
    omega

theorem b64Lines_short {t : Bytes} (h0 : t ≠ []) (h : t.length ≤ 64) : ((b64Lines (t.length + 1) t).take maxBuf).dropLast = t := by
  unfold b64Lines
  rw [if_neg h0, List.take_of_length_le h, List.drop_eq_nil_of_le h]
  have : ∀ f, b64Lines f [] = [] := by intro f; cases f <;> rfl
  rw [this, List.append_nil, List.take_of_length_le (by simp [maxBuf]; omega), List.dropLast_concat]

/-- The header with the credentials -/
theorem ctlAuth_line {u : CtlUrl} (hc : ∀ p, u.pass = some p → (u.user.getD [] ++ ch%':' :: p).length ≤ 48) :
    (u.pass = none ∧ ctlAuth base64 u = []) ∨
    ∃ p, u.pass = some p ∧ ctlAuth base64 u = b!"Authorization: Basic " ++ base64 (u.user.getD [] ++ ch%':' :: p) ++ [13, 10] := by
  unfold ctlAuth
  cases hp : u.pass with
  | none => exact Or.inl ⟨rfl, rfl⟩
  | some p =>
    refine Or.inr ⟨p, rfl, ?_⟩
    have hl := hc p hp
    have e : u.user.getD [] ++ b!":" ++ p = u.user.getD [] ++ ch%':' :: p := by simp
    dsimp only
    rw [e, b64Lines_short]
    · intro h
      have h1 := base64_length (u.user.getD [] ++ ch%':' :: p)
      rw [h] at h1
      simp at h1
      omega
    · rw [base64_length]; omega

/-! ### Headers of requests -/

/-- The code that belongs to a name -/
def codeOfName (n : Bytes) : HCode :=
  match hdTypes.find? (fun t => n.length == t.1.length && ciEq n t.1) with
  | some t => t.2
  | none => .other

theorem qualify_code_of {h : Header} {n v : Bytes} (hl : HeaderLine h.text n v) : (qualify h).code = codeOfName n := by
  obtain ⟨vs, a1, a2, a3, -⟩ := headerMatch_of_line hl
  unfold qualify codeOfName
  simp only [a1, a2]
  cases hdTypes.find? (fun t => n.length == t.1.length && ciEq n t.1) <;> rfl

theorem finish_code {t n v : Bytes} (hl : HeaderLine t n v) (cmp : Option Bytes)
    (hc : cmp = none ∨ cmp = some ((headerAlloc t).name ++ b!": " ++ (headerAlloc t).rawValue)) :
    (finishHeader ⟨headerAlloc t, cmp⟩).code = codeOfName n := by
  have hg := (alloc_good hl).1
  have hx := hg.name_of (n := n) (v := v) (by rw [(alloc_good hl).2]; exact hl)
  rcases hc with rfl | rfl
  · exact qualify_code_of (h := ⟨t, .other, 0, 0, 0, 0⟩) hl
  · unfold finishHeader
    dsimp only
    rw [hx.1, hx.2]
    unfold Header.change
    refine qualify_code_of (v := v) ?_
    obtain ⟨ws, -, l2, l3, l4, l5⟩ := hl
    exact ⟨[32], by simp, l2, l3, by simp, l5⟩

theorem build_one (table : List Bytes) {t n v : Bytes} (hl : HeaderLine t n v) :
    ∃ h, buildHeaders table [t] = [h] ∧ h.code = codeOfName n := by
  have hni : (headerAlloc t).code ≠ .illegal := (alloc_good hl).1.1
  unfold buildHeaders
  simp only [List.foldl_cons, List.foldl_nil]
  unfold readHeaderStep
  dsimp only
  rw [if_neg hni]
  split
  · exact ⟨_, rfl, finish_code hl _ (Or.inr rfl)⟩
  · exact ⟨_, rfl, finish_code hl _ (Or.inl rfl)⟩

theorem build_two (table : List Bytes) {t n v t' n' v' : Bytes} (hl : HeaderLine t n v) (hl' : HeaderLine t' n' v') (hne : n.length ≠ n'.length) :
    ∃ h h', buildHeaders table [t, t'] = [h, h'] ∧ h.code = codeOfName n ∧ h'.code = codeOfName n' := by
  have hni : (headerAlloc t).code ≠ .illegal := (alloc_good hl).1.1
  have hni' : (headerAlloc t').code ≠ .illegal := (alloc_good hl').1.1
  have hx := ((alloc_good hl).1.name_of (n := n) (v := v) (by rw [(alloc_good hl).2]; exact hl)).1
  have hx' := ((alloc_good hl').1.name_of (n := n') (v := v') (by rw [(alloc_good hl').2]; exact hl')).1
  have h1 : ∃ cmp, readHeaderStep table [] t = [⟨headerAlloc t, cmp⟩] ∧
      (cmp = none ∨ cmp = some ((headerAlloc t).name ++ b!": " ++ (headerAlloc t).rawValue)) := by
    unfold readHeaderStep
    dsimp only
    rw [if_neg hni]
    split
    · exact ⟨_, rfl, Or.inr rfl⟩
    · exact ⟨_, rfl, Or.inl rfl⟩
  obtain ⟨cmp, e1, hc⟩ := h1
  have hno : addComposed [⟨headerAlloc t, cmp⟩] (headerAlloc t') = none := by
    unfold addComposed
    cases cmp with
    | none => rfl
    | some sb =>
      dsimp only
      rw [if_neg]
      · rfl
      · rw [hx, hx']; simp [hne]
  unfold buildHeaders
  simp only [List.foldl_cons, List.foldl_nil]
  rw [e1]
  unfold readHeaderStep
  dsimp only
  rw [if_neg hni']
  split
  · rw [hno]
    exact ⟨_, _, rfl, finish_code hl _ hc, finish_code hl' _ (Or.inr rfl)⟩
  · exact ⟨_, _, rfl, finish_code hl _ hc, finish_code hl' _ (Or.inl rfl)⟩

theorem scan_plain (hs : List Header) (hc : ∀ h ∈ hs, h.code = .host ∨ h.code = .authorization) : ∀ s : ScanState,
    scanHeaders s hs = .ok { s with headers := s.headers ++ hs } := by
  induction hs with
  | nil => intro s; simp [scanHeaders]
  | cons h t ih =>
    intro s
    have e : scanHeader s h = .ok { s with headers := s.headers ++ [h] } := by
      unfold scanHeader
      rcases hc h (by simp) with e | e <;> rw [e]
    unfold scanHeaders
    rw [e]
    dsimp only
    rw [ih (fun x hx => hc x (by simp [hx]))]
    simp

/-! ### Requests -/

theorem visible_text {s : Bytes} (h : Visible s) : ∀ c ∈ s, Text c := by
  intro c hc
  have := h c hc
  exact Or.inr ⟨by omega, this.2⟩

theorem visible_append {a b : Bytes} (ha : Visible a) (hb : Visible b) : Visible (a ++ b) := by
  intro c hc
  rcases List.mem_append.mp hc with h | h
  · exact ha c h
  · exact hb c h

/-- The request is understood by the server as it was meant. -/
theorem accept_ctl {cfg : LstnCfg} (hcfg : ControlListener cfg) {u : CtlUrl} (hu : PlainUrl u) {md : MethodDef} (hm : md ∈ methods)
    (hg : md.group ≤ 1) {what : Bytes} (hw : Visible what) (hl : what.length ≤ 4050) :
    ∃ line scan, acceptRequest cfg (ctlRequest base64 u md.name what) = .ok ⟨line, ⟨md.meth, ch%'/' :: what, 1⟩, scan, []⟩ ∧ scan.connClosed = false := by
  have hnm : ∀ m ∈ methods, (∀ c ∈ m.name, Text c) ∧ m.name.length ≤ 20 := by
    have : ∀ m ∈ methods, (∀ c ∈ m.name, 32 ≤ c.toNat ∧ c.toNat ≠ 127) ∧ m.name.length ≤ 20 := by decide +kernel
    intro m hm
    exact ⟨fun c hc => Or.inr ((this m hm).1 c hc), (this m hm).2⟩
  have hurlsp : ∀ c ∈ ch%'/' :: what, c ≠ 32 := by
    intro c hc e
    rcases List.mem_cons.mp hc with h | h
    · rw [e] at h; exact absurd h (by decide)
    · have := (hw c h).1
      rw [e] at this
      exact absurd this (by decide)
  -- the lines
  generalize hline : md.name ++ [32] ++ (ch%'/' :: what) ++ [32] ++ b!"HTTP/1." ++ [UInt8.ofNat (48 + 1)] = line
  have htext : ∀ c ∈ line, Text c := by
    rw [← hline]
    intro c hc
    have lit : ∀ l : Bytes, (∀ c ∈ l, 32 ≤ c.toNat ∧ c.toNat ≠ 127) → ∀ c ∈ l, Text c := fun l h c hc => Or.inr (h c hc)
    simp only [List.mem_append, List.mem_cons, List.not_mem_nil, or_false] at hc
    rcases hc with ((((h | h) | h) | h) | h) | h
    · exact (hnm md hm).1 c h
    · rw [h]; exact Or.inr (by decide)
    · rcases h with h | h
      · rw [h]; exact Or.inr (by decide)
      · exact visible_text hw c h
    · rw [h]; exact Or.inr (by decide)
    · rcases h with h | h | h | h | h | h | h <;> (rw [h]; exact Or.inr (by decide))
    · rw [h]; exact Or.inr (by decide)
  have hlen : line.length + 2 ≤ 4095 := by
    rw [← hline]
    have := (hnm md hm).2
    simp only [List.length_append, List.length_cons, List.length_nil]
    omega
  have hne : line ≠ [] := by rw [← hline]; simp
  have hhostl : HeaderLine (b!"Host: " ++ u.host) b!"Host" u.host := by
    refine ⟨[32], rfl, by decide, ?_, by simp, ?_⟩
    · intro c hc
      exact (isTChar_iff c).1 (by revert c; decide)
    · intro c hc
      have := hu.host.1 c (List.mem_of_mem_head? hc)
      constructor <;> (rintro rfl; exact absurd this.1 (by decide))
  have hhostw : WireLine 4095 ((b!"Host: " ++ u.host) ++ [13, 10]) (b!"Host: " ++ u.host) := by
    refine ⟨?_, Or.inr rfl, ?_⟩
    · intro c hc
      rcases List.mem_append.mp hc with h | h
      · have : ∀ c ∈ b!"Host: ", 32 ≤ c.toNat ∧ c.toNat ≠ 127 := by decide
        exact Or.inr (this c h)
      · exact visible_text hu.host.1 c h
    · have := hu.host.2
      simp only [List.length_append, List.length_cons, List.length_nil]
      omega
  have hend : WireLine 4095 [13, 10] [] := ⟨by simp, Or.inr rfl, by simp⟩
  have hrl : WireLine 4095 (line ++ [13, 10]) line := ⟨htext, Or.inr rfl, by simp; omega⟩
  have hparse : parseHttpRequest line cfg.verb = .ok ⟨md.meth, ch%'/' :: what, 1⟩ := by
    rw [parse_ok_aux hm (ciEq_refl _) ⟨by simp, by simp⟩ ⟨by simp, by simp⟩ (by simp) hurlsp (v := 1) (by omega) hline.symm, if_neg]
    have := hcfg.verb
    omega
  -- from the headers on
  have fin : ∀ (lines : List Bytes) (blk : Bytes), Block 4095 blk lines → ctlRequest base64 u md.name what = line ++ [13, 10] ++ blk →
      (∀ h ∈ buildHeaders cfg.table lines, h.code = .host ∨ h.code = .authorization) →
      ∃ line scan, acceptRequest cfg (ctlRequest base64 u md.name what) = .ok ⟨line, ⟨md.meth, ch%'/' :: what, 1⟩, scan, []⟩ ∧ scan.connClosed = false := by
    intro lines blk hb he hcodes
    have hread : httpRequestRead cfg.table (ctlRequest base64 u md.name what) = .ok line (buildHeaders cfg.table lines) [] := by
      rw [httpRequestRead_iff]
      refine ⟨lines, ⟨[], line ++ [13, 10], blk, .nil, hrl, hne, hb, Or.inl ?_⟩, rfl⟩
      rw [he]; simp
    unfold acceptRequest
    rw [hread]
    dsimp only
    rw [hparse]
    dsimp only
    rw [hcfg.pat]
    simp only [Bool.false_eq_true, if_false]
    rw [scan_plain _ hcodes]
    dsimp only
    unfold checkFraming
    simp only [ne_eq, not_true_eq_false, if_false]
    rw [hcfg.uri]
    simp only [Nat.lt_irrefl, false_and, if_false, gt_iff_lt]
    rw [if_neg (by simp [noContentLength])]
    exact ⟨_, _, rfl, rfl⟩
  have hreq : ctlRequest base64 u md.name what = line ++ [13, 10] ++ ((b!"Host: " ++ u.host) ++ [13, 10] ++ (ctlAuth base64 u ++ [13, 10])) := by
    unfold ctlRequest
    rw [hu.path, ← hline]
    simp
  have ch : codeOfName b!"Host" = .host := by decide
  have ca : codeOfName b!"Authorization" = .authorization := by decide
  rcases ctlAuth_line hu.creds with ⟨-, ea⟩ | ⟨p, hp, ea⟩
  · refine fin [b!"Host: " ++ u.host] _ (.more hhostw (by simp) (.done hend)) (by rw [hreq, ea]; simp) ?_
    obtain ⟨h, e, hc⟩ := build_one cfg.table hhostl
    rw [e]
    intro x hx
    rw [List.mem_singleton.mp hx, hc, ch]
    exact Or.inl rfl
  · generalize hk : base64 (u.user.getD [] ++ ch%':' :: p) = tok at ea
    have htok : ∀ c ∈ tok, 32 < c.toNat ∧ c.toNat < 127 := by
      rw [← hk]; intro c hc; exact ⟨(base64_chars _ c hc).1, (base64_chars _ c hc).2.1⟩
    have htl : tok.length ≤ 64 := by
      rw [← hk, base64_length]
      have := hu.creds p hp
      omega
    have haw : WireLine 4095 ((b!"Authorization: Basic " ++ tok) ++ [13, 10]) (b!"Authorization: Basic " ++ tok) := by
      refine ⟨?_, Or.inr rfl, ?_⟩
      · intro c hc
        rcases List.mem_append.mp hc with h | h
        · have : ∀ c ∈ b!"Authorization: Basic ", 32 ≤ c.toNat ∧ c.toNat ≠ 127 := by decide
          exact Or.inr (this c h)
        · have := htok c h
          exact Or.inr ⟨by omega, by omega⟩
      · simp only [List.length_append, List.length_cons, List.length_nil]
        omega
    have hal : HeaderLine (b!"Authorization: Basic " ++ tok) b!"Authorization" (b!"Basic " ++ tok) := by
      refine ⟨[32], rfl, by decide, ?_, by simp, ?_⟩
      · intro c hc
        exact (isTChar_iff c).1 (by revert c; decide)
      · intro c hc
        obtain rfl := Option.some.inj hc
        decide
    refine fin [b!"Host: " ++ u.host, b!"Authorization: Basic " ++ tok] _ (.more hhostw (by simp) (.more haw (by simp) (.done hend)))
      (by rw [hreq, ea]) ?_
    obtain ⟨h, h', e, hc, hc'⟩ := build_two cfg.table hhostl hal (by decide)
    rw [e]
    intro x hx
    rcases List.mem_cons.mp hx with rfl | hx
    · exact Or.inl (by rw [hc, ch])
    · rw [List.mem_singleton.mp hx]
      exact Or.inr (by rw [hc', ca])

theorem accept_nil (cfg : LstnCfg) : acceptRequest cfg [] = .noRequest := by
  unfold acceptRequest httpRequestRead skipBlank
  rw [getLine_nil _ (by decide)]

/-! ### Responses -/

theorem bioGets_line {l rest : Bytes} (hl : (10 : UInt8) ∉ l) : ∀ {n : Nat}, l.length < n → bioGets n (l ++ 10 :: rest) = (l ++ [10], rest) := by
  induction l with
  | nil =>
    intro n hn
    cases n with
    | zero => simp at hn
    | succ n => rfl
  | cons c t ih =>
    intro n hn
    cases n with
    | zero => simp at hn
    | succ n =>
      have hc : c ≠ 10 := fun e => hl (by simp [e])
      rw [List.cons_append, bioGets, if_neg hc, ih (fun h => hl (by simp [h])) (by simpa using hn)]
      rfl

theorem xgets_line {l rest : Bytes} (hl : (10 : UInt8) ∉ l) (hn : l.length ≤ 4093) : xgets (l ++ [13, 10] ++ rest) = (l, rest) := by
  have e : l ++ [13, 10] ++ rest = (l ++ [13]) ++ 10 :: rest := by simp
  unfold xgets
  rw [e, bioGets_line (l := l ++ [13]) (by simpa using hl) (by simp [maxBuf]; omega)]
  simp [chopEnd]

theorem respHeaders_end (f : Nat) (v : RespVars) (rest : Bytes) : ctlRespHeaders (f + 1) v ([13, 10] ++ rest) = some (v, rest) := by
  have := xgets_line (l := []) (rest := rest) (by simp) (by simp)
  rw [List.nil_append] at this
  unfold ctlRespHeaders
  rw [this]
  rfl

theorem respHeaders_step (f : Nat) (v v' : RespVars) {l rest : Bytes} (h0 : l ≠ []) (hl : (10 : UInt8) ∉ l) (hn : l.length ≤ 4093)
    (hv : ctlRespHeader v l = some v') : ctlRespHeaders (f + 1) v (l ++ [13, 10] ++ rest) = ctlRespHeaders f v' rest := by
  rw [ctlRespHeaders, xgets_line hl hn]
  dsimp only
  rw [if_neg h0, hv]

theorem dec_isIndex (n : Nat) : IsIndex (dec n) n := by
  rw [isIndex_iff]
  refine ⟨dec_ne n, decAux_digits _ _, ?_⟩
  exact (decVal_decAux (n + 1) n (by omega)).symm

theorem strtol_sp (s : Bytes) (h0 : s ≠ []) (h : ∀ c, s.head? = some c → isSpace c = false) (hd : (strtol10 s).2.2 = []) : strtol10 (32 :: s) = strtol10 s := by
  have e : (32 :: s : Bytes).dropWhile isSpace = s.dropWhile isSpace := by
    rw [List.dropWhile_cons, if_pos (by decide)]
  have key : ∀ neg t, (strtolDigits neg s t).2.2 = [] → s ≠ [] → strtolDigits neg (32 :: s) t = strtolDigits neg s t := by
    intro neg t h hs
    by_cases hd : t.takeWhile isDigit = []
    · rw [strtolDigits_none hd] at h
      exact absurd h hs
    · unfold strtolDigits
      dsimp only
      rw [if_neg hd, if_neg hd]
  cases s with
  | nil => exact absurd rfl h0
  | cons c t =>
    have hc := h c rfl
    have e' : (c :: t).dropWhile isSpace = c :: t := by rw [List.dropWhile_cons, if_neg (by simp [hc])]
    rw [e'] at e
    rw [strtol_sign e' ] at hd ⊢
    rw [strtol_sign e]
    by_cases h1 : c = 45
    · rw [if_pos h1] at hd ⊢; rw [if_pos h1]; exact key _ _ hd (by simp)
    · rw [if_neg h1] at hd ⊢; rw [if_neg h1]
      by_cases h2 : c = 43
      · rw [if_pos h2] at hd ⊢; rw [if_pos h2]; exact key _ _ hd (by simp)
      · rw [if_neg h2] at hd ⊢; rw [if_neg h2]; exact key _ _ hd (by simp)

theorem noNul_takeWhile {s : Bytes} (h : (0 : UInt8) ∉ s) : s.takeWhile notNul = s := by
  apply takeWhile_all'
  intro c hc
  simp only [notNul, bne_iff_ne, ne_eq]
  intro e; exact h (e ▸ hc)

theorem length_header (n : Nat) (hn : n < 2 ^ 31) (v : RespVars) : ctlRespHeader v (b!"Content-Length: " ++ dec n) = some { v with len := n } := by
  have hd := dec_isIndex n
  obtain ⟨h1, h2, h3⟩ := (isIndex_iff _ _).mp hd
  have e1 : strtol10 (dec n) = ((n : Int), false, []) := by
    rw [strtol_num hd, if_neg]
    simp only [ctlLongMax]; omega
  have hds : ∀ c, isDigit c = true → isSpace c = false ∧ c ≠ 0 := by apply forall_byte; decide +kernel
  have e2 : strtol10 (32 :: dec n) = ((n : Int), false, []) := by
    rw [strtol_sp _ h1, e1]
    · intro c hc
      exact (hds c (h2 c (List.mem_of_mem_head? hc))).1
    · rw [e1]
  have hz : (b!"Content-Length: " ++ dec n).takeWhile notNul = b!"Content-Length: " ++ dec n := by
    apply noNul_takeWhile
    intro h
    rcases List.mem_append.mp h with h | h
    · revert h; decide
    · exact (hds 0 (h2 0 h)).2 rfl
  have hv : hdrVal b!"Content-Length" (b!"Content-Length: " ++ dec n) = some (32 :: dec n) := by
    have : b!"Content-Length: " ++ dec n = b!"Content-Length" ++ ch%':' :: 32 :: dec n := rfl
    unfold hdrVal
    rw [this]
    rw [if_pos ⟨by rw [List.take_left]; decide, by simp⟩]
    simp
  unfold ctlRespHeader
  dsimp only
  rw [hz, hv]
  dsimp only
  rw [e2]
  simp

/-- A listing sent by the server is read as it was sent. -/
theorem read_json {D} (N : NumLib D) (mem : Nat → Bytes) {text more : Bytes} (hz : (0 : UInt8) ∉ text) (hl : text.length < 2 ^ 31) {v : JVal D}
    (hv : jsonParse N text = .ok v []) : readResponse N mem (jsonReply text ++ more) = .value v := by
  have e : jsonReply text ++ more = b!"HTTP/1.1 200 OK" ++ [13, 10] ++ (b!"Content-Type: application/json" ++ [13, 10] ++
      ((b!"Content-Length: " ++ dec text.length) ++ [13, 10] ++ (b!"Connection: close" ++ [13, 10] ++ ([13, 10] ++ (text ++ more))))) := by
    unfold jsonReply
    simp only [List.append_assoc]
  have hdl : (dec text.length).length ≤ 10 := dec_len (by omega) (by omega)
  have hd10 : (10 : UInt8) ∉ dec text.length := by
    intro h
    have := ((isIndex_iff _ _).mp (dec_isIndex text.length)).2.1 _ h
    exact absurd this (by decide)
  unfold readResponse
  dsimp only
  rw [e, xgets_line (by decide) (by decide)]
  dsimp only
  have hr : responseLine b!"HTTP/1.1 200 OK" = some (1, 200) := by decide +kernel
  rw [hr]
  dsimp only
  rw [if_neg (by simp)]
  generalize hrest : (b!"Content-Type: application/json" ++ [13, 10] ++
      ((b!"Content-Length: " ++ dec text.length) ++ [13, 10] ++ (b!"Connection: close" ++ [13, 10] ++ ([13, 10] ++ (text ++ more))))) = rest
  have hlen : ∃ f, rest.length + 1 = f + 4 := ⟨rest.length - 3, by rw [← hrest]; simp⟩
  obtain ⟨f, hf⟩ := hlen
  rw [hf, ← hrest]
  have c1 : ∀ v, ctlRespHeader v b!"Content-Type: application/json" = some v := fun v => rfl
  have c3 : ∀ v, ctlRespHeader v b!"Connection: close" = some { v with close := true } := fun v => rfl
  rw [respHeaders_step (f + 3) _ _ (by decide) (by decide) (by decide) (c1 _)]
  rw [respHeaders_step (f + 2) _ _ (by simp) (by
    intro h
    rcases List.mem_append.mp h with h | h
    · revert h; decide
    · exact hd10 h) (by simp only [List.length_append, List.length_cons, List.length_nil]; omega) (length_header _ hl _)]
  rw [respHeaders_step (f + 1) _ _ (by decide) (by decide) (by decide) (c3 _)]
  rw [respHeaders_end]
  dsimp only
  unfold respContent
  rw [if_pos (by simp), if_neg (by simp; omega)]
  simp only [Int.toNat_natCast, List.take_left, Nat.sub_self, List.take_zero, List.append_nil]
  rw [noNul_takeWhile hz, hv]

/-- Error replies -/
theorem read_error {D} (N : NumLib D) (mem : Nat → Bytes) (v : Nat) (hv : v ≤ 1) (st : Status) (hst : st ≠ .ok) (page : Bytes) :
    readResponse N mem (errReply v st page) = .fail := by
  obtain ⟨rest, he⟩ : ∃ rest, errReply v st page = (b!"HTTP/1." ++ dec v ++ b!" " ++ dec (statusInfo st).1 ++ b!" " ++ (statusInfo st).2) ++ [13, 10] ++ rest := by
    unfold errReply httpReply replyStart
    refine ⟨b!"Content-Type: " ++ (b!"text/html" ++ ([13, 10] ++ ((if v = 1 then
      b!"Content-Length: " ++ dec page.length ++ [13, 10] ++ b!"Connection: close" ++ [13, 10] else []) ++ (errHeaders ++ ([13, 10] ++ page))))), ?_⟩
    simp only [List.append_assoc]
  rw [he]
  have h01 : v = 0 ∨ v = 1 := by omega
  have key : ∀ l : Bytes, (10 : UInt8) ∉ l → l.length ≤ 4093 → (∀ c, responseLine l = some c → c.2 ≠ 200) →
      readResponse N mem (l ++ [13, 10] ++ rest) = .fail := by
    intro l h1 h2 h3
    unfold readResponse
    dsimp only
    rw [xgets_line h1 h2]
    dsimp only
    split
    · rfl
    · rename_i ver code hr
      rw [if_pos (h3 _ hr)]
  have fin : ∀ l : Bytes, (10 : UInt8) ∉ l → l.length ≤ 4093 → ((responseLine l).all fun c => c.2 != 200) = true →
      readResponse N mem (l ++ [13, 10] ++ rest) = .fail := by
    intro l h1 h2 h3
    refine key l h1 h2 ?_
    intro c hc
    rw [hc] at h3
    simpa using h3
  rcases h01 with rfl | rfl <;> cases st <;> first | exact absurd rfl hst | exact fin _ (by decide) (by decide) (by decide +kernel)

/-! ### Commands -/

theorem serve_one {D} {E : CtlServer D} (hE : ControlListener E.cfg) {u : CtlUrl} (hu : PlainUrl u) {md : MethodDef} (hm : md ∈ methods)
    (hg : md.group ≤ 1) {what : Bytes} (hw : Visible what) (hl : what.length ≤ 4050) (now : TS) (c : Conf) (f : Nat) :
    ctlServe E now (f + 2) c (ctlRequest base64 u md.name what) =
      match controlResponse now c (cmethOf md.meth) (ch%'/' :: what) with
      | .ub => .ub
      | .ok (c', r) => .ok (c', match r.shown with
        | none => errReply 1 r.status (E.page r.status)
        | some (v, ind) => jsonReply (fmtVal E.num ind 0 (E.shows c' v))) := by
  obtain ⟨line, scan, ha, hcl⟩ := accept_ctl hE hu hm hg hw hl
  have hnil : ∀ f c, ctlServe E now (f + 1) c [] = .ok (c, []) := by
    intro f c
    unfold ctlServe
    rw [accept_nil]
  rw [ctlServe, ha]
  dsimp only
  generalize controlResponse now c (cmethOf md.meth) (ch%'/' :: what) = x
  cases x with
  | ub => rfl
  | ok y =>
    obtain ⟨c', r⟩ := y
    dsimp only
    cases hr : r.shown with
    | none => rfl
    | some z =>
      obtain ⟨v, ind⟩ := z
      dsimp only
      rw [hcl, if_neg (by simp), hnil]
      simp

theorem request_length (u : CtlUrl) (m what : Bytes) : ∃ f, (ctlRequest base64 u m what).length + 1 = f + 2 := by
  refine ⟨(ctlRequest base64 u m what).length - 1, ?_⟩
  have : 1 ≤ (ctlRequest base64 u m what).length := by
    unfold ctlRequest
    simp only [List.length_append, List.length_cons, List.length_nil]
    omega
  omega

/-- The command was refused by the server. -/
theorem session_error {D} {E : CtlServer D} (hE : ControlListener E.cfg) {u : CtlUrl} (hu : PlainUrl u) {md : MethodDef} (hm : md ∈ methods)
    (hg : md.group ≤ 1) {what : Bytes} (hw : Visible what) (hl : what.length ≤ 4050) {now : TS} {c c' : Conf} {argv args : List Bytes} {v : CtlVerb}
    (h1 : ctlCommand argv = some (v, args)) (h2 : ctlSends v args = some (md.name, what)) {st : Status} (hst : st ≠ .ok)
    (hc : controlResponse now c (cmethOf md.meth) (ch%'/' :: what) = .ok (c', ⟨st, none⟩)) (mem : Nat → Bytes) (canList : Bool) :
    ctlSession E mem base64 canList u now c argv = .ok (c', ⟨1, none⟩) := by
  obtain ⟨f, hf⟩ := request_length u md.name what
  unfold ctlSession poundctl
  rw [h1]
  dsimp only
  rw [h2]
  dsimp only
  rw [hf, serve_one hE hu hm hg hw hl, hc]
  dsimp only
  rw [read_error _ _ _ (by omega) _ hst]
  cases v <;> rfl

/-- The command was done. -/
theorem session_done {D} {E : CtlServer D} (hE : ControlListener E.cfg) {u : CtlUrl} (hu : PlainUrl u) {md : MethodDef} (hm : md ∈ methods)
    (hg : md.group ≤ 1) {what : Bytes} (hw : Visible what) (hl : what.length ≤ 4050) {now : TS} {c c' : Conf} {argv args : List Bytes} {v : CtlVerb}
    (h1 : ctlCommand argv = some (v, args)) (h2 : ctlSends v args = some (md.name, what)) {sh : Shown} (hL : Listable E c')
    (hc : controlResponse now c (cmethOf md.meth) (ch%'/' :: what) = .ok (c', ⟨.ok, some (sh, 0)⟩)) (mem : Nat → Bytes) (canList : Bool)
    {out : CtlOut D} (ho : ctlFinish canList v (.value (plain (E.shows c' sh))) = .ok out) :
    ctlSession E mem base64 canList u now c argv = .ok (c', out) := by
  obtain ⟨f, hf⟩ := request_length u md.name what
  have hp : jsonParse E.num (fmtVal E.num 0 0 (E.shows c' sh)) = .ok (plain (E.shows c' sh)) [] := by
    have := jsonParse_fmt E.num 0 0 (hL.fits sh) (rest := []) (Or.inl rfl)
    rwa [List.append_nil] at this
  have hr := read_json E.num mem (more := []) (hL.text sh).1 (hL.text sh).2 hp
  rw [List.append_nil] at hr
  unfold ctlSession poundctl
  rw [h1]
  dsimp only
  rw [h2]
  dsimp only
  rw [hf, serve_one hE hu hm hg hw hl, hc]
  dsimp only
  rw [hr, ho]

theorem visible_slashes {segs : List Bytes} (h : ∀ s ∈ segs, Visible s) : Visible (slashes segs) := by
  intro c hc
  unfold slashes at hc
  obtain ⟨s, hs, hx⟩ := List.mem_flatMap.mp hc
  rcases List.mem_cons.mp hx with rfl | hx
  · decide
  · exact h s hs c hx

/-! ### Paths of session commands -/

theorem oiGetn_index {s r : Bytes} (h : IntIndex s) (last : Bool) (hr : r = [] ∨ last = false ∧ r.head? = some ch%'/') : oiGetn last (s ++ r) = some r := by
  obtain ⟨n, hn, hlt⟩ := h
  have he : EndOr r := by
    intro c hc
    rcases hr with rfl | ⟨-, h⟩
    · cases hc
    · rw [h] at hc; exact Or.inl (Option.some.inj hc).symm
  have hs : strtol10 (s ++ r) = ((n : Int), false, r) := by
    rw [strtol_index hn he, if_neg]
    simp only [ctlLongMax]; omega
  unfold oiGetn
  dsimp only
  rw [hs]
  dsimp only
  rw [if_neg (by simp; omega)]
  cases r with
  | nil => rfl
  | cons c t =>
    dsimp only
    rcases hr with h | ⟨h1, h2⟩
    · cases h
    · rw [if_pos ⟨h1, Option.some.inj h2⟩]

theorem index_not_dash {s : Bytes} (h : IntIndex s) (r : Bytes) : (s ++ r).head? ≠ some ch%'-' := by
  obtain ⟨n, ⟨h1, h2, -⟩, -⟩ := h
  cases s with
  | nil => exact absurd rfl h1
  | cons c t =>
    intro e
    have := h2 c (by simp)
    rw [Option.some.inj e] at this
    exact absurd this (by decide)

theorem checkUri_first {a r : Bytes} (ha : a = b!"-" ∨ IntIndex a) (hr : r = [] ∨ r.head? = some ch%'/') : checkUri (ch%'/' :: (a ++ r)) = checkUriSvc r := by
  unfold checkUri
  dsimp only
  rw [if_neg (by simp)]
  rcases ha with rfl | ha
  · rw [if_pos (by rfl)]
    rfl
  · rw [if_neg (index_not_dash ha r), oiGetn_index ha false (by rcases hr with h | h; exact Or.inl h; exact Or.inr ⟨rfl, h⟩)]

theorem checkUri_num : ∀ segs, NumPath segs → segs.length ≤ 3 → checkUri (slashes segs) = some segs.length
  | [], h, _ => h.elim
  | [a], h, _ => by
    have := checkUri_first (r := []) h.1 (Or.inl rfl)
    simp only [List.append_nil] at this
    simp only [slashes, List.flatMap_cons, List.flatMap_nil, List.append_nil]
    rw [this]
    rfl
  | [a, b], h, _ => by
    have e : slashes [a, b] = ch%'/' :: (a ++ (ch%'/' :: b)) := by simp [slashes]
    rw [e, checkUri_first h.1 (Or.inr rfl)]
    have hb := oiGetn_index (r := []) (h.2 b (by simp)) false (Or.inl rfl)
    rw [List.append_nil] at hb
    unfold checkUriSvc
    simp only [ne_eq, not_true_eq_false, if_false]
    rw [hb]
    rfl
  | [a, b, d], h, _ => by
    have e : slashes [a, b, d] = ch%'/' :: (a ++ (ch%'/' :: (b ++ ch%'/' :: d))) := by simp [slashes]
    rw [e, checkUri_first h.1 (Or.inr rfl)]
    have hb := oiGetn_index (r := ch%'/' :: d) (h.2 b (by simp)) false (Or.inr ⟨rfl, rfl⟩)
    have hd := oiGetn_index (r := []) (h.2 d (by simp)) true (Or.inl rfl)
    rw [List.append_nil] at hd
    unfold checkUriSvc
    simp only [ne_eq, not_true_eq_false, if_false]
    rw [hb]
    dsimp only
    rw [hd]
    rfl
  | a :: b :: d :: e :: t, _, hl => by simp at hl

/-! ### URLs -/

theorem takeWhile_ne {x : UInt8} {a b : Bytes} (h : x ∉ a) (hb : ∀ c, b.head? = some c → c = x) : (a ++ b).takeWhile (· != x) = a := by
  apply takeWhile_app
  · intro c hc
    simp only [bne_iff_ne, ne_eq]
    intro e; exact h (e ▸ hc)
  · intro c t e
    subst e
    simp [hb c rfl]

theorem urlParseHost_text (resolve : Bool → Bytes → Bytes → Bool) (tls : Bool) (user pass : Option Bytes) {host path : Bytes} {port : Option Bytes}
    (h1 : ch%'/' ∉ host ∧ ch%':' ∉ host) (h2 : ∀ p, port = some p → ch%'/' ∉ p) (h3 : ∀ c, path.head? = some c → c = ch%'/')
    (hr : ∀ v6 h p, resolve v6 h p = true) :
    urlParseHost resolve tls user pass (host ++ portText port ++ path) =
      some ⟨tls, .inet host (port.getD (if tls then b!"443" else b!"80")), host, path, user, pass⟩ := by
  unfold urlParseHost
  have e1 : (host ++ portText port ++ path).takeWhile (· != ch%'/') =
      host ++ portText port := by
    apply takeWhile_ne _ h3
    intro h
    rcases List.mem_append.mp h with h | h
    · exact h1.1 h
    · cases port with
      | none => cases h
      | some p =>
        rcases List.mem_cons.mp h with h | h
        · exact absurd h (by decide)
        · exact h2 p rfl h
  dsimp only
  rw [e1, hr, if_pos rfl, List.drop_left]
  have e2 : (host ++ portText port).takeWhile (· != ch%':') = host := by
    apply takeWhile_ne h1.2
    cases port with
    | none => intro c h; cases h
    | some p => intro c h; exact (Option.some.inj h).symm
  rw [e2, List.drop_left]
  cases port <;> rfl

theorem urlParse_scheme (resolve : Bool → Bytes → Bytes → Bool) (tls : Bool) (rest : Bytes) :
    urlParse resolve ((if tls then b!"https://" else b!"http://") ++ rest) = urlParseCreds resolve tls rest := by
  unfold urlParse
  cases tls
  · have e : ((if false = true then b!"https://" else b!"http://") ++ rest).takeWhile (· != ch%':') = b!"http" := rfl
    dsimp only
    rw [e]
    rfl
  · have e : ((if true = true then b!"https://" else b!"http://") ++ rest).takeWhile (· != ch%':') = b!"https" := rfl
    dsimp only
    rw [e]
    rfl

/-! ### The configuration file -/

theorem rtrim_app {a s : Bytes} (ha : ∀ c, a.getLast? = some c → isSpace c = false) (hs : ∀ c ∈ s, isSpace c = true) : rtrim (a ++ s) = a := by
  unfold rtrim
  rw [List.reverse_append, dropWhile_app]
  · simp
  · intro c hc; exact hs c (List.mem_reverse.mp hc)
  · intro c t e
    apply ha
    rw [List.getLast?_eq_head?_reverse, e]
    rfl

theorem rtrim_prefix {a b : Bytes} (ha : ∀ c, a.getLast? = some c → isSpace c = false) : ∃ t, rtrim (a ++ b) = a ++ t ∧ ∃ r, b = t ++ r := by
  obtain ⟨r, e, hr, -⟩ := rtrim_spec (a ++ b)
  by_cases h : a.length ≤ (rtrim (a ++ b)).length
  · have hp : a <+: rtrim (a ++ b) := by
      apply List.prefix_of_prefix_length_le (l₃ := a ++ b) (List.prefix_append a b) _ h
      exact ⟨r, e.symm⟩
    obtain ⟨t, ht⟩ := hp
    refine ⟨t, ht.symm, r, ?_⟩
    rw [← ht, List.append_assoc] at e
    exact List.append_cancel_left e
  · exfalso
    have ha0 : a ≠ [] := by rintro rfl; exact h (by simp)
    obtain ⟨x, hx⟩ : ∃ x, a.getLast? = some x := by
      cases hl : a.getLast? with
      | none => exact absurd (List.getLast?_eq_none_iff.mp hl) ha0
      | some x => exact ⟨x, rfl⟩
    have h1 : (a ++ b)[a.length - 1]? = some x := by
      rw [List.getElem?_append_left (by have := length_pos ha0; omega), ← List.getLast?_eq_getElem?, hx]
    rw [e, List.getElem?_append_right (by omega)] at h1
    have := hr x (List.mem_of_getElem? h1)
    rw [ha x hx] at this
    cases this

theorem blankline {l : Bytes} (h : ∀ c ∈ l, isSpace c = true) : (rtrim l).dropWhile isSpace = [] := by
  have : rtrim l = [] := by
    have := rtrim_app (a := []) (s := l) (by simp) h
    simpa using this
  rw [this]
  rfl

theorem findKeyword_none {tab : Bool} {w : Bytes} (h : ∀ k ∈ (ctlKeywords tab).map (·.1), ¬ ciEq (k.take w.length) w = true) : findKeyword tab w = none := by
  unfold findKeyword
  rw [Option.map_eq_none_iff, List.find?_eq_none]
  intro k hk
  exact h k.1 (List.mem_map.mpr ⟨k, hk, rfl⟩)

theorem getLast_append_ne {a b : Bytes} (hb : b ≠ []) : (a ++ b).getLast? = b.getLast? := by
  rw [List.getLast?_append]
  cases h : b.getLast? with
  | none => exact absurd (List.getLast?_eq_none_iff.mp h) hb
  | some x => rfl

/-- The first word of a line -/
theorem line_word {line w : Bytes} (h : LineWord line w) :
    ∃ p t, (rtrim line).dropWhile isSpace = p ∧ p = w ++ t ∧ p ≠ [] ∧ p.head? ≠ some ch%'#' ∧ p.takeWhile (fun c => c != 32 && c != 9) = w := by
  obtain ⟨sp, rest, rfl, h1, h2, h3, h4, h5⟩ := h
  obtain ⟨t, ht, r, hr⟩ := rtrim_prefix (a := sp ++ w) (b := rest) (by
    intro c hc
    rw [getLast_append_ne h2] at hc
    exact h3 c (List.mem_of_mem_getLast? hc))
  obtain ⟨x, w', rfl⟩ : ∃ x w', w = x :: w' := by
    cases w with
    | nil => exact absurd rfl h2
    | cons x w' => exact ⟨x, w', rfl⟩
  refine ⟨(x :: w') ++ t, t, ?_, rfl, by simp, h4, ?_⟩
  · rw [ht, List.append_assoc]
    apply dropWhile_app h1
    intro c t' e
    obtain rfl : x = c := by cases e; rfl
    exact h3 x (by simp)
  · apply takeWhile_app
    · intro c hc
      have := h3 c hc
      have hs : ∀ c : UInt8, isSpace c = false → (c != 32 && c != 9) = true := by apply forall_byte; decide +kernel
      exact hs c this
    · intro c t' e
      subst e
      subst hr
      rcases h5 c rfl with rfl | rfl <;> rfl

theorem socketLine_skip {tab : Bool} {line : Bytes} (h : Skipped ((ctlKeywords tab).map (·.1)) line) : socketLine tab line = .inl tab := by
  unfold socketLine
  dsimp only
  rcases h with h | ⟨sp, t, rfl, h⟩ | ⟨w, h, hk⟩
  · rw [if_pos (Or.inl (blankline h))]
  · rw [if_pos]
    right
    obtain ⟨t', ht, -⟩ := rtrim_prefix (a := sp ++ [ch%'#']) (b := t) (by simp; decide)
    rw [show sp ++ ch%'#' :: t = sp ++ [ch%'#'] ++ t by simp, ht, List.append_assoc, dropWhile_app h (by intro c t e; cases e; rfl)]
    rfl
  · obtain ⟨p, t, e, hp, h1, h2, h3⟩ := line_word h
    rw [e, if_neg (by simp [h1, h2]), h3, findKeyword_none hk]

theorem ctlQuoted_quoted (s rest : Bytes) : ∀ acc, ctlQuoted ((s.flatMap fun c => if c = ch%'"' ∨ c = ch%'\\' then [ch%'\\', c] else [c]) ++ ch%'"' :: rest) acc = some (acc ++ s) := by
  induction s with
  | nil =>
    intro acc
    cases rest with
    | nil => simp [ctlQuoted]
    | cons => simp [ctlQuoted]
  | cons c s ih =>
    intro acc
    generalize hm : (s.flatMap fun c => if c = ch%'"' ∨ c = ch%'\\' then [ch%'\\', c] else [c]) ++ ch%'"' :: rest = m at ih
    have hmn : ∃ d t, m = d :: t := by
      cases m with
      | nil => simp at hm
      | cons d t => exact ⟨d, t, rfl⟩
    obtain ⟨d, t, rfl⟩ := hmn
    rw [List.flatMap_cons, List.append_assoc, hm]
    by_cases hc : c = ch%'"' ∨ c = ch%'\\'
    · rw [if_pos hc]
      show ctlQuoted (ch%'\\' :: c :: d :: t) acc = _
      rw [ctlQuoted, if_neg (by decide), if_pos ⟨rfl, hc.symm⟩, ih]
      simp
    · rw [if_neg hc]
      show ctlQuoted (c :: d :: t) acc = _
      rw [ctlQuoted, if_neg (fun e => hc (Or.inl e)), if_neg (fun e => hc (Or.inr e.1)), ih]
      simp

/-- A line with a keyword and a quoted string -/
theorem socketLine_found {tab : Bool} {kw sp sp1 sp2 name : Bytes} (hk : findKeyword tab kw = some 1) (h0 : kw ≠ []) (hks : ∀ c ∈ kw, isSpace c = false)
    (hkh : kw.head? ≠ some ch%'#') (h1 : ∀ c ∈ sp, isSpace c = true) (h2 : sp1 ≠ [] ∧ ∀ c ∈ sp1, c = 32 ∨ c = 9) (h3 : ∀ c ∈ sp2, isSpace c = true) :
    socketLine tab (sp ++ kw ++ sp1 ++ quoted name ++ sp2) = .inr (some name) := by
  have hq : (sp ++ kw ++ sp1 ++ quoted name).getLast? = some ch%'"' := by
    have : quoted name ≠ [] := by unfold quoted; simp
    rw [getLast_append_ne this]
    unfold quoted
    rw [List.getLast?_concat]
  have e1 : rtrim (sp ++ kw ++ sp1 ++ quoted name ++ sp2) = sp ++ kw ++ sp1 ++ quoted name := by
    apply rtrim_app _ h3
    intro c hc
    rw [hq] at hc
    obtain rfl := Option.some.inj hc
    decide
  have e2 : (sp ++ kw ++ sp1 ++ quoted name).dropWhile isSpace = kw ++ (sp1 ++ quoted name) := by
    simp only [List.append_assoc]
    apply dropWhile_app h1
    intro c t e
    cases kw with
    | nil => exact absurd rfl h0
    | cons x w => cases e; exact hks _ (by simp)
  have e3 : (kw ++ (sp1 ++ quoted name)).takeWhile (fun c => c != 32 && c != 9) = kw := by
    apply takeWhile_app
    · intro c hc
      have hs : ∀ c : UInt8, isSpace c = false → (c != 32 && c != 9) = true := by apply forall_byte; decide +kernel
      exact hs c (hks c hc)
    · intro c t e
      cases sp1 with
      | nil => exact absurd rfl h2.1
      | cons x w =>
        cases e
        rcases h2.2 c (by simp) with rfl | rfl <;> rfl
  have e4 : (sp1 ++ quoted name).dropWhile isSpace = quoted name := by
    apply dropWhile_app
    · intro c hc
      rcases h2.2 c hc with rfl | rfl <;> rfl
    · intro c t e
      unfold quoted at e
      cases e
      rfl
  unfold socketLine
  dsimp only
  rw [e1, e2, if_neg, e3, hk]
  · show (match (kw ++ (sp1 ++ quoted name)).drop kw.length |>.dropWhile isSpace with | [] => _ | c :: t => _) = _
    rw [List.drop_left, e4]
    unfold quoted
    rw [List.cons_append]
    dsimp only
    rw [if_pos rfl, ctlQuoted_quoted, List.nil_append]
  · intro h
    rcases h with h | h
    · simp at h; exact h0 h.1
    · cases kw with
      | nil => exact h0 rfl
      | cons x w => exact hkh (by simpa using h)

theorem socketName_line {line rest : Bytes} (h : ReadLine line) (f : Nat) (tab : Bool) :
    socketName (f + 1) tab (line ++ [10] ++ rest) = match socketLine tab line with | .inl tab => socketName f tab rest | .inr r => r := by
  have e : (line ++ [10] ++ rest).takeWhile (fun c => c != 10) = line := by
    rw [List.append_assoc]
    exact takeWhile_ne (x := 10) h.1 (by intro c hc; exact (Option.some.inj hc).symm)
  rw [socketName]
  rw [e, List.append_assoc, List.drop_left]
  dsimp only [List.cons_append]
  rw [if_neg (by have := h.2; simp [maxBuf]; omega)]
  rfl

theorem socketName_skip {tab : Bool} : ∀ (ls : List Bytes) (rest : Bytes) (f : Nat), (∀ l ∈ ls, ReadLine l ∧ Skipped ((ctlKeywords tab).map (·.1)) l) →
    socketName (f + ls.length) tab (asLines ls ++ rest) = socketName f tab rest
  | [], rest, f, _ => rfl
  | l :: ls, rest, f, h => by
    have e : asLines (l :: ls) ++ rest = l ++ [10] ++ (asLines ls ++ rest) := by simp [asLines]
    have e' : f + (l :: ls).length = (f + ls.length) + 1 := by simp; omega
    rw [e, e', socketName_line (h l (by simp)).1, socketLine_skip (h l (by simp)).2]
    exact socketName_skip ls rest f (fun x hx => h x (by simp [hx]))

/-- A text that starts with neither space nor sign -/
theorem segment_plain {s : Bytes} (h0 : s ≠ []) (h1 : ∀ c ∈ s, c ≠ ch%'/' ∧ c ≠ ch%'?')
    (h2 : ∀ c, s.head? = some c → isSpace c = false ∧ c ≠ ch%'-' ∧ c ≠ ch%'+') : Segment s := by
  refine ⟨h0, h1, ?_⟩
  intro sp sg ds n e hsp hsg hds
  have hsp0 : sp = [] := by
    cases sp with
    | nil => rfl
    | cons x t =>
      have := (h2 x (by rw [e]; rfl)).1
      rw [hsp x (by simp)] at this
      cases this
  refine ⟨hsp0, ?_⟩
  subst hsp0
  rcases hsg with h | rfl | rfl
  · exact h
  · exact absurd rfl (h2 45 (by rw [e]; rfl)).2.1
  · exact absurd rfl (h2 43 (by rw [e]; rfl)).2.2

/-! ### The status line -/

theorem memTakeWhile {p : UInt8 → Bool} {l : Bytes} {c : UInt8} (h : c ∈ l.takeWhile p) : p c = true := by
  have := List.all_takeWhile (l := l) (p := p)
  rw [List.all_eq_true] at this
  exact this c h

theorem three_digits {p : Bytes} (h0 : ∀ c, p.head? = some c → isSpace c = false) (h1 : (strtol10 p).1 = 200) (h2 : p.length - (strtol10 p).2.2.length = 3) :
    p.take 3 = b!"200" := by
  have hd : p.dropWhile isSpace = p := by
    cases p with
    | nil => rfl
    | cons c t => rw [List.dropWhile_cons, h0 c rfl]; rfl
  have key : ∀ (neg : Bool) (t : Bytes), (strtolDigits neg p t).1 = 200 → neg = false ∧ digitsVal (t.takeWhile isDigit) = 200 ∧ (strtolDigits neg p t).2.2 = t.dropWhile isDigit := by
    intro neg t h
    unfold strtolDigits at h ⊢
    dsimp only at h ⊢
    split at h
    · simp at h
    · rename_i hne
      rw [if_neg hne]
      cases neg with
      | true =>
        simp only [if_true] at h
        split at h <;> simp at h <;> omega
      | false =>
        simp only [Bool.false_eq_true, if_false] at h ⊢
        split at h
        · simp [ctlLongMax] at h
        · rename_i hlt
          rw [if_neg hlt]
          refine ⟨trivial, ?_, rfl⟩
          simp at h; omega
  have hlen : ∀ t : Bytes, (t.takeWhile isDigit).length + (t.dropWhile isDigit).length = t.length := by
    intro t
    rw [← List.length_append, List.takeWhile_append_dropWhile]
  have hdig : ∀ t : Bytes, ∀ c ∈ t.takeWhile isDigit, 48 ≤ c.toNat ∧ c.toNat ≤ 57 := by
    intro t c hc
    have h := memTakeWhile hc
    revert h
    revert c
    have : ∀ c : UInt8, isDigit c = true → 48 ≤ c.toNat ∧ c.toNat ≤ 57 := by apply forall_byte; decide +kernel
    intro c _ h
    exact this c h
  have hgen : ∀ t : Bytes, p = t → (strtolDigits false p t).1 = 200 → p.length - (strtolDigits false p t).2.2.length = 3 → p.take 3 = b!"200" := by
    intro t e h h'
    obtain ⟨-, hv, hr⟩ := key false t h
    rw [hr, e] at h'
    have hl := hlen t
    have hd := hdig t
    have htk : t = t.takeWhile isDigit ++ t.dropWhile isDigit := List.takeWhile_append_dropWhile.symm
    generalize t.takeWhile isDigit = ds at *
    have h3 : ds.length = 3 := by omega
    rw [e, htk, List.take_left' h3]
    match ds, h3 with
    | [a, b, c], _ =>
      simp only [digitsVal, List.foldl_cons, List.foldl_nil] at hv
      have ha := hd a (by simp)
      have hb := hd b (by simp)
      have hc := hd c (by simp)
      have e1 : a = 50 := UInt8.toNat_inj.mp (by simp; omega)
      have e2 : b = 48 := UInt8.toNat_inj.mp (by simp; omega)
      have e3 : c = 48 := UInt8.toNat_inj.mp (by simp; omega)
      subst e1 e2 e3
      rfl
  unfold strtol10 at h1 h2
  rw [hd] at h1 h2
  split at h1
  · exact absurd (key true _ h1).1 (by simp)
  · rename_i t
    obtain ⟨-, hv, hr⟩ := key false _ h1
    change (43 :: t).length - (strtolDigits false (43 :: t) t).2.2.length = 3 at h2
    rw [hr] at h2
    have hl := hlen t
    have hd := hdig t
    exfalso
    generalize t.takeWhile isDigit = ds at *
    have h3 : ds.length = 2 := by simp at h2; omega
    match ds, h3 with
    | [a, b], _ =>
      simp only [digitsVal, List.foldl_cons, List.foldl_nil] at hv
      have ha := hd a (by simp)
      have hb := hd b (by simp)
      omega
  · rename_i hn1 hn2
    split at h2
    · rename_i t; exact absurd rfl (hn1 t)
    · rename_i t; exact absurd rfl (hn2 t)
    · exact hgen _ rfl h1 h2

theorem bioGets_prefix : ∀ (n : Nat) (inp : Bytes), (bioGets n inp).1 <+: inp
  | 0, inp => List.nil_prefix
  | _ + 1, [] => List.nil_prefix
  | n + 1, c :: t => by
    rw [bioGets]
    split
    · rename_i h; subst h; exact ⟨t, rfl⟩
    · exact (List.prefix_cons_inj c).mpr (bioGets_prefix n t)

theorem chopEnd_prefix (c : UInt8) (s : Bytes) : chopEnd c s <+: s := by
  unfold chopEnd
  split
  · exact List.dropLast_prefix s
  · exact List.prefix_rfl

theorem xgets_prefix (inp : Bytes) : (xgets inp).1 <+: inp :=
  (chopEnd_prefix _ _).trans ((chopEnd_prefix _ _).trans (bioGets_prefix _ _))

/-- The status line of a reply that is not refused -/
theorem responseLine_ok {line : Bytes} {ver : Nat} (h : responseLine line = some (ver, 200)) :
    ∃ d sp t, (d = 48 ∨ d = 49) ∧ sp ≠ [] ∧ (∀ c ∈ sp, isSpace c = true) ∧ line = b!"HTTP/1." ++ [d] ++ sp ++ b!"200" ++ t := by
  unfold responseLine at h
  dsimp only at h
  split at h
  · rename_i hh
    obtain ⟨h1, h2, h3⟩ := hh
    split at h
    · cases h
    · rename_i hc
      simp only [Option.some.injEq, Prod.mk.injEq] at h
      have hlt := List.takeWhile_prefix (l := line) notNul
      generalize line.takeWhile notNul = buf at *
      have hc3 : ((buf.drop 8).dropWhile isSpace).length - (strtol10 ((buf.drop 8).dropWhile isSpace)).2.2.length = 3 := by
        apply Decidable.byContradiction
        intro hh; exact hc (Or.inr hh)
      have h200 := three_digits (p := (buf.drop 8).dropWhile isSpace) (by
        intro c hc'
        have := List.head?_dropWhile_not isSpace (buf.drop 8)
        rw [hc'] at this
        simpa using this) h.2 hc3
      obtain ⟨rest, rfl⟩ := hlt
      obtain ⟨d, hd⟩ : ∃ d, buf[7]? = some d := by rcases h2 with h | h <;> exact ⟨_, h⟩
      refine ⟨d, (buf.drop 8).takeWhile isSpace, ((buf.drop 8).dropWhile isSpace).drop 3 ++ rest, ?_, ?_, ?_, ?_⟩
      · rw [hd] at h2
        rcases h2 with h | h
        · exact Or.inl (Option.some.inj h)
        · exact Or.inr (Option.some.inj h)
      · obtain ⟨x, hx, hxs⟩ : ∃ x, buf[8]? = some x ∧ isSpace x = true := by
          cases hb : buf[8]? with
          | none => rw [hb] at h3; simp at h3
          | some x => rw [hb] at h3; exact ⟨x, rfl, by simpa using h3⟩
        have : buf.drop 8 = x :: buf.drop 9 := by
          have hlt : 8 < buf.length := by
            apply Decidable.byContradiction
            intro hh
            rw [List.getElem?_eq_none (by omega)] at hx
            cases hx
          rw [List.drop_eq_getElem_cons hlt]
          rw [List.getElem?_eq_getElem hlt] at hx
          rw [Option.some.inj hx]
        rw [this, List.takeWhile_cons, hxs]
        simp
      · intro c hc
        exact memTakeWhile hc
      · have e1 : buf = buf.take 7 ++ buf.drop 7 := (List.take_append_drop 7 buf).symm
        have e2 : buf.drop 7 = d :: buf.drop 8 := by
          have hlt : 7 < buf.length := by
            apply Decidable.byContradiction
            intro hh
            rw [List.getElem?_eq_none (by omega)] at hd
            cases hd
          rw [List.drop_eq_getElem_cons hlt]
          rw [List.getElem?_eq_getElem hlt] at hd
          rw [Option.some.inj hd]
        have e3 : buf.drop 8 = (buf.drop 8).takeWhile isSpace ++ (b!"200" ++ ((buf.drop 8).dropWhile isSpace).drop 3) := by
          rw [← h200, List.take_append_drop, List.takeWhile_append_dropWhile]
        calc buf ++ rest = (b!"HTTP/1." ++ (d :: buf.drop 8)) ++ rest := by rw [← h1, ← e2, ← e1]
          _ = _ := by
            generalize (buf.drop 8).takeWhile isSpace = A at *
            generalize ((buf.drop 8).dropWhile isSpace).drop 3 = B at *
            rw [e3]
            simp
  · cases h

/-- A word in any letter case -/
theorem keyword_chars {kw k : Bytes} (h : ciEq kw k = true) (hk : ∀ c ∈ k.map toLower, 97 ≤ c.toNat) : ∀ c ∈ kw, isSpace c = false ∧ c ≠ ch%'#' := by
  intro c hc
  rw [ciEq_iff] at h
  have h1 : toLower c ∈ kw.map toLower := List.mem_map.mpr ⟨c, hc, rfl⟩
  rw [h] at h1
  have h2 := hk _ h1
  have : ∀ c : UInt8, 97 ≤ (toLower c).toNat → isSpace c = false ∧ c ≠ ch%'#' := by apply forall_byte; decide +kernel
  exact this c h2

theorem findKeyword_control {kw : Bytes} (h : ciEq kw b!"control" = true) : findKeyword false kw = some 1 := by
  have hl : kw.length = 7 := ciEq_length h
  unfold findKeyword ctlKeywords
  rw [List.find?_cons, hl, show (b!"control").take 7 = b!"control" from rfl, ciEq_comm, h]
  rfl

theorem findKeyword_socket {kw : Bytes} (h : ciEq kw b!"socket" = true) : findKeyword true kw = some 1 := by
  have hl : kw.length = 6 := ciEq_length h
  unfold findKeyword ctlKeywords
  rw [List.find?_cons, hl, show (b!"socket").take 6 = b!"socket" from rfl, ciEq_comm, h]
  rfl

theorem socketLine_section {sp ctl sp' : Bytes} (h : ciEq ctl b!"control" = true) (h1 : ∀ c ∈ sp, isSpace c = true) (h2 : ∀ c ∈ sp', c = 32 ∨ c = 9) :
    socketLine false (sp ++ ctl ++ sp') = .inl true := by
  have hch := keyword_chars h (by decide)
  have hl : ctl.length = 7 := ciEq_length h
  have h0 : ctl ≠ [] := by rintro rfl; cases hl
  have e1 : rtrim (sp ++ ctl ++ sp') = sp ++ ctl := by
    apply rtrim_app
    · intro c hc
      rw [getLast_append_ne h0] at hc
      exact (hch c (List.mem_of_mem_getLast? hc)).1
    · intro c hc
      rcases h2 c hc with rfl | rfl <;> rfl
  have e2 : (sp ++ ctl).dropWhile isSpace = ctl := by
    apply dropWhile_app h1
    intro c t e
    exact (hch c (by rw [e]; simp)).1
  have e3 : ctl.takeWhile (fun c => c != 32 && c != 9) = ctl := by
    have := takeWhile_app (p := fun c : UInt8 => c != 32 && c != 9) (a := ctl) (b := []) (by
      intro c hc
      have hs : ∀ c : UInt8, isSpace c = false → (c != 32 && c != 9) = true := by apply forall_byte; decide +kernel
      exact hs c (hch c hc).1) (by intro c t e; cases e)
    rwa [List.append_nil] at this
  unfold socketLine
  dsimp only
  rw [e1, e2, if_neg, e3, findKeyword_control h, List.drop_length]
  · rfl
  · rintro (h | h)
    · exact h0 h
    · exact (hch _ (List.mem_of_mem_head? h)).2 rfl

theorem socketLine_end {sp kw sp' : Bytes} (h : ciEq kw b!"end" = true) (h1 : ∀ c ∈ sp, isSpace c = true) (h2 : ∀ c ∈ sp', c = 32 ∨ c = 9) :
    socketLine true (sp ++ kw ++ sp') = .inl false := by
  have hch := keyword_chars h (by decide)
  have hl : kw.length = 3 := ciEq_length h
  have h0 : kw ≠ [] := by rintro rfl; cases hl
  obtain ⟨p, t, e, hp, g1, g2, g3⟩ := line_word (line := sp ++ kw ++ sp') (w := kw) ⟨sp, sp', rfl, h1, h0, fun c hc => (hch c hc).1,
    fun hh => (hch _ (List.mem_of_mem_head? hh)).2 rfl, fun c hc => h2 c (List.mem_of_mem_head? hc)⟩
  have hf : findKeyword true kw = some 0 := by
    unfold findKeyword ctlKeywords
    rw [List.find?_cons, hl]
    have : ciEq ((b!"socket").take 3) kw = false := by
      cases hh : ciEq ((b!"socket").take 3) kw with
      | false => rfl
      | true => exact absurd (ciEq_trans hh h) (by decide)
    dsimp only
    rw [this]
    dsimp only
    rw [List.find?_cons, show (b!"end").take 3 = b!"end" from rfl]
    rw [ciEq_comm, h]
    rfl
  unfold socketLine
  dsimp only
  rw [e, if_neg (by simp [g1, g2]), g3, hf]
  rfl

theorem asLines_length (ls : List Bytes) : ls.length ≤ (asLines ls).length := by
  induction ls with
  | nil => exact Nat.le_refl _
  | cons l ls ih =>
    have e : asLines (l :: ls) = l ++ [10] ++ asLines ls := by simp [asLines]
    rw [e]
    simp only [List.length_append, List.length_cons, List.length_nil]
    omega

end Pound
