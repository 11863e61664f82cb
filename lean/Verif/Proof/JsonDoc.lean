import Verif.Proof.JsonStr

namespace Pound

open Spec (Fits FitsL FitsP plain plainL plainP NumRead StrFits Delim)

/-! ### Documents -/

/-- White space of the parser -/
def WsB (w : Bytes) : Prop := ∀ c ∈ w, jSpace c = true

theorem skipWs_app {w : Bytes} (h : WsB w) (p : Bytes) : skipWs (w ++ p) = skipWs p := by
  induction w with
  | nil => rfl
  | cons a w ih =>
    have ha := h a List.mem_cons_self
    unfold skipWs at *
    rw [List.cons_append, List.dropWhile_cons, if_pos ha]
    exact ih fun c hc => h c (List.mem_cons_of_mem _ hc)

theorem skipWs_cons {c : UInt8} (h : jSpace c = false) (p : Bytes) : skipWs (c :: p) = c :: p := by
  unfold skipWs; rw [List.dropWhile_cons, h]; rfl

theorem skipWs_ws {w : Bytes} (h : WsB w) {c : UInt8} (hc : jSpace c = false) (p : Bytes) :
    skipWs (w ++ c :: p) = c :: p := by rw [skipWs_app h, skipWs_cons hc]

theorem ws_nil : WsB [] := by intro c hc; cases hc

theorem ws_app {v w : Bytes} (hv : WsB v) (hw : WsB w) : WsB (v ++ w) := by
  intro c hc; rcases List.mem_append.mp hc with h | h
  · exact hv c h
  · exact hw c h

theorem ws_indent (ind level : Nat) : WsB (fmtIndent ind level) := by
  intro c hc
  rw [fmtIndent, List.mem_replicate] at hc
  rw [hc.2]; decide

theorem ws_open (ind : Nat) : WsB (fmtOpen ind) := by
  intro c hc
  unfold fmtOpen at hc
  split at hc
  · cases hc
  · simp at hc; rw [hc]; decide

theorem ws_close (ind level : Nat) : WsB (fmtClose ind level) := by
  intro c hc
  unfold fmtClose at hc
  split at hc
  · cases hc
  · rcases List.mem_cons.mp hc with h | h
    · rw [h]; decide
    · exact ws_indent _ _ c h

theorem ws_sp (ind : Nat) : WsB (if ind = 0 then [] else [32]) := by
  intro c hc
  split at hc
  · cases hc
  · simp at hc; rw [hc]; decide

/-- The white space after the comma -/
def delimWs (ind level : Nat) : Bytes := if ind = 0 then [32] else 10 :: fmtIndent ind level

theorem fmtDelim_eq (ind level : Nat) : fmtDelim ind level = 44 :: delimWs ind level := by
  unfold fmtDelim delimWs; split <;> rfl

theorem ws_delim (ind level : Nat) : WsB (delimWs ind level) := by
  intro c hc
  unfold delimWs at hc
  split at hc
  · simp at hc; rw [hc]; decide
  · rcases List.mem_cons.mp hc with h | h
    · rw [h]; decide
    · exact ws_indent _ _ c h

theorem jLoop_ws {D} (N : NumLib D) (f : Nat) (ctx : List (JCtx D)) {w : Bytes} (h : WsB w)
    (p : Bytes) : jLoop N f ctx (w ++ p) = jLoop N f ctx p := by
  cases f with
  | zero => rfl
  | succ f => rw [jLoop, jLoop, skipWs_app h]

theorem delim_cons {c : UInt8} (h : c = 44 ∨ c = 93 ∨ c = 125 ∨ jSpace c = true) (p : Bytes) :
    Delim (c :: p) := by
  refine Or.inr ⟨c, p, rfl, ?_⟩
  revert h
  revert c
  apply forall_byte; decide +kernel

theorem delim_ws {w p : Bytes} (h : WsB w) (hp : Delim p) : Delim (w ++ p) := by
  cases w with
  | nil => exact hp
  | cons c w => exact delim_cons (Or.inr (Or.inr (Or.inr (h c List.mem_cons_self)))) _

/-- A value is expected: the innermost object has a pending key. -/
def ValCtx {D} : List (JCtx D) → Prop
  | .obj _ none :: _ => False
  | _ => True

mutual
/-- Iterations used for a value -/
def steps {D} : JVal D → Nat
  | .arr l => stepsL l + 2
  | .obj _ l => stepsP l + 2
  | _ => 1
def stepsL {D} : List (JVal D) → Nat
  | [] => 0
  | v :: l => stepsL l + steps v
def stepsP {D} : List (Bytes × JVal D) → Nat
  | [] => 0
  | (_, v) :: l => stepsP l + steps v + 1
end

theorem jStep_91 {D} (N : NumLib D) (go : List (JCtx D) → Bytes → JRes D) (ctx : List (JCtx D))
    (p : Bytes) : jStep N go ctx (91 :: p) = go (.arr [] :: ctx) p := rfl
theorem jStep_93 {D} (N : NumLib D) (go : List (JCtx D) → Bytes → JRes D) (ctx : List (JCtx D))
    (l : List (JVal D)) (p : Bytes) :
    jStep N go (.arr l :: ctx) (93 :: p) = jAfter go ctx (.arr l) p := rfl
theorem jStep_123 {D} (N : NumLib D) (go : List (JCtx D) → Bytes → JRes D) (ctx : List (JCtx D))
    (p : Bytes) : jStep N go ctx (123 :: p) = go (.obj jNew none :: ctx) p := rfl
theorem jStep_125 {D} (N : NumLib D) (go : List (JCtx D) → Bytes → JRes D) (ctx : List (JCtx D))
    (o : JObj (JVal D)) (k : Option Bytes) (p : Bytes) :
    jStep N go (.obj o k :: ctx) (125 :: p) = jAfter go ctx (.obj o.count o.pairs) p := rfl

theorem jStep_str {D} (N : NumLib D) (go : List (JCtx D) → Bytes → JRes D) (ctx : List (JCtx D))
    (hctx : ValCtx ctx) {s : Bytes} (hs : StrFits s) (rest : Bytes) :
    jStep N go ctx (fmtStr s ++ rest) = jAfter go ctx (.str s) rest := by
  have e : fmtStr s ++ rest = 34 :: (s.flatMap fmtCh ++ 34 :: rest) := by
    simp [fmtStr]
  rw [e]
  unfold jStep
  dsimp only
  have h1 : ¬ (34 : UInt8) = 91 := by decide
  have h2 : ¬ (34 : UInt8) = 93 := by decide
  have h3 : ¬ (34 : UInt8) = 123 := by decide
  have h4 : ¬ (34 : UInt8) = 125 := by decide
  rw [if_neg h1, if_neg h2, if_neg h3, if_neg h4, if_pos rfl, jGetText_fmt hs.1 hs.2]
  dsimp only
  match ctx, hctx with
  | [], _ => rfl
  | .arr _ :: _, _ => rfl
  | .obj _ (some _) :: _, _ => rfl

theorem jStep_key {D} (N : NumLib D) (go : List (JCtx D) → Bytes → JRes D) (ctx : List (JCtx D))
    (o : JObj (JVal D)) {s : Bytes} (hs : StrFits s) (rest : Bytes) :
    jStep N go (.obj o none :: ctx) (fmtStr s ++ 58 :: rest)
      = go (.obj o (some s) :: ctx) rest := by
  have e : fmtStr s ++ 58 :: rest = 34 :: (s.flatMap fmtCh ++ 34 :: 58 :: rest) := by
    simp [fmtStr]
  rw [e]
  unfold jStep
  dsimp only
  have h1 : ¬ (34 : UInt8) = 91 := by decide
  have h2 : ¬ (34 : UInt8) = 93 := by decide
  have h3 : ¬ (34 : UInt8) = 123 := by decide
  have h4 : ¬ (34 : UInt8) = 125 := by decide
  have h5 : jSpace 58 = false := by decide
  rw [if_neg h1, if_neg h2, if_neg h3, if_neg h4, if_pos rfl, jGetText_fmt hs.1 hs.2]
  simp only [skipWs_cons h5, if_true]

theorem numStart_not (c : UInt8) : c ∈ b!"-+.0123456789" →
    c ≠ 91 ∧ c ≠ 93 ∧ c ≠ 123 ∧ c ≠ 125 ∧ c ≠ 34 ∧ numStart c = true ∧ jSpace c = false := by
  revert c; apply forall_byte; decide +kernel

theorem jLoop_num {D} (N : NumLib D) (f : Nat) (ctx : List (JCtx D)) {t : Bytes} {d : D}
    (h : NumRead N t d) {rest : Bytes} (hr : Delim rest) :
    jLoop N (f + 1) ctx (t ++ rest) = jAfter (jLoop N f) ctx (.num d) rest := by
  obtain ⟨⟨c, r, rfl, hc⟩, hn, hp, hs⟩ := h
  obtain ⟨h1, h2, h3, h4, h5, h6, h7⟩ := numStart_not c hc
  have hs := hs rest hr
  rw [jLoop, List.cons_append, skipWs_cons h7]
  unfold jStep
  dsimp only
  rw [if_neg h1, if_neg h2, if_neg h3, if_neg h4,
    if_neg h5, if_pos h6, ← List.cons_append, hs]
  simp [hn, hp]

theorem jSet_append {V} {o : JObj V} (hc : o.count = o.pairs.length) {k : Bytes} {v : V}
    (h : ∀ p ∈ o.pairs, strcmp p.1 k = .lt) :
    jSet o k v = .ok ⟨o.count + 1, o.pairs ++ [(k, v)]⟩ := by
  unfold jSet jLookup
  by_cases h0 : o.count = 0
  · have : o.pairs = [] := List.length_eq_zero_iff.mp (by omega)
    simp [h0, this, jInsertAt]
  · rw [if_neg h0]
    have hne : o.pairs ≠ [] := by
      intro e; rw [e] at hc; exact h0 hc
    obtain ⟨a, ha⟩ : ∃ a, o.pairs.head? = some a := ⟨_, List.head?_eq_some_head hne⟩
    obtain ⟨z, hz⟩ : ∃ z, o.pairs.getLast? = some z := ⟨_, List.getLast?_eq_some_getLast hne⟩
    have ha' := h a (List.mem_of_head? ha)
    have hz' := h z (List.mem_of_getLast? hz)
    rw [ha, hz]
    have hlen : o.pairs.length - 1 + 1 = o.pairs.length := by
      have := List.length_pos_iff.mpr hne; omega
    simp [ha', hz', jInsertAt, hlen]

/-- Adding a value and closing the array -/
theorem close_arr {D} (N : NumLib D) (f : Nat) (ctx : List (JCtx D)) (l : List (JVal D))
    (v : JVal D) {w : Bytes} (hw : WsB w) (rest : Bytes) :
    jAfter (jLoop N (f + 1)) (.arr l :: ctx) v (w ++ 93 :: rest)
      = jAfter (jLoop N f) ctx (.arr (l ++ [v])) rest := by
  have h93 : jSpace 93 = false := by decide
  have h44 : ¬ (93 : UInt8) = 44 := by decide
  have h91 : ¬ (93 : UInt8) = 91 := by decide
  rw [jAfter]
  simp only [JCtx.add, skipWs_ws hw h93, h44, if_false, true_or, if_true]
  rw [jLoop, skipWs_cons h93, jStep_93]

theorem close_obj {D} (N : NumLib D) (f : Nat) (ctx : List (JCtx D)) (o o' : JObj (JVal D))
    (k : Bytes) (v : JVal D) (ho : jSet o k v = .ok o') {w : Bytes} (hw : WsB w) (rest : Bytes) :
    jAfter (jLoop N (f + 1)) (.obj o (some k) :: ctx) v (w ++ 125 :: rest)
      = jAfter (jLoop N f) ctx (.obj o'.count o'.pairs) rest := by
  have h125 : jSpace 125 = false := by decide
  have h44 : ¬ (125 : UInt8) = 44 := by decide
  have h91 : ¬ (125 : UInt8) = 91 := by decide
  have h93 : ¬ (125 : UInt8) = 93 := by decide
  have h123 : ¬ (125 : UInt8) = 123 := by decide
  rw [jAfter]
  simp only [JCtx.add, ho, skipWs_ws hw h125, h44, if_false, or_true, if_true]
  rw [jLoop, skipWs_cons h125, jStep_125]

theorem after_comma_arr {D} (N : NumLib D) (f : Nat) (ctx : List (JCtx D)) (l : List (JVal D))
    (v : JVal D) {w : Bytes} (hw : WsB w) (p : Bytes) :
    jAfter (jLoop N f) (.arr l :: ctx) v (44 :: (w ++ p))
      = jLoop N f (.arr (l ++ [v]) :: ctx) p := by
  have h44 : jSpace 44 = false := by decide
  rw [jAfter]
  simp only [JCtx.add, skipWs_cons h44, if_true]
  exact jLoop_ws N f _ hw p

theorem after_comma_obj {D} (N : NumLib D) (f : Nat) (ctx : List (JCtx D)) (o o' : JObj (JVal D))
    (k : Bytes) (v : JVal D) (ho : jSet o k v = .ok o') {w : Bytes} (hw : WsB w) (p : Bytes) :
    jAfter (jLoop N f) (.obj o (some k) :: ctx) v (44 :: (w ++ p))
      = jLoop N f (.obj o' none :: ctx) p := by
  have h44 : jSpace 44 = false := by decide
  rw [jAfter]
  simp only [JCtx.add, ho, skipWs_cons h44, if_true]
  exact jLoop_ws N f _ hw p

theorem jLoop_key {D} (N : NumLib D) (f : Nat) (ctx : List (JCtx D)) (o : JObj (JVal D))
    {k : Bytes} (hk : StrFits k) {w : Bytes} (hw : WsB w) (p : Bytes) :
    jLoop N (f + 1) (.obj o none :: ctx) (fmtStr k ++ 58 :: (w ++ p))
      = jLoop N f (.obj o (some k) :: ctx) p := by
  have h34 : jSpace 34 = false := by decide
  have e : skipWs (fmtStr k ++ 58 :: (w ++ p)) = fmtStr k ++ 58 :: (w ++ p) := by
    rw [fmtStr, List.cons_append]; exact skipWs_cons h34 _
  rw [jLoop, e, jStep_key N _ ctx o hk, jLoop_ws N f _ hw]

theorem plainL_length {D} : ∀ l : List (JVal D), (plainL l).length = l.length
  | [] => rfl
  | _ :: l => by simp [plainL, plainL_length l]

theorem plainP_length {D} : ∀ l : List (Bytes × JVal D), (plainP l).length = l.length
  | [] => rfl
  | (_, _) :: l => by simp [plainP, plainP_length l]

theorem delim_items {D} (N : NumLib D) (ind level : Nat) (l : List (JVal D)) {w : Bytes}
    (hw : WsB w) (rest : Bytes) : Delim (fmtItems N ind level l ++ (w ++ 93 :: rest)) := by
  cases l with
  | nil =>
    show Delim (w ++ _)
    exact delim_ws hw (delim_cons (by simp) _)
  | cons v l =>
    rw [fmtItems, fmtDelim_eq]
    exact delim_cons (by simp) _

theorem delim_pairs {D} (N : NumLib D) (ind level : Nat) (l : List (Bytes × JVal D)) {w : Bytes}
    (hw : WsB w) (rest : Bytes) : Delim (fmtPairs N ind level l ++ (w ++ 125 :: rest)) := by
  cases l with
  | nil =>
    show Delim (w ++ _)
    exact delim_ws hw (delim_cons (by simp) _)
  | cons p l =>
    obtain ⟨k, v⟩ := p
    rw [fmtPairs, fmtDelim_eq]
    exact delim_cons (by simp) _

mutual
/-- Reading a formatted value -/
theorem loop_val {D} (N : NumLib D) (ind : Nat) : ∀ (v : JVal D) (level : Nat), Fits N v →
    ∀ (f : Nat) (ctx : List (JCtx D)) (rest : Bytes), Delim rest → ValCtx ctx →
    jLoop N (f + steps v) ctx (fmtVal N ind level v ++ rest)
      = jAfter (jLoop N f) ctx (plain v) rest
  | .null, level, _, f, ctx, rest, _, _ => by
    simp only [steps, jLoop, fmtVal, List.cons_append, List.nil_append, plain]
    rw [skipWs_cons (by decide)]
    simp [jStep, numStart, isDigit, List.isPrefixOf]
  | .bool true, level, _, f, ctx, rest, _, _ => by
    simp only [steps, jLoop, fmtVal, List.cons_append, List.nil_append, plain, if_true]
    rw [skipWs_cons (by decide)]
    simp [jStep, numStart, isDigit, List.isPrefixOf]
  | .bool false, level, _, f, ctx, rest, _, _ => by
    simp only [steps, jLoop, fmtVal, List.cons_append, List.nil_append, plain,
      Bool.false_eq_true, if_false]
    rw [skipWs_cons (by decide)]
    simp [jStep, numStart, isDigit, List.isPrefixOf]
  | .num d, level, h, f, ctx, rest, hr, _ => by
    simp only [steps, fmtVal, plain]
    exact jLoop_num N f ctx h hr
  | .int d, level, h, f, ctx, rest, hr, _ => by
    simp only [steps, fmtVal, plain]
    exact jLoop_num N f ctx h hr
  | .str s, level, h, f, ctx, rest, hr, hc => by
    simp only [steps, fmtVal, plain]
    have h34 : jSpace 34 = false := by decide
    have e : skipWs (fmtStr s ++ rest) = fmtStr s ++ rest := by
      rw [fmtStr, List.cons_append]; exact skipWs_cons h34 _
    rw [jLoop, e]
    exact jStep_str N _ ctx hc h rest
  | .arr [], level, _, f, ctx, rest, _, _ => by
    have h1 : jSpace 91 = false := by decide
    have h2 : jSpace 93 = false := by decide
    simp only [steps, stepsL, fmtVal, List.cons_append, List.nil_append, plain, plainL]
    rw [Nat.zero_add, jLoop, skipWs_cons h1, jStep_91, jLoop, skipWs_cons h2, jStep_93]
  | .arr (v :: l), level, h, f, ctx, rest, _, _ => by
    simp only [Fits, FitsL] at h
    have h1 : jSpace 91 = false := by decide
    have e : fmtVal N ind level (.arr (v :: l)) ++ rest = 91 :: ((fmtOpen ind ++
        fmtIndent ind (level + 1)) ++ (fmtVal N ind (level + 1) v ++ (fmtItems N ind (level + 1) l
        ++ (fmtClose ind (level + 1) ++ 93 :: rest)))) := by
      simp [fmtVal]
    have ef : f + steps (.arr (v :: l)) = (f + 1 + stepsL l + steps v) + 1 := by
      simp only [steps, stepsL]; omega
    rw [e, ef, jLoop, skipWs_cons h1, jStep_91,
      jLoop_ws N _ _ (ws_app (ws_open _) (ws_indent _ _)),
      loop_val N ind v (level + 1) h.1 _ (.arr [] :: ctx) _
        (delim_items N ind _ l (ws_close _ _) rest) trivial,
      loop_items N ind l (level + 1) h.2 f ctx [] (plain v) _ (ws_close _ _) rest]
    simp [plain, plainL]
  | .obj c [], level, h, f, ctx, rest, _, _ => by
    have hc : c = 0 := h.1
    subst hc
    have h1 : jSpace 123 = false := by decide
    have h2 : jSpace 125 = false := by decide
    simp only [steps, stepsP, fmtVal, if_true, List.cons_append, List.nil_append, plain, plainP]
    rw [Nat.zero_add, jLoop, skipWs_cons h1, jStep_123, jLoop, skipWs_cons h2, jStep_125]
    rfl
  | .obj c ((k, v) :: l), level, h, f, ctx, rest, _, _ => by
    simp only [Fits, FitsP] at h
    obtain ⟨hcount, hsort, hk, hv, hl⟩ := h
    have h1 : jSpace 123 = false := by decide
    have hc0 : c ≠ 0 := by rw [hcount]; simp
    have e : fmtVal N ind level (.obj c ((k, v) :: l)) ++ rest = 123 :: ((fmtOpen ind ++
        fmtIndent ind (level + 1)) ++ (fmtStr k ++ 58 :: ((if ind = 0 then [] else [32]) ++
        (fmtVal N ind (level + 1) v ++ (fmtPairs N ind (level + 1) l
        ++ (fmtClose ind (level + 1) ++ 125 :: rest)))))) := by
      simp [fmtVal, hc0]
    have ef : f + steps (.obj c ((k, v) :: l)) = (f + 1 + stepsP l + steps v) + 1 + 1 := by
      simp only [steps, stepsP]; omega
    rw [e, ef, jLoop, skipWs_cons h1, jStep_123,
      jLoop_ws N _ _ (ws_app (ws_open _) (ws_indent _ _)),
      jLoop_key N _ ctx _ hk (ws_sp ind),
      loop_val N ind v (level + 1) hv _ (.obj jNew (some k) :: ctx) _
        (delim_pairs N ind _ l (ws_close _ _) rest) trivial,
      loop_pairs N ind l (level + 1) hl f ctx jNew k (plain v) _ (ws_close _ _) rest rfl
        (by simp [jNew]) hsort]
    simp [plain, plainP, jNew, hcount, Nat.add_comm]
/-- Reading the rest of an array -/
theorem loop_items {D} (N : NumLib D) (ind : Nat) : ∀ (l : List (JVal D)) (level : Nat),
    FitsL N l → ∀ (f : Nat) (ctx : List (JCtx D)) (acc : List (JVal D)) (u : JVal D) (w : Bytes),
    WsB w → ∀ (rest : Bytes),
    jAfter (jLoop N (f + 1 + stepsL l)) (.arr acc :: ctx) u
        (fmtItems N ind level l ++ (w ++ 93 :: rest))
      = jAfter (jLoop N f) ctx (.arr (acc ++ u :: plainL l)) rest
  | [], level, _, f, ctx, acc, u, w, hw, rest => by
    simp only [stepsL, fmtItems, List.nil_append, plainL]
    exact close_arr N f ctx acc u hw rest
  | v :: l, level, h, f, ctx, acc, u, w, hw, rest => by
    simp only [FitsL] at h
    have e : fmtItems N ind level (v :: l) ++ (w ++ 93 :: rest) = 44 :: (delimWs ind level ++
        (fmtVal N ind level v ++ (fmtItems N ind level l ++ (w ++ 93 :: rest)))) := by
      simp [fmtItems, fmtDelim_eq]
    have ef : f + 1 + stepsL (v :: l) = f + 1 + stepsL l + steps v := by
      simp only [stepsL]; omega
    rw [e, ef, after_comma_arr N _ ctx acc u (ws_delim _ _),
      loop_val N ind v level h.1 _ (.arr (acc ++ [u]) :: ctx) _
        (delim_items N ind _ l hw rest) trivial,
      loop_items N ind l level h.2 f ctx (acc ++ [u]) (plain v) w hw rest]
    simp [plainL]
/-- Reading the rest of an object -/
theorem loop_pairs {D} (N : NumLib D) (ind : Nat) : ∀ (l : List (Bytes × JVal D)) (level : Nat),
    FitsP N l → ∀ (f : Nat) (ctx : List (JCtx D)) (o : JObj (JVal D)) (k : Bytes) (u : JVal D)
    (w : Bytes), WsB w → ∀ (rest : Bytes), o.count = o.pairs.length →
    (∀ p ∈ o.pairs, strcmp p.1 k = .lt) →
    (∀ {v0 : JVal D}, ((k, v0) :: l).Pairwise (fun a b => Spec.LexLt a.1 b.1) →
    jAfter (jLoop N (f + 1 + stepsP l)) (.obj o (some k) :: ctx) u
        (fmtPairs N ind level l ++ (w ++ 125 :: rest))
      = jAfter (jLoop N f) ctx (.obj (o.count + 1 + l.length) (o.pairs ++ (k, u) :: plainP l)) rest)
  | [], level, _, f, ctx, o, k, u, w, hw, rest, hc, hlt => by
    intro _
    simp only [stepsP, fmtPairs, List.nil_append, plainP]
    exact close_obj N f ctx o _ k u (jSet_append hc hlt) hw rest
  | (k', v) :: l, level, h, f, ctx, o, k, u, w, hw, rest, hc, hlt => by
    intro hs
    simp only [FitsP] at h
    have e : fmtPairs N ind level ((k', v) :: l) ++ (w ++ 125 :: rest) = 44 :: (delimWs ind level ++
        (fmtStr k' ++ 58 :: ((if ind = 0 then [] else [32]) ++ (fmtVal N ind level v ++
          (fmtPairs N ind level l ++ (w ++ 125 :: rest)))))) := by
      simp [fmtPairs, fmtDelim_eq]
    have ef : f + 1 + stepsP ((k', v) :: l) = f + 1 + stepsP l + steps v + 1 := by
      simp only [stepsP]; omega
    have hs' := List.pairwise_cons.mp hs
    have hkk : strcmp k k' = .lt := (strcmp_lt_iff _ _).mpr (hs'.1 (k', v) List.mem_cons_self)
    rw [e, ef, after_comma_obj N _ ctx o _ k u (jSet_append hc hlt) (ws_delim _ _),
      jLoop_key N _ ctx _ h.1 (ws_sp ind),
      loop_val N ind v level h.2.1 _ (.obj _ (some k') :: ctx) _
        (delim_pairs N ind _ l hw rest) (by exact trivial),
      loop_pairs N ind l level h.2.2 f ctx _ k' (plain v) w hw rest (by simp [hc]) ?_ hs'.2]
    · have en : o.count + 1 + 1 + l.length = o.count + 1 + (l.length + 1) := by omega
      simp [plainP, en]
    · intro p hp
      simp only [List.mem_append, List.mem_singleton] at hp
      rcases hp with hp | rfl
      · exact strcmp_trans (hlt p hp) hkk
      · exact hkk
end

mutual
theorem steps_le {D} (N : NumLib D) (ind : Nat) : ∀ (v : JVal D) (level : Nat), Fits N v →
    steps v ≤ (fmtVal N ind level v).length
  | .null, _, _ => by simp [steps, fmtVal]
  | .bool b, _, _ => by cases b <;> simp [steps, fmtVal]
  | .num d, _, h => by
    obtain ⟨⟨c, r, e, _⟩, _⟩ := h
    simp [steps, fmtVal, e]
  | .int d, _, h => by
    obtain ⟨⟨c, r, e, _⟩, _⟩ := h
    simp [steps, fmtVal, e]
  | .str s, _, _ => by simp [steps, fmtVal, fmtStr]
  | .arr [], _, _ => by simp [steps, stepsL, fmtVal]
  | .arr (v :: l), level, h => by
    simp only [Fits, FitsL] at h
    have h1 := steps_le N ind v (level + 1) h.1
    have h2 := stepsL_le N ind l (level + 1) h.2
    simp only [steps, stepsL, fmtVal, List.length_cons, List.length_append, List.length_nil]
    omega
  | .obj c [], _, h => by
    have hc : c = 0 := h.1
    subst hc; simp [steps, stepsP, fmtVal]
  | .obj c ((k, v) :: l), level, h => by
    simp only [Fits, FitsP] at h
    have hc0 : c ≠ 0 := by rw [h.1]; simp
    have h1 := steps_le N ind v (level + 1) h.2.2.2.1
    have h2 := stepsP_le N ind l (level + 1) h.2.2.2.2
    simp only [steps, stepsP, fmtVal, if_neg hc0, List.length_cons, List.length_append,
      List.length_nil]
    omega
theorem stepsL_le {D} (N : NumLib D) (ind : Nat) : ∀ (l : List (JVal D)) (level : Nat),
    FitsL N l → stepsL l ≤ (fmtItems N ind level l).length
  | [], _, _ => by simp [stepsL]
  | v :: l, level, h => by
    simp only [FitsL] at h
    have h1 := steps_le N ind v level h.1
    have h2 := stepsL_le N ind l level h.2
    simp only [stepsL, fmtItems, List.length_append]
    omega
theorem stepsP_le {D} (N : NumLib D) (ind : Nat) : ∀ (l : List (Bytes × JVal D)) (level : Nat),
    FitsP N l → stepsP l ≤ (fmtPairs N ind level l).length
  | [], _, _ => by simp [stepsP]
  | (k, v) :: l, level, h => by
    simp only [FitsP] at h
    have h1 := steps_le N ind v level h.2.1
    have h2 := stepsP_le N ind l level h.2.2
    simp only [stepsP, fmtPairs, List.length_append, List.length_cons]
    omega
end

theorem jsonParse_fmt {D} (N : NumLib D) (ind level : Nat) {v : JVal D} (h : Fits N v)
    {rest : Bytes} (hr : Delim rest) :
    jsonParse N (fmtVal N ind level v ++ rest) = .ok (plain v) rest := by
  have hl := steps_le N ind v level h
  unfold jsonParse
  obtain ⟨f, hf⟩ : ∃ f, (fmtVal N ind level v ++ rest).length + 1 = f + steps v :=
    ⟨(fmtVal N ind level v ++ rest).length + 1 - steps v, by rw [List.length_append]; omega⟩
  rw [hf, loop_val N ind v level h f [] rest hr trivial]
  rfl

end Pound
