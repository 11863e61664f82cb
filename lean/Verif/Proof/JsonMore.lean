import Verif.Proof.JsonDoc
import Verif.Model.Expand

namespace Pound

open Spec (Clean CleanL CleanP StrValid JsonText JsonItems JsonMembers JsonString StrChar Ws)

/-! ### Formatted values are JSON texts -/

theorem ws_spec {w : Bytes} (h : WsB w) : Ws w := by
  intro c hc
  have := h c hc
  simpa [jSpace, or_assoc] using this

theorem strChar_fmt (c : UInt8) :
    (0x20 ≤ c ∨ c = 8 ∨ c = 12 ∨ c = 10 ∨ c = 13 ∨ c = 9) → StrChar (fmtCh c) := by
  intro h
  unfold fmtCh
  cases he : escapeCh c with
  | some o =>
    refine .esc o ?_
    have : ∀ c : UInt8, ∀ o, escapeCh c = some o → o ∈ b!"\"\\/bfnrt" := by
      apply forall_byte; decide +kernel
    exact this c o he
  | none =>
    have h' := esc_none c he
    refine .plain c ?_ h'.1 h'.2
    rcases h with h | h
    · exact h
    · exfalso
      rcases h with rfl | rfl | rfl | rfl | rfl <;> exact absurd he (by decide)

theorem jsonString_fmt {s : Bytes} (h : StrValid s) : JsonString (fmtStr s) := by
  refine ⟨s.map fmtCh, ?_, ?_⟩
  · intro t ht
    obtain ⟨c, hc, rfl⟩ := List.mem_map.mp ht
    exact strChar_fmt c (h c hc)
  · rw [fmtStr, List.flatMap]; rfl

mutual
theorem text_val {D} (N : NumLib D) (num : Bytes → Prop) (ind : Nat) : ∀ (v : JVal D) (level : Nat),
    Clean N num v → JsonText num (fmtVal N ind level v)
  | .null, _, _ => by rw [fmtVal]; exact .null
  | .bool true, _, _ => by rw [fmtVal, if_pos rfl]; exact .true
  | .bool false, _, _ => by rw [fmtVal, if_neg (by simp)]; exact .false
  | .num d, _, h => by rw [fmtVal]; exact .number _ h
  | .int d, _, h => by rw [fmtVal]; exact .number _ h
  | .str s, _, h => by rw [fmtVal]; exact .string _ (jsonString_fmt h)
  | .arr [], _, _ => by
    simp only [fmtVal, List.nil_append]
    exact .emptyArray [] (by intro c hc; cases hc)
  | .arr (v :: l), level, h => by
    simp only [Clean, CleanL] at h
    have hi := text_items N num ind l (level + 1) h.2 v (level + 1) h.1
      (fmtOpen ind ++ fmtIndent ind (level + 1)) (fmtClose ind (level + 1))
      (ws_app (ws_open _) (ws_indent _ _)) (ws_close _ _)
      (text_val N num ind v (level + 1) h.1)
    have := JsonText.array _ hi
    simpa [fmtVal] using this
  | .obj c [], _, h => by
    have hc : c = 0 := h.1
    subst hc
    simp only [fmtVal, if_true, List.nil_append]
    exact .emptyObject [] (by intro c hc; cases hc)
  | .obj c ((k, v) :: l), level, h => by
    simp only [Clean, CleanP] at h
    have hc0 : c ≠ 0 := by rw [h.1]; simp
    have hi := text_pairs N num ind l (level + 1) h.2.2.2 k h.2.1 v (level + 1) h.2.2.1
      (fmtOpen ind ++ fmtIndent ind (level + 1)) (fmtClose ind (level + 1))
      (ws_app (ws_open _) (ws_indent _ _)) (ws_close _ _)
      (text_val N num ind v (level + 1) h.2.2.1)
    have := JsonText.object _ hi
    simpa [fmtVal, hc0] using this
theorem text_items {D} (N : NumLib D) (num : Bytes → Prop) (ind : Nat) :
    ∀ (l : List (JVal D)) (level : Nat), CleanL N num l → ∀ (v : JVal D) (lv : Nat),
    Clean N num v → ∀ (w w' : Bytes), WsB w → WsB w' → JsonText num (fmtVal N ind lv v) →
    JsonItems num (w ++ fmtVal N ind lv v ++ fmtItems N ind level l ++ w')
  | [], level, _, v, lv, hv, w, w', hw, hw', ht => by
    have := JsonItems.one w _ w' (ws_spec hw) ht (ws_spec hw')
    simpa [fmtItems] using this
  | u :: l, level, h, v, lv, hv, w, w', hw, hw', ht => by
    simp only [CleanL] at h
    have h1 := text_items N num ind l level h.2 u level h.1 (delimWs ind level) w'
      (ws_delim _ _) hw' (text_val N num ind u level h.1)
    have := JsonItems.more w _ [] _ (ws_spec hw) ht (by intro c hc; cases hc) h1
    simpa [fmtItems, fmtDelim_eq] using this
theorem text_pairs {D} (N : NumLib D) (num : Bytes → Prop) (ind : Nat) :
    ∀ (l : List (Bytes × JVal D)) (level : Nat), CleanP N num l → ∀ (k : Bytes), StrValid k →
    ∀ (v : JVal D) (lv : Nat),
    Clean N num v → ∀ (w w' : Bytes), WsB w → WsB w' → JsonText num (fmtVal N ind lv v) →
    JsonMembers num (w ++ fmtStr k ++ 58 :: (if ind = 0 then [] else [32]) ++ fmtVal N ind lv v
      ++ fmtPairs N ind level l ++ w')
  | [], level, _, k, hk, v, lv, hv, w, w', hw, hw', ht => by
    have := JsonMembers.one w _ [] _ _ w' (ws_spec hw) (jsonString_fmt hk)
      (by intro c hc; cases hc) (ws_spec (ws_sp ind)) ht (ws_spec hw')
    simpa [fmtPairs] using this
  | (k', u) :: l, level, h, k, hk, v, lv, hv, w, w', hw, hw', ht => by
    simp only [CleanP] at h
    have h1 := text_pairs N num ind l level h.2.2 k' h.1 u level h.2.1 (delimWs ind level) w'
      (ws_delim _ _) hw' (text_val N num ind u level h.2.1)
    have := JsonMembers.more w _ [] _ _ [] _ (ws_spec hw) (jsonString_fmt hk)
      (by intro c hc; cases hc) (ws_spec (ws_sp ind)) ht (by intro c hc; cases hc) h1
    simpa [fmtPairs, fmtDelim_eq] using this
end

/-! ### The parser stops -/

theorem jCopy_rest : ∀ (f : Nat) (p out o r : Bytes), jCopy f p out = .ok (o, r) →
    r.length < p.length
  | 0, _, _, _, _, h => by simp [jCopy] at h
  | f + 1, [], _, _, _, h => by simp [jCopy] at h
  | f + 1, c :: p, out, o, r, h => by
    unfold jCopy at h
    by_cases h34 : c = 34
    · rw [if_pos h34] at h
      simp only [Res.ok.injEq, Prod.mk.injEq] at h
      rw [← h.2]; simp
    · rw [if_neg h34] at h
      by_cases h92 : c = 92
      · rw [if_pos h92] at h
        cases p with
        | nil => simp at h
        | cons d p' =>
          dsimp only at h
          split at h
          · have := jCopy_rest f _ _ _ _ h
            simp; omega
          · split at h
            · simp at h
            · split at h
              · simp at h
              · split at h
                · simp at h
                · have := jCopy_rest f _ _ _ _ h
                  simp only [List.length_drop, List.length_cons] at this ⊢; omega
            · have := jCopy_rest f _ _ _ _ h
              simp; omega
      · rw [if_neg h92] at h
        have := jCopy_rest f _ _ _ _ h
        simp; omega

theorem jGetText_rest {p s r : Bytes} (h : jGetText p = .ok (some (s, r))) :
    r.length < p.length := by
  unfold jGetText at h
  split at h
  · simp at h
  · simp at h
  · split at h
    · simp at h
    · rename_i out rest hcopy
      split at h
      · simp at h
      · simp only [Res.ok.injEq, Option.some.injEq, Prod.mk.injEq] at h
        rw [← h.2]
        exact jCopy_rest _ _ _ _ _ hcopy

theorem skipWs_len (p : Bytes) : (skipWs p).length ≤ p.length := by
  induction p with
  | nil => simp [skipWs]
  | cons c p ih =>
    unfold skipWs at *
    rw [List.dropWhile_cons]
    split
    · simp; omega
    · simp

theorem skipWs_idem (p : Bytes) : skipWs (skipWs p) = skipWs p := by
  induction p with
  | nil => rfl
  | cons c p ih =>
    by_cases h : jSpace c = true
    · have : skipWs (c :: p) = skipWs p := by
        unfold skipWs; rw [List.dropWhile_cons, if_pos h]
      rw [this, ih]
    · have h' : jSpace c = false := by simpa using h
      rw [skipWs_cons h', skipWs_cons h']

/-- strtod gives back a final part of its text. -/
def StrtodSane {D} (N : NumLib D) : Prop := ∀ p, ∃ q, p = q ++ (N.strtod p).2

theorem jAfter_stops {D} {go : List (JCtx D) → Bytes → JRes D} {n : Nat}
    (hgo : ∀ ctx p, (skipWs p).length < n → go ctx p ≠ .hung) {ctx : List (JCtx D)} {v : JVal D}
    {input : Bytes} (hi : input.length < n ∨
      (input.length ≤ n ∧ ∃ c t, input = c :: t ∧ numStart c = true)) :
    jAfter go ctx v input ≠ .hung := by
  unfold jAfter
  have hle := skipWs_len input
  split
  · simp
  · split
    · simp
    · simp
    · split
      · simp
      · rename_i d p heq
        have hd : (d :: p).length ≤ input.length := by rw [← heq]; exact hle
        have hp := skipWs_len p
        have hidem : skipWs (d :: p) = d :: p := by rw [← heq]; exact skipWs_idem input
        split
        · apply hgo
          simp only [List.length_cons] at hd
          rcases hi with hi | ⟨hi, -⟩ <;> omega
        · split
          · rename_i hb
            apply hgo
            rw [hidem]
            rcases hi with hi | ⟨hi, c, t, rfl, hc⟩
            · omega
            · exfalso
              have hns : ∀ c : UInt8, numStart c = true → jSpace c = false ∧ c ≠ 93 ∧ c ≠ 125 := by
                apply forall_byte; decide +kernel
              rw [skipWs_cons (hns c hc).1] at heq
              simp only [List.cons.injEq] at heq
              rcases hb with hb | hb
              · exact (hns c hc).2.1 (heq.1.trans hb)
              · exact (hns c hc).2.2 (heq.1.trans hb)
          · simp

theorem jLoop_stops {D} {N : NumLib D} (hN : StrtodSane N) : ∀ (f : Nat) (ctx : List (JCtx D))
    (p : Bytes), (skipWs p).length < f → jLoop N f ctx p ≠ .hung
  | 0, _, _, h => by omega
  | f + 1, ctx, p, h => by
    have ih := jLoop_stops hN f
    rw [jLoop]
    generalize hq : skipWs p = q
    rw [hq] at h
    unfold jStep
    have hlen : ∀ n, ((q.drop (n + 1)).length < f ∨
        ((q.drop (n + 1)).length ≤ f ∧ ∃ c t, q.drop (n + 1) = c :: t ∧ numStart c = true)) ∨ q = [] := by
      intro n
      cases q with
      | nil => exact Or.inr rfl
      | cons c q =>
        left; left
        simp only [List.drop_succ_cons, List.length_drop, List.length_cons] at h ⊢
        omega
    split
    · simp
    · rename_i c t
      have ht : t.length < f := by simpa using h
      have hst := skipWs_len t
      split
      · exact ih _ _ (by omega)
      split
      · split
        · exact jAfter_stops ih (Or.inl ht)
        · simp
      split
      · exact ih _ _ (by omega)
      split
      · split
        · exact jAfter_stops ih (Or.inl ht)
        · simp
      split
      · split
        · simp
        · simp
        · rename_i s rest hg
          have hr := jGetText_rest hg
          split
          · split
            · simp
            · rename_i d rest' heq
              have h1 := skipWs_len rest
              rw [heq] at h1
              have h2 := skipWs_len rest'
              simp only [List.length_cons] at h1
              split
              · exact ih _ _ (by omega)
              · simp
          · exact jAfter_stops ih (Or.inl (by omega))
      split
      · rename_i hns
        dsimp only
        split
        · simp
        · obtain ⟨q', hq'⟩ := hN (c :: t)
          refine jAfter_stops ih ?_
          have hl := congrArg List.length hq'
          simp only [List.length_cons, List.length_append] at hl
          cases q' with
          | nil =>
            right
            refine ⟨by omega, c, t, by simpa using hq'.symm, hns⟩
          | cons a q' =>
            left
            simp only [List.length_cons] at hl
            omega
      split
      · exact jAfter_stops ih ((hlen 3).resolve_right (by simp))
      split
      · exact jAfter_stops ih ((hlen 3).resolve_right (by simp))
      split
      · exact jAfter_stops ih ((hlen 4).resolve_right (by simp))
      · simp

theorem jsonParse_stops {D} {N : NumLib D} (hN : StrtodSane N) (p : Bytes) :
    jsonParse N p ≠ .hung := by
  have := skipWs_len p
  exact jLoop_stops hN _ _ _ (by omega)

/-! ### Numbers: an instance for integers -/

theorem decAux_digits : ∀ (f n : Nat), ∀ c ∈ decAux f n, isDigit c = true
  | 0, _ => by simp [decAux]
  | f + 1, n => by
    intro c hc
    rw [decAux] at hc
    rcases List.mem_append.mp hc with h | h
    · split at h
      · cases h
      · exact decAux_digits f _ c h
    · simp only [List.mem_singleton] at h
      subst h
      have : ∀ k : Fin 10, isDigit (UInt8.ofNat (48 + k.val)) = true := by decide
      exact this ⟨n % 10, Nat.mod_lt _ (by omega)⟩

/-- The value of a string of decimal digits -/
def decVal (ds : Bytes) : Nat := ds.foldl (fun a c => a * 10 + (c.toNat - 48)) 0

theorem decVal_append (ds : Bytes) (c : UInt8) : decVal (ds ++ [c]) = decVal ds * 10 + (c.toNat - 48) := by
  simp [decVal]

theorem digit_back (n : Nat) : (UInt8.ofNat (48 + n % 10)).toNat - 48 = n % 10 := by
  have : ∀ k : Fin 10, (UInt8.ofNat (48 + k.val)).toNat - 48 = k.val := by decide
  exact this ⟨n % 10, Nat.mod_lt _ (by omega)⟩

theorem decVal_decAux : ∀ (f n : Nat), n < f → decVal (decAux f n) = n
  | 0, _, h => by omega
  | f + 1, n, h => by
    rw [decAux, decVal_append, digit_back]
    split
    · simp [decVal]; omega
    · rw [decVal_decAux f (n / 10) (by omega)]; omega

theorem dec_ne (n : Nat) : dec n ≠ [] := by
  unfold dec; rw [decAux]; simp

/-- "%.0f" and strtod on doubles that are integers (exact up to 2^53) -/
def intLib : NumLib Int where
  fmtNum n := (if n < 0 then [45] else []) ++ dec n.natAbs
  fmtInt n := (if n < 0 then [45] else []) ++ dec n.natAbs
  strtod p :=
    match p with
    | 45 :: q => (-(decVal (q.takeWhile isDigit) : Int), q.dropWhile isDigit)
    | p => ((decVal (p.takeWhile isDigit) : Int), p.dropWhile isDigit)
  negHuge _ := false
  posHuge _ := false

theorem digits_delim {ds rest : Bytes} (hd : ∀ c ∈ ds, isDigit c = true) (hr : Spec.Delim rest) :
    (ds ++ rest).takeWhile isDigit = ds ∧ (ds ++ rest).dropWhile isDigit = rest := by
  induction ds with
  | nil =>
    rcases hr with rfl | ⟨c, t, rfl, hc⟩
    · simp
    · have : ∀ c : UInt8, c ∈ b!",]} \t\n\r" → isDigit c = false := by
        apply forall_byte; decide +kernel
      simp [this c hc]
  | cons a ds ih =>
    have ih := ih fun c hc => hd c (List.mem_cons_of_mem _ hc)
    simp [hd a List.mem_cons_self, ih.1, ih.2]

theorem intLib_reads (n : Int) : Spec.NumRead intLib (intLib.fmtNum n) n := by
  have hdig : ∀ c ∈ dec n.natAbs, isDigit c = true := decAux_digits _ _
  have hval : decVal (dec n.natAbs) = n.natAbs := decVal_decAux _ _ (by omega)
  obtain ⟨a, t, hat⟩ : ∃ a t, dec n.natAbs = a :: t := by
    cases h : dec n.natAbs with
    | nil => exact absurd h (dec_ne _)
    | cons a t => exact ⟨a, t, rfl⟩
  have ha : isDigit a = true := hdig a (by rw [hat]; exact List.mem_cons_self)
  have hmem : ∀ c : UInt8, isDigit c = true → c ∈ b!"-+.0123456789" ∧ c ≠ 45 := by
    apply forall_byte; decide +kernel
  refine ⟨?_, rfl, rfl, ?_⟩
  · show ∃ c r, (if n < 0 then [45] else []) ++ dec n.natAbs = c :: r ∧ _
    split
    · exact ⟨45, _, rfl, by decide⟩
    · exact ⟨a, t, by rw [hat]; rfl, (hmem a ha).1⟩
  · intro rest hr
    have hd := digits_delim hdig hr
    show intLib.strtod ((if n < 0 then [45] else []) ++ dec n.natAbs ++ rest) = _
    split
    · show (-(decVal ((dec n.natAbs ++ rest).takeWhile isDigit) : Int),
        (dec n.natAbs ++ rest).dropWhile isDigit) = _
      rw [hd.1, hd.2, hval]
      congr 1; omega
    · have : intLib.strtod (dec n.natAbs ++ rest) =
          ((decVal ((dec n.natAbs ++ rest).takeWhile isDigit) : Int),
            (dec n.natAbs ++ rest).dropWhile isDigit) := by
        rw [hat]
        show (match a :: (t ++ rest) with
          | 45 :: q => (-(decVal (q.takeWhile isDigit) : Int), q.dropWhile isDigit)
          | p => ((decVal (p.takeWhile isDigit) : Int), p.dropWhile isDigit)) = _
        split
        · rename_i q heq
          simp only [List.cons.injEq] at heq
          exact absurd heq.1 (hmem a ha).2
        · rfl
      rw [List.nil_append, this, hd.1, hd.2, hval]
      congr 1; omega

theorem intLib_sane : StrtodSane intLib := by
  intro p
  show ∃ q, p = q ++ (match p with
    | 45 :: q => (-(decVal (q.takeWhile isDigit) : Int), q.dropWhile isDigit)
    | p => ((decVal (p.takeWhile isDigit) : Int), p.dropWhile isDigit)).2
  split
  · rename_i q
    exact ⟨45 :: q.takeWhile isDigit, by simp⟩
  · exact ⟨p.takeWhile isDigit, by simp⟩

theorem dec_json (n : Nat) : ∀ f, n < f → ∃ d ds, decAux f n = d :: ds ∧
    (∀ c ∈ d :: ds, 48 ≤ c ∧ c ≤ 57) ∧ (d = 48 → n = 0 ∧ ds = []) := by
  induction n using Nat.strongRecOn with
  | ind n ih =>
    intro f hf
    match f, hf with
    | f + 1, hf =>
      rw [decAux]
      by_cases h : n < 10
      · rw [if_pos h, List.nil_append]
        have key : ∀ k : Fin 10, (48 ≤ UInt8.ofNat (48 + k.val % 10) ∧
            UInt8.ofNat (48 + k.val % 10) ≤ 57) ∧ (UInt8.ofNat (48 + k.val % 10) = 48 → k.val = 0) := by
          decide
        have := key ⟨n, h⟩
        refine ⟨_, [], rfl, ?_, fun e => ⟨this.2 e, rfl⟩⟩
        intro c hc
        simp only [List.mem_singleton] at hc
        rw [hc]; exact this.1
      · rw [if_neg h]
        obtain ⟨d, ds, e, hd, h0⟩ := ih (n / 10) (by omega) f (by omega)
        rw [e]
        refine ⟨d, ds ++ [UInt8.ofNat (48 + n % 10)], rfl, ?_, ?_⟩
        · intro c hc
          rw [← List.cons_append] at hc
          rcases List.mem_append.mp hc with hc | hc
          · exact hd c hc
          · simp only [List.mem_singleton] at hc
            have : ∀ k : Fin 10, 48 ≤ UInt8.ofNat (48 + k.val) ∧ UInt8.ofNat (48 + k.val) ≤ 57 := by
              decide
            rw [hc]; exact this ⟨n % 10, Nat.mod_lt _ (by omega)⟩
        · intro e0
          have := (h0 e0).1
          omega

theorem intLib_json (n : Int) : Spec.JsonInt (intLib.fmtNum n) := by
  obtain ⟨d, ds, e, hd, h0⟩ := dec_json n.natAbs (n.natAbs + 1) (by omega)
  refine ⟨if n < 0 then [45] else [], d, ds, ?_, ?_, hd, fun h => (h0 h).2⟩
  · show _ ++ dec n.natAbs = _
    unfold dec; rw [e]
  · split <;> simp

/-! ### Arrays -/

/-- The slots in use have been written. -/
def JArrInv {V} (a : JArr V) (l : List V) : Prop :=
  a.oc = l.length ∧ ∃ tail, a.ov = l.map some ++ tail

theorem jArrAppend_inv {V} {a : JArr V} {l : List V} (h : JArrInv a l) (extra : Nat) (v : V) :
    JArrInv (jArrAppend extra a v) (l ++ [v]) := by
  obtain ⟨hoc, tail, hov⟩ := h
  unfold jArrAppend jArrInsert
  rw [if_pos (Nat.le_refl _)]
  refine ⟨by simp [hoc], ?_⟩
  have key : ∀ x t, ((l.map some ++ x :: t).set a.oc (some v)) = (l ++ [v]).map some ++ t := by
    intro x t
    rw [hoc, List.set_append]
    simp
  cases tail with
  | nil =>
    have hlen : a.ov.length ≤ a.oc := by rw [hov]; simp [hoc]
    dsimp only
    rw [if_pos hlen]
    simp only [jArrExpand, hov, List.append_nil, List.replicate_succ]
    exact ⟨_, key _ _⟩
  | cons x t =>
    have hlen : ¬ a.ov.length ≤ a.oc := by rw [hov]; simp [hoc]
    dsimp only
    rw [if_neg hlen, hov]
    exact ⟨_, key _ _⟩

theorem jArrGet_inv {V} {a : JArr V} {l : List V} (h : JArrInv a l) (i : Nat) :
    jArrGet a i = .ok l[i]? := by
  obtain ⟨hoc, tail, hov⟩ := h
  unfold jArrGet
  by_cases hi : a.oc ≤ i
  · rw [if_pos hi, List.getElem?_eq_none (by omega)]
  · rw [if_neg hi, hov, List.getElem?_append_left (by simp; omega), List.getElem?_map,
      List.getElem?_eq_getElem (by omega)]
    rfl

/-- A history of appends; the k-th one allocates `extra k` slots more than needed. -/
def jArrAppends {V} (extra : Nat → Nat) : JArr V → List V → JArr V
  | a, [] => a
  | a, v :: l => jArrAppends (fun k => extra (k + 1)) (jArrAppend (extra 0) a v) l

theorem jArrAppends_inv {V} : ∀ (l : List V) (extra : Nat → Nat) (a : JArr V) (m : List V),
    JArrInv a m → JArrInv (jArrAppends extra a l) (m ++ l)
  | [], extra, a, m, h => by simpa [jArrAppends] using h
  | v :: l, extra, a, m, h => by
    have := jArrAppends_inv l (fun k => extra (k + 1)) _ _ (jArrAppend_inv h (extra 0) v)
    simpa [jArrAppends] using this

end Pound
