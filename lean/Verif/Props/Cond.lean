import Verif.Proof.Cond

/-!
Properties C14-C16: conditions, choice of the service, rewriting rules.
-/

namespace Pound.Props
open Pound Spec

/-! ## C14 Conditions evaluate as the boolean formula that was configured -/

/-- What conditions look at: the request, the header lines, the matches recorded so far. -/
structure View where
  req : Req
  hs : List Bytes
  ms : List (MatchRes × Bytes)
  /-- the client's request and its header lines, if something else is looked at -/
  src : Option (Req × List Bytes) := none

/-- With one more recorded match. -/
def View.push (s : View) (m : MatchRes) (subject : Bytes) : View := { s with ms := (m, subject) :: s.ms }

/-- What string templates refer to. -/
def View.env (s : View) (groups : Nat → Option (List Bytes)) : Env :=
  ⟨groups, some (match s.src with
    | none => Accesses s.req.url s.req.getPath.2 s.req.getQuery.2 (fun a => (s.req.getParam a).2) s.hs
    | some (r, hs) => Accesses r.url r.getPath.2 r.getQuery.2 (fun a => (r.getParam a).2) hs)⟩

/-- A value as an error (-1), no (not 0 or -1) or yes (0): `acl_match`, `basic_auth`. -/
def triState (r : Int) : Option Bool := if r = -1 then none else some (r == 0)

/-- Offsets relative to the value of a header line instead of the whole line; `k` is the length of what
precedes the value. Group 0 starts with the line, so now with the value. -/
def inValue (k : Nat) : List (Int × Int) → List (Int × Int)
  | [] => []
  | (so, eo) :: t => (so, eo - (k : Int)) :: t.map fun o => (o.1 - (k : Int), o.2 - (k : Int))

/-- Outcome of an elementary test: true, false or an error, and the matches recorded by it. -/
inductive Test (x : CondCtx) : Elem → View → Option Bool → View → Prop
  | acl {id s} : Test x (.acl id) s (triState (x.acl id)) s
  | auth {id s} : Test x (.auth id) s (triState (x.auth id s.hs)) s
  | cert {id s} : Test x (.cert id) s (some (x.cert id)) s
  | url {re s} : Test x (.url re) s (some (re s.req.url).ok) (s.push (re s.req.url) s.req.url)
  | path {re s p} : s.req.getPath.2 = p → Test x (.path re) s (some (re p).ok) (s.push (re p) p)
  | query {re s q} : s.req.getQuery.2 = some q → Test x (.query re) s (some (re q).ok) (s.push (re q) q)
  | param {k re s v} : (s.req.getParam k).2 = some (some v) → Test x (.param k re) s (some (re v).ok) (s.push (re v) v)
  | noParam {k re s} : (s.req.getParam k).2 = none ∨ (s.req.getParam k).2 = some none →
      Test x (.param k re) s (some false) s
  | hdr {re s a l b} : s.hs = a ++ l :: b → (∀ t ∈ a, (re t).ok = false) → (re l).ok = true →
      Test x (.hdr re) s (some true) (s.push (re l) l)
  | noHdr {re s m sub} : (∀ t ∈ s.hs, (re t).ok = false) → m.ok = false →
      Test x (.hdr re) s (some false) (s.push m sub)
  | host {re s a l b n v k} : s.hs = a ++ l :: b → (∀ t ∈ a, (re t).ok = false) → (re l).ok = true →
      HeaderLine l n v → ciEq n b!"Host" = true → v.head? ≠ some 10 → (re l).groups ≠ [] → l.length = k + v.length →
      Test x (.host re) s (some true) (s.push ⟨true, inValue k (re l).groups⟩ v)
  | noHost {re s m sub} : (∀ t ∈ s.hs, (re t).ok = false) → m.ok = false →
      Test x (.host re) s (some false) (s.push m sub)
  | str {t re s groups o n} : HistoryOf s.ms groups →
      Expands (s.env groups) (okScope (s.env groups)) t (some (o, n)) →
      Test x (.strMatch t re) s (some (re o).ok) (s.push (re o) o)
  | strFail {t re s groups} : HistoryOf s.ms groups →
      Expands (s.env groups) (okScope (s.env groups)) t none → Test x (.strMatch t re) s none s

mutual
/-- The formula of a condition. -/
def _root_.Pound.Cond.formula : Cond → Formula Elem
  | .elem e => .test e
  | .bool .not [] => .or []
  | .bool .not (c :: _) => .not c.formula
  | .bool .and cs => .and (formulas cs)
  | .bool .or cs => .or (formulas cs)
def formulas : List Cond → List (Formula Elem)
  | [] => []
  | c :: cs => c.formula :: formulas cs
end

mutual
/-- A negation has one operand, a disjunction has at least one. -/
def _root_.Pound.Cond.Wf : Cond → Prop
  | .elem _ => True
  | .bool .not cs => cs.length = 1 ∧ AllWf cs
  | .bool .or cs => cs ≠ [] ∧ AllWf cs
  | .bool .and cs => AllWf cs
def AllWf : List Cond → Prop
  | [] => True
  | c :: cs => c.Wf ∧ AllWf cs
end

/-- The client's request, as the program and the view have it -/
def SameSrc : Option (Req × List Header) → Option (Req × List Bytes) → Prop
  | none, none => True
  | some (r, hs), some (r', ts) => SameReq r r' ∧ hs.map (·.text) = ts ∧ HeaderList hs
  | _, _ => False

/-- The state of the program corresponds to the view. -/
structure Looks (st : PState) (s : View) : Prop where
  req : SameReq st.req s.req
  hs : st.hs.map (·.text) = s.hs
  list : HeaderList st.hs
  ms : Recorded st.smq s.ms
  src : SameSrc st.src s.src

/-- Result values of the program: 1, 0, -1. -/
def condCode : Option Bool → Int
  | some true => 1
  | some false => 0
  | none => -1

theorem Looks.push {st : PState} {s : View} (h : Looks st s) (r : Req) (hr : SameReq r st.req) (re : Re) (sub : Bytes) :
    ∃ st', execPush { st with req := r } re sub = (st', .val (condCode (some (re sub).ok))) ∧
      Looks st' (s.push (re sub) sub) := by
  refine ⟨{ st with req := r, smq := st.smq.push.exec (re sub) sub }, ?_, ?_⟩
  · simp only [execPush]
    cases (re sub).ok <;> rfl
  · exact ⟨hr.trans h.req, h.hs, h.list, recorded_exec h.ms _ _, h.src⟩

theorem triState_code (r : Int) :
    (if r = -1 then (-1 : Int) else if r = 0 then 1 else 0) = condCode (triState r) := by
  unfold triState
  by_cases h : r = -1
  · simp [h, condCode]
  · simp only [h, if_false]
    by_cases h0 : r = 0
    · simp [h0, condCode]
    · simp [h0, condCode, beq_false_of_ne h0]

theorem expand_view {st : PState} {s : View} (h : Looks st s) {groups t v} (hg : HistoryOf s.ms groups)
    (he : Expands (s.env groups) (okScope (s.env groups)) t v) :
    expandString st.env t = v.elim .null fun p => .str p.1 := by
  have key : ∀ (r r' : Req) (hs : List Header), SameReq r r' → HeaderList hs →
      Expands ⟨groups, some (accessorsOf r' hs)⟩ (okScope ⟨groups, some (accessorsOf r' hs)⟩) t v →
      expandString ⟨st.smq, some (accessor r hs)⟩ t = v.elim .null fun p => .str p.1 := by
    intro r r' hs h1 h2 h3
    rw [← SameReq.accessorsOf h1] at h3
    rw [(C12_expand_partial st.smq s.ms h.ms r hs h2 groups hg t v h3).1]
    cases v <;> rfl
  have hsrc := h.src
  unfold PState.env
  unfold View.env at he
  cases e1 : st.src with
  | none =>
    cases e2 : s.src with
    | none => rw [e2] at he; exact key _ _ _ h.req h.list (by simp only [accessorsOf, h.hs]; exact he)
    | some y => rw [e1, e2] at hsrc; cases hsrc
  | some x =>
    cases e2 : s.src with
    | none => rw [e1, e2] at hsrc; cases hsrc
    | some y =>
      rw [e1, e2] at hsrc
      rw [e2] at he
      obtain ⟨g1, g2, g3⟩ := hsrc
      exact key _ _ _ g1 g3 (by simp only [accessorsOf, g2]; exact he)

theorem hostFix_line {l n v : Bytes} {k : Nat} (hl : HeaderLine l n v) (hn : ciEq n b!"Host" = true)
    (hv : v.head? ≠ some 10) (hk : l.length = k + v.length) {sm : Submatch} (hs : sm.subject = some l)
    (hg : sm.matchv ≠ []) :
    hostFix sm = .ok { sm with subject := some v, matchv := inValue k sm.matchv } := by
  obtain ⟨ws, rfl, hn0, hn1, hw, hv1⟩ := hl
  have hlen : n.length = 4 := by
    have := ciEq_length hn
    simpa using this
  have hd1 : (n ++ ch%':' :: (ws ++ v)).dropWhile isHostWs = n ++ ch%':' :: (ws ++ v) := by
    cases n with
    | nil => exact absurd rfl hn0
    | cons c n =>
      have hc := hn1 c (by simp)
      have : isHostWs c = false := by
        revert hc
        have key : ∀ c : UInt8, isHostWs c = true → ¬ (isTChar c = true) := by apply forall_byte; decide +kernel
        intro hc
        cases hb : isHostWs c with
        | false => rfl
        | true =>
          exfalso
          simp only [isHostWs, Bool.or_eq_true, beq_iff_eq] at hb
          rcases hb with (rfl | rfl) | rfl <;> revert hc <;> unfold TChar <;> decide
      simp [List.dropWhile_cons, this]
  have hd2 : (n ++ ch%':' :: (ws ++ v)).drop 5 = ws ++ v := by
    have : n ++ ch%':' :: (ws ++ v) = (n ++ [ch%':']) ++ (ws ++ v) := by simp
    rw [this, List.drop_append_of_le_length (by simp [hlen])]
    rw [List.drop_of_length_le (by simp [hlen])]
    rfl
  have hd3 : (ws ++ v).dropWhile isHostWs = v := by
    have h1 : ∀ c ∈ ws, isHostWs c = true := by
      intro c hc
      rcases hw c hc with rfl | rfl <;> decide
    rw [List.dropWhile_append_of_pos h1]
    cases v with
    | nil => rfl
    | cons c v =>
      have h2 := hv1 c rfl
      have h3 : c ≠ 10 := fun e => hv (by simp [e])
      have : isHostWs c = false := by simp [isHostWs, h2.1, h2.2, h3]
      simp [List.dropWhile_cons, this]
  unfold hostFix
  cases hm : sm.matchv with
  | nil => exact absurd hm hg
  | cons o mv =>
    obtain ⟨so, eo⟩ := o
    simp only [hs, hd1, hd2, hd3]
    rw [if_neg (by simp [hlen]; omega)]
    have e : ((List.length (n ++ ch%':' :: (ws ++ v)) : Nat) : Int) - (v.length : Int) = (k : Int) := by
      rw [hk]; omega
    simp only [e, inValue]

theorem elem_test {x : CondCtx} {e : Elem} {st : PState} {s s' : View} {v} (h : Looks st s) (ht : Test x e s v s') :
    ∃ st', matchElem x e st = (st', .val (condCode v)) ∧ Looks st' s' := by
  have htext : ∀ {re : Re}, (∀ t ∈ s.hs, (re t).ok = false) → ∀ y ∈ st.hs, (re y.text).ok = false := by
    intro re hre y hy
    exact hre _ (by rw [← h.hs]; exact List.mem_map_of_mem hy)
  have hsplit : ∀ {a l b}, s.hs = a ++ l :: b → ∃ a' y b', st.hs = a' ++ y :: b' ∧ a'.map (·.text) = a ∧ y.text = l := by
    intro a l b hab
    rw [← h.hs] at hab
    obtain ⟨a', r, h1, h2, h3⟩ := List.map_eq_append_iff.1 hab
    obtain ⟨y, b', rfl, h4, h5⟩ := List.map_eq_cons_iff.1 h3
    exact ⟨a', y, b', h1, h2, h4⟩
  cases ht with
  | acl => exact ⟨st, by simp only [matchElem, triState_code], h⟩
  | auth => exact ⟨st, by simp only [matchElem, triState_code, h.hs], h⟩
  | cert => exact ⟨st, by simp only [matchElem]; cases x.cert _ <;> rfl, h⟩
  | url =>
    rename_i re
    have := h.push st.req (SameReq.refl _) re s.req.url
    simp only [matchElem, h.req.url]
    exact this
  | path hp =>
    rename_i re p
    have := h.push st.req.getPath.1 (sameReq_getPath _) re p
    simp only [matchElem, h.req.path, hp]
    exact this
  | query hp =>
    rename_i re p
    have := h.push st.req.getQuery.1 (sameReq_getQuery _) re p
    simp only [matchElem, h.req.query, hp]
    exact this
  | param hp =>
    rename_i k re p
    have := h.push (st.req.getParam k).1 (sameReq_getParam _ _) re p
    simp only [matchElem, h.req.param, hp]
    exact this
  | noParam hp =>
    rename_i k re
    refine ⟨{ st with req := (st.req.getParam k).1 }, ?_, ⟨(sameReq_getParam st.req k).trans h.req, h.hs, h.list, h.ms, h.src⟩⟩
    simp only [matchElem, h.req.param]
    rcases hp with hp | hp <;> rw [hp] <;> rfl
  | hdr h1 h2 h3 =>
    rename_i re a l b
    obtain ⟨a', y, b', e1, e2, e3⟩ := hsplit h1
    have := matchHeaders_hit re a' y b' st.smq.push
      (fun z hz => h2 _ (by rw [← e2]; exact List.mem_map_of_mem hz)) (by rw [e3]; exact h3)
    refine ⟨{ st with smq := st.smq.push.exec (re l) l }, ?_, ⟨h.req, h.hs, h.list, recorded_exec h.ms _ _, h.src⟩⟩
    simp only [matchElem, e1, this, e3]
    rfl
  | noHdr h1 h2 =>
    rename_i re m sub
    obtain ⟨q', e1, e2⟩ := matchHeaders_miss re st.hs st.smq.push (htext h1)
    refine ⟨{ st with smq := q' }, ?_, ⟨h.req, h.hs, h.list, ?_, h.src⟩⟩
    · simp only [matchElem, e1]; rfl
    · rcases e2 with rfl | ⟨sm, e2, rfl⟩
      · exact recorded_push h.ms _ _ h2
      · exact recorded_set h.ms _ _ _ (.inr ⟨h2, e2⟩)
  | noHost h1 h2 =>
    rename_i re m sub
    obtain ⟨q', e1, e2⟩ := matchHeaders_miss re st.hs st.smq.push (htext h1)
    refine ⟨{ st with smq := q' }, ?_, ⟨h.req, h.hs, h.list, ?_, h.src⟩⟩
    · simp only [matchElem, e1]; rfl
    · rcases e2 with rfl | ⟨sm, e2, rfl⟩
      · exact recorded_push h.ms _ _ h2
      · exact recorded_set h.ms _ _ _ (.inr ⟨h2, e2⟩)
  | host h1 h2 h3 h4 h5 h6 h7 h8 =>
    rename_i re a l b n v k
    obtain ⟨a', y, b', e1, e2, e3⟩ := hsplit h1
    have hm := matchHeaders_hit re a' y b' st.smq.push
      (fun z hz => h2 _ (by rw [← e2]; exact List.mem_map_of_mem hz)) (by rw [e3]; exact h3)
    rw [e3] at hm
    have hget : (st.smq.push.exec (re l) l).get 0 = .ok (submatchExec (re l) l) := by
      rw [Smq.exec_eq]; exact Smq.get_setCur_zero (Smq.push_wf h.ms.wf) _
    have hfix := hostFix_line h4 h5 h6 h8 (sm := submatchExec (re l) l) (by simp [submatchExec, h3]) h7
    let sm' : Submatch := { submatchExec (re l) l with subject := some v, matchv := inValue k (re l).groups }
    refine ⟨{ st with smq := (st.smq.push.exec (re l) l).setCur sm' }, ?_,
      ⟨h.req, h.hs, h.list, ?_, h.src⟩⟩
    · simp only [matchElem, e1, hm, if_true, hget, hfix]
      rfl
    · simp only [Smq.exec_eq, Smq.setCur_setCur]
      apply recorded_set h.ms
      left
      refine ⟨rfl, ?_⟩
      have : (inValue k (re l).groups).length = (re l).groups.length := by
        cases (re l).groups with
        | nil => rfl
        | cons o t => simp [inValue]
      simp [sm', submatchExec, this]
  | str hg he =>
    rename_i t re groups o n
    have := h.push st.req (SameReq.refl _) re o
    simp only [matchElem, expand_view h hg he]
    exact this
  | strFail hg he =>
    refine ⟨st, ?_, h⟩
    simp only [matchElem, expand_view h hg he]
    rfl

theorem matchCond_and (x : CondCtx) (cs : List Cond) (st : PState) :
    matchCond x (.bool .and cs) st = matchConds x .and cs st 1 := by
  cases cs <;> simp [matchCond]

theorem matchCond_or (x : CondCtx) (c : Cond) (cs : List Cond) (st : PState) :
    matchCond x (.bool .or (c :: cs)) st = matchConds x .or (c :: cs) st 0 := by
  simp [matchCond, matchConds]

theorem formulas_cons {cs : List Cond} {f : Formula Elem} {fs} (h : f :: fs = formulas cs) :
    ∃ c cs', cs = c :: cs' ∧ f = c.formula ∧ fs = formulas cs' := by
  cases cs with
  | nil => simp [formulas] at h
  | cons c cs =>
    simp only [formulas, List.cons.injEq] at h
    exact ⟨c, cs, rfl, h.1, h.2⟩

theorem formulas_nil {cs : List Cond} (h : [] = formulas cs) : cs = [] := by
  cases cs with
  | nil => rfl
  | cons c cs => simp [formulas] at h

/-- How conditions with a given formula look like. -/
theorem formula_inv (c : Cond) (hw : c.Wf) :
    (∀ e, c.formula = .test e → c = .elem e) ∧
    (∀ f, c.formula = .not f → ∃ c', c = .bool .not [c'] ∧ c'.formula = f ∧ c'.Wf) ∧
    (∀ fs, c.formula = .and fs → ∃ cs, c = .bool .and cs ∧ formulas cs = fs ∧ AllWf cs) ∧
    (∀ fs, c.formula = .or fs → ∃ c' cs, c = .bool .or (c' :: cs) ∧ formulas (c' :: cs) = fs ∧ AllWf (c' :: cs)) := by
  cases c with
  | elem e => simp [Cond.formula]
  | bool op cs =>
    cases op with
    | and =>
      simp only [Cond.Wf] at hw
      cases cs <;> simp [Cond.formula] <;> exact hw
    | or =>
      simp only [Cond.Wf] at hw
      obtain ⟨h1, h2⟩ := hw
      cases cs with
      | nil => exact absurd rfl h1
      | cons c cs =>
        simp only [Cond.formula, reduceCtorEq, false_implies, implies_true, true_and, Formula.or.injEq]
        exact fun fs e => ⟨c, cs, rfl, e, h2⟩
    | not =>
      simp only [Cond.Wf] at hw
      obtain ⟨h1, h2⟩ := hw
      cases cs with
      | nil => simp at h1
      | cons c cs =>
        have : cs = [] := by
          cases cs with
          | nil => rfl
          | cons => simp at h1
        subst this
        simp only [AllWf, and_true] at h2
        simp [Cond.formula, h2]

theorem condCode_ne {v : Option Bool} : (condCode v = -1 ↔ v = none) ∧ (condCode v = 0 ↔ v = some false) ∧
    (condCode v = 1 ↔ v = some true) := by
  rcases v with _ | _ | _ <;> simp [condCode]

theorem evals_cond {x : CondCtx} {f : Formula Elem} {s s' : View} {v} (h : Evals (Test x) f s v s') :
    (∀ c st, c.Wf → c.formula = f → Looks st s →
      ∃ st', matchCond x c st = (st', .val (condCode v)) ∧ Looks st' s') ∧
    (∀ cs st, AllWf cs → f = .or (formulas cs) → Looks st s →
      ∃ st', matchConds x .or cs st 0 = (st', .val (condCode v)) ∧ Looks st' s') ∧
    (∀ cs st, AllWf cs → f = .and (formulas cs) → Looks st s →
      ∃ st', matchConds x .and cs st 1 = (st', .val (condCode v)) ∧ Looks st' s') := by
  have lift : ∀ {f : Formula Elem} {s s' : View} {v},
      (∀ cs st, AllWf cs → f = .or (formulas cs) → Looks st s →
        ∃ st', matchConds x .or cs st 0 = (st', .val (condCode v)) ∧ Looks st' s') →
      (∀ cs st, AllWf cs → f = .and (formulas cs) → Looks st s →
        ∃ st', matchConds x .and cs st 1 = (st', .val (condCode v)) ∧ Looks st' s') →
      (∃ fs, f = .or fs ∨ f = .and fs) →
      ∀ c st, c.Wf → c.formula = f → Looks st s →
        ∃ st', matchCond x c st = (st', .val (condCode v)) ∧ Looks st' s' := by
    intro f s s' v hor hand hf c st hw hc hl
    obtain ⟨-, -, i3, i4⟩ := formula_inv c hw
    obtain ⟨fs, rfl | rfl⟩ := hf
    · obtain ⟨c', cs, rfl, e, w⟩ := i4 _ hc
      rw [matchCond_or]
      exact hor _ st w (by rw [e]) hl
    · obtain ⟨cs, rfl, e, w⟩ := i3 _ hc
      rw [matchCond_and]
      exact hand _ st w (by rw [e]) hl
  induction h with
  | @test a s v s' ht =>
    refine ⟨?_, fun _ _ _ h _ => (nomatch h), fun _ _ _ h _ => (nomatch h)⟩
    intro c st hw hc hl
    rw [(formula_inv c hw).1 _ hc]
    simp only [matchCond]
    exact elem_test hl ht
  | @not f s v s' _ ih =>
    refine ⟨?_, fun _ _ _ h _ => (nomatch h), fun _ _ _ h _ => (nomatch h)⟩
    intro c st hw hc hl
    obtain ⟨c', rfl, e, w⟩ := (formula_inv c hw).2.1 _ hc
    obtain ⟨st', h1, h2⟩ := ih.1 c' st w e hl
    refine ⟨st', ?_, h2⟩
    simp only [matchCond, h1]
    rcases v with _ | _ | _ <;> rfl
  | @allDone s =>
    have hand : ∀ cs st, AllWf cs → (Formula.and [] : Formula Elem) = .and (formulas cs) → Looks st s →
        ∃ st', matchConds x .and cs st 1 = (st', .val (condCode (some true))) ∧ Looks st' s := by
      intro cs st _ e hl
      injection e with e
      have := formulas_nil e
      subst this
      exact ⟨st, by simp [matchConds, condCode], hl⟩
    have hor : ∀ cs st, AllWf cs → (Formula.and [] : Formula Elem) = .or (formulas cs) → Looks st s →
        ∃ st', matchConds x .or cs st 0 = (st', .val (condCode (some true))) ∧ Looks st' s := by
      intro _ _ _ e; cases e
    exact ⟨lift hor hand ⟨_, .inr rfl⟩, hor, hand⟩
  | @allStop f fs s v s' _ hv ih =>
    have hand : ∀ cs st, AllWf cs → (Formula.and (f :: fs) : Formula Elem) = .and (formulas cs) → Looks st s →
        ∃ st', matchConds x .and cs st 1 = (st', .val (condCode v)) ∧ Looks st' s' := by
      intro cs st hw e hl
      injection e with e
      obtain ⟨c, cs', rfl, rfl, rfl⟩ := formulas_cons e
      obtain ⟨st', h1, h2⟩ := ih.1 c st hw.1 rfl hl
      refine ⟨st', ?_, h2⟩
      simp only [matchConds, h1]
      rcases v with _ | _ | _
      · rfl
      · rfl
      · exact absurd rfl hv
    have hor : ∀ cs st, AllWf cs → (Formula.and (f :: fs) : Formula Elem) = .or (formulas cs) → Looks st s →
        ∃ st', matchConds x .or cs st 0 = (st', .val (condCode v)) ∧ Looks st' s' := by
      intro _ _ _ e; cases e
    exact ⟨lift hor hand ⟨_, .inr rfl⟩, hor, hand⟩
  | @allMore f fs s s' v s'' _ _ ih1 ih2 =>
    have hand : ∀ cs st, AllWf cs → (Formula.and (f :: fs) : Formula Elem) = .and (formulas cs) → Looks st s →
        ∃ st', matchConds x .and cs st 1 = (st', .val (condCode v)) ∧ Looks st' s'' := by
      intro cs st hw e hl
      injection e with e
      obtain ⟨c, cs', rfl, rfl, rfl⟩ := formulas_cons e
      obtain ⟨st', h1, h2⟩ := ih1.1 c st hw.1 rfl hl
      obtain ⟨st'', h3, h4⟩ := ih2.2.2 cs' st' hw.2 rfl h2
      refine ⟨st'', ?_, h4⟩
      simp only [matchConds, h1]
      exact h3
    have hor : ∀ cs st, AllWf cs → (Formula.and (f :: fs) : Formula Elem) = .or (formulas cs) → Looks st s →
        ∃ st', matchConds x .or cs st 0 = (st', .val (condCode v)) ∧ Looks st' s'' := by
      intro _ _ _ e; cases e
    exact ⟨lift hor hand ⟨_, .inr rfl⟩, hor, hand⟩
  | @anyDone s =>
    have hor : ∀ cs st, AllWf cs → (Formula.or [] : Formula Elem) = .or (formulas cs) → Looks st s →
        ∃ st', matchConds x .or cs st 0 = (st', .val (condCode (some false))) ∧ Looks st' s := by
      intro cs st _ e hl
      injection e with e
      have := formulas_nil e
      subst this
      exact ⟨st, by simp [matchConds, condCode], hl⟩
    have hand : ∀ cs st, AllWf cs → (Formula.or [] : Formula Elem) = .and (formulas cs) → Looks st s →
        ∃ st', matchConds x .and cs st 1 = (st', .val (condCode (some false))) ∧ Looks st' s := by
      intro _ _ _ e; cases e
    exact ⟨lift hor hand ⟨_, .inl rfl⟩, hor, hand⟩
  | @anyStop f fs s v s' _ hv ih =>
    have hor : ∀ cs st, AllWf cs → (Formula.or (f :: fs) : Formula Elem) = .or (formulas cs) → Looks st s →
        ∃ st', matchConds x .or cs st 0 = (st', .val (condCode v)) ∧ Looks st' s' := by
      intro cs st hw e hl
      injection e with e
      obtain ⟨c, cs', rfl, rfl, rfl⟩ := formulas_cons e
      obtain ⟨st', h1, h2⟩ := ih.1 c st hw.1 rfl hl
      refine ⟨st', ?_, h2⟩
      simp only [matchConds, h1]
      rcases v with _ | _ | _
      · rfl
      · exact absurd rfl hv
      · rfl
    have hand : ∀ cs st, AllWf cs → (Formula.or (f :: fs) : Formula Elem) = .and (formulas cs) → Looks st s →
        ∃ st', matchConds x .and cs st 1 = (st', .val (condCode v)) ∧ Looks st' s' := by
      intro _ _ _ e; cases e
    exact ⟨lift hor hand ⟨_, .inl rfl⟩, hor, hand⟩
  | @anyMore f fs s s' v s'' _ _ ih1 ih2 =>
    have hor : ∀ cs st, AllWf cs → (Formula.or (f :: fs) : Formula Elem) = .or (formulas cs) → Looks st s →
        ∃ st', matchConds x .or cs st 0 = (st', .val (condCode v)) ∧ Looks st' s'' := by
      intro cs st hw e hl
      injection e with e
      obtain ⟨c, cs', rfl, rfl, rfl⟩ := formulas_cons e
      obtain ⟨st', h1, h2⟩ := ih1.1 c st hw.1 rfl hl
      obtain ⟨st'', h3, h4⟩ := ih2.2.1 cs' st' hw.2 rfl h2
      refine ⟨st'', ?_, h4⟩
      simp only [matchConds, h1]
      exact h3
    have hand : ∀ cs st, AllWf cs → (Formula.or (f :: fs) : Formula Elem) = .and (formulas cs) → Looks st s →
        ∃ st', matchConds x .and cs st 1 = (st', .val (condCode v)) ∧ Looks st' s'' := by
      intro _ _ _ e; cases e
    exact ⟨lift hor hand ⟨_, .inl rfl⟩, hor, hand⟩

theorem evals_truth {x : CondCtx} {s : View} (P : Elem → Prop) (v : Elem → Bool)
    (ht : ∀ e, P e → ∀ ms, ∃ ms', Test x e { s with ms := ms } (some (v e)) { s with ms := ms' }) :
    (∀ f : Formula Elem, (∀ e, Occurs e f → P e) → ∀ ms,
      ∃ ms', Evals (Test x) f { s with ms := ms } (some (f.truth v)) { s with ms := ms' }) := by
  intro f
  refine Formula.rec
    (motive_1 := fun f => (∀ e, Occurs e f → P e) → ∀ ms,
      ∃ ms', Evals (Test x) f { s with ms := ms } (some (f.truth v)) { s with ms := ms' })
    (motive_2 := fun fs => (∀ e, ∀ f ∈ fs, Occurs e f → P e) → ∀ ms,
      (∃ ms', Evals (Test x) (.and fs) { s with ms := ms } (some (allTrue v fs)) { s with ms := ms' }) ∧
      (∃ ms', Evals (Test x) (.or fs) { s with ms := ms } (some (anyTrue v fs)) { s with ms := ms' }))
    ?_ ?_ ?_ ?_ ?_ ?_ f
  · intro a h ms
    obtain ⟨ms', h1⟩ := ht a (h a .test) ms
    exact ⟨ms', .test (by simpa [Formula.truth] using h1)⟩
  · intro f ih h ms
    obtain ⟨ms', h1⟩ := ih (fun e he => h e (.not he)) ms
    refine ⟨ms', ?_⟩
    simp only [Formula.truth]
    exact .not h1
  · intro fs ih h ms
    simp only [Formula.truth]
    exact (ih (fun e f hf he => h e (.and hf he)) ms).1
  · intro fs ih h ms
    simp only [Formula.truth]
    exact (ih (fun e f hf he => h e (.or hf he)) ms).2
  · intro _ ms
    simp only [allTrue, anyTrue]
    exact ⟨⟨ms, .allDone⟩, ⟨ms, .anyDone⟩⟩
  · intro f fs ih1 ih2 h ms
    obtain ⟨ms1, h1⟩ := ih1 (fun e he => h e f (by simp) he) ms
    obtain ⟨⟨ms2, h2⟩, ⟨ms3, h3⟩⟩ := ih2 (fun e g hg he => h e g (by simp [hg]) he) ms1
    simp only [allTrue, anyTrue]
    cases hb : f.truth v with
    | false =>
      rw [hb] at h1
      simp only [Bool.false_and, Bool.false_or]
      exact ⟨⟨ms1, .allStop h1 (by simp)⟩, ⟨ms3, .anyMore h1 h3⟩⟩
    | true =>
      rw [hb] at h1
      simp only [Bool.true_and, Bool.true_or]
      exact ⟨⟨ms2, .allMore h1 h2⟩, ⟨ms1, .anyStop h1 (by simp)⟩⟩

/-- A condition evaluates as its formula: from left to right, stopping when the result is known or
at the first error; only the tests that are reached are recorded in the history.
Missing for the full property: a disjunction without operands, see `C14_empty_or_fails`, and a
`Query` condition on a request without query, see `C14_no_query_fails`. -/
theorem C14_evaluates_partial (x : CondCtx) (c : Cond) (hw : c.Wf) (st : PState) (s s' : View) (v : Option Bool)
    (hl : Looks st s) (h : Evals (Test x) c.formula s v s') :
    ∃ st', matchCond x c st = (st', .val (condCode v)) ∧ Looks st' s' :=
  (evals_cond h).1 c st hw rfl hl

/-- If every test of the condition has a definite outcome, whatever was tested before, then the
condition gives the truth value of the formula. -/
theorem C14_truth (x : CondCtx) (c : Cond) (hw : c.Wf) (st : PState) (s : View) (hl : Looks st s) (v : Elem → Bool)
    (ht : ∀ e, Occurs e c.formula → ∀ ms, ∃ ms', Test x e { s with ms := ms } (some (v e)) { s with ms := ms' }) :
    ∃ st' ms', matchCond x c st = (st', .val (if c.formula.truth v then 1 else 0)) ∧ Looks st' { s with ms := ms' } := by
  obtain ⟨ms', h⟩ := evals_truth (fun e => Occurs e c.formula) v ht c.formula (fun _ h => h) s.ms
  obtain ⟨st', h1, h2⟩ := C14_evaluates_partial x c hw st s _ _ hl h
  refine ⟨st', ms', ?_, h2⟩
  rw [h1]
  cases c.formula.truth v <;> rfl

/-- An error in a test that is reached makes the condition an error: neither true nor, under a negation, false. -/
theorem C14_error_never_matches (x : CondCtx) (c : Cond) (hw : c.Wf) (st : PState) (s s' : View)
    (hl : Looks st s) (h : Evals (Test x) c.formula s none s') :
    ∃ st', matchCond x c st = (st', .val (-1)) ∧ matchCond x (.bool .not [c]) st = (st', .val (-1)) := by
  obtain ⟨st', h1, _⟩ := C14_evaluates_partial x c hw st s s' none hl h
  exact ⟨st', h1, by simp [matchCond, h1, condCode]⟩

/-- A disjunction without operands (`-file` with a file without patterns) is taken as true. -/
theorem C14_empty_or_fails (x : CondCtx) (st : PState) :
    matchCond x (.bool .or []) st = (st, .val 1) ∧ (Cond.bool .or []).formula.truth (fun _ => true) = false := by
  constructor
  · simp [matchCond, matchConds]
  · rfl

/-- A `Query` condition on a request without query has undefined behaviour. -/
theorem C14_no_query_fails (x : CondCtx) (re : Re) (hs : List Header) (q : Smq) :
    let r := Req.fresh b!"GET / HTTP/1.1" ⟨0, b!"/", 1⟩
    r.getQuery.2 = none ∧ (matchCond x (.elem (.query re)) ⟨r, hs, q, none⟩).2 = .ub := by
  intro r
  have : r.getQuery.2 = none := by decide
  refine ⟨this, ?_⟩
  simp only [matchCond, matchElem, this]

/-- A pattern without groups that matches one text. -/
def exactRe (t : Bytes) : Re := fun s => ⟨s == t, [(0, (t.length : Nat))]⟩

/-- An example: `not (path "/b") and (url "/x" or path "/a")` for the request `/a?q`. -/
def exCond : Cond :=
  .bool .and [.bool .not [.elem (.path (exactRe b!"/b"))],
    .bool .or [.elem (.url (exactRe b!"/x")), .elem (.path (exactRe b!"/a")), .elem (.acl 7)]]

def exView : View := ⟨Req.fresh b!"GET /a?q HTTP/1.1" ⟨0, b!"/a?q", 1⟩, [], [], none⟩

def exState : PState := ⟨exView.req, [], .init, none⟩

theorem exLooks : Looks exState exView := ⟨SameReq.refl _, rfl, .empty, recorded_history [], trivial⟩

example : exCond.Wf := by simp [exCond, Cond.Wf, AllWf]

example (x : CondCtx) : ∃ s', Evals (Test x) exCond.formula exView (some true) s' ∧ s'.ms.length = 3 := by
  let s1 := exView.push (exactRe b!"/b" b!"/a") b!"/a"
  let s2 := s1.push (exactRe b!"/x" b!"/a?q") b!"/a?q"
  let s3 := s2.push (exactRe b!"/a" b!"/a") b!"/a"
  have t1 : Test x (.path (exactRe b!"/b")) exView (some false) s1 := Test.path (p := b!"/a") (by decide)
  have t2 : Test x (.url (exactRe b!"/x")) s1 (some false) s2 := Test.url
  have t3 : Test x (.path (exactRe b!"/a")) s2 (some true) s3 := Test.path (p := b!"/a") (by decide)
  exact ⟨s3, .allMore (.not (.test t1)) (.allMore (.anyMore (.test t2) (.anyStop (.test t3) (by simp))) .allDone), rfl⟩

/-! ## C15 A request goes to the first matching service -/

theorem first_svcLoop {x : CondCtx} {svcs : List Svc} {s s' : View} {i : Option Nat}
    (h : First (fun v : Svc => v.disabled = false) (fun v => Evals (Test x) v.cond.formula) svcs s i s') :
    ∀ (k : Nat) (st : PState), (∀ v ∈ svcs, v.cond.Wf) → Looks st s →
      ∃ st', svcLoop x svcs k st = (st', i.elim .none fun i => .found (k + i)) ∧ Looks st' s' := by
  induction h with
  | none => exact fun k st _ hl => ⟨st, rfl, hl⟩
  | @disabled a as s i s' hd _ ih =>
    intro k st hw hl
    obtain ⟨st', h1, h2⟩ := ih (k + 1) st (fun v hv => hw v (by simp [hv])) hl
    refine ⟨st', ?_, h2⟩
    have : a.disabled = true := by simpa using hd
    simp only [svcLoop, this, if_true, h1]
    cases i <;> simp; omega
  | @pass a as s v s' i s'' hd he hv _ ih =>
    intro k st hw hl
    obtain ⟨st1, h1, h2⟩ := C14_evaluates_partial x a.cond (hw a (by simp)) st s s' v hl he
    obtain ⟨st', h3, h4⟩ := ih (k + 1) st1 (fun v hv => hw v (by simp [hv])) h2
    refine ⟨st', ?_, h4⟩
    have : ¬ condCode v = 1 := fun e => hv (condCode_ne.2.2.1 e)
    simp only [svcLoop, hd, Bool.false_eq_true, if_false, h1, this, h3]
    cases i <;> simp; omega
  | @take a as s s' hd he =>
    intro k st hw hl
    obtain ⟨st1, h1, h2⟩ := C14_evaluates_partial x a.cond (hw a (by simp)) st s s' _ hl he
    refine ⟨st1, ?_, h2⟩
    simp [svcLoop, hd, h1, condCode]

theorem svcLoop_append (x : CondCtx) (a b : List Svc) (k : Nat) (st : PState) :
    svcLoop x (a ++ b) k st = (match svcLoop x a k st with
      | (st, .none) => svcLoop x b (k + a.length) st
      | y => y) := by
  induction a generalizing k st with
  | nil => simp [svcLoop]
  | cons v a ih =>
    simp only [List.cons_append, svcLoop]
    by_cases hd : v.disabled = true
    · simp only [hd, if_true, ih, List.length_cons]
      rw [show k + 1 + a.length = k + (a.length + 1) by omega]
    · simp only [hd, if_false]
      rcases matchCond x v.cond st with ⟨st1, r | _ | _⟩
      · dsimp only
        by_cases hr : r = 1
        · simp [hr]
        · simp only [hr, if_false, ih, List.length_cons]
          rw [show k + 1 + a.length = k + (a.length + 1) by omega]
          rfl
      · simp
      · simp

theorem first_getService {x : CondCtx} (own global : List Svc) (hw : ∀ v ∈ own ++ global, v.cond.Wf)
    {st : PState} {s s' : View} {i : Option Nat} (hl : Looks st s)
    (h : First (fun v : Svc => v.disabled = false) (fun v => Evals (Test x) v.cond.formula) (own ++ global) s i s') :
    ∃ st', getService x own global st = (st', i.elim .none .found) ∧ Looks st' s' := by
  obtain ⟨st', h1, h2⟩ := first_svcLoop h 0 st hw hl
  refine ⟨st', ?_, h2⟩
  rw [svcLoop_append] at h1
  unfold getService
  simp only [Nat.zero_add] at h1
  rw [← h1]
  rcases svcLoop x own 0 st with ⟨st1, _ | _ | _ | _⟩ <;> rfl

theorem first_truth {x : CondCtx} {s : View} (v : Elem → Bool) (svcs : List Svc)
    (ht : ∀ y ∈ svcs, ∀ e, Occurs e y.cond.formula →
      ∀ ms, ∃ ms', Test x e { s with ms := ms } (some (v e)) { s with ms := ms' }) (ms : List (MatchRes × Bytes)) :
    ∃ ms', First (fun v : Svc => v.disabled = false) (fun v => Evals (Test x) v.cond.formula) svcs { s with ms := ms }
      (svcs.findIdx? fun y => !y.disabled && y.cond.formula.truth v) { s with ms := ms' } := by
  induction svcs generalizing ms with
  | nil => exact ⟨ms, .none⟩
  | cons a as ih =>
    have ih' := ih (fun y hy => ht y (by simp [hy]))
    rw [List.findIdx?_cons]
    cases hd : a.disabled with
    | true =>
      obtain ⟨ms', h⟩ := ih' ms
      refine ⟨ms', ?_⟩
      simp only [Bool.not_true, Bool.false_and, Bool.false_eq_true, if_false]
      exact .disabled (by simp [hd]) h
    | false =>
      obtain ⟨ms1, h1⟩ := evals_truth (x := x) (s := s) (fun e => Occurs e a.cond.formula) v (ht a (by simp))
        a.cond.formula (fun _ h => h) ms
      cases hb : a.cond.formula.truth v with
      | true =>
        rw [hb] at h1
        refine ⟨ms1, ?_⟩
        simp only [Bool.not_false, Bool.true_and, if_true]
        exact .take hd h1
      | false =>
        rw [hb] at h1
        obtain ⟨ms', h⟩ := ih' ms1
        refine ⟨ms', ?_⟩
        simp only [Bool.not_false, Bool.true_and, Bool.false_eq_true, if_false]
        exact .pass hd h1 (by simp) h

/-- The services are tried in order, those of the listener before the global ones; the first
enabled one whose condition is true gets the request; if there is none the reply is 503.  A service
whose condition cannot be evaluated is passed over. -/
theorem C15_first_service (x : CondCtx) (own global : List Svc) (hw : ∀ v ∈ own ++ global, v.cond.Wf)
    (st : PState) (s s' : View) (i : Option Nat) (hl : Looks st s)
    (h : First (fun v : Svc => v.disabled = false) (fun v => Evals (Test x) v.cond.formula) (own ++ global) s i s') :
    ∃ st', chooseService x own global st =
        .inl (st', i.elim (.error .serviceUnavailable) .ok) ∧ Looks st' s' := by
  obtain ⟨st', h1, h2⟩ := first_getService own global hw hl h
  refine ⟨st', ?_, h2⟩
  unfold chooseService
  rw [h1]
  cases i <;> rfl

/-- If every test has a definite outcome, the service chosen is the first one that is enabled and
whose formula is true. -/
theorem C15_definite (x : CondCtx) (own global : List Svc) (hw : ∀ v ∈ own ++ global, v.cond.Wf)
    (st : PState) (s : View) (hl : Looks st s) (v : Elem → Bool)
    (ht : ∀ y ∈ own ++ global, ∀ e, Occurs e y.cond.formula →
      ∀ ms, ∃ ms', Test x e { s with ms := ms } (some (v e)) { s with ms := ms' }) :
    ∃ st', chooseService x own global st = .inl (st',
      ((own ++ global).findIdx? fun y => !y.disabled && y.cond.formula.truth v).elim
        (.error .serviceUnavailable) .ok) := by
  obtain ⟨ms', h⟩ := first_truth v (own ++ global) ht s.ms
  obtain ⟨st', h1, _⟩ := C15_first_service x own global hw st s _ _ hl h
  exact ⟨st', h1⟩

example (x : CondCtx) : ∃ st', chooseService x [⟨.bool .and [], true⟩] [⟨exCond, false⟩] exState = .inl (st', .ok 1) :=
  ⟨_, rfl⟩

/-! ## C16 Rewriting applies the rules of the branch that is taken -/

/-- The effect of one operation: whether it succeeds, and the request and headers after it.
The texts are string expansions (C12); the effects on the request are those of C07 and C08. -/
inductive Act : RwPrim → View → Bool → View → Prop
  | hdrDel {re s} : Act (.hdrDel re) s true { s with hs := s.hs.filter fun t => !(re t).ok }
  | hdrSet {t s groups o n nm v hs'} : HistoryOf s.ms groups →
      Expands (s.env groups) (okScope (s.env groups)) t (some (o, n)) →
      HeaderLine o nm v → Adds o nm v s.hs hs' .replace → Act (.hdrSet t) s true { s with hs := hs' }
  | hdrBad {t s groups o n} : HistoryOf s.ms groups →
      Expands (s.env groups) (okScope (s.env groups)) t (some (o, n)) →
      (¬ ∃ nm v, HeaderLine o nm v) → (∀ t ∈ s.hs, ¬ Named t o) → Act (.hdrSet t) s false s
  | urlSet {t s groups o n} : HistoryOf s.ms groups →
      Expands (s.env groups) (okScope (s.env groups)) t (some (o, n)) →
      Act (.urlSet t) s true { s with req := s.req.setUrl o }
  | pathSet {t s groups o n} : HistoryOf s.ms groups →
      Expands (s.env groups) (okScope (s.env groups)) t (some (o, n)) →
      Act (.pathSet t) s true { s with req := s.req.setPath o }
  | querySet {t s groups o n} : HistoryOf s.ms groups →
      Expands (s.env groups) (okScope (s.env groups)) t (some (o, n)) →
      Act (.querySet t) s true { s with req := s.req.setQuery o }
  | paramSet {k t s groups o n} : HistoryOf s.ms groups →
      Expands (s.env groups) (okScope (s.env groups)) t (some (o, n)) →
      Act (.paramSet k t) s true { s with req := s.req.setParam k (some o) }
  | noText {p t k s groups} : p = .hdrSet t ∨ p = .urlSet t ∨ p = .pathSet t ∨ p = .querySet t ∨ p = .paramSet k t →
      HistoryOf s.ms groups → Expands (s.env groups) (okScope (s.env groups)) t none → Act p s false s

mutual
/-- Rewriting operations as a conditional program. -/
def stmtOf : RwOp → Stmt Cond RwPrim
  | .prim p => .act p
  | .rule r => .cases (branchesOf r)
def branchesOf : RwRule → List (Cond × List (Stmt Cond RwPrim))
  | .null => []
  | .mk c ops r => (c, stmtsOf ops) :: branchesOf r
def stmtsOf : List RwOp → List (Stmt Cond RwPrim)
  | [] => []
  | o :: t => stmtOf o :: stmtsOf t
end

mutual
/-- All conditions are well-formed. -/
def opWf : RwOp → Prop
  | .prim _ => True
  | .rule r => ruleWf r
def ruleWf : RwRule → Prop
  | .null => True
  | .mk c ops r => c.Wf ∧ opsWf ops ∧ ruleWf r
def opsWf : List RwOp → Prop
  | [] => True
  | o :: t => opWf o ∧ opsWf t
end

theorem adds_replace_det {text n v : Bytes} {b : List Bytes} : ∀ {r r' : List Bytes},
    Adds text n v b r .replace → Adds text n v b r' .replace → r = r' := by
  intro r r' h h'
  cases h with
  | new h1 =>
    cases h' with
    | new h2 => rfl
    | replace h2 h3 => exact absurd h3 (h1 _ (by simp))
  | @replace a t b h1 h2 =>
    generalize hb : a ++ t :: b = l at h'
    cases h' with
    | new h3 => exact absurd h2 (h3 _ (by rw [← hb]; simp))
    | @replace a' t' b' h3 h4 =>
      have : a = a' ∧ t = t' ∧ b = b' := by
        induction a generalizing a' with
        | nil =>
          cases a' with
          | nil => simpa using hb
          | cons y a' =>
            simp only [List.nil_append, List.cons_append, List.cons.injEq] at hb
            rw [hb.1] at h2
            exact absurd h2 (h3 y (by simp))
        | cons x a ih =>
          cases a' with
          | nil =>
            simp only [List.nil_append, List.cons_append, List.cons.injEq] at hb
            rw [← hb.1] at h4
            exact absurd h4 (h1 x (by simp))
          | cons y a' =>
            simp only [List.cons_append, List.cons.injEq] at hb
            have := ih (fun t ht => h1 t (by simp [ht])) (a' := a') (fun t ht => h3 t (by simp [ht])) hb.2
            exact ⟨by rw [hb.1, this.1], this.2⟩
      obtain ⟨rfl, rfl, rfl⟩ := this
      rfl

theorem act_prim {p : RwPrim} {st : PState} {s s' : View} {ok} (hl : Looks st s) (h : Act p s ok s') :
    ∃ st' r, rwPrim p st = (st', .val r) ∧ (ok = true ↔ r = 0) ∧ Looks st' s' := by
  cases h with
  | @hdrDel re =>
    refine ⟨_, 0, rfl, by simp, ⟨hl.req, ?_, .remove _ hl.list, hl.ms, hl.src⟩⟩
    simp only [← hl.hs, List.filter_map]
    rfl
  | hdrSet h1 h2 h3 h4 =>
    rename_i t groups o n nm v hs'
    have he := expand_view hl h1 h2
    obtain ⟨hs1, e1, e2⟩ := (C09_add st.hs o nm v hl.list h3).2.1
    refine ⟨{ st with hs := hs1 }, 0, ?_, by simp, ⟨hl.req, ?_, .add hl.list h3 e1, hl.ms, hl.src⟩⟩
    · simp only [rwPrim, withExpansion, he, Option.elim_some, e1]
      rfl
    · rw [hl.hs] at e2
      exact adds_replace_det e2 h4
  | hdrBad h1 h2 h3 h4 =>
    rename_i t groups o n
    have he := expand_view hl h1 h2
    have e1 := C09_malformed_partial st.hs o hl.list h3 (by rw [hl.hs]; exact h4) .replace
    refine ⟨st, 1, ?_, by simp, hl⟩
    simp only [rwPrim, withExpansion, he, Option.elim_some, e1]
    rfl
  | urlSet h1 h2 =>
    rename_i o n
    refine ⟨{ st with req := st.req.setUrl o }, 0, ?_, by simp, ⟨hl.req.setUrl o, hl.hs, hl.list, hl.ms, hl.src⟩⟩
    simp only [rwPrim, withExpansion, expand_view hl h1 h2, Option.elim_some]
  | pathSet h1 h2 =>
    rename_i o n
    refine ⟨{ st with req := st.req.setPath o }, 0, ?_, by simp, ⟨hl.req.setPath o, hl.hs, hl.list, hl.ms, hl.src⟩⟩
    simp only [rwPrim, withExpansion, expand_view hl h1 h2, Option.elim_some]
  | querySet h1 h2 =>
    rename_i o n
    refine ⟨{ st with req := st.req.setQuery o }, 0, ?_, by simp, ⟨hl.req.setQuery o, hl.hs, hl.list, hl.ms, hl.src⟩⟩
    simp only [rwPrim, withExpansion, expand_view hl h1 h2, Option.elim_some]
  | paramSet h1 h2 =>
    rename_i k t g o n
    refine ⟨{ st with req := st.req.setParam k (some o) }, 0, ?_, by simp, ⟨hl.req.setParam k (some o), hl.hs, hl.list, hl.ms, hl.src⟩⟩
    simp only [rwPrim, withExpansion, expand_view hl h1 h2, Option.elim_some]
  | noText hp h1 h2 =>
    refine ⟨st, -1, ?_, by simp, hl⟩
    have he := expand_view hl h1 h2
    rcases hp with rfl | rfl | rfl | rfl | rfl <;> simp only [rwPrim, withExpansion, he, Option.elim_none]

theorem stmtsOf_cons {ops : List RwOp} {x xs} (h : stmtsOf ops = x :: xs) :
    ∃ o t, ops = o :: t ∧ stmtOf o = x ∧ stmtsOf t = xs := by
  cases ops with
  | nil => simp [stmtsOf] at h
  | cons o t => simp only [stmtsOf, List.cons.injEq] at h; exact ⟨o, t, rfl, h.1, h.2⟩

theorem stmtOf_cases {o : RwOp} {bs} (h : stmtOf o = .cases bs) : ∃ r, o = .rule r ∧ branchesOf r = bs := by
  cases o with
  | prim p => simp [stmtOf] at h
  | rule r => simp only [stmtOf, Stmt.cases.injEq] at h; exact ⟨r, rfl, h⟩

theorem runs_ops {x : CondCtx} {ss} {s s' : View} {ok}
    (h : Runs (fun c : Cond => Evals (Test x) c.formula) Act ss s ok s') :
    ∀ (ops : List RwOp) (st : PState), stmtsOf ops = ss → opsWf ops → Looks st s →
      ∃ st' r, rwOps x ops st = (st', .val r) ∧ (ok = true ↔ r = 0) ∧ Looks st' s' := by
  induction h with
  | done =>
    intro ops st he _ hl
    cases ops with
    | nil => exact ⟨st, 0, by simp [rwOps], by simp, hl⟩
    | cons => simp [stmtsOf] at he
  | @act p ss s s1 ok s2 ha _ ih =>
    intro ops st he hw hl
    obtain ⟨o, t, rfl, e1, e2⟩ := stmtsOf_cons he
    cases o with
    | rule r => simp [stmtOf] at e1
    | prim p' =>
      simp only [stmtOf, Stmt.act.injEq] at e1
      subst e1
      obtain ⟨st1, r, h1, h2, h3⟩ := act_prim hl ha
      have hr := h2.1 rfl
      subst hr
      obtain ⟨st2, r2, h4, h5, h6⟩ := ih t st1 e2 hw.2 h3
      exact ⟨st2, r2, by simp [rwOps, rwOp, h1, h4], h5, h6⟩
  | @actFail p ss s s1 ha =>
    intro ops st he hw hl
    obtain ⟨o, t, rfl, e1, e2⟩ := stmtsOf_cons he
    cases o with
    | rule r => simp [stmtOf] at e1
    | prim p' =>
      simp only [stmtOf, Stmt.act.injEq] at e1
      subst e1
      obtain ⟨st1, r, h1, h2, h3⟩ := act_prim hl ha
      have hr : ¬ r = 0 := fun e => by simpa using h2.2 e
      exact ⟨st1, r, by simp [rwOps, rwOp, h1, hr], h2, h3⟩
  | @noBranch ss s ok s1 _ ih =>
    intro ops st he hw hl
    obtain ⟨o, t, rfl, e1, e2⟩ := stmtsOf_cons he
    obtain ⟨r, rfl, e3⟩ := stmtOf_cases e1
    cases r with
    | mk c b r => simp [branchesOf] at e3
    | null =>
      obtain ⟨st2, r2, h4, h5, h6⟩ := ih t st e2 hw.2 hl
      exact ⟨st2, r2, by simp [rwOps, rwOp, rwRule, h4], h5, h6⟩
  | @next c b bs ss s v s1 ok s2 hc hv _ ih =>
    intro ops st he hw hl
    obtain ⟨o, t, rfl, e1, e2⟩ := stmtsOf_cons he
    obtain ⟨r, rfl, e3⟩ := stmtOf_cases e1
    cases r with
    | null => simp [branchesOf] at e3
    | mk c' b' r =>
      simp only [branchesOf, List.cons.injEq, Prod.mk.injEq] at e3
      obtain ⟨⟨rfl, rfl⟩, e4⟩ := e3
      simp only [opsWf, opWf, ruleWf] at hw
      obtain ⟨st1, h1, h2⟩ := C14_evaluates_partial x c' hw.1.1 st s s1 v hl hc
      have hne : ¬ condCode v = 1 := fun e => hv (condCode_ne.2.2.1 e)
      obtain ⟨st2, r2, h4, h5, h6⟩ := ih (.rule r :: t) st1 (by simp [stmtsOf, stmtOf, e4, e2]) ⟨hw.1.2.2, hw.2⟩ h2
      refine ⟨st2, r2, ?_, h5, h6⟩
      rw [← h4]
      simp only [rwOps, rwOp, rwRule, h1, hne, if_false]
  | @branch c b bs ss s s1 s2 ok s3 hc _ _ ih1 ih2 =>
    intro ops st he hw hl
    obtain ⟨o, t, rfl, e1, e2⟩ := stmtsOf_cons he
    obtain ⟨r, rfl, e3⟩ := stmtOf_cases e1
    cases r with
    | null => simp [branchesOf] at e3
    | mk c' b' r =>
      simp only [branchesOf, List.cons.injEq, Prod.mk.injEq] at e3
      obtain ⟨⟨rfl, rfl⟩, e4⟩ := e3
      simp only [opsWf, opWf, ruleWf] at hw
      obtain ⟨st1, h1, h2⟩ := C14_evaluates_partial x c' hw.1.1 st s s1 _ hl hc
      obtain ⟨st2, r2, h3, h4, h5⟩ := ih1 b' st1 rfl hw.1.2.1 h2
      have hr := h4.1 rfl
      subst hr
      obtain ⟨st3, r3, h6, h7, h8⟩ := ih2 t st2 e2 hw.2 h5
      exact ⟨st3, r3, by simp [rwOps, rwOp, rwRule, h1, h3, h6, condCode], h7, h8⟩
  | @branchFail c b bs ss s s1 s2 hc _ ih1 =>
    intro ops st he hw hl
    obtain ⟨o, t, rfl, e1, e2⟩ := stmtsOf_cons he
    obtain ⟨r, rfl, e3⟩ := stmtOf_cases e1
    cases r with
    | null => simp [branchesOf] at e3
    | mk c' b' r =>
      simp only [branchesOf, List.cons.injEq, Prod.mk.injEq] at e3
      obtain ⟨⟨rfl, rfl⟩, e4⟩ := e3
      simp only [opsWf, opWf, ruleWf] at hw
      obtain ⟨st1, h1, h2⟩ := C14_evaluates_partial x c' hw.1.1 st s s1 _ hl hc
      obtain ⟨st2, r2, h3, h4, h5⟩ := ih1 b' st1 rfl hw.1.2.1 h2
      have hr : ¬ r2 = 0 := fun e => by simpa using h4.2 e
      exact ⟨st2, r2, by simp [rwOps, rwOp, rwRule, h1, h3, hr, condCode], h4, h5⟩

theorem rewriteApply_eq (x : CondCtx) (rules : List RwRule) (st : PState) :
    rewriteApply x rules st = rwOps x (rules.map .rule) st := by
  induction rules generalizing st with
  | nil => simp [rewriteApply, rwOps]
  | cons r t ih =>
    simp only [rewriteApply, List.map_cons, rwOps, rwOp]
    rcases rwRule x r st with ⟨st1, v | _ | _⟩
    · simp only [ih]
    · rfl
    · rfl

theorem rwOps_append (x : CondCtx) (a b : List RwOp) (st : PState) :
    rwOps x (a ++ b) st = (match rwOps x a st with
      | (st, .val v) => if v = 0 then rwOps x b st else (st, .val v)
      | y => y) := by
  induction a generalizing st with
  | nil => simp [rwOps]
  | cons o a ih =>
    simp only [List.cons_append, rwOps]
    rcases rwOp x o st with ⟨st1, v | _ | _⟩
    · by_cases hv : v = 0
      · simp only [hv, if_true, ih]
      · simp [hv]
    · rfl
    · rfl

theorem stmts_rules (rules : List RwRule) :
    stmtsOf (rules.map .rule) = rules.map fun r => .cases (branchesOf r) := by
  induction rules with
  | nil => rfl
  | cons r t ih => simp [stmtsOf, stmtOf, ih]

theorem opsWf_rules (rules : List RwRule) (h : ∀ r ∈ rules, ruleWf r) : opsWf (rules.map .rule) := by
  induction rules with
  | nil => simp [opsWf]
  | cons r t ih =>
    simp only [List.map_cons, opsWf, opWf]
    exact ⟨h r (by simp), ih fun r' hr => h r' (by simp [hr])⟩

/-- Before a request is forwarded, the rules of the listener and then those of the service are run
as the conditional program they describe: of each rule exactly the operations of the first branch
whose condition is true, in order; the first operation that fails ends everything and makes the
request fail.  The request line that will be sent is the resulting one.
Missing: as in C14 and C12, conditions and templates on which those deviate. -/
theorem C16_rewrite_partial (x : CondCtx) (lstn svc : List RwRule) (hw : ∀ r ∈ lstn ++ svc, ruleWf r)
    (st : PState) (s s' : View) (ok : Bool) (hl : Looks st s)
    (h : Runs (fun c : Cond => Evals (Test x) c.formula) Act ((lstn ++ svc).map fun r => .cases (branchesOf r)) s ok s') :
    ∃ st' r, rewriteRequest x lstn svc st = (st', .val r) ∧ (ok = true ↔ r = 0) ∧ Looks st' s' ∧
      st'.req.request = s'.req.request := by
  obtain ⟨st', r, h1, h2, h3⟩ := runs_ops h ((lstn ++ svc).map .rule) st (stmts_rules _) (opsWf_rules _ hw) hl
  refine ⟨st', r, ?_, h2, h3, h3.req.request⟩
  rw [← h1, List.map_append, rwOps_append]
  unfold rewriteRequest
  simp only [rewriteApply_eq]
  rcases rwOps x (lstn.map .rule) st with ⟨st1, v | _ | _⟩ <;> rfl

/-- Example: a rule with two branches; the first one does not apply. -/
def exRule : RwRule :=
  .mk (.elem (.path (exactRe b!"/b"))) [.prim (.pathSet b!"/c")]
    (.mk (.bool .and []) [.prim (.hdrSet b!"X-A: 1"), .prim (.pathSet b!"/d")] .null)

example (x : CondCtx) :
    let r := rewriteRequest x [] [exRule] exState
    r.2 = .val 0 ∧ r.1.req.request = b!"GET /d?q HTTP/1.1" ∧ r.1.hs.map (·.text) = [b!"X-A: 1"] := by
  refine ⟨?_, ?_, ?_⟩ <;> rfl

/-- Responses: the rules of the service come first, then those of the listener.  Conditions look at the response, accessors in templates at the request of the client
(`View.src`), and the history of matches begins with what the conditions on the request recorded.  Missing: as for requests. -/
theorem C16_response_partial (x : CondCtx) (svc lstn : List RwRule) (hw : ∀ r ∈ svc ++ lstn, ruleWf r)
    (st : PState) (s s' : View) (ok : Bool) (hl : Looks st s)
    (h : Runs (fun c : Cond => Evals (Test x) c.formula) Act ((svc ++ lstn).map fun r => .cases (branchesOf r)) s ok s') :
    ∃ st' r, rewriteResponse x svc lstn st = (st', .val r) ∧ (ok = true ↔ r = 0) ∧ Looks st' s' := by
  obtain ⟨st', r, h1, h2, h3, -⟩ := C16_rewrite_partial x svc lstn hw st s s' ok hl h
  exact ⟨st', r, h1, h2, h3⟩

/-- Example: the URL of the client, whose path a condition had matched, goes into a header of the response; the listener's rule finds the header. -/
example :
    let x : CondCtx := ⟨fun _ => 0, fun _ _ => 0, fun _ => false⟩
    let st := (matchCond x (.elem (.path (exactRe b!"/a"))) exState).1
    let r := rewriteResponse x [.mk (.bool .and []) [.prim (.hdrSet b!"X-Url: $0 %[url]")] .null]
      [.mk (.elem (.hdr (exactRe b!"X-Url: /a /a?q"))) [.prim (.hdrSet b!"X-Seen: 1")] .null]
      ⟨⟨b!"HTTP/1.1 200 OK", none, 0, 1, [], [], none, [], false⟩, [], st.smq, some (st.req, st.hs)⟩
    r.2 = .val 0 ∧ r.1.hs.map (·.text) = [b!"X-Url: /a /a?q", b!"X-Seen: 1"] := by
  decide +kernel

end Pound.Props
