import Verif.Props.Expand
import Verif.Model.Cond
import Verif.Spec.Cond

/-!
Lemmas about conditions, services and rewriting.
-/

namespace Pound
open Spec Props

/-! ### Requests up to lazily computed parts -/

/-- The two requests differ at most in which of their parts were already computed. -/
def SameReq (r r' : Req) : Prop := r.loadParams = r'.loadParams

theorem loadParams_idem (r : Req) : r.loadParams.loadParams = r.loadParams := by
  have h1 := loadParams_split r
  have h2 := loadParams_params_idem r
  have h3 : r.loadParams.doSplit = r.loadParams := doSplit_of_not h1
  generalize r.loadParams = s at *
  unfold Req.loadParams at h2 ⊢
  rw [h3] at h2 ⊢
  dsimp only at h2 ⊢
  split
  · rename_i he
    rw [if_pos he] at h2
    split
    · rename_i q hq
      simp only [hq] at h2
      cases s
      simp only at h2
      simp [h2]
    · rfl
  · rfl

theorem loadParams_doSplit (r : Req) : r.doSplit.loadParams = r.loadParams := by
  simp only [Req.loadParams, doSplit_idem]

/-- The parts of `loadParams` other than `params`. -/
theorem loadParams_fields (r : Req) :
    r.loadParams.url = r.doSplit.url ∧ r.loadParams.path = r.doSplit.path ∧
    r.loadParams.query = r.doSplit.query ∧ r.loadParams.request = r.doSplit.request ∧
    r.loadParams.orig = r.doSplit.orig ∧ r.loadParams.meth = r.doSplit.meth ∧
    r.loadParams.version = r.doSplit.version ∧ r.loadParams.split = r.doSplit.split := by
  unfold Req.loadParams
  dsimp only
  split
  · split <;> simp
  · simp

theorem doSplit_fields (r : Req) :
    r.doSplit.url = r.url ∧ r.doSplit.request = r.request ∧ r.doSplit.orig = r.orig ∧
    r.doSplit.meth = r.meth ∧ r.doSplit.version = r.version := by
  unfold Req.doSplit
  split
  · dsimp only
    split <;> simp
  · simp

theorem SameReq.refl (r : Req) : SameReq r r := rfl
theorem SameReq.trans {a b c : Req} (h : SameReq a b) (h' : SameReq b c) : SameReq a c := Eq.trans h h'
theorem SameReq.symm {a b : Req} (h : SameReq a b) : SameReq b a := Eq.symm h

theorem SameReq.url {r r' : Req} (h : SameReq r r') : r.url = r'.url := by
  have := congrArg Req.url h
  rw [(loadParams_fields r).1, (loadParams_fields r').1, (doSplit_fields r).1, (doSplit_fields r').1] at this
  exact this

theorem SameReq.request {r r' : Req} (h : SameReq r r') : r.request = r'.request := by
  have := congrArg Req.request h
  rw [(loadParams_fields r).2.2.2.1, (loadParams_fields r').2.2.2.1, (doSplit_fields r).2.1,
    (doSplit_fields r').2.1] at this
  exact this

theorem SameReq.path {r r' : Req} (h : SameReq r r') : r.getPath.2 = r'.getPath.2 := by
  have := congrArg Req.path h
  rw [(loadParams_fields r).2.1, (loadParams_fields r').2.1] at this
  exact this

theorem SameReq.query {r r' : Req} (h : SameReq r r') : r.getQuery.2 = r'.getQuery.2 := by
  have := congrArg Req.query h
  rw [(loadParams_fields r).2.2.1, (loadParams_fields r').2.2.1] at this
  exact this

theorem SameReq.param {r r' : Req} (h : SameReq r r') (k : Bytes) : (r.getParam k).2 = (r'.getParam k).2 := by
  simp only [Req.getParam]
  rw [show r.loadParams = r'.loadParams from h]

theorem sameReq_getPath (r : Req) : SameReq r.getPath.1 r := loadParams_doSplit r
theorem sameReq_getQuery (r : Req) : SameReq r.getQuery.1 r := loadParams_doSplit r
theorem sameReq_getParam (r : Req) (k : Bytes) : SameReq (r.getParam k).1 r := loadParams_idem r

theorem sameReq_load (r : Req) : SameReq r.loadParams r := loadParams_idem r

/-- Two requests that differ in computed parts only. -/
theorem setUrl_load (r : Req) (u : Bytes) : SameReq (r.loadParams.setUrl u) (r.setUrl u) := by
  have e : (r.loadParams.setUrl u).doSplit = (r.setUrl u).doSplit := by
    obtain ⟨-, -, -, f4, f5, f6, f7, -⟩ := loadParams_fields r
    obtain ⟨-, g2, g3, g4, g5⟩ := doSplit_fields r
    rw [g2] at f4; rw [g3] at f5; rw [g4] at f6; rw [g5] at f7
    generalize r.loadParams = s at *
    simp only [Req.setUrl, Req.rebuildLine, Req.doSplit, if_true, f4, f5, f6, f7]
    split <;> simp
  have := congrArg Req.loadParams e
  rw [loadParams_doSplit, loadParams_doSplit] at this
  exact this

theorem setQuery_load (r : Req) (u : Bytes) : SameReq (r.loadParams.setQuery u) (r.setQuery u) := by
  have e : r.loadParams.setQuery u = r.setQuery u := by
    obtain ⟨f1, f2, f3, f4, f5, f6, f7, f8⟩ := loadParams_fields r
    simp only [Req.setQuery, doSplit_of_not (loadParams_split r)]
    simp [Req.rebuildUrl, Req.rebuildLine, *]
  rw [e]; exact rfl

theorem setParam_load (r : Req) (k : Bytes) (v : Option Bytes) :
    SameReq (r.loadParams.setParam k v) (r.setParam k v) := by
  have e : r.loadParams.getParam k = r.getParam k := by
    simp only [Req.getParam, loadParams_idem]
  simp only [Req.setParam, e]
  exact rfl

theorem setPath_load (r : Req) (p : Bytes) : SameReq (r.loadParams.setPath p) (r.setPath p) := by
  simp only [Req.setPath, doSplit_of_not (loadParams_split r)]
  have hs := doSplit_split r
  unfold SameReq
  have key : ∀ s : Req, s.split = false →
      ({ s.loadParams with path := p }.rebuildUrl).loadParams = ({ s with path := p }.rebuildUrl).loadParams := by
    intro s hs
    obtain ⟨rq, og, me, ve, ur, pa, qu, pr, sp⟩ := s
    simp only at hs
    subst hs
    cases pr with
    | nil =>
      cases qu with
      | none => simp [Req.loadParams, Req.doSplit, Req.rebuildUrl, Req.rebuildLine]
      | some q =>
        cases hq : parseQuery q with
        | nil => simp [Req.loadParams, Req.doSplit, Req.rebuildUrl, Req.rebuildLine, hq]
        | cons a b => simp [Req.loadParams, Req.doSplit, Req.rebuildUrl, Req.rebuildLine, hq]
    | cons a b => simp [Req.loadParams, Req.doSplit, Req.rebuildUrl, Req.rebuildLine]
  have := key r.doSplit hs
  rw [loadParams_doSplit] at this
  exact this

theorem SameReq.setUrl {r r' : Req} (h : SameReq r r') (u : Bytes) : SameReq (r.setUrl u) (r'.setUrl u) := by
  have h1 := setUrl_load r u
  rw [show r.loadParams = r'.loadParams from h] at h1
  exact h1.symm.trans (setUrl_load r' u)

theorem SameReq.setPath {r r' : Req} (h : SameReq r r') (u : Bytes) : SameReq (r.setPath u) (r'.setPath u) := by
  have h1 := setPath_load r u
  rw [show r.loadParams = r'.loadParams from h] at h1
  exact h1.symm.trans (setPath_load r' u)

theorem SameReq.setQuery {r r' : Req} (h : SameReq r r') (u : Bytes) : SameReq (r.setQuery u) (r'.setQuery u) := by
  have h1 := setQuery_load r u
  rw [show r.loadParams = r'.loadParams from h] at h1
  exact h1.symm.trans (setQuery_load r' u)

theorem SameReq.setParam {r r' : Req} (h : SameReq r r') (k : Bytes) (v : Option Bytes) :
    SameReq (r.setParam k v) (r'.setParam k v) := by
  have h1 := setParam_load r k v
  rw [show r.loadParams = r'.loadParams from h] at h1
  exact h1.symm.trans (setParam_load r' k v)

theorem SameReq.accessor {r r' : Req} (h : SameReq r r') (hs : List Header) (i : Bytes) :
    accessor r hs i = accessor r' hs i := by
  unfold Pound.accessor
  split
  · rfl
  · rfl
  · simp only [callAccessor, h.url, h.path, h.query, h.param]

theorem SameReq.accessorsOf {r r' : Req} (h : SameReq r r') (hs : List Header) :
    accessorsOf r hs = accessorsOf r' hs := by
  unfold Props.accessorsOf
  rw [h.url, h.path, h.query, funext fun k => h.param k]

/-! ### The history -/

/-- Overwrite the latest element. -/
def Smq.setCur (q : Smq) (s : Submatch) : Smq :=
  { q with sm := q.sm.modify (q.cur % smqSize) fun _ => s }

theorem Smq.exec_eq (q : Smq) (m s) : q.exec m s = q.setCur (submatchExec m s) := rfl

theorem Smq.setCur_setCur (q : Smq) (a b : Submatch) : (q.setCur a).setCur b = q.setCur b := by
  simp only [Smq.setCur]
  congr 1
  apply List.ext_getElem?
  intro i
  simp only [List.getElem?_modify]
  split <;> cases q.sm[i]? <;> simp

theorem Smq.push_wf {q : Smq} (h : q.Wf) : q.push.Wf := by
  obtain ⟨h1, h2⟩ := h
  constructor
  · show (q.cur + 1) % 8 < 8
    omega
  · simp [Smq.push, h2]

theorem Smq.setCur_wf {q : Smq} (h : q.Wf) (s : Submatch) : (q.setCur s).Wf := by
  obtain ⟨h1, h2⟩ := h
  exact ⟨h1, by simp [Smq.setCur, h2]⟩

theorem Smq.get_setCur_zero {q : Smq} (h : q.Wf) (s : Submatch) : (q.setCur s).get 0 = .ok s := by
  obtain ⟨h1, h2⟩ := h
  have h4 : q.cur < q.sm.length := by omega
  simp [Smq.get, Smq.setCur, smqSize, Nat.mod_eq_of_lt h1, List.getElem?_eq_getElem h4]

theorem Smq.get_setCur_succ {q : Smq} (h : q.Wf) (s : Submatch) (n : Nat) (hn : n + 1 < 8) :
    (q.setCur s).get (n + 1) = q.get (n + 1) := by
  obtain ⟨h1, h2⟩ := h
  have h3 : q.cur % 8 ≠ (q.cur + 8 - (n + 1)) % 8 := by omega
  simp only [Smq.get, Smq.setCur, smqSize, List.getElem?_modify, h3, if_false, id]
  cases q.sm[(q.cur + 8 - (n + 1)) % 8]? <;> rfl

theorem Smq.get_push_succ {q : Smq} (h : q.Wf) (n : Nat) (hn : n + 1 < 8) :
    q.push.get (n + 1) = q.get n := by
  obtain ⟨h1, h2⟩ := h
  have e : ((q.cur + 1) % 8 + 8 - (n + 1)) % 8 = (q.cur + 8 - n) % 8 := by omega
  have h4 : (q.cur + 1) % 8 ≠ (q.cur + 8 - n) % 8 := by omega
  simp only [Smq.get, Smq.push, smqSize, e, List.getElem?_modify, h4, if_false, id]
  cases q.sm[(q.cur + 8 - n) % 8]? <;> rfl

theorem Smq.get_push_zero {q : Smq} (h : q.Wf) : ∃ s, q.push.get 0 = .ok s ∧ s.subject = none := by
  obtain ⟨h1, h2⟩ := h
  have h4 : (q.cur + 1) % 8 < q.sm.length := by omega
  refine ⟨{ q.sm[(q.cur + 1) % 8] with subject := none, matchn := 0 }, ?_, rfl⟩
  simp [Smq.get, Smq.push, smqSize, List.getElem?_eq_getElem h4]

theorem recorded_push {q : Smq} {ms} (h : Recorded q ms) (m : MatchRes) (s : Bytes) (hm : m.ok = false) :
    Recorded q.push ((m, s) :: ms) := by
  refine ⟨Smq.push_wf h.wf, ?_⟩
  intro n hn
  cases n with
  | zero =>
    obtain ⟨sm, h1, h2⟩ := Smq.get_push_zero h.wf
    refine ⟨sm, h1, .inr ⟨?_, h2⟩⟩
    intro m' s' e
    simp only [List.getElem?_cons_zero, Option.some.injEq, Prod.mk.injEq] at e
    rw [← e.1]; exact hm
  | succ n =>
    rw [Smq.get_push_succ h.wf n hn]
    exact h.shows n (by omega)

theorem recorded_set {q : Smq} {ms} (h : Recorded q ms) (m : MatchRes) (s : Bytes) (sm : Submatch)
    (hsm : (m.ok = true ∧ sm = ⟨some s, m.groups.length, m.groups⟩) ∨ (m.ok = false ∧ sm.subject = none)) :
    Recorded (q.push.setCur sm) ((m, s) :: ms) := by
  refine ⟨Smq.setCur_wf (Smq.push_wf h.wf) _, ?_⟩
  intro n hn
  cases n with
  | zero =>
    refine ⟨sm, Smq.get_setCur_zero (Smq.push_wf h.wf) sm, ?_⟩
    rcases hsm with ⟨h1, h2⟩ | ⟨h1, h2⟩
    · exact .inl ⟨m, s, rfl, h1, h2⟩
    · refine .inr ⟨?_, h2⟩
      intro m' s' e
      simp only [List.getElem?_cons_zero, Option.some.injEq, Prod.mk.injEq] at e
      rw [← e.1]; exact h1
  | succ n =>
    rw [Smq.get_setCur_succ (Smq.push_wf h.wf) sm n hn, Smq.get_push_succ h.wf n hn]
    exact h.shows n (by omega)

theorem recorded_exec {q : Smq} {ms} (h : Recorded q ms) (m : MatchRes) (s : Bytes) :
    Recorded (q.push.exec m s) ((m, s) :: ms) := by
  rw [Smq.exec_eq]
  apply recorded_set h
  cases hm : m.ok
  · exact .inr ⟨rfl, by simp [submatchExec, hm]⟩
  · exact .inl ⟨rfl, by simp [submatchExec, hm]⟩

/-! ### Matching of headers -/

theorem matchHeaders_hit (re : Re) (a : List Header) (h : Header) (b : List Header) (q : Smq)
    (ha : ∀ x ∈ a, (re x.text).ok = false) (hh : (re h.text).ok = true) :
    matchHeaders re (a ++ h :: b) q = (q.exec (re h.text) h.text, true) := by
  induction a generalizing q with
  | nil => simp [matchHeaders, hh]
  | cons x a ih =>
    have hx := ha x (by simp)
    have := ih (q.exec (re x.text) x.text) (fun y hy => ha y (by simp [hy]))
    simp only [List.cons_append, matchHeaders, hx, Bool.false_eq_true, if_false]
    rw [this]
    simp only [Smq.exec_eq, Smq.setCur_setCur]

theorem matchHeaders_miss (re : Re) (hs : List Header) (q : Smq) (ha : ∀ x ∈ hs, (re x.text).ok = false) :
    ∃ q', matchHeaders re hs q = (q', false) ∧
      (q' = q ∨ ∃ sm : Submatch, sm.subject = none ∧ q' = q.setCur sm) := by
  induction hs generalizing q with
  | nil => exact ⟨q, rfl, .inl rfl⟩
  | cons x a ih =>
    have hx := ha x (by simp)
    obtain ⟨q', h1, h2⟩ := ih (q.exec (re x.text) x.text) (fun y hy => ha y (by simp [hy]))
    refine ⟨q', ?_, .inr ?_⟩
    · simp only [matchHeaders, hx, Bool.false_eq_true, if_false]
      exact h1
    · have hsub : (submatchExec (re x.text) x.text).subject = none := by simp [submatchExec, hx]
      rcases h2 with h2 | ⟨sm, h3, h2⟩
      · exact ⟨_, hsub, h2⟩
      · refine ⟨sm, h3, ?_⟩
        rw [h2, Smq.exec_eq, Smq.setCur_setCur]

end Pound
