import Verif.Proof.OwnReq

namespace Pound
open Spec

/-! ### Reading a head -/

def compOwn : Option (Nat × PSb) → Rsrc
  | none, _ => 0
  | some (c, sb), x => one c x + optOwn sb.base x

def entsOwn : List PEnt → Rsrc
  | [], _ => 0
  | e :: t, x => e.hdr.own x + compOwn e.comp x + entsOwn t x

theorem compOwn_none (x : Nat) : compOwn none x = 0 := rfl
theorem compOwn_some (c : Nat) (sb : PSb) (x : Nat) : compOwn (some (c, sb)) x = one c x + optOwn sb.base x := rfl
theorem entsOwn_nil (x : Nat) : entsOwn [] x = 0 := rfl
theorem entsOwn_cons (e : PEnt) (t : List PEnt) (x : Nat) : entsOwn (e :: t) x = e.hdr.own x + compOwn e.comp x + entsOwn t x := rfl

theorem entsOwn_append (s t : List PEnt) (x : Nat) : entsOwn (s ++ t) x = entsOwn s x + entsOwn t x := by
  induction s with
  | nil => exact (Nat.zero_add _).symm
  | cons h s ih =>
    show _ + entsOwn (s ++ t) x = _
    rw [ih, entsOwn_cons]
    omega

def compsOwn : List PEnt → Rsrc
  | [], _ => 0
  | e :: t, x => compOwn e.comp x + compsOwn t x

theorem entsOwn_eq (es : List PEnt) (x : Nat) : entsOwn es x = hdrsOwn (es.map (·.hdr)) x + compsOwn es x := by
  induction es with
  | nil => rfl
  | cons e t ih =>
    show _ + _ + entsOwn t x = e.hdr.own x + _ + (compOwn e.comp x + compsOwn t x)
    rw [ih]
    omega

theorem compsOwn_none {es : List PEnt} (h : ∀ e ∈ es, e.comp = none) (x : Nat) : compsOwn es x = 0 := by
  induction es with
  | nil => rfl
  | cons e t ih =>
    show compOwn e.comp x + compsOwn t x = 0
    rw [h e List.mem_cons_self, ih fun e he => h e (List.mem_cons_of_mem _ he)]
    rfl

/-- Sums of resources while reading -/
macro "re" : tactic => `(tactic| (intro x; (try simp only [zr_at, optOwn_none, optOwn_some, strOwn_none, strOwn_some, psbInit_base, own_at, phOwn_none, phOwn_some, hdrsOwn_nil, hdrsOwn_cons, hdrsOwn_append,
  compOwn_none, compOwn_some, entsOwn_nil, entsOwn_cons, entsOwn_append]) <;> omega))

theorem compsFree_h (es : List PEnt) : Hoare nf (compsOwn es) (compsFreeP es) (fun _ => zr) (fun _ => True) := by
  induction es with
  | nil => exact Hoare.pure trivial fun _ => rfl
  | cons e t ih =>
    unfold compsFreeP
    cases hc : e.comp with
    | none =>
      refine Hoare.bind (A1 := zr) (R1 := fun _ => zr) (P1 := fun _ => True) (Hoare.pure trivial fun _ => rfl) (compsOwn t) (fun x => ?_) fun _ _ => Hoare.pre ih (by re)
      show compOwn e.comp x + compsOwn t x = _
      rw [hc]
      rfl
    | some p =>
      obtain ⟨c, sb⟩ := p
      refine Hoare.bind (A1 := fun x => one c x + optOwn sb.base x) (R1 := fun _ => zr) (P1 := fun _ => True) ?_ (compsOwn t) (fun x => ?_) fun _ _ => Hoare.pre ih (by re)
      · exact Hoare.bind (free_h sb.base) (one c) (by re) fun _ _ => Hoare.pre (free_h (some c)) (by re)
      · show compOwn e.comp x + compsOwn t x = _
        rw [hc]
        rfl

theorem readDrop_h (s : PStr) (chash : Option Nat) (es : List PEnt) (hc : chash = none → ∀ e ∈ es, e.comp = none) :
    Hoare nf (fun x => one s.blk x + optOwn chash x + entsOwn es x) (readDropP s chash es) (fun _ => zr) (fun _ => True) := by
  refine Hoare.bind (free_h (some s.blk)) (fun x => optOwn chash x + entsOwn es x) (by re) fun _ _ => ?_
  refine Hoare.bind (listFree_h (es.map (·.hdr))) (fun x => optOwn chash x + compsOwn es x) (fun x => by have := entsOwn_eq es x; simp only [zr_at]; omega) fun _ _ => ?_
  cases chash with
  | none => exact Hoare.pure trivial fun x => by simp only [zr_at, optOwn_none, compsOwn_none (hc rfl) x]
  | some c =>
    refine Hoare.bind (compsFree_h es) (one c) (by re) fun _ _ => ?_
    exact Hoare.pre (free_h (some c)) (by re)

def PEnt.view (e : PEnt) : RdHeader := ⟨e.hdr.hdr, e.comp.map (·.2.txt)⟩

/-- What is known of an entry while a head is read -/
structure EOk (cl : Bool) (table : List Bytes) (e : PEnt) : Prop where
  hdr : HOk cl e.hdr
  comp : ∀ c sb, e.comp = some (c, sb) → sb.err = false ∧ isCombinable table e.hdr.hdr = true

theorem addComposed_h {cl : Bool} {table : List Bytes} (y : PHdr) (es : List PEnt) (he : ∀ e ∈ es, EOk cl table e) : Hoare true (fun x => y.own x + entsOwn es x) (addComposedP y es)
    (fun o => match o with | none => (fun x => y.own x + entsOwn es x) | some r => entsOwn r.1)
    (fun o => (match o with | none => addComposed (es.map PEnt.view) y.hdr = none | some r => r.2 = false ∧ (∀ e ∈ r.1, EOk cl table e) ∧ addComposed (es.map PEnt.view) y.hdr = some (r.1.map PEnt.view))) := by
  induction es with
  | nil => exact Hoare.pure rfl fun _ => rfl
  | cons e t ih =>
    have ih := ih fun e h => he e (List.mem_cons_of_mem _ h)
    have hrec : ∀ m, m = addComposedP y t → (addComposed ((e :: t).map PEnt.view) y.hdr = (addComposed (t.map PEnt.view) y.hdr).map (e.view :: ·)) →
        Hoare true (fun x => y.own x + entsOwn (e :: t) x) (do let r ← m; pure (r.map fun r => (e :: r.1, r.2)))
        (fun o => match o with | none => (fun x => y.own x + entsOwn (e :: t) x) | some r => entsOwn r.1)
        (fun o => (match o with | none => addComposed ((e :: t).map PEnt.view) y.hdr = none | some r => r.2 = false ∧ (∀ e ∈ r.1, EOk cl table e) ∧ addComposed ((e :: t).map PEnt.view) y.hdr = some (r.1.map PEnt.view))) := by
      intro m hm hv
      subst hm
      refine Hoare.bind ih (fun x => e.hdr.own x + compOwn e.comp x) (by re) fun o ho => ?_
      cases o with
      | none =>
        refine Hoare.pure ?_ (fun x => by show _ = y.own x + entsOwn (e :: t) x; simp only [entsOwn_cons]; omega)
        show addComposed _ _ = none
        rw [hv, ho]
        rfl
      | some r =>
        refine Hoare.pure ⟨ho.1, fun e' he' => ?_, ?_⟩ (fun x => by show _ = entsOwn (e :: r.1) x; simp only [entsOwn_cons]; omega)
        · rcases List.mem_cons.1 he' with rfl | h
          · exact he _ List.mem_cons_self
          · exact ho.2.1 e' h
        · rw [hv, ho.2.2]
          rfl
    have hov : ∀ sb, e.view.comp = some sb → addComposed ((e :: t).map PEnt.view) y.hdr = if e.hdr.hdr.name.length == y.hdr.name.length && ciEq e.hdr.hdr.name y.hdr.name then
        some ({ e.view with comp := some (sb ++ b!", " ++ y.hdr.rawValue) } :: t.map PEnt.view) else (addComposed (t.map PEnt.view) y.hdr).map (e.view :: ·) := by
      intro sb hsb
      rw [List.map_cons, addComposed, hsb]
      rfl
    unfold addComposedP
    cases hc : e.comp with
    | none =>
      refine hrec _ rfl ?_
      rw [List.map_cons, addComposed, show e.view.comp = none by show e.comp.map _ = _; rw [hc]; rfl]
    | some p =>
      obtain ⟨c, sb⟩ := p
      have hov := hov sb.txt (show e.comp.map _ = _ by rw [hc]; rfl)
      dsimp only
      split
      · rename_i hn
        rw [if_pos hn] at hov
        have hs := (he e List.mem_cons_self).comp c sb hc
        refine Hoare.bind (use_h c) (fun x => optOwn sb.base x + y.own x + e.hdr.own x + entsOwn t x) (fun x => by simp only [entsOwn_cons, hc, compOwn_some]; omega) fun _ _ => ?_
        refine Hoare.bind (use_h y.tblk) (fun x => one c x + optOwn sb.base x + one y.blk x + strOwn y.val x + e.hdr.own x + entsOwn t x) (by re) fun _ _ => ?_
        refine Hoare.bind (sbAdds_h [b!", ", y.hdr.rawValue] sb) (fun x => one c x + y.own x + e.hdr.own x + entsOwn t x) (by re) fun sb' hsb' => ?_
        have hsb' := hsb' rfl hs.1
        refine Hoare.bind (hdrFree_h y) (fun x => optOwn sb'.base x + one c x + e.hdr.own x + entsOwn t x) (by re) fun _ _ => ?_
        refine Hoare.pure ⟨by rw [hsb'], fun e' he' => ?_, ?_⟩ (by re)
        · rcases List.mem_cons.1 he' with rfl | h
          · refine ⟨(he e List.mem_cons_self).hdr, fun c' sb'' h => ?_⟩
            cases h
            exact ⟨by rw [hsb'], hs.2⟩
          · exact he e' (List.mem_cons_of_mem _ h)
        · rw [hov]
          congr 2
          show RdHeader.mk _ _ = RdHeader.mk _ _
          congr 2
          show _ = sb'.txt
          rw [hsb']
          simp
      · rename_i hn
        rw [if_neg hn] at hov
        exact hrec _ rfl hov

/-- What is owned after a step of reading: all is released if it failed. -/
def stepOwn (s : PStr) (chash : Option Nat) : Option (List PEnt) → Rsrc
  | none, _ => 0
  | some es, x => one s.blk x + optOwn chash x + entsOwn es x

theorem stepOwn_none (s : PStr) (chash : Option Nat) (x : Nat) : stepOwn s chash none x = 0 := rfl
theorem stepOwn_some (s : PStr) (chash : Option Nat) (es : List PEnt) (x : Nat) : stepOwn s chash (some es) x = one s.blk x + optOwn chash x + entsOwn es x := rfl

/-- The Content-Length headers among the lines are numbers. -/
def LinesOk (cl : Bool) (lines : List Bytes) : Prop := cl = true → ∀ l ∈ lines, (headerAlloc l).code = .contentLength → getContentLength (headerAlloc l).rawValue .header ≠ noContentLength

theorem readStep_h {cl : Bool} {table : List Bytes} {s : PStr} {chash : Option Nat} {es : List PEnt} {text : Bytes} (ht : table = [] ∨ nf = true) (hch : chash = none → table = []) (he : ∀ e ∈ es, EOk cl table e)
    (hcomp : chash = none → ∀ e ∈ es, e.comp = none) (hl : LinesOk cl [text]) : Hoare nf (fun x => one s.blk x + optOwn chash x + entsOwn es x) (readStepP table s chash es text) (stepOwn s chash)
    (fun o => (∀ es', o = some es' → (∀ e ∈ es', EOk cl table e) ∧ (chash = none → ∀ e ∈ es', e.comp = none) ∧ es'.map PEnt.view = readHeaderStep table (es.map PEnt.view) text) ∧ (nf = true → o.isSome = true)) := by
  refine Hoare.bind (hdrAlloc_h text) (fun x => one s.blk x + optOwn chash x + entsOwn es x) (by re) fun o ho => ?_
  cases o with
  | none => exact Hoare.bind (readDrop_h s chash es hcomp) zr (by re) fun _ _ => Hoare.pure ⟨fun _ h => (by cases h), fun hn => by cases ho.2 hn⟩ (fun x => by rw [stepOwn_none]; rfl)
  | some y =>
    obtain ⟨hy1, hy2⟩ := ho.1 y rfl
    unfold readHeaderStep
    dsimp only
    rw [hy1]
    split
    · exact Hoare.bind (hdrFree_h y) (fun x => one s.blk x + optOwn chash x + entsOwn es x) (by re) fun _ _ => Hoare.pure ⟨fun es' h => (by cases h; exact ⟨he, hcomp, rfl⟩), fun _ => rfl⟩ (fun x => by rw [stepOwn_some, zr_at]; omega)
    · rename_i hleg
      have hex : ∃ n v, HeaderLine text n v := Classical.byContradiction fun h => hleg (qualify_illegal.2 h)
      have hyok : HOk cl y := by
        have := hOk_new (cl := cl) (b := y.blk) (t := y.tblk) (text := text) ⟨hex, fun hc => hl hc text (List.mem_singleton.2 rfl)⟩
        rw [← hy1, ← hy2] at this
        exact this
      split
      · rename_i hcb
        have hn : nf = true := by
          rcases ht with h | h
          · rw [h] at hcb
            cases hcb
          · exact h
        subst hn
        have hcn : chash ≠ none := fun h => by rw [hch h] at hcb; cases hcb
        rw [← hy1] at hcb ⊢
        refine Hoare.bind (addComposed_h y es he) (fun x => one s.blk x + optOwn chash x) (by re) fun r hr => ?_
        cases r with
        | some p =>
          obtain ⟨es', err⟩ := p
          obtain ⟨r1, r2, r3⟩ := hr
          dsimp only at r1 r2 r3 ⊢
          rw [r1, if_neg (by decide), r3]
          exact Hoare.pure ⟨fun es'' h => (by cases h; exact ⟨r2, fun h => absurd h hcn, rfl⟩), fun _ => rfl⟩ (fun x => by rw [stepOwn_some]; omega)
        | none =>
          dsimp only at hr ⊢
          rw [hr]
          refine Hoare.bind alloc_h (fun x => y.own x + entsOwn es x + one s.blk x + optOwn chash x) (by re) fun c hc => ?_
          obtain ⟨c, rfl⟩ := hc rfl
          dsimp only
          refine Hoare.bind (sbAdds_h _ PSb.init) (fun x => one c x + y.own x + entsOwn es x + one s.blk x + optOwn chash x) (by re) fun sb hsb => ?_
          have hsb := hsb rfl rfl
          rw [show sb.err = false by rw [hsb], if_neg (by decide)]
          refine Hoare.pure ⟨fun es' h => ?_, fun _ => rfl⟩ (fun x => by simp only [stepOwn_some, entsOwn_append, entsOwn_cons, entsOwn_nil, compOwn_some]; omega)
          cases h
          refine ⟨fun e h => ?_, fun h => absurd h hcn, ?_⟩
          · rcases List.mem_append.1 h with h | h
            · exact he e h
            · simp only [List.mem_cons, List.not_mem_nil, or_false] at h
              subst h
              exact ⟨hyok, fun c' sb' h => by cases h; exact ⟨by rw [hsb], hcb⟩⟩
          · rw [List.map_append]
            congr 1
            show [RdHeader.mk _ (some sb.txt)] = _
            congr 3
            rw [hsb]
            simp [PSb.init]
      · refine Hoare.pure ⟨fun es' h => ?_, fun _ => rfl⟩ (fun x => by simp only [stepOwn_some, entsOwn_append, entsOwn_cons, entsOwn_nil, compOwn_none, phOwn_some]; omega)
        cases h
        refine ⟨fun e h => ?_, fun hc e h => ?_, ?_⟩
        · rcases List.mem_append.1 h with h | h
          · exact he e h
          · simp only [List.mem_cons, List.not_mem_nil, or_false] at h
            subst h
            exact ⟨hyok, fun c' sb' h => (by cases h)⟩
        · rcases List.mem_append.1 h with h | h
          · exact hcomp hc e h
          · simp only [List.mem_cons, List.not_mem_nil, or_false] at h
            subst h
            rfl
        · rw [List.map_append, ← hy1]
          rfl

theorem readSteps_h {cl : Bool} {table : List Bytes} {s : PStr} {chash : Option Nat} (ht : table = [] ∨ nf = true) (hch : chash = none → table = []) (lines : List Bytes) (es : List PEnt) (he : ∀ e ∈ es, EOk cl table e)
    (hcomp : chash = none → ∀ e ∈ es, e.comp = none) (hl : LinesOk cl lines) : Hoare nf (fun x => one s.blk x + optOwn chash x + entsOwn es x) (readStepsP table s chash es lines) (stepOwn s chash)
    (fun o => (∀ es', o = some es' → (∀ e ∈ es', EOk cl table e) ∧ (chash = none → ∀ e ∈ es', e.comp = none) ∧ es'.map PEnt.view = lines.foldl (readHeaderStep table) (es.map PEnt.view)) ∧ (nf = true → o.isSome = true)) := by
  induction lines generalizing es with
  | nil => exact Hoare.pure ⟨fun es' h => (by cases h; exact ⟨he, hcomp, rfl⟩), fun _ => rfl⟩ fun _ => rfl
  | cons l ls ih =>
    refine Hoare.bind (readStep_h (text := l) ht hch he hcomp fun hc l' h => hl hc l' ?_) zr (by re) fun o ho => ?_
    · rw [List.mem_singleton.1 h]
      exact List.mem_cons_self
    · cases o with
      | none => exact Hoare.pure ⟨fun es' h => (by cases h), ho.2⟩ (by re)
      | some es' =>
        obtain ⟨h1, h2, h3⟩ := ho.1 es' rfl
        refine Hoare.post (Hoare.pre (ih es' h1 h2 fun hc l' h => hl hc l' (List.mem_cons_of_mem _ h)) fun x => by rw [stepOwn_some, zr_at]; rfl) (fun _ _ _ => rfl) fun o h => ⟨fun es'' h' => ?_, h.2⟩
        rw [List.foldl_cons, ← h3]
        exact h.1 es'' h'

theorem finish_h {cl : Bool} {table : List Bytes} (hcl : cl = true → ∀ n ∈ table, ciEq n b!"Content-Length" = false) (es : List PEnt) (he : ∀ e ∈ es, EOk cl table e) (hg : ∀ e ∈ es, RdGood e.view) :
    Hoare true (entsOwn es) (finishP false es) (fun r => hdrsOwn r.1) (fun r => r.2 = false ∧ (∀ y ∈ r.1, HOk cl y) ∧ r.1.map (·.hdr) = (es.map PEnt.view).map finishHeader) := by
  induction es with
  | nil => exact Hoare.pure ⟨rfl, fun y h => (by cases h), rfl⟩ fun _ => rfl
  | cons e t ih =>
    have ih := ih (fun e h => he e (List.mem_cons_of_mem _ h)) fun e h => hg e (List.mem_cons_of_mem _ h)
    unfold finishP
    cases hc : e.comp with
    | none =>
      dsimp only
      refine Hoare.bind ih e.hdr.own (fun x => by simp only [entsOwn_cons, hc, compOwn_none]; omega) fun r hr => Hoare.pure ⟨hr.1, fun y h => ?_, ?_⟩ (by re)
      · rcases List.mem_cons.1 h with rfl | h
        · exact (he e List.mem_cons_self).hdr
        · exact hr.2.1 y h
      · rw [List.map_cons, hr.2.2, List.map_cons, List.map_cons]
        congr 1
        unfold finishHeader PEnt.view
        rw [hc]
        rfl
    | some p =>
      obtain ⟨c, sb⟩ := p
      obtain ⟨s1, s2⟩ := (he e List.mem_cons_self).comp c sb hc
      dsimp only
      rw [if_neg (by decide)]
      refine Hoare.bind (sbFinish_h sb) (fun x => one c x + e.hdr.own x + entsOwn t x) (fun x => by simp only [entsOwn_cons, hc, compOwn_some]; omega) fun f hf => ?_
      obtain ⟨s, f1, f2⟩ := hf.2 rfl s1
      have f3 := (hf.1 s f1).1
      rw [f1]
      dsimp only
      refine Hoare.bind (hdrTake_h e.hdr s) (fun x => one c x + entsOwn t x) (fun x => by rw [f3, optOwn_some]; omega) fun z hz => ?_
      refine Hoare.bind (free_h (some c)) (fun x => z.own x + entsOwn t x) (by re) fun _ _ => ?_
      obtain ⟨g1, g2⟩ := hg e List.mem_cons_self
      obtain ⟨v, v1, v2⟩ := g2 sb.txt (show e.comp.map _ = _ by rw [hc]; rfl)
      have hline : HeaderLine sb.txt e.hdr.hdr.name v := by
        obtain ⟨ws, -, l2, l3, -, -⟩ := g1.line
        exact ⟨[32], by rw [v1]; simp [PEnt.view], l2, l3, by simp, v2⟩
      have hz' : z = ⟨e.hdr.blk, s.blk, headerAlloc sb.txt, none⟩ := by rw [hz, f2, change_std hline]
      refine Hoare.bind ih z.own (by re) fun r hr => Hoare.pure ⟨hr.1, fun y h => ?_, ?_⟩ (by re)
      · rcases List.mem_cons.1 h with rfl | h
        · rw [hz']
          refine hOk_new ⟨⟨_, _, hline⟩, fun hcl' hcode => ?_⟩
          exfalso
          rw [(alloc_fine hline).2] at hcode
          have hnm : (headerAlloc sb.txt).name = e.hdr.hdr.name := by
            have h1 := (alloc_good hline).1.line
            rw [(alloc_good hline).2] at h1
            rw [← takeWhile_notColon h1, takeWhile_notColon hline]
          rw [hnm] at hcode
          have hci := (codeOf_iff (e := (b!"Content-length", .contentLength)) (by decide) _).1 hcode
          obtain ⟨n, n1, n2⟩ := List.any_eq_true.1 s2
          have := hcl hcl' n n1
          rw [show ciEq n b!"Content-Length" = true from ciEq_trans n2 hci] at this
          cases this
        · exact hr.2.1 y h
      · rw [List.map_cons, hr.2.2, List.map_cons, List.map_cons]
        congr 1
        rw [hz', ← change_std (h := e.hdr.hdr) hline]
        unfold finishHeader PEnt.view
        rw [hc]
        rfl

theorem chash_h (table : List Bytes) : Hoare nf zr (chashP table) (fun r => optOwn r.1) (fun r => (table = [] → r = (none, true)) ∧ (r.2 = true → r.1 = none → table = []) ∧ (r.2 = false → r.1 = none) ∧ (nf = true → r.2 = true)) := by
  unfold chashP
  split
  · rename_i h
    have h := List.isEmpty_iff.1 h
    exact Hoare.pure ⟨fun _ => rfl, fun _ _ => h, fun h => (by cases h), fun _ => rfl⟩ fun _ => rfl
  · rename_i h
    refine Hoare.bind alloc_h zr (by re) fun c hc => Hoare.pure ⟨fun he => ?_, fun h1 h2 => ?_, fun h1 => ?_, fun hn => ?_⟩ (by re)
    · rw [he] at h
      exact absurd rfl h
    · dsimp only at h1 h2
      rw [h2] at h1
      cases h1
    · dsimp only at h1 ⊢
      cases c with
      | none => rfl
      | some c => cases h1
    · obtain ⟨b, rfl⟩ := hc hn
      rfl

theorem reqOwn_init (x : Nat) : reqOwn PReq.init x = 0 := rfl

theorem read_h {cl : Bool} {table : List Bytes} (i : HeadInput) (ht : table = [] ∨ nf = true) (hf : table = [] ∨ i.first ≠ none) (hcl : cl = true → ∀ n ∈ table, ciEq n b!"Content-Length" = false) (hl : LinesOk cl i.lines) :
    Hoare nf zr (readP table i PReq.init) (fun x => reqOwn x.1)
      (fun x => (x.2 = .ok → ∃ s hs, x.1 = { PReq.init with request := some s, headers := hs } ∧ i.first = some s.txt ∧ i.whole = true ∧ (∀ y ∈ hs, HOk cl y) ∧ hs.map (·.hdr) = buildHeaders table i.lines) ∧
        (nf = true → x.2 ≠ .ok → i.first = none ∨ i.whole = false)) := by
  refine Hoare.bind (chash_h table) zr (by re) fun ch hch => ?_
  obtain ⟨c1, c2, c3, c4⟩ := hch
  split
  · rename_i h
    have h : ch.2 = false := by simpa using h
    refine Hoare.pure ⟨fun h => (by cases h), fun hn => ?_⟩ (fun x => by rw [c3 h]; rfl)
    rw [c4 hn] at h
    cases h
  · rename_i h
    have h : ch.2 = true := by simpa using h
    cases hfi : i.first with
    | none =>
      refine Hoare.pure ⟨fun h => (by cases h), fun _ _ => .inl rfl⟩ (fun x => ?_)
      rcases hf with hf | hf
      · rw [c1 hf]
        rfl
      · exact absurd hfi hf
    | some line =>
      dsimp only
      refine Hoare.bind (dupS_h line) (optOwn ch.1) (by re) fun s hs => ?_
      cases s with
      | none => exact Hoare.bind (free_h ch.1) zr (by re) fun _ _ => Hoare.pure ⟨fun h => (by cases h), fun hn => by cases hs.2 hn⟩ (fun x => by rw [reqOwn_init]; rfl)
      | some s =>
        dsimp only
        refine Hoare.bind (readSteps_h (cl := cl) (s := s) ht (c2 h) i.lines [] (fun e h => (by cases h)) (fun _ e h => (by cases h)) hl) zr (by re) fun o ho => ?_
        cases o with
        | none => exact Hoare.pure ⟨fun h => (by cases h), fun hn => by cases ho.2 hn⟩ (fun x => by rw [reqOwn_init]; rfl)
        | some es =>
          obtain ⟨e1, e2, e3⟩ := ho.1 es rfl
          dsimp only
          split
          · rename_i hw
            exact Hoare.bind (readDrop_h s ch.1 es e2) zr (fun x => by rw [stepOwn_some]) fun _ _ => Hoare.pure ⟨fun h => (by cases h), fun _ _ => .inr (by simpa using hw)⟩ (fun x => by rw [reqOwn_init]; rfl)
          · rename_i hw
            have hw : i.whole = true := by simpa using hw
            cases hc : ch.1 with
            | none =>
              dsimp only
              refine Hoare.pure ⟨fun _ => ⟨s, es.map (·.hdr), rfl, by rw [hs.1 s rfl], hw, fun y hy => ?_, ?_⟩, fun _ h => absurd rfl h⟩ (fun x => ?_)
              · obtain ⟨e, he, rfl⟩ := List.mem_map.1 hy
                exact (e1 e he).hdr
              · unfold buildHeaders
                rw [show ([] : List PEnt).map PEnt.view = [] from rfl] at e3
                rw [← e3, List.map_map, List.map_map]
                apply List.map_congr_left
                intro e he
                show _ = finishHeader e.view
                unfold finishHeader PEnt.view
                rw [e2 hc e he]
                rfl
              · have := entsOwn_eq es x
                rw [compsOwn_none (e2 hc) x] at this
                simp only [stepOwn_some, reqOwn_at, PReq.init, strOwn_none, strOwn_some, paramsOwn_nil, zr_at, optOwn_none]
                omega
            | some c =>
              dsimp only
              have hn : nf = true := by
                rcases ht with h' | h'
                · rw [c1 h'] at hc
                  cases hc
                · exact h'
              subst hn
              have hg : ∀ e ∈ es, RdGood e.view := by
                intro e he
                rw [show ([] : List PEnt).map PEnt.view = [] from rfl] at e3
                refine foldl_good table i.lines [] (fun e h => (by cases h)) e.view ?_
                rw [← e3]
                exact List.mem_map_of_mem he
              refine Hoare.bind (finish_h hcl es e1 hg) (fun x => one s.blk x + one c x) (fun x => by rw [stepOwn_some, zr_at, optOwn_some]; omega) fun r hr => ?_
              refine Hoare.bind (free_h (some c)) (fun x => hdrsOwn r.1 x + one s.blk x) (by re) fun _ _ => ?_
              rw [hr.1, if_neg (by decide)]
              refine Hoare.pure ⟨fun _ => ⟨s, r.1, rfl, by rw [hs.1 s rfl], hw, hr.2.1, ?_⟩, fun _ h => absurd rfl h⟩ (fun x => ?_)
              · rw [hr.2.2]
                unfold buildHeaders
                rw [show ([] : List PEnt).map PEnt.view = [] from rfl] at e3
                rw [e3]
              · simp only [reqOwn_at, PReq.init, strOwn_none, strOwn_some, paramsOwn_nil, zr_at]
                omega

end Pound
