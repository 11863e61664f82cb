import Verif.Model.LstCfg
import Verif.Proof.BeCfg

namespace Pound

open Spec

/-! ### Tables of settings -/

/-- A statement written with a keyword of a table -/
def SetStmt {δ σ : Type} (args : Bytes → List Tok → δ → Prop) (app : δ → σ → Option σ) (t : List Tok) (s s' : σ) : Prop :=
  ∃ w n a x, args w a x ∧ ciEq w n = true ∧ t = .ident n :: (a ++ [.nl]) ∧ app x s = some s'

/-- What a table of settings has to satisfy -/
structure SetTable {κ δ : Type} (tab : List (Bytes × κ)) (arg : κ → List Tok → Option (δ × List Tok)) (nonl : κ → Bool)
    (args : Bytes → List Tok → δ → Prop) : Prop where
  stop : ∀ x ∈ tab, ciEq b!"End" x.1 = false
  find : ∀ x ∈ tab, kwFind tab x.1 = some x.2
  sound : ∀ {w k ts x r}, (w, k) ∈ tab → arg k ts = some (x, r) → ∃ a, ts = a ++ (if nonl k then .nl :: r else r) ∧ args w a x
  complete : ∀ {w a x}, args w a x → ∃ k, (w, k) ∈ tab ∧ ∀ r, arg k (a ++ (if nonl k then .nl :: r else r)) = some (x, r)

theorem args_congr_end {w n : Bytes} (h : ciEq w n = true) : ciEq b!"End" n = ciEq b!"End" w := by
  cases hE : ciEq b!"End" n with
  | true => rw [ciEq_trans hE (by rw [ciEq_comm]; exact h)]
  | false =>
    cases hW : ciEq b!"End" w with
    | false => rfl
    | true => rw [ciEq_trans hW h] at hE; cases hE

/-- The parsers of a table without its End -/
def tableFind {κ δ σ : Type} (tab : List (Bytes × κ)) (arg : κ → List Tok → Option (δ × List Tok)) (nonl : κ → Bool) (app : δ → σ → Option σ) (name : Bytes) : Option (LParser σ) :=
  (kwFind tab name).map fun k => setParser (arg k) (nonl k) app

theorem tab_sound {κ δ σ : Type} {tab : List (Bytes × κ)} {arg : κ → List Tok → Option (δ × List Tok)} {nonl : κ → Bool}
    {args : Bytes → List Tok → δ → Prop} (h : SetTable tab arg nonl args) {app : δ → σ → Option σ} {n : Bytes} {p : LParser σ} (hf : tableFind tab arg nonl app n = some p) :
    (∀ {s x}, p s ≠ .fin x) ∧
    (∀ {s ts e s' r e'}, p ⟨s, ts, e⟩ = .ok ⟨s', r, e'⟩ → e' = e ∧ ∃ a, ts = a ++ r ∧ SetStmt args app (.ident n :: (a ++ [.nl])) s s') ∧
    (∀ {s ts e s' r e'}, p ⟨s, ts, e⟩ = .nonl ⟨s', r, e'⟩ → e' = e ∧ ∃ a, ts = a ++ r ∧ SetStmt args app (.ident n :: a) s s') := by
  unfold tableFind at hf
  rw [Option.map_eq_some_iff] at hf
  obtain ⟨k, hk, rfl⟩ := hf
  obtain ⟨w, hw, hc⟩ := kwFind_mem hk
  refine ⟨?_, ?_, ?_⟩
  · intro s x hp
    unfold setParser at hp
    split at hp
    · cases hp
    · split at hp
      · cases hp
      · split at hp <;> cases hp
  · intro s ts e s' r e' hp
    unfold setParser at hp
    dsimp only at hp
    split at hp
    · cases hp
    · rename_i x r1 ha
      split at hp
      · cases hp
      · rename_i d hd
        split at hp
        · cases hp
        · rename_i hn
          simp only [LR.ok.injEq, LSt.mk.injEq] at hp
          obtain ⟨rfl, rfl, rfl⟩ := hp
          obtain ⟨a, h1, h2⟩ := h.sound hw ha
          rw [if_neg hn] at h1
          exact ⟨rfl, a, h1, w, n, a, x, h2, hc, rfl, hd⟩
  · intro s ts e s' r e' hp
    unfold setParser at hp
    dsimp only at hp
    split at hp
    · cases hp
    · rename_i x r1 ha
      split at hp
      · cases hp
      · rename_i d hd
        split at hp
        · rename_i hn
          simp only [LR.nonl.injEq, LSt.mk.injEq] at hp
          obtain ⟨rfl, rfl, rfl⟩ := hp
          obtain ⟨a, h1, h2⟩ := h.sound hw ha
          rw [if_pos hn] at h1
          exact ⟨rfl, a ++ [.nl], by simpa using h1, w, n, a, x, h2, hc, rfl, hd⟩
        · cases hp

theorem tab_complete {κ δ σ : Type} {tab : List (Bytes × κ)} {arg : κ → List Tok → Option (δ × List Tok)} {nonl : κ → Bool}
    {args : Bytes → List Tok → δ → Prop} (h : SetTable tab arg nonl args) {app : δ → σ → Option σ} {t : List Tok} {s s' : σ} (hs : SetStmt args app t s s') :
    ∃ n a p, t = .ident n :: a ∧ ciEq b!"End" n = false ∧ tableFind tab arg nonl app n = some p ∧
    ((∀ r e, p ⟨s, a ++ r, e⟩ = .nonl ⟨s', r, e⟩) ∨ ∃ a', a = a' ++ [.nl] ∧ ∀ r e, p ⟨s, a' ++ .nl :: r, e⟩ = .ok ⟨s', .nl :: r, e⟩) := by
  obtain ⟨w, n, a, x, ha, hn, rfl, hx⟩ := hs
  obtain ⟨k, hk, hr⟩ := h.complete ha
  refine ⟨n, a ++ [.nl], setParser (arg k) (nonl k) app, rfl, by rw [args_congr_end hn]; exact h.stop _ hk, ?_, ?_⟩
  · unfold tableFind
    rw [kwFind_congr _ hn, h.find _ hk]
    rfl
  · cases hl : nonl k with
    | true =>
      left
      intro r e
      rw [hl] at hr
      have := hr r
      simp only [if_true] at this
      unfold setParser
      simp only [List.append_assoc, List.singleton_append, this, hx, if_true]
    | false =>
      right
      refine ⟨a, rfl, fun r e => ?_⟩
      rw [hl] at hr
      have := hr (.nl :: r)
      simp only [Bool.false_eq_true, if_false] at this
      unfold setParser
      simp only [this, hx, Bool.false_eq_true, if_false]

/-- A section of settings -/
theorem set_spec {κ δ σ : Type} {tab : List (Bytes × κ)} {arg : κ → List Tok → Option (δ × List Tok)} {nonl : κ → Bool}
    {args : Bytes → List Tok → δ → Prop} (h : SetTable tab arg nonl args) (app : δ → σ → Option σ) (N : Nat) :
    StmtSpec N (fun n => if ciEq b!"End" n then some endParser else tableFind tab arg nonl app n) (SetStmt args app) where
  fin := by
    intro n p hn hf
    rw [hn] at hf
    exact (tab_sound h (by simpa using hf)).1
  ok := by
    intro n p hn hf s ts e s' r e' hp
    rw [hn] at hf
    obtain ⟨rfl, h2⟩ := (tab_sound h (by simpa using hf)).2.1 hp
    exact ⟨Nat.le_refl _, fun _ => h2⟩
  nonl := by
    intro n p hn hf s ts e s' r e' hp
    rw [hn] at hf
    obtain ⟨rfl, h2⟩ := (tab_sound h (by simpa using hf)).2.2 hp
    exact ⟨Nat.le_refl _, fun _ => h2⟩
  stop := by
    intro n hn
    simp [hn]
  complete := by
    intro t s s' hs _
    obtain ⟨n, a, p, h1, h2, h3, h4⟩ := tab_complete h hs
    exact ⟨n, a, p, h1, by rw [h2]; simpa using h3, h4⟩

/-! ### Two kinds of statements in a section -/

/-- Parsers that read exactly the statements of `stmt`, those of at most `N` tokens; none of them is End. -/
structure OtherSpec {ω : Type} (N : Nat) (find : Bytes → Option (LParser ω)) (stmt : List Tok → ω → ω → Prop) : Prop where
  fin : ∀ {n : Bytes} {p : LParser ω}, find n = some p → ∀ {s x}, p s ≠ .fin x
  ok : ∀ {n : Bytes} {p : LParser ω}, find n = some p → ∀ {s ts e s' r e'}, p ⟨s, ts, e⟩ = .ok ⟨s', r, e'⟩ →
    e ≤ e' ∧ (e' = e → ∃ a, ts = a ++ r ∧ stmt (.ident n :: (a ++ [.nl])) s s')
  nonl : ∀ {n : Bytes} {p : LParser ω}, find n = some p → ∀ {s ts e s' r e'}, p ⟨s, ts, e⟩ = .nonl ⟨s', r, e'⟩ →
    e ≤ e' ∧ (e' = e → ∃ a, ts = a ++ r ∧ stmt (.ident n :: a) s s')
  complete : ∀ {t s s'}, stmt t s s' → t.length ≤ N → ∃ n a p, t = .ident n :: a ∧ find n = some p ∧
    ((∀ r e, p ⟨s, a ++ r, e⟩ = .nonl ⟨s', r, e⟩) ∨ ∃ a', a = a' ++ [.nl] ∧ ∀ r e, p ⟨s, a' ++ .nl :: r, e⟩ = .ok ⟨s', .nl :: r, e⟩)

theorem other_tab {κ δ σ : Type} {tab : List (Bytes × κ)} {arg : κ → List Tok → Option (δ × List Tok)} {nonl : κ → Bool}
    {args : Bytes → List Tok → δ → Prop} (h : SetTable tab arg nonl args) (app : δ → σ → Option σ) (N : Nat) :
    OtherSpec N (tableFind tab arg nonl app) (SetStmt args app) where
  fin := fun hf => (tab_sound h hf).1
  ok := by
    intro n p hf s ts e s' r e' hp
    obtain ⟨rfl, h2⟩ := (tab_sound h hf).2.1 hp
    exact ⟨Nat.le_refl _, fun _ => h2⟩
  nonl := by
    intro n p hf s ts e s' r e' hp
    obtain ⟨rfl, h2⟩ := (tab_sound h hf).2.2 hp
    exact ⟨Nat.le_refl _, fun _ => h2⟩
  complete := by
    intro t s s' hs _
    obtain ⟨n, a, p, h1, h2, h3, h4⟩ := tab_complete h hs
    exact ⟨n, a, p, h1, h3, h4⟩

/-- Statements of two kinds -/
def BothStmt {σ ω : Type} (s1 : List Tok → σ → σ → Prop) (s2 : List Tok → ω → ω → Prop) (t : List Tok) (x x' : σ × ω) : Prop :=
  (s1 t x.1 x'.1 ∧ x'.2 = x.2) ∨ (s2 t x.2 x'.2 ∧ x'.1 = x.1)

theorem onFst_ok {σ ω : Type} {p : LParser σ} {s : σ × ω} {ts e s' r e'} (h : onFst p ⟨s, ts, e⟩ = .ok ⟨s', r, e'⟩) :
    p ⟨s.1, ts, e⟩ = .ok ⟨s'.1, r, e'⟩ ∧ s'.2 = s.2 := by
  unfold onFst at h
  dsimp only at h
  split at h <;> simp only [LR.ok.injEq, LSt.mk.injEq, reduceCtorEq] at h
  rename_i t ht
  obtain ⟨rfl, rfl, rfl⟩ := h
  exact ⟨ht, rfl⟩

theorem onFst_nonl {σ ω : Type} {p : LParser σ} {s : σ × ω} {ts e s' r e'} (h : onFst p ⟨s, ts, e⟩ = .nonl ⟨s', r, e'⟩) :
    p ⟨s.1, ts, e⟩ = .nonl ⟨s'.1, r, e'⟩ ∧ s'.2 = s.2 := by
  unfold onFst at h
  dsimp only at h
  split at h <;> simp only [LR.nonl.injEq, LSt.mk.injEq, reduceCtorEq] at h
  rename_i t ht
  obtain ⟨rfl, rfl, rfl⟩ := h
  exact ⟨ht, rfl⟩

theorem onSnd_ok {σ ω : Type} {p : LParser ω} {s : σ × ω} {ts e s' r e'} (h : onSnd p ⟨s, ts, e⟩ = .ok ⟨s', r, e'⟩) :
    p ⟨s.2, ts, e⟩ = .ok ⟨s'.2, r, e'⟩ ∧ s'.1 = s.1 := by
  unfold onSnd at h
  dsimp only at h
  split at h <;> simp only [LR.ok.injEq, LSt.mk.injEq, reduceCtorEq] at h
  rename_i t ht
  obtain ⟨rfl, rfl, rfl⟩ := h
  exact ⟨ht, rfl⟩

theorem onSnd_nonl {σ ω : Type} {p : LParser ω} {s : σ × ω} {ts e s' r e'} (h : onSnd p ⟨s, ts, e⟩ = .nonl ⟨s', r, e'⟩) :
    p ⟨s.2, ts, e⟩ = .nonl ⟨s'.2, r, e'⟩ ∧ s'.1 = s.1 := by
  unfold onSnd at h
  dsimp only at h
  split at h <;> simp only [LR.nonl.injEq, LSt.mk.injEq, reduceCtorEq] at h
  rename_i t ht
  obtain ⟨rfl, rfl, rfl⟩ := h
  exact ⟨ht, rfl⟩

theorem onFst_fin {σ ω : Type} {p : LParser σ} {s : LSt (σ × ω)} {x} (h : onFst p s = .fin x) : ∃ s' x', p s' = .fin x' := by
  unfold onFst at h
  split at h <;> simp only [LR.fin.injEq, reduceCtorEq] at h
  rename_i t ht
  exact ⟨_, _, ht⟩

theorem onSnd_fin {σ ω : Type} {p : LParser ω} {s : LSt (σ × ω)} {x} (h : onSnd p s = .fin x) : ∃ s' x', p s' = .fin x' := by
  unfold onSnd at h
  split at h <;> simp only [LR.fin.injEq, reduceCtorEq] at h
  rename_i t ht
  exact ⟨_, _, ht⟩

theorem onFst_end {σ ω : Type} : (onFst endParser : LParser (σ × ω)) = endParser := by
  funext s
  rfl

theorem both_spec {σ ω : Type} {N : Nat} {f : Bytes → Option (LParser σ)} {g : Bytes → Option (LParser ω)} {s1 : List Tok → σ → σ → Prop} {s2 : List Tok → ω → ω → Prop}
    (hf : StmtSpec N f s1) (hg : OtherSpec N g s2) (hd : ∀ n p, g n = some p → f n = none) : StmtSpec N (bothFind f g) (BothStmt s1 s2) where
  fin := by
    intro n p hn hb s x hp
    unfold bothFind at hb
    cases h1 : f n with
    | some q =>
      rw [h1] at hb
      cases hb
      obtain ⟨s', x', h2⟩ := onFst_fin hp
      exact hf.fin hn h1 h2
    | none =>
      rw [h1] at hb
      dsimp only at hb
      rw [Option.map_eq_some_iff] at hb
      obtain ⟨q, hq, rfl⟩ := hb
      obtain ⟨s', x', h2⟩ := onSnd_fin hp
      exact hg.fin hq h2
  ok := by
    intro n p hn hb s ts e s' r e' hp
    unfold bothFind at hb
    cases h1 : f n with
    | some q =>
      rw [h1] at hb
      cases hb
      obtain ⟨h2, h3⟩ := onFst_ok hp
      obtain ⟨h4, h5⟩ := hf.ok hn h1 h2
      refine ⟨h4, fun he => ?_⟩
      obtain ⟨a, h6, h7⟩ := h5 he
      exact ⟨a, h6, .inl ⟨h7, h3⟩⟩
    | none =>
      rw [h1] at hb
      dsimp only at hb
      rw [Option.map_eq_some_iff] at hb
      obtain ⟨q, hq, rfl⟩ := hb
      obtain ⟨h2, h3⟩ := onSnd_ok hp
      obtain ⟨h4, h5⟩ := hg.ok hq h2
      refine ⟨h4, fun he => ?_⟩
      obtain ⟨a, h6, h7⟩ := h5 he
      exact ⟨a, h6, .inr ⟨h7, h3⟩⟩
  nonl := by
    intro n p hn hb s ts e s' r e' hp
    unfold bothFind at hb
    cases h1 : f n with
    | some q =>
      rw [h1] at hb
      cases hb
      obtain ⟨h2, h3⟩ := onFst_nonl hp
      obtain ⟨h4, h5⟩ := hf.nonl hn h1 h2
      refine ⟨h4, fun he => ?_⟩
      obtain ⟨a, h6, h7⟩ := h5 he
      exact ⟨a, h6, .inl ⟨h7, h3⟩⟩
    | none =>
      rw [h1] at hb
      dsimp only at hb
      rw [Option.map_eq_some_iff] at hb
      obtain ⟨q, hq, rfl⟩ := hb
      obtain ⟨h2, h3⟩ := onSnd_nonl hp
      obtain ⟨h4, h5⟩ := hg.nonl hq h2
      refine ⟨h4, fun he => ?_⟩
      obtain ⟨a, h6, h7⟩ := h5 he
      exact ⟨a, h6, .inr ⟨h7, h3⟩⟩
  stop := by
    intro n hn
    unfold bothFind
    rw [hf.stop hn]
    dsimp only
    rw [onFst_end]
  complete := by
    rintro t ⟨a1, a2⟩ ⟨b1, b2⟩ hs hN
    rcases hs with ⟨h1, h2⟩ | ⟨h1, h2⟩
    · dsimp only at h1 h2
      subst h2
      obtain ⟨n, a, p, h3, h4, h5⟩ := hf.complete h1 hN
      refine ⟨n, a, onFst p, h3, by unfold bothFind; rw [h4], ?_⟩
      rcases h5 with h5 | ⟨a', h5, h6⟩
      · exact .inl fun r e => by unfold onFst; simp only [h5]
      · exact .inr ⟨a', h5, fun r e => by unfold onFst; simp only [h6]⟩
    · dsimp only at h1 h2
      subst h2
      obtain ⟨n, a, p, h3, h4, h5⟩ := hg.complete h1 hN
      refine ⟨n, a, onSnd p, h3, by unfold bothFind; rw [hd n p h4, h4]; rfl, ?_⟩
      rcases h5 with h5 | ⟨a', h5, h6⟩
      · exact .inl fun r e => by unfold onSnd; simp only [h5]
      · exact .inr ⟨a', h5, fun r e => by unfold onSnd; simp only [h6]⟩

/-! ### Settings one after the other -/

def appAll {δ σ : Type} (app : δ → σ → Option σ) : List δ → σ → Option σ
  | [], s => some s
  | x :: l, s => (app x s).bind (appAll app l)

theorem appAll_append {δ σ : Type} {app : δ → σ → Option σ} {l : List δ} {x : δ} {s : σ} : appAll app (l ++ [x]) s = (appAll app l s).bind (app x) := by
  induction l generalizing s with
  | nil => cases h : app x s <;> simp [appAll, h]
  | cons y l ih =>
    simp only [List.cons_append, appAll]
    cases app y s with
    | none => rfl
    | some s1 => exact ih

/-- A part of the data that is the last one that was set -/
theorem appAll_field {δ σ α : Type} {app : δ → σ → Option σ} (get : σ → α) (set : δ → Option α)
    (h : ∀ x s s', app x s = some s' → get s' = (set x).getD (get s)) :
    ∀ {l : List δ} {s s' : σ}, appAll app l s = some s' → get s' = lastOr (get s) (l.filterMap set) := by
  intro l
  induction l with
  | nil => intro s s' hs; cases hs; rfl
  | cons x l ih =>
    intro s s' hs
    simp only [appAll, Option.bind_eq_some_iff] at hs
    obtain ⟨s1, h1, h2⟩ := hs
    rw [ih h2, h x s s1 h1]
    cases hx : set x with
    | none => simp [List.filterMap_cons, hx]
    | some v =>
      simp only [List.filterMap_cons, hx, Option.getD_some, lastOr]
      cases hl : (l.filterMap set).getLast? with
      | none => rw [List.getLast?_eq_none_iff] at hl; simp [hl]
      | some y => rw [List.getLast?_cons, hl]; rfl

theorem appAll_app {δ σ : Type} {app : δ → σ → Option σ} {l l' : List δ} {s : σ} : appAll app (l ++ l') s = (appAll app l s).bind (appAll app l') := by
  induction l generalizing s with
  | nil => rfl
  | cons y l ih =>
    simp only [List.cons_append, appAll]
    cases app y s with
    | none => rfl
    | some s1 => exact ih

theorem filterMap_some {δ α : Type} (set : δ → Option α) (l : List δ) : l.filterMap (fun x => (set x).map some) = (l.filterMap set).map some := by
  induction l with
  | nil => rfl
  | cons x l ih =>
    cases h : set x with
    | none => simp [List.filterMap_cons, h, ih]
    | some v => simp [List.filterMap_cons, h, ih]

theorem lastOr_none {α : Type} (l : List α) : lastOr none (l.map some) = l.getLast? := by
  unfold lastOr
  rw [List.getLast?_map]
  cases l.getLast? <;> rfl

/-- The same for something that is not set at first -/
theorem appAll_opt {δ σ α : Type} {app : δ → σ → Option σ} (get : σ → Option α) (set : δ → Option α)
    (h : ∀ x s s', app x s = some s' → get s' = ((set x).map some).getD (get s)) {l : List δ} {s s' : σ} (hs : appAll app l s = some s') (h0 : get s = none) :
    get s' = (l.filterMap set).getLast? := by
  rw [appAll_field get (fun x => (set x).map some) h hs, h0, filterMap_some, lastOr_none]

/-- A section, by its settings and the other statements -/
theorem sect_body {δ σ ω : Type} {args : Bytes → List Tok → δ → Prop} {app : δ → σ → Option σ} {other : List Tok → ω → ω → Prop} {t : List Tok} {s s' : σ × ω}
    (h : Sect (BothStmt (SetStmt args app) other) t s s') : ∃ l, SetBody args other t l s.2 s'.2 ∧ appAll app l s.1 = some s'.1 := by
  induction h with
  | stop hw => exact ⟨[], .stop hw, rfl⟩
  | blank _ ih =>
    obtain ⟨l, h1, h2⟩ := ih
    exact ⟨l, .blank h1, h2⟩
  | @stmt a t x x1 x2 hs _ ih =>
    obtain ⟨l, h1, h2⟩ := ih
    rcases hs with ⟨⟨w, n, b, y, h3, h4, rfl, h5⟩, h6⟩ | ⟨h3, h4⟩
    · refine ⟨y :: l, ?_, by rw [appAll, h5]; exact h2⟩
      rw [h6] at h1
      have := SetBody.set h3 h4 h1
      simpa using this
    · rw [h4] at h2
      exact ⟨l, .other h3 h1, h2⟩

theorem body_sect {δ σ ω : Type} {args : Bytes → List Tok → δ → Prop} {app : δ → σ → Option σ} {other : List Tok → ω → ω → Prop} {t : List Tok} {l : List δ} {o o' : ω}
    (h : SetBody args other t l o o') : ∀ {s s' : σ}, appAll app l s = some s' → Sect (BothStmt (SetStmt args app) other) t (s, o) (s', o') := by
  induction h with
  | stop hw => intro s s' hs; cases hs; exact .stop hw
  | blank _ ih => intro s s' hs; exact .blank (ih hs)
  | @set w n a t x l o o' h1 h2 _ ih =>
    intro s s' hs
    simp only [appAll, Option.bind_eq_some_iff] at hs
    obtain ⟨s1, h3, h4⟩ := hs
    have := Sect.stmt (stmt := BothStmt (SetStmt args app) other) (s := (s, o)) (s1 := (s1, o)) (.inl ⟨⟨w, n, a, x, h1, h2, rfl, h3⟩, rfl⟩) (ih h4)
    simpa using this
  | @other a t l o o1 o2 h1 _ ih =>
    intro s s' hs
    exact Sect.stmt (s := (s, o)) (s1 := (s, o1)) (.inr ⟨h1, rfl⟩) (ih hs)

end Pound
