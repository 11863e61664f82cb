import Verif.Proof.BeCfg
import Verif.Proof.Location

namespace Pound

open Spec

/-! ### Statements of a service -/

/-- The effect of a statement -/
def applyItem (x : SvcItem) (s : SvcBes) : SvcBes :=
  match x with
  | .backend b => s.add b
  | .emergency b => { s with groups := addBackend emergWeight b s.groups }
  | .algo a => { s with algo := a }

/-- Statements of a service and their effect -/
def svcBeStmt (e : BeEnv) (d : BeDfl) (a : List Tok) (s s' : SvcBes) : Prop := ∃ x, SvcBeLine e d a x ∧ s' = applyItem x s

theorem locationAt_suffix {u p h path : Bytes} (hm : locationAt u = some (p, h, path)) : ∃ pre, u = pre ++ path := by
  unfold locationAt at hm
  split at hm
  · cases hm
    refine ⟨u.take 7 ++ (u.drop 7).takeWhile notSlash, ?_⟩
    rw [List.append_assoc, List.takeWhile_append_dropWhile, List.take_append_drop]
  · split at hm
    · cases hm
      refine ⟨u.take 8 ++ (u.drop 8).takeWhile notSlash, ?_⟩
      rw [List.append_assoc, List.takeWhile_append_dropWhile, List.take_append_drop]
    · cases hm

theorem locationMatch_suffix : ∀ {u p h path : Bytes}, locationMatch u = some (p, h, path) → ∃ pre, u = pre ++ path
  | [], p, h, path, hm => by cases hm
  | c :: t, p, h, path, hm => by
    rw [locationMatch] at hm
    split at hm
    · rename_i r hr
      cases hm
      exact locationAt_suffix hr
    · obtain ⟨pre, hp⟩ := locationMatch_suffix hm
      exact ⟨c :: pre, by rw [hp]; rfl⟩

theorem redirectUrl_some {u url : Bytes} {k : Nat} : redirectUrl u = some (url, k) ↔
    ∃ p h path, locationMatch u = some (p, h, path) ∧ k = path.length ∧ (path.length ≠ 1 → url = u) ∧ (path.length = 1 → u = url ++ path) := by
  unfold redirectUrl
  cases hm : locationMatch u with
  | none => simp
  | some x =>
    obtain ⟨p, h, path⟩ := x
    obtain ⟨pre, rfl⟩ := locationMatch_suffix hm
    dsimp only
    by_cases h1 : path.length = 1
    · rw [if_pos h1]
      have ht : (pre ++ path).take ((pre ++ path).length - 1) = pre := by
        rw [List.length_append, h1, Nat.add_sub_cancel, List.take_left]
      rw [ht]
      constructor
      · intro hs
        cases hs
        exact ⟨p, h, path, rfl, rfl, fun hn => absurd h1 hn, fun _ => rfl⟩
      · rintro ⟨p', h', path', heq, rfl, h3, h4⟩
        cases heq
        rw [List.append_cancel_right (h4 h1)]
    · rw [if_neg h1]
      constructor
      · intro hs
        cases hs
        exact ⟨p, h, path, rfl, rfl, fun _ => rfl, fun hn => absurd hn h1⟩
      · rintro ⟨p', h', path', heq, rfl, h3, h4⟩
        cases heq
        rw [h3 h1]

theorem balancerArg_some {u : Tok} {a : Algo} : balancerArg u = some a ↔ ∃ s, (u = .ident s ∨ u = .number s ∨ u = .literal s) ∧
    ((ciEq s b!"random" = true ∧ a = .random) ∨ (ciEq s b!"iwrr" = true ∧ a = .iwrr)) := by
  have key : ∀ s : Bytes, ((if ciEq s b!"random" then some Algo.random else if ciEq s b!"iwrr" then some .iwrr else none) = some a) ↔
      ((ciEq s b!"random" = true ∧ a = .random) ∨ (ciEq s b!"iwrr" = true ∧ a = .iwrr)) := by
    intro s
    cases h1 : ciEq s b!"random" with
    | true =>
      have h2 : ciEq s b!"iwrr" = false := by
        cases h : ciEq s b!"iwrr" with
        | false => rfl
        | true => exact absurd (ciEq_trans (ciEq_symm h1) h) (by decide)
      simp [h2, eq_comm]
    | false =>
      cases h2 : ciEq s b!"iwrr" with
      | true => simp [eq_comm]
      | false => simp
  unfold balancerArg
  cases u with
  | ident s =>
    constructor
    · exact fun h => ⟨s, Or.inl rfl, (key s).mp h⟩
    · rintro ⟨s', h1, h2⟩
      simp at h1
      subst h1
      exact (key s).mpr h2
  | number s =>
    constructor
    · exact fun h => ⟨s, Or.inr (Or.inl rfl), (key s).mp h⟩
    · rintro ⟨s', h1, h2⟩
      simp at h1
      subst h1
      exact (key s).mpr h2
  | literal s =>
    constructor
    · exact fun h => ⟨s, Or.inr (Or.inr rfl), (key s).mp h⟩
    · rintro ⟨s', h1, h2⟩
      simp at h1
      subst h1
      exact (key s).mpr h2
  | _ => simp [isUnqTok]

theorem redirectParser_sound {n : Bytes} {e : BeEnv} {d : BeDfl} (hn : ciEq b!"Redirect" n = true) {s : SvcBes} {ts : List Tok} {er : Nat} {x : LSt SvcBes}
    (h : redirectParser ⟨s, ts, er⟩ = .ok x) :
    x.errs = er ∧ ∃ a, ts = a ++ x.toks ∧ svcBeStmt e d (.ident n :: (a ++ [.nl])) s x.data := by
  unfold redirectParser at h
  dsimp only at h
  split at h
  · rename_i c r
    cases hc : redirectCode c with
    | none => rw [hc] at h; cases h
    | some code =>
      rw [hc] at h
      dsimp only at h
      split at h
      · rename_i u r2
        cases hu : redirectUrl u with
        | none => rw [hu] at h; cases h
        | some y =>
          obtain ⟨url, k⟩ := y
          rw [hu] at h
          cases h
          obtain ⟨p, hh, path, h1, rfl, h2, h3⟩ := redirectUrl_some.mp hu
          exact ⟨rfl, [.number c, .string u], rfl, _, .redirectCode hn hc h1 h2 h3, rfl⟩
      · cases h
  · split at h
    · rename_i u r2 _
      cases hu : redirectUrl u with
      | none => rw [hu] at h; cases h
      | some y =>
        obtain ⟨url, k⟩ := y
        rw [hu] at h
        cases h
        obtain ⟨p, hh, path, h1, rfl, h2, h3⟩ := redirectUrl_some.mp hu
        exact ⟨rfl, [.string u], rfl, _, .redirect hn h1 h2 h3, rfl⟩
    · cases h

theorem redirectParser_shape {s : LSt SvcBes} : (∀ x, redirectParser s ≠ .nonl x) ∧ ∀ x, redirectParser s ≠ .fin x := by
  unfold redirectParser
  dsimp only
  split
  · split
    · simp
    · split
      · split <;> simp
      · simp
  · split
    · split <;> simp
    · simp

theorem errorParser_sound {n : Bytes} {e : BeEnv} {d : BeDfl} (hn : ciEq b!"Error" n = true) {s : SvcBes} {ts : List Tok} {er : Nat} {x : LSt SvcBes} :
    (errorParser e ⟨s, ts, er⟩ = .ok x → x.errs = er ∧ ∃ a, ts = a ++ x.toks ∧ svcBeStmt e d (.ident n :: (a ++ [.nl])) s x.data) ∧
    (errorParser e ⟨s, ts, er⟩ = .nonl x → x.errs = er ∧ ∃ a, ts = a ++ x.toks ∧ svcBeStmt e d (.ident n :: a) s x.data) ∧
    errorParser e ⟨s, ts, er⟩ ≠ .fin x := by
  unfold errorParser
  dsimp only
  split
  · rename_i c r
    cases hc : errorCode c with
    | none => simp
    | some code =>
      dsimp only
      split
      · rename_i f r2
        cases hf : e.file f with
        | none => simp
        | some text =>
          refine ⟨fun h => ?_, (by simp), (by simp)⟩
          cases h
          exact ⟨rfl, [.number c, .string f], rfl, _, .errorText hn hc hf, rfl⟩
      · refine ⟨(by simp), fun h => ?_, (by simp)⟩
        cases h
        exact ⟨rfl, [.number c, .nl], rfl, _, .error hn hc, rfl⟩
      · simp
  · simp

theorem applyAll_ref {d : BeDfl} {l : List BeSetting} {b : BeSt} (ha : applyAll l { beInit d with prio := -1, disabled := -1 } = some b) :
    b.prio = lastOr (-1) (l.filterMap prioSet) ∧ b.disabled = lastOr (-1) (l.filterMap disabledSet) := by
  constructor
  · refine applyAll_field (fun s => s.prio) prioSet (fun x s s' h => ?_) l _ b ha
    cases x <;> simp only [applySet, Option.some.injEq, Option.map_eq_some_iff] at h <;> first | (subst h; rfl) | (obtain ⟨_, _, rfl⟩ := h; rfl)
  · refine applyAll_field (fun s => s.disabled) disabledSet (fun x s s' h => ?_) l _ b ha
    cases x <;> simp only [applySet, Option.some.injEq, Option.map_eq_some_iff] at h <;> first | (subst h; rfl) | (obtain ⟨_, _, rfl⟩ := h; rfl)

theorem ref_section (e : BeEnv) (d : BeDfl) (n : Nat) (ts : List Tok) (er : Nat) :
    (∀ b r er', cfgL (beFind e useBeTable) false true n ⟨{ beInit d with prio := -1, disabled := -1 }, ts, er⟩ = .ok ⟨b, r, er'⟩ →
      er ≤ er' ∧ (er' = er → ∃ t l, ts = t ++ r ∧ Items (RefLine e) t l ∧ b.prio = lastOr (-1) (l.filterMap prioSet) ∧ b.disabled = lastOr (-1) (l.filterMap disabledSet))) ∧
    (∀ t r l, ts = t ++ r → Items (RefLine e) t l → t.length ≤ n →
      ∃ b, cfgL (beFind e useBeTable) false true n ⟨{ beInit d with prio := -1, disabled := -1 }, ts, er⟩ = .ok ⟨b, r, er⟩ ∧
        b.prio = lastOr (-1) (l.filterMap prioSet) ∧ b.disabled = lastOr (-1) (l.filterMap disabledSet)) := by
  constructor
  · intro b r er' h
    obtain ⟨h1, h2⟩ := sect_sound (useFind_spec e n) n _ _ _ _ _ _ h
    refine ⟨h1, fun he => ?_⟩
    obtain ⟨t, ht, hs⟩ := h2 he
    obtain ⟨l, hl, ha⟩ := sect_items.mp hs
    exact ⟨t, l, ht, hl, applyAll_ref ha⟩
  · rintro t r l rfl hl hn
    have hr : ∀ (t : List Tok) (l : List BeSetting), Items (RefLine e) t l → ∀ x ∈ l, ctxSet x = none := by
      intro t l h
      induction h with
      | stop _ => intro x hx; cases hx
      | blank _ ih => exact ih
      | item hx _ ih =>
        intro y hy
        rcases List.mem_cons.mp hy with rfl | hy
        · cases hx <;> rfl
        · exact ih y hy
    obtain ⟨b, hb⟩ := applyAll_total l { beInit d with prio := -1, disabled := -1 } fun pre x post hl' hx => by
      rw [hr t l hl x (by rw [hl']; simp)] at hx
      cases hx
    exact ⟨b, sect_complete (useFind_spec e n) (sect_items.mpr ⟨l, hl, hb⟩) n hn hn r er, applyAll_ref hb⟩

theorem backendParser_sound {n : Bytes} {e : BeEnv} {d : BeDfl} {N : Nat} (hn : ciEq b!"Backend" n = true) {s : SvcBes} {ts : List Tok} {er : Nat} {x : LSt SvcBes}
    (h : backendParser e d N ⟨s, ts, er⟩ = .ok x) :
    er ≤ x.errs ∧ (x.errs = er → ∃ a, ts = a ++ x.toks ∧ svcBeStmt e d (.ident n :: (a ++ [.nl])) s x.data) := by
  unfold backendParser at h
  dsimp only at h
  split at h
  · cases h
  · cases h
  · cases h
  · rename_i name r
    split at h
    · rename_i s2 hs2
      obtain ⟨b, r2, er2⟩ := s2
      cases h
      obtain ⟨h1, h2⟩ := (ref_section e d N r er).1 _ _ _ hs2
      refine ⟨h1, fun he => ?_⟩
      obtain ⟨t, l, rfl, hl, hp, hd⟩ := h2 he
      refine ⟨.string name :: t, rfl, _, .ref hn hl, ?_⟩
      dsimp only
      rw [hp, hd]
      rfl
    · cases h
  · split at h
    · rename_i s2 hs2
      obtain ⟨b, r2, er2⟩ := s2
      cases h
      obtain ⟨h1, h2⟩ := (backend_section e d N ts er).1 _ _ _ hs2
      refine ⟨h1, fun he => ?_⟩
      obtain ⟨t, rfl, ht⟩ := h2 he
      exact ⟨t, rfl, _, .backend hn ht, rfl⟩
    · cases h

theorem backendParser_shape {e : BeEnv} {d : BeDfl} {N : Nat} {s : LSt SvcBes} : (∀ x, backendParser e d N s ≠ .nonl x) ∧ ∀ x, backendParser e d N s ≠ .fin x := by
  unfold backendParser
  dsimp only
  split
  · simp
  · simp
  · simp
  · split <;> simp
  · split <;> simp

theorem emergencyParser_sound {n : Bytes} {e : BeEnv} {d : BeDfl} {N : Nat} (hn : ciEq b!"Emergency" n = true) {s : SvcBes} {ts : List Tok} {er : Nat} {x : LSt SvcBes}
    (h : emergencyParser e N ⟨s, ts, er⟩ = .ok x) :
    er ≤ x.errs ∧ (x.errs = er → ∃ a, ts = a ++ x.toks ∧ svcBeStmt e d (.ident n :: (a ++ [.nl])) s x.data) := by
  unfold emergencyParser at h
  dsimp only at h
  split at h
  · rename_i s2 hs2
    obtain ⟨b, r2, er2⟩ := s2
    cases h
    obtain ⟨h1, h2⟩ := (backend_section e _ N ts er).1 _ _ _ hs2
    refine ⟨h1, fun he => ?_⟩
    obtain ⟨t, rfl, ht⟩ := h2 he
    exact ⟨t, rfl, _, .emergency hn ht, rfl⟩
  · cases h

theorem emergencyParser_shape {e : BeEnv} {N : Nat} {s : LSt SvcBes} : (∀ x, emergencyParser e N s ≠ .nonl x) ∧ ∀ x, emergencyParser e N s ≠ .fin x := by
  unfold emergencyParser
  split <;> simp

/-- What is known about the parser of a statement -/
theorem svcBeParser_sound {e : BeEnv} {d : BeDfl} {N : Nat} {n : Bytes} {k : SvcBeKw} (hk : kwFind svcBeTable n = some k) {s : SvcBes} {ts : List Tok} {er : Nat} {x : LSt SvcBes} :
    (svcBeParser e d N k ⟨s, ts, er⟩ = .ok x → er ≤ x.errs ∧ (x.errs = er → ∃ a, ts = a ++ x.toks ∧ svcBeStmt e d (.ident n :: (a ++ [.nl])) s x.data)) ∧
    (svcBeParser e d N k ⟨s, ts, er⟩ = .nonl x → er ≤ x.errs ∧ (x.errs = er → ∃ a, ts = a ++ x.toks ∧ svcBeStmt e d (.ident n :: a) s x.data)) ∧
    svcBeParser e d N k ⟨s, ts, er⟩ ≠ .fin x := by
  obtain ⟨a, ha, hn⟩ := kwFind_mem hk
  cases k <;> simp [svcBeTable] at ha <;> subst ha
  · refine ⟨fun h => ?_, fun h => absurd h (redirectParser_shape.1 _), redirectParser_shape.2 _⟩
    obtain ⟨h1, h2⟩ := redirectParser_sound (e := e) (d := d) hn h
    exact ⟨by omega, fun _ => h2⟩
  · obtain ⟨h1, h2, h3⟩ := errorParser_sound (e := e) (d := d) hn (s := s) (ts := ts) (er := er) (x := x)
    refine ⟨fun h => ?_, fun h => ?_, h3⟩
    · obtain ⟨h4, h5⟩ := h1 h; exact ⟨by omega, fun _ => h5⟩
    · obtain ⟨h4, h5⟩ := h2 h; exact ⟨by omega, fun _ => h5⟩
  · exact ⟨backendParser_sound hn, fun h => absurd h (backendParser_shape.1 _), backendParser_shape.2 _⟩
  · unfold svcBeParser
    dsimp only
    split
    · refine ⟨fun h => ?_, (by simp), (by simp)⟩
      cases h
      exact ⟨Nat.le_refl _, fun _ => ⟨[_], rfl, _, .use hn, rfl⟩⟩
    · simp
  · exact ⟨emergencyParser_sound hn, fun h => absurd h (emergencyParser_shape.1 _), emergencyParser_shape.2 _⟩
  · unfold svcBeParser
    refine ⟨fun h => ?_, (by simp), (by simp)⟩
    cases h
    exact ⟨Nat.le_refl _, fun _ => ⟨[], rfl, _, .metrics hn, rfl⟩⟩
  · unfold svcBeParser
    refine ⟨fun h => ?_, (by simp), (by simp)⟩
    cases h
    exact ⟨Nat.le_refl _, fun _ => ⟨[], rfl, _, .control hn, rfl⟩⟩
  · unfold svcBeParser
    dsimp only
    split
    · simp
    · rename_i u r
      cases hu : balancerArg u with
      | none => simp
      | some al =>
        refine ⟨fun h => ?_, (by simp), (by simp)⟩
        cases h
        obtain ⟨w, h1, h2⟩ := balancerArg_some.mp hu
        exact ⟨Nat.le_refl _, fun _ => ⟨[u], rfl, _, .balancer hn h1 h2, rfl⟩⟩

theorem items_head {e : BeEnv} {t : List Tok} {l : List BeSetting} (h : Items (BeLine e) t l) :
    (∃ r, t = .nl :: r) ∨ ∃ w r, t = .ident w :: r := by
  cases h with
  | stop _ => exact Or.inr ⟨_, _, rfl⟩
  | blank _ => exact Or.inl ⟨_, rfl⟩
  | item hx _ =>
    obtain ⟨n, a, rfl, _⟩ := beLine_kw hx
    exact Or.inr ⟨_, _, rfl⟩

theorem svcBeFind_spec (e : BeEnv) (d : BeDfl) (N : Nat) : StmtSpec N (svcBeFind e d N) (svcBeStmt e d) := by
  have find : ∀ {n : Bytes} {p : LParser SvcBes}, ciEq b!"End" n = false → svcBeFind e d N n = some p → ∃ k, kwFind svcBeTable n = some k ∧ p = svcBeParser e d N k := by
    intro n p hn h
    unfold svcBeFind at h
    rw [if_neg (by rw [hn]; decide)] at h
    obtain ⟨k, hk, rfl⟩ := Option.map_eq_some_iff.mp h
    exact ⟨k, hk, rfl⟩
  have key : ∀ {w n : Bytes} {k : SvcBeKw}, kwFind svcBeTable w = some k → ciEq b!"End" w = false → ciEq w n = true →
      svcBeFind e d N n = some (svcBeParser e d N k) := by
    intro w n k h1 h2 h3
    unfold svcBeFind
    have hE : ciEq b!"End" n = false := by
      cases hE : ciEq b!"End" n with
      | false => rfl
      | true => rw [ciEq_trans hE (by rw [ciEq_comm]; exact h3)] at h2; cases h2
    rw [if_neg (by rw [hE]; decide), kwFind_congr _ h3, h1]
    rfl
  constructor
  · intro n p hn h s x
    obtain ⟨k, hk, rfl⟩ := find hn h
    obtain ⟨s, ts, er⟩ := s
    exact (svcBeParser_sound hk).2.2
  · intro n p hn h s ts er s' r er' hp
    obtain ⟨k, hk, rfl⟩ := find hn h
    exact (svcBeParser_sound hk).1 hp
  · intro n p hn h s ts er s' r er' hp
    obtain ⟨k, hk, rfl⟩ := find hn h
    exact (svcBeParser_sound hk).2.1 hp
  · intro n hn
    unfold svcBeFind
    rw [if_pos hn]
  · rintro t s s' ⟨x, hx, rfl⟩ hN
    cases hx with
    | @redirect n u p h path url hn h1 h2 h3 =>
      refine ⟨n, [.string u] ++ [.nl], _, rfl, key (k := .redirect) (by decide) (by decide) hn, Or.inr ⟨_, rfl, fun r er => ?_⟩⟩
      have := redirectUrl_some.mpr ⟨p, h, path, h1, rfl, h2, h3⟩
      simp only [svcBeParser, redirectParser, List.singleton_append]
      rw [this]
      rfl
    | @redirectCode n w u p h path url c hn hc h1 h2 h3 =>
      refine ⟨n, [.number w, .string u] ++ [.nl], _, rfl, key (k := .redirect) (by decide) (by decide) hn, Or.inr ⟨_, rfl, fun r er => ?_⟩⟩
      have := redirectUrl_some.mpr ⟨p, h, path, h1, rfl, h2, h3⟩
      simp only [svcBeParser, redirectParser, List.cons_append, List.nil_append, hc]
      rw [this]
      rfl
    | @error n w c hn hc =>
      refine ⟨n, [.number w, .nl], _, rfl, key (k := .error) (by decide) (by decide) hn, Or.inl fun r er => ?_⟩
      simp only [svcBeParser, errorParser, List.cons_append, List.nil_append, hc]
      rfl
    | @errorText n w f text c hn hc hf =>
      refine ⟨n, [.number w, .string f] ++ [.nl], _, rfl, key (k := .error) (by decide) (by decide) hn, Or.inr ⟨_, rfl, fun r er => ?_⟩⟩
      simp only [svcBeParser, errorParser, List.cons_append, List.nil_append, hc, hf]
      rfl
    | @backend n t b hn hb =>
      refine ⟨n, t ++ [.nl], _, rfl, key (k := .backend) (by decide) (by decide) hn, Or.inr ⟨_, rfl, fun r er => ?_⟩⟩
      simp only [List.length_cons, List.length_append] at hN
      have := (backend_section e d N (t ++ .nl :: r) er).2 t (.nl :: r) b rfl hb (by omega)
      obtain ⟨l, hl, _⟩ := hb
      rcases items_head hl with ⟨q, rfl⟩ | ⟨w, q, rfl⟩
      · simp only [svcBeParser, backendParser, List.cons_append] at this ⊢
        rw [this]
        rfl
      · simp only [svcBeParser, backendParser, List.cons_append] at this ⊢
        rw [this]
        rfl
    | @ref n name t l hn hl =>
      refine ⟨n, (.string name :: t) ++ [.nl], _, rfl, key (k := .backend) (by decide) (by decide) hn, Or.inr ⟨_, rfl, fun r er => ?_⟩⟩
      simp only [List.length_cons, List.length_append] at hN
      obtain ⟨b, hb, hp, hd⟩ := (ref_section e d N (t ++ .nl :: r) er).2 t (.nl :: r) l rfl hl (by omega)
      simp only [svcBeParser, backendParser, List.cons_append]
      rw [hb]
      simp only [hp, hd]
      rfl
    | @use n name hn =>
      exact ⟨n, [.string name] ++ [.nl], _, rfl, key (k := .useBackend) (by decide) (by decide) hn, Or.inr ⟨_, rfl, fun r er => rfl⟩⟩
    | @emergency n t b hn hb =>
      refine ⟨n, t ++ [.nl], _, rfl, key (k := .emergency) (by decide) (by decide) hn, Or.inr ⟨_, rfl, fun r er => ?_⟩⟩
      simp only [List.length_cons, List.length_append] at hN
      have := (backend_section e _ N (t ++ .nl :: r) er).2 t (.nl :: r) b rfl hb (by omega)
      simp only [svcBeParser, emergencyParser]
      rw [this]
      rfl
    | @metrics n hn =>
      exact ⟨n, [] ++ [.nl], _, rfl, key (k := .metrics) (by decide) (by decide) hn, Or.inr ⟨_, rfl, fun r er => rfl⟩⟩
    | @control n hn =>
      exact ⟨n, [] ++ [.nl], _, rfl, key (k := .control) (by decide) (by decide) hn, Or.inr ⟨_, rfl, fun r er => rfl⟩⟩
    | @balancer n w u a hn h1 h2 =>
      refine ⟨n, [u] ++ [.nl], _, rfl, key (k := .balancer) (by decide) (by decide) hn, Or.inr ⟨_, rfl, fun r er => ?_⟩⟩
      have := balancerArg_some.mpr ⟨w, h1, h2⟩
      simp only [svcBeParser, List.singleton_append]
      rw [this]
      rfl

theorem sect_svcItems {e : BeEnv} {d : BeDfl} {t : List Tok} {s s' : SvcBes} :
    Sect (svcBeStmt e d) t s s' ↔ ∃ l, Items (SvcBeLine e d) t l ∧ s' = l.foldl (fun s x => applyItem x s) s := by
  constructor
  · intro h
    induction h with
    | stop hw => exact ⟨[], .stop hw, rfl⟩
    | blank _ ih =>
      obtain ⟨l, h1, h2⟩ := ih
      exact ⟨l, .blank h1, h2⟩
    | stmt ha _ ih =>
      obtain ⟨x, hx, rfl⟩ := ha
      obtain ⟨l, h1, h2⟩ := ih
      exact ⟨x :: l, .item hx h1, h2⟩
  · rintro ⟨l, h, ha⟩
    induction h generalizing s with
    | stop hw => subst ha; exact .stop hw
    | blank _ ih => exact .blank (ih ha)
    | item hx _ ih => exact .stmt ⟨_, hx, rfl⟩ (ih ha)

theorem addBackend_normal (b : BeDecl) (l m : List BeDecl) : addBackend 0 b (groupOf 0 l ++ groupOf 65535 m) = groupOf 0 (l ++ [b]) ++ groupOf 65535 m := by
  unfold groupOf
  by_cases hl : l = []
  · subst hl
    by_cases hm : m = []
    · subst hm; simp [addBackend]
    · simp [hm, addBackend]
  · simp [hl, addBackend]

theorem addBackend_emergency (b : BeDecl) (l m : List BeDecl) : addBackend emergWeight b (groupOf 0 l ++ groupOf 65535 m) = groupOf 0 l ++ groupOf 65535 (m ++ [b]) := by
  unfold groupOf emergWeight
  by_cases hl : l = []
  · subst hl
    by_cases hm : m = []
    · subst hm; simp [addBackend]
    · simp [hm, addBackend]
  · by_cases hm : m = []
    · subst hm; simp [hl, addBackend]
    · simp [hl, hm, addBackend]

theorem foldl_items : ∀ (l : List SvcItem) (a : Algo) (n m : List BeDecl),
    l.foldl (fun s x => applyItem x s) ⟨a, groupOf 0 n ++ groupOf 65535 m⟩ =
      ⟨lastOr a (l.filterMap algoOf), groupOf 0 (n ++ l.filterMap normalOf) ++ groupOf 65535 (m ++ l.filterMap emergencyOf)⟩
  | [], a, n, m => by simp [lastOr]
  | x :: l, a, n, m => by
    rw [List.foldl_cons]
    cases x with
    | backend b =>
      have : applyItem (.backend b) ⟨a, groupOf 0 n ++ groupOf 65535 m⟩ = ⟨a, groupOf 0 (n ++ [b]) ++ groupOf 65535 m⟩ := by
        simp only [applyItem, SvcBes.add, addBackend_normal]
      rw [this, foldl_items l a (n ++ [b]) m]
      simp [List.filterMap_cons, algoOf, normalOf, emergencyOf]
    | emergency b =>
      have : applyItem (.emergency b) ⟨a, groupOf 0 n ++ groupOf 65535 m⟩ = ⟨a, groupOf 0 n ++ groupOf 65535 (m ++ [b])⟩ := by
        simp only [applyItem, addBackend_emergency]
      rw [this, foldl_items l a n (m ++ [b])]
      simp [List.filterMap_cons, algoOf, normalOf, emergencyOf]
    | algo b =>
      have : applyItem (.algo b) ⟨a, groupOf 0 n ++ groupOf 65535 m⟩ = ⟨b, groupOf 0 n ++ groupOf 65535 m⟩ := rfl
      rw [this, foldl_items l b n m]
      simp only [List.filterMap_cons, algoOf, normalOf, emergencyOf, SvcBes.mk.injEq, and_true]
      exact lastOr_cons a (some b) _

theorem svcMeans_iff {dfl : Algo} {l : List SvcItem} {s : SvcBes} : SvcMeans dfl l s ↔ s = l.foldl (fun s x => applyItem x s) ⟨dfl, []⟩ := by
  have := foldl_items l dfl [] []
  have h0 : groupOf 0 [] ++ groupOf 65535 [] = [] := rfl
  rw [h0] at this
  rw [this]
  constructor
  · rintro ⟨h1, h2⟩
    obtain ⟨a, g⟩ := s
    dsimp only at h1 h2
    rw [h1, h2]
    rfl
  · rintro rfl
    exact ⟨rfl, rfl⟩

/-- The backends of a service -/
theorem service_section (e : BeEnv) (d : BeDfl) (dfl : Algo) (n : Nat) (ts : List Tok) (er : Nat) :
    (∀ s r er', parseSvcBes e d dfl n ts er = .ok ⟨s, r, er'⟩ → er ≤ er' ∧ (er' = er → ∃ t l, ts = t ++ r ∧ Items (SvcBeLine e d) t l ∧ SvcMeans dfl l s)) ∧
    (∀ t r l s, ts = t ++ r → Items (SvcBeLine e d) t l → SvcMeans dfl l s → t.length ≤ n → parseSvcBes e d dfl n ts er = .ok ⟨s, r, er⟩) := by
  unfold parseSvcBes
  constructor
  · intro s r er' h
    obtain ⟨h1, h2⟩ := sect_sound (svcBeFind_spec e d n) n _ _ _ _ _ _ h
    refine ⟨h1, fun he => ?_⟩
    obtain ⟨t, ht, hs⟩ := h2 he
    obtain ⟨l, hl, hs⟩ := sect_svcItems.mp hs
    exact ⟨t, l, ht, hl, svcMeans_iff.mpr hs⟩
  · rintro t r l s rfl hl hs hn
    exact sect_complete (svcBeFind_spec e d n) (sect_svcItems.mpr ⟨l, hl, svcMeans_iff.mp hs⟩) n hn hn r er

/-- A named backend -/
theorem named_section (e : BeEnv) (d : BeDfl) (n : Nat) (tab : List NamedBe) (ts : List Tok) (er : Nat) :
    (∀ tab' r er', namedParser e d n ⟨tab, ts, er⟩ = .ok ⟨tab', r, er'⟩ → er ≤ er' ∧ (er' = er → ∃ name t b, ts = .string name :: (t ++ r) ∧ BeSection e d t b ∧
      (∀ x ∈ tab, x.name ≠ name) ∧ tab' = ⟨name, b.prio, b.disabled, b.m⟩ :: tab)) ∧
    (∀ name t r b, ts = .string name :: (t ++ r) → BeSection e d t b → (∀ x ∈ tab, x.name ≠ name) → t.length ≤ n →
      namedParser e d n ⟨tab, ts, er⟩ = .ok ⟨⟨name, b.prio, b.disabled, b.m⟩ :: tab, r, er⟩) := by
  constructor
  · intro tab' r er' h
    unfold namedParser at h
    dsimp only at h
    split at h
    · rename_i name r1
      split at h
      · rename_i s2 hs2
        obtain ⟨b, r2, er2⟩ := s2
        split at h
        · cases h
        · rename_i hany
          cases h
          obtain ⟨h1, h2⟩ := (backend_section e d n r1 er).1 _ _ _ hs2
          refine ⟨h1, fun he => ?_⟩
          obtain ⟨t, rfl, ht⟩ := h2 he
          refine ⟨name, t, b, rfl, ht, fun x hx hxn => hany ?_, rfl⟩
          rw [List.any_eq_true]
          exact ⟨x, hx, by simpa using hxn⟩
      · cases h
    · cases h
  · rintro name t r b rfl ht hx hn
    unfold namedParser
    dsimp only
    rw [(backend_section e d n (t ++ r) er).2 t r b rfl ht hn]
    have : (tab.any fun x => x.name == name) = false := by
      rw [List.any_eq_false]
      intro x hm
      simpa using hx x hm
    simp only [this, Bool.false_eq_true, if_false]

end Pound
