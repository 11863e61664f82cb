import Verif.Spec.Control
import Verif.Proof.Acl
import Verif.Proof.Json

namespace Pound

open Spec

theorem isDigit_iffN (c : UInt8) : isDigit c = true ↔ 48 ≤ c.toNat ∧ c.toNat ≤ 57 := by
  simp [isDigit, UInt8.le_iff_toNat_le]

theorem isIndex_iff (s : Bytes) (n : Nat) : IsIndex s n ↔ s ≠ [] ∧ (∀ c ∈ s, isDigit c = true) ∧ n = digitsVal s := by
  unfold IsIndex
  simp only [isDigit_iffN]
  rfl

/-- What follows a segment -/
def EndOr (r : Bytes) : Prop := ∀ c, r.head? = some c → c = ch%'/' ∨ c = ch%'?'

theorem endOr_props {r : Bytes} (h : EndOr r) : (∀ c t, r = c :: t → isSpace c = false) ∧ (∀ c t, r = c :: t → isDigit c = false) ∧
    (∀ c t, r = c :: t → c ≠ 45 ∧ c ≠ 43) ∧ (∀ c t, r = c :: t → notEnd c = false) := by
  refine ⟨?_, ?_, ?_, ?_⟩ <;> (rintro c t rfl; rcases h c rfl with rfl | rfl <;> decide)

theorem strtolDigits_none {neg : Bool} {w t : Bytes} (h : t.takeWhile isDigit = []) : strtolDigits neg w t = (0, false, w) := by
  unfold strtolDigits
  simp [h]

theorem strtolDigits_rest {neg : Bool} {w t : Bytes} (h : t.takeWhile isDigit ≠ []) : (strtolDigits neg w t).2.2 = t.dropWhile isDigit := by
  unfold strtolDigits
  simp only [h, if_false]
  split <;> split <;> rfl

theorem takeWhile_append_end {p : UInt8 → Bool} (s r : Bytes) (h : ∀ c t, r = c :: t → p c = false) :
    (s ++ r).takeWhile p = s.takeWhile p ∧ (s ++ r).dropWhile p = s.dropWhile p ++ r := by
  induction s with
  | nil =>
    cases r with
    | nil => simp
    | cons c t => simp [List.takeWhile_cons, List.dropWhile_cons, h c t rfl]
  | cons c s ih =>
    simp only [List.cons_append, List.takeWhile_cons, List.dropWhile_cons]
    split
    · simp [ih.1, ih.2]
    · simp

/-- A signed or spaced number, or a plain one -/
def NumberForm (s : Bytes) : Prop :=
  ∃ sp sg ds n, s = sp ++ sg ++ ds ∧ (∀ c ∈ sp, isSpace c = true) ∧ (sg = [] ∨ sg = b!"-" ∨ sg = b!"+") ∧ IsIndex ds n

theorem strtol_sign {s : Bytes} {c : UInt8} {t : Bytes} (h : s.dropWhile isSpace = c :: t) :
    strtol10 s = if c = 45 then strtolDigits true s t else if c = 43 then strtolDigits false s t else strtolDigits false s (c :: t) := by
  unfold strtol10
  rw [h]
  split
  · rename_i e; cases e; rfl
  · rename_i e; cases e; rfl
  · rename_i n1 n2
    rw [if_neg, if_neg]
    · intro e; subst e; exact n2 t rfl
    · intro e; subst e; exact n1 t rfl

/-- A segment that is no number is read as a name: strtol stops inside. -/
theorem strtol_name {s r : Bytes} (hs : s ≠ []) (hr : EndOr r) (hn : ¬ NumberForm s) :
    ∃ x, x ≠ [] ∧ (∀ c ∈ x, c ∈ s) ∧ (strtol10 (s ++ r)).2.2 = x ++ r := by
  obtain ⟨h1, h2, h3, -⟩ := endOr_props hr
  have hd := (takeWhile_append_end (p := isSpace) s r h1).2
  -- the tail of digits
  have key : ∀ (neg : Bool) (pre t : Bytes), s = pre ++ t → (t.dropWhile isDigit = [] → t.takeWhile isDigit = []) →
      ∃ x, x ≠ [] ∧ (∀ c ∈ x, c ∈ s) ∧ (strtolDigits neg (s ++ r) (t ++ r)).2.2 = x ++ r := by
    intro neg pre t e ht
    obtain ⟨k1, k2⟩ := takeWhile_append_end (p := isDigit) t r h2
    by_cases hz : t.takeWhile isDigit = []
    · rw [strtolDigits_none (by rw [k1, hz])]
      exact ⟨s, hs, fun c hc => hc, rfl⟩
    · rw [strtolDigits_rest (by rw [k1]; exact hz), k2]
      refine ⟨t.dropWhile isDigit, fun e => hz (ht e), ?_, rfl⟩
      intro c hc
      rw [e]
      exact List.mem_append_right _ ((List.dropWhile_suffix isDigit).subset hc)
  have hsplit : s = s.takeWhile isSpace ++ s.dropWhile isSpace := (List.takeWhile_append_dropWhile).symm
  have hsp : ∀ c ∈ s.takeWhile isSpace, isSpace c = true := by
    obtain ⟨b, -, -, -, -, h5⟩ := takeWhile_split isSpace s
    exact h5
  have hnum : ∀ sg t, s.dropWhile isSpace = sg ++ t → (sg = [] ∨ sg = b!"-" ∨ sg = b!"+") → (t.dropWhile isDigit = [] → t.takeWhile isDigit = []) := by
    intro sg t e hsg hz
    apply Classical.byContradiction
    intro hne
    apply hn
    have et : t = t.takeWhile isDigit := by
      have := (List.takeWhile_append_dropWhile (p := isDigit) (l := t)).symm
      rwa [hz, List.append_nil] at this
    obtain ⟨b, -, -, -, -, h5⟩ := takeWhile_split isDigit t
    refine ⟨s.takeWhile isSpace, sg, t, digitsVal t, ?_, hsp, hsg, ?_⟩
    · rw [List.append_assoc, ← e]; exact hsplit
    · rw [isIndex_iff]
      rw [← et] at hne h5
      exact ⟨hne, h5, rfl⟩
  cases hc : s.dropWhile isSpace with
  | nil =>
    rw [hc, List.nil_append] at hd
    have hz : (strtol10 (s ++ r)).2.2 = s ++ r := by
      cases r with
      | nil =>
        unfold strtol10
        rw [hd]
        rfl
      | cons c t =>
        rw [strtol_sign hd, if_neg (h3 c t rfl).1, if_neg (h3 c t rfl).2, strtolDigits_none]
        rw [List.takeWhile_cons, if_neg (by rw [h2 c t rfl]; decide)]
    exact ⟨s, hs, fun c hc => hc, hz⟩
  | cons c t =>
    rw [hc] at hd
    rw [strtol_sign hd]
    have e1 : s = (s.takeWhile isSpace ++ [c]) ++ t := by
      rw [List.append_assoc]; rw [hc] at hsplit; exact hsplit
    have e2 : s = s.takeWhile isSpace ++ (c :: t) := by rw [hc] at hsplit; exact hsplit
    split
    · rename_i e; subst e
      exact key true _ t e1 (hnum b!"-" t hc (by simp))
    · split
      · rename_i e; subst e
        exact key false _ t e1 (hnum b!"+" t hc (by simp))
      · exact key false _ (c :: t) e2 (hnum [] (c :: t) hc (by simp))

theorem strtol_index {s r : Bytes} {n : Nat} (h : IsIndex s n) (hr : EndOr r) :
    strtol10 (s ++ r) = if ctlLongMax < n then ((ctlLongMax : Int), true, r) else ((n : Int), false, r) := by
  obtain ⟨-, h2, -, -⟩ := endOr_props hr
  obtain ⟨hne, hd, rfl⟩ := (isIndex_iff s n).mp h
  cases s with
  | nil => exact absurd rfl hne
  | cons c t =>
    have hc := digit_props c (hd c List.mem_cons_self)
    have e : (c :: t ++ r).dropWhile isSpace = c :: (t ++ r) := by
      rw [List.cons_append, List.dropWhile_cons, if_neg (by rw [hc.1]; decide)]
    rw [strtol_sign e, if_neg hc.2.1, if_neg hc.2.2]
    obtain ⟨k1, k2⟩ := takeWhile_append_end (p := isDigit) (c :: t) r h2
    have k3 : (c :: t).takeWhile isDigit = c :: t := takeWhile_all' hd
    have k4 : (c :: t).dropWhile isDigit = [] := by
      have := (List.takeWhile_append_dropWhile (p := isDigit) (l := c :: t)).symm
      rw [k3] at this
      exact List.self_eq_append_right.mp this
    rw [k3] at k1
    rw [k4, List.nil_append] at k2
    rw [← List.cons_append]
    unfold strtolDigits
    simp only [k1, k2]
    rw [if_neg (by simp)]
    simp

theorem segment_cases {s : Bytes} (h : Segment s) : (∃ n, IsIndex s n) ∨ ((∀ n, ¬ IsIndex s n) ∧ ¬ NumberForm s) := by
  by_cases hi : ∃ n, IsIndex s n
  · exact Or.inl hi
  · right
    refine ⟨fun n hn => hi ⟨n, hn⟩, ?_⟩
    rintro ⟨sp, sg, ds, n, e, h1, h2, h3⟩
    obtain ⟨rfl, rfl⟩ := h.unsigned sp sg ds n e h1 h2 h3
    simp only [List.append_nil, List.nil_append] at e
    subst e
    exact hi ⟨n, h3⟩

theorem isIndex_fun {s : Bytes} {n m : Nat} (h : IsIndex s n) (h' : IsIndex s m) : n = m := h.2.2.trans h'.2.2.symm

theorem notEnd_seg {s : Bytes} (h : Segment s) : ∀ c ∈ s, notEnd c = true := by
  intro c hc
  have := h.plain c hc
  simp [notEnd, this.1, this.2]

theorem getident_index {s r : Bytes} {n : Nat} (h : IsIndex s n) (hr : EndOr r) :
    ctlGetident (ch%'/' :: s ++ r) = if n < 2 ^ 31 then (.num n, r) else (.err, s ++ r) := by
  obtain ⟨-, -, -, h4⟩ := endOr_props hr
  show identAt (s ++ r) = _
  unfold identAt
  dsimp only
  have hs := strtol_index h hr
  have hrest : (strtol10 (s ++ r)).2.2 = r := by rw [hs]; split <;> rfl
  rw [if_neg (by
    rw [hrest]
    cases r with
    | nil => simp [goesOn]
    | cons c t => simp [goesOn, h4 c t rfl])]
  rw [hs]
  by_cases h1 : n < 2 ^ 31
  · have h2 : ¬ ctlLongMax < n := by unfold ctlLongMax; omega
    rw [if_neg h2, if_pos h1, if_pos (by refine ⟨rfl, ?_⟩; show (n : Int) ≤ _; omega)]
    have : intOfLong (n : Int) = n := by unfold intOfLong; omega
    rw [this]
  · rw [if_neg h1]
    split
    · rfl
    · rw [if_neg (by rintro ⟨-, h3⟩; change (n : Int) ≤ _ at h3; omega)]

theorem getident_name {s r : Bytes} (hs : Segment s) (hn : ¬ NumberForm s) (hr : EndOr r) :
    ctlGetident (ch%'/' :: s ++ r) = (.str s, r) := by
  obtain ⟨-, -, -, h4⟩ := endOr_props hr
  show identAt (s ++ r) = _
  unfold identAt
  dsimp only
  obtain ⟨x, h1, h2, h3⟩ := strtol_name hs.nonempty hr hn
  rw [if_pos (by
    rw [h3]
    cases x with
    | nil => exact absurd rfl h1
    | cons c t => simp [goesOn, notEnd_seg hs c (h2 c List.mem_cons_self)])]
  rw [takeWhile_app (notEnd_seg hs) h4, dropWhile_app (notEnd_seg hs) h4]

/-- LOCATE -/
theorem locateIn_num (n : Nat) : ∀ (names : List (Option Bytes)) (i : Nat), i ≤ n →
    locateIn names (.num n) i = if n < i + names.length then some n else none
  | [], i, h => by simp [locateIn, Nat.not_lt.mpr h]
  | nm :: r, i, h => by
    unfold locateIn
    by_cases e : n = i
    · subst e
      simp
    · have : ¬ (n : Int) = i := by omega
      simp only [this, decide_false, Bool.false_eq_true, if_false]
      rw [locateIn_num n r (i + 1) (by omega), List.length_cons]
      congr 1
      simp only [eq_iff_iff]; omega

theorem locateIn_str (s : Bytes) : ∀ (names : List (Option Bytes)) (i k : Nat),
    locateIn names (.str s) i = some k ↔ ∃ j, k = i + j ∧ names[j]? = some (some s) ∧ ∀ m < j, names[m]? ≠ some (some s)
  | [], i, k => by simp [locateIn]
  | nm :: r, i, k => by
    unfold locateIn
    by_cases e : nm = some s
    · subst e
      simp only [beq_self_eq_true, if_true, Option.some.injEq]
      constructor
      · rintro rfl
        exact ⟨0, rfl, rfl, by omega⟩
      · rintro ⟨j, rfl, -, h⟩
        cases j with
        | zero => rfl
        | succ j => exact absurd rfl (h 0 (by omega))
    · have : (nm == some s) = false := by simpa using e
      simp only [this, Bool.false_eq_true, if_false]
      rw [locateIn_str s r (i + 1) k]
      constructor
      · rintro ⟨j, rfl, h1, h2⟩
        refine ⟨j + 1, by omega, h1, ?_⟩
        intro m hm
        cases m with
        | zero => simpa using e
        | succ m => exact h2 m (by omega)
      · rintro ⟨j, rfl, h1, h2⟩
        cases j with
        | zero => simp at h1; exact absurd h1 e
        | succ j =>
          refine ⟨j, by omega, h1, ?_⟩
          intro m hm
          exact h2 (m + 1) (by omega)

/-- A segment leads to the object it designates. -/
theorem locate_iff {names : List (Option Bytes)} {s r : Bytes} (hs : Segment s) (hr : EndOr r) (hlen : names.length ≤ 2 ^ 31) (i : Nat) :
    ((if (ctlGetident (ch%'/' :: s ++ r)).1 = .err then none else locateIn names (ctlGetident (ch%'/' :: s ++ r)).1 0) = some i ↔
      Designates names s i) ∧
    (∀ i, Designates names s i → (ctlGetident (ch%'/' :: s ++ r)).2 = r) := by
  rcases segment_cases hs with ⟨n, hn⟩ | ⟨hn, hf⟩
  · rw [getident_index hn hr]
    by_cases h1 : n < 2 ^ 31
    · rw [if_pos h1]
      refine ⟨?_, fun _ _ => rfl⟩
      rw [if_neg (by simp)]
      show locateIn names (.num n) 0 = _ ↔ _
      rw [locateIn_num n names 0 (by omega), Nat.zero_add]
      constructor
      · intro h
        split at h
        · cases h; exact .index hn (by assumption)
        · cases h
      · rintro (⟨h, hl⟩ | ⟨h, -, -⟩)
        · rw [isIndex_fun hn h, if_pos hl]
        · exact absurd hn (h n)
    · rw [if_neg h1]
      have hno : ∀ i, ¬ Designates names s i := by
        rintro i (⟨h, hl⟩ | ⟨h, -, -⟩)
        · have := isIndex_fun hn h; omega
        · exact h n hn
      refine ⟨?_, fun i h => absurd h (hno i)⟩
      simp [hno i]
  · rw [getident_name hs hf hr]
    refine ⟨?_, fun _ _ => rfl⟩
    rw [if_neg (by simp)]
    rw [locateIn_str]
    constructor
    · rintro ⟨j, rfl, h1, h2⟩
      rw [Nat.zero_add]
      exact .name hn h1 h2
    · rintro (⟨h, hl⟩ | ⟨h, h1, h2⟩)
      · exact absurd h (hn i)
      · exact ⟨i, by omega, h1, h2⟩

theorem svcs_eq (c : Conf) (l : Option Nat) : c.svcs l = servicesOf c l := by
  cases l with
  | none => rfl
  | some i =>
    unfold Conf.svcs servicesOf
    dsimp only
    cases c.listeners[i]? <;> rfl

theorem locateBeIn_spec (n : Nat) : ∀ (bl : List CBe) (k : Nat), k ≤ n →
    locateBeIn n bl k = if n < k + bl.length then .inl bl[n - k]? else .inr (k + bl.length)
  | [], k, h => by simp [locateBeIn, Nat.not_lt.mpr h]
  | b :: r, k, h => by
    unfold locateBeIn
    by_cases e : k = n
    · subst e; simp
    · have : ¬ (k : Int) = n := by omega
      rw [if_neg this, locateBeIn_spec n r (k + 1) (by omega), List.length_cons]
      have e1 : k + 1 + r.length = k + (r.length + 1) := by omega
      have e2 : n - k = (n - (k + 1)) + 1 := by omega
      rw [e1, e2, List.getElem?_cons_succ]

theorem locateBe_spec (n : Nat) : ∀ (bals : List (List CBe)) (k : Nat), k ≤ n → locateBe n bals k = bals.flatten[n - k]?
  | [], k, _ => by simp [locateBe]
  | bl :: r, k, h => by
    unfold locateBe
    rw [locateBeIn_spec n bl k h]
    by_cases hl : n < k + bl.length
    · rw [if_pos hl]
      dsimp only
      rw [List.flatten_cons, List.getElem?_append_left (by omega)]
    · rw [if_neg hl]
      dsimp only
      rw [locateBe_spec n r _ (by omega), List.flatten_cons, List.getElem?_append_right (by omega), Nat.sub_add_eq]

theorem more_iff (u : Bytes) : more u = true ↔ ∃ c t, u = c :: t ∧ c ≠ ch%'?' := by
  unfold more
  cases u with
  | nil => simp
  | cons c t => simp

theorem ctlBackend_iff {c : Conf} {l : Option Nat} {i : Nat} {sv : CSvc} (hsv : (servicesOf c l)[i]? = some sv)
    (hsz : sv.balancers.flatten.length ≤ 2 ^ 31) {b r : Bytes} (hb : Segment b) (hr : EndOr r) (x : Obj × Bytes) :
    ctlBackend c (ch%'/' :: b ++ r) l i = some x ↔
      ∃ n be, IsIndex b n ∧ sv.balancers.flatten[n]? = some be ∧ x = (.backend l i be.ptr, r) := by
  unfold ctlBackend
  rw [svcs_eq, hsv]
  dsimp only
  rcases segment_cases hb with ⟨n, hn⟩ | ⟨hn, hf⟩
  · rw [getident_index hn hr]
    by_cases h1 : n < 2 ^ 31
    · rw [if_pos h1]
      unfold locateBackend
      dsimp only
      rw [locateBe_spec n _ 0 (by omega), Nat.sub_zero]
      cases hg : sv.balancers.flatten[n]? with
      | none =>
        dsimp only
        constructor
        · intro h; cases h
        · rintro ⟨m, be, h, hm, -⟩
          rw [← isIndex_fun hn h, hg] at hm; cases hm
      | some be =>
        dsimp only
        constructor
        · intro h; cases h; exact ⟨n, be, hn, hg, rfl⟩
        · rintro ⟨m, be', h, hm, rfl⟩
          rw [← isIndex_fun hn h, hg] at hm; cases hm; rfl
    · rw [if_neg h1]
      unfold locateBackend
      dsimp only
      constructor
      · intro h; cases h
      · rintro ⟨m, be, h, hm, -⟩
        have := (List.getElem?_eq_some_iff.mp hm).1
        have := isIndex_fun hn h
        omega
  · rw [getident_name hb hf hr]
    unfold locateBackend
    dsimp only
    constructor
    · intro h; cases h
    · rintro ⟨m, be, h, -, -⟩
      exact absurd h (hn m)

theorem ctlService_iff {c : Conf} {l : Option Nat} (hsz : (servicesOf c l).length ≤ 2 ^ 31) {s r : Bytes} (hs : Segment s) (hr : EndOr r)
    (x : Obj × Bytes) :
    ctlService c (ch%'/' :: s ++ r) l = some x ↔
      ∃ i, Designates ((servicesOf c l).map (·.name)) s i ∧ (if more r then ctlBackend c r l i else some (.service l i, r)) = some x := by
  unfold ctlService locateService
  rw [svcs_eq]
  dsimp only
  have key := fun i => locate_iff (names := (servicesOf c l).map (·.name)) hs hr (by simpa using hsz) i
  cases hq : (if (ctlGetident (ch%'/' :: s ++ r)).1 = .err then none else
    locateIn ((servicesOf c l).map (·.name)) (ctlGetident (ch%'/' :: s ++ r)).1 0) with
  | none =>
    dsimp only
    constructor
    · intro h; cases h
    · rintro ⟨i, hi, -⟩
      rw [((key i).1.mpr hi)] at hq; cases hq
  | some i =>
    dsimp only
    have hi := (key i).1.mp hq
    rw [(key i).2 i hi]
    constructor
    · intro h; exact ⟨i, hi, h⟩
    · rintro ⟨j, hj, h⟩
      rw [((key j).1.mpr hj)] at hq; cases hq; exact h

theorem dash_segment : Segment b!"-" := by
  refine ⟨by decide, by decide, ?_⟩
  intro sp sg ds n e h1 h2 h3
  have hl := congrArg List.length e
  have hd : 0 < ds.length := List.length_pos_iff.mpr h3.1
  simp only [List.length_append, List.length_cons, List.length_nil] at hl
  exact ⟨List.length_eq_zero_iff.mp (by omega), List.length_eq_zero_iff.mp (by omega)⟩

theorem ctlListener_iff {c : Conf} (hsz : c.listeners.length ≤ 2 ^ 31) {a r : Bytes} (ha : Segment a) (hr : EndOr r) (x : Obj × Bytes) :
    ctlListener c (ch%'/' :: a ++ r) = some x ↔ ∃ l, Resolves c [a] (.listener l) ∧ ctlListenerAt c l r = some x := by
  have hq : (ch%'/' :: a ++ r).takeWhile notQm = ch%'/' :: a ++ r.takeWhile notQm := by
    have h1 : ∀ c ∈ ch%'/' :: a, notQm c = true := by
      intro c hc
      rcases List.mem_cons.mp hc with rfl | hc
      · rfl
      · simp [notQm, (ha.plain c hc).2]
    rw [List.takeWhile_append_of_pos h1]
  unfold ctlListener
  dsimp only
  rw [hq]
  have hne := List.length_pos_iff.mpr ha.nonempty
  rw [if_neg (by
    rintro ⟨-, h⟩
    simp only [List.length_append, List.length_cons] at h
    omega)]
  by_cases hd : a = b!"-"
  · subst hd
    rw [if_pos]
    · show ctlListenerAt c none r = some x ↔ _
      constructor
      · intro h; exact ⟨none, .global, h⟩
      · rintro ⟨l, hl, h⟩
        cases hl with
        | global => exact h
        | listener h1 _ => exact absurd rfl h1
    · refine ⟨rfl, rfl, ?_⟩
      cases r with
      | nil => left; rfl
      | cons d t =>
        rcases hr d rfl with rfl | rfl
        · right; rfl
        · left; rfl
  · rw [if_neg]
    · have key := fun i => locate_iff (names := c.listeners.map (·.name)) ha hr (by simpa using hsz) i
      unfold locateListener
      cases hq : (if (ctlGetident (ch%'/' :: a ++ r)).1 = .err then none else
        locateIn (c.listeners.map (·.name)) (ctlGetident (ch%'/' :: a ++ r)).1 0) with
      | none =>
        dsimp only
        constructor
        · intro h; cases h
        · rintro ⟨l, hl, -⟩
          cases hl with
          | global => exact absurd rfl hd
          | listener _ h => rw [((key _).1.mpr h)] at hq; cases hq
      | some i =>
        dsimp only
        have hi := (key i).1.mp hq
        rw [(key i).2 i hi]
        constructor
        · intro h; exact ⟨some i, .listener hd hi, h⟩
        · rintro ⟨l, hl, h⟩
          cases hl with
          | global => exact absurd rfl hd
          | listener _ h' => rw [((key _).1.mpr h')] at hq; cases hq; exact h
    · rintro ⟨-, h1, h2⟩
      cases a with
      | nil => exact ha.nonempty rfl
      | cons d t =>
        have : d = ch%'-' := by simpa using h1
        subst this
        cases t with
        | nil => exact hd rfl
        | cons e t =>
          rcases h2 with h2 | h2
          · simp only [List.length_append, List.length_cons] at h2
            omega
          · have : e = ch%'/' := by simpa using h2
            exact (ha.plain e (by simp)).1 this

theorem endOr_slashes {segs : List Bytes} {q : Bytes} (hq : ∀ c, q.head? = some c → c = ch%'?') : EndOr (slashes segs ++ q) := by
  cases segs with
  | nil => intro c hc; right; exact hq c hc
  | cons s r => intro c hc; left; simpa [slashes] using hc.symm

theorem slashes_cons (s : Bytes) (r : List Bytes) (q : Bytes) : slashes (s :: r) ++ q = ch%'/' :: s ++ (slashes r ++ q) := by
  simp [slashes]

theorem more_slashes {segs : List Bytes} {q : Bytes} (hq : ∀ c, q.head? = some c → c = ch%'?') : more (slashes segs ++ q) = !segs.isEmpty := by
  cases segs with
  | nil =>
    cases q with
    | nil => rfl
    | cons c t => simp [slashes, more, hq c rfl]
  | cons s r => simp [slashes, more]

theorem resolves_listener {c : Conf} {segs : List Bytes} {l : Option Nat} (h : Resolves c segs (.listener l)) : segs.length = 1 := by
  cases h <;> rfl

/-- Paths lead to the objects they name; what remains of a path with more than three segments is left to the handler. -/
theorem path_iff {c : Conf} (hc : GoodConf c) {segs : List Bytes} (hs : ∀ s ∈ segs, Segment s) (hne : segs ≠ []) {q : Bytes}
    (hq : ∀ c, q.head? = some c → c = ch%'?') (o : Obj) (u : Bytes) :
    ctlListener c (slashes segs ++ q) = some (o, u) ↔
      ∃ s1 s2, segs = s1 ++ s2 ∧ Resolves c s1 o ∧ u = slashes s2 ++ q ∧ (s2 ≠ [] → s1.length = 3) := by
  match segs, hne with
  | [a], _ =>
    rw [slashes_cons, ctlListener_iff hc.listeners (hs a (by simp)) (endOr_slashes hq)]
    have hm := more_slashes (segs := []) hq
    unfold ctlListenerAt
    rw [hm]
    simp only [List.isEmpty_nil, Bool.not_true, Bool.false_eq_true, if_false]
    constructor
    · rintro ⟨l, h1, h2⟩
      cases h2
      exact ⟨[a], [], rfl, h1, rfl, by simp⟩
    · rintro ⟨s1, s2, e, h1, rfl, h3⟩
      cases s1 with
      | nil => cases h1
      | cons x s1 =>
        rw [List.cons_append, List.cons.injEq] at e
        obtain ⟨rfl, e⟩ := e
        obtain ⟨rfl, rfl⟩ := List.append_eq_nil_iff.mp e.symm
        cases h1 with
        | global => exact ⟨none, .global, rfl⟩
        | listener h h' => exact ⟨_, .listener h h', rfl⟩
  | [a, s], _ =>
    rw [slashes_cons, ctlListener_iff hc.listeners (hs a (by simp)) (endOr_slashes hq)]
    unfold ctlListenerAt
    rw [more_slashes hq, slashes_cons]
    simp only [List.isEmpty_cons, Bool.not_false, if_true]
    have hS := fun l => ctlService_iff (hc.services l) (hs s (by simp)) (endOr_slashes (segs := []) hq) (o, u)
    simp only [hS, more_slashes (segs := []) hq, List.isEmpty_nil, Bool.not_true, Bool.false_eq_true, if_false]
    constructor
    · rintro ⟨l, h1, i, h2, h3⟩
      cases h3
      exact ⟨[a, s], [], rfl, .service h1 h2, rfl, by simp⟩
    · rintro ⟨s1, s2, e, h1, rfl, h3⟩
      have h3' : s2 = [] ∨ s1.length = 3 := by
        by_cases h : s2 = []
        · exact Or.inl h
        · exact Or.inr (h3 h)
      have hl := congrArg List.length e
      simp only [List.length_append, List.length_cons, List.length_nil] at hl
      rcases h3' with rfl | h3'
      · rw [List.append_nil] at e
        subst e
        cases h1 with
        | service h h' => exact ⟨_, h, _, h', rfl⟩
      · omega
  | a :: s :: b :: more_, _ =>
    rw [slashes_cons, ctlListener_iff hc.listeners (hs a (by simp)) (endOr_slashes hq)]
    unfold ctlListenerAt
    rw [more_slashes hq, slashes_cons]
    simp only [List.isEmpty_cons, Bool.not_false, if_true]
    have hS := fun l => ctlService_iff (hc.services l) (hs s (by simp)) (endOr_slashes (segs := b :: more_) hq) (o, u)
    simp only [hS, more_slashes (segs := b :: more_) hq, List.isEmpty_cons, Bool.not_false, if_true]
    constructor
    · rintro ⟨l, h1, i, h2, h3⟩
      have hlt : i < (servicesOf c l).length := by
        cases h2 with
        | index _ h => simpa using h
        | name _ h _ => have := (List.getElem?_eq_some_iff.mp h).1; simpa using this
      have hsv := List.getElem?_eq_getElem hlt
      rw [slashes_cons, ctlBackend_iff hsv (hc.distinct l _ (List.getElem_mem hlt)).2 (hs b (by simp)) (endOr_slashes hq)] at h3
      obtain ⟨n, be, hn, hbe, e⟩ := h3
      cases e
      exact ⟨[a, s, b], more_, rfl, .backend (.service h1 h2) hsv hn hbe, rfl, fun _ => rfl⟩
    · rintro ⟨s1, s2, e, h1, rfl, h3⟩
      have hl := congrArg List.length e
      simp only [List.length_append, List.length_cons] at hl
      cases h1 with
      | global =>
        exfalso
        have := h3 (by rintro rfl; simp at hl)
        simp at this
      | listener h h' =>
        exfalso
        have := h3 (by rintro rfl; simp at hl)
        simp at this
      | service h h' =>
        exfalso
        have := h3 (by rintro rfl; simp at hl)
        simp at this
      | backend h1 h2 h4 h5 =>
        cases e
        cases h1 with
        | service h h' =>
          refine ⟨_, h, _, h', ?_⟩
          rw [slashes_cons, ctlBackend_iff h2 (hc.distinct _ _ (List.mem_of_getElem? h2)).2 (hs _ (by simp)) (endOr_slashes hq)]
          exact ⟨_, _, h4, h5, rfl⟩

end Pound
