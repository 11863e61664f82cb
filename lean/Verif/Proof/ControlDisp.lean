import Verif.Proof.ControlEff

namespace Pound

open Spec

/-! ### Endpoints -/

/-- URIs of the table contain no '?' and do not end in '/'. -/
def PlainUri (u : Bytes) : Prop := (∀ c ∈ u, notQm c = true) ∧ ∀ i, i + 1 = u.length → u[i]? ≠ some ch%'/'

theorem endpoints_plain : ∀ p ∈ endpoints, PlainUri p.uri := by
  have h : ∀ p ∈ endpoints, (∀ c ∈ p.uri, notQm c = true) ∧ p.uri[p.uri.length - 1]? ≠ some ch%'/' := by decide +kernel
  intro p hp
  refine ⟨(h p hp).1, ?_⟩
  intro i hi
  have := (h p hp).2
  rwa [← hi, Nat.add_sub_cancel] at this

theorem endpoints_inj : ∀ p ∈ endpoints, ∀ q ∈ endpoints, p.method = q.method → p.uri = q.uri → p = q := by decide +kernel

/-- The length computed by find_endpoint -/
def epLen (uri : Bytes) : Nat :=
  let len := (uri.takeWhile notQm).length
  if uri[len - 1]? = some ch%'/' then len - 1 else len

theorem uriMatch_iff {uri : Bytes} (h0 : (uri.takeWhile notQm).length ≠ 0) {p : Endpoint} (hp : PlainUri p.uri) :
    uriMatch uri (epLen uri) p = true ↔ Covers p.uri uri := by
  unfold uriMatch Covers
  simp only [Bool.and_eq_true, decide_eq_true_eq, beq_iff_eq]
  constructor
  · rintro ⟨⟨-, h2⟩, h3⟩
    have e : uri = p.uri ++ uri.drop p.uri.length := by
      have := (List.take_append_drop p.uri.length uri).symm
      rwa [h2] at this
    refine ⟨_, e, ?_⟩
    intro c hc
    rw [List.head?_drop] at hc
    rw [hc] at h3
    simpa using h3
  · rintro ⟨r, e, hr⟩
    have ht : uri.takeWhile notQm = p.uri ++ r.takeWhile notQm := by
      rw [e, List.takeWhile_append_of_pos hp.1]
    refine ⟨⟨?_, ?_⟩, ?_⟩
    · unfold epLen
      dsimp only
      rw [ht, List.length_append]
      split
      · rename_i hs
        by_cases hz : (r.takeWhile notQm).length = 0
        · exfalso
          rw [ht, List.length_append] at h0
          rw [hz, Nat.add_zero] at hs
          rw [e, List.getElem?_append_left (by omega)] at hs
          exact hp.2 (p.uri.length - 1) (by omega) hs
        · omega
      · omega
    · rw [e]; simp
    · rw [e, List.getElem?_append_right (Nat.le_refl _), Nat.sub_self]
      cases r with
      | nil => rfl
      | cons c t =>
        have := hr c rfl
        simpa using this

theorem findLoop_spec (m : CMeth) (uri : Bytes) (len : Nat) : ∀ (tab : List Endpoint) (cp : Option Endpoint) (um : Bool),
    (∀ q, (findLoop m uri len tab cp um).1 = some q → (cp = some q ∨ (q ∈ tab ∧ uriMatch uri len q = true ∧ q.method = m)) ∧
      (∀ p ∈ tab, uriMatch uri len p = true → p.method = m → p.uri.length ≤ q.uri.length) ∧ (∀ p, cp = some p → p.uri.length ≤ q.uri.length)) ∧
    ((findLoop m uri len tab cp um).1 = none → cp = none ∧ ∀ p ∈ tab, uriMatch uri len p = true → p.method ≠ m) ∧
    ((findLoop m uri len tab cp um).2 = true ↔ um = true ∨ ∃ p ∈ tab, uriMatch uri len p = true ∧ p.method ≠ m)
  | [], cp, um => by
    simp only [findLoop]
    refine ⟨fun q hq => ⟨Or.inl hq, by simp, fun p hp => ?_⟩, fun h => ⟨h, by simp⟩, by simp⟩
    rw [hq] at hp; cases hp; omega
  | p :: r, cp, um => by
    unfold findLoop
    by_cases hm : uriMatch uri len p = true
    · rw [if_pos hm]
      by_cases hme : p.method = m
      · rw [if_pos hme]
        dsimp only
        cases cp with
        | none =>
          dsimp only
          rw [if_pos rfl]
          obtain ⟨h1, h2, h3⟩ := findLoop_spec m uri len r (some p) um
          refine ⟨?_, ?_, ?_⟩
          · intro q hq
            obtain ⟨k1, k2, k3⟩ := h1 q hq
            refine ⟨Or.inr ?_, ?_, by simp⟩
            · rcases k1 with k1 | k1
              · cases k1; exact ⟨by simp, hm, hme⟩
              · exact ⟨by simp [k1.1], k1.2⟩
            · intro x hx hxm hxe
              rcases List.mem_cons.mp hx with rfl | hx
              · exact k3 _ rfl
              · exact k2 x hx hxm hxe
          · intro hq; have := (h2 hq).1; cases this
          · rw [h3]
            constructor
            · rintro (h | ⟨x, hx, h⟩)
              · exact Or.inl h
              · exact Or.inr ⟨x, by simp [hx], h⟩
            · rintro (h | ⟨x, hx, h⟩)
              · exact Or.inl h
              · rcases List.mem_cons.mp hx with rfl | hx
                · exact absurd hme h.2
                · exact Or.inr ⟨x, hx, h⟩
        | some c =>
          dsimp only
          generalize hnew : (if decide (c.uri.length < p.uri.length) = true then some p else some c) = cp'
          obtain ⟨h1, h2, h3⟩ := findLoop_spec m uri len r cp' um
          have hcp : (cp' = some p ∧ c.uri.length < p.uri.length) ∨ (cp' = some c ∧ p.uri.length ≤ c.uri.length) := by
            rw [← hnew]
            split
            · rename_i h; left; exact ⟨rfl, by simpa using h⟩
            · rename_i h; right; exact ⟨rfl, by simpa using h⟩
          refine ⟨?_, ?_, ?_⟩
          · intro q hq
            obtain ⟨k1, k2, k3⟩ := h1 q hq
            refine ⟨?_, ?_, ?_⟩
            · rcases k1 with k1 | k1
              · rcases hcp with ⟨e, -⟩ | ⟨e, -⟩
                · rw [e] at k1; cases k1; exact Or.inr ⟨by simp, hm, hme⟩
                · rw [e] at k1; exact Or.inl k1
              · exact Or.inr ⟨by simp [k1.1], k1.2⟩
            · intro x hx hxm hxe
              rcases List.mem_cons.mp hx with rfl | hx
              · rcases hcp with ⟨e, -⟩ | ⟨e, h⟩
                · exact k3 _ e
                · have := k3 _ e; omega
              · exact k2 x hx hxm hxe
            · intro x e; cases e
              rcases hcp with ⟨e, h⟩ | ⟨e, -⟩
              · have := k3 _ e; omega
              · exact k3 _ e
          · intro hq
            have := (h2 hq).1
            rcases hcp with ⟨e, -⟩ | ⟨e, -⟩ <;> rw [e] at this <;> cases this
          · rw [h3]
            constructor
            · rintro (h | ⟨x, hx, h⟩)
              · exact Or.inl h
              · exact Or.inr ⟨x, by simp [hx], h⟩
            · rintro (h | ⟨x, hx, h⟩)
              · exact Or.inl h
              · rcases List.mem_cons.mp hx with rfl | hx
                · exact absurd hme h.2
                · exact Or.inr ⟨x, hx, h⟩
      · rw [if_neg hme]
        obtain ⟨h1, h2, h3⟩ := findLoop_spec m uri len r cp true
        refine ⟨?_, ?_, ?_⟩
        · intro q hq
          obtain ⟨k1, k2, k3⟩ := h1 q hq
          refine ⟨?_, ?_, k3⟩
          · rcases k1 with k1 | k1
            · exact Or.inl k1
            · exact Or.inr ⟨by simp [k1.1], k1.2⟩
          · intro x hx hxm hxe
            rcases List.mem_cons.mp hx with rfl | hx
            · exact absurd hxe hme
            · exact k2 x hx hxm hxe
        · intro hq
          refine ⟨(h2 hq).1, ?_⟩
          intro x hx hxm
          rcases List.mem_cons.mp hx with rfl | hx
          · exact hme
          · exact (h2 hq).2 x hx hxm
        · rw [h3]
          exact ⟨fun _ => Or.inr ⟨p, by simp, hm, hme⟩, fun _ => Or.inl rfl⟩
    · rw [if_neg hm]
      obtain ⟨h1, h2, h3⟩ := findLoop_spec m uri len r cp um
      refine ⟨?_, ?_, ?_⟩
      · intro q hq
        obtain ⟨k1, k2, k3⟩ := h1 q hq
        refine ⟨?_, ?_, k3⟩
        · rcases k1 with k1 | k1
          · exact Or.inl k1
          · exact Or.inr ⟨by simp [k1.1], k1.2⟩
        · intro x hx hxm hxe
          rcases List.mem_cons.mp hx with rfl | hx
          · exact absurd hxm hm
          · exact k2 x hx hxm hxe
      · intro hq
        refine ⟨(h2 hq).1, ?_⟩
        intro x hx hxm
        rcases List.mem_cons.mp hx with rfl | hx
        · exact absurd hxm hm
        · exact (h2 hq).2 x hx hxm
      · rw [h3]
        constructor
        · rintro (h | ⟨x, hx, h⟩)
          · exact Or.inl h
          · exact Or.inr ⟨x, by simp [hx], h⟩
        · rintro (h | ⟨x, hx, h⟩)
          · exact Or.inl h
          · rcases List.mem_cons.mp hx with rfl | hx
            · exact absurd h.1 hm
            · exact Or.inr ⟨x, hx, h⟩

/-- A request path: not empty before the query -/
def PathOk (uri : Bytes) : Prop := ∃ c t, uri = c :: t ∧ c ≠ ch%'?'

theorem pathOk_len {uri : Bytes} (h : PathOk uri) : (uri.takeWhile notQm).length ≠ 0 := by
  obtain ⟨c, t, rfl, hc⟩ := h
  simp [List.takeWhile_cons, notQm, hc]

theorem findEndpoint_eq {tab : List Endpoint} {m : CMeth} {uri : Bytes} (h : PathOk uri) :
    findEndpoint tab m uri = match (findLoop m uri (epLen uri) tab none false).1 with
      | some p => some (.inl p)
      | none => some (.inr (if (findLoop m uri (epLen uri) tab none false).2 then .badRequest else .notFound)) := by
  unfold findEndpoint
  dsimp only
  rw [if_neg (pathOk_len h)]
  rfl

theorem endpoint_iff {m : CMeth} {uri : Bytes} (h : PathOk uri) (e : Endpoint) :
    findEndpoint endpoints m uri = some (.inl e) ↔
      e ∈ endpoints ∧ e.method = m ∧ Covers e.uri uri ∧
        ∀ e' ∈ endpoints, e'.method = m → Covers e'.uri uri → e'.uri.length ≤ e.uri.length := by
  have hU := fun p (hp : p ∈ endpoints) => uriMatch_iff (pathOk_len h) (endpoints_plain p hp)
  obtain ⟨h1, h2, -⟩ := findLoop_spec m uri (epLen uri) endpoints none false
  rw [findEndpoint_eq h]
  cases hq : (findLoop m uri (epLen uri) endpoints none false).1 with
  | some q =>
    dsimp only
    obtain ⟨k1, k2, -⟩ := h1 q hq
    rcases k1 with k1 | ⟨k3, k4, k5⟩
    · cases k1
    rw [hU q k3] at k4
    have kmax : ∀ e' ∈ endpoints, e'.method = m → Covers e'.uri uri → e'.uri.length ≤ q.uri.length :=
      fun e' he hm hc => k2 e' he ((hU e' he).mpr hc) hm
    constructor
    · intro hh; cases hh
      exact ⟨k3, k5, k4, kmax⟩
    · rintro ⟨m1, m2, m3, m4⟩
      have hl : e.uri.length = q.uri.length := Nat.le_antisymm (kmax e m1 m2 m3) (m4 q k3 k5 k4)
      obtain ⟨r1, e1, -⟩ := m3
      obtain ⟨r2, e2, -⟩ := k4
      have : e.uri = q.uri := by
        have h3 : uri.take e.uri.length = e.uri := by rw [e1]; simp
        have h4 : uri.take q.uri.length = q.uri := by rw [e2]; simp
        rw [hl, h4] at h3
        exact h3.symm
      rw [endpoints_inj e m1 q k3 (m2.trans k5.symm) this]
  | none =>
    dsimp only
    constructor
    · intro hh; cases hh
    · rintro ⟨m1, m2, m3, -⟩
      exact absurd m2 ((h2 hq).2 e m1 ((hU e m1).mpr m3))

theorem endpoint_error {m : CMeth} {uri : Bytes} (h : PathOk uri) (s : Status) :
    findEndpoint endpoints m uri = some (.inr s) ↔
      (∀ e ∈ endpoints, Covers e.uri uri → e.method ≠ m) ∧
      ((∃ e ∈ endpoints, Covers e.uri uri) ∧ s = .badRequest ∨ (¬ ∃ e ∈ endpoints, Covers e.uri uri) ∧ s = .notFound) := by
  have hU := fun p (hp : p ∈ endpoints) => uriMatch_iff (pathOk_len h) (endpoints_plain p hp)
  obtain ⟨h1, h2, h3⟩ := findLoop_spec m uri (epLen uri) endpoints none false
  rw [findEndpoint_eq h]
  cases hq : (findLoop m uri (epLen uri) endpoints none false).1 with
  | some q =>
    dsimp only
    obtain ⟨k1, -, -⟩ := h1 q hq
    rcases k1 with k1 | ⟨k3, k4, k5⟩
    · cases k1
    constructor
    · intro hh; cases hh
    · rintro ⟨hn, -⟩
      exact absurd k5 (hn q k3 ((hU q k3).mp k4))
  | none =>
    dsimp only
    have hn : ∀ e ∈ endpoints, Covers e.uri uri → e.method ≠ m := fun e he hc => (h2 hq).2 e he ((hU e he).mpr hc)
    have hb : (findLoop m uri (epLen uri) endpoints none false).2 = true ↔ ∃ e ∈ endpoints, Covers e.uri uri := by
      rw [h3]
      constructor
      · rintro (h | ⟨p, hp, hu, -⟩)
        · cases h
        · exact ⟨p, hp, (hU p hp).mp hu⟩
      · rintro ⟨p, hp, hc⟩
        exact Or.inr ⟨p, hp, (hU p hp).mpr hc, hn p hp hc⟩
    by_cases hx : (findLoop m uri (epLen uri) endpoints none false).2 = true
    · rw [if_pos hx]
      have := hb.mp hx
      constructor
      · intro hh; cases hh; exact ⟨hn, Or.inl ⟨this, rfl⟩⟩
      · rintro ⟨-, ⟨-, rfl⟩ | ⟨h, -⟩⟩
        · rfl
        · exact absurd this h
    · rw [if_neg hx]
      have : ¬ ∃ e ∈ endpoints, Covers e.uri uri := fun h => hx (hb.mpr h)
      constructor
      · intro hh; cases hh; exact ⟨hn, Or.inr ⟨this, rfl⟩⟩
      · rintro ⟨-, ⟨h, -⟩ | ⟨-, rfl⟩⟩
        · exact absurd h this
        · rfl

/-- Requests for a listed URI followed by a path -/
theorem endpoint_at {e : Endpoint} (he : e ∈ endpoints) {r : Bytes} (hr : EndOr r) (hne : e.uri ≠ []) :
    findEndpoint endpoints e.method (e.uri ++ r) = some (.inl e) := by
  have hcov : ∀ p ∈ endpoints, p.uri ≠ [] → p.uri.head? = some ch%'/' ∧ ch%'/' ∉ p.uri.tail := by decide +kernel
  obtain ⟨h1, h2⟩ := hcov e he hne
  have hp : PathOk (e.uri ++ r) := by
    cases hu : e.uri with
    | nil => exact absurd hu hne
    | cons c t =>
      rw [hu] at h1
      exact ⟨c, t ++ r, rfl, by cases h1; decide⟩
  rw [endpoint_iff hp]
  refine ⟨he, rfl, ⟨r, rfl, hr⟩, ?_⟩
  intro e' he' _ ⟨r', e1, hr'⟩
  by_cases hn : e'.uri = []
  · rw [hn]; simp
  obtain ⟨h1', h2'⟩ := hcov e' he' hn
  apply Classical.byContradiction
  intro hlt
  have hlt : e.uri.length < e'.uri.length := by omega
  -- the byte of `e'.uri` at the end of `e.uri`
  have hpos : 0 < e.uri.length := List.length_pos_iff.mpr hne
  have hg : e'.uri[e.uri.length]? = r.head? := by
    have h3 : (e'.uri ++ r')[e.uri.length]? = e'.uri[e.uri.length]? := List.getElem?_append_left hlt
    rw [← h3, ← e1, List.getElem?_append_right (Nat.le_refl _), Nat.sub_self, List.head?_eq_getElem?]
  obtain ⟨c, hc⟩ : ∃ c, e'.uri[e.uri.length]? = some c := ⟨_, List.getElem?_eq_getElem hlt⟩
  rw [hc] at hg
  have hc' : c ∈ e'.uri.tail := by
    have : e'.uri.tail[e.uri.length - 1]? = some c := by
      rw [List.getElem?_tail, Nat.sub_add_cancel hpos]; exact hc
    exact List.mem_of_getElem? this
  rcases hr c hg.symm with rfl | rfl
  · exact h2' hc'
  · have := (endpoints_plain e' he').1 _ (List.mem_of_getElem? hc)
    exact absurd this (by decide)

/-! ### Queries -/

/-- No query, or one that asks for an indentation -/
def IndentQuery (q : Bytes) (n : Nat) : Prop := (q = [] ∧ n = 0) ∨ ∃ d, IsIndex d n ∧ n ≤ 80 ∧ q = b!"?indent=" ++ d

theorem indentQuery_head {q : Bytes} {n : Nat} (h : IndentQuery q n) : ∀ c, q.head? = some c → c = ch%'?' := by
  intro c hc
  rcases h with ⟨rfl, -⟩ | ⟨d, -, -, rfl⟩
  · cases hc
  · exact (Option.some.inj hc).symm

theorem digit_notAmp {d : Bytes} {n : Nat} (h : IsIndex d n) : ∀ c ∈ d, notAmp c = true := by
  intro c hc
  have := h.2.1 c hc
  simp only [notAmp, bne_iff_ne, ne_eq]
  rintro rfl
  revert this; decide

theorem sendJson_query {q : Bytes} {n : Nat} (h : IndentQuery q n) (v : Shown) : sendJson v q = .ok ⟨.ok, some (v, n)⟩ := by
  rcases h with ⟨rfl, rfl⟩ | ⟨d, hd, hn, rfl⟩
  · rfl
  · have hg : getParam (b!"?indent=" ++ d) b!"indent" = some (d, some d.length) := by
      have h1 : (b!"?indent=" ++ d).dropWhile notQm = b!"?indent=" ++ d := rfl
      unfold getParam
      rw [h1]
      show getParamLoop b!"indent" (_ + 1) (b!"indent=" ++ d) = _
      unfold getParamLoop
      rw [if_neg (by simp), if_pos ⟨rfl, rfl⟩]
      show some (d, some (d.takeWhile notAmp).length) = _
      rw [takeWhile_all' (digit_notAmp hd)]
    unfold sendJson
    rw [hg]
    dsimp only
    have hs := strtol_index hd (r := []) (by intro c hc; cases hc)
    rw [List.append_nil, if_neg (by unfold ctlLongMax; omega)] at hs
    rw [hs]
    dsimp only
    rw [if_neg]
    · simp
    · simp; omega

/-- `?key=K` -/
theorem sessionKey_query {k : Bytes} (hk : ∀ c ∈ k, c ≠ ch%'&') (hl : k.length ≤ 127) : sessionKey (b!"?key=" ++ k) = .ok (some k) := by
  have ha : ∀ c ∈ k, notAmp c = true := by intro c hc; simp [notAmp, hk c hc]
  have hg : getParam (b!"?key=" ++ k) b!"key" = some (k, some k.length) := by
    have h1 : (b!"?key=" ++ k).dropWhile notQm = b!"?key=" ++ k := rfl
    unfold getParam
    rw [h1]
    show getParamLoop b!"key" (_ + 1) (b!"key=" ++ k) = _
    unfold getParamLoop
    rw [if_neg (by simp), if_pos ⟨rfl, rfl⟩]
    show some (k, some (k.takeWhile notAmp).length) = _
    rw [takeWhile_all' ha]
  unfold sessionKey
  rw [hg]
  dsimp only
  rw [if_neg (by omega), List.take_length]

theorem sendJson_key {k : Bytes} (hk : ∀ c ∈ k, c ≠ ch%'&') (v : Shown) : sendJson v (b!"?key=" ++ k) = .ok ⟨.ok, some (v, 0)⟩ := by
  have ha : ∀ c ∈ b!"key=" ++ k, notAmp c = true := by
    intro c hc
    rcases List.mem_append.mp hc with hc | hc
    · exact (by decide : ∀ c ∈ b!"key=", notAmp c = true) c hc
    · simp [notAmp, hk c hc]
  have hg : getParam (b!"?key=" ++ k) b!"indent" = none := by
    have h1 : (b!"?key=" ++ k).dropWhile notQm = b!"?key=" ++ k := rfl
    unfold getParam
    rw [h1]
    show getParamLoop b!"indent" (_ + 1) (b!"key=" ++ k) = _
    unfold getParamLoop
    rw [if_neg (by simp), if_neg (by rintro ⟨h, -⟩; revert h; simp)]
    have : (b!"key=" ++ k).dropWhile notAmp = [] := by
      have h2 := (List.takeWhile_append_dropWhile (p := notAmp) (l := b!"key=" ++ k)).symm
      rw [takeWhile_all' ha] at h2
      exact List.self_eq_append_right.mp h2
    rw [this]
  unfold sendJson
  rw [hg]

end Pound
