import Verif.Proof.SvcBes

namespace Pound

open Spec

/-! ### Addresses -/

theorem colonParts_ne : ∀ s : Bytes, colonParts s ≠ []
  | [] => by simp [colonParts]
  | c :: t => by
    unfold colonParts
    split
    · simp
    · split <;> simp

/-- Empty groups that are counted, from a state of the loop on -/
def emptyCnt (cols digs : Nat) : List Bytes → Nat
  | [] => 0
  | [_] => 0
  | g :: gs => (if cols > 0 ∧ digs = 0 ∧ g = [] then 1 else 0) + gs.dropLast.countP (·.isEmpty)

theorem emptyCnt_zero (digs : Nat) (g : Bytes) (gs : List Bytes) : emptyCnt 0 digs (g :: gs) = gs.dropLast.countP (·.isEmpty) := by
  cases gs with
  | nil => rfl
  | cons a b => simp [emptyCnt]

theorem emptyCnt_succ (n : Nat) (x : Bytes) (r : List Bytes) : emptyCnt (n + 1) 0 (x :: r) = (x :: r).dropLast.countP (·.isEmpty) := by
  cases r with
  | nil => rfl
  | cons a b =>
    simp only [emptyCnt, List.dropLast_cons₂, List.countP_cons]
    cases x <;> simp <;> omega

theorem xdigit_128 : ∀ c : UInt8, c ≥ 128 → isXDigit c = false := by apply forall_byte; decide +kernel

theorem xdigit_colon : isXDigit ch%':' = false := by decide

theorem strIsIpv6_spec : ∀ (s : Bytes) (cols dcol digs : Nat), cols ≤ 7 → dcol ≤ 1 → digs ≤ 4 → ∀ (g : Bytes) (gs : List Bytes), colonParts s = g :: gs →
    (strIsIpv6 cols dcol digs s = true ↔ digs + g.length ≤ 4 ∧ (∀ c ∈ g, isXDigit c = true) ∧ (∀ x ∈ gs, x.length ≤ 4 ∧ ∀ c ∈ x, isXDigit c = true) ∧
      cols + gs.length ≤ 7 ∧ dcol + emptyCnt cols digs (g :: gs) ≤ 1 ∧ (cols + gs.length = 7 ∨ dcol + emptyCnt cols digs (g :: gs) = 1))
  | [], cols, dcol, digs, hc, hd, hg, g, gs, h => by
    simp only [colonParts, List.cons.injEq] at h
    obtain ⟨rfl, rfl⟩ := h
    simp only [strIsIpv6, emptyCnt, Bool.or_eq_true, beq_iff_eq, decide_eq_true_eq]
    constructor
    · intro h
      exact ⟨by simpa using hg, by simp, by simp, by simpa using hc, by omega, by simp; omega⟩
    · rintro ⟨_, _, _, _, _, h⟩
      simp at h
      omega
  | c :: t, cols, dcol, digs, hc, hd, hg, g, gs, h => by
    obtain ⟨x, r, hxr⟩ : ∃ x r, colonParts t = x :: r := by
      cases hp : colonParts t with
      | nil => exact absurd hp (colonParts_ne t)
      | cons x r => exact ⟨x, r, rfl⟩
    by_cases hcol : c = ch%':'
    · subst hcol
      have hg' : g = [] ∧ gs = x :: r := by
        simp only [colonParts, if_true, List.cons.injEq] at h
        exact ⟨h.1.symm, by rw [← h.2, hxr]⟩
      obtain ⟨rfl, rfl⟩ := hg'
      have hstep : strIsIpv6 cols dcol digs (ch%':' :: t) =
          (if (if cols > 0 ∧ digs = 0 then dcol + 1 else dcol) > 1 then false
           else if cols + 1 > 7 then false else strIsIpv6 (cols + 1) (if cols > 0 ∧ digs = 0 then dcol + 1 else dcol) 0 t) := by
        rw [strIsIpv6]
        rw [if_neg (by decide), xdigit_colon]
        rfl
      rw [hstep]
      have hE : dcol + emptyCnt cols digs ([] :: x :: r) = (if cols > 0 ∧ digs = 0 then dcol + 1 else dcol) + (x :: r).dropLast.countP (·.isEmpty) := by
        simp only [emptyCnt, and_true]
        split <;> omega
      rw [hE]
      generalize hd' : (if cols > 0 ∧ digs = 0 then dcol + 1 else dcol) = d'
      by_cases h1 : d' > 1
      · rw [if_pos h1]
        refine ⟨fun h => (by cases h), ?_⟩
        rintro ⟨_, _, _, _, h5, _⟩
        omega
      · rw [if_neg h1]
        by_cases h2 : cols + 1 > 7
        · rw [if_pos h2]
          refine ⟨fun h => (by cases h), ?_⟩
          rintro ⟨_, _, _, h4, _, _⟩
          simp only [List.length_cons] at h4
          omega
        · rw [if_neg h2, strIsIpv6_spec t (cols + 1) d' 0 (by omega) (by omega) (by omega) x r hxr, emptyCnt_succ]
          simp only [List.length_cons, List.length_nil, List.not_mem_nil, false_implies, implies_true, true_and, List.mem_cons, forall_eq_or_imp]
          constructor
          · rintro ⟨h1, h2, h3, h4, h5, h6⟩
            exact ⟨by omega, ⟨⟨by omega, h2⟩, h3⟩, by omega, h5, by omega⟩
          · rintro ⟨h1, ⟨⟨h2, h2'⟩, h3⟩, h4, h5, h6⟩
            exact ⟨by omega, h2', h3, by omega, h5, by omega⟩
    · have hg' : g = c :: x ∧ gs = r := by
        rw [colonParts, if_neg hcol, hxr] at h
        simp only [List.cons.injEq] at h
        exact ⟨h.1.symm, h.2.symm⟩
      obtain ⟨rfl, rfl⟩ := hg'
      rw [strIsIpv6]
      by_cases hx : isXDigit c = true
      · have h128 : ¬ c ≥ 128 := fun hge => by rw [xdigit_128 c hge] at hx; cases hx
        rw [if_neg h128, if_pos hx]
        have hE : emptyCnt cols digs ((c :: x) :: gs) = emptyCnt cols (digs + 1) (x :: gs) := by
          cases gs with
          | nil => rfl
          | cons a b => simp [emptyCnt]
        by_cases hdg : digs + 1 > 4
        · rw [if_pos hdg]
          refine ⟨fun h => (by cases h), ?_⟩
          rintro ⟨h1, _⟩
          simp only [List.length_cons] at h1
          omega
        · rw [if_neg hdg, strIsIpv6_spec t cols dcol (digs + 1) hc hd (by omega) x gs hxr, hE]
          simp only [List.length_cons, List.mem_cons, forall_eq_or_imp, hx, true_and]
          constructor
          · rintro ⟨h1, h2⟩; exact ⟨by omega, h2⟩
          · rintro ⟨h1, h2⟩; exact ⟨by omega, h2⟩
      · have : (if c ≥ 128 then false else if isXDigit c = true then if digs + 1 > 4 then false else strIsIpv6 cols dcol (digs + 1) t
            else if c = ch%':' then
              let dcol' := if cols > 0 ∧ digs = 0 then dcol + 1 else dcol
              if dcol' > 1 then false else if cols + 1 > 7 then false else strIsIpv6 (cols + 1) dcol' 0 t
            else false) = false := by
          rw [if_neg hx, if_neg hcol]
          split <;> rfl
        rw [this]
        refine ⟨fun h => (by cases h), ?_⟩
        rintro ⟨_, h2, _⟩
        exact absurd (h2 c (by simp)) hx

/-- str_is_ip recognizes these texts and no others. -/
theorem strIsIp_spec (h : Bytes) : strIsIp 0 h = true ↔ Ip6 h := by
  have digitx : ∀ c : UInt8, isDigit c = true → isXDigit c = true := by apply forall_byte; decide +kernel
  cases h with
  | nil =>
    refine ⟨fun h => (by cases h), fun h => ?_⟩
    obtain ⟨c, t, h1, _⟩ := h.start
    cases h1
  | cons c t =>
    by_cases hx : isXDigit c = true
    · have h128 : ¬ c ≥ 128 := fun hge => by rw [xdigit_128 c hge] at hx; cases hx
      obtain ⟨g, gs, hg⟩ : ∃ g gs, colonParts (c :: t) = g :: gs := by
        cases hp : colonParts (c :: t) with
        | nil => exact absurd hp (colonParts_ne _)
        | cons x r => exact ⟨x, r, rfl⟩
      have hs : strIsIp 0 (c :: t) = strIsIpv6 0 0 0 (c :: t) := by rw [strIsIp, if_neg h128, if_pos hx]
      rw [hs, strIsIpv6_spec _ 0 0 0 (by omega) (by omega) (by omega) g gs hg, emptyCnt_zero]
      constructor
      · rintro ⟨h1, h2, h3, h4, h5, h6⟩
        refine ⟨⟨c, t, rfl, hx⟩, ?_, ?_, ?_, ?_⟩
        · rw [hg]
          intro y hy
          rcases List.mem_cons.mp hy with rfl | hy
          · exact ⟨by omega, h2⟩
          · exact h3 y hy
        · rw [hg]; simp only [List.length_cons]; omega
        · rw [hg]; simp only [List.tail_cons]; omega
        · rw [hg]; simp only [List.length_cons, List.tail_cons]; omega
      · rintro ⟨_, h2, h3, h4, h5⟩
        rw [hg] at h2 h3 h4 h5
        simp only [List.length_cons, List.tail_cons] at h3 h4 h5
        have h0 := h2 g (by simp)
        exact ⟨by omega, h0.2, fun y hy => h2 y (by simp [hy]), by omega, by omega, by omega⟩
    · have hf : strIsIp 0 (c :: t) = false := by
        rw [strIsIp]
        have hd : ¬ isDigit c = true := fun hd => hx (digitx c hd)
        rw [if_neg hx, if_neg hd]
        split
        · rfl
        · split
          · rename_i h0
            subst h0
            rfl
          · rfl
      rw [hf]
      refine ⟨fun h => (by cases h), fun h => ?_⟩
      obtain ⟨c', t', h1, h2⟩ := h.start
      cases h1
      exact absurd h2 hx

/-- Texts without two colons are not recognized: neither names nor addresses of version 4. -/
theorem not_ip6 {h : Bytes} (hc : ch%':' ∉ h) : ¬ Ip6 h := by
  have key : ∀ h : Bytes, ch%':' ∉ h → colonParts h = [h] := by
    intro h
    induction h with
    | nil => intro _; rfl
    | cons c t ih =>
      intro hc
      simp only [List.mem_cons, not_or] at hc
      rw [colonParts, if_neg (fun he => hc.1 he.symm), ih hc.2]
  intro h6
  have := h6.full
  rw [key h hc] at this
  simp at this

/-! ### Declarations -/

theorem isPath_head {h : Bytes} : IsPath h ↔ h.head? = some ch%'/' := by
  unfold IsPath
  cases h with
  | nil => simp
  | cons c t => simp

theorem matrixFinalize_spec (e : FinEnv) (m : Mtx) (v : FBeV) : matrixFinalize e m = some v ↔ BeFinal e m v := by
  unfold matrixFinalize
  cases hh : m.host with
  | none =>
    refine ⟨fun h => (by cases h), fun h => ?_⟩
    cases h with
    | host h1 => rw [hh] at h1; cases h1
    | socket h1 => rw [hh] at h1; cases h1
    | dynamic h1 => rw [hh] at h1; cases h1
  | some h =>
    dsimp only
    have hp := isPath_head (h := h)
    have hi := strIsIp_spec h
    have hport : (if m.port = 0 then (if m.ctx.isNone then 80 else 443) else m.port) = bePort m := by
      unfold bePort
      cases m.ctx <;> simp
    rw [hport]
    by_cases hpp : m.port ≠ 0 ∧ h.head? = some ch%'/'
    · rw [if_pos hpp]
      refine ⟨fun h => (by cases h), fun hf => ?_⟩
      cases hf with
      | host h1 h2 => rw [hh] at h1; cases h1; exact absurd (h2 (hp.mpr hpp.2)) hpp.1
      | socket h1 h2 => rw [hh] at h1; cases h1; exact absurd (h2 (hp.mpr hpp.2)) hpp.1
      | dynamic h1 h2 => rw [hh] at h1; cases h1; exact absurd (hp.mpr hpp.2) h2
    · rw [if_neg hpp]
      have hpp' : IsPath h → m.port = 0 := by
        intro h1
        by_cases h0 : m.port = 0
        · exact h0
        · exact absurd ⟨h0, hp.mp h1⟩ hpp
      by_cases him : IsPath h ∨ Ip6 h ∨ m.resolve = .immediate
      · have hr : (if h.head? = some ch%'/' ∨ strIsIp 0 h = true then ResolveMode.immediate else m.resolve) = .immediate := by
          rcases him with h1 | h1 | h1
          · rw [if_pos (Or.inl (hp.mp h1))]
          · rw [if_pos (Or.inr (hi.mpr h1))]
          · rw [h1]; split <;> rfl
        rw [hr, if_pos rfl]
        unfold backendResolve
        dsimp only
        cases ha : e.host h m.family with
        | some a =>
          dsimp only
          rw [Option.some.injEq]
          constructor
          · rintro rfl; exact .host hh hpp' him ha
          · intro hf
            cases hf with
            | host h1 _ _ h4 => rw [hh] at h1; cases h1; rw [ha] at h4; cases h4; rfl
            | socket h1 _ _ h4 => rw [hh] at h1; cases h1; rw [ha] at h4; cases h4
            | dynamic h1 h2 h3 h4 => rw [hh] at h1; cases h1; rcases him with h | h | h
                                     · exact absurd h h2
                                     · exact absurd h h3
                                     · exact absurd h h4
        | none =>
          dsimp only
          have hu : unixPathMax = 108 := rfl
          rw [hu]
          by_cases hl : h.length > 108
          · rw [if_pos hl]
            refine ⟨fun h => (by cases h), fun hf => ?_⟩
            cases hf with
            | host h1 _ _ h4 => rw [hh] at h1; cases h1; rw [ha] at h4; cases h4
            | socket h1 _ _ h4 h5 => rw [hh] at h1; cases h1; omega
            | dynamic h1 h2 h3 h4 => rw [hh] at h1; cases h1; rcases him with h | h | h
                                     · exact absurd h h2
                                     · exact absurd h h3
                                     · exact absurd h h4
          · rw [if_neg hl, Option.some.injEq]
            constructor
            · rintro rfl; exact .socket hh hpp' him ha (by omega)
            · intro hf
              cases hf with
              | host h1 _ _ h4 => rw [hh] at h1; cases h1; rw [ha] at h4; cases h4
              | socket h1 _ _ h4 => rw [hh] at h1; cases h1; rfl
              | dynamic h1 h2 h3 h4 => rw [hh] at h1; cases h1; rcases him with h | h | h
                                       · exact absurd h h2
                                       · exact absurd h h3
                                       · exact absurd h h4
      · simp only [not_or] at him
        have hr : (if h.head? = some ch%'/' ∨ strIsIp 0 h = true then ResolveMode.immediate else m.resolve) = m.resolve := by
          rw [if_neg]
          rintro (h1 | h1)
          · exact him.1 (hp.mpr h1)
          · exact him.2.1 (hi.mp h1)
        rw [hr, if_neg him.2.2]
        cases hd : e.dns with
        | false =>
          simp only [Bool.false_eq_true, if_false]
          refine ⟨fun h => (by cases h), fun hf => ?_⟩
          cases hf with
          | host h1 _ h3 _ => rw [hh] at h1; cases h1; rcases h3 with h | h | h
                              · exact absurd h him.1
                              · exact absurd h him.2.1
                              · exact absurd h him.2.2
          | socket h1 _ h3 _ _ => rw [hh] at h1; cases h1; rcases h3 with h | h | h
                                  · exact absurd h him.1
                                  · exact absurd h him.2.1
                                  · exact absurd h him.2.2
          | dynamic _ _ _ _ h5 => rw [hd] at h5; cases h5
        | true =>
          simp only [if_true, Option.some.injEq]
          have hself : { m with host := some h, resolve := m.resolve, port := bePort m } = { m with port := bePort m } := by rw [← hh]
          constructor
          · rintro rfl
            rw [hself]
            exact .dynamic hh him.1 him.2.1 him.2.2 hd
          · intro hf
            cases hf with
            | host h1 _ h3 _ => rw [hh] at h1; cases h1; rcases h3 with h | h | h
                                · exact absurd h him.1
                                · exact absurd h him.2.1
                                · exact absurd h him.2.2
            | socket h1 _ h3 _ _ => rw [hh] at h1; cases h1; rcases h3 with h | h | h
                                    · exact absurd h him.1
                                    · exact absurd h him.2.1
                                    · exact absurd h him.2.2
            | dynamic h1 _ _ _ _ => exact congrArg FBeV.matrix hself

theorem namedGet_spec {tab : List NamedBe} (hn : (tab.map (·.name)).Nodup) {name : Bytes} {nb : NamedBe} :
    namedGet tab name = some nb ↔ nb ∈ tab ∧ nb.name = name := by
  unfold namedGet
  induction tab with
  | nil => simp
  | cons x t ih =>
    simp only [List.map_cons, List.nodup_cons, List.mem_map, not_exists, not_and] at hn
    rw [List.find?_cons]
    by_cases hx : x.name = name
    · have : (x.name == name) = true := by simpa using hx
      rw [this]
      simp only [Option.some.injEq, List.mem_cons]
      constructor
      · rintro rfl; exact ⟨Or.inl rfl, hx⟩
      · rintro ⟨rfl | h, h2⟩
        · rfl
        · exact absurd (h2.trans hx.symm) (hn.1 nb h)
    · have : (x.name == name) = false := by simpa using hx
      rw [this]
      dsimp only
      rw [ih hn.2]
      constructor
      · rintro ⟨h1, h2⟩; exact ⟨List.mem_cons_of_mem _ h1, h2⟩
      · rintro ⟨h1, h2⟩
        rcases List.mem_cons.mp h1 with rfl | h1
        · exact absurd h2 hx
        · exact ⟨h1, h2⟩

theorem priMax_min (p : Int) : (if p > priMax then priMax else p) = min p 65535 := by
  unfold priMax
  split <;> omega

/-- A statement of a service -/
theorem backendFinalize_spec (e : FinEnv) (tab : List NamedBe) (ht : NamedOk tab) (b : BeDecl) : ∃ x, backendFinalize e tab b = .ok x ∧
    ∀ f, (∃ f0, x = some f0 ∧ f = { f0 with prio := if f0.prio > priMax then priMax else f0.prio }) ↔ DeclFinal e tab b f := by
  obtain ⟨p, d, v⟩ := b
  cases v with
  | mtx m =>
    refine ⟨_, rfl, fun f => ?_⟩
    constructor
    · rintro ⟨f0, h1, rfl⟩
      obtain ⟨w, hw, rfl⟩ := Option.map_eq_some_iff.mp h1
      dsimp only
      rw [priMax_min]
      exact .own ((matrixFinalize_spec e m w).mp hw)
    · intro h
      cases h with
      | own h =>
        refine ⟨_, Option.map_eq_some_iff.mpr ⟨_, (matrixFinalize_spec e m _).mpr h, rfl⟩, ?_⟩
        dsimp only
        rw [priMax_min]
  | ref name =>
    cases hg : namedGet tab name with
    | none =>
      refine ⟨none, by simp only [backendFinalize, hg], fun f => ?_⟩
      constructor
      · rintro ⟨f0, h1, _⟩; cases h1
      · intro h
        cases h with
        | @ref _ _ nb _ h1 h2 =>
          rw [(namedGet_spec ht.distinct).mpr ⟨h1, rfl⟩] at hg
          cases hg
    | some nb =>
      have hm := (namedGet_spec ht.distinct).mp hg
      refine ⟨_, by simp only [backendFinalize, hg]; rw [if_neg (ht.addr nb hm.1)], fun f => ?_⟩
      constructor
      · rintro ⟨f0, h1, rfl⟩
        obtain ⟨w, hw, rfl⟩ := Option.map_eq_some_iff.mp h1
        dsimp only
        rw [priMax_min, ← hm.2]
        exact .ref hm.1 ((matrixFinalize_spec e nb.m w).mp hw)
      · intro h
        cases h with
        | @ref _ _ nb' w h1 h2 =>
          have := (namedGet_spec ht.distinct).mpr ⟨h1, rfl⟩
          rw [hg] at this
          cases this
          refine ⟨_, Option.map_eq_some_iff.mpr ⟨_, (matrixFinalize_spec e nb.m _).mpr h2, rfl⟩, ?_⟩
          dsimp only
          rw [priMax_min]
  | redirect c u k =>
    refine ⟨_, rfl, fun f => ?_⟩
    constructor
    · rintro ⟨f0, h1, rfl⟩
      cases h1
      dsimp only
      rw [priMax_min]
      exact .redirect
    · intro h
      cases h
      refine ⟨_, rfl, ?_⟩
      dsimp only
      rw [priMax_min]
  | error c u =>
    refine ⟨_, rfl, fun f => ?_⟩
    constructor
    · rintro ⟨f0, h1, rfl⟩
      cases h1
      dsimp only
      rw [priMax_min]
      exact .error
    · intro h
      cases h
      refine ⟨_, rfl, ?_⟩
      dsimp only
      rw [priMax_min]
  | control =>
    refine ⟨_, rfl, fun f => ?_⟩
    constructor
    · rintro ⟨f0, h1, rfl⟩
      cases h1
      dsimp only
      rw [priMax_min]
      exact .control
    · intro h
      cases h
      refine ⟨_, rfl, ?_⟩
      dsimp only
      rw [priMax_min]
  | metrics =>
    refine ⟨_, rfl, fun f => ?_⟩
    constructor
    · rintro ⟨f0, h1, rfl⟩
      cases h1
      dsimp only
      rw [priMax_min]
      exact .metrics
    · intro h
      cases h
      refine ⟨_, rfl, ?_⟩
      dsimp only
      rw [priMax_min]

theorem setupGroup_spec (e : FinEnv) (tab : List NamedBe) (ht : NamedOk tab) : ∀ (l : List BeDecl), ∃ x, setupGroup e tab l = .ok x ∧
    ∀ fs, x = some fs ↔ Each (DeclFinal e tab) l fs
  | [] => by
    refine ⟨some [], rfl, fun fs => ?_⟩
    constructor
    · intro h; cases h; exact .nil
    · intro h; cases h; rfl
  | b :: t => by
    obtain ⟨x, hx, hx'⟩ := backendFinalize_spec e tab ht b
    obtain ⟨y, hy, hy'⟩ := setupGroup_spec e tab ht t
    rw [setupGroup, hx]
    dsimp only
    rw [hy]
    dsimp only
    cases x with
    | none =>
      refine ⟨none, rfl, fun fs => ⟨fun h => (by cases h), fun h => ?_⟩⟩
      cases h with
      | cons h1 h2 =>
        obtain ⟨f0, h3, _⟩ := (hx' _).mpr h1
        cases h3
    | some f0 =>
      cases y with
      | none =>
        refine ⟨none, rfl, fun fs => ⟨fun h => (by cases h), fun h => ?_⟩⟩
        cases h with
        | cons h1 h2 => have := (hy' _).mpr h2; cases this
      | some l0 =>
        refine ⟨_, rfl, fun fs => ?_⟩
        constructor
        · intro h
          cases h
          exact .cons ((hx' _).mp ⟨f0, rfl, rfl⟩) ((hy' _).mp rfl)
        · intro h
          cases h with
          | cons h1 h2 =>
            obtain ⟨f1, h3, rfl⟩ := (hx' _).mpr h1
            cases h3
            have := (hy' _).mpr h2
            cases this
            rfl

theorem sole_alone {b : FBe} : b.sole = true ↔ Alone b := by
  obtain ⟨p, d, v⟩ := b
  unfold FBe.sole Alone
  cases v <;> simp

theorem serviceFinalize_spec (e : FinEnv) (tab : List NamedBe) (ht : NamedOk tab) : ∀ (gs : List CGrp), ∃ x, serviceFinalize e tab gs = .ok x ∧
    ∀ fs, x = some fs ↔ Each (GroupFinal e tab) gs fs
  | [] => by
    refine ⟨some [], rfl, fun fs => ?_⟩
    constructor
    · intro h; cases h; exact .nil
    · intro h; cases h; rfl
  | g :: t => by
    obtain ⟨x, hx, hx'⟩ := setupGroup_spec e tab ht g.bes
    obtain ⟨y, hy, hy'⟩ := serviceFinalize_spec e tab ht t
    rw [serviceFinalize, hx]
    cases x with
    | none =>
      refine ⟨none, rfl, fun fs => ⟨fun h => (by cases h), fun h => ?_⟩⟩
      cases h with
      | cons h1 h2 => have := (hx' _).mpr h1.bes; cases this
    | some l =>
      dsimp only
      by_cases hl : l.length > 1 ∧ l.any FBe.sole = true
      · rw [if_pos hl]
        refine ⟨none, rfl, fun fs => ⟨fun h => (by cases h), fun h => ?_⟩⟩
        cases h with
        | @cons _ f _ _ h1 h2 =>
          have := (hx' _).mpr h1.bes
          cases this
          obtain ⟨b, hb, hs⟩ := List.any_eq_true.mp hl.2
          have := h1.alone b hb (sole_alone.mp hs)
          rw [this] at hl
          simp at hl
      · rw [if_neg hl, hy]
        have hal : ∀ b ∈ l, Alone b → l = [b] := by
          intro b hb ha
          have hlen : ¬ l.length > 1 := fun h1 => hl ⟨h1, List.any_eq_true.mpr ⟨b, hb, sole_alone.mpr ha⟩⟩
          match l, hb, hlen with
          | [c], hb, _ => rw [List.mem_singleton] at hb; rw [hb]
          | _ :: _ :: _, _, hlen => simp at hlen
        cases y with
        | none =>
          refine ⟨none, rfl, fun fs => ⟨fun h => (by cases h), fun h => ?_⟩⟩
          cases h with
          | cons h1 h2 => have := (hy' _).mpr h2; cases this
        | some r =>
          refine ⟨_, rfl, fun fs => ?_⟩
          constructor
          · intro h
            cases h
            exact .cons ⟨rfl, (hx' _).mp rfl, hal⟩ ((hy' _).mp rfl)
          · intro h
            cases h with
            | @cons _ f _ _ h1 h2 =>
              have h3 := (hx' _).mpr h1.bes
              have h4 := (hy' _).mpr h2
              have h5 := h1.weight
              obtain ⟨w, bs⟩ := f
              cases h3
              cases h4
              dsimp only at h5
              rw [h5]

/-! ### Balancers -/

theorem numberBes_length (i : Nat) (l : List FBe) : (numberBes i l).length = l.length := by
  induction l generalizing i with
  | nil => rfl
  | cons b t ih => simp [numberBes, ih]

theorem be_id (i : Nat) (b : FBe) : (b.be i).id = i := by
  unfold FBe.be
  split <;> rfl

theorem be_prio (i : Nat) (b : FBe) : (b.be i).prio = b.prio.toNat := by
  unfold FBe.be
  split <;> rfl

theorem numberBes_ids (i : Nat) (l : List FBe) : (numberBes i l).map (·.id) = List.range' i l.length := by
  induction l generalizing i with
  | nil => rfl
  | cons b t ih => simp [numberBes, ih, be_id, List.range'_succ]

theorem numberBes_prio {i : Nat} {l : List FBe} (h : ∀ b ∈ l, 1 ≤ b.prio ∧ b.prio ≤ 65535) : ∀ x ∈ numberBes i l, 1 ≤ x.prio ∧ x.prio ≤ 65535 := by
  induction l generalizing i with
  | nil => intro x hx; cases hx
  | cons b t ih =>
    intro x hx
    rcases List.mem_cons.mp hx with rfl | hx
    · rw [be_prio]
      have := h b (by simp)
      omega
    · exact ih (fun c hc => h c (by simp [hc])) x hx

theorem sum_le (l : List Be) (h : ∀ x ∈ l, x.prio ≤ 65535) : (l.map (·.prio)).sum ≤ 65535 * l.length := by
  induction l with
  | nil => simp
  | cons b t ih =>
    have := ih fun c hc => h c (by simp [hc])
    have := h b (by simp)
    simp only [List.map_cons, List.sum_cons, List.length_cons]
    omega

theorem recomputeLoop_keep : ∀ (l : List Be) (bal : Bal), (∀ x ∈ l, x.prio ≤ 65535) → bal.sumPri + (l.map (·.prio)).sum ≤ longMax → (recomputeLoop id bal l).2 = l
  | [], bal, _, _ => rfl
  | b :: t, bal, hp, hs => by
    simp only [List.map_cons, List.sum_cons] at hs
    have hb := hp b (by simp)
    unfold recomputeLoop
    dsimp only [id]
    split
    · have hu : (bal.priUpdate b).2 = false ∧ (bal.priUpdate b).1.sumPri ≤ bal.sumPri + b.prio := by
        unfold Bal.priUpdate intMax
        cases bal.algo with
        | random =>
          dsimp only
          rw [if_neg (by omega)]
          exact ⟨rfl, Nat.le_refl _⟩
        | iwrr =>
          dsimp only
          rw [if_neg (by omega)]
          split <;> exact ⟨rfl, by simp⟩
      rw [hu.1]
      simp only [Bool.false_eq_true, if_false]
      rw [recomputeLoop_keep t _ (fun c hc => hp c (by simp [hc])) (by dsimp only; omega)]
    · dsimp only
      rw [recomputeLoop_keep t bal (fun c hc => hp c (by simp [hc])) (by omega)]

/-- A balancer after finalizing -/
theorem finalBal_spec (algo : Algo) (i : Nat) (g : FGrp) (hp : ∀ b ∈ g.bes, 1 ≤ b.prio ∧ b.prio ≤ 65535) (hl : g.bes.length ≤ 2 ^ 47) :
    (finalBal algo i g).backends = numberBes i g.bes ∧ (finalBal algo i g).weight = g.weight ∧ (finalBal algo i g).algo = algo ∧
      Totals (finalBal algo i g) ∧ CursorOk (finalBal algo i g) := by
  have hs := recompute_spec id ⟨algo, g.weight, 0, numberBes i g.bes, 0, 0, 0, none⟩
  have hbk : (Bal.recompute id ⟨algo, g.weight, 0, numberBes i g.bes, 0, 0, 0, none⟩).backends = numberBes i g.bes := by
    unfold Bal.recompute
    dsimp only
    apply recomputeLoop_keep
    · exact fun x hx => (numberBes_prio hp x hx).2
    · have h1 := sum_le (numberBes i g.bes) fun x hx => (numberBes_prio hp x hx).2
      rw [numberBes_length] at h1
      have h2 : (Bal.priInit ⟨algo, g.weight, 0, numberBes i g.bes, 0, 0, 0, none⟩).sumPri = 0 := by
        cases algo <;> rfl
      rw [h2]
      unfold longMax
      have : 65535 * g.bes.length ≤ 65535 * 2 ^ 47 := Nat.mul_le_mul_left _ hl
      omega
  obtain ⟨hf, ht⟩ := hs
  obtain ⟨f1, f2, f3, f4⟩ := hf
  cases algo with
  | random =>
    refine ⟨hbk, f2.symm, f1.symm, ht, ?_⟩
    intro j hj
    have : (finalBal .random i g).cur = none := f4.symm
    rw [this] at hj
    cases hj
  | iwrr =>
    refine ⟨hbk, f2.symm, f1.symm, ⟨ht.count, ht.sum, ht.max⟩, ?_⟩
    intro j hj
    unfold finalBal Bal.iwrrInit at hj ⊢
    dsimp only at hj ⊢
    rw [hbk] at hj ⊢
    cases hn : numberBes i g.bes with
    | nil => rw [hn] at hj; cases hj
    | cons x t =>
      rw [hn] at hj
      simp at hj
      subst hj
      simp

theorem finalBals_spec (algo : Algo) : ∀ (i : Nat) (fs : List FGrp), (∀ g ∈ fs, g.bes ≠ [] ∧ g.bes.length ≤ 2 ^ 47 ∧ ∀ b ∈ g.bes, 1 ≤ b.prio ∧ b.prio ≤ 65535) →
    ((finalBals algo i fs).flatMap (·.backends)).map (·.id) = List.range' i ((fs.map fun g => g.bes.length).sum) ∧
    (finalBals algo i fs).map (·.weight) = fs.map (fun g => (g.weight : Int)) ∧
    ∀ bal ∈ finalBals algo i fs, bal.algo = algo ∧ Totals bal ∧ CursorOk bal ∧ bal.backends ≠ [] ∧ (∀ b ∈ bal.backends, 1 ≤ b.prio ∧ b.prio ≤ 65535) ∧
      (bal.backends.map (·.prio)).sum < 2 ^ 63
  | i, [], _ => ⟨rfl, rfl, fun bal h => by cases h⟩
  | i, g :: t, h => by
    obtain ⟨h1, h2, h3⟩ := finalBals_spec algo (i + g.bes.length) t fun x hx => h x (by simp [hx])
    obtain ⟨g1, g2, g3⟩ := h g (by simp)
    obtain ⟨b1, b2, b3, b4, b5⟩ := finalBal_spec algo i g g3 g2
    refine ⟨?_, ?_, ?_⟩
    · rw [finalBals, List.flatMap_cons, List.map_append, b1, numberBes_ids, h1]
      simp only [List.map_cons, List.sum_cons]
      rw [List.range'_append_1]
    · rw [finalBals, List.map_cons, List.map_cons, b2, h2]
    · intro bal hb
      rw [finalBals] at hb
      rcases List.mem_cons.mp hb with rfl | hb
      · refine ⟨b3, b4, b5, ?_, ?_, ?_⟩
        · rw [b1]
          intro hn
          have := numberBes_length i g.bes
          rw [hn] at this
          exact g1 (List.length_eq_zero_iff.mp this.symm)
        · rw [b1]; exact numberBes_prio g3
        · rw [b1]
          have h1 := sum_le (numberBes i g.bes) fun x hx => (numberBes_prio g3 x hx).2
          rw [numberBes_length] at h1
          have : 65535 * g.bes.length ≤ 65535 * 2 ^ 47 := Nat.mul_le_mul_left _ g2
          omega
      · exact h3 bal hb

theorem numberBes_members (i : Nat) (l : List FBe) (h : ∀ b ∈ l, 1 ≤ b.prio ∧ b.prio ≤ 65535) :
    (numberBes i l).map (fun x => ((x.prio : Int), x.isActive)) = l.map fun b => (b.prio, readyAtStart b) := by
  induction l generalizing i with
  | nil => rfl
  | cons b t ih =>
    rw [numberBes, List.map_cons, List.map_cons, ih _ fun c hc => h c (by simp [hc]), be_prio]
    have hb := h b (by simp)
    have h1 : ((b.prio.toNat : Nat) : Int) = b.prio := by omega
    have h2 : (b.be i).isActive = readyAtStart b := by
      unfold FBe.be readyAtStart
      cases b.v <;> simp [Be.isActive, Be.isAlive]
    rw [h1, h2]

theorem finalBals_members (algo : Algo) : ∀ (i : Nat) (fs : List FGrp), (∀ g ∈ fs, g.bes.length ≤ 2 ^ 47 ∧ ∀ b ∈ g.bes, 1 ≤ b.prio ∧ b.prio ≤ 65535) →
    (finalBals algo i fs).map (fun bal => (bal.weight, bal.backends.map fun x => ((x.prio : Int), x.isActive))) =
      fs.map fun g => ((g.weight : Int), g.bes.map fun b => (b.prio, readyAtStart b))
  | i, [], _ => rfl
  | i, g :: t, h => by
    obtain ⟨g2, g3⟩ := h g (by simp)
    obtain ⟨b1, b2, -⟩ := finalBal_spec algo i g g3 g2
    rw [finalBals, List.map_cons, List.map_cons, finalBals_members algo _ t fun x hx => h x (by simp [hx]), b1, b2, numberBes_members i g.bes g3]

/-- Priorities of declarations that were read: 1 or more, or that of the named backend -/
def PrioOk (b : BeDecl) : Prop := 1 ≤ b.prio ∨ b.prio = -1 ∧ ∃ n, b.v = .ref n

theorem lastOr_mem {α : Type} (d : α) (l : List α) : lastOr d l = d ∨ lastOr d l ∈ l := by
  unfold lastOr
  cases h : l.getLast? with
  | none => exact Or.inl rfl
  | some x => exact Or.inr (List.mem_of_getLast? h)

theorem items_prio {e : BeEnv} {t : List Tok} {l : List BeSetting} (h : Items (BeLine e) t l) : ∀ v ∈ l.filterMap prioSet, 1 ≤ v := by
  induction h with
  | stop _ => intro v hv; cases hv
  | blank _ ih => exact ih
  | @item a t x l hx _ ih =>
    intro v hv
    rw [List.filterMap_cons] at hv
    cases hx with
    | prio _ _ hp =>
      simp only [prioSet, List.mem_cons] at hv
      rcases hv with rfl | hv
      · exact hp
      · exact ih v hv
    | _ => exact ih v hv

theorem refItems_prio {e : BeEnv} {t : List Tok} {l : List BeSetting} (h : Items (RefLine e) t l) : ∀ v ∈ l.filterMap prioSet, 1 ≤ v := by
  have : Items (BeLine e) t l := by
    induction h with
    | stop h => exact .stop h
    | blank _ ih => exact .blank ih
    | item hx _ ih => exact .item (by cases hx <;> assumption) ih
  exact items_prio this

theorem beSection_prio {e : BeEnv} {d : BeDfl} {t : List Tok} {b : BeSt} (h : BeSection e d t b) : 1 ≤ b.prio := by
  obtain ⟨l, hl, _, hm⟩ := h
  rw [hm.prio]
  rcases lastOr_mem 5 (l.filterMap prioSet) with h | h
  · rw [h]; decide
  · exact items_prio hl _ h

theorem svcItems_prio {e : BeEnv} {d : BeDfl} {t : List Tok} {l : List SvcItem} (h : Items (SvcBeLine e d) t l) :
    (∀ b ∈ l.filterMap normalOf, PrioOk b) ∧ ∀ b ∈ l.filterMap emergencyOf, PrioOk b := by
  induction h with
  | stop _ => exact ⟨fun b hb => (by cases hb), fun b hb => (by cases hb)⟩
  | blank _ ih => exact ih
  | @item a t x l hx _ ih =>
    rw [List.filterMap_cons, List.filterMap_cons]
    have key : (∀ b, normalOf x = some b → PrioOk b) ∧ ∀ b, emergencyOf x = some b → PrioOk b := by
      cases hx with
      | backend _ hb => exact ⟨fun b h => (by cases h; exact Or.inl (beSection_prio hb)), fun b h => (by cases h)⟩
      | @ref _ _ _ l' _ hl =>
        refine ⟨fun b h => ?_, fun b h => (by cases h)⟩
        cases h
        rcases lastOr_mem (-1) (l'.filterMap prioSet) with h | h
        · exact Or.inr ⟨h, _, rfl⟩
        · exact Or.inl (refItems_prio hl _ h)
      | emergency _ hb => exact ⟨fun b h => (by cases h), fun b h => (by cases h; exact Or.inl (beSection_prio hb))⟩
      | balancer => exact ⟨fun b h => (by cases h), fun b h => (by cases h)⟩
      | use => exact ⟨fun b h => (by cases h; exact Or.inl (show (1 : Int) ≤ 5 by decide)), fun b h => (by cases h)⟩
      | _ => exact ⟨fun b h => (by cases h; exact Or.inl (Int.le_refl _)), fun b h => (by cases h)⟩
    constructor
    · intro b hb
      cases hn : normalOf x with
      | none => rw [hn] at hb; exact ih.1 b hb
      | some y =>
        rw [hn] at hb
        rcases List.mem_cons.mp hb with rfl | hb
        · exact key.1 _ hn
        · exact ih.1 b hb
    · intro b hb
      cases hn : emergencyOf x with
      | none => rw [hn] at hb; exact ih.2 b hb
      | some y =>
        rw [hn] at hb
        rcases List.mem_cons.mp hb with rfl | hb
        · exact key.2 _ hn
        · exact ih.2 b hb

theorem each_length {α β : Type} {R : α → β → Prop} {l : List α} {l' : List β} (h : Each R l l') : l.length = l'.length := by
  induction h with
  | nil => rfl
  | cons _ _ ih => simp [ih]

theorem each_mem {α β : Type} {R : α → β → Prop} {l : List α} {l' : List β} (h : Each R l l') : ∀ b ∈ l', ∃ a ∈ l, R a b := by
  induction h with
  | nil => intro b hb; cases hb
  | cons h _ ih =>
    intro b hb
    rcases List.mem_cons.mp hb with rfl | hb
    · exact ⟨_, List.mem_cons_self .., h⟩
    · obtain ⟨a, h1, h2⟩ := ih b hb
      exact ⟨a, List.mem_cons_of_mem _ h1, h2⟩

theorem declFinal_prio {e : FinEnv} {tab : List NamedBe} (ht : ∀ nb ∈ tab, 1 ≤ nb.prio) {b : BeDecl} {f : FBe} (hb : PrioOk b) (h : DeclFinal e tab b f) :
    1 ≤ f.prio ∧ f.prio ≤ 65535 := by
  cases h with
  | @ref p d nb v h1 h2 =>
    dsimp only
    rcases hb with hb | ⟨hb, _⟩
    · dsimp only at hb
      rw [if_neg (by omega)]
      omega
    · dsimp only at hb
      rw [if_pos hb]
      have := ht nb h1
      omega
  | _ =>
    rcases hb with hb | ⟨_, n, hb⟩
    · dsimp only at hb ⊢; omega
    · cases hb

/-- What a service is made of after reading and finalizing -/
theorem final_groups {e : BeEnv} {d : BeDfl} {dfl : Algo} {t : List Tok} {l : List SvcItem} {s : SvcBes} (hl : Items (SvcBeLine e d) t l) (hs : SvcMeans dfl l s)
    {fe : FinEnv} {tab : List NamedBe} (hp : ∀ nb ∈ tab, 1 ≤ nb.prio) {fs : List FGrp} (hf : Each (GroupFinal fe tab) s.groups fs) :
    (∀ g ∈ fs, g.bes ≠ [] ∧ ∀ b ∈ g.bes, 1 ≤ b.prio ∧ b.prio ≤ 65535) ∧ fs.Pairwise fun a b => a.weight < b.weight := by
  have hpr := svcItems_prio hl
  have hg : ∀ c ∈ s.groups, c.bes ≠ [] ∧ ∀ b ∈ c.bes, PrioOk b := by
    rw [hs.groups]
    unfold groupOf
    intro c hc
    rcases List.mem_append.mp hc with hc | hc
    · split at hc
      · cases hc
      · rename_i hn
        rw [List.mem_singleton] at hc
        subst hc
        exact ⟨hn, hpr.1⟩
    · split at hc
      · cases hc
      · rename_i hn
        rw [List.mem_singleton] at hc
        subst hc
        exact ⟨hn, hpr.2⟩
  constructor
  · intro g hgm
    obtain ⟨c, hc, hgf⟩ := each_mem hf g hgm
    obtain ⟨h1, h2⟩ := hg c hc
    constructor
    · intro hn
      have := each_length hgf.bes
      rw [hn] at this
      exact h1 (List.length_eq_zero_iff.mp this)
    · intro b hb
      obtain ⟨a, ha, hd⟩ := each_mem hgf.bes b hb
      exact declFinal_prio hp (h2 a ha) hd
  · have hw : s.groups.Pairwise fun a b => a.weight < b.weight := by
      rw [hs.groups]
      unfold groupOf
      split <;> split <;> simp
    have gen : ∀ {gs : List CGrp} {fs : List FGrp}, Each (GroupFinal fe tab) gs fs → (gs.Pairwise fun a b => a.weight < b.weight) →
        fs.Pairwise fun a b => a.weight < b.weight := by
      intro gs fs h
      induction h with
      | nil => intro _; exact .nil
      | cons h1 h2 ih =>
        intro hw
        rw [List.pairwise_cons] at hw ⊢
        refine ⟨fun x hx => ?_, ih hw.2⟩
        obtain ⟨c, hc, hcf⟩ := each_mem h2 x hx
        rw [h1.weight, hcf.weight]
        exact hw.1 c hc
    exact gen hf hw

end Pound
