import Verif.Proof.SvcSect
import Verif.Proof.TopStmt
import Verif.Proof.SvcBes
import Verif.Spec.SvcAll

namespace Pound

open Spec

/-! ### Sessions -/

theorem sessArg_sound {w : Bytes} {k : SessKw} {ts r : List Tok} {x : SessSetting} (hw : (w, k) ∈ sessTable) (h : sessArg k ts = some (x, r)) :
    ∃ a, ts = a ++ (if (fun _ : SessKw => false) k then .nl :: r else r) ∧ SessArgs w a x := by
  cases k <;> simp [sessTable] at hw <;> simp only [sessArg] at h <;> subst hw <;> split at h
  all_goals first
    | cases h; done
    | obtain ⟨v, h1, h2⟩ := Option.map_eq_some_iff.mp h
      cases h2
  · refine ⟨[_], rfl, ?_⟩
    obtain ⟨a, ha, hn⟩ := kwFind_mem h1
    simp only [sessTypes, List.mem_cons, List.not_mem_nil, or_false, Prod.mk.injEq] at ha
    rcases ha with ⟨rfl, rfl⟩ | ⟨rfl, rfl⟩ | ⟨rfl, rfl⟩ | ⟨rfl, rfl⟩ | ⟨rfl, rfl⟩ | ⟨rfl, rfl⟩
    · exact .ip hn
    · exact .cookie hn
    · exact .url hn
    · exact .parm hn
    · exact .basic hn
    · exact .header hn
  · exact ⟨[_], rfl, .ttl (resArg_some.mp h1)⟩
  · rw [strArg_some] at h1
    subst h1
    exact ⟨[_], rfl, .id⟩

theorem sessArg_complete {w : Bytes} {a : List Tok} {x : SessSetting} (h : SessArgs w a x) :
    ∃ k, (w, k) ∈ sessTable ∧ ∀ r, sessArg k (a ++ (if (fun _ : SessKw => false) k then .nl :: r else r)) = some (x, r) := by
  cases h with
  | ip h => exact ⟨.type, by decide, fun r => by simp [sessArg, kwFind_congr sessTypes h, show kwFind sessTypes b!"IP" = some .ip by decide]⟩
  | basic h => exact ⟨.type, by decide, fun r => by simp [sessArg, kwFind_congr sessTypes h, show kwFind sessTypes b!"BASIC" = some .basic by decide]⟩
  | url h => exact ⟨.type, by decide, fun r => by simp [sessArg, kwFind_congr sessTypes h, show kwFind sessTypes b!"URL" = some .url by decide]⟩
  | parm h => exact ⟨.type, by decide, fun r => by simp [sessArg, kwFind_congr sessTypes h, show kwFind sessTypes b!"PARM" = some .parm by decide]⟩
  | cookie h => exact ⟨.type, by decide, fun r => by simp [sessArg, kwFind_congr sessTypes h, show kwFind sessTypes b!"COOKIE" = some .cookie by decide]⟩
  | header h => exact ⟨.type, by decide, fun r => by simp [sessArg, kwFind_congr sessTypes h, show kwFind sessTypes b!"HEADER" = some .header by decide]⟩
  | ttl h => exact ⟨.ttl, by decide, fun r => by simp [sessArg, h, resArg]⟩
  | id => exact ⟨.id, by decide, fun r => by simp [sessArg, strArg]⟩

theorem sess_table : SetTable sessTable sessArg (fun _ => false) SessArgs where
  stop := by decide
  find := by decide
  sound := sessArg_sound
  complete := sessArg_complete

theorem sess_sect (N : Nat) : StmtSpec N sessFind (SetStmt SessArgs sessApply) := set_spec sess_table sessApply N

/-- What a Session section does -/
def sessAll (l : List SessSetting) (s : SessCfg) : Option SessCfg := (appAll sessApply l s).bind fun s => if sessOk s then some s else none

theorem sessParser_ok {n : Nat} (s x : LSt SessCfg) : sessParser n s ≠ .nonl x ∧ sessParser n s ≠ .fin x := by
  unfold sessParser
  split
  · split <;> simp
  · simp

theorem sess_spec (N : Nat) : OtherSpec N (kwStmt b!"Session" (sessParser N))
    (fun t s s' => ∃ n a l, t = .ident n :: (a ++ [.nl]) ∧ ciEq b!"Session" n = true ∧ Settings SessArgs a l ∧ sessAll l s = some s') := by
  refine kw_spec sessParser_ok ?_ ?_
  · intro n hn s ts er s' r er' h
    unfold sessParser at h
    split at h
    · rename_i s2 hs2
      split at h
      · rename_i hk
        cases h
        obtain ⟨h1, h2⟩ := sect_sound (sess_sect N) _ _ _ _ _ _ _ hs2
        refine ⟨h1, fun he => ?_⟩
        obtain ⟨t, rfl, ht⟩ := h2 he
        obtain ⟨l, h3, h4⟩ := sect_settings ht
        exact ⟨t, rfl, n, t, l, rfl, hn, h3, by unfold sessAll; simp only [h4, Option.bind_some]; rw [if_pos hk]⟩
      · cases h
    · cases h
  · rintro t s s' ⟨n, a, l, rfl, hn, h1, h2⟩ hN
    refine ⟨n, a, rfl, hn, fun r er => ?_⟩
    unfold sessAll at h2
    obtain ⟨st, hst, h3⟩ := Option.bind_eq_some_iff.mp h2
    have hl : a.length ≤ N := by simp at hN; omega
    have := sect_complete (sess_sect N) (settings_sect h1 hst) N hl hl (.nl :: r) er
    unfold sessParser
    rw [this]
    dsimp only
    split at h3
    · rename_i hk
      cases h3
      rw [if_pos hk]
    · cases h3

/-! ### Other statements -/

/-- Statements of the table -/
inductive MiscArgs (e : CfgEnv) : Bytes → List Tok → MiscSet → Prop
  | fwd {s : Bytes} : MiscArgs e b!"ForwardedHeader" [.string s] (.fwd s)
  | trusted {s : Bytes} : e.acl s = true → MiscArgs e b!"TrustedIP" [.string s] (.trusted (.acl s))
  | nets {w : Bytes} {t : List Tok} {l : List Bytes} : Nets e t l → ciEq b!"End" w = true → MiscArgs e b!"TrustedIP" (.nl :: (t ++ [.ident w])) (.trusted (.aclOf l))

theorem aclRef_sound {e : CfgEnv} {ts r : List Tok} {t : CTest} (hx : aclRef e ts = some (t, r)) : ∃ a, ts = a ++ r ∧ MiscArgs e b!"TrustedIP" a (.trusted t) := by
  unfold aclRef at hx
  split at hx
  · rename_i r2
    obtain ⟨⟨l, r3⟩, h1, h2⟩ := Option.map_eq_some_iff.mp hx
    simp only [Prod.mk.injEq] at h2
    obtain ⟨rfl, rfl⟩ := h2
    obtain ⟨t, w, l', rfl, rfl, h3, h4⟩ := aclLoop_sound _ _ _ _ h1
    exact ⟨.nl :: (t ++ [.ident w]), by simp, by simpa using MiscArgs.nets h3 h4⟩
  · rename_i s r2
    split at hx
    · rename_i hs
      simp only [Option.some.injEq, Prod.mk.injEq] at hx
      obtain ⟨rfl, rfl⟩ := hx
      exact ⟨[.string s], rfl, .trusted hs⟩
    · cases hx
  · cases hx

theorem misc_table (e : CfgEnv) : SetTable miscTable (miscArg e) (fun _ => false) (MiscArgs e) where
  stop := by decide
  find := by decide
  sound := by
    intro w k ts x r hw h
    cases k <;> simp [miscTable] at hw <;> simp only [miscArg] at h <;> subst hw
    · split at h
      · obtain ⟨v, h1, h2⟩ := Option.map_eq_some_iff.mp h
        cases h2
        rw [strArg_some] at h1
        subst h1
        exact ⟨[_], rfl, .fwd⟩
      · cases h
    · obtain ⟨⟨t, r'⟩, h1, h2⟩ := Option.map_eq_some_iff.mp h
      cases h2
      exact aclRef_sound h1
  complete := by
    intro w a x h
    cases h with
    | fwd => exact ⟨.fwd, by decide, fun r => by simp [miscArg, strArg]⟩
    | trusted h => exact ⟨.trusted, by decide, fun r => by simp [miscArg, aclRef, h]⟩
    | nets h hw => exact ⟨.trusted, by decide, fun r => by simp [miscArg, aclRef, aclLoop_complete hw r h]⟩

theorem unqWords_spec (ts : List Tok) : ∃ us, ts = us ++ (unqWords ts).2 ∧ (unqWords ts).1 = us.map Tok.text ∧ ∀ u ∈ us, isUnqTok u = true := by
  induction ts with
  | nil => exact ⟨[], rfl, rfl, by simp⟩
  | cons t r ih =>
    unfold unqWords
    split
    · rename_i h
      obtain ⟨us, h1, h2, h3⟩ := ih
      refine ⟨t :: us, by rw [List.cons_append]; exact congrArg _ h1, by simp [h2], by simpa [h] using h3⟩
    · exact ⟨[], rfl, rfl, by simp⟩

theorem unqWords_append {us : List Tok} (h : ∀ u ∈ us, isUnqTok u = true) (r : List Tok) : unqWords (us ++ .nl :: r) = (us.map Tok.text, .nl :: r) := by
  induction us with
  | nil => rfl
  | cons u us ih =>
    simp only [List.mem_cons, forall_eq_or_imp] at h
    rw [List.cons_append, unqWords, if_pos h.1, ih h.2]
    rfl

theorem unq_iff {u : Tok} : isUnqTok u = true ↔ ∃ s, u = .ident s ∨ u = .number s ∨ u = .literal s := by
  cases u <;> simp [isUnqTok]

theorem suppressArg_sound {ts r : List Tok} {x : MiscSet} (h : suppressArg ts = some (x, r)) :
    ∃ us m, ts = us ++ r ∧ us ≠ [] ∧ (∀ u ∈ us, isUnqTok u = true) ∧ suppressMask 0 (us.map Tok.text) = some m ∧ x = .suppress m := by
  obtain ⟨us, h1, h2, h3⟩ := unqWords_spec ts
  unfold suppressArg at h
  split at h
  · cases h
  · cases h
  · cases h
  · cases h
  · rename_i hne _ _ _
    obtain ⟨m, h4, h5⟩ := Option.map_eq_some_iff.mp h
    cases h5
    refine ⟨us, m, h1, ?_, h3, by rw [← h2]; exact h4, rfl⟩
    rintro rfl
    exact hne h2

theorem suppressArg_complete {us : List Tok} {m : Nat} (h1 : us ≠ []) (h2 : ∀ u ∈ us, isUnqTok u = true) (h3 : suppressMask 0 (us.map Tok.text) = some m) (r : List Tok) :
    suppressArg (us ++ .nl :: r) = some (.suppress m, .nl :: r) := by
  unfold suppressArg
  rw [unqWords_append h2]
  cases us with
  | nil => exact absurd rfl h1
  | cons u us =>
    simp only [List.map_cons] at h3 ⊢
    rw [h3]
    rfl

theorem suppress_ok (s x : LSt SvcRest) : setParser suppressArg false miscApply s ≠ .nonl x ∧ setParser suppressArg false miscApply s ≠ .fin x := by
  unfold setParser
  split
  · simp
  · split
    · simp
    · simp

theorem suppress_spec (N : Nat) : OtherSpec N (kwStmt b!"LogSuppress" (setParser suppressArg false miscApply)) (fun t s s' => ∃ n us m, t = .ident n :: (us ++ [.nl]) ∧
    ciEq b!"LogSuppress" n = true ∧ us ≠ [] ∧ (∀ u ∈ us, isUnqTok u = true) ∧ suppressMask 0 (us.map Tok.text) = some m ∧ s' = { s with suppress := m }) := by
  refine kw_spec suppress_ok ?_ ?_
  · intro n hn s ts er s' r er' h
    unfold setParser at h
    dsimp only at h
    split at h
    · cases h
    · rename_i x r1 hx
      obtain ⟨us, m, rfl, h1, h2, h3, rfl⟩ := suppressArg_sound hx
      simp only [miscApply, Bool.false_eq_true, if_false, LR.ok.injEq, LSt.mk.injEq] at h
      obtain ⟨rfl, rfl, rfl⟩ := h
      exact ⟨Nat.le_refl _, fun _ => ⟨us, rfl, n, us, m, rfl, hn, h1, h2, h3, rfl⟩⟩
  · rintro t s s' ⟨n, us, m, rfl, hn, h1, h2, h3, rfl⟩ _
    refine ⟨n, us, rfl, hn, fun r er => ?_⟩
    unfold setParser
    simp only [suppressArg_complete h1 h2 h3 r, miscApply, Bool.false_eq_true, if_false]

/-! ### Backends -/

theorem svcBe_kw {n : Bytes} {k : SvcBeKw} (h : kwFind svcBeTable n = some k) : ciEq b!"End" n = false := by
  obtain ⟨w, hw, hn⟩ := kwFind_mem h
  rw [args_congr_end hn]
  exact (by decide : ∀ x ∈ svcBeTable, ciEq b!"End" x.1 = false) _ hw

theorem svcBe_find {e : BeEnv} {d : BeDfl} {N : Nat} {n : Bytes} {k : SvcBeKw} (h : kwFind svcBeTable n = some k) : svcBeFind e d N n = some (svcBeParser e d N k) := by
  unfold svcBeFind
  rw [if_neg (by rw [svcBe_kw h]; decide), h]
  rfl

theorem be_lens (e : BeEnv) (d : BeDfl) (N : Nat) {ω : Type} (get : ω → SvcBes) (set : ω → SvcBes → ω) :
    OtherSpec N (fun name => (kwFind svcBeTable name).map fun k => onLens get set (svcBeParser e d N k)) (fun t o o' => ∃ x, SvcBeLine e d t x ∧ o' = set o (applyItem x (get o))) where
  fin := by
    intro n p hp s x hx
    obtain ⟨k, hk, rfl⟩ := Option.map_eq_some_iff.mp hp
    obtain ⟨s', x', h1⟩ := onLens_fin hx
    exact (svcBeFind_spec e d N).fin (svcBe_kw hk) (svcBe_find hk) h1
  ok := by
    intro n p hp s ts er s' r er' hx
    obtain ⟨k, hk, rfl⟩ := Option.map_eq_some_iff.mp hp
    obtain ⟨x, h1, rfl⟩ := onLens_ok hx
    obtain ⟨h2, h3⟩ := (svcBeFind_spec e d N).ok (svcBe_kw hk) (svcBe_find hk) h1
    refine ⟨h2, fun he => ?_⟩
    obtain ⟨a, h4, y, h5, rfl⟩ := h3 he
    exact ⟨a, h4, y, h5, rfl⟩
  nonl := by
    intro n p hp s ts er s' r er' hx
    obtain ⟨k, hk, rfl⟩ := Option.map_eq_some_iff.mp hp
    obtain ⟨x, h1, rfl⟩ := onLens_nonl hx
    obtain ⟨h2, h3⟩ := (svcBeFind_spec e d N).nonl (svcBe_kw hk) (svcBe_find hk) h1
    refine ⟨h2, fun he => ?_⟩
    obtain ⟨a, h4, y, h5, rfl⟩ := h3 he
    exact ⟨a, h4, y, h5, rfl⟩
  complete := by
    rintro t s s' ⟨x, hx, rfl⟩ hN
    obtain ⟨n, a, p, h1, h2, h3⟩ := (svcBeFind_spec e d N).complete (t := t) (s := get s) ⟨x, hx, rfl⟩ hN
    have hE : ciEq b!"End" n = false := by
      cases hE : ciEq b!"End" n with
      | false => rfl
      | true =>
        have h4 := (svcBeFind_spec e d N).stop hE
        rw [h2] at h4
        cases h4
        rcases h3 with h | ⟨_, _, h⟩
        · cases h [] 0
        · cases h [] 0
    unfold svcBeFind at h2
    rw [if_neg (by rw [hE]; decide)] at h2
    obtain ⟨k, hk, rfl⟩ := Option.map_eq_some_iff.mp h2
    refine ⟨n, a, _, h1, by rw [hk]; rfl, ?_⟩
    rcases h3 with h3 | ⟨a', h3, h4⟩
    · exact .inl fun r e => by unfold onLens; simp only [h3]
    · exact .inr ⟨a', h3, fun r e => by unfold onLens; simp only [h4]⟩

/-! ### All of them -/

/-- What a statement does -/
def restApp : RestItem → SvcRest → Option SvcRest
  | .be x, r => some { r with bes := applyItem x r.bes }
  | .session l, r => (sessAll l r.sess).map fun s => { r with sess := s }
  | .fwd s, r => some { r with fwd := some s }
  | .trusted a, r => some { r with trusted := some a }
  | .suppress m, r => some { r with suppress := m }

/-- The keywords -/
def restWords : List Bytes := [b!"Redirect", b!"Error", b!"Backend", b!"UseBackend", b!"Emergency", b!"Metrics", b!"Control", b!"Balancer", b!"Session", b!"LogSuppress",
  b!"ForwardedHeader", b!"TrustedIP"]

theorem svcRestFind_word {e : CfgEnv} {be : BeEnv} {d : BeDfl} {n : Nat} {name : Bytes} {p : LParser SvcRest} (h : svcRestFind e be d n name = some p) :
    ∃ w ∈ restWords, ciEq w name = true := by
  unfold svcRestFind at h
  rcases orFind_word h with h | h
  · obtain ⟨k, hk, _⟩ := Option.map_eq_some_iff.mp h
    obtain ⟨w, hw, hn⟩ := kwFind_mem hk
    exact ⟨w, (by decide : ∀ x ∈ svcBeTable, x.1 ∈ restWords) _ hw, hn⟩
  · rcases orFind_word h with h | h
    · exact ⟨_, by decide, (kwStmt_some h).1⟩
    · rcases orFind_word h with h | h
      · exact ⟨_, by decide, (kwStmt_some h).1⟩
      · obtain ⟨k, hk, _⟩ := Option.map_eq_some_iff.mp h
        obtain ⟨w, hw, hn⟩ := kwFind_mem hk
        exact ⟨w, (by decide : ∀ x ∈ miscTable, x.1 ∈ restWords) _ hw, hn⟩

theorem svcRest_disj {e : CfgEnv} {be : BeEnv} {d : BeDfl} {n : Nat} {d' : Dfl} {name : Bytes} {p : LParser SvcRest} (h : svcRestFind e be d n name = some p) :
    svcFind e n d' name = none := by
  obtain ⟨w, hw, hn⟩ := svcRestFind_word h
  have key := (by decide : ∀ w ∈ restWords, ciEq b!"End" w = false ∧ kwFind condTable w = none ∧ ciEq b!"Rewrite" w = false ∧ kwFind opTable w = none ∧
    ciEq b!"Disabled" w = false ∧ ciEq b!"IgnoreCase" w = false) w hw
  unfold svcFind
  rw [ci_not hn key.1, condFind_none (kwFind_none hn key.2.1), ci_not hn key.2.2.1]
  simp only [ruleOp, Bool.false_eq_true, if_false]
  rw [kwFind_none hn key.2.2.2.1, ci_not hn key.2.2.2.2.1, ci_not hn key.2.2.2.2.2]
  rfl

theorem other_congr {ω : Type} {N : Nat} {f : Bytes → Option (LParser ω)} {s1 s2 : List Tok → ω → ω → Prop} (h : OtherSpec N f s1) (he : ∀ t s s', s1 t s s' ↔ s2 t s s') :
    OtherSpec N f s2 := by
  have : s1 = s2 := by funext t s s'; exact propext (he t s s')
  rw [← this]; exact h

theorem svcRest_spec (e : CfgEnv) (be : BeEnv) (d : BeDfl) (N : Nat) : OtherSpec N (svcRestFind e be d N) (ItemStmt (RestLine e be d) restApp) := by
  have h1 := be_lens be d N SvcRest.bes (fun o x => { o with bes := x })
  have h2 := lens_spec (sess_spec N) SvcRest.sess (fun o x => { o with sess := x })
  have h3 := suppress_spec N
  have h4 := other_tab (misc_table e) miscApply N
  have nb : ∀ {w n : Bytes} {p : LParser SvcRest}, (fun name => (kwFind svcBeTable name).map fun k => onLens SvcRest.bes (fun o x => { o with bes := x }) (svcBeParser be d N k)) n = some p →
      kwFind svcBeTable w = none → ciEq w n = true → False := by
    intro w n p h hw hn
    rw [Option.map_eq_some_iff] at h
    obtain ⟨k, hk, _⟩ := h
    rw [kwFind_none hn hw] at hk
    cases hk
  refine other_congr (or_spec h1 (or_spec h2 (or_spec h3 h4 ?_) ?_) ?_) ?_
  · intro n p hp
    obtain ⟨k, hk, _⟩ := Option.map_eq_some_iff.mp hp
    obtain ⟨w, hw, hn⟩ := kwFind_mem hk
    exact kw_disj ((by decide : ∀ x ∈ miscTable, ciEq b!"LogSuppress" x.1 = false) _ hw) hn
  · intro n p hp
    rcases orFind_word hp with hp | hp
    · exact kw_disj (by decide) (kwStmt_some hp).1
    · obtain ⟨k, hk, _⟩ := Option.map_eq_some_iff.mp hp
      obtain ⟨w, hw, hn⟩ := kwFind_mem hk
      exact kw_disj ((by decide : ∀ x ∈ miscTable, ciEq b!"Session" x.1 = false) _ hw) hn
  · intro n p hp
    have : ∃ w, kwFind svcBeTable w = none ∧ ciEq w n = true := by
      rcases orFind_word hp with hp | hp
      · exact ⟨_, by decide, (kwStmt_some hp).1⟩
      · rcases orFind_word hp with hp | hp
        · exact ⟨_, by decide, (kwStmt_some hp).1⟩
        · obtain ⟨k, hk, _⟩ := Option.map_eq_some_iff.mp hp
          obtain ⟨w, hw, hn⟩ := kwFind_mem hk
          exact ⟨w, (by decide : ∀ x ∈ miscTable, kwFind svcBeTable x.1 = none) _ hw, hn⟩
    obtain ⟨w, hw, hn⟩ := this
    rw [kwFind_none hn hw]
    rfl
  · intro t s s'
    unfold ItemStmt
    constructor
    · rintro (⟨x, h, rfl⟩ | ⟨x, ⟨n, a, l, rfl, hn, ha, hx⟩, rfl⟩ | ⟨n, us, m, rfl, hn, h1, h2, h3, rfl⟩ | ⟨w, n, a, x, ha, hn, rfl, hx⟩)
      · exact ⟨.be x, .be h, rfl⟩
      · exact ⟨.session l, .session hn ha, by simp only [restApp, hx, Option.map_some]⟩
      · exact ⟨.suppress m, .suppress hn h1 (fun u hu => unq_iff.mp (h2 u hu)) h3, rfl⟩
      · cases ha with
        | fwd => exact ⟨_, .fwd hn, hx⟩
        | trusted h => exact ⟨_, .trusted hn h, hx⟩
        | @nets w t l h hw =>
          refine ⟨.trusted (.aclOf l), ?_, hx⟩
          have := RestLine.nets (e := e) (be := be) (d := d) hn h hw
          simpa using this
    · rintro ⟨i, hi, hx⟩
      cases hi with
      | be h => cases hx; exact .inl ⟨_, h, rfl⟩
      | session hn ha =>
        obtain ⟨y, hy, rfl⟩ := Option.map_eq_some_iff.mp hx
        exact .inr (.inl ⟨_, ⟨_, _, _, rfl, hn, ha, hy⟩, rfl⟩)
      | fwd hn => exact .inr (.inr (.inr ⟨_, _, [_], _, .fwd, hn, rfl, hx⟩))
      | trusted hn h => exact .inr (.inr (.inr ⟨_, _, [_], _, .trusted h, hn, rfl, hx⟩))
      | nets hn h hw => exact .inr (.inr (.inr ⟨_, _, _, _, .nets h hw, hn, by simp, hx⟩))
      | suppress hn h1 h2 h3 => cases hx; exact .inr (.inr (.inl ⟨_, _, _, rfl, hn, h1, fun u hu => unq_iff.mpr (h2 u hu), h3, rfl⟩))

/-! ### Meaning -/

theorem sess_apply_all (l : List SessSetting) : ∀ s, ∃ s', appAll sessApply l s = some s' := by
  induction l with
  | nil => exact fun s => ⟨s, rfl⟩
  | cons x l ih =>
    intro s
    simp only [appAll]
    cases x <;> simp only [sessApply, Option.bind_some] <;> exact ih _

theorem sess_means {l : List SessSetting} {s0 s : SessCfg} (h : appAll sessApply l s0 = some s) :
    s = ⟨lastOr s0.type (l.filterMap typeSet), lastOr s0.ttl (l.filterMap sessTtlSet), lastOr s0.id ((l.filterMap idSet).map some)⟩ := by
  have tac : ∀ {α : Type} (get : SessCfg → α) (set : SessSetting → Option α), (∀ x s, ∀ s', sessApply x s = some s' → get s' = (set x).getD (get s)) → get s = lastOr (get s0) (l.filterMap set) :=
    fun get set hx => appAll_field get set hx h
  have h1 := tac (·.type) typeSet (by intro x s s' h; cases x <;> simp only [sessApply, Option.some.injEq] at h <;> subst h <;> rfl)
  have h2 := tac (·.ttl) sessTtlSet (by intro x s s' h; cases x <;> simp only [sessApply, Option.some.injEq] at h <;> subst h <;> rfl)
  have h3 := tac (·.id) (fun x => (idSet x).map some) (by intro x s s' h; cases x <;> simp only [sessApply, Option.some.injEq] at h <;> subst h <;> rfl)
  rw [filterMap_some] at h3
  obtain ⟨a, b, c⟩ := s
  dsimp only at h1 h2 h3
  rw [h1, h2, h3]

theorem sessOk_iff {l : List SessSetting} {s : SessCfg} (h : appAll sessApply l ⟨.none, 0, none⟩ = some s) : sessOk s = true ↔ SessComplete l := by
  have := sess_means h
  subst this
  dsimp only
  rw [lastOr_none]
  have ht : ∀ {k : SessType}, lastOr SessType.none (l.filterMap typeSet) = k → k ≠ .none → (l.filterMap typeSet).getLast? = some k := by
    intro k hk hn
    unfold lastOr at hk
    cases hg : (l.filterMap typeSet).getLast? with
    | none => rw [hg] at hk; exact absurd hk.symm hn
    | some k' => rw [hg] at hk; simpa using hk
  have hi : ((l.filterMap idSet).getLast?.isSome = true) ↔ l.filterMap idSet ≠ [] := by
    cases hg : (l.filterMap idSet).getLast? with
    | none => rw [List.getLast?_eq_none_iff] at hg; simp [hg]
    | some v => simp only [Option.isSome_some, true_iff]; rintro h0; rw [h0] at hg; cases hg
  constructor
  · intro h
    simp only [sessOk, Bool.and_eq_true, bne_iff_ne, ne_eq] at h
    obtain ⟨⟨h1, h2⟩, h3⟩ := h
    refine ⟨⟨_, ht rfl h1, h1, fun hk => ?_⟩, ?_⟩
    · rw [← hi]
      rcases hk with hk | hk | hk <;> rw [hk] at h3 <;> exact h3
    · cases hg : (l.filterMap sessTtlSet).getLast? with
      | none => unfold lastOr at h2; rw [hg] at h2; exact absurd rfl h2
      | some v => refine ⟨v, rfl, ?_⟩; unfold lastOr at h2; rw [hg] at h2; exact Nat.pos_of_ne_zero h2
  · rintro ⟨⟨k, h1, h2, h3⟩, n, h4, h5⟩
    have e1 : lastOr SessType.none (l.filterMap typeSet) = k := by unfold lastOr; rw [h1]; rfl
    have e2 : lastOr 0 (l.filterMap sessTtlSet) = n := by unfold lastOr; rw [h4]; rfl
    simp only [sessOk, e1, e2, Bool.and_eq_true, bne_iff_ne, ne_eq]
    refine ⟨⟨h2, by omega⟩, ?_⟩
    cases k <;> first | rfl | exact hi.mpr (h3 (by simp))

theorem rest_sess {l : List RestItem} : ∀ {r r' : SvcRest}, appAll restApp l r = some r' → appAll sessApply (l.flatMap sessItem) r.sess = some r'.sess := by
  induction l with
  | nil => intro r r' h; cases h; rfl
  | cons x l ih =>
    intro r r' h
    simp only [appAll, Option.bind_eq_some_iff] at h
    obtain ⟨r1, h1, h2⟩ := h
    rw [List.flatMap_cons, appAll_app]
    have := ih h2
    cases x with
    | session s =>
      obtain ⟨y, hy, rfl⟩ := Option.map_eq_some_iff.mp h1
      obtain ⟨st, hst, h3⟩ := Option.bind_eq_some_iff.mp hy
      split at h3
      · cases h3
        simp only [sessItem, hst, Option.bind_some]
        exact this
      · cases h3
    | _ => cases h1; exact this

theorem rest_bes {l : List RestItem} : ∀ {r r' : SvcRest}, appAll restApp l r = some r' → r'.bes = (l.filterMap beItem).foldl (fun s x => applyItem x s) r.bes := by
  induction l with
  | nil => intro r r' h; cases h; rfl
  | cons x l ih =>
    intro r r' h
    simp only [appAll, Option.bind_eq_some_iff] at h
    obtain ⟨r1, h1, h2⟩ := h
    rw [ih h2]
    cases x with
    | session s =>
      obtain ⟨y, hy, rfl⟩ := Option.map_eq_some_iff.mp h1
      rfl
    | _ => cases h1; rfl

theorem rest_means {algo : Algo} {l : List RestItem} {r : SvcRest} (h : appAll restApp l (SvcRest.init algo) = some r) : RestMeans algo l r := by
  have hs := sess_means (rest_sess h)
  refine ⟨svcMeans_iff.mpr (rest_bes h), ?_, ?_, ?_, ?_, ?_, ?_⟩
  · rw [hs]; rfl
  · rw [hs]; rfl
  · rw [hs]; exact lastOr_none _
  · refine appAll_opt (·.fwd) fwdItem (fun x s s' hx => ?_) h rfl
    cases x with
    | session l => obtain ⟨y, hy, rfl⟩ := Option.map_eq_some_iff.mp hx; rfl
    | _ => cases hx; rfl
  · refine appAll_opt (·.trusted) trustedItem (fun x s s' hx => ?_) h rfl
    cases x with
    | session l => obtain ⟨y, hy, rfl⟩ := Option.map_eq_some_iff.mp hx; rfl
    | _ => cases hx; rfl
  · refine appAll_field (·.suppress) suppressItem (fun x s s' hx => ?_) h
    cases x with
    | session l => obtain ⟨y, hy, rfl⟩ := Option.map_eq_some_iff.mp hx; rfl
    | _ => cases hx; rfl

theorem rest_unique {algo : Algo} {l : List RestItem} {r r' : SvcRest} (h : RestMeans algo l r) (h' : RestMeans algo l r') : r = r' := by
  obtain ⟨b, ⟨x, y, z⟩, f, t, s⟩ := r
  obtain ⟨b', ⟨x', y', z'⟩, f', t', s'⟩ := r'
  obtain ⟨h1, h2, h3, h4, h5, h6, h7⟩ := h
  obtain ⟨k1, k2, k3, k4, k5, k6, k7⟩ := h'
  rw [svcMeans_iff] at h1 k1
  dsimp only at *
  rw [h1, h2, h3, h4, h5, h6, h7, k1, k2, k3, k4, k5, k6, k7]

theorem rest_order {algo : Algo} {l : List RestItem} {r : SvcRest} (h : appAll restApp l (SvcRest.init algo) = some r) : SessOrder l := by
  rintro pre s post rfl
  rw [appAll_app, Option.bind_eq_some_iff] at h
  obtain ⟨r1, h1, h2⟩ := h
  simp only [appAll, Option.bind_eq_some_iff] at h2
  obtain ⟨r2, h2, _⟩ := h2
  obtain ⟨y, hy, rfl⟩ := Option.map_eq_some_iff.mp h2
  obtain ⟨st, hst, h3⟩ := Option.bind_eq_some_iff.mp hy
  split at h3
  · rename_i hk
    refine (sessOk_iff ?_).mp hk
    rw [appAll_app, show (⟨.none, 0, none⟩ : SessCfg) = (SvcRest.init algo).sess from rfl, rest_sess h1]
    exact hst
  · cases h3

theorem of_sessOrder (algo : Algo) (n : Nat) : ∀ l : List RestItem, l.length = n → SessOrder l → ∃ r, appAll restApp l (SvcRest.init algo) = some r := by
  induction n with
  | zero => intro l hl _; cases l with | nil => exact ⟨_, rfl⟩ | cons _ _ => cases hl
  | succ n ih =>
    intro l hl ho
    have hne : l ≠ [] := by rintro rfl; cases hl
    obtain ⟨pre, x, rfl⟩ : ∃ pre x, l = pre ++ [x] := ⟨l.dropLast, l.getLast hne, (List.dropLast_concat_getLast hne).symm⟩
    obtain ⟨r1, h1⟩ := ih pre (by simpa using hl) (fun p s q h => ho p s (q ++ [x]) (by rw [h]; simp))
    rw [appAll_append, h1, Option.bind_some]
    cases x with
    | session s =>
      have hc := ho pre s [] rfl
      obtain ⟨st, hst⟩ := sess_apply_all s r1.sess
      have hk : sessOk st = true := by
        refine (sessOk_iff (l := pre.flatMap sessItem ++ s) ?_).mpr hc
        rw [appAll_app, show (⟨.none, 0, none⟩ : SessCfg) = (SvcRest.init algo).sess from rfl, rest_sess h1]
        exact hst
      refine ⟨{ r1 with sess := st }, ?_⟩
      simp only [restApp, sessAll, hst, Option.bind_some, hk, if_true, Option.map_some]
    | _ => exact ⟨_, rfl⟩

theorem rest_iff {algo : Algo} {l : List RestItem} {r : SvcRest} : appAll restApp l (SvcRest.init algo) = some r ↔ SessOrder l ∧ RestMeans algo l r := by
  constructor
  · exact fun h => ⟨rest_order h, rest_means h⟩
  · rintro ⟨h1, h2⟩
    obtain ⟨r', h'⟩ := of_sessOrder algo _ l rfl h1
    rw [h', rest_unique (rest_means h') h2]

/-! ### The section -/

theorem restLine_head {e : CfgEnv} {be : BeEnv} {d : BeDfl} {t : List Tok} {i : RestItem} (h : RestLine e be d t i) : ∃ n r, t = .ident n :: r := by
  cases h with
  | be h => cases h <;> exact ⟨_, _, rfl⟩
  | _ => exact ⟨_, _, rfl⟩

theorem parseService_sound {e : CfgEnv} {be : BeEnv} {n : Nat} {names : List Bytes} {d : SvcDfl} {ts : List Tok} {er : Nat} {s' : LSt (SvcCfg × SvcRest)}
    (h : parseService e be n names d ts er = .ok s') (he : s'.errs = er) (hp : PlainToks d.re.reType ts) (hr : ¬ Response ts) :
    ∃ a cs ss b l, ts = a ++ s'.toks ∧ SvcSect e (RestLine e be d.be) d.re names a cs ss b l ∧ condFormulas s'.data.1.conds = cs ∧ SameProg (rulesStmts s'.data.1.req) ss ∧
      s'.data.1.disabled = b ∧ s'.data.1.resp = [] ∧ SessOrder l ∧ RestMeans d.algo l s'.data.2 := by
  obtain ⟨x', ts', er'⟩ := s'
  simp only at he
  subst he
  have hg := svcRest_spec e be d.be n
  have hm : ∀ name p, svcTable e n (svcRestFind e be d.be n) name = some p → MonoP p := fun name p hp => svcTable_mono hg name p hp
  have key : ∀ ts, cfgL (svcTable e n (svcRestFind e be d.be n)) false true n ⟨(⟨d.re, [], [], [], false⟩, SvcRest.init d.algo), ts, er'⟩ = .ok ⟨x', ts', er'⟩ →
      PlainToks d.re.reType ts → ¬ Response ts → SvcEnds e (RestLine e be d.be) restApp (⟨d.re, [], [], [], false⟩, SvcRest.init d.algo) ts x' ts' :=
    fun ts h hp hr => svc_sound hg (cfgL_run hm true n _ _ _ _ _ h) hp hr
  unfold parseService at h
  dsimp only at h
  split at h
  · cases h
  · cases h
  · cases h
  · rename_i nm r
    split at h
    · cases h
    · rename_i hnm
      obtain ⟨body, w, cs, ss, b, l, rfl, h2, h3, h4, h5, h6, h7, h8⟩ := key _ h hp.tail (fun h => hr (Response_right (a := [.string nm]) h))
      refine ⟨.string nm :: (body ++ [.ident w]), _, ss, _, l, by simp, .named (by simpa using hnm) h3 h2, ?_, by simpa [rulesStmts] using h5, h7, h6.1, rest_iff.mp h8⟩
      simp only at h4
      rw [h4]; rfl
  · obtain ⟨body, w, cs, ss, b, l, rfl, h2, h3, h4, h5, h6, h7, h8⟩ := key _ h hp hr
    refine ⟨body ++ [.ident w], _, ss, _, l, by simp, .anon h3 h2, ?_, by simpa [rulesStmts] using h5, h7, h6.1, rest_iff.mp h8⟩
    simp only at h4
    rw [h4]; rfl

theorem svcText_complete {e : CfgEnv} {be : BeEnv} {d : SvcDfl} {d' : Dfl} {t : List Tok} {cs : List (Formula CTest)} {ss : List RwStmt} {b : Option Bool} {l : List RestItem} {w : Bytes}
    {y : SvcRest} (hb : SvcBody e (RestLine e be d.be) d.re d' t cs ss b l) (hp : PlainToks d.re.reType t) (hw : ciEq b!"End" w = true) (ho : SessOrder l) (hy : RestMeans d.algo l y) :
    ∃ (x : SvcCfg) (N : Nat), condFormulas x.conds = cs ∧ SameProg (rulesStmts x.req) ss ∧ (x.resp = [] ∧ x.dfl = d') ∧ x.disabled = b.getD false ∧
      ∀ n, N ≤ n → ∀ r er, cfgL (svcTable e n (svcRestFind e be d.be n)) false true n ⟨(⟨d.re, [], [], [], false⟩, SvcRest.init d.algo), t ++ .ident w :: r, er⟩ = .ok ⟨(x, y), r, er⟩ := by
  have happ := rest_iff.mpr ⟨ho, hy⟩
  obtain ⟨cs', N, j, h1, h2⟩ := svc_complete (fun n => svcRest_spec e be d.be n) svcRest_disj hb hp
  obtain ⟨x, h3, h4, h5, h6, h7⟩ := h2 ⟨d.re, [], [], [], false⟩ _ _ rfl happ
  refine ⟨x, N + j + 1, by rw [h3]; exact h1, by simpa [rulesStmts] using h4, h5, h6, fun n hn r er => ?_⟩
  obtain ⟨q, hq⟩ : ∃ q, n = (q + 1) + j := ⟨n - j - 1, by omega⟩
  conv => lhs; arg 4; rw [hq]
  have hb : svcFind e n x.dfl w = some endParser := by unfold svcFind; rw [if_pos hw]
  rw [h7 n (by omega), svc_step hb]
  rfl

theorem parseService_named {e : CfgEnv} {be : BeEnv} {n : Nat} {names : List Bytes} {d : SvcDfl} {nm w : Bytes} {t r : List Tok} {er : Nat} (hnm : nm ∉ names) :
    parseService e be n names d (.string nm :: (t ++ [.ident w]) ++ r) er =
      cfgL (svcTable e n (svcRestFind e be d.be n)) false true n ⟨(⟨d.re, [], [], [], false⟩, SvcRest.init d.algo), t ++ .ident w :: r, er⟩ := by
  have hc : names.contains nm = false := by simpa using hnm
  rw [show Tok.string nm :: (t ++ [.ident w]) ++ r = .string nm :: (t ++ .ident w :: r) by simp]
  unfold parseService
  simp only [hc, Bool.false_eq_true, if_false]

theorem parseService_anon {e : CfgEnv} {be : BeEnv} {n : Nat} {names : List Bytes} {d : SvcDfl} {d' : Dfl} {w : Bytes} {t r : List Tok} {er : Nat}
    {cs : List (Formula CTest)} {ss : List RwStmt} {b : Option Bool} {l : List RestItem} (hb : SvcBody e (RestLine e be d.be) d.re d' t cs ss b l) :
    parseService e be n names d (t ++ [.ident w] ++ r) er =
      cfgL (svcTable e n (svcRestFind e be d.be n)) false true n ⟨(⟨d.re, [], [], [], false⟩, SvcRest.init d.algo), t ++ .ident w :: r, er⟩ := by
  rw [List.append_assoc, List.singleton_append]
  rcases svcBody_head restLine_head hb with rfl | ⟨q, rfl⟩ | ⟨v, q, rfl⟩ <;> rfl

theorem parseService_complete {e : CfgEnv} {be : BeEnv} {names : List Bytes} {d : SvcDfl} {a : List Tok} {cs : List (Formula CTest)} {ss : List RwStmt} {b : Bool} {l : List RestItem}
    {y : SvcRest} (h : SvcSect e (RestLine e be d.be) d.re names a cs ss b l) (hp : PlainToks d.re.reType a) (ho : SessOrder l) (hy : RestMeans d.algo l y) :
    ∃ (x : SvcCfg) (N : Nat), condFormulas x.conds = cs ∧ SameProg (rulesStmts x.req) ss ∧ x.resp = [] ∧ x.disabled = b ∧
      ∀ n, N ≤ n → ∀ r er, parseService e be n names d (a ++ r) er = .ok ⟨(x, y), r, er⟩ := by
  cases h with
  | @named d' nm w t cs ss b l hnm hb hw =>
    obtain ⟨x, N, h1, h2, h3, h4, h5⟩ := svcText_complete hb hp.tail.left hw ho hy
    exact ⟨x, N, h1, h2, h3.1, h4, fun n hn r er => by rw [parseService_named hnm]; exact h5 n hn r er⟩
  | @anon d' w t cs ss b l hb hw =>
    obtain ⟨x, N, h1, h2, h3, h4, h5⟩ := svcText_complete hb hp.left hw ho hy
    exact ⟨x, N, h1, h2, h3.1, h4, fun n hn r er => by rw [parseService_anon hb]; exact h5 n hn r er⟩

theorem parseService_accepts {e : CfgEnv} {be : BeEnv} {names : List Bytes} {d : SvcDfl} {a : List Tok} {cs : List (Formula CTest)} {ss : List RwStmt} {b : Bool} {l : List RestItem}
    (h : SvcSect e (RestLine e be d.be) d.re names a cs ss b l) (hp : PlainToks d.re.reType a) (ho : SessOrder l) :
    ∃ (x : SvcCfg) (y : SvcRest) (N : Nat), condFormulas x.conds = cs ∧ SameProg (rulesStmts x.req) ss ∧ x.resp = [] ∧ x.disabled = b ∧
      ∀ n, N ≤ n → ∀ r er, parseService e be n names d (a ++ r) er = .ok ⟨(x, y), r, er⟩ := by
  obtain ⟨y, hy⟩ := of_sessOrder d.algo _ l rfl ho
  obtain ⟨x, N, hx⟩ := parseService_complete h hp ho (rest_means hy)
  exact ⟨x, y, N, hx⟩

/-! ### Whatever is written -/

theorem cfgL_inv {σ : Type} {find : Bytes → Option (LParser σ)} {single block : Bool} (P : σ → Prop)
    (hf : ∀ name p, find name = some p → ∀ s s', (p s).st = some s' → P s.data → P s'.data) :
    ∀ (n : Nat) (s s' : LSt σ), (cfgL find single block n s).st = some s' → P s.data → P s'.data := by
  intro n
  induction n with
  | zero => intro s s' h; simp [cfgL, LR.st] at h
  | succ n ih =>
    intro s s' h hP
    unfold cfgL at h
    split at h
    · split at h
      · simp [LR.st] at h
      · simp only [LR.st, Option.some.injEq] at h; rw [← h]; exact hP
    · split at h
      · simp [LR.st] at h
      · simp only [LR.st, Option.some.injEq] at h; rw [← h]; exact hP
    · simp [LR.st] at h
    · exact ih _ _ h hP
    · rename_i r0 _
      split at h
      · simp [LR.st] at h
      · rename_i p hp
        have hk := hf _ _ hp { s with toks := r0 }
        split at h
        · rename_i s2 hs2
          have h2 := hk s2 (by rw [hs2]; rfl) hP
          split at h
          · split at h
            · simp only [LR.st, Option.some.injEq] at h; rw [← h]; exact h2
            · exact ih _ _ h h2
          · split at h
            · simp only [LR.st, Option.some.injEq] at h; rw [← h]; exact h2
            · exact ih _ _ h h2
          · simp [LR.st] at h
        · rename_i s2 hs2
          exact ih _ _ h (hk s2 (by rw [hs2]; rfl) hP)
        · rename_i s2 hs2
          simp only [LR.st, Option.some.injEq] at h
          rw [← h]
          exact hk s2 (by rw [hs2]; rfl) hP
        · simp [LR.st] at h
    · exact ih _ _ h hP

/-- What holds of the sessions of a service at any time -/
def SessSafe (s : SessCfg) : Prop := s.type = .none ∨ sessOk s = true

theorem svcRest_inv {e : CfgEnv} {be : BeEnv} {d : BeDfl} {n : Nat} (name : Bytes) (p : LParser SvcRest) (hp : svcRestFind e be d n name = some p) (s s' : LSt SvcRest)
    (h : (p s).st = some s') (hs : SessSafe s.data.sess) : SessSafe s'.data.sess := by
  unfold svcRestFind at hp
  have hset : ∀ {arg : List Tok → Option (MiscSet × List Tok)}, (setParser arg false miscApply s).st = some s' → SessSafe s'.data.sess := by
    intro arg h
    unfold setParser at h
    split at h
    · simp [LR.st] at h
    · rename_i x r hx
      split at h
      · simp [LR.st] at h
      · rename_i y hy
        simp only [Bool.false_eq_true, if_false, LR.st, Option.some.injEq] at h
        rw [← h]
        dsimp only
        cases x <;> cases hy <;> exact hs
  rcases orFind_word hp with hp | hp
  · obtain ⟨k, _, rfl⟩ := Option.map_eq_some_iff.mp hp
    unfold onLens at h
    split at h <;> simp only [LR.st, Option.some.injEq, reduceCtorEq] at h <;> rw [← h] <;> exact hs
  · rcases orFind_word hp with hp | hp
    · obtain ⟨_, rfl⟩ := kwStmt_some hp
      unfold onLens at h
      split at h <;> simp only [LR.st, Option.some.injEq, reduceCtorEq] at h <;> rw [← h] <;> rename_i s2 hs2
      · unfold sessParser at hs2
        split at hs2
        · split at hs2
          · rename_i hk
            cases hs2
            exact .inr hk
          · cases hs2
        · cases hs2
      · exact absurd hs2 (sessParser_ok _ _).1
      · exact absurd hs2 (sessParser_ok _ _).2
    · rcases orFind_word hp with hp | hp
      · obtain ⟨_, rfl⟩ := kwStmt_some hp
        exact hset h
      · obtain ⟨k, _, rfl⟩ := Option.map_eq_some_iff.mp hp
        exact hset h

theorem parseService_safe {e : CfgEnv} {be : BeEnv} {n : Nat} {names : List Bytes} {d : SvcDfl} {ts : List Tok} {er : Nat} {s' : LSt (SvcCfg × SvcRest)}
    (h : parseService e be n names d ts er = .ok s') : SessSafe s'.data.2.sess := by
  have key : ∀ ts, cfgL (svcTable e n (svcRestFind e be d.be n)) false true n ⟨(⟨d.re, [], [], [], false⟩, SvcRest.init d.algo), ts, er⟩ = .ok s' → SessSafe s'.data.2.sess := by
    intro ts h
    refine cfgL_inv (fun x => SessSafe x.2.sess) ?_ n _ s' (by rw [h]; rfl) (.inl rfl)
    intro name p hp s s1 h1 hs
    cases hp
    dsimp only at h1
    split at h1
    · unfold onFst at h1
      split at h1 <;> simp only [LR.st, Option.some.injEq, reduceCtorEq] at h1 <;> rw [← h1] <;> exact hs
    · split at h1
      · rename_i q hq
        unfold onSnd at h1
        split at h1 <;> simp only [LR.st, Option.some.injEq, reduceCtorEq] at h1 <;> rw [← h1] <;> rename_i s2 hs2
        all_goals exact svcRest_inv name q hq _ s2 (by rw [hs2]; rfl) hs
      · simp [LR.st] at h1
  unfold parseService at h
  dsimp only at h
  split at h
  · cases h
  · cases h
  · cases h
  · split at h
    · cases h
    · exact key _ h
  · exact key _ h

end Pound
