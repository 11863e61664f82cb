import Verif.Proof.Inject
import Verif.Proof.Location
import Verif.Props.Exchange
import Verif.Spec.Relay

/-!
Lemmas for Props/Relay.lean.
-/

namespace Pound
open Spec

theorem declares_unique {v : Bytes} {n m : Nat} (h : DeclaresLength v n) (h' : DeclaresLength v m) : n = m := by
  have h1 := (declares_iff v n).2 h
  have h2 := (declares_iff v m).2 h'
  omega

theorem clientFraming_det {head : Bool} {code : Nat} {te cl : List Bytes} {k k' : BodyKind} (h : ClientFraming head code te cl k) (h' : ClientFraming head code te cl k') : k = k' := by
  have hfc : FinalChunked te → te ≠ [] := by
    rintro ⟨vs, v, rfl, -⟩
    simp
  cases k <;> cases k' <;> simp only [ClientFraming] at h h' <;> try rfl
  all_goals try (exact absurd h h'.1)
  all_goals try (exact absurd h' h.1)
  · obtain ⟨-, -, h1, h2⟩ := h
    obtain ⟨-, -, -, h3⟩ := h'
    rename_i n m
    cases cl with
    | nil => exact absurd rfl h1
    | cons v _ => rw [declares_unique (h2 v List.mem_cons_self) (h3 v List.mem_cons_self)]
  · exact absurd h.2.1 (hfc h'.2)
  · rcases h'.2 with ⟨e, -⟩ | ⟨-, e⟩
    · exact absurd h.2.1 e
    · exact absurd e h.2.2.1
  · exact absurd h'.2.1 (hfc h.2)
  · rcases h'.2 with ⟨-, e⟩ | ⟨e, -⟩
    · exact absurd h.2 e
    · exact absurd e (hfc h.2)
  · rcases h.2 with ⟨e, -⟩ | ⟨-, e⟩
    · exact absurd h'.2.1 e
    · exact absurd e h'.2.2.1
  · rcases h.2 with ⟨-, e⟩ | ⟨e, -⟩
    · exact absurd h'.2 e
    · exact absurd e (hfc h'.2)

theorem responseLine_det {line : Bytes} {v v' c c' : Nat} (h : ResponseLine line v c) (h' : ResponseLine line v' c') : v = v' ∧ c = c' := by
  have h1 := (validate_iff _ _ _).2 h
  have h2 := (validate_iff _ _ _).2 h'
  rw [h1] at h2
  injection h2 with h2
  injection h2 with e1 e2
  exact ⟨e1, e2⟩

theorem responseLine_ne {line : Bytes} {v c : Nat} (h : ResponseLine line v c) : line ≠ [] := by
  obtain ⟨_, _, _, _, _, _, e, -⟩ := h
  rw [e]
  simp

theorem endsWith_has {v : Bytes} (h : EndsWithTok v b!"chunked") : HasTok v b!"chunked" := by
  obtain ⟨p, h1, -⟩ := (chunked_next_nil v).2 h
  rw [← csLocate_isSome _ _ (by simp), h1]
  rfl

theorem values_of_named {n : Bytes} {ts ts' vs : List Bytes} (h : HeadersNamed n ts' = HeadersNamed n ts) (hv : Values n ts vs) : Values n ts' vs := by
  rw [values_named, h, ← values_named]
  exact hv

/-- Names of headers of these codes -/
theorem codeOf_location {n : Bytes} {c : HCode} (hc : c = .location ∨ c = .contLocation) (h : codeOf n = c) : ¬ ciEq n b!"Transfer-Encoding" = true ∧ ¬ ciEq n b!"Content-Length" = true := by
  constructor
  · intro hn
    have e : codeOf n = codeOf b!"Transfer-Encoding" := by
      unfold codeOf
      have : (fun t : Bytes × HCode => ciEq n t.1) = fun t => ciEq b!"Transfer-Encoding" t.1 := by
        funext t; exact ciEq_congr hn
      rw [this]
    rw [e] at h
    have : codeOf b!"Transfer-Encoding" = .transferEncoding := by decide
    rw [this] at h
    rcases hc with rfl | rfl <;> cases h
  · intro hn
    have e : codeOf n = codeOf b!"Content-Length" := by
      unfold codeOf
      have : (fun t : Bytes × HCode => ciEq n t.1) = fun t => ciEq b!"Content-Length" t.1 := by
        funext t; exact ciEq_congr hn
      rw [this]
    rw [e] at h
    have : codeOf b!"Content-Length" = .contentLength := by decide
    rw [this] at h
    rcases hc with rfl | rfl <;> cases h

/-- New texts of Location and Content-Location are single header lines of other names than those of the framing. -/
def PlainLoc (env : RespEnv) : Prop := ∀ c v t, (c = .location ∨ c = .contLocation) → OneLine v → env.loc c v = some t →
  OneLine t ∧ ∃ n v', HeaderLine t n v' ∧ ¬ ciEq n b!"Transfer-Encoding" = true ∧ ¬ ciEq n b!"Content-Length" = true

theorem rawValue_oneLine {h : Header} (ho : OneLine h.text) : OneLine h.rawValue := by
  intro c hc
  unfold Header.rawValue at hc
  exact ho c (List.mem_of_mem_drop (List.mem_of_mem_take hc))

theorem relocated_line {env : RespEnv} (hl : PlainLoc env) {h : Header} (hf : Fine h) (ho : OneLine h.text) :
    OneLine (relocated env h).text ∧ (∃ n v, HeaderLine (relocated env h).text n v) ∧
    (Named (relocated env h).text b!"Transfer-Encoding" ∨ Named (relocated env h).text b!"Content-Length" ∨
      Named h.text b!"Transfer-Encoding" ∨ Named h.text b!"Content-Length" → (relocated env h).text = h.text) := by
  have same : OneLine h.text ∧ (∃ n v, HeaderLine h.text n v) := ⟨ho, _, _, hf.1.line⟩
  unfold relocated
  split
  · rename_i hc
    cases ht : env.loc h.code h.rawValue with
    | none => exact ⟨same.1, same.2, fun _ => rfl⟩
    | some t =>
      obtain ⟨h1, n, v', h2, h3, h4⟩ := hl _ _ _ hc (rawValue_oneLine ho) ht
      have e : (h.change t).text = t := (change_good (h := h) h2).2
      dsimp only
      rw [e]
      refine ⟨h1, ⟨n, v', h2⟩, ?_⟩
      have hn := codeOf_location hc hf.2.symm
      rintro (x | x | x | x)
      · exact absurd ((named_iff_line h2 _).1 x) h3
      · exact absurd ((named_iff_line h2 _).1 x) h4
      · exact absurd ((named_iff_line hf.1.line _).1 x) hn.1
      · exact absurd ((named_iff_line hf.1.line _).1 x) hn.2
  · exact ⟨same.1, same.2, fun _ => rfl⟩

theorem relocated_named {env : RespEnv} (hl : PlainLoc env) : ∀ (hs : List Header), (∀ h ∈ hs, Fine h ∧ OneLine h.text) →
    HeadersNamed b!"Transfer-Encoding" ((hs.map (relocated env)).map (·.text)) = HeadersNamed b!"Transfer-Encoding" (hs.map (·.text)) ∧
    HeadersNamed b!"Content-Length" ((hs.map (relocated env)).map (·.text)) = HeadersNamed b!"Content-Length" (hs.map (·.text))
  | [], _ => ⟨rfl, rfl⟩
  | h :: hs, hh => by
    obtain ⟨i1, i2⟩ := relocated_named hl hs (fun x hx => hh x (List.mem_cons_of_mem _ hx))
    obtain ⟨-, -, e⟩ := relocated_line hl (hh h List.mem_cons_self).1 (hh h List.mem_cons_self).2
    simp only [List.map_cons]
    constructor
    · by_cases hn : Named h.text b!"Transfer-Encoding"
      · rw [e (.inr (.inr (.inl hn))), hn_cons_pos hn, hn_cons_pos hn, i1]
      · have hn' : ¬ Named (relocated env h).text b!"Transfer-Encoding" := fun x => hn (e (.inl x) ▸ x)
        rw [hn_cons_neg hn, hn_cons_neg hn', i1]
    · by_cases hn : Named h.text b!"Content-Length"
      · rw [e (.inr (.inr (.inr hn))), hn_cons_pos hn, hn_cons_pos hn, i2]
      · have hn' : ¬ Named (relocated env h).text b!"Content-Length" := fun x => hn (e (.inr (.inl x)) ▸ x)
        rw [hn_cons_neg hn, hn_cons_neg hn', i2]

theorem locationAt_mem {s p h r : Bytes} (e : locationAt s = some (p, h, r)) : ∀ c ∈ r, c ∈ s := by
  unfold locationAt at e
  split at e
  · injection e with e; injection e with _ e; injection e with _ e
    subst e
    intro c hc
    exact List.mem_of_mem_drop ((List.dropWhile_sublist _).subset hc)
  · split at e
    · injection e with e; injection e with _ e; injection e with _ e
      subst e
      intro c hc
      exact List.mem_of_mem_drop ((List.dropWhile_sublist _).subset hc)
    · cases e

theorem locationMatch_mem : ∀ {s p h r : Bytes}, locationMatch s = some (p, h, r) → ∀ c ∈ r, c ∈ s
  | [], _, _, _, e => by cases e
  | x :: t, p, h, r, e => by
    unfold locationMatch at e
    split at e
    · rename_i q hq
      injection e with e
      subst e
      exact locationAt_mem hq
    · intro c hc
      exact List.mem_cons_of_mem _ (locationMatch_mem e c hc)

theorem needRewrite_mem {e : LocEnv} {v l p : Bytes} (h : needRewrite e v l = some p) : ∀ c ∈ p, c ∈ l := by
  unfold needRewrite at h
  split at h
  · cases h
  split at h
  · cases h
  split at h
  · cases h
  · rename_i proto hp rest hm
    dsimp only at h
    obtain ⟨-, h⟩ := Option.ite_none_right_eq_some.1 h
    injection h with h
    subst h
    intro c hc
    refine locationMatch_mem hm c ?_
    split at hc
    · exact List.mem_of_mem_drop hc
    · exact hc

theorem locText_plain {env : RespEnv} {e : LocEnv} {ssl : Bool} {vhost : Option Bytes} (hv : ∀ v, vhost = some v → OneLine v) (he : env.loc = locText e ssl vhost) : PlainLoc env := by
  intro c v t hc ho h
  rw [he] at h
  unfold locText at h
  cases vhost with
  | none => cases h
  | some w =>
    dsimp only at h
    split at h
    · cases h
    · cases hn : needRewrite e w v with
      | none => rw [hn] at h; cases h
      | some p =>
        rw [hn] at h
        injection h with h
        have hp : OneLine p := fun c hc => ho c (needRewrite_mem hn c hc)
        have hw := hv w rfl
        have key : ∀ (name scheme : Bytes), OneLine name → OneLine scheme → (scheme = b!"https" ∨ scheme = b!"http") → name ≠ [] → (∀ c ∈ name, TChar c) →
            ¬ ciEq name b!"Transfer-Encoding" = true → ¬ ciEq name b!"Content-Length" = true →
            t = name ++ ch%':' :: ([32] ++ (scheme ++ b!"://" ++ w ++ b!"/" ++ p)) →
            OneLine t ∧ ∃ n v', HeaderLine t n v' ∧ ¬ ciEq n b!"Transfer-Encoding" = true ∧ ¬ ciEq n b!"Content-Length" = true := by
          intro name scheme o1 o2 hs ne tc n1 n2 e
          constructor
          · rw [e]
            intro c hc
            simp only [List.mem_append, List.mem_cons, List.not_mem_nil, or_false] at hc
            have lit : ∀ (s : Bytes), (s.all fun (c : UInt8) => c != 13 && c != 10) = true → ∀ c ∈ s, c ≠ 13 ∧ c ≠ 10 := by
              intro s hs c hc
              simpa using List.all_eq_true.1 hs c hc
            rcases hc with h | rfl | rfl | (((h | h) | h) | h) | h
            · exact o1 c h
            · decide
            · decide
            · exact o2 c h
            · exact lit b!"://" (by decide) c (by simpa using h)
            · exact hw c h
            · exact lit b!"/" (by decide) c (by simpa using h)
            · exact hp c h
          · refine ⟨name, scheme ++ b!"://" ++ w ++ b!"/" ++ p, ⟨[32], e, ne, tc, by simp, ?_⟩, n1, n2⟩
            intro c hc
            rcases hs with rfl | rfl
            · simp at hc; subst hc; decide
            · simp at hc; subst hc; decide
        by_cases hcl : c = .location
        · rw [if_pos hcl] at h
          refine key b!"Location" (if ssl then b!"https" else b!"http") ?_ ?_ ?_ ?_ ?_ ?_ ?_ ?_
          all_goals first | decide | (unfold OneLine; decide) | (cases ssl <;> (unfold OneLine; decide)) | (cases ssl <;> simp; done) | (unfold TChar; decide) | skip
          rw [← h]
          cases ssl <;> simp
        · rw [if_neg hcl] at h
          refine key b!"Content-location" (if ssl then b!"https" else b!"http") ?_ ?_ ?_ ?_ ?_ ?_ ?_ ?_
          all_goals first | decide | (unfold OneLine; decide) | (cases ssl <;> (unfold OneLine; decide)) | (cases ssl <;> simp; done) | (unfold TChar; decide) | skip
          rw [← h]
          cases ssl <;> simp

/-- `FramingSt`, and the codes of the headers belong to their names -/
theorem rwPrim_fine {T L : List Bytes} {p : RwPrim} (hp : PrimFraming p) {st : PState} (h : FramingSt T L st ∧ ∀ h ∈ st.hs, Fine h) :
    FramingSt T L (rwPrim p st).1 ∧ ∀ h ∈ (rwPrim p st).1.hs, Fine h := by
  refine ⟨rwPrim_framing hp h.1, ?_⟩
  cases p with
  | hdrDel re => exact fun y hy => h.2 y (List.mem_filter.1 hy).1
  | hdrSet t =>
    obtain ⟨n, v, hl, n1, n2, n3, n4⟩ := hp
    refine withExpansion_inv (I := fun st => ∀ h ∈ st.hs, Fine h) h.2 fun s hs => ?_
    obtain ⟨v', hl'⟩ := expand_header hl n1 n2 hs
    obtain ⟨hs', e, -⟩ := listAppend_spec h.1.good hl' .replace
    rw [e]
    exact listAppend_fine h.2 hl' e
  | paramSet n t => exact withExpansion_inv (I := fun st => ∀ h ∈ st.hs, Fine h) h.2 fun s hs => h.2
  | urlSet t => exact withExpansion_inv (I := fun st => ∀ h ∈ st.hs, Fine h) h.2 fun s hs => h.2
  | pathSet t => exact withExpansion_inv (I := fun st => ∀ h ∈ st.hs, Fine h) h.2 fun s hs => h.2
  | querySet t => exact withExpansion_inv (I := fun st => ∀ h ∈ st.hs, Fine h) h.2 fun s hs => h.2

theorem matchCond_fine {T L : List Bytes} (x : CondCtx) (c : Cond) (st : PState) (h : FramingSt T L st ∧ ∀ h ∈ st.hs, Fine h) :
    FramingSt T L (matchCond x c st).1 ∧ ∀ h ∈ (matchCond x c st).1.hs, Fine h :=
  ⟨matchCond_framing x c st h.1, (matchCond_hs x c st) ▸ h.2⟩

end Pound
