import Verif.Model.Whole
import Verif.Spec.Whole
import Verif.Proof.FullServed
import Verif.Proof.Replies
import Verif.Props.Transit

/-!
Proofs about connections to a listener as it is configured.
-/

namespace Pound
open Spec Props

theorem status_code (st : Status) : statusOfCode (codeReason st).1 = some st := by cases st <;> decide

theorem info_reason (st : Status) : statusInfo st = codeReason st := by cases st <;> rfl

/-- What is done about a request and the handler that does it -/
inductive Does : Decision → Status ⊕ OwnBe → Prop
  | refuse {st} : Does (.refuse st) (.inl st)
  | error {st text x now} : Does (.error st text) (.inr (.error st text x [] [] now))
  | redirect {env url code target hasUri u} : code ∈ [301, 302, 303, 307, 308] → expandUrl env url target hasUri = .str u →
      Does (.redirect code u) (.inr (.redirect env url code target hasUri))
  | noUrl {env url code target hasUri} : code ∈ [301, 302, 303, 307, 308] → expandUrl env url target hasUri = .null →
      Does (.refuse .internalError) (.inr (.redirect env url code target hasUri))

theorem redirect_code {code : Nat} (h : code ∈ [301, 302, 303, 307, 308]) : ∃ m, redirectText code = some m := by
  simp only [List.mem_cons, List.not_mem_nil, or_false] at h
  rcases h with rfl | rfl | rfl | rfl | rfl <;> exact ⟨_, rfl⟩

theorem does_handled {pg : Pages} {ver : Nat} {d : Decision} {be : OwnBe} (h : Does d (.inr be)) :
    ∃ out res, ownHandler pg ver be = .did out res ∧ (res = .ok ↔ ∀ st, d ≠ .refuse st) ∧ (res ≠ .ok → res = .internalError) := by
  cases h with
  | @error st text x now =>
    refine ⟨replyStartList ver (statusInfo st).1 (statusInfo st).2 errHs (errText pg st text).length ++ errText pg st text, .ok, ?_, by simp, by simp⟩
    simp only [ownHandler, errorResponse, errState_eq, rewriteResponse, rewriteApply]
    rfl
  | redirect hc hu =>
    obtain ⟨m, hm⟩ := redirect_code hc
    refine ⟨?w, .ok, ?h, by simp, by simp⟩
    case h =>
      simp only [ownHandler, redirectResponse, hm, hu]
      rfl
  | noUrl hc hu =>
    obtain ⟨m, hm⟩ := redirect_code hc
    refine ⟨[], .internalError, ?_, by simp, fun _ => rfl⟩
    simp only [ownHandler, redirectResponse, hm, hu]

/-- The selection of handlers, where it is known -/
def knownSel (sel : Nat → Accepted → Option (Status ⊕ OwnBe)) (i : Nat) (a : Accepted) : Status ⊕ OwnBe := (sel i a).getD (.inl .internalError)

theorem closes_iff {cfg : LstnCfg} {msie : Accepted → Bool} {a : Accepted} (hv : a.rl.version ≤ 1) :
    (a.rl.version = 0 ∨ (a.scan.connClosed || forceHttp10 cfg (msie a)) = true) ↔ ¬ (a.rl.version = 1 ∧ a.scan.connClosed = false ∧ ¬ HttpsClose cfg (msie a)) := by
  rw [Bool.or_eq_true, forceHttp10_iff]
  constructor
  · rintro (h | h | h) ⟨g1, g2, g3⟩
    · omega
    · rw [h] at g2; cases g2
    · exact g3 h
  · intro h
    by_cases h0 : a.rl.version = 0
    · exact .inl h0
    by_cases h1 : a.scan.connClosed = true
    · exact .inr (.inl h1)
    by_cases h2 : HttpsClose cfg (msie a)
    · exact .inr (.inr h2)
    exact absurd ⟨by omega, by simpa using h1, h2⟩ h

theorem treats_run {cfg : LstnCfg} {msie : Accepted → Bool} (pg : Pages) {D : Nat → Accepted → Decision → Prop} {sel : Nat → Accepted → Option (Status ⊕ OwnBe)}
    (hd : ∀ inp i a d, acceptRequest cfg inp = .ok a → D i a d → ∃ x, sel i a = some x ∧ Does d x) {i : Nat} {inp : Bytes} {l : List (Bool × Decision)} (h : Treats cfg msie D i inp l) :
    ∀ fuel, inp.length < fuel → ∃ w, wholeConn cfg msie pg sel fuel i inp = some (w, .closed) ∧ ownConn cfg msie pg (knownSel sel) fuel i inp = (w, .closed) := by
  induction h with
  | done ha =>
    intro fuel hf
    obtain ⟨n, rfl⟩ : ∃ n, fuel = n + 1 := ⟨fuel - 1, by omega⟩
    exact ⟨[], by simp [wholeConn, ha], by simp [ownConn, ha]⟩
  | bad ha =>
    intro fuel hf
    obtain ⟨n, rfl⟩ : ∃ n, fuel = n + 1 := ⟨fuel - 1, by omega⟩
    rename_i i inp st
    exact ⟨httpErrReply pg (errVersion cfg inp) st, by simp only [wholeConn, ha], by simp only [ownConn, ha]⟩
  | refused ha hD =>
    rename_i i inp a _
    intro fuel hf
    obtain ⟨n, rfl⟩ : ∃ n, fuel = n + 1 := ⟨fuel - 1, by omega⟩
    obtain ⟨x, hx, hdo⟩ := hd _ _ _ _ ha hD
    cases x with
    | inl st =>
      exact ⟨httpErrReply pg a.rl.version st, by simp only [wholeConn, ha, hx], by simp only [ownConn, ha, knownSel, hx, Option.getD_some]⟩
    | inr be =>
      obtain ⟨out, res, h1, h2, -⟩ := does_handled (pg := pg) (ver := a.rl.version) hdo
      have h3 : res ≠ .ok := fun he => (h2.mp he) _ rfl
      refine ⟨out ++ httpErrReply pg a.rl.version res, ?_, ?_⟩
      rotate_left
      · simp only [ownConn, ha, knownSel, hx, Option.getD_some, h1]
        rw [if_pos h3]
      · simp only [wholeConn, ha, hx, h1]
        rw [if_pos h3]
  | last ha hD hn hc =>
    rename_i i inp a _
    intro fuel hf
    obtain ⟨n, rfl⟩ : ∃ n, fuel = n + 1 := ⟨fuel - 1, by omega⟩
    obtain ⟨x, hx, hdo⟩ := hd _ _ _ _ ha hD
    cases x with
    | inl st => cases hdo; exact absurd rfl (hn _)
    | inr be =>
      obtain ⟨out, res, h1, h2, -⟩ := does_handled (pg := pg) (ver := a.rl.version) hdo
      have h3 : res = .ok := h2.mpr hn
      have hc' := (closes_iff (cfg := cfg) (msie := msie) (accepted_version ha)).mpr (by
        rintro ⟨g1, g2, g3⟩
        rcases hc with h | h | h
        · omega
        · rw [h] at g2; cases g2
        · exact g3 h)
      refine ⟨out, ?_, ?_⟩
      rotate_left
      · simp only [ownConn, ha, knownSel, hx, Option.getD_some, h1]
        rw [if_neg (by simpa using h3), if_pos hc']
      · simp only [wholeConn, ha, hx, h1]
        rw [if_neg (by simpa using h3), if_pos hc']
  | more ha hD hn hv hk hs _ ih =>
    rename_i i inp a _ _ _
    intro fuel hf
    obtain ⟨n, rfl⟩ : ∃ n, fuel = n + 1 := ⟨fuel - 1, by omega⟩
    obtain ⟨x, hx, hdo⟩ := hd _ _ _ _ ha hD
    cases x with
    | inl st => cases hdo; exact absurd rfl (hn _)
    | inr be =>
      obtain ⟨out, res, h1, h2, -⟩ := does_handled (pg := pg) (ver := a.rl.version) hdo
      have h3 : res = .ok := h2.mpr hn
      have hc' := fun h => (closes_iff (cfg := cfg) (msie := msie) (accepted_version ha)).mp h ⟨hv, hk, hs⟩
      obtain ⟨w, w1, w2⟩ := ih n (by have := accepted_shorter ha; omega)
      refine ⟨out ++ w, ?_, ?_⟩
      · simp only [wholeConn, ha, hx, h1]
        rw [if_neg (by simpa using h3), if_neg hc', w1]
        rfl
      · simp only [ownConn, ha, knownSel, hx, Option.getD_some, h1]
        rw [if_neg (by simpa using h3), if_neg hc', w2]

theorem does_answer {pg : Pages} {ver : Nat} {d : Decision} {be : OwnBe} {y : Nat × Bytes} (h : Does d (.inr be)) (ho : OwnAnswer pg ver be false y) :
    AnswerTo pg d y ∧ ∀ st, d ≠ .refuse st := by
  cases h with
  | error =>
    refine ⟨?_, nofun⟩
    cases ho with
    | text => exact .text
    | page h => exact .page h
    | plain h h' => exact .plain h h'
  | redirect hc hu =>
    refine ⟨?_, nofun⟩
    cases ho with
    | redirect _ h h' => rw [hu] at h; cases h; exact .redirect h'
  | noUrl hc hu =>
    cases ho with
    | redirect _ h h' => rw [hu] at h; cases h

theorem does_answer_failed {pg : Pages} {ver : Nat} {d : Decision} {be : OwnBe} {y : Nat × Bytes} (h : Does d (.inr be)) (ho : OwnAnswer pg ver be true y) :
    AnswerTo pg d y ∧ ∃ st, d = .refuse st := by
  cases h with
  | error =>
    cases ho with
    | rules h _ =>
      obtain ⟨st0, st1, v, h1, h2, h3⟩ := h
      simp only [rewriteResponse, rewriteApply, Prod.mk.injEq, CondRes.val.injEq] at h2
      simp at h2
      exact absurd h2.2.symm h3
  | redirect hc hu =>
    cases ho with
    | noRedirect h _ =>
      obtain ⟨m, hm⟩ := redirect_code hc
      simp only [redirectResponse, hm, hu] at h
      cases h
  | noUrl hc hu =>
    cases ho with
    | noRedirect _ h => exact ⟨.refuse h, _, rfl⟩

theorem treats_answers {cfg : LstnCfg} {msie : Accepted → Bool} {pg : Pages} {D : Nat → Accepted → Decision → Prop} {sel : Nat → Accepted → Option (Status ⊕ OwnBe)}
    (hd : ∀ inp i a d, acceptRequest cfg inp = .ok a → D i a d → ∃ x, sel i a = some x ∧ Does d x) {i : Nat} {inp : Bytes} {l : List (Bool × Decision)} (h : Treats cfg msie D i inp l) :
    ∀ l', Served cfg msie pg (knownSel sel) i inp l' → l'.map (·.1) = l.map (·.1) ∧ Each (AnswerTo pg) (l.map (·.2)) (l'.map (·.2)) := by
  induction h with
  | done ha =>
    intro l' hs
    cases hs with
    | done => exact ⟨rfl, .nil⟩
    | refused h | noBackend h | failed h | last h | more h => rw [ha] at h; cases h
  | bad ha =>
    intro l' hs
    cases hs with
    | refused h hy => rw [ha] at h; cases h; exact ⟨rfl, .cons (.refuse hy) .nil⟩
    | done h | noBackend h | failed h | last h | more h => rw [ha] at h; cases h
  | refused ha hD =>
    intro l' hs
    obtain ⟨x, hx, hdo⟩ := hd _ _ _ _ ha hD
    cases hs with
    | done h | refused h => rw [ha] at h; cases h
    | noBackend h hs hy =>
      rw [ha] at h; cases h
      rw [knownSel, hx] at hs
      cases hs
      cases hdo
      exact ⟨rfl, .cons (.refuse hy) .nil⟩
    | failed h hs hy =>
      rw [ha] at h; cases h
      rw [knownSel, hx] at hs
      cases hs
      exact ⟨rfl, .cons (does_answer_failed hdo hy).1 .nil⟩
    | last h hs hy | more h hs hy =>
      rw [ha] at h; cases h
      rw [knownSel, hx] at hs
      cases hs
      exact absurd rfl ((does_answer hdo hy).2 _)
  | last ha hD hn hc =>
    intro l' hs
    obtain ⟨x, hx, hdo⟩ := hd _ _ _ _ ha hD
    cases hs with
    | done h | refused h => rw [ha] at h; cases h
    | noBackend h hs hy =>
      rw [ha] at h; cases h
      rw [knownSel, hx] at hs
      cases hs
      cases hdo
      exact absurd rfl (hn _)
    | failed h hs hy =>
      rw [ha] at h; cases h
      rw [knownSel, hx] at hs
      cases hs
      obtain ⟨-, st, he⟩ := does_answer_failed hdo hy
      exact absurd he (hn _)
    | last h hs hy =>
      rw [ha] at h; cases h
      rw [knownSel, hx] at hs
      cases hs
      exact ⟨rfl, .cons (does_answer hdo hy).1 .nil⟩
    | more h hs hy g1 g2 g3 =>
      rw [ha] at h; cases h
      rcases hc with h | h | h
      · omega
      · rw [h] at g2; cases g2
      · exact absurd h g3
  | more ha hD hn hv hk hs' _ ih =>
    intro l' hs
    obtain ⟨x, hx, hdo⟩ := hd _ _ _ _ ha hD
    cases hs with
    | done h | refused h => rw [ha] at h; cases h
    | noBackend h hs hy =>
      rw [ha] at h; cases h
      rw [knownSel, hx] at hs
      cases hs
      cases hdo
      exact absurd rfl (hn _)
    | failed h hs hy =>
      rw [ha] at h; cases h
      rw [knownSel, hx] at hs
      cases hs
      obtain ⟨-, st, he⟩ := does_answer_failed hdo hy
      exact absurd he (hn _)
    | last h hs hy hc =>
      rw [ha] at h; cases h
      rcases hc with h | h | h
      · omega
      · rw [h] at hk; cases hk
      · exact absurd h hs'
    | more h hs hy g1 g2 g3 h' =>
      rw [ha] at h; cases h
      rw [knownSel, hx] at hs
      cases hs
      obtain ⟨i1, i2⟩ := ih _ h'
      exact ⟨by simp only [List.map_cons, i1], .cons (does_answer hdo hy).1 i2⟩

end Pound
