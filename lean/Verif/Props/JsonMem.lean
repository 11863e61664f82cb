import Verif.Proof.JsonMem
import Verif.Props.Own
import Verif.Props.Metrics

namespace Pound.Props
open Pound Spec

variable {D : Type}

/-- The request ends without faults, with the same blocks in use as before it, and with this reply. -/
def Answers (p : HM (Nat × Bytes)) (status : Nat) (text : Bytes) : Prop :=
  ∀ m, Mem.Fit m → Plenty m → ∃ m', p m = .ok (status, text) m' ∧ m'.live.Perm m.live

theorem answers_of {p : HM (Nat × Bytes)} {s : Nat} {t : Bytes} (h : Hoare true zr p (fun _ => zr) (fun r => r = (s, t))) : Answers p s t := by
  intro m h1 h2
  obtain ⟨a, m', e, rfl, hp⟩ := Hoare.run h h1.1 h1.2 fun _ => h2
  exact ⟨m', e, hp⟩

/-- For every state of the program: its status, as JSON, is sent with the indentation asked for, and all memory is given back. -/
theorem C103_status_partial (L : DblLib D) (N : NumLib D) (i : Nat) (st : JState D) :
    ∃ v, poundSerialize L (stShown L st) = .ok v ∧ Answers (controlListP N (some i) (poundP L st)) 200 (fmtVal N i 0 v) := by
  obtain ⟨v, hv, -⟩ := metrics_fill L (stShown L st)
  exact ⟨v, hv, answers_of (controlList_h N i (pound_m L st hv))⟩

/-- The same of the request for the numbers of the program alone. -/
theorem C103_core_partial (L : DblLib D) (N : NumLib D) (i : Nat) (st : JState D) :
    ∃ ws v, workersSerialize L st.workers = .ok ws ∧
      jObject [(b!"version", .str st.version), (b!"pid", .int (L.ofInt st.pid)), (b!"timestamp", .str st.timestamp), (b!"queue_len", .int (L.ofInt st.queueLen)), (b!"workers", ws)] = .ok v ∧
      Answers (controlListP N (some i) (coreP L st)) 200 (fmtVal N i 0 v) := by
  obtain ⟨c, ps, hw, -⟩ := workers_gen L st.workers
  obtain ⟨c', ps', hv, -⟩ := jObject_fields [(b!"version", (.str st.version : JVal D)), (b!"pid", .int (L.ofInt st.pid)), (b!"timestamp", .str st.timestamp),
    (b!"queue_len", .int (L.ofInt st.queueLen)), (b!"workers", .obj c ps)]
  exact ⟨_, _, hw, hv, answers_of (controlList_h N i ((core_h L st hw).post (fun _ _ _ => rfl) fun _ ⟨j, o, e, h1, h2⟩ => ⟨j, e, isObj_full h1, isObj_obj h1 h2 hv⟩))⟩

/-- Of the request for one listener -/
theorem C103_listener_partial (L : DblLib D) (N : NumLib D) (i : Nat) (stats : Bool) (l : JLst D) {v : JVal D} (hv : mlstSerialize L stats (lstShown L l) = .ok v) :
    Answers (controlListP N (some i) (listenerP L stats l)) 200 (fmtVal N i 0 v) := answers_of (controlList_h N i (listener_m L stats l hv))

/-- Of the request for one service -/
theorem C103_service_partial (L : DblLib D) (N : NumLib D) (i : Nat) (stats : Bool) (s : JSvc D) {v : JVal D} (hv : msvcSerialize L stats (svcShown L s) = .ok v) :
    Answers (controlListP N (some i) (serviceP L stats s)) 200 (fmtVal N i 0 v) := answers_of (controlList_h N i (service_m L stats s hv))

/-- Of the request for one backend -/
theorem C103_backend_partial (L : DblLib D) (N : NumLib D) (i : Nat) (stats : Bool) (b : MBe D) {v : JVal D} (hv : mbeSerialize L stats b = .ok v) :
    Answers (controlListP N (some i) (backendP L stats b)) 200 (fmtVal N i 0 v) := answers_of (controlList_h N i (backend_m L stats b hv))

/-- If the indentation asked for is no number up to 80, the request is refused; memory is given back as well. -/
theorem C103_indent_partial (L : DblLib D) (N : NumLib D) (st : JState D) : Answers (controlListP N none (poundP L st)) 400 [] := by
  obtain ⟨v, hv, -⟩ := metrics_fill L (stShown L st)
  exact answers_of (controlBad_h N (pound_m L st hv))

/-- The request ends without faults, whatever allocations fail, with this text or with an error. -/
def AnswersOr500 (p : HM (Nat × Bytes)) (text : Bytes) : Prop := ∀ m, Mem.Fit m → ∃ r m', p m = .ok r m' ∧ (r = (200, text) ∨ r = (500, []))

theorem answersOr_of {p : HM (Nat × Bytes)} {t : Bytes} (h : Safe zr p (fun _ => zr) (fun r => r = (200, t) ∨ r = (500, []))) : AnswersOr500 p t := by
  intro m h1
  obtain ⟨r, m', e, -, hr, -⟩ := h m zr ⟨h1.1, h1.2⟩ (fun x => Nat.zero_le _)
  exact ⟨r, m', e, hr⟩

/-- When memory runs out: the request for the numbers of the program is answered in full or with an error. -/
theorem C103_core_memory_partial (L : DblLib D) (N : NumLib D) (i : Nat) (st : JState D) :
    ∃ ws v, workersSerialize L st.workers = .ok ws ∧
      jObject [(b!"version", .str st.version), (b!"pid", .int (L.ofInt st.pid)), (b!"timestamp", .str st.timestamp), (b!"queue_len", .int (L.ofInt st.queueLen)), (b!"workers", ws)] = .ok v ∧
      AnswersOr500 (controlListP N (some i) (coreP L st)) (fmtVal N i 0 v) := by
  obtain ⟨c, ps, hw, -⟩ := workers_gen L st.workers
  obtain ⟨c', ps', hv, -⟩ := jObject_fields [(b!"version", (.str st.version : JVal D)), (b!"pid", .int (L.ofInt st.pid)), (b!"timestamp", .str st.timestamp),
    (b!"queue_len", .int (L.ofInt st.queueLen)), (b!"workers", .obj c ps)]
  exact ⟨_, _, hw, hv, answersOr_of (controlList_t N i (core_t L st hw hv))⟩

/-- And so is the request for a backend, if no statistics are kept. -/
theorem C103_backend_memory_partial (L : DblLib D) (N : NumLib D) (i : Nat) (b : MBe D) {v : JVal D} (hv : mbeSerialize L false b = .ok v) :
    AnswersOr500 (controlListP N (some i) (backendP L false b)) (fmtVal N i 0 v) := answersOr_of (controlList_t N i (backend_t L b hv))

/-! ### A program with a listener, two services and a session -/

def numLib : NumLib Int := ⟨decInt, decInt, fun p => (0, p), fun _ => false, fun _ => false⟩

def jBe : MBe Int := ⟨.regular b!"10.0.0.1:80" 15 15 600 false none .none true, 5, false, 1, 2, 7, 50⟩

def jSvc : JSvc Int := ⟨some b!"s", false, b!"IP", some [⟨b!"10.1.1.1", 0, b!"2026-01-01T00:00:00.000000"⟩], [[jBe]]⟩

def jLst : JLst Int := ⟨some b!"main", b!"0.0.0.0:80", false, 0, false, [jSvc]⟩

def jState : JState Int := ⟨true, b!"4.14", 77, b!"2026-01-01T00:00:00.000000", 0, ⟨5, 128, 15, 5, 0⟩, [jLst], [{ jSvc with sess := none }]⟩

def replyOf : Out (Nat × Bytes) → Option (Nat × Bytes)
  | .ok r _ => some r
  | _ => none

example : replyOf (controlListP numLib (some 0) (serviceP intLib true jSvc) mem0) =
    some (200, b!"{\"backends\":[{\"address\":\"10.0.0.1:80\", \"alive\":true, \"conn_to\":15, \"enabled\":true, \"io_to\":15, \"priority\":5, \"protocol\":\"http\", \"servername\":null, \"stats\":{\"request_count\":2, \"request_time_avg\":7, \"request_time_stddev\":1}, \"type\":\"backend\", \"weight\":1, \"ws_to\":600}], \"enabled\":true, \"name\":\"s\", \"session_type\":\"IP\", \"sessions\":[{\"backend\":0, \"expire\":\"2026-01-01T00:00:00.000000\", \"key\":\"10.1.1.1\"}]}") := by
  decide +kernel

example : ended (controlListP numLib (some 2) (poundP intLib jState) mem0) = some 0 := by decide +kernel

example : replyOf (controlListP numLib (some 0) (coreP intLib jState) (memFail 12)) = some (500, []) := by decide +kernel
example : replyOf (controlListP numLib (some 0) (backendP intLib false ⟨.acme, 5, false, 1, 2, 7, 50⟩) (memFail 100)) =
    some (200, b!"{\"alive\":true, \"enabled\":true, \"priority\":5, \"type\":\"acme\", \"weight\":1}") := by decide +kernel

/-! ### What fails when memory runs out -/

def jLst1 : JLst Int := { jLst with services := [{ jSvc with balancers := [], sess := none }] }

/-- An array without its second block: it is used all the same, through NULL. -/
theorem C103_array_fails : ¬ ∀ (l : JLst Int) (m : Mem), Mem.Fit m → ∃ r m', controlListP numLib (some 0) (listenerP intLib true l) m = .ok r m' := by
  intro h
  obtain ⟨r, m', h⟩ := h jLst1 (memFail 18) (memFail_fit 18)
  have : isNull (controlListP numLib (some 0) (listenerP intLib true jLst1) (memFail 18)) = true := by decide +kernel
  rw [h] at this
  cases this

/-- The array of services cannot be added to the listener: it is released, and then services are added to it. -/
theorem C103_released_fails : ∃ m, Mem.Fit m ∧ controlListP numLib (some 0) (listenerP intLib true jLst1) m = .bad := by
  refine ⟨memFail 19, memFail_fit 19, ?_⟩
  have : isBad (controlListP numLib (some 0) (listenerP intLib true jLst1) (memFail 19)) = true := by decide +kernel
  cases h : controlListP numLib (some 0) (listenerP intLib true jLst1) (memFail 19) with
  | bad => rfl
  | ok a m => rw [h] at this; cases this
  | null => rw [h] at this; cases this

/-- A listener is sent without its name, and with the status of success. -/
theorem C103_omits_fails : ¬ ∀ (l : JLst Int) (m m' : Mem) (t : Bytes) (v : JVal Int), Mem.Fit m → mlstSerialize intLib true (lstShown intLib l) = .ok v →
    controlListP numLib (some 0) (listenerP intLib true l) m = .ok (200, t) m' → t = fmtVal numLib 0 0 v := by
  intro h
  have h0 : (match controlListP numLib (some 0) (listenerP intLib true jLst1) (memFail 2) with | .ok (s, t) _ => s == 200 && t.length == 157 | _ => false) = true := by decide +kernel
  have h1 : (match mlstSerialize intLib true (lstShown intLib jLst1) with | .ok v => (fmtVal numLib 0 0 v).length == 172 | _ => false) = true := by decide +kernel
  cases hr : controlListP numLib (some 0) (listenerP intLib true jLst1) (memFail 2) with
  | bad => rw [hr] at h0; cases h0
  | null => rw [hr] at h0; cases h0
  | ok r m' =>
    obtain ⟨s, t⟩ := r
    rw [hr] at h0
    dsimp only at h0
    rw [Bool.and_eq_true, beq_iff_eq, beq_iff_eq] at h0
    obtain ⟨rfl, ht⟩ := h0
    cases hv : mlstSerialize intLib true (lstShown intLib jLst1) with
    | ub => rw [hv] at h1; cases h1
    | ok v =>
      rw [hv] at h1
      have e := h jLst1 (memFail 2) m' t v (memFail_fit 2) hv hr
      rw [beq_iff_eq, ← e, ht] at h1
      cases h1

/-- A backend is sent without its statistics, and with the status of success. -/
theorem C103_stats_fails : ¬ ∀ (b : MBe Int) (m m' : Mem) (t : Bytes) (v : JVal Int), Mem.Fit m → mbeSerialize intLib true b = .ok v →
    controlListP numLib (some 0) (backendP intLib true b) m = .ok (200, t) m' → t = fmtVal numLib 0 0 v := by
  intro h
  have h0 : (match controlListP numLib (some 0) (backendP intLib true ⟨.acme, 5, false, 1, 2, 7, 50⟩) (memFail 23) with | .ok (s, t) _ => s == 200 && t.length == 100 | _ => false) = true := by decide +kernel
  have h1 : (match mbeSerialize intLib true ⟨.acme, 5, false, 1, 2, 7, 50⟩ with | .ok v => (fmtVal numLib 0 0 v).length == 147 | _ => false) = true := by decide +kernel
  cases hr : controlListP numLib (some 0) (backendP intLib true ⟨.acme, 5, false, 1, 2, 7, 50⟩) (memFail 23) with
  | bad => rw [hr] at h0; cases h0
  | null => rw [hr] at h0; cases h0
  | ok r m' =>
    obtain ⟨s, t⟩ := r
    rw [hr] at h0
    dsimp only at h0
    rw [Bool.and_eq_true, beq_iff_eq, beq_iff_eq] at h0
    obtain ⟨rfl, ht⟩ := h0
    cases hv : mbeSerialize intLib true ⟨.acme, 5, false, 1, 2, 7, 50⟩ with
    | ub => rw [hv] at h1; cases h1
    | ok v =>
      rw [hv] at h1
      have e := h _ (memFail 23) m' t v (memFail_fit 23) hv hr
      rw [beq_iff_eq, ← e, ht] at h1
      cases h1

/-- A value that cannot be added to its object is lost. -/
theorem C103_lost_fails : ¬ ∀ (st : JState Int) (m : Mem), Mem.Fit m → Tidy (controlListP numLib (some 0) (coreP intLib st)) m := by
  intro h
  obtain ⟨u, m', h, hp⟩ := h jState (memFail 4) (memFail_fit 4)
  have : ended (controlListP numLib (some 0) (coreP intLib jState) (memFail 4)) = some 2 := by decide +kernel
  rw [h] at this
  have hl := hp.length_eq
  injection this with this
  rw [this] at hl
  cases hl

end Pound.Props
