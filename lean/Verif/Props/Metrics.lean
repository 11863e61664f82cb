import Verif.Proof.MetricsRead

/-!
The metrics page: it shows the state of every object (C72), and a scraper reads what it shows (C73).
-/

namespace Pound.Props

open Pound Pound.Spec

/-- Numbers for the examples -/
def intLib : DblLib Int := ⟨id, decInt, fun a b => a - b * b⟩

/-- A state for the examples: one listener with a service of two backends, one of them disabled, and a global service that redirects -/
def metDemo : MState Int where
  stats := true
  version := b!"4.14"
  pid := 77
  timestamp := b!"2024-01-01T00:00:00.000000"
  queueLen := 0
  workers := ⟨5, 128, 30, 6, 2⟩
  listeners := [{ name := none, address := b!"192.0.2.1:80", https := false, noHttps11 := 0, disabled := false, services :=
    [{ name := some b!"web", disabled := false, sessType := b!"NONE", sessions := .null, balancers :=
      [[⟨.regular b!"10.0.0.1:80" 15 15 600 false none .none true, 5, false, 0, 3, 20, 500⟩,
        ⟨.regular b!"10.0.0.2:80" 15 15 600 false none .none false, 5, true, 0, 0, 0, 0⟩]] }] }]
  services := [{ name := some b!"move", disabled := true, sessType := b!"NONE", sessions := .null, balancers :=
    [[⟨.redirect b!"https://example.org" 302 false, 1, false, 0, 1, 4, 16⟩]] }]

/-! ### C72 -/

/-- If every service has backends, the reply is a page with one line for every sample: the numbers of workers; the state and description of every listener;
the description, the state and the numbers of backends of every service, those of listeners and the global ones; and state and statistics of every backend.
Each object is labelled with its place, families come in a fixed order, each once with its header, and the page ends with the end mark.  The length announced is
the length of the page. -/
theorem C72_page_partial {D} (L : DblLib D) (version : Nat) (st : MState D) (h : AllHaveBackends st) :
    metricsResponse L version st = .ok (.inr
      (b!"HTTP/1." ++ dec version ++ b!" 200 OK" ++ [13, 10] ++
       b!"Content-Type: application/openmetrics-text; version=1.0.0; charset=utf-8" ++ [13, 10] ++
       b!"Content-Length: " ++ dec (unlines (pageLines L st)).length ++ [13, 10] ++ [13, 10] ++ unlines (pageLines L st))) := by
  rw [(metrics_page L version st).1 h]
  unfold metricsReply
  have : dec 200 = b!"200" := by decide
  rw [this]
  simp

example : AllHaveBackends metDemo := by
  intro s hs
  have : s.2.balancers ∈ (allServices metDemo).map (fun s => s.2.balancers) := List.mem_map.mpr ⟨s, hs, rfl⟩
  rcases List.mem_cons.mp this with h | h
  · rw [h]; simp
  · rcases List.mem_cons.mp h with h | h
    · rw [h]; simp
    · cases h

example : (samplesOf intLib metDemo .backends).map (fun s => (s.labels, s.number)) =
    [([(b!"listener", b!"0"), (b!"service", b!"0"), (b!"state", b!"total")], 2),
     ([(b!"listener", b!"0"), (b!"service", b!"0"), (b!"state", b!"enabled")], 1),
     ([(b!"listener", b!"0"), (b!"service", b!"0"), (b!"state", b!"alive")], 1),
     ([(b!"listener", b!"0"), (b!"service", b!"0"), (b!"state", b!"active")], 1),
     ([(b!"service", b!"0"), (b!"state", b!"total")], 1),
     ([(b!"service", b!"0"), (b!"state", b!"enabled")], 1),
     ([(b!"service", b!"0"), (b!"state", b!"alive")], 1),
     ([(b!"service", b!"0"), (b!"state", b!"active")], 1)] := by decide +kernel

example : (pageLines intLib metDemo).take 10 =
    [b!"# TYPE pound_workers gauge", b!"# HELP pound_workers Number of pound workers.", b!"pound_workers{type=\"active\"} 2", b!"pound_workers{type=\"count\"} 6",
     b!"pound_workers{type=\"max\"} 128", b!"pound_workers{type=\"min\"} 5", b!"# TYPE pound_listener_enabled stateset",
     b!"# HELP pound_listener_enabled State of a listener: enabled/disabled.", b!"pound_listener_enabled{listener=\"0\"} 1", b!"# TYPE pound_listener_info info"] := by
  decide +kernel

/-- One service without backends, which the configuration may have (the program only warns), and there is no page at all: every request for it is answered with
status 500, whatever else there is to show. -/
theorem C72_no_backends_fails {D} (L : DblLib D) (version : Nat) (st : MState D) (h : ∃ s ∈ allServices st, s.2.balancers = []) :
    metricsResponse L version st = .ok (.inl .internalError) := by
  refine (metrics_page L version st).2 ?_
  obtain ⟨s, hs, he⟩ := h
  exact fun ha => ha s hs he

example : ∃ s ∈ allServices { metDemo with services := [{ name := none, disabled := false, sessType := b!"NONE", sessions := .null, balancers := [] }] },
    s.2.balancers = [] := ⟨([(b!"service", b!"0")], _), List.mem_append_right _ (List.mem_cons_self ..), rfl⟩

/-! ### C73 -/

/-- If names and addresses have no quotes, backslashes and line feeds, a scraper gets from the page exactly the samples: of every family, every sample with its
labels and its number. -/
theorem C73_scraped_partial {D} (L : DblLib D) (hL : ∀ d, 10 ∉ L.fmt0 d) (version : Nat) (st : MState D) (h : AllHaveBackends st) (hc : CleanNames st) :
    ∃ head page, metricsResponse L version st = .ok (.inr (head ++ [13, 10, 13, 10] ++ page)) ∧
      scrape page = some (famOrder.flatMap fun f => (samplesOf L st f).map fun s => (f.text.name, s.labels, L.fmt0 s.number)) := by
  refine ⟨b!"HTTP/1." ++ dec version ++ b!" 200 OK" ++ [13, 10] ++
       b!"Content-Type: application/openmetrics-text; version=1.0.0; charset=utf-8" ++ [13, 10] ++
       b!"Content-Length: " ++ dec (unlines (pageLines L st)).length, unlines (pageLines L st), ?_, scrape_page L hL st hc⟩
  rw [C72_page_partial L version st h]
  simp

example : CleanNames metDemo := by
  unfold CleanNames CleanValue
  constructor
  · intro l hl
    have hm : (l.2.name, l.2.address) ∈ (allListeners metDemo).map (fun l => (l.2.name, l.2.address)) := List.mem_map.mpr ⟨l, hl, rfl⟩
    rcases List.mem_cons.mp hm with h | h
    · rw [(Prod.mk.inj h).1, (Prod.mk.inj h).2]; decide
    · cases h
  · intro s hs
    have hm : s.2.name ∈ (allServices metDemo).map (fun s => s.2.name) := List.mem_map.mpr ⟨s, hs, rfl⟩
    rcases List.mem_cons.mp hm with h | h
    · rw [h]; decide
    · rcases List.mem_cons.mp h with h | h
      · rw [h]; decide
      · cases h

example : scrape (unlines (pageLines intLib metDemo)) ≠ none := by decide +kernel

/-- No two samples of the page have the same name and the same labels: families have different names, and the labels of two samples of a family differ in the
value of one of them; each label occurs once in a sample.  So no object is counted as another, wherever it is. -/
theorem C73_told_apart {D} (L : DblLib D) (st : MState D) :
    (famOrder.map fun f => f.text.name).Nodup ∧
    ∀ f, (samplesOf L st f).Pairwise (fun a b => ∃ n, a.labels.lookup n ≠ b.labels.lookup n) ∧ ∀ s ∈ samplesOf L st f, (s.labels.map (·.1)).Nodup := by
  exact ⟨by decide, fun f => ⟨samples_diff L st f, samples_names_nodup L st f⟩⟩

example : (samplesOf intLib metDemo .backendState).length = 6 := by decide +kernel

/-- The demo with another global service of the given name -/
def metNamed (name : Bytes) : MState Int :=
  { metDemo with services := [{ name := some name, disabled := false, sessType := b!"NONE", sessions := .null, balancers := [[⟨.acme, 1, false, 0, 0, 0, 0⟩]] }] }

theorem metNamed_ok (n : Bytes) : AllHaveBackends (metNamed n) := by
  intro s hs
  have : s.2.balancers ∈ (allServices (metNamed n)).map (fun s => s.2.balancers) := List.mem_map.mpr ⟨s, hs, rfl⟩
  rcases List.mem_cons.mp this with h | h
  · rw [h]; simp
  · rcases List.mem_cons.mp h with h | h
    · rw [h]; simp
    · cases h

/-- The page of a reply: what follows the first empty line -/
def pageOf : Bytes → Bytes
  | 13 :: 10 :: 13 :: 10 :: r => r
  | _ :: r => pageOf r
  | [] => []

/-- Label values are not escaped: with a quote in the name of a service, no scraper can read the page. -/
theorem C73_quote_fails : ∃ reply, metricsResponse intLib 1 (metNamed b!"say \"hi\"") = .ok (.inr reply) ∧ scrape (pageOf reply) = none := by
  refine ⟨metricsReply 1 (unlines (pageLines intLib (metNamed b!"say \"hi\""))), ?_, by decide +kernel⟩
  exact (metrics_page intLib 1 _).1 (metNamed_ok _)

set_option maxRecDepth 100000 in
/-- And with a suitable name, the page reports things that are not so: here a service that has, by its second label, another number. -/
theorem C73_forged_fails : ∃ reply, metricsResponse intLib 1 (metNamed b!"x\",service=\"7") = .ok (.inr reply) ∧
    (scrape (pageOf reply)).map (fun l => l.filter fun s => s.1 == b!"pound_service_info") =
      some [(b!"pound_service_info", [(b!"listener", b!"0"), (b!"service", b!"0"), (b!"name", b!"web")], b!"1"),
        (b!"pound_service_info", [(b!"service", b!"0"), (b!"name", b!"x"), (b!"service", b!"7")], b!"1")] := by
  refine ⟨metricsReply 1 (unlines (pageLines intLib (metNamed b!"x\",service=\"7"))), ?_, by rfl⟩
  exact (metrics_page intLib 1 _).1 (metNamed_ok _)

end Pound.Props
