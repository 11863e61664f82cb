import Verif.Model.Metrics

/-!
What the metrics page is to show, and how a scraper reads it.
-/

namespace Pound.Spec

/-- The elements of a list, each with the labels `pfx` and a further one that gives its place, counted from 0 -/
def placed {α} (pfx : MLabels) (label : Bytes) (l : List α) : List (MLabels × α) := l.zipIdx.map fun p => (pfx ++ [(label, dec p.2)], p.1)

/-- The listeners -/
def allListeners {D} (st : MState D) : List (MLabels × MLst D) := placed [] b!"listener" st.listeners

/-- The services: those of each listener, labelled with its number and their own, and the ones outside listeners -/
def allServices {D} (st : MState D) : List (MLabels × MSvc D) :=
  (allListeners st).flatMap (fun l => placed l.1 b!"service" l.2.services) ++ placed [] b!"service" st.services

/-- The backends of each service, those of all its balancers numbered through -/
def allBackends {D} (st : MState D) : List (MLabels × MBe D) :=
  (allServices st).flatMap fun s => placed s.1 b!"backend" s.2.balancers.flatten

/-- Does the backend take requests: a regular one if it has not failed, one that stands for others never does, redirects and the like always do -/
def isAlive {D} (b : MBe D) : Bool :=
  match b.v with
  | .regular _ _ _ _ _ _ _ ok => ok
  | .matrix .. => false
  | .redirect .. | .acme | .control | .metrics | .error .. => true

/-- Has the backend statistics: not if it stands for others -/
def hasStats {D} (b : MBe D) : Bool :=
  match b.v with
  | .matrix .. => false
  | _ => true

def isEnabled {D} (b : MBe D) : Bool := !b.disabled

def flag {D} (L : DblLib D) (b : Bool) : D := L.ofInt (if b then 1 else 0)

/-- The samples of each family: what is counted or told, of which object -/
def samplesOf {D} (L : DblLib D) (st : MState D) : Fam → List (Sample D)
  | .workers => [⟨[(b!"type", b!"active")], L.ofInt st.workers.active⟩, ⟨[(b!"type", b!"count")], L.ofInt st.workers.count⟩,
      ⟨[(b!"type", b!"max")], L.ofInt st.workers.max⟩, ⟨[(b!"type", b!"min")], L.ofInt st.workers.min⟩]
  | .listenerEnabled => (allListeners st).map fun l => ⟨l.1, flag L !l.2.disabled⟩
  | .listenerInfo => (allListeners st).map fun l =>
      ⟨l.1 ++ [(b!"name", l.2.name.getD []), (b!"address", l.2.address), (b!"protocol", if l.2.https then b!"https" else b!"http")], L.ofInt 1⟩
  | .serviceInfo => (allServices st).map fun s => ⟨s.1 ++ [(b!"name", s.2.name.getD [])], L.ofInt 1⟩
  | .serviceEnabled => (allServices st).map fun s => ⟨s.1, flag L !s.2.disabled⟩
  | .backends => (allServices st).flatMap fun s =>
      let bs := s.2.balancers.flatten
      [⟨s.1 ++ [(b!"state", b!"total")], L.ofInt bs.length⟩,
       ⟨s.1 ++ [(b!"state", b!"enabled")], L.ofInt (bs.filter isEnabled).length⟩,
       ⟨s.1 ++ [(b!"state", b!"alive")], L.ofInt (bs.filter isAlive).length⟩,
       ⟨s.1 ++ [(b!"state", b!"active")], L.ofInt (bs.filter fun b => isAlive b && isEnabled b).length⟩]
  | .backendState => (allBackends st).flatMap fun b =>
      [⟨b.1 ++ [(b!"state", b!"alive")], flag L (isAlive b.2)⟩, ⟨b.1 ++ [(b!"state", b!"enabled")], flag L (isEnabled b.2)⟩]
  | .backendRequests => ((allBackends st).filter fun b => st.stats && hasStats b.2).map fun b => ⟨b.1, L.ofInt b.2.numreq⟩
  | .backendAvg => ((allBackends st).filter fun b => st.stats && hasStats b.2 && decide (b.2.numreq > 0)).map fun b => ⟨b.1, b.2.avgtime⟩
  | .backendStddev => ((allBackends st).filter fun b => st.stats && hasStats b.2 && decide (b.2.numreq > 0)).map fun b =>
      ⟨b.1, L.dev b.2.avgsqtime b.2.avgtime⟩

/-- The order of the families on the page -/
def famOrder : List Fam :=
  [.workers, .listenerEnabled, .listenerInfo, .serviceInfo, .serviceEnabled, .backends, .backendState, .backendRequests, .backendAvg, .backendStddev]

/-- The line of a sample -/
def sampleLine {D} (L : DblLib D) (name : Bytes) (s : Sample D) : Bytes :=
  name ++ b!"{" ++ List.intercalate b!"," (s.labels.map fun l => l.1 ++ b!"=\"" ++ l.2 ++ b!"\"") ++ b!"} " ++ L.fmt0 s.number

/-- The lines of a family -/
def famLines {D} (L : DblLib D) (f : Fam) (ss : List (Sample D)) : List Bytes :=
  [b!"# TYPE " ++ f.text.name ++ b!" " ++ f.text.type] ++
  (match f.text.unit with | some u => [b!"# UNIT " ++ f.text.name ++ b!" " ++ u] | none => []) ++
  [b!"# HELP " ++ f.text.name ++ b!" " ++ f.text.help] ++ ss.map (sampleLine L f.text.name)

/-- The lines of the page: families of which there are samples, and the mark of the end -/
def pageLines {D} (L : DblLib D) (st : MState D) : List Bytes :=
  (famOrder.filter fun f => !(samplesOf L st f).isEmpty).flatMap (fun f => famLines L f (samplesOf L st f)) ++ [b!"# EOF"]

/-- Lines, each with its end -/
def unlines (ls : List Bytes) : Bytes := ls.flatMap (· ++ [10])

/-- Every service has a Backend, a Redirect or the like -/
def AllHaveBackends {D} (st : MState D) : Prop := ∀ s ∈ allServices st, s.2.balancers ≠ []

/-- A text that needs no escaping as the value of a label: no quotes, backslashes or line feeds -/
def CleanValue (v : Bytes) : Prop := 34 ∉ v ∧ 92 ∉ v ∧ 10 ∉ v

/-- Names and addresses need no escaping -/
def CleanNames {D} (st : MState D) : Prop :=
  (∀ l ∈ allListeners st, CleanValue (l.2.name.getD []) ∧ CleanValue l.2.address) ∧ ∀ s ∈ allServices st, CleanValue (s.2.name.getD [])

/-! ### Reading the page (OpenMetrics text format, version 1.0.0) -/

/-- The value of a label up to the closing quote, and what follows it: backslash, quote and line feed are written \\, \" and \n. -/
def readQuoted : Bytes → Option (Bytes × Bytes)
  | [] => none
  | 34 :: r => some ([], r)
  | 92 :: 92 :: r => (readQuoted r).map fun p => (92 :: p.1, p.2)
  | 92 :: 34 :: r => (readQuoted r).map fun p => (34 :: p.1, p.2)
  | 92 :: 110 :: r => (readQuoted r).map fun p => (10 :: p.1, p.2)
  | c :: r => if c = 92 ∨ c = 10 then none else (readQuoted r).map fun p => (c :: p.1, p.2)

/-- Letters, digits and underscores -/
def nameCh (c : UInt8) : Bool := isAlnum c || c == 95

/-- One label and what follows it -/
def readLabel (p : Bytes) : Option ((Bytes × Bytes) × Bytes) :=
  match p.dropWhile nameCh with
  | 61 :: 34 :: r => (readQuoted r).map fun q => ((p.takeWhile nameCh, q.1), q.2)
  | _ => none

/-- Labels up to the closing brace; there are at most `n` -/
def readLabels : Nat → Bytes → Option (MLabels × Bytes)
  | 0, _ => none
  | n + 1, p =>
    match readLabel p with
    | some (l, 44 :: r) => (readLabels n r).map fun q => (l :: q.1, q.2)
    | some (l, 125 :: r) => some ([l], r)
    | _ => none

/-- A line with a sample: the name, the labels and the text of the value -/
def readSample (p : Bytes) : Option (Bytes × MLabels × Bytes) :=
  match p.dropWhile nameCh with
  | 123 :: r =>
    match readLabels (r.length + 1) r with
    | some (ls, 32 :: v) => some (p.takeWhile nameCh, ls, v)
    | _ => none
  | 32 :: v => some (p.takeWhile nameCh, [], v)
  | _ => none

/-- Split in lines, each of which must be ended -/
def splitLines : Bytes → Bytes → Option (List Bytes)
  | [], [] => some []
  | [], _ :: _ => none
  | 10 :: r, acc => (splitLines r []).map (acc :: ·)
  | c :: r, acc => splitLines r (acc ++ [c])

/-- The samples of the lines up to the end mark; lines that begin with # tell about families -/
def readPage : List Bytes → Option (List (Bytes × MLabels × Bytes))
  | [] => none
  | l :: ls =>
    if l = b!"# EOF" then if ls = [] then some [] else none
    else if l.head? = some 35 then readPage ls
    else
      match readSample l, readPage ls with
      | some s, some r => some (s :: r)
      | _, _ => none

/-- What a scraper gets from a page -/
def scrape (page : Bytes) : Option (List (Bytes × MLabels × Bytes)) :=
  match splitLines page [] with
  | some ls => readPage ls
  | none => none

end Pound.Spec
