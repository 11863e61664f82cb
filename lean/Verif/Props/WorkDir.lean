import Verif.Proof.WorkDir

/-! C87: relative file names are looked up in the include directory -/

namespace Pound.Props
open Pound Spec

/-- Whenever a configuration is read to its end, each file it names is the one expected: the main file from the current directory, and all others from the include directory, which is the one given at
start until `IncludeDir` changes it. Password files, read when requests come, come from the last include directory, whatever the process did to its current or root directory in between — or
released memory is used. -/
theorem C87_files (cwd : Bytes) (hc : Absolute cwd) (isDir : Bytes → Bool) (incDir : Option Bytes) (main m : Bytes) (stmts : List WdStmt) (jail : Option Bytes) (daemon : Bool) (fs : List (Option Bytes))
    (ps : List WdPw) (s : WdSt) (e : wdConfig isDir incDir main stmts jail daemon cwd = .ok ((m, fs, ps), s)) :
    m = inDir cwd main ∧ fs = wanted cwd (startDir cwd incDir) stmts ∧ ps.length = (passwds stmts).length ∧
      ∀ x ∈ ps.zip (passwds stmts), wdPassFile s x.1 = .ub ∨ wdPassFile s x.1 = .ok (inDir (lastDir cwd (startDir cwd incDir) stmts) x.2) :=
  wdConfig_spec hc e

/-- The file that `Include` compares with those being read is the one that it reads. -/
theorem C87_include (cwd : Bytes) (hc : Absolute cwd) (isDir : Bytes → Bool) (incDir : Option Bytes) (main n f g : Bytes) (stmts : List WdStmt) (fs : List (Option Bytes)) (p : Bytes × Bytes) (s s' s'' : WdSt)
    (e : wdOpenMain isDir incDir main ⟨[], none, cwd, []⟩ = .ok (p, s)) (e' : wdStmts isDir incDir stmts s = .ok (fs, s')) (e'' : wdPush isDir incDir n s' = .ok ((f, g), s'')) :
    p.1 = inDir cwd main ∧ p.2 = inDir cwd main ∧ f = inDir (lastDir cwd (startDir cwd incDir) stmts) n ∧ g = inDir (lastDir cwd (startDir cwd incDir) stmts) n := by
  rw [wdOpenMain_eq] at e
  cases e
  obtain ⟨_, h⟩ := wdStmts_spec hc stmts (wdStart_inv hc incDir) e'
  obtain ⟨h1, h2, _⟩ := wdPush_spec hc h e''
  exact ⟨rfl, rfl, h1, h2⟩

/-- If all directories that are named can be opened, names of certificates are absolute and some other file is named before the first `IncludeDir`, then the configuration is read to its end and all
password files are found. Missing: other configurations, for which see below. -/
theorem C87_safe_partial (cwd : Bytes) (hc : Absolute cwd) (isDir : Bytes → Bool) (incDir : Option Bytes) (main : Bytes) (stmts : List WdStmt) (jail : Option Bytes) (daemon : Bool)
    (hd : DirsExist isDir cwd incDir stmts jail.isSome) (hcert : CertsAbsolute stmts) (hff : FileFirst stmts) :
    ∃ m fs ps s, wdConfig isDir incDir main stmts jail daemon cwd = .ok ((m, fs, ps), s) ∧
      ∀ x ∈ ps.zip (passwds stmts), wdPassFile s x.1 = .ok (inDir (lastDir cwd (startDir cwd incDir) stmts) x.2) :=
  wdConfig_safe hc main daemon hd hcert hff

/-- A configuration with two directories and a jail -/
def exWd : List WdStmt := [.include b!"a.cfg", .passwd b!"pw", .cert b!"/ssl/c.pem", .includeDir b!"sub", .file b!"err.html", .passwd b!"/auth/pw"]

example : Absolute b!"/work" ∧ DirsExist (fun d => d = b!"/etc" ∨ d = b!"/work/sub" ∨ d = b!"/auth") b!"/work" (some b!"/etc") exWd true ∧ CertsAbsolute exWd ∧ FileFirst exWd := by
  refine ⟨by decide, ⟨fun n h => ?_, fun _ n h ha => ?_⟩, fun n h => ?_, trivial⟩
  · rcases h with h | h
    · cases h; decide
    · have : n = b!"sub" := by simpa [exWd] using h
      subst this
      decide
  · have : n = b!"pw" ∨ n = b!"/auth/pw" := by simpa [exWd] using h
    rcases this with rfl | rfl
    · exact absurd ha (by decide)
    · exact ⟨b!"/auth", b!"pw", by decide, by decide, by decide, by decide⟩
  · have : n = b!"/ssl/c.pem" := by simpa [exWd] using h
    subst this
    decide

/-- What that configuration reads -/
example : (match wdConfig (fun d => d = b!"/etc" ∨ d = b!"/work/sub" ∨ d = b!"/auth") (some b!"/etc") b!"p.cfg" exWd (some b!"/jail") true b!"/work" with
    | .ok ((m, fs, ps), s) => some (m, fs, ps.map (wdPassFile s)) | _ => none)
    = some (b!"/work/p.cfg", [some b!"/etc/a.cfg", none, some b!"/ssl/c.pem", none, some b!"/work/sub/err.html", none], [.ok b!"/work/sub/pw", .ok b!"/auth/pw"]) := by decide +kernel

/-- `IncludeDir` as the first statement makes the program use a null pointer. -/
theorem C87_first_fails (cwd : Bytes) (hc : Absolute cwd) (isDir : Bytes → Bool) (incDir : Option Bytes) (main n : Bytes) (stmts : List WdStmt) (jail : Option Bytes) (daemon : Bool) (hn : n ≠ [])
    (hd : isDir (inDir cwd n) = true) : wdConfig isDir incDir main (.includeDir n :: stmts) jail daemon cwd = .ub := by
  obtain ⟨i, s', hg⟩ := wdGet_ok (name := some n) (wdStart_inv hc incDir).names (isDir := isDir) (fun m e => by cases e; exact ⟨hn, hd⟩)
  obtain ⟨_, h6, _⟩ := wdGet_spec hc (wdStart_inv hc incDir).names hg
  unfold wdConfig
  rw [wdOpenMain_eq]
  show (wdStmts _ _ _ _).bind _ = _
  have : wdStmts isDir incDir (.includeDir n :: stmts) ⟨[⟨cwd, 0, .cwd, false⟩], none, cwd, []⟩ = .ub := by
    show ((wdIncludeDir isDir n _).bind _).bind _ = _
    unfold wdIncludeDir
    rw [hg]
    show ((match s'.inc with | none => _ | some i => _ : WdRes _).bind _).bind _ = _
    rw [h6.inc]
    rfl
  rw [this]
  rfl

/-- With one certificate and one password file, both with relative names, released memory is used when the password file is. -/
theorem C87_cert_fails : ∃ ps s, wdConfig (fun d => d = b!"/etc") (some b!"/etc") b!"p.cfg" [.cert b!"c.pem", .passwd b!"pw"] none false b!"/work" = .ok ((b!"/work/p.cfg", [some b!"/etc/c.pem", none], ps), s) ∧
    ps.map (wdPassFile s) = [.ub] := by
  refine ⟨[⟨some 1, b!"pw"⟩], _, rfl, ?_⟩
  decide +kernel

/-- With two certificates of relative names, naming the include directory once more releases it while it is in use. -/
theorem C87_again_fails : wdConfig (fun d => d = b!"/etc") (some b!"/etc") b!"p.cfg" [.cert b!"c.pem", .cert b!"d.pem", .includeDir b!"/etc", .file b!"err.html"] none false b!"/work" = .ub := by
  decide +kernel

/-- A file with an absolute name cannot be used when the include directory cannot be opened. -/
theorem C87_absolute_fails : wdConfig (fun _ => false) (some b!"/etc") b!"p.cfg" [.file b!"/err.html"] none false b!"/work" = .fail := by decide +kernel

/-- A password file is not looked up in the include directory in effect where it is named. -/
theorem C87_position_fails : ∃ ps s, wdConfig (fun d => d = b!"/a" ∨ d = b!"/b") (some b!"/a") b!"p.cfg" [.file b!"x", .passwd b!"pw", .includeDir b!"/b"] none false b!"/work" = .ok ((b!"/work/p.cfg", [some b!"/a/x", none, none], ps), s) ∧
    ps.map (wdPassFile s) = [.ok b!"/b/pw"] := by
  refine ⟨[⟨some 2, b!"pw"⟩], _, rfl, ?_⟩
  decide +kernel

/-- With `RootJail`, a password file in the root directory is not accepted, although it can be opened. -/
theorem C87_jail_fails : wdConfig (fun _ => true) (some b!"/a") b!"p.cfg" [.passwd b!"/pw"] (some b!"/jail") false b!"/work" = .fail ∧
    ∃ ps s, wdConfig (fun _ => true) (some b!"/a") b!"p.cfg" [.passwd b!"/pw"] none false b!"/work" = .ok ((b!"/work/p.cfg", [none], ps), s) ∧ ps.map (wdPassFile s) = [.ok b!"/pw"] := by
  refine ⟨by decide +kernel, [⟨none, b!"/pw"⟩], _, rfl, ?_⟩
  decide +kernel

end Pound.Props
