import Verif.Proof.TopStmt
import Verif.Props.LstCfg
import Verif.Props.BeCfg

/-! The configuration as a whole. -/

namespace Pound.Props

open Spec

/-! ### C80 -/

/-- A configuration that is accepted without complaint is a sequence of settings and definitions: the settings are the last ones of their kinds, and each definition was made with
the settings that come before it.  The newline after the last statement may be missing. -/
theorem C80_sound {e : TopEnv} {n : Nat} {ts : List Tok} {g : Glob} {o : TopObjs} (h : parseTop e n ts = some (g, o, 0)) :
    ∃ t, (t = ts ∨ t = ts ++ [.nl]) ∧ Configures e t g o := ((top_config e n ts).1 g o 0 h).2 rfl

/-- Each such configuration is accepted. -/
theorem C80_complete {e : TopEnv} {n : Nat} {ts : List Tok} {g : Glob} {o : TopObjs} (h : Configures e ts g o) (hn : ts.length < n) : parseTop e n ts = some (g, o, 0) :=
  (top_config e n ts).2 g o h hn

/-- A text is the text of at most one configuration. -/
theorem C80_unique {e : TopEnv} {ts : List Tok} {g g' : Glob} {o o' : TopObjs} (h : Configures e ts g o) (h' : Configures e ts g' o') : g = g' ∧ o = o' := by
  have h1 := C80_complete h (Nat.lt_succ_self _)
  rw [C80_complete h' (Nat.lt_succ_self _)] at h1
  cases h1
  exact ⟨rfl, rfl⟩

/-- For settings in an order that is accepted there are values that hold, and no others. -/
theorem C80_meaning (l : List TopSet) (h : GlobOrder l) : (∃ g, GlobMeans l g) ∧ ∀ g g', GlobMeans l g → GlobMeans l g' → g = g' := by
  obtain ⟨g, hg⟩ := of_globOrder l h
  exact ⟨⟨g, glob_means hg⟩, fun _ _ => glob_unique⟩

/-- Whatever is accepted, with complaints or without, there are not more workers at least than at most. -/
theorem C80_workers {e : TopEnv} {n : Nat} {ts : List Tok} {g : Glob} {o : TopObjs} {er : Nat} (h : parseTop e n ts = some (g, o, er)) : g.wMin ≤ g.wMax :=
  ((top_config e n ts).1 g o er h).1

/-- What a listener takes from the settings are those before it: settings that follow change nothing. -/
theorem C80_later {e : TopEnv} {t : List Tok} {l l' : List TopSet} {o o' : TopObjs} (h : TopBody e t l o l' o') : ∃ ls, o'.lsts = o.lsts ++ ls := by
  induction h with
  | stop => exact ⟨[], by simp⟩
  | blank _ ih => exact ih
  | set _ _ _ ih => exact ih
  | stmt _ h1 _ ih =>
    obtain ⟨ls, h2⟩ := ih
    cases h1 with
    | @listener n t o x _ _ => exact ⟨x :: ls, by rw [h2]; simp⟩
    | _ => exact ⟨ls, h2⟩

/-! Examples -/

def topEnv0 : TopEnv := ⟨beEnv0, lstEnv0⟩

/-- A configuration with some of everything -/
def topToks0 : List Tok :=
  [.ident b!"User", .string b!"www", .nl, .ident b!"LogFormat", .string b!"mine", .string b!"%a", .nl, .ident b!"LogLevel", .string b!"mine", .nl, .nl,
   .ident b!"Client", .number b!"7", .nl, .ident b!"Threads", .number b!"9", .nl, .ident b!"WorkerMinCount", .number b!"2", .nl, .ident b!"LogFacility", .ident b!"LOCAL3", .nl,
   .ident b!"Control", .nl, .ident b!"Socket", .string b!"/run/p", .nl, .ident b!"Mode", .number b!"660", .nl, .ident b!"End", .nl,
   .ident b!"CombineHeaders", .nl, .string b!"Accept", .nl, .nl, .string b!"Via", .nl, .ident b!"End", .nl, .ident b!"HeaderOption", .literal b!"no-ssl", .nl,
   .ident b!"ListenHTTP", .nl, .ident b!"Address", .literal b!"10.0.0.1", .nl, .ident b!"End", .nl, .ident b!"Client", .number b!"8", .nl, .ident b!"Balancer", .ident b!"iwrr", .nl,
   .ident b!"Service", .string b!"s", .nl, .ident b!"Metrics", .nl, .ident b!"End", .nl, .ident b!"Resolver", .nl, .ident b!"CNAMEChain", .number b!"3", .nl, .ident b!"End", .nl,
   .ident b!"Control", .string b!"/run/q"]

def top0 (ts : List Tok) : Option (Glob × TopObjs × Nat) := parseTop topEnv0 200 ts

example : (top0 topToks0).map (fun x => (x.1.user, x.1.client, x.1.logLevel)) = some (some b!"www", 8, 6) := by decide +kernel

example : (top0 topToks0).map (fun x => (x.1.wMin, x.1.wMax, x.1.facility)) = some (2, 9, some 19) := by decide +kernel

example : (top0 topToks0).map (fun x => (x.1.combine, x.1.hdr, x.2.2)) = some ([b!"Accept", b!"Via"], ⟨true, false⟩, 0) := by decide +kernel

example : (top0 topToks0).map (fun x => (x.2.1.ctls, x.2.1.res)) = some ([⟨b!"/run/p", false, 0o660, 7, 6, 1⟩, ⟨b!"/run/q", false, 0o600, 8, 6, 1⟩], ⟨none, false, 3, 600⟩) := by decide +kernel

example : (top0 topToks0).map (fun x => (x.2.1.lsts.map (fun l => (l.st.to, l.st.hdr, l.addr)), x.2.1.svcs)) =
    some ([(7, ⟨true, false⟩, .inet ⟨false, false, b!"10.0.0.1:80"⟩)], [(some b!"s", ⟨.iwrr, [⟨0, [⟨1, 0, .metrics⟩]⟩]⟩)]) := by decide +kernel

/-- The hypotheses of the theorems are met. -/
example : ∃ g o t, Configures topEnv0 t g o ∧ o.lsts.length = 1 ∧ g.client = 8 := by
  have h : ∃ g o, top0 topToks0 = some (g, o, 0) ∧ o.lsts.length = 1 ∧ g.client = 8 := ⟨_, _, rfl, rfl, rfl⟩
  obtain ⟨g, o, h1, h2, h3⟩ := h
  obtain ⟨t, _, h4⟩ := C80_sound h1
  exact ⟨g, o, t, h4, h2, h3⟩

example : GlobOrder [.logFormat b!"mine" b!"%a", .logName b!"mine", .logNum b!"6"] := glob_order (g := { globInit with formats := globInit.formats ++ [b!"mine"], logLevel := 6 }) (by decide +kernel)

/-! ### Where the documentation says something else -/

/-- ConnTO is documented to be by default what TimeOut is; it is 15 also if TimeOut is not. -/
theorem C80_connto_fails : (top0 [.ident b!"TimeOut", .number b!"60", .nl]).map (fun x => (x.1.timeOut, x.1.connTo)) = some (60, 15) := by decide +kernel

/-- Balancer is documented to apply to all services without one of their own, and to be allowed anywhere: it does not apply to those before it. -/
theorem C80_balancer_fails : (top0 [.ident b!"Service", .nl, .ident b!"Metrics", .nl, .ident b!"End", .nl, .ident b!"Balancer", .ident b!"iwrr", .nl]).map
    (fun x => (x.1.algo, x.2.1.svcs.map fun s => s.2.algo)) = some (.iwrr, [.random]) := by decide +kernel

/-- Directives are documented to be allowed in any order: LogLevel before the definition of its format is refused. -/
theorem C80_loglevel_order_fails : top0 [.ident b!"LogLevel", .string b!"mine", .nl, .ident b!"LogFormat", .string b!"mine", .string b!"%a", .nl] = none ∧
    (top0 [.ident b!"LogFormat", .string b!"mine", .string b!"%a", .nl, .ident b!"LogLevel", .string b!"mine", .nl]).map (fun x => x.1.logLevel) = some 6 := ⟨rfl, by decide +kernel⟩

/-- The same with the limit for clients: a listener keeps the limit in force where it was written. -/
theorem C80_client_fails : (top0 [.ident b!"ListenHTTP", .nl, .ident b!"End", .nl, .ident b!"Client", .number b!"60", .nl]).map (fun x => (x.1.client, x.2.1.lsts.map fun l => l.st.to)) =
    some (60, [10]) := by decide +kernel

/-- A statement in the last line needs no newline, but for HeaderOption. -/
theorem C80_header_option_fails : top0 [.ident b!"HeaderOption", .ident b!"none"] = none ∧ (top0 [.ident b!"Client", .number b!"60"]).map (fun x => x.1.client) = some 60 := ⟨rfl, by decide +kernel⟩

end Pound.Props
