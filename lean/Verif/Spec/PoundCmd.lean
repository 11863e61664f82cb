import Verif.Model.PoundCmd
import Verif.Spec.CtlMain

/-!
What the options of pound mean: /repo/doc/pound.8:236-325.
-/

namespace Pound.Spec

/-- What a feature given with -W asks for -/
inductive FeatureArg (isDir : Bytes → Option Bool) : Bytes → (Features → Features) → Prop
  | dns : FeatureArg isDir b!"dns" (fun f => { f with dns := 1 })
  | noDns : FeatureArg isDir b!"no-dns" (fun f => { f with dns := 0 })
  | warn : FeatureArg isDir b!"warn-deprecated" (fun f => { f with warn := 1 })
  | noWarn : FeatureArg isDir b!"no-warn-deprecated" (fun f => { f with warn := 0 })
  | noDir : FeatureArg isDir b!"no-include-dir" (fun f => { f with dir := none, incl := 0 })
  | cwd : FeatureArg isDir b!"include-dir=." (fun f => { f with dir := none, incl := 1 })
  | cwd' : FeatureArg isDir b!"include-dir=" (fun f => { f with dir := none, incl := 1 })
  | dir {d : Bytes} : d ≠ [] → d ≠ b!"." → isDir d = some true → FeatureArg isDir (b!"include-dir=" ++ d) (fun f => { f with dir := some d, incl := 1 })

/-- What all of them ask for, in order -/
inductive FeatureArgs (isDir : Bytes → Option Bool) : List OptItem → Features → Features → Prop
  | nil {f : Features} : FeatureArgs isDir [] f f
  | set {a : Bytes} {g : Features → Features} {r : List OptItem} {f f' : Features} :
      FeatureArg isDir a g → FeatureArgs isDir r (g f) f' → FeatureArgs isDir (.opt ch%'W' (some a) :: r) f f'
  | other {c : UInt8} {a : Option Bytes} {r : List OptItem} {f f' : Features} :
      c ≠ ch%'W' → FeatureArgs isDir r f f' → FeatureArgs isDir (.opt c a :: r) f f'

end Pound.Spec
