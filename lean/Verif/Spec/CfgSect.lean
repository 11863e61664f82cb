import Verif.Model.Lexer

/-! Sections of a configuration file. -/

namespace Pound.Spec

/-- The inside of a section up to its End: statements, each with the newline that ends it, and empty lines.  `stmt t s s'`: the statement `t` changes `s` to `s'`. -/
inductive Sect {σ : Type} (stmt : List Tok → σ → σ → Prop) : List Tok → σ → σ → Prop
  | stop {w : Bytes} {s : σ} : ciEq b!"End" w = true → Sect stmt [.ident w] s s
  | blank {t : List Tok} {s s' : σ} : Sect stmt t s s' → Sect stmt (.nl :: t) s s'
  | stmt {a t : List Tok} {s s1 s2 : σ} : stmt a s s1 → Sect stmt t s1 s2 → Sect stmt (a ++ t) s s2

/-- The inside of a section with settings and other statements -/
inductive SetBody {δ ω : Type} (args : Bytes → List Tok → δ → Prop) (other : List Tok → ω → ω → Prop) : List Tok → List δ → ω → ω → Prop
  | stop {w : Bytes} {o : ω} : ciEq b!"End" w = true → SetBody args other [.ident w] [] o o
  | blank {t : List Tok} {l : List δ} {o o' : ω} : SetBody args other t l o o' → SetBody args other (.nl :: t) l o o'
  | set {w n : Bytes} {a t : List Tok} {x : δ} {l : List δ} {o o' : ω} : args w a x → ciEq w n = true → SetBody args other t l o o' →
      SetBody args other (.ident n :: (a ++ .nl :: t)) (x :: l) o o'
  | other {a t : List Tok} {l : List δ} {o o1 o2 : ω} : other a o o1 → SetBody args other t l o1 o2 → SetBody args other (a ++ t) l o o2

end Pound.Spec
