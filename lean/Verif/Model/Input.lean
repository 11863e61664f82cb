import Verif.Model.Lexer

/-!
The stack of open configuration files: /repo/src/cfgparser.c:474-515, 585-603, 713-806, 850-854, 1172-1181.
-/

namespace Pound

/-- struct cfginput, /repo/src/cfgparser.c:480-497: the identity of the file (inode and device), what is left of it, and the tokens put back (the next one first) -/
structure Input where
  id : Nat
  rest : Bytes
  putback : List Tok
deriving DecidableEq, Repr

/-- The files: what opening a name gives, its identity and contents; `none` if it cannot be opened. -/
abbrev FileSys := Bytes → Option (Nat × Bytes)

/-- push_input, /repo/src/cfgparser.c:742-790, with input_open, :525-547: `none` if refused.  The file is not replaced between stat and open. -/
def pushInput (fs : FileSys) (name : Bytes) (st : List Input) : Option (List Input) :=
  match fs name with
  | none => none
  | some (id, text) => if st.any (fun i => i.id == id) then none else some (⟨id, text, []⟩ :: st)

/-- input_gettkn, /repo/src/cfgparser.c:585-711 -/
def Input.gettkn (i : Input) : Tok × Input :=
  match i.putback with
  | t :: r => (t, { i with putback := r })
  | [] =>
    let l := lexTok i.rest
    (l.tok, { i with rest := l.rest })

/-- gettkn, /repo/src/cfgparser.c:798-806: at the end of a file its includer is continued. -/
def gettkn : List Input → Tok × List Input
  | [] => (.eof, [])
  | i :: st =>
    let r := i.gettkn
    if r.1 = .eof then gettkn st else (r.1, r.2 :: st)

/-- input_putback, /repo/src/cfgparser.c:713-723: there is room for three tokens (else the program aborts: `none`). -/
def putbackTok (t : Tok) : List Input → Option (List Input)
  | [] => none
  | i :: st => if i.putback.length < 3 then some ({ i with putback := t :: i.putback } :: st) else none

/-- What a parser may do with its input, whatever its statements are: get a token; put back the one it got last, once; put back a newline (parse_end_else,
/repo/src/config.c:2082-2089); include a file (cfg_parse_include, /repo/src/cfgparser.c:1172-1181), which can be another one each time. -/
inductive InOp where
  | get
  | back
  | backNl
  | incl (fs : FileSys)

/-- The files open, and the token that may be put back -/
structure InSt where
  stack : List Input
  hand : Option Tok
deriving DecidableEq, Repr

/-- One operation: the state afterwards and the number of tokens obtained; `none`: the program stops. -/
def InSt.step (s : InSt) : InOp → Option (InSt × Nat)
  | .get =>
    let r := gettkn s.stack
    if r.1 = .eof then some (⟨r.2, none⟩, 0) else some (⟨r.2, some r.1⟩, 1)
  | .back =>
    match s.hand with
    | none => none
    | some t => (putbackTok t s.stack).map fun st => (⟨st, none⟩, 0)
  | .backNl => (putbackTok .nl s.stack).map fun st => (⟨st, none⟩, 0)
  | .incl fs =>
    let r := gettkn s.stack
    match r.1 with
    | .string name => (pushInput fs name r.2).map fun st => (⟨st, none⟩, 1)
    | _ => none

/-- A history: the last state, and the number of tokens obtained -/
def InSt.run (s : InSt) : List InOp → Option (InSt × Nat)
  | [] => some (s, 0)
  | o :: r =>
    match s.step o with
    | none => none
    | some (s', k) => (s'.run r).map fun x => (x.1, k + x.2)

end Pound
