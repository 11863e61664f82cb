import Verif.Model.Headers
import Verif.Model.Request

/-!
The memory of requests and responses: what /repo/src/http.c allocates, reads and releases for `struct http_request` and `struct http_header`, at the level of pointers.  Every allocation may fail.

The texts are computed by the functions of Model/Headers.lean and Model/Request.lean; here each string also has the block that holds it.  A block that is read or released must have been allocated and not yet
released: otherwise the outcome is `bad`.
-/

namespace Pound

/-- The heap, as seen by /repo/src/http.c:1924-2984: the blocks in use; the number of allocations so far (each gets a new name); which allocations fail. -/
structure Mem where
  live : List Nat
  next : Nat
  oom : Nat → Bool

/-- Outcomes of the functions of /repo/src/http.c:1924-2984: `null` is a read through a NULL pointer, `bad` a read or release of memory that is not allocated (or a read out of bounds). -/
inductive Out (α : Type) where
  | ok (a : α) (m : Mem)
  | null
  | bad

/-- Programs that use the heap (the functions of /repo/src/http.c:1924-2984). -/
def HM (α : Type) := Mem → Out α

/-- One statement after the other (throughout /repo/src/http.c:1924-2984) -/
def HM.bind {α β : Type} (m : HM α) (f : α → HM β) : HM β := fun h =>
  match m h with
  | .ok a h => f a h
  | .null => .null
  | .bad => .bad

instance : Monad HM where
  pure a := fun h => .ok a h
  bind := HM.bind

/-- malloc, calloc, strdup, as in /repo/src/http.c:1930, 1935, 1962, 2005 -/
def allocP : HM (Option Nat) := fun h =>
  if h.oom h.next then .ok none { h with next := h.next + 1 }
  else .ok (some h.next) { h with live := h.next :: h.live, next := h.next + 1 }

/-- A read or write of a block, as in /repo/src/http.c:2003-2009 -/
def useP (b : Nat) : HM Unit := fun h => if b ∈ h.live then .ok () h else .bad

/-- free, as in /repo/src/http.c:1946-1952; nothing happens for NULL. -/
def freeP : Option Nat → HM Unit
  | none => pure ()
  | some b => fun h => if b ∈ h.live then .ok () { h with live := h.live.erase b } else .bad

/-- A read through NULL, as may happen in /repo/src/http.c:2083-2084 -/
def nullP {α : Type} : HM α := fun _ => .null

/-- A read out of bounds (`Res.ub` of Model/Headers.lean, /repo/src/http.c:2078-2105) -/
def badP {α : Type} : HM α := fun _ => .bad

/-- A string in memory, such as the fields of struct http_request, /repo/src/pound.h:386-401 -/
structure PStr where
  blk : Nat
  txt : Bytes
deriving DecidableEq, Repr

/-- free of a string, which may be NULL, as in /repo/src/http.c:2587-2598 -/
def freeS (s : Option PStr) : HM Unit := freeP (s.map (·.blk))

/-- Reading a string that is not expected to be NULL, as in /repo/src/http.c:2251 -/
def readS : Option PStr → HM Bytes
  | none => nullP
  | some s => do useP s.blk; pure s.txt

/-- strdup, and malloc followed by memcpy, as in /repo/src/http.c:2187-2194, 2330 -/
def dupS (txt : Bytes) : HM (Option PStr) := do
  let p ← allocP
  pure (p.map fun b => ⟨b, txt⟩)

/-! ### String buffers -/

/-- struct stringbuf, /repo/src/mem.h:30-37: block, text and error flag -/
structure PSb where
  base : Option Nat
  txt : Bytes
  err : Bool
deriving DecidableEq, Repr

/-- stringbuf_init, /repo/src/mem.c:113-118 -/
def PSb.init : PSb := ⟨none, [], false⟩

/-- stringbuf_add, stringbuf_add_char, stringbuf_printf, /repo/src/mem.c:132-149, 160-240. Simplified: each addition asks for memory, once, and moves the block (Model/StringBuf.lean has the sizes). -/
def sbAddP (sb : PSb) (d : Bytes) : HM PSb := do
  let p ← allocP
  match p with
  | none => pure { sb with err := true }
  | some b => do
    freeP sb.base
    pure ⟨some b, sb.txt ++ d, false⟩

/-- Several additions, as in /repo/src/http.c:2089-2096 -/
def sbAddsP (sb : PSb) : List Bytes → HM PSb
  | [] => pure sb
  | d :: ds => do
    let sb ← sbAddP sb d
    sbAddsP sb ds

/-- stringbuf_finish, /repo/src/mem.c:197-203: the string is the memory of the buffer itself. -/
def sbFinishP (sb : PSb) : HM (PSb × Option PStr) :=
  if sb.err then pure (sb, none)
  else do
    let sb ← sbAddP sb []
    if sb.err then pure (sb, none)
    else pure (sb, sb.base.map fun b => ⟨b, sb.txt⟩)

/-- stringbuf_free, /repo/src/mem.c:126-130 -/
def sbFreeP (sb : PSb) : HM Unit := freeP sb.base

/-- A text made with a buffer, which is released if that fails; as in /repo/src/http.c:2222-2236 -/
def sbTextP (ds : List Bytes) : HM (Option PStr) := do
  let sb ← sbAddsP PSb.init ds
  let r ← sbFinishP sb
  match r.2 with
  | some s => pure (some s)
  | none => do
    sbFreeP r.1
    pure none

/-! ### Headers -/

/-- struct http_header, /repo/src/pound.h:340-350: its own block, that of the text, and the cached value -/
structure PHdr where
  blk : Nat
  tblk : Nat
  hdr : Header
  val : Option PStr
deriving DecidableEq, Repr

/-- http_header_alloc, /repo/src/http.c:1925-1945 -/
def hdrAllocP (text : Bytes) : HM (Option PHdr) := do
  let p ← allocP
  match p with
  | none => pure none
  | some b => do
    let q ← allocP
    match q with
    | none => do
      freeP (some b)
      pure none
    | some t => pure (some ⟨b, t, headerAlloc text, none⟩)

/-- http_header_free, /repo/src/http.c:1947-1953 -/
def hdrFreeP (x : PHdr) : HM Unit := do
  useP x.blk
  freeP (some x.tblk)
  freeS x.val
  freeP (some x.blk)

/-- http_header_change (hdr, text, 0), /repo/src/http.c:1955-1976: the header takes the string. -/
def hdrTakeP (x : PHdr) (s : PStr) : HM PHdr := do
  useP x.blk
  freeP (some x.tblk)
  freeS x.val
  useP s.blk
  pure ⟨x.blk, s.blk, x.hdr.change s.txt, none⟩

/-- http_header_change (hdr, text, 1), /repo/src/http.c:1955-1976. `false`: -1 is returned. -/
def hdrChangeP (x : PHdr) (text : Bytes) : HM (PHdr × Bool) := do
  let p ← dupS text
  match p with
  | none => pure (x, false)
  | some s => do
    let x ← hdrTakeP x s
    pure (x, true)

/-- http_header_get_value with http_header_copy_value, /repo/src/http.c:1978-2013 -/
def hdrValueP (x : PHdr) : HM (PHdr × Option Bytes) := do
  useP x.blk
  match x.val with
  | some v => do
    useP v.blk
    pure (x, some v.txt)
  | none => do
    let p ← allocP
    match p with
    | none => pure (x, none)
    | some b => do
      useP x.tblk
      match x.hdr.value with
      | .ub => badP
      | .ok v => pure ({ x with val := some ⟨b, v⟩ }, some v)

/-- Reading all headers of a list, /repo/src/http.c:2025-2053 -/
def useHdrsP : List PHdr → HM Unit
  | [] => pure ()
  | x :: t => do
    useP x.blk
    useP x.tblk
    useHdrsP t

/-- What is added to the buffer in mode H_APPEND, /repo/src/http.c:2090-2096 (a piece may be empty); `appendText` is the whole. -/
def appendPieces (h : Header) (text : Bytes) : List Bytes :=
  let val := text.drop (h.nameEnd + 1)
  [h.text.take (h.valEnd - h.nameStart), b!",", match val with | c :: _ => if isSpace c then [] else b!" " | [] => b!" ", val]

/-- http_header_list_append, /repo/src/http.c:2066-2116, with the return value (-1, 0 or 1). The headers are found as in `listAppend` (Simplified: all of them are read). In mode H_APPEND the value of the header that was
found is read without a look at whether there was memory for it (2085), the buffer is not released if it lacks memory (2097-2098), and a failure to replace an empty value is not reported (2102). -/
def listAppendP (hs : List PHdr) (text : Bytes) (mode : HMode) : HM (Int × List PHdr) := do
  useHdrsP hs
  match locateName (hs.map (·.hdr)) text with
  | some i =>
    match hs[i]? with
    | none => badP
    | some x =>
      match mode with
      | .keep => pure (0, hs)
      | .replace => do
        let r ← hdrChangeP x text
        pure (if r.2 then 0 else -1, hs.set i r.1)
      | .append => do
        let v ← hdrValueP x
        match v.2 with
        | none => nullP
        | some [] => do
          let r ← hdrChangeP v.1 text
          pure (0, hs.set i r.1)
        | some (_ :: _) =>
          match appendText v.1.hdr text with
          | .ub => badP
          | .ok _ => do
            let sb ← sbAddsP PSb.init (appendPieces v.1.hdr text)
            let f ← sbFinishP sb
            match f.2 with
            | none => pure (-1, hs.set i v.1)
            | some s => do
              let x ← hdrTakeP v.1 s
              pure (0, hs.set i x)
  | none => do
    let p ← hdrAllocP text
    match p with
    | none => pure (-1, hs)
    | some x =>
      if x.hdr.code = .illegal then do
        hdrFreeP x
        pure (1, hs)
      else pure (0, hs ++ [x])

/-- http_header_list_free, /repo/src/http.c:2131-2140 -/
def listFreeP : List PHdr → HM Unit
  | [] => pure ()
  | x :: t => do
    hdrFreeP x
    listFreeP t

/-- http_header_list_filter, /repo/src/http.c:2149-2161: the next header is found before this one is released. `m`: the pattern matches the text. -/
def listFilterP (m : Bytes → Bool) : List PHdr → HM (List PHdr)
  | [] => pure []
  | x :: t => do
    useP x.blk
    useP x.tblk
    if m x.hdr.text then do
      hdrFreeP x
      listFilterP m t
    else do
      let t ← listFilterP m t
      pure (x :: t)

/-! ### The request line -/

/-- struct query_param, /repo/src/pound.h:376-381 -/
structure PParam where
  blk : Nat
  name : PStr
  val : Option PStr
deriving DecidableEq, Repr

/-- struct http_request, /repo/src/pound.h:386-401 -/
structure PReq where
  request : Option PStr
  orig : Option PStr
  url : Option PStr
  path : Option PStr
  query : Option PStr
  params : List PParam
  headers : List PHdr
  meth : Nat
  version : Nat
  split : Bool

/-- http_request_init, /repo/src/pound.h:403-410: all is zero. -/
def PReq.init : PReq := ⟨none, none, none, none, none, [], [], 0, 0, false⟩

/-- query_param_free and http_request_free_query, /repo/src/http.c:2381-2398 -/
def paramsFreeP : List PParam → HM Unit
  | [] => pure ()
  | p :: t => do
    useP p.blk
    freeP (some p.name.blk)
    freeS p.val
    freeP (some p.blk)
    paramsFreeP t

/-- http_request_split, /repo/src/http.c:2165-2214. `false`: -1 is returned. -/
def splitP (r : PReq) : HM (PReq × Bool) :=
  if r.split then do
    let url ← readS r.url
    let s := match findQmark url url.length with
      | none => (url, ([] : Bytes))
      | some p => (url.take p, url.drop (p + 1))
    freeS r.path
    let p ← dupS s.1
    match p with
    | none => pure ({ r with path := none }, false)
    | some p => do
      freeS r.query
      paramsFreeP r.params
      if s.2.length > 0 then do
        let q ← dupS s.2
        match q with
        | none => pure ({ r with path := some p, query := none, params := [] }, false)
        | some q => pure ({ r with path := some p, query := some q, params := [], split := false }, true)
      else pure ({ r with path := some p, query := none, params := [], split := false }, true)
  else pure (r, true)

/-- http_request_rebuild_line, /repo/src/http.c:2216-2243 -/
def rebuildLineP (r : PReq) : HM (PReq × Bool) := do
  let url ← readS r.url
  let s ← sbTextP [(methodName r.meth).getD [], b!" ", url, b!" ", b!"HTTP/1.", [UInt8.ofNat (r.version + 48)]]
  match s with
  | none => pure (r, false)
  | some s =>
    match r.orig with
    | some _ => do
      freeS r.request
      pure ({ r with request := some s }, true)
    | none => pure ({ r with orig := r.request, request := some s }, true)

/-- A separator and a string, if there is one, /repo/src/http.c:2251-2255 and 2284-2288 -/
def optPiecesP (sep : Bytes) : Option PStr → HM (List Bytes)
  | none => pure []
  | some q => do
    useP q.blk
    pure [sep, q.txt]

/-- http_request_rebuild_url, /repo/src/http.c:2245-2267 -/
def rebuildUrlP (r : PReq) : HM (PReq × Bool) := do
  let path ← readS r.path
  let q ← optPiecesP b!"?" r.query
  let s ← sbTextP (path :: q)
  match s with
  | none => pure (r, false)
  | some s => do
    freeS r.url
    rebuildLineP { r with url := some s }

/-- The pieces that http_request_rebuild_query adds, /repo/src/http.c:2277-2290 -/
def renderPiecesP (more : Bool) : List PParam → HM (List Bytes)
  | [] => pure []
  | p :: t => do
    useP p.blk
    useP p.name.blk
    let v ← optPiecesP b!"=" p.val
    let rest ← renderPiecesP true t
    pure ((if more then [b!"&"] else []) ++ [p.name.txt] ++ v ++ rest)

/-- http_request_rebuild_query, /repo/src/http.c:2269-2301 -/
def rebuildQueryP (r : PReq) : HM (PReq × Bool) := do
  let ds ← renderPiecesP false r.params
  let s ← sbTextP ds
  match s with
  | none => pure (r, false)
  | some s => do
    freeS r.query
    rebuildUrlP { r with query := some s }

/-- http_request_set_url, /repo/src/http.c:2325-2340 -/
def setUrlP (r : PReq) (url : Bytes) : HM (PReq × Bool) := do
  let p ← dupS url
  match p with
  | none => pure (r, false)
  | some s => do
    freeS r.url
    rebuildLineP { r with url := some s, split := true }

/-- http_request_set_path, /repo/src/http.c:2350-2370 (the second call of http_request_split has nothing left to do). -/
def setPathP (r : PReq) (path : Bytes) : HM (PReq × Bool) := do
  let x ← splitP r
  if !x.2 then pure (x.1, false)
  else do
    let p ← dupS path
    match p with
    | none => pure (x.1, false)
    | some s => do
      freeS x.1.path
      rebuildUrlP { x.1 with path := some s }

/-- http_request_set_query, /repo/src/http.c:2495-2511 -/
def setQueryP (r : PReq) (raw : Bytes) : HM (PReq × Bool) := do
  let x ← splitP r
  if !x.2 then pure (x.1, false)
  else do
    let p ← dupS raw
    match p with
    | none => pure (x.1, false)
    | some s => do
      freeS x.1.query
      paramsFreeP x.1.params
      rebuildUrlP { x.1 with query := some s, params := [] }

/-- The value of a parameter, if it has one, /repo/src/http.c:2419-2428. `false`: there is no memory for it. -/
def dupOptP : Option Bytes → HM (Option PStr × Bool)
  | none => pure (none, true)
  | some v => do
    let p ← dupS v
    pure (p, p.isSome)

/-- The loop of http_request_parse_query, /repo/src/http.c:2409-2455, on what `parseQuery` splits. The value is not released if there is no memory for the parameter or its name (2433-2444). `false`: -1 is returned. -/
def parseParamsP (acc : List PParam) : List (Bytes × Option Bytes) → HM (List PParam × Bool)
  | [] => pure (acc, true)
  | (n, v) :: t => do
    let v ← dupOptP v
    if !v.2 then pure (acc, false)
    else do
      let b ← allocP
      match b with
      | none => pure (acc, false)
      | some b => do
        let n ← dupS n
        match n with
        | none => do
          freeP (some b)
          pure (acc, false)
        | some n => parseParamsP (acc ++ [⟨b, n, v.1⟩]) t

/-- http_request_get_query_param, /repo/src/http.c:2461-2481, up to the search (2466-2471) -/
def loadParamsP (r : PReq) : HM (PReq × Bool) := do
  let x ← splitP r
  if !x.2 then pure (x.1, false)
  else if x.1.params.isEmpty then
    match x.1.query with
    | none => pure (x.1, true)
    | some q => do
      useP q.blk
      let ps ← parseParamsP [] (parseQuery q.txt)
      pure ({ x.1 with params := ps.1 }, ps.2)
  else pure (x.1, true)

/-- Reading the names of parameters, /repo/src/http.c:2473-2480. Simplified: all are read. -/
def useParamsP : List PParam → HM Unit
  | [] => pure ()
  | p :: t => do
    useP p.blk
    useP p.name.blk
    useParamsP t

/-- DLIST_REMOVE and query_param_free of the parameter found, /repo/src/http.c:2548-2552 -/
def removeParamP (name : Bytes) : List PParam → HM (List PParam)
  | [] => pure []
  | p :: t =>
    if p.name.txt == name then do
      freeP (some p.name.blk)
      freeS p.val
      freeP (some p.blk)
      pure t
    else do
      let t ← removeParamP name t
      pure (p :: t)

/-- The new value of the parameter found, /repo/src/http.c:2559-2560 -/
def replaceParamP (name : Bytes) (v : PStr) : List PParam → HM (List PParam)
  | [] => pure []
  | p :: t =>
    if p.name.txt == name then do
      freeS p.val
      pure ({ p with val := some v } :: t)
    else do
      let t ← replaceParamP name v t
      pure (p :: t)

/-- http_request_set_query_param, /repo/src/http.c:2513-2570. The value is not released if there is no memory for the parameter or its name (2533-2543). -/
def setParamP (r : PReq) (name : Bytes) (v : Option Bytes) : HM (PReq × Bool) := do
  let x ← loadParamsP r
  if !x.2 then pure (x.1, false)
  else do
    useParamsP x.1.params
    match x.1.params.any (fun p => p.name.txt == name), v with
    | false, none => pure (x.1, true)
    | false, some v => do
      let s ← dupS v
      match s with
      | none => pure (x.1, false)
      | some s => do
        let b ← allocP
        match b with
        | none => pure (x.1, false)
        | some b => do
          let n ← dupS name
          match n with
          | none => do
            freeP (some b)
            pure (x.1, false)
          | some n => rebuildQueryP { x.1 with params := x.1.params ++ [⟨b, n, some s⟩] }
    | true, none => do
      let ps ← removeParamP name x.1.params
      rebuildQueryP { x.1 with params := ps }
    | true, some v => do
      let s ← dupS v
      match s with
      | none => pure (x.1, false)
      | some s => do
        let ps ← replaceParamP name s x.1.params
        rebuildQueryP { x.1 with params := ps }

/-- http_request_free, /repo/src/http.c:2587-2598 -/
def reqFreeP (r : PReq) : HM PReq := do
  freeS r.request
  listFreeP r.headers
  freeS r.url
  freeS r.path
  freeS r.query
  paramsFreeP r.params
  freeS r.orig
  pure PReq.init

/-- parse_http_request, /repo/src/http.c:2931-2984. It is called on requests that have no URL yet. -/
def parseLineP (r : PReq) (group : Nat) : HM (PReq × Status) := do
  let line ← readS r.request
  match parseHttpRequest line group with
  | .err st => pure (r, st)
  | .ok rl => do
    let u ← dupS rl.url
    match u with
    | none => pure ({ r with meth := rl.meth, url := none }, .internalError)
    | some u => pure ({ r with meth := rl.meth, url := some u, version := rl.version, split := true }, .ok)

/-! ### Reading -/

/-- A header while the head is read, with the COMPOSE_HEADER that refers to it, if any: its block and its buffer, /repo/src/http.c:2600-2604 -/
structure PEnt where
  hdr : PHdr
  comp : Option (Nat × PSb)
deriving DecidableEq, Repr

/-- compose_header_hash_free, /repo/src/http.c:2629-2644 -/
def compsFreeP : List PEnt → HM Unit
  | [] => pure ()
  | e :: t => do
    (match e.comp with
      | none => pure ()
      | some (c, sb) => do
        sbFreeP sb
        freeP (some c))
    compsFreeP t

/-- What is done when the head cannot be read, /repo/src/http.c:2725-2726 and others: the request and the table of composed headers are released. -/
def readDropP (line : PStr) (chash : Option Nat) (es : List PEnt) : HM Unit := do
  freeP (some line.blk)
  listFreeP (es.map (·.hdr))
  match chash with
  | none => pure ()
  | some c => do
    compsFreeP es
    freeP (some c)

/-- COMPOSE_HEADER_RETRIEVE and the extension of the buffer, /repo/src/http.c:2746-2757 -/
def addComposedP (x : PHdr) : List PEnt → HM (Option (List PEnt × Bool))
  | [] => pure none
  | e :: t =>
    match e.comp with
    | some (c, sb) =>
      if e.hdr.hdr.name.length == x.hdr.name.length && ciEq e.hdr.hdr.name x.hdr.name then do
        useP c
        useP x.tblk
        let sb ← sbAddsP sb [b!", ", x.hdr.rawValue]
        hdrFreeP x
        pure (some ({ e with comp := some (c, sb) } :: t, sb.err))
      else do
        let r ← addComposedP x t
        pure (r.map fun r => (e :: r.1, r.2))
    | none => do
      let r ← addComposedP x t
      pure (r.map fun r => (e :: r.1, r.2))

/-- One header line in http_request_read, /repo/src/http.c:2735-2789. `none`: an error, and all was released; only the header itself, if it was not yet in the list, was not (2766-2785). Inserting into the table does
not fail. -/
def readStepP (table : List Bytes) (line : PStr) (chash : Option Nat) (es : List PEnt) (text : Bytes) : HM (Option (List PEnt)) := do
  let p ← hdrAllocP text
  match p with
  | none => do
    readDropP line chash es
    pure none
  | some x =>
    if x.hdr.code = .illegal then do
      hdrFreeP x
      pure (some es)
    else if isCombinable table x.hdr then do
      let r ← addComposedP x es
      match r with
      | some (es, err) =>
        if err then do
          readDropP line chash es
          pure none
        else pure (some es)
      | none => do
        let c ← allocP
        match c with
        | none => do
          readDropP line chash es
          pure none
        | some c => do
          let sb ← sbAddsP PSb.init [x.hdr.name, b!": ", x.hdr.rawValue]
          if sb.err then do
            readDropP line chash es
            pure none
          else pure (some (es ++ [⟨x, some (c, sb)⟩]))
    else pure (some (es ++ [⟨x, none⟩]))

/-- All header lines, /repo/src/http.c:2719-2790 -/
def readStepsP (table : List Bytes) (line : PStr) (chash : Option Nat) (es : List PEnt) : List Bytes → HM (Option (List PEnt))
  | [] => pure (some es)
  | l :: ls => do
    let r ← readStepP table line chash es l
    match r with
    | none => pure none
    | some es => readStepsP table line chash es ls

/-- compose_header_finish for each, /repo/src/http.c:2646-2665; `err` is `*errp`. (The order in which the table is gone through does not matter.) -/
def finishP (err : Bool) : List PEnt → HM (List PHdr × Bool)
  | [] => pure ([], err)
  | e :: t =>
    match e.comp with
    | none => do
      let r ← finishP err t
      pure (e.hdr :: r.1, r.2)
    | some (c, sb) =>
      if err then do
        sbFreeP sb
        freeP (some c)
        let r ← finishP err t
        pure (e.hdr :: r.1, r.2)
      else do
        let f ← sbFinishP sb
        match f.2 with
        | some s => do
          let x ← hdrTakeP e.hdr s
          freeP (some c)
          let r ← finishP false t
          pure (x :: r.1, r.2)
        | none => do
          sbFreeP f.1
          freeP (some c)
          let r ← finishP true t
          pure (e.hdr :: r.1, r.2)

/-- What the peer sends for a head (/repo/src/http.c:2689-2719): `first` is the first line that is not empty (`none`: it is too long, contains control characters or cannot be read; at end of file it is empty); `lines` are the header lines;
`whole`: they are followed by an empty line. -/
structure HeadInput where
  first : Option Bytes
  lines : List Bytes
  whole : Bool
deriving DecidableEq, Repr

/-- The table for composed headers, if there are any to compose, /repo/src/http.c:2686-2694. `false`: there is no memory for it. -/
def chashP (table : List Bytes) : HM (Option Nat × Bool) :=
  if table.isEmpty then pure (none, true)
  else do
    let c ← allocP
    pure (c, c.isSome)

/-- http_request_read, /repo/src/http.c:2668-2808. The request passed to it is overwritten (2684). The table for composed headers is not released if the first line is refused (2700, 2706). -/
def readP (table : List Bytes) (i : HeadInput) (old : PReq) : HM (PReq × Status) := do
  let chash ← chashP table
  if !chash.2 then pure (old, .internalError)
  else
    match i.first with
    | none => pure (PReq.init, .badRequest)
    | some line => do
      let s ← dupS line
      match s with
      | none => do
        freeP chash.1
        pure (PReq.init, .internalError)
      | some s => do
        let es ← readStepsP table s chash.1 [] i.lines
        match es with
        | none => pure (PReq.init, .internalError)
        | some es =>
          if !i.whole then do
            readDropP s chash.1 es
            pure (PReq.init, .internalError)
          else
            match chash.1 with
            | none => pure ({ PReq.init with request := some s, headers := es.map (·.hdr) }, .ok)
            | some c => do
              let r ← finishP false es
              freeP (some c)
              if r.2 then do
                let q ← reqFreeP { PReq.init with request := some s, headers := r.1 }
                pure (q, .internalError)
              else pure ({ PReq.init with request := some s, headers := r.1 }, .ok)

/-! ### The headers that are looked at -/

/-- The loop over the headers of a request, /repo/src/http.c:4669-4780: DLIST_FOREACH_SAFE finds the next header (its address is read) before this one may be removed. `refuse`: the request is refused at this header.
The result: what is left of the list, and whether the loop went to the end. -/
def reqLoopP (refuse : Header → Bool) : List PHdr → HM (List PHdr × Bool)
  | [] => pure ([], true)
  | x :: t => do
    useP x.blk
    let needVal := x.hdr.code = .connection ∨ x.hdr.code = .upgrade ∨ x.hdr.code = .transferEncoding ∨ x.hdr.code = .contentLength ∨ x.hdr.code = .expect
    if needVal then do
      let v ← hdrValueP x
      match v.2 with
      | none => pure (v.1 :: t, false)
      | some val =>
        if refuse x.hdr then pure (v.1 :: t, false)
        else if x.hdr.code = .expect ∧ ciEq val b!"100-continue" then do
          hdrFreeP v.1
          reqLoopP refuse t
        else do
          let r ← reqLoopP refuse t
          pure (v.1 :: r.1, r.2)
    else if x.hdr.code = .illegal then do
      useP x.tblk
      hdrFreeP x
      reqLoopP refuse t
    else do
      let r ← reqLoopP refuse t
      pure (x :: r.1, r.2)

/-- The loop over the headers of a response, /repo/src/http.c:3730-3830: DLIST_FOREACH reads the address of the next header from this one after it has been worked on, even if it was removed (3768). `loc`: the new text
of a Location or Content-location header that is to be rewritten. -/
def respLoopP (loc : Header → Option Bytes) : List PHdr → HM (List PHdr × Bool)
  | [] => pure ([], true)
  | x :: t => do
    useP x.blk
    let needVal := x.hdr.code = .connection ∨ x.hdr.code = .upgrade ∨ x.hdr.code = .transferEncoding ∨ x.hdr.code = .contentLength ∨ x.hdr.code = .location ∨ x.hdr.code = .contLocation
    if needVal then do
      let v ← hdrValueP x
      match v.2 with
      | none => pure (v.1 :: t, false)
      | some val =>
        if x.hdr.code = .contentLength ∧ getContentLength val .header = noContentLength then do
          hdrFreeP v.1
          useP x.blk
          respLoopP loc t
        else
          match (if x.hdr.code = .location ∨ x.hdr.code = .contLocation then loc x.hdr else none) with
          | none => do
            useP x.blk
            let r ← respLoopP loc t
            pure (v.1 :: r.1, r.2)
          | some text => do
            let s ← sbTextP [text]
            match s with
            | none => pure (v.1 :: t, false)
            | some s => do
              let y ← hdrTakeP v.1 s
              useP x.blk
              let r ← respLoopP loc t
              pure (y :: r.1, r.2)
    else do
      useP x.blk
      let r ← respLoopP loc t
      pure (x :: r.1, r.2)

/-! ### Connections -/

/-- What is done to a request or a response between reading and sending: rewriting rules (/repo/src/http.c:3399-3458) and the changes of /repo/src/http.c:3218-3390, 4164-4247; and what looks at it. -/
inductive MsgOp where
  /-- http_header_list_append of a text made for it, which is released afterwards (3428-3434, 4229-4240) -/
  | append (text : Bytes) (mode : HMode)
  /-- http_header_list_filter (3424) -/
  | filter (m : Bytes → Bool)
  /-- The value of a header is asked for: match_headers, http_request_host and others -/
  | value (i : Nat)
  /-- The Destination header is replaced (4190-4203) -/
  | change (i : Nat) (text : Bytes)
  | setUrl (url : Bytes)
  | setPath (path : Bytes)
  | setQuery (raw : Bytes)
  | setParam (name : Bytes) (v : Option Bytes)
  /-- http_request_get_path, http_request_get_query -/
  | get
  /-- http_request_get_query_param_value -/
  | getParam (name : Bytes)

/-- One operation (/repo/src/http.c:3399-3458, 4164-4247). `false`: it failed. Texts made for it are in a block of their own, which is released afterwards (Simplified: they are made as a whole or not at all). -/
def MsgOp.run (o : MsgOp) (r : PReq) : HM (PReq × Bool) :=
  match o with
  | .append text mode => do
    let s ← sbTextP [text]
    match s with
    | none => pure (r, false)
    | some s => do
      let x ← listAppendP r.headers text mode
      freeP (some s.blk)
      pure ({ r with headers := x.2 }, decide (x.1 = 0))
  | .filter m => do
    let hs ← listFilterP m r.headers
    pure ({ r with headers := hs }, true)
  | .value i =>
    match r.headers[i]? with
    | none => pure (r, true)
    | some x => do
      let v ← hdrValueP x
      pure ({ r with headers := r.headers.set i v.1 }, v.2.isSome)
  | .change i text =>
    match r.headers[i]? with
    | none => pure (r, true)
    | some x => do
      let s ← sbTextP [text]
      match s with
      | none => pure (r, false)
      | some s => do
        let y ← hdrTakeP x s
        pure ({ r with headers := r.headers.set i y }, true)
  | .setUrl u => do
    let s ← sbTextP [u]
    match s with
    | none => pure (r, false)
    | some s => do
      let x ← setUrlP r u
      freeP (some s.blk)
      pure x
  | .setPath p => do
    let s ← sbTextP [p]
    match s with
    | none => pure (r, false)
    | some s => do
      let x ← setPathP r p
      freeP (some s.blk)
      pure x
  | .setQuery q => do
    let s ← sbTextP [q]
    match s with
    | none => pure (r, false)
    | some s => do
      let x ← setQueryP r q
      freeP (some s.blk)
      pure x
  | .setParam name v => do
    let s ← sbTextP [v.getD []]
    match s with
    | none => pure (r, false)
    | some s => do
      let x ← setParamP r name v
      freeP (some s.blk)
      pure x
  | .get => splitP r
  | .getParam _ => do
    let x ← loadParamsP r
    if x.2 then do
      useParamsP x.1.params
      pure x
    else pure x

/-- What an operation does to the request line, as in Model/Request.lean (/repo/src/http.c:2325-2570) -/
def MsgOp.lineDo : MsgOp → Req → Req
  | .setUrl u, r => r.setUrl u
  | .setPath p, r => r.setPath p
  | .setQuery q, r => r.setQuery q
  | .setParam n v, r => r.setParam n v
  | .get, r => r.doSplit
  | .getParam _, r => r.loadParams
  | _, r => r

/-- What an operation does to the headers, as in Model/Headers.lean (/repo/src/http.c:2066-2161, 4190-4203) -/
def MsgOp.hdrsDo : MsgOp → List Header → Res (List Header)
  | .append t m, hs => match listAppend hs t m with
    | .ok r => .ok r.2
    | .ub => .ub
  | .filter m, hs => .ok (hs.filter fun h => !m h.text)
  | .change i t, hs => .ok (match hs[i]? with
    | some h => hs.set i (h.change t)
    | none => hs)
  | _, hs => .ok hs

/-- What operations do to the request line, one after the other (/repo/src/http.c:3399-3458) -/
def opsLine : List MsgOp → Req → Req
  | [], r => r
  | o :: os, r => opsLine os (o.lineDo r)

/-- What operations do to the headers, one after the other (/repo/src/http.c:3399-3458) -/
def opsHdrs : List MsgOp → List Header → Res (List Header)
  | [], hs => .ok hs
  | o :: os, hs => match o.hdrsDo hs with
    | .ok hs => opsHdrs os hs
    | .ub => .ub

/-- Operations one after the other, up to the first that fails, /repo/src/http.c:3399-3458 -/
def runOpsP (r : PReq) : List MsgOp → HM (PReq × Bool)
  | [] => pure (r, true)
  | o :: os => do
    let x ← o.run r
    if x.2 then runOpsP x.1 os else pure x

/-- A response of a backend (/repo/src/http.c:3669-3830): its head, what the rules do, and how Location headers are rewritten -/
structure RespInput where
  head : HeadInput
  ops : List MsgOp
  loc : Header → Option Bytes

/-- A round of backend_response, /repo/src/http.c:3669-3830: the previous response is released, the next one is read and worked on. A status line is not taken apart into URL and path (http_response_validate). -/
def respRoundP (table : List Bytes) (old : PReq) (i : RespInput) : HM (PReq × Bool) := do
  let q ← reqFreeP old
  let r ← readP table i.head q
  if r.2 ≠ .ok then pure (r.1, false)
  else do
    let x ← runOpsP r.1 i.ops
    if !x.2 then pure x
    else do
      let l ← respLoopP i.loc x.1.headers
      pure ({ x.1 with headers := l.1 }, l.2)

/-- The responses to a request, /repo/src/http.c:3669-3720 (100 Continue and the like come before the last one) -/
def respRoundsP (table : List Bytes) (old : PReq) : List RespInput → HM PReq
  | [] => pure old
  | i :: is => do
    let x ← respRoundP table old i
    if x.2 then respRoundsP table x.1 is else pure x.1

/-- A request of a client and what becomes of it, /repo/src/http.c:4615-4955 -/
structure ReqInput where
  head : HeadInput
  refuse : Header → Bool
  ops : List MsgOp
  resps : List RespInput

/-- A round of do_http, /repo/src/http.c:4615-4955, as far as the request and the response are concerned -/
def reqRoundP (table : List Bytes) (group : Nat) (req resp : PReq) (i : ReqInput) : HM (PReq × PReq × Bool) := do
  let q ← reqFreeP req
  let p ← reqFreeP resp
  let r ← readP table i.head q
  if r.2 ≠ .ok then pure (r.1, p, false)
  else do
    let r ← parseLineP r.1 group
    if r.2 ≠ .ok then pure (r.1, p, false)
    else do
      let l ← reqLoopP i.refuse r.1.headers
      if !l.2 then pure ({ r.1 with headers := l.1 }, p, false)
      else do
        let x ← runOpsP { r.1 with headers := l.1 } i.ops
        let p ← reqFreeP p
        if !x.2 then pure (x.1, p, true)
        else do
          let p ← respRoundsP table p i.resps
          pure (x.1, p, true)

/-- The rounds of a connection, /repo/src/http.c:4615-4955 -/
def connRoundsP (table : List Bytes) (group : Nat) (req resp : PReq) : List ReqInput → HM (PReq × PReq)
  | [] => pure (req, resp)
  | i :: is => do
    let x ← reqRoundP table group req resp i
    if x.2.2 then connRoundsP table group x.1 x.2.1 is else pure (x.1, x.2.1)

/-- A connection: do_http and pound_http_destroy, /repo/src/pound.c:378-384 -/
def connP (table : List Bytes) (group : Nat) (is : List ReqInput) : HM Unit := do
  let x ← connRoundsP table group PReq.init PReq.init is
  let _ ← reqFreeP x.1
  let _ ← reqFreeP x.2
  pure ()

end Pound
