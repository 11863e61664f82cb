import Verif.Model.Own
import Verif.Model.Expand

/-!
The memory of the replies of Error backends: /repo/src/http.c:1050-1141.
-/

namespace Pound

/-- The loop of parse_header_text, /repo/src/http.c:1056-1083, for a text that is given as its lines (see `errHeaderLines`): one buffer is used for all of them and released at the end; headers get copies. -/
def parseTextP (hs : List PHdr) (sb : PSb) : List Bytes → HM (List PHdr × Bool)
  | [] => do
    sbFreeP sb
    pure (hs, true)
  | l :: ls => do
    let sb ← sbAddP { sb with txt := [] } l
    let f ← sbFinishP sb
    match f.2 with
    | none => do
      sbFreeP f.1
      pure (hs, false)
    | some s => do
      useP s.blk
      let x ← listAppendP hs s.txt .replace
      if x.1 = 0 then parseTextP x.2 f.1 ls
      else do
        sbFreeP f.1
        pure (x.2, false)

/-- The lines of err_headers, /repo/src/http.c:157-160 -/
def errHeaderLines : List Bytes := [b!"Expires: now", b!"Pragma: no-cache", b!"Cache-control: no-cache,no-store"]

/-- error_response, /repo/src/http.c:1085-1141, as far as its request is concerned; `ops` is what the rules for responses do. The result are the headers that are sent, or nothing if it returns
HTTP_STATUS_INTERNAL_SERVER_ERROR (1100-1105): then the request is not released. -/
def errorReplyP (ops : List MsgOp) : HM (Option (List Header)) := do
  let h ← parseTextP [] PSb.init errHeaderLines
  if h.2 then do
    let x ← runOpsP { PReq.init with headers := h.1 } ops
    if x.2 then do
      let sent := x.1.headers.map (·.hdr)
      let _ ← reqFreeP x.1
      pure (some sent)
    else pure none
  else pure none

/-- Replies one after the other: requests for Error backends, /repo/src/http.c:1085-1141 -/
def errorRepliesP : List (List MsgOp) → HM (List (Option (List Header)))
  | [] => pure []
  | o :: os => do
    let r ← errorReplyP o
    let rs ← errorRepliesP os
    pure (r :: rs)

end Pound
