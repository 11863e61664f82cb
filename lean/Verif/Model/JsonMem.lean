import Verif.Model.Own
import Verif.Model.Metrics

/-!
The memory of the answers to control requests: /repo/src/json.c:79-774, what /repo/src/svc.c:1887-2460 and /repo/src/pound.c:221-247 build with it, at the level of pointers.  Every allocation may
fail.

A value is a tree with the blocks that hold it.  Where the program keeps a pointer to a part of a value and changes it there, the model changes a copy and puts it back.  `json_memabrt` is lognomem,
which returns (/repo/src/pound.c:117-129, 1162).
-/

namespace Pound

/-- struct json_value, /repo/src/json.h:23-67, with its block.  An array has the blocks of struct json_array (NULL if there was no memory) and of its slots, and the number of slots; an object that of struct
json_object; its pairs have their own block and that of the key. -/
inductive PJ (D : Type) where
  | leaf (b : Nat) (v : JVal D)
  | str (b : Nat) (s : PStr)
  | arr (b : Nat) (a : Option Nat) (ov : Option Nat) (size : Nat) (l : List (PJ D))
  | obj (b o : Nat) (count : Nat) (l : List (Bytes × Nat × Nat × PJ D))

/-- The block of a value, /repo/src/json.h:55-67 -/
def PJ.blk {D} : PJ D → Nat
  | .leaf b _ => b
  | .str b _ => b
  | .arr b .. => b
  | .obj b .. => b

/-- json_value_create, /repo/src/json.c:79-88, for null, boolean and numeric values (:221-225, 235-242, 252-259, 273-280) -/
def newLeafP {D} (v : JVal D) : HM (Option (PJ D)) := do
  let b ← allocP
  pure (b.map fun b => .leaf b v)

/-- json_new_string, /repo/src/json.c:292-306 -/
def newStrP {D} (s : Bytes) : HM (Option (PJ D)) := do
  let b ← allocP
  match b with
  | none => pure none
  | some b => do
    let p ← dupS s
    match p with
    | none => do freeP (some b); pure none
    | some p => pure (some (.str b p))

/-- json_new_array, /repo/src/json.c:374-396: if the second allocation fails, json_memabrt is called and the value is returned nevertheless. -/
def newArrP {D} : HM (Option (PJ D)) := do
  let b ← allocP
  match b with
  | none => pure none
  | some b => do
    let a ← allocP
    pure (some (.arr b a none 0 []))

/-- json_new_object, /repo/src/json.c:552-564 -/
def newObjP {D} : HM (Option (PJ D)) := do
  let b ← allocP
  match b with
  | none => pure none
  | some b => do
    let o ← allocP
    match o with
    | none => do freeP (some b); pure none
    | some o => pure (some (.obj b o 0 []))

mutual
/-- json_value_free, /repo/src/json.c:149-158, with :308-312, 398-407, 566-581, for a value that is not NULL -/
def freeJ {D} : PJ D → HM Unit
  | .leaf b _ => freeP (some b)
  | .str b s => do
    useP b
    freeP (some s.blk)
    freeP (some b)
  | .arr b a ov _ l => do
    useP b
    match a with
    | none => nullP
    | some a => do
      useP a
      freeJs l
      freeP ov
      freeP (some a)
      freeP (some b)
  | .obj b o _ l => do
    useP b
    useP o
    freePairs l
    freeP (some o)
    freeP (some b)
/-- The loop of json_free_array, /repo/src/json.c:403-404 -/
def freeJs {D} : List (PJ D) → HM Unit
  | [] => pure ()
  | v :: l => do
    freeJ v
    freeJs l
/-- The loop of json_free_object, /repo/src/json.c:571-579 -/
def freePairs {D} : List (Bytes × Nat × Nat × PJ D) → HM Unit
  | [] => pure ()
  | (_, m, k, v) :: l => do
    useP m
    freeP (some k)
    freeJ v
    freeP (some m)
    freePairs l
end

mutual
/-- json_value_format and the format functions, /repo/src/json.c:172-189, 227-289, 366-371, 526-549, 746-774: what they read -/
def readJ {D} : PJ D → HM Unit
  | .leaf b _ => useP b
  | .str b s => do
    useP b
    useP s.blk
  | .arr b a ov _ l => do
    useP b
    match a with
    | none => nullP
    | some a => do
      useP a
      readSlots ov l
      readJs l
  | .obj b o _ l => do
    useP b
    useP o
    readPairs l
/-- The loop of json_format_array, /repo/src/json.c:534-544 -/
def readJs {D} : List (PJ D) → HM Unit
  | [] => pure ()
  | v :: l => do
    readJ v
    readJs l
/-- The loop of json_format_object, /repo/src/json.c:755-768 -/
def readPairs {D} : List (Bytes × Nat × Nat × PJ D) → HM Unit
  | [] => pure ()
  | (_, m, k, v) :: l => do
    useP m
    useP k
    readJ v
    readPairs l
/-- The slots of an array are read if there are elements, /repo/src/json.c:536. -/
def readSlots {D} : Option Nat → List (PJ D) → HM Unit
  | some o, _ :: _ => useP o
  | none, _ :: _ => nullP
  | _, [] => pure ()
end

/-- The number of slots after json_array_expand, /repo/src/json.c:439-457 and /repo/src/mem.c:20-53.  Simplified: no overflow. -/
def arrGrow (n : Nat) : Nat := if n = 0 then 8 else n + (n + 1) / 2

/-- json_array_append, /repo/src/json.c:481-490 and :459-479: the array and whether it succeeded.  One expansion makes room. -/
def arrAppendP {D} (jv v : Option (PJ D)) : HM (Option (PJ D) × Bool) :=
  match jv with
  | none => pure (none, false)
  | some j => do
    useP j.blk
    match j, v with
    | .arr b a ov n l, some v =>
      match a with
      | none => nullP
      | some a => do
        useP a
        if n ≤ l.length then do
          let p ← allocP
          match p with
          | none => pure (some (.arr b (some a) ov n l), false)
          | some p => do
            freeP ov
            pure (some (.arr b (some a) (some p) (arrGrow n) (l ++ [v])), true)
        else pure (some (.arr b (some a) ov n (l ++ [v])), true)
    | j, _ => pure (some j, false)

/-- The pairs and keys that json_object_lookup_or_install compares, /repo/src/json.c:617-657.  Simplified: all of them -/
def readKeys {D} : List (Bytes × Nat × Nat × PJ D) → HM Unit
  | [] => pure ()
  | (_, m, k, _) :: l => do
    useP m
    useP k
    readKeys l

/-- json_object_set, /repo/src/json.c:704-724 with :606-702: the object and whether it succeeded -/
def objSetP {D} (obj : Option (PJ D)) (name : Bytes) (v : Option (PJ D)) : HM (Option (PJ D) × Bool) :=
  match obj with
  | none => pure (none, false)
  | some j => do
    useP j.blk
    match j, v with
    | .obj b o c l, some v => do
      useP o
      readKeys l
      match jLookup ⟨c, l⟩ name with
      | .ub => badP
      | .ok (.found i) =>
        match l[i]? with
        | none => badP
        | some (k, m, kb, old) => do
          freeJ old
          pure (some (.obj b o c (l.set i (k, m, kb, v))), true)
      | .ok (.place at') => do
        let m ← allocP
        match m with
        | none => pure (some (.obj b o c l), false)
        | some m => do
          let k ← allocP
          match k with
          | none => do freeP (some m); pure (some (.obj b o c l), false)
          | some k => pure (some (.obj b o (c + 1) (jInsertAt l name (m, k, v) at')), true)
    | j, _ => pure (some j, false)

/-- A value that is not an array or object, with what /repo/src/json.c:221-306 allocates -/
def newValP {D} : JVal D → HM (Option (PJ D))
  | .str s => newStrP s
  | v => newLeafP v

/-- json_object_set (…) || json_object_set (…) || …, as in /repo/src/svc.c:1931-1934: stops at the first failure -/
def setAllP {D} (obj : Option (PJ D)) : List (Bytes × HM (Option (PJ D))) → HM (Option (PJ D) × Bool)
  | [] => pure (obj, true)
  | (k, mk) :: r => do
    let v ← mk
    let x ← objSetP obj k v
    if x.2 then setAllP x.1 r else pure (x.1, false)

/-- err |= json_object_set (…); err |= …, as in /repo/src/svc.c:2274-2283: goes on after failures -/
def setEachP {D} (obj : Option (PJ D)) : List (Bytes × HM (Option (PJ D))) → HM (Option (PJ D) × Bool)
  | [] => pure (obj, true)
  | (k, mk) :: r => do
    let v ← mk
    let x ← objSetP obj k v
    let y ← setEachP x.1 r
    pure (y.1, x.2 && y.2)

/-- Attributes whose values are neither arrays nor objects, as in /repo/src/svc.c:2127-2132 -/
def attrsP {D} (l : List (Bytes × JVal D)) : List (Bytes × HM (Option (PJ D))) := l.map fun x => (x.1, newValP x.2)

/-- json_value_free (obj); obj = NULL if there was an error, as in /repo/src/svc.c:1943-1947 -/
def doneP {D} (x : Option (PJ D) × Bool) : HM (Option (PJ D)) :=
  if x.2 then pure x.1
  else match x.1 with
    | none => pure none
    | some j => do freeJ j; pure none

/-- Write access to the last element of an array, /repo/src/svc.c:1925-1934 -/
def PJ.setLast {D} : PJ D → PJ D → PJ D
  | .arr b a ov n l, s => .arr b a ov n (l.dropLast ++ [s])
  | j, _ => j

/-- Write access to the value of an attribute, /repo/src/svc.c:2289-2298 -/
def PJ.put {D} (k : Bytes) : PJ D → PJ D → PJ D
  | .obj b o c l, v => .obj b o c (l.map fun x => if x.1 = k then (x.1, x.2.1, x.2.2.1, v) else x)
  | j, _ => j

/-- SESSION, what service_session_serialize shows of it, /repo/src/svc.c:1931-1934 -/
structure JSess where
  key : Bytes
  backend : Int
  expire : Bytes

/-- SERVICE, what service_serialize shows of it, /repo/src/svc.c:2246-2252; no list of sessions for SESS_NONE -/
structure JSvc (D : Type) where
  name : Option Bytes
  disabled : Bool
  sessType : Bytes
  sess : Option (List JSess)
  balancers : List (List (MBe D))

/-- LISTENER, what listener_serialize shows of it, /repo/src/svc.c:2274-2298 -/
structure JLst (D : Type) where
  name : Option Bytes
  address : Bytes
  https : Bool
  noHttps11 : Int
  disabled : Bool
  services : List (JSvc D)

/-- The state of the program, what pound_serialize shows of it, /repo/src/svc.c:2311-2388 -/
structure JState (D : Type) where
  stats : Bool
  version : Bytes
  pid : Int
  timestamp : Bytes
  queueLen : Int
  workers : MWorkers
  listeners : List (JLst D)
  services : List (JSvc D)

/-- The loop of service_session_serialize, /repo/src/svc.c:1916-1939: the array and whether there was no error -/
def sessLoopP {D} (L : DblLib D) (arr : PJ D) : List JSess → HM (Option (PJ D) × Bool)
  | [] => pure (some arr, true)
  | x :: r => do
    let s ← newObjP
    match s with
    | none => pure (some arr, false)
    | some s => do
      let y ← arrAppendP (some arr) (some s)
      match y with
      | (none, _) => badP
      | (some arr, false) => do
        freeJ s
        pure (some arr, false)
      | (some arr, true) => do
        let z ← setAllP (some s) (attrsP [(b!"key", .str x.key), (b!"backend", .int (L.ofInt x.backend)), (b!"expire", .str x.expire)])
        match z with
        | (none, _) => badP
        | (some s, false) => pure (some (arr.setLast s), false)
        | (some s, true) => sessLoopP L (arr.setLast s) r

/-- service_session_serialize, /repo/src/svc.c:1901-1949 -/
def sessionsP {D} (L : DblLib D) : Option (List JSess) → HM (Option (PJ D))
  | none => newLeafP .null
  | some l => do
    let a ← newArrP
    match a with
    | none => pure none
    | some a => do
      let x ← sessLoopP L a l
      doneP x

/-- backend_stats_serialize, /repo/src/svc.c:2019-2040: errors are ignored. -/
def statsP {D} (L : DblLib D) (b : MBe D) : HM (Option (PJ D)) := do
  let o ← newObjP
  match o with
  | none => pure none
  | some o => do
    let x ← setEachP (some o) (attrsP [(b!"request_count", .num (L.ofInt b.numreq))])
    if b.numreq > 0 then do
      let y ← setAllP x.1 (attrsP [(b!"request_time_avg", .num b.avgtime), (b!"request_time_stddev", .num (L.dev b.avgsqtime b.avgtime))])
      pure y.1
    else pure x.1

/-- backend_serialize, /repo/src/svc.c:2113-2205 -/
def backendP {D} (L : DblLib D) (stats : Bool) (b : MBe D) : HM (Option (PJ D)) := do
  let o ← newObjP
  match o with
  | none => pure none
  | some o => do
    let x ← setAllP (some o) (attrsP [(b!"type", .str b.v.typeStr), (b!"priority", .int (L.ofInt b.priority)), (b!"alive", .bool b.v.alive), (b!"enabled", .bool !b.disabled)])
    if x.2 then do
      let y ← setAllP x.1 (attrsP ((b!"weight", .int (L.ofInt b.weight)) :: b.v.attrs L))
      if stats && !b.v.isMatrix then do
        let z ← setEachP y.1 [(b!"stats", statsP L b)]
        doneP (z.1, y.2 && z.2)
      else doneP y
    else doneP x

/-- The inner loop of backends_serialize, /repo/src/svc.c:2222-2230: a failure ends it. -/
def besInnerP {D} (L : DblLib D) (stats : Bool) (arr : Option (PJ D)) : List (MBe D) → HM (Option (PJ D))
  | [] => pure arr
  | b :: r => do
    let v ← backendP L stats b
    let x ← arrAppendP arr v
    if x.2 then besInnerP L stats x.1 r
    else doneP (x.1, false)

/-- The outer loop of backends_serialize, /repo/src/svc.c:2218-2231: it goes on after failures. -/
def besOuterP {D} (L : DblLib D) (stats : Bool) (arr : Option (PJ D)) : List (List (MBe D)) → HM (Option (PJ D))
  | [] => pure arr
  | l :: r => do
    let a ← besInnerP L stats arr l
    besOuterP L stats a r

/-- backends_serialize, /repo/src/svc.c:2207-2234 -/
def backendsP {D} (L : DblLib D) (stats : Bool) (bals : List (List (MBe D))) : HM (Option (PJ D)) :=
  if bals.isEmpty then newLeafP .null
  else do
    let a ← newArrP
    besOuterP L stats a bals

/-- service_serialize, /repo/src/svc.c:2236-2261 -/
def serviceP {D} (L : DblLib D) (stats : Bool) (s : JSvc D) : HM (Option (PJ D)) := do
  let o ← newObjP
  match o with
  | none => pure none
  | some o => do
    let x ← setAllP (some o) (attrsP [(b!"name", jOpt s.name), (b!"enabled", .bool !s.disabled), (b!"session_type", .str s.sessType)] ++
      [(b!"sessions", sessionsP L s.sess), (b!"backends", backendsP L stats s.balancers)])
    doneP x

/-- if ((err = json_array_append (p, …)) != 0) break;, as in /repo/src/svc.c:2294-2298, 2358-2360, 2374-2376: the array and the last value of !err -/
def appendLoopP {D α : Type} (f : α → HM (Option (PJ D))) (p : PJ D) (ok : Bool) : List α → HM (PJ D × Bool)
  | [] => pure (p, ok)
  | x :: r => do
    let v ← f x
    let y ← arrAppendP (some p) v
    match y with
    | (some p, true) => appendLoopP f p true r
    | (some p, false) => pure (p, false)
    | (none, _) => badP

/-- listener_serialize, /repo/src/svc.c:2263-2309: the loop runs although the array has been released. -/
def listenerP {D} (L : DblLib D) (stats : Bool) (l : JLst D) : HM (Option (PJ D)) := do
  let o ← newObjP
  match o with
  | none => pure none
  | some o => do
    let x ← setEachP (some o) (attrsP ([(b!"name", jOpt l.name), (b!"address", .str l.address), (b!"protocol", .str (if l.https then b!"https" else b!"http"))] ++
      (if l.https then [(b!"nohttps11", .int (L.ofInt l.noHttps11))] else []) ++ [(b!"enabled", .bool !l.disabled)]))
    let p ← newArrP
    match p with
    | none => doneP (x.1, false)
    | some p => do
      let y ← objSetP x.1 b!"services" (some p)
      if y.2 then do
        let z ← appendLoopP (serviceP L stats) p x.2 l.services
        doneP (y.1.map fun o => o.put b!"services" z.1, z.2)
      else do
        freeJ p
        let z ← appendLoopP (serviceP L stats) p false l.services
        doneP (y.1, z.2)

/-- workers_serialize, /repo/src/pound.c:221-247 -/
def workersP {D} (L : DblLib D) (w : MWorkers) : HM (Option (PJ D)) := do
  let o ← newObjP
  match o with
  | none => pure none
  | some o => do
    let x ← setAllP (some o) (attrsP [(b!"min", .num (L.ofInt w.min)), (b!"max", .num (L.ofInt w.max)), (b!"timeout", .num (L.ofInt w.timeout)), (b!"count", .num (L.ofInt w.count)),
      (b!"active", .num (L.ofInt w.active))])
    doneP x

/-- pound_core_serialize, /repo/src/svc.c:2311-2334 -/
def coreP {D} (L : DblLib D) (st : JState D) : HM (Option (PJ D)) := do
  let o ← newObjP
  match o with
  | none => pure none
  | some o => do
    let x ← setAllP (some o) (attrsP [(b!"version", .str st.version), (b!"pid", .int (L.ofInt st.pid)), (b!"timestamp", .str st.timestamp), (b!"queue_len", .int (L.ofInt st.queueLen))] ++
      [(b!"workers", workersP L st.workers)])
    doneP x

/-- An array as attribute, /repo/src/svc.c:2349-2361, 2365-2378: the object and whether there was no error -/
def arrayAttrP {D α : Type} (obj : PJ D) (k : Bytes) (f : α → HM (Option (PJ D))) (l : List α) : HM (PJ D × Bool) := do
  let p ← newArrP
  match p with
  | none => pure (obj, false)
  | some p => do
    let y ← objSetP (some obj) k (some p)
    match y with
    | (none, _) => badP
    | (some obj, false) => do
      freeJ p
      pure (obj, false)
    | (some obj, true) => do
      let z ← appendLoopP f p true l
      pure (obj.put k z.1, z.2)

/-- pound_serialize, /repo/src/svc.c:2336-2388 -/
def poundP {D} (L : DblLib D) (st : JState D) : HM (Option (PJ D)) := do
  let o ← coreP L st
  match o with
  | none => pure none
  | some o => do
    let x ← arrayAttrP o b!"listeners" (listenerP L st.stats) st.listeners
    if x.2 then do
      let y ← arrayAttrP x.1 b!"services" (serviceP L st.stats) st.services
      doneP (some y.1, y.2)
    else doneP (some x.1, false)

mutual
/-- The value without its blocks, /repo/src/json.h:23-67 -/
def PJ.val {D} : PJ D → JVal D
  | .leaf _ v => v
  | .str _ s => .str s.txt
  | .arr _ _ _ _ l => .arr (PJ.vals l)
  | .obj _ _ c l => .obj c (PJ.pvals l)
def PJ.vals {D} : List (PJ D) → List (JVal D)
  | [] => []
  | v :: l => v.val :: PJ.vals l
def PJ.pvals {D} : List (Bytes × Nat × Nat × PJ D) → List (Bytes × JVal D)
  | [] => []
  | (k, _, _, v) :: l => (k, v.val) :: PJ.pvals l
end

/-- send_json_reply, /repo/src/svc.c:2397-2441: the status and the text sent.  `ind` is the parameter indent, NULL if it is not a number up to 80 (:2410-2420).  Simplified: the text is added to the buffer
at once. -/
def sendJsonP {D} (N : NumLib D) (ind : Option Nat) (j : PJ D) : HM (Nat × Bytes) :=
  match ind with
  | none => pure (400, [])
  | some i => do
    readJ j
    let sb ← sbAddP PSb.init (fmtVal N i 0 j.val)
    let x ← sbFinishP sb
    match x.2 with
    | none => do
      sbFreeP x.1
      pure (500, [])
    | some s => do
      useP s.blk
      sbFreeP x.1
      pure (200, s.txt)

/-- control_list_core, control_list_all and the other listings, /repo/src/svc.c:2443-2475, 2685-2727 -/
def controlListP {D} (N : NumLib D) (ind : Option Nat) (mk : HM (Option (PJ D))) : HM (Nat × Bytes) := do
  let v ← mk
  match v with
  | none => pure (500, [])
  | some j => do
    let r ← sendJsonP N ind j
    freeJ j
    pure r

end Pound
