import Verif.Model.VM
/-!
# The garbage collector: `src/nkgc.c`, with the sweep functions of `src/nkstring.c` and `src/nkobjs.c`
and the coroutine callbacks of `src/nkcorout.c`

Host mark callbacks are given by `Host.mark` (the values they mark).  Host cleanup callbacks are
recorded in `VM.cleanupLog` and do not change the VM (assumption on the host).  The coroutine type's
callbacks are modelled exactly.
-/
namespace Nk

/-- `gcState`, `src/nkgc.c:54-60`: the pass number and the open list (object ids, head first).  The
closed list only recycles allocations. -/
structure GCState where
  pass : Nat
  opn : List Nat
deriving Repr, DecidableEq

/-- `nkiVmGarbageCollect_markString`, `src/nkgc.c:79-94`. -/
def markString (pass id : Nat) : M Unit := do
  let e ← getStrEntry id
  match e with
  | some e => fun vm => match vm.strings.write id (some { e with lastGCPass := pass }) with
    | .ok t => .ok ((), { vm with strings := t })
    | .ub k => .ub k
  | none => addError "GC error: Bad string table index."

/-- `nkiVmGarbageCollect_addObject`, `src/nkgc.c:96-114`; returns the new open list. -/
def gcAddObject (pass id : Nat) (opn : List Nat) : M (List Nat) := do
  let o ← getObj id
  match o with
  | some o => return if o.lastGCPass ≠ pass then id :: opn else opn
  | none => do
    addError "Bad object reference in garbage collector."
    return opn

/-- `nkiVmGarbageCollect_markValue`, `src/nkgc.c:116-133`. -/
def markValue (pass : Nat) (opn : List Nat) (v : Value) : M (List Nat) :=
  match v with
  | .obj id => gcAddObject pass id opn
  | .str id => do
    markString pass id
    return opn
  | _ => return opn

/-- A loop of `markValue`. -/
def markValues (pass : Nat) (opn : List Nat) : List Value → M (List Nat)
  | [] => return opn
  | v :: vs => do
    let opn ← markValue pass opn v
    markValues pass opn vs

/-- `nkiCoroutineLibrary_coroutineGCMark`, `src/nkcorout.c:51-75`: the values it marks. -/
def coroutineMarks (vm : VM) (data : Option Nat) : Res (List Value) :=
  match data with
  | none => .ok []
  | some c => do
    let ctx ← ctxAt vm c
    let ps ← match ctx.parent with
      | none => Res.ok []
      | some p => do
        let pc ← ctxAt vm p
        Res.ok [pc.coObj]
    if ctx.stack.size ≤ ctx.stack.vals.length then .ok (ps ++ ctx.stack.vals.take ctx.stack.size)
    else .ub .oob

/-- The values marked by an object's external type callback, `src/nkgc.c:165-187`. -/
def externalMarks (H : Host) (vm : VM) (o : Obj) : Res (List Value) :=
  match vm.extTypes[o.extType]? with
  | none => .ok []
  | some t =>
    if t.hasMark then
      if o.extType = vm.coType then coroutineMarks vm o.extData
      else .ok (H.mark o.extType o.extData)
    else .ok []

/-- Keys and values of an object in the order of the traversal, `src/nkgc.c:148-163`. -/
def Obj.contents (o : Obj) : List Value :=
  o.buckets.flatMap (fun es => es.flatMap (fun e => [e.1, e.2]))

/-- Everything `nkiVmGarbageCollect_markObject` marks for one object. -/
def objectRefs (H : Host) (vm : VM) (o : Obj) : Res (List Value) := do
  let ext ← externalMarks H vm o
  .ok (o.contents ++ ext)

/-- `nkiVmGarbageCollect_markObject`, `src/nkgc.c:135-188`, on the live object `id`. -/
def markObject (H : Host) (pass id : Nat) (opn : List Nat) : M (List Nat) := do
  let vm ← get
  match vm.objects.slots[id]? with
  | some (some o) =>
    if o.lastGCPass = pass then return opn
    else do
      setObj id { o with lastGCPass := pass }
      let refs ← liftR (objectRefs H vm o)
      markValues pass opn refs
  | _ => liftR (.ub .oob)

/-- `nkiVmGarbageCollect_markReferenced`, `src/nkgc.c:190-204`.  `fuel` bounds the iterations. -/
def markReferenced (H : Host) (pass : Nat) : Nat → List Nat → M Unit
  | _, [] => return ()
  | 0, _ :: _ => liftR (.ub .fuel)
  | fuel + 1, id :: opn => do
    let opn ← markObject H pass id opn
    markReferenced H pass fuel opn

/-- Number of values an object can put on the open list, plus one. -/
def refWeight (H : Host) (vm : VM) (o : Obj) : Nat :=
  match objectRefs H vm o with
  | .ok l => l.length + 1
  | .ub _ => 1

/-- A bound on the iterations of `markReferenced`. -/
def gcFuel (H : Host) (vm : VM) (opn : List Nat) : Nat :=
  opn.length + (vm.objects.slots.map (fun o => match o with
    | some o => refWeight H vm o
    | none => 0)).sum

/-- Marking of the objects with external handles, `src/nkgc.c:227-234`. -/
def markHandles (H : Host) (pass : Nat) (opn : List Nat) : List Nat → M (List Nat)
  | [] => return opn
  | id :: ids => do
    let opn ← markObject H pass id opn
    markHandles H pass opn ids

/-- `nkiVmGarbageCollect_markStack` on the root context, `src/nkgc.c:206-216` and `240`: the values
in the used part of the stack. -/
def rootStackValues (vm : VM) : Res (List Value) := do
  let c ← ctxAt vm 0
  if c.stack.size ≤ c.stack.vals.length then .ok (c.stack.vals.take c.stack.size) else .ub .oob

/-- The loop over the static space, `src/nkgc.c:246-261`: indices 0 up to and including the mask. -/
def staticValues (vm : VM) : Res (List Value) :=
  if vm.staticMask < vm.statics.length then .ok (vm.statics.take (vm.staticMask + 1)) else .ub .oob

/-- One bucket of `nkiVmStringTableCleanOldStrings`, `src/nkstring.c:183-211`: returns the surviving
list.  Simplified: a live string's index is never `NK_INVALID_VALUE`, so lines 191-194 are left out. -/
def sweepStrings (pass : Nat) : List Nat → M (List Nat)
  | [] => return []
  | id :: ids => do
    let vm ← get
    match vm.strings.slots[id]? with
    | some (some e) =>
      if pass ≠ e.lastGCPass ∧ e.dontGC = false then do
        let t ← liftR (vm.strings.erase id)
        modify fun vm => { vm with strings := t }
        sweepStrings pass ids
      else do
        let rest ← sweepStrings pass ids
        return id :: rest
    | _ => liftR (.ub .oob)

/-- `nkiVmStringTableCleanOldStrings`, `src/nkstring.c:176-212`: the buckets from `i` on, `n` of them. -/
def cleanOldStrings (pass : Nat) (i : Nat) : Nat → M Unit
  | 0 => return ()
  | n + 1 => do
    let vm ← get
    match vm.sbuckets[i]? with
    | none => liftR (.ub .oob)
    | some ids => do
      let ids' ← sweepStrings pass ids
      modify fun vm => { vm with sbuckets := vm.sbuckets.set i ids' }
      cleanOldStrings pass (i + 1) n

/-- `nkiCoroutineLibrary_coroutineGCData`, `src/nkcorout.c:77-87`: free the context. -/
def freeCtx (data : Option Nat) : M Unit := fun vm =>
  match data with
  | none => .ok ((), vm)
  | some c => match ctxAt vm c with
    | .ok _ => .ok ((), { vm with ctxs := vm.ctxs.set c none })
    | .ub k => .ub k

/-- `nkiVmObjectTableCleanupObject`, `src/nkobjs.c:132-168`: run the cleanup callback of the object's
external type.  The object itself is deleted by the callers (they clear its slot). -/
def cleanupObject (id : Nat) (o : Obj) : M Unit := do
  let vm ← get
  if o.extType ≠ UINT_MAX then
    match vm.extTypes[o.extType]? with
    | some t =>
      if t.hasCleanup then do
        modify fun vm => { vm with cleanupLog := (id, o.extType, o.extData) :: vm.cleanupLog }
        if o.extType = vm.coType then freeCtx o.extData else return ()
      else return ()
    | none => addError "External type value out of range."
  else return ()

/-- `nkiVmObjectTableCleanOldObjects`, `src/nkobjs.c:183-199`: slots `i` .. `i+n-1`. -/
def cleanOldObjects (pass : Nat) (i : Nat) : Nat → M Unit
  | 0 => return ()
  | n + 1 => do
    let vm ← get
    match vm.objects.slots[i]? with
    | none => liftR (.ub .oob)
    | some none => cleanOldObjects pass (i + 1) n
    | some (some o) =>
      if pass ≠ o.lastGCPass then do
        cleanupObject i o
        let vm ← get
        let t ← liftR (vm.objects.erase i)
        modify fun vm => { vm with objects := t }
        cleanOldObjects pass (i + 1) n
      else cleanOldObjects pass (i + 1) n

/-- The marking half of `nkiVmGarbageCollect`, `src/nkgc.c:218-265`, for pass number `pass`. -/
def gcMark (H : Host) (pass : Nat) : M Unit := do
  let vm ← get
  let opn ← markHandles H pass [] vm.handles
  let rootVals ← liftR (rootStackValues vm)
  let opn ← markValues pass opn rootVals
  let c ← curCtx
  let opn ← markValue pass opn c.coObj
  let statics ← liftR (staticValues vm)
  let opn ← markValues pass opn statics
  let vm ← get
  markReferenced H pass (gcFuel H vm opn) opn

/-- `nkiVmGarbageCollect`, `src/nkgc.c:218-284`. -/
def garbageCollect (H : Host) : M Unit := do
  modify fun vm => { vm with gc := { vm.gc with lastGCPass := u32 (vm.gc.lastGCPass + 1) } }
  let vm ← get
  let pass := vm.gc.lastGCPass
  gcMark H pass
  cleanOldStrings pass 0 256
  let vm ← get
  cleanOldObjects pass 0 vm.objects.cap

end Nk
