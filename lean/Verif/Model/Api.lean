import Verif.Model.Exec
import Verif.Model.Registry
/-!
# Native functions that use the API

`Host` lets a native function be anything.  Here it is a program: it calls functions of the API, one after the other, and
each call may depend on the results of those before it.
-/
namespace Nk

/-- A native function while it runs: what it returns, or the next call and what it does with the result. -/
inductive Api where
  /-- Sets `data->returnValue` and returns. -/
  | done (r : Value)
  /-- Looks at anything: `nkxVmHasErrors`, `nkxGetErrorCount`, `nkxVmObjectGetExternalData`, `nkxGetMaxStackSize` and all other
  functions that change nothing. -/
  | look (k : VM → Api)
  /-- `nkxAddError`, `src/nkx.c:639-647`. -/
  | error (msg : String) (k : Api)
  /-- `nkxValueSetString`, `src/nkx.c:782-790`. -/
  | string (s : Bytes) (k : Value → Api)
  /-- `nkxValueToInt`, `src/nkx.c:350-358`. -/
  | toInt (v : Value) (k : BitVec 32 → Api)
  /-- `nkxValueToFloat`, `src/nkx.c:360-368`. -/
  | toFloat (v : Value) (k : BitVec 32 → Api)
  /-- `nkxValueToString`, `src/nkx.c:340-348`. -/
  | toText (v : Value) (k : Option Bytes → Api)
  /-- `nkxCreateObject`, `src/nkx.c:796-803`. -/
  | create (k : Value → Api)
  /-- `nkxVmObjectClearEntry`, `src/nkx.c:1068-1077`, `src/nkobjs.c:460-472`. -/
  | clear (o key : Value) (k : Api)
  /-- `nkxVmObjectFindOrAddEntry(.., nktrue)`, `src/nkx.c:1079-1090`, and reading the value at once. -/
  | find (o key : Value) (k : Option Value → Api)
  /-- `nkxVmObjectFindOrAddEntry(.., nkfalse)` and writing the value at once.  (Pointers to fields that are kept longer are not
  modelled.) -/
  | store (o key v : Value) (k : Bool → Api)
  /-- `nkxVmObjectGetSize`, `src/nkx.c:1093-1103`. -/
  | size (o : Value) (k : Nat → Api)
  /-- `nkxVmObjectAcquireHandle`, `src/nkx.c:402-408`. -/
  | acquire (o : Value) (k : Api)
  /-- `nkxVmObjectReleaseHandle`, `src/nkx.c:410-416`. -/
  | release (o : Value) (k : Api)
  /-- `nkxVmObjectSetExternalType`, `src/nkx.c:574-585`. -/
  | setType (o : Value) (t : Nat) (k : Bool → Api)
  /-- `nkxVmObjectSetExternalData`, `src/nkx.c:599-610`. -/
  | setData (o : Value) (d : Nat) (k : Bool → Api)
  /-- `nkxVmRegisterExternalType`, `src/nkx.c:547-561`. -/
  | type (t : ExtType) (k : Nat → Api)
  /-- `nkxVmSetupExternalFunction` without a compiler, `src/nkx.c:470-521`; `none`: any number of arguments. -/
  | setup (name : Bytes) (cb : Option Nat) (args : Option (List (Nat × Nat))) (k : Nat → Api)
  /-- `nkxVmGetOrCreateInternalFunctionForExternalFunction`, `src/nkx.c:535-544`. -/
  | function (e : Nat) (k : Nat → Api)
  /-- `nkxSetMaxStackSize`, `nkxSetMaxFieldsPerObject`, `src/nkx.c:686-704`. -/
  | limits (l : Limits) (k : Api)
  /-- `nkxSetRemainingInstructionLimit`, `src/nkx.c:676-679`. -/
  | left (n : Nat) (k : Api)
  /-- `nkxSetGarbageCollectionInterval`, `src/nkx.c:716-722`. -/
  | interval (n : Nat) (k : Api)
  /-- `nkxSetGarbageCollectionNewObjectInterval`, `src/nkx.c:729-735`. -/
  | newInterval (n : Nat) (k : Api)
  /-- `nkxVmGarbageCollect`, `src/nkx.c:162-169`. -/
  | collect (k : Api)
  /-- `nkxVmCallFunction`, `src/nkfunc.c:67-146`; `none`: there is no result. -/
  | call (f : Value) (args : List Value) (k : Option Value → Api)
  /-- `nkxVmIterate`, `src/nkx.c:134-160`. -/
  | iterate (n : Nat) (k : Api)

/-! The outcome `fuel` stands for runs that are not followed any further: because a called function needs more
instructions than are being followed, because the pass number of the collector would wrap (C16), or because the host breaks
the rule on coroutine objects. -/

/-- Collections go on only while the pass number does not wrap. -/
def guarded {α : Type} (m : M α) : M α := fun vm => if vm.gc.lastGCPass + 2 < 4294967296 then m vm else .ub .fuel

/-- `nkxSetGarbageCollectionNewObjectInterval`, `src/nkx.c:729-735`. -/
def setNewObjInterval (n : Nat) (vm : VM) : VM :=
  { vm with gc := { vm.gc with newObjInterval := n
                               newObjCountdown := if vm.gc.newObjCountdown > n then n else vm.gc.newObjCountdown } }

/-- `nkxVmObjectClearEntry`, `src/nkobjs.c:460-472`. -/
def clearPublic (F : FloatOps) (v key : Value) : M Unit := do
  let o ← objFromValue v
  match o with
  | some (id, _) => clearEntry F id key
  | none => addError "Bad object ID in nkiVmObjectClearEntry."

/-- `nkiVmObjectFindOrAddEntry_public(.., nkfalse)`, `src/nkobjs.c:474-488`, and an assignment through the pointer unless it is
NULL. -/
def storePublic (F : FloatOps) (v key x : Value) : M Bool := do
  let o ← objFromValue v
  match o with
  | some (id, _) => do
    let p ← findOrAddEntry F id key false
    match p with
    | some p => do
      writeElem id p x
      return true
    | none => return false
  | none => do
    addError "Bad object ID in nkiVmObjectFindOrAddEntry."
    return false

/-- The type of an object, if the value is an object. -/
def typeOf (vm : VM) (v : Value) : Option Nat :=
  match v with
  | .obj id =>
    match vm.objects.get id with
    | .ok (some o) => some o.extType
    | _ => none
  | _ => none

/-- `nkxVmObjectSetExternalType` by a host that does not make objects coroutines, or coroutines something else. -/
def setTypeApi (v : Value) (t : Nat) : M Bool := do
  let vm ← get
  if t = vm.coType ∨ typeOf vm v = some vm.coType then liftR (.ub .fuel) else setExtType v t

/-- `nkxVmObjectSetExternalData` by a host that does not change the data of coroutines. -/
def setDataApi (v : Value) (d : Nat) : M Bool := do
  let vm ← get
  if typeOf vm v = some vm.coType then liftR (.ub .fuel) else setExtData v d

/-- `nkxVmSetupExternalFunction`, `src/nkx.c:470-521`, without a compiler. -/
def setupNative (name : Bytes) (cb : Option Nat) (args : Option (List (Nat × Nat))) : M Nat := do
  let e ← registerNative name cb
  if e = UINT_MAX then return e
  else do
    let vm ← get
    match args with
    | some l => declareArgs e l.length (l.map (·.1)) (l.map (·.2))
    | none =>
      match vm.extFuncs[e]? with
      | some f => declareArgs e UINT_MAX f.argTypes f.argExtTypes
      | none => liftR (.ub .oob)
    return e

section
variable (F : FloatOps) (H : Host)

/-- The loop of `nkiVmCallFunction`, `src/nkfunc.c:130-134`, as `callLoop`. -/
def callLoopApi : Nat → M Bool
  | 0 => do
    let c ← curCtx
    let vm ← get
    return decide (c.ip = UINT_MAX ∨ hasErrors vm)
  | n + 1 => do
    let c ← curCtx
    let vm ← get
    if c.ip = UINT_MAX ∨ hasErrors vm then return true
    else do
      guarded (iterate F H)
      callLoopApi n

/-- `nkiVmCallFunction`, `src/nkfunc.c:67-146`, as `callFunction`. -/
def callApi (fuel : Nat) (fv : Value) (args : List Value) : M (Option Value) := do
  match fv with
  | .fn _ => do
    let c ← curCtx
    let go ← guarded (callEnter F H fv args)
    if go then do
      let stopped ← callLoopApi F H fuel
      if stopped then do
        let v ← pop
        modCur fun d => { d with ip := c.ip }
        return some v
      else liftR (.ub .fuel)
    else return none
  | _ => do
    addError "Tried to call a non-function with nkiVmCallFunction."
    return none

/-- `nkxVmIterate`, `src/nkx.c:134-160`, as `vmIterate`. -/
def iterateApi : Nat → M Unit
  | 0 => return ()
  | n + 1 => do
    let e ← atEnd
    if e then guarded (iterate F H)
    else do
      let vm ← get
      if hasErrors vm then return ()
      else do
        guarded (iterate F H)
        iterateApi n

/-- Running a native function, on a host with the native functions `H`. -/
def Api.run (fuel : Nat) : Api → M Value
  | .done r => return r
  | .look k => do
    let vm ← get
    (k vm).run fuel
  | .error msg k => do
    addError msg
    k.run fuel
  | .string s k => do
    let id ← findOrAddString s
    (k (.str id)).run fuel
  | .toInt v k => do
    let i ← valueToInt v
    (k i).run fuel
  | .toFloat v k => do
    let f ← valueToFloat F v
    (k f).run fuel
  | .toText v k => do
    let s ← valueToString F v
    (k s).run fuel
  | .create k => do
    let id ← createObject
    (k (.obj id)).run fuel
  | .clear o key k => do
    clearPublic F o key
    k.run fuel
  | .find o key k => do
    let v ← lookupPublic F o key
    (k v).run fuel
  | .store o key v k => do
    let b ← storePublic F o key v
    (k b).run fuel
  | .size o k => do
    let n ← objectSize o
    (k n).run fuel
  | .acquire o k => do
    acquireHandle o
    k.run fuel
  | .release o k => do
    releaseHandle o
    k.run fuel
  | .setType o t k => do
    let b ← setTypeApi o t
    (k b).run fuel
  | .setData o d k => do
    let b ← setDataApi o d
    (k b).run fuel
  | .type t k => do
    let n ← registerExternalType t
    (k n).run fuel
  | .setup name cb args k => do
    let n ← setupNative name cb args
    (k n).run fuel
  | .function e k => do
    let n ← internalFor e
    (k n).run fuel
  | .limits l k => do
    modify fun vm => { vm with limits := l }
    k.run fuel
  | .left n k => do
    modify (setInstructionLimit n)
    k.run fuel
  | .interval n k => do
    modify (setGCInterval n)
    k.run fuel
  | .newInterval n k => do
    modify (setNewObjInterval n)
    k.run fuel
  | .collect k => do
    guarded (garbageCollect H)
    k.run fuel
  | .call f args k => do
    let r ← callApi F H fuel f args
    (k r).run fuel
  | .iterate n k => do
    iterateApi F H n
    k.run fuel

/-- The host whose native functions are the programs `ps`.  A native function may call script functions, and these native
functions again: `depth` is how deep such calls are followed. -/
def apiHost (mark : Nat → Option Nat → List Value) (ps : Nat → List Value → Api) (fuel : Nat) : Nat → Host
  | 0 => { call := fun _ _ _ => .ub .fuel, mark := mark }
  | depth + 1 => { call := fun cb args => (ps cb args).run F (apiHost mark ps fuel depth) fuel, mark := mark }

end
end Nk
