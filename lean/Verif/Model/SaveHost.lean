import Verif.Model.Save
/-!
# Saving and loading with serialization callbacks of the host: `src/nksave.c:1141-1239`

`Model.Save` has callbacks that neither write nor read.  Here the callbacks of subsystems and of external types other
than coroutines write and read bytes through `nkxSerializeData` (`src/nkx.c:975-986`); everything else is that of
`Model.Save`.

Simplified: callbacks do nothing else to the VM.  In particular the pointer that a callback makes of what it reads is not
put into its object (`nkxVmObjectSetExternalData`); what it is given is recorded instead (`Call`).
-/
namespace Nk.Save

/-- The callbacks of a host.  `subWrite d` and `objWrite ty id d` are the bytes that a callback hands to
`nkxSerializeData` when saving: for the subsystem with data `d`, or for object `id` with external type `ty` and external
data `d`.  `subRead d b` and `objRead ty id b` say how many of the bytes `b` that are left it takes when loading. -/
structure Callbacks where
  subWrite : Nat → Bytes
  subRead : Nat → Bytes → Nat
  objWrite : Nat → Nat → Option Nat → Bytes
  objRead : Nat → Nat → Bytes → Nat

/-- A call of a callback when loading, with the bytes it took.  A subsystem's callback is called with the data of the
subsystem, a type's with the object. -/
inductive Call where
  | sub (data : Nat) (got : Bytes)
  | obj (ty id : Nat) (got : Bytes)
deriving Repr, DecidableEq

section
variable (K : Callbacks)

/-- One subsystem of `nkiSerializeExternalSubsystemData` when saving, `src/nksave.c:1165-1170`. -/
def saveSubWith (s : Subsystem) : W :=
  saveString s.name ⨟ (if s.hasSerialize then emit (K.subWrite s.data) else emit [])

/-- `nkiSerializeExternalSubsystemData` when saving, `src/nksave.c:1141-1175`. -/
def saveSubsystemsWith : W := do
  let vm ← get
  emit (le32 vm.subsystems.flatten.length) ⨟ emitAll (saveSubWith K) vm.subsystems.flatten

/-- One object of `nkiSerializeExternalObjects` when saving, `src/nksave.c:1212-1237`. -/
def saveExtObjectWith (e : Nat × Obj) : W := do
  let vm ← get
  if e.2.extType ≠ UINT_MAX then
    match vm.extTypes[e.2.extType]? with
    | some t =>
      if t.hasSerialize then
        if e.2.extType = vm.coType then saveCoroutine e.1 e.2.extData
        else emit (K.objWrite e.2.extType e.1 e.2.extData)
      else emit []
    | none => do
      addError "External type value out of range."
      emit []
  else emit []

/-- `nkiSerializeExternalObjects` when saving, `src/nksave.c:1203-1241`. -/
def saveExtObjectsWith : W := do
  let vm ← get
  let es ← liftR (entries vm.objects)
  emitAll (saveExtObjectWith K) es

/-- `nkiVmSerialize` with `writeMode`, `src/nksave.c:1462-1550`. -/
def saveWith : W :=
  emit header ⨟ saveInstrs ⨟ saveErrors ⨟ saveStatics ⨟ saveContext 0 false ⨟ saveStrings ⨟ saveGc ⨟
  saveFunctions ⨟ saveObjects ⨟ saveGlobals ⨟ saveTypes ⨟ saveSubsystemsWith K ⨟ saveExtObjectsWith K ⨟ saveFiles ⨟
  saveMarkers ⨟ saveActive

/-- A callback that reads: it gets the next bytes of the host's stream. -/
def takeBytes (n : Bytes → Nat) : L Bytes := fun b => return (some (b.take (n b)), b.drop (n b))

/-- Do something `n` times with a counter and collect the calls. -/
def timesCalls (f : Nat → L (List Call)) : Nat → Nat → L (List Call)
  | _, 0 => pure []
  | i, n + 1 => do
    let c ← f i
    let cs ← timesCalls f (i + 1) n
    return c ++ cs

/-- One subsystem when loading, `src/nksave.c:1180-1199`. -/
def loadSubWith : L (List Call) := do
  let name ← loadString
  let vm ← lift get
  match vm.subsystems[subBucket name]? with
  | none => lift (liftR (.ub .oob))
  | some b => match findSub name b with
    | none => reject "External subsystem for serialized external subsystem data cannot be found."
    | some s =>
      if s.hasSerialize then do
        let g ← takeBytes (K.subRead s.data)
        return [.sub s.data g]
      else return []

/-- The load part of `nkiSerializeExternalSubsystemData`, `src/nksave.c:1141-1201`. -/
def loadSubsystemsWith : L (List Call) := do
  let n ← read32
  timesCalls (fun _ => loadSubWith K) 0 n

/-- One slot of `nkiSerializeExternalObjects` when loading, `src/nksave.c:1209-1237`. -/
def loadExtObjectWith (i : Nat) : L (List Call) := do
  let vm ← lift get
  let o ← lift (liftR (vm.objects.read i))
  match o with
  | none => return []
  | some o =>
    if o.extType ≠ UINT_MAX then
      match vm.extTypes[o.extType]? with
      | some t =>
        if t.hasSerialize then
          if o.extType = vm.coType then do
            loadCoroutine i o.extData
            return []
          else do
            let g ← takeBytes (K.objRead o.extType i)
            return [.obj o.extType i g]
        else return []
      | none => do
        lift (addError "External type value out of range.")
        return []
    else return []

/-- The load part of `nkiSerializeExternalObjects`, `src/nksave.c:1203-1241`. -/
def loadExtObjectsWith : L (List Call) := do
  let vm ← lift get
  timesCalls (loadExtObjectWith K) 0 vm.objects.cap

/-- `nkiVmSerialize` without `writeMode`, `src/nksave.c:1462-1550`.  Yields the calls of callbacks, in order. -/
def loadWith (F : FloatOps) : L (List Call) := do
  loadHeader
  loadInstrs
  loadErrors
  loadStatics
  loadContext 0 false
  loadStrings
  loadGc
  loadFunctions
  loadObjects F
  loadGlobals
  loadTypes
  let cs ← loadSubsystemsWith K
  let ds ← loadExtObjectsWith K
  loadFiles
  loadMarkers
  loadActive
  return cs ++ ds

end
end Nk.Save
