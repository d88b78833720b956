import Verif.Model.Save
/-!
# Saving with a writer that may refuse data

`nkiVmSerialize` with `writeMode`, `src/nksave.c:1453-1550`, call by call of the writer of the host
(`NKVMSerializationWriter`).  `Model/Save.lean` models saving with a writer that accepts everything; here the writer is any
function with a state of its own which accepts or refuses each piece of data.  Serialization callbacks of the host other
than that of coroutines are left out, as there.
-/
namespace Nk.Save
variable {σ α : Type}

/-- A writer of the host with its userdata, `NKVMSerializationWriter`, `src/nktypes.h:230`: it gets a piece of data and
answers whether it took it.  Its state is everything it may change outside the VM. -/
structure Sink (σ : Type) where
  put : σ → Bytes → Bool × σ

/-- A saving function: success flag and the state of the writer. -/
abbrev T (σ : Type) := σ → M (Bool × σ)

/-- `NKI_SERIALIZE_DATA` and `NKI_SERIALIZE_BASIC`, `src/nksave.c:56-63`: one call of the writer. -/
def put (K : Sink σ) (b : Bytes) : T σ := fun s => return K.put s b

/-- Nothing more to write. -/
def T.done : T σ := fun s => return (true, s)

/-- `return nkfalse`. -/
def T.stop : T σ := fun s => return (false, s)

/-- `NKI_WRAPSERIALIZE`, `src/nksave.c:49-54`. -/
def T.andThen (x y : T σ) : T σ := fun s => do
  let r ← x s
  if r.1 then y r.2 else return r

infixr:60 " ⨾ " => T.andThen

/-- Something for every element of a list. -/
def putEach (f : α → T σ) : List α → T σ
  | [] => T.done
  | x :: xs => f x ⨾ putEach f xs

/-- Fail with a message. -/
def T.refuse (e : String) : T σ := fun s => do
  addError e
  return (false, s)

variable (K : Sink σ)

/-- `nkiSerializeString_save`, `src/nksave.c:65-86`. -/
def stringTo (s : Bytes) : T σ :=
  if s.length ≥ UINT_MAX then T.refuse "String too long to serialize."
  else put K (le32 s.length) ⨾ put K s

/-- `nkiSerializeInstructions`, `src/nksave.c:596-657`. -/
def instrsTo : T σ := fun s => do
  let vm ← get
  if vm.instrs.length ≤ vm.instrMask then liftR (.ub .oob)
  else
    let lim := lastWord vm.instrs vm.instrMask
    (put K (le32 lim) ⨾ put K (le32 vm.instrMask) ⨾
    (if vm.instrMask = UINT_MAX then T.refuse "Instruction address mask is too large."
    else if ¬ isPow2 (vm.instrMask + 1) then T.refuse "Instruction address mask is not a power of two minus one."
    else if lim > vm.instrMask then T.refuse "Too many instructions for given instruction address mask."
    else putEach (fun w => put K (le32 w.toNat)) (vm.instrs.take (lim + 1)))) s

/-- `nkiSerializeErrorState`, `src/nksave.c:153-193`. -/
def errorsTo : T σ := fun s => do
  let vm ← get
  (put K (le32 vm.errors.length) ⨾ putEach (fun e => stringTo K (cs e)) vm.errors) s

/-- `nkiSerializeStatics`, `src/nksave.c:659-693`: the statics go to the writer in one piece. -/
def staticsTo : T σ := fun s => do
  let vm ← get
  (put K (le32 vm.staticMask) ⨾
  (if ¬ isPow2 (u32 (vm.staticMask + 1)) then
    T.refuse "Static space address mask is not a power of two minus one."
  else if vm.staticMask ≥ UINT_MAX then T.refuse "Static space address mask is too large."
  else if vm.statics.length ≤ vm.staticMask then fun _ => liftR (.ub .oob)
  else put K ((vm.statics.take (vm.staticMask + 1)).flatMap valueBytes))) s

/-- `nkiSerializeStack`, `src/nksave.c:695-763`. -/
def stackTo (i : Nat) : T σ := fun s => do
  let vm ← get
  let c ← liftR (ctxAt vm i)
  (put K (le32 c.stack.size) ⨾ put K (le32 c.stack.cap) ⨾
  (if ¬ isPow2 c.stack.cap then T.refuse "Stack capacity is not a power of two."
  else if c.stack.cap > vm.limits.maxStackSize then T.refuse "Stack capacity is too large for limit."
  else if c.stack.cap < 1 then T.refuse "Stack capacity is zero."
  else fun s => do
    setCtx i { c with stack := { c.stack with mask := c.stack.cap - 1 } }
    (if c.stack.cap < c.stack.size then T.stop
    else if c.stack.vals.length < c.stack.size then fun _ => liftR (.ub .oob)
    else put K ((c.stack.vals.take c.stack.size).flatMap valueBytes)) s)) s

/-- `nkiSerializeExecutionContext`, `src/nksave.c:1410-1442`. -/
def contextTo (i : Nat) (coroutine : Bool) : T σ := fun s => do
  let vm ← get
  let c ← liftR (ctxAt vm i)
  (put K (le32 c.ip) ⨾ stackTo K i ⨾ (if coroutine then put K (le32 (stateCode c.state)) else T.done)) s

/-- One entry of the string table, `src/nksave.c:483-487`. -/
def strTo (e : Nat × Str) : T σ :=
  put K (le32 e.1) ⨾ stringTo K e.2.str ⨾ put K (le32 e.2.lastGCPass) ⨾ put K [if e.2.dontGC then 1 else 0]

/-- `nkiSerializeStringTable`, `src/nksave.c:421-489`. -/
def stringsTo : T σ := fun s => do
  let vm ← get
  (put K (le32 vm.strings.cap) ⨾
  (if ¬ isPow2 vm.strings.cap then T.refuse "String table capacity is not a power of two."
  else fun s => do
    let es ← liftR (entries vm.strings)
    (put K (le32 es.length) ⨾ putEach (strTo K) es) s)) s

/-- `nkiSerializeGcState`, `src/nksave.c:765-788`: the interval is capped after it was written, unless the writer refused. -/
def gcTo : T σ := fun s => do
  let vm ← get
  (put K (le32 vm.gc.lastGCPass) ⨾ put K (le32 vm.gc.interval) ⨾ (fun s => do
    modify fun vm => { vm with gc := { vm.gc with interval := min vm.gc.interval 65536 } }
    return (true, s)) ⨾
    put K (le32 vm.gc.countdown) ⨾ put K (le32 vm.gc.newObjInterval) ⨾ put K (le32 vm.gc.newObjCountdown)) s

/-- `nkiSerializeFunctionTable` with `_inner`, `src/nksave.c:792-929`. -/
def functionsTo : T σ := fun s => do
  let vm ← get
  (put K (le32 vm.extFuncs.length) ⨾
  putEach (fun f : ExtFunc => put K (le32 f.internalId) ⨾ stringTo K f.name) vm.extFuncs ⨾
  put K (le32 vm.functions.length) ⨾
  putEach (fun f : Func => put K (le32 f.argc) ⨾ put K (le32 f.first) ⨾ put K (le32 f.extId)) vm.functions) s

/-- `nkiSerializeObject`, `src/nksave.c:215-277`, with the index written by its caller, `src/nksave.c:348`. -/
def objectTo (e : Nat × Obj) : T σ :=
  put K (le32 e.1) ⨾ put K (le32 e.2.size) ⨾ put K (le32 e.2.handleCount) ⨾ put K (le32 e.2.lastGCPass) ⨾
  put K (le32 e.2.extType) ⨾
  putEach (fun p : Value × Value => put K (valueBytes p.1) ⨾ put K (valueBytes p.2)) e.2.buckets.flatten

/-- `nkiSerializeObjectTable`, `src/nksave.c:287-354`. -/
def objectsTo : T σ := fun s => do
  let vm ← get
  (put K (le32 vm.objects.cap) ⨾
  (if ¬ isPow2 vm.objects.cap then T.refuse "Object table capacity is not a power of two."
  else fun s => do
    let es ← liftR (entries vm.objects)
    (put K (le32 es.length) ⨾
    (if es.length > vm.objects.cap then T.refuse "Object count exceeds object table capacity."
    else putEach (objectTo K) es)) s)) s

/-- `nkiSerializeGlobalsList`, `src/nksave.c:931-972`. -/
def globalsTo : T σ := fun s => do
  let vm ← get
  (put K (le32 vm.globals.length) ⨾
  putEach (fun g : Bytes × Nat => stringTo K g.1 ⨾ put K (le32 g.2)) vm.globals) s

/-- `nkiSerializeExternalTypes`, `src/nksave.c:974-1139`. -/
def typesTo : T σ := fun s => do
  let vm ← get
  (put K (le32 vm.extTypes.length) ⨾ putEach (fun t : ExtType => stringTo K t.name) vm.extTypes) s

/-- `nkiSerializeExternalSubsystemData`, `src/nksave.c:1141-1202`. -/
def subsystemsTo : T σ := fun s => do
  let vm ← get
  (put K (le32 vm.subsystems.flatten.length) ⨾
  putEach (fun s : Subsystem => stringTo K s.name) vm.subsystems.flatten) s

/-- `nkiCoroutineLibrary_coroutineSerializeData`, `src/nkcorout.c:89-134`, when saving.  It cannot return a failure: that the
writer refused something becomes an error of the VM, and saving goes on with the next object. -/
def coroutineTo (id : Nat) (data : Option Nat) : T σ := fun s => do
  let i ← coContext id data
  let r ← contextTo K i true s
  if r.1 then pure () else addError "Coroutine serialization failed."
  coOwner id i
  return (true, r.2)

/-- One object of `nkiSerializeExternalObjects`, `src/nksave.c:1209-1237`. -/
def extObjectTo (e : Nat × Obj) : T σ := fun s => do
  let vm ← get
  if e.2.extType ≠ UINT_MAX then
    match vm.extTypes[e.2.extType]? with
    | some t =>
      if t.hasSerialize ∧ e.2.extType = vm.coType then coroutineTo K e.1 e.2.extData s else T.done s
    | none => do
      addError "External type value out of range."
      T.done s
  else T.done s

/-- `nkiSerializeExternalObjects`, `src/nksave.c:1204-1241`. -/
def extObjectsTo : T σ := fun s => do
  let vm ← get
  let es ← liftR (entries vm.objects)
  putEach (extObjectTo K) es s

/-- `nkiSerializeSourceFileList`, `src/nksave.c:1243-1274`. -/
def filesTo : T σ := fun s => do
  let vm ← get
  (put K (le32 vm.sourceFiles.length) ⨾ putEach (stringTo K) vm.sourceFiles) s

/-- `nkiSerializePositionMarkerList`, `src/nksave.c:1276-1316`: each marker in one piece. -/
def markersTo : T σ := fun s => do
  let vm ← get
  (put K (le32 vm.markers.length) ⨾
  putEach (fun m : Marker => put K (le32 m.instr ++ le32 m.file ++ le32 m.line ++ le32 m.actualLine)) vm.markers) s

/-- The loop of `nkiSerializeActiveCoroutines`, `src/nksave.c:1324-1329`; `n` bounds the number of contexts visited. -/
def chainTo : Nat → Nat → T σ
  | 0, _ => fun _ => liftR (.ub .fuel)
  | n + 1, i => fun s => do
    let vm ← get
    let c ← liftR (ctxAt vm i)
    (put K (valueBytes c.coObj) ⨾
    (match c.parent with
    | none => T.done
    | some p => chainTo n p)) s

/-- `nkiSerializeActiveCoroutines`, `src/nksave.c:1318-1329`. -/
def activeTo : T σ := fun s => do
  let vm ← get
  chainTo K vm.ctxs.length vm.cur s

/-- `nkiVmSerialize` with `writeMode`, `src/nksave.c:1453-1550`. -/
def saveTo : T σ :=
  put K [0, 78, 75, 86, 77] ⨾ put K (le32 5) ⨾ instrsTo K ⨾ errorsTo K ⨾ staticsTo K ⨾ contextTo K 0 false ⨾ stringsTo K ⨾
  gcTo K ⨾ functionsTo K ⨾ objectsTo K ⨾ globalsTo K ⨾ typesTo K ⨾ subsystemsTo K ⨾ extObjectsTo K ⨾ filesTo K ⨾
  markersTo K ⨾ activeTo K

end Nk.Save
