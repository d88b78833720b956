import Verif.Model.Registry
/-!
# Saving and loading the whole VM: `src/nksave.c`, `src/nkcorout.c:89-134`

In the C code one function per section serves both directions (`writeMode`).  The model has two functions per section:
`saveX` yields what is handed to the host's writer, `loadX` takes bytes from the host's reader.

The host: the writer accepts everything; the reader delivers the requested bytes if that many are left and otherwise
fails and consumes nothing, like `writerTest` in `src/test/main.c:101-134`.  A machine with 32-bit little-endian words
and 64-bit pointers is assumed.

Simplifications that hold for this whole file: allocations succeed (as in `Model.VM`) except where the overflow test of
`nkiMallocArray` (`src/nkmem.c:288-298`) fails; serialization callbacks of the host (for subsystems and external types
other than coroutines) write and read nothing and leave the VM alone (with callbacks that write and read: `Model.SaveHost`); the error state has no allocation failure flag;
the payload of nil is written as 0 (the code writes whatever it is); a structure that is read in several pieces is
stored after its last piece (so a load that fails inside of it leaves it as it was); memory that is allocated and not
cleared before a failing read is taken to be zero.
-/
namespace Nk.Save

/-! ## Encoding -/

/-- Four bytes of a 32-bit word, little endian. -/
def le32 (n : Nat) : Bytes :=
  [UInt8.ofNat n, UInt8.ofNat (n / 256), UInt8.ofNat (n / 65536), UInt8.ofNat (n / 16777216)]

/-- The word made of four bytes. -/
def of32 (a b c d : UInt8) : Nat := a.toNat + 256 * b.toNat + 65536 * c.toNat + 16777216 * d.toNat

/-- The bytes of a `struct NKValue`, `src/nkvalue.h:62-86`: type tag and payload. -/
def valueBytes (v : Value) : Bytes := le32 v.ty ++ le32 v.raw

/-- The value with a given tag and payload. -/
def mkValue (t r : Nat) : Value :=
  match t with
  | 0 => .int (BitVec.ofNat 32 r)
  | 1 => .float (BitVec.ofNat 32 r)
  | 2 => .str r
  | 3 => .fn r
  | 4 => .obj r
  | 5 => .nil
  | t => .bad t r

/-- An array of values read as raw memory. -/
def valuesOf : Bytes → List Value
  | a :: b :: c :: d :: e :: f :: g :: h :: rest => mkValue (of32 a b c d) (of32 e f g h) :: valuesOf rest
  | _ => []

/-- The C string in a buffer: up to the first NUL. -/
def cstr (b : Bytes) : Bytes := b.takeWhile (· ≠ 0)

/-- The text of an error as a C string, back from bytes (inverse of `cs`). -/
def errText (b : Bytes) : String := String.ofList (b.map fun c => Char.ofNat c.toNat)

/-- `enum NKVMCoroutineState`, `src/nkvm.h:145-165`. -/
def stateCode : CoState → Nat
  | .invalid => 0
  | .created => 1
  | .running => 2
  | .finished => 3

/-- Simplified: a number that is no state is read as `invalid` (the code only compares states with the four
constants and treats the others alike). -/
def stateOf : Nat → CoState
  | 1 => .created
  | 2 => .running
  | 3 => .finished
  | _ => .invalid

/-- `nkiIsPow2`, `src/nksave.c:279-285`. -/
def isPow2 (x : Nat) : Bool := !(x ≠ 0 && x &&& (x - 1) ≠ 0)

/-! ## Saving -/

/-- A saving function: success flag and what was written up to the return. -/
abbrev W := M (Bool × Bytes)

/-- Write something. -/
def emit (b : Bytes) : W := return (true, b)

/-- `return nkfalse`. -/
def giveUp : W := return (false, [])

/-- `NKI_WRAPSERIALIZE`, `src/nksave.c:49-54`: go on unless the first part failed. -/
def W.andThen (x y : W) : W := do
  let r ← x
  if r.1 then do
    let s ← y
    return (s.1, r.2 ++ s.2)
  else return r

infixr:60 " ⨟ " => W.andThen

/-- Write every element of a list. -/
def emitAll (f : α → W) : List α → W
  | [] => emit []
  | x :: xs => f x ⨟ emitAll f xs

/-- Fail with a message. -/
def refuse (e : String) : W := do
  addError e
  giveUp

/-- `nkiSerializeString_save`, `src/nksave.c:65-86`. -/
def saveString (s : Bytes) : W :=
  if s.length ≥ UINT_MAX then refuse "String too long to serialize."
  else emit (le32 s.length ++ s)

/-- The search for the last word that is not NOP, `src/nksave.c:598-604`, from index `n` down; word 0 ends it. -/
def lastWord (ws : List (BitVec 32)) : Nat → Nat
  | 0 => 0
  | n + 1 => if ws[n + 1]? = some 0 then lastWord ws n else n + 1

/-- `nkiSerializeInstructions`, `src/nksave.c:596-657`. -/
def saveInstrs : W := do
  let vm ← get
  if vm.instrs.length ≤ vm.instrMask then liftR (.ub .oob)
  else
    let lim := lastWord vm.instrs vm.instrMask
    emit (le32 lim ++ le32 vm.instrMask) ⨟
    (if vm.instrMask = UINT_MAX then refuse "Instruction address mask is too large."
    else if ¬ isPow2 (vm.instrMask + 1) then refuse "Instruction address mask is not a power of two minus one."
    else if lim > vm.instrMask then refuse "Too many instructions for given instruction address mask."
    else emit ((vm.instrs.take (lim + 1)).flatMap fun w => le32 w.toNat))

/-- `nkiSerializeErrorState`, `src/nksave.c:153-193`. -/
def saveErrors : W := do
  let vm ← get
  emit (le32 vm.errors.length) ⨟ emitAll (fun e => saveString (cs e)) vm.errors

/-- `nkiSerializeStatics`, `src/nksave.c:659-693`. -/
def saveStatics : W := do
  let vm ← get
  emit (le32 vm.staticMask) ⨟
  (if ¬ isPow2 (u32 (vm.staticMask + 1)) then
    refuse "Static space address mask is not a power of two minus one."
  else if vm.staticMask ≥ UINT_MAX then refuse "Static space address mask is too large."
  else if vm.statics.length ≤ vm.staticMask then liftR (.ub .oob)
  else emit ((vm.statics.take (vm.staticMask + 1)).flatMap valueBytes))

/-- `nkiSerializeStack`, `src/nksave.c:695-763`, on the stack of context `i`.  Saving sets the mask, too. -/
def saveStack (i : Nat) : W := do
  let vm ← get
  let c ← liftR (ctxAt vm i)
  emit (le32 c.stack.size ++ le32 c.stack.cap) ⨟
  (if ¬ isPow2 c.stack.cap then refuse "Stack capacity is not a power of two."
  else if c.stack.cap > vm.limits.maxStackSize then refuse "Stack capacity is too large for limit."
  else if c.stack.cap < 1 then refuse "Stack capacity is zero."
  else do
    setCtx i { c with stack := { c.stack with mask := c.stack.cap - 1 } }
    if c.stack.cap < c.stack.size then giveUp
    else if c.stack.vals.length < c.stack.size then liftR (.ub .oob)
    else emit ((c.stack.vals.take c.stack.size).flatMap valueBytes))

/-- `nkiSerializeExecutionContext`, `src/nksave.c:1410-1442`. -/
def saveContext (i : Nat) (coroutine : Bool) : W := do
  let vm ← get
  let c ← liftR (ctxAt vm i)
  emit (le32 c.ip) ⨟ saveStack i ⨟ (if coroutine then emit (le32 (stateCode c.state)) else emit [])

/-- The slots of a table that are in use, with their indices, in order: the loops over `i < capacity`,
`src/nksave.c:466-474` and `480-489`, `303-309` and `344-354`. -/
def entriesFrom (i : Nat) : List (Option α) → List (Nat × α)
  | [] => []
  | none :: xs => entriesFrom (i + 1) xs
  | some x :: xs => (i, x) :: entriesFrom (i + 1) xs

/-- All entries below the capacity; the loop reads as many slots as the capacity says. -/
def entries (t : Table α) : Res (List (Nat × α)) :=
  if t.slots.length < t.cap then .ub .oob else .ok (entriesFrom 0 (t.slots.take t.cap))

/-- One entry of the string table, `src/nksave.c:483-487`. -/
def saveStr (e : Nat × Str) : W :=
  emit (le32 e.1) ⨟ saveString e.2.str ⨟ emit (le32 e.2.lastGCPass ++ [if e.2.dontGC then 1 else 0])

/-- `nkiSerializeStringTable`, `src/nksave.c:421-489`. -/
def saveStrings : W := do
  let vm ← get
  emit (le32 vm.strings.cap) ⨟
  (if ¬ isPow2 vm.strings.cap then refuse "String table capacity is not a power of two."
  else do
    let es ← liftR (entries vm.strings)
    emit (le32 es.length) ⨟ emitAll saveStr es)

/-- `nkiSerializeGcState`, `src/nksave.c:765-788`.  Saving caps the interval of the VM that is saved. -/
def saveGc : W := do
  let vm ← get
  modify fun vm => { vm with gc := { vm.gc with interval := min vm.gc.interval 65536 } }
  emit (le32 vm.gc.lastGCPass ++ le32 vm.gc.interval ++ le32 vm.gc.countdown ++ le32 vm.gc.newObjInterval ++
    le32 vm.gc.newObjCountdown)

/-- `nkiSerializeFunctionTable` with `_inner`, `src/nksave.c:792-929`. -/
def saveFunctions : W := do
  let vm ← get
  emit (le32 vm.extFuncs.length) ⨟
  emitAll (fun f : ExtFunc => emit (le32 f.internalId) ⨟ saveString f.name) vm.extFuncs ⨟
  emit (le32 vm.functions.length) ⨟
  emitAll (fun f : Func => emit (le32 f.argc ++ le32 f.first ++ le32 f.extId)) vm.functions

/-- `nkiSerializeObject`, `src/nksave.c:215-277`, with the index written by its caller, `src/nksave.c:348`. -/
def saveObject (e : Nat × Obj) : W :=
  emit (le32 e.1 ++ le32 e.2.size ++ le32 e.2.handleCount ++ le32 e.2.lastGCPass ++ le32 e.2.extType ++
    e.2.buckets.flatten.flatMap fun p => valueBytes p.1 ++ valueBytes p.2)

/-- `nkiSerializeObjectTable`, `src/nksave.c:287-354`. -/
def saveObjects : W := do
  let vm ← get
  emit (le32 vm.objects.cap) ⨟
  (if ¬ isPow2 vm.objects.cap then refuse "Object table capacity is not a power of two."
  else do
    let es ← liftR (entries vm.objects)
    emit (le32 es.length) ⨟
    (if es.length > vm.objects.cap then refuse "Object count exceeds object table capacity."
    else emitAll saveObject es))

/-- `nkiSerializeGlobalsList`, `src/nksave.c:931-972`. -/
def saveGlobals : W := do
  let vm ← get
  emit (le32 vm.globals.length) ⨟
  emitAll (fun g : Bytes × Nat => saveString g.1 ⨟ emit (le32 g.2)) vm.globals

/-- `nkiSerializeExternalTypes`, `src/nksave.c:974-1139`. -/
def saveTypes : W := do
  let vm ← get
  emit (le32 vm.extTypes.length) ⨟ emitAll (fun t : ExtType => saveString t.name) vm.extTypes

/-- `nkiSerializeExternalSubsystemData`, `src/nksave.c:1141-1202`. -/
def saveSubsystems : W := do
  let vm ← get
  emit (le32 vm.subsystems.flatten.length) ⨟
  emitAll (fun s : Subsystem => saveString s.name) vm.subsystems.flatten

/-- The start of `nkiCoroutineLibrary_coroutineSerializeData`, `src/nkcorout.c:94-117`: the context of a coroutine
object; one is made when there is none. -/
def coContext (id : Nat) (data : Option Nat) : M Nat := do
  match data with
  | some i => return i
  | none => do
    let vm ← get
    modify fun vm => { vm with ctxs := vm.ctxs ++ [some Ctx.init] }
    let _ ← setExtData (.obj id) vm.ctxs.length
    let _ ← setExtType (.obj id) vm.coType
    return vm.ctxs.length

/-- The end of it, `src/nkcorout.c:132`: the context is told its object. -/
def coOwner (id i : Nat) : M Unit := do
  let vm ← get
  let c ← liftR (ctxAt vm i)
  setCtx i { c with coObj := .obj id }

/-- `nkiCoroutineLibrary_coroutineSerializeData`, `src/nkcorout.c:89-134`, when saving.  A failure is recorded as an
error and what was written stays written. -/
def saveCoroutine (id : Nat) (data : Option Nat) : W := do
  let i ← coContext id data
  let r ← saveContext i true
  if r.1 then pure () else addError "Coroutine serialization failed."
  coOwner id i
  return (true, r.2)

/-- One object of `nkiSerializeExternalObjects`, `src/nksave.c:1209-1237`. -/
def saveExtObject (e : Nat × Obj) : W := do
  let vm ← get
  if e.2.extType ≠ UINT_MAX then
    match vm.extTypes[e.2.extType]? with
    | some t =>
      if t.hasSerialize ∧ e.2.extType = vm.coType then saveCoroutine e.1 e.2.extData else emit []
    | none => do
      addError "External type value out of range."
      emit []
  else emit []

/-- `nkiSerializeExternalObjects`, `src/nksave.c:1204-1241`. -/
def saveExtObjects : W := do
  let vm ← get
  let es ← liftR (entries vm.objects)
  emitAll saveExtObject es

/-- `nkiSerializeSourceFileList`, `src/nksave.c:1243-1274`. -/
def saveFiles : W := do
  let vm ← get
  emit (le32 vm.sourceFiles.length) ⨟ emitAll saveString vm.sourceFiles

/-- `nkiSerializePositionMarkerList`, `src/nksave.c:1276-1316`. -/
def saveMarkers : W := do
  let vm ← get
  emit (le32 vm.markers.length) ⨟
  emitAll (fun m : Marker => emit (le32 m.instr ++ le32 m.file ++ le32 m.line ++ le32 m.actualLine)) vm.markers

/-- The loop of `nkiSerializeActiveCoroutines`, `src/nksave.c:1324-1329`, from context `i`; `n` bounds the number of
contexts visited. -/
def saveChain : Nat → Nat → W
  | 0, _ => liftR (.ub .fuel)
  | n + 1, i => do
    let vm ← get
    let c ← liftR (ctxAt vm i)
    emit (valueBytes c.coObj) ⨟
    (match c.parent with
    | none => emit []
    | some p => saveChain n p)

/-- `nkiSerializeActiveCoroutines`, `src/nksave.c:1318-1329`. -/
def saveActive : W := do
  let vm ← get
  saveChain vm.ctxs.length vm.cur

/-- Format marker and version, `src/nksave.c:1455-1475`. -/
def header : Bytes := [0, 78, 75, 86, 77] ++ le32 5

/-- `nkiVmSerialize` with `writeMode`, `src/nksave.c:1453-1550`. -/
def save : W :=
  emit header ⨟ saveInstrs ⨟ saveErrors ⨟ saveStatics ⨟ saveContext 0 false ⨟ saveStrings ⨟ saveGc ⨟
  saveFunctions ⨟ saveObjects ⨟ saveGlobals ⨟ saveTypes ⨟ saveSubsystems ⨟ saveExtObjects ⨟ saveFiles ⨟
  saveMarkers ⨟ saveActive

/-! ## Loading -/

/-- A loading function: takes the bytes that are left; `none` is `return nkfalse`. -/
def L (α : Type) := Bytes → M (Option α × Bytes)

namespace L

/-- A result. -/
def pure (a : α) : L α := fun b => return (some a, b)

/-- Sequencing with `NKI_WRAPSERIALIZE`: stop at the first failure. -/
def bind (x : L α) (f : α → L β) : L β := fun b => do
  let r ← x b
  match r.1 with
  | some a => f a r.2
  | none => return (none, r.2)

instance : Monad L where
  pure := L.pure
  bind := L.bind

end L

/-- Work on the VM. -/
def lift (m : M α) : L α := fun b => do
  let a ← m
  return (some a, b)

/-- `return nkfalse`. -/
def stop : L α := fun b => return (none, b)

/-- Fail with a message. -/
def reject (e : String) : L α := do
  lift (addError e)
  stop

/-- `writer(data, n, userdata, nkfalse)`. -/
def readBytes (n : Nat) : L Bytes := fun b =>
  if n ≤ b.length then return (some (b.take n), b.drop n) else return (none, b)

/-- `NKI_SERIALIZE_BASIC(nkuint32_t, ..)`, `src/nksave.c:59-63`. -/
def read32 : L Nat := fun b =>
  match b with
  | x :: y :: z :: w :: rest => return (some (of32 x y z w), rest)
  | b => return (none, b)

/-- A byte. -/
def read8 : L Nat := fun b =>
  match b with
  | x :: rest => return (some x.toNat, rest)
  | [] => return (none, [])

/-- `NKI_SERIALIZE_BASIC(struct NKValue, ..)`. -/
def readValue : L Value := fun b =>
  match b with
  | x :: y :: z :: w :: x' :: y' :: z' :: w' :: rest =>
    return (some (mkValue (of32 x y z w) (of32 x' y' z' w')), rest)
  | b => return (none, b)

/-- The overflow test of `nkiMallocArray`, `src/nkmem.c:288-298`. -/
def mallocArray (size count : Nat) : L Unit :=
  if count ≥ UINT_MAX / size then lift (liftR (.ub .longjmp)) else pure ()

/-- Update the VM. -/
def upd (f : VM → VM) : L Unit := lift (modify f)

/-- `nkiSerializeString_load`, `src/nksave.c:115-142`. -/
def loadString : L Bytes := do
  let len ← read32
  if len ≥ UINT_MAX then reject "String too long to deserialize."
  else do
    let b ← readBytes len
    return cstr b

/-- `nkiSerializeString_loadInPlace`, `src/nksave.c:88-113`. -/
def loadStringIn (max : Nat) : L Bytes := do
  let len ← read32
  if len ≥ max then reject "String too long to deserialize."
  else do
    let b ← readBytes len
    return cstr b

/-- Do something `n` times with a counter: `for(i = 0; i < n; i++)`. -/
def times (f : Nat → L Unit) : Nat → Nat → L Unit
  | _, 0 => pure ()
  | i, n + 1 => do
    f i
    times f (i + 1) n

/-- The load part of `nkiSerializeInstructions`, `src/nksave.c:596-657`. -/
def loadInstrs : L Unit := do
  let lim ← read32
  let mask ← read32
  upd fun vm => { vm with instrMask := mask }
  if mask = UINT_MAX then reject "Instruction address mask is too large."
  else if ¬ isPow2 (mask + 1) then reject "Instruction address mask is not a power of two minus one."
  else if lim > mask then reject "Too many instructions for given instruction address mask."
  else do
    mallocArray 4 (mask + 1)
    upd fun vm => { vm with instrs := List.replicate (mask + 1) 0 }
    times (fun i => do
      let w ← read32
      upd fun vm => { vm with instrs := vm.instrs.set i (BitVec.ofNat 32 w) }) 0 (lim + 1)

/-- The load part of `nkiSerializeErrorState`, `src/nksave.c:153-193`.  The first error that is read replaces the
list, so a count of 0 leaves it alone. -/
def loadErrors : L Unit := do
  let n ← read32
  times (fun i => do
    let s ← loadString
    upd fun vm => { vm with errors := if i = 0 then [errText s] else vm.errors ++ [errText s] }) 0 n

/-- The load part of `nkiSerializeStatics`, `src/nksave.c:659-693`. -/
def loadStatics : L Unit := do
  let mask ← read32
  if ¬ isPow2 (u32 (mask + 1)) then reject "Static space address mask is not a power of two minus one."
  else if mask ≥ UINT_MAX then reject "Static space address mask is too large."
  else do
    upd fun vm => { vm with staticMask := mask }
    mallocArray 8 (mask + 1)
    upd fun vm => { vm with statics := List.replicate (mask + 1) Value.zero }
    let b ← readBytes (8 * (mask + 1))
    upd fun vm => { vm with statics := valuesOf b }

/-- Update context `i`. -/
def updCtx (i : Nat) (f : Ctx → Ctx) : L Unit := lift do
  let vm ← get
  let c ← liftR (ctxAt vm i)
  setCtx i (f c)

/-- `nkiVmStackClear(vm, stack, nktrue)` on context `i`, `src/nkstack.c:217-231`. -/
def clearStack (i : Nat) : L Unit := lift do
  let vm ← get
  let c ← liftR (ctxAt vm i)
  if c.stack.cap ≤ c.stack.vals.length then
    setCtx i { c with stack := { vals := List.replicate 2 Value.zero, size := 0, cap := 2, mask := 1 } }
  else liftR (.ub .oob)

/-- The load part of `nkiSerializeStack`, `src/nksave.c:695-763`, on context `i`. -/
def loadStack (i : Nat) : L Unit := do
  let size ← read32
  let cap ← read32
  let vm ← lift get
  if ¬ isPow2 cap then reject "Stack capacity is not a power of two."
  else if cap > vm.limits.maxStackSize then reject "Stack capacity is too large for limit."
  else if cap < 1 then reject "Stack capacity is zero."
  else do
    updCtx i fun c => { c with stack := { c.stack with mask := usub c.stack.cap 1 } }
    clearStack i
    mallocArray 8 cap
    updCtx i fun c => { c with stack := { vals := List.replicate cap Value.zero, size, cap, mask := cap - 1 } }
    if cap < size then stop
    else do
      let b ← readBytes (8 * size)
      updCtx i fun c => { c with stack := { c.stack with vals := valuesOf b ++ c.stack.vals.drop size } }

/-- The load part of `nkiSerializeExecutionContext`, `src/nksave.c:1410-1442`. -/
def loadContext (i : Nat) (coroutine : Bool) : L Unit := do
  let ip ← read32
  updCtx i fun c => { c with ip := ip }
  loadStack i
  if coroutine then do
    let s ← read32
    updCtx i fun c => { c with state := stateOf s }
  else pure ()

/-- The indices of the empty slots, from `i` on, prepended to `acc`: the loops that recreate the hole list,
`src/nksave.c:403-416` and `568-579`. -/
def holesFrom (i : Nat) (acc : List Nat) : List (Option α) → List Nat
  | [] => acc
  | none :: xs => holesFrom (i + 1) (i :: acc) xs
  | some _ :: xs => holesFrom (i + 1) acc xs

/-- One entry of the string table, `src/nksave.c:502-567`.  Simplified: the test for strings of nearly 2^32 bytes
(507-511) is left out, their allocation would have failed before. -/
def loadStr : L Unit := do
  let index ← read32
  let vm ← lift get
  if index ≥ vm.strings.cap then reject "String index exceeds string table capacity."
  else do
    let s ← loadString
    let old ← lift (liftR (vm.strings.read index))
    match old with
    | some _ => reject "Two strings occupy the same slot in the string table."
    | none => do
      upd fun vm => { vm with strings := { vm.strings with
        slots := vm.strings.slots.set index (some { str := s, hash := 0, lastGCPass := 0, dontGC := false }) } }
      let pass ← read32
      let dont ← read8
      let h := stringHash s
      let vm ← lift get
      match vm.sbuckets[h &&& 255]? with
      | none => lift (liftR (.ub .oob))
      | some ids =>
        let e : Str := { str := s, hash := h, lastGCPass := pass, dontGC := dont ≠ 0 }
        upd fun vm => { vm with
          strings := { vm.strings with slots := vm.strings.slots.set index (some e) }
          sbuckets := vm.sbuckets.set (h &&& 255) (index :: ids) }

/-- The load part of `nkiSerializeStringTable`, `src/nksave.c:421-594`. -/
def loadStrings : L Unit := do
  let cap ← read32
  upd fun vm => { vm with strings := { slots := [], cap := cap, holes := [] }, sbuckets := List.replicate 256 [] }
  if UINT_MAX / 8 ≤ cap then reject "String table too large."
  else do
    mallocArray 8 cap
    upd fun vm => { vm with strings := { vm.strings with slots := List.replicate cap none } }
    if ¬ isPow2 cap then reject "String table capacity is not a power of two."
    else do
      let count ← read32
      times (fun _ => loadStr) 0 count
      upd fun vm => { vm with strings := { vm.strings with holes := holesFrom 0 [] vm.strings.slots } }

/-- The load part of `nkiSerializeGcState`, `src/nksave.c:765-788`. -/
def loadGc : L Unit := do
  let pass ← read32
  let interval ← read32
  let countdown ← read32
  let newInterval ← read32
  let newCountdown ← read32
  upd fun vm => { vm with gc := { lastGCPass := pass, interval := min interval 65536, countdown,
                                  newObjInterval := newInterval, newObjCountdown := newCountdown } }

/-- The search loop over the registered natives, `src/nksave.c:816-833`, from index `n`: every entry visited loses its
function value; at the first with the given name the loop ends and this one gets the saved function value.  Yields the
table and the index found. -/
def rebind (name : Bytes) (internalId : Nat) (n : Nat) : List ExtFunc → List ExtFunc × Option Nat
  | [] => ([], none)
  | f :: fs =>
    if strcmp name f.name = 0 then ({ f with internalId := internalId } :: fs, some n)
    else
      let r := rebind name internalId (n + 1) fs
      ({ f with internalId := UINT_MAX } :: r.1, r.2)

/-- The loop over the saved natives, `src/nksave.c:800-837`: yields the mapping from saved to registered natives. -/
def loadNatives : Nat → List Nat → L (List Nat)
  | 0, map => pure map
  | n + 1, map => do
    let internalId ← read32
    let name ← loadString
    let vm ← lift get
    let r := rebind name internalId 0 vm.extFuncs
    upd fun vm => { vm with extFuncs := r.1 }
    loadNatives n (map ++ [r.2.getD UINT_MAX])

/-- The loop over the functions, `src/nksave.c:863-890`. -/
def loadFunction (map : List Nat) (i : Nat) : L Unit := do
  let argc ← read32
  let first ← read32
  let ext ← read32
  upd fun vm => { vm with functions := vm.functions.set i { argc, first, extId := ext } }
  if ext ≠ UINT_MAX then
    match map[ext]? with
    | none => reject "External function ID is outside external function count."
    | some e => do
      upd fun vm => { vm with functions := vm.functions.set i { argc, first, extId := e } }
      if e = UINT_MAX then reject "Cannot find new mapping for external function during deserialization."
      else pure ()
  else pure ()

/-- The load part of `nkiSerializeFunctionTable` with `_inner`, `src/nksave.c:792-929`.  A count of 0 makes
`nkiMallocArray` return NULL, which ends the load (847-849). -/
def loadFunctions : L Unit := do
  let n ← read32
  mallocArray 4 n
  let map ← loadNatives n []
  let count ← read32
  mallocArray 12 count
  if count = 0 then stop
  else do
    upd fun vm => { vm with functions := List.replicate count { argc := 0, first := 0, extId := 0 } }
    times (loadFunction map) 0 count

section
variable (F : FloatOps)

/-- One field, `src/nksave.c:257-272`: the key is looked up or added; when the field limit refuses it, no value is
read. -/
def loadField (id : Nat) : L Unit := do
  let key ← readValue
  let p ← lift (findOrAddEntry F id key false)
  match p with
  | some p => do
    let v ← readValue
    lift (writeElem id p v)
  | none => pure ()

/-- `nkiSerializeObject`, `src/nksave.c:215-277`, on the object in slot `id`. -/
def loadObject (id : Nat) : L Unit := do
  let size ← read32
  let handles ← read32
  if handles ≠ 0 then upd fun vm => { vm with handles := id :: vm.handles } else pure ()
  let pass ← read32
  let ext ← read32
  let o ← lift (getObj id)
  match o with
  | none => lift (liftR (.ub .oob))
  | some o => do
    lift (setObj id { o with size := 0, handleCount := handles, lastGCPass := pass, extType := ext })
    times (fun _ => loadField F id) 0 size

/-- One entry of the object table, `src/nksave.c:360-400`. -/
def loadEntry : L Unit := do
  let index ← read32
  let vm ← lift get
  if index ≥ vm.objects.cap then reject "Object index exceeds object table capacity."
  else do
    let old ← lift (liftR (vm.objects.read index))
    match old with
    | some _ => reject "Tried to load two object into the same location."
    | none => do
      lift (setObj index Obj.init)
      loadObject F index

/-- The load part of `nkiSerializeObjectTable`, `src/nksave.c:287-419`.  The objects that were in the table are leaked.
The list of objects with handles keeps pointing to them; such a list cannot be expressed here (`VM.handles` has table
indices), so a load into a VM where it is not empty counts as undefined. -/
def loadObjects : L Unit := do
  let cap ← read32
  if ¬ isPow2 cap then reject "Object table capacity is not a power of two."
  else do
    mallocArray 8 cap
    let vm ← lift get
    if vm.handles ≠ [] then lift (liftR (.ub .oob))
    else do
      upd fun vm => { vm with objects := { slots := List.replicate cap none, cap := cap, holes := [] } }
      let count ← read32
      if count > cap then reject "Object count exceeds object table capacity."
      else do
        times (fun _ => loadEntry F) 0 count
        upd fun vm => { vm with objects := { vm.objects with holes := holesFrom 0 [] vm.objects.slots } }

/-- The load part of `nkiSerializeGlobalsList`, `src/nksave.c:931-972`. -/
def loadGlobals : L Unit := do
  upd fun vm => { vm with globals := [] }
  let n ← read32
  mallocArray 16 n
  times (fun _ => do
    let name ← loadString
    let pos ← read32
    upd fun vm => { vm with globals := vm.globals ++ [(name, pos)] }) 0 n

/-- Length of the longest type name, `src/nksave.c:982-1001`. -/
def longest (ts : List ExtType) : Nat := (ts.map fun t => t.name.length).foldl max 0

/-- One type name, `src/nksave.c:1038-1114`. -/
def loadType (i : Nat) : L Unit := do
  let vm ← lift get
  let name ← loadStringIn (longest vm.extTypes + 1)
  match vm.extTypes[i]? with
  | none => reject "Type name mismatch inside binary."
  | some t =>
    if strcmp name t.name ≠ 0 then reject "Type name mismatch inside binary."
    else if findTypeFrom name 0 vm.extTypes ≠ i then lift (liftR (.ub .assert))
    else pure ()

/-- Does every object have no external type or one below `n`?  `src/nksave.c:1116-1133`. -/
def typesBelow (n : Nat) (slots : List (Option Obj)) : Bool :=
  slots.all fun s => match s with
    | none => true
    | some o => o.extType = UINT_MAX || decide (o.extType < n)

/-- The load part of `nkiSerializeExternalTypes`, `src/nksave.c:974-1139`. -/
def loadTypes : L Unit := do
  let n ← read32
  let vm ← lift get
  if n ≠ vm.extTypes.length then reject "External type count in binary does not match VM."
  else if n ≥ UINT_MAX / 4 ∨ longest vm.extTypes + 1 ≥ UINT_MAX - n * 4 then stop
  else do
    times loadType 0 n
    let vm ← lift get
    if typesBelow n vm.objects.slots then pure () else stop

/-- The load part of `nkiSerializeExternalSubsystemData`, `src/nksave.c:1141-1202`. -/
def loadSubsystems : L Unit := do
  let n ← read32
  times (fun _ => do
    let name ← loadString
    let vm ← lift get
    match vm.subsystems[subBucket name]? with
    | none => lift (liftR (.ub .oob))
    | some b => match findSub name b with
      | none => reject "External subsystem for serialized external subsystem data cannot be found."
      | some _ => pure ()) 0 n

/-- Try a load and report whether it worked. -/
def attempt (x : L Unit) : L Bool := fun b => do
  let r ← x b
  return (some r.1.isSome, r.2)

/-- `nkiCoroutineLibrary_coroutineSerializeData`, `src/nkcorout.c:89-134`, when loading.  A failure is only recorded as
an error. -/
def loadCoroutine (id : Nat) (data : Option Nat) : L Unit := do
  let i ← lift (coContext id data)
  let ok ← attempt (loadContext i true)
  if ok then pure () else lift (addError "Coroutine serialization failed.")
  lift (coOwner id i)

/-- One slot of `nkiSerializeExternalObjects`, `src/nksave.c:1206-1238`. -/
def loadExtObject (i : Nat) : L Unit := do
  let vm ← lift get
  let o ← lift (liftR (vm.objects.read i))
  match o with
  | none => pure ()
  | some o =>
    if o.extType ≠ UINT_MAX then
      match vm.extTypes[o.extType]? with
      | some t =>
        if t.hasSerialize ∧ o.extType = vm.coType then loadCoroutine i o.extData else pure ()
      | none => lift (addError "External type value out of range.")
    else pure ()

/-- The load part of `nkiSerializeExternalObjects`, `src/nksave.c:1204-1241`. -/
def loadExtObjects : L Unit := do
  let vm ← lift get
  times loadExtObject 0 vm.objects.cap

/-- The load part of `nkiSerializeSourceFileList`, `src/nksave.c:1243-1274`. -/
def loadFiles : L Unit := do
  let n ← read32
  upd fun vm => { vm with sourceFiles := [] }
  mallocArray 8 n
  times (fun _ => do
    let s ← loadString
    upd fun vm => { vm with sourceFiles := vm.sourceFiles ++ [s] }) 0 n

/-- The load part of `nkiSerializePositionMarkerList`, `src/nksave.c:1276-1316`. -/
def loadMarkers : L Unit := do
  let n ← read32
  upd fun vm => { vm with markers := [] }
  mallocArray 16 n
  times (fun _ => do
    let instr ← read32
    let file ← read32
    let line ← read32
    let actualLine ← read32
    upd fun vm => { vm with markers := vm.markers ++
      [{ instr := instr, file := file, line := line, actualLine := actualLine }] }) 0 n

/-- The context a value in the list of active coroutines stands for, `src/nksave.c:1344-1364`. -/
def chainCtx (v : Value) : L Nat := do
  let vm ← lift get
  let o ← lift (objFromValue v)
  if v = .nil then pure 0
  else match v, o with
    | .obj _, some (_, o) =>
      if o.extType = vm.coType then
        match o.extData with
        | some i => pure i
        | none => lift (liftR (.ub .null))
      else reject "Invalid object in coroutine chain."
    | _, _ => reject "Invalid object in coroutine chain."

/-- Linking one context, `src/nksave.c:1366-1399`: it is made running and becomes the parent of the one before. -/
def linkCtx (last : Option Nat) (i : Nat) : L Unit := do
  let vm ← lift get
  let c ← lift (liftR (ctxAt vm i))
  if c.state ≠ .running then do
    lift (addError "Dormant coroutine recorded in active coroutine chain.")
    updCtx i fun c => { c with state := .running }
  else pure ()
  match last with
  | none => pure ()
  | some j => do
    let vm ← lift get
    let d ← lift (liftR (ctxAt vm j))
    if d.parent ≠ none then reject "Corrupt coroutine chain."
    else if j = 0 then reject "Corrupt coroutine chain."
    else updCtx j fun d => { d with parent := some i }

/-- The loop of `nkiSerializeActiveCoroutines`, `src/nksave.c:1335-1401`: one value of 8 bytes per round until one that
is nil.  `first` is `currentContext`, `last` is `chainEnd`.  Yields the new current context. -/
def loadChain (first last : Option Nat) : L Nat := fun b =>
  match b with
  | x :: y :: z :: w :: x' :: y' :: z' :: w' :: rest => do
    let v := mkValue (of32 x y z w) (of32 x' y' z' w')
    let r ← chainCtx v rest
    match r.1 with
    | none => return (none, rest)
    | some i => do
      let s ← linkCtx last i rest
      match s.1 with
      | none => return (none, rest)
      | some _ =>
        if v = .nil then return (some (first.getD i), rest)
        else loadChain (some (first.getD i)) (some i) rest
  | b => return (none, b)

/-- The load part of `nkiSerializeActiveCoroutines`, `src/nksave.c:1318-1408`. -/
def loadActive : L Unit := do
  let i ← loadChain none none
  upd fun vm => { vm with cur := i }

/-- Format marker and version, `src/nksave.c:1455-1475`. -/
def loadHeader : L Unit := do
  let m ← readBytes 5
  if m ≠ [0, 78, 75, 86, 77] then reject "Wrong binary format."
  else do
    let v ← read32
    if v ≠ 5 then reject "Wrong binary VM version." else pure ()

/-- `nkiVmSerialize` without `writeMode`, `src/nksave.c:1453-1550`. -/
def load : L Unit := do
  loadHeader
  loadInstrs
  loadErrors
  loadStatics
  loadContext 0 false
  loadStrings
  loadGc
  loadFunctions
  loadObjects F
  loadGlobals
  loadTypes
  loadSubsystems
  loadExtObjects
  loadFiles
  loadMarkers
  loadActive

end
end Nk.Save
