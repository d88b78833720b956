import Verif.Model.Value
import Verif.Model.Table
/-!
# The VM state and its basic operations

`src/nkvm.h` (state), `src/nkstack.c`, `src/nkstring.c` (interning), `src/nkobjs.c` (objects),
`src/nkvalue.c` (conversions and comparison), `src/nkerror.c`, `src/nkcorout.c` (context switching).

Pointers become identifiers: an execution context is an index into `ctxs` (0 is the root context,
`none` marks a freed context), strings and objects are table indices.  Using a freed context or a
string that is no longer in the table gives `Res.ub`.

Simplifications that hold for this whole file: allocations succeed (the allocator and what happens
when it fails are the subject of `Model.Mem` and `Model.Fail`), error texts are kept without the
`file:line:` prefix, and a value popped from the stack is read at the moment of the pop (the C code
keeps a pointer to the slot, and no code path writes that slot before the last read through it).
-/
namespace Nk

/-- `struct NKVMStack`, `src/nkstack.h`.  `vals` is the allocation, the other three are the fields. -/
structure Stack where
  vals : List Value
  size : Nat
  cap : Nat
  mask : Nat
deriving Repr, DecidableEq

/-- `enum NKVMCoroutineState`, `src/nkvm.h:145-165`. -/
inductive CoState where
  | invalid | created | running | finished
deriving Repr, DecidableEq

/-- `struct NKVMExecutionContext`, `src/nkvm.h:167-187`. -/
structure Ctx where
  stack : Stack
  ip : Nat
  parent : Option Nat
  coObj : Value
  state : CoState
deriving Repr, DecidableEq

/-- `struct NKVMString`, `src/nkstring.h:50-64`. -/
structure Str where
  str : Bytes
  hash : Nat
  lastGCPass : Nat
  dontGC : Bool
deriving Repr, DecidableEq

/-- `struct NKVMObject`, `src/nkobjs.h:61-78`.  Bucket lists are head first.  The links of the list of
objects with external handles are replaced by `VM.handles`; `Model.Handles` has the pointer-level
list. -/
structure Obj where
  buckets : List (List (Value × Value))
  size : Nat
  lastGCPass : Nat
  handleCount : Nat
  extType : Nat
  extData : Option Nat
deriving Repr, DecidableEq

/-- `struct NKVMFunction`, `src/nkfunc.h:55-62`. -/
structure Func where
  argc : Nat
  first : Nat
  extId : Nat
deriving Repr, DecidableEq

/-- `struct NKVMExternalFunction`, `src/nkfunc.h:65-93`.  The C function pointer is an opaque
number, `none` for NULL. -/
structure ExtFunc where
  name : Bytes
  callback : Option Nat
  internalId : Nat
  argc : Nat
  argTypes : List Nat
  argExtTypes : List Nat
deriving Repr, DecidableEq

/-- `struct NKVMExternalType`, `src/nkvm.h:112-118`; the callbacks are present or NULL, what they do
is in `Host` (or built in, for coroutines). -/
structure ExtType where
  name : Bytes
  hasSerialize : Bool
  hasCleanup : Bool
  hasMark : Bool
deriving Repr, DecidableEq

/-- `struct NKGarbageCollectionInfo`, `src/nkvm.h:75-82`. -/
structure GCInfo where
  lastGCPass : Nat
  interval : Nat
  countdown : Nat
  newObjInterval : Nat
  newObjCountdown : Nat
deriving Repr, DecidableEq

/-- `struct NKVMLimits`, `src/nkvm.h:63-73` (without the memory limit, see `Model.Mem`). -/
structure Limits where
  maxStackSize : Nat
  maxFields : Nat
deriving Repr, DecidableEq

/-- `struct NKVMFilePositionMarker`, `src/nkvm.h:126-143`. -/
structure Marker where
  instr : Nat
  file : Nat
  line : Nat
  actualLine : Nat
deriving Repr, DecidableEq

/-- `struct NKVMExternalSubsystemData`, `src/nkvm.h:84-104`. -/
structure Subsystem where
  name : Bytes
  data : Nat
  hasCleanup : Bool
  hasSerialize : Bool
deriving Repr, DecidableEq

/-- `struct NKVM`, `src/nkvm.h:190-290`.  Left out: memory accounting (`Model.Mem`), the failure jump
buffer (`Model.Fail`), user data, serialization scratch state.  `cleanupLog` is not in the code: it
records every call of an external type's cleanup callback, newest first. -/
structure VM where
  errors : List String
  ctxs : List (Option Ctx)
  cur : Nat
  statics : List Value
  staticMask : Nat
  instrs : List (BitVec 32)
  instrMask : Nat
  strings : Table Str
  sbuckets : List (List Nat)
  objects : Table Obj
  handles : List Nat
  functions : List Func
  extFuncs : List ExtFunc
  gc : GCInfo
  globals : List (Bytes × Nat)
  limits : Limits
  extTypes : List ExtType
  instrLeft : Nat
  subsystems : List (List Subsystem)
  sourceFiles : List Bytes
  markers : List Marker
  /-- `internalObjectTypes.coroutine` -/
  coType : Nat
  cleanupLog : List (Nat × Nat × Option Nat)
deriving Repr, DecidableEq

/-- A C function working on the VM. -/
def M (α : Type) := VM → Res (α × VM)

namespace M

@[inline] def pure (a : α) : M α := fun vm => .ok (a, vm)

@[inline] def bind (x : M α) (f : α → M β) : M β := fun vm =>
  match x vm with
  | .ok (a, vm') => f a vm'
  | .ub k => .ub k

instance : Monad M where
  pure := pure
  bind := bind

end M

/-- Read the VM. -/
def get : M VM := fun vm => .ok (vm, vm)
/-- Update the VM. -/
def modify (f : VM → VM) : M Unit := fun vm => .ok ((), f vm)
/-- A computation without access to the VM. -/
def liftR (r : Res α) : M α := fun vm => match r with
  | .ok a => .ok (a, vm)
  | .ub k => .ub k

/-! ## Errors: `src/nkerror.c` -/

/-- `nkiAddError`, `src/nkerror.c:76-163`: append to the error list.  Simplified: the text is kept
without its `file:line:` prefix. -/
def addError (s : String) : M Unit := modify fun vm => { vm with errors := vm.errors ++ [s] }

/-! ## The current context: `vm->currentExecutionContext` -/

/-- Dereference a context pointer. -/
def ctxAt (vm : VM) (i : Nat) : Res Ctx :=
  match vm.ctxs[i]? with
  | some (some c) => .ok c
  | _ => .ub .oob

/-- `*vm->currentExecutionContext`. -/
def curCtx : M Ctx := fun vm => match ctxAt vm vm.cur with
  | .ok c => .ok (c, vm)
  | .ub k => .ub k

/-- Store through a context pointer. -/
def setCtx (i : Nat) (c : Ctx) : M Unit := fun vm =>
  match ctxAt vm i with
  | .ok _ => .ok ((), { vm with ctxs := vm.ctxs.set i (some c) })
  | .ub k => .ub k

/-- Update the current context. -/
def modCur (f : Ctx → Ctx) : M Unit := fun vm =>
  match ctxAt vm vm.cur with
  | .ok c => .ok ((), { vm with ctxs := vm.ctxs.set vm.cur (some (f c)) })
  | .ub k => .ub k

/-- The current stack. -/
def curStack : M Stack := do
  let c ← curCtx
  return c.stack

/-- Update the current stack. -/
def modStack (f : Stack → Stack) : M Unit := modCur fun c => { c with stack := f c.stack }

/-! ## The value stack: `src/nkstack.c` -/

/-- `nkiVmStackInit`, `src/nkstack.c:46-54`. -/
def Stack.init : Stack := { vals := [Value.zero], size := 0, cap := 1, mask := 0 }

/-- The state of a stack after growing, `src/nkstack.c:100-130`: twice the capacity, the new part
zeroed. -/
def Stack.grow (s : Stack) : Stack :=
  let newCap := u32 (s.cap * 2)
  { vals := s.vals.take s.size ++ List.replicate (newCap - s.size) Value.zero
    size := s.size
    cap := newCap
    mask := u32 (s.mask * 2) ||| 1 }

/-- `nkiVmStackPush_internal`, `src/nkstack.c:64-139`: returns the index of the slot to write.  A
failed push returns slot 0. -/
def pushSlot : M Nat := do
  let s ← curStack
  if s.cap = 0 then
    -- nkiReallocArray(vm, values, 0, ..) divides by its size argument, `src/nkmem.c:306`
    liftR (.ub .div)
  else if s.size = s.cap then
    if s.cap > 0xffff then do
      addError "Stack overflow."
      return 0
    else if u32 (s.cap * 2) = 0 then do
      addError "Stack ran out of address space."
      return 0
    else
      let vm ← get
      if u32 (s.cap * 2) > vm.limits.maxStackSize then do
        addError "Reached stack capacity limit."
        return 0
      else do
        modStack fun s => { s.grow with size := u32 (s.size + 1) }
        return s.size
  else if s.size < s.cap then do
    modStack fun s => { s with size := u32 (s.size + 1) }
    return s.size
  else liftR (.ub .assert)

/-- Store into a slot of the current stack's allocation. -/
def pokeAt (i : Nat) (v : Value) : M Unit := do
  let s ← curStack
  if i < s.vals.length then modStack fun s => { s with vals := s.vals.set i v }
  else liftR (.ub .oob)

/-- Read a slot of the current stack's allocation. -/
def peekAt (i : Nat) : M Value := do
  let s ← curStack
  match s.vals[i]? with
  | some v => return v
  | none => liftR (.ub .oob)

/-- `*nkiVmStackPush_internal(vm) = v;` -/
def push (v : Value) : M Unit := do
  let i ← pushSlot
  pokeAt i v

/-- `nkiVmStackPushInt`, `src/nkstack.c:141-150`. -/
def pushInt (i : BitVec 32) : M Unit := push (.int i)

/-- `nkiVmStackPop`, `src/nkstack.c:176-192`. -/
def pop : M Value := do
  let s ← curStack
  if s.size = 0 then do
    addError "Stack underflow in pop."
    peekAt 0
  else do
    modStack fun s => { s with size := s.size - 1 }
    peekAt (s.size - 1)

/-- `nkiVmStackPopN`, `src/nkstack.c:194-210`. -/
def popN (n : Nat) : M Unit := do
  let s ← curStack
  if s.size < n then do
    addError "Stack underflow in popN."
    modStack fun s => { s with size := 0 }
  else modStack fun s => { s with size := s.size - n }

/-- `nkiVmStackClear`, `src/nkstack.c:217-231`, on the current stack. -/
def stackClear (freeMem : Bool) : M Unit := do
  let s ← curStack
  if s.cap ≤ s.vals.length then
    modStack fun s =>
      if freeMem then { vals := List.replicate 2 Value.zero, size := 0, cap := 2, mask := 1 }
      else { s with vals := List.replicate s.cap Value.zero ++ s.vals.drop s.cap, size := 0 }
  else liftR (.ub .oob)

/-- The slot `nkiVmStackPeek` points to, `src/nkstack.c:212-215`. -/
def peekIdx (i : Nat) : M Nat := do
  let s ← curStack
  return i &&& s.mask

/-- `*nkiVmStackPeek(vm, i)`. -/
def peek (i : Nat) : M Value := do
  let j ← peekIdx i
  peekAt j

/-- `*nkiVmStackPeek(vm, i) = v`. -/
def poke (i : Nat) (v : Value) : M Unit := do
  let j ← peekIdx i
  pokeAt j v

/-- 32-bit unsigned subtraction. -/
def usub (a b : Nat) : Nat := u32 (a + (U32 - b % U32))

/-! ## The string table: `src/nkstring.c` -/

/-- `nkiVmStringTableGetEntryById`, `src/nkstring.c:86-95`. -/
def getStrEntry (id : Nat) : M (Option Str) := fun vm => match vm.strings.get id with
  | .ok o => .ok (o, vm)
  | .ub k => .ub k

/-- `nkiVmStringTableGetStringById`, `src/nkstring.c:97-103`. -/
def getString (id : Nat) : M (Option Bytes) := do
  let e ← getStrEntry id
  return e.map (·.str)

/-- The bucket walk, `src/nkstring.c:117-122`.  A bucket entry whose string is not in the table would
be a dangling pointer. -/
def findInBucket (vm : VM) (s : Bytes) : List Nat → Res (Option Nat)
  | [] => .ok none
  | id :: ids =>
    match vm.strings.slots[id]? with
    | some (some e) => if strcmp e.str s = 0 then .ok (some id) else findInBucket vm s ids
    | _ => .ub .oob

/-- `nkiVmStringTableFindOrAddString`, `src/nkstring.c:105-152`. -/
def findOrAddString (s : Bytes) : M Nat := do
  let vm ← get
  let h := stringHash s
  let b := h &&& 255
  match vm.sbuckets[b]? with
  | none => liftR (.ub .oob)
  | some ids =>
    let r ← liftR (findInBucket vm s ids)
    match r with
    | some id => return id
    | none =>
      let (i, t) ← liftR (vm.strings.add { str := s, hash := h, lastGCPass := 0, dontGC := false })
      match i with
      | none => do
        addError "Address space exhaustion when adding item to table."
        return UINT_MAX
      | some i => do
        modify fun vm => { vm with strings := t, sbuckets := vm.sbuckets.set b (i :: ids) }
        return i

/-- `nkiVmStackPushString`, `src/nkstack.c:163-174`: the slot is taken before the string is interned. -/
def pushString (s : Bytes) : M Unit := do
  let i ← pushSlot
  let id ← findOrAddString s
  pokeAt i (.str id)

/-! ## Conversions: `src/nkvalue.c` -/

/-- `nkiValueHash`, `src/nkvalue.c:357-390`. -/
def valueHash (v : Value) : M Nat :=
  match v with
  | .int i => return i.toNat
  | .float b => return b.toNat
  | .fn n => return n
  | .obj n => return n
  | .str id => do
    let e ← getStrEntry id
    match e with
    | some e => return e.hash
    | none => return 0
  | .nil => return 0
  | .bad _ _ => return 0

section
variable (F : FloatOps)

/-- `nkiValueToString`, `src/nkvalue.c:176-233`; `none` is NULL. -/
def valueToString (v : Value) : M (Option Bytes) :=
  match v with
  | .str id => getString id
  | .int i => do
    let id ← findOrAddString (itoa i)
    getString id
  | .float b => do
    let id ← findOrAddString (F.print b)
    getString id
  | v => do
    let h ← valueHash v
    let id ← findOrAddString
      (cs "<" ++ cs (typeName v.ty) ++ cs ":" ++ itoa (BitVec.ofNat 32 h) ++ cs ">")
    getString id

/-- `nkiValueToInt`, `src/nkvalue.c:97-137`. -/
def valueToInt (v : Value) : M (BitVec 32) :=
  match v with
  | .int i => return i
  | .float b => liftR (f2i b)
  | .str id => do
    let s ← getString id
    match s with
    | some s => return atoi32 s
    | none => return 0
  | .obj _ => return 1
  | .nil => return 0
  | v => do
    addError ("Cannot convert type " ++ typeName v.ty ++ " to an integer.")
    return 0

/-- `nkiValueToFloat`, `src/nkvalue.c:139-174`. -/
def valueToFloat (v : Value) : M (BitVec 32) :=
  match v with
  | .int i => return F.ofInt i
  | .float b => return b
  | .str id => do
    let s ← getString id
    match s with
    | some s => return F.atof s
    | none => return 0
  | .nil => return 0
  | v => do
    addError ("Cannot convert type " ++ typeName v.ty ++ " to an integer.")
    return 0

/-- The part of `nkiValueCompare` after the type and nil checks, `src/nkvalue.c:273-354`. -/
def compareBody (a b : Value) : M Int :=
  match a with
  | .int i => do
    let o ← valueToInt b
    return if i.toInt > o.toInt then 1 else if i.toInt = o.toInt then 0 else -1
  | .float x => do
    let o ← valueToFloat F b
    return if fgt x o then 1 else if feq x o then 0 else -1
  | .str _ => do
    let other ← valueToString F b
    let this ← valueToString F a
    match other, this with
    | some other, some this => return strcmp this other
    | _, _ => do
      addError "Bad string comparison."
      return 1
  | .fn x =>
    match b with
    | .fn y => return if y = x then 0 else if x < y then -1 else 1
    | b => return if x < b.raw then -1 else 1
  | .obj x =>
    match b with
    | .obj y => return if y = x then 0 else if x < y then -1 else 1
    | b => return if x < b.raw then -1 else 1
  | a => do
    addError ("Comparison unimplemented for type " ++ typeName a.ty ++ ".")
    return -1

/-- `nkiValueCompare`, `src/nkvalue.c:247-355`, with `value_compareType` at 235-245. -/
def valueCompare (a b : Value) (strict : Bool) : M Int :=
  if strict ∧ a.ty < b.ty then return -1
  else if strict ∧ a.ty > b.ty then return 1
  else match a, b with
    | .nil, .nil => return 0
    | .nil, _ => return 1
    | _, .nil => return -1
    | a, b => compareBody F a b

/-! ## Objects: `src/nkobjs.c` -/

/-- `nkiVmObjectTableGetEntryById`, `src/nkobjs.c:82-91`. -/
def getObj (id : Nat) : M (Option Obj) := fun vm => match vm.objects.get id with
  | .ok o => .ok (o, vm)
  | .ub k => .ub k

/-- Store through an object pointer obtained from `getObj`. -/
def setObj (id : Nat) (o : Obj) : M Unit := fun vm => match vm.objects.write id (some o) with
  | .ok t => .ok ((), { vm with objects := t })
  | .ub k => .ub k

/-- `nkiVmObjectInit`, `src/nkobjs.c:93-101`. -/
def Obj.init : Obj :=
  { buckets := List.replicate 16 [], size := 0, lastGCPass := 0, handleCount := 0
    extType := UINT_MAX, extData := none }

/-- `nkiVmObjectTableCreateObject`, `src/nkobjs.c:103-130`. -/
def createObject : M Nat := do
  let vm ← get
  let (i, t) ← liftR (vm.objects.add Obj.init)
  match i with
  | none => do
    addError "Address space exhaustion when adding item to table."
    return UINT_MAX
  | some i => do
    modify fun vm => { vm with
      objects := t
      gc := { vm.gc with newObjCountdown := vm.gc.newObjCountdown - 1 } }
    return i

/-- The bucket walk of `nkiVmObjectFindOrAddEntry` and `nkiVmObjectClearEntry`,
`src/nkobjs.c:209-215` and `236-241`: position of the first element whose key is identical. -/
def findElem (key : Value) : List (Value × Value) → Nat → M (Option Nat)
  | [], _ => return none
  | (k, _) :: es, n => do
    let c ← valueCompare F key k true
    if c = 0 then return some n else findElem key es (n + 1)

/-- Bucket number of a key, `src/nkobjs.c:206-207` and `233-234`. -/
def bucketOf (key : Value) : M Nat := do
  let h ← valueHash key
  return h &&& 15

/-- `nkiVmObjectClearEntry`, `src/nkobjs.c:201-225`, on the live object `id`. -/
def clearEntry (id : Nat) (key : Value) : M Unit := do
  let b ← bucketOf key
  let o ← getObj id
  match o with
  | none => liftR (.ub .oob)
  | some o =>
    match o.buckets[b]? with
    | none => liftR (.ub .oob)
    | some es => do
      let p ← findElem F key es 0
      match p with
      | none => return ()
      | some n =>
        if o.size = 0 then liftR (.ub .assert)
        else setObj id { o with buckets := o.buckets.set b (es.eraseIdx n), size := o.size - 1 }

/-- `nkiVmObjectFindOrAddEntry`, `src/nkobjs.c:227-270`, on the live object `id`: bucket and position
of the element, `none` for NULL.  Note that a refused element stays linked into the bucket. -/
def findOrAddEntry (id : Nat) (key : Value) (noAdd : Bool) : M (Option (Nat × Nat)) := do
  let b ← bucketOf key
  let o ← getObj id
  match o with
  | none => liftR (.ub .oob)
  | some o =>
    match o.buckets[b]? with
    | none => liftR (.ub .oob)
    | some es => do
      let p ← findElem F key es 0
      match p with
      | some n => return some (b, n)
      | none =>
        if noAdd then return none
        else do
          let vm ← get
          let size := u32 (o.size + 1)
          let bs := o.buckets.set b ((key, Value.zero) :: es)
          if size = 0 ∨ size > vm.limits.maxFields then do
            setObj id { o with buckets := bs }
            addError "Reached object field count limit."
            return none
          else do
            setObj id { o with buckets := bs, size := size }
            return some (b, 0)

/-- Read through the pointer returned by `nkiVmObjectFindOrAddEntry`. -/
def readElem (id : Nat) (p : Nat × Nat) : M Value := do
  let o ← getObj id
  match o with
  | none => liftR (.ub .oob)
  | some o => match o.buckets[p.1]? with
    | none => liftR (.ub .oob)
    | some es => match es[p.2]? with
      | none => liftR (.ub .oob)
      | some e => return e.2

/-- Write through the pointer returned by `nkiVmObjectFindOrAddEntry`. -/
def writeElem (id : Nat) (p : Nat × Nat) (v : Value) : M Unit := do
  let o ← getObj id
  match o with
  | none => liftR (.ub .oob)
  | some o => match o.buckets[p.1]? with
    | none => liftR (.ub .oob)
    | some es => match es[p.2]? with
      | none => liftR (.ub .oob)
      | some e => setObj id { o with buckets := o.buckets.set p.1 (es.set p.2 (e.1, v)) }

/-- `nkiVmObjectFindOrAddEntry(.., nktrue)` and the read of its result: the field's value, `none` for a
missing field. -/
def lookupField (id : Nat) (key : Value) : M (Option Value) := do
  let p ← findOrAddEntry F id key true
  match p with
  | none => return none
  | some p => do
    let v ← readElem id p
    return some v

/-- Assignment of a field as in `nkiOpcode_objectFieldSet`, `src/nkopcode.c:1069-1085`: nil removes. -/
def storeField (id : Nat) (key v : Value) : M Unit :=
  if v = .nil then clearEntry F id key
  else do
    let p ← findOrAddEntry F id key false
    match p with
    | none => return ()
    | some p => writeElem id p v

end

/-- `nkiVmGetObjectFromValue`, `src/nkobjs.c:277-291`; the id of the object and the object. -/
def objFromValue (v : Value) : M (Option (Nat × Obj)) :=
  match v with
  | .obj id => do
    let o ← getObj id
    return o.map (fun o => (id, o))
  | _ => return none

/-- `nkiVmObjectFindOrAddEntry_public(.., nktrue)`, `src/nkobjs.c:474-488`. -/
def lookupPublic (F : FloatOps) (v key : Value) : M (Option Value) := do
  let o ← objFromValue v
  match o with
  | some (id, _) => lookupField F id key
  | none => do
    addError "Bad object ID in nkiVmObjectFindOrAddEntry."
    return none

/-- `nkiVmObjectGetSize`, `src/nkobjs.c:490-502`. -/
def objectSize (v : Value) : M Nat := do
  let o ← objFromValue v
  match o with
  | some (_, o) => return o.size
  | none => do
    addError "Bad object ID in nkiVmObjectGetSize."
    return 0

/-- `nkiVmObjectGetExternalType`, `src/nkobjs.c:416-429`. -/
def getExtType (v : Value) : M Nat := do
  let o ← objFromValue v
  match o with
  | some (_, o) => return o.extType
  | none => do
    addError "Bad object ID in nkiVmObjectGetExternalType."
    return UINT_MAX

/-- `nkiVmObjectGetExternalData`, `src/nkobjs.c:447-458`. -/
def getExtData (v : Value) : M (Option Nat) := do
  let o ← objFromValue v
  match o with
  | some (_, o) => return o.extData
  | none => return none

/-- `nkiVmObjectSetExternalType`, `src/nkobjs.c:383-397`. -/
def setExtType (v : Value) (t : Nat) : M Bool := do
  let o ← objFromValue v
  match o with
  | some (id, o) => do
    setObj id { o with extType := t }
    return true
  | none => do
    addError "Bad object ID in nkiVmObjectSetExternalType."
    return false

/-- `nkiVmObjectSetExternalData`, `src/nkobjs.c:431-445`. -/
def setExtData (v : Value) (d : Nat) : M Bool := do
  let o ← objFromValue v
  match o with
  | some (id, o) => do
    setObj id { o with extData := some d }
    return true
  | none => do
    addError "Bad object ID in nkiVmObjectSetExternalData."
    return false

/-- `nkiVmObjectClearExternalDataAndType`, `src/nkobjs.c:399-414`. -/
def clearExt (v : Value) : M Bool := do
  let o ← objFromValue v
  match o with
  | some (id, o) => do
    setObj id { o with extType := UINT_MAX, extData := none }
    return true
  | none => do
    addError "Bad object ID in nkiVmObjectClearExternalType."
    return false

/-- `nkiVmObjectAcquireHandle`, `src/nkobjs.c:293-332`. -/
def acquireHandle (v : Value) : M Unit := do
  let o ← objFromValue v
  match o with
  | none => addError "Bad object ID in nkiVmObjectAcquireHandle."
  | some (id, o) =>
    let n := u32 (o.handleCount + 1)
    if n > 1 then setObj id { o with handleCount := n }
    else if n = 0 then do
      setObj id { o with handleCount := UINT_MAX }
      addError "Integer overflow in handle count."
    else do
      let vm ← get
      if id ∈ vm.handles then liftR (.ub .assert)
      else do
        setObj id { o with handleCount := n }
        modify fun vm => { vm with handles := id :: vm.handles }

/-- `nkiVmObjectReleaseHandle`, `src/nkobjs.c:334-367`.  As in the code, the count is decremented
even when it was 0. -/
def releaseHandle (v : Value) : M Unit := do
  let o ← objFromValue v
  match o with
  | none => addError "Bad object ID in nkiVmObjectAcquireHandle."
  | some (id, o) => do
    if o.handleCount = 0 then
      addError "Tried to release handle for object with no external handles."
    let n := usub o.handleCount 1
    setObj id { o with handleCount := n }
    if n > 0 then return ()
    else do
      let vm ← get
      if id ∈ vm.handles then modify fun vm => { vm with handles := vm.handles.erase id }
      else liftR (.ub .assert)

/-! ## Execution contexts: `src/nkcorout.c`, `src/nkvm.c` -/

/-- `nkiVmInitExecutionContext`, `src/nkvm.c:163-175`. -/
def Ctx.init : Ctx :=
  { stack := Stack.init, ip := 0, parent := none, coObj := .nil, state := .invalid }

/-- `nkiVmPopExecutionContext`, `src/nkcorout.c:146-161`. -/
def popContext : M Unit := do
  let vm ← get
  let c ← curCtx
  match c.parent with
  | none => addError "Cannot yield out of the root context.\n"
  | some p => do
    setCtx vm.cur { c with parent := none }
    modify fun vm => { vm with cur := p }

/-- `nkiVmPushExecutionContext`, `src/nkcorout.c:163-179`, for a non-NULL context. -/
def pushContext (i : Nat) : M Unit := do
  let vm ← get
  let c ← liftR (ctxAt vm i)
  match c.parent with
  | some _ => addError "Cannot switch to an already-active coroutine.\n"
  | none => do
    setCtx i { c with parent := some vm.cur }
    modify fun vm => { vm with cur := i }

/-- What the host supplies: native functions (indexed by the callback number of `ExtFunc.callback`;
given the argument array, they return `data.returnValue` and may change the VM through the API), and
the values marked by an external type's mark callback. -/
structure Host where
  call : Nat → List Value → M Value
  mark : Nat → Option Nat → List Value

/-- `nkiVmInit`, `src/nkvm.c:184-260`, including `nkxCoroutineLibrary_init`,
`src/nkcorout.c:136-144`: the state of a new VM. -/
def VM.create : VM :=
  { errors := []
    ctxs := [some { Ctx.init with state := .running }]
    cur := 0
    statics := List.replicate 2 Value.zero
    staticMask := 1
    instrs := List.replicate 4 0
    instrMask := 3
    strings := Table.init
    sbuckets := List.replicate 256 []
    objects := Table.init
    handles := []
    functions := []
    extFuncs := []
    gc := { lastGCPass := 0, interval := 1024, countdown := 1024, newObjInterval := 256,
            newObjCountdown := 256 }
    globals := []
    limits := { maxStackSize := UINT_MAX, maxFields := UINT_MAX }
    extTypes := [{ name := cs "coroutine", hasSerialize := true, hasCleanup := true, hasMark := true }]
    instrLeft := UINT_MAX
    subsystems := List.replicate 16 []
    sourceFiles := []
    markers := []
    coType := 0
    cleanupLog := [] }

end Nk
