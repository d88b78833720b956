import Verif.Model.Destroy
/-!
# Registries of the VM: external types, native functions, subsystem data, source files and positions, iteration over
objects

`src/nkvm.c:455-645`, `src/nkfunc.c:46-65` and `148-243`, `src/nkx.c:988-1055`.
-/
namespace Nk

/-! ## External types -/

/-- The loop of `nkiVmFindExternalType`, `src/nkvm.c:507-513`, from index `i`. -/
def findTypeFrom (name : Bytes) (i : Nat) : List ExtType → Nat
  | [] => UINT_MAX
  | t :: ts => if strcmp t.name name = 0 then i else findTypeFrom name (i + 1) ts

/-- `nkiVmFindExternalType`, `src/nkvm.c:501-516`. -/
def findExternalType (vm : VM) (name : Bytes) : Nat := findTypeFrom name 0 vm.extTypes

/-- `nkiVmRegisterExternalType`, `src/nkvm.c:457-499`. -/
def registerExternalType (t : ExtType) : M Nat := do
  let vm ← get
  if findExternalType vm t.name ≠ UINT_MAX then do
    addError "Attempted to register an external type twice."
    return UINT_MAX
  else if vm.extTypes.length = UINT_MAX then do
    addError "Allocated too many types."
    return UINT_MAX
  else do
    modify fun vm => { vm with extTypes := vm.extTypes ++ [t] }
    return vm.extTypes.length

/-! ## Native functions -/

/-- The search loop of `nkiVmRegisterExternalFunction`, `src/nkfunc.c:159-166`, from index `i`. -/
def findNativeFrom (name : Bytes) (cb : Option Nat) (i : Nat) : List ExtFunc → Nat
  | [] => i
  | f :: fs => if f.callback = cb ∧ strcmp f.name name = 0 then i else findNativeFrom name cb (i + 1) fs

/-- `nkiVmRegisterExternalFunctionNoSearch`, `src/nkfunc.c:175-210`. -/
def registerNativeNoSearch (name : Bytes) (cb : Option Nat) : M Nat := do
  let vm ← get
  if u32 (vm.extFuncs.length + 1) = 0 then do
    addError "Too many external functions registered."
    return UINT_MAX
  else do
    modify fun vm => { vm with extFuncs := vm.extFuncs ++
      [{ name, callback := cb, internalId := UINT_MAX, argc := UINT_MAX, argTypes := [], argExtTypes := [] }] }
    return vm.extFuncs.length

/-- `nkiVmRegisterExternalFunction`, `src/nkfunc.c:148-173`. -/
def registerNative (name : Bytes) (cb : Option Nat) : M Nat := do
  let vm ← get
  let i := findNativeFrom name cb 0 vm.extFuncs
  if i = vm.extFuncs.length then registerNativeNoSearch name cb else return i

/-- `nkiVmCreateFunction`, `src/nkfunc.c:46-65`.  The overflow test of `nkiReallocArray` (`src/nkmem.c:304-314`, an
entry has 12 bytes) ends the call before the count can wrap; other failures of the allocator are not modelled here. -/
def createFunction : M Nat := do
  let vm ← get
  if vm.functions.length + 1 ≥ UINT_MAX / 12 then liftR (.ub .longjmp)
  else do
    modify fun vm => { vm with functions := vm.functions ++ [{ argc := 0, first := 0, extId := UINT_MAX }] }
    return vm.functions.length

/-- The function entry made for a script function, `src/nkcompil.c:724` and `837-840`: created, then given the
number of arguments and the first instruction. -/
def scriptFunction (argc first : Nat) : M Nat := do
  let id ← createFunction
  modify fun vm => { vm with functions := vm.functions.set id { argc, first, extId := UINT_MAX } }
  return id

/-- `nkiVmGetOrCreateInternalFunctionForExternalFunction`, `src/nkfunc.c:212-243`. -/
def internalFor (e : Nat) : M Nat := do
  let vm ← get
  match vm.extFuncs[e]? with
  | none => do
    addError "Tried to create an internal function to represent a bad external function."
    return UINT_MAX
  | some f =>
    if f.internalId = UINT_MAX then do
      let id ← createFunction
      modify fun vm => { vm with
        functions := vm.functions.set id { argc := UINT_MAX, first := 0, extId := e }
        extFuncs := vm.extFuncs.set e { f with internalId := id } }
      return id
    else return f.internalId

/-- The part of `nkxVmSetupExternalFunction` that declares the arguments, `src/nkx.c:486-518`. -/
def declareArgs (e argc : Nat) (types extTypes : List Nat) : M Unit := do
  let vm ← get
  match vm.extFuncs[e]? with
  | none => liftR (.ub .oob)
  | some f => modify fun vm => { vm with
      extFuncs := vm.extFuncs.set e { f with argc := argc, argTypes := types, argExtTypes := extTypes } }

/-! ## Subsystems -/

/-- The bucket of a name, `src/nkvm.c:532-533`. -/
def subBucket (name : Bytes) : Nat := stringHash name &&& 15

/-- The walk over a bucket, `src/nkvm.c:536-541`. -/
def findSub (name : Bytes) : List Subsystem → Option Subsystem
  | [] => none
  | s :: ss => if strcmp s.name name = 0 then some s else findSub name ss

/-- `nkiGetExternalSubsystemData`, `src/nkvm.c:557-568`; `none` is NULL. -/
def subsystemData (vm : VM) (name : Bytes) : Res (Option Nat) :=
  match vm.subsystems[subBucket name]? with
  | none => .ub .oob
  | some b => .ok ((findSub name b).map (·.data))

/-- Assignment through the pointer found by the walk, `src/nkx.c:1012-1016`. -/
def setSub (s : Subsystem) : List Subsystem → List Subsystem
  | [] => []
  | x :: xs => if strcmp x.name s.name = 0 then s :: xs else x :: setSub s xs

/-- `nkxInitSubsystem`, `src/nkx.c:988-1021` with `nkiFindExternalSubsystemData`, `src/nkvm.c:527-555`. -/
def initSubsystem (s : Subsystem) : M Bool := do
  let vm ← get
  if vm.errors ≠ [] then do
    addError "Attempting to initialize a subsystem on a broken VM."
    return false
  else
    match vm.subsystems[subBucket s.name]? with
    | none => liftR (.ub .oob)
    | some b =>
      match findSub s.name b with
      | some _ => do
        modify fun vm => { vm with subsystems := vm.subsystems.set (subBucket s.name) (setSub s b) }
        return true
      | none => do
        modify fun vm => { vm with subsystems := vm.subsystems.set (subBucket s.name) (s :: b) }
        return true

/-! ## Source files and positions -/

/-- The search loop of `nkiVmAddSourceFile`, `src/nkvm.c:580-584`, from index `i`. -/
def findFileFrom (name : Bytes) (i : Nat) : List Bytes → Option Nat
  | [] => none
  | f :: fs => if strcmp name f = 0 then some i else findFileFrom name (i + 1) fs

/-- `nkiVmAddSourceFile`, `src/nkvm.c:570-601`. -/
def addSourceFile (name : Bytes) : M Nat := do
  let vm ← get
  match findFileFrom name 0 vm.sourceFiles with
  | some i => return i
  | none =>
    if u32 (vm.sourceFiles.length + 1) = UINT_MAX then return UINT_MAX
    else do
      modify fun vm => { vm with sourceFiles := vm.sourceFiles ++ [name] }
      return vm.sourceFiles.length

/-- The loop of `nkiVmFindSourceMarker`, `src/nkvm.c:630-634`: the marker `m` is the one at the current index, the
list is what follows it. -/
def markerLoop (idx : Nat) (m : Marker) : List Marker → Marker
  | [] => m
  | n :: ms => if n.instr > idx then m else markerLoop idx n ms

/-- `nkiVmFindSourceMarker`, `src/nkvm.c:617-637`; `none` is NULL. -/
def findSourceMarker (ms : List Marker) (idx : Nat) : Option Marker :=
  match ms with
  | [] => none
  | m :: ms => some (markerLoop idx m ms)

/-- The fields of the compiler that produce markers, `struct NKCompilerState` in `src/nkcompil.h`. -/
structure PosState where
  line : Nat
  file : Nat
  write : Nat
  markers : List Marker
deriving Repr, DecidableEq

/-- `nkiCompilerCreate` for a new VM, `src/nkcompil.c:1055-1063`. -/
def PosState.init : PosState := { line := 0, file := UINT_MAX, write := 0, markers := [] }

/-- `nkiCompilerNextToken` when there is a next token, `src/nkcompil.c:911-932`. -/
def PosState.next (p : PosState) (file line actual : Nat) : PosState :=
  if p.line ≠ line ∨ p.file ≠ file then
    { line, file, write := p.write, markers := p.markers ++ [{ instr := p.write, file, line, actualLine := actual }] }
  else p

/-- The start of `nkiCompilerCompileScript`, `src/nkcompil.c:1199-1203`, with the position of the first token.  No marker
is added here. -/
def PosState.start (p : PosState) (file line : Nat) : PosState := { p with line, file }

/-- The end of `nkiCompilerCompileScript`, `src/nkcompil.c:1207-1209`. -/
def PosState.stop (p : PosState) : PosState := { p with line := 0, file := UINT_MAX }

/-- The effect of `nkiCompilerAddInstruction` on the write index, `src/nkcompil.c:86`. -/
def PosState.emit (p : PosState) : PosState := { p with write := p.write + 1 }

/-- The effect of `nkiCompilerClearReplErrorState` on the write index, `src/nkcompil.c:1665`. -/
def PosState.reset (p : PosState) (n : Nat) : PosState := { p with write := n }

/-! ## Iteration over objects -/

/-- The loop of `nkxGetNextObjectOfExternalType`, `src/nkx.c:1037-1052`: the object found and the new start index; `n`
is how many indices are left. -/
def nextOfTypeLoop (objects : Table Obj) (type : Nat) (start : Nat) : Nat → Res (Option Nat × Nat)
  | 0 => .ok (none, start)
  | n + 1 =>
    match objects.slots[start]? with
    | none => .ub .oob
    | some (some o) => if o.extType = type then .ok (some start, start + 1) else nextOfTypeLoop objects type (start + 1) n
    | some none => nextOfTypeLoop objects type (start + 1) n

/-- `nkxGetNextObjectOfExternalType`, `src/nkx.c:1023-1055`. -/
def nextOfType (objects : Table Obj) (type start : Nat) : Res (Option Nat × Nat) :=
  nextOfTypeLoop objects type start (objects.cap - start)

end Nk
