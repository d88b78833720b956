import Verif.Model.Registry
import Verif.Model.Exec
/-!
# Histories of registrations
-/
namespace Nk

/-- The registries are the same in both states. -/
structure SameReg (vm vm' : VM) : Prop where
  types : vm'.extTypes = vm.extTypes
  natives : vm'.extFuncs = vm.extFuncs
  functions : vm'.functions = vm.functions
  subs : vm'.subsystems = vm.subsystems
  files : vm'.sourceFiles = vm.sourceFiles

/-- Histories: registrations of all kinds, whatever their result, and anything that leaves the registries alone.
The list holds the subsystems set up successfully, latest first. -/
inductive RegHist : VM → VM → List Subsystem → Prop
  | refl (vm : VM) : RegHist vm vm []
  /-- `nkxVmRegisterExternalType` -/
  | type {vm v v' : VM} {w : List Subsystem} {t : ExtType} {id : Nat} : RegHist vm v w →
      registerExternalType t v = .ok (id, v') → RegHist vm v' w
  /-- `nkxVmRegisterExternalFunction` -/
  | native {vm v v' : VM} {w : List Subsystem} {name : Bytes} {cb : Option Nat} {id : Nat} : RegHist vm v w →
      registerNative name cb v = .ok (id, v') → RegHist vm v' w
  /-- `nkxVmGetOrCreateInternalFunctionForExternalFunction` -/
  | value {vm v v' : VM} {w : List Subsystem} {e id : Nat} : RegHist vm v w →
      internalFor e v = .ok (id, v') → RegHist vm v' w
  /-- declaring the arguments of a native function -/
  | declare {vm v v' : VM} {w : List Subsystem} {e argc : Nat} {ts xs : List Nat} : RegHist vm v w →
      declareArgs e argc ts xs v = .ok ((), v') → RegHist vm v' w
  /-- a function definition being compiled -/
  | script {vm v v' : VM} {w : List Subsystem} {argc first id : Nat} : RegHist vm v w →
      scriptFunction argc first v = .ok (id, v') → RegHist vm v' w
  /-- `nkxInitSubsystem`, successful -/
  | subsystem {vm v v' : VM} {w : List Subsystem} {s : Subsystem} : RegHist vm v w →
      initSubsystem s v = .ok (true, v') → RegHist vm v' (s :: w)
  /-- `nkxInitSubsystem`, refused -/
  | refused {vm v v' : VM} {w : List Subsystem} {s : Subsystem} : RegHist vm v w →
      initSubsystem s v = .ok (false, v') → RegHist vm v' w
  /-- `nkiVmAddSourceFile` -/
  | file {vm v v' : VM} {w : List Subsystem} {name : Bytes} {i : Nat} : RegHist vm v w →
      addSourceFile name v = .ok (i, v') → RegHist vm v' w
  /-- anything else -/
  | other {vm v v' : VM} {w : List Subsystem} : RegHist vm v w → SameReg v v' → RegHist vm v' w

/-- What is assumed of native functions: they change the registries only by registering. -/
def HostRegisters (H : Host) : Prop :=
  ∀ cb args vm r vm', H.call cb args vm = .ok (r, vm') → ∃ w, RegHist vm vm' w

/-- Repeated calls of `nkxGetNextObjectOfExternalType` from `start` until it returns false deliver `ids`. -/
inductive Visits (objects : Table Obj) (type : Nat) : Nat → List Nat → Prop
  | done {start s : Nat} : nextOfType objects type start = .ok (none, s) → Visits objects type start []
  | more {start id s : Nat} {ids : List Nat} : nextOfType objects type start = .ok (some id, s) →
      Visits objects type s ids → Visits objects type start (id :: ids)

/-- What the compiler does that concerns positions, except resetting after an error in interactive use.  The list holds,
for each instruction emitted, its index, the position (file and line) of the token that was current, and whether the
position had changed since the first token of the script (which is also the flag). -/
inductive Compiling : PosState → Bool → List (Nat × Nat × Nat × Bool) → Prop
  | init : Compiling .init false []
  | start {p : PosState} {b : Bool} {l : List (Nat × Nat × Nat × Bool)} (file line : Nat) : Compiling p b l →
      Compiling (p.start file line) false l
  | next {p : PosState} {b : Bool} {l : List (Nat × Nat × Nat × Bool)} (file line actual : Nat) : Compiling p b l →
      Compiling (p.next file line actual) (b || p.line != line || p.file != file) l
  | emit {p : PosState} {b : Bool} {l : List (Nat × Nat × Nat × Bool)} : Compiling p b l →
      Compiling p.emit b ((p.write, p.file, p.line, b) :: l)
  | stop {p : PosState} {b : Bool} {l : List (Nat × Nat × Nat × Bool)} : Compiling p b l → Compiling p.stop false l

end Nk
