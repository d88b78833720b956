import Verif.Model.Save
import Verif.Lemmas.Objects
import Verif.Spec.CStr
import Verif.Spec.Heap
/-!
# What is saved, where it can be loaded, and what loading restores
-/
namespace Nk.Save

/-! ## What every VM satisfies on a machine with 32-bit words

The model has unbounded numbers where the code has 32-bit words, and texts as lists of bytes.  These predicates say that
a number is one the code can hold and that a text has no terminator inside. -/

/-- Identifiers are 32-bit words and the tag is one of the defined ones. -/
def _root_.Nk.Value.Fits : Value → Prop
  | .str n => n < 4294967296
  | .fn n => n < 4294967296
  | .obj n => n < 4294967296
  | .bad _ _ => False
  | _ => True

/-- A text: no terminator inside, and not too long. -/
def Text (s : Bytes) : Prop := Spec.NoNul s ∧ s.length < UINT_MAX

/-- A text of error messages: every character is a byte other than 0. -/
def ErrText (e : String) : Prop := (∀ c ∈ e.toList, 0 < c.toNat ∧ c.toNat < 256) ∧ e.length < UINT_MAX

/-- An execution context: its stack is in order and within the limit, and small enough to be allocated. -/
structure CtxOK (vm : VM) (c : Ctx) : Prop where
  wf : c.stack.WF
  limit : c.stack.cap ≤ vm.limits.maxStackSize
  alloc : c.stack.cap < UINT_MAX / 8
  fits : ∀ x ∈ c.stack.used, x.Fits
  ip : c.ip < 4294967296

/-- A string. -/
structure StrOK (e : Str) : Prop where
  text : Text e.str
  pass : e.lastGCPass < 4294967296
  hash : e.hash = stringHash e.str

/-- An object: its fields are in order and not more than the limit. -/
structure ObjOK (vm : VM) (o : Obj) : Prop where
  wf : OWF vm o
  key : ∀ es ∈ o.buckets, ∀ e ∈ es, e.1.Fits ∧ e.2.Fits
  limit : o.size ≤ vm.limits.maxFields
  handles : o.handleCount < 4294967296
  pass : o.lastGCPass < 4294967296
  ext : o.extType < 4294967296

/-- The collector's numbers. -/
structure GcOK (g : GCInfo) : Prop where
  pass : g.lastGCPass < 4294967296
  interval : g.interval < 4294967296
  countdown : g.countdown < 4294967296
  newInterval : g.newObjInterval < 4294967296
  newCountdown : g.newObjCountdown < 4294967296

/-- Functions: there is at least one, and those that stand for native functions name one that exists. -/
structure FuncsOK (vm : VM) : Prop where
  natives : vm.extFuncs.length < UINT_MAX / 4
  name : ∀ f ∈ vm.extFuncs, Text f.name
  internal : ∀ f ∈ vm.extFuncs, f.internalId < 4294967296
  count : vm.functions.length < UINT_MAX / 12
  some : vm.functions ≠ []
  argc : ∀ f ∈ vm.functions, f.argc < 4294967296
  first : ∀ f ∈ vm.functions, f.first < 4294967296
  ext : ∀ f ∈ vm.functions, f.extId = UINT_MAX ∨ f.extId < vm.extFuncs.length

/-- All parts of a marker are 32 bit numbers. -/
def MarkerOK (m : Marker) : Prop :=
  m.instr < 4294967296 ∧ m.file < 4294967296 ∧ m.line < 4294967296 ∧ m.actualLine < 4294967296

/-- External types have different names, and objects have existing types. -/
structure TypesOK (vm : VM) : Prop where
  text : ∀ t ∈ vm.extTypes, Text t.name
  names : (vm.extTypes.map (·.name)).Nodup
  count : vm.extTypes.length < UINT_MAX / 4
  length : longest vm.extTypes + 1 < UINT_MAX - vm.extTypes.length * 4
  objs : ∀ id o, vm.objects.entry id = some o → o.extType = UINT_MAX ∨ o.extType < vm.extTypes.length

/-- The coroutine type is the one of the library; contexts are in order; active coroutines are running. -/
structure CoOK (vm : VM) : Prop where
  wf : CoWF vm
  ctx : ∀ (i : Nat) (c : Ctx), vm.ctxs[i]? = some (some c) → CtxOK vm c
  serialize : ∃ t, vm.extTypes[vm.coType]? = some t ∧ t.hasSerialize = true
  types : ∀ id o, vm.objects.entry id = some o → o.extType = UINT_MAX ∨ o.extType < vm.extTypes.length
  running : ∀ (i : Nat) (c : Ctx), i ≠ 0 → Active vm i → vm.ctxs[i]? = some (some c) → c.state = .running

/-- A VM that can be saved: its data structures are in order, its arrays are small enough to be allocated again, and
it has at least one function. -/
structure Saveable (vm : VM) : Prop where
  heap : HeapWF vm
  instrLen : vm.instrs.length = vm.instrMask + 1
  instrPow : ∃ k, k ≤ 29 ∧ vm.instrMask + 1 = 2 ^ k
  errors : ∀ e ∈ vm.errors, ErrText e
  errorCount : vm.errors.length < 4294967296
  staticPow : ∃ k, k ≤ 28 ∧ vm.staticMask + 1 = 2 ^ k
  statics : ∀ x ∈ vm.statics, x.Fits
  co : CoOK vm
  strCap : vm.strings.cap < UINT_MAX / 8
  strs : ∀ e, some e ∈ vm.strings.slots → StrOK e
  objCap : vm.objects.cap < UINT_MAX / 8
  objs : ∀ o, some o ∈ vm.objects.slots → ObjOK vm o
  gc : GcOK vm.gc
  funcs : FuncsOK vm
  globals : ∀ g ∈ vm.globals, Text g.1 ∧ g.2 < 4294967296
  globalCount : vm.globals.length < UINT_MAX / 16
  types : TypesOK vm
  subs : ∀ s ∈ vm.subsystems.flatten, Text s.name
  subCount : vm.subsystems.flatten.length < 4294967296
  files : ∀ s ∈ vm.sourceFiles, Text s
  fileCount : vm.sourceFiles.length < UINT_MAX / 8
  markers : ∀ m ∈ vm.markers, MarkerOK m
  markerCount : vm.markers.length < UINT_MAX / 16

/-- Every native function that a function of `vm` stands for is registered under its name. -/
def Registered (vm : VM) (fs : List ExtFunc) : Prop :=
  ∀ f ∈ vm.functions, ∀ g, vm.extFuncs[f.extId]? = some g → ∃ g' ∈ fs, g'.name = g.name

/-- A VM into which the image of `vm` can be loaded: newly made (no errors, no objects held by the host, no coroutines)
and set up by the host like `vm` was (limits, external types, subsystems). -/
structure Target (vm v : VM) : Prop where
  errors : v.errors = []
  handles : v.handles = []
  ctxs : ∃ r : Ctx, v.ctxs = [some r] ∧ r.stack.WF ∧ r.parent = none ∧ r.coObj = .nil ∧ r.state = .running
  limits : v.limits = vm.limits
  types : v.extTypes = vm.extTypes
  coType : v.coType = vm.coType
  natives : v.extFuncs.length ≤ UINT_MAX
  subs : ∀ s ∈ vm.subsystems.flatten, ∃ b t, v.subsystems[subBucket s.name]? = some b ∧ findSub s.name b = some t

/-! ## What is restored -/

/-- A function after loading: the same code; a native function is the one registered under the same name. -/
structure SameFunc (old new : List ExtFunc) (f f' : Func) : Prop where
  argc : f'.argc = f.argc
  first : f'.first = f.first
  script : f.extId = UINT_MAX → f'.extId = UINT_MAX
  native : ∀ g, f.extId ≠ UINT_MAX → old[f.extId]? = some g → ∃ g', new[f'.extId]? = some g' ∧ g'.name = g.name

/-- An object after loading: the same fields. -/
structure SameObj (o o' : Obj) : Prop where
  fields : ∀ p, p ∈ o'.buckets.flatten ↔ p ∈ o.buckets.flatten
  size : o'.size = o.size
  handles : o'.handleCount = o.handleCount
  pass : o'.lastGCPass = o.lastGCPass
  type : o'.extType = o.extType

/-- A context after loading: the same position and values. -/
structure SameCtx (c c' : Ctx) : Prop where
  ip : c'.ip = c.ip
  values : c'.stack.used = c.stack.used
  size : c'.stack.size = c.stack.size
  cap : c'.stack.cap = c.stack.cap
  owner : c'.coObj = c.coObj

/-- `v'`, which was `v` before, is what `vm` was.  Contexts get new numbers, given by `ρ`; the main program keeps its
number. -/
structure Restored (F : FloatOps) (vm v v' : VM) : Prop where
  instrs : v'.instrs = vm.instrs ∧ v'.instrMask = vm.instrMask
  errors : v'.errors = vm.errors
  statics : v'.statics = vm.statics ∧ v'.staticMask = vm.staticMask
  strings : (∀ id, v'.strings.entry id = vm.strings.entry id) ∧ v'.strings.cap = vm.strings.cap
  objects : (∀ id o, vm.objects.entry id = some o → ∃ o', v'.objects.entry id = some o' ∧ SameObj o o') ∧
    (∀ id, vm.objects.entry id = none → v'.objects.entry id = none) ∧ v'.objects.cap = vm.objects.cap
  /-- reading a field gives the same -/
  lookup : ∀ (id : Nat) (key : Value), (∃ o, vm.objects.entry id = some o) → keyOf vm key ≠ none →
    ∃ x, lookupField F id key vm = .ok (x, vm) ∧ lookupField F id key v' = .ok (x, v')
  handles : ∀ id, id ∈ v'.handles ↔ ∃ o, vm.objects.entry id = some o ∧ o.handleCount ≠ 0
  functions : v'.functions.length = vm.functions.length ∧ ∀ (i : Nat) (f : Func), vm.functions[i]? = some f →
    ∃ f', v'.functions[i]? = some f' ∧ SameFunc vm.extFuncs v'.extFuncs f f'
  globals : v'.globals = vm.globals
  gc : v'.gc = { vm.gc with interval := min vm.gc.interval 65536 }
  files : v'.sourceFiles = vm.sourceFiles
  markers : v'.markers = vm.markers
  coroutines : ∃ ρ : Nat → Nat, ρ 0 = 0 ∧ v'.cur = ρ vm.cur ∧
    (∀ (i : Nat) (c : Ctx), vm.ctxs[i]? = some (some c) → ∃ c', v'.ctxs[ρ i]? = some (some c') ∧ SameCtx c c' ∧
      c'.parent = c.parent.map ρ ∧ (i ≠ 0 → c'.state = c.state)) ∧
    (∀ (id i : Nat) (o : Obj), vm.objects.entry id = some o → o.extType = vm.coType → o.extData = some i →
      ∃ o', v'.objects.entry id = some o' ∧ o'.extData = some (ρ i)) ∧
    (∀ (j : Nat) (c' : Ctx), v'.ctxs[j]? = some (some c') → ∃ (i : Nat) (c : Ctx), vm.ctxs[i]? = some (some c) ∧ j = ρ i)
  /-- the rest of the VM is as it was -/
  rest : v'.limits = v.limits ∧ v'.extTypes = v.extTypes ∧ v'.coType = v.coType ∧ v'.subsystems = v.subsystems ∧
    v'.instrLeft = v.instrLeft ∧ v'.cleanupLog = v.cleanupLog ∧
    v'.extFuncs.length = v.extFuncs.length ∧ ∀ i : Nat, (v'.extFuncs[i]?.map fun f => { f with internalId := 0 }) =
      v.extFuncs[i]?.map fun f => { f with internalId := 0 }

end Nk.Save
