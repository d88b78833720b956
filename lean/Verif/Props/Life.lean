import Verif.Lemmas.Life
import Verif.Lemmas.Exec
import Verif.Props.Sandbox
import Verif.Props.Session
/-!
# C67: compiling and running, in any order
-/
namespace Nk.Props
open Nk.Spec Nk.Cc

variable (F : FloatOps) (H : Host)

/-- The code, its source positions, the entries of the script functions and the size of the space for global variables are
the same. -/
structure SameCode (vm vm' : VM) : Prop where
  instrs : vm'.instrs = vm.instrs
  mask : vm'.instrMask = vm.instrMask
  lines : vm'.markers = vm.markers
  size : vm'.staticMask = vm.staticMask
  fns : ∀ f ∈ vm'.functions, f ∈ vm.functions ∨ f.first = 0
  kept : vm.functions <+: vm'.functions

/-- Native functions do not compile anything. -/
def NoCompiling (H : Host) : Prop := ∀ cb args vm a vm', H.call cb args vm = .ok (a, vm') → SameCode vm vm'

/-- What can happen to a VM with a compiler in state `a`: any scripts are compiled, successfully or not, variables and
native functions are declared, the program is made ready and run for any number of instructions, and the host does things that
keep the VM in order, all of this in any order. -/
inductive Later (a : CS) : CS → Prop
  | now : Later a a
  | tokens {s s' : CS} {toks : List Token} {b : Bool} (h : Later a s) (ht : ∀ t ∈ toks, FromSource t)
      (r : compileTokens F toks s = .ok (b, s')) : Later a s'
  | script {s s' : CS} {hdr : Nat} {junk : Nat → UInt8} {source file : Bytes} {b : Bool} (h : Later a s)
      (r : compileScript F hdr junk source file s = .ok (b, s')) : Later a s'
  | global {s s' : CS} {name : Bytes} {o : Option Nat} (h : Later a s) (r : createGlobal name s = .ok (o, s')) : Later a s'
  | native {s s' : CS} {name : Bytes} {cb : Option Nat} (h : Later a s) (r : createCFunction name cb s = .ok ((), s')) : Later a s'
  | finish {s s' : CS} (h : Later a s) (r : partiallyFinalize s = .ok ((), s')) : Later a s'
  | run {s : CS} {vm : VM} (h : Later a s) (r : Run F H s.vm vm) : Later a { s with vm := vm }
  | host {s : CS} {vm : VM} (h : Later a s) (hi : Nk.Inv vm) (c : SameCode s.vm vm) : Later a { s with vm := vm }

/-- The life of a VM with a compiler: it is created, and then these things happen. -/
def Life (s : CS) : Prop := Later F H (createCompiler VM.create) s

variable {F H}

theorem SameCode.refl (vm : VM) : SameCode vm vm := ⟨rfl, rfl, rfl, rfl, fun _ h => .inl h, List.prefix_refl _⟩
theorem SameCode.trans {a b c : VM} (h : SameCode a b) (g : SameCode b c) : SameCode a c :=
  ⟨g.instrs.trans h.instrs, g.mask.trans h.mask, g.lines.trans h.lines, g.size.trans h.size, fun f hf => by
    rcases g.fns f hf with h1 | h1
    · exact h.fns f h1
    · exact .inr h1, h.kept.trans g.kept⟩
theorem SameCode.of {a b c : VM} (h : SameCode a b) (h1 : c.instrs = b.instrs) (h2 : c.instrMask = b.instrMask) (h3 : c.staticMask = b.staticMask)
    (h4 : c.functions = b.functions) (h5 : c.markers = b.markers) : SameCode a c :=
  h.trans ⟨h1, h2, h5, h3, fun f hf => .inl (h4 ▸ hf), h4 ▸ List.prefix_refl _⟩

theorem same_frame (vm : VM) : CoFrame (SameCode vm) where
  err := fun v e h => h.of rfl rfl rfl rfl rfl
  str := fun v t b _ h => h.of rfl rfl rfl rfl rfl
  obj := fun v t h => h.of rfl rfl rfl rfl rfl
  newo := fun v t n h => h.of rfl rfl rfl rfl rfl
  ctx := fun v c c' _ _ _ _ h => h.of rfl rfl rfl rfl rfl
  stat := fun v l h => h.of rfl rfl rfl rfl rfl
  finish := fun v c i _ h => h.of rfl rfl rfl rfl rfl
  popc := fun v c p _ _ h => h.of rfl rfl rfl rfl rfl
  pushc := fun v k c _ _ _ h => h.of rfl rfl rfl rfl rfl
  start := fun v c _ _ h => h.of rfl rfl rfl rfl rfl
  newc := fun v c _ _ h => h.of rfl rfl rfl rfl rfl
  free := fun v k h => h.of rfl rfl rfl rfl rfl
  pass := fun v n h => h.of rfl rfl rfl rfl rfl
  log := fun v l h => h.of rfl rfl rfl rfl rfl

/-- Running does not change the code. -/
theorem run_same (hH : NoCompiling H) {vm vm' : VM} (r : Run F H vm vm') : SameCode vm vm' := by
  induction r with
  | refl => exact .refl _
  | step _ _ hi ih =>
    refine (iterate_pres (same_frame vm) (fun cb args => ⟨fun v a v' h e => h.trans (hH cb args v a v' e)⟩) (fun v h => ?_) (fun v h => ?_)
      (fun v h => ?_) (fun v h => ?_)).run _ _ _ ih hi
    · unfold tick; exact h.of rfl rfl rfl rfl rfl
    · unfold charge; exact h.of rfl rfl rfl rfl rfl
    · exact h.of rfl rfl rfl rfl rfl
    · exact h.of rfl rfl rfl rfl rfl

theorem Later.tidy {K : UB → Prop} (hH : HostOK H K) (hC : NoCompiling H) {a s : CS} (h : Later F H a s) (ha : Tidy a.vm) : Tidy s.vm := by
  induction h with
  | now => exact ha
  | tokens h ht r ih => exact (compileTokens_keep F _).run _ _ _ ih r
  | script h r ih => exact (compileScript_keep F _ _ _ _).run _ _ _ ih r
  | global h r ih => exact (createGlobal_keep _).run _ _ _ ih r
  | native h r ih => exact (createCFunction_keep _ _).run _ _ _ ih r
  | finish h r ih => exact partiallyFinalize_keep.run _ _ _ ih r
  | run h r ih =>
    have := run_same hC r
    exact ⟨run_inv F H hH ih.inv r, by show _ < _; rw [this.size]; exact ih.stat, by show _ < _; rw [this.mask]; exact ih.code⟩
  | host h hi c ih => exact ⟨hi, by show _ < _; rw [c.size]; exact ih.stat, by show _ < _; rw [c.mask]; exact ih.code⟩

theorem create_tidy : Tidy (createCompiler VM.create).vm := ⟨create_inv, by decide, by decide⟩

theorem Life.tidy {K : UB → Prop} (hH : HostOK H K) (hC : NoCompiling H) {s : CS} (h : Life F H s) : Tidy s.vm :=
  Later.tidy hH hC h create_tidy

/-- **C67**: at every point of such a life the data structures of the VM are in order, so that collections, calls and the
other operations of the API may be done. -/
theorem C67_in_order {K : UB → Prop} (hH : HostOK H K) (hC : NoCompiling H) {s : CS} (h : Life F H s) : Nk.Inv s.vm := (h.tidy hH hC).inv

/-- **C67**: whatever was compiled and run before, executing the next instruction leaves the VM in order or ends in one of the
`Allowed` ways, none of which is an access out of bounds. -/
theorem C67_run {K : UB → Prop} (hH : HostOK H K) (hC : NoCompiling H) {s : CS} (h : Life F H s) (hp : s.vm.gc.lastGCPass + 2 < 4294967296) :
    match iterate F H s.vm with
    | .ok (_, w) => Nk.Inv w
    | .ub k => Allowed K s.vm k :=
  C25_memory_safe F H hH (C67_in_order hH hC h) .refl hp

/-- **C67**: and the compiler can go on: the state is one of those that C49, C53, C63 and C64 are about. -/
theorem C67_session {K : UB → Prop} (hH : HostOK H K) (hC : NoCompiling H) {s : CS} (h : Life F H s) : Session F s := by
  induction h with
  | now => exact .start ⟨rfl, rfl, fun f hf => (by cases hf), create_strWF⟩
  | tokens h ht r ih => exact ih.tokens ht r
  | script h r ih => exact ih.script r
  | global h r ih => exact ih.global r
  | native h r ih => exact ih.native r
  | finish h r ih => exact ih.finish r
  | run h r ih =>
    have c := run_same hC r
    exact ih.run ⟨c.instrs, c.mask, c.fns, (run_inv F H hH (h.tidy hH hC create_tidy).inv r).heap.str, c.kept⟩
  | host h hi c ih => exact ih.run ⟨c.instrs, c.mask, c.fns, hi.heap.str, c.kept⟩

/-! ### An example: two scripts, the first run before the second is compiled -/

/-- Compile a text and make the program ready. -/
def ready (a : String) (s : CS) : Res CS :=
  match compileScript Sample.F 32 (fun _ => 0) (cs a ++ [0]) (cs "f") s with
  | .ok (_, s) => match partiallyFinalize s with
    | .ok (_, s) => .ok s
    | .ub k => .ub k
  | .ub k => .ub k

/-- Execute `n` instructions. -/
def steps (n : Nat) (vm : VM) : Res VM :=
  match n with
  | 0 => .ok vm
  | n + 1 =>
    match steps n vm with
    | .ok v => if v.gc.lastGCPass + 2 < 4294967296 then
        match iterate Sample.F Sample.H v with
        | .ok (_, w) => .ok w
        | .ub k => .ub k
      else .ub .fuel
    | .ub k => .ub k

theorem ready_life {a : String} {s s' : CS} (h : Life Sample.F Sample.H s) (r : ready a s = .ok s') : Life Sample.F Sample.H s' := by
  unfold ready at r
  split at r
  · next x s1 e1 =>
    split at r
    · next y s2 e2 => cases r; exact Later.finish (Later.script h e1) e2
    · cases r
  · cases r

theorem steps_run (n : Nat) {vm vm' : VM} (r : steps n vm = .ok vm') : Run Sample.F Sample.H vm vm' := by
  induction n generalizing vm' with
  | zero => cases r; exact .refl
  | succ n ih =>
    unfold steps at r
    split at r
    · next v e =>
      split at r
      · next hp =>
        split at r
        · next x w e2 => cases r; exact (ih e).step hp e2
        · cases r
      · cases r
    · cases r

/-- Ten instructions of one script, then another script and five more instructions. -/
def story (a b : String) : Res CS :=
  match ready a (createCompiler VM.create) with
  | .ok s => match steps 10 s.vm with
    | .ok vm => match ready b { s with vm := vm } with
      | .ok s => match steps 5 s.vm with
        | .ok vm => .ok { s with vm := vm }
        | .ub k => .ub k
      | .ub k => .ub k
    | .ub k => .ub k
  | .ub k => .ub k

theorem story_life {a b : String} {s : CS} (h : story a b = .ok s) : Life Sample.F Sample.H s := by
  unfold story at h
  split at h
  · next s1 e1 =>
    split at h
    · next v1 e2 =>
      split at h
      · next s2 e3 =>
        split at h
        · next v2 e4 =>
          cases h
          exact Later.run (ready_life (Later.run (ready_life (Later.now (F := Sample.F) (H := Sample.H)) e1) (steps_run 10 e2)) e3) (steps_run 5 e4)
        · cases h
      · cases h
    · cases h
  · cases h

/-- The sample host meets both contracts. -/
example : HostOK Sample.H (fun _ => False) ∧ NoCompiling Sample.H :=
  ⟨fun _ _ _ h _ => h, fun _ _ _ _ _ e => by cases e; exact .refl _⟩

/-- Such a life: the first script declares five variables, so that the space for them has to grow, and the second uses one. -/
example : Res.test (story "var a = 1; var b = 2; var c = 3; var d = 4; var e = \"x\";" "b = b + 40;")
    (fun s => s.vm.errors = [] ∧ s.vm.statics.length = 8 ∧ s.vm.statics.take 3 = [.int 1, .int 2, .int 3]) = true := by
  decide +kernel

end Nk.Props
