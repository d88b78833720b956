import Verif.Props.Repl
import Verif.Props.Shrink
import Verif.Props.Save
/-!
# C78: functions stay what they are

A function value is an id.  The code of the function and the number of its arguments are found through the entry with that id, when it is
called.
-/
namespace Nk.Props
open Nk.Spec Nk.Cc

variable {F : FloatOps} {H : Host}

/-- The ids of functions in `s` stand for the same functions in `t`, and the code that was there is the same. -/
structure KeepsFunctions (s t : CS) : Prop where
  functions : ∀ (id : Nat) (f : Func), s.vm.functions[id]? = some f → t.vm.functions[id]? = some f
  code : ∀ i, i < s.write → t.vm.instrs[i]? = s.vm.instrs[i]?

theorem prefix_get {α : Type} {l m : List α} (h : l <+: m) {i : Nat} {a : α} (e : l[i]? = some a) : m[i]? = some a := by
  obtain ⟨hi, rfl⟩ := List.getElem?_eq_some_iff.mp e
  exact List.prefix_iff_getElem?.mp h i hi

/-- **C78.** Whatever is done with a compiler and its VM later: scripts are compiled, which may define functions and may fail,
native functions are declared, the program runs. -/
theorem C78_stays {s s' : CS} (h : Session F s) (a : Cc.After F s s') : KeepsFunctions s s' := by
  have := (Cc.After.inv h.idle (Z := Base.kept _) ⟨Nat.le_refl _, rfl⟩ (h.idle.kept _) a).2
  exact ⟨fun id f e => prefix_get this.funs e, this.base⟩

/-- **C78**, for VMs that are created, used and run in any way. -/
theorem C78_life {K : UB → Prop} (hH : HostOK H K) (hC : NoCompiling H) {s s' : CS} (h : Life F H s) (l : Later F H s s') : KeepsFunctions s s' :=
  C78_stays (C67_session hH hC h) (l.after hH hC (h.tidy hH hC))

/-- **C78**, interactive sessions: after the errors of a line were cleared, the functions from before the line are what they were. -/
theorem C78_cleared {s s' t : CS} (h : Session F s) (a : Cc.After F s s') (r : clearRepl s.write s' = .ok ((), t)) : KeepsFunctions s t := by
  obtain ⟨k1, k2⟩ := C78_stays h a
  obtain ⟨e, _⟩ := clearRepl_frame r
  obtain ⟨_, ev⟩ := clearReplErrors_frame e
  refine ⟨fun id f hf => ?_, fun i hi => ?_⟩
  · rw [ev]; exact k1 id f hf
  · rw [ev]
    exact (List.getElem?_set_ne (by omega)).trans (k2 i hi)

/-- **C78**, making the tables smaller. -/
theorem C78_shrink {vm vm' : VM} (h : HeapWF vm) (hn : NoDangling vm) (ho : OthersPinned vm) (hh : HandlesCounted vm)
    (e : shrinkVM vm = .ok vm') : vm'.functions = vm.functions ∧ vm'.instrs = vm.instrs := by
  obtain ⟨w, r, h1, h2, _⟩ := C57_partial h hn ho hh
  rw [h1] at e
  cases e
  rw [h2.rest]
  exact ⟨rfl, rfl⟩

/-- **C78**, saving and loading: the same, but for the number of a native function, which is the one registered under the same name. -/
theorem C78_save {vm v vm' v' : VM} {img : Bytes} (h : Save.Saveable vm) (ht : Save.Target vm v) (hreg : Save.Registered vm v.extFuncs)
    (hs : Save.save vm = .ok ((true, img), vm')) (hl : Save.load F img v = .ok ((some (), []), v')) :
    v'.instrs = vm.instrs ∧ v'.functions.length = vm.functions.length ∧ ∀ (id : Nat) (f : Func), vm.functions[id]? = some f →
      ∃ f', v'.functions[id]? = some f' ∧ Save.SameFunc vm.extFuncs v'.extFuncs f f' := by
  obtain ⟨img', w, h1, h2, r, _⟩ := C36_save_load_partial (F := F) h ht hreg
  rw [h1] at hs
  cases hs
  rw [h2] at hl
  cases hl
  exact ⟨r.instrs.1, r.functions⟩

/-! ## A case -/

/-- A script defines a function of two arguments and stores it; the next one defines another function and has a mistake. -/
theorem two_functions : Res.test (ready "function f(a, b) { return a; } var g = f;" (createCompiler VM.create)) (fun s =>
    s.vm.functions.map (·.argc) = [2] ∧ s.vm.errors = [] ∧
    Res.test (ready "function h(a) { return 1; } h(" s) (fun s' => s'.vm.errors ≠ [] ∧ s'.vm.functions.map (·.argc) = [2, 1] ∧
      s'.vm.functions[0]? = s.vm.functions[0]? ∧ s'.vm.functions[0]? ≠ s'.vm.functions[1]?) = true) = true := by decide +kernel

/-- Which is one of the lives that `C78_life` is about. -/
example : ∃ s s', Life Sample.F Sample.H s ∧ Later Sample.F Sample.H s s' ∧ s.vm.functions ≠ [] ∧ s'.vm.errors ≠ [] ∧
    s'.vm.functions.length = 2 ∧ KeepsFunctions s s' := by
  obtain ⟨s, e1, h1, _, h⟩ := test_ok two_functions
  obtain ⟨s', e2, h3, h4, _⟩ := test_ok h
  have l1 : Life Sample.F Sample.H s := ready_life (Later.now (F := Sample.F) (H := Sample.H)) e1
  have l2 : Later Sample.F Sample.H s s' := by
    unfold ready at e2
    split at e2
    · next x s1 k1 =>
      split at e2
      · next y s2 k2 => cases e2; exact Later.finish (Later.script .now k1) k2
      · cases e2
    · cases e2
  refine ⟨s, s', l1, l2, fun hn => ?_, h3, ?_, C78_life (K := fun _ => False) (fun _ _ _ h _ => h)
    (fun _ _ _ _ _ e => by cases e; exact .refl _) l1 l2⟩
  · rw [hn] at h1; cases h1
  · have := congrArg List.length h4
    rwa [List.length_map] at this

end Nk.Props
