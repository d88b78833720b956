import Verif.Lemmas.ShrinkAgain
import Verif.Props.Shrink

/-! # C82: shrinking gives memory back -/

namespace Nk.Props
open Nk

/-- **C82**: after shrinking a VM without errors, an object that lies after an empty slot of the object table is one that must not be
moved: the host has a handle to it, or it is a coroutine. -/
theorem C82_objects {vm vm' : VM} (h : HeapWF vm) (he : vm.errors = []) (e : shrinkVM vm = .ok vm') {i j : Nat} {o : Obj}
    (hij : i < j) (hi : vm'.objects.entry i = none) (hj : vm'.objects.entry j = some o) : o.Pinned vm' := by
  have hh := (shrinkVM_tight h he e).1 i j hij (by simp [status, hi])
  simp only [status, hj, Option.map_some, mayMoveObj, ne_eq, Option.some.injEq, Bool.and_eq_true, beq_iff_eq, bne_iff_ne] at hh
  unfold Obj.Pinned
  by_cases hc : o.handleCount = 0
  · exact .inr (Classical.byContradiction fun hn => hh ⟨hc, hn⟩)
  · exact .inl hc

/-- **C82**: and a string that lies after an empty slot of the string table is protected, since the code or the compiler refers to it. -/
theorem C82_strings {vm vm' : VM} (h : HeapWF vm) (he : vm.errors = []) (e : shrinkVM vm = .ok vm') {i j : Nat} {s : Str}
    (hij : i < j) (hi : vm'.strings.entry i = none) (hj : vm'.strings.entry j = some s) : s.dontGC = true := by
  have hh := (shrinkVM_tight h he e).2.1 i j hij (by simp [status, hi])
  simpa [status, hj, mayMoveStr] using hh

/-- **C82**: no table gets larger, and of each table the upper half is in use, so that a table of half the size would not do (unless the
table has only one slot). -/
theorem C82_tables {vm vm' : VM} (h : HeapWF vm) (he : vm.errors = []) (e : shrinkVM vm = .ok vm') :
    vm'.objects.cap ≤ vm.objects.cap ∧ (vm'.objects.cap = 1 ∨ ∃ i o, vm'.objects.cap / 2 ≤ i ∧ vm'.objects.entry i = some o) ∧
    vm'.strings.cap ≤ vm.strings.cap ∧ (vm'.strings.cap = 1 ∨ ∃ i s, vm'.strings.cap / 2 ≤ i ∧ vm'.strings.entry i = some s) := by
  obtain ⟨-, -, h1, h2, h3, h4, -⟩ := shrinkVM_tight h he e
  exact ⟨h1, h2, h3, h4⟩

/-- **C82**: no stack gets larger, and the stacks of the main program and of all coroutines are at least half full (or have only one
slot). -/
theorem C82_stacks {vm vm' : VM} (h : HeapWF vm) (he : vm.errors = []) (e : shrinkVM vm = .ok vm') :
    (∀ (k : Nat) (c' : Ctx), vm'.ctxs[k]? = some (some c') → ∃ c, vm.ctxs[k]? = some (some c) ∧ c'.stack.cap ≤ c.stack.cap) ∧
    (∀ c, vm'.ctxs[0]? = some (some c) → c.stack.cap = 1 ∨ c.stack.cap / 2 ≤ c.stack.size) ∧
    (∀ (id k : Nat) (o : Obj) (c : Ctx), vm'.objects.entry id = some o → o.extType = vm'.coType → o.extData = some k →
      vm'.ctxs[k]? = some (some c) → c.stack.cap = 1 ∨ c.stack.cap / 2 ≤ c.stack.size) := by
  obtain ⟨-, -, -, -, -, -, h1, h2, h3⟩ := shrinkVM_tight h he e
  refine ⟨fun k c' hk => ?_, h2, fun id k o c hid ht hd => h3 id k o hid ht hd c⟩
  obtain ⟨c, hc, hle, -⟩ := h1 k c' hk
  exact ⟨c, hc, hle⟩

/-- **C82**: so, where the host has no handles and there are no coroutines, the first half of the object table has no empty slot. -/
theorem C82_half {vm vm' : VM} (h : HeapWF vm) (he : vm.errors = []) (e : shrinkVM vm = .ok vm')
    (hp : ∀ i o, vm'.objects.entry i = some o → ¬ o.Pinned vm') :
    vm'.objects.cap = 1 ∨ ∀ i, i < vm'.objects.cap / 2 → vm'.objects.entry i ≠ none := by
  rcases (C82_tables h he e).2.1 with h1 | ⟨p, o, hle, ho⟩
  · exact .inl h1
  · exact .inr fun i hi hn => hp p o ho (C82_objects h he e (by omega) hn ho)

/-- **C82**: there is nothing more to be had: shrinking the VM again changes nothing at all. -/
theorem C82_again {vm vm' : VM} (h : HeapWF vm) (e : shrinkVM vm = .ok vm') : shrinkVM vm' = .ok vm' :=
  shrinkVM_again h e

/-! ## A concrete case -/

/-- `holed` (Props/Shrink) is a consistent VM without errors that can be shrunk.  The object the host holds is after empty slots, and the
string table goes down from two slots to one. -/
example : HeapWF holed ∧ holed.errors = [] ∧ ∃ vm', shrinkVM holed = .ok vm' :=
  ⟨holed_wf, rfl, by obtain ⟨vm', -, h, -⟩ := C57_partial holed_ok.1 holed_ok.2.1 holed_ok.2.2.1 holed_ok.2.2.2; exact ⟨vm', h⟩⟩

/-- The same VM with the handle given back: the two objects move to the front, and the table goes down from four slots to two. -/
example : (shrinkVM { holed with handles := [], objects := { holed.objects with
      slots := holed.objects.slots.map fun o => o.map fun o => { o with handleCount := 0 } } }).test (fun vm =>
    decide (vm.objects.slots.map Option.isSome = [true, true] ∧ vm.objects.cap = 2 ∧ vm.strings.cap = 1 ∧ vm.statics = [.obj 0, .str 0])) := by
  decide +kernel

/-- A coroutine that has yielded: the stack of the main program, which is empty, goes down from four slots to one; that of the coroutine
is full and stays. -/
example : (suspended oneFunction).test (fun (_, vm) => (shrinkVM vm).test fun vm' =>
    decide (vm.ctxs.map (fun (c : Option Ctx) => c.map fun (c : Ctx) => (c.stack.size, c.stack.cap)) = [some (0, 4), some (4, 4)] ∧
      vm'.ctxs.map (fun (c : Option Ctx) => c.map fun (c : Ctx) => (c.stack.size, c.stack.cap)) = [some (0, 1), some (4, 4)])) := by
  decide +kernel

end Nk.Props
