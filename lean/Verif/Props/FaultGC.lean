import Verif.Lemmas.FaultGC
import Verif.Props.Fault
import Verif.Props.GC
/-!
# C83, collections: running out of memory anywhere in a collection

Memory can run out while objects and strings are marked, while strings are deleted, and while objects are deleted.
-/
namespace Nk.Props
open Nk
variable (H : Host)

/-- **C83**, collecting: wherever in a collection memory runs out, every reachable object is there with everything it holds.  For every
object with external data of a type with a cleanup function, either its cleanup function has not been called, and iterating delivers the
object, which is as it was; or the object was not reachable, its cleanup function has been called, exactly once and with its data, and
iterating does not deliver it.  (`lastGCPass` is the number of the last collection that reached the object.) -/
theorem C83_collect {vm vm' : VM} {k : Nat} (hw : HeapWF vm) (hp : vm.gc.lastGCPass + 1 < 4294967296)
    (h : garbageCollectF H k vm = .failed vm') :
    (∀ id o, Reach H vm (.obj id) → vm.objects.entry id = some o → ∃ p, vm'.objects.entry id = some { o with lastGCPass := p }) ∧
    ∃ calls, vm'.cleanupLog = calls ++ vm.cleanupLog ∧ ∀ type, ∃ ids, Visits vm'.objects type 0 ids ∧ ids.Pairwise (· < ·) ∧
      (∀ id ∈ ids, ∃ o, vm.objects.entry id = some o ∧ o.extType = type) ∧
      ∀ id o, vm.objects.entry id = some o → o.extType = type → HasCleanup vm o →
        (id ∈ ids ∧ (∃ p, vm'.objects.entry id = some { o with lastGCPass := p }) ∧ calls.filter (fun e => e.1 = id) = []) ∨
        (id ∉ ids ∧ vm'.objects.entry id = none ∧ ¬ Reach H vm (.obj id) ∧
          calls.filter (fun e => e.1 = id) = [(id, type, o.extData)]) := by
  have hst : (garbageCollectF H k vm).state = some vm' := by rw [h]; rfl
  have hre : ∀ id o, Reach H vm (.obj id) → vm.objects.entry id = some o →
      ∃ p, vm'.objects.entry id = some { o with lastGCPass := p } := fun id o hr ho => garbageCollectF_reach hw hp hst hr ho
  obtain ⟨v, l, h1, hs, -⟩ := garbageCollectF_state hw.tab.len hst
  refine ⟨hre, l, by rw [hs.log, h1.log], fun type => ?_⟩
  obtain ⟨ids, i1, i2, i3⟩ := visits_same hs.len (fun _ => rfl) type
  have hback : ∀ id o', v.objects.entry id = some o' → ∃ o p, vm.objects.entry id = some o ∧ o' = { o with lastGCPass := p } := by
    intro id o' he
    obtain ⟨p, hpe⟩ := h1.objs id
    rw [he] at hpe
    cases ho : vm.objects.entry id with
    | none => rw [ho] at hpe; cases hpe
    | some o => rw [ho] at hpe; cases hpe; exact ⟨o, _, rfl, rfl⟩
  refine ⟨ids, i1, i2, fun id hid => ?_, fun id o ho ht hc => ?_⟩
  · obtain ⟨o, ho, ht⟩ := (i3 id).mp hid
    obtain ⟨o2, p, k1, rfl⟩ := hback id o (hs.kept id o ho).1
    exact ⟨o2, k1, ht⟩
  · obtain ⟨p, hpe⟩ := h1.objs id
    rw [ho] at hpe
    have hpe : v.objects.entry id = some { o with lastGCPass := p o.lastGCPass } := hpe
    cases he : vm'.objects.entry id with
    | some o' =>
      obtain ⟨k1, k2⟩ := hs.kept id o' he
      rw [hpe] at k1
      cases k1
      refine .inl ⟨(i3 id).mpr ⟨_, he, ht⟩, ⟨_, rfl⟩, ?_⟩
      rw [List.filter_eq_nil_iff]
      intro e he'
      simpa using k2 e he'
    | none =>
      refine .inr ⟨fun hid => ?_, rfl, fun hr => ?_, ?_⟩
      · obtain ⟨o', ho', -⟩ := (i3 id).mp hid
        rw [he] at ho'
        cases ho'
      · obtain ⟨p, hq⟩ := hre id o hr ho
        rw [he] at hq
        cases hq
      · rw [← ht]
        have hcv : HasCleanup v { o with lastGCPass := p o.lastGCPass } := by
          obtain ⟨c1, c2⟩ := hc
          exact ⟨c1, by rw [h1.types]; exact c2⟩
        exact (hs.gone id _ hpe he).1 hcv

/-- **C83**: a collection in which memory can run out is that of the rest of the model, as long as it does not run out. -/
theorem C83_collect_agrees (vm : VM) (k : Nat) : (garbageCollectF H k vm).Agrees (garbageCollect H vm) :=
  (garbageCollectF_agr H).run k vm

/-! ## Concrete cases -/

/-- The heap of `sampleHeap`: objects 0 and 1 refer to each other and are not reachable, 0 has data 7 of a type with a cleanup function;
2 and 3 are reachable.  `k` allocations succeed: what is left of the objects, and the cleanup calls. -/
def collectWith (k : Nat) : Option (Bool × List Bool × List (Nat × Nat × Option Nat)) :=
  match sampleHeap VM.create with
  | .ok (_, vm) => match garbageCollectF Sample.H k vm with
    | .failed vm => some (false, [0, 1, 2, 3].map (fun i => (vm.objects.entry i).isSome), vm.cleanupLog)
    | .done _ _ vm => some (true, [0, 1, 2, 3].map (fun i => (vm.objects.entry i).isSome), vm.cleanupLog)
    | .ub _ => none
  | .ub _ => none

/-- The outcome of `collectWith` is the given one. -/
def outcome (k : Nat) (done : Bool) (objs : List Bool) (calls : List (Nat × Nat × Option Nat)) : Bool :=
  match collectWith k with
  | some (a, b, c) => decide (a = done) && decide (b = objs) && decide (c = calls)
  | none => false

/-- Memory runs out while marking (two entries of the list of objects to visit) or deleting a string: nothing has been deleted. -/
example : (outcome 0 false [true, true, true, true] [] && outcome 1 false [true, true, true, true] [] &&
    outcome 2 false [true, true, true, true] []) = true := by decide +kernel

/-- It runs out while the first object is deleted, and while the second is. -/
example : (outcome 3 false [false, true, true, true] [(0, 1, some 7)] &&
    outcome 4 false [false, false, true, true] [(0, 1, some 7)]) = true := by decide +kernel

/-- Five allocations are enough. -/
example : outcome 5 true [false, false, true, true] [(0, 1, some 7)] = true := by decide +kernel

/-- The hypotheses hold for a new VM, and executing programs keeps them (`Spec/Sandbox`). -/
example : HeapWF VM.create ∧ VM.create.gc.lastGCPass + 1 < 4294967296 := ⟨create_heapWF, by decide⟩

end Nk.Props
