import Verif.Lemmas.Fault
import Verif.Props.Registry
/-!
# C83: running out of memory loses no object

After a catastrophic failure the VM calls no cleanup functions of external types itself (C15_violation); the cleanup functions of
subsystems, which are called (C42), find the objects by `nkxGetNextObjectOfExternalType`, which works in that state.  So the object table
has to be right at every point where an allocation can fail.  `Model/Fault` has the operations with allocations that fail; `k` is how
many succeed before.
-/
namespace Nk.Props
open Nk

theorem visits_same {t t' : Table Obj} (hl : t'.slots.length = t'.cap) (he : ∀ i, t'.entry i = t.entry i) (type : Nat) :
    ∃ ids, Visits t' type 0 ids ∧ ids.Pairwise (· < ·) ∧ ∀ id, id ∈ ids ↔ ∃ o, t.entry id = some o ∧ o.extType = type := by
  obtain ⟨ids, h⟩ := visits_exists (type := type) hl t'.cap 0 (by omega)
  obtain ⟨h1, h2⟩ := visits_spec hl h
  exact ⟨ids, h, h1, fun id => by rw [h2 id, he]; simp⟩

/-- **C83**, creating: if memory runs out while an object is created, all objects are there as before, with everything they hold, and
iterating over those of any type delivers each of them once, and nothing else. -/
theorem C83_create {vm vm' : VM} {k : Nat} (hw : vm.objects.WF) (h : createObjectF vm k = .failed vm') :
    (∀ id, vm'.objects.entry id = vm.objects.entry id) ∧ vm'.cleanupLog = vm.cleanupLog ∧
    ∀ type, ∃ ids, Visits vm'.objects type 0 ids ∧ ids.Pairwise (· < ·) ∧
      ∀ id, id ∈ ids ↔ ∃ o, vm.objects.entry id = some o ∧ o.extType = type := by
  obtain ⟨h1, h2, h3, -⟩ := createObjectF_failed hw h
  exact ⟨h2, h3, visits_same h1 h2⟩

/-- **C83**, deleting: if memory runs out while a collection deletes objects, then for every object with external data of a type with a
cleanup function, either its cleanup function has been called, exactly once and with its data, and iterating does not deliver it; or it
has not been called, and iterating delivers the object, which is as it was. -/
theorem C83_sweep {vm vm' : VM} {pass k : Nat} (hw : vm.objects.WF)
    (h : cleanOldObjectsF pass 0 vm.objects.cap k vm = .failed vm') :
    ∃ calls, vm'.cleanupLog = calls ++ vm.cleanupLog ∧ ∀ type, ∃ ids, Visits vm'.objects type 0 ids ∧ ids.Pairwise (· < ·) ∧
      (∀ id ∈ ids, ∃ o, vm.objects.entry id = some o ∧ o.extType = type) ∧
      ∀ id o, vm.objects.entry id = some o → o.extType = type → HasCleanup vm o →
        (id ∈ ids ∧ vm'.objects.entry id = some o ∧ calls.filter (fun e => e.1 = id) = []) ∨
        (id ∉ ids ∧ vm'.objects.entry id = none ∧ calls.filter (fun e => e.1 = id) = [(id, type, o.extData)]) := by
  obtain ⟨l, hs⟩ := cleanOldObjectsF_swept pass _ 0 k vm vm' hw.len (by rw [h]; rfl)
  refine ⟨l, hs.log, fun type => ?_⟩
  obtain ⟨ids, h1, h2, h3⟩ := visits_same hs.len (fun _ => rfl) type
  refine ⟨ids, h1, h2, fun id hid => ?_, fun id o ho ht hc => ?_⟩
  · obtain ⟨o, ho, ht⟩ := (h3 id).mp hid
    exact ⟨o, (hs.kept id o ho).1, ht⟩
  · cases he : vm'.objects.entry id with
    | some o' =>
      obtain ⟨k1, k2⟩ := hs.kept id o' he
      rw [ho] at k1
      cases k1
      refine .inl ⟨(h3 id).mpr ⟨o, he, ht⟩, rfl, ?_⟩
      rw [List.filter_eq_nil_iff]
      intro e he'
      simpa using k2 e he'
    | none =>
      refine .inr ⟨fun hid => ?_, rfl, ?_⟩
      · obtain ⟨o', ho', -⟩ := (h3 id).mp hid
        rw [he] at ho'
        cases ho'
      · rw [← ht]
        exact (hs.gone id o ho he).1 hc

/-- **C83**, shrinking: if memory runs out while the table of objects is made smaller, all objects are there as before, and iterating
delivers each of them once. -/
theorem C83_shrink {t t' : Table Obj} {k : Nat} (hw : t.WF) (h : t.shrinkF k = .failed t') :
    (∀ id, t'.entry id = t.entry id) ∧
    ∀ type, ∃ ids, Visits t' type 0 ids ∧ ids.Pairwise (· < ·) ∧ ∀ id, id ∈ ids ↔ ∃ o, t.entry id = some o ∧ o.extType = type := by
  obtain ⟨h1, h2⟩ := Table.shrinkF_state hw.len hw.pow (by rw [h]; rfl)
  exact ⟨h2, visits_same h1 h2⟩

/-- **C83**, subsystems: if memory runs out while a subsystem is set up, then the data of every subsystem set up before is found under its
name, and when the VM is deleted the cleanup function of each of them is called exactly once, and none for the new one. -/
theorem C83_subsystem (H : Host) {vm vm' : VM} {w : List Subsystem} {s : Subsystem} {k : Nat} (hr : RegHist VM.create vm w)
    (h : initSubsystemF s vm k = .failed vm') :
    (∀ n, subsystemData vm' n = .ok ((w.find? (fun s => s.name = n)).map (·.data))) ∧
    ∃ calls vm2, destroy H true vm' = .ok (calls, vm2) ∧ ∀ n, calls.filter (fun c => c.1 = n) =
      match w.find? (fun s => s.name = n) with
      | some s => if s.hasCleanup then [(n, s.data)] else []
      | none => [] := by
  have hr' : RegHist VM.create vm' w := by
    rcases initSubsystemF_failed h with rfl | ⟨e, rfl⟩
    · exact hr
    · exact .other hr ⟨rfl, rfl, rfl, rfl, rfl⟩
  exact ⟨C42_find hr', _, _, rfl, C42_cleanup H true hr' rfl⟩

/-- **C83**: the operations in which memory can run out are those of the rest of the model, as long as it does not run out. -/
theorem C83_agrees (vm : VM) (hw : vm.objects.WF) (pass k : Nat) (s : Subsystem) :
    (initSubsystemF s vm k).Agrees (initSubsystem s vm) ∧
    (createObjectF vm k).Agrees (createObject vm) ∧
    (cleanOldObjectsF pass 0 vm.objects.cap k vm).Agrees (cleanOldObjects pass 0 vm.objects.cap vm) ∧
    (∀ k' t', vm.objects.shrinkF k = .done k' () t' → vm.objects.shrink = .ok t') := by
  refine ⟨initSubsystemF_agrees s vm k, createObjectF_agrees vm k, cleanOldObjectsF_agrees pass _ 0 k vm, fun k' t' h => ?_⟩
  have := Table.shrinkF_agrees vm.objects k hw.len
  rw [h] at this
  exact this

/-! ## Concrete cases -/

/-- Two objects with data of a type with a cleanup function, in a table without holes. -/
def brimful : VM := { VM.create with
  extTypes := VM.create.extTypes ++ [typeA]
  objects := { slots := [some { Obj.init with extType := 1, extData := some 7 }, some { Obj.init with extType := 1, extData := some 8 }],
               cap := 2, holes := [] } }

theorem brimful_wf : brimful.objects.WF where
  len := rfl
  pow := ⟨1, by decide, rfl⟩
  nodup := List.nodup_nil
  holes i := by
    match i with
    | 0 => simp [brimful]
    | 1 => simp [brimful]
    | i + 2 => simp [brimful]

/-- Both objects have cleanup functions. -/
example : ∀ id o, brimful.objects.entry id = some o → HasCleanup brimful o := by
  intro id o h
  match id with
  | 0 => cases h; exact ⟨by decide, typeA, rfl, rfl⟩
  | 1 => cases h; exact ⟨by decide, typeA, rfl, rfl⟩
  | id + 2 => simp [brimful, Table.entry] at h

/-- Both are deleted; the first hole cannot be allocated: the first object has been cleaned up, the second is still there. -/
example : (match cleanOldObjectsF 1 0 2 0 brimful with
    | .failed vm => decide (vm.objects.slots.map Option.isSome = [false, true] ∧ vm.cleanupLog = [(0, 1, some 7)] ∧
        nextOfType vm.objects 1 0 = .ok (some 1, 2))
    | _ => false) = true := by decide +kernel

/-- With two more allocations it is done. -/
example : (match cleanOldObjectsF 1 0 2 2 brimful with
    | .done k _ vm => decide (k = 0 ∧ vm.objects.slots.map Option.isSome = [false, false] ∧ vm.cleanupLog = [(1, 1, some 8), (0, 1, some 7)])
    | _ => false) = true := by decide +kernel

/-- A new object needs a larger table; the allocation of the hole for its last slot fails: both objects are there, and two empty slots. -/
example : (match createObjectF brimful 2 with
    | .failed vm => decide (vm.objects.slots.map Option.isSome = [true, true, false, false] ∧ vm.objects.cap = 4)
    | _ => false) = true := by decide +kernel

/-- One more, and the object is there. -/
example : (match createObjectF brimful 3 with
    | .done k id vm => decide (k = 0 ∧ id = 2 ∧ vm.objects.slots.map Option.isSome = [true, true, true, false] ∧ vm.objects.holes = [3])
    | _ => false) = true := by decide +kernel

/-- Shrinking a table of four slots with one object: the smaller array is allocated, its hole is not. -/
example : (match ({ slots := [none, some (7 : Nat), none, none], cap := 4, holes := [0, 2, 3] } : Table Nat).shrinkF 1 with
    | .failed t => decide (t.slots = [none, some 7] ∧ t.cap = 2)
    | _ => false) = true := by decide +kernel

/-- Setting up a second subsystem, when there is memory for the element but not for its name. -/
example : (initSubsystem { name := cs "a", data := 5, hasCleanup := true, hasSerialize := false } VM.create).test (fun r =>
    (match initSubsystemF { name := cs "b", data := 6, hasCleanup := true, hasSerialize := false } r.2 1 with
    | .failed vm => decide (subsystemData vm (cs "a") = .ok (some 5) ∧ subsystemData vm (cs "b") = .ok none ∧
        subsystemCalls vm = [(cs "a", 5)])
    | _ => false)) = true := by decide +kernel

end Nk.Props
