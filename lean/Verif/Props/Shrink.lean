import Verif.Lemmas.ShrinkField
import Verif.Props.GC
/-!
# C57: shrinking the VM renames consistently
-/
namespace Nk.Props
variable (F : FloatOps)

/-- **C57** (partial): if nothing dangles and coroutines other than the running one have nothing on their stacks that could be moved, then
shrinking succeeds, and the VM is the same but for the ids of objects and strings: every variable, every slot of every stack and every
key and field of an object refers to the same object, or to a string with the same text, and ids the host holds are unchanged.  Whatever a
VM relies on between operations holds again.

What is missing: coroutines with movable values on their stacks (`C57_violated_coroutine`). -/
theorem C57_partial {vm : VM} (h : HeapWF vm) (hn : NoDangling vm) (ho : OthersPinned vm) (hh : HandlesCounted vm) :
    ∃ vm' r, shrinkVM vm = .ok vm' ∧ Renamed r vm vm' ∧ HeapWF vm' ∧ NoDangling vm' ∧ OthersPinned vm' :=
  shrinkVM_run h hn ho hh

/-- **C57** (partial): and looking up a field then gives what it gave before.

What is missing: keys that are objects whose id has changed (`C57_violated_key`). -/
theorem C57_fields_partial {vm : VM} (h : HeapWF vm) (hn : NoDangling vm) (ho : OthersPinned vm) (hh : HandlesCounted vm) :
    ∃ vm' r, shrinkVM vm = .ok vm' ∧ Renamed r vm vm' ∧
      ∀ (id : Nat) (key : Value) (x : Option Value) (vm1 : VM), Live vm id → Refers vm key → (∀ n, key = .obj n → r.obj n = n) →
        lookupField F id key vm = .ok (x, vm1) → lookupField F (r.obj id) (r.val key) vm' = .ok (x.map r.val, vm') := by
  obtain ⟨vm', r, h1, h2, h3, _⟩ := shrinkVM_run h hn ho hh
  exact ⟨vm', r, h1, h2, fun id key x vm1 hl hk hm hx => (lookup_renamed F h2 hn h.str.tab h3.str.tab h.tab h3.tab hl hk hm hx).2⟩

/-! ## What fails -/

/-- Three objects; the second has 5 under the third as its key; the second and third are kept in variables, the first is collected. -/
def keyed : M Unit := do
  let _ ← newObj
  let (b, ib) ← newObj
  let (k, _) ← newObj
  storeField Sample.F ib k (.int 5)
  modify fun vm => { vm with statics := [b, k] }
  garbageCollect Sample.H

/-- Two objects and a coroutine that was given the second as its argument and is kept in a variable; the first is collected. -/
def suspended : M Unit := do
  let _ ← newObj
  let (b, _) ← newObj
  push (.fn 0)
  push b
  push (.int 1)
  opCoroutineCreate Sample.F Sample.H
  let co ← pop
  modify fun vm => { vm with statics := [co, .nil] }
  garbageCollect Sample.H

/-- A VM with one function. -/
def oneFunction : VM := { VM.create with functions := [{ argc := 1, first := 0, extId := UINT_MAX }] }

/-- Run, shrink: the states before and after shrinking. -/
def shrunk (m : M Unit) (vm : VM) : Res (VM × VM) :=
  match m vm with
  | .ok (_, vm) => match shrinkVM vm with
    | .ok vm' => .ok (vm, vm')
    | .ub k => .ub k
  | .ub k => .ub k

theorem shrunk_test {m : M Unit} {vm0 : VM} {P : VM → VM → Bool} (h : (shrunk m vm0).test (fun p => P p.1 p.2)) :
    ∃ vm vm', m vm0 = .ok ((), vm) ∧ shrinkVM vm = .ok vm' ∧ P vm vm' = true := by
  unfold shrunk at h
  cases h1 : m vm0 with
  | ub k => rw [h1] at h; cases h
  | ok p =>
    rw [h1] at h
    simp only at h
    cases h2 : shrinkVM p.2 with
    | ub k => rw [h2] at h; cases h
    | ok q => rw [h2] at h; exact ⟨p.2, q, rfl, h2, h⟩

/-- **C57** fails for keys: a field under an object as its key is not found any more.  The key's new id leads to another bucket, and the
object's elements stay where they are. -/
theorem C57_violated_key : ∃ vm vm' b k b' k', keyed VM.create = .ok ((), vm) ∧ shrinkVM vm = .ok vm' ∧
    vm.statics = [.obj b, k] ∧ lookupField Sample.F b k vm = .ok (some (.int 5), vm) ∧
    vm'.statics = [.obj b', k'] ∧ lookupField Sample.F b' k' vm' = .ok (none, vm') := by
  obtain ⟨vm, vm', h1, h2, h3⟩ := shrunk_test (m := keyed) (vm0 := VM.create) (P := fun vm vm' =>
    decide (vm.statics = [.obj 1, .obj 2] ∧ lookupField Sample.F 1 (.obj 2) vm = .ok (some (.int 5), vm) ∧
      vm'.statics = [.obj 0, .obj 1] ∧ lookupField Sample.F 0 (.obj 1) vm' = .ok (none, vm'))) (by decide +kernel)
  obtain ⟨a, b, c, d⟩ := of_decide_eq_true h3
  exact ⟨vm, vm', 1, .obj 2, 0, .obj 1, h1, h2, a, b, c, d⟩

/-- **C57** fails for coroutines: one that is not running keeps the old id on its stack, where there is no object any more.  So the state
after shrinking is not the state before under any renaming. -/
theorem C57_violated_coroutine : ∃ vm vm', suspended oneFunction = .ok ((), vm) ∧ shrinkVM vm = .ok vm' ∧ vm'.errors = [] ∧
    (∃ c, vm'.ctxs[1]? = some (some c) ∧ .obj 1 ∈ c.stack.used ∧ Live vm 1 ∧ ¬ Live vm' 1) ∧ ¬ ∃ r, Renamed r vm vm' := by
  obtain ⟨vm, vm', h1, h2, h3⟩ := shrunk_test (m := suspended) (vm0 := oneFunction) (P := fun vm vm' =>
    decide (vm'.errors = [] ∧ (vm.objects.entry 1).isSome = true ∧ vm'.objects.entry 1 = none ∧
      ((vm.ctxs[1]?).join.map fun c : Ctx => c.stack.used) = some [Value.fn 0, .obj 1, .int 1, .int 4294967295] ∧
      ((vm'.ctxs[1]?).join.map fun c : Ctx => c.stack.used) = some [Value.fn 0, .obj 1, .int 1, .int 4294967295])) (by decide +kernel)
  obtain ⟨a, b, c, d, e⟩ := of_decide_eq_true h3
  have hj : ∀ (v : VM) (l : List Value), ((v.ctxs[1]?).join.map fun c : Ctx => c.stack.used) = some l →
      ∃ x, v.ctxs[1]? = some (some x) ∧ x.stack.used = l := by
    intro v l h
    cases hx : v.ctxs[1]? with
    | none => rw [hx] at h; cases h
    | some o =>
      cases o with
      | none => rw [hx] at h; cases h
      | some y => rw [hx] at h; exact ⟨y, rfl, by simpa using h⟩
  obtain ⟨o, ho⟩ := Option.isSome_iff_exists.mp b
  obtain ⟨x, hx, hl⟩ := hj vm _ d
  obtain ⟨y, hy, hm⟩ := hj vm' _ e
  refine ⟨vm, vm', h1, h2, a, ⟨y, hy, by rw [hm]; decide, ⟨o, ho⟩, fun ⟨o', h⟩ => by rw [c] at h; cases h⟩, ?_⟩
  rintro ⟨r, hr⟩
  obtain ⟨s, k1, _, k3, _⟩ := hr.stacks 1 x hx
  rw [hy] at k1
  cases k1
  rw [hl] at k3
  have k3 := hm.symm.trans k3
  have k : r.obj 1 = 1 := by
    have := congrArg (fun l => l[1]?) k3
    simpa [Ren.val] using this.symm
  have := hr.objs 1 o ho
  rw [k, c] at this
  cases this

/-! ## A concrete case -/

/-- An object with a string under a string, a variable for it, another variable for a second object, and holes before them. -/
def holed : VM := { VM.create with
  objects := { slots := [none, some { Obj.init with buckets := (List.replicate 16 []).set (stringHash (cs "k") &&& 15) [(.str 1, .obj 3)], size := 1 }, none,
    some { Obj.init with handleCount := 1 }], cap := 4, holes := [0, 2] }
  handles := [3]
  strings := { slots := [none, some { str := cs "k", hash := stringHash (cs "k"), lastGCPass := 0, dontGC := false }], cap := 2, holes := [0] }
  sbuckets := (List.replicate 256 []).set (stringHash (cs "k") &&& 255) [1]
  statics := [.obj 1, .str 1] }

theorem holed_obj {i : Nat} {o : Obj} (h : holed.objects.entry i = some o) :
    (i = 1 ∧ o.extType = UINT_MAX ∧ o.lastGCPass = 0 ∧ ∀ es ∈ o.buckets, ∀ e ∈ es, e = (.str 1, .obj 3)) ∨
    (i = 3 ∧ o.handleCount = 1 ∧ o.extType = UINT_MAX ∧ o.lastGCPass = 0 ∧ ∀ es ∈ o.buckets, ∀ e ∈ es, e = (.str 1, .obj 3)) := by
  match i with
  | 0 => cases h
  | 1 => cases h; exact .inl ⟨rfl, rfl, rfl, by decide +kernel⟩
  | 2 => cases h
  | 3 => cases h; exact .inr ⟨rfl, rfl, rfl, rfl, by decide +kernel⟩
  | n + 4 => cases h

theorem holed_str {i : Nat} {e : Str} (h : holed.strings.entry i = some e) :
    i = 1 ∧ e = { str := cs "k", hash := stringHash (cs "k"), lastGCPass := 0, dontGC := false } := by
  match i with
  | 0 => cases h
  | 1 => cases h; exact ⟨rfl, rfl⟩
  | n + 2 => cases h

theorem holed_bucket {b : Nat} {ids : List Nat} (h : holed.sbuckets[b]? = some ids) :
    (b = stringHash (cs "k") &&& 255 ∧ ids = [1]) ∨ ids = [] := by
  have h : ((List.replicate 256 []).set (stringHash (cs "k") &&& 255) [1])[b]? = some ids := h
  rw [List.getElem?_set] at h
  split at h
  · rename_i e
    split at h
    · cases h; exact .inl ⟨e.symm, rfl⟩
    · cases h
  · rw [List.getElem?_replicate] at h
    split at h
    · cases h; exact .inr rfl
    · cases h

theorem holed_wf : HeapWF holed := by
  have hc := create_heapWF
  refine ⟨⟨⟨rfl, ⟨1, by decide, rfl⟩, by decide, ?_⟩, by decide +kernel, ?_, ?_, ?_, ?_, ?_⟩, ⟨rfl, ⟨2, by decide, rfl⟩, by decide, ?_⟩,
    ⟨hc.co.root, hc.co.stack, ?_, ?_, hc.co.chain, hc.co.type⟩, rfl, ?_, ?_, ?_⟩
  · intro i
    match i with
    | 0 => decide
    | 1 => exact ⟨fun h => absurd h (by decide), fun h => by cases h⟩
    | n + 2 => exact ⟨fun h => by simpa using (show n + 2 ∈ [0] from h), fun h => by cases h⟩
  · intro b ids h
    rcases holed_bucket h with ⟨_, rfl⟩ | rfl <;> decide
  · intro b ids h id hid
    rcases holed_bucket h with ⟨rfl, rfl⟩ | rfl
    · rw [List.mem_singleton] at hid
      subst hid
      exact ⟨_, rfl, rfl⟩
    · cases hid
  · intro id e h
    rw [(holed_str h).2]
  · intro id e h
    rw [(holed_str h).2, (holed_str h).1]
    refine ⟨[1], ?_, by decide⟩
    show ((List.replicate 256 []).set (stringHash (cs "k") &&& 255) [1])[stringHash (cs "k") &&& 255]? = some [1]
    decide +kernel
  · intro i j e e' h h' _
    rw [(holed_str h).1, (holed_str h').1]
  · intro i
    match i with
    | 0 => decide
    | 1 => exact ⟨fun h => absurd h (by decide), fun h => by cases h⟩
    | 2 => decide
    | 3 => exact ⟨fun h => absurd h (by decide), fun h => by cases h⟩
    | n + 4 => exact ⟨fun h => by simpa using (show n + 4 ∈ [0, 2] from h), fun h => by cases h⟩
  · intro id o h ht
    have : o.extType = UINT_MAX := by rcases holed_obj h with h | h; exact h.2.1; exact h.2.2.1
    rw [this] at ht
    exact absurd ht (by decide)
  · intro i c hi h
    match i with
    | 0 => exact absurd rfl hi
    | n + 1 => cases h
  · intro id hid
    have hid : id ∈ [3] := hid
    rw [List.mem_singleton] at hid
    subst hid
    exact ⟨_, rfl⟩
  · intro id o h
    have : o.lastGCPass = 0 := by rcases holed_obj h with h | h; exact h.2.2.1; exact h.2.2.2.1
    rw [this]; exact Nat.zero_le _
  · intro id e h
    rw [(holed_str h).2]; exact Nat.zero_le _

/-- The hypotheses of the theorems hold for it. -/
theorem holed_ok : HeapWF holed ∧ NoDangling holed ∧ OthersPinned holed ∧ HandlesCounted holed := by
  have hr : Refers holed (.obj 1) ∧ Refers holed (.str 1) ∧ Refers holed (.obj 3) := ⟨⟨_, rfl⟩, ⟨_, rfl⟩, ⟨_, rfl⟩⟩
  have hctx : ∀ (i : Nat) (c : Ctx), holed.ctxs[i]? = some (some c) → i = 0 ∧ c.stack.used = [] := by
    intro i c h
    match i with
    | 0 => cases h; exact ⟨rfl, rfl⟩
    | n + 1 => cases h
  refine ⟨holed_wf, ?_, ?_, ?_⟩
  · intro v hv
    cases hv with
    | static h =>
      have h : v ∈ [Value.obj 1, .str 1] := h
      simp only [List.mem_cons, List.not_mem_nil, or_false] at h
      rcases h with rfl | rfl
      · exact hr.1
      · exact hr.2.1
    | stack hc h => rw [(hctx _ _ hc).2] at h; cases h
    | key ho h1 h2 =>
      rcases holed_obj ho with h | h
      · rw [h.2.2.2 _ h1 _ h2]; exact hr.2.1
      · rw [h.2.2.2.2 _ h1 _ h2]; exact hr.2.1
    | field ho h1 h2 =>
      rcases holed_obj ho with h | h
      · rw [h.2.2.2 _ h1 _ h2]; exact hr.2.2
      · rw [h.2.2.2.2 _ h1 _ h2]; exact hr.2.2
  · intro i c hi h
    exact absurd (hctx i c h).1 hi
  · intro id hid
    have hid : id ∈ [3] := hid
    rw [List.mem_singleton] at hid
    subst hid
    exact ⟨_, rfl, by decide⟩

/-- The first object moves to 0, the string moves to 0, the object the host holds stays, the string table shrinks to one slot. -/
example : (shrinkVM holed).test (fun vm => decide (vm.statics = [.obj 0, .str 0] ∧
    (vm.objects.slots.map Option.isSome = [true, false, false, true]) ∧ vm.strings.cap = 1 ∧
    lookupField Sample.F 0 (.str 0) vm = .ok (some (.obj 3), vm))) := by decide +kernel

end Nk.Props
