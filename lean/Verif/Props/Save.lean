import Verif.Lemmas.SaveReject
import Verif.Lemmas.SaveAny
import Verif.Props.Coroutine
import Mathlib.Tactic.IntervalCases
/-!
# C36 to C39 and C62: saving and loading the whole VM

`save vm` yields a success flag, the bytes handed to the host's writer and the VM afterwards.  `load F b v` reads from `b`
into the VM `v`; it yields `some ()` for success and `none` for failure, the bytes that were not read, and the VM.
-/
namespace Nk.Props
open Nk.Save

variable (F : FloatOps)

/-- What a decided test says. -/
theorem test_ok {α : Type} {r : Res α} {p : α → Prop} [DecidablePred p] (h : r.test p = true) : ∃ a, r = .ok a ∧ p a := by
  cases r with
  | ub k => cases h
  | ok a => exact ⟨a, rfl, of_decide_eq_true h⟩

theorem test_true {α : Type} {r : Res α} {p : α → Bool} (h : r.test p = true) : ∃ a, r = .ok a ∧ p a = true := by
  cases r with
  | ub k => cases h
  | ok a => exact ⟨a, rfl, h⟩

/-! ## C36 -/

/-- **C36**, everything except VMs without any function (see `C36_no_functions_violated`).  If `vm` can be saved, and `v` is a
new VM that was set up by the host in the same way and has every native function that `vm` uses, then saving succeeds and
loading the image into `v` succeeds and gives back what `vm` was: instructions, statics, strings and objects with the same
ids, the value of every field, functions, globals, errors, stacks and position of the main program and of all coroutines,
who resumed whom, source files and markers.  The loaded VM is in order, so all theorems about VMs apply to it. -/
theorem C36_save_load_partial {vm v : VM} (h : Saveable vm) (ht : Target vm v) (hreg : Registered vm v.extFuncs) :
    ∃ img v', save vm = .ok ((true, img), { vm with gc := { vm.gc with interval := min vm.gc.interval 65536 } }) ∧
      load F img v = .ok ((some (), []), v') ∧ Restored F vm v v' ∧ HeapWF v' := by
  obtain ⟨l, hp, hn, hm⟩ := Save.CoWF.path h.heap.co
  obtain ⟨r, hr, hrs, hrp, hro, hrun⟩ := ht.ctxs
  have h2 := loadPost_run (r := r) h ht hr hrun hrp hp hn []
  rw [List.append_nil] at h2
  refine ⟨_, _, save_run h hp hn, ?_, loaded_restored h ht hreg hr hrp hro hrun hp hn hm,
    loaded_heap h ht hr hrp hro hrun hp hn hm⟩
  rw [load_eq]
  exact (L.bind_some (loadPre_run h ht hreg hr hrs _)).trans h2

/-- What is missing in C36: the image of a VM that has no function can be saved but not loaded.  The VM here is a new
one; every script that defines and mentions no function gives such a VM. -/
theorem C36_no_functions_violated : ∃ img, save VM.create = .ok ((true, img), VM.create) ∧
    ∃ r v', load Sample.F img VM.create = .ok ((none, r), v') := by
  have h : (save VM.create).test (fun r => r.1.1 = true ∧ r.2 = VM.create ∧
      (load Sample.F r.1.2 VM.create).test (fun q => q.1.1 = none)) = true := by decide +kernel
  obtain ⟨⟨⟨a, img⟩, w⟩, hs, h⟩ := test_ok h
  obtain ⟨rfl, rfl, h⟩ := h
  obtain ⟨⟨⟨a, r⟩, w⟩, hl, h⟩ := test_ok h
  cases h
  exact ⟨img, hs, r, w, hl⟩

/-- Saving is not free of effects: an interval between collections above 65536 is cut down, in the image and in the VM
that is saved. -/
theorem C36_save_caps_interval {vm : VM} (h : Saveable vm) (hi : 65536 < vm.gc.interval) :
    ∃ img vm', save vm = .ok ((true, img), vm') ∧ vm'.gc.interval = 65536 := by
  obtain ⟨l, hp, hn, -⟩ := Save.CoWF.path h.heap.co
  refine ⟨_, _, save_run h hp hn, ?_⟩
  show min vm.gc.interval 65536 = 65536
  omega

/-! ## C37 -/

/-- **C37**, consumption: whatever follows the image in the host's stream, loading takes the image and nothing else, and the
result does not depend on what follows. -/
theorem C37_consumes {vm v : VM} (h : Saveable vm) (ht : Target vm v) (hreg : Registered vm v.extFuncs) {img : Bytes} {vm' : VM}
    (hs : save vm = .ok ((true, img), vm')) : ∃ v', ∀ rest, load F (img ++ rest) v = .ok ((some (), rest), v') := by
  obtain ⟨l, hp, hn, hm⟩ := Save.CoWF.path h.heap.co
  obtain ⟨r, hr, hrs, hrp, hro, hrun⟩ := ht.ctxs
  rw [save_run h hp hn] at hs
  cases hs
  refine ⟨Save.loaded vm v r (vm.cur :: l), fun rest => ?_⟩
  rw [load_eq, List.append_assoc]
  exact (L.bind_some (loadPre_run h ht hreg hr hrs _)).trans (loadPost_run h ht hr hrun hrp hp hn rest)

/-- **C37**, prefixes: if loading a strict prefix of an image reports success nevertheless, then the errors of the loaded VM
are not those that were saved, so that the host can tell.  Missing: the claim is that loading reports failure, but see
`C37_prefix_violated`. -/
theorem C37_prefix_partial {vm v : VM} (h : Saveable vm) (ht : Target vm v) (hreg : Registered vm v.extFuncs) {p q : Bytes}
    {vm' : VM} (hs : save vm = .ok ((true, p ++ q), vm')) (hq : q ≠ []) {r : Bytes} {v' : VM}
    (hl : load F p v = .ok ((some (), r), v')) : v'.errors ≠ vm.errors := by
  obtain ⟨l, hp, hn, hm⟩ := Save.CoWF.path h.heap.co
  obtain ⟨c, hr, hrs, hrp, hro, hrun⟩ := ht.ctxs
  rw [save_run h hp hn] at hs
  have himg : imageA vm ++ imageC vm (vm.cur :: l) = p ++ q := by
    injection hs with hs
    injection hs with hs
    injection hs with _ hs
  have h2 := loadPost_run (r := c) h ht hr hrun hrp hp hn []
  rw [List.append_nil] at h2
  exact load_prefix (loadPre_run h ht hreg hr hrs (imageC vm (vm.cur :: l))) h2 rfl himg hq hl

/-! ## C38, C62 -/

/-- **C62**: loading is safe.  Whatever the bytes are, the loader does not access memory it may not access, does not use
a missing object and fails no assertion; at worst it ends in a catastrophic failure of an allocation.  The VM has to be one
without objects held by the host and with types and subsystems in order. -/
theorem C62_loader_safe {v : VM} (h : Save.Ready v) (b : Bytes) :
    (∃ k, load F b v = .ub k ∧ k = .longjmp) ∨ (∃ r v', load F b v = .ok ((none, r), v')) ∨
      ∃ r v', load F b v = .ok ((some (), r), v') ∧ Accepted v v' := by
  have := load_any F h b
  cases hl : load F b v with
  | ub k => rw [hl] at this; exact .inl ⟨k, rfl, this⟩
  | ok q =>
    obtain ⟨⟨a, r⟩, w⟩ := q
    rw [hl] at this
    cases a with
    | none => exact .inr (.inl ⟨r, w, rfl⟩)
    | some a => exact .inr (.inr ⟨r, w, rfl, this⟩)

/-- **C38**: whatever bytes were accepted, the arrays of instructions and statics have `mask + 1` entries, a power of two;
the stack of the main program has a power of two as capacity that is within the limit, storage for as many values, and
not more values than that; strings and objects are inside of their tables, and nothing refers to a string, object, native
function, type or context that does not exist.  The same holds for the stack of every coroutine unless an error was
recorded.  Missing: with that error recorded the loader still reports success, and the stack of the coroutine may claim
more values than it has (`C38_stack_violated`); and a table may have capacity 0. -/
theorem C38_accepted_partial {v v' : VM} (h : Save.Ready v) {b r : Bytes} (hl : load F b v = .ok ((some (), r), v')) :
    Accepted v v' := (load_any F h).of_run hl

/-- The stack part of the property in full, when the error was not recorded. -/
theorem C38_stacks_partial {v v' : VM} (h : Save.Ready v) (hone : v.ctxs.length = 1) {b r : Bytes}
    (hl : load F b v = .ok ((some (), r), v')) (hno : coFailed ∉ v'.errors) :
    ∀ (i : Nat) (x : Option Ctx), v'.ctxs[i]? = some x → ∃ c k, x = some c ∧ c.stack.cap = 2 ^ k ∧
      c.stack.vals.length = c.stack.cap ∧ c.stack.mask + 1 = c.stack.cap ∧ c.stack.cap ≤ v.limits.maxStackSize ∧
      c.stack.size ≤ c.stack.cap := by
  have ha := C38_accepted_partial F h hl
  intro i x hx
  by_cases hi : i = 0
  · subst hi
    obtain ⟨c, h1, h2, h3⟩ := ha.root
    rw [h1] at hx
    cases hx
    obtain ⟨k, -, hk⟩ := h2.pow
    exact ⟨c, k, rfl, hk, h2.len, h2.mask, h2.limit, h3⟩
  · obtain ⟨c, h1, h2⟩ := ha.coroutine i (by omega) (List.getElem?_eq_some_iff.mp hx).1
    rw [h1] at hx
    cases hx
    rcases h2 with ⟨h2, h3⟩ | ⟨h2, -⟩
    · obtain ⟨k, -, hk⟩ := h2.pow
      exact ⟨c, k, rfl, hk, h2.len, h2.mask, h2.limit, h3⟩
    · exact absurd h2 hno

/-! ## C39 -/

/-- **C39**, first half: after loading, a function that stood for a native function stands for the one that was registered
under the same name in the VM loaded into, with the host's code registered there. -/
theorem C39_by_name {vm v v' : VM} (h : Saveable vm) (ht : Target vm v) (hreg : Registered vm v.extFuncs) {img r : Bytes} {vm' : VM}
    (hs : save vm = .ok ((true, img), vm')) (hl : load F img v = .ok ((some (), r), v')) {i : Nat} {f : Func} {g : ExtFunc}
    (hf : vm.functions[i]? = some f) (hx : f.extId ≠ UINT_MAX) (hg : vm.extFuncs[f.extId]? = some g) :
    ∃ f' g' g0, v'.functions[i]? = some f' ∧ v'.extFuncs[f'.extId]? = some g' ∧ v.extFuncs[f'.extId]? = some g0 ∧
      g'.name = g.name ∧ g0.name = g.name ∧ g'.callback = g0.callback := by
  obtain ⟨img', w, h1, h2, h3, -⟩ := C36_save_load_partial F h ht hreg
  rw [hs] at h1
  cases h1
  rw [hl] at h2
  cases h2
  obtain ⟨f', h4, h5⟩ := h3.functions.2 i f hf
  obtain ⟨g', h6, h7⟩ := h5.native g hx hg
  have h8 := h3.rest.2.2.2.2.2.2.2 f'.extId
  rw [h6] at h8
  cases h9 : v.extFuncs[f'.extId]? with
  | none => rw [h9] at h8; cases h8
  | some g0 =>
    rw [h9] at h8
    simp only [Option.map_some, Option.some.injEq] at h8
    injection h8 with hn hc
    exact ⟨f', g', g0, h4, h6, h9, h7, hn ▸ h7, hc⟩

/-- **C39**, second half: an image in which a function stands for a native function whose name is not registered is
rejected, whatever follows it. -/
theorem C39_missing_rejected {vm v : VM} (h : Saveable vm) (ht : Target vm v) {img : Bytes} {vm' : VM}
    (hs : save vm = .ok ((true, img), vm')) {f : Func} (hf : f ∈ vm.functions) {g : ExtFunc} (hg : vm.extFuncs[f.extId]? = some g)
    (hno : ∀ g' ∈ v.extFuncs, g'.name ≠ g.name) (rest : Bytes) : ∃ r w, load F (img ++ rest) v = .ok ((none, r), w) := by
  obtain ⟨l, hp, hn, -⟩ := Save.CoWF.path h.heap.co
  rw [save_run h hp hn] at hs
  cases hs
  rw [List.append_assoc]
  refine load_unregistered h ht (fun hreg => ?_) _
  obtain ⟨g', h1, h2⟩ := hreg f hf g hg
  exact hno g' h1 h2

/-! ## A VM to save

A program is about to resume a coroutine it has made by `coroutine(f, 0, 5)`; beside that there is an object with the
fields `"k"` and `3`, two strings, and a native function. -/

def svStart : VM :=
  { loaded coProg [.nil] ⟨[.fn 0, .int 0, .int 5, .int 2], 4, 4, 3⟩ 0 with
    functions := [{ argc := 2, first := 10, extId := UINT_MAX }] }

def svRan : VM :=
  { svStart with
    ctxs := [some { Ctx.init with state := .running, stack := ⟨[.obj 0, .int 0, .int 5, .int 2], 1, 4, 3⟩, ip := 1 },
      some { stack := ⟨[.fn 0, .int 0, .int 5, .int 2, .int 4294967295, .int 0, .int 0, .int 0], 5, 8, 7⟩, ip := 9,
             parent := none, coObj := .obj 0, state := .created }]
    objects := ⟨[some ⟨List.replicate 16 [], 0, 0, 0, 0, some 1⟩], 1, []⟩
    gc := { svStart.gc with countdown := 1023, newObjCountdown := 255 } }

theorem svRan_step : iterate Sample.F Sample.H svStart = .ok ((), svRan) := by decide +kernel

theorem svRan_inv : Inv svRan := by
  have h := C25_any_program (words := coProg) (globals := [.nil]) (s := ⟨[.fn 0, .int 0, .int 5, .int 2], 4, 4, 3⟩) 0
    (by simp [coProg]) (by simp) ⟨⟨2, by decide, rfl⟩, rfl, rfl, by decide⟩
  have h0 : Inv svStart := ⟨⟨⟨h.heap.str.tab, h.heap.str.blen, h.heap.str.nodup, h.heap.str.mem, h.heap.str.hash,
    h.heap.str.bucket, h.heap.str.inj⟩, h.heap.tab, h.heap.co.of_eq rfl rfl rfl rfl rfl, h.heap.statics, h.heap.handles,
    h.heap.passO, h.heap.passS⟩, h.instrs, h.buckets, h.natives, h.sizes⟩
  exact run_inv _ _ sample_host.1 h0 (.step .refl (by decide) svRan_step)

/-- The VM after the host has made two strings and an object. -/
def svA : VM :=
  { svRan with
    strings := ⟨[some ⟨cs "k", stringHash (cs "k"), 0, false⟩, some ⟨cs "v", stringHash (cs "v"), 0, false⟩], 2, []⟩
    sbuckets := ((List.replicate 256 []).set 108 [0]).set 119 [1]
    objects := ⟨[some ⟨List.replicate 16 [], 0, 0, 0, 0, some 1⟩, some Obj.init], 2, []⟩
    gc := { svRan.gc with newObjCountdown := 254 } }

/-- The object after setting the field `"k"`. -/
def svObjB : Obj := { Obj.init with buckets := (List.replicate 16 []).set 12 [(.str 0, .int 7)], size := 1 }

def svB : VM := { svA with objects := ⟨[some ⟨List.replicate 16 [], 0, 0, 0, 0, some 1⟩, some svObjB], 2, []⟩ }

/-- The object after setting the field `3`. -/
def svObj : Obj :=
  { Obj.init with
    buckets := [[], [], [], [(.int 3, .str 1)], [], [], [], [], [], [], [], [], [(.str 0, .int 7)], [], [], []], size := 2 }

def svMid : VM := { svA with objects := ⟨[some ⟨List.replicate 16 [], 0, 0, 0, 0, some 1⟩, some svObj], 2, []⟩ }

theorem svA_made : (do let _ ← findOrAddString (cs "k"); let _ ← findOrAddString (cs "v"); let _ ← createObject : M Unit) svRan =
    .ok ((), svA) := by decide +kernel
theorem svB_made : storeField Sample.F 1 (.str 0) (.int 7) svA = .ok ((), svB) := by decide +kernel
theorem svMid_made : storeField Sample.F 1 (.int 3) (.str 1) svB = .ok ((), svMid) := by decide +kernel

theorem make_inv {vm vm' : VM} {s t : Bytes} (h : Inv vm)
    (hr : (do let _ ← findOrAddString s; let _ ← findOrAddString t; let _ ← createObject : M Unit) vm = .ok ((), vm')) : Inv vm' := by
  have h' : Safe (fun _ => True) (do let _ ← findOrAddString s; let _ ← findOrAddString t; let _ ← createObject : M Unit) vm
      (fun _ v => Inv v) := by
    refine (findOrAddString_safe ⟨h, rfl⟩ s).bind fun _ v1 ⟨h1, _⟩ => ?_
    refine (findOrAddString_safe h1 t).bind fun _ v2 ⟨h2, _⟩ => ?_
    exact (createObject_safe h2).bind fun _ v3 ⟨h3, _⟩ => Safe.pure h3.inv
  unfold Safe at h'
  rw [hr] at h'
  exact h'

theorem store_inv {vm vm' : VM} {id : Nat} {o : Obj} {key v : Value} (h : Inv vm) (he : vm.objects.entry id = some o)
    (hr : storeField F id key v vm = .ok ((), vm')) : Inv vm' := by
  have h' := storeField_safe (B := fun _ => True) F trivial (.inl trivial) ⟨h, rfl⟩ he key v
  unfold Safe at h'
  rw [hr] at h'
  exact h'.inv

theorem svMid_inv : Inv svMid :=
  store_inv _ (store_inv _ (make_inv svRan_inv svA_made) (show svA.objects.entry 1 = some Obj.init from rfl) svB_made)
    (show svB.objects.entry 1 = some svObjB from rfl) svMid_made

/-- The VM to save. -/
def sv : VM :=
  { svMid with
    functions := [{ argc := 2, first := 10, extId := UINT_MAX }, { argc := 1, first := UINT_MAX, extId := 0 }]
    extFuncs := [{ name := cs "print", callback := some 4, internalId := 1, argc := UINT_MAX, argTypes := [], argExtTypes := [] }]
    globals := [(cs "print", 0)]
    sourceFiles := [cs "main.nks"]
    markers := [{ instr := 0, file := 0, line := 1, actualLine := 1 }] }

/-- The VM to load into: the same native function has another number there. -/
def svNew : VM :=
  { VM.create with
    extFuncs := [{ name := cs "other", callback := some 8, internalId := UINT_MAX, argc := UINT_MAX, argTypes := [], argExtTypes := [] },
      { name := cs "print", callback := some 9, internalId := UINT_MAX, argc := UINT_MAX, argTypes := [], argExtTypes := [] }] }

instance : DecidablePred Value.Fits := fun x => by cases x <;> (unfold Value.Fits; infer_instance)
instance : DecidablePred Text := fun s => by unfold Text Spec.NoNul; infer_instance
instance : DecidablePred MarkerOK := fun s => by unfold MarkerOK; infer_instance

theorem sv_obj {id : Nat} {o : Obj} (h : sv.objects.entry id = some o) :
    id = 0 ∧ o = ⟨List.replicate 16 [], 0, 0, 0, 0, some 1⟩ ∨ id = 1 ∧ o = svObj := by
  match id, h with
  | 0, h => cases h; exact .inl ⟨rfl, rfl⟩
  | 1, h => cases h; exact .inr ⟨rfl, rfl⟩
  | _ + 2, h => cases h

/-- The second object is in order. -/
theorem svObj_wf : OWF sv svObj := by
  have hb : ∀ (b : Nat) (es : List (Value × Value)), svObj.buckets[b]? = some es →
      es = [] ∨ b = 3 ∧ es = [(.int 3, .str 1)] ∨ b = 12 ∧ es = [(.str 0, .int 7)] := by
    intro b es h
    have hlt : b < 16 := (List.getElem?_eq_some_iff.mp h).1
    interval_cases b <;> cases h <;> simp
  refine ⟨rfl, fun b es h e he => ?_, fun b es h => ?_, rfl, by decide⟩
  · rcases hb b es h with rfl | ⟨rfl, rfl⟩ | ⟨rfl, rfl⟩
    · cases he
    · rw [List.mem_singleton] at he
      subst he
      exact ⟨⟨_, rfl⟩, by decide +kernel, by decide⟩
    · rw [List.mem_singleton] at he
      subst he
      exact ⟨⟨.str (cs "k"), rfl⟩, by decide +kernel, by decide⟩
  · rcases hb b es h with rfl | ⟨rfl, rfl⟩ | ⟨rfl, rfl⟩ <;> simp

/-- The coroutine object is in order. -/
theorem svCo_wf : OWF sv ⟨List.replicate 16 [], 0, 0, 0, 0, some 1⟩ := by
  have hb : ∀ (b : Nat) (es : List (Value × Value)), (List.replicate 16 ([] : List (Value × Value)))[b]? = some es → es = [] :=
    fun b es h => List.eq_of_mem_replicate (List.mem_of_getElem? h)
  refine ⟨rfl, fun b es h e he => ?_, fun b es h => ?_, rfl, by decide⟩
  · rw [hb b es h] at he; cases he
  · rw [hb b es h]; exact .nil

/-- It can be saved. -/
theorem sv_saveable : Saveable sv := by
  have h := svMid_inv.heap
  have hh : HeapWF sv := ⟨⟨h.str.tab, h.str.blen, h.str.nodup, h.str.mem, h.str.hash, h.str.bucket, h.str.inj⟩, h.tab,
    h.co.of_eq rfl rfl rfl rfl rfl, h.statics, h.handles, h.passO, h.passS⟩
  have hctx : ∀ (i : Nat) (c : Ctx), sv.ctxs[i]? = some (some c) → (i = 0 ∨ i = 1 ∧ c.parent = none) ∧ CtxOK sv c := by
    intro i c hc
    have hwf := hh.co.stack i c hc
    match i, hc with
    | 0, hc => cases hc; exact ⟨.inl rfl, hwf, by decide, by decide, by decide +kernel, by decide⟩
    | 1, hc => cases hc; exact ⟨.inr ⟨rfl, rfl⟩, hwf, by decide, by decide, by decide +kernel, by decide⟩
    | _ + 2, hc => cases hc
  refine
    { heap := hh
      instrLen := rfl
      instrPow := ⟨4, by decide, rfl⟩
      errors := fun e he => nomatch he
      errorCount := by decide
      staticPow := ⟨0, by decide, rfl⟩
      statics := by decide +kernel
      co := ?_
      strCap := by decide
      strs := ?_
      objCap := by decide
      objs := ?_
      gc := by constructor <;> decide
      funcs := ?_
      globals := ?_
      globalCount := by decide
      types := ?_
      subs := ?_
      subCount := by decide
      files := ?_
      fileCount := by decide
      markers := ?_
      markerCount := by decide }
  · refine ⟨hh.co, fun i c hc => (hctx i c hc).2, ⟨_, rfl, rfl⟩, fun id o ho => ?_, fun i c hi ha hc => ?_⟩
    · rcases sv_obj ho with ⟨-, rfl⟩ | ⟨-, rfl⟩
      · exact .inr (by decide)
      · exact .inl rfl
    · have : ∀ j, Active sv j → j = 0 := by
        intro j hj
        induction hj with
        | cur => rfl
        | resumer _ h1 h2 ih =>
          subst ih
          cases h1
          cases h2
      exact absurd (this i ha) hi
  · intro e he
    obtain ⟨id, hid⟩ := List.getElem?_of_mem he
    match id, hid with
    | 0, hid => cases hid; exact ⟨by decide +kernel, by decide, rfl⟩
    | 1, hid => cases hid; exact ⟨by decide +kernel, by decide, rfl⟩
    | _ + 2, hid => cases hid
  · intro o ho
    obtain ⟨id, hid⟩ := List.getElem?_of_mem ho
    rcases sv_obj (id := id) (o := o) (by unfold Table.entry; rw [hid]; rfl) with ⟨-, rfl⟩ | ⟨-, rfl⟩
    · exact ⟨svCo_wf, by decide +kernel, by decide, by decide, by decide, by decide⟩
    · exact ⟨svObj_wf, by decide +kernel, by decide, by decide, by decide, by decide⟩
  · exact ⟨by decide, by decide +kernel, by decide, by decide, by decide, by decide, by decide, by decide⟩
  · decide +kernel
  · refine ⟨by decide +kernel, by decide +kernel, by decide, by decide +kernel, fun id o ho => ?_⟩
    rcases sv_obj ho with ⟨-, rfl⟩ | ⟨-, rfl⟩
    · exact .inr (by decide)
    · exact .inl rfl
  · decide +kernel
  · decide +kernel
  · decide +kernel

theorem sv_target : Target sv svNew where
  errors := rfl
  handles := rfl
  ctxs := ⟨_, rfl, ⟨⟨0, by decide, rfl⟩, rfl, rfl, by decide⟩, rfl, rfl, rfl⟩
  limits := rfl
  types := rfl
  coType := rfl
  natives := by decide
  subs := by
    intro s hs
    have : sv.subsystems.flatten = [] := by decide +kernel
    rw [this] at hs
    cases hs

theorem sv_registered : Registered sv svNew.extFuncs := by
  intro f _ g hg
  have hm := List.mem_of_getElem? hg
  rw [show sv.extFuncs = [⟨cs "print", some 4, 1, UINT_MAX, [], []⟩] from rfl, List.mem_singleton] at hm
  subst hm
  exact ⟨_, .tail _ (.head _), rfl⟩

/-- The round trip for it; reading the fields of the object after loading gives what was assigned, and the coroutine stands
where it stood. -/
example : ∃ img v', save sv = .ok ((true, img), sv) ∧ load Sample.F img svNew = .ok ((some (), []), v') ∧
    Restored Sample.F sv svNew v' := by
  obtain ⟨img, v', h1, h2, h3, -⟩ := C36_save_load_partial Sample.F sv_saveable sv_target sv_registered
  exact ⟨img, v', h1, h2, h3⟩

example : (save sv).test (fun r => (load Sample.F r.1.2 svNew).test (fun q => q.1 = (some (), []) ∧
    q.2.ctxs[1]?.join.map (fun c => (c.ip, c.stack.used)) =
      some (9, [.fn 0, .int 0, .int 5, .int 2, .int 4294967295]) ∧
    q.2.functions[1]?.map (·.extId) = some 1 ∧
    (lookupField Sample.F 1 (.int 3) q.2).test (fun x => x.1 = some (.str 1)) ∧
    (lookupField Sample.F 1 (.str 0) q.2).test (fun x => x.1 = some (.int 7)))) = true := by decide +kernel

/-- The interval is cut down if the host has set a larger one. -/
example : (save { sv with gc := { sv.gc with interval := 100000 } }).test (fun r => r.2.gc.interval = 65536) = true := by
  decide +kernel

/-- **C37 is violated**: the image of `sv` has 436 bytes; the first 380 of them, which end inside of the coroutine's stack,
are accepted by the loader as an image of their own.  (The failure of a type's own serialization callback is recorded as
an error but does not reach the caller.) -/
theorem C37_prefix_violated : Saveable sv ∧ Target sv svNew ∧ Registered sv svNew.extFuncs ∧
    ∃ p q, save sv = .ok ((true, p ++ q), sv) ∧ q ≠ [] ∧ ∃ r v', load Sample.F p svNew = .ok ((some (), r), v') := by
  refine ⟨sv_saveable, sv_target, sv_registered, ?_⟩
  have h : (save sv).test (fun r => r.1.1 = true ∧ r.2 = sv ∧ r.1.2.drop 380 ≠ [] ∧
      (load Sample.F (r.1.2.take 380) svNew).test (fun q => q.1.1 = some ())) = true := by decide +kernel
  obtain ⟨⟨⟨a, img⟩, w⟩, hs, h⟩ := test_ok h
  obtain ⟨rfl, rfl, hq, h⟩ := h
  obtain ⟨⟨⟨a, r⟩, w⟩, hl, h⟩ := test_ok h
  cases h
  exact ⟨img.take 380, img.drop 380, by rw [List.take_append_drop]; exact hs, hq, r, w, hl⟩

/-- The hypotheses of `C37_prefix_partial` are met by it: the error is recorded. -/
example : (save sv).test (fun r => (load Sample.F (r.1.2.take 380) svNew).test (fun q => q.2.errors = [coFailed])) = true := by
  decide +kernel

/-- A new VM is ready to be loaded into. -/
theorem create_ready : Save.Ready VM.create :=
  ⟨rfl, ⟨_, rfl, by decide⟩, by decide +kernel, rfl, ⟨_, rfl, rfl⟩, by decide⟩

theorem ready_natives {v : VM} (h : Save.Ready v) (fs : List ExtFunc) : Save.Ready { v with extFuncs := fs } :=
  ⟨h.handles, h.root, h.names, h.subs, h.coType, h.coMax⟩

/-- The numbers of values and capacities of all stacks. -/
def sizes (v : VM) : List (Nat × Nat) := v.ctxs.map fun c => (c.map fun c : Ctx => (c.stack.size, c.stack.cap)).getD (0, 0)

/-- **C38 is violated** for coroutines: with one byte of the image of `sv` changed, the loader reports success, and the
coroutine has a stack of 9 values with room for 8. -/
theorem C38_stack_violated : Save.Ready svNew ∧ ∃ (b r : Bytes) (v' : VM), load Sample.F b svNew = .ok ((some (), r), v') ∧
    ∃ c : Ctx, v'.ctxs[1]? = some (some c) ∧ c.stack.size = 9 ∧ c.stack.cap = 8 := by
  refine ⟨ready_natives create_ready _, ?_⟩
  have h : (save sv).test (fun r => (load Sample.F (r.1.2.set 340 9) svNew).test (fun q => q.1.1 = some () ∧
      q.2.ctxs[1]?.join.map (fun c : Ctx => (c.stack.size, c.stack.cap)) = some (9, 8))) = true := by decide +kernel
  obtain ⟨⟨⟨a, img⟩, w⟩, hs, h⟩ := test_true h
  obtain ⟨⟨⟨a, r⟩, v'⟩, hl, h1, h2⟩ := test_ok h
  cases h1
  refine ⟨_, r, v', hl, ?_⟩
  simp only [Option.map_eq_some_iff, Prod.mk.injEq, Option.join_eq_some_iff] at h2
  obtain ⟨c, h3, h4, h5⟩ := h2
  exact ⟨c, h3, h4, h5⟩

/-- What C38 says of the image of `sv` itself: two stacks, 1 of 4 and 5 of 8 values. -/
example : (save sv).test (fun r => (load Sample.F r.1.2 svNew).test (fun q => sizes q.2 = [(1, 4), (5, 8)] ∧
    coFailed ∉ q.2.errors)) = true := by decide +kernel

/-- C39: the native function `print` is number 0 before and number 1 after, with the code registered as number 1; without
it the image is rejected. -/
example : ∃ img, save sv = .ok ((true, img), sv) ∧ ∀ rest, ∃ r w, load Sample.F (img ++ rest) VM.create = .ok ((none, r), w) := by
  obtain ⟨img, v', h1, -⟩ := C36_save_load_partial Sample.F sv_saveable sv_target sv_registered
  have ht : Target sv VM.create :=
    ⟨rfl, rfl, sv_target.ctxs, rfl, rfl, rfl, by decide, sv_target.subs⟩
  exact ⟨img, h1, C39_missing_rejected Sample.F sv_saveable ht h1 (.tail _ (.head _)) rfl (fun g hg => nomatch hg)⟩

/-- Only native functions that a function stands for are looked for: an image that was saved with another native function
registered is accepted although that one is missing. -/
theorem C39_unused_not_needed : (save { sv with functions := [{ argc := 2, first := 10, extId := UINT_MAX }] }).test (fun r =>
    (load Sample.F r.1.2 VM.create).test (fun q => q.1 = (some (), []))) = true := by decide +kernel

/-- C62 is about all bytes, so also about these: an image cut off, one with a wrong byte, and no bytes at all. -/
example : (save sv).test (fun r => (load Sample.F (r.1.2.take 100) svNew).test (fun q => q.1.1 = none) ∧
    (load Sample.F (r.1.2.set 9 14) svNew).test (fun q => q.1.1 = none) ∧
    (load Sample.F [] svNew).test (fun q => q.1.1 = none)) = true := by decide +kernel

end Nk.Props
