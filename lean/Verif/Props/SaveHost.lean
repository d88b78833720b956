import Verif.Lemmas.SaveHost
import Verif.Props.Save
/-!
# C79: data of the host in saved images

`saveWith K` and `loadWith K F` are saving and loading with the serialization callbacks `K` of the host for subsystems and
external types.  `loadWith` yields the calls of the callbacks, in order, each with the bytes it took.
-/
namespace Nk.Props
open Nk.Save

/-- **C79**: if the callbacks of the loading host take as many bytes as those of the saving host wrote, then every callback gets
back exactly the bytes that were written for the subsystem of the same name, or for the object with the same id, once and in
order (`subCalls`, `objCalls`), whatever follows in the stream, and the VM is restored as without callbacks: no byte of the
host is taken for one of the VM, or the other way round. -/
theorem C79_host_data (F : FloatOps) {K : Callbacks} {vm v : VM} (h : Saveable vm) (ht : Target vm v)
    (hreg : Registered vm v.extFuncs) (hs : SubsReadBack K vm v) (ho : ObjsReadBack K vm) :
    ∃ img v', saveWith K vm = .ok ((true, img), { vm with gc := { vm.gc with interval := min vm.gc.interval 65536 } }) ∧
      (∀ rest, loadWith K F (img ++ rest) v = .ok ((some (subCalls K vm v ++ objCalls K vm), rest), v')) ∧
      Restored F vm v v' ∧ HeapWF v' := by
  obtain ⟨l, hp, hn, hm⟩ := Save.CoWF.path h.heap.co
  obtain ⟨r, hr, hrs, hrp, hro, hrun⟩ := ht.ctxs
  exact ⟨_, _, saveWith_run h hp hn, fun rest => loadWith_run h ht hreg hr hrs hrun hrp hp hn hs ho rest,
    loaded_restored h ht hreg hr hrp hro hrun hp hn hm, loaded_heap h ht hr hrp hro hrun hp hn hm⟩

/-- **C79**, one subsystem: the callback of the subsystem with the same name is called with what was written. -/
theorem C79_subsystem {K : Callbacks} {vm v : VM} {s t : Subsystem} (hs : s ∈ vm.subsystems.flatten)
    (ht : namesake v s.name = some t) (hc : t.hasSerialize = true) :
    Call.sub t.data (K.subWrite s.data) ∈ subCalls K vm v ++ objCalls K vm := by
  refine List.mem_append_left _ (List.mem_flatMap.mpr ⟨s, hs, ?_⟩)
  unfold subCall
  rw [ht]
  dsimp only
  rw [if_pos hc]
  exact .head _

/-- **C79**, one object: the callback of its type is called with what was written for it. -/
theorem C79_object {K : Callbacks} {vm v : VM} {id : Nat} {o : Obj} (he : vm.objects.entry id = some o)
    (hc : hasCallback vm o = true) :
    Call.obj o.extType id (K.objWrite o.extType id o.extData) ∈ subCalls K vm v ++ objCalls K vm := by
  refine List.mem_append_right _ (List.mem_flatMap.mpr ⟨(id, o), mem_entriesFrom.mpr ⟨Nat.zero_le _, ?_⟩, ?_⟩)
  · exact (Table.entry_some_lt he).2
  · unfold objCall
    rw [if_pos hc]
    exact .head _

/-- **C79**: nobody else is called: every call is for a subsystem or an object of the saved VM. -/
theorem C79_only {K : Callbacks} {vm v : VM} {c : Call} (h : c ∈ subCalls K vm v ++ objCalls K vm) :
    (∃ s ∈ vm.subsystems.flatten, ∃ t, namesake v s.name = some t ∧ t.hasSerialize = true ∧
      c = .sub t.data (K.subWrite s.data)) ∨
    (∃ id o, vm.objects.entry id = some o ∧ hasCallback vm o = true ∧
      c = .obj o.extType id (K.objWrite o.extType id o.extData)) := by
  rcases List.mem_append.mp h with h | h
  · obtain ⟨s, hs, hc⟩ := List.mem_flatMap.mp h
    unfold subCall at hc
    cases hn : namesake v s.name with
    | none => rw [hn] at hc; cases hc
    | some t =>
      rw [hn] at hc
      dsimp only at hc
      by_cases hx : t.hasSerialize = true
      · rw [if_pos hx, List.mem_singleton] at hc
        exact .inl ⟨s, hs, t, hn, hx, hc⟩
      · rw [if_neg hx] at hc; cases hc
  · obtain ⟨⟨id, o⟩, he, hc⟩ := List.mem_flatMap.mp h
    rw [mem_entriesFrom] at he
    unfold objCall at hc
    by_cases hx : hasCallback vm o = true
    · rw [if_pos hx, List.mem_singleton] at hc
      exact .inr ⟨id, o, by simpa [Table.entry] using congrArg Option.join he.2, hx, hc⟩
    · rw [if_neg hx] at hc; cases hc

/-- Callbacks that write and read nothing leave the image and its loading as C36 to C39 and C62 describe them. -/
theorem C79_no_callbacks (F : FloatOps) {K : Callbacks} (h1 : ∀ d, K.subWrite d = []) (h2 : ∀ t i d, K.objWrite t i d = [])
    (h3 : ∀ d b, K.subRead d b = 0) (h4 : ∀ t i b, K.objRead t i b = 0) :
    saveWith K = save ∧ (loadWith K F >>= fun _ => (pure () : L Unit)) = load F :=
  ⟨saveWith_none h1 h2, loadWith_void h3 h4⟩

/-! ## A VM with data of the host

`sv` with the subsystems "log" and "net", and its object 1 is a "point" of the host. -/

/-- The object of the host. -/
def hvObj : Obj := { svObj with extType := 1, extData := some 3 }

def hvTypes : List ExtType := sv.extTypes ++ [{ name := cs "point", hasSerialize := true, hasCleanup := true, hasMark := false }]

def hv : VM :=
  { sv with
    extTypes := hvTypes
    objects := ⟨[some ⟨List.replicate 16 [], 0, 0, 0, 0, some 1⟩, some hvObj], 2, []⟩
    subsystems := (sv.subsystems.set 3 [{ name := cs "log", data := 2, hasCleanup := false, hasSerialize := true }]).set 8
      [{ name := cs "net", data := 1, hasCleanup := false, hasSerialize := true }] }

/-- The VM to load into: the data of the subsystems are elsewhere. -/
def hvNew : VM :=
  { svNew with
    extTypes := hvTypes
    subsystems := (svNew.subsystems.set 3 [{ name := cs "log", data := 40, hasCleanup := false, hasSerialize := true }]).set 8
      [{ name := cs "net", data := 41, hasCleanup := false, hasSerialize := true }] }

/-- Callbacks that write a length and that many bytes. -/
def hvK : Callbacks where
  subWrite d := UInt8.ofNat d :: List.replicate (d % 256) 7
  subRead _ b := (b.headD 0).toNat + 1
  objWrite _ _ d := UInt8.ofNat (d.getD 0) :: List.replicate (d.getD 0 % 256) 9
  objRead _ _ b := (b.headD 0).toNat + 1

theorem hv_obj {id : Nat} {o : Obj} (h : hv.objects.entry id = some o) :
    id = 0 ∧ o = ⟨List.replicate 16 [], 0, 0, 0, 0, some 1⟩ ∨ id = 1 ∧ o = hvObj := by
  match id, h with
  | 0, h => cases h; exact .inl ⟨rfl, rfl⟩
  | 1, h => cases h; exact .inr ⟨rfl, rfl⟩
  | _ + 2, h => cases h

/-- It can be saved. -/
theorem hv_saveable : Saveable hv := by
  have s := sv_saveable
  have h := s.heap
  have hco : CoWF hv := by
    refine ⟨h.co.root, h.co.stack, ?_, ?_, h.co.chain, ⟨_, rfl, rfl, rfl, by decide⟩⟩
    · intro id o ho hx
      rcases hv_obj ho with ⟨rfl, rfl⟩ | ⟨rfl, rfl⟩
      · exact h.co.own 0 _ rfl rfl
      · cases hx
    · intro i c hi hc
      obtain ⟨id, o, h1, h2, h3, h4⟩ := h.co.owned i c hi hc
      rcases sv_obj h2 with ⟨rfl, rfl⟩ | ⟨rfl, rfl⟩
      · exact ⟨0, _, h1, rfl, h3, h4⟩
      · cases h3
  have hh : HeapWF hv := by
    refine ⟨⟨h.str.tab, h.str.blen, h.str.nodup, h.str.mem, h.str.hash, h.str.bucket, h.str.inj⟩, ?_, hco, h.statics,
      (fun id hid => nomatch hid), ?_, h.passS⟩
    · have := h.tab
      refine ⟨this.len, this.pow, this.nodup, ?_⟩
      intro i
      match i with
      | 0 => exact ⟨fun e => (nomatch e), fun e => (by cases e)⟩
      | 1 => exact ⟨fun e => (nomatch e), fun e => (by cases e)⟩
      | _ + 2 => exact ⟨fun e => (nomatch e), fun e => (by cases e)⟩
    · intro id o ho
      rcases hv_obj ho with ⟨rfl, rfl⟩ | ⟨rfl, rfl⟩ <;> exact Nat.zero_le _
  have hact : ∀ j, Active hv j → Active sv j := by
    intro j hj
    induction hj with
    | cur => exact .cur
    | resumer _ h1 h2 ih => exact .resumer ih h1 h2
  have htypes : ∀ id o, hv.objects.entry id = some o → o.extType = UINT_MAX ∨ o.extType < hv.extTypes.length := by
    intro id o ho
    rcases hv_obj ho with ⟨-, rfl⟩ | ⟨-, rfl⟩ <;> exact .inr (by decide)
  refine
    { heap := hh
      instrLen := s.instrLen
      instrPow := s.instrPow
      errors := s.errors
      errorCount := s.errorCount
      staticPow := s.staticPow
      statics := s.statics
      co := ?_
      strCap := s.strCap
      strs := s.strs
      objCap := by decide
      objs := ?_
      gc := s.gc
      funcs := ⟨s.funcs.natives, s.funcs.name, s.funcs.internal, s.funcs.count, s.funcs.some, s.funcs.argc, s.funcs.first, s.funcs.ext⟩
      globals := s.globals
      globalCount := s.globalCount
      types := ⟨by decide +kernel, by decide +kernel, by decide, by decide +kernel, htypes⟩
      subs := by decide +kernel
      subCount := by decide
      files := s.files
      fileCount := s.fileCount
      markers := s.markers
      markerCount := s.markerCount }
  · refine ⟨hco, ?_, ⟨_, rfl, rfl⟩, htypes, fun i c hi ha hc => s.co.running i c hi (hact i ha) hc⟩
    intro i c hc
    have := s.co.ctx i c hc
    exact ⟨this.wf, this.limit, this.alloc, this.fits, this.ip⟩
  · intro o ho
    obtain ⟨id, hid⟩ := List.getElem?_of_mem ho
    rcases hv_obj (id := id) (o := o) (by unfold Table.entry; rw [hid]; rfl) with ⟨-, rfl⟩ | ⟨-, rfl⟩
    · have := svCo_wf
      exact ⟨⟨this.len, this.key, this.nodup, this.size, this.lt⟩, by decide +kernel, by decide, by decide, by decide, by decide⟩
    · have := svObj_wf
      exact ⟨⟨this.len, this.key, this.nodup, this.size, this.lt⟩, by decide +kernel, by decide, by decide, by decide, by decide⟩

theorem hv_target : Target hv hvNew where
  errors := rfl
  handles := rfl
  ctxs := sv_target.ctxs
  limits := rfl
  types := rfl
  coType := rfl
  natives := by decide
  subs := by
    intro s hs
    rw [show hv.subsystems.flatten = [⟨cs "log", 2, false, true⟩, ⟨cs "net", 1, false, true⟩] by decide +kernel] at hs
    rcases List.mem_cons.mp hs with rfl | hs
    · exact ⟨_, ⟨cs "log", 40, false, true⟩, rfl, by decide +kernel⟩
    · rcases List.mem_singleton.mp hs with rfl
      exact ⟨_, ⟨cs "net", 41, false, true⟩, rfl, by decide +kernel⟩

theorem hv_subs : SubsReadBack hvK hv hvNew := by
  have hread : ∀ (d e : Nat) (rest : Bytes), hvK.subRead e (hvK.subWrite d ++ rest) = (hvK.subWrite d).length := by
    intro d e rest
    show (UInt8.ofNat d).toNat + 1 = (List.replicate (d % 256) 7).length + 1
    simp
  intro s hs t ht
  refine ⟨?_, fun _ rest => hread _ _ rest⟩
  rw [show hv.subsystems.flatten = [⟨cs "log", 2, false, true⟩, ⟨cs "net", 1, false, true⟩] by decide +kernel] at hs
  rcases List.mem_cons.mp hs with rfl | hs
  · rw [show namesake hvNew (cs "log") = some ⟨cs "log", 40, false, true⟩ by decide +kernel] at ht
    cases ht
    rfl
  · rcases List.mem_singleton.mp hs with rfl
    rw [show namesake hvNew (cs "net") = some ⟨cs "net", 41, false, true⟩ by decide +kernel] at ht
    cases ht
    rfl

theorem hv_objs : ObjsReadBack hvK hv := by
  intro id o _ _ rest
  show (UInt8.ofNat (o.extData.getD 0)).toNat + 1 = (List.replicate (o.extData.getD 0 % 256) 9).length + 1
  simp

/-- The round trip for it: "log", which had written 2 7 7, gets these bytes, although its data is elsewhere now; "net" gets
1 7, and the callback of points gets 3 9 9 9 for object 1. -/
example : ∃ img v', saveWith hvK hv = .ok ((true, img), hv) ∧
    loadWith hvK Sample.F (img ++ [1, 2, 3]) hvNew =
      .ok ((some [.sub 40 [2, 7, 7], .sub 41 [1, 7], .obj 1 1 [3, 9, 9, 9]], [1, 2, 3]), v') ∧
    Restored Sample.F hv hvNew v' := by
  obtain ⟨img, v', h1, h2, h3, -⟩ := C79_host_data Sample.F hv_saveable hv_target sv_registered hv_subs hv_objs
  refine ⟨img, v', h1, ?_, h3⟩
  rw [h2 [1, 2, 3], show subCalls hvK hv hvNew ++ objCalls hvK hv =
    [.sub 40 [2, 7, 7], .sub 41 [1, 7], .obj 1 1 [3, 9, 9, 9]] by decide +kernel]

/-- The hypotheses are needed: nothing in the image marks where the data of a callback ends.  If "log" takes one byte less than
it wrote, then the rest of the image is read from a wrong place, and loading fails. -/
theorem C79_unframed : (saveWith hvK hv).test (fun r => r.1.1 = true ∧
    (loadWith { hvK with subRead := fun d b => if d = 40 then (b.headD 0).toNat else (b.headD 0).toNat + 1 } Sample.F r.1.2
      hvNew).test (fun q => q.1.1 = none)) = true := by decide +kernel

end Nk.Props
