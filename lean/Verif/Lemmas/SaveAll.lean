import Verif.Lemmas.SaveChain
import Verif.Lemmas.SaveFuncs
/-!
# Saving and loading a whole VM
-/
namespace Nk.Save
variable {F : FloatOps}

/-- The sections from the functions on. -/
def imageB (vm : VM) : Bytes := funcImage vm ++ (objImage vm ++ (globalImage vm ++ (typeImage vm ++ subImage vm)))

/-- The image up to the external data. -/
def imageA (vm : VM) : Bytes :=
  header ++ (instrImage vm ++ (errImage vm ++ (staticImage vm ++ (ctxImage (ctxAt0 vm) false ++
    (strImage vm ++ (gcImage vm.gc ++ imageB vm))))))
where
  /-- The context of the main program. -/
  ctxAt0 (vm : VM) : Ctx := match vm.ctxs[0]? with
    | some (some c) => c
    | _ => Ctx.init

/-- The image from the external data on. -/
def imageC (vm : VM) (l : List Nat) : Bytes := extImage vm ++ (fileImage vm ++ (markerImage vm ++ chainImage vm l))

theorem slots_of_entry {α : Type} {t : Table α} {p : α → Prop} (h : ∀ x, some x ∈ t.slots → p x) {id : Nat} {x : α}
    (he : t.entry id = some x) : p x := h x (List.mem_of_getElem? (Table.entry_some_lt he).2)

theorem table_len {α : Type} {t : Table α} (h : t.WF) : t.slots.length = t.cap := h.len

theorem save_run {vm : VM} (h : Saveable vm) {l : List Nat} (hp : Path vm (vm.cur :: l)) (hn : (vm.cur :: l).Nodup) :
    save vm = .ok ((true, imageA vm ++ imageC vm (vm.cur :: l)), { vm with gc := capGc vm.gc }) := by
  obtain ⟨c, hc, -⟩ := h.heap.co.root
  have hc0 : imageA.ctxAt0 vm = c := by unfold imageA.ctxAt0; rw [hc]
  obtain ⟨ks, -, hks⟩ := h.heap.str.tab.pow
  obtain ⟨ko, -, hko⟩ := h.heap.tab.pow
  have hlate : ∀ {l}, Path vm l → Path { vm with gc := capGc vm.gc } l := by
    intro l hl
    induction hl with
    | root h hp ho => exact .root h hp ho
    | next h hp t ih => exact .next h hp ih
  have hco : CoOK { vm with gc := capGc vm.gc } := by
    refine ⟨⟨h.co.wf.root, h.co.wf.stack, h.co.wf.own, h.co.wf.owned, h.co.wf.chain, h.co.wf.type⟩, ?_, h.co.serialize,
      h.co.types, ?_⟩
    · intro i c hc
      have := h.co.ctx i c hc
      exact ⟨this.wf, this.limit, this.alloc, this.fits, this.ip⟩
    · intro i c hi ha hc
      refine h.co.running i c hi ?_ hc
      clear hi hc
      induction ha with
      | cur => exact .cur
      | resumer _ h1 h2 ih => exact .resumer ih h1 h2
  have key : save vm = .ok ((true, header ++ (instrImage vm ++ (errImage vm ++ (staticImage vm ++ (ctxImage c false ++
      (strImage vm ++ (gcImage vm.gc ++ (funcImage vm ++ (objImage vm ++ (globalImage vm ++ (typeImage vm ++
      (subImage vm ++ (extImage vm ++ (fileImage vm ++ (markerImage vm ++ chainImage vm (vm.cur :: l)))))))))))))))),
      { vm with gc := capGc vm.gc }) := by
    refine andThen_run Writes.emit (andThen_run (saveInstrs_writes h.instrLen h.instrPow) (andThen_run
      (saveErrors_writes h.errors) (andThen_run (saveStatics_writes h.heap.statics h.staticPow) (andThen_run
      (saveContext_writes hc (h.co.ctx 0 c hc) false) (andThen_run
      (saveStrings_writes h.heap.str.tab.len ⟨ks, hks⟩ h.strs) (andThen_run (saveGc_run vm) ?_))))))
    have hf := h.funcs
    refine Writes.andThen (saveFunctions_writes (vm := { vm with gc := capGc vm.gc })
      ⟨hf.natives, hf.name, hf.internal, hf.count, hf.some, hf.argc, hf.first, hf.ext⟩) ?_
    refine Writes.andThen (saveObjects_writes (vm := { vm with gc := capGc vm.gc }) h.heap.tab.len ⟨ko, hko⟩) ?_
    refine Writes.andThen (saveGlobals_writes (vm := { vm with gc := capGc vm.gc }) fun g hg => (h.globals g hg).1) ?_
    have ht := h.types
    refine Writes.andThen (saveTypes_writes (vm := { vm with gc := capGc vm.gc })
      ⟨ht.text, ht.names, ht.count, ht.length, ht.objs⟩) ?_
    refine Writes.andThen (saveSubsystems_writes (vm := { vm with gc := capGc vm.gc }) h.subs) ?_
    refine Writes.andThen (saveExtObjects_writes (vm := { vm with gc := capGc vm.gc }) hco h.heap.tab.len) ?_
    refine Writes.andThen (saveFiles_writes (vm := { vm with gc := capGc vm.gc }) h.files) ?_
    refine Writes.andThen (saveMarkers_writes _) ?_
    exact saveActive_writes (vm := { vm with gc := capGc vm.gc }) (hlate hp) hn
  rw [key]
  unfold imageA imageB imageC
  rw [hc0]
  simp only [List.append_assoc]

/-! ## Loading -/

/-- After the statics. -/
def at4 (vm v : VM) : VM :=
  { v with instrMask := vm.instrMask, instrs := vm.instrs, errors := vm.errors,
           staticMask := vm.staticMask, statics := vm.statics }

/-- After the context of the main program. -/
def at5 (vm v : VM) (r : Ctx) : VM :=
  setAt (at4 vm v) 0
    { r with ip := (imageA.ctxAt0 vm).ip, stack := loadedStack (imageA.ctxAt0 vm).stack, state := r.state }

/-- After strings and collector's numbers. -/
def at7 (vm v : VM) (r : Ctx) : VM := { strLoaded vm (at5 vm v r) with gc := capGc vm.gc }

/-- Before the external data. -/
def at10 (vm v : VM) (r : Ctx) : VM := { objLoaded vm (funcLoaded vm (at7 vm v r)) with globals := vm.globals }

/-- Before the chain. -/
def at13 (vm v : VM) (r : Ctx) : VM :=
  { extLoaded vm (at10 vm v r) with sourceFiles := vm.sourceFiles, markers := vm.markers }

/-- The new number of a context. -/
def renum (vm : VM) (i : Nat) : Nat :=
  match vm.ctxs[i]? with
  | some (some c) => match c.coObj with
    | .obj id => 1 + count vm.coType (vm.objects.slots.take id)
    | _ => 0
  | _ => 0

/-- The loaded VM. -/
def loaded (vm v : VM) (r : Ctx) (l : List Nat) : VM :=
  { at13 vm v r with ctxs := linkAll (renum vm) none l (at13 vm v r).ctxs, cur := renum vm vm.cur }

theorem strLoaded_entry (vm v : VM) (id : Nat) : (strLoaded vm v).strings.entry id = vm.strings.entry id := rfl

theorem strLoaded_wf {vm : VM} (h : vm.strings.WF) (v : VM) : (strLoaded vm v).strings.WF :=
  rebuilt_wf (t := vm.strings) h.len h.pow

/-- The image up to the names of subsystems. -/
def imageE (vm : VM) : Bytes :=
  header ++ (instrImage vm ++ (errImage vm ++ (staticImage vm ++ (ctxImage (imageA.ctxAt0 vm) false ++
    (strImage vm ++ (gcImage vm.gc ++ (funcImage vm ++ (objImage vm ++ (globalImage vm ++ typeImage vm)))))))))

theorem imageA_eq (vm : VM) : imageA vm = imageE vm ++ subImage vm := by
  unfold imageA imageB imageE
  simp only [List.append_assoc]

/-- The sections up to the external types. -/
def loadEarly (F : FloatOps) : L Unit := do
  loadHeader
  loadInstrs
  loadErrors
  loadStatics
  loadContext 0 false
  loadStrings
  loadGc
  loadFunctions
  loadObjects F
  loadGlobals
  loadTypes

theorem loadPre_eq : loadPre F = (loadEarly F >>= fun _ => loadSubsystems) := by
  unfold loadPre loadEarly
  simp only [L.assoc]

theorem loadEarly_run {vm v : VM} (h : Saveable vm) (ht : Target vm v) (hreg : Registered vm v.extFuncs) {r : Ctx}
    (hr : v.ctxs = [some r]) (hrs : r.stack.WF) (b : Bytes) :
    loadEarly F (imageE vm ++ b) v = .ok ((some (), b), at10 vm v r) := by
  obtain ⟨c, hc, -⟩ := h.heap.co.root
  have hc0 : imageA.ctxAt0 vm = c := by unfold imageA.ctxAt0; rw [hc]
  obtain ⟨ks, -, hks⟩ := h.heap.str.tab.pow
  obtain ⟨ko, -, hko⟩ := h.heap.tab.pow
  unfold loadEarly imageE
  simp only [List.append_assoc]
  refine (L.bind_some (loadHeader_run _ _)).trans ?_
  refine (L.bind_some (loadInstrs_run h.instrLen h.instrPow _ _)).trans ?_
  refine (L.bind_some (loadErrors_run h.errors h.errorCount _
    { v with instrMask := vm.instrMask, instrs := vm.instrs } ht.errors)).trans ?_
  refine (L.bind_some (loadStatics_run h.heap.statics h.staticPow h.statics _ _)).trans ?_
  have h5 := loadContext_run (h.co.ctx 0 c hc) (v := at4 vm v) ht.limits (i := 0) (d := r)
      (by show v.ctxs[0]? = _; rw [hr]; rfl) (by rw [hrs.len]) false
  rw [hc0]
  refine (L.bind_some (h5 _)).trans ?_
  have e5 : setAt (at4 vm v) 0
      { r with ip := c.ip, stack := loadedStack c.stack, state := (if (false : Bool) = true then c.state else r.state) } =
      at5 vm v r := by unfold at5; rw [hc0]; rfl
  rw [e5]
  refine (L.bind_some (loadStrings_run h.heap.str.tab.len ⟨ks, hks⟩ h.strCap h.strs _ _)).trans ?_
  refine (L.bind_some (loadGc_run h.gc _ _)).trans ?_
  refine (L.bind_some (loadFunctions_run h.funcs _ (at7 vm v r) hreg ht.natives)).trans ?_
  refine (L.bind_some (loadObjects_run (vm := vm) (v := funcLoaded vm (at7 vm v r)) h.heap.str h.heap.tab.len ⟨ko, hko⟩
    h.objCap h.objs (strLoaded_wf h.heap.str.tab (at5 vm v r)) (fun _ => rfl) ht.limits ht.handles _)).trans ?_
  refine (L.bind_some (loadGlobals_run h.globals h.globalCount _ _)).trans ?_
  refine loadTypes_run (vm := vm) (v := at10 vm v r) h.types ht.types ?_ _
  · unfold typesBelow
    rw [List.all_eq_true]
    intro s hs
    cases s with
    | none => rfl
    | some o =>
      have hs' : some o ∈ vm.objects.slots.map (·.map (loadedObj (funcLoaded vm (at7 vm v r)))) := hs
      obtain ⟨o1, h1, h2⟩ := List.mem_map.mp hs'
      cases o1 with
      | none => cases h2
      | some o1 =>
        cases h2
        obtain ⟨n, hn⟩ := List.getElem?_of_mem h1
        have := h.types.objs n o1 (by simp [Table.entry, hn])
        simp only [Bool.or_eq_true, decide_eq_true_eq]
        exact this

theorem loadPre_run {vm v : VM} (h : Saveable vm) (ht : Target vm v) (hreg : Registered vm v.extFuncs) {r : Ctx}
    (hr : v.ctxs = [some r]) (hrs : r.stack.WF) (b : Bytes) :
    loadPre F (imageA vm ++ b) v = .ok ((some (), b), at10 vm v r) := by
  rw [loadPre_eq, imageA_eq, List.append_assoc, L.bind_some (loadEarly_run h ht hreg hr hrs _)]
  exact loadSubsystems_run (v := at10 vm v r) h.subs h.subCount ht.subs b

theorem ctx0 {vm : VM} (h : CoWF vm) : ∃ c, vm.ctxs[0]? = some (some c) ∧ c.parent = none ∧ c.coObj = .nil ∧
    imageA.ctxAt0 vm = c ∧ renum vm 0 = 0 := by
  obtain ⟨c, hc, h1, h2⟩ := h.root
  refine ⟨c, hc, h1, h2, by unfold imageA.ctxAt0; rw [hc], ?_⟩
  unfold renum
  rw [hc]
  dsimp only
  rw [h2]

theorem ctxOf_eq {vm : VM} {o : Obj} {i : Nat} {c : Ctx} (h : o.extData = some i) (hc : vm.ctxs[i]? = some (some c)) :
    ctxOf vm o = c := by unfold ctxOf; rw [h]; dsimp only; rw [hc]

/-- Where the context of a coroutine goes. -/
theorem renum_spec {vm : VM} (h : CoWF vm) {i : Nat} {c : Ctx} (hi : i ≠ 0) (hc : vm.ctxs[i]? = some (some c)) :
    ∃ id o, c.coObj = .obj id ∧ vm.objects.slots[id]? = some (some o) ∧ o.extType = vm.coType ∧ o.extData = some i ∧
      renum vm i = 1 + count vm.coType (vm.objects.slots.take id) ∧
      (newCtxs vm 0 vm.objects.slots)[renum vm i - 1]? = some (some (loadedCtx id c)) := by
  obtain ⟨id, o, h1, h2, h3, h4⟩ := h.owned i c hi hc
  have h2' := (Table.entry_some_lt h2).2
  have hr : renum vm i = 1 + count vm.coType (vm.objects.slots.take id) := by
    unfold renum
    rw [hc]
    dsimp only
    rw [h1]
  refine ⟨id, o, h1, h2', h3, h4, hr, ?_⟩
  have := newCtxs_get (i := 0) h2' h3
  rw [hr, Nat.add_sub_cancel_left, this, Nat.zero_add, ctxOf_eq h4 hc]

theorem renum_inj {vm : VM} (h : CoWF vm) {i j : Nat} {c d : Ctx} (hc : vm.ctxs[i]? = some (some c))
    (hd : vm.ctxs[j]? = some (some d)) (e : renum vm i = renum vm j) : i = j := by
  obtain ⟨c0, h0, -, -, -, hr0⟩ := ctx0 h
  by_cases hi : i = 0
  · subst hi
    by_cases hj : j = 0
    · exact hj.symm
    · obtain ⟨_, _, _, _, _, _, hr, _⟩ := renum_spec h hj hd
      omega
  · obtain ⟨id, o, a1, a2, a3, a4, hr, _⟩ := renum_spec h hi hc
    by_cases hj : j = 0
    · subst hj; omega
    · obtain ⟨id', o', b1, b2, b3, b4, hr', _⟩ := renum_spec h hj hd
      have : id = id' := by
        rcases Nat.lt_trichotomy id id' with hlt | heq | hgt
        · have := count_lt a2 a3 hlt; omega
        · exact heq
        · have := count_lt b2 b3 hgt; omega
      subst this
      rw [a2] at b2
      cases b2
      rw [a4] at b4
      cases b4
      rfl

theorem path_active {vm : VM} {l : List Nat} (hp : Path vm l) {x : Nat} (hx : l.head? = some x) (ha : Active vm x) :
    ∀ i ∈ l, Active vm i := by
  induction hp generalizing x with
  | root h hp ho =>
    cases hx
    simpa using ha
  | @next i j l c h hp t ih =>
    cases hx
    intro k hk
    rcases List.mem_cons.mp hk with rfl | hk
    · exact ha
    · exact ih rfl (.resumer ha h hp) k hk

/-- The contexts before the chain is loaded. -/
theorem at13_ctx {vm v : VM} (h : Saveable vm) {r : Ctx} (hr : v.ctxs = [some r]) :
    (at13 vm v r).ctxs = some { r with ip := (imageA.ctxAt0 vm).ip, stack := loadedStack (imageA.ctxAt0 vm).stack, state := r.state } ::
      newCtxs vm 0 vm.objects.slots := by
  have : (at13 vm v r).ctxs = (at5 vm v r).ctxs ++ newCtxs vm 0 vm.objects.slots := rfl
  rw [this]
  unfold at5 setAt at4
  dsimp only
  rw [hr]
  rfl

theorem at10_slots {vm v : VM} {r : Ctx} :
    (at10 vm v r).objects.slots = vm.objects.slots.map (·.map (loadedObj (funcLoaded vm (at7 vm v r)))) := rfl

theorem at13_slot {vm v : VM} {r : Ctx} (hr : v.ctxs = [some r]) (k : Nat) :
    (at13 vm v r).objects.slots[k]? = vm.objects.slots[k]?.map (·.map fun o =>
      let o1 := loadedObj (funcLoaded vm (at7 vm v r)) o
      if o.extType = vm.coType then { o1 with extData := some (1 + count vm.coType (vm.objects.slots.take k)) } else o1) := by
  have hlen : (at10 vm v r).ctxs.length = 1 := by
    have : (at10 vm v r).ctxs = (at5 vm v r).ctxs := rfl
    rw [this]
    unfold at5 setAt at4
    dsimp only
    rw [hr]
    rfl
  have : (at13 vm v r).objects.slots = place vm.coType (at10 vm v r).ctxs.length (at10 vm v r).objects.slots := rfl
  rw [this, place_get, hlen, at10_slots, List.getElem?_map, Option.map_map, ← List.map_take]
  have hcount : ∀ xs : List (Option Obj), count vm.coType (xs.map (·.map (loadedObj (funcLoaded vm (at7 vm v r))))) =
      count vm.coType xs := by
    intro xs
    induction xs with
    | nil => rfl
    | cons x xs ih =>
      cases x with
      | none => simpa [count] using ih
      | some x => simp only [List.map_cons, Option.map_some, count, ih]; rfl
  rw [hcount]
  congr 1
  funext x
  cases x with
  | none => rfl
  | some x => rfl

/-- The image after the external data. -/
def lateImage (vm : VM) (l : List Nat) : Bytes := fileImage vm ++ (markerImage vm ++ chainImage vm l)

/-- The sections after the external data. -/
def loadLate : L Unit := do
  loadFiles
  loadMarkers
  loadActive

theorem loadLate_run {vm v : VM} (h : Saveable vm) (ht : Target vm v) {r : Ctx}
    (hr : v.ctxs = [some r]) (hrs : r.state = .running) (hrp : r.parent = none) {l : List Nat}
    (hp : Path vm (vm.cur :: l)) (hn : (vm.cur :: l).Nodup) (b : Bytes) :
    loadLate (lateImage vm (vm.cur :: l) ++ b) (extLoaded vm (at10 vm v r)) = .ok ((some (), b), loaded vm v r (vm.cur :: l)) := by
  have hco := h.heap.co
  unfold loadLate lateImage
  simp only [List.append_assoc]
  refine (L.bind_some (loadFiles_run h.files h.fileCount _ _)).trans ?_
  refine (L.bind_some (loadMarkers_run h.markers h.markerCount _ _)).trans ?_
  refine loadActive_run (vm := vm) (v := at13 vm v r) (ρ := renum vm) hp ?_ ?_ ?_ b
  · rw [List.nodup_iff_pairwise_ne, List.pairwise_map]
    refine hn.imp_of_mem ?_
    intro i j hi hj hne e
    obtain ⟨c, hc⟩ := hp.get i hi
    obtain ⟨d, hd⟩ := hp.get j hj
    exact hne (renum_inj hco hc hd e)
  · intro i hi
    obtain ⟨c, hc⟩ := hp.get i hi
    obtain ⟨c0, h0, -, hobj, -, hr0⟩ := ctx0 hco
    constructor
    · rintro rfl
      exact ⟨hr0, (objOf_eq h0).trans hobj⟩
    · intro hi0
      obtain ⟨id, o, a1, a2, a3, a4, hri, -⟩ := renum_spec hco hi0 hc
      have hid := (List.getElem?_eq_some_iff.mp a2).1
      have hcap := h.heap.tab.len
      have hbound := h.objCap
      refine ⟨by omega, id, { loadedObj (funcLoaded vm (at7 vm v r)) o with
          extData := some (1 + count vm.coType (vm.objects.slots.take id)) }, (objOf_eq hc).trans a1,
          (by show id < vm.objects.cap; omega), ?_, ?_, ?_, ?_⟩
      · rw [at13_slot hr, a2]
        simp [a3]
      · show o.extType = v.coType
        rw [a3, ht.coType]
      · rw [hri]
      · unfold UINT_MAX at hbound; omega
  · intro i hi
    obtain ⟨c, hc⟩ := hp.get i hi
    rw [at13_ctx h hr]
    by_cases hi0 : i = 0
    · subst hi0
      obtain ⟨c0, h0, -, hobj, -, hr0⟩ := ctx0 hco
      rw [hr0]
      exact ⟨_, rfl, hrs, hrp⟩
    · obtain ⟨id, o, a1, a2, a3, a4, hri, hnew⟩ := renum_spec hco hi0 hc
      have e : renum vm i = (renum vm i - 1) + 1 := by omega
      refine ⟨loadedCtx id c, ?_, ?_, rfl⟩
      · rw [e, List.getElem?_cons_succ]
        exact hnew
      · exact h.co.running i c hi0 (path_active hp rfl .cur i hi) hc

theorem loadPost_run {vm v : VM} (h : Saveable vm) (ht : Target vm v) {r : Ctx}
    (hr : v.ctxs = [some r]) (hrs : r.state = .running) (hrp : r.parent = none) {l : List Nat}
    (hp : Path vm (vm.cur :: l)) (hn : (vm.cur :: l).Nodup) (b : Bytes) :
    loadPost (imageC vm (vm.cur :: l) ++ b) (at10 vm v r) = .ok ((some (), b), loaded vm v r (vm.cur :: l)) := by
  show (loadExtObjects >>= fun _ => loadLate) _ _ = _
  unfold imageC
  rw [List.append_assoc, List.append_assoc]
  refine (L.bind_some (loadExtObjects_run (vm := vm) (v := at10 vm v r) (w := funcLoaded vm (at7 vm v r)) h.co ht.types
    ht.coType ht.limits h.heap.tab.len at10_slots rfl rfl _)).trans ?_
  have := loadLate_run (r := r) h ht hr hrs hrp hp hn b
  unfold lateImage at this
  simpa only [List.append_assoc] using this

end Nk.Save
