import Verif.Model.Api
import Verif.Lemmas.SafeOps
import Verif.Lemmas.Life
import Verif.Lemmas.Registry
/-!
# Native functions that use the API keep the VM in order
-/
namespace Nk

variable {B : UB → Prop} {vm : VM}

/-- An operation that can be run whenever the VM is in order. -/
def Good {α : Type} (B : UB → Prop) (m : M α) : Prop := ∀ vm, Inv vm → Safe B m vm fun _ vm' => Inv vm'

theorem Good.bind {α β : Type} {m : M α} {f : α → M β} (h : Good B m) (hf : ∀ a, Good B (f a)) : Good B (m >>= f) :=
  fun vm hi => (h vm hi).bind fun a vm' h' => hf a vm' h'

theorem Good.pure {α : Type} (a : α) : Good B (Pure.pure a : M α) := fun _ hi => Safe.pure hi

theorem Good.get {β : Type} {f : VM → M β} (hf : ∀ vm, Good B (f vm)) : Good B (Nk.get >>= f) :=
  fun vm hi => Safe.get (hf vm vm hi)

theorem Good.modify {f : VM → VM} (hf : ∀ vm, Inv vm → Inv (f vm)) : Good B (Nk.modify f) :=
  fun vm hi => Safe.ok (modify_run f vm) (hf vm hi)

/-- From the lemmas about a fixed pass number. -/
theorem Good.of {α : Type} {m : M α} (h : ∀ n vm, I n vm → Safe B m vm fun _ vm' => I n vm') : Good B m :=
  fun vm hi => (h _ vm ⟨hi, rfl⟩).mono fun _ _ h => h.inv

theorem Good.stop {α : Type} {k : UB} (h : B k) : Good B (liftR (.ub k) : M α) := fun vm _ => Safe.ub (liftR_ub k vm) h

theorem Good.err (e : String) : Good B (addError e) := .of fun _ _ h => (addError_safe h e).mono fun _ _ h => h.i

theorem Good.guard {α : Type} {m : M α} (hf : B .fuel)
    (h : ∀ vm, Inv vm → vm.gc.lastGCPass + 2 < 4294967296 → Safe B m vm fun _ vm' => Inv vm') : Good B (guarded m) := by
  intro vm hi
  by_cases hc : vm.gc.lastGCPass + 2 < 4294967296
  · have e : guarded m vm = m vm := by unfold guarded; exact if_pos hc
    have := h vm hi hc
    unfold Safe at *
    rw [e]; exact this
  · exact Safe.ub (k := .fuel) (by unfold guarded; exact if_neg hc) hf

/-! ## Changes of the VM -/

theorem CoWF.setExt (h : CoWF vm) (hw : vm.objects.WF) {id : Nat} {o o' : Obj} (he : vm.objects.entry id = some o)
    (ht : o.extType ≠ vm.coType) (ht' : o'.extType ≠ vm.coType) : CoWF (vm.setO id o') := by
  have hent := setO_entry hw he o'
  refine ⟨h.root, h.stack, ?_, ?_, h.chain, h.type⟩
  · intro j x hx hco
    rw [hent] at hx
    by_cases hj : j = id
    · rw [if_pos hj] at hx; cases hx; exact absurd hco ht'
    · rw [if_neg hj] at hx
      exact h.own j x hx hco
  · intro i c hi hc
    obtain ⟨j, x, g1, g2, g3, g4⟩ := h.owned i c hi hc
    by_cases hj : j = id
    · subst hj
      rw [he] at g2; cases g2
      exact absurd g3 ht
    · exact ⟨j, x, g1, by rw [hent, if_neg hj]; exact g2, g3, g4⟩

/-- An object that is not a coroutine changes its external type or data. -/
theorem I.setExt {n : Nat} (h : I n vm) {id : Nat} {o o' : Obj} (he : vm.objects.entry id = some o)
    (ht : o.extType ≠ vm.coType) (ht' : o'.extType ≠ vm.coType) (hb : o'.buckets = o.buckets)
    (hp : o'.lastGCPass = o.lastGCPass) (hs : o'.size = o.size) :
    I n (vm.setO id o') := by
  have hent := setO_entry h.tab he o'
  refine ⟨⟨⟨setO_strWF h.str id o', setO_wf h.tab he o', h.inv.heap.co.setExt h.tab he ht ht', h.inv.heap.statics,
    ?_, ?_, h.inv.heap.passS⟩, h.inv.instrs, ?_, h.inv.natives, ?_⟩, h.pass⟩
  · intro j hj
    obtain ⟨x, hx⟩ := h.inv.heap.handles j hj
    rw [hent]
    by_cases hji : j = id
    · exact ⟨o', if_pos hji⟩
    · rw [if_neg hji]; exact ⟨x, hx⟩
  · intro j x hx
    rw [hent] at hx
    by_cases hji : j = id
    · rw [if_pos hji] at hx; cases hx
      show o'.lastGCPass ≤ vm.gc.lastGCPass
      rw [hp]; exact h.inv.heap.passO id o he
    · rw [if_neg hji] at hx; exact h.inv.heap.passO j x hx
  · intro j x hx
    rw [hent] at hx
    by_cases hji : j = id
    · rw [if_pos hji] at hx; cases hx; rw [hb]; exact h.inv.buckets id o he
    · rw [if_neg hji] at hx; exact h.inv.buckets j x hx
  · rcases h.inv.sizes with h1 | h1
    · exact .inl h1
    · refine .inr fun j x hx => ?_
      rw [hent] at hx
      by_cases hji : j = id
      · rw [if_pos hji] at hx; cases hx
        have := h1 id o he
        rw [hs]; unfold Obj.total at *; rw [hb]; exact this
      · rw [if_neg hji] at hx; exact h1 j x hx

/-- The count of handles changes. -/
theorem I.setCount {n : Nat} (h : I n vm) {id : Nat} {o : Obj} (he : vm.objects.entry id = some o) (k : Nat) :
    I n (vm.setO id { o with handleCount := k }) :=
  h.setO he rfl rfl (h.inv.buckets id o he) rfl (h.inv.sizes.imp (fun x => x) fun hz _ => hz id o he)

theorem Inv.setHandles (h : Inv vm) {l : List Nat} (hl : ∀ id ∈ l, ∃ o, vm.objects.entry id = some o) :
    Inv { vm with handles := l } :=
  ⟨⟨⟨h.heap.str.tab, h.heap.str.blen, h.heap.str.nodup, h.heap.str.mem, h.heap.str.hash, h.heap.str.bucket, h.heap.str.inj⟩,
    h.heap.tab, h.heap.co.of_eq rfl rfl rfl rfl rfl, h.heap.statics, hl, h.heap.passO, h.heap.passS⟩, h.instrs, h.buckets,
    h.natives, h.sizes⟩

theorem Inv.addType (h : Inv vm) (t : ExtType) : Inv { vm with extTypes := vm.extTypes ++ [t] } := by
  refine ⟨⟨⟨h.heap.str.tab, h.heap.str.blen, h.heap.str.nodup, h.heap.str.mem, h.heap.str.hash, h.heap.str.bucket, h.heap.str.inj⟩,
    h.heap.tab, ⟨h.heap.co.root, h.heap.co.stack, h.heap.co.own, h.heap.co.owned, h.heap.co.chain, ?_⟩, h.heap.statics,
    h.heap.handles, h.heap.passO, h.heap.passS⟩, h.instrs, h.buckets, h.natives, h.sizes⟩
  obtain ⟨t', h1, h2⟩ := h.heap.co.type
  refine ⟨t', ?_, h2⟩
  have hlt := (List.getElem?_eq_some_iff.mp h1).1
  show (vm.extTypes ++ [t])[vm.coType]? = _
  rw [List.getElem?_append_left hlt]; exact h1

theorem Inv.setFuncs (h : Inv vm) (fs : List Func) {l : List ExtFunc}
    (hl : ∀ f ∈ l, f.argc ≠ UINT_MAX → f.argTypes.length = f.argc ∧ f.argExtTypes.length = f.argc) :
    Inv { vm with functions := fs, extFuncs := l } :=
  Cc.inv_of h rfl rfl rfl rfl rfl rfl rfl h.heap.statics rfl rfl h.instrs hl (List.prefix_refl _)

theorem Inv.setNatives (h : Inv vm) {l : List ExtFunc}
    (hl : ∀ f ∈ l, f.argc ≠ UINT_MAX → f.argTypes.length = f.argc ∧ f.argExtTypes.length = f.argc) :
    Inv { vm with extFuncs := l } := h.setFuncs vm.functions hl

theorem Inv.setFunctions (h : Inv vm) (fs : List Func) : Inv { vm with functions := fs } := h.setFuncs fs h.natives

theorem Inv.setLimits (h : Inv vm) (l : Limits) : Inv { vm with limits := l } :=
  Cc.inv_of h rfl rfl rfl rfl rfl rfl rfl h.heap.statics rfl rfl h.instrs h.natives (List.prefix_refl _)

theorem Inv.setLeft (h : Inv vm) (k : Nat) : Inv (setInstructionLimit k vm) :=
  Cc.inv_of h rfl rfl rfl rfl rfl rfl rfl h.heap.statics rfl rfl h.instrs h.natives (List.prefix_refl _)

theorem Inv.setGC (h : Inv vm) {g : GCInfo} (hg : g.lastGCPass = vm.gc.lastGCPass) : Inv { vm with gc := g } :=
  (I.set_counters ⟨h, rfl⟩ hg vm.instrLeft).inv

theorem setGCInterval_inv (k : Nat) (h : Inv vm) : Inv (setGCInterval k vm) := by
  unfold setGCInterval; exact h.setGC (by exact Eq.refl _)

theorem setNewObjInterval_inv (k : Nat) (h : Inv vm) : Inv (setNewObjInterval k vm) := by
  unfold setNewObjInterval; exact h.setGC (by exact Eq.refl _)

/-! ## Calls of the API -/

variable (F : FloatOps)

theorem clearPublic_good (hc : B .cast) (ha : B .assert) (v key : Value) : Good B (clearPublic F v key) := by
  refine .of fun n vm h => ?_
  unfold clearPublic
  refine (objFromValue_safe h v).bind fun r vm1 ⟨e, hr⟩ => ?_
  subst e
  match r, hr with
  | none, _ => exact (addError_safe h _).mono fun _ _ h => h.i
  | some (id, o), hr => exact (clearEntry_safe F hc (.inl ha) h (hr id o rfl).2 key).mono fun _ _ h => h.1

theorem storePublic_good (hc : B .cast) (v key x : Value) : Good B (storePublic F v key x) := by
  refine .of fun n vm h => ?_
  unfold storePublic
  refine (objFromValue_safe h v).bind fun r vm1 ⟨e, hr⟩ => ?_
  subst e
  match r, hr with
  | none, _ => exact (addError_safe h _).bind fun _ _ h => Safe.pure h.i
  | some (id, o), hr =>
    refine (findOrAddEntry_safe F hc h (hr id o rfl).2 key false).bind fun p v2 ⟨h2, _, _, h5, _⟩ => ?_
    match p, h5 with
    | none, _ => exact Safe.pure h2
    | some p, h5 => exact (writeElem_safe h2 (h5 p rfl) x).bind fun _ _ h => Safe.pure h.1

theorem typeOf_entry {n : Nat} (h : I n vm) {id : Nat} {o : Obj} (he : vm.objects.entry id = some o) :
    typeOf vm (.obj id) = some o.extType := by
  have e := getObj_run h.tab id
  unfold getObj at e
  cases hg : vm.objects.get id with
  | ub k => rw [hg] at e; cases e
  | ok x =>
    rw [hg] at e
    have hx : x = vm.objects.entry id := by injection e with e; injection e
    unfold typeOf
    simp only [hg, hx, he]

theorem setTypeApi_good (hf : B .fuel) (v : Value) (t : Nat) : Good B (setTypeApi v t) := by
  refine .of fun n vm h => ?_
  unfold setTypeApi
  refine Safe.get ?_
  by_cases hc : t = vm.coType ∨ typeOf vm v = some vm.coType
  · rw [if_pos hc]; exact Safe.ub (liftR_ub _ _) hf
  · rw [if_neg hc]
    unfold setExtType
    refine (objFromValue_safe h v).bind fun r vm1 ⟨e, hr⟩ => ?_
    subst e
    match r, hr with
    | none, _ => exact (addError_safe h _).bind fun _ _ h => Safe.pure h.i
    | some (id, o), hr =>
      obtain ⟨rfl, he⟩ := hr id o rfl
      rw [typeOf_entry h he] at hc
      exact (Safe.ok (Q := fun _ vm' => I n vm') (setObj_run h.tab he { o with extType := t })
        (h.setExt he (fun x => hc (.inr (by rw [x]))) (fun x => hc (.inl x)) rfl rfl rfl)).bind fun _ _ h => Safe.pure h

theorem setDataApi_good (hf : B .fuel) (v : Value) (d : Nat) : Good B (setDataApi v d) := by
  refine .of fun n vm h => ?_
  unfold setDataApi
  refine Safe.get ?_
  by_cases hc : typeOf vm v = some vm.coType
  · rw [if_pos hc]; exact Safe.ub (liftR_ub _ _) hf
  · rw [if_neg hc]
    unfold setExtData
    refine (objFromValue_safe h v).bind fun r vm1 ⟨e, hr⟩ => ?_
    subst e
    match r, hr with
    | none, _ => exact (addError_safe h _).bind fun _ _ h => Safe.pure h.i
    | some (id, o), hr =>
      obtain ⟨rfl, he⟩ := hr id o rfl
      rw [typeOf_entry h he] at hc
      have hn : o.extType ≠ vm1.coType := fun x => hc (by rw [x])
      exact (Safe.ok (Q := fun _ vm' => I n vm') (setObj_run h.tab he { o with extData := some d }) (h.setExt he hn hn rfl rfl rfl)).bind fun _ _ h => Safe.pure h

theorem acquireHandle_good (ha : B .assert) (v : Value) : Good B (acquireHandle v) := by
  intro vm hi
  have h : I _ vm := ⟨hi, rfl⟩
  unfold acquireHandle
  refine (objFromValue_safe h v).bind fun r vm1 ⟨e, hr⟩ => ?_
  subst e
  match r, hr with
  | none, _ => exact (addError_safe h _).mono fun _ _ h => h.i.inv
  | some (id, o), hr =>
    obtain ⟨rfl, he⟩ := hr id o rfl
    dsimp only
    split
    · exact Safe.ok (setObj_run h.tab he _) (h.setCount he _).inv
    · split
      · exact (Safe.ok (Q := fun _ vm' => I _ vm') (setObj_run h.tab he _) (h.setCount he _)).bind fun _ _ h => (addError_safe h _).mono fun _ _ h => h.i.inv
      · refine Safe.get ?_
        split
        · exact Safe.ub (liftR_ub _ _) ha
        · refine (Safe.ok (setObj_run h.tab he _) (Q := fun _ x => x = vm1.setO id _) rfl).bind fun _ v2 e2 => ?_
          subst e2
          have h2 := (h.setCount he (u32 (o.handleCount + 1))).inv
          refine Safe.ok (modify_run _ _) (h2.setHandles ?_)
          intro j hj
          rcases List.mem_cons.mp hj with rfl | hj
          · exact ⟨_, by rw [setO_entry h.tab he, if_pos rfl]⟩
          · exact h2.heap.handles j hj

theorem releaseHandle_good (ha : B .assert) (v : Value) : Good B (releaseHandle v) := by
  intro vm hi
  have h : I _ vm := ⟨hi, rfl⟩
  unfold releaseHandle
  refine (objFromValue_safe h v).bind fun r vm1 ⟨e, hr⟩ => ?_
  subst e
  match r, hr with
  | none, _ => exact (addError_safe h _).mono fun _ _ h => h.i.inv
  | some (id, o), hr =>
    obtain ⟨rfl, he⟩ := hr id o rfl
    have rest : ∀ k vm2, I vm1.gc.lastGCPass vm2 → vm2.objects = vm1.objects →
        Safe B (do
          setObj id { o with handleCount := k }
          if k > 0 then return ()
          else do
            let vm ← get
            if id ∈ vm.handles then modify fun vm => { vm with handles := vm.handles.erase id }
            else liftR (.ub .assert)) vm2 fun _ vm' => Inv vm' := by
      intro k vm2 h2 e2
      have he2 : vm2.objects.entry id = some o := by rw [e2]; exact he
      refine (Safe.ok (Q := fun _ vm' => I _ vm') (setObj_run h2.tab he2 _) (h2.setCount he2 _)).bind fun _ v3 h3 => ?_
      split
      · exact Safe.pure h3.inv
      · refine Safe.get ?_
        split
        · exact Safe.ok (modify_run _ _) (h3.inv.setHandles fun j hj => h3.inv.heap.handles j (List.mem_of_mem_erase hj))
        · exact Safe.ub (liftR_ub _ _) ha
    dsimp only
    split
    · exact (addError_safe h _).bind fun _ v2 h2 => rest (usub o.handleCount 1) v2 h2.i h2.obj
    · exact rest (usub o.handleCount 1) _ h rfl

theorem registerExternalType_good (t : ExtType) : Good B (registerExternalType t) := by
  unfold registerExternalType
  refine .get fun vm => ?_
  split
  · exact (Good.err _).bind fun _ => .pure _
  · split
    · exact (Good.err _).bind fun _ => .pure _
    · exact (Good.modify fun v h => h.addType t).bind fun _ => .pure _

theorem registerNative_safe (h : Inv vm) (name : Bytes) (cb : Option Nat) :
    Safe B (registerNative name cb) vm fun e vm' => Inv vm' ∧ (e = UINT_MAX ∨ e < vm'.extFuncs.length) := by
  unfold registerNative
  refine Safe.get ?_
  dsimp only
  split
  · unfold registerNativeNoSearch
    refine Safe.get ?_
    split
    · exact (addError_safe ⟨h, rfl⟩ _).bind fun _ _ h => Safe.pure ⟨h.i.inv, .inl rfl⟩
    · refine (Safe.ok (modify_run _ _) (Q := fun _ x => x = _) rfl).bind fun _ v2 e2 => ?_
      subst e2
      refine Safe.pure ⟨h.setNatives ?_, .inr (by simp)⟩
      intro f hf hne
      rcases List.mem_append.mp hf with hf | hf
      · exact h.natives f hf hne
      · rw [List.mem_singleton] at hf; subst hf; exact absurd rfl hne
  · next hne =>
    refine Safe.pure ⟨h, .inr ?_⟩
    have := (findNativeFrom_le (name := name) (cb := cb) (fs := vm.extFuncs) (i := 0)).2
    omega

theorem setupNative_good (name : Bytes) (cb : Option Nat) (args : Option (List (Nat × Nat))) :
    Good B (setupNative name cb args) := by
  intro vm h
  unfold setupNative
  refine (registerNative_safe h name cb).bind fun e v1 ⟨h1, he⟩ => ?_
  split
  · exact Safe.pure h1
  · next hne =>
    have hlt : e < v1.extFuncs.length := he.resolve_left hne
    refine Safe.get ?_
    have hf : v1.extFuncs[e]? = some v1.extFuncs[e] := List.getElem?_eq_getElem hlt
    have key : ∀ argc ts es, (argc ≠ UINT_MAX → ts.length = argc ∧ es.length = argc) →
        Safe B (declareArgs e argc ts es >>= fun _ => Pure.pure e) v1 fun _ vm' => Inv vm' := by
      intro argc ts es hl
      unfold declareArgs
      refine Safe.bind (Q := fun _ vm' => Inv vm') (Safe.get ?_) fun _ _ h => Safe.pure h
      rw [hf]
      refine Safe.ok (modify_run _ _) (h1.setNatives ?_)
      intro f hf hne
      rcases List.mem_or_eq_of_mem_set hf with hf | rfl
      · exact h1.natives f hf hne
      · exact hl hne
    cases args with
    | some l => exact key _ _ _ fun _ => ⟨by simp, by simp⟩
    | none =>
      dsimp only
      rw [hf]
      exact key _ _ _ fun hx => absurd rfl hx

theorem createFunction_good (hl : B .longjmp) : Good B createFunction := by
  unfold createFunction
  refine .get fun vm => ?_
  split
  · exact .stop hl
  · exact (Good.modify fun v h => h.setFunctions _).bind fun _ => .pure _

theorem createFunction_natives {id : Nat} {vm' : VM} (h : createFunction vm = .ok (id, vm')) : vm'.extFuncs = vm.extFuncs := by
  unfold createFunction at h
  rw [M.bind_ok (get_run vm)] at h
  split at h
  · cases h
  · rw [M.bind_ok (modify_run _ _)] at h
    cases h; rfl

theorem internalFor_good (hl : B .longjmp) (e : Nat) : Good B (internalFor e) := by
  intro vm hi
  unfold internalFor
  refine Safe.get ?_
  cases hf : vm.extFuncs[e]? with
  | none => exact (addError_safe ⟨hi, rfl⟩ _).bind fun _ _ h => Safe.pure h.i.inv
  | some f =>
    dsimp only
    split
    · have hg := createFunction_good hl vm hi
      refine Safe.bind (Q := fun _ vm' => Inv vm' ∧ vm'.extFuncs = vm.extFuncs) ?_ fun id v1 ⟨h1, h2⟩ => ?_
      · unfold Safe at hg ⊢
        cases hx : createFunction vm with
        | ub k => rw [hx] at hg; exact hg
        | ok p => rw [hx] at hg; exact ⟨hg, createFunction_natives hx⟩
      · refine (Safe.ok (modify_run _ _) (Q := fun _ x => Inv x) ?_).bind fun _ _ h => Safe.pure h
        refine h1.setFuncs _ ?_
        intro g hg hne
        rcases List.mem_or_eq_of_mem_set hg with hg | rfl
        · exact h1.natives g hg hne
        · rw [h2] at *
          exact hi.natives f (List.mem_of_getElem? hf) hne
    · exact Safe.pure hi

/-! ## Running scripts -/

variable (H : Host) {K : UB → Prop}

theorem iterate_good (hH : HostOK H K) (hK : ∀ k, K k → B k) (ho : B .overflow) (hc : B .cast) (ha : B .assert) (hf : B .fuel) :
    Good B (guarded (iterate F H)) :=
  .guard hf fun _ hi hn => iterate_safe F H hH hK hi ho hc (fun _ => ha) hn

theorem callLoopApi_good (hI : Good B (guarded (iterate F H))) (k : Nat) : Good B (callLoopApi F H k) := by
  have hcur : Good B curCtx := fun vm hi => (curCtx_safe (I.mk hi rfl)).mono fun _ _ h => by rw [h.1]; exact hi
  induction k with
  | zero => exact hcur.bind fun c => .get fun vm => .pure _
  | succ k ih =>
    unfold callLoopApi
    refine hcur.bind fun c => .get fun vm => ?_
    split
    · exact .pure _
    · exact hI.bind fun _ => ih

theorem modIp_good (g : Ctx → Nat) : Good B (modCur fun c => { c with ip := g c }) :=
  .of fun _ _ h => (h.modIp g).mono fun _ _ h => h.1

theorem callEnter_safe (hH : HostOK H K) (hK : ∀ k, K k → B k) (hc : B .cast) (fv : Value) (args : List Value) (hi : Inv vm)
    (hn : vm.gc.lastGCPass + 2 < 4294967296) : Safe B (callEnter F H fv args) vm fun _ vm' => Inv vm' := by
  unfold callEnter
  refine (push_safe (I.mk hi rfl) fv).bind fun _ v1 h1 => ?_
  refine (pushAll_safe args h1.i).bind fun _ v2 h2 => ?_
  refine (pushInt_safe h2.1 _).bind fun _ v3 h3 => ?_
  refine (h3.i.modIp _).bind fun _ v4 h4 => ?_
  refine (opCall_safe F H hH hK hc h4.1 (by omega)).bind fun _ v5 h5 => ?_
  obtain ⟨m, h5⟩ := h5
  refine Safe.get ?_
  split
  · exact Safe.pure h5.inv
  · exact (h5.modIp _).bind fun _ _ h => Safe.pure h.1.inv

theorem callApi_good (hH : HostOK H K) (hK : ∀ k, K k → B k) (ho : B .overflow) (hc : B .cast) (ha : B .assert) (hf : B .fuel)
    (fuel : Nat) (fv : Value) (args : List Value) : Good B (callApi F H fuel fv args) := by
  have hcur : Good B curCtx := fun vm hi => (curCtx_safe (I.mk hi rfl)).mono fun _ _ h => by rw [h.1]; exact hi
  unfold callApi
  split
  · refine hcur.bind fun c => ?_
    refine Good.bind (.guard hf fun vm hi hn => callEnter_safe F H hH hK hc _ _ hi hn) fun go => ?_
    split
    · refine (callLoopApi_good F H (iterate_good F H hH hK ho hc ha hf) fuel).bind fun st => ?_
      split
      · exact Good.bind (.of fun _ _ h => (pop_safe h).mono fun _ _ h => h.i) fun v => (modIp_good _).bind fun _ => .pure _
      · exact .stop hf
    · exact .pure _
  · exact (Good.err _).bind fun _ => .pure _

theorem atEnd_safe (hi : Inv vm) : Safe B atEnd vm fun _ vm' => vm' = vm := by
  unfold atEnd
  refine (curCtx_safe (I.mk hi rfl)).bind fun c v1 ⟨e, _⟩ => ?_
  subst e
  refine Safe.get ?_
  obtain ⟨w, hw⟩ := instrAt_ok (I.mk hi rfl) c.ip
  rw [hw]
  exact (Safe.ok (liftR_ok w _) rfl).bind fun _ _ h => Safe.pure h

theorem iterateApi_good (hI : Good B (guarded (iterate F H))) (k : Nat) : Good B (iterateApi F H k) := by
  induction k with
  | zero => exact .pure _
  | succ k ih =>
    unfold iterateApi
    refine Good.bind ?_ fun e => ?_
    · exact fun vm hi => (atEnd_safe hi).mono fun _ _ h => by rw [h]; exact hi
    · split
      · exact hI
      · refine .get fun vm => ?_
        split
        · exact .pure _
        · exact hI.bind fun _ => ih

theorem Api.run_good (hH : HostOK H K) (hK : ∀ k, K k → B k) (ho : B .overflow) (hc : B .cast) (ha : B .assert) (hf : B .fuel)
    (hl : B .longjmp) (fuel : Nat) (p : Api) : Good B (p.run F H fuel) := by
  induction p with
  | done r => exact .pure _
  | look k ih => exact .get fun vm => ih vm
  | error msg k ih => exact (Good.err _).bind fun _ => ih
  | string s k ih => exact Good.bind (.of fun _ _ h => (findOrAddString_safe h s).mono fun _ _ h => h.1) fun _ => ih _
  | toInt v k ih => exact Good.bind (.of fun _ _ h => (valueToInt_safe hc h v).mono fun _ _ h => h.1) fun _ => ih _
  | toFloat v k ih => exact Good.bind (.of fun _ _ h => (valueToFloat_safe F h v).mono fun _ _ h => h.1) fun _ => ih _
  | toText v k ih => exact Good.bind (.of fun _ _ h => (valueToString_safe F h v).mono fun _ _ h => h.1) fun _ => ih _
  | create k ih => exact Good.bind (.of fun _ _ h => (createObject_safe h).mono fun _ _ h => h.1) fun _ => ih _
  | clear o key k ih => exact (clearPublic_good F hc ha o key).bind fun _ => ih
  | find o key k ih => exact Good.bind (.of fun _ _ h => (lookupPublic_safe F hc h o key).mono fun _ _ h => h.1) fun _ => ih _
  | store o key v k ih => exact (storePublic_good F hc o key v).bind fun _ => ih _
  | size o k ih => exact Good.bind (.of fun _ _ h => (objectSize_safe h o).mono fun _ _ h => h.1) fun _ => ih _
  | acquire o k ih => exact (acquireHandle_good ha o).bind fun _ => ih
  | release o k ih => exact (releaseHandle_good ha o).bind fun _ => ih
  | setType o t k ih => exact (setTypeApi_good hf o t).bind fun _ => ih _
  | setData o d k ih => exact (setDataApi_good hf o d).bind fun _ => ih _
  | type t k ih => exact (registerExternalType_good t).bind fun _ => ih _
  | setup name cb args k ih => exact (setupNative_good name cb args).bind fun _ => ih _
  | function e k ih => exact (internalFor_good hl e).bind fun _ => ih _
  | limits l k ih => exact (Good.modify fun _ h => h.setLimits l).bind fun _ => ih
  | left n k ih => exact (Good.modify fun _ h => h.setLeft n).bind fun _ => ih
  | interval n k ih => exact (Good.modify fun _ h => setGCInterval_inv n h).bind fun _ => ih
  | newInterval n k ih => exact (Good.modify fun _ h => setNewObjInterval_inv n h).bind fun _ => ih
  | collect k ih =>
    refine Good.bind (.guard hf fun vm hi hn => ?_) fun _ => ih
    obtain ⟨vm', e, c⟩ := garbageCollect_run H hi.heap (by omega)
    exact Safe.ok e (hi.collected H c)
  | call f args k ih => exact (callApi_good F H hH hK ho hc ha hf fuel f args).bind fun _ => ih _
  | iterate n k ih => exact (iterateApi_good F H (iterate_good F H hH hK ho hc ha hf) n).bind fun _ => ih

end Nk
