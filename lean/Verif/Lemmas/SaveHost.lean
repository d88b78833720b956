import Verif.Model.SaveHost
import Verif.Lemmas.SaveRestored
import Verif.Spec.SaveHost
/-!
# Saving and loading with serialization callbacks
-/
namespace Nk.Save
variable {F : FloatOps} {K : Callbacks}

theorem takeBytes_run {n : Bytes → Nat} {s r : Bytes} (h : n (s ++ r) = s.length) (v : VM) :
    takeBytes n (s ++ r) v = .ok ((some s, r), v) := by
  unfold takeBytes
  rw [h]
  show Res.ok _ = _
  simp

/-- A loop that reads one element of a list per round. -/
theorem timesCalls_run {α : Type} {f : Nat → L (List Call)} {g : α → Bytes} {c : α → List Call} {v : VM} (l : List α) (i : Nat)
    (h : ∀ j x, l[j]? = some x → ∀ r, f (i + j) (g x ++ r) v = .ok ((some (c x), r), v)) (r : Bytes) :
    timesCalls f i l.length (l.flatMap g ++ r) v = .ok ((some (l.flatMap c), r), v) := by
  induction l generalizing i with
  | nil => rfl
  | cons x l ih =>
    rw [List.flatMap_cons, List.append_assoc, List.length_cons]
    unfold timesCalls
    have h0 := h 0 x rfl (l.flatMap g ++ r)
    rw [Nat.add_zero] at h0
    rw [L.bind_some h0]
    have h1 := ih (i + 1) (fun j y hy r => by
      have := h (j + 1) y hy r
      rwa [show i + (j + 1) = i + 1 + j by omega] at this)
    rw [L.bind_some h1]
    rfl

/-! ## Subsystems -/

/-- The bytes of one subsystem. -/
def subBytes (K : Callbacks) (s : Subsystem) : Bytes := textBytes s.name ++ (if s.hasSerialize then K.subWrite s.data else [])

/-- The bytes of the subsystems. -/
def subImageWith (K : Callbacks) (vm : VM) : Bytes :=
  le32 vm.subsystems.flatten.length ++ vm.subsystems.flatten.flatMap (subBytes K)

theorem saveSubsystemsWith_writes {vm : VM} (h : ∀ s ∈ vm.subsystems.flatten, Text s.name) :
    Writes (saveSubsystemsWith K) vm (subImageWith K vm) := by
  unfold saveSubsystemsWith Writes
  rw [M.bind_ok (get_run _)]
  refine Writes.andThen .emit (.all fun e he => ?_)
  unfold saveSubWith subBytes
  refine Writes.andThen (.string (h e he).2) ?_
  split <;> exact .emit

theorem loadSubsystemsWith_run {vm v : VM} (h : ∀ s ∈ vm.subsystems.flatten, Text s.name)
    (hn : vm.subsystems.flatten.length < 4294967296)
    (hv : ∀ s ∈ vm.subsystems.flatten, ∃ b t, v.subsystems[subBucket s.name]? = some b ∧ findSub s.name b = some t)
    (hk : SubsReadBack K vm v) (r : Bytes) :
    loadSubsystemsWith K (subImageWith K vm ++ r) v = .ok ((some (subCalls K vm v), r), v) := by
  unfold loadSubsystemsWith subImageWith subCalls
  rw [List.append_assoc, L.bind_some (read32_run hn _ _)]
  refine timesCalls_run vm.subsystems.flatten 0 ?_ r
  intro j s hs r
  have hm := List.mem_of_getElem? hs
  obtain ⟨b, t, h1, h2⟩ := hv s hm
  have hsame : namesake v s.name = some t := by
    unfold namesake
    rw [h1]
    exact h2
  obtain ⟨e, hr⟩ := hk s hm t hsame
  unfold subBytes loadSubWith textBytes subCall
  rw [hsame]
  rw [List.append_assoc, List.append_assoc, L.bind_some (loadString_run (h s hm) _ _), L.bind_some (get_lift _ _), h1]
  dsimp only
  rw [h2, e]
  dsimp only
  cases hse : t.hasSerialize with
  | false => rfl
  | true =>
    rw [if_pos rfl, if_pos rfl, if_pos rfl]
    rw [L.bind_some (takeBytes_run (hr (e.trans hse) r) _)]
    rfl

/-! ## External objects -/

/-- The bytes of one object. -/
def extBytesWith (K : Callbacks) (vm : VM) (e : Nat × Obj) : Bytes :=
  if e.2.extType = vm.coType then ctxImage (ctxOf vm e.2) true
  else if hasCallback vm e.2 then K.objWrite e.2.extType e.1 e.2.extData else []

/-- The bytes of the objects. -/
def extImageWith (K : Callbacks) (vm : VM) : Bytes := (entriesFrom 0 vm.objects.slots).flatMap (extBytesWith K vm)

theorem saveExtObjectWith_writes {vm : VM} (h : CoOK vm) {id : Nat} {o : Obj} (he : vm.objects.entry id = some o) :
    Writes (saveExtObjectWith K (id, o)) vm (extBytesWith K vm (id, o)) := by
  have hold := saveExtObject_writes h he
  obtain ⟨t, ht, hs⟩ := h.serialize
  obtain ⟨t', -, -, -, hu⟩ := h.wf.type
  unfold saveExtObject Writes extBytes at hold
  unfold saveExtObjectWith Writes extBytesWith
  rw [M.bind_ok (get_run _)] at hold ⊢
  dsimp only at hold ⊢
  by_cases hc : o.extType = vm.coType
  · rw [if_pos (by rw [hc]; exact hu), if_pos hc, hc, ht] at hold ⊢
    dsimp only at hold ⊢
    rw [if_pos ⟨hs, rfl⟩] at hold
    rw [if_pos hs, if_pos rfl]
    exact hold
  · simp only [if_neg hc]
    by_cases hx : o.extType = UINT_MAX
    · have hb : hasCallback vm o = false := by unfold hasCallback; simp [hx]
      rw [hb, if_neg (not_not.mpr hx)]
      rfl
    · rw [if_pos hx]
      cases hn : vm.extTypes[o.extType]? with
      | none =>
        rcases h.types id o he with h1 | h1
        · contradiction
        · rw [List.getElem?_eq_none_iff] at hn; omega
      | some t =>
        dsimp only
        have hb : hasCallback vm o = t.hasSerialize := by
          unfold hasCallback
          rw [hn]
          simp [hx, hc]
        rw [hb]
        split <;> rfl

theorem saveExtObjectsWith_writes {vm : VM} (h : CoOK vm) (hl : vm.objects.slots.length = vm.objects.cap) :
    Writes (saveExtObjectsWith K) vm (extImageWith K vm) := by
  unfold saveExtObjectsWith Writes
  have : liftR (entries vm.objects) vm = .ok (entriesFrom 0 vm.objects.slots, vm) := by rw [entries_run hl]; rfl
  rw [M.bind_ok (get_run _), M.bind_ok this]
  refine Writes.all fun e he => ?_
  obtain ⟨id, o⟩ := e
  rw [mem_entriesFrom] at he
  exact saveExtObjectWith_writes h (by simpa [Table.entry] using congrArg Option.join he.2)

theorem loadExtObjectWith_run {vm v : VM} {pre post : List (Option Obj)} {cs : List (Option Ctx)} {o : Obj} (h : CoOK vm)
    (he : v.extTypes = vm.extTypes) (hT : v.coType = vm.coType) (hlim : v.limits = vm.limits)
    (hi : pre.length < v.objects.cap) (ho : vm.objects.entry pre.length = some o) (hk : ObjsReadBack K vm) (r : Bytes) :
    loadExtObjectWith K pre.length (extBytesWith K vm (pre.length, o) ++ r)
      (extState v (pre ++ some (loadedObj v o) :: post) cs) =
      .ok ((some (objCall K vm (pre.length, o)), r), extState v
        (pre ++ (place vm.coType cs.length [some (loadedObj v o)]) ++ post) (cs ++ newCtxs vm pre.length [some o])) := by
  have hold := loadExtObject_run (post := post) (cs := cs) h he hT hlim hi ho r
  obtain ⟨t, ht, hs⟩ := h.serialize
  obtain ⟨t', -, -, -, hu⟩ := h.wf.type
  have hread : ∀ (b : Bytes) (w : VM),
      lift (liftR ((extState v (pre ++ some (loadedObj v o) :: post) cs).objects.read pre.length)) b w =
        .ok ((some (some (loadedObj v o)), b), w) := by
    intro b w
    have : (extState v (pre ++ some (loadedObj v o) :: post) cs).objects.read pre.length = .ok (some (loadedObj v o)) := by
      simp [Table.read, extState]
    rw [this]; rfl
  have hty : (loadedObj v o).extType = o.extType := rfl
  have hex : (extState v (pre ++ some (loadedObj v o) :: post) cs).extTypes = vm.extTypes := he
  have hco : (extState v (pre ++ some (loadedObj v o) :: post) cs).coType = vm.coType := hT
  unfold loadExtObject at hold
  rw [L.bind_some (get_lift _ _), L.bind_some (hread _ _)] at hold
  dsimp only at hold
  rw [hex, hco, hty] at hold
  unfold loadExtObjectWith
  rw [L.bind_some (get_lift _ _), L.bind_some (hread _ _)]
  dsimp only
  rw [hex, hco, hty]
  unfold extBytes at hold
  unfold extBytesWith objCall
  dsimp only at hold ⊢
  by_cases hc : o.extType = vm.coType
  · have hb : hasCallback vm o = false := by unfold hasCallback; simp [hc]
    rw [if_pos (by rw [hc]; exact hu), if_pos hc] at hold ⊢
    rw [hc, ht] at hold ⊢
    dsimp only at hold ⊢
    rw [if_pos ⟨hs, rfl⟩] at hold
    rw [if_pos hs, if_pos rfl, L.bind_some hold, hb]
    rfl
  · simp only [if_neg hc]
    have hst : extState v (pre ++ some (loadedObj v o) :: post) cs = extState v
        (pre ++ (place vm.coType cs.length [some (loadedObj v o)]) ++ post) (cs ++ newCtxs vm pre.length [some o]) := by
      simp [place, newCtxs, hty, hc]
    rw [← hst]
    by_cases hx : o.extType = UINT_MAX
    · have hb : hasCallback vm o = false := by unfold hasCallback; simp [hx]
      rw [if_neg (not_not.mpr hx), hb]
      rfl
    · rw [if_pos hx]
      cases hn : vm.extTypes[o.extType]? with
      | none =>
        rcases h.types pre.length o ho with h1 | h1
        · contradiction
        · rw [List.getElem?_eq_none_iff] at hn; omega
      | some t =>
        dsimp only
        have hb : hasCallback vm o = t.hasSerialize := by
          unfold hasCallback
          rw [hn]
          simp [hx, hc]
        rw [hb]
        cases hse : t.hasSerialize with
        | false => rfl
        | true =>
          rw [if_pos rfl, if_pos rfl, if_pos rfl]
          rw [L.bind_some (takeBytes_run (hk _ _ ho (hb.trans hse) r) _)]
          rfl

theorem loadExtLoopWith_run {vm v : VM} (h : CoOK vm) (he : v.extTypes = vm.extTypes) (hT : v.coType = vm.coType)
    (hlim : v.limits = vm.limits) (hk : ObjsReadBack K vm) (r : Bytes) (xs : List (Option Obj)) :
    ∀ (pre : List (Option Obj)) (cs : List (Option Ctx)), pre.length + xs.length ≤ v.objects.cap →
    (∀ k o, xs[k]? = some (some o) → vm.objects.entry (pre.length + k) = some o) →
    timesCalls (loadExtObjectWith K) pre.length xs.length ((entriesFrom pre.length xs).flatMap (extBytesWith K vm) ++ r)
      (extState v (pre ++ xs.map (·.map (loadedObj v))) cs) =
      .ok ((some ((entriesFrom pre.length xs).flatMap (objCall K vm)), r),
        extState v (pre ++ place vm.coType cs.length (xs.map (·.map (loadedObj v)))) (cs ++ newCtxs vm pre.length xs)) := by
  induction xs with
  | nil => intro pre cs _ _; simp [entriesFrom, timesCalls, place, newCtxs]; rfl
  | cons o xs ih =>
    intro pre cs hlen hx
    have hlen' : pre.length + (xs.length + 1) ≤ v.objects.cap := hlen
    have hrest : ∀ (o' : Option Obj), ∀ k o, xs[k]? = some (some o) →
        vm.objects.entry ((pre ++ [o']).length + k) = some o := by
      intro o' k o hk
      have := hx (k + 1) o hk
      rw [List.length_append, List.length_singleton, Nat.add_assoc, Nat.add_comm 1 k]
      exact this
    rw [List.length_cons]
    unfold timesCalls
    cases o with
    | none =>
      rw [entriesFrom]
      have hstep : ∀ b : Bytes, loadExtObjectWith K pre.length b
          (extState v (pre ++ (none :: xs).map (·.map (loadedObj v))) cs) =
          .ok ((some [], b), extState v (pre ++ (none :: xs).map (·.map (loadedObj v))) cs) := by
        intro b
        unfold loadExtObjectWith
        have hread : ∀ (b : Bytes) (w : VM),
            lift (liftR ((extState v (pre ++ (none :: xs).map (·.map (loadedObj v))) cs).objects.read pre.length)) b w =
              .ok ((some none, b), w) := by
          intro b w
          have : (extState v (pre ++ (none :: xs).map (·.map (loadedObj v))) cs).objects.read pre.length = .ok none := by
            simp [Table.read, extState]
          rw [this]; rfl
        rw [L.bind_some (get_lift _ _), L.bind_some (hread _ _)]
        rfl
      rw [L.bind_some (hstep _)]
      have := ih (pre ++ [none]) cs (by simp; omega) (hrest none)
      simp only [List.length_append, List.length_cons, List.length_nil, List.append_assoc, List.singleton_append,
        Nat.zero_add] at this
      refine (L.bind_some this).trans ?_
      rfl
    | some o =>
      rw [entriesFrom, List.flatMap_cons, List.append_assoc]
      have ho := hx 0 o rfl
      rw [Nat.add_zero] at ho
      have step := loadExtObjectWith_run (v := v) (post := xs.map (·.map (loadedObj v))) (cs := cs) h he hT hlim (by omega) ho
        hk ((entriesFrom (pre.length + 1) xs).flatMap (extBytesWith K vm) ++ r)
      refine (L.bind_some step).trans ?_
      obtain ⟨y, hy⟩ : ∃ y, place vm.coType cs.length [some (loadedObj v o)] = [y] := by
        by_cases hc : o.extType = vm.coType
        · exact ⟨_, by simp [place, loadedObj, hc]; rfl⟩
        · exact ⟨_, by simp [place, loadedObj, hc]; rfl⟩
      have := ih (pre ++ [y]) (cs ++ newCtxs vm pre.length [some o]) (by simp; omega) (hrest y)
      rw [hy]
      rw [List.length_append, List.length_singleton] at this
      refine (L.bind_some this).trans ?_
      rw [List.map_cons, place_append, newCtxs_append vm pre.length xs, List.length_append, newCtxs_length]
      simp only [Option.map_some, hy, List.append_assoc]
      have : (∃ x, some (loadedObj v o) = some x ∧ x.extType = vm.coType) ↔ ∃ x, some o = some x ∧ x.extType = vm.coType := by
        constructor
        · rintro ⟨x, h1, h⟩; cases h1; exact ⟨o, rfl, h⟩
        · rintro ⟨x, h1, h⟩; cases h1; exact ⟨_, rfl, h⟩
      simp only [this]
      rfl

theorem loadExtObjectsWith_run {vm v w : VM} (h : CoOK vm) (he : v.extTypes = vm.extTypes) (hT : v.coType = vm.coType)
    (hlim : v.limits = vm.limits) (hl : vm.objects.slots.length = vm.objects.cap)
    (hs : v.objects.slots = vm.objects.slots.map (·.map (loadedObj w))) (hw : w.strings = v.strings)
    (hc : v.objects.cap = vm.objects.cap) (hk : ObjsReadBack K vm) (r : Bytes) :
    loadExtObjectsWith K (extImageWith K vm ++ r) v = .ok ((some (objCalls K vm), r), extLoaded vm v) := by
  unfold loadExtObjectsWith extImageWith objCalls
  rw [L.bind_some (get_lift _ _), hc, ← hl]
  have hlo : loadedObj w = loadedObj v := by
    funext o
    unfold loadedObj
    have : (fun p : Value × Value => slot w p.1) = fun p => slot v p.1 := funext fun p => slot_congr hw _
    rw [this]
  rw [hlo] at hs
  have key := loadExtLoopWith_run (v := v) h he hT hlim hk r vm.objects.slots [] v.ctxs (by simp; omega)
    (fun k o hk => by simp [Table.entry, hk])
  simp only [List.nil_append, List.length_nil] at key
  rw [← hs] at key
  exact key

/-! ## The whole -/

theorem saveWith_run {vm : VM} (h : Saveable vm) {l : List Nat} (hp : Path vm (vm.cur :: l)) (hn : (vm.cur :: l).Nodup) :
    saveWith K vm = .ok ((true, imageE vm ++ (subImageWith K vm ++ (extImageWith K vm ++ lateImage vm (vm.cur :: l)))),
      { vm with gc := capGc vm.gc }) := by
  obtain ⟨c, hc, -⟩ := h.heap.co.root
  have hc0 : imageA.ctxAt0 vm = c := by unfold imageA.ctxAt0; rw [hc]
  obtain ⟨ks, -, hks⟩ := h.heap.str.tab.pow
  obtain ⟨ko, -, hko⟩ := h.heap.tab.pow
  have hlate : ∀ {l}, Path vm l → Path { vm with gc := capGc vm.gc } l := by
    intro l hl
    induction hl with
    | root h hp ho => exact .root h hp ho
    | next h hp t ih => exact .next h hp ih
  have hco : CoOK { vm with gc := capGc vm.gc } := by
    refine ⟨⟨h.co.wf.root, h.co.wf.stack, h.co.wf.own, h.co.wf.owned, h.co.wf.chain, h.co.wf.type⟩, ?_, h.co.serialize,
      h.co.types, ?_⟩
    · intro i c hc
      have := h.co.ctx i c hc
      exact ⟨this.wf, this.limit, this.alloc, this.fits, this.ip⟩
    · intro i c hi ha hc
      refine h.co.running i c hi ?_ hc
      clear hi hc
      induction ha with
      | cur => exact .cur
      | resumer _ h1 h2 ih => exact .resumer ih h1 h2
  have key : saveWith K vm = .ok ((true, header ++ (instrImage vm ++ (errImage vm ++ (staticImage vm ++ (ctxImage c false ++
      (strImage vm ++ (gcImage vm.gc ++ (funcImage vm ++ (objImage vm ++ (globalImage vm ++ (typeImage vm ++
      (subImageWith K vm ++ (extImageWith K vm ++ (fileImage vm ++ (markerImage vm ++ chainImage vm (vm.cur :: l)))))))))))))))),
      { vm with gc := capGc vm.gc }) := by
    refine andThen_run Writes.emit (andThen_run (saveInstrs_writes h.instrLen h.instrPow) (andThen_run
      (saveErrors_writes h.errors) (andThen_run (saveStatics_writes h.heap.statics h.staticPow) (andThen_run
      (saveContext_writes hc (h.co.ctx 0 c hc) false) (andThen_run
      (saveStrings_writes h.heap.str.tab.len ⟨ks, hks⟩ h.strs) (andThen_run (saveGc_run vm) ?_))))))
    have hf := h.funcs
    refine Writes.andThen (saveFunctions_writes (vm := { vm with gc := capGc vm.gc })
      ⟨hf.natives, hf.name, hf.internal, hf.count, hf.some, hf.argc, hf.first, hf.ext⟩) ?_
    refine Writes.andThen (saveObjects_writes (vm := { vm with gc := capGc vm.gc }) h.heap.tab.len ⟨ko, hko⟩) ?_
    refine Writes.andThen (saveGlobals_writes (vm := { vm with gc := capGc vm.gc }) fun g hg => (h.globals g hg).1) ?_
    have ht := h.types
    refine Writes.andThen (saveTypes_writes (vm := { vm with gc := capGc vm.gc })
      ⟨ht.text, ht.names, ht.count, ht.length, ht.objs⟩) ?_
    refine Writes.andThen (saveSubsystemsWith_writes (vm := { vm with gc := capGc vm.gc }) h.subs) ?_
    refine Writes.andThen (saveExtObjectsWith_writes (vm := { vm with gc := capGc vm.gc }) hco h.heap.tab.len) ?_
    refine Writes.andThen (saveFiles_writes (vm := { vm with gc := capGc vm.gc }) h.files) ?_
    refine Writes.andThen (saveMarkers_writes _) ?_
    exact saveActive_writes (vm := { vm with gc := capGc vm.gc }) (hlate hp) hn
  rw [key]
  unfold imageE lateImage
  rw [hc0]
  simp only [List.append_assoc]

theorem loadWith_eq : loadWith K F = (loadEarly F >>= fun _ => loadSubsystemsWith K >>= fun cs =>
    loadExtObjectsWith K >>= fun ds => loadLate >>= fun _ => pure (cs ++ ds)) := by
  unfold loadWith loadEarly loadLate
  simp only [L.assoc]

theorem loadWith_run {vm v : VM} (h : Saveable vm) (ht : Target vm v) (hreg : Registered vm v.extFuncs) {r : Ctx}
    (hr : v.ctxs = [some r]) (hst : r.stack.WF) (hrs : r.state = .running) (hrp : r.parent = none) {l : List Nat}
    (hp : Path vm (vm.cur :: l)) (hn : (vm.cur :: l).Nodup) (hs : SubsReadBack K vm v) (ho : ObjsReadBack K vm) (b : Bytes) :
    loadWith K F (imageE vm ++ (subImageWith K vm ++ (extImageWith K vm ++ lateImage vm (vm.cur :: l))) ++ b) v =
      .ok ((some (subCalls K vm v ++ objCalls K vm), b), loaded vm v r (vm.cur :: l)) := by
  rw [loadWith_eq]
  simp only [List.append_assoc]
  rw [L.bind_some (loadEarly_run h ht hreg hr hst _)]
  have h1 := loadSubsystemsWith_run (K := K) (v := at10 vm v r) h.subs h.subCount ht.subs hs
    (extImageWith K vm ++ (lateImage vm (vm.cur :: l) ++ b))
  rw [L.bind_some h1]
  have h2 := loadExtObjectsWith_run (vm := vm) (v := at10 vm v r) (w := funcLoaded vm (at7 vm v r)) h.co ht.types
    ht.coType ht.limits h.heap.tab.len at10_slots rfl rfl ho (lateImage vm (vm.cur :: l) ++ b)
  rw [L.bind_some h2, L.bind_some (loadLate_run (r := r) h ht hr hrs hrp hp hn b)]
  rfl

/-! ## Without callbacks -/

theorem andThen_nil (x : W) : (x ⨟ emit []) = x := by
  funext vm
  unfold W.andThen
  rw [M.bind_eq]
  cases x vm with
  | ub k => rfl
  | ok p =>
    obtain ⟨⟨b, s⟩, v⟩ := p
    cases b with
    | false => rfl
    | true =>
      show Res.ok ((true, s ++ []), v) = _
      rw [List.append_nil]

theorem L.bind_congr {α β : Type} {x : L α} {f g : α → L β} (h : ∀ a, f a = g a) : (x >>= f) = (x >>= g) := by
  have : f = g := funext h
  rw [this]

theorem L.pure_bind {α β : Type} (a : α) (f : α → L β) : ((pure a : L α) >>= f) = f a := rfl

theorem L.bind_unit (x : L Unit) : (x >>= fun _ => (pure () : L Unit)) = x := by
  funext b vm
  rw [L.bind_eq]
  cases x b vm with
  | ub k => rfl
  | ok p =>
    obtain ⟨⟨o, b1⟩, v1⟩ := p
    cases o with
    | none => rfl
    | some a => rfl

theorem timesCalls_void (f : Nat → L (List Call)) (n : Nat) : ∀ i,
    (timesCalls f i n >>= fun _ => (pure () : L Unit)) = times (fun i => f i >>= fun _ => (pure () : L Unit)) i n := by
  induction n with
  | zero => intro i; rfl
  | succ n ih =>
    intro i
    unfold timesCalls times
    simp only [L.assoc]
    refine L.bind_congr fun c => ?_
    show _ = times _ (i + 1) n
    rw [← ih]
    refine L.bind_congr fun cs => ?_
    rfl

theorem takeBytes_none {α : Type} {n : Bytes → Nat} (h : ∀ b, n b = 0) (f : Bytes → L α) : (takeBytes n >>= f) = f [] := by
  funext b vm
  rw [L.bind_eq]
  unfold takeBytes
  rw [h]
  rfl

theorem loadSubWith_void (h : ∀ d b, K.subRead d b = 0) :
    (loadSubWith K >>= fun _ => (pure () : L Unit)) = (do
      let name ← loadString
      let vm ← lift get
      match vm.subsystems[subBucket name]? with
      | none => lift (liftR (.ub .oob))
      | some b => match findSub name b with
        | none => reject "External subsystem for serialized external subsystem data cannot be found."
        | some _ => pure ()) := by
  unfold loadSubWith
  rw [L.assoc]
  refine L.bind_congr fun name => ?_
  rw [L.assoc]
  refine L.bind_congr fun vm => ?_
  cases vm.subsystems[subBucket name]? with
  | none => rfl
  | some b =>
    dsimp only
    cases findSub name b with
    | none => rfl
    | some s =>
      dsimp only
      split
      · rw [takeBytes_none (h s.data)]; rfl
      · rfl

theorem loadSubsystemsWith_void (h : ∀ d b, K.subRead d b = 0) :
    (loadSubsystemsWith K >>= fun _ => (pure () : L Unit)) = loadSubsystems := by
  unfold loadSubsystemsWith loadSubsystems
  rw [L.assoc]
  refine L.bind_congr fun n => ?_
  rw [timesCalls_void]
  have : (fun _ : Nat => loadSubWith K >>= fun _ => (pure () : L Unit)) = _ := funext fun _ => loadSubWith_void h
  rw [this]
  rfl

theorem loadExtObjectWith_void (h : ∀ t i b, K.objRead t i b = 0) (i : Nat) :
    (loadExtObjectWith K i >>= fun _ => (pure () : L Unit)) = loadExtObject i := by
  unfold loadExtObjectWith loadExtObject
  rw [L.assoc]
  refine L.bind_congr fun vm => ?_
  rw [L.assoc]
  refine L.bind_congr fun o => ?_
  cases o with
  | none => rfl
  | some o =>
    dsimp only
    by_cases hx : o.extType ≠ UINT_MAX
    · rw [if_pos hx, if_pos hx]
      cases vm.extTypes[o.extType]? with
      | none => rfl
      | some t =>
        dsimp only
        by_cases hs : t.hasSerialize = true
        · rw [if_pos hs]
          by_cases hc : o.extType = vm.coType
          · rw [if_pos hc, if_pos ⟨hs, hc⟩, L.assoc]
            exact L.bind_unit _
          · rw [if_neg hc, if_neg (fun e => hc e.2), takeBytes_none (h _ _)]
            rfl
        · rw [if_neg hs, if_neg (fun e => hs e.1)]
          rfl
    · rw [if_neg hx, if_neg hx]
      rfl

theorem loadExtObjectsWith_void (h : ∀ t i b, K.objRead t i b = 0) :
    (loadExtObjectsWith K >>= fun _ => (pure () : L Unit)) = loadExtObjects := by
  unfold loadExtObjectsWith loadExtObjects
  rw [L.assoc]
  refine L.bind_congr fun vm => ?_
  rw [timesCalls_void]
  have : (fun i : Nat => loadExtObjectWith K i >>= fun _ => (pure () : L Unit)) = _ :=
    funext fun i => loadExtObjectWith_void h i
  rw [this]

theorem loadWith_void (h1 : ∀ d b, K.subRead d b = 0) (h2 : ∀ t i b, K.objRead t i b = 0) :
    (loadWith K F >>= fun _ => (pure () : L Unit)) = load F := by
  rw [loadWith_eq, load_eq, loadPre_eq]
  simp only [L.assoc]
  refine L.bind_congr fun _ => ?_
  rw [← loadSubsystemsWith_void (K := K) h1, L.assoc]
  refine L.bind_congr fun cs => ?_
  show _ = loadPost
  have : loadPost = (loadExtObjects >>= fun _ => loadLate) := rfl
  rw [this, ← loadExtObjectsWith_void (K := K) h2, L.assoc]
  refine L.bind_congr fun ds => ?_
  exact L.bind_unit _

theorem saveWith_none (h1 : ∀ d, K.subWrite d = []) (h2 : ∀ t i d, K.objWrite t i d = []) : saveWith K = save := by
  have a : saveSubsystemsWith K = saveSubsystems := by
    have : saveSubWith K = fun s => saveString s.name := by
      funext s
      unfold saveSubWith
      rw [h1, ite_self]
      exact andThen_nil _
    unfold saveSubsystemsWith saveSubsystems
    rw [this]
  have b : saveExtObjectsWith K = saveExtObjects := by
    have : saveExtObjectWith K = saveExtObject := by
      funext e
      unfold saveExtObjectWith saveExtObject
      congr 1
      funext vm
      by_cases hx : e.2.extType ≠ UINT_MAX
      · rw [if_pos hx, if_pos hx]
        cases vm.extTypes[e.2.extType]? with
        | none => rfl
        | some t =>
          dsimp only
          by_cases hs : t.hasSerialize = true
          · rw [if_pos hs]
            by_cases hc : e.2.extType = vm.coType
            · rw [if_pos hc, if_pos ⟨hs, hc⟩]
            · rw [if_neg hc, if_neg (fun e => hc e.2), h2]
          · rw [if_neg hs, if_neg (fun e => hs e.1)]
      · rw [if_neg hx, if_neg hx]
    unfold saveExtObjectsWith saveExtObjects
    rw [this]
  unfold saveWith save
  rw [a, b]

end Nk.Save
