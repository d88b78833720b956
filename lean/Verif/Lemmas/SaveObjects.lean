import Verif.Lemmas.SaveTables
/-!
# Reading back objects
-/
namespace Nk.Save
variable {α β : Type} {F : FloatOps}

/-- The bytes of a field. -/
def fieldBytes (p : Value × Value) : Bytes := valueBytes p.1 ++ valueBytes p.2

/-- The bytes of an object. -/
def objBytes (e : Nat × Obj) : Bytes :=
  le32 e.1 ++ le32 e.2.size ++ le32 e.2.handleCount ++ le32 e.2.lastGCPass ++ le32 e.2.extType ++
    e.2.buckets.flatten.flatMap fun p => valueBytes p.1 ++ valueBytes p.2

/-- The bytes of the object table. -/
def objImage (vm : VM) : Bytes :=
  le32 vm.objects.cap ++ (le32 (entriesFrom 0 vm.objects.slots).length ++
    (entriesFrom 0 vm.objects.slots).flatMap objBytes)

theorem saveObjects_writes {vm : VM} (hl : vm.objects.slots.length = vm.objects.cap)
    (hp : ∃ k, vm.objects.cap = 2 ^ k) : Writes saveObjects vm (objImage vm) := by
  obtain ⟨k, hk⟩ := hp
  unfold saveObjects Writes
  rw [M.bind_ok (get_run _)]
  refine Writes.andThen .emit ?_
  rw [if_neg (by rw [hk, isPow2_pow]; simp)]
  have : liftR (entries vm.objects) vm = .ok (entriesFrom 0 vm.objects.slots, vm) := by rw [entries_run hl]; rfl
  unfold Writes
  rw [M.bind_ok this]
  refine Writes.andThen .emit ?_
  have := entriesFrom_length_le (xs := vm.objects.slots) (i := 0)
  rw [if_neg (by omega)]
  exact .all fun e _ => .emit

/-! ## One object -/

/-- A slot of the object table that is in use. -/
structure Slot (v : VM) (id : Nat) (o : Obj) : Prop where
  get : v.objects.slots[id]? = some (some o)
  lt : id < v.objects.cap

theorem Slot.getObj {v : VM} {id : Nat} {o : Obj} (h : Slot v id o) : getObj id v = .ok (some o, v) := by
  unfold Nk.getObj Table.get Table.read
  have := h.lt
  rw [if_neg (by omega), h.get]

theorem Slot.setObj {v : VM} {id : Nat} {o : Obj} (h : Slot v id o) (o' : Obj) : setObj id o' v = .ok ((), v.setO id o') := by
  unfold Nk.setObj Table.write
  rw [if_pos (List.getElem?_eq_some_iff.mp h.get).1]
  rfl

theorem Slot.set {v : VM} {id : Nat} {o : Obj} (h : Slot v id o) (o' : Obj) : Slot (v.setO id o') id o' := by
  refine ⟨?_, h.lt⟩
  have := (List.getElem?_eq_some_iff.mp h.get).1
  simp [VM.setO, this]

/-- One field. -/
theorem loadField_run {v : VM} {id : Nat} {o : Obj} (hs : Slot v id o) (hw : v.strings.WF) {key val : Value} {k : Key}
    (hf : key.Fits) (hg : val.Fits) (hk : keyOf v key = some k) {es : List (Value × Value)}
    (hb : o.buckets[slot v key]? = some es) (hes : ∀ e ∈ es, ∃ k', keyOf v e.1 = some k' ∧ k' ≠ k)
    (hn : o.size + 1 < 4294967296) (hl : o.size + 1 ≤ v.limits.maxFields) (r : Bytes) :
    loadField F id (fieldBytes (key, val) ++ r) v = .ok ((some (), r), v.setO id
      { o with buckets := o.buckets.set (slot v key) ((key, val) :: es), size := o.size + 1 }) := by
  unfold loadField fieldBytes
  simp only [List.append_assoc]
  rw [L.bind_some (readValue_run hf _ _)]
  have hnone : es.findIdx? (isKey v k) = none := by
    rw [List.findIdx?_eq_none_iff]
    intro e he
    obtain ⟨k', h1, h2⟩ := hes e he
    simp [isKey, h1, h2]
  have hfind : findElem F key es 0 v = .ok (none, v) := by
    rw [findElem_run F hw hk es 0 (fun e he => by obtain ⟨k', h, -⟩ := hes e he; exact ⟨k', h⟩), hnone]
    rfl
  have hu : u32 (o.size + 1) = o.size + 1 := Nat.mod_eq_of_lt (by unfold U32; omega)
  have hfa : findOrAddEntry F id key false v = .ok (some (slot v key, 0), v.setO id
      { o with buckets := o.buckets.set (slot v key) ((key, Value.zero) :: es), size := o.size + 1 }) := by
    unfold findOrAddEntry
    rw [M.bind_ok (bucketOf_run hw key), M.bind_ok hs.getObj]
    dsimp only
    rw [hb]
    dsimp only
    rw [M.bind_ok hfind]
    dsimp only
    rw [if_neg (by simp), M.bind_ok (get_run _), hu, if_neg (by omega), M.bind_ok (hs.setObj _)]
    rfl
  rw [L.bind_some (lift_run hfa)]
  dsimp only
  rw [L.bind_some (readValue_run hg _ _)]
  have hlt := (List.getElem?_eq_some_iff.mp hb).1
  have hwr : writeElem id (slot v key, 0) val (v.setO id
      { o with buckets := o.buckets.set (slot v key) ((key, Value.zero) :: es), size := o.size + 1 }) =
      .ok ((), v.setO id { o with buckets := o.buckets.set (slot v key) ((key, val) :: es), size := o.size + 1 }) := by
    have hs' := hs.set { o with buckets := o.buckets.set (slot v key) ((key, Value.zero) :: es), size := o.size + 1 }
    unfold writeElem
    rw [M.bind_ok hs'.getObj]
    dsimp only
    rw [List.getElem?_set_self hlt]
    dsimp only [List.getElem?_cons_zero]
    rw [hs'.setObj, VM.setO_setO, List.set_set]
    rfl
  rw [lift_run hwr]

/-- An object as it is after its table was loaded. -/
def loadedObj (v : VM) (o : Obj) : Obj :=
  { buckets := packBy 16 (fun p : Value × Value => slot v p.1) o.buckets.flatten, size := o.size
    lastGCPass := o.lastGCPass, handleCount := o.handleCount, extType := o.extType, extData := none }

/-- All keys of an object are different. -/
theorem OWF.distinct {vm : VM} (hs : StrWF vm) {o : Obj} (h : OWF vm o) :
    o.buckets.flatten.Pairwise fun x y => keyOf vm x.1 ≠ keyOf vm y.1 := by
  rw [List.pairwise_flatten]
  constructor
  · intro es hes
    obtain ⟨b, hb⟩ := List.getElem?_of_mem hes
    exact h.nodup b es hb
  · rw [List.pairwise_iff_getElem]
    intro i j hi hj hij x hx y hy he
    have h1 := h.key i _ (List.getElem?_eq_getElem hi) x hx
    have h2 := h.key j _ (List.getElem?_eq_getElem hj) y hy
    obtain ⟨k, hk⟩ := h1.1
    have := slot_key hs hk (he ▸ hk)
    rw [h1.2.1, h2.2.1] at this
    omega

theorem slot_congr_entry {vm v : VM} (h : ∀ i, v.strings.entry i = vm.strings.entry i) (x : Value) :
    slot v x = slot vm x ∧ keyOf v x = keyOf vm x := by
  cases x <;> simp [slot, keyOf, h]

/-- The fields of an object. -/
theorem loadFields_run {vm v : VM} {id : Nat} {o o0 : Obj} (hs : StrWF vm) (ho : ObjOK vm o) (hv : Slot v id o0)
    (h0 : o0.buckets = List.replicate 16 [] ∧ o0.size = 0) (hw : v.strings.WF)
    (he : ∀ i, v.strings.entry i = vm.strings.entry i) (hlim : v.limits = vm.limits) (r : Bytes) :
    times (fun _ => loadField F id) 0 o.size (o.buckets.flatten.flatMap fieldBytes ++ r) v =
      .ok ((some (), r), v.setO id { o0 with
        buckets := packBy 16 (fun p : Value × Value => slot v p.1) o.buckets.flatten, size := o.size }) := by
  have hsize : o.size = o.buckets.flatten.length := by rw [ho.wf.size, List.length_flatten]
  have hlt := ho.wf.lt
  have hd := OWF.distinct hs ho.wf
  have key := times_run (f := fun _ => loadField F id) (g := fieldBytes)
    (St := fun j => v.setO id { o0 with
        buckets := packBy 16 (fun p : Value × Value => slot v p.1) (o.buckets.flatten.take j), size := j })
    o.buckets.flatten 0 (by
      rintro j ⟨x, y⟩ hx r
      have hj := (List.getElem?_eq_some_iff.mp hx).1
      obtain ⟨es, hes, hxe⟩ := List.mem_flatten.mp (List.mem_of_getElem? hx)
      obtain ⟨b, hb⟩ := List.getElem?_of_mem hes
      obtain ⟨⟨k, hk⟩, hsl, -⟩ := ho.wf.key b es hb (x, y) hxe
      have hsv := slot_congr_entry he x
      have hk' : keyOf v x = some k := by rw [hsv.2]; exact hk
      have hsl16 : slot v x < 16 := slot_lt v x
      have hfit := ho.key es hes (x, y) hxe
      have hset := hv.set { o0 with
        buckets := packBy 16 (fun p : Value × Value => slot v p.1) (o.buckets.flatten.take j), size := j }
      have hlim' := ho.limit
      have step := loadField_run (F := F) hset (by exact hw) hfit.1 hfit.2 (k := k)
        ((keyOf_congr (vm := v) rfl _).trans hk')
        (es := ((o.buckets.flatten.take j).filter fun p => slot v p.1 = slot v x).reverse)
        ((congrArg _ (slot_congr (vm := v) rfl _)).trans (packBy_get hsl16))
        (by
          intro e hem
          rw [List.mem_reverse, List.mem_filter] at hem
          have hem1 := hem.1
          obtain ⟨es', hes', hee⟩ := List.mem_flatten.mp (List.mem_of_mem_take hem1)
          obtain ⟨b', hb'⟩ := List.getElem?_of_mem hes'
          obtain ⟨⟨k', hke⟩, -, -⟩ := ho.wf.key b' es' hb' e hee
          refine ⟨k', (keyOf_congr (vm := v) rfl _).trans ((slot_congr_entry he e.1).2.trans hke), ?_⟩
          rintro rfl
          obtain ⟨m, hm⟩ := List.getElem?_of_mem hem1
          rw [List.getElem?_take] at hm
          split at hm
          · next hmj =>
            have hml := (List.getElem?_eq_some_iff.mp hm)
            have hjl := (List.getElem?_eq_some_iff.mp hx)
            have := List.pairwise_iff_getElem.mp hd m j hml.1 hjl.1 hmj
            rw [hml.2, hjl.2] at this
            exact this (hke.trans hk.symm)
          · cases hm)
        (by show j + 1 < _; omega) (by show j + 1 ≤ v.limits.maxFields; rw [hlim]; omega) r
      refine step.trans ?_
      rw [VM.setO_setO]
      have hsc : slot (v.setO id { o0 with
        buckets := packBy 16 (fun p : Value × Value => slot v p.1) (o.buckets.flatten.take j), size := j }) x = slot v x :=
        slot_congr (vm := v) rfl _
      rw [hsc, take_succ_getElem? hx, packBy_snoc (f := fun p : Value × Value => slot v p.1) hsl16]) r
  rw [← hsize] at key
  refine Eq.trans ?_ (key.trans ?_)
  · congr 1
    unfold VM.setO
    rw [List.take_zero, packBy_nil, set_same]
    rw [hv.get]
    cases o0
    simp at h0
    simp [h0]
  · rw [hsize, List.take_length]

/-- The state while objects are loaded. -/
def objState (v : VM) (cap : Nat) (slots : List (Option Obj)) (handles : List Nat) : VM :=
  { v with objects := { slots, cap, holes := [] }, handles := handles }

/-- The handle list after an object. -/
def pushHandle (e : Nat × Obj) (l : List Nat) : List Nat := if e.2.handleCount ≠ 0 then e.1 :: l else l

theorem loadEntry_run {vm v : VM} {cap : Nat} {pre post : List (Option Obj)} {hd : List Nat} {o : Obj} (hs : StrWF vm)
    (ho : ObjOK vm o) (hi : pre.length < cap) (hc : cap < 4294967296) (hw : v.strings.WF)
    (he : ∀ i, v.strings.entry i = vm.strings.entry i) (hlim : v.limits = vm.limits) (r : Bytes) :
    loadEntry F (objBytes (pre.length, o) ++ r) (objState v cap (pre ++ none :: post) hd) =
      .ok ((some (), r), objState v cap (pre ++ some (loadedObj v o) :: post) (pushHandle (pre.length, o) hd)) := by
  unfold loadEntry objBytes
  simp only [List.append_assoc]
  rw [L.bind_some (read32_run (by omega) _ _), L.bind_some (get_lift _ _), if_neg (by exact Nat.not_le.mpr hi)]
  have hread : ∀ (b : Bytes) (w : VM),
      lift (liftR ((objState v cap (pre ++ none :: post) hd).objects.read pre.length)) b w = .ok ((some none, b), w) := by
    intro b w
    have : (objState v cap (pre ++ none :: post) hd).objects.read pre.length = .ok none := by simp [Table.read, objState]
    rw [this]; rfl
  rw [L.bind_some (hread _ _)]
  dsimp only
  have hset : setObj pre.length Obj.init (objState v cap (pre ++ none :: post) hd) =
      .ok ((), objState v cap (pre ++ some Obj.init :: post) hd) := by
    unfold setObj Table.write objState
    dsimp only
    rw [if_pos (by simp)]
    simp
  rw [L.bind_some (lift_run hset)]
  unfold loadObject
  rw [L.bind_some (read32_run ho.wf.lt _ _), L.bind_some (read32_run ho.handles _ _)]
  have hh : (if o.handleCount ≠ 0 then upd fun vm => { vm with handles := pre.length :: vm.handles } else pure () : L Unit)
      = upd fun vm => { vm with handles := pushHandle (pre.length, o) vm.handles } := by
    unfold pushHandle
    split <;> rfl
  -- the handle list
  have hjoin : ∀ (k : L Unit) (b : Bytes) (w : VM),
      ((if o.handleCount ≠ 0 then upd fun vm => { vm with handles := pre.length :: vm.handles } else pure () : L Unit) >>=
        fun _ => k) b w = k b { w with handles := pushHandle (pre.length, o) w.handles } := by
    intro k b w
    rw [hh, L.bind_some (upd_run _ _ _)]
  refine Eq.trans ?_ ((hjoin (do
      let pass ← read32
      let ext ← read32
      let ob ← lift (getObj pre.length)
      match ob with
      | none => lift (liftR (.ub .oob))
      | some ob => do
        lift (setObj pre.length { ob with size := 0, handleCount := o.handleCount, lastGCPass := pass, extType := ext })
        times (fun _ => loadField F pre.length) 0 o.size)
      (le32 o.lastGCPass ++ (le32 o.extType ++ (o.buckets.flatten.flatMap (fun p => valueBytes p.1 ++ valueBytes p.2) ++ r)))
      (objState v cap (pre ++ some Obj.init :: post) hd)).trans ?_)
  · split <;> rfl
  rw [L.bind_some (read32_run ho.pass _ _), L.bind_some (read32_run ho.ext _ _)]
  have hsl : Slot (objState v cap (pre ++ some Obj.init :: post) (pushHandle (pre.length, o) hd)) pre.length Obj.init :=
    ⟨by simp [objState], hi⟩
  refine (L.bind_some (lift_run hsl.getObj)).trans ?_
  dsimp only
  refine (L.bind_some (lift_run (hsl.setObj _))).trans ?_
  refine (loadFields_run (vm := vm) hs ho (hsl.set _) ⟨rfl, rfl⟩ hw he hlim r).trans ?_
  rw [VM.setO_setO]
  congr 2
  unfold VM.setO objState loadedObj
  simp
  exact ⟨congrFun (congrArg (packBy 16) (funext fun p => slot_congr rfl _)) _, rfl⟩

/-- The handle list after objects. -/
def pushHandles : List (Nat × Obj) → List Nat → List Nat
  | [], l => l
  | e :: es, l => pushHandles es (pushHandle e l)

theorem mem_pushHandles {es : List (Nat × Obj)} {l : List Nat} {n : Nat} :
    n ∈ pushHandles es l ↔ n ∈ l ∨ ∃ o, (n, o) ∈ es ∧ o.handleCount ≠ 0 := by
  induction es generalizing l with
  | nil => simp [pushHandles]
  | cons e es ih =>
    obtain ⟨i, o⟩ := e
    rw [pushHandles, ih]
    unfold pushHandle
    by_cases h : o.handleCount ≠ 0
    · rw [if_pos h, List.mem_cons]
      constructor
      · rintro ((rfl | h1) | ⟨o', h1, h2⟩)
        · exact .inr ⟨o, by simp, h⟩
        · exact .inl h1
        · exact .inr ⟨o', by simp [h1], h2⟩
      · rintro (h1 | ⟨o', h1, h2⟩)
        · exact .inl (.inr h1)
        · rcases List.mem_cons.mp h1 with h1 | h1
          · cases h1; exact .inl (.inl rfl)
          · exact .inr ⟨o', h1, h2⟩
    · rw [if_neg h]
      constructor
      · rintro (h1 | ⟨o', h1, h2⟩)
        · exact .inl h1
        · exact .inr ⟨o', by simp [h1], h2⟩
      · rintro (h1 | ⟨o', h1, h2⟩)
        · exact .inl h1
        · rcases List.mem_cons.mp h1 with h1 | h1
          · cases h1; exact absurd h2 h
          · exact .inr ⟨o', h1, h2⟩

theorem loadEntries_run {vm v : VM} {cap : Nat} (hs : StrWF vm) (hc : cap < 4294967296) (hw : v.strings.WF)
    (he : ∀ i, v.strings.entry i = vm.strings.entry i) (hlim : v.limits = vm.limits) (r : Bytes) (xs : List (Option Obj)) :
    ∀ (pre : List (Option Obj)) (hd : List Nat) (i : Nat), (∀ o, some o ∈ xs → ObjOK vm o) →
    pre.length + xs.length ≤ cap →
    times (fun _ => loadEntry F) i (entriesFrom pre.length xs).length ((entriesFrom pre.length xs).flatMap objBytes ++ r)
      (objState v cap (pre ++ List.replicate xs.length none) hd) =
      .ok ((some (), r), objState v cap (pre ++ xs.map (·.map (loadedObj v)))
        (pushHandles (entriesFrom pre.length xs) hd)) := by
  induction xs with
  | nil => intro pre hd i _ _; simp [entriesFrom, times, pushHandles]; rfl
  | cons o xs ih =>
    intro pre hd i hok hlen
    have hlen' : pre.length + (xs.length + 1) ≤ cap := hlen
    cases o with
    | none =>
      rw [entriesFrom]
      have := ih (pre ++ [none]) hd i (fun e he => hok e (by simp [he])) (by simp; omega)
      simp only [List.length_append, List.length_cons, List.length_nil, List.append_assoc, List.singleton_append,
        Nat.zero_add] at this
      rw [List.length_cons, List.replicate_succ]
      exact this
    | some o =>
      rw [entriesFrom, List.length_cons, List.flatMap_cons, List.append_assoc, List.length_cons, List.replicate_succ]
      unfold times
      rw [L.bind_some (loadEntry_run hs (hok o (by simp)) (by omega) hc hw he hlim _)]
      have := ih (pre ++ [some (loadedObj v o)]) (pushHandle (pre.length, o) hd) (i + 1) (fun e he => hok e (by simp [he]))
        (by simp; omega)
      simp only [List.length_append, List.length_cons, List.length_nil, List.append_assoc, List.singleton_append,
        Nat.zero_add] at this
      exact this

/-- The VM after its objects were loaded. -/
def objLoaded (vm v : VM) : VM :=
  { v with
    objects := { slots := vm.objects.slots.map (·.map (loadedObj v)), cap := vm.objects.cap
                 holes := holesFrom 0 [] (vm.objects.slots.map (·.map (loadedObj v))) }
    handles := pushHandles (entriesFrom 0 vm.objects.slots) [] }

theorem loadObjects_run {vm v : VM} (hs : StrWF vm) (hl : vm.objects.slots.length = vm.objects.cap)
    (hp : ∃ k, vm.objects.cap = 2 ^ k) (ha : vm.objects.cap < UINT_MAX / 8)
    (hok : ∀ o, some o ∈ vm.objects.slots → ObjOK vm o) (hw : v.strings.WF)
    (he : ∀ i, v.strings.entry i = vm.strings.entry i) (hlim : v.limits = vm.limits) (hh : v.handles = []) (r : Bytes) :
    loadObjects F (objImage vm ++ r) v = .ok ((some (), r), objLoaded vm v) := by
  obtain ⟨k, hk⟩ := hp
  have hc : vm.objects.cap < 4294967296 := by unfold UINT_MAX at ha; omega
  have hle := entriesFrom_length_le (xs := vm.objects.slots) (i := 0)
  unfold loadObjects objImage
  simp only [List.append_assoc]
  rw [L.bind_some (read32_run hc _ _), if_neg (by rw [hk, isPow2_pow]; simp), L.bind_some (mallocArray_run ha _ _),
    L.bind_some (get_lift _ _), if_neg (by simpa using hh), L.bind_some (upd_run _ _ _),
    L.bind_some (read32_run (by omega) _ _), if_neg (by omega)]
  have key := loadEntries_run (F := F) (v := v) hs hc hw he hlim r vm.objects.slots [] [] 0 hok (by simp; omega)
  have hstart : objState v vm.objects.cap ([] ++ List.replicate vm.objects.slots.length none) [] =
      { v with objects := { slots := List.replicate vm.objects.cap none, cap := vm.objects.cap, holes := [] } } := by
    unfold objState
    rw [hl, ← hh]
    rfl
  rw [hstart] at key
  exact (L.bind_some key).trans rfl

end Nk.Save
