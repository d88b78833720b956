import Verif.Lemmas.SaveTables
/-!
# Reading back functions: natives are found again by name
-/
namespace Nk.Save
variable {α β : Type}

/-- The bytes of a native. -/
def nativeBytes (f : ExtFunc) : Bytes := le32 f.internalId ++ (le32 f.name.length ++ f.name)

/-- The bytes of a function. -/
def funcBytes (f : Func) : Bytes := le32 f.argc ++ le32 f.first ++ le32 f.extId

/-- The bytes of the function section. -/
def funcImage (vm : VM) : Bytes :=
  le32 vm.extFuncs.length ++ (vm.extFuncs.flatMap nativeBytes ++
    (le32 vm.functions.length ++ vm.functions.flatMap funcBytes))

theorem saveFunctions_writes {vm : VM} (h : FuncsOK vm) : Writes saveFunctions vm (funcImage vm) := by
  unfold saveFunctions Writes
  rw [M.bind_ok (get_run _)]
  exact Writes.andThen .emit (Writes.andThen
    (.all fun f hf => Writes.andThen .emit (.string (h.name f hf).2))
    (Writes.andThen .emit (.all fun f _ => .emit)))

/-- Where a native with this name is. -/
def nativeAt (fs : List ExtFunc) (name : Bytes) : Option Nat := fs.findIdx? fun f => decide (f.name = name)

/-- Everything about a native except which function value it has. -/
def anon (f : ExtFunc) : ExtFunc := { f with internalId := 0 }

theorem rebind_anon (name : Bytes) (id n : Nat) (fs : List ExtFunc) :
    (rebind name id n fs).1.map anon = fs.map anon := by
  induction fs generalizing n with
  | nil => rfl
  | cons f fs ih =>
    unfold rebind
    split
    · rfl
    · dsimp only
      rw [List.map_cons, ih, List.map_cons]
      rfl

theorem nativeAt_anon {fs gs : List ExtFunc} (h : fs.map anon = gs.map anon) (name : Bytes) :
    nativeAt fs name = nativeAt gs name := by
  have : ∀ l : List ExtFunc, nativeAt l name = (l.map anon).findIdx? fun f => decide (f.name = name) := by
    intro l
    rw [List.findIdx?_map]
    rfl
  rw [this, this, h]

theorem rebind_found (name : Bytes) (id n : Nat) (fs : List ExtFunc) :
    (rebind name id n fs).2 = (nativeAt fs name).map (· + n) := by
  induction fs generalizing n with
  | nil => rfl
  | cons f fs ih =>
    unfold rebind nativeAt
    rw [List.findIdx?_cons]
    by_cases h : f.name = name
    · rw [if_pos (strcmp_eq.mpr h.symm)]
      simp [h]
    · rw [if_neg fun e => h (strcmp_eq.mp e).symm]
      dsimp only
      rw [ih]
      simp only [h, decide_false, Bool.false_eq_true, if_false]
      unfold nativeAt
      cases fs.findIdx? fun f => decide (f.name = name) with
      | none => rfl
      | some m => simp; omega

/-- The table of natives after all saved natives were looked up. -/
def rebindAll (fs : List ExtFunc) : List ExtFunc → List ExtFunc
  | [] => fs
  | g :: gs => rebindAll (rebind g.name g.internalId 0 fs).1 gs

theorem rebindAll_anon (fs gs : List ExtFunc) : (rebindAll fs gs).map anon = fs.map anon := by
  induction gs generalizing fs with
  | nil => rfl
  | cons g gs ih => rw [rebindAll, ih, rebind_anon]

/-- The number under which each saved native is registered. -/
def mapping (fs gs : List ExtFunc) : List Nat := gs.map fun g => (nativeAt fs g.name).getD UINT_MAX

theorem loadNatives_run (v : VM) (r : Bytes) (gs : List ExtFunc) (hn : ∀ g ∈ gs, Text g.name)
    (hi : ∀ g ∈ gs, g.internalId < 4294967296) :
    ∀ (fs : List ExtFunc) (map : List Nat),
    loadNatives gs.length map (gs.flatMap nativeBytes ++ r) { v with extFuncs := fs } =
      .ok ((some (map ++ mapping fs gs), r), { v with extFuncs := rebindAll fs gs }) := by
  induction gs with
  | nil => intro fs map; simp [loadNatives, mapping, rebindAll]; rfl
  | cons g gs ih =>
    intro fs map
    rw [List.flatMap_cons, List.length_cons]
    unfold loadNatives nativeBytes
    simp only [List.append_assoc]
    rw [L.bind_some (read32_run (hi g (by simp)) _ _), L.bind_some (loadString_run (hn g (by simp)) _ _),
      L.bind_some (get_lift _ _)]
    dsimp only
    rw [L.bind_some (upd_run _ _ _)]
    dsimp only
    have := ih (fun g hg => hn g (by simp [hg])) (fun g hg => hi g (by simp [hg]))
      (rebind g.name g.internalId 0 fs).1 (map ++ [(rebind g.name g.internalId 0 fs).2.getD UINT_MAX])
    refine this.trans ?_
    have hm : mapping (rebind g.name g.internalId 0 fs).1 gs = mapping fs gs := by
      unfold mapping
      apply List.map_congr_left
      intro x _
      rw [nativeAt_anon (rebind_anon g.name g.internalId 0 fs)]
    rw [hm, rebind_found, rebindAll]
    unfold mapping
    simp

/-- A function as it is after loading. -/
def remap (map : List Nat) (f : Func) : Func :=
  { f with extId := if f.extId = UINT_MAX then UINT_MAX else map.getD f.extId 0 }

/-- One function. -/
theorem loadFunction_run {map : List Nat} {f : Func} (h1 : f.argc < 4294967296) (h2 : f.first < 4294967296)
    (h3 : f.extId = UINT_MAX ∨ ∃ e, map[f.extId]? = some e ∧ e ≠ UINT_MAX) (hx : f.extId < 4294967296) (i : Nat) (v : VM)
    (r : Bytes) : loadFunction map i (funcBytes f ++ r) v =
      .ok ((some (), r), { v with functions := v.functions.set i (remap map f) }) := by
  unfold loadFunction funcBytes
  simp only [List.append_assoc]
  rw [L.bind_some (read32_run h1 _ _), L.bind_some (read32_run h2 _ _), L.bind_some (read32_run hx _ _),
    L.bind_some (upd_run _ _ _)]
  rcases h3 with h3 | ⟨e, h4, h5⟩
  · rw [if_neg (by simpa using h3)]
    unfold remap
    rw [if_pos h3]
    show Res.ok _ = _
    congr 5
  · have hne : f.extId ≠ UINT_MAX ∨ f.extId = UINT_MAX := by tauto
    rcases hne with hne | heq
    · rw [if_pos hne, h4]
      dsimp only
      rw [L.bind_some (upd_run _ _ _), if_neg h5]
      show Res.ok _ = _
      unfold remap
      rw [if_neg hne, List.getD_eq_getElem?_getD, h4]
      dsimp only
      rw [List.set_set]
      rfl
    · rw [if_neg (by simpa using heq)]
      unfold remap
      rw [if_pos heq]
      show Res.ok _ = _
      congr 5

/-- The VM after its functions were loaded. -/
def funcLoaded (vm v : VM) : VM :=
  { v with extFuncs := rebindAll v.extFuncs vm.extFuncs
           functions := vm.functions.map (remap (mapping v.extFuncs vm.extFuncs)) }

theorem nativeAt_some {fs : List ExtFunc} {name : Bytes} {i : Nat} (h : nativeAt fs name = some i) :
    ∃ g, fs[i]? = some g ∧ g.name = name := by
  unfold nativeAt at h
  rw [List.findIdx?_eq_some_iff_getElem] at h
  obtain ⟨hi, h1, -⟩ := h
  exact ⟨fs[i], List.getElem?_eq_getElem hi, by simpa using h1⟩

theorem nativeAt_none {fs : List ExtFunc} {name : Bytes} (h : ∀ g ∈ fs, g.name ≠ name) : nativeAt fs name = none := by
  unfold nativeAt
  rw [List.findIdx?_eq_none_iff]
  intro x hx
  simpa using h x hx

theorem nativeAt_isSome {fs : List ExtFunc} {name : Bytes} (h : ∃ g ∈ fs, g.name = name) :
    ∃ i, nativeAt fs name = some i := by
  cases hn : nativeAt fs name with
  | some i => exact ⟨i, rfl⟩
  | none =>
    exfalso
    unfold nativeAt at hn
    rw [List.findIdx?_eq_none_iff] at hn
    obtain ⟨g, hg, rfl⟩ := h
    simpa using hn g hg

theorem mapping_get {fs gs : List ExtFunc} {i : Nat} {g : ExtFunc} (h : gs[i]? = some g) :
    (mapping fs gs)[i]? = some ((nativeAt fs g.name).getD UINT_MAX) := by
  unfold mapping
  rw [List.getElem?_map, h]; rfl

/-- Everything up to the functions themselves. -/
theorem loadFunctions_start {vm : VM} (h : FuncsOK vm) (r : Bytes) (v : VM) :
    loadFunctions (funcImage vm ++ r) v =
      times (loadFunction (mapping v.extFuncs vm.extFuncs)) 0 vm.functions.length (vm.functions.flatMap funcBytes ++ r)
        { v with extFuncs := rebindAll v.extFuncs vm.extFuncs
                 functions := List.replicate vm.functions.length { argc := 0, first := 0, extId := 0 } } := by
  have h1 := h.natives
  have h2 := h.count
  have h3 : vm.functions.length ≠ 0 := by
    intro e
    exact h.some (List.eq_nil_of_length_eq_zero e)
  unfold loadFunctions funcImage
  simp only [List.append_assoc]
  rw [L.bind_some (read32_run (by unfold UINT_MAX at h1; omega) _ _), L.bind_some (mallocArray_run h1 _ _)]
  have key := loadNatives_run v (le32 vm.functions.length ++ (vm.functions.flatMap funcBytes ++ r)) vm.extFuncs h.name
    h.internal v.extFuncs []
  rw [L.bind_some key, L.bind_some (read32_run (by unfold UINT_MAX at h2; omega) _ _),
    L.bind_some (mallocArray_run h2 _ _), if_neg h3, L.bind_some (upd_run _ _ _)]
  rfl

/-- The state after `j` functions. -/
def funcState (vm v : VM) (j : Nat) : VM :=
  { v with extFuncs := rebindAll v.extFuncs vm.extFuncs
           functions := (vm.functions.take j).map (remap (mapping v.extFuncs vm.extFuncs)) ++
             List.replicate (vm.functions.length - j) { argc := 0, first := 0, extId := 0 } }

theorem funcState_step {vm v : VM} (h : FuncsOK vm) {j : Nat} {f : Func} (hf : vm.functions[j]? = some f)
    (hr : ∀ g, vm.extFuncs[f.extId]? = some g → ∃ g' ∈ v.extFuncs, g'.name = g.name)
    (hb : v.extFuncs.length ≤ UINT_MAX) (r : Bytes) :
    loadFunction (mapping v.extFuncs vm.extFuncs) j (funcBytes f ++ r) (funcState vm v j) =
      .ok ((some (), r), funcState vm v (j + 1)) := by
  have hm := List.mem_of_getElem? hf
  have hj := (List.getElem?_eq_some_iff.mp hf).1
  have hlen := h.natives
  rw [loadFunction_run (h.argc f hm) (h.first f hm)]
  · unfold funcState
    congr 4
    dsimp only
    rw [take_succ_getElem? hf, List.map_append, List.set_append, if_neg (by simp)]
    rw [show vm.functions.length - j = (vm.functions.length - (j + 1)) + 1 from by omega, List.replicate_succ]
    have : j - ((vm.functions.take j).map (remap (mapping v.extFuncs vm.extFuncs))).length = 0 := by simp; omega
    rw [this]
    simp
  · rcases h.ext f hm with he | he
    · exact .inl he
    · right
      obtain ⟨g, hg⟩ : ∃ g, vm.extFuncs[f.extId]? = some g := ⟨_, List.getElem?_eq_getElem he⟩
      obtain ⟨i, hi⟩ := nativeAt_isSome (hr g hg)
      refine ⟨i, by rw [mapping_get hg, hi]; rfl, ?_⟩
      obtain ⟨g', hg', -⟩ := nativeAt_some hi
      have := (List.getElem?_eq_some_iff.mp hg').1
      omega
  · rcases h.ext f hm with he | he
    · rw [he]; unfold UINT_MAX; omega
    · unfold UINT_MAX at hlen; omega

theorem loadFunctions_run {vm : VM} (h : FuncsOK vm) (r : Bytes) (v : VM) (hr : Registered vm v.extFuncs)
    (hb : v.extFuncs.length ≤ UINT_MAX) :
    loadFunctions (funcImage vm ++ r) v = .ok ((some (), r), funcLoaded vm v) := by
  rw [loadFunctions_start h]
  have key := times_run (f := loadFunction (mapping v.extFuncs vm.extFuncs)) (g := funcBytes) (St := funcState vm v)
    vm.functions 0 (fun j f hf r => by
      rw [Nat.zero_add]
      exact funcState_step h hf (hr f (List.mem_of_getElem? hf)) hb r) r
  refine Eq.trans ?_ (key.trans ?_)
  · unfold funcState
    simp
  · unfold funcState funcLoaded
    simp

/-- A loop that fails at some round. -/
theorem times_fail {f : Nat → L Unit} {g : α → Bytes} (r : Bytes) (l1 : List α) (x : α)
    (l2 : List α) : ∀ (i : Nat) (St : Nat → VM),
    (∀ j y, l1[j]? = some y → ∀ r, f (i + j) (g y ++ r) (St j) = .ok ((some (), r), St (j + 1))) →
    (∀ r, ∃ b w, f (i + l1.length) (g x ++ r) (St l1.length) = .ok ((none, b), w)) →
    ∃ b w, times f i (l1 ++ x :: l2).length ((l1 ++ x :: l2).flatMap g ++ r) (St 0) = .ok ((none, b), w) := by
  induction l1 with
  | nil =>
    intro i St _ hx
    obtain ⟨b, w, e⟩ := hx (l2.flatMap g ++ r)
    refine ⟨b, w, ?_⟩
    rw [List.nil_append, List.flatMap_cons, List.append_assoc]
    show times f i (l2.length + 1) _ _ = _
    unfold times
    exact L.bind_none e
  | cons y l1 ih =>
    intro i St h hx
    obtain ⟨b, w, e⟩ := ih (i + 1) (fun j => St (j + 1)) (fun j z hz r => by
      have := h (j + 1) z hz r
      rw [show i + (j + 1) = i + 1 + j from by omega] at this
      exact this) (fun r => by
      have := hx r
      rw [List.length_cons, show i + (l1.length + 1) = i + 1 + l1.length from by omega] at this
      exact this)
    refine ⟨b, w, ?_⟩
    rw [List.cons_append, List.flatMap_cons, List.append_assoc]
    show times f i ((l1 ++ x :: l2).length + 1) _ _ = _
    unfold times
    rw [L.bind_some (m := f i) (h 0 y rfl _)]
    exact e

/-- A function whose native is not registered. -/
theorem loadFunction_fails {map : List Nat} {f : Func} (h1 : f.argc < 4294967296) (h2 : f.first < 4294967296)
    (h3 : f.extId ≠ UINT_MAX) (h4 : map[f.extId]? = some UINT_MAX) (hx : f.extId < 4294967296) (i : Nat) (v : VM)
    (r : Bytes) : ∃ b w, loadFunction map i (funcBytes f ++ r) v = .ok ((none, b), w) := by
  unfold loadFunction funcBytes
  simp only [List.append_assoc]
  rw [L.bind_some (read32_run h1 _ _), L.bind_some (read32_run h2 _ _), L.bind_some (read32_run hx _ _),
    L.bind_some (upd_run _ _ _), if_pos h3, h4]
  dsimp only
  rw [L.bind_some (upd_run _ _ _), if_pos rfl]
  exact ⟨_, _, rfl⟩

theorem loadFunctions_fails {vm : VM} (h : FuncsOK vm) (r : Bytes) (v : VM) (hr : ¬ Registered vm v.extFuncs)
    (hb : v.extFuncs.length ≤ UINT_MAX) :
    ∃ b w, loadFunctions (funcImage vm ++ r) v = .ok ((none, b), w) := by
  rw [loadFunctions_start h]
  -- the first function with a missing native
  have hex : ∃ l1 f l2, vm.functions = l1 ++ f :: l2 ∧
      (∀ y ∈ l1, ∀ g, vm.extFuncs[y.extId]? = some g → ∃ g' ∈ v.extFuncs, g'.name = g.name) ∧
      ¬ ∀ g, vm.extFuncs[f.extId]? = some g → ∃ g' ∈ v.extFuncs, g'.name = g.name := by
    unfold Registered at hr
    generalize vm.functions = fs at hr
    induction fs with
    | nil => exact absurd (by simp) hr
    | cons y fs ih =>
      by_cases hy : ∀ g, vm.extFuncs[y.extId]? = some g → ∃ g' ∈ v.extFuncs, g'.name = g.name
      · obtain ⟨l1, f, l2, e, h1, h2⟩ := ih fun hall => hr (by
          intro f hf
          rcases List.mem_cons.mp hf with rfl | hf
          · exact hy
          · exact hall f hf)
        refine ⟨y :: l1, f, l2, by rw [e]; rfl, ?_, h2⟩
        intro z hz
        rcases List.mem_cons.mp hz with rfl | hz
        · exact hy
        · exact h1 z hz
      · exact ⟨[], y, fs, rfl, by simp, hy⟩
  obtain ⟨l1, f, l2, e, h1, h2⟩ := hex
  have hfm : f ∈ vm.functions := by rw [e]; simp
  have hlen := h.natives
  have key := times_fail (f := loadFunction (mapping v.extFuncs vm.extFuncs)) (g := funcBytes) r
    l1 f l2 0 (funcState vm v) (fun j y hy r => by
      rw [Nat.zero_add]
      refine funcState_step h ?_ (h1 y (List.mem_of_getElem? hy)) hb r
      rw [e, List.getElem?_append_left (List.getElem?_eq_some_iff.mp hy).1]
      exact hy) (fun r => by
      push_neg at h2
      obtain ⟨g, hg, hno⟩ := h2
      have hlt := (List.getElem?_eq_some_iff.mp hg).1
      refine loadFunction_fails (h.argc f hfm) (h.first f hfm) ?_ ?_ ?_ _ _ _
      · unfold UINT_MAX at *; omega
      · rw [mapping_get hg, nativeAt_none hno]; rfl
      · unfold UINT_MAX at *; omega)
  rw [← e] at key
  obtain ⟨b, w, key⟩ := key
  refine ⟨b, w, Eq.trans ?_ key⟩
  unfold funcState
  simp

end Nk.Save
