import Verif.Lemmas.SaveObjects
import Verif.Lemmas.Registry
/-!
# Reading back globals, type names, subsystem names, source files and position markers
-/
namespace Nk.Save
variable {α β : Type} {F : FloatOps}

/-- The bytes of a string. -/
def textBytes (s : Bytes) : Bytes := le32 s.length ++ s

/-! ## Globals -/

/-- The bytes of the globals. -/
def globalImage (vm : VM) : Bytes := le32 vm.globals.length ++ vm.globals.flatMap fun g => textBytes g.1 ++ le32 g.2

theorem saveGlobals_writes {vm : VM} (h : ∀ g ∈ vm.globals, Text g.1) : Writes saveGlobals vm (globalImage vm) := by
  unfold saveGlobals Writes
  rw [M.bind_ok (get_run _)]
  exact Writes.andThen .emit (.all fun e he => .andThen (.string (h e he).2) .emit)

theorem loadGlobals_run {vm : VM} (h : ∀ g ∈ vm.globals, Text g.1 ∧ g.2 < 4294967296)
    (hn : vm.globals.length < UINT_MAX / 16) (r : Bytes) (v : VM) :
    loadGlobals (globalImage vm ++ r) v = .ok ((some (), r), { v with globals := vm.globals }) := by
  unfold loadGlobals globalImage
  rw [L.bind_some (upd_run _ _ _), List.append_assoc,
    L.bind_some (read32_run (by unfold UINT_MAX at hn; omega) _ _), L.bind_some (mallocArray_run hn _ _)]
  have key := times_run (f := fun _ => do
      let name ← loadString
      let pos ← read32
      upd fun vm => { vm with globals := vm.globals ++ [(name, pos)] })
    (g := fun g : Bytes × Nat => textBytes g.1 ++ le32 g.2)
    (St := fun j => { v with globals := vm.globals.take j }) vm.globals 0 (by
      rintro j ⟨x, p⟩ hx r
      have hx1 := h (x, p) (List.mem_of_getElem? hx)
      unfold textBytes
      simp only [List.append_assoc]
      rw [L.bind_some (loadString_run hx1.1 _ _), L.bind_some (read32_run hx1.2 _ _), upd_run]
      dsimp only
      rw [take_succ_getElem? hx]) r
  simp only [List.take_zero, List.take_length] at key
  exact key

/-! ## Source files -/

/-- The bytes of the source file names. -/
def fileImage (vm : VM) : Bytes := le32 vm.sourceFiles.length ++ vm.sourceFiles.flatMap textBytes

theorem saveFiles_writes {vm : VM} (h : ∀ s ∈ vm.sourceFiles, Text s) : Writes saveFiles vm (fileImage vm) := by
  unfold saveFiles Writes
  rw [M.bind_ok (get_run _)]
  exact Writes.andThen .emit (.all fun e he => .string (h e he).2)

theorem loadFiles_run {vm : VM} (h : ∀ s ∈ vm.sourceFiles, Text s)
    (hn : vm.sourceFiles.length < UINT_MAX / 8) (r : Bytes) (v : VM) :
    loadFiles (fileImage vm ++ r) v = .ok ((some (), r), { v with sourceFiles := vm.sourceFiles }) := by
  unfold loadFiles fileImage
  rw [List.append_assoc, L.bind_some (read32_run (by unfold UINT_MAX at hn; omega) _ _),
    L.bind_some (upd_run _ _ _), L.bind_some (mallocArray_run hn _ _)]
  have key := times_run (f := fun _ => do
      let s ← loadString
      upd fun vm => { vm with sourceFiles := vm.sourceFiles ++ [s] })
    (g := textBytes)
    (St := fun j => { v with sourceFiles := vm.sourceFiles.take j }) vm.sourceFiles 0 (by
      rintro j x hx r
      have hx1 := h x (List.mem_of_getElem? hx)
      unfold textBytes
      simp only [List.append_assoc]
      rw [L.bind_some (loadString_run hx1 _ _), upd_run]
      dsimp only
      rw [take_succ_getElem? hx]) r
  simp only [List.take_zero, List.take_length] at key
  exact key

/-! ## Position markers -/

/-- The bytes of a marker. -/
def markerBytes (m : Marker) : Bytes := le32 m.instr ++ le32 m.file ++ le32 m.line ++ le32 m.actualLine

/-- The bytes of the position markers. -/
def markerImage (vm : VM) : Bytes := le32 vm.markers.length ++ vm.markers.flatMap markerBytes

theorem saveMarkers_writes (vm : VM) : Writes saveMarkers vm (markerImage vm) := by
  unfold saveMarkers Writes
  rw [M.bind_ok (get_run _)]
  exact Writes.andThen .emit (.all fun e he => .emit)

theorem loadMarkers_run {vm : VM} (h : ∀ m ∈ vm.markers, MarkerOK m)
    (hn : vm.markers.length < UINT_MAX / 16) (r : Bytes) (v : VM) :
    loadMarkers (markerImage vm ++ r) v = .ok ((some (), r), { v with markers := vm.markers }) := by
  unfold loadMarkers markerImage
  rw [List.append_assoc, L.bind_some (read32_run (by unfold UINT_MAX at hn; omega) _ _),
    L.bind_some (upd_run _ _ _), L.bind_some (mallocArray_run hn _ _)]
  have key := times_run (f := fun _ => do
      let instr ← read32
      let file ← read32
      let line ← read32
      let actualLine ← read32
      upd fun vm => { vm with markers := vm.markers ++
        [{ instr := instr, file := file, line := line, actualLine := actualLine }] })
    (g := markerBytes)
    (St := fun j => { v with markers := vm.markers.take j }) vm.markers 0 (by
      rintro j x hx r
      have hx1 := h x (List.mem_of_getElem? hx)
      unfold markerBytes
      simp only [List.append_assoc]
      rw [L.bind_some (read32_run hx1.1 _ _), L.bind_some (read32_run hx1.2.1 _ _),
        L.bind_some (read32_run hx1.2.2.1 _ _), L.bind_some (read32_run hx1.2.2.2 _ _), upd_run]
      dsimp only
      rw [take_succ_getElem? hx]) r
  simp only [List.take_zero, List.take_length] at key
  exact key

/-! ## External types -/

/-- The bytes of the type names. -/
def typeImage (vm : VM) : Bytes := le32 vm.extTypes.length ++ vm.extTypes.flatMap fun t => textBytes t.name

theorem saveTypes_writes {vm : VM} (h : TypesOK vm) : Writes saveTypes vm (typeImage vm) := by
  unfold saveTypes Writes
  rw [M.bind_ok (get_run _)]
  exact Writes.andThen .emit (.all fun e he => .string (h.text e he).2)

theorem foldl_max_le (l : List Nat) (a : Nat) : a ≤ l.foldl max a ∧ ∀ x ∈ l, x ≤ l.foldl max a := by
  induction l generalizing a with
  | nil => simp
  | cons y l ih =>
    have := ih (max a y)
    simp only [List.foldl_cons, List.mem_cons]
    refine ⟨by omega, ?_⟩
    rintro x (rfl | hx)
    · omega
    · exact this.2 x hx

theorem le_longest {ts : List ExtType} {t : ExtType} (h : t ∈ ts) : t.name.length ≤ longest ts := by
  unfold longest
  exact (foldl_max_le _ 0).2 _ (List.mem_map_of_mem h)

theorem findTypeFrom_get {ts : List ExtType} (hn : (ts.map (·.name)).Nodup) {i : Nat} {t : ExtType} (h : ts[i]? = some t)
    (n : Nat) : findTypeFrom t.name n ts = n + i := by
  induction ts generalizing i n with
  | nil => simp at h
  | cons u us ih =>
    rw [List.map_cons, List.nodup_cons] at hn
    unfold findTypeFrom
    cases i with
    | zero =>
      cases h
      rw [if_pos (by rw [strcmp_eq])]
      rfl
    | succ i =>
      have h' : us[i]? = some t := h
      rw [if_neg, ih hn.2 h']
      · omega
      · rw [strcmp_eq]
        intro e
        exact hn.1 (e ▸ List.mem_map_of_mem (List.mem_of_getElem? h'))

theorem loadTypes_run {vm v : VM} (h : TypesOK vm) (hv : v.extTypes = vm.extTypes)
    (ho : typesBelow vm.extTypes.length v.objects.slots = true) (r : Bytes) :
    loadTypes (typeImage vm ++ r) v = .ok ((some (), r), v) := by
  have hc := h.count
  have hl := h.length
  unfold loadTypes typeImage
  rw [List.append_assoc, L.bind_some (read32_run (by unfold UINT_MAX at hc; omega) _ _), L.bind_some (get_lift _ _),
    if_neg (by rw [hv]; simp), if_neg (by rw [hv]; omega)]
  have key := times_run (f := loadType) (g := fun t : ExtType => textBytes t.name)
    (St := fun _ => v) vm.extTypes 0 (by
      rintro j x hx r
      have hm := List.mem_of_getElem? hx
      unfold loadType textBytes
      rw [L.bind_some (get_lift _ _), List.append_assoc,
        L.bind_some (loadStringIn_run (h.text x hm) (by rw [hv]; have := le_longest hm; omega) _ _)]
      have : v.extTypes[0 + j]? = some x := by rw [hv, Nat.zero_add]; exact hx
      rw [this]
      dsimp only
      rw [if_neg (by rw [ne_eq, strcmp_eq]; simp), if_neg (by rw [hv, findTypeFrom_get h.names hx]; simp)]
      rfl) r
  rw [L.bind_some key, L.bind_some (get_lift _ _), if_pos ho]
  rfl

/-! ## Subsystems -/

/-- The bytes of the subsystem names. -/
def subImage (vm : VM) : Bytes := le32 vm.subsystems.flatten.length ++ vm.subsystems.flatten.flatMap fun s => textBytes s.name

theorem saveSubsystems_writes {vm : VM} (h : ∀ s ∈ vm.subsystems.flatten, Text s.name) :
    Writes saveSubsystems vm (subImage vm) := by
  unfold saveSubsystems Writes
  rw [M.bind_ok (get_run _)]
  exact Writes.andThen .emit (.all fun e he => .string (h e he).2)

theorem loadSubsystems_run {vm v : VM} (h : ∀ s ∈ vm.subsystems.flatten, Text s.name)
    (hn : vm.subsystems.flatten.length < 4294967296)
    (hv : ∀ s ∈ vm.subsystems.flatten, ∃ b t, v.subsystems[subBucket s.name]? = some b ∧ findSub s.name b = some t) (r : Bytes) :
    loadSubsystems (subImage vm ++ r) v = .ok ((some (), r), v) := by
  unfold loadSubsystems subImage
  rw [List.append_assoc, L.bind_some (read32_run hn _ _)]
  exact times_run (g := fun s : Subsystem => textBytes s.name) (St := fun _ => v) vm.subsystems.flatten 0 (by
      rintro j x hx r
      have hm := List.mem_of_getElem? hx
      obtain ⟨b, t, h1, h2⟩ := hv x hm
      unfold textBytes
      rw [List.append_assoc, L.bind_some (loadString_run (h x hm) _ _), L.bind_some (get_lift _ _), h1]
      dsimp only
      rw [h2]
      rfl) r

end Nk.Save
