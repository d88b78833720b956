import Verif.Spec.Registry
import Verif.Lemmas.Pres
/-!
# Lemmas about the registries
-/
namespace Nk

theorem SameReg.refl (vm : VM) : SameReg vm vm := ⟨rfl, rfl, rfl, rfl, rfl⟩

/-! ## Execution -/

theorem RegHist.same {vm0 vm vm' : VM} (h : ∃ w, RegHist vm0 vm w) (e : SameReg vm vm') : ∃ w, RegHist vm0 vm' w :=
  h.elim fun w h => ⟨w, .other h e⟩

theorem regHist_frame (vm0 : VM) : CoFrame (fun vm => ∃ w, RegHist vm0 vm w) where
  err _ _ h := RegHist.same h ⟨rfl, rfl, rfl, rfl, rfl⟩
  str _ _ _ _ h := RegHist.same h ⟨rfl, rfl, rfl, rfl, rfl⟩
  obj _ _ h := RegHist.same h ⟨rfl, rfl, rfl, rfl, rfl⟩
  newo _ _ _ h := RegHist.same h ⟨rfl, rfl, rfl, rfl, rfl⟩
  ctx _ _ _ _ _ _ _ h := RegHist.same h ⟨rfl, rfl, rfl, rfl, rfl⟩
  stat _ _ h := RegHist.same h ⟨rfl, rfl, rfl, rfl, rfl⟩
  finish _ _ _ _ h := RegHist.same h ⟨rfl, rfl, rfl, rfl, rfl⟩
  popc _ _ _ _ _ h := RegHist.same h ⟨rfl, rfl, rfl, rfl, rfl⟩
  pushc _ _ _ _ _ _ h := RegHist.same h ⟨rfl, rfl, rfl, rfl, rfl⟩
  start _ _ _ _ h := RegHist.same h ⟨rfl, rfl, rfl, rfl, rfl⟩
  newc _ _ _ _ h := RegHist.same h ⟨rfl, rfl, rfl, rfl, rfl⟩
  free _ _ h := RegHist.same h ⟨rfl, rfl, rfl, rfl, rfl⟩
  pass _ _ h := RegHist.same h ⟨rfl, rfl, rfl, rfl, rfl⟩
  log _ _ h := RegHist.same h ⟨rfl, rfl, rfl, rfl, rfl⟩

theorem RegHist.trans {a b c : VM} {w w' : List Subsystem} (h : RegHist a b w) (h' : RegHist b c w') :
    RegHist a c (w' ++ w) := by
  induction h' with
  | refl => exact h
  | type _ e ih => exact .type ih e
  | native _ e ih => exact .native ih e
  | value _ e ih => exact .value ih e
  | declare _ e ih => exact .declare ih e
  | script _ e ih => exact .script ih e
  | subsystem _ e ih => exact .subsystem ih e
  | refused _ e ih => exact .refused ih e
  | file _ e ih => exact .file ih e
  | other _ e ih => exact .other ih e

theorem sameReg_gc (vm : VM) (g) : SameReg vm { vm with gc := g } := ⟨rfl, rfl, rfl, rfl, rfl⟩
theorem sameReg_left (vm : VM) (g) : SameReg vm { vm with instrLeft := g } := ⟨rfl, rfl, rfl, rfl, rfl⟩

/-- Executing an instruction changes the registries only through native functions that register. -/
theorem iterate_regHist {F : FloatOps} {H : Host} (hH : HostRegisters H) {vm vm' : VM}
    (h : iterate F H vm = .ok ((), vm')) : ∃ w, RegHist vm vm' w := by
  refine (iterate_pres (regHist_frame vm) (fun cb args => ⟨fun v r v' hp e => ?_⟩) ?_ ?_ ?_ ?_).run vm () vm'
    ⟨[], .refl vm⟩ h
  · obtain ⟨w, hp⟩ := hp
    obtain ⟨w', h'⟩ := hH cb args v r v' e
    exact ⟨_, hp.trans h'⟩
  · intro v h; unfold tick; exact RegHist.same h (sameReg_gc v _)
  · intro v h; unfold charge; exact RegHist.same h (sameReg_left v _)
  · intro v h; unfold noneLeft; exact RegHist.same h (sameReg_left v _)
  · intro v h; unfold resetCountdown; exact RegHist.same h (sameReg_gc v _)

/-! ## External types -/

theorem findTypeFrom_lt {name : Bytes} {ts : List ExtType} {i : Nat} (hl : i + ts.length ≤ UINT_MAX) :
    findTypeFrom name i ts ≠ UINT_MAX → i ≤ findTypeFrom name i ts ∧ findTypeFrom name i ts < i + ts.length := by
  induction ts generalizing i with
  | nil => intro h; exact absurd rfl h
  | cons t ts ih =>
    intro h
    unfold findTypeFrom at h ⊢
    simp only [List.length_cons] at hl ⊢
    split
    · omega
    · rename_i hc
      rw [if_neg hc] at h
      have := ih (i := i + 1) (by omega) h
      omega

theorem findTypeFrom_none {name : Bytes} {ts : List ExtType} {i : Nat} (hl : i + ts.length ≤ UINT_MAX) :
    findTypeFrom name i ts = UINT_MAX ↔ ∀ t ∈ ts, t.name ≠ name := by
  induction ts generalizing i with
  | nil => simp [findTypeFrom]
  | cons t ts ih =>
    simp only [List.length_cons] at hl
    unfold findTypeFrom
    split
    · rename_i h
      rw [strcmp_eq] at h
      simp only [List.mem_cons, forall_eq_or_imp, h, ne_eq, not_true_eq_false, false_and, iff_false]
      omega
    · rename_i h
      rw [strcmp_eq] at h
      simp [ih (i := i + 1) (by omega), h]

theorem findTypeFrom_append {name : Bytes} {ts rest : List ExtType} {i : Nat} (hl : i + ts.length ≤ UINT_MAX)
    (h : findTypeFrom name i ts ≠ UINT_MAX) : findTypeFrom name i (ts ++ rest) = findTypeFrom name i ts := by
  induction ts generalizing i with
  | nil => exact absurd rfl h
  | cons t ts ih =>
    simp only [List.length_cons] at hl
    rw [List.cons_append]
    unfold findTypeFrom at h ⊢
    split
    · rfl
    · rename_i hc
      rw [if_neg hc] at h
      exact ih (by omega) h

theorem findTypeFrom_last {t : ExtType} {ts : List ExtType} {i : Nat} (h : ∀ t' ∈ ts, t'.name ≠ t.name) :
    findTypeFrom t.name i (ts ++ [t]) = i + ts.length := by
  induction ts generalizing i with
  | nil => simp [findTypeFrom, strcmp_eq]
  | cons t' ts ih =>
    rw [List.cons_append]
    unfold findTypeFrom
    rw [if_neg (by rw [strcmp_eq]; exact h t' (by simp)), ih fun t h' => h t (by simp [h'])]
    simp; omega

/-- What registering does. -/
theorem registerExternalType_cases {t : ExtType} {vm vm' : VM} {id : Nat}
    (h : registerExternalType t vm = .ok (id, vm')) :
    (id = vm.extTypes.length ∧ findExternalType vm t.name = UINT_MAX ∧ vm.extTypes.length ≠ UINT_MAX ∧
      vm' = { vm with extTypes := vm.extTypes ++ [t] }) ∨
    (id = UINT_MAX ∧ (findExternalType vm t.name ≠ UINT_MAX ∨ vm.extTypes.length = UINT_MAX) ∧
      ∃ e, vm' = vm.addErr e) := by
  unfold registerExternalType at h
  rw [M.bind_ok (get_run _)] at h
  split at h
  · rename_i h1
    cases h
    exact .inr ⟨rfl, .inl h1, _, rfl⟩
  · rename_i h1
    split at h
    · rename_i h2
      cases h
      exact .inr ⟨rfl, .inr h2, _, rfl⟩
    · rename_i h2
      cases h
      exact .inl ⟨rfl, not_not.mp h1, h2, rfl⟩

/-! ## Native functions -/

theorem findNativeFrom_le {name : Bytes} {cb : Option Nat} {fs : List ExtFunc} {i : Nat} :
    i ≤ findNativeFrom name cb i fs ∧ findNativeFrom name cb i fs ≤ i + fs.length := by
  induction fs generalizing i with
  | nil => simp [findNativeFrom]
  | cons f fs ih =>
    unfold findNativeFrom
    split
    · simp
    · have := ih (i := i + 1)
      simp only [List.length_cons]
      omega

/-- The search finds the pair if and only if it is there. -/
theorem findNativeFrom_spec {name : Bytes} {cb : Option Nat} {fs : List ExtFunc} {i : Nat} :
    (findNativeFrom name cb i fs = i + fs.length ∧ ∀ f ∈ fs, ¬ (f.name = name ∧ f.callback = cb)) ∨
    (∃ k f, findNativeFrom name cb i fs = i + k ∧ fs[k]? = some f ∧ f.name = name ∧ f.callback = cb) := by
  induction fs generalizing i with
  | nil => exact .inl ⟨rfl, by simp⟩
  | cons f fs ih =>
    unfold findNativeFrom
    split
    · rename_i h
      rw [strcmp_eq] at h
      exact .inr ⟨0, f, rfl, rfl, h.2, h.1⟩
    · rename_i h
      rw [strcmp_eq] at h
      rcases ih (i := i + 1) with ⟨h1, h2⟩ | ⟨k, g, h1, h2, h3⟩
      · refine .inl ⟨by rw [h1]; simp; omega, ?_⟩
        intro g hg
        rcases List.mem_cons.mp hg with rfl | hg
        · exact fun h' => h ⟨h'.2, h'.1⟩
        · exact h2 g hg
      · exact .inr ⟨k + 1, g, by rw [h1]; omega, by simpa using h2, h3⟩

/-- What registering a native function does. -/
theorem registerNative_cases {name : Bytes} {cb : Option Nat} {vm vm' : VM} {id : Nat}
    (h : registerNative name cb vm = .ok (id, vm')) :
    (∃ f, vm' = vm ∧ vm.extFuncs[id]? = some f ∧ f.name = name ∧ f.callback = cb) ∨
    ((∀ f ∈ vm.extFuncs, ¬ (f.name = name ∧ f.callback = cb)) ∧
      ((id = UINT_MAX ∧ ∃ e, vm' = vm.addErr e) ∨
       (id = vm.extFuncs.length ∧ u32 (vm.extFuncs.length + 1) ≠ 0 ∧ vm' = { vm with extFuncs := vm.extFuncs ++
          [{ name, callback := cb, internalId := UINT_MAX, argc := UINT_MAX, argTypes := [], argExtTypes := [] }] }))) := by
  unfold registerNative registerNativeNoSearch at h
  rw [M.bind_ok (get_run _)] at h
  rcases findNativeFrom_spec (name := name) (cb := cb) (fs := vm.extFuncs) (i := 0) with ⟨h1, h2⟩ | ⟨k, f, h1, h2, h3, h4⟩
  · rw [if_pos (by rw [h1]; simp), M.bind_ok (get_run _)] at h
    refine .inr ⟨h2, ?_⟩
    split at h
    · cases h; exact .inl ⟨rfl, _, rfl⟩
    · rename_i h3
      cases h; exact .inr ⟨rfl, h3, rfl⟩
  · have hk : k < vm.extFuncs.length := (List.getElem?_eq_some_iff.mp h2).1
    rw [if_neg (by rw [h1]; omega)] at h
    cases h
    exact .inl ⟨f, rfl, by rw [h1]; simpa using h2, h3, h4⟩

theorem createFunction_cases {vm vm' : VM} {id : Nat} (h : createFunction vm = .ok (id, vm')) :
    id = vm.functions.length ∧ id < UINT_MAX ∧
      vm' = { vm with functions := vm.functions ++ [{ argc := 0, first := 0, extId := UINT_MAX }] } := by
  unfold createFunction at h
  rw [M.bind_ok (get_run _)] at h
  split at h
  · cases h
  · rename_i h1
    cases h
    refine ⟨rfl, ?_, rfl⟩
    unfold UINT_MAX at h1 ⊢
    omega

theorem scriptFunction_cases {vm vm' : VM} {id argc first : Nat} (h : scriptFunction argc first vm = .ok (id, vm')) :
    id = vm.functions.length ∧ id < UINT_MAX ∧
      vm' = { vm with functions := vm.functions ++ [{ argc, first, extId := UINT_MAX }] } := by
  unfold scriptFunction at h
  cases hc : createFunction vm with
  | ub k => rw [M.bind_ub hc] at h; cases h
  | ok p =>
    obtain ⟨i, v⟩ := p
    obtain ⟨h1, h2, h3⟩ := createFunction_cases hc
    rw [M.bind_ok hc] at h
    cases h
    subst h3
    exact ⟨h1, h2, by simp [h1]⟩

theorem internalFor_cases {vm vm' : VM} {id e : Nat} (h : internalFor e vm = .ok (id, vm')) :
    (vm.extFuncs[e]? = none ∧ id = UINT_MAX ∧ ∃ m, vm' = vm.addErr m) ∨
    (∃ f, vm.extFuncs[e]? = some f ∧ f.internalId ≠ UINT_MAX ∧ id = f.internalId ∧ vm' = vm) ∨
    (∃ f, vm.extFuncs[e]? = some f ∧ f.internalId = UINT_MAX ∧ id = vm.functions.length ∧ id < UINT_MAX ∧
      vm' = { vm with functions := vm.functions ++ [{ argc := UINT_MAX, first := 0, extId := e }],
                      extFuncs := vm.extFuncs.set e { f with internalId := id } }) := by
  unfold internalFor at h
  rw [M.bind_ok (get_run _)] at h
  cases hf : vm.extFuncs[e]? with
  | none =>
    rw [hf] at h
    cases h
    exact .inl ⟨rfl, rfl, _, rfl⟩
  | some f =>
    rw [hf] at h
    dsimp only at h
    split at h
    · rename_i h0
      cases hc : createFunction vm with
      | ub k => rw [M.bind_ub hc] at h; cases h
      | ok p =>
        obtain ⟨i, v⟩ := p
        obtain ⟨h1, h2, h3⟩ := createFunction_cases hc
        rw [M.bind_ok hc] at h
        cases h
        subst h3
        exact .inr (.inr ⟨f, rfl, h0, h1, h2, by simp [h1]⟩)
    · rename_i h0
      cases h
      exact .inr (.inl ⟨f, rfl, h0, rfl, rfl⟩)

theorem declareArgs_cases {vm vm' : VM} {e argc : Nat} {ts xs : List Nat}
    (h : declareArgs e argc ts xs vm = .ok ((), vm')) :
    ∃ f, vm.extFuncs[e]? = some f ∧
      vm' = { vm with extFuncs := vm.extFuncs.set e { f with argc := argc, argTypes := ts, argExtTypes := xs } } := by
  unfold declareArgs at h
  rw [M.bind_ok (get_run _)] at h
  cases hf : vm.extFuncs[e]? with
  | none => rw [hf] at h; cases h
  | some f => rw [hf] at h; cases h; exact ⟨f, rfl, rfl⟩

/-! ## Subsystems -/

theorem findSub_spec {name : Bytes} {ss : List Subsystem} {s : Subsystem} (h : findSub name ss = some s) :
    s ∈ ss ∧ s.name = name := by
  induction ss with
  | nil => cases h
  | cons x xs ih =>
    unfold findSub at h
    split at h
    · rename_i h1
      cases h
      exact ⟨by simp, strcmp_eq.mp h1⟩
    · exact ⟨by simp [(ih h).1], (ih h).2⟩

theorem findSub_none {name : Bytes} {ss : List Subsystem} (h : findSub name ss = none) : ∀ s ∈ ss, s.name ≠ name := by
  induction ss with
  | nil => simp
  | cons x xs ih =>
    unfold findSub at h
    split at h
    · cases h
    · rename_i h1
      rw [strcmp_eq] at h1
      intro s hs
      rcases List.mem_cons.mp hs with rfl | hs
      · exact h1
      · exact ih h s hs

theorem initSubsystem_cases {vm vm' : VM} {s : Subsystem} {r : Bool} (h : initSubsystem s vm = .ok (r, vm')) :
    (r = false ∧ vm.errors ≠ [] ∧ ∃ e, vm' = vm.addErr e) ∨
    (r = true ∧ vm.errors = [] ∧ ∃ b b', vm.subsystems[subBucket s.name]? = some b ∧
      vm' = { vm with subsystems := vm.subsystems.set (subBucket s.name) b' } ∧
      ((b' = s :: b ∧ findSub s.name b = none) ∨ (b' = setSub s b ∧ (findSub s.name b).isSome))) := by
  unfold initSubsystem at h
  rw [M.bind_ok (get_run _)] at h
  split at h
  · rename_i he
    cases h
    exact .inl ⟨rfl, he, _, rfl⟩
  · rename_i he
    cases hb : vm.subsystems[subBucket s.name]? with
    | none => rw [hb] at h; cases h
    | some b =>
      rw [hb] at h
      dsimp only at h
      cases hf : findSub s.name b with
      | none =>
        rw [hf] at h
        cases h
        exact .inr ⟨rfl, not_not.mp he, b, _, rfl, rfl, .inl ⟨rfl, hf⟩⟩
      | some x =>
        rw [hf] at h
        cases h
        exact .inr ⟨rfl, not_not.mp he, b, _, rfl, rfl, .inr ⟨rfl, by simp [hf]⟩⟩

/-! ## Source files -/

theorem findFileFrom_spec {name : Bytes} {fs : List Bytes} {i : Nat} :
    (findFileFrom name i fs = none ∧ name ∉ fs) ∨
    (∃ k, findFileFrom name i fs = some (i + k) ∧ fs[k]? = some name) := by
  induction fs generalizing i with
  | nil => exact .inl ⟨rfl, by simp⟩
  | cons f fs ih =>
    unfold findFileFrom
    split
    · rename_i h
      rw [strcmp_eq] at h
      exact .inr ⟨0, rfl, by simp [h]⟩
    · rename_i h
      rw [strcmp_eq] at h
      rcases ih (i := i + 1) with ⟨h1, h2⟩ | ⟨k, h1, h2⟩
      · exact .inl ⟨h1, by simp [h, h2]⟩
      · exact .inr ⟨k + 1, by rw [h1]; congr 1; omega, by simpa using h2⟩

theorem addSourceFile_cases {name : Bytes} {vm vm' : VM} {i : Nat} (h : addSourceFile name vm = .ok (i, vm')) :
    (vm' = vm ∧ vm.sourceFiles[i]? = some name) ∨
    (name ∉ vm.sourceFiles ∧ ((i = UINT_MAX ∧ vm' = vm) ∨
      (i = vm.sourceFiles.length ∧ vm' = { vm with sourceFiles := vm.sourceFiles ++ [name] }))) := by
  unfold addSourceFile at h
  rw [M.bind_ok (get_run _)] at h
  rcases findFileFrom_spec (name := name) (fs := vm.sourceFiles) (i := 0) with ⟨h1, h2⟩ | ⟨k, h1, h2⟩
  · rw [h1] at h
    dsimp only at h
    refine .inr ⟨h2, ?_⟩
    split at h
    · cases h; exact .inl ⟨rfl, rfl⟩
    · cases h; exact .inr ⟨rfl, rfl⟩
  · rw [h1] at h
    cases h
    exact .inl ⟨rfl, by simpa using h2⟩

/-! ## Markers -/

theorem markerLoop_last {idx : Nat} {m : Marker} {ms : List Marker}
    (hs : (m :: ms).Pairwise fun a b => a.instr ≤ b.instr) (h : m.instr ≤ idx) :
    some (markerLoop idx m ms) = ((m :: ms).filter (fun x => x.instr ≤ idx)).getLast? := by
  induction ms generalizing m with
  | nil => simp [markerLoop, h]
  | cons n ms ih =>
    unfold markerLoop
    split
    · rename_i hn
      have : (n :: ms).filter (fun x => decide (x.instr ≤ idx)) = [] := by
        rw [List.filter_eq_nil_iff]
        intro x hx
        have : n.instr ≤ x.instr := by
          rcases List.mem_cons.mp hx with rfl | hx
          · exact Nat.le_refl _
          · exact (List.pairwise_cons.mp (List.pairwise_cons.mp hs).2).1 x hx
        simp; omega
      rw [List.filter_cons_of_pos (by simpa using h), this]
      rfl
    · rename_i hn
      rw [ih (List.pairwise_cons.mp hs).2 (by omega)]
      conv => rhs; rw [List.filter_cons_of_pos (by simpa using h)]
      have : (n :: ms).filter (fun x => decide (x.instr ≤ idx)) ≠ [] := by
        rw [List.filter_cons_of_pos (by simpa using hn)]; simp
      rw [List.getLast?_cons_of_ne_nil this]

/-! ## Iteration over objects -/

/-- What the loop delivers. -/
def NextSpec (t : Table Obj) (type start n : Nat) : Prop :=
    (∃ s, nextOfTypeLoop t type start n = .ok (none, s) ∧
      ∀ i o, start ≤ i → i < start + n → t.entry i = some o → o.extType ≠ type) ∨
    (∃ id o, nextOfTypeLoop t type start n = .ok (some id, id + 1) ∧ start ≤ id ∧ id < start + n ∧
      t.entry id = some o ∧ o.extType = type ∧
      ∀ i o, start ≤ i → i < id → t.entry i = some o → o.extType ≠ type)

theorem NextSpec.step {t : Table Obj} {type start n : Nat} (ih : NextSpec t type (start + 1) n)
    (hno : ∀ o, t.entry start = some o → o.extType ≠ type)
    (he : nextOfTypeLoop t type start (n + 1) = nextOfTypeLoop t type (start + 1) n) :
    NextSpec t type start (n + 1) := by
  unfold NextSpec
  rw [he]
  rcases ih with ⟨s, h1, h2⟩ | ⟨id, o, h1, h2, h3, h4, h5, h6⟩
  · refine Or.inl ⟨s, h1, ?_⟩
    intro i o hi1 hi2 ho
    by_cases hi : i = start
    · subst hi; exact hno o ho
    · exact h2 i o (by omega) (by omega) ho
  · refine Or.inr ⟨id, o, h1, by omega, by omega, h4, h5, ?_⟩
    intro i o hi1 hi2 ho
    by_cases hi : i = start
    · subst hi; exact hno o ho
    · exact h6 i o (by omega) (by omega) ho

theorem nextOfTypeLoop_spec {t : Table Obj} {type : Nat} (hw : t.slots.length = t.cap) (n start : Nat)
    (hn : start + n = t.cap ∨ n = 0) : NextSpec t type start n := by
  induction n generalizing start with
  | zero => exact .inl ⟨start, rfl, by intros; omega⟩
  | succ n ih =>
    have hlt : start < t.slots.length := by rw [hw]; omega
    have hg : t.slots[start]? = some (t.slots[start]) := List.getElem?_eq_getElem hlt
    cases hx : t.slots[start] with
    | none =>
      rw [hx] at hg
      exact (ih (start + 1) (by omega)).step (by intro o ho; simp [Table.entry, hg] at ho) (by simp [nextOfTypeLoop, hg])
    | some o =>
      rw [hx] at hg
      have he : t.entry start = some o := by simp [Table.entry, hg]
      by_cases ht : o.extType = type
      · exact .inr ⟨start, o, by simp [nextOfTypeLoop, hg, ht], by omega, by omega, he, ht, by intros; omega⟩
      · exact (ih (start + 1) (by omega)).step (by intro o' ho'; rw [he] at ho'; cases ho'; exact ht) (by simp [nextOfTypeLoop, hg, ht])

theorem nextOfType_spec {t : Table Obj} {type : Nat} (hw : t.slots.length = t.cap) (start : Nat) :
    (∃ s, nextOfType t type start = .ok (none, s) ∧
      ∀ i o, start ≤ i → t.entry i = some o → o.extType ≠ type) ∨
    (∃ id o, nextOfType t type start = .ok (some id, id + 1) ∧ start ≤ id ∧ id < t.cap ∧
      t.entry id = some o ∧ o.extType = type ∧
      ∀ i o, start ≤ i → i < id → t.entry i = some o → o.extType ≠ type) := by
  have hb : ∀ i o, t.entry i = some o → i < t.cap := by
    intro i o h
    rw [← hw]
    by_contra hc
    simp [Table.entry, List.getElem?_eq_none (Nat.le_of_not_lt hc)] at h
  rcases nextOfTypeLoop_spec (type := type) hw (t.cap - start) start (by omega) with
    ⟨s, h1, h2⟩ | ⟨id, o, h1, h2, h3, h4, h5, h6⟩
  · exact .inl ⟨s, h1, fun i o hi ho => h2 i o hi (by have := hb i o ho; omega) ho⟩
  · exact .inr ⟨id, o, h1, h2, hb id o h4, h4, h5, h6⟩

end Nk
