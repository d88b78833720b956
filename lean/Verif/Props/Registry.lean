import Verif.Lemmas.Registry
import Verif.Lemmas.Destroy
import Verif.Spec.Sample
/-!
# C40 to C44: registries, source positions and iteration over objects

`RegHist vm vm' w` (in `Spec.Registry`) says that `vm'` comes from `vm` by registrations of all kinds and anything that
leaves the registries alone; `C40_execution` shows that executing bytecode is such a history.
-/
namespace Nk.Props

/-- Executing instructions of any program is a history in the sense of the theorems below, if native functions
change the registries only by registering. -/
theorem C40_execution (F : FloatOps) (H : Host) (hH : HostRegisters H) {vm vm' : VM}
    (h : iterate F H vm = .ok ((), vm')) : ∃ w, RegHist vm vm' w := iterate_regHist hH h

/-! ## C40 -/

theorem regHist_types {vm vm' : VM} {w : List Subsystem} (h : RegHist vm vm' w) : vm.extTypes <+: vm'.extTypes := by
  induction h with
  | refl => exact List.prefix_rfl
  | @type v v' w t id _ e ih =>
    rcases registerExternalType_cases e with ⟨_, _, _, rfl⟩ | ⟨_, _, _, rfl⟩
    · exact ih.trans (List.prefix_append _ _)
    · exact ih
  | native _ e ih =>
    rcases registerNative_cases e with ⟨_, rfl, _⟩ | ⟨_, ⟨_, _, rfl⟩ | ⟨_, _, rfl⟩⟩ <;> exact ih
  | value _ e ih =>
    rcases internalFor_cases e with ⟨_, _, _, rfl⟩ | ⟨_, _, _, _, rfl⟩ | ⟨_, _, _, _, _, rfl⟩ <;> exact ih
  | declare _ e ih => obtain ⟨_, _, rfl⟩ := declareArgs_cases e; exact ih
  | script _ e ih => obtain ⟨_, _, rfl⟩ := scriptFunction_cases e; exact ih
  | subsystem _ e ih =>
    rcases initSubsystem_cases e with ⟨_, _, _, rfl⟩ | ⟨_, _, _, _, _, rfl, _⟩ <;> exact ih
  | refused _ e ih =>
    rcases initSubsystem_cases e with ⟨_, _, _, rfl⟩ | ⟨_, _, _, _, _, rfl, _⟩ <;> exact ih
  | file _ e ih =>
    rcases addSourceFile_cases e with ⟨rfl, _⟩ | ⟨_, ⟨_, rfl⟩ | ⟨_, rfl⟩⟩ <;> exact ih
  | other _ e ih => rw [e.types]; exact ih

theorem regHist_types_len {vm vm' : VM} {w : List Subsystem} (h : RegHist vm vm' w)
    (hv : vm.extTypes.length ≤ UINT_MAX) : vm'.extTypes.length ≤ UINT_MAX := by
  induction h with
  | refl => exact hv
  | @type v v' w t id _ e ih =>
    rcases registerExternalType_cases e with ⟨_, _, _, rfl⟩ | ⟨_, _, _, rfl⟩
    · simp; omega
    · exact ih
  | native _ e ih =>
    rcases registerNative_cases e with ⟨_, rfl, _⟩ | ⟨_, ⟨_, _, rfl⟩ | ⟨_, _, rfl⟩⟩ <;> exact ih
  | value _ e ih =>
    rcases internalFor_cases e with ⟨_, _, _, rfl⟩ | ⟨_, _, _, _, rfl⟩ | ⟨_, _, _, _, _, rfl⟩ <;> exact ih
  | declare _ e ih => obtain ⟨_, _, rfl⟩ := declareArgs_cases e; exact ih
  | script _ e ih => obtain ⟨_, _, rfl⟩ := scriptFunction_cases e; exact ih
  | subsystem _ e ih =>
    rcases initSubsystem_cases e with ⟨_, _, _, rfl⟩ | ⟨_, _, _, _, _, rfl, _⟩ <;> exact ih
  | refused _ e ih =>
    rcases initSubsystem_cases e with ⟨_, _, _, rfl⟩ | ⟨_, _, _, _, _, rfl, _⟩ <;> exact ih
  | file _ e ih =>
    rcases addSourceFile_cases e with ⟨rfl, _⟩ | ⟨_, ⟨_, rfl⟩ | ⟨_, rfl⟩⟩ <;> exact ih
  | other _ e ih => rw [e.types]; exact ih

/-- **C40**, first half: in a VM with any history since its creation, a successful registration returns an id, and by
every later history the name is found under that id, and the id carries that type. -/
theorem C40_stable {vm vm1 vm2 : VM} {w w' : List Subsystem} {t : ExtType} {id : Nat} (h0 : RegHist VM.create vm w)
    (h : registerExternalType t vm = .ok (id, vm1)) (hid : id ≠ UINT_MAX) (h1 : RegHist vm1 vm2 w') :
    findExternalType vm2 t.name = id ∧ vm2.extTypes[id]? = some t := by
  have hl : vm.extTypes.length ≤ UINT_MAX := regHist_types_len h0 (by decide)
  rcases registerExternalType_cases h with ⟨r1, r2, r3, rfl⟩ | ⟨r1, _⟩
  · obtain ⟨rest, hr⟩ := regHist_types h1
    have hlast : findTypeFrom t.name 0 (vm.extTypes ++ [t]) = vm.extTypes.length := by
      rw [findTypeFrom_last ((findTypeFrom_none (by omega)).mp r2)]; simp
    unfold findExternalType
    rw [← hr, findTypeFrom_append (by simp; omega) (by simp only [hlast]; exact r3), hlast, r1]
    exact ⟨rfl, by simp⟩
  · exact absurd r1 hid

/-- **C40**, second half: a second registration of the name is refused with one error, and changes nothing else. -/
theorem C40_refused {vm vm1 vm2 : VM} {w w' : List Subsystem} {t : ExtType} {id : Nat} (h0 : RegHist VM.create vm w)
    (h : registerExternalType t vm = .ok (id, vm1)) (hid : id ≠ UINT_MAX) (h1 : RegHist vm1 vm2 w')
    {t' : ExtType} (ht : t'.name = t.name) :
    ∃ e, registerExternalType t' vm2 = .ok (UINT_MAX, { vm2 with errors := vm2.errors ++ [e] }) := by
  obtain ⟨h2, _⟩ := C40_stable h0 h hid h1
  refine ⟨"Attempted to register an external type twice.", ?_⟩
  unfold registerExternalType
  rw [M.bind_ok (get_run _), if_pos (by rw [ht, h2]; exact hid)]
  rfl

/-- **C40**: a name that is not registered is accepted, as long as fewer than 2^32 - 1 types are registered, without
error. -/
theorem C40_accepted {vm : VM} {w : List Subsystem} {t : ExtType} (h0 : RegHist VM.create vm w)
    (hn : ∀ t' ∈ vm.extTypes, t'.name ≠ t.name) (hl : vm.extTypes.length < UINT_MAX) :
    registerExternalType t vm = .ok (vm.extTypes.length, { vm with extTypes := vm.extTypes ++ [t] }) := by
  unfold registerExternalType
  rw [M.bind_ok (get_run _), if_neg (by
    rw [not_not]; exact (findTypeFrom_none (by omega)).mpr hn), if_neg (by omega)]
  rfl

/-! ## C41 -/

/-- The tables of native functions and functions are consistent. -/
structure FnWF (vm : VM) : Prop where
  unique : ∀ (i j : Nat) (f g : ExtFunc), vm.extFuncs[i]? = some f → vm.extFuncs[j]? = some g → f.name = g.name → f.callback = g.callback →
    i = j
  fwd : ∀ (e : Nat) (f : ExtFunc), vm.extFuncs[e]? = some f → f.internalId ≠ UINT_MAX →
    ∃ g, vm.functions[f.internalId]? = some g ∧ g.extId = e
  bwd : ∀ (i : Nat) (g : Func), vm.functions[i]? = some g → g.extId ≠ UINT_MAX →
    ∃ f, vm.extFuncs[g.extId]? = some f ∧ f.internalId = i
  len : vm.extFuncs.length ≤ UINT_MAX
  flen : vm.functions.length ≤ UINT_MAX

/-- What later states keep. -/
structure FnExt (vm vm' : VM) : Prop where
  natives : ∀ (e : Nat) (f : ExtFunc), vm.extFuncs[e]? = some f → ∃ f', vm'.extFuncs[e]? = some f' ∧ f'.name = f.name ∧
    f'.callback = f.callback ∧ (f.internalId ≠ UINT_MAX → f'.internalId = f.internalId)
  functions : ∀ (i : Nat) (g : Func), vm.functions[i]? = some g → vm'.functions[i]? = some g

theorem FnExt.refl (vm : VM) : FnExt vm vm := ⟨fun _ f h => ⟨f, h, rfl, rfl, fun _ => rfl⟩, fun _ _ h => h⟩

theorem FnExt.trans {a b c : VM} (h : FnExt a b) (h' : FnExt b c) : FnExt a c :=
  ⟨fun e f hf => by
    obtain ⟨f1, h1, h2, h3, h4⟩ := h.natives e f hf
    obtain ⟨f2, g1, g2, g3, g4⟩ := h'.natives e f1 h1
    exact ⟨f2, g1, g2.trans h2, g3.trans h3, fun hn => by rw [g4 (by rw [h4 hn]; exact hn), h4 hn]⟩,
   fun i g hg => h'.functions i g (h.functions i g hg)⟩

theorem FnExt.of_eq {a b : VM} (h1 : b.extFuncs = a.extFuncs) (h2 : b.functions = a.functions) : FnExt a b :=
  ⟨fun _ f h => ⟨f, by rw [h1]; exact h, rfl, rfl, fun _ => rfl⟩, fun _ _ h => by rw [h2]; exact h⟩

theorem FnWF.of_eq {a b : VM} (h : FnWF a) (h1 : b.extFuncs = a.extFuncs) (h2 : b.functions = a.functions) : FnWF b :=
  ⟨by rw [h1]; exact h.unique, by rw [h1, h2]; exact h.fwd, by rw [h1, h2]; exact h.bwd, by rw [h1]; exact h.len,
   by rw [h2]; exact h.flen⟩

theorem fn_append {α : Type} {l : List α} {a b : α} {i : Nat} (h : (l ++ [a])[i]? = some b) :
    l[i]? = some b ∨ (i = l.length ∧ b = a) := by
  rcases Nat.lt_trichotomy i l.length with hi | hi | hi
  · rw [List.getElem?_append_left hi] at h; exact .inl h
  · subst hi; simp at h; exact .inr ⟨rfl, h.symm⟩
  · rw [List.getElem?_eq_none (by simp; omega)] at h; cases h

theorem fn_get_lt {α : Type} {l : List α} {a : α} {i : Nat} (h : l[i]? = some a) : i < l.length :=
  (List.getElem?_eq_some_iff.mp h).1

theorem fn_keep {α : Type} {l : List α} {a b : α} {i : Nat} (h : l[i]? = some b) : (l ++ [a])[i]? = some b := by
  rw [List.getElem?_append_left (fn_get_lt h)]; exact h

theorem fn_set {α : Type} {l : List α} {a b : α} {e i : Nat} (h : (l.set e a)[i]? = some b) :
    (i = e ∧ b = a) ∨ (i ≠ e ∧ l[i]? = some b) := by
  by_cases hi : i = e
  · subst hi
    have hlt : i < l.length := by simpa using fn_get_lt h
    rw [List.getElem?_set_self hlt] at h
    exact .inl ⟨rfl, (Option.some.inj h).symm⟩
  · rw [List.getElem?_set_ne (fun h => hi h.symm)] at h
    exact .inr ⟨hi, h⟩

theorem registerNative_fn {vm vm' : VM} {name : Bytes} {cb : Option Nat} {id : Nat} (hw : FnWF vm)
    (h : registerNative name cb vm = .ok (id, vm')) : FnWF vm' ∧ FnExt vm vm' := by
  rcases registerNative_cases h with ⟨f, rfl, h1, h2, h3⟩ | ⟨h1, ⟨_, e, rfl⟩ | ⟨h2, h3, rfl⟩⟩
  · exact ⟨hw, .refl _⟩
  · exact ⟨hw.of_eq rfl rfl, .of_eq rfl rfl⟩
  · have hl := hw.len
    refine ⟨⟨?_, ?_, ?_, ?_, hw.flen⟩, ⟨fun e f hf => ⟨f, fn_keep hf, rfl, rfl, fun _ => rfl⟩, fun _ _ h => h⟩⟩
    · intro i j f g hf hg hn hc
      rcases fn_append hf with hf | ⟨rfl, rfl⟩ <;> rcases fn_append hg with hg | ⟨rfl, rfl⟩
      · exact hw.unique i j f g hf hg hn hc
      · exact absurd ⟨hn, hc⟩ (h1 f (List.mem_of_getElem? hf))
      · exact absurd ⟨hn.symm, hc.symm⟩ (h1 g (List.mem_of_getElem? hg))
      · rfl
    · intro e f hf hne
      rcases fn_append hf with hf | ⟨rfl, rfl⟩
      · exact hw.fwd e f hf hne
      · exact absurd rfl hne
    · intro i g hg hne
      obtain ⟨f, hf, hi⟩ := hw.bwd i g hg hne
      exact ⟨f, fn_keep hf, hi⟩
    · simp only [List.length_append, List.length_cons, List.length_nil]
      unfold u32 U32 at h3
      unfold UINT_MAX at hl ⊢
      omega

theorem scriptFunction_fn {vm vm' : VM} {id argc first : Nat} (hw : FnWF vm)
    (h : scriptFunction argc first vm = .ok (id, vm')) : FnWF vm' ∧ FnExt vm vm' := by
  obtain ⟨h1, h2, rfl⟩ := scriptFunction_cases h
  refine ⟨⟨hw.unique, ?_, ?_, hw.len, ?_⟩, ⟨fun e f hf => ⟨f, hf, rfl, rfl, fun _ => rfl⟩, fun _ _ h => fn_keep h⟩⟩
  · intro e f hf hne
    obtain ⟨g, hg, he⟩ := hw.fwd e f hf hne
    exact ⟨g, fn_keep hg, he⟩
  · intro i g hg hne
    rcases fn_append hg with hg | ⟨rfl, rfl⟩
    · exact hw.bwd i g hg hne
    · exact absurd rfl hne
  · simp; omega

theorem internalFor_fn {vm vm' : VM} {id e : Nat} (hw : FnWF vm)
    (h : internalFor e vm = .ok (id, vm')) : FnWF vm' ∧ FnExt vm vm' := by
  rcases internalFor_cases h with ⟨_, _, _, rfl⟩ | ⟨_, _, _, _, rfl⟩ | ⟨f, h1, h2, h3, h4, rfl⟩
  · exact ⟨hw.of_eq rfl rfl, .of_eq rfl rfl⟩
  · exact ⟨hw, .refl _⟩
  · have hlt := fn_get_lt h1
    have hset : ∀ (i : Nat) (f' : ExtFunc), (vm.extFuncs.set e { f with internalId := id })[i]? = some f' →
        (i = e ∧ f' = { f with internalId := id }) ∨ (i ≠ e ∧ vm.extFuncs[i]? = some f') := by
      exact fun i f' hf' => fn_set hf'
    have hget : ∀ i f', vm.extFuncs[i]? = some f' → i ≠ e →
        (vm.extFuncs.set e { f with internalId := id })[i]? = some f' := by
      intro i f' hf' hne
      rw [List.getElem?_set_ne (fun h => hne h.symm)]; exact hf'
    have hself : (vm.extFuncs.set e { f with internalId := id })[e]? = some { f with internalId := id } := by
      rw [List.getElem?_set_self hlt]
    refine ⟨⟨?_, ?_, ?_, by simpa using hw.len, by simp; omega⟩, ⟨?_, fun _ _ h => fn_keep h⟩⟩
    · intro i j a b ha hb hn hc
      rcases hset i a ha with ⟨h5, h6⟩ | ⟨_, ha'⟩ <;> rcases hset j b hb with ⟨h7, h8⟩ | ⟨_, hb'⟩
      · rw [h5, h7]
      · rw [h5]; exact hw.unique _ j f b h1 hb' (by rw [h6] at hn; exact hn) (by rw [h6] at hc; exact hc)
      · rw [h7]; exact hw.unique i _ a f ha' h1 (by rw [h8] at hn; exact hn) (by rw [h8] at hc; exact hc)
      · exact hw.unique i j a b ha' hb' hn hc
    · intro i a ha hne
      rcases hset i a ha with ⟨h5, h6⟩ | ⟨_, ha⟩
      · refine ⟨{ argc := UINT_MAX, first := 0, extId := e }, ?_, h5.symm⟩
        rw [h6, h3]
        simp
      · obtain ⟨g, hg, he⟩ := hw.fwd i a ha hne
        exact ⟨g, fn_keep hg, he⟩
    · intro i g hg hne
      rcases fn_append hg with hg | ⟨rfl, rfl⟩
      · obtain ⟨a, ha, hi⟩ := hw.bwd i g hg hne
        by_cases hge : g.extId = e
        · rw [hge] at ha
          rw [h1] at ha
          cases ha
          rw [h2] at hi
          have := fn_get_lt hg
          have := hw.flen
          omega
        · exact ⟨a, hget _ a ha hge, hi⟩
      · exact ⟨_, hself, h3⟩
    · intro i a ha
      by_cases hie : i = e
      · subst hie
        rw [h1] at ha
        cases ha
        exact ⟨_, hself, rfl, rfl, fun hn => absurd h2 hn⟩
      · exact ⟨a, hget i a ha hie, rfl, rfl, fun _ => rfl⟩

theorem declareArgs_fn {vm vm' : VM} {e argc : Nat} {ts xs : List Nat} (hw : FnWF vm)
    (h : declareArgs e argc ts xs vm = .ok ((), vm')) : FnWF vm' ∧ FnExt vm vm' := by
  obtain ⟨f, h1, rfl⟩ := declareArgs_cases h
  have hlt := fn_get_lt h1
  have hset : ∀ (i : Nat) (f' : ExtFunc), (vm.extFuncs.set e { f with argc := argc, argTypes := ts, argExtTypes := xs })[i]? = some f' →
      ∃ a, vm.extFuncs[i]? = some a ∧ f'.name = a.name ∧ f'.callback = a.callback ∧ f'.internalId = a.internalId := by
    intro i f' hf'
    rcases fn_set hf' with ⟨rfl, rfl⟩ | ⟨_, hf'⟩
    · exact ⟨f, h1, rfl, rfl, rfl⟩
    · exact ⟨f', hf', rfl, rfl, rfl⟩
  have hget : ∀ (i : Nat) (a : ExtFunc), vm.extFuncs[i]? = some a → ∃ f' : ExtFunc,
      (vm.extFuncs.set e { f with argc := argc, argTypes := ts, argExtTypes := xs })[i]? = some f' ∧
      f'.name = a.name ∧ f'.callback = a.callback ∧ f'.internalId = a.internalId := by
    intro i a ha
    by_cases hie : i = e
    · subst hie
      rw [h1] at ha
      cases ha
      exact ⟨_, List.getElem?_set_self hlt, rfl, rfl, rfl⟩
    · exact ⟨a, by rw [List.getElem?_set_ne (fun h => hie h.symm)]; exact ha, rfl, rfl, rfl⟩
  refine ⟨⟨?_, ?_, ?_, by simpa using hw.len, hw.flen⟩, ⟨?_, fun _ _ h => h⟩⟩
  · intro i j a b ha hb hn hc
    obtain ⟨a', ha', n1, c1, _⟩ := hset i a ha
    obtain ⟨b', hb', n2, c2, _⟩ := hset j b hb
    exact hw.unique i j a' b' ha' hb' (by rw [← n1, ← n2]; exact hn) (by rw [← c1, ← c2]; exact hc)
  · intro i a ha hne
    obtain ⟨a', ha', _, _, i1⟩ := hset i a ha
    rw [i1] at hne ⊢
    exact hw.fwd i a' ha' hne
  · intro i g hg hne
    obtain ⟨a, ha, hi⟩ := hw.bwd i g hg hne
    obtain ⟨a', ha', _, _, i1⟩ := hget _ a ha
    exact ⟨a', ha', i1.trans hi⟩
  · intro i a ha
    obtain ⟨a', ha', n1, c1, i1⟩ := hget i a ha
    exact ⟨a', ha', n1, c1, fun _ => i1⟩

theorem regHist_fn {vm vm' : VM} {w : List Subsystem} (h : RegHist vm vm' w) (hw : FnWF vm) :
    FnWF vm' ∧ FnExt vm vm' := by
  have same : ∀ {v v' : VM}, FnWF v ∧ FnExt vm v → v'.extFuncs = v.extFuncs → v'.functions = v.functions →
      FnWF v' ∧ FnExt vm v' := fun ih h1 h2 => ⟨ih.1.of_eq h1 h2, ih.2.trans (.of_eq h1 h2)⟩
  have next : ∀ {v v' : VM}, FnWF v ∧ FnExt vm v → FnWF v' ∧ FnExt v v' → FnWF v' ∧ FnExt vm v' :=
    fun ih h => ⟨h.1, ih.2.trans h.2⟩
  induction h with
  | refl => exact ⟨hw, .refl _⟩
  | type _ e ih =>
    rcases registerExternalType_cases e with ⟨_, _, _, rfl⟩ | ⟨_, _, _, rfl⟩ <;> exact same ih rfl rfl
  | native _ e ih => exact next ih (registerNative_fn ih.1 e)
  | value _ e ih => exact next ih (internalFor_fn ih.1 e)
  | declare _ e ih => exact next ih (declareArgs_fn ih.1 e)
  | script _ e ih => exact next ih (scriptFunction_fn ih.1 e)
  | subsystem _ e ih =>
    rcases initSubsystem_cases e with ⟨_, _, _, rfl⟩ | ⟨_, _, _, _, _, rfl, _⟩ <;> exact same ih rfl rfl
  | refused _ e ih =>
    rcases initSubsystem_cases e with ⟨_, _, _, rfl⟩ | ⟨_, _, _, _, _, rfl, _⟩ <;> exact same ih rfl rfl
  | file _ e ih =>
    rcases addSourceFile_cases e with ⟨rfl, _⟩ | ⟨_, ⟨_, rfl⟩ | ⟨_, rfl⟩⟩ <;> exact same ih rfl rfl
  | other _ e ih => exact same ih e.natives e.functions

theorem create_fn : FnWF VM.create where
  unique _ _ _ _ h := by cases h
  fwd _ _ h := by cases h
  bwd _ _ h := by cases h
  len := by decide
  flen := by decide

theorem registered {vm vm1 vm2 : VM} {w : List Subsystem} {name : Bytes} {cb : Option Nat} {id : Nat} (hw : FnWF vm)
    (h : registerNative name cb vm = .ok (id, vm1)) (hid : id ≠ UINT_MAX) (h1 : RegHist vm1 vm2 w) :
    ∃ f, vm2.extFuncs[id]? = some f ∧ f.name = name ∧ f.callback = cb := by
  have key : ∃ f, vm1.extFuncs[id]? = some f ∧ f.name = name ∧ f.callback = cb := by
    rcases registerNative_cases h with ⟨f, rfl, h1, h2, h3⟩ | ⟨_, ⟨h1, _⟩ | ⟨h2, _, rfl⟩⟩
    · exact ⟨f, h1, h2, h3⟩
    · exact absurd h1 hid
    · exact ⟨{ name, callback := cb, internalId := UINT_MAX, argc := UINT_MAX, argTypes := [], argExtTypes := [] },
        by simp [h2], rfl, rfl⟩
  obtain ⟨f, k1, k2, k3⟩ := key
  obtain ⟨f', g1, g2, g3, _⟩ := (regHist_fn h1 (registerNative_fn hw h).1).2.natives id f k1
  exact ⟨f', g1, g2.trans k2, g3.trans k3⟩

/-- **C41**: once a pair of name and callback has been registered, registering it again at any later time returns the
same id and changes nothing. -/
theorem C41_same {vm vm1 vm2 : VM} {w w' : List Subsystem} {name : Bytes} {cb : Option Nat} {id : Nat}
    (h0 : RegHist VM.create vm w) (h : registerNative name cb vm = .ok (id, vm1)) (hid : id ≠ UINT_MAX)
    (h1 : RegHist vm1 vm2 w') : registerNative name cb vm2 = .ok (id, vm2) := by
  have hw := (regHist_fn h0 create_fn).1
  have hw2 := (regHist_fn h1 (registerNative_fn hw h).1).1
  obtain ⟨f, k1, k2, k3⟩ := registered hw h hid h1
  unfold registerNative
  rw [M.bind_ok (get_run _)]
  rcases findNativeFrom_spec (name := name) (cb := cb) (fs := vm2.extFuncs) (i := 0) with ⟨_, h2⟩ | ⟨k, g, h2, h3, h4, h5⟩
  · exact absurd ⟨k2, k3⟩ (h2 f (List.mem_of_getElem? k1))
  · have : k = id := hw2.unique k id g f h3 k1 (h4.trans k2.symm) (h5.trans k3.symm)
    subst this
    have hk := fn_get_lt h3
    rw [h2, Nat.zero_add, if_neg (by omega)]
    rfl

/-- **C41**: different pairs get different ids. -/
theorem C41_distinct {vm vm1 vm2 vm3 : VM} {w w' : List Subsystem} {name name' : Bytes} {cb cb' : Option Nat}
    {id id' : Nat} (h0 : RegHist VM.create vm w) (h : registerNative name cb vm = .ok (id, vm1)) (hid : id ≠ UINT_MAX)
    (h1 : RegHist vm1 vm2 w') (h2 : registerNative name' cb' vm2 = .ok (id', vm3)) (hid' : id' ≠ UINT_MAX)
    (hne : name ≠ name' ∨ cb ≠ cb') : id ≠ id' := by
  rintro rfl
  have hw := (regHist_fn h0 create_fn).1
  have hw2 := (regHist_fn h1 (registerNative_fn hw h).1).1
  obtain ⟨f, k1, k2, k3⟩ := registered hw h hid (h1.native h2)
  obtain ⟨g, g1, g2, g3⟩ := registered hw2 h2 hid' (.refl _)
  rw [k1] at g1
  cases g1
  rcases hne with hne | hne
  · exact hne (k2.symm.trans g2)
  · exact hne (k3.symm.trans g3)

/-- **C41**: a native function has one function value: once obtained, it is obtained again at any later time; it
designates the native function; and no other function value does. -/
theorem C41_one_value {vm vm1 vm2 : VM} {w w' : List Subsystem} {e id : Nat} (h0 : RegHist VM.create vm w)
    (h : internalFor e vm = .ok (id, vm1)) (hid : id ≠ UINT_MAX) (h1 : RegHist vm1 vm2 w') :
    internalFor e vm2 = .ok (id, vm2) ∧ (∃ g, vm2.functions[id]? = some g ∧ g.extId = e) ∧
      ∀ i g, vm2.functions[i]? = some g → g.extId = e → i = id := by
  have hw := (regHist_fn h0 create_fn).1
  obtain ⟨hw1, _⟩ := internalFor_fn hw h
  obtain ⟨hw2, hx⟩ := regHist_fn h1 hw1
  have key : ∃ f, vm1.extFuncs[e]? = some f ∧ f.internalId = id := by
    rcases internalFor_cases h with ⟨_, h2, _⟩ | ⟨f, h2, h3, h4, rfl⟩ | ⟨f, h2, h3, h4, h5, rfl⟩
    · exact absurd h2 hid
    · exact ⟨f, h2, h4.symm⟩
    · exact ⟨_, List.getElem?_set_self (fn_get_lt h2), rfl⟩
  obtain ⟨f, k1, k2⟩ := key
  obtain ⟨f', g1, _, _, g2⟩ := hx.natives e f k1
  have g3 : f'.internalId = id := (g2 (by rw [k2]; exact hid)).trans k2
  have hemax : e ≠ UINT_MAX := by
    have := fn_get_lt g1
    have := hw2.len
    omega
  refine ⟨?_, ?_, ?_⟩
  · unfold internalFor
    rw [M.bind_ok (get_run _), g1]
    dsimp only
    rw [if_neg (by rw [g3]; exact hid), g3]
    rfl
  · have := hw2.fwd e f' g1 (by rw [g3]; exact hid)
    rwa [g3] at this
  · intro i g hg he
    obtain ⟨a, ha, hi⟩ := hw2.bwd i g hg (by rw [he]; exact hemax)
    rw [he, g1] at ha
    cases ha
    rw [← hi, g3]

/-! ## C42 -/

/-- The subsystem buckets hold what the list says, latest first. -/
structure SubRep (vm : VM) (w : List Subsystem) : Prop where
  len : vm.subsystems.length = 16
  place : ∀ (i : Nat) (b : List Subsystem), vm.subsystems[i]? = some b → ∀ s ∈ b, subBucket s.name = i
  nodup : ∀ (i : Nat) (b : List Subsystem), vm.subsystems[i]? = some b → (b.map (·.name)).Nodup
  rep : ∀ (n : Bytes) (b : List Subsystem), vm.subsystems[subBucket n]? = some b → findSub n b = w.find? (fun s => s.name = n)

theorem subBucket_lt (n : Bytes) : subBucket n < 16 := by
  unfold subBucket
  exact Nat.lt_of_le_of_lt Nat.and_le_right (by decide)

theorem create_sub : SubRep VM.create [] := by
  have hb : ∀ (i : Nat) (b : List Subsystem), (VM.create).subsystems[i]? = some b → b = [] := by
    intro i b h
    have : b ∈ List.replicate 16 ([] : List Subsystem) := List.mem_of_getElem? h
    exact (List.mem_replicate.mp this).2
  exact ⟨rfl, fun i b h => by rw [hb i b h]; simp, fun i b h => by rw [hb i b h]; simp,
    fun n b h => by rw [hb _ b h]; rfl⟩

theorem SubRep.of_eq {a b : VM} {w : List Subsystem} (h : SubRep a w) (e : b.subsystems = a.subsystems) : SubRep b w :=
  ⟨by rw [e]; exact h.len, by rw [e]; exact h.place, by rw [e]; exact h.nodup, by rw [e]; exact h.rep⟩

theorem setSub_names (s : Subsystem) (b : List Subsystem) : (setSub s b).map (·.name) = b.map (·.name) := by
  induction b with
  | nil => rfl
  | cons x xs ih =>
    unfold setSub
    split
    · rename_i h; rw [strcmp_eq] at h; simp [h]
    · simp [ih]

theorem findSub_set_self {s : Subsystem} {b : List Subsystem} (h : (findSub s.name b).isSome) :
    findSub s.name (setSub s b) = some s := by
  induction b with
  | nil => cases h
  | cons x xs ih =>
    unfold setSub
    split
    · unfold findSub; rw [if_pos (strcmp_eq.mpr rfl)]
    · rename_i hx
      unfold findSub at h ⊢
      rw [if_neg hx] at h ⊢
      exact ih h

theorem findSub_set_ne {s : Subsystem} {n : Bytes} (hn : n ≠ s.name) (b : List Subsystem) :
    findSub n (setSub s b) = findSub n b := by
  induction b with
  | nil => rfl
  | cons x xs ih =>
    unfold setSub
    split
    · rename_i hx
      rw [strcmp_eq] at hx
      unfold findSub
      rw [if_neg (by rw [strcmp_eq]; exact fun h => hn h.symm), if_neg (by rw [strcmp_eq, hx]; exact fun h => hn h.symm)]
    · unfold findSub
      rw [ih]

theorem init_sub {vm vm' : VM} {s : Subsystem} {w : List Subsystem} (hr : SubRep vm w)
    (h : initSubsystem s vm = .ok (true, vm')) : SubRep vm' (s :: w) := by
  rcases initSubsystem_cases h with ⟨h1, _⟩ | ⟨_, _, b, b', h1, rfl, h2⟩
  · cases h1
  · have hlt := fn_get_lt h1
    have hget : ∀ i x, (vm.subsystems.set (subBucket s.name) b')[i]? = some x →
        (i = subBucket s.name ∧ x = b') ∨ (i ≠ subBucket s.name ∧ vm.subsystems[i]? = some x) := by
      exact fun i x hx => fn_set hx
    refine ⟨by simpa using hr.len, ?_, ?_, ?_⟩
    · intro i x hx y hy
      rcases hget i x hx with ⟨rfl, rfl⟩ | ⟨_, hx⟩
      · have hn : y.name = s.name ∨ y.name ∈ b.map (·.name) := by
          rcases h2 with ⟨rfl, _⟩ | ⟨rfl, _⟩
          · rcases List.mem_cons.mp hy with rfl | hy
            · exact .inl rfl
            · exact .inr (List.mem_map_of_mem hy)
          · rw [← setSub_names s b]; exact .inr (List.mem_map_of_mem hy)
        rcases hn with hn | hn
        · rw [hn]
        · obtain ⟨z, hz, hzn⟩ := List.mem_map.mp hn
          rw [← hzn]
          exact hr.place _ b h1 z hz
      · exact hr.place i x hx y hy
    · intro i x hx
      rcases hget i x hx with ⟨rfl, rfl⟩ | ⟨_, hx⟩
      · rcases h2 with ⟨rfl, hf⟩ | ⟨rfl, _⟩
        · rw [List.map_cons, List.nodup_cons]
          refine ⟨?_, hr.nodup _ b h1⟩
          intro hm
          obtain ⟨z, hz, hzn⟩ := List.mem_map.mp hm
          exact findSub_none hf z hz hzn
        · rw [setSub_names]; exact hr.nodup _ b h1
      · exact hr.nodup i x hx
    · intro n x hx
      by_cases hn : n = s.name
      · subst hn
        rcases hget _ x hx with ⟨_, rfl⟩ | ⟨hc, _⟩
        · rw [List.find?_cons_of_pos (by simp)]
          rcases h2 with ⟨rfl, _⟩ | ⟨rfl, hf⟩
          · unfold findSub; rw [if_pos (strcmp_eq.mpr rfl)]
          · exact findSub_set_self hf
        · exact absurd rfl hc
      · rw [List.find?_cons_of_neg (by simpa using fun h => hn h.symm)]
        rcases hget _ x hx with ⟨hi, rfl⟩ | ⟨_, hx⟩
        · rw [← hr.rep n b (by rw [hi]; exact h1)]
          rcases h2 with ⟨rfl, _⟩ | ⟨rfl, hf⟩
          · conv => lhs; unfold findSub
            rw [if_neg (by rw [strcmp_eq]; exact fun h => hn h.symm)]
          · exact findSub_set_ne hn b
        · exact hr.rep n x hx

theorem regHist_sub {vm vm' : VM} {w w0 : List Subsystem} (h : RegHist vm vm' w) (hr : SubRep vm w0) :
    SubRep vm' (w ++ w0) := by
  induction h with
  | refl => exact hr
  | type _ e ih =>
    rcases registerExternalType_cases e with ⟨_, _, _, rfl⟩ | ⟨_, _, _, rfl⟩ <;> exact ih.of_eq rfl
  | native _ e ih =>
    rcases registerNative_cases e with ⟨_, rfl, _⟩ | ⟨_, ⟨_, _, rfl⟩ | ⟨_, _, rfl⟩⟩ <;> exact ih.of_eq rfl
  | value _ e ih =>
    rcases internalFor_cases e with ⟨_, _, _, rfl⟩ | ⟨_, _, _, _, rfl⟩ | ⟨_, _, _, _, _, rfl⟩ <;> exact ih.of_eq rfl
  | declare _ e ih => obtain ⟨_, _, rfl⟩ := declareArgs_cases e; exact ih.of_eq rfl
  | script _ e ih => obtain ⟨_, _, rfl⟩ := scriptFunction_cases e; exact ih.of_eq rfl
  | subsystem _ e ih => exact init_sub ih e
  | refused _ e ih =>
    rcases initSubsystem_cases e with ⟨_, _, _, rfl⟩ | ⟨h, _⟩
    · exact ih.of_eq rfl
    · cases h
  | file _ e ih =>
    rcases addSourceFile_cases e with ⟨rfl, _⟩ | ⟨_, ⟨_, rfl⟩ | ⟨_, rfl⟩⟩ <;> exact ih.of_eq rfl
  | other _ e ih => exact ih.of_eq e.subs

/-- **C42**, finding: after any history since the creation of the VM, what is found for a name is the data last set for
that name, NULL if none was set. -/
theorem C42_find {vm : VM} {w : List Subsystem} (h : RegHist VM.create vm w) (n : Bytes) :
    subsystemData vm n = .ok ((w.find? (fun s => s.name = n)).map (·.data)) := by
  have hr := regHist_sub h create_sub
  rw [List.append_nil] at hr
  have hlt : subBucket n < vm.subsystems.length := by rw [hr.len]; exact subBucket_lt n
  have hb := List.getElem?_eq_getElem hlt
  unfold subsystemData
  rw [hb]
  dsimp only
  rw [hr.rep n _ hb]

/-- **C42**, setting: it succeeds whenever the VM has no errors, and a VM with errors refuses with an error and keeps
all subsystem data. -/
theorem C42_set {vm : VM} {w : List Subsystem} (h : RegHist VM.create vm w) (s : Subsystem) :
    ∃ r vm', initSubsystem s vm = .ok (r, vm') ∧ (r = true ↔ vm.errors = []) ∧
      (r = false → ∃ e, vm' = { vm with errors := vm.errors ++ [e] }) := by
  have hr := regHist_sub h create_sub
  have hlt : subBucket s.name < vm.subsystems.length := by rw [hr.len]; exact subBucket_lt _
  have hb := List.getElem?_eq_getElem hlt
  unfold initSubsystem
  rw [M.bind_ok (get_run _)]
  by_cases he : vm.errors = []
  · rw [if_neg (by simp [he]), hb]
    dsimp only
    cases findSub s.name vm.subsystems[subBucket s.name] with
    | none => exact ⟨true, _, rfl, by simp [he], by simp⟩
    | some x => exact ⟨true, _, rfl, by simp [he], by simp⟩
  · rw [if_pos he]
    exact ⟨false, _, rfl, by simp [he], fun _ => ⟨_, rfl⟩⟩

/-- The cleanup calls for one name in a bucket list. -/
theorem calls_filter {n : Bytes} {b : List Subsystem} (hn : (b.map (·.name)).Nodup) :
    (b.filterMap (fun s => if s.hasCleanup then some (s.name, s.data) else none)).filter (fun c => c.1 = n) =
      match findSub n b with
      | some s => if s.hasCleanup then [(n, s.data)] else []
      | none => [] := by
  induction b with
  | nil => rfl
  | cons x xs ih =>
    rw [List.map_cons, List.nodup_cons] at hn
    have ih := ih hn.2
    unfold findSub
    by_cases hx : x.name = n
    · subst hx
      rw [if_pos (strcmp_eq.mpr rfl)]
      have hnone : findSub x.name xs = none := by
        cases hf : findSub x.name xs with
        | none => rfl
        | some s =>
          obtain ⟨h1, h2⟩ := findSub_spec hf
          exact absurd (List.mem_map.mpr ⟨s, h1, h2⟩) hn.1
      rw [hnone] at ih
      dsimp only at ih ⊢
      by_cases hc : x.hasCleanup = true
      · simp [hc, ih]
      · simp only [Bool.not_eq_true] at hc
        simp [hc, ih]
    · rw [if_neg (by rw [strcmp_eq]; exact hx), ← ih]
      by_cases hc : x.hasCleanup = true
      · simp [hc, hx]
      · simp only [Bool.not_eq_true] at hc
        simp [hc]

theorem calls_flatten {n : Bytes} (bs : List (List Subsystem)) (k : Nat)
    (hp : ∀ i b, bs[i]? = some b → ∀ s ∈ b, subBucket s.name = k + i)
    (hn : ∀ b ∈ bs, (b.map (·.name)).Nodup) :
    (bs.flatten.filterMap (fun s => if s.hasCleanup then some (s.name, s.data) else none)).filter (fun c => c.1 = n) =
      match (if k ≤ subBucket n then bs[subBucket n - k]? else none) with
      | some b => (match findSub n b with
        | some s => if s.hasCleanup then [(n, s.data)] else []
        | none => [])
      | none => [] := by
  induction bs generalizing k with
  | nil => simp
  | cons b bs ih =>
    rw [List.flatten_cons, List.filterMap_append, List.filter_append, calls_filter (hn b (by simp)),
      ih (k + 1) (fun i x hx s hs => by
        rw [hp (i + 1) x (by simpa using hx) s hs]; omega) (fun x hx => hn x (by simp [hx]))]
    have hnot : k ≠ subBucket n → findSub n b = none := by
      intro hk
      cases hf : findSub n b with
      | none => rfl
      | some s =>
        obtain ⟨h1, h2⟩ := findSub_spec hf
        have := hp 0 b rfl s h1
        rw [h2] at this
        omega
    rcases Nat.lt_trichotomy k (subBucket n) with hk | hk | hk
    · rw [hnot (by omega), if_pos (by omega), if_pos (by omega)]
      have : subBucket n - k = subBucket n - (k + 1) + 1 := by omega
      rw [this, List.getElem?_cons_succ]
      rfl
    · rw [if_neg (by omega), if_pos (by omega), hk]
      simp
    · rw [hnot (by omega), if_neg (by omega), if_neg (by omega)]
      rfl

/-- **C42**, cleanup: when a VM with any history is deleted, normally or after a failure, the cleanup function is called
exactly once, with the data last set, for every subsystem name whose last setting has a cleanup function, and for no
other name. -/
theorem C42_cleanup {vm vm' : VM} {w : List Subsystem} {calls : List (Bytes × Nat)} (H : Host) (failed : Bool)
    (h : RegHist VM.create vm w) (hd : destroy H failed vm = .ok (calls, vm')) (n : Bytes) :
    calls.filter (fun c => c.1 = n) =
      match w.find? (fun s => s.name = n) with
      | some s => if s.hasCleanup then [(n, s.data)] else []
      | none => [] := by
  have hr := regHist_sub h create_sub
  rw [List.append_nil] at hr
  have hcalls : calls = subsystemCalls vm := by
    unfold destroy at hd
    rw [M.bind_ok (get_run _)] at hd
    rw [M.bind_ok (modify_run _ _)] at hd
    split at hd
    · cases hd; rfl
    · simp only [M.bind_eq] at hd
      split at hd
      · split at hd
        · split at hd
          · dsimp only [get_run] at hd
            split at hd
            · cases hd; rfl
            · cases hd
          · cases hd
        · cases hd
      · cases hd
  have hlt : subBucket n < vm.subsystems.length := by rw [hr.len]; exact subBucket_lt n
  have hb := List.getElem?_eq_getElem hlt
  rw [hcalls]
  unfold subsystemCalls
  rw [calls_flatten vm.subsystems 0 (by simpa using hr.place) (fun b hb => by
    obtain ⟨i, hi⟩ := List.mem_iff_getElem?.mp hb
    exact hr.nodup i b hi), if_pos (Nat.zero_le _), Nat.sub_zero, hb]
  dsimp only
  rw [hr.rep n _ hb]

/-! ## C43 -/

theorem regHist_files {vm vm' : VM} {w : List Subsystem} (h : RegHist vm vm' w) : vm.sourceFiles <+: vm'.sourceFiles := by
  induction h with
  | refl => exact List.prefix_rfl
  | type _ e ih =>
    rcases registerExternalType_cases e with ⟨_, _, _, rfl⟩ | ⟨_, _, _, rfl⟩ <;> exact ih
  | native _ e ih =>
    rcases registerNative_cases e with ⟨_, rfl, _⟩ | ⟨_, ⟨_, _, rfl⟩ | ⟨_, _, rfl⟩⟩ <;> exact ih
  | value _ e ih =>
    rcases internalFor_cases e with ⟨_, _, _, rfl⟩ | ⟨_, _, _, _, rfl⟩ | ⟨_, _, _, _, _, rfl⟩ <;> exact ih
  | declare _ e ih => obtain ⟨_, _, rfl⟩ := declareArgs_cases e; exact ih
  | script _ e ih => obtain ⟨_, _, rfl⟩ := scriptFunction_cases e; exact ih
  | subsystem _ e ih =>
    rcases initSubsystem_cases e with ⟨_, _, _, rfl⟩ | ⟨_, _, _, _, _, rfl, _⟩ <;> exact ih
  | refused _ e ih =>
    rcases initSubsystem_cases e with ⟨_, _, _, rfl⟩ | ⟨_, _, _, _, _, rfl, _⟩ <;> exact ih
  | file _ e ih =>
    rcases addSourceFile_cases e with ⟨rfl, _⟩ | ⟨_, ⟨_, rfl⟩ | ⟨_, rfl⟩⟩
    · exact ih
    · exact ih
    · exact ih.trans (List.prefix_append _ _)
  | other _ e ih => rw [e.files]; exact ih

theorem findFileFrom_append {name : Bytes} {fs rest : List Bytes} {i k : Nat} (h : findFileFrom name i fs = some k) :
    findFileFrom name i (fs ++ rest) = some k := by
  induction fs generalizing i with
  | nil => cases h
  | cons f fs ih =>
    rw [List.cons_append]
    unfold findFileFrom at h ⊢
    split
    · rename_i hc; rw [if_pos hc] at h; exact h
    · rename_i hc; rw [if_neg hc] at h; exact ih h

theorem findFileFrom_last {name : Bytes} {fs : List Bytes} (i : Nat) (h : name ∉ fs) :
    findFileFrom name i (fs ++ [name]) = some (i + fs.length) := by
  induction fs generalizing i with
  | nil => simp [findFileFrom, strcmp_eq]
  | cons f fs ih =>
    rw [List.cons_append]
    unfold findFileFrom
    simp only [List.mem_cons, not_or] at h
    rw [if_neg (by rw [strcmp_eq]; exact h.1), ih (i + 1) h.2]
    simp; omega

/-- **C43**, files: a file added again at any later time has the same index, nothing changes, and the index denotes that
file. -/
theorem C43_file_once {vm vm1 vm2 : VM} {w : List Subsystem} {name : Bytes} {i : Nat}
    (h : addSourceFile name vm = .ok (i, vm1)) (hi : i ≠ UINT_MAX) (h1 : RegHist vm1 vm2 w) :
    addSourceFile name vm2 = .ok (i, vm2) ∧ vm2.sourceFiles[i]? = some name := by
  have key : findFileFrom name 0 vm1.sourceFiles = some i ∧ vm1.sourceFiles[i]? = some name := by
    have h' := h
    unfold addSourceFile at h'
    rw [M.bind_ok (get_run _)] at h'
    rcases findFileFrom_spec (name := name) (fs := vm.sourceFiles) (i := 0) with ⟨e1, e2⟩ | ⟨k, e1, e2⟩
    · rw [e1] at h'
      dsimp only at h'
      split at h'
      · cases h'; exact absurd rfl hi
      · cases h'
        exact ⟨by rw [findFileFrom_last 0 e2, Nat.zero_add], by simp⟩
    · rw [e1] at h'
      cases h'
      rw [Nat.zero_add] at e1 ⊢
      exact ⟨e1, e2⟩
  obtain ⟨rest, hr⟩ := regHist_files h1
  have hlt := fn_get_lt key.2
  constructor
  · unfold addSourceFile
    rw [M.bind_ok (get_run _), ← hr, findFileFrom_append key.1]
    rfl
  · rw [← hr, List.getElem?_append_left hlt]; exact key.2

/-- What holds while compiling. -/
structure Positions (p : PosState) (b : Bool) (l : List (Nat × Nat × Nat × Bool)) : Prop where
  sorted : p.markers.Pairwise fun x y => x.instr ≤ y.instr
  le : ∀ m ∈ p.markers, m.instr ≤ p.write
  cur : b = true → ∃ m, p.markers.getLast? = some m ∧ m.file = p.file ∧ m.line = p.line
  lt : ∀ e ∈ l, e.1 < p.write
  rec_ : ∀ k f n, (k, f, n, true) ∈ l → ∃ m, (p.markers.filter (fun m => m.instr ≤ k)).getLast? = some m ∧
    m.file = f ∧ m.line = n

theorem compiling_positions {p : PosState} {b : Bool} {l : List (Nat × Nat × Nat × Bool)} (h : Compiling p b l) :
    Positions p b l := by
  induction h with
  | init => exact ⟨List.Pairwise.nil, (by intro m hm; cases hm), (by intro h; cases h), by simp, by simp⟩
  | start f n _ ih => exact ⟨ih.sorted, ih.le, (by intro h; cases h), ih.lt, ih.rec_⟩
  | stop _ ih => exact ⟨ih.sorted, ih.le, (by intro h; cases h), ih.lt, ih.rec_⟩
  | @next p b l file line actual _ ih =>
    by_cases hc : p.line ≠ line ∨ p.file ≠ file
    · unfold PosState.next
      rw [if_pos hc]
      refine ⟨?_, ?_, ?_, ih.lt, ?_⟩
      · rw [List.pairwise_append]
        refine ⟨ih.sorted, List.pairwise_singleton _ _, ?_⟩
        intro x hx y hy
        rw [List.mem_singleton.mp hy]
        exact ih.le x hx
      · intro m hm
        rcases List.mem_append.mp hm with hm | hm
        · exact ih.le m hm
        · rw [List.mem_singleton.mp hm]
      · intro _
        exact ⟨{ instr := p.write, file, line, actualLine := actual }, by simp, rfl, rfl⟩
      · intro k f n hk
        obtain ⟨m, h1, h2⟩ := ih.rec_ k f n hk
        have hlt := ih.lt _ hk
        refine ⟨m, ?_, h2⟩
        rw [List.filter_append, List.filter_cons_of_neg (by simp; exact hlt), List.filter_nil, List.append_nil]
        exact h1
    · have hb : (b || p.line != line || p.file != file) = b := by
        simp only [ne_eq, not_or, not_not] at hc
        simp [hc.1, hc.2]
      unfold PosState.next
      rw [if_neg hc, hb]
      exact ih
  | @emit p b l _ ih =>
    refine ⟨ih.sorted, fun m hm => Nat.le_succ_of_le (ih.le m hm), ih.cur, ?_, ?_⟩
    · intro e he
      rcases List.mem_cons.mp he with rfl | he
      · exact Nat.lt_succ_self _
      · exact Nat.lt_succ_of_lt (ih.lt e he)
    · intro k f n hk
      rcases List.mem_cons.mp hk with hk | hk
      · injection hk with h1 hk
        injection hk with h2 hk
        injection hk with h3 h4
        obtain ⟨m, g1, g2, g3⟩ := ih.cur h4.symm
        refine ⟨m, ?_, by rw [g2, h2], by rw [g3, h3]⟩
        rw [h1, List.filter_eq_self.mpr (fun x hx => by simpa using ih.le x hx)]
        exact g1
      · exact ih.rec_ k f n hk

/-- **C43**, positions: for every marker list the compiler produces and every instruction index not before the first
marker, the marker reported is the last one whose instruction index is not greater.

Missing for the full claim: indices before the first marker, for which the first marker is reported
(`C43_first_line_wrong`), and marker lists after an error in interactive use (`C43_after_reset_wrong`). -/
theorem C43_latest_partial {p : PosState} {b : Bool} {l : List (Nat × Nat × Nat × Bool)} (h : Compiling p b l)
    {idx : Nat} (hm : ∃ m ∈ p.markers.head?, m.instr ≤ idx) :
    findSourceMarker p.markers idx = (p.markers.filter (fun m => m.instr ≤ idx)).getLast? := by
  obtain ⟨m, h1, h2⟩ := hm
  have hs := (compiling_positions h).sorted
  cases hc : p.markers with
  | nil => rw [hc] at h1; cases h1
  | cons x xs =>
    rw [hc] at h1 hs
    cases h1
    exact markerLoop_last hs h2

/-- **C43**, what this means for the user: for every instruction emitted once the position has changed since the first
token of its script, the position reported is that of the token that was current when it was emitted, whatever is
compiled afterwards. -/
theorem C43_position_partial {p : PosState} {b : Bool} {l : List (Nat × Nat × Nat × Bool)} (h : Compiling p b l)
    {k f n : Nat} (hk : (k, f, n, true) ∈ l) :
    ∃ m, findSourceMarker p.markers k = some m ∧ m.file = f ∧ m.line = n := by
  have hp := compiling_positions h
  obtain ⟨m, h1, h2, h3⟩ := hp.rec_ k f n hk
  refine ⟨m, ?_, h2, h3⟩
  rw [C43_latest_partial h, h1]
  have hmem : m ∈ p.markers.filter (fun m => m.instr ≤ k) := List.mem_of_getLast? h1
  rw [List.mem_filter] at hmem
  cases hc : p.markers with
  | nil => rw [hc] at hmem; simp at hmem
  | cons x xs =>
    refine ⟨x, rfl, ?_⟩
    have hs := hp.sorted
    rw [hc] at hs hmem
    have hle := hmem.2
    simp only [decide_eq_true_eq] at hle
    rcases List.mem_cons.mp hmem.1 with rfl | hx
    · exact hle
    · exact Nat.le_trans ((List.pairwise_cons.mp hs).1 m hx) hle

/-- The hypotheses are met: two files, a statement over two lines in each. -/
example : ∃ p b l, Compiling p b l ∧ (1, 0, 2, true) ∈ l ∧ (3, 1, 8, true) ∈ l ∧
    (findSourceMarker p.markers 1).map (fun m => (m.file, m.line)) = some (0, 2) ∧
    (findSourceMarker p.markers 3).map (fun m => (m.file, m.line)) = some (1, 8) :=
  ⟨_, _, _, .stop (.emit (.next 1 8 8 (.emit (.start 1 7 (.stop (.emit (.next 0 2 2 (.emit (.start 0 1 .init))))))))),
    by decide, by decide, by decide, by decide⟩

/-- **C43 is violated** on the first line of a script: there is no marker for it.  Of two instructions compiled from lines
1 and 2 of a script, both are reported on line 2; and if the script is followed by another, its first line is reported
to be in the first script. -/
theorem C43_first_line_wrong :
    ∃ p b l, Compiling p b l ∧ (0, 0, 1, false) ∈ l ∧
      (findSourceMarker p.markers 0).map (fun m => (m.file, m.line)) = some (0, 2) ∧
      (2, 1, 1, false) ∈ l ∧ (findSourceMarker p.markers 2).map (fun m => (m.file, m.line)) = some (0, 2) :=
  ⟨_, _, _, .stop (.emit (.start 1 1 (.stop (.emit (.next 0 2 2 (.emit (.start 0 1 .init))))))),
    by decide, by decide, by decide, by decide⟩

/-- **C43 is violated** after an error in interactive use: the compiler goes back to write at index 1 but keeps the
markers, so an instruction then written at index 2 with the position of the latest marker, line 9, is reported on
line 2. -/
theorem C43_after_reset_wrong :
    ∃ p b l, Compiling p b l ∧
      let q := (((p.reset 1).start 0 8).emit.next 0 9 9)
      q.write = 2 ∧ q.markers.getLast?.map (fun m => (m.instr, m.line)) = some (2, 9) ∧
      (findSourceMarker q.emit.markers 2).map (·.line) = some 2 :=
  ⟨_, _, _, .stop (.next 0 3 3 (.emit (.emit (.emit (.next 0 2 2 (.start 0 1 .init)))))),
    by decide, by decide, by decide⟩

/-! ## C44 -/

theorem visits_spec {t : Table Obj} {type : Nat} (hw : t.slots.length = t.cap) {start : Nat} {ids : List Nat}
    (h : Visits t type start ids) : ids.Pairwise (· < ·) ∧
      ∀ id, id ∈ ids ↔ start ≤ id ∧ ∃ o, t.entry id = some o ∧ o.extType = type := by
  induction h with
  | @done start s e =>
    rcases nextOfType_spec (type := type) hw start with ⟨_, h1, h2⟩ | ⟨id, o, h1, _⟩
    · refine ⟨List.Pairwise.nil, fun id => ⟨by simp, ?_⟩⟩
      rintro ⟨hs, o, ho, ht⟩
      exact absurd ht (h2 id o hs ho)
    · rw [h1] at e; cases e
  | @more start id s ids e _ ih =>
    rcases nextOfType_spec (type := type) hw start with ⟨_, h1, _⟩ | ⟨id', o, h1, h2, h3, h4, h5, h6⟩
    · rw [h1] at e; cases e
    · rw [h1] at e
      cases e
      refine ⟨List.pairwise_cons.mpr ⟨fun x hx => ((ih.2 x).mp hx).1, ih.1⟩, fun x => ?_⟩
      rw [List.mem_cons, ih.2 x]
      constructor
      · rintro (rfl | ⟨hx, ho⟩)
        · exact ⟨h2, o, h4, h5⟩
        · exact ⟨by omega, ho⟩
      · rintro ⟨hx, o', ho', ht⟩
        by_cases hlt : x < id
        · exact absurd ht (h6 x o' hx hlt ho')
        · by_cases he : x = id
          · exact .inl he
          · exact .inr ⟨by omega, o', ho', ht⟩

theorem visits_exists {t : Table Obj} {type : Nat} (hw : t.slots.length = t.cap) (n start : Nat)
    (hn : t.cap ≤ start + n) : ∃ ids, Visits t type start ids := by
  induction n generalizing start with
  | zero =>
    rcases nextOfType_spec (type := type) hw start with ⟨s, h1, h2⟩ | ⟨id, o, h1, h2, h3, _⟩
    · exact ⟨_, .done h1⟩
    · omega
  | succ n ih =>
    rcases nextOfType_spec (type := type) hw start with ⟨s, h1, h2⟩ | ⟨id, o, h1, h2, h3, _⟩
    · exact ⟨_, .done h1⟩
    · obtain ⟨ids, h⟩ := ih (id + 1) (by omega)
      exact ⟨_, .more h1 h⟩

/-- **C44**: for every well formed object table, calling `nkxGetNextObjectOfExternalType` repeatedly from 0 ends, and the
ids delivered are increasing, and are exactly those of the live objects of the type. -/
theorem C44_visits (vm : VM) (hw : vm.objects.WF) (type : Nat) :
    (∃ ids, Visits vm.objects type 0 ids) ∧
    ∀ ids, Visits vm.objects type 0 ids → ids.Pairwise (· < ·) ∧
      ∀ id, id ∈ ids ↔ ∃ o, vm.objects.entry id = some o ∧ o.extType = type := by
  refine ⟨visits_exists hw.len vm.objects.cap 0 (by omega), fun ids h => ?_⟩
  obtain ⟨h1, h2⟩ := visits_spec hw.len h
  exact ⟨h1, fun id => by rw [h2 id]; simp⟩

/-- A table with holes and objects of two types. -/
def typedTable : Table Obj :=
  { slots := [some { Obj.init with extType := 3 }, none, some { Obj.init with extType := 4 },
      some { Obj.init with extType := 3 }], cap := 4, holes := [1] }

example : typedTable.WF := by
  refine ⟨rfl, ⟨2, by decide, rfl⟩, by decide, fun i => ?_⟩
  match i with
  | 0 => decide
  | 1 => decide
  | 2 => decide
  | 3 => decide
  | n + 4 => simp [typedTable]

example : Visits typedTable 3 0 [0, 3] := .more (s := 1) (by rfl) (.more (s := 4) (by rfl) (.done (s := 4) (by rfl)))

/-! ## Concrete histories for C40, C41 and C42 -/

/-- The sample host meets the assumption of `C40_execution`. -/
example : HostRegisters Sample.H := fun _ _ vm _ _ h => by cases h; exact ⟨[], .refl vm⟩

/-- A type is registered, another one, then the first again. -/
def typeA : ExtType := { name := cs "file", hasSerialize := false, hasCleanup := true, hasMark := false }
def typeB : ExtType := { name := cs "socket", hasSerialize := false, hasCleanup := false, hasMark := false }

example : (registerExternalType typeA VM.create).test (fun r => decide (r.1 = 1) &&
    (registerExternalType typeB r.2).test (fun r => decide (r.1 = 2) &&
      decide (findExternalType r.2 (cs "file") = 1) &&
      (registerExternalType { typeB with name := cs "file" } r.2).test (fun q => decide (q.1 = UINT_MAX) &&
        decide (q.2.extTypes = r.2.extTypes) && decide (q.2.errors.length = 1)))) = true := by decide +kernel

example : (registerNative (cs "print") (some 1) VM.create).test (fun r => decide (r.1 = 0) &&
    (registerNative (cs "print") (some 2) r.2).test (fun r => decide (r.1 = 1) &&
      (internalFor 1 r.2).test (fun r => decide (r.1 = 0) &&
        (internalFor 0 r.2).test (fun r => decide (r.1 = 1) &&
          (registerNative (cs "print") (some 1) r.2).test (fun q => decide (q = (0, r.2))) &&
          (internalFor 1 r.2).test (fun q => decide (q = (0, r.2))))))) = true := by decide +kernel

/-- Two names in the same bucket, one of them set twice; the other has no cleanup function. -/
def subA : Subsystem := { name := cs "a", data := 5, hasCleanup := true, hasSerialize := false }
def subQ : Subsystem := { name := cs "q", data := 6, hasCleanup := false, hasSerialize := false }

example : subBucket subA.name = subBucket subQ.name := by decide +kernel

example : (initSubsystem subA VM.create).test (fun r => (initSubsystem subQ r.2).test (fun r =>
    (initSubsystem { subA with data := 7 } r.2).test (fun r => r.1 &&
      (subsystemData r.2 (cs "a")).test (· == some 7) && (subsystemData r.2 (cs "q")).test (· == some 6) &&
      (subsystemData r.2 (cs "z")).test (· == none) &&
      (destroy Sample.H false r.2).test (fun q => decide (q.1 = [(cs "a", 7)]))))) = true := by decide +kernel

end Nk.Props
