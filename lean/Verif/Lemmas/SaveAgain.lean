import Verif.Spec.SaveAgain
import Verif.Lemmas.SaveRestored
import Verif.Lemmas.Mark
/-!
# A loaded VM can be saved again
-/
namespace Nk.Save
variable {F : FloatOps}

theorem rebind_ids {name : Bytes} {id n : Nat} {fs : List ExtFunc} (hi : id < 4294967296)
    (h : ∀ f ∈ fs, f.internalId < 4294967296) : ∀ f ∈ (rebind name id n fs).1, f.internalId < 4294967296 := by
  induction fs generalizing n with
  | nil => exact h
  | cons g gs ih =>
    intro f hf
    unfold rebind at hf
    split at hf
    · rcases List.mem_cons.mp hf with rfl | hf
      · exact hi
      · exact h f (List.mem_cons_of_mem _ hf)
    · rcases List.mem_cons.mp hf with rfl | hf
      · show UINT_MAX < 4294967296
        decide
      · exact ih (fun f hf => h f (List.mem_cons_of_mem _ hf)) f hf

theorem rebindAll_ids {fs gs : List ExtFunc} (h : ∀ f ∈ fs, f.internalId < 4294967296)
    (hg : ∀ g ∈ gs, g.internalId < 4294967296) : ∀ f ∈ rebindAll fs gs, f.internalId < 4294967296 := by
  induction gs generalizing fs with
  | nil => exact h
  | cons g gs ih =>
    rw [rebindAll]
    exact ih (rebind_ids (hg g (by simp)) h) fun x hx => hg x (List.mem_cons_of_mem _ hx)

theorem rebindAll_names {fs gs : List ExtFunc} (h : ∀ f ∈ fs, Text f.name) : ∀ f ∈ rebindAll fs gs, Text f.name := by
  intro f hf
  obtain ⟨i, hi⟩ := List.getElem?_of_mem hf
  have ha := congrArg (·[i]?) (rebindAll_anon fs gs)
  simp only [List.getElem?_map, hi, Option.map_some] at ha
  obtain ⟨y, hy, hya⟩ := Option.map_eq_some_iff.mp ha.symm
  have : f.name = y.name := (congrArg ExtFunc.name hya).symm
  rw [this]
  exact h y (List.mem_of_getElem? hy)

/-- Contexts that are active after loading come from active ones. -/
theorem active_back {vm v' : VM} (hco : CoWF vm) {ρ : Nat → Nat} (hcur : v'.cur = ρ vm.cur)
    (h1 : ∀ (i : Nat) (c : Ctx), vm.ctxs[i]? = some (some c) → ∃ c', v'.ctxs[ρ i]? = some (some c') ∧ SameCtx c c' ∧
      c'.parent = c.parent.map ρ ∧ (i ≠ 0 → c'.state = c.state)) {j : Nat} (hj : Active v' j) :
    ∃ i, j = ρ i ∧ Active vm i := by
  induction hj with
  | cur => exact ⟨vm.cur, hcur, .cur⟩
  | @resumer j p c' hj hc hp ih =>
    obtain ⟨i, rfl, hi⟩ := ih
    obtain ⟨c, hci⟩ := Nk.CoWF.active_live hco hi
    obtain ⟨c1, hc1, -, hpar, -⟩ := h1 i c hci
    rw [hc] at hc1
    cases hc1
    rw [hp] at hpar
    obtain ⟨q, hq, rfl⟩ := Option.map_eq_some_iff.mp hpar.symm
    exact ⟨q, rfl, .resumer hi hci hq⟩

/-- The main program's context is the only one that becomes the main program's. -/
theorem main_only {vm v' : VM} (hco : CoWF vm) (hco' : CoWF v') {ρ : Nat → Nat}
    (h1 : ∀ (i : Nat) (c : Ctx), vm.ctxs[i]? = some (some c) → ∃ c', v'.ctxs[ρ i]? = some (some c') ∧ SameCtx c c' ∧
      c'.parent = c.parent.map ρ ∧ (i ≠ 0 → c'.state = c.state)) {i : Nat} {c : Ctx} (hc : vm.ctxs[i]? = some (some c))
    (hi : i ≠ 0) : ρ i ≠ 0 := by
  intro e
  obtain ⟨c', hc', hs, -, -⟩ := h1 i c hc
  obtain ⟨id, o, ho, -⟩ := hco.owned i c hi hc
  obtain ⟨c0, h0, -, hn⟩ := hco'.root
  rw [e, h0] at hc'
  cases hc'
  have := hs.owner
  rw [hn, ho] at this
  cases this

section
variable {vm v : VM} {r : Ctx} {l : List Nat}

theorem slots_entry {α : Type} {t : Table α} (h : t.WF) {x : α} (hx : some x ∈ t.slots) : ∃ i, t.entry i = some x := by
  obtain ⟨i, hi⟩ := List.getElem?_of_mem hx
  exact ⟨i, by simp [Table.entry, hi]⟩

theorem loaded_saveable (F : FloatOps) (h : Saveable vm) (ht : Target vm v) (hreg : Registered vm v.extFuncs) (hv : Equipped v)
    (hr : v.ctxs = [some r]) (hrp : r.parent = none) (hro : r.coObj = .nil) (hrs : r.state = .running)
    (hp : Path vm (vm.cur :: l)) (hn : (vm.cur :: l).Nodup)
    (hm : ∀ (i : Nat) (c : Ctx), vm.ctxs[i]? = some (some c) → c.parent ≠ none → i ∈ vm.cur :: l) :
    Saveable (loaded vm v r (vm.cur :: l)) := by
  have R := loaded_restored (F := F) h ht hreg hr hrp hro hrs hp hn hm
  have W := loaded_heap h ht hr hrp hro hrs hp hn hm
  generalize hx : loaded vm v r (vm.cur :: l) = x at R W
  have hlim : x.limits = vm.limits := R.rest.1.trans ht.limits
  have hty : x.extTypes = vm.extTypes := R.rest.2.1.trans ht.types
  have hcot : x.coType = vm.coType := R.rest.2.2.1.trans ht.coType
  have hobjs : ∀ id o', x.objects.entry id = some o' → ∃ o, vm.objects.entry id = some o ∧ o' = objAt vm id o := by
    intro id o' ho
    rw [← hx, loaded_entry hr] at ho
    obtain ⟨o, h1, h2⟩ := Option.map_eq_some_iff.mp ho
    exact ⟨o, h1, h2.symm⟩
  have hext : ∀ id o, x.objects.entry id = some o → o.extType = UINT_MAX ∨ o.extType < x.extTypes.length := by
    intro id o' ho
    obtain ⟨o, h1, rfl⟩ := hobjs id o' ho
    rw [(objAt_same id o).type, hty]
    exact h.types.objs id o h1
  have hkey : ∀ y, keyOf x y = keyOf vm y ∧ slot x y = slot vm y := by
    intro y
    rw [← hx]
    exact ⟨loaded_key y, loaded_slot y⟩
  refine {
    heap := W
    instrLen := by rw [R.instrs.1, R.instrs.2]; exact h.instrLen
    instrPow := by rw [R.instrs.2]; exact h.instrPow
    errors := by rw [R.errors]; exact h.errors
    errorCount := by rw [R.errors]; exact h.errorCount
    staticPow := by rw [R.statics.2]; exact h.staticPow
    statics := by rw [R.statics.1]; exact h.statics
    co := ?_
    strCap := by rw [R.strings.2]; exact h.strCap
    strs := ?_
    objCap := by rw [R.objects.2.2]; exact h.objCap
    objs := ?_
    gc := ?_
    funcs := ?_
    globals := by rw [R.globals]; exact h.globals
    globalCount := by rw [R.globals]; exact h.globalCount
    types := ?_
    subs := by rw [R.rest.2.2.2.1]; exact hv.subs
    subCount := by rw [R.rest.2.2.2.1]; exact hv.subCount
    files := by rw [R.files]; exact h.files
    fileCount := by rw [R.files]; exact h.fileCount
    markers := by rw [R.markers]; exact h.markers
    markerCount := by rw [R.markers]; exact h.markerCount }
  · obtain ⟨ρ, h0, hcur, h1, h2, h3⟩ := R.coroutines
    refine ⟨W.co, ?_, by rw [hty, hcot]; exact h.co.serialize, hext, ?_⟩
    · intro j c' hj
      obtain ⟨i, c, hc, rfl⟩ := h3 j c' hj
      obtain ⟨c1, hc1, hs, -, -⟩ := h1 i c hc
      rw [hj] at hc1
      cases hc1
      have hk := h.co.ctx i c hc
      exact ⟨W.co.stack _ _ hj, by rw [hs.cap, hlim]; exact hk.limit, by rw [hs.cap]; exact hk.alloc,
        by rw [hs.values]; exact hk.fits, by rw [hs.ip]; exact hk.ip⟩
    · intro j c' hj ha hc'
      obtain ⟨i, rfl, hi⟩ := active_back h.heap.co hcur h1 ha
      obtain ⟨c, hc⟩ := Nk.CoWF.active_live h.heap.co hi
      have hne : i ≠ 0 := fun e => hj (by rw [e, h0])
      obtain ⟨c1, hc1, -, -, hst⟩ := h1 i c hc
      rw [hc'] at hc1
      cases hc1
      rw [hst hne]
      exact h.co.running i c hne hi hc
  · intro e he
    obtain ⟨i, hi⟩ := slots_entry W.str.tab he
    rw [R.strings.1] at hi
    exact h.strs e (List.mem_of_getElem? (Table.entry_some_lt hi).2)
  · intro o' ho
    obtain ⟨id, hi⟩ := slots_entry W.tab ho
    obtain ⟨o, h1, rfl⟩ := hobjs id o' hi
    have hk := h.objs o (List.mem_of_getElem? (Table.entry_some_lt h1).2)
    have hs := objAt_same (vm := vm) id o
    refine ⟨(objAt_wf h.heap.str hk.wf).congr fun b es hb e he => hkey e.1, ?_, by rw [hs.size, hlim]; exact hk.limit,
      by rw [hs.handles]; exact hk.handles, by rw [hs.pass]; exact hk.pass, by rw [hs.type]; exact hk.ext⟩
    intro es hes e he
    have := (hs.fields e).mp (List.mem_flatten.mpr ⟨es, hes, he⟩)
    obtain ⟨es', h2, h3⟩ := List.mem_flatten.mp this
    exact hk.key es' h2 e h3
  · rw [R.gc]
    have := h.gc
    exact ⟨this.pass, by show min _ _ < _; omega, this.countdown, this.newInterval, this.newCountdown⟩
  · have hf : x.extFuncs = rebindAll v.extFuncs vm.extFuncs := by rw [← hx]; rfl
    have hlen := R.rest.2.2.2.2.2.2.1
    have hb : ∀ f' ∈ x.functions, ∃ f ∈ vm.functions, SameFunc vm.extFuncs x.extFuncs f f' := by
      intro f' hf'
      obtain ⟨i, hi⟩ := List.getElem?_of_mem hf'
      have hlt : i < vm.functions.length := by
        rw [← R.functions.1]; exact (List.getElem?_eq_some_iff.mp hi).1
      obtain ⟨f1, h1, h2⟩ := R.functions.2 i _ (List.getElem?_eq_getElem hlt)
      rw [hi] at h1
      cases h1
      exact ⟨_, List.getElem_mem hlt, h2⟩
    refine ⟨by rw [hlen]; exact hv.natives, by rw [hf]; exact rebindAll_names hv.names,
      by rw [hf]; exact rebindAll_ids hv.ids h.funcs.internal, by rw [R.functions.1]; exact h.funcs.count, ?_, ?_, ?_, ?_⟩
    · intro e
      have := R.functions.1
      rw [e] at this
      exact h.funcs.some (List.length_eq_zero_iff.mp this.symm)
    · intro f' hf'
      obtain ⟨f, hm, hs⟩ := hb f' hf'
      rw [hs.argc]; exact h.funcs.argc f hm
    · intro f' hf'
      obtain ⟨f, hm, hs⟩ := hb f' hf'
      rw [hs.first]; exact h.funcs.first f hm
    · intro f' hf'
      obtain ⟨f, hm, hs⟩ := hb f' hf'
      by_cases he : f.extId = UINT_MAX
      · exact .inl (hs.script he)
      · have hlt := (h.funcs.ext f hm).resolve_left he
        obtain ⟨g', hg', -⟩ := hs.native _ he (List.getElem?_eq_getElem hlt)
        exact .inr (List.getElem?_eq_some_iff.mp hg').1
  · have := h.types
    exact ⟨by rw [hty]; exact this.text, by rw [hty]; exact this.names, by rw [hty]; exact this.count,
      by rw [hty]; exact this.length, hext⟩

end

/-- Being restored twice is being restored. -/
theorem Restored.trans {vm v x w y : VM} (h1 : Restored F vm v x) (h2 : Restored F x w y) (hs : Saveable vm) (hx : Saveable x)
    (hcot : x.coType = vm.coType) : Restored F vm w y where
  instrs := ⟨h2.instrs.1.trans h1.instrs.1, h2.instrs.2.trans h1.instrs.2⟩
  errors := h2.errors.trans h1.errors
  statics := ⟨h2.statics.1.trans h1.statics.1, h2.statics.2.trans h1.statics.2⟩
  strings := ⟨fun id => (h2.strings.1 id).trans (h1.strings.1 id), h2.strings.2.trans h1.strings.2⟩
  objects := by
    refine ⟨fun id o ho => ?_, fun id ho => h2.objects.2.1 id (h1.objects.2.1 id ho), h2.objects.2.2.trans h1.objects.2.2⟩
    obtain ⟨o1, e1, s1⟩ := h1.objects.1 id o ho
    obtain ⟨o2, e2, s2⟩ := h2.objects.1 id o1 e1
    exact ⟨o2, e2, fun p => (s2.fields p).trans (s1.fields p), s2.size.trans s1.size, s2.handles.trans s1.handles,
      s2.pass.trans s1.pass, s2.type.trans s1.type⟩
  lookup id key ho hk := by
    obtain ⟨a, ha, hb⟩ := h1.lookup id key ho hk
    obtain ⟨o, ho⟩ := ho
    obtain ⟨o1, e1, -⟩ := h1.objects.1 id o ho
    obtain ⟨b, hb', hc⟩ := h2.lookup id key ⟨o1, e1⟩ (by rw [(slot_congr_entry h1.strings.1 key).2]; exact hk)
    rw [hb] at hb'
    cases hb'
    exact ⟨a, ha, hc⟩
  handles id := by
    rw [h2.handles id]
    constructor
    · rintro ⟨o1, e1, hne⟩
      cases ho : vm.objects.entry id with
      | none => rw [h1.objects.2.1 id ho] at e1; cases e1
      | some o =>
        obtain ⟨o', e', s⟩ := h1.objects.1 id o ho
        rw [e1] at e'
        cases e'
        exact ⟨o, rfl, by rw [← s.handles]; exact hne⟩
    · rintro ⟨o, ho, hne⟩
      obtain ⟨o', e', s⟩ := h1.objects.1 id o ho
      exact ⟨o', e', by rw [s.handles]; exact hne⟩
  functions := by
    refine ⟨h2.functions.1.trans h1.functions.1, fun i f hf => ?_⟩
    obtain ⟨f1, e1, s1⟩ := h1.functions.2 i f hf
    obtain ⟨f2, e2, s2⟩ := h2.functions.2 i f1 e1
    refine ⟨f2, e2, s2.argc.trans s1.argc, s2.first.trans s1.first, fun e => s2.script (s1.script e), fun g hne hg => ?_⟩
    obtain ⟨g1, hg1, n1⟩ := s1.native g hne hg
    have hlt := (List.getElem?_eq_some_iff.mp hg1).1
    have := hx.funcs.natives
    obtain ⟨g2, hg2, n2⟩ := s2.native g1 (by unfold UINT_MAX at *; omega) hg1
    exact ⟨g2, hg2, n2.trans n1⟩
  globals := h2.globals.trans h1.globals
  gc := by rw [h2.gc, h1.gc]; simp
  files := h2.files.trans h1.files
  markers := h2.markers.trans h1.markers
  coroutines := by
    obtain ⟨ρ, a0, acur, a1, a2, a3⟩ := h1.coroutines
    obtain ⟨σ, b0, bcur, b1, b2, b3⟩ := h2.coroutines
    refine ⟨fun i => σ (ρ i), by show σ (ρ 0) = 0; rw [a0, b0], by rw [bcur, acur], ?_, ?_, ?_⟩
    · intro i c hc
      obtain ⟨c1, e1, s1, p1, t1⟩ := a1 i c hc
      obtain ⟨c2, e2, s2, p2, t2⟩ := b1 _ c1 e1
      refine ⟨c2, e2, ⟨s2.ip.trans s1.ip, s2.values.trans s1.values, s2.size.trans s1.size, s2.cap.trans s1.cap,
        s2.owner.trans s1.owner⟩, ?_, fun hi => ?_⟩
      · rw [p2, p1, Option.map_map]; rfl
      · rw [t2 (main_only hs.heap.co hx.heap.co a1 hc hi), t1 hi]
    · intro id i o ho hT hd
      obtain ⟨o1, e1, d1⟩ := a2 id i o ho hT hd
      obtain ⟨o1', e1', s1⟩ := h1.objects.1 id o ho
      rw [e1] at e1'
      cases e1'
      exact b2 id (ρ i) o1 e1 (by rw [s1.type, hT, hcot]) d1
    · intro k c2 hk
      obtain ⟨j, c1, hj, rfl⟩ := b3 k c2 hk
      obtain ⟨i, c, hi, rfl⟩ := a3 j c1 hj
      exact ⟨i, c, hi, rfl⟩
  rest := h2.rest

end Nk.Save
