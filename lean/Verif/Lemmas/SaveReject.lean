import Verif.Lemmas.SaveRestored
/-!
# An image with a function whose native is missing
-/
namespace Nk.Save

variable {F : FloatOps}

theorem load_unregistered {vm v : VM} (h : Saveable vm) (ht : Target vm v) (hreg : ¬ Registered vm v.extFuncs) (b : Bytes) :
    ∃ r w, load F (imageA vm ++ b) v = .ok ((none, r), w) := by
  obtain ⟨r, hr, hrs, -⟩ := ht.ctxs
  obtain ⟨c, hc, -⟩ := h.heap.co.root
  have hc0 : imageA.ctxAt0 vm = c := by unfold imageA.ctxAt0; rw [hc]
  obtain ⟨ks, -, hks⟩ := h.heap.str.tab.pow
  have hfail := loadFunctions_fails h.funcs (objImage vm ++ (globalImage vm ++ (typeImage vm ++ (subImage vm ++ b)))) (at7 vm v r)
    hreg ht.natives
  obtain ⟨b', w, hf⟩ := hfail
  refine ⟨b', w, ?_⟩
  unfold load imageA imageB
  simp only [List.append_assoc]
  refine (L.bind_some (loadHeader_run _ _)).trans ?_
  refine (L.bind_some (loadInstrs_run h.instrLen h.instrPow _ _)).trans ?_
  refine (L.bind_some (loadErrors_run h.errors h.errorCount _
    { v with instrMask := vm.instrMask, instrs := vm.instrs } ht.errors)).trans ?_
  refine (L.bind_some (loadStatics_run h.heap.statics h.staticPow h.statics _ _)).trans ?_
  have h5 := loadContext_run (h.co.ctx 0 c hc) (v := at4 vm v) ht.limits (i := 0) (d := r)
      (by show v.ctxs[0]? = _; rw [hr]; rfl) (by rw [hrs.len]) false
  rw [hc0]
  refine (L.bind_some (h5 _)).trans ?_
  have e5 : setAt (at4 vm v) 0
      { r with ip := c.ip, stack := loadedStack c.stack, state := (if (false : Bool) = true then c.state else r.state) } =
      at5 vm v r := by unfold at5; rw [hc0]; rfl
  rw [e5]
  refine (L.bind_some (loadStrings_run h.heap.str.tab.len ⟨ks, hks⟩ h.strCap h.strs _ _)).trans ?_
  refine (L.bind_some (loadGc_run h.gc _ _)).trans ?_
  exact L.bind_none hf

end Nk.Save
