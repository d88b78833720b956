import Verif.Lemmas.SafeOps
/-!
# Runs of the coroutine instructions
-/
namespace Nk

/-- The part of `nkiOpcode_coroutineResume` after the context has been found. -/
def resumeCtx (k : Nat) (v : Value) : M Unit := do
  let vm ← get
  let c ← liftR (ctxAt vm k)
  match c.state with
  | .invalid => addError "Tried to resume an invalid coroutine."
  | .finished => push .nil
  | st =>
    match c.parent with
    | some _ => addError "Tried to recursively resume an active coroutine."
    | none => do
      pushContext k
      match st with
      | .created => do
        let vm ← get
        let c ← liftR (ctxAt vm k)
        setCtx k { c with state := .running }
      | _ => push v

theorem getExtType_run {vm : VM} (hw : vm.objects.WF) {id : Nat} {o : Obj} (he : vm.objects.entry id = some o) :
    getExtType (.obj id) vm = .ok (o.extType, vm) := by
  unfold getExtType
  rw [M.bind_ok (objFromValue_obj hw id), he]; rfl

theorem getExtData_run {vm : VM} (hw : vm.objects.WF) {id : Nat} {o : Obj} (he : vm.objects.entry id = some o) :
    getExtData (.obj id) vm = .ok (o.extData, vm) := by
  unfold getExtData
  rw [M.bind_ok (objFromValue_obj hw id), he]; rfl

theorem opResume_found {vm : VM} {c : Ctx} {l : List Value} {id k : Nat} {o : Obj} {v : Value}
    (hs : vm.Stk c (l ++ [.obj id, v])) (hw : vm.objects.WF) (he : vm.objects.entry id = some o)
    (ht : o.extType = vm.coType) (hd : o.extData = some k) :
    ∃ s, opResume vm = resumeCtx k v (vm.setC { c with stack := s }) ∧
      (vm.setC { c with stack := s }).Stk { c with stack := s } l ∧ s.size < s.cap ∧
      s = { c.stack with size := c.stack.size - 2 } := by
  obtain ⟨s, h1, h2, h3, h4⟩ := pop2 hs (fun v co => (do
    let vm ← get
    let t ← getExtType co
    if vm.coType ≠ t then addError "Tried to resume something that is not a coroutine."
    else do
      let d ← getExtData co
      match d with
      | none => liftR (.ub .null)
      | some k => resumeCtx k v))
  refine ⟨s, ?_, h2, h3, h4⟩
  refine Eq.trans (Eq.trans ?_ h1) ?_
  · rfl
  · have hw' : (vm.setC { c with stack := s }).objects.WF := hw
    have he' : (vm.setC { c with stack := s }).objects.entry id = some o := he
    rw [M.bind_ok (get_run _), M.bind_ok (getExtType_run hw' he'), if_neg (by rw [ht]; exact fun h => h rfl),
      M.bind_ok (getExtData_run hw' he'), hd]

theorem opIsFinished_found {vm : VM} {c : Ctx} {l : List Value} {id k : Nat} {o : Obj} {x : Ctx}
    (hs : vm.Stk c (l ++ [.obj id])) (hw : vm.objects.WF) (he : vm.objects.entry id = some o)
    (ht : o.extType = vm.coType) (hd : o.extData = some k) (hk : vm.ctxs[k]? = some (some x)) :
    ∃ s, opIsFinished vm = push (.int (b2i (x.state = .finished))) (vm.setC { c with stack := s }) ∧
      (vm.setC { c with stack := s }).Stk { c with stack := s } l ∧ s.size < s.cap ∧
      s = { c.stack with size := c.stack.size - 1 } := by
  obtain ⟨s, h1, h2, h3, h4⟩ := pop1 hs (fun co => (do
    let vm ← get
    let t ← getExtType co
    if vm.coType ≠ t then
      addError "Tried to check for a finished coroutine with the wrong object type."
    else do
      let d ← getExtData co
      match d with
      | none => liftR (.ub .null)
      | some k => do
        let vm ← get
        let c ← liftR (ctxAt vm k)
        push (.int (b2i (c.state = .finished)))))
  refine ⟨s, ?_, h2, h3, h4⟩
  refine Eq.trans (Eq.trans ?_ h1) ?_
  · rfl
  · have hw' : (vm.setC { c with stack := s }).objects.WF := hw
    have he' : (vm.setC { c with stack := s }).objects.entry id = some o := he
    rw [M.bind_ok (get_run _), M.bind_ok (getExtType_run hw' he'), if_neg (by rw [ht]; exact fun h => h rfl),
      M.bind_ok (getExtData_run hw' he'), hd]
    simp only []
    rw [M.bind_ok (get_run _)]
    have : ∃ x', ctxAt (vm.setC { c with stack := s }) k = .ok x' ∧ x'.state = x.state := by
      by_cases hk2 : k = vm.cur
      · subst hk2
        have := hs.at_
        unfold VM.At at this
        rw [hk] at this; cases this
        exact ⟨_, ctxAt_iff.mpr (h2.at_), rfl⟩
      · refine ⟨x, ctxAt_iff.mpr ?_, rfl⟩
        show (vm.ctxs.set vm.cur _)[k]? = _
        rw [List.getElem?_set_ne (fun e => hk2 e.symm)]; exact hk
    obtain ⟨x', hx, hst⟩ := this
    rw [hx, M.bind_ok (liftR_ok _ _), hst]

/-- The contexts after a change of the current one. -/
theorem setC_ctx {vm : VM} {c c' x : Ctx} {k : Nat} (hc : vm.At c) (hk : vm.ctxs[k]? = some (some x)) :
    (vm.setC c').ctxs[k]? = some (some (if k = vm.cur then c' else x)) := by
  show (vm.ctxs.set vm.cur (some c'))[k]? = _
  by_cases h : k = vm.cur
  · subst h
    rw [if_pos rfl, List.getElem?_set_self (List.getElem?_eq_some_iff.mp hc).1]
  · rw [if_neg h, List.getElem?_set_ne (fun e => h e.symm)]; exact hk

theorem CoWF.active_parent {vm : VM} (h : CoWF vm) {k : Nat} {x : Ctx} (ha : Active vm k) (hk : k ≠ 0)
    (hx : vm.ctxs[k]? = some (some x)) : ∃ p, x.parent = some p := by
  obtain ⟨l, a1, a2, a3, a4, a5⟩ := h.chain
  have hmem : k ∈ l := by
    cases ha with
    | cur => exact List.mem_of_head? a2
    | @resumer i p c ha' hc hp =>
      have hi : i ∈ l := a5 i c hc (by rw [hp]; simp)
      obtain ⟨m, hm⟩ := List.getElem?_of_mem hi
      cases hn : l[m + 1]? with
      | some j =>
        obtain ⟨d, d1, d2⟩ := a4 m i j hm hn
        rw [hc] at d1; cases d1
        rw [hp] at d2; cases d2
        exact List.mem_of_getElem? hn
      | none =>
        have h1 := (List.getElem?_eq_some_iff.mp hm).1
        have h2 := List.getElem?_eq_none_iff.mp hn
        rw [List.getLast?_eq_getElem?, show l.length - 1 = m by omega, hm] at a3
        cases a3
        obtain ⟨r, r1, r2, _⟩ := h.root
        rw [hc] at r1; cases r1
        rw [r2] at hp; cases hp
  obtain ⟨m, hm⟩ := List.getElem?_of_mem hmem
  cases hn : l[m + 1]? with
  | some j =>
    obtain ⟨d, d1, d2⟩ := a4 m k j hm hn
    rw [hx] at d1; cases d1
    exact ⟨j, d2⟩
  | none =>
    have h1 := (List.getElem?_eq_some_iff.mp hm).1
    have h2 := List.getElem?_eq_none_iff.mp hn
    rw [List.getLast?_eq_getElem?, show l.length - 1 = m by omega, hm] at a3
    cases a3; exact absurd rfl hk

end Nk
