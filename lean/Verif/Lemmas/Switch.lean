import Verif.Lemmas.Exec
import Verif.Lemmas.Calls
import Verif.Spec.Coroutine
/-!
# Lemmas about switching between contexts
-/
namespace Nk

variable {F : FloatOps} {H : Host}

/-! ## Finished coroutines -/

theorem gone_set {k i : Nat} {c d d' : Ctx} {vm : VM} (h : Gone k c vm) (hi : i ≠ k) (hd : vm.ctxs[i]? = some (some d))
    (hp : d'.parent ≠ some k) {cur : Nat} (hc : cur ≠ k) :
    Gone k c { vm with ctxs := vm.ctxs.set i (some d'), cur := cur } := by
  refine ⟨hc, fun j e he => ?_, ?_⟩
  · have he : (vm.ctxs.set i (some d'))[j]? = some (some e) := he
    by_cases hj : i = j
    · subst hj
      rw [List.getElem?_set_self (List.getElem?_eq_some_iff.mp hd).1] at he
      cases he; exact hp
    · rw [List.getElem?_set_ne hj] at he
      exact h.notWaiting j e he
  · show (vm.ctxs.set i (some d'))[k]? = _ ∨ (vm.ctxs.set i (some d'))[k]? = _
    rw [List.getElem?_set_ne hi]
    exact h.ctx

theorem gone_frame {k : Nat} {c : Ctx} (hf : c.state = .finished ∨ c.state = .invalid) : CoFrame (Gone k c) where
  err := fun _ _ h => ⟨h.1, h.2, h.3⟩
  str := fun _ _ _ _ h => ⟨h.1, h.2, h.3⟩
  obj := fun _ _ h => ⟨h.1, h.2, h.3⟩
  newo := fun _ _ _ h => ⟨h.1, h.2, h.3⟩
  stat := fun _ _ h => ⟨h.1, h.2, h.3⟩
  pass := fun _ _ h => ⟨h.1, h.2, h.3⟩
  log := fun _ _ h => ⟨h.1, h.2, h.3⟩
  ctx := fun vm d d' hd hp _ _ h =>
    gone_set h h.notCur (ctxAt_iff.mp hd) (by rw [hp]; exact h.notWaiting _ d (ctxAt_iff.mp hd)) h.notCur
  finish := fun vm d i hd h => gone_set (d' := { d with state := .finished, ip := i }) h h.notCur (ctxAt_iff.mp hd) (h.notWaiting _ d (ctxAt_iff.mp hd)) h.notCur
  popc := fun vm d p hd hp h => gone_set h h.notCur (ctxAt_iff.mp hd) (by simp) fun e =>
    h.notWaiting _ d (ctxAt_iff.mp hd) (by rw [hp, e])
  pushc := fun vm j d hd hp hs h => by
    have hj : j ≠ k := by
      rintro rfl
      rcases h.ctx with e | e <;> rw [ctxAt_iff.mp hd] at e <;> cases e
      exact hf.elim hs.1 hs.2
    exact gone_set h hj (ctxAt_iff.mp hd) (fun e => h.notCur (Option.some.inj e)) hj
  start := fun vm d hd _ h => gone_set (d' := { d with state := .running }) h h.notCur (ctxAt_iff.mp hd) (h.notWaiting _ d (ctxAt_iff.mp hd)) h.notCur
  newc := fun vm d hp _ h => by
    have hk : k < vm.ctxs.length := by
      rcases h.ctx with e | e <;> exact (List.getElem?_eq_some_iff.mp e).1
    refine ⟨h.notCur, fun j e he => ?_, ?_⟩
    · have he : (vm.ctxs ++ [some d])[j]? = some (some e) := he
      by_cases hj : j < vm.ctxs.length
      · rw [List.getElem?_append_left hj] at he
        exact h.notWaiting j e he
      · rw [List.getElem?_append_right (by omega)] at he
        cases hjj : j - vm.ctxs.length with
        | zero =>
          rw [hjj] at he
          cases he; rw [hp]; simp
        | succ n => rw [hjj] at he; cases he
    · show (vm.ctxs ++ [some d])[k]? = _ ∨ (vm.ctxs ++ [some d])[k]? = _
      rw [List.getElem?_append_left hk]
      exact h.ctx
  free := fun vm j h => by
    refine ⟨h.notCur, fun i e he => ?_, ?_⟩
    · have he : (vm.ctxs.set j none)[i]? = some (some e) := he
      by_cases hj : j = i
      · subst hj
        rw [List.getElem?_set] at he
        simp at he
      · rw [List.getElem?_set_ne hj] at he
        exact h.notWaiting i e he
    · show (vm.ctxs.set j none)[k]? = _ ∨ (vm.ctxs.set j none)[k]? = _
      by_cases hj : j = k
      · have : k < vm.ctxs.length := by
          rcases h.ctx with e | e <;> exact (List.getElem?_eq_some_iff.mp e).1
        right
        rw [hj, List.getElem?_set_self this]
      · rw [List.getElem?_set_ne hj]
        exact h.ctx

theorem gone_same {k : Nat} {c : Ctx} {vm vm' : VM} (h : Gone k c vm) (h1 : vm'.ctxs = vm.ctxs) (h2 : vm'.cur = vm.cur) :
    Gone k c vm' := by
  refine ⟨by rw [h2]; exact h.1, by rw [h1]; exact h.2, by rw [h1]; exact h.3⟩

theorem iterate_gone {k : Nat} {c : Ctx} (hH : ∀ cb args, Pres (Gone k c) (H.call cb args)) (hf : c.state = .finished ∨ c.state = .invalid) :
    Pres (Gone k c) (iterate F H) :=
  iterate_pres (gone_frame hf) hH
    (fun v h => gone_same h (tick_ctxs v) (tick_cur v)) (fun v h => gone_same h (charge_ctxs v) (charge_cur v))
    (fun v h => gone_same h (none_ctxs v) (none_cur v)) (fun v h => gone_same h (reset_ctxs v) (reset_cur v))

/-- In a chain nobody was resumed by the one that is running. -/
theorem CoWF.cur_not_parent {vm : VM} (h : CoWF vm) {i : Nat} {d : Ctx} (hd : vm.ctxs[i]? = some (some d)) :
    d.parent ≠ some vm.cur := by
  intro hp
  obtain ⟨l, a1, a2, a3, a4, a5⟩ := h.chain
  have hi : i ∈ l := a5 i d hd (by rw [hp]; simp)
  obtain ⟨m, hm⟩ := List.getElem?_of_mem hi
  cases hn : l[m + 1]? with
  | some j =>
    obtain ⟨e, e1, e2⟩ := a4 m i j hm hn
    rw [hd] at e1; cases e1
    rw [hp] at e2; cases e2
    rw [List.head?_eq_getElem?] at a2
    obtain ⟨h0, e0⟩ := List.getElem?_eq_some_iff.mp a2
    obtain ⟨h1, e1⟩ := List.getElem?_eq_some_iff.mp hn
    have := (List.Nodup.getElem_inj_iff a1).mp (e0.trans e1.symm)
    omega
  | none =>
    have h1 := (List.getElem?_eq_some_iff.mp hm).1
    have h2 := List.getElem?_eq_none_iff.mp hn
    rw [List.getLast?_eq_getElem?, show l.length - 1 = m by omega, hm] at a3
    cases a3
    obtain ⟨r, r1, r2, _⟩ := h.root
    rw [hd] at r1; cases r1
    rw [r2] at hp; cases hp

/-! ## Contexts that are not running -/

/-- The contexts of `vs` other than `k0` are as they were, or freed; the current one is `k0` or a new one. -/
def Others (k0 : Nat) (vs : List (Option Ctx)) (v : VM) : Prop :=
  (v.cur = k0 ∨ vs.length ≤ v.cur) ∧ vs.length ≤ v.ctxs.length ∧
    ∀ i, i < vs.length → i ≠ k0 → v.ctxs[i]? = vs[i]? ∨ v.ctxs[i]? = some none

/-- The same but for the one that is current now. -/
def Rest (k0 : Nat) (vs : List (Option Ctx)) (v : VM) : Prop :=
  ∀ i, i < vs.length → i ≠ k0 → i ≠ v.cur → v.ctxs[i]? = vs[i]? ∨ v.ctxs[i]? = some none

variable {k0 : Nat} {vs : List (Option Ctx)}

theorem Others.rest {v : VM} (h : Others k0 vs v) : Rest k0 vs v := fun i h1 h2 _ => h.2.2 i h1 h2

theorem others_set {v : VM} (h : Others k0 vs v) (j : Nat) (x : Option Ctx) (hj : j = k0 ∨ vs.length ≤ j ∨ x = none)
    {cur : Nat} (hc : cur = k0 ∨ vs.length ≤ cur) : Others k0 vs { v with ctxs := v.ctxs.set j x, cur := cur } := by
  refine ⟨hc, by simpa using h.2.1, fun i h1 h2 => ?_⟩
  show (v.ctxs.set j x)[i]? = _ ∨ (v.ctxs.set j x)[i]? = _
  by_cases hij : j = i
  · subst hij
    rcases hj with hj | hj | hj
    · exact absurd hj h2
    · omega
    · right
      rw [List.getElem?_set_self (by have := h.2.1; omega), hj]
  · rw [List.getElem?_set_ne hij]
    exact h.2.2 i h1 h2

theorem rest_set {v : VM} (h : Rest k0 vs v) (x : Option Ctx) : Rest k0 vs { v with ctxs := v.ctxs.set v.cur x } := by
  intro i h1 h2 h3
  show (v.ctxs.set v.cur x)[i]? = _ ∨ (v.ctxs.set v.cur x)[i]? = _
  have h3 : i ≠ v.cur := h3
  rw [List.getElem?_set_ne (fun e => h3 e.symm)]
  exact h i h1 h2 h3

theorem others_frame : Frame (Others k0 vs) where
  err := fun _ _ h => h
  str := fun _ _ _ _ h => h
  obj := fun _ _ h => h
  newo := fun _ _ _ h => h
  stat := fun _ _ h => h
  ctx := fun v c c' _ _ _ _ h => others_set h v.cur (some c') (h.1.imp_right .inl) h.1

theorem rest_frame : Frame (Rest k0 vs) where
  err := fun _ _ h => h
  str := fun _ _ _ _ h => h
  obj := fun _ _ h => h
  newo := fun _ _ _ h => h
  stat := fun _ _ h => h
  ctx := fun _ _ c' _ _ _ _ h => rest_set h (some c')

theorem others_gc : GCFrame (Others k0 vs) where
  err := fun _ _ h => h
  str := fun _ _ _ _ h => h
  obj := fun _ _ h => h
  newo := fun _ _ _ h => h
  free := fun v k h => others_set h k none (.inr (.inr rfl)) h.1
  pass := fun _ _ h => h
  log := fun _ _ h => h

theorem others_host (hH : KeepsOthers H) (cb : Nat) (args : List Value) : Pres (Others k0 vs) (H.call cb args) :=
  ⟨fun v a v' h e => by
    obtain ⟨h1, hl, h2⟩ := hH cb args v a v' e
    have hold : ∀ i, i < vs.length → i ≠ k0 → v'.ctxs[i]? = vs[i]? ∨ v'.ctxs[i]? = some none := by
      intro i hi hk
      rcases h2 i (by have := h.2.1; omega) (by rintro rfl; rcases h.1 with e | e <;> omega) with e | e
      · rw [e]; exact h.2.2 i hi hk
      · exact .inr e
    exact ⟨by rw [h1]; exact h.1, Nat.le_trans h.2.1 hl, hold⟩⟩

theorem popContext_others : Tri (Others k0 vs) popContext (Rest k0 vs) := ⟨fun v a v' h e => by
  unfold popContext at e
  rw [M.bind_ok (get_run v)] at e
  cases hc : ctxAt v v.cur with
  | ub k =>
    have : curCtx v = .ub k := by unfold curCtx; rw [hc]
    rw [M.bind_ub this] at e; cases e
  | ok c =>
    have : curCtx v = .ok (c, v) := by unfold curCtx; rw [hc]
    rw [M.bind_ok this] at e
    cases hpar : c.parent with
    | none => rw [hpar] at e; cases e; exact h.rest
    | some p =>
      rw [hpar] at e
      have : setCtx v.cur { c with parent := none } v =
          .ok ((), { v with ctxs := v.ctxs.set v.cur (some { c with parent := none }) }) := by
        unfold setCtx; rw [hc]
      dsimp only at e
      rw [M.bind_ok this] at e
      cases e
      have := others_set h v.cur (some { c with parent := none }) (h.1.imp_right .inl) h.1
      intro i h1 h2 _
      exact this.2.2 i h1 h2⟩

theorem modCur_others {g : Ctx → Ctx} : Pres (Others k0 vs) (modCur g) := ⟨fun v a v' h e => by
  obtain ⟨d, _, h2⟩ := modCur_ok e
  rw [h2]
  exact others_set h v.cur (some (g d)) (h.1.imp_right .inl) h.1⟩

theorem modCur_rest {g : Ctx → Ctx} : Pres (Rest k0 vs) (modCur g) := ⟨fun v a v' h e => by
  obtain ⟨d, _, h2⟩ := modCur_ok e
  rw [h2]
  exact rest_set h (some (g d))⟩

theorem Tri.post {α : Type} {m : M α} {P Q Q' : VM → Prop} (h : Tri P m Q) (hq : ∀ v, Q v → Q' v) : Tri P m Q' :=
  ⟨fun v a v' hp e => hq v' (h.run v a v' hp e)⟩

theorem Pres.rest {α : Type} {m : M α} (h : Pres (Others k0 vs) m) : Tri (Others k0 vs) m (Rest k0 vs) :=
  h.tri.post fun _ => Others.rest

theorem opReturn_others : Tri (Others k0 vs) opReturn (Rest k0 vs) := by
  have g := others_frame (k0 := k0) (vs := vs)
  unfold opReturn
  refine Tri.bind (pop_pres g).tri fun _ => Tri.bind (pop_pres g).tri fun _ => Tri.bind (valueToInt_pres g).tri fun _ =>
    Tri.bind (popN_pres g).tri fun _ => Tri.bind (pop_pres g).tri fun _ => Tri.bind (valueToInt_pres g).tri fun _ =>
    Tri.bind (pop_pres g).tri fun _ => Tri.bind (valueToInt_pres g).tri fun _ => Tri.bind (popN_pres g).tri fun _ =>
    Tri.bind (pop_pres g).tri fun _ => ?_
  split
  · exact Tri.bind modCur_others.tri fun _ => Tri.bind popContext_others fun _ => (push_pres rest_frame).tri
  · refine Pres.rest ?_
    pres

theorem opYield_others : Tri (Others k0 vs) opYield (Rest k0 vs) := by
  have g := others_frame (k0 := k0) (vs := vs)
  unfold opYield
  refine Tri.bind Pres.get.tri fun vm => ?_
  split
  · exact (addError_pres g).rest
  · exact Tri.bind (pop_pres g).tri fun _ => Tri.bind popContext_others fun _ => (push_pres rest_frame).tri

theorem resumeCtx_others {k : Nat} {w : Value} : Tri (Others k0 vs) (resumeCtx k w) (Rest k0 vs) := ⟨fun v a v' hp e => by
  have g := others_frame (k0 := k0) (vs := vs)
  have he := e
  unfold resumeCtx at e
  rw [M.bind_ok (get_run v)] at e
  cases hc : ctxAt v k with
  | ub u =>
    rw [hc, M.bind_ub (liftR_ub _ _)] at e; cases e
  | ok c =>
    rw [hc, M.bind_ok (liftR_ok _ _)] at e
    have hsw : ∀ x : Ctx, Rest k0 vs { v with ctxs := v.ctxs.set k (some x), cur := k } := by
      intro x i h1 h2 h3
      show (v.ctxs.set k (some x))[i]? = _ ∨ (v.ctxs.set k (some x))[i]? = _
      rw [List.getElem?_set_ne (fun e => h3 e.symm)]
      exact hp.2.2 i h1 h2
    cases hpar : c.parent with
    | some p =>
      cases hst : c.state <;> rw [hst] at e <;> dsimp only at e <;> try rw [hpar] at e
      · exact (addError_pres g).rest.run _ _ _ hp e
      · exact (addError_pres g).rest.run _ _ _ hp e
      · exact (addError_pres g).rest.run _ _ _ hp e
      · exact (push_pres g).rest.run _ _ _ hp e
    | none =>
      cases hst : c.state with
      | invalid => rw [hst] at e; exact (addError_pres g).rest.run _ _ _ hp e
      | finished => rw [hst] at e; exact (push_pres g).rest.run _ _ _ hp e
      | created =>
        rw [(resumeCtx_switch w hc hpar).1 hst] at he
        cases he
        exact hsw _
      | running =>
        rw [(resumeCtx_switch w hc hpar).2 hst] at he
        exact (push_pres rest_frame).run _ _ _ (hsw _) he⟩

theorem opResume_others : Tri (Others k0 vs) opResume (Rest k0 vs) := by
  have g := others_frame (k0 := k0) (vs := vs)
  unfold opResume
  refine Tri.bind (pop_pres g).tri fun v => Tri.bind (pop_pres g).tri fun co => Tri.bind Pres.get.tri fun vm =>
    Tri.bind (getExtType_pres g).tri fun t => ?_
  split
  · exact (addError_pres g).rest
  · refine Tri.bind (getExtData_pres g).tri fun d => ?_
    split
    · exact Pres.lift.rest
    · exact resumeCtx_others

theorem opCoroutineCreate_others (hH : KeepsOthers H) : Tri (Others k0 vs) (opCoroutineCreate F H) (Rest k0 vs) := by
  have g := others_frame (k0 := k0) (vs := vs)
  unfold opCoroutineCreate
  refine Tri.bind (pop_pres g).tri fun ac => Tri.bind (valueToInt_pres g).tri fun argc => ?_
  split
  · exact (addError_pres g).rest
  refine Tri.bind Pres.curStack.tri fun s => ?_
  split
  · exact (addError_pres g).rest
  split
  · exact Pres.lift.rest
  refine Tri.bind (popN_pres g).tri fun _ => Tri.bind (pop_pres g).tri fun fv => Tri.bind (pushSlot_pres g).tri fun slot =>
    Tri.bind (createObject_pres g).tri fun id => Tri.bind (pokeAt_pres g).tri fun _ => ?_
  refine Tri.get fun vm => Tri.modify ?_
  refine Tri.pre (P := fun v => Others k0 vs v ∧ vs.length ≤ vm.ctxs.length) ?_ ?_
  rotate_left
  · rintro v ⟨w, ⟨hp, rfl⟩, rfl⟩
    refine ⟨⟨hp.1, by simp; have := hp.2.1; omega, fun i h1 h2 => ?_⟩, hp.2.1⟩
    show (w.ctxs ++ _)[i]? = _ ∨ (w.ctxs ++ _)[i]? = _
    rw [List.getElem?_append_left (by have := hp.2.1; omega)]
    exact hp.2.2 i h1 h2
  generalize vm.ctxs.length = k
  by_cases hk : vs.length ≤ k
  swap
  · exact ⟨fun v a v' h e => absurd h.2 hk⟩
  refine Tri.pre (P := Others k0 vs) ?_ fun v h => h.1
  refine Tri.bind (setExtType_pres g).tri fun ok1 => Tri.bind (Pres.tri ?_) fun ok2 => ?_
  · split
    · exact setExtData_pres g
    · exact .pure
  split
  · refine Tri.bind (R := Others k0 vs) ⟨fun v a v' hp e => ?_⟩ fun _ =>
      Tri.bind (push_pres g).tri fun _ => Tri.bind (pushAll_pres g).tri fun _ =>
      Tri.bind (pushInt_pres g).tri fun _ => Tri.bind (R := Others k0 vs) ⟨fun v a v' hp e => ?_⟩ fun _ =>
      Tri.bind (opCall_pres g (others_host hH)).tri fun _ => popContext_others
    · obtain ⟨c, hc, hcase⟩ := pushContext_cases e
      rcases hcase with ⟨_, h⟩ | ⟨_, h⟩
      · rw [h]; exact hp
      · rw [h]; exact others_set hp k _ (.inr (.inl hk)) (.inr hk)
    · split at e
      · next c hc => cases e; exact others_set hp k _ (.inr (.inl hk)) hp.1
      · cases e
  · refine Tri.bind (clearExt_pres g).tri fun _ => Tri.bind (R := Others k0 vs) ⟨fun v a v' hp e => ?_⟩ fun _ =>
      (addError_pres g).rest
    unfold freeCtx at e
    dsimp only at e
    split at e
    · cases e; exact others_set hp k none (.inr (.inr rfl)) hp.1
    · cases e

theorem dispatch_others (hH : KeepsOthers H) (op : Nat) : Tri (Others k0 vs) (dispatch F H op) (Rest k0 vs) := by
  have g := others_frame (k0 := k0) (vs := vs)
  unfold dispatch
  split
  · exact (opAdd_pres g).rest
  · exact (opSub_pres g).rest
  · exact (opMul_pres g).rest
  · exact (opDiv_pres g).rest
  · exact (opNeg_pres g).rest
  · exact (opMod_pres g).rest
  · exact (opPushLiteral_pres g).rest
  · exact (opPushLiteral_pres g).rest
  · exact (opPushLiteral_pres g).rest
  · exact (opPushLiteral_pres g).rest
  · exact (Pres.bind (pop_pres g) fun _ => .pure).rest
  · exact (opPopN_pres g).rest
  · exact (opStackPeek_pres g).rest
  · exact (opStackPoke_pres g).rest
  · exact (opStaticPoke_pres g).rest
  · exact (opStaticPeek_pres g).rest
  · exact (opJump_pres g).rest
  · exact (opCall_pres g (others_host hH)).rest
  · exact opReturn_others
  · exact (opEnd_pres g).rest
  · exact (opJz_pres g).rest
  · exact (opCompare_pres g).rest
  · exact (opCompare_pres g).rest
  · exact (opCompare_pres g).rest
  · exact (opCompare_pres g).rest
  · exact (opCompare_pres g).rest
  · exact (opCompare_pres g).rest
  · exact (opEqSameType_pres g).rest
  · exact (opNot_pres g).rest
  · exact (opAnd_pres g).rest
  · exact (opOr_pres g).rest
  · exact (opCreateObject_pres g).rest
  · exact (opFieldGet_pres g).rest
  · exact (opFieldSet_pres g).rest
  · exact (opFieldGet_pres g).rest
  · exact (opPrepareSelfCall_pres g).rest
  · exact (push_pres g).rest
  · exact opCoroutineCreate_others hH
  · exact opYield_others
  · exact opResume_others
  · exact (opIsFinished_pres g).rest
  · exact (opLen_pres g).rest
  · exact Pres.pure.rest

theorem others_same {v v' : VM} (h : Others k0 vs v) (h1 : v'.ctxs = v.ctxs) (h2 : v'.cur = v.cur) : Others k0 vs v' := by
  unfold Others; rw [h1, h2]; exact h

/-- An iteration leaves every context alone that is current neither before nor after. -/
theorem iterate_others (hH : KeepsOthers H) {vm vm' : VM} (e : iterate F H vm = .ok ((), vm')) :
    Rest vm.cur vm.ctxs vm' := by
  have h0 : Others vm.cur vm.ctxs vm := ⟨.inl rfl, Nat.le_refl _, fun _ _ _ => .inl rfl⟩
  obtain ⟨c, w, hc, hw, e⟩ := iterate_word e
  have hx : ∀ {op v}, Others vm.cur vm.ctxs v → execute F H op v = .ok ((), vm') → Rest vm.cur vm.ctxs vm' := by
    intro op v h e
    exact (Tri.bind (dispatch_others hH op) fun _ => modCur_rest.tri).run v () vm' h e
  have ht : Others vm.cur vm.ctxs (tick vm) := others_same h0 (tick_ctxs vm) (tick_cur vm)
  rcases iterateOp_cases e with ⟨_, _, _, hv⟩ | ⟨_, _, v, u, hg, e⟩ | ⟨_, e⟩
  · rw [hv]
    refine (others_same ht ?_ ?_).rest
    · rw [none_ctxs, addErr_ctxs]
    · rw [none_cur, addErr_cur]
  · have h1 := others_same ht (charge_ctxs _) (charge_cur _)
    have h2 := (collectIfDue_pres others_gc).run _ _ _ h1 hg
    exact hx (others_same h2 (reset_ctxs _) (reset_cur _)) e
  · exact hx ht e

end Nk
