import Verif.Spec.Native
import Verif.Lemmas.Callable
import Verif.Lemmas.FuncCall
import Verif.Props.Registry
import Verif.Props.Script
/-!
# C69: scripts call native functions
-/
namespace Nk.Props
open Nk.Spec Nk.Cc

variable {F : FloatOps} {H : Host}

theorem frame_eq (l args : List Value) (id : Nat) (n : Value) : l ++ (.fn id :: args ++ [n]) = l ++ [.fn id] ++ args ++ [n] := by simp

/-- **C69**: the value of a call of a native function is what the function returns for the arguments, and the call does to the
machine what the function does. -/
theorem C69_call {W W' : VM} {id cb : Nat} {f : Func} {x : ExtFunc} {l args : List Value} {r : Value} (g : Good W) (ho : W.objects.WF)
    (hn : IsNative W id cb f x) (ht : Takes W f x args) (hl : args.length < 4294967296) (hg : Gives H cb args W r W') (hk : Keep W W') :
    Does F H 18 l (.fn id :: args ++ [.int (BitVec.ofNat 32 args.length)]) W r W' := by
  refine ⟨hk, fun p vm h hw => ?_⟩
  rw [frame_eq] at h
  obtain ⟨c, s, h1, h2, h3⟩ := h.stk
  have hnn : (BitVec.ofNat 32 args.length).toNat = args.length := by rw [BitVec.toNat_ofNat]; omega
  obtain ⟨vm1, k1, k2⟩ := hg _ _ _ h
  obtain ⟨c', s', j1, j2, j3⟩ := k2.stk
  obtain ⟨t, q1, q2⟩ := native_return j3 r
  have hd : dispatch F H 18 vm = .ok ((), vm1.setC { { c' with stack := s', ip := p } with stack := t }) := by
    refine Eq.trans (opCall_fn F H h3 hnn) ?_
    have hf : vm.functions[id]? = some f := by rw [h2]; exact hn.fn
    have hx : vm.extFuncs[f.extId]? = some x := by rw [h2]; exact hn.nat
    rw [hf]
    dsimp only
    rw [if_neg (by rintro ⟨a1, a2⟩; rcases ht.1 with a | a <;> contradiction), if_pos hn.ext,
      native_run (fv := .fn id) H (by rw [h2]; exact ho) h3 hx hn.cb hn.decl (by rw [h2]; exact ht.2), M.bind_ok k1]
    exact q1
  obtain ⟨vm', m1, m2⟩ := h.step F H g (op := 18) (by decide) hw (W' := W') (c := c') (s := t) (q := p) (r := p + 1) j1 (by rw [hd, j2, VM.setC_setC]) q2.wf q2.used (ip1 g hw)
  exact ⟨vm', .one m1, m2⟩

/-- **C69**: with other arguments than it takes, a call of a native function is an error, and the function is not called. -/
theorem C69_refused {W : VM} {id cb : Nat} {f : Func} {x : ExtFunc} {l args : List Value} (g : Good W) (ho : W.objects.WF)
    (hn : IsNative W id cb f x) (ht : ¬ Takes W f x args) (hl : args.length < 4294967296) :
    Fails F H 18 l (.fn id :: args ++ [.int (BitVec.ofNat 32 args.length)]) W := by
  by_cases ha : f.argc ≠ UINT_MAX ∧ f.argc ≠ args.length
  · exact call_wrong g hl hn.fn ha
  intro p vm h hw
  rw [frame_eq] at h
  obtain ⟨c, s, h1, h2, h3⟩ := h.stk
  have hbad : ¬ ArgsFit W x args := fun hb => ht ⟨by
    by_cases h0 : f.argc = UINT_MAX
    · exact .inl h0
    · exact .inr (Classical.byContradiction fun h1 => ha ⟨h0, h1⟩), hb⟩
  obtain ⟨e, k⟩ := refused_core F (vm := vm) (by rw [h2]; exact ho) h3 (by rw [BitVec.toNat_ofNat]; omega) (by rw [h2]; exact hn.fn) hn.ext
    (by rw [h2]; exact hn.nat) hn.cb hn.decl (by rw [h2]; exact hbad)
  have ex : execute F H 18 vm = .ok ((), (vm.addErr e).setC { { c with stack := s, ip := p } with ip := u32 (p + 1) }) := by
    unfold execute
    rw [M.bind_ok (k H)]
    exact modCur_at (vm := vm.addErr _) (c := { c with stack := s, ip := p }) h3.at_ _
  refine ⟨_, .one ⟨_, _, h3.at_, (h.instrAt p).trans (g.ip hw).2, by decide, ex⟩, ?_⟩
  have := h.same.2.2.2.2.2.1
  show W.errors.length < (vm.errors ++ [_]).length
  rw [this]
  simp

/-! ## Declaring variables and native functions -/

variable {s s' : CS} {x : Bytes} {r : Option Nat}

theorem addVar0_inv {c : CCtx} {b : Bool} (hc : s.ctx = [c]) (hs : s.staticCount < 4294967296) (h : addVariable x false false s = .ok (b, s')) (he : s'.vm.errors = []) :
    b = true ∧ s.staticCount + 1 < 4294967296 ∧ ∃ st mk,
      s' = { s with staticCount := s.staticCount + 1, vm := { s.vm with statics := st, staticMask := mk }, ctx := [{ c with vars := ⟨x, true, false, s.staticCount⟩ :: c.vars }] } := by
  unfold addVariable at h
  rw [CM.cget_bind, hc] at h
  dsimp only at h
  split at h
  · exact absurd he (err_bind_ne (by cmono) h)
  rw [if_pos rfl] at h
  have h : (allocStatic >>= fun pos => (do
      consVar { name := x, isGlobal := true, noPop := false, position := pos }
      return true : CM Bool)) s = .ok (b, s') := h
  obtain ⟨pos, s1, h1, h, e1⟩ := CM.bind_nil h (by intro a; unfold consVar; cmono) he
  obtain ⟨rfl, hst, st, mk, rfl⟩ := allocStatic_inv hs h1 e1
  obtain ⟨_, s2, h2, h⟩ := CM.bind_inv h
  obtain ⟨rfl, rfl⟩ := pure_inv h
  unfold consVar modCtx at h2
  dsimp only at h2
  rw [hc] at h2
  cases h2
  exact ⟨rfl, hst, st, mk, rfl⟩

theorem createGlobal_inv {c : CCtx} (hc : s.ctx = [c]) (hs : s.staticCount < 4294967295) (h : createGlobal x s = .ok (r, s')) (he : s'.vm.errors = []) :
    r = some (s.staticCount + 1) ∧ s.staticCount + 2 < 4294967296 ∧ ∃ st mk,
      s' = { s with staticCount := s.staticCount + 2, vm := { s.vm with statics := st, staticMask := mk }, ctx := [{ c with vars := ⟨x, true, false, s.staticCount + 1⟩ :: c.vars }] } := by
  unfold createGlobal at h
  rw [CM.cget_bind, hc] at h
  dsimp only at h
  obtain ⟨b, s1, h1, h, e1⟩ := CM.bind_nil h (by intro a; cmono) he
  obtain ⟨rfl, hlt, st, mk, rfl⟩ := addVar0_inv hc (by omega) h1 e1
  rw [if_pos rfl, CM.cget_bind] at h
  dsimp only at h
  rw [if_pos (by unfold UINT_MAX; omega)] at h
  obtain ⟨pos, s2, h2, h, e2⟩ := CM.bind_nil h (by intro a; cmono) he
  obtain ⟨rfl, hlt2, st2, mk2, rfl⟩ := allocStatic_inv (by exact hlt) h2 e2
  obtain ⟨_, s3, h3, h⟩ := CM.bind_inv h
  obtain ⟨rfl, rfl⟩ := pure_inv h
  unfold modCtx at h3
  dsimp only at h3
  cases h3
  exact ⟨rfl, hlt2, st2, mk2, rfl⟩

theorem onVM_inv {α : Type} {m : M α} {a : α} (h : onVM m s = .ok (a, s')) : ∃ vm, m s.vm = .ok (a, vm) ∧ s' = { s with vm := vm } := by
  unfold onVM at h
  split at h
  · next hm => cases h; exact ⟨_, hm, rfl⟩
  · cases h

theorem createGlobal_held {a : VM} : CKeep (Held a) (createGlobal x) := by unfold createGlobal; ckeep

theorem Top.declare {E : Env} (h : Top E) : Top (E.declare x) := by
  obtain ⟨n, hn⟩ := h.new
  unfold Env.declare
  rw [hn]
  exact h.put x hn (Nat.le_succ _) (Nat.lt_succ_self _)

/-- What declaring a variable leaves, with other functions. -/
theorem AtRest.declared {c : CCtx} (h : AtRest s) (hc : s.ctx = [c]) (hr : c.fnId = UINT_MAX) {fs : List Func} {es : List ExtFunc} {st : List Value} {mk : Nat}
    (hs : s' = { s with staticCount := s.staticCount + 2, vm := { s.vm with functions := fs, extFuncs := es, statics := st, staticMask := mk }, ctx := [{ c with vars := ⟨x, true, false, s.staticCount + 1⟩ :: c.vars }] })
    (h1 : st.length = mk + 1) (h2 : ∃ k, k ≤ 31 ∧ mk + 1 = 2 ^ k) (h3 : mk + 1 < UINT_MAX / 8) (h4 : s.staticCount + 2 ≤ mk + 1) :
    AtRest s' ∧ envOf s' = (envOf s).declare x := by
  have env : envOf s' = (envOf s).declare x := by
    have hp : placeOf [{ c with vars := ⟨x, true, false, s.staticCount + 1⟩ :: c.vars }] = fun y => if x = y then some (.glob (s.staticCount + 1)) else placeOf [c] y :=
      placeOf_cons x true false (s.staticCount + 1) c.offset c []
    subst hs
    unfold envOf Env.declare
    dsimp only
    rw [hc, hp]
    rfl
  refine ⟨?_, env⟩
  obtain ⟨l, m1, m2⟩ := h.here
  have wf := h.pre.wf
  refine ⟨⟨?_, ?_, ?_, ?_, ?_, ?_⟩, ⟨{ c with vars := ⟨x, true, false, s.staticCount + 1⟩ :: c.vars }, by rw [hs], hr⟩, by rw [env]; exact h.top.declare,
    by rw [hs]; exact h1, by rw [hs]; exact h2, by rw [hs]; exact h3, by rw [hs]; exact h4, ⟨l, ?_, ?_⟩, ?_⟩
  · subst hs
    exact ⟨wf.pow, wf.len, wf.write, CodeWF.str' wf.str rfl rfl, by simp⟩
  · rw [hs]; exact h.pre.errs
  · rw [hs]
    intro d ds e
    cases e
    exact h.pre.head c [] hc
  · rw [hs]
    have := h.pre.loop
    rw [hc] at this
    exact this
  · rw [hs]
    intro a ha
    have hr' : ({ c with vars := ⟨x, true, false, s.staticCount + 1⟩ :: c.vars } : CCtx).fnId = UINT_MAX := hr
    rw [show fnArgs _ _ = none from fnArgs_root hr' _] at ha
    cases ha
  · rw [hs]
    show s.staticCount + 2 < _
    unfold UINT_MAX at h3
    omega
  · subst hs; exact mach_self m1 rfl rfl
  · rw [hs, m2, hc]; rfl
  · rw [hs]; exact h.left

theorem AtRest.held_count (h : AtRest s) : s.staticCount < 4294967295 := by
  have := h.count
  have := h.small
  unfold UINT_MAX at *
  omega

/-- **C69**: between two scripts the host declares a global variable.  If no error is recorded, the name means a new place, which
the call returns; the values of the other variables, and what other names mean, are as before, and the VM is ready for a script. -/
theorem C69_global (h : AtRest s) (hx : createGlobal x s = .ok (r, s')) (he : s'.vm.errors = []) :
    AtRest s' ∧ envOf s' = (envOf s).declare x ∧ (∃ n, (envOf s).g = some n ∧ r = some (n + 1) ∧ n + 1 < s'.vm.statics.length) ∧
      (∀ (i : Nat) v, s.vm.statics[i]? = some v → s'.vm.statics[i]? = some v) ∧ s'.vm.functions = s.vm.functions ∧
      s'.vm.objects = s.vm.objects ∧ s'.vm.ctxs = s.vm.ctxs := by
  obtain ⟨c, hc, hr⟩ := h.root
  have hd := createGlobal_held.run _ _ _ h.held hx
  obtain ⟨rfl, hlt, st, mk, e⟩ := createGlobal_inv hc h.held_count hx he
  have d1 := hd.slen
  have d2 := hd.spow
  have d3 := hd.small
  have d4 := hd.count
  have d5 := hd.vars
  rw [e] at d1 d2 d3 d4 d5
  obtain ⟨k1, k2⟩ := h.declared (x := x) hc hr (fs := s.vm.functions) (es := s.vm.extFuncs) e d1 d2 d3 d4
  refine ⟨k1, k2, ⟨s.staticCount, by unfold envOf; rw [hc]; rfl, rfl, ?_⟩, fun i v hv => ?_, by rw [e], by rw [e], by rw [e]⟩
  · rw [e]
    show s.staticCount + 1 < st.length
    have d4 : s.staticCount + 2 ≤ mk + 1 := d4
    have d1 : st.length = mk + 1 := d1
    omega
  · obtain ⟨t, ht⟩ := hd.vars
    rw [← ht, List.getElem?_append_left (List.getElem?_eq_some_iff.mp hv).1]
    exact hv

/-- **C69**: between two scripts the host declares a native function.  If no error is recorded, the name means a new variable with
the function `id`, which calls `cb`; a function that is new to the VM takes any arguments.  The values of the other variables, and what
other names mean, are as before, and the VM is ready for a script. -/
theorem C69_declare {cb : Nat} (h : AtRest s) (hw : FnWF s.vm) (hx : createCFunction x (some cb) s = .ok ((), s')) (he : s'.vm.errors = []) :
    AtRest s' ∧ FnWF s'.vm ∧ envOf s' = (envOf s).declare x ∧
      (∃ n id f e, (envOf s).g = some n ∧ s'.vm.statics[n + 1]? = some (.fn id) ∧ s'.vm.functions[id]? = some f ∧ f.extId ≠ UINT_MAX ∧
        s'.vm.extFuncs[f.extId]? = some e ∧ e.name = x ∧ e.callback = some cb ∧
        ((∀ e ∈ s.vm.extFuncs, ¬ (e.name = x ∧ e.callback = some cb)) → f.argc = UINT_MAX ∧ e.argc = UINT_MAX) ∧
        ∀ (i : Nat) v, s.vm.statics[i]? = some v → i ≠ n + 1 → s'.vm.statics[i]? = some v) ∧
      (∀ (i : Nat) f, s.vm.functions[i]? = some f → s'.vm.functions[i]? = some f) ∧ s'.vm.objects = s.vm.objects ∧ s'.vm.ctxs = s.vm.ctxs := by
  obtain ⟨c, hc, hr⟩ := h.root
  unfold createCFunction at hx
  obtain ⟨e, s1, h1, hx⟩ := CM.bind_inv hx
  obtain ⟨id, s2, h2, hx⟩ := CM.bind_inv hx
  obtain ⟨q, s3, h3, hx⟩ := CM.bind_inv hx
  obtain ⟨v1, g1, rfl⟩ := onVM_inv h1
  obtain ⟨v2, g2, e2⟩ := onVM_inv h2
  obtain rfl : s2 = { s with vm := v2 } := e2
  dsimp only at g2 h3
  have e3 : s3.vm.errors = [] := by
    cases q with
    | none => cases hx; exact he
    | some pos =>
      dsimp only at hx
      unfold setStatic at hx
      split at hx <;> cases hx
      exact he
  obtain ⟨w1, x1⟩ := registerNative_fn hw g1
  obtain ⟨w2, x2⟩ := internalFor_fn w1 g2
  have held2 : v2.errors = [] → ∃ fs es, v2 = { s.vm with functions := fs, extFuncs := es } ∧ ∃ f y, fs[id]? = some f ∧ f.extId ≠ UINT_MAX ∧
      es[f.extId]? = some y ∧ y.name = x ∧ y.callback = some cb ∧
      ((∀ e ∈ s.vm.extFuncs, ¬ (e.name = x ∧ e.callback = some cb)) → f.argc = UINT_MAX ∧ y.argc = UINT_MAX) := by
    intro ev2
    have k2 := internalFor_cases g2
    have l1 := w1.len
    have small : ∀ {y : ExtFunc}, v1.extFuncs[e]? = some y → e ≠ UINT_MAX := fun hy => by
      have := (List.getElem?_eq_some_iff.mp hy).1
      omega
    -- the entry of the native function
    have k1 : v1.errors = [] → ∃ es y, v1 = { s.vm with extFuncs := es } ∧ es[e]? = some y ∧ y.name = x ∧ y.callback = some cb ∧
        ((∀ e ∈ s.vm.extFuncs, ¬ (e.name = x ∧ e.callback = some cb)) → y.argc = UINT_MAX ∧ y.internalId = UINT_MAX) := by
      intro ev1
      rcases registerNative_cases g1 with ⟨f, rfl, a2, a3, a4⟩ | ⟨a1, ⟨-, m, rfl⟩ | ⟨a2, a3, rfl⟩⟩
      · exact ⟨_, f, rfl, a2, a3, a4, fun hn => absurd ⟨a3, a4⟩ (hn f (List.mem_of_getElem? a2))⟩
      · exact absurd ev1 (by simp [VM.addErr])
      · exact ⟨_, ⟨x, some cb, UINT_MAX, UINT_MAX, [], []⟩, rfl, by rw [a2]; simp, rfl, rfl, fun _ => ⟨rfl, rfl⟩⟩
    rcases k2 with ⟨-, -, m, rfl⟩ | ⟨y, b1, b2, b3, rfl⟩ | ⟨y, b1, b2, b3, b4, rfl⟩
    · exact absurd ev2 (by simp [VM.addErr])
    · obtain ⟨es, y', c1, c2, c3, c4, c5⟩ := k1 ev2
      obtain ⟨f, d1, d2⟩ := w1.fwd e y b1 b2
      have hy : es[e]? = some y := by rw [c1] at b1; exact b1
      rw [c2] at hy
      cases hy
      refine ⟨s.vm.functions, es, c1, f, y, by rw [b3]; rw [c1] at d1; exact d1, by rw [d2]; exact small b1, by rw [d2]; exact c2, c3, c4, fun hn => ?_⟩
      exact absurd (c5 hn).2 b2
    · obtain ⟨es, y', c1, c2, c3, c4, c5⟩ := k1 ev2
      have hy : es[e]? = some y := by rw [c1] at b1; exact b1
      rw [c2] at hy
      cases hy
      refine ⟨v1.functions ++ [{ argc := UINT_MAX, first := 0, extId := e }], es.set e { y with internalId := id }, by rw [c1], ⟨UINT_MAX, 0, e⟩, { y with internalId := id }, ?_, small b1, ?_, c3, c4, fun hn => ⟨rfl, (c5 hn).1⟩⟩
      · rw [b3]; simp
      · exact List.getElem?_set_self (List.getElem?_eq_some_iff.mp c2).1
  have hd := createGlobal_held (x := x) (a := s.vm)
  obtain ⟨rfl, hlt, st, mk, e4⟩ := createGlobal_inv (s := { s with vm := v2 }) hc h.held_count h3 e3
  have ev2 : v2.errors = [] := by rw [e4] at e3; exact e3
  obtain ⟨fs, es, rfl, f, y, f1, f2, f3, f4, f5, f6⟩ := held2 ev2
  have hh := hd.run _ _ _ (h.held.of (s' := { s with vm := { s.vm with functions := fs, extFuncs := es } }) rfl rfl rfl rfl rfl rfl rfl rfl rfl rfl rfl rfl) h3
  have d1 := hh.slen
  have d2 := hh.spow
  have d3 := hh.small
  have d4 := hh.count
  have d5 := hh.vars
  rw [e4] at d1 d2 d3 d4 d5 hx
  have d1 : st.length = mk + 1 := d1
  have d4 : s.staticCount + 2 ≤ mk + 1 := d4
  have d5 : s.vm.statics <+: st := d5
  have hm : mk &&& (s.staticCount + 1) = s.staticCount + 1 := by
    obtain ⟨k, -, hk⟩ := d2
    rw [Nat.and_comm]
    exact and_mask ⟨k, hk⟩ (by omega)
  dsimp only at hx
  unfold setStatic at hx
  dsimp only at hx
  rw [hm, if_pos (by omega)] at hx
  have hs' := (Prod.mk.inj (Res.ok.inj hx)).2.symm
  obtain ⟨k1, k2⟩ := h.declared (x := x) hc hr hs' (by rw [List.length_set]; exact d1) d2 d3 d4
  refine ⟨k1, ?_, k2, ⟨s.staticCount, id, f, y, by unfold envOf; rw [hc]; rfl, ?_, by rw [hs']; exact f1, f2, by rw [hs']; exact f3, f4, f5, f6, fun i v hv hi => ?_⟩, fun i f hf => ?_, by rw [hs'], by rw [hs']⟩
  · rw [hs']; exact w2.of_eq rfl rfl
  · rw [hs']
    exact List.getElem?_set_self (by omega)
  · rw [hs']
    show (st.set _ _)[i]? = some v
    rw [List.getElem?_set_ne (fun h => hi h.symm)]
    obtain ⟨t, ht⟩ := d5
    rw [← ht, List.getElem?_append_left (List.getElem?_eq_some_iff.mp hv).1]
    exact hv
  · rw [hs']
    exact x2.functions i f (x1.functions i f hf)

theorem findVar_mem {y : Bytes} {v : CVar} : ∀ {vs : List CVar}, findVar y vs = some v → v ∈ vs ∧ strcmp v.name y = 0
  | [], h => by cases h
  | w :: ws, h => by
    unfold findVar at h
    split at h
    · cases h; exact ⟨List.mem_cons_self, ‹_›⟩
    · exact ⟨List.mem_cons_of_mem _ (findVar_mem h).1, (findVar_mem h).2⟩

/-- **C69**: a name that is taken is refused with an error, and everything else stays as it is. -/
theorem C69_taken (h : AtRest s) (hx : (envOf s).Γ x ≠ none) :
    ∃ s', createGlobal x s = .ok (none, s') ∧ s.vm.errors.length < s'.vm.errors.length ∧ envOf s' = envOf s ∧ s'.vm.statics = s.vm.statics := by
  obtain ⟨c, hc, hr⟩ := h.root
  have hany : c.vars.any (fun v => strcmp v.name x = 0) = true := by
    have hx : placeOf s.ctx x ≠ none := hx
    rw [hc] at hx
    unfold placeOf findCtx at hx
    cases hf : findVar x c.vars with
    | none => rw [hf] at hx; exact absurd rfl hx
    | some v =>
      obtain ⟨h1, h2⟩ := findVar_mem hf
      exact List.any_eq_true.mpr ⟨v, h1, by simpa using h2⟩
  obtain ⟨s1, e1, e2, e3, e4, e5⟩ : ∃ s1, err "Redundant variable declaration." s = .ok ((), s1) ∧ s.vm.errors.length < s1.vm.errors.length ∧
      s1.ctx = s.ctx ∧ s1.vm.statics = s.vm.statics ∧ s1.staticCount = s.staticCount := ⟨_, rfl, by simp, rfl, rfl, rfl⟩
  have h1 : addVariable x false false s = .ok (false, s1) := by
    unfold addVariable
    rw [CM.cget_bind, hc]
    dsimp only
    rw [if_pos hany, CM.bind_ok e1]
    rfl
  refine ⟨s1, ?_, e2, by unfold envOf; rw [e3, e5], e4⟩
  unfold createGlobal
  rw [CM.cget_bind, hc]
  dsimp only
  rw [CM.bind_ok h1]
  rfl

/-! ### An example: the host declares `minus`, and the script is `var x = minus(9, 2);` -/

namespace NativeEx
open StmtEx (k atom)

/-- A host with one function, which subtracts. -/
def host : Host :=
  { call := fun _ args vm => .ok (match args with | [.int a, .int b] => .int (a - b) | _ => .nil, vm), mark := fun _ _ => [] }

theorem plain : Plain host :=
  ⟨fun _ _ => ⟨fun _ _ _ => rfl, fun vm a vm' e => by cases e; exact Nat.le_refl _⟩, fun _ _ vm a vm' e => by cases e; exact List.prefix_rfl⟩

def e9 : Ex := .int (k .integer "9")
def e2 : Ex := .int (k .integer "2")
def callToks : List Token := [k .identifier "minus"] ++ (k .parenOpen "(" :: ([k .integer "9"] ++ k .comma "," :: [k .integer "2"]) ++ [k .parenClose ")"])
def toks : List Token := (k .kwVar "var" :: k .identifier "x" :: k .assignment "=" :: callToks ++ [k .semicolon ";"]) ++ []
def prog : List Item := [.st (.decl (cs "x") (.call (k .parenOpen "(") (.var (k .identifier "minus")) (.cons e9 (.cons e2 .nil))))]

/-- They are what the tokenizer makes of the text. -/
example : Res.test (Tok.tokenize 32 (fun _ => 0) (cs "var x = minus(9, 2);" ++ [0]) (cs "f") VM.create) (fun r => r.1 = some toks) = true := by decide +kernel

theorem declared : ∃ s, createCFunction (cs "minus") (some 5) (createCompiler VM.create) = .ok ((), s) ∧ s.vm.errors = [] ∧
    ∃ s1 s2, compileTokens Sample.F toks s = .ok (true, s1) ∧ s1.vm.errors = [] ∧ partiallyFinalize s1 = .ok ((), s2) ∧
      s2.vm.gc.newObjCountdown = 256 ∧ s2.vm.functions = [⟨UINT_MAX, 0, 0⟩] ∧ s2.vm.extFuncs = [⟨cs "minus", some 5, 0, UINT_MAX, [], []⟩] ∧
      s.depth = 0 ∧ s.vm.limits = VM.create.limits ∧ s2.vm.statics.length = 4 ∧ s2.vm.statics[1]? = some (.fn 0) ∧ offOf s.ctx = 0 := by
  obtain ⟨⟨u, s⟩, h1, h2, h3⟩ := test_ok (r := createCFunction (cs "minus") (some 5) (createCompiler VM.create))
    (p := fun z => z.2.vm.errors = [] ∧ Res.test (compileTokens Sample.F toks z.2) (fun x => x.1 = true ∧ x.2.vm.errors = [] ∧
      Res.test (partiallyFinalize x.2) (fun y => y.2.vm.gc.newObjCountdown = 256 ∧ y.2.vm.functions = [⟨UINT_MAX, 0, 0⟩] ∧
        y.2.vm.extFuncs = [⟨cs "minus", some 5, 0, UINT_MAX, [], []⟩] ∧
        z.2.depth = 0 ∧ z.2.vm.limits = VM.create.limits ∧ y.2.vm.statics.length = 4 ∧ y.2.vm.statics[1]? = some (.fn 0) ∧ offOf z.2.ctx = 0) = true) = true) (by decide +kernel)
  obtain ⟨⟨r, s1⟩, g1, rfl, g2, g3⟩ := test_ok h3
  obtain ⟨⟨u, s2⟩, k1, k2⟩ := test_ok g3
  exact ⟨s, h1, h2, s1, s2, g1, g2, k1, k2⟩

theorem digit (t : String) : Expr 1 [k .integer t] (leafNode (k .integer t)) := ⟨.leaf [k .integer t] (leafNode (k .integer t)), trivial, atom 0 _ rfl, rfl, rfl⟩

theorem src : Prog Sample.F 20 toks prog := by
  refine .cons (.st (.decl (k := 2) rfl rfl rfl ?_ rfl (by decide))) .nil
  exact ⟨_, ⟨.leaf _ _, trivial, .none (.call (.primary (.atom _ rfl)) (fun _ => rfl) _ _ rfl rfl (.some (.cons (digit "9") (k .comma ",") rfl (.one (digit "2"))))), rfl, rfl⟩, rfl⟩

/-- The host declares `minus`; then the script runs, and `x`, whose place is 2, is 7. -/
example : ∃ s s1 s2 n vm, createCFunction (cs "minus") (some 5) (createCompiler VM.create) = .ok ((), s) ∧
    compileTokens Sample.F toks s = .ok (true, s1) ∧ partiallyFinalize s1 = .ok ((), s2) ∧
    executeProgram Sample.F host n s2.vm = .ok (some true, vm) ∧ vm.statics[2]? = some (num 7) := by
  obtain ⟨s, h1, h2, s1, s2, h3, h4, h5, h6, h7, h8, h9, h10, h11, h12, h13⟩ := declared
  obtain ⟨a1, -, a2, -, -, a3, -⟩ := C69_declare C68_start create_fn h1 h2
  obtain ⟨l, m1, m2⟩ := a1.here
  obtain rfl : l = [] := List.eq_nil_of_length_eq_zero (m2.trans h13)
  have sp : Space s.vm 100 := by rw [Space, h10]; exact ⟨8, by decide, by decide, by decide⟩
  have sz : offOf s.ctx + Items.size prog ≤ 100 := by rw [h13]; decide
  obtain ⟨good, x, -, -⟩ := script_core plain a1 src (by intro i hi; simp only [prog, List.mem_cons, List.not_mem_nil, or_false] at hi; subst hi; rfl)
    (by rw [h9]; decide) (by omega) (Space.mono sp sz) h3 rfl rfl rfl rfl h4 h5 m1
  rw [a2] at x
  have kept := C68_kept a1 h3 h5
  have isn : IsNative s2.vm 0 5 ⟨UINT_MAX, 0, 0⟩ ⟨cs "minus", some 5, 0, UINT_MAX, [], []⟩ :=
    ⟨by rw [h7]; rfl, by decide, by rw [h8]; rfl, rfl, fun h => absurd rfl h⟩
  have ho : s2.vm.objects.WF := by
    rw [kept.2.1, a3]
    exact create_inv.heap.tab
  have call := C69_call (F := Sample.F) (H := host) (l := []) (args := [num 9, num 2]) good ho isn ⟨.inl rfl, .inl rfl⟩ (by decide)
    (r := num 7) (W' := s2.vm) (fun p l vm m => ⟨vm, rfl, m⟩) (Keep.refl good.str)
  have means : Items.exec Sample.F host 0 ((envOf (createCompiler VM.create)).declare (cs "minus")) s.vm.functions.length prog [] s2.vm .normal []
      { s2.vm with statics := s2.vm.statics.set 2 (num 7) } := by
    refine .next (.val (v := num 7) (W1 := s2.vm) (l1 := []) (.call (l1 := []) (l2 := []) (W1 := s2.vm) (W2 := s2.vm) (x := .fn 0) (vs := [num 9, num 2]) (.glob (i := 1) _ rfl h12)
      (.cons (W1 := s2.vm) (l1 := [.fn 0]) (.int _) (.cons (W1 := s2.vm) (l1 := [.fn 0, num 9]) (.int _) .nil)) call) (.glob (n := 2) rfl (by omega))) .mk
  obtain ⟨n, vm, k1, ⟨v, m, k2, k3⟩, -, -⟩ := x [] _ means (by show s2.vm.gc.newObjCountdown ≠ 0; omega)
  refine ⟨s, s1, s2, n, vm, h1, h3, h5, k1, ?_⟩
  have : vm.statics = s2.vm.statics.set 2 (num 7) := by rw [k3]; exact k2.same.2.2.1
  rw [this, List.getElem?_set_self (by omega)]

/-- A machine with a native function that is declared to take one argument, of any type. -/
def one : VM := { VM.create with functions := [⟨UINT_MAX, 0, 0⟩], extFuncs := [⟨cs "minus", some 5, 0, 1, [5], [UINT_MAX]⟩] }

/-- A call with two arguments is refused. -/
example : Fails Sample.F host 18 [] (.fn 0 :: [num 9, num 2] ++ [.int (BitVec.ofNat 32 2)]) one := by
  have h := create_strWF
  exact C69_refused (cb := 5) (f := ⟨UINT_MAX, 0, 0⟩) (x := ⟨cs "minus", some 5, 0, 1, [5], [UINT_MAX]⟩) (args := [num 9, num 2])
    ⟨rfl, ⟨2, by decide, rfl⟩, rfl, ⟨1, by decide, rfl⟩, ⟨h.tab, h.blen, h.nodup, h.mem, h.hash, h.bucket, h.inj⟩⟩ create_inv.heap.tab
    ⟨rfl, by decide, rfl, rfl, fun _ => ⟨rfl, rfl⟩⟩ (by rintro ⟨-, h | ⟨h, -⟩⟩ <;> exact absurd h (by decide)) (by decide)

end NativeEx

end Nk.Props
