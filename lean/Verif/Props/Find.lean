import Verif.Spec.Find
import Verif.Props.Script
/-!
# C70: the host finds global variables by their names
-/
namespace Nk.Props
open Nk.Cc
variable {F : FloatOps} {H : Host}

/-! ### Nothing that runs changes the table -/

/-- The table is as in `a`. -/
def SameNames (a vm : VM) : Prop := vm.globals = a.globals ∧ vm.staticMask = a.staticMask

theorem names_frame (a : VM) : CoFrame (SameNames a) where
  err := fun v e h => h
  str := fun v t b _ h => h
  obj := fun v t h => h
  newo := fun v t n h => h
  ctx := fun v c c' _ _ _ _ h => h
  stat := fun v l h => h
  finish := fun v c i _ h => h
  popc := fun v c p _ _ h => h
  pushc := fun v k c _ _ _ h => h
  start := fun v c _ _ h => h
  newc := fun v c _ _ h => h
  free := fun v k h => h
  pass := fun v n h => h
  log := fun v l h => h

theorem tick_globals {vm : VM} : (tick vm).globals = vm.globals := by cases vm; rfl
theorem tick_smask {vm : VM} : (tick vm).staticMask = vm.staticMask := by cases vm; rfl
theorem charge_globals {vm : VM} : (charge vm).globals = vm.globals := by cases vm; rfl
theorem charge_smask {vm : VM} : (charge vm).staticMask = vm.staticMask := by cases vm; rfl

theorem iterate_names (hN : KeepsNames H) {vm vm' : VM} {u : Unit} (e : iterate F H vm = .ok (u, vm')) : SameNames vm vm' := by
  refine (iterate_pres (names_frame vm) (fun cb args => ⟨fun v a v' h e => ?_⟩) (fun v h => ?_) (fun v h => ?_)
      (fun v h => ?_) (fun v h => ?_)).run _ _ _ ⟨rfl, rfl⟩ e
  · have := hN cb args v a v' e
    exact ⟨this.1.trans h.1, this.2.trans h.2⟩
  · exact ⟨tick_globals.trans h.1, tick_smask.trans h.2⟩
  · exact ⟨charge_globals.trans h.1, charge_smask.trans h.2⟩
  · exact h
  · exact h

theorem execute_names (hN : KeepsNames H) : ∀ {n : Nat} {vm vm' : VM} {b : Option Bool}, executeProgram F H n vm = .ok (b, vm') → SameNames vm vm'
  | 0, vm, vm', b, e => by unfold executeProgram at e; cases e; exact ⟨rfl, rfl⟩
  | n + 1, vm, vm', b, e => by
    unfold executeProgram at e
    cases ha : atEnd vm with
    | ub k => rw [M.bind_ub ha] at e; cases e
    | ok x =>
      obtain ⟨f, v⟩ := x
      obtain ⟨rfl, -⟩ := atEnd_ok ha
      rw [M.bind_ok ha] at e
      cases f with
      | true => rw [if_pos rfl] at e; cases e; exact ⟨rfl, rfl⟩
      | false =>
        rw [if_neg (by decide)] at e
        cases hi : iterate F H v with
        | ub k => rw [M.bind_ub hi] at e; cases e
        | ok x =>
          obtain ⟨u, w⟩ := x
          have h1 := iterate_names hN hi
          rw [M.bind_ok hi, M.bind_ok (get_run _)] at e
          split at e
          · cases e; exact h1
          · have h2 := execute_names hN e
            exact ⟨h2.1.trans h1.1, h2.2.trans h1.2⟩

/-! ### What the table holds -/

theorem findIn_vars (mask : Nat) (y : Bytes) : ∀ vs : List CVar,
    findIn mask y (vs.map fun v => (v.name, v.position)) = (findVar y vs).map fun v => mask &&& v.position
  | [] => rfl
  | v :: vs => by
    rw [List.map_cons, findIn, findVar]
    split
    · rfl
    · exact findIn_vars mask y vs

theorem findCtx_one (y : Bytes) (c : CCtx) : findCtx y [c] = findVar y c.vars := by
  unfold findCtx
  cases findVar y c.vars <;> rfl

/-- The variable of a name, found in the outermost context. -/
theorem place_var {s : CS} {c : CCtx} (hc : s.ctx = [c]) (ht : Top (envOf s)) {m k : Nat} (hm : m + 1 = 2 ^ k) (hn : s.staticCount ≤ m + 1) (y : Bytes) :
    ((findVar y c.vars).map fun v => m &&& v.position) = (envOf s).place y ∧ ∀ i, (envOf s).place y = some i → i < m + 1 := by
  have hg : (envOf s).g = some s.staticCount := by unfold envOf; rw [hc]; rfl
  have hΓ : (envOf s).Γ y = (findVar y c.vars).map fun v => if v.isGlobal then .glob v.position else .loc v.position := by
    show placeOf s.ctx y = _
    unfold placeOf
    rw [hc, findCtx_one]
  have h1 := fun i => ht.glob y i
  have h2 := fun i h => ht.bound y i _ h hg
  unfold Env.place
  rw [hΓ] at h1 h2 ⊢
  cases hf : findVar y c.vars with
  | none => exact ⟨rfl, fun i h => by cases h⟩
  | some v =>
    rw [hf] at h1 h2
    cases hv : v.isGlobal with
    | false => exact absurd (by simp [hv]) (h1 v.position)
    | true =>
      have := h2 v.position (by simp [hv])
      simp only [Option.map_some, hv, if_true]
      exact ⟨by rw [Nat.and_comm, and_mask ⟨k, hm⟩ (by omega)], fun i e => by cases e; omega⟩

/-- Making ready writes the table of the outermost context. -/
theorem ready_names {s s' : CS} {c : CCtx} (wf : CodeWF s) (hc : s.ctx = [c]) (h : partiallyFinalize s = .ok ((), s')) :
    s'.vm.globals = c.vars.map fun v => (v.name, v.position) := by
  unfold partiallyFinalize at h
  rw [CM.cget_bind] at h
  rw [if_pos (by rw [hc]; exact Nat.le_refl 1)] at h
  obtain ⟨_, s1, h1, h2⟩ := CM.bind_inv h
  have hs1 : s1 = { s with vm := { s.vm with globals := c.vars.map fun v => (v.name, v.position) } } := by
    unfold generateGlobals at h1
    rw [CM.cget_bind, hc] at h1
    cases h1; rfl
  have wf1 : CodeWF s1 := by rw [hs1]; exact ⟨wf.pow, wf.len, wf.write, CodeWF.str' wf.str rfl rfl, wf.ctx⟩
  rw [CM.cget_bind] at h2
  obtain ⟨_, s2, h3, h4⟩ := CM.bind_inv h2
  obtain ⟨em, -, -, -⟩ := addInstr_inv wf1 h3
  have rest := em.rest
  have e4 : s' = { s2 with write := s1.write } := by cases h4; rfl
  rw [e4, rest, hs1]

/-- Reads of the table, after making ready. -/
theorem found_core {s s' : CS} {c : CCtx} (wf : CodeWF s) (hc : s.ctx = [c]) (ht : Top (envOf s)) (hp : ∃ k, k ≤ 31 ∧ s.vm.staticMask + 1 = 2 ^ k)
    (hn : s.staticCount ≤ s.vm.staticMask + 1) (h : partiallyFinalize s = .ok ((), s')) {vm : VM} (hg : SameNames s'.vm vm) (y : Bytes) :
    findGlobal y vm = (envOf s).place y ∧ ∀ i, (envOf s).place y = some i → i < s.vm.staticMask + 1 := by
  have e := ready_names wf hc h
  obtain ⟨_, _, _, _, e2, -⟩ := partiallyFinalize_inv wf h
  have hm : vm.staticMask = s.vm.staticMask := by rw [hg.2, e2]
  obtain ⟨k, -, hk⟩ := hp
  obtain ⟨h1, h2⟩ := place_var hc ht hk hn y
  refine ⟨?_, h2⟩
  unfold findGlobal
  rw [hg.1, e, hm, findIn_vars, h1]

/-! ### The theorems -/

section
variable {is : List Item} {d : Nat} {ts : List Token} {s s1 s2 : CS} {r : Bool}

/-- **C70**: once a VM has been made ready, the host finds the global variables that have been declared, by scripts or by the
host, and no others. -/
theorem C70_ready (h : AtRest s) (hf : partiallyFinalize s = .ok ((), s2)) (y : Bytes) :
    findGlobal y s2.vm = (envOf s).place y ∧ ∀ i, (envOf s).place y = some i → i < s2.vm.statics.length := by
  obtain ⟨c, hc, -⟩ := h.root
  obtain ⟨h1, h2⟩ := found_core h.pre.wf hc h.top h.spow h.count hf (vm := s2.vm) ⟨rfl, rfl⟩ y
  obtain ⟨_, _, _, _, e2, -⟩ := partiallyFinalize_inv h.pre.wf hf
  refine ⟨h1, fun i hi => ?_⟩
  rw [e2]
  show i < s.vm.statics.length
  rw [h.slen]
  exact h2 i hi

/-- **C70**: no execution, however it ends, changes which names are found, or where. -/
theorem C70_kept (hN : KeepsNames H) {n : Nat} {vm vm' : VM} {b : Option Bool} (e : executeProgram F H n vm = .ok (b, vm')) (y : Bytes) :
    findGlobal y vm' = findGlobal y vm := by
  have := execute_names hN e
  unfold findGlobal
  rw [this.1, this.2]

/-- **C70**: a script is compiled, made ready and executed as in C68, and ends with the machine `W`.  Then the host finds exactly
the variables the script and those before it have declared, and what it finds there is what the script has left. -/
theorem C70_found (hH : Plain H) (hN : KeepsNames H) (h : AtRest s) (src : Prog F d ts is) (fine : ∀ i ∈ is, i.Fine) (hd : s.depth + 1 + d ≤ 257)
    (hs : offOf s.ctx + Items.size is + 2 < 4294967296) (hsp : Space s.vm (offOf s.ctx + Items.size is))
    (hc : compileTokens F ts s = .ok (r, s1)) (he : s1.vm.errors = []) (hf : partiallyFinalize s1 = .ok ((), s2))
    {l : List Value} (hl : Mach s.vm s.write l s.vm) {l' : List Value} {W : VM}
    (hx : Items.exec F H 0 (envOf s) s.vm.functions.length is l s2.vm .normal l' W) (hg : W.gc.newObjCountdown ≠ 0) :
    ∃ n vm, executeProgram F H n s2.vm = .ok (some true, vm) ∧
      ∀ y, findGlobal y vm = (Items.bind (envOf s) is).place y ∧
        ∀ i, (Items.bind (envOf s) is).place y = some i → ∃ v, vm.statics[i]? = some v ∧ W.statics[i]? = some v := by
  obtain ⟨n, vm, k1, ⟨v, m, k2, k3⟩, k4, k5⟩ := (C68_run hH h src fine hd hs hsp hc he hf hl).1 l' W hx hg
  refine ⟨n, vm, k1, fun y => ?_⟩
  have hst : vm.statics = W.statics := by rw [k3]; exact k2.same.2.2.1
  obtain ⟨c, hc2, -⟩ := k4.root
  have hc2 : s2.ctx = [c] := hc2
  have env2 : envOf s2 = Items.bind (envOf s) is := k5
  obtain ⟨root, hctx, hroot⟩ := h.root
  obtain ⟨-, s0, s3, mv, post, w', v', c', x'⟩ := program_post F H src h.pre hctx hroot fine hd hs hc he
  have wf1 : CodeWF s1 := ⟨by rw [v']; exact post.pre.wf.pow, by rw [v']; exact post.pre.wf.len, by rw [v', w']; exact post.pre.wf.write,
    by rw [v']; exact post.pre.wf.str, by rw [x']; exact post.pre.wf.ctx⟩
  obtain ⟨_, _, _, _, e2, -⟩ := partiallyFinalize_inv wf1 hf
  have env1 : envOf s1 = envOf s2 := by rw [e2]; rfl
  have hc1 : s1.ctx = [c] := by rw [← hc2, e2]
  have held1 : Held s.vm s1 := (compileTokens_held (a := s.vm) F ts).run _ _ _ h.held hc
  obtain ⟨h1, h2⟩ := found_core wf1 hc1 (by rw [env1]; exact k4.top) held1.spow held1.count hf (execute_names hN k1) y
  rw [env1, env2] at h1 h2
  refine ⟨h1, fun i hi => ?_⟩
  have hlen : vm.statics.length = s1.vm.staticMask + 1 := by
    have := k4.slen
    have : vm.statics.length = vm.staticMask + 1 := this
    rw [this, (execute_names hN k1).2, e2]
  have : i < vm.statics.length := by rw [hlen]; exact h2 i hi
  exact ⟨vm.statics[i], List.getElem?_eq_getElem this, by rw [← hst]; exact List.getElem?_eq_getElem this⟩

/-- **C70**, partial: with the compiler, the host finds the variables that have been declared as soon as they are, and looking for
one of them changes nothing.  What is missing is that looking for any other name finds nothing and changes nothing either: the
code does not do that, see `C70_missing_violated`. -/
theorem C70_with_partial (h : AtRest s) {y : Bytes} {i : Nat} (hi : (envOf s).place y = some i) :
    findWith y s = .ok (some i, s) ∧ i < s.vm.statics.length := by
  obtain ⟨c, hc, -⟩ := h.root
  obtain ⟨k, -, hk⟩ := h.spow
  obtain ⟨h1, h2⟩ := place_var hc h.top hk h.count y
  rw [hi] at h1
  refine ⟨?_, by rw [h.slen]; exact h2 i hi⟩
  unfold findWith lookupVar
  rw [CM.bind_ok (a := findVar y c.vars) (s' := s) (by
    rw [CM.cget_bind, hc, findCtx_one]
    cases hv : findVar y c.vars with
    | none => rw [hv] at h1; cases h1
    | some v => rfl)]
  cases hv : findVar y c.vars with
  | none => rw [hv] at h1; cases h1
  | some v =>
    rw [hv] at h1
    dsimp only
    rw [CM.cget_bind, Nat.and_comm]
    have := Option.some.inj h1
    dsimp only at this
    rw [this]
    rfl

/-- **C70**: different names are different variables. -/
theorem C70_distinct (h : AtRest s) {y z : Bytes} {i : Nat} (hy : (envOf s).place y = some i) (hz : (envOf s).place z = some i) : y = z := by
  have key : ∀ x, (envOf s).place x = some i → (envOf s).Γ x = some (.glob i) := by
    intro x e
    unfold Env.place at e
    split at e
    · next h' => cases e; exact h'
    · cases e
  exact h.top.inj y z i (key y hy) (key z hz)

/-- **C70**: the host may store a value in a variable it has found.  The VM is as ready for the next script as before, names mean
what they did, and no other variable has changed. -/
theorem C70_set (h : AtRest s) {y : Bytes} {i : Nat} (hi : (envOf s).place y = some i) (v : Value) {s' : CS}
    (hs : s' = { s with vm := { s.vm with statics := s.vm.statics.set i v } }) :
    AtRest s' ∧ envOf s' = envOf s ∧ s'.vm.statics[i]? = some v ∧
      ∀ z j, (envOf s).place z = some j → z ≠ y → s'.vm.statics[j]? = s.vm.statics[j]? := by
  have hlt := (C70_with_partial h hi).2
  subst hs
  obtain ⟨l, m1, m2⟩ := h.here
  refine ⟨⟨⟨⟨h.pre.wf.pow, h.pre.wf.len, h.pre.wf.write, CodeWF.str' h.pre.wf.str rfl rfl, h.pre.wf.ctx⟩, h.pre.errs, h.pre.head, h.pre.loop, h.pre.ret, h.pre.stat⟩,
    h.root, h.top, by simpa using h.slen, h.spow, h.small, h.count, ⟨l, mach_self m1 rfl rfl, m2⟩, h.left⟩, rfl, List.getElem?_set_self hlt, fun z j hz hne => ?_⟩
  refine List.getElem?_set_ne fun e => hne ?_
  subst e
  exact C70_distinct h hz hi

/-- **C70** fails for names that have not been declared: looking for one with the compiler returns NULL, as documented, but also
records an error. -/
theorem C70_missing_violated (h : AtRest s) {y : Bytes} (hi : (envOf s).place y = none) :
    ∃ s', findWith y s = .ok (none, s') ∧ s'.vm.errors ≠ [] := by
  obtain ⟨c, hc, -⟩ := h.root
  obtain ⟨k, -, hk⟩ := h.spow
  obtain ⟨h1, -⟩ := place_var hc h.top hk h.count y
  rw [hi] at h1
  have hv : findVar y c.vars = none := by
    cases hv : findVar y c.vars with
    | none => rfl
    | some v => rw [hv] at h1; cases h1
  obtain ⟨s', e1, e2⟩ : ∃ s', err "Cannot find variable: " s = .ok ((), s') ∧ s'.vm.errors ≠ [] := by
    unfold err onVM addError
    refine ⟨_, rfl, ?_⟩
    simp [VM.addErr]
  refine ⟨s', ?_, e2⟩
  unfold findWith lookupVar
  rw [CM.bind_ok (a := none) (s' := s') (by
    rw [CM.cget_bind, hc, findCtx_one, hv]
    dsimp only
    rw [CM.bind_ok e1]; rfl)]
  rfl

end

/-! ### An example: the script `var x = 0; while(x < 2) { var y = 1; x = x + y; }` -/

namespace FindEx
open ScriptEx
open StmtEx (toks)

theorem names : KeepsNames Sample.H := fun _ _ _ _ _ e => by cases e; exact ⟨rfl, rfl⟩

/-- After it, the host finds 2 in `x`, and does not find `y`. -/
example : ∃ s1 s2 n vm, compileTokens Sample.F toks (createCompiler VM.create) = .ok (true, s1) ∧ partiallyFinalize s1 = .ok ((), s2) ∧
    executeProgram Sample.F Sample.H n s2.vm = .ok (some true, vm) ∧ findGlobal (cs "x") vm = some 0 ∧ vm.statics[0]? = some (num 2) ∧
    findGlobal (cs "y") vm = none := by
  obtain ⟨s1, s2, h1, h2, h3, h4, h5, h6, h7⟩ := compiled
  obtain ⟨l0, m0, m1⟩ := C68_start.here
  obtain rfl : l0 = [] := List.eq_nil_of_length_eq_zero m1
  have sp : Space VM.create 100 := ⟨8, by decide, by decide, by decide⟩
  have sz : offOf (createCompiler VM.create).ctx + Items.size prog ≤ 100 := by decide
  have hs : 0 < s2.vm.statics.length := (List.getElem?_eq_some_iff.mp ((C68_kept C68_start h1 h3).1 0 _ rfl)).1
  have good2 := (script_core plain C68_start src fine (by decide) (by decide) (Space.mono sp sz) h1 rfl rfl rfl rfl h2 h3 m0).1
  obtain ⟨n, vm, k1, k2⟩ := C70_found plain names C68_start src fine (by decide) (by decide) (Space.mono sp sz) h1 h2 h3 m0 (means good2 hs)
    (by show s2.vm.gc.newObjCountdown ≠ 0; omega)
  refine ⟨s1, s2, n, vm, h1, h3, k1, (k2 _).1, ?_, (k2 _).1⟩
  obtain ⟨v, e1, e2⟩ := (k2 (cs "x")).2 0 rfl
  rw [e1, ← e2]
  exact List.getElem?_set_self hs

/-- Compile the script, make it ready, do `m`, and execute it. -/
def after (m : CM Unit) : Res (Option Bool × VM) :=
  match (do let _ ← compileTokens Sample.F toks; partiallyFinalize; m) (createCompiler VM.create) with
  | .ok (_, s) => executeProgram Sample.F Sample.H 100 s.vm
  | .ub k => .ub k

/-- The script can be executed; but not once the host has looked for a variable `z`. -/
theorem C70_executed_violated : Res.test (after (pure ())) (fun x => x.1 = some true) = true ∧
    Res.test (after (do let _ ← findWith (cs "z"))) (fun x => x.1 = some false) = true := by
  constructor <;> decide +kernel

end FindEx
end Nk.Props
