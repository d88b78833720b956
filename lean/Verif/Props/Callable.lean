import Verif.Lemmas.Callable
import Verif.Props.Calls
/-!
# C31: callable objects
-/
namespace Nk.Props

variable (F : FloatOps) (H : Host)

/-- What these theorems need to know of the VM: it is in order (`Inv` holds in every reachable state, C25), the fields
of its objects are as C11 says for every history of the object operations (`OWF`), and the two names can be interned. -/
structure CallReady (vm : VM) : Prop where
  inv : Inv vm
  objects : ∀ id o, vm.objects.entry id = some o → OWF vm o
  names : NamesFit vm

theorem CallReady.ready {vm : VM} (h : CallReady vm) : Ready vm := ⟨h.inv.heap.str, h.inv.heap.tab, h.objects, h.names⟩

/-- The VM `vm'` is `vm` but for the stack of the current context, whose values are now `l`, and for strings that were
added: contexts, objects, functions, globals, errors and everything else are the same, and no string was changed. -/
def Same (vm vm' : VM) (c : Ctx) (s : Stack) (l : List Value) : Prop :=
  ∃ str buckets, vm' = { vm.setC { c with stack := s } with strings := str, sbuckets := buckets } ∧
    (∀ id e, vm.strings.entry id = some e → str.entry id = some e) ∧ vm'.Stk { c with stack := s } l


theorem Same.of {vm vm' : VM} {c : Ctx} {s : Stack} {l : List Value} (h : After vm c s vm')
    (hs : vm'.Stk { c with stack := s } l) : Same vm vm' c s l := by
  refine ⟨vm'.strings, vm'.sbuckets, ?_, h.ext.keep, hs⟩
  have := h.ext.frame
  rw [h.errs] at this
  exact this

/-- **C31**, an object that leads to a function: if following `_exec` fields, at most ten times, leads from the called
value to the function `id`, then the call is a call of that function with the values `ds` of the `_data` fields put
before the arguments, the one of the object nearest to the function first.
A script function is entered at its first instruction with exactly these arguments on the stack; when, in any later
state, it returns with its frame in place, execution goes on after the call, with `l` and the result on the stack.
A native function is called with exactly these arguments, and `l` and its result remain on the stack. -/
theorem C31_function {vm : VM} (h : CallReady vm) {c : Ctx} {l args ds : List Value} {fv : Value} {n : BitVec 32}
    {m id : Nat} {f : Func} (hs : vm.Stk c (l ++ [fv] ++ args ++ [.int n])) (hn : n.toNat = args.length)
    (hl : Leads vm m fv (.fn id) ds) (hm : m ≤ 10) (hr : RoomFor vm c.stack (ds.length + 1))
    (hip : c.ip < UINT_MAX) (hf : vm.functions[id]? = some f) (ha : f.argc = UINT_MAX ∨ f.argc = (ds ++ args).length) :
    ∃ s vm' n', Same vm vm' c s (l ++ [fv] ++ (ds ++ args) ++ [.int n']) ∧ n'.toNat = (ds ++ args).length ∧
      (f.extId = UINT_MAX → f.first < 4294967296 → ∃ s2,
        execute F H 18 vm = .ok ((), vm'.setC { c with stack := s2, ip := f.first }) ∧
        (vm'.setC { c with stack := s2, ip := f.first }).Stk { c with stack := s2, ip := f.first }
          (l ++ [fv] ++ (ds ++ args) ++ [.int n', .int (BitVec.ofNat 32 c.ip)])) ∧
      (∀ w d locals rv (k : BitVec 32), k.toNat = locals.length →
        w.Stk d (l ++ [fv] ++ (ds ++ args) ++ [.int n', .int (BitVec.ofNat 32 c.ip)] ++ locals ++ [rv, .int k]) →
        ∃ s3, execute F H 19 w = .ok ((), w.setC { d with stack := s3, ip := c.ip + 1 }) ∧
          (w.setC { d with stack := s3, ip := c.ip + 1 }).Stk { d with stack := s3, ip := c.ip + 1 } (l ++ [rv])) ∧
      (∀ x cb, f.extId ≠ UINT_MAX → vm.extFuncs[f.extId]? = some x → x.callback = some cb →
        ArgsFit vm x (ds ++ args) →
        (∀ k, H.call cb (ds ++ args) vm' = .ub k → dispatch F H 18 vm = .ub k) ∧
        (∀ r vm1 d, H.call cb (ds ++ args) vm' = .ok (r, vm1) →
          vm1.Stk d (l ++ [fv] ++ (ds ++ args) ++ [.int n']) →
          ∃ s, dispatch F H 18 vm = .ok ((), vm1.setC { d with stack := s }) ∧
            (vm1.setC { d with stack := s }).Stk { d with stack := s } (l ++ [r]))) := by
  have hR := h.ready
  obtain ⟨s, vm', n', a1, a2, a3, a4, a5, a6⟩ := resolve_room F m hl hR hm hs hn hr
  have hfr := a2.ext.frame
  have hf' : vm'.functions[id]? = some f := by rw [hfr]; exact hf
  have hd : dispatch F H 18 vm = callTarget H (some (some (.fn id), (ds ++ args).length)) vm' := by
    refine Eq.trans (opCall_resolve F H hs hn) ?_
    have : resolveCallable F (10 - m) (ds ++ args).length (.fn id) vm' = .ok (some (some (.fn id), (ds ++ args).length), vm') := by
      cases 10 - m <;> rfl
    rw [M.bind_ok (a1.trans this)]
  have hneg : ¬ (f.argc ≠ UINT_MAX ∧ f.argc ≠ (ds ++ args).length) := by
    rintro ⟨h1, h2⟩; rcases ha with h | h <;> contradiction
  refine ⟨s, vm', n', Same.of a2 a3, a4, fun hx hfi => ?_,
    fun w d locals rv k hk hd => returns F H hip a4 hk hd, fun x cb hx hx1 hcb hfit => ?_⟩
  · obtain ⟨s2, p1, p2, -⟩ := push_room a3 (a6.room a3.wf) (.int (BitVec.ofNat 32 c.ip))
    simp only [VM.setC_setC] at p1 p2
    have hop : dispatch F H 18 vm = .ok ((), vm'.setC { c with stack := s2, ip := usub f.first 1 }) := by
      rw [hd]
      unfold callTarget
      dsimp only
      rw [M.bind_ok (get_run vm'), hf']
      dsimp only
      rw [if_neg hneg, if_neg (fun h => h hx), M.bind_ok (curCtx_at a3.at_)]
      have e1 : pushInt (BitVec.ofNat 32 ({ c with stack := s } : Ctx).ip) vm' = .ok ((), vm'.setC { c with stack := s2 }) := p1
      rw [M.bind_ok e1, modCur_at p2.at_, VM.setC_setC]
    refine ⟨s2, ?_, ?_, p2.wf, by simpa using p2.used⟩
    · unfold execute
      rw [M.bind_ok hop, modCur_at (a3.at_.setC _), VM.setC_setC]
      have : u32 (usub f.first 1 + 1) = f.first := by unfold usub u32 U32; omega
      dsimp only
      rw [this]
    · exact a3.at_.setC _
  · have hx2 : vm'.extFuncs[f.extId]? = some x := by rw [hfr]; exact hx1
    have hfit' : ArgsFit vm' x (ds ++ args) := by
      rcases hfit with h1 | ⟨h1, h2⟩
      · exact .inl h1
      · refine .inr ⟨h1, fun i v hv => ?_⟩
        obtain ⟨t, g1, g2⟩ := h2 i v hv
        refine ⟨t, g1, g2.imp (fun h => h) fun g => ⟨g.1, fun e => ?_⟩⟩
        obtain ⟨y, o, k1, k2, k3⟩ := g.2 e
        exact ⟨y, o, k1, by rw [a2.ext.objects]; exact k2, k3⟩
    have hcall : dispatch F H 18 vm = (do
        let r ← H.call cb (ds ++ args)
        popN (u32 ((ds ++ args).length + 2))
        push r : M Unit) vm' := by
      rw [hd]
      unfold callTarget
      dsimp only
      rw [M.bind_ok (get_run vm'), hf']
      dsimp only
      rw [if_neg hneg, if_pos hx]
      exact native_run H a5.objs a3 hx2 hcb (h.inv.natives x (List.mem_of_getElem? hx1)) hfit'
    refine ⟨fun k hk => by rw [hcall, M.bind_ub hk], fun r vm1 d hr1 hd1 => ?_⟩
    obtain ⟨s3, q1, q2⟩ := native_return hd1 r
    exact ⟨s3, by rw [hcall, M.bind_ok hr1]; exact q1, q2⟩

/-- **C31**, everything else: if no function is reached by following `_exec` fields at most ten times, because the
chain is longer or cyclic, or ends at an object without that field, at an object that does not exist or at a value that
is not a function, then an error is recorded, and no function is entered or called (the outcome is the same for
every host, and the current context is where it was). -/
theorem C31_error {vm : VM} (h : CallReady vm) {c : Ctx} {l args : List Value} {fv : Value} {n : BitVec 32}
    (hs : vm.Stk c (l ++ [fv] ++ args ++ [.int n])) (hn : n.toNat = args.length) (hr : RoomFor vm c.stack 10)
    (hno : ∀ m id ds, Leads vm m fv (.fn id) ds → 10 < m) :
    ∃ vm' es e, (∀ H, dispatch F H 18 vm = .ok ((), vm')) ∧ (∃ s, vm'.At { c with stack := s }) ∧ vm'.errors = vm.errors ++ es ++ [e] ∧
      (e = "Too many callable object redirections." ∨
       e = "Tried to call something that is not a function id or a callable object.") := by
  have hR := h.ready
  obtain ⟨m, w, ds, hl, hm, hds, hw⟩ := leads_total vm 10 fv
  obtain ⟨s, vm', n', a1, a2, a3, a4, a5, a6⟩ := resolve_room F m (q := 10 - m) hl hR hm hs hn
    (hr.mono (by omega))
  have hc : ∀ H, dispatch F H 18 vm = (do
      let r ← resolveCallable F (10 - m) (ds ++ args).length w; callTarget H r : M Unit) vm' := by
    intro H
    refine Eq.trans (opCall_resolve F H hs hn) ?_
    simp only [M.bind_eq]
    rw [a1]
  have notfn : ∀ {o : Option Value} {k : Nat} {v : VM}, (∀ id, o ≠ some (.fn id)) → ∀ H, callTarget H (some (o, k)) v =
      .ok ((), v.addErr "Tried to call something that is not a function id or a callable object.") := by
    intro o k v ho H
    cases o with
    | none => rfl
    | some x =>
      cases x with
      | fn id => exact absurd rfl (ho id)
      | _ => rfl
  rcases hw with hw | ⟨id, rfl, hw⟩
  · have : resolveCallable F (10 - m) (ds ++ args).length w vm' = .ok (some (some w, (ds ++ args).length), vm') := by
      cases w with
      | obj id => exact absurd rfl (hw id)
      | _ => cases 10 - m <;> rfl
    refine ⟨vm'.addErr "Tried to call something that is not a function id or a callable object.", [], _, fun H => ?_,
      ⟨s, a3.at_⟩, ?_, .inr rfl⟩
    · rw [hc, M.bind_ok this]
      refine notfn (fun id e => ?_) H
      cases e
      have := hno m id ds hl
      omega
    · show vm'.errors ++ _ = _
      rw [a2.errs]; simp
  · by_cases h10 : m = 10
    · subst h10
      refine ⟨vm'.addErr "Too many callable object redirections.", [], _, fun H => ?_, ⟨s, a3.at_⟩, ?_, .inl rfl⟩
      · rw [hc, Nat.sub_self, resolveCallable, M.assoc, M.bind_ok (addError_run _ _)]
        rfl
      · show vm'.errors ++ _ = _
        rw [a2.errs]; simp
    · have hx : ∀ f, ¬ FieldIs vm' id (cs "_exec") f := by
        intro f hf
        refine (hw.resolve_left h10) f ?_
        have hsame : FieldIs (vm.setC { c with stack := s }) id (cs "_exec") f :=
          (FieldIs.ext a2.ext (hR.setC _).owf).mp hf
        exact hsame
      obtain ⟨r, hr'⟩ : ∃ r, 10 - m = r + 1 := ⟨9 - m, by omega⟩
      obtain ⟨k, v2, es, b1, b2, b3⟩ := resolve_stuck F (r := r) a5 a3 (a6.mono (by omega)) hx
      refine ⟨v2.addErr "Tried to call something that is not a function id or a callable object.", es, _, fun H => ?_,
        b3, ?_, .inr rfl⟩
      · rw [hc, hr', M.bind_ok b1]
        exact notfn (fun id e => by cases e) H
      · show v2.errors ++ _ = _
        rw [b2, a2.errs]

/-- The hypotheses are met by a VM with any program (here an endless loop) loaded. -/
example : CallReady (loaded [17, 4294967295] [.nil] Stack.init 0) := by
  have hi := C25_any_program (words := [17, 4294967295]) (globals := [.nil]) 0 (by simp) (by simp) Stack.init_wf
  have hno : ∀ id (o : Obj), (Table.init : Table Obj).entry id ≠ some o := by
    intro id o
    match id with
    | 0 => simp [Table.init, Table.entry]
    | 1 => simp [Table.init, Table.entry]
    | n + 2 => simp [Table.init, Table.entry]
  refine ⟨hi, fun id o h => absurd h (hno id o), .inr ⟨0, 1, by decide, by decide, by decide, rfl, rfl⟩⟩

/-- Objects 0, 1 and 2: 0 calls 1 with data 10, 1 calls function 0 (script, three arguments) with data 20; 2 calls
itself.  Then `v` is pushed, and called with the argument 30. -/
def callObjects (v : Value) : M Unit := do
  let (_, a) ← newObj
  let (_, b) ← newObj
  let (_, c) ← newObj
  let x ← findOrAddString (cs "_exec")
  let d ← findOrAddString (cs "_data")
  storeField Sample.F a (.str x) (.obj b)
  storeField Sample.F a (.str d) (.int 10)
  storeField Sample.F b (.str x) (.fn 0)
  storeField Sample.F b (.str d) (.int 20)
  storeField Sample.F c (.str x) (.obj c)
  push (.int 7)
  push v
  push (.int 30)
  push (.int 1)
  opCall Sample.F Sample.H

/-- The script function is entered with 20, 10 and 30, three arguments; calling the cyclic object, an object that does
not exist or an integer is an error. -/
example :
    ((callObjects (.obj 0)) { VM.create with functions := [{ argc := 3, first := 5, extId := UINT_MAX }] }).test (fun r =>
      (r.2.ctxs[0]?).join.map (fun c => (c.ip, c.stack.used)) =
        some (4, [.int 7, .obj 0, .int 20, .int 10, .int 30, .int 3, .int 0])) ∧
    ((callObjects (.obj 2)) VM.create).test (fun r => r.2.errors = ["Too many callable object redirections."]) ∧
    ((callObjects (.obj 3)) VM.create).test (fun r => r.2.errors.getLast? =
      some "Tried to call something that is not a function id or a callable object.") ∧
    ((callObjects (.int 3)) VM.create).test (fun r => r.2.errors =
      ["Tried to call something that is not a function id or a callable object."]) := by
  refine ⟨?_, ?_, ?_, ?_⟩ <;> decide +kernel

end Nk.Props
