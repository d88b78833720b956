import Verif.Lemmas.HostCall
import Verif.Props.Callable
/-!
# C32: calls from the host
-/
namespace Nk.Props

variable (F : FloatOps) (H : Host)

/-- **C32**, script functions: `l` is the stack of the current context `c` of `vm`, there is room for the call, and
the number of arguments is right.  The function is entered (in `v0`) with its arguments on the stack.  For every
execution of its body, of `k` instructions, that is about to return `rv` in the same context, with its frame still
there and some locals above it, if that return instruction records no error then `nkxVmCallFunction` delivers `rv`,
and leaves the stack at `l` and the instruction pointer where it was. -/
theorem C32_script {vm : VM} {c : Ctx} {l args : List Value} {id : Nat} {f : Func} (hs : vm.Stk c l)
    (he : vm.errors = []) (hr : RoomFor vm c.stack (args.length + 3)) (hf : vm.functions[id]? = some f)
    (hx : f.extId = UINT_MAX) (ha : f.argc = UINT_MAX ∨ f.argc = args.length) (hfi : f.first < 4294967296) :
    ∃ v0 frame s0, v0 = vm.setC { c with stack := s0, ip := f.first } ∧
      v0.Stk { c with stack := s0, ip := f.first } (l ++ [.fn id] ++ args ++ frame) ∧
      ∀ {k : Nat} {w w' : VM} {d : Ctx} {locals : List Value} {rv : Value} {n : BitVec 32}, Body F H v0 k w →
        w.errors = [] → w.cur = vm.cur → w.Stk d (l ++ [.fn id] ++ args ++ frame ++ locals ++ [rv, .int n]) →
        n.toNat = locals.length → d.ip ≠ UINT_MAX → w.instrs[d.ip &&& w.instrMask]? = some 19 →
        iterate F H w = .ok ((), w') → w'.errors = [] → ∀ fuel, k < fuel →
        ∃ vm' s, callFunction F H fuel (.fn id) args vm = .ok (.returned rv, vm') ∧ vm'.cur = vm.cur ∧
          vm'.errors = [] ∧ vm'.Stk { d with stack := s, ip := c.ip } l := by
  obtain ⟨s1, a1, a2, a3⟩ := callEnter_run F H (fv := .fn id) hs hr
  have hsm := a2.small
  simp only [List.length_append, List.length_cons, List.length_nil] at hsm
  have hlen : (BitVec.ofNat 32 args.length).toNat = args.length := by
    rw [BitVec.toNat_ofNat]; exact Nat.mod_eq_of_lt (by omega)
  obtain ⟨s2, p1, p2, -⟩ := push_room a2 ((a3.limits rfl).room (vm := vm.setC _) (k := 0) a2.wf)
    (.int (BitVec.ofNat 32 (UINT_MAX - 1)))
  simp only [VM.setC_setC] at p1 p2
  have hcall : opCall F H (vm.setC { c with stack := s1, ip := UINT_MAX - 1 }) =
      .ok ((), vm.setC { c with stack := s2, ip := usub f.first 1 }) := by
    rw [opCall_fn F H a2 hlen]
    have hf' : (vm.setC { c with stack := s1, ip := UINT_MAX - 1 }).functions[id]? = some f := hf
    rw [hf']
    dsimp only
    rw [if_neg (by rintro ⟨h1, h2⟩; rcases ha with h | h <;> contradiction), if_neg (fun h => h hx),
      M.bind_ok (curCtx_at a2.at_)]
    dsimp only
    have p1' : pushInt (BitVec.ofNat 32 (UINT_MAX - 1)) (vm.setC { c with stack := s1, ip := UINT_MAX - 1 }) = _ := p1
    rw [M.bind_ok p1', modCur_at p2.at_, VM.setC_setC]
  have hat : ∀ x : Ctx, (vm.setC x).At x := fun x => hs.at_.setC x
  have henter : callEnter F H (.fn id) args vm = .ok (true, vm.setC { c with stack := s2, ip := f.first }) := by
    rw [a1, M.bind_ok hcall, M.bind_ok (get_run _), if_neg (by rw [noErrors (vm := vm.setC _) he]; simp),
      M.bind_ok (modCur_at (hat _) _), VM.setC_setC]
    dsimp only
    rw [u32_usub_one hfi]
    rfl
  refine ⟨_, [.int (BitVec.ofNat 32 args.length), .int (BitVec.ofNat 32 (UINT_MAX - 1))], s2, rfl,
    ⟨hat _, p2.wf, by simpa using p2.used⟩, ?_⟩
  intro k w w' d locals rv n hb he1 hcur hst hn hip hw hit he2 fuel hfuel
  obtain ⟨v, v1, v2, v3⟩ := iterate_execute F H hst.at_ hw hit he2
  have v3' : execute F H 19 v = .ok ((), w') := v3
  have hv : v.At d := by
    rcases v2 with h | h
    · exact h
    · exfalso
      have h1 : curStack v = .ub .oob := by
        have : ctxAt v v.cur = .ub .oob := by unfold ctxAt; rw [h]
        have : curCtx v = .ub .oob := by unfold curCtx; rw [this]
        unfold curStack
        rw [M.bind_ub this]
      have : pop v = .ub .oob := by
        unfold pop
        rw [M.bind_ub h1]
      unfold execute at v3'
      have hd : dispatch F H 19 v = .ub .oob := by
        show opReturn v = _
        unfold opReturn
        rw [M.bind_ub this]
      rw [M.bind_ub hd] at v3'
      cases v3'
  obtain ⟨s3, g1, g2⟩ := returns F H (ip := UINT_MAX - 1) (by decide) hlen hn ⟨hv, hst.wf, hst.used⟩
  rw [v3'] at g1
  injection g1 with g1; injection g1 with _ g1
  subst g1
  obtain ⟨s4, q1, q2, -⟩ := pop_cons g2
  simp only [VM.setC_setC] at q1 q2
  refine ⟨v.setC { d with stack := s4, ip := c.ip }, s4, ?_, v1.trans hcur, he2, hv.setC _, q2.wf, q2.used⟩
  obtain ⟨j, rfl⟩ : ∃ j, fuel = k + (j + 1) := ⟨fuel - k - 1, by omega⟩
  unfold callFunction
  dsimp only
  rw [M.bind_ok (curCtx_at hs.at_), M.bind_ok henter, if_pos rfl]
  have hloop : callLoop F H (k + (j + 1)) (vm.setC { c with stack := s2, ip := f.first }) =
      .ok (true, v.setC { d with stack := s3, ip := UINT_MAX - 1 + 1 }) := by
    rw [hb.loop, callLoop, M.bind_ok (curCtx_at hst.at_), M.bind_ok (get_run _),
      if_neg (by rw [noErrors he1]; simp [hip]), M.bind_ok hit]
    cases j with
    | zero =>
      rw [callLoop, M.bind_ok (curCtx_at g2.at_), M.bind_ok (get_run _)]
      rfl
    | succ j =>
      rw [callLoop, M.bind_ok (curCtx_at g2.at_), M.bind_ok (get_run _), if_pos (.inl rfl)]
      rfl
  rw [M.bind_ok hloop, if_pos rfl, M.bind_ok q1, M.bind_ok (modCur_at q2.at_ _), VM.setC_setC]
  rfl

/-- **C32**, native functions: if the function, called with the arguments given, returns `r` without recording an error
and leaves the stack, the instruction pointer and the current context as it found them, then `nkxVmCallFunction`
delivers `r` and leaves the stack at `l` and the instruction pointer where it was.  The function is called exactly
once and no instruction is executed (`fuel` may be 0). -/
theorem C32_native {vm : VM} (hi : Inv vm) {c : Ctx} {l args : List Value} {id cb : Nat} {f : Func} {x : ExtFunc}
    (hs : vm.Stk c l) (hr : RoomFor vm c.stack (args.length + 3)) (hf : vm.functions[id]? = some f)
    (hx : f.extId ≠ UINT_MAX) (ha : f.argc = UINT_MAX ∨ f.argc = args.length) (hx1 : vm.extFuncs[f.extId]? = some x)
    (hcb : x.callback = some cb) (hfit : ArgsFit vm x args) :
    ∃ v0 s0 frame, v0 = vm.setC { c with stack := s0, ip := UINT_MAX - 1 } ∧
      v0.Stk { c with stack := s0, ip := UINT_MAX - 1 } (l ++ [.fn id] ++ args ++ frame) ∧
      ∀ {r : Value} {v1 : VM} {d : Ctx}, H.call cb args v0 = .ok (r, v1) → v1.errors = [] → v1.cur = vm.cur →
        v1.Stk d (l ++ [.fn id] ++ args ++ frame) → d.ip = UINT_MAX - 1 → ∀ fuel,
        ∃ vm' s, callFunction F H fuel (.fn id) args vm = .ok (.returned r, vm') ∧ vm'.cur = vm.cur ∧
          vm'.errors = [] ∧ vm'.Stk { d with stack := s, ip := c.ip } l := by
  obtain ⟨s1, a1, a2, a3⟩ := callEnter_run F H (fv := .fn id) hs hr
  have hsm := a2.small
  simp only [List.length_append, List.length_cons, List.length_nil] at hsm
  have hlen : (BitVec.ofNat 32 args.length).toNat = args.length := by
    rw [BitVec.toNat_ofNat]; exact Nat.mod_eq_of_lt (by omega)
  refine ⟨_, s1, _, rfl, a2, ?_⟩
  intro r v1 d hc he hcur hd hip fuel
  obtain ⟨s2, q1, q2⟩ := native_return hd r
  obtain ⟨s3, r1, r2, -⟩ := pop_cons (l := l) (v := r)
    (vm := v1.setC { d with stack := s2, ip := UINT_MAX }) (c := { d with stack := s2, ip := UINT_MAX })
    ⟨hd.at_.setC _, q2.wf, q2.used⟩
  simp only [VM.setC_setC] at r1 r2
  have hcall : opCall F H (vm.setC { c with stack := s1, ip := UINT_MAX - 1 }) = .ok ((), v1.setC { d with stack := s2 }) := by
    rw [opCall_fn F H a2 hlen]
    have hf' : (vm.setC { c with stack := s1, ip := UINT_MAX - 1 }).functions[id]? = some f := hf
    rw [hf']
    dsimp only
    rw [if_neg (by rintro ⟨h1, h2⟩; rcases ha with h | h <;> contradiction), if_pos hx,
      native_run (vm := vm.setC _) H hi.heap.tab a2 hx1 hcb (hi.natives x (List.mem_of_getElem? hx1)) hfit, M.bind_ok hc, q1]
  have henter : callEnter F H (.fn id) args vm = .ok (true, v1.setC { d with stack := s2, ip := UINT_MAX }) := by
    rw [a1, M.bind_ok hcall, M.bind_ok (get_run _), if_neg (by rw [noErrors (vm := v1.setC _) he]; simp),
      M.bind_ok (modCur_at (hd.at_.setC _) _), VM.setC_setC]
    dsimp only
    rw [hip]
    rfl
  have hat : (v1.setC { d with stack := s2, ip := UINT_MAX }).At { d with stack := s2, ip := UINT_MAX } := hd.at_.setC _
  have hloop : callLoop F H fuel (v1.setC { d with stack := s2, ip := UINT_MAX }) =
      .ok (true, v1.setC { d with stack := s2, ip := UINT_MAX }) := by
    cases fuel with
    | zero =>
      rw [callLoop, M.bind_ok (curCtx_at hat), M.bind_ok (get_run _)]
      rfl
    | succ j =>
      rw [callLoop, M.bind_ok (curCtx_at hat), M.bind_ok (get_run _), if_pos (.inl rfl)]
      rfl
  refine ⟨v1.setC { d with stack := s3, ip := c.ip }, s3, ?_, hcur, he, hd.at_.setC _, r2.wf, r2.used⟩
  unfold callFunction
  dsimp only
  rw [M.bind_ok (curCtx_at hs.at_), M.bind_ok henter, if_pos rfl, M.bind_ok hloop, if_pos rfl, M.bind_ok r1,
    M.bind_ok (modCur_at r2.at_ _), VM.setC_setC]
  rfl

/-- A value that is not a function: an error, and nothing else changes. -/
theorem C32_not_function {vm : VM} {fv : Value} (h : ∀ id, fv ≠ .fn id) (args : List Value) (fuel : Nat) :
    callFunction F H fuel fv args vm =
      .ok (.failed, vm.addErr "Tried to call a non-function with nkiVmCallFunction.") := by
  cases fv with
  | fn id => exact absurd rfl (h id)
  | _ => rfl

/-- A VM in which function 0 is a script function of one argument at instruction 2, which pushes 42 and returns it, and
function 1 a native function of one integer.  The instruction pointer, the stack and the collector's countdown are
given. -/
def hostCalls (ip : Nat) (s : List Value) (n : Nat) (g : Nat) : VM :=
  { loaded [0, 20, 7, 42, 7, 0, 19, 0] [.nil] ⟨s, n, 8, 7⟩ ip with
    gc := { VM.create.gc with countdown := g }
    functions := [{ argc := 1, first := 2, extId := UINT_MAX }, { argc := 1, first := UINT_MAX, extId := 0 }]
    extFuncs := [{ name := cs "f", callback := some 0, internalId := 1, argc := 1, argTypes := [0], argExtTypes := [UINT_MAX] }] }

theorem hostAt (ip : Nat) (s : List Value) (n g : Nat) :
    (hostCalls ip s n g).At { Ctx.init with state := .running, stack := ⟨s, n, 8, 7⟩, ip := ip } := rfl

/-- With 7 on the stack and the instruction pointer at 1, both functions called by the host with the argument 5. -/
example :
    (callFunction Sample.F Sample.H 3 (.fn 0) [.int 5] (hostCalls 1 [.int 7, .nil, .nil, .nil, .nil, .nil, .nil, .nil] 1 9)) =
      .ok (.returned (.int 42), hostCalls 1 [.int 7, .int 42, .int 5, .int 1, .int 4294967294, .int 42, .int 0, .nil] 1 6) ∧
    (callFunction Sample.F Sample.H 0 (.fn 1) [.int 5] (hostCalls 1 [.int 7, .nil, .nil, .nil, .nil, .nil, .nil, .nil] 1 9)).test
      (fun r => r.1 = .returned (.int 5) ∧
        (r.2.ctxs[0]?).join.map (fun c => (c.ip, c.stack.used)) = some (1, [.int 7])) := by
  refine ⟨?_, ?_⟩
  · have h1 : callEnter Sample.F Sample.H (.fn 0) [.int 5] (hostCalls 1 [.int 7, .nil, .nil, .nil, .nil, .nil, .nil, .nil] 1 9) =
        .ok (true, hostCalls 2 [.int 7, .fn 0, .int 5, .int 1, .int 4294967294, .nil, .nil, .nil] 5 9) := by decide +kernel
    have h2 : iterate Sample.F Sample.H (hostCalls 2 [.int 7, .fn 0, .int 5, .int 1, .int 4294967294, .nil, .nil, .nil] 5 9) =
        .ok ((), hostCalls 4 [.int 7, .fn 0, .int 5, .int 1, .int 4294967294, .int 42, .nil, .nil] 6 8) := by decide +kernel
    have h3 : iterate Sample.F Sample.H (hostCalls 4 [.int 7, .fn 0, .int 5, .int 1, .int 4294967294, .int 42, .nil, .nil] 6 8) =
        .ok ((), hostCalls 6 [.int 7, .fn 0, .int 5, .int 1, .int 4294967294, .int 42, .int 0, .nil] 7 7) := by decide +kernel
    have h4 : iterate Sample.F Sample.H (hostCalls 6 [.int 7, .fn 0, .int 5, .int 1, .int 4294967294, .int 42, .int 0, .nil] 7 7) =
        .ok ((), hostCalls UINT_MAX [.int 7, .int 42, .int 5, .int 1, .int 4294967294, .int 42, .int 0, .nil] 2 6) := by
      decide +kernel
    have e : ∀ {ip s n g}, ip ≠ UINT_MAX → ∀ k, callLoop Sample.F Sample.H (k + 1) (hostCalls ip s n g) =
        (do iterate Sample.F Sample.H; callLoop Sample.F Sample.H k : M Bool) (hostCalls ip s n g) := by
      intro ip s n g hip k
      rw [callLoop, M.bind_ok (curCtx_at (hostAt ip s n g)),
        M.bind_ok (get_run _), if_neg]
      rintro (h | h)
      · exact hip h
      · cases h
    have hl : callLoop Sample.F Sample.H 3 (hostCalls 2 [.int 7, .fn 0, .int 5, .int 1, .int 4294967294, .nil, .nil, .nil] 5 9) =
        .ok (true, hostCalls UINT_MAX [.int 7, .int 42, .int 5, .int 1, .int 4294967294, .int 42, .int 0, .nil] 2 6) := by
      rw [e (by decide), M.bind_ok h2, e (by decide), M.bind_ok h3, e (by decide), M.bind_ok h4]
      decide +kernel
    unfold callFunction
    dsimp only
    rw [M.bind_ok (curCtx_at (hostAt _ _ _ _)),
      M.bind_ok h1, if_pos rfl, M.bind_ok hl]
    decide +kernel
  · decide +kernel

end Nk.Props
