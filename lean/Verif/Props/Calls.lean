import Verif.Lemmas.Calls
import Verif.Props.Exec
/-!
# C29, C30: calls and returns, native functions
-/
namespace Nk.Props

variable (F : FloatOps) (H : Host)

/-! ## C29 -/

theorem returns {ip : Nat} (hip : ip < UINT_MAX) {l args : List Value} {fv : Value} {n : BitVec 32}
    (hn : n.toNat = args.length) {vm' : VM} {d : Ctx} {locals : List Value} {rv : Value} {k : BitVec 32}
    (hk : k.toNat = locals.length)
    (hd : vm'.Stk d (l ++ [fv] ++ args ++ [.int n, .int (BitVec.ofNat 32 ip)] ++ locals ++ [rv, .int k])) :
    ∃ s, execute F H 19 vm' = .ok ((), vm'.setC { d with stack := s, ip := ip + 1 }) ∧
      (vm'.setC { d with stack := s, ip := ip + 1 }).Stk { d with stack := s, ip := ip + 1 } (l ++ [rv]) := by
  obtain ⟨s1, g1, g2, g3⟩ := opReturn_frame hd hn hk
  have hra : (BitVec.ofNat 32 ip).toNat = ip := by
    rw [BitVec.toNat_ofNat]; unfold UINT_MAX at hip; omega
  rw [hra, if_neg (by omega)] at g1
  obtain ⟨s2, p1, p2, -⟩ := push_room g2 (Or.inl g3) rv
  simp only [VM.setC_setC] at p1 p2
  have hop : dispatch F H 19 vm' = .ok ((), vm'.setC { d with stack := s2, ip := ip }) := by
    refine Eq.trans g1 ?_
    rw [M.bind_ok p1, modCur_at p2.at_, VM.setC_setC]
  refine ⟨s2, ?_, hd.at_.setC _, p2.wf, p2.used⟩
  unfold execute
  rw [M.bind_ok hop, modCur_at (hd.at_.setC _), VM.setC_setC]
  have : u32 (ip + 1) = ip + 1 := u32_id (by unfold UINT_MAX at hip; omega)
  dsimp only
  rw [this]

/-- **C29**, call and return: the caller, about to execute a call (at `c.ip`) of a script function, has `l` on its
stack below the function and its arguments.  The call goes to the first instruction of the function with the caller's
return position on the stack.  Whatever the body then does (`vm'` is any later state), when it executes its return
with its own frame still in place, some locals, a result and the number of locals on top of it, the stack is `l` and
the result, and the next instruction is the one after the call; nothing else of the state changes. -/
theorem C29_call_return {vm : VM} {c : Ctx} {l args : List Value} {id : Nat} {n : BitVec 32} {f : Func}
    (hs : vm.Stk c (l ++ [.fn id] ++ args ++ [.int n])) (hn : n.toNat = args.length)
    (hf : vm.functions[id]? = some f) (he : f.extId = UINT_MAX) (ha : f.argc = UINT_MAX ∨ f.argc = args.length)
    (hr : Room vm c.stack) (hfi : f.first < 4294967296) (hip : c.ip < UINT_MAX) :
    ∃ frame : List Value,
      (∃ s, execute F H 18 vm = .ok ((), vm.setC { c with stack := s, ip := f.first }) ∧
        (vm.setC { c with stack := s, ip := f.first }).Stk { c with stack := s, ip := f.first } frame) ∧
      ∀ {vm' : VM} {d : Ctx} {locals : List Value} {rv : Value} {k : BitVec 32}, k.toNat = locals.length →
        vm'.Stk d (frame ++ locals ++ [rv, .int k]) →
        ∃ s, execute F H 19 vm' = .ok ((), vm'.setC { d with stack := s, ip := c.ip + 1 }) ∧
          (vm'.setC { d with stack := s, ip := c.ip + 1 }).Stk { d with stack := s, ip := c.ip + 1 } (l ++ [rv]) := by
  obtain ⟨s, h1, h2⟩ := call_script F H hs hn hf he ha hr hfi
  refine ⟨_, ⟨s, h1, h2⟩, ?_⟩
  intro vm' d locals rv k hk hd
  exact returns F H hip hn hk hd

/-- **C29**, a call with the wrong number of arguments is refused: an error is recorded and nothing else changes. -/
theorem C29_wrong_count {vm : VM} {c : Ctx} {l args : List Value} {id : Nat} {n : BitVec 32} {f : Func}
    (hs : vm.Stk c (l ++ [.fn id] ++ args ++ [.int n])) (hn : n.toNat = args.length)
    (hf : vm.functions[id]? = some f) (ha : f.argc ≠ UINT_MAX ∧ f.argc ≠ args.length) :
    dispatch F H 18 vm = .ok ((), vm.addErr "Incorrect argument count for function call.") := by
  refine Eq.trans (opCall_fn F H hs hn) ?_
  rw [hf]
  dsimp only
  rw [if_pos ha]
  rfl

/-- A VM in the middle of an expression: 7 and 8 belong to the caller, function 0 is about to be called with the
arguments 1 and 2; the call is instruction 3, the function starts at instruction 5. -/
def calling (s : Stack) (ip : Nat) : VM :=
  { loaded [0, 0, 0, 18, 20, 19, 0, 0] [.nil] s ip with functions := [{ argc := 2, first := 5, extId := UINT_MAX }] }

/-- The hypotheses of `C29_call_return` at a concrete call, and that call and the return (with one local, 9, and the
result 42) executed. -/
example :
    let s : Stack := ⟨[.int 7, .int 8, .fn 0, .int 1, .int 2, .int 2, .nil, .nil], 6, 8, 7⟩
    (calling s 3).Stk { Ctx.init with state := .running, stack := s, ip := 3 }
      ([.int 7, .int 8] ++ [.fn 0] ++ [.int 1, .int 2] ++ [.int 2]) ∧ Room (calling s 3) s ∧
    (execute Sample.F Sample.H 18 (calling s 3)).test (fun r =>
      (r.2.ctxs[0]?).join.map (fun c => (c.ip, c.stack.used)) =
        some (5, [.int 7, .int 8, .fn 0, .int 1, .int 2, .int 2, .int 3])) ∧
    (execute Sample.F Sample.H 19 (calling ⟨[.int 7, .int 8, .fn 0, .int 1, .int 2, .int 2, .int 3, .int 9, .int 42,
        .int 1, .nil, .nil, .nil, .nil, .nil, .nil], 10, 16, 15⟩ 5)).test (fun r =>
      (r.2.ctxs[0]?).join.map (fun c => (c.ip, c.stack.used)) = some (4, [.int 7, .int 8, .int 42])) := by
  refine ⟨⟨rfl, ⟨⟨3, by decide, rfl⟩, rfl, rfl, by decide⟩, rfl⟩, .inl (by decide), ?_, ?_⟩ <;> decide +kernel

/-! ## C30 -/

/-- **C30**, for all programs and all states: what a native function would do with arguments other than those declared
for it has no influence on execution.  `H` and `H'` may differ arbitrarily on such calls; as they execute every
instruction alike, no such call is made. -/
theorem C30_only_declared {H H' : Host} (hm : H.mark = H'.mark)
    (hc : ∀ cb args vm, Admissible vm cb args → H.call cb args vm = H'.call cb args vm) (vm : VM) :
    iterate F H vm = iterate F H' vm :=
  iterate_agree F ⟨hc, hm⟩ vm

/-- **C30**, whole executions. -/
theorem C30_only_declared_run {H H' : Host} (hm : H.mark = H'.mark)
    (hc : ∀ cb args vm, Admissible vm cb args → H.call cb args vm = H'.call cb args vm) {vm vm' : VM}
    (r : Run F H vm vm') : Run F H' vm vm' := by
  induction r with
  | refl => exact .refl
  | step _ hp hi ih => exact .step ih hp (by rw [← C30_only_declared F hm hc]; exact hi)

theorem refused_core {vm : VM} (ho : vm.objects.WF) {c : Ctx} {l args : List Value} {id cb : Nat} {n : BitVec 32} {f : Func}
    {x : ExtFunc} (hs : vm.Stk c (l ++ [.fn id] ++ args ++ [.int n])) (hn : n.toNat = args.length)
    (hf : vm.functions[id]? = some f) (he : f.extId ≠ UINT_MAX) (hx : vm.extFuncs[f.extId]? = some x)
    (hcb : x.callback = some cb) (hnat : x.argc ≠ UINT_MAX → x.argTypes.length = x.argc ∧ x.argExtTypes.length = x.argc)
    (hbad : ¬ ArgsFit vm x args) :
    ∃ e, ∀ H, dispatch F H 18 vm = .ok ((), vm.addErr e) := by
  by_cases ha : f.argc ≠ UINT_MAX ∧ f.argc ≠ args.length
  · exact ⟨_, fun H => C29_wrong_count F H hs hn hf ha⟩
  have hx1 : x.argc ≠ UINT_MAX := fun h => hbad (.inl h)
  have key : ∀ {e : String}, (∀ H, callNative H f.extId args.length vm = .ok ((), vm.addErr e)) →
      ∃ e, ∀ H, dispatch F H 18 vm = .ok ((), vm.addErr e) := by
    intro e hc
    refine ⟨e, fun H => Eq.trans (opCall_fn F H hs hn) ?_⟩
    rw [hf]
    dsimp only
    rw [if_neg ha, if_pos he]
    exact hc H
  by_cases hx2 : x.argc ≠ args.length
  · refine key (e := "Tried to call an external function with an incorrect number of arguments.") fun H => ?_
    rw [callNative_run H hs hx hcb, if_pos hx1, if_pos hx2]
    rfl
  · obtain ⟨n1, n2⟩ := hnat hx1
    have hlen : x.argc = args.length := not_not.mp hx2
    rcases checkArgs_run ho (f := x) (args := args) (i := 0) (by omega) (by omega) with ⟨g1, _⟩ | ⟨_, e, g2⟩
    · refine absurd (.inr ⟨hlen.symm, fun i v hi => ?_⟩) hbad
      have := g1 i v hi
      rwa [Nat.zero_add] at this
    · refine key (e := e) fun H => ?_
      rw [callNative_run H hs hx hcb, if_pos hx1, if_neg hx2, M.bind_ok g2]
      rfl

/-- **C30**, a call with other arguments than declared: an error is recorded and nothing else changes; in particular
no native function is called, as the result is the same for every host. -/
theorem C30_refused {vm : VM} (h : Inv vm) {c : Ctx} {l args : List Value} {id cb : Nat} {n : BitVec 32} {f : Func}
    {x : ExtFunc} (hs : vm.Stk c (l ++ [.fn id] ++ args ++ [.int n])) (hn : n.toNat = args.length)
    (hf : vm.functions[id]? = some f) (he : f.extId ≠ UINT_MAX) (hx : vm.extFuncs[f.extId]? = some x)
    (hcb : x.callback = some cb) (hbad : ¬ ArgsFit vm x args) :
    ∃ e, ∀ H, dispatch F H 18 vm = .ok ((), vm.addErr e) :=
  refused_core F h.heap.tab hs hn hf he hx hcb (h.natives x (List.mem_of_getElem? hx)) hbad

/-- **C30**, a call with the declared arguments: the native function is called once, with exactly the values on the
stack, in order; if it returns `r` and leaves the stack as it found it, the function and the arguments are replaced
by `r`. -/
theorem C30_called {vm : VM} (h : Inv vm) {c : Ctx} {l args : List Value} {id cb : Nat} {n : BitVec 32} {f : Func}
    {x : ExtFunc} (hs : vm.Stk c (l ++ [.fn id] ++ args ++ [.int n])) (hn : n.toNat = args.length)
    (hf : vm.functions[id]? = some f) (ha : f.argc = UINT_MAX ∨ f.argc = args.length) (he : f.extId ≠ UINT_MAX)
    (hx : vm.extFuncs[f.extId]? = some x) (hcb : x.callback = some cb) (hfit : ArgsFit vm x args) :
    (∀ k, H.call cb args vm = .ub k → dispatch F H 18 vm = .ub k) ∧
    (∀ r vm1 d, H.call cb args vm = .ok (r, vm1) → vm1.Stk d (l ++ [.fn id] ++ args ++ [.int n]) →
      ∃ s, dispatch F H 18 vm = .ok ((), vm1.setC { d with stack := s }) ∧
        (vm1.setC { d with stack := s }).Stk { d with stack := s } (l ++ [r])) := by
  have hcall : dispatch F H 18 vm = (do
        let r ← H.call cb args
        popN (u32 (args.length + 2))
        push r : M Unit) vm := by
    refine Eq.trans (opCall_fn F H hs hn) ?_
    rw [hf]
    dsimp only
    rw [if_neg (by rintro ⟨h1, h2⟩; rcases ha with h | h <;> contradiction), if_pos he, callNative_run H hs hx hcb]
    by_cases hx1 : x.argc ≠ UINT_MAX
    · rcases hfit with h1 | ⟨h1, h2⟩
      · exact absurd h1 hx1
      · obtain ⟨n1, n2⟩ := h.natives x (List.mem_of_getElem? hx) hx1
        rw [if_pos hx1, if_neg (fun h => h h1.symm)]
        rcases checkArgs_run h.heap.tab (f := x) (args := args) (i := 0) (by omega) (by omega) with ⟨_, g2⟩ | ⟨g1, _⟩
        · rw [M.bind_ok g2, if_pos rfl]
        · exact absurd (fun j v hj => by have := h2 j v hj; rwa [Nat.zero_add]) g1
    · rw [if_neg hx1]
      rfl
  constructor
  · intro k hk
    rw [hcall, M.bind_ub hk]
  · intro r vm1 d hr hd
    have hsm := hd.small
    simp only [List.length_append, List.length_cons, List.length_nil] at hsm
    have hd' : vm1.Stk d (l ++ ([.fn id] ++ args ++ [.int n])) := by simpa using hd
    obtain ⟨s, p1, p2⟩ := popN_app hd'
    have hlen : ([Value.fn id] ++ args ++ [Value.int n]).length = u32 (args.length + 2) := by
      rw [u32_id (by omega)]; simp
    rw [hlen] at p1
    have hroom : s.size < s.cap ∨ (s.cap ≤ 65535 ∧ s.cap * 2 ≤ (vm1.setC { d with stack := s }).limits.maxStackSize) := by
      left
      have e1 := (popN_ok hd' (n := u32 (args.length + 2)) (by rw [← hlen]; simp)).1
      rw [p1] at e1
      have e2 : s = { d.stack with size := d.stack.size - u32 (args.length + 2) } := by
        have := congrArg (fun r : Res (Unit × VM) => match r with
          | .ok (_, v) => (v.ctxs[vm1.cur]?).join.map (fun d : Ctx => d.stack)
          | .ub _ => none) e1
        simp only [VM.setC, List.getElem?_set_self hd.at_.lt, Option.join] at this
        simpa using this
      have e3 := hd.size
      have e4 := hd.wf.size
      rw [e2]
      simp only [List.length_append, List.length_cons, List.length_nil] at e3
      show d.stack.size - _ < d.stack.cap
      rw [u32_id (by omega)]
      omega
    obtain ⟨s2, q1, q2, -⟩ := push_room p2 hroom r
    simp only [VM.setC_setC] at q1 q2
    refine ⟨s2, ?_, q2⟩
    rw [hcall, M.bind_ok hr, M.bind_ok p1, q1]

/-- A VM with a native function 0 (callback 3) taking an integer and an object of external type 0, called with `s`. -/
def nativeCall (s : Stack) : VM :=
  { loaded [18, 20] [.nil] s 0 with
    functions := [{ argc := 2, first := UINT_MAX, extId := 0 }]
    extFuncs := [{ name := cs "f", callback := some 3, internalId := 0, argc := 2, argTypes := [0, 4], argExtTypes := [UINT_MAX, 0] }] }

/-- Called with a string instead of an integer it is refused; called with a nil instead of an object too. -/
example :
    ¬ ArgsFit (nativeCall Stack.init) { name := cs "f", callback := some 3, internalId := 0, argc := 2, argTypes := [0, 4], argExtTypes := [UINT_MAX, 0] }
      [.str 0, .obj 0] ∧
    (dispatch Sample.F Sample.H 18 (nativeCall ⟨[.fn 0, .str 0, .obj 0, .int 2], 4, 4, 3⟩)).test (fun r => r.2.errors =
      ["Incorrect argument type in call to external function."]) ∧
    (dispatch Sample.F Sample.H 18 (nativeCall ⟨[.fn 0, .int 0, .nil, .int 2], 4, 4, 3⟩)).test (fun r => r.2.errors =
      ["Incorrect argument type in call to external function."]) := by
  refine ⟨?_, ?_, ?_⟩
  · rintro (h | ⟨_, h⟩)
    · exact absurd h (by decide)
    · obtain ⟨t, h1, h2⟩ := h 0 (.str 0) rfl
      cases h1
      rcases h2 with h2 | ⟨h2, _⟩ <;> cases h2
  · decide +kernel
  · decide +kernel

end Nk.Props
