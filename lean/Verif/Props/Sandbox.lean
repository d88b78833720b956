import Verif.Lemmas.Coroutine
import Verif.Props.GC
/-!
# C25 and C33: execution of arbitrary bytecode

`Run F H vm vm'`: `vm'` is reached from `vm` by executing any number of instructions.  The only restriction
is on the number of garbage collections: the pass number has 32 bits and must not wrap (see C16).
-/
namespace Nk.Props

variable (F : FloatOps) (H : Host)

/-- `vm'` is reached from `vm` by executing instructions. -/
inductive Run (vm : VM) : VM → Prop
  | refl : Run vm vm
  | step {v v' : VM} : Run vm v → v.gc.lastGCPass + 2 < 4294967296 → iterate F H v = .ok ((), v') → Run vm v'

/-- A new VM loaded with arbitrary bytecode, global variables, stack contents and instruction pointer. -/
def loaded (words : List (BitVec 32)) (globals : List Value) (s : Stack) (ip : Nat) : VM :=
  { VM.create with
    instrs := words, instrMask := words.length - 1
    statics := globals, staticMask := globals.length - 1
    ctxs := [some { Ctx.init with state := .running, stack := s, ip := ip }] }

theorem create_inv : Inv VM.create := by
  have hno : ∀ id (o : Obj), (Table.init : Table Obj).entry id ≠ some o := by
    intro id o
    match id with
    | 0 => simp [Table.init, Table.entry]
    | 1 => simp [Table.init, Table.entry]
    | n + 2 => simp [Table.init, Table.entry]
  refine ⟨create_heapWF, rfl, ?_, ?_, .inr ?_⟩
  · intro id o h; exact absurd h (hno id o)
  · intro f hf; exact absurd hf List.not_mem_nil
  · intro id o h; exact absurd h (hno id o)

/-- Any bytecode, any instruction pointer and any operands may be put into a VM. -/
theorem C25_any_program {words : List (BitVec 32)} {globals : List Value} {s : Stack} (ip : Nat)
    (hw : words ≠ []) (hg : globals ≠ []) (hs : s.WF) : Inv (loaded words globals s ip) := by
  have hw' : 0 < words.length := List.length_pos_iff.mpr hw
  have hg' : 0 < globals.length := List.length_pos_iff.mpr hg
  have h0 : I 0 VM.create := ⟨create_inv, rfl⟩
  have h1 := h0.setC (c := { Ctx.init with state := .running })
    (c' := { Ctx.init with state := .running, stack := s, ip := ip }) rfl hs rfl rfl
  have h2 := h1.inv
  refine ⟨⟨⟨h2.heap.str.tab, h2.heap.str.blen, h2.heap.str.nodup, h2.heap.str.mem, h2.heap.str.hash,
    h2.heap.str.bucket, h2.heap.str.inj⟩, h2.heap.tab, h2.heap.co.of_eq rfl rfl rfl rfl rfl, ?_, h2.heap.handles,
    h2.heap.passO, h2.heap.passS⟩, ?_, h2.buckets, h2.natives, h2.sizes⟩
  · show globals.length = globals.length - 1 + 1
    omega
  · show words.length = words.length - 1 + 1
    omega

/-- The data structures are in order after any number of instructions of any program. -/
theorem run_inv {K : UB → Prop} (hH : HostOK H K) {vm vm' : VM} (h : Inv vm) (r : Run F H vm vm') : Inv vm' := by
  induction r with
  | refl => exact h
  | step _ hp hi ih =>
    have := iterate_safe (B := fun _ => True) F H hH (fun _ _ => trivial) ih trivial trivial (fun _ => trivial) hp
    unfold Safe at this
    rw [hi] at this
    exact this

/-- **C25.** After any number of instructions of any program, started in any state that is in order, the next
instruction (whatever it is) neither reads nor writes outside the instruction array, the global variables, the
stack, the tables and the objects in them: it leaves a state that is in order or ends in one of the `Allowed`
ways, none of which is an access out of bounds (`oob`), through a null pointer or a division trap unless a native
function does it. -/
theorem C25_memory_safe {K : UB → Prop} (hH : HostOK H K) {vm vm' : VM} (h : Inv vm) (r : Run F H vm vm')
    (hp : vm'.gc.lastGCPass + 2 < 4294967296) :
    match iterate F H vm' with
    | .ok (_, w) => Inv w
    | .ub k => Allowed K vm' k := by
  have := iterate_safe (B := Allowed K vm') F H hH (fun k hk => .inr (.inr (.inl hk))) (run_inv F H hH h r) (.inl rfl)
    (.inr (.inl rfl)) (fun ha => .inr (.inr (.inr ⟨rfl, ha⟩))) hp
  unfold Safe at this
  split <;> rename_i e <;> rw [e] at this <;> exact this

/-- **C25**, the negative form: no memory error of the interpreter's own making. -/
theorem C25_no_out_of_bounds {K : UB → Prop} (hH : HostOK H K) (hK : ∀ k, K k → k = .longjmp) {vm vm' : VM} (h : Inv vm)
    (r : Run F H vm vm') (hp : vm'.gc.lastGCPass + 2 < 4294967296) :
    iterate F H vm' ≠ .ub .oob ∧ iterate F H vm' ≠ .ub .null ∧ iterate F H vm' ≠ .ub .div ∧
      iterate F H vm' ≠ .ub .fuel := by
  have := C25_memory_safe F H hH h r hp
  refine ⟨?_, ?_, ?_, ?_⟩ <;> intro e <;> rw [e] at this <;>
    rcases this with h | h | h | ⟨h, _⟩ <;> first | cases h; done | cases hK _ h; done

/-- The contract of native functions can be met: the sample host meets it without exceptions. -/
example : HostOK Sample.H (fun _ => False) := fun _ _ _ h _ => h

/-- A program of seven garbage words with operands that are far out of range, an instruction pointer that is out
of range, and a stack holding unknown tags: a state in order, and it runs. -/
example :
    let vm := loaded [13, 14, 15, 16, 18, 0xFFFFFFFF, 0x80000000, 13] [.int 7]
      ⟨[.bad 9 5, .int 0xFFFFFF00], 2, 2, 1⟩ 0xFFFFFFFF
    Inv vm ∧ (iterate Sample.F Sample.H vm).test (fun r => r.2.errors = [] ∧ (r.2.ctxs[0]?).join.map (·.ip) = some 0) := by
  refine ⟨C25_any_program _ (by simp) (by simp) ⟨⟨1, by decide, rfl⟩, rfl, rfl, by decide⟩, ?_⟩
  decide +kernel

/-! ## C33 -/

/-- **C33**, first part: at all times the running coroutine and those waiting for it form a finite list without
repetition, each element resumed by the next, that starts with the running one and ends with the main program;
nothing else is waiting. -/
theorem C33_chain {K : UB → Prop} (hH : HostOK H K) {vm vm' : VM} (h : Inv vm) (r : Run F H vm vm') :
    ∃ l : List Nat, l.Nodup ∧ l.head? = some vm'.cur ∧ l.getLast? = some 0 ∧
      (∀ (n i j : Nat), l[n]? = some i → l[n + 1]? = some j →
        ∃ c, vm'.ctxs[i]? = some (some c) ∧ c.parent = some j) ∧
      (∀ i, Active vm' i ↔ i ∈ l) ∧
      (∃ c, vm'.ctxs[0]? = some (some c) ∧ c.parent = none) ∧
      (∀ (i : Nat) (c : Ctx), vm'.ctxs[i]? = some (some c) → c.parent ≠ none → i ∈ l) := by
  have hco := (run_inv F H hH h r).heap.co
  obtain ⟨l, a1, a2, a3, a4, a5⟩ := hco.chain
  obtain ⟨c0, r1, r2, _⟩ := hco.root
  refine ⟨l, a1, a2, a3, a4, ?_, ⟨c0, r1, r2⟩, a5⟩
  intro i
  constructor
  · intro ha
    induction ha with
    | cur => exact List.mem_of_head? a2
    | @resumer i p c _ hc hp ih =>
      obtain ⟨m, hm⟩ := List.getElem?_of_mem ih
      cases hn : l[m + 1]? with
      | some j =>
        obtain ⟨d, d1, d2⟩ := a4 m i j hm hn
        rw [hc] at d1; cases d1
        rw [hp] at d2; cases d2
        exact List.mem_of_getElem? hn
      | none =>
        have h1 := (List.getElem?_eq_some_iff.mp hm).1
        have h2 := List.getElem?_eq_none_iff.mp hn
        rw [List.getLast?_eq_getElem?, show l.length - 1 = m by omega, hm] at a3
        cases a3
        rw [hc] at r1; cases r1
        rw [r2] at hp; cases hp
  · intro hi
    obtain ⟨m, hm⟩ := List.getElem?_of_mem hi
    induction m generalizing i with
    | zero =>
      rw [← List.head?_eq_getElem?, a2] at hm; cases hm
      exact .cur
    | succ m ih =>
      have hlt : m < l.length := by have := (List.getElem?_eq_some_iff.mp hm).1; omega
      obtain ⟨d, d1, d2⟩ := a4 m l[m] i (List.getElem?_eq_getElem hlt) hm
      exact .resumer (ih _ (List.getElem_mem hlt) (List.getElem?_eq_getElem hlt)) d1 d2

/-- **C33**, second part: resuming a coroutine that is running or waiting is refused with an error, takes the
two operands off the stack and changes nothing else. -/
theorem C33_active_not_resumed {vm : VM} (h : Inv vm) {c x : Ctx} {l : List Value} {id k : Nat} {o : Obj} {v : Value}
    (hs : vm.Stk c (l ++ [.obj id, v])) (he : vm.objects.entry id = some o) (ht : o.extType = vm.coType)
    (hd : o.extData = some k) (hk : vm.ctxs[k]? = some (some x)) (ha : Active vm k)
    (hst : x.state = .created ∨ x.state = .running) :
    ∃ s', dispatch F H 40 vm =
        .ok ((), (vm.setC { c with stack := s' }).addErr "Tried to recursively resume an active coroutine.") ∧
      (vm.setC { c with stack := s' }).Stk { c with stack := s' } l := by
  obtain ⟨k', x', e1, e2, e3, _⟩ := h.heap.co.own id o he ht
  rw [hd] at e1; cases e1
  rw [hk] at e3; cases e3
  obtain ⟨p, hp⟩ := h.heap.co.active_parent ha e2 hk
  obtain ⟨s, h1, h2, _, _⟩ := opResume_found hs h.heap.tab he ht hd
  refine ⟨s, Eq.trans h1 ?_, h2⟩
  unfold resumeCtx
  rw [M.bind_ok (get_run _), ctxAt_iff.mpr (setC_ctx hs.at_ hk), M.bind_ok (liftR_ok _ _)]
  by_cases hkc : k = vm.cur
  · subst hkc
    have := hs.at_
    unfold VM.At at this
    rw [hk] at this; cases this
    rw [if_pos rfl]
    rcases hst with e | e <;> simp only [e, hp] <;> rfl
  · rw [if_neg hkc]
    rcases hst with e | e <;> simp only [e, hp] <;> rfl

/-- **C33**, third part: the main program cannot yield. -/
theorem C33_root_cannot_yield {vm : VM} (h : vm.cur = 0) :
    dispatch F H 39 vm = .ok ((), vm.addErr "Tried to yield from the root execution context.") := by
  show opYield vm = _
  unfold opYield
  rw [M.bind_ok (get_run _), if_pos h]
  rfl

end Nk.Props
