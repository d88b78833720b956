import Verif.Lemmas.Repl
import Verif.Props.Life
import Verif.Props.Session
import Verif.Props.Coroutine
/-!
# C75: an interactive session goes on after an error
-/
namespace Nk.Props
open Nk.Spec Nk.Cc

variable {F : FloatOps} {H : Host}

/-- **C75**, the VM: in every state that is in order, clearing the errors of an interactive session gives up what was being executed and changes
nothing else (`Cleared`), if the place it is told to go on at is one of the program. -/
theorem C75_clears {vm : VM} (h : Nk.Inv vm) {ip : Nat} (hip : ip < vm.instrs.length) :
    ∃ vm', clearReplErrors ip vm = .ok ((), vm') ∧ Cleared ip vm vm' := clearReplErrors_run h.heap.co hip

/-- C75, the place is not checked: otherwise the END instruction is written outside of the code. -/
theorem C75_place_violated {vm : VM} {ip : Nat} (hip : vm.instrs.length ≤ ip) : clearReplErrors ip vm = .ub .oob :=
  M.bind_ub (if_neg (by omega))

/-- **C75**, coroutines: one that was running or waiting is given up .. -/
theorem C75_given_up {ip : Nat} {vm vm' : VM} (h : Nk.Inv vm) (k : Cleared ip vm vm') {i : Nat} (hi : i ≠ 0) (ha : Active vm i) :
    ∃ c, c.state = .invalid ∧ vm'.ctxs[i]? = some (some c) ∧ Gone i c vm' := by
  obtain ⟨c, h1, h2, -⟩ := k.given_up i hi ha
  refine ⟨c, h2, h1, by rw [k.cur]; exact fun e => hi e.symm, fun j d hd hp => ?_, .inl h1⟩
  by_cases hj : Active vm j
  · by_cases h0 : j = 0
    · subst h0
      obtain ⟨c0, e, _, _, _, e', _⟩ := k.main
      rw [hd] at e; cases e
      rw [hp] at e'; cases e'
    · obtain ⟨c0, e, _, _, _, e'⟩ := k.given_up j h0 hj
      rw [hd] at e; cases e
      rw [hp] at e'; cases e'
  · rw [k.others j hj] at hd
    obtain ⟨l, hl, -, hm⟩ := Save.CoWF.path h.heap.co
    exact hj ((active_iff hl j).2 (hm j d hd (by rw [hp]; simp)))

/-- .. for good, whatever is executed afterwards .. -/
theorem C75_forever (hH : KeepsInvalid H) {vm vm' : VM} {k : Nat} {c : Ctx} (hf : c.state = .invalid) (h : Gone k c vm) (r : Run F H vm vm') :
    Gone k c vm' := by
  induction r with
  | refl => exact h
  | step _ _ e ih => exact (iterate_gone (fun cb args => ⟨fun vm a vm' h e => hH k c cb args vm a vm' hf h e⟩) (.inr hf)).run _ _ _ ih e

/-- .. and to resume it is an error. -/
theorem C75_resume {w : VM} (hw : w.objects.WF) {c x : Ctx} {l : List Value} {id k : Nat} {v : Value} (hs : w.Stk c (l ++ [.obj id, v]))
    (hc : IsCoroutine w id k) (hk : w.ctxs[k]? = some (some x)) (hf : x.state = .invalid) (hg : Gone k x w) :
    ∃ s, execute F H 40 w = .ok ((), (w.setC { c with stack := s, ip := u32 (c.ip + 1) }).addErr "Tried to resume an invalid coroutine.") := by
  obtain ⟨o, he, ht, hd⟩ := hc
  obtain ⟨s, h1, -⟩ := opResume_found hs hw he ht hd
  refine ⟨s, ?_⟩
  have h4 : resumeCtx k v (w.setC { c with stack := s }) = .ok ((), (w.setC { c with stack := s }).addErr "Tried to resume an invalid coroutine.") := by
    unfold resumeCtx
    rw [M.bind_ok (get_run _)]
    have : ctxAt (w.setC { c with stack := s }) k = .ok x := by
      unfold ctxAt VM.setC
      rw [List.getElem?_set_ne hg.notCur, hk]
    rw [this, M.bind_ok (liftR_ok _ _), hf]
    rfl
  have h1 : dispatch F H 40 w = _ := h1.trans h4
  unfold execute
  rw [M.bind_ok h1]
  have : ((w.setC { c with stack := s }).addErr "Tried to resume an invalid coroutine.").At { c with stack := s } := hs.at_.setC _
  rw [modCur_at this]
  unfold VM.setC VM.addErr
  simp only [List.set_set]

/-- **C75**, the program: a compiler is used for whatever the host wants (`After`), such as compiling a text with mistakes in it, or one that
fails when it is run, and then the errors are cleared and it is told to go back.  This works, the program is the one from before, word by word, with END
behind it, and execution has ended there. -/
theorem C75_program {s s' : CS} (h : Session F s) (a : Cc.After F s s') (hi : Nk.Inv s'.vm) :
    ∃ t, clearRepl s.write s' = .ok ((), t) ∧ Cleared s.write s'.vm t.vm ∧ t.write = s.write ∧
      (∀ i, i < s.write → t.vm.instrs[i]? = s.vm.instrs[i]?) ∧ t.vm.instrs[s.write]? = some 20#32 ∧
      Shape t.vm.instrs (s.write + 1) ∧ (∀ f ∈ s.vm.functions, Entry t.vm.instrs s.write f.first) ∧
      atEnd t.vm = .ok (true, t.vm) := by
  have ia := (Cc.After.inv h.idle (Z := Base.kept _) ⟨Nat.le_refl _, rfl⟩ (h.idle.kept _) a).2
  have hw := ia.wf.write
  have hl : s.write ≤ s'.write := ia.low
  have hlen := ia.wf.len
  have hip : s.write < s'.vm.instrs.length := by omega
  obtain ⟨vm', e, k⟩ := C75_clears hi hip
  have hb : ∀ i, i < s.write → vm'.instrs[i]? = s.vm.instrs[i]? := fun i hi => by
    rw [k.code, List.getElem?_set_ne (by omega)]; exact ia.base i hi
  have h20 : vm'.instrs[s.write]? = some 20#32 := by rw [k.code]; simp [hip]
  refine ⟨{ s' with write := s.write, vm := vm' }, ?_, k, rfl, hb, h20, ?_, fun f hf => (h.idle.inv.fns f hf).below hb, ?_⟩
  · show onVM (clearReplErrors s.write) { s' with write := s.write } = _
    unfold onVM
    rw [e]
  · exact (h.idle.inv.shape.plain hb h20 (by decide) (by unfold IsJump opOf; decide) (by decide)).1
  · obtain ⟨c, hc, hcip, -⟩ := k.main
    have hat : vm'.At c := by unfold VM.At; rw [k.cur]; exact hc
    have hm : vm'.instrMask = s'.vm.instrMask := by rw [k.rest]
    obtain ⟨n, -, hpow⟩ := ia.wf.pow
    show atEnd vm' = _
    unfold atEnd
    rw [M.bind_ok (curCtx_at hat), M.bind_ok (get_run _), hcip]
    have : s.write &&& vm'.instrMask = s.write := by
      rw [hm, show s'.vm.instrMask = 2 ^ n - 1 by omega, Nat.and_two_pow_sub_one_eq_mod]
      exact Nat.mod_eq_of_lt (by omega)
    unfold instrAt
    rw [this, h20]
    rfl

/-! ## The VM stays in order -/

/-- If no coroutine was running and no assignment was refused, the VM is in order after its errors were cleared. -/
theorem cleared_inv {ip : Nat} {vm vm' : VM} (h : Nk.Inv vm) (k : Cleared ip vm vm') (hm : vm.cur = 0) (hr : refusal ∉ vm.errors) : Nk.Inv vm' := by
  obtain ⟨l, hl, -, hall⟩ := Save.CoWF.path h.heap.co
  obtain ⟨c0, r1, r2, r3⟩ := h.heap.co.root
  have hl0 : l = [] := by
    rw [hm] at hl
    cases hl with
    | root _ _ _ => rfl
    | next e hp _ => rw [r1] at e; cases e; rw [r2] at hp; cases hp
  subst hl0
  have hoth : ∀ i, i ≠ 0 → vm'.ctxs[i]? = vm.ctxs[i]? := fun i hi => k.others i fun ha => hi (by
    have := (active_iff hl i).1 ha
    rw [hm, List.mem_singleton] at this; exact this)
  obtain ⟨c, m1, m2, m3, m4, m5, m6⟩ := k.main
  have f := k.rest
  have o1 : vm'.objects = vm.objects := by rw [f]
  have o2 : vm'.coType = vm.coType := by rw [f]
  have o3 : vm'.extTypes = vm.extTypes := by rw [f]
  have o4 : vm'.strings = vm.strings := by rw [f]
  have o5 : vm'.sbuckets = vm.sbuckets := by rw [f]
  have o6 : vm'.statics = vm.statics := by rw [f]
  have o7 : vm'.staticMask = vm.staticMask := by rw [f]
  have o8 : vm'.handles = vm.handles := by rw [f]
  have o9 : vm'.gc = vm.gc := by rw [f]
  have o10 : vm'.instrMask = vm.instrMask := by rw [f]
  have o11 : vm'.extFuncs = vm.extFuncs := by rw [f]
  refine ⟨⟨?_, by rw [o1]; exact h.heap.tab, ⟨⟨c, m1, m5, m6⟩, fun i d hd => ?_, fun id o he ht => ?_, fun i d hi hd => ?_, ⟨[0], ?_⟩, ?_⟩, by rw [o6, o7]; exact h.heap.statics,
    by rw [o8, o1]; exact h.heap.handles, by rw [o1, o9]; exact h.heap.passO, by rw [o4, o9]; exact h.heap.passS⟩,
    by rw [k.code, o10, List.length_set]; exact h.instrs, by rw [o1]; exact h.buckets, by rw [o11]; exact h.natives, .inr ?_⟩
  · obtain ⟨a, b, c, d, e, f, g⟩ := h.heap.str
    refine ⟨?_, ?_, ?_, ?_, ?_, ?_, ?_⟩ <;> simp only [o4, o5] <;> assumption
  · by_cases hi : i = 0
    · subst hi; rw [m1] at hd; cases hd; exact m4
    · exact h.heap.co.stack i d ((hoth i hi).symm.trans hd)
  · obtain ⟨i, d, h1, h2, h3, h4⟩ := h.heap.co.own id o (by rw [← o1]; exact he) (by rw [← o2]; exact ht)
    exact ⟨i, d, h1, h2, (hoth i h2).trans h3, h4⟩
  · obtain ⟨id, o, h1, h2, h3, h4⟩ := h.heap.co.owned i d hi ((hoth i hi).symm.trans hd)
    exact ⟨id, o, h1, by rw [o1]; exact h2, by rw [o2]; exact h3, h4⟩
  · refine ⟨by simp, by rw [k.cur]; rfl, rfl, fun n i j h1 h2 => (by simp at h2), fun i d hd hp => ?_⟩
    by_cases hi : i = 0
    · subst hi; rw [m1] at hd; cases hd; exact absurd m5 hp
    · have := hall i d ((hoth i hi).symm.trans hd) hp
      rw [hm] at this; exact this
  · rw [o3, o2]; exact h.heap.co.type
  · rcases h.sizes with h0 | h0
    · exact absurd h0 hr
    · unfold SizesOK; rw [o1]; exact h0

variable (F H) in
/-- An interactive session: a compiler is created, and then anything happens (`Later`); from time to time errors are cleared, and the program is
the one from before again.  When they are, no coroutine is running, no assignment was refused (C13) and no script function was
declared since then. -/
inductive Interactive : CS → Prop
  | start : Interactive (createCompiler VM.create)
  | more {s s' : CS} (h : Interactive s) (l : Later F H s s') : Interactive s'
  | clear {s s' t : CS} (h : Interactive s) (l : Later F H s s') (hm : s'.vm.cur = 0) (hr : refusal ∉ s'.vm.errors)
      (hf : ∀ f ∈ s'.vm.functions, f ∈ s.vm.functions ∨ f.first = 0) (r : clearRepl s.write s' = .ok ((), t)) : Interactive t

/-- Everything that can happen later is something a host can do with a compiler. -/
theorem Later.after {K : UB → Prop} (hH : HostOK H K) (hC : NoCompiling H) {a s : CS} (h : Later F H a s) (ha : Tidy a.vm) : Cc.After F a s := by
  induction h with
  | now => exact .refl
  | tokens h ht r ih => exact ih.step (.tokens ht r)
  | script h r ih => exact ih.step (.script r)
  | global h r ih => exact ih.step (.global r)
  | native h r ih => exact ih.step (.native r)
  | finish h r ih => exact ih.step (.finish r)
  | run h r ih =>
    have c := run_same hC r
    exact ih.step (.run ⟨c.instrs, c.mask, c.fns, (run_inv F H hH (h.tidy hH hC ha).inv r).heap.str, c.kept⟩)
  | host h hi c ih => exact ih.step (.run ⟨c.instrs, c.mask, c.fns, hi.heap.str, c.kept⟩)

theorem Interactive.both {K : UB → Prop} (hH : HostOK H K) (hC : NoCompiling H) {s : CS} (h : Interactive F H s) : Tidy s.vm ∧ Session F s := by
  induction h with
  | start => exact ⟨create_tidy, .start ⟨rfl, rfl, fun f hf => (by cases hf), create_strWF⟩⟩
  | more _ l ih => exact ⟨l.tidy hH hC ih.1, ih.2.after (l.after hH hC ih.1)⟩
  | @clear s s' t _ l hm hr hf r ih =>
    have ht := l.tidy hH hC ih.1
    have ha := l.after hH hC ih.1
    obtain ⟨e, et⟩ := clearRepl_frame r
    obtain ⟨hip, ev⟩ := clearReplErrors_frame e
    obtain ⟨v, e', k⟩ := C75_clears ht.inv hip
    rw [e] at e'; cases e'
    exact ⟨⟨cleared_inv ht.inv k hm hr, by rw [k.rest]; exact ht.stat, by rw [k.rest]; exact ht.code⟩, ih.2.clear ha hf r⟩

/-- **C75**, what holds: throughout such a session the VM is in order, so that C25 and all others that ask for it apply to running the program .. -/
theorem C75_in_order_partial {K : UB → Prop} (hH : HostOK H K) (hC : NoCompiling H) {s : CS} (h : Interactive F H s) : Nk.Inv s.vm := (h.both hH hC).1.inv

/-- .. and the compiler as well, so that C49, C53, C63 and C64 apply to the next text, and the program is well formed.  Partial: in general lines
that fail may have declared functions, or stop within a coroutine or after a refused assignment (`C75_violated`). -/
theorem C75_session_partial {K : UB → Prop} (hH : HostOK H K) (hC : NoCompiling H) {s : CS} (h : Interactive F H s) : Session F s := (h.both hH hC).2

/-! ## What is wrong -/

namespace ReplEx

/-- Lines typed into the interpreter, and the errors after each. -/
def typed : List String → CM (List (List String))
  | [] => pure []
  | l :: ls => do
    let e ← replLine Sample.F Sample.H 32 (fun _ => 0) 200 (cs l ++ [0])
    return e :: (← typed ls)

/-- The first line declares a variable; the second one a function, and fails after calling it, with 7 in `z`; the third one is compiled to where
the function was. -/
def lines : List String := ["var z = 0;", "function f() { return 7; } z = f(); z();", "z = 1; z = 2; z = 3; z = 4; z = 5;"]

end ReplEx
open ReplEx

/-- C75 is false as stated: a function that was declared by a line that failed can still be called, but its code has been replaced.
After these lines `f` (in the second global variable) is a function; it starts in the middle of an instruction of the third line .. -/
theorem C75_violated : ∃ e s, typed lines (createCompiler VM.create) = .ok (e, s) ∧ e.map List.length = [0, 1, 0] ∧ s.vm.errors = [] ∧
    s.vm.statics = [.int 5, .fn 0] ∧ s.vm.functions.map (·.first) = [15] ∧ ¬ Starts s.vm.instrs 15 := by
  have h : Res.test (typed lines (createCompiler VM.create)) (fun r => r.1.map List.length = [0, 1, 0] ∧ r.2.vm.errors = [] ∧
    r.2.vm.statics = [.int 5, .fn 0] ∧ r.2.vm.functions.map (·.first) = [15] ∧ r.2.vm.instrs.take 16 = [7, 0, 7, 0, 15, 11, 7, 1, 7, 0, 15, 11, 7, 2, 7, 0]) = true := by
    decide +kernel
  cases hx : typed lines (createCompiler VM.create) with
  | ub k => rw [hx] at h; cases h
  | ok r =>
    obtain ⟨e, s⟩ := r
    rw [hx] at h
    obtain ⟨h1, h2, h3, h4, h5⟩ := of_decide_eq_true h
    refine ⟨e, s, rfl, h1, h2, h3, h4, fun hs => ?_⟩
    have g : ∀ i, i < 16 → s.vm.instrs[i]? = ([7, 0, 7, 0, 15, 11, 7, 1, 7, 0, 15, 11, 7, 2, 7, 0] : List (BitVec 32))[i]? := fun i hi => by
      rw [← List.getElem?_take_of_lt hi, h5]
    have s2 := Starts.first.after (k := 2) (g 0 (by decide)) (by decide)
    have s4 := s2.after (k := 2) (g 2 (by decide)) (by decide)
    have s5 := s4.after (k := 1) (g 4 (by decide)) (by decide)
    have s6 := s5.after (k := 1) (g 5 (by decide)) (by decide)
    have s8 := s6.after (k := 2) (g 6 (by decide)) (by decide)
    have s10 := s8.after (k := 2) (g 8 (by decide)) (by decide)
    have s11 := s10.after (k := 1) (g 10 (by decide)) (by decide)
    have s12 := s11.after (k := 1) (g 11 (by decide)) (by decide)
    have s14 := s12.after (k := 2) (g 12 (by decide)) (by decide)
    have := hs.gap 15 s14 (g 14 (by decide)) (by decide)
    revert this
    decide

/-- .. and calling it does not give 7, but fails, after overwriting the variable `f`. -/
theorem C75_violated_call : Res.test (typed (lines ++ ["z = f();"]) (createCompiler VM.create)) (fun r => r.1.map List.length = [0, 1, 0, 1] ∧
    r.2.vm.statics = [.int 5, .int 0]) = true := by
  decide +kernel

/-- A line with a closing brace too many, and clearing the errors after it. -/
def braceLine (F : FloatOps) : CM Unit := do
  let s ← cget
  let _ ← compileTokens F [⟨.curlyClose, cs "}", 1, 0, 0⟩]
  clearRepl s.write

/-- Some of them. -/
def braceLines (F : FloatOps) : Nat → CM Unit
  | 0 => pure ()
  | n + 1 => do
    braceLines F n
    braceLine F

theorem braceLine_run {s : CS} (h : CoWF s.vm) (hw : s.write < s.vm.instrs.length) (hd : s.depth ≤ 256) (hm : s.vm.cur = 0) :
    ∃ t, braceLine F s = .ok ((), t) ∧ t.depth = s.depth + 1 ∧ t.vm.errors = [] ∧ t.write = s.write ∧ Cleared s.write (s.vm.addErr "Extra closing curly brace.") t.vm := by
  have e1 : compileTokens F [⟨.curlyClose, cs "}", 1, 0, 0⟩] s =
      .ok (false, { s with toks := [], line := 0, file := UINT_MAX, depth := s.depth + 1, vm := s.vm.addErr "Extra closing curly brace." }) := by
    have hp : ∀ (u : CS), u.depth ≤ 256 → pushRec u = .ok (true, { u with depth := u.depth + 1 }) := fun u hu => by
      unfold pushRec
      rw [CM.cget_bind, if_neg (by omega)]
      rfl
    unfold compileTokens
    refine (CM.bind_ok rfl).trans ?_
    have : script (statement F maxDepth) { s with toks := [⟨.curlyClose, cs "}", 1, 0, 0⟩], line := word 1, file := 0 } =
        .ok (false, { s with toks := [⟨.curlyClose, cs "}", 1, 0, 0⟩], line := word 1, file := 0, depth := s.depth + 1, vm := s.vm.addErr "Extra closing curly brace." }) := by
      unfold script
      rw [CM.cget_bind, CM.bind_ok (hp { s with toks := [⟨.curlyClose, cs "}", 1, 0, 0⟩], line := word 1, file := 0 } hd), if_pos rfl, CM.cget_bind]
      rfl
    rw [CM.bind_ok this]
    rfl
  obtain ⟨v, e2, k⟩ := clearReplErrors_run (vm := s.vm.addErr "Extra closing curly brace.") (h.of_eq rfl rfl rfl rfl rfl) (ip := s.write) hw
  refine ⟨{ s with toks := [], line := 0, file := UINT_MAX, depth := s.depth + 1, write := s.write, vm := v }, ?_, rfl, k.errors, rfl, k⟩
  unfold braceLine
  rw [CM.cget_bind, CM.bind_ok e1]
  show onVM _ _ = _
  unfold onVM
  dsimp only
  rw [e2]

/-- C75 is false in another way: the levels of recursion that a line with a mistake leaves behind (C54) are not given back.  After 257 lines with one brace too
many, each refused and its errors cleared, nothing can be compiled any more, not even an empty line. -/
theorem C75_levels_violated : ∃ t, braceLines F 257 (createCompiler VM.create) = .ok ((), t) ∧ t.vm.errors = [] ∧
    ∀ ts, ∃ t', compileTokens F ts t = .ok (false, t') ∧ t'.vm.errors = ["Reached recursion limit during compilation."] := by
  have key : ∀ n, n ≤ 257 → ∃ t, braceLines F n (createCompiler VM.create) = .ok ((), t) ∧ t.depth = n ∧ t.vm.errors = [] ∧ t.write = 0 ∧
      Nk.Inv t.vm ∧ t.vm.cur = 0 ∧ t.vm.instrs.length = 4 := by
    intro n
    induction n with
    | zero => intro _; exact ⟨_, rfl, rfl, rfl, rfl, create_tidy.inv, rfl, rfl⟩
    | succ n ih =>
      intro hn
      obtain ⟨t, e, hd, he, hw, hi, hc, hl⟩ := ih (by omega)
      obtain ⟨u, e1, d1, e2, w1, k⟩ := braceLine_run (F := F) hi.heap.co (by omega) (by omega) hc
      have hi' : Nk.Inv (t.vm.addErr "Extra closing curly brace.") :=
        inv_of hi rfl rfl rfl rfl rfl rfl rfl hi.heap.statics rfl rfl hi.instrs hi.natives (List.prefix_append _ _)
      refine ⟨u, (CM.bind_ok e).trans e1, by omega, e2, by omega, cleared_inv hi' k hc ?_, k.cur, ?_⟩
      · show refusal ∉ t.vm.errors ++ _
        rw [he]
        decide
      · rw [k.code, List.length_set]; exact hl
  obtain ⟨t, e, hd, he, -⟩ := key 257 (by omega)
  refine ⟨t, e, he, fun ts => ?_⟩
  have hp : ∀ (u : CS), 256 < u.depth → pushRec u = .ok (false, { u with vm := u.vm.addErr "Reached recursion limit during compilation." }) := fun u hu => by
    unfold pushRec
    rw [CM.cget_bind, if_pos hu]
    rfl
  refine ⟨{ t with toks := [], line := 0, file := UINT_MAX, vm := t.vm.addErr "Reached recursion limit during compilation." }, ?_, ?_⟩
  · unfold compileTokens
    refine (CM.bind_ok rfl).trans ?_
    unfold script
    rw [CM.assoc, CM.cget_bind, CM.assoc, CM.bind_ok (hp _ (by show 256 < t.depth; omega)), if_neg (by decide)]
    rfl
  · show t.vm.errors ++ _ = _
    rw [he]; rfl

/-! ## Cases -/

namespace ReplEx

/-- Lines with mistakes: the first cannot be compiled, the second fails when it is run; both leave their code behind, which is overwritten by the
next line. -/
theorem goes_on : Res.test (typed ["var z = 3;", "z = 4; while (", "z = 5; z();", "z = z + 1;"] (createCompiler VM.create)) (fun r => r.1.map List.length = [0, 1, 1, 0] ∧
    r.2.vm.errors = [] ∧ r.2.vm.statics[0]? = some (.int 6) ∧ r.2.write = 16 ∧ r.2.vm.cur = 0) = true := by
  decide +kernel

/-- A session in which a text that cannot be compiled is given up: the cases of `C75_program`, `Interactive` and so on. -/
theorem given_up : ∃ s s' t, Session Sample.F s ∧ Cc.After Sample.F s s' ∧ s'.vm.errors ≠ [] ∧ s.write < s'.write ∧ clearRepl s.write s' = .ok ((), t) ∧
    Interactive Sample.F Sample.H t := by
  have h : Res.test (compileScript Sample.F 32 (fun _ => 0) (cs "var z = 3;" ++ [0]) (cs "f") (createCompiler VM.create)) (fun r =>
      Res.test (compileScript Sample.F 32 (fun _ => 0) (cs "z = 4; while (1) {" ++ [0]) (cs "f") r.2) (fun q =>
        q.2.vm.errors.length = 1 ∧ r.2.write < q.2.write ∧ q.2.vm.cur = 0 ∧ refusal ∉ q.2.vm.errors ∧ q.2.vm.functions = [] ∧
          Res.test (clearRepl r.2.write q.2) (fun _ => true) = true)) = true := by decide +kernel
  cases hx : compileScript Sample.F 32 (fun _ => 0) (cs "var z = 3;" ++ [0]) (cs "f") (createCompiler VM.create) with
  | ub k => rw [hx] at h; cases h
  | ok r =>
    obtain ⟨b, s⟩ := r
    rw [hx] at h
    unfold Res.test at h
    dsimp only at h
    cases hy : compileScript Sample.F 32 (fun _ => 0) (cs "z = 4; while (1) {" ++ [0]) (cs "f") s with
    | ub k => rw [hy] at h; cases h
    | ok q =>
      obtain ⟨b', s'⟩ := q
      rw [hy] at h
      dsimp only at h
      replace h := of_decide_eq_true h
      obtain ⟨h1, h2, h3, h4, h5, h6⟩ := h
      cases hz : clearRepl s.write s' with
      | ub k => rw [hz] at h6; cases h6
      | ok u =>
        obtain ⟨_, t⟩ := u
        exact ⟨s, s', t, (Session.start SessionEx.blank).script hx, .step .refl (.script hy), (by intro e; rw [e] at h1; cases h1), h2, hz,
          .clear (.more .start (.script .now hx)) (.script .now hy) h3 h4 (fun f hf => by rw [h5] at hf; cases hf) hz⟩

/-- A coroutine fails when it is resumed for the second time, and the errors are cleared: it is invalid, the main program is running, and
resuming the coroutine is an error. -/
theorem coroutine_given_up : Res.test (typed ["function g() { yield(1); nil(); }", "var c = coroutine(g); resume(c, 0); resume(c, 0);", "resume(c, 0);"]
    (createCompiler VM.create)) (fun r => r.1 = [[], ["Tried to call something that is not a function id or a callable object."], ["Tried to resume an invalid coroutine."]] ∧
      r.2.vm.cur = 0 ∧ r.2.vm.statics = [.fn 0, .obj 0] ∧ r.2.vm.ctxs.map (·.map fun c => (c.state, c.ip)) = [some (.invalid, 23), some (.invalid, 0)]) = true := by
  decide +kernel

end ReplEx
end Nk.Props
