import Verif.Spec.Script
import Verif.Lemmas.Held
import Verif.Lemmas.Execute
import Verif.Props.Func
import Verif.Props.Lex
/-!
# C68: compiling and executing scripts
-/
namespace Nk.Props
open Nk.Spec Nk.Cc

variable {F : FloatOps} {H : Host}

theorem mach_self {a vm : VM} {p : Nat} {l : List Value} (h : Mach a p l a) (h1 : vm.ctxs = a.ctxs) (h2 : vm.cur = a.cur) : Mach vm p l vm := by
  obtain ⟨c, s, k1, k2, k3, k4⟩ := h
  have e : ({ c with stack := s, ip := p } : Ctx) = c := by
    have := k1.setC { c with stack := s, ip := p }
    rw [← k4] at this
    unfold VM.At at this k1
    rw [k1] at this
    exact (Option.some.inj (Option.some.inj this)).symm
  have at' : vm.At c := by unfold VM.At; rw [h1, h2]; exact k1
  exact ⟨c, s, at', k2, k3, by rw [e]; exact at'.setC_self.symm⟩

theorem clock_self {vm : VM} (h : vm.instrLeft = UINT_MAX) : vm.clock vm.gc.countdown UINT_MAX = vm := by
  rw [← h]
  unfold VM.clock
  exact Eq.refl _

theorem AtRest.held {s : CS} (h : AtRest s) : Held s.vm s :=
  ⟨rfl, rfl, rfl, rfl, rfl, h.slen, h.spow, h.small, h.count, h.pre.wf.str, List.prefix_rfl, rfl, rfl⟩

variable {is : List Item} {d : Nat} {ts : List Token} {s s1 s2 : CS} {r : Bool}

theorem script_core (hH : Plain H) (h : AtRest s) (src : Prog F d ts is) (fine : ∀ i ∈ is, i.Fine) (hd : s.depth + 1 + d ≤ 257)
    (hs : offOf s.ctx + Items.size is + 2 < 4294967296) (hsp : Space s.vm (offOf s.ctx + Items.size is)) {sc : CS}
    (hc : compileTokens F ts s = .ok (r, sc)) (q1 : s1.write = sc.write) (q2 : s1.vm = sc.vm) (q3 : s1.staticCount = sc.staticCount) (q4 : s1.ctx = sc.ctx)
    (he : s1.vm.errors = []) (hf : partiallyFinalize s1 = .ok ((), s2)) {l : List Value} (hl : Mach s.vm s.write l s.vm) :
    Good s2.vm ∧ (∀ l' W, Items.exec F H 0 (envOf s) s.vm.functions.length is l s2.vm .normal l' W → W.gc.newObjCountdown ≠ 0 →
      ∃ n vm, executeProgram F H n s2.vm = .ok (some true, vm) ∧ Ends W s2.write l' vm ∧ AtRest { s2 with vm := vm } ∧
        envOf { s2 with vm := vm } = Items.bind (envOf s) is) ∧
    (∀ l' W, Items.exec F H 0 (envOf s) s.vm.functions.length is l s2.vm .err l' W → Few F H s2.vm →
      ∃ n vm, executeProgram F H n s2.vm = .ok (some false, vm) ∧ vm.errors ≠ []) ∧
    ∀ l' W, Items.exec F H 0 (envOf s) s.vm.functions.length is l s2.vm .part l' W → W.gc.newObjCountdown ≠ 0 →
      ∃ n vm p, executeProgram F H n s2.vm = .ok (none, vm) ∧ Ends W p l' vm := by
  obtain ⟨root, hctx, hroot⟩ := h.root
  have hlen : l.length = offOf s.ctx := by
    obtain ⟨l0, k1, k2⟩ := h.here
    have : l = l0 := by
      obtain ⟨c, t, a1, a2, a3, a4⟩ := hl
      obtain ⟨c', t', b1, b2, b3, b4⟩ := k1
      have e := a1.setC { c with stack := t, ip := s.write }
      have e' := b1.setC { c' with stack := t', ip := s.write }
      rw [← a4] at e
      rw [← b4] at e'
      unfold VM.At at e e'
      rw [e] at e'
      have := congrArg (fun c : Ctx => c.stack) (Option.some.inj (Option.some.inj e'))
      rw [← a3, ← b3]
      exact congrArg _ this
    rw [this, k2]
  obtain ⟨-, s0, s3, mv, post, w', v', c', x'⟩ := program_post F H src h.pre hctx hroot fine hd hs hc (by rw [← q2]; exact he)
  rw [← q1] at w'
  rw [← q2] at v'
  rw [← q3] at c'
  rw [← q4] at x'
  have held1 : Held s.vm s1 := ((compileTokens_held (a := s.vm) F ts).run _ _ _ h.held hc).of (by rw [q2]) (by rw [q2]) (by rw [q2]) (by rw [q2]) (by rw [q2]) (by rw [q2])
    (by rw [q2]) q3 (by rw [q2]) (by rw [q2]) (by rw [q2]) (by rw [q2])
  have wf1 : CodeWF s1 := ⟨by rw [v']; exact post.pre.wf.pow, by rw [v']; exact post.pre.wf.len, by rw [v', w']; exact post.pre.wf.write,
    by rw [v']; exact post.pre.wf.str, by rw [x']; exact post.pre.wf.ctx⟩
  obtain ⟨gs, is2, m2, b2, e2, wf2, below, hend⟩ := partiallyFinalize_inv wf1 hf
  have hheld2 : s2.vm.ctxs = s.vm.ctxs ∧ s2.vm.cur = s.vm.cur ∧ s2.vm.gc = s.vm.gc ∧ s2.vm.limits = s.vm.limits ∧ s2.vm.instrLeft = s.vm.instrLeft ∧
      s2.vm.statics.length = s2.vm.staticMask + 1 ∧ (∃ k, k ≤ 31 ∧ s2.vm.staticMask + 1 = 2 ^ k) ∧ s2.vm.staticMask + 1 < UINT_MAX / 8 ∧
      s2.staticCount ≤ s2.vm.staticMask + 1 ∧ s2.vm.errors = [] := by
    rw [e2]
    exact ⟨held1.ctxs, held1.cur, held1.gc, held1.limits, held1.left, held1.slen, held1.spow, held1.small, held1.count, he⟩
  obtain ⟨g1, g2, g3, g4, g5, g6, g7, g8, g9, g10⟩ := hheld2
  have good2 : Good s2.vm := by
    obtain ⟨k, hk, hp⟩ := wf2.pow
    exact ⟨wf2.len, ⟨k, by omega, hp⟩, g6, g7, wf2.str⟩
  have fx : s2.write = s1.write ∧ s2.ctx = s1.ctx ∧ s2.staticCount = s1.staticCount ∧ s2.vm.functions = s1.vm.functions := by rw [e2]; exact ⟨rfl, rfl, rfl, rfl⟩
  obtain ⟨f1, f2, f3, f4⟩ := fx
  have ew : s0.write = s.write := mv.write
  have ec : s0.ctx = s.ctx := mv.ctx
  have ev : envOf s0 = envOf s := mv.seg.env
  have ef : s0.vm.functions = s.vm.functions := mv.grow.fns
  have mach2 : Mach s2.vm s.write l s2.vm := mach_self hl g1 g2
  have left2 : s2.vm.instrLeft = UINT_MAX := g5.trans h.left
  let K : Cfg := { F, H, cvm := s3.vm, I := s2.vm.instrs, n := l.length + Items.size is, sc := s3.staticCount, b := 0, T := 0, hb := 0 + loopOff s0.ctx, rb := 0 + 2 }
  have fit : Fit K s2.vm := by
    refine ⟨rfl, good2, ?_, ?_, ?_⟩
    · intro id e he hd
      refine ⟨e, ?_, rfl⟩
      rw [e2]
      show s1.vm.strings.entry id = some e
      rw [v']; exact he
    · obtain ⟨k, k1, k2, k3⟩ := hsp
      exact ⟨k, k1, by rw [g4]; exact k2, by show l.length + _ ≤ _; rw [hlen]; exact k3⟩
    · rw [g6]
      show s3.staticCount ≤ _
      rw [← c', ← f3]
      exact g9
  have none_ : fnArgs s0.vm.functions s0.ctx = none := by rw [ec, hctx]; exact fnArgs_root hroot _
  have x := post.sim K ⟨rfl, rfl, by show 0 < 4294967296; omega, rfl, fun a ha => by rw [none_] at ha; cases ha⟩ ⟨fun _ h => h, Nat.le_refl _⟩
    ⟨fun i h1 h2 _ => by
      show s2.vm.instrs[i]? = s3.vm.instrs[i]?
      rw [e2]
      show is2[i]? = _
      rw [below i (by rw [w']; exact h2), v'], by simp⟩ (by show 0 + _ + _ ≤ _ + _; rw [ec, hlen]; omega)
  rw [ev, ef, ew, ec, ← w'] at x
  refine ⟨good2, fun l' W hx hn => ?_, fun l' W hx hn => ?_, fun l' W hx hn => ?_⟩
  · obtain ⟨kp, kl, v, kr, km⟩ := x s2.vm l s2.vm _ _ _ fit (by rw [hlen]; show _ = 0 + _; omega) mach2 hx
    have sm := km.same
    have hv : v.errors = [] := by rw [sm.2.2.2.2.2.1, kp.errors]; exact g10
    have hg : v.gc = W.gc := by obtain ⟨c, t, _, _, _, rfl⟩ := km; rfl
    have hfn : v.functions = W.functions := by obtain ⟨c, t, _, _, _, rfl⟩ := km; rfl
    have hat : atEnd v = .ok (true, v) := by
      obtain ⟨c, t, k1, k2, k3⟩ := km.stk
      have := atEnd_run k3.at_ (w := 20) (by
        show instrAt v s1.write = _
        rw [km.instrAt]
        have : W.instrs[s1.write]? = some 20 := by rw [kp.instrs, e2]; exact hend
        exact ((kp.good good2).ip this).2)
      exact this
    obtain ⟨n, m, hex⟩ := execute_normal hH kr hat hv (by rw [hg]; exact hn) s2.vm.gc.countdown
    rw [clock_self left2] at hex
    have env : envOf s1 = Items.bind (envOf s) is := by
      rcases post.env with q | q
      · rw [ev] at q
        rw [← q]
        unfold envOf
        rw [x', c']
      · rw [ev, ef] at q
        exact absurd hx (q 0 l s2.vm l' W)
    have env2 : envOf s2 = envOf s1 := by unfold envOf; rw [f2, f3]
    refine ⟨n, _, hex, ⟨v, m, by rw [f1]; exact km, rfl⟩, ?_, ?_⟩
    rotate_left
    · show envOf s2 = _
      rw [env2, env]
    have e1 : (v.clock m UINT_MAX).errors = [] := hv
    obtain ⟨cr, cr', hcr, hcr', hr', -⟩ := post.ctx
    have p3 := post.pre
    refine ⟨⟨?_, e1, ?_, ?_, ?_, ?_⟩, ⟨cr', by show s2.ctx = _; rw [f2, x']; exact hcr', hr'⟩, ?_, ?_, ?_, ?_, ?_, ?_, ?_⟩
    · refine ⟨?_, ?_, ?_, ?_, wf2.ctx⟩
      · show ∃ k, k ≤ 29 ∧ v.instrMask + 1 = _
        rw [sm.2.1, kp.mask]; exact wf2.pow
      · show v.instrs.length = v.instrMask + 1
        rw [sm.1, sm.2.1, kp.mask, kp.instrs]; exact wf2.len
      · show s2.write ≤ v.instrMask
        rw [sm.2.1, kp.mask]; exact wf2.write
      · exact CodeWF.str' kp.str sm.2.2.2.2.2.2.1 sm.2.2.2.2.2.2.2
    · show ∀ c cs, s2.ctx = c :: cs → _
      rw [f2, x']; exact p3.head
    · show loopOff s2.ctx ≤ offOf s2.ctx
      rw [f2, x']; exact p3.loop
    · show ∀ a, fnArgs _ s2.ctx = some a → _
      rw [f2, x', hcr']
      intro a ha
      rw [fnArgs_root hr'] at ha
      cases ha
    · show s2.staticCount < _
      rw [f3, c']; exact p3.stat
    · show Top (envOf s2)
      rw [env2, env]
      exact h.top.items is
    · show v.statics.length = v.staticMask + 1
      rw [sm.2.2.1, sm.2.2.2.1, kp.slen, kp.smask]; exact g6
    · show ∃ k, k ≤ 31 ∧ v.staticMask + 1 = _
      rw [sm.2.2.2.1, kp.smask]; exact g7
    · show v.staticMask + 1 < _
      rw [sm.2.2.2.1, kp.smask]; exact g8
    · show s2.staticCount ≤ v.staticMask + 1
      rw [sm.2.2.2.1, kp.smask]; exact g9
    · refine ⟨l', ?_, ?_⟩
      · show Mach (v.clock m UINT_MAX) s2.write l' (v.clock m UINT_MAX)
        have : Mach v s2.write l' v := by
          obtain ⟨c, t, k1, k2, k3, k4⟩ := km
          rw [f1]
          refine ⟨{ c with stack := t, ip := s1.write }, t, by rw [k4]; exact k1.setC _, k2, k3, ?_⟩
          rw [k4]; simp
        exact mach_self this rfl rfl
      · show l'.length = offOf s2.ctx
        rw [f2, x', kl]
        show 0 + _ = _
        omega
    · exact clock_left _ _ _
  · obtain ⟨v, kr, kl⟩ := x s2.vm l s2.vm _ _ _ fit (by rw [hlen]; show _ = 0 + _; omega) mach2 hx
    obtain ⟨n, w, hex, hw⟩ := execute_error hH kr (by intro h0; rw [h0] at kl; simp at kl) g10 (hn v kr) s2.vm.gc.countdown
    rw [clock_self left2] at hex
    exact ⟨n, w, hex, hw⟩
  · obtain ⟨kp, v, p, kr, km⟩ := x s2.vm l s2.vm _ _ _ fit (by rw [hlen]; show _ = 0 + _; omega) mach2 hx
    have hv : v.errors = [] := by rw [km.same.2.2.2.2.2.1, kp.errors]; exact g10
    have hg : v.gc = W.gc := by obtain ⟨c, t, _, _, _, rfl⟩ := km; rfl
    obtain ⟨n, m, hex⟩ := execute_part hH kr hv (by rw [hg]; exact hn) s2.vm.gc.countdown
    rw [clock_self left2] at hex
    exact ⟨n, _, p, hex, v, m, km, rfl⟩


/-- **C68**: `s` is a compiler and its VM between two scripts.  The tokens `ts` of a program `is` are compiled without an error
(`s1`), the program is made ready (`s2`) and executed.
* If the meaning of the program is that it ends with the machine `W`, then the execution succeeds and leaves `W`; the VM is ready
  for the next script, in which names mean what this one has declared.
* If the meaning is an error, the execution fails, and an error has been recorded.
* If the program gets to some point, whether or not it ends, so does the execution.

The native functions are `Plain`, no limit on the number of instructions is set, and the program creates so few objects that no
collection takes place (C16 to C18 are about those). -/
theorem C68_run (hH : Plain H) (h : AtRest s) (src : Prog F d ts is) (fine : ∀ i ∈ is, i.Fine) (hd : s.depth + 1 + d ≤ 257)
    (hs : offOf s.ctx + Items.size is + 2 < 4294967296) (hsp : Space s.vm (offOf s.ctx + Items.size is))
    (hc : compileTokens F ts s = .ok (r, s1)) (he : s1.vm.errors = []) (hf : partiallyFinalize s1 = .ok ((), s2))
    {l : List Value} (hl : Mach s.vm s.write l s.vm) :
    (∀ l' W, Items.exec F H 0 (envOf s) s.vm.functions.length is l s2.vm .normal l' W → W.gc.newObjCountdown ≠ 0 →
      ∃ n vm, executeProgram F H n s2.vm = .ok (some true, vm) ∧ Ends W s2.write l' vm ∧ AtRest { s2 with vm := vm } ∧
        envOf { s2 with vm := vm } = Items.bind (envOf s) is) ∧
    (∀ l' W, Items.exec F H 0 (envOf s) s.vm.functions.length is l s2.vm .err l' W → Few F H s2.vm →
      ∃ n vm, executeProgram F H n s2.vm = .ok (some false, vm) ∧ vm.errors ≠ []) ∧
    ∀ l' W, Items.exec F H 0 (envOf s) s.vm.functions.length is l s2.vm .part l' W → W.gc.newObjCountdown ≠ 0 →
      ∃ n vm p, executeProgram F H n s2.vm = .ok (none, vm) ∧ Ends W p l' vm :=
  (script_core hH h src fine hd hs hsp hc rfl rfl rfl rfl he hf hl).2

/-- **C68**, for source texts: the same if the program is the text of a file. -/
theorem C68_source (hH : Plain H) (h : AtRest s) {hdr : Nat} {junk : Nat → UInt8} {text file : Bytes} {toks : List Token} {q : Spec.Pos}
    (hz : NoNul text) (hu : text.length + 3 + hdr < UINT_MAX) (hlen : text.length < 2147483647)
    (hsf : s.vm.sourceFiles.length + 1 < UINT_MAX) (hlex : Lex [] ⟨1, s.vm.sourceFiles.idxOf file, 1⟩ text toks q)
    (src : Prog F d (merge toks) is) (fine : ∀ i ∈ is, i.Fine) (hd : s.depth + 2 + d ≤ 257)
    (hs : offOf s.ctx + Items.size is + 2 < 4294967296) (hsp : Space s.vm (offOf s.ctx + Items.size is))
    (hc : compileScript F hdr junk (text ++ [0]) file s = .ok (r, s1)) (he : s1.vm.errors = []) (hf : partiallyFinalize s1 = .ok ((), s2))
    {l : List Value} (hl : Mach s.vm s.write l s.vm) :
    (∀ l' W, Items.exec F H 0 (envOf s) s.vm.functions.length is l s2.vm .normal l' W → W.gc.newObjCountdown ≠ 0 →
      ∃ n vm, executeProgram F H n s2.vm = .ok (some true, vm) ∧ Ends W s2.write l' vm ∧ AtRest { s2 with vm := vm } ∧
        envOf { s2 with vm := vm } = Items.bind (envOf s) is) ∧
    (∀ l' W, Items.exec F H 0 (envOf s) s.vm.functions.length is l s2.vm .err l' W → Few F H s2.vm →
      ∃ n vm, executeProgram F H n s2.vm = .ok (some false, vm) ∧ vm.errors ≠ []) ∧
    ∀ l' W, Items.exec F H 0 (envOf s) s.vm.functions.length is l s2.vm .part l' W → W.gc.newObjCountdown ≠ 0 →
      ∃ n vm p, executeProgram F H n s2.vm = .ok (none, vm) ∧ Ends W p l' vm := by
  unfold compileScript at hc
  rw [CM.bind_ok (pushRec_run (by omega)), if_pos rfl] at hc
  have ht := C66_tokens (hdr := hdr) (junk := junk) (vm := s.vm) hz hu hlen hsf hlex
  rw [CM.bind_ok (show onVM (Tok.tokenize hdr junk (text ++ [0]) file) { s with depth := s.depth + 1 } =
    .ok (some (merge toks), { s with depth := s.depth + 1, vm := { s.vm with sourceFiles := filesWith file s.vm.sourceFiles } }) by unfold onVM; dsimp only; rw [ht])] at hc
  obtain ⟨b, sb, h1, h2⟩ := CM.bind_inv hc
  obtain ⟨_, h3⟩ := popRec_inv h2
  obtain ⟨_, h4⟩ := pure_inv h3
  have hr : AtRest { s with depth := s.depth + 1, vm := { s.vm with sourceFiles := filesWith file s.vm.sourceFiles } } := by
    obtain ⟨l0, m0, m1⟩ := h.here
    exact ⟨⟨⟨h.pre.wf.pow, h.pre.wf.len, h.pre.wf.write, CodeWF.str' h.pre.wf.str rfl rfl, h.pre.wf.ctx⟩, h.pre.errs, h.pre.head, h.pre.loop, h.pre.ret, h.pre.stat⟩,
      h.root, h.top, h.slen, h.spow, h.small, h.count, ⟨l0, mach_self m0 rfl rfl, m1⟩, h.left⟩
  exact (script_core hH hr src fine (by show s.depth + 1 + 1 + d ≤ 257; omega) hs hsp h1 (by rw [h4]) (by rw [h4]) (by rw [h4]) (by rw [h4]) he hf (mach_self hl rfl rfl)).2

/-- **C68**: compiling and making ready, successfully or not, leaves what earlier scripts have left: the values of the
global variables, the objects, and the stacks of the execution contexts are as they were. -/
theorem C68_kept (h : AtRest s) (hc : compileTokens F ts s = .ok (r, s1)) (hf : partiallyFinalize s1 = .ok ((), s2)) :
    (∀ (i : Nat) v, s.vm.statics[i]? = some v → s2.vm.statics[i]? = some v) ∧ s2.vm.objects = s.vm.objects ∧ s2.vm.handles = s.vm.handles ∧
      s2.vm.ctxs = s.vm.ctxs ∧ s2.vm.cur = s.vm.cur ∧ s2.vm.gc = s.vm.gc ∧ s2.vm.limits = s.vm.limits ∧ s2.vm.instrLeft = s.vm.instrLeft := by
  have k := partiallyFinalize_held.run _ _ _ ((compileTokens_held (a := s.vm) F ts).run _ _ _ h.held hc) hf
  refine ⟨fun i v hv => ?_, k.objects, k.handles, k.ctxs, k.cur, k.gc, k.limits, k.left⟩
  obtain ⟨t, ht⟩ := k.vars
  rw [← ht, List.getElem?_append_left (List.getElem?_eq_some_iff.mp hv).1]
  exact hv

/-- **C68**: a new VM with its compiler is ready for a script. -/
theorem C68_start : AtRest (createCompiler VM.create) :=
  ⟨StmtEx.pre, ⟨_, rfl, rfl⟩, ⟨fun x i h => (by cases h), ⟨_, rfl⟩, fun x i g h => (by cases h), fun x y i h => (by cases h)⟩, rfl, ⟨1, by decide, rfl⟩, by decide, by decide,
    ⟨[], ⟨_, _, rfl, Stack.init_wf, rfl, rfl⟩, rfl⟩, rfl⟩

/-! ### An example: `var x = 0; while(x < 2) { var y = 1; x = x + y; }`, and then `x = x + x;` -/

namespace ScriptEx
open StmtEx (k sum body atom lit toks E1 fits)

theorem plain : Plain Sample.H :=
  ⟨fun _ _ => ⟨fun _ _ _ => rfl, fun vm a vm' e => by cases e; exact Nat.le_refl _⟩, fun _ _ vm a vm' e => by cases e; exact List.prefix_rfl⟩

/-- The first script. -/
def prog : List Item := [.st (.decl (cs "x") (.int (k .integer "0"))), .st (.while StmtEx.cond (.block body))]

theorem src : Prog Sample.F 12 toks prog := by
  refine .cons (.st (.decl (k := 1) rfl rfl rfl (lit "0" false) rfl (by decide))) (.cons (.st (.while (d := 9) (k := 1) rfl rfl rfl ?_ (by decide) (.block (d := 7) rfl rfl
    (.cons (.decl (k := 1) rfl rfl rfl (lit "1" false) rfl (by decide)) (.cons (.expr (k := 1) ?_ rfl (by decide)) .nil))))) .nil)
  · refine ⟨_, ⟨.op (k .lessThan "<") (.leaf [k .identifier "x"] (leafNode (k .identifier "x"))) (.leaf [k .integer "2"] (leafNode (k .integer "2"))),
      by simp only [Tree.Grouped, Tree.top]; decide, ⟨atom 0 _ rfl, atom 0 _ rfl⟩, rfl, rfl⟩, rfl⟩
  · refine ⟨_, ⟨.op (k .assignment "=") (.leaf [k .identifier "x"] (leafNode (k .identifier "x")))
      (.op (k .plus "+") (.leaf [k .identifier "x"] (leafNode (k .identifier "x"))) (.leaf [k .identifier "y"] (leafNode (k .identifier "y")))),
      by simp only [Tree.Grouped, Tree.top]; decide, ⟨atom 0 _ rfl, atom 0 _ rfl, atom 0 _ rfl⟩, rfl, rfl⟩, rfl⟩

/-- `W` with `x = v`. -/
def M (W : VM) (v : Value) : VM := { W with statics := W.statics.set 0 v }

variable {W : VM}

theorem good (g : Good W) (v : Value) : Good (M W v) := by
  have h := g.str
  exact ⟨g.mask, g.pow, by show (W.statics.set _ _).length = _; rw [List.length_set]; exact g.smask, g.spow, ⟨h.tab, h.blen, h.nodup, h.mem, h.hash, h.bucket, h.inj⟩⟩

theorem twice (v w : Value) : M (M W v) w = M W w := by unfold M; simp

theorem x_is {Γ : Bytes → Option Place} (hW : 0 < W.statics.length) (hΓ : Γ (cs "x") = some (.glob 0)) (b : Nat) (l : List Value) {n : Int} (h : 0 ≤ n ∧ n < 100) :
    HoldsInt Γ b l (M W (num n)) (cs "x") n := ⟨fits h, .inr ⟨0, hΓ, by show (W.statics.set _ _)[0]? = _; rw [List.getElem?_set_self hW]⟩⟩

theorem test_ev (g : Good W) (hW : 0 < W.statics.length) {n : Int} (h : 0 ≤ n ∧ n < 100) :
    Ev Sample.F Sample.H E1.Γ 0 [] (M W (num n)) StmtEx.cond (num (if n < 2 then 1 else 0)) [] (M W (num n)) := by
  have h2 : (atoi32 (k .integer "2").str).toInt = 2 := by decide
  have := (num_ev (F := Sample.F) (H := Sample.H) (good g _) (Num.rel .lt (k .lessThan "<") (.var (k .identifier "x") (x_is hW (Γ := E1.Γ) rfl 0 [] h))
    (.lit (k .integer "2")))).2 []
  rw [h2] at this
  by_cases hn : n < 2
  · simpa [Rel.holds, Rel.op, StmtEx.cond, hn] using this
  · simpa [Rel.holds, Rel.op, StmtEx.cond, hn] using this

theorem sum_ev (g : Good W) (hW : 0 < W.statics.length) {n : Int} (h : 0 ≤ n ∧ n < 99) :
    Ev Sample.F Sample.H (E1.inner.bind (cs "y")).Γ 0 [num 1] (M W (num n)) (.setVar (k .assignment "=") (k .identifier "x") sum) (num (n + 1)) [num 1] (M W (num (n + 1))) := by
  have hy : HoldsInt (E1.inner.bind (cs "y")).Γ 0 [num 1] (M W (num n)) (cs "y") 1 := ⟨fits (by omega), .inl ⟨0, rfl, rfl⟩⟩
  have := (num_ev (F := Sample.F) (H := Sample.H) (good g _) (Num.arith .add (k .plus "+") (.var (k .identifier "x")
    (x_is hW (Γ := (E1.inner.bind (cs "y")).Γ) rfl 0 [num 1] (by omega : 0 ≤ n ∧ n < 100))) (.var (k .identifier "y") hy) (by simp [Arith.refused])
    (fits (by show 0 ≤ n + 1 ∧ n + 1 < 100; omega)))).2 []
  have := Ev.setGlob (t := k .assignment "=") (x := k .identifier "x") (i := 0) this rfl (by simpa [M] using hW)
  have e : ({ M W (num n) with statics := (M W (num n)).statics.set 0 (num (n + 1)) } : VM) = M W (num (n + 1)) := twice _ _
  rw [← e]
  exact this

/-- One round of the loop. -/
theorem round (g : Good W) (hW : 0 < W.statics.length) {n : Int} (h : 0 ≤ n ∧ n < 99) :
    Scope ((St.block body).exec Sample.F Sample.H 0 E1.inner) [] (M W (num n)) .normal [] (M W (num (n + 1))) := by
  have : body.exec Sample.F Sample.H 0 E1.inner [] (M W (num n)) .normal [num 1] (M W (num (n + 1))) :=
    .next (.val (v := num 1) (.int (k .integer "1")) (.loc rfl)) (.next (.val (sum_ev g hW h) .mk) .mk)
  exact .done (l1 := []) (.done this)

/-- What the first script means: it ends with `x = 2`. -/
theorem means (g : Good W) (hW : 0 < W.statics.length) : Items.exec Sample.F Sample.H 0 (envOf StmtEx.s) 0 prog [] W .normal [] (M W (num 2)) := by
  refine .next (l1 := []) (W1 := M W (num 0)) (.val (.int (k .integer "0")) (.glob (n := 0) rfl hW)) (.next (l1 := []) (W1 := M W (num 2)) ?_ .mk)
  refine .other ⟨3, ?_⟩ (by simp)
  have i1 : ∀ n, IntOf (M W (num n)) (num 1) 1 := fun n => .int 1
  have i0 : IntOf (M W (num 2)) (num 0) 0 := .int 0
  refine .val (test_ev g hW (n := 0) (by omega)) (.yes (i1 0) (by decide) (.next (round g hW (by omega)) ?_))
  refine .val (test_ev g hW (n := 1) (by omega)) (.yes (i1 1) (by decide) (.next (round g hW (by omega)) ?_))
  exact .val (test_ev g hW (n := 2) (by omega)) (.no i0 .mk)

/-- The second script. -/
def toks2 : List Token :=
  ([k .identifier "x", k .assignment "=", k .identifier "x", k .plus "+", k .identifier "x"] ++ [k .semicolon ";"]) ++ []
def dbl : Ex := .setVar (k .assignment "=") (k .identifier "x") (.bin .add (k .plus "+") (.var (k .identifier "x")) (.var (k .identifier "x")))
def prog2 : List Item := [.st (.expr dbl)]

theorem src2 : Prog Sample.F 12 toks2 prog2 := by
  refine .cons (.st (.expr (k := 1) ?_ rfl (by decide))) .nil
  exact ⟨_, ⟨.op (k .assignment "=") (.leaf [k .identifier "x"] (leafNode (k .identifier "x")))
      (.op (k .plus "+") (.leaf [k .identifier "x"] (leafNode (k .identifier "x"))) (.leaf [k .identifier "x"] (leafNode (k .identifier "x")))),
      by simp only [Tree.Grouped, Tree.top]; decide, ⟨atom 0 _ rfl, atom 0 _ rfl, atom 0 _ rfl⟩, rfl, rfl⟩, rfl⟩

/-- What the second script means: if `x` was 2, it ends with `x = 4`. -/
theorem means2 (g : Good W) (hW : W.statics[0]? = some (num 2)) (f : Nat) :
    Items.exec Sample.F Sample.H 0 E1 f prog2 [] W .normal [] (M W (num 4)) := by
  have hx : HoldsInt E1.Γ 0 [] W (cs "x") 2 := ⟨fits (by omega), .inr ⟨0, rfl, hW⟩⟩
  have := (num_ev (F := Sample.F) (H := Sample.H) g (Num.arith .add (k .plus "+") (.var (k .identifier "x") hx) (.var (k .identifier "x") hx)
    (by simp [Arith.refused]) (fits (by show (0 : Int) ≤ 2 + 2 ∧ (2 : Int) + 2 < 100; omega)))).2 []
  have := Ev.setGlob (t := k .assignment "=") (x := k .identifier "x") (i := 0) this rfl (by
    have := List.getElem?_eq_some_iff.mp hW
    exact this.1)
  exact .next (.val this .mk) .mk

theorem compiled : ∃ s1 s2, compileTokens Sample.F toks (createCompiler VM.create) = .ok (true, s1) ∧ s1.vm.errors = [] ∧
    partiallyFinalize s1 = .ok ((), s2) ∧ s2.depth = 2 ∧ s2.vm.gc.newObjCountdown = 256 ∧ s2.vm.functions = [] ∧ s2.vm.limits = VM.create.limits := by
  obtain ⟨⟨r, s1⟩, h1, h2⟩ := test_ok (r := compileTokens Sample.F toks (createCompiler VM.create))
    (p := fun x => x.1 = true ∧ x.2.vm.errors = [] ∧ Res.test (partiallyFinalize x.2) (fun y => y.2.depth = 2 ∧ y.2.vm.gc.newObjCountdown = 256 ∧
      y.2.vm.functions = [] ∧ y.2.vm.limits = VM.create.limits) = true) (by decide +kernel)
  obtain ⟨rfl, h2, h3⟩ := h2
  obtain ⟨⟨u, s2⟩, h4, h5⟩ := test_ok h3
  exact ⟨s1, s2, h1, h2, h4, h5⟩

theorem fine : ∀ i ∈ prog, i.Fine := by
  intro i hi
  simp only [prog, List.mem_cons, List.not_mem_nil, or_false] at hi
  rcases hi with rfl | rfl <;> rfl

theorem fine2 : ∀ i ∈ prog2, i.Fine := by
  intro i hi
  simp only [prog2, List.mem_cons, List.not_mem_nil, or_false] at hi
  subst hi; rfl

/-- The first script runs, and then `x` is 2.  Whatever compiling the second one leaves, it runs too, and then `x` is 4. -/
example : ∃ s1 s2 n vm, compileTokens Sample.F toks (createCompiler VM.create) = .ok (true, s1) ∧ partiallyFinalize s1 = .ok ((), s2) ∧
    executeProgram Sample.F Sample.H n s2.vm = .ok (some true, vm) ∧ vm.statics[0]? = some (num 2) ∧
    ∀ r s3 s4, compileTokens Sample.F toks2 { s2 with vm := vm } = .ok (r, s3) → s3.vm.errors = [] → partiallyFinalize s3 = .ok ((), s4) →
      ∃ n vm, executeProgram Sample.F Sample.H n s4.vm = .ok (some true, vm) ∧ vm.statics[0]? = some (num 4) := by
  obtain ⟨s1, s2, h1, h2, h3, h4, h5, h6, h7⟩ := compiled
  obtain ⟨l0, m0, m1⟩ := C68_start.here
  obtain rfl : l0 = [] := List.eq_nil_of_length_eq_zero m1
  have sp : Space VM.create 100 := ⟨8, by decide, by decide, by decide⟩
  have sz : offOf (createCompiler VM.create).ctx + Items.size prog ≤ 100 := by decide
  obtain ⟨good2, x, -, -⟩ := script_core plain C68_start src fine (by decide) (by decide) (Space.mono sp sz) h1 rfl rfl rfl rfl h2 h3 m0
  have hs : 0 < s2.vm.statics.length := (List.getElem?_eq_some_iff.mp ((C68_kept C68_start h1 h3).1 0 _ rfl)).1
  obtain ⟨n, vm, k1, ⟨v, m, k2, k3⟩, k4, k5⟩ := x [] _ (means good2 hs) (by show s2.vm.gc.newObjCountdown ≠ 0; omega)
  have hstat : vm.statics = s2.vm.statics.set 0 (num 2) := by rw [k3]; exact k2.same.2.2.1
  have hx : vm.statics[0]? = some (num 2) := by rw [hstat, List.getElem?_set_self hs]
  refine ⟨s1, s2, n, vm, h1, h3, k1, hx, fun r s3 s4 q1 q2 q3 => ?_⟩
  obtain ⟨l1, m2, m3⟩ := k4.here
  have hoff : offOf s2.ctx = 0 := by
    exact congrArg Env.h k5
  obtain rfl : l1 = [] := List.eq_nil_of_length_eq_zero (m3.trans hoff)
  have hkeep := (C68_kept C68_start h1 h3).2
  have hlim : vm.limits = VM.create.limits := by rw [k3]; exact k2.same.2.2.2.2.1.trans h7
  have hgc : vm.gc.newObjCountdown = 256 := by
    obtain ⟨c, t, _, _, _, e⟩ := k2
    rw [k3, e]
    exact h5
  have sp2 : Space vm 100 := by rw [Space, hlim]; exact sp
  have sz2 : offOf s2.ctx + Items.size prog2 ≤ 100 := by rw [hoff]; decide
  obtain ⟨good4, y, -, -⟩ := script_core plain k4 src2 fine2 (by show s2.depth + 1 + 12 ≤ 257; omega)
    (by show offOf s2.ctx + Items.size prog2 + 2 < _; omega) (Space.mono sp2 sz2) q1 rfl rfl rfl rfl q2 q3 m2
  have kept := C68_kept k4 q1 q3
  have hx4 := kept.1 0 _ hx
  rw [k5] at y
  obtain ⟨n', vm', j1, ⟨v', m', j2, j3⟩, -, -⟩ := y [] _ (means2 good4 hx4 _) (by
    show s4.vm.gc.newObjCountdown ≠ 0
    rw [kept.2.2.2.2.2.1]
    show vm.gc.newObjCountdown ≠ 0
    omega)
  refine ⟨n', vm', j1, ?_⟩
  have : vm'.statics = s4.vm.statics.set 0 (num 4) := by rw [j3]; exact j2.same.2.2.1
  rw [this, List.getElem?_set_self (List.getElem?_eq_some_iff.mp hx4).1]

end ScriptEx

end Nk.Props
