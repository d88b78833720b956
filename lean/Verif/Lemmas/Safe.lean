import Verif.Spec.Sandbox
import Verif.Lemmas.Collect
import Verif.Lemmas.Ops
/-!
# Safety of the primitive operations
-/
namespace Nk

/-! ## Triples -/

/-- Running `m` in `vm` gives a result satisfying `Q` or ends in a way allowed by `B`. -/
def Safe {α : Type} (B : UB → Prop) (m : M α) (vm : VM) (Q : α → VM → Prop) : Prop :=
  match m vm with
  | .ok (a, vm') => Q a vm'
  | .ub k => B k

variable {α β : Type} {B : UB → Prop}

theorem Safe.ok {m : M α} {vm vm' : VM} {a : α} {Q : α → VM → Prop} (h : m vm = .ok (a, vm')) (q : Q a vm') :
    Safe B m vm Q := by
  unfold Safe; rw [h]; exact q

theorem Safe.ub {m : M α} {vm : VM} {k : UB} {Q : α → VM → Prop} (h : m vm = .ub k) (b : B k) :
    Safe B m vm Q := by
  unfold Safe; rw [h]; exact b

theorem Safe.bind {m : M α} {f : α → M β} {vm : VM} {Q : α → VM → Prop} {R : β → VM → Prop}
    (h : Safe B m vm Q) (hf : ∀ a vm', Q a vm' → Safe B (f a) vm' R) : Safe B (m >>= f) vm R := by
  unfold Safe at h
  cases hm : m vm with
  | ub k => rw [hm] at h; exact Safe.ub (M.bind_ub hm) h
  | ok p =>
    obtain ⟨a, vm'⟩ := p
    rw [hm] at h
    have := hf a vm' h
    unfold Safe at this ⊢
    rw [M.bind_ok hm]
    exact this

theorem Safe.mono {m : M α} {vm : VM} {Q R : α → VM → Prop} (h : Safe B m vm Q)
    (hq : ∀ a vm', Q a vm' → R a vm') : Safe B m vm R := by
  unfold Safe at *
  split
  · next a vm' e => rw [e] at h; exact hq _ _ h
  · next k e => rw [e] at h; exact h

theorem Safe.pure {vm : VM} {a : α} {Q : α → VM → Prop} (q : Q a vm) : Safe B (Pure.pure a) vm Q := q

theorem Safe.get {vm : VM} {f : VM → M β} {R : β → VM → Prop} (h : Safe B (f vm) vm R) :
    Safe B (Nk.get >>= f) vm R := Safe.bind (Q := fun a v => a = vm ∧ v = vm) (Safe.ok (get_run vm) ⟨rfl, rfl⟩)
      (by rintro a v ⟨rfl, rfl⟩; exact h)

/-! ## The invariant with a fixed pass number -/

/-- The invariant, with pass number `n`. -/
structure I (n : Nat) (vm : VM) : Prop where
  inv : Inv vm
  pass : vm.gc.lastGCPass = n

variable {n : Nat} {vm : VM}

theorem I.cur (h : I n vm) : ∃ c, vm.At c ∧ c.stack.WF := by
  obtain ⟨c, hc⟩ := h.inv.heap.co.cur_live
  exact ⟨c, hc, h.inv.heap.co.stack _ c hc⟩

theorem I.str (h : I n vm) : StrWF vm := h.inv.heap.str
theorem I.tab (h : I n vm) : vm.objects.WF := h.inv.heap.tab

theorem CoWF.of_eq {vm vm' : VM} (h : CoWF vm) (h1 : vm'.ctxs = vm.ctxs) (h2 : vm'.cur = vm.cur)
    (h3 : vm'.objects = vm.objects) (h4 : vm'.extTypes = vm.extTypes) (h5 : vm'.coType = vm.coType) :
    CoWF vm' := by
  refine ⟨?_, ?_, ?_, ?_, ?_, ?_⟩
  · rw [h1]; exact h.root
  · rw [h1]; exact h.stack
  · rw [h1, h3, h5]; exact h.own
  · rw [h1, h3, h5]; exact h.owned
  · rw [h1, h2]; exact h.chain
  · rw [h4, h5]; exact h.type

/-- Changes of strings and errors. -/
theorem I.sext {vm' : VM} (h : I n vm) (hs : SExt vm vm') : I n vm' := by
  have e := hs.frame
  have f1 : vm'.statics = vm.statics := by have := congrArg VM.statics e; exact this
  have f2 : vm'.staticMask = vm.staticMask := by have := congrArg VM.staticMask e; exact this
  have f3 : vm'.handles = vm.handles := by have := congrArg VM.handles e; exact this
  have f4 : vm'.gc = vm.gc := by have := congrArg VM.gc e; exact this
  have f5 : vm'.instrs = vm.instrs := by have := congrArg VM.instrs e; exact this
  have f6 : vm'.instrMask = vm.instrMask := by have := congrArg VM.instrMask e; exact this
  have f7 : vm'.extFuncs = vm.extFuncs := by have := congrArg VM.extFuncs e; exact this
  have f8 : vm'.extTypes = vm.extTypes := by have := congrArg VM.extTypes e; exact this
  have f9 : vm'.coType = vm.coType := by have := congrArg VM.coType e; exact this
  refine ⟨⟨⟨hs.wf, ?_, ?_, ?_, ?_, ?_, ?_⟩, ?_, ?_, ?_, ?_⟩, ?_⟩
  · rw [hs.objects]; exact h.tab
  · exact h.inv.heap.co.of_eq hs.ctxs hs.cur hs.objects f8 f9
  · rw [f1, f2]; exact h.inv.heap.statics
  · rw [f3, hs.objects]; exact h.inv.heap.handles
  · rw [f4, hs.objects]; exact h.inv.heap.passO
  · intro id e he
    rw [f4]
    rcases hs.fresh id e he with h1 | h1
    · exact h.inv.heap.passS id e h1
    · omega
  · rw [f5, f6]; exact h.inv.instrs
  · rw [hs.objects]; exact h.inv.buckets
  · rw [f7]; exact h.inv.natives
  · rcases h.inv.sizes with h1 | h1
    · exact .inl (hs.errs.subset h1)
    · exact .inr (by unfold SizesOK; rw [hs.objects]; exact h1)
  · rw [f4]; exact h.pass

theorem I.addErr (h : I n vm) (e : String) : I n (vm.addErr e) := h.sext (SExt.addErr h.str e)

/-- Replacing one context by one with the same resumer and owner. -/
theorem CoWF.setCtx {vm : VM} (h : CoWF vm) {i : Nat} {c c' : Ctx} (hc : vm.ctxs[i]? = some (some c))
    (hw : c'.stack.WF) (hp : c'.parent = c.parent) (ho : c'.coObj = c.coObj) :
    CoWF { vm with ctxs := vm.ctxs.set i (some c') } := by
  have hlt : i < vm.ctxs.length := (List.getElem?_eq_some_iff.mp hc).1
  have get : ∀ j, (vm.ctxs.set i (some c'))[j]? = if j = i then some (some c') else vm.ctxs[j]? := by
    intro j
    by_cases hj : j = i
    · subst hj; rw [if_pos rfl, List.getElem?_set_self hlt]
    · rw [if_neg hj, List.getElem?_set_ne (fun e => hj e.symm)]
  refine ⟨?_, ?_, ?_, ?_, ?_, h.type⟩
  · obtain ⟨r, h1, h2, h3⟩ := h.root
    show ∃ c, (vm.ctxs.set i (some c'))[0]? = _ ∧ _
    rw [get]
    by_cases h0 : 0 = i
    · subst h0
      rw [hc] at h1; cases h1
      exact ⟨c', by simp, by rw [hp]; exact h2, by rw [ho]; exact h3⟩
    · exact ⟨r, by simp [h0, h1], h2, h3⟩
  · intro j d hd
    have hd : (vm.ctxs.set i (some c'))[j]? = some (some d) := hd
    rw [get] at hd
    by_cases hj : j = i
    · rw [if_pos hj] at hd; cases hd; exact hw
    · rw [if_neg hj] at hd; exact h.stack j d hd
  · intro id o h1 h2
    obtain ⟨j, d, g1, g2, g3, g4⟩ := h.own id o h1 h2
    by_cases hj : j = i
    · subst hj
      rw [hc] at g3; cases g3
      exact ⟨j, c', g1, g2, by show (vm.ctxs.set j (some c'))[j]? = _; rw [get]; simp, by rw [ho]; exact g4⟩
    · exact ⟨j, d, g1, g2, by show (vm.ctxs.set i (some c'))[j]? = _; rw [get, if_neg hj]; exact g3, g4⟩
  · intro j d h1 h2
    have h2 : (vm.ctxs.set i (some c'))[j]? = some (some d) := h2
    rw [get] at h2
    by_cases hj : j = i
    · rw [if_pos hj] at h2; cases h2
      subst hj
      obtain ⟨id, o, g⟩ := h.owned j c h1 hc
      exact ⟨id, o, by rw [ho]; exact g.1, g.2⟩
    · rw [if_neg hj] at h2
      exact h.owned j d h1 h2
  · obtain ⟨l, a1, a2, a3, a4, a5⟩ := h.chain
    refine ⟨l, a1, a2, a3, ?_, ?_⟩
    · intro m x y hx hy
      obtain ⟨d, d1, d2⟩ := a4 m x y hx hy
      show ∃ c, (vm.ctxs.set i (some c'))[x]? = _ ∧ _
      rw [get]
      by_cases hj : x = i
      · subst hj; rw [hc] at d1; cases d1
        exact ⟨c', by simp, by rw [hp]; exact d2⟩
      · exact ⟨d, by rw [if_neg hj]; exact d1, d2⟩
    · intro j d hd hn
      have hd : (vm.ctxs.set i (some c'))[j]? = some (some d) := hd
      rw [get] at hd
      by_cases hj : j = i
      · rw [if_pos hj] at hd; cases hd
        subst hj
        exact a5 j c hc (by rw [← hp]; exact hn)
      · rw [if_neg hj] at hd; exact a5 j d hd hn

theorem I.setCtx (h : I n vm) {i : Nat} {c c' : Ctx} (hc : vm.ctxs[i]? = some (some c))
    (hw : c'.stack.WF) (hp : c'.parent = c.parent) (ho : c'.coObj = c.coObj) :
    I n { vm with ctxs := vm.ctxs.set i (some c') } :=
  ⟨⟨⟨⟨h.str.tab, h.str.blen, h.str.nodup, h.str.mem, h.str.hash, h.str.bucket, h.str.inj⟩, h.tab,
    h.inv.heap.co.setCtx hc hw hp ho, h.inv.heap.statics, h.inv.heap.handles, h.inv.heap.passO,
    h.inv.heap.passS⟩, h.inv.instrs, h.inv.buckets, h.inv.natives, h.inv.sizes⟩, h.pass⟩

theorem I.setC (h : I n vm) {c c' : Ctx} (hc : vm.At c) (hw : c'.stack.WF) (hp : c'.parent = c.parent)
    (ho : c'.coObj = c.coObj) : I n (vm.setC c') := h.setCtx hc hw hp ho

theorem I.setStack (h : I n vm) {c : Ctx} {s : Stack} (hc : vm.At c) (hw : s.WF) :
    I n (vm.setC { c with stack := s }) := h.setC hc hw rfl rfl

theorem I.modCur (h : I n vm) {f : Ctx → Ctx} (hs : ∀ c, (f c).stack = c.stack) (hp : ∀ c, (f c).parent = c.parent)
    (ho : ∀ c, (f c).coObj = c.coObj) :
    Safe B (modCur f) vm (fun _ vm' => I n vm' ∧ vm'.objects = vm.objects) := by
  obtain ⟨c, hc, hw⟩ := h.cur
  exact Safe.ok (modCur_at hc f) ⟨h.setC hc (by rw [hs]; exact hw) (hp c) (ho c), rfl⟩

theorem I.set_statics (h : I n vm) {l : List Value} (hl : l.length = vm.statics.length) :
    I n { vm with statics := l } :=
  ⟨⟨⟨⟨h.str.tab, h.str.blen, h.str.nodup, h.str.mem, h.str.hash, h.str.bucket, h.str.inj⟩, h.tab,
    h.inv.heap.co.of_eq rfl rfl rfl rfl rfl, by
      show l.length = vm.staticMask + 1
      rw [hl]; exact h.inv.heap.statics, h.inv.heap.handles, h.inv.heap.passO,
    h.inv.heap.passS⟩, h.inv.instrs, h.inv.buckets, h.inv.natives, h.inv.sizes⟩, h.pass⟩

/-- Counters that the structures do not depend on. -/
theorem I.set_counters (h : I n vm) {g : GCInfo} (hg : g.lastGCPass = vm.gc.lastGCPass) (k : Nat) :
    I n { vm with gc := g, instrLeft := k } :=
  ⟨⟨⟨⟨h.str.tab, h.str.blen, h.str.nodup, h.str.mem, h.str.hash, h.str.bucket, h.str.inj⟩, h.tab,
    h.inv.heap.co.of_eq rfl rfl rfl rfl rfl, h.inv.heap.statics, h.inv.heap.handles,
    fun id o he => by show _ ≤ g.lastGCPass; rw [hg]; exact h.inv.heap.passO id o he,
    fun id o he => by show _ ≤ g.lastGCPass; rw [hg]; exact h.inv.heap.passS id o he⟩, h.inv.instrs,
    h.inv.buckets, h.inv.natives, h.inv.sizes⟩, by show g.lastGCPass = n; rw [hg]; exact h.pass⟩

/-- Objects change their fields. -/
theorem CoWF.setO {vm : VM} (h : CoWF vm) (hw : vm.objects.WF) {id : Nat} {o o' : Obj}
    (he : vm.objects.entry id = some o) (ht : o'.extType = o.extType) (hd : o'.extData = o.extData) :
    CoWF (vm.setO id o') := by
  have hent := setO_entry hw he o'
  refine ⟨h.root, h.stack, ?_, ?_, h.chain, h.type⟩
  · intro j x hx hco
    rw [hent] at hx
    by_cases hj : j = id
    · rw [if_pos hj] at hx; cases hx; subst hj
      obtain ⟨i, c, g⟩ := h.own j o he (by rw [← ht]; exact hco)
      exact ⟨i, c, by rw [hd]; exact g.1, g.2⟩
    · rw [if_neg hj] at hx
      exact h.own j x hx hco
  · intro i c hi hc
    obtain ⟨j, x, g1, g2, g3, g4⟩ := h.owned i c hi hc
    by_cases hj : j = id
    · subst hj
      rw [he] at g2; cases g2
      exact ⟨j, o', g1, by rw [hent]; simp, by rw [ht]; exact g3, by rw [hd]; exact g4⟩
    · exact ⟨j, x, g1, by rw [hent, if_neg hj]; exact g2, g3, g4⟩

theorem I.setO (h : I n vm) {id : Nat} {o o' : Obj} (he : vm.objects.entry id = some o)
    (ht : o'.extType = o.extType) (hd : o'.extData = o.extData) (hb : o'.buckets.length = 16)
    (hp : o'.lastGCPass = o.lastGCPass) (hs : refusal ∈ vm.errors ∨ (SizesOK vm → o'.size = o'.total ∧ o'.size < 4294967296)) :
    I n (vm.setO id o') := by
  have hent := setO_entry h.tab he o'
  refine ⟨⟨⟨setO_strWF h.str id o', setO_wf h.tab he o', h.inv.heap.co.setO h.tab he ht hd, h.inv.heap.statics,
    ?_, ?_, h.inv.heap.passS⟩, h.inv.instrs, ?_, h.inv.natives, ?_⟩, h.pass⟩
  · intro j hj
    obtain ⟨x, hx⟩ := h.inv.heap.handles j hj
    rw [hent]
    by_cases hji : j = id
    · exact ⟨o', if_pos hji⟩
    · rw [if_neg hji]; exact ⟨x, hx⟩
  · intro j x hx
    rw [hent] at hx
    by_cases hji : j = id
    · rw [if_pos hji] at hx; cases hx
      show o'.lastGCPass ≤ vm.gc.lastGCPass
      rw [hp]; exact h.inv.heap.passO id o he
    · rw [if_neg hji] at hx; exact h.inv.heap.passO j x hx
  · intro j x hx
    rw [hent] at hx
    by_cases hji : j = id
    · rw [if_pos hji] at hx; cases hx; exact hb
    · rw [if_neg hji] at hx; exact h.inv.buckets j x hx
  · rcases h.inv.sizes with h1 | h1
    · exact .inl h1
    · rcases hs with h2 | h2
      · exact .inl h2
      · refine .inr fun j x hx => ?_
        rw [hent] at hx
        by_cases hji : j = id
        · rw [if_pos hji] at hx; cases hx; exact h2 h1
        · rw [if_neg hji] at hx; exact h1 j x hx

/-! ## The stack -/

/-- `i` is a slot of the current stack. -/
def Slot (vm : VM) (i : Nat) : Prop := ∃ c, vm.At c ∧ i < c.stack.vals.length

theorem Slot.congr {vm vm' : VM} {i : Nat} (h : Slot vm i) (h1 : vm'.ctxs = vm.ctxs) (h2 : vm'.cur = vm.cur) :
    Slot vm' i := by
  obtain ⟨c, hc, hi⟩ := h
  exact ⟨c, by unfold VM.At at *; rw [h1, h2]; exact hc, hi⟩

/-- Post-condition of operations on the stack. -/
structure Kept (n : Nat) (vm vm' : VM) : Prop where
  i : I n vm'
  obj : vm'.objects = vm.objects
  cur : vm'.cur = vm.cur

theorem curCtx_safe (h : I n vm) : Safe B curCtx vm (fun c vm' => vm' = vm ∧ vm.At c ∧ c.stack.WF) := by
  obtain ⟨c, hc, hw⟩ := h.cur
  exact Safe.ok (curCtx_at hc) ⟨rfl, hc, hw⟩

theorem curStack_safe (h : I n vm) :
    Safe B curStack vm (fun s vm' => vm' = vm ∧ s.WF ∧ ∃ c, vm.At c ∧ c.stack = s) := by
  obtain ⟨c, hc, hw⟩ := h.cur
  exact Safe.ok (curStack_at hc) ⟨rfl, hw, c, hc, rfl⟩

theorem addError_safe (h : I n vm) (e : String) : Safe B (addError e) vm (fun _ vm' => Kept n vm vm') :=
  Safe.ok (addError_run e vm) ⟨h.addErr e, rfl, rfl⟩

theorem pushSlot_safe (h : I n vm) : Safe B pushSlot vm (fun i vm' => Kept n vm vm' ∧ Slot vm' i) := by
  obtain ⟨c, hc, hw⟩ := h.cur
  by_cases hr : Room vm c.stack
  · obtain ⟨w1, w2, _⟩ := Stack.pushed_wf hw hr
    refine Safe.ok (pushSlot_room hc hw hr) ⟨⟨h.setStack hc w1, rfl, rfl⟩, _, hc.setC _, ?_⟩
    show c.stack.size < c.stack.pushed.vals.length
    have := w1.len; have := w1.size; omega
  · have hpos := hw.capPos
    have hle := hw.capLe
    have hlen := hw.len
    have hz := hw.size
    have hn : c.stack.cap ≠ 0 := by omega
    unfold Room at hr
    have hfull : c.stack.size = c.stack.cap := by omega
    have key : ∃ e, pushSlot vm = .ok (0, vm.addErr e) := by
      unfold pushSlot
      rw [M.bind_ok (curStack_at hc), if_neg hn, if_pos hfull]
      by_cases h1 : c.stack.cap > 0xffff
      · exact ⟨_, by rw [if_pos h1, M.bind_ok (addError_run _ _)]; rfl⟩
      · rw [if_neg h1]
        have hu : u32 (c.stack.cap * 2) = c.stack.cap * 2 := Nat.mod_eq_of_lt (by unfold U32; omega)
        rw [hu, if_neg (by omega), M.bind_ok (get_run vm)]
        have h2 : c.stack.cap * 2 > vm.limits.maxStackSize := by
          rcases Nat.lt_or_ge vm.limits.maxStackSize (c.stack.cap * 2) with h | h
          · exact h
          · exact absurd (Or.inr ⟨by omega, h⟩) hr
        exact ⟨_, by rw [if_pos h2, M.bind_ok (addError_run _ _)]; rfl⟩
    obtain ⟨e, hk⟩ := key
    exact Safe.ok hk ⟨⟨h.addErr e, rfl, rfl⟩, c, hc.addErr e, by omega⟩

theorem Stack.WF.set {s : Stack} (h : s.WF) (i : Nat) (v : Value) : ({ s with vals := s.vals.set i v } : Stack).WF :=
  ⟨h.pow, by show (s.vals.set i v).length = _; rw [List.length_set]; exact h.len, h.mask, h.size⟩

theorem pokeAt_safe (h : I n vm) {i : Nat} (hs : Slot vm i) (v : Value) :
    Safe B (pokeAt i v) vm (fun _ vm' => Kept n vm vm') := by
  obtain ⟨c, hc, hi⟩ := hs
  obtain ⟨c', hc', hw⟩ := h.cur
  have : c' = c := by
    unfold VM.At at *; rw [hc] at hc'; cases hc'; rfl
  subst this
  exact Safe.ok (pokeAt_at hc v hi) ⟨h.setStack hc (hw.set i v), rfl, rfl⟩

theorem push_safe (h : I n vm) (v : Value) : Safe B (push v) vm (fun _ vm' => Kept n vm vm') := by
  unfold push
  refine (pushSlot_safe h).bind fun i vm1 h1 => ?_
  exact (pokeAt_safe h1.1.i h1.2 v).mono fun _ _ h2 => ⟨h2.i, h2.obj.trans h1.1.obj, h2.cur.trans h1.1.cur⟩

theorem pushInt_safe (h : I n vm) (i : BitVec 32) : Safe B (pushInt i) vm (fun _ vm' => Kept n vm vm') :=
  push_safe h _

theorem pop_safe (h : I n vm) : Safe B pop vm (fun _ vm' => Kept n vm vm') := by
  obtain ⟨c, hc, hw⟩ := h.cur
  have hlen := hw.len
  have hz := hw.size
  have hpos := hw.capPos
  unfold pop
  refine (curStack_safe h).bind fun s vm1 ⟨e1, hs, c', hc', e2⟩ => ?_
  subst e1
  have : c' = c := by unfold VM.At at *; rw [hc] at hc'; cases hc'; rfl
  subst this; subst e2
  by_cases h0 : c'.stack.size = 0
  · rw [if_pos h0]
    refine (addError_safe h _).bind fun _ vm2 h2 => ?_
    obtain ⟨c2, hc2, hw2⟩ := h2.i.cur
    have hl : 0 < c2.stack.vals.length := by rw [hw2.len]; exact hw2.capPos
    exact Safe.ok (peekAt_at hc2 (List.getElem?_eq_getElem hl)) h2
  · rw [if_neg h0]
    have hw' : ({ c'.stack with size := c'.stack.size - 1 } : Stack).WF :=
      ⟨hw.pow, hw.len, hw.mask, by show c'.stack.size - 1 ≤ c'.stack.cap; omega⟩
    refine (Safe.ok (Q := fun _ vm' => vm' = vm1.setC { c' with stack := { c'.stack with size := c'.stack.size - 1 } })
      (modStack_at hc _) rfl).bind ?_
    rintro _ vm2 rfl
    have hl : c'.stack.size - 1 < c'.stack.vals.length := by omega
    exact Safe.ok (peekAt_at (hc.setC _) (List.getElem?_eq_getElem hl)) ⟨h.setStack hc hw', rfl, rfl⟩

theorem popN_safe (h : I n vm) (k : Nat) : Safe B (popN k) vm (fun _ vm' => Kept n vm vm') := by
  obtain ⟨c, hc, hw⟩ := h.cur
  have hst : vm.Stk c c.stack.used := ⟨hc, hw, rfl⟩
  have hsz := hst.size
  have hz := hw.size
  have hwf : ∀ m, m ≤ c.stack.size → ({ c.stack with size := m } : Stack).WF :=
    fun m hm => ⟨hw.pow, hw.len, hw.mask, by show m ≤ c.stack.cap; omega⟩
  rcases Nat.lt_or_ge c.stack.used.length k with hk | hk
  · have e := popN_under hst hk
    exact Safe.ok e ⟨(h.addErr _).setStack (hc.addErr _) (hwf 0 (by omega)), rfl, rfl⟩
  · obtain ⟨e, _⟩ := popN_ok hst hk
    exact Safe.ok e ⟨h.setStack hc (hwf _ (by omega)), rfl, rfl⟩

theorem peek_safe (h : I n vm) (i : Nat) : Safe B (peek i) vm (fun _ vm' => vm' = vm) := by
  obtain ⟨c, hc, hw⟩ := h.cur
  obtain ⟨v, _, e⟩ := peek_ok hc hw i
  exact Safe.ok e rfl

theorem poke_safe (h : I n vm) (i : Nat) (v : Value) : Safe B (poke i v) vm (fun _ vm' => Kept n vm vm') := by
  obtain ⟨c, hc, hw⟩ := h.cur
  exact Safe.ok (poke_ok hc hw i v) ⟨h.setStack hc (hw.set _ v), rfl, rfl⟩

theorem pushAll_safe (l : List Value) : ∀ {vm : VM}, I n vm → Safe B (pushAll l) vm (fun _ vm' => I n vm' ∧ vm'.cur = vm.cur) := by
  induction l with
  | nil => intro vm h; exact Safe.pure ⟨h, rfl⟩
  | cons v l ih =>
    intro vm h
    exact (push_safe h v).bind fun _ vm1 h1 => (ih h1.i).mono fun _ _ h2 => ⟨h2.1, h2.2.trans h1.cur⟩

/-! ## Strings and conversions -/

variable (F : FloatOps)

theorem findOrAddString_safe (h : I n vm) (s : Bytes) :
    Safe B (findOrAddString s) vm (fun _ vm' => I n vm' ∧ SExt vm vm') := by
  obtain ⟨id, vm', e, hs⟩ := findOrAddString_sext h.str s
  exact Safe.ok e ⟨h.sext hs, hs⟩

theorem getString_safe (h : I n vm) (id : Nat) : Safe B (getString id) vm (fun _ vm' => vm' = vm) :=
  Safe.ok (getString_run h.str.tab id) rfl

theorem valueToString_safe (h : I n vm) (v : Value) :
    Safe B (valueToString F v) vm (fun _ vm' => I n vm' ∧ SExt vm vm') := by
  obtain ⟨id, vm', e, hs⟩ := valueToString_sext F h.str v
  exact Safe.ok e ⟨h.sext hs, hs⟩

theorem valueToInt_safe (hB : B .cast) (h : I n vm) (v : Value) :
    Safe B (valueToInt v) vm (fun _ vm' => I n vm' ∧ SExt vm vm') := by
  rcases valueToInt_sext h.str v with ⟨id, vm', e, hs⟩ | e
  · exact Safe.ok e ⟨h.sext hs, hs⟩
  · exact Safe.ub e hB

theorem valueToFloat_safe (h : I n vm) (v : Value) :
    Safe B (valueToFloat F v) vm (fun _ vm' => I n vm' ∧ SExt vm vm') := by
  obtain ⟨id, vm', e, hs⟩ := valueToFloat_sext F h.str v
  exact Safe.ok e ⟨h.sext hs, hs⟩

theorem valueCompare_safe (hB : B .cast) (h : I n vm) (a b : Value) (st : Bool) :
    Safe B (valueCompare F a b st) vm (fun _ vm' => I n vm' ∧ SExt vm vm') := by
  rcases valueCompare_sext F h.str a b st with ⟨id, vm', e, _, hs⟩ | e
  · exact Safe.ok e ⟨h.sext hs, hs⟩
  · exact Safe.ub e hB

theorem SExt.kept {vm vm' : VM} (h : I n vm) (hs : SExt vm vm') : Kept n vm vm' := ⟨h.sext hs, hs.objects, hs.cur⟩

theorem pushString_safe (h : I n vm) (s : Bytes) : Safe B (pushString s) vm (fun _ vm' => I n vm') := by
  unfold pushString
  refine (pushSlot_safe h).bind fun i vm1 h1 => ?_
  refine (findOrAddString_safe h1.1.i s).bind fun id vm2 h2 => ?_
  exact (pokeAt_safe h2.1 (h1.2.congr h2.2.ctxs h2.2.cur) _).mono fun _ _ h3 => h3.i

/-! ## Objects -/

theorem getObj_safe (h : I n vm) (id : Nat) :
    Safe B (getObj id) vm (fun o vm' => vm' = vm ∧ o = vm.objects.entry id) :=
  Safe.ok (getObj_run h.tab id) ⟨rfl, rfl⟩

theorem bucketOf_safe (h : I n vm) (v : Value) : Safe B (bucketOf v) vm (fun b vm' => vm' = vm ∧ b < 16) :=
  Safe.ok (bucketOf_run h.str.tab v) ⟨rfl, slot_lt vm v⟩

theorem findElem_safe (hB : B .cast) (key : Value) (es : List (Value × Value)) : ∀ (k : Nat) {vm : VM}, I n vm →
    Safe B (findElem F key es k) vm (fun p vm' => I n vm' ∧ SExt vm vm' ∧ ∀ m, p = some m → k ≤ m ∧ m < k + es.length) := by
  induction es with
  | nil => intro k vm h; exact Safe.pure ⟨h, SExt.refl h.str, fun m hm => by cases hm⟩
  | cons e es ih =>
    intro k vm h
    obtain ⟨a, b⟩ := e
    show Safe B (do
      let c ← valueCompare F key a true
      if c = 0 then Pure.pure (some k) else findElem F key es (k + 1)) vm _
    refine (valueCompare_safe F hB h key a true).bind fun c vm1 h1 => ?_
    by_cases hc : c = 0
    · rw [if_pos hc]
      exact Safe.pure ⟨h1.1, h1.2, fun m hm => by cases hm; simp⟩
    · rw [if_neg hc]
      refine (ih (k + 1) h1.1).mono fun p vm2 h2 => ⟨h2.1, h1.2.trans h2.2.1, fun m hm => ?_⟩
      have := h2.2.2 m hm
      simp only [List.length_cons]
      omega

theorem total_set {o : Obj} {b : Nat} {es es' : List (Value × Value)} (h : o.buckets[b]? = some es) {k : Nat} :
    ({ o with buckets := o.buckets.set b es', size := k } : Obj).total + es.length = o.total + es'.length := by
  unfold Obj.total
  have h1 : (o.buckets.map List.length)[b]? = some es.length := by simp [h]
  have := sum_set (b := es'.length) h1
  simpa [List.map_set] using this

/-- What `findOrAddEntry` guarantees about the position it returns. -/
def Elem (vm : VM) (id : Nat) (p : Nat × Nat) : Prop :=
  ∃ o es, vm.objects.entry id = some o ∧ o.buckets[p.1]? = some es ∧ p.2 < es.length

theorem bucket_get {o : Obj} (h : o.buckets.length = 16) {b : Nat} (hb : b < 16) : ∃ es, o.buckets[b]? = some es :=
  ⟨_, List.getElem?_eq_getElem (by omega)⟩

theorem entry_sext {vm vm' : VM} (hs : SExt vm vm') {id : Nat} {o : Obj} (h : vm.objects.entry id = some o) :
    vm'.objects.entry id = some o := by rw [hs.objects]; exact h

theorem findOrAddEntry_safe (hB : B .cast) (h : I n vm) {id : Nat} {o : Obj} (he : vm.objects.entry id = some o)
    (key : Value) (noAdd : Bool) :
    Safe B (findOrAddEntry F id key noAdd) vm (fun p vm' => I n vm' ∧ vm'.ctxs = vm.ctxs ∧ vm'.cur = vm.cur ∧
      (∀ q, p = some q → Elem vm' id q) ∧ (noAdd = true → SExt vm vm')) := by
  unfold findOrAddEntry
  refine (bucketOf_safe h key).bind fun b vm1 ⟨e1, hb⟩ => ?_
  subst e1
  refine (getObj_safe h id).bind fun x vm2 ⟨e2, e3⟩ => ?_
  subst e2
  rw [he] at e3
  subst e3
  have h16 := h.inv.buckets id o he
  obtain ⟨es, hes⟩ := bucket_get h16 hb
  simp only [hes]
  refine (findElem_safe F hB key es 0 h).bind fun p vm3 ⟨h3, hs, hp⟩ => ?_
  have he3 := entry_sext hs he
  cases p with
  | some m =>
    refine Safe.pure ⟨h3, hs.ctxs, hs.cur, ?_, fun _ => hs⟩
    intro q hq
    cases hq
    exact ⟨o, es, he3, hes, by have := (hp m rfl).2; simpa using this⟩
  | none =>
    cases noAdd with
    | true =>
      exact Safe.pure ⟨h3, hs.ctxs, hs.cur, fun q hq => (by cases hq), fun _ => hs⟩
    | false =>
      simp only [Bool.false_eq_true, if_false]
      refine Safe.get ?_
      have hlen : ∀ k, ({ o with buckets := o.buckets.set b ((key, Value.zero) :: es), size := k } : Obj).buckets.length = 16 :=
        fun k => by show (o.buckets.set b _).length = 16; rw [List.length_set]; exact h16
      have htot := fun k => total_set (o := o) (es' := (key, Value.zero) :: es) hes (k := k)
      have hb' : b < o.buckets.length := by omega
      split
      · refine (Safe.ok (Q := fun _ v => v = vm3.setO id { o with buckets := o.buckets.set b ((key, Value.zero) :: es) })
          (setObj_run h3.tab he3 _) rfl).bind ?_
        rintro _ v rfl
        refine (Safe.ok (Q := fun _ v => v = (vm3.setO id { o with buckets := o.buckets.set b ((key, Value.zero) :: es) }).addErr refusal)
          (addError_run _ _) rfl).bind ?_
        rintro _ v rfl
        refine Safe.pure ⟨?_, hs.ctxs, hs.cur, fun q hq => (by cases hq), fun hh => by cases hh⟩
        exact (h3.addErr refusal).setO (id := id) (o := o) he3 rfl rfl (hlen _) rfl (.inl (by simp [VM.addErr]))
      · next hcond =>
        refine (Safe.ok (Q := fun _ v => v = vm3.setO id { o with buckets := o.buckets.set b ((key, Value.zero) :: es), size := u32 (o.size + 1) })
          (setObj_run h3.tab he3 _) rfl).bind ?_
        rintro _ v rfl
        refine Safe.pure ⟨?_, hs.ctxs, hs.cur, ?_, fun hh => by cases hh⟩
        · refine h3.setO he3 rfl rfl (hlen _) rfl (.inr fun hok => ?_)
          have hsz := hok id o he3
          have ht := htot (u32 (o.size + 1))
          simp only [List.length_cons] at ht
          have hnz : u32 (o.size + 1) ≠ 0 := fun hz => hcond (.inl hz)
          have hu : u32 (o.size + 1) = o.size + 1 := by
            unfold u32 U32 at *
            omega
          rw [hu] at ht ⊢
          refine ⟨?_, ?_⟩
          · show o.size + 1 = _
            omega
          · show o.size + 1 < 4294967296
            unfold u32 U32 at *
            omega
        · intro q hq
          cases hq
          exact ⟨_, (key, Value.zero) :: es, by rw [setO_entry h3.tab he3]; exact if_pos rfl,
            by show (o.buckets.set b _)[b]? = _; rw [List.getElem?_set_self hb'], by simp⟩

theorem readElem_safe (h : I n vm) {id : Nat} {p : Nat × Nat} (he : Elem vm id p) :
    Safe B (readElem id p) vm (fun _ vm' => vm' = vm) := by
  obtain ⟨o, es, e1, e2, e3⟩ := he
  unfold readElem
  refine (getObj_safe h id).bind fun x vm1 ⟨g1, g2⟩ => ?_
  subst g1
  rw [e1] at g2
  subst g2
  simp only [e2, List.getElem?_eq_getElem e3]
  exact Safe.pure rfl

theorem writeElem_safe (h : I n vm) {id : Nat} {p : Nat × Nat} (he : Elem vm id p) (v : Value) :
    Safe B (writeElem id p v) vm (fun _ vm' => I n vm' ∧ vm'.ctxs = vm.ctxs ∧ vm'.cur = vm.cur) := by
  obtain ⟨o, es, e1, e2, e3⟩ := he
  unfold writeElem
  refine (getObj_safe h id).bind fun x vm1 ⟨g1, g2⟩ => ?_
  subst g1
  rw [e1] at g2
  subst g2
  simp only [e2, List.getElem?_eq_getElem e3]
  refine Safe.ok (setObj_run h.tab e1 _) ⟨h.setO e1 rfl rfl ?_ rfl (.inr fun hok => ?_), rfl, rfl⟩
  · show (o.buckets.set p.1 _).length = 16
    rw [List.length_set]; exact h.inv.buckets id o e1
  · have := total_set (o := o) (es' := es.set p.2 (es[p.2].1, v)) e2 (k := o.size)
    have hs := hok id o e1
    rw [List.length_set] at this
    refine ⟨?_, hs.2⟩
    show o.size = _
    have h2 : ({ o with buckets := o.buckets.set p.1 (es.set p.2 (es[p.2].1, v)) } : Obj).total = o.total := by
      have h3 : ({ o with buckets := o.buckets.set p.1 (es.set p.2 (es[p.2].1, v)), size := o.size } : Obj).total = o.total := by
        omega
      exact h3
    rw [h2]; exact hs.1

theorem lookupField_safe (hB : B .cast) (h : I n vm) {id : Nat} {o : Obj} (he : vm.objects.entry id = some o)
    (key : Value) : Safe B (lookupField F id key) vm (fun _ vm' => I n vm' ∧ SExt vm vm') := by
  unfold lookupField
  refine (findOrAddEntry_safe F hB h he key true).bind fun p vm1 ⟨h1, h2, h3, h4, h5⟩ => ?_
  cases p with
  | none => exact Safe.pure ⟨h1, h5 rfl⟩
  | some p =>
    refine (readElem_safe h1 (h4 p rfl)).bind fun v vm2 e => ?_
    subst e
    exact Safe.pure ⟨h1, h5 rfl⟩

theorem clearEntry_safe (hB : B .cast) (hA : B .assert ∨ SizesOK vm) (h : I n vm) {id : Nat} {o : Obj}
    (he : vm.objects.entry id = some o) (key : Value) :
    Safe B (clearEntry F id key) vm (fun _ vm' => I n vm' ∧ vm'.ctxs = vm.ctxs ∧ vm'.cur = vm.cur) := by
  unfold clearEntry
  refine (bucketOf_safe h key).bind fun b vm1 ⟨e1, hb⟩ => ?_
  subst e1
  refine (getObj_safe h id).bind fun x vm2 ⟨e2, e3⟩ => ?_
  subst e2
  rw [he] at e3
  subst e3
  have h16 := h.inv.buckets id o he
  obtain ⟨es, hes⟩ := bucket_get h16 hb
  simp only [hes]
  refine (findElem_safe F hB key es 0 h).bind fun p vm3 ⟨h3, hs, hp⟩ => ?_
  have he3 := entry_sext hs he
  cases p with
  | none => exact Safe.pure ⟨h3, hs.ctxs, hs.cur⟩
  | some m =>
    have hm := (hp m rfl).2
    have hm : m < es.length := by omega
    have hle : es.length ≤ o.total := by
      unfold Obj.total
      exact le_sum (i := b) (by simp [hes])
    by_cases h0 : o.size = 0
    · simp only [h0, if_true]
      rcases hA with hA | hA
      · exact Safe.ub (liftR_ub _ _) hA
      · have := (hA id o he).1
        omega
    · simp only [h0, if_false]
      refine Safe.ok (setObj_run h3.tab he3 _) ⟨h3.setO he3 rfl rfl ?_ rfl (.inr fun hok => ?_), hs.ctxs, hs.cur⟩
      · show (o.buckets.set b _).length = 16
        rw [List.length_set]; exact h16
      · have := total_set (o := o) (es' := es.eraseIdx m) hes (k := o.size - 1)
        have hsz := hok id o he3
        rw [List.length_eraseIdx_of_lt hm] at this
        refine ⟨?_, ?_⟩
        · show o.size - 1 = _
          omega
        · show o.size - 1 < 4294967296
          omega

theorem storeField_safe (hB : B .cast) (hA : B .assert ∨ SizesOK vm) (h : I n vm) {id : Nat} {o : Obj}
    (he : vm.objects.entry id = some o) (key v : Value) :
    Safe B (storeField F id key v) vm (fun _ vm' => I n vm') := by
  unfold storeField
  by_cases hv : v = .nil
  · rw [if_pos hv]
    exact (clearEntry_safe F hB hA h he key).mono fun _ _ h => h.1
  · rw [if_neg hv]
    refine (findOrAddEntry_safe F hB h he key false).bind fun p vm1 ⟨h1, h2, h3, h4, h5⟩ => ?_
    cases p with
    | none => exact Safe.pure h1
    | some p => exact (writeElem_safe h1 (h4 p rfl) v).mono fun _ _ h => h.1

theorem objFromValue_obj {vm : VM} (h : vm.objects.WF) (id : Nat) :
    objFromValue (.obj id) vm = .ok ((vm.objects.entry id).map (fun o => (id, o)), vm) := by
  show (getObj id >>= fun o => Pure.pure (o.map (fun o => (id, o)))) vm = _
  rw [M.bind_ok (getObj_run h id)]; rfl

theorem objFromValue_safe (h : I n vm) (v : Value) : Safe B (objFromValue v) vm
    (fun r vm' => vm' = vm ∧ ∀ id o, r = some (id, o) → v = .obj id ∧ vm.objects.entry id = some o) := by
  unfold objFromValue
  split
  · next id =>
    refine Safe.ok (objFromValue_obj h.tab id) ⟨rfl, ?_⟩
    intro i o hr
    cases hx : vm.objects.entry id with
    | none => rw [hx] at hr; cases hr
    | some x => rw [hx] at hr; cases hr; exact ⟨rfl, hx⟩
  · exact Safe.pure ⟨rfl, fun _ _ h => by cases h⟩

theorem lookupPublic_safe (hB : B .cast) (h : I n vm) (v key : Value) :
    Safe B (lookupPublic F v key) vm (fun _ vm' => I n vm' ∧ SExt vm vm') := by
  unfold lookupPublic
  refine (objFromValue_safe h v).bind fun r vm1 ⟨e, hr⟩ => ?_
  subst e
  cases r with
  | none =>
    refine (Safe.ok (Q := fun _ v => v = vm1.addErr _) (addError_run _ _) rfl).bind ?_
    rintro _ v rfl
    exact Safe.pure ⟨h.addErr _, SExt.addErr h.str _⟩
  | some p => exact lookupField_safe F hB h (hr p.1 p.2 rfl).2 key

theorem objectSize_safe (h : I n vm) (v : Value) :
    Safe B (objectSize v) vm (fun _ vm' => I n vm' ∧ SExt vm vm') := by
  unfold objectSize
  refine (objFromValue_safe h v).bind fun r vm1 ⟨e, hr⟩ => ?_
  subst e
  cases r with
  | none =>
    refine (Safe.ok (Q := fun _ v => v = vm1.addErr _) (addError_run _ _) rfl).bind ?_
    rintro _ v rfl
    exact Safe.pure ⟨h.addErr _, SExt.addErr h.str _⟩
  | some p => exact Safe.pure ⟨h, SExt.refl h.str⟩

theorem getExtType_safe (h : I n vm) (v : Value) :
    Safe B (getExtType v) vm (fun t vm' => I n vm' ∧ SExt vm vm' ∧
      (t = vm.coType → ∃ id o, v = .obj id ∧ vm.objects.entry id = some o ∧ o.extType = vm.coType)) := by
  unfold getExtType
  refine (objFromValue_safe h v).bind fun r vm1 ⟨e, hr⟩ => ?_
  subst e
  cases r with
  | none =>
    refine (Safe.ok (Q := fun _ v => v = vm1.addErr _) (addError_run _ _) rfl).bind ?_
    rintro _ v rfl
    refine Safe.pure ⟨h.addErr _, SExt.addErr h.str _, fun e => ?_⟩
    obtain ⟨t, _, _, _, hne⟩ := h.inv.heap.co.type
    exact absurd e.symm hne
  | some p =>
    obtain ⟨id, o⟩ := p
    exact Safe.pure ⟨h, SExt.refl h.str, fun e => ⟨id, o, (hr id o rfl).1, (hr id o rfl).2, e⟩⟩

/-- The context of a coroutine object. -/
theorem getExtData_co (h : I n vm) {id : Nat} {o : Obj} (he : vm.objects.entry id = some o)
    (hco : o.extType = vm.coType) : Safe B (getExtData (.obj id)) vm (fun d vm' => vm' = vm ∧
      ∃ k c, d = some k ∧ k ≠ 0 ∧ vm.ctxs[k]? = some (some c)) := by
  obtain ⟨k, c, g1, g2, g3, _⟩ := h.inv.heap.co.own id o he hco
  refine Safe.ok (a := o.extData) ?_ ⟨rfl, k, c, g1, g2, g3⟩
  unfold getExtData
  rw [M.bind_ok (objFromValue_obj h.tab id), he]
  rfl

/-! ## Contexts -/

theorem CoWF.replace {vm : VM} (h : CoWF vm) {i : Nat} {c c' : Ctx} (hc : vm.ctxs[i]? = some (some c))
    (hw : c'.stack.WF) (ho : c'.coObj = c.coObj) (hr : i ≠ 0) {cur' : Nat}
    (hch : ∃ l : List Nat, l.Nodup ∧ l.head? = some cur' ∧ l.getLast? = some 0 ∧
      (∀ (n x y : Nat), l[n]? = some x → l[n + 1]? = some y →
        ∃ d, (if x = i then some (some c') else vm.ctxs[x]?) = some (some d) ∧ d.parent = some y) ∧
      (∀ (x : Nat) (d : Ctx), (if x = i then some (some c') else vm.ctxs[x]?) = some (some d) →
        d.parent ≠ none → x ∈ l)) :
    CoWF { vm with ctxs := vm.ctxs.set i (some c'), cur := cur' } := by
  have hlt : i < vm.ctxs.length := (List.getElem?_eq_some_iff.mp hc).1
  have get : ∀ j, (vm.ctxs.set i (some c'))[j]? = if j = i then some (some c') else vm.ctxs[j]? := by
    intro j
    by_cases hj : j = i
    · subst hj; rw [if_pos rfl, List.getElem?_set_self hlt]
    · rw [if_neg hj, List.getElem?_set_ne (fun e => hj e.symm)]
  refine ⟨?_, ?_, ?_, ?_, ?_, h.type⟩
  · obtain ⟨r, h1, h2, h3⟩ := h.root
    exact ⟨r, by show (vm.ctxs.set i (some c'))[0]? = _; rw [get, if_neg (fun e => hr e.symm)]; exact h1, h2, h3⟩
  · intro j d hd
    have hd : (vm.ctxs.set i (some c'))[j]? = some (some d) := hd
    rw [get] at hd
    by_cases hj : j = i
    · rw [if_pos hj] at hd; cases hd; exact hw
    · rw [if_neg hj] at hd; exact h.stack j d hd
  · intro id o h1 h2
    obtain ⟨j, d, g1, g2, g3, g4⟩ := h.own id o h1 h2
    by_cases hj : j = i
    · subst hj
      rw [hc] at g3; cases g3
      exact ⟨j, c', g1, g2, by show (vm.ctxs.set j (some c'))[j]? = _; rw [get]; simp, by rw [ho]; exact g4⟩
    · exact ⟨j, d, g1, g2, by show (vm.ctxs.set i (some c'))[j]? = _; rw [get, if_neg hj]; exact g3, g4⟩
  · intro j d h1 h2
    have h2 : (vm.ctxs.set i (some c'))[j]? = some (some d) := h2
    rw [get] at h2
    by_cases hj : j = i
    · rw [if_pos hj] at h2; cases h2
      subst hj
      obtain ⟨id, o, g⟩ := h.owned j c h1 hc
      exact ⟨id, o, by rw [ho]; exact g.1, g.2⟩
    · rw [if_neg hj] at h2
      exact h.owned j d h1 h2
  · obtain ⟨l, a1, a2, a3, a4, a5⟩ := hch
    refine ⟨l, a1, a2, a3, ?_, ?_⟩
    · intro m x y hx hy
      show ∃ c, (vm.ctxs.set i (some c'))[x]? = _ ∧ _
      rw [get]; exact a4 m x y hx hy
    · intro j d hd hn
      have hd : (vm.ctxs.set i (some c'))[j]? = some (some d) := hd
      rw [get] at hd
      exact a5 j d hd hn

theorem CoWF.pop {vm : VM} (h : CoWF vm) {c : Ctx} (hc : vm.At c) {p : Nat} (hp : c.parent = some p) :
    CoWF { vm with ctxs := vm.ctxs.set vm.cur (some { c with parent := none }), cur := p } := by
  have hc : vm.ctxs[vm.cur]? = some (some c) := hc
  obtain ⟨r, hr1, hr2, _⟩ := h.root
  have h0 : vm.cur ≠ 0 := by
    intro e
    rw [e, hr1] at hc; cases hc
    rw [hr2] at hp; cases hp
  refine h.replace (c' := { c with parent := none }) hc (h.stack vm.cur c hc) rfl h0 ?_
  obtain ⟨l, a1, a2, a3, a4, a5⟩ := h.chain
  match l, a1, a2, a3, a4, a5 with
  | [x], a1, a2, a3, a4, a5 =>
    simp at a2 a3
    exact absurd (a2.symm.trans a3) h0
  | x :: y :: l, a1, a2, a3, a4, a5 =>
    simp only [List.head?_cons, Option.some.injEq] at a2
    subst a2
    obtain ⟨d, d1, d2⟩ := a4 0 vm.cur y rfl rfl
    rw [hc] at d1; cases d1
    rw [hp] at d2; cases d2
    have hnot : vm.cur ∉ p :: l := (List.nodup_cons.mp a1).1
    refine ⟨p :: l, (List.nodup_cons.mp a1).2, rfl, ?_, ?_, ?_⟩
    · rw [← a3]; rfl
    · intro m x z hx hz
      obtain ⟨d, d1, d2⟩ := a4 (m + 1) x z hx hz
      have : x ≠ vm.cur := fun e => hnot (e ▸ List.mem_of_getElem? hx)
      exact ⟨d, by rw [if_neg this]; exact d1, d2⟩
    · intro j d hd hn
      by_cases hj : j = vm.cur
      · rw [if_pos hj] at hd; cases hd
        exact absurd rfl hn
      · rw [if_neg hj] at hd
        rcases List.mem_cons.mp (a5 j d hd hn) with e | e
        · exact absurd e hj
        · exact e

theorem CoWF.push {vm : VM} (h : CoWF vm) {k : Nat} {c : Ctx} (hc : vm.ctxs[k]? = some (some c)) (hk : k ≠ 0)
    (hp : c.parent = none) :
    CoWF { vm with ctxs := vm.ctxs.set k (some { c with parent := some vm.cur }), cur := k } := by
  refine h.replace (c' := { c with parent := some vm.cur }) hc (h.stack k c hc) rfl hk ?_
  obtain ⟨l, a1, a2, a3, a4, a5⟩ := h.chain
  have hnot : k ∉ l := by
    intro hm
    obtain ⟨m, hm, e⟩ := List.mem_iff_getElem.mp hm
    by_cases hlt : m + 1 < l.length
    · obtain ⟨d, d1, d2⟩ := a4 m k _ (by rw [List.getElem?_eq_getElem hm, e]) (List.getElem?_eq_getElem hlt)
      rw [hc] at d1; cases d1
      rw [hp] at d2; cases d2
    · rw [List.getLast?_eq_getElem?, show l.length - 1 = m by omega, List.getElem?_eq_getElem hm, e] at a3
      exact hk (Option.some.inj a3)
  have hne : l ≠ [] := by rintro rfl; cases a2
  refine ⟨k :: l, List.nodup_cons.mpr ⟨hnot, a1⟩, rfl, ?_, ?_, ?_⟩
  · rw [List.getLast?_cons_of_ne_nil hne]; exact a3
  · intro m x y hx hy
    cases m with
    | zero =>
      simp only [List.getElem?_cons_zero, Option.some.injEq] at hx
      subst hx
      rw [if_pos rfl]
      simp only [Nat.zero_add, List.getElem?_cons_succ] at hy
      rw [List.head?_eq_getElem?, hy] at a2
      cases a2
      exact ⟨_, rfl, rfl⟩
    | succ m =>
      simp only [List.getElem?_cons_succ] at hx hy
      obtain ⟨d, d1, d2⟩ := a4 m x y hx hy
      have : x ≠ k := fun e => hnot (e ▸ List.mem_of_getElem? hx)
      exact ⟨d, by rw [if_neg this]; exact d1, d2⟩
  · intro j d hd hn
    by_cases hj : j = k
    · rw [hj]; exact List.mem_cons_self
    · rw [if_neg hj] at hd
      exact List.mem_cons_of_mem _ (a5 j d hd hn)

theorem I.ctxs (h : I n vm) {cs : List (Option Ctx)} {k : Nat} (hco : CoWF { vm with ctxs := cs, cur := k }) :
    I n { vm with ctxs := cs, cur := k } :=
  ⟨⟨⟨⟨h.str.tab, h.str.blen, h.str.nodup, h.str.mem, h.str.hash, h.str.bucket, h.str.inj⟩, h.tab,
    hco, h.inv.heap.statics, h.inv.heap.handles, h.inv.heap.passO,
    h.inv.heap.passS⟩, h.inv.instrs, h.inv.buckets, h.inv.natives, h.inv.sizes⟩, h.pass⟩

theorem popContext_run {vm : VM} {c : Ctx} (hc : vm.At c) {p : Nat} (hp : c.parent = some p) :
    popContext vm = .ok ((), { vm with ctxs := vm.ctxs.set vm.cur (some { c with parent := none }), cur := p }) := by
  unfold popContext
  rw [M.bind_ok (get_run vm), M.bind_ok (curCtx_at hc)]
  simp only [hp]
  have : setCtx vm.cur { c with parent := none } vm =
      .ok ((), { vm with ctxs := vm.ctxs.set vm.cur (some { c with parent := none }) }) := by
    unfold setCtx
    rw [hc.ctxAt]
  rw [M.bind_ok this]
  rfl

theorem popContext_safe (h : I n vm) : Safe B popContext vm (fun _ vm' => I n vm') := by
  obtain ⟨c, hc, hw⟩ := h.cur
  cases hp : c.parent with
  | none =>
    refine Safe.ok (vm' := vm.addErr "Cannot yield out of the root context.\n") (a := ()) ?_ (h.addErr _)
    unfold popContext
    rw [M.bind_ok (get_run vm), M.bind_ok (curCtx_at hc)]
    simp only [hp]
    rfl
  | some p => exact Safe.ok (popContext_run hc hp) (h.ctxs (h.inv.heap.co.pop hc hp))

theorem pushContext_run {vm : VM} {c : Ctx} {k : Nat} (hc : vm.ctxs[k]? = some (some c)) (hp : c.parent = none) :
    pushContext k vm = .ok ((), { vm with ctxs := vm.ctxs.set k (some { c with parent := some vm.cur }), cur := k }) := by
  unfold pushContext
  rw [M.bind_ok (get_run vm), ctxAt_iff.mpr hc, M.bind_ok (liftR_ok c vm)]
  simp only [hp]
  have : setCtx k { c with parent := some vm.cur } vm =
      .ok ((), { vm with ctxs := vm.ctxs.set k (some { c with parent := some vm.cur }) }) := by
    unfold setCtx
    rw [ctxAt_iff.mpr hc]
  rw [M.bind_ok this]
  rfl

end Nk
