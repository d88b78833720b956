import Verif.Lemmas.CompKeep
import Verif.Lemmas.Safe
import Verif.Lemmas.CompSafe
/-!
# Compiling keeps the data structures of the VM in order
-/
namespace Nk.Cc

/-- In order, and small enough for the compiler's arrays to double without wrapping. -/
structure Tidy (vm : VM) : Prop where
  inv : Nk.Inv vm
  stat : vm.staticMask + 1 < UINT_MAX / 8
  code : vm.instrMask + 1 < UINT_MAX / 4

variable {vm vm' : VM}

theorem inv_of (h : Nk.Inv vm) (h1 : vm'.ctxs = vm.ctxs) (h2 : vm'.cur = vm.cur) (h3 : vm'.objects = vm.objects) (h4 : vm'.extTypes = vm.extTypes)
    (h5 : vm'.coType = vm.coType) (h6 : vm'.strings = vm.strings) (h7 : vm'.sbuckets = vm.sbuckets) (h8 : vm'.statics.length = vm'.staticMask + 1)
    (h9 : vm'.handles = vm.handles) (h10 : vm'.gc = vm.gc) (h11 : vm'.instrs.length = vm'.instrMask + 1)
    (h12 : ∀ f ∈ vm'.extFuncs, f.argc ≠ UINT_MAX → f.argTypes.length = f.argc ∧ f.argExtTypes.length = f.argc)
    (h13 : vm.errors <+: vm'.errors) : Nk.Inv vm' := by
  refine ⟨⟨?_, ?_, h.heap.co.of_eq h1 h2 h3 h4 h5, h8, ?_, ?_, ?_⟩, h11, ?_, h12, ?_⟩
  · obtain ⟨a, b, c, d, e, f, g⟩ := h.heap.str
    refine ⟨?_, ?_, ?_, ?_, ?_, ?_, ?_⟩ <;> simp only [h6, h7] <;> assumption
  · rw [h3]; exact h.heap.tab
  · rw [h9, h3]; exact h.heap.handles
  · rw [h3, h10]; exact h.heap.passO
  · rw [h6, h10]; exact h.heap.passS
  · rw [h3]; exact h.buckets
  · rcases h.sizes with h0 | h0
    · exact .inl (h13.subset h0)
    · exact .inr (by unfold SizesOK; rw [h3]; exact h0)

/-- Changes that nothing in `Tidy` is about, and more errors. -/
theorem Tidy.of (h : Tidy vm) (h1 : vm'.ctxs = vm.ctxs) (h2 : vm'.cur = vm.cur) (h3 : vm'.objects = vm.objects) (h4 : vm'.extTypes = vm.extTypes)
    (h5 : vm'.coType = vm.coType) (h6 : vm'.strings = vm.strings) (h7 : vm'.sbuckets = vm.sbuckets) (h8 : vm'.statics.length = vm.statics.length)
    (h8' : vm'.staticMask = vm.staticMask)
    (h9 : vm'.handles = vm.handles) (h10 : vm'.gc = vm.gc) (h11 : vm'.instrs.length = vm.instrs.length) (h11' : vm'.instrMask = vm.instrMask)
    (h12 : ∀ f ∈ vm'.extFuncs, f.argc ≠ UINT_MAX → f.argTypes.length = f.argc ∧ f.argExtTypes.length = f.argc)
    (h13 : vm.errors <+: vm'.errors) : Tidy vm' :=
  ⟨inv_of h.inv h1 h2 h3 h4 h5 h6 h7 (by rw [h8, h8', h.inv.heap.statics]) h9 h10 (by rw [h11, h11', h.inv.instrs]) h12 h13,
    by rw [h8']; exact h.stat, by rw [h11']; exact h.code⟩

theorem Tidy.err (h : Tidy vm) (e : String) : Tidy { vm with errors := vm.errors ++ [e] } :=
  h.of rfl rfl rfl rfl rfl rfl rfl rfl rfl rfl rfl rfl rfl h.inv.natives (List.prefix_append _ _)

theorem twice_or (n : Nat) (h : n < 2147483648) : u32 (n * 2) ||| 1 = n * 2 + 1 := by
  rw [show u32 (n * 2) = n * 2 by unfold u32 U32; omega]
  have := Nat.two_pow_add_eq_or_of_lt (i := 1) (b := 1) (by decide) n
  rw [Nat.mul_comm n 2, ← this]

theorem tidy_grow : CKeep (fun s => Tidy s.vm) growInstrs := ⟨fun s a s' h e => by
  have hc := h.code
  have hl := h.inv.instrs
  unfold growInstrs at e
  rw [CM.cget_bind] at e
  have e1 : u32 (s.vm.instrMask + 1) = s.vm.instrMask + 1 := by unfold u32 U32; unfold UINT_MAX at hc; omega
  have e2 : u32 ((s.vm.instrMask + 1) * 2) = (s.vm.instrMask + 1) * 2 := by unfold u32 U32; unfold UINT_MAX at hc; omega
  have e3 := twice_or s.vm.instrMask (by unfold UINT_MAX at hc; omega)
  dsimp only at e
  rw [e1, e2, e3, if_neg (by unfold UINT_MAX at hc ⊢; omega)] at e
  obtain ⟨m, s1, g1, e⟩ := CM.bind_inv e
  cases g1
  by_cases hn : (s.vm.instrMask + 1) * 2 ≥ UINT_MAX / 4
  · rw [if_pos hn] at e; cases e
  · rw [if_neg hn, if_neg (by omega)] at e
    cases e
    refine ⟨inv_of h.inv rfl rfl rfl rfl rfl rfl rfl h.inv.heap.statics rfl rfl ?_ h.inv.natives List.prefix_rfl, h.stat, ?_⟩
    · show (s.vm.instrs.take _ ++ List.replicate _ _).length = _
      rw [List.length_append, List.length_take, List.length_replicate, hl]
      show _ = s.vm.instrMask * 2 + 1 + 1
      omega
    · show s.vm.instrMask * 2 + 1 + 1 < _
      omega⟩

theorem tidy_alloc : CKeep (fun s => Tidy s.vm) allocStatic := ⟨fun s a s' h e => by
  have hc := h.stat
  have hl := h.inv.heap.statics
  unfold allocStatic at e
  rw [CM.cget_bind] at e
  obtain ⟨ok, s1, g1, e⟩ := CM.bind_inv e
  have h1 : Tidy s1.vm := by
    by_cases hm : u32 (s.vm.staticMask + 1) = s.staticCount
    · rw [if_pos hm] at g1
      have e1 : u32 (s.vm.staticMask + 1) = s.vm.staticMask + 1 := by unfold u32 U32; unfold UINT_MAX at hc; omega
      have e3 := twice_or s.vm.staticMask (by unfold UINT_MAX at hc; omega)
      dsimp only at g1
      rw [e3, CM.cmod_bind, if_neg (by unfold UINT_MAX at hc ⊢; omega)] at g1
      by_cases hn : s.vm.staticMask * 2 + 1 + 1 ≥ UINT_MAX / 8
      · rw [if_pos hn] at g1; cases g1
      · rw [if_neg hn, CM.cmod_bind] at g1
        cases g1
        refine ⟨inv_of h.inv rfl rfl rfl rfl rfl rfl rfl ?_ rfl rfl h.inv.instrs h.inv.natives List.prefix_rfl, ?_, h.code⟩
        · show (s.vm.statics.take _ ++ List.replicate _ _).length = s.vm.staticMask * 2 + 1 + 1
          rw [List.length_append, List.length_take, List.length_replicate, hl]
          show min s.staticCount _ + s.staticCount = _
          omega
        · show s.vm.staticMask * 2 + 1 + 1 < _
          omega
    · rw [if_neg hm] at g1
      cases g1; exact h
  split at e
  · rw [CM.cmod_bind, CM.cget_bind] at e
    split at e
    · obtain ⟨_, s2, g2, e⟩ := CM.bind_inv e
      cases g2; cases e
      exact h1.err _
    · cases e; exact h1
  · cases e; exact h1⟩

theorem tidy_keepString (i : Nat) : Pres Tidy (keepString i) := ⟨fun vm a vm' h e => by
  have hs := h.inv.heap.str
  unfold keepString at e
  rw [Table.get_eq hs.tab i] at e
  cases he : vm.strings.entry i with
  | none => rw [he] at e; cases e; exact h
  | some x =>
    obtain ⟨w1, w2, w3⟩ := Table.write_live hs.tab he { x with dontGC := true }
    rw [he] at e
    simp only [w1] at e
    cases e
    have hi := h.inv
    refine ⟨⟨⟨StrWF.replace hs he rfl rfl, hi.heap.tab, hi.heap.co.of_eq rfl rfl rfl rfl rfl, hi.heap.statics, hi.heap.handles, hi.heap.passO, ?_⟩, hi.instrs, hi.buckets,
      hi.natives, hi.sizes⟩, h.stat, h.code⟩
    intro id y hy
    replace hy : Table.entry { vm.strings with slots := vm.strings.slots.set i (some { x with dontGC := true }) } id = some y := hy
    rw [w3 id] at hy
    split at hy
    · cases hy; exact hi.heap.passS i x he
    · exact hi.heap.passS id y hy⟩

instance : VFrame Tidy where
  err vm e h := h.err e
  mark vm l h := h.of rfl rfl rfl rfl rfl rfl rfl rfl rfl rfl rfl rfl rfl h.inv.natives List.prefix_rfl
  code vm i w h := h.of rfl rfl rfl rfl rfl rfl rfl rfl rfl rfl rfl List.length_set rfl h.inv.natives List.prefix_rfl
  grow := tidy_grow
  alloc := tidy_alloc
  intern t := ⟨fun vm a vm' h e => by
    obtain ⟨id, v, e', hs⟩ := findOrAddString_sext h.inv.heap.str t
    rw [e] at e'; cases e'
    have := I.sext (n := vm.gc.lastGCPass) ⟨h.inv, rfl⟩ hs
    have f := hs.frame
    refine ⟨this.inv, ?_, ?_⟩
    · rw [f]; exact h.stat
    · rw [f]; exact h.code⟩
  keep := tidy_keepString
  fns vm l h := h.of rfl rfl rfl rfl rfl rfl rfl rfl rfl rfl rfl rfl rfl h.inv.natives List.prefix_rfl
  files vm es fs hl h := h.of rfl rfl rfl rfl rfl rfl rfl rfl rfl rfl rfl rfl rfl h.inv.natives hl
  names vm l h := h.of rfl rfl rfl rfl rfl rfl rfl rfl rfl rfl rfl rfl rfl h.inv.natives List.prefix_rfl
  put vm i v h := h.of rfl rfl rfl rfl rfl rfl rfl List.length_set rfl rfl rfl rfl rfl h.inv.natives List.prefix_rfl
  native n cb := by
    unfold registerNative registerNativeNoSearch
    refine Pres.bind .get fun v => ?_
    dsimp only
    split
    · refine Pres.bind .get fun v => ?_
      split
      · exact Pres.bind (Pres.modify fun vm h => h.err _) fun _ => .pure
      · refine Pres.bind (Pres.modify fun vm h => h.of rfl rfl rfl rfl rfl rfl rfl rfl rfl rfl rfl rfl rfl ?_ List.prefix_rfl) fun _ => .pure
        intro f hf
        rcases List.mem_append.1 hf with hf | hf
        · exact h.inv.natives f hf
        · rw [List.mem_singleton.1 hf]; intro h; exact absurd rfl h
    · exact .pure
  inner i := ⟨fun vm a vm' h e => by
    unfold internalFor at e
    rw [M.bind_ok (get_run vm)] at e
    cases hf : vm.extFuncs[i]? with
    | none => rw [hf] at e; cases e; exact h.err _
    | some f =>
      rw [hf] at e
      dsimp only at e
      by_cases h1 : f.internalId = UINT_MAX
      · rw [if_pos h1] at e
        by_cases h2 : vm.functions.length + 1 ≥ UINT_MAX / 12
        · rw [M.bind_ub (show createFunction vm = .ub .longjmp by unfold createFunction; rw [M.bind_ok (get_run vm), if_pos h2]; rfl)] at e
          cases e
        · rw [M.bind_ok (show createFunction vm = .ok (vm.functions.length, { vm with functions := vm.functions ++ [{ argc := 0, first := 0, extId := UINT_MAX }] }) by
            unfold createFunction; rw [M.bind_ok (get_run vm), if_neg h2]; rfl)] at e
          cases e
          refine h.of rfl rfl rfl rfl rfl rfl rfl rfl rfl rfl rfl rfl rfl ?_ List.prefix_rfl
          intro g hg
          rcases List.mem_or_eq_of_mem_set hg with hg | rfl
          · exact h.inv.natives g hg
          · exact h.inv.natives f (List.mem_of_getElem? hf)
      · rw [if_neg h1] at e
        cases e; exact h⟩

end Nk.Cc
