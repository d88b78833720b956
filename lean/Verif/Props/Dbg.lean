import Verif.Lemmas.Dbg
import Verif.Spec.Sandbox
import Verif.Props.Sandbox
import Verif.Props.Life
/-!
# C74: dumping the state of a VM
-/
namespace Nk.Props
open Nk.Dbg CStr Nk.Spec

theorem each_ok {α : Type} {l : List α} {f : α → Res Bytes} (h : ∀ a ∈ l, ∃ t, f a = .ok t) : ∃ t, each l f = .ok t := by
  induction l with
  | nil => exact ⟨[], rfl⟩
  | cons a l ih =>
    obtain ⟨t, ht⟩ := h a (by simp)
    obtain ⟨r, hr⟩ := ih (fun b hb => h b (by simp [hb]))
    exact ⟨t ++ r, by unfold each; rw [ht]; simp only [Res.ok_bind]; rw [hr]; rfl⟩

theorem elem_ok {α : Type} {l : List α} {i : Nat} (h : i < l.length) : Dbg.elem l i = .ok l[i] := by
  unfold Dbg.elem
  rw [List.getElem?_eq_getElem h]

theorem buf_len (junk : Nat → UInt8) : (buf junk).length = 80 := by simp [buf, fresh]

theorem valueDump_ok {vm : VM} (F : FloatOps) (junk : Nat → UInt8) (h : vm.strings.WF) (v : Value) : ∃ t, valueDump F junk vm v = .ok t := by
  cases v with
  | str id =>
    obtain ⟨e, he⟩ := get_ok h id
    obtain ⟨b1, h1, g1⟩ := clear_ok (buf_len junk)
    obtain ⟨b2, k, h2, g2, _⟩ := appendEscaped_ok (size := 80) (strOr e (cs "<bad id>")) (by decide) g1
    refine ⟨cs "string:" ++ natDec id ++ cs ":\"" ++ ([] ++ ((strOr e (cs "<bad id>")).take k).flatMap escaped) ++ cs "\"", ?_⟩
    unfold valueDump
    dsimp only
    rw [he]; simp only [Res.ok_bind]
    rw [h1]; simp only [Res.ok_bind]
    rw [h2]; simp only [Res.ok_bind]
    rw [g2.text]; rfl
  | _ => exact ⟨_, rfl⟩

theorem context_ok {vm : VM} (F : FloatOps) (junk : Nat → UInt8) (h : vm.strings.WF) {c : Ctx} (hc : c.stack.WF) :
    ∃ t, context F junk vm c = .ok t := by
  unfold context
  obtain ⟨t, ht⟩ := each_ok (l := List.range c.stack.size) (f := fun i => do
    let v ← Dbg.elem c.stack.vals i
    let t ← valueDump F junk vm v
    .ok (cs "      " ++ natDec i ++ cs ": " ++ t ++ [10])) (fun i hi => by
      have hi := List.mem_range.mp hi
      have := hc.size
      have := hc.len
      rw [elem_ok (l := c.stack.vals) (by omega)]
      obtain ⟨t, ht⟩ := valueDump_ok F junk h (c.stack.vals[i]'(by omega))
      exact ⟨_, by simp only [Res.ok_bind]; rw [ht]; rfl⟩)
  exact ⟨_, by rw [ht]; rfl⟩

theorem trackHoles_ok (hs : List Nat) : ∀ (t : List Bool), hs.Nodup → (∀ i ∈ hs, t[i]? = some false) →
    ∃ t', trackHoles hs t = .ok t' ∧ t'.length = t.length := by
  induction hs with
  | nil => intro t _ _; exact ⟨t, rfl, rfl⟩
  | cons i hs ih =>
    intro t hn h
    have hi := h i (by simp)
    have hn' := List.nodup_cons.mp hn
    obtain ⟨t', h1, h2⟩ := ih (t.set i true) hn'.2 (fun j hj => by
      rw [List.getElem?_set_ne (fun (e : i = j) => hn'.1 (e ▸ hj))]
      exact h j (by simp [hj]))
    refine ⟨t', ?_, by simpa using h2⟩
    unfold trackHoles Dbg.elem
    rw [hi]; simp only [Res.ok_bind]
    exact h1

theorem holes_ok {α : Type} {t : Table α} (h : t.WF) : ∃ s, holes t = .ok s := by
  unfold holes
  obtain ⟨tr, h1, h2⟩ := trackHoles_ok t.holes (List.replicate t.cap false) h.nodup (fun i hi => by
    have := (h.holes i).mp hi
    have hlt : i < t.slots.length := by
      rcases Nat.lt_or_ge i t.slots.length with h | h
      · exact h
      · rw [List.getElem?_eq_none h] at this; exact absurd this (by simp)
    rw [List.getElem?_replicate, if_pos (by rw [← h.len]; exact hlt)])
  rw [h1]; simp only [Res.ok_bind]
  exact each_ok (fun i hi => by
    have hi := List.mem_range.mp hi
    rw [elem_ok (l := tr) (by rw [h2]; simpa using hi)]
    exact ⟨_, rfl⟩)

theorem entries_ok {α : Type} {t : Table α} {f : Nat → α → Res Bytes} (h : t.WF) (hf : ∀ i a, t.entry i = some a → ∃ s, f i a = .ok s) :
    ∃ s, entries t f = .ok s := by
  unfold entries
  refine each_ok (fun i hi => ?_)
  have hi := List.mem_range.mp hi
  have hlt : i < t.slots.length := by rw [h.len]; exact hi
  unfold Table.read
  rw [List.getElem?_eq_getElem hlt]
  simp only [Res.ok_bind]
  cases e : t.slots[i] with
  | none => exact ⟨_, rfl⟩
  | some a => exact hf i a (by unfold Table.entry; rw [List.getElem?_eq_getElem hlt, e]; rfl)

theorem numbered_ok {α : Type} {l : List α} {f : Nat → α → Res Bytes} (hf : ∀ i, ∀ a ∈ l, ∃ s, f i a = .ok s) : ∃ s, numbered l f = .ok s := by
  unfold numbered
  refine each_ok (fun i hi => ?_)
  have hi := List.mem_range.mp hi
  rw [elem_ok hi]
  exact hf i _ (List.getElem_mem hi)

theorem object_ok {F : FloatOps} {junk : Nat → UInt8} {vm : VM} (h : Nk.Inv vm) {i : Nat} {o : Obj} (ho : vm.objects.entry i = some o) :
    ∃ t, object F junk vm i o = .ok t := by
  unfold object
  have hb := h.buckets i o ho
  obtain ⟨bs, h1⟩ := each_ok (l := List.range 16) (f := fun n => do
    let els ← Dbg.elem o.buckets n
    bucket F junk vm n els) (fun n hn => by
      have hn := List.mem_range.mp hn
      rw [elem_ok (by omega)]
      simp only [Res.ok_bind]
      unfold bucket
      split
      · exact ⟨_, rfl⟩
      · obtain ⟨t, ht⟩ := each_ok (l := o.buckets[n]'(by omega)) (f := fun (x : Value × Value) => do
          let k ← valueDump F junk vm x.1
          let v ← valueDump F junk vm x.2
          .ok (cs "          key: " ++ k ++ cs "\n          value: " ++ v ++ [10])) (fun x _ => by
            obtain ⟨k, hk⟩ := valueDump_ok F junk h.heap.str.tab x.1
            obtain ⟨v, hv⟩ := valueDump_ok F junk h.heap.str.tab x.2
            exact ⟨_, by rw [hk]; simp only [Res.ok_bind]; rw [hv]; rfl⟩)
        exact ⟨_, by rw [ht]; rfl⟩)
  rw [h1]; simp only [Res.ok_bind]
  by_cases hc : o.extType = vm.coType
  · obtain ⟨d, c, h2, _, h3, _⟩ := h.heap.co.own i o ho hc
    obtain ⟨t, ht⟩ := context_ok F junk h.heap.str.tab (h.heap.co.stack d c h3)
    rw [if_pos hc, h2]
    exact ⟨_, by dsimp only; unfold ctxAt; rw [h3]; simp only [Res.ok_bind]; rw [ht]; rfl⟩
  · rw [if_neg hc]; exact ⟨_, rfl⟩

theorem native_ok {f : ExtFunc} (h : f.argc ≠ UINT_MAX → f.argTypes.length = f.argc ∧ f.argExtTypes.length = f.argc) (i : Nat) :
    ∃ t, native i f = .ok t := by
  unfold native
  by_cases ha : f.argc ≠ UINT_MAX
  · rw [if_pos ha]
    obtain ⟨t, ht⟩ := each_ok (l := List.range f.argc) (f := fun n => do
        let t ← Dbg.elem f.argTypes n
        let x ← Dbg.elem f.argExtTypes n
        .ok (cs "      " ++ natDec n ++ cs " int: " ++ cs (typeName t) ++ cs ", ext: " ++ natDec x ++ [10])) (fun n hn => by
          have hn := List.mem_range.mp hn
          rw [elem_ok (by rw [(h ha).1]; exact hn)]; simp only [Res.ok_bind]
          rw [elem_ok (by rw [(h ha).2]; exact hn)]
          exact ⟨_, rfl⟩)
    exact ⟨_, by rw [ht]; rfl⟩
  · rw [if_neg ha]; exact ⟨_, rfl⟩

theorem cur_ok {vm : VM} (h : Nk.Inv vm) : ∃ c, vm.ctxs[vm.cur]? = some (some c) := CoWF.cur_live h.heap.co

theorem listing_ok {F : FloatOps} {vm : VM} (hF : Prints F) (h : Nk.Inv vm) (hm : vm.instrMask < UINT_MAX) (hn : AllNamed vm)
    (junk : Nat → UInt8) (script : Option Bytes) {c : Ctx} (hc : vm.ctxs[vm.cur]? = some (some c)) :
    ∃ ls, listing F junk vm script = .ok ls ∧ (∀ l ∈ ls, LineOK l) ∧
      ∀ a w nm, Listed vm a → vm.instrs[a]? = some w → w ≠ 20 → opName w = some nm → ∃ l ∈ ls, instrLabel (a == c.ip) a nm <+: l := by
  unfold listing
  obtain ⟨ls, h1, h2, h3⟩ := listLoop_ok (lc := match script with | some s => countLines s | none => 0) hF h.heap.str.tab h.instrs hc
    (by cases script with
      | none => exact Nat.zero_lt_succ _
      | some s => exact Nat.mod_lt _ (by decide)) hm hn (vm.instrMask + 2) 0 ⟨0, script⟩ (buf junk) (buf junk) .first (buf_len _) (buf_len _)
    (fun p hp => by
      simp only at hp; subst hp
      exact Nat.le_trans (Nat.mod_le _ _) (by unfold Dbg.nl; omega))
    (by omega) (by omega)
  exact ⟨ls, h1, h2, fun a w nm => h3 a w nm (Nat.zero_le _)⟩

theorem statics_ok {vm : VM} (F : FloatOps) (junk : Nat → UInt8) (h : Nk.Inv vm) : ∃ t, each (List.range (vm.staticMask + 1)) (fun i => do
    let v ← Dbg.elem vm.statics i
    let t ← valueDump F junk vm v
    .ok (cs "    " ++ natDec i ++ cs ": " ++ t ++ [10])) = .ok t :=
  each_ok (fun i hi => by
    have hi := List.mem_range.mp hi
    have hl := h.heap.statics
    rw [elem_ok (by omega)]
    obtain ⟨t, ht⟩ := valueDump_ok F junk h.heap.str.tab (vm.statics[i]'(by omega))
    exact ⟨_, by simp only [Res.ok_bind]; rw [ht]; rfl⟩)

/-! ## The property -/

variable {F : FloatOps} {vm : VM}

/-- **C74** (part): a VM whose data structures are in order can be dumped, whatever values, strings and source text there are, as
long as its program consists of the instructions there are: nothing outside the buffers, the stacks and the tables is read or written, no NULL
pointer is followed and no assertion fails.  Missing: programs with other numbers for instructions, where it is not true
(`C74_violated`). -/
theorem C74_safe_partial (hF : Prints F) (h : Nk.Inv vm) (hm : vm.instrMask < UINT_MAX) (hn : AllNamed vm) (junk : Nat → UInt8) (usage : Nat)
    (script : Option Bytes) : ∃ t, dumpState F junk usage script vm = .ok t := by
  have hs := h.heap.str.tab
  obtain ⟨c, hc⟩ := cur_ok h
  obtain ⟨c0, hc0, _⟩ := h.heap.co.root
  obtain ⟨t1, h1⟩ := each_ok (l := vm.errors) (f := fun e => .ok (cs "  " ++ cs e ++ [10])) (fun e _ => ⟨_, rfl⟩)
  obtain ⟨t2, h2⟩ := context_ok F junk hs (h.heap.co.stack 0 c0 hc0)
  obtain ⟨t3, h3⟩ := statics_ok F junk h
  obtain ⟨ls, h4, _⟩ := listing_ok hF h hm hn junk script hc
  obtain ⟨t5, h5⟩ := holes_ok hs
  obtain ⟨t6, h6⟩ := each_ok (l := vm.sbuckets) (f := trackBuckets vm.strings.cap) (fun ids hids => by
    obtain ⟨b, hb⟩ := List.getElem?_of_mem hids
    refine each_ok (fun id hid => ?_)
    obtain ⟨e, he, _⟩ := h.heap.str.mem b ids hb id hid
    have : id < vm.strings.cap := by
      rw [← hs.len]
      rcases Nat.lt_or_ge id vm.strings.slots.length with g | g
      · exact g
      · unfold Table.entry at he; rw [List.getElem?_eq_none g] at he; exact absurd he (by simp)
    exact ⟨[], by rw [if_pos this]⟩)
  obtain ⟨t7, h7⟩ := entries_ok (f := fun i s => .ok (string i s)) hs (fun _ _ _ => ⟨_, rfl⟩)
  obtain ⟨t8, h8⟩ := holes_ok h.heap.tab
  obtain ⟨t9, h9⟩ := entries_ok (f := object F junk vm) h.heap.tab (fun i o ho => object_ok h ho)
  obtain ⟨t10, h10⟩ := numbered_ok (l := vm.functions) (f := fun i f => .ok (cs "  " ++ natDec i ++ cs ":\n" ++ field "    argumentCount: " f.argc ++
    field "    firstInstructionIndex: " f.first ++ field "    externalFunctionId: " f.extId)) (fun _ _ _ => ⟨_, rfl⟩)
  obtain ⟨t11, h11⟩ := numbered_ok (l := vm.extFuncs) (f := native) (fun i f hf => native_ok (h.natives f hf) i)
  obtain ⟨t12, h12⟩ := numbered_ok (l := vm.globals) (f := fun i g => .ok (cs "  " ++ natDec i ++ cs ":\n    name: " ++ g.1 ++ [10] ++
    field "    staticPosition: " g.2)) (fun _ _ _ => ⟨_, rfl⟩)
  obtain ⟨t13, h13⟩ := numbered_ok (l := vm.extTypes) (f := fun i t => .ok (cs "  " ++ natDec i ++ cs ":\n    name: " ++ t.name ++ [10])) (fun _ _ _ => ⟨_, rfl⟩)
  unfold dumpState
  simp only [ctxAt, hc0, h1, h2, h3, h4, h5, h6, h7, h8, h9, h10, h11, h12, h13, Res.ok_bind]
  exact ⟨_, rfl⟩

/-- **C74** (part): the listing in the dump shows every instruction up to the END: there is a line that begins with its
address, its name and the mark of the instruction that is executed next; and every line is one line of at most 79
characters. -/
theorem C74_listing_partial (hF : Prints F) (h : Nk.Inv vm) (hm : vm.instrMask < UINT_MAX) (hn : AllNamed vm) (junk : Nat → UInt8)
    (script : Option Bytes) {c : Ctx} (hc : vm.At c) :
    ∃ ls, listing F junk vm script = .ok ls ∧ (∀ l ∈ ls, l.length ≤ 79 ∧ (10 : UInt8) ∉ l) ∧
      ∀ a w nm, Listed vm a → vm.instrs[a]? = some w → w ≠ 20 → opName w = some nm → ∃ l ∈ ls, instrLabel (a == c.ip) a nm <+: l :=
  listing_ok hF h hm hn junk script hc

/-- **C74**: a string is shown between quotes with newlines, tabs and quotes escaped, in full if that takes at most 78 characters. -/
theorem C74_string (junk : Nat → UInt8) (h : vm.strings.WF) {id : Nat} {e : Str} (he : vm.strings.entry id = some e) (hs : NoNul e.str)
    (hl : (e.str.flatMap escaped).length ≤ 78) :
    valueDump F junk vm (.str id) = .ok (cs "string:" ++ natDec id ++ cs ":\"" ++ e.str.flatMap escaped ++ cs "\"") := by
  have hlt : id < vm.strings.slots.length := by
    rcases Nat.lt_or_ge id vm.strings.slots.length with g | g
    · exact g
    · unfold Table.entry at he; rw [List.getElem?_eq_none g] at he; exact absurd he (by simp)
  have hg : vm.strings.get id = .ok (some e) := by
    unfold Table.get Table.read
    rw [if_neg (by rw [← h.len]; omega), List.getElem?_eq_getElem hlt]
    unfold Table.entry at he
    rw [List.getElem?_eq_getElem hlt] at he
    exact congrArg Res.ok he
  obtain ⟨b1, h1, g1⟩ := clear_ok (buf_len junk)
  obtain ⟨b2, k, h2, g2, hk⟩ := appendEscaped_ok (size := 80) (strOr (some e) (cs "<bad id>")) (by decide) g1
  have hk := hk hs (by simp only [strOr, List.length_nil]; omega)
  unfold valueDump
  dsimp only
  rw [hg]; simp only [Res.ok_bind]
  rw [h1]; simp only [Res.ok_bind]
  rw [h2]; simp only [Res.ok_bind]
  rw [g2.text]; simp only [Res.ok_bind, List.nil_append]
  rw [List.take_of_length_le hk]; rfl

/-! ## Compiled programs -/

theorem listed_shape {n : Nat} (h0 : Cc.Starts vm.instrs n) (h : Cc.Shape vm.instrs (n + 1)) (he : vm.instrs[n]? = some 20#32) {a : Nat}
    (ha : Listed vm a) : Cc.Starts vm.instrs a ∧ a ≤ n := by
  induction ha with
  | first => exact ⟨.first, Nat.zero_le _⟩
  | @next a w _ hw h20 ih =>
    have hlt : a < n := by
      rcases Nat.eq_or_lt_of_le ih.2 with e | e
      · subst e; rw [he] at hw; exact absurd (Option.some.inj hw).symm h20
      · exact e
    have hk := h.known a w (by omega) ih.1 hw
    have e : listedWords w = Cc.width w := by
      have key : ∀ k : Nat, k < 43 → (w = BitVec.ofNat 32 k ↔ w.toNat = k) := fun k hk => by
        constructor
        · intro e; rw [e, BitVec.toNat_ofNat]; omega
        · intro e; apply BitVec.eq_of_toNat_eq; rw [BitVec.toNat_ofNat]; omega
      unfold listedWords Cc.width Cc.opOf
      rw [show w.toNat % 64 = w.toNat by omega]
      have k7 := key 7 (by decide)
      have k8 := key 8 (by decide)
      have k9 := key 9 (by decide)
      have k10 := key 10 (by decide)
      by_cases c : 7 ≤ w.toNat ∧ w.toNat ≤ 10
      · rw [if_pos c, if_pos]
        rcases (show w.toNat = 7 ∨ w.toNat = 8 ∨ w.toNat = 9 ∨ w.toNat = 10 by omega) with e | e | e | e
        · exact .inl (k7.mpr e)
        · exact .inr (.inl (k8.mpr e))
        · exact .inr (.inr (.inl (k9.mpr e)))
        · exact .inr (.inr (.inr (k10.mpr e)))
      · rw [if_neg c, if_neg]
        intro hc
        rcases hc with e | e | e | e
        · have := k7.mp e; omega
        · have := k8.mp e; omega
        · have := k9.mp e; omega
        · have := k10.mp e; omega
    rw [e]
    exact ⟨ih.1.next hw, Cc.Starts.gap n h0 ih.1 hw hlt⟩

/-- **C64**: every instruction of a program the compiler made is one of the 43 there are. -/
theorem C64_known {s : Cc.CS} (h : Cc.Session F s) {a : Nat} {w : BitVec 32} (ha : a < s.write) (hs : Cc.Starts s.vm.instrs a)
    (hw : s.vm.instrs[a]? = some w) : w.toNat < 43 := h.idle.inv.shape.known a w ha hs hw

theorem finished_named {s s' : Cc.CS} (h : Cc.Session F s) (r : Cc.partiallyFinalize s = .ok ((), s')) : AllNamed s'.vm := by
  obtain ⟨_, h1, h2, _⟩ := C64_finished h r
  have h0 := (C64_program (h.finish r)).1.whole
  intro a w ha hw h20
  obtain ⟨i1, i2⟩ := listed_shape h0 h2 h1 ha
  have := h2.known a w (by omega) i1 hw
  omega

/-- **C74**: for programs from the compiler there is no exception: whatever was compiled and run before, with success or not, once
compiling was finished the VM can be dumped, then and at every point of running the program, with any text as the source. -/
theorem C74_compiled {H : Host} {K : UB → Prop} (hF : Prints F) (hH : HostOK H K) (hC : NoCompiling H) {s s' : Cc.CS} (h : Life F H s)
    (r : Cc.partiallyFinalize s = .ok ((), s')) {vm' : VM} (g : Run F H s'.vm vm') (junk : Nat → UInt8) (usage : Nat) (script : Option Bytes) :
    ∃ t, dumpState F junk usage script vm' = .ok t := by
  have t' := Cc.partiallyFinalize_keep.run _ _ _ (h.tidy hH hC) r
  have n' := finished_named (C67_session hH hC h) r
  have sc := run_same hC g
  refine C74_safe_partial hF (run_inv F H hH t'.inv g) ?_ ?_ junk usage script
  · rw [sc.mask]; have := t'.code; unfold UINT_MAX at *; omega
  · intro a w ha hw
    rw [sc.instrs] at hw
    refine n' a w ?_ hw
    clear hw
    induction ha with
    | first => exact .first
    | next _ h1 h2 ih => exact .next ih (by rw [← sc.instrs]; exact h1) h2

theorem dump_stops (h : Nk.Inv vm) {junk : Nat → UInt8} {script : Option Bytes} {k : UB} (hl : listing F junk vm script = .ub k) (usage : Nat) :
    dumpState F junk usage script vm = .ub k := by
  obtain ⟨c0, hc0, _⟩ := h.heap.co.root
  obtain ⟨t1, h1⟩ := each_ok (l := vm.errors) (f := fun e => .ok (cs "  " ++ cs e ++ [10])) (fun e _ => ⟨_, rfl⟩)
  obtain ⟨t2, h2⟩ := context_ok F junk h.heap.str.tab (h.heap.co.stack 0 c0 hc0)
  obtain ⟨t3, h3⟩ := statics_ok F junk h
  unfold dumpState
  simp only [ctxAt, hc0, h1, h2, h3, hl, Res.ok_bind]
  rfl

/-- **C74** is violated for programs that contain a number that is not an instruction, as a program loaded from a file may: the name of the
instruction is a NULL pointer that is read from.  (Executing such an instruction does nothing.) -/
theorem C74_violated : ∃ vm : VM, Nk.Inv vm ∧ ∀ usage, dumpState Sample.F (fun _ => 0) usage none vm = .ub .null := by
  have h : Nk.Inv (loaded [50, 20] [.nil] Stack.init 0) := C25_any_program 0 (by simp) (by simp) Stack.init_wf
  refine ⟨_, h, fun usage => dump_stops h ?_ usage⟩
  have : (match listing Sample.F (fun _ => 0) (loaded [50, 20] [.nil] Stack.init 0) none with | .ub .null => true | _ => false) = true := by
    decide +kernel
  split at this
  · assumption
  · exact absurd this (by simp)

namespace DbgEx

/-- Numbers are printed with six digits after the point here. -/
example : Prints Sample.F := fun _ =>
  ⟨(by decide : (cs "0.000000").length ≤ 78), (by decide : ∀ c ∈ cs "0.000000", c ≠ 0)⟩

/-- A program with a literal that is out of range and markers for two source lines. -/
def sample : VM :=
  { loaded [7, 5, 37, 9, 3, 20, 0, 0] [.nil, .int 3] ⟨[.str 0, .bad 9 9], 1, 2, 1⟩ 2 with markers := [⟨0, 0, 1, 1⟩, ⟨3, 0, 2, 2⟩] }

/-- The listing of it; the instruction that is executed next is marked, and what does not fit is cut off. -/
example : (listing Sample.F (fun _ => 7) sample (some (cs "var a = 5;\nprint(\"x\");\nmore\n"))).test (fun ls => ls = [
    cs "  0   : PUSHLITERAL_INT 5               ; var a = 5;",
    cs "> 2   : PUSHNIL",
    cs "  3   : PUSHLITERAL_STRING 3:\"<bad s... ; print(\"x\");"]) = true := by decide +kernel

theorem sample_listed : ∀ a, Listed sample a → a = 0 ∨ a = 2 ∨ a = 3 ∨ a = 5 := by
  intro a h
  induction h with
  | first => exact .inl rfl
  | @next a w _ hw he ih =>
    rcases ih with rfl | rfl | rfl | rfl
    · have : w = 7 := (Option.some.inj hw).symm
      subst this; exact .inr (.inl rfl)
    · have : w = 37 := (Option.some.inj hw).symm
      subst this; exact .inr (.inr (.inl rfl))
    · have : w = 9 := (Option.some.inj hw).symm
      subst this; exact .inr (.inr (.inr rfl))
    · exact absurd (Option.some.inj hw).symm he

/-- The program meets the condition of `C74_safe_partial` and `C74_listing_partial`. -/
example : AllNamed sample := by
  intro a w h hw _
  rcases sample_listed a h with rfl | rfl | rfl | rfl <;> (obtain rfl := Option.some.inj hw; decide)

/-- A string with a quotation mark and a newline. -/
example : ([120, 34, 10, 121] : Bytes).flatMap escaped = cs "x\\\"\\ny" := by decide

/-- A script that was compiled and is finished. -/
example : (match Cc.compileScript Sample.F 16 (fun _ => 0) (cs "var a = 1;" ++ [0]) (cs "f") (Cc.createCompiler VM.create) with
    | .ok (_, s) => (match Cc.partiallyFinalize s with
      | .ok (_, s) => (listing Sample.F (fun _ => 7) s.vm (some (cs "var a = 1;\n"))).test (fun ls => ls = [
          cs "> 0   : PUSHLITERAL_INT 1", cs "  2   : PUSHLITERAL_INT 0", cs "  4   : STATICPOKE", cs "  5   : POP"])
      | _ => false)
    | _ => false) = true := by decide +kernel

end DbgEx

end Nk.Props
