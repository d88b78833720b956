import Verif.Model.Shrink
import Verif.Spec.Rename
import Verif.Lemmas.Table
/-!
# Compaction renames
-/
namespace Nk

/-! ## Renamings -/

theorem Ren.ob_ob (r q : Ren) (o : Obj) : q.ob (r.ob o) = Ren.ob ⟨fun i => q.obj (r.obj i), fun i => q.str (r.str i)⟩ o := by
  have hv : ∀ v, q.val (r.val v) = Ren.val ⟨fun i => q.obj (r.obj i), fun i => q.str (r.str i)⟩ v := by intro v; cases v <;> rfl
  simp [Ren.ob, hv]

theorem Ren.val_val (r q : Ren) (v : Value) : q.val (r.val v) = Ren.val ⟨fun i => q.obj (r.obj i), fun i => q.str (r.str i)⟩ v := by
  cases v <;> rfl

theorem Ren.id_val (v : Value) : Ren.val ⟨id, id⟩ v = v := by cases v <;> rfl
theorem Ren.id_ob (o : Obj) : Ren.ob ⟨id, id⟩ o = o := by
  simp [Ren.ob, Ren.id_val]

theorem Renamed.trans {r q : Ren} {a b c : VM} (h : Renamed r a b) (g : Renamed q b c) :
    Renamed ⟨fun i => q.obj (r.obj i), fun i => q.str (r.str i)⟩ a c := by
  have hco : b.coType = a.coType := by rw [h.rest]
  refine ⟨?_, ?_, ?_, ?_, ?_, ?_, ?_, ?_, ?_, ?_, ?_, ?_⟩
  · rintro i j ⟨o, hi⟩ ⟨o', hj⟩ e
    exact h.objInj i j ⟨o, hi⟩ ⟨o', hj⟩ (g.objInj _ _ ⟨_, h.objs i o hi⟩ ⟨_, h.objs j o' hj⟩ e)
  · intro i j e e' hi hj x
    exact h.strInj i j e e' hi hj (g.strInj _ _ _ _ (h.strs i e hi) (h.strs j e' hj) x)
  · intro i o hi
    rw [← Ren.ob_ob]
    exact g.objs _ _ (h.objs i o hi)
  · intro j o' hj
    obtain ⟨i, o, hi, rfl⟩ := g.noMoreObjs j o' hj
    obtain ⟨k, o, hk, rfl⟩ := h.noMoreObjs i o hi
    exact ⟨k, o, hk, rfl⟩
  · intro i e hi
    exact g.strs _ _ (h.strs i e hi)
  · intro j o' hj
    obtain ⟨i, o, hi, rfl⟩ := g.noMoreStrs j o' hj
    obtain ⟨k, o, hk, rfl⟩ := h.noMoreStrs i o hi
    exact ⟨k, o, hk, rfl⟩
  · rw [g.statics, h.statics, List.map_map]
    exact List.map_congr_left fun v _ => Ren.val_val r q v
  · intro i x hx
    obtain ⟨s, h1, h2, h3, h4⟩ := h.stacks i x hx
    obtain ⟨t, g1, g2, g3, g4⟩ := g.stacks i _ h1
    refine ⟨t, g1, g2, ?_, ?_⟩
    · rw [g3]
      show s.used.map q.val = _
      rw [h3, List.map_map]
      exact List.map_congr_left fun v _ => Ren.val_val r q v
    · rw [← Ren.val_val, h4]; exact g4
  · intro i x hx
    obtain ⟨y, hy⟩ := g.noMoreStacks i x hx
    exact h.noMoreStacks i y hy
  · intro i o hi hp
    have hf := h.held i o hi hp
    have := g.held (r.obj i) _ (h.objs i o hi) (by unfold Obj.Pinned at *; rw [hco]; exact hp)
    show q.obj (r.obj i) = i
    rw [this, hf]
  · intro i e hi hp
    have hf := h.constants i e hi hp
    have := g.constants (r.str i) _ (h.strs i e hi) hp
    show q.str (r.str i) = i
    rw [this, hf]
  · rw [g.rest, h.rest]

/-! ## Tables -/

namespace Table
variable {α β : Type}

theorem entry_eq {t : Table α} {i : Nat} {x : α} : t.entry i = some x ↔ t.slots[i]? = some (some x) := by
  unfold entry
  cases h : t.slots[i]? with
  | none => simp
  | some o => simp

theorem move_run {t : Table α} (hl : t.slots.length = t.cap) {old new : Nat} {x : α} (ho : t.slots[old]? = some (some x)) (hn : t.slots[new]? = some none) :
    t.move old new = .ok { t with slots := (t.slots.set new (some x)).set old none } := by
  have h1 := (List.getElem?_eq_some_iff.mp ho).1
  have h2 := (List.getElem?_eq_some_iff.mp hn).1
  have r1 : t.read new = .ok none := by unfold read; rw [hn]
  have r2 : t.read old = .ok (some x) := by unfold read; rw [ho]
  unfold move
  rw [if_pos (by omega), r1]
  dsimp only
  rw [r2]
  dsimp only
  have w1 : t.write new (some x) = .ok { t with slots := t.slots.set new (some x) } := by unfold write; rw [if_pos h2]
  rw [w1, Res.ok_bind]
  unfold write
  rw [if_pos (by simpa using h1)]

theorem move_entry {l : List (Option α)} {old new : Nat} {x : α} (ho : l[old]? = some (some x)) (hn : l[new]? = some none) (i : Nat) :
    (((l.set new (some x)).set old none)[i]?).join = if i = old then none else if i = new then some x else (l[i]?).join := by
  have h1 := (List.getElem?_eq_some_iff.mp ho).1
  have h2 := (List.getElem?_eq_some_iff.mp hn).1
  rw [List.getElem?_set, List.length_set, List.getElem?_set]
  by_cases e : old = i
  · rw [if_pos e, if_pos (by omega), if_pos e.symm]; rfl
  · rw [if_neg e]
    have e' : ¬ i = old := fun x => e x.symm
    rw [if_neg e']
    by_cases e : new = i
    · rw [if_pos e, if_pos (by omega), if_pos e.symm]; rfl
    · have e' : ¬ i = new := fun x => e x.symm
      rw [if_neg e, if_neg e']

theorem findMovable_run {may : α → Bool} {t : Table α} (hl : t.slots.length = t.cap) (n j : Nat) :
    findMovable may t j n = .ok none ∨ ∃ i x, findMovable may t j n = .ok (some i) ∧ t.slots[i]? = some (some x) ∧ may x = true := by
  induction n generalizing j with
  | zero => exact .inl rfl
  | succ n ih =>
    unfold findMovable
    by_cases h : j < t.cap
    · rw [if_pos h]
      cases hx : t.slots[j]? with
      | none => rw [List.getElem?_eq_none_iff] at hx; omega
      | some o =>
        have r : t.read j = .ok o := by unfold read; rw [hx]
        rw [r]
        cases o with
        | none => exact ih (j + 1)
        | some x =>
          dsimp only
          by_cases hm : may x = true
          · rw [if_pos hm]; exact .inr ⟨j, x, rfl, hx, hm⟩
          · rw [if_neg hm]; exact ih (j + 1)
    · rw [if_neg h]; exact .inl rfl

theorem highest_holes (t : Table α) (hs : List Nat) (n : Nat) : ({ t with holes := hs } : Table α).highest n = t.highest n := by
  induction n with
  | zero => rfl
  | succ n ih => unfold highest; rw [ih]

/-- Shrinking does not depend on the holes recorded before. -/
theorem shrink_any {t : Table α} (hl : t.slots.length = t.cap) (hp : ∃ k, k ≤ 31 ∧ t.cap = 2 ^ k) :
    ∃ t', t.shrink = .ok t' ∧ t'.WF ∧ (∀ i, t'.entry i = t.entry i) ∧ t'.cap ≤ t.cap := by
  obtain ⟨hs, _, h2, h3⟩ := resetLoop_ok t.cap { t with holes := [] } (by simp [hl]) (Nat.le_refl _) (by simp) (by simp)
  have hw : ({ t with holes := hs } : Table α).WF := ⟨hl, hp, h2, fun i => by
    rw [h3 i]
    constructor
    · rintro (h | h)
      · simp at h
      · exact h.2
    · intro h
      have h' := (List.getElem?_eq_some_iff.mp h).1
      exact .inr ⟨by show i < t.cap; rw [← hl]; exact h', h⟩⟩
  have e : t.shrink = Table.shrink { t with holes := hs } := by
    unfold shrink resetHoles; rw [highest_holes t hs]
  rw [e]
  exact shrink_spec hw

end Table

theorem compact_run {α : Type} {tab : VM → Table α} {may : VM → α → Bool} {move : Nat → Nat → VM → Res VM} {J : VM → Prop}
    (hl : ∀ vm, J vm → (tab vm).slots.length = (tab vm).cap)
    (hm : ∀ vm i h x, J vm → (tab vm).slots[i]? = some (some x) → may vm x = true → (tab vm).slots[h]? = some none → ∃ vm', move i h vm = .ok vm' ∧ J vm')
    (n hole j : Nat) (vm : VM) (h : J vm) : ∃ vm', compact tab may move hole j n vm = .ok vm' ∧ J vm' := by
  induction n generalizing hole j vm with
  | zero => exact ⟨vm, rfl, h⟩
  | succ n ih =>
    unfold compact
    by_cases hc : hole < (tab vm).cap
    · rw [if_pos hc]
      have hlv := hl vm h
      cases hx : (tab vm).slots[hole]? with
      | none => rw [List.getElem?_eq_none_iff] at hx; omega
      | some o =>
        have r : (tab vm).read hole = .ok o := by unfold Table.read; rw [hx]
        rw [r]
        cases o with
        | some x => exact ih _ _ vm h
        | none =>
          dsimp only
          rcases Table.findMovable_run (may := may vm) hlv (tab vm).cap (if j < hole then hole + 1 else j) with e | ⟨i, x, e, h1, h2⟩
          · rw [e]; exact ih _ _ vm h
          · rw [e]
            dsimp only
            obtain ⟨vm', e1, h'⟩ := hm vm i hole x h h1 h2 hx
            rw [e1]
            exact ih _ _ vm' h'
    · rw [if_neg hc]; exact ⟨vm, rfl, h⟩

/-! ## One move -/

/-- What holds between two moves. -/
structure Side (vm : VM) : Prop where
  olen : vm.objects.slots.length = vm.objects.cap
  opow : ∃ k, k ≤ 31 ∧ vm.objects.cap = 2 ^ k
  slen : vm.strings.slots.length = vm.strings.cap
  spow : ∃ k, k ≤ 31 ∧ vm.strings.cap = 2 ^ k
  statics : vm.statics.length = vm.staticMask + 1
  cur : ∃ c, vm.ctxs[vm.cur]? = some (some c)
  stack : ∀ (i : Nat) (c : Ctx), vm.ctxs[i]? = some (some c) → c.stack.WF
  co : ∀ (i : Nat) (c : Ctx), vm.ctxs[i]? = some (some c) → c.coObj = .nil ∨ ∃ id o, c.coObj = .obj id ∧ vm.objects.entry id = some o ∧ o.extType = vm.coType
  blen : vm.sbuckets.length = 256
  nodup : ∀ (b : Nat) (ids : List Nat), vm.sbuckets[b]? = some ids → ids.Nodup
  mem : ∀ (b : Nat) (ids : List Nat), vm.sbuckets[b]? = some ids → ∀ id ∈ ids, ∃ e, vm.strings.entry id = some e ∧ e.hash &&& 255 = b
  hash : ∀ id e, vm.strings.entry id = some e → e.hash = stringHash e.str
  bucket : ∀ id e, vm.strings.entry id = some e → ∃ ids, vm.sbuckets[e.hash &&& 255]? = some ids ∧ id ∈ ids
  inj : ∀ i j e e', vm.strings.entry i = some e → vm.strings.entry j = some e' → e.str = e'.str → i = j
  live : NoDangling vm
  others : OthersPinned vm

theorem Refers.renamed {r : Ren} {vm vm' : VM} (h : Renamed r vm vm') {v : Value} (hv : Refers vm v) : Refers vm' (r.val v) := by
  cases v with
  | obj i => obtain ⟨o, ho⟩ := hv; exact ⟨_, h.objs i o ho⟩
  | str i => obtain ⟨o, ho⟩ := hv; exact ⟨_, h.strs i o ho⟩
  | bad => exact hv.elim
  | _ => trivial

theorem NoDangling.renamed {r : Ren} {vm vm' : VM} (h : Renamed r vm vm') (hn : NoDangling vm) : NoDangling vm' := by
  intro v hv
  cases hv with
  | static hs =>
    rw [h.statics] at hs
    obtain ⟨w, hw, rfl⟩ := List.mem_map.mp hs
    exact (hn w (.static hw)).renamed h
  | @stack i c v hc hs =>
    obtain ⟨d, hd⟩ := h.noMoreStacks i c hc
    obtain ⟨s, h1, _, h3, _⟩ := h.stacks i d hd
    rw [h1] at hc
    cases hc
    rw [show ({ d with stack := s } : Ctx).stack.used = _ from h3] at hs
    obtain ⟨w, hw, rfl⟩ := List.mem_map.mp hs
    exact (hn w (.stack hd hw)).renamed h
  | @key i o es e ho h1 h2 =>
    obtain ⟨j, o1, hj, rfl⟩ := h.noMoreObjs i o ho
    rw [h.objs j o1 hj] at ho
    cases ho
    obtain ⟨es1, he1, rfl⟩ := List.mem_map.mp h1
    obtain ⟨e1, he2, rfl⟩ := List.mem_map.mp h2
    exact (hn _ (.key hj he1 he2)).renamed h
  | @field i o es e ho h1 h2 =>
    obtain ⟨j, o1, hj, rfl⟩ := h.noMoreObjs i o ho
    rw [h.objs j o1 hj] at ho
    cases ho
    obtain ⟨es1, he1, rfl⟩ := List.mem_map.mp h1
    obtain ⟨e1, he2, rfl⟩ := List.mem_map.mp h2
    exact (hn _ (.field hj he1 he2)).renamed h

theorem PinnedRef.fixed {r : Ren} {vm vm' : VM} (h : Renamed r vm vm') {v : Value} (hv : PinnedRef vm v) : r.val v = v ∧ PinnedRef vm' v := by
  have hco : vm'.coType = vm.coType := by rw [h.rest]
  cases v with
  | obj i =>
    obtain ⟨o, ho, hp⟩ := hv
    have hf := h.held i o ho hp
    have := h.objs i o ho
    refine ⟨congrArg Value.obj hf, r.ob o, by rw [hf] at this; exact this, ?_⟩
    unfold Obj.Pinned at *; rw [hco]; exact hp
  | str i =>
    obtain ⟨o, ho, hp⟩ := hv
    have hf := h.constants i o ho hp
    have := h.strs i o ho
    exact ⟨congrArg Value.str hf, o, by rw [hf] at this; exact this, hp⟩
  | _ => exact ⟨rfl, trivial⟩

theorem OthersPinned.renamed {r : Ren} {vm vm' : VM} (h : Renamed r vm vm') (hn : OthersPinned vm) : OthersPinned vm' := by
  intro i c hi hc v hv
  have hcur : vm'.cur = vm.cur := by rw [h.rest]
  rw [hcur] at hi
  obtain ⟨d, hd⟩ := h.noMoreStacks i c hc
  obtain ⟨s, h1, _, h3, _⟩ := h.stacks i d hd
  rw [h1] at hc
  cases hc
  rw [show ({ d with stack := s } : Ctx).stack.used = _ from h3] at hv
  obtain ⟨w, hw, rfl⟩ := List.mem_map.mp hv
  have := (hn i d hi hd w hw).fixed h
  rw [this.1]
  exact this.2

/-- What a move leaves to check after the renaming is known. -/
theorem Side.renamed {r : Ren} {vm vm' : VM} (h : Renamed r vm vm') (hs : Side vm)
    (olen : vm'.objects.slots.length = vm'.objects.cap) (ocap : vm'.objects.cap = vm.objects.cap)
    (slen : vm'.strings.slots.length = vm'.strings.cap) (scap : vm'.strings.cap = vm.strings.cap)
    (blen : vm'.sbuckets.length = 256)
    (nodup : ∀ (b : Nat) (ids : List Nat), vm'.sbuckets[b]? = some ids → ids.Nodup)
    (mem : ∀ (b : Nat) (ids : List Nat), vm'.sbuckets[b]? = some ids → ∀ id ∈ ids, ∃ e, vm'.strings.entry id = some e ∧ e.hash &&& 255 = b)
    (bucket : ∀ id e, vm'.strings.entry id = some e → ∃ ids, vm'.sbuckets[e.hash &&& 255]? = some ids ∧ id ∈ ids) : Side vm' := by
  have hco : vm'.coType = vm.coType := by rw [h.rest]
  have hcur : vm'.cur = vm.cur := by rw [h.rest]
  have hmask : vm'.staticMask = vm.staticMask := by rw [h.rest]
  refine ⟨olen, by rw [ocap]; exact hs.opow, slen, by rw [scap]; exact hs.spow, ?_, ?_, ?_, ?_, blen, nodup, mem, ?_, bucket, ?_,
    hs.live.renamed h, hs.others.renamed h⟩
  · rw [h.statics, List.length_map, hmask]; exact hs.statics
  · obtain ⟨c, hc⟩ := hs.cur
    obtain ⟨s, h1, _⟩ := h.stacks _ c hc
    rw [hcur]; exact ⟨_, h1⟩
  · intro i c hc
    obtain ⟨d, hd⟩ := h.noMoreStacks i c hc
    obtain ⟨s, h1, h2, _⟩ := h.stacks i d hd
    rw [h1] at hc
    cases hc
    exact h2
  · intro i c hc
    obtain ⟨d, hd⟩ := h.noMoreStacks i c hc
    obtain ⟨s, h1, h2, _⟩ := h.stacks i d hd
    rw [h1] at hc
    cases hc
    rcases hs.co i d hd with e | ⟨id, o, e, ho, ht⟩
    · exact .inl e
    · have hf := h.held id o ho (.inr ht)
      have := h.objs id o ho
      rw [hf] at this
      exact .inr ⟨id, r.ob o, e, this, by rw [hco]; exact ht⟩
  · intro id e he
    obtain ⟨i, e1, hi, rfl⟩ := h.noMoreStrs id e he
    rw [h.strs i e1 hi] at he
    cases he
    exact hs.hash i _ hi
  · intro i j e e' hi hj x
    obtain ⟨i', e1, hi', rfl⟩ := h.noMoreStrs i e hi
    obtain ⟨j', e2, hj', rfl⟩ := h.noMoreStrs j e' hj
    rw [h.strs _ _ hi'] at hi
    rw [h.strs _ _ hj'] at hj
    cases hi; cases hj
    rw [hs.inj i' j' _ _ hi' hj' x]

theorem rewriteAll_run {f : Value → Value} {vm : VM} {c : Ctx} (hc : vm.ctxs[vm.cur]? = some (some c)) (hw : c.stack.WF)
    (hs : vm.statics.length = vm.staticMask + 1) (ho : vm.objects.slots.length = vm.objects.cap) :
    rewriteAll f vm = .ok { vm with
      ctxs := vm.ctxs.set vm.cur (some { c with stack := { c.stack with vals := c.stack.used.map f ++ c.stack.vals.drop c.stack.size } })
      statics := vm.statics.map f
      objects := { vm.objects with slots := vm.objects.slots.map (Option.map (rewriteObj f)) } } := by
  unfold rewriteAll
  have e1 : ctxAt vm vm.cur = .ok c := by unfold ctxAt; rw [hc]
  have e2 : rewriteStack f c.stack = .ok { c.stack with vals := c.stack.used.map f ++ c.stack.vals.drop c.stack.size } := by
    unfold rewriteStack
    rw [if_pos (by rw [hw.len]; exact hw.size)]
    rfl
  have e3 : rewriteStatics f vm = .ok (vm.statics.map f) := by
    unfold rewriteStatics
    rw [if_pos (by omega), List.take_of_length_le (by omega), List.drop_eq_nil_of_le (by omega), List.append_nil]
  have e4 : rewriteObjs f vm.objects = .ok { vm.objects with slots := vm.objects.slots.map (Option.map (rewriteObj f)) } := by
    unfold rewriteObjs
    rw [if_pos (by omega), List.take_of_length_le (by omega), List.drop_eq_nil_of_le (by omega), List.append_nil]
  rw [e1]; dsimp only
  rw [e2]; dsimp only
  rw [e3]; dsimp only
  rw [e4]

/-- The stack after the loop over it. -/
theorem rewritten_used {f : Value → Value} {s : Stack} (hw : s.WF) :
    ({ s with vals := s.used.map f ++ s.vals.drop s.size } : Stack).WF ∧
    ({ s with vals := s.used.map f ++ s.vals.drop s.size } : Stack).used = s.used.map f := by
  have h1 := hw.size
  have h2 := hw.len
  have hl : (s.used.map f).length = s.size := by simp [Stack.used]; omega
  refine ⟨⟨hw.pow, ?_, hw.mask, hw.size⟩, ?_⟩
  · show (s.used.map f ++ s.vals.drop s.size).length = s.cap
    rw [List.length_append, hl, List.length_drop]; omega
  · show (s.used.map f ++ s.vals.drop s.size).take s.size = _
    rw [List.take_append_of_le_length (by omega), List.take_of_length_le (by omega)]

/-- The contexts after the loop over the current stack. -/
theorem rewritten_stacks {r : Ren} {vm : VM} (hs : Side vm) {c : Ctx} (hc : vm.ctxs[vm.cur]? = some (some c))
    (hp : ∀ v, PinnedRef vm v → r.val v = v) :
    (∀ (i : Nat) (d : Ctx), vm.ctxs[i]? = some (some d) → ∃ s : Stack,
      (vm.ctxs.set vm.cur (some { c with stack := { c.stack with vals := c.stack.used.map r.val ++ c.stack.vals.drop c.stack.size } }))[i]? =
        some (some { d with stack := s }) ∧ s.WF ∧ s.used = d.stack.used.map r.val ∧ r.val d.coObj = d.coObj) ∧
    (∀ (i : Nat) (d : Ctx), (vm.ctxs.set vm.cur (some { c with stack := { c.stack with vals := c.stack.used.map r.val ++ c.stack.vals.drop c.stack.size } }))[i]? =
        some (some d) → ∃ d, vm.ctxs[i]? = some (some d)) := by
  have hlt := (List.getElem?_eq_some_iff.mp hc).1
  constructor
  · intro i d hd
    have hco : r.val d.coObj = d.coObj := by
      rcases hs.co i d hd with e | ⟨id, o, e, ho, ht⟩
      · rw [e]; rfl
      · rw [e]; exact hp (.obj id) ⟨o, ho, .inr ht⟩
    rw [List.getElem?_set]
    by_cases e : vm.cur = i
    · subst e
      rw [hc] at hd
      cases hd
      have := rewritten_used (f := r.val) (hs.stack _ c hc)
      exact ⟨_, by rw [if_pos rfl, if_pos hlt], this.1, this.2, hco⟩
    · refine ⟨d.stack, by rw [if_neg e]; exact hd, hs.stack i d hd, ?_, hco⟩
      have : d.stack.used.map r.val = d.stack.used.map id :=
        List.map_congr_left fun v hv => hp v (hs.others i d (fun x => e x.symm) hd v hv)
      rw [this, List.map_id]
  · intro i d hd
    rw [List.getElem?_set] at hd
    by_cases e : vm.cur = i
    · rw [← e]; exact ⟨c, hc⟩
    · rw [if_neg e] at hd; exact ⟨d, hd⟩

theorem and_self_of {a b : Prop} (h : a → b) (x : a) : a ∧ b := ⟨x, h x⟩

theorem moveObject_run {vm : VM} (hs : Side vm) {old new : Nat} {x : Obj} (ho : vm.objects.slots[old]? = some (some x))
    (hm : mayMoveObj vm x = true) (hn : vm.objects.slots[new]? = some none) :
    ∃ vm' r, moveObject old new vm = .ok vm' ∧ Renamed r vm vm' ∧ Side vm' := by
  obtain ⟨c, hc⟩ := hs.cur
  let r : Ren := ⟨fun i => if i = old then new else i, id⟩
  have hf : reObj old new = r.val := by
    funext v
    cases v with
    | obj i => show (if i = old then Value.obj new else .obj i) = .obj (if i = old then new else i); split <;> rfl
    | _ => rfl
  have hob : rewriteObj r.val = r.ob := rfl
  have hxo : vm.objects.entry old = some x := Table.entry_eq.mpr ho
  have hnew : vm.objects.entry new = none := by unfold Table.entry; rw [hn]; rfl
  have hnp : ¬ x.Pinned vm := by
    unfold mayMoveObj at hm
    simp only [Bool.and_eq_true, beq_iff_eq, bne_iff_ne] at hm
    rintro (h | h)
    · exact h hm.1
    · exact hm.2 h
  have hfix : ∀ i o, vm.objects.entry i = some o → o.Pinned vm → r.obj i = i := by
    intro i o hi hp
    show (if i = old then new else i) = i
    rw [if_neg]
    rintro rfl
    rw [hxo] at hi
    cases hi
    exact hnp hp
  have hpin : ∀ v, PinnedRef vm v → r.val v = v := by
    intro v hv
    cases v with
    | obj i =>
      obtain ⟨o, hi, hp⟩ := hv
      exact congrArg Value.obj (hfix i o hi hp)
    | _ => rfl
  obtain ⟨k1, k2⟩ := rewritten_stacks (r := r) hs hc hpin
  have hrun := rewriteAll_run (f := r.val) (vm := { vm with objects := { vm.objects with slots := (vm.objects.slots.set new (some x)).set old none } })
    hc (hs.stack _ c hc) hs.statics (by show ((vm.objects.slots.set new (some x)).set old none).length = _; simp [hs.olen])
  have hent : ∀ i, ((((vm.objects.slots.set new (some x)).set old none).map (Option.map (rewriteObj r.val)))[i]?).join =
      (if i = old then none else if i = new then some x else vm.objects.entry i).map r.ob := by
    intro i
    rw [List.getElem?_map, ← hob]
    have := Table.move_entry ho hn i
    rw [show vm.objects.entry i = (vm.objects.slots[i]?).join from rfl, ← this]
    cases ((vm.objects.slots.set new (some x)).set old none)[i]? with
    | none => rfl
    | some o => rfl
  refine ⟨_, r, (by unfold moveObject; rw [Table.move_run hs.olen ho hn, hf]; exact hrun), ?_⟩
  refine and_self_of (fun hren => Side.renamed hren hs ?_ rfl hs.slen rfl hs.blen hs.nodup hs.mem hs.bucket)
    ⟨?_, fun i j e e' _ _ h => h, ?_, ?_, fun i e h => h, fun j e h => ⟨j, e, h, rfl⟩, rfl, k1, k2, hfix, fun _ _ _ _ => rfl, rfl⟩
  · show (((vm.objects.slots.set new (some x)).set old none).map (Option.map (rewriteObj r.val))).length = _
    simp [hs.olen]
  · rintro i j ⟨o, hi⟩ ⟨o', hj⟩ e
    have e : (if i = old then new else i) = (if j = old then new else j) := e
    have n1 : i ≠ new := by rintro rfl; rw [hnew] at hi; cases hi
    have n2 : j ≠ new := by rintro rfl; rw [hnew] at hj; cases hj
    split at e <;> split at e <;> omega
  · intro i o hi
    refine (hent _).trans ?_
    show Option.map r.ob (if (if i = old then new else i) = old then none else if (if i = old then new else i) = new then some x else
      vm.objects.entry (if i = old then new else i)) = _
    by_cases e : i = old
    · subst e
      have : new ≠ i := by rintro rfl; rw [hnew] at hi; cases hi
      rw [hxo] at hi
      cases hi
      simp [this]
    · have : i ≠ new := by rintro rfl; rw [hnew] at hi; cases hi
      simp [e, this, hi]
  · intro j o' hj
    have hj := (hent j).symm.trans hj
    by_cases e : j = old
    · simp [e] at hj
    · by_cases e' : j = new
      · exact ⟨old, x, hxo, by show (if old = old then new else old) = j; rw [if_pos rfl, e']⟩
      · rw [if_neg e, if_neg e'] at hj
        cases hx : vm.objects.entry j with
        | none => rw [hx] at hj; cases hj
        | some o => exact ⟨j, o, hx, by show (if j = old then new else j) = j; rw [if_neg e]⟩

theorem moveString_run {vm : VM} (hs : Side vm) {old new : Nat} {x : Str} (ho : vm.strings.slots[old]? = some (some x))
    (hm : mayMoveStr vm x = true) (hn : vm.strings.slots[new]? = some none) :
    ∃ vm' r, moveString old new vm = .ok vm' ∧ Renamed r vm vm' ∧ Side vm' := by
  obtain ⟨c, hc⟩ := hs.cur
  let r : Ren := ⟨id, fun i => if i = old then new else i⟩
  have hf : reStr old new = r.val := by
    funext v
    cases v with
    | str i => show (if i = old then Value.str new else .str i) = .str (if i = old then new else i); split <;> rfl
    | _ => rfl
  have hob : rewriteObj r.val = r.ob := rfl
  have hxo : vm.strings.entry old = some x := Table.entry_eq.mpr ho
  have hnew : vm.strings.entry new = none := by unfold Table.entry; rw [hn]; rfl
  have hnp : x.dontGC = false := by simpa [mayMoveStr] using hm
  have hfix : ∀ i o, vm.strings.entry i = some o → o.dontGC = true → r.str i = i := by
    intro i o hi hp
    show (if i = old then new else i) = i
    rw [if_neg]
    rintro rfl
    rw [hxo] at hi
    cases hi
    rw [hnp] at hp; cases hp
  have hpin : ∀ v, PinnedRef vm v → r.val v = v := by
    intro v hv
    cases v with
    | str i =>
      obtain ⟨o, hi, hp⟩ := hv
      exact congrArg Value.str (hfix i o hi hp)
    | _ => rfl
  obtain ⟨k1, k2⟩ := rewritten_stacks (r := r) hs hc hpin
  have hrun := rewriteAll_run (f := r.val) (vm := { vm with strings := { vm.strings with slots := (vm.strings.slots.set new (some x)).set old none }, sbuckets := vm.sbuckets.map fun ids => ids.map fun i => if i = old then new else i })
    hc (hs.stack _ c hc) hs.statics hs.olen
  have hent : ∀ i, (((vm.strings.slots.set new (some x)).set old none)[i]?).join =
      (if i = old then none else if i = new then some x else vm.strings.entry i) := fun i => Table.move_entry ho hn i
  have hstrs : ∀ i e, vm.strings.entry i = some e →
      (((vm.strings.slots.set new (some x)).set old none)[r.str i]?).join = some e := by
    intro i o hi
    refine (hent _).trans ?_
    show (if (if i = old then new else i) = old then none else if (if i = old then new else i) = new then some x else
      vm.strings.entry (if i = old then new else i)) = _
    by_cases e : i = old
    · subst e
      have : new ≠ i := by rintro rfl; rw [hnew] at hi; cases hi
      rw [hxo] at hi
      cases hi
      simp [this]
    · have : i ≠ new := by rintro rfl; rw [hnew] at hi; cases hi
      simp [e, this, hi]
  have hmore : ∀ j e, (((vm.strings.slots.set new (some x)).set old none)[j]?).join = some e →
      ∃ i, vm.strings.entry i = some e ∧ r.str i = j := by
    intro j o' hj
    have hj := (hent j).symm.trans hj
    by_cases e : j = old
    · simp [e] at hj
    · by_cases e' : j = new
      · rw [if_neg e, if_pos e'] at hj
        cases hj
        exact ⟨old, hxo, by show (if old = old then new else old) = j; rw [if_pos rfl, e']⟩
      · rw [if_neg e, if_neg e'] at hj
        exact ⟨j, hj, by show (if j = old then new else j) = j; rw [if_neg e]⟩
  have hobe : ∀ i, ((vm.objects.slots.map (Option.map (rewriteObj r.val)))[i]?).join = (vm.objects.entry i).map r.ob := by
    intro i
    rw [List.getElem?_map, ← hob]
    unfold Table.entry
    cases vm.objects.slots[i]? with
    | none => rfl
    | some o => rfl
  have hinj : ∀ i j e e', vm.strings.entry i = some e → vm.strings.entry j = some e' → r.str i = r.str j → i = j := by
    intro i j o o' hi hj e
    have e : (if i = old then new else i) = (if j = old then new else j) := e
    have n1 : i ≠ new := by rintro rfl; rw [hnew] at hi; cases hi
    have n2 : j ≠ new := by rintro rfl; rw [hnew] at hj; cases hj
    split at e <;> split at e <;> omega
  refine ⟨_, r, (by unfold moveString; rw [Table.move_run hs.slen ho hn, hf]; exact hrun), ?_⟩
  refine and_self_of (fun hren => Side.renamed hren hs ?_ rfl ?_ rfl ?_ ?_ ?_ ?_)
    ⟨fun i j _ _ h => h, hinj, ?_, ?_, hstrs, fun j e h => ?_, rfl, k1, k2, fun _ _ _ _ => rfl, hfix, rfl⟩
  · show (vm.objects.slots.map (Option.map (rewriteObj r.val))).length = _
    simp [hs.olen]
  · show ((vm.strings.slots.set new (some x)).set old none).length = _
    simp [hs.slen]
  · show (vm.sbuckets.map _).length = _
    rw [List.length_map]; exact hs.blen
  · intro b ids hb
    rw [List.getElem?_map] at hb
    cases hx : vm.sbuckets[b]? with
    | none => rw [hx] at hb; cases hb
    | some is =>
      rw [hx] at hb
      cases hb
      refine List.Nodup.map_on ?_ (hs.nodup b is hx)
      intro i hi j hj e
      obtain ⟨e1, h1, _⟩ := hs.mem b is hx i hi
      obtain ⟨e2, h2, _⟩ := hs.mem b is hx j hj
      exact hinj i j _ _ h1 h2 e
  · intro b ids hb id hid
    rw [List.getElem?_map] at hb
    cases hx : vm.sbuckets[b]? with
    | none => rw [hx] at hb; cases hb
    | some is =>
      rw [hx] at hb
      cases hb
      obtain ⟨i, hi, rfl⟩ := List.mem_map.mp hid
      obtain ⟨e1, h1, h2⟩ := hs.mem b is hx i hi
      exact ⟨e1, hstrs i e1 h1, h2⟩
  · intro id e he
    obtain ⟨i, hi, rfl⟩ := hmore id e he
    obtain ⟨ids, h1, h2⟩ := hs.bucket i e hi
    refine ⟨ids.map r.str, ?_, List.mem_map.mpr ⟨i, h2, rfl⟩⟩
    show (vm.sbuckets.map _)[_]? = _
    rw [List.getElem?_map, h1]; rfl
  · intro i o hi
    refine (hobe i).trans ?_
    rw [hi]; rfl
  · intro j o' hj
    have hj := (hobe j).symm.trans hj
    cases hx : vm.objects.entry j with
    | none => rw [hx] at hj; cases hj
    | some o => exact ⟨j, o, hx, rfl⟩
  · obtain ⟨i, hi, e⟩ := hmore j e h
    exact ⟨i, _, hi, e⟩

/-! ## The whole -/

/-- Nothing but the room has changed. -/
theorem Renamed.same {vm vm' : VM} (h1 : ∀ i, vm'.objects.entry i = vm.objects.entry i) (h2 : ∀ i, vm'.strings.entry i = vm.strings.entry i)
    (h3 : vm'.statics = vm.statics)
    (h4 : ∀ (i : Nat) (c : Ctx), vm.ctxs[i]? = some (some c) → ∃ s : Stack, vm'.ctxs[i]? = some (some { c with stack := s }) ∧ s.WF ∧ s.used = c.stack.used)
    (h5 : ∀ (i : Nat) (c : Ctx), vm'.ctxs[i]? = some (some c) → ∃ c, vm.ctxs[i]? = some (some c))
    (h6 : vm' = { vm with objects := vm'.objects, strings := vm'.strings, sbuckets := vm'.sbuckets, statics := vm'.statics, ctxs := vm'.ctxs }) :
    Renamed ⟨id, id⟩ vm vm' := by
  refine ⟨fun _ _ _ _ h => h, fun _ _ _ _ _ _ h => h, ?_, ?_, ?_, ?_, ?_, ?_, h5, fun _ _ _ _ => rfl, fun _ _ _ _ => rfl, h6⟩
  · intro i o hi
    rw [Ren.id_ob]; exact (h1 i).trans hi
  · intro j o hj
    exact ⟨j, o, (h1 j).symm.trans hj, rfl⟩
  · intro i e hi
    exact (h2 i).trans hi
  · intro j e hj
    exact ⟨j, e, (h2 j).symm.trans hj, rfl⟩
  · rw [h3]
    exact ((List.map_congr_left fun v _ => Ren.id_val v).trans (List.map_id _)).symm
  · intro i c hc
    obtain ⟨s, a, b, d⟩ := h4 i c hc
    refine ⟨s, a, b, ?_, Ren.id_val _⟩
    rw [d]
    exact ((List.map_congr_left fun v _ => Ren.id_val v).trans (List.map_id _)).symm

theorem CoWF.renamed {r : Ren} {vm vm' : VM} (h : Renamed r vm vm') (hc : CoWF vm) : CoWF vm' := by
  have hco : vm'.coType = vm.coType := by rw [h.rest]
  have hcur : vm'.cur = vm.cur := by rw [h.rest]
  have hext : vm'.extTypes = vm.extTypes := by rw [h.rest]
  have back : ∀ (i : Nat) (c : Ctx), vm'.ctxs[i]? = some (some c) → ∃ d, vm.ctxs[i]? = some (some d) ∧ c.parent = d.parent ∧ c.coObj = d.coObj ∧ c.stack.WF := by
    intro i c hi
    obtain ⟨d, hd⟩ := h.noMoreStacks i c hi
    obtain ⟨s, h1, h2, _⟩ := h.stacks i d hd
    rw [h1] at hi
    cases hi
    exact ⟨d, hd, rfl, rfl, h2⟩
  refine ⟨?_, ?_, ?_, ?_, ?_, ?_⟩
  · obtain ⟨c, h1, h2, h3⟩ := hc.root
    obtain ⟨s, k1, _⟩ := h.stacks 0 c h1
    exact ⟨_, k1, h2, h3⟩
  · intro i c hi
    obtain ⟨d, _, _, _, h2⟩ := back i c hi
    exact h2
  · intro id o' hi ht
    obtain ⟨j, o, hj, rfl⟩ := h.noMoreObjs id o' hi
    rw [h.objs j o hj] at hi
    cases hi
    have ht' : o.extType = vm.coType := by rw [← hco]; exact ht
    obtain ⟨i, c, h1, h2, h3, h4⟩ := hc.own j o hj ht'
    obtain ⟨s, k1, _⟩ := h.stacks i c h3
    exact ⟨i, _, h1, h2, k1, by rw [h.held j o hj (.inr ht')]; exact h4⟩
  · intro i c h0 hi
    obtain ⟨d, hd, _, h2, _⟩ := back i c hi
    obtain ⟨id, o, k1, k2, k3, k4⟩ := hc.owned i d h0 hd
    have := h.objs id o k2
    rw [h.held id o k2 (.inr k3)] at this
    exact ⟨id, r.ob o, h2.trans k1, this, by rw [hco]; exact k3, k4⟩
  · obtain ⟨l, h1, h2, h3, h4, h5⟩ := hc.chain
    refine ⟨l, h1, by rw [hcur]; exact h2, h3, ?_, ?_⟩
    · intro n i j hi hj
      obtain ⟨c, k1, k2⟩ := h4 n i j hi hj
      obtain ⟨s, k3, _⟩ := h.stacks i c k1
      exact ⟨_, k3, k2⟩
    · intro i c hi hp
      obtain ⟨d, hd, e, _⟩ := back i c hi
      exact h5 i d hd (by rw [← e]; exact hp)
  · rw [hext, hco]; exact hc.type

theorem shrinkStack_spec {s : Stack} (hw : s.WF) : (shrinkStack s).WF ∧ (shrinkStack s).used = s.used := by
  obtain ⟨k, hk, hcap⟩ := hw.pow
  obtain ⟨k', hk', hc', hlt⟩ : ∃ k', k' ≤ k ∧ Table.halve s.size s.cap = 2 ^ k' ∧ s.size ≤ 2 ^ k' := by
    by_cases e : s.size < s.cap
    · obtain ⟨k', h1, h2, h3⟩ := Table.halve_spec s.size k (by rw [← hcap]; exact e)
      exact ⟨k', h1, by rw [hcap]; exact h2, Nat.le_of_lt h3⟩
    · refine ⟨k, Nat.le_refl _, ?_, by rw [← hcap]; exact hw.size⟩
      unfold Table.halve
      rw [dif_neg (by omega)]
      exact hcap
  have hpos : 1 ≤ 2 ^ k' := Nat.one_le_two_pow
  have hle : 2 ^ k' ≤ s.cap := by rw [hcap]; exact Nat.pow_le_pow_right (by decide) hk'
  have hlen := hw.len
  unfold shrinkStack
  rw [hc', Nat.max_eq_left hpos]
  by_cases e : 2 ^ k' ≠ s.cap
  · simp only [if_pos e]
    refine ⟨⟨⟨k', by omega, rfl⟩, ?_, Nat.sub_add_cancel hpos, hlt⟩, ?_⟩
    · show (s.vals.take (2 ^ k')).length = 2 ^ k'
      rw [List.length_take]; omega
    · show (s.vals.take (2 ^ k')).take s.size = s.vals.take s.size
      rw [List.take_take, Nat.min_eq_left hlt]
  · rw [if_neg e]
    exact ⟨hw, rfl⟩

/-- The contexts are there, with well-formed stacks that hold what they did. -/
structure Squeezed (vm vm' : VM) : Prop where
  fwd : ∀ (i : Nat) (c : Ctx), vm.ctxs[i]? = some (some c) → ∃ s : Stack, vm'.ctxs[i]? = some (some { c with stack := s }) ∧ s.WF ∧ s.used = c.stack.used
  bwd : ∀ (i : Nat) (c : Ctx), vm'.ctxs[i]? = some (some c) → ∃ c, vm.ctxs[i]? = some (some c)
  rest : vm' = { vm with ctxs := vm'.ctxs }

theorem shrinkCtx_run {vm vm1 : VM} (h : Squeezed vm vm1) {i : Nat} {c : Ctx} (hc : vm.ctxs[i]? = some (some c)) :
    ∃ vm', shrinkCtx i vm1 = .ok vm' ∧ Squeezed vm vm' := by
  obtain ⟨s, h1, h2, h3⟩ := h.fwd i c hc
  have hlt := (List.getElem?_eq_some_iff.mp h1).1
  obtain ⟨w1, w2⟩ := shrinkStack_spec h2
  have e : ctxAt vm1 i = .ok { c with stack := s } := by unfold ctxAt; rw [h1]
  refine ⟨_, (by unfold shrinkCtx; rw [e]), ?_, ?_, ?_⟩
  · intro j d hd
    show ∃ t : Stack, (vm1.ctxs.set i _)[j]? = _ ∧ _
    rw [List.getElem?_set]
    by_cases e : i = j
    · subst e
      rw [hc] at hd
      cases hd
      exact ⟨shrinkStack s, by rw [if_pos rfl, if_pos hlt], w1, w2.trans h3⟩
    · rw [if_neg e]
      exact h.fwd j d hd
  · intro j d hd
    have hd : (vm1.ctxs.set i _)[j]? = some (some d) := hd
    rw [List.getElem?_set] at hd
    by_cases e : i = j
    · subst e; exact ⟨c, hc⟩
    · rw [if_neg e] at hd
      exact h.bwd j d hd
  · rw [h.rest]

theorem shrinkCos_run {vm : VM} (hl : vm.objects.slots.length = vm.objects.cap)
    (hown : ∀ (id : Nat) (o : Obj), vm.objects.entry id = some o → o.extType = vm.coType →
      ∃ (i : Nat) (c : Ctx), o.extData = some i ∧ vm.ctxs[i]? = some (some c))
    (n i : Nat) (vm1 : VM) (h : Squeezed vm vm1) (hi : i + n ≤ vm.objects.cap) : ∃ vm', shrinkCos i n vm1 = .ok vm' ∧ Squeezed vm vm' := by
  induction n generalizing i vm1 with
  | zero => exact ⟨vm1, rfl, h⟩
  | succ n ih =>
    unfold shrinkCos
    have ho : vm1.objects = vm.objects := by rw [h.rest]
    have hco : vm1.coType = vm.coType := by rw [h.rest]
    rw [ho, hco]
    cases hx : vm.objects.slots[i]? with
    | none => rw [List.getElem?_eq_none_iff] at hx; omega
    | some o =>
      have r : vm.objects.read i = .ok o := by unfold Table.read; rw [hx]
      rw [r]
      cases o with
      | none => exact ih (i + 1) vm1 h (by omega)
      | some o =>
        dsimp only
        by_cases ht : o.extType = vm.coType
        · rw [if_pos ht]
          obtain ⟨j, c, h1, h2⟩ := hown i o (Table.entry_eq.mpr hx) ht
          rw [h1]
          dsimp only
          obtain ⟨vm2, e, h3⟩ := shrinkCtx_run h h2
          rw [e]
          exact ih (i + 1) vm2 h3 (by omega)
        · rw [if_neg ht]; exact ih (i + 1) vm1 h (by omega)

theorem HeapWF.side {vm : VM} (h : HeapWF vm) (hn : NoDangling vm) (ho : OthersPinned vm) : Side vm := by
  refine ⟨h.tab.len, h.tab.pow, h.str.tab.len, h.str.tab.pow, h.statics, ?_, h.co.stack, ?_, h.str.blen, h.str.nodup, h.str.mem, h.str.hash,
    h.str.bucket, h.str.inj, hn, ho⟩
  · obtain ⟨l, h1, h2, h3, h4, h5⟩ := h.co.chain
    obtain ⟨c0, h6, _⟩ := h.co.root
    cases l with
    | nil => cases h2
    | cons a l =>
      cases h2
      cases l with
      | nil => have e : vm.cur = 0 := by simpa using h3
               rw [e]; exact ⟨c0, h6⟩
      | cons b l =>
        obtain ⟨c, hc, _⟩ := h4 0 vm.cur b rfl rfl
        exact ⟨c, hc⟩
  · intro i c hi
    by_cases e : i = 0
    · obtain ⟨c0, h6, _, h7⟩ := h.co.root
      rw [e, h6] at hi
      cases hi
      exact .inl h7
    · obtain ⟨id, o, h1, h2, h3, _⟩ := h.co.owned i c e hi
      exact .inr ⟨id, o, h1, h2, h3⟩

theorem Renamed.refl {vm : VM} (h : ∀ (i : Nat) (c : Ctx), vm.ctxs[i]? = some (some c) → c.stack.WF) : Renamed ⟨id, id⟩ vm vm :=
  .same (fun _ => rfl) (fun _ => rfl) rfl (fun i c hc => ⟨c.stack, hc, h i c hc, rfl⟩) (fun _ c hc => ⟨c, hc⟩) rfl

theorem shrinkVM_run {vm : VM} (h : HeapWF vm) (hn : NoDangling vm) (ho : OthersPinned vm) (hh : HandlesCounted vm) :
    ∃ vm' r, shrinkVM vm = .ok vm' ∧ Renamed r vm vm' ∧ HeapWF vm' ∧ NoDangling vm' ∧ OthersPinned vm' := by
  unfold shrinkVM
  by_cases he : vm.errors ≠ []
  · rw [if_pos he]
    exact ⟨vm, _, rfl, .refl h.co.stack, h, hn, ho⟩
  rw [if_neg he]
  obtain ⟨vm1, e1, h1, r1, k1⟩ := compact_run (tab := (·.objects)) (may := mayMoveObj) (move := moveObject)
    (J := fun v => Side v ∧ ∃ r, Renamed r vm v) (fun v hv => hv.1.olen)
    (by
      rintro v i j x ⟨hv, r, hr⟩ g1 g2 g3
      obtain ⟨v', q, e, hq, hs⟩ := moveObject_run hv g1 g2 g3
      exact ⟨v', e, hs, _, hr.trans hq⟩) vm.objects.cap 0 0 vm ⟨h.side hn ho, _, .refl h.co.stack⟩
  rw [e1]
  dsimp only
  obtain ⟨vm2, e2, h2, r2, k2⟩ := compact_run (tab := (·.strings)) (may := mayMoveStr) (move := moveString)
    (J := fun v => Side v ∧ ∃ r, Renamed r vm v) (fun v hv => hv.1.slen)
    (by
      rintro v i j x ⟨hv, r, hr⟩ g1 g2 g3
      obtain ⟨v', q, e, hq, hs⟩ := moveString_run hv g1 g2 g3
      exact ⟨v', e, hs, _, hr.trans hq⟩) vm1.strings.cap 0 0 vm1 ⟨h1, _, k1⟩
  rw [e2]
  dsimp only
  obtain ⟨t, e3, t1, t2, _⟩ := Table.shrink_any h2.olen h2.opow
  rw [e3]
  dsimp only
  obtain ⟨u, e4, u1, u2, _⟩ := Table.shrink_any h2.slen h2.spow
  rw [e4]
  dsimp only
  have hco2 := h.co.renamed k2
  obtain ⟨c0, hc0, _⟩ := hco2.root
  have hsq : Squeezed { vm2 with objects := t, strings := u } { vm2 with objects := t, strings := u } :=
    ⟨fun i c hc => ⟨c.stack, hc, h2.stack i c hc, rfl⟩, fun _ c hc => ⟨c, hc⟩, rfl⟩
  obtain ⟨vm3, e5, h5⟩ := shrinkCtx_run hsq hc0
  rw [e5]
  dsimp only
  have ht3 : vm3.objects = t := by rw [h5.rest]
  rw [ht3]
  obtain ⟨vm4, e6, h6⟩ := shrinkCos_run (vm := { vm2 with objects := t, strings := u }) t1.len (by
    intro id o hi hx
    obtain ⟨i, c, g1, _, g3, _⟩ := hco2.own id o ((t2 id).symm.trans hi) hx
    exact ⟨i, c, g1, g3⟩) t.cap 0 vm3 h5 (by show 0 + t.cap ≤ t.cap; omega)
  rw [e6]
  have x1 : vm4.objects = t := by rw [h6.rest]
  have x2 : vm4.strings = u := by rw [h6.rest]
  have x3 : vm4.sbuckets = vm2.sbuckets := by rw [h6.rest]
  have x4 : vm4.statics = vm2.statics := by rw [h6.rest]
  have hs : Renamed ⟨id, id⟩ vm2 vm4 := .same (fun i => by rw [x1]; exact t2 i) (fun i => by rw [x2]; exact u2 i) x4
    (fun i c hc => h6.fwd i c hc) (fun i c hc => h6.bwd i c hc) (by rw [h6.rest])
  have hall := k2.trans hs
  refine ⟨vm4, _, rfl, hall, ?_, hn.renamed hall, ho.renamed hall⟩
  have hm : vm4.staticMask = vm.staticMask := by rw [hall.rest]
  have hh4 : vm4.handles = vm.handles := by rw [hall.rest]
  have hg : vm4.gc = vm.gc := by rw [hall.rest]
  refine ⟨⟨by rw [x2]; exact u1, by rw [x3]; exact h2.blen, by rw [x3]; exact h2.nodup, ?_, ?_, ?_, ?_⟩, by rw [x1]; exact t1, h.co.renamed hall, ?_, ?_, ?_, ?_⟩
  · rw [x3, x2]
    intro b ids hb id hid
    rw [u2]; exact h2.mem b ids hb id hid
  · rw [x2]; intro id e; rw [u2]; exact h2.hash id e
  · rw [x3, x2]; intro id e; rw [u2]; exact h2.bucket id e
  · rw [x2]; intro i j e e'; rw [u2, u2]; exact h2.inj i j e e'
  · rw [x4, h2.statics, show vm4.staticMask = vm2.staticMask by rw [h6.rest]]
  · rw [hh4]
    intro id hid
    obtain ⟨o, a, b⟩ := hh id hid
    have := hall.objs id o a
    rw [hall.held id o a (.inl b)] at this
    exact ⟨_, this⟩
  · intro id o' hi
    obtain ⟨j, o, hj, rfl⟩ := hall.noMoreObjs id o' hi
    rw [hall.objs j o hj] at hi
    cases hi
    rw [hg]; exact h.passO j o hj
  · intro id o' hi
    obtain ⟨j, o, hj, rfl⟩ := hall.noMoreStrs id o' hi
    rw [hall.strs j o hj] at hi
    cases hi
    rw [hg]; exact h.passS j _ hj

end Nk
