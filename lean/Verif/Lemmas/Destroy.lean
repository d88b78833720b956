import Verif.Lemmas.Collect
import Verif.Model.Destroy
/-!
# Deleting a VM
-/
namespace Nk
variable (H : Host)

def lastAt (vm : VM) (j : Nat) : Option (Nat × Nat × Option Nat) :=
  match vm.objects.entry j with
  | some o => if cleans vm o = true then some (j, o.extType, o.extData) else none
  | none => none

def lastLog (vm : VM) (i n : Nat) : List (Nat × Nat × Option Nat) := (List.range' i n).filterMap (lastAt vm)

/-- Ownership of contexts by the objects from `i` on. -/
def OwnFrom (i : Nat) (vm : VM) : Prop :=
  ∀ (id : Nat) (o : Obj), i ≤ id → vm.objects.entry id = some o → o.extType = vm.coType →
    ∃ (k : Nat) (c : Ctx), o.extData = some k ∧ vm.ctxs[k]? = some (some c) ∧ c.coObj = .obj id

theorem cleanAllObjects_run (n : Nat) :
    ∀ {i : Nat} {vm : VM}, i + n = vm.objects.slots.length → OwnFrom i vm →
    (∃ t, vm.extTypes[vm.coType]? = some t ∧ t.hasCleanup = true ∧ vm.coType ≠ UINT_MAX) →
    ∃ vm', cleanAllObjects i n vm = .ok ((), vm') ∧
      vm'.cleanupLog = (lastLog vm i n).reverse ++ vm.cleanupLog := by
  induction n with
  | zero => intro i vm _ _ _; exact ⟨vm, rfl, rfl⟩
  | succ n ih =>
    intro i vm hi hown hty
    have hlt : i < vm.objects.slots.length := by omega
    have hll : lastLog vm i (n + 1) = (lastAt vm i).toList ++ lastLog vm (i + 1) n := by
      unfold lastLog
      rw [List.range'_succ, List.filterMap_cons]
      cases lastAt vm i <;> simp
    cases hs : vm.objects.slots[i] with
    | none =>
      have hs' : vm.objects.slots[i]? = some none := by rw [List.getElem?_eq_getElem hlt, hs]
      obtain ⟨vm', h1, h2⟩ := ih (i := i + 1) (vm := vm) (by omega) (fun id o h => hown id o (by omega)) hty
      refine ⟨vm', ?_, ?_⟩
      · rw [← h1]; simp [cleanAllObjects, M.bind_eq, hs']
      · have : lastAt vm i = none := by simp [lastAt, Table.entry, hs']
        rw [h2, hll, this]; simp
    | some o =>
      have hs' : vm.objects.slots[i]? = some (some o) := by rw [List.getElem?_eq_getElem hlt, hs]
      have he : vm.objects.entry i = some o := by simp [Table.entry, hs']
      obtain ⟨vm1, h1, h2, h3, h4, h5⟩ := cleanupObject_run (id := i) hty (fun h => by
        obtain ⟨k, c, a, b, _⟩ := hown i o (Nat.le_refl _) he h
        exact ⟨k, c, a, b⟩)
      have hob : vm1.objects = vm.objects := by have := congrArg VM.objects h2; exact this
      have hext : vm1.extTypes = vm.extTypes := by have := congrArg VM.extTypes h2; exact this
      have hcty : vm1.coType = vm.coType := by have := congrArg VM.coType h2; exact this
      generalize hv2 : ({ vm1 with objects := { vm1.objects with slots := vm1.objects.slots.set i none } } : VM) = vm2
      have hob2 : vm2.objects.slots = vm.objects.slots.set i none := by rw [← hv2, ← hob]
      have hext2 : vm2.extTypes = vm.extTypes := by rw [← hv2, ← hext]
      have hcty2 : vm2.coType = vm.coType := by rw [← hv2, ← hcty]
      have hent : ∀ j, i < j → vm2.objects.entry j = vm.objects.entry j := by
        intro j hj
        unfold Table.entry
        rw [hob2, List.getElem?_set_ne (by omega)]
      obtain ⟨vm', g1, g2⟩ := ih (i := i + 1) (vm := vm2) (by rw [hob2]; simp; omega) (by
        intro id x hid hx hxt
        rw [hent id (by omega)] at hx
        rw [hcty2] at hxt
        obtain ⟨k, c, a1, a2, a3⟩ := hown id x (by omega) hx hxt
        refine ⟨k, c, a1, ?_, a3⟩
        rw [← hv2]
        show vm1.ctxs[k]? = _
        rw [h5]
        split
        · rename_i hco
          obtain ⟨k', c', b1, b2, b3⟩ := hown i o (Nat.le_refl _) he hco
          rw [b1]
          simp only [Option.getD_some]
          rw [List.getElem?_set_ne]
          · exact a2
          · intro hk
            subst hk
            rw [a2] at b2; cases b2
            rw [a3] at b3; cases b3
            omega
        · exact a2) (by rw [hext2, hcty2]; exact hty)
      refine ⟨vm', ?_, ?_⟩
      · rw [cleanAllObjects.eq_2, M.bind_ok (get_run vm)]
        simp only [hs']
        rw [M.bind_ok h1, M.bind_ok (modify_run _ vm1), hv2]
        exact g1
      · have e1 : lastLog vm2 (i + 1) n = lastLog vm (i + 1) n := by
          unfold lastLog
          apply List.filterMap_congr
          intro j hj
          have hj : i + 1 ≤ j := by simp [List.mem_range'_1] at hj; omega
          unfold lastAt cleans
          rw [hent j (by omega), hext2]
        have e2 : lastAt vm i = if cleans vm o = true then some (i, o.extType, o.extData) else none := by
          unfold lastAt; rw [he]
        have e3 : vm2.cleanupLog = vm1.cleanupLog := by rw [← hv2]
        rw [g2, e1, hll, e2, e3, h3]
        split <;> simp

/-- The state in which the final collection starts. -/
theorem clear_wf {vm : VM} (h : HeapWF vm) :
    ∃ vm1, (do clearRootStack; clearStatics : M Unit) vm = .ok ((), vm1) ∧ HeapWF vm1 ∧
      vm1.objects = vm.objects ∧ vm1.extTypes = vm.extTypes ∧ vm1.coType = vm.coType ∧
      vm1.cleanupLog = vm.cleanupLog ∧ vm1.gc = vm.gc := by
  obtain ⟨r, hr, hrp, hro⟩ := h.co.root
  have hst := h.co.stack 0 r hr
  have hlen : List.replicate r.stack.cap Value.zero ++ r.stack.vals.drop r.stack.cap =
      List.replicate r.stack.cap Value.zero := by
    rw [List.drop_of_length_le (by rw [hst.len])]; simp
  have hlens : List.replicate (vm.staticMask + 1) Value.zero ++ vm.statics.drop (vm.staticMask + 1) =
      List.replicate (vm.staticMask + 1) Value.zero := by
    rw [List.drop_of_length_le (by rw [h.statics])]; simp
  generalize hr' : ({ r with stack := { r.stack with vals := List.replicate r.stack.cap Value.zero, size := 0 } } : Ctx)
    = r'
  have hr1 : r'.parent = none := by rw [← hr']; exact hrp
  have hr2 : r'.coObj = .nil := by rw [← hr']; exact hro
  have hr3 : r'.stack.WF := by
    rw [← hr']
    exact ⟨hst.pow, by simp, hst.mask, by simp⟩
  have h0 : 0 < vm.ctxs.length := (List.getElem?_eq_some_iff.mp hr).1
  have hctx : ∀ (i : Nat) (c : Ctx), (vm.ctxs.set 0 (some r'))[i]? = some (some c) →
      (i = 0 ∧ c = r') ∨ (i ≠ 0 ∧ vm.ctxs[i]? = some (some c)) := by
    intro i c hc
    by_cases hi : i = 0
    · subst hi
      rw [List.getElem?_set_self h0] at hc
      cases hc; exact Or.inl ⟨rfl, rfl⟩
    · rw [List.getElem?_set_ne (by omega)] at hc
      exact Or.inr ⟨hi, hc⟩
  refine ⟨{ vm with ctxs := vm.ctxs.set 0 (some r'), statics := List.replicate (vm.staticMask + 1) Value.zero },
    ?_, ⟨⟨h.str.tab, h.str.blen, h.str.nodup, h.str.mem, h.str.hash, h.str.bucket, h.str.inj⟩, h.tab,
      ⟨⟨r', by simp [h0], hr1, hr2⟩, ?_, ?_, ?_, ?_, h.co.type⟩, by simp, h.handles, h.passO, h.passS⟩,
      rfl, rfl, rfl, rfl, rfl⟩
  · have : clearRootStack vm = .ok ((), { vm with ctxs := vm.ctxs.set 0 (some r') }) := by
      unfold clearRootStack
      rw [ctxAt_iff.mpr hr]
      simp only
      rw [if_pos (by rw [hst.len]), hlen, hr']
    rw [M.bind_ok this]
    unfold clearStatics
    rw [if_pos (by show vm.staticMask < vm.statics.length; rw [h.statics]; omega)]
    simp only [hlens]
  · intro i c hc
    rcases hctx i c hc with ⟨_, rfl⟩ | ⟨_, hc⟩
    · exact hr3
    · exact h.co.stack i c hc
  · intro id o he ht
    obtain ⟨i, c, k1, k2, k3, k4⟩ := h.co.own id o he ht
    exact ⟨i, c, k1, k2, by show (vm.ctxs.set 0 _)[i]? = _; rw [List.getElem?_set_ne (by omega)]; exact k3, k4⟩
  · intro i c hi hc
    rcases hctx i c hc with ⟨h1, _⟩ | ⟨_, hc⟩
    · exact absurd h1 hi
    · exact h.co.owned i c hi hc
  · obtain ⟨l, h1, h2, h3, h4, h5⟩ := h.co.chain
    refine ⟨l, h1, h2, h3, ?_, ?_⟩
    · intro n i j hi hj
      obtain ⟨x, k1, k2⟩ := h4 n i j hi hj
      by_cases h0' : i = 0
      · subst h0'
        rw [hr] at k1; cases k1
        rw [hrp] at k2; cases k2
      · exact ⟨x, by show (vm.ctxs.set 0 _)[i]? = _; rw [List.getElem?_set_ne (by omega)]; exact k1, k2⟩
    · intro i x hx hp
      rcases hctx i x hx with ⟨_, rfl⟩ | ⟨_, hx⟩
      · exact absurd hr1 hp
      · exact h5 i x hx hp

/-- Deleting a VM in good order runs the cleanup of every object that has one, once. -/
theorem destroy_run {vm : VM} (h : HeapWF vm) (hp : vm.gc.lastGCPass + 1 < 4294967296) :
    ∃ calls vm', destroy H false vm = .ok (calls, vm') ∧ calls = subsystemCalls vm ∧
      ∃ l, vm'.cleanupLog = l ++ vm.cleanupLog ∧ (l.map Prod.fst).Nodup ∧
        ∀ x, x ∈ l ↔ ∃ id o, x = (id, o.extType, o.extData) ∧ vm.objects.entry id = some o ∧ HasCleanup vm o := by
  have hsub : HeapWF { vm with subsystems := List.replicate 16 [] } :=
    ⟨⟨h.str.tab, h.str.blen, h.str.nodup, h.str.mem, h.str.hash, h.str.bucket, h.str.inj⟩, h.tab,
      ⟨h.co.root, h.co.stack, h.co.own, h.co.owned, h.co.chain, h.co.type⟩, h.statics, h.handles, h.passO, h.passS⟩
  obtain ⟨vm1, a1, a2, a3, a4, a5, a6, a7⟩ := clear_wf hsub
  have a3 : vm1.objects = vm.objects := a3
  have a4 : vm1.extTypes = vm.extTypes := a4
  have a5 : vm1.coType = vm.coType := a5
  have a6 : vm1.cleanupLog = vm.cleanupLog := a6
  have a7 : vm1.gc = vm.gc := a7
  obtain ⟨vm2, b1, b2⟩ := garbageCollect_run H a2 (by rw [a7]; exact hp)
  have w2 := b2.wf H a2
  obtain ⟨vm3, c1, c2⟩ := cleanAllObjects_run vm2.objects.cap (i := 0) (vm := vm2) (by simp [w2.tab.len])
    (fun id o _ he ht => by
      obtain ⟨i, c, k1, k2, k3, k4⟩ := w2.co.own id o he ht
      exact ⟨i, c, k1, k3, k4⟩)
    (by obtain ⟨t, k1, _, k3, k4⟩ := w2.co.type; exact ⟨t, k1, k3, k4⟩)
  refine ⟨subsystemCalls vm, vm3, ?_, rfl, ?_⟩
  · unfold destroy
    rw [M.bind_ok (get_run vm), M.bind_ok (modify_run _ vm), if_neg Bool.false_ne_true]
    rw [← M.assoc, M.bind_ok a1, M.bind_ok b1, M.bind_ok (get_run vm2), M.bind_ok c1]
    rfl
  · obtain ⟨l, l1, l2, l3⟩ := b2.log
    have hcl : ∀ o, HasCleanup vm1 o ↔ HasCleanup vm o := fun o => by unfold HasCleanup; rw [a4]
    have hcl2 : ∀ o, HasCleanup vm2 o ↔ HasCleanup vm o := fun o => by
      unfold HasCleanup; rw [b2.extTypes, a4]
    have hmem : ∀ x, x ∈ lastLog vm2 0 vm2.objects.cap ↔ ∃ id o, x = (id, o.extType, o.extData) ∧
        vm.objects.entry id = some o ∧ Reach H vm1 (.obj id) ∧ HasCleanup vm o := by
      intro x
      unfold lastLog
      rw [List.mem_filterMap]
      constructor
      · rintro ⟨j, _, hj⟩
        unfold lastAt at hj
        cases he : vm2.objects.entry j with
        | none => rw [he] at hj; simp at hj
        | some o =>
          rw [he] at hj
          simp only at hj
          split at hj
          · rename_i hc
            obtain ⟨o0, k1, k2, k3⟩ := (b2.obj j o).mp he
            rw [a3] at k1
            refine ⟨j, o0, ?_, k1, k2, ?_⟩
            · rw [k3] at hj; exact (Option.some.inj hj).symm
            · rw [← hcl2, ← cleans_iff]; rw [k3] at hc; exact hc
          · cases hj
      · rintro ⟨id, o, rfl, k1, k2, k3⟩
        have he := (b2.obj id _).mpr ⟨o, by rw [a3]; exact k1, k2, rfl⟩
        refine ⟨id, ?_, ?_⟩
        · have := Table.entry_lt_cap w2.tab he
          simp [List.mem_range'_1]; omega
        · unfold lastAt
          rw [he]
          simp only
          rw [if_pos (by rw [cleans_iff, hcl2]; exact k3)]
    have hfst : ∀ x, x ∈ lastLog vm2 0 vm2.objects.cap ∨ x ∈ l → ∃ o, vm.objects.entry x.1 = some o := by
      intro x hx
      rcases hx with hx | hx
      · obtain ⟨id, o, rfl, k, _⟩ := (hmem x).mp hx; exact ⟨o, k⟩
      · obtain ⟨id, o, rfl, k, _⟩ := (l3 x).mp hx; exact ⟨o, by rw [← a3]; exact k⟩
    refine ⟨(lastLog vm2 0 vm2.objects.cap).reverse ++ l, ?_, ?_, ?_⟩
    · rw [c2, l1, a6]; simp
    · rw [List.map_append, List.map_reverse]
      refine List.nodup_append.mpr ⟨?_, l2, ?_⟩
      · rw [List.nodup_reverse]
        unfold lastLog
        rw [List.map_filterMap]
        refine List.Nodup.filterMap ?_ List.nodup_range'
        intro x y z hx hy
        have aux : ∀ x, z ∈ Option.map Prod.fst (lastAt vm2 x) → z = x := by
          intro x hx
          unfold lastAt at hx
          cases he : vm2.objects.entry x with
          | none => rw [he] at hx; simp at hx
          | some o =>
            rw [he] at hx
            simp only at hx
            split at hx <;> simp at hx
            exact hx.symm
        rw [← aux x hx, ← aux y hy]
      · intro a ha b hb hab
        subst hab
        rw [List.mem_reverse, List.mem_map] at ha
        rw [List.mem_map] at hb
        obtain ⟨x, hx, rfl⟩ := ha
        obtain ⟨y, hy, hxy⟩ := hb
        obtain ⟨id, o, rfl, _, k3, _⟩ := (hmem x).mp hx
        obtain ⟨id', o', rfl, _, k4, _⟩ := (l3 y).mp hy
        simp only at hxy
        subst hxy
        exact k4 k3
    · intro x
      rw [List.mem_append, List.mem_reverse, hmem, l3]
      constructor
      · rintro (⟨id, o, e, k1, k2, k3⟩ | ⟨id, o, e, k1, k2, k3⟩)
        · exact ⟨id, o, e, k1, k3⟩
        · exact ⟨id, o, e, by rw [← a3]; exact k1, (hcl o).mp k3⟩
      · rintro ⟨id, o, e, k1, k3⟩
        by_cases hr : Reach H vm1 (.obj id)
        · exact Or.inl ⟨id, o, e, k1, hr, k3⟩
        · exact Or.inr ⟨id, o, e, by rw [a3]; exact k1, hr, (hcl o).mpr k3⟩

end Nk
