import Verif.Lemmas.Mark
/-!
# The sweeping phase and the whole collection
-/
namespace Nk
variable (H : Host)

/-- Decision procedure for `HasCleanup`. -/
def cleans (vm : VM) (o : Obj) : Bool :=
  o.extType != UINT_MAX && (match vm.extTypes[o.extType]? with
    | some t => t.hasCleanup
    | none => false)

theorem cleans_iff {vm : VM} {o : Obj} : cleans vm o = true ↔ HasCleanup vm o := by
  unfold cleans HasCleanup
  cases vm.extTypes[o.extType]? <;> simp

/-- The record the sweep makes of slot `j`. -/
def dyingAt (pass : Nat) (vm : VM) (j : Nat) : Option (Nat × Nat × Option Nat) :=
  match vm.objects.entry j with
  | some o => if o.lastGCPass ≠ pass ∧ cleans vm o = true then some (j, o.extType, o.extData) else none
  | none => none

/-- The cleanup callbacks run by a sweep of the slots from `i`, `n` of them, in order. -/
def dying (pass : Nat) (vm : VM) (i n : Nat) : List (Nat × Nat × Option Nat) :=
  (List.range' i n).filterMap (dyingAt pass vm)

/-- Every coroutine object owns a context of its own. -/
def Own (vm : VM) : Prop :=
  ∀ (id : Nat) (o : Obj), vm.objects.entry id = some o → o.extType = vm.coType →
    ∃ (i : Nat) (c : Ctx), o.extData = some i ∧ vm.ctxs[i]? = some (some c) ∧ c.coObj = .obj id

/-- Result of removing some objects. -/
structure Sw (rm : Nat → Obj → Prop) (vm vm' : VM) : Prop where
  frame : vm' = { vm with objects := vm'.objects, ctxs := vm'.ctxs, cleanupLog := vm'.cleanupLog,
                          errors := vm'.errors }
  tab : vm'.objects.WF
  cap : vm'.objects.cap = vm.objects.cap
  entry : ∀ j o, vm'.objects.entry j = some o ↔ vm.objects.entry j = some o ∧ ¬ rm j o
  len : vm'.ctxs.length = vm.ctxs.length
  ctx : ∀ (k : Nat) (c : Ctx), vm'.ctxs[k]? = some (some c) ↔ vm.ctxs[k]? = some (some c) ∧
    ¬ ∃ id o, vm.objects.entry id = some o ∧ rm id o ∧ o.extType = vm.coType ∧ o.extData = some k
  errs : vm.errors <+: vm'.errors

theorem cleanupObject_run {vm : VM} {id : Nat} {o : Obj}
    (hty : ∃ t, vm.extTypes[vm.coType]? = some t ∧ t.hasCleanup = true ∧ vm.coType ≠ UINT_MAX)
    (hown : o.extType = vm.coType → ∃ (i : Nat) (c : Ctx), o.extData = some i ∧ vm.ctxs[i]? = some (some c)) :
    ∃ vm', cleanupObject id o vm = .ok ((), vm') ∧
      vm' = { vm with ctxs := vm'.ctxs, cleanupLog := vm'.cleanupLog, errors := vm'.errors } ∧
      vm'.cleanupLog = (if cleans vm o then [(id, o.extType, o.extData)] else []) ++ vm.cleanupLog ∧
      vm.errors <+: vm'.errors ∧
      vm'.ctxs = (if o.extType = vm.coType then vm.ctxs.set (o.extData.getD 0) none else vm.ctxs) := by
  obtain ⟨t, ht, hcl, hne⟩ := hty
  by_cases hco : o.extType = vm.coType
  · obtain ⟨i, c, hd, hc⟩ := hown hco
    refine ⟨{ vm with ctxs := vm.ctxs.set i none, cleanupLog := (id, o.extType, o.extData) :: vm.cleanupLog },
      ?_, rfl, ?_, List.prefix_rfl, ?_⟩
    · have hc' : ctxAt { vm with cleanupLog := (id, vm.coType, some i) :: vm.cleanupLog } i = .ok c :=
        ctxAt_iff.mpr hc
      simp [cleanupObject, M.bind_eq, hco, ht, hcl, hne, freeCtx, hd, hc']
    · simp [cleans, hco, hne, ht, hcl]
    · simp [hco, hd]
  · by_cases hu : o.extType = UINT_MAX
    · refine ⟨vm, ?_, rfl, ?_, List.prefix_rfl, by simp [hco]⟩
      · simp [cleanupObject, M.bind_eq, hu]
      · simp [cleans, hu]
    · cases hx : vm.extTypes[o.extType]? with
      | none =>
        refine ⟨vm.addErr "External type value out of range.", ?_, rfl, ?_, by simp, by simp [hco, VM.addErr]⟩
        · simp [cleanupObject, M.bind_eq, hu, hx]
        · simp [cleans, hx, VM.addErr]
      | some t' =>
        cases hcl' : t'.hasCleanup with
        | false =>
          refine ⟨vm, ?_, rfl, ?_, List.prefix_rfl, by simp [hco]⟩
          · simp [cleanupObject, M.bind_eq, hu, hx, hcl']
          · simp [cleans, hx, hcl']
        | true =>
          refine ⟨{ vm with cleanupLog := (id, o.extType, o.extData) :: vm.cleanupLog }, ?_, rfl, ?_,
            List.prefix_rfl, by simp [hco]⟩
          · simp [cleanupObject, M.bind_eq, hu, hx, hcl', hco]
          · simp [cleans, hx, hcl', hu]

/-- Cleaning up one object and erasing it. -/
theorem removeObject_run {vm : VM} (hw : vm.objects.WF) (hown : Own vm)
    (hty : ∃ t, vm.extTypes[vm.coType]? = some t ∧ t.hasCleanup = true ∧ vm.coType ≠ UINT_MAX)
    {id : Nat} {o : Obj} (he : vm.objects.entry id = some o) {α : Type} (f : M α) :
    ∃ vm', (do cleanupObject id o
               let vm ← get
               let t ← liftR (vm.objects.erase id)
               modify fun vm => { vm with objects := t }
               f : M α) vm = f vm' ∧
      Sw (fun j _ => j = id) vm vm' ∧ Own vm' ∧
      vm'.cleanupLog = (if cleans vm o then [(id, o.extType, o.extData)] else []) ++ vm.cleanupLog := by
  obtain ⟨vm1, h1, h2, h3, h4, h5⟩ := cleanupObject_run (id := id) hty (fun h => by
    obtain ⟨i, c, a, b, _⟩ := hown id o he h
    exact ⟨i, c, a, b⟩)
  have hob : vm1.objects = vm.objects := by have := congrArg VM.objects h2; exact this
  have hext : vm1.extTypes = vm.extTypes := by have := congrArg VM.extTypes h2; exact this
  have hcty : vm1.coType = vm.coType := by have := congrArg VM.coType h2; exact this
  obtain ⟨e1, e2, e3⟩ := Table.erase_live hw he
  generalize hT : (Table.mk (vm.objects.slots.set id none) vm.objects.cap (id :: vm.objects.holes) : Table Obj) = T
    at e1 e2 e3
  have hTc : T.cap = vm.objects.cap := by rw [← hT]
  have hctx : ∀ (k : Nat) (c : Ctx), vm1.ctxs[k]? = some (some c) ↔ vm.ctxs[k]? = some (some c) ∧
      ¬ ∃ j o, vm.objects.entry j = some o ∧ j = id ∧ o.extType = vm.coType ∧ o.extData = some k := by
    intro k c
    rw [h5]
    by_cases hco : o.extType = vm.coType
    · obtain ⟨i, ci, hd, hc, _⟩ := hown id o he hco
      rw [if_pos hco, hd]
      simp only [Option.getD_some, List.getElem?_set]
      by_cases hk : i = k
      · subst hk
        simp only [if_true]
        constructor
        · intro h; split at h <;> cases h
        · rintro ⟨_, hn⟩
          exact absurd ⟨id, o, he, rfl, hco, hd⟩ hn
      · rw [if_neg hk]
        constructor
        · intro h
          refine ⟨h, ?_⟩
          rintro ⟨j, o', g1, rfl, g3, g4⟩
          rw [he] at g1; cases g1
          rw [hd] at g4; cases g4
          exact hk rfl
        · exact fun h => h.1
    · rw [if_neg hco]
      constructor
      · intro h
        refine ⟨h, ?_⟩
        rintro ⟨j, o', g1, rfl, g3, g4⟩
        rw [he] at g1; cases g1
        exact hco g3
      · exact fun h => h.1
  refine ⟨{ vm1 with objects := T }, ?_, ⟨?_, e2, hTc, ?_, ?_, hctx, h4⟩, ?_, h3⟩
  · rw [M.bind_ok h1, M.bind_ok (get_run vm1)]
    rw [hob, e1]
    rfl
  · rw [h2]
  · intro j x
    show T.entry j = some x ↔ _
    rw [e3]
    by_cases hj : j = id
    · simp [hj]
    · simp [hj]
  · show vm1.ctxs.length = _
    rw [h5]; split <;> simp
  · intro j x hx hxt
    have hx : T.entry j = some x := hx
    rw [e3] at hx
    by_cases hj : j = id
    · rw [if_pos hj] at hx; cases hx
    · rw [if_neg hj] at hx
      obtain ⟨i, c, g1, g2, g3⟩ := hown j x hx (by rw [← hcty]; exact hxt)
      refine ⟨i, c, g1, (hctx i c).mpr ⟨g2, ?_⟩, g3⟩
      rintro ⟨j', o', k1, rfl, k3, k4⟩
      rw [he] at k1; cases k1
      obtain ⟨i', c', m1, m2, m3⟩ := hown _ _ he k3
      rw [k4] at m1; cases m1
      rw [g2] at m2; cases m2
      rw [g3] at m3; cases m3
      exact hj rfl

theorem Sw.refl {rm : Nat → Obj → Prop} {vm : VM} (hw : vm.objects.WF)
    (h : ∀ j o, vm.objects.entry j = some o → ¬ rm j o) : Sw rm vm vm := by
  refine ⟨rfl, hw, rfl, fun j o => ⟨fun e => ⟨e, h j o e⟩, fun e => e.1⟩, rfl, ?_, List.prefix_rfl⟩
  intro k c
  refine ⟨fun e => ⟨e, ?_⟩, fun e => e.1⟩
  rintro ⟨id, o, h1, h2, _⟩
  exact h id o h1 h2

theorem Sw.trans {r1 r2 r3 : Nat → Obj → Prop} {vm vm' vm'' : VM} (h1 : Sw r1 vm vm') (h2 : Sw r2 vm' vm'')
    (h : ∀ j o, vm.objects.entry j = some o → (r3 j o ↔ r1 j o ∨ r2 j o)) : Sw r3 vm vm'' := by
  have hc : vm'.coType = vm.coType := by have := congrArg VM.coType h1.frame; exact this
  refine ⟨?_, h2.tab, h2.cap.trans h1.cap, ?_, h2.len.trans h1.len, ?_, h1.errs.trans h2.errs⟩
  · have e1 := h1.frame
    have e2 := h2.frame
    rw [e1] at e2
    exact e2
  · intro j o
    rw [h2.entry, h1.entry]
    constructor
    · rintro ⟨⟨a, b⟩, c⟩
      exact ⟨a, by rw [h j o a]; tauto⟩
    · rintro ⟨a, b⟩
      rw [h j o a] at b
      tauto
  · intro k c
    rw [h2.ctx, h1.ctx, hc]
    constructor
    · rintro ⟨⟨a, b⟩, d⟩
      refine ⟨a, ?_⟩
      rintro ⟨id, o, g1, g2, g3, g4⟩
      rcases (h id o g1).mp g2 with g2 | g2
      · exact b ⟨id, o, g1, g2, g3, g4⟩
      · by_cases gr : r1 id o
        · exact b ⟨id, o, g1, gr, g3, g4⟩
        · exact d ⟨id, o, (h1.entry id o).mpr ⟨g1, gr⟩, g2, g3, g4⟩
    · rintro ⟨a, b⟩
      refine ⟨⟨a, ?_⟩, ?_⟩
      · rintro ⟨id, o, g1, g2, g3, g4⟩
        exact b ⟨id, o, g1, (h id o g1).mpr (Or.inl g2), g3, g4⟩
      · rintro ⟨id, o, g1, g2, g3, g4⟩
        have g1 := ((h1.entry id o).mp g1).1
        exact b ⟨id, o, g1, (h id o g1).mpr (Or.inr g2), g3, g4⟩

theorem dyingAt_congr {pass : Nat} {vm vm' : VM} {j : Nat} (h1 : vm'.objects.entry j = vm.objects.entry j)
    (h2 : vm'.extTypes = vm.extTypes) : dyingAt pass vm' j = dyingAt pass vm j := by
  unfold dyingAt cleans
  rw [h1, h2]

theorem cleanOldObjects_run (pass : Nat) (n : Nat) :
    ∀ {i : Nat} {vm : VM}, i + n = vm.objects.cap → vm.objects.WF → Own vm →
    (∃ t, vm.extTypes[vm.coType]? = some t ∧ t.hasCleanup = true ∧ vm.coType ≠ UINT_MAX) →
    ∃ vm', cleanOldObjects pass i n vm = .ok ((), vm') ∧
      Sw (fun j o => i ≤ j ∧ o.lastGCPass ≠ pass) vm vm' ∧ Own vm' ∧
      vm'.cleanupLog = (dying pass vm i n).reverse ++ vm.cleanupLog := by
  induction n with
  | zero =>
    intro i vm hi hw hown hty
    refine ⟨vm, rfl, Sw.refl hw ?_, hown, rfl⟩
    rintro j o he ⟨h1, _⟩
    have := Table.entry_lt_cap hw he
    omega
  | succ n ih =>
    intro i vm hi hw hown hty
    have hlt : i < vm.objects.slots.length := by rw [hw.len]; omega
    have hdy : dying pass vm i (n + 1) = (dyingAt pass vm i).toList ++ dying pass vm (i + 1) n := by
      unfold dying
      rw [List.range'_succ, List.filterMap_cons]
      cases dyingAt pass vm i <;> simp
    -- skipping slot `i`
    have skip : (∀ o, vm.objects.entry i = some o → o.lastGCPass = pass) →
        cleanOldObjects pass i (n + 1) vm = cleanOldObjects pass (i + 1) n vm →
        ∃ vm', cleanOldObjects pass i (n + 1) vm = .ok ((), vm') ∧
          Sw (fun j o => i ≤ j ∧ o.lastGCPass ≠ pass) vm vm' ∧ Own vm' ∧
          vm'.cleanupLog = (dying pass vm i (n + 1)).reverse ++ vm.cleanupLog := by
      intro hk hr
      obtain ⟨vm', h1, h2, h3, h4⟩ := ih (i := i + 1) (vm := vm) (by omega) hw hown hty
      refine ⟨vm', by rw [hr, h1], ?_, h3, ?_⟩
      · refine (Sw.refl (rm := fun _ _ => False) hw (by simp)).trans h2 ?_
        intro j o he
        constructor
        · rintro ⟨a, b⟩
          right
          refine ⟨?_, b⟩
          rcases Nat.lt_or_ge i j with h | h
          · exact h
          · have : j = i := by omega
            subst this
            exact absurd (hk o he) b
        · rintro (h | ⟨a, b⟩)
          · exact h.elim
          · exact ⟨by omega, b⟩
      · rw [h4, hdy]
        have : dyingAt pass vm i = none := by
          unfold dyingAt
          cases he : vm.objects.entry i with
          | none => rfl
          | some o => simp [hk o he]
        rw [this]; simp
    cases hs : vm.objects.slots[i] with
    | none =>
      have hs' : vm.objects.slots[i]? = some none := by rw [List.getElem?_eq_getElem hlt, hs]
      apply skip
      · intro o he; simp [Table.entry, hs'] at he
      · simp [cleanOldObjects, M.bind_eq, hs']
    | some o =>
      have hs' : vm.objects.slots[i]? = some (some o) := by rw [List.getElem?_eq_getElem hlt, hs]
      have he : vm.objects.entry i = some o := by simp [Table.entry, hs']
      by_cases hp : o.lastGCPass = pass
      · apply skip
        · intro o' he'; rw [he] at he'; cases he'; exact hp
        · simp [cleanOldObjects, M.bind_eq, hs', hp]
      · obtain ⟨vm1, r1, r2, r3, r4⟩ := removeObject_run hw hown hty he (cleanOldObjects pass (i + 1) n)
        have hext : vm1.extTypes = vm.extTypes := by have := congrArg VM.extTypes r2.frame; exact this
        have hcty : vm1.coType = vm.coType := by have := congrArg VM.coType r2.frame; exact this
        obtain ⟨vm', h1, h2, h3, h4⟩ := ih (i := i + 1) (vm := vm1) (by rw [r2.cap]; omega) r2.tab r3
          (by rw [hext, hcty]; exact hty)
        refine ⟨vm', ?_, ?_, h3, ?_⟩
        · rw [← h1, ← r1, cleanOldObjects.eq_2]
          rw [M.bind_ok (get_run vm)]
          simp only [hs']
          rw [if_pos (fun h => hp h.symm)]
        · refine r2.trans h2 ?_
          intro j o' hj
          constructor
          · rintro ⟨a, b⟩
            by_cases hji : j = i
            · exact Or.inl hji
            · exact Or.inr ⟨by omega, b⟩
          · rintro (rfl | ⟨a, b⟩)
            · rw [he] at hj; cases hj
              exact ⟨Nat.le_refl _, hp⟩
            · exact ⟨by omega, b⟩
        · rw [h4, hdy, r4]
          have e1 : dying pass vm1 (i + 1) n = dying pass vm (i + 1) n := by
            unfold dying
            apply List.filterMap_congr
            intro j hj
            have hj : i + 1 ≤ j := by simp [List.mem_range'_1] at hj; omega
            apply dyingAt_congr _ hext
            apply Option.ext
            intro x
            rw [r2.entry]
            constructor
            · exact fun h => h.1
            · exact fun h => ⟨h, by omega⟩
          rw [e1]
          have e2 : dyingAt pass vm i = if cleans vm o = true then some (i, o.extType, o.extData) else none := by
            unfold dyingAt
            rw [he]
            simp [hp]
          rw [e2]
          split <;> simp

end Nk
