import Verif.Lemmas.Objects
import Verif.Spec.Sample
/-!
# C11, C12, C13: objects are finite maps of bounded size

`ObjHistory L vm w` describes the states a VM passes through while scripts create objects and assign fields:
`w` is the log of assignments made to objects that are still live, and `L` bounds the field limits that
were in force.  The instructions are run by the model's `dispatch` (32 creates an object, 33 reads a
field, 34 assigns a field, 42 is `len`).  Between them anything may happen that leaves the fields of the
surviving objects alone and keeps the strings used as keys: stack and arithmetic instructions, creation of
strings, garbage collection.
-/
namespace Nk.Props
variable (F : FloatOps) (H : Host)

/-- Histories of object creations and field assignments. -/
inductive ObjHistory (L : Nat) : VM → Log → Prop
  /-- no objects yet -/
  | start {vm : VM} : StrWF vm → vm.objects.WF → (∀ id, ¬ Live vm id) → ObjHistory L vm []
  /-- `object()` -/
  | create {vm vm' : VM} {w : Log} {c : Ctx} {l : List Value} : ObjHistory L vm w → vm.Stk c l →
      Room vm c.stack → dispatch F H 32 vm = .ok ((), vm') → vm'.errors = vm.errors → ObjHistory L vm' w
  /-- `o[k] = v`, successful -/
  | assign {vm vm' : VM} {w : Log} {c : Ctx} {l : List Value} {v kv : Value} {id : Nat} {k : Key} :
      ObjHistory L vm w → vm.Stk c (l ++ [v, .obj id, kv]) → Live vm id → keyOf vm kv = some k →
      vm.limits.maxFields ≤ L → dispatch F H 34 vm = .ok ((), vm') → vm'.errors = vm.errors →
      ObjHistory L vm' ((id, k, v) :: w)
  /-- anything else -/
  | other {vm vm' : VM} {w : Log} : ObjHistory L vm w → StrWF vm' → vm'.objects.WF →
      (∀ id o', vm'.objects.entry id = some o' → ∃ o, vm.objects.entry id = some o ∧
        o'.buckets = o.buckets ∧ o'.size = o.size ∧
        ∀ es ∈ o.buckets, ∀ e ∈ es, keyOf vm' e.1 = keyOf vm e.1) →
      ObjHistory L vm' (w.filter (fun a => (vm'.objects.entry a.1).isSome))

/-- The objects hold what the log says. -/
structure ObjRep (L : Nat) (vm : VM) (w : Log) : Prop where
  str : StrWF vm
  tab : vm.objects.WF
  owf : ∀ id o, vm.objects.entry id = some o → OWF vm o
  rep : ∀ id o, vm.objects.entry id = some o → ∀ k v, Has vm o k v ↔ current w id k = v ∧ v ≠ .nil
  dead : ∀ id, vm.objects.entry id = none → ∀ k, current w id k = .nil
  lim : ∀ id o, vm.objects.entry id = some o → o.size ≤ L

theorem ObjRep.setC {L : Nat} {vm : VM} {w : Log} (h : ObjRep L vm w) (c : Ctx) : ObjRep L (vm.setC c) w :=
  ⟨VM.setC_strWF h.str c, h.tab, fun id o he => (h.owf id o he).congr fun _ _ _ _ _ =>
    ⟨keyOf_congr rfl _, slot_congr rfl _⟩, fun id o he k v => by
      rw [← h.rep id o he k v]; exact Has.congr (fun _ _ _ _ _ => keyOf_congr rfl _) k v, h.dead, h.lim⟩

theorem current_filter (w : Log) (p : Nat → Bool) (id : Nat) (k : Key) :
    current (w.filter (fun a => p a.1)) id k = if p id then current w id k else .nil := by
  induction w with
  | nil => simp [current]
  | cons a w ih =>
    obtain ⟨i, k', v⟩ := a
    by_cases hp : p i = true
    · simp only [List.filter_cons, hp, if_true, current, ih]
      by_cases h : i = id ∧ k' = k
      · rw [if_pos h, if_pos h]; rw [h.1] at hp; simp [hp]
      · rw [if_neg h, if_neg h]
    · simp only [List.filter_cons, hp, Bool.false_eq_true, if_false, current, ih]
      by_cases h : i = id ∧ k' = k
      · rw [h.1] at hp; simp [hp]
      · rw [if_neg h]

theorem init_owf (vm : VM) : OWF vm Obj.init := by
  have hb : ∀ (b : Nat) (es : List (Value × Value)), Obj.init.buckets[b]? = some es → es = [] := by
    intro b es h
    have h : (List.replicate 16 ([] : List (Value × Value)))[b]? = some es := h
    rw [List.getElem?_replicate] at h
    split at h
    · exact (Option.some.inj h).symm
    · cases h
  refine ⟨rfl, fun b es h e he => ?_, fun b es h => ?_, rfl, by decide⟩
  · rw [hb b es h] at he; cases he
  · rw [hb b es h]; exact List.Pairwise.nil

theorem init_has (vm : VM) (k : Key) (v : Value) : ¬ Has vm Obj.init k v := by
  rintro ⟨b, es, h, e, he, _⟩
  have h : (List.replicate 16 ([] : List (Value × Value)))[b]? = some es := h
  rw [List.getElem?_replicate] at h
  split at h
  · cases h; cases he
  · cases h

/-- Object creation. -/
theorem create_run {vm : VM} {c : Ctx} {l : List Value} (h : vm.Stk c l) (hr : Room vm c.stack)
    (ho : vm.objects.WF) :
    (∃ id t g s, dispatch F H 32 vm =
        .ok ((), ({ vm with objects := t, gc := g } : VM).setC { c with stack := s }) ∧ t.WF ∧
        vm.objects.entry id = none ∧
        (∀ j, t.entry j = if j = id then some Obj.init else vm.objects.entry j) ∧
        (({ vm with objects := t, gc := g } : VM).setC { c with stack := s }).Stk { c with stack := s }
          (l ++ [.obj id])) ∨
    (∃ e vm', dispatch F H 32 vm = .ok ((), vm') ∧ vm'.errors = vm.errors ++ [e]) := by
  have hd : dispatch F H 32 = (do let i ← pushSlot; let v ← (do let id ← createObject; Pure.pure (.obj id)); pokeAt i v) := by
    simp only [M.assoc, M.pure_bind]; rfl
  rcases Table.add_spec ho Obj.init with ⟨i, t, h1, h2, h3, _, h5, _⟩ | ⟨h1, _⟩
  · left
    obtain ⟨s, g1, g2⟩ := slot_then h hr (v := .obj i)
      (vm2 := ({ vm with objects := t, gc := { vm.gc with newObjCountdown := vm.gc.newObjCountdown - 1 } } : VM).setC
        { c with stack := c.stack.pushed })
      (m := do let id ← createObject; Pure.pure (.obj id))
      (by simp [createObject, M.bind_eq, h1]; rfl) rfl rfl
    exact ⟨i, t, _, s, by rw [hd, g1, VM.setC_setC], h2, h3, h5, by simpa using g2⟩
  · right
    obtain ⟨s, g1, g2⟩ := slot_then h hr (v := .obj UINT_MAX)
      (vm2 := (vm.setC { c with stack := c.stack.pushed }).addErr
        "Address space exhaustion when adding item to table.")
      (m := do let id ← createObject; Pure.pure (.obj id))
      (by simp [createObject, M.bind_eq, h1]) rfl rfl
    exact ⟨_, _, by rw [hd, g1], rfl⟩

/-- Storing into a field when the operands are on the stack. -/
theorem set_run {vm : VM} {c : Ctx} {l : List Value} {v kv : Value} {id : Nat}
    (h : vm.Stk c (l ++ [v, .obj id, kv])) (ho : vm.objects.WF) (hl : Live vm id) :
    ∃ s : Stack, (vm.setC { c with stack := s }).Stk { c with stack := s } l ∧ s.size < s.cap ∧
      dispatch F H 34 vm = (do storeField F id kv v; push v : M Unit) (vm.setC { c with stack := s }) := by
  have h' : vm.Stk c ((l ++ [v]) ++ [.obj id, kv]) := by simpa using h
  obtain ⟨o, he⟩ := hl
  obtain ⟨s, g1, g2, _⟩ := pop2 h' (fun key o => (do
    let v ← pop
    match o with
    | .obj id => do
      let ob ← getObj id
      match ob with
      | none => addError "Bad object id in nkiOpcode_objectFieldSet."
      | some _ => do
        storeField F id key v
        push v
    | _ => addError "Attempted to set a field on a value that is not an object." : M Unit))
  obtain ⟨s', k1, k2, k3, _⟩ := pop1 g2 (fun v => (do
      let ob ← getObj id
      match ob with
      | none => addError "Bad object id in nkiOpcode_objectFieldSet."
      | some _ => do
        storeField F id kv v
        push v : M Unit))
  refine ⟨s', by simpa using k2, k3, ?_⟩
  refine Eq.trans g1 (Eq.trans k1 ?_)
  have hg := getObj_run (vm := (vm.setC { c with stack := s' })) ho id
  rw [VM.setC_objects, he] at hg
  rw [VM.setC_setC, M.bind_ok hg]

theorem current_cons {w : Log} {id : Nat} {k k' : Key} {v : Value} {j : Nat} :
    current ((id, k, v) :: w) j k' = if id = j ∧ k = k' then v else current w j k' := rfl

/-- One assignment. -/
theorem assign_step {L : Nat} {vm : VM} {w : Log} (hi : ObjRep L vm w) {c : Ctx} {l : List Value}
    {v kv : Value} {id : Nat} {k : Key} (h : vm.Stk c (l ++ [v, .obj id, kv])) (hl : Live vm id)
    (hk : keyOf vm kv = some k) :
    (∃ vm', dispatch F H 34 vm = .ok ((), vm') ∧ vm'.errors = vm.errors ∧
      (∃ o s, vm' = (vm.setO id o).setC { c with stack := s } ∧ vm'.Stk { c with stack := s } (l ++ [v])) ∧
      (vm.limits.maxFields ≤ L → ObjRep L vm' ((id, k, v) :: w))) ∨
    (v ≠ .nil ∧ current w id k = .nil ∧
      (∃ o, vm.objects.entry id = some o ∧ (vm.limits.maxFields ≤ o.size ∨ o.size = 4294967295)) ∧
      ∃ vm', dispatch F H 34 vm = .ok ((), vm') ∧
        vm'.errors = vm.errors ++ ["Reached object field count limit."]) := by
  obtain ⟨s, g1, g2, g3⟩ := set_run F H h hi.tab hl
  obtain ⟨o, he⟩ := hl
  have hi' := hi.setC { c with stack := s }
  generalize hvm1 : vm.setC { c with stack := s } = vm1 at *
  have he1 : vm1.objects.entry id = some o := by rw [← hvm1]; exact he
  have hk1 : keyOf vm1 kv = some k := by rw [← hk]; exact keyOf_congr (by rw [← hvm1]; rfl) kv
  have ho := hi'.owf id o he1
  -- a successful store
  have good : ∀ o', storeField F id kv v vm1 = .ok ((), vm1.setO id o') → OWF vm1 o' →
      (o'.size ≤ max o.size vm.limits.maxFields) →
      (∀ k' x, Has vm1 o' k' x ↔ (k' = k ∧ x = v ∧ v ≠ .nil) ∨ (k' ≠ k ∧ Has vm1 o k' x)) →
      ∃ vm', dispatch F H 34 vm = .ok ((), vm') ∧ vm'.errors = vm.errors ∧
        (∃ o s, vm' = (vm.setO id o).setC { c with stack := s } ∧ vm'.Stk { c with stack := s } (l ++ [v])) ∧
        (vm.limits.maxFields ≤ L → ObjRep L vm' ((id, k, v) :: w)) := by
    intro o' h1 h2 h3 h4
    have hst : (vm1.setO id o').Stk { c with stack := s } l := ⟨g1.at_, g1.wf, g1.used⟩
    obtain ⟨s2, p1, p2, _⟩ := push_room hst (Or.inl g2) v
    have hrep : vm.limits.maxFields ≤ L → ObjRep L (vm1.setO id o') ((id, k, v) :: w) := by
      intro hL
      have hent := setO_entry hi'.tab he1 o'
      have hkc : ∀ x, keyOf (vm1.setO id o') x = keyOf vm1 x := fun x => keyOf_congr rfl x
      have hsc : ∀ x, slot (vm1.setO id o') x = slot vm1 x := fun x => slot_congr rfl x
      refine ⟨setO_strWF hi'.str _ _, setO_wf hi'.tab he1 o', ?_, ?_, ?_, ?_⟩
      · intro j x hj
        rw [hent] at hj
        split at hj
        · cases hj; exact h2.congr fun _ _ _ _ _ => ⟨hkc _, hsc _⟩
        · exact (hi'.owf j x hj).congr fun _ _ _ _ _ => ⟨hkc _, hsc _⟩
      · intro j x hj k' y
        rw [Has.congr (fun _ _ _ _ _ => hkc _), current_cons]
        rw [hent] at hj
        by_cases hji : j = id
        · rw [if_pos hji] at hj
          cases hj
          subst hji
          rw [h4]
          by_cases hkk : k = k'
          · subst hkk
            simp only [and_self, if_true, ne_eq, not_true_eq_false, false_and, or_false, true_and]
            constructor
            · rintro ⟨rfl, h⟩; exact ⟨rfl, h⟩
            · rintro ⟨rfl, h⟩; exact ⟨rfl, h⟩
          · have hkk' : k' ≠ k := fun e => hkk e.symm
            simp only [hkk, and_false, if_false, hkk', ne_eq, not_false_eq_true, true_and, false_and, false_or]
            exact hi'.rep j o he1 k' y
        · rw [if_neg hji] at hj
          have : ¬ (id = j ∧ k = k') := fun e => hji e.1.symm
          rw [if_neg this]
          exact hi'.rep j x hj k' y
      · intro j hj k'
        rw [hent] at hj
        by_cases hji : j = id
        · rw [if_pos hji] at hj; cases hj
        · rw [if_neg hji] at hj
          have : ¬ (id = j ∧ k = k') := fun e => hji e.1.symm
          rw [current_cons, if_neg this]
          exact hi'.dead j hj k'
      · intro j x hj
        rw [hent] at hj
        split at hj
        · cases hj
          have := hi'.lim id o he1
          exact Nat.le_trans h3 (Nat.max_le.mpr ⟨this, hL⟩)
        · exact hi'.lim j x hj
    refine ⟨_, by rw [g3, M.bind_ok h1, p1], ?_, ⟨o', s2, ?_, ?_⟩, ?_⟩
    · rw [← hvm1]; rfl
    · rw [← hvm1, VM.setO_setC, VM.setC_setC]
    · exact ⟨p2.at_, p2.wf, p2.used⟩
    · intro hL; exact (hrep hL).setC _
  by_cases hv : v = .nil
  · left
    obtain ⟨o', c1, c2, c3, c4, _⟩ := clearEntry_run F hi'.str hi'.tab he1 ho hk1
    refine good o' ?_ c2 (Nat.le_trans c3 (Nat.le_max_left _ _)) ?_
    · unfold storeField; rw [if_pos hv, c1]
    · intro k' x; rw [c4]; simp [hv]
  · obtain ⟨a1, a2⟩ := assign_run F hi'.str hi'.tab he1 ho hk1 hv
    have hlim : vm1.limits = vm.limits := by rw [← hvm1]; rfl
    rw [hlim] at a1 a2
    by_cases hroom : (∃ x, Has vm1 o k x) ∨ (o.size + 1 < 4294967296 ∧ o.size + 1 ≤ vm.limits.maxFields)
    · left
      obtain ⟨o', c1, c2, c3, c4, _⟩ := a1 hroom
      exact good o' c1 c2 c4 (fun k' x => by rw [c3]; simp [hv])
    · right
      have hno : ∀ x, ¬ Has vm1 o k x := fun x hx => hroom (Or.inl ⟨x, hx⟩)
      have hr2 := fun x => hroom (Or.inr x)
      refine ⟨hv, ?_, ⟨o, he, ?_⟩, ?_⟩
      · by_contra hc
        exact hno _ ((hi'.rep id o he1 k _).mpr ⟨rfl, hc⟩)
      · have := ho.lt; omega
      · obtain ⟨o', c1, _⟩ := a2 hno hr2
        have hst : ((vm1.setO id o').addErr "Reached object field count limit.").Stk { c with stack := s } l :=
          ⟨g1.at_, g1.wf, g1.used⟩
        obtain ⟨s2, p1, p2, _⟩ := push_room hst (Or.inl g2) v
        refine ⟨_, by rw [g3, M.bind_ok c1, p1], ?_⟩
        rw [← hvm1]; rfl

/-- Every history is represented by the objects. -/
theorem history_rep {L : Nat} {vm : VM} {w : Log} (h : ObjHistory F H L vm w) : ObjRep L vm w := by
  induction h with
  | start h1 h2 h3 =>
    refine ⟨h1, h2, fun id o he => absurd ⟨o, he⟩ (h3 id), fun id o he => absurd ⟨o, he⟩ (h3 id),
      fun _ _ _ => rfl, fun id o he => absurd ⟨o, he⟩ (h3 id)⟩
  | @create vm vm' w c l _ hs hr hd he ih =>
    rcases create_run F H hs hr ih.tab with ⟨id, t, g, s, h1, h2, h3, h4, _⟩ | ⟨e, vm2, h1, h2⟩
    · rw [hd] at h1
      cases h1
      refine ⟨?_, h2, ?_, ?_, ?_, ?_⟩
      · exact ⟨ih.str.tab, ih.str.blen, ih.str.nodup, ih.str.mem, ih.str.hash, ih.str.bucket, ih.str.inj⟩
      · intro j o hj
        have hj : t.entry j = some o := hj
        rw [h4] at hj
        split at hj
        · cases hj; exact init_owf _
        · exact (ih.owf j o hj).congr fun _ _ _ _ _ => ⟨keyOf_congr rfl _, slot_congr rfl _⟩
      · intro j o hj k v
        have hj : t.entry j = some o := hj
        rw [h4] at hj
        split at hj
        · rename_i hji
          cases hj
          subst hji
          rw [ih.dead j h3 k]
          exact iff_of_false (init_has _ _ _) (fun ⟨h, h'⟩ => h' h.symm)
        · rw [← ih.rep j o hj k v]
          exact Has.congr (fun _ _ _ _ _ => keyOf_congr rfl _) k v
      · intro j hj k
        have hj : t.entry j = none := hj
        rw [h4] at hj
        split at hj
        · cases hj
        · exact ih.dead j hj k
      · intro j o hj
        have hj : t.entry j = some o := hj
        rw [h4] at hj
        split at hj
        · cases hj; exact Nat.zero_le _
        · exact ih.lim j o hj
    · rw [hd] at h1
      cases h1
      rw [h2] at he
      simp at he
  | @assign vm vm' w c l v kv id k _ hs hl hk hL hd he ih =>
    rcases assign_step F H ih hs hl hk with ⟨vm2, h1, _, _, h3⟩ | ⟨_, _, _, vm2, h1, h2⟩
    · rw [hd] at h1
      cases h1
      exact h3 hL
    · rw [hd] at h1
      cases h1
      rw [h2] at he
      simp at he
  | @other vm vm' w _ hs ho hkeep ih =>
    have hkeys : ∀ id o' o, vm'.objects.entry id = some o' → vm.objects.entry id = some o →
        o'.buckets = o.buckets → (∀ es ∈ o.buckets, ∀ e ∈ es, keyOf vm' e.1 = keyOf vm e.1) →
        ∀ (b : Nat) (es : List (Value × Value)), o'.buckets[b]? = some es → ∀ e ∈ es,
          keyOf vm' e.1 = keyOf vm e.1 ∧ slot vm' e.1 = slot vm e.1 := by
      intro id o' o h1 h2 hb h3 b es hbe e he
      rw [hb] at hbe
      have hk := h3 es (List.mem_of_getElem? hbe) e he
      refine ⟨hk, ?_⟩
      obtain ⟨k, hk'⟩ := ((ih.owf id o h2).key b es hbe e he).1
      have hk2 : keyOf vm' e.1 = some k := hk.trans hk'
      cases hv : e.1 with
      | str i =>
        rw [hv] at hk' hk2
        obtain ⟨x, hx, rfl⟩ := keyOf_str.mp hk'
        obtain ⟨y, hy, hxy⟩ := keyOf_str.mp hk2
        simp only [slot, hx, hy]
        rw [hs.hash _ _ hy, ih.str.hash _ _ hx, Key.str.inj hxy]
      | _ => rfl
    refine ⟨hs, ho, ?_, ?_, ?_, ?_⟩
    · intro id o' h1
      obtain ⟨o, h2, hb, hsz, h3⟩ := hkeep id o' h1
      have hc := hkeys id o' o h1 h2 hb h3
      have how := ih.owf id o h2
      refine OWF.congr (vm := vm) ⟨?_, ?_, ?_, ?_, ?_⟩ hc
      · rw [hb]; exact how.len
      · rw [hb]; exact how.key
      · rw [hb]; exact how.nodup
      · rw [hb, hsz]; exact how.size
      · rw [hsz]; exact how.lt
    · intro id o' h1 k v
      obtain ⟨o, h2, hb, hsz, h3⟩ := hkeep id o' h1
      have hc := hkeys id o' o h1 h2 hb h3
      rw [current_filter w (fun i => (vm'.objects.entry i).isSome), h1]
      rw [Has.congr (vm := vm) (fun b es hbe e he => (hc b es hbe e he).1)]
      simp only [Option.isSome_some, if_true]
      rw [← ih.rep id o h2 k v]
      unfold Has
      rw [hb]
    · intro id h1 k
      rw [current_filter w (fun i => (vm'.objects.entry i).isSome), h1]
      simp
    · intro id o' h1
      obtain ⟨o, h2, _, hsz, _⟩ := hkeep id o' h1
      rw [hsz]; exact ih.lim id o h2

/-- **C11**, reading: after any history, `o[k]` on a live object yields the value most recently assigned
to that key of that object, or nil, and changes nothing. -/
theorem C11_read_partial {L : Nat} {vm : VM} {w : Log} (hh : ObjHistory F H L vm w) {c : Ctx} {l : List Value}
    {kv : Value} {id : Nat} {k : Key} (h : vm.Stk c (l ++ [.obj id, kv])) (hl : Live vm id)
    (hk : keyOf vm kv = some k) :
    ∃ vm', dispatch F H 33 vm = .ok ((), vm') ∧ Yields vm l (current w id k) vm' := by
  have hi := history_rep F H hh
  obtain ⟨s, g1, g2, g3, _⟩ := pop2 h (fun key o => (
    match o with
    | .obj id => do
      let ob ← getObj id
      match ob with
      | none => addError "Bad object id in nkiOpcode_objectFieldGet."
      | some _ => do
        let i ← pushSlot
        let v ← lookupField F id key
        pokeAt i (v.getD .nil)
    | _ => addError "Attempted to get a field on a value that is not an object." : M Unit))
  obtain ⟨o, he⟩ := hl
  have hi' := hi.setC { { c with stack := s } with stack := s.pushed }
  have hk' : keyOf (vm.setC { { c with stack := s } with stack := s.pushed }) kv = some k := by
    rw [← hk]; exact keyOf_congr rfl _
  have hval : lookupField F id kv (vm.setC { { c with stack := s } with stack := s.pushed }) =
      .ok (some (current w id k), vm.setC { { c with stack := s } with stack := s.pushed }) ∨
      (lookupField F id kv (vm.setC { { c with stack := s } with stack := s.pushed }) =
      .ok (none, vm.setC { { c with stack := s } with stack := s.pushed }) ∧ current w id k = .nil) := by
    rcases lookupField_run F hi'.str hi'.tab he (hi'.owf id o he) hk' with ⟨v, h1, h2⟩ | ⟨h1, h2⟩
    · left; rw [((hi'.rep id o he k v).mp h2).1]; exact h1
    · right
      refine ⟨h1, ?_⟩
      by_contra hc
      exact h2 _ ((hi'.rep id o he k _).mpr ⟨rfl, hc⟩)
  obtain ⟨s', p1, p2⟩ := slot_then g2 (Or.inl g3) (v := current w id k)
    (m := do let v ← lookupField F id kv; Pure.pure (v.getD .nil))
    (vm2 := vm.setC { { c with stack := s } with stack := s.pushed })
    (by
      rw [VM.setC_setC]
      rcases hval with h1 | ⟨h1, h2⟩
      · rw [M.bind_ok h1]; rfl
      · rw [M.bind_ok h1, h2]; rfl)
    (by rw [VM.setC_setC]) rfl
  refine ⟨vm.setC { c with stack := s' }, ?_, c, s', h.at_, rfl, ?_⟩
  · refine Eq.trans g1 ?_
    have hg := getObj_run (vm := vm.setC { c with stack := s }) hi.tab id
    rw [VM.setC_objects, he] at hg
    refine Eq.trans (M.bind_ok hg) ?_
    rw [VM.setC_setC] at p1
    simp only [M.assoc, M.pure_bind] at p1
    exact p1
  · simpa using p2

/-- **C11**, writing: after any history, assigning a field of a live object either completes without
error, leaving the assigned value on the stack and everything but that object and the stack unchanged, or
is refused because of the field limit.  It never fails otherwise. -/
theorem C11_write_partial {L : Nat} {vm : VM} {w : Log} (hh : ObjHistory F H L vm w) {c : Ctx} {l : List Value}
    {v kv : Value} {id : Nat} {k : Key} (h : vm.Stk c (l ++ [v, .obj id, kv])) (hl : Live vm id)
    (hk : keyOf vm kv = some k) (hL : vm.limits.maxFields ≤ L) :
    (∃ vm' o s, dispatch F H 34 vm = .ok ((), vm') ∧ ObjHistory F H L vm' ((id, k, v) :: w) ∧
      vm' = (vm.setO id o).setC { c with stack := s } ∧ vm'.Stk { c with stack := s } (l ++ [v])) ∨
    (∃ vm', dispatch F H 34 vm = .ok ((), vm') ∧
      vm'.errors = vm.errors ++ ["Reached object field count limit."]) := by
  rcases assign_step F H (history_rep F H hh) h hl hk with ⟨vm', h1, h2, ⟨o, s, h3, h4⟩, _⟩ | ⟨_, _, _, vm', h1, h2⟩
  · exact Or.inl ⟨vm', o, s, h1, ObjHistory.assign hh h hl hk hL h1 h2, h3, h4⟩
  · exact Or.inr ⟨vm', h1, h2⟩

/-- The number of elements is the number of fields. -/
theorem rep_count {L : Nat} {vm : VM} {w : Log} (h : ObjRep L vm w) {id : Nat} {o : Obj}
    (he : vm.objects.entry id = some o) : FieldCount w id o.size := by
  have ho := h.owf id o he
  have hdist : (o.buckets.flatten).Pairwise (fun x y => keyOf vm x.1 ≠ keyOf vm y.1) := by
    rw [List.pairwise_flatten]
    constructor
    · intro es hes
      obtain ⟨b, hb, rfl⟩ := List.getElem_of_mem hes
      exact ho.nodup b _ (List.getElem?_eq_getElem hb)
    · rw [List.pairwise_iff_getElem]
      intro i j hi hj hij x hx y hy hc
      have h1 := ho.key i _ (List.getElem?_eq_getElem hi) x hx
      have h2 := ho.key j _ (List.getElem?_eq_getElem hj) y hy
      obtain ⟨k, hk⟩ := h1.1
      have := slot_key h.str hk (hc ▸ hk)
      omega
  have hall : ∀ e ∈ o.buckets.flatten, ∃ k, keyOf vm e.1 = some k := by
    intro e hm
    obtain ⟨es, hes, hm⟩ := List.mem_flatten.mp hm
    obtain ⟨b, hb, rfl⟩ := List.getElem_of_mem hes
    exact (ho.key b _ (List.getElem?_eq_getElem hb) e hm).1
  refine ⟨o.buckets.flatten.filterMap (fun e => keyOf vm e.1), ?_, ?_, ?_⟩
  · rw [List.Nodup, List.pairwise_filterMap]
    refine hdist.imp ?_
    intro x y hxy k hk k' hk' hkk
    rw [hkk] at hk
    exact hxy (hk.trans hk'.symm)
  · intro k
    rw [List.mem_filterMap]
    constructor
    · rintro ⟨e, hm, hk⟩
      obtain ⟨es, hes, hm⟩ := List.mem_flatten.mp hm
      obtain ⟨b, hb, rfl⟩ := List.getElem_of_mem hes
      have := (h.rep id o he k e.2).mp ⟨b, _, List.getElem?_eq_getElem hb, e, hm, hk, rfl⟩
      rw [this.1]; exact this.2
    · intro hc
      obtain ⟨b, es, hb, e, hm, hk, _⟩ := (h.rep id o he k _).mpr ⟨rfl, hc⟩
      exact ⟨e, List.mem_flatten.mpr ⟨es, List.mem_of_getElem? hb, hm⟩, hk⟩
  · rw [ho.size, ← List.length_flatten]
    clear hdist
    generalize o.buckets.flatten = es at hall
    induction es with
    | nil => rfl
    | cons e es ih =>
      obtain ⟨k, hk⟩ := hall e (by simp)
      rw [List.filterMap_cons, hk]
      simp only [List.length_cons]
      rw [ih (fun e he => hall e (by simp [he]))]

/-- **C12**: after any history, `len(o)` on a live object yields the number of keys that currently have a
value other than nil. -/
theorem C12_len_partial {L : Nat} {vm : VM} {w : Log} (hh : ObjHistory F H L vm w) {c : Ctx} {l : List Value}
    {id : Nat} (h : vm.Stk c (l ++ [.obj id])) (hl : Live vm id) :
    ∃ vm' n, dispatch F H 42 vm = .ok ((), vm') ∧ Yields vm l (.int (BitVec.ofNat 32 n)) vm' ∧
      n < 2 ^ 32 ∧ FieldCount w id n := by
  have hi := history_rep F H hh
  obtain ⟨o, he⟩ := hl
  obtain ⟨s, g1, g2, g3, _⟩ := pop1 h (fun v => (do
    let i ← pushSlot
    match v with
    | .obj _ => do
      let n ← objectSize v
      pokeAt i (.int (BitVec.ofNat 32 n))
    | _ => addError "Non-object passed into len()." : M Unit))
  obtain ⟨s', p1, p2⟩ := slot_then g2 (Or.inl g3) (v := .int (BitVec.ofNat 32 o.size))
    (m := do let n ← objectSize (.obj id); Pure.pure (.int (BitVec.ofNat 32 n)))
    (vm2 := vm.setC { { c with stack := s } with stack := s.pushed })
    (by
      rw [VM.setC_setC]
      have hg := getObj_run (vm := vm.setC { { c with stack := s } with stack := s.pushed }) hi.tab id
      rw [VM.setC_objects, he] at hg
      simp only [objectSize, objFromValue, M.bind_eq, hg]
      rfl)
    (by rw [VM.setC_setC]) rfl
  rw [VM.setC_setC] at p1
  simp only [M.assoc, M.pure_bind] at p1
  refine ⟨vm.setC { c with stack := s' }, o.size, Eq.trans g1 p1, ⟨c, s', h.at_, rfl, by simpa using p2⟩,
    (hi.owf id o he).lt, rep_count hi he⟩

/-- **C13**, partial: as long as no assignment was refused, no object has more fields than the largest
field limit in force at an assignment.  (What is missing is the state after a refusal, see
`C13_violation`.) -/
theorem C13_limit_partial {L : Nat} {vm : VM} {w : Log} (hh : ObjHistory F H L vm w) {id : Nat}
    (hl : Live vm id) : ∃ n, n ≤ L ∧ FieldCount w id n := by
  obtain ⟨o, he⟩ := hl
  have hi := history_rep F H hh
  exact ⟨o.size, hi.lim id o he, rep_count hi he⟩

/-- **C13**: an assignment that would give the object more fields than the limit in force records an
error. -/
theorem C13_refused {L : Nat} {vm : VM} {w : Log} (hh : ObjHistory F H L vm w) {c : Ctx} {l : List Value}
    {v kv : Value} {id : Nat} {k : Key} (h : vm.Stk c (l ++ [v, .obj id, kv])) (hl : Live vm id)
    (hk : keyOf vm kv = some k) (hv : v ≠ .nil) (hnew : current w id k = .nil)
    {n : Nat} (hn : FieldCount w id n) (hfull : vm.limits.maxFields ≤ n) :
    ∃ vm', dispatch F H 34 vm = .ok ((), vm') ∧
      vm'.errors = vm.errors ++ ["Reached object field count limit."] := by
  have hi := history_rep F H hh
  obtain ⟨o, he⟩ := hl
  have hcount : o.size = n := by
    obtain ⟨ks, h1, h2, h3⟩ := rep_count hi he
    obtain ⟨ks', h1', h2', h3'⟩ := hn
    have : ks.Perm ks' := (List.perm_ext_iff_of_nodup h1 h1').mpr (fun k => by rw [h2, h2'])
    rw [h3, h3', this.length_eq]
  obtain ⟨s, g1, g2, g3⟩ := set_run F H h hi.tab ⟨o, he⟩
  have hi' := hi.setC { c with stack := s }
  have hk1 : keyOf (vm.setC { c with stack := s }) kv = some k := by rw [← hk]; exact keyOf_congr rfl kv
  obtain ⟨_, a2⟩ := assign_run F hi'.str hi'.tab (o := o) he (hi'.owf id o he) hk1 hv
  obtain ⟨o', c1, _⟩ := a2 (fun x hx => by
      have := (hi'.rep id o he k x).mp hx
      rw [hnew] at this
      exact this.2 this.1.symm)
    (by
      show ¬ (o.size + 1 < 4294967296 ∧ o.size + 1 ≤ vm.limits.maxFields)
      omega)
  have hst : (((vm.setC { c with stack := s }).setO id o').addErr "Reached object field count limit.").Stk
      { c with stack := s } l := ⟨g1.at_, g1.wf, g1.used⟩
  obtain ⟨s2, p1, p2, _⟩ := push_room hst (Or.inl g2) v
  exact ⟨_, by rw [g3, M.bind_ok c1, p1], rfl⟩

/-- **C13 is violated** by the state after a refusal: the refused field is there (with the value 0).  So
in every such state reading it gives 0 instead of nil. -/
theorem C13_violation {L : Nat} {vm : VM} {w : Log} (hh : ObjHistory F H L vm w) {v kv : Value}
    {id : Nat} {k : Key} {o : Obj} (he : vm.objects.entry id = some o)
    (hk : keyOf vm kv = some k) (hv : v ≠ .nil) (hnew : current w id k = .nil)
    (hfull : vm.limits.maxFields ≤ o.size) :
    ∃ vm', storeField F id kv v vm = .ok ((), vm') ∧ vm'.errors ≠ vm.errors ∧
      ∃ o', vm'.objects.entry id = some o' ∧ Has vm' o' k (.int 0) := by
  have hi := history_rep F H hh
  obtain ⟨_, a2⟩ := assign_run F hi.str hi.tab he (hi.owf id o he) hk hv
  obtain ⟨o', c1, c2, _⟩ := a2 (fun x hx => by
      have := (hi.rep id o he k x).mp hx
      rw [hnew] at this
      exact this.2 this.1.symm) (by omega)
  refine ⟨_, c1, by simp, o', ?_, ?_⟩
  · have := setO_entry hi.tab he o' id
    rw [if_pos rfl] at this
    exact this
  · exact (Has.congr (vm := vm) (fun _ _ _ _ _ => keyOf_congr rfl _) _ _).mpr c2

/-! ## Concrete cases -/

/-- An object with fields 1 and "a", overwritten, one removed again: `o[1]` is 7, `o["a"]` is nil,
`len(o)` is 1. -/
example : ((do
    dispatch Sample.F Sample.H 32; let o ← pop
    let a ← findOrAddString (cs "a")
    push (.int 5); push o; push (.int 1); dispatch Sample.F Sample.H 34
    push (.int 6); push o; push (.str a); dispatch Sample.F Sample.H 34
    push (.int 7); push o; push (.int 1); dispatch Sample.F Sample.H 34
    push .nil; push o; push (.str a); dispatch Sample.F Sample.H 34
    push o; push (.int 1); dispatch Sample.F Sample.H 33; let x ← pop
    push o; push (.str a); dispatch Sample.F Sample.H 33; let y ← pop
    push o; dispatch Sample.F Sample.H 42; let n ← pop
    return (x, y, n) : M (Value × Value × Value)) VM.create).test
    (fun p => decide (p.1 = (.int 7, .nil, .int 1) ∧ p.2.errors = [])) := by decide +kernel

/-- With a limit of one field the second assignment is refused, yet the refused field then reads as 0, and
assigning it again succeeds without a further error: the object has two fields. -/
example : ((do
    dispatch Sample.F Sample.H 32; let o ← pop
    push (.int 5); push o; push (.int 1); dispatch Sample.F Sample.H 34
    push (.int 6); push o; push (.int 2); dispatch Sample.F Sample.H 34
    push o; push (.int 2); dispatch Sample.F Sample.H 33; let x ← pop
    push (.int 8); push o; push (.int 2); dispatch Sample.F Sample.H 34
    push o; push (.int 1); dispatch Sample.F Sample.H 33; let y ← pop
    push o; push (.int 2); dispatch Sample.F Sample.H 33; let z ← pop
    return (x, y, z) : M (Value × Value × Value)) { VM.create with limits := { VM.create.limits with maxFields := 1 } }).test
    (fun p => decide (p.1 = (.int 0, .int 5, .int 8) ∧
      p.2.errors = ["Reached object field count limit."])) := by decide +kernel

end Nk.Props
