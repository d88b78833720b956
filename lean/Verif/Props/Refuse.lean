import Verif.Props.Objects
import Verif.Lemmas.Refuse
/-!
# C11, C12, C13: what objects are after assignments were refused

The histories of `Props/Objects` end with the first assignment that is refused.  Here they go on (the host clears the errors).
A refused assignment leaves a field behind all the same, with the value 0, which `len` does not count.
-/
namespace Nk.Props
variable (F : FloatOps) (H : Host)

/-- Histories of object creations and field assignments, also refused ones.  `w` is the log of what was assigned, and `rs` has
an object once for each assignment to it that was refused. -/
inductive Refusing (L : Nat) : VM → Log → List Nat → Prop
  /-- no objects yet -/
  | start {vm : VM} : StrWF vm → vm.objects.WF → (∀ id, ¬ Live vm id) → Refusing L vm [] []
  /-- `object()` -/
  | create {vm vm' : VM} {w : Log} {rs : List Nat} {c : Ctx} {l : List Value} : Refusing L vm w rs → vm.Stk c l →
      Room vm c.stack → dispatch F H 32 vm = .ok ((), vm') → vm'.errors = vm.errors → Refusing L vm' w rs
  /-- `o[k] = v`, successful -/
  | assign {vm vm' : VM} {w : Log} {rs : List Nat} {c : Ctx} {l : List Value} {v kv : Value} {id : Nat} {k : Key} :
      Refusing L vm w rs → vm.Stk c (l ++ [v, .obj id, kv]) → Live vm id → keyOf vm kv = some k →
      vm.limits.maxFields ≤ L → dispatch F H 34 vm = .ok ((), vm') → vm'.errors = vm.errors →
      Refusing L vm' ((id, k, v) :: w) rs
  /-- `o[k] = v`, refused: the field is there, but its value is 0 -/
  | refuse {vm vm' : VM} {w : Log} {rs : List Nat} {c : Ctx} {l : List Value} {v kv : Value} {id : Nat} {k : Key} :
      Refusing L vm w rs → vm.Stk c (l ++ [v, .obj id, kv]) → Live vm id → keyOf vm kv = some k →
      vm.limits.maxFields ≤ L → dispatch F H 34 vm = .ok ((), vm') → vm'.errors ≠ vm.errors →
      Refusing L vm' ((id, k, .int 0) :: w) (id :: rs)
  /-- anything else, for instance clearing the errors -/
  | other {vm vm' : VM} {w : Log} {rs : List Nat} : Refusing L vm w rs → StrWF vm' → vm'.objects.WF →
      (∀ id o', vm'.objects.entry id = some o' → ∃ o, vm.objects.entry id = some o ∧
        o'.buckets = o.buckets ∧ o'.size = o.size ∧
        ∀ es ∈ o.buckets, ∀ e ∈ es, keyOf vm' e.1 = keyOf vm e.1) →
      Refusing L vm' (w.filter (fun a => (vm'.objects.entry a.1).isSome)) (rs.filter (fun id => (vm'.objects.entry id).isSome))

/-- The objects hold what the log says. -/
structure LooseRep (L : Nat) (vm : VM) (w : Log) (rs : List Nat) : Prop where
  str : StrWF vm
  tab : vm.objects.WF
  owf : ∀ id o, vm.objects.entry id = some o → Loose vm o (rs.count id)
  rep : ∀ id o, vm.objects.entry id = some o → ∀ k v, Has vm o k v ↔ current w id k = v ∧ v ≠ .nil
  dead : ∀ id, vm.objects.entry id = none → ∀ k, current w id k = .nil
  none : ∀ id, vm.objects.entry id = none → rs.count id = 0
  lim : ∀ id o, vm.objects.entry id = some o → o.size ≤ L

theorem LooseRep.setC {L : Nat} {vm : VM} {w : Log} {rs : List Nat} (h : LooseRep L vm w rs) (c : Ctx) : LooseRep L (vm.setC c) w rs :=
  ⟨VM.setC_strWF h.str c, h.tab, fun id o he => (h.owf id o he).congr fun _ _ _ _ _ =>
    ⟨keyOf_congr rfl _, slot_congr rfl _⟩, fun id o he k v => by
      rw [← h.rep id o he k v]; exact Has.congr (fun _ _ _ _ _ => keyOf_congr rfl _) k v, h.dead, h.none, h.lim⟩

theorem LooseRep.addErr {L : Nat} {vm : VM} {w : Log} {rs : List Nat} (h : LooseRep L vm w rs) (e : String) : LooseRep L (vm.addErr e) w rs :=
  ⟨h.str.addErr e, h.tab, fun id o he => (h.owf id o he).congr fun _ _ _ _ _ =>
    ⟨keyOf_congr rfl _, slot_congr rfl _⟩, fun id o he k v => by
      rw [← h.rep id o he k v]; exact Has.congr (fun _ _ _ _ _ => keyOf_congr rfl _) k v, h.dead, h.none, h.lim⟩

/-- A field of one object was given a value. -/
theorem LooseRep.put {L : Nat} {vm1 : VM} {w : Log} {rs rs' : List Nat} (hi' : LooseRep L vm1 w rs) {id : Nat} {o o' : Obj}
    (he1 : vm1.objects.entry id = some o) {k : Key} {v : Value} (h2 : Loose vm1 o' (rs'.count id)) (hrs : ∀ j, j ≠ id → rs'.count j = rs.count j)
    (h3 : o'.size ≤ L) (h4 : ∀ k' x, Has vm1 o' k' x ↔ (k' = k ∧ x = v ∧ v ≠ .nil) ∨ (k' ≠ k ∧ Has vm1 o k' x)) :
    LooseRep L (vm1.setO id o') ((id, k, v) :: w) rs' := by
  have hent := setO_entry hi'.tab he1 o'
  have hkc : ∀ x, keyOf (vm1.setO id o') x = keyOf vm1 x := fun x => keyOf_congr rfl x
  have hsc : ∀ x, slot (vm1.setO id o') x = slot vm1 x := fun x => slot_congr rfl x
  refine ⟨setO_strWF hi'.str _ _, setO_wf hi'.tab he1 o', ?_, ?_, ?_, ?_, ?_⟩
  · intro j x hj
    rw [hent] at hj
    split at hj
    · rename_i hji
      cases hj; rw [hji]; exact h2.congr fun _ _ _ _ _ => ⟨hkc _, hsc _⟩
    · rename_i hji
      rw [hrs j hji]; exact (hi'.owf j x hj).congr fun _ _ _ _ _ => ⟨hkc _, hsc _⟩
  · intro j x hj k' y
    rw [Has.congr (fun _ _ _ _ _ => hkc _), current_cons]
    rw [hent] at hj
    by_cases hji : j = id
    · rw [if_pos hji] at hj
      cases hj
      subst hji
      rw [h4]
      by_cases hkk : k = k'
      · subst hkk
        simp only [and_self, if_true, ne_eq, not_true_eq_false, false_and, or_false, true_and]
        constructor
        · rintro ⟨rfl, h⟩; exact ⟨rfl, h⟩
        · rintro ⟨rfl, h⟩; exact ⟨rfl, h⟩
      · have hkk' : k' ≠ k := fun e => hkk e.symm
        simp only [hkk, and_false, if_false, hkk', ne_eq, not_false_eq_true, true_and, false_and, false_or]
        exact hi'.rep j o he1 k' y
    · rw [if_neg hji] at hj
      have : ¬ (id = j ∧ k = k') := fun e => hji e.1.symm
      rw [if_neg this]
      exact hi'.rep j x hj k' y
  · intro j hj k'
    rw [hent] at hj
    by_cases hji : j = id
    · rw [if_pos hji] at hj; cases hj
    · rw [if_neg hji] at hj
      have : ¬ (id = j ∧ k = k') := fun e => hji e.1.symm
      rw [current_cons, if_neg this]
      exact hi'.dead j hj k'
  · intro j hj
    rw [hent] at hj
    by_cases hji : j = id
    · rw [if_pos hji] at hj; cases hj
    · rw [if_neg hji] at hj
      rw [hrs j hji]; exact hi'.none j hj
  · intro j x hj
    rw [hent] at hj
    split at hj
    · cases hj; exact h3
    · exact hi'.lim j x hj

/-- The number of elements, counted or not, is the number of fields. -/
theorem loose_count {L : Nat} {vm : VM} {w : Log} {rs : List Nat} (h : LooseRep L vm w rs) {id : Nat} {o : Obj}
    (he : vm.objects.entry id = some o) : FieldCount w id (o.size + rs.count id) := by
  have ho := h.owf id o he
  have hdist : (o.buckets.flatten).Pairwise (fun x y => keyOf vm x.1 ≠ keyOf vm y.1) := by
    rw [List.pairwise_flatten]
    constructor
    · intro es hes
      obtain ⟨b, hb, rfl⟩ := List.getElem_of_mem hes
      exact ho.nodup b _ (List.getElem?_eq_getElem hb)
    · rw [List.pairwise_iff_getElem]
      intro i j hi hj hij x hx y hy hc
      have h1 := ho.key i _ (List.getElem?_eq_getElem hi) x hx
      have h2 := ho.key j _ (List.getElem?_eq_getElem hj) y hy
      obtain ⟨k, hk⟩ := h1.1
      have := slot_key h.str hk (hc ▸ hk)
      omega
  have hall : ∀ e ∈ o.buckets.flatten, ∃ k, keyOf vm e.1 = some k := by
    intro e hm
    obtain ⟨es, hes, hm⟩ := List.mem_flatten.mp hm
    obtain ⟨b, hb, rfl⟩ := List.getElem_of_mem hes
    exact (ho.key b _ (List.getElem?_eq_getElem hb) e hm).1
  refine ⟨o.buckets.flatten.filterMap (fun e => keyOf vm e.1), ?_, ?_, ?_⟩
  · rw [List.Nodup, List.pairwise_filterMap]
    refine hdist.imp ?_
    intro x y hxy k hk k' hk' hkk
    rw [hkk] at hk
    exact hxy (hk.trans hk'.symm)
  · intro k
    rw [List.mem_filterMap]
    constructor
    · rintro ⟨e, hm, hk⟩
      obtain ⟨es, hes, hm⟩ := List.mem_flatten.mp hm
      obtain ⟨b, hb, rfl⟩ := List.getElem_of_mem hes
      have := (h.rep id o he k e.2).mp ⟨b, _, List.getElem?_eq_getElem hb, e, hm, hk, rfl⟩
      rw [this.1]; exact this.2
    · intro hc
      obtain ⟨b, es, hb, e, hm, hk, _⟩ := (h.rep id o he k _).mpr ⟨rfl, hc⟩
      exact ⟨e, List.mem_flatten.mpr ⟨es, List.mem_of_getElem? hb, hm⟩, hk⟩
  · rw [ho.size, ← List.length_flatten]
    clear hdist
    generalize o.buckets.flatten = es at hall
    induction es with
    | nil => rfl
    | cons e es ih =>
      obtain ⟨k, hk⟩ := hall e (by simp)
      rw [List.filterMap_cons, hk]
      simp only [List.length_cons]
      rw [ih (fun e he => hall e (by simp [he]))]

/-- One assignment. -/
theorem loose_assign {L : Nat} {vm : VM} {w : Log} {rs : List Nat} (hi : LooseRep L vm w rs) {c : Ctx} {l : List Value}
    {v kv : Value} {id : Nat} {k : Key} (h : vm.Stk c (l ++ [v, .obj id, kv])) (hl : Live vm id)
    (hk : keyOf vm kv = some k) (hL : vm.limits.maxFields ≤ L) :
    (∃ vm', dispatch F H 34 vm = .ok ((), vm') ∧ vm'.errors = vm.errors ∧ LooseRep L vm' ((id, k, v) :: w) rs) ∨
    (v ≠ .nil ∧ current w id k = .nil ∧
      (∃ n, FieldCount w id (n + rs.count id) ∧ (vm.limits.maxFields ≤ n ∨ n = 4294967295)) ∧
      ∃ vm', dispatch F H 34 vm = .ok ((), vm') ∧ vm'.errors = vm.errors ++ ["Reached object field count limit."] ∧
        LooseRep L vm' ((id, k, .int 0) :: w) (id :: rs)) ∨
    (v = .nil ∧ current w id k ≠ .nil ∧ FieldCount w id (rs.count id) ∧ dispatch F H 34 vm = .ub .assert) := by
  obtain ⟨s, g1, g2, g3⟩ := set_run F H h hi.tab hl
  obtain ⟨o, he⟩ := hl
  have hi' := hi.setC { c with stack := s }
  have hcnt := loose_count hi he
  generalize hvm1 : vm.setC { c with stack := s } = vm1 at *
  have he1 : vm1.objects.entry id = some o := by rw [← hvm1]; exact he
  have hk1 : keyOf vm1 kv = some k := by rw [← hk]; exact keyOf_congr (by rw [← hvm1]; rfl) kv
  have ho := hi'.owf id o he1
  have hlo := hi'.lim id o he1
  have hlim : vm1.limits = vm.limits := by rw [← hvm1]; rfl
  have herr : vm1.errors = vm.errors := by rw [← hvm1]; rfl
  -- a successful store
  have good : ∀ o', storeField F id kv v vm1 = .ok ((), vm1.setO id o') → Loose vm1 o' (rs.count id) → o'.size ≤ L →
      (∀ k' x, Has vm1 o' k' x ↔ (k' = k ∧ x = v ∧ v ≠ .nil) ∨ (k' ≠ k ∧ Has vm1 o k' x)) →
      ∃ vm', dispatch F H 34 vm = .ok ((), vm') ∧ vm'.errors = vm.errors ∧ LooseRep L vm' ((id, k, v) :: w) rs := by
    intro o' h1 h2 h3 h4
    have hst : (vm1.setO id o').Stk { c with stack := s } l := ⟨g1.at_, g1.wf, g1.used⟩
    obtain ⟨s2, p1, p2, _⟩ := push_room hst (Or.inl g2) v
    refine ⟨_, by rw [g3, M.bind_ok h1, p1], ?_, (hi'.put he1 h2 (fun _ _ => rfl) h3 h4).setC _⟩
    exact herr
  by_cases hv : v = .nil
  · obtain ⟨a1, a2⟩ := clear_loose F hi'.str hi'.tab he1 ho hk1
    have hst : storeField F id kv v = clearEntry F id kv := by unfold storeField; rw [if_pos hv]
    by_cases hroom : o.size ≠ 0 ∨ ∀ x, ¬ Has vm1 o k x
    · left
      obtain ⟨o', c1, c2, c3, c4, _⟩ := a2 hroom
      exact good o' (by rw [hst]; exact c1) c2 (Nat.le_trans c3 hlo) (fun k' x => by rw [c4]; simp [hv])
    · right; right
      have hz : o.size = 0 := by
        by_contra hz
        exact hroom (.inl hz)
      have hx : ∃ x, Has vm1 o k x := by
        by_contra hx
        exact hroom (.inr fun x hh => hx ⟨x, hh⟩)
      refine ⟨hv, ?_, by rw [hz, Nat.zero_add] at hcnt; exact hcnt, ?_⟩
      · obtain ⟨x, hx⟩ := hx
        have := (hi'.rep id o he1 k x).mp hx
        rw [this.1]; exact this.2
      · rw [g3, hst]
        exact M.bind_ub (a1 hz hx)
  · obtain ⟨a1, a2⟩ := assign_loose F hi'.str hi'.tab he1 ho hk1 hv
    rw [hlim] at a1 a2
    by_cases hroom : (∃ x, Has vm1 o k x) ∨ (o.size + 1 < 4294967296 ∧ o.size + 1 ≤ vm.limits.maxFields)
    · left
      obtain ⟨o', c1, c2, c3, c4, _⟩ := a1 hroom
      exact good o' c1 c2 (Nat.le_trans c4 (Nat.max_le.mpr ⟨hlo, hL⟩)) (fun k' x => by rw [c3]; simp [hv])
    · right; left
      have hno : ∀ x, ¬ Has vm1 o k x := fun x hx => hroom (Or.inl ⟨x, hx⟩)
      have hr2 := fun x => hroom (Or.inr x)
      refine ⟨hv, ?_, ⟨o.size, hcnt, ?_⟩, ?_⟩
      · by_contra hc
        exact hno _ ((hi'.rep id o he1 k _).mpr ⟨rfl, hc⟩)
      · have := ho.lt; omega
      · obtain ⟨o', c1, c2, c3, c4, _⟩ := a2 hno hr2
        have hst : ((vm1.setO id o').addErr "Reached object field count limit.").Stk { c with stack := s } l :=
          ⟨g1.at_, g1.wf, g1.used⟩
        obtain ⟨s2, p1, p2, _⟩ := push_room hst (Or.inl g2) v
        refine ⟨_, by rw [g3, M.bind_ok c1, p1], ?_, ?_⟩
        · show vm1.errors ++ _ = _
          rw [herr]
        · refine ((hi'.put he1 (rs' := id :: rs) ?_ (fun j hj => ?_) (by rw [c4]; exact hlo) (fun k' x => ?_)).addErr _).setC _
          · rw [List.count_cons_self]; exact c2
          · rw [List.count_cons_of_ne (Ne.symm hj)]
          · rw [c3]; simp

/-- Every history is represented by the objects. -/
theorem refusing_rep {L : Nat} {vm : VM} {w : Log} {rs : List Nat} (h : Refusing F H L vm w rs) : LooseRep L vm w rs := by
  induction h with
  | start h1 h2 h3 =>
    refine ⟨h1, h2, fun id o he => absurd ⟨o, he⟩ (h3 id), fun id o he => absurd ⟨o, he⟩ (h3 id),
      fun _ _ _ => rfl, fun _ _ => rfl, fun id o he => absurd ⟨o, he⟩ (h3 id)⟩
  | @create vm vm' w rs c l _ hs hr hd he ih =>
    rcases create_run F H hs hr ih.tab with ⟨id, t, g, s, h1, h2, h3, h4, _⟩ | ⟨e, vm2, h1, h2⟩
    · rw [hd] at h1
      cases h1
      refine ⟨?_, h2, ?_, ?_, ?_, ?_, ?_⟩
      · exact ⟨ih.str.tab, ih.str.blen, ih.str.nodup, ih.str.mem, ih.str.hash, ih.str.bucket, ih.str.inj⟩
      · intro j o hj
        have hj : t.entry j = some o := hj
        rw [h4] at hj
        split at hj
        · rename_i hji
          cases hj
          subst hji
          rw [ih.none j h3]; exact (init_owf _).loose
        · exact (ih.owf j o hj).congr fun _ _ _ _ _ => ⟨keyOf_congr rfl _, slot_congr rfl _⟩
      · intro j o hj k v
        have hj : t.entry j = some o := hj
        rw [h4] at hj
        split at hj
        · rename_i hji
          cases hj
          subst hji
          rw [ih.dead j h3 k]
          exact iff_of_false (init_has _ _ _) (fun ⟨h, h'⟩ => h' h.symm)
        · rw [← ih.rep j o hj k v]
          exact Has.congr (fun _ _ _ _ _ => keyOf_congr rfl _) k v
      · intro j hj k
        have hj : t.entry j = none := hj
        rw [h4] at hj
        split at hj
        · cases hj
        · exact ih.dead j hj k
      · intro j hj
        have hj : t.entry j = none := hj
        rw [h4] at hj
        split at hj
        · cases hj
        · exact ih.none j hj
      · intro j o hj
        have hj : t.entry j = some o := hj
        rw [h4] at hj
        split at hj
        · cases hj; exact Nat.zero_le _
        · exact ih.lim j o hj
    · rw [hd] at h1
      cases h1
      rw [h2] at he
      simp at he
  | @assign vm vm' w rs c l v kv id k _ hs hl hk hL hd he ih =>
    rcases loose_assign F H ih hs hl hk hL with ⟨vm2, h1, _, h3⟩ | ⟨_, _, _, vm2, h1, h2, _⟩ | ⟨_, _, _, h1⟩
    · rw [hd] at h1
      cases h1
      exact h3
    · rw [hd] at h1
      cases h1
      rw [h2] at he
      simp at he
    · rw [hd] at h1; cases h1
  | @refuse vm vm' w rs c l v kv id k _ hs hl hk hL hd he ih =>
    rcases loose_assign F H ih hs hl hk hL with ⟨vm2, h1, h2, _⟩ | ⟨_, _, _, vm2, h1, _, h3⟩ | ⟨_, _, _, h1⟩
    · rw [hd] at h1
      cases h1
      exact absurd h2 he
    · rw [hd] at h1
      cases h1
      exact h3
    · rw [hd] at h1; cases h1
  | @other vm vm' w rs _ hs ho hkeep ih =>
    have hkeys : ∀ id o' o, vm'.objects.entry id = some o' → vm.objects.entry id = some o →
        o'.buckets = o.buckets → (∀ es ∈ o.buckets, ∀ e ∈ es, keyOf vm' e.1 = keyOf vm e.1) →
        ∀ (b : Nat) (es : List (Value × Value)), o'.buckets[b]? = some es → ∀ e ∈ es,
          keyOf vm' e.1 = keyOf vm e.1 ∧ slot vm' e.1 = slot vm e.1 := by
      intro id o' o h1 h2 hb h3 b es hbe e he
      rw [hb] at hbe
      have hk := h3 es (List.mem_of_getElem? hbe) e he
      refine ⟨hk, ?_⟩
      obtain ⟨k, hk'⟩ := ((ih.owf id o h2).key b es hbe e he).1
      have hk2 : keyOf vm' e.1 = some k := hk.trans hk'
      cases hv : e.1 with
      | str i =>
        rw [hv] at hk' hk2
        obtain ⟨x, hx, rfl⟩ := keyOf_str.mp hk'
        obtain ⟨y, hy, hxy⟩ := keyOf_str.mp hk2
        simp only [slot, hx, hy]
        rw [hs.hash _ _ hy, ih.str.hash _ _ hx, Key.str.inj hxy]
      | _ => rfl
    refine ⟨hs, ho, ?_, ?_, ?_, ?_, ?_⟩
    · intro id o' h1
      obtain ⟨o, h2, hb, hsz, h3⟩ := hkeep id o' h1
      have hc := hkeys id o' o h1 h2 hb h3
      have how := ih.owf id o h2
      rw [List.count_filter (by rw [h1]; rfl)]
      refine Loose.congr (vm := vm) ⟨?_, ?_, ?_, ?_, ?_⟩ hc
      · rw [hb]; exact how.len
      · rw [hb]; exact how.key
      · rw [hb]; exact how.nodup
      · rw [hb, hsz]; exact how.size
      · rw [hsz]; exact how.lt
    · intro id o' h1 k v
      obtain ⟨o, h2, hb, hsz, h3⟩ := hkeep id o' h1
      have hc := hkeys id o' o h1 h2 hb h3
      rw [current_filter w (fun i => (vm'.objects.entry i).isSome), h1]
      rw [Has.congr (vm := vm) (fun b es hbe e he => (hc b es hbe e he).1)]
      simp only [Option.isSome_some, if_true]
      rw [← ih.rep id o h2 k v]
      unfold Has
      rw [hb]
    · intro id h1 k
      rw [current_filter w (fun i => (vm'.objects.entry i).isSome), h1]
      simp
    · intro id h1
      refine List.count_eq_zero.mpr fun hm => ?_
      have := (List.mem_filter.mp hm).2
      rw [h1] at this
      cases this
    · intro id o' h1
      obtain ⟨o, h2, _, hsz, _⟩ := hkeep id o' h1
      rw [hsz]; exact ih.lim id o h2

/-- **C11**, reading, after any history, also with refused assignments, which count as assigning 0. -/
theorem C11_read_all {L : Nat} {vm : VM} {w : Log} {rs : List Nat} (hh : Refusing F H L vm w rs) {c : Ctx} {l : List Value}
    {kv : Value} {id : Nat} {k : Key} (h : vm.Stk c (l ++ [.obj id, kv])) (hl : Live vm id)
    (hk : keyOf vm kv = some k) :
    ∃ vm', dispatch F H 33 vm = .ok ((), vm') ∧ Yields vm l (current w id k) vm' := by
  have hi := refusing_rep F H hh
  obtain ⟨s, g1, g2, g3, _⟩ := pop2 h (fun key o => (
    match o with
    | .obj id => do
      let ob ← getObj id
      match ob with
      | none => addError "Bad object id in nkiOpcode_objectFieldGet."
      | some _ => do
        let i ← pushSlot
        let v ← lookupField F id key
        pokeAt i (v.getD .nil)
    | _ => addError "Attempted to get a field on a value that is not an object." : M Unit))
  obtain ⟨o, he⟩ := hl
  have hi' := hi.setC { { c with stack := s } with stack := s.pushed }
  have hk' : keyOf (vm.setC { { c with stack := s } with stack := s.pushed }) kv = some k := by
    rw [← hk]; exact keyOf_congr rfl _
  have hval : lookupField F id kv (vm.setC { { c with stack := s } with stack := s.pushed }) =
      .ok (some (current w id k), vm.setC { { c with stack := s } with stack := s.pushed }) ∨
      (lookupField F id kv (vm.setC { { c with stack := s } with stack := s.pushed }) =
      .ok (none, vm.setC { { c with stack := s } with stack := s.pushed }) ∧ current w id k = .nil) := by
    rcases lookup_loose F hi'.str hi'.tab he (hi'.owf id o he) hk' with ⟨v, h1, h2⟩ | ⟨h1, h2⟩
    · left; rw [((hi'.rep id o he k v).mp h2).1]; exact h1
    · right
      refine ⟨h1, ?_⟩
      by_contra hc
      exact h2 _ ((hi'.rep id o he k _).mpr ⟨rfl, hc⟩)
  obtain ⟨s', p1, p2⟩ := slot_then g2 (Or.inl g3) (v := current w id k)
    (m := do let v ← lookupField F id kv; Pure.pure (v.getD .nil))
    (vm2 := vm.setC { { c with stack := s } with stack := s.pushed })
    (by
      rw [VM.setC_setC]
      rcases hval with h1 | ⟨h1, h2⟩
      · rw [M.bind_ok h1]; rfl
      · rw [M.bind_ok h1, h2]; rfl)
    (by rw [VM.setC_setC]) rfl
  refine ⟨vm.setC { c with stack := s' }, ?_, c, s', h.at_, rfl, ?_⟩
  · refine Eq.trans g1 ?_
    have hg := getObj_run (vm := vm.setC { c with stack := s }) hi.tab id
    rw [VM.setC_objects, he] at hg
    refine Eq.trans (M.bind_ok hg) ?_
    rw [VM.setC_setC] at p1
    simp only [M.assoc, M.pure_bind] at p1
    exact p1
  · simpa using p2

/-- **C12**, after any history, also with refused assignments: `len(o)` is the number of fields less the number of assignments
to the object that were refused. -/
theorem C12_len_all {L : Nat} {vm : VM} {w : Log} {rs : List Nat} (hh : Refusing F H L vm w rs) {c : Ctx} {l : List Value}
    {id : Nat} (h : vm.Stk c (l ++ [.obj id])) (hl : Live vm id) :
    ∃ vm' n, dispatch F H 42 vm = .ok ((), vm') ∧ Yields vm l (.int (BitVec.ofNat 32 n)) vm' ∧
      n < 2 ^ 32 ∧ FieldCount w id (n + rs.count id) := by
  have hi := refusing_rep F H hh
  obtain ⟨o, he⟩ := hl
  obtain ⟨s, g1, g2, g3, _⟩ := pop1 h (fun v => (do
    let i ← pushSlot
    match v with
    | .obj _ => do
      let n ← objectSize v
      pokeAt i (.int (BitVec.ofNat 32 n))
    | _ => addError "Non-object passed into len()." : M Unit))
  obtain ⟨s', p1, p2⟩ := slot_then g2 (Or.inl g3) (v := .int (BitVec.ofNat 32 o.size))
    (m := do let n ← objectSize (.obj id); Pure.pure (.int (BitVec.ofNat 32 n)))
    (vm2 := vm.setC { { c with stack := s } with stack := s.pushed })
    (by
      rw [VM.setC_setC]
      have hg := getObj_run (vm := vm.setC { { c with stack := s } with stack := s.pushed }) hi.tab id
      rw [VM.setC_objects, he] at hg
      simp only [objectSize, objFromValue, M.bind_eq, hg]
      rfl)
    (by rw [VM.setC_setC]) rfl
  rw [VM.setC_setC] at p1
  simp only [M.assoc, M.pure_bind] at p1
  refine ⟨vm.setC { c with stack := s' }, o.size, Eq.trans g1 p1, ⟨c, s', h.at_, rfl, by simpa using p2⟩,
    (hi.owf id o he).lt, loose_count hi he⟩

theorem fieldCount_unique {w : Log} {id n m : Nat} (h : FieldCount w id n) (g : FieldCount w id m) : n = m := by
  obtain ⟨ks, h1, h2, rfl⟩ := h
  obtain ⟨ks', h1', h2', rfl⟩ := g
  exact ((List.perm_ext_iff_of_nodup h1 h1').mpr (fun k => by rw [h2, h2'])).length_eq

/-- **C13**, after any history, also with refused assignments: the number of fields exceeds the limits that were in force by no
more than the number of assignments to the object that were refused. -/
theorem C13_limit_all {L : Nat} {vm : VM} {w : Log} {rs : List Nat} (hh : Refusing F H L vm w rs) {id : Nat}
    (hl : Live vm id) : ∃ n, n ≤ L + rs.count id ∧ FieldCount w id n := by
  obtain ⟨o, he⟩ := hl
  have hi := refusing_rep F H hh
  exact ⟨_, Nat.add_le_add_right (hi.lim id o he) _, loose_count hi he⟩

/-- **C13**: what an assignment does after any history, also with refused assignments.
* The field has the value.
* Or the field is new, and the number of fields, less that of the refused assignments, has reached the limit: an error is recorded, and the field
  is there, with the value 0.
* Or a field is removed from an object that has only as many fields as assignments to it were refused: an assertion of the code fails. -/
theorem C13_assign_all {L : Nat} {vm : VM} {w : Log} {rs : List Nat} (hh : Refusing F H L vm w rs) {c : Ctx} {l : List Value}
    {v kv : Value} {id : Nat} {k : Key} (h : vm.Stk c (l ++ [v, .obj id, kv])) (hl : Live vm id)
    (hk : keyOf vm kv = some k) (hL : vm.limits.maxFields ≤ L) :
    (∃ vm', dispatch F H 34 vm = .ok ((), vm') ∧ vm'.errors = vm.errors ∧ Refusing F H L vm' ((id, k, v) :: w) rs) ∨
    (v ≠ .nil ∧ current w id k = .nil ∧
      (∃ n, FieldCount w id (n + rs.count id) ∧ (vm.limits.maxFields ≤ n ∨ n = 4294967295)) ∧
      ∃ vm', dispatch F H 34 vm = .ok ((), vm') ∧ vm'.errors = vm.errors ++ ["Reached object field count limit."] ∧
        Refusing F H L vm' ((id, k, .int 0) :: w) (id :: rs)) ∨
    (v = .nil ∧ current w id k ≠ .nil ∧ FieldCount w id (rs.count id) ∧ dispatch F H 34 vm = .ub .assert) := by
  rcases loose_assign F H (refusing_rep F H hh) h hl hk hL with ⟨vm', h1, h2, _⟩ | ⟨a, b, d, vm', h1, h2, _⟩ | x
  · exact .inl ⟨vm', h1, h2, .assign hh h hl hk hL h1 h2⟩
  · exact .inr (.inl ⟨a, b, d, vm', h1, h2, .refuse hh h hl hk hL h1 (by rw [h2]; simp)⟩)
  · exact .inr (.inr x)

/-- **C13 is violated**: when an object has no more fields than assignments to it were refused, removing any of them stops the
host. -/
theorem C13_removal_violated {L : Nat} {vm : VM} {w : Log} {rs : List Nat} (hh : Refusing F H L vm w rs) {c : Ctx} {l : List Value}
    {kv : Value} {id : Nat} {k : Key} (h : vm.Stk c (l ++ [.nil, .obj id, kv])) (hl : Live vm id)
    (hk : keyOf vm kv = some k) (hf : current w id k ≠ .nil) (hn : FieldCount w id (rs.count id)) : dispatch F H 34 vm = .ub .assert := by
  have hi := refusing_rep F H hh
  obtain ⟨s, g1, g2, g3⟩ := set_run F H h hi.tab hl
  obtain ⟨o, he⟩ := hl
  have hz : o.size = 0 := by
    have := fieldCount_unique (loose_count hi he) hn
    omega
  have hi' := hi.setC { c with stack := s }
  rw [g3]
  refine M.bind_ub ?_
  unfold storeField
  rw [if_pos rfl]
  exact (clear_loose F hi'.str hi'.tab he (hi'.owf id o he) (by rw [← hk]; exact keyOf_congr rfl kv)).1 hz ⟨_, (hi'.rep id o he k _).mpr ⟨rfl, hf⟩⟩

/-! ## Concrete cases -/

/-- At most one field. -/
def one : VM := { VM.create with limits := { VM.create.limits with maxFields := 1 } }

/-- `o[k] = v` -/
def assignTo (o k v : Value) : M Unit := do push v; push o; push k; dispatch Sample.F Sample.H 34; let _ ← pop
/-- `o[k]` -/
def readFrom (o k : Value) : M Value := do push o; push k; dispatch Sample.F Sample.H 33; pop
/-- `len(o)` -/
def lenOf (o : Value) : M Value := do push o; dispatch Sample.F Sample.H 42; pop
/-- The host clears the errors. -/
def forget : M Unit := fun vm => .ok ((), { vm with errors := [] })

/-- **C11 is violated**: a field to which nothing was assigned but what was refused has the value 0. -/
theorem C11_violated : ((do
    dispatch Sample.F Sample.H 32; let o ← pop
    assignTo o (.int 1) (.int 5); assignTo o (.int 2) (.int 6); forget
    let x ← readFrom o (.int 1); let y ← readFrom o (.int 2)
    return (x, y) : M (Value × Value)) one).test (fun p => decide (p.1 = (.int 5, .int 0))) := by decide +kernel

/-- **C12 is violated**: after a refused assignment and a second one to the same field, which is not refused, the object has two
fields, and `len` says one. -/
theorem C12_violated : ((do
    dispatch Sample.F Sample.H 32; let o ← pop
    assignTo o (.int 1) (.int 5); assignTo o (.int 2) (.int 6); forget; assignTo o (.int 2) (.int 6)
    let x ← readFrom o (.int 1); let y ← readFrom o (.int 2); let n ← lenOf o
    return (x, y, n) : M (Value × Value × Value)) one).test
      (fun p => decide (p.1 = (.int 5, .int 6, .int 1) ∧ p.2.errors = [])) := by decide +kernel

/-- Two fields of which one is counted: the second removal is the one of `C13_removal_violated`. -/
theorem C13_removal_example : ((do
    dispatch Sample.F Sample.H 32; let o ← pop
    assignTo o (.int 1) (.int 5); assignTo o (.int 2) (.int 6); forget
    assignTo o (.int 1) .nil; assignTo o (.int 2) .nil : M Unit) one) = .ub .assert := by
  have : (match ((do
    dispatch Sample.F Sample.H 32; let o ← pop
    assignTo o (.int 1) (.int 5); assignTo o (.int 2) (.int 6); forget
    assignTo o (.int 1) .nil; assignTo o (.int 2) .nil : M Unit) one) with | .ub .assert => true | _ => false) = true := by decide +kernel
  revert this
  generalize ((do
    dispatch Sample.F Sample.H 32; let o ← pop
    assignTo o (.int 1) (.int 5); assignTo o (.int 2) (.int 6); forget
    assignTo o (.int 1) .nil; assignTo o (.int 2) .nil : M Unit) one) = r
  intro h
  split at h
  · rfl
  · cases h

/-! The hypotheses of the theorems above are met: an object of at most no fields, to which one assignment is refused. -/

namespace RefuseEx

/-- What is left of the VM. -/
def after (m : M Unit) (vm : VM) : VM := match m vm with | .ok (_, vm) => vm | .ub _ => VM.create
def e0 : VM := { VM.create with limits := { VM.create.limits with maxFields := 0 } }
def e1 : VM := after (dispatch Sample.F Sample.H 32) e0
def e2 : VM := after (do let o ← pop; push (.int 7); push o; push (.int 3)) e1
def e3 : VM := after (dispatch Sample.F Sample.H 34) e2
def e4 : VM := after (do let _ ← pop; push .nil; push (.obj 0); push (.int 3)) { e3 with errors := [] }

theorem strs {vm : VM} (h1 : vm.strings = VM.create.strings) (h2 : vm.sbuckets = VM.create.sbuckets) : StrWF vm := by
  have h := create_strWF
  constructor
  · rw [h1]; exact h.tab
  · rw [h2]; exact h.blen
  · rw [h2]; exact h.nodup
  · rw [h1, h2]; exact h.mem
  · rw [h1]; exact h.hash
  · rw [h1, h2]; exact h.bucket
  · rw [h1]; exact h.inj

theorem stk {vm : VM} {c : Ctx} {l : List Value} (h : vm.ctxs[vm.cur]? = some (some c)) (h1 : c.stack.cap = 4) (h2 : c.stack.vals.length = 4)
    (h3 : c.stack.mask = 3) (h4 : c.stack.size ≤ 4) (h5 : c.stack.used = l) : vm.Stk c l :=
  ⟨h, ⟨⟨2, by decide, h1⟩, by rw [h2, h1], by rw [h3, h1], by rw [h1]; exact h4⟩, h5⟩

/-- The objects are the same, and so are the strings. -/
theorem same {vm vm' : VM} (h1 : vm'.objects = vm.objects) (h2 : vm'.strings = vm.strings) : ∀ id o', vm'.objects.entry id = some o' →
    ∃ o, vm.objects.entry id = some o ∧ o'.buckets = o.buckets ∧ o'.size = o.size ∧ ∀ es ∈ o.buckets, ∀ e ∈ es, keyOf vm' e.1 = keyOf vm e.1 :=
  fun id o' h => ⟨o', by rw [← h1]; exact h, rfl, rfl, fun _ _ _ _ => keyOf_congr h2 _⟩

theorem r1 : Refusing Sample.F Sample.H 0 e1 [] [] :=
  .create (vm := e0) (l := []) (.start (strs rfl rfl) Table.init_wf fun id ⟨o, h⟩ => by
    have h : (Table.init : Table Obj).entry id = some o := h
    rw [Table.init_entry] at h; cases h) ⟨rfl, Stack.init_wf, rfl⟩ (.inr ⟨by decide, by decide⟩) rfl rfl

theorem r2 : Refusing Sample.F Sample.H 0 e2 [] [] := .other r1 (strs rfl rfl) (refusing_rep Sample.F Sample.H r1).tab (same rfl rfl)

theorem live2 : Live e2 0 := ⟨Obj.init, rfl⟩

theorem r3 : Refusing Sample.F Sample.H 0 e3 [(0, .int 3, .int 0)] [0] :=
  .refuse (l := []) (v := .int 7) (kv := .int 3) r2 (stk rfl rfl rfl rfl (by decide) rfl) live2 rfl (Nat.le_refl _) rfl (by decide)

theorem r4 : Refusing Sample.F Sample.H 0 e4 [(0, .int 3, .int 0)] [0] := .other r3 (strs rfl rfl) (refusing_rep Sample.F Sample.H r3).tab (same rfl rfl)

/-- Removing the field stops the host. -/
example : dispatch Sample.F Sample.H 34 e4 = .ub .assert :=
  C13_removal_violated Sample.F Sample.H (l := []) (kv := .int 3) (id := 0) (k := .int 3) r4 (stk rfl rfl rfl rfl (by decide) rfl) (by
    have : (e4.objects.entry 0).isSome = true := by decide +kernel
    exact Option.isSome_iff_exists.mp this) rfl (by decide) ⟨[.int 3], by simp, fun k => by
      simp [current]
      exact eq_comm, rfl⟩

end RefuseEx
end Nk.Props
