import Verif.Lemmas.Shrink
import Verif.Lemmas.Objects
/-!
# Fields are found again after a renaming
-/
namespace Nk
variable (F : FloatOps)

theorem compare_renamed {r : Ren} {vm vm' : VM} (h : Renamed r vm vm') (hw : vm.strings.WF) (hw' : vm'.strings.WF) {a b : Value}
    (ha : Refers vm a) (hb : Refers vm b) :
    ∃ n n', valueCompare F a b true vm = .ok (n, vm) ∧ valueCompare F (r.val a) (r.val b) true vm' = .ok (n', vm') ∧ (n = 0 ↔ n' = 0) := by
  have pr : ∀ v, Refers vm v → (∀ x, v ≠ .float x) → Proper vm v ∧ Proper vm' (r.val v) := by
    intro v hv hx
    cases v with
    | float x => exact absurd rfl (hx x)
    | bad => exact hv.elim
    | str i => obtain ⟨e, he⟩ := hv; exact ⟨⟨e, he⟩, ⟨e, h.strs i e he⟩⟩
    | _ => exact ⟨trivial, trivial⟩
  by_cases hf : ∃ x y, a = .float x ∧ b = .float y
  · obtain ⟨x, y, rfl, rfl⟩ := hf
    simp only [Ren.val, valueCompare, Value.ty, compareBody_float, valueToFloat_float, M.bind_eq]
    exact ⟨_, _, rfl, rfl, Iff.rfl⟩
  · by_cases hx : ∃ x, a = .float x
    · obtain ⟨x, rfl⟩ := hx
      cases b with
      | float y => exact absurd ⟨x, y, rfl, rfl⟩ hf
      | bad => exact hb.elim
      | _ => simp only [Ren.val, valueCompare, Value.ty]; exact ⟨_, _, rfl, rfl, Iff.rfl⟩
    · by_cases hy : ∃ y, b = .float y
      · obtain ⟨y, rfl⟩ := hy
        cases a with
        | float x => exact absurd ⟨x, y, rfl, rfl⟩ hf
        | bad => exact ha.elim
        | _ => simp only [Ren.val, valueCompare, Value.ty]; exact ⟨_, _, rfl, rfl, Iff.rfl⟩
      · obtain ⟨pa, pa'⟩ := pr a ha (fun x e => hx ⟨x, e⟩)
        obtain ⟨pb, pb'⟩ := pr b hb (fun x e => hy ⟨x, e⟩)
        refine ⟨_, _, strict_cmp F hw pa pb, strict_cmp F hw' pa' pb', ?_⟩
        cases a with
        | obj x =>
          cases b with
          | obj y =>
            have := h.objInj x y ha hb
            show icmp x y = 0 ↔ icmp (r.obj x) (r.obj y) = 0
            rw [icmp_zero, icmp_zero]
            constructor
            · intro e; have e : x = y := by exact_mod_cast e
              rw [e]
            · intro e; exact congrArg _ (this (by exact_mod_cast e))
          | _ => exact Iff.rfl
        | str x =>
          cases b with
          | str y =>
            obtain ⟨e, he⟩ := ha
            obtain ⟨e', he'⟩ := hb
            have h1 := h.strs x e he
            have h2 := h.strs y e' he'
            show strcmp (txt vm x) (txt vm y) = 0 ↔ strcmp (txt vm' (r.str x)) (txt vm' (r.str y)) = 0
            simp [txt, he, he', h1, h2]
          | _ => exact Iff.rfl
        | float x => exact absurd ⟨x, rfl⟩ hx
        | _ => cases b <;> exact Iff.rfl

theorem findElem_renamed {r : Ren} {vm vm' : VM} (h : Renamed r vm vm') (hw : vm.strings.WF) (hw' : vm'.strings.WF) {key : Value}
    (hk : Refers vm key) (es : List (Value × Value)) (he : ∀ e ∈ es, Refers vm e.1) (n : Nat) :
    ∃ p, findElem F key es n vm = .ok (p, vm) ∧ findElem F (r.val key) (es.map fun e => (r.val e.1, r.val e.2)) n vm' = .ok (p, vm') := by
  induction es generalizing n with
  | nil => exact ⟨none, rfl, rfl⟩
  | cons e es ih =>
    obtain ⟨m, m', h1, h2, h3⟩ := compare_renamed F h hw hw' hk (he e (List.mem_cons_self ..))
    obtain ⟨p, h4, h5⟩ := ih (fun e' h' => he e' (List.mem_cons_of_mem _ h')) (n + 1)
    simp only [List.map_cons, findElem, M.bind_ok h1, M.bind_ok h2]
    by_cases e : m = 0
    · rw [if_pos e, if_pos (h3.mp e)]; exact ⟨some n, rfl, rfl⟩
    · rw [if_neg e, if_neg (fun x => e (h3.mpr x))]; exact ⟨p, h4, h5⟩

theorem lookup_renamed {r : Ren} {vm vm' : VM} (h : Renamed r vm vm') (hn : NoDangling vm) (hw : vm.strings.WF) (hw' : vm'.strings.WF)
    (ht : vm.objects.WF) (ht' : vm'.objects.WF) {id : Nat} (hl : Live vm id) {key : Value} (hk : Refers vm key)
    (hm : ∀ n, key = .obj n → r.obj n = n) {x : Option Value} {vm1 : VM} (hx : lookupField F id key vm = .ok (x, vm1)) :
    vm1 = vm ∧ lookupField F (r.obj id) (r.val key) vm' = .ok (x.map r.val, vm') := by
  obtain ⟨o, ho⟩ := hl
  have ho' := h.objs id o ho
  have hslot : slot vm' (r.val key) = slot vm key := by
    cases key with
    | str i => obtain ⟨e, he⟩ := hk; simp [Ren.val, slot, he, h.strs i e he]
    | obj n => simp [Ren.val, hm n rfl, slot]
    | _ => rfl
  have hb := bucketOf_run hw key
  have hb' := bucketOf_run hw' (r.val key)
  rw [hslot] at hb'
  have hg : getObj id vm = .ok (some o, vm) := by rw [getObj_run ht, ho]
  have hg' : getObj (r.obj id) vm' = .ok (some (r.ob o), vm') := by rw [getObj_run ht', ho']
  unfold lookupField findOrAddEntry at hx ⊢
  simp only [M.assoc, M.bind_ok hb, M.bind_ok hg] at hx
  simp only [M.assoc, M.bind_ok hb', M.bind_ok hg']
  have hbk : (r.ob o).buckets[slot vm key]? = (o.buckets[slot vm key]?).map (fun es => es.map fun e => (r.val e.1, r.val e.2)) := by
    show (o.buckets.map _)[_]? = _
    rw [List.getElem?_map]
  cases he : o.buckets[slot vm key]? with
  | none => rw [he] at hx; cases hx
  | some es =>
    rw [he] at hx hbk
    rw [hbk]
    obtain ⟨p, h1, h2⟩ := findElem_renamed F h hw hw' hk es (fun e hm => hn _ (.key ho (List.mem_of_getElem? he) hm)) 0
    simp only [Option.map_some] at hx ⊢
    simp only [M.assoc, M.bind_ok h1] at hx
    simp only [M.assoc, M.bind_ok h2]
    cases p with
    | none =>
      cases hx
      exact ⟨rfl, rfl⟩
    | some n =>
      simp only [M.pure_bind] at hx ⊢
      unfold readElem at hx ⊢
      simp only [M.assoc, M.bind_ok hg] at hx
      simp only [M.assoc, M.bind_ok hg']
      rw [hbk]
      rw [he] at hx
      simp only [List.getElem?_map] at hx ⊢
      cases hy : es[n]? with
      | none => rw [hy] at hx; cases hx
      | some e =>
        rw [hy] at hx
        cases hx
        refine ⟨rfl, ?_⟩
        simp only [Option.map_some, List.getElem?_map, hy]
        rfl

end Nk
