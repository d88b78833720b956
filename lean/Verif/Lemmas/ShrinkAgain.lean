import Verif.Lemmas.ShrinkTight
/-!
# Shrinking a VM that has been shrunk
-/
namespace Nk

theorem findMovable_none {α : Type} {may : α → Bool} {t : Table α} (hl : t.slots.length = t.cap) (n : Nat) : ∀ j,
    (∀ p, j ≤ p → (t.entry p).map may ≠ some true) → findMovable may t j n = .ok none := by
  induction n with
  | zero => intro j _; rfl
  | succ n ih =>
    intro j h
    unfold findMovable
    split
    · next hj =>
      cases hs : t.slots[j]? with
      | none => rw [List.getElem?_eq_none_iff] at hs; omega
      | some o =>
        have hr : t.read j = .ok o := by unfold Table.read; rw [hs]
        rw [hr]
        have go := ih (j + 1) (fun p hp => h p (by omega))
        cases o with
        | none => exact go
        | some x =>
          have := h j (Nat.le_refl _)
          simp only [Table.entry, hs, Option.join_some, Option.map_some, ne_eq, Option.some.injEq] at this
          dsimp only
          rw [if_neg this]
          exact go
    · rfl

theorem compact_noop {α : Type} {tab : VM → Table α} {may : VM → α → Bool} {move : Nat → Nat → VM → Res VM} {vm : VM}
    (hl : (tab vm).slots.length = (tab vm).cap)
    (h : ∀ a b, a < b → status tab may vm a = none → status tab may vm b ≠ some true) (n : Nat) : ∀ hole j,
    compact tab may move hole j n vm = .ok vm := by
  induction n with
  | zero => intro hole j; rfl
  | succ n ih =>
    intro hole j
    unfold compact
    split
    · next hh =>
      cases hs : (tab vm).slots[hole]? with
      | none => rw [List.getElem?_eq_none_iff] at hs; omega
      | some o =>
        have hr : (tab vm).read hole = .ok o := by unfold Table.read; rw [hs]
        rw [hr]
        cases o with
        | some x => exact ih _ _
        | none =>
          dsimp only
          have h0 : status tab may vm hole = none := by simp [status, Table.entry, hs]
          rw [findMovable_none hl _ _ (fun p hp => ?_)]
          · exact ih _ _
          · by_cases hph : p = hole
            · subst hph
              have : status tab may vm p ≠ some true := by rw [h0]; exact nofun
              exact this
            · exact h hole p (by split at hp <;> omega) h0
    · rfl

theorem Table.halve_keep {hi c : Nat} (h : c / 2 ≤ hi) : Table.halve hi c = c := by
  unfold Table.halve
  rw [dif_neg (by omega)]

theorem Table.highest_ge {α : Type} {t : Table α} {p : Nat} {x : α} (h : t.slots[p]? = some (some x)) :
    ∀ n, p < n → p ≤ t.highest n := by
  intro n
  induction n with
  | zero => intro hp; omega
  | succ n ih =>
    intro hp
    unfold Table.highest
    split
    · omega
    · next hn =>
      by_cases hpn : p = n
      · subst hpn; exact absurd h (hn x)
      · exact ih (by omega)

theorem Table.shrink_again {α : Type} {t t' : Table α} (hl : t.slots.length = t.cap) (hp : ∃ k, k ≤ 31 ∧ t.cap = 2 ^ k)
    (e : t.shrink = .ok t') : t'.shrink = .ok t' := by
  obtain ⟨-, -, hw, hh⟩ := Table.shrink_half hl hp e
  have hk : Table.halve (t'.highest t'.cap) t'.cap = t'.cap := by
    apply Table.halve_keep
    rcases hh with h1 | ⟨p, x, hle, hx⟩
    · rw [h1]; exact Nat.zero_le _
    · have hs : t'.slots[p]? = some (some x) := by simpa [Table.entry, Option.join_eq_some_iff] using hx
      have hlt := (List.getElem?_eq_some_iff.mp hs).1
      have := Table.highest_ge hs t'.cap (by rw [← hw.len]; exact hlt)
      omega
  have hle := Table.halve_le (t.highest t.cap) t.cap
  have e0 := e
  unfold Table.shrink Table.resetHoles at e
  dsimp only at e
  obtain ⟨hs, h1, -, -⟩ := Table.resetLoop_ok (Table.halve (t.highest t.cap) t.cap)
    ({ slots := t.slots.take (Table.halve (t.highest t.cap) t.cap), cap := Table.halve (t.highest t.cap) t.cap, holes := [] } : Table α)
    (by simp only [List.length_take]; omega) (Nat.le_refl _) (by simp) (by simp)
  have e' := e
  rw [h1] at e
  cases e
  unfold Table.shrink Table.resetHoles
  dsimp only at hk ⊢
  rw [hk, List.take_take, Nat.min_self]
  exact h1

theorem shrinkStack_keep {s : Stack} (hc : 1 ≤ s.cap) (h : s.Small) : shrinkStack s = s := by
  have : Table.halve s.size s.cap = s.cap := by
    apply Table.halve_keep
    rcases h with h | h
    · rw [h]; exact Nat.zero_le _
    · exact h
  unfold shrinkStack
  dsimp only
  rw [this, if_neg (by omega)]

/-- There is a context, and its stack is small. -/
def Tidy (vm : VM) (k : Nat) : Prop := ∃ c, vm.ctxs[k]? = some (some c) ∧ c.stack.Small ∧ 1 ≤ c.stack.cap

theorem shrinkCtx_keep {vm : VM} {i : Nat} (h : Tidy vm i) : shrinkCtx i vm = .ok vm := by
  obtain ⟨c, hc, hs, h1⟩ := h
  unfold shrinkCtx ctxAt
  rw [hc]
  dsimp only
  rw [shrinkStack_keep h1 hs]
  have : vm.ctxs.set i (some c) = vm.ctxs := by
    apply List.ext_getElem?
    intro k
    rw [List.getElem?_set]
    split
    · next h => subst h; rw [if_pos (List.getElem?_eq_some_iff.mp hc).1, hc]
    · rfl
  show Res.ok { vm with ctxs := vm.ctxs.set i (some c) } = .ok vm
  rw [this]

theorem shrinkCtx_tidy {vm vm' : VM} {i : Nat} (hcaps : Caps vm) (e : shrinkCtx i vm = .ok vm') :
    Tidy vm' i ∧ ∀ k, Tidy vm k → Tidy vm' k := by
  unfold shrinkCtx at e
  cases h : ctxAt vm i with
  | ub k => rw [h] at e; cases e
  | ok c =>
    rw [h] at e
    cases e
    have hc := ctxAt_ok h
    have hlt := (List.getElem?_eq_some_iff.mp hc).1
    have me : Tidy { vm with ctxs := vm.ctxs.set i (some { c with stack := shrinkStack c.stack }) } i :=
      ⟨{ c with stack := shrinkStack c.stack }, by simp [hlt], shrinkStack_small _, shrinkStack_pos (hcaps i c hc)⟩
    refine ⟨me, fun k hk => ?_⟩
    by_cases hki : k = i
    · subst hki; exact me
    · obtain ⟨c', h1, h2, h3⟩ := hk
      exact ⟨c', by
        show (vm.ctxs.set i _)[k]? = _
        rw [List.getElem?_set_ne (Ne.symm hki)]; exact h1, h2, h3⟩

theorem shrinkCos_tidy (n : Nat) : ∀ (i : Nat) (vm vm' : VM), Caps vm → shrinkCos i n vm = .ok vm' →
    (∀ k, Tidy vm k → Tidy vm' k) ∧
      ∀ (id : Nat) (o : Obj), i ≤ id → id < i + n → vm.objects.slots[id]? = some (some o) → o.extType = vm.coType →
        ∃ j, o.extData = some j ∧ Tidy vm' j := by
  induction n with
  | zero =>
    intro i vm vm' _ e
    cases e
    exact ⟨fun _ h => h, fun id o h1 h2 => by omega⟩
  | succ n ih =>
    intro i vm vm' hcaps e
    unfold shrinkCos at e
    have skip : (∀ o, vm.objects.slots[i]? = some (some o) → o.extType ≠ vm.coType) →
        shrinkCos (i + 1) n vm = .ok vm' → (∀ k, Tidy vm k → Tidy vm' k) ∧
      ∀ (id : Nat) (o : Obj), i ≤ id → id < i + (n + 1) → vm.objects.slots[id]? = some (some o) → o.extType = vm.coType →
        ∃ j, o.extData = some j ∧ Tidy vm' j := fun hno e => by
      obtain ⟨a, g⟩ := ih (i + 1) vm vm' hcaps e
      refine ⟨a, fun id o h1 h2 h3 h4 => ?_⟩
      by_cases hid : id = i
      · subst hid; exact absurd h4 (hno o h3)
      · exact g id o (by omega) (by omega) h3 h4
    cases hs : vm.objects.slots[i]? with
    | none =>
      have hr : vm.objects.read i = .ub .oob := by unfold Table.read; rw [hs]
      rw [hr] at e; cases e
    | some o =>
      have hr : vm.objects.read i = .ok o := by unfold Table.read; rw [hs]
      rw [hr] at e
      cases o with
      | none => exact skip (fun o h => by rw [hs] at h; cases h) e
      | some o =>
        dsimp only at e
        by_cases ht : o.extType = vm.coType
        · rw [if_pos ht] at e
          cases hd : o.extData with
          | none => rw [hd] at e; cases e
          | some j =>
            rw [hd] at e
            dsimp only at e
            cases hx : shrinkCtx j vm with
            | ub k => rw [hx] at e; cases e
            | ok vm1 =>
              rw [hx] at e
              dsimp only at e
              obtain ⟨-, -, -, s4, s5, s6, s7⟩ := shrinkCtx_ok hcaps hx
              obtain ⟨s1, s2⟩ := shrinkCtx_tidy hcaps hx
              obtain ⟨a, g⟩ := ih (i + 1) vm1 vm' s4 e
              refine ⟨fun k hk => a k (s2 k hk), ?_⟩
              intro id o' h1 h2 h3 h4
              by_cases hid : id = i
              · subst hid
                rw [hs] at h3
                cases h3
                exact ⟨j, hd, a j s1⟩
              · exact g id o' (by omega) (by omega) (by rw [s5]; exact h3) (by rw [s7]; exact h4)
        · rw [if_neg ht] at e
          exact skip (fun o' h => by rw [hs] at h; cases h; exact ht) e

theorem shrinkCos_keep {vm : VM} (hl : vm.objects.slots.length = vm.objects.cap)
    (h : ∀ (id : Nat) (o : Obj), vm.objects.slots[id]? = some (some o) → o.extType = vm.coType → ∃ j, o.extData = some j ∧ Tidy vm j)
    (n : Nat) : ∀ i, i + n ≤ vm.objects.cap → shrinkCos i n vm = .ok vm := by
  induction n with
  | zero => intro i _; rfl
  | succ n ih =>
    intro i hi
    unfold shrinkCos
    cases hs : vm.objects.slots[i]? with
    | none => rw [List.getElem?_eq_none_iff] at hs; omega
    | some o =>
      have hr : vm.objects.read i = .ok o := by unfold Table.read; rw [hs]
      rw [hr]
      cases o with
      | none => exact ih _ (by omega)
      | some o =>
        dsimp only
        by_cases ht : o.extType = vm.coType
        · obtain ⟨j, hj, htd⟩ := h i o hs ht
          rw [if_pos ht, hj]
          dsimp only
          rw [shrinkCtx_keep htd]
          exact ih _ (by omega)
        · rw [if_neg ht]
          exact ih _ (by omega)

/-- Shrinking again changes nothing. -/
theorem shrinkVM_again {vm vm' : VM} (h : HeapWF vm) (e : shrinkVM vm = .ok vm') : shrinkVM vm' = .ok vm' := by
  by_cases he : vm.errors = []
  swap
  · have e0 := e
    unfold shrinkVM at e
    rw [if_pos he] at e
    cases e
    exact e0
  have ht := shrinkVM_tight h he e
  obtain ⟨f1, f2, -⟩ := ht
  unfold shrinkVM at e
  rw [if_neg (by simp [he])] at e
  cases e1 : compact (·.objects) mayMoveObj moveObject 0 0 vm.objects.cap vm with
  | ub k => rw [e1] at e; cases e
  | ok vm1 =>
    rw [e1] at e
    dsimp only at e
    obtain ⟨⟨j1, j2, j3⟩, c1, -⟩ := compact_tight (tab := (·.objects)) (may := mayMoveObj)
      (J := fun v => v.objects.slots.length = v.objects.cap ∧ v.strings = vm.strings ∧ CapLe vm v)
      (fun v hv => hv.1) (by
        rintro v v' i k x ⟨g1, g2, g3⟩ hx hk hmv
        obtain ⟨m1, m2, m3⟩ := moveObject_ok g1 hx hk hmv
        exact ⟨⟨m1.len, m2.trans g2, g3.trans m3⟩, m1⟩)
      vm.objects.cap 0 0 vm vm1 ⟨h.tab.len, rfl, .refl vm⟩ (by omega) (fun _ _ hh => by omega) (fun _ _ hh => by omega) e1
    cases e2 : compact (·.strings) mayMoveStr moveString 0 0 vm1.strings.cap vm1 with
    | ub k => rw [e2] at e; cases e
    | ok vm2 =>
      rw [e2] at e
      dsimp only at e
      obtain ⟨⟨k1, k2, k3, k5⟩, c2, -⟩ := compact_tight (tab := (·.strings)) (may := mayMoveStr)
        (J := fun v => v.strings.slots.length = v.strings.cap ∧ v.objects.slots.length = v.objects.cap ∧
          v.objects.cap = vm1.objects.cap ∧ CapLe vm v)
        (fun v hv => hv.1) (by
          rintro v v' i k x ⟨g1, g2, g3, g5⟩ hx hk hmv
          obtain ⟨m1, m2, m3, m4, m5⟩ := moveString_ok g1 g2 hx hk hmv
          exact ⟨⟨m1.len, m2, m3.trans g3, g5.trans m5⟩, m1⟩)
        vm1.strings.cap 0 0 vm1 vm2 ⟨by rw [j2]; exact h.str.tab.len, j1, rfl, j3⟩
        (by omega) (fun _ _ hh => by omega) (fun _ _ hh => by omega) e2
      have c1 : vm1.objects.cap = vm.objects.cap := c1
      have c2 : vm2.strings.cap = vm1.strings.cap := c2
      cases e3 : vm2.objects.shrink with
      | ub k => rw [e3] at e; cases e
      | ok t =>
        rw [e3] at e
        dsimp only at e
        have pw : ∃ k, k ≤ 31 ∧ vm2.objects.cap = 2 ^ k := by rw [k3, c1]; exact h.tab.pow
        obtain ⟨-, -, o3, -⟩ := Table.shrink_half k2 pw e3
        cases e4 : vm2.strings.shrink with
        | ub k => rw [e4] at e; cases e
        | ok u =>
          rw [e4] at e
          dsimp only at e
          have pu : ∃ k, k ≤ 31 ∧ vm2.strings.cap = 2 ^ k := by rw [c2, j2]; exact h.str.tab.pow
          obtain ⟨-, -, u3, -⟩ := Table.shrink_half k1 pu e4
          cases e5 : shrinkCtx 0 { vm2 with objects := t, strings := u } with
          | ub k => rw [e5] at e; cases e
          | ok vm3 =>
            rw [e5] at e
            dsimp only at e
            have hcaps : Caps { vm2 with objects := t, strings := u } := by
              intro k c hk
              obtain ⟨c0, hc0, -, hpos⟩ := k5 k c hk
              obtain ⟨n, -, hn⟩ := (h.co.stack k c0 hc0).pow
              exact hpos (by rw [hn]; exact Nat.one_le_two_pow)
            obtain ⟨-, -, -, s4, s5, s6, s7⟩ := shrinkCtx_ok hcaps e5
            obtain ⟨-, -, q3, q4, q5, -⟩ := shrinkCos_ok _ 0 vm3 vm' s4 e
            obtain ⟨w1, -⟩ := shrinkCtx_tidy hcaps e5
            obtain ⟨w2, w3⟩ := shrinkCos_tidy _ 0 vm3 vm' s4 e
            have ho : vm'.objects = t := q3.trans s5
            have hu : vm'.strings = u := q4.trans s6
            have a1 : vm'.objects.shrink = .ok vm'.objects := by rw [ho]; exact Table.shrink_again k2 pw e3
            have a2 : vm'.strings.shrink = .ok vm'.strings := by rw [hu]; exact Table.shrink_again k1 pu e4
            have l1 : vm'.objects.slots.length = vm'.objects.cap := by rw [ho]; exact o3.len
            have l2 : vm'.strings.slots.length = vm'.strings.cap := by rw [hu]; exact u3.len
            unfold shrinkVM
            split
            · rfl
            · rw [compact_noop (tab := (·.objects)) l1 f1]
              dsimp only
              rw [compact_noop (tab := (·.strings)) l2 f2]
              dsimp only
              rw [a1]
              dsimp only
              rw [a2]
              dsimp only
              rw [shrinkCtx_keep (w2 0 w1)]
              dsimp only
              refine shrinkCos_keep l1 (fun id o hid hty => ?_) _ 0 (by omega)
              rw [q3] at hid
              rw [q5] at hty
              have hlt := (List.getElem?_eq_some_iff.mp hid).1
              have hl3 : vm3.objects.slots.length = vm3.objects.cap := by rw [← q3]; exact l1
              exact w3 id o (Nat.zero_le _) (by omega) hid hty

end Nk
