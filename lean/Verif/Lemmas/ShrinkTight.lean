import Verif.Lemmas.Shrink
/-!
# What compaction leaves behind
-/
namespace Nk

/-- No stack has become larger. -/
def CapLe (vm vm' : VM) : Prop := ∀ (k : Nat) (c' : Ctx), vm'.ctxs[k]? = some (some c') →
  ∃ c, vm.ctxs[k]? = some (some c) ∧ c'.stack.cap ≤ c.stack.cap ∧ (1 ≤ c.stack.cap → 1 ≤ c'.stack.cap)

theorem CapLe.refl (vm : VM) : CapLe vm vm := fun _ c h => ⟨c, h, Nat.le_refl _, id⟩

theorem CapLe.trans {a b c : VM} (h : CapLe a b) (g : CapLe b c) : CapLe a c := by
  intro k x hx
  obtain ⟨y, hy, l1, m1⟩ := g k x hx
  obtain ⟨z, hz, l2, m2⟩ := h k y hy
  exact ⟨z, hz, Nat.le_trans l1 l2, fun hh => m1 (m2 hh)⟩

/-- Replacing a stack by one that is not larger. -/
theorem CapLe.set {vm vm' : VM} {i : Nat} {c : Ctx} {s : Stack} (hc : vm.ctxs[i]? = some (some c)) (hs : s.cap ≤ c.stack.cap)
    (hs1 : 1 ≤ c.stack.cap → 1 ≤ s.cap)
    (e : vm'.ctxs = vm.ctxs.set i (some { c with stack := s })) : CapLe vm vm' := by
  intro k c' hk
  rw [e, List.getElem?_set] at hk
  split at hk
  · next h =>
    subst h
    split at hk
    · cases hk
      exact ⟨c, hc, hs, hs1⟩
    · cases hk
  · exact ⟨c', hk, Nat.le_refl _, id⟩

theorem ctxAt_ok {vm : VM} {i : Nat} {c : Ctx} (h : ctxAt vm i = .ok c) : vm.ctxs[i]? = some (some c) := by
  unfold ctxAt at h
  split at h
  · next hh => cases h; exact hh
  · cases h

theorem rewriteAll_ok {f : Value → Value} {vm vm' : VM} (e : rewriteAll f vm = .ok vm')
    (hl : vm.objects.slots.length = vm.objects.cap) :
    vm'.objects = { vm.objects with slots := vm.objects.slots.map (Option.map (rewriteObj f)) } ∧
      vm'.strings = vm.strings ∧ vm'.coType = vm.coType ∧ CapLe vm vm' := by
  unfold rewriteAll at e
  cases h1 : ctxAt vm vm.cur with
  | ub k => rw [h1] at e; cases e
  | ok c =>
    rw [h1] at e
    dsimp only at e
    cases h2 : rewriteStack f c.stack with
    | ub k => rw [h2] at e; cases e
    | ok st =>
      rw [h2] at e
      dsimp only at e
      cases h3 : rewriteStatics f vm with
      | ub k => rw [h3] at e; cases e
      | ok ss =>
        rw [h3] at e
        dsimp only at e
        have h4 : rewriteObjs f vm.objects =
            .ok { vm.objects with slots := vm.objects.slots.map (Option.map (rewriteObj f)) } := by
          unfold rewriteObjs
          rw [if_pos (by omega), List.take_of_length_le (by omega), List.drop_eq_nil_of_le (by omega), List.append_nil]
        rw [h4] at e
        cases e
        have hcap : st.cap = c.stack.cap := by
          unfold rewriteStack at h2
          split at h2
          · cases h2; rfl
          · cases h2
        exact ⟨rfl, rfl, rfl, .set (ctxAt_ok h1) (s := st) (Nat.le_of_eq hcap) (by rw [hcap]; exact id) rfl⟩

/-- Whether a slot is in use, and then whether its entry may be moved. -/
def status {α : Type} (tab : VM → Table α) (may : VM → α → Bool) (vm : VM) (k : Nat) : Option Bool :=
  ((tab vm).entry k).map (may vm)

/-- A successful move. -/
structure MovesTo {α : Type} (tab : VM → Table α) (may : VM → α → Bool) (i h : Nat) (vm vm' : VM) : Prop where
  len : (tab vm').slots.length = (tab vm').cap
  cap : (tab vm').cap = (tab vm).cap
  status : ∀ k, status tab may vm' k =
    if k = i then none else if k = h then Nk.status tab may vm i else Nk.status tab may vm k

theorem moveObject_ok {vm vm' : VM} {i h : Nat} {x : Obj} (hl : vm.objects.slots.length = vm.objects.cap)
    (hi : vm.objects.slots[i]? = some (some x)) (hh : vm.objects.slots[h]? = some none)
    (e : moveObject i h vm = .ok vm') : MovesTo (·.objects) mayMoveObj i h vm vm' ∧ vm'.strings = vm.strings ∧ CapLe vm vm' := by
  unfold moveObject at e
  rw [Table.move_run hl hi hh] at e
  dsimp only at e
  obtain ⟨h1, h2, h3, h4⟩ := rewriteAll_ok e (by simpa using hl)
  refine ⟨⟨by rw [h1]; simpa using hl, by rw [h1], ?_⟩, h2, h4⟩
  intro k
  have hm : ∀ (o : Obj), mayMoveObj vm' (rewriteObj (reObj i h) o) = mayMoveObj vm o := by
    intro o; unfold mayMoveObj rewriteObj; rw [h3]
  have hj := Table.move_entry hi hh k
  unfold Nk.status
  simp only [Table.entry, h1, List.getElem?_map] at hj ⊢
  have join_map : ∀ y : Option (Option Obj), (y.map (Option.map (rewriteObj (reObj i h)))).join =
      y.join.map (rewriteObj (reObj i h)) := by
    intro y; cases y <;> rfl
  rw [join_map, hj, hi]
  split
  · rfl
  · split
    · simp [hm]
    · simp [Option.map_map, Function.comp_def, hm]

theorem moveString_ok {vm vm' : VM} {i h : Nat} {x : Str} (hl : vm.strings.slots.length = vm.strings.cap)
    (ho : vm.objects.slots.length = vm.objects.cap)
    (hi : vm.strings.slots[i]? = some (some x)) (hh : vm.strings.slots[h]? = some none)
    (e : moveString i h vm = .ok vm') : MovesTo (·.strings) mayMoveStr i h vm vm' ∧
      vm'.objects.slots.length = vm'.objects.cap ∧ vm'.objects.cap = vm.objects.cap ∧
      (∀ k, status (·.objects) mayMoveObj vm' k = status (·.objects) mayMoveObj vm k) ∧ CapLe vm vm' := by
  unfold moveString at e
  rw [Table.move_run hl hi hh] at e
  dsimp only at e
  obtain ⟨h1, h2, h3, h4⟩ := rewriteAll_ok e ho
  refine ⟨⟨by rw [h2]; simpa using hl, by rw [h2], ?_⟩, by rw [h1]; simpa using ho, by rw [h1], ?_, h4⟩
  · intro k
    have hj := Table.move_entry hi hh k
    unfold Nk.status
    simp only [Table.entry, h2] at hj ⊢
    rw [hj, hi]
    split
    · rfl
    · split <;> rfl
  · intro k
    have hm : ∀ (o : Obj), mayMoveObj vm' (rewriteObj (reStr i h) o) = mayMoveObj vm o := by
      intro o; unfold mayMoveObj rewriteObj; rw [h3]
    unfold Nk.status
    simp only [Table.entry, h1, List.getElem?_map]
    cases vm.objects.slots[k]? with
    | none => rfl
    | some o => cases o with
      | none => rfl
      | some o => simp [hm]

/-- What the search from `j` finds: the first entry that may be moved. -/
def Found {α : Type} (may : α → Bool) (t : Table α) (j : Nat) : Option Nat → Prop
  | some i => j ≤ i ∧ (∀ p, j ≤ p → p < i → (t.entry p).map may ≠ some true) ∧
      ∃ x, t.slots[i]? = some (some x) ∧ may x = true
  | none => ∀ p, j ≤ p → (t.entry p).map may ≠ some true

theorem findMovable_first {α : Type} {may : α → Bool} {t : Table α} (n j : Nat) {r : Option Nat}
    (e : findMovable may t j n = .ok r) (hn : t.cap ≤ j + n) (hl : t.slots.length = t.cap) :
    Found may t j r := by
  have out : ∀ p, t.cap ≤ p → (t.entry p).map may ≠ some true := by
    intro p hp
    have : t.slots[p]? = none := List.getElem?_eq_none_iff.mpr (by omega)
    simp [Table.entry, this]
  induction n generalizing j with
  | zero =>
    cases e
    intro p hp
    exact out p (by omega)
  | succ n ih =>
    unfold findMovable at e
    split at e
    · next hj =>
      cases hs : t.slots[j]? with
      | none => rw [List.getElem?_eq_none_iff] at hs; omega
      | some o =>
        have hr : t.read j = .ok o := by unfold Table.read; rw [hs]
        rw [hr] at e
        have go : ∀ (hns : (t.entry j).map may ≠ some true), findMovable may t (j + 1) n = .ok r →
            Found may t j r := by
          intro hns e
          have := ih (j + 1) e (by omega)
          cases r with
          | none =>
            intro p hp
            by_cases hpj : p = j
            · rw [hpj]; exact hns
            · exact this p (by omega)
          | some i =>
            obtain ⟨a, b, c⟩ := this
            refine ⟨by omega, fun p hp hpi => ?_, c⟩
            by_cases hpj : p = j
            · rw [hpj]; exact hns
            · exact b p (by omega) hpi
        cases o with
        | none => exact go (by simp [Table.entry, hs]) e
        | some x =>
          dsimp only at e
          by_cases hm : may x = true
          · rw [if_pos hm] at e
            cases e
            exact ⟨Nat.le_refl _, fun p h1 h2 => by omega, x, hs, hm⟩
          · rw [if_neg hm] at e
            exact go (by simp [Table.entry, hs, hm]) e
    · cases e
      intro p hp
      exact out p (by omega)

/-- After compaction nothing that may be moved comes after a hole. -/
theorem compact_tight {α : Type} {tab : VM → Table α} {may : VM → α → Bool} {move : Nat → Nat → VM → Res VM} {J : VM → Prop}
    (hl : ∀ vm, J vm → (tab vm).slots.length = (tab vm).cap)
    (hm : ∀ vm vm' i h x, J vm → (tab vm).slots[i]? = some (some x) → (tab vm).slots[h]? = some none →
      move i h vm = .ok vm' → J vm' ∧ MovesTo tab may i h vm vm')
    (n hole j : Nat) (vm vm' : VM) (hJ : J vm) (hn : (tab vm).cap ≤ hole + n)
    (h1 : ∀ h p, h < hole → h < p → status tab may vm h = none → status tab may vm p ≠ some true)
    (h2 : ∀ p, hole ≤ p → p < j → status tab may vm p ≠ some true)
    (e : compact tab may move hole j n vm = .ok vm') :
    J vm' ∧ (tab vm').cap = (tab vm).cap ∧
      ∀ h p, h < p → status tab may vm' h = none → status tab may vm' p ≠ some true := by
  have fin : ∀ (vm : VM) (hole : Nat), J vm → (tab vm).cap ≤ hole →
      (∀ h p, h < hole → h < p → status tab may vm h = none → status tab may vm p ≠ some true) →
      ∀ h p, h < p → status tab may vm h = none → status tab may vm p ≠ some true := by
    intro vm hole hJ hc h1 h p hp hs
    by_cases hh : h < hole
    · exact h1 h p hh hp hs
    · have : (tab vm).slots[p]? = none := List.getElem?_eq_none_iff.mpr (by rw [hl vm hJ]; omega)
      simp [status, Table.entry, this]
  induction n generalizing hole j vm with
  | zero =>
    cases e
    exact ⟨hJ, rfl, fin _ hole hJ (by omega) h1⟩
  | succ n ih =>
    unfold compact at e
    by_cases hc : hole < (tab vm).cap
    · rw [if_pos hc] at e
      have hlv := hl vm hJ
      cases hs : (tab vm).slots[hole]? with
      | none => rw [List.getElem?_eq_none_iff] at hs; omega
      | some o =>
        have hr : (tab vm).read hole = .ok o := by unfold Table.read; rw [hs]
        rw [hr] at e
        cases o with
        | some x =>
          refine ih (hole + 1) j vm hJ (by omega) ?_ (fun p hp => h2 p (by omega)) e
          intro h p hh hp hst
          by_cases hx : h = hole
          · subst hx
            simp [status, Table.entry, hs] at hst
          · exact h1 h p (by omega) hp hst
        | none =>
          dsimp only at e
          generalize hj' : (if j < hole then hole + 1 else j) = j' at e
          have h2' : ∀ p, hole < p → p < j' → status tab may vm p ≠ some true := by
            intro p hp hpj
            split at hj'
            · omega
            · exact h2 p (by omega) (by omega)
          cases hf : findMovable (may vm) (tab vm) j' (tab vm).cap with
          | ub k => rw [hf] at e; cases e
          | ok r =>
            have hfirst := findMovable_first _ _ hf (by omega) hlv
            rw [hf] at e
            cases r with
            | none =>
              dsimp only at e hfirst
              have none_after : ∀ p, hole < p → status tab may vm p ≠ some true := by
                intro p hp
                by_cases hpj : p < j'
                · exact h2' p hp hpj
                · exact hfirst p (by omega)
              refine ih (hole + 1) _ vm hJ (by omega) ?_ (fun p hp _ => none_after p (by omega)) e
              intro h p hh hp hst
              by_cases hx : h = hole
              · subst hx; exact none_after p hp
              · exact h1 h p (by omega) hp hst
            | some i =>
              dsimp only at e hfirst
              obtain ⟨hji, hbet, x, hx, hmx⟩ := hfirst
              cases hmv : move i hole vm with
              | ub k => rw [hmv] at e; cases e
              | ok vm1 =>
                rw [hmv] at e
                dsimp only at e
                obtain ⟨hJ1, M⟩ := hm vm vm1 i hole x hJ hx hs hmv
                have sti : status tab may vm i = some true := by simp [status, Table.entry, hx, hmx]
                have hne : i ≠ hole := by
                  intro e
                  rw [e, hs] at hx
                  cases hx
                have hgt : hole < i := by
                  split at hj'
                  · omega
                  · omega
                have nohole : ∀ h, h < hole → status tab may vm h ≠ none := fun h hh hst => h1 h i hh (by omega) hst sti
                have := ih (hole + 1) i vm1 hJ1 (by rw [M.cap]; omega) ?_ ?_ e
                · obtain ⟨a, b, c⟩ := this
                  exact ⟨a, b.trans M.cap, c⟩
                · intro h p hh hp hst
                  exfalso
                  rw [M.status] at hst
                  rw [if_neg (by omega)] at hst
                  by_cases hx : h = hole
                  · rw [if_pos hx, sti] at hst; cases hst
                  · rw [if_neg hx] at hst; exact nohole h (by omega) hst
                · intro p hp hpi
                  rw [M.status, if_neg (by omega), if_neg (by omega)]
                  by_cases hpj : p < j'
                  · exact h2' p (by omega) hpj
                  · exact hbet p (by omega) hpi
    · rw [if_neg hc] at e
      cases e
      exact ⟨hJ, rfl, fin _ hole hJ (by omega) h1⟩

/-! ## Capacities -/

theorem Table.halve_half (hi c : Nat) : Table.halve hi c / 2 ≤ hi := by
  induction c using Nat.strongRecOn with
  | _ c ih =>
    unfold Table.halve
    split
    · next h => exact ih (c / 2) (by omega)
    · next h => omega

theorem Table.halve_le (hi c : Nat) : Table.halve hi c ≤ c := by
  induction c using Nat.strongRecOn with
  | _ c ih =>
    unfold Table.halve
    split
    · next h => exact Nat.le_trans (ih (c / 2) (by omega)) (by omega)
    · exact Nat.le_refl _

theorem Table.highest_entry {α : Type} (t : Table α) (n : Nat) :
    (∃ x, t.slots[t.highest n]? = some (some x)) ∨ t.highest n = 0 := by
  induction n with
  | zero => exact .inr rfl
  | succ n ih =>
    unfold Table.highest
    split
    · next x h => exact .inl ⟨x, h⟩
    · exact ih

/-- The capacity after shrinking a table: at most the old one, and the upper half is in use. -/
theorem Table.shrink_half {α : Type} {t t' : Table α} (hl : t.slots.length = t.cap) (hp : ∃ k, k ≤ 31 ∧ t.cap = 2 ^ k)
    (e : t.shrink = .ok t') : t'.cap ≤ t.cap ∧ (∀ i, t'.entry i = t.entry i) ∧ t'.WF ∧
      (t'.cap = 1 ∨ ∃ p x, t'.cap / 2 ≤ p ∧ t'.entry p = some x) := by
  obtain ⟨t1, e1, hw, hent, hcap⟩ := Table.shrink_any hl hp
  rw [e] at e1
  cases e1
  refine ⟨hcap, hent, hw, ?_⟩
  have hc : t'.cap = Table.halve (t.highest t.cap) t.cap := by
    have hle := Table.halve_le (t.highest t.cap) t.cap
    unfold Table.shrink Table.resetHoles at e
    dsimp only at e
    obtain ⟨hs, h1, -, -⟩ := Table.resetLoop_ok (Table.halve (t.highest t.cap) t.cap)
      ({ slots := t.slots.take (Table.halve (t.highest t.cap) t.cap), cap := Table.halve (t.highest t.cap) t.cap, holes := [] } : Table α)
      (by simp only [List.length_take]; omega) (Nat.le_refl _) (by simp) (by simp)
    rw [h1] at e
    cases e
    rfl
  have hh := Table.halve_half (t.highest t.cap) t.cap
  rw [← hc] at hh
  rcases Table.highest_entry t t.cap with ⟨x, hx⟩ | h0
  · exact .inr ⟨_, x, hh, by rw [hent]; simp [Table.entry, hx]⟩
  · rw [h0] at hh
    obtain ⟨k, -, hk⟩ := hw.pow
    have : 1 ≤ 2 ^ k := Nat.one_le_two_pow
    omega

/-- At least half of the stack is in use. -/
def Stack.Small (s : Stack) : Prop := s.cap = 1 ∨ s.cap / 2 ≤ s.size

theorem shrinkStack_small (s : Stack) : (shrinkStack s).Small := by
  have := Table.halve_half s.size s.cap
  unfold Stack.Small shrinkStack
  dsimp only
  split
  · dsimp only
    omega
  · next h => omega

theorem shrinkStack_le {s : Stack} (h : 1 ≤ s.cap) : (shrinkStack s).cap ≤ s.cap := by
  have := Table.halve_le s.size s.cap
  unfold shrinkStack
  dsimp only
  split
  · dsimp only; omega
  · omega

theorem shrinkStack_pos {s : Stack} (h : 1 ≤ s.cap) : 1 ≤ (shrinkStack s).cap := by
  unfold shrinkStack
  dsimp only
  split
  · dsimp only; omega
  · exact h

/-- The context, if there is one, has a small stack. -/
def SmallAt (vm : VM) (k : Nat) : Prop := ∀ c, vm.ctxs[k]? = some (some c) → c.stack.Small

/-- All stacks have a capacity. -/
def Caps (vm : VM) : Prop := ∀ (k : Nat) (c : Ctx), vm.ctxs[k]? = some (some c) → 1 ≤ c.stack.cap

theorem shrinkCtx_ok {vm vm' : VM} {i : Nat} (hcaps : Caps vm) (e : shrinkCtx i vm = .ok vm') :
    SmallAt vm' i ∧ (∀ k, SmallAt vm k → SmallAt vm' k) ∧ CapLe vm vm' ∧ Caps vm' ∧
      vm'.objects = vm.objects ∧ vm'.strings = vm.strings ∧ vm'.coType = vm.coType := by
  unfold shrinkCtx at e
  cases h : ctxAt vm i with
  | ub k => rw [h] at e; cases e
  | ok c =>
    rw [h] at e
    cases e
    have hc := ctxAt_ok h
    have hlt := (List.getElem?_eq_some_iff.mp hc).1
    have hsm := shrinkStack_small c.stack
    have get : ∀ k, (vm.ctxs.set i (some { c with stack := shrinkStack c.stack }))[k]? =
        if i = k then some (some { c with stack := shrinkStack c.stack }) else vm.ctxs[k]? := by
      intro k
      rw [List.getElem?_set]
      simp only [hlt, if_true]
    refine ⟨?_, ?_, .set hc (shrinkStack_le (hcaps i c hc)) shrinkStack_pos rfl, ?_, rfl, rfl, rfl⟩
    · intro c' hc'
      have hc' : (vm.ctxs.set i (some { c with stack := shrinkStack c.stack }))[i]? = some (some c') := hc'
      rw [get, if_pos rfl] at hc'
      cases hc'
      exact hsm
    · intro k hk c' hc'
      have hc' : (vm.ctxs.set i (some { c with stack := shrinkStack c.stack }))[k]? = some (some c') := hc'
      rw [get] at hc'
      split at hc'
      · cases hc'; exact hsm
      · exact hk c' hc'
    · intro k c' hc'
      have hc' : (vm.ctxs.set i (some { c with stack := shrinkStack c.stack }))[k]? = some (some c') := hc'
      rw [get] at hc'
      split at hc'
      · cases hc'
        show 1 ≤ (shrinkStack c.stack).cap
        exact shrinkStack_pos (hcaps i c hc)
      · exact hcaps k c' hc'

theorem shrinkCos_ok (n : Nat) : ∀ (i : Nat) (vm vm' : VM), Caps vm → shrinkCos i n vm = .ok vm' →
    (∀ k, SmallAt vm k → SmallAt vm' k) ∧ CapLe vm vm' ∧ vm'.objects = vm.objects ∧ vm'.strings = vm.strings ∧
      vm'.coType = vm.coType ∧
      ∀ (id j : Nat) (o : Obj), i ≤ id → id < i + n → vm.objects.slots[id]? = some (some o) → o.extType = vm.coType →
        o.extData = some j → SmallAt vm' j := by
  induction n with
  | zero =>
    intro i vm vm' _ e
    cases e
    exact ⟨fun _ h => h, .refl _, rfl, rfl, rfl, fun id j o h1 h2 => by omega⟩
  | succ n ih =>
    intro i vm vm' hcaps e
    unfold shrinkCos at e
    have skip : (∀ o, vm.objects.slots[i]? = some (some o) → o.extType ≠ vm.coType) →
        shrinkCos (i + 1) n vm = .ok vm' → _ := fun hno e => by
      obtain ⟨a, b, c, d, f, g⟩ := ih (i + 1) vm vm' hcaps e
      refine (⟨a, b, c, d, f, fun id j o h1 h2 h3 h4 h5 => ?_⟩ : (∀ k, SmallAt vm k → SmallAt vm' k) ∧ CapLe vm vm' ∧
        vm'.objects = vm.objects ∧ vm'.strings = vm.strings ∧ vm'.coType = vm.coType ∧
        ∀ (id j : Nat) (o : Obj), i ≤ id → id < i + (n + 1) → vm.objects.slots[id]? = some (some o) → o.extType = vm.coType →
          o.extData = some j → SmallAt vm' j)
      by_cases hid : id = i
      · subst hid; exact absurd h4 (hno o h3)
      · exact g id j o (by omega) (by omega) h3 h4 h5
    cases hs : vm.objects.slots[i]? with
    | none =>
      have hr : vm.objects.read i = .ub .oob := by unfold Table.read; rw [hs]
      rw [hr] at e; cases e
    | some o =>
      have hr : vm.objects.read i = .ok o := by unfold Table.read; rw [hs]
      rw [hr] at e
      cases o with
      | none => exact skip (fun o h => by rw [hs] at h; cases h) e
      | some o =>
        dsimp only at e
        by_cases ht : o.extType = vm.coType
        · rw [if_pos ht] at e
          cases hd : o.extData with
          | none => rw [hd] at e; cases e
          | some j =>
            rw [hd] at e
            dsimp only at e
            cases hx : shrinkCtx j vm with
            | ub k => rw [hx] at e; cases e
            | ok vm1 =>
              rw [hx] at e
              dsimp only at e
              obtain ⟨s1, s2, s3, s4, s5, s6, s7⟩ := shrinkCtx_ok hcaps hx
              obtain ⟨a, b, c, d, f, g⟩ := ih (i + 1) vm1 vm' s4 e
              refine ⟨fun k hk => a k (s2 k hk), s3.trans b, c.trans s5, d.trans s6, f.trans s7, ?_⟩
              intro id j' o' h1 h2 h3 h4 h5
              by_cases hid : id = i
              · subst hid
                rw [hs] at h3
                cases h3
                rw [hd] at h5
                cases h5
                exact a j s1
              · exact g id j' o' (by omega) (by omega) (by rw [s5]; exact h3) (by rw [s7]; exact h4) h5
        · rw [if_neg ht] at e
          exact skip (fun o' h => by rw [hs] at h; cases h; exact ht) e

/-- All of it. -/
theorem shrinkVM_tight {vm vm' : VM} (h : HeapWF vm) (he : vm.errors = []) (e : shrinkVM vm = .ok vm') :
    (∀ a b, a < b → status (·.objects) mayMoveObj vm' a = none → status (·.objects) mayMoveObj vm' b ≠ some true) ∧
    (∀ a b, a < b → status (·.strings) mayMoveStr vm' a = none → status (·.strings) mayMoveStr vm' b ≠ some true) ∧
    vm'.objects.cap ≤ vm.objects.cap ∧ (vm'.objects.cap = 1 ∨ ∃ p x, vm'.objects.cap / 2 ≤ p ∧ vm'.objects.entry p = some x) ∧
    vm'.strings.cap ≤ vm.strings.cap ∧ (vm'.strings.cap = 1 ∨ ∃ p x, vm'.strings.cap / 2 ≤ p ∧ vm'.strings.entry p = some x) ∧
    CapLe vm vm' ∧ SmallAt vm' 0 ∧
    ∀ (id j : Nat) (o : Obj), vm'.objects.entry id = some o → o.extType = vm'.coType → o.extData = some j → SmallAt vm' j := by
  unfold shrinkVM at e
  rw [if_neg (by simp [he])] at e
  cases e1 : compact (·.objects) mayMoveObj moveObject 0 0 vm.objects.cap vm with
  | ub k => rw [e1] at e; cases e
  | ok vm1 =>
    rw [e1] at e
    dsimp only at e
    obtain ⟨⟨j1, j2, j3⟩, c1, t1⟩ := compact_tight (tab := (·.objects)) (may := mayMoveObj)
      (J := fun v => v.objects.slots.length = v.objects.cap ∧ v.strings = vm.strings ∧ CapLe vm v)
      (fun v hv => hv.1) (by
        rintro v v' i k x ⟨g1, g2, g3⟩ hx hk hmv
        obtain ⟨m1, m2, m3⟩ := moveObject_ok g1 hx hk hmv
        exact ⟨⟨m1.len, m2.trans g2, g3.trans m3⟩, m1⟩)
      vm.objects.cap 0 0 vm vm1 ⟨h.tab.len, rfl, .refl vm⟩ (by omega) (fun _ _ hh => by omega) (fun _ _ hh => by omega) e1
    cases e2 : compact (·.strings) mayMoveStr moveString 0 0 vm1.strings.cap vm1 with
    | ub k => rw [e2] at e; cases e
    | ok vm2 =>
      rw [e2] at e
      dsimp only at e
      obtain ⟨⟨k1, k2, k3, k4, k5⟩, c2, t2⟩ := compact_tight (tab := (·.strings)) (may := mayMoveStr)
        (J := fun v => v.strings.slots.length = v.strings.cap ∧ v.objects.slots.length = v.objects.cap ∧
          v.objects.cap = vm1.objects.cap ∧
          (∀ k, status (·.objects) mayMoveObj v k = status (·.objects) mayMoveObj vm1 k) ∧ CapLe vm v)
        (fun v hv => hv.1) (by
          rintro v v' i k x ⟨g1, g2, g3, g4, g5⟩ hx hk hmv
          obtain ⟨m1, m2, m3, m4, m5⟩ := moveString_ok g1 g2 hx hk hmv
          exact ⟨⟨m1.len, m2, m3.trans g3, fun k => (m4 k).trans (g4 k), g5.trans m5⟩, m1⟩)
        vm1.strings.cap 0 0 vm1 vm2 ⟨by rw [j2]; exact h.str.tab.len, j1, rfl, fun _ => rfl, j3⟩
        (by omega) (fun _ _ hh => by omega) (fun _ _ hh => by omega) e2
      have c1 : vm1.objects.cap = vm.objects.cap := c1
      have c2 : vm2.strings.cap = vm1.strings.cap := c2
      cases e3 : vm2.objects.shrink with
      | ub k => rw [e3] at e; cases e
      | ok t =>
        rw [e3] at e
        dsimp only at e
        obtain ⟨o1, o2, o3, o4⟩ := Table.shrink_half k2 (by rw [k3, c1]; exact h.tab.pow) e3
        cases e4 : vm2.strings.shrink with
        | ub k => rw [e4] at e; cases e
        | ok u =>
          rw [e4] at e
          dsimp only at e
          obtain ⟨u1, u2, u3, u4⟩ := Table.shrink_half k1 (by rw [c2, j2]; exact h.str.tab.pow) e4
          cases e5 : shrinkCtx 0 { vm2 with objects := t, strings := u } with
          | ub k => rw [e5] at e; cases e
          | ok vm3 =>
            rw [e5] at e
            dsimp only at e
            have hcaps : Caps { vm2 with objects := t, strings := u } := by
              intro k c hk
              obtain ⟨c0, hc0, -, hpos⟩ := k5 k c hk
              obtain ⟨n, -, hn⟩ := (h.co.stack k c0 hc0).pow
              exact hpos (by rw [hn]; exact Nat.one_le_two_pow)
            obtain ⟨s1, s2, s3, s4, s5, s6, s7⟩ := shrinkCtx_ok hcaps e5
            obtain ⟨q1, q2, q3, q4, q5, q6⟩ := shrinkCos_ok _ 0 vm3 vm' s4 e
            have ho : vm'.objects = t := q3.trans s5
            have hu : vm'.strings = u := q4.trans s6
            have hct : vm'.coType = vm2.coType := q5.trans s7
            have st : ∀ k, status (·.objects) mayMoveObj vm' k = status (·.objects) mayMoveObj vm1 k := by
              intro k
              rw [← k4 k]
              unfold status
              dsimp only
              rw [ho, o2]
              congr 1
              funext o
              unfold mayMoveObj
              rw [hct]
            have su : ∀ k, status (·.strings) mayMoveStr vm' k = status (·.strings) mayMoveStr vm2 k := by
              intro k
              unfold status
              dsimp only
              rw [hu, u2]
              rfl
            refine ⟨fun a b hab ha => ?_, fun a b hab ha => ?_, ?_, ?_, ?_, ?_, ?_, ?_, ?_⟩
            · rw [st] at ha ⊢
              exact t1 a b hab ha
            · rw [su] at ha ⊢
              exact t2 a b hab ha
            · rw [ho]; omega
            · rw [ho]; exact o4
            · rw [hu]
              have := congrArg Table.cap j2
              omega
            · rw [hu]; exact u4
            · exact CapLe.trans (CapLe.trans k5 s3) q2
            · exact q1 0 s1
            · intro id j o hid hty hd
              rw [q3] at hid
              have hs : vm3.objects.slots[id]? = some (some o) := by
                simpa [Table.entry, Option.join_eq_some_iff] using hid
              have hlt := (List.getElem?_eq_some_iff.mp hs).1
              have hl : vm3.objects.slots.length = vm3.objects.cap := by rw [s5]; exact o3.len
              exact q6 id j o (Nat.zero_le _) (by omega) hs (by rw [← q5]; exact hty) hd

end Nk
