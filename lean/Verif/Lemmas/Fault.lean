import Verif.Spec.Fault
import Verif.Lemmas.Table
import Verif.Lemmas.ShrinkTight
import Verif.Lemmas.Sweep
/-!
# Running out of memory: what the operations leave behind
-/
namespace Nk
namespace Table
variable {α : Type}

/-- As `Att.Agrees`, for operations without a result. -/
def AgreesT (r : Res (Table α)) : Att (Table α) Unit → Prop
  | .done _ _ s => r = .ok s
  | .failed _ => True
  | .ub u => r = .ub u

theorem createHoleF_agrees (t : Table α) (i k : Nat) : AgreesT (t.createHole i) (t.createHoleF i k) := by
  unfold createHoleF
  split
  · trivial
  · cases h : t.createHole i <;> simp [AgreesT]

/-- Holes do not concern the entries. -/
theorem createHoleF_state {t t' : Table α} {i k : Nat} (h : (t.createHoleF i k).state = some t') :
    t'.slots = t.slots ∧ t'.cap = t.cap := by
  unfold createHoleF at h
  split at h
  · cases h; exact ⟨rfl, rfl⟩
  · cases hc : t.createHole i with
    | ub u => rw [hc] at h; cases h
    | ok s =>
      rw [hc] at h
      cases h
      unfold createHole at hc
      split at hc
      · split at hc <;> first | (cases hc; exact ⟨rfl, rfl⟩) | cases hc
      · cases hc

theorem makeHolesF_agrees (lo n : Nat) : ∀ (t : Table α) (k : Nat), AgreesT (t.makeHoles lo n) (t.makeHolesF lo n k) := by
  induction n with
  | zero => intro t k; rfl
  | succ n ih =>
    intro t k
    have h1 := createHoleF_agrees t (lo + n) k
    unfold makeHolesF makeHoles
    cases hc : t.createHoleF (lo + n) k with
    | done k' _ s =>
      rw [hc] at h1
      have h1 : t.createHole (lo + n) = .ok s := h1
      rw [h1]
      exact ih s k'
    | failed s => trivial
    | ub u =>
      rw [hc] at h1
      have h1 : t.createHole (lo + n) = .ub u := h1
      rw [h1]
      rfl

theorem makeHolesF_state (lo n : Nat) : ∀ (t t' : Table α) (k : Nat), (t.makeHolesF lo n k).state = some t' →
    t'.slots = t.slots ∧ t'.cap = t.cap := by
  induction n with
  | zero => intro t t' k h; cases h; exact ⟨rfl, rfl⟩
  | succ n ih =>
    intro t t' k h
    unfold makeHolesF at h
    cases hc : t.createHoleF (lo + n) k with
    | done k' _ s =>
      have h1 := createHoleF_state (t := t) (i := lo + n) (k := k) (t' := s) (by rw [hc]; rfl)
      rw [hc] at h
      have := ih s t' k' h
      exact ⟨this.1.trans h1.1, this.2.trans h1.2⟩
    | failed s =>
      have h1 := createHoleF_state (t := t) (i := lo + n) (k := k) (t' := s) (by rw [hc]; rfl)
      rw [hc] at h
      cases h
      exact h1
    | ub u => rw [hc] at h; cases h

theorem addF_agrees (t : Table α) (x : α) (k : Nat) : (t.addF x k).Agrees (t.add x) := by
  unfold addF add
  cases hh : t.holes with
  | cons i hs =>
    dsimp only
    cases hw : ({ t with holes := hs } : Table α).write i (some x) with
    | ok s => rfl
    | ub u => rfl
  | nil =>
    dsimp only
    by_cases hn : u32 (t.cap * 2) = 0
    · rw [if_pos hn, if_pos hn]; rfl
    · rw [if_neg hn, if_neg hn]
      cases k with
      | zero => trivial
      | succ k =>
        dsimp only
        have h1 := makeHolesF_agrees (t.cap + 1) (u32 (t.cap * 2) - (t.cap + 1))
          ({ t with slots := t.slots.take t.cap ++ List.replicate (u32 (t.cap * 2) - t.cap) none, cap := u32 (t.cap * 2) } : Table α) k
        rw [hh] at h1
        revert h1
        cases makeHolesF ({ slots := t.slots.take t.cap ++ List.replicate (u32 (t.cap * 2) - t.cap) none, cap := u32 (t.cap * 2), holes := [] } : Table α)
            (t.cap + 1) (u32 (t.cap * 2) - (t.cap + 1)) k with
        | failed s => intro _; trivial
        | ub u =>
          intro h1
          have h1 : makeHoles _ _ _ = .ub u := h1
          rw [h1]; rfl
        | done k' _ s =>
          intro h1
          have h1 : makeHoles _ _ _ = .ok s := h1
          rw [h1]
          dsimp only
          cases hw : s.write t.cap (some x) with
          | ok s' => show (Res.bind _ _) = _; simp [Res.bind, hw]
          | ub u => show (Res.bind _ _) = _; simp [Res.bind, hw]

/-- A failed attempt to add leaves the entries as they are. -/
theorem addF_failed {t t' : Table α} {x : α} {k : Nat} (hl : t.slots.length = t.cap) (hp : ∃ k, k ≤ 31 ∧ t.cap = 2 ^ k)
    (h : t.addF x k = .failed t') :
    t'.slots.length = t'.cap ∧ ∀ i, t'.entry i = t.entry i := by
  unfold addF at h
  cases hh : t.holes with
  | cons i hs =>
    rw [hh] at h
    dsimp only at h
    cases hw : ({ t with holes := hs } : Table α).write i (some x) with
    | ok s => rw [hw] at h; cases h
    | ub u => rw [hw] at h; cases h
  | nil =>
    rw [hh] at h
    dsimp only at h
    by_cases hn : u32 (t.cap * 2) = 0
    · rw [if_pos hn] at h; cases h
    · rw [if_neg hn] at h
      cases k with
      | zero => cases h; exact ⟨hl, fun _ => rfl⟩
      | succ k =>
        dsimp only at h
        split at h
        · next s hs =>
          cases h
          obtain ⟨h1, h2⟩ := makeHolesF_state _ _ _ t' k (by rw [hs]; rfl)
          have hge : t.cap ≤ u32 (t.cap * 2) := by
            obtain ⟨e, he, hc⟩ := hp
            rw [hc] at hn ⊢
            rw [← Nat.pow_succ] at hn ⊢
            by_cases h31 : e = 31
            · subst h31; exact absurd rfl hn
            · have : 2 ^ (e + 1) ≤ 2 ^ 31 := Nat.pow_le_pow_right (by decide) (by omega)
              have hu : u32 (2 ^ (e + 1)) = 2 ^ (e + 1) := Nat.mod_eq_of_lt (Nat.lt_of_le_of_lt this (by decide))
              rw [hu]
              exact Nat.pow_le_pow_right (by decide) (by omega)
          refine ⟨?_, fun i => ?_⟩
          · rw [h1, h2]
            simp only [List.length_append, List.length_take, List.length_replicate]
            omega
          · unfold entry
            rw [h1, List.take_of_length_le (by omega), List.getElem?_append]
            split
            · rfl
            · next hi =>
              have : t.slots[i]? = none := List.getElem?_eq_none_iff.mpr (by omega)
              rw [this, List.getElem?_replicate]
              split <;> rfl
        · cases h
        · split at h <;> cases h

theorem eraseF_agrees (t : Table α) (i k : Nat) : AgreesT (t.erase i) (t.eraseF i k) := by
  unfold eraseF erase
  by_cases hc : i < t.cap
  · rw [if_pos hc, if_pos hc]
    cases hr : t.read i with
    | ub u => rfl
    | ok o =>
      cases o with
      | none => rfl
      | some x =>
        dsimp only
        cases hw : t.write i none with
        | ok s => exact createHoleF_agrees s i k
        | ub u => rfl
  · rw [if_neg hc, if_neg hc]; rfl

theorem eraseF_state {t t' : Table α} {i k : Nat} (h : (t.eraseF i k).state = some t') :
    t'.slots = t.slots.set i none ∧ t'.cap = t.cap := by
  unfold eraseF at h
  split at h
  · split at h
    · next x hx =>
      cases hw : t.write i none with
      | ub u => rw [hw] at h; cases h
      | ok s =>
        rw [hw] at h
        obtain ⟨h1, h2⟩ := createHoleF_state h
        unfold write at hw
        split at hw
        · cases hw; exact ⟨h1, h2⟩
        · cases hw
    · cases h
    · cases h
  · cases h

theorem resetLoopF_agrees (n : Nat) : ∀ (t : Table α) (k : Nat), AgreesT (t.resetLoop n) (t.resetLoopF n k) := by
  induction n with
  | zero => intro t k; rfl
  | succ n ih =>
    intro t k
    unfold resetLoopF resetLoop
    cases hr : t.read n with
    | ub u => rfl
    | ok o =>
      cases o with
      | some x => exact ih t k
      | none =>
        dsimp only
        have h1 := createHoleF_agrees t n k
        cases hc : t.createHoleF n k with
        | done k' _ s =>
          rw [hc] at h1
          have h1 : t.createHole n = .ok s := h1
          rw [h1]
          exact ih s k'
        | failed s => trivial
        | ub u =>
          rw [hc] at h1
          have h1 : t.createHole n = .ub u := h1
          rw [h1]
          rfl

theorem resetLoopF_state (n : Nat) : ∀ (t t' : Table α) (k : Nat), (t.resetLoopF n k).state = some t' →
    t'.slots = t.slots ∧ t'.cap = t.cap := by
  induction n with
  | zero => intro t t' k h; cases h; exact ⟨rfl, rfl⟩
  | succ n ih =>
    intro t t' k h
    unfold resetLoopF at h
    cases hr : t.read n with
    | ub u => rw [hr] at h; cases h
    | ok o =>
      rw [hr] at h
      cases o with
      | some x => exact ih t t' k h
      | none =>
        dsimp only at h
        cases hc : t.createHoleF n k with
        | done k' _ s =>
          have h1 := createHoleF_state (t := t) (i := n) (k := k) (t' := s) (by rw [hc]; rfl)
          rw [hc] at h
          have := ih s t' k' h
          exact ⟨this.1.trans h1.1, this.2.trans h1.2⟩
        | failed s =>
          have h1 := createHoleF_state (t := t) (i := n) (k := k) (t' := s) (by rw [hc]; rfl)
          rw [hc] at h
          cases h
          exact h1
        | ub u => rw [hc] at h; cases h

theorem shrinkF_agrees (t : Table α) (k : Nat) (hl : t.slots.length = t.cap) : AgreesT t.shrink (t.shrinkF k) := by
  unfold shrinkF shrink resetHoles
  dsimp only
  by_cases hc : halve (t.highest t.cap) t.cap = t.cap
  · rw [if_neg (by simpa using hc), hc, List.take_of_length_le (by omega)]
    exact resetLoopF_agrees _ _ _
  · rw [if_pos hc]
    cases k with
    | zero => trivial
    | succ k => exact resetLoopF_agrees _ _ _

/-- Shrinking leaves the entries as they are, also if memory runs out. -/
theorem shrinkF_state {t t' : Table α} {k : Nat} (hl : t.slots.length = t.cap) (hp : ∃ k, k ≤ 31 ∧ t.cap = 2 ^ k)
    (h : (t.shrinkF k).state = some t') : t'.slots.length = t'.cap ∧ ∀ i, t'.entry i = t.entry i := by
  unfold shrinkF at h
  dsimp only at h
  have hle := halve_le (t.highest t.cap) t.cap
  by_cases hc : halve (t.highest t.cap) t.cap = t.cap
  · rw [if_neg (by simpa using hc)] at h
    obtain ⟨h1, h2⟩ := resetLoopF_state _ _ _ _ h
    exact ⟨by rw [h1, h2]; exact hl, fun i => by unfold entry; rw [h1]⟩
  · rw [if_pos hc] at h
    cases k with
    | zero => cases h; exact ⟨hl, fun _ => rfl⟩
    | succ k =>
      obtain ⟨h1, h2⟩ := resetLoopF_state _ _ _ _ h
      refine ⟨by rw [h1, h2]; simp only [List.length_take]; omega, fun i => ?_⟩
      obtain ⟨t1, e1, -, hent, -⟩ := shrink_any hl hp
      rw [← hent i]
      unfold shrink resetHoles at e1
      dsimp only at e1
      obtain ⟨hs, g1, -, -⟩ := Table.resetLoop_ok (Table.halve (t.highest t.cap) t.cap)
        ({ slots := t.slots.take (Table.halve (t.highest t.cap) t.cap), cap := Table.halve (t.highest t.cap) t.cap, holes := [] } : Table α)
        (by simp only [List.length_take]; omega) (Nat.le_refl _) (by simp) (by simp)
      rw [g1] at e1
      cases e1
      unfold entry
      rw [h1]

end Table

theorem createObjectF_agrees (vm : VM) (k : Nat) : (createObjectF vm k).Agrees (createObject vm) := by
  cases k with
  | zero => trivial
  | succ k =>
    have h := Table.addF_agrees vm.objects Obj.init k
    unfold createObjectF createObject
    dsimp only
    cases ha : vm.objects.addF Obj.init k with
    | failed t => trivial
    | ub u =>
      rw [ha] at h
      have h : vm.objects.add Obj.init = .ub u := h
      show _ = _
      simp [M.bind_eq, h, liftR, get_run]
    | done k' r t =>
      rw [ha] at h
      have h : vm.objects.add Obj.init = .ok (r, t) := h
      cases r with
      | none =>
        dsimp only
        match k' with
        | 0 => trivial
        | 1 => trivial
        | k' + 2 =>
          have h3 : (liftR (vm.objects.add Obj.init) : M (Option Nat × Table Obj)) vm = .ok ((none, t), vm) := by
            have h0 : vm.objects.add Obj.init = .ok (none, t) := h
            simp [liftR, h0]
          show _ = _
          rw [M.bind_ok (get_run _), M.bind_ok h3]
          rfl
      | some i => show _ = _; simp [M.bind_eq, h, liftR, get_run]

theorem createObjectF_failed {vm vm' : VM} {k : Nat} (hw : vm.objects.WF) (h : createObjectF vm k = .failed vm') :
    vm'.objects.slots.length = vm'.objects.cap ∧ (∀ i, vm'.objects.entry i = vm.objects.entry i) ∧
      vm'.cleanupLog = vm.cleanupLog ∧ vm'.extTypes = vm.extTypes := by
  cases k with
  | zero => cases h; exact ⟨hw.len, fun _ => rfl, rfl, rfl⟩
  | succ k =>
    unfold createObjectF at h
    dsimp only at h
    cases ha : vm.objects.addF Obj.init k with
    | failed t =>
      rw [ha] at h
      cases h
      obtain ⟨h1, h2⟩ := Table.addF_failed hw.len hw.pow ha
      exact ⟨h1, h2, rfl, rfl⟩
    | ub u => rw [ha] at h; cases h
    | done k' r t =>
      rw [ha] at h
      cases r with
      | some i => cases h
      | none =>
        dsimp only at h
        match k', h with
        | 0, h => cases h; exact ⟨hw.len, fun _ => rfl, rfl, rfl⟩
        | 1, h => cases h; exact ⟨hw.len, fun _ => rfl, rfl, rfl⟩
        | k' + 2, h => cases h

/-! ## Sweeping -/

theorem cleanupObjectF_agrees (id : Nat) (o : Obj) (vm : VM) (k : Nat) :
    (cleanupObjectF id o vm k).Agrees (cleanupObject id o vm) := by
  unfold cleanupObjectF
  split
  · next h =>
    match k with
    | 0 => trivial
    | 1 => trivial
    | k + 2 =>
      show _ = _
      unfold cleanupObject
      simp [M.bind_eq, get_run, h.1, h.2, addError]
  · cases cleanupObject id o vm with
    | ok r => rfl
    | ub u => rfl

/-- Calling the cleanup function. -/
theorem cleanupObject_ok {id : Nat} {o : Obj} {vm vm' : VM} (h : cleanupObject id o vm = .ok ((), vm')) :
    vm'.objects = vm.objects ∧ vm'.extTypes = vm.extTypes ∧
      ((HasCleanup vm o ∧ vm'.cleanupLog = (id, o.extType, o.extData) :: vm.cleanupLog) ∨
        (¬ HasCleanup vm o ∧ vm'.cleanupLog = vm.cleanupLog)) := by
  unfold cleanupObject at h
  rw [M.bind_ok (get_run _)] at h
  unfold HasCleanup
  by_cases ht : o.extType = UINT_MAX
  · rw [if_neg (by simpa using ht)] at h
    cases h
    exact ⟨rfl, rfl, .inr ⟨fun hh => hh.1 ht, rfl⟩⟩
  · rw [if_pos ht] at h
    cases hx : vm.extTypes[o.extType]? with
    | none =>
      rw [hx] at h
      cases h
      exact ⟨rfl, rfl, .inr ⟨(by rintro ⟨-, t, h1, -⟩; cases h1), rfl⟩⟩
    | some t =>
      rw [hx] at h
      dsimp only at h
      by_cases hc : t.hasCleanup = true
      · rw [if_pos hc, M.bind_ok (modify_run _ _)] at h
        split at h
        · unfold freeCtx at h
          split at h
          · cases h
            exact ⟨rfl, rfl, .inl ⟨⟨ht, t, rfl, hc⟩, rfl⟩⟩
          · split at h
            · cases h
              exact ⟨rfl, rfl, .inl ⟨⟨ht, t, rfl, hc⟩, rfl⟩⟩
            · cases h
        · cases h
          exact ⟨rfl, rfl, .inl ⟨⟨ht, t, rfl, hc⟩, rfl⟩⟩
      · rw [if_neg hc] at h
        cases h
        exact ⟨rfl, rfl, .inr ⟨(by rintro ⟨-, t', h1, h2⟩; cases h1; exact hc h2), rfl⟩⟩

theorem Swept.refl {vm vm' : VM} (hl : vm'.objects.slots.length = vm'.objects.cap) (ho : vm'.objects = vm.objects)
    (ht : vm'.extTypes = vm.extTypes) (hc : vm'.cleanupLog = vm.cleanupLog) : Swept vm vm' [] where
  len := hl
  types := ht
  log := hc
  kept id o h := ⟨by rw [← ho]; exact h, nofun⟩
  gone id o h h' := by rw [ho, h] at h'; cases h'
  calls := nofun

theorem Swept.trans {a b c : VM} {l m : List (Nat × Nat × Option Nat)} (h : Swept a b l) (g : Swept b c m) : Swept a c (m ++ l) where
  len := g.len
  types := g.types.trans h.types
  log := by rw [g.log, h.log, List.append_assoc]
  kept id o hc := by
    obtain ⟨h1, h2⟩ := g.kept id o hc
    obtain ⟨h3, h4⟩ := h.kept id o h1
    refine ⟨h3, fun e he => ?_⟩
    rcases List.mem_append.mp he with he | he
    · exact h2 e he
    · exact h4 e he
  gone id o ha hc := by
    rw [List.filter_append]
    cases hb : b.objects.entry id with
    | none =>
      have hm : m.filter (fun e => e.1 = id) = [] := by
        rw [List.filter_eq_nil_iff]
        intro e he
        obtain ⟨o', ho'⟩ := g.calls e he
        simp only [decide_eq_true_eq]
        rintro rfl
        rw [hb] at ho'; cases ho'
      rw [hm, List.nil_append]
      exact h.gone id o ha hb
    | some o' =>
      obtain ⟨h1, h2⟩ := h.kept id o' hb
      rw [ha] at h1
      cases h1
      have hm : l.filter (fun e => e.1 = id) = [] := by
        rw [List.filter_eq_nil_iff]
        intro e he
        simpa using h2 e he
      rw [hm, List.append_nil]
      have := g.gone id o hb hc
      unfold HasCleanup at this ⊢
      rw [h.types] at this
      exact this
  calls e he := by
    rcases List.mem_append.mp he with he | he
    · obtain ⟨o, ho⟩ := g.calls e he
      exact ⟨o, (h.kept _ _ ho).1⟩
    · exact h.calls e he

/-- One object is deleted. -/
theorem Swept.one {vm vm1 : VM} {t : Table Obj} {i : Nat} {o : Obj} (hl : vm.objects.slots.length = vm.objects.cap)
    (hi : vm.objects.slots[i]? = some (some o)) (h : cleanupObject i o vm = .ok ((), vm1))
    (ht : t.slots = vm1.objects.slots.set i none ∧ t.cap = vm1.objects.cap) : ∃ l, Swept vm { vm1 with objects := t } l := by
  obtain ⟨h1, h2, h3⟩ := cleanupObject_ok h
  rw [h1] at ht
  have hent : ∀ j, t.entry j = if j = i then none else vm.objects.entry j := by
    intro j
    unfold Table.entry
    rw [ht.1, List.getElem?_set]
    by_cases hj : j = i
    · subst hj
      rw [if_pos rfl, if_pos rfl, if_pos (List.getElem?_eq_some_iff.mp hi).1]; rfl
    · rw [if_neg (Ne.symm hj), if_neg hj]
  have hent0 : vm.objects.entry i = some o := by simp [Table.entry, hi]
  have len : t.slots.length = t.cap := by rw [ht.1, ht.2, List.length_set, hl]
  have kept : ∀ id o, t.entry id = some o → vm.objects.entry id = some o ∧ id ≠ i := by
    intro id o h
    rw [hent] at h
    split at h
    · cases h
    · next hne => exact ⟨h, hne⟩
  have gone : ∀ id o', vm.objects.entry id = some o' → t.entry id = none → id = i ∧ o' = o := by
    intro id o' ha hb
    rw [hent] at hb
    split at hb
    · next hh => subst hh; rw [hent0] at ha; cases ha; exact ⟨rfl, rfl⟩
    · rw [ha] at hb; cases hb
  rcases h3 with ⟨hc, hlog⟩ | ⟨hc, hlog⟩
  · refine ⟨[(i, o.extType, o.extData)], len, h2, hlog, fun id o' hh => ?_, fun id o' ha hb => ?_, fun e he => ?_⟩
    · obtain ⟨k1, k2⟩ := kept id o' hh
      refine ⟨k1, fun e he => ?_⟩
      rw [List.mem_singleton] at he
      subst he
      exact Ne.symm k2
    · obtain ⟨rfl, rfl⟩ := gone id o' ha hb
      exact ⟨fun _ => by simp, fun hn => absurd hc hn⟩
    · rw [List.mem_singleton] at he
      subst he
      exact ⟨o, hent0⟩
  · refine ⟨[], len, h2, hlog, fun id o' hh => ⟨(kept id o' hh).1, nofun⟩, fun id o' ha hb => ?_, nofun⟩
    obtain ⟨rfl, rfl⟩ := gone id o' ha hb
    exact ⟨fun hn => absurd hn hc, fun _ => rfl⟩

theorem cleanOldObjectsF_agrees (pass n : Nat) : ∀ (i k : Nat) (vm : VM),
    (cleanOldObjectsF pass i n k vm).Agrees (cleanOldObjects pass i n vm) := by
  induction n with
  | zero => intro i k vm; rfl
  | succ n ih =>
    intro i k vm
    unfold cleanOldObjectsF
    rw [cleanOldObjects.eq_2, M.bind_ok (get_run _)]
    cases hs : vm.objects.slots[i]? with
    | none => rfl
    | some x =>
      cases x with
      | none => exact ih _ _ _
      | some o =>
        dsimp only
        by_cases hp : pass ≠ o.lastGCPass
        · rw [if_pos hp, if_pos hp]
          have h1 := cleanupObjectF_agrees i o vm k
          cases hc : cleanupObjectF i o vm k with
          | failed v => trivial
          | ub u =>
            rw [hc] at h1
            have h1 : cleanupObject i o vm = .ub u := h1
            show _ = _
            simp [M.bind_eq, h1]
          | done k' a v =>
            rw [hc] at h1
            have h1 : cleanupObject i o vm = .ok (a, v) := h1
            dsimp only
            rw [M.bind_ok h1, M.bind_ok (get_run _)]
            have h2 := Table.eraseF_agrees v.objects i k'
            cases he : v.objects.eraseF i k' with
            | failed t => trivial
            | ub u =>
              rw [he] at h2
              have h2 : v.objects.erase i = .ub u := h2
              show _ = _
              simp [M.bind_eq, h2, liftR]
            | done k2 b t =>
              rw [he] at h2
              have h2 : v.objects.erase i = .ok t := h2
              have h3 : (liftR (v.objects.erase i) : M (Table Obj)) v = .ok (t, v) := by simp [liftR, h2]
              dsimp only
              rw [M.bind_ok h3, M.bind_ok (modify_run _ _)]
              exact ih _ _ _
        · rw [if_neg hp, if_neg hp]
          exact ih _ _ _

theorem cleanOldObjectsF_swept (pass n : Nat) : ∀ (i k : Nat) (vm vm' : VM), vm.objects.slots.length = vm.objects.cap →
    (cleanOldObjectsF pass i n k vm).state = some vm' → ∃ l, Swept vm vm' l := by
  induction n with
  | zero => intro i k vm vm' hl h; cases h; exact ⟨[], .refl hl rfl rfl rfl⟩
  | succ n ih =>
    intro i k vm vm' hl h
    unfold cleanOldObjectsF at h
    cases hs : vm.objects.slots[i]? with
    | none => rw [hs] at h; cases h
    | some x =>
      rw [hs] at h
      cases x with
      | none => exact ih _ _ _ _ hl h
      | some o =>
        dsimp only at h
        by_cases hp : pass ≠ o.lastGCPass
        · rw [if_pos hp] at h
          have h1 := cleanupObjectF_agrees i o vm k
          cases hc : cleanupObjectF i o vm k with
          | failed v =>
            rw [hc] at h
            cases h
            unfold cleanupObjectF at hc
            split at hc
            · match k, hc with
              | 0, hc => cases hc; exact ⟨[], .refl hl rfl rfl rfl⟩
              | 1, hc => cases hc; exact ⟨[], .refl hl rfl rfl rfl⟩
              | k + 2, hc => cases hc
            · split at hc <;> cases hc
          | ub u => rw [hc] at h; cases h
          | done k' a v =>
            rw [hc] at h h1
            have h1 : cleanupObject i o vm = .ok (a, v) := h1
            dsimp only at h
            cases he : v.objects.eraseF i k' with
            | ub u => rw [he] at h; cases h
            | failed t =>
              rw [he] at h
              cases h
              exact Swept.one hl hs h1 (Table.eraseF_state (by rw [he]; rfl))
            | done k2 b t =>
              rw [he] at h
              dsimp only at h
              obtain ⟨l, hsw⟩ := Swept.one hl hs h1 (Table.eraseF_state (t' := t) (by rw [he]; rfl))
              obtain ⟨m, hsw2⟩ := ih _ _ _ _ hsw.len h
              exact ⟨_, hsw.trans hsw2⟩
        · rw [if_neg hp] at h
          exact ih _ _ _ _ hl h

/-! ## Subsystems -/

theorem initSubsystemF_agrees (s : Subsystem) (vm : VM) (k : Nat) : (initSubsystemF s vm k).Agrees (initSubsystem s vm) := by
  unfold initSubsystemF initSubsystem
  rw [M.bind_ok (get_run _)]
  by_cases he : vm.errors = []
  · rw [if_neg (by simpa using he), if_neg (by simpa using he)]
    cases hb : vm.subsystems[subBucket s.name]? with
    | none => rfl
    | some b =>
      dsimp only
      cases findSub s.name b with
      | some x => rfl
      | none =>
        match k with
        | 0 => trivial
        | 1 => trivial
        | k + 2 => rfl
  · rw [if_pos he, if_pos he]
    match k with
    | 0 => trivial
    | 1 => trivial
    | k + 2 => rfl

/-- A failed attempt leaves the registries alone. -/
theorem initSubsystemF_failed {s : Subsystem} {vm vm' : VM} {k : Nat} (h : initSubsystemF s vm k = .failed vm') :
    vm' = vm ∨ ∃ e, vm' = { vm with errors := vm.errors ++ [e] } := by
  unfold initSubsystemF at h
  by_cases he : vm.errors = []
  · rw [if_neg (by simpa using he)] at h
    cases hb : vm.subsystems[subBucket s.name]? with
    | none => rw [hb] at h; cases h
    | some b =>
      rw [hb] at h
      dsimp only at h
      cases hf : findSub s.name b with
      | some x => rw [hf] at h; cases h
      | none =>
        rw [hf] at h
        match k, h with
        | 0, h => cases h; exact .inl rfl
        | 1, h => cases h; exact .inl rfl
        | k + 2, h => cases h
  · rw [if_pos he] at h
    match k, h with
    | 0, h => cases h; exact .inl rfl
    | 1, h => cases h; exact .inr ⟨_, rfl⟩
    | k + 2, h => cases h

end Nk
