import Verif.Spec.Machine
import Mathlib.Data.List.Nodup
/-!
# Facts about the handle table
-/
namespace Nk.Table
variable {α : Type}

theorem WF.capPos {t : Table α} (h : t.WF) : 0 < t.cap := by
  obtain ⟨k, _, hk⟩ := h.pow
  rw [hk]; exact Nat.two_pow_pos k

theorem WF.capLe {t : Table α} (h : t.WF) : t.cap ≤ 2147483648 := by
  obtain ⟨k, hk, he⟩ := h.pow
  rw [he]
  calc 2 ^ k ≤ 2 ^ 31 := Nat.pow_le_pow_right (by omega) hk
    _ = 2147483648 := rfl

theorem entry_some_lt {t : Table α} {i : Nat} {x : α} (h : t.entry i = some x) :
    i < t.slots.length ∧ t.slots[i]? = some (some x) := by
  unfold entry at h
  cases hs : t.slots[i]? with
  | none => simp [hs] at h
  | some o =>
    simp [hs] at h
    subst h
    exact ⟨(List.getElem?_eq_some_iff.mp hs).1, rfl⟩

theorem get_eq {t : Table α} (h : t.WF) (i : Nat) : t.get i = .ok (t.entry i) := by
  unfold Table.get Table.read entry
  by_cases hi : i ≥ t.cap
  · have : t.slots[i]? = none := by rw [List.getElem?_eq_none_iff]; have := h.len; omega
    simp [hi, this]
  · have hlt : i < t.slots.length := by have := h.len; omega
    have : t.slots[i]? = some t.slots[i] := List.getElem?_eq_getElem hlt
    simp [hi, this]

theorem entry_lt_cap {t : Table α} (h : t.WF) {i : Nat} {x : α} (he : t.entry i = some x) :
    i < t.cap := by
  have := (entry_some_lt he).1
  have := h.len
  omega

theorem init_wf : (init : Table α).WF where
  len := rfl
  pow := ⟨0, by omega, rfl⟩
  nodup := by simp [init]
  holes := by
    intro i
    simp only [init, List.mem_singleton]
    constructor
    · rintro rfl; rfl
    · intro h
      have := (List.getElem?_eq_some_iff.mp h).1
      simp at this; omega

@[simp] theorem init_entry (i : Nat) : (init : Table α).entry i = none := by
  unfold entry init
  cases i <;> rfl

/-- Overwriting a live entry. -/
theorem write_live {t : Table α} (h : t.WF) {i : Nat} {x : α} (he : t.entry i = some x) (y : α) :
    t.write i (some y) = .ok { t with slots := t.slots.set i (some y) } ∧
      WF { t with slots := t.slots.set i (some y) } ∧
      ∀ j, entry { t with slots := t.slots.set i (some y) } j = if j = i then some y else t.entry j := by
  obtain ⟨hlt, hs⟩ := entry_some_lt he
  refine ⟨by simp [write, hlt], ⟨by simpa using h.len, h.pow, h.nodup, ?_⟩, ?_⟩
  · intro j
    rw [h.holes j]
    simp only [List.getElem?_set]
    by_cases hij : i = j
    · subst hij
      rw [hs]
      simp [hlt]
    · simp [hij]
  · intro j
    unfold entry
    simp only [List.getElem?_set]
    by_cases hij : i = j
    · subst hij
      simp [hlt]
    · have : ¬ j = i := fun e => hij e.symm
      simp [hij, this]

/-- `erase` on a live entry. -/
theorem erase_live {t : Table α} (h : t.WF) {i : Nat} {x : α} (he : t.entry i = some x) :
    t.erase i = .ok { slots := t.slots.set i none, cap := t.cap, holes := i :: t.holes } ∧
      WF ({ slots := t.slots.set i none, cap := t.cap, holes := i :: t.holes } : Table α) ∧
      ∀ j, entry ({ slots := t.slots.set i none, cap := t.cap, holes := i :: t.holes } : Table α) j =
        if j = i then none else t.entry j := by
  obtain ⟨hlt, hs⟩ := entry_some_lt he
  have hcap : i < t.cap := by have := h.len; omega
  refine ⟨?_, ⟨by simpa using h.len, h.pow, ?_, ?_⟩, ?_⟩
  · have hr : t.read i = .ok (some x) := by simp [read, hs]
    have hr2 : ({ t with slots := t.slots.set i none } : Table α).read i = .ok none := by
      simp [read, hlt]
    simp [erase, hcap, hr, write, hlt, createHole, hr2]
  · refine List.nodup_cons.mpr ⟨?_, h.nodup⟩
    intro hm
    rw [h.holes i, hs] at hm
    simp at hm
  · intro j
    simp only [List.mem_cons, List.getElem?_set]
    by_cases hij : i = j
    · subst hij
      simp [hlt]
    · have : ¬ j = i := fun e => hij e.symm
      simp [hij, this, h.holes j]
  · intro j
    unfold entry
    simp only [List.getElem?_set]
    by_cases hij : i = j
    · subst hij
      simp [hlt]
    · have : ¬ j = i := fun e => hij e.symm
      simp [hij, this]

theorem makeHoles_ok (t : Table α) (lo n : Nat)
    (hn : ∀ j, lo ≤ j → j < lo + n → j < t.cap ∧ t.slots[j]? = some none) :
    t.makeHoles lo n =
      .ok { t with holes := (List.range n).map (fun j => lo + j) ++ t.holes } := by
  induction n generalizing t with
  | zero => simp [makeHoles]
  | succ n ih =>
    have h1 := hn (lo + n) (by omega) (by omega)
    have hr : t.read (lo + n) = .ok none := by simp [read, h1.2]
    have hc : t.createHole (lo + n) = .ok { t with holes := (lo + n) :: t.holes } := by
      simp [createHole, h1.1, hr]
    simp only [makeHoles, hc, Res.ok_bind]
    rw [ih { t with holes := (lo + n) :: t.holes } (by
      intro j hj1 hj2; exact hn j hj1 (by omega))]
    simp [List.range_succ]

/-- What `nkiTableAddEntry` does on a consistent table. -/
theorem add_spec {t : Table α} (h : t.WF) (x : α) :
    (∃ i t', t.add x = .ok (some i, t') ∧ t'.WF ∧ t.entry i = none ∧ i < t'.cap ∧
        (∀ j, t'.entry j = if j = i then some x else t.entry j) ∧
        ((∃ j, j < t.cap ∧ t.entry j = none) → t'.cap = t.cap) ∧ t.cap ≤ t'.cap) ∨
    (t.add x = .ok (none, t) ∧ t.cap = 2147483648 ∧ ∀ j, j < t.cap → t.entry j ≠ none) := by
  cases hh : t.holes with
  | cons i hs =>
    left
    have hi : t.slots[i]? = some none := (h.holes i).mp (by rw [hh]; simp)
    have hlt : i < t.slots.length := (List.getElem?_eq_some_iff.mp hi).1
    refine ⟨i, { slots := t.slots.set i (some x), cap := t.cap, holes := hs }, ?_, ?_, ?_, ?_, ?_, ?_, ?_⟩
    · simp [add, hh, write, hlt]
    · have hn := h.nodup
      rw [hh] at hn
      refine ⟨by simpa using h.len, h.pow, (List.nodup_cons.mp hn).2, ?_⟩
      intro j
      simp only [List.getElem?_set]
      by_cases hij : i = j
      · subst hij
        simp [hlt, (List.nodup_cons.mp hn).1]
      · have hj : ¬ j = i := fun e => hij e.symm
        have := h.holes j
        rw [hh] at this
        simp only [List.mem_cons, hj, false_or] at this
        simp [hij, this]
    · unfold entry; simp [hi]
    · show i < t.cap
      have := h.len; omega
    · intro j
      unfold entry
      simp only [List.getElem?_set]
      by_cases hij : i = j
      · subst hij; simp [hlt]
      · have hj : ¬ j = i := fun e => hij e.symm
        simp [hij, hj]
    · intro _; rfl
    · exact Nat.le_refl _
  | nil =>
    have hfull : ∀ j, j < t.cap → t.entry j ≠ none := by
      intro j hj he
      have hlt : j < t.slots.length := by have := h.len; omega
      have hs : t.slots[j]? = some t.slots[j] := List.getElem?_eq_getElem hlt
      have : t.slots[j]? = some none := by
        unfold entry at he
        rw [hs] at he ⊢
        simpa using he
      have := (h.holes j).mpr this
      rw [hh] at this
      simp at this
    obtain ⟨k, hk, hcap⟩ := h.pow
    by_cases hk31 : k = 31
    · right
      subst hk31
      have : t.cap = 2147483648 := by rw [hcap]
      refine ⟨?_, this, hfull⟩
      simp [add, hh, this, u32, U32]
    · left
      have hk' : k ≤ 30 := by omega
      have hle : t.cap ≤ 1073741824 := by
        rw [hcap]
        calc 2 ^ k ≤ 2 ^ 30 := Nat.pow_le_pow_right (by omega) hk'
          _ = 1073741824 := rfl
      have hpos := h.capPos
      have hnew : u32 (t.cap * 2) = t.cap * 2 := by
        unfold u32 U32; omega
      have htake : t.slots.take t.cap = t.slots := by
        apply List.take_of_length_le; have := h.len; omega
      let t1 : Table α :=
        { slots := t.slots ++ List.replicate (t.cap * 2 - t.cap) none, cap := t.cap * 2, holes := [] }
      have hgetlo : ∀ j, j < t.cap → t1.slots[j]? = t.slots[j]? := by
        intro j hj
        show (t.slots ++ _)[j]? = _
        rw [List.getElem?_append_left]
        have := h.len; omega
      have hgethi : ∀ j, t.cap ≤ j → j < t.cap * 2 → t1.slots[j]? = some none := by
        intro j hj1 hj2
        show (t.slots ++ _)[j]? = _
        rw [List.getElem?_append_right (by have := h.len; omega)]
        rw [List.getElem?_replicate]
        have := h.len
        have : j - t.slots.length < t.cap * 2 - t.cap := by omega
        simp [this]
      have hlen1 : t1.slots.length = t.cap * 2 := by
        show (t.slots ++ _).length = _
        have := h.len
        simp; omega
      have hmk : t1.makeHoles (t.cap + 1) (t.cap * 2 - (t.cap + 1)) = .ok { t1 with
          holes := (List.range (t.cap * 2 - (t.cap + 1))).map (fun j => t.cap + 1 + j) ++ t1.holes } := by
        apply makeHoles_ok
        intro j hj1 hj2
        exact ⟨by show j < t.cap * 2; omega, hgethi j (by omega) (by omega)⟩
      have hset : ∀ j, (t1.slots.set t.cap (some x))[j]? =
          if j = t.cap then some (some x) else t1.slots[j]? := by
        intro j
        rw [List.getElem?_set]
        by_cases hj : t.cap = j
        · subst hj
          have : t.cap < t1.slots.length := by omega
          simp [this]
        · have : ¬ j = t.cap := fun e => hj e.symm
          simp [hj, this]
      refine ⟨t.cap, { slots := t1.slots.set t.cap (some x), cap := t.cap * 2,
                        holes := (List.range (t.cap * 2 - (t.cap + 1))).map (fun j => t.cap + 1 + j) },
        ?_, ?_, ?_, ?_, ?_, ?_, ?_⟩
      · have hne : ¬ (t.cap * 2 = 0) := by omega
        have h1 : ({ slots := t.slots.take t.cap ++ List.replicate (t.cap * 2 - t.cap) none,
                     cap := t.cap * 2, holes := t.holes } : Table α) = t1 := by
          simp [t1, htake, hh]
        simp only [add, hh, hnew, hne, if_false]
        simp only [hh] at h1
        rw [h1, hmk]
        have hl := h.len
        have : t.cap < t.slots.length + (t.cap * 2 - t.cap) := by omega
        simp [write, this, t1]
      · refine ⟨by simpa using hlen1, ⟨k + 1, by omega, ?_⟩, ?_, ?_⟩
        · show t.cap * 2 = _
          rw [hcap, Nat.pow_succ]
        · refine List.Nodup.map ?_ List.nodup_range
          intro a b hab
          simpa using hab
        · intro j
          simp only [List.mem_map, List.mem_range]
          rw [hset j]
          by_cases hj : j = t.cap
          · subst hj
            simp
            intro a _ h2; omega
          · simp only [hj, if_false]
            by_cases hjlt : j < t.cap
            · rw [hgetlo j hjlt]
              have hlt : j < t.slots.length := by have := h.len; omega
              constructor
              · rintro ⟨a, _, rfl⟩; omega
              · intro hn
                exfalso
                apply hfull j hjlt
                unfold entry; simp [hn]
            · by_cases hj2 : j < t.cap * 2
              · rw [hgethi j (by omega) hj2]
                simp
                exact ⟨j - (t.cap + 1), by omega, by omega⟩
              · have : t1.slots[j]? = none := by
                  rw [List.getElem?_eq_none_iff]; omega
                rw [this]
                simp
                intro a ha he; omega
      · unfold entry
        have : t.slots[t.cap]? = none := by
          rw [List.getElem?_eq_none_iff]; have := h.len; omega
        simp [this]
      · show t.cap < t.cap * 2; omega
      · intro j
        unfold entry
        rw [hset j]
        by_cases hj : j = t.cap
        · simp [hj]
        · simp only [hj, if_false]
          by_cases hjlt : j < t.cap
          · rw [hgetlo j hjlt]
          · have h0 : t.slots[j]? = none := by
              rw [List.getElem?_eq_none_iff]; have := h.len; omega
            by_cases hj2 : j < t.cap * 2
            · rw [hgethi j (by omega) hj2, h0]; rfl
            · have : t1.slots[j]? = none := by
                rw [List.getElem?_eq_none_iff]; omega
              rw [this, h0]
      · rintro ⟨j, hj, hjn⟩
        exact absurd hjn (hfull j hj)
      · show t.cap ≤ t.cap * 2; omega

theorem resetLoop_ok (n : Nat) (t : Table α) (hn : n ≤ t.slots.length) (hc : n ≤ t.cap)
    (hnd : t.holes.Nodup) (hge : ∀ i ∈ t.holes, n ≤ i) :
    ∃ hs, t.resetLoop n = .ok { t with holes := hs } ∧ hs.Nodup ∧
      ∀ i, i ∈ hs ↔ (i ∈ t.holes ∨ (i < n ∧ t.slots[i]? = some none)) := by
  induction n generalizing t with
  | zero => exact ⟨t.holes, rfl, hnd, by simp⟩
  | succ n ih =>
    have hs : t.slots[n]? = some t.slots[n] := List.getElem?_eq_getElem (by omega)
    have hr : t.read n = .ok t.slots[n] := by simp only [read, hs]
    cases hx : t.slots[n] with
    | none =>
      rw [hx] at hr hs
      have hcr : t.createHole n = .ok { t with holes := n :: t.holes } := by
        simp [createHole, hr]; omega
      obtain ⟨hs', h1, h2, h3⟩ := ih { t with holes := n :: t.holes } (by simpa using by omega) (by simpa using by omega)
        (by
          refine List.nodup_cons.mpr ⟨?_, hnd⟩
          intro hm
          have := hge n hm
          omega)
        (by
          intro i hi
          rcases List.mem_cons.mp hi with rfl | hi
          · exact Nat.le_refl _
          · have := hge i hi; omega)
      refine ⟨hs', ?_, h2, ?_⟩
      · simp only [resetLoop, hr, hcr, Res.ok_bind]
        exact h1
      · intro i
        rw [h3 i]
        simp only [List.mem_cons]
        constructor
        · rintro ((rfl | h) | ⟨h, h'⟩)
          · exact Or.inr ⟨by omega, hs⟩
          · exact Or.inl h
          · exact Or.inr ⟨by omega, h'⟩
        · rintro (h | ⟨h, h'⟩)
          · exact Or.inl (Or.inr h)
          · by_cases he : i = n
            · exact Or.inl (Or.inl he)
            · exact Or.inr ⟨by omega, h'⟩
    | some x =>
      rw [hx] at hr hs
      obtain ⟨hs', h1, h2, h3⟩ := ih t (by omega) (by omega) hnd (by
          intro i hi
          have := hge i hi; omega)
      refine ⟨hs', ?_, h2, ?_⟩
      · simp only [resetLoop, hr]
        exact h1
      · intro i
        rw [h3 i]
        constructor
        · rintro (h | ⟨h, h'⟩)
          · exact Or.inl h
          · exact Or.inr ⟨by omega, h'⟩
        · rintro (h | ⟨h, h'⟩)
          · exact Or.inl h
          · by_cases he : i = n
            · subst he; rw [hs] at h'; simp at h'
            · exact Or.inr ⟨by omega, h'⟩

theorem highest_spec (t : Table α) (n : Nat) (i : Nat) (hi : i < n) (x : α)
    (hx : t.slots[i]? = some (some x)) : i ≤ t.highest n := by
  induction n with
  | zero => omega
  | succ n ih =>
    unfold highest
    by_cases he : i = n
    · subst he; simp [hx]
    · have := ih (by omega)
      split
      · omega
      · exact this

theorem highest_lt (t : Table α) (n : Nat) (hn : 0 < n) : t.highest n < n := by
  induction n with
  | zero => omega
  | succ n ih =>
    unfold highest
    split
    · omega
    · by_cases h : n = 0
      · subst h; simp [highest]
      · have := ih (by omega); omega

theorem halve_spec (hi : Nat) (k : Nat) (h : hi < 2 ^ k) :
    ∃ k', k' ≤ k ∧ halve hi (2 ^ k) = 2 ^ k' ∧ hi < 2 ^ k' := by
  induction k with
  | zero =>
    refine ⟨0, Nat.le_refl _, ?_, h⟩
    unfold halve
    simp
  | succ k ih =>
    unfold halve
    have hd : 2 ^ (k + 1) / 2 = 2 ^ k := by
      rw [Nat.pow_succ]; exact Nat.mul_div_cancel _ (by omega)
    rw [hd]
    by_cases hc : 2 ^ k > hi
    · simp only [hc, dif_pos]
      obtain ⟨k', h1, h2, h3⟩ := ih hc
      exact ⟨k', by omega, h2, h3⟩
    · simp only [hc]
      exact ⟨k + 1, Nat.le_refl _, rfl, h⟩

/-- `nkiTableShrink` keeps all entries where they are. -/
theorem shrink_spec {t : Table α} (h : t.WF) :
    ∃ t', t.shrink = .ok t' ∧ t'.WF ∧ (∀ i, t'.entry i = t.entry i) ∧ t'.cap ≤ t.cap := by
  obtain ⟨k, hk, hcap⟩ := h.pow
  have hhi := highest_lt t t.cap h.capPos
  obtain ⟨k', hk', hc', hlt⟩ := halve_spec (t.highest t.cap) k (by rw [← hcap]; exact hhi)
  rw [← hcap] at hc'
  have hle : 2 ^ k' ≤ t.cap := by rw [hcap]; exact Nat.pow_le_pow_right (by omega) hk'
  have hlen : (t.slots.take (2 ^ k')).length = 2 ^ k' := by
    rw [List.length_take]; have := h.len; omega
  obtain ⟨hs, h1, h2, h3⟩ := resetLoop_ok (2 ^ k')
    ({ slots := t.slots.take (2 ^ k'), cap := 2 ^ k', holes := [] } : Table α)
    (by simp only [hlen]; exact Nat.le_refl _) (Nat.le_refl _) (by simp) (by simp)
  refine ⟨{ slots := t.slots.take (2 ^ k'), cap := 2 ^ k', holes := hs }, ?_, ?_, ?_, hle⟩
  · simp only [shrink, hc', resetHoles]
    exact h1
  · refine ⟨hlen, ⟨k', by omega, rfl⟩, h2, ?_⟩
    intro i
    rw [h3 i]
    constructor
    · rintro (h | h)
      · simp at h
      · exact h.2
    · intro h
      have h' := (List.getElem?_eq_some_iff.mp h).1
      exact Or.inr ⟨by rw [← hlen]; exact h', h⟩
  · intro i
    unfold entry
    simp only [List.getElem?_take]
    by_cases hi : i < 2 ^ k'
    · simp [hi]
    · simp only [hi, if_false]
      cases hx : t.slots[i]? with
      | none => rfl
      | some o =>
        cases o with
        | none => rfl
        | some x =>
          exfalso
          have : i < t.cap := by have := (List.getElem?_eq_some_iff.mp hx).1; have := h.len; omega
          have := highest_spec t t.cap i this x hx
          omega

end Nk.Table
