import Verif.Lemmas.Objects
/-!
# Objects some of whose elements are not counted

Adding an element to an object that is full leaves the element in its bucket without counting it.  The lemmas about objects
again, for objects of which `d` elements are not counted.
-/
namespace Nk

variable (F : FloatOps) {d : Nat}

/-- As `OWF`, but `d` elements are not counted. -/
structure Loose (vm : VM) (o : Obj) (d : Nat) : Prop where
  len : o.buckets.length = 16
  key : ∀ (b : Nat) (es : List (Value × Value)), o.buckets[b]? = some es → ∀ e ∈ es,
    (∃ k, keyOf vm e.1 = some k) ∧ slot vm e.1 = b ∧ e.2 ≠ .nil
  nodup : ∀ (b : Nat) (es : List (Value × Value)), o.buckets[b]? = some es →
    es.Pairwise (fun x y => keyOf vm x.1 ≠ keyOf vm y.1)
  size : o.size + d = (o.buckets.map List.length).sum
  lt : o.size < 4294967296

theorem OWF.loose {vm : VM} {o : Obj} (h : OWF vm o) : Loose vm o 0 := ⟨h.len, h.key, h.nodup, h.size, h.lt⟩

theorem Loose.replace {vm : VM} {o : Obj} (h : Loose vm o d) {b : Nat} {es es' : List (Value × Value)}
    (hb : o.buckets[b]? = some es) {n d' : Nat}
    (hk : ∀ e ∈ es', (∃ k, keyOf vm e.1 = some k) ∧ slot vm e.1 = b ∧ e.2 ≠ .nil)
    (hn : es'.Pairwise (fun x y => keyOf vm x.1 ≠ keyOf vm y.1))
    (hs : n + d' + es.length = o.size + d + es'.length) (hlt : n < 4294967296) :
    Loose vm { o with buckets := o.buckets.set b es', size := n } d' := by
  have hbl : b < o.buckets.length := (List.getElem?_eq_some_iff.mp hb).1
  refine ⟨by simpa using h.len, ?_, ?_, ?_, hlt⟩
  · intro b' es2 hb'
    simp only [List.getElem?_set] at hb'
    by_cases e : b = b'
    · subst e
      simp [hbl] at hb'
      subst hb'; exact hk
    · simp [e] at hb'
      exact h.key b' es2 hb'
  · intro b' es2 hb'
    simp only [List.getElem?_set] at hb'
    by_cases e : b = b'
    · subst e
      simp [hbl] at hb'
      subst hb'; exact hn
    · simp [e] at hb'
      exact h.nodup b' es2 hb'
  · have : (o.buckets.map List.length)[b]? = some es.length := by simp [hb]
    have h2 := sum_set (b := es'.length) this
    have h3 := h.size
    show n + d' = ((o.buckets.set b es').map List.length).sum
    rw [List.map_set]
    omega

theorem Has.in_loose {vm : VM} (hs : StrWF vm) {o : Obj} (h : Loose vm o d) {key : Value} {k : Key}
    (hk : keyOf vm key = some k) {es : List (Value × Value)} (hb : o.buckets[slot vm key]? = some es)
    {v : Value} : Has vm o k v ↔ ∃ e ∈ es, keyOf vm e.1 = some k ∧ e.2 = v := by
  constructor
  · rintro ⟨b, es2, h1, e, he, h2, h3⟩
    have hsl := (h.key b es2 h1 e he).2.1
    have : b = slot vm key := by rw [← hsl]; exact slot_key hs h2 hk
    subst this
    rw [hb] at h1; cases h1
    exact ⟨e, he, h2, h3⟩
  · intro h2
    exact ⟨_, es, hb, h2⟩

theorem Loose.bucket {vm : VM} {o : Obj} (h : Loose vm o d) (v : Value) :
    ∃ es, o.buckets[slot vm v]? = some es := by
  have := slot_lt vm v
  have := h.len
  exact ⟨o.buckets[slot vm v], List.getElem?_eq_getElem (by omega)⟩

theorem Loose.congr {vm vm' : VM} {o : Obj} (h : Loose vm o d)
    (hk : ∀ (b : Nat) (es : List (Value × Value)), o.buckets[b]? = some es → ∀ e ∈ es,
      keyOf vm' e.1 = keyOf vm e.1 ∧ slot vm' e.1 = slot vm e.1) : Loose vm' o d := by
  refine ⟨h.len, fun b es hb e he => ?_, fun b es hb => ?_, h.size, h.lt⟩
  · rw [(hk b es hb e he).1, (hk b es hb e he).2]
    exact h.key b es hb e he
  · refine (h.nodup b es hb).imp_of_mem ?_
    intro x y hx hy hne
    rw [(hk b es hb x hx).1, (hk b es hb y hy).1]
    exact hne

theorem lookup_loose {vm : VM} (hs : StrWF vm) (ho : vm.objects.WF) {id : Nat} {o : Obj}
    (he : vm.objects.entry id = some o) (h : Loose vm o d) {key : Value} {k : Key}
    (hk : keyOf vm key = some k) :
    (∃ v, lookupField F id key vm = .ok (some v, vm) ∧ Has vm o k v) ∨
    (lookupField F id key vm = .ok (none, vm) ∧ ∀ v, ¬ Has vm o k v) := by
  obtain ⟨es, hb⟩ := h.bucket key
  have hf := findElem_run F hs.tab hk es 0 (fun e he => (h.key _ _ hb e he).1)
  simp only [Nat.add_zero, Option.map_id'] at hf
  cases hp : es.findIdx? (isKey vm k) with
  | none =>
    right
    rw [hp] at hf
    constructor
    · simp [lookupField, findOrAddEntry, M.bind_eq, bucketOf_run hs.tab, getObj_run ho, he, hb, hf]
    · intro v hv
      obtain ⟨e, hm, h1, _⟩ := (Has.in_loose hs h hk hb).mp hv
      have := List.findIdx?_eq_none_iff.mp hp e hm
      simp [isKey, h1] at this
  | some n =>
    left
    rw [hp] at hf
    obtain ⟨hlt, h1, _⟩ := List.findIdx?_eq_some_iff_getElem.mp hp
    refine ⟨es[n].2, ?_, ?_⟩
    · simp [lookupField, findOrAddEntry, M.bind_eq, bucketOf_run hs.tab, getObj_run ho, he, hb, hf, readElem, hlt]
    · refine (Has.in_loose hs h hk hb).mpr ⟨es[n], by simp, ?_, rfl⟩
      simpa [isKey] using h1

theorem clear_loose {vm : VM} (hs : StrWF vm) (ho : vm.objects.WF) {id : Nat} {o : Obj}
    (he : vm.objects.entry id = some o) (h : Loose vm o d) {key : Value} {k : Key}
    (hk : keyOf vm key = some k) :
    (o.size = 0 → (∃ v, Has vm o k v) → clearEntry F id key vm = .ub .assert) ∧
    (o.size ≠ 0 ∨ (∀ v, ¬ Has vm o k v) → ∃ o', clearEntry F id key vm = .ok ((), vm.setO id o') ∧ Loose vm o' d ∧ o'.size ≤ o.size ∧
      (∀ k' v, Has vm o' k' v ↔ k' ≠ k ∧ Has vm o k' v) ∧
      o' = { o with buckets := o'.buckets, size := o'.size }) := by
  obtain ⟨es, hb⟩ := h.bucket key
  have hf := findElem_run F hs.tab hk es 0 (fun e he => (h.key _ _ hb e he).1)
  simp only [Nat.add_zero, Option.map_id'] at hf
  cases hp : es.findIdx? (isKey vm k) with
  | none =>
    rw [hp] at hf
    have hno : ∀ v, ¬ Has vm o k v := by
      intro v hv
      obtain ⟨e, hm, h1, _⟩ := (Has.in_loose hs h hk hb).mp hv
      have := List.findIdx?_eq_none_iff.mp hp e hm
      simp [isKey, h1] at this
    refine ⟨fun _ ⟨v, hv⟩ => absurd hv (hno v), fun _ => ⟨o, ?_, h, Nat.le_refl _, ?_, rfl⟩⟩
    · have : vm.setO id o = vm := by
        have := Table.entry_slots he
        unfold VM.setO
        rw [set_same this]
      rw [this]
      simp [clearEntry, M.bind_eq, bucketOf_run hs.tab, getObj_run ho, he, hb, hf]
    · intro k' v
      constructor
      · intro hv; exact ⟨by rintro rfl; exact hno v hv, hv⟩
      · exact fun h => h.2
  | some n =>
    rw [hp] at hf
    obtain ⟨hlt, h1, _⟩ := List.findIdx?_eq_some_iff_getElem.mp hp
    have h1 : keyOf vm es[n].1 = some k := by simpa [isKey] using h1
    have hmem : ∀ e, e ∈ es.eraseIdx n ↔ (e ∈ es ∧ keyOf vm e.1 ≠ some k) := by
      intro e
      have hpw := h.nodup _ _ hb
      rw [List.mem_eraseIdx_iff_getElem]
      constructor
      · rintro ⟨i, hi, hne, rfl⟩
        refine ⟨by simp, fun hc => ?_⟩
        have hpw := List.pairwise_iff_getElem.mp hpw
        rcases Nat.lt_or_gt_of_ne hne with hl | hl
        · exact hpw i n hi hlt hl (hc.trans h1.symm)
        · exact hpw n i hlt hi hl (h1.trans hc.symm)
      · rintro ⟨hm, hne⟩
        obtain ⟨i, hi, rfl⟩ := List.getElem_of_mem hm
        exact ⟨i, hi, by rintro rfl; exact hne h1, rfl⟩
    refine ⟨fun hz _ => ?_, fun hsz => ?_⟩
    · simp [clearEntry, M.bind_eq, bucketOf_run hs.tab, getObj_run ho, he, hb, hf, hz]
    have hsz : ¬ o.size = 0 := by
      rcases hsz with hsz | hno
      · exact hsz
      · exact absurd ((Has.in_loose hs h hk hb).mpr ⟨es[n], by simp, h1, rfl⟩) (hno _)
    refine ⟨_, ?_, Loose.replace h hb (es' := es.eraseIdx n) (n := o.size - 1) ?_ ?_ ?_ ?_, ?_, ?_, rfl⟩
    · simp [clearEntry, M.bind_eq, bucketOf_run hs.tab, getObj_run ho, he, hb, hf, hsz, setObj_run ho he]
    · exact fun e hm => h.key _ _ hb e ((hmem e).mp hm).1
    · exact (h.nodup _ _ hb).sublist (List.eraseIdx_sublist _ _)
    · rw [List.length_eraseIdx_of_lt hlt]; omega
    · have := h.lt; omega
    · simp
    · intro k' v
      rw [Has.replace hb]
      constructor
      · rintro (⟨e, hm, h2, h3⟩ | ⟨b', es2, hne, h2, e, hm, h3, h4⟩)
        · have := (hmem e).mp hm
          exact ⟨by rintro rfl; exact this.2 h2, _, es, hb, e, this.1, h2, h3⟩
        · refine ⟨?_, b', es2, h2, e, hm, h3, h4⟩
          rintro rfl
          have := (h.key _ _ h2 e hm).2.1
          exact hne (by rw [← this]; exact slot_key hs h3 hk)
      · rintro ⟨hne, b', es2, h2, e, hm, h3, h4⟩
        by_cases hbb : b' = slot vm key
        · subst hbb
          rw [hb] at h2; cases h2
          exact Or.inl ⟨e, (hmem e).mpr ⟨hm, by rw [h3]; simpa using hne⟩, h3, h4⟩
        · exact Or.inr ⟨b', es2, hbb, h2, e, hm, h3, h4⟩

theorem assign_loose {vm : VM} (hs : StrWF vm) (ho : vm.objects.WF) {id : Nat} {o : Obj}
    (he : vm.objects.entry id = some o) (h : Loose vm o d) {key v : Value} {k : Key}
    (hk : keyOf vm key = some k) (hv : v ≠ .nil) :
    (((∃ w, Has vm o k w) ∨ (o.size + 1 < 4294967296 ∧ o.size + 1 ≤ vm.limits.maxFields)) →
      ∃ o', storeField F id key v vm = .ok ((), vm.setO id o') ∧ Loose vm o' d ∧
        (∀ k' w, Has vm o' k' w ↔ (k' = k ∧ w = v) ∨ (k' ≠ k ∧ Has vm o k' w)) ∧
        (o'.size ≤ max o.size vm.limits.maxFields) ∧
        o' = { o with buckets := o'.buckets, size := o'.size }) ∧
    ((∀ w, ¬ Has vm o k w) → ¬ (o.size + 1 < 4294967296 ∧ o.size + 1 ≤ vm.limits.maxFields) →
      ∃ o', storeField F id key v vm = .ok ((), (vm.setO id o').addErr "Reached object field count limit.") ∧ Loose vm o' (d + 1) ∧
        (∀ k' w, Has vm o' k' w ↔ (k' = k ∧ w = .int 0) ∨ (k' ≠ k ∧ Has vm o k' w)) ∧ o'.size = o.size ∧
        o' = { o with buckets := o'.buckets, size := o'.size }) := by
  obtain ⟨es, hb⟩ := h.bucket key
  have hbl : slot vm key < o.buckets.length := (List.getElem?_eq_some_iff.mp hb).1
  have hf := findElem_run F hs.tab hk es 0 (fun e he => (h.key _ _ hb e he).1)
  simp only [Nat.add_zero, Option.map_id'] at hf
  have hother : ∀ (v : Value) (es' : List (Value × Value)) (n : Nat),
      (∀ k' w, (∃ e ∈ es', keyOf vm e.1 = some k' ∧ e.2 = w) ↔
        (k' = k ∧ w = v) ∨ (k' ≠ k ∧ ∃ e ∈ es, keyOf vm e.1 = some k' ∧ e.2 = w)) →
      ∀ k' w, Has vm { o with buckets := o.buckets.set (slot vm key) es', size := n } k' w ↔
        (k' = k ∧ w = v) ∨ (k' ≠ k ∧ Has vm o k' w) := by
    intro v es' n hes k' w
    rw [Has.replace hb, hes]
    constructor
    · rintro ((hh | ⟨hne, hh⟩) | ⟨b', es2, hne, h2, e, hm, h3, h4⟩)
      · exact Or.inl hh
      · exact Or.inr ⟨hne, _, es, hb, hh⟩
      · refine Or.inr ⟨?_, b', es2, h2, e, hm, h3, h4⟩
        rintro rfl
        have := (h.key _ _ h2 e hm).2.1
        exact hne (by rw [← this]; exact slot_key hs h3 hk)
    · rintro (hh | ⟨hne, b', es2, h2, e, hm, h3, h4⟩)
      · exact Or.inl (Or.inl hh)
      · by_cases hbb : b' = slot vm key
        · subst hbb
          rw [hb] at h2; cases h2
          exact Or.inl (Or.inr ⟨hne, e, hm, h3, h4⟩)
        · exact Or.inr ⟨b', es2, hbb, h2, e, hm, h3, h4⟩
  have hrun : storeField F id key v = (do
      let p ← findOrAddEntry F id key false
      match p with
      | none => Pure.pure ()
      | some p => writeElem id p v) := by
    unfold storeField; rw [if_neg hv]; rfl
  rw [hrun]
  cases hp : es.findIdx? (isKey vm k) with
  | some n =>
    rw [hp] at hf
    obtain ⟨hlt, h1, _⟩ := List.findIdx?_eq_some_iff_getElem.mp hp
    have h1 : keyOf vm es[n].1 = some k := by simpa [isKey] using h1
    have hpw := List.pairwise_iff_getElem.mp (h.nodup _ _ hb)
    have hget : ∀ i (hi : i < es.length), (es.set n (es[n].1, v))[i]? =
        some (if n = i then (es[n].1, v) else es[i]) := by
      intro i hi
      simp only [List.getElem?_set]
      by_cases e : n = i
      · subst e; simp [hlt]
      · simp [e, hi]
    have hmem : ∀ e, e ∈ es.set n (es[n].1, v) ↔ e = (es[n].1, v) ∨ (e ∈ es ∧ keyOf vm e.1 ≠ some k) := by
      intro e
      constructor
      · intro hm
        obtain ⟨i, hi, rfl⟩ := List.getElem_of_mem hm
        have hi' : i < es.length := by simpa using hi
        by_cases hni : n = i
        · left; subst hni; simp
        · right
          simp only [List.getElem_set, hni, if_false]
          refine ⟨by simp, fun hc => ?_⟩
          rcases Nat.lt_or_gt_of_ne hni with hl | hl
          · exact hpw n i hlt hi' hl (h1.trans hc.symm)
          · exact hpw i n hi' hlt hl (hc.trans h1.symm)
      · rintro (rfl | ⟨hm, hne⟩)
        · exact List.mem_of_getElem? (by rw [hget n hlt]; simp)
        · obtain ⟨i, hi, rfl⟩ := List.getElem_of_mem hm
          have hni : n ≠ i := by rintro rfl; exact hne h1
          exact List.mem_of_getElem? (by rw [hget i hi]; simp [hni])
    constructor
    · intro _
      refine ⟨_, ?_, Loose.replace h hb (es' := es.set n (es[n].1, v)) (n := o.size) ?_ ?_ ?_ h.lt,
        hother _ _ _ ?_, ?_, rfl⟩
      · simp [findOrAddEntry, M.bind_eq, bucketOf_run hs.tab, getObj_run ho, he, hb, hf, writeElem, hlt, setObj_run ho he]
      · intro e hm
        rcases (hmem e).mp hm with rfl | ⟨hm, _⟩
        · have := h.key _ _ hb es[n] (by simp)
          exact ⟨this.1, this.2.1, hv⟩
        · exact h.key _ _ hb e hm
      · rw [List.pairwise_iff_getElem]
        intro i j hi hj hij
        have hi' : i < es.length := by simpa using hi
        have hj' : j < es.length := by simpa using hj
        have e := hpw i j hi' hj' hij
        simp only [List.getElem_set]
        by_cases e1 : n = i
        · subst e1
          have : ¬ n = j := by omega
          simpa [this] using e
        · by_cases e2 : n = j
          · subst e2; simpa [e1] using e
          · simpa [e1, e2] using e
      · simp
      · intro k' w
        constructor
        · rintro ⟨e, hm, h2, h3⟩
          rcases (hmem e).mp hm with rfl | ⟨hm, hne⟩
          · left
            simp only at h2 h3
            rw [h1] at h2
            exact ⟨(Option.some.inj h2).symm, h3.symm⟩
          · right
            exact ⟨by rintro rfl; exact hne h2, e, hm, h2, h3⟩
        · rintro (⟨rfl, rfl⟩ | ⟨hne, e, hm, h2, h3⟩)
          · exact ⟨(es[n].1, w), (hmem _).mpr (Or.inl rfl), h1, rfl⟩
          · exact ⟨e, (hmem _).mpr (Or.inr ⟨hm, by rw [h2]; simpa using hne⟩), h2, h3⟩
      · exact Nat.le_max_left _ _
    · intro hno
      exact absurd ((Has.in_loose hs h hk hb).mpr ⟨es[n], by simp, h1, rfl⟩) (hno _)
  | none =>
    rw [hp] at hf
    have habs : ∀ e ∈ es, keyOf vm e.1 ≠ some k := by
      intro e hm hc
      have := List.findIdx?_eq_none_iff.mp hp e hm
      simp [isKey, hc] at this
    have hno : ∀ w, ¬ Has vm o k w := by
      intro w hw
      obtain ⟨e, hm, h1, _⟩ := (Has.in_loose hs h hk hb).mp hw
      exact habs e hm h1
    have hu : u32 (o.size + 1) = if o.size + 1 < 4294967296 then o.size + 1 else 0 := by
      have := h.lt
      unfold u32 U32
      split <;> omega
    constructor
    · rintro (⟨w, hw⟩ | ⟨hl1, hl2⟩)
      · exact absurd hw (hno w)
      · rw [if_pos hl1] at hu
        have hcond : ¬ (o.size + 1 = 0 ∨ o.size + 1 > vm.limits.maxFields) := by omega
        have hw := setO_wf ho he
          { o with buckets := o.buckets.set (slot vm key) ((key, Value.zero) :: es), size := o.size + 1 }
        have hen := setO_entry ho he
          { o with buckets := o.buckets.set (slot vm key) ((key, Value.zero) :: es), size := o.size + 1 } id
        rw [if_pos rfl] at hen
        refine ⟨_, ?_, Loose.replace h hb (es' := (key, v) :: es) (n := o.size + 1) ?_ ?_ ?_ hl1,
          hother _ _ _ ?_, ?_, rfl⟩
        · simp only [findOrAddEntry, M.bind_eq, bucketOf_run hs.tab, getObj_run ho, he, hb, hf, Option.map_none,
            Bool.false_eq_true, if_false, get_run, hu]
          rw [if_neg hcond]
          simp only [M.bind_eq, setObj_run ho he, M.pure_run, writeElem, getObj_run hw, hen]
          simp only [List.getElem?_set_self hbl, List.getElem?_cons_zero, List.set_set, List.set_cons_zero,
            setObj_run hw hen, VM.setO_setO]
        · intro e hm
          rcases List.mem_cons.mp hm with rfl | hm
          · exact ⟨⟨k, hk⟩, rfl, hv⟩
          · exact h.key _ _ hb e hm
        · refine List.pairwise_cons.mpr ⟨?_, h.nodup _ _ hb⟩
          intro e hm
          rw [hk]; exact fun hc => habs e hm hc.symm
        · simp; omega
        · intro k' w
          constructor
          · rintro ⟨e, hm, h2, h3⟩
            rcases List.mem_cons.mp hm with rfl | hm
            · left
              simp only at h2 h3
              rw [hk] at h2
              exact ⟨(Option.some.inj h2).symm, h3.symm⟩
            · right
              exact ⟨by rintro rfl; exact habs e hm h2, e, hm, h2, h3⟩
          · rintro (⟨rfl, rfl⟩ | ⟨hne, e, hm, h2, h3⟩)
            · exact ⟨(key, w), by simp, hk, rfl⟩
            · exact ⟨e, by simp [hm], h2, h3⟩
        · exact Nat.le_trans hl2 (Nat.le_max_right _ _)
    · intro _ hlim
      have hcond : u32 (o.size + 1) = 0 ∨ u32 (o.size + 1) > vm.limits.maxFields := by
        rw [hu]; split <;> omega
      refine ⟨{ o with buckets := o.buckets.set (slot vm key) ((key, Value.zero) :: es), size := o.size }, ?_,
        Loose.replace h hb (es' := (key, Value.zero) :: es) (n := o.size) ?_ ?_ ?_ h.lt, hother _ _ _ ?_, rfl, rfl⟩
      · simp only [findOrAddEntry, M.bind_eq, bucketOf_run hs.tab, getObj_run ho, he, hb, hf, Option.map_none,
          Bool.false_eq_true, if_false, get_run]
        rw [if_pos hcond]
        simp only [M.bind_eq, setObj_run ho he, M.pure_run, addError_run]
      · intro e hm
        rcases List.mem_cons.mp hm with rfl | hm
        · exact ⟨⟨k, hk⟩, rfl, by simp [Value.zero]⟩
        · exact h.key _ _ hb e hm
      · refine List.pairwise_cons.mpr ⟨?_, h.nodup _ _ hb⟩
        intro e hm
        rw [hk]; exact fun hc => habs e hm hc.symm
      · simp; omega
      · intro k' w
        constructor
        · rintro ⟨e, hm, h2, h3⟩
          rcases List.mem_cons.mp hm with rfl | hm
          · left
            simp only at h2 h3
            rw [hk] at h2
            exact ⟨(Option.some.inj h2).symm, h3.symm⟩
          · right
            exact ⟨by rintro rfl; exact habs e hm h2, e, hm, h2, h3⟩
        · rintro (⟨rfl, rfl⟩ | ⟨hne, e, hm, h2, h3⟩)
          · exact ⟨(key, Value.zero), by simp, hk, rfl⟩
          · exact ⟨e, by simp [hm], h2, h3⟩

end Nk
