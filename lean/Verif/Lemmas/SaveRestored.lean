import Verif.Lemmas.SaveAll
/-!
# The loaded VM is in order and is what the saved one was
-/
namespace Nk.Save
variable {F : FloatOps}

section
variable {vm v : VM} {r : Ctx} {l : List Nat}

theorem loaded_strings : (loaded vm v r l).strings = (strLoaded vm v).strings := rfl
theorem loaded_sbuckets : (loaded vm v r l).sbuckets = (strLoaded vm v).sbuckets := rfl
theorem loaded_objects : (loaded vm v r l).objects = (at13 vm v r).objects := rfl
theorem loaded_entryS (id : Nat) : (loaded vm v r l).strings.entry id = vm.strings.entry id := rfl

theorem loaded_key (x : Value) : keyOf (loaded vm v r l) x = keyOf vm x :=
  (slot_congr_entry (vm := vm) (v := loaded vm v r l) loaded_entryS x).2

theorem loaded_slot (x : Value) : slot (loaded vm v r l) x = slot vm x :=
  (slot_congr_entry (vm := vm) (v := loaded vm v r l) loaded_entryS x).1

theorem loadedObj_at (o : Obj) : loadedObj (funcLoaded vm (at7 vm v r)) o = loadedObj vm o := by
  unfold loadedObj
  congr 1

/-- What an object becomes. -/
def objAt (vm : VM) (k : Nat) (o : Obj) : Obj :=
  if o.extType = vm.coType then
    { loadedObj vm o with extData := some (1 + count vm.coType (vm.objects.slots.take k)) }
  else loadedObj vm o

theorem loaded_entry (hr : v.ctxs = [some r]) (k : Nat) :
    (loaded vm v r l).objects.entry k = (vm.objects.entry k).map (objAt vm k) := by
  have := at13_slot (vm := vm) (v := v) (r := r) hr k
  unfold Table.entry
  rw [loaded_objects, this]
  have hcap : (at13 vm v r).objects.cap = vm.objects.cap := rfl
  cases hk : vm.objects.slots[k]? with
  | none => simp [hcap]
  | some x =>
    cases x with
    | none => simp [hcap]
    | some x =>
      simp only [Option.map_some, loadedObj_at]
      first
        | rfl
        | (split <;> simp_all [objAt])

theorem packBy_flatten {α : Type} {n : Nat} {f : α → Nat} {xs : List α} (h : ∀ x ∈ xs, f x < n) (x : α) :
    x ∈ (packBy n f xs).flatten ↔ x ∈ xs := by
  simp only [packBy, List.mem_flatten, List.mem_map, List.mem_range]
  constructor
  · rintro ⟨_, ⟨b, -, rfl⟩, hx⟩
    simp at hx
    exact hx.1
  · intro hx
    exact ⟨_, ⟨f x, h x hx, rfl⟩, by simp [hx]⟩

theorem packBy_count {α : Type} {n : Nat} {f : α → Nat} {xs : List α} (h : ∀ x ∈ xs, f x < n) :
    ((packBy n f xs).map List.length).sum = xs.length := by
  induction xs with
  | nil => rw [packBy_nil]; simp
  | cons x xs ih =>
    have ih := ih fun y hy => h y (List.mem_cons_of_mem _ hy)
    have hx := h x List.mem_cons_self
    have e1 : (packBy n f xs).map List.length = (List.range n).map fun b => (xs.filter fun x => f x = b).length := by
      simp [packBy, Function.comp_def]
    have e2 : (packBy n f (x :: xs)).map List.length =
        ((packBy n f xs).map List.length).set (f x) ((xs.filter fun y => f y = f x).length + 1) := by
      rw [e1]
      apply List.ext_getElem?
      intro i
      by_cases hi : i < n
      · rw [List.getElem?_map, packBy_get hi, List.getElem?_set]
        by_cases e : f x = i
        · subst e; simp [hi]
        · simp [e, hi]
      · rw [List.getElem?_eq_none (by simp [packBy_length]; omega), List.getElem?_eq_none (by simp; omega)]
    have e3 : ((packBy n f xs).map List.length)[f x]? = some (xs.filter fun y => f y = f x).length := by
      rw [List.getElem?_map, packBy_get hx]; simp
    rw [e2]
    have := sum_set (b := (xs.filter fun y => f y = f x).length + 1) e3
    rw [List.length_cons]
    omega

theorem slot16 (w : VM) (x : Value) : slot w x < 16 := slot_lt w x

theorem objAt_buckets (k : Nat) (o : Obj) :
    (objAt vm k o).buckets = packBy 16 (fun p : Value × Value => slot vm p.1) o.buckets.flatten := by
  unfold objAt; split <;> rfl

theorem objAt_same (k : Nat) (o : Obj) : SameObj o (objAt vm k o) where
  fields p := by rw [objAt_buckets]; exact packBy_flatten (fun x _ => slot_lt vm x.1) p
  size := by unfold objAt; split <;> rfl
  handles := by unfold objAt; split <;> rfl
  pass := by unfold objAt; split <;> rfl
  type := by unfold objAt; split <;> rfl

theorem objAt_wf (hs : StrWF vm) {k : Nat} {o : Obj} (h : OWF vm o) : OWF vm (objAt vm k o) where
  len := by rw [objAt_buckets, packBy_length]
  key b es hb e he := by
    rw [objAt_buckets] at hb
    have hlt : b < 16 := by
      have := (List.getElem?_eq_some_iff.mp hb).1
      rwa [packBy_length] at this
    rw [packBy_get hlt] at hb
    cases hb
    simp only [List.mem_reverse, List.mem_filter, decide_eq_true_eq] at he
    obtain ⟨h1, h2⟩ := he
    obtain ⟨es, he1, he2⟩ := List.mem_flatten.mp h1
    obtain ⟨b', hb'⟩ := List.getElem?_of_mem he1
    have := h.key b' es hb' e he2
    exact ⟨this.1, h2, this.2.2⟩
  nodup b es hb := by
    rw [objAt_buckets] at hb
    have hlt : b < 16 := by
      have := (List.getElem?_eq_some_iff.mp hb).1
      rwa [packBy_length] at this
    rw [packBy_get hlt] at hb
    cases hb
    rw [List.pairwise_reverse]
    exact ((OWF.distinct hs h).filter _).imp fun h => h.symm
  size := by
    rw [objAt_buckets, packBy_count fun x _ => slot_lt vm x.1, (objAt_same k o).size, h.size, List.length_flatten]
  lt := by rw [(objAt_same k o).size]; exact h.lt

theorem loaded_strWF (h : StrWF vm) : StrWF (loaded vm v r l) where
  tab := strLoaded_wf h.tab v
  blen := by
    show ((packBy 256 (fun e : Nat × Str => e.2.hash &&& 255) (entriesFrom 0 vm.strings.slots)).map (·.map (·.1))).length = 256
    rw [List.length_map, packBy_length]
  nodup b ids hb := by
    have hb : ((packBy 256 (fun e : Nat × Str => e.2.hash &&& 255) (entriesFrom 0 vm.strings.slots)).map
      (·.map (·.1)))[b]? = some ids := hb
    have hlt : b < 256 := by
      have := (List.getElem?_eq_some_iff.mp hb).1
      rwa [List.length_map, packBy_length] at this
    rw [List.getElem?_map, packBy_get hlt] at hb
    cases hb
    dsimp only
    rw [List.map_reverse, List.nodup_reverse]
    refine List.Nodup.sublist ?_ (entriesFrom_nodup (xs := vm.strings.slots) (i := 0))
    exact (List.filter_sublist).map _
  mem b ids hb id hid := by
    have hb : ((packBy 256 (fun e : Nat × Str => e.2.hash &&& 255) (entriesFrom 0 vm.strings.slots)).map
      (·.map (·.1)))[b]? = some ids := hb
    have hlt : b < 256 := by
      have := (List.getElem?_eq_some_iff.mp hb).1
      rwa [List.length_map, packBy_length] at this
    rw [List.getElem?_map, packBy_get hlt] at hb
    cases hb
    simp only [List.mem_map, List.mem_reverse, List.mem_filter, decide_eq_true_eq] at hid
    obtain ⟨⟨i, e⟩, ⟨h1, h2⟩, rfl⟩ := hid
    refine ⟨e, ?_, h2⟩
    rw [loaded_entryS]
    have h1 := (mem_entriesFrom.mp h1).2
    unfold Table.entry
    rw [Nat.sub_zero] at h1
    rw [h1]
    rfl
  hash id e he := h.hash id e he
  bucket id e he := by
    have hlt : e.hash &&& 255 < 256 := Nat.lt_of_le_of_lt Nat.and_le_right (by omega)
    refine ⟨(((entriesFrom 0 vm.strings.slots).filter fun x => (x.2.hash &&& 255) = (e.hash &&& 255)).reverse).map (·.1),
      ?_, ?_⟩
    · show ((packBy 256 (fun e : Nat × Str => e.2.hash &&& 255) (entriesFrom 0 vm.strings.slots)).map
        (·.map (·.1)))[e.hash &&& 255]? = some _
      rw [List.getElem?_map, packBy_get hlt]
      rfl
    · simp only [List.mem_map, List.mem_reverse, List.mem_filter, decide_eq_true_eq]
      refine ⟨(id, e), ⟨mem_entriesFrom.mpr ⟨Nat.zero_le _, ?_⟩, rfl⟩, rfl⟩
      rw [Nat.sub_zero]
      exact (Table.entry_some_lt (t := vm.strings) he).2
  inj i j e e' hi hj := h.inj i j e e' hi hj

theorem linkAll_length {ρ : Nat → Nat} {l : List Nat} {last : Option Nat} {cs : List (Option Ctx)} :
    (linkAll ρ last l cs).length = cs.length := by
  induction l generalizing last cs with
  | nil => rfl
  | cons i l ih => rw [linkAll, ih]; cases last <;> simp [linkOne, setParent]

theorem loaded_ctx (h : Saveable vm) (hr : v.ctxs = [some r]) (hrp : r.parent = none) (hro : r.coObj = .nil)
    (hrs : r.state = .running)
    (hp : Path vm (vm.cur :: l)) (hn : (vm.cur :: l).Nodup)
    (hm : ∀ (i : Nat) (c : Ctx), vm.ctxs[i]? = some (some c) → c.parent ≠ none → i ∈ vm.cur :: l)
    {i : Nat} {c : Ctx} (hc : vm.ctxs[i]? = some (some c)) :
    ∃ c', (loaded vm v r (vm.cur :: l)).ctxs[renum vm i]? = some (some c') ∧ c'.stack = loadedStack c.stack ∧
      c'.ip = c.ip ∧ c'.coObj = c.coObj ∧ c'.parent = c.parent.map (renum vm) ∧ (i ≠ 0 → c'.state = c.state) ∧
      (i = 0 → c'.state = .running) := by
  have hco := h.heap.co
  have hnd : ((vm.cur :: l).map (renum vm)).Nodup := by
    rw [List.nodup_iff_pairwise_ne, List.pairwise_map]
    refine hn.imp_of_mem ?_
    intro i j hi hj hne e
    obtain ⟨c, hc⟩ := hp.get i hi
    obtain ⟨d, hd⟩ := hp.get j hj
    exact hne (renum_inj hco hc hd e)
  -- the context before linking
  obtain ⟨d, hd, d1, d2, d3, d4, d5, d6⟩ : ∃ d, (at13 vm v r).ctxs[renum vm i]? = some (some d) ∧
      d.stack = loadedStack c.stack ∧ d.ip = c.ip ∧ d.coObj = c.coObj ∧ d.parent = none ∧ (i ≠ 0 → d.state = c.state) ∧
      (i = 0 → d.state = .running) := by
    rw [at13_ctx h hr]
    obtain ⟨c0, h0, hp0, hobj, hat, hr0⟩ := ctx0 hco
    by_cases hi0 : i = 0
    · subst hi0
      rw [hc] at h0
      cases h0
      rw [hr0, hat]
      exact ⟨_, rfl, rfl, rfl, by rw [hro, hobj], hrp, fun h => absurd rfl h, fun _ => hrs⟩
    · obtain ⟨id, o, a1, a2, a3, a4, hri, hnew⟩ := renum_spec hco hi0 hc
      have e : renum vm i = (renum vm i - 1) + 1 := by omega
      rw [e, List.getElem?_cons_succ, hnew]
      exact ⟨_, rfl, rfl, rfl, a1.symm, rfl, fun _ => rfl, fun h => absurd h hi0⟩
  show ∃ c', (linkAll (renum vm) none (vm.cur :: l) (at13 vm v r).ctxs)[renum vm i]? = some (some c') ∧ _
  by_cases hi : i ∈ vm.cur :: l
  · exact ⟨_, linkAll_get hp none _ hnd (by simp) i hi c d hc hd d4, d1, d2, d3, rfl, d5, d6⟩
  · refine ⟨d, ?_, d1, d2, d3, ?_, d5, d6⟩
    · rw [linkAll_other ?_ (by simp)]
      · exact hd
      · rw [List.mem_map]
        rintro ⟨j, hj, e⟩
        obtain ⟨d, hd⟩ := hp.get j hj
        exact hi (renum_inj hco hd hc e ▸ hj)
    · by_cases hpar : c.parent = none
      · rw [d4, hpar]; rfl
      · exact absurd (hm i c hc hpar) hi

/-- Every context of the loaded VM comes from one of the saved VM. -/
theorem loaded_ctx_inv (h : Saveable vm) (hr : v.ctxs = [some r]) {j : Nat} {c' : Option Ctx}
    (hj : (loaded vm v r (vm.cur :: l)).ctxs[j]? = some c') :
    ∃ (i : Nat) (c : Ctx), vm.ctxs[i]? = some (some c) ∧ j = renum vm i := by
  have hco := h.heap.co
  obtain ⟨c0, h0, hp0, hobj, hat, hr0⟩ := ctx0 hco
  have hlen : j < (at13 vm v r).ctxs.length := by
    have := (List.getElem?_eq_some_iff.mp hj).1
    have e : (loaded vm v r (vm.cur :: l)).ctxs.length = (at13 vm v r).ctxs.length := linkAll_length
    omega
  rw [at13_ctx h hr, List.length_cons] at hlen
  cases j with
  | zero => exact ⟨0, c0, h0, hr0.symm⟩
  | succ n =>
    obtain ⟨k, o, h1, h2, h3, -⟩ := newCtxs_inv (List.getElem?_eq_getElem (show n < (newCtxs vm 0 vm.objects.slots).length by omega))
    have he : vm.objects.entry k = some o := by simp [Table.entry, h1]
    obtain ⟨i, c, b1, b2, b3, b4⟩ := hco.own k o he h2
    refine ⟨i, c, b3, ?_⟩
    have : renum vm i = 1 + count vm.coType (vm.objects.slots.take k) := by
      unfold renum
      rw [b3]
      dsimp only
      rw [b4]
    omega

theorem loadedStack_wf {s : Stack} (h : s.WF) : (loadedStack s).WF where
  pow := h.pow
  len := by
    have := h.len
    have := h.size
    simp only [loadedStack, Stack.used, List.length_append, List.length_take, List.length_replicate]
    omega
  mask := by
    have := h.mask
    show s.cap - 1 + 1 = s.cap
    omega
  size := h.size

theorem loadedStack_used {s : Stack} (h : s.WF) : (loadedStack s).used = s.used := by
  have h1 := h.len
  have h2 := h.size
  have : s.used.length = s.size := by simp only [Stack.used, List.length_take]; omega
  unfold Stack.used loadedStack
  dsimp only
  rw [List.take_append_of_le_length (by rw [this])]
  unfold Stack.used
  rw [List.take_take, Nat.min_self]

theorem objAt_data (hco : CoWF vm) {k i : Nat} {o : Obj} (he : vm.objects.entry k = some o) (hT : o.extType = vm.coType)
    (hd : o.extData = some i) : (objAt vm k o).extData = some (renum vm i) := by
  obtain ⟨i', c, b1, b2, b3, b4⟩ := hco.own k o he hT
  rw [hd] at b1
  cases b1
  have : renum vm i = 1 + count vm.coType (vm.objects.slots.take k) := by
    unfold renum
    rw [b3]
    dsimp only
    rw [b4]
  unfold objAt
  rw [if_pos hT, this]

theorem loaded_cowf (h : Saveable vm) (ht : Target vm v) (hr : v.ctxs = [some r]) (hrp : r.parent = none) (hro : r.coObj = .nil)
    (hrs : r.state = .running)
    (hp : Path vm (vm.cur :: l)) (hn : (vm.cur :: l).Nodup)
    (hm : ∀ (i : Nat) (c : Ctx), vm.ctxs[i]? = some (some c) → c.parent ≠ none → i ∈ vm.cur :: l) :
    CoWF (loaded vm v r (vm.cur :: l)) := by
  have hco := h.heap.co
  have hget := fun {i : Nat} {c : Ctx} (hc : vm.ctxs[i]? = some (some c)) => loaded_ctx h hr hrp hro hrs hp hn hm hc
  obtain ⟨c0, h0, hp0, hobj, hat, hr0⟩ := ctx0 hco
  have hT : (loaded vm v r (vm.cur :: l)).coType = vm.coType := ht.coType
  have hent := fun k => loaded_entry (vm := vm) (v := v) (r := r) (l := vm.cur :: l) hr k
  have htype : ∀ k o, (objAt vm k o).extType = o.extType := fun k o => (objAt_same k o).type
  constructor
  · obtain ⟨c', h1, h2, h3, h4, h5, h6, h7⟩ := hget h0
    rw [hr0] at h1
    exact ⟨c', h1, by rw [h5, hp0]; rfl, by rw [h4, hobj]⟩
  · intro j c' hj
    obtain ⟨i, c, hc, rfl⟩ := loaded_ctx_inv h hr hj
    obtain ⟨c'', h1, h2, -⟩ := hget hc
    rw [hj] at h1
    cases h1
    rw [h2]
    exact loadedStack_wf (hco.stack i c hc)
  · intro id o' he hoT
    rw [hent] at he
    cases ho : vm.objects.entry id with
    | none => rw [ho] at he; cases he
    | some o =>
      rw [ho] at he
      cases he
      rw [htype, hT] at hoT
      obtain ⟨i, c, b1, b2, b3, b4⟩ := hco.own id o ho hoT
      obtain ⟨c', h1, h2, h3, h4, h5, h6, h7⟩ := hget b3
      refine ⟨renum vm i, c', objAt_data hco ho hoT b1, ?_, h1, by rw [h4, b4]⟩
      obtain ⟨_, _, _, _, _, _, e, _⟩ := renum_spec hco b2 b3
      omega
  · intro j c' hj0 hj
    obtain ⟨i, c, hc, rfl⟩ := loaded_ctx_inv h hr hj
    have hi0 : i ≠ 0 := fun e => hj0 (by rw [e, hr0])
    obtain ⟨c'', h1, h2, h3, h4, h5, h6, h7⟩ := hget hc
    rw [hj] at h1
    cases h1
    obtain ⟨id, o, b1, b2, b3, b4⟩ := hco.owned i c hi0 hc
    refine ⟨id, objAt vm id o, by rw [h4, b1], by rw [hent, b2]; rfl, by rw [htype, hT, b3], objAt_data hco b2 b3 b4⟩
  · refine ⟨(vm.cur :: l).map (renum vm), ?_, rfl, ?_, ?_, ?_⟩
    · rw [List.nodup_iff_pairwise_ne, List.pairwise_map]
      refine hn.imp_of_mem ?_
      intro i j hi hj hne e
      obtain ⟨c, hc⟩ := hp.get i hi
      obtain ⟨d, hd⟩ := hp.get j hj
      exact hne (renum_inj hco hc hd e)
    · have : ∀ {l}, Path vm l → l.getLast? = some 0 := by
        intro l hl
        induction hl with
        | root => rfl
        | next _ _ _ ih => rw [List.getLast?_cons_cons]; exact ih
      rw [List.getLast?_map, this hp, Option.map_some, hr0]
    · have : ∀ {l}, Path vm l → ∀ (n i j : Nat), l[n]? = some i → l[n + 1]? = some j →
          ∃ c, vm.ctxs[i]? = some (some c) ∧ c.parent = some j := by
        intro l hl
        induction hl with
        | root => intro n i j _ hj; simp at hj
        | next h1 h2 _ ih =>
          intro n i j hi hj
          cases n with
          | zero => cases hi; cases hj; exact ⟨_, h1, h2⟩
          | succ n => exact ih n i j hi hj
      intro n i' j' hi hj
      rw [List.getElem?_map, Option.map_eq_some_iff] at hi hj
      obtain ⟨i, hi, rfl⟩ := hi
      obtain ⟨j, hj, rfl⟩ := hj
      obtain ⟨c, hc, hcp⟩ := this hp n i j hi hj
      obtain ⟨c', h1, h2, h3, h4, h5, h6, h7⟩ := hget hc
      exact ⟨c', h1, by rw [h5, hcp]; rfl⟩
    · intro j c' hj hpar
      obtain ⟨i, c, hc, rfl⟩ := loaded_ctx_inv h hr hj
      obtain ⟨c'', h1, h2, h3, h4, h5, h6, h7⟩ := hget hc
      rw [hj] at h1
      cases h1
      refine List.mem_map_of_mem (hm i c hc ?_)
      intro e
      rw [h5, e] at hpar
      exact hpar rfl
  · have e : (loaded vm v r (vm.cur :: l)).extTypes = vm.extTypes := ht.types
    rw [e, hT]
    exact hco.type

theorem loaded_tab (h : vm.objects.WF) (hr : v.ctxs = [some r]) : (loaded vm v r l).objects.WF := by
  have key : ∀ k : Nat, (at13 vm v r).objects.slots[k]? = some none ↔ vm.objects.slots[k]? = some none := by
    intro k
    rw [at13_slot hr]
    cases vm.objects.slots[k]? with
    | none => simp
    | some x => cases x <;> simp
  have hw := rebuilt_wf (t := vm.objects) (slots := vm.objects.slots.map (·.map (loadedObj (funcLoaded vm (at7 vm v r)))))
    (cap := vm.objects.cap) (by rw [List.length_map, h.len]) h.pow
  refine ⟨?_, h.pow, hw.nodup, ?_⟩
  · show (place vm.coType (at10 vm v r).ctxs.length (at10 vm v r).objects.slots).length = vm.objects.cap
    rw [place_length, at10_slots, List.length_map, h.len]
  · intro k
    rw [loaded_objects, key]
    refine (hw.holes k).trans ?_
    simp only [List.getElem?_map]
    cases vm.objects.slots[k]? with
    | none => simp
    | some x => cases x <;> simp

theorem loaded_handles (id : Nat) : id ∈ (loaded vm v r l).handles ↔ ∃ o, vm.objects.entry id = some o ∧ o.handleCount ≠ 0 := by
  show id ∈ pushHandles (entriesFrom 0 vm.objects.slots) [] ↔ _
  rw [mem_pushHandles]
  simp only [List.not_mem_nil, false_or, mem_entriesFrom, Nat.zero_le, true_and, Nat.sub_zero]
  constructor
  · rintro ⟨o, h1, h2⟩; exact ⟨o, by simp [Table.entry, h1], h2⟩
  · rintro ⟨o, h1, h2⟩; exact ⟨o, (Table.entry_some_lt h1).2, h2⟩

theorem loaded_heap (h : Saveable vm) (ht : Target vm v) (hr : v.ctxs = [some r]) (hrp : r.parent = none) (hro : r.coObj = .nil)
    (hrs : r.state = .running)
    (hp : Path vm (vm.cur :: l)) (hn : (vm.cur :: l).Nodup)
    (hm : ∀ (i : Nat) (c : Ctx), vm.ctxs[i]? = some (some c) → c.parent ≠ none → i ∈ vm.cur :: l) :
    HeapWF (loaded vm v r (vm.cur :: l)) where
  str := loaded_strWF h.heap.str
  tab := loaded_tab h.heap.tab hr
  co := loaded_cowf h ht hr hrp hro hrs hp hn hm
  statics := h.heap.statics
  handles id hid := by
    obtain ⟨o, ho, -⟩ := (loaded_handles id).mp hid
    exact ⟨objAt vm id o, by rw [loaded_entry hr, ho]; rfl⟩
  passO id o' he := by
    rw [loaded_entry hr] at he
    cases ho : vm.objects.entry id with
    | none => rw [ho] at he; cases he
    | some o =>
      rw [ho] at he
      cases he
      rw [(objAt_same id o).pass]
      exact h.heap.passO id o ho
  passS id e he := h.heap.passS id e he

theorem loaded_lookup (h : Saveable vm) (hr : v.ctxs = [some r]) {id : Nat} {o : Obj} {key : Value}
    (ho : vm.objects.entry id = some o) (hk : keyOf vm key ≠ none) :
    ∃ x, lookupField F id key vm = .ok (x, vm) ∧
      lookupField F id key (loaded vm v r l) = .ok (x, loaded vm v r l) := by
  obtain ⟨k, hk⟩ := Option.ne_none_iff_exists'.mp hk
  have hw : OWF vm o := (h.objs o (List.mem_of_getElem? (Table.entry_some_lt ho).2)).wf
  have hw' : OWF (loaded vm v r l) (objAt vm id o) :=
    (objAt_wf h.heap.str hw).congr fun b es hb e he => ⟨loaded_key _, loaded_slot _⟩
  have h1 := lookupField_run (F := F) h.heap.str h.heap.tab ho hw hk
  have h2 := lookupField_run (F := F) (vm := loaded vm v r l) (loaded_strWF h.heap.str) (loaded_tab h.heap.tab hr)
    (id := id) (o := objAt vm id o) (by rw [loaded_entry hr, ho]; rfl) hw' (key := key) (k := k) (by rw [loaded_key, hk])
  have flat : ∀ (o : Obj) (w : VM) (k : Key) (x : Value), Has w o k x ↔ ∃ e ∈ o.buckets.flatten, keyOf w e.1 = some k ∧ e.2 = x := by
    intro o w k x
    unfold Has
    constructor
    · rintro ⟨b, es, hb, e, he, h⟩
      exact ⟨e, List.mem_flatten.mpr ⟨es, List.mem_of_getElem? hb, he⟩, h⟩
    · rintro ⟨e, he, h⟩
      obtain ⟨es, h1, h2⟩ := List.mem_flatten.mp he
      obtain ⟨b, hb⟩ := List.getElem?_of_mem h1
      exact ⟨b, es, hb, e, h2, h⟩
  have same : ∀ x, Has (loaded vm v r l) (objAt vm id o) k x ↔ Has vm o k x := by
    intro x
    rw [flat, flat]
    simp only [(objAt_same id o).fields, loaded_key]
  have uniq : ∀ x y, Has vm o k x → Has vm o k y → x = y := by
    intro x y hx hy
    rw [flat] at hx hy
    obtain ⟨e, he, k1, rfl⟩ := hx
    obtain ⟨e', he', k2, rfl⟩ := hy
    by_cases hee : e = e'
    · rw [hee]
    · have hd := List.pairwise_iff_getElem.mp (OWF.distinct h.heap.str hw)
      obtain ⟨m, hm, rfl⟩ := List.getElem_of_mem he
      obtain ⟨n, hn, rfl⟩ := List.getElem_of_mem he'
      rcases Nat.lt_trichotomy m n with hlt | heq | hgt
      · exact absurd (k1.trans k2.symm) (hd m n hm hn hlt)
      · subst heq; exact absurd rfl hee
      · exact absurd (k2.trans k1.symm) (hd n m hn hm hgt)
  rcases h1 with ⟨x, hx, hx'⟩ | ⟨hx, hx'⟩
  · rcases h2 with ⟨y, hy, hy'⟩ | ⟨hy, hy'⟩
    · rw [same] at hy'
      rw [uniq y x hy' hx'] at hy
      exact ⟨_, hx, hy⟩
    · exact absurd ((same x).mpr hx') (hy' x)
  · rcases h2 with ⟨y, hy, hy'⟩ | ⟨hy, hy'⟩
    · exact absurd ((same y).mp hy') (hx' y)
    · exact ⟨_, hx, hy⟩

theorem loaded_restored (h : Saveable vm) (ht : Target vm v) (hreg : Registered vm v.extFuncs) (hr : v.ctxs = [some r]) (hrp : r.parent = none) (hro : r.coObj = .nil)
    (hrs : r.state = .running)
    (hp : Path vm (vm.cur :: l)) (hn : (vm.cur :: l).Nodup)
    (hm : ∀ (i : Nat) (c : Ctx), vm.ctxs[i]? = some (some c) → c.parent ≠ none → i ∈ vm.cur :: l) :
    Restored F vm v (loaded vm v r (vm.cur :: l)) where
  instrs := ⟨rfl, rfl⟩
  errors := rfl
  statics := ⟨rfl, rfl⟩
  strings := ⟨fun _ => rfl, rfl⟩
  objects := ⟨fun id o ho => ⟨objAt vm id o, by rw [loaded_entry hr, ho]; rfl, objAt_same id o⟩,
    fun id ho => by rw [loaded_entry hr, ho]; rfl, rfl⟩
  lookup id key ho hk := by obtain ⟨o, ho⟩ := ho; exact loaded_lookup h hr ho hk
  handles := loaded_handles
  functions := by
    refine ⟨by show (vm.functions.map _).length = _; rw [List.length_map], ?_⟩
    intro i f hf
    refine ⟨remap (mapping v.extFuncs vm.extFuncs) f, ?_, ?_⟩
    · show (vm.functions.map _)[i]? = _
      rw [List.getElem?_map, hf]; rfl
    · refine ⟨rfl, rfl, fun e => by simp [remap, e], fun g hne hg => ?_⟩
      obtain ⟨g', hg', hname⟩ := hreg f (List.mem_of_getElem? hf) g hg
      obtain ⟨n, hn⟩ := nativeAt_isSome ⟨g', hg', hname⟩
      obtain ⟨g'', h1, h2⟩ := nativeAt_some hn
      have he : (remap (mapping v.extFuncs vm.extFuncs) f).extId = n := by
        unfold remap
        dsimp only
        rw [if_neg hne, List.getD_eq_getElem?_getD, mapping_get hg, hn]
        rfl
      rw [he]
      have ha := congrArg (·[n]?) (rebindAll_anon v.extFuncs vm.extFuncs)
      simp only [List.getElem?_map, h1, Option.map_some] at ha
      obtain ⟨y, hy, hya⟩ := Option.map_eq_some_iff.mp ha
      refine ⟨y, hy, ?_⟩
      have := congrArg ExtFunc.name hya
      rw [← h2]
      exact this
  globals := rfl
  gc := by
    show capGc vm.gc = _
    rfl
  files := rfl
  markers := rfl
  coroutines := by
    have hco := h.heap.co
    obtain ⟨c0, h0, hp0, hobj, hat, hr0⟩ := ctx0 hco
    refine ⟨renum vm, hr0, rfl, ?_, ?_, ?_⟩
    · intro i c hc
      obtain ⟨c', h1, h2, h3, h4, h5, h6, h7⟩ := loaded_ctx h hr hrp hro hrs hp hn hm hc
      have hw := hco.stack i c hc
      exact ⟨c', h1, ⟨h3, by rw [h2, loadedStack_used hw], by rw [h2]; rfl, by rw [h2]; rfl, h4⟩, h5, h6⟩
    · intro id i o ho hT hd
      exact ⟨objAt vm id o, by rw [loaded_entry hr, ho]; rfl, objAt_data hco ho hT hd⟩
    · intro j c' hj
      exact loaded_ctx_inv h hr hj
  rest := by
    refine ⟨rfl, rfl, rfl, rfl, rfl, rfl, ?_, ?_⟩
    · have := congrArg List.length (rebindAll_anon v.extFuncs vm.extFuncs)
      simp only [List.length_map] at this
      exact this
    · intro i
      have := congrArg (·[i]?) (rebindAll_anon v.extFuncs vm.extFuncs)
      simp only [List.getElem?_map] at this
      exact this

end

end Nk.Save
