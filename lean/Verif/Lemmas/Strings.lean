import Verif.Lemmas.Stack
import Verif.Lemmas.Table
import Verif.Lemmas.Value
import Verif.Model.GC
/-!
# Lemmas about the string table
-/
namespace Nk

theorem and255_lt (h : Nat) : h &&& 255 < 256 := by
  have := @Nat.and_le_right h 255
  omega

theorem and15_lt (h : Nat) : h &&& 15 < 16 := by
  have := @Nat.and_le_right h 15
  omega

theorem Table.entry_slots {α : Type} {t : Table α} {i : Nat} {x : α} (h : t.entry i = some x) :
    t.slots[i]? = some (some x) := by
  unfold Table.entry at h
  cases hs : t.slots[i]? with
  | none => rw [hs] at h; simp at h
  | some o => rw [hs] at h; simp at h; rw [h]

theorem getStrEntry_run {vm : VM} (h : vm.strings.WF) (id : Nat) :
    getStrEntry id vm = .ok (vm.strings.entry id, vm) := by
  simp [getStrEntry, Table.get_eq h]

theorem getString_run {vm : VM} (h : vm.strings.WF) (id : Nat) :
    getString id vm = .ok ((vm.strings.entry id).map (·.str), vm) := by
  simp [getString, M.bind_eq, getStrEntry_run h]

/-- The bucket walk, when all ids in it are live. -/
theorem findInBucket_ok (vm : VM) (s : Bytes) (ids : List Nat)
    (h : ∀ id ∈ ids, ∃ e, vm.strings.entry id = some e) :
    (∃ id e, findInBucket vm s ids = .ok (some id) ∧ id ∈ ids ∧ vm.strings.entry id = some e ∧ e.str = s) ∨
    (findInBucket vm s ids = .ok none ∧
      ∀ id ∈ ids, ∀ e, vm.strings.entry id = some e → e.str ≠ s) := by
  induction ids with
  | nil => right; exact ⟨rfl, by simp⟩
  | cons id ids ih =>
    obtain ⟨e, he⟩ := h id (by simp)
    have hs := Table.entry_slots he
    unfold findInBucket
    rw [hs]
    by_cases hc : strcmp e.str s = 0
    · left
      exact ⟨id, e, by simp [hc], by simp, he, strcmp_eq.mp hc⟩
    · simp only [hc, if_false]
      rcases ih (fun i hi => h i (by simp [hi])) with ⟨i, e', h1, h2, h3, h4⟩ | ⟨h1, h2⟩
      · left; exact ⟨i, e', h1, by simp [h2], h3, h4⟩
      · right
        refine ⟨h1, ?_⟩
        intro i hi e' he'
        rcases List.mem_cons.mp hi with rfl | hi
        · rw [he] at he'; cases he'
          intro e; exact hc (strcmp_eq.mpr e)
        · exact h2 i hi e' he'

/-- A VM with another string table. -/
def VM.setStr (vm : VM) (t : Table Str) (b : List (List Nat)) : VM :=
  { vm with strings := t, sbuckets := b }

@[simp] theorem VM.setStr_strings (vm : VM) (t : Table Str) (b : List (List Nat)) :
    (vm.setStr t b).strings = t := rfl
@[simp] theorem VM.setStr_sbuckets (vm : VM) (t : Table Str) (b : List (List Nat)) :
    (vm.setStr t b).sbuckets = b := rfl
@[simp] theorem VM.setStr_errors (vm : VM) (t : Table Str) (b : List (List Nat)) :
    (vm.setStr t b).errors = vm.errors := rfl
@[simp] theorem VM.setStr_objects (vm : VM) (t : Table Str) (b : List (List Nat)) :
    (vm.setStr t b).objects = vm.objects := rfl
@[simp] theorem VM.setStr_ctxs (vm : VM) (t : Table Str) (b : List (List Nat)) :
    (vm.setStr t b).ctxs = vm.ctxs := rfl
@[simp] theorem VM.setStr_cur (vm : VM) (t : Table Str) (b : List (List Nat)) :
    (vm.setStr t b).cur = vm.cur := rfl
@[simp] theorem VM.setStr_limits (vm : VM) (t : Table Str) (b : List (List Nat)) :
    (vm.setStr t b).limits = vm.limits := rfl

theorem VM.At.setStr {vm : VM} {c : Ctx} (h : vm.At c) (t : Table Str) (b : List (List Nat)) :
    (vm.setStr t b).At c := h

/-- A new string as it is stored. -/
def Str.mk' (s : Bytes) : Str := { str := s, hash := stringHash s, lastGCPass := 0, dontGC := false }

/-- Interning: the present id, or a fresh id, or (table full) an error. -/
theorem findOrAddString_spec {vm : VM} (h : StrWF vm) (s : Bytes) :
    (∃ id e, findOrAddString s vm = .ok (id, vm) ∧ vm.strings.entry id = some e ∧ e.str = s) ∨
    (∃ id t b, findOrAddString s vm = .ok (id, vm.setStr t b) ∧ StrWF (vm.setStr t b) ∧
      vm.strings.entry id = none ∧
      (∀ j, t.entry j = if j = id then some (Str.mk' s) else vm.strings.entry j) ∧
      (∀ j e, vm.strings.entry j = some e → e.str ≠ s)) ∨
    (findOrAddString s vm = .ok (UINT_MAX, vm.addErr "Address space exhaustion when adding item to table.") ∧
      (∀ j, j < 2147483648 → vm.strings.entry j ≠ none) ∧
      (∀ j e, vm.strings.entry j = some e → e.str ≠ s)) := by
  have hb : stringHash s &&& 255 < vm.sbuckets.length := by rw [h.blen]; exact and255_lt _
  have hids : vm.sbuckets[stringHash s &&& 255]? = some vm.sbuckets[stringHash s &&& 255] :=
    List.getElem?_eq_getElem hb
  rcases findInBucket_ok vm s _ (fun id hid => by
      obtain ⟨e, he, _⟩ := h.mem _ _ hids id hid
      exact ⟨e, he⟩) with ⟨id, e, h1, h2, h3, h4⟩ | ⟨h1, h2⟩
  · left
    refine ⟨id, e, ?_, h3, h4⟩
    simp [findOrAddString, M.bind_eq, hb, h1]
  · right
    have hnew : ∀ j e, vm.strings.entry j = some e → e.str ≠ s := by
      intro j e he hs
      obtain ⟨ids, hi1, hi2⟩ := h.bucket j e he
      rw [h.hash j e he, hs, hids] at hi1
      cases hi1
      exact h2 j hi2 e he hs
    rcases Table.add_spec h.tab (Str.mk' s) with ⟨i, t, a1, a2, a3, a4, a5, _⟩ | ⟨a1, a2, a3⟩
    · left
      refine ⟨i, t, vm.sbuckets.set (stringHash s &&& 255) (i :: vm.sbuckets[stringHash s &&& 255]), ?_, ?_,
        a3, a5, hnew⟩
      · unfold Str.mk' at a1
        simp [findOrAddString, M.bind_eq, hb, h1, a1, VM.setStr]
      · have hbk : ∀ b ids, (vm.sbuckets.set (stringHash s &&& 255)
            (i :: vm.sbuckets[stringHash s &&& 255]))[b]? = some ids →
            (b = stringHash s &&& 255 ∧ ids = i :: vm.sbuckets[stringHash s &&& 255]) ∨
            (b ≠ stringHash s &&& 255 ∧ vm.sbuckets[b]? = some ids) := by
          intro b ids hb'
          rw [List.getElem?_set] at hb'
          by_cases e : stringHash s &&& 255 = b
          · simp only [e, if_true] at hb'
            left
            split at hb'
            · cases hb'; subst e; exact ⟨rfl, rfl⟩
            · cases hb'
          · simp only [e, if_false] at hb'
            exact Or.inr ⟨fun e' => e e'.symm, hb'⟩
        refine ⟨a2, by simpa using h.blen, ?_, ?_, ?_, ?_, ?_⟩
        · intro b ids hb'
          rcases hbk b ids hb' with ⟨_, rfl⟩ | ⟨_, hb'⟩
          · refine List.nodup_cons.mpr ⟨?_, h.nodup _ _ hids⟩
            intro hm
            obtain ⟨e, he, _⟩ := h.mem _ _ hids i hm
            rw [a3] at he; cases he
          · exact h.nodup b ids hb'
        · intro b ids hb' id hid
          have old : ∀ (b : Nat) (ids : List Nat), vm.sbuckets[b]? = some ids → id ∈ ids →
              ∃ e, t.entry id = some e ∧ e.hash &&& 255 = b := by
            intro b ids hb hid
            obtain ⟨e, he1, he2⟩ := h.mem b ids hb id hid
            refine ⟨e, ?_, he2⟩
            rw [a5]
            have : id ≠ i := by rintro rfl; rw [a3] at he1; cases he1
            simp [this, he1]
          rcases hbk b ids hb' with ⟨rfl, rfl⟩ | ⟨_, hb'⟩
          · rcases List.mem_cons.mp hid with rfl | hid
            · exact ⟨Str.mk' s, by simp [a5], rfl⟩
            · exact old _ _ hids hid
          · exact old b ids hb' hid
        · intro id e he
          simp only [VM.setStr_strings, a5] at he
          split at he
          · cases he; rfl
          · exact h.hash id e he
        · intro id e he
          simp only [VM.setStr_strings, VM.setStr_sbuckets, a5] at he ⊢
          split at he
          · next hi =>
            cases he; subst hi
            exact ⟨id :: vm.sbuckets[stringHash s &&& 255], by simp [Str.mk', hb], by simp⟩
          · obtain ⟨ids, hi1, hi2⟩ := h.bucket id e he
            by_cases hbe : stringHash s &&& 255 = e.hash &&& 255
            · refine ⟨i :: vm.sbuckets[stringHash s &&& 255], ?_, ?_⟩
              · rw [← hbe]; simp [hb]
              · rw [← hbe, hids] at hi1
                cases hi1
                exact List.mem_cons_of_mem _ hi2
            · exact ⟨ids, by rw [List.getElem?_set]; simp [hbe, hi1], hi2⟩
        · intro x y e e' hx hy hs
          simp only [VM.setStr_strings, a5] at hx hy
          split at hx <;> split at hy
          · omega
          · cases hx; exact absurd hs.symm (hnew y e' hy)
          · cases hy; exact absurd hs (hnew x e hx)
          · exact h.inj x y e e' hx hy hs
    · right
      refine ⟨?_, fun j hj => a3 j (by omega), hnew⟩
      unfold Str.mk' at a1
      simp [findOrAddString, M.bind_eq, hb, h1, a1]

/-! ## Sweeping -/

/-- Does a string survive the sweep of pass `pass`? -/
def Str.survives (pass : Nat) (e : Str) : Bool := e.lastGCPass == pass || e.dontGC

theorem survives_false {pass : Nat} {e : Str} :
    (pass ≠ e.lastGCPass ∧ e.dontGC = false) ↔ e.survives pass = false := by
  unfold Str.survives
  rw [Bool.or_eq_false_iff, beq_eq_false_iff_ne]
  constructor
  · rintro ⟨h1, h2⟩; exact ⟨fun h => h1 h.symm, h2⟩
  · rintro ⟨h1, h2⟩; exact ⟨fun h => h1 h.symm, h2⟩

/-- Survival by id. -/
def surv (pass : Nat) (t : Table Str) (id : Nat) : Bool :=
  match t.entry id with
  | some e => e.survives pass
  | none => false

theorem sweepStrings_ok (pass : Nat) (ids : List Nat) (vm : VM) (hw : vm.strings.WF)
    (hn : ids.Nodup) (hl : ∀ id ∈ ids, ∃ e, vm.strings.entry id = some e) :
    ∃ t, sweepStrings pass ids vm = .ok (ids.filter (surv pass vm.strings), vm.setStr t vm.sbuckets) ∧
      t.WF ∧ ∀ j, t.entry j = if j ∈ ids ∧ surv pass vm.strings j = false then none
        else vm.strings.entry j := by
  induction ids generalizing vm with
  | nil => exact ⟨vm.strings, rfl, hw, by simp⟩
  | cons id ids ih =>
    obtain ⟨e, he⟩ := hl id (by simp)
    obtain ⟨hn1, hn2⟩ := List.nodup_cons.mp hn
    have hs := Table.entry_slots he
    have hsv : surv pass vm.strings id = e.survives pass := by simp [surv, he]
    by_cases hd : pass ≠ e.lastGCPass ∧ e.dontGC = false
    · have hd' := survives_false.mp hd
      obtain ⟨d1, d2, d3⟩ := Table.erase_live hw he
      generalize ht1 : Table.mk (vm.strings.slots.set id none) vm.strings.cap (id :: vm.strings.holes) = t1
        at d1 d2 d3
      obtain ⟨t, i1, i2, i3⟩ := ih (vm.setStr t1 vm.sbuckets) d2 hn2 (by
        intro j hj
        obtain ⟨e', he'⟩ := hl j (by simp [hj])
        refine ⟨e', ?_⟩
        have : j ≠ id := by rintro rfl; exact hn1 hj
        simp [d3, this, he'])
      have hsurv : ∀ j ∈ ids, surv pass t1 j = surv pass vm.strings j := by
        intro j hj
        have : j ≠ id := by rintro rfl; exact hn1 hj
        simp [surv, d3, this]
      refine ⟨t, ?_, i2, ?_⟩
      · unfold sweepStrings
        simp only [M.bind_eq, get_run, hs, hd, d1, liftR_ok, modify_run, if_true, and_self, ne_eq,
          not_false_eq_true]
        have : ({ vm with strings := t1 } : VM) = vm.setStr t1 vm.sbuckets := rfl
        rw [this, i1]
        simp only [VM.setStr_strings, VM.setStr_sbuckets, List.filter_cons, hsv, hd', Bool.false_eq_true,
          if_false, Res.ok.injEq, Prod.mk.injEq]
        exact ⟨List.filter_congr hsurv, rfl⟩
      · intro j
        rw [i3 j]
        simp only [VM.setStr_strings, List.mem_cons, d3]
        by_cases hj : j = id
        · subst hj
          simp [hn1, hsv, hd']
        · by_cases hj2 : j ∈ ids
          · simp [hj, hj2, hsurv j hj2]
          · simp [hj, hj2]
    · have hd' : e.survives pass = true := by
        cases hx : e.survives pass with
        | true => rfl
        | false => exact absurd (survives_false.mpr hx) hd
      obtain ⟨t, i1, i2, i3⟩ := ih vm hw hn2 (fun j hj => hl j (by simp [hj]))
      refine ⟨t, ?_, i2, ?_⟩
      · unfold sweepStrings
        simp only [M.bind_eq, get_run, hs, hd, if_false, i1, M.pure_run, List.filter_cons, hsv, hd', if_true]
      · intro j
        rw [i3 j]
        by_cases hj : j = id
        · subst hj; simp [hn1, hsv, hd']
        · simp [hj]

/-- The whole sweep: exactly the strings that are unmarked and not protected disappear. -/
theorem cleanOldStrings_ok (pass : Nat) (n : Nat) (i : Nat) (hi : i + n = 256) (vm : VM) (h : StrWF vm) :
    ∃ t b, cleanOldStrings pass i n vm = .ok ((), vm.setStr t b) ∧ StrWF (vm.setStr t b) ∧
      ∀ j, t.entry j = (match vm.strings.entry j with
        | some e => if i ≤ e.hash &&& 255 ∧ e.survives pass = false then none else some e
        | none => none) := by
  induction n generalizing i vm with
  | zero =>
    refine ⟨vm.strings, vm.sbuckets, rfl, h, fun j => ?_⟩
    cases he : vm.strings.entry j with
    | none => rfl
    | some e =>
      have := and255_lt e.hash
      have : ¬ i ≤ e.hash &&& 255 := by omega
      simp [this]
  | succ n ih =>
    have hlt : i < vm.sbuckets.length := by rw [h.blen]; omega
    have hids : vm.sbuckets[i]? = some vm.sbuckets[i] := List.getElem?_eq_getElem hlt
    generalize vm.sbuckets[i] = ids at hids
    have hlive : ∀ id ∈ ids, ∃ e, vm.strings.entry id = some e := fun id hid => by
      obtain ⟨e, he, _⟩ := h.mem _ _ hids id hid
      exact ⟨e, he⟩
    obtain ⟨t, s1, s2, s3⟩ := sweepStrings_ok pass ids vm h.tab (h.nodup _ _ hids) hlive
    -- entries after this bucket
    have hmem : ∀ j e, vm.strings.entry j = some e → (j ∈ ids ↔ e.hash &&& 255 = i) := by
      intro j e he
      constructor
      · intro hj
        obtain ⟨e', he', hb⟩ := h.mem _ _ hids j hj
        rw [he] at he'; cases he'; exact hb
      · intro hb
        obtain ⟨ids', h1, h2⟩ := h.bucket j e he
        rw [hb, hids] at h1; cases h1; exact h2
    have hent : ∀ j, t.entry j = (match vm.strings.entry j with
        | some e => if e.hash &&& 255 = i ∧ e.survives pass = false then none else some e
        | none => none) := by
      intro j
      rw [s3 j]
      cases he : vm.strings.entry j with
      | none => simp
      | some e =>
        have hsv : surv pass vm.strings j = e.survives pass := by simp [surv, he]
        simp only [hmem j e he, hsv]
    let vm1 := vm.setStr t (vm.sbuckets.set i (ids.filter (surv pass vm.strings)))
    have hsome : ∀ j e, t.entry j = some e → vm.strings.entry j = some e ∧
        ¬ (e.hash &&& 255 = i ∧ e.survives pass = false) := by
      intro j e hj
      rw [hent j] at hj
      cases he : vm.strings.entry j with
      | none => rw [he] at hj; cases hj
      | some e' =>
        rw [he] at hj
        simp only at hj
        split at hj
        · cases hj
        · next hx => cases hj; exact ⟨rfl, hx⟩
    have hw1 : StrWF vm1 := by
      have hbk : ∀ b l, vm1.sbuckets[b]? = some l →
          (b = i ∧ l = ids.filter (surv pass vm.strings)) ∨ (b ≠ i ∧ vm.sbuckets[b]? = some l) := by
        intro b l hb
        simp only [vm1, VM.setStr_sbuckets, List.getElem?_set] at hb
        by_cases e : i = b
        · subst e
          simp only [if_true, hlt] at hb
          cases hb; exact Or.inl ⟨rfl, rfl⟩
        · simp only [e, if_false] at hb
          exact Or.inr ⟨fun e' => e e'.symm, hb⟩
      refine ⟨s2, by simpa [vm1] using h.blen, ?_, ?_, ?_, ?_, ?_⟩
      · intro b l hb
        rcases hbk b l hb with ⟨_, rfl⟩ | ⟨_, hb⟩
        · exact (h.nodup _ _ hids).filter _
        · exact h.nodup _ _ hb
      · intro b l hb id hid
        show ∃ e, t.entry id = some e ∧ _
        rcases hbk b l hb with ⟨rfl, rfl⟩ | ⟨hne, hb⟩
        · obtain ⟨hm, hsv⟩ := List.mem_filter.mp hid
          obtain ⟨e, he, heb⟩ := h.mem _ _ hids id hm
          refine ⟨e, ?_, heb⟩
          have : e.survives pass = true := by simpa [surv, he] using hsv
          rw [hent, he]; simp [this]
        · obtain ⟨e, he, heb⟩ := h.mem _ _ hb id hid
          refine ⟨e, ?_, heb⟩
          rw [hent, he]; simp [heb, hne]
      · intro id e he
        exact h.hash id e (hsome id e he).1
      · intro id e he
        obtain ⟨he', hx⟩ := hsome id e he
        obtain ⟨l, h1, h2⟩ := h.bucket id e he'
        show ∃ l, (vm.sbuckets.set i _)[_]? = _ ∧ _
        rw [List.getElem?_set]
        by_cases hb : i = e.hash &&& 255
        · refine ⟨_, by rw [if_pos hb, if_pos hlt], ?_⟩
          rw [← hb, hids] at h1; cases h1
          refine List.mem_filter.mpr ⟨h2, ?_⟩
          have : e.survives pass = true := by
            cases hy : e.survives pass with
            | true => rfl
            | false => exact absurd ⟨hb.symm, hy⟩ hx
          simpa [surv, he'] using this
        · exact ⟨l, by simp [hb, h1], h2⟩
      · intro x y e e' hx hy
        exact h.inj x y e e' (hsome x e hx).1 (hsome y e' hy).1
    obtain ⟨t', b', c1, c2, c3⟩ := ih (i + 1) (by omega) vm1 hw1
    refine ⟨t', b', ?_, c2, ?_⟩
    · unfold cleanOldStrings
      simp only [M.bind_eq, get_run, hids, s1, modify_run]
      exact c1
    · intro j
      rw [c3 j]
      show (match t.entry j with
        | some e => if i + 1 ≤ e.hash &&& 255 ∧ e.survives pass = false then none else some e
        | none => none) = _
      rw [hent j]
      cases he : vm.strings.entry j with
      | none => rfl
      | some e =>
        simp only
        by_cases hb : e.hash &&& 255 = i
        · cases hsv : e.survives pass with
          | true => simp [hsv]
          | false => simp [hb, hsv]
        · by_cases hle : i ≤ e.hash &&& 255
          · have : i + 1 ≤ e.hash &&& 255 := by omega
            simp [hb, this, hle]
          · have : ¬ i + 1 ≤ e.hash &&& 255 := by omega
            simp [hb, this, hle]

theorem create_strings : VM.create.strings = Table.init := rfl
theorem create_sbuckets : VM.create.sbuckets = List.replicate 256 [] := rfl

theorem create_bucket {b : Nat} {ids : List Nat} (h : VM.create.sbuckets[b]? = some ids) : ids = [] := by
  rw [create_sbuckets, List.getElem?_replicate] at h
  split at h
  · cases h; rfl
  · cases h

theorem create_strWF : StrWF VM.create where
  tab := Table.init_wf
  blen := by rw [create_sbuckets, List.length_replicate]
  nodup := by
    intro b ids h
    rw [create_bucket h]; exact List.nodup_nil
  mem := by
    intro b ids h id hid
    rw [create_bucket h] at hid; cases hid
  hash := by intro id e h; rw [create_strings, Table.init_entry] at h; cases h
  bucket := by intro id e h; rw [create_strings, Table.init_entry] at h; cases h
  inj := by intro i j e e' h; rw [create_strings, Table.init_entry] at h; cases h

/-- Changing the mark or protection of strings keeps the table consistent. -/
theorem StrWF.retag {vm : VM} (h : StrWF vm) {t : Table Str} (hw : t.WF)
    (he : ∀ j, (t.entry j).map (fun e => (e.str, e.hash)) =
      (vm.strings.entry j).map (fun e => (e.str, e.hash))) :
    StrWF (vm.setStr t vm.sbuckets) := by
  have fwd : ∀ {j e}, t.entry j = some e →
      ∃ e', vm.strings.entry j = some e' ∧ e'.str = e.str ∧ e'.hash = e.hash := by
    intro j e hj
    have := he j
    rw [hj] at this
    cases hv : vm.strings.entry j with
    | none => rw [hv] at this; cases this
    | some e' =>
      rw [hv] at this
      simp at this
      exact ⟨e', rfl, this.1.symm, this.2.symm⟩
  have bwd : ∀ {j e}, vm.strings.entry j = some e →
      ∃ e', t.entry j = some e' ∧ e'.str = e.str ∧ e'.hash = e.hash := by
    intro j e hj
    have := he j
    rw [hj] at this
    cases hv : t.entry j with
    | none => rw [hv] at this; cases this
    | some e' =>
      rw [hv] at this
      simp at this
      exact ⟨e', rfl, this.1, this.2⟩
  refine ⟨hw, h.blen, h.nodup, ?_, ?_, ?_, ?_⟩
  · intro b ids hb id hid
    obtain ⟨e, h1, h2⟩ := h.mem b ids hb id hid
    obtain ⟨e', h3, _, h4⟩ := bwd h1
    exact ⟨e', h3, by rw [h4]; exact h2⟩
  · intro id e hid
    obtain ⟨e', h1, h2, h3⟩ := fwd hid
    rw [← h2, ← h3]; exact h.hash id e' h1
  · intro id e hid
    obtain ⟨e', h1, h2, h3⟩ := fwd hid
    rw [← h3]; exact h.bucket id e' h1
  · intro i j e e' hi hj hs
    obtain ⟨x, h1, h2, _⟩ := fwd hi
    obtain ⟨y, h3, h4, _⟩ := fwd hj
    exact h.inj i j x y h1 h3 (by rw [h2, h4, hs])

/-- Rewriting one live string entry without changing text and hash. -/
theorem StrWF.retag1 {vm : VM} (h : StrWF vm) {id : Nat} {e e' : Str} (he : vm.strings.entry id = some e)
    (h1 : e'.str = e.str) (h2 : e'.hash = e.hash) :
    ∃ t, vm.strings.write id (some e') = .ok t ∧ StrWF (vm.setStr t vm.sbuckets) ∧
      ∀ j, t.entry j = if j = id then some e' else vm.strings.entry j := by
  obtain ⟨a, b, c⟩ := Table.write_live h.tab he e'
  refine ⟨_, a, h.retag b ?_, c⟩
  intro j
  rw [c]
  split
  · next hj => subst hj; rw [he]; simp [h1, h2]
  · rfl

theorem markString_live {vm : VM} (h : StrWF vm) (pass : Nat) {id : Nat} {e : Str}
    (he : vm.strings.entry id = some e) :
    ∃ t, markString pass id vm = .ok ((), vm.setStr t vm.sbuckets) ∧ StrWF (vm.setStr t vm.sbuckets) ∧
      ∀ j, t.entry j = if j = id then some { e with lastGCPass := pass } else vm.strings.entry j := by
  obtain ⟨t, a, b, c⟩ := h.retag1 (e' := { e with lastGCPass := pass }) he rfl rfl
  refine ⟨t, ?_, b, c⟩
  simp only [markString, M.bind_eq, getStrEntry_run h.tab, he, a]
  rfl

theorem markString_dead {vm : VM} (h : StrWF vm) (pass : Nat) {id : Nat}
    (he : vm.strings.entry id = none) :
    markString pass id vm = .ok ((), vm.addErr "GC error: Bad string table index.") := by
  simp only [markString, M.bind_eq, getStrEntry_run h.tab, he, addError_run]

theorem StrWF.addErr {vm : VM} (h : StrWF vm) (e : String) : StrWF (vm.addErr e) :=
  ⟨h.tab, h.blen, h.nodup, h.mem, h.hash, h.bucket, h.inj⟩

/-- Interning never fails, keeps the table consistent and every string already there. -/
theorem findOrAddString_ok {vm : VM} (h : StrWF vm) (s : Bytes) :
    ∃ id vm', findOrAddString s vm = .ok (id, vm') ∧ StrWF vm' ∧
      (∀ j e, vm.strings.entry j = some e → vm'.strings.entry j = some e) := by
  rcases findOrAddString_spec h s with ⟨id, e, h1, _⟩ | ⟨id, t, b, h1, h2, h3, h4, _⟩ | ⟨h1, _⟩
  · exact ⟨id, vm, h1, h, fun _ _ he => he⟩
  · refine ⟨id, _, h1, h2, fun j e he => ?_⟩
    have : j ≠ id := by rintro rfl; rw [h3] at he; cases he
    simp [h4, this, he]
  · exact ⟨_, _, h1, h.addErr _, fun _ _ he => he⟩

end Nk
