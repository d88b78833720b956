import Verif.Lemmas.SaveRun
/-!
# Reading back the tables: strings, functions, objects
-/
namespace Nk.Save
variable {α β : Type}

/-! ## Filling buckets -/

/-- The elements of a list distributed over `n` buckets, each latest first. -/
def packBy (n : Nat) (f : α → Nat) (l : List α) : List (List α) :=
  (List.range n).map fun b => (l.filter fun x => f x = b).reverse

theorem packBy_length (n : Nat) (f : α → Nat) (l : List α) : (packBy n f l).length = n := by simp [packBy]

theorem packBy_get {n : Nat} {f : α → Nat} {l : List α} {b : Nat} (h : b < n) :
    (packBy n f l)[b]? = some (l.filter fun x => f x = b).reverse := by
  simp [packBy, h]

theorem packBy_nil (n : Nat) (f : α → Nat) : packBy n f [] = List.replicate n [] := by
  apply List.ext_getElem?
  intro i
  by_cases h : i < n
  · rw [packBy_get h, List.getElem?_replicate, if_pos h]; rfl
  · rw [List.getElem?_eq_none (by rw [packBy_length]; omega), List.getElem?_eq_none (by simp; omega)]

theorem packBy_snoc {n : Nat} {f : α → Nat} {l : List α} {x : α} (h : f x < n) :
    packBy n f (l ++ [x]) = (packBy n f l).set (f x) (x :: (l.filter fun y => f y = f x).reverse) := by
  apply List.ext_getElem?
  intro i
  by_cases hi : i < n
  · rw [packBy_get hi, List.getElem?_set, packBy_length, packBy_get hi]
    split
    · next e => subst e; simp
    · next e => simp [List.filter_append, List.filter_cons, e]
  · rw [List.getElem?_eq_none (by rw [packBy_length]; omega),
      List.getElem?_eq_none (by rw [List.length_set, packBy_length]; omega)]

/-! ## Entries of a table -/

theorem entries_run {t : Table α} (h : t.slots.length = t.cap) : entries t = .ok (entriesFrom 0 t.slots) := by
  unfold entries
  rw [if_neg (by omega), List.take_of_length_le (by omega)]

theorem mem_entriesFrom {xs : List (Option α)} {i n : Nat} {x : α} :
    (n, x) ∈ entriesFrom i xs ↔ i ≤ n ∧ xs[n - i]? = some (some x) := by
  induction xs generalizing i with
  | nil => simp [entriesFrom]
  | cons o xs ih =>
    have step : i + 1 ≤ n → n - i = (n - (i + 1)) + 1 := by omega
    cases o with
    | none =>
      rw [entriesFrom, ih]
      constructor
      · rintro ⟨h1, h2⟩
        refine ⟨by omega, ?_⟩
        rw [step h1, List.getElem?_cons_succ]; exact h2
      · rintro ⟨h1, h2⟩
        by_cases hn : n = i
        · subst hn; simp at h2
        · refine ⟨by omega, ?_⟩
          rw [step (by omega), List.getElem?_cons_succ] at h2; exact h2
    | some y =>
      rw [entriesFrom, List.mem_cons, ih]
      constructor
      · rintro (h | ⟨h1, h2⟩)
        · cases h; simp
        · refine ⟨by omega, ?_⟩
          rw [step h1, List.getElem?_cons_succ]; exact h2
      · rintro ⟨h1, h2⟩
        by_cases hn : n = i
        · subst hn; left; simp at h2; rw [h2]
        · right
          refine ⟨by omega, ?_⟩
          rw [step (by omega), List.getElem?_cons_succ] at h2; exact h2

theorem entriesFrom_length_le {xs : List (Option α)} {i : Nat} : (entriesFrom i xs).length ≤ xs.length := by
  induction xs generalizing i with
  | nil => simp [entriesFrom]
  | cons o xs ih =>
    cases o with
    | none => rw [entriesFrom]; have := ih (i := i + 1); simp; omega
    | some y => rw [entriesFrom]; have := ih (i := i + 1); simp; omega

theorem entriesFrom_nodup {xs : List (Option α)} {i : Nat} : ((entriesFrom i xs).map (·.1)).Nodup := by
  induction xs generalizing i with
  | nil => simp [entriesFrom]
  | cons o xs ih =>
    cases o with
    | none => exact ih
    | some y =>
      rw [entriesFrom, List.map_cons, List.nodup_cons]
      refine ⟨?_, ih⟩
      rw [List.mem_map]
      rintro ⟨⟨a, b⟩, h1, h2⟩
      have := (mem_entriesFrom.mp h1).1
      simp at h2
      omega

theorem mem_holesFrom {xs : List (Option α)} {i : Nat} {acc : List Nat} {n : Nat} :
    n ∈ holesFrom i acc xs ↔ n ∈ acc ∨ (i ≤ n ∧ xs[n - i]? = some none) := by
  induction xs generalizing i acc with
  | nil => simp [holesFrom]
  | cons o xs ih =>
    have step : i + 1 ≤ n → n - i = (n - (i + 1)) + 1 := by omega
    cases o with
    | none =>
      rw [holesFrom, ih, List.mem_cons]
      constructor
      · rintro ((rfl | h) | ⟨h1, h2⟩)
        · right; simp
        · exact .inl h
        · right
          refine ⟨by omega, ?_⟩
          rw [step h1, List.getElem?_cons_succ]; exact h2
      · rintro (h | ⟨h1, h2⟩)
        · exact .inl (.inr h)
        · by_cases hn : n = i
          · exact .inl (.inl hn)
          · right
            refine ⟨by omega, ?_⟩
            rw [step (by omega), List.getElem?_cons_succ] at h2; exact h2
    | some y =>
      rw [holesFrom, ih]
      constructor
      · rintro (h | ⟨h1, h2⟩)
        · exact .inl h
        · right
          refine ⟨by omega, ?_⟩
          rw [step h1, List.getElem?_cons_succ]; exact h2
      · rintro (h | ⟨h1, h2⟩)
        · exact .inl h
        · by_cases hn : n = i
          · subst hn; simp at h2
          · right
            refine ⟨by omega, ?_⟩
            rw [step (by omega), List.getElem?_cons_succ] at h2; exact h2

theorem holesFrom_nodup {xs : List (Option α)} {i : Nat} {acc : List Nat} (h : acc.Nodup) (hi : ∀ n ∈ acc, n < i) :
    (holesFrom i acc xs).Nodup := by
  induction xs generalizing i acc with
  | nil => exact h
  | cons o xs ih =>
    cases o with
    | none =>
      refine ih (List.nodup_cons.mpr ⟨fun hm => ?_, h⟩) fun n hn => ?_
      · exact absurd (hi i hm) (by omega)
      · rcases List.mem_cons.mp hn with rfl | hn
        · omega
        · have := hi n hn; omega
    | some y => exact ih h fun n hn => by have := hi n hn; omega

/-- A table with the hole list made anew. -/
theorem rebuilt_wf {t : Table α} {slots : List (Option α)} {cap : Nat} (hl : slots.length = cap)
    (hp : ∃ k, k ≤ 31 ∧ cap = 2 ^ k) : Table.WF (⟨slots, cap, holesFrom 0 [] slots⟩ : Table α) where
  len := hl
  pow := hp
  nodup := holesFrom_nodup (by simp) (by simp)
  holes i := by
    show i ∈ holesFrom 0 [] slots ↔ _
    rw [mem_holesFrom]
    simp

/-! ## Strings -/

/-- The bytes of one string. -/
def strBytes (e : Nat × Str) : Bytes :=
  le32 e.1 ++ ((le32 e.2.str.length ++ e.2.str) ++ (le32 e.2.lastGCPass ++ [if e.2.dontGC then 1 else 0]))

/-- The bytes of the string table. -/
def strImage (vm : VM) : Bytes :=
  le32 vm.strings.cap ++ (le32 (entriesFrom 0 vm.strings.slots).length ++
    (entriesFrom 0 vm.strings.slots).flatMap strBytes)

theorem saveStrings_writes {vm : VM} (hl : vm.strings.slots.length = vm.strings.cap)
    (hp : ∃ k, vm.strings.cap = 2 ^ k) (hs : ∀ e, some e ∈ vm.strings.slots → StrOK e) :
    Writes saveStrings vm (strImage vm) := by
  obtain ⟨k, hk⟩ := hp
  unfold saveStrings Writes
  rw [M.bind_ok (get_run _)]
  refine Writes.andThen .emit ?_
  rw [if_neg (by rw [hk, isPow2_pow]; simp)]
  have : liftR (entries vm.strings) vm = .ok (entriesFrom 0 vm.strings.slots, vm) := by rw [entries_run hl]; rfl
  unfold Writes
  rw [M.bind_ok this]
  refine Writes.andThen .emit (.all fun e he => ?_)
  obtain ⟨n, s⟩ := e
  have := hs s (List.mem_of_getElem? (mem_entriesFrom.mp he).2)
  exact Writes.andThen .emit (Writes.andThen (.string this.text.2) .emit)

/-- The state while strings are being loaded. -/
def strState (v : VM) (cap : Nat) (slots : List (Option Str)) (done : List (Nat × Str)) : VM :=
  { v with strings := { slots, cap, holes := [] }
           sbuckets := (packBy 256 (fun e : Nat × Str => e.2.hash &&& 255) done).map (·.map (·.1)) }

theorem loadStr_run {v : VM} {cap : Nat} {pre post : List (Option Str)} {done : List (Nat × Str)} {e : Str}
    (he : StrOK e) (hi : pre.length < cap) (hc : cap < 4294967296) (r : Bytes) :
    loadStr (strBytes (pre.length, e) ++ r) (strState v cap (pre ++ none :: post) done) =
      .ok ((some (), r), strState v cap (pre ++ some e :: post) (done ++ [(pre.length, e)])) := by
  unfold loadStr strBytes
  simp only [List.append_assoc]
  rw [L.bind_some (read32_run (by omega) _ _), L.bind_some (get_lift _ _), if_neg (by exact Nat.not_le.mpr hi),
    L.bind_some (loadString_run he.text _ _)]
  have hread : lift (liftR ((strState v cap (pre ++ none :: post) done).strings.read pre.length)) =
      fun b => lift (liftR (.ok none)) b := by
    congr 2
    simp [Table.read, strState]
  have h1 : ∀ (b : Bytes) (w : VM),
      lift (liftR ((strState v cap (pre ++ none :: post) done).strings.read pre.length)) b w = .ok ((some none, b), w) := by
    intro b w; rw [hread]; rfl
  rw [L.bind_some (h1 _ _)]
  dsimp only
  rw [L.bind_some (upd_run _ _ _), L.bind_some (read32_run he.pass _ _)]
  have hb : (if e.dontGC then (1 : UInt8) else 0) = UInt8.ofNat (if e.dontGC then 1 else 0) := by cases e.dontGC <;> rfl
  rw [hb, List.singleton_append, L.bind_some (read8_run (by split <;> omega) _ _), L.bind_some (get_lift _ _)]
  have hlt : stringHash e.str &&& 255 < 256 := Nat.lt_of_le_of_lt Nat.and_le_right (by omega)
  have hd : decide ((if e.dontGC then 1 else 0) ≠ 0) = e.dontGC := by cases e.dontGC <;> rfl
  have hbk : ((packBy 256 (fun e : Nat × Str => e.2.hash &&& 255) done).map (·.map (·.1)))[stringHash e.str &&& 255]? =
      some ((done.filter fun x => (x.2.hash &&& 255) = stringHash e.str &&& 255).reverse.map (·.1)) := by
    rw [List.getElem?_map, packBy_get hlt]; rfl
  dsimp only [strState]
  rw [hbk]
  dsimp only
  rw [upd_run, hd]
  dsimp only
  have hsb : (packBy 256 (fun e : Nat × Str => e.2.hash &&& 255) (done ++ [(pre.length, e)])).map (·.map (·.1)) =
      ((packBy 256 (fun e : Nat × Str => e.2.hash &&& 255) done).map (·.map (·.1))).set (stringHash e.str &&& 255)
        (pre.length :: (done.filter fun x => (x.2.hash &&& 255) = stringHash e.str &&& 255).reverse.map (·.1)) := by
    rw [packBy_snoc (by dsimp only; rw [he.hash]; exact hlt), List.map_set]
    dsimp only
    rw [he.hash]
    rfl
  rw [hsb]
  have hst : (⟨e.str, stringHash e.str, e.lastGCPass, e.dontGC⟩ : Str) = e := by rw [← he.hash]
  rw [hst]
  congr 4
  rw [List.set_set]
  simp

theorem loadStrs_run {v : VM} {cap : Nat} (hc : cap < 4294967296) (r : Bytes) (xs : List (Option Str)) :
    ∀ (pre : List (Option Str)) (done : List (Nat × Str)) (i : Nat), (∀ e, some e ∈ xs → StrOK e) →
    pre.length + xs.length ≤ cap →
    times (fun _ => loadStr) i (entriesFrom pre.length xs).length ((entriesFrom pre.length xs).flatMap strBytes ++ r)
      (strState v cap (pre ++ List.replicate xs.length none) done) =
      .ok ((some (), r), strState v cap (pre ++ xs) (done ++ entriesFrom pre.length xs)) := by
  induction xs with
  | nil => intro pre done i _ _; simp [entriesFrom, times]; rfl
  | cons o xs ih =>
    intro pre done i hs hlen
    have hlen' : pre.length + (xs.length + 1) ≤ cap := hlen
    cases o with
    | none =>
      rw [entriesFrom]
      have := ih (pre ++ [none]) done i (fun e he => hs e (by simp [he])) (by simp; omega)
      simp only [List.length_append, List.length_cons, List.length_nil, List.append_assoc, List.singleton_append,
        Nat.zero_add] at this
      rw [List.length_cons, List.replicate_succ]
      exact this
    | some e =>
      rw [entriesFrom, List.length_cons, List.flatMap_cons, List.append_assoc, List.length_cons, List.replicate_succ]
      unfold times
      rw [L.bind_some (loadStr_run (hs e (by simp)) (by omega) hc _)]
      have := ih (pre ++ [some e]) (done ++ [(pre.length, e)]) (i + 1) (fun e he => hs e (by simp [he])) (by simp; omega)
      simp only [List.length_append, List.length_cons, List.length_nil, List.append_assoc, List.singleton_append,
        Nat.zero_add] at this
      exact this

/-- The VM after its strings were loaded. -/
def strLoaded (vm v : VM) : VM :=
  { strState v vm.strings.cap vm.strings.slots (entriesFrom 0 vm.strings.slots) with
    strings := { slots := vm.strings.slots, cap := vm.strings.cap, holes := holesFrom 0 [] vm.strings.slots } }

theorem loadStrings_run {vm : VM} (hl : vm.strings.slots.length = vm.strings.cap)
    (hp : ∃ k, vm.strings.cap = 2 ^ k) (ha : vm.strings.cap < UINT_MAX / 8)
    (hs : ∀ e, some e ∈ vm.strings.slots → StrOK e) (r : Bytes) (v : VM) :
    loadStrings (strImage vm ++ r) v = .ok ((some (), r), strLoaded vm v) := by
  obtain ⟨k, hk⟩ := hp
  have hc : vm.strings.cap < 4294967296 := by unfold UINT_MAX at ha; omega
  unfold loadStrings strImage
  simp only [List.append_assoc]
  rw [L.bind_some (read32_run hc _ _), L.bind_some (upd_run _ _ _), if_neg (by omega),
    L.bind_some (mallocArray_run ha _ _), L.bind_some (upd_run _ _ _), if_neg (by rw [hk, isPow2_pow]; simp),
    L.bind_some (read32_run (by have := entriesFrom_length_le (xs := vm.strings.slots) (i := 0); omega) _ _)]
  have key := loadStrs_run (v := v) hc r vm.strings.slots [] [] 0 hs (by simp; omega)
  have hstart : strState v vm.strings.cap ([] ++ List.replicate vm.strings.slots.length none) [] =
      { v with strings := { slots := List.replicate vm.strings.cap none, cap := vm.strings.cap, holes := [] }
               sbuckets := List.replicate 256 [] } := by
    unfold strState
    rw [packBy_nil, hl, List.map_replicate]
    rfl
  rw [hstart] at key
  exact (L.bind_some key).trans rfl

/-! ## The collector's numbers -/

/-- The bytes of the collector's numbers. -/
def gcImage (g : GCInfo) : Bytes :=
  le32 g.lastGCPass ++ le32 g.interval ++ le32 g.countdown ++ le32 g.newObjInterval ++ le32 g.newObjCountdown

/-- The interval is capped when saving and when loading. -/
def capGc (g : GCInfo) : GCInfo := { g with interval := min g.interval 65536 }

theorem saveGc_run (vm : VM) : saveGc vm = .ok ((true, gcImage vm.gc), { vm with gc := capGc vm.gc }) := rfl

theorem loadGc_run {g : GCInfo} (h : GcOK g) (r : Bytes) (v : VM) :
    loadGc (gcImage g ++ r) v = .ok ((some (), r), { v with gc := capGc g }) := by
  unfold loadGc gcImage
  simp only [List.append_assoc]
  rw [L.bind_some (read32_run h.pass _ _), L.bind_some (read32_run h.interval _ _),
    L.bind_some (read32_run h.countdown _ _), L.bind_some (read32_run h.newInterval _ _),
    L.bind_some (read32_run h.newCountdown _ _), upd_run]
  rfl

end Nk.Save
