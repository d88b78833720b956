import Verif.Model.Handles
import Verif.Props.GC
/-!
# C14: external handles

First the pointer-level list is shown to implement the list `VM.handles`; then histories of acquire and
release.
-/
namespace Nk.Props

/-! ## The linked list -/

/-- The links from `p` (which contains `hd`) run through `l` and back-pointers agree. -/
def Seg (h : HList) (p : PPtr) (hd : Option Nat) : List Nat → Prop
  | [] => hd = none
  | i :: l => hd = some i ∧ h.prev i = some p ∧ Seg h (.next i) (h.next i) l

/-- The links represent the list `l`, and objects outside are unlinked. -/
structure HRep (h : HList) (l : List Nat) : Prop where
  nodup : l.Nodup
  seg : Seg h .head h.head l
  out : ∀ i, i ∉ l → h.next i = none ∧ h.prev i = none

theorem Seg.congr {h h' : HList} {l : List Nat} (hc : ∀ i ∈ l, h'.next i = h.next i ∧ h'.prev i = h.prev i) :
    ∀ {p : PPtr} {hd : Option Nat}, Seg h p hd l → Seg h' p hd l := by
  induction l with
  | nil => intro p hd h; exact h
  | cons i l ih =>
    rintro p hd ⟨h1, h2, h3⟩
    refine ⟨h1, by rw [(hc i (by simp)).2]; exact h2, ?_⟩
    rw [(hc i (by simp)).1]
    exact ih (fun j hj => hc j (by simp [hj])) h3

/-- The first list, without members. -/
theorem rep_empty : HRep HList.empty [] := ⟨by simp, rfl, fun _ _ => ⟨rfl, rfl⟩⟩

/-- Acquiring the first handle puts the object in front of the list. -/
theorem C14_link {h : HList} {l : List Nat} {id : Nat} (hr : HRep h l) (hid : id ∉ l) :
    ∃ h', h.link id = .ok h' ∧ HRep h' (id :: l) := by
  obtain ⟨o1, o2⟩ := hr.out id hid
  unfold HList.link
  rw [if_neg (by simp [o1]), if_neg (by simp [o2])]
  refine ⟨_, rfl, ⟨List.nodup_cons.mpr ⟨hid, hr.nodup⟩, ?_, ?_⟩⟩
  · cases l with
    | nil =>
      have hh : h.head = none := hr.seg
      simp [Seg, HList.setPrev, HList.store, hh]
    | cons f l =>
      obtain ⟨s1, s2, s3⟩ := hr.seg
      have hf : id ≠ f := fun e => hid (by simp [e])
      have hf' : f ≠ id := fun e => hf e.symm
      rw [s1]
      refine ⟨rfl, by simp [HList.setPrev, HList.store, hf], by simp [HList.setPrev, HList.store],
        by simp [HList.setPrev, HList.store], ?_⟩
      simp only [HList.setPrev, HList.store, if_neg hf']
      refine Seg.congr ?_ s3
      intro i hi
      have h1 : i ≠ id := fun e => hid (by simp [← e, hi])
      have h2 : i ≠ f := fun e => (List.nodup_cons.mp hr.nodup).1 (by rw [← e]; exact hi)
      simp [h1, h2]
  · intro i hi
    have h1 : i ≠ id := fun e => hi (by simp [e])
    have h2 : i ∉ l := fun e => hi (by simp [e])
    obtain ⟨k1, k2⟩ := hr.out i h2
    cases hh : h.head with
    | none => simp [HList.setPrev, HList.store, h1, k1, k2]
    | some f =>
      have h3 : i ≠ f := by
        intro e
        cases l with
        | nil => have : h.head = none := hr.seg; rw [hh] at this; cases this
        | cons g l =>
          have := hr.seg.1
          rw [hh] at this
          cases this
          exact h2 (by simp [e])
      simp [HList.setPrev, HList.store, h1, h3, k1, k2]

/-- The link that leads to what follows `l1`. -/
def lastPtr (p : PPtr) : List Nat → PPtr
  | [] => p
  | i :: l => lastPtr (.next i) l

theorem lastPtr_mem {p : PPtr} {l : List Nat} {a : Nat} (h : lastPtr p l = .next a) :
    a ∈ l ∨ (l = [] ∧ p = .next a) := by
  induction l generalizing p with
  | nil => exact Or.inr ⟨rfl, h⟩
  | cons i l ih =>
    rcases ih h with h | ⟨_, h⟩
    · exact Or.inl (by simp [h])
    · cases h; exact Or.inl (by simp)

theorem seg_prev {h : HList} {l1 l2 : List Nat} {id : Nat} :
    ∀ {p : PPtr} {hd : Option Nat}, Seg h p hd (l1 ++ id :: l2) →
      h.prev id = some (lastPtr p l1) ∧ Seg h (.next id) (h.next id) l2 := by
  induction l1 with
  | nil => rintro p hd ⟨_, h2, h3⟩; exact ⟨h2, h3⟩
  | cons a l1 ih => rintro p hd ⟨_, _, h3⟩; exact ih h3

/-- Cutting `id` out of a segment. -/
theorem seg_cut {h h' : HList} {id : Nat} {l2 : List Nat} {q : PPtr}
    (hpre : ∀ i, i ≠ id → (l2.head? ≠ some i) → h'.prev i = h.prev i)
    (hfirst : ∀ i, l2.head? = some i → h'.prev i = some q)
    (hnext : ∀ i, i ≠ id → h'.next i = if PPtr.next i = q then h.next id else h.next i) :
    ∀ {l1 : List Nat} {p : PPtr} {hd : Option Nat}, (l1 ++ id :: l2).Nodup → q = lastPtr p l1 →
      Seg h p hd (l1 ++ id :: l2) → (∀ a ∈ l2, q ≠ .next a) →
      Seg h' p (if l1 = [] then h.next id else hd) (l1 ++ l2) := by
  intro l1
  induction l1 with
  | nil =>
    intro p hd hn hq hs hq2
    obtain ⟨h1, h2, h3⟩ := hs
    simp only [if_true, List.nil_append]
    have hq : q = p := hq
    cases l2 with
    | nil => exact h3
    | cons f l2 =>
      obtain ⟨k1, k2, k3⟩ := h3
      have hn' := List.nodup_cons.mp hn
      have hfid : f ≠ id := fun e => hn'.1 (by simp [e])
      refine ⟨k1, by rw [hfirst f rfl, hq], ?_⟩
      rw [hnext f hfid, if_neg (fun e => hq2 f (by simp) e.symm)]
      refine Seg.congr ?_ k3
      intro i hi
      have hii : i ≠ id := fun e => hn'.1 (by simp [← e, hi])
      have hif : i ≠ f := fun e => (List.nodup_cons.mp hn'.2).1 (by rw [← e]; exact hi)
      refine ⟨?_, ?_⟩
      · rw [hnext i hii, if_neg (fun e => hq2 i (by simp [hi]) e.symm)]
      · exact hpre i hii (by simp; exact fun e => hif e.symm)
  | cons a l1 ih =>
    intro p hd hn hq hs hq2
    obtain ⟨h1, h2, h3⟩ := hs
    have hn' := List.nodup_cons.mp hn
    have haid : a ≠ id := fun e => hn'.1 (by simp [e])
    rw [if_neg (by simp)]
    have hal : l2.head? ≠ some a := fun e => hn'.1 (by simp [List.mem_of_head? e])
    refine ⟨h1, by rw [hpre a haid hal]; exact h2, ?_⟩
    have hq' : q = lastPtr (.next a) l1 := hq
    have hsub := ih hn'.2 hq' h3 hq2
    have : h'.next a = if l1 = [] then h.next id else h.next a := by
      rw [hnext a haid]
      by_cases hl : l1 = []
      · subst hl
        rw [if_pos (show PPtr.next a = q from hq'.symm), if_pos rfl]
      · rw [if_neg hl, if_neg]
        intro e
        rw [hq'] at e
        rcases lastPtr_mem e.symm with h | ⟨h, _⟩
        · exact hn'.1 (by simp [h])
        · exact hl h
    rw [this]
    exact hsub

theorem seg_head {h : HList} {l : List Nat} {p : PPtr} {hd : Option Nat} (hs : Seg h p hd l) :
    hd = l.head? := by
  cases l with
  | nil => exact hs
  | cons i l => exact hs.1

/-- Releasing the last handle takes the object out of the list. -/
theorem C14_unlink {h : HList} {l : List Nat} {id : Nat} (hr : HRep h l) (hid : id ∈ l) :
    ∃ h', h.unlink id = .ok h' ∧ HRep h' (l.erase id) := by
  obtain ⟨l1, l2, rfl⟩ := List.append_of_mem hid
  have hnd := List.nodup_append.mp hr.nodup
  have hid1 : id ∉ l1 := fun e => hnd.2.2 id e id (by simp) rfl
  have hid2 : id ∉ l2 := (List.nodup_cons.mp hnd.2.1).1
  have her : (l1 ++ id :: l2).erase id = l1 ++ l2 := by
    rw [List.erase_append_right _ hid1, List.erase_cons_head]
  obtain ⟨hp, hs2⟩ := seg_prev hr.seg
  have hnx := seg_head hs2
  have hqid : lastPtr .head l1 ≠ .next id := fun e => by
    rcases lastPtr_mem e with h | ⟨_, h⟩
    · exact hid1 h
    · cases h
  have hq2 : ∀ a ∈ l2, lastPtr .head l1 ≠ .next a := fun a ha e => by
    rcases lastPtr_mem e with h | ⟨_, h⟩
    · exact hnd.2.2 a h a (by simp [ha]) rfl
    · cases h
  -- the result, field by field
  have hun : ∃ h', h.unlink id = .ok h' ∧
      h'.head = (if lastPtr .head l1 = .head then h.next id else h.head) ∧
      (∀ i, h'.next i = if i = id then none else if PPtr.next i = lastPtr .head l1 then h.next id else h.next i) ∧
      (∀ i, h'.prev i = if i = id then none else if h.next id = some i then some (lastPtr .head l1)
        else h.prev i) := by
    unfold HList.unlink
    rw [hp]
    generalize hq : lastPtr .head l1 = q at hqid
    cases q with
    | head =>
      cases hn : h.next id with
      | none =>
        refine ⟨_, rfl, ?_, ?_, ?_⟩
        · simp [HList.store, HList.setPrev, hn]
        · intro i; by_cases hi : i = id <;> simp [HList.store, HList.setPrev, hn, hi]
        · intro i; by_cases hi : i = id <;> simp [HList.store, HList.setPrev, hn, hi]
      | some n =>
        refine ⟨_, rfl, ?_, ?_, ?_⟩
        · simp [HList.store, HList.setPrev, hn]
        · intro i; by_cases hi : i = id <;> simp [HList.store, HList.setPrev, hn, hi]
        · intro i; by_cases hi : i = id <;> simp [HList.store, HList.setPrev, hn, hi, hp, hq, eq_comm] <;>
            exact fun e => absurd e.symm hi
    | next a =>
      have ha : id ≠ a := fun e => hqid (by rw [e])
      cases hn : h.next id with
      | none =>
        refine ⟨_, rfl, ?_, ?_, ?_⟩
        · simp [HList.store, HList.setPrev, hn, ha]
        · intro i; by_cases hi : i = id <;> simp [HList.store, HList.setPrev, hn, hi, ha]
        · intro i; by_cases hi : i = id <;> simp [HList.store, HList.setPrev, hn, hi, ha]
      | some n =>
        refine ⟨_, rfl, ?_, ?_, ?_⟩
        · simp [HList.store, HList.setPrev, hn, ha]
        · intro i; by_cases hi : i = id <;> simp [HList.store, HList.setPrev, hn, hi, ha]
        · intro i; by_cases hi : i = id <;> simp [HList.store, HList.setPrev, hn, hi, hp, hq, ha, eq_comm] <;>
            exact fun e => absurd e.symm hi
  obtain ⟨h', e, f1, f2, f3⟩ := hun
  refine ⟨h', e, ?_⟩
  rw [her]
  have hcut := seg_cut (h := h) (h' := h') (id := id) (l2 := l2) (q := lastPtr .head l1)
    (fun i hi hne => by rw [f3, if_neg hi, if_neg (by rw [hnx]; exact hne)])
    (fun i hi => by
      have : i ≠ id := fun e => hid2 (by rw [← e]; exact List.mem_of_head? hi)
      rw [f3, if_neg this, if_pos (by rw [hnx]; exact hi)])
    (fun i hi => by rw [f2, if_neg hi]) hr.nodup rfl hr.seg hq2
  refine ⟨by rw [← her]; exact hr.nodup.erase id, ?_, ?_⟩
  · have : h'.head = if l1 = [] then h.next id else h.head := by
      rw [f1]
      cases l1 with
      | nil => rfl
      | cons a l1 =>
        have : ∀ (l : List Nat) p, lastPtr (.next p) l ≠ .head := by
          intro l
          induction l with
          | nil => intro p; simp [lastPtr]
          | cons i l ih => intro p; exact ih i
        rw [if_neg (show lastPtr .head (a :: l1) ≠ .head from this l1 a), if_neg (by simp)]
    rw [this]
    exact hcut
  · intro i hi
    by_cases hii : i = id
    · rw [f2, f3, if_pos hii, if_pos hii]; exact ⟨rfl, rfl⟩
    · have hout := hr.out i (by
        intro hm
        rcases List.mem_append.mp hm with h | h
        · exact hi (by simp [h])
        · rcases List.mem_cons.mp h with h | h
          · exact hii h
          · exact hi (by simp [h]))
      rw [f2, f3, if_neg hii, if_neg hii, if_neg, if_neg]
      · exact hout
      · rw [hnx]; intro e; exact hi (by simp [List.mem_of_head? e])
      · intro e
        rcases lastPtr_mem e.symm with h | ⟨_, h⟩
        · exact hi (by simp [h])
        · cases h

/-! ## Histories -/
variable (H : Host)

/-- The operations so far, newest first: object and `true` for acquire, `false` for release. -/
abbrev HandleLog := List (Nat × Bool)

/-- How often the object was acquired. -/
def acquired (w : HandleLog) (id : Nat) : Nat := w.count (id, true)
/-- How often the object was released. -/
def released (w : HandleLog) (id : Nat) : Nat := w.count (id, false)

/-- Histories of balanced acquire and release calls, with collections and anything else in between. -/
inductive HandleHistory : VM → HandleLog → Prop
  | start : HandleHistory VM.create []
  | acquire {vm vm' : VM} {w : HandleLog} {id : Nat} {o : Obj} : HandleHistory vm w → vm.objects.WF →
      vm.objects.entry id = some o → acquired w id < released w id + 4294967295 →
      acquireHandle (.obj id) vm = .ok ((), vm') → HandleHistory vm' ((id, true) :: w)
  | release {vm vm' : VM} {w : HandleLog} {id : Nat} {o : Obj} : HandleHistory vm w → vm.objects.WF →
      vm.objects.entry id = some o → released w id < acquired w id →
      releaseHandle (.obj id) vm = .ok ((), vm') → HandleHistory vm' ((id, false) :: w)
  | collect {vm vm' : VM} {w : HandleLog} : HandleHistory vm w → HeapWF vm →
      vm.gc.lastGCPass + 1 < 4294967296 → garbageCollect H vm = .ok ((), vm') → HandleHistory vm' w
  /-- anything else: objects that are held stay, counts stay, new objects have none -/
  | other {vm vm' : VM} {w : HandleLog} : HandleHistory vm w → vm'.handles = vm.handles →
      (∀ id o, vm.objects.entry id = some o → o.handleCount ≠ 0 → (vm'.objects.entry id).isSome) →
      (∀ id o', vm'.objects.entry id = some o' →
        o'.handleCount = ((vm.objects.entry id).map Obj.handleCount).getD 0) → HandleHistory vm' w

/-- The counts and the list agree with the log. -/
structure HandleRep (vm : VM) (w : HandleLog) : Prop where
  nodup : vm.handles.Nodup
  bal : ∀ id, released w id ≤ acquired w id ∧ acquired w id - released w id < 4294967296
  mem : ∀ id, id ∈ vm.handles ↔ released w id < acquired w id
  live : ∀ id, released w id < acquired w id → ∃ o, vm.objects.entry id = some o
  count : ∀ id o, vm.objects.entry id = some o → o.handleCount = acquired w id - released w id

theorem acq_cons (w : HandleLog) (id j : Nat) :
    acquired ((id, true) :: w) j = acquired w j + (if j = id then 1 else 0) ∧
    released ((id, true) :: w) j = released w j ∧
    acquired ((id, false) :: w) j = acquired w j ∧
    released ((id, false) :: w) j = released w j + (if j = id then 1 else 0) := by
  unfold acquired released
  by_cases h : j = id
  · subst h
    simp [List.count_cons]
  · have h' : ¬ id = j := fun e => h e.symm
    simp [List.count_cons, h, h']

/-- Effect of acquiring, spelled out. -/
theorem acquire_run {vm : VM} (hw : vm.objects.WF) {id : Nat} {o : Obj} (he : vm.objects.entry id = some o)
    (hc : o.handleCount < 4294967295) (hm : o.handleCount = 0 → id ∉ vm.handles) :
    acquireHandle (.obj id) vm = .ok ((), if o.handleCount = 0 then
      { vm.setO id { o with handleCount := 1 } with handles := id :: vm.handles }
      else vm.setO id { o with handleCount := o.handleCount + 1 }) := by
  have hu : u32 (o.handleCount + 1) = o.handleCount + 1 := Nat.mod_eq_of_lt (by unfold U32; omega)
  by_cases h0 : o.handleCount = 0
  · have := hm h0
    rw [h0] at hu
    simp [acquireHandle, objFromValue, M.bind_eq, getObj_run hw, he, hu, h0, this, setObj_run hw he, VM.setO]
  · have h1 : 0 < o.handleCount := by omega
    simp [acquireHandle, objFromValue, M.bind_eq, getObj_run hw, he, hu, h0, setObj_run hw he, VM.setO, h1]

/-- Effect of releasing a held handle, spelled out. -/
theorem release_run {vm : VM} (hw : vm.objects.WF) {id : Nat} {o : Obj} (he : vm.objects.entry id = some o)
    (hc : o.handleCount < 4294967296) (h0 : o.handleCount ≠ 0) (hm : id ∈ vm.handles) :
    releaseHandle (.obj id) vm = .ok ((), if o.handleCount = 1 then
      { vm.setO id { o with handleCount := 0 } with handles := vm.handles.erase id }
      else vm.setO id { o with handleCount := o.handleCount - 1 }) := by
  have hu : usub o.handleCount 1 = o.handleCount - 1 := by
    unfold usub u32 U32
    omega
  by_cases h1 : o.handleCount = 1
  · rw [h1] at hu
    simp [releaseHandle, objFromValue, M.bind_eq, getObj_run hw, he, hu, h1, hm, setObj_run hw he, VM.setO]
  · have h2 : 1 < o.handleCount := by omega
    simp [releaseHandle, objFromValue, M.bind_eq, getObj_run hw, he, hu, h0, h1, setObj_run hw he, VM.setO, h2]

theorem handle_rep {vm : VM} {w : HandleLog} (h : HandleHistory H vm w) : HandleRep vm w := by
  induction h with
  | start =>
    refine ⟨List.nodup_nil, fun id => by simp [acquired, released], fun id => ?_, fun id h => ?_, ?_⟩
    · simp only [acquired, released, List.count_nil]
      exact ⟨fun h => absurd h List.not_mem_nil, fun h => by omega⟩
    · simp [acquired, released] at h
    · intro id o ho
      have hno : ∀ (i : Nat), (Table.init : Table Obj).entry i ≠ some o := by
        intro i
        match i with
        | 0 => simp [Table.init, Table.entry]
        | 1 => simp [Table.init, Table.entry]
        | n + 2 => simp [Table.init, Table.entry]
      exact absurd ho (hno id)
  | @acquire vm vm' w id o hh hw he hlt hr ih =>
    have hcnt := ih.count id o he
    have hb := ih.bal id
    rw [acquire_run hw he (by omega) (fun h0 hm => by have := (ih.mem id).mp hm; omega)] at hr
    have hent := fun x => setO_entry hw he x
    cases hr
    by_cases h0 : o.handleCount = 0
    · rw [if_pos h0]
      have hn : id ∉ vm.handles := fun hm => by have := (ih.mem id).mp hm; omega
      refine ⟨List.nodup_cons.mpr ⟨hn, ih.nodup⟩, ?_, ?_, ?_, ?_⟩
      · intro j; obtain ⟨a1, a2, _⟩ := acq_cons w id j; rw [a1, a2]
        have := ih.bal j
        by_cases hj : j = id
        · subst hj; rw [if_pos rfl]; omega
        · rw [if_neg hj]; omega
      · intro j; obtain ⟨a1, a2, _⟩ := acq_cons w id j; rw [a1, a2]
        show j ∈ id :: vm.handles ↔ _
        rw [List.mem_cons, ih.mem j]
        by_cases hj : j = id
        · subst hj; rw [if_pos rfl]; omega
        · rw [if_neg hj]; simp [hj]
      · intro j; obtain ⟨a1, a2, _⟩ := acq_cons w id j; rw [a1, a2]
        intro hj
        show ∃ x, (vm.setO id { o with handleCount := 1 }).objects.entry j = some x
        rw [hent]
        by_cases hji : j = id
        · exact ⟨_, if_pos hji⟩
        · rw [if_neg hji] at hj ⊢; exact ih.live j (by omega)
      · intro j x hx
        obtain ⟨a1, a2, _⟩ := acq_cons w id j; rw [a1, a2]
        have hx : (vm.setO id { o with handleCount := 1 }).objects.entry j = some x := hx
        rw [hent] at hx
        by_cases hji : j = id
        · subst hji; rw [if_pos rfl] at hx ⊢; cases hx; show 1 = _; omega
        · rw [if_neg hji] at hx ⊢; rw [ih.count j x hx]; rfl
    · rw [if_neg h0]
      refine ⟨ih.nodup, ?_, ?_, ?_, ?_⟩
      · intro j; obtain ⟨a1, a2, _⟩ := acq_cons w id j; rw [a1, a2]
        have := ih.bal j
        by_cases hj : j = id
        · subst hj; rw [if_pos rfl]; omega
        · rw [if_neg hj]; omega
      · intro j; obtain ⟨a1, a2, _⟩ := acq_cons w id j; rw [a1, a2]
        show j ∈ vm.handles ↔ _
        rw [ih.mem j]
        by_cases hj : j = id
        · subst hj; rw [if_pos rfl]; omega
        · rw [if_neg hj]; simp
      · intro j; obtain ⟨a1, a2, _⟩ := acq_cons w id j; rw [a1, a2]
        intro hj
        rw [hent]
        by_cases hji : j = id
        · exact ⟨_, if_pos hji⟩
        · rw [if_neg hji] at hj ⊢; exact ih.live j (by omega)
      · intro j x hx
        obtain ⟨a1, a2, _⟩ := acq_cons w id j; rw [a1, a2]
        rw [hent] at hx
        by_cases hji : j = id
        · subst hji; rw [if_pos rfl] at hx ⊢; cases hx; show o.handleCount + 1 = _; omega
        · rw [if_neg hji] at hx ⊢; rw [ih.count j x hx]; rfl
  | @release vm vm' w id o hh hw he hlt hr ih =>
    have hcnt := ih.count id o he
    have hb := ih.bal id
    rw [release_run hw he (by omega) (by omega) ((ih.mem id).mpr hlt)] at hr
    have hent := fun x => setO_entry hw he x
    cases hr
    by_cases h1 : o.handleCount = 1
    · rw [if_pos h1]
      refine ⟨ih.nodup.erase id, ?_, ?_, ?_, ?_⟩
      · intro j; obtain ⟨_, _, a1, a2⟩ := acq_cons w id j; rw [a1, a2]
        have := ih.bal j
        by_cases hj : j = id
        · subst hj; rw [if_pos rfl]; omega
        · rw [if_neg hj]; omega
      · intro j; obtain ⟨_, _, a1, a2⟩ := acq_cons w id j; rw [a1, a2]
        show j ∈ vm.handles.erase id ↔ _
        rw [ih.nodup.mem_erase_iff, ih.mem j]
        by_cases hj : j = id
        · subst hj; rw [if_pos rfl]; simp; omega
        · rw [if_neg hj]; simp [hj]
      · intro j; obtain ⟨_, _, a1, a2⟩ := acq_cons w id j; rw [a1, a2]
        intro hj
        show ∃ x, (vm.setO id { o with handleCount := 0 }).objects.entry j = some x
        rw [hent]
        by_cases hji : j = id
        · exact ⟨_, if_pos hji⟩
        · rw [if_neg hji] at hj ⊢; exact ih.live j (by omega)
      · intro j x hx
        obtain ⟨_, _, a1, a2⟩ := acq_cons w id j; rw [a1, a2]
        have hx : (vm.setO id { o with handleCount := 0 }).objects.entry j = some x := hx
        rw [hent] at hx
        by_cases hji : j = id
        · subst hji; rw [if_pos rfl] at hx ⊢; cases hx; show 0 = _; omega
        · rw [if_neg hji] at hx ⊢; rw [ih.count j x hx]; rfl
    · rw [if_neg h1]
      refine ⟨ih.nodup, ?_, ?_, ?_, ?_⟩
      · intro j; obtain ⟨_, _, a1, a2⟩ := acq_cons w id j; rw [a1, a2]
        have := ih.bal j
        by_cases hj : j = id
        · subst hj; rw [if_pos rfl]; omega
        · rw [if_neg hj]; omega
      · intro j; obtain ⟨_, _, a1, a2⟩ := acq_cons w id j; rw [a1, a2]
        show j ∈ vm.handles ↔ _
        rw [ih.mem j]
        by_cases hj : j = id
        · subst hj; rw [if_pos rfl]; omega
        · rw [if_neg hj]; simp
      · intro j; obtain ⟨_, _, a1, a2⟩ := acq_cons w id j; rw [a1, a2]
        intro hj
        rw [hent]
        by_cases hji : j = id
        · exact ⟨_, if_pos hji⟩
        · rw [if_neg hji] at hj ⊢; exact ih.live j (by omega)
      · intro j x hx
        obtain ⟨_, _, a1, a2⟩ := acq_cons w id j; rw [a1, a2]
        rw [hent] at hx
        by_cases hji : j = id
        · subst hji; rw [if_pos rfl] at hx ⊢; cases hx; show o.handleCount - 1 = _; omega
        · rw [if_neg hji] at hx ⊢; rw [ih.count j x hx]; rfl
  | @collect vm vm' w hh hw hp hg ih =>
    obtain ⟨v, g1, c⟩ := garbageCollect_run H hw hp
    rw [hg] at g1
    cases g1
    refine ⟨by rw [c.handles]; exact ih.nodup, ih.bal, fun j => by rw [c.handles]; exact ih.mem j, ?_, ?_⟩
    · intro j hj
      obtain ⟨o, ho⟩ := ih.live j hj
      exact ⟨_, (c.obj j _).mpr ⟨o, ho, .root (.handle ((ih.mem j).mpr hj)), rfl⟩⟩
    · intro j x hx
      obtain ⟨o, ho, _, rfl⟩ := (c.obj j x).mp hx
      exact ih.count j o ho
  | @other vm vm' w hh h1 h2 h3 ih =>
    refine ⟨by rw [h1]; exact ih.nodup, ih.bal, fun j => by rw [h1]; exact ih.mem j, ?_, ?_⟩
    · intro j hj
      obtain ⟨o, ho⟩ := ih.live j hj
      have := h2 j o ho (by rw [ih.count j o ho]; omega)
      exact Option.isSome_iff_exists.mp this
    · intro j x hx
      rw [h3 j x hx]
      cases ho : vm.objects.entry j with
      | none =>
        have : ¬ released w j < acquired w j := fun h => by
          obtain ⟨o, h⟩ := ih.live j h
          rw [ho] at h; cases h
        simp; omega
      | some o => simp [ih.count j o ho]

/-- C14 (balanced use): the list of pinned objects has no duplicates and has exactly the objects acquired
more often than released; these exist, and the count the API reports is the difference. -/
theorem C14_counts_partial {vm : VM} {w : HandleLog} (h : HandleHistory H vm w) :
    vm.handles.Nodup ∧
    (∀ id, id ∈ vm.handles ↔ released w id < acquired w id) ∧
    (∀ id, released w id < acquired w id → ∃ o, vm.objects.entry id = some o) ∧
    (∀ id o, vm.objects.entry id = some o → o.handleCount = acquired w id - released w id) :=
  let r := handle_rep H h
  ⟨r.nodup, r.mem, r.live, r.count⟩

/-- C14: objects acquired more often than released survive collections with their fields; an object that is
not, and that no stack, global variable or other held object leads to, does not survive. -/
theorem C14_pins {vm : VM} {w : HandleLog} (h : HandleHistory H vm w) (hw : HeapWF vm)
    (hp : vm.gc.lastGCPass + 1 < 4294967296) :
    ∃ vm', garbageCollect H vm = .ok ((), vm') ∧
      (∀ id, released w id < acquired w id → ∃ o o', vm.objects.entry id = some o ∧
        vm'.objects.entry id = some o' ∧ o'.buckets = o.buckets) ∧
      (∀ id, ¬ Reach H vm (.obj id) → vm'.objects.entry id = none) := by
  obtain ⟨vm', h1, c⟩ := garbageCollect_run H hw hp
  have r := handle_rep H h
  refine ⟨vm', h1, ?_, ?_⟩
  · intro id hid
    obtain ⟨o, ho⟩ := r.live id hid
    exact ⟨o, _, ho, (c.obj id _).mpr ⟨o, ho, .root (.handle ((r.mem id).mpr hid)), rfl⟩, rfl⟩
  · intro id hid
    cases hx : vm'.objects.entry id with
    | none => rfl
    | some o =>
      obtain ⟨_, _, hr, _⟩ := (c.obj id o).mp hx
      exact absurd hr hid

/-- C14 fails for a release of a handle that is not held: an error is recorded, but the count wraps to the
largest number, and acquiring the object afterwards does not pin it. -/
theorem C14_violation {vm : VM} (hw : vm.objects.WF) {id : Nat} {o : Obj}
    (he : vm.objects.entry id = some o) (h0 : o.handleCount = 0) (hn : id ∉ vm.handles) :
    ∃ vm1 vm2 o1, releaseHandle (.obj id) vm = .ok ((), vm1) ∧
      vm1.errors = vm.errors ++ ["Tried to release handle for object with no external handles."] ∧
      vm1.objects.entry id = some o1 ∧ o1.handleCount = UINT_MAX ∧
      acquireHandle (.obj id) vm1 = .ok ((), vm2) ∧ id ∉ vm2.handles := by
  have hw1 : (vm.addErr "Tried to release handle for object with no external handles.").objects.WF := hw
  have he1 : (vm.addErr "Tried to release handle for object with no external handles.").objects.entry id = some o := he
  have hu : usub 0 1 = UINT_MAX := by decide
  have hpos : ¬ UINT_MAX = 0 := by decide
  generalize hv : (vm.addErr "Tried to release handle for object with no external handles.") = v at hw1 he1
  have hvh : v.handles = vm.handles := by rw [← hv]; rfl
  have hw2 := setO_wf hw1 he1 { o with handleCount := UINT_MAX }
  have he2 : (v.setO id { o with handleCount := UINT_MAX }).objects.entry id =
      some { o with handleCount := UINT_MAX } := by rw [setO_entry hw1 he1]; simp
  have hu2 : u32 (UINT_MAX + 1) = 0 := by decide
  refine ⟨v.setO id { o with handleCount := UINT_MAX },
    ((v.setO id { o with handleCount := UINT_MAX }).setO id { o with handleCount := UINT_MAX }).addErr
      "Integer overflow in handle count.", { o with handleCount := UINT_MAX }, ?_, ?_, he2, rfl, ?_, ?_⟩
  · simp [releaseHandle, objFromValue, M.bind_eq, getObj_run hw, he, h0, hu, hv, setObj_run hw1 he1]
    rw [if_pos (by decide)]
    rfl
  · rw [← hv]; rfl
  · simp only [acquireHandle, objFromValue, M.bind_eq, getObj_run hw2, he2, M.pure_run, Option.map_some, hu2]
    simp only [gt_iff_lt, Nat.not_lt_zero, if_false, if_true, M.bind_eq, setObj_run hw2 he2, addError_run]
  · show id ∉ v.handles
    rw [hvh]; exact hn

/-- Acquire twice, release once: still pinned; release again: gone with the next collection. -/
example : (newObj VM.create).test (fun p => ((do
    acquireHandle p.1.1; acquireHandle p.1.1; releaseHandle p.1.1
    garbageCollect Sample.H
    let a ← getObj p.1.2
    releaseHandle p.1.1
    garbageCollect Sample.H
    let b ← getObj p.1.2
    return (a.isSome, b.isSome) : M (Bool × Bool)) p.2).test (fun q => decide (q.1 = (true, false)))) := by
  decide +kernel

end Nk.Props
