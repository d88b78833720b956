import Verif.Model.FaultGC
import Verif.Lemmas.Fault
import Verif.Lemmas.Collect
/-!
# Running out of memory anywhere in a collection: lemmas
-/
namespace Nk

variable {α β : Type}

/-- `f` does what `m` does unless memory runs out. -/
structure Agr (m : M α) (f : FM α) : Prop where
  run : ∀ k vm, (f k vm).Agrees (m vm)

/-- `P` holds between the state before and any state `f` ends in. -/
structure Rel (P : VM → VM → Prop) (f : FM α) : Prop where
  run : ∀ k vm vm', (f k vm).state = some vm' → P vm vm'

namespace Agr

theorem bind {m : M α} {g : α → M β} {f : FM α} {h : α → FM β} (a : Agr m f) (b : ∀ x, Agr (g x) (h x)) :
    Agr (m >>= g) (f >>= h) := by
  refine ⟨fun k vm => ?_⟩
  have h1 := a.run k vm
  rw [M.bind_eq]
  show (FM.bind f h k vm).Agrees _
  unfold FM.bind
  cases hf : f k vm with
  | done k' x vm1 =>
    rw [hf] at h1
    have h2 : m vm = .ok (x, vm1) := h1
    rw [h2]
    exact (b x).run k' vm1
  | failed vm1 => trivial
  | ub u =>
    rw [hf] at h1
    have h2 : m vm = .ub u := h1
    rw [h2]
    rfl

theorem lift {m : M α} : Agr m (FM.lift m) := ⟨fun k vm => by
  unfold FM.lift
  cases h : m vm with
  | ok p => rfl
  | ub u => rfl⟩

theorem pure {a : α} : Agr (Pure.pure a) (Pure.pure a) := ⟨fun _ _ => rfl⟩

theorem error {s : String} : Agr (addError s) (fun k vm => addErrorF s vm k) := ⟨fun k vm => by
  match k with
  | 0 => trivial
  | 1 => trivial
  | k + 2 => rfl⟩

/-- An allocation that leaves no trace. -/
theorem alloc {m : M β} {h : Unit → FM β} (b : Agr m (h ())) : Agr m (allocF >>= h) := ⟨fun k vm => by
  match k with
  | 0 => trivial
  | k + 1 => exact b.run k vm⟩

end Agr

section
variable {P : VM → VM → Prop}

theorem Rel.bind (ht : ∀ a b c, P a b → P b c → P a c) {f : FM α} {h : α → FM β} (a : Rel P f)
    (b : ∀ x, Rel P (h x)) : Rel P (f >>= h) := by
  refine ⟨fun k vm vm' e => ?_⟩
  have e' : (FM.bind f h k vm).state = some vm' := e
  unfold FM.bind at e'
  cases hf : f k vm with
  | done k' x vm1 =>
    rw [hf] at e'
    exact ht _ _ _ (a.run k vm vm1 (by rw [hf]; rfl)) ((b x).run k' vm1 vm' e')
  | failed vm1 =>
    rw [hf] at e'
    exact a.run k vm vm' (by rw [hf]; exact e')
  | ub u => rw [hf] at e'; cases e'

end

/-- The objects are the same but for the number of the last collection that reached them; no cleanup functions have been called. -/
structure SameObjs (vm vm' : VM) : Prop where
  cap : vm'.objects.cap = vm.objects.cap
  len : vm'.objects.slots.length = vm.objects.slots.length
  types : vm'.extTypes = vm.extTypes
  log : vm'.cleanupLog = vm.cleanupLog
  objs : ∀ i, ∃ p : Nat → Nat, vm'.objects.entry i = (vm.objects.entry i).map (fun o => { o with lastGCPass := p o.lastGCPass })

namespace SameObjs

theorem of_eq {vm vm' : VM} (h : vm'.objects = vm.objects) (ht : vm'.extTypes = vm.extTypes) (hl : vm'.cleanupLog = vm.cleanupLog) :
    SameObjs vm vm' :=
  ⟨by rw [h], by rw [h], ht, hl, fun i => ⟨id, by rw [h]; cases vm.objects.entry i <;> rfl⟩⟩

theorem trans (a b c : VM) (h : SameObjs a b) (g : SameObjs b c) : SameObjs a c := by
  refine ⟨g.cap.trans h.cap, g.len.trans h.len, g.types.trans h.types, g.log.trans h.log, fun i => ?_⟩
  obtain ⟨p, hp⟩ := h.objs i
  obtain ⟨q, hq⟩ := g.objs i
  exact ⟨q ∘ p, by rw [hq, hp]; cases a.objects.entry i <;> rfl⟩

end SameObjs

abbrev SO (f : FM α) : Prop := Rel SameObjs f

namespace SO

theorem bind {f : FM α} {h : α → FM β} (a : SO f) (b : ∀ x, SO (h x)) : SO (f >>= h) := Rel.bind SameObjs.trans a b

theorem pure {a : α} : SO (Pure.pure a : FM α) := ⟨fun _ _ _ e => by cases e; exact .of_eq rfl rfl rfl⟩

theorem liftR {r : Res α} : SO (FM.lift (Nk.liftR r)) := ⟨fun k vm vm' e => by
  cases r with
  | ok a => cases e; exact .of_eq rfl rfl rfl
  | ub u => cases e⟩

theorem get : SO (FM.lift Nk.get) := ⟨fun k vm vm' e => by cases e; exact .of_eq rfl rfl rfl⟩

theorem modify {g : VM → VM} (h : ∀ vm, SameObjs vm (g vm)) : SO (FM.lift (Nk.modify g)) :=
  ⟨fun k vm vm' e => by cases e; exact h vm⟩

theorem curCtx : SO (FM.lift Nk.curCtx) := ⟨fun k vm vm' e => by
  unfold FM.lift Nk.curCtx at e
  cases h : ctxAt vm vm.cur with
  | ok c => simp only [h] at e; cases e; exact .of_eq rfl rfl rfl
  | ub u => simp only [h] at e; cases e⟩

theorem getObj {i : Nat} : SO (FM.lift (Nk.getObj i)) := ⟨fun k vm vm' e => by
  unfold FM.lift Nk.getObj at e
  cases h : vm.objects.get i with
  | ok c => simp only [h] at e; cases e; exact .of_eq rfl rfl rfl
  | ub u => simp only [h] at e; cases e⟩

theorem getStrEntry {i : Nat} : SO (FM.lift (Nk.getStrEntry i)) := ⟨fun k vm vm' e => by
  unfold FM.lift Nk.getStrEntry at e
  cases h : vm.strings.get i with
  | ok c => simp only [h] at e; cases e; exact .of_eq rfl rfl rfl
  | ub u => simp only [h] at e; cases e⟩

theorem error {s : String} : SO (fun k vm => addErrorF s vm k) := ⟨fun k vm vm' e => by
  match k with
  | 0 => cases e; exact .of_eq rfl rfl rfl
  | 1 => cases e; exact .of_eq rfl rfl rfl
  | k + 2 => cases e; exact .of_eq rfl rfl rfl⟩

theorem alloc : SO allocF := ⟨fun k vm vm' e => by
  match k with
  | 0 => cases e; exact .of_eq rfl rfl rfl
  | k + 1 => cases e; exact .of_eq rfl rfl rfl⟩

end SO

/-! ## Marking -/

theorem markStringF_agr {p i : Nat} : Agr (markString p i) (markStringF p i) := by
  unfold markString markStringF
  refine Agr.bind .lift fun e => ?_
  cases e with
  | some e => exact .lift
  | none => exact .error

theorem markStringF_so {p i : Nat} : SO (markStringF p i) := by
  unfold markStringF
  refine SO.bind .getStrEntry fun e => ?_
  cases e with
  | none => exact SO.error
  | some e =>
    refine ⟨fun k vm vm' h => ?_⟩
    dsimp only [FM.lift] at h
    cases hw : vm.strings.write i (some { e with lastGCPass := p }) with
    | ok t => simp only [hw] at h; cases h; exact .of_eq rfl rfl rfl
    | ub u => simp only [hw] at h; cases h

theorem gcAddObjectF_agr {p i : Nat} {l : List Nat} : Agr (gcAddObject p i l) (gcAddObjectF p i l) := by
  unfold gcAddObject gcAddObjectF
  refine Agr.bind .lift fun o => ?_
  cases o with
  | none => exact Agr.bind .error fun _ => .pure
  | some o =>
    dsimp only
    by_cases h : o.lastGCPass ≠ p
    · rw [if_pos h, if_pos h]; exact .alloc .pure
    · rw [if_neg h, if_neg h]; exact .pure

theorem gcAddObjectF_so {p i : Nat} {l : List Nat} : SO (gcAddObjectF p i l) := by
  unfold gcAddObjectF
  refine SO.bind .getObj fun o => ?_
  cases o with
  | none => exact SO.bind .error fun _ => .pure
  | some o =>
    dsimp only
    split
    · exact SO.bind .alloc fun _ => .pure
    · exact .pure

theorem markValueF_agr {p : Nat} {l : List Nat} {v : Value} : Agr (markValue p l v) (markValueF p l v) := by
  unfold markValue markValueF
  cases v with
  | obj i => exact gcAddObjectF_agr
  | str i => exact Agr.bind markStringF_agr fun _ => .pure
  | _ => exact .pure

theorem markValueF_so {p : Nat} {l : List Nat} {v : Value} : SO (markValueF p l v) := by
  unfold markValueF
  cases v with
  | obj i => exact gcAddObjectF_so
  | str i => exact SO.bind markStringF_so fun _ => .pure
  | _ => exact .pure

theorem markValuesF_agr {p : Nat} {vs : List Value} : ∀ {l : List Nat}, Agr (markValues p l vs) (markValuesF p l vs) := by
  induction vs with
  | nil => exact .pure
  | cons v vs ih => exact Agr.bind markValueF_agr fun _ => ih

theorem markValuesF_so {p : Nat} {vs : List Value} : ∀ {l : List Nat}, SO (markValuesF p l vs) := by
  induction vs with
  | nil => exact .pure
  | cons v vs ih => exact SO.bind markValueF_so fun _ => ih

theorem markObjectF_agr {H : Host} {p i : Nat} {l : List Nat} : Agr (markObject H p i l) (markObjectF H p i l) := by
  unfold markObject markObjectF
  refine Agr.bind .lift fun vm => ?_
  cases vm.objects.slots[i]? with
  | none => exact .lift
  | some o =>
    cases o with
    | none => exact .lift
    | some o =>
      dsimp only
      by_cases h : o.lastGCPass = p
      · rw [if_pos h, if_pos h]; exact .pure
      · rw [if_neg h, if_neg h]
        exact Agr.bind .lift fun _ => Agr.bind .lift fun _ => markValuesF_agr

theorem markObjectF_so {H : Host} {p i : Nat} {l : List Nat} : SO (markObjectF H p i l) := by
  refine ⟨fun k vm vm' e => ?_⟩
  have e' : (FM.bind (FM.lift Nk.get) (fun vm => match vm.objects.slots[i]? with
    | some (some o) =>
      if o.lastGCPass = p then (Pure.pure l : FM (List Nat))
      else do
        FM.lift (setObj i { o with lastGCPass := p })
        let refs ← FM.lift (Nk.liftR (objectRefs H vm o))
        markValuesF p l refs
    | _ => FM.lift (Nk.liftR (.ub .oob))) k vm).state = some vm' := e
  unfold FM.bind FM.lift Nk.get at e'
  dsimp only at e'
  cases hs : vm.objects.slots[i]? with
  | none => rw [hs] at e'; cases e'
  | some o =>
    rw [hs] at e'
    cases o with
    | none => cases e'
    | some o =>
      dsimp only at e'
      by_cases h : o.lastGCPass = p
      · rw [if_pos h] at e'; cases e'; exact .of_eq rfl rfl rfl
      · rw [if_neg h] at e'
        have e2 : (FM.bind (FM.lift (setObj i { o with lastGCPass := p })) (fun _ => (do
            let refs ← FM.lift (Nk.liftR (objectRefs H vm o))
            markValuesF p l refs)) k vm).state = some vm' := e'
        unfold FM.bind FM.lift setObj at e2
        cases hw : vm.objects.write i (some { o with lastGCPass := p }) with
        | ub u => simp only [hw] at e2; cases e2
        | ok t =>
          simp only [hw] at e2
          refine SameObjs.trans _ { vm with objects := t } _ ?_ ((SO.bind (f := FM.lift (Nk.liftR (objectRefs H vm o))) .liftR
            fun _ => markValuesF_so).run k _ vm' e2)
          unfold Table.write at hw
          split at hw
          · cases hw
            refine ⟨rfl, by simp, rfl, rfl, fun j => ?_⟩
            by_cases hj : j = i
            · subst hj
              refine ⟨fun _ => p, ?_⟩
              obtain ⟨hlt, -⟩ := List.getElem?_eq_some_iff.mp hs
              simp only [Table.entry, hs]
              rw [List.getElem?_set_self hlt]
              rfl
            · refine ⟨id, ?_⟩
              simp only [Table.entry]
              rw [List.getElem?_set_ne (fun h => hj h.symm)]
              cases vm.objects.slots[j]? with
              | none => rfl
              | some x => cases x <;> rfl
          · cases hw

theorem markReferencedF_agr {H : Host} {p n : Nat} : ∀ {l : List Nat}, Agr (markReferenced H p n l) (markReferencedF H p n l) := by
  induction n with
  | zero => intro l; cases l <;> (unfold markReferenced markReferencedF; first | exact .pure | exact .lift)
  | succ n ih =>
    intro l
    cases l with
    | nil => unfold markReferenced markReferencedF; exact .pure
    | cons i l => exact Agr.bind markObjectF_agr fun _ => ih

theorem markReferencedF_so {H : Host} {p n : Nat} : ∀ {l : List Nat}, SO (markReferencedF H p n l) := by
  induction n with
  | zero => intro l; cases l <;> (unfold markReferencedF; first | exact .pure | exact .liftR)
  | succ n ih =>
    intro l
    cases l with
    | nil => unfold markReferencedF; exact .pure
    | cons i l => exact SO.bind markObjectF_so fun _ => ih

theorem markHandlesF_agr {H : Host} {p : Nat} {ids : List Nat} : ∀ {l : List Nat}, Agr (markHandles H p l ids) (markHandlesF H p l ids) := by
  induction ids with
  | nil => exact .pure
  | cons v l ih => exact Agr.bind markObjectF_agr fun _ => ih

theorem markHandlesF_so {H : Host} {p : Nat} {ids : List Nat} : ∀ {l : List Nat}, SO (markHandlesF H p l ids) := by
  induction ids with
  | nil => exact .pure
  | cons v l ih => exact SO.bind markObjectF_so fun _ => ih

theorem gcMarkF_agr {H : Host} {p : Nat} : Agr (gcMark H p) (gcMarkF H p) :=
  Agr.bind .lift fun _ => Agr.bind markHandlesF_agr fun _ => Agr.bind .lift fun _ => Agr.bind markValuesF_agr fun _ =>
    Agr.bind .lift fun _ => Agr.bind markValueF_agr fun _ => Agr.bind .lift fun _ => Agr.bind markValuesF_agr fun _ =>
    Agr.bind .lift fun _ => markReferencedF_agr

theorem gcMarkF_so {H : Host} {p : Nat} : SO (gcMarkF H p) :=
  SO.bind .get fun _ => SO.bind markHandlesF_so fun _ => SO.bind .liftR fun _ => SO.bind markValuesF_so fun _ =>
    SO.bind .curCtx fun _ => SO.bind markValueF_so fun _ => SO.bind .liftR fun _ => SO.bind markValuesF_so fun _ =>
    SO.bind .get fun _ => markReferencedF_so

/-! ## Deleting strings -/

/-- Objects, types and the cleanup calls are as they were. -/
def StrOnly (vm vm' : VM) : Prop := vm'.objects = vm.objects ∧ vm'.extTypes = vm.extTypes ∧ vm'.cleanupLog = vm.cleanupLog

theorem StrOnly.trans (a b c : VM) (h : StrOnly a b) (g : StrOnly b c) : StrOnly a c :=
  ⟨g.1.trans h.1, g.2.1.trans h.2.1, g.2.2.trans h.2.2⟩

theorem strOnly_liftR {r : Res α} : Rel StrOnly (FM.lift (Nk.liftR r)) := ⟨fun k vm vm' e => by
  cases r with
  | ok a => cases e; exact ⟨rfl, rfl, rfl⟩
  | ub u => cases e⟩

theorem strOnly_pure {a : α} : Rel StrOnly (Pure.pure a : FM α) := ⟨fun k vm vm' e => by cases e; exact ⟨rfl, rfl, rfl⟩⟩

theorem strOnly_get : Rel StrOnly (FM.lift Nk.get) := ⟨fun k vm vm' e => by cases e; exact ⟨rfl, rfl, rfl⟩⟩

theorem eraseStringF_so {i : Nat} : Rel StrOnly (eraseStringF i) := ⟨fun k vm vm' e => by
  unfold eraseStringF at e
  split at e <;> cases e <;> exact ⟨rfl, rfl, rfl⟩⟩

/-- The step of `sweepStrings` that deletes a string. -/
def eraseString (i : Nat) : M Unit := fun vm => match vm.strings.erase i with
  | .ok t => .ok ((), { vm with strings := t })
  | .ub u => .ub u

theorem eraseStringF_agr {i : Nat} : Agr (eraseString i) (eraseStringF i) := by
  refine ⟨fun k vm => ?_⟩
  have h := Table.eraseF_agrees vm.strings i k
  unfold eraseStringF eraseString
  cases he : vm.strings.eraseF i k with
  | failed t => trivial
  | done k' a t =>
    rw [he] at h
    have h' : vm.strings.erase i = .ok t := h
    rw [h']
    rfl
  | ub u =>
    rw [he] at h
    have h' : vm.strings.erase i = .ub u := h
    rw [h']
    rfl

theorem sweepStringsF_so {p : Nat} {l : List Nat} : Rel StrOnly (sweepStringsF p l) := by
  induction l with
  | nil => exact strOnly_pure
  | cons i l ih =>
    refine Rel.bind StrOnly.trans strOnly_get fun vm => ?_
    cases vm.strings.slots[i]? with
    | none => exact strOnly_liftR
    | some o =>
      cases o with
      | none => exact strOnly_liftR
      | some x =>
        dsimp only
        split
        · exact Rel.bind StrOnly.trans eraseStringF_so fun _ => ih
        · exact Rel.bind StrOnly.trans ih fun _ => strOnly_pure

theorem sweepStringsF_agr {p : Nat} {l : List Nat} : Agr (sweepStrings p l) (sweepStringsF p l) := by
  induction l with
  | nil => exact .pure
  | cons i l ih =>
    refine ⟨fun k vm => ?_⟩
    rw [sweepStrings, sweepStringsF, M.bind_eq]
    show (FM.bind (FM.lift Nk.get) _ k vm).Agrees _
    unfold FM.bind FM.lift Nk.get
    dsimp only
    cases vm.strings.slots[i]? with
    | none => rfl
    | some o =>
      cases o with
      | none => rfl
      | some x =>
        dsimp only
        by_cases hc : p ≠ x.lastGCPass ∧ x.dontGC = false
        · rw [if_pos hc, if_pos hc]
          have := (Agr.bind (eraseStringF_agr (i := i)) fun _ => ih).run k vm
          rw [M.bind_eq] at this
          unfold eraseString at this
          rw [M.bind_eq]
          cases he : vm.strings.erase i with
          | ok t => rw [he] at this; exact this
          | ub u => rw [he] at this; exact this
        · rw [if_neg hc, if_neg hc]
          exact (Agr.bind ih fun _ => .pure).run k vm

theorem cleanOldStringsF_so {p n : Nat} : ∀ {i : Nat}, Rel StrOnly (cleanOldStringsF p i n) := by
  induction n with
  | zero => exact strOnly_pure
  | succ n ih =>
    intro i
    refine Rel.bind StrOnly.trans strOnly_get fun vm => ?_
    cases vm.sbuckets[i]? with
    | none => exact strOnly_liftR
    | some l =>
      exact Rel.bind StrOnly.trans sweepStringsF_so fun _ =>
        Rel.bind StrOnly.trans ⟨fun k vm vm' e => by cases e; exact ⟨rfl, rfl, rfl⟩⟩ fun _ => ih

theorem cleanOldStringsF_agr {p n : Nat} : ∀ {i : Nat}, Agr (cleanOldStrings p i n) (cleanOldStringsF p i n) := by
  induction n with
  | zero => exact .pure
  | succ n ih =>
    intro i
    refine Agr.bind .lift fun vm => ?_
    cases vm.sbuckets[i]? with
    | none => exact .lift
    | some l => exact Agr.bind sweepStringsF_agr fun _ => Agr.bind .lift fun _ => ih

theorem garbageCollectF_agr (H : Host) : Agr (garbageCollect H) (garbageCollectF H) :=
  Agr.bind .lift fun _ => Agr.bind .lift fun _ => Agr.bind gcMarkF_agr fun _ => Agr.bind cleanOldStringsF_agr fun _ =>
    Agr.bind .lift fun v => ⟨fun k vm => cleanOldObjectsF_agrees _ v.objects.cap 0 k vm⟩

/-- Objects that were reached are not deleted. -/
theorem cleanOldObjectsF_marked (pass n : Nat) : ∀ (i k : Nat) (vm vm' : VM), (cleanOldObjectsF pass i n k vm).state = some vm' →
    ∀ id o, vm.objects.entry id = some o → o.lastGCPass = pass → vm'.objects.entry id = some o := by
  induction n with
  | zero => intro i k vm vm' h; cases h; exact fun _ _ h _ => h
  | succ n ih =>
    intro i k vm vm' h id o ho hm
    unfold cleanOldObjectsF at h
    cases hs : vm.objects.slots[i]? with
    | none => rw [hs] at h; cases h
    | some x =>
      rw [hs] at h
      cases x with
      | none => exact ih _ _ _ _ h id o ho hm
      | some x =>
        dsimp only at h
        by_cases hp : pass ≠ x.lastGCPass
        · rw [if_pos hp] at h
          have hi : id ≠ i := by
            rintro rfl
            rw [Table.entry, hs] at ho
            cases ho
            exact hp hm.symm
          have hset : ∀ t : Table Obj, t.slots = vm.objects.slots.set i none → t.entry id = some o := fun t ht => by
            rw [← ho]
            simp only [Table.entry]
            rw [ht, List.getElem?_set_ne (fun h => hi h.symm)]
          have h1 := cleanupObjectF_agrees i x vm k
          cases hc : cleanupObjectF i x vm k with
          | failed v =>
            rw [hc] at h
            cases h
            unfold cleanupObjectF at hc
            split at hc
            · match k, hc with
              | 0, hc => cases hc; exact ho
              | 1, hc => cases hc; exact ho
              | k + 2, hc => cases hc
            · split at hc <;> cases hc
          | ub u => rw [hc] at h; cases h
          | done k' a v =>
            rw [hc] at h h1
            have h1 : cleanupObject i x vm = .ok (a, v) := h1
            have h2 := (cleanupObject_ok h1).1
            dsimp only at h
            cases he : v.objects.eraseF i k' with
            | ub u => rw [he] at h; cases h
            | failed t =>
              rw [he] at h
              cases h
              have := (Table.eraseF_state (t' := t) (by rw [he]; rfl)).1
              rw [h2] at this
              exact hset t this
            | done k2 b t =>
              rw [he] at h
              dsimp only at h
              have := (Table.eraseF_state (t' := t) (by rw [he]; rfl)).1
              rw [h2] at this
              exact ih _ _ _ _ h id o (hset t this) hm
        · rw [if_neg hp] at h
          exact ih _ _ _ _ h id o ho hm

/-- A collection is marking and deleting strings, with the same objects, and then deleting objects, but none that were marked. -/
theorem garbageCollectF_state {H : Host} {k : Nat} {vm vm' : VM} (hl : vm.objects.slots.length = vm.objects.cap)
    (h : (garbageCollectF H k vm).state = some vm') :
    ∃ v l, SameObjs vm v ∧ Swept v vm' l ∧ (vm'.objects = v.objects ∨ ∃ v1,
      gcMark H (u32 (vm.gc.lastGCPass + 1)) { vm with gc := { vm.gc with lastGCPass := u32 (vm.gc.lastGCPass + 1) } } = .ok ((), v1) ∧
      v.objects = v1.objects ∧
      ∀ id o, v1.objects.entry id = some o → o.lastGCPass = u32 (vm.gc.lastGCPass + 1) → vm'.objects.entry id = some o) := by
  have hrest : ∀ q k v v', v.objects.slots.length = v.objects.cap →
      ((do gcMarkF H q; cleanOldStringsF q 0 256; let v' ← FM.lift Nk.get
           fun k v'' => cleanOldObjectsF q 0 v'.objects.cap k v'' : FM Unit) k v).state = some v' →
      ∃ w l, SameObjs v w ∧ Swept w v' l ∧ (v'.objects = w.objects ∨ ∃ v1, gcMark H q v = .ok ((), v1) ∧ w.objects = v1.objects ∧
        ∀ id o, v1.objects.entry id = some o → o.lastGCPass = q → v'.objects.entry id = some o) := by
    intro q k v v' hv e
    have e1 : (FM.bind (gcMarkF H q) (fun _ => FM.bind (cleanOldStringsF q 0 256) (fun _ => FM.bind (FM.lift Nk.get)
      (fun v' k v'' => cleanOldObjectsF q 0 v'.objects.cap k v''))) k v).state = some v' := e
    unfold FM.bind at e1
    cases h1 : gcMarkF H q k v with
    | ub u => rw [h1] at e1; cases e1
    | failed v1 =>
      rw [h1] at e1
      have s := gcMarkF_so.run k v v1 (by rw [h1]; rfl)
      cases e1
      exact ⟨_, [], s, .refl (by rw [s.len, s.cap]; exact hv) rfl rfl rfl, .inl rfl⟩
    | done k1 a v1 =>
      rw [h1] at e1
      dsimp only at e1
      have s := gcMarkF_so.run k v v1 (by rw [h1]; rfl)
      have hm := (gcMarkF_agr (H := H) (p := q)).run k v
      rw [h1] at hm
      have hm : gcMark H q v = .ok ((), v1) := hm
      have so : ∀ v2, StrOnly v1 v2 → SameObjs v v2 := fun v2 g => s.trans _ _ _ (.of_eq g.1 g.2.1 g.2.2)
      cases h2 : cleanOldStringsF q 0 256 k1 v1 with
      | ub u => rw [h2] at e1; cases e1
      | failed v2 =>
        rw [h2] at e1
        have s2 := so _ (cleanOldStringsF_so.run k1 v1 v2 (by rw [h2]; rfl))
        cases e1
        exact ⟨_, [], s2, .refl (by rw [s2.len, s2.cap]; exact hv) rfl rfl rfl, .inl rfl⟩
      | done k2 a v2 =>
        rw [h2] at e1
        have g := cleanOldStringsF_so.run k1 v1 v2 (by rw [h2]; rfl)
        have s2 := so _ g
        obtain ⟨l, hs⟩ := cleanOldObjectsF_swept q _ 0 k2 v2 v' (by rw [s2.len, s2.cap]; exact hv) e1
        refine ⟨v2, l, s2, hs, .inr ⟨v1, hm, g.1, fun id o ho hq => ?_⟩⟩
        exact cleanOldObjectsF_marked q _ 0 k2 v2 v' e1 id o (by rw [g.1]; exact ho) hq
  obtain ⟨w, l, h1, h2, h3⟩ := hrest (u32 (vm.gc.lastGCPass + 1)) k
    { vm with gc := { vm.gc with lastGCPass := u32 (vm.gc.lastGCPass + 1) } } vm' hl h
  exact ⟨w, l, SameObjs.trans vm { vm with gc := { vm.gc with lastGCPass := u32 (vm.gc.lastGCPass + 1) } } w (.of_eq rfl rfl rfl) h1,
    h2, h3⟩

/-- Whatever point of a collection memory runs out at, reachable objects have not been deleted. -/
theorem garbageCollectF_reach {H : Host} {k : Nat} {vm vm' : VM} (hw : HeapWF vm) (hp : vm.gc.lastGCPass + 1 < 4294967296)
    (h : (garbageCollectF H k vm).state = some vm') {id : Nat} {o : Obj} (hr : Reach H vm (.obj id))
    (ho : vm.objects.entry id = some o) : ∃ p, vm'.objects.entry id = some { o with lastGCPass := p } := by
  have hu : u32 (vm.gc.lastGCPass + 1) = vm.gc.lastGCPass + 1 := Nat.mod_eq_of_lt hp
  obtain ⟨v, l, h1, h2, h3⟩ := garbageCollectF_state hw.tab.len h
  obtain ⟨p, hpe⟩ := h1.objs id
  rw [ho] at hpe
  rcases h3 with h3 | ⟨v1, h3, h4, h5⟩
  · exact ⟨_, by rw [h3]; exact hpe⟩
  · rw [hu] at h3 h5
    generalize hvm0 : ({ vm with gc := { vm.gc with lastGCPass := vm.gc.lastGCPass + 1 } } : VM) = vm0 at h3
    have hob0 : vm0.objects = vm.objects := by rw [← hvm0]
    have hst0 : vm0.strings = vm.strings := by rw [← hvm0]
    have hR : ∀ v, Reach H vm0 v ↔ Reach H vm v := fun v => by rw [← hvm0]; exact reach_gc H vm _
    have h0 : HeapWF vm0 := by
      rw [← hvm0]
      refine ⟨⟨hw.str.tab, hw.str.blen, hw.str.nodup, hw.str.mem, hw.str.hash, hw.str.bucket, hw.str.inj⟩, hw.tab,
        ⟨hw.co.root, hw.co.stack, hw.co.own, hw.co.owned, hw.co.chain, hw.co.type⟩, hw.statics, hw.handles, ?_, ?_⟩
      · intro id o he; have := hw.passO id o he; exact Nat.le_succ_of_le this
      · intro id o he; have := hw.passS id o he; exact Nat.le_succ_of_le this
    obtain ⟨vm1, m1, m2, m3, m4⟩ := gcMark_run H (pass := vm.gc.lastGCPass + 1) h0
      (fun id o he => by rw [hob0] at he; have := hw.passO id o he; omega)
      (fun id o he => by rw [hst0] at he; have := hw.passS id o he; omega)
    rw [h3] at m1
    cases m1
    obtain ⟨o', k1, k2⟩ := (m3 id).mpr ⟨⟨o, by rw [hob0]; exact ho⟩, (hR _).mpr hr⟩
    have k3 := h5 id o' k1 k2
    rw [h4, k1] at hpe
    cases hpe
    exact ⟨_, k3⟩

end Nk
