import Verif.Spec.Heap
import Verif.Model.GC
import Verif.Lemmas.Objects
/-!
# The marking phase
-/
namespace Nk
variable (H : Host)

def OLive (vm : VM) (id : Nat) : Prop := ∃ o, vm.objects.entry id = some o
def SLive (vm : VM) (id : Nat) : Prop := ∃ e, vm.strings.entry id = some e
def OMarked (pass : Nat) (vm : VM) (id : Nat) : Prop :=
  ∃ o, vm.objects.entry id = some o ∧ o.lastGCPass = pass
def SMarked (pass : Nat) (vm : VM) (id : Nat) : Prop :=
  ∃ e, vm.strings.entry id = some e ∧ e.lastGCPass = pass

/-- `vm'` is `vm` with some objects and strings marked and errors added. -/
structure Mk (pass : Nat) (vm vm' : VM) : Prop where
  frame : vm' = { vm with objects := vm'.objects, strings := vm'.strings, errors := vm'.errors }
  str : StrWF vm'
  tab : vm'.objects.WF
  cap : vm'.objects.cap = vm.objects.cap
  obj : ∀ id, vm'.objects.entry id = vm.objects.entry id ∨
    ∃ o, vm.objects.entry id = some o ∧ vm'.objects.entry id = some { o with lastGCPass := pass }
  sob : ∀ id, vm'.strings.entry id = vm.strings.entry id ∨
    ∃ e, vm.strings.entry id = some e ∧ vm'.strings.entry id = some { e with lastGCPass := pass }
  errs : vm.errors <+: vm'.errors

namespace Mk
variable {pass : Nat} {vm vm' vm'' : VM}

theorem refl (hs : StrWF vm) (ho : vm.objects.WF) : Mk pass vm vm :=
  ⟨rfl, hs, ho, rfl, fun _ => Or.inl rfl, fun _ => Or.inl rfl, List.prefix_rfl⟩

theorem trans (h1 : Mk pass vm vm') (h2 : Mk pass vm' vm'') : Mk pass vm vm'' := by
  refine ⟨?_, h2.str, h2.tab, h2.cap.trans h1.cap, ?_, ?_, h1.errs.trans h2.errs⟩
  · have e1 := h1.frame
    have e2 := h2.frame
    rw [e1] at e2
    exact e2
  · intro id
    rcases h2.obj id with h | ⟨o, h3, h4⟩
    · rw [h]; exact h1.obj id
    · rcases h1.obj id with h | ⟨o', h5, h6⟩
      · right; exact ⟨o, by rw [← h]; exact h3, h4⟩
      · right
        refine ⟨o', h5, ?_⟩
        rw [h6] at h3
        cases h3
        exact h4
  · intro id
    rcases h2.sob id with h | ⟨o, h3, h4⟩
    · rw [h]; exact h1.sob id
    · rcases h1.sob id with h | ⟨o', h5, h6⟩
      · right; exact ⟨o, by rw [← h]; exact h3, h4⟩
      · right
        refine ⟨o', h5, ?_⟩
        rw [h6] at h3
        cases h3
        exact h4

theorem olive (h : Mk pass vm vm') (id : Nat) : OLive vm' id ↔ OLive vm id := by
  unfold OLive
  rcases h.obj id with e | ⟨o, h1, h2⟩
  · rw [e]
  · rw [h1, h2]; simp

theorem slive (h : Mk pass vm vm') (id : Nat) : SLive vm' id ↔ SLive vm id := by
  unfold SLive
  rcases h.sob id with e | ⟨o, h1, h2⟩
  · rw [e]
  · rw [h1, h2]; simp

theorem omarked (h : Mk pass vm vm') {id : Nat} (hm : OMarked pass vm id) : OMarked pass vm' id := by
  obtain ⟨o, h1, h2⟩ := hm
  rcases h.obj id with e | ⟨o', h3, h4⟩
  · exact ⟨o, by rw [e]; exact h1, h2⟩
  · exact ⟨_, h4, rfl⟩

theorem smarked (h : Mk pass vm vm') {id : Nat} (hm : SMarked pass vm id) : SMarked pass vm' id := by
  obtain ⟨o, h1, h2⟩ := hm
  rcases h.sob id with e | ⟨o', h3, h4⟩
  · exact ⟨o, by rw [e]; exact h1, h2⟩
  · exact ⟨_, h4, rfl⟩

theorem ctxs (h : Mk pass vm vm') : vm'.ctxs = vm.ctxs := by
  have := congrArg VM.ctxs h.frame; exact this
theorem cur (h : Mk pass vm vm') : vm'.cur = vm.cur := by
  have := congrArg VM.cur h.frame; exact this
theorem statics (h : Mk pass vm vm') : vm'.statics = vm.statics := by
  have := congrArg VM.statics h.frame; exact this
theorem staticMask (h : Mk pass vm vm') : vm'.staticMask = vm.staticMask := by
  have := congrArg VM.staticMask h.frame; exact this
theorem handles (h : Mk pass vm vm') : vm'.handles = vm.handles := by
  have := congrArg VM.handles h.frame; exact this
theorem extTypes (h : Mk pass vm vm') : vm'.extTypes = vm.extTypes := by
  have := congrArg VM.extTypes h.frame; exact this
theorem coType (h : Mk pass vm vm') : vm'.coType = vm.coType := by
  have := congrArg VM.coType h.frame; exact this
theorem gc (h : Mk pass vm vm') : vm'.gc = vm.gc := by
  have := congrArg VM.gc h.frame; exact this
theorem sbuckets (h : Mk pass vm vm') : vm'.sbuckets = vm.sbuckets := by
  have := congrArg VM.sbuckets h.frame; exact this
theorem cleanupLog (h : Mk pass vm vm') : vm'.cleanupLog = vm.cleanupLog := by
  have := congrArg VM.cleanupLog h.frame; exact this

/-- The references of an object do not depend on marks. -/
theorem refs (h : Mk pass vm vm') {o o' : Obj} (ho : o' = { o with lastGCPass := o'.lastGCPass }) :
    objectRefs H vm' o' = objectRefs H vm o := by
  rw [ho]
  unfold objectRefs externalMarks coroutineMarks ctxAt
  rw [h.ctxs, h.extTypes, h.coType]
  rfl

end Mk

/-- The value is taken care of: marked or waiting on the open list. -/
def Cov (pass : Nat) (vm : VM) (opn : List Nat) (v : Value) : Prop :=
  match v with
  | .obj j => OLive vm j → OMarked pass vm j ∨ j ∈ opn
  | .str j => SLive vm j → SMarked pass vm j
  | _ => True

theorem Cov.mono {pass : Nat} {vm vm' : VM} {opn opn' : List Nat} {v : Value} (h : Cov pass vm opn v)
    (hm : Mk pass vm vm') (ho : ∀ j ∈ opn, j ∈ opn' ∨ OMarked pass vm' j) : Cov pass vm' opn' v := by
  cases v with
  | obj j =>
    intro hl
    rcases h ((hm.olive j).mp hl) with h | h
    · exact Or.inl (hm.omarked h)
    · exact (ho j h).symm
  | str j => exact fun hl => hm.smarked (h ((hm.slive j).mp hl))
  | _ => trivial

theorem markValue_run (pass : Nat) {vm : VM} (hs : StrWF vm) (ho : vm.objects.WF) (opn : List Nat) (v : Value) :
    ∃ opn' vm', markValue pass opn v vm = .ok (opn', vm') ∧ Mk pass vm vm' ∧ vm'.objects = vm.objects ∧
      (∀ j ∈ opn, j ∈ opn') ∧ opn'.length ≤ opn.length + 1 ∧ Cov pass vm' opn' v ∧
      (∀ j ∈ opn', j ∈ opn ∨ (v = .obj j ∧ OLive vm j)) ∧
      (∀ j, SMarked pass vm' j → SMarked pass vm j ∨ v = .str j) := by
  have triv : ∀ v : Value, Cov pass vm opn v → markValue pass opn v = (Pure.pure opn : M _) →
      ∃ opn' vm', markValue pass opn v vm = .ok (opn', vm') ∧ Mk pass vm vm' ∧ vm'.objects = vm.objects ∧
      (∀ j ∈ opn, j ∈ opn') ∧ opn'.length ≤ opn.length + 1 ∧ Cov pass vm' opn' v ∧
      (∀ j ∈ opn', j ∈ opn ∨ (v = .obj j ∧ OLive vm j)) ∧
      (∀ j, SMarked pass vm' j → SMarked pass vm j ∨ v = .str j) := by
    intro v hc e
    exact ⟨opn, vm, by rw [e]; rfl, Mk.refl hs ho, rfl, fun j h => h, by omega, hc, fun j h => Or.inl h,
      fun j h => Or.inl h⟩
  cases v with
  | obj id =>
    cases he : vm.objects.entry id with
    | none =>
      refine ⟨opn, vm.addErr "Bad object reference in garbage collector.", ?_, ?_, rfl, fun j h => h, by omega,
        ?_, fun j h => Or.inl h, fun j h => Or.inl h⟩
      · simp only [markValue, gcAddObject, M.bind_eq, getObj_run ho, he, addError_run, M.pure_run]
      · exact ⟨rfl, hs.addErr _, ho, rfl, fun _ => Or.inl rfl, fun _ => Or.inl rfl, by simp⟩
      · rintro ⟨o, h⟩
        have h : vm.objects.entry id = some o := h
        rw [he] at h; cases h
    | some o =>
      by_cases hp : o.lastGCPass = pass
      · refine ⟨opn, vm, ?_, Mk.refl hs ho, rfl, fun j h => h, by omega,
          fun _ => Or.inl ⟨o, he, hp⟩, fun j h => Or.inl h, fun j h => Or.inl h⟩
        simp only [markValue, gcAddObject, M.bind_eq, getObj_run ho, he, M.pure_run, hp]
        simp
      · refine ⟨id :: opn, vm, ?_, Mk.refl hs ho, rfl, fun j h => by simp [h], by simp,
          fun _ => Or.inr (by simp), ?_, fun j h => Or.inl h⟩
        · simp only [markValue, gcAddObject, M.bind_eq, getObj_run ho, he, M.pure_run, hp]
          simp [hp]
        · intro j hj
          rcases List.mem_cons.mp hj with rfl | hj
          · exact Or.inr ⟨rfl, o, he⟩
          · exact Or.inl hj
  | str id =>
    cases he : vm.strings.entry id with
    | none =>
      refine ⟨opn, vm.addErr "GC error: Bad string table index.", ?_, ?_, rfl, fun j h => h, by omega,
        ?_, fun j h => Or.inl h, fun j h => Or.inl h⟩
      · simp only [markValue, M.bind_eq, markString_dead hs pass he, M.pure_run]
      · exact ⟨rfl, hs.addErr _, ho, rfl, fun _ => Or.inl rfl, fun _ => Or.inl rfl, by simp⟩
      · rintro ⟨o, h⟩
        have h : vm.strings.entry id = some o := h
        rw [he] at h; cases h
    | some e =>
      obtain ⟨t, h1, h2, h3⟩ := markString_live hs pass he
      refine ⟨opn, _, ?_, ⟨rfl, h2, ho, rfl, fun _ => Or.inl rfl, ?_, List.prefix_rfl⟩, rfl, fun j h => h, by omega, ?_,
        fun j h => Or.inl h, ?_⟩
      · simp only [markValue, M.bind_eq, h1, M.pure_run]
      · intro j
        show t.entry j = _ ∨ ∃ e, _ ∧ t.entry j = _
        rw [h3]
        by_cases hj : j = id
        · subst hj; right; exact ⟨e, he, by simp⟩
        · left; simp [hj]
      · intro _
        exact ⟨{ e with lastGCPass := pass }, by show t.entry id = _; rw [h3]; simp, rfl⟩
      · rintro j ⟨x, hx, hp⟩
        have hx : t.entry j = some x := hx
        rw [h3] at hx
        by_cases hj : j = id
        · right; rw [hj]
        · left; rw [if_neg hj] at hx; exact ⟨x, hx, hp⟩
  | int i => exact triv _ trivial rfl
  | float b => exact triv _ trivial rfl
  | fn n => exact triv _ trivial rfl
  | nil => exact triv _ trivial rfl
  | bad t r => exact triv _ trivial rfl

theorem markValues_run (pass : Nat) (vs : List Value) {vm : VM} (hs : StrWF vm) (ho : vm.objects.WF)
    (opn : List Nat) :
    ∃ opn' vm', markValues pass opn vs vm = .ok (opn', vm') ∧ Mk pass vm vm' ∧ vm'.objects = vm.objects ∧
      (∀ j ∈ opn, j ∈ opn') ∧ opn'.length ≤ opn.length + vs.length ∧ (∀ v ∈ vs, Cov pass vm' opn' v) ∧
      (∀ j ∈ opn', j ∈ opn ∨ (.obj j ∈ vs ∧ OLive vm j)) ∧
      (∀ j, SMarked pass vm' j → SMarked pass vm j ∨ .str j ∈ vs) := by
  induction vs generalizing vm opn with
  | nil =>
    exact ⟨opn, vm, rfl, Mk.refl hs ho, rfl, fun j h => h, by simp, by simp, fun j h => Or.inl h,
      fun j h => Or.inl h⟩
  | cons v vs ih =>
    obtain ⟨o1, vm1, h1, h2, h3, h4, h5, h6, h7, h8⟩ := markValue_run pass hs ho opn v
    obtain ⟨o2, vm2, g1, g2, g3, g4, g5, g6, g7, g8⟩ := ih h2.str h2.tab o1
    refine ⟨o2, vm2, by unfold markValues; rw [M.bind_ok h1]; exact g1, h2.trans g2, g3.trans h3,
      fun j h => g4 j (h4 j h), by simp; omega, ?_, ?_, ?_⟩
    · intro w hw
      rcases List.mem_cons.mp hw with rfl | hw
      · exact h6.mono g2 (fun j h => Or.inl (g4 j h))
      · exact g6 w hw
    · intro j hj
      rcases g7 j hj with h | ⟨h, hl⟩
      · rcases h7 j h with h | ⟨h, hl⟩
        · exact Or.inl h
        · exact Or.inr ⟨by simp [h], hl⟩
      · exact Or.inr ⟨by simp [h], (h2.olive j).mp hl⟩
    · intro j hj
      rcases g8 j hj with h | h
      · rcases h8 j h with h | h
        · exact Or.inl h
        · exact Or.inr (by simp [h])
      · exact Or.inr (by simp [h])

/-! ## The loop -/

/-- Every live object's references can be listed. -/
def RefsOk (vm : VM) : Prop := ∀ id o, vm.objects.entry id = some o → ∃ l, objectRefs H vm o = .ok l

/-- Invariant of the marking phase, for a set `R` of values. -/
structure MI (pass : Nat) (R : Value → Prop) (vm0 vm : VM) (opn : List Nat) : Prop where
  mkd : Mk pass vm0 vm
  live : ∀ id ∈ opn, OLive vm0 id
  closed : ∀ id, OMarked pass vm id → ∀ o refs, vm0.objects.entry id = some o →
    objectRefs H vm0 o = .ok refs → ∀ v ∈ refs, Cov pass vm opn v
  soundO : ∀ id, OMarked pass vm id → R (.obj id)
  soundP : ∀ id ∈ opn, R (.obj id)
  soundS : ∀ id, SMarked pass vm id → R (.str id)

/-- Work left: the open list and the references of unmarked objects. -/
def weight (pass : Nat) (vm0 : VM) (s : Option Obj) : Nat := match s with
  | some o => if o.lastGCPass = pass then 0 else refWeight H vm0 o
  | none => 0

def work (pass : Nat) (vm0 vm : VM) (opn : List Nat) : Nat :=
  opn.length + (vm.objects.slots.map (weight H pass vm0)).sum

theorem Mk.entry_back {pass : Nat} {vm vm' : VM} (h : Mk pass vm vm') {id : Nat} {o' : Obj}
    (he : vm'.objects.entry id = some o') :
    ∃ o, vm.objects.entry id = some o ∧ o' = { o with lastGCPass := o'.lastGCPass } := by
  rcases h.obj id with e | ⟨o, h1, h2⟩
  · exact ⟨o', by rw [← e]; exact he, rfl⟩
  · rw [h2] at he
    cases he
    exact ⟨o, h1, rfl⟩

/-- Marking one object. -/
theorem markObject_run (pass : Nat) {R : Value → Prop} {vm0 vm : VM} {opn : List Nat}
    (hr : RefsOk H vm0) (hR : ∀ id o refs, R (.obj id) → vm0.objects.entry id = some o →
      objectRefs H vm0 o = .ok refs → ∀ v ∈ refs, R v)
    {id : Nat} (hid : R (.obj id)) (hl : OLive vm0 id)
    (h : MI H pass R vm0 vm (id :: opn)) :
    ∃ opn' vm', markObject H pass id opn vm = .ok (opn', vm') ∧ MI H pass R vm0 vm' opn' ∧
      OMarked pass vm' id ∧ (∀ j ∈ opn, j ∈ opn') ∧ Mk pass vm vm' ∧
      work H pass vm0 vm' opn' < work H pass vm0 vm (id :: opn) := by
  obtain ⟨o, he⟩ := (h.mkd.olive id).mpr hl
  have hsl := Table.entry_slots he
  by_cases hp : o.lastGCPass = pass
  · have hm : OMarked pass vm id := ⟨o, he, hp⟩
    refine ⟨opn, vm, ?_, ⟨h.mkd, fun j hj => h.live j (by simp [hj]), ?_, h.soundO,
      fun j hj => h.soundP j (by simp [hj]), h.soundS⟩, hm, fun j hj => hj, Mk.refl h.mkd.str h.mkd.tab, ?_⟩
    · simp [markObject, M.bind_eq, hsl, hp]
    · intro j hj o' refs h1 h2 v hv
      refine (h.closed j hj o' refs h1 h2 v hv).mono (Mk.refl h.mkd.str h.mkd.tab) ?_
      intro i hi
      rcases List.mem_cons.mp hi with rfl | hi
      · exact Or.inr hm
      · exact Or.inl hi
    · simp only [work, List.length_cons]; omega
  · obtain ⟨o0, he0, hoo⟩ := h.mkd.entry_back he
    obtain ⟨refs, hrefs⟩ := hr id o0 he0
    have hrefs' : objectRefs H vm o = .ok refs := by rw [h.mkd.refs H hoo]; exact hrefs
    have hw1 := setO_wf h.mkd.tab he { o with lastGCPass := pass }
    have he1 := setO_entry h.mkd.tab he { o with lastGCPass := pass }
    have hs1 := setO_strWF h.mkd.str id { o with lastGCPass := pass }
    have hmk1 : Mk pass vm (vm.setO id { o with lastGCPass := pass }) := by
      refine ⟨rfl, hs1, hw1, rfl, ?_, fun _ => Or.inl rfl, List.prefix_rfl⟩
      intro j
      rw [he1]
      by_cases hj : j = id
      · subst hj; right; exact ⟨o, he, by simp⟩
      · left; simp [hj]
    obtain ⟨opn', vm', g1, g2, g3, g4, g5, g6, g7, g8⟩ :=
      markValues_run pass refs hs1 hw1 opn
    have hmk2 := hmk1.trans g2
    have hm : OMarked pass vm' id := by
      refine ⟨{ o with lastGCPass := pass }, ?_, rfl⟩
      rw [g3, he1]; simp
    have hmb : ∀ j, OMarked pass vm' j → OMarked pass vm j ∨ j = id := by
      rintro j ⟨x, hx, hp⟩
      rw [g3, he1] at hx
      by_cases hj : j = id
      · exact Or.inr hj
      · left; rw [if_neg hj] at hx; exact ⟨x, hx, hp⟩
    refine ⟨opn', vm', ?_, ⟨h.mkd.trans hmk2, ?_, ?_, ?_, ?_, ?_⟩, hm, g4, hmk2, ?_⟩
    · simp only [markObject, M.bind_eq, get_run, hsl, hp, if_false, setObj_run h.mkd.tab he, hrefs', liftR_ok]
      exact g1
    · intro j hj
      rcases g7 j hj with hj | ⟨_, hj⟩
      · exact h.live j (by simp [hj])
      · exact (h.mkd.olive j).mp ((hmk1.olive j).mp hj)
    · intro j hj o' refs' h1 h2 v hv
      rcases hmb j hj with hj | rfl
      · refine (h.closed j hj o' refs' h1 h2 v hv).mono hmk2 ?_
        intro i hi
        rcases List.mem_cons.mp hi with rfl | hi
        · exact Or.inr hm
        · exact Or.inl (g4 i hi)
      · rw [he0] at h1
        cases h1
        rw [hrefs] at h2
        cases h2
        exact g6 v hv
    · intro j hj
      rcases hmb j hj with hj | rfl
      · exact h.soundO j hj
      · exact hid
    · intro j hj
      rcases g7 j hj with hj | ⟨hj, _⟩
      · exact h.soundP j (by simp [hj])
      · exact hR id o0 refs hid he0 hrefs _ hj
    · intro j hj
      rcases g8 j hj with hj | hj
      · exact h.soundS j hj
      · exact hR id o0 refs hid he0 hrefs _ hj
    · have hwt : refWeight H vm0 o = refs.length + 1 := by
        have : objectRefs H vm0 o = .ok refs := by
          rw [(Mk.refl (pass := pass) h.mkd.str h.mkd.tab).refs H (o := o0) hoo] at hrefs'
          have e1 := (Mk.refs H h.mkd (o := o) (o' := o) rfl)
          rw [← e1, Mk.refs H (Mk.refl (pass := pass) h.mkd.str h.mkd.tab) hoo]
          exact hrefs'
        simp [refWeight, this]
      have hsum := sum_set (l := vm.objects.slots.map (weight H pass vm0)) (i := id)
        (a := refs.length + 1) (b := 0) (by
          rw [List.getElem?_map, hsl]
          simp [weight, hp, hwt])
      unfold work
      rw [g3]
      have hset : (vm.setO id { o with lastGCPass := pass }).objects.slots.map (weight H pass vm0) =
          (vm.objects.slots.map (weight H pass vm0)).set id 0 := by
        simp [VM.setO, List.map_set, weight]
      rw [hset]
      simp only [List.length_cons]
      omega

theorem markReferenced_run (pass : Nat) {R : Value → Prop} {vm0 : VM} (hr : RefsOk H vm0)
    (hR : ∀ id o refs, R (.obj id) → vm0.objects.entry id = some o →
      objectRefs H vm0 o = .ok refs → ∀ v ∈ refs, R v) (fuel : Nat) :
    ∀ {vm : VM} {opn : List Nat}, MI H pass R vm0 vm opn → work H pass vm0 vm opn ≤ fuel →
    ∃ vm', markReferenced H pass fuel opn vm = .ok ((), vm') ∧ MI H pass R vm0 vm' [] ∧ Mk pass vm vm' := by
  induction fuel with
  | zero =>
    intro vm opn h hf
    cases opn with
    | nil => exact ⟨vm, rfl, h, Mk.refl h.mkd.str h.mkd.tab⟩
    | cons id opn => simp [work] at hf
  | succ n ih =>
    intro vm opn h hf
    cases opn with
    | nil => exact ⟨vm, rfl, h, Mk.refl h.mkd.str h.mkd.tab⟩
    | cons id opn =>
      obtain ⟨opn', vm', h1, h2, _, _, h5, h6⟩ := markObject_run H pass hr hR
        (h.soundP id (by simp)) (h.live id (by simp)) h
      obtain ⟨vm'', g1, g2, g3⟩ := ih h2 (by omega)
      exact ⟨vm'', by unfold markReferenced; rw [M.bind_ok h1]; exact g1, g2, h5.trans g3⟩

/-! ## References and `Points` -/

theorem ctxAt_iff {vm : VM} {i : Nat} {c : Ctx} : ctxAt vm i = .ok c ↔ vm.ctxs[i]? = some (some c) := by
  unfold ctxAt
  split <;> simp_all

namespace CoWF
variable {vm : VM}

theorem mem_live {vm : VM} {l : List Nat} (hroot : ∃ c, vm.ctxs[0]? = some (some c))
    (hlast : l.getLast? = some 0)
    (hstep : ∀ (n i j : Nat), l[n]? = some i → l[n + 1]? = some j →
      ∃ c, vm.ctxs[i]? = some (some c) ∧ c.parent = some j) :
    ∀ i ∈ l, ∃ c, vm.ctxs[i]? = some (some c) := by
  intro i hi
  obtain ⟨n, hn, rfl⟩ := List.mem_iff_getElem.mp hi
  by_cases h : n + 1 < l.length
  · obtain ⟨c, h1, _⟩ := hstep n _ _ (List.getElem?_eq_getElem hn) (List.getElem?_eq_getElem h)
    exact ⟨c, h1⟩
  · have : l[n] = 0 := by
      rw [List.getLast?_eq_getElem?] at hlast
      have e : l.length - 1 = n := by omega
      rw [e, List.getElem?_eq_getElem hn] at hlast
      exact Option.some.inj hlast
    rw [this]; exact hroot

/-- A live context's resumer is live, and both are on the chain. -/
theorem parent_live (h : CoWF vm) {i p : Nat} {c : Ctx} (hc : vm.ctxs[i]? = some (some c))
    (hp : c.parent = some p) : ∃ pc, vm.ctxs[p]? = some (some pc) := by
  obtain ⟨l, _, _, hlast, hstep, hall⟩ := h.chain
  obtain ⟨r, hr0, hr1, _⟩ := h.root
  have hi := hall i c hc (by simp [hp])
  obtain ⟨n, hn, e⟩ := List.mem_iff_getElem.mp hi
  have hlt : n + 1 < l.length := by
    rcases Nat.lt_or_ge (n + 1) l.length with h | h
    · exact h
    · exfalso
      rw [List.getLast?_eq_getElem?] at hlast
      have e1 : l.length - 1 = n := by omega
      rw [e1, List.getElem?_eq_getElem hn, e] at hlast
      cases hlast
      rw [hr0] at hc
      cases hc
      rw [hr1] at hp
      cases hp
  obtain ⟨c', h1, h2⟩ := hstep n i (l[n + 1]) (by rw [List.getElem?_eq_getElem hn, e]) (List.getElem?_eq_getElem hlt)
  rw [hc] at h1
  cases h1
  rw [hp] at h2
  have : p ∈ l := by
    have := List.getElem_mem hlt
    rw [Option.some.inj h2]; exact this
  exact mem_live ⟨r, hr0⟩ hlast hstep p this

theorem cur_live (h : CoWF vm) : ∃ c, vm.At c := by
  obtain ⟨l, _, hhead, hlast, hstep, hall⟩ := h.chain
  obtain ⟨r, hr0, _⟩ := h.root
  exact mem_live ⟨r, hr0⟩ hlast hstep vm.cur (List.mem_of_head? hhead)

theorem active_live (h : CoWF vm) {i : Nat} (ha : Active vm i) : ∃ c, vm.ctxs[i]? = some (some c) := by
  induction ha with
  | cur => exact h.cur_live
  | resumer _ hc hp _ => exact h.parent_live hc hp

theorem chain_active {l : List Nat} (hhead : l.head? = some vm.cur)
    (hstep : ∀ (n i j : Nat), l[n]? = some i → l[n + 1]? = some j →
      ∃ c, vm.ctxs[i]? = some (some c) ∧ c.parent = some j) : ∀ (n i : Nat), l[n]? = some i → Active vm i := by
  intro n
  induction n with
  | zero =>
    intro i hi
    rw [List.head?_eq_getElem?, hi] at hhead
    cases hhead
    exact .cur
  | succ n ih =>
    intro i hi
    have hn : n < l.length := by have := (List.getElem?_eq_some_iff.mp hi).1; omega
    obtain ⟨c, e1, e2⟩ := hstep n _ _ (List.getElem?_eq_getElem hn) hi
    exact .resumer (ih _ (List.getElem?_eq_getElem hn)) e1 e2

theorem active_zero (h : CoWF vm) : Active vm 0 := by
  obtain ⟨l, _, hhead, hlast, hstep, _⟩ := h.chain
  rw [List.getLast?_eq_getElem?] at hlast
  exact chain_active hhead hstep _ _ hlast

end CoWF

theorem Stack.WF.used_run {s : Stack} (h : s.WF) :
    (if s.size ≤ s.vals.length then Res.ok (s.vals.take s.size) else .ub .oob) = .ok s.used := by
  rw [if_pos (by rw [h.len]; exact h.size)]; rfl

theorem Obj.mem_contents {o : Obj} {v : Value} :
    v ∈ o.contents ↔ ∃ es ∈ o.buckets, ∃ e ∈ es, v = e.1 ∨ v = e.2 := by
  simp [Obj.contents]

/-- The references of an object exist and are what `Points` says. -/
theorem objectRefs_spec {vm : VM} (h : CoWF vm) {id : Nat} {o : Obj} (he : vm.objects.entry id = some o) :
    ∃ l, objectRefs H vm o = .ok l ∧ ∀ v, v ∈ l ↔ Points H vm id v := by
  obtain ⟨t, ht, hmark, _⟩ := h.type
  have base : ∀ v, v ∈ o.contents → Points H vm id v := by
    intro v hv
    obtain ⟨es, h1, e, h2, rfl | rfl⟩ := Obj.mem_contents.mp hv
    · exact .key he h1 h2
    · exact .field he h1 h2
  by_cases hco : o.extType = vm.coType
  · obtain ⟨i, c, hd, _, hc, _⟩ := h.own id o he hco
    have hst := h.stack i c hc
    have hu := hst.used_run
    cases hp : c.parent with
    | none =>
      refine ⟨o.contents ++ c.stack.used, ?_, ?_⟩
      · have hsz : c.stack.size ≤ c.stack.vals.length := by rw [hst.len]; exact hst.size
        simp [objectRefs, externalMarks, hco, ht, hmark, coroutineMarks, hd, ctxAt_iff.mpr hc, hp, hsz, Stack.used]
      · intro v
        rw [List.mem_append]
        constructor
        · rintro (h1 | h1)
          · exact base v h1
          · exact .stack he hco hd hc h1
        · intro h1
          cases h1 with
          | key h1 h2 h3 => rw [he] at h1; cases h1; exact Or.inl (Obj.mem_contents.mpr ⟨_, h2, _, h3, Or.inl rfl⟩)
          | field h1 h2 h3 => rw [he] at h1; cases h1; exact Or.inl (Obj.mem_contents.mpr ⟨_, h2, _, h3, Or.inr rfl⟩)
          | stack h1 h2 h3 h4 h5 =>
            rw [he] at h1; cases h1; rw [hd] at h3; cases h3; rw [hc] at h4; cases h4; exact Or.inr h5
          | resumer h1 h2 h3 h4 h5 h6 =>
            rw [he] at h1; cases h1; rw [hd] at h3; cases h3; rw [hc] at h4; cases h4
            rw [hp] at h5; cases h5
          | host h1 h2 h3 h4 h5 => rw [he] at h1; cases h1; exact absurd hco h2
    | some p =>
      obtain ⟨pc, hpc⟩ := h.parent_live hc hp
      refine ⟨o.contents ++ (pc.coObj :: c.stack.used), ?_, ?_⟩
      · have hsz : c.stack.size ≤ c.stack.vals.length := by rw [hst.len]; exact hst.size
        simp [objectRefs, externalMarks, hco, ht, hmark, coroutineMarks, hd, ctxAt_iff.mpr hc, hp,
          ctxAt_iff.mpr hpc, hsz, Stack.used]
      · intro v
        rw [List.mem_append, List.mem_cons]
        constructor
        · rintro (h1 | rfl | h1)
          · exact base v h1
          · exact .resumer he hco hd hc hp hpc
          · exact .stack he hco hd hc h1
        · intro h1
          cases h1 with
          | key h1 h2 h3 => rw [he] at h1; cases h1; exact Or.inl (Obj.mem_contents.mpr ⟨_, h2, _, h3, Or.inl rfl⟩)
          | field h1 h2 h3 => rw [he] at h1; cases h1; exact Or.inl (Obj.mem_contents.mpr ⟨_, h2, _, h3, Or.inr rfl⟩)
          | stack h1 h2 h3 h4 h5 =>
            rw [he] at h1; cases h1; rw [hd] at h3; cases h3; rw [hc] at h4; cases h4; exact Or.inr (Or.inr h5)
          | resumer h1 h2 h3 h4 h5 h6 =>
            rw [he] at h1; cases h1; rw [hd] at h3; cases h3; rw [hc] at h4; cases h4
            rw [hp] at h5; cases h5; rw [hpc] at h6; cases h6; exact Or.inr (Or.inl rfl)
          | host h1 h2 h3 h4 h5 => rw [he] at h1; cases h1; exact absurd hco h2
  · have other : ∀ v, Points H vm id v → v ∉ o.contents → ∃ t, vm.extTypes[o.extType]? = some t ∧
        t.hasMark = true ∧ v ∈ H.mark o.extType o.extData := by
      intro v h1 hn
      cases h1 with
      | key h1 h2 h3 => rw [he] at h1; cases h1; exact absurd (Obj.mem_contents.mpr ⟨_, h2, _, h3, Or.inl rfl⟩) hn
      | field h1 h2 h3 => rw [he] at h1; cases h1; exact absurd (Obj.mem_contents.mpr ⟨_, h2, _, h3, Or.inr rfl⟩) hn
      | stack h1 h2 h3 h4 h5 => rw [he] at h1; cases h1; exact absurd h2 hco
      | resumer h1 h2 h3 h4 h5 h6 => rw [he] at h1; cases h1; exact absurd h2 hco
      | host h1 h2 h3 h4 h5 => rw [he] at h1; cases h1; exact ⟨_, h3, h4, h5⟩
    cases hx : vm.extTypes[o.extType]? with
    | none =>
      refine ⟨o.contents, by simp [objectRefs, externalMarks, hx], fun v => ⟨base v, fun h1 => ?_⟩⟩
      by_contra hn
      obtain ⟨t, h2, _⟩ := other v h1 hn
      rw [hx] at h2; cases h2
    | some t =>
      cases hm : t.hasMark with
      | false =>
        refine ⟨o.contents, by simp [objectRefs, externalMarks, hx, hm], fun v => ⟨base v, fun h1 => ?_⟩⟩
        by_contra hn
        obtain ⟨t', h2, h3, _⟩ := other v h1 hn
        rw [hx] at h2; cases h2; rw [hm] at h3; cases h3
      | true =>
        refine ⟨o.contents ++ H.mark o.extType o.extData,
          by simp [objectRefs, externalMarks, hx, hm, hco], fun v => ?_⟩
        rw [List.mem_append]
        constructor
        · rintro (h1 | h1)
          · exact base v h1
          · exact .host he hco hx hm h1
        · intro h1
          by_cases hn : v ∈ o.contents
          · exact Or.inl hn
          · obtain ⟨_, _, _, h2⟩ := other v h1 hn
            exact Or.inr h2

/-! ## The whole marking phase -/

theorem MI.values {pass : Nat} {R : Value → Prop} {vm0 vm : VM} {opn : List Nat}
    (h : MI H pass R vm0 vm opn) (vs : List Value) (hv : ∀ v ∈ vs, R v) :
    ∃ opn' vm', markValues pass opn vs vm = .ok (opn', vm') ∧ MI H pass R vm0 vm' opn' ∧ Mk pass vm vm' ∧
      (∀ j ∈ opn, j ∈ opn') ∧ (∀ v ∈ vs, Cov pass vm' opn' v) := by
  obtain ⟨opn', vm', h1, h2, h3, h4, _, h6, h7, h8⟩ := markValues_run pass vs h.mkd.str h.mkd.tab opn
  have hom : ∀ j, OMarked pass vm' j → OMarked pass vm j := by
    rintro j ⟨o, ho, hp⟩
    exact ⟨o, by rw [← h3]; exact ho, hp⟩
  refine ⟨opn', vm', h1, ⟨h.mkd.trans h2, ?_, ?_, fun j hj => h.soundO j (hom j hj), ?_, ?_⟩, h2, h4, h6⟩
  · intro j hj
    rcases h7 j hj with hj | ⟨_, hj⟩
    · exact h.live j hj
    · exact (h.mkd.olive j).mp hj
  · intro j hj o refs e1 e2 v hv
    exact (h.closed j (hom j hj) o refs e1 e2 v hv).mono h2 (fun i hi => Or.inl (h4 i hi))
  · intro j hj
    rcases h7 j hj with hj | ⟨hj, _⟩
    · exact h.soundP j hj
    · exact hv _ hj
  · intro j hj
    rcases h8 j hj with hj | hj
    · exact h.soundS j hj
    · exact hv _ hj

theorem markValues_one (pass : Nat) (opn : List Nat) (v : Value) :
    markValues pass opn [v] = markValue pass opn v := by
  funext vm
  simp only [markValues, M.bind_eq]
  cases markValue pass opn v vm <;> rfl

theorem MI.cons {pass : Nat} {R : Value → Prop} {vm0 vm : VM} {opn : List Nat}
    (h : MI H pass R vm0 vm opn) {id : Nat} (hl : OLive vm0 id) (hr : R (.obj id)) :
    MI H pass R vm0 vm (id :: opn) := by
  refine ⟨h.mkd, ?_, ?_, h.soundO, ?_, h.soundS⟩
  · intro j hj
    rcases List.mem_cons.mp hj with rfl | hj
    · exact hl
    · exact h.live j hj
  · intro j hj o refs e1 e2 v hv
    exact (h.closed j hj o refs e1 e2 v hv).mono (Mk.refl h.mkd.str h.mkd.tab) (fun i hi => Or.inl (by simp [hi]))
  · intro j hj
    rcases List.mem_cons.mp hj with rfl | hj
    · exact hr
    · exact h.soundP j hj

theorem MI.handles {pass : Nat} {R : Value → Prop} {vm0 : VM} (hr : RefsOk H vm0)
    (hR : ∀ id o refs, R (.obj id) → vm0.objects.entry id = some o →
      objectRefs H vm0 o = .ok refs → ∀ v ∈ refs, R v) (ids : List Nat) :
    ∀ {vm : VM} {opn : List Nat}, MI H pass R vm0 vm opn → (∀ id ∈ ids, OLive vm0 id ∧ R (.obj id)) →
    ∃ opn' vm', markHandles H pass opn ids vm = .ok (opn', vm') ∧ MI H pass R vm0 vm' opn' ∧ Mk pass vm vm' ∧
      (∀ j ∈ opn, j ∈ opn') ∧ (∀ id ∈ ids, Cov pass vm' opn' (.obj id)) := by
  induction ids with
  | nil => intro vm opn h _; exact ⟨opn, vm, rfl, h, Mk.refl h.mkd.str h.mkd.tab, fun j h => h, by simp⟩
  | cons id ids ih =>
    intro vm opn h hids
    obtain ⟨hl, hid⟩ := hids id (by simp)
    obtain ⟨o1, vm1, h1, h2, h3, h4, h5, _⟩ := markObject_run H pass hr hR hid hl (h.cons H hl hid)
    obtain ⟨o2, vm2, g1, g2, g3, g4, g5⟩ := ih h2 (fun j hj => hids j (by simp [hj]))
    refine ⟨o2, vm2, by unfold markHandles; rw [M.bind_ok h1]; exact g1, g2, h5.trans g3,
      fun j hj => g4 j (h4 j hj), ?_⟩
    intro j hj
    rcases List.mem_cons.mp hj with rfl | hj
    · exact fun _ => Or.inl (g3.omarked h3)
    · exact g5 j hj

theorem work_le_gcFuel {pass : Nat} {vm0 vm : VM} (h : Mk pass vm0 vm) (opn : List Nat) :
    work H pass vm0 vm opn ≤ gcFuel H vm opn := by
  have hw : ∀ o, refWeight H vm o = refWeight H vm0 o := by
    intro o
    unfold refWeight
    rw [h.refs H (o := o) (o' := o) rfl]
  unfold work gcFuel
  apply Nat.add_le_add_left
  generalize vm.objects.slots = l
  induction l with
  | nil => simp
  | cons s l ih =>
    simp only [List.map_cons, List.sum_cons]
    apply Nat.add_le_add _ ih
    cases s with
    | none => simp [weight]
    | some o =>
      simp only [weight]
      split
      · omega
      · rw [hw]

/-- The marking phase: it completes, marks only reachable things and all of them. -/
theorem gcMark_run {pass : Nat} {vm : VM} (h : HeapWF vm)
    (hfo : ∀ id o, vm.objects.entry id = some o → o.lastGCPass ≠ pass)
    (hfs : ∀ id e, vm.strings.entry id = some e → e.lastGCPass ≠ pass) :
    ∃ vm', gcMark H pass vm = .ok ((), vm') ∧ Mk pass vm vm' ∧
      (∀ id, OMarked pass vm' id ↔ OLive vm id ∧ Reach H vm (.obj id)) ∧
      (∀ id, SMarked pass vm' id ↔ SLive vm id ∧ Reach H vm (.str id)) := by
  have hro : RefsOk H vm := fun id o he => by
    obtain ⟨l, hl, _⟩ := objectRefs_spec H h.co he
    exact ⟨l, hl⟩
  have hR : ∀ id o refs, Reach H vm (.obj id) → vm.objects.entry id = some o →
      objectRefs H vm o = .ok refs → ∀ v ∈ refs, Reach H vm v := by
    intro id o refs h1 h2 h3 v hv
    obtain ⟨l, hl, hm⟩ := objectRefs_spec H h.co h2
    rw [h3] at hl
    cases hl
    exact .step h1 ((hm v).mp hv)
  have h0 : MI H pass (Reach H vm) vm vm [] := by
    refine ⟨Mk.refl h.str h.tab, by simp, ?_, ?_, by simp, ?_⟩
    · rintro id ⟨o, ho, hp⟩; exact absurd hp (hfo id o ho)
    · rintro id ⟨o, ho, hp⟩; exact absurd hp (hfo id o ho)
    · rintro id ⟨o, ho, hp⟩; exact absurd hp (hfs id o ho)
  obtain ⟨root, hroot, hrp, hro'⟩ := h.co.root
  obtain ⟨c, hc⟩ := h.co.cur_live
  obtain ⟨o1, vm1, a1, a2, a3, a4, a5⟩ := MI.handles H hro hR vm.handles h0
    (fun id hid => ⟨h.handles id hid, .root (.handle hid)⟩)
  have hrv : rootStackValues vm = .ok root.stack.used := by
    have hst := h.co.stack 0 root hroot
    have hsz : root.stack.size ≤ root.stack.vals.length := by rw [hst.len]; exact hst.size
    simp [rootStackValues, ctxAt_iff.mpr hroot, hsz, Stack.used]
  have hact0 : Active vm 0 := h.co.active_zero
  obtain ⟨o2, vm2, b1, b2, b3, b4, b5⟩ := a2.values H root.stack.used
    (fun v hv => .root (.stack hact0 hroot hv))
  have hc2 : vm2.At c := by
    unfold VM.At
    rw [b2.mkd.ctxs, b2.mkd.cur]; exact hc
  obtain ⟨o3, vm3, c1, c2, c3, c4, c5⟩ := b2.values H [c.coObj]
    (fun v hv => by simp at hv; rw [hv]; exact .root (.coroutine .cur hc))
  rw [markValues_one] at c1
  have hsv : staticValues vm = .ok vm.statics := by
    unfold staticValues
    rw [if_pos (by rw [h.statics]; omega), List.take_of_length_le (by rw [h.statics])]
  obtain ⟨o4, vm4, d1, d2, d3, d4, d5⟩ := c2.values H vm.statics (fun v hv => .root (.static hv))
  obtain ⟨vm5, e1, e2, e3⟩ := markReferenced_run H pass hro hR (gcFuel H vm4 o4) d2
    (work_le_gcFuel H d2.mkd o4)
  have hrun : gcMark H pass vm = .ok ((), vm5) := by
    unfold gcMark
    rw [M.bind_ok (show (get : M VM) vm = .ok (vm, vm) from rfl), M.bind_ok a1,
      M.bind_ok (show liftR (rootStackValues vm) vm1 = .ok (root.stack.used, vm1) by rw [hrv]; rfl),
      M.bind_ok b1, M.bind_ok (curCtx_at hc2), M.bind_ok c1,
      M.bind_ok (show liftR (staticValues vm) vm3 = .ok (vm.statics, vm3) by rw [hsv]; rfl),
      M.bind_ok d1, M.bind_ok (show (get : M VM) vm4 = .ok (vm4, vm4) from rfl)]
    exact e1
  -- everything on an open list ends up marked
  have hopen : ∀ (fuel : Nat) {v1 v2 : VM} {opn : List Nat}, MI H pass (Reach H vm) vm v1 opn →
      markReferenced H pass fuel opn v1 = .ok ((), v2) → Mk pass v1 v2 ∧ ∀ j ∈ opn, OMarked pass v2 j := by
    intro fuel
    induction fuel with
    | zero =>
      intro v1 v2 opn hm hr
      cases opn with
      | nil => simp [markReferenced] at hr; subst hr; exact ⟨Mk.refl hm.mkd.str hm.mkd.tab, by simp⟩
      | cons => simp [markReferenced, liftR] at hr
    | succ n ih =>
      intro v1 v2 opn hm hr
      cases opn with
      | nil => simp [markReferenced] at hr; subst hr; exact ⟨Mk.refl hm.mkd.str hm.mkd.tab, by simp⟩
      | cons id opn =>
        obtain ⟨opn', w, g1, g2, g3, g4, g5, _⟩ := markObject_run H pass hro hR
          (hm.soundP id (by simp)) (hm.live id (by simp)) hm
        unfold markReferenced at hr
        rw [M.bind_ok g1] at hr
        obtain ⟨k1, k2⟩ := ih g2 hr
        refine ⟨g5.trans k1, ?_⟩
        intro j hj
        rcases List.mem_cons.mp hj with rfl | hj
        · exact k1.omarked g3
        · exact k2 j (g4 j hj)
  have hm4 := (hopen _ d2 e1).2
  have fin4 : ∀ {v}, Cov pass vm4 o4 v → Cov pass vm5 [] v :=
    fun h1 => h1.mono e3 (fun j hj => Or.inr (hm4 j hj))
  have fin3 : ∀ {v}, Cov pass vm3 o3 v → Cov pass vm5 [] v :=
    fun h1 => fin4 (h1.mono d3 (fun j hj => Or.inl (d4 j hj)))
  have fin2 : ∀ {v}, Cov pass vm2 o2 v → Cov pass vm5 [] v :=
    fun h1 => fin3 (h1.mono c3 (fun j hj => Or.inl (c4 j hj)))
  have fin1 : ∀ {v}, Cov pass vm1 o1 v → Cov pass vm5 [] v :=
    fun h1 => fin2 (h1.mono b3 (fun j hj => Or.inl (b4 j hj)))
  have hstep : ∀ {id v}, Cov pass vm5 [] (.obj id) → Points H vm id v → Cov pass vm5 [] v := by
    intro id v h1 h2
    have hl : ∃ o, vm.objects.entry id = some o := by cases h2 <;> exact ⟨_, ‹_›⟩
    obtain ⟨o, ho⟩ := hl
    rcases h1 ((e2.mkd.olive id).mpr ⟨o, ho⟩) with h3 | h3
    · obtain ⟨l, hl, hm⟩ := objectRefs_spec H h.co ho
      exact e2.closed id h3 o l ho hl v ((hm v).mpr h2)
    · simp at h3
  have hactive : ∀ i, Active vm i → ∀ c : Ctx, vm.ctxs[i]? = some (some c) →
      Cov pass vm5 [] c.coObj ∧ ∀ v ∈ c.stack.used, Cov pass vm5 [] v := by
    have aux : ∀ (i : Nat) (c : Ctx), vm.ctxs[i]? = some (some c) → Cov pass vm5 [] c.coObj →
        ∀ v ∈ c.stack.used, Cov pass vm5 [] v := by
      intro i c h1 h2 v hv
      by_cases hi : i = 0
      · subst hi; rw [hroot] at h1; cases h1
        exact fin2 (b5 v hv)
      · obtain ⟨id, o, k1, k2, k3, k4⟩ := h.co.owned i c hi h1
        rw [k1] at h2
        exact hstep h2 (.stack k2 k3 k4 h1 hv)
    intro i hi
    induction hi with
    | cur =>
      intro c' h1
      rw [show vm.ctxs[vm.cur]? = some (some c) from hc] at h1
      cases h1
      have := fin3 (c5 c.coObj (by simp))
      exact ⟨this, aux _ _ hc this⟩
    | @resumer i p ci hi hci hp ih =>
      intro c' h1
      have hcov := (ih ci hci).1
      have : Cov pass vm5 [] c'.coObj := by
        by_cases hi0 : i = 0
        · subst hi0; rw [hroot] at hci; cases hci; rw [hrp] at hp; cases hp
        · obtain ⟨id, o, k1, k2, k3, k4⟩ := h.co.owned i ci hi0 hci
          rw [k1] at hcov
          exact hstep hcov (.resumer k2 k3 k4 hci hp h1)
      exact ⟨this, aux _ _ h1 this⟩
  have hall : ∀ v, Reach H vm v → Cov pass vm5 [] v := by
    intro v hv
    induction hv with
    | root hr =>
      cases hr with
      | stack h1 h2 h3 => exact (hactive _ h1 _ h2).2 _ h3
      | coroutine h1 h2 => exact (hactive _ h1 _ h2).1
      | static h1 => exact fin4 (d5 _ h1)
      | handle h1 => exact fin1 (a5 _ h1)
    | step _ hp ih => exact hstep ih hp
  refine ⟨vm5, hrun, e2.mkd, ?_, ?_⟩
  · intro id
    constructor
    · intro hm
      refine ⟨(e2.mkd.olive id).mp ⟨_, hm.choose_spec.1⟩, e2.soundO id hm⟩
    · rintro ⟨h1, h2⟩
      rcases hall _ h2 ((e2.mkd.olive id).mpr h1) with h3 | h3
      · exact h3
      · simp at h3
  · intro id
    constructor
    · intro hm
      refine ⟨(e2.mkd.slive id).mp ⟨_, hm.choose_spec.1⟩, e2.soundS id hm⟩
    · rintro ⟨h1, h2⟩
      exact hall _ h2 ((e2.mkd.slive id).mpr h1)

end Nk
