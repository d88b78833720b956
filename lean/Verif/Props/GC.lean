import Verif.Lemmas.Destroy
import Verif.Props.Objects
import Verif.Spec.Sample
/-!
# C15–C18: garbage collection and cleanup

`HeapWF` (in `Spec.Heap`) is the invariant of the heap: tables in order, coroutines and contexts paired,
the chain of resumers ends at the main program, no mark from the future.  The pass counter is 32 bits wide;
the theorems are about collections before it wraps around.
-/
namespace Nk.Props
variable (H : Host)

/-! ## C16 -/

/-- C16: a collection completes; every reachable object is still there with the same fields, external data
and handles, every reachable string with the same text; running and waiting coroutines keep their stacks,
as do all coroutines that are reachable; the global variables are unchanged. -/
theorem C16_keeps_reachable {vm : VM} (h : HeapWF vm) (hp : vm.gc.lastGCPass + 1 < 4294967296) :
    ∃ vm', garbageCollect H vm = .ok ((), vm') ∧
      (∀ id o, Reach H vm (.obj id) → vm.objects.entry id = some o →
        ∃ o', vm'.objects.entry id = some o' ∧ o'.buckets = o.buckets ∧ o'.size = o.size ∧
          o'.extType = o.extType ∧ o'.extData = o.extData ∧ o'.handleCount = o.handleCount) ∧
      (∀ id e, Reach H vm (.str id) → vm.strings.entry id = some e →
        ∃ e', vm'.strings.entry id = some e' ∧ e'.str = e.str) ∧
      (∀ (i : Nat) (c : Ctx), Active vm i → vm.ctxs[i]? = some (some c) → vm'.ctxs[i]? = some (some c)) ∧
      (∀ (id : Nat) (o : Obj) (i : Nat) (c : Ctx), Reach H vm (.obj id) → vm.objects.entry id = some o → o.extType = vm.coType →
        o.extData = some i → vm.ctxs[i]? = some (some c) → vm'.ctxs[i]? = some (some c)) ∧
      vm'.statics = vm.statics ∧ vm'.cur = vm.cur ∧ vm'.handles = vm.handles := by
  obtain ⟨vm', h1, c⟩ := garbageCollect_run H h hp
  refine ⟨vm', h1, ?_, ?_, fun i x ha hx => c.keep_active H h ha hx,
    fun id o i x hr he ht hd hx => c.keep H h hr he ht hd hx, c.statics H, c.cur H, c.handles H⟩
  · intro id o hr he
    exact ⟨_, (c.obj id _).mpr ⟨o, he, hr, rfl⟩, rfl, rfl, rfl, rfl, rfl⟩
  · intro id e hr he
    exact ⟨_, (c.sob id _).mpr ⟨e, he, Or.inl ⟨hr, rfl⟩⟩, rfl⟩

/-! ## C17 -/

/-- C17: every object left after a collection was reachable, every string left was reachable or is a literal
of the program (protected), and every context left belongs to the main program or a reachable coroutine. -/
theorem C17_frees_unreachable {vm : VM} (h : HeapWF vm) (hp : vm.gc.lastGCPass + 1 < 4294967296) :
    ∃ vm', garbageCollect H vm = .ok ((), vm') ∧
      (∀ id o, vm'.objects.entry id = some o → Reach H vm (.obj id)) ∧
      (∀ id e, vm'.strings.entry id = some e → Reach H vm (.str id) ∨ e.dontGC = true) ∧
      (∀ (i : Nat) (c : Ctx), i ≠ 0 → vm'.ctxs[i]? = some (some c) → Reach H vm c.coObj) := by
  obtain ⟨vm', h1, c⟩ := garbageCollect_run H h hp
  refine ⟨vm', h1, ?_, ?_, ?_⟩
  · intro id o he
    obtain ⟨_, _, hr, _⟩ := (c.obj id o).mp he
    exact hr
  · intro id e he
    obtain ⟨e0, _, ⟨hr, _⟩ | ⟨_, hd, e1⟩⟩ := (c.sob id e).mp he
    · exact Or.inl hr
    · exact Or.inr (by rw [e1]; exact hd)
  · intro i x hi hx
    obtain ⟨hx, hn⟩ := (c.ctx i x).mp hx
    obtain ⟨id, o, k1, k2, k3, k4⟩ := h.co.owned i x hi hx
    rw [k1]
    by_contra hr
    exact hn ⟨id, o, k2, hr, k3, k4⟩

/-! ## C18 -/

/-- C18: a collection terminates in a well-formed heap. -/
theorem C18_terminates {vm : VM} (h : HeapWF vm) (hp : vm.gc.lastGCPass + 1 < 4294967296) :
    ∃ vm', garbageCollect H vm = .ok ((), vm') ∧ HeapWF vm' := by
  obtain ⟨vm', h1, c⟩ := garbageCollect_run H h hp
  exact ⟨vm', h1, c.wf H h⟩

/-- C18: a second collection right after the first frees no object, string or context and runs no
cleanup callback. -/
theorem C18_idempotent {vm : VM} (h : HeapWF vm) (hp : vm.gc.lastGCPass + 2 < 4294967296) :
    ∃ vm1 vm2, garbageCollect H vm = .ok ((), vm1) ∧ garbageCollect H vm1 = .ok ((), vm2) ∧
      vm2.cleanupLog = vm1.cleanupLog ∧
      (∀ id, (vm2.objects.entry id).isSome = (vm1.objects.entry id).isSome) ∧
      (∀ id, (vm2.strings.entry id).isSome = (vm1.strings.entry id).isSome) ∧
      (∀ (i : Nat) (c : Ctx), vm2.ctxs[i]? = some (some c) ↔ vm1.ctxs[i]? = some (some c)) := by
  obtain ⟨vm1, h1, c1⟩ := garbageCollect_run H h (by omega)
  have w1 := c1.wf H h
  obtain ⟨vm2, h2, c2⟩ := garbageCollect_run H w1 (by rw [c1.gcPass]; omega)
  have hr : ∀ id o, vm1.objects.entry id = some o → Reach H vm1 (.obj id) := by
    intro id o he
    obtain ⟨_, _, hr, _⟩ := (c1.obj id o).mp he
    exact (c1.reach H h).2 hr
  refine ⟨vm1, vm2, h1, h2, ?_, ?_, ?_, ?_⟩
  · obtain ⟨l, l1, _, l3⟩ := c2.log
    cases l with
    | nil => simpa using l1
    | cons x l =>
      obtain ⟨id, o, _, k1, k2, _⟩ := (l3 x).mp (by simp)
      exact absurd (hr id o k1) k2
  · intro id
    rw [Bool.eq_iff_iff, Option.isSome_iff_exists, Option.isSome_iff_exists]
    constructor
    · rintro ⟨o, ho⟩
      obtain ⟨o0, k, _⟩ := (c2.obj id o).mp ho
      exact ⟨o0, k⟩
    · rintro ⟨o, ho⟩
      exact ⟨_, (c2.obj id _).mpr ⟨o, ho, hr id o ho, rfl⟩⟩
  · intro id
    rw [Bool.eq_iff_iff, Option.isSome_iff_exists, Option.isSome_iff_exists]
    constructor
    · rintro ⟨e, he⟩
      obtain ⟨e0, k, _⟩ := (c2.sob id e).mp he
      exact ⟨e0, k⟩
    · rintro ⟨e, he⟩
      obtain ⟨e0, k0, ⟨hre, k1⟩ | ⟨_, hd, k1⟩⟩ := (c1.sob id e).mp he
      · exact ⟨_, (c2.sob id _).mpr ⟨e, he, Or.inl ⟨(c1.reach H h).2 hre, rfl⟩⟩⟩
      · by_cases hre : Reach H vm1 (.str id)
        · exact ⟨_, (c2.sob id _).mpr ⟨e, he, Or.inl ⟨hre, rfl⟩⟩⟩
        · exact ⟨_, (c2.sob id _).mpr ⟨e, he, Or.inr ⟨hre, by rw [k1]; exact hd, rfl⟩⟩⟩
  · intro i x
    rw [c2.ctx]
    refine ⟨fun k => k.1, fun k => ⟨k, ?_⟩⟩
    rintro ⟨id, o, k1, k2, _⟩
    exact k2 (hr id o k1)

/-! ## Fields across collections (C11, C12) -/

/-- A collection is one of the steps considered in `ObjHistory`: what scripts can still see of the fields
of objects is unaffected. -/
theorem C11_collect (F : FloatOps) {L : Nat} {vm vm' : VM} {w : Log} (hh : ObjHistory F H L vm w)
    (h : HeapWF vm) (hp : vm.gc.lastGCPass + 1 < 4294967296) (hg : garbageCollect H vm = .ok ((), vm')) :
    ObjHistory F H L vm' (w.filter (fun a => (vm'.objects.entry a.1).isSome)) := by
  obtain ⟨vm1, h1, c⟩ := garbageCollect_run H h hp
  rw [hg] at h1
  cases h1
  refine .other hh c.str c.tab ?_
  intro id o' he
  obtain ⟨o, k1, k2, k3⟩ := (c.obj id o').mp he
  refine ⟨o, k1, by rw [k3], by rw [k3], ?_⟩
  intro es hes e he
  cases hk : e.1 with
  | str sid =>
    have hr : Reach H vm (.str sid) := by
      rw [← hk]; exact .step k2 (.key k1 hes he)
    unfold keyOf
    simp only
    cases hs : vm.strings.entry sid with
    | none =>
      cases hs' : vm'.strings.entry sid with
      | none => rfl
      | some e' =>
        obtain ⟨e0, g, _⟩ := (c.sob sid e').mp hs'
        rw [hs] at g; cases g
    | some e0 =>
      rw [(c.sob sid _).mpr ⟨e0, hs, Or.inl ⟨hr, rfl⟩⟩]
      rfl
  | _ => rfl

/-! ## C15 -/

/-- The object `id` carries the external data `d` of type `t`. -/
def Holds (vm : VM) (id t d : Nat) : Prop :=
  ∃ o, vm.objects.entry id = some o ∧ o.extType = t ∧ o.extData = some d

/-- How often the cleanup callback of type `t` was called with data `d`. -/
def cleanups (vm : VM) (t d : Nat) : Nat :=
  (vm.cleanupLog.filter (fun x => x.2 = (t, some d))).length

/-- Histories of attaching external data to objects.  The list has the attachments made so far: type and
data.  Data is attached to one object only. -/
inductive ExtHistory : VM → List (Nat × Nat) → Prop
  | start : ExtHistory VM.create []
  /-- `nkxVmObjectSetExternalType`, `nkxVmObjectSetExternalData` on an object that has none yet, with a
  registered type with a cleanup callback -/
  | attach {vm vm1 vm' : VM} {A : List (Nat × Nat)} {id t d : Nat} {o : Obj} {ty : ExtType} :
      ExtHistory vm A → vm.objects.WF → vm.objects.entry id = some o → o.extType = UINT_MAX →
      vm.extTypes[t]? = some ty → ty.hasCleanup = true → t ≠ UINT_MAX → t ≠ vm.coType → (t, d) ∉ A →
      cleanups vm t d = 0 → (∀ j, ¬ Holds vm j t d) →
      setExtType (.obj id) t vm = .ok (true, vm1) → setExtData (.obj id) d vm1 = .ok (true, vm') →
      ExtHistory vm' ((t, d) :: A)
  /-- a collection, explicit or triggered by the program -/
  | collect {vm vm' : VM} {A : List (Nat × Nat)} : ExtHistory vm A → HeapWF vm →
      vm.gc.lastGCPass + 1 < 4294967296 → garbageCollect H vm = .ok ((), vm') → ExtHistory vm' A
  /-- anything else: runs no cleanup, does not touch the attachments, only adds types -/
  | other {vm vm' : VM} {A : List (Nat × Nat)} : ExtHistory vm A →
      vm'.cleanupLog = vm.cleanupLog → vm.extTypes <+: vm'.extTypes → vm'.coType = vm.coType →
      (∀ id t d, (t, d) ∈ A → (Holds vm' id t d ↔ Holds vm id t d)) → ExtHistory vm' A

/-- Held by exactly one object and not cleaned up yet, or cleaned up once and held by none. -/
def OnceSoFar (vm : VM) (t d : Nat) : Prop :=
  (cleanups vm t d = 0 ∧ ∃ id, Holds vm id t d ∧ ∀ j, Holds vm j t d → j = id) ∨
  (cleanups vm t d = 1 ∧ ∀ id, ¬ Holds vm id t d)

theorem count_log {l : List (Nat × Nat × Option Nat)} (hn : (l.map Prod.fst).Nodup) {t d id : Nat}
    (hu : ∀ x ∈ l, x.2 = (t, some d) → x.1 = id) (hx : (id, t, some d) ∈ l) :
    (l.filter (fun x => x.2 = (t, some d))).length = 1 := by
  induction l with
  | nil => simp at hx
  | cons y l ih =>
    rw [List.map_cons, List.nodup_cons] at hn
    by_cases hy : y.2 = (t, some d)
    · have hid := hu y (by simp) hy
      rw [List.filter_cons_of_pos (by simp [hy])]
      have : l.filter (fun x => decide (x.2 = (t, some d))) = [] := by
        rw [List.filter_eq_nil_iff]
        intro z hz hzz
        have hzz : z.2 = (t, some d) := by simpa using hzz
        have := hu z (by simp [hz]) hzz
        exact hn.1 (by rw [hid, ← this]; exact List.mem_map_of_mem hz)
      rw [this]; rfl
    · rw [List.filter_cons_of_neg (by simp [hy])]
      refine ih hn.2 (fun x hx => hu x (by simp [hx])) ?_
      rcases List.mem_cons.mp hx with e | hx
      · exact absurd (by rw [← e]) hy
      · exact hx

theorem count_none {l : List (Nat × Nat × Option Nat)} {t d : Nat} (h : ∀ x ∈ l, x.2 ≠ (t, some d)) :
    (l.filter (fun x => x.2 = (t, some d))).length = 0 := by
  rw [List.length_eq_zero_iff, List.filter_eq_nil_iff]
  intro x hx hxx
  exact h x hx (by simpa using hxx)

/-- The effect of cleaning up the objects satisfying `rm`. -/
theorem once_step {vm : VM} {l lg : List (Nat × Nat × Option Nat)} {rm : Nat → Prop} {t d : Nat}
    (ho : OnceSoFar vm t d) (hnd : (l.map Prod.fst).Nodup) (hlg : lg = l ++ vm.cleanupLog)
    (hcl : ∀ id o, vm.objects.entry id = some o → o.extType = t → HasCleanup vm o)
    (hl : ∀ x, x ∈ l ↔ ∃ id o, x = (id, o.extType, o.extData) ∧ vm.objects.entry id = some o ∧
      rm id ∧ HasCleanup vm o) :
    ((lg.filter (fun x => x.2 = (t, some d))).length = 0 ∧ cleanups vm t d = 0 ∧
        ∃ id, Holds vm id t d ∧ ¬ rm id ∧ ∀ j, Holds vm j t d → j = id) ∨
    ((lg.filter (fun x => x.2 = (t, some d))).length = 1 ∧ ∀ id, Holds vm id t d → rm id) := by
  rw [hlg, List.filter_append, List.length_append]
  have hmem : ∀ x ∈ l, x.2 = (t, some d) → Holds vm x.1 t d ∧ rm x.1 := by
    intro x hx he
    obtain ⟨id, o, rfl, k1, k2, _⟩ := (hl x).mp hx
    simp only [Prod.mk.injEq] at he
    exact ⟨⟨o, k1, he.1, he.2⟩, k2⟩
  rcases ho with ⟨h1, id, h2, h3⟩ | ⟨h1, h2⟩
  · by_cases hr : rm id
    · right
      refine ⟨?_, fun j hj => by rw [h3 j hj]; exact hr⟩
      rw [show (vm.cleanupLog.filter _).length = 0 from h1]
      obtain ⟨o, k1, k2, k3⟩ := h2
      refine count_log hnd (id := id) (fun x hx he => h3 _ (hmem x hx he).1) ?_
      exact (hl _).mpr ⟨id, o, by rw [k2, k3], k1, hr, hcl id o k1 k2⟩
    · left
      refine ⟨?_, h1, id, h2, hr, h3⟩
      rw [show (vm.cleanupLog.filter _).length = 0 from h1, count_none]
      intro x hx he
      obtain ⟨k1, k2⟩ := hmem x hx he
      rw [h3 _ k1] at k2
      exact hr k2
  · right
    refine ⟨?_, fun j hj => absurd hj (h2 j)⟩
    rw [show (vm.cleanupLog.filter _).length = 1 from h1, count_none]
    intro x hx he
    exact h2 _ (hmem x hx he).1

theorem ext_once {vm : VM} {A : List (Nat × Nat)} (h : ExtHistory H vm A) :
    ∀ t d, (t, d) ∈ A → OnceSoFar vm t d ∧ t ≠ UINT_MAX ∧ t ≠ vm.coType ∧
      ∃ ty, vm.extTypes[t]? = some ty ∧ ty.hasCleanup = true := by
  induction h with
  | start => simp
  | @attach vm vm1 vm' A id t d o ty hh hw he hno hty hcl hmax hco hna hz hnh hst hsd ih =>
    have e1 : vm1 = vm.setO id { o with extType := t } := by
      simp [setExtType, objFromValue, M.bind_eq, getObj_run hw, he, setObj_run hw he] at hst
      exact hst.symm
    subst e1
    have hw1 := setO_wf hw he { o with extType := t }
    have he1 : (vm.setO id { o with extType := t }).objects.entry id = some { o with extType := t } := by
      rw [setO_entry hw he]; simp
    have e2 : vm' = vm.setO id { o with extType := t, extData := some d } := by
      simp [setExtData, objFromValue, M.bind_eq, getObj_run hw1, he1, setObj_run hw1 he1] at hsd
      exact hsd.symm
    have hent : ∀ j, vm'.objects.entry j = if j = id then some { o with extType := t, extData := some d }
        else vm.objects.entry j := by
      intro j
      rw [e2, setO_entry hw he]
    have hlog : vm'.cleanupLog = vm.cleanupLog := by rw [e2]; rfl
    have hext : vm'.extTypes = vm.extTypes := by rw [e2]; rfl
    have hcty : vm'.coType = vm.coType := by rw [e2]; rfl
    intro t' d' hm
    rw [hext, hcty]
    rcases List.mem_cons.mp hm with e | hm
    · cases e
      refine ⟨Or.inl ⟨?_, id,
        ⟨{ o with extType := t, extData := some d }, by rw [hent, if_pos rfl], rfl, rfl⟩, ?_⟩, hmax, hco, ty, hty, hcl⟩
      · unfold cleanups; rw [hlog]; exact hz
      · rintro j ⟨x, hx, k1, k2⟩
        rw [hent] at hx
        by_contra hj
        rw [if_neg hj] at hx
        exact hnh j ⟨x, hx, k1, k2⟩
    · obtain ⟨h1, h2, h3, h4⟩ := ih t' d' hm
      have hne : (t', d') ≠ (t, d) := fun e => hna (by rw [← e]; exact hm)
      have hiff : ∀ j, Holds vm' j t' d' ↔ Holds vm j t' d' := by
        intro j
        unfold Holds
        rw [hent]
        by_cases hj : j = id
        · subst hj
          rw [if_pos rfl, he]
          constructor
          · rintro ⟨x, hx, k1, k2⟩
            cases hx
            simp only [Option.some.injEq] at k1 k2
            exact absurd (by rw [k1, k2]) hne
          · rintro ⟨x, hx, k1, k2⟩
            cases hx
            rw [hno] at k1
            exact absurd k1.symm h2
        · rw [if_neg hj]
      refine ⟨?_, h2, h3, h4⟩
      unfold OnceSoFar cleanups
      rw [hlog]
      simp only [hiff]
      exact h1
  | @collect vm vm' A hh hw hp hg ih =>
    intro t d hm
    obtain ⟨h1, h2, h3, ty, h4, h5⟩ := ih t d hm
    obtain ⟨v, g1, c⟩ := garbageCollect_run H hw hp
    rw [hg] at g1
    cases g1
    refine ⟨?_, h2, by rw [c.coType]; exact h3, ty, by rw [c.extTypes]; exact h4, h5⟩
    obtain ⟨l, l1, l2, l3⟩ := c.log
    have hh : ∀ j, Holds vm' j t d ↔ Holds vm j t d ∧ Reach H vm (.obj j) := by
      intro j
      unfold Holds
      constructor
      · rintro ⟨o', k1, k2, k3⟩
        obtain ⟨o, g1, g2, g3⟩ := (c.obj j o').mp k1
        rw [g3] at k2 k3
        exact ⟨⟨o, g1, k2, k3⟩, g2⟩
      · rintro ⟨⟨o, k1, k2, k3⟩, k4⟩
        exact ⟨_, (c.obj j _).mpr ⟨o, k1, k4, rfl⟩, k2, k3⟩
    rcases once_step h1 l2 l1 (fun id o he ht => ⟨by rw [ht]; exact h2, ty, by rw [ht]; exact h4, h5⟩) l3 with
      ⟨k1, _, id, k2, k3, k4⟩ | ⟨k1, k2⟩
    · refine Or.inl ⟨k1, id, (hh id).mpr ⟨k2, not_not.mp k3⟩, fun j hj => k4 j ((hh j).mp hj).1⟩
    · refine Or.inr ⟨k1, fun j hj => ?_⟩
      obtain ⟨g1, g2⟩ := (hh j).mp hj
      exact k2 j g1 g2
  | @other vm vm' A hh hlog hext hcty hhold ih =>
    intro t d hm
    obtain ⟨h1, h2, h3, ty, h4, h5⟩ := ih t d hm
    refine ⟨?_, h2, by rw [hcty]; exact h3, ty, ?_, h5⟩
    · unfold OnceSoFar cleanups
      rw [hlog]
      simp only [fun j => hhold j t d hm]
      exact h1
    · obtain ⟨r, hr⟩ := hext
      rw [← hr, List.getElem?_append_left]
      · exact h4
      · exact (List.getElem?_eq_some_iff.mp h4).1

/-- C15 without catastrophic failures: at any time the cleanup callback has run for an attachment exactly
once or not yet, not yet exactly if an object still holds it; and when the VM is deleted it has run exactly
once. -/
theorem C15_cleanup_partial {vm : VM} {A : List (Nat × Nat)} (h : ExtHistory H vm A) {t d : Nat}
    (hm : (t, d) ∈ A) :
    cleanups vm t d ≤ 1 ∧ (cleanups vm t d = 0 ↔ ∃ id, Holds vm id t d) ∧
    (HeapWF vm → vm.gc.lastGCPass + 1 < 4294967296 →
      ∃ calls vm', destroy H false vm = .ok (calls, vm') ∧ cleanups vm' t d = 1) := by
  obtain ⟨h1, h2, h3, ty, h4, h5⟩ := ext_once H h t d hm
  refine ⟨?_, ?_, ?_⟩
  · rcases h1 with h | h <;> omega
  · rcases h1 with ⟨a, id, b, _⟩ | ⟨a, b⟩
    · exact ⟨fun _ => ⟨id, b⟩, fun _ => a⟩
    · refine ⟨fun h => by omega, ?_⟩
      rintro ⟨id, hh⟩
      exact absurd hh (b id)
  · intro hw hp
    obtain ⟨calls, vm', g1, _, l, l1, l2, l3⟩ := destroy_run H hw hp
    refine ⟨calls, vm', g1, ?_⟩
    rcases once_step (rm := fun _ => True) h1 l2 l1
      (fun id o he ht => ⟨by rw [ht]; exact h2, ty, by rw [ht]; exact h4, h5⟩)
      (fun x => by rw [l3]; simp) with ⟨_, _, _, _, k, _⟩ | ⟨k1, _⟩
    · exact absurd trivial k
    · exact k1

/-- C15 fails after a catastrophic allocation failure: deletion then runs no cleanup callback of external
data, so for data still held the callback never runs. -/
theorem C15_violation {vm : VM} {A : List (Nat × Nat)} (h : ExtHistory H vm A) {t d id : Nat}
    (hm : (t, d) ∈ A) (hh : Holds vm id t d) :
    ∃ calls vm', destroy H true vm = .ok (calls, vm') ∧ cleanups vm' t d = 0 :=
  ⟨_, _, rfl, (C15_cleanup_partial H h hm).2.1.mpr ⟨id, hh⟩⟩

/-! ## Concrete cases -/

theorem create_heapWF : HeapWF VM.create := by
  have hno : ∀ (α : Type) id (o : α), (Table.init : Table α).entry id ≠ some o := by
    intro α id o
    match id with
    | 0 => simp [Table.init, Table.entry]
    | 1 => simp [Table.init, Table.entry]
    | n + 2 => simp [Table.init, Table.entry]
  have hctx : ∀ (i : Nat) (c : Ctx), VM.create.ctxs[i]? = some (some c) →
      i = 0 ∧ c = { Ctx.init with state := .running } := by
    intro i c h
    match i with
    | 0 => exact ⟨rfl, (Option.some.inj (Option.some.inj h)).symm⟩
    | n + 1 =>
      rw [show VM.create.ctxs = [some { Ctx.init with state := .running }] from rfl] at h
      simp at h
  refine ⟨create_strWF, Table.init_wf, ⟨⟨_, rfl, rfl, rfl⟩, ?_, ?_, ?_, ⟨[0], by simp, rfl, rfl, ?_, ?_⟩,
    ⟨_, rfl, rfl, rfl, by decide⟩⟩, rfl,
    fun id hid => absurd hid List.not_mem_nil, ?_, ?_⟩
  · intro i c h; rw [(hctx i c h).2]; exact Stack.init_wf
  · intro id o h; exact absurd h (hno Obj id o)
  · intro i c hi h; exact absurd (hctx i c h).1 hi
  · intro n i j h1 h2; simp at h2
  · intro i c h hp; rw [(hctx i c h).2] at hp; exact absurd rfl hp
  · intro id o h; exact absurd h (hno Obj id o)
  · intro id o h; exact absurd h (hno Str id o)

/-- A new object and its id. -/
def newObj : M (Value × Nat) := do
  dispatch Sample.F Sample.H 32
  let o ← pop
  match o with
  | .obj id => return (o, id)
  | _ => return (o, 0)

/-- Two objects referring to each other, one of them with external data 7 of a type with cleanup, a third one
kept in a global variable, a fourth one as a key of the third, one string as a field, one string unused. -/
def sampleHeap : M (List Nat) := do
  modify fun vm => { vm with extTypes := vm.extTypes ++
    [{ name := cs "t", hasSerialize := false, hasCleanup := true, hasMark := false }] }
  let (a, ia) ← newObj
  let (b, ib) ← newObj
  let (c, ic) ← newObj
  let (d, id) ← newObj
  let s ← findOrAddString (cs "kept")
  let t ← findOrAddString (cs "lost")
  storeField Sample.F ia (.int 1) b
  storeField Sample.F ib (.int 1) a
  storeField Sample.F ic d (.str s)
  storeField Sample.F ia (.int 2) (.str t)
  let _ ← setExtType a 1
  let _ ← setExtData a 7
  modify fun vm => { vm with statics := vm.statics.set 0 c }
  return [ia, ib, ic, id, s, t]

/-- The cycle and the unused string go, the cleanup callback runs once; a second collection changes nothing;
deletion cleans up nothing more. -/
example : (sampleHeap VM.create).test (fun p => (garbageCollect Sample.H p.2).test (fun q =>
    decide (p.1 = [0, 1, 2, 3, 0, 1]) &&
    decide ([0, 1, 2, 3].map (fun i => (q.2.objects.entry i).isSome) = [false, false, true, true]) &&
    decide ([0, 1].map (fun i => (q.2.strings.entry i).map (fun e => e.str)) = [some (cs "kept"), none]) &&
    decide (q.2.cleanupLog = [(0, 1, some 7)] ∧ q.2.errors = []) &&
    (garbageCollect Sample.H q.2).test (fun r => decide (r.2.cleanupLog = q.2.cleanupLog)) &&
    (destroy Sample.H false q.2).test (fun r => decide (r.2.cleanupLog = q.2.cleanupLog)) &&
    (destroy Sample.H false p.2).test (fun r => decide (r.2.cleanupLog = [(0, 1, some 7)])) &&
    (destroy Sample.H true p.2).test (fun r => decide (r.2.cleanupLog = [])))) := by decide +kernel

end Nk.Props
