import Verif.Lemmas.SaveCo
import Mathlib.Data.List.Perm.Subperm
/-!
# Reading back the chain of active coroutines
-/
namespace Nk.Save
variable {α β : Type} {F : FloatOps}

/-- The contexts from one to the main program, each followed by its parent. -/
inductive Path (vm : VM) : List Nat → Prop
  | root {c : Ctx} (h : vm.ctxs[0]? = some (some c)) (hp : c.parent = none) (ho : c.coObj = .nil) : Path vm [0]
  | next {i j : Nat} {l : List Nat} {c : Ctx} (h : vm.ctxs[i]? = some (some c)) (hp : c.parent = some j)
      (t : Path vm (j :: l)) : Path vm (i :: j :: l)

theorem CoWF.path {vm : VM} (h : CoWF vm) : ∃ l, Path vm (vm.cur :: l) ∧ (vm.cur :: l).Nodup ∧
    ∀ (i : Nat) (c : Ctx), vm.ctxs[i]? = some (some c) → c.parent ≠ none → i ∈ vm.cur :: l := by
  obtain ⟨l, hn, hh, hl, hs, hm⟩ := h.chain
  cases l with
  | nil => simp at hh
  | cons x l =>
    simp only [List.head?_cons, Option.some.injEq] at hh
    subst hh
    refine ⟨l, ?_, hn, hm⟩
    clear hm hn
    generalize vm.cur = x at *
    induction l generalizing x with
    | nil =>
      obtain ⟨c, h1, h2, h3⟩ := h.root
      simp only [List.getLast?_singleton, Option.some.injEq] at hl
      subst hl
      exact .root h1 h2 h3
    | cons y l ih =>
      obtain ⟨c, h1, h2⟩ := hs 0 x y rfl rfl
      refine .next h1 h2 (ih y ?_ fun n i j h1 h2 => hs (n + 1) i j h1 h2)
      rwa [List.getLast?_cons_cons] at hl

/-- The object of a context. -/
def objOf (vm : VM) (i : Nat) : Value :=
  match vm.ctxs[i]? with
  | some (some c) => c.coObj
  | _ => .nil

theorem objOf_eq {vm : VM} {i : Nat} {c : Ctx} (h : vm.ctxs[i]? = some (some c)) : objOf vm i = c.coObj := by
  unfold objOf; rw [h]

theorem saveChain_writes {vm : VM} {l : List Nat} (h : Path vm l) {i : Nat} (hi : l.head? = some i) {n : Nat}
    (hn : l.length ≤ n) : Writes (saveChain n i) vm (l.flatMap fun i => valueBytes (objOf vm i)) := by
  induction h generalizing n i with
  | @root c h hp ho =>
    simp only [List.head?_cons, Option.some.injEq] at hi
    subst hi
    cases n with
    | zero => simp at hn
    | succ n =>
      have hat : ctxAt vm 0 = .ok c := by simp [ctxAt, h]
      unfold saveChain Writes
      rw [M.bind_ok (get_run _), M.bind_ok (ctx_lift hat), hp]
      simp only [List.flatMap_cons, objOf_eq h]
      exact Writes.andThen .emit .emit
  | @next i' j l c h hp t ih =>
    simp only [List.head?_cons, Option.some.injEq] at hi
    subst hi
    cases n with
    | zero => simp at hn
    | succ n =>
      have hat : ctxAt vm i' = .ok c := by simp [ctxAt, h]
      unfold saveChain Writes
      rw [M.bind_ok (get_run _), M.bind_ok (ctx_lift hat), hp, List.flatMap_cons, objOf_eq h]
      refine Writes.andThen .emit ?_
      exact ih rfl (by simpa using hn)

theorem Path.get {vm : VM} {l : List Nat} (h : Path vm l) : ∀ i ∈ l, ∃ c, vm.ctxs[i]? = some (some c) := by
  induction h with
  | root h hp ho => simp; exact ⟨_, h⟩
  | next h hp t ih =>
    intro k hk
    rcases List.mem_cons.mp hk with rfl | hk
    · exact ⟨_, h⟩
    · exact ih k hk

theorem Path.length_le {vm : VM} {l : List Nat} (h : Path vm l) (hn : l.Nodup) : l.length ≤ vm.ctxs.length := by
  have : l ⊆ List.range vm.ctxs.length := by
    intro i hi
    obtain ⟨c, hc⟩ := h.get i hi
    rw [List.mem_range]
    exact (List.getElem?_eq_some_iff.mp hc).1
  have := (hn.subperm this).length_le
  simpa using this

/-- The bytes of the chain. -/
def chainImage (vm : VM) (l : List Nat) : Bytes := l.flatMap fun i => valueBytes (objOf vm i)

theorem saveActive_writes {vm : VM} {l : List Nat} (h : Path vm (vm.cur :: l)) (hn : (vm.cur :: l).Nodup) :
    Writes saveActive vm (chainImage vm (vm.cur :: l)) := by
  unfold saveActive Writes
  rw [M.bind_ok (get_run _)]
  exact saveChain_writes h rfl (h.length_le hn)

/-! ## Loading the chain -/

/-- Give context `j` a parent. -/
def setParent (j p : Nat) (cs : List (Option Ctx)) : List (Option Ctx) :=
  cs.modify j (Option.map fun c => { c with parent := some p })

/-- Give the last context of the chain so far, if there is one, a parent. -/
def linkOne (last : Option Nat) (p : Nat) (cs : List (Option Ctx)) : List (Option Ctx) :=
  match last with
  | none => cs
  | some j => setParent j p cs

/-- Link the contexts of a chain. -/
def linkAll (ρ : Nat → Nat) (last : Option Nat) : List Nat → List (Option Ctx) → List (Option Ctx)
  | [], cs => cs
  | i :: l, cs => linkAll ρ (some (ρ i)) l (linkOne last (ρ i) cs)

/-- The state while the chain is loaded. -/
def ctxState (v : VM) (cs : List (Option Ctx)) : VM := { v with ctxs := cs }

theorem setAt_parent {v : VM} {cs : List (Option Ctx)} {j p : Nat} {c : Ctx} (h : cs[j]? = some (some c)) :
    setAt (ctxState v cs) j { c with parent := some p } = ctxState v (setParent j p cs) := by
  unfold setAt ctxState setParent
  congr 1
  apply List.ext_getElem?
  intro n
  rw [List.getElem?_modify, List.getElem?_set]
  have hj := (List.getElem?_eq_some_iff.mp h).1
  by_cases hn : j = n
  · subst hn
    rw [if_pos rfl, if_pos hj, h]
    simp
  · rw [if_neg hn]
    simp [hn]

theorem linkCtx_run {v : VM} {cs : List (Option Ctx)} {last : Option Nat} {i : Nat} {c : Ctx}
    (hc : cs[i]? = some (some c)) (hr : c.state = .running)
    (hl : ∀ j, last = some j → j ≠ 0 ∧ ∃ d, cs[j]? = some (some d) ∧ d.parent = none) (b : Bytes) :
    linkCtx last i b (ctxState v cs) = .ok ((some (), b), ctxState v (linkOne last i cs)) := by
  have hat : ctxAt (ctxState v cs) i = .ok c := by simp [ctxAt, ctxState, hc]
  unfold linkCtx
  rw [L.bind_some (get_lift _ _), L.bind_some (lift_run (ctx_lift hat)), if_neg (by simp [hr])]
  cases last with
  | none => rfl
  | some j =>
    obtain ⟨h0, d, hd, hp⟩ := hl j rfl
    have hat' : ctxAt (ctxState v cs) j = .ok d := by simp [ctxAt, ctxState, hd]
    dsimp only
    rw [L.bind_some (get_lift _ _), L.bind_some (lift_run (ctx_lift hat')), if_neg (by simp [hp]), if_neg h0,
      updCtx_run (by exact hd), setAt_parent hd]
    rfl

/-- The object of a context leads to its new context. -/
structure Leads (vm v : VM) (ρ : Nat → Nat) (i : Nat) : Prop where
  root : i = 0 → ρ i = 0 ∧ objOf vm i = .nil
  obj : i ≠ 0 → ρ i ≠ 0 ∧ ∃ id o, objOf vm i = .obj id ∧ id < v.objects.cap ∧ v.objects.slots[id]? = some (some o) ∧
    o.extType = v.coType ∧ o.extData = some (ρ i) ∧ id < 4294967296

theorem chainCtx_run {vm v : VM} {ρ : Nat → Nat} {i : Nat} (h : Leads vm v ρ i) (cs : List (Option Ctx)) (b : Bytes) :
    chainCtx (objOf vm i) b (ctxState v cs) = .ok ((some (ρ i), b), ctxState v cs) := by
  unfold chainCtx
  rw [L.bind_some (get_lift _ _)]
  by_cases hi : i = 0
  · obtain ⟨h1, h2⟩ := h.root hi
    rw [h2, h1]
    rfl
  · obtain ⟨-, id, o, h1, h2, h3, h4, h5, -⟩ := h.obj hi
    rw [h1]
    have hg : getObj id (ctxState v cs) = .ok (some o, ctxState v cs) := by
      unfold getObj Table.get Table.read ctxState
      dsimp only
      rw [if_neg (by omega), h3]
    have hv : objFromValue (.obj id) (ctxState v cs) = .ok (some (id, o), ctxState v cs) := by
      unfold objFromValue
      exact (M.bind_ok hg).trans rfl
    rw [L.bind_some (lift_run hv), if_neg (by simp)]
    dsimp only
    rw [if_pos (show o.extType = (ctxState v cs).coType from h4), h5]
    rfl

theorem setParent_get {j p n : Nat} {cs : List (Option Ctx)} (h : n ≠ j) : (setParent j p cs)[n]? = cs[n]? := by
  unfold setParent
  rw [List.getElem?_modify]
  have : ¬ j = n := fun e => h e.symm
  simp [this]

theorem setParent_self {j p : Nat} {cs : List (Option Ctx)} {c : Ctx} (h : cs[j]? = some (some c)) :
    (setParent j p cs)[j]? = some (some { c with parent := some p }) := by
  unfold setParent
  simp [h]

theorem loadChain_run {vm v : VM} {ρ : Nat → Nat} {l : List Nat} (hp : Path vm l) :
    ∀ (first last : Option Nat) (cs : List (Option Ctx)), (l.map ρ).Nodup → (∀ i ∈ l, Leads vm v ρ i) →
    (∀ i ∈ l, ∃ c, cs[ρ i]? = some (some c) ∧ c.state = .running ∧ c.parent = none) →
    (∀ j, last = some j → j ≠ 0 ∧ j ∉ l.map ρ ∧ ∃ d, cs[j]? = some (some d) ∧ d.parent = none) →
    ∀ (x : Nat), l.head? = some x → ∀ (r : Bytes),
    loadChain first last (chainImage vm l ++ r) (ctxState v cs) =
      .ok ((some (first.getD (ρ x)), r), ctxState v (linkAll ρ last l cs)) := by
  have hstep : ∀ (i : Nat) (l' : List Nat) (first last : Option Nat) (cs : List (Option Ctx)),
      Leads vm v ρ i → (∃ c, cs[ρ i]? = some (some c) ∧ c.state = .running ∧ c.parent = none) →
      (∀ j, last = some j → j ≠ 0 ∧ ∃ d, cs[j]? = some (some d) ∧ d.parent = none) → ∀ (r : Bytes),
      loadChain first last (chainImage vm (i :: l') ++ r) (ctxState v cs) =
        if i = 0 then .ok ((some (first.getD (ρ i)), chainImage vm l' ++ r), ctxState v (linkOne last (ρ i) cs))
        else loadChain (some (first.getD (ρ i))) (some (ρ i)) (chainImage vm l' ++ r) (ctxState v (linkOne last (ρ i) cs)) := by
    intro i l' first last cs hlead hc hl r
    obtain ⟨c, hc1, hc2, -⟩ := hc
    have hfit : (objOf vm i).Fits := by
      by_cases hi : i = 0
      · rw [(hlead.root hi).2]; simp [Value.Fits]
      · obtain ⟨-, id, o, h1, -, -, -, -, h6⟩ := hlead.obj hi
        rw [h1]; simpa [Value.Fits] using h6
    obtain ⟨hm, ht, hr⟩ := mkValue_fits hfit
    have e : chainImage vm (i :: l') ++ r = valueBytes (objOf vm i) ++ (chainImage vm l' ++ r) := by
      unfold chainImage; rw [List.flatMap_cons, List.append_assoc]
    rw [e]
    unfold valueBytes le32
    simp only [List.append_assoc, List.cons_append, List.nil_append]
    rw [loadChain]
    rw [of32_le32 ht, of32_le32 hr, hm]
    rw [M.bind_ok (chainCtx_run hlead cs _)]
    dsimp only
    rw [M.bind_ok (linkCtx_run hc1 hc2 hl _)]
    dsimp only
    by_cases hi : i = 0
    · rw [if_pos (hlead.root hi).2, if_pos hi]
      rfl
    · obtain ⟨-, id, o, h1, -⟩ := hlead.obj hi
      rw [if_neg (by rw [h1]; simp), if_neg hi]
  induction hp with
  | @root c h hpar ho =>
    intro first last cs hn hlead hc hl x hx r
    simp only [List.head?_cons, Option.some.injEq] at hx
    subst hx
    rw [hstep 0 [] first last cs (hlead 0 (by simp)) (hc 0 (by simp)) (fun j hj => ⟨(hl j hj).1, (hl j hj).2.2⟩) r, if_pos rfl]
    rfl
  | @next i j l c h hpar t ih =>
    intro first last cs hn hlead hc hl x hx r
    simp only [List.head?_cons, Option.some.injEq] at hx
    subst hx
    have hne : i ≠ 0 := by
      rintro rfl
      have hnn : ρ 0 ∉ (j :: l).map ρ := by
        rw [List.map_cons, List.nodup_cons] at hn; exact hn.1
      have h0 : 0 ∈ j :: l := by
        clear ih hn hlead hc hl hnn h hpar c
        generalize j :: l = m at t
        induction t with
        | root => simp
        | next h hp t ih => exact List.mem_cons_of_mem _ ih
      exact hnn (List.mem_map_of_mem h0)
    rw [hstep i (j :: l) first last cs (hlead i (by simp)) (hc i (by simp)) (fun j hj => ⟨(hl j hj).1, (hl j hj).2.2⟩) r,
      if_neg hne]
    rw [List.map_cons, List.nodup_cons] at hn
    obtain ⟨ci, hci, -, hcp⟩ := hc i (by simp)
    have hother : ∀ n, n ∈ (i :: j :: l).map ρ → (linkOne last (ρ i) cs)[n]? = cs[n]? := by
      intro n hnm
      cases last with
      | none => rfl
      | some k =>
        refine setParent_get ?_
        rintro rfl
        exact (hl n rfl).2.1 hnm
    have := ih (some (first.getD (ρ i))) (some (ρ i)) (linkOne last (ρ i) cs) hn.2 (fun k hk => hlead k (by simp at hk ⊢; tauto)) (by
        intro k hk
        rw [hother _ (List.mem_map_of_mem (by simp at hk ⊢; tauto))]
        exact hc k (by simp at hk ⊢; tauto)) (by
        intro k hk
        cases hk
        refine ⟨((hlead i (by simp)).obj hne).1, hn.1, ci, ?_, hcp⟩
        rw [hother _ (by simp)]
        exact hci) j rfl r
    rw [this]
    rfl

theorem loadActive_run {vm v : VM} {ρ : Nat → Nat} {l : List Nat} (hp : Path vm (vm.cur :: l))
    (hn : ((vm.cur :: l).map ρ).Nodup) (hlead : ∀ i ∈ vm.cur :: l, Leads vm v ρ i)
    (hc : ∀ i ∈ vm.cur :: l, ∃ c, v.ctxs[ρ i]? = some (some c) ∧ c.state = .running ∧ c.parent = none) (r : Bytes) :
    loadActive (chainImage vm (vm.cur :: l) ++ r) v =
      .ok ((some (), r), { v with ctxs := linkAll ρ none (vm.cur :: l) v.ctxs, cur := ρ vm.cur }) := by
  unfold loadActive
  have := loadChain_run (v := v) hp none none v.ctxs hn hlead hc (fun j hj => nomatch hj) vm.cur rfl r
  have e : ctxState v v.ctxs = v := rfl
  rw [e] at this
  rw [L.bind_some this]
  rfl

/-! ## The links -/

theorem linkAll_other {ρ : Nat → Nat} {l : List Nat} {last : Option Nat} {cs : List (Option Ctx)} {n : Nat}
    (h : n ∉ l.map ρ) (hl : last ≠ some n) : (linkAll ρ last l cs)[n]? = cs[n]? := by
  induction l generalizing last cs with
  | nil => rfl
  | cons i l ih =>
    rw [List.map_cons, List.mem_cons] at h
    push_neg at h
    rw [linkAll, ih h.2 (by simpa using fun e => h.1 e.symm)]
    cases last with
    | none => rfl
    | some j => exact setParent_get (by rintro rfl; exact hl rfl)

/-- After linking every context of the chain has the parent it had. -/
theorem linkAll_get {vm : VM} {ρ : Nat → Nat} {l : List Nat} (hp : Path vm l) :
    ∀ (last : Option Nat) (cs : List (Option Ctx)), (l.map ρ).Nodup → (∀ j, last = some j → j ∉ l.map ρ) →
    ∀ (i : Nat), i ∈ l → ∀ (c d : Ctx), vm.ctxs[i]? = some (some c) → cs[ρ i]? = some (some d) → d.parent = none →
    (linkAll ρ last l cs)[ρ i]? = some (some { d with parent := c.parent.map ρ }) := by
  induction hp with
  | @root c h hpar ho =>
    intro last cs hn hl i hi c' d hc' hd hdp
    have e : i = 0 := by simpa using hi
    subst e
    rw [h] at hc'
    cases hc'
    rw [hpar]
    have : d = { d with parent := Option.map ρ none } := by cases d; simp at hdp; simp [hdp]
    rw [← this, linkAll, linkAll]
    cases last with
    | none => exact hd
    | some j =>
      exact (setParent_get (by rintro rfl; exact hl _ rfl (by simp))).trans hd
  | @next i j l c h hpar t ih =>
    intro last cs hn hl k hk c' d hc' hd hdp
    have hn' := hn
    rw [List.map_cons, List.nodup_cons] at hn
    have hother : ∀ n, n ∈ (i :: j :: l).map ρ → (linkOne last (ρ i) cs)[n]? = cs[n]? := by
      intro n hnm
      cases last with
      | none => rfl
      | some k =>
        refine setParent_get ?_
        rintro rfl
        exact hl n rfl hnm
    by_cases hki : k = i
    · subst hki
      rw [h] at hc'
      cases hc'
      rw [linkAll, linkAll, linkAll_other]
      · rw [hpar]
        refine setParent_self ?_
        rw [hother _ (by simp)]
        exact hd
      · exact fun hm => hn.1 (List.mem_cons_of_mem _ hm)
      · intro e
        have e' : ρ j = ρ k := by simpa using e
        exact hn.1 (by rw [← e']; simp)
    · have hk' : k ∈ j :: l := by
        rcases List.mem_cons.mp hk with rfl | hk
        · exact absurd rfl hki
        · exact hk
      rw [linkAll]
      refine ih (some (ρ i)) _ hn.2 (by rintro m ⟨⟩; exact hn.1) k hk' c' d hc' ?_ hdp
      rw [hother _ (List.mem_map_of_mem hk)]
      exact hd

end Nk.Save
