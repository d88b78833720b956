import Verif.Spec.Repl
import Verif.Lemmas.SaveChain
/-!
# Clearing the errors of an interactive session
-/
namespace Nk
open Save

theorem Save.Path.of_eq {vm vm' : VM} {l : List Nat} (h : Path vm l) (e : ∀ i ∈ l, vm'.ctxs[i]? = vm.ctxs[i]?) : Path vm' l := by
  induction h with
  | root h hp ho => exact .root ((e 0 (by simp)).trans h) hp ho
  | next h hp _ ih => exact .next ((e _ (by simp)).trans h) hp (ih fun i hi => e i (List.mem_cons_of_mem _ hi))

theorem Save.Path.next_mem {vm : VM} {l : List Nat} (h : Path vm l) {i p : Nat} {c : Ctx} (hi : i ∈ l) (hc : vm.ctxs[i]? = some (some c))
    (hp : c.parent = some p) : p ∈ l := by
  induction h with
  | root h hq ho =>
    rw [List.mem_singleton] at hi
    subst hi
    rw [h] at hc
    cases hc
    rw [hq] at hp; cases hp
  | next h hq t ih =>
    rcases List.mem_cons.1 hi with rfl | hi
    · rw [h] at hc
      cases hc
      rw [hq] at hp; cases hp
      exact List.mem_cons_of_mem _ (List.mem_cons_self ..)
    · exact List.mem_cons_of_mem _ (ih hi)

theorem Save.Path.active {vm : VM} {l : List Nat} (h : Path vm l) : ∀ {i}, l.head? = some i → Active vm i → ∀ j ∈ l, Active vm j := by
  induction h with
  | root h hq ho => intro i hi ha j hj; cases hi; rw [List.mem_singleton] at hj; exact hj ▸ ha
  | next h hq t ih =>
    intro i hi ha j hj
    cases hi
    rcases List.mem_cons.1 hj with rfl | hj
    · exact ha
    · exact ih rfl (.resumer ha h hq) j hj

theorem active_iff {vm : VM} {l : List Nat} (h : Path vm (vm.cur :: l)) (i : Nat) : Active vm i ↔ i ∈ vm.cur :: l := by
  refine ⟨fun ha => ?_, fun hi => h.active rfl .cur i hi⟩
  induction ha with
  | cur => exact List.mem_cons_self ..
  | resumer _ hc hp ih => exact h.next_mem ih hc hp

theorem clearChain_run (l : List Nat) : ∀ {vm : VM} {n : Nat}, Path vm (vm.cur :: l) → (vm.cur :: l).Nodup → l.length < n →
    ∃ cs, clearChain n vm = .ok ((), { vm with ctxs := cs, cur := 0 }) ∧
      (∀ i ∈ vm.cur :: l, cs[i]? = some (some Ctx.init)) ∧ ∀ i, i ∉ vm.cur :: l → cs[i]? = vm.ctxs[i]? := by
  induction l with
  | nil =>
    intro vm n h hn hl
    obtain ⟨n, rfl⟩ : ∃ m, n = m + 1 := ⟨n - 1, by omega⟩
    generalize hx : vm.cur = x at h
    cases h with
    | @root c h hp ho =>
      have hat : ctxAt vm vm.cur = .ok c := by rw [hx]; simp [ctxAt, h]
      refine ⟨vm.ctxs.set 0 (some Ctx.init), ?_, ?_, ?_⟩
      · unfold clearChain
        rw [M.bind_ok (get_run _), M.bind_ok (curCtx_at (by unfold VM.At; rw [hx]; exact h))]
        dsimp only
        rw [hp]
        dsimp only
        unfold setCtx
        rw [hat, hx]
      · intro i hi
        rw [List.mem_singleton] at hi
        subst hi
        have : 0 < vm.ctxs.length := (List.getElem?_eq_some_iff.1 h).1
        simp [this]
      · intro i hi
        simp only [List.mem_singleton] at hi
        rw [List.getElem?_set_ne (by omega)]
  | cons j l ih =>
    intro vm n h hn hl
    obtain ⟨n, rfl⟩ : ∃ m, n = m + 1 := ⟨n - 1, by omega⟩
    simp only [List.length_cons] at hl
    generalize hx : vm.cur = x at h hn
    cases h with
    | @next _ _ _ c h hp t =>
      have hat : ctxAt vm x = .ok c := by simp [ctxAt, h]
      have hn' := List.nodup_cons.1 hn
      have e : ∀ i ∈ j :: l, (vm.ctxs.set x (some Ctx.init))[i]? = vm.ctxs[i]? := fun i hi =>
        List.getElem?_set_ne fun he => hn'.1 (by rw [he]; exact hi)
      obtain ⟨cs, h1, h2, h3⟩ := ih (vm := { vm with ctxs := vm.ctxs.set x (some Ctx.init), cur := j }) (n := n) (t.of_eq e) hn'.2 (by omega)
      refine ⟨cs, ?_, ?_, ?_⟩
      · unfold clearChain
        rw [M.bind_ok (get_run _), M.bind_ok (curCtx_at (by unfold VM.At; rw [hx]; exact h))]
        dsimp only
        rw [hp]
        dsimp only
        rw [M.bind_ok (show setCtx vm.cur { Ctx.init with state := .invalid } vm = .ok ((), { vm with ctxs := vm.ctxs.set x (some Ctx.init) }) by
          unfold setCtx; rw [hx, hat]; rfl), M.bind_ok (modify_run _ _)]
        exact h1
      · intro i hi
        rcases List.mem_cons.1 hi with rfl | hi
        · rw [h3 _ hn'.1]
          have : i < vm.ctxs.length := (List.getElem?_eq_some_iff.1 h).1
          simp [this]
        · exact h2 i hi
      · intro i hi
        rw [List.mem_cons, not_or] at hi
        rw [h3 i hi.2]
        exact List.getElem?_set_ne fun he => hi.1 he.symm

theorem init_stack : Ctx.init.stack.used = [] ∧ Ctx.init.stack.WF := ⟨rfl, Stack.init_wf⟩

theorem clearReplErrors_run {vm : VM} (h : CoWF vm) {ip : Nat} (hip : ip < vm.instrs.length) :
    ∃ vm', clearReplErrors ip vm = .ok ((), vm') ∧ Cleared ip vm vm' := by
  obtain ⟨l, hp, hn, hm⟩ := Save.CoWF.path h
  have hr : 0 ∈ vm.cur :: l := by
    have : ∀ {l}, Path vm l → 0 ∈ l := fun {l} h => by
      induction h with
      | root _ _ _ => simp
      | next _ _ _ ih => exact List.mem_cons_of_mem _ ih
    exact this hp
  have hl := hp.length_le hn
  obtain ⟨cs, h1, h2, h3⟩ := clearChain_run l (vm := { vm with instrs := vm.instrs.set ip 20#32, errors := [] }) (n := vm.ctxs.length + 1)
    (hp.of_eq fun _ _ => rfl) hn (by simp only [List.length_cons] at hl; omega)
  have h0 := h2 0 hr
  have hlen : 0 < cs.length := (List.getElem?_eq_some_iff.1 h0).1
  refine ⟨{ vm with instrs := vm.instrs.set ip 20#32, errors := [], cur := 0, ctxs := cs.set 0 (some { Ctx.init with ip := ip }) }, ?_, ?_⟩
  · unfold clearReplErrors
    refine (M.bind_ok (a := ()) (if_pos hip)).trans ?_
    rw [M.bind_ok (modify_run _ _), M.bind_ok (get_run _)]
    dsimp only
    refine (M.bind_ok h1).trans ?_
    unfold modCur ctxAt
    dsimp only
    rw [h0]
  · refine ⟨rfl, rfl, ⟨_, by simp [hlen]; rfl, rfl, rfl, Stack.init_wf, rfl, rfl⟩, fun i hi ha => ?_, fun i ha => ?_, rfl, rfl⟩
    · refine ⟨_, (List.getElem?_set_ne (Ne.symm hi)).trans (h2 i ((active_iff hp i).1 ha)), rfl, rfl, Stack.init_wf, rfl⟩
    · have hi : i ∉ vm.cur :: l := fun hh => ha ((active_iff hp i).2 hh)
      exact (List.getElem?_set_ne fun he => hi (by rw [← he]; exact hr)).trans (h3 i hi)

/-! ## Whenever it returns -/

theorem M.bind_back {α β : Type} {x : M α} {f : α → M β} {vm v : VM} {b : β} (h : (x >>= f) vm = .ok (b, v)) :
    ∃ a vm', x vm = .ok (a, vm') ∧ f a vm' = .ok (b, v) := by
  rw [M.bind_eq] at h
  cases hx : x vm with
  | ok q => obtain ⟨a, vm'⟩ := q; rw [hx] at h; exact ⟨a, vm', rfl, h⟩
  | ub k => rw [hx] at h; cases h

theorem clearChain_frame (n : Nat) : ∀ {vm vm' : VM}, clearChain n vm = .ok ((), vm') → vm' = { vm with ctxs := vm'.ctxs, cur := vm'.cur } := by
  induction n with
  | zero => intro vm vm' e; cases e
  | succ n ih =>
    intro vm vm' e
    have hset : ∀ {i : Nat} {c : Ctx} {v v' : VM}, setCtx i c v = .ok ((), v') → v' = { v with ctxs := v'.ctxs } := fun {i c v v'} e => by
      unfold setCtx at e
      cases hx : ctxAt v i with
      | ok d => rw [hx] at e; cases e; rfl
      | ub k => rw [hx] at e; cases e
    unfold clearChain at e
    rw [M.bind_ok (get_run _)] at e
    obtain ⟨c, v1, e1, e⟩ := M.bind_back e
    have hv : v1 = vm := by
      unfold curCtx at e1
      cases hx : ctxAt vm vm.cur with
      | ok d => rw [hx] at e1; cases e1; rfl
      | ub k => rw [hx] at e1; cases e1
    subst hv
    cases hp : c.parent with
    | none => rw [hp] at e; dsimp only at e; rw [hset e]
    | some p =>
      rw [hp] at e
      dsimp only at e
      obtain ⟨_, v2, e2, e⟩ := M.bind_back e
      rw [M.bind_ok (modify_run _ _)] at e
      rw [ih e, hset e2]

theorem clearReplErrors_frame {ip : Nat} {vm vm' : VM} (e : clearReplErrors ip vm = .ok ((), vm')) :
    ip < vm.instrs.length ∧ vm' = { vm with errors := [], ctxs := vm'.ctxs, cur := vm'.cur, instrs := vm.instrs.set ip 20#32 } := by
  unfold clearReplErrors at e
  by_cases hip : ip < vm.instrs.length
  · replace e := (M.bind_ok (a := ()) (x := fun vm => if ip < vm.instrs.length then Res.ok ((), { vm with instrs := vm.instrs.set ip 20 }) else .ub .oob) (if_pos hip)).symm.trans e
    rw [M.bind_ok (modify_run _ _), M.bind_ok (get_run _)] at e
    obtain ⟨_, v, e1, e⟩ := M.bind_back e
    have h1 := clearChain_frame _ e1
    refine ⟨hip, ?_⟩
    unfold modCur at e
    cases hx : ctxAt v v.cur with
    | ok d => rw [hx] at e; cases e; rw [h1]; rfl
    | ub k => rw [hx] at e; cases e
  · exact absurd ((M.bind_ub (if_neg hip)).symm.trans e) (by simp)

namespace Cc

theorem clearRepl_frame {ip : Nat} {s t : CS} (e : clearRepl ip s = .ok ((), t)) :
    clearReplErrors ip s.vm = .ok ((), t.vm) ∧ t = { s with write := ip, vm := t.vm } := by
  unfold clearRepl at e
  replace e : onVM (clearReplErrors ip) { s with write := ip } = .ok ((), t) := e
  unfold onVM at e
  dsimp only at e
  cases hx : clearReplErrors ip s.vm with
  | ok q => obtain ⟨_, v⟩ := q; rw [hx] at e; cases e; exact ⟨rfl, rfl⟩
  | ub k => rw [hx] at e; cases e

end Cc
end Nk
