import Verif.Lemmas.SaveAgain
import Verif.Props.Save
/-!
# C81: a program can be moved from VM to VM as often as one likes
-/
namespace Nk.Props
open Nk.Save

variable (F : FloatOps)

/-- **C81**, one move: the loaded VM is what the saved one was, and it is again a VM that can be saved. -/
theorem C81_again {vm v : VM} (h : Saveable vm) (ht : Target vm v) (hreg : Registered vm v.extFuncs) (hv : Equipped v)
    {img : Bytes} {vm' : VM} (hs : save vm = .ok ((true, img), vm')) :
    ∃ v', load F img v = .ok ((some (), []), v') ∧ Restored F vm v v' ∧ Saveable v' := by
  obtain ⟨l, hp, hn, hm⟩ := Save.CoWF.path h.heap.co
  obtain ⟨r, hr, hrs, hrp, hro, hrun⟩ := ht.ctxs
  rw [save_run h hp hn] at hs
  cases hs
  have h2 := loadPost_run (r := r) h ht hr hrun hrp hp hn []
  rw [List.append_nil] at h2
  refine ⟨_, ?_, loaded_restored h ht hreg hr hrp hro hrun hp hn hm,
    loaded_saveable F h ht hreg hv hr hrp hro hrun hp hn hm⟩
  rw [load_eq]
  exact (L.bind_some (loadPre_run h ht hreg hr hrs _)).trans h2

/-- Where the restored VM can be loaded. -/
theorem next_target {vm v x w : VM} (h : Saveable vm) (R : Restored F vm v x) (ht : Target vm v) (hv : Equipped v)
    (hw : Target vm w) (hreg : Registered vm w.extFuncs) (hsub : SubsOf v w) : Target x w ∧ Registered x w.extFuncs := by
  refine ⟨⟨hw.errors, hw.handles, hw.ctxs, ?_, ?_, ?_, hw.natives, ?_⟩, ?_⟩
  · rw [R.rest.1, ht.limits]; exact hw.limits
  · rw [R.rest.2.1, ht.types]; exact hw.types
  · rw [R.rest.2.2.1, ht.coType]; exact hw.coType
  · rw [R.rest.2.2.2.1]; exact hsub
  · intro f' hf' g' hg'
    obtain ⟨i, hi⟩ := List.getElem?_of_mem hf'
    have hlt : i < vm.functions.length := by rw [← R.functions.1]; exact (List.getElem?_eq_some_iff.mp hi).1
    obtain ⟨f1, h1, hs⟩ := R.functions.2 i _ (List.getElem?_eq_getElem hlt)
    rw [hi] at h1
    cases h1
    have hlen := R.rest.2.2.2.2.2.2.1
    have hb := (List.getElem?_eq_some_iff.mp hg').1
    have hn := hv.natives
    by_cases he : vm.functions[i].extId = UINT_MAX
    · rw [hs.script he] at hb
      unfold UINT_MAX at *
      omega
    · have hx := (h.funcs.ext _ (List.getElem_mem hlt)).resolve_left he
      obtain ⟨g1, e1, n1⟩ := hs.native _ he (List.getElem?_eq_getElem hx)
      rw [hg'] at e1
      cases e1
      rw [n1]
      exact hreg _ (List.getElem_mem hlt) _ (List.getElem?_eq_getElem hx)

/-- **C81**: whatever the number of moves, all saves and loads succeed, and the last VM is what the first one was. -/
theorem C81_moves {vm : VM} (h : Saveable vm) {ws : List VM} {w : VM} (hp : Prepared vm (ws ++ [w])) :
    ∃ x, Moved F vm (ws ++ [w]) x ∧ Restored F vm w x ∧ Saveable x := by
  induction ws generalizing vm with
  | nil =>
    have hw : w ∈ [] ++ [w] := by simp
    obtain ⟨img, v', hs, -, -, -⟩ := C36_save_load_partial F h (hp.target w hw) (hp.natives w hw)
    obtain ⟨x, hl, R, S⟩ := C81_again F h (hp.target w hw) (hp.natives w hw) (hp.equipped w hw) hs
    exact ⟨x, .step hs hl (.done x), R, S⟩
  | cons v ws ih =>
    have hv : v ∈ v :: ws ++ [w] := by simp
    obtain ⟨img, v', hs, -, -, -⟩ := C36_save_load_partial F h (hp.target v hv) (hp.natives v hv)
    obtain ⟨x, hl, R, S⟩ := C81_again F h (hp.target v hv) (hp.natives v hv) (hp.equipped v hv) hs
    have hx : Prepared x (ws ++ [w]) := by
      have key : ∀ u ∈ ws ++ [w], Target x u ∧ Registered x u.extFuncs := fun u hu =>
        next_target F h R (hp.target v hv) (hp.equipped v hv) (hp.target u (by simp_all)) (hp.natives u (by simp_all))
          (hp.subs v hv u (by simp_all))
      exact ⟨fun u hu => (key u hu).1, fun u hu => (key u hu).2, fun u hu => hp.equipped u (by simp_all),
        fun a ha b hb => hp.subs a (by simp_all) b (by simp_all)⟩
    obtain ⟨y, hm, R2, S2⟩ := ih S hx
    exact ⟨y, .step hs hl hm, R.trans R2 h S (R.rest.2.2.1.trans (hp.target v hv).coType), S2⟩

/-- Moving has one result. -/
theorem C81_one_result {vm x y : VM} {ws : List VM} (hx : Moved F vm ws x) (hy : Moved F vm ws y) : x = y := by
  induction hx with
  | done => cases hy; rfl
  | step hs hl _ ih =>
    cases hy with
    | step hs' hl' hm =>
      rw [hs] at hs'
      cases hs'
      rw [hl] at hl'
      cases hl'
      exact ih hm

/-! ## A concrete case: a program with a coroutine, natives and an object is moved three times -/

/-- The VM in the middle has its native functions in another order. -/
def svSwap : VM := { svNew with extFuncs := svNew.extFuncs.reverse }

theorem sv_prepared : Prepared sv ([svNew, svSwap] ++ [svNew]) := by
  have hno : ∀ v : VM, v.subsystems = svNew.subsystems → v.subsystems.flatten = [] := by
    intro v e
    rw [e]
    decide +kernel
  have htn : Target sv svSwap :=
    ⟨rfl, rfl, sv_target.ctxs, rfl, rfl, rfl, by decide, sv_target.subs⟩
  have hrn : Registered sv svSwap.extFuncs := by
    intro f hf g hg
    obtain ⟨g', h1, h2⟩ := sv_registered f hf g hg
    exact ⟨g', List.mem_reverse.mpr h1, h2⟩
  have he1 : Equipped svNew := ⟨by decide, by decide +kernel, by decide +kernel, by decide +kernel, by decide +kernel⟩
  have he2 : Equipped svSwap := ⟨by decide, by decide +kernel, by decide +kernel, by decide +kernel, by decide +kernel⟩
  have all : ∀ {P : VM → Prop}, P svNew → P svSwap → ∀ u ∈ [svNew, svSwap] ++ [svNew], P u := by
    intro P h1 h2 u hu
    simp only [List.cons_append, List.nil_append, List.mem_cons, List.not_mem_nil, or_false] at hu
    rcases hu with rfl | rfl | rfl
    · exact h1
    · exact h2
    · exact h1
  refine ⟨all sv_target htn, all sv_registered hrn, all he1 he2, ?_⟩
  have none : ∀ a ∈ [svNew, svSwap] ++ [svNew], a.subsystems.flatten = [] := all (hno _ rfl) (hno _ rfl)
  intro a ha b _ s hs
  rw [none a ha] at hs
  cases hs

example : ∃ x, Moved Sample.F sv ([svNew, svSwap] ++ [svNew]) x ∧ Restored Sample.F sv svNew x ∧ Saveable x :=
  C81_moves Sample.F sv_saveable sv_prepared

/-- After two moves `print` is the native function with the number it has there. -/
example : (save sv).test (fun r => (load Sample.F r.1.2 svNew).test (fun q => (save q.2).test (fun r2 => r2.1.1 = true ∧
    (load Sample.F r2.1.2 svSwap).test (fun q2 => q2.1 = (some (), []) ∧ q2.2.functions[1]?.map (·.extId) = some 0 ∧
      (lookupField Sample.F 1 (.int 3) q2.2).test (fun x => x.1 = some (.str 1)))))) = true := by decide +kernel

/-- The images are not the same bytes each time: loading turns round the order of fields with the same hash bucket.  This is
why the claim is about what is restored and not about the image. -/
example : (save { sv with objects := { sv.objects with slots := sv.objects.slots.set 1 (some { svObj with
      buckets := (List.replicate 16 []).set 3 [(.int 3, .str 1), (.int 19, .int 7)] }) } }).test (fun r =>
    (load Sample.F r.1.2 svNew).test (fun q => q.1 = (some (), []) ∧
      q.2.objects.slots[1]?.join.map (fun o => o.buckets[3]?) = some (some [(.int 19, .int 7), (.int 3, .str 1)]))) = true := by
  decide +kernel

end Nk.Props
