import Verif.Spec.Literal
import Verif.Lemmas.Life
import Verif.Lemmas.ApiPres
/-!
# String literals stay
-/
namespace Nk

/-- The string table is in order and has the literals of `a`. -/
structure Lit (a vm : VM) : Prop where
  wf : vm.strings.WF
  keeps : KeepsLiterals a vm

theorem Lit.refl {a : VM} (h : a.strings.WF) : Lit a a := ⟨h, fun _ _ h => h⟩

theorem Lit.step {a vm vm' : VM} (h : Lit a vm) (s : StrStep vm.strings vm'.strings) : Lit a vm' := by
  obtain ⟨s1, s2⟩ := s h.wf
  refine ⟨s1, fun id t hl => ?_⟩
  obtain ⟨e, h1, h2, h3⟩ := h.keeps id t hl
  obtain ⟨e', g1, g2, g3⟩ := s2 id e h1 h3
  exact ⟨e', g1, g2.trans h2, g3⟩

theorem Lit.of {a vm vm' : VM} (h : Lit a vm) (s : vm'.strings = vm.strings) : Lit a vm' := h.step (by rw [s]; exact .refl _)

theorem lit_frame (a : VM) : CoFrame (Lit a) where
  err := fun _ _ h => h.of rfl
  str := fun _ _ _ s h => h.step s
  obj := fun _ _ h => h.of rfl
  newo := fun _ _ _ h => h.of rfl
  ctx := fun _ _ _ _ _ _ _ h => h.of rfl
  stat := fun _ _ h => h.of rfl
  finish := fun _ _ _ _ h => h.of rfl
  popc := fun _ _ _ _ _ h => h.of rfl
  pushc := fun _ _ _ _ _ _ h => h.of rfl
  start := fun _ _ _ _ h => h.of rfl
  newc := fun _ _ _ _ h => h.of rfl
  free := fun _ _ h => h.of rfl
  pass := fun _ _ h => h.of rfl
  log := fun _ _ h => h.of rfl

theorem lit_reg (a : VM) : RegFrame (Lit a) where
  err := fun _ _ h => h.of rfl
  types := fun _ _ h => h.of rfl
  natives := fun _ _ h => h.of rfl
  fn := fun _ _ _ _ h => h.of rfl

theorem lit_host {H : Host} (hH : HostLiterals H) (a : VM) (cb : Nat) (args : List Value) : Pres (Lit a) (H.call cb args) :=
  ⟨fun vm r vm' h e => by
    obtain ⟨h1, h2⟩ := hH cb args vm r vm' e h.wf
    exact ⟨h1, fun id t hl => h2 id t (h.keeps id t hl)⟩⟩

namespace Cc

theorem lit_keepString (a : VM) (i : Nat) : Pres (Lit a) (keepString i) := ⟨fun vm r vm' h e => by
  unfold keepString at e
  rw [Table.get_eq h.wf] at e
  cases hx : vm.strings.entry i with
  | none => rw [hx] at e; cases e; exact h
  | some x =>
    rw [hx] at e
    dsimp only at e
    obtain ⟨w1, w2, w3⟩ := Table.write_live h.wf hx { x with dontGC := true }
    rw [w1] at e
    cases e
    refine h.step fun _ => ⟨w2, fun id y hy hd => ?_⟩
    show ∃ e', Table.entry { vm.strings with slots := _ } id = some e' ∧ _
    rw [w3]
    by_cases hid : id = i
    · subst hid
      rw [hx] at hy
      cases hy
      exact ⟨_, if_pos rfl, rfl, rfl⟩
    · exact ⟨y, by rw [if_neg hid]; exact hy, rfl, hd⟩⟩

theorem lit_grow (a : VM) : CKeep (fun s => Lit a s.vm) growInstrs := ⟨fun s x s' h e => by
  unfold growInstrs at e
  rw [CM.cget_bind] at e
  dsimp only at e
  obtain ⟨m, s1, g1, e⟩ := CM.bind_inv e
  have h1 : Lit a s1.vm := by
    split at g1
    · obtain ⟨_, s2, g2, g3⟩ := CM.bind_inv g1
      cases g2; cases g3
      exact h.of rfl
    · cases g1; exact h
  split at e
  · cases e
  · split at e
    · cases e
    · cases e
      exact h1.of rfl⟩

theorem lit_alloc (a : VM) : CKeep (fun s => Lit a s.vm) allocStatic := by
  have hm : ∀ g : CS → CS, (∀ s, (g s).vm.strings = s.vm.strings) → CKeep (fun s => Lit a s.vm) (cmod g) := fun g hg => CKeep.cmod' fun s h => h.of (hg s)
  have he : ∀ e, CKeep (fun s => Lit a s.vm) (err e) := fun e => ⟨fun s x s' h r => by cases r; exact h.of rfl⟩
  unfold allocStatic
  repeat' first | exact CKeep.pure | exact CKeep.cget | exact CKeep.cub | exact he _ | exact hm _ (fun _ => rfl) | (intro _) | (refine CKeep.bind ?_ ?_) | split

instance (a : VM) : VFrame (Lit a) where
  err _ _ h := h.of rfl
  mark _ _ h := h.of rfl
  code _ _ _ h := h.of rfl
  grow := lit_grow a
  alloc := lit_alloc a
  intern t := findOrAddString_pres (lit_frame a).toFrame
  keep := lit_keepString a
  fns _ _ h := h.of rfl
  files _ _ _ _ h := h.of rfl
  names _ _ h := h.of rfl
  put _ _ _ h := h.of rfl
  native n cb := (lit_reg a).native
  inner i := (lit_reg a).value

end Cc
end Nk
