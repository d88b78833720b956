import Verif.Lemmas.SaveSink
import Verif.Props.SaveHost
/-!
# C80: saving with a writer that may refuse data

`saveTo K s vm` is saving the VM with the writer `K`, whose state is `s`; `save vm` is saving with a writer that takes
everything, and yields the image.
-/
namespace Nk.Props
open Nk.Save
variable {σ : Type} {K : Sink σ}

/-- **C80**: whatever the writer does, saving ends without undefined behaviour, and the VM is as before, except that the
collection interval may be capped, as in every save, and errors may be added. -/
theorem C80_harmless {vm : VM} (h : Saveable vm) (K : Sink σ) (s : σ) :
    ∃ r s' n g, saveTo K s vm = .ok ((r, s'),
        { vm with gc := g, errors := vm.errors ++ List.replicate n "Coroutine serialization failed." }) ∧
      (g = vm.gc ∨ g = { vm.gc with interval := min vm.gc.interval 65536 }) := by
  obtain ⟨l, hp, hn, -⟩ := Save.CoWF.path h.heap.co
  rw [saveTo_run h hp hn]
  unfold go
  dsimp only
  split
  · split
    · exact ⟨_, _, _, _, rfl, .inr rfl⟩
    · refine ⟨(K.putAll (K.putAll s (partsA vm)).2 (partsB vm)).1, (K.putAll (K.putAll s (partsA vm)).2 (partsB vm)).2, 0,
        capGc vm.gc, ?_, .inr rfl⟩
      simp only [List.replicate_zero, List.append_nil]
  · refine ⟨(K.putAll s (partsA vm)).1, (K.putAll s (partsA vm)).2, 0, vm.gc, ?_, .inl rfl⟩
    simp only [List.replicate_zero, List.append_nil]

/-- What a save that returns true did. -/
theorem saveTo_true {vm vm' : VM} (h : Saveable vm) {s s' : σ} (e : saveTo K s vm = .ok ((true, s'), vm')) :
    ∃ l, Path vm (vm.cur :: l) ∧ (vm.cur :: l).Nodup ∧ (K.putAll s (partsA vm)).1 = true ∧
      (K.putAll (K.putAll s (partsA vm)).2 (partsB vm)).1 = true ∧
      ∃ q, q = K.groups (K.putAll (K.putAll s (partsA vm)).2 (partsB vm)).2 (extGroups vm) ∧
        K.putAll q.2 (partsC vm (vm.cur :: l)) = (true, s') ∧
        vm' = { vm with gc := capGc vm.gc, errors := vm.errors ++ List.replicate q.1 coMsg } := by
  obtain ⟨l, hp, hn, -⟩ := Save.CoWF.path h.heap.co
  rw [saveTo_run h hp hn] at e
  unfold go at e
  dsimp only at e
  by_cases hA : (K.putAll s (partsA vm)).1 = true
  · rw [if_pos hA] at e
    by_cases hB : (K.putAll (K.putAll s (partsA vm)).2 (partsB vm)).1 = true
    · rw [if_pos hB] at e
      unfold saveEnd at e
      injection e with e
      injection e with e1 e2
      exact ⟨l, hp, hn, hA, hB, _, rfl, e1, e2.symm⟩
    · rw [if_neg hB] at e
      injection e with e
      injection e with e1 e2
      rw [e1] at hB; exact (hB rfl).elim
  · rw [if_neg hA] at e
    injection e with e
    injection e with e1 e2
    rw [e1] at hA; exact (hA rfl).elim

/-- **C80**: if saving returns true and has added no error, then the writer took the image, whole and in order. -/
theorem C80_complete {vm vm' : VM} (h : Saveable vm) {log : σ → Bytes} (hl : Logs K log) {s s' : σ}
    (e : saveTo K s vm = .ok ((true, s'), vm')) (he : vm'.errors = vm.errors) :
    ∃ img, save vm = .ok ((true, img), vm') ∧ log s' = log s ++ img := by
  obtain ⟨l, hp, hn, hA, hB, q, hq, hC, hv⟩ := saveTo_true h e
  have hq0 : q.1 = 0 := by
    rw [hv] at he
    have := congrArg List.length he
    simpa using this
  have hC1 : (K.putAll q.2 (partsC vm (vm.cur :: l))).1 = true := by rw [hC]
  have h3 := putAll_log hl hC1
  rw [hC] at h3
  dsimp only at h3
  refine ⟨imageA vm ++ imageC vm (vm.cur :: l), ?_, ?_⟩
  rotate_left
  · rw [h3, hq, groups_log hl (by rw [← hq]; exact hq0), putAll_log hl hB, putAll_log hl hA, ← parts_eq]
    simp only [List.append_assoc]
  · rw [save_run h hp hn, hv, hq0]
    simp

/-- **C80**, for writers that refuse everything once they have refused something (a full disk, a closed connection): if
saving returns true, then the writer took the image, whole and in order.  What is missing: writers that refuse something and
then go on, see `C80_violated`. -/
theorem C80_sticky_partial {vm vm' : VM} (h : Saveable vm) {log : σ → Bytes} (hl : Logs K log) (hs : Sticky K) {s s' : σ}
    (e : saveTo K s vm = .ok ((true, s'), vm')) :
    ∃ img, save vm = .ok ((true, img), vm') ∧ log s' = log s ++ img := by
  obtain ⟨l, hp, hn, hA, hB, q, hq, hC, hv⟩ := saveTo_true h e
  obtain ⟨dead, h1, h2⟩ := hs
  refine C80_complete h hl e ?_
  by_cases hq0 : q.1 = 0
  · rw [hv, hq0]; simp
  · have hd : dead q.2 := by rw [hq] at hq0 ⊢; exact groups_dead h1 (fun s b hs => (h2 s b hs).1) hq0
    exfalso
    have : (K.putAll q.2 (partsC vm (vm.cur :: l))).1 = false := by
      unfold partsC fileParts
      rw [List.cons_append]
      unfold Sink.putAll
      rw [if_neg (by rw [(h2 _ (le32 vm.sourceFiles.length) hd).2 (List.cons_ne_nil _ _)]; simp)]
    rw [hC] at this
    cases this

/-- **C80**: a writer that takes everything gets the image, and saving returns true. -/
theorem C80_accepts {vm : VM} (h : Saveable vm) {log : σ → Bytes} (hl : Logs K log) (ha : ∀ s b, (K.put s b).1 = true)
    (s : σ) : ∃ img s' vm', save vm = .ok ((true, img), vm') ∧ saveTo K s vm = .ok ((true, s'), vm') ∧
      log s' = log s ++ img := by
  obtain ⟨l, hp, hn, -⟩ := Save.CoWF.path h.heap.co
  have hrun := saveTo_run (K := K) h hp hn s
  unfold go at hrun
  dsimp only at hrun
  rw [if_pos (putAll_accepts ha _ _), if_pos (putAll_accepts ha _ _)] at hrun
  unfold saveEnd at hrun
  generalize hr : K.putAll (K.groups (K.putAll (K.putAll s (partsA vm)).2 (partsB vm)).2 (extGroups vm)).2
    (partsC vm (vm.cur :: l)) = r at hrun
  obtain ⟨b, s'⟩ := r
  have hb : b = true := by
    have := putAll_accepts ha (K.groups (K.putAll (K.putAll s (partsA vm)).2 (partsB vm)).2 (extGroups vm)).2
      (partsC vm (vm.cur :: l))
    rw [hr] at this
    exact this
  subst hb
  obtain ⟨img, h1, h2⟩ := C80_complete h hl hrun (by rw [groups_accepts ha]; simp)
  exact ⟨img, s', _, h1, hrun, h2⟩

/-! ## Room for so many bytes -/

theorem disk_logs : Logs disk Prod.snd := by
  intro s b h
  unfold disk at h ⊢
  dsimp only at h ⊢
  split at h
  · rename_i hb; rw [if_pos hb]
  · cases h

/-- Pieces that fit are taken. -/
theorem disk_fits {bs : List Bytes} {n : Nat} {d : Bytes} (h : bs.flatten.length ≤ n) :
    disk.putAll (n, d) bs = (true, n - bs.flatten.length, d ++ bs.flatten) := by
  induction bs generalizing n d with
  | nil => simp [Sink.putAll]
  | cons b bs ih =>
    rw [List.flatten_cons, List.length_append] at h
    have hp : disk.put (n, d) b = (true, n - b.length, d ++ b) := by
      unfold disk; dsimp only; rw [if_pos (by omega)]
    unfold Sink.putAll
    rw [hp, if_pos rfl]
    dsimp only
    rw [ih (by omega), List.flatten_cons, List.length_append, Nat.sub_sub, List.append_assoc]

theorem disk_groups {gs : List (List Bytes)} {n : Nat} {d : Bytes} (h : gs.flatten.flatten.length ≤ n) :
    disk.groups (n, d) gs = (0, n - gs.flatten.flatten.length, d ++ gs.flatten.flatten) := by
  induction gs generalizing n d with
  | nil => simp [Sink.groups]
  | cons g gs ih =>
    rw [List.flatten_cons, List.flatten_append, List.length_append] at h
    unfold Sink.groups
    rw [disk_fits (by omega)]
    dsimp only
    rw [ih (by omega), List.flatten_cons, List.flatten_append, List.length_append, Nat.sub_sub, List.append_assoc, if_pos rfl,
      Nat.zero_add]

theorem disk_sticky : Sticky disk := by
  refine ⟨fun s => s.1 = 0, ?_, ?_⟩
  · intro s b h
    unfold disk at h ⊢
    dsimp only at h ⊢
    split at h
    · cases h
    · rename_i hb; rw [if_neg hb]
  · intro s b h
    unfold disk
    dsimp only
    cases b with
    | nil => simp [h]
    | cons x b => rw [if_neg (by rw [h]; simp)]; exact ⟨rfl, fun _ => rfl⟩

/-- A disk does not get larger. -/
theorem disk_put_le (s : Nat × Bytes) (b : Bytes) :
    (disk.put s b).2.1 + (disk.put s b).2.2.length ≤ s.1 + s.2.length := by
  unfold disk
  dsimp only
  split
  · simp only [List.length_append]; omega
  · dsimp only; omega

theorem disk_putAll_le (bs : List Bytes) (s : Nat × Bytes) :
    (disk.putAll s bs).2.1 + (disk.putAll s bs).2.2.length ≤ s.1 + s.2.length := by
  induction bs generalizing s with
  | nil => exact Nat.le_refl _
  | cons b bs ih =>
    have := disk_put_le s b
    have := ih (disk.put s b).2
    unfold Sink.putAll
    split
    · omega
    · dsimp only; omega

theorem disk_groups_le (gs : List (List Bytes)) (s : Nat × Bytes) :
    (disk.groups s gs).2.1 + (disk.groups s gs).2.2.length ≤ s.1 + s.2.length := by
  induction gs generalizing s with
  | nil => exact Nat.le_refl _
  | cons g gs ih =>
    have h1 := disk_putAll_le g s
    have h2 := ih (disk.putAll s g).2
    unfold Sink.groups
    dsimp only
    omega

/-- **C80** for a file with room for `n` bytes, for every `n`: saving returns true if and only if the image has at most that
many bytes, and then the file has the image. -/
theorem C80_room {vm : VM} (h : Saveable vm) {img : Bytes} {vm1 : VM} (hi : save vm = .ok ((true, img), vm1)) (n : Nat) :
    ∃ r s' vm', saveTo disk (n, []) vm = .ok ((r, s'), vm') ∧ (r = true ↔ img.length ≤ n) ∧ (r = true → s'.2 = img) := by
  obtain ⟨r, s', k, g, e, -⟩ := C80_harmless h disk (n, [])
  have hlog : r = true → s'.2 = img := by
    rintro rfl
    obtain ⟨img', h1, h2⟩ := C80_sticky_partial h disk_logs disk_sticky e
    rw [hi] at h1
    injection h1 with h1
    injection h1 with h1 _
    injection h1 with _ h1
    rw [h2, h1]
    rfl
  refine ⟨r, s', _, e, ⟨?_, ?_⟩, hlog⟩
  · intro hr
    have hl := hlog hr
    subst hr
    obtain ⟨l, -, -, -, -, q, hq, hC, -⟩ := saveTo_true h e
    have h1 := disk_putAll_le (partsA vm) (n, [])
    have h2 := disk_putAll_le (partsB vm) (disk.putAll (n, []) (partsA vm)).2
    have h3 := disk_groups_le (extGroups vm) (disk.putAll (disk.putAll (n, []) (partsA vm)).2 (partsB vm)).2
    have h4 := disk_putAll_le (partsC vm (vm.cur :: l)) q.2
    rw [hC] at h4
    rw [← hq] at h3
    rw [← hl]
    simp only [List.length_nil] at h1 h4
    omega
  · intro hle
    obtain ⟨l, hp, hn, -⟩ := Save.CoWF.path h.heap.co
    rw [save_run h hp hn] at hi
    injection hi with hi
    injection hi with hi _
    injection hi with _ hi
    rw [← hi, ← parts_eq] at hle
    simp only [List.length_append] at hle
    rw [saveTo_run h hp hn] at e
    unfold go at e
    dsimp only at e
    rw [disk_fits (by omega)] at e
    dsimp only at e
    rw [if_pos rfl, disk_fits (by omega)] at e
    dsimp only at e
    rw [if_pos rfl] at e
    unfold saveEnd at e
    rw [disk_groups (by omega)] at e
    dsimp only at e
    rw [disk_fits (by omega)] at e
    injection e with e
    injection e with e _
    injection e with e _
    exact e.symm

/-! ## A writer that refuses one piece -/

/-- **C80 is violated** when the writer refuses a piece of a coroutine and goes on: for `sv`, which has a coroutine, saving
returns true although the writer refused something and the data it took is not the image; the only trace is an error in the VM
that was saved.  What the writer took cannot be loaded. -/
theorem C80_violated : (saveTo (flaky 80) (0, []) sv).test (fun r => r.1.1 = true ∧ r.2.errors ≠ sv.errors ∧
    (save sv).test (fun q => q.1.1 = true ∧ q.1.2 ≠ r.1.2.2) ∧
    (load Sample.F r.1.2.2 svNew).test (fun q => q.1.1 = none)) = true := by decide +kernel

/-- The hypotheses of the theorems hold for it: into a file with room for its image of 436 bytes it is saved, with one byte less
saving fails. -/
example : Saveable sv ∧ (save sv).test (fun q => q.1.2.length = 436) ∧
    (saveTo disk (436, []) sv).test (fun r => r.1.1 = true) ∧ (saveTo disk (435, []) sv).test (fun r => r.1.1 = false) :=
  ⟨sv_saveable, by decide +kernel, by decide +kernel, by decide +kernel⟩

end Nk.Props
