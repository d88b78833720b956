import Verif.Model.Token
/-!
# What the tokenizer leaves: the kinds of its tokens, and errors for its failures
-/
namespace Nk.Tok

/-- Only errors and source files are added. -/
def Ext (vm vm' : VM) : Prop := ∃ es fs, vm' = { vm with errors := es, sourceFiles := fs } ∧ vm.errors <+: es

theorem Ext.refl (vm : VM) : Ext vm vm := ⟨vm.errors, vm.sourceFiles, rfl, List.prefix_rfl⟩
theorem Ext.trans {a b c : VM} (h : Ext a b) (g : Ext b c) : Ext a c := by
  obtain ⟨e, f, rfl, h1⟩ := h
  obtain ⟨e', f', rfl, h2⟩ := g
  exact ⟨e', f', rfl, h1.trans h2⟩

/-- If the call returns, it has only added errors and source files, and `Q` holds. -/
def Ret (m : M α) (Q : α → VM → Prop) : Prop := ∀ vm a vm', m vm = .ok (a, vm') → Ext vm vm' ∧ Q a vm'

theorem Ret.pure {a : α} {Q : α → VM → Prop} (h : ∀ vm, Q a vm) : Ret (Pure.pure a : M α) Q := by
  rintro vm _ _ ⟨⟩; exact ⟨Ext.refl _, h _⟩
theorem Ret.lift {r : Res α} {Q : α → VM → Prop} (h : ∀ a, r = .ok a → ∀ vm, Q a vm) : Ret (liftR r) Q := by
  intro vm a vm' e
  unfold liftR at e
  cases r with
  | ok b => cases e; exact ⟨Ext.refl _, h _ rfl _⟩
  | ub k => cases e
theorem Ret.bind {m : M α} {f : α → M β} {Q : α → VM → Prop} {R : β → VM → Prop} (h : Ret m Q)
    (g : ∀ a, (∃ vm, Q a vm) → Ret (f a) R) : Ret (m >>= f) R := by
  intro vm b vm' e
  have e' : M.bind m f vm = .ok (b, vm') := e
  unfold M.bind at e'
  cases hm : m vm with
  | ub k => rw [hm] at e'; cases e'
  | ok p =>
    obtain ⟨a, v1⟩ := p
    rw [hm] at e'
    obtain ⟨h1, q⟩ := h vm a v1 hm
    obtain ⟨h2, r⟩ := g a ⟨v1, q⟩ v1 b vm' e'
    exact ⟨h1.trans h2, r⟩
theorem Ret.err (s : String) : Ret (addError s) fun _ vm => vm.errors ≠ [] := by
  rintro vm _ _ ⟨⟩
  refine ⟨⟨vm.errors ++ [s], vm.sourceFiles, rfl, by simp⟩, by simp⟩
theorem Ret.fail {Q : Option α → VM → Prop} (s : String) (h : ∀ vm : VM, vm.errors ≠ [] → Q none vm) :
    Ret (do addError s; return none) Q := by
  rintro vm _ _ ⟨⟩
  exact ⟨⟨vm.errors ++ [s], vm.sourceFiles, rfl, by simp⟩, h _ (by simp)⟩
theorem Ret.file (f : Bytes) : Ret (addSourceFile f) fun _ _ => True := by
  intro vm a vm' e
  refine ⟨?_, trivial⟩
  unfold addSourceFile at e
  have e' : M.bind get _ vm = .ok (a, vm') := e
  unfold M.bind get at e'
  simp only at e'
  cases hf : findFileFrom f 0 vm.sourceFiles with
  | some i => rw [hf] at e'; cases e'; exact Ext.refl _
  | none =>
    rw [hf] at e'
    simp only at e'
    split at e'
    · cases e'; exact Ext.refl _
    · cases e'; exact ⟨vm.errors, vm.sourceFiles ++ [f], rfl, List.prefix_rfl⟩
theorem Ret.mono {m : M α} {Q R : α → VM → Prop} (h : Ret m Q) (g : ∀ a vm, Q a vm → R a vm) : Ret m R :=
  fun vm a vm' e => ⟨(h vm a vm' e).1, g _ _ (h vm a vm' e).2⟩

/-- Types only the parser makes. -/
def Written (t : TokType) : Prop := t ≠ .postIncrement ∧ t ≠ .postDecrement

/-- Failure comes with an error. -/
def OrErr (P : α → Prop) (o : Option α) (vm : VM) : Prop :=
  match o with
  | none => vm.errors ≠ []
  | some a => P a

theorem unescaped_ret (hdr : Nat) (junk : Nat → UInt8) (t : Bytes) : Ret (unescaped hdr junk t) fun _ _ => True := by
  unfold unescaped
  refine (Ret.lift (Q := fun _ _ => True) fun _ _ _ => trivial).bind fun ⟨o, tr⟩ _ => ?_
  dsimp only
  split
  · exact (Ret.err _).bind fun _ _ => Ret.pure fun _ => trivial
  · exact Ret.pure fun _ => trivial

theorem ppLoop_ret (hdr : Nat) (junk : Nat → UInt8) (b : Bytes) : ∀ (n k : Nat) (ts : List Bytes),
    Ret (ppLoop hdr junk b n k ts) (OrErr fun _ => True)
  | 0, _, _ => by unfold ppLoop; exact Ret.lift fun _ h => by cases h
  | n + 1, k, ts => by
    unfold ppLoop
    refine (Ret.lift (Q := fun _ _ => True) fun _ _ _ => trivial).bind fun c _ => ?_
    split
    · refine (Ret.lift (Q := fun _ _ => True) fun _ _ _ => trivial).bind fun o _ => ?_
      cases o with
      | none => exact Ret.fail _ fun _ h => h
      | some p =>
        obtain ⟨st, e, q, k'⟩ := p
        dsimp only
        refine (Ret.lift (Q := fun _ _ => True) fun _ _ _ => trivial).bind fun c _ => ?_
        split
        · split
          · exact Ret.fail _ fun _ h => h
          · refine (Ret.lift (Q := fun _ _ => True) fun _ _ _ => trivial).bind fun t _ => ?_
            have rest : ∀ t, Ret (do let k ← liftR (ppSkip b k'); ppLoop hdr junk b n k (ts ++ [t])) (OrErr fun _ => True) := fun t =>
              (Ret.lift (Q := fun _ _ => True) fun _ _ _ => trivial).bind fun k _ => ppLoop_ret hdr junk b n k _
            split
            · exact (unescaped_ret hdr junk t).bind fun t _ => rest t
            · exact (Ret.pure (Q := fun _ _ => True) fun _ => trivial).bind fun t _ => rest t
        · exact (Ret.lift (Q := fun _ _ => True) fun _ _ _ => trivial).bind fun k _ => ppLoop_ret hdr junk b n k _
    · exact Ret.pure fun _ => trivial

theorem ppTokens_ret (hdr : Nat) (junk : Nat → UInt8) (b : Bytes) : Ret (ppTokens hdr junk b) (OrErr fun _ => True) := by
  unfold ppTokens
  refine (Ret.lift (Q := fun _ _ => True) fun _ _ _ => trivial).bind fun c _ => ?_
  exact (Ret.lift (Q := fun _ _ => True) fun _ _ _ => trivial).bind fun k _ => ppLoop_ret hdr junk b _ k _

/-- All tokens so far. -/
def AllW (s : St) : Prop := ∀ t ∈ s.toks, Written t.type

theorem AllW.add {s : St} (h : AllW s) {ty : TokType} (str : Bytes) (ht : Written ty) : AllW (s.add ty str) := by
  intro t hm
  rcases List.mem_append.mp hm with hm | hm
  · exact h t hm
  · rw [List.mem_singleton] at hm; rw [hm]; exact ht

theorem AllW.idx {s : St} (h : AllW s) (n : Nat) : AllW { s with i := n } := h

theorem directive_ret (s : St) (ts : List Bytes) (h : AllW s) : Ret (directive s ts) (OrErr AllW) := by
  unfold directive
  split
  · exact Ret.pure fun _ => h
  · split
    · split
      · exact Ret.pure fun _ => h
      · exact (Ret.file _).bind fun _ _ => Ret.pure fun _ => h
      · exact Ret.fail _ fun _ h => h
    · split
      · split
        · exact (Ret.file _).bind fun _ _ => Ret.pure fun _ => h
        · exact Ret.fail _ fun _ h => h
      · exact Ret.fail _ fun _ h => h

theorem single_written {c : UInt8} {ty : TokType} (h : single c = some ty) : Written ty := by
  unfold single at h
  repeat' split at h
  all_goals first | (cases h; exact ⟨by decide, by decide⟩) | cases h

theorem wordType_written (t : Bytes) : Written (wordType t) := by
  unfold wordType
  repeat' split
  all_goals exact ⟨by decide, by decide⟩

theorem operator_written {b : Bytes} {i : Nat} {c : UInt8} {ty : TokType} {t : Bytes} (h : operator b i c = .ok (some (ty, t))) : Written ty := by
  unfold operator at h
  have two : ∀ {r : Res UInt8} {f : UInt8 → Res (Option (TokType × Bytes))}, (r >>= f) = .ok (some (ty, t)) → ∃ d, f d = .ok (some (ty, t)) := by
    intro r f h
    cases r with
    | ok a => exact ⟨a, h⟩
    | ub k => cases h
  repeat' split at h
  all_goals try (cases h; done)
  all_goals try (cases h; exact ⟨by decide, by decide⟩)
  all_goals
    obtain ⟨d, h⟩ := two h
    repeat' split at h
    all_goals try (cases h; done)
    all_goals try (cases h; exact ⟨by decide, by decide⟩)
  all_goals
    obtain ⟨d, h⟩ := two h
    repeat' split at h
    all_goals (cases h; exact ⟨by decide, by decide⟩)

theorem token_ret (hdr : Nat) (junk : Nat → UInt8) (b : Bytes) (len : Nat) (s : St) (h : AllW s) :
    Ret (token hdr junk b len s) (OrErr AllW) := by
  have L : ∀ {α : Type} (r : Res α), Ret (liftR r) fun a _ => r = .ok a := fun r => Ret.lift fun _ h _ => h
  unfold token
  refine (L _).bind fun c _ => ?_
  split
  · refine (L _).bind fun e _ => ?_
    refine (ppTokens_ret hdr junk _).bind fun o _ => ?_
    cases o with
    | none => exact Ret.fail _ fun _ h => h
    | some ts => exact directive_ret _ ts h
  · split
    · next ty hs => exact Ret.pure fun _ => h.add _ (single_written hs)
    · refine (L _).bind fun cm _ => ?_
      split
      · exact (L _).bind fun e _ => Ret.pure fun _ => h
      · refine (L _).bind fun o ⟨_, ho⟩ => ?_
        split
        · next ty t => exact Ret.pure fun _ => h.add _ (operator_written ho)
        · split
          · refine (L _).bind fun o _ => ?_
            cases o with
            | none => exact Ret.fail _ fun _ h => h
            | some e =>
              refine (L _).bind fun t _ => ?_
              exact (unescaped_ret hdr junk t).bind fun t _ => Ret.pure fun _ => h.add _ ⟨by decide, by decide⟩
          · split
            · refine (L _).bind fun p _ => ?_
              obtain ⟨e, t⟩ := p
              refine Ret.pure fun _ => (AllW.add h _ ?_).idx _
              split <;> exact ⟨by decide, by decide⟩
            · split
              · refine (L _).bind fun e _ => (L _).bind fun t _ => Ret.pure fun _ => (AllW.add h _ (wordType_written t)).idx _
              · split
                · exact Ret.pure fun _ => h
                · exact Ret.fail _ fun _ h => h

theorem skipWs_toks (b : Bytes) (len : Nat) : ∀ (n : Nat) {s s' : St}, skipWs b len n s = .ok s' → s'.toks = s.toks
  | 0, _, _, h => by cases h
  | n + 1, s, s', h => by
    have two : ∀ {α : Type} {r : Res α} {f : α → Res St}, (r >>= f) = .ok s' → ∃ d, f d = .ok s' := by
      intro _ r f h
      cases r with
      | ok a => exact ⟨a, h⟩
      | ub k => cases h
    unfold skipWs at h
    split at h
    · obtain ⟨c, h⟩ := two h
      split at h
      · split at h
        · obtain ⟨l, h⟩ := two h
          obtain ⟨a, h⟩ := two h
          exact (skipWs_toks b len n h).trans rfl
        · exact (skipWs_toks b len n h).trans rfl
      · cases h; rfl
    · cases h; rfl

theorem loop_ret (hdr : Nat) (junk : Nat → UInt8) (b : Bytes) (len : Nat) : ∀ (n : Nat) (s : St), AllW s →
    Ret (loop hdr junk b len n s) (OrErr AllW)
  | 0, _, _ => by unfold loop; exact Ret.lift fun _ h => by cases h
  | n + 1, s, h => by
    unfold loop
    split
    · refine (Ret.lift (Q := fun a _ => AllW a) fun s' e _ => ?_).bind fun s' ⟨_, hs⟩ => ?_
      · intro t ht; rw [skipWs_toks b len _ e] at ht; exact h t ht
      · intro vm a vm' e
        have e' : M.bind (token hdr junk b len s') _ vm = .ok (a, vm') := e
        unfold M.bind at e'
        cases ht : token hdr junk b len s' vm with
        | ub k => rw [ht] at e'; cases e'
        | ok p =>
          obtain ⟨o, v1⟩ := p
          rw [ht] at e'
          obtain ⟨h1, q⟩ := token_ret hdr junk b len s' hs vm o v1 ht
          cases o with
          | none => cases e'; exact ⟨h1, q⟩
          | some s2 =>
            obtain ⟨h2, r⟩ := loop_ret hdr junk b len n (s2.skip 1) q v1 a vm' e'
            exact ⟨h1.trans h2, r⟩
    · exact Ret.pure fun _ => h

theorem consolidate_ret (hdr : Nat) (junk : Nat → UInt8) (n : Nat) : ∀ l : List Token, l.length = n → (∀ t ∈ l, Written t.type) →
    Ret (consolidate hdr junk l) fun r _ => ∀ t ∈ r, Written t.type := by
  induction n with
  | zero =>
    intro l hl h
    cases l with
    | nil => unfold consolidate; exact Ret.pure fun _ => h
    | cons => cases hl
  | succ n ih =>
    intro l hl h
    match l, hl, h with
    | [t], _, h => unfold consolidate; exact Ret.pure fun _ => h
    | t :: u :: r, hl, h =>
      unfold consolidate
      split
      · refine (Ret.lift (Q := fun _ _ => True) fun _ _ _ => trivial).bind fun p _ => ?_
        obtain ⟨new, tr⟩ := p
        have rest : Ret (consolidate hdr junk ({ t with str := val new } :: r)) fun r _ => ∀ t ∈ r, Written t.type := by
          refine ih _ (by simpa using hl) fun x hx => ?_
          rcases List.mem_cons.mp hx with rfl | hx
          · exact h t (by simp)
          · exact h x (by simp [hx])
        dsimp only
        split
        · exact (Ret.err _).bind fun _ _ => rest
        · exact rest
      · refine (ih (u :: r) (by simpa using hl) fun x hx => h x (List.mem_cons_of_mem _ hx)).bind fun r' ⟨_, hr⟩ => Ret.pure fun _ x hx => ?_
        rcases List.mem_cons.mp hx with rfl | hx
        · exact h _ (by simp)
        · exact hr x hx

/-- The tokenizer adds only errors and source files; it fails with an error, and its tokens are written in the source. -/
theorem tokenize_ret (hdr : Nat) (junk : Nat → UInt8) (b f : Bytes) :
    Ret (tokenize hdr junk b f) (OrErr fun ts => ∀ t ∈ ts, Written t.type) := by
  unfold tokenize
  refine (Ret.lift (Q := fun _ _ => True) fun _ _ _ => trivial).bind fun len _ => ?_
  refine (Ret.file f).bind fun file _ => ?_
  intro vm a vm' e
  have e' : M.bind (loop hdr junk b len (b.length + 1) ⟨0, 1, file, 1, []⟩) _ vm = .ok (a, vm') := e
  unfold M.bind at e'
  cases ht : loop hdr junk b len (b.length + 1) ⟨0, 1, file, 1, []⟩ vm with
  | ub k => rw [ht] at e'; cases e'
  | ok p =>
    obtain ⟨o, v1⟩ := p
    rw [ht] at e'
    obtain ⟨h1, q⟩ := loop_ret hdr junk b len _ _ (by intro t ht; cases ht) vm o v1 ht
    cases o with
    | none => cases e'; exact ⟨h1, q⟩
    | some s2 =>
      obtain ⟨h2, r⟩ := ((consolidate_ret hdr junk _ s2.toks rfl q).bind fun ts ⟨_, h⟩ =>
        Ret.pure (a := some ts) (Q := OrErr fun ts => ∀ t ∈ ts, Written t.type) fun _ => h) v1 a vm' e'
      exact ⟨h1.trans h2, r⟩

end Nk.Tok
