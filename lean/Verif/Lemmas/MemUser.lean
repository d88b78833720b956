import Verif.Spec.Mem
/-! # User data passed to the host's allocator -/
namespace Nk.Mem
open Nk.MemSpec

/-- Same user data, and a trace of host calls with user data 0. -/
def UserOk (s : State) : Prop := HostAllocatorOnly 0 s.trace ∧ s.userData = 0

theorem storePrev_user {s s' : State} {a : Nat} {l : Loc} (h : storePrev s a l = .ok s') :
    s'.trace = s.trace ∧ s'.userData = s.userData := by
  unfold storePrev at h
  split at h <;> simp at h
  subst h; exact ⟨rfl, rfl⟩

theorem storeLoc_user {s s' : State} {l : Loc} {v : Option Nat} (h : storeLoc s l v = .ok s') :
    s'.trace = s.trace ∧ s'.userData = s.userData := by
  unfold storeLoc at h
  split at h
  · simp at h; subst h; exact ⟨rfl, rfl⟩
  · split at h <;> simp at h
    subst h; exact ⟨rfl, rfl⟩

theorem linkNew_user {s s' : State} {a n : Nat} {j : Bytes} (h : linkNew s a n j = .ok s') :
    s'.trace = s.trace ∧ s'.userData = s.userData := by
  unfold linkNew at h
  simp only [Res.ok_bind] at h
  split at h
  · rename_i o ho
    cases hs : storePrev _ o (.next a) with
    | ub k => rw [hs] at h; simp at h
    | ok s2 =>
      rw [hs] at h; simp at h; subst h
      have := storePrev_user hs
      exact ⟨this.1, this.2⟩
  · simp at h; subst h; exact ⟨rfl, rfl⟩

theorem unlink_user {s s' : State} {a : Nat} (h : unlink s a = .ok s') :
    s'.trace = s.trace ++ [.free a s.userData] ∧ s'.userData = s.userData := by
  unfold unlink at h
  split at h
  · simp at h
  · rename_i hd _
    simp only at h
    have step2 : ∀ s1 : State, s1.trace = s.trace ∧ s1.userData = s.userData →
        (storeLoc s1 hd.prev hd.next >>= fun s => Res.ok { setHeap s a none with trace := s.trace ++ [Ev.free a s.userData] }) = .ok s' →
        s'.trace = s.trace ++ [.free a s.userData] ∧ s'.userData = s.userData := by
      intro s1 h1 h2
      cases hs : storeLoc s1 hd.prev hd.next with
      | ub k => rw [hs] at h2; simp at h2
      | ok s3 =>
        rw [hs] at h2; simp at h2; subst h2
        have := storeLoc_user hs
        simp [setHeap, this.1, this.2, h1.1, h1.2]
    split at h
    · rename_i n hn
      cases hs : storePrev _ n hd.prev with
      | ub k => rw [hs] at h; simp at h
      | ok s2 =>
        rw [hs] at h
        have hp := storePrev_user hs
        exact step2 s2 ⟨hp.1, hp.2⟩ h
    · rw [Res.ok_bind] at h
      exact step2 { s with cur := u32 (s.cur + U32 - u32 (hd.size + s.hdr)) } ⟨rfl, rfl⟩ h

theorem user_append {s s' : State} {e : Ev} (h : UserOk s) (ht : s'.trace = s.trace ++ [e])
    (hu : s'.userData = s.userData) (he : evUser e = some s.userData) : UserOk s' := by
  refine ⟨?_, hu.trans h.2⟩
  intro x hx
  rw [ht] at hx
  rcases List.mem_append.1 hx with hx | hx
  · exact h.1 x hx
  · rw [List.mem_singleton.1 hx, he, h.2]

/-- All outcomes of an allocator function keep the property. -/
def OutOk {α : Type} : Out α → Prop
  | .ret _ s => UserOk s
  | .catastrophe s => UserOk s
  | .ub _ => True

theorem malloc_user {s : State} (h : UserOk s) (n : Nat) (sys : Option Nat) (j : Bytes) :
    OutOk (malloc s n sys j) := by
  unfold malloc catastrophe
  split
  · exact h
  split
  · simp only
    split
    · exact h
    split
    · exact h
    · rename_i a
      split
      · rename_i s2 hs2
        have := linkNew_user hs2
        exact user_append h this.1 this.2 rfl
      · trivial
  · exact h

theorem free_user {s : State} (h : UserOk s) (p : Option Nat) : OutOk (free s p) := by
  unfold free
  split
  · exact h
  · rename_i a
    split
    · rename_i s2 hs2
      have := unlink_user hs2
      exact user_append h this.1 this.2 rfl
    · trivial

theorem memcpyTo_user {s s' : State} {a n : Nat} {d : Bytes} (h : UserOk s)
    (hs : memcpyTo s a d n = .ok s') : UserOk s' := by
  unfold memcpyTo at hs
  split at hs
  · cases hs
  · split at hs
    · cases hs; exact h
    · cases hs

theorem realloc_user {s : State} (h : UserOk s) (p : Option Nat) (n : Nat) (sys : Option Nat)
    (j : Bytes) : OutOk (realloc s p n sys j) := by
  unfold realloc
  split
  · exact malloc_user h n sys j
  · rename_i a
    split
    · trivial
    · rename_i hd _
      have hm := malloc_user h n sys j
      simp only
      split
      · rename_i s2 hs2; rw [hs2] at hm; exact hm
      · trivial
      · rename_i nd s2 hs2
        rw [hs2] at hm
        split
        · trivial
        · rename_i s3 hs3
          have h3 : UserOk s3 := by
            split at hs3
            · exact memcpyTo_user hm hs3
            · cases hs3; exact hm
          have hf := free_user h3 (some a)
          split <;> rename_i hs4 <;> rw [hs4] at hf <;> exact hf

theorem wrapped_user {α : Type} {s s' : State} {d r : α} {b : State → Out α} (h : UserOk s)
    (hb : OutOk (b s)) (hs : wrapped s d b = .ok (r, s')) : UserOk s' := by
  unfold wrapped at hs
  split at hs
  · simp at hs; rw [← hs.2]; exact h
  · split at hs <;> rename_i he <;> rw [he] at hb <;> simp at hs
    · rw [← hs.2]; exact hb
    · rw [← hs.2]; exact hb

theorem step_user {s s' : State} {op : Op} {r : Option Nat} (hs : step s op = .ok (r, s'))
    (h1 : HostAllocatorOnly 0 s.trace) (h2 : s.userData = 0) :
    HostAllocatorOnly 0 s'.trace ∧ s'.userData = 0 := by
  have h : UserOk s := ⟨h1, h2⟩
  show UserOk s'
  cases op <;> simp only [step] at hs
  case malloc n sys j => exact wrapped_user h (malloc_user h n sys j) hs
  case mallocArray n c sys j =>
    refine wrapped_user h ?_ hs
    unfold mallocArray
    split
    · trivial
    split
    · exact h
    · exact malloc_user h _ sys j
  case realloc p n sys j => exact wrapped_user h (realloc_user h p n sys j) hs
  case reallocArray p n c sys j =>
    refine wrapped_user h ?_ hs
    unfold reallocArray
    split
    · trivial
    split
    · exact h
    · exact realloc_user h p _ sys j
  case free p =>
    refine wrapped_user h ?_ hs
    have hf := free_user h p
    show OutOk (match free s p with | .ret _ s => .ret none s | .catastrophe s => .catastrophe s | .ub k => .ub k)
    cases he : free s p <;> rw [he] at hf <;> exact hf
  case setLimit n => cases hs; exact h
  case forceFailure => exact wrapped_user (b := fun s => catastrophe s) h (show UserOk _ from h) hs

end Nk.Mem
