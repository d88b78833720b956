import Verif.Model.SaveSink
/-!
# What writers of the host do
-/
namespace Nk.Save
variable {σ : Type}

/-- `log` is what the writer has taken: every piece it accepts is appended.  (What a refused piece does is left open.) -/
def Logs (K : Sink σ) (log : σ → Bytes) : Prop := ∀ s b, (K.put s b).1 = true → log (K.put s b).2 = log s ++ b

/-- A writer that, once it has refused something, takes nothing more (pieces without bytes aside). -/
def Sticky (K : Sink σ) : Prop :=
  ∃ dead : σ → Prop, (∀ s b, (K.put s b).1 = false → dead (K.put s b).2) ∧
    ∀ s b, dead s → dead (K.put s b).2 ∧ (b ≠ [] → (K.put s b).1 = false)

/-- A writer with room for `n` bytes, and the bytes it took. -/
def disk : Sink (Nat × Bytes) where
  put s b := if b.length ≤ s.1 then (true, s.1 - b.length, s.2 ++ b) else (false, 0, s.2)

/-- A writer that refuses only call number `k` (the state counts the calls). -/
def flaky (k : Nat) : Sink (Nat × Bytes) where
  put s b := if s.1 = k then (false, s.1 + 1, s.2) else (true, s.1 + 1, s.2 ++ b)

end Nk.Save
