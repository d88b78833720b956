/-!
# Specification of id tables

A history is the list of things that happened to a table, oldest first.  What an id refers to is
read off the history alone.
-/
namespace Nk.TableSpec

/-- Something that happened to a table of entries of type `α`. -/
inductive Ev (α : Type) where
  /-- an entry was added and got this id -/
  | created (id : Nat) (x : α)
  /-- the entry with this id was overwritten in place -/
  | updated (id : Nat) (x : α)
  /-- the entry with this id was released -/
  | released (id : Nat)
  /-- the table was compacted -/
  | compacted

/-- Effect of one event on the map from ids to entries. -/
def apply {α : Type} (m : Nat → Option α) : Ev α → Nat → Option α
  | .created i x => fun j => if j = i then some x else m j
  | .updated i x => fun j => if j = i then some x else m j
  | .released i => fun j => if j = i then none else m j
  | .compacted => m

/-- What each id refers to after a history; `none` for an id that is not in use. -/
def holds {α : Type} (h : List (Ev α)) : Nat → Option α := h.foldl apply (fun _ => none)

end Nk.TableSpec
