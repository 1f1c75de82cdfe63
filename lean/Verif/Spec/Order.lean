import Verif.Model.Order
/-! Specifications for C81. -/
namespace Lofty

/-- What every order has to be: looking from the other side turns the answer around, "equal" goes
together with `eq`, and "before" is transitive. -/
structure IsOrder (eq : α → α → Prop) (cmp : α → α → Ordering) : Prop where
  swap : ∀ a b, cmp b a = (cmp a b).swap
  equal : ∀ a b, cmp a b = .eq ↔ eq a b
  trans : ∀ a b c, cmp a b = .lt → cmp b c = .lt → cmp a c = .lt

/-- The order of texts, byte by byte; a text comes before its continuations. -/
def textCmp : Bytes → Bytes → Ordering
  | [], [] => .eq
  | [], _ :: _ => .lt
  | _ :: _, [] => .gt
  | a :: x, b :: y => if a.toNat < b.toNat then .lt else if b.toNat < a.toNat then .gt else textCmp x y

/-- A component that may be missing as a number: 0 stands for a missing one. -/
def optNum : Option Nat → Nat
  | none => 0
  | some n => n + 1

/-- The components of a timestamp from the coarsest to the finest. -/
def Timestamp.components (t : Timestamp) : List Nat :=
  t.year :: [t.month, t.day, t.hour, t.minute, t.second].map optNum

/-- The first components in which two lists differ decide. -/
def FirstDiff (a b : List Nat) : Prop :=
  ∃ i x y, a.take i = b.take i ∧ a[i]? = some x ∧ b[i]? = some y ∧ x < y

end Lofty
