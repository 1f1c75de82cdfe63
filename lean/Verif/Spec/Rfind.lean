import Verif.Model.Bytes
/-! Specification for C48: occurrences of a pattern inside a region of a file. -/
namespace Lofty.Rfind

/-- The pattern occurs at offset `i`, entirely inside `[lo, hi)`. -/
def OccursAt (f pat : Bytes) (lo hi i : Nat) : Prop :=
  lo ≤ i ∧ i + pat.length ≤ hi ∧ (f.drop i).take pat.length = pat

/-- `i` is the last such offset. -/
def LastOccurrence (f pat : Bytes) (lo hi i : Nat) : Prop :=
  OccursAt f pat lo hi i ∧ ∀ j, OccursAt f pat lo hi j → j ≤ i

end Lofty.Rfind
