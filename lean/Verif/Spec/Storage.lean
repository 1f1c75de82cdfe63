import Verif.Model.Storage
/-!
# Specification: what is in the file when a save fails
-/
namespace Lofty.Storage

/-- A save that gives `r` for the file `f`: if it is refused the file stays as it is, if there is space for the new file it takes
the place of the old one, and otherwise its front is left. -/
def onto (cap : Nat) (f : Bytes) : Except Err Bytes → Except Failure Unit × Bytes
  | .error e => (.error (.lib e), f)
  | .ok g => if g.length ≤ cap then (.ok (), g) else (.error .full, g.take cap)

/-- The same in place: if there is no space for the new file, zeros up to the end of the device are added to the old one. -/
def inPlace (cap : Nat) (f : Bytes) : Except Err Bytes → Except Failure Unit × Bytes
  | .error e => (.error (.lib e), f)
  | .ok g => if g.length ≤ cap then (.ok (), g) else (.error .full, f ++ List.replicate (cap - f.length) 0)

end Lofty.Storage
