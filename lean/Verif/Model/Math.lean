import Verif.Model.Bytes
/-! # Arithmetic helpers, `lofty/src/util/math.rs` -/
namespace Lofty.Math

/-- `div_round`, util/math.rs 18-20, for an unsigned type of `w` bits.  A zero
divisor panics; the addition overflows (a panic in checked builds) when
`a + b/2` does not fit. -/
def divRound (w a b : Nat) : Except Err Nat :=
  if b = 0 then .error .panic
  else if 2 ^ w ≤ a + b / 2 then .error .panic
  else .ok ((a + b / 2) / b)

end Lofty.Math
