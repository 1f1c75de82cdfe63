import Verif.Model.Bytes
/-!
# Floating point numbers

The few operations on `f64` that the readers use (`as f64`, `*`, `/`, `+`, `round`, `as u32`, `as u64`), as IEEE 754
defines them: the exact result, rounded to 53 significant bits, to the nearest, ties to even.  Only numbers that are not
negative occur.  Results outside of the range of normal numbers (below 2^-1022 or from 2^1024) are not rounded as such:
none of the values computed from 64 bit integers here comes near them.
-/
namespace Lofty.Float64

/-- A power of two. -/
def pow2 : Int → Rat
  | .ofNat n => (2 ^ n : Nat)
  | .negSucc n => 1 / (2 ^ (n + 1) : Nat)

/-- The exponent of a positive number: `pow2 (expo x) ≤ x < pow2 (expo x + 1)`. -/
def expo (x : Rat) : Int :=
  let e : Int := (x.num.toNat.log2 : Int) - (x.den.log2 : Int)
  if pow2 e ≤ x then e else e - 1

/-- The nearest integer, the even one of two. -/
def nearestEven (q : Rat) : Int :=
  let f := q.floor
  let r := q - f
  if r < 1 / 2 then f
  else if 1 / 2 < r then f + 1
  else if f % 2 = 0 then f else f + 1

/-- Rounding to 53 significant bits. -/
def rnd (x : Rat) : Rat :=
  if x ≤ 0 then 0
  else
    let s := pow2 (expo x - 52)
    nearestEven (x / s) * s

/-- `f64` without negative numbers. -/
inductive F64
  | fin (x : Rat)
  | inf
  | nan
  deriving DecidableEq

/-- `as f64`, `f64::from`. -/
def F64.ofNat (n : Nat) : F64 := .fin (rnd n)

/-- `*` (infinity does not occur as an operand). -/
def F64.mul : F64 → F64 → F64
  | .fin a, .fin b => .fin (rnd (a * b))
  | _, _ => .nan

/-- `/` (infinity does not occur as an operand). -/
def F64.div : F64 → F64 → F64
  | .fin a, .fin b => if b = 0 then (if a = 0 then .nan else .inf) else .fin (rnd (a / b))
  | _, _ => .nan

/-- `+`. -/
def F64.add : F64 → F64 → F64
  | .fin a, .fin b => .fin (rnd (a + b))
  | .inf, .fin _ => .inf
  | _, _ => .nan

/-- `as u32`, `as u64`: truncated, and the nearest number that fits; `NaN` becomes zero. -/
def F64.toU (bits : Nat) : F64 → Nat
  | .fin x => min x.floor.toNat (2 ^ bits - 1)
  | .inf => 2 ^ bits - 1
  | .nan => 0

/-- `f64::round`: half away from zero. -/
def F64.round : F64 → F64
  | .fin x => .fin (x + 1 / 2).floor
  | .inf => .inf
  | .nan => .nan

/-- One half, `0.5`. -/
def F64.half : F64 := .fin (1 / 2)

end Lofty.Float64
