import Verif.Model.File
/-!
# Backward pattern search

Models `RevPatternSearcher`, `lofty/src/util/io.rs` 326-457.
-/
namespace Lofty.Rfind

/-- `RevSearchStart`, util/io.rs 326-333. -/
inductive Start | fromEnd | fromCurrent
deriving DecidableEq

/-- `RevSearchEnd`, util/io.rs 335-346. -/
inductive End | streamStart | fromCurrent | pos (p : Nat)
deriving DecidableEq

/-- The position found by `window.windows(plen).enumerate().rev().find_map(..)`,
util/io.rs 424-434: the last offset at which the window holds the pattern. -/
def lastMatch (window pat : Bytes) : Option Nat :=
  (List.range (window.length + 1 - pat.length)).reverse.find?
    (fun i => (window.drop i).take pat.length == pat)

/-- The loop of `search`, util/io.rs 415-441.  `cur`, `stop`, `B` are
`current_pos`, `end_pos`, `buffer_size`; the result is the answer and the final
reader position (`pos` is the position on entry to the iteration).  Only called
with `0 < pat.length ≤ B`; the extra test `0 < step` is what makes that guard
(checked by `search`) the termination argument. -/
def loop (f pat : Bytes) (B stop cur pos : Nat) : Except Err (Bool × Nat) :=
  if _h : cur > stop ∧ 0 < B - (pat.length - 1) then
    let readSize := min B (cur - stop)
    let readStart := cur - readSize
    match readAt f readStart readSize with
    | .error e => .error e
    | .ok window =>
      match lastMatch window pat with
      | some off => .ok (true, readStart + off)
      | none => loop f pat B stop (cur - min readSize (B - (pat.length - 1))) cur
  else .ok (false, pos)
termination_by cur
decreasing_by omega

/-- `start_pos`, util/io.rs 388-391. -/
def startPos (f : Bytes) (pos : Nat) : Start → Nat
  | .fromEnd => f.length
  | .fromCurrent => pos

/-- `end_pos`, util/io.rs 393-397. -/
def endPos (pos : Nat) : End → Nat
  | .streamStart => 0
  | .fromCurrent => pos
  | .pos p => p

/-- `RevPatternSearcher::search`, util/io.rs 379-443, started with the reader at
`pos`. -/
def search (f pat : Bytes) (B pos : Nat) (start : Start) (stop : End) : Except Err (Bool × Nat) :=
  if pat.isEmpty then .ok (true, pos)
  else
    let hi := startPos f pos start
    let lo := endPos pos stop
    if hi < lo ∨ hi - lo < pat.length ∨ B < pat.length then .ok (false, pos)
    else loop f pat B lo hi hi

end Lofty.Rfind
