import Verif.Model.Bytes
/-!
# The swap-based "drain filter" loop

Four containers remove matching elements with the same loop: it swaps every match to
the front and drains the front.
-/
namespace Lofty

/-- `slice::swap`; out-of-range indices panic in Rust and do not occur in the loop. -/
def swap {α} (l : List α) (a b : Nat) : List α :=
  match l[a]?, l[b]? with
  | some x, some y => (l.set a y).set b x
  | _, _ => l

/-- The loop `for read_idx in i..len { if p(items[read_idx]) { items.swap(split_idx,
read_idx); split_idx += 1 } }`, where `k` iterations remain:
ogg/tag.rs 305-314 (`VorbisComments::remove`), tag/mod.rs 468-477 (`Tag::take_filter`),
id3/v2/frame/list.rs 329-337 (`FrameList::remove`), mp4/ilst/mod.rs 275-283
(`Ilst::remove`). -/
def drainLoop {α} (p : α → Bool) : Nat → Nat → Nat → List α → List α × Nat
  | 0, _, split, l => (l, split)
  | k + 1, i, split, l =>
    match l[i]? with
    | some x =>
      if p x then drainLoop p k (i + 1) (split + 1) (swap l split i)
      else drainLoop p k (i + 1) split l
    | none => (l, split)

/-- The whole operation: the drained elements and what is left (same citations). -/
def drainFilter {α} (p : α → Bool) (l : List α) : List α × List α :=
  let (l', split) := drainLoop p l.length 0 0 l
  (l'.take split, l'.drop split)

end Lofty
