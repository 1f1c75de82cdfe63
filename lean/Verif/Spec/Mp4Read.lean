import Verif.Spec.Mp4Write
/-!
# Where the tag of an MP4 file is, and where its tracks are

On top of `Spec/Mp4Write.lean`: a file is a list of atoms, some of which hold atoms again.
-/
namespace Lofty.Mp4Read
open Lofty.Mp4 Lofty.Ilst Lofty.Mp4Write

/-- The atoms of a list, without looking into them. -/
def items : Forest → List (Bytes × Bytes)
  | .nil => []
  | .leaf id c rest => (id, c) :: items rest
  | .node id kids rest => (id, kids.bytes) :: items rest

/-- The first `mdia` of a list of atoms that starts at `p`. -/
def firstMdia : Nat → List (Bytes × Bytes) → Option Info
  | _, [] => none
  | p, x :: l =>
    if x.1 = ascii "mdia" then some ⟨p, 8 + x.2.length, false, .fourcc (ascii "mdia")⟩
    else firstMdia (p + (8 + x.2.length)) l

/-- The `mdia` atoms of the tracks of a list of atoms that starts at `p`. -/
def tracks : Nat → Forest → List Info
  | _, .nil => []
  | p, .leaf _ c rest => tracks (p + (8 + c.length)) rest
  | p, .node id kids rest =>
    (if id = ascii "trak" then (firstMdia (p + 8) (items kids)).toList else []) ++
      tracks (p + (8 + kids.bytes.length)) rest

/-- Neither a track nor user data. -/
def Other (id : Bytes) : Prop := id ≠ ascii "udta" ∧ id ≠ ascii "trak"

/-- No user data among the atoms nor in the tracks, and no track in a track. -/
def Silent : Forest → Prop
  | .nil => True
  | .leaf id _ rest => Other id ∧ Silent rest
  | .node id kids rest => id ≠ ascii "udta" ∧ (id = ascii "trak" → ∀ k ∈ kids.top, Other k) ∧ Silent rest

/-- Is `meta` with the given version field and content recognisable as one with or without
version? -/
def MetaOk (version rest : Bytes) : Prop :=
  (version.length = 4 ∧ 4 ≤ rest.length ∧ rest.take 4 ∉ metaNames) ∨ (version = [] ∧ (rest.drop 4).take 4 ∈ metaNames)

/-- A whole file: the atoms before `moov`, those in it, those behind. -/
def whole (before moov after : Forest) : Forest := before.append (.node (ascii "moov") moov after)

/-- A file that can be read: `ftyp` comes first and its brand is `brand`, the first `moov` is
the one that counts. -/
structure FileOk (before moov after : Forest) (brand : Str) : Prop where
  front : ∃ c rest, before = .leaf (ascii "ftyp") c rest ∧ 4 ≤ c.length ∧ Text.utf8Decode (c.take 4) = .ok brand
  names : before.Ok ∧ ascii "moov" ∉ before.top
  inner : moov.Ok
  size : (whole before moov after).bytes.length < 2 ^ 32

/-- No second tag: no other user data in `moov` or in a track, no `ilst` before the one that
counts, and no tracks in odd places. -/
structure Clear (x : File) : Prop where
  moov1 : Silent x.moov1
  moov2 : Silent x.moov2
  udta2 : ∀ i ∈ x.udta2.top, Other i
  items1 : ∀ i ∈ x.items1, i.1 ≠ ascii "ilst"
  items2 : ∀ i ∈ x.items2, Other i.1

end Lofty.Mp4Read
