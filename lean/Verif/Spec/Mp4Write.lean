import Verif.Spec.Ilst
/-!
# What an MP4 file is, and what writing an `ilst` to it means

A file is a list of atoms, some of which hold atoms again (`Forest`).  Chunk offset tables
(`stco`) are the only atoms whose contents depend on the position of other data.
-/
namespace Lofty.Mp4Write
open Lofty.Mp4 Lofty.Ilst

/-- A list of atoms: plain ones and containers. -/
inductive Forest
  | nil
  | leaf (id content : Bytes) (rest : Forest)
  | node (id : Bytes) (kids rest : Forest)
  deriving DecidableEq

/-- The bytes of a list of atoms. -/
def Forest.bytes : Forest → Bytes
  | .nil => []
  | .leaf id c rest => box id c ++ rest.bytes
  | .node id kids rest => box id kids.bytes ++ rest.bytes

/-- Two lists of atoms after each other. -/
def Forest.append : Forest → Forest → Forest
  | .nil, g => g
  | .leaf id c rest, g => .leaf id c (rest.append g)
  | .node id kids rest, g => .node id kids (rest.append g)

/-- The names of the atoms of the list. -/
def Forest.top : Forest → List Bytes
  | .nil => []
  | .leaf id _ rest => id :: rest.top
  | .node id _ rest => id :: rest.top

/-- The names of the atoms at any depth. -/
def Forest.names : Forest → List Bytes
  | .nil => []
  | .leaf id _ rest => id :: rest.names
  | .node id kids rest => id :: (kids.names ++ rest.names)

/-- Names of atoms: four admissible bytes. -/
def IdOk (id : Bytes) : Prop := id.length = 4 ∧ id.all validByte = true ∧ id ≠ ascii "----"

/-- The containers. -/
def IsContainer (id : Bytes) : Prop :=
  id ∈ ["moov", "udta", "moof", "trak", "mdia", "minf", "stbl"].map ascii

/-- Names are names, and exactly the containers hold atoms. -/
def Forest.Ok : Forest → Prop
  | .nil => True
  | .leaf id _ rest => IdOk id ∧ ¬ IsContainer id ∧ rest.Ok
  | .node id kids rest => IdOk id ∧ IsContainer id ∧ kids.Ok ∧ rest.Ok

/-- Applies a function to the first `n` 32-bit numbers. -/
def mapEntries (s : Nat → Nat) : Nat → Bytes → Bytes
  | 0, b => b
  | n + 1, b => beBytes 4 (s (fromBE (b.take 4))) ++ mapEntries s n (b.drop 4)

/-- The number of entries of an offset table: version and flags, the number, the entries. -/
def tableCount (c : Bytes) : Nat := fromBE ((c.drop 4).take 4)

/-- Applies a function to the entries of an offset table. -/
def mapTable (s : Nat → Nat) (c : Bytes) : Bytes := c.take 8 ++ mapEntries s (tableCount c) (c.drop 8)

/-- Applies a function to all chunk offsets. -/
def Forest.mapOffsets (s : Nat → Nat) : Forest → Forest
  | .nil => .nil
  | .leaf id c rest => .leaf id (if id = ascii "stco" then mapTable s c else c) (rest.mapOffsets s)
  | .node id kids rest => .node id (kids.mapOffsets s) (rest.mapOffsets s)

/-- Offset tables have as many entries as they say. -/
def Forest.Tables : Forest → Prop
  | .nil => True
  | .leaf id c rest => (id = ascii "stco" → 8 + 4 * tableCount c ≤ c.length) ∧ rest.Tables
  | .node _ kids rest => kids.Tables ∧ rest.Tables

/-- Plain atoms after each other. -/
def boxes (l : List (Bytes × Bytes)) : Bytes := l.flatMap fun x => box x.1 x.2

/-- Padding atoms with the given contents. -/
def frees (l : List Bytes) : Bytes := boxes (l.map fun c => (ascii "free", c))

/-- A padding atom of the given size as the library writes it. -/
def padding (n : Nat) : Bytes := box (ascii "free") (List.replicate (n - 8) 1)

/-- A file with a tag: the atoms around `moov`, around `udta` in it, around `meta` in that,
and in `meta` the atoms around the padding and the `ilst`. -/
structure File where
  before : Forest
  moov1 : Forest
  udta1 : Forest
  version : Bytes
  items1 : List (Bytes × Bytes)
  free1 : List Bytes
  ilst : Bytes
  free2 : List Bytes
  items2 : List (Bytes × Bytes)
  udta2 : Forest
  moov2 : Forest
  after : Forest

/-- The content of `moov` with the given bytes in place of padding and `ilst`. -/
def File.moov (x : File) (region : Bytes) : Forest :=
  x.moov1.append (.node (ascii "udta")
    (x.udta1.append (.leaf (ascii "meta") (x.version ++ boxes x.items1 ++ region ++ boxes x.items2) x.udta2))
    x.moov2)

/-- The whole file with the given content of `moov`. -/
def File.whole (x : File) (moov : Forest) : Forest := x.before.append (.node (ascii "moov") moov x.after)

/-- Padding before the `ilst`, and the `ilst`. -/
def File.space1 (x : File) : Bytes := frees x.free1 ++ box (ascii "ilst") x.ilst

/-- Padding and `ilst` as they are. -/
def File.space (x : File) : Bytes := x.space1 ++ frees x.free2

/-- The atoms of `meta`. -/
def File.atoms (x : File) : List (Bytes × Bytes) :=
  x.items1 ++ x.free1.map (fun c => (ascii "free", c)) ++
    (ascii "ilst", x.ilst) :: (x.free2.map (fun c => (ascii "free", c)) ++ x.items2)

/-- The bytes of the file. -/
def File.bytes (x : File) : Bytes := (x.whole (x.moov x.space)).bytes

/-- Where the padding before the `ilst` starts. -/
def File.start (x : File) : Nat :=
  x.before.bytes.length + 8 + x.moov1.bytes.length + 8 + x.udta1.bytes.length + 8 + x.version.length + (boxes x.items1).length

/-- The chunk offsets after data behind `start` moved by `d`. -/
def moved (start : Nat) (d : Int) (o : Nat) : Nat := if o < start then o else ((o + d) % 2 ^ 32).toNat

/-- The names of `meta`'s first atom by which a `meta` without version is recognised. -/
def metaNames : List Bytes := ["hdlr", "ilst", "mhdr", "ctry", "lang"].map ascii

/-- Does the brand read as text? -/
def BrandOk (c : Bytes) : Prop := 4 ≤ c.length ∧ ∃ s, Text.utf8Decode (c.take 4) = .ok s

/-- Well-formed files: `ftyp` comes first, there is one `moov` and one `udta` in it that
count, no fragments and no 64-bit offset tables, `meta` is recognisable as one with or
without version, one without version does not end in an empty atom, and the last `ilst` of
`meta` is the one singled out. -/
structure File.Ok (x : File) : Prop where
  brand : ∃ c rest, x.before = .leaf (ascii "ftyp") c rest ∧ BrandOk c
  before : x.before.Ok ∧ ascii "moov" ∉ x.before.top ∧ ascii "moof" ∉ x.before.top
  after : x.after.Ok ∧ ascii "moof" ∉ x.after.top
  moov1 : x.moov1.Ok ∧ x.moov1.Tables ∧ ascii "udta" ∉ x.moov1.top ∧ ascii "co64" ∉ x.moov1.names
  moov2 : x.moov2.Ok ∧ x.moov2.Tables ∧ ascii "co64" ∉ x.moov2.names
  udta1 : x.udta1.Ok ∧ x.udta1.Tables ∧ ascii "meta" ∉ x.udta1.top ∧ ascii "co64" ∉ x.udta1.names
  udta2 : x.udta2.Ok ∧ x.udta2.Tables ∧ ascii "co64" ∉ x.udta2.names
  items1 : (∀ i ∈ x.items1, IdOk i.1) ∧ (x.items1.getLast?.map Prod.fst ≠ some (ascii "free"))
  items2 : (∀ i ∈ x.items2, IdOk i.1 ∧ i.1 ≠ ascii "ilst") ∧ (x.items2.head?.map Prod.fst ≠ some (ascii "free"))
  version : (x.version.length = 4 ∧ (boxes x.items1 ++ x.space).take 4 ∉ metaNames) ∨
    (x.version = [] ∧ ((boxes x.items1 ++ x.space).drop 4).take 4 ∈ metaNames)
  last : x.version = [] → x.atoms.getLast?.map Prod.snd ≠ some []
  size : x.bytes.length < 2 ^ 32

/-- What takes the place of padding and `ilst` when an `ilst` atom `new` is written, and by
how much the rest of the file moves.  If padding and old atom have room for the new atom and
one more padding atom they are used, and nothing moves; otherwise the padding behind stays,
and if the new atom is smaller than what it replaces the difference is padded if it can be,
and else there is padding of the preferred size. -/
def File.fit (x : File) (new : Bytes) (preferred : Option Nat) : Bytes × Int :=
  if x.space.length > new.length + 8 then (new ++ padding (x.space.length - new.length), 0)
  else if new.length ≥ x.space1.length then
    (new ++ frees x.free2, (new.length : Int) - x.space1.length)
  else if x.space1.length - new.length ≥ 8 then
    (new ++ padding (x.space1.length - new.length) ++ frees x.free2, 0)
  else match preferred with
    | none => (new ++ frees x.free2, (new.length : Int) - x.space1.length)
    | some p => (new ++ padding p ++ frees x.free2, (new.length : Int) + p - x.space1.length)

end Lofty.Mp4Write
