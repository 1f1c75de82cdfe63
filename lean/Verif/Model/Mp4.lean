import Verif.Model.Text
import Verif.Model.Timestamp
/-!
# MP4 atoms

`lofty/src/mp4/atom_info.rs`, `lofty/src/mp4/read/{atom_reader,mod}.rs`.
-/
namespace Lofty.Mp4
open Lofty.Text

/-- `AtomReader`, mp4/read/atom_reader.rs 18-27: the bytes of the underlying reader, the
bounds, the position in the underlying reader and `remaining_size`.  A plain `Cursor`
(`AtomWriterCompanion`, mp4/write.rs 183-271) is the value with `start = 0` and `len` the
length of the buffer: it differs only in that a seek past the end is not clamped, and no
byte is read from there in either case. -/
structure Rd where
  f : Bytes
  start : Nat
  len : Nat
  pos : Nat
  rem : Nat
  deriving DecidableEq, Repr

/-- `AtomReader::new`, atom_reader.rs 34-43, for a reader at its beginning. -/
def Rd.new (f : Bytes) : Rd := ⟨f, 0, f.length, 0, f.length⟩

/-- A `Cursor` over `f` at position `p`. -/
def Rd.at (f : Bytes) (p : Nat) : Rd := ⟨f, 0, f.length, p, f.length - p⟩

/-- `AtomReader::reset_bounds`, atom_reader.rs 55-59. -/
def Rd.resetBounds (r : Rd) (start len : Nat) : Rd := { r with start := start, len := len, rem := len }

/-- The reads that bypass the bounds (`AtomReader::read_u8`, `read_u24`, ..., atom_reader.rs
61-89): `n` bytes of the underlying reader. -/
def Rd.raw (r : Rd) (n : Nat) : Except Err (Bytes × Rd) :=
  if r.pos + n ≤ r.f.length then
    .ok ((r.f.drop r.pos).take n, { r with pos := r.pos + n, rem := r.rem - n })
  else .error .eof

/-- `Read::read_exact` through `AtomReader::read`, atom_reader.rs 158-167: a read when
nothing remains returns no byte. -/
def Rd.take (r : Rd) (n : Nat) : Except Err (Bytes × Rd) :=
  if n ≠ 0 ∧ r.rem = 0 then .error .eof else r.raw n

/-- `seek(SeekFrom::Start(s))`, atom_reader.rs 117-127. -/
def Rd.seekStart (r : Rd) (s : Nat) : Rd :=
  if s > r.len then { r with pos := r.start + r.len, rem := 0 }
  else { r with pos := r.start + s, rem := r.len - (r.start + s) }

/-- `seek(SeekFrom::End(0))`, atom_reader.rs 128-132. -/
def Rd.seekEnd (r : Rd) : Rd := { r with pos := r.start + r.len, rem := 0 }

/-- `seek(SeekFrom::Current(n))` with `n ≥ 0`, atom_reader.rs 140-149. -/
def Rd.skip (r : Rd) (n : Nat) : Rd := { r with pos := r.pos + n, rem := r.rem - n }

/-- `seek(SeekFrom::Current(-n))`, atom_reader.rs 140-149. -/
def Rd.back (r : Rd) (n : Nat) : Rd := { r with pos := r.pos - n, rem := r.rem + n }

/-- `AtomIdent`, atom_info.rs 19-41; a fourcc is a list of four bytes. -/
inductive Ident
  | fourcc (b : Bytes)
  | freeform (mean name : Str)
  deriving DecidableEq, Repr

/-- `AtomInfo`, atom_info.rs 118-123. -/
structure Info where
  start : Nat
  len : Nat
  extended : Bool
  ident : Ident
  deriving DecidableEq, Repr

/-- `is_valid_identifier_byte`, atom_info.rs 130-132. -/
def validByte (b : UInt8) : Bool := (0x20 ≤ b.toNat && b.toNat ≤ 0x7E) || b.toNat == 0xA9

/-- The length of an atom from its 32-bit field, atom_info.rs 185-199. -/
def lenOf (raw : Nat) (r : Rd) : Except Err (Nat × Bool × Rd) :=
  if raw = 0 then
    let e := r.seekEnd.pos
    if r.pos ≤ e then .ok (e - r.pos, false, r.seekEnd.seekStart r.pos) else .error .panic
  else if raw = 1 then do
    let (b, r) ← r.take 8
    .ok (fromBE b, true, r)
  else .ok (raw, false, r)

/-- What the header of an atom says: start, length, extended flag and identifier. -/
abbrev Head := Nat × Nat × Bool × Bytes

/-- The part of `AtomInfo::read_inner` before the identifier is interpreted,
atom_info.rs 155-229. -/
def readHead (r : Rd) (size : Nat) (mode : Mode) : Except Err (Option Head × Rd) := do
  let start := r.pos
  let (lb, r) ← r.take 4
  let (id, r) ← r.take 4
  if !id.all validByte then
    if mode = .strict then .error .parse else .ok (none, r.seekEnd)
  else
    let (len, ext, r) ← lenOf (fromBE lb) r
    if len < 8 then .error .notEnough
    else if len - 8 > size then
      if (mode ≠ .strict ∧ id = ascii "free") ∨ mode = .relaxed then .ok (none, r.seekEnd)
      else .error .sizeMismatch
    else .ok (some (start, len, ext, id), r)

/-- `freeform_chunk`, atom_info.rs 283-334. -/
def freeformChunk (r : Rd) (name : Bytes) (size : Nat) (mode : Mode) :
    Except Err (Str × Nat × Rd) := do
  let (h, r) ← readHead r size mode
  match h with
  | none => .error .parse
  | some (_, len, _, id) =>
    if id ≠ name then .error .parse
    else if len < 12 then .error .notEnough
    else if len > size then .error .sizeMismatch
    else
      let (content, r) ← (r.skip 4).take (len - 12)
      let text ← utf8Decode content
      .ok (text, size - len, r)

/-- `parse_freeform`, atom_info.rs 258-281. -/
def parseFreeform (r : Rd) (len : Nat) (mode : Mode) : Except Err (Ident × Rd) :=
  if len < 24 then .error .notEnough
  else do
    let (mean, len, r) ← freeformChunk r (ascii "mean") len mode
    let (name, _, r) ← freeformChunk r (ascii "name") len mode
    .ok (.freeform mean name, r)

/-- The choice of the identifier, atom_info.rs 231-246; `reader_size -= 8` overflows when
fewer than 8 bytes remain. -/
def identOf (h : Head) (r : Rd) (size : Nat) (mode : Mode) : Except Err (Option Info × Rd) :=
  if h.2.2.2 = ascii "----" then
    if size < 8 then .error .panic
    else if size - 8 < 8 then .error .notEnough
    else do
      let (i, r) ← parseFreeform r (h.2.1 - 8) mode
      .ok (some ⟨h.1, h.2.1, h.2.2.1, i⟩, r)
  else .ok (some ⟨h.1, h.2.1, h.2.2.1, .fourcc h.2.2.2⟩, r)

/-- `AtomInfo::read`, atom_info.rs 135-247. -/
def readInfo (r : Rd) (size : Nat) (mode : Mode) : Except Err (Option Info × Rd) := do
  let (h, r) ← readHead r size mode
  match h with
  | none => .ok (none, r)
  | some h => identOf h r size mode

/-- `AtomInfo::header_size`, atom_info.rs 249-255. -/
def Info.headerSize (i : Info) : Nat := if i.extended then 16 else 8

/-- `AtomReader::next`, atom_reader.rs 94-104. -/
def Rd.next (r : Rd) (mode : Mode) : Except Err (Option Info × Rd) :=
  if r.rem = 0 then .ok (none, r)
  else if r.rem < 8 then .error .sizeMismatch
  else readInfo r r.rem mode

/-- `skip_atom`, mp4/read/mod.rs 96-116.  A length of 2³² or more without the extended flag
is truncated by the cast (it can only come from a length field of 0); a resulting seek to
before the current position is an I/O error or a move backwards. -/
def skipAtom (r : Rd) (extended : Bool) (len : Nat) : Except Err Rd :=
  if !extended then
    let n := len % 2 ^ 32
    if 8 ≤ n then .ok (r.skip (n - 8))
    else if 8 - n ≤ r.pos then .ok (r.back (8 - n)) else .error .parse
  else if r.pos + (len - 8) < 2 ^ 64 then .ok (r.seekStart (r.pos + (len - 8)))
  else .error .tooMuch

/-- `find_child_atom`, mp4/read/mod.rs 122-151; `fuel` bounds the iterations. -/
def findChild : Nat → Rd → Nat → Bytes → Mode → Except Err (Option Info × Rd)
  | 0, _, _, _, _ => .error .diverge
  | k + 1, r, len, expected, mode =>
    if len ≤ 8 then .ok (none, r)
    else do
      let (a, r) ← readInfo r len mode
      match a with
      | none => .ok (none, r)
      | some a =>
        if a.ident = .fourcc expected then .ok (some a, r)
        else
          let r ← skipAtom r a.extended a.len
          findChild k r (len - a.len) expected mode

/-- The loop of `atom_tree`, mp4/read/mod.rs 163-186: the atoms and the 1-based index of the
last one called `upTo`. -/
def treeLoop : Nat → Rd → Nat → Bytes → Mode → Nat → Nat → List Info → Except Err (Nat × List Info × Rd)
  | 0, _, _, _, _, _, _, _ => .error .diverge
  | k + 1, r, len, upTo, mode, found, i, buf =>
    if len ≤ 8 then .ok (found, buf, r)
    else do
      let (a, r) ← readInfo r len mode
      match a with
      | none => .ok (found, buf, r)
      | some a =>
        let r ← skipAtom r a.extended a.len
        match a.ident with
        | .fourcc id =>
          treeLoop k r (len - a.len) upTo mode (if id = upTo then i + 1 else found) (i + 1) (buf ++ [a])
        | .freeform _ _ => treeLoop k r (len - a.len) upTo mode found i buf

/-- `atom_tree`, mp4/read/mod.rs 154-190. -/
def atomTree (r : Rd) (len : Nat) (upTo : Bytes) (mode : Mode) : Except Err (Nat × List Info × Rd) := do
  let (found, buf, r) ← treeLoop (len + 1) r len upTo mode 0 0 []
  .ok (found - 1, buf, r)

/-- `meta_is_full`, mp4/read/mod.rs 192-221. -/
def metaIsFull (r : Rd) : Except Err (Bool × Rd) := do
  let (_, r) ← r.take 4
  let (id, r) ← r.take 4
  if id = ascii "hdlr" ∨ id = ascii "ilst" ∨ id = ascii "mhdr" ∨ id = ascii "ctry" ∨ id = ascii "lang" then
    .ok (false, r.back 8)
  else .ok (true, r.back 4)

/-- `verify_mp4`, mp4/read/mod.rs 19-48: the major brand. -/
def verifyMp4 (r : Rd) (mode : Mode) : Except Err (Str × Rd) := do
  let (a, r) ← r.next mode
  match a with
  | none => .error .unsupported
  | some a =>
    if a.ident ≠ .fourcc (ascii "ftyp") then .error .unsupported
    else if a.len < 12 then .error .notEnough
    else
      let (b, r) ← r.take 4
      match utf8Decode b with
      | .ok s => .ok (s, r.skip (a.len - 12))
      | .error _ => .error .parse

end Lofty.Mp4
