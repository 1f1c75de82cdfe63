import Verif.Model.Ilst
/-!
# Writing an `ilst` to an MP4 file

`lofty/src/mp4/write.rs` and `write_to` of `lofty/src/mp4/ilst/write.rs`.  The file is read
into memory, edited there, and written back as a whole, so a failed call leaves it as it
was.
-/
namespace Lofty.Mp4Write
open Lofty.Mp4 Lofty.Ilst

/-- `ContextualAtom`, mp4/write.rs 15-19. -/
inductive CAtom
  | mk (info : Info) (children : List CAtom)

/-- The fields of `ContextualAtom`. -/
def CAtom.info : CAtom → Info
  | .mk i _ => i

/-- The fields of `ContextualAtom`. -/
def CAtom.children : CAtom → List CAtom
  | .mk _ c => c

/-- `IMPORTANT_CONTAINERS`, mp4/write.rs 24-32. -/
def containers : List Bytes :=
  [ascii "moov", ascii "udta", ascii "moof", ascii "trak", ascii "mdia", ascii "minf", ascii "stbl"]

/-- Is the atom one of the containers? -/
def important : Ident → Bool
  | .fourcc b => decide (b ∈ containers)
  | .freeform _ _ => false

/-- `ContextualAtom::read` called until it returns nothing, mp4/write.rs 34-86 and 140-144:
the atoms, what is left of the length, and the reader.  `meta` is no container, so the check
for a full `meta` (66-68) never takes place.  `fuel` bounds the recursion. -/
def readAtoms (mode : Mode) : Nat → Rd → Nat → Except Err (List CAtom × Nat × Rd)
  | 0, _, _ => .error .diverge
  | k + 1, r, len =>
    if len = 0 then .ok ([], 0, r)
    else do
      let (a, r) ← readInfo r len mode
      match a with
      | none => .ok ([], len, r)
      | some a =>
        if important a.ident then
          if a.len < a.headerSize then .error .panic
          else do
            let (kids, rest, r) ← readAtoms mode k r (a.len - a.headerSize)
            if rest ≠ 0 then .error .parse
            else
              let (l, rest, r) ← readAtoms mode k r (len - a.len)
              .ok (.mk a kids :: l, rest, r)
        else do
          let r ← skipAtom r a.extended a.len
          let (l, rest, r) ← readAtoms mode k r (len - a.len)
          .ok (.mk a [] :: l, rest, r)

mutual
/-- `find_all_children(_, true)` for one child, mp4/write.rs 280-318: depth first, a match is
not searched further. -/
def CAtom.findAll (id : Bytes) : CAtom → List Info
  | .mk i kids => match i.ident with
    | .fourcc b => if b = id then [i] else findAll id kids
    | .freeform _ _ => []
/-- `find_all_children(_, true)`, mp4/write.rs 92-103 and 280-318. -/
def findAll (id : Bytes) : List CAtom → List Info
  | [] => []
  | c :: cs => c.findAll id ++ findAll id cs
end

/-- `find_contextual_atom`, mp4/write.rs 154-158. -/
def findTop (atoms : List CAtom) (id : Bytes) : Option CAtom :=
  atoms.find? fun a => decide (a.info.ident = .fourcc id)

/-- `splice`, mp4/write.rs 196-202; a range outside of the buffer panics. -/
def splice (f : Bytes) (a b : Nat) (x : Bytes) : Except Err Bytes :=
  if a ≤ b ∧ b ≤ f.length then .ok (f.take a ++ x ++ f.drop b) else .error .panic

/-- `seek` to the start of an atom and `write_atom_size`, mp4/write.rs 209-244. -/
def setSize (f : Bytes) (start size : Nat) (ext : Bool) : Bytes :=
  (Wr.size ⟨f, start⟩ start size ext).buf

/-- `write_free_atom`, mp4/ilst/write.rs 426-434; a size below 8 makes the subtraction
overflow. -/
def freeAtom (size : Nat) : Except Err Bytes :=
  if size < 8 then .error .panic
  else .ok (beBytes 4 size ++ ascii "free" ++ List.replicate (size - 8) 1)

/-- Reads `n` bytes of the buffer at `p`. -/
def readBytes (f : Bytes) (p n : Nat) : Except Err Bytes :=
  if p + n ≤ f.length then .ok ((f.drop p).take n) else .error .eof

/-- `(i64::from(offset) + difference) as u32` (or `as u64`), mp4/ilst/write.rs 468 and 492. -/
def shifted (width : Nat) (v : Nat) (d : Int) : Nat := ((v + d) % (2 ^ (8 * width) : Nat)).toNat

/-- The loop over the entries of an offset table, mp4/ilst/write.rs 462-474 (4 bytes) and
486-499 (8 bytes). -/
def shiftEntries (width : Nat) (d : Int) (off : Nat) : Nat → Nat → Bytes → Except Err Bytes
  | 0, _, f => .ok f
  | k + 1, p, f => do
    let b ← readBytes f p width
    let v := fromBE b
    shiftEntries width d off k (p + width)
      (if v < off then f else writeAt f p (beBytes width (shifted width v d)))

/-- The body of the loop over `stco`, mp4/ilst/write.rs 447-475. -/
def shiftStco (d : Int) (off : Nat) (f : Bytes) (a : Info) : Except Err Bytes :=
  if a.extended then .error .parse
  else do
    let c ← readBytes f (a.start + 12) 4
    shiftEntries 4 d off (fromBE c) (a.start + 16) f

/-- The body of the loop over `co64`, mp4/ilst/write.rs 478-500: the position is 8 bytes
behind the table's count. -/
def shiftCo64 (d : Int) (off : Nat) (f : Bytes) (a : Info) : Except Err Bytes := do
  let c ← readBytes f (a.start + 20) 4
  shiftEntries 8 d off (fromBE c) (a.start + 24) f

/-- The body of the loop over `tfhd`, mp4/ilst/write.rs 509-540. -/
def shiftTfhd (d : Int) (off : Nat) (f : Bytes) (a : Info) : Except Err Bytes :=
  if a.extended then .error .parse
  else do
    let fl ← readBytes f (a.start + 9) 3
    if fromBE fl % 2 = 0 then .ok f
    else
      let b ← readBytes f (a.start + 12) 8
      .ok (if fromBE b < off then f else writeAt f (a.start + 12) (beBytes 8 (shifted 8 (fromBE b) d)))

/-- `update_offsets`, mp4/ilst/write.rs 436-544. -/
def updateOffsets (atoms moov : List CAtom) (d : Int) (off : Nat) (f : Bytes) : Except Err Bytes := do
  let f ← (findAll (ascii "stco") moov).foldlM (shiftStco d off) f
  let f ← (findAll (ascii "co64") moov).foldlM (shiftCo64 d off) f
  match findTop atoms (ascii "moof") with
  | none => .ok f
  | some moof => (findAll (ascii "tfhd") moof.children).foldlM (shiftTfhd d off) f

/-- `create_meta`, mp4/ilst/write.rs 573-600, on an empty buffer. -/
def createMeta (ilst : Bytes) : Bytes :=
  beBytes 4 (45 + ilst.length) ++ ascii "meta" ++ [0, 0, 0, 0] ++
    (beBytes 4 33 ++ ascii "hdlr" ++ [0, 0, 0, 0, 0, 0, 0, 0] ++ ascii "mdirappl" ++ List.replicate 9 0) ++ ilst

/-- `create_udta`, mp4/ilst/write.rs 546-571. -/
def createUdta (ilst : Bytes) : Bytes :=
  beBytes 4 (8 + (createMeta ilst).length) ++ ascii "udta" ++ createMeta ilst

/-- `pad_atom`, mp4/ilst/write.rs 373-424: the replacement, the difference and the padding. -/
def padAtom (rep : Bytes) (d : Int) (pad : Option Nat) : Except Err (Bytes × Int × Nat) :=
  if 0 < d then .ok (rep, d, 0)
  else if 8 ≤ d.natAbs then do
    let fr ← freeAtom (d.natAbs % 2 ^ 32)
    .ok (rep ++ fr, 0, d.natAbs)
  else match pad with
    | none => .ok (rep, d, 0)
    | some p => do
      let fr ← freeAtom p
      .ok (rep ++ fr, d + p, p)

/-- Is this atom padding? -/
def isFree (a : Info) : Bool := decide (a.ident = .fourcc (ascii "free"))

/-- What the new `ilst` takes the place of: a change in place, or the replacement of a range,
mp4/ilst/write.rs 247-327. -/
inductive Plan
  | nothing
  | inPlace (start remaining : Nat)
  | range (start stop : Nat) (replacement : Bytes)

/-- mp4/ilst/write.rs 247-327.  `tree` and `idx` come from `atom_tree`. -/
def plan (m : Info) (idx : Nat) (tree : List Info) (ilst : Bytes) : Except Err Plan :=
  match tree[idx]? with
  | none =>
    if tree ≠ [] then .error .panic
    else if ilst = [] then .ok .nothing
    else .ok (.range (m.start + m.len) (m.start + m.len) ilst)
  | some e =>
    if ilst = [] then .ok (.range e.start (e.start + e.len) [])
    else
      let before := (tree.take idx).reverse.takeWhile isFree
      let after := (tree.drop (idx + 1)).takeWhile isFree
      let start := (before.getLast?.map Info.start).getD e.start
      let available := e.len + (before.map Info.len).sum + (after.map Info.len).sum
      if available > ilst.length + 8 then
        if available - ilst.length ≥ 2 ^ 32 then .error .tooMuch
        else .ok (.inPlace start (available - ilst.length))
      else .ok (.range start (e.start + e.len) ilst)

/-- The padding of a replacement, mp4/ilst/write.rs 330-342: none for a removed tag or one of
the same size. -/
def padChanged (rep : Bytes) (d : Int) (pad : Option Nat) : Except Err (Bytes × Int × Nat) :=
  if rep ≠ [] ∧ d ≠ 0 then padAtom rep d pad else .ok (rep, d, 0)

/-- `update_offsets` if something moves, mp4/ilst/write.rs 359-363. -/
def moveOffsets (atoms moov : List CAtom) (d : Int) (off : Nat) (f : Bytes) : Except Err Bytes :=
  if d ≠ 0 then updateOffsets atoms moov d off f else .ok f

/-- The replacement of a range, mp4/ilst/write.rs 331-370: the new buffer and the new size of
`udta`. -/
def replaceRange (atoms moov : List CAtom) (m u : Info) (f : Bytes) (start stop : Nat) (rep : Bytes)
    (pad : Option Nat) : Except Err (Bytes × Nat) :=
  if stop < start ∨ m.len < stop - start then .error .panic
  else do
    let size := m.len - (stop - start) + rep.length
    let d : Int := size - m.len
    let (rep, d, p) ← padChanged rep d pad
    let size := size + p
    if size ≠ m.len ∧ u.len < m.len then .error .panic
    else
      let usize := if size ≠ m.len then u.len - m.len + size else u.len
      let f := if size ≠ m.len then setSize (setSize f m.start size m.extended) u.start usize u.extended else f
      let f ← moveOffsets atoms moov d start f
      let f ← splice f start stop rep
      .ok (f, usize)

/-- `save_to_existing`, mp4/ilst/write.rs 217-371. -/
def saveToExisting (atoms moov : List CAtom) (m u : Info) (f : Bytes) (r : Rd) (ilst : Bytes)
    (mode : Mode) (pad : Option Nat) : Except Err (Bytes × Nat) := do
  let (idx, tree, _) ← atomTree r (m.len - 8) (ascii "ilst") mode
  let p ← plan m idx tree ilst
  match p with
  | .nothing => .ok (f, u.len)
  | .inPlace start remaining => do
    let fr ← freeAtom remaining
    .ok (writeAt f start (ilst ++ fr), u.len)
  | .range start stop rep => replaceRange atoms moov m u f start stop rep pad

/-- The end of `write_to`, mp4/ilst/write.rs 188-214. -/
def finish (moov : Info) (f : Bytes) (oldUdta newUdta : Nat) : Except Err Bytes :=
  if moov.len < oldUdta then .error .panic
  else .ok (setSize f moov.start (moov.len - oldUdta + newUdta) moov.extended)

/-- The part of `write_to` after `moov` was found, mp4/ilst/write.rs 60-214. -/
def writeMoov (f : Bytes) (atoms : List CAtom) (moov : CAtom) (ilst : Bytes) (mode : Mode)
    (pad : Option Nat) : Except Err Bytes := do
  let data := moov.info.start + moov.info.headerSize
  let (udta, r) ← findChild (f.length + 1) (Rd.at f data) moov.info.len (ascii "udta") mode
  match udta with
  | none =>
    if ilst = [] then .ok f
    else
      let f ← splice f (moov.info.start + 8) (moov.info.start + 8) (createUdta ilst)
      finish moov.info f 0 (createUdta ilst).length
  | some u => do
    let (m, r) ← findChild (f.length + 1) r u.len (ascii "meta") mode
    match m with
    | none =>
      if ilst = [] then .ok f
      else
        let size := u.len + (createMeta ilst).length
        let f ← splice (setSize f u.start size u.extended) (u.start + 8) (u.start + 8) (createMeta ilst)
        finish moov.info f u.len size
    | some m => do
      let (_, r) ← metaIsFull r
      let (f, usize) ← saveToExisting atoms moov.children m u f r ilst mode pad
      finish moov.info f u.len usize

/-- `write_to`, mp4/ilst/write.rs 31-215: the new contents of the file. -/
def writeTo (f : Bytes) (t : Tag) (mode : Mode) (pad : Option Nat) : Except Err Bytes := do
  let _ ← verifyMp4 (Rd.new f) mode
  let (atoms, _, _) ← readAtoms mode (f.length + 1) (Rd.new f) f.length
  match findTop atoms (ascii "moov") with
  | none => .error .parse
  | some moov => do
    let ilst ← build t
    writeMoov f atoms moov ilst mode pad

end Lofty.Mp4Write
