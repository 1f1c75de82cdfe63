import Verif.Model.Ilst
/-!
# Finding the tag of an MP4 file

`lofty/src/mp4/moov.rs` and `read_from` of `lofty/src/mp4/read/mod.rs`, without the
properties.
-/
namespace Lofty.Mp4Read
open Lofty.Text Lofty.Mp4 Lofty.Ilst

/-- `ParseOptions`, the fields used by `read_from`, and `GlobalOptions::allocation_limit`. -/
structure Config where
  opts : Opts
  tags : Bool
  properties : Bool
  limit : Nat

/-- `parse_ilst`, mp4/ilst/read.rs 20-173, on the reader: the content is read as a whole
(`try_vec!`, util/alloc.rs 43-75, rejects more than the limit). -/
def readIlst (cfg : Config) (r : Rd) (len : Nat) : Except Err (Tag × Rd) :=
  if len > cfg.limit then .error .alloc
  else do
    let (content, r) ← r.take len
    let t ← parse cfg.opts content
    .ok (t, r)

/-- The two loops of `ilst_from_udta`, moov.rs 103-118 and 137-152: the length of the first
atom called `name`; `read` counts the bytes passed, `fuel` bounds the iterations. -/
def seekAtom : Nat → Rd → Nat → Nat → Bytes → Mode → Except Err (Option Nat × Rd)
  | 0, _, _, _, _, _ => .error .diverge
  | k + 1, r, read, len, name, mode =>
    if read < len then do
      let (a, r) ← r.next mode
      match a with
      | none => .ok (none, r)
      | some a =>
        if a.ident = .fourcc name then .ok (some a.len, r)
        else
          let r ← skipAtom r a.extended a.len
          seekAtom k r (read + a.len) len name mode
    else .ok (none, r)

/-- `ilst_from_udta`, moov.rs 90-154. -/
def ilstFromUdta (cfg : Config) (r : Rd) (len : Nat) : Except Err (Option Tag × Rd) := do
  let (m, r) ← seekAtom (r.f.length + 1) r 8 len (ascii "meta") cfg.opts.mode
  match m with
  | none => .ok (none, r)
  | some size =>
    let (full, r) ← metaIsFull r
    let (i, r) ← seekAtom (r.f.length + 1) r (if full then 12 else 8) size (ascii "ilst") cfg.opts.mode
    match i with
    | none => .ok (none, r)
    | some size =>
      let (t, r) ← readIlst cfg r (size - 8)
      .ok (some t, r)

/-- What has been found in `moov`: the `mdia` atoms and the tag, moov.rs 12-17. -/
structure Moov where
  traks : List Info
  ilst : Option Tag
  deriving DecidableEq

/-- A further tag, moov.rs 66-77. -/
def Moov.add (m : Moov) (t : Option Tag) : Moov :=
  match t with
  | none => m
  | some t => match m.ilst with
    | none => { m with ilst := some t }
    | some old => { m with ilst := some (t.foldl insert old) }

/-- One atom of `moov`, moov.rs 51-84. -/
def moovStep (cfg : Config) (r : Rd) (a : Info) (m : Moov) : Except Err (Moov × Rd) :=
  if a.ident = .fourcc (ascii "trak") ∧ cfg.properties then do
    let (c, r) ← findChild (r.f.length + 1) r a.len (ascii "mdia") cfg.opts.mode
    match c with
    | none => .ok (m, r)
    | some c =>
      let r ← skipAtom r c.extended c.len
      .ok ({ m with traks := m.traks ++ [c] }, r)
  else if a.ident = .fourcc (ascii "udta") ∧ cfg.tags then do
    let (t, r) ← ilstFromUdta cfg r (a.len - 8)
    .ok (m.add t, r)
  else do
    let r ← skipAtom r a.extended a.len
    .ok (m, r)

/-- `Moov::parse`, moov.rs 40-88; an atom that cannot be read ends the loop. -/
def moovLoop (cfg : Config) : Nat → Rd → Moov → Except Err Moov
  | 0, _, _ => .error .diverge
  | k + 1, r, m =>
    match r.next cfg.opts.mode with
    | .error .panic => .error .panic
    | .error _ => .ok m
    | .ok (none, _) => .ok m
    | .ok (some a, r) => do
      let (m, r) ← moovStep cfg r a m
      moovLoop cfg k r m

/-- `Moov::find`, moov.rs 20-38. -/
def findMoov : Nat → Rd → Mode → Except Err (Info × Rd)
  | 0, _, _ => .error .diverge
  | k + 1, r, mode =>
    match r.next mode with
    | .error .panic => .error .panic
    | .error _ => .error .parse
    | .ok (none, _) => .error .parse
    | .ok (some a, r) =>
      if a.ident = .fourcc (ascii "moov") then .ok (a, r)
      else do
        let r ← skipAtom r a.extended a.len
        findMoov k r mode

/-- `read_from`, mp4/read/mod.rs 50-67 (and 81-85): the brand, the `mdia` atoms and the tag.
`read_properties` (mp4/properties.rs), which runs afterwards, is in Model/Mp4Props. -/
def readFrom (cfg : Config) (f : Bytes) : Except Err (Str × Moov) := do
  let (brand, r) ← verifyMp4 (Rd.new f) cfg.opts.mode
  let (a, r) ← findMoov (f.length + 1) r cfg.opts.mode
  let m ← moovLoop cfg (f.length + 1) (r.resetBounds (a.start + 8) (a.len - 8)) ⟨[], none⟩
  .ok (brand, m)

end Lofty.Mp4Read
