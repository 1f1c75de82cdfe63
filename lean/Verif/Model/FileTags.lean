import Verif.Model.Aac
import Verif.Model.Mpeg
import Verif.Model.Ape
import Verif.Model.Id3v1
import Verif.Model.Id3v2File
import Verif.Model.Id3v2Tag
/-!
# Reading the tags around the audio

`lofty/src/mpeg/read.rs`, `lofty/src/aac/read.rs`, `lofty/src/ape/read.rs`, `lofty/src/wavpack/read.rs`, `lofty/src/musepack/read.rs`: the files
that have tags in front of and behind the audio.  A file is the list of its bytes, the position of the reader a number;
seeking behind the end of a file is allowed, seeking in front of its start is an error.
-/
namespace Lofty.FileTags

/-- The parts of `ParseOptions` (config/parse_options.rs 9-16) used here, and the depth to which chapters are nested. -/
structure Opts where
  readTags : Bool
  readProps : Bool
  junk : Nat
  id3 : Id3v2.ParseOpts
  depth : Nat

/-- `Id3v2Tag`, id3/v2/tag.rs 118-122. -/
structure Id3Tag where
  version : Id3v2.Version
  flags : Id3v2.Flags
  frames : List Id3v2.Frame

/-- `parse_id3v2`, id3/v2/read.rs 13-54, on a reader at the content of the tag (145-148: version and flags are kept).
`header.size - header.extended_size` does not underflow (header.rs 175-179). -/
def parseId3 (o : Opts) (h : Id3v2.Header) (content : Bytes) : Except Err Id3Tag := do
  let frames ← Id3v2.parseTag o.id3 h.version h.flags.unsynchronisation o.depth (content.take (h.size - h.extendedSize))
  .ok ⟨h.version, h.flags, frames⟩

/-! ## The end of the file -/

/-- `Ape.readItems` (ape/tag/read.rs 74-104) with the position behind the last item. -/
def readItemsAt (cover : Bool) (f : Bytes) : Nat → Nat → Nat → List Ape.Item → Except Err (List Ape.Item × Nat)
  | 0, _, pos, acc => .ok (acc, pos)
  | n + 1, rem, pos, acc =>
    if rem < 11 then .ok (acc, pos)
    else do
      let (size, r) ← readLE 4 (f.drop pos)
      if size > rem then .error .sizeMismatch
      else do
        let (flags, r) ← readLE 4 r
        let (kb, r) ← Ape.readKey r
        let key ← Text.utf8Decode kb
        if Picture.apePictureTypes.contains key && !cover then
          readItemsAt cover f n (rem - 4) (pos + 8 + kb.length + 1 + size) acc
        else do
          let (i, _) ← Ape.parseItem r key flags size
          readItemsAt cover f n (rem - 4) (pos + 8 + kb.length + 1 + size) (Ape.insert acc i)

/-- `read_ape_tag_with_header`, ape/tag/read.rs 20-110: the tag and the position, 32 bytes behind the last item. -/
def readApeWith (o : Opts) (f : Bytes) (h : Ape.Header) (pos : Nat) : Except Err (Ape.Tag × Nat) := do
  let (items, p) ← readItemsAt o.id3.readCover f h.count h.size pos []
  .ok (⟨false, items⟩, p + 32)

/-- `read_ape_tag`, ape/tag/read.rs 113-132, from position `pos`: the tag, its header, and the position afterwards. -/
def readApe (o : Opts) (f : Bytes) (pos : Nat) (footer : Bool) : Except Err (Option Ape.Tag × Option Ape.Header × Nat) := do
  let p ← readAt f pos 8
  if p ≠ Ape.preamble then .ok (none, none, pos + 8)
  else do
    let (h, next) ← Ape.readHeader f (pos + 8) footer
    if o.readTags then do
      let (t, stop) ← readApeWith o f h next
      .ok (some t, some h, stop)
    else .ok (none, some h, next)

/-- What is found at the end of a file. -/
structure Tail where
  hasV1 : Bool
  v1 : Option Id3v1.Tag
  ape : Option Ape.Tag
  header : Option Ape.Header
  pos : Nat

/-- The search for ID3v1, Lyrics3v2 and APE tags at the end: mpeg/read.rs 155-172, ape/read.rs 110-148, wavpack/read.rs
24-57, musepack/read.rs 56-98.  `find_lyrics3v2` (id3/mod.rs 75-105) compares eight bytes with the nine of `LYRICS200`, so
it never finds anything, but fails if there are not fifteen bytes in front of the position. -/
def tail (o : Opts) (f : Bytes) : Except Err Tail := do
  let (found, v1, q) ← Id3v1.find (o.id3.mode = .strict) o.readTags f
  if q < 15 then .error .eof
  else if q < 32 then .error .eof
  else do
    let (t, h, p) ← readApe o f (q - 32) true
    .ok ⟨found, v1, t, h, p⟩

/-! ## MPEG -/

/-- The tags in front of the audio. -/
structure Front where
  id3v2 : Option Id3Tag
  ape : Option Ape.Tag

/-- The frames of a further ID3v2 tag are inserted into the first, mpeg/read.rs 52-59. -/
def addFrames (t : Id3Tag) (fs : List Id3v2.Frame) : Id3Tag :=
  { t with frames := fs.foldl (fun l f => (Id3v2.insert l f).2) t.frames }

/-- The search for an ID3v2 tag in the junk in front of the first frame at `off`, mpeg/read.rs 113-146. -/
def junkTag (o : Opts) (f : Bytes) (off : Nat) (st : Front) : Except Err Front :=
  if st.id3v2.isNone ∧ o.id3.mode ≠ .strict ∧ 0 < off then do
    let (r, _) ← Id3v2.find f 0 o.readTags (some (min off o.junk))
    match r with
    | some (h, some content) => do
      let t ← parseId3 o h content
      .ok { st with id3v2 := some t }
    | _ => .ok st
  else .ok st

/-- The loop of `read_from`, mpeg/read.rs 36-153, from position `pos`: the tags, and the first frame with its position. -/
def front (o : Opts) (f : Bytes) : Nat → Nat → Front → Except Err (Front × Option (Mpeg.Header × Nat))
  | 0, _, _ => .error .diverge
  | n + 1, pos, st =>
    match readAt f pos 4 with
    | .error _ => .ok (st, none)
    | .ok b =>
      if b.take 3 = ascii "ID3" then
        match Id3v2.parseHeader f pos with
        | .error (e, _) => .error e
        | .ok (h, p) =>
          let skip := fun q => if h.flags.footer then q + 10 else q
          if o.readTags then do
            let t ← parseId3 o h (f.drop p)
            let q := p + min (h.size - h.extendedSize) (f.length - p)
            match st.id3v2 with
            | some old => front o f n q { st with id3v2 := some (addFrames old t.frames) }
            | none => front o f n (skip q) { st with id3v2 := some t }
          else front o f n (skip (p + h.size)) st
      else if b = ascii "APET" then do
        let r ← readAt f (pos + 4) 4
        if r = ascii "AGEX" then do
          let (h, next) ← Ape.readHeader f (pos + 8) false
          if o.readTags then do
            let (t, stop) ← readApeWith o f h next
            front o f n stop { st with ape := some t }
          else front o f n (next + h.size) st
        else .error .parse
      else do
        let r ← Mpeg.findNext f (f.length + 1) pos
        match r with
        | none => .ok (st, none)
        | some (h, off) => do
          let st ← junkTag o f off st
          .ok (st, some (h, off))

/-- `MpegFile`, mpeg/mod.rs 21-33. -/
structure MpegFile where
  id3v2 : Option Id3Tag
  id3v1 : Option Id3v1.Tag
  ape : Option Ape.Tag
  props : Option Mpeg.Props

/-- The properties, mpeg/read.rs 191-222. -/
def mpegProps (f : Bytes) (first : Option (Mpeg.Header × Nat)) (last : Nat) : Except Err Mpeg.Props :=
  match first with
  | none => .error .parse
  | some (h, off) =>
    if h.sampleRate = 0 then .error .parse
    else do
      let b ← readAt f (off + h.dataStart) 32
      let v ← Mpeg.Vbr.read b
      Mpeg.readProperties f h off last v

/-- mpeg/read.rs 168-188: the APE tag of the file and the end of the audio. -/
def mpegEnd (t : Tail) (fromFront : Option Ape.Tag) : Except Err (Option Ape.Tag × Nat) :=
  match t.header with
  | some h => if t.pos < h.size then .error .sizeMismatch else .ok (t.ape, t.pos - h.size)
  | none => .ok (fromFront, t.pos + 24)

/-- `read_from`, mpeg/read.rs 17-225.  Zero bytes in front are skipped (29-32). -/
def readMpeg (o : Opts) (f : Bytes) : Except Err MpegFile := do
  let pad := f.length - (f.dropWhile (· = 0)).length
  if pad = f.length then .error .eof
  else do
    let (st, first) ← front o f (f.length + 1) pad ⟨none, none⟩
    let t ← tail o f
    let (ape, last) ← mpegEnd t st.ape
    if o.readProps then do
      let p ← mpegProps f first last
      .ok ⟨st.id3v2, t.v1, ape, some p⟩
    else .ok ⟨st.id3v2, t.v1, ape, none⟩

/-! ## Monkey's Audio, WavPack, Musepack -/

/-- The tags of such a file, and the size of what is left, from which the properties are computed (they are not modelled
here). -/
structure TagsOf where
  id3v2 : Option Id3Tag
  id3v1 : Option Id3v1.Tag
  ape : Option Ape.Tag
  stream : Nat

/-- A `checked_sub` of `u64`, with `SizeMismatchError`. -/
def checkedSub (a b : Nat) : Except Err Nat := if a < b then .error .sizeMismatch else .ok (a - b)

/-- `-=` of `u64`; underflow panics in checked builds. -/
def subU64 (a b : Nat) : Except Err Nat := if a < b then .error .panic else .ok (a - b)

/-- The subtraction of the ID3v1 tag. -/
def withoutV1 (t : Tail) (stream : Nat) : Except Err Nat := if t.hasV1 then checkedSub stream 128 else .ok stream

/-- The content of an ID3v2 tag that was found. -/
def contentOf (o : Opts) : Option (Id3v2.Header × Option Bytes) → Except Err (Option Id3Tag)
  | some (h, some c) => (parseId3 o h c).map some
  | _ => .ok none

/-- The loop of `read_from`, ape/read.rs 60-108: the header is read only once, so that a leading APE tag is searched for
again behind itself. -/
def macLoop (o : Opts) (f header : Bytes) : Nat → Nat → Nat → Option Ape.Tag → Except Err (Option Ape.Tag × Nat)
  | 0, _, _, _ => .error .diverge
  | n + 1, pos, stream, ape =>
    if header = ascii "MAC " then .ok (ape, stream)
    else if header = ascii "APET" then do
      let r ← readAt f pos 4
      if r ≠ ascii "AGEX" then .error .parse
      else do
        let (h, next) ← Ape.readHeader f (pos + 4) false
        let stream ← checkedSub stream h.size
        if o.readTags then do
          let (t, stop) ← readApeWith o f h next
          macLoop o f header n stop stream (some t)
        else macLoop o f header n next stream ape
    else .error .parse

/-- The subtraction of the ID3v2 tag, ape/read.rs 45-50. -/
def withoutV2 (r : Option (Id3v2.Header × Option Bytes)) (stream : Nat) : Except Err Nat :=
  match r with
  | some (h, _) => checkedSub stream h.fullTagSize
  | none => .ok stream

/-- `read_from`, ape/read.rs 15-153, up to the properties. -/
def readMac (o : Opts) (f : Bytes) : Except Err TagsOf := do
  let (r, p) ← Id3v2.find f 0 o.readTags none
  let stream ← withoutV2 r f.length
  let id3v2 ← contentOf o r
  let header ← readAt f p 4
  let (ape, stream) ← macLoop o f header (f.length + 1) (p + 4) stream none
  let t ← tail o f
  let stream ← withoutV1 t stream
  match t.header with
  | some h => do
    let stream ← subU64 stream h.size
    .ok ⟨id3v2, t.v1, t.ape, stream⟩
  | none => .ok ⟨id3v2, t.v1, ape, stream⟩

/-- `read_from`, wavpack/read.rs 10-57, up to the properties. -/
def readWavPack (o : Opts) (f : Bytes) : Except Err TagsOf := do
  let t ← tail o f
  let stream ← withoutV1 t f.length
  match t.header with
  | some h => do
    let stream ← subU64 stream h.size
    .ok ⟨none, t.v1, t.ape, stream⟩
  | none => .ok ⟨none, t.v1, none, stream⟩

/-- The subtraction of the ID3v2 tag, musepack/read.rs 37-45: only if its content was read. -/
def withoutContent (r : Option (Id3v2.Header × Option Bytes)) (stream : Nat) : Except Err Nat :=
  match r with
  | some (h, some _) => checkedSub stream h.fullTagSize
  | _ => .ok stream

/-- `read_from`, musepack/read.rs 14-124, up to the properties (the four bytes behind the ID3v2 tag tell the version of
the stream). -/
def readMpc (o : Opts) (f : Bytes) : Except Err TagsOf := do
  let (r, p) ← Id3v2.find f 0 o.readTags none
  let stream ← withoutContent r f.length
  let id3v2 ← contentOf o r
  let t ← tail o f
  let stream ← withoutV1 t stream
  let stream ← (match t.header with
    | some h => if t.pos < h.size then .error .sizeMismatch else checkedSub stream h.size
    | none => .ok stream)
  let _ ← readAt f p 4
  .ok ⟨id3v2, t.v1, t.ape, stream⟩

/-! ## AAC -/

/-- What is known at the end of the loop. -/
structure AacFront where
  id3v2 : Option Id3Tag
  stream : Nat
  first : Option (Aac.Header × Nat)

/-- The loop of `read_from`, aac/read.rs 42-108.  If no frame is found, the reader is at the end of the file and the
loop ends.  If tags are not to be read, their content is not skipped; of the tag only its size is taken off the size of the
stream, not the ten bytes of its header. -/
def aacFront (o : Opts) (f : Bytes) : Nat → Nat → Nat → Option Id3Tag → Except Err AacFront
  | 0, _, _, _ => .error .diverge
  | n + 1, pos, stream, tag =>
    match readAt f pos 4 with
    | .error _ => .ok ⟨tag, stream, none⟩
    | .ok b =>
      if b.take 3 = ascii "ID3" then
        match Id3v2.parseHeader f pos with
        | .error (e, _) => .error e
        | .ok (h, p) => do
          let stream ← checkedSub stream h.size
          if o.readTags then do
            let t ← parseId3 o h (f.drop p)
            let q := p + min (h.size - h.extendedSize) (f.length - p)
            match tag with
            | some old => aacFront o f n q stream (some (addFrames old t.frames))
            | none =>
              if h.flags.footer then do
                let stream ← checkedSub stream 10
                aacFront o f n (q + 10) stream (some t)
              else aacFront o f n q stream (some t)
          else if h.flags.footer then do
            let stream ← checkedSub stream 10
            aacFront o f n (p + 10) stream tag
          else aacFront o f n p stream tag
      else do
        let first ← Aac.findNext f (f.length + 1) pos
        .ok ⟨tag, stream, first⟩

/-- `AacFile`, aac/mod.rs 23-29. -/
structure AacFile where
  id3v2 : Option Id3Tag
  id3v1 : Option Id3v1.Tag
  props : Option Aac.Props

/-- `read_from`, aac/read.rs 16-156. -/
def readAac (o : Opts) (f : Bytes) : Except Err AacFile := do
  let pad := f.length - (f.dropWhile (· = 0)).length
  if pad = f.length then .error .eof
  else do
    let st ← aacFront o f (f.length + 1) pad f.length none
    let (found, v1, _) ← Id3v1.find (o.id3.mode = .strict) o.readTags f
    let stream ← (if found then checkedSub st.stream 128 else .ok st.stream)
    if o.readProps then
      match st.first with
      | none => .error .parse
      | some (h, fin) => do
        let p ← Aac.readProperties f (o.id3.mode = .strict) h fin stream (f.length + 1)
        .ok ⟨st.id3v2, v1, some p⟩
    else .ok ⟨st.id3v2, v1, none⟩

/-! ## Saving -/

/-- `write_id3v2`, id3/v2/write/mod.rs 37-92, for files that are no IFF files, with `create_tag` (95-192): no frames, no
tag. -/
def saveId3v2 (fl : Id3v2.Flags) (w : Id3v2.WriteOpts) (padding : Option Nat) (junk : Nat) (fs : List Id3v2.Frame) (f : Bytes) :
    Except Err Bytes := do
  let new ← (if fs.isEmpty then .ok [] else do
    let body ← Id3v2.createItems w fs
    Id3v2.createTag fl w.v23 padding body)
  Id3v2.writeFile f junk new

end Lofty.FileTags
