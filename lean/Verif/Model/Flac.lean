import Verif.Model.FlacMove
import Verif.Model.Id3v2Header
import Verif.Model.Vorbis
/-!
# FLAC metadata

`lofty/src/flac/block.rs`, `lofty/src/flac/read.rs`, `lofty/src/flac/write.rs`.
-/
namespace Lofty.Flac

/-- `Block`, flac/block.rs 20-26. -/
structure Block where
  ty : UInt8
  last : Bool
  content : Bytes
  start : Nat
  stop : Nat
  deriving DecidableEq

/-- `Block::MAX_CONTENT_SIZE`, flac/block.rs 30. -/
def maxContent : Nat := 16777215

/-- `Block::read`, flac/block.rs 32-64, from position `pos` of the file.  The reader ends at
`stop`: skipping does not check the end of the file. -/
def readBlock (f : Bytes) (pos : Nat) (want : UInt8 → Bool) : Except Err Block := do
  let hd ← readAt f pos 4
  let byte := hd.getD 0 0
  let ty := byte &&& 0x7F
  let size := fromBE (hd.drop 1)
  let content ← (if want ty then readAt f (pos + 4) size else .ok [])
  .ok ⟨ty, byte &&& 0x80 != 0, content, pos, pos + size + 4⟩

/-- `Block::write_to`, flac/block.rs 133-147. -/
def Block.write (b : Block) : Except Err Bytes :=
  if b.content.length > maxContent then .error .tooMuch
  else .ok (((b.ty &&& 0x7F) ||| (if b.last then 0x80 else 0)) :: (beBytes 3 b.content.length ++ b.content))

/-- `Block::new_padding`, flac/block.rs 70-80. -/
def newPadding (size : Nat) : Block := ⟨1, false, List.replicate (min size maxContent) 0, 0, 0⟩

/-- `Block::new_picture`, flac/block.rs 82-98. -/
def newPicture (p : Picture.Pic × Picture.Info) : Except Err Block :=
  let data := Picture.asFlacBytes p.1 p.2 false
  if data.length > maxContent then .error .tooMuch else .ok ⟨6, false, data, 0, 0⟩

/-- `Block::new_comments`, flac/block.rs 100-131: the comment packet without signature,
pictures and framing bit. -/
def newComments (vendor : Str) (items : List Vorbis.Item) : Except Err Block := do
  let c ← Vorbis.createPacket ⟨vendor, items, []⟩ [] false
  if c.length > maxContent then .error .tooMuch else .ok ⟨4, false, c, 0, 0⟩

/-- The picture loop of `encode_tag`, flac/write.rs 322-324. -/
def newPictures : List (Picture.Pic × Picture.Info) → Except Err (List Block)
  | [] => .ok []
  | p :: ps => do
    let b ← newPicture p
    let bs ← newPictures ps
    .ok (b :: bs)

/-- `encode_tag`, flac/write.rs 307-327. -/
def encodeTag (vendor : Str) (items : List Vorbis.Item) (pics : List (Picture.Pic × Picture.Info)) :
    Except Err (List Block) := do
  let ps ← newPictures pics
  match items with
  | [] => .ok ps
  | i :: is => do
    let c ← newComments vendor (i :: is)
    .ok (c :: ps)

/-- `verify_flac`, flac/read.rs 15-38. -/
def verify (f : Bytes) (pos : Nat) : Except Err Block := do
  let m ← readAt f pos 4
  if m ≠ ascii "fLaC" then .error .parse
  else do
    let b ← readBlock f (pos + 4) (fun _ => true)
    if b.ty ≠ 0 then .error .parse else .ok b

/-- The vendor string of an existing comment block, flac/write.rs 93-110. -/
def blockVendor (content : Bytes) : Except Err Str := do
  let (vl, r) ← readLE 4 content
  if vl > r.length then .error .sizeMismatch
  else do
    let (raw, _) ← readN vl r
    .ok ((fromUtf8 raw).getD [])

/-- What the block loop of `write_to_inner` accumulates. -/
structure Scan where
  blocks : List Block
  stop : Nat
  vendor : Str
  remove : Bool
  padding : Bool

/-- The block loop of `write_to_inner`, flac/write.rs 75-124.  Every step advances by at
least four bytes, so the length of the file is enough fuel. -/
def scan (f : Bytes) : Nat → Bool → Scan → Except Err Scan
  | _, true, s => .ok s
  | 0, false, _ => .error .diverge
  | fuel + 1, false, s => do
    let b ← readBlock f s.stop (fun ty => ty != 6)
    let s := { s with remove := s.remove || b.ty == 6, padding := s.padding || b.ty == 1 }
    if b.ty = 4 then do
      let v ← blockVendor b.content
      scan f fuel b.last { s with vendor := v, remove := true, stop := b.stop }
    else if b.ty = 6 then scan f fuel b.last { s with stop := b.stop }
    else scan f fuel b.last { s with blocks := s.blocks ++ [{ b with last := false }], stop := b.stop }

/-- Setting the last flag on the last block, flac/write.rs 165-167. -/
def markLast : List Block → List Block
  | [] => []
  | [b] => [{ b with last := true }]
  | b :: bs => b :: markLast bs

/-- Writing all blocks, flac/write.rs 169-177. -/
def writeBlocks : List Block → Except Err Bytes
  | [] => .ok []
  | b :: bs => do
    let x ← b.write
    let xs ← writeBlocks bs
    .ok (x ++ xs)

/-- The padding block, flac/write.rs 139 and 145-163. -/
def paddingBlocks (hasPadding : Bool) (preferred : Option Nat) (oldLen : Nat) (blocks : List Block) : List Block :=
  match preferred with
  | some p =>
    if hasPadding then []
    else
      let newLen := (blocks.map fun b => 4 + b.content.length).sum
      [newPadding (min (max (oldLen - newLen - 4) p) maxContent)]
  | none => []

/-- `write_to_inner`, flac/write.rs 48-182.  `preferred` is the preferred padding. -/
def writeTo (f : Bytes) (tag : Vorbis.Tag) (preferred : Option Nat) : Except Err Bytes := do
  let (_, pos) ← Id3v2.find f 0 false none
  let si ← verify f pos
  let s ← scan f (f.length + 1) si.last ⟨[{ si with last := false }], si.stop, tag.vendor, false, false⟩
  if !s.remove && tag.items.isEmpty && tag.pictures.isEmpty then .ok f
  else do
    let new ← encodeTag s.vendor tag.items tag.pictures
    let blocks := s.blocks ++ new
    let blocks := blocks ++ paddingBlocks s.padding preferred (s.stop - si.start) blocks
    let out ← writeBlocks (markLast blocks)
    replaceRange moveBufferSize (by decide) f si.start s.stop out

/-- The tags and pictures found by the reader. -/
structure Found where
  comments : Option Vorbis.Tag
  pictures : List (Picture.Pic × Picture.Info)
  deriving DecidableEq

/-- One block of the loop of `read_from`, flac/read.rs 89-138. -/
def readStep (o : Vorbis.Opts) (b : Block) (r : Found) : Except Err Found :=
  if b.content.isEmpty then .ok r
  else if b.ty = 4 then
    if r.comments.isSome && o.mode = .strict then .error .parse
    else do
      let (t, _) ← Vorbis.readComments o b.content b.content.length
      .ok { r with comments := some t }
  else if b.ty = 6 ∧ o.readCoverArt then
    match Picture.fromFlacBytes b.content false (o.mode = .strict) with
    | .ok p => .ok { r with pictures := r.pictures ++ [p] }
    | .error .panic => .error .panic
    | .error e => if o.mode = .strict then .error e else .ok r
  else .ok r

/-- The loop of `read_from`, flac/read.rs 81-139 (with `read_tags`). -/
def readLoop (o : Vorbis.Opts) (f : Bytes) : Nat → Bool → Nat → Found → Except Err Found
  | _, true, _, r => .ok r
  | 0, false, _, _ => .error .diverge
  | fuel + 1, false, pos, r => do
    let b ← readBlock f pos (fun ty => ty == 4 || (ty == 6 && o.readCoverArt))
    let r ← readStep o b r
    readLoop o f fuel b.last b.stop r

/-- `read_from`, flac/read.rs 40-162, with tags read, without the parsing of a
leading ID3v2 tag's frames and without the properties. -/
def readFrom (o : Vorbis.Opts) (f : Bytes) : Except Err Found := do
  let (_, pos) ← Id3v2.find f 0 true none
  let si ← verify f pos
  if si.stop - si.start < 18 then .error .sizeMismatch
  else readLoop o f (f.length + 1) si.last si.stop ⟨none, []⟩

end Lofty.Flac
