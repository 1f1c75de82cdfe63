import Verif.Model.Ascii
import Verif.Model.Tag
import Verif.Model.Mpeg
import Verif.Model.Synchsafe
/-!
# File types, their detection and the tags they support (file/file_type.rs, probe.rs)

Custom file types and their resolvers are not modelled.
-/
namespace Lofty
open Item

/-- `FileType`, file/file_type.rs 46-79, without custom types. -/
inductive FileType
  | aac | aiff | ape | flac | mpeg | mp4 | mpc | opus | vorbis | speex | wav | wavPack
  deriving DecidableEq, Repr

namespace FileType

/-- `FileType::primary_tag_type`, file/file_type.rs 103-117. -/
def primaryTagType : FileType → TagType
  | .aac | .aiff | .mpeg | .wav => .id3v2
  | .ape | .mpc | .wavPack => .ape
  | .flac | .opus | .vorbis | .speex => .vorbisComments
  | .mp4 => .mp4Ilst

/-- The constants `SUPPORTED_FORMATS` generated by lofty_attr/src/lofty_tag.rs 86-88 from the attributes at
ape/tag/mod.rs 94, id3/v1/tag.rs 83, id3/v2/tag.rs 116, mp4/ilst/mod.rs 131, ogg/tag.rs 79, iff/wav/tag/mod.rs 62 and
iff/aiff/tag/mod.rs 67; the read-only formats are part of them (lofty_tag.rs 54-75). -/
def supportedFormats : TagType → List FileType
  | .ape => [.ape, .mpeg, .mpc, .wavPack]
  | .id3v1 => [.aac, .ape, .mpeg, .wavPack, .mpc]
  | .id3v2 => [.aac, .aiff, .mpeg, .wav, .ape, .flac, .mpc]
  | .mp4Ilst => [.mp4]
  | .vorbisComments => [.flac, .opus, .speex, .vorbis]
  | .riffInfo => [.wav]
  | .aiffText => [.aiff]

/-- The constants `READ_ONLY_FORMATS`, from the same attributes. -/
def readOnlyFormats : TagType → List FileType
  | .id3v1 => [.mpc]
  | .id3v2 => [.ape, .flac, .mpc]
  | _ => []

/-- `TagSupport`, tag/tag_type.rs 20-30. -/
inductive Support
  | unsupported | readOnly | readWrite
  deriving DecidableEq, Repr

/-- `TagSupport::is_readable`, tag/tag_type.rs 59-61. -/
def Support.readable : Support → Bool
  | .unsupported => false
  | _ => true

/-- `TagSupport::is_writable`, tag/tag_type.rs 93-95. -/
def Support.writable : Support → Bool
  | .readWrite => true
  | _ => false

/-- `FileType::tag_support`, file/file_type.rs 133-172. -/
def tagSupport (f : FileType) (t : TagType) : Support :=
  if (supportedFormats t).contains f then
    if (readOnlyFormats t).contains f then .readOnly else .readWrite
  else .unsupported

/-- `EXTENSIONS`, file/file_type.rs 40-44. -/
def extensions : List Str :=
  [str "aac", str "ape", str "aiff", str "aif", str "afc", str "aifc", str "mp3", str "mp2", str "mp1", str "wav",
   str "wv", str "opus", str "flac", str "ogg", str "mp4", str "m4a", str "m4b", str "m4p", str "m4r", str "m4v",
   str "3gp", str "mpc", str "mp+", str "mpp", str "spx"]

/-- The table of `FileType::from_ext`, file/file_type.rs 204-218. -/
def extensionTable : List (Str × FileType) :=
  [(str "aac", .aac), (str "ape", .ape), (str "aiff", .aiff), (str "aif", .aiff), (str "afc", .aiff), (str "aifc", .aiff),
   (str "mp3", .mpeg), (str "mp2", .mpeg), (str "mp1", .mpeg), (str "wav", .wav), (str "wave", .wav), (str "wv", .wavPack),
   (str "opus", .opus), (str "flac", .flac), (str "ogg", .vorbis), (str "mp4", .mp4), (str "m4a", .mp4), (str "m4b", .mp4),
   (str "m4p", .mp4), (str "m4r", .mp4), (str "m4v", .mp4), (str "3gp", .mp4), (str "mpc", .mpc), (str "mp+", .mpc),
   (str "mpp", .mpc), (str "spx", .speex)]

/-- `FileType::from_ext`, file/file_type.rs 184-219. -/
def fromExt (ext : Str) : Option FileType :=
  (extensionTable.find? fun e => e.1 == ext.map lowerChar).map (·.2)

/-- The difference between ADTS and MPEG frames, file/file_type.rs 346-350 and probe.rs 420-424: `b` is the byte behind
the first `FF`. -/
def adtsOrMpeg (b : UInt8) : FileType := if b &&& 0x10 > 0 ∧ b &&& 6 = 0 then .aac else .mpeg

/-- `buf.starts_with(p)`. -/
def startsWith (buf p : Bytes) : Bool := buf.take p.length == p

/-- The arms of `quick_type_guess` for every first byte, file/file_type.rs 370-372. -/
def guessOther (buf : Bytes) : Option FileType :=
  if buf.length ≥ 8 ∧ (buf.drop 4).take 4 = ascii "ftyp" then some .mp4
  else if startsWith buf (ascii "MPCK") ∨ startsWith buf (ascii "MP+") then some .mpc
  else none

/-- The match of `FileType::quick_type_guess`, file/file_type.rs 314-373, on the first byte `b0`; `b1` is the second. -/
def quickGuessBy (b0 b1 : UInt8) (buf : Bytes) : Except Err (Option FileType) :=
  if b0 = 77 ∧ startsWith buf (ascii "MAC") then .ok (some .ape)
  else if b0 = 255 ∧ buf.length ≥ 2 ∧ Mpeg.verifySync b0 (b1) then .ok (some (adtsOrMpeg (b1)))
  else if b0 = 70 ∧ buf.length ≥ 12 ∧ buf.take 4 = ascii "FORM" then
    .ok (if (buf.drop 8).take 4 = ascii "AIFF" ∨ (buf.drop 8).take 4 = ascii "AIFC" then some .aiff else none)
  else if b0 = 79 ∧ buf.length ≥ 36 ∧ buf.take 4 = ascii "OggS" then
    .ok (if (buf.drop 29).take 6 = ascii "vorbis" then some .vorbis
      else if (buf.drop 28).take 8 = ascii "OpusHead" then some .opus
      else if (buf.drop 28).take 8 = ascii "Speex   " then some .speex
      else none)
  else if b0 = 102 ∧ startsWith buf (ascii "fLaC") then .ok (some .flac)
  else if b0 = 82 ∧ buf.length ≥ 12 ∧ buf.take 4 = ascii "RIFF" then
    .ok (if (buf.drop 8).take 4 = ascii "WAVE" then some .wav else none)
  else if b0 = 119 ∧ buf.length ≥ 4 ∧ buf.take 4 = ascii "wvpk" then .ok (some .wavPack)
  else .ok (guessOther buf)

/-- `FileType::quick_type_guess`, file/file_type.rs 310-374; an empty buffer panics. -/
def quickGuess (buf : Bytes) : Except Err (Option FileType) :=
  match buf with
  | [] => .error .panic
  | b0 :: r => quickGuessBy b0 (r.headD 0) buf

/-- `FileTypeGuessResult`, file/file_type.rs 386-393. -/
inductive Guess
  | determined (t : FileType)
  | afterId3 (len : Nat)
  | afterJunk
  deriving DecidableEq, Repr

/-- The arms of `from_buffer_inner` without a determined type, file/file_type.rs 290-305. -/
def guessUndetermined (buf : Bytes) : Guess :=
  if buf.length ≥ 10 ∧ buf.take 3 = ascii "ID3" then
    .afterId3 (Synchsafe.unsynch32 (BitVec.ofNat 32 (fromBE ((buf.drop 6).take 4)))).toNat
  else .afterJunk

/-- `FileType::from_buffer_inner`, file/file_type.rs 276-308. -/
def fromBufferInner (buf : Bytes) : Except Err (Option Guess) :=
  if buf.isEmpty then .ok none
  else
    match quickGuess buf with
    | .error e => .error e
    | .ok (some t) => .ok (some (.determined t))
    | .ok none => .ok (some (guessUndetermined buf))

/-- `FileType::from_buffer`, file/file_type.rs 264-273. -/
def fromBuffer (buf : Bytes) : Except Err (Option FileType) :=
  match fromBufferInner buf with
  | .error e => .error e
  | .ok (some (.determined t)) => .ok (some t)
  | .ok _ => .ok none

end FileType

namespace Probe
open FileType

/-- `Probe::check_mpeg_or_aac`, probe.rs 402-425, with the reader at `pos`: the result and the new position. -/
def checkFrames (f : Bytes) (pos maxJunk : Nat) : Except Err (Option FileType × Nat) :=
  match Mpeg.searchSync ((f.drop pos).take maxJunk) with
  | none => .ok (none, pos + min maxJunk (f.length - pos))
  | some i =>
    -- two bytes behind the sync, back by two, and two bytes read again
    let p := pos + i + 2 - 2
    match readAt f p 2 with
    | .error e => .error e
    | .ok b => .ok (some (adtsOrMpeg (b.getD 1 0)), p + 2)

/-- The four bytes read behind an ID3v2 tag, probe.rs 364-369: zeros where the data ends. -/
def identAt (f : Bytes) (after : Nat) : Bytes :=
  let got := (f.drop after).take 4
  got ++ List.replicate (4 - got.length) 0

/-- The match on them, probe.rs 373-381. -/
def guessIdent (f ident : Bytes) (after maxJunk : Nat) : Except Err (Option FileType × Nat) :=
  if ident.take 3 = ascii "MAC" then .ok (some .ape, after)
  else if ident = ascii "fLaC" then .ok (some .flac, after)
  else if ident = ascii "MPCK" ∨ ident.take 3 = ascii "MP+" then .ok (some .mpc, after)
  else checkFrames f after maxJunk

/-- The part of `guess_inner` behind an ID3v2 tag, probe.rs 355-386: `start` is the position of the tag, `n` its size. -/
def guessAfterId3 (f : Bytes) (start n maxJunk : Nat) : Except Err (Option FileType × Nat) :=
  let after := start + (10 + n)
  match guessIdent f (identAt f after) after maxJunk with
  | .error e => .error e
  | .ok (t, _) => .ok (t, start)

/-- `Probe::guess_inner`, probe.rs 322-399, without custom resolvers: the type and the final position of the reader. -/
def guessInner (f : Bytes) (start maxJunk : Nat) : Except Err (Option FileType × Nat) :=
  let buf := (f.drop start).take 36
  match fromBufferInner buf with
  | .error e => .error e
  | .ok none => .ok (none, start)
  | .ok (some (.determined t)) => .ok (some t, start)
  | .ok (some (.afterId3 n)) => guessAfterId3 f start n maxJunk
  | .ok (some .afterJunk) =>
    match checkFrames f start maxJunk with
    | .error e => .error e
    | .ok (t, _) => .ok (t, start)

/-- `Probe`, probe.rs 82-86: the content and position of the reader, the junk limit of the options if they are set and
the file type. -/
structure State where
  content : Bytes
  pos : Nat
  maxJunk : Option Nat
  type : Option FileType
  deriving DecidableEq

/-- `Probe::guess_file_type`, probe.rs 306-319. -/
def guessFileType (p : State) : Except Err State :=
  match guessInner p.content p.pos (p.maxJunk.getD 1024) with
  | .error e => .error e
  | .ok (t, pos) => .ok { p with pos := pos, type := t.or p.type }

end Probe

namespace File
open FileType

/-- `TaggedFile`, file/tagged_file.rs 321-328; `α` stands for the audio properties, `none` for the default ones. -/
structure Tagged (α : Type) where
  type : FileType
  properties : Option α
  tags : List Tag

variable {α : Type}

/-- `TaggedFile::tag`, file/tagged_file.rs 385-387. -/
def Tagged.tag (f : Tagged α) (t : TagType) : Option Tag := f.tags.find? fun x => x.type = t

/-- `TaggedFileExt::primary_tag`, file/tagged_file.rs 164-166. -/
def Tagged.primaryTag (f : Tagged α) : Option Tag := f.tag f.type.primaryTagType

/-- `TaggedFile::contains_tag_type`, file/tagged_file.rs 467-469. -/
def Tagged.containsType (f : Tagged α) (t : TagType) : Bool := f.tags.any fun x => x.type = t

/-- `TaggedFile::remove`, file/tagged_file.rs 410-415. -/
def Tagged.remove (f : Tagged α) (t : TagType) : Option Tag × Tagged α :=
  match f.tags.findIdx? fun x => x.type = t with
  | none => (none, f)
  | some i => (f.tags[i]?, { f with tags := f.tags.eraseIdx i })

/-- `TaggedFile::insert_tag`, file/tagged_file.rs 397-408. -/
def Tagged.insertTag (f : Tagged α) (tag : Tag) : Option Tag × Tagged α :=
  if (f.type.tagSupport tag.type).readable then
    let (ret, f) := f.remove tag.type
    (ret, { f with tags := f.tags ++ [tag] })
  else (none, f)

/-- `TaggedFile::clear`, file/tagged_file.rs 417-419. -/
def Tagged.clear (f : Tagged α) : Tagged α := { f with tags := [] }

/-- `TaggedFile::change_file_type`, file/tagged_file.rs 368-373. -/
def Tagged.changeFileType (f : Tagged α) (t : FileType) : Tagged α :=
  ⟨t, none, f.tags.filter fun x => (t.tagSupport x.type).readable⟩

/-- A change through `TaggedFile::tag_mut`, file/tagged_file.rs 389-391: the first tag of the type is replaced. -/
def modifyFirst (t : TagType) (g : Tag → Tag) : List Tag → List Tag
  | [] => []
  | x :: r => if x.type = t then g x :: r else x :: modifyFirst t g r

/-- `tag_mut` with a change of the tag. -/
def Tagged.modify (f : Tagged α) (t : TagType) (g : Tag → Tag) : Tagged α := { f with tags := modifyFirst t g f.tags }

/-- The tags `TaggedFile::save_to` writes, in order, file/tagged_file.rs 439-457. -/
def Tagged.saved (f : Tagged α) : List Tag := f.tags.filter fun x => (f.type.tagSupport x.type).writable

/-- `BoundTaggedFile::save` after the tags are written, file/tagged_file.rs 613-618: empty tags are dropped
(`Tag::is_empty`, tag/mod.rs 675-677). -/
def Tagged.afterSave (f : Tagged α) : Tagged α := { f with tags := f.tags.filter fun x => x.len ≠ 0 }

end File
end Lofty
