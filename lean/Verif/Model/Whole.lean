import Verif.Model.Opened
import Verif.Model.Mp4Props
import Verif.Model.OggProps
import Verif.Model.Mpc
/-!
# Opening files of any format, with tags and properties

`lofty/src/properties/file_properties.rs` and the `From<..Properties> for FileProperties` of every format, `lofty/src/musepack/read.rs`,
`lofty/src/flac/read.rs`, `lofty/src/ogg/read.rs`, `lofty_attr/src/lofty_file.rs` 517-556: what `lofty::read_from` returns, depending on
`read_tags` and `read_properties`.
-/
namespace Lofty.Opened
open Item Lofty.Save

/-- `read_tags` and `read_properties` of `ParseOptions`, config/parse_options.rs 9-16. -/
structure Wanted where
  tags : Bool
  props : Bool
  deriving DecidableEq

/-- `FileProperties`, properties/file_properties.rs 7-15; the duration in milliseconds. -/
structure Generic where
  duration : Nat
  overall : Option Nat
  audio : Option Nat
  sampleRate : Option Nat
  bitDepth : Option Nat
  channels : Option Nat
  mask : Option Nat
  deriving DecidableEq

/-- `From<WavProperties> for FileProperties`, iff/wav/properties.rs 45-67. -/
def Generic.ofWav (p : Lossless.Wav) : Generic :=
  ⟨p.duration, some p.overall, some p.audio, some p.sampleRate, some p.bitDepth, some p.channels, p.mask⟩

/-- `From<AiffProperties> for FileProperties`, iff/aiff/properties.rs 104-116: `as u8` keeps the last eight of sixteen bits. -/
def Generic.ofAiff (p : Lossless.Aiff) : Generic :=
  ⟨p.duration, some p.overall, some p.audio, some p.sampleRate, some (p.sampleSize % 256), some (p.channels % 256), none⟩

/-- `From<FlacProperties> for FileProperties`, flac/properties.rs 21-33. -/
def Generic.ofFlac (p : Lossless.Flac) : Generic :=
  ⟨p.duration, some p.overall, some p.audio, some p.sampleRate, some p.bitDepth, some p.channels, none⟩

/-- `From<ApeProperties> for FileProperties`, ape/properties.rs 23-35. -/
def Generic.ofMac (p : Lossless.Mac) : Generic :=
  ⟨p.duration, some p.overall, some p.audio, some p.sampleRate, some p.bitDepth, some p.channels, none⟩

/-- `From<WavPackProperties> for FileProperties`, wavpack/properties.rs 27-43: `as u8` keeps the last eight bits; a mask of zero is none. -/
def Generic.ofWavPack (p : WavPack.Props) : Generic :=
  ⟨p.duration, some p.overall, some p.audio, some p.sampleRate, some p.bitDepth, some (p.channels % 256), if p.mask = 0 then none else some p.mask⟩

/-- `From<OpusProperties> for FileProperties`, ogg/opus/properties.rs 27-43. -/
def Generic.ofOpus (p : OggProps.Opus) : Generic :=
  ⟨p.duration, some p.overall, some p.audio, some p.rate, none, some p.channels, if p.mask = 0 then none else some p.mask⟩

/-- `From<VorbisProperties> for FileProperties`, ogg/vorbis/properties.rs 27-39. -/
def Generic.ofVorbis (p : OggProps.Vorbis) : Generic :=
  ⟨p.duration, some p.overall, some p.audio, some p.rate, none, some p.channels, none⟩

/-- `From<SpeexProperties> for FileProperties`, ogg/speex/properties.rs 28-40. -/
def Generic.ofSpeex (p : OggProps.Speex) : Generic :=
  ⟨p.duration, some p.overall, some p.audio, some p.rate, none, some p.channels, none⟩

/-- `From<Mp4Properties> for FileProperties`, mp4/properties.rs 197-209. -/
def Generic.ofMp4 (p : Mp4Props.Props) : Generic :=
  ⟨p.duration, p.overall, p.audio, p.sampleRate, p.bitDepth, p.channels, none⟩

/-- The channel mask of a channel mode, mpeg/properties.rs 44-48. -/
def modeMask : Mpeg.ChannelMode → Option Nat
  | .singleChannel => some Channels.mono
  | .stereo => some Channels.stereo
  | .jointStereo => some Channels.stereo
  | .dualChannel => none

/-- `From<MpegProperties> for FileProperties`, mpeg/properties.rs 28-59; the channel mode is that of the first frame (138). -/
def Generic.ofMpeg (m : Mpeg.ChannelMode) (p : Mpeg.Props) : Generic :=
  ⟨p.duration, some p.overall, some p.audio, some p.sampleRate, none, some p.channels, modeMask m⟩

/-- `From<AACProperties> for FileProperties`, aac/properties.rs 87-99; sampling rate, channels and mask are those of the first frame
(108-119). -/
def Generic.ofAac (h : Aac.Header) (p : Aac.Props) : Generic :=
  ⟨p.duration, some p.bitrate, some p.bitrate, some h.sampleRate, none, some h.channels, Channels.fromMp4 h.channels⟩

/-- `MpcProperties`, musepack/mod.rs 20-27, with what Model/Mpc leaves out: the duration of version 7, the bit rate of the older ones. -/
inductive MpcProps
  | sv8 (p : Mpc.Sv8)
  | sv7 (p : Mpc.Sv7) (duration : Nat)
  | sv4 (p : Mpc.Sv4) (bitrate : Nat)
  deriving DecidableEq

/-- `From<MpcProperties> for FileProperties`, musepack/mod.rs 35-43, sv8/properties.rs 26-38, sv7/properties.rs 135-147,
sv4to6/properties.rs 27-39. -/
def Generic.ofMpc : MpcProps → Generic
  | .sv8 p => ⟨p.duration, some p.averageBitrate, some p.averageBitrate, some p.streamHeader.sampleRate, none, some p.streamHeader.channels, none⟩
  | .sv7 p d => ⟨d, some p.averageBitrate, some p.averageBitrate, some p.sampleFreq, none, some p.channels, none⟩
  | .sv4 p b => ⟨p.duration, some b, some b, some p.sampleRate, none, some p.channels, none⟩

/-- The duration of `MpcSv7Properties::read`, sv7/properties.rs 360-372. -/
def sv7Duration (p : Mpc.Sv7) : Nat :=
  if p.sampleFreq = 0 ∨ p.frameCount = 0 then 0
  else (((Float64.F64.ofNat p.frameCount).mul ((Float64.F64.ofNat Mpc.frameLength).div (.ofNat p.sampleFreq))).mul (.fin 1000)).toU 64

/-- The average bit rate of `MpcSv4to6Properties::read`, sv4to6/properties.rs 95, 136-138 and 148-159. -/
def sv4Bitrate (w0 : Nat) (p : Mpc.Sv4) (stream : Nat) : Nat :=
  if p.frameCount = 0 then (w0 >>> 23) &&& 0x1FF
  else (((((Float64.F64.ofNat stream).mul (.fin 8)).mul (.ofNat p.sampleRate)).div (.ofNat (Mpc.frameLength * p.frameCount - 576))).div
    (.ofNat Mpc.frameLength)).toU 32

/-- The properties of `read_from`, musepack/read.rs 101-143: `r` starts behind the ID3v2 tag. -/
def mpcProps (mode : Mode) (r : Bytes) (stream : Nat) : Except Err MpcProps :=
  if r.take 4 = ascii "MPCK" then (Mpc.sv8Read (r.drop 4) mode).map .sv8
  else if r.take 3 = ascii "MP+" then (Mpc.sv7Read (r.drop 3) stream).map fun p => .sv7 p (sv7Duration p)
  else do
    let p ← Mpc.sv4Read r mode
    let (w0, _) ← readLE 4 r
    .ok (.sv4 p (sv4Bitrate w0 p stream))

/-- The properties that are shown when none are read: `Default` of the properties of the format (for MPEG with `ChannelMode::default()`,
mpeg/header.rs 190-194; for Musepack musepack/mod.rs 29-33), converted to `FileProperties`. -/
def unread : FileType → Generic
  | .aac => ⟨0, some 0, some 0, some 0, none, some 0, none⟩
  | .aiff => .ofAiff ⟨0, 0, 0, 0, 0, 0, none⟩
  | .ape => .ofMac ⟨0, 0, 0, 0, 0, 0, 0⟩
  | .flac => .ofFlac ⟨0, 0, 0, 0, 0, 0, 0⟩
  | .mpeg => .ofMpeg .stereo ⟨0, 0, 0, 0, 0⟩
  | .opus => .ofOpus ⟨0, 0, 0, 0, 0, 0, 0, 0⟩
  | .vorbis => .ofVorbis ⟨0, 0, 0, 0, 0, 0, 0, 0, 0⟩
  | .wav => .ofWav ⟨.pcm, 0, 0, 0, 0, 0, 0, none⟩
  | .mp4 => .ofMp4 {}
  | .mpc => .ofMpc (.sv8 ⟨0, 0, {}, {}, none⟩)
  | .speex => .ofSpeex ⟨0, 0, 0, 0, 0, false, 0, 0, 0⟩
  | .wavPack => .ofWavPack {}

/-- The options, for the readers of files with tags around the audio. -/
def ReadOptions.with (o : ReadOptions) (w : Wanted) : FileTags.Opts := { o.files with readTags := w.tags, readProps := w.props }

/-- What is shown of an opened file: its tags and properties, `TaggedFile` (file/tagged_file.rs). -/
abbrev Shown := List Tag × Generic

/-- `MpegFile` as `TaggedFile`, lofty_attr/src/lofty_file.rs 517-556.  The first frame is looked for again to show its channel mode. -/
def wholeMpeg (o : ReadOptions) (w : Wanted) (f : Bytes) : Except Err Shown := do
  let m ← FileTags.readMpeg (o.with w) f
  let ts := tagsOf o.custom m.id3v2 m.id3v1 m.ape
  match m.props with
  | none => .ok (ts, unread .mpeg)
  | some p => do
    let (_, first) ← FileTags.front (o.with w) f (f.length + 1) (f.length - (f.dropWhile (· = 0)).length) ⟨none, none⟩
    match first with
    | none => .error .parse
    | some (h, _) => .ok (ts, .ofMpeg h.channelMode p)

/-- `AacFile` as `TaggedFile`, lofty_attr/src/lofty_file.rs 517-556.  The first frame is looked for again to show its sampling rate and
channels. -/
def wholeAac (o : ReadOptions) (w : Wanted) (f : Bytes) : Except Err Shown := do
  let m ← FileTags.readAac (o.with w) f
  let ts := tagsOf o.custom m.id3v2 m.id3v1 none
  match m.props with
  | none => .ok (ts, unread .aac)
  | some p => do
    let st ← FileTags.aacFront (o.with w) f (f.length + 1) (f.length - (f.dropWhile (· = 0)).length) f.length none
    match st.first with
    | none => .error .parse
    | some (h, _) => .ok (ts, .ofAac h p)

/-- `read_from`, musepack/read.rs 14-146, as `TaggedFile`.  Where the ID3v2 tag ends is computed again. -/
def wholeMpc (o : ReadOptions) (w : Wanted) (f : Bytes) : Except Err Shown := do
  let m ← FileTags.readMpc (o.with w) f
  let ts := tagsOf o.custom m.id3v2 m.id3v1 m.ape
  if w.props then do
    let (_, p) ← Id3v2.find f 0 w.tags none
    let q ← mpcProps o.mode (f.drop p) m.stream
    .ok (ts, .ofMpc q)
  else .ok (ts, unread .mpc)

/-- The loop of `read_from`, flac/read.rs 81-139, with the position of the reader.  The content of a block that is not wanted is skipped,
and a block without content is not looked at (91-93). -/
def flacLoop (o : Vorbis.Opts) (tags : Bool) (f : Bytes) : Nat → Bool → Nat → Flac.Found → Except Err (Flac.Found × Nat)
  | _, true, pos, r => .ok (r, pos)
  | 0, false, _, _ => .error .diverge
  | fuel + 1, false, pos, r => do
    let b ← Flac.readBlock f pos (fun ty => (ty == 4 && tags) || (ty == 6 && o.readCoverArt))
    let r ← Flac.readStep o b r
    flacLoop o tags f fuel b.last b.stop r

/-- The properties of `read_from`, flac/read.rs 145-159: `pos` is behind the last block. -/
def flacProps (f info : Bytes) (pos : Nat) : Except Err Generic :=
  if f.length < pos then .error .sizeMismatch else (Lossless.flac info (f.length - pos) f.length).map .ofFlac

/-- `read_from`, flac/read.rs 40-162, as `TaggedFile` (flac/mod.rs 113-147). -/
def wholeFlac (o : ReadOptions) (w : Wanted) (f : Bytes) : Except Err Shown := do
  let (r, pos) ← Id3v2.find f 0 w.tags none
  let id3v2 ← FileTags.contentOf (o.with w) r
  let si ← Flac.verify f pos
  if si.stop - si.start < 18 then .error .sizeMismatch
  else do
    let (m, stop) ← flacLoop o.comments w.tags f (f.length + 1) si.last si.stop ⟨none, []⟩
    let ts := flacTagsOf o.custom id3v2 m
    if w.props then do
      let p ← flacProps f si.content stop
      .ok (ts, p)
    else .ok (ts, unread .flac)

/-- The properties of the three kinds of OGG files, given the header packets: opus/properties.rs, vorbis/properties.rs,
speex/properties.rs. -/
def oggProps (fmt : OggWrite.Format) (h : OggProps.Headers) (f : Bytes) : Except Err Generic :=
  match fmt with
  | .opus => (OggProps.opusProperties h (OggProps.findLastPage f h.stop) f.length).map .ofOpus
  | .vorbis => (OggProps.vorbisProperties h (OggProps.findLastPage f h.stop) f.length).map .ofVorbis
  | .speex => (OggProps.speexProperties h (OggProps.findLastPage f h.stop) f.length).map .ofSpeex

/-- The file type of an OGG file. -/
def oggType : OggWrite.Format → FileType
  | .opus => .opus
  | .vorbis => .vorbis
  | .speex => .speex

/-- `read_from`, ogg/opus/mod.rs 29-45, ogg/vorbis/mod.rs 29-51, ogg/speex/mod.rs 28-44 with ogg/read.rs 10-53, as `TaggedFile`.  If tags
are not read, there is an empty one (`unwrap_or_default`). -/
def wholeOgg (o : ReadOptions) (w : Wanted) (f : Bytes) (fmt : OggWrite.Format) : Except Err Shown := do
  let h ← OggProps.readHeaders f fmt.head fmt.sig fmt.count w.tags
  let v ← (if w.tags then do
    let c := h.comment.drop fmt.sig.length
    let (t, _) ← Vorbis.readComments o.comments c c.length
    .ok t
    else .ok ⟨[], [], []⟩)
  let ts := [Convert.ofVorbis o.custom v]
  if w.props then do
    let p ← oggProps fmt h f
    .ok (ts, p)
  else .ok (ts, unread (oggType fmt))

/-- `Mp4File` as `TaggedFile`, lofty_attr/src/lofty_file.rs 517-556. -/
def wholeMp4 (o : ReadOptions) (w : Wanted) (f : Bytes) : Except Err Shown := do
  let (_, t, p) ← Mp4Props.readFile { o.mp4 with tags := w.tags, properties := w.props } f
  .ok ((t.map fun t => (Convert.ofIlst false t).tag).toList, p.elim (unread .mp4) .ofMp4)

/-- `Probe::read_inner`, probe.rs 462-497, for a known file type, with the options `read_tags` and `read_properties`. -/
def wholeAs (o : ReadOptions) (w : Wanted) (f : Bytes) : FileType → Except Err Shown
  | .aac => wholeAac o w f
  | .aiff => (IffFiles.readAiff (o.with w) f).map fun m => (aiffTagsOf o.custom m, m.props.elim (unread .aiff) .ofAiff)
  | .ape => (FileTags.readMacFile (o.with w) f).map fun m => (macTagsOf o.custom m.1, m.2.elim (unread .ape) .ofMac)
  | .flac => wholeFlac o w f
  | .mpeg => wholeMpeg o w f
  | .opus => wholeOgg o w f .opus
  | .vorbis => wholeOgg o w f .vorbis
  | .wav => (IffFiles.readWav (o.with w) f).map fun m => (wavTagsOf o.custom m, m.props.elim (unread .wav) .ofWav)
  | .mp4 => wholeMp4 o w f
  | .mpc => wholeMpc o w f
  | .speex => wholeOgg o w f .speex
  | .wavPack => (FileTags.readWavPackFile (o.with w) f).map fun m => (macTagsOf o.custom m.1, m.2.elim (unread .wavPack) .ofWavPack)

/-- `Probe::new(file).guess_file_type()?.options(o).read()` (probe.rs 462-497, 553-555): tags and properties. -/
def wholeFile (o : ReadOptions) (w : Wanted) (f : Bytes) : Except Err Shown := (verified f).bind (wholeAs o w f)

end Lofty.Opened
