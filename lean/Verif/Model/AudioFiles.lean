import Verif.Model.FileTags
import Verif.Model.WavPack
/-!
# WavPack and Monkey's Audio files with their properties

`lofty/src/wavpack/read.rs` and `lofty/src/ape/read.rs`, with what is computed from the sizes.
-/
namespace Lofty.FileTags

/-- `read_from`, wavpack/read.rs 10-68: `read_properties` starts at the start of the file (wavpack/properties.rs 134). -/
def readWavPackFile (o : Opts) (f : Bytes) : Except Err (TagsOf × Option WavPack.Props) := do
  let m ← readWavPack o f
  if o.readProps then do
    let p ← WavPack.readProperties (o.id3.mode = .strict) f m.stream
    .ok (m, some p)
  else .ok (m, none)

/-- `read_from`, ape/read.rs 15-170: the properties are read behind `MAC ` (line 67), where the search for an ID3v2 tag
ended; the length of the file is taken to be the position of the reader after the search for an APE tag (line 150).  These
two positions are computed again. -/
def readMacFile (o : Opts) (f : Bytes) : Except Err (TagsOf × Option Lossless.Mac) := do
  let m ← readMac o f
  if o.readProps then do
    let (_, p) ← Id3v2.find f 0 o.readTags none
    let t ← tail o f
    let q ← Lossless.mac (o.id3.mode = .strict) (f.drop (p + 4)) m.stream t.pos
    .ok (m, some q)
  else .ok (m, none)

end Lofty.FileTags
