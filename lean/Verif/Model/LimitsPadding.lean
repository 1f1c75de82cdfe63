import Verif.Model.Limits
import Verif.Model.FileTags
/-!
# The allocation limit for the padding of ID3v2 tags
-/
namespace Lofty.LimitsPadding
open Lofty.Limits

/-- `create_tag`, id3/v2/write/mod.rs 95-192, with the limit for the padding (189): it is the last thing that is written, and there is
none with a footer (172). -/
def createTag (limit : Nat) (fl : Id3v2.Flags) (v23 : Bool) (padding : Option Nat) (body : Bytes) : Except Err Bytes := do
  let t ← Id3v2.createTag fl v23 padding body
  match padding with
  | some n => do
    let _ ← (if fl.footer then .ok () else tryVec limit n)
    .ok t
  | none => .ok t

/-- `write_id3v2`, id3/v2/write/mod.rs 37-93, for files with the tag in front: the tag is made (54) before the file is touched (90). -/
def save (limit : Nat) (fl : Id3v2.Flags) (w : Id3v2.WriteOpts) (padding : Option Nat) (junk : Nat) (fs : List Id3v2.Frame) (f : Bytes) : Except Err Bytes := do
  let new ← (if fs.isEmpty then .ok [] else do
    let body ← Id3v2.createItems w fs
    createTag limit fl w.v23 padding body)
  Id3v2.writeFile f junk new

end Lofty.LimitsPadding
