import Verif.Model.Id3v2Header
/-!
# Writing an ID3v2 tag to a file

`lofty/src/id3/v2/write/mod.rs`, for the formats that are no IFF files.
-/
namespace Lofty.Id3v2

/-- `write_id3v2`, id3/v2/write/mod.rs 76-92: the file afterwards.  `new` is the tag made by
`create_tag` (empty if there are no frames, 102-105), `junk` the option `max_junk_bytes`.
Everything in front of the position where the search ended is replaced. -/
def writeFile (f : Bytes) (junk : Nat) (new : Bytes) : Except Err Bytes := do
  let (_, p) ← find f 0 false (some junk)
  .ok (new ++ f.drop p)

end Lofty.Id3v2
