import Verif.Model.Limits
import Verif.Model.Opened
/-!
# The allocation limit for ID3v2 tags in front of a file

`find_id3v2` reads the content of a tag as a whole, into a buffer made by `try_vec!`.  The readers of Model/FileTags and Model/Opened
leave the limit out; here they are with it.
-/
namespace Lofty.Limits

/-- The part of `find_id3v2` after the junk search, id3/mod.rs 205-226, with the limit (209). -/
def findAt (limit : Nat) (f : Bytes) (pos : Nat) (read : Bool) : Except Err (Option (Id3v2.Header × Option Bytes) × Nat) :=
  match Id3v2.parseHeader f pos with
  | .error (_, p) => if p < 10 then .error .parse else .ok (none, p - 10)
  | .ok (h, p) =>
    let tail := fun (c : Option Bytes) (p : Nat) => (.ok (some (h, c), if h.flags.footer then p + 10 else p) : Except Err _)
    if read then do
      let _ ← tryVec limit h.size
      match Id3v2.need f p h.size with
      | .ok (c, p) => tail (some c) p
      | .error (e, _) => .error e
    else tail none (p + h.size)

/-- `find_id3v2`, id3/mod.rs 176-227. -/
def find (limit : Nat) (f : Bytes) (pos : Nat) (read : Bool) (junk : Option Nat) : Except Err (Option (Id3v2.Header × Option Bytes) × Nat) :=
  match junk with
  | none => findAt limit f pos read
  | some w =>
    match Id3v2.findInJunk ((f.drop pos).take w) with
    | none => .ok (none, pos)
    | some off => findAt limit f (pos + off) read

open FileTags in
/-- `read_from`, ape/read.rs 15-153, up to the properties; the limit for the items of APE tags is left out. -/
def readMac (limit : Nat) (o : Opts) (f : Bytes) : Except Err TagsOf := do
  let (r, p) ← find limit f 0 o.readTags none
  let stream ← withoutV2 r f.length
  let id3v2 ← contentOf o r
  let header ← readAt f p 4
  let (ape, stream) ← macLoop o f header (f.length + 1) (p + 4) stream none
  let t ← tail o f
  let stream ← withoutV1 t stream
  match t.header with
  | some h => do
    let stream ← subU64 stream h.size
    .ok ⟨id3v2, t.v1, t.ape, stream⟩
  | none => .ok ⟨id3v2, t.v1, ape, stream⟩

open FileTags in
/-- `read_from`, musepack/read.rs 14-124, up to the properties; the limit for the items of APE tags is left out. -/
def readMpc (limit : Nat) (o : Opts) (f : Bytes) : Except Err TagsOf := do
  let (r, p) ← find limit f 0 o.readTags none
  let stream ← withoutContent r f.length
  let id3v2 ← contentOf o r
  let t ← tail o f
  let stream ← withoutV1 t stream
  let stream ← (match t.header with
    | some h => if t.pos < h.size then .error .sizeMismatch else checkedSub stream h.size
    | none => .ok stream)
  let _ ← readAt f p 4
  .ok ⟨id3v2, t.v1, t.ape, stream⟩

open FileTags in
/-- The search for an ID3v2 tag in the junk in front of the first frame of an MPEG file, mpeg/read.rs 113-146. -/
def junkTag (limit : Nat) (o : Opts) (f : Bytes) (off : Nat) (st : Front) : Except Err Front :=
  if st.id3v2.isNone ∧ o.id3.mode ≠ .strict ∧ 0 < off then do
    let (r, _) ← find limit f 0 o.readTags (some (min off o.junk))
    match r with
    | some (h, some content) => do
      let t ← parseId3 o h content
      .ok { st with id3v2 := some t }
    | _ => .ok st
  else .ok st

/-- `read_from` of FLAC, flac/read.rs 40-162, with the limit for the ID3v2 tag in front (59-74); that for blocks cannot be reached by default. -/
def openFlac (limit : Nat) (o : Opened.ReadOptions) (f : Bytes) : Except Err (List Item.Tag) := do
  let (r, _) ← find limit f 0 true none
  let id3v2 ← FileTags.contentOf o.files r
  let m ← Flac.readFrom o.comments f
  .ok (Opened.flacTagsOf o.custom id3v2 m)

end Lofty.Limits
