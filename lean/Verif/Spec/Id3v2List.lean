import Verif.Model.Id3v2List
/-! Specifications for C26. -/
namespace Lofty.Id3v2

/-- The frames of which the library allows one per tag. -/
def onceIds : List String :=
  ["MCDI", "ETCO", "MLLT", "SYTC", "RVRB", "PCNT", "RBUF", "POSS", "OWNE", "SEEK", "ASPI"]

/-- No frame that may occur only once occurs twice. -/
def OncePerTag (l : List Frame) : Prop :=
  ∀ id : FrameId, id.asStr ∈ onceIds.map String.toList → (l.filter fun f => f.id = id).length ≤ 1

/-- When two frames count as the same: what the documentation of each frame type says identifies a
frame within a tag.  Other frames are the same only if all their fields and flags are. -/
def Same : Frame → Frame → Prop
  | .leaf fa a, .leaf fb b =>
    match a, b with
    | .text x, .text y => x.id = y.id
    | .url x, .url y => x.id = y.id
    | .userText x, .userText y => x.desc = y.desc
    | .userUrl x, .userUrl y => x.desc = y.desc
    | .comment x, .comment y => x.lang = y.lang ∧ x.desc = y.desc
    | .lyrics x, .lyrics y => x.lang = y.lang ∧ x.desc = y.desc
    | .pop x, .pop y => x.email = y.email
    | .rva x, .rva y => x.ident = y.ident
    | .ufid x, .ufid y => x.owner = y.owner
    | .picture _, .picture _ | .keyValue _, .keyValue _ | .owner _, .owner _ | .etco _, .etco _ | .priv _, .priv _
    | .time _, .time _ | .binary .., .binary .. => fa = fb ∧ a = b
    | _, _ => False
  | .chapter _ x _ _ _, .chapter _ y _ _ _ => x = y
  | .toc _ x _ _ _ _, .toc _ y _ _ _ _ => x = y
  | _, _ => False

/-- No two frames of the list, except pictures, are the same. -/
def Distinct (l : List Frame) : Prop := l.Pairwise fun a b => picTypeOf a = none → ¬ Same a b

/-- The operations of a frame list that change it. -/
inductive ListOp
  | insert (f : Frame)
  | remove (id : FrameId)
  | insertUserText (desc content : Str)
  | removeUserText (desc : Str)
  | insertPicture (p : Picture.Pic)
  | removePictureType (t : Picture.PicType)
  | retain (p : Frame → Bool)
  | takeFirst (id : FrameId)
  | clear

/-- Their effect. -/
def ListOp.run (l : List Frame) : ListOp → List Frame
  | .insert f => (Id3v2.insert l f).2
  | .remove id => (Id3v2.remove l id).2
  | .insertUserText d c => (Id3v2.insertUserText l d c).2
  | .removeUserText d => (Id3v2.removeUserText l d).2
  | .insertPicture p => (Id3v2.insertPicture l p).2
  | .removePictureType t => Id3v2.removePictureType l t
  | .retain p => Id3v2.retain l p
  | .takeFirst id => (takeFirstId l id).2
  | .clear => []

end Lofty.Id3v2
