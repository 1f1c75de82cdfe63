import Verif.Model.Picture
/-!
# Pictures of Vorbis comments and FLAC files, `lofty/src/ogg/picture_storage.rs`

The storage is the list behind `pictures_mut`.
-/
namespace Lofty.Picture

/-- `OggPictureStorage::pictures`, ogg/picture_storage.rs 64. -/
abbrev Store := List (Pic × Info)

/-- The picture that makes room for another, ogg/picture_storage.rs 27-34: what is removed and what remains. -/
def makeRoom (s : Store) (t : PicType) : Option (Pic × Info) × Store :=
  match t with
  | .icon | .otherIcon =>
    match s.findIdx? fun q => decide (q.1.ty = t) with
    | some k => (s[k]?, s.eraseIdx k)
    | none => (none, s)
  | _ => (none, s)

/-- The information on a picture, ogg/picture_storage.rs 36-39. -/
def infoOr (p : Pic) : Option Info → Except Err Info
  | some i => .ok i
  | none => infoOf p

/-- `OggPictureStorage::insert_picture`, ogg/picture_storage.rs 22-45: the storage afterwards (also if there is an error) and
what is returned. -/
def insertPicture (s : Store) (p : Pic) (i : Option Info) : Store × Except Err (Option (Pic × Info)) :=
  match infoOr p i with
  | .ok info => ((makeRoom s p.ty).2 ++ [(p, info)], .ok (makeRoom s p.ty).1)
  | .error e => ((makeRoom s p.ty).2, .error e)

/-- `OggPictureStorage::remove_picture_type`, ogg/picture_storage.rs 47-50. -/
def removeType (s : Store) (t : PicType) : Store := s.filter fun q => decide (q.1.ty ≠ t)

/-- `OggPictureStorage::set_picture`, ogg/picture_storage.rs 114-121. -/
def setPicture (s : Store) (n : Nat) (p : Pic) (i : Info) : Store :=
  if n ≥ s.length then (insertPicture s p (some i)).1 else s.set n (p, i)

/-- `OggPictureStorage::remove_picture`, ogg/picture_storage.rs 155-157: panics if there is none. -/
def removePicture (s : Store) (n : Nat) : Except Err ((Pic × Info) × Store) :=
  match s[n]? with
  | some q => .ok (q, s.eraseIdx n)
  | none => .error .panic

/-- `OggPictureStorage::remove_pictures`, ogg/picture_storage.rs 195-197. -/
def removePictures (s : Store) : Store × Store := (s, [])

end Lofty.Picture
