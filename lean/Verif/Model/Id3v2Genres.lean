import Verif.Model.Id3v2Tag
import Verif.Model.Id3v1
/-!
# The genres of a `TCON` frame
-/
namespace Lofty.Id3v2

/-- `parse_genre` without `preserve_indexes`, id3/v2/tag.rs 302-319: a number of at most three bytes
is looked up in `GENRES`. -/
def genreName (g : Str) : Str :=
  if 3 < (utf8 g).length then g
  else
    match parseUInt (2 ^ 64) g with
    | some id => (Id3v1.genres[id]?).getD g
    | none =>
      if g = str "RX" then str "Remix"
      else if g = str "CR" then str "Cover"
      else g

/-- `GenresIter::new(value, false).collect()`, id3/v2/tag.rs 253-300; the fuel is the length of the text (every step
but the last takes at least one character, the last all that is left). -/
def genreList : Nat → Str → List Str
  | 0, _ => []
  | n + 1, s => if s.isEmpty then [] else genreName (genreStep s).1 :: genreList n (genreStep s).2

/-- `Id3v2Tag::genres`, id3/v2/tag.rs 217-223. -/
def genresOf (l : List Frame) : Option (List Str) :=
  match get l (.valid (str "TCON")) with
  | some (.leaf _ (.text t)) => some (genreList t.value.length t.value)
  | _ => none

end Lofty.Id3v2
