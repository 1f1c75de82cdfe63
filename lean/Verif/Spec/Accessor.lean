import Verif.Model.Accessor
import Verif.Spec.Timestamp
/-!
# What the accessors promise

tag/accessor.rs 34-141: a field that is set is the one got, a field that is removed is gone.  The fields are independent of
each other, so that after any calls the fields are those of the calls.
-/
namespace Lofty.Accessor

/-- The ten fields as a user sees them. -/
abbrev View := Field → Option Value

/-- What the getters give. -/
def view {T : Type} (A : Impl T) (t : T) : View := fun f => A.get f t

/-- The calls that change a tag. -/
inductive Op
  | set (f : Field) (v : Value)
  | remove (f : Field)
  deriving DecidableEq

/-- Their effect. -/
def Op.run {T : Type} (A : Impl T) (t : T) : Op → T
  | .set f v => A.set f v t
  | .remove f => A.remove f t

/-- Their effect on what is seen, as documented. -/
def Op.spec (s : View) : Op → View
  | .set f v => fun g => if g = f then some v else s g
  | .remove f => fun g => if g = f then none else s g

/-- The values that Rust allows: texts for texts, 32-bit numbers for numbers, and valid dates. -/
def Proper (f : Field) (v : Value) : Prop :=
  match f, v with
  | .artist, .text _ | .title, .text _ | .album, .text _ | .genre, .text _ | .comment, .text _ => True
  | .track, .number n | .trackTotal, .number n | .disk, .number n | .diskTotal, .number n => n < 2 ^ 32
  | .date, .date d => Timestamp.InRange d
  | _, _ => False

/-- Every call meets a condition, in the state the calls before it have led to according to the documentation. -/
def Follows (sp : View → Op → View) (P : View → Op → Prop) : View → List Op → Prop
  | _, [] => True
  | s, op :: ops => P s op ∧ Follows sp P (sp s op) ops

/-! ## Zero as no number -/

/-- Formats that store number and total together have 0 for a missing one. -/
def seen : Option Value → Option Value
  | some (.number 0) => none
  | v => v

/-- What the getters give, a 0 counting as no number. -/
def seenView {T : Type} (A : Impl T) (t : T) : View := fun f => seen (A.get f t)

/-- The documented effect, a 0 counting as no number. -/
def Op.seenSpec (s : View) (op : Op) : View := fun g => seen (op.spec s g)

/-- A number is only removed when there is no total. -/
def TotalGone (s : View) (op : Op) : Prop :=
  (op = .remove .track → s .trackTotal = none) ∧ (op = .remove .disk → s .diskTotal = none)

/-! ## What the formats have room for -/

/-- The values an ID3v1 tag has room for. -/
def Id3v1Fits (f : Field) (v : Value) : Prop :=
  match f, v with
  | .artist, .text _ | .title, .text _ | .album, .text _ => True
  | .genre, .text s => s ∈ Id3v1.genres
  | .comment, .text s => (utf8 s).length ≤ 28
  | .track, .number n => n < 256
  | .date, .date d => d = ⟨d.year, none, none, none, none, none⟩
  | _, _ => False

/-- The keys the accessors of Vorbis comments look at. -/
def vorbisNames : List Str :=
  [str "ARTIST", str "TITLE", str "ALBUM", str "GENRE", str "COMMENT", str "TRACKNUMBER", str "TRACKNUM", str "TRACKTOTAL",
   str "TOTALTRACKS", str "DISCNUMBER", str "DISCTOTAL", str "TOTALDISCS", str "DATE", str "YEAR"]

/-- None of them occurs twice, ignoring case. -/
def VorbisOnce (t : Vorbis.Tag) : Prop := ∀ k ∈ vorbisNames, (t.items.filter fun i => eqIc i.1 k).length ≤ 1

/-- No key of a field occurs twice, ignoring case. -/
def RiffOk (l : List Iff.Item) : Prop := ∀ f k, riffKey f = some k → (l.filter fun i => eqIc i.1 k).length ≤ 1

/-- A name of a genre that is not taken for a number or for a list of genres. -/
structure PlainGenre (s : Str) : Prop where
  nonempty : s ≠ []
  nul : '\x00' ∉ s
  paren : s.head? ≠ some '('
  number : parseUInt (2 ^ 64) s = none
  rx : s ≠ str "RX"
  cr : s ≠ str "CR"

/-- The values an ID3v2 tag gives back: texts without NUL, plain genres; no dates. -/
def Id3v2Fits (f : Field) (v : Value) : Prop :=
  match f, v with
  | .artist, .text s | .title, .text s | .album, .text s => '\x00' ∉ s
  | .genre, .text s => PlainGenre s
  | .comment, .text _ => True
  | .track, .number n | .trackTotal, .number n | .disk, .number n | .diskTotal, .number n => n < 2 ^ 32
  | _, _ => False

/-- The ids of the texts the accessors of ID3v2 look at. -/
def id3v2TextIds : List Id3v2.FrameId :=
  [.valid (str "TPE1"), .valid (str "TIT2"), .valid (str "TALB"), .valid (str "TCON"), .valid (str "TRCK"), .valid (str "TPOS")]

/-- At most one frame for each of them, which is a text frame; at most one date and one comment without description. -/
structure Id3v2Once (l : List Id3v2.Frame) : Prop where
  once : ∀ id ∈ id3v2TextIds, (l.filter fun f => decide (f.id = id)).length ≤ 1
  text : ∀ id ∈ id3v2TextIds, ∀ f ∈ l, f.id = id → ∃ fl x, f = .leaf fl (.text x)
  date : (l.filter fun f => decide (f.id = .valid (str "TDRC"))).length ≤ 1
  comment : (l.filter fun f => match f with
    | .leaf _ (.comment c) => decide (c.desc = [])
    | _ => false).length ≤ 1

end Lofty.Accessor
