import Verif.Model.Whole
import Verif.Spec.Ilst
import Verif.Spec.Mp4Read
/-! # Specification of C77 -/
namespace Lofty.Covers
open Lofty.Id3v2

/-- Is the frame a picture, or what became of one that is encrypted? -/
def IsCover : Frame → Bool
  | .leaf _ (.picture _) => true
  | .leaf _ (.binary id _) => id = .valid (str "APIC")
  | _ => false

/-- A frame without what is inside a chapter. -/
def shape : Frame → Frame
  | .chapter fl id t o _ => .chapter fl id t o []
  | .toc fl id t o e _ => .toc fl id t o e []
  | f => f

/-- The second list has the frames of the first, in some order, but not the pictures. -/
def Uncovered (l l' : List Frame) : Prop := (l'.map shape).Perm ((l.filter fun f => !IsCover f).map shape)

/-- The frames from which the date of an ID3v2.3 tag is put together. -/
def dates : List FrameId := [.valid (str "TDRC"), .valid (str "TDAT"), .valid (str "TIME")]

/-- The frames that are no pictures and, if `d`, have nothing to do with the date. -/
def Rest (d : Bool) (f : Frame) : Bool := !IsCover f && !(d && dates.contains f.id)

/-- The second list has no pictures, and the other frames of the first, in some order; if `d`, this does not say anything about dates. -/
def Sans (d : Bool) (l l' : List Frame) : Prop :=
  ((l'.filter (Rest d)).map shape).Perm ((l.filter (Rest d)).map shape) ∧ ∀ f ∈ l', IsCover f = false

open Lofty.Item in
/-- Generic tags: the second has no pictures and the items of the first, in some order; if `d`, this does not say anything about the recording
date. -/
def BareTag (d : Bool) (t t' : Item.Tag) : Prop :=
  t'.type = t.type ∧ t'.pictures = [] ∧
    (t'.items.filter fun i => !(d && decide (i.key = .RecordingDate))).Perm (t.items.filter fun i => !(d && decide (i.key = .RecordingDate)))

/-- Two lists of the same length whose elements are related one by one. -/
inductive Both {α β : Type} (R : α → β → Prop) : List α → List β → Prop
  | nil : Both R [] []
  | cons {a : α} {b : β} {l : List α} {l' : List β} : R a b → Both R l l' → Both R (a :: l) (b :: l')

open Lofty.Item in
/-- A tag of Vorbis comments that has nothing but pictures and an empty vendor. -/
def OnlyPictures (t : Item.Tag) : Prop := t.type = .vorbisComments ∧ t.items = [TagItem.new .EncoderSoftware (.text [])]

open Lofty.Mp4 Lofty.Ilst Lofty.Mp4Write Lofty.Mp4Read in
/-- A file of well-formed atoms, smaller than 4 GiB, with one piece of user data in its `moov` and none in its tracks; the tag in it holds the
atoms `t`. -/
inductive Mp4With (t : Ilst.Tag) : Bytes → Prop
  | mk {before moov1 udta1 udta2 moov2 after : Forest} {version : Bytes} {items1 items2 : List (Bytes × Bytes)} {brand : Str}
      (h : FileOk before (moov1.append (.node (ascii "udta") (udta1.append (.leaf (ascii "meta")
        (version ++ (boxes items1 ++ (box (ascii "ilst") (t.flatMap atomBox) ++ boxes items2))) udta2)) moov2)) after brand)
      (h1 : Silent moov1) (h2 : Silent moov2) (hu1 : ascii "meta" ∉ udta1.top) (hu2 : ∀ i ∈ udta2.top, Other i)
      (hv : MetaOk version (boxes items1 ++ (box (ascii "ilst") (t.flatMap atomBox) ++ boxes items2)))
      (hi1 : ∀ x ∈ items1, IdOk x.1 ∧ x.1 ≠ ascii "ilst") (hi2 : ∀ x ∈ items2, IdOk x.1 ∧ Other x.1) (hl : (t.flatMap atomBox).length < 2 ^ 32) :
      Mp4With t (whole before (moov1.append (.node (ascii "udta") (udta1.append (.leaf (ascii "meta")
        (version ++ (boxes items1 ++ (box (ascii "ilst") (t.flatMap atomBox) ++ boxes items2))) udta2)) moov2)) after).bytes

end Lofty.Covers
