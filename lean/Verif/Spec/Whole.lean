import Verif.Spec.Mp4Read
/-! # The MP4 files of C75 and C76 -/
namespace Lofty.Mp4Read
open Lofty.Text Lofty.Mp4 Lofty.Ilst Lofty.Mp4Write

/-- A file of well-formed atoms, smaller than 4 GiB, with at most one piece of user data in its `moov` and none in its tracks: with a tag,
without `ilst`, without `meta`, or without any user data. -/
inductive Layout : Bytes → Prop
  | silent {before moov after : Forest} {brand : Str} (h : FileOk before moov after brand) (hs : Silent moov) :
      Layout (whole before moov after).bytes
  | noMeta {before moov1 kids moov2 after : Forest} {brand : Str}
      (h : FileOk before (moov1.append (.node (ascii "udta") kids moov2)) after brand)
      (h1 : Silent moov1) (h2 : Silent moov2) (hk : ∀ i ∈ kids.top, i ≠ ascii "meta" ∧ Other i) :
      Layout (whole before (moov1.append (.node (ascii "udta") kids moov2)) after).bytes
  | noIlst {before moov1 udta1 udta2 moov2 after : Forest} {version : Bytes} {items1 : List (Bytes × Bytes)} {brand : Str}
      (h : FileOk before (moov1.append (.node (ascii "udta") (udta1.append (.leaf (ascii "meta") (version ++ boxes items1) udta2)) moov2)) after brand)
      (h1 : Silent moov1) (h2 : Silent moov2) (hu1 : ascii "meta" ∉ udta1.top) (hu2 : ∀ i ∈ udta2.top, Other i)
      (hv : MetaOk version (boxes items1)) (hi1 : ∀ x ∈ items1, IdOk x.1 ∧ x.1 ≠ ascii "ilst") :
      Layout (whole before (moov1.append (.node (ascii "udta") (udta1.append (.leaf (ascii "meta") (version ++ boxes items1) udta2)) moov2)) after).bytes
  | tagged {before moov1 udta1 udta2 moov2 after : Forest} {version content : Bytes} {items1 items2 : List (Bytes × Bytes)} {brand : Str}
      (h : FileOk before (moov1.append (.node (ascii "udta") (udta1.append (.leaf (ascii "meta")
        (version ++ (boxes items1 ++ (box (ascii "ilst") content ++ boxes items2))) udta2)) moov2)) after brand)
      (h1 : Silent moov1) (h2 : Silent moov2) (hu1 : ascii "meta" ∉ udta1.top) (hu2 : ∀ i ∈ udta2.top, Other i)
      (hv : MetaOk version (boxes items1 ++ (box (ascii "ilst") content ++ boxes items2)))
      (hi1 : ∀ x ∈ items1, IdOk x.1 ∧ x.1 ≠ ascii "ilst") (hi2 : ∀ x ∈ items2, IdOk x.1 ∧ Other x.1) :
      Layout (whole before (moov1.append (.node (ascii "udta") (udta1.append (.leaf (ascii "meta")
        (version ++ (boxes items1 ++ (box (ascii "ilst") content ++ boxes items2))) udta2)) moov2)) after).bytes

end Lofty.Mp4Read
