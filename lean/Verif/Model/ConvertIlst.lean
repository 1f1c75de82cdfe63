import Verif.Model.Convert
import Verif.Model.Ilst
/-!
# Conversion between the generic tag and MP4 `ilst` tags

`SplitTag`/`MergeTag`/`From` in mp4/ilst/mod.rs 680-913, and the identifiers of generic keys
in mp4/atom_info.rs 76-106.  `preserve` is the global option `preserve_format_specific_items`.
-/
namespace Lofty.Convert
open Lofty.Item (Tag TagItem ItemValue ItemKey TagType fromKey mapKey)
open Lofty.Mp4 (Ident)
open Lofty.Ilst (Atom Data Storage covr trkn disk rtng)

/-- `TryFrom<&ItemKey> for AtomIdent`, mp4/atom_info.rs 76-106. -/
def identOfKey (k : ItemKey) : Option Ident :=
  (mapKey .mp4Ilst k).bind fun s =>
    if s.take 4 = str "----" then
      match Pairs.splitOn (· = ':') s with
      | _ :: mean :: name :: _ => some (.freeform mean name)
      | _ => none
    else if s.length = 4 then some (.fourcc (s.map fun c => UInt8.ofNat c.toNat))
    else none

/-- The key an identifier is looked up with, mp4/ilst/mod.rs 689-694. -/
def keyStr : Ident → Str
  | .fourcc b => b.map fun x => Char.ofNat x.toNat
  | .freeform mean name => str "----:" ++ (mean ++ ':' :: name)

/-- What becomes of an atom: it stays, its data become items of a key, or it holds the
pictures, mp4/ilst/mod.rs 696-707. -/
inductive Mapping
  | kept
  | mapped (k : ItemKey)
  | picture
  deriving DecidableEq

/-- mp4/ilst/mod.rs 703-707. -/
def mappingOf (i : Ident) : Mapping :=
  match fromKey .mp4Ilst (keyStr i) with
  | some k => .mapped k
  | none => if i = covr then .picture else .kept

/-- An item of a mapped atom is pushed; nothing happens for `covr`. -/
def pushMapped (t : Tag) (m : Mapping) (s : Str) : Tag :=
  match m with
  | .mapped k => t.pushUnchecked (TagItem.new k (.text s))
  | _ => t

/-- A picture of `covr` is pushed; nothing happens for other atoms. -/
def pushCover (t : Tag) (m : Mapping) (p : Picture.Pic) : Tag :=
  match m with
  | .picture => t.pushPicture p
  | _ => t

/-- `tag.insert_text` of a number above zero, mp4/ilst/mod.rs 745-752. -/
def insertPositive (t : Tag) (k : ItemKey) (n : Nat) : Tag := if 0 < n then (t.insertText k (toDec n)).2 else t

/-- The keys of the pairs, mp4/ilst/mod.rs 736-743. -/
def pairOf (i : Ident) : Option (ItemKey × ItemKey) :=
  if i = trkn then some (.TrackNumber, .TrackTotal)
  else if i = disk then some (.DiscNumber, .DiscTotal)
  else none

/-- The closure over the values of an atom, mp4/ilst/mod.rs 712-759: whether the value is
retained, and the tag. -/
def splitData (i : Ident) (m : Mapping) (t : Tag) (d : Data) : Bool × Tag :=
  match d with
  | .utf8 s => (false, pushMapped t m s)
  | .utf16 s => (false, pushMapped t m s)
  | .bool b => (false, pushMapped t m (flagText b))
  | .picture p => (false, pushCover t m p)
  | .unknown code data =>
    if code = 0 ∧ 6 ≤ data.length then
      match pairOf i with
      | some (a, b) =>
        (false, insertPositive (insertPositive t a (fromBE ((data.drop 2).take 2))) b (fromBE ((data.drop 4).take 2)))
      | none => (true, t)
    else (true, t)
  | _ => (true, t)

/-- `retain_mut` over the values, mp4/ilst/atom.rs 37-48: the retained ones and the tag. -/
def splitValuesOf (i : Ident) (m : Mapping) : List Data → Tag → List Data × Tag
  | [], t => ([], t)
  | d :: l, t =>
    let (keep, t) := splitData i m t d
    let (r, t) := splitValuesOf i m l t
    (if keep then d :: r else r, t)

/-- The storage after `retain_mut`: it keeps its form, and an empty one is discarded. -/
def restore : Storage → List Data → Option Storage
  | _, [] => none
  | .single _, d :: _ => some (.single d)
  | .multiple _, l => some (.multiple l)

/-- The closure over the atoms, mp4/ilst/mod.rs 686-762: what is retained, and the tag. -/
def splitAtom (a : Atom) (t : Tag) : Option Atom × Tag :=
  match mappingOf a.ident with
  | .kept => (some a, t)
  | m =>
    let (l, t) := splitValuesOf a.ident m a.data.toList t
    ((restore a.data l).map fun s => { a with data := s }, t)

/-- `retain_mut` over the atoms. -/
def splitAtoms : Ilst.Tag → Tag → Ilst.Tag × Tag
  | [], t => ([], t)
  | a :: l, t =>
    let (x, t) := splitAtom a t
    let (r, t) := splitAtoms l t
    (x.toList ++ r, t)

/-- The advisory rating, mp4/ilst/mod.rs 764-767. -/
def splitRating (r : Ilst.Tag) (t : Tag) : Ilst.Tag × Tag :=
  match Ilst.rating r with
  | some n => ((Ilst.remove r rtng).2, (t.insertText .ParentalAdvisory (toDec n)).2)
  | none => (r, t)

/-- `split_tag` of `Ilst`, mp4/ilst/mod.rs 683-770: the remainder and the generic tag. -/
def splitIlst (a : Ilst.Tag) : Ilst.Tag × Tag :=
  let (r, t) := splitAtoms a (Tag.new .mp4Ilst)
  splitRating r t

/-- `convert_to_uint`, mp4/ilst/mod.rs 777-781. -/
def toUint (old : Option Nat) (s : Str) : Option Nat := (parseUInt (2 ^ 16) s).or old

/-- What `merge_tag` has gathered: the atoms and the two pairs, mp4/ilst/mod.rs 803-805. -/
structure Merge where
  atoms : Ilst.Tag
  tracks : Option Nat × Option Nat
  discs : Option Nat × Option Nat

/-- An atom with one value is pushed. -/
def Merge.push (m : Merge) (i : Ident) (d : Data) : Merge := { m with atoms := m.atoms ++ [⟨i, .single d⟩] }

/-- The body of the loop over the items for a key with an identifier and a text, mp4/ilst/mod.rs 815-857. -/
def mergeText (m : Merge) (k : ItemKey) (i : Ident) (s : Str) : Merge :=
  match k with
  | .TrackNumber => { m with tracks := (toUint m.tracks.1 s, m.tracks.2) }
  | .TrackTotal => { m with tracks := (m.tracks.1, toUint m.tracks.2 s) }
  | .DiscNumber => { m with discs := (toUint m.discs.1 s, m.discs.2) }
  | .DiscTotal => { m with discs := (m.discs.1, toUint m.discs.2 s) }
  | .FlagCompilation | .FlagPodcast =>
    match flagItem s with
    | some b => m.push i (.bool b)
    | none => m
  | .ParentalAdvisory =>
    match (parseUInt (2 ^ 8) s).bind Ilst.ratingOf with
    | some n => m.push i (.signed (Int32.ofNat n))
    | none => m
  | _ => m.push i (.utf8 s)

/-- The body of the loop over the items, mp4/ilst/mod.rs 807-859. -/
def mergeItem (m : Merge) (i : TagItem) : Merge :=
  match identOfKey i.key, i.value with
  | some id, .text s => mergeText m i.key id s
  | _, _ => m

/-- The pictures in one atom, mp4/ilst/mod.rs 861-882. -/
def coverAtom : List Picture.Pic → Ilst.Tag
  | [] => []
  | p :: l =>
    [⟨covr, l.foldl (fun s q => s.push (.picture { q with ty := .other })) (.single (.picture { p with ty := .other }))⟩]

/-- `create_int_pair`, mp4/ilst/mod.rs 783-800. -/
def intPair (i : Ident) (p : Option Nat × Option Nat) : Ilst.Tag :=
  match p with
  | (none, none) => []
  | (a, b) => [⟨i, .single (.unknown 0 ([0, 0] ++ beBytes 2 (a.getD 0) ++ beBytes 2 (b.getD 0) ++ [0, 0]))⟩]

/-- `merge_tag` of `Ilst`, mp4/ilst/mod.rs 776-888. -/
def mergeIlst (a : Ilst.Tag) (t : Tag) : Ilst.Tag :=
  let m := t.items.foldl mergeItem ⟨a, (none, none), (none, none)⟩
  m.atoms ++ coverAtom t.pictures ++ intPair trkn m.tracks ++ intPair disk m.discs

/-- A generic tag with its companion as far as that is an `Ilst`, tag/companion_tag.rs. -/
structure WithIlst where
  tag : Tag
  companion : Option Ilst.Tag

/-- `From<Ilst> for Tag`, mp4/ilst/mod.rs 891-901. -/
def ofIlst (preserve : Bool) (a : Ilst.Tag) : WithIlst :=
  let (r, t) := splitIlst a
  ⟨t, if preserve ∧ r ≠ [] then some r else none⟩

/-- `From<Tag> for Ilst`, mp4/ilst/mod.rs 903-913. -/
def toIlst (preserve : Bool) (w : WithIlst) : Ilst.Tag :=
  if preserve then mergeIlst (w.companion.getD []) w.tag else mergeIlst [] w.tag

end Lofty.Convert
