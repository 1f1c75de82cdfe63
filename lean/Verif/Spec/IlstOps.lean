import Verif.Model.Ilst
/-!
# What editing an `ilst` means

The abstract state is a map from identifiers to lists of values; the operations are
described on that map only.
-/
namespace Lofty.Ilst
open Lofty.Mp4
open Lofty.Picture (Pic)

/-- The abstract state. -/
abbrev Map := Ident → Option (List Data)

/-- The operations of the API. -/
inductive Op
  | insert (a : Atom)
  | replace (a : Atom)
  | remove (i : Ident)
  | setText (i : Ident) (s : Str)
  | setFlag (i : Ident) (v : Bool)
  | setNumber (i : Ident) (v : Nat)
  | setTotal (i : Ident) (v : Nat)
  | removeTotal (i : Ident)
  | setRating (r : Fin 3)
  | insertPicture (p : Pic)
  | removePictures

/-- The map with one entry changed. -/
def Map.set (m : Map) (i : Ident) (v : Option (List Data)) : Map := fun j => if j = i then v else m j

/-- Appends a value to an entry. -/
def Map.append (m : Map) (i : Ident) (l : List Data) : Map := m.set i (some ((m i).getD [] ++ l))

/-- The picture as it is stored: the format has no picture types. -/
def stripType : Data → Data
  | .picture p => .picture { p with ty := .other }
  | d => d

/-- A pair of numbers: 6 bytes or more, of which bytes 2-3 are the number and bytes 4-5 the
total. -/
def pairOf (m : Map) (i : Ident) : Option Nat × Option Nat :=
  match m i with
  | some (.unknown 0 d :: _) =>
    (if 4 ≤ d.length then some (256 * (d.getD 2 0).toNat + (d.getD 3 0).toNat) else none,
     if 6 ≤ d.length then some (256 * (d.getD 4 0).toNat + (d.getD 5 0).toNat) else none)
  | _ => (none, none)

/-- The data of a pair of numbers. -/
def pairValue (a b : Nat) : List Data :=
  [.unknown 0 [0, 0, UInt8.ofNat (a / 256), UInt8.ofNat a, UInt8.ofNat (b / 256), UInt8.ofNat b]]

/-- The meaning of an operation. -/
def Op.spec (m : Map) : Op → Map
  | .insert a =>
    if a.ident = covr ∧ a.data.isPictures = true then
      (if a.data.toList = [] then m else m.append covr (a.data.toList.map stripType))
    else m.append a.ident a.data.toList
  | .replace a => m.set a.ident (some a.data.toList)
  | .remove i => m.set i none
  | .setText i s => m.set i (some [.utf8 s])
  | .setFlag i v => m.set i (if v then some [.bool true] else none)
  | .setNumber i v => m.set i (some (pairValue v ((pairOf m i).2.getD 0)))
  | .setTotal i v => m.set i (some (pairValue ((pairOf m i).1.getD 0) v))
  | .removeTotal i => m.set i ((pairOf m i).1.map fun n => pairValue n 0)
  | .setRating r => m.set rtng (some [.signed (Int32.ofNat r.val)])
  | .insertPicture p => m.append covr [.picture { p with ty := .other }]
  | .removePictures => fun i => match m i with
    | some (.picture _ :: _) => none
    | v => v

/-- The operation of the code. -/
def Op.run (t : Tag) : Op → Tag
  | .insert a => Ilst.insert t a
  | .replace a => Ilst.replace t a
  | .remove i => (Ilst.remove t i).2
  | .setText i s => Ilst.setText t i s
  | .setFlag i v => Ilst.setFlag t i v
  | .setNumber i v => Ilst.setNumber t i v
  | .setTotal i v => Ilst.setTotal t i v
  | .removeTotal i => Ilst.removeTotal t i
  | .setRating r => Ilst.setRating t r
  | .insertPicture p => Ilst.insertPicture t p
  | .removePictures => Ilst.removePictures t

/-- The abstract state of a tag. -/
def toMap (t : Tag) : Map := fun i => (t.find? fun a => decide (a.ident = i)).map fun a => a.data.toList

/-- At most one atom per identifier. -/
def Unique (t : Tag) : Prop := (t.map Atom.ident).Nodup

end Lofty.Ilst
