import Verif.Model.Ascii
/-!
# Number/total pairs

`lofty/src/id3/v2/util/pairs.rs` and the accessors of ID3v2 and APE tags built on it.
-/
namespace Lofty.Pairs

/-- `format_number_pair`, id3/v2/util/pairs.rs 35-48, for `u32` numbers. -/
def format (number total : Option Nat) : Option Str :=
  match number, total with
  | some n, none => some (toDec n)
  | none, some t => some (toDec 0 ++ '/' :: toDec t)
  | some n, some t => some (toDec n ++ '/' :: toDec t)
  | none, none => none

/-- `str::split` with a set of separator characters. -/
def splitOn (sep : Char → Bool) : Str → List Str
  | [] => [[]]
  | c :: cs =>
    if sep c then [] :: splitOn sep cs
    else match splitOn sep cs with
      | [] => [[c]]
      | p :: ps => (c :: p) :: ps

/-- `split_num_pair` on the text of the field, id3/v2/tag.rs 202-211 (separators NUL and
`/`) and ape/tag/mod.rs 306-316 (separator `/`). -/
def parse (sep : Char → Bool) (value : Str) : Option Nat × Option Nat :=
  let nums := (splitOn sep value).filterMap parseU32
  (nums[0]?, nums[1]?)

/-- The separators of ID3v2, id3/v2/tag.rs 204-206. -/
def id3Sep (c : Char) : Bool := c = '\x00' || c = '/'

/-- The separator of APE, ape/tag/mod.rs 312. -/
def apeSep (c : Char) : Bool := c = '/'

/-- The text of the `TRCK`/`TPOS` frame or `Track`/`Disc` item, if there is one.  The rest
of the tag is untouched by the accessors. -/
abbrev Field := Option Str

/-- `split_num_pair` on the field, same lines. -/
def get (sep : Char → Bool) : Field → Option Nat × Option Nat
  | some v => parse sep v
  | none => (none, none)

/-- `insert_number_pair`, id3/v2/tag.rs 225-237, ape/tag/mod.rs 318-325. -/
def insertPair (f : Field) (number total : Option Nat) : Field :=
  match format number total with
  | some v => some v
  | none => f

/-- The accessor operations on the pair. -/
inductive Op
  | setNumber (n : Nat)
  | setTotal (n : Nat)
  | removeNumber
  | removeTotal

/-- `set_track`/`set_disk`, `set_track_total`/`set_disk_total`, `remove_track`/`remove_disk`,
`remove_track_total`/`remove_disk_total`: id3/v2/tag.rs 397-457, ape/tag/mod.rs 355-411. -/
def step (sep : Char → Bool) (f : Field) : Op → Field
  | .setNumber n => insertPair f (some n) (get sep f).2
  | .setTotal t => insertPair f (get sep f).1 (some t)
  | .removeNumber => none
  | .removeTotal => (get sep f).1.map toDec

end Lofty.Pairs
