import Verif.Model.Ilst
/-!
# What an `ilst` looks like and which atoms it can hold

Independent of the reader and the writer: the layout of an atom (size, identifier,
content), and the atoms that an `ilst` can store.
-/
namespace Lofty.Ilst
open Lofty.Text Lofty.Mp4
open Lofty.Picture (Pic Mime PicType)

/-- An atom: its length (including the 8 bytes of the header), its identifier, its
content. -/
def box (id content : Bytes) : Bytes := beBytes 4 (8 + content.length) ++ (id ++ content)

/-- A `data` atom: type set 0, type, locale 0, value. -/
def dataBox (v : Nat × Bytes) : Bytes :=
  box (ascii "data") ([0] ++ (beBytes 3 v.1 ++ ([0, 0, 0, 0] ++ v.2)))

/-- The number of an image format. -/
def imageCode : Option Mime → Nat
  | some .gif => 12
  | some .jpeg => 13
  | some .png => 14
  | some .bmp => 27
  | _ => 0

/-- The type number and the bytes of a value. -/
def stored : Data → Nat × Bytes
  | .utf8 s => (1, Lofty.utf8 s)
  | .utf16 s => (2, Lofty.utf8 s)
  | .picture p => (imageCode p.mime, p.data)
  | .signed i => (21, beBytes 4 i.toUInt32.toNat)
  | .unsigned n =>
    (22, beBytes (if n.toNat < 256 then 1 else if n.toNat < 65536 then 2 else 4) n.toNat)
  | .bool b => (21, [if b then 1 else 0])
  | .unknown c d => (c, d)

/-- Can the value be written at all? -/
def Writable : Data → Prop
  | .picture p => p.mime ∈ [none, some .gif, some .jpeg, some .png, some .bmp]
  | .unknown c _ => c < 2 ^ 24
  | _ => True

/-- The identifier as it stands in the header. -/
def Ident.header : Ident → Bytes
  | .fourcc b => b
  | .freeform _ _ => ascii "----"

/-- What a freeform identifier adds to the content. -/
def Ident.names : Ident → Bytes
  | .fourcc _ => []
  | .freeform m n => box (ascii "mean") ([0, 0, 0, 0] ++ Lofty.utf8 m) ++ box (ascii "name") ([0, 0, 0, 0] ++ Lofty.utf8 n)

/-- An atom of an `ilst`. -/
def atomBox (a : Atom) : Bytes :=
  box (Ident.header a.ident) (Ident.names a.ident ++ a.data.toList.flatMap fun d => dataBox (stored d))

/-- A text that survives reading: readers drop trailing NUL characters. -/
def TextOk (s : Str) : Prop := s.getLast? ≠ some '\x00'

/-- Identifiers an `ilst` can hold: four of the admitted bytes, other than the names of
padding and of the freeform atom. -/
def IdentOk : Ident → Prop
  | .fourcc b => b.length = 4 ∧ b.all validByte = true ∧
      b ≠ ascii "----" ∧ b ≠ ascii "free" ∧ b ≠ ascii "skip"
  | .freeform m n => TextOk m ∧ TextOk n

/-- Values of ordinary atoms. -/
def PlainOk : Data → Prop
  | .utf8 s => s ≠ [] ∧ TextOk s
  | .signed _ => True
  | .unsigned _ => True
  | .unknown c d => c < 2 ^ 24 ∧ c ∉ [1, 2, 21, 22] ∧ d ≠ []
  | _ => False

/-- Values of `covr`. -/
def CoverOk : Data → Prop
  | .picture p => p.ty = .other ∧ p.desc = none ∧ p.data ≠ [] ∧
      p.mime ∈ [none, some .gif, some .jpeg, some .png, some .bmp]
  | _ => False

/-- Values kept as raw bytes. -/
def RawOk : Data → Prop
  | .unknown c d => c < 2 ^ 24 ∧ d ≠ []
  | _ => False

/-- The values an atom with the given name can hold. -/
def ValueOk (o : Opts) (i : Ident) (d : Data) : Prop :=
  if i = .fourcc (ascii "covr") then o.coverArt = true ∧ CoverOk d
  else if i = .fourcc (ascii "gnre") then o.implicit = false ∧ RawOk d
  else if i = .fourcc (ascii "plID") then RawOk d ∧ ∃ c b, d = .unknown c b ∧ b.length = 8
  else if ∃ f ∈ ["cpil", "hdvd", "pcst", "pgap", "shwm"], i = .fourcc (ascii f) then ∃ b, d = .bool b
  else PlainOk d

/-- One value is stored on its own, several as a list; flags have exactly one value. -/
def ShapeOk (a : Atom) : Prop :=
  match a.data with
  | .single _ => True
  | .multiple l => 2 ≤ l.length ∧
      ¬ ∃ f ∈ ["cpil", "hdvd", "pcst", "pgap", "shwm"], a.ident = .fourcc (ascii f)

/-- Atoms that an `ilst` can hold. -/
def AtomOk (o : Opts) (a : Atom) : Prop :=
  IdentOk a.ident ∧ ShapeOk a ∧ ∀ d ∈ a.data.toList, ValueOk o a.ident d

end Lofty.Ilst
