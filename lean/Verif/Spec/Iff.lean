import Verif.Model.Text
/-! # What an IFF file looks like

A chunk is a four-character identifier, a 32-bit size, that many bytes and, when the size is
odd, one zero byte. -/
namespace Lofty.Iff

/-- Identifier and content of a chunk. -/
abbrev Chunk := Bytes × Bytes

/-- The bytes of a chunk, with a big-endian or little-endian size. -/
def enc (be : Bool) (c : Chunk) : Bytes :=
  c.1 ++ ((if be then beBytes 4 c.2.length else leBytes 4 c.2.length) ++ (c.2 ++ List.replicate (c.2.length % 2) 0))

/-- The bytes of a sequence of chunks. -/
def encAll (be : Bool) (cs : List Chunk) : Bytes := cs.flatMap (enc be)

/-- A WAV file with the given chunks. -/
def wav (cs : List Chunk) : Bytes :=
  ascii "RIFF" ++ (leBytes 4 (4 + (encAll false cs).length) ++ (ascii "WAVE" ++ encAll false cs))

/-- An AIFF (`form` = "AIFF") or AIFF-C (`form` = "AIFC") file with the given chunks. -/
def aiff (form : Bytes) (cs : List Chunk) : Bytes :=
  ascii "FORM" ++ (beBytes 4 (4 + (encAll true cs).length) ++ (form ++ encAll true cs))

/-- A chunk identifier: four printable ASCII characters, spaces only at the end. -/
def FourCC (b : Bytes) : Prop :=
  b.length = 4 ∧ (∀ x ∈ b, 0x20 ≤ x ∧ x ≤ 0x7E) ∧ ∃ s t : Bytes, b = s ++ t ∧ 0x20 ∉ s ∧ ∀ x ∈ t, x = 0x20

/-- A chunk with a valid identifier whose size fits its field. -/
def Chunk.Ok (d : Chunk) : Prop := FourCC d.1 ∧ d.2.length < 2 ^ 32

/-- The chunk of an INFO item (key, value): the value as a C string. -/
def infoChunk (i : Str × Str) : Chunk := (utf8 i.1, utf8 i.2 ++ [0])

/-- The `LIST` chunk of type `INFO` with the given items. -/
def infoList (items : List (Str × Str)) : Chunk :=
  (ascii "LIST", ascii "INFO" ++ encAll false (items.map infoChunk))

/-- An INFO list that also has up to seven bytes behind its last item, as some writers
leave them. -/
def infoListWith (items : List (Str × Str)) (junk : Bytes) : Chunk :=
  (ascii "LIST", ascii "INFO" ++ (encAll false (items.map infoChunk) ++ junk))

/-- A chunk that is not an INFO list (and whose list type is complete if it is a list). -/
def Chunk.Plain (d : Chunk) : Prop :=
  d.Ok ∧ (d.1 = ascii "LIST" → 4 ≤ d.2.length ∧ d.2.take 4 ≠ ascii "INFO")

/-- A chunk holding an ID3v2 tag. -/
def Chunk.IsId3 (d : Chunk) : Prop := d.1 = ascii "ID3 " ∨ d.1 = ascii "id3 "

/-- The ID3v2 tag of a chunk (if it is one) is accepted: it is not too short for the parsing
mode and `id3` parses it. -/
def Chunk.Id3Ok (strict : Bool) (id3 : Bytes → Except Err Unit) (d : Chunk) : Prop :=
  d.IsId3 → (strict = true → 10 ≤ d.2.length) ∧ (10 ≤ d.2.length → id3 d.2 = .ok ())

/-- The identifiers of the AIFF text chunks. -/
def Chunk.IsText (d : Chunk) : Prop :=
  d.1 = ascii "NAME" ∨ d.1 = ascii "AUTH" ∨ d.1 = ascii "(c) " ∨ d.1 = ascii "ANNO" ∨ d.1 = ascii "COMT"

instance (d : Chunk) : Decidable d.IsText := by unfold Chunk.IsText; infer_instance

/-- One comment of a `COMT` chunk: time stamp, marker, length and text, padded to an even
length. -/
def encComment (timestamp marker : Nat) (text : Str) : Bytes :=
  beBytes 4 timestamp ++ (beBytes 2 marker ++ (beBytes 2 (utf8 text).length
    ++ (utf8 text ++ List.replicate ((utf8 text).length % 2) 0)))

end Lofty.Iff
