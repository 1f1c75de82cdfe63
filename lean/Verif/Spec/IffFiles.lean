import Verif.Props.Aiff
import Verif.Spec.FileTags
import Verif.Model.IffFiles
/-!
# Specification: the tags of WAV and AIFF files
-/
namespace Lofty.IffFiles
open Lofty.Iff Lofty.FileTags

/-- A RIFF or FORM file: `magic` is `RIFF` or `FORM`, `form` its type. -/
def file (be : Bool) (magic form : Bytes) (cs : List Chunk) : Bytes :=
  magic ++ ((if be then beBytes 4 (4 + (encAll be cs).length) else leBytes 4 (4 + (encAll be cs).length)) ++ (form ++ encAll be cs))

/-- A `LIST` of type `INFO`. -/
def IsInfo (d : Chunk) : Prop := d.1 = ascii "LIST" ∧ d.2.take 4 = ascii "INFO"

instance (d : Chunk) : Decidable (IsInfo d) := by unfold IsInfo; infer_instance
instance (d : Chunk) : Decidable d.IsId3 := by unfold Chunk.IsId3; infer_instance

/-- The chunks of a WAV file that are neither tags nor filler. -/
def wavRest (cs : List Chunk) : List Chunk := cs.filter fun d => ¬ IsInfo d ∧ ¬ d.IsId3 ∧ d.1 ≠ ascii "JUNK"

/-- The chunks of an AIFF file that are not tags. -/
def aiffRest (cs : List Chunk) : List Chunk := cs.filter fun d => ¬ d.IsText ∧ ¬ d.IsId3

/-- An ID3v2 tag and how it is to be saved. -/
structure Id3Save where
  strict : Bool
  upper : Bool
  fl : Id3v2.Flags
  w : Id3v2.WriteOpts
  padding : Option Nat
  frames : List Id3v2.Frame

/-- The bytes of the tag; no frames, no tag. -/
def Id3Save.encoded (s : Id3Save) : Except Err Bytes :=
  if s.frames.isEmpty then .ok [] else do
    let body ← Id3v2.createItems s.w s.frames
    Id3v2.createTag { s.fl with footer := false } s.w.v23 s.padding body

/-- The tag that is to be read back: there are no footers in such files. -/
def Id3Save.tag (s : Id3Save) : Option Id3Tag :=
  if s.frames = [] then none else some ⟨.v4, { s.fl with footer := false }, s.frames⟩

/-- A tag that can be saved without loss (ID3v2.4 without extended header and unsynchronisation). -/
def Id3Save.Ok (o : Opts) (s : Id3Save) : Prop :=
  s.frames = [] ∨ (s.w.v23 = false ∧ s.fl.crc = false ∧ s.fl.restrictions = none ∧ s.fl.unsynchronisation = false ∧
    (∀ f ∈ s.frames, Id3v2.FrameOk s.w o.id3 f) ∧ Id3v2.TagList s.w s.frames ∧
    ∀ b, Id3v2.createItems s.w s.frames = .ok b → b.length + s.padding.getD 0 < 2 ^ 32)

/-- The size of the content of a chunk with its padding. -/
def padded (b : Bytes) : Nat := b.length + b.length % 2

/-- Where the library is known to write wrong files: a tag at the end of the file must not grow (`grown_size`), and a tag
in the middle of a WAV file must not shrink by eight bytes or more if there is a preferred padding
(`junk_swallows_data`). -/
def Id3Save.Safe (s : Id3Save) (isWav : Bool) (cs : List Chunk) : Prop :=
  ∀ pre d post b, cs = pre ++ d :: post → d.IsId3 → s.encoded = .ok b → b ≠ [] →
    if post = [] then padded b ≤ padded d.2 else isWav = true → s.padding.isSome → padded d.2 < padded b + 8

/-! ## WAV -/

/-- One save to a WAV file. -/
inductive WavSave
  | id3v2 (s : Id3Save)
  | info (strict : Bool) (items : List Item)

/-- Saving to a file. -/
def WavSave.run (f : Bytes) : WavSave → Except Err Bytes
  | .id3v2 s => saveId3 false true s.strict s.upper s.fl s.w s.padding s.frames f
  | .info strict items => writeInfo strict f items

/-- The bytes of the tag. -/
def WavSave.encoded : WavSave → Except Err Bytes
  | .id3v2 s => s.encoded
  | .info _ items => createInfo items

/-- The tags of a WAV file. -/
structure WavTags where
  info : List Item
  id3v2 : Option Id3Tag

/-- The chunks of a WAV file with the given tags: at most one INFO list (of even size, with up to six bytes behind its
items) and at most one ID3v2 chunk.  The depth of nested frames is not limited (`n` is how deep they are). -/
structure WavHas (o : Opts) (cs : List Chunk) (t : WavTags) : Prop where
  ok : ∀ d ∈ cs, d.Ok ∧ (d.1 = ascii "LIST" → 4 ≤ d.2.length)
  info : (cs.filter (fun d => IsInfo d) = [] ∧ t.info = []) ∨
    ∃ junk, cs.filter (fun d => IsInfo d) = [infoListWith t.info junk] ∧ junk.length < 8 ∧ junk.length % 2 = 0 ∧ ∀ i ∈ t.info, ItemOk i
  id3v2 : (cs.filter (fun d => d.IsId3) = [] ∧ t.id3v2 = none) ∨
    ∃ d, cs.filter (fun d => d.IsId3) = [d] ∧ ∃ n, ∀ k, n ≤ k → id3Chunk { o with depth := k } d.2 = .ok t.id3v2

/-- The tags after a save: only the tag of that kind changes; items without value are not stored. -/
def WavTags.after (t : WavTags) : WavSave → WavTags
  | .id3v2 s => { t with id3v2 := s.tag }
  | .info _ items => { t with info := items.filter fun i => !i.2.isEmpty }

/-- A save to the file of the chunks `cs` that can be done without loss, of a tag that fits. -/
def WavSave.Ok (o : Opts) (cs : List Chunk) (s : WavSave) : Prop :=
  (∀ b, s.encoded = .ok b → (wav cs).length + b.length + 9 < 2 ^ 32) ∧
  match s with
  | .id3v2 s => s.Ok o ∧ s.Safe true cs
  | .info _ items => ∀ i ∈ items, ItemOk i

/-- Saves one after the other. -/
def runWav : List WavSave → Bytes → Except Err Bytes
  | [], f => .ok f
  | s :: l, f => do
    let f ← s.run f
    runWav l f

/-- All saves can be done, each to the file the ones before it have left. -/
def WavOk (o : Opts) : List WavSave → Bytes → Prop
  | [], _ => True
  | s :: l, f => (∀ cs, f = wav cs → (∀ d ∈ cs, d.Ok) → s.Ok o cs) ∧ ∀ g, s.run f = .ok g → WavOk o l g

/-- Everything but the overall bit rate, which is that of the file. -/
def SameWav : Option Lossless.Wav → Option Lossless.Wav → Prop
  | none, none => True
  | some p, some q => { p with overall := q.overall } = q
  | _, _ => False

/-! ## AIFF -/

/-- One save to an AIFF file. -/
inductive AiffSave
  | id3v2 (s : Id3Save)
  | text (strict : Bool) (t : Aiff)

/-- Saving to a file. -/
def AiffSave.run (f : Bytes) : AiffSave → Except Err Bytes
  | .id3v2 s => saveId3 true false s.strict s.upper s.fl s.w s.padding s.frames f
  | .text strict t => writeAiff strict f t

/-- The bytes of the tag. -/
def AiffSave.encoded : AiffSave → Except Err Bytes
  | .id3v2 s => s.encoded
  | .text _ t => createText t

/-- The tags of an AIFF file. -/
structure AiffTags where
  text : Aiff
  id3v2 : Option Id3Tag

/-- The chunks of an AIFF file with the given tags: the text chunks of one tag, at most one ID3v2 chunk, and a `COMM`
chunk. -/
structure AiffHas (o : Opts) (cs : List Chunk) (t : AiffTags) : Prop where
  ok : ∀ d ∈ cs, d.Ok
  comm : ∃ d ∈ cs, d.1 = ascii "COMM"
  text : ∃ x : Aiff, cs.filter (fun d => d.IsText) = textChunks x ∧ x.Fits ∧ x.Clean ∧ t.text = x.normal
  id3v2 : (cs.filter (fun d => d.IsId3) = [] ∧ t.id3v2 = none) ∨
    ∃ d, cs.filter (fun d => d.IsId3) = [d] ∧ ∃ n, ∀ k, n ≤ k → id3Chunk { o with depth := k } d.2 = .ok t.id3v2

/-- The tags after a save: only the tag of that kind changes. -/
def AiffTags.after (t : AiffTags) : AiffSave → AiffTags
  | .id3v2 s => { t with id3v2 := s.tag }
  | .text _ x => { t with text := x.normal }

/-- A save to the file of the chunks `cs` that can be done without loss, of a tag that fits. -/
def AiffSave.Ok (o : Opts) (form : Bytes) (cs : List Chunk) (s : AiffSave) : Prop :=
  (∀ b, s.encoded = .ok b → (aiff form cs).length + b.length + 9 < 2 ^ 32) ∧
  match s with
  | .id3v2 s => s.Ok o ∧ s.Safe false cs
  | .text _ t => t.Fits ∧ t.Clean

/-- Saves one after the other. -/
def runAiff : List AiffSave → Bytes → Except Err Bytes
  | [], f => .ok f
  | s :: l, f => do
    let f ← s.run f
    runAiff l f

/-- All saves can be done, each to the file the ones before it have left. -/
def AiffOk (o : Opts) : List AiffSave → Bytes → Prop
  | [], _ => True
  | s :: l, f => (∀ form cs, f = aiff form cs → form.length = 4 → (∀ d ∈ cs, d.Ok) → s.Ok o form cs) ∧
    ∀ g, s.run f = .ok g → AiffOk o l g

/-- Everything but the overall bit rate, which is that of the file. -/
def SameAiff : Option Lossless.Aiff → Option Lossless.Aiff → Prop
  | none, none => True
  | some p, some q => { p with overall := q.overall } = q
  | _, _ => False

end Lofty.IffFiles
