import Verif.Model.Id3v2List
/-!
# Orders and hashes

The hand-written `Ord` and `Hash` implementations: of `Timestamp`
(`lofty/src/tag/items/timestamp.rs`) and of the ID3v2 frames (`lofty/src/id3/v2/items/*.rs`).
-/
namespace Lofty

/-- `<u8 as Ord>::cmp`, `<u16 as Ord>::cmp`, `<u32 as Ord>::cmp`. -/
def cmpNat (a b : Nat) : Ordering := if a < b then .lt else if a = b then .eq else .gt

/-- `<Option<u8> as Ord>::cmp`: `None` comes before every `Some`. -/
def cmpOpt : Option Nat → Option Nat → Ordering
  | none, none => .eq
  | none, some _ => .lt
  | some _, none => .gt
  | some a, some b => cmpNat a b

/-- `Ordering::then`. -/
def andThen (a b : Ordering) : Ordering := match a with | .eq => b | x => x

/-- `<Timestamp as Ord>::cmp`, tag/items/timestamp.rs 48-58 (`partial_cmp`, 42-46, is `Some` of it). -/
def Timestamp.cmp (a b : Timestamp) : Ordering :=
  andThen (andThen (andThen (andThen (andThen (cmpNat a.year b.year) (cmpOpt a.month b.month)) (cmpOpt a.day b.day))
    (cmpOpt a.hour b.hour)) (cmpOpt a.minute b.minute)) (cmpOpt a.second b.second)

namespace Id3v2

/-- `<TimestampFrame as Ord>::cmp`, id3/v2/items/timestamp_frame.rs 22-32. -/
def TimeF.cmp (a b : TimeF) : Ordering := Timestamp.cmp a.time b.time

/-- `<Event as Ord>::cmp`, id3/v2/items/event_timing_codes_frame.rs 202-212. -/
def Event.cmp (a b : Event) : Ordering := cmpNat a.time b.time

/-- What is fed to a `Hasher`, piece by piece: the discriminant of an enum, a string, a language, the id
of a frame, or all fields of a frame with a derived `Hash` (these feed the header, with its flags, and
every field behind it). -/
inductive Fed
  | variant (n : Nat)
  | text (s : Str)
  | lang (l : UInt8 × UInt8 × UInt8)
  | id (i : FrameId)
  | fields (flags : FrameFlags) (c : Content)
  deriving DecidableEq

/-- The position of a variant in `Frame`, frame/mod.rs 108-152: what the derived `Hash` feeds first. -/
def Content.variant : Content → Nat
  | .comment _ => 0
  | .lyrics _ => 1
  | .text _ => 2
  | .userText _ => 3
  | .url _ => 4
  | .userUrl _ => 5
  | .picture _ => 6
  | .pop _ => 7
  | .keyValue _ => 8
  | .rva _ => 9
  | .ufid _ => 10
  | .owner _ => 11
  | .etco _ => 12
  | .priv _ => 13
  | .time _ => 14
  | .binary .. => 17

/-- `Hash` of the types in the variants: items/language_frame.rs 136-141 and 269-274,
items/text_information_frame.rs 31-35, items/extended_text_frame.rs 42-46, items/url_link_frame.rs 24-28,
items/extended_url_frame.rs 40-44, items/popularimeter.rs 43-47,
items/relative_volume_adjustment_frame.rs 110-114, items/unique_file_identifier.rs 29-33; the others
are derived. -/
def Content.feed (flags : FrameFlags) : Content → List Fed
  | .comment f => [.lang f.lang, .text f.desc]
  | .lyrics f => [.lang f.lang, .text f.desc]
  | .text f => [.id f.id]
  | .userText f => [.text f.desc]
  | .url f => [.id f.id]
  | .userUrl f => [.text f.desc]
  | .pop f => [.text f.email]
  | .rva f => [.text f.ident]
  | .ufid f => [.text f.owner]
  | c => [.fields flags c]

/-- `<Frame as Hash>::hash`, derived, frame/mod.rs 107-153: the discriminant, then the value in it;
`ChapterFrame`, items/chapter_frame.rs 58-62; `ChapterTableOfContentsFrame`,
items/table_of_contents_frame.rs 95-99. -/
def Frame.feed : Frame → List Fed
  | .leaf fl c => .variant c.variant :: c.feed fl
  | .chapter _ id .. => [.variant 15, .text id]
  | .toc _ id .. => [.variant 16, .text id]

/-- `<AudioTextFrame as PartialEq>::eq`, items/audio_text_frame.rs 76-80. -/
def AtxtF.same (a b : AtxtF) : Bool := a.text = b.text

/-- `<AudioTextFrame as Hash>::hash`, items/audio_text_frame.rs 82-86. -/
def AtxtF.feed (a : AtxtF) : List Fed := [.text a.text]

end Id3v2
end Lofty
