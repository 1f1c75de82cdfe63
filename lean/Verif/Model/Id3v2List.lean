import Verif.Model.Id3v2Items
import Verif.Model.Drain
/-!
# ID3v2 frames and `FrameList`

`lofty/src/id3/v2/frame/mod.rs`, `lofty/src/id3/v2/frame/list.rs`, and the `PartialEq`
implementations of `lofty/src/id3/v2/items/*.rs`.
-/
namespace Lofty.Id3v2
open Lofty.Text (Encoding)

/-- The variants of `Frame` that contain no other frames, frame/mod.rs 91-153.  Where the type
fixes the frame id (`COMM`, `USLT`, `TXXX`, ...) the id is not stored. -/
inductive Content
  | comment (f : LangF)
  | lyrics (f : LangF)
  | text (f : TextF)
  | userText (f : UserF)
  | url (f : UrlF)
  | userUrl (f : UserF)
  | picture (f : PicF)
  | pop (f : PopF)
  | keyValue (f : KvF)
  | rva (f : RvaF)
  | ufid (f : OwnedF)
  | owner (f : OwneF)
  | etco (f : EtcoF)
  | priv (f : OwnedF)
  | time (f : TimeF)
  | binary (id : FrameId) (data : Bytes)
  deriving DecidableEq, Repr

/-- `Frame`, frame/mod.rs 91-153, with the flags of its header: a content without other frames,
a `ChapterFrame` (items/chapter_frame.rs 19-50) or a `ChapterTableOfContentsFrame`
(items/table_of_contents_frame.rs 62-87; `top` and `ordered` are its `CtocFlags`). -/
inductive Frame
  | leaf (flags : FrameFlags) (c : Content)
  | chapter (flags : FrameFlags) (id : Str) (times offsets : Nat × Nat) (children : List Frame)
  | toc (flags : FrameFlags) (id : Str) (top ordered : Bool) (entries : List Str) (children : List Frame)

/-- `Frame::id` for the contents, frame/mod.rs 53-60 and the `FRAME_ID` constants of items/*.rs. -/
def Content.id : Content → FrameId
  | .comment _ => .valid (str "COMM")
  | .lyrics _ => .valid (str "USLT")
  | .text f => f.id
  | .userText _ => .valid (str "TXXX")
  | .url f => f.id
  | .userUrl _ => .valid (str "WXXX")
  | .picture _ => .valid (str "APIC")
  | .pop _ => .valid (str "POPM")
  | .keyValue f => f.id
  | .rva _ => .valid (str "RVA2")
  | .ufid _ => .valid (str "UFID")
  | .owner _ => .valid (str "OWNE")
  | .etco _ => .valid (str "ETCO")
  | .priv _ => .valid (str "PRIV")
  | .time f => f.id
  | .binary id _ => id

/-- `Frame::id`, frame/mod.rs 53-60. -/
def Frame.id : Frame → FrameId
  | .leaf _ c => c.id
  | .chapter .. => .valid (str "CHAP")
  | .toc .. => .valid (str "CTOC")

/-- `Frame::flags`, frame/mod.rs 62-69. -/
def Frame.flags : Frame → FrameFlags
  | .leaf f _ => f
  | .chapter f .. => f
  | .toc f .. => f

/-- `PartialEq` of the contents together with the flags of their headers: by description, by
language and description, by id, by email, by identification, by owner; everything else is
compared field by field, header included (derived). -/
def sameContent (fa : FrameFlags) (a : Content) (fb : FrameFlags) (b : Content) : Bool :=
  match a, b with
  | .comment x, .comment y => x.lang = y.lang && x.desc = y.desc
  | .lyrics x, .lyrics y => x.lang = y.lang && x.desc = y.desc
  | .text x, .text y => x.id = y.id
  | .userText x, .userText y => x.desc = y.desc
  | .url x, .url y => x.id = y.id
  | .userUrl x, .userUrl y => x.desc = y.desc
  | .pop x, .pop y => x.email = y.email
  | .rva x, .rva y => x.ident = y.ident
  | .ufid x, .ufid y => x.owner = y.owner
  | a, b => fa = fb && a = b

/-- `<Frame as PartialEq>::eq` (derived for the enum: frames of different variants differ). -/
def sameFrame (a b : Frame) : Bool :=
  match a, b with
  | .leaf fa x, .leaf fb y => sameContent fa x fb y
  | .chapter _ x _ _ _, .chapter _ y _ _ _ => x = y
  | .toc _ x _ _ _ _, .toc _ y _ _ _ _ => x = y
  | _, _ => false

/-- `Frame::is_empty`, frame/mod.rs 197-227. -/
def Content.isEmpty : Content → Option Bool
  | .text f => some f.value.isEmpty
  | .userText f => some f.content.isEmpty
  | .url f => some f.url.isEmpty
  | .userUrl f => some f.content.isEmpty
  | .comment f => some f.content.isEmpty
  | .lyrics f => some f.content.isEmpty
  | .picture f => some f.pic.data.isEmpty
  | .keyValue f => some f.pairs.isEmpty
  | .ufid f => some f.data.isEmpty
  | .etco f => some f.events.isEmpty
  | .priv f => some f.data.isEmpty
  | .binary _ d => some d.isEmpty
  | .pop _ | .rva _ | .owner _ | .time _ => none

/-- `Frame::is_empty`, frame/mod.rs 197-227. -/
def Frame.isEmpty : Frame → Option Bool
  | .leaf _ c => c.isEmpty
  | _ => none

/-! ## `FrameList` -/

/-- `ONE_PER_TAG`, frame/list.rs 241-243. -/
def onePerTag : List Str :=
  [str "MCDI", str "ETCO", str "MLLT", str "SYTC", str "RVRB", str "PCNT", str "RBUF", str "POSS", str "OWNE",
   str "SEEK", str "ASPI"]

/-- `FrameList::get`, frame/list.rs 34-37. -/
def get (l : List Frame) (id : FrameId) : Option Frame := l.find? fun f => f.id = id

/-- `FrameList::remove`, frame/list.rs 328-340: the removed frames and the list afterwards. -/
def remove (l : List Frame) (id : FrameId) : List Frame × List Frame := drainFilter (fun f => f.id = id) l

/-- `position(p).map(|pos| vec.remove(pos))`: the first match and the list without it. -/
def takeFirst (p : Frame → Bool) : List Frame → Option Frame × List Frame
  | [] => (none, [])
  | f :: l => if p f then (some f, l) else ((takeFirst p l).1, f :: (takeFirst p l).2)

/-- `FrameList::insert`, frame/list.rs 239-259: the replaced frame and the list afterwards. -/
def insert (l : List Frame) (f : Frame) : Option Frame × List Frame :=
  if onePerTag.contains f.id.asStr then
    ((remove l f.id).1.head?, (remove l f.id).2 ++ [f])
  else
    ((takeFirst (fun g => sameFrame g f) l).1, (takeFirst (fun g => sameFrame g f) l).2 ++ [f])

/-- `FrameList::get_text`, frame/list.rs 71-78. -/
def getText (l : List Frame) (id : FrameId) : Option Str :=
  match get l id with
  | some (.leaf _ (.text f)) => some f.value
  | _ => none

/-- `str::split(sep)`. -/
def splitOn (sep : Char) : Str → List Str
  | [] => [[]]
  | c :: s =>
    if c = sep then [] :: splitOn sep s
    else match splitOn sep s with
      | [] => [[c]]
      | p :: ps => (c :: p) :: ps

/-- `FrameList::get_texts`, frame/list.rs 103-109. -/
def getTexts (l : List Frame) (id : FrameId) : Option (List Str) :=
  match get l id with
  | some (.leaf _ (.text f)) => some (splitOn '\x00' f.value)
  | _ => none

/-- The match of `get_user_text`, frame/list.rs 136-143 (a `UserText` always has the id `TXXX`). -/
def userTextOf (desc : Str) : Frame → Option Str
  | .leaf _ (.userText f) => if f.desc = desc then some f.content else none
  | _ => none

/-- `FrameList::get_user_text`, frame/list.rs 132-144. -/
def getUserText (l : List Frame) (desc : Str) : Option Str := l.findSome? (userTextOf desc)

/-- `FrameList::insert_user_text`, frame/list.rs 169-175. -/
def insertUserText (l : List Frame) (desc content : Str) : Option Frame × List Frame :=
  insert l (.leaf {} (.userText ⟨.utf8, desc, content⟩))

/-- `FrameList::remove_user_text`, frame/list.rs 198-207. -/
def removeUserText (l : List Frame) (desc : Str) : Option Frame × List Frame :=
  takeFirst (fun f => (userTextOf desc f).isSome) l

/-- The type of an attached picture. -/
def picTypeOf : Frame → Option Picture.PicType
  | .leaf _ (.picture f) => some f.pic.ty
  | _ => none

/-- `FrameList::remove_picture_type`, frame/list.rs 343-352 (owned pictures). -/
def removePictureType (l : List Frame) (t : Picture.PicType) : List Frame := l.filter fun f => picTypeOf f ≠ some t

/-- `FrameList::insert_picture`, frame/list.rs 459-486, with `new_picture_frame` (tag.rs: UTF-8, no
flags). -/
def insertPicture (l : List Frame) (p : Picture.Pic) : Option Frame × List Frame :=
  let f := Frame.leaf {} (.picture ⟨.utf8, p⟩)
  if p.ty = .icon ∨ p.ty = .otherIcon then
    ((takeFirst (fun g => picTypeOf g = some p.ty) l).1, (takeFirst (fun g => picTypeOf g = some p.ty) l).2 ++ [f])
  else (none, l ++ [f])

/-- `FrameList::retain`, frame/list.rs 385-390. -/
def retain (l : List Frame) (p : Frame → Bool) : List Frame := l.filter p

/-- `FrameList::take_first`, frame/list.rs 272-277. -/
def takeFirstId (l : List Frame) (id : FrameId) : Option Frame × List Frame := takeFirst (fun f => f.id = id) l

end Lofty.Id3v2
