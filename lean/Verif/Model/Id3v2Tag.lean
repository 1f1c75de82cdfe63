import Verif.Model.Id3v2List
import Verif.Spec.Synchsafe
/-!
# Reading and writing the frames of an ID3v2 tag

`lofty/src/id3/v2/frame/read.rs`, `lofty/src/id3/v2/frame/content.rs`, `lofty/src/id3/v2/read.rs` and
`lofty/src/id3/v2/write/frame.rs`, with the chapter frames of `lofty/src/id3/v2/items`.
-/
namespace Lofty.Id3v2
open Lofty.Text (Encoding)
open Lofty.Synchsafe (desync)

/-! ## Reading -/

/-- The parts of `ParseOptions` (config/parse_options.rs) frame parsing depends on, and the zlib
decoder (`none`: not a zlib stream, or the feature is disabled). -/
structure ParseOpts where
  mode : Mode
  readCover : Bool
  implicit : Bool
  inflate : Bytes → Option Bytes

/-- `i if i.starts_with(c)`. -/
def startsWith (c : Char) (s : Str) : Bool := s.head? == some c

/-- The ids of time stamp frames, frame/content.rs 57. -/
def timeIds : List Str := [str "TDEN", str "TDOR", str "TDRC", str "TDRL", str "TDTG"]

/-- Apple's text frames, frame/content.rs 67. -/
def appleIds : List Str := [str "GRP1", str "MVNM", str "MVIN"]

/-- Wrap a parsed item in its `Frame` variant. -/
def wrap {α} (k : α → Content) (x : Except Err (Option α × Bytes)) : Except Err (Option Content × Bytes) :=
  x.map fun p => (p.1.map k, p.2)

/-- Wrap an item that is never absent. -/
def wrap1 {α} (k : α → Content) (x : Except Err (α × Bytes)) : Except Err (Option Content × Bytes) :=
  x.map fun p => (some (k p.1), p.2)

/-- `parse_content` without `CHAP` and `CTOC`, frame/content.rs 15-80; `BinaryFrame::parse`,
items/binary_frame.rs 47-65. -/
def parseLeaf (o : ParseOpts) (v : Version) (id : FrameId) (r : Bytes) : Except Err (Option Content × Bytes) :=
  let s := id.asStr
  if s = str "APIC" then wrap1 .picture (PicF.parse v r)
  else if s = str "TXXX" then wrap .userText (UserF.parseText v r)
  else if s = str "WXXX" then wrap .userUrl (UserF.parseUrl v r)
  else if s = str "COMM" then wrap .comment (LangF.parse v r)
  else if s = str "USLT" then wrap .lyrics (LangF.parse v r)
  else if s = str "TIPL" ∨ s = str "TMCL" then wrap .keyValue (KvF.parse id v r)
  else if s = str "UFID" then wrap .ufid (OwnedF.parseUfid o.mode r)
  else if s = str "RVA2" then wrap .rva (RvaF.parse o.mode r)
  else if s = str "OWNE" then wrap .owner (OwneF.parse r)
  else if s = str "ETCO" then wrap .etco (EtcoF.parse r)
  else if s = str "PRIV" then wrap .priv (OwnedF.parsePriv r)
  else if s ∈ timeIds then wrap .time (TimeF.parse id o.mode r)
  else if startsWith 'T' s then wrap .text (TextF.parse id v r)
  else if s ∈ appleIds then wrap .text (TextF.parse id v r)
  else if startsWith 'W' s then wrap .url (UrlF.parse id r)
  else if s = str "POPM" then wrap1 .pop (PopF.parse r)
  else .ok (some (.binary id r), [])

/-- `ChapterFrame::parse`, items/chapter_frame.rs 171-208; `rc` is `read_all_frames_into_list`, which
also says what it left unread. -/
def parseChapter (rc : Bytes → Except Err (List Frame × Bytes)) (v : Version) (flags : FrameFlags) (r : Bytes) :
    Except Err (Frame × Bytes) :=
  if v = .v2 then .error .unsupported
  else do
    let (id, r) ← termText .latin1 r
    let (t0, r) ← readBE 4 r
    let (t1, r) ← readBE 4 r
    let (o0, r) ← readBE 4 r
    let (o1, r) ← readBE 4 r
    let (ch, r) ← rc r
    .ok (.chapter flags id.content (t0, t1) (o0, o1) ch, r)

/-- The loop over the entries, items/table_of_contents_frame.rs 251-261. -/
def readEntries : Nat → Bytes → Except Err (List Str × Bytes)
  | 0, r => .ok ([], r)
  | n + 1, r => do
    let (e, r) ← termText .latin1 r
    let (l, r) ← readEntries n r
    .ok (e.content :: l, r)

/-- `ChapterTableOfContentsFrame::parse`, items/table_of_contents_frame.rs 228-274, with
`CtocFlags::from`, 37-44. -/
def parseToc (rc : Bytes → Except Err (List Frame × Bytes)) (v : Version) (flags : FrameFlags) (r : Bytes) :
    Except Err (Frame × Bytes) :=
  if v = .v2 then .error .unsupported
  else do
    let (id, r) ← termText .latin1 r
    let (fl, r) ← readU8 r
    let (n, r) ← readU8 r
    let (es, r) ← readEntries n.toNat r
    let (ch, r) ← rc r
    .ok (.toc flags id.content (fl &&& 2 == 2) (fl &&& 1 == 1) es ch, r)

/-- `parse_content`, frame/content.rs 15-80 (the order of the alternatives does not matter for
`CHAP` and `CTOC`, no earlier one matches these ids). -/
def parseContent (rc : Bytes → Except Err (List Frame × Bytes)) (o : ParseOpts) (v : Version) (id : FrameId)
    (flags : FrameFlags) (r : Bytes) : Except Err (Option Frame × Bytes) :=
  if id.asStr = str "CHAP" then (parseChapter rc v flags r).map fun p => (some p.1, p.2)
  else if id.asStr = str "CTOC" then (parseToc rc v flags r).map fun p => (some p.1, p.2)
  else (parseLeaf o v id r).map fun p => (p.1.map (.leaf flags), p.2)

/-- `ParsedFrame`, frame/read.rs 17-21, with the reader behind it. -/
inductive Parsed
  | next (f : Frame) (rest : Bytes)
  | skip (rest : Bytes)
  | eof (rest : Bytes)

/-- The flag data behind a frame header, frame/read.rs 82-136: flags, remaining size and
reader. -/
def flagData (flags : FrameFlags) (size : Nat) (r : Bytes) : Except Err (FrameFlags × Nat × Bytes) := do
  let (flags, size, r) ← encryptionSymbol flags size r
  let (flags, size, r) ← groupIdentifier flags size r
  dataLengthIndicator flags size r
where
  /-- frame/read.rs 82-98. -/
  encryptionSymbol (flags : FrameFlags) (size : Nat) (r : Bytes) : Except Err (FrameFlags × Nat × Bytes) :=
    if flags.encryption.isSome then
      if size < 1 then .error .parse
      else (readU8 r).map fun x => ({ flags with encryption := some x.1 }, size - 1, x.2)
    else .ok (flags, size, r)
  /-- frame/read.rs 100-116. -/
  groupIdentifier (flags : FrameFlags) (size : Nat) (r : Bytes) : Except Err (FrameFlags × Nat × Bytes) :=
    if flags.grouping.isSome then
      if size < 1 then .error .parse
      else (readU8 r).map fun x => ({ flags with grouping := some x.1 }, size - 1, x.2)
    else .ok (flags, size, r)
  /-- frame/read.rs 118-136. -/
  dataLengthIndicator (flags : FrameFlags) (size : Nat) (r : Bytes) : Except Err (FrameFlags × Nat × Bytes) :=
    if flags.dataLength.isSome || flags.compression then
      if size < 4 then .error .parse
      else (readBE 4 r).map fun x => ({ flags with dataLength := some (unsynch x.1) }, size - 4, x.2)
    else .ok (flags, size, r)

/-- `handle_compression`, frame/read.rs 233-243.  A stream that does not decode is an error for
every parser (the decoder reports it on the first read that fails; the model does so at once). -/
def handleCompression (o : ParseOpts) (flags : FrameFlags) (c : Bytes) : Except Err Bytes :=
  if flags.compression then
    match o.inflate c with
    | some d => .ok d
    | none => .error .parse
  else .ok c

/-- The bytes of a frame the parser left unread stay in the outer reader unless the content was
buffered by the unsynchronisation or zlib readers (for these, the model drops them, whatever the size of the
buffers). -/
def leftover (flags : FrameFlags) (left after : Bytes) : Bytes :=
  if flags.unsync || flags.compression then after else left ++ after

/-- `handle_encryption`, frame/read.rs 245-267. -/
def handleEncryption (id : FrameId) (flags : FrameFlags) (size : Nat) (c after : Bytes) : Except Err Parsed :=
  if flags.dataLength.isNone then .error .parse
  else (readN size c).map fun x => .next (.leaf flags (.binary id x.1)) (leftover flags x.2 after)

/-- `parse_frame`, frame/read.rs 269-284. -/
def parseFrame (rc : Bytes → Except Err (List Frame × Bytes)) (o : ParseOpts) (v : Version) (id : FrameId)
    (flags : FrameFlags) (c after : Bytes) : Except Err Parsed :=
  (parseContent rc o v id flags c).map fun p =>
    match p.1 with
    | some f => .next f (leftover flags p.2 after)
    | none => .skip after

/-- The part of `ParsedFrame::read` behind the flag data, frame/read.rs 138-229.  The
unsynchronisation reader hands out `desync` of the content (theorem `Synchsafe.unsync_reads`). -/
def readBody (rc : Bytes → Except Err (List Frame × Bytes)) (o : ParseOpts) (v : Version) (id : FrameId)
    (flags : FrameFlags) (size : Nat) (r : Bytes) : Except Err Parsed :=
  if size = 0 then .error .parse
  else do
    let c := if flags.unsync then desync (r.take size) else r.take size
    let c ← handleCompression o flags c
    if flags.encryption.isSome then handleEncryption id flags size c (r.drop size)
    else parseFrame rc o v id flags c (r.drop size)

/-- `ParsedFrame::read` behind the header, frame/read.rs 61-229. -/
def readKnown (rc : Bytes → Except Err (List Frame × Bytes)) (o : ParseOpts) (v : Version) (tagUnsync : Bool)
    (id : FrameId) (flags : FrameFlags) (size : Nat) (r : Bytes) : Except Err Parsed :=
  if o.readCover = false ∧ id = .valid (str "APIC") then .ok (.skip (r.drop size))
  else
    let flags := if tagUnsync && v == .v4 then { flags with unsync := true } else flags
    if size = 0 then (if o.mode = .strict then .error .parse else .ok (.skip r))
    else do
      let (flags, size, r) ← flagData flags size r
      readBody rc o v id flags size r

/-- `ParsedFrame::read`, frame/read.rs 24-230; at the end the header bytes have been consumed. -/
def readFrame (rc : Bytes → Except Err (List Frame × Bytes)) (o : ParseOpts) (v : Version) (tagUnsync : Bool) (r : Bytes) :
    Except Err Parsed :=
  match parseFrameHeader v o.implicit r with
  | .none => .ok (.eof (r.drop (if v = .v2 then 6 else 10)))
  | .bad size rest => if o.mode = .strict then .error .parse else .ok (.skip (rest.drop size))
  | .frame id flags size rest => readKnown rc o v tagUnsync id flags size rest

/-- One parsed frame added to the list, read.rs 163-185. -/
def addFrame (l : List Frame) (f : Frame) : List Frame :=
  match (insert l f).1 with
  | none => (insert l f).2
  | some old => if f.isEmpty = some true ∧ old.isEmpty = some false then (insert (insert l f).2 old).2 else (insert l f).2

/-- The loop of `read_all_frames_into_list`, read.rs 161-191; the fuel is the number of bytes left plus
one (every round but the last consumes a header). -/
def readLoop (rc : Bytes → Except Err (List Frame × Bytes)) (o : ParseOpts) (v : Version) (tagUnsync : Bool) :
    Nat → Bytes → List Frame → Except Err (List Frame × Bytes)
  | 0, _, _ => .error .diverge
  | n + 1, r, l =>
    match readFrame rc o v tagUnsync r with
    | .error e => .error e
    | .ok (.eof rest) => .ok (l, rest)
    | .ok (.skip rest) => readLoop rc o v tagUnsync n rest l
    | .ok (.next f rest) => readLoop rc o v tagUnsync n rest (addFrame l f)

/-- `read_all_frames_into_list`, read.rs 153-194, for at most `d` levels of chapter frames; the
frames inside a chapter are read with default tag flags (items/chapter_frame.rs 197-198,
items/table_of_contents_frame.rs 263-264).  The list and what was left unread. -/
def readAll (o : ParseOpts) (v : Version) : Nat → Bool → Bytes → Except Err (List Frame × Bytes)
  | 0, _, _ => .error .diverge
  | d + 1, tagUnsync, r => readLoop (readAll o v d false) o v tagUnsync (r.length + 1) r []

/-- `str[..2]` and `str[2..]` as numbers, read.rs 89-97 and 107-115. -/
def twoNumbers (s : Str) : Option (Nat × Nat) :=
  if (utf8 s).length ≠ 4 ∨ s.any (fun c => 127 < c.toNat) then none
  else
    match parseUInt 256 (s.take 2), parseUInt 256 (s.drop 2) with
    | some a, some b => some (a, b)
    | _, _ => none

/-- The text of a frame as two numbers, read.rs 85-97 and 103-115. -/
def numbersOf (l : List Frame) (id : Str) : Option (Nat × Nat) := (getText l (.valid id)).bind twoNumbers

/-- `construct_tdrc_from_v3`, read.rs 56-135. -/
def constructTdrc (l : List Frame) : List Frame :=
  match remove l (.valid (str "TDRC")) with
  | ([], _) => l
  | (.leaf _ (.time y) :: _, l') =>
    if y.time.month.isSome then l'
    else
      match numbersOf l' (str "TDAT") with
      | none => (insert l' (.leaf {} (.time ⟨.valid (str "TDRC"), y.enc, { year := y.time.year }⟩))).2
      | some (day, month) =>
        match numbersOf l' (str "TIME") with
        | none =>
          (remove (insert l' (.leaf {} (.time ⟨.valid (str "TDRC"), y.enc,
            { year := y.time.year, month := some month, day := some day }⟩))).2 (.valid (str "TDAT"))).2
        | some (hour, minute) =>
          (remove (remove (insert l' (.leaf {} (.time ⟨.valid (str "TDRC"), y.enc,
            { year := y.time.year, month := some month, day := some day, hour := some hour, minute := some minute }⟩))).2
            (.valid (str "TDAT"))).2 (.valid (str "TIME"))).2
  | (f :: _, l') => (insert l' f).2

/-- `parse_id3v2`, read.rs 13-54, on the `header.size - header.extended_size` bytes of the tag
behind its header. -/
def parseTag (o : ParseOpts) (v : Version) (unsync : Bool) (depth : Nat) (body : Bytes) : Except Err (List Frame) := do
  let (l, _) ← readAll o v depth unsync (if unsync && v != .v4 then desync body else body)
  .ok (if o.implicit && v == .v3 then constructTdrc l else l)

/-! ## Writing -/

/-- `Frame::as_bytes` of the contents, frame/mod.rs 248-293. -/
def Content.asBytes (o : WriteOpts) : Content → Except Err Bytes
  | .comment f => f.asBytes o
  | .lyrics f => f.asBytes o
  | .text f => f.asBytes o
  | .userText f => f.asBytes o
  | .url f => f.asBytes o
  | .userUrl f => f.asBytes o
  | .picture f => f.asBytes o
  | .pop f => f.asBytes o
  | .keyValue f => f.asBytes o
  | .rva f => f.asBytes o
  | .ufid f => f.asBytes o
  | .owner f => f.asBytes o
  | .etco f => .ok f.asBytes
  | .priv f => f.asBytes o
  | .time f => f.asBytes o
  | .binary _ d => .ok d

/-- `verify_frame` for the contents, write/frame.rs 266-293. -/
def verifyContent (c : Content) : Bool :=
  let s := c.id.asStr
  match c with
  | .picture _ | .lyrics _ | .comment _ | .userText _ | .userUrl _ | .binary _ _ | .ufid _ | .pop _ | .rva _ | .priv _ => true
  | .keyValue _ => s = str "TIPL" || s = str "TMCL"
  | .text _ => s = str "WFED" || appleIds.contains s || startsWith 'T' s
  | .time _ => timeIds.contains s
  | .url _ => startsWith 'W' s
  | .owner _ | .etco _ => false

/-- `verify_frame`, write/frame.rs 266-293. -/
def verifyFrame : Frame → Bool
  | .leaf _ c => verifyContent c
  | _ => true

/-- `write_encrypted`, write/frame.rs 331-369. -/
def writeEncrypted (o : WriteOpts) (name : Str) (flags : FrameFlags) (sym : UInt8) (value : Bytes) : Except Err Bytes :=
  if sym ≤ 0x80 then .error .encode
  else
    match flags.dataLength with
    | none => .error .encode
    | some len =>
      if len = 0 then .error .encode
      else do
        let h ← writeFrameHeader o.v23 name ((value.length + 1) % 2 ^ 32) flags
        let len ← lengthIndicator len
        .ok (h ++ beBytes 4 len ++ sym :: value)
where
  /-- write/frame.rs 355-357. -/
  lengthIndicator (len : Nat) : Except Err Nat :=
    if o.v23 then .ok len
    else match synch len with
      | some n => .ok n
      | none => .error .tooMuch

/-- `write_frame`, write/frame.rs 295-329; `len + 1` may overflow. -/
def writeFrame (o : WriteOpts) (name : Str) (flags : FrameFlags) (value : Bytes) : Except Err Bytes :=
  match flags.encryption with
  | some sym => writeEncrypted o name flags sym value
  | none =>
    match flags.grouping with
    | none => do
      let h ← writeFrameHeader o.v23 name (value.length % 2 ^ 32) flags
      .ok (h ++ value)
    | some g =>
      if value.length % 2 ^ 32 + 1 = 2 ^ 32 then .error .panic
      else do
        let h ← writeFrameHeader o.v23 name (value.length % 2 ^ 32 + 1) flags
        .ok (h ++ g :: value)

/-- `FRAMES_TO_DISCARD`, write/frame.rs 64-67. -/
def v4Only : List Str :=
  [str "ASPI", str "EQU2", str "RVA2", str "SEEK", str "SIGN", str "TDEN", str "TDRL", str "TDTG", str "TMOO", str "TPRO",
   str "TSOA", str "TSOP", str "TSOT", str "TSST"]

/-- `parse_genre` with `preserve_indexes`, tag.rs 302-319 (a number of at most three digits is kept as
it is). -/
def parseGenreKeep (g : Str) : Str :=
  if 3 < (utf8 g).length then g
  else if (parseUInt (2 ^ 64) g).isSome then g
  else if g = str "RX" then str "Remix"
  else if g = str "CR" then str "Cover"
  else g

/-- One step of `GenresIter::next`, tag.rs 272-299, on the non-empty remaining text: the raw genre
and what is left. -/
def genreStep (s : Str) : Str × Str :=
  if s.contains '\x00' then (s.takeWhile (· ≠ '\x00'), (s.dropWhile (· ≠ '\x00')).drop 1)
  else if startsWith '(' s && s.contains ')' then
    let inner := (s.drop 1).takeWhile (· ≠ ')')
    let rest := (s.dropWhile (· ≠ ')')).drop 1
    (if startsWith '(' (s.drop 1) then inner ++ [')'] else inner, rest)
  else (s, [])

/-- `GenresIter::new(value, true).collect()`, tag.rs 253-300; the fuel is the length of the text. -/
def genresKeep : Nat → Str → List Str
  | 0, _ => []
  | n + 1, s => if s.isEmpty then [] else parseGenreKeep (genreStep s).1 :: genresKeep n (genreStep s).2

/-- The loop over the genres of `TCON`, write/frame.rs 173-186. -/
def joinGenres : List Str → Str
  | [] => []
  | g :: gs =>
    (if g = str "Remix" then str "(RX)"
     else if g = str "Cover" then str "(CR)"
     else if gs.isEmpty ∧ parseUInt 256 g = none then g
     else '(' :: g ++ [')']) ++ joinGenres gs

/-- What `create_items_v3` does to a `TCON` text, write/frame.rs 164-189. -/
def genresV3 (s : Str) : Str := joinGenres (genresKeep s.length s)

/-- The text frames a `TDRC` becomes, write/frame.rs 115-142. -/
def splitTdrc (t : TimeF) : List TextF :=
  ⟨.valid (str "TYER"), t.enc.toId3v23, toDec t.time.year⟩ :: (date t ++ time t)
where
  /-- write/frame.rs 126-133. -/
  date (t : TimeF) : List TextF :=
    match t.time.month, t.time.day with
    | some m, some d => [⟨.valid (str "TDAT"), t.enc.toId3v23, Timestamp.pad 2 d ++ Timestamp.pad 2 m⟩]
    | _, _ => []
  /-- write/frame.rs 135-142. -/
  time (t : TimeF) : List TextF :=
    match t.time.hour, t.time.minute with
    | some h, some m => [⟨.valid (str "TIME"), t.enc.toId3v23, Timestamp.pad 2 h ++ Timestamp.pad 2 m⟩]
    | _, _ => []

/-- What the loops of `create_items` and `create_items_v3` do with a frame before it is written. -/
inductive Step
  | skip
  | refuse
  | replace (l : List Content)
  | people (e : Encoding) (pairs : List (Str × Str))
  | write

/-- The `match` of `create_items_v3`, write/frame.rs 85-241. -/
def stepV3 : Frame → Step
  | .leaf _ c =>
    if c.id.asStr = str "TDOR" then
      match c with
      | .time t => if t.time.verify then .replace [.time ⟨.valid (str "TORY"), t.enc, { year := t.time.year }⟩] else .skip
      | _ => .skip
    else if c.id.asStr = str "TDRC" then
      match c with
      | .time t => if t.time.verify then .replace ((splitTdrc t).map .text) else .skip
      | _ => .skip
    else if c.id.asStr = str "TCON" then
      match c with
      | .text t => .replace [.text ⟨t.id, t.enc, genresV3 t.value⟩]
      | _ => .skip
    else if c.id.asStr = str "TIPL" ∨ c.id.asStr = str "TMCL" then
      match c with
      | .keyValue k => .people k.enc.toId3v23 k.pairs
      | _ => .skip
    else .write
  | _ => .write

/-- `strip_outdated_frames`, the discarded ids and `verify_frame`, write/frame.rs 15-26, 37-38
and 74-83. -/
def prepare (o : WriteOpts) (f : Frame) : Step :=
  if f.id.isValid = false then .skip
  else if o.v23 && v4Only.contains f.id.asStr then .skip
  else if verifyFrame f = false then .refuse
  else if o.v23 then stepV3 f
  else .write

/-- The replacements of a frame are written with its flags, write/frame.rs 144-157 and 243-253. -/
def writeLeaves (o : WriteOpts) (flags : FrameFlags) : List Content → Except Err Bytes
  | [] => .ok []
  | c :: l => do
    let v ← c.asBytes o
    let b ← writeFrame o c.id.asStr flags v
    let r ← writeLeaves o flags l
    .ok (b ++ r)

/-- One pair appended to the text of the `IPLS` frame, write/frame.rs 222-236. -/
def addPair (s : Str) (p : Str × Str) : Str := (if s.isEmpty then [] else s ++ ['\x00']) ++ p.1 ++ '\x00' :: p.2

/-- The `IPLS` frame after a `TIPL` or `TMCL` frame, write/frame.rs 207-236. -/
def addPeople (ipls : Option TextF) (e : Encoding) (pairs : List (Str × Str)) : TextF :=
  let f := ipls.getD ⟨.valid (str "IPLS"), e, []⟩
  { f with value := pairs.foldl addPair f.value }

/-- The pending `IPLS` frame, write/frame.rs 256-261. -/
def writePeople (o : WriteOpts) : Option TextF → Except Err Bytes
  | none => .ok []
  | some f => do
    let v ← f.asBytes o
    writeFrame o (str "IPLS") {} v

/-- Whether a frame is a table of contents at the top level. -/
def Frame.isRoot : Frame → Bool
  | .toc _ _ top .. => top
  | _ => false

/-- The entries of a table of contents, items/table_of_contents_frame.rs 197-201. -/
def entriesBytes (o : WriteOpts) : List Str → Except Err Bytes
  | [] => .ok []
  | e :: l => do
    let b ← o.text .latin1 e true
    let r ← entriesBytes o l
    .ok (b ++ r)

/-- The fields of a chapter, items/chapter_frame.rs 136-144. -/
def chapterHead (o : WriteOpts) (id : Str) (times offsets : Nat × Nat) : Except Err Bytes := do
  let i ← o.text .latin1 id true
  .ok (i ++ beBytes 4 times.1 ++ beBytes 4 times.2 ++ beBytes 4 offsets.1 ++ beBytes 4 offsets.2)

/-- `u8::from(CtocFlags)`, items/table_of_contents_frame.rs 46-60. -/
def ctocByte (top ordered : Bool) : UInt8 := (if ordered then 1 else 0) ||| (if top then 2 else 0)

/-- The fields of a table of contents, items/table_of_contents_frame.rs 185-201. -/
def tocHead (o : WriteOpts) (id : Str) (top ordered : Bool) (entries : List Str) : Except Err Bytes :=
  if entries.length > 255 then .error .tooMuch
  else do
    let i ← o.text .latin1 id true
    let e ← entriesBytes o entries
    .ok (i ++ ctocByte top ordered :: UInt8.ofNat entries.length :: e)

mutual

/-- `Frame::as_bytes`, frame/mod.rs 248-293, with `ChapterFrame::as_bytes`,
items/chapter_frame.rs 118-160 and `ChapterTableOfContentsFrame::as_bytes`,
items/table_of_contents_frame.rs 168-217 (whether a top level table is to be skipped is decided by the
caller). -/
def Frame.asBytes (o : WriteOpts) : Frame → Except Err Bytes
  | .leaf _ c => c.asBytes o
  | .chapter _ id times offsets ch => do
    let h ← chapterHead o id times offsets
    let b ← itemsFrom o false none ch
    .ok (h ++ b)
  | .toc _ id top ordered entries ch => do
    let h ← tocHead o id top ordered entries
    let b ← itemsFrom o false none ch
    .ok (h ++ b)

/-- The loops of `create_items` and `create_items_v3`, write/frame.rs 28-53 and 55-264: `root` is
`ctx.ctoc_root_encountered`, `ipls` the merged list of people (ID3v2.3 only). -/
def itemsFrom (o : WriteOpts) (root : Bool) (ipls : Option TextF) : List Frame → Except Err Bytes
  | [] => writePeople o ipls
  | f :: fs =>
    match prepare o f with
    | .skip => itemsFrom o root ipls fs
    | .refuse => .error .encode
    | .people e pairs => itemsFrom o root (some (addPeople ipls e pairs)) fs
    | .replace l => do
      let b ← writeLeaves o f.flags l
      let r ← itemsFrom o root ipls fs
      .ok (b ++ r)
    | .write =>
      if f.isRoot && root then itemsFrom o root ipls fs
      else do
        let v ← f.asBytes o
        let b ← writeFrame o f.id.asStr f.flags v
        let r ← itemsFrom o (root || f.isRoot) ipls fs
        .ok (b ++ r)

end

/-- `create_items` and `create_items_v3`, write/frame.rs 28-53 and 55-264. -/
def createItems (o : WriteOpts) (fs : List Frame) : Except Err Bytes := itemsFrom o false none fs

end Lofty.Id3v2
