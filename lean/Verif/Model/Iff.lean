import Verif.Model.File
import Verif.Model.Ascii
/-!
# IFF chunks, RIFF INFO lists and AIFF text chunks

`lofty/src/iff/chunk.rs`, `lofty/src/iff/wav/read.rs`, `lofty/src/iff/wav/tag/*.rs`,
`lofty/src/iff/aiff/read.rs`, `lofty/src/iff/aiff/tag/mod.rs`.
-/
namespace Lofty.Iff

/-- `valid_fourcc`, iff/chunk.rs 21-32; `sp` is `has_spaces`. -/
def validFourccFrom : Bool → Bytes → Bool
  | _, [] => true
  | sp, b :: bs =>
    let sp := sp || b == 0x20
    (0x20 ≤ b && b ≤ 0x7E && (!sp || b == 0x20)) && validFourccFrom sp bs

/-- `valid_fourcc`, iff/chunk.rs 21-32. -/
def validFourcc (b : Bytes) : Bool := validFourccFrom false b

/-- `Chunks`, iff/chunk.rs 35-43; the reader is the file `f` at `pos`. -/
structure Chunks where
  f : Bytes
  pos : Nat
  total : Nat
  remaining : Nat
  cs : Nat
  cr : Nat
  lock : Option (Nat × Nat)

/-- `Chunks::new`, iff/chunk.rs 47-57. -/
def Chunks.new (f : Bytes) (pos size : Nat) : Chunks := ⟨f, pos, size, size, 0, 0, none⟩

/-- `Chunks::stream_position`, iff/chunk.rs 59-61. -/
def Chunks.streamPosition (c : Chunks) : Nat := c.total - c.remaining

/-- `Chunks::correct_position`, iff/chunk.rs 196-232. -/
def Chunks.correctPosition (c : Chunks) (size : Nat) : Except Err Chunks :=
  if size % 2 = 0 ∨ c.remaining < 1 then .ok c
  else do
    let p ← readAt c.f c.pos 1
    if p ≠ [0] ∧ c.remaining > 4 then do
      let r ← readAt c.f (c.pos + 1) 3
      if validFourcc (p ++ r) then .ok c
      else .ok { c with pos := c.pos + 1, remaining := c.remaining - 1 }
    else .ok { c with pos := c.pos + 1, remaining := c.remaining - 1 }

/-- `Chunks::skip`, iff/chunk.rs 128-145. -/
def Chunks.skip (c : Chunks) : Except Err Chunks := do
  let c := if c.cr > 0 then { c with pos := c.pos + c.cr, remaining := c.remaining - c.cr, cr := 0 } else c
  let c ← c.correctPosition c.cs
  .ok { c with cs := 0 }

/-- The public part of `Chunk`, iff/chunk.rs 235-242. -/
structure Hdr where
  fourcc : Bytes
  size : Nat
  start : Nat
  deriving DecidableEq

/-- The header of `Chunks::next` after skipping, iff/chunk.rs 76-125.  `be` is the byte
order. -/
def Chunks.header (be strict : Bool) (c : Chunks) : Except Err (Option Hdr × Chunks) :=
  if c.remaining < 8 then .ok (none, c)
  else do
    let id ← readAt c.f c.pos 4
    if !validFourcc id then
      if strict then .error .sizeMismatch else .ok (none, { c with pos := c.pos + 4, remaining := 0 })
    else do
      let s ← readAt c.f (c.pos + 4) 4
      let size := if be then fromBE s else fromLE s
      if size > c.remaining then
        if strict then .error .sizeMismatch else .ok (none, { c with pos := c.pos + 8, remaining := 0 })
      else .ok (some ⟨id, size, c.total - c.remaining⟩,
        { c with pos := c.pos + 8, remaining := c.remaining - 8, cs := size, cr := size })

/-- `Chunks::next`, iff/chunk.rs 70-126. -/
def Chunks.next (be strict : Bool) (c : Chunks) : Except Err (Option Hdr × Chunks) := do
  let c ← c.skip
  c.header be strict

/-- `Chunks::lock`, iff/chunk.rs 152-164 (`stream_position` is not used while locked). -/
def Chunks.lockIn (c : Chunks) : Except Err Chunks :=
  if c.lock.isSome then .error .panic
  else .ok { c with lock := some (c.remaining - c.cr, c.cs), remaining := c.cr, cs := 0, cr := 0 }

/-- `Chunks::unlock`, iff/chunk.rs 170-194. -/
def Chunks.unlock (c : Chunks) : Except Err Chunks :=
  match c.lock with
  | none => .ok c
  | some (outer, parent) => do
    let c ← ({ c with lock := none } : Chunks).skip
    ({ c with pos := c.pos + c.remaining, remaining := outer, cs := 0, cr := 0 } : Chunks).correctPosition parent

/-- `read_exact` through `Chunk`, iff/chunk.rs 302-309: at most the rest of the chunk. -/
def Chunks.readExact (c : Chunks) (n : Nat) : Except Err (Bytes × Chunks) :=
  if n ≤ c.cr then do
    let b ← readAt c.f c.pos n
    .ok (b, { c with pos := c.pos + n, remaining := c.remaining - n, cr := c.cr - n })
  else .error .eof

/-! ## WAV -/

/-- One RIFF INFO item: key and value. -/
abbrev Item := Str × Str

/-- `parse_riff_info`, iff/wav/tag/read.rs 11-50.  `fuel` bounds the number of chunks (each
takes eight bytes). -/
def parseInfo (strict : Bool) : Nat → Chunks → List Item → Except Err (Chunks × List Item)
  | 0, _, _ => .error .diverge
  | fuel + 1, c, items => do
    let (h, c) ← c.next false strict
    match h with
    | none => .ok (c, items)
    | some h => do
      let key ← Text.utf8Decode h.fourcc
      if !validFourcc h.fourcc then .error .parse
      else do
        let (b, c) ← c.readExact h.size
        match Text.utf8Decode b with
        | .ok v => parseInfo strict fuel c (items ++ [(key, v)])
        | .error e => if strict then .error e else parseInfo strict fuel c items

/-- `verify_wav`, iff/wav/read.rs 16-30. -/
def verifyWav (f : Bytes) : Except Err Nat := do
  let id ← readAt f 0 12
  if id.take 4 ≠ ascii "RIFF" ∨ id.drop 8 ≠ ascii "WAVE" then .error .parse
  else .ok (fromLE ((id.drop 4).take 4))

/-- One chunk of the loop of `read_from`, iff/wav/read.rs 56-117, reading tags but no
properties.  `id3` stands for the parsing of an ID3v2 chunk. -/
def wavChunk (strict : Bool) (id3 : Bytes → Except Err Unit) (fileLen : Nat) (h : Hdr) (c : Chunks)
    (items : List Item) : Except Err (Chunks × List Item) :=
  if h.fourcc = ascii "LIST" then
    if h.size < 4 then .error .sizeMismatch
    else do
      let (ty, c) ← c.readExact 4
      if ty ≠ ascii "INFO" then .ok (c, items)
      else if c.streamPosition + (h.size - 4) > fileLen then .error .sizeMismatch
      else do
        let c ← c.lockIn
        let (c, items) ← parseInfo strict (c.remaining + 1) c items
        let c ← c.unlock
        .ok (c, items)
  else if h.fourcc = ascii "ID3 " ∨ h.fourcc = ascii "id3 " then do
    let (b, c) ← c.readExact h.size
    if b.length < 10 then
      if strict then .error .parse else .ok (c, items)
    else do
      let _ ← id3 b
      .ok (c, items)
  else .ok (c, items)

/-- The loop of `read_from`, iff/wav/read.rs 55-118. -/
def wavLoop (strict : Bool) (id3 : Bytes → Except Err Unit) (fileLen : Nat) :
    Nat → Chunks → List Item → Except Err (List Item)
  | 0, _, _ => .error .diverge
  | fuel + 1, c, items => do
    let (h, c) ← c.next false strict
    match h with
    | none => .ok items
    | some h => do
      let (c, items) ← wavChunk strict id3 fileLen h c items
      wavLoop strict id3 fileLen fuel c items

/-- `read_from`, iff/wav/read.rs 32-134, without properties: the RIFF INFO items. -/
def readWav (strict : Bool) (id3 : Bytes → Except Err Unit) (f : Bytes) : Except Err (List Item) := do
  let _ ← verifyWav f
  let fileLen := f.length - 12
  wavLoop strict id3 fileLen (fileLen + 1) (Chunks.new f 12 fileLen) []

/-- One item of `create_riff_info`, iff/wav/tag/write.rs 156-173 (`len as u32` truncates). -/
def infoItem (i : Item) : Bytes :=
  if i.2.isEmpty then []
  else
    let len := (utf8 i.2).length + 1
    utf8 i.1 ++ leBytes 4 len ++ utf8 i.2 ++ (if len % 2 = 0 then [0] else [0, 0])

/-- `create_riff_info`, iff/wav/tag/write.rs 143-187. -/
def createInfo (items : List Item) : Except Err Bytes :=
  if items.isEmpty then .ok []
  else
    let body := ascii "INFO" ++ items.flatMap infoItem
    if body.length > 2 ^ 32 - 1 then .error .tooMuch
    else .ok (ascii "LIST" ++ leBytes 4 body.length ++ body)

/-- `find_info_list`, iff/wav/tag/write.rs 110-141: the size of the INFO list and the
position behind its list type. -/
def findInfo (strict : Bool) : Nat → Chunks → Except Err (Option (Nat × Nat))
  | 0, _ => .error .diverge
  | fuel + 1, c => do
    let (h, c) ← c.next false strict
    match h with
    | none => .ok none
    | some h =>
      if h.fourcc ≠ ascii "LIST" then findInfo strict fuel c
      else do
        let (ty, c) ← c.readExact 4
        if ty = ascii "INFO" then .ok (some (h.size, c.pos)) else findInfo strict fuel c

/-- `Vec::splice(a..b, w)`; out of range panics. -/
def splice (f : Bytes) (a b : Nat) (w : Bytes) : Except Err Bytes :=
  if a ≤ b ∧ b ≤ f.length then .ok (f.take a ++ w ++ f.drop b) else .error .panic

/-- `write_riff_info`, iff/wav/tag/write.rs 22-108.  `u32` additions that overflow and the
`u32`/`u64` subtractions that go below zero panic (debug build). -/
def writeInfo (strict : Bool) (f : Bytes) (items : List Item) : Except Err Bytes := do
  let orig ← verifyWav f
  let info ← createInfo items
  if 2 ^ 32 ≤ orig + 8 then .error .panic
  else if f.length < orig + 8 then .error .sizeMismatch
  else if orig < 4 then .error .panic
  else do
    let found ← findInfo strict (orig + 1) (Chunks.new f 12 (orig - 4))
    match found with
    | none =>
      let new := info.length + orig
      if new > 2 ^ 32 - 1 then .error .tooMuch
      else do
        let g ← splice f (orig + 8) (orig + 8) info
        .ok (writeAt g 4 (leBytes 4 new))
    | some (size, pos) =>
      let start := pos - 12
      if 2 ^ 32 ≤ 8 + size then .error .panic
      else if orig < 8 + size then .error .panic
      else
        let new := info.length + (orig - (8 + size))
        if new > 2 ^ 32 - 1 then .error .tooMuch
        else do
          let g ← splice f start (start + (8 + size)) info
          splice g 4 8 (leBytes 4 new)

/-! ## RIFF INFO editing -/

/-- `RiffInfoList::get`, iff/wav/tag/mod.rs 81-86. -/
def get (items : List Item) (key : Str) : Option Str := (items.find? fun i => i.1 = key).map (·.2)

/-- Removing the first item whose key matches, ignoring case. -/
def eraseKey (key : Str) : List Item → List Item
  | [] => []
  | i :: is => if eqIc i.1 key then is else i :: eraseKey key is

/-- `RiffInfoList::insert`, iff/wav/tag/mod.rs 93-105. -/
def insert (items : List Item) (key value : Str) : List Item :=
  if (utf8 key).length = 4 ∧ validFourcc (utf8 key) then eraseKey key items ++ [(key, value)] else items

/-- `RiffInfoList::remove`, iff/wav/tag/mod.rs 111-122. -/
def remove (items : List Item) (key : Str) : Option Str × List Item :=
  ((items.find? fun i => eqIc i.1 key).map (·.2), eraseKey key items)

/-! ## AIFF -/

/-- `Comment`, iff/aiff/tag/mod.rs 23-38; `timestamp` is a `u32`, `marker` a `u16`. -/
structure Comment where
  timestamp : Nat
  marker : Nat
  text : Str
  deriving DecidableEq

/-- `AiffTextChunks`, iff/aiff/tag/mod.rs 64-83. -/
structure Aiff where
  name : Option Str
  author : Option Str
  copyright : Option Str
  annotations : Option (List Str)
  comments : Option (List Comment)
  deriving DecidableEq

/-- `write_chunk`, iff/aiff/tag/mod.rs 351-367. -/
def writeText (key : Bytes) : Option Str → Bytes
  | none => []
  | some v =>
    if (utf8 v).length < 2 ^ 32 then
      key ++ beBytes 4 (utf8 v).length ++ utf8 v ++ (if (utf8 v).length % 2 ≠ 0 then [0] else [])
    else []

/-- One comment of the `COMT` chunk, iff/aiff/tag/mod.rs 385-402. -/
def writeComment (c : Comment) : Except Err Bytes :=
  if (utf8 c.text).length > 65535 then .error .tooMuch
  else .ok (beBytes 4 c.timestamp ++ beBytes 2 c.marker ++ beBytes 2 (utf8 c.text).length ++ utf8 c.text
    ++ (if (utf8 c.text).length % 2 ≠ 0 then [0] else []))

/-- The comment loop, iff/aiff/tag/mod.rs 385-402. -/
def writeComments : List Comment → Except Err Bytes
  | [] => .ok []
  | c :: cs => do
    let a ← writeComment c
    let b ← writeComments cs
    .ok (a ++ b)

/-- The `COMT` chunk, iff/aiff/tag/mod.rs 371-414. -/
def writeComt : Option (List Comment) → Except Err Bytes
  | none => .ok []
  | some cs =>
    if cs.isEmpty then .ok []
    else if cs.length > 65535 then .error .tooMuch
    else do
      let b ← writeComments cs
      let content := beBytes 2 cs.length ++ b
      if content.length ≥ 2 ^ 32 then .error .tooMuch
      else .ok (ascii "COMT" ++ beBytes 4 content.length ++ content ++ (if content.length % 2 ≠ 0 then [0] else []))

/-- `create_text_chunks`, iff/aiff/tag/mod.rs 348-425. -/
def createText (t : Aiff) : Except Err Bytes := do
  let comt ← writeComt t.comments
  .ok (comt ++ writeText (ascii "NAME") t.name ++ writeText (ascii "AUTH") t.author
    ++ writeText (ascii "(c) ") t.copyright
    ++ ((t.annotations.getD []).flatMap fun a => writeText (ascii "ANNO") (some a)))

/-- `verify_aiff`, iff/aiff/read.rs 22-45. -/
def verifyAiff (f : Bytes) : Except Err Unit := do
  let id ← readAt f 0 12
  if id.take 4 ≠ ascii "FORM" then .error .parse
  else if id.drop 8 = ascii "AIFF" ∨ id.drop 8 = ascii "AIFC" then .ok ()
  else .error .parse

/-- `read_string`, iff/chunk.rs 262-265. -/
def readString (c : Chunks) (size : Nat) : Except Err (Str × Chunks) := do
  let (b, c) ← c.readExact size
  let s ← Text.utf8Decode b
  .ok (s, c)

/-- The comment loop of `parse_comments`, iff/aiff/read.rs 125-137. -/
def parseComments : Nat → Chunks → List Comment → Except Err (List Comment × Chunks)
  | 0, c, out => .ok (out, c)
  | n + 1, c, out => do
    let (ts, c) ← c.readExact 4
    let (mk, c) ← c.readExact 2
    let (sz, c) ← c.readExact 2
    let (text, c) ← readString c (fromBE sz)
    parseComments n c (out ++ [⟨fromBE ts, fromBE mk, text⟩])

/-- What the AIFF reader collects. -/
structure AiffAcc where
  name : Option Str
  author : Option Str
  copyright : Option Str
  annotations : List Str
  comments : List Comment

/-- One chunk of the loop of `read_from`, iff/aiff/read.rs 73-172, reading tags but no
properties.  `id3` stands for the parsing of an ID3v2 chunk. -/
def aiffChunk (strict : Bool) (id3 : Bytes → Except Err Unit) (h : Hdr) (c : Chunks) (a : AiffAcc) :
    Except Err (Chunks × AiffAcc) :=
  if h.fourcc = ascii "ID3 " ∨ h.fourcc = ascii "id3 " then do
    let (b, c) ← c.readExact h.size
    if b.length < 10 then
      if strict then .error .parse else .ok (c, a)
    else do
      let _ ← id3 b
      .ok (c, a)
  else if h.fourcc = ascii "ANNO" then do
    let (s, c) ← readString c h.size
    .ok (c, { a with annotations := a.annotations ++ [s] })
  else if h.fourcc = ascii "COMT" ∧ a.comments = [] then
    if h.size < 2 then .ok (c, a)
    else do
      let (n, c) ← c.readExact 2
      let (cs, c) ← parseComments (fromBE n) c []
      .ok (c, { a with comments := cs })
  else if h.fourcc = ascii "NAME" ∧ a.name = none then do
    let (s, c) ← readString c h.size
    .ok (c, { a with name := some s })
  else if h.fourcc = ascii "AUTH" ∧ a.author = none then do
    let (s, c) ← readString c h.size
    .ok (c, { a with author := some s })
  else if h.fourcc = ascii "(c) " ∧ a.copyright = none then do
    let (s, c) ← readString c h.size
    .ok (c, { a with copyright := some s })
  else .ok (c, a)

/-- The loop of `read_from`, iff/aiff/read.rs 72-173. -/
def aiffLoop (strict : Bool) (id3 : Bytes → Except Err Unit) : Nat → Chunks → AiffAcc → Except Err AiffAcc
  | 0, _, _ => .error .diverge
  | fuel + 1, c, a => do
    let (h, c) ← c.next true strict
    match h with
    | none => .ok a
    | some h => do
      let (c, a) ← aiffChunk strict id3 h c a
      aiffLoop strict id3 fuel c a

/-- `read_from`, iff/aiff/read.rs 47-221, without properties: the text chunks. -/
def readAiff (strict : Bool) (id3 : Bytes → Except Err Unit) (f : Bytes) : Except Err Aiff := do
  let _ ← verifyAiff f
  let fileLen := f.length - 12
  let a ← aiffLoop strict id3 (fileLen + 1) (Chunks.new f 12 fileLen) ⟨none, none, none, [], []⟩
  .ok ⟨a.name, a.author, a.copyright, if a.annotations.isEmpty then none else some a.annotations,
    if a.comments.isEmpty then none else some a.comments⟩

/-- The text chunk identifiers, iff/aiff/tag/mod.rs 501. -/
def textIds : List Bytes := [ascii "NAME", ascii "AUTH", ascii "(c) ", ascii "ANNO", ascii "COMT"]

/-- The end of `find_text_chunks`, iff/aiff/tag/mod.rs 524-531: a file without `COMM` is
refused. -/
def foundText (ranges : List (Nat × Nat)) : Option Nat → Except Err (List (Nat × Nat) × Nat)
  | none => .error .parse
  | some p => .ok (ranges, p)

/-- `find_text_chunks`, iff/aiff/tag/mod.rs 486-532: the ranges of the text chunks and the
position behind the last `COMM` chunk. -/
def findText (strict : Bool) : Nat → Chunks → List (Nat × Nat) → Option Nat → Except Err (List (Nat × Nat) × Nat)
  | 0, _, _, _ => .error .diverge
  | fuel + 1, c, ranges, comm => do
    let (h, c) ← c.next true strict
    match h with
    | none => foundText ranges comm
    | some h =>
      if h.fourcc ∈ textIds then do
        let c ← c.skip
        findText strict fuel c (ranges ++ [(h.start + 12, c.streamPosition + 12)]) comm
      else if h.fourcc = ascii "COMM" then do
        let c ← c.skip
        findText strict fuel c ranges (some (c.streamPosition + 12))
      else findText strict fuel c ranges comm

/-- `Vec::drain(range)` for ranges in the given order; out of range panics. -/
def drainRanges : Bytes → List (Nat × Nat) → Except Err Bytes
  | f, [] => .ok f
  | f, (a, b) :: rs => do
    let f ← splice f a b []
    drainRanges f rs

/-- `AiffTextChunksRef::write_to_inner`, iff/aiff/tag/mod.rs 427-473.  The ranges are found
in increasing order of their start, so sorting them changes nothing and the code drains
them from the last to the second. -/
def writeAiff (strict : Bool) (f : Bytes) (t : Aiff) : Except Err Bytes := do
  let _ ← verifyAiff f
  let fileLen := f.length - 12
  let text ← createText t
  let (ranges, comm) ← findText strict (fileLen + 1) (Chunks.new f 12 fileLen) [] none
  let g ← match ranges with
    | [] => splice f comm comm text
    | (a, b) :: rs => do
      let g ← drainRanges f rs.reverse
      splice g a b text
  if g.length < 8 then .error .panic
  else splice g 4 8 (beBytes 4 ((g.length - 8) % 2 ^ 32))

end Lofty.Iff
