import Verif.Model.OggCrc
/-!
# OGG pages, packets and pagination, `ogg_pager/src`

Machine integers are `Nat`; the fixed widths show up where values are written
(`leBytes k` keeps the low `8*k` bits).  `usize` is taken to be 64 bits wide and
sums of lengths are assumed not to overflow it.
-/
namespace Lofty.Ogg

/-- `PAGE_HEADER_SIZE`, header.rs 8. -/
def pageHeaderSize : Nat := 27
/-- `MAX_WRITTEN_SEGMENT_COUNT`, lib.rs 18. -/
def maxWrittenSegments : Nat := 32
/-- `MAX_WRITTEN_CONTENT_SIZE`, lib.rs 19. -/
def maxWrittenContent : Nat := maxWrittenSegments * 255
/-- `CONTINUED_PACKET`, lib.rs 17. -/
def continuedPacket : UInt8 := 0x01
/-- `CONTAINS_FIRST_PAGE_OF_BITSTREAM`, lib.rs 27. -/
def firstPageFlag : UInt8 := 0x02
/-- `CONTAINS_LAST_PAGE_OF_BITSTREAM`, lib.rs 29. -/
def lastPageFlag : UInt8 := 0x04
/-- `1_u64.wrapping_neg()`, paginate.rs 88. -/
def noGranule : Nat := 2 ^ 64 - 1

/-- `PageHeader`, header.rs 11-24. -/
structure PageHeader where
  start : Nat
  flag : UInt8
  abgp : Nat
  serial : Nat
  seq : Nat
  segments : Bytes
  checksum : Nat
  deriving DecidableEq

/-- `PageHeader::content_size`, header.rs 104-106. -/
def PageHeader.contentSize (h : PageHeader) : Nat := (h.segments.map UInt8.toNat).sum

/-- `Page`, lib.rs 33-38. -/
structure Page where
  content : Bytes
  header : PageHeader
  stop : Nat
  deriving DecidableEq

/-- `Page::as_bytes`, lib.rs 56-74 (`num_segments as u8` truncates). -/
def Page.asBytes (p : Page) : Bytes :=
  ascii "OggS" ++ [0] ++ [p.header.flag] ++ leBytes 8 p.header.abgp ++ leBytes 4 p.header.serial
    ++ leBytes 4 p.header.seq ++ leBytes 4 p.header.checksum
    ++ [UInt8.ofNat p.header.segments.length] ++ p.header.segments ++ p.content

/-- `Page::gen_crc`, lib.rs 101-105. -/
def Page.genCrc (p : Page) : Page :=
  let z : Page := { p with header := { p.header with checksum := 0 } }
  { z with header := { z.header with checksum := (crc32 z.asBytes).toNat } }

/-- `PageHeader::read`, header.rs 54-101, with the reader at stream position `pos`. -/
def PageHeader.read (pos : Nat) (d : Bytes) : Except Err (PageHeader × Bytes) := do
  let (sig, d) ← readN 4 d
  if sig ≠ ascii "OggS" then .error .parse
  else
    let (version, d) ← readU8 d
    if version ≠ 0 then .error .parse
    else
      let (flag, d) ← readU8 d
      let (abgp, d) ← readLE 8 d
      let (serial, d) ← readLE 4 d
      let (seq, d) ← readLE 4 d
      let (checksum, d) ← readLE 4 d
      let (n, d) ← readU8 d
      if n < 1 then .error .parse
      else
        let (table, d) ← readN n.toNat d
        .ok ({ start := pos, flag, abgp, serial, seq, segments := table, checksum }, d)

/-- `Page::read`, lib.rs 82-98. -/
def Page.read (pos : Nat) (d : Bytes) : Except Err (Page × Bytes) := do
  let (header, d') ← PageHeader.read pos d
  let (content, d'') ← readN header.contentSize d'
  .ok ({ content, header, stop := pos + (d.length - d''.length) }, d'')

/-! ## Packets -/

/-- `Packets`, packets.rs 11-14. -/
structure Packets where
  content : Bytes
  sizes : List Nat
  deriving DecidableEq

/-- `Packets::get_byte_count_to_read`, packets.rs 137-154: the number of bytes and
the new `packet_bytes_already_read`. -/
def byteCountToRead (size : Nat) : Option Nat → Nat × Option Nat
  | some already => (size - already, some (already + (size - already)))
  | none => (size, some size)

/-- The local variables of `read_count`, packets.rs 72-86. -/
structure ReadState where
  content : Bytes
  sizes : List Nat
  packetsRead : Int
  size : Nat
  already : Option Nat

/-- `if count != -1 { packets_read += 1; }`, packets.rs 92-94. -/
def bumpRead (count r : Int) : Int := if count ≠ -1 then r + 1 else r

/-- The `for i in header.segments` loop of `read_count`, packets.rs 88-112; the
Boolean tells whether `break 'outer` was taken. -/
def readSegments (count : Int) : List UInt8 → ReadState → Bytes →
    Except Err (ReadState × Bytes × Bool)
  | [], st, d => .ok (st, d, false)
  | i :: segs, st, d =>
    let st := { st with size := st.size + i.toNat }
    if i < 255 then do
      let st := { st with packetsRead := bumpRead count st.packetsRead }
      let (n, _) := byteCountToRead st.size st.already
      let (c, d) ← readN n d
      let st := { st with sizes := st.sizes ++ [st.size], size := 0, already := none,
                          content := st.content ++ c }
      if st.packetsRead = count then .ok (st, d, true)
      else readSegments count segs st d
    else readSegments count segs st d

/-- The outer `while let Ok(header)` loop of `read_count`, packets.rs 87-125.
`fuel` bounds the number of pages; every page takes at least 28 bytes, so
`d.length + 1` is enough (`readCount_no_diverge`).  The second component is the
rest of the input if the loop ended by `break 'outer`, else `none` (a failed
header read leaves the reader at an unspecified position). -/
def readPages (count : Int) : Nat → ReadState → Bytes → Except Err (ReadState × Option Bytes)
  | 0, _, _ => .error .diverge
  | fuel + 1, st, d =>
    match PageHeader.read 0 d with
    | .error _ => .ok (st, none)
    | .ok (header, d) => do
      let (st, d, stop) ← readSegments count header.segments st d
      if stop then .ok (st, some d)
      else if st.size ≠ 0 then do
        let (n, already) := byteCountToRead st.size st.already
        let (c, d) ← readN n d
        readPages count fuel { st with already := already, content := st.content ++ c } d
      else readPages count fuel st d

/-- `Packets::read_count`, packets.rs 68-135. -/
def Packets.readCount (d : Bytes) (count : Int) : Except Err (Packets × Option Bytes) :=
  if count = 0 ∨ count < -1 then .ok (⟨[], []⟩, some d)
  else do
    let (st, rest) ← readPages count (d.length + 1)
      { content := [], sizes := [], packetsRead := 0, size := 0, already := none } d
    if count ≠ -1 ∧ (st.sizes.length : Int) ≠ count then .error .notEnough
    else .ok (⟨st.content, st.sizes⟩, rest)

/-- `Packets::read`, packets.rs 35-40. -/
def Packets.read (d : Bytes) : Except Err (Packets × Option Bytes) := Packets.readCount d (-1)

/-- `Packets::packet_span`, packets.rs 199-216. -/
def Packets.span (p : Packets) (idx : Nat) : Option (Nat × Nat) :=
  match p.sizes[idx]? with
  | none => none
  | some n => let start := (p.sizes.take idx).sum; some (start, start + n)

/-- `Packets::get`, packets.rs 242-244 (slicing out of range is a panic). -/
def Packets.get (p : Packets) (idx : Nat) : Except Err (Option Bytes) :=
  match p.span idx with
  | none => .ok none
  | some (a, b) =>
    if b ≤ p.content.length then .ok (some ((p.content.drop a).take (b - a))) else .error .panic

/-- `Packets::set`, packets.rs 278-290 (`Vec::splice` panics out of range). -/
def Packets.set (p : Packets) (idx : Nat) (c : Bytes) : Except Err (Packets × Bool) :=
  match p.span idx with
  | none => .ok (p, false)
  | some (a, b) =>
    if b ≤ p.content.length then
      .ok (⟨p.content.take a ++ c ++ p.content.drop b, p.sizes.set idx c.length⟩, true)
    else .error .panic

/-- The sequence of packets produced by `PacketsIter`, packets.rs 412-450
(`split_at` panics out of range). -/
def iterFrom : Bytes → List Nat → Except Err (List Bytes)
  | _, [] => .ok []
  | content, n :: ns =>
    if n ≤ content.length then do
      let l ← iterFrom (content.drop n) ns
      .ok (content.take n :: l)
    else .error .panic

/-- `Packets::iter`, packets.rs 309-311. -/
def Packets.iter (p : Packets) : Except Err (List Bytes) := iterFrom p.content p.sizes

/-! ## Pagination -/

/-- `PaginateContext` with its flags, paginate.rs 9-20 and 115-119. -/
structure Ctx where
  pages : List Page
  abgp : Nat
  serial : Nat
  headerFlags : UInt8
  firstPage : Bool
  fresh : Bool
  finished : Bool
  pos : Nat
  idx : Nat
  remaining : Nat
  curLen : Nat
  lastSeg : Option UInt8

/-- `PaginateContext::new`, paginate.rs 23-40. -/
def Ctx.new (abgp serial : Nat) (flags : UInt8) : Ctx :=
  { pages := [], abgp, serial, headerFlags := flags, firstPage := true, fresh := true,
    finished := false, pos := 0, idx := 0, remaining := maxWrittenContent, curLen := 0,
    lastSeg := none }

/-- `PaginateContext::fresh_packet`, paginate.rs 42-48. -/
def Ctx.freshPacket (c : Ctx) (packet : Bytes) : Ctx :=
  { c with fresh := true, pos := 0, curLen := packet.length,
           lastSeg := some (UInt8.ofNat (packet.length % 255)) }

/-- `PaginateContext::flush_page`, paginate.rs 50-112.  The two `debug_assert!`s
and the `expect` are panics. -/
def Ctx.flush (c : Ctx) (content : Bytes) : Except Err Ctx :=
  let flag : UInt8 :=
    if c.firstPage && c.headerFlags &&& firstPageFlag != 0 then firstPageFlag
    else if !c.fresh then continuedPacket
    else 0
  let pos := c.pos + content.length
  let full := content.length / 255
  if c.curLen < pos then .error .panic
  else if maxWrittenSegments < full then .error .panic
  else
    let abgp := if c.finished then c.abgp else noGranule
    let segs : Except Err Bytes :=
      if full ≠ maxWrittenSegments then
        match c.lastSeg with
        | none => .error .panic
        | some s => .ok (List.replicate full 255 ++ [s])
      else .ok (List.replicate full 255)
    match segs with
    | .error e => .error e
    | .ok segments =>
      let header : PageHeader :=
        { start := c.pos, flag, abgp, serial := c.serial, seq := c.idx % 2 ^ 32, segments,
          checksum := 0 }
      .ok { c with pages := c.pages ++ [{ content, header, stop := pos }], pos := pos,
                   idx := c.idx + 1, finished := false, remaining := maxWrittenContent }

/-- The `loop` of `paginate_packet`, paginate.rs 161-183; the result is the context
and the page content not yet flushed.  `fuel` bounds the iterations (running out
is `diverge`, proved unreachable by `paginate_eq`). -/
def paginateLoop : Nat → Ctx → Bytes → Bytes → Except Err (Ctx × Bytes)
  | 0, _, _, _ => .error .diverge
  | fuel + 1, c, pageContent, packet =>
    if packet.isEmpty then .ok (c, pageContent)
    else do
      let n := min c.remaining packet.length
      let pageContent := pageContent ++ packet.take n
      let c := { c with remaining := c.remaining - n }
      let packet := packet.drop n
      let c := if n ≤ maxWrittenContent ∧ packet.isEmpty then { c with finished := true } else c
      let (c, pageContent) ←
        if c.remaining = 0 ∨ packet.isEmpty then (do
          let c ← c.flush pageContent
          .ok (c, []))
        else .ok (c, pageContent)
      paginateLoop fuel { c with firstPage := false, fresh := false } pageContent packet

/-- `paginate_packet`, paginate.rs 158-212. -/
def paginatePacket (c : Ctx) (packet : Bytes) : Except Err Ctx := do
  let (c, left) ← paginateLoop (2 * packet.length + 1) c [] packet
  let c ← if left.isEmpty then .ok c else c.flush left
  if c.curLen ≠ 0 ∧ c.curLen % (255 * maxWrittenSegments) = 0 then
    ({ c with finished := true } : Ctx).flush []
  else .ok c

/-- The `for packet in packets` loop of `paginate`, paginate.rs 144-147. -/
def paginateAll : Ctx → List Bytes → Except Err Ctx
  | c, [] => .ok c
  | c, p :: ps => do
    let c ← paginatePacket (c.freshPacket p) p
    paginateAll c ps

/-- Set the last-page flag on the last page, paginate.rs 149-153. -/
def setLast (pages : List Page) : List Page :=
  match pages.getLast? with
  | none => pages
  | some p => pages.dropLast ++ [{ p with header := { p.header with flag := p.header.flag ||| lastPageFlag } }]

/-- `paginate`, paginate.rs 138-156. -/
def paginate (packets : List Bytes) (serial abgp : Nat) (flags : UInt8) : Except Err (List Page) := do
  let c ← paginateAll (Ctx.new abgp serial flags) packets
  if flags &&& lastPageFlag = 0x04 then .ok (setLast c.pages) else .ok c.pages

/-- `Packets::paginate`, packets.rs 341-351 (slicing out of range panics, as in the
iterator). -/
def Packets.paginate (p : Packets) (serial abgp : Nat) (flags : UInt8) : Except Err (List Page) := do
  let l ← p.iter
  Ogg.paginate l serial abgp flags

/-- `Packets::write_to`, packets.rs 387-406: the bytes written (the count returned
is the number of pages). -/
def Packets.writeTo (p : Packets) (serial abgp : Nat) (flags : UInt8) : Except Err (Bytes × Nat) := do
  let pages ← p.paginate serial abgp flags
  .ok ((pages.map fun q => q.genCrc.asBytes).flatten, pages.length)

end Lofty.Ogg
