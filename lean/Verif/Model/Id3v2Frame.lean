import Verif.Model.Id3v2Header
import Verif.Model.Timestamp
/-!
# ID3v2 frame headers

`lofty/src/id3/v2/frame/mod.rs` (flags), `lofty/src/id3/v2/frame/header/mod.rs`,
`lofty/src/id3/v2/frame/header/parse.rs`, `lofty/src/id3/v2/util/upgrade.rs` and the header part of
`lofty/src/id3/v2/write/frame.rs`.
-/
namespace Lofty.Id3v2

/-! ## Flags -/

/-- `FrameFlags`, frame/mod.rs 320-360. -/
structure FrameFlags where
  tagAlter : Bool := false
  fileAlter : Bool := false
  readOnly : Bool := false
  grouping : Option UInt8 := none
  compression : Bool := false
  encryption : Option UInt8 := none
  unsync : Bool := false
  dataLength : Option Nat := none
  deriving DecidableEq, Repr

/-- `(cond).then_some(0)`. -/
def someZero {α} [OfNat α 0] (c : Bool) : Option α := if c then some 0 else none

/-- `FrameFlags::parse_id3v24`, frame/mod.rs 369-380. -/
def FrameFlags.parseV24 (flags : UInt16) : FrameFlags where
  tagAlter := flags &&& 0x4000 == 0x4000
  fileAlter := flags &&& 0x2000 == 0x2000
  readOnly := flags &&& 0x1000 == 0x1000
  grouping := someZero (flags &&& 0x0040 == 0x0040)
  compression := flags &&& 0x0008 == 0x0008
  encryption := someZero (flags &&& 0x0004 == 0x0004)
  unsync := flags &&& 0x0002 == 0x0002
  dataLength := someZero (flags &&& 0x0001 == 0x0001)

/-- `FrameFlags::parse_id3v23`, frame/mod.rs 387-398. -/
def FrameFlags.parseV23 (flags : UInt16) : FrameFlags where
  tagAlter := flags &&& 0x8000 == 0x8000
  fileAlter := flags &&& 0x4000 == 0x4000
  readOnly := flags &&& 0x2000 == 0x2000
  grouping := someZero (flags &&& 0x0020 == 0x0020)
  compression := flags &&& 0x0080 == 0x0080
  encryption := someZero (flags &&& 0x0040 == 0x0040)
  unsync := false
  dataLength := none

/-- `if c { flags |= v }`. -/
def bit (c : Bool) (v : UInt16) : UInt16 := if c then v else 0

/-- `FrameFlags::as_id3v24_bytes`, frame/mod.rs 401-441 (the early return for the default
flags returns the same 0 as the assignments do). -/
def FrameFlags.asV24 (f : FrameFlags) : UInt16 :=
  bit f.tagAlter 0x4000 ||| bit f.fileAlter 0x2000 ||| bit f.readOnly 0x1000 ||| bit f.grouping.isSome 0x0040
    ||| bit f.compression 0x0008 ||| bit f.encryption.isSome 0x0004 ||| bit f.unsync 0x0002
    ||| bit f.dataLength.isSome 0x0001

/-- `FrameFlags::as_id3v23_bytes`, frame/mod.rs 444-476. -/
def FrameFlags.asV23 (f : FrameFlags) : UInt16 :=
  bit f.tagAlter 0x8000 ||| bit f.fileAlter 0x4000 ||| bit f.readOnly 0x2000 ||| bit f.grouping.isSome 0x0020
    ||| bit f.compression 0x0080 ||| bit f.encryption.isSome 0x0040

/-! ## Frame ids -/

/-- `FrameId`, frame/header/mod.rs 65-75. -/
inductive FrameId
  | valid (s : Str)
  | outdated (s : Str)
  deriving DecidableEq, Repr

/-- `FrameId::as_str`, frame/header/mod.rs 148-152. -/
def FrameId.asStr : FrameId → Str
  | .valid s => s
  | .outdated s => s

/-- `FrameId::is_valid`, frame/header/mod.rs 143-145. -/
def FrameId.isValid : FrameId → Bool
  | .valid _ => true
  | .outdated _ => false

/-- One character of `FrameId::verify_id`, frame/header/mod.rs 154-164. -/
def idChar (c : Char) : Bool :=
  ('A'.toNat ≤ c.toNat && c.toNat ≤ 'Z'.toNat) || ('0'.toNat ≤ c.toNat && c.toNat ≤ '9'.toNat)

/-- `FrameId::new` / `new_cow`, frame/header/mod.rs 86-104 (`id.len()` is the number of
bytes; all characters are ASCII at that point). -/
def FrameId.new (s : Str) : Except Err FrameId :=
  if s.all idChar = false then .error .parse
  else if s.length = 3 then .ok (.outdated s)
  else if s.length = 4 then .ok (.valid s)
  else .error .parse

/-- `V2_KEYS`, util/upgrade.rs 64-144. -/
def v2Keys : List (String × String) :=
  [("BUF", "RBUF"), ("CNT", "PCNT"), ("COM", "COMM"), ("CRA", "AENC"), ("ETC", "ETCO"), ("GEO", "GEOB"),
   ("IPL", "TIPL"), ("MCI", "MCDI"), ("MLL", "MLLT"), ("PIC", "APIC"), ("POP", "POPM"), ("REV", "RVRB"),
   ("SLT", "SYLT"), ("STC", "SYTC"), ("TAL", "TALB"), ("TBP", "TBPM"), ("TCM", "TCOM"), ("TCO", "TCON"),
   ("TCP", "TCMP"), ("TCR", "TCOP"), ("TDY", "TDLY"), ("TEN", "TENC"), ("TFT", "TFLT"), ("TKE", "TKEY"),
   ("TLA", "TLAN"), ("TLE", "TLEN"), ("TMT", "TMED"), ("TOA", "TOAL"), ("TOF", "TOFN"), ("TOL", "TOLY"),
   ("TOR", "TDOR"), ("TOT", "TOAL"), ("TP1", "TPE1"), ("TP2", "TPE2"), ("TP3", "TPE3"), ("TP4", "TPE4"),
   ("TPA", "TPOS"), ("TPB", "TPUB"), ("TRC", "TSRC"), ("TRD", "TDRC"), ("TRK", "TRCK"), ("TS2", "TSO2"),
   ("TSA", "TSOA"), ("TSC", "TSOC"), ("TSP", "TSOP"), ("TSS", "TSSE"), ("TST", "TSOT"), ("TT1", "TIT1"),
   ("TT2", "TIT2"), ("TT3", "TIT3"), ("TXT", "TOLY"), ("TXX", "TXXX"), ("TYE", "TDRC"), ("UFI", "UFID"),
   ("ULT", "USLT"), ("WAF", "WOAF"), ("WAR", "WOAR"), ("WAS", "WOAS"), ("WCM", "WCOM"), ("WCP", "WCOP"),
   ("WPB", "WPUB"), ("WXX", "WXXX"), ("PCS", "PCST"), ("TCT", "TCAT"), ("TDS", "TDES"), ("TID", "TGID"),
   ("WFD", "WFED"), ("MVI", "MVIN"), ("MVN", "MVNM"), ("GP1", "GRP1"), ("TDR", "TDRL")]

/-- `V3_KEYS`, util/upgrade.rs 145-151. -/
def v3Keys : List (String × String) := [("TORY", "TDOR"), ("TYER", "TDRC"), ("IPLS", "TIPL")]

/-- `HashMap::get` of a table of string literals (every key occurs once). -/
def lookupKey (t : List (String × String)) (s : Str) : Option Str :=
  (t.find? fun p => p.1.toList == s).map fun p => p.2.toList

/-- `upgrade_v2`, util/upgrade.rs 17-19. -/
def upgradeV2 (s : Str) : Option Str := lookupKey v2Keys s

/-- `upgrade_v3`, util/upgrade.rs 33-35. -/
def upgradeV3 (s : Str) : Option Str := lookupKey v3Keys s

/-! ## Reading a header -/

/-- Outcome of `parse_v2_header` / `parse_header`: no frame (padding or end), a header
that cannot be used together with the size that was read, or id, flags and size.  In the latter two
cases the reader behind the header is included. -/
inductive FrameHeader
  | none
  | bad (size : Nat) (rest : Bytes)
  | frame (id : FrameId) (flags : FrameFlags) (size : Nat) (rest : Bytes)
  deriving DecidableEq

/-- The result of parsing an id, as a header. -/
def FrameHeader.ofId (id : Except Err FrameId) (flags : FrameFlags) (size : Nat) (rest : Bytes) : FrameHeader :=
  match id with
  | .ok id => .frame id flags size rest
  | .error _ => .bad size rest

/-- The id part of `parse_v2_header`, header/parse.rs 31-39. -/
def idV2 (b : Bytes) : Except Err FrameId :=
  match fromUtf8 b with
  | some s => FrameId.new ((upgradeV2 s).getD s)
  | none => .error .parse

/-- `parse_v2_header`, header/parse.rs 12-43. -/
def parseHeaderV2 (r : Bytes) : FrameHeader :=
  match r with
  | a :: b :: c :: s1 :: s2 :: s3 :: rest =>
    if a = 0 then .none
    else FrameHeader.ofId (idV2 [a, b, c]) {} (fromBE [0, s1, s2, s3]) rest
  | _ => .none

/-- The id part of `parse_header`, header/parse.rs 69-102. -/
def idV34 (synchsafe implicit : Bool) (a b c d : UInt8) : Except Err FrameId :=
  if d = 0 ∧ synchsafe = false then
    match Text.utf8Decode [a, b, c] with
    | .ok s => FrameId.new ((upgradeV2 s).getD s)
    | .error _ => .error .parse
  else
    match Text.utf8Decode [a, b, c, d] with
    | .ok s => FrameId.new (if synchsafe = false ∧ implicit = true then (upgradeV3 s).getD s else s)
    | .error _ => .error .parse

/-- `parse_header`, header/parse.rs 46-110. -/
def parseHeaderV34 (synchsafe implicit : Bool) (r : Bytes) : FrameHeader :=
  match r with
  | a :: b :: c :: d :: s1 :: s2 :: s3 :: s4 :: f1 :: f2 :: rest =>
    if a = 0 then .none
    else
      let size := fromBE [s1, s2, s3, s4]
      let size := if synchsafe then unsynch size else size
      let flags := UInt16.ofNat (fromBE [f1, f2])
      FrameHeader.ofId (idV34 synchsafe implicit a b c d)
        (if synchsafe then FrameFlags.parseV24 flags else FrameFlags.parseV23 flags) size rest
  | _ => .none

/-- The choice of the header parser in `ParsedFrame::read`, frame/read.rs 35-39. -/
def parseFrameHeader (v : Version) (implicit : Bool) (r : Bytes) : FrameHeader :=
  match v with
  | .v2 => parseHeaderV2 r
  | .v3 => parseHeaderV34 false implicit r
  | .v4 => parseHeaderV34 true implicit r

/-! ## Writing a header -/

/-- `write_frame_header`, write/frame.rs 371-396; `len as u32` has been applied. -/
def writeFrameHeader (v23 : Bool) (name : Str) (len : Nat) (flags : FrameFlags) : Except Err Bytes :=
  if v23 then .ok (utf8 name ++ beBytes 4 len ++ beBytes 2 flags.asV23.toNat)
  else match synch len with
    | some n => .ok (utf8 name ++ beBytes 4 n ++ beBytes 2 flags.asV24.toNat)
    | none => .error .tooMuch

end Lofty.Id3v2
