import Verif.Model.Bytes
/-!
# Synchsafe integers and unsynchronised streams

Models `lofty/src/id3/v2/util/synchsafe.rs`.
-/
namespace Lofty.Synchsafe

/-- `<u8 as SynchsafeInteger>::synch`, synchsafe.rs 248-261 and 278-282.
`none` is `Err(SynchOverflowError)`; the limit is `u8::MAX >> 1`. -/
def synch8 (n : BitVec 8) : Option (BitVec 8) :=
  if n > (0xFF#8 >>> 1) then none else some (n &&& 0x7F#8)

/-- `<u8 as SynchsafeInteger>::unsynch`, synchsafe.rs 270-273, 287-289. -/
def unsynch8 (u : BitVec 8) : BitVec 8 := u &&& 0x7F#8

/-- `<u8 as SynchsafeInteger>::widening_synch`, synchsafe.rs 263-268, 283-286. -/
def widen8 (n : BitVec 8) : BitVec 16 :=
  (0#16 ||| (n &&& 0x7F#8).setWidth 16) ||| ((n &&& 0x80#8).setWidth 16 <<< 1)

/-- `<u16 as SynchsafeInteger>::synch`, synchsafe.rs 248-261 and 294-297.  The
limit is `u16::MAX >> 2`. -/
def synch16 (n : BitVec 16) : Option (BitVec 16) :=
  if n > (0xFFFF#16 >>> 2) then none
  else some ((n &&& 0x7F#16) ||| ((n &&& (0x7F#16 <<< 7)) <<< 1))

/-- `<u16 as SynchsafeInteger>::unsynch`, synchsafe.rs 303-305. -/
def unsynch16 (u : BitVec 16) : BitVec 16 :=
  ((u &&& 0x7F00#16) >>> 1) ||| (u &&& 0x7F#16)

/-- `<u16 as SynchsafeInteger>::widening_synch`, synchsafe.rs 298-302. -/
def widen16 (n : BitVec 16) : BitVec 32 :=
  ((0#32 ||| (n &&& 0x7F#16).setWidth 32) ||| (((n &&& (0x7F#16 <<< 7)) <<< 1).setWidth 32))
    ||| ((n &&& (0x03#16 <<< 14)).setWidth 32 <<< 2)

/-- `<u32 as SynchsafeInteger>::synch`, synchsafe.rs 248-261 and 310-315.  The
limit is `u32::MAX >> 4`. -/
def synch32 (n : BitVec 32) : Option (BitVec 32) :=
  if n > (0xFFFFFFFF#32 >>> 4) then none
  else some ((((n &&& 0x7F#32) ||| ((n &&& (0x7F#32 <<< 7)) <<< 1))
    ||| ((n &&& (0x7F#32 <<< 14)) <<< 2)) ||| ((n &&& (0x7F#32 <<< 21)) <<< 3))

/-- `<u32 as SynchsafeInteger>::unsynch`, synchsafe.rs 323-325. -/
def unsynch32 (u : BitVec 32) : BitVec 32 :=
  ((((u &&& 0x7F000000#32) >>> 3) ||| ((u &&& 0x7F0000#32) >>> 2)) ||| ((u &&& 0x7F00#32) >>> 1))
    ||| (u &&& 0x7F#32)

/-- `<u32 as SynchsafeInteger>::widening_synch`, synchsafe.rs 316-322. -/
def widen32 (n : BitVec 32) : BitVec 64 :=
  ((((0#64 ||| (n &&& 0x7F#32).setWidth 64)
    ||| ((n &&& (0x7F#32 <<< 7)).setWidth 64 <<< 1))
    ||| ((n &&& (0x7F#32 <<< 14)).setWidth 64 <<< 2))
    ||| ((n &&& (0x7F#32 <<< 21)).setWidth 64 <<< 3))
    ||| ((n &&& (0x0F#32 <<< 28)).setWidth 64 <<< 4)

/-- `UnsynchronizedStream`, synchsafe.rs 30-37.  `avail` is
`buf[pos..bytes_available]`; `inner` is the sequence of chunks that the wrapped
reader will return from its successive `read` calls (an empty chunk, or no chunk
left, is a read of 0 bytes). -/
structure Stream where
  avail : Bytes
  inner : List Bytes
  ff : Bool
  deriving DecidableEq, Repr

/-- `UnsynchronizedStream::new`, synchsafe.rs 51-59. -/
def Stream.new (inner : List Bytes) : Stream := ⟨[], inner, false⟩

/-- The loop of `<UnsynchronizedStream as Read>::read`, synchsafe.rs 108-142;
`n` is `dest_len - dest_pos`.  Returns the bytes stored in the destination and
the new state. -/
def readLoop (n : Nat) (avail : Bytes) (inner : List Bytes) (ff : Bool) : Bytes × Stream :=
  match n, avail, inner with
  | 0, avail, inner => ([], ⟨avail, inner, ff⟩)
  | _ + 1, [], [] => ([], ⟨[], [], ff⟩)
  | _ + 1, [], [] :: cs => ([], ⟨[], cs, ff⟩)
  | n + 1, [], (b :: c) :: cs => readLoop (n + 1) (b :: c) cs ff
  | n + 1, b :: rest, cs =>
    if ff && b == 0 then readLoop (n + 1) rest cs false
    else
      let r := readLoop n rest cs (b == 0xFF)
      (b :: r.1, r.2)
termination_by (inner.length, avail.length)

/-- `<UnsynchronizedStream as Read>::read` with a destination of `n` bytes,
synchsafe.rs 101-145. -/
def Stream.read (s : Stream) (n : Nat) : Bytes × Stream :=
  if n = 0 then ([], s) else readLoop n s.avail s.inner s.ff

/-- A caller issuing reads of the given sizes, collecting each result. -/
def Stream.reads (s : Stream) : List Nat → List Bytes × Stream
  | [] => ([], s)
  | n :: ns =>
    let r := s.read n
    let rs := r.2.reads ns
    (r.1 :: rs.1, rs.2)

end Lofty.Synchsafe
