import Verif.Model.Bytes
/-! # Channel masks, `lofty/src/properties/channel_mask.rs` -/
namespace Lofty.Channels

/-- The speakers of `define_channels!`, channel_mask.rs 32-71, as bit numbers. -/
inductive Speaker
  | frontLeft | frontRight | frontCenter | lowFrequency | backLeft | backRight | frontLeftOfCenter
  | frontRightOfCenter | backCenter | sideLeft | sideRight | topCenter | topFrontLeft | topFrontCenter
  | topFrontRight | topBackLeft | topBackCenter | topBackRight
  deriving DecidableEq, Repr

open Speaker

/-- The shifts of `define_channels!`, channel_mask.rs 32-71. -/
def Speaker.bit : Speaker → Nat
  | frontLeft => 0 | frontRight => 1 | frontCenter => 2 | lowFrequency => 3 | backLeft => 4 | backRight => 5
  | frontLeftOfCenter => 6 | frontRightOfCenter => 7 | backCenter => 8 | sideLeft => 9 | sideRight => 10
  | topCenter => 11 | topFrontLeft => 12 | topFrontCenter => 13 | topFrontRight => 14 | topBackLeft => 15
  | topBackCenter => 16 | topBackRight => 17

/-- `1 << shift`, channel_mask.rs 12. -/
def Speaker.mask (s : Speaker) : Nat := 1 <<< s.bit

/-- `ChannelMask::mono`, channel_mask.rs 76-78. -/
def mono : Nat := frontCenter.mask
/-- `ChannelMask::stereo`, channel_mask.rs 82-85. -/
def stereo : Nat := frontLeft.mask ||| frontRight.mask
/-- `ChannelMask::linear_surround`, channel_mask.rs 89-91. -/
def linearSurround : Nat := frontLeft.mask ||| frontRight.mask ||| frontCenter.mask

/-- `ChannelMask::from_opus_channels`, channel_mask.rs 101-138. -/
def fromOpus : Nat → Option Nat
  | 1 => some mono
  | 2 => some stereo
  | 3 => some linearSurround
  | 4 => some (frontLeft.mask ||| frontRight.mask ||| backLeft.mask ||| backRight.mask)
  | 5 => some (linearSurround ||| backLeft.mask ||| backRight.mask)
  | 6 => some (linearSurround ||| backLeft.mask ||| backRight.mask ||| lowFrequency.mask)
  | 7 => some (linearSurround ||| sideLeft.mask ||| sideRight.mask ||| backCenter.mask ||| lowFrequency.mask)
  | 8 => some (linearSurround ||| sideLeft.mask ||| sideRight.mask ||| backLeft.mask ||| backRight.mask
      ||| lowFrequency.mask)
  | _ => none

/-- `ChannelMask::from_mp4_channels`, channel_mask.rs 143-175. -/
def fromMp4 : Nat → Option Nat
  | 1 => some mono
  | 2 => some stereo
  | 3 => some linearSurround
  | 4 => some (frontLeft.mask ||| frontRight.mask ||| backLeft.mask ||| backRight.mask)
  | 5 => some (linearSurround ||| backLeft.mask ||| backRight.mask)
  | 6 => some (linearSurround ||| backLeft.mask ||| backRight.mask ||| lowFrequency.mask)
  | 7 => some (linearSurround ||| sideLeft.mask ||| sideRight.mask ||| backLeft.mask ||| backRight.mask
      ||| lowFrequency.mask)
  | _ => none

end Lofty.Channels
