import Verif.Model.ChannelMask
/-!
# What a channel mask should say
-/
namespace Lofty.Masks.Spec
open Channels Channels.Speaker

/-- The number of speakers that a mask of 32 bits names. -/
def speakers (mask : Nat) : Nat := ((List.range 32).filter (mask.testBit ·)).length

/-- The mask names these speakers and no others. -/
def Names (mask : Nat) (l : List Speaker) : Prop := mask < 2 ^ 32 ∧ ∀ i < 32, mask.testBit i = true ↔ ∃ s ∈ l, s.bit = i

instance (mask : Nat) (l : List Speaker) : Decidable (Names mask l) := by unfold Names; infer_instance

/-- The speakers of an Opus stream with `n` channels, RFC 7845 section 5.1.1.2. -/
def rfc7845 : Nat → List Speaker
  | 1 => [frontCenter]
  | 2 => [frontLeft, frontRight]
  | 3 => [frontLeft, frontCenter, frontRight]
  | 4 => [frontLeft, frontRight, backLeft, backRight]
  | 5 => [frontLeft, frontCenter, frontRight, backLeft, backRight]
  | 6 => [frontLeft, frontCenter, frontRight, backLeft, backRight, lowFrequency]
  | 7 => [frontLeft, frontCenter, frontRight, sideLeft, sideRight, backCenter, lowFrequency]
  | 8 => [frontLeft, frontCenter, frontRight, sideLeft, sideRight, backLeft, backRight, lowFrequency]
  | _ => []

/-- The speakers of the channel configuration `n` of AAC, ISO 14496-3 table 1.19 and the page that the documentation of
`ChannelMask::from_mp4_channels` refers to. -/
def iso14496 : Nat → List Speaker
  | 1 => [frontCenter]
  | 2 => [frontLeft, frontRight]
  | 3 => [frontCenter, frontLeft, frontRight]
  | 4 => [frontCenter, frontLeft, frontRight, backCenter]
  | 5 => [frontCenter, frontLeft, frontRight, backLeft, backRight]
  | 6 => [frontCenter, frontLeft, frontRight, backLeft, backRight, lowFrequency]
  | 7 => [frontCenter, frontLeft, frontRight, sideLeft, sideRight, backLeft, backRight, lowFrequency]
  | _ => []

end Lofty.Masks.Spec
