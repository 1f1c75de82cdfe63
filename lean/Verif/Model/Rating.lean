import Verif.Model.ItemKey
/-!
# Star ratings

`lofty/src/tag/items/popularimeter.rs`.
-/
namespace Lofty.Rating
open Lofty.Item (TagType)

/-- `StarRating`, popularimeter.rs 58-70. -/
inductive Star
  | one | two | three | four | five
  deriving DecidableEq, Repr

/-- `rating as u8`, popularimeter.rs 58-70. -/
def Star.toNat : Star → Nat
  | .one => 1
  | .two => 2
  | .three => 3
  | .four => 4
  | .five => 5

/-- `u8::saturating_mul`. -/
def satMul (a b : Nat) : Nat := min (a * b) 255

/-- The trait `RatingProvider`, popularimeter.rs 78-87. -/
structure Provider where
  supports : Str → Bool
  rate : TagType → Star → Nat
  convert : TagType → Nat → Star

/-- `WMP_EMAIL`, popularimeter.rs 318. -/
def wmpEmail : Str := str "Windows Media Player 9 Series"

/-- `MUSICBEE_EMAIL`, popularimeter.rs 319. -/
def musicbeeEmail : Str := str "MusicBee"

/-- `PICARD_EMAIL`, popularimeter.rs 320. -/
def picardEmail : Str := str "users@musicbrainz.org"

/-- A `match` on `..=a`, `..=b`, `..=c`, `..=d` and the rest. -/
def byLimits (a b c d r : Nat) : Star :=
  if r ≤ a then .one else if r ≤ b then .two else if r ≤ c then .three else if r ≤ d then .four else .five

/-- `MusicBeeProvider`, popularimeter.rs 175-215. -/
def musicbee : Provider where
  supports e := e = musicbeeEmail
  rate t s := if t = .id3v2 then
      match s with
      | .one => 1
      | .two => 64
      | .three => 128
      | .four => 196
      | .five => 255
    else satMul s.toNat 20
  convert t r := if t = .id3v2 then byLimits 1 64 128 196 r else byLimits 20 40 60 80 r

/-- `DefaultRatingProvider`, popularimeter.rs 150-163. -/
def default : Provider where
  supports _ := true
  rate := musicbee.rate
  convert := musicbee.convert

/-- `WindowsMediaPlayerProvider`, popularimeter.rs 222-235. -/
def wmp : Provider where
  supports e := e = wmpEmail
  rate _ s := musicbee.rate .id3v2 s
  convert _ r := musicbee.convert .id3v2 r

/-- `PicardProvider`, popularimeter.rs 242-280. -/
def picard : Provider where
  supports e := e = picardEmail
  rate t s := if t = .id3v2 then satMul s.toNat 51 else satMul s.toNat 5
  convert t r := if t = .id3v2 then byLimits 51 102 153 204 r else byLimits 5 10 15 20 r

/-- Which of the providers a popularimeter has. -/
inductive Kind
  | wmp | musicbee | picard | custom
  deriving DecidableEq, Repr

/-- The provider of a kind; `custom` is the one set by the user or the default one, popularimeter.rs
139-141 and 165-168. -/
def Kind.provider (custom : Provider) : Kind → Provider
  | .wmp => Rating.wmp
  | .musicbee => Rating.musicbee
  | .picard => Rating.picard
  | .custom => custom

/-- `Popularimeter`, popularimeter.rs 294-305. -/
structure Pop where
  email : Option Str
  kind : Kind
  rating : Star
  counter : Nat
  deriving DecidableEq, Repr

/-- The choice of the provider by email, popularimeter.rs 357-368 and 432-443. -/
def kindOf (custom : Provider) (email : Str) : Option Kind :=
  if email = wmpEmail then some .wmp
  else if email = musicbeeEmail then some .musicbee
  else if email = picardEmail then some .picard
  else if custom.supports email then some .custom
  else none

/-- `email: (!email.is_empty()).then_some(email)`, popularimeter.rs 372 and 446. -/
def someEmail (email : Str) : Option Str := if email.isEmpty then none else some email

/-- `Popularimeter::mapped`, popularimeter.rs 349-377. -/
def mapped (custom : Provider) (email : Str) (t : TagType) (rate counter : Nat) : Option Pop :=
  (kindOf custom email).map fun k => ⟨someEmail email, k, (k.provider custom).convert t rate, counter⟩

/-- `mapped_value`, popularimeter.rs 410-412. -/
def Pop.mappedValue (custom : Provider) (p : Pop) (t : TagType) : Nat := (p.kind.provider custom).rate t p.rating

/-- The `match` on the number of stars, popularimeter.rs 423-430.  The text is parsed as an `i32`: a negative number
leads to an error like any other number. -/
def starOf (s : Str) : Option Star :=
  match parseUInt (2 ^ 31) s with
  | some 1 => some .one
  | some 2 => some .two
  | some 3 => some .three
  | some 4 => some .four
  | some 5 => some .five
  | _ => none

/-- `Popularimeter::from_str`, popularimeter.rs 414-451. -/
def fromStr (custom : Provider) (s : Str) : Option Pop :=
  match split2 '|' s with
  | (email, some rest) =>
    match split2 '|' rest with
    | (stars, some counter) =>
      match parseUInt (2 ^ 64) counter, starOf stars, kindOf custom email with
      | some c, some r, some k => some ⟨someEmail email, k, r, c⟩
      | _, _, _ => none
    | _ => none
  | _ => none

/-- `Display`, popularimeter.rs 492-497. -/
def Pop.fmt (p : Pop) : Str := p.email.getD [] ++ '|' :: (toDec p.rating.toNat ++ '|' :: toDec p.counter)

/-- `Popularimeter::custom`, popularimeter.rs 340-347. -/
def Pop.custom (email : Str) (r : Star) (counter : Nat) : Pop := ⟨some email, .custom, r, counter⟩

/-- `Popularimeter::windows_media_player`, popularimeter.rs 458-465. -/
def Pop.wmp (r : Star) (counter : Nat) : Pop := ⟨some wmpEmail, .wmp, r, counter⟩

/-- `Popularimeter::musicbee`, popularimeter.rs 470-477. -/
def Pop.musicbee (r : Star) (counter : Nat) : Pop := ⟨some musicbeeEmail, .musicbee, r, counter⟩

/-- `Popularimeter::picard`, popularimeter.rs 482-489. -/
def Pop.picard (r : Star) (counter : Nat) : Pop := ⟨some picardEmail, .picard, r, counter⟩

end Lofty.Rating
