import Verif.Model.Id3v2Tag
/-!
# Dates of ID3v2.3

ID3v2.3 says when something was recorded in three text frames: the year (`TYER`, four digits), the day and the month (`TDAT`, DDMM), and the time
(`TIME`, HHMM).  ID3v2.4 has one frame for all of it (`TDRC`).  The other two frames that ID3v2.4 replaced one to one are the year of the
original (`TORY`) and the list of people (`IPLS`).
-/
namespace Lofty.Id3v2
open Lofty.Text (Encoding)

/-- The id of ID3v2.4 for a frame of ID3v2.3. -/
def nextId (s : Str) : Str :=
  if s = str "TYER" then str "TDRC" else if s = str "TORY" then str "TDOR" else if s = str "IPLS" then str "TIPL" else s

/-- A frame of ID3v2.3 without flags: the id, the size in four bytes, the flags, the body. -/
def frame23 (id : Str) (body : Bytes) : Bytes := utf8 id ++ beBytes 4 body.length ++ [0, 0] ++ body

/-- The year as it is read, a timestamp without anything else. -/
def yearFrame (fl : FrameFlags) (e : Encoding) (y : Nat) : Frame := .leaf fl (.time ⟨.valid (str "TDRC"), e, ⟨y, none, none, none, none, none⟩⟩)

/-- The day and the month. -/
def dayFrame (fl : FrameFlags) (e : Encoding) (day month : Nat) : Frame :=
  .leaf fl (.text ⟨.valid (str "TDAT"), e, Timestamp.pad 2 day ++ Timestamp.pad 2 month⟩)

/-- The time. -/
def timeFrame (fl : FrameFlags) (e : Encoding) (hour minute : Nat) : Frame :=
  .leaf fl (.text ⟨.valid (str "TIME"), e, Timestamp.pad 2 hour ++ Timestamp.pad 2 minute⟩)

/-- The frame that says all of it. -/
def recorded (e : Encoding) (t : Timestamp) : Frame := .leaf {} (.time ⟨.valid (str "TDRC"), e, t⟩)

/-- What the year, the day and month, and the time become: one frame, with the time only if there is a day; else the time stays as it is. -/
def joined (ft : FrameFlags) (ey et : Encoding) (y : Nat) (day time : Option (Nat × Nat)) : List Frame :=
  match day, time with
  | none, none => [recorded ey ⟨y, none, none, none, none, none⟩]
  | none, some t => [timeFrame ft et t.1 t.2, recorded ey ⟨y, none, none, none, none, none⟩]
  | some d, none => [recorded ey ⟨y, some d.2, some d.1, none, none, none⟩]
  | some d, some t => [recorded ey ⟨y, some d.2, some d.1, some t.1, some t.2, none⟩]

end Lofty.Id3v2
