import Verif.Props.Id3v2Tag
/-!
# Specification: a tag saved as ID3v2.3 and read again (C54)

ID3v2.3 has no frames with several values, no `TDRC`, `TDOR`, `TIPL` or `TMCL` and lacks fourteen other frames.
The library writes what it can with the frames ID3v2.3 has (`TYER`, `TDAT`, `TIME`, `TORY`, `IPLS`) and turns those
back when it reads.  `savedV23` says what a list of frames comes back as.
-/
namespace Lofty.Id3v2
open Lofty.Text (Encoding)

/-- The frames of ID3v2.4 that are not saved. -/
def onlyV24 : List String :=
  ["ASPI", "EQU2", "RVA2", "SEEK", "SIGN", "TDEN", "TDRL", "TDTG", "TMOO", "TPRO", "TSOA", "TSOP", "TSOT", "TSST"]

/-- Several genres in one text: in parentheses, except for a last one that is no number. -/
def genreText : List Str → Str
  | [] => []
  | g :: gs =>
    (if g = str "Remix" ∨ g = str "RX" then str "(RX)"
     else if g = str "Cover" ∨ g = str "CR" then str "(CR)"
     else if gs = [] ∧ parseUInt 256 g = none then g
     else '(' :: g ++ [')']) ++ genreText gs

/-- Texts separated by NUL. -/
def joinNul : List Str → Str
  | [] => []
  | [g] => g
  | g :: gs => g ++ '\x00' :: joinNul gs

/-- What is kept of a date: the year; month and day if both are known; then hour and minute if both are known. -/
def dateKept (t : Timestamp) : Timestamp :=
  match t.month, t.day with
  | some mo, some d =>
    match t.hour, t.minute with
    | some h, some mi => ⟨t.year, some mo, some d, some h, some mi, none⟩
    | _, _ => ⟨t.year, some mo, some d, none, none, none⟩
  | _, _ => ⟨t.year, none, none, none, none, none⟩

/-- What a frame comes back as in its place: nothing, if ID3v2.3 does not have it, or if it comes back elsewhere (dates
and people); the original release date with the year only; the genres in one text; anything else as it was, UTF-8 and
UTF-16BE as UTF-16. -/
def placed (o : WriteOpts) (f : Frame) : List Frame :=
  if f.id.isValid = false ∨ f.id.asStr ∈ onlyV24.map String.toList then []
  else
    match f with
    | .leaf flags (.time t) =>
      if t.id = .valid (str "TDOR") then
        [.leaf flags (.time ⟨.valid (str "TDOR"), o.enc t.enc, ⟨t.time.year, none, none, none, none, none⟩⟩)]
      else []
    | .leaf _ (.keyValue _) => []
    | .leaf flags (.text t) =>
      if t.id = .valid (str "TCON") then
        [.leaf flags (.text ⟨.valid (str "TCON"), o.enc t.enc, genreText (splitOn '\x00' t.value)⟩)]
      else [.leaf flags (.text { t with enc := o.enc t.enc })]
    | f => [f.reencode o]

/-- The lists of people. -/
def kvOf : Frame → Option KvF
  | .leaf _ (.keyValue k) => if k.id = .valid (str "TIPL") ∨ k.id = .valid (str "TMCL") then some k else none
  | _ => none

/-- All people of a tag, with the encoding of the first list. -/
def peopleOf (o : WriteOpts) (fs : List Frame) : Option (Encoding × List (Str × Str)) :=
  match fs.filterMap kvOf with
  | [] => none
  | k :: ks => some (o.enc k.enc, (k :: ks).flatMap fun k => k.pairs)

/-- The one list of people that comes back. -/
def peopleFrames : Option (Encoding × List (Str × Str)) → List Frame
  | none => []
  | some (e, l) => [.leaf {} (.keyValue ⟨.valid (str "TIPL"), e, l⟩)]

/-- The recording dates that come back. -/
def dateOf (o : WriteOpts) : Frame → Option Frame
  | .leaf _ (.time t) =>
    if t.id = .valid (str "TDRC") then some (.leaf {} (.time ⟨.valid (str "TDRC"), o.enc t.enc, dateKept t.time⟩)) else none
  | _ => none

/-- What a list of frames saved as ID3v2.3 comes back as. -/
def savedV23 (o : WriteOpts) (fs : List Frame) : List Frame :=
  fs.flatMap (placed o) ++ peopleFrames (peopleOf o fs) ++ fs.filterMap (dateOf o)

/-- The genres of a `TCON` frame that can be saved: not empty, no NUL, and the last one is not in parentheses already. -/
def GenresOk (gs : List Str) : Prop :=
  gs ≠ [] ∧ (∀ g ∈ gs, g ≠ [] ∧ '\x00' ∉ g) ∧ ∀ g, gs.getLast? = some g → g.head? ≠ some '('

/-- A frame that can be saved as ID3v2.3 and read. -/
inductive V23Ok (o : WriteOpts) (po : ParseOpts) : Frame → Prop
  | plain (f : Frame) (h : FrameOk o po f) (h1 : f.id ≠ .valid (str "TDAT")) (h2 : f.id ≠ .valid (str "TIME")) : V23Ok o po f
  | dropped (f : Frame) (h : f.id.isValid = false ∨ f.id.asStr ∈ onlyV24.map String.toList) : V23Ok o po f
  | original (flags : FrameFlags) (t : TimeF) (hf : PlainFlags flags) (hi : t.id = .valid (str "TDOR"))
      (ht : Timestamp.InRange t.time) : V23Ok o po (.leaf flags (.time t))
  | date (flags : FrameFlags) (t : TimeF) (hf : PlainFlags flags) (hi : t.id = .valid (str "TDRC"))
      (ht : Timestamp.InRange t.time) (hy : 1000 ≤ t.time.year) : V23Ok o po (.leaf flags (.time t))
  | genre (flags : FrameFlags) (t : TextF) (gs : List Str) (hf : PlainFlags flags) (hi : t.id = .valid (str "TCON"))
      (hv : t.value = joinNul gs) (hg : GenresOk gs) (hr : Text.Representable (o.enc t.enc) t.value) :
      V23Ok o po (.leaf flags (.text t))
  | people (flags : FrameFlags) (k : KvF) (hi : k.id = .valid (str "TIPL") ∨ k.id = .valid (str "TMCL")) :
      V23Ok o po (.leaf flags (.keyValue k))

/-- People that can be written as one text: without NUL, and with a value for the last one. -/
def PeopleOk (x : Encoding × List (Str × Str)) : Prop :=
  x.2 ≠ [] ∧ (∀ p ∈ x.2, Inside x.1 p.1 ∧ Inside x.1 p.2) ∧ (x.2.length = 1 ∨ ∀ p, x.2.getLast? = some p → p.2 ≠ [])

/-- A list of frames that can be saved as ID3v2.3 and read. -/
structure V23List (o : WriteOpts) (fs : List Frame) : Prop where
  roots : (fs.filter Frame.isRoot).length ≤ 1
  dates : (fs.filterMap (dateOf o)).length ≤ 1
  people : ∀ x, peopleOf o fs = some x → PeopleOk x
  distinct : (savedV23 o fs).Pairwise fun a b => ¬ Same a b
  once : OncePerTag (savedV23 o fs)

end Lofty.Id3v2
