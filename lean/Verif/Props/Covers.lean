import Verif.Lemmas.CoversMp4
import Verif.Props.WantedFiles
/-!
# C77: leaving out the pictures leaves out nothing else

`ParseOptions::read_cover_art(false)`: what is read of a file is what is read with pictures, but for the pictures.
-/
namespace Lofty.Covers
open Item Lofty.Save Lofty.Opened

/-- **C77, all formats but MP4.** If a file is read with its pictures, it is read without them, too; the properties are the same, there are no
pictures in the tags, and their types and items are the same, tag by tag, up to the order of the items.  Partial: with implicit conversions nothing is
said about the recording date (see `date_differs`); a FLAC file whose only comments are pictures has one tag less. -/
theorem without_covers_partial (o : ReadOptions) (w : Wanted) {f : Bytes} {ft : FileType} (hft : ft ≠ .mp4) {ts : List Tag} {p : Generic}
    (h : wholeAs { o with cover := true } w f ft = .ok (ts, p)) :
    ∃ ts' core more, wholeAs { o with cover := false } w f ft = .ok (ts', p) ∧ ts = core ++ more ∧ Both (BareTag o.implicit) core ts' ∧
      (more = [] ∨ ft = .flac ∧ ∃ t, more = [t] ∧ OnlyPictures t) := by
  obtain ⟨⟨ts', p'⟩, h1, h2, core, more, h3, h4, h5⟩ := whole_rel o w f hft _ h
  have h2 : p' = p := h2
  subst h2
  refine ⟨ts', core, more, h1, h3, h4, ?_⟩
  rcases h5 with h5 | ⟨h5, h6⟩
  · exact .inl h5
  · exact .inr ⟨by simpa using h5, h6⟩

/-- The same for files whose type is not given. -/
theorem file_without_covers_partial (o : ReadOptions) (w : Wanted) {f : Bytes} (hft : verified f ≠ .ok .mp4) {ts : List Tag} {p : Generic}
    (h : wholeFile { o with cover := true } w f = .ok (ts, p)) :
    ∃ ts' core more, wholeFile { o with cover := false } w f = .ok (ts', p) ∧ ts = core ++ more ∧ Both (BareTag o.implicit) core ts' ∧
      (more = [] ∨ verified f = .ok .flac ∧ ∃ t, more = [t] ∧ OnlyPictures t) := by
  unfold wholeFile at h ⊢
  cases hv : verified f with
  | error e => rw [hv] at h; cases h
  | ok ft =>
    rw [hv] at h hft
    obtain ⟨ts', core, more, h1, h2, h3, h4⟩ := without_covers_partial o w (f := f) (ft := ft) (fun e => hft (by rw [e])) h
    exact ⟨ts', core, more, h1, h2, h3, h4.imp id fun h => ⟨by rw [h.1], h.2⟩⟩

/-- **C77, MP4 tags.** If the `ilst` atom is one that the library writes, exactly the `covr` atoms are left out. -/
theorem ilst_without_covers_partial (o : Ilst.Opts) (t : Ilst.Tag) (h : ∀ a ∈ t, Ilst.AtomOk { o with coverArt := true } a)
    (hl : (t.flatMap Ilst.atomBox).length < 2 ^ 32) :
    Ilst.parse { o with coverArt := true } (t.flatMap Ilst.atomBox) = .ok t ∧
    Ilst.parse { o with coverArt := false } (t.flatMap Ilst.atomBox) = .ok (t.filter fun a => decide (a.ident ≠ .fourcc (ascii "covr"))) :=
  ⟨Ilst.parse_layout_partial t h hl, parse_bare t h hl⟩

theorem mp4_found (mode : Mode) (implicit tags props : Bool) (limit : Nat) (hw : tags = true) {f : Bytes} {t : Ilst.Tag} (hf : Mp4With t f)
    (ha : ∀ a ∈ t, Ilst.AtomOk ⟨mode, true, implicit⟩ a) :
    (∃ e, Mp4Read.readFrom ⟨⟨mode, true, implicit⟩, tags, props, limit⟩ f = .error e) ∨
    ∃ brand traks, Mp4Read.readFrom ⟨⟨mode, true, implicit⟩, tags, props, limit⟩ f = .ok (brand, ⟨traks, some t⟩) ∧
      Mp4Read.readFrom ⟨⟨mode, false, implicit⟩, tags, props, limit⟩ f = .ok (brand, ⟨traks, some (uncovr t)⟩) := by
  obtain ⟨hok, h1, h2, hu1, hu2, hv, hi1, hi2, hl⟩ := hf
  have hr := fun cfg ht => Mp4Read.read_tag rfl hok h1 h2 hu1 hu2 hv hi1 hi2 cfg ht
  have e1 : Ilst.parse ⟨mode, true, implicit⟩ (t.flatMap Ilst.atomBox) = .ok t := Ilst.parse_layout_partial t ha hl
  have e2 : Ilst.parse ⟨mode, false, implicit⟩ (t.flatMap Ilst.atomBox) = .ok (uncovr t) := parse_bare (o := ⟨mode, true, implicit⟩) t ha hl
  by_cases hlim : (t.flatMap Ilst.atomBox).length > limit
  · refine .inl ⟨.alloc, ?_⟩
    rw [hr _ hw, if_pos hlim, error_bind]
  · have a1 := hr ⟨⟨mode, true, implicit⟩, tags, props, limit⟩ hw
    have a2 := hr ⟨⟨mode, false, implicit⟩, tags, props, limit⟩ hw
    rw [if_neg hlim, e1, ok_bind] at a1
    rw [if_neg hlim, e2, ok_bind] at a2
    exact .inr ⟨_, _, a1, a2⟩

theorem whole_mp4 (o : ReadOptions) (w : Wanted) (f : Bytes) (c : Bool) : wholeAs { o with cover := c } w f .mp4 =
    (Mp4Props.readFile ⟨⟨o.mode, c, o.implicit⟩, w.tags, w.props, o.limit⟩ f >>= fun x =>
      .ok ((x.2.1.map fun t => (Convert.ofIlst false t).tag).toList, x.2.2.elim (unread .mp4) .ofMp4)) := rfl

/-- **C77, MP4 files.** A file with such a tag, read without pictures, shows the same properties and the same tag but for the pictures, items in the same
order and the date included.  Partial: other files, see `covr_swallows`. -/
theorem mp4_without_covers_partial (o : ReadOptions) (w : Wanted) (hw : w.tags = true) {f : Bytes} {t : Ilst.Tag} (hf : Mp4With t f)
    (ha : ∀ a ∈ t, Ilst.AtomOk ⟨o.mode, true, o.implicit⟩ a) {ts : List Tag} {p : Generic}
    (h : wholeAs { o with cover := true } w f .mp4 = .ok (ts, p)) :
    ∃ g, ts = [g] ∧ wholeAs { o with cover := false } w f .mp4 = .ok ([{ g with pictures := [] }], p) := by
  have hx := mp4_found o.mode o.implicit w.tags w.props o.limit hw hf ha
  have hc := ofIlst_bare (l := t) fun a hm hi => atom_covers (o := ⟨o.mode, true, o.implicit⟩) (ha a hm) hi
  rw [whole_mp4] at h ⊢
  unfold Mp4Props.readFile at h ⊢
  rcases hx with ⟨e, hx⟩ | ⟨brand, traks, hx1, hx2⟩
  · rw [hx, error_bind, error_bind] at h
    cases h
  rw [hx1, ok_bind] at h
  refine ⟨(Convert.ofIlst false t).tag, ?_⟩
  rw [hx2, ok_bind]
  dsimp only at h ⊢
  by_cases hp : w.props = true
  · rw [if_pos (by exact hp)] at h ⊢
    obtain ⟨⟨b, x, y⟩, h1, h⟩ := bind_ok h
    obtain ⟨q, h3, h1⟩ := bind_ok h1
    cases h1
    rw [h3, ok_bind, ok_bind]
    cases h
    exact ⟨rfl, by rw [← hc]; rfl⟩
  · rw [if_neg (by exact hp), ok_bind] at h ⊢
    cases h
    exact ⟨rfl, by rw [← hc]; rfl⟩

/-! ## Files that meet the hypotheses -/

/-- The options, with or without pictures. -/
def reading (cover : Bool) : ReadOptions := { exRead with cover := cover }

/-- What is read: the types of the tags, how many pictures they have, and the keys and texts of their items. -/
def listing (x : Except Err Shown) : Except Err (List (TagType × Nat × List (ItemKey × Str))) :=
  x.map fun x => x.1.map fun t => (t.type, t.pictures.length, t.items.map fun i => (i.key, i.value.textOf.getD []))

/-- A frame of ID3v2.3 with the second byte of its flags. -/
def frame3 (id : String) (flags : UInt8) (c : Bytes) : Bytes := ascii id ++ beBytes 4 c.length ++ [0, flags] ++ c

/-- An ID3v2.3 tag of less than 128 bytes. -/
def tag3 (l : List Bytes) : Bytes := ascii "ID3" ++ [3, 0, 0, 0, 0, 0, UInt8.ofNat l.flatten.length] ++ l.flatten

/-- A text. -/
def text3 (id s : String) : Bytes := frame3 id 0 (0 :: ascii s)

/-- A picture. -/
def apic : Bytes := frame3 "APIC" 0 (0 :: ascii "image/png" ++ [0, 3, 0, 1, 2, 3])

/-- An MPEG file with a picture, a title, an album and a year. -/
def covered : Bytes := tag3 [apic, text3 "TIT2" "x", text3 "TALB" "y", text3 "TYER" "2001"] ++ FileTags.threeFrames

instance : DecidableEq (List (ItemKey × Str)) := inferInstance

theorem covered_read : listing (wholeAs (reading true) ⟨true, true⟩ covered .mpeg) =
    .ok [(.id3v2, 1, [(.TrackTitle, str "x"), (.AlbumTitle, str "y"), (.RecordingDate, str "2001")])] := by decide +kernel

theorem listing_ok {x : Except Err Shown} {l : List (TagType × Nat × List (ItemKey × Str))} (h : listing x = .ok l) :
    ∃ ts p, x = .ok (ts, p) ∧ ts.map (fun t => (t.type, t.pictures.length, t.items.map fun i => (i.key, i.value.textOf.getD []))) = l := by
  unfold listing at h
  obtain ⟨⟨ts, p⟩, h1, h2⟩ := map_ok h
  exact ⟨ts, p, h1, h2⟩

/-- `without_covers_partial` for it. -/
example : ∃ ts p ts', wholeAs (reading true) ⟨true, true⟩ covered .mpeg = .ok (ts, p) ∧ wholeAs (reading false) ⟨true, true⟩ covered .mpeg = .ok (ts', p) ∧
    ts.length = 1 ∧ Both (BareTag true) ts ts' := by
  obtain ⟨ts, p, h, hl⟩ := listing_ok covered_read
  obtain ⟨ts', core, more, h1, h2, h3, h4⟩ := without_covers_partial exRead ⟨true, true⟩ (by decide) h
  rcases h4 with rfl | ⟨h4, -⟩
  · rw [List.append_nil] at h2
    subst h2
    refine ⟨ts, p, ts', h, h1, ?_, h3⟩
    have := congrArg List.length hl
    rwa [List.length_map] at this
  · cases h4

/-- `ilst_without_covers_partial` for a tag with a cover. -/
example : Ilst.parse ⟨.strict, false, true⟩ (Ilst.exTag.flatMap Ilst.atomBox) = .ok (Ilst.exTag.take 5) :=
  (ilst_without_covers_partial ⟨.strict, true, true⟩ Ilst.exTag (Ilst.exTag_ok .strict true) (Nat.lt_trans Ilst.exTag_length (by decide))).2

/-- An MP4 file with that tag. -/
def coveredMp4 : Bytes :=
  (Mp4Read.whole Mp4Write.ftyp (Mp4Props.aacTracks.append (.node (ascii "udta") (Mp4Write.Forest.nil.append (.leaf (ascii "meta")
    ([0, 0, 0, 0] ++ (Mp4Write.boxes [Mp4Write.hdlr] ++ (Ilst.box (ascii "ilst") (Ilst.exTag.flatMap Ilst.atomBox) ++ Mp4Write.boxes []))) .nil)) .nil))
    (.leaf (ascii "mdat") (List.replicate 1000 0) .nil)).bytes

theorem coveredMp4_with : Mp4With Ilst.exTag coveredMp4 := by
  refine .mk (brand := "M4A ".toList) ⟨⟨_, _, rfl, by decide, rfl⟩, ⟨?_, ?_⟩, ?_, by decide +kernel⟩ Mp4Props.aacFile_clear.moov1 trivial ?_ ?_
    (.inl ⟨rfl, by decide +kernel⟩) ?_ ?_ (Nat.lt_trans Ilst.exTag_length (by decide))
  case refine_1 => exact Mp4Props.aac_plain.front.1
  case refine_2 => exact Mp4Props.aac_plain.front.2
  case refine_3 =>
    refine Mp4Write.ok_append (Mp4Props.track_ok (Mp4Props.track_ok trivial)) ?_
    simp only [Mp4Write.Forest.append, Mp4Write.Forest.Ok, Mp4Write.IdOk, Mp4Write.IsContainer]
    decide
  all_goals simp only [Mp4Write.Forest.top, List.mem_singleton, forall_eq, Mp4Write.hdlr, Mp4Write.IdOk, Mp4Read.Other, List.not_mem_nil]
  all_goals first | decide | simp

theorem coveredMp4_read : (listing (wholeAs (reading true) ⟨true, true⟩ coveredMp4 .mp4)).map (fun l => l.map fun x => (x.1, x.2.1)) =
    .ok [(.mp4Ilst, 1)] := by decide +kernel

/-- `mp4_without_covers_partial` for it. -/
example : ∃ g p, wholeAs (reading true) ⟨true, true⟩ coveredMp4 .mp4 = .ok ([g], p) ∧
    wholeAs (reading false) ⟨true, true⟩ coveredMp4 .mp4 = .ok ([{ g with pictures := [] }], p) := by
  obtain ⟨l, h, -⟩ := map_ok coveredMp4_read
  obtain ⟨ts, p, h, -⟩ := listing_ok h
  obtain ⟨g, rfl, h2⟩ := mp4_without_covers_partial exRead ⟨true, true⟩ rfl coveredMp4_with (Ilst.exTag_ok .relaxed true) h
  exact ⟨g, p, h, h2⟩

/-! ## What differs all the same -/

/-- **C77 fails** for the order of items: without its picture, the title of this file comes after the album. -/
theorem order_differs : listing (wholeAs (reading false) ⟨true, true⟩ covered .mpeg) =
    .ok [(.id3v2, 0, [(.AlbumTitle, str "y"), (.TrackTitle, str "x"), (.RecordingDate, str "2001")])] := by decide +kernel

/-- A zlib stream of forty zeros. -/
def deflated : Bytes := [120, 156, 99, 96, 32, 14, 0, 0, 0, 40, 0, 1]

/-- The options, with a decoder that knows this stream. -/
def inflating (cover : Bool) : ReadOptions := { exRead with cover := cover, inflate := fun c => if c = deflated then some (List.replicate 40 0) else none }

/-- An MPEG file with a picture, an encrypted date, a date and a year. -/
def dated : Bytes :=
  tag3 [apic, frame3 "TDAT" 0xC0 ([5, 0, 0, 0, 40] ++ deflated), text3 "TDAT" "0304", text3 "TYER" "2001"] ++ FileTags.threeFrames

/-- **C77 fails** for the date of an ID3v2.3 tag: without its picture, month and day are shown. -/
theorem date_differs :
    listing (wholeAs (inflating true) ⟨true, true⟩ dated .mpeg) = .ok [(.id3v2, 1, [(.RecordingDate, str "2001")])] ∧
    listing (wholeAs (inflating false) ⟨true, true⟩ dated .mpeg) = .ok [(.id3v2, 0, [(.RecordingDate, str "2001-04-03")])] := by
  constructor <;> decide +kernel

/-- A FLAC file with a picture and no comments. -/
def picturedOnly : Bytes :=
  Flac.stream [] [(0, List.replicate 34 7), (6, [0, 0, 0, 3, 0, 0, 0, 9] ++ ascii "image/png" ++ List.replicate 20 0 ++ [0, 0, 0, 3, 1, 2, 3])] []

/-- **C77 fails** for a FLAC file with a picture and no comments: without its picture, it has no tag. -/
theorem flac_tag_gone :
    listing (wholeAs (reading true) ⟨true, true⟩ picturedOnly .flac) = .ok [(.vorbisComments, 1, [(.EncoderSoftware, [])])] ∧
    listing (wholeAs (reading false) ⟨true, true⟩ picturedOnly .flac) = .ok [] := by
  constructor <;> decide +kernel

/-- **C77 fails** for an MP4 file whose `covr` atom is too short: with pictures, what follows is read from another place. -/
theorem covr_swallows :
    Ilst.parse ⟨.bestAttempt, true, true⟩ (Ilst.box (ascii "covr") (Ilst.box (ascii "data") [0, 0, 0, 13, 0, 0]) ++
      Ilst.box (0xA9 :: ascii "ART") (Ilst.dataBox (21, [7]))) = .ok [] ∧
    Ilst.parse ⟨.bestAttempt, false, true⟩ (Ilst.box (ascii "covr") (Ilst.box (ascii "data") [0, 0, 0, 13, 0, 0]) ++
      Ilst.box (0xA9 :: ascii "ART") (Ilst.dataBox (21, [7]))) = .ok [⟨Ilst.four 0xA9 "ART", .single (.signed 7)⟩] := by
  constructor <;> decide +kernel

end Lofty.Covers
