import Verif.Props.Bound
import Verif.Props.EndToEndId3v2
import Verif.Props.ApePicture
/-!
# C99: the pictures of a tag
-/
namespace Lofty.Opened
open Item Lofty.Save Lofty.Convert FileType FileType.Spec

/-- The tags that have no pictures when a file is opened. -/
def unpictured : List TagType := [.ape, .id3v1, .riffInfo, .aiffText]

theorem insertOpt_pictures (t : Tag) (k : ItemKey) (s : Option Str) : (insertOpt t k s).pictures = t.pictures := by
  cases s with
  | none => rfl
  | some v =>
    show (t.insertText k v).2.pictures = _
    unfold Tag.insertText Tag.insert
    split <;> rfl

theorem ofId3v1_pictures (a : Id3v1.Tag) : (ofId3v1 a).pictures = [] := by
  unfold ofId3v1
  simp only [insertOpt_pictures]
  unfold pushOpt
  split
  · show (insertOpt _ _ _).pictures = _
    simp only [insertOpt_pictures]
    rfl
  · simp only [insertOpt_pictures]
    rfl

/-! ## The claims -/

/-- C99, **OGG files**: the pictures of a tag that was saved are read when the file is opened, as they were and in order. -/
theorem ogg_pictures {fmt : OggWrite.Format} {o : Options} {r : ReadOptions} {t : Tag} {f g ident comment c rest : Bytes}
    {others : List Bytes} {vendor : Str}
    (ht : t.type = .vorbisComments) (hf : verified f = .ok (oggType fmt)) (hs : saveTo o t f = .ok g)
    (hh : OggWrite.Headed fmt f (ident :: comment :: others) rest) (hhead : ∃ x, ident = fmt.head ++ x) (h8 : 8 ≤ ident.length)
    (h255 : ident.length < 255) (ho : ∀ p ∈ others, p ≠ []) (hc : comment = fmt.sig ++ c) (hv : OggWrite.VendorIs c vendor)
    (hvendor : vendor.getLast? ≠ some '\x00')
    (hnul : ∀ k, ∀ s ∈ texts t k, s.getLast? ≠ some '\x00')
    (hnum : r.implicit = true → NumberOk t .TrackNumber ∧ NumberOk t .DiscNumber)
    (hcover : r.cover = true) (hpics : ∀ p ∈ t.pictures, Picture.Stable p)
    (hlen : ∀ pics new, refPictures t.pictures = .ok pics →
      Vorbis.createPacket ⟨vendor, (vorbisRef t).2, pics⟩ fmt.sig fmt.framing = .ok new → new.length < 2 ^ 32) :
    ∃ x, openFile r g = .ok [x] ∧ x.pictures = t.pictures := by
  obtain ⟨x, h1, -, h2, -⟩ := ogg_end_to_end ht hf hs hh hhead h8 h255 ho hc hv hvendor hnul hnum (fun _ => hcover) hpics hlen
  exact ⟨x, h1, h2⟩

/-- C99, **FLAC files**: the same. -/
theorem flac_pictures {o : Options} {r : ReadOptions} {t : Tag} {si audio : Bytes} {bs : List Flac.Spec.MBlock} {vendor : Str}
    {pics : List (Picture.Pic × Picture.Info)} {new : List Flac.Spec.MBlock}
    (ht : t.type = .vorbisComments) (hsi : si.length < 2 ^ 24) (hsi14 : 14 ≤ si.length) (hv : ∀ b ∈ bs, b.Valid)
    (hvendor : Flac.scanVendor ((t.getString .EncoderSoftware).getD []) bs = .ok vendor) (hvn : vendor.getLast? ≠ some '\x00')
    (hp : refPictures t.pictures = .ok pics) (hnew : Flac.tagBlocks vendor ⟨vendor, (vorbisRef t).2, pics⟩ = .ok new)
    (hnul : ∀ k, ∀ s ∈ texts t k, s.getLast? ≠ some '\x00')
    (hnum : r.implicit = true → NumberOk t .TrackNumber ∧ NumberOk t .DiscNumber)
    (hcover : r.cover = true) (hpics : ∀ p ∈ t.pictures, Picture.Stable p) (hne : t.pictures ≠ []) :
    ∃ g x, saveTo o t (Flac.stream [] ((0, si) :: bs) audio) = .ok g ∧ openFile r g = .ok [x] ∧ x.pictures = t.pictures := by
  obtain ⟨g, x, h0, h1, -, h2, -⟩ := flac_end_to_end (o := o) ht hsi hsi14 hv hvendor hvn hp hnew hnul hnum (fun _ => hcover) hpics (.inl hne)
  exact ⟨g, x, h0, h1, h2⟩

/-- C99, **MPEG, AAC, Monkey's Audio and Musepack files**: of the last ID3v2 tag that was saved the pictures are read, as they were and in
order. -/
theorem around_pictures {o : Options} {r : ReadOptions} {ft : FileType} {audio g : Bytes} {ts : List Tag} (hft : ft ∈ around)
    (ha : FileTags.Audio r.files audio) (hv : verified audio = .ok ft) (hpl : Playable ft audio)
    (hd : ∀ t ∈ ts, (t.type, false) ∈ documented ft) (hok : ∀ t ∈ ts, Ready o r audio t) (h4 : o.v23 = false) (hj : r.junk = o.junk)
    (hc : r.cover = true) (hcu : r.custom = o.custom) (hord : ∀ l, (o.order l).Perm l) (hg : saveAll o ft ts audio = .ok g)
    {t : Tag} (ht : lastOf .id3v2 ts = some t) :
    ∃ d0, ∀ d, d0 ≤ d → ∃ xs, openFile { r with depth := d } g = .ok xs ∧ (seen .id3v2 xs).pictures = t.pictures := by
  obtain ⟨d0, h0⟩ := around_ready_end_to_end_partial hft ha hv hpl hd hok h4 hj hc hcu hord hg
  refine ⟨d0, fun d hd0 => ?_⟩
  obtain ⟨xs, hx, -, h2, -⟩ := h0 d hd0
  exact ⟨xs, hx, (id3v2_pictures (h2 t ht)).1 rfl⟩

/-- C99, **WAV files**: the same. -/
theorem wav_pictures {o : Options} {r : ReadOptions} {cs : List Iff.Chunk} {wt : IffFiles.WavTags}
    {g : Bytes} {ts : List Tag} (h : IffFiles.WavHas r.files cs wt) (hsz : (Iff.wav cs).length < 2 ^ 32)
    (hd : ∀ t ∈ ts, (t.type, false) ∈ documented .wav) (hok : IffFiles.WavOk r.files (ts.map (toWav o)) (Iff.wav cs))
    (hcu : r.custom = o.custom) (hord : ∀ l, (o.order l).Perm l) (hg : saveAll o .wav ts (Iff.wav cs) = .ok g)
    {t : Tag} (ht : lastOf .id3v2 ts = some t) :
    ∃ d0 xs, (∀ d, d0 ≤ d → openFile { r with depth := d } g = .ok xs) ∧ (seen .id3v2 xs).pictures = t.pictures := by
  obtain ⟨d0, xs, h1, -, -, h2, -⟩ := wav_end_to_end_partial h hsz hd hok hcu hord hg
  exact ⟨d0, xs, h1, (id3v2_pictures (h2 t ht)).1 rfl⟩

/-- C99, **AIFF files**: the same. -/
theorem aiff_pictures {o : Options} {r : ReadOptions} {form : Bytes} (hform : form = ascii "AIFF" ∨ form = ascii "AIFC")
    {cs : List Iff.Chunk} {wt : IffFiles.AiffTags} {g : Bytes} {ts : List Tag} (h : IffFiles.AiffHas r.files cs wt)
    (hd : ∀ t ∈ ts, (t.type, false) ∈ documented .aiff) (hok : IffFiles.AiffOk r.files (ts.map (toAiffSave o)) (Iff.aiff form cs))
    (hcu : r.custom = o.custom) (hord : ∀ l, (o.order l).Perm l) (hg : saveAll o .aiff ts (Iff.aiff form cs) = .ok g)
    {t : Tag} (ht : lastOf .id3v2 ts = some t) :
    ∃ d0 xs, (∀ d, d0 ≤ d → openFile { r with depth := d } g = .ok xs) ∧ (seen .id3v2 xs).pictures = t.pictures := by
  obtain ⟨d0, xs, h1, -, -, h2, -⟩ := aiff_end_to_end_partial hform h hd hok hcu hord hg
  exact ⟨d0, xs, h1, (id3v2_pictures (h2 t ht)).1 rfl⟩

/-- C99, **MP4 files**: the pictures are read in order, but their types are not. -/
theorem mp4_pictures_partial {o : Options} {r : ReadOptions} (x : Mp4Write.File) (hx : x.Ok) (hc : Mp4Read.Clear x) {t : Tag} (hty : t.type = .mp4Ilst)
    (hbrand : ∀ c rest, x.before = .leaf (ascii "ftyp") c rest → c.length + 8 < 2 ^ 24)
    (hne : mergeIlst [] t ≠ []) (ht : Mp4Ready t) (hcov : r.cover = true) (hlim : ((mergeIlst [] t).flatMap Ilst.atomBox).length ≤ r.limit)
    (hpad : ∀ k, o.padding = some k → 8 ≤ k)
    (hsz : 3 * x.bytes.length + 2 * ((mergeIlst [] t).flatMap Ilst.atomBox).length + o.padding.getD 0 < 2 ^ 30) :
    ∃ g y, saveTo o t x.bytes = .ok g ∧ openFile r g = .ok [y] ∧ y.pictures = t.pictures.map (fun p => { p with ty := .other }) := by
  obtain ⟨g, y, h1, h2, -, h3, -⟩ := mp4_end_to_end_partial (o := o) (r := r) x hx hc hty hbrand hne ht hcov hlim hpad hsz
  exact ⟨g, y, h1, h2, h3⟩

/-- C99, **MP4 files without a tag**: the same. -/
theorem mp4_create_pictures_partial {o : Options} {r : ReadOptions} {before kids after : Mp4Write.Forest}
    (h : Mp4Write.Plain before kids after) (hsil : Mp4Read.Silent kids) (hu : ascii "udta" ∉ kids.top) {t : Tag} (hty : t.type = .mp4Ilst)
    (hbrand : ∀ c rest, before = .leaf (ascii "ftyp") c rest → c.length + 8 < 2 ^ 24)
    (hne : mergeIlst [] t ≠ []) (ht : Mp4Ready t) (hcov : r.cover = true) (hlim : ((mergeIlst [] t).flatMap Ilst.atomBox).length ≤ r.limit)
    (hsz : (Mp4Read.whole before kids after).bytes.length + ((mergeIlst [] t).flatMap Ilst.atomBox).length + 72 < 2 ^ 32) :
    ∃ g y, saveTo o t (Mp4Read.whole before kids after).bytes = .ok g ∧ openFile r g = .ok [y] ∧
      y.pictures = t.pictures.map (fun p => { p with ty := .other }) := by
  obtain ⟨g, y, h1, h2, -, h3, -⟩ := mp4_create_end_to_end_partial (o := o) (r := r) h hsil hu hty hbrand hne ht hcov hlim hsz
  exact ⟨g, y, h1, h2, h3⟩

/-- C99, **disagreement in general, reading**: of whatever file, an APE tag, ID3v1 tag, INFO list or AIFF text tag is shown without pictures, whatever
pictures the file has in it. -/
theorem no_pictures_shown {r : ReadOptions} {f : Bytes} {xs : List Tag} (h : openFile r f = .ok xs) {x : Tag} (hx : x ∈ xs)
    (ht : x.type ∈ unpictured) : x.pictures = [] := by
  unfold openFile at h
  obtain ⟨ft, -, h⟩ := bind_ok h
  have h1 : ∀ c x, (ofId3v2 c x).type ∉ unpictured := fun _ _ => by show TagType.id3v2 ∉ _; decide
  have h4 : ∀ c x, (ofVorbis c x).type ∉ unpictured := fun _ _ => by show TagType.vorbisComments ∉ _; decide
  have h7 : ∀ l, (ofIlst false l).tag.type ∉ unpictured := fun l => by rw [Bound.ofIlst_type]; decide
  have hm : ∀ {β : Type} {x : Except Err β} {g : β → List Tag}, x.map g = .ok xs → ∃ y, x = .ok y ∧ xs = g y := by
    intro β x g hx
    cases x with
    | error e => cases hx
    | ok y => exact ⟨y, rfl, ((Except.ok.injEq _ _).mp hx).symm⟩
  have key : ∀ (a : Option FileTags.Id3Tag) (b : Option Id3v1.Tag) (c : Option Ape.Tag),
      x ∈ (a.map (ofId3v2 r.custom)).toList ∨ x ∈ (b.map ofId3v1).toList ∨ x ∈ (c.map ofApe).toList → x.pictures = [] := by
    intro a b c h
    rcases h with h | h | h
    · cases a with
      | none => simp at h
      | some a => simp at h; subst h; exact absurd ht (h1 _ _)
    · cases b with
      | none => simp at h
      | some b => simp at h; subst h; exact ofId3v1_pictures b
    · cases c with
      | none => simp at h
      | some c => simp at h; subst h; rfl
  cases ft with
  | aac =>
    obtain ⟨m, -, rfl⟩ := hm h
    simp only [tagsOf, List.mem_append, or_assoc] at hx
    exact key _ _ _ hx
  | aiff =>
    obtain ⟨m, -, rfl⟩ := hm h
    simp only [aiffTagsOf, List.mem_append] at hx
    rcases hx with hx | hx
    · split at hx
      · simp at hx
      · simp at hx; subst hx; rfl
    · exact key _ none none (.inl hx)
  | ape =>
    obtain ⟨m, -, rfl⟩ := hm h
    simp only [macTagsOf, List.mem_append, or_assoc] at hx
    exact key m.id3v2 m.id3v1 m.ape (by tauto)
  | flac =>
    have h : openFlac r f = .ok xs := h
    unfold openFlac at h
    obtain ⟨⟨x', _⟩, -, h⟩ := bind_ok h
    obtain ⟨v, -, h⟩ := bind_ok h
    obtain ⟨m, -, h⟩ := bind_ok h
    obtain rfl := (Except.ok.injEq _ _).mp h
    simp only [flacTagsOf, List.mem_append] at hx
    rcases hx with hx | hx
    · exact key v none none (.inl hx)
    · split at hx
      · simp at hx; subst hx; exact absurd ht (h4 _ _)
      · split at hx
        · simp at hx
        · simp at hx; subst hx; exact absurd ht (h4 _ _)
  | mpeg =>
    obtain ⟨m, -, rfl⟩ := hm h
    simp only [tagsOf, List.mem_append, or_assoc] at hx
    exact key _ _ _ hx
  | mpc =>
    obtain ⟨m, -, rfl⟩ := hm h
    simp only [tagsOf, List.mem_append, or_assoc] at hx
    exact key _ _ _ hx
  | opus => obtain ⟨m, -, rfl⟩ := hm h; simp at hx; subst hx; exact absurd ht (h4 _ _)
  | vorbis => obtain ⟨m, -, rfl⟩ := hm h; simp at hx; subst hx; exact absurd ht (h4 _ _)
  | speex => obtain ⟨m, -, rfl⟩ := hm h; simp at hx; subst hx; exact absurd ht (h4 _ _)
  | mp4 =>
    obtain ⟨m, -, rfl⟩ := hm h
    cases hm' : m.2.ilst with
    | none => rw [hm'] at hx; simp at hx
    | some l => rw [hm'] at hx; simp at hx; subst hx; exact absurd ht (h7 l)
  | wav =>
    obtain ⟨m, -, rfl⟩ := hm h
    simp only [wavTagsOf, List.mem_append] at hx
    rcases hx with hx | hx
    · split at hx
      · simp at hx
      · simp at hx; subst hx; rfl
    · exact key _ none none (.inl hx)
  | wavPack =>
    obtain ⟨m, -, rfl⟩ := hm h
    simp only [macTagsOf, List.mem_append, or_assoc] at hx
    exact key m.id3v2 m.id3v1 m.ape (by tauto)

/-- C99, **disagreement in general, saving**: saving a tag of these types succeeds and leaves its pictures out: the file is the one that is left by
saving the tag without pictures. -/
theorem pictures_not_saved {o : Options} {t : Tag} {f g : Bytes} (ht : t.type ∈ unpictured) (h : saveTo o t f = .ok g) :
    saveTo o { t with pictures := [] } f = .ok g := by
  unfold saveTo at h ⊢
  cases hv : verified f with
  | error e => rw [hv] at h; cases h
  | ok ft =>
    rw [hv] at h
    simp only at h ⊢
    by_cases hw : (ft.tagSupport t.type).writable = true
    · rw [if_neg (by rw [hw]; simp)] at h ⊢
      obtain ⟨ty, pics, items, c⟩ := t
      simp only [unpictured, List.mem_cons, List.not_mem_nil, or_false] at ht
      rcases ht with rfl | rfl | rfl | rfl <;> cases ft <;> first | exact h | exact absurd hw (by dsimp only; decide)
    · by_cases he : t.items.isEmpty && t.pictures.isEmpty
      · have hp : t.pictures = [] := by
          have := (Bool.and_eq_true_iff.mp he).2
          exact List.isEmpty_iff.mp this
        obtain ⟨ty, pics, items, c⟩ := t
        simp only at hp
        subst hp
        exact h
      · rw [if_pos (by simp [hw, he])] at h
        cases h

/-- C99, **disagreement in general**: the items that are written for a generic tag as an APE tag are never pictures: no item has a name under which an APE
tag has a picture, whatever the tag holds. -/
theorem ape_items_no_cover (t : Tag) : ∀ i ∈ apeRef t, ∀ ty key, Picture.PicType.asApeKey ty = some key → ¬ Ape.SameKey i.key key := by
  have hkeys : ∀ n ∈ str "Track" :: str "Disc" :: ItemKey.all.filterMap (mapKey .ape), (n.take 9).map lowerChar ≠ str "cover art" := by decide +kernel
  have hcover : ∀ ty key, Picture.PicType.asApeKey ty = some key → (key.take 9).map lowerChar = str "cover art" := by
    intro ty key h
    cases ty <;> first | (cases h; decide +kernel) | cases h
  intro i hi ty key hk hs
  have hmem : i.key ∈ str "Track" :: str "Disc" :: ItemKey.all.filterMap (mapKey .ape) := by
    unfold apeRef at hi
    simp only [List.mem_append] at hi
    rcases hi with (hi | hi) | hi
    · obtain ⟨j, -, hj⟩ := List.mem_filterMap.mp hi
      obtain ⟨n, hn, rfl⟩ := Option.map_eq_some_iff.mp hj
      exact List.mem_cons_of_mem _ (List.mem_cons_of_mem _ (List.mem_filterMap.mpr ⟨_, ItemKey.mem_all _, hn⟩))
    · obtain ⟨v, -, rfl⟩ := Option.map_eq_some_iff.mp (Option.mem_toList.mp hi)
      exact List.mem_cons_self
    · obtain ⟨v, -, rfl⟩ := Option.map_eq_some_iff.mp (Option.mem_toList.mp hi)
      exact List.mem_cons_of_mem _ List.mem_cons_self
  refine hkeys _ hmem ?_
  have : (i.key.take 9).map lowerChar = (key.take 9).map lowerChar := by
    rw [List.map_take, List.map_take]
    exact congrArg (List.take 9) hs
  rw [this]
  exact hcover ty key hk

/-- The bytes of an APE tag with a title and a cover. -/
def coveredTag : Bytes :=
  ((Ape.createTag ⟨false, [⟨false, str "Title", .text (str "x")⟩, ⟨false, str "Cover Art (Front)", .binary (ascii "d" ++ [0, 0xFF, 0xD8, 0xFF, 0xE0, 0, 1, 2, 3])⟩]⟩).toOption).getD []

/-- The names of the items of the APE tag of an MPEG file. -/
def apeKeys (f : Bytes) : Except Err (List Str) := (FileTags.readMpeg exRead.files f).map fun m => ((m.ape.map (·.items)).getD []).map (·.key)

/-- C99, **disagreement**: a picture that is put into an APE tag is gone when the file is opened, and the file is as if it had never been there; and a file with a
cover that is opened and whose tag is saved without any change loses the cover, although the cover was there and could be read. -/
theorem ape_cover_lost :
    (∃ g, saveTo exWrite (rich .ape) mp3 = .ok g ∧ saveTo exWrite { rich .ape with pictures := [] } mp3 = .ok g ∧
      (openFile exRead g).map (fun xs => xs.map (·.pictures)) = .ok [[]]) ∧
    apeKeys (mp3 ++ coveredTag) = .ok [str "Title", str "Cover Art (Front)"] ∧
    (do
      let xs ← openFile exRead (mp3 ++ coveredTag)
      let g ← saveAll exWrite .mpeg xs (mp3 ++ coveredTag)
      apeKeys g) = .ok [str "Title"] ∧
    Picture.fromApeBytes (str "Cover Art (Front)") (ascii "d" ++ [0, 0xFF, 0xD8, 0xFF, 0xE0, 0, 1, 2, 3]) =
      .ok ⟨.coverFront, some .jpeg, some (str "d"), [0xFF, 0xD8, 0xFF, 0xE0, 0, 1, 2, 3]⟩ := by
  refine ⟨?_, by decide +kernel, by decide +kernel, by decide +kernel⟩
  have hs : (saveTo exWrite (rich .ape) mp3).toOption.isSome = true := by decide +kernel
  have ho : ((saveTo exWrite (rich .ape) mp3).bind fun g => (openFile exRead g).map fun xs => xs.map (·.pictures)) = .ok [[]] := by decide +kernel
  rcases hg : saveTo exWrite (rich .ape) mp3 with e | g
  · rw [hg] at hs; cases hs
  · rw [hg] at ho
    exact ⟨g, rfl, pictures_not_saved (by decide) hg, ho⟩

/-! ## Cases that meet the hypotheses -/

/-- A title and two pictures. -/
def pictured (ty : TagType) : Tag :=
  { titled ty with pictures := [⟨.coverBack, some .png, some (str "d"), [1, 2]⟩, ⟨.coverFront, some (.unknown (str "image/x")), none, [3]⟩] }

theorem pictured_texts : ∀ k, ∀ s ∈ texts (pictured .vorbisComments) k, s.getLast? ≠ some '\x00' := by
  have : ∀ k ∈ ItemKey.all, ∀ s ∈ texts (pictured .vorbisComments) k, s.getLast? ≠ some '\x00' := by decide +kernel
  exact fun k => this k (ItemKey.mem_all k)

theorem pictured_stable (ty : TagType) : ∀ p ∈ (pictured ty).pictures, Picture.Stable p := by
  intro p hp
  simp only [pictured, List.mem_cons, List.not_mem_nil, or_false] at hp
  rcases hp with rfl | rfl
  · exact ⟨nofun, nofun, (fun d h => by cases h; decide), by decide, by decide⟩
  · exact ⟨nofun, (fun s h => by cases h; decide), nofun, by decide, by decide⟩

example : ∃ g x, saveTo exOptions (pictured .vorbisComments) OggWrite.opus = .ok g ∧ openFile exRead g = .ok [x] ∧
    x.pictures = (pictured .vorbisComments).pictures := by
  have hs : (saveTo exOptions (pictured .vorbisComments) OggWrite.opus).toOption.isSome = true := by decide +kernel
  rcases hg : saveTo exOptions (pictured .vorbisComments) OggWrite.opus with e | g
  · rw [hg] at hs; cases hs
  · obtain ⟨x, h1, h2⟩ := ogg_pictures (fmt := .opus) (r := exRead) (vendor := str "libopus") rfl opus_verified hg
      OggWrite.opus_headed ⟨OggWrite.ident.drop 8, by decide⟩ (by decide) (by decide) (by simp) rfl
      ⟨ascii "libopus", _, by decide, rfl, .inl (by decide +kernel)⟩ (by decide) pictured_texts
      (fun _ => ⟨.inl (by decide +kernel), .inl (by decide +kernel)⟩) rfl (pictured_stable _) (fun pics new hp hn => by
        have : (((refPictures (pictured .vorbisComments).pictures).bind fun pics => Vorbis.createPacket ⟨str "libopus", (vorbisRef (pictured .vorbisComments)).2, pics⟩
          OggWrite.Format.opus.sig OggWrite.Format.opus.framing).toOption.map List.length).getD 0 < 1000 := by decide +kernel
        rw [hp] at this
        have : ((Vorbis.createPacket ⟨str "libopus", (vorbisRef (pictured .vorbisComments)).2, pics⟩
          OggWrite.Format.opus.sig OggWrite.Format.opus.framing).toOption.map List.length).getD 0 < 1000 := this
        rw [hn] at this
        have : new.length < 1000 := this
        omega)
    exact ⟨g, x, rfl, h1, h2⟩

example : ∃ g x, saveTo exOptions (pictured .vorbisComments) flacFile = .ok g ∧ openFile exRead g = .ok [x] ∧
    x.pictures = (pictured .vorbisComments).pictures := by
  have hb : ((refPictures (pictured .vorbisComments).pictures).bind fun pics =>
    Flac.tagBlocks (str "v") ⟨str "v", (vorbisRef (pictured .vorbisComments)).2, pics⟩).toOption.isSome = true := by decide +kernel
  rcases hp : refPictures (pictured .vorbisComments).pictures with e | pics
  · rw [hp] at hb; cases hb
  rw [hp] at hb
  have hb : (Flac.tagBlocks (str "v") ⟨str "v", (vorbisRef (pictured .vorbisComments)).2, pics⟩).toOption.isSome = true := hb
  rcases hn : Flac.tagBlocks (str "v") ⟨str "v", (vorbisRef (pictured .vorbisComments)).2, pics⟩ with e | new
  · rw [hn] at hb; cases hb
  · obtain ⟨g, x, h0, h1, h2⟩ := flac_pictures (o := exOptions) (r := exRead) (t := pictured .vorbisComments) (si := List.replicate 34 7)
      (audio := [0xFF, 0xF8]) (bs := [(4, [1, 0, 0, 0, 0x76, 1, 0, 0, 0, 3, 0, 0, 0, 65, 61, 98])]) (vendor := str "v") rfl (by decide) (by decide)
      (by intro b hb; simp only [List.mem_cons, List.not_mem_nil, or_false] at hb; subst hb; exact ⟨by decide, by decide⟩) (by decide +kernel)
      (by decide) hp hn pictured_texts (fun _ => ⟨.inl (by decide +kernel), .inl (by decide +kernel)⟩) rfl (pictured_stable _) (by decide)
    exact ⟨g, x, h0, h1, h2⟩

theorem rich_ready : ∀ t ∈ [rich .id3v2], Ready exWrite exRead mp3 t := by
  intro t ht
  obtain rfl := List.mem_singleton.mp ht
  refine ⟨fun _ => ⟨rich_id3, fun b hb => ?_⟩, nofun, nofun⟩
  have : ((Id3v2.createItems exWrite.frames (frames exWrite (rich .id3v2))).toOption.map List.length).getD 0 < 1000 := by decide +kernel
  rw [hb] at this
  have : b.length < 1000 := this
  show b.length + 8 < _
  omega

example : ∃ g, saveAll exWrite .mpeg [rich .id3v2] mp3 = .ok g ∧ ∃ d0, ∀ d, d0 ≤ d → ∃ xs, openFile { exRead with depth := d } g = .ok xs ∧
    (seen .id3v2 xs).pictures = [⟨.coverFront, some .png, some (str "d"), [1, 2]⟩] := by
  have hs : (saveAll exWrite .mpeg [rich .id3v2] mp3).toOption.isSome = true := by decide +kernel
  rcases hg : saveAll exWrite .mpeg [rich .id3v2] mp3 with e | g
  · rw [hg] at hs; cases hs
  · exact ⟨g, rfl, around_pictures (o := exWrite) (r := exRead) (ft := .mpeg) (by decide) (FileTags.threeFrames_audio true false) mp3_verified
      ⟨_, _, FileTags.threeFrames_first⟩ (by decide +kernel) rich_ready rfl rfl rfl rfl (fun l => List.Perm.refl l) hg (t := rich .id3v2) (by decide +kernel)⟩

theorem rich_save (strict upper : Bool) : IffFiles.Id3Save.Ok exRead.files ⟨strict, upper, noFlags, exWrite.frames, exWrite.padding, frames exWrite (rich .id3v2)⟩ := by
  have h := ready_frames (w := exWrite.frames) (po := exRead.files.id3) (o := exWrite) rfl rich_id3 (fun l => .refl l) rfl
  refine .inr ⟨rfl, rfl, rfl, rfl, h.1, h.2, fun b hb => ?_⟩
  exact (rich_ready _ (List.mem_singleton.mpr rfl)).id3v2 rfl |>.2 b hb

theorem rich_encoded {b : Bytes} : ((toWav exWrite (rich .id3v2)).encoded = .ok b → b.length < 1000) ∧
    ((toAiffSave exWrite (rich .id3v2)).encoded = .ok b → b.length < 1000) := by
  constructor <;> intro h
  · have : ((toWav exWrite (rich .id3v2)).encoded.toOption.getD []).length < 1000 := by decide +kernel
    rw [h] at this; exact this
  · have : ((toAiffSave exWrite (rich .id3v2)).encoded.toOption.getD []).length < 1000 := by decide +kernel
    rw [h] at this; exact this

example : ∃ g, saveAll exWrite .wav [rich .id3v2] (Iff.wav IffFiles.exWav) = .ok g ∧ ∃ d0 xs,
    (∀ d, d0 ≤ d → openFile { exRead with depth := d } g = .ok xs) ∧ (seen .id3v2 xs).pictures = [⟨.coverFront, some .png, some (str "d"), [1, 2]⟩] := by
  have o0 : ∀ d ∈ IffFiles.exWav, d.Ok := by
    intro d hd
    simp only [IffFiles.exWav, List.mem_cons, List.not_mem_nil, or_false] at hd
    rcases hd with rfl | rfl <;> exact IffFiles.ok_fourcc (by simp) (by decide)
  have h0 : IffFiles.WavHas exRead.files IffFiles.exWav ⟨[], none⟩ := by
    refine ⟨fun d hd => ⟨o0 d hd, ?_⟩, .inl ⟨by decide, rfl⟩, .inl ⟨by decide, rfl⟩⟩
    revert d; decide
  have hok : IffFiles.WavOk exRead.files ([rich .id3v2].map (toWav exWrite)) (Iff.wav IffFiles.exWav) := by
    have l0 : (Iff.wav IffFiles.exWav).length < 1000 := by decide +kernel
    refine ⟨fun cs h hc => ⟨fun b h' => ?_, rich_save _ _, ?_⟩, fun _ _ => trivial⟩
    · have := rich_encoded.1 h'; rw [← h]; omega
    · rw [← IffFiles.wav_inj o0 hc h]
      exact IffFiles.safe_none (by decide)
  have hs : (saveAll exWrite .wav [rich .id3v2] (Iff.wav IffFiles.exWav)).toOption.isSome = true := by decide +kernel
  rcases hg : saveAll exWrite .wav [rich .id3v2] (Iff.wav IffFiles.exWav) with e | g
  · rw [hg] at hs; cases hs
  · exact ⟨g, rfl, wav_pictures (o := exWrite) (r := exRead) h0 (by decide) (by decide +kernel) hok rfl (fun l => List.Perm.refl l) hg (t := rich .id3v2) (by decide +kernel)⟩

example : ∃ g, saveAll exWrite .aiff [rich .id3v2] (Iff.aiff (ascii "AIFF") IffFiles.exAiff) = .ok g ∧ ∃ d0 xs,
    (∀ d, d0 ≤ d → openFile { exRead with depth := d } g = .ok xs) ∧ (seen .id3v2 xs).pictures = [⟨.coverFront, some .png, some (str "d"), [1, 2]⟩] := by
  have o0 : ∀ d ∈ IffFiles.exAiff, d.Ok := by
    intro d hd
    simp only [IffFiles.exAiff, List.mem_cons, List.not_mem_nil, or_false] at hd
    rcases hd with rfl | rfl <;> exact IffFiles.ok_fourcc (by simp) (by decide)
  have h0 : IffFiles.AiffHas exRead.files IffFiles.exAiff ⟨⟨none, none, none, none, none⟩, none⟩ := by
    refine ⟨o0, ⟨IffFiles.exComm, by decide, rfl⟩, ⟨⟨none, none, none, none, none⟩, by decide, ?_, ?_, by decide⟩, .inl ⟨by decide, rfl⟩⟩
    · unfold Iff.Aiff.Fits; decide +kernel
    · unfold Iff.Aiff.Clean Iff.Comment.Ok Iff.EvenInit; decide +kernel
  have hok : IffFiles.AiffOk exRead.files ([rich .id3v2].map (toAiffSave exWrite)) (Iff.aiff (ascii "AIFF") IffFiles.exAiff) := by
    have l0 : (Iff.aiff (ascii "AIFF") IffFiles.exAiff).length < 1000 := by decide +kernel
    refine ⟨fun form cs h hf hc => ⟨fun b h' => ?_, rich_save _ _, ?_⟩, fun _ _ => trivial⟩
    · have := rich_encoded.2 h'; rw [← h]; omega
    · rw [← (IffFiles.aiff_inj rfl hf o0 hc h).2]
      exact IffFiles.safe_none (by decide)
  have hs : (saveAll exWrite .aiff [rich .id3v2] (Iff.aiff (ascii "AIFF") IffFiles.exAiff)).toOption.isSome = true := by decide +kernel
  rcases hg : saveAll exWrite .aiff [rich .id3v2] (Iff.aiff (ascii "AIFF") IffFiles.exAiff) with e | g
  · rw [hg] at hs; cases hs
  · exact ⟨g, rfl, aiff_pictures (o := exWrite) (r := exRead) (.inl rfl) h0 (by decide +kernel) hok rfl (fun l => List.Perm.refl l) hg (t := rich .id3v2) (by decide +kernel)⟩

example : let t : Tag := ⟨.mp4Ilst, [⟨.coverBack, some .png, none, [1, 2]⟩], (titled .mp4Ilst).items ++ [TagItem.new .TrackNumber (.text (str "3"))], false⟩
    ∃ g y, saveTo exOptions t (Mp4Write.file []).bytes = .ok g ∧ openFile exRead g = .ok [y] ∧ y.pictures = [⟨.other, some .png, none, [1, 2]⟩] :=
  mp4_pictures_partial (o := exOptions) (r := exRead) (Mp4Write.file []) (Mp4Write.file_ok _ (.inl rfl)) (Mp4Read.file_clear _)
    rfl (fun c rest h => by cases h; decide) (by decide +kernel) mp4_ready rfl (by decide +kernel) (fun k h => by cases h; decide) (by decide +kernel)

example : let t : Tag := ⟨.mp4Ilst, [⟨.coverBack, some .png, none, [1, 2]⟩], (titled .mp4Ilst).items ++ [TagItem.new .TrackNumber (.text (str "3"))], false⟩
    ∃ g y, saveTo exOptions t Mp4Write.bare.bytes = .ok g ∧ openFile exRead g = .ok [y] ∧ y.pictures = [⟨.other, some .png, none, [1, 2]⟩] :=
  mp4_create_pictures_partial (o := exOptions) (r := exRead) Mp4Write.bare_plain (Mp4Read.stbl_silent _) (by decide)
    rfl (fun c rest h => by cases h; decide) (by decide +kernel) mp4_ready rfl (by decide +kernel) (by decide +kernel)

end Lofty.Opened
