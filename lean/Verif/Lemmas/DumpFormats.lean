import Verif.Lemmas.Dump
import Verif.Props.OggWrite
import Verif.Props.Mp4Write
/-!
# What is dumped is what is written, format by format
-/
namespace Lofty.Save

/-! ## Tags around the audio -/

/-- ID3v1. A tag that has been saved can be dumped, and the saved file contains the dump. -/
theorem written_id3v1 {o : Options} {ft : FileType} {t : Id3v1.Tag} {f g : Bytes} (hne : t.isEmpty = false)
    (h : (Own.id3v1 t).write o ft f = .ok g) : ∃ d, (Own.id3v1 t).dump o = .ok d ∧ d <:+: g := by
  unfold Own.write Id3v1.write at h
  obtain ⟨⟨found, x, pos⟩, _, h⟩ := bind_ok h
  simp only [hne, Bool.false_and, Bool.false_eq_true, if_false] at h
  obtain ⟨b, h2, h⟩ := bind_ok h
  obtain rfl := (Except.ok.injEq _ _).mp h
  exact ⟨b, h2, (at_writeAt pos f b).infix⟩

/-- APE. Unless there is an APE tag eight bytes behind the ID3v2 tags at the front. -/
theorem written_ape {o : Options} {ft : FileType} {t : Ape.Tag} {f g : Bytes}
    (hlead : ∀ x p, Id3v2.find f 0 false none = .ok (x, p) → (f.drop (p + 8)).take 8 ≠ ascii "APETAGEX")
    (h : (Own.ape t).write o ft f = .ok g) : ∃ d, (Own.ape t).dump o = .ok d ∧ d <:+: g := by
  unfold Own.write Ape.writeTo at h
  obtain ⟨e, h1, h⟩ := bind_ok h
  obtain ⟨new, h2, h⟩ := bind_ok h
  refine ⟨new, h2, ?_⟩
  have he : e.header = none := by
    unfold Ape.findExisting at h1
    obtain ⟨⟨x, p⟩, k1, h1⟩ := bind_ok h1
    obtain ⟨_, _, h1⟩ := bind_ok h1
    obtain ⟨head, k2, h1⟩ := bind_ok h1
    obtain ⟨⟨_, _, q⟩, _, h1⟩ := bind_ok h1
    have hn : head = (none, none) := by
      unfold Ape.readTag at k2
      obtain ⟨y, k3, k2⟩ := bind_ok k2
      have hy : y = (f.drop (p + 8)).take 8 := by
        unfold readAt at k3
        split at k3
        · exact ((Except.ok.injEq _ _).mp k3).symm
        · cases k3
      rw [if_pos (by rw [hy]; exact hlead x p k1)] at k2
      exact ((Except.ok.injEq _ _).mp k2).symm
    simp only at h1
    split at h1
    · cases h1
    · split at h1
      · cases h1
      · obtain ⟨foot, _, h1⟩ := bind_ok h1
        obtain ⟨range, _, h1⟩ := bind_ok h1
        rw [← (Except.ok.injEq _ _).mp h1, hn]; rfl
  unfold Ape.writeTag at h
  obtain ⟨f1, h3, h⟩ := bind_ok h
  rw [he] at h
  simp only at h
  obtain rfl := (Except.ok.injEq _ _).mp h
  unfold Ape.splice at h3
  split at h3
  · cases h3
  · obtain rfl := (Except.ok.injEq _ _).mp h3
    exact ⟨_, _, by rw [List.append_assoc]⟩

/-- ID3v2, in files that are neither WAV nor AIFF. -/
theorem written_id3v2 {o : Options} {ft : FileType} {fl : Id3v2.Flags} {fs : List Id3v2.Frame} {f g : Bytes}
    (hft : ft ≠ .wav ∧ ft ≠ .aiff) (h : (Own.id3v2 fl fs).write o ft f = .ok g) :
    ∃ d, (Own.id3v2 fl fs).dump o = .ok d ∧ d <:+: g := by
  have hw : FileTags.saveId3v2 fl o.frames o.padding o.junk fs f = .ok g := by
    cases ft <;> first | exact h | exact absurd rfl hft.1 | exact absurd rfl hft.2
  unfold FileTags.saveId3v2 at hw
  obtain ⟨new, h1, h2⟩ := bind_ok hw
  unfold Id3v2.writeFile at h2
  obtain ⟨⟨x, p⟩, _, h2⟩ := bind_ok h2
  obtain rfl := (Except.ok.injEq _ _).mp h2
  exact ⟨new, h1, [], _, by simp; rfl⟩

/-- ID3v2 in WAV and AIFF files, where a tag is saved without footer. -/
theorem written_id3v2_iff {o : Options} {ft : FileType} {fl : Id3v2.Flags} {fs : List Id3v2.Frame} {f g : Bytes}
    (hft : ft = .wav ∨ ft = .aiff) (hfl : fl.footer = false) (h : (Own.id3v2 fl fs).write o ft f = .ok g) :
    ∃ d, (Own.id3v2 fl fs).dump o = .ok d ∧ d <:+: g := by
  have he : { fl with footer := false } = fl := by cases fl; simp_all
  have hw : ∃ be isWav, IffFiles.saveId3 be isWav (o.mode = .strict) o.upper fl o.frames o.padding fs f = .ok g := by
    rcases hft with rfl | rfl
    · exact ⟨_, _, h⟩
    · exact ⟨_, _, h⟩
  obtain ⟨be, isWav, hw⟩ := hw
  unfold IffFiles.saveId3 at hw
  rw [he] at hw
  obtain ⟨new, h1, h2⟩ := bind_ok hw
  refine ⟨new, h1, ?_⟩
  by_cases hn : new = []
  · rw [hn]; exact List.nil_infix
  · exact writeChunkFile_at hn h2

/-! ## Chunks -/

/-- RIFF INFO. -/
theorem written_riff {o : Options} {ft : FileType} {t : List Iff.Item} {f g : Bytes} (h : (Own.riffInfo t).write o ft f = .ok g) :
    ∃ d, (Own.riffInfo t).dump o = .ok d ∧ d <:+: g := by
  unfold Own.write Iff.writeInfo at h
  obtain ⟨orig, _, h⟩ := bind_ok h
  obtain ⟨info, h1, h⟩ := bind_ok h
  refine ⟨info, h1, ?_⟩
  split at h
  · cases h
  · split at h
    · cases h
    · split at h
      · cases h
      · obtain ⟨found, h2, h⟩ := bind_ok h
        cases found with
        | none =>
          simp only at h
          split at h
          · cases h
          · obtain ⟨g1, h3, h⟩ := bind_ok h
            obtain rfl := (Except.ok.injEq _ _).mp h
            exact ((at_splice h3).writeAt (by rw [leBytes_length]; omega)).infix
        | some r =>
          obtain ⟨size, pos⟩ := r
          have hp := findInfo_pos _ _ _ _ h2
          simp only [Iff.Chunks.new] at hp
          simp only at h
          split at h
          · cases h
          · split at h
            · cases h
            · split at h
              · cases h
              · obtain ⟨g1, h3, h⟩ := bind_ok h
                exact ((at_splice h3).splice (by rw [leBytes_length]) (by omega) h).infix

theorem findText_ge {strict : Bool} : ∀ (n : Nat) (c : Iff.Chunks) (rs : List (Nat × Nat)) (cm : Option Nat) (rs' : List (Nat × Nat)) (p : Nat),
    (∀ r ∈ rs, 12 ≤ r.1) → (∀ p ∈ cm, 12 ≤ p) → Iff.findText strict n c rs cm = .ok (rs', p) → (∀ r ∈ rs', 12 ≤ r.1) ∧ 12 ≤ p := by
  intro n
  induction n with
  | zero => intro c rs cm rs' p _ _ h; cases h
  | succ n ih =>
    intro c rs cm rs' p h1 h2 h
    unfold Iff.findText at h
    obtain ⟨⟨hd, c1⟩, _, h⟩ := bind_ok h
    cases hd with
    | none =>
      cases cm with
      | none => cases h
      | some q =>
        have e := (Except.ok.injEq _ _).mp h
        simp only [Prod.mk.injEq] at e
        obtain ⟨rfl, rfl⟩ := e
        exact ⟨h1, h2 q rfl⟩
    | some hd =>
      simp only at h
      split at h
      · obtain ⟨c2, _, h⟩ := bind_ok h
        refine ih _ _ _ _ _ ?_ h2 h
        intro r hr
        rcases List.mem_append.mp hr with hr | hr
        · exact h1 r hr
        · simp only [List.mem_singleton] at hr
          rw [hr]; exact Nat.le_add_left 12 _
      · split at h
        · obtain ⟨c2, _, h⟩ := bind_ok h
          exact ih _ _ _ _ _ h1 (by intro p hp; rw [← Option.some.inj hp]; exact Nat.le_add_left 12 _) h
        · exact ih _ _ _ _ _ h1 h2 h

/-- AIFF text chunks. -/
theorem written_aiff {o : Options} {ft : FileType} {t : Iff.Aiff} {f g : Bytes} (h : (Own.aiffText t).write o ft f = .ok g) :
    ∃ d, (Own.aiffText t).dump o = .ok d ∧ d <:+: g := by
  unfold Own.write Iff.writeAiff at h
  obtain ⟨_, _, h⟩ := bind_ok h
  obtain ⟨text, h1, h⟩ := bind_ok h
  obtain ⟨⟨ranges, comm⟩, h2, h⟩ := bind_ok h
  refine ⟨text, h1, ?_⟩
  have hg := findText_ge _ _ _ _ _ _ (by simp) (by simp) h2
  have hfin : ∀ g1, At 12 text g1 → (if List.length g1 < 8 then Except.error Err.panic
      else Iff.splice g1 4 8 (beBytes 4 ((List.length g1 - 8) % 2 ^ 32))) = Except.ok g → text <:+: g := by
    intro g1 hat h
    split at h
    · cases h
    · exact (hat.splice (by rw [beBytes_length]) (by omega) h).infix
  cases ranges with
  | nil =>
    obtain ⟨g1, h3, h⟩ := bind_ok h
    exact hfin g1 ((at_splice h3).mono hg.2) h
  | cons r rs =>
    obtain ⟨a, b⟩ := r
    obtain ⟨g2, _, h⟩ := bind_ok h
    obtain ⟨g1, h3, h⟩ := bind_ok h
    exact hfin g1 ((at_splice h3).mono (hg.1 (a, b) (by simp))) h

/-! ## Vorbis comments -/

theorem markLast_content {b : Flac.Block} : ∀ {bs : List Flac.Block}, b ∈ bs → ∃ b' ∈ Flac.markLast bs, b'.content = b.content
  | [x], h => by
    simp only [List.mem_singleton] at h
    exact ⟨{ x with last := true }, by simp [Flac.markLast], by rw [h]⟩
  | x :: y :: bs, h => by
    rcases List.mem_cons.mp h with rfl | h
    · exact ⟨b, by simp [Flac.markLast], rfl⟩
    · obtain ⟨b', h1, h2⟩ := markLast_content h
      exact ⟨b', by rw [Flac.markLast]; exact List.mem_cons_of_mem _ h1; simp, h2⟩

theorem writeBlocks_content {b : Flac.Block} : ∀ {bs : List Flac.Block} {out : Bytes}, b ∈ bs → Flac.writeBlocks bs = .ok out → b.content <:+: out
  | x :: bs, out, h, hw => by
    unfold Flac.writeBlocks at hw
    obtain ⟨y, h1, hw⟩ := bind_ok hw
    obtain ⟨ys, h2, hw⟩ := bind_ok hw
    obtain rfl := (Except.ok.injEq _ _).mp hw
    rcases List.mem_cons.mp h with rfl | h
    · unfold Flac.Block.write at h1
      split at h1
      · cases h1
      · obtain rfl := (Except.ok.injEq _ _).mp h1
        exact ⟨_ :: beBytes 3 b.content.length, ys, by simp; rfl⟩
    · obtain ⟨p, q, e⟩ := writeBlocks_content h h2
      exact ⟨y ++ p, q, by simp [← e]⟩

theorem newPictures_mem {p : Picture.Pic × Picture.Info} : ∀ {ps : List (Picture.Pic × Picture.Info)} {bs : List Flac.Block},
    Flac.newPictures ps = .ok bs → p ∈ ps → ∃ b ∈ bs, b.content = Picture.asFlacBytes p.1 p.2 false
  | x :: ps, bs, h, hp => by
    unfold Flac.newPictures at h
    obtain ⟨b, h1, h⟩ := bind_ok h
    obtain ⟨bs', h2, h⟩ := bind_ok h
    obtain rfl := (Except.ok.injEq _ _).mp h
    rcases List.mem_cons.mp hp with rfl | hp
    · unfold Flac.newPicture at h1
      simp only at h1
      split at h1
      · cases h1
      · obtain rfl := (Except.ok.injEq _ _).mp h1
        exact ⟨_, List.mem_cons_self, rfl⟩
    · obtain ⟨b', h3, h4⟩ := newPictures_mem h2 hp
      exact ⟨b', by simp [h3], h4⟩

/-- FLAC. The saved file contains the comments as they are dumped with the vendor that the file names, and every picture
in the form of a FLAC block. -/
theorem written_flac {o : Options} {t : Vorbis.Tag} {f g : Bytes} (hne : t.items ≠ [])
    (h : (Own.vorbisComments t).write o .flac f = .ok g) :
    (∃ v d, (Own.vorbisComments { t with vendor := v, pictures := [] }).dump o = .ok d ∧ d <:+: g) ∧
    ∀ p ∈ t.pictures, Picture.asFlacBytes p.1 p.2 false <:+: g := by
  change Flac.writeTo f t o.padding = .ok g at h
  unfold Flac.writeTo at h
  obtain ⟨⟨x, pos⟩, _, h⟩ := bind_ok h
  obtain ⟨si, _, h⟩ := bind_ok h
  obtain ⟨s, _, h⟩ := bind_ok h
  have hi : t.items.isEmpty = false := by cases hx : t.items <;> simp_all
  simp only [hi, Bool.and_false, Bool.false_and, Bool.false_eq_true, if_false] at h
  obtain ⟨new, h1, h⟩ := bind_ok h
  obtain ⟨out, h2, h⟩ := bind_ok h
  have hin : ∀ b ∈ new, b.content <:+: g := by
    intro b hb
    obtain ⟨b', h3, h4⟩ := markLast_content (b := b) (bs := s.blocks ++ new ++
      Flac.paddingBlocks s.padding o.padding (s.stop - si.start) (s.blocks ++ new)) (by simp [hb])
    have h5 := writeBlocks_content h3 h2
    rw [h4] at h5
    by_cases hr : s.stop < si.start ∨ f.length < s.stop
    · rw [Flac.replaceRange_invalid _ _ _ _ _ _ hr] at h; cases h
    · rw [Flac.replaceRange_splice _ _ _ _ _ _ (by omega) (by omega)] at h
      obtain rfl := (Except.ok.injEq _ _).mp h
      obtain ⟨p, q, e⟩ := h5
      exact ⟨f.take si.start ++ p, q ++ f.drop s.stop, by simp [← e]⟩
  unfold Flac.encodeTag at h1
  obtain ⟨ps, h3, h1⟩ := bind_ok h1
  cases hit : t.items with
  | nil => exact absurd hit hne
  | cons i is =>
    rw [hit] at h1
    simp only at h1
    obtain ⟨c, h4, h1⟩ := bind_ok h1
    obtain rfl := (Except.ok.injEq _ _).mp h1
    constructor
    · unfold Flac.newComments at h4
      obtain ⟨d, h5, h4⟩ := bind_ok h4
      split at h4
      · cases h4
      · obtain rfl := (Except.ok.injEq _ _).mp h4
        refine ⟨s.vendor, d, ?_, hin _ List.mem_cons_self⟩
        exact h5
    · intro p hp
      obtain ⟨b, hb, e⟩ := newPictures_mem h3 hp
      rw [← e]
      exact hin b (by simp [hb])

theorem createPacket_parts {t : Vorbis.Tag} {sig new : Bytes} {fr : Bool} (h : Vorbis.createPacket t sig fr = .ok new) :
    ∃ d, Vorbis.createPacket t [] false = .ok d ∧ new = sig ++ d ++ (if fr then [1] else []) := by
  unfold Vorbis.createPacket at h ⊢
  obtain ⟨⟨cs, n⟩, h1, h⟩ := bind_ok h
  obtain ⟨⟨ps, m⟩, h2, h⟩ := bind_ok h
  obtain rfl := (Except.ok.injEq _ _).mp h
  rw [h1, h2]
  exact ⟨_, rfl, by simp⟩

open Lofty.OggWrite in
/-- Opus, Vorbis, Speex. The comment packet of the saved file is the dump with the vendor that the file names, between the
signature and the framing bit of the format. -/
theorem written_ogg {o : Options} {fmt : Format} {t : Vorbis.Tag} {f g ident comment rest : Bytes} {others : List Bytes}
    (h : OggWrite.write fmt t f = .ok g) (hh : Headed fmt f (ident :: comment :: others) rest) (hi : ident ≠ []) (ho : ∀ p ∈ others, p ≠ []) :
    ∃ v d rest', (Own.vorbisComments { t with vendor := v }).dump o = .ok d ∧
      Headed fmt g (ident :: (fmt.sig ++ d ++ if fmt.framing then [1] else []) :: others) rest' := by
  obtain ⟨qs, junk, hq⟩ := paged_exists _ rest (Nat.le_refl _)
  obtain ⟨c, v, new, n, _, _, h3, h4⟩ := save_headers h hh hq hi ho
  obtain ⟨d, h5, rfl⟩ := createPacket_parts h3
  exact ⟨v, d, _, h5, h4⟩

/-! ## MP4 -/

open Lofty.Mp4Write in
theorem infix_append {r : Bytes} {x y : Forest} (h : r <:+: y.bytes) : r <:+: (x.append y).bytes := by
  rw [append_bytes]
  exact h.trans ⟨_, [], by rw [List.append_nil]⟩

open Lofty.Mp4Write in
theorem infix_node {r id : Bytes} {x y : Forest} (h : r <:+: x.bytes) : r <:+: (Forest.node id x y).bytes := by
  rw [Forest.bytes, Ilst.box, ← List.append_assoc (beBytes _ _)]
  exact h.trans ⟨_, _, rfl⟩

open Lofty.Mp4Write in
theorem infix_leaf {r id c : Bytes} {y : Forest} (h : r <:+: c) : r <:+: (Forest.leaf id c y).bytes := by
  rw [Forest.bytes, Ilst.box, ← List.append_assoc (beBytes _ _)]
  exact h.trans ⟨_, _, rfl⟩

open Lofty.Mp4Write in
/-- MP4 files that have a tag already. -/
theorem written_mp4 {o : Options} (x : File) (hx : x.Ok) {t : Ilst.Tag} {d g : Bytes} (hd : (Own.mp4Ilst t).dump o = .ok d) (hn : d ≠ [])
    (hpad : ∀ k, o.padding = some k → 8 ≤ k) (hsz : 2 * x.bytes.length + d.length + o.padding.getD 0 < 2 ^ 32)
    (h : (Own.mp4Ilst t).write o .mp4 x.bytes = .ok g) : d <:+: g := by
  have hw := write_partial x hx t o.mode o.padding d hd hn hpad hsz
  have h : Mp4Write.writeTo x.bytes t o.mode o.padding = .ok g := h
  rw [h] at hw
  rw [(Except.ok.injEq _ _).mp hw]
  have hfit : d <:+: (x.fit d o.padding).1 := by
    unfold File.fit
    split
    · exact ⟨[], _, by simp; rfl⟩
    · split
      · exact ⟨[], _, by simp; rfl⟩
      · split
        · exact ⟨[], _, by simp; rfl⟩
        · split <;> exact ⟨[], _, by simp; rfl⟩
  refine hfit.trans ?_
  generalize (x.fit d o.padding).1 = region
  generalize moved x.start (x.fit d o.padding).2 = s
  have hne : ascii "meta" ≠ ascii "stco" := by decide
  rw [File.whole, File.moov, append_mapOffsets, Forest.mapOffsets, append_mapOffsets, Forest.mapOffsets, if_neg hne]
  refine infix_append (infix_node (infix_append (infix_node (infix_append (infix_leaf ?_)))))
  exact ⟨_, _, by rw [List.append_assoc]⟩

end Lofty.Save
