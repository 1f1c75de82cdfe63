import Verif.Props.Chained
import Verif.Props.Id3v2Crc
/-!
# C101: ID3v2 tags saved with a checksum or restrictions

The writer puts an extended header behind the header of such a tag, but does not set the bit that announces it.  A reader takes the extended
header for the frames; as it begins with a zero, it is taken for padding, and no frame is read.
-/
namespace Lofty.Id3v2

/-- The flags without the two that need an extended header. -/
def Flags.unextended (fl : Flags) : Flags := { fl with crc := false, restrictions := none }

/-- The flags ask for an extended header. -/
def Flags.Extended (fl : Flags) : Prop := fl.crc = true ∨ fl.restrictions ≠ none

/-- The extended header begins with a zero, and has at least six bytes. -/
theorem extHeader_zero {fl : Flags} (hx : fl.Extended) {ext : Bytes} (h : extHeader fl = .ok ext) :
    ∃ more, ext = 0 :: more ∧ more.length ≤ 13 ∧ (fl.crc = true → 11 ≤ more.length) := by
  obtain ⟨u, e, f, c, r⟩ := fl
  unfold extHeader at h
  cases c <;> cases r <;> simp only [Bool.or_true, Bool.true_or, Bool.or_false, Bool.false_or, Option.isSome_none, Option.isSome_some, if_true, Bool.false_eq_true, if_false,
    Nat.add_zero, Nat.reduceAdd] at h
  · rcases hx with hx | hx
    · cases hx
    · exact absurd rfl hx
  · rw [show synch 8 = some 8 by decide] at h
    obtain rfl := (Except.ok.injEq _ _).mp h
    exact ⟨_, rfl, by simp [beBytes, leBytes], by simp⟩
  · rw [show synch 12 = some 12 by decide] at h
    obtain rfl := (Except.ok.injEq _ _).mp h
    exact ⟨_, rfl, by simp [beBytes, leBytes], by simp [beBytes, leBytes]⟩
  · rw [show synch 14 = some 14 by decide] at h
    obtain rfl := (Except.ok.injEq _ _).mp h
    exact ⟨_, rfl, by simp [beBytes, leBytes], by simp [beBytes, leBytes]⟩

/-- Such a tag is, byte for byte, a tag without extended header whose contents begin with a zero. -/
theorem createTag_zero {fl : Flags} (hx : fl.Extended) {v23 : Bool} {padding : Option Nat} {body t : Bytes} (h : createTag fl v23 padding body = .ok t) :
    ∃ more, more.length ≤ 13 ∧ createTag fl.unextended v23 padding (0 :: more ++ body) = .ok t := by
  unfold createTag at h
  obtain ⟨ext, hext, h⟩ := bind_ok h
  obtain ⟨more, rfl, hl, hl'⟩ := extHeader_zero hx hext
  simp only at h
  have hu : extHeader fl.unextended = .ok [] := by unfold extHeader Flags.unextended; rfl
  split at h
  · cases h
  · rename_i s hs
    obtain ⟨tag, htag, h⟩ := bind_ok h
    generalize hhead : ascii "ID3" ++ [if v23 then 3 else 4, 0, if v23 then fl.v23Byte else fl.v24Byte] ++ beBytes 4 s = head at h htag
    have hh : head.length = 10 := by rw [← hhead]; simp [ascii]
    have key : ∃ more', more'.length = more.length ∧ tag = head ++ (0 :: more' ++ body) := by
      by_cases hc : fl.crc = true
      · rw [if_pos hc] at htag
        have h11 := hl' hc
        generalize (if fl.restrictions.isSome = true then 25 else 22) = start at htag
        split at htag
        · obtain rfl := (Except.ok.injEq _ _).mp htag
          generalize hcr : calculateCrc _ = cr
          have h5 : cr.length = 5 := by rw [← hcr]; exact (crc_value _).1
          refine ⟨more.take 5 ++ (5 :: cr) ++ more.drop 11, by simp [h5]; omega, ?_⟩
          unfold createTag.writeSlice
          rw [List.length_cons, h5]
          have e1 : (head ++ 0 :: more ++ body).take 16 = head ++ (0 :: more.take 5) := by
            rw [List.append_assoc, show 16 = head.length + 6 by omega, List.take_length_add_append]
            rw [List.cons_append, List.take_succ_cons, List.take_append_of_le_length (by omega)]
          have e2 : (head ++ 0 :: more ++ body).drop (16 + (5 + 1)) = more.drop 11 ++ body := by
            rw [List.append_assoc, show 16 + (5 + 1) = head.length + 12 by omega, List.drop_length_add_append]
            rw [List.cons_append, List.drop_succ_cons, List.drop_append_of_le_length (by omega)]
          rw [e1, e2]
          simp only [List.append_assoc, List.cons_append]
        · cases htag
      · rw [if_neg hc] at htag
        obtain rfl := (Except.ok.injEq _ _).mp htag
        exact ⟨more, rfl, by simp only [List.append_assoc]⟩
    obtain ⟨more', hm, rfl⟩ := key
    refine ⟨more', by omega, ?_⟩
    unfold createTag
    rw [hu, ok_bind]
    have hsz : ([] : Bytes).length + ((0 :: more' ++ body).length + (if fl.unextended.footer then 0 else padding.getD 0)) =
        (0 :: more).length + (body.length + if fl.footer then 0 else padding.getD 0) := by
      show _ + (_ + if fl.footer then 0 else padding.getD 0) = _
      simp only [List.length_append, List.length_cons, List.length_nil, hm]
      omega
    simp only
    rw [hsz, hs]
    simp only
    rw [if_neg (show ¬ fl.unextended.crc = true by simp [Flags.unextended]), ok_bind]
    rw [show fl.unextended.v23Byte = fl.v23Byte from rfl, show fl.unextended.v24Byte = fl.v24Byte from rfl, hhead,
      show fl.unextended.footer = fl.footer from rfl, List.append_nil]
    exact h

/-- Contents that begin with a zero hold no frames in version 2.4. -/
theorem parseTag_zero (o : ParseOpts) (d : Nat) (r : Bytes) : parseTag o .v4 false (d + 1) (0 :: r) = .ok [] := by
  have hh : parseFrameHeader .v4 o.implicit (0 :: r) = .none := by
    show parseHeaderV34 true o.implicit (0 :: r) = .none
    unfold parseHeaderV34
    split
    · rename_i h
      injection h with h1 h2
      simp only
      rw [if_pos h1.symm]
    · rfl
  unfold parseTag
  simp only [Bool.false_and, Bool.false_eq_true, if_false]
  unfold readAll readLoop readFrame
  rw [hh]
  simp only
  rw [ok_bind]
  simp

end Lofty.Id3v2

namespace Lofty.FileTags

/-- An ID3v2.4 save whose flags ask for a checksum or restrictions. -/
def Save.Extended : Save → Prop
  | .id3v2 fl w padding fs => fs ≠ [] ∧ w.v23 = false ∧ fl.Extended ∧ fl.unsynchronisation = false ∧
      ∀ b, Id3v2.createItems w fs = .ok b → b.length + padding.getD 0 + 14 < 2 ^ 32
  | _ => False

/-- The tags a reader finds after such a save: the ID3v2 tag has no frames, no checksum and no restrictions; the others are as before. -/
def Tags.emptied (t : Tags) : Save → Tags
  | .id3v2 fl _ _ _ => { t with id3v2 := some ⟨.v4, { fl with crc := false, restrictions := none }, []⟩ }
  | _ => t

/-- The tag of such a save is a tag without frames to a reader. -/
theorem extended_lead {o : Opts} {fl : Id3v2.Flags} {w : Id3v2.WriteOpts} {padding : Option Nat} {fs : List Id3v2.Frame}
    (hs : (Save.id3v2 fl w padding fs).Extended) {b : Bytes} (hb : (Save.id3v2 fl w padding fs).encoded = .ok b) :
    LeadOf o.id3 b (some ⟨.v4, fl.unextended, []⟩) := by
  obtain ⟨hne, hv, hx, hu, hsz⟩ := hs
  simp only [Save.encoded] at hb
  rw [if_neg (by simpa using hne)] at hb
  obtain ⟨body, hbody, hb⟩ := bind_ok hb
  rw [hv] at hb
  have hsz := hsz body hbody
  obtain ⟨more, hm, hc⟩ := Id3v2.createTag_zero hx hb
  refine .tag fl.unextended padding (0 :: more ++ body) [] b rfl rfl hu (by simp only [List.length_append, List.length_cons]; omega) hc ⟨1, fun d hd pad => ?_⟩
  obtain ⟨d, rfl⟩ : ∃ d', d = d' + 1 := ⟨d - 1, by omega⟩
  exact Id3v2.parseTag_zero _ _ _

/-- Such a save keeps the layout of the file. -/
theorem extended_layout {o : Opts} {audio f g : Bytes} {t : Tags} {s : Save} (ha : Audio o audio) (hs : s.Extended)
    (hf : Layout o audio f t) (hg : s.run o.junk f = .ok g) : Layout o audio g (t.emptied s) := by
  obtain ⟨b, hb⟩ := encoded_of_run hg
  obtain ⟨lead, ape, v1, x, y, z, hx, hy, hz, hv⟩ := hf
  cases s with
  | id3v2 fl w padding fs =>
    have hl := extended_lead (o := o) hs hb
    simp only [Save.encoded] at hb
    have hw : Id3v2.writeFile (lead ++ (audio ++ (ape ++ v1))) o.junk b = .ok (b ++ (audio ++ (ape ++ v1))) := by
      rcases lead_written hx with ⟨rfl, -⟩ | ⟨h, -⟩
      · apply Id3v2.writeFile_untagged
        rw [List.nil_append, List.take_append_of_le_length ha.junk.2]
        exact ha.noId3v2
      · exact Id3v2.writeFile_tagged h _ _ _ ha.junk.1
    simp only [Save.run, saveId3v2] at hg
    rw [hb, ok_bind, hw] at hg
    obtain rfl := (Except.ok.injEq _ _).mp hg
    exact .mk b ape v1 _ y z hl hy hz hv
  | ape t => exact hs.elim
  | id3v1 a t => exact hs.elim

/-- The tags a reader finds after a save of either kind. -/
noncomputable def Tags.seen (o : Opts) (t : Tags) (s : Save) : Tags :=
  open Classical in if s.Extended then t.emptied s else t.after o s

/-- Any sequence of saves, with checksums or restrictions or without. -/
theorem saves_layout {o : Opts} {audio : Bytes} (ha : Audio o audio) : ∀ (l : List Save) (f g : Bytes) (t : Tags),
    (∀ s ∈ l, s.Ok o audio ∨ s.Extended) → Layout o audio f t → runAll o.junk l f = .ok g → Layout o audio g (l.foldl (Tags.seen o) t) := by
  intro l
  induction l with
  | nil =>
    intro f g t _ hf h
    obtain rfl := (Except.ok.injEq _ _).mp h
    exact hf
  | cons s l ih =>
    intro f g t hs hf h
    rw [runAll] at h
    obtain ⟨f1, h1, h⟩ := bind_ok h
    refine ih f1 g _ (fun s' hs' => hs s' (by simp [hs'])) ?_ h
    unfold Tags.seen
    split
    · rename_i hx
      exact extended_layout ha hx hf h1
    · rename_i hx
      have hok := (hs s (by simp)).resolve_right hx
      obtain ⟨b, hb⟩ := encoded_of_run h1
      obtain ⟨f2, h2, hl⟩ := run_of_encoded ha hok hf hb
      rw [h1] at h2
      obtain rfl := (Except.ok.injEq _ _).mp h2
      exact hl

/-! ## The claims -/

/-- C101: **a tag saved with a checksum or restrictions is read back without any frame** from an MPEG file, whatever was saved to the file before.
The other tags and the audio are untouched. -/
theorem mpeg_frames_lost {o : Opts} (ho : o.readTags = true) (hp : o.readProps = false) {audio g g' : Bytes} (ha : Audio o audio)
    {h : Mpeg.Header} {k : Nat} (hk : Mpeg.findNext audio (audio.length + 1) 0 = .ok (some (h, k)))
    (l : List Save) (hl : ∀ s ∈ l, s.Ok o audio ∨ s.Extended) (hg : runAll o.junk l audio = .ok g)
    {fl : Id3v2.Flags} {w : Id3v2.WriteOpts} {padding : Option Nat} {fs : List Id3v2.Frame} (hx : (Save.id3v2 fl w padding fs).Extended)
    (hs : (Save.id3v2 fl w padding fs).run o.junk g = .ok g') :
    ∃ d0, ∀ d, d0 ≤ d → ∃ m m', readMpeg { o with depth := d } g = .ok m ∧ readMpeg { o with depth := d } g' = .ok m' ∧
      m'.id3v2 = some ⟨.v4, { fl with crc := false, restrictions := none }, []⟩ ∧ m'.id3v1 = m.id3v1 ∧ m'.ape = m.ape := by
  have h1 := saves_layout ha l audio g _ hl (layout_plain ha) hg
  have h2 := extended_layout ha hx h1 hs
  obtain ⟨d1, e1⟩ := (readMpeg_layout ho ha h1 hk).1 hp
  obtain ⟨d2, e2⟩ := (readMpeg_layout ho ha h2 hk).1 hp
  exact ⟨max d1 d2, fun d hd => ⟨_, _, e1 d (by omega), e2 d (by omega), rfl, rfl, rfl⟩⟩

/-- C101: the same of Monkey's Audio files. -/
theorem mac_frames_lost {o : Opts} (ho : o.readTags = true) {audio g g' : Bytes} (ha : Audio o audio) (hm : audio.take 4 = ascii "MAC ")
    (l : List Save) (hl : ∀ s ∈ l, s.Ok o audio ∨ s.Extended) (hg : runAll o.junk l audio = .ok g)
    {fl : Id3v2.Flags} {w : Id3v2.WriteOpts} {padding : Option Nat} {fs : List Id3v2.Frame} (hx : (Save.id3v2 fl w padding fs).Extended)
    (hs : (Save.id3v2 fl w padding fs).run o.junk g = .ok g') :
    ∃ d0, ∀ d, d0 ≤ d → ∃ m m', readMac { o with depth := d } g = .ok m ∧ readMac { o with depth := d } g' = .ok m' ∧
      m'.id3v2 = some ⟨.v4, { fl with crc := false, restrictions := none }, []⟩ ∧ m'.id3v1 = m.id3v1 ∧ m'.ape = m.ape := by
  have h1 := saves_layout ha l audio g _ hl (layout_plain ha) hg
  have h2 := extended_layout ha hx h1 hs
  obtain ⟨d1, e1⟩ := readMac_layout ho ha h1 hm
  obtain ⟨d2, e2⟩ := readMac_layout ho ha h2 hm
  exact ⟨max d1 d2, fun d hd => ⟨_, _, e1 d (by omega), e2 d (by omega), rfl, rfl, rfl⟩⟩

/-- C101: the same of Musepack files. -/
theorem mpc_frames_lost {o : Opts} (ho : o.readTags = true) {audio g g' : Bytes} (ha : Audio o audio)
    (l : List Save) (hl : ∀ s ∈ l, s.Ok o audio ∨ s.Extended) (hg : runAll o.junk l audio = .ok g)
    {fl : Id3v2.Flags} {w : Id3v2.WriteOpts} {padding : Option Nat} {fs : List Id3v2.Frame} (hx : (Save.id3v2 fl w padding fs).Extended)
    (hs : (Save.id3v2 fl w padding fs).run o.junk g = .ok g') :
    ∃ d0, ∀ d, d0 ≤ d → ∃ m m', readMpc { o with depth := d } g = .ok m ∧ readMpc { o with depth := d } g' = .ok m' ∧
      m'.id3v2 = some ⟨.v4, { fl with crc := false, restrictions := none }, []⟩ ∧ m'.id3v1 = m.id3v1 ∧ m'.ape = m.ape := by
  have h1 := saves_layout ha l audio g _ hl (layout_plain ha) hg
  have h2 := extended_layout ha hx h1 hs
  obtain ⟨d1, e1⟩ := readMpc_layout ho ha h1
  obtain ⟨d2, e2⟩ := readMpc_layout ho ha h2
  exact ⟨max d1 d2, fun d hd => ⟨_, _, e1 d (by omega), e2 d (by omega), rfl, rfl, rfl⟩⟩

/-- C101: **the loss is mended by the next save without them**: the tag is then found and replaced as a whole. -/
theorem mpeg_saved_again {o : Opts} (ho : o.readTags = true) (hp : o.readProps = false) {audio g g' : Bytes} (ha : Audio o audio)
    {h : Mpeg.Header} {k : Nat} (hk : Mpeg.findNext audio (audio.length + 1) 0 = .ok (some (h, k)))
    (l : List Save) (hl : ∀ s ∈ l, s.Ok o audio ∨ s.Extended) (hg : runAll o.junk l audio = .ok g)
    {fl : Id3v2.Flags} {w : Id3v2.WriteOpts} {padding : Option Nat} {fs : List Id3v2.Frame} (hok : (Save.id3v2 fl w padding fs).Ok o audio)
    (hs : (Save.id3v2 fl w padding fs).run o.junk g = .ok g') :
    ∃ d0, ∀ d, d0 ≤ d → ∃ m', readMpeg { o with depth := d } g' = .ok m' ∧ m'.id3v2 = if fs = [] then none else some ⟨.v4, fl, fs⟩ := by
  have h1 := saves_layout ha l audio g _ hl (layout_plain ha) hg
  obtain ⟨b, hb⟩ := encoded_of_run hs
  obtain ⟨g2, e, h2⟩ := run_of_encoded ha hok h1 hb
  rw [hs] at e
  obtain rfl := (Except.ok.injEq _ _).mp e
  obtain ⟨d2, e2⟩ := (readMpeg_layout ho ha h2 hk).1 hp
  exact ⟨d2, fun d hd => ⟨_, e2 d hd, rfl⟩⟩

/-! ## A case that meets the hypotheses -/

/-- The flags of a tag with a checksum. -/
def crcFlags : Id3v2.Flags := ⟨false, false, false, true, none⟩

theorem crc_title_extended : (Save.id3v2 crcFlags exW none (titleTag "first")).Extended := by
  refine ⟨by simp [titleTag], rfl, .inl rfl, rfl, fun b hb => ?_⟩
  have : ((Id3v2.createItems exW (titleTag "first")).toOption.map List.length).getD 0 < 1000 := by decide +kernel
  rw [hb] at this
  have : b.length < 1000 := this
  simp; omega

/-- The example: a title saved to an MPEG file with a checksum is gone when the file is read. -/
example : ∃ g', (Save.id3v2 crcFlags exW none (titleTag "first")).run 100 threeFrames = .ok g' ∧
    ∃ d0, ∀ d, d0 ≤ d → ∃ m', readMpeg { exOpts true false with depth := d } g' = .ok m' ∧ m'.id3v2 = some ⟨.v4, exFlags, []⟩ := by
  have hs : ((Save.id3v2 crcFlags exW none (titleTag "first")).run 100 threeFrames).toOption.isSome = true := by decide +kernel
  rcases hg : (Save.id3v2 crcFlags exW none (titleTag "first")).run 100 threeFrames with e | g
  · rw [hg] at hs; simp [Except.toOption] at hs
  · refine ⟨g, rfl, ?_⟩
    obtain ⟨d0, h0⟩ := mpeg_frames_lost (o := exOpts true false) rfl rfl (threeFrames_audio _ _) threeFrames_first [] (by simp) rfl crc_title_extended hg
    exact ⟨d0, fun d hd => by obtain ⟨m, m', -, h2, h3, -⟩ := h0 d hd; exact ⟨m', h2, h3⟩⟩

/-- A tag with a checksum as other programs write it: the extended header is announced. -/
def foreignTag : Bytes :=
  let b := ((Save.id3v2 crcFlags exW none (titleTag "first")).encoded.toOption).getD []
  b.take 5 ++ 0x40 :: b.drop 6

/-- C101: **opening a file and saving its tag unchanged loses the metadata.**  The tag of another program, with its checksum, is read with its
title and flags; saved as it was read, it is read without the title. -/
theorem unchanged_save_loses :
    let first := (readMpeg (exOpts true false) (foreignTag ++ threeFrames)).toOption.bind (·.id3v2)
    first.map (fun t => (t.flags.crc, Id3v2.getText t.frames (.valid (str "TIT2")))) = some (true, some (str "first")) ∧
    (first.bind fun t => (((Save.id3v2 t.flags exW none t.frames).run 100 (foreignTag ++ threeFrames)).toOption.bind fun g =>
      (readMpeg (exOpts true false) g).toOption.bind (·.id3v2))).map (fun t => (t.flags.crc, t.frames.length)) = some (false, 0) := by
  decide +kernel

end Lofty.FileTags
