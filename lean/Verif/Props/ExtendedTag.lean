import Verif.Props.ExtendedHeader
/-!
# C101: ID3v2 tags saved with a checksum or restrictions, in both versions
-/
namespace Lofty.FileTags

/-- Contents that begin with a zero hold no frames, whatever the version. -/
theorem parseTag_zero_any (o : Id3v2.ParseOpts) (v23 u : Bool) (hu : v23 = true → u = false) (d : Nat) (r : Bytes) :
    Id3v2.parseTag o (if v23 then .v3 else .v4) u (d + 1) (0 :: r) = .ok [] := by
  have hh : ∀ s, Id3v2.parseHeaderV34 s o.implicit (0 :: r) = .none := by
    intro s
    unfold Id3v2.parseHeaderV34
    split
    · rename_i h
      injection h with h1 h2
      simp only
      rw [if_pos h1.symm]
    · rfl
  cases v23 with
  | false =>
    unfold Id3v2.parseTag
    simp only [Bool.false_eq_true, if_false, bne_self_eq_false, Bool.and_false]
    unfold Id3v2.readAll Id3v2.readLoop Id3v2.readFrame
    rw [show Id3v2.parseFrameHeader .v4 o.implicit (0 :: r) = .none from hh true]
    simp only
    rw [ok_bind]
    simp
  | true =>
    rw [hu rfl]
    unfold Id3v2.parseTag
    simp only [Bool.false_eq_true, if_false, if_true, Bool.false_and]
    unfold Id3v2.readAll Id3v2.readLoop Id3v2.readFrame
    rw [show Id3v2.parseFrameHeader .v3 o.implicit (0 :: r) = .none from hh false]
    simp only
    rw [ok_bind]
    have : Id3v2.constructTdrc [] = [] := by decide
    simp [this]

/-- C101: **of the bytes of a tag with a checksum or restrictions, in version 2.3 or 2.4, with any padding, footer or unsynchronisation, a reader makes a
tag without frames, checksum and restrictions**, whatever follows.  (For version 2.3 the experimental flag must be clear, see
`Id3v2.v23_experimental_wrong`.) -/
theorem tag_frames_lost {fl : Id3v2.Flags} (hx : fl.crc = true ∨ fl.restrictions ≠ none) {v23 : Bool} (hexp : v23 = true → fl.experimental = false)
    {padding : Option Nat} {body tag : Bytes} (hsize : body.length + padding.getD 0 + 14 < 2 ^ 32)
    (h : Id3v2.createTag fl v23 padding body = .ok tag) (rest : Bytes) :
    ∃ hd, Id3v2.parseHeader (tag ++ rest) 0 = .ok (hd, 10) ∧ ∀ o : Opts, 1 ≤ o.depth →
      parseId3 o hd ((tag ++ rest).drop 10) = .ok ⟨if v23 then .v3 else .v4,
        ⟨!v23 && fl.unsynchronisation, fl.experimental, fl.footer, false, none⟩, []⟩ := by
  obtain ⟨more, hm, hc⟩ := Id3v2.createTag_zero hx h
  have hsz : (0 :: more ++ body).length + padding.getD 0 < 2 ^ 32 := by simp only [List.length_append, List.length_cons]; omega
  obtain ⟨h1, h2, h3⟩ := Id3v2.parseHeader_createTag_partial fl.unextended v23 padding (0 :: more ++ body) tag rest rfl rfl hexp hsz hc
  refine ⟨_, h1, fun o ho => ?_⟩
  obtain ⟨d, hd⟩ : ∃ d, o.depth = d + 1 := ⟨o.depth - 1, by omega⟩
  unfold parseId3
  simp only [Nat.sub_zero]
  obtain ⟨r, hr⟩ : ∃ r, ((tag ++ rest).drop 10).take ((0 :: more ++ body).length + if fl.unextended.footer then 0 else padding.getD 0) = 0 :: r := by
    rw [h2]
    simp only [List.append_assoc]
    rw [List.drop_left' h3, List.cons_append, List.cons_append, List.length_cons, Nat.add_right_comm, List.take_succ_cons]
    exact ⟨_, rfl⟩
  rw [hr, hd, parseTag_zero_any o.id3 v23 _ (by rintro rfl; rfl)]
  rfl

/-- C101: a tag saved with a checksum or restrictions is read back without any frame from AAC files, too. -/
theorem aac_frames_lost {o : Opts} (ho : o.readTags = true) (hp : o.readProps = false) {audio g g' : Bytes} (ha : Audio o audio)
    {h : Aac.Header} {k : Nat} (hk : Aac.findNext audio (audio.length + 1) 0 = .ok (some (h, k)))
    (l : List Save) (hl : ∀ s ∈ l, s.Ok o audio ∨ s.Extended) (hg : runAll o.junk l audio = .ok g)
    {fl : Id3v2.Flags} {w : Id3v2.WriteOpts} {padding : Option Nat} {fs : List Id3v2.Frame} (hx : (Save.id3v2 fl w padding fs).Extended)
    (hs : (Save.id3v2 fl w padding fs).run o.junk g = .ok g') :
    ∃ d0, ∀ d, d0 ≤ d → ∃ m m', readAac { o with depth := d } g = .ok m ∧ readAac { o with depth := d } g' = .ok m' ∧
      m'.id3v2 = some ⟨.v4, { fl with crc := false, restrictions := none }, []⟩ ∧ m'.id3v1 = m.id3v1 := by
  have h1 := saves_layout ha l audio g _ hl (layout_plain ha) hg
  have h2 := extended_layout ha hx h1 hs
  obtain ⟨_, _, _, -, -, d1, e1⟩ := readAac_layout ho ha h1 hk
  obtain ⟨_, _, _, -, -, d2, e2⟩ := readAac_layout ho ha h2 hk
  refine ⟨max d1 d2, fun d hd => ?_⟩
  have e1 := e1 d (by omega)
  have e2 := e2 d (by omega)
  rw [if_neg (by simp [hp])] at e1 e2
  exact ⟨_, _, e1, e2, rfl, rfl⟩

/-! ## A case that meets the hypotheses -/

/-- An ID3v2.3 tag with restrictions, a footer and padding. -/
example : ∃ tag, Id3v2.createTag ⟨true, false, true, true, some (Id3v2.Restrictions.fromByte 0xFF)⟩ true (some 100) (titleBytes "first") = .ok tag ∧
    ∃ hd, Id3v2.parseHeader (tag ++ threeFrames) 0 = .ok (hd, 10) ∧
      parseId3 (exOpts true false) hd ((tag ++ threeFrames).drop 10) = .ok ⟨.v3, ⟨false, false, true, false, none⟩, []⟩ := by
  have hs : (Id3v2.createTag ⟨true, false, true, true, some (Id3v2.Restrictions.fromByte 0xFF)⟩ true (some 100) (titleBytes "first")).toOption.isSome = true := by
    decide +kernel
  rcases hg : Id3v2.createTag ⟨true, false, true, true, some (Id3v2.Restrictions.fromByte 0xFF)⟩ true (some 100) (titleBytes "first") with e | tag
  · rw [hg] at hs; simp [Except.toOption] at hs
  · obtain ⟨hd, h1, h2⟩ := tag_frames_lost (.inl rfl) (fun _ => rfl) (by decide +kernel) hg threeFrames
    exact ⟨tag, rfl, hd, h1, h2 (exOpts true false) (by decide)⟩

/-- A title saved to an AAC file with a checksum is gone when the file is read. -/
example : ∃ g', (Save.id3v2 crcFlags exW none (titleTag "first")).run 100 threeAac = .ok g' ∧
    ∃ d0, ∀ d, d0 ≤ d → ∃ m', readAac { exOpts true false with depth := d } g' = .ok m' ∧ m'.id3v2 = some ⟨.v4, exFlags, []⟩ := by
  have hs : ((Save.id3v2 crcFlags exW none (titleTag "first")).run 100 threeAac).toOption.isSome = true := by decide +kernel
  have hf : ((Aac.findNext threeAac (threeAac.length + 1) 0).toOption.bind id).isSome = true := by decide +kernel
  rcases hk : Aac.findNext threeAac (threeAac.length + 1) 0 with e | _ | ⟨h, k⟩
  · rw [hk] at hf; simp [Except.toOption] at hf
  · rw [hk] at hf; simp [Except.toOption] at hf
  rcases hg : (Save.id3v2 crcFlags exW none (titleTag "first")).run 100 threeAac with e | g
  · rw [hg] at hs; simp [Except.toOption] at hs
  · refine ⟨g, rfl, ?_⟩
    obtain ⟨d0, h0⟩ := aac_frames_lost (o := exOpts true false) rfl rfl (threeAac_audio _ _) hk [] (by simp) rfl crc_title_extended hg
    exact ⟨d0, fun d hd => by obtain ⟨m, m', -, h2, h3, -⟩ := h0 d hd; exact ⟨m', h2, h3⟩⟩

end Lofty.FileTags
