import Verif.Lemmas.Whole
import Verif.Lemmas.WholeMp4
/-!
# C75: `read_properties(false)` leaves out the properties and nothing else

`wholeAs o ⟨tags, props⟩ f ty` reads a file of type `ty` with the given two options: it returns the generic tags and the generic properties.
-/
namespace Lofty.Opened
open Item Lofty.Save Lofty.FileTags Lofty.Iff Lofty.IffFiles

/-! ## Without properties -/

theorem wavChunk_noProps (o : Opts) (len : Nat) : Alike (fun (a b : WavAcc) => a.items = b.items ∧ a.id3v2 = b.id3v2)
    (IffFiles.wavChunk { o with readProps := true } len) (IffFiles.wavChunk { o with readProps := false } len) := by
  intro h c a b c1 a1 hR hf
  unfold IffFiles.wavChunk at hf ⊢
  simp only [Bool.false_eq_true, false_and, and_false, if_false, true_and] at hf ⊢
  have plain : ∀ k : Bytes, h.fourcc = k → (k ≠ ascii "LIST" ∧ k ≠ ascii "ID3 " ∧ k ≠ ascii "id3 ") → c1.skip = c.skip →
      (a1.items = a.items ∧ a1.id3v2 = a.id3v2) → ∃ c2 b1, (if h.fourcc = ascii "LIST" then
        if o.readTags = true then do
          let (c, items) ← Iff.wavChunk (o.id3.mode = .strict) (fun _ => .ok ()) len h c b.items
          .ok (c, { b with items := items })
        else if h.size < 4 then .error .sizeMismatch
        else do
          let (_, c) ← c.readExact 4
          .ok (c, b)
      else if (h.fourcc = ascii "ID3 " ∨ h.fourcc = ascii "id3 ") ∧ o.readTags = true then do
        let (x, c) ← c.readExact h.size
        let t ← id3Chunk { o with readProps := false } x
        .ok (c, { b with id3v2 := addTag b.id3v2 t })
      else .ok (c, b) : Except Err (Chunks × WavAcc)) = .ok (c2, b1) ∧ c2.skip = c1.skip ∧ a1.items = b1.items ∧ a1.id3v2 = b1.id3v2 := by
    intro k hk hn hs ha
    rw [hk, if_neg hn.1, if_neg (fun x => by rcases x.1 with e | e; exact hn.2.1 e; exact hn.2.2 e)]
    exact ⟨c, b, rfl, hs.symm, ha.1.trans hR.1, ha.2.trans hR.2⟩
  split at hf
  · rename_i hc
    obtain ⟨⟨x, c2⟩, h1, hf⟩ := bind_ok hf
    cases hf
    exact plain _ hc.1 (by decide) (readExact_skip h1) ⟨rfl, rfl⟩
  split at hf
  · rename_i hc
    obtain ⟨⟨x, c2⟩, h1, hf⟩ := bind_ok hf
    cases hf
    exact plain _ hc.1 (by decide) (readExact_skip h1) ⟨rfl, rfl⟩
  split at hf
  · rename_i hc
    cases hf
    exact plain _ hc.1 (by decide) rfl ⟨rfl, rfl⟩
  split at hf
  · rename_i hc
    rw [if_pos hc]
    split at hf
    · rename_i ht
      rw [if_pos ht, ← hR.1]
      obtain ⟨⟨c2, items⟩, h1, hf⟩ := bind_ok hf
      cases hf
      rw [h1]
      exact ⟨c2, _, rfl, rfl, rfl, hR.2⟩
    · rename_i ht
      rw [if_neg ht]
      split at hf
      · cases hf
      · rename_i hs
        rw [if_neg hs]
        obtain ⟨⟨x, c2⟩, h1, hf⟩ := bind_ok hf
        cases hf
        rw [h1]
        exact ⟨c2, _, rfl, rfl, hR⟩
  · rename_i hc
    rw [if_neg hc]
    split at hf
    · rename_i ht
      rw [if_pos ht]
      obtain ⟨⟨x, c2⟩, h1, hf⟩ := bind_ok hf
      obtain ⟨t, h2, hf⟩ := bind_ok hf
      cases hf
      rw [h1, ok_bind]
      change id3Chunk o x = .ok t at h2
      change ∃ c2' b1, (do
        let t ← id3Chunk o x
        .ok (c2, { b with id3v2 := addTag b.id3v2 t }) : Except Err (Chunks × WavAcc)) = .ok (c2', b1) ∧ _
      rw [h2]
      exact ⟨c2, _, rfl, rfl, hR.1, by simp only [hR.2]⟩
    · rename_i ht
      rw [if_neg ht]
      cases hf
      exact ⟨c, b, rfl, rfl, hR⟩

theorem wav_noProps (o : Opts) {f : Bytes} {m : WavFile} (h : IffFiles.readWav { o with readProps := true } f = .ok m) :
    IffFiles.readWav { o with readProps := false } f = .ok { m with props := none } := by
  unfold IffFiles.readWav at h ⊢
  obtain ⟨v, h1, h⟩ := bind_ok h
  rw [h1, ok_bind]
  simp only [Bool.false_eq_true, if_false, if_true] at h ⊢
  obtain ⟨⟨a, pos⟩, h2, h⟩ := bind_ok h
  obtain ⟨b, hb, hR⟩ := chunkLoop_alike (wavChunk_noProps o (f.length - 12)) _ _ _ _ _ _ _ rfl ⟨rfl, rfl⟩ h2
  rw [hb, ok_bind]
  simp only at h ⊢
  obtain ⟨p, h3, h⟩ := bind_ok h
  cases h
  rw [hR.1, hR.2]

theorem aiffText_other {strict : Bool} {id3 : Bytes → Except Err Unit} {h : Hdr} (c : Chunks) (a : Iff.AiffAcc)
    (hf : h.fourcc = ascii "COMM" ∨ h.fourcc = ascii "SSND") : Iff.aiffChunk strict id3 h c a = .ok (c, a) := by
  unfold Iff.aiffChunk
  rcases hf with e | e <;> rw [e] <;> rfl

theorem aiffChunk_noProps (o : Opts) : Alike (fun (a b : IffFiles.AiffAcc) => a.text = b.text ∧ a.id3v2 = b.id3v2)
    (IffFiles.aiffChunk { o with readProps := true }) (IffFiles.aiffChunk { o with readProps := false }) := by
  intro h c a b c1 a1 hR hf
  unfold IffFiles.aiffChunk at hf ⊢
  simp only [Bool.false_eq_true, false_and, and_false, if_false, true_and] at hf ⊢
  have plain : h.fourcc = ascii "COMM" ∨ h.fourcc = ascii "SSND" → c1.skip = c.skip →
      (a1.text = a.text ∧ a1.id3v2 = a.id3v2) → ∃ c2 b1, (if o.readTags = true then do
          let (c, t) ← Iff.aiffChunk (o.id3.mode = .strict) (fun _ => .ok ()) h c b.text
          .ok (c, { b with text := t })
        else .ok (c, b) : Except Err (Chunks × IffFiles.AiffAcc)) = .ok (c2, b1) ∧ c2.skip = c1.skip ∧ a1.text = b1.text ∧ a1.id3v2 = b1.id3v2 := by
    intro hk hs ha
    rw [aiffText_other c b.text hk, ok_bind]
    simp only [ite_self]
    exact ⟨c, b, rfl, hs.symm, ha.1.trans hR.1, ha.2.trans hR.2⟩
  split at hf
  · rename_i hc
    rw [if_pos hc]
    obtain ⟨⟨x, c2⟩, h1, hf⟩ := bind_ok hf
    obtain ⟨t, h2, hf⟩ := bind_ok hf
    cases hf
    rw [h1, ok_bind]
    change id3Chunk o x = .ok t at h2
    change ∃ c2' b1, (do
      let t ← id3Chunk o x
      .ok (c2, { b with id3v2 := addTag b.id3v2 t }) : Except Err (Chunks × IffFiles.AiffAcc)) = .ok (c2', b1) ∧ _
    rw [h2]
    exact ⟨c2, _, rfl, rfl, hR.1, by simp only [hR.2]⟩
  rename_i hn
  rw [if_neg hn]
  split at hf
  · rename_i hc
    split at hf
    · cases hf
    obtain ⟨⟨x, c2⟩, h1, hf⟩ := bind_ok hf
    cases hf
    exact plain (.inl hc.1) (readExact_skip h1) ⟨rfl, rfl⟩
  split at hf
  · rename_i hc
    cases hf
    exact plain (.inr (by simpa using hc)) rfl ⟨rfl, rfl⟩
  split at hf
  · rename_i ht
    rw [if_pos ht, ← hR.1]
    obtain ⟨⟨c2, t⟩, h1, hf⟩ := bind_ok hf
    cases hf
    rw [h1]
    exact ⟨c2, _, rfl, rfl, rfl, hR.2⟩
  · rename_i ht
    rw [if_neg ht]
    cases hf
    exact ⟨c, b, rfl, rfl, hR⟩

theorem aiff_noProps (o : Opts) {f : Bytes} {m : AiffFile} (h : IffFiles.readAiff { o with readProps := true } f = .ok m) :
    IffFiles.readAiff { o with readProps := false } f = .ok { m with props := none } := by
  unfold IffFiles.readAiff at h ⊢
  obtain ⟨v, h1, h⟩ := bind_ok h
  rw [h1, ok_bind]
  simp only [Bool.false_eq_true, if_false, if_true] at h ⊢
  obtain ⟨⟨a, pos⟩, h2, h⟩ := bind_ok h
  obtain ⟨b, hb, hR⟩ := chunkLoop_alike (aiffChunk_noProps o) _ _ _ _ _ _ _ rfl ⟨rfl, rfl⟩ h2
  rw [hb, ok_bind]
  simp only at h ⊢
  obtain ⟨p, h3, h⟩ := bind_ok h
  cases h
  rw [hR.1, hR.2]

theorem mpeg_noProps (o : Opts) {f : Bytes} {m : MpegFile} (h : readMpeg { o with readProps := true } f = .ok m) :
    readMpeg { o with readProps := false } f = .ok { m with props := none } := by
  unfold readMpeg at h ⊢
  simp only [front_props, Bool.false_eq_true, if_false, if_true] at h ⊢
  split at h
  · cases h
  rename_i hp
  rw [if_neg hp]
  obtain ⟨⟨st, first⟩, h1, h⟩ := bind_ok h
  rw [h1, ok_bind]
  obtain ⟨t, h2, h⟩ := bind_ok h
  change tail o f = .ok t at h2
  change (tail o f >>= fun t => mpegEnd t st.ape >>= fun x => (.ok ⟨st.id3v2, t.v1, x.1, none⟩ : Except Err MpegFile)) = _
  rw [h2, ok_bind]
  obtain ⟨⟨ape, last⟩, h3, h⟩ := bind_ok h
  rw [h3, ok_bind]
  obtain ⟨p, h4, h⟩ := bind_ok h
  cases h
  rfl

theorem aac_noProps (o : Opts) {f : Bytes} {m : AacFile} (h : readAac { o with readProps := true } f = .ok m) :
    readAac { o with readProps := false } f = .ok { m with props := none } := by
  unfold readAac at h ⊢
  simp only [aacFront_props, Bool.false_eq_true, if_false, if_true] at h ⊢
  split at h
  · cases h
  rename_i hp
  rw [if_neg hp]
  obtain ⟨st, h1, h⟩ := bind_ok h
  rw [h1, ok_bind]
  obtain ⟨⟨found, v1, q⟩, h2, h⟩ := bind_ok h
  rw [h2, ok_bind]
  simp only at h ⊢
  obtain ⟨stream, h3, h⟩ := bind_ok h
  rw [h3, ok_bind]
  cases hf : st.first with
  | none => rw [hf] at h; cases h
  | some x =>
    rw [hf] at h
    obtain ⟨p, h4, h⟩ := bind_ok h
    cases h
    rfl

theorem flac_noProps (o : ReadOptions) (t : Bool) {f : Bytes} {ts : List Tag} {p : Generic} (h : wholeFlac o ⟨t, true⟩ f = .ok (ts, p)) :
    wholeFlac o ⟨t, false⟩ f = .ok (ts, unread .flac) := by
  unfold wholeFlac at h ⊢
  simp only [Bool.false_eq_true, if_false, if_true] at h ⊢
  obtain ⟨⟨r, pos⟩, h1, h⟩ := bind_ok h
  rw [h1, ok_bind]
  obtain ⟨id3, h2, h⟩ := bind_ok h
  change contentOf (o.with ⟨t, false⟩) r = _ at h2
  rw [h2, ok_bind]
  obtain ⟨si, h3, h⟩ := bind_ok h
  rw [h3, ok_bind]
  split at h
  · cases h
  rename_i hs
  rw [if_neg hs]
  obtain ⟨⟨m, stop⟩, h4, h⟩ := bind_ok h
  rw [h4, ok_bind]
  simp only at h ⊢
  obtain ⟨q, h5, h⟩ := bind_ok h
  cases h
  rfl

theorem ogg_noProps (o : ReadOptions) (t : Bool) {f : Bytes} {ts : List Tag} {p : Generic} {fmt : OggWrite.Format}
    (h : wholeOgg o ⟨t, true⟩ f fmt = .ok (ts, p)) : wholeOgg o ⟨t, false⟩ f fmt = .ok (ts, unread (oggType fmt)) := by
  unfold wholeOgg at h ⊢
  simp only [Bool.false_eq_true, if_false, if_true] at h ⊢
  obtain ⟨hd, h1, h⟩ := bind_ok h
  rw [h1, ok_bind]
  obtain ⟨v, h2, h⟩ := bind_ok h
  rw [h2, ok_bind]
  obtain ⟨q, h5, h⟩ := bind_ok h
  cases h
  rfl

/-- **C75.** A file of any type but MP4, whatever its bytes are: if it can be read with its properties, it can be read without, and then has
the same tags (all of them, with all their items and pictures, in the same order). -/
theorem without_properties_partial (o : ReadOptions) (t : Bool) {f : Bytes} {ty : FileType} (hty : ty ≠ .mp4) {ts : List Tag} {p : Generic}
    (h : wholeAs o ⟨t, true⟩ f ty = .ok (ts, p)) : wholeAs o ⟨t, false⟩ f ty = .ok (ts, unread ty) := by
  cases ty with
  | aac =>
    change wholeAac _ _ _ = _ at h ⊢
    unfold wholeAac at h ⊢
    obtain ⟨m, h1, h⟩ := bind_ok h
    rw [show readAac (o.with ⟨t, false⟩) f = _ from aac_noProps (o.with ⟨t, true⟩) h1, ok_bind]
    simp only at h ⊢
    cases hm : m.props with
    | none => rw [hm] at h; cases h; rfl
    | some q =>
      rw [hm] at h
      obtain ⟨st, -, h⟩ := bind_ok h
      cases hf : st.first with
      | none => rw [hf] at h; cases h
      | some x => rw [hf] at h; cases h; rfl
  | aiff =>
    change (IffFiles.readAiff _ _).map _ = _ at h ⊢
    cases h1 : IffFiles.readAiff (o.with ⟨t, true⟩) f with
    | error e => rw [h1] at h; cases h
    | ok m =>
      rw [h1] at h
      rw [show IffFiles.readAiff (o.with ⟨t, false⟩) f = _ from aiff_noProps (o.with ⟨t, true⟩) h1]
      cases h
      rfl
  | ape =>
    change (readMacFile _ _).map _ = _ at h ⊢
    cases h1 : readMacFile (o.with ⟨t, true⟩) f with
    | error e => rw [h1] at h; cases h
    | ok m =>
      rw [h1] at h
      unfold readMacFile at h1 ⊢
      rw [show readMac (o.with ⟨t, false⟩) f = readMac (o.with ⟨t, true⟩) f from readMac_props (o.with ⟨t, true⟩) false f]
      obtain ⟨x, h2, h1⟩ := bind_ok h1
      rw [h2, ok_bind]
      replace h1 : (_ >>= _ : Except Err (TagsOf × Option Lossless.Mac)) = _ := h1
      obtain ⟨⟨_, q⟩, h3, h1⟩ := bind_ok h1
      obtain ⟨tl, h4, h1⟩ := bind_ok h1
      obtain ⟨pr, h5, h1⟩ := bind_ok h1
      cases h1
      cases h
      rfl
  | flac => exact flac_noProps o t h
  | mpeg =>
    change wholeMpeg _ _ _ = _ at h ⊢
    unfold wholeMpeg at h ⊢
    obtain ⟨m, h1, h⟩ := bind_ok h
    rw [show readMpeg (o.with ⟨t, false⟩) f = _ from mpeg_noProps (o.with ⟨t, true⟩) h1, ok_bind]
    simp only at h ⊢
    cases hm : m.props with
    | none => rw [hm] at h; cases h; rfl
    | some q =>
      rw [hm] at h
      obtain ⟨⟨st, first⟩, -, h⟩ := bind_ok h
      simp only at h
      cases hf : first with
      | none => rw [hf] at h; cases h
      | some x => rw [hf] at h; cases h; rfl
  | opus => exact ogg_noProps o t h
  | vorbis => exact ogg_noProps o t h
  | speex => exact ogg_noProps o t h
  | wav =>
    change (IffFiles.readWav _ _).map _ = _ at h ⊢
    cases h1 : IffFiles.readWav (o.with ⟨t, true⟩) f with
    | error e => rw [h1] at h; cases h
    | ok m =>
      rw [h1] at h
      rw [show IffFiles.readWav (o.with ⟨t, false⟩) f = _ from wav_noProps (o.with ⟨t, true⟩) h1]
      cases h
      rfl
  | mp4 => exact absurd rfl hty
  | mpc =>
    change wholeMpc _ _ _ = _ at h ⊢
    unfold wholeMpc at h ⊢
    obtain ⟨m, h1, h⟩ := bind_ok h
    change readMpc (o.with ⟨t, false⟩) f = _ at h1
    rw [h1, ok_bind]
    replace h : (_ >>= _ : Except Err Shown) = _ := h
    obtain ⟨⟨_, q⟩, h3, h⟩ := bind_ok h
    obtain ⟨pr, h5, h⟩ := bind_ok h
    cases h
    rfl
  | wavPack =>
    change (readWavPackFile _ _).map _ = _ at h ⊢
    cases h1 : readWavPackFile (o.with ⟨t, true⟩) f with
    | error e => rw [h1] at h; cases h
    | ok m =>
      rw [h1] at h
      unfold readWavPackFile at h1 ⊢
      obtain ⟨x, h2, h1⟩ := bind_ok h1
      change readWavPack (o.with ⟨t, false⟩) f = _ at h2
      rw [h2, ok_bind]
      replace h1 : (_ >>= _ : Except Err (TagsOf × Option WavPack.Props)) = _ := h1
      obtain ⟨pr, h5, h1⟩ := bind_ok h1
      cases h1
      cases h
      rfl

/-! ## The reader of tags alone -/

theorem flacLoop_tags (o : Vorbis.Opts) (f : Bytes) : ∀ (n : Nat) (last : Bool) (pos : Nat) (r : Flac.Found),
    (flacLoop o true f n last pos r).map (·.1) = Flac.readLoop o f n last pos r := by
  intro n
  induction n with
  | zero => intro last pos r; cases last <;> rfl
  | succ n ih =>
    intro last pos r
    cases last with
    | true => rfl
    | false =>
      rw [flacLoop, Flac.readLoop]
      simp only [Bool.and_true]
      cases hb : Flac.readBlock f pos (fun ty => ty == 4 || (ty == 6 && o.readCoverArt)) with
      | error e => rfl
      | ok b =>
        rw [ok_bind, ok_bind]
        cases hs : Flac.readStep o b r with
        | error e => rfl
        | ok r' => exact ih _ _ _

theorem flac_tags (o : ReadOptions) (f : Bytes) : (wholeFlac o ⟨true, false⟩ f).map (·.1) = openFlac o f := by
  unfold wholeFlac openFlac Flac.readFrom
  cases h1 : Id3v2.find f 0 true none with
  | error e => rfl
  | ok x =>
    obtain ⟨r, pos⟩ := x
    simp only [ok_bind]
    change Except.map _ (contentOf o.files r >>= _) = _
    cases h2 : contentOf o.files r with
    | error e => rfl
    | ok t =>
      simp only [ok_bind]
      cases h3 : Flac.verify f pos with
      | error e => rfl
      | ok si =>
        simp only [ok_bind]
        split
        · rfl
        · rw [← flacLoop_tags]
          cases h4 : flacLoop o.comments true f (f.length + 1) si.last si.stop ⟨none, []⟩ with
          | error e => rfl
          | ok m => rfl

theorem map_map {α β γ : Type} (x : Except Err α) (f : α → β) (g : β → γ) : (x.map f).map g = x.map (g ∘ f) := by
  cases x <;> rfl

theorem readMpeg_none {o : Opts} {f : Bytes} {m : MpegFile} (h : readMpeg { o with readProps := false } f = .ok m) : m.props = none := by
  unfold readMpeg at h
  simp only [Bool.false_eq_true, if_false] at h
  split at h
  · cases h
  obtain ⟨x, -, h⟩ := bind_ok h
  obtain ⟨y, -, h⟩ := bind_ok h
  obtain ⟨z, -, h⟩ := bind_ok h
  cases h
  rfl

theorem readAac_none {o : Opts} {f : Bytes} {m : AacFile} (h : readAac { o with readProps := false } f = .ok m) : m.props = none := by
  unfold readAac at h
  simp only [Bool.false_eq_true, if_false] at h
  split at h
  · cases h
  obtain ⟨x, -, h⟩ := bind_ok h
  obtain ⟨y, -, h⟩ := bind_ok h
  obtain ⟨z, -, h⟩ := bind_ok h
  cases h
  rfl

/-- With `read_properties(false)`, a file has the tags that `openAs` reads, or fails with the same error: what is proved about the tags of
opened files (C65, C69, C70, C71, C74) is about these. -/
theorem tags_alone (o : ReadOptions) (f : Bytes) (ty : FileType) : (wholeAs o ⟨true, false⟩ f ty).map (·.1) = openAs o f ty := by
  have ogg : ∀ fmt, (wholeOgg o ⟨true, false⟩ f fmt).map (·.1) =
      (OggWrite.read fmt o.comments f).map fun v => [Convert.ofVorbis o.custom v] := by
    intro fmt
    unfold wholeOgg OggWrite.read
    cases h1 : OggProps.readHeaders f fmt.head fmt.sig fmt.count true with
    | error e => rfl
    | ok h =>
      simp only [ok_bind, if_true, Bool.false_eq_true, if_false]
      cases h2 : Vorbis.readComments o.comments (h.comment.drop fmt.sig.length) (h.comment.drop fmt.sig.length).length with
      | error e => rfl
      | ok x => rfl
  cases ty with
  | aac =>
    change (wholeAac _ _ _).map _ = (readAac (o.with ⟨true, false⟩) f).map _
    unfold wholeAac
    cases h : readAac (o.with ⟨true, false⟩) f with
    | error e => rfl
    | ok m =>
      simp only [ok_bind]
      rw [readAac_none (o := o.files) h]
      rfl
  | aiff => exact map_map _ _ _
  | ape =>
    change ((readMacFile _ _).map _).map _ = (readMac (o.with ⟨true, false⟩) f).map _
    unfold readMacFile
    cases h : readMac (o.with ⟨true, false⟩) f <;> rfl
  | flac => exact flac_tags o f
  | mpeg =>
    change (wholeMpeg _ _ _).map _ = (readMpeg (o.with ⟨true, false⟩) f).map _
    unfold wholeMpeg
    cases h : readMpeg (o.with ⟨true, false⟩) f with
    | error e => rfl
    | ok m =>
      simp only [ok_bind]
      rw [readMpeg_none (o := o.files) h]
      rfl
  | opus => exact ogg .opus
  | vorbis => exact ogg .vorbis
  | speex => exact ogg .speex
  | wav => exact map_map _ _ _
  | mp4 =>
    change (wholeMp4 _ _ _).map _ = (Mp4Read.readFrom o.mp4 f).map _
    unfold wholeMp4 Mp4Props.readFile
    change Except.map _ ((Mp4Read.readFrom o.mp4 f >>= _) >>= _) = _
    cases h : Mp4Read.readFrom o.mp4 f <;> rfl
  | mpc =>
    change (wholeMpc _ _ _).map _ = (readMpc (o.with ⟨true, false⟩) f).map _
    unfold wholeMpc
    cases h : readMpc (o.with ⟨true, false⟩) f <;> rfl
  | wavPack =>
    change ((readWavPackFile _ _).map _).map _ = (readWavPack (o.with ⟨true, false⟩) f).map _
    unfold readWavPackFile
    cases h : readWavPack (o.with ⟨true, false⟩) f <;> rfl

/-- **C75.** The tags of a file read with the default options (tags and properties) are those of the file read without properties, whenever
it is no MP4 file. -/
theorem whole_tags_partial (o : ReadOptions) {f : Bytes} {ty : FileType} (hv : verified f = .ok ty) (hty : ty ≠ .mp4) {ts : List Tag}
    {p : Generic} (h : wholeFile o ⟨true, true⟩ f = .ok (ts, p)) : openFile o f = .ok ts := by
  unfold wholeFile at h
  unfold openFile
  rw [hv] at h ⊢
  change openAs o f ty = _
  rw [← tags_alone, without_properties_partial o true hty h]
  rfl

/-- **C75.** For MP4 files, the same holds if they are made of well-formed atoms and have no user data in their tracks. -/
theorem mp4_without_properties_partial (o : ReadOptions) (t : Bool) {f : Bytes} (hf : Mp4Read.Layout f) {ts : List Tag} {p : Generic}
    (h : wholeAs o ⟨t, true⟩ f .mp4 = .ok (ts, p)) : wholeAs o ⟨t, false⟩ f .mp4 = .ok (ts, unread .mp4) := by
  obtain ⟨brand, found, tag, h1, h2⟩ := Mp4Read.layout_read hf ⟨o.mode, o.cover, o.implicit⟩ o.limit
  change wholeMp4 _ _ _ = _ at h ⊢
  unfold wholeMp4 Mp4Props.readFile at h ⊢
  have e : ∀ b : Bool, Mp4Read.readFrom { o.mp4 with tags := t, properties := b } f =
      (if t then tag else .ok none) >>= fun x => .ok (brand, ⟨if b then found else [], x⟩) := by
    intro b
    cases t
    · exact h2 b
    · exact h1 b
  simp only [e] at h ⊢
  cases hx : (if t then tag else .ok none : Except Err (Option Ilst.Tag)) with
  | error e => rw [hx] at h; cases h
  | ok x =>
    rw [hx] at h
    simp only [ok_bind, if_true, Bool.false_eq_true, if_false] at h ⊢
    obtain ⟨⟨a, b, c⟩, h3, h⟩ := bind_ok h
    obtain ⟨q, h4, h3⟩ := bind_ok h3
    cases h3
    cases h
    rfl

end Lofty.Opened
