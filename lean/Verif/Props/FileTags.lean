import Verif.Lemmas.FileLayout
/-!
# C60: the tags of one file do not disturb each other
-/
namespace Lofty.FileTags

/-- What is saved can be encoded. -/
theorem encoded_of_run {s : Save} {junk : Nat} {f g : Bytes} (h : s.run junk f = .ok g) : ∃ b, s.encoded = .ok b := by
  cases s with
  | id3v2 fl w padding fs =>
    simp only [Save.run, saveId3v2] at h
    obtain ⟨b, hb, -⟩ := bind_ok h
    exact ⟨b, hb⟩
  | ape t =>
    simp only [Save.run, Ape.writeTo] at h
    obtain ⟨e, -, h⟩ := bind_ok h
    obtain ⟨b, hb, -⟩ := bind_ok h
    exact ⟨b, hb⟩
  | id3v1 lossy t =>
    simp only [Save.run, Id3v1.write] at h
    obtain ⟨⟨found, v, p⟩, -, h⟩ := bind_ok h
    simp only at h
    split at h
    · rename_i hc
      have he : t = Id3v1.Tag.empty := by
        obtain ⟨a, b, c, d, e, g, k⟩ := t
        simp [Id3v1.Tag.isEmpty, Bool.and_eq_true] at hc
        simp [Id3v1.Tag.empty, hc]
      subst he
      exact (Id3v1.encode_ok_iff lossy _).mpr (.inr ⟨by simp [Id3v1.Latin, Id3v1.Tag.empty], by simp [Id3v1.Latin, Id3v1.Tag.empty],
        by simp [Id3v1.Latin, Id3v1.Tag.empty], by simp [Id3v1.Latin, Id3v1.Tag.empty]⟩)
    · obtain ⟨b, hb, -⟩ := bind_ok h
      exact ⟨b, hb⟩

/-- A tag that can be encoded is saved to every such file, and replaces only the tag of its kind. -/
theorem run_of_encoded {o : Opts} {audio f b : Bytes} {t : Tags} {s : Save} (ha : Audio o audio) (hs : s.Ok o audio)
    (hf : Layout o audio f t) (hb : s.encoded = .ok b) : ∃ g, s.run o.junk f = .ok g ∧ Layout o audio g (t.after o s) := by
  have hlong := ha.long
  obtain ⟨lead, ape, v1, x, y, z, hx, hy, hz, hv⟩ := hf
  cases s with
  | id3v2 fl w padding fs =>
    simp only [Save.encoded] at hb
    have hw : Id3v2.writeFile (lead ++ (audio ++ (ape ++ v1))) o.junk b = .ok (b ++ (audio ++ (ape ++ v1))) := by
      rcases lead_written hx with ⟨rfl, -⟩ | ⟨h, -⟩
      · apply Id3v2.writeFile_untagged
        rw [List.nil_append, List.take_append_of_le_length ha.junk.2]
        exact ha.noId3v2
      · exact Id3v2.writeFile_tagged h _ _ _ ha.junk.1
    refine ⟨b ++ (audio ++ (ape ++ v1)), ?_, ?_⟩
    · simp only [Save.run, saveId3v2]
      rw [hb, ok_bind, hw]
    · simp only [Tags.after]
      cases fs with
      | nil =>
        obtain rfl := (Except.ok.injEq _ _).mp hb
        rw [if_pos rfl]
        exact .mk [] ape v1 none y z .none hy hz hv
      | cons fr fs =>
        rw [if_neg (by simp)]
        rcases hs with hs | ⟨h1, h2, h3, h4, h5, h6, h7⟩
        · simp at hs
        · rw [if_neg (by simp)] at hb
          obtain ⟨body, hbody, hb⟩ := bind_ok hb
          rw [h1] at hb
          have hsz := h7 body hbody
          have hrt := Id3v2.tag_rt_v4_partial w o.id3 (fr :: fs) h1 h5 h6 hbody (by omega)
          exact .mk b ape v1 _ y z (.tag fl padding body (fr :: fs) b h2 h3 h4 hsz hb hrt) hy hz hv
  | ape t =>
    simp only [Save.encoded] at hb
    have hlead : Ape.Leading lead (audio ++ (ape ++ v1)) := by
      rcases lead_written hx with ⟨rfl, -⟩ | ⟨h, -⟩
      · apply Ape.leading_nil
        · rw [List.take_append_of_le_length (by omega), ← Id3v2.id3_bytes]
          exact noMarker_take3 ha.noId3v2 ha.junk.1
        · simp only [List.length_append]; omega
      · exact Ape.leading_written h _
    have htr : Ape.Trailing (lead ++ (audio ++ ape)) v1 := by
      cases hz with
      | none => exact .none (by rwa [tagged_append (by simp; omega)])
      | tag t lossy b hb hyr =>
        obtain ⟨h1, h2, -⟩ := Id3v1.parse_encode (strict := false) hb
        exact .tag h1 h2
    have hw : Ape.writeTo {} (lead ++ (audio ++ (ape ++ v1))) t = .ok (lead ++ (audio ++ (b ++ v1))) := by
      cases hy with
      | none => exact Ape.writeTo_untagged {} lead audio v1 b t hlead (by simpa using htr) (by omega) ha.noApe8 ha.noApeEnd hb
      | tag t0 b0 hg hb0 hsize =>
        exact Ape.writeTo_tagged {} rfl lead audio ape v1 b t t0 hlead htr (by omega) ha.noApe8 hg hb0 hsize hb
    refine ⟨_, hw, ?_⟩
    simp only [Tags.after]
    by_cases hi : t.items = []
    · rw [if_pos hi]
      have : b = [] := by
        have := (Ape.createTag_total t).1 hi
        rw [hb] at this
        exact (Except.ok.injEq _ _).mp this
      subst this
      exact .mk lead [] v1 x none z hx .none hz (by rw [List.append_nil]; exact ha.noId3v1)
    · rw [if_neg hi]
      rcases hs with hs | ⟨hg, hs⟩
      · exact absurd hs hi
      · obtain ⟨h1, h2⟩ := hs b hb
        exact .mk lead b v1 x _ z hx (.tag t b hg hb h1) hz h2
  | id3v1 lossy t =>
    simp only [Save.encoded] at hb
    have e : ∀ v, lead ++ (audio ++ (ape ++ v)) = (lead ++ (audio ++ ape)) ++ v := by intro v; simp
    cases hz with
    | none =>
      refine ⟨lead ++ (audio ++ (ape ++ b)), ?_, ?_⟩
      · simp only [Save.run]
        rw [e, e, List.append_nil]
        exact Id3v1.write_untagged (by rwa [tagged_append (by simp; omega)]) hb
      · simp only [Tags.after]
        rw [if_neg (by simp)]
        exact .mk lead ape b x y _ hx hy (.tag t lossy b hb hs) hv
    | tag t0 lossy0 b0 hb0 hyr =>
      obtain ⟨h1, h2, -⟩ := Id3v1.parse_encode (strict := false) hb0
      have hw := Id3v1.write_tagged (audio := lead ++ (audio ++ ape)) h1 h2 hb
      rw [← e, ← e] at hw
      refine ⟨_, hw, ?_⟩
      simp only [Tags.after]
      by_cases hemp : t = Id3v1.Tag.empty
      · rw [if_pos hemp, if_pos ⟨hemp, rfl⟩]
        exact .mk lead ape [] x y none hx hy .none hv
      · rw [if_neg hemp, if_neg (fun h => hemp h.1)]
        exact .mk lead ape b x y _ hx hy (.tag t lossy b hb hs) hv

/-- Any number of saves: afterwards the file is again laid out like this, with the tags last saved. -/
theorem runAll_layout {o : Opts} {audio : Bytes} (ha : Audio o audio) : ∀ (l : List Save) (f g : Bytes) (t : Tags),
    (∀ s ∈ l, s.Ok o audio) → Layout o audio f t → runAll o.junk l f = .ok g → Layout o audio g (l.foldl (Tags.after o) t) := by
  intro l
  induction l with
  | nil =>
    intro f g t _ hf h
    obtain rfl := (Except.ok.injEq _ _).mp h
    exact hf
  | cons s l ih =>
    intro f g t hs hf h
    rw [runAll] at h
    obtain ⟨f1, h1, h⟩ := bind_ok h
    obtain ⟨b, hb⟩ := encoded_of_run h1
    obtain ⟨f2, h2, hl⟩ := run_of_encoded ha (hs s (by simp)) hf hb
    rw [h1] at h2
    obtain rfl := (Except.ok.injEq _ _).mp h2
    exact ih f1 g _ (fun s' hs' => hs s' (by simp [hs'])) hl h

/-- The audio alone. -/
theorem layout_plain {o : Opts} {audio : Bytes} (ha : Audio o audio) : Layout o audio audio ⟨none, none, none⟩ := by
  have := Layout.mk (o := o) (audio := audio) [] [] [] none none none .none .none .none (by rw [List.append_nil]; exact ha.noId3v1)
  simpa using this

/-- No file laid out like this begins with a zero. -/
theorem layout_start {o : Opts} {audio lead : Bytes} {x : Option Id3Tag} (ha : Audio o audio) (hx : LeadOf o.id3 lead x) (suf : Bytes) :
    (lead ++ (audio ++ suf)).dropWhile (· = 0) = lead ++ (audio ++ suf) := by
  have hlong := ha.long
  have : (lead ++ (audio ++ suf)).head? ≠ some 0 := by
    rcases lead_written hx with ⟨rfl, -⟩ | ⟨hw, -⟩
    · have := ha.start
      cases audio with
      | nil => simp at hlong
      | cons a l => simpa using this
    · have h3 := (Id3v2.findAt_written hw []).2.1
      cases lead with
      | nil => exact absurd h3 (by decide)
      | cons a l =>
        rw [Id3v2.id3_bytes] at h3
        simp only [List.take_succ_cons, List.cons.injEq] at h3
        rw [h3.1]
        simp
  cases hl : lead ++ (audio ++ suf) with
  | nil => rfl
  | cons a l =>
    rw [hl] at this
    rw [List.dropWhile_cons_of_neg]
    simpa using this

/-- A file so laid out is read as an MPEG file with exactly these tags and the properties of its audio. -/
theorem readMpeg_layout {o : Opts} (ho : o.readTags = true) {audio f : Bytes} {t : Tags} (ha : Audio o audio) (hf : Layout o audio f t)
    {h : Mpeg.Header} {k : Nat} (hk : Mpeg.findNext audio (audio.length + 1) 0 = .ok (some (h, k))) :
    (o.readProps = false → ∃ d0, ∀ d, d0 ≤ d → readMpeg { o with depth := d } f = .ok ⟨t.id3v2, t.id3v1, t.ape, none⟩) ∧
    (o.readProps = true → f.length < 2 ^ 61 → ∀ P, mpegProps audio (some (h, k)) audio.length = .ok P → P.duration ≠ 0 →
      ∃ P', Same P' P ∧ ∃ d0, ∀ d, d0 ≤ d → readMpeg { o with depth := d } f = .ok ⟨t.id3v2, t.id3v1, t.ape, some P'⟩) := by
  have hlong := ha.long
  obtain ⟨lead, ape, v1, x, y, z, hx, hy, hz, hv⟩ := hf
  obtain ⟨d0, hfront⟩ := front_read (suf := ape ++ v1) ho ha hx hk
  obtain ⟨tl, ht1, ht2, ht3, -, -, ht4⟩ := tail_read (lead := lead) ho ha hy hz hv
  have hend := mpegEnd_read ht3 ht4
  have hpad := layout_start ha hx (ape ++ v1)
  have hne : (lead ++ (audio ++ (ape ++ v1))).length ≠ 0 := by simp only [List.length_append]; omega
  have htail : ∀ d, tail { o with depth := d } (lead ++ (audio ++ (ape ++ v1))) = tail o (lead ++ (audio ++ (ape ++ v1))) := by
    intro d
    rfl
  have main : ∀ d, d0 ≤ d → readMpeg { o with depth := d } (lead ++ (audio ++ (ape ++ v1))) =
      if o.readProps then do
        let p ← mpegProps (lead ++ (audio ++ (ape ++ v1))) (some (h, lead.length + k)) (lead.length + audio.length)
        .ok ⟨x, z, y, some p⟩
      else .ok ⟨x, z, y, none⟩ := by
    intro d hd
    unfold readMpeg
    simp only
    rw [hpad, Nat.sub_self, if_neg (fun h => hne h.symm)]
    obtain ⟨n, hn⟩ : ∃ n, (lead ++ (audio ++ (ape ++ v1))).length + 1 = n + 2 := ⟨(lead ++ (audio ++ (ape ++ v1))).length - 1, by omega⟩
    rw [hn, hfront d hd n, ok_bind]
    simp only
    rw [htail, ht1, ok_bind, hend, ok_bind]
    simp only [ht2]
  constructor
  · intro hp
    refine ⟨d0, fun d hd => ?_⟩
    rw [main d hd, hp]
    rfl
  · intro hp hsz P hP hdur
    obtain ⟨P', hP', hsame⟩ := mpegProps_ext (pre := lead) (suf := ape ++ v1) hP hdur (by omega)
    refine ⟨P', hsame, d0, fun d hd => ?_⟩
    rw [main d hd, hp, if_pos rfl, hP', ok_bind]

/-- An ID3v2 tag in front of a Monkey's Audio or Musepack file is found and left out of the size of the stream. -/
theorem find_lead {o : Opts} (ho : o.readTags = true) {audio lead suf : Bytes} {x : Option Id3Tag} (ha : Audio o audio) (hx : LeadOf o.id3 lead x) :
    ∃ r, Id3v2.find (lead ++ (audio ++ suf)) 0 o.readTags none = .ok (r, lead.length) ∧
      withoutV2 r (lead ++ (audio ++ suf)).length = .ok (audio ++ suf).length ∧
      withoutContent r (lead ++ (audio ++ suf)).length = .ok (audio ++ suf).length ∧
      ∃ d0, ∀ d, d0 ≤ d → contentOf { o with depth := d } r = .ok x := by
  have hlong := ha.long
  cases hx with
  | none =>
    refine ⟨none, ?_, rfl, rfl, 0, fun d _ => rfl⟩
    have h3 : audio.take 3 ≠ ascii "ID3" := noMarker_take3 ha.noId3v2 ha.junk.1
    unfold Id3v2.find Id3v2.findAt Id3v2.parseHeader Id3v2.need
    simp only [List.nil_append, Nat.zero_add]
    rw [if_pos (by simp only [List.length_append]; omega), ok_bind]
    simp only [List.drop_zero]
    unfold Id3v2.decodeHeader
    rw [if_pos (by rw [List.take_take, List.take_append_of_le_length (by omega)]; exact h3)]
    rfl
  | tag fl padding body fs b hcrc hres hun hsize hb hr =>
    obtain ⟨d0, hr⟩ := hr
    obtain ⟨pad, p1, p2, p3⟩ := lead_parse hcrc hres hun hsize hb (audio ++ suf)
    have hfull : (Id3v2.Header.mk .v4 fl (body.length + pad) 0).fullTagSize = lead.length := by
      unfold Id3v2.Header.fullTagSize
      simp only
      rw [p3]
      omega
    have hsub : checkedSub (lead ++ (audio ++ suf)).length lead.length = .ok (audio ++ suf).length := by
      unfold checkedSub
      rw [if_neg (by simp only [List.length_append]; omega)]
      congr 1
      simp only [List.length_append]; omega
    refine ⟨some (⟨.v4, fl, body.length + pad, 0⟩, some (body ++ List.replicate pad 0)), ?_, ?_, ?_, d0, fun d hd => ?_⟩
    · unfold Id3v2.find Id3v2.findAt
      rw [p1, ho]
      simp only
      unfold Id3v2.need
      rw [if_pos trivial, if_pos (by simp only [List.length_append]; omega), p2]
      simp only
      congr 2
      rw [p3]; split <;> omega
    · unfold withoutV2; simp only; rw [hfull, hsub]
    · unfold withoutContent; simp only; rw [hfull, hsub]
    · unfold contentOf parseId3
      simp only
      rw [Nat.sub_zero, List.take_of_length_le (by simp), hun, hr d hd pad, ok_bind]
      rfl

/-- The sizes of the two tags at the end are taken off. -/
theorem stream_read {t : Tail} {lead audio ape v1 : Bytes} (h1 : t.hasV1 = !v1.isEmpty) (h2 : v1 = [] ∨ v1.length = 128) :
    withoutV1 t (audio ++ (ape ++ v1)).length = .ok (audio.length + ape.length) := by
  unfold withoutV1 checkedSub
  rw [h1]
  rcases h2 with rfl | h2
  · simp
  · have : v1.isEmpty = false := by cases v1 <;> simp at h2 ⊢
    rw [this]
    simp only [Bool.not_false, if_true, List.length_append, h2]
    rw [if_neg (by omega)]
    exact congrArg Except.ok (by omega)

/-- A file so laid out, without ID3v2 tag, is read as a WavPack file with exactly these tags; what is left for the
properties is the size of the audio. -/
theorem readWavPack_layout {o : Opts} (ho : o.readTags = true) {audio f : Bytes} {t : Tags} (ha : Audio o audio) (hf : Layout o audio f t)
    (h2 : t.id3v2 = none) : readWavPack o f = .ok ⟨none, t.id3v1, t.ape, audio.length⟩ := by
  obtain ⟨lead, ape, v1, x, y, z, hx, hy, hz, hv⟩ := hf
  obtain ⟨tl, ht1, ht2, ht3, ht5, ht6, ht4⟩ := tail_read (lead := lead) ho ha hy hz hv
  simp only at h2
  rcases lead_written hx with ⟨rfl, -⟩ | ⟨-, hn⟩
  · unfold readWavPack
    rw [ht1, ok_bind, List.nil_append, stream_read (lead := []) ht5 ht6, ok_bind]
    rcases ht4 with ⟨h2, rfl, rfl, -⟩ | ⟨n, h2, -⟩
    · rw [h2, ht2]; rfl
    · rw [h2]
      simp only
      unfold subU64
      rw [if_neg (by omega), ok_bind, ht2, ht3, Nat.add_sub_cancel]
  · exact absurd h2 hn

/-- A file so laid out is read as a Monkey's Audio file with exactly these tags. -/
theorem readMac_layout {o : Opts} (ho : o.readTags = true) {audio f : Bytes} {t : Tags} (ha : Audio o audio) (hf : Layout o audio f t)
    (hm : audio.take 4 = ascii "MAC ") :
    ∃ d0, ∀ d, d0 ≤ d → readMac { o with depth := d } f = .ok ⟨t.id3v2, t.id3v1, t.ape, audio.length⟩ := by
  have hlong := ha.long
  obtain ⟨lead, ape, v1, x, y, z, hx, hy, hz, hv⟩ := hf
  obtain ⟨tl, ht1, ht2, ht3, ht5, ht6, ht4⟩ := tail_read (lead := lead) ho ha hy hz hv
  obtain ⟨r, r1, r2, -, d0, r3⟩ := find_lead (suf := ape ++ v1) ho ha hx
  refine ⟨d0, fun d hd => ?_⟩
  have htail : tail { o with depth := d } (lead ++ (audio ++ (ape ++ v1))) = tail o (lead ++ (audio ++ (ape ++ v1))) := rfl
  have hr4 : readAt (lead ++ (audio ++ (ape ++ v1))) lead.length 4 = .ok (ascii "MAC ") := by
    have : readAt audio 0 4 = .ok (ascii "MAC ") := by unfold readAt; rw [if_pos (by omega), List.drop_zero, hm]
    exact readAt_ext this
  unfold readMac
  simp only
  rw [r1, ok_bind]
  simp only
  rw [r2, ok_bind, r3 d hd, ok_bind, hr4, ok_bind, macLoop, if_pos rfl, ok_bind]
  simp only
  rw [htail, ht1, ok_bind, stream_read (lead := lead) ht5 ht6, ok_bind]
  rcases ht4 with ⟨h2, rfl, rfl, -⟩ | ⟨n, h2, -⟩
  · rw [h2, ht2]; rfl
  · rw [h2]
    simp only
    unfold subU64
    rw [if_neg (by omega), ok_bind, ht2, ht3, Nat.add_sub_cancel]

/-- A file so laid out is read as a Musepack file with exactly these tags. -/
theorem readMpc_layout {o : Opts} (ho : o.readTags = true) {audio f : Bytes} {t : Tags} (ha : Audio o audio) (hf : Layout o audio f t) :
    ∃ d0, ∀ d, d0 ≤ d → readMpc { o with depth := d } f = .ok ⟨t.id3v2, t.id3v1, t.ape, audio.length⟩ := by
  have hlong := ha.long
  obtain ⟨lead, ape, v1, x, y, z, hx, hy, hz, hv⟩ := hf
  obtain ⟨tl, ht1, ht2, ht3, ht5, ht6, ht4⟩ := tail_read (lead := lead) ho ha hy hz hv
  obtain ⟨r, r1, -, r2, d0, r3⟩ := find_lead (suf := ape ++ v1) ho ha hx
  refine ⟨d0, fun d hd => ?_⟩
  have htail : tail { o with depth := d } (lead ++ (audio ++ (ape ++ v1))) = tail o (lead ++ (audio ++ (ape ++ v1))) := rfl
  have hr4 : readAt (lead ++ (audio ++ (ape ++ v1))) lead.length 4 = .ok (audio.take 4) := by
    have : readAt audio 0 4 = .ok (audio.take 4) := by unfold readAt; rw [if_pos (by omega), List.drop_zero]
    exact readAt_ext this
  unfold readMpc
  simp only
  rw [r1, ok_bind]
  simp only
  rw [r2, ok_bind, r3 d hd, ok_bind, htail, ht1, ok_bind, stream_read (lead := lead) ht5 ht6, ok_bind]
  rcases ht4 with ⟨h2, rfl, rfl, -⟩ | ⟨n, h2, hp⟩
  · rw [h2]
    simp only
    rw [ok_bind, hr4, ok_bind, ht2, ht3]
    rfl
  · rw [h2]
    simp only
    unfold checkedSub
    rw [if_neg (by omega), if_neg (by omega), ok_bind, hr4, ok_bind, ht2, ht3, Nat.add_sub_cancel]

/-! ## The claims -/

/-- C60: **tags of different kinds do not disturb each other.**  To an MPEG file without tags any tags are saved, of any kind
and in any order.  The audio is then still in the file, byte by byte, and reading the file gives of each kind of tag exactly the one
that was saved last, whatever was saved of the other kinds before or after it. -/
theorem mpeg_saves_partial {o : Opts} (ho : o.readTags = true) (hp : o.readProps = false) {audio g : Bytes} (ha : Audio o audio)
    {h : Mpeg.Header} {k : Nat} (hk : Mpeg.findNext audio (audio.length + 1) 0 = .ok (some (h, k)))
    (l : List Save) (hl : ∀ s ∈ l, s.Ok o audio) (hg : runAll o.junk l audio = .ok g) :
    (∃ lead suf, g = lead ++ (audio ++ suf)) ∧
    ∃ d0, ∀ d, d0 ≤ d → ∃ m, readMpeg { o with depth := d } g = .ok m ∧
      (⟨m.id3v2, m.id3v1, m.ape⟩ : Tags) = l.foldl (Tags.after o) ⟨none, none, none⟩ := by
  have hlay := runAll_layout ha l audio g _ hl (layout_plain ha) hg
  obtain ⟨d0, h0⟩ := (readMpeg_layout ho ha hlay hk).1 hp
  refine ⟨?_, d0, fun d hd => ⟨_, h0 d hd, rfl⟩⟩
  generalize l.foldl (Tags.after o) ⟨none, none, none⟩ = t at hlay
  obtain ⟨lead, ape, v1, -⟩ := hlay
  exact ⟨lead, ape ++ v1, rfl⟩

/-- C60: **saving tags does not change what is reported about the audio**: duration, bit rate, sample rate and number of channels of the
file are those of the audio alone, however many tags were saved. -/
theorem mpeg_saves_properties_partial {o : Opts} (ho : o.readTags = true) (hp : o.readProps = true) {audio g : Bytes} (ha : Audio o audio)
    {h : Mpeg.Header} {k : Nat} (hk : Mpeg.findNext audio (audio.length + 1) 0 = .ok (some (h, k)))
    {P : Mpeg.Props} (hP : mpegProps audio (some (h, k)) audio.length = .ok P) (hd : P.duration ≠ 0)
    (l : List Save) (hl : ∀ s ∈ l, s.Ok o audio) (hg : runAll o.junk l audio = .ok g) (hsz : g.length < 2 ^ 61) :
    ∃ P', (P'.duration = P.duration ∧ P'.audio = P.audio ∧ P'.sampleRate = P.sampleRate ∧ P'.channels = P.channels) ∧
    ∃ d0, ∀ d, d0 ≤ d → ∃ m, readMpeg { o with depth := d } g = .ok m ∧ m.props = some P' ∧
      (⟨m.id3v2, m.id3v1, m.ape⟩ : Tags) = l.foldl (Tags.after o) ⟨none, none, none⟩ := by
  have hlay := runAll_layout ha l audio g _ hl (layout_plain ha) hg
  obtain ⟨P', hs, d0, h0⟩ := (readMpeg_layout ho ha hlay hk).2 hp hsz P hP hd
  exact ⟨P', hs, d0, fun d hd => ⟨_, h0 d hd, rfl, rfl⟩⟩

/-- C60: the same of Monkey's Audio files; the properties are computed from the size of the audio alone. -/
theorem mac_saves_partial {o : Opts} (ho : o.readTags = true) {audio g : Bytes} (ha : Audio o audio) (hm : audio.take 4 = ascii "MAC ")
    (l : List Save) (hl : ∀ s ∈ l, s.Ok o audio) (hg : runAll o.junk l audio = .ok g) :
    ∃ d0, ∀ d, d0 ≤ d → ∃ m, readMac { o with depth := d } g = .ok m ∧ m.stream = audio.length ∧
      (⟨m.id3v2, m.id3v1, m.ape⟩ : Tags) = l.foldl (Tags.after o) ⟨none, none, none⟩ := by
  obtain ⟨d0, h0⟩ := readMac_layout ho ha (runAll_layout ha l audio g _ hl (layout_plain ha) hg) hm
  exact ⟨d0, fun d hd => ⟨_, h0 d hd, rfl, rfl⟩⟩

/-- C60: the same of Musepack files. -/
theorem mpc_saves_partial {o : Opts} (ho : o.readTags = true) {audio g : Bytes} (ha : Audio o audio)
    (l : List Save) (hl : ∀ s ∈ l, s.Ok o audio) (hg : runAll o.junk l audio = .ok g) :
    ∃ d0, ∀ d, d0 ≤ d → ∃ m, readMpc { o with depth := d } g = .ok m ∧ m.stream = audio.length ∧
      (⟨m.id3v2, m.id3v1, m.ape⟩ : Tags) = l.foldl (Tags.after o) ⟨none, none, none⟩ := by
  obtain ⟨d0, h0⟩ := readMpc_layout ho ha (runAll_layout ha l audio g _ hl (layout_plain ha) hg)
  exact ⟨d0, fun d hd => ⟨_, h0 d hd, rfl, rfl⟩⟩

/-- A file so laid out is read as an AAC file with exactly these tags; APE tags are not looked for. -/
theorem readAac_layout {o : Opts} (ho : o.readTags = true) {audio f : Bytes} {t : Tags} (ha : Audio o audio) (hf : Layout o audio f t)
    {h : Aac.Header} {k : Nat} (hk : Aac.findNext audio (audio.length + 1) 0 = .ok (some (h, k))) :
    ∃ lead ape v1, f = lead ++ (audio ++ (ape ++ v1)) ∧ (t.ape = none → ape = []) ∧ ∃ d0, ∀ d, d0 ≤ d → readAac { o with depth := d } f =
      if o.readProps then do
        let p ← Aac.readProperties f (o.id3.mode = .strict) h (lead.length + k)
          (audio.length + ape.length + (if t.id3v2.isSome then 10 else 0)) (f.length + 1)
        .ok ⟨t.id3v2, t.id3v1, some p⟩
      else .ok ⟨t.id3v2, t.id3v1, none⟩ := by
  have hlong := ha.long
  obtain ⟨lead, ape, v1, x, y, z, hx, hy, hz, hv⟩ := hf
  refine ⟨lead, ape, v1, rfl, fun h => by cases hy with | none => rfl | tag => simp at h, ?_⟩
  obtain ⟨d0, hfront⟩ := aacFront_read (suf := ape ++ v1) ho ha hx hk
  have hfind := find_read (lead := lead) ha hz hv
  have hpad := layout_start ha hx (ape ++ v1)
  have hne : (lead ++ (audio ++ (ape ++ v1))).length ≠ 0 := by simp only [List.length_append]; omega
  refine ⟨d0, fun d hd => ?_⟩
  unfold readAac
  simp only
  rw [hpad, Nat.sub_self, if_neg (fun h => hne h.symm)]
  obtain ⟨n, hn⟩ : ∃ n, (lead ++ (audio ++ (ape ++ v1))).length + 1 = n + 2 := ⟨(lead ++ (audio ++ (ape ++ v1))).length - 1, by omega⟩
  have := hfront d hd n
  rw [← hn] at this
  rw [this, ok_bind, ho, hfind.1, ok_bind]
  simp only
  have hst : (if (!v1.isEmpty) = true then checkedSub ((audio ++ (ape ++ v1)).length + if x.isSome = true then 10 else 0) 128
      else .ok ((audio ++ (ape ++ v1)).length + if x.isSome = true then 10 else 0))
      = .ok (audio.length + ape.length + (if x.isSome = true then 10 else 0)) := by
    rcases hfind.2 with rfl | hl
    · simp [Nat.add_assoc]
    · have : v1.isEmpty = false := by
        cases v1 with
        | nil => simp at hl
        | cons a l => rfl
      rw [this, Bool.not_false, if_pos rfl, checkedSub, if_neg (by simp only [List.length_append]; omega)]
      exact congrArg Except.ok (by simp only [List.length_append]; omega)
  rw [hst, ok_bind]

/-- C60: the same of AAC files, in which APE tags are not looked for.  The properties are not part of the claim: see
`id3v2_changes_aac_duration`. -/
theorem aac_saves_partial {o : Opts} (ho : o.readTags = true) (hp : o.readProps = false) {audio g : Bytes} (ha : Audio o audio)
    {h : Aac.Header} {k : Nat} (hk : Aac.findNext audio (audio.length + 1) 0 = .ok (some (h, k)))
    (l : List Save) (hl : ∀ s ∈ l, s.Ok o audio) (hg : runAll o.junk l audio = .ok g) :
    ∃ d0, ∀ d, d0 ≤ d → ∃ m, readAac { o with depth := d } g = .ok m ∧
      m.id3v2 = (l.foldl (Tags.after o) ⟨none, none, none⟩).id3v2 ∧ m.id3v1 = (l.foldl (Tags.after o) ⟨none, none, none⟩).id3v1 := by
  obtain ⟨lead, ape, v1, -, -, d0, h0⟩ := readAac_layout ho ha (runAll_layout ha l audio g _ hl (layout_plain ha) hg) hk
  refine ⟨d0, fun d hd => ?_⟩
  have h := h0 d hd
  rw [if_neg (by rw [hp]; decide)] at h
  exact ⟨_, h, rfl, rfl⟩

/-- ID3v2 tags are no business of the saves of other tags. -/
theorem kept_id3v2 (o : Opts) (l : List Save) : ∀ t : Tags, (∀ fl w p fs, .id3v2 fl w p fs ∉ l) → (l.foldl (Tags.after o) t).id3v2 = t.id3v2 := by
  induction l with
  | nil => intro t _; rfl
  | cons s l ih =>
    intro t h
    rw [List.foldl_cons, ih _ fun fl w p fs hm => h fl w p fs (by simp [hm])]
    cases s with
    | id3v2 fl w p fs => exact absurd (by simp) (h fl w p fs)
    | ape t => rfl
    | id3v1 b t => rfl

/-- APE tags are no business of the saves of other tags. -/
theorem kept_ape (o : Opts) (l : List Save) : ∀ t : Tags, (∀ a, .ape a ∉ l) → (l.foldl (Tags.after o) t).ape = t.ape := by
  induction l with
  | nil => intro t _; rfl
  | cons s l ih =>
    intro t h
    rw [List.foldl_cons, ih _ fun a hm => h a (by simp [hm])]
    cases s with
    | id3v2 fl w p fs => rfl
    | ape t => exact absurd (by simp) (h t)
    | id3v1 b t => rfl

/-- ID3v1 tags are no business of the saves of other tags. -/
theorem kept_id3v1 (o : Opts) (l : List Save) : ∀ t : Tags, (∀ b a, .id3v1 b a ∉ l) → (l.foldl (Tags.after o) t).id3v1 = t.id3v1 := by
  induction l with
  | nil => intro t _; rfl
  | cons s l ih =>
    intro t h
    rw [List.foldl_cons, ih _ fun b a hm => h b a (by simp [hm])]
    cases s with
    | id3v2 fl w p fs => rfl
    | ape t => rfl
    | id3v1 b t => exact absurd (by simp) (h b t)

/-- C60: the same of WavPack files, to which APE and ID3v1 tags can be saved. -/
theorem wavpack_saves_partial {o : Opts} (ho : o.readTags = true) {audio g : Bytes} (ha : Audio o audio)
    (l : List Save) (hl : ∀ s ∈ l, s.Ok o audio) (h2 : ∀ fl w p fs, .id3v2 fl w p fs ∉ l) (hg : runAll o.junk l audio = .ok g) :
    ∃ m, readWavPack o g = .ok m ∧ m.stream = audio.length ∧
      (⟨m.id3v2, m.id3v1, m.ape⟩ : Tags) = l.foldl (Tags.after o) ⟨none, none, none⟩ := by
  have hlay := runAll_layout ha l audio g _ hl (layout_plain ha) hg
  have h := kept_id3v2 o l ⟨none, none, none⟩ h2
  generalize l.foldl (Tags.after o) ⟨none, none, none⟩ = t at h hlay ⊢
  obtain ⟨a, b, c⟩ := t
  simp only at h
  subst h
  exact ⟨_, readWavPack_layout ho ha hlay rfl, rfl, rfl⟩

/-- C60: **saving succeeds exactly if the tag can be encoded**, whatever other tags the file has. -/
theorem save_ok_iff {o : Opts} {audio f : Bytes} {t : Tags} {s : Save} (ha : Audio o audio) (hs : s.Ok o audio) (hf : Layout o audio f t) :
    (∃ g, s.run o.junk f = .ok g) ↔ ∃ b, s.encoded = .ok b :=
  ⟨fun ⟨_, hg⟩ => encoded_of_run hg, fun ⟨_, hb⟩ => let ⟨g, hg, _⟩ := run_of_encoded ha hs hf hb; ⟨g, hg⟩⟩

/-- C60: any saves of tags that can be encoded succeed. -/
theorem saves_succeed {o : Opts} {audio : Bytes} (ha : Audio o audio) (l : List Save) (hl : ∀ s ∈ l, s.Ok o audio)
    (he : ∀ s ∈ l, ∃ b, s.encoded = .ok b) : ∃ g, runAll o.junk l audio = .ok g := by
  have key : ∀ (l : List Save) (f : Bytes) (t : Tags), (∀ s ∈ l, s.Ok o audio) → (∀ s ∈ l, ∃ b, s.encoded = .ok b) →
      Layout o audio f t → ∃ g, runAll o.junk l f = .ok g := by
    intro l
    induction l with
    | nil => intro f t _ _ _; exact ⟨f, rfl⟩
    | cons s l ih =>
      intro f t h1 h2 hf
      obtain ⟨b, hb⟩ := h2 s (by simp)
      obtain ⟨f1, hf1, hlay⟩ := run_of_encoded ha (h1 s (by simp)) hf hb
      obtain ⟨g, hg⟩ := ih f1 _ (fun s hs => h1 s (by simp [hs])) (fun s hs => h2 s (by simp [hs])) hlay
      exact ⟨g, by rw [runAll, hf1, ok_bind, hg]⟩
  exact key l audio _ hl he (layout_plain ha)

/-! ## Examples -/

theorem noMarker_of_find {d : Bytes} (h : Id3v2.findInJunk d = none) : Id3v2.NoMarker d := by
  intro a b hab
  subst hab
  induction a with
  | nil => simp [Id3v2.findInJunk, Id3v2.id3_bytes] at h
  | cons x a ih =>
    rw [List.cons_append, Id3v2.findInJunk] at h
    split at h
    · simp at h
    · simp only [Option.map_eq_none_iff] at h
      exact ih h

/-- A frame of MPEG 2.5 layer III, 8 kbit/s, 8 kHz, one channel: 72 bytes, 72 milliseconds. -/
def frame (b : UInt8) : Bytes := [0xFF, 0xE3, 0x18, 0xC0] ++ List.replicate 68 b

/-- Three frames. -/
def threeFrames : Bytes := frame 1 ++ (frame 2 ++ frame 3)

/-- The options of the examples. -/
def exOpts (tags props : Bool) : Opts := ⟨tags, props, 100, Id3v2.opts .relaxed, 5⟩

theorem threeFrames_audio (a b : Bool) : Audio (exOpts a b) threeFrames where
  long := by decide +kernel
  junk := by show 3 ≤ 100 ∧ 100 ≤ threeFrames.length; decide +kernel
  start := by decide +kernel
  noId3v2 := noMarker_of_find (by show Id3v2.findInJunk (threeFrames.take 100) = none; decide +kernel)
  noApe := by decide +kernel
  noApe8 := by decide +kernel
  noApeEnd := by decide +kernel
  noId3v1 := by unfold Id3v1.Tagged; decide +kernel

/-- The header of the frames. -/
def theHeader : Mpeg.Header := ⟨8000, 72, 13, 576, 8, .v25, .layer3, .singleChannel, none, false, false, none⟩

theorem threeFrames_first : Mpeg.findNext threeFrames (threeFrames.length + 1) 0 = .ok (some (theHeader, 0)) := by decide +kernel

theorem threeFrames_props : mpegProps threeFrames (some (theHeader, 0)) threeFrames.length = .ok ⟨216, 8, 8, 8000, 1⟩ := by decide +kernel

/-- Some saves. -/
def someSaves : List Save :=
  [.id3v1 false { Id3v1.Tag.empty with title := some (str "a"), year := some 1999 },
   .id3v2 ⟨false, false, false, false, none⟩ ⟨false, false, true⟩ (some 10) Id3v2.sample,
   .ape Ape.exampleTag, .id3v1 false Id3v1.Tag.empty, .ape ⟨false, [⟨false, str "Album", .text (str "b")⟩]⟩]

theorem someSaves_ok (a b : Bool) : ∀ s ∈ someSaves, s.Ok (exOpts a b) threeFrames := by
  obtain ⟨h1, h2⟩ := Id3v2.sample_ok ⟨false, false, true⟩ .relaxed (.inr rfl)
  have ha : ∀ t b, Ape.createTag t = .ok b →
      (((Ape.createTag t).toOption.getD []).length < 2 ^ 32 ∧ ¬ Id3v1.Tagged (threeFrames ++ (Ape.createTag t).toOption.getD [])) →
      b.length < 2 ^ 32 ∧ ¬ Id3v1.Tagged (threeFrames ++ b) := by
    intro t b hb h
    rw [hb] at h
    exact h
  intro s hs
  simp only [someSaves, List.mem_cons, List.not_mem_nil, or_false] at hs
  rcases hs with rfl | rfl | rfl | rfl | rfl
  · exact fun _ => by simp
  · refine .inr ⟨rfl, rfl, rfl, rfl, h1, h2, fun b hb => ?_⟩
    have : ((Id3v2.createItems ⟨false, false, true⟩ Id3v2.sample).toOption.map List.length).getD 0 < 1000 := by decide +kernel
    rw [hb] at this
    have : b.length < 1000 := this
    simp; omega
  · exact .inr ⟨Ape.exampleTag_good, fun b hb => ha _ b hb (by unfold Id3v1.Tagged; decide +kernel)⟩
  · intro h; cases h
  · refine .inr ⟨⟨by decide, ?_, ?_⟩, fun b hb => ha _ b hb (by unfold Id3v1.Tagged; decide +kernel)⟩
    · intro i hi
      simp only [List.mem_cons, List.not_mem_nil, or_false] at hi
      subst hi
      exact ⟨by decide +kernel, by decide +kernel⟩
    · unfold Ape.Distinct; simp

/-- The example: afterwards the file has the ID3v2 tag, the second APE tag and no ID3v1 tag, and lasts 216 milliseconds. -/
example : ∃ g, runAll 100 someSaves threeFrames = .ok g ∧ ∃ P', P'.duration = 216 ∧ ∃ d0, ∀ d, d0 ≤ d → ∃ m,
    readMpeg { exOpts true true with depth := d } g = .ok m ∧ m.props = some P' ∧ m.id3v1 = none ∧
      m.id3v2 = some ⟨.v4, ⟨false, false, false, false, none⟩, Id3v2.sample⟩ ∧
      m.ape = some ⟨false, [⟨false, str "Album", .text (str "b")⟩]⟩ := by
  have hs : (runAll 100 someSaves threeFrames).toOption.isSome = true := by decide +kernel
  have hl : ((runAll 100 someSaves threeFrames).toOption.getD []).length < 2 ^ 61 := by decide +kernel
  rcases hg : runAll 100 someSaves threeFrames with e | g
  · rw [hg] at hs; simp [Except.toOption] at hs
  · rw [hg] at hl
    obtain ⟨P', hP', d0, h0⟩ := mpeg_saves_properties_partial (o := exOpts true true) rfl rfl (threeFrames_audio _ _) threeFrames_first threeFrames_props
      (by decide) someSaves (someSaves_ok _ _) hg hl
    refine ⟨g, rfl, P', hP'.1, d0, fun d hd => ?_⟩
    obtain ⟨m, h1, h2, h3⟩ := h0 d hd
    simp only [someSaves, List.foldl_cons, List.foldl_nil, Tags.after, Tags.mk.injEq] at h3
    refine ⟨m, h1, h2, ?_, ?_, ?_⟩
    · rw [h3.2.1]; decide +kernel
    · rw [h3.1]; rfl
    · rw [h3.2.2]; decide +kernel

/-! ## Disagreements -/

/-- An APE tag with a text of the given length. -/
def apeOf (v : Str) : Bytes := ((Ape.createTag ⟨false, [⟨false, str "Album", .text v⟩]⟩).toOption).getD []

/-- Disagreement: a Lyrics3v2 tag, which the library means to skip, is not recognised (eight bytes are compared with the nine of
`LYRICS200`), and hides the APE tag in front of it. -/
theorem lyrics_hide_ape : (tail (exOpts true false) (threeFrames ++ apeOf (str "x"))).map (·.ape)
      = .ok (some ⟨false, [⟨false, str "Album", .text (str "x")⟩]⟩) ∧
    (tail (exOpts true false) (threeFrames ++ (apeOf (str "x") ++ ascii "LYRICSBEGININD0000200000021LYRICS200"))).map (·.ape) = .ok none := by
  decide +kernel

/-- Disagreement: the text of an APE tag may look like an ID3v1 tag: the APE tag that was just saved is then not found. -/
theorem ape_taken_for_id3v1 : Id3v1.Tagged (threeFrames ++ apeOf (str "TAG" ++ List.replicate 93 'x')) ∧
    (tail (exOpts true false) (threeFrames ++ apeOf (str "TAG" ++ List.replicate 93 'x'))).map (fun t => (t.ape, t.hasV1)) = .ok (none, true) := by
  unfold Id3v1.Tagged
  decide +kernel

/-- Disagreement: if tags are not to be read, the end of the audio is computed wrongly from an APE tag: the duration of the file
changes, or reading fails. -/
theorem unread_tags_change_duration :
    (readMpeg (exOpts true true) (threeFrames ++ apeOf (List.replicate 50 'x'))).map (fun m => m.props.map (·.duration)) = .ok (some 216) ∧
    (readMpeg (exOpts false true) (threeFrames ++ apeOf (List.replicate 50 'x'))).map (fun m => m.props.map (·.duration)) = .ok (some 144) ∧
    (readMpeg (exOpts false true) (threeFrames ++ apeOf (List.replicate 200 'x'))).map (fun m => m.props.map (·.duration)) = .error .sizeMismatch := by
  decide +kernel

/-- A frame of AAC of 100 bytes, 16 kHz, one channel. -/
def aacFrame (b : UInt8) : Bytes := [0xFF, 0xF1, 0x60, 0x40, 12, 0x9F, 0xFC] ++ List.replicate 93 b

/-- Three frames. -/
def threeAac : Bytes := aacFrame 1 ++ (aacFrame 2 ++ aacFrame 3)

theorem threeAac_audio (a b : Bool) : Audio (exOpts a b) threeAac where
  long := by decide +kernel
  junk := by show 3 ≤ 100 ∧ 100 ≤ threeAac.length; decide +kernel
  start := by decide +kernel
  noId3v2 := noMarker_of_find (by show Id3v2.findInJunk (threeAac.take 100) = none; decide +kernel)
  noApe := by decide +kernel
  noApe8 := by decide +kernel
  noApeEnd := by decide +kernel
  noId3v1 := by unfold Id3v1.Tagged; decide +kernel

/-- These frames meet the conditions of `aac_saves_partial`. -/
example : ∃ h k, Aac.findNext threeAac (threeAac.length + 1) 0 = .ok (some (h, k)) ∧ h.len = 100 := by
  have : ((Aac.findNext threeAac (threeAac.length + 1) 0).toOption.bind id).map (·.1.len) = some 100 := by decide +kernel
  rcases hf : Aac.findNext threeAac (threeAac.length + 1) 0 with e | _ | ⟨h, k⟩
  · rw [hf] at this; simp [Except.toOption] at this
  · rw [hf] at this; simp [Except.toOption] at this
  · rw [hf] at this
    exact ⟨h, k, rfl, by simpa [Except.toOption] using this⟩

/-- The duration of an AAC file after saving an ID3v2 tag to it. -/
def aacDuration (readTags : Bool) : Except Err (Option Nat) := do
  let g ← (Save.id3v2 ⟨false, false, false, false, none⟩ ⟨false, false, true⟩ (some 10) Id3v2.sample).run 100 threeAac
  let m ← readAac (exOpts readTags true) g
  .ok (m.props.map (·.duration))

/-- Disagreement: **saving an ID3v2 tag changes the duration of an AAC file** (the ten bytes of the header of the tag are taken for
audio); if tags are not to be read, the tagged file cannot be read at all, as frames are searched for in the tag. -/
theorem id3v2_changes_aac_duration : (readAac (exOpts true true) threeAac).map (fun m => m.props.map (·.duration)) = .ok (some 200) ∧
    aacDuration true = .ok (some 206) ∧ aacDuration false = .error .parse := by
  decide +kernel

/-- Disagreement: a WavPack file that consists of the footer of an APE tag and an ID3v1 tag makes the reader panic (the size of
the tag is taken off the size of the file without a check). -/
theorem wavpack_read_panics : (readWavPack (exOpts true true) (Ape.headerBytes 32 0 0 ++ Ape.someV1)).map (·.stream) = .error .panic := by
  decide +kernel

/-- Disagreement: so does such a Monkey's Audio file. -/
theorem mac_read_panics : (readMac (exOpts true true) (ascii "MAC " ++ (List.replicate 20 1 ++ (Ape.headerBytes 32 0 0 ++ Ape.someV1)))).map (·.stream)
    = .error .panic := by
  decide +kernel

/-- Disagreement: **a Monkey's Audio file with an APE tag at its start can never be read**, although the reader has code for it: the
bytes behind the tag are never looked at. -/
theorem mac_leading_ape_fails (o : Opts) (f : Bytes) (x : Option Ape.Tag × Nat) : ∀ (n pos stream : Nat) (ape : Option Ape.Tag),
    macLoop o f (ascii "APET") n pos stream ape ≠ .ok x := by
  intro n
  induction n with
  | zero => intro pos stream ape; rw [macLoop]; simp
  | succ n ih =>
    intro pos stream ape h
    rw [macLoop, if_neg (by decide), if_pos rfl] at h
    obtain ⟨r, -, h⟩ := bind_ok h
    split at h
    · simp at h
    · obtain ⟨⟨hd, next⟩, -, h⟩ := bind_ok h
      obtain ⟨st, -, h⟩ := bind_ok h
      split at h
      · obtain ⟨⟨t, stop⟩, -, h⟩ := bind_ok h
        exact ih _ _ _ h
      · exact ih _ _ _ h

end Lofty.FileTags
