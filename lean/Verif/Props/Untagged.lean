import Verif.Lemmas.Untagged
import Verif.Lemmas.WholeMp4
/-!
# C76: `read_tags(false)` leaves out the tags and nothing else

`wholeAs o ⟨tags, props⟩ f ty` reads a file of type `ty` with the given two options: it returns the generic tags and the generic properties.
-/
namespace Lofty.Opened
open Item Lofty.Save Lofty.FileTags Lofty.Iff Lofty.IffFiles

/-! ## AIFF -/

theorem readString_skip {c c' : Chunks} {n : Nat} {s : Str} (h : readString c n = .ok (s, c')) : c'.skip = c.skip := by
  unfold readString at h
  obtain ⟨⟨b, c1⟩, h1, h⟩ := bind_ok h
  obtain ⟨t, -, h⟩ := bind_ok h
  cases h
  exact readExact_skip h1

theorem parseComments_skip : ∀ (n : Nat) {c c' : Chunks} {l l' : List Comment}, parseComments n c l = .ok (l', c') → c'.skip = c.skip := by
  intro n
  induction n with
  | zero => intro c c' l l' h; cases h; rfl
  | succ n ih =>
    intro c c' l l' h
    rw [parseComments] at h
    obtain ⟨⟨_, c1⟩, h1, h⟩ := bind_ok h
    obtain ⟨⟨_, c2⟩, h2, h⟩ := bind_ok h
    obtain ⟨⟨_, c3⟩, h3, h⟩ := bind_ok h
    obtain ⟨⟨_, c4⟩, h4, h⟩ := bind_ok h
    rw [ih h, readString_skip h4, readExact_skip h3, readExact_skip h2, readExact_skip h1]

theorem aiffText_skip {strict : Bool} {id3 : Bytes → Except Err Unit} {h : Hdr} {c c' : Chunks} {a a' : Iff.AiffAcc}
    (hf : Iff.aiffChunk strict id3 h c a = .ok (c', a')) : c'.skip = c.skip := by
  unfold Iff.aiffChunk at hf
  split at hf
  · obtain ⟨⟨_, c1⟩, h1, hf⟩ := bind_ok hf
    simp only at hf
    split at hf
    · split at hf
      · cases hf
      · cases hf; exact readExact_skip h1
    · obtain ⟨_, -, hf⟩ := bind_ok hf
      cases hf; exact readExact_skip h1
  split at hf
  · obtain ⟨⟨_, c1⟩, h1, hf⟩ := bind_ok hf
    cases hf; exact readString_skip h1
  split at hf
  · split at hf
    · cases hf; rfl
    · obtain ⟨⟨_, c1⟩, h1, hf⟩ := bind_ok hf
      obtain ⟨⟨_, c2⟩, h2, hf⟩ := bind_ok hf
      cases hf
      rw [parseComments_skip _ h2, readExact_skip h1]
  split at hf
  · obtain ⟨⟨_, c1⟩, h1, hf⟩ := bind_ok hf
    cases hf; exact readString_skip h1
  split at hf
  · obtain ⟨⟨_, c1⟩, h1, hf⟩ := bind_ok hf
    cases hf; exact readString_skip h1
  split at hf
  · obtain ⟨⟨_, c1⟩, h1, hf⟩ := bind_ok hf
    cases hf; exact readString_skip h1
  cases hf; rfl

theorem aiffChunk_noTags (o : Opts) : Alike (fun (a b : IffFiles.AiffAcc) => a.audio = b.audio ∧ b.text = ⟨none, none, none, [], []⟩ ∧ b.id3v2 = none)
    (IffFiles.aiffChunk { o with readTags := true }) (IffFiles.aiffChunk { o with readTags := false }) := by
  intro h c a b c1 a1 hR hf
  unfold IffFiles.aiffChunk at hf ⊢
  simp only [Bool.false_eq_true, and_false, if_false, and_true, if_true] at hf ⊢
  split at hf
  · rename_i hc
    obtain ⟨⟨x, c2⟩, h1, hf⟩ := bind_ok hf
    obtain ⟨t, -, hf⟩ := bind_ok hf
    cases hf
    have n1 : h.fourcc ≠ ascii "COMM" := by rcases hc with e | e <;> rw [e] <;> decide
    have n2 : h.fourcc ≠ ascii "SSND" := by rcases hc with e | e <;> rw [e] <;> decide
    rw [if_neg (fun x => n1 x.1), if_neg (fun x => n2 x.1)]
    exact ⟨c, b, rfl, (readExact_skip h1).symm, hR⟩
  rw [← hR.1]
  split at hf
  · rename_i hc
    rw [if_pos hc]
    split at hf
    · cases hf
    rename_i hs
    rw [if_neg hs]
    obtain ⟨⟨x, c2⟩, h1, hf⟩ := bind_ok hf
    cases hf
    rw [h1]
    exact ⟨c2, _, rfl, rfl, rfl, hR.2⟩
  rename_i hc
  rw [if_neg hc]
  split at hf
  · rename_i hc
    rw [if_pos hc]
    cases hf
    exact ⟨c, _, rfl, rfl, rfl, hR.2⟩
  · rename_i hc
    rw [if_neg hc]
    obtain ⟨⟨c2, t⟩, h1, hf⟩ := bind_ok hf
    cases hf
    exact ⟨c, b, rfl, (aiffText_skip h1).symm, hR⟩

theorem aiff_noTags (o : Opts) {f : Bytes} {m : AiffFile} (h : IffFiles.readAiff { o with readTags := true } f = .ok m) :
    IffFiles.readAiff { o with readTags := false } f = .ok ⟨m.props, ⟨none, none, none, none, none⟩, none⟩ := by
  unfold IffFiles.readAiff at h ⊢
  obtain ⟨v, h1, h⟩ := bind_ok h
  rw [h1, ok_bind]
  simp only at h ⊢
  obtain ⟨⟨a, pos⟩, h2, h⟩ := bind_ok h
  obtain ⟨b, hb, hR⟩ := chunkLoop_alike (aiffChunk_noTags o) _ _ _ _ _ _ _ rfl ⟨rfl, rfl, rfl⟩ h2
  rw [hb, ok_bind]
  simp only [hR.2.1, hR.2.2, ← hR.1] at h ⊢
  split at h
  · rename_i hp
    rw [if_pos hp]
    obtain ⟨p, h3, h⟩ := bind_ok h
    cases h
    rw [h3]
    rfl
  · rename_i hp
    rw [if_neg hp]
    cases h
    rfl

/-! ## OGG and FLAC -/

theorem ogg_noTags (o : ReadOptions) (b : Bool) {f : Bytes} {ts : List Tag} {p : Generic} {fmt : OggWrite.Format}
    (h : wholeOgg o ⟨true, b⟩ f fmt = .ok (ts, p)) : wholeOgg o ⟨false, b⟩ f fmt = .ok ([Convert.ofVorbis o.custom ⟨[], [], []⟩], p) := by
  unfold wholeOgg at h ⊢
  simp only [Bool.false_eq_true, if_false, if_true] at h ⊢
  obtain ⟨hd, h1, h⟩ := bind_ok h
  have h1' : OggProps.readHeaders f fmt.head fmt.sig fmt.count false = .ok hd := by
    unfold OggProps.readHeaders at h1 ⊢
    obtain ⟨⟨x, x'⟩, g1, h1⟩ := bind_ok h1
    rw [g1, ok_bind]
    simp only at h1 ⊢
    obtain ⟨⟨packets, rest⟩, g2, h1⟩ := bind_ok h1
    rw [g2, ok_bind]
    simp only at h1 ⊢
    obtain ⟨y, g3, h1⟩ := bind_ok h1
    rw [g3, ok_bind]
    obtain ⟨z, g4, h1⟩ := bind_ok h1
    rw [g4, ok_bind]
    split at h1
    · split at h1
      · cases h1
      rename_i q1
      rw [if_neg q1]
      split at h1
      · cases h1
      · rw [if_neg (by simp)]
        exact h1
    · cases h1
  rw [h1', ok_bind, ok_bind]
  obtain ⟨v, -, h⟩ := bind_ok h
  cases b with
  | true =>
    simp only [if_true] at h ⊢
    obtain ⟨q, h5, h⟩ := bind_ok h
    rw [h5]
    cases h
    rfl
  | false =>
    simp only [Bool.false_eq_true, if_false] at h ⊢
    cases h
    rfl

theorem flacLoop_noTags (o : Vorbis.Opts) (f : Bytes) : ∀ (n : Nat) (last : Bool) (pos : Nat) (r r' : Flac.Found) (m : Flac.Found) (stop : Nat),
    r'.comments = none → r'.pictures = r.pictures → flacLoop o true f n last pos r = .ok (m, stop) →
    flacLoop o false f n last pos r' = .ok (⟨none, m.pictures⟩, stop) := by
  intro n
  induction n with
  | zero =>
    intro last pos r r' m stop h1 h2 h
    cases last with
    | true => cases h; cases r'; simp only at h1 h2; subst h1; subst h2; rfl
    | false => cases h
  | succ n ih =>
    intro last pos r r' m stop h1 h2 h
    cases last with
    | true => cases h; cases r'; simp only at h1 h2; subst h1; subst h2; rfl
    | false =>
      rw [flacLoop] at h ⊢
      simp only [Bool.and_true, Bool.and_false, Bool.false_or] at h ⊢
      obtain ⟨b, hb, h⟩ := bind_ok h
      obtain ⟨r1, hs, h⟩ := bind_ok h
      unfold Flac.readBlock at hb ⊢
      obtain ⟨hd, g1, hb⟩ := bind_ok hb
      rw [g1, ok_bind]
      simp only at hb ⊢
      obtain ⟨ct, g2, hb⟩ := bind_ok hb
      cases hb
      by_cases h4 : hd.getD 0 0 &&& 0x7F = 4
      · rw [h4]
        rw [if_neg (by simp), ok_bind, ok_bind]
        have : Flac.readStep o ⟨4, hd.getD 0 0 &&& 0x80 != 0, [], pos, pos + fromBE (hd.drop 1) + 4⟩ r' = .ok r' := rfl
        rw [this, ok_bind]
        refine ih _ _ r1 r' m stop h1 ?_ h
        unfold Flac.readStep at hs
        split at hs
        · cases hs; exact h2
        · rename_i hc
          try rw [if_neg hc] at hs
          try rw [if_pos h4] at hs
          split at hs
          · cases hs
          · obtain ⟨x, -, hs⟩ := bind_ok hs
            cases hs
            exact h2
      · have e4 : (hd.getD 0 0 &&& 0x7F == 4) = false := by simpa using h4
        simp only [e4, Bool.false_or] at g2
        rw [g2, ok_bind, ok_bind]
        have step : ∃ r2, Flac.readStep o ⟨hd.getD 0 0 &&& 0x7F, hd.getD 0 0 &&& 0x80 != 0, ct, pos, pos + fromBE (hd.drop 1) + 4⟩ r' = .ok r2 ∧
            r2.comments = none ∧ r2.pictures = r1.pictures := by
          unfold Flac.readStep at hs ⊢
          split at hs
          · rename_i hc
            rw [if_pos hc]
            cases hs
            exact ⟨r', rfl, h1, h2⟩
          rename_i hc
          rw [if_neg hc, if_neg h4]
          try rw [if_neg h4] at hs
          split at hs
          · rename_i h6
            rw [if_pos h6]
            split at hs
            · rename_i q hq
              cases hs
              exact ⟨_, rfl, h1, by simp only [h2]⟩
            · cases hs
            · rename_i e he hq
              split at hs
              · cases hs
              · rename_i hst
                cases hs
                cases e <;> first
                  | exact absurd rfl he
                  | exact ⟨r', by simp only [hst, if_false], h1, h2⟩
          · rename_i h6
            rw [if_neg h6]
            cases hs
            exact ⟨r', rfl, h1, h2⟩
        obtain ⟨r2, e2, q1, q2⟩ := step
        rw [e2, ok_bind]
        exact ih _ _ r1 r2 m stop q1 q2 h

theorem flacLoop_noCover {o : Vorbis.Opts} (ho : o.readCoverArt = false) {t : Bool} {f : Bytes} : ∀ (n : Nat) (last : Bool) (pos : Nat)
    (r : Flac.Found) {m : Flac.Found} {stop : Nat}, flacLoop o t f n last pos r = .ok (m, stop) → m.pictures = r.pictures := by
  intro n
  induction n with
  | zero =>
    intro last pos r m stop h
    cases last <;> cases h
    rfl
  | succ n ih =>
    intro last pos r m stop h
    cases last with
    | true => cases h; rfl
    | false =>
      rw [flacLoop] at h
      obtain ⟨b, hb, h⟩ := bind_ok h
      obtain ⟨r1, hs, h⟩ := bind_ok h
      rw [ih _ _ _ h]
      unfold Flac.readStep at hs
      split at hs
      · cases hs; rfl
      split at hs
      · split at hs
        · cases hs
        · obtain ⟨x, -, hs⟩ := bind_ok hs
          cases hs
          rfl
      · rw [if_neg (by simp [ho])] at hs
        cases hs
        rfl

theorem flac_noTags (o : ReadOptions) (b : Bool) {f : Bytes} {ts : List Tag} {p : Generic} (h : wholeFlac o ⟨true, b⟩ f = .ok (ts, p)) :
    ∃ pics, wholeFlac o ⟨false, b⟩ f = .ok (flacTagsOf o.custom none ⟨none, pics⟩, p) ∧ (o.cover = false → pics = []) := by
  unfold wholeFlac at h ⊢
  obtain ⟨⟨r, pos⟩, h1, h⟩ := bind_ok h
  rw [show Id3v2.find f 0 false none = _ from find_noTags h1, ok_bind]
  obtain ⟨id3, -, h⟩ := bind_ok h
  have e : ∀ w, contentOf (o.with w) (r.map fun x => (x.1, none)) = .ok none := by
    intro w
    cases r <;> rfl
  simp only [e, ok_bind]
  obtain ⟨si, h3, h⟩ := bind_ok h
  rw [h3, ok_bind]
  split at h
  · cases h
  rename_i hs
  rw [if_neg hs]
  obtain ⟨⟨m, stop⟩, h4, h⟩ := bind_ok h
  rw [flacLoop_noTags _ _ _ _ _ _ ⟨none, []⟩ _ _ rfl rfl h4, ok_bind]
  simp only at h ⊢
  refine ⟨m.pictures, ?_, fun hc => flacLoop_noCover (o := o.comments) hc _ _ _ _ h4⟩
  cases b with
  | true =>
    simp only [if_true] at h ⊢
    obtain ⟨q, h5, h⟩ := bind_ok h
    rw [h5]
    cases h
    rfl
  | false =>
    simp only [Bool.false_eq_true, if_false] at h ⊢
    cases h
    rfl

/-! ## Tags at the end: WavPack, Monkey's Audio, Musepack -/

theorem wavPack_noTags (o : Opts) {f : Bytes} {m : TagsOf × Option WavPack.Props} (h : readWavPackFile { o with readTags := true } f = .ok m) :
    readWavPackFile { o with readTags := false } f = .ok (⟨none, none, none, m.1.stream⟩, m.2) := by
  unfold readWavPackFile readWavPack at h ⊢
  obtain ⟨x, h1, h⟩ := bind_ok h
  obtain ⟨t, h2, h1⟩ := bind_ok h1
  obtain ⟨t', e, q1, q2, q3, q4, -, -⟩ := tail_noTags h2
  rw [e, ok_bind]
  obtain ⟨s, h3, h1⟩ := bind_ok h1
  have e3 : withoutV1 t' f.length = .ok s := by
    unfold withoutV1 at h3 ⊢
    rw [q1]
    exact h3
  rw [e3, ok_bind, q2, q3, q4]
  cases hd : t.header with
  | none =>
    rw [hd] at h1
    cases h1
    simp only at h ⊢
    split at h
    · rename_i hp
      rw [ok_bind, if_pos hp]
      obtain ⟨p, h4, h⟩ := bind_ok h
      cases h
      rw [h4]
      rfl
    · rename_i hp
      rw [ok_bind, if_neg hp]
      cases h
      rfl
  | some hd' =>
    rw [hd] at h1
    obtain ⟨s', h5, h1⟩ := bind_ok h1
    cases h1
    simp only at h ⊢
    rw [h5]
    simp only [ok_bind]
    split at h
    · rename_i hp
      rw [if_pos hp]
      obtain ⟨p, h4, h⟩ := bind_ok h
      cases h
      rw [h4]
      rfl
    · rename_i hp
      rw [if_neg hp]
      cases h
      rfl

theorem macLoop_mac {o : Opts} {f hd : Bytes} : ∀ (n pos stream : Nat) (a : Option Ape.Tag) {x : Option Ape.Tag × Nat},
    macLoop o f hd n pos stream a = .ok x → hd = ascii "MAC " := by
  intro n
  induction n with
  | zero => intro pos stream a x h; cases h
  | succ n ih =>
    intro pos stream a x h
    rw [macLoop] at h
    split at h
    · assumption
    split at h
    · obtain ⟨r, -, h⟩ := bind_ok h
      split at h
      · cases h
      obtain ⟨⟨hd', next⟩, -, h⟩ := bind_ok h
      obtain ⟨s, -, h⟩ := bind_ok h
      split at h
      · obtain ⟨⟨t, stop⟩, -, h⟩ := bind_ok h
        exact ih _ _ _ h
      · exact ih _ _ _ h
    · cases h

theorem mac_noTags (o : Opts) {f : Bytes} {m : TagsOf × Option Lossless.Mac} (h : readMacFile { o with readTags := true } f = .ok m)
    (ha : m.1.ape = none) : readMacFile { o with readTags := false } f = .ok (⟨none, none, none, m.1.stream⟩, m.2) := by
  unfold readMacFile at h ⊢
  obtain ⟨x, h1, h⟩ := bind_ok h
  have hx : m.1 = x := by
    split at h
    · obtain ⟨⟨_, _⟩, -, h⟩ := bind_ok h
      obtain ⟨_, -, h⟩ := bind_ok h
      obtain ⟨_, -, h⟩ := bind_ok h
      cases h
      rfl
    · cases h
      rfl
  rw [hx] at ha ⊢
  have h1' := h1
  unfold readMac at h1'
  obtain ⟨⟨r, p⟩, g1, h1'⟩ := bind_ok h1'
  obtain ⟨s1, g2, h1'⟩ := bind_ok h1'
  obtain ⟨v2, g3, h1'⟩ := bind_ok h1'
  obtain ⟨hd, g4, h1'⟩ := bind_ok h1'
  obtain ⟨⟨a, s2⟩, g5, h1'⟩ := bind_ok h1'
  obtain ⟨t, g6, h1'⟩ := bind_ok h1'
  obtain ⟨s3, g7, h1'⟩ := bind_ok h1'
  obtain ⟨t', e, q1, q2, q3, q4, q5, q6⟩ := tail_noTags g6
  have hnone : t.header = none := by
    cases hh : t.header with
    | none => rfl
    | some y =>
      rw [hh] at h1' q6
      obtain ⟨s4, -, h1'⟩ := bind_ok h1'
      cases h1'
      simp only at ha
      rw [ha] at q6
      cases q6
  rw [hnone] at h1'
  cases h1'
  have hmac := macLoop_mac _ _ _ _ g5
  have e1 : readMac { o with readTags := false } f = .ok ⟨none, none, none, s3⟩ := by
    unfold readMac
    simp only
    rw [find_noTags g1, ok_bind]
    have e2 : withoutV2 (r.map fun x => (x.1, none)) f.length = .ok s1 := by
      cases r <;> exact g2
    have e3 : contentOf { o with readTags := false } (r.map fun x => (x.1, none)) = .ok none := by
      cases r <;> rfl
    simp only
    rw [e2, ok_bind, e3, ok_bind, g4, ok_bind]
    rw [macLoop, if_pos hmac] at g5 ⊢
    cases g5
    rw [ok_bind]
    simp only
    rw [e, ok_bind]
    have e4 : withoutV1 t' s1 = .ok s3 := by
      unfold withoutV1 at g7 ⊢
      rw [q1]
      exact g7
    rw [e4, ok_bind, q4, hnone, q2]
  rw [e1, ok_bind]
  split at h
  · rename_i hp
    rw [if_pos hp]
    simp only at h ⊢
    rw [g1, ok_bind] at h
    rw [find_noTags g1, ok_bind]
    simp only at h ⊢
    rw [g6, ok_bind] at h
    rw [e, ok_bind, q5 hnone]
    obtain ⟨q, h2, h⟩ := bind_ok h
    rw [h2]
    cases h
    rfl
  · rename_i hp
    rw [if_neg hp]
    cases h
    rfl

theorem mpc_noTags (o : Opts) {f : Bytes} {m : TagsOf} (h : readMpc { o with readTags := true } f = .ok m)
    (ha : m.ape = none) (hi : m.id3v2 = none) : readMpc { o with readTags := false } f = .ok ⟨none, none, none, m.stream⟩ := by
  unfold readMpc at h ⊢
  obtain ⟨⟨r, p⟩, g1, h⟩ := bind_ok h
  obtain ⟨s1, g2, h⟩ := bind_ok h
  obtain ⟨v2, g3, h⟩ := bind_ok h
  obtain ⟨t, g4, h⟩ := bind_ok h
  obtain ⟨s2, g5, h⟩ := bind_ok h
  obtain ⟨s3, g6, h⟩ := bind_ok h
  obtain ⟨b, g7, h⟩ := bind_ok h
  cases h
  simp only at ha hi
  obtain ⟨t', e, q1, q2, q3, q4, q5, q6⟩ := tail_noTags g4
  have hr : r = none := by
    cases r with
    | none => rfl
    | some x =>
      have hs := find_some g1
      obtain ⟨y, c⟩ := x
      cases c with
      | none => cases hs
      | some c =>
        change (parseId3 _ y c).map some = _ at g3
        cases hp : parseId3 { o with readTags := true } y c with
        | error e => rw [hp] at g3; cases g3
        | ok z => rw [hp] at g3; cases g3; cases hi
  subst hr
  simp only
  rw [find_noTags g1, ok_bind]
  simp only [Option.map_none]
  rw [show withoutContent none f.length = .ok s1 from g2, ok_bind]
  rw [show contentOf { o with readTags := false } none = .ok none from rfl, ok_bind, e, ok_bind]
  have e4 : withoutV1 t' s1 = .ok s2 := by
    unfold withoutV1 at g5 ⊢
    rw [q1]
    exact g5
  have hnone : t.header = none := by
    rw [ha] at q6
    cases hh : t.header with
    | none => rfl
    | some y => rw [hh] at q6; cases q6
  rw [hnone] at g6
  rw [e4, ok_bind, q4, hnone]
  simp only
  rw [ok_bind, g7, ok_bind, q2, q3]
  cases g6
  rfl

/-! ## Frames of audio: MPEG and AAC -/

theorem front_keeps {o : Opts} (ho : o.readTags = true) {f : Bytes} : ∀ (n pos : Nat) (st : Front) {st' : Front} {first : Option (Mpeg.Header × Nat)},
    front o f n pos st = .ok (st', first) → (st.id3v2.isSome → st'.id3v2.isSome) ∧ (st.ape.isSome → st'.ape.isSome) := by
  intro n
  induction n with
  | zero => intro pos st st' first h; cases h
  | succ n ih =>
    intro pos st st' first h
    rw [front] at h
    split at h
    · cases h; exact ⟨id, id⟩
    split at h
    · split at h
      · cases h
      simp only [ho, if_true] at h
      obtain ⟨t, -, h⟩ := bind_ok h
      split at h
      · have := ih _ _ h
        exact ⟨fun _ => this.1 rfl, this.2⟩
      · have := ih _ _ h
        exact ⟨fun _ => this.1 rfl, this.2⟩
    split at h
    · obtain ⟨r, -, h⟩ := bind_ok h
      split at h
      · obtain ⟨⟨hd, next⟩, -, h⟩ := bind_ok h
        simp only [ho, if_true] at h
        obtain ⟨⟨t, stop⟩, -, h⟩ := bind_ok h
        have := ih _ _ h
        exact ⟨this.1, fun _ => this.2 rfl⟩
      · cases h
    · obtain ⟨r, -, h⟩ := bind_ok h
      split at h
      · cases h; exact ⟨id, id⟩
      · obtain ⟨st1, h1, h⟩ := bind_ok h
        cases h
        unfold junkTag at h1
        split at h1
        · obtain ⟨⟨r, q⟩, -, h1⟩ := bind_ok h1
          simp only at h1
          split at h1
          · obtain ⟨t, -, h1⟩ := bind_ok h1
            cases h1
            exact ⟨fun _ => rfl, id⟩
          · cases h1; exact ⟨id, id⟩
        · cases h1; exact ⟨id, id⟩

theorem findAt_noTags {f : Bytes} {pos p : Nat} {x : Option (Id3v2.Header × Option Bytes)} (h : Id3v2.findAt f pos true = .ok (x, p)) :
    ∃ y q, Id3v2.findAt f pos false = .ok (y, q) ∧ ∀ a b, y ≠ some (a, some b) := by
  unfold Id3v2.findAt at h ⊢
  split at h
  · split at h
    · cases h
    · rename_i hp
      rw [if_neg hp]
      cases h
      exact ⟨_, _, rfl, nofun⟩
  · simp only [Bool.false_eq_true, if_false]
    exact ⟨_, _, rfl, by intro a b e; cases e⟩

theorem junkTag_noTags {o : Opts} {f : Bytes} {off : Nat} (h : junkTag { o with readTags := true } f off ⟨none, none⟩ = .ok ⟨none, none⟩) :
    junkTag { o with readTags := false } f off ⟨none, none⟩ = .ok ⟨none, none⟩ := by
  unfold junkTag at h ⊢
  split at h
  · rename_i hc
    rw [if_pos hc]
    obtain ⟨⟨r, q⟩, h1, h⟩ := bind_ok h
    simp only at h1 ⊢
    unfold Id3v2.find at h1 ⊢
    simp only at h1 ⊢
    split at h1
    · rfl
    · obtain ⟨y, q', e, hy⟩ := findAt_noTags h1
      rw [e, ok_bind]
      simp only
  · rename_i hc
    rw [if_neg hc]

theorem front_noTags (o : Opts) (f : Bytes) : ∀ (n pos : Nat) {first : Option (Mpeg.Header × Nat)},
    front { o with readTags := true } f n pos ⟨none, none⟩ = .ok (⟨none, none⟩, first) →
    front { o with readTags := false } f n pos ⟨none, none⟩ = .ok (⟨none, none⟩, first) := by
  intro n pos first h
  cases n with
  | zero => cases h
  | succ n =>
    rw [front] at h ⊢
    split at h
    · rename_i hr
      try rw [hr]
      exact h
    rename_i b hr
    try rw [hr]
    try simp only
    split at h
    · split at h
      · cases h
      simp only [if_true] at h
      obtain ⟨t, -, h⟩ := bind_ok h
      have := (front_keeps rfl _ _ _ h).1 rfl
      cases this
    rename_i h3
    rw [if_neg h3]
    split at h
    · obtain ⟨r, -, h⟩ := bind_ok h
      split at h
      · obtain ⟨⟨hd, next⟩, -, h⟩ := bind_ok h
        simp only [if_true] at h
        obtain ⟨⟨t, stop⟩, -, h⟩ := bind_ok h
        have := (front_keeps rfl _ _ _ h).2 rfl
        cases this
      · cases h
    rename_i ha
    rw [if_neg ha]
    obtain ⟨r, h1, h⟩ := bind_ok h
    rw [h1, ok_bind]
    split at h
    · exact h
    · obtain ⟨st1, h2, h⟩ := bind_ok h
      cases h
      rw [junkTag_noTags h2]
      rfl

theorem mpeg_noTags (o : Opts) {f : Bytes} {m : MpegFile} (h : readMpeg { o with readTags := true } f = .ok m)
    (ha : m.ape = none) (hi : m.id3v2 = none) : readMpeg { o with readTags := false } f = .ok ⟨none, none, none, m.props⟩ ∧
      ∀ n pos, (f.length + 1 = n ∧ pos = f.length - (f.dropWhile (· = 0)).length) →
        front { o with readTags := true } f n pos ⟨none, none⟩ = front { o with readTags := false } f n pos ⟨none, none⟩ := by
  unfold readMpeg at h ⊢
  simp only at h ⊢
  split at h
  · cases h
  rename_i hp
  rw [if_neg hp]
  obtain ⟨⟨st, first⟩, g1, h⟩ := bind_ok h
  obtain ⟨t, g2, h⟩ := bind_ok h
  obtain ⟨⟨ape, last⟩, g3, h⟩ := bind_ok h
  have hm : m.id3v2 = st.id3v2 ∧ m.ape = ape := by
    simp only at h
    split at h
    · obtain ⟨p, -, h⟩ := bind_ok h
      cases h
      exact ⟨rfl, rfl⟩
    · cases h
      exact ⟨rfl, rfl⟩
  rw [hm.1] at hi
  rw [hm.2] at ha
  obtain ⟨t', e, q1, q2, q3, q4, q5, q6⟩ := tail_noTags g2
  have hnone : t.header = none ∧ st.ape = none := by
    unfold mpegEnd at g3
    cases hh : t.header with
    | none =>
      rw [hh] at g3
      cases g3
      exact ⟨rfl, ha⟩
    | some y =>
      rw [hh] at g3
      simp only at g3
      split at g3
      · cases g3
      · cases g3
        rw [hh, ha] at q6
        cases q6
  have hst : st = ⟨none, none⟩ := by
    cases st
    simp only at hi hnone
    rw [hi, hnone.2]
  subst hst
  have gf := front_noTags o f _ _ g1
  refine ⟨?_, ?_⟩
  · rw [gf, ok_bind]
    simp only
    rw [e, ok_bind]
    have g3' : mpegEnd t' none = .ok (none, last) := by
      unfold mpegEnd at g3 ⊢
      rw [hnone.1] at g3
      cases g3
      rw [q4, hnone.1, q5 hnone.1]
    rw [g3', ok_bind, q2]
    simp only at h ⊢
    split at h
    · rename_i hpr
      rw [if_pos hpr]
      obtain ⟨p, g4, h⟩ := bind_ok h
      rw [g4]
      cases h
      rfl
    · rename_i hpr
      rw [if_neg hpr]
      cases h
      rfl
  · rintro n pos ⟨rfl, rfl⟩
    rw [g1, gf]

theorem aacFront_keeps {o : Opts} (ho : o.readTags = true) {f : Bytes} : ∀ (n pos stream : Nat) (t : Option Id3Tag) {st : AacFront},
    aacFront o f n pos stream t = .ok st → t.isSome → st.id3v2.isSome := by
  intro n
  induction n with
  | zero => intro pos stream t st h; cases h
  | succ n ih =>
    intro pos stream t st h ht
    rw [aacFront] at h
    split at h
    · cases h; exact ht
    split at h
    · split at h
      · cases h
      obtain ⟨s, -, h⟩ := bind_ok h
      simp only [ho, if_true] at h
      obtain ⟨t', -, h⟩ := bind_ok h
      split at h
      · exact ih _ _ _ h rfl
      · split at h
        · obtain ⟨s', -, h⟩ := bind_ok h
          exact ih _ _ _ h rfl
        · exact ih _ _ _ h rfl
    · obtain ⟨r, -, h⟩ := bind_ok h
      cases h
      exact ht

theorem aacFront_noTags (o : Opts) (f : Bytes) : ∀ (n pos stream : Nat) {st : AacFront},
    aacFront { o with readTags := true } f n pos stream none = .ok st → st.id3v2 = none →
    aacFront { o with readTags := false } f n pos stream none = .ok st := by
  intro n pos stream st h hn
  have no : ∀ {n pos stream} {t : Id3Tag}, aacFront { o with readTags := true } f n pos stream (some t) = .ok st → False := by
    intro n pos stream t h
    have := aacFront_keeps rfl _ _ _ _ h rfl
    rw [hn] at this
    cases this
  cases n with
  | zero => cases h
  | succ n =>
    rw [aacFront] at h ⊢
    split at h
    · rename_i hr
      try rw [hr]
      exact h
    rename_i b hr
    try rw [hr]
    try simp only
    split at h
    · split at h
      · cases h
      obtain ⟨s, -, h⟩ := bind_ok h
      simp only [if_true] at h
      obtain ⟨t, -, h⟩ := bind_ok h
      split at h
      · obtain ⟨s', -, h⟩ := bind_ok h
        exact (no h).elim
      · exact (no h).elim
    · rename_i h3
      rw [if_neg h3]
      exact h

theorem aac_noTags (o : Opts) {f : Bytes} {m : AacFile} (h : readAac { o with readTags := true } f = .ok m)
    (hi : m.id3v2 = none) : readAac { o with readTags := false } f = .ok ⟨none, none, m.props⟩ ∧
      ∀ n pos, (f.length + 1 = n ∧ pos = f.length - (f.dropWhile (· = 0)).length) →
        aacFront { o with readTags := true } f n pos f.length none = aacFront { o with readTags := false } f n pos f.length none := by
  unfold readAac at h ⊢
  simp only at h ⊢
  split at h
  · cases h
  rename_i hp
  rw [if_neg hp]
  obtain ⟨st, g1, h⟩ := bind_ok h
  obtain ⟨⟨found, v1, q⟩, g2, h⟩ := bind_ok h
  simp only at h
  obtain ⟨s, g3, h⟩ := bind_ok h
  have hm : m.id3v2 = st.id3v2 := by
    split at h
    · split at h
      · cases h
      · obtain ⟨p, -, h⟩ := bind_ok h
        cases h
        rfl
    · cases h
      rfl
  rw [hm] at hi
  have gf := aacFront_noTags o f _ _ _ g1 hi
  refine ⟨?_, ?_⟩
  · rw [gf, ok_bind]
    rw [v1_noTags g2, ok_bind]
    simp only
    rw [g3, ok_bind, hi]
    split at h
    · rename_i hpr
      rw [if_pos hpr]
      split at h
      · cases h
      · rename_i x y hf
        obtain ⟨p, g4, h⟩ := bind_ok h
        try simp only [hf]
        rw [g4]
        cases h
        rfl
    · rename_i hpr
      rw [if_neg hpr]
      cases h
      rfl
  · rintro n pos ⟨rfl, rfl⟩
    rw [g1, gf]

/-! ## The theorem -/

/-- The tag that is shown of an OGG file whose tags are not read, and of a FLAC file with cover art: without items but for an empty name of the
encoder. -/
def Bare (t : Tag) : Prop := t.type = .vorbisComments ∧ t.items = [TagItem.new .EncoderSoftware (.text [])]

theorem no_map {α : Type} {g : α → Tag} {ty : TagType} (hg : ∀ x, (g x).type = ty) {x : Option α} (h : ∀ t ∈ (x.map g).toList, t.type ≠ ty) :
    x = none := by
  cases x with
  | none => rfl
  | some y => exact absurd (hg y) (h (g y) (by simp))

/-- **C76.** A file of any type but WAV and MP4: if it can be read with its tags, it can be read without, and then has the same properties (or
none, if these are not to be read either) and shows no tag, or a bare one.  For the types whose audio is found with the help of the tags, the
file must not have these: no APE tag in Monkey's Audio, Musepack and MPEG files, no ID3v2 tag in Musepack, MPEG and AAC files. -/
theorem without_tags_partial (o : ReadOptions) (b : Bool) {f : Bytes} {ty : FileType} (hw : ty ≠ .wav) (h4 : ty ≠ .mp4) {ts : List Tag} {p : Generic}
    (ha : ty = .ape ∨ ty = .mpc ∨ ty = .mpeg → ∀ t ∈ ts, t.type ≠ .ape) (hi : ty = .mpc ∨ ty = .mpeg ∨ ty = .aac → ∀ t ∈ ts, t.type ≠ .id3v2)
    (h : wholeAs o ⟨true, b⟩ f ty = .ok (ts, p)) :
    ∃ ts', wholeAs o ⟨false, b⟩ f ty = .ok (ts', p) ∧ (∀ t ∈ ts', Bare t) ∧
      (ts' = [] ∨ (ty = .opus ∨ ty = .vorbis ∨ ty = .speex) ∧ ts'.length = 1 ∧ (∀ t ∈ ts', t.pictures = []) ∨
        ty = .flac ∧ o.cover = true ∧ ts'.length = 1) := by
  have ogg : ∀ fmt, wholeOgg o ⟨true, b⟩ f fmt = .ok (ts, p) → ∃ ts', wholeOgg o ⟨false, b⟩ f fmt = .ok (ts', p) ∧ (∀ t ∈ ts', Bare t) ∧
      ts'.length = 1 ∧ ∀ t ∈ ts', t.pictures = [] := by
    intro fmt h
    refine ⟨_, ogg_noTags o b h, ?_, rfl, ?_⟩
    · intro t ht
      rw [List.mem_singleton] at ht
      subst ht
      exact ⟨rfl, rfl⟩
    · intro t ht
      rw [List.mem_singleton] at ht
      subst ht
      rfl
  have hApe : ∀ x, (Convert.ofApe x).type = .ape := fun _ => rfl
  have hId3 : ∀ x, (ofId3v2 o.custom x).type = .id3v2 := fun _ => rfl
  have parts : ∀ {a : Option Id3Tag} {b' : Option Id3v1.Tag} {c : Option Ape.Tag}, tagsOf o.custom a b' c = ts →
      ((∀ t ∈ ts, t.type ≠ .ape) → c = none) ∧ ((∀ t ∈ ts, t.type ≠ .id3v2) → a = none) := by
    intro a b' c e
    subst e
    unfold tagsOf
    exact ⟨fun h => no_map hApe (fun t ht => h t (by simp only [List.mem_append]; exact .inr ht)),
      fun h => no_map hId3 (fun t ht => h t (by simp only [List.mem_append]; exact .inl (.inl ht)))⟩
  have none' : ∀ t ∈ ([] : List Tag), Bare t := nofun
  cases ty with
  | aac =>
    change wholeAac _ _ _ = _ at h
    change ∃ ts', wholeAac _ _ _ = _ ∧ _
    unfold wholeAac at h ⊢
    obtain ⟨m, h1, h⟩ := bind_ok h
    have hts : tagsOf o.custom m.id3v2 m.id3v1 none = ts := by
      simp only at h
      split at h
      · cases h; rfl
      · obtain ⟨st, -, h⟩ := bind_ok h
        split at h
        · cases h
        · cases h; rfl
    obtain ⟨g1, g2⟩ := aac_noTags (o.with ⟨true, b⟩) h1 ((parts hts).2 (hi (.inr (.inr rfl))))
    refine ⟨[], ?_, none', .inl rfl⟩
    rw [show readAac (o.with ⟨false, b⟩) f = _ from g1, ok_bind]
    have g3 := g2 _ _ ⟨rfl, rfl⟩
    change aacFront (o.with ⟨true, b⟩) _ _ _ _ _ = aacFront (o.with ⟨false, b⟩) _ _ _ _ _ at g3
    rw [← g3]
    simp only at h ⊢
    split at h
    · cases h; rfl
    · obtain ⟨st, h2, h⟩ := bind_ok h
      rw [h2, ok_bind]
      split at h
      · cases h
      · cases h; rfl
  | aiff =>
    change (IffFiles.readAiff _ _).map _ = _ at h
    change ∃ ts', (IffFiles.readAiff _ _).map _ = _ ∧ _
    cases h1 : IffFiles.readAiff (o.with ⟨true, b⟩) f with
    | error e => rw [h1] at h; cases h
    | ok m =>
      rw [h1] at h
      rw [show IffFiles.readAiff (o.with ⟨false, b⟩) f = _ from aiff_noTags (o.with ⟨true, b⟩) h1]
      cases h
      exact ⟨[], rfl, none', .inl rfl⟩
  | ape =>
    change (readMacFile _ _).map _ = _ at h
    change ∃ ts', (readMacFile _ _).map _ = _ ∧ _
    cases h1 : readMacFile (o.with ⟨true, b⟩) f with
    | error e => rw [h1] at h; cases h
    | ok m =>
      rw [h1] at h
      cases h
      have : m.1.ape = none := by
        refine no_map hApe fun t ht => ha (.inl rfl) t ?_
        unfold macTagsOf
        simp only [List.mem_append]
        exact .inr ht
      rw [show readMacFile (o.with ⟨false, b⟩) f = _ from mac_noTags (o.with ⟨true, b⟩) h1 this]
      exact ⟨[], rfl, none', .inl rfl⟩
  | flac =>
    obtain ⟨pics, hp, hc⟩ := flac_noTags o b h
    refine ⟨_, hp, ?_, ?_⟩
    · intro t ht
      cases pics with
      | nil => cases ht
      | cons x xs =>
        replace ht : t ∈ [Convert.ofVorbis o.custom ⟨[], [], x :: xs⟩] := ht
        rw [List.mem_singleton] at ht
        subst ht
        exact ⟨rfl, rfl⟩
    · cases hx : o.cover with
      | false =>
        rw [hc hx]
        exact .inl rfl
      | true =>
        cases pics with
        | nil => exact .inl rfl
        | cons x xs => exact .inr (.inr ⟨rfl, rfl, rfl⟩)
  | mpeg =>
    change wholeMpeg _ _ _ = _ at h
    change ∃ ts', wholeMpeg _ _ _ = _ ∧ _
    unfold wholeMpeg at h ⊢
    obtain ⟨m, h1, h⟩ := bind_ok h
    have hts : tagsOf o.custom m.id3v2 m.id3v1 m.ape = ts := by
      simp only at h
      split at h
      · cases h; rfl
      · obtain ⟨⟨st, first⟩, -, h⟩ := bind_ok h
        simp only at h
        split at h
        · cases h
        · cases h; rfl
    obtain ⟨g1, g2⟩ := mpeg_noTags (o.with ⟨true, b⟩) h1 ((parts hts).1 (ha (.inr (.inr rfl)))) ((parts hts).2 (hi (.inr (.inl rfl))))
    refine ⟨[], ?_, none', .inl rfl⟩
    rw [show readMpeg (o.with ⟨false, b⟩) f = _ from g1, ok_bind]
    have g3 := g2 _ _ ⟨rfl, rfl⟩
    change front (o.with ⟨true, b⟩) _ _ _ _ = front (o.with ⟨false, b⟩) _ _ _ _ at g3
    rw [← g3]
    simp only at h ⊢
    split at h
    · cases h; rfl
    · obtain ⟨⟨st, first⟩, h2, h⟩ := bind_ok h
      rw [h2, ok_bind]
      simp only at h ⊢
      split at h
      · cases h
      · cases h; rfl
  | opus =>
    obtain ⟨ts', g1, g2, g3⟩ := ogg .opus h
    exact ⟨ts', g1, g2, .inr (.inl ⟨.inl rfl, g3⟩)⟩
  | vorbis =>
    obtain ⟨ts', g1, g2, g3⟩ := ogg .vorbis h
    exact ⟨ts', g1, g2, .inr (.inl ⟨.inr (.inl rfl), g3⟩)⟩
  | speex =>
    obtain ⟨ts', g1, g2, g3⟩ := ogg .speex h
    exact ⟨ts', g1, g2, .inr (.inl ⟨.inr (.inr rfl), g3⟩)⟩
  | wav => exact absurd rfl hw
  | mp4 => exact absurd rfl h4
  | mpc =>
    change wholeMpc _ _ _ = _ at h
    change ∃ ts', wholeMpc _ _ _ = _ ∧ _
    unfold wholeMpc at h ⊢
    obtain ⟨m, h1, h⟩ := bind_ok h
    have hts : tagsOf o.custom m.id3v2 m.id3v1 m.ape = ts := by
      simp only at h
      split at h
      · obtain ⟨⟨_, q⟩, -, h⟩ := bind_ok h
        obtain ⟨_, -, h⟩ := bind_ok h
        cases h; rfl
      · cases h; rfl
    refine ⟨[], ?_, none', .inl rfl⟩
    rw [show readMpc (o.with ⟨false, b⟩) f = _ from
      mpc_noTags (o.with ⟨true, b⟩) h1 ((parts hts).1 (ha (.inr (.inl rfl)))) ((parts hts).2 (hi (.inl rfl))), ok_bind]
    simp only at h ⊢
    split at h
    · rename_i hb
      rw [if_pos hb]
      obtain ⟨⟨r, q⟩, h2, h⟩ := bind_ok h
      obtain ⟨pr, h3, h⟩ := bind_ok h
      rw [find_noTags h2, ok_bind]
      simp only at h3 ⊢
      rw [h3]
      cases h
      rfl
    · rename_i hb
      rw [if_neg hb]
      cases h
      rfl
  | wavPack =>
    change (readWavPackFile _ _).map _ = _ at h
    change ∃ ts', (readWavPackFile _ _).map _ = _ ∧ _
    cases h1 : readWavPackFile (o.with ⟨true, b⟩) f with
    | error e => rw [h1] at h; cases h
    | ok m =>
      rw [h1] at h
      rw [show readWavPackFile (o.with ⟨false, b⟩) f = _ from wavPack_noTags (o.with ⟨true, b⟩) h1]
      cases h
      exact ⟨[], rfl, none', .inl rfl⟩

/-- **C76.** For MP4 files, the same holds if they are made of well-formed atoms and have no user data in their tracks. -/
theorem mp4_without_tags_partial (o : ReadOptions) (b : Bool) {f : Bytes} (hf : Mp4Read.Layout f) {ts : List Tag} {p : Generic}
    (h : wholeAs o ⟨true, b⟩ f .mp4 = .ok (ts, p)) : wholeAs o ⟨false, b⟩ f .mp4 = .ok ([], p) := by
  obtain ⟨brand, found, tag, h1, h2⟩ := Mp4Read.layout_read hf ⟨o.mode, o.cover, o.implicit⟩ o.limit
  change wholeMp4 _ _ _ = _ at h ⊢
  unfold wholeMp4 Mp4Props.readFile at h ⊢
  have e1 : Mp4Read.readFrom { o.mp4 with tags := true, properties := b } f =
      tag >>= fun x => .ok (brand, ⟨if b then found else [], x⟩) := h1 b
  have e2 : Mp4Read.readFrom { o.mp4 with tags := false, properties := b } f = .ok (brand, ⟨if b then found else [], none⟩) := h2 b
  simp only [e1, e2] at h ⊢
  cases tag with
  | error e => cases h
  | ok x =>
    simp only [ok_bind] at h ⊢
    cases b with
    | true =>
      simp only [if_true] at h ⊢
      obtain ⟨⟨a, b, c⟩, h3, h⟩ := bind_ok h
      obtain ⟨q, h4, h3⟩ := bind_ok h3
      cases h3
      cases h
      change ((Mp4Props.readProperties _ _ _ _ _ >>= _) >>= _ : Except Err Shown) = _
      rw [show Mp4Props.readProperties _ _ _ _ _ = _ from h4]
      rfl
    | false =>
      simp only [Bool.false_eq_true, if_false] at h ⊢
      cases h
      rfl

/-! ## WAV -/

/-- What one chunk changes if tags are not read. -/
def plainStep (o : Opts) (a : WavAcc) (d : Chunk) : Except Err WavAcc := do
  let p ← wavAudio o.readProps a.audio d
  .ok { a with audio := p }

theorem wavAudio_tag {d : Chunk} (h : d.1 = ascii "LIST" ∨ d.IsId3) (b : Bool) (a : WavAudio) : wavAudio b a d = .ok a := by
  have n1 : d.1 ≠ ascii "fmt " := by rcases h with h | h | h <;> rw [h] <;> decide
  have n2 : d.1 ≠ ascii "fact" := by rcases h with h | h | h <;> rw [h] <;> decide
  have n3 : d.1 ≠ ascii "data" := by rcases h with h | h | h <;> rw [h] <;> decide
  unfold wavAudio
  rw [if_neg n1, if_neg n2, if_neg n3]
  simp

theorem plain_step {o : Opts} (ho : o.readTags = false) {d : Chunk} (hok : d.Ok) (hl4 : d.1 = ascii "LIST" → 4 ≤ d.2.length) (t : Nat) (a : WavAcc) :
    Step false (IffFiles.wavChunk o t) t d a (plainStep o a d) := by
  have h4 := hok.1.1
  by_cases hL : d.1 = ascii "LIST"
  · have n1 : d.1 ≠ ascii "fmt " := by rw [hL]; decide
    have n2 : d.1 ≠ ascii "fact" := by rw [hL]; decide
    have n3 : d.1 ≠ ascii "data" := by rw [hL]; decide
    unfold plainStep
    rw [wavAudio_tag (.inl hL), ok_bind]
    refine Step.inside h4 4 (hl4 hL) ?_
    intro f pre rest R start hf
    have := hl4 hL
    have h5 : ¬ d.2.length < 4 := by omega
    unfold IffFiles.wavChunk
    rw [if_neg (fun h => n1 h.1), if_neg (fun h => n2 h.1), if_neg (fun h => n3 h.1), if_pos hL, if_neg (by simp [ho])]
    simp only [h5, if_false]
    rw [readType (d := d) (a := pre) hf h4 (hl4 hL), ok_bind]
  by_cases hT : d.IsId3
  · have n1 : d.1 ≠ ascii "fmt " := by rcases hT with h | h <;> rw [h] <;> decide
    have n2 : d.1 ≠ ascii "fact" := by rcases hT with h | h <;> rw [h] <;> decide
    have n3 : d.1 ≠ ascii "data" := by rcases hT with h | h <;> rw [h] <;> decide
    unfold plainStep
    rw [wavAudio_tag (.inr hT), ok_bind]
    refine Step.stay h4 fun c start => ?_
    unfold IffFiles.wavChunk
    simp only [n1, n2, n3, hL, ho, false_and, and_false, if_false, Bool.false_eq_true]
  · have hw := wav_step (o := { o with readTags := true }) rfl (its := fun _ => []) (d := d) ⟨hok, hl4, fun h => absurd h.1 hL⟩ t a
    have e : wavStep { o with readTags := true } (fun _ => []) a d = plainStep o a d := by
      unfold wavStep plainStep
      rw [if_neg (fun h => hL h.1), if_neg hT]
    rw [e] at hw
    have e2 : ∀ start c, IffFiles.wavChunk { o with readTags := true } t ⟨d.1, d.2.length, start⟩ c a =
        IffFiles.wavChunk o t ⟨d.1, d.2.length, start⟩ c a := by
      intro start c
      have hT' : ¬ (d.1 = ascii "ID3 " ∨ d.1 = ascii "id3 ") := hT
      unfold IffFiles.wavChunk
      simp only [hL, hT', if_false, false_and]
    intro f pre rest R start hf hlen
    have := hw f pre rest R start hf hlen
    simpa only [e2] using this

theorem readWav_plain {o : Opts} (ho : o.readTags = false) (cs : List Chunk) (hcs : ∀ d ∈ cs, d.Ok ∧ (d.1 = ascii "LIST" → 4 ≤ d.2.length))
    (hsz : (wav cs).length < 2 ^ 32) :
    IffFiles.readWav o (wav cs) = (do
      let a ← cs.foldlM (plainStep o) ⟨⟨0, 0, []⟩, [], none⟩
      wavDone o a (wav cs).length) := by
  rw [wav_length] at hsz
  have hv := verifyWav_wav cs [] (by omega)
  rw [List.append_nil] at hv
  have hs := wav_split cs []
  rw [List.append_nil] at hs
  unfold IffFiles.readWav
  rw [hv, ok_bind]
  simp only
  have hl := wav_length cs
  have hle := length_le_encAll false cs
  rw [show (wav cs).length - 12 = (encAll false cs).length by omega]
  have hpf := pend_fresh (Chunks.new (wav cs) 12 (encAll false cs).length) rfl rfl
  have hst := Steps.fold (fn := IffFiles.wavChunk o (encAll false cs).length) (t := (encAll false cs).length) (be := false) (plainStep o) cs
    ⟨⟨0, 0, []⟩, [], none⟩ (fun d hd => ⟨(hcs d hd).1, fun a => plain_step ho (hcs d hd).1 (hcs d hd).2 _ a⟩)
  rw [chunkLoop_steps hst ((encAll false cs).length + 1) (Chunks.new (wav cs) 12 (encAll false cs).length) _ [] (by omega) rfl rfl hs
    (by rw [wav_prefix_length]; exact hpf) (Nat.le_refl _)]
  cases cs.foldlM (plainStep o) ⟨⟨0, 0, []⟩, [], none⟩ with
  | error e => rfl
  | ok a =>
    rw [ok_bind, ok_bind, ok_bind]
    simp only
    unfold wavDone
    rw [wav_prefix_length, ← hl]

theorem fold_plain {o o' : Opts} (ho : o'.readProps = o.readProps) (its : Chunk → List Item) : ∀ (cs : List Chunk) (a a' b : WavAcc), b.audio = a.audio →
    cs.foldlM (wavStep o its) a = .ok a' → cs.foldlM (plainStep o') b = .ok { b with audio := a'.audio } := by
  intro cs
  induction cs with
  | nil =>
    intro a a' b hb h
    cases h
    rw [← hb]
    rfl
  | cons d cs ih =>
    intro a a' b hb h
    rw [List.foldlM_cons] at h ⊢
    obtain ⟨a1, h1, h⟩ := bind_ok h
    have step : plainStep o' b d = .ok { b with audio := a1.audio } := by
      unfold plainStep
      rw [ho, hb]
      unfold wavStep at h1
      split at h1
      · rename_i hI
        rw [wavAudio_tag (.inl hI.1)]
        cases h1
        rfl
      split at h1
      · rename_i hI
        rw [wavAudio_tag (.inr hI)]
        obtain ⟨t, -, h1⟩ := bind_ok h1
        cases h1
        rfl
      · obtain ⟨p, h2, h1⟩ := bind_ok h1
        rw [h2]
        cases h1
        rfl
    rw [step, ok_bind, ih a1 a' { b with audio := a1.audio } rfl h]

/-- **C76.** For WAV files, the same holds if they are made of well-formed chunks, the items of the INFO lists (given by `its`) included. -/
theorem wav_without_tags_partial (o : ReadOptions) (b : Bool) {cs : List Chunk} {its : Chunk → List Item} (hcs : ∀ d ∈ cs, WavReadable its d)
    (hsz : (wav cs).length < 2 ^ 32) {ts : List Tag} {p : Generic} (h : wholeAs o ⟨true, b⟩ (wav cs) .wav = .ok (ts, p)) :
    wholeAs o ⟨false, b⟩ (wav cs) .wav = .ok ([], p) := by
  change (IffFiles.readWav _ _).map _ = _ at h ⊢
  rw [readWav_chunks (o := o.with ⟨true, b⟩) rfl its cs hcs hsz] at h
  rw [readWav_plain (o := o.with ⟨false, b⟩) rfl cs (fun d hd => ⟨(hcs d hd).1, (hcs d hd).2.1⟩) hsz]
  cases hf : cs.foldlM (wavStep (o.with ⟨true, b⟩) its) ⟨⟨0, 0, []⟩, [], none⟩ with
  | error e => rw [hf] at h; cases h
  | ok a =>
    rw [hf, ok_bind] at h
    rw [fold_plain (o' := o.with ⟨false, b⟩) rfl its cs _ _ ⟨⟨0, 0, []⟩, [], none⟩ rfl hf, ok_bind]
    unfold wavDone at h ⊢
    cases b with
    | false =>
      cases h
      rfl
    | true =>
      rw [if_pos (by rfl)] at h ⊢
      simp only at h ⊢
      cases hl : Lossless.wav a.audio.fmt a.audio.samples a.audio.stream (wav cs).length with
      | error e => rw [hl] at h; cases h
      | ok q =>
        rw [hl] at h
        cases h
        rfl

end Lofty.Opened
