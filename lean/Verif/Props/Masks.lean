import Verif.Spec.Masks
import Verif.Props.Shown
/-!
# C93: the channel mask of a file names as many speakers as the file has channels

`wholeAs o w f t` is what is shown of the file `f` of type `t`: its tags and its properties (Model/Whole).
-/
namespace Lofty.Masks
open Item Opened FileTags Spec

/-- The properties say how many channels there are, and the mask, if there is one, names as many speakers. -/
def Agree (g : Generic) : Prop := ∀ m, g.mask = some m → g.channels = some (speakers m)

/-! ## The tables -/

/-- The mask of an Opus stream names the speakers of RFC 7845. -/
theorem opus_table {n m : Nat} (h : Channels.fromOpus n = some m) : Names m (rfc7845 n) ∧ speakers m = n ∧ 1 ≤ n ∧ n ≤ 8 := by
  unfold Channels.fromOpus at h
  split at h <;> first | (obtain rfl := Option.some.inj h; decide +kernel) | cases h

/-- All streams of one to eight channels have a mask. -/
theorem opus_total {n : Nat} (h : 1 ≤ n ∧ n ≤ 8) : (Channels.fromOpus n).isSome = true := by
  have : ∀ k < 9, 1 ≤ k → (Channels.fromOpus k).isSome = true := by decide
  exact this n (by omega) h.1

/-- The mask of a channel configuration of AAC names the speakers of the standard, except of the fourth. -/
theorem aac_table {n m : Nat} (hn : n ≠ 4) (h : Channels.fromMp4 n = some m) : Names m (iso14496 n) := by
  unfold Channels.fromMp4 at h
  split at h <;> first | exact absurd rfl hn | (obtain rfl := Option.some.inj h; decide +kernel) | cases h

/-- The fourth has two speakers in the back instead of one in the front and one in the back. -/
theorem aac_four : ∃ m, Channels.fromMp4 4 = some m ∧ ¬ Names m (iso14496 4) ∧
    Names m [.frontLeft, .frontRight, .backLeft, .backRight] := ⟨_, rfl, by decide +kernel⟩

theorem aac_count {n m : Nat} (hn : n ≠ 7) (h : Channels.fromMp4 n = some m) : speakers m = n := by
  unfold Channels.fromMp4 at h
  split at h <;> first | exact absurd rfl hn | (obtain rfl := Option.some.inj h; decide +kernel) | cases h

/-! ## Files -/

/-- C93: every Opus file that can be opened shows a mask, with the speakers of RFC 7845 for its number of channels. -/
theorem opus_mask {o : ReadOptions} {tags : Bool} {f : Bytes} {ts : List Tag} {g : Generic}
    (h : wholeAs o ⟨tags, true⟩ f .opus = .ok (ts, g)) :
    ∃ n m, g.channels = some n ∧ g.mask = some m ∧ Names m (rfc7845 n) ∧ speakers m = n := by
  change wholeOgg o ⟨tags, true⟩ f .opus = _ at h
  unfold wholeOgg at h
  obtain ⟨hd, -, h⟩ := bind_ok h
  obtain ⟨v, -, h⟩ := bind_ok h
  simp only [if_true] at h
  obtain ⟨p, hp, h⟩ := bind_ok h
  have e := (Prod.mk.injEq .. ▸ (Except.ok.injEq _ _).mp h).2
  subst e
  unfold oggProps at hp
  simp only at hp
  cases hq : OggProps.opusProperties hd (OggProps.findLastPage f hd.stop) f.length with
  | error e => rw [hq] at hp; cases hp
  | ok q =>
    rw [hq] at hp
    obtain rfl : Generic.ofOpus q = p := (Except.ok.injEq _ _).mp hp
    unfold OggProps.opusProperties at hq
    obtain ⟨i, -, hq⟩ := bind_ok hq
    split at hq
    · cases hq
    · split at hq
      · cases hq
      · rename_i m hm
        have ht := opus_table hm
        have hz : m ≠ 0 := by
          rintro rfl
          have h2 := ht.2.1
          have h3 := ht.2.2.1
          have : speakers 0 = 0 := by decide
          omega
        have key : q.channels = i.channels ∧ q.mask = m := by
          split at hq
          · obtain rfl := (Except.ok.injEq _ _).mp hq; exact ⟨rfl, rfl⟩
          · obtain ⟨⟨d, ov, a⟩, -, hq⟩ := bind_ok hq
            obtain rfl := (Except.ok.injEq _ _).mp hq; exact ⟨rfl, rfl⟩
        refine ⟨i.channels, m, ?_, ?_, ht.1, ht.2.1⟩
        · show some q.channels = _; rw [key.1]
        · show (if q.mask = 0 then none else some q.mask) = _
          rw [key.2, if_neg hz]

theorem mpeg_channels {f : Bytes} {first : Mpeg.Header} {a b : Nat} {v : Option Mpeg.Vbr} {p : Mpeg.Props}
    (h : Mpeg.readProperties f first a b v = .ok p) : p.channels = Mpeg.channelsOf first := by
  have rest : ∀ cbr, Mpeg.readProperties.rest f first a b cbr = .ok p → p.channels = Mpeg.channelsOf first := by
    intro cbr h
    unfold Mpeg.readProperties.rest at h
    split at h
    · cases h; rfl
    · obtain ⟨x, -, h⟩ := bind_ok h
      split at h
      · cases h; rfl
      · unfold Mpeg.cbrProperties at h
        simp only at h
        split at h
        · cases h; rfl
        · obtain ⟨_, -, h⟩ := bind_ok h
          obtain ⟨_, -, h⟩ := bind_ok h
          cases h; rfl
  unfold Mpeg.readProperties at h
  split at h
  · split at h
    · unfold Mpeg.vbrProperties at h
      obtain ⟨_, -, h⟩ := bind_ok h
      obtain ⟨_, -, h⟩ := bind_ok h
      obtain ⟨_, -, h⟩ := bind_ok h
      obtain ⟨_, -, h⟩ := bind_ok h
      obtain ⟨_, -, h⟩ := bind_ok h
      obtain ⟨_, -, h⟩ := bind_ok h
      obtain ⟨_, -, h⟩ := bind_ok h
      cases h; rfl
    · exact rest _ h
  · exact rest _ h

/-- C93: every MPEG file that can be opened with its properties. -/
theorem mpeg_mask {o : ReadOptions} {tags : Bool} {f : Bytes} {ts : List Tag} {g : Generic}
    (h : wholeAs o ⟨tags, true⟩ f .mpeg = .ok (ts, g)) : Agree g := by
  change wholeMpeg o ⟨tags, true⟩ f = _ at h
  unfold wholeMpeg at h
  obtain ⟨m, hm, h⟩ := bind_ok h
  unfold readMpeg at hm
  simp only at hm
  split at hm
  · cases hm
  · obtain ⟨⟨st, first⟩, hfront, hm⟩ := bind_ok hm
    obtain ⟨t, -, hm⟩ := bind_ok hm
    obtain ⟨⟨ape, last⟩, -, hm⟩ := bind_ok hm
    have : (o.with ⟨tags, true⟩).readProps = true := rfl
    simp only [this, if_true] at hm
    obtain ⟨p, hp, hm⟩ := bind_ok hm
    obtain rfl := (Except.ok.injEq _ _).mp hm
    simp only at h
    rw [hfront, ok_bind] at h
    cases first with
    | none => cases h
    | some x =>
      obtain ⟨hd, off⟩ := x
      have e := (Prod.mk.injEq .. ▸ (Except.ok.injEq _ _).mp h).2
      subst e
      have hc : p.channels = Mpeg.channelsOf hd := by
        unfold mpegProps at hp
        simp only at hp
        split at hp
        · cases hp
        · obtain ⟨_, -, hp⟩ := bind_ok hp
          obtain ⟨_, -, hp⟩ := bind_ok hp
          exact mpeg_channels hp
      intro m hmask
      change modeMask hd.channelMode = some m at hmask
      change some p.channels = _
      rw [hc]
      unfold Mpeg.channelsOf
      cases hcm : hd.channelMode <;> rw [hcm] at hmask <;> first | (obtain rfl := Option.some.inj hmask; decide +kernel) | cases hmask

/-- C93: every AAC file that can be opened with its properties, unless it has the channel configuration 7. -/
theorem aac_mask_partial {o : ReadOptions} {tags : Bool} {f : Bytes} {ts : List Tag} {g : Generic}
    (h : wholeAs o ⟨tags, true⟩ f .aac = .ok (ts, g)) (h7 : g.channels ≠ some 7) : Agree g := by
  change wholeAac o ⟨tags, true⟩ f = _ at h
  unfold wholeAac at h
  obtain ⟨m, hm, h⟩ := bind_ok h
  simp only at h
  split at h
  · have e := (Prod.mk.injEq .. ▸ (Except.ok.injEq _ _).mp h).2
    subst e
    intro m hm; cases hm
  · obtain ⟨st, -, h⟩ := bind_ok h
    split at h
    · cases h
    · rename_i hd _ _
      have e := (Prod.mk.injEq .. ▸ (Except.ok.injEq _ _).mp h).2
      subst e
      intro m hm
      change Channels.fromMp4 hd.channels = some m at hm
      change some hd.channels = _
      rw [aac_count (fun e => h7 (by show some hd.channels = _; rw [e])) hm]

open Lofty.WavPack in
/-- C93: WavPack files of one or two channels, whatever blocks without samples come first and whatever follows. -/
theorem wavpack_mask_partial {o : ReadOptions} {tags : Bool} {pre : List Blk} {b : Blk}
    (hpre : ∀ x ∈ pre, x.Ok ∧ x.standard ∧ (x.initial = true → x.supported) ∧ x.samples = 0)
    (hok : b.Ok) (hst : b.standard) (hsup : b.supported) (hi : b.initial = true) (hf : b.final = true) (hs : b.samples ≠ 0)
    (ht : 0 < b.total ∧ b.total < 2 ^ 32 - 1) {f t : Bytes} (hfile : f = concat pre ++ (b.bytes ++ t)) {ts : List Tag} {g : Generic}
    (h : wholeAs o ⟨tags, true⟩ f .wavPack = .ok (ts, g)) : g.mask.isSome = true ∧ Agree g := by
  obtain ⟨x, y, rfl, -⟩ := wavpack_shown hpre hok hst hsup hi hf hs ht hfile h
  refine ⟨rfl, ?_⟩
  intro m hm
  obtain rfl := Option.some.inj hm
  show some (if b.mono then 1 else 2) = _
  cases b.mono <;> decide +kernel

theorem readFmt_mask {b : Bytes} {x : Lossless.Fmt} {v m : Nat} (h : Lossless.readFmt b = .ok x) (hm : x.extensible = some (v, m)) :
    fromLE (b.take 2) = 0xFFFE ∧ m = fromLE ((b.drop 20).take 4) := by
  unfold Lossless.readFmt at h
  obtain ⟨⟨n1, r1⟩, h1, h⟩ := bind_ok h
  obtain ⟨⟨n2, r2⟩, h2, h⟩ := bind_ok h
  obtain ⟨⟨n3, r3⟩, h3, h⟩ := bind_ok h
  obtain ⟨⟨n4, r4⟩, h4, h⟩ := bind_ok h
  obtain ⟨⟨n5, r5⟩, h5, h⟩ := bind_ok h
  obtain ⟨⟨n6, r6⟩, h6, h⟩ := bind_ok h
  simp only at h1 h2 h3 h4 h5 h6 h
  split at h
  · rename_i hf
    split at h
    · cases h
    · obtain ⟨⟨n7, r7⟩, h7, h⟩ := bind_ok h
      obtain ⟨⟨n8, r8⟩, h8, h⟩ := bind_ok h
      obtain ⟨⟨n9, r9⟩, h9, h⟩ := bind_ok h
      obtain ⟨⟨n10, r10⟩, -, h⟩ := bind_ok h
      simp only at h7 h8 h9 h
      obtain rfl := (Except.ok.injEq _ _).mp h
      obtain ⟨a1, rfl, l1, e1⟩ := readLE_ok h1
      obtain ⟨a2, rfl, l2, -⟩ := readLE_ok h2
      obtain ⟨a3, rfl, l3, -⟩ := readLE_ok h3
      obtain ⟨a4, rfl, l4, -⟩ := readLE_ok h4
      obtain ⟨a5, rfl, l5, -⟩ := readLE_ok h5
      obtain ⟨a6, rfl, l6, -⟩ := readLE_ok h6
      obtain ⟨a7, rfl, l7, -⟩ := readLE_ok h7
      obtain ⟨a8, rfl, l8, -⟩ := readLE_ok h8
      obtain ⟨a9, rfl, l9, e9⟩ := readLE_ok h9
      have hm' := (Prod.mk.injEq .. ▸ Option.some.inj hm).2
      subst hm'
      constructor
      · rw [← l1, List.take_left, ← e1]; exact hf
      · rw [e9]
        have e : ∀ t : Bytes, a1 ++ (a2 ++ (a3 ++ (a4 ++ (a5 ++ (a6 ++ (a7 ++ (a8 ++ t))))))) = (a1 ++ a2 ++ a3 ++ a4 ++ a5 ++ a6 ++ a7 ++ a8) ++ t := by
          intro t; simp only [List.append_assoc]
        rw [e, List.drop_left' (by simp only [List.length_append]; omega), ← l9, List.take_left]
  · obtain rfl := (Except.ok.injEq _ _).mp h
    cases hm

/-- The mask of a WAV file is what the bytes 20 to 23 of its format chunk say, if that chunk says that it has them, whatever
the number of channels is. -/
theorem wav_mask_field {fmt : Bytes} {a b c : Nat} {p : Lossless.Wav} {m : Nat} (h : Lossless.wav fmt a b c = .ok p) (hm : p.mask = some m) :
    fromLE (fmt.take 2) = 0xFFFE ∧ m = fromLE ((fmt.drop 20).take 4) := by
  unfold Lossless.wav at h
  split at h
  · cases h
  split at h
  · cases h
  obtain ⟨x, hx, h⟩ := bind_ok h
  split at h
  · cases h
  split at h
  · cases h
  dsimp only at h
  split at h
  · cases h
  obtain ⟨⟨d, o, u⟩, -, h⟩ := bind_ok h
  obtain rfl := (Except.ok.injEq _ _).mp h
  change x.extensible.map (·.2) = some m at hm
  cases he : x.extensible with
  | none => rw [he] at hm; cases hm
  | some vm =>
    obtain ⟨v, m'⟩ := vm
    rw [he] at hm
    obtain rfl := Option.some.inj hm
    exact readFmt_mask hx he

/-- The formats that have no mask. -/
theorem no_mask {o : ReadOptions} {w : Wanted} {f : Bytes} {t : FileType} {ts : List Tag} {g : Generic}
    (ht : t ∈ [FileType.aiff, .ape, .flac, .vorbis, .speex, .mp4, .mpc]) (h : wholeAs o w f t = .ok (ts, g)) : g.mask = none := by
  have map : ∀ {α : Type} {x : Except Err α} {k : α → Shown}, x.map k = .ok (ts, g) → ∃ a, g = (k a).2 := by
    intro α x k h
    cases x with
    | error e => cases h
    | ok a => exact ⟨a, by rw [show k a = (ts, g) from (Except.ok.injEq _ _).mp h]⟩
  have elim : ∀ {α : Type} (u : Generic) (k : α → Generic) (x : Option α), u.mask = none → (∀ a, (k a).mask = none) → (x.elim u k).mask = none := by
    intro α u k x hu hk; cases x; exacts [hu, hk _]
  have ogg : ∀ fmt, fmt ≠ .opus → wholeOgg o w f fmt = .ok (ts, g) → g.mask = none := by
    intro fmt hne h
    unfold wholeOgg at h
    obtain ⟨hd, -, h⟩ := bind_ok h
    obtain ⟨v, -, h⟩ := bind_ok h
    simp only at h
    split at h
    · obtain ⟨p, hp, h⟩ := bind_ok h
      have e := (Prod.mk.injEq .. ▸ (Except.ok.injEq _ _).mp h).2
      subst e
      unfold oggProps at hp
      have mapg : ∀ {α : Type} {x : Except Err α} {k : α → Generic}, x.map k = .ok p → ∃ a, p = k a := by
        intro α x k h
        cases x with
        | error e => cases h
        | ok a => exact ⟨a, ((Except.ok.injEq _ _).mp h).symm⟩
      cases fmt with
      | opus => exact absurd rfl hne
      | vorbis => obtain ⟨a, rfl⟩ := mapg hp; rfl
      | speex => obtain ⟨a, rfl⟩ := mapg hp; rfl
    · have e := (Prod.mk.injEq .. ▸ (Except.ok.injEq _ _).mp h).2
      subst e
      cases fmt with
      | opus => exact absurd rfl hne
      | vorbis => rfl
      | speex => rfl
  simp only [List.mem_cons, List.not_mem_nil, or_false] at ht
  rcases ht with rfl | rfl | rfl | rfl | rfl | rfl | rfl
  · obtain ⟨a, rfl⟩ := map h; exact elim _ _ _ rfl fun _ => rfl
  · obtain ⟨a, rfl⟩ := map h; exact elim _ _ _ rfl fun _ => rfl
  · change wholeFlac o w f = _ at h
    unfold wholeFlac at h
    obtain ⟨_, -, h⟩ := bind_ok h
    obtain ⟨_, -, h⟩ := bind_ok h
    obtain ⟨_, -, h⟩ := bind_ok h
    split at h
    · cases h
    · obtain ⟨_, -, h⟩ := bind_ok h
      simp only at h
      split at h
      · obtain ⟨p, hp, h⟩ := bind_ok h
        have e := (Prod.mk.injEq .. ▸ (Except.ok.injEq _ _).mp h).2
        subst e
        unfold flacProps at hp
        split at hp
        · cases hp
        · cases hl : Lossless.flac _ _ _ with
          | error e => rw [hl] at hp; cases hp
          | ok q => rw [hl] at hp; obtain rfl := (Except.ok.injEq _ _).mp hp; rfl
      · have e := (Prod.mk.injEq .. ▸ (Except.ok.injEq _ _).mp h).2
        subst e; rfl
  · exact ogg _ (by simp) h
  · exact ogg _ (by simp) h
  · change wholeMp4 o w f = _ at h
    unfold wholeMp4 at h
    obtain ⟨⟨_, t, p⟩, -, h⟩ := bind_ok h
    have e := (Prod.mk.injEq .. ▸ (Except.ok.injEq _ _).mp h).2
    subst e
    exact elim _ _ _ rfl fun _ => rfl
  · change wholeMpc o w f = _ at h
    unfold wholeMpc at h
    obtain ⟨_, -, h⟩ := bind_ok h
    simp only at h
    split at h
    · obtain ⟨_, -, h⟩ := bind_ok h
      obtain ⟨q, -, h⟩ := bind_ok h
      have e := (Prod.mk.injEq .. ▸ (Except.ok.injEq _ _).mp h).2
      subst e
      cases q <;> rfl
    · have e := (Prod.mk.injEq .. ▸ (Except.ok.injEq _ _).mp h).2
      subst e; rfl

/-! ## Cases -/

/-- An AAC file with another channel configuration. -/
def aacOf (n : UInt8) : Bytes :=
  let frame : UInt8 → Bytes := fun b => [0xFF, 0xF1, 0x60 + n / 4, (n % 4) * 64, 12, 0x9F, 0xFC] ++ List.replicate 93 b
  frame 1 ++ (frame 2 ++ frame 3)

/-- C93 is false of AAC files with eight channels (configuration 7): seven channels are shown, and eight speakers. -/
theorem aac_seven : ∃ ts g m, wholeAs exShown ⟨true, true⟩ (aacOf 7) .aac = .ok (ts, g) ∧ g.channels = some 7 ∧ g.mask = some m ∧
    Names m (iso14496 7) ∧ speakers m = 8 ∧ ¬ Agree g := by
  obtain ⟨⟨ts, g⟩, h⟩ := opened (x := wholeAs exShown ⟨true, true⟩ (aacOf 7) .aac) (by decide +kernel)
  have e : (wholeAs exShown ⟨true, true⟩ (aacOf 7) .aac).toOption.map (fun x => (x.2.channels, x.2.mask)) = some (some 7, some 1599 ) := by
    decide +kernel
  rw [h] at e
  have e' := Option.some.inj e
  have e1 : g.channels = some 7 := congrArg Prod.fst e'
  have e2 : g.mask = some 1599 := congrArg Prod.snd e'
  refine ⟨ts, g, _, h, e1, e2, by decide +kernel, by decide +kernel, fun k => ?_⟩
  have := k _ e2
  rw [e1] at this
  revert this
  decide +kernel

/-- A WAV file with one channel that names two speakers. -/
def wavOf : Bytes :=
  Iff.wav [(ascii "fmt ", Lossless.fmtChunk 0xFFFE 1 8 8 1 8 (Lossless.fmtExtra 8 3 1 (List.replicate 14 0))), (ascii "data", List.replicate 16 0)]

/-- C93 is false of WAV files, of which the mask is shown unchecked. -/
theorem wav_unchecked : ∃ ts g, wholeAs exShown ⟨true, true⟩ wavOf .wav = .ok (ts, g) ∧ g.channels = some 1 ∧ g.mask = some 3 ∧ ¬ Agree g := by
  obtain ⟨⟨ts, g⟩, h⟩ := opened (x := wholeAs exShown ⟨true, true⟩ wavOf .wav) (by decide +kernel)
  have e : (wholeAs exShown ⟨true, true⟩ wavOf .wav).toOption.map (fun x => (x.2.channels, x.2.mask)) = some (some 1, some 3) := by
    decide +kernel
  rw [h] at e
  have e' := Option.some.inj e
  have e1 : g.channels = some 1 := congrArg Prod.fst e'
  have e2 : g.mask = some 3 := congrArg Prod.snd e'
  refine ⟨ts, g, h, e1, e2, fun k => ?_⟩
  have := k _ e2
  rw [e1] at this
  revert this
  decide +kernel

/-- C93 is false of MPEG files of which the properties are not read: no channels, but two speakers. -/
theorem mpeg_unread {o : ReadOptions} {tags : Bool} {f : Bytes} {ts : List Tag} {g : Generic}
    (h : wholeAs o ⟨tags, false⟩ f .mpeg = .ok (ts, g)) : g.channels = some 0 ∧ g.mask = some Channels.stereo ∧ speakers Channels.stereo = 2 := by
  change wholeMpeg o ⟨tags, false⟩ f = _ at h
  unfold wholeMpeg at h
  obtain ⟨m, hm, h⟩ := bind_ok h
  have hp : m.props = none := by
    unfold readMpeg at hm
    simp only at hm
    split at hm
    · cases hm
    · obtain ⟨_, -, hm⟩ := bind_ok hm
      obtain ⟨_, -, hm⟩ := bind_ok hm
      obtain ⟨_, -, hm⟩ := bind_ok hm
      have : (o.with ⟨tags, false⟩).readProps = false := rfl
      simp only [this, Bool.false_eq_true, if_false] at hm
      obtain rfl := (Except.ok.injEq _ _).mp hm
      rfl
  simp only [hp] at h
  have e := (Prod.mk.injEq .. ▸ (Except.ok.injEq _ _).mp h).2
  subst e
  exact ⟨rfl, rfl, by decide +kernel⟩

/-- Four channels of AAC: as many speakers as channels, but the wrong ones. -/
example : ∃ ts g, wholeAs exShown ⟨true, true⟩ (aacOf 4) .aac = .ok (ts, g) ∧ g.channels = some 4 ∧ Agree g ∧ g.mask = some 51 := by
  obtain ⟨⟨ts, g⟩, h⟩ := opened (x := wholeAs exShown ⟨true, true⟩ (aacOf 4) .aac) (by decide +kernel)
  have e : (wholeAs exShown ⟨true, true⟩ (aacOf 4) .aac).toOption.map (fun x => (x.2.channels, x.2.mask)) = some (some 4, some 51) := by
    decide +kernel
  rw [h] at e
  have e' := Option.some.inj e
  have e1 : g.channels = some 4 := congrArg Prod.fst e'
  exact ⟨ts, g, h, e1, aac_mask_partial h (by rw [e1]; decide), congrArg Prod.snd e'⟩

example : (wholeAs exShown ⟨true, true⟩ OggWrite.opus .opus).toOption.isSome = true := by decide +kernel
example : (wholeAs exShown ⟨true, true⟩ FileTags.threeFrames .mpeg).toOption.map (fun x => (x.2.channels, x.2.mask)) = some (some 1, some 4) := by decide +kernel

end Lofty.Masks
