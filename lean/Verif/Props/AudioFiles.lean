import Verif.Model.AudioFiles
import Verif.Props.WavPack
import Verif.Props.FileTags
/-!
# C62: saving tags does not change what is reported about WavPack and Monkey's Audio
-/
namespace Lofty

theorem readN_more {n : ℕ} {r a r' : Bytes} (h : readN n r = .ok (a, r')) (t : Bytes) : readN n (r ++ t) = .ok (a, r' ++ t) := by
  obtain ⟨rfl, hl⟩ := readN_ok h
  rw [List.append_assoc]
  exact readN_append _ _ hl

theorem readLE_more {n v : ℕ} {r r' : Bytes} (h : readLE n r = .ok (v, r')) (t : Bytes) : readLE n (r ++ t) = .ok (v, r' ++ t) := by
  unfold readLE at h ⊢
  cases hr : readN n r with
  | error e => rw [hr] at h; cases h
  | ok x =>
    obtain ⟨a, r1⟩ := x
    rw [hr] at h
    rw [readN_more hr]
    cases h
    rfl

/-- Reading a number behind a gap. -/
theorem readLE_drop_more {n k v : ℕ} {r r' : Bytes} (hn : 0 < n) (h : readLE n (r.drop k) = .ok (v, r')) (t : Bytes) :
    readLE n ((r ++ t).drop k) = .ok (v, r' ++ t) := by
  have hk : k ≤ r.length := by
    by_contra hc
    rw [List.drop_eq_nil_of_le (by omega)] at h
    unfold readLE readN at h
    rw [if_neg (by simp; omega)] at h
    cases h
  rw [List.drop_append_of_le_length hk]
  exact readLE_more h t

namespace WavPack

theorem header_more {r : Bytes} {b : Block} (h : header r = .ok b) (t : Bytes) : header (r ++ t) = .ok b := by
  unfold header at h ⊢
  obtain ⟨⟨id, r1⟩, h1, h⟩ := bind_ok h
  rw [readN_more h1, ok_bind]
  simp only at h ⊢
  by_cases hid : id ≠ ascii "wvpk"
  · rw [if_pos hid] at h; cases h
  rw [if_neg hid] at h ⊢
  obtain ⟨⟨size, r2⟩, h2, h⟩ := bind_ok h
  rw [readLE_more h2, ok_bind]
  simp only at h ⊢
  by_cases hs : size < 24
  · rw [if_pos hs] at h; cases h
  rw [if_neg hs] at h ⊢
  by_cases hs : 1048576 < size
  · rw [if_pos hs] at h; cases h
  rw [if_neg hs] at h ⊢
  obtain ⟨⟨v, r3⟩, h3, h⟩ := bind_ok h
  rw [readLE_more h3, ok_bind]
  simp only at h ⊢
  obtain ⟨⟨tot, r4⟩, h4, h⟩ := bind_ok h
  rw [readLE_drop_more (by decide) h4, ok_bind]
  simp only at h ⊢
  obtain ⟨⟨sam, r5⟩, h5, h⟩ := bind_ok h
  rw [readLE_drop_more (by decide) h5, ok_bind]
  simp only at h ⊢
  obtain ⟨⟨fl, r6⟩, h6, h⟩ := bind_ok h
  rw [readLE_more h6, ok_bind]
  exact h

theorem subBlock_relax {strict : Bool} {id size : ℕ} {r : Bytes} {p q : Props} {x : Option (Bytes × ℕ)}
    (h : subBlock true id r size p = (q, .ok x)) : subBlock strict id r size p = (q, .ok x) := by
  cases strict with
  | true => exact h
  | false =>
    unfold subBlock at h ⊢
    by_cases h1 : id = 0x27
    · simp only [if_pos h1] at h ⊢
      exact h
    simp only [if_neg h1] at h ⊢
    by_cases h2 : id = 0xE
    · simp only [if_pos h2] at h ⊢
      by_cases h3 : size ≤ 1
      · rw [if_pos h3] at h
        cases h
      rw [if_neg h3] at h ⊢
      rw [sub_ok (by omega)] at h ⊢
      rcases readU8_cases r with hr | ⟨m, r1, hr, hl⟩
      · rw [hr] at h; cases h
      rw [hr] at h ⊢
      simp only at h ⊢
      by_cases h4 : 30 < m.toNat
      · rw [if_pos h4] at h
        cases h
      · rw [if_neg h4] at h ⊢
        exact h
    simp only [if_neg h2] at h ⊢
    exact h

theorem extended_relax {strict : Bool} (n : ℕ) (r : Bytes) (p q : Props) (h : extended true n r p = (q, .ok ())) : extended strict n r p = (q, .ok ()) := by
  induction n generalizing r p with
  | zero => cases h
  | succ n ih =>
    rw [extended] at h ⊢
    by_cases h2 : r.length < 2
    · rw [if_pos h2] at h ⊢
      exact h
    rw [if_neg h2] at h ⊢
    cases hh : subHeader r with
    | error e => rw [hh] at h; cases h
    | ok x =>
      obtain ⟨i, size, r1⟩ := x
      rw [hh] at h
      simp only at h ⊢
      by_cases h0 : size = 0
      · rw [if_pos h0] at h ⊢
        exact ih r1 p h
      rw [if_neg h0] at h ⊢
      by_cases h1 : r1.length < size
      · rw [if_pos h1] at h; cases h
      rw [if_neg h1] at h ⊢
      cases hs : sub size (if i &&& 0x40 ≠ 0 then 1 else 0) with
      | error e => rw [hs] at h; cases h
      | ok size' =>
        rw [hs] at h
        simp only at h ⊢
        cases hb : subBlock true (i &&& 0x3F).toNat r1 size' p with
        | mk q1 y =>
          rw [hb] at h
          cases y with
          | error e => cases h
          | ok z =>
            rw [subBlock_relax hb]
            cases z with
            | none => exact h
            | some z =>
              obtain ⟨r2, s2⟩ := z
              simp only at h ⊢
              by_cases h4 : r2.length < s2
              · rw [if_pos h4] at h; cases h
              rw [if_neg h4] at h ⊢
              by_cases ho : i &&& 0x40 ≠ 0
              · rw [if_pos ho] at h ⊢
                rcases readU8_cases (r2.drop s2) with hr | ⟨c, r4, hr, hl4⟩
                · rw [hr] at h; cases h
                · rw [hr] at h ⊢
                  exact ih r4 q1 h
              · rw [if_neg ho] at h ⊢
                exact ih _ q1 h

theorem stepBody_relax {strict : Bool} {b : Block} {p : Props} {total offset : ℕ} (h : ∀ e, stepBody true b p total offset ≠ .fail e) :
    stepBody strict b p total offset = stepBody true b p total offset := by
  cases strict with
  | true => rfl
  | false =>
    unfold stepBody at h ⊢
    simp only at h ⊢
    by_cases hc : b.flags &&& 0x800 = 0x800 ∧ (b.version < 0x402 ∨ 0x410 < b.version)
    · rw [if_pos hc] at h
      exact absurd rfl (h _)
    · rw [if_neg hc, if_neg hc]

theorem step_more {strict : Bool} {f : Bytes} {p : Props} {total offset : ℕ} (h : ∀ e, step true f p total offset ≠ .fail e) (t : Bytes) :
    step strict (f ++ t) p total offset = step true f p total offset := by
  unfold step at h ⊢
  cases hh : header (f.drop offset) with
  | error e =>
    rw [hh] at h
    exact absurd rfl (h e)
  | ok b =>
    rw [hh] at h
    have hlt : offset < f.length := by
      by_contra hn
      rw [List.drop_eq_nil_of_le (by omega)] at hh
      cases hh
    rw [List.drop_append_of_le_length (by omega), header_more hh]
    simp only at h ⊢
    by_cases hc : (b.flags >>> 23) &&& 0xF = 15 ∨ b.flags &&& 0x80000000 = 0x80000000
    · rw [if_pos hc] at h
      rw [if_pos hc, if_pos hc]
      cases hr : readAt f (offset + 32) (b.size - 24) with
      | error e => rw [hr] at h; exact absurd rfl (h e)
      | ok content =>
        have hr' : readAt (f ++ t) (offset + 32) (b.size - 24) = .ok content := by
          unfold readAt at hr ⊢
          by_cases hle : offset + 32 + (b.size - 24) ≤ f.length
          · rw [if_pos hle] at hr
            rw [if_pos (by rw [List.length_append]; omega), List.drop_append_of_le_length (by omega), List.take_append_of_le_length (by rw [List.length_drop]; omega)]
            exact hr
          · rw [if_neg hle] at hr; cases hr
        rw [hr] at h
        rw [hr']
        simp only at h ⊢
        cases he : extended true (content.length + 1) content { p with sampleRate := sampleRates.getD ((b.flags >>> 23) &&& 0xF) 0 } with
        | mk q y =>
          rw [he] at h
          cases y with
          | error e => exact absurd rfl (h e)
          | ok u =>
            rw [extended_relax _ _ _ _ he]
            simp only at h ⊢
            by_cases hz : (b.flags >>> 23) &&& 0xF = 15 ∧ q.sampleRate = 0
            · rw [if_pos hz] at h
              exact absurd rfl (h _)
            · rw [if_neg hz] at h
              rw [if_neg hz, if_neg hz]
              exact stepBody_relax h
    · rw [if_neg hc] at h
      rw [if_neg hc, if_neg hc]
      exact stepBody_relax h

theorem loop_more {strict : Bool} {f t : Bytes} (n : ℕ) (k : ℕ) (p : Props) (total offset : ℕ) {x : Props × ℕ} (h : loop true f n p total offset = .ok x) :
    loop strict (f ++ t) (n + k) p total offset = .ok x := by
  induction n generalizing p total offset with
  | zero => cases h
  | succ n ih =>
    rw [loop] at h
    have e : n + 1 + k = (n + k) + 1 := by omega
    rw [e, loop]
    cases hs : step true f p total offset with
    | fail e => rw [hs] at h; cases h
    | stop q t' =>
      rw [step_more (fun e he => by rw [hs] at he; cases he), hs]
      rw [hs] at h
      exact h
    | next q t' o =>
      rw [step_more (fun e he => by rw [hs] at he; cases he), hs]
      rw [hs] at h
      exact ih q t' o h

/-- C62: **what follows the audio does not matter**: if a file can be read strictly, everything but the bit rates is the same with anything behind it, and the audio bit
rate too, if the size of the audio is taken to be the same. -/
theorem wavpack_more {strict : Bool} {f : Bytes} {stream : ℕ} {p : Props} (h : readProperties true f stream = .ok p) (t : Bytes) :
    ∃ n, readProperties strict (f ++ t) stream = .ok { p with overall := n } := by
  unfold readProperties at h ⊢
  obtain ⟨⟨q, total⟩, h1, h⟩ := bind_ok h
  have hlen : (f ++ t).length + 1 = (f.length + 1) + t.length := by rw [List.length_append]; omega
  rw [hlen, loop_more _ _ _ _ _ h1, ok_bind]
  simp only at h ⊢
  by_cases hu : total = 2 ^ 32 - 1
  · rw [if_pos hu] at h ⊢
    cases h
    exact ⟨_, rfl⟩
  rw [if_neg hu] at h ⊢
  by_cases hz : total = 0 ∨ q.sampleRate = 0
  · rw [if_pos hz] at h; cases h
  rw [if_neg hz] at h ⊢
  obtain rfl := (Except.ok.injEq _ _).mp h
  exact ⟨_, rfl⟩

end WavPack

namespace Lossless

theorem macFinish_more {strict : Bool} {p q : Mac} {frames final perFrame stream file : ℕ} (h : macFinish strict p frames final perFrame stream file = .ok q) (file' : ℕ) :
    ∃ n, macFinish strict p frames final perFrame stream file' = .ok { q with overall := n } := by
  unfold macFinish macTimes at h ⊢
  by_cases hv : macValid frames p.channels = true
  · rw [if_pos hv] at h ⊢
    simp only at h ⊢
    by_cases hr : 0 < p.sampleRate
    · rw [if_pos hr] at h ⊢
      obtain rfl := (Except.ok.injEq _ _).mp h
      exact ⟨_, rfl⟩
    · rw [if_neg hr] at h ⊢
      cases h
      exact ⟨_, rfl⟩
  · rw [if_neg hv] at h ⊢
    cases strict with
    | true => cases h
    | false =>
      rw [if_neg (by decide)] at h ⊢
      cases h
      exact ⟨_, rfl⟩

/-- C62: the same of Monkey's Audio: what follows the header does not matter, and the size of the file only for the overall bit rate. -/
theorem mac_more {strict : Bool} {r : Bytes} {stream file : ℕ} {p : Mac} (h : mac strict r stream file = .ok p) (t : Bytes) (file' : ℕ) :
    ∃ n, mac strict (r ++ t) stream file' = .ok { p with overall := n } := by
  unfold mac at h ⊢
  cases hv : readLE 2 r with
  | error e => rw [hv] at h; cases h
  | ok x =>
    obtain ⟨version, r1⟩ := x
    rw [hv] at h
    rw [readLE_more hv]
    simp only at h ⊢
    by_cases hn : 3980 ≤ version
    · rw [if_pos hn] at h ⊢
      unfold macNew at h ⊢
      cases hd : readN 46 r1 with
      | error e => rw [hd] at h; cases h
      | ok x =>
        obtain ⟨d, r2⟩ := x
        rw [hd] at h
        rw [readN_more hd]
        simp only at h ⊢
        generalize fromLE ((d.drop 2).take 4) = len at h ⊢
        cases hh : readN 24 (if 52 < len then r2.drop (len - 52) else r2) with
        | error e => rw [hh] at h; cases h
        | ok x =>
          obtain ⟨hd, r3⟩ := x
          rw [hh] at h
          have hh' : readN 24 (if 52 < len then (r2 ++ t).drop (len - 52) else r2 ++ t) = .ok (hd, r3 ++ t) := by
            by_cases hl : 52 < len
            · rw [if_pos hl] at hh ⊢
              have hk : len - 52 ≤ r2.length := by
                by_contra hc
                rw [List.drop_eq_nil_of_le (by omega)] at hh
                cases hh
              rw [List.drop_append_of_le_length hk]
              exact readN_more hh t
            · rw [if_neg hl] at hh ⊢
              exact readN_more hh t
          rw [hh']
          simp only at h ⊢
          obtain ⟨⟨v1, q1⟩, e1, h⟩ := bind_ok h
          rw [e1, ok_bind]
          simp only at h ⊢
          obtain ⟨⟨v2, q2⟩, e2, h⟩ := bind_ok h
          rw [e2, ok_bind]
          simp only at h ⊢
          obtain ⟨⟨v3, q3⟩, e3, h⟩ := bind_ok h
          rw [e3, ok_bind]
          simp only at h ⊢
          obtain ⟨⟨v4, q4⟩, e4, h⟩ := bind_ok h
          rw [e4, ok_bind]
          simp only at h ⊢
          obtain ⟨⟨v5, q5⟩, e5, h⟩ := bind_ok h
          rw [e5, ok_bind]
          simp only at h ⊢
          obtain ⟨⟨v6, q6⟩, e6, h⟩ := bind_ok h
          rw [e6, ok_bind]
          exact macFinish_more h file'
    · rw [if_neg hn] at h ⊢
      unfold macOld at h ⊢
      cases hd : readN 26 r1 with
      | error e => rw [hd] at h; cases h
      | ok x =>
        obtain ⟨d, r2⟩ := x
        rw [hd] at h
        rw [readN_more hd]
        simp only at h ⊢
        obtain ⟨⟨v1, q1⟩, e1, h⟩ := bind_ok h
        rw [e1, ok_bind]
        simp only at h ⊢
        obtain ⟨⟨v2, q2⟩, e2, h⟩ := bind_ok h
        rw [e2, ok_bind]
        simp only at h ⊢
        obtain ⟨⟨v3, q3⟩, e3, h⟩ := bind_ok h
        rw [e3, ok_bind]
        simp only at h ⊢
        obtain ⟨⟨v4, q4⟩, e4, h⟩ := bind_ok h
        rw [e4, ok_bind]
        simp only at h ⊢
        obtain ⟨⟨v5, q5⟩, e5, h⟩ := bind_ok h
        rw [e5, ok_bind]
        simp only at h ⊢
        obtain ⟨⟨v6, q6⟩, e6, h⟩ := bind_ok h
        rw [e6, ok_bind]
        simp only at h ⊢
        obtain ⟨⟨v7, q7⟩, e7, h⟩ := bind_ok h
        rw [e7, ok_bind]
        exact macFinish_more h file'

end Lossless

namespace FileTags

/-- C62: **saving tags to a WavPack file does not change its properties**, other than the overall bit rate; the tags are those last saved. -/
theorem wavpack_saves_properties {o : Opts} (ho : o.readTags = true) (hp : o.readProps = true) {audio g : Bytes} (ha : Audio o audio) {p : WavPack.Props}
    (hP : WavPack.readProperties true audio audio.length = .ok p)
    (l : List Save) (hl : ∀ s ∈ l, s.Ok o audio) (h2 : ∀ fl w p fs, .id3v2 fl w p fs ∉ l) (hg : runAll o.junk l audio = .ok g) :
    ∃ m n, readWavPackFile o g = .ok (m, some { p with overall := n }) ∧
      (⟨m.id3v2, m.id3v1, m.ape⟩ : Tags) = l.foldl (Tags.after o) ⟨none, none, none⟩ := by
  have hlay := runAll_layout ha l audio g _ hl (layout_plain ha) hg
  have h := kept_id3v2 o l ⟨none, none, none⟩ h2
  generalize l.foldl (Tags.after o) ⟨none, none, none⟩ = t at h hlay ⊢
  have hread := readWavPack_layout ho ha hlay h
  have hmore : ∃ s, g = audio ++ s := by
    obtain ⟨lead, ape, v1, x, y, z, hx, hy, hz, hv⟩ := hlay
    simp only at h
    rcases lead_written hx with ⟨rfl, -⟩ | ⟨-, hn⟩
    · exact ⟨_, rfl⟩
    · exact absurd h hn
  obtain ⟨s, rfl⟩ := hmore
  obtain ⟨n, hn⟩ := WavPack.wavpack_more (strict := o.id3.mode = .strict) hP s
  refine ⟨⟨none, t.id3v1, t.ape, audio.length⟩, n, ?_, ?_⟩
  · unfold readWavPackFile
    rw [hread, ok_bind, if_pos hp]
    simp only
    rw [hn, ok_bind]
  · obtain ⟨a, b, c⟩ := t
    simp only at h
    subst h
    rfl

/-- C62: **saving tags to a Monkey's Audio file does not change its properties**, other than the overall bit rate; the tags are those last saved. -/
theorem mac_saves_properties {o : Opts} (ho : o.readTags = true) (hp : o.readProps = true) {audio g : Bytes} (ha : Audio o audio) (hm : audio.take 4 = ascii "MAC ")
    {p : Lossless.Mac} {file : ℕ} (hP : Lossless.mac (o.id3.mode = .strict) (audio.drop 4) audio.length file = .ok p)
    (l : List Save) (hl : ∀ s ∈ l, s.Ok o audio) (hg : runAll o.junk l audio = .ok g) :
    ∃ n d0, ∀ d, d0 ≤ d → ∃ m, readMacFile { o with depth := d } g = .ok (m, some { p with overall := n }) ∧
      (⟨m.id3v2, m.id3v1, m.ape⟩ : Tags) = l.foldl (Tags.after o) ⟨none, none, none⟩ := by
  have hlay := runAll_layout ha l audio g _ hl (layout_plain ha) hg
  generalize l.foldl (Tags.after o) ⟨none, none, none⟩ = t at hlay ⊢
  obtain ⟨d1, hread⟩ := readMac_layout ho ha hlay hm
  obtain ⟨lead, ape, v1, x, y, z, hx, hy, hz, hv⟩ := hlay
  obtain ⟨tl, ht1, -⟩ := tail_read (lead := lead) ho ha hy hz hv
  obtain ⟨r, r1, -⟩ := find_lead (suf := ape ++ v1) ho ha hx
  obtain ⟨n, hn⟩ := Lossless.mac_more hP (ape ++ v1) tl.pos
  refine ⟨n, d1, fun d hd => ⟨⟨x, z, y, audio.length⟩, ?_, rfl⟩⟩
  have htail : tail { o with depth := d } (lead ++ (audio ++ (ape ++ v1))) = tail o (lead ++ (audio ++ (ape ++ v1))) := rfl
  unfold readMacFile
  rw [hread d hd, ok_bind, if_pos hp]
  simp only
  rw [r1, ok_bind]
  simp only
  rw [htail, ht1, ok_bind]
  have hdrop : (lead ++ (audio ++ (ape ++ v1))).drop (lead.length + 4) = audio.drop 4 ++ (ape ++ v1) := by
    have := ha.long
    rw [← List.drop_drop, List.drop_left, List.drop_append_of_le_length (by omega)]
  rw [hdrop, hn, ok_bind]

/-! ## Examples -/

/-- A WavPack file of one block: ten seconds of stereo. -/
def wvFile : Bytes := (⟨0x410, [0, 0], 441000, 0, 22050, 9 * 2 ^ 23 + 0x1800 + 1, 7, List.replicate 200 5⟩ : WavPack.Blk).bytes

theorem wvFile_audio (a b : Bool) : Audio (exOpts a b) wvFile where
  long := by decide +kernel
  junk := by show 3 ≤ 100 ∧ 100 ≤ wvFile.length; decide +kernel
  start := by decide +kernel
  noId3v2 := noMarker_of_find (by show Id3v2.findInJunk (wvFile.take 100) = none; decide +kernel)
  noApe := by decide +kernel
  noApe8 := by decide +kernel
  noApeEnd := by decide +kernel
  noId3v1 := by unfold Id3v1.Tagged; decide +kernel

/-- A tag of each of the kinds a WavPack file can carry is saved to it: the properties are those of the file before. -/
example : ∃ g, runAll 100 [.id3v1 false { Id3v1.Tag.empty with title := some (str "a"), year := some 1999 }, .ape ⟨false, [⟨false, str "Album", .text (str "b")⟩]⟩] wvFile = .ok g ∧
    ∃ m n, readWavPackFile (exOpts true true) g = .ok (m, some ⟨0x410, 10000, n, 0, 44100, 2, 3, 16, true⟩) ∧
      m.ape = some ⟨false, [⟨false, str "Album", .text (str "b")⟩]⟩ ∧ m.id3v1 = some { Id3v1.Tag.empty with title := some (str "a"), year := some 1999 } := by
  have ha : ∀ t b, Ape.createTag t = .ok b →
      (((Ape.createTag t).toOption.getD []).length < 2 ^ 32 ∧ ¬ Id3v1.Tagged (wvFile ++ (Ape.createTag t).toOption.getD [])) →
      b.length < 2 ^ 32 ∧ ¬ Id3v1.Tagged (wvFile ++ b) := by
    intro t b hb h
    rw [hb] at h
    exact h
  generalize hl : [Save.id3v1 false { Id3v1.Tag.empty with title := some (str "a"), year := some 1999 }, Save.ape ⟨false, [⟨false, str "Album", .text (str "b")⟩]⟩] = l
  have hs : (runAll 100 l wvFile).toOption.isSome = true := by subst hl; decide +kernel
  rcases hg : runAll 100 l wvFile with e | g
  · rw [hg] at hs; simp [Except.toOption] at hs
  have hok : ∀ s ∈ l, s.Ok (exOpts true true) wvFile := by
    subst hl
    intro s hs
    simp only [List.mem_cons, List.not_mem_nil, or_false] at hs
    rcases hs with rfl | rfl
    · exact fun _ => by simp
    · refine .inr ⟨⟨by decide, ?_, ?_⟩, fun b hb => ha _ b hb (by unfold Id3v1.Tagged; decide +kernel)⟩
      · intro i hi
        simp only [List.mem_cons, List.not_mem_nil, or_false] at hi
        subst hi
        exact ⟨by decide +kernel, by decide +kernel⟩
      · unfold Ape.Distinct; simp
  obtain ⟨m, n, h1, h2⟩ := wavpack_saves_properties (o := exOpts true true) rfl rfl (wvFile_audio _ _)
    (p := ⟨0x410, 10000, 0, 0, 44100, 2, 3, 16, true⟩) (by decide +kernel) l hok (by subst hl; simp) hg
  refine ⟨g, rfl, m, n, h1, ?_⟩
  subst hl
  simp only [List.foldl_cons, List.foldl_nil, Tags.after, Tags.mk.injEq] at h2
  exact ⟨by rw [h2.2.2]; decide +kernel, by rw [h2.2.1]; decide +kernel⟩

/-- A Monkey's Audio file: one second of stereo. -/
def macFile : Bytes :=
  ascii "MAC " ++ Lossless.macHeader 3990 [0, 0] (List.replicate 40 0) [] 2000 0 294912 44100 1 16 2 44100 (List.replicate 200 5)

theorem macFile_audio (a b : Bool) : Audio (exOpts a b) macFile where
  long := by decide +kernel
  junk := by show 3 ≤ 100 ∧ 100 ≤ macFile.length; decide +kernel
  start := by decide +kernel
  noId3v2 := noMarker_of_find (by show Id3v2.findInJunk (macFile.take 100) = none; decide +kernel)
  noApe := by decide +kernel
  noApe8 := by decide +kernel
  noApeEnd := by decide +kernel
  noId3v1 := by unfold Id3v1.Tagged; decide +kernel

/-- The five saves of the example of C60: the properties are those of the file before. -/
example : ∃ g, runAll 100 someSaves macFile = .ok g ∧ ∃ n d0, ∀ d, d0 ≤ d → ∃ m,
    readMacFile { exOpts true true with depth := d } g = .ok (m, some ⟨3990, 1000, n, 2, 44100, 16, 2⟩) ∧
      m.id3v2 = some ⟨.v4, ⟨false, false, false, false, none⟩, Id3v2.sample⟩ := by
  have hs : (runAll 100 someSaves macFile).toOption.isSome = true := by decide +kernel
  rcases hg : runAll 100 someSaves macFile with e | g
  · rw [hg] at hs; simp [Except.toOption] at hs
  have hok : ∀ s ∈ someSaves, s.Ok (exOpts true true) macFile := by
    obtain ⟨h1, h2⟩ := Id3v2.sample_ok ⟨false, false, true⟩ .relaxed (.inr rfl)
    have ha : ∀ t b, Ape.createTag t = .ok b →
        (((Ape.createTag t).toOption.getD []).length < 2 ^ 32 ∧ ¬ Id3v1.Tagged (macFile ++ (Ape.createTag t).toOption.getD [])) →
        b.length < 2 ^ 32 ∧ ¬ Id3v1.Tagged (macFile ++ b) := by
      intro t b hb h
      rw [hb] at h
      exact h
    intro s hs
    simp only [someSaves, List.mem_cons, List.not_mem_nil, or_false] at hs
    rcases hs with rfl | rfl | rfl | rfl | rfl
    · exact fun _ => by simp
    · refine .inr ⟨rfl, rfl, rfl, rfl, h1, h2, fun b hb => ?_⟩
      have : ((Id3v2.createItems ⟨false, false, true⟩ Id3v2.sample).toOption.map List.length).getD 0 < 1000 := by decide +kernel
      rw [hb] at this
      have : b.length < 1000 := this
      simp; omega
    · exact .inr ⟨Ape.exampleTag_good, fun b hb => ha _ b hb (by unfold Id3v1.Tagged; decide +kernel)⟩
    · intro h; cases h
    · refine .inr ⟨⟨by decide, ?_, ?_⟩, fun b hb => ha _ b hb (by unfold Id3v1.Tagged; decide +kernel)⟩
      · intro i hi
        simp only [List.mem_cons, List.not_mem_nil, or_false] at hi
        subst hi
        exact ⟨by decide +kernel, by decide +kernel⟩
      · unfold Ape.Distinct; simp
  obtain ⟨n, d0, h0⟩ := mac_saves_properties (o := exOpts true true) rfl rfl (macFile_audio _ _) (by decide +kernel)
    (p := ⟨3990, 1000, 2, 2, 44100, 16, 2⟩) (file := macFile.length) (by decide +kernel) someSaves hok hg
  refine ⟨g, rfl, n, d0, fun d hd => ?_⟩
  obtain ⟨m, h1, h2⟩ := h0 d hd
  simp only [someSaves, List.foldl_cons, List.foldl_nil, Tags.after, Tags.mk.injEq] at h2
  exact ⟨m, h1, by rw [h2.1]; rfl⟩

/-! ## Disagreements -/

/-- A Monkey's Audio file of 300 bytes with 8 samples at 8000 Hz, so one millisecond. -/
def macTiny : Bytes :=
  ascii "MAC " ++ Lossless.macHeader 3990 [0, 0] (List.replicate 40 0) [] 2000 0 294912 8 1 16 2 8000 (List.replicate 224 5)

/-- Disagreement: the overall bit rate of a Monkey's Audio file is not computed from the size of the file, but from where the
search for an APE tag stopped: 24 bytes before the end.  Here 300 bytes in one millisecond are 2400 kilobits per second. -/
theorem mac_overall_short : macTiny.length = 300 ∧
    (readMacFile (exOpts true true) macTiny).map (fun x => x.2.map fun p => (p.duration, p.overall, p.audio)) = .ok (some (1, 2208, 2400)) := by decide +kernel

/-- Disagreement: a WavPack file can carry an ID3v2 tag in front, which is read; but the properties are looked for at the start of
the file and not behind the tag, so the file is either rejected or nothing is known about it. -/
theorem wavpack_behind_id3v2 :
    ((readWavPackFile { exOpts true true with id3 := Id3v2.opts .strict } (ascii "ID3" ++ [4, 0, 0, 0, 0, 0, 10] ++ List.replicate 10 0 ++ wvFile)).map fun _ => ()) = .error .unsupported ∧
    ((readWavPackFile (exOpts true true) (ascii "ID3" ++ [4, 0, 0, 0, 0, 0, 10] ++ List.replicate 10 0 ++ wvFile)).map fun x => x.2.map fun p => (p.duration, p.sampleRate, p.channels))
      = .ok (some (0, 0, 0)) ∧
    ((readWavPackFile (exOpts true true) wvFile).map fun x => x.2.map fun p => (p.duration, p.sampleRate, p.channels)) = .ok (some (10000, 44100, 2)) := by decide +kernel

end FileTags
end Lofty
