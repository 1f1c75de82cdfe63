import Verif.Props.ExperimentalHeader
import Verif.Props.ExtendedHeader
/-!
# C23: files with an ID3v2.3 tag saved with the experimental flag
-/
namespace Lofty.Id3v2

/-- Nothing, or at least four bytes of which the first is 16 or more. -/
def FrameFirst (b : Bytes) : Prop := b = [] ∨ ∃ b0 b1 b2 b3 r, b = b0 :: b1 :: b2 :: b3 :: r ∧ 16 ≤ b0.toNat

theorem FrameFirst.append {a b : Bytes} (ha : FrameFirst a) (hb : FrameFirst b) : FrameFirst (a ++ b) := by
  rcases ha with rfl | ⟨b0, b1, b2, b3, r, rfl, h⟩
  · exact hb
  · exact .inr ⟨b0, b1, b2, b3, r ++ b, rfl, h⟩

theorem writeFrame_first {o : WriteOpts} {name : Str} {flags : FrameFlags} {value b : Bytes} (hid : IdOk name)
    (hw : writeFrame o name flags value = .ok b) : FrameFirst b := by
  have hu : ∃ b0 b1 b2 b3, utf8 name = [b0, b1, b2, b3] ∧ 16 ≤ b0.toNat := by
    have hu : utf8 name = name.map fun c => UInt8.ofNat c.toNat :=
      utf8_ascii name fun c hc => by have := idChar_range (hid.2 c hc); omega
    obtain ⟨hl, hc⟩ := hid
    match name, hl, hc, hu with
    | [w, x, y, z], _, hc, hu =>
      refine ⟨_, _, _, _, hu, ?_⟩
      have := idChar_range (hc w (by simp))
      rw [UInt8.toNat_ofNat']
      omega
  obtain ⟨b0, b1, b2, b3, hu, h16⟩ := hu
  have hh : ∀ {len : Nat} {h : Bytes}, writeFrameHeader o.v23 name len flags = .ok h → ∃ r, h = b0 :: b1 :: b2 :: b3 :: r := by
    intro len h hw
    unfold writeFrameHeader at hw
    split at hw
    · cases hw; rw [hu]; exact ⟨_, rfl⟩
    · split at hw
      · cases hw; rw [hu]; exact ⟨_, rfl⟩
      · cases hw
  unfold writeFrame at hw
  split at hw
  · unfold writeEncrypted at hw
    split at hw
    · cases hw
    · split at hw
      · cases hw
      · split at hw
        · cases hw
        · obtain ⟨h, h1, h2⟩ := bind_ok hw
          obtain ⟨l, _, h3⟩ := bind_ok h2
          cases h3
          obtain ⟨r, rfl⟩ := hh h1
          exact .inr ⟨b0, b1, b2, b3, _, rfl, h16⟩
  · split at hw
    · obtain ⟨h, h1, h2⟩ := bind_ok hw
      cases h2
      obtain ⟨r, rfl⟩ := hh h1
      exact .inr ⟨b0, b1, b2, b3, _, rfl, h16⟩
    · split at hw
      · cases hw
      · obtain ⟨h, h1, h2⟩ := bind_ok hw
        cases h2
        obtain ⟨r, rfl⟩ := hh h1
        exact .inr ⟨b0, b1, b2, b3, _, rfl, h16⟩

theorem writeLeaves_first {o : WriteOpts} {flags : FrameFlags} : ∀ (l : List Content) (b : Bytes), (∀ c ∈ l, IdOk c.id.asStr) →
    writeLeaves o flags l = .ok b → FrameFirst b
  | [], b, _, h => by
    unfold writeLeaves at h
    cases h
    exact .inl rfl
  | c :: l, b, hl, h => by
    unfold writeLeaves at h
    obtain ⟨v, -, h⟩ := bind_ok h
    obtain ⟨b1, hb, h⟩ := bind_ok h
    obtain ⟨r, hr, h⟩ := bind_ok h
    cases h
    exact (writeFrame_first (hl c (by simp)) hb).append (writeLeaves_first l r (fun c hc => hl c (by simp [hc])) hr)

theorem prepare_replace {o : WriteOpts} {f : Frame} {l : List Content} (hf : IdOk f.id.asStr) (h : prepare o f = .replace l) :
    ∀ c ∈ l, IdOk c.id.asStr := by
  unfold prepare at h
  split at h
  · cases h
  split at h
  · cases h
  split at h
  · cases h
  split at h
  · unfold stepV3 at h
    split at h
    · split at h
      · split at h
        · split at h
          · cases h
            intro c hc
            rw [List.mem_singleton] at hc
            subst hc
            show IdOk (str "TORY")
            decide
          · cases h
        · cases h
      · split at h
        · split at h
          · split at h
            · cases h
              intro c hc
              obtain ⟨t, ht, rfl⟩ := List.mem_map.mp hc
              show IdOk t.id.asStr
              unfold splitTdrc splitTdrc.date splitTdrc.time at ht
              rcases List.mem_cons.mp ht with rfl | ht
              · show IdOk (str "TYER"); decide
              rcases List.mem_append.mp ht with ht | ht
              · split at ht
                · rw [List.mem_singleton] at ht
                  subst ht
                  show IdOk (str "TDAT"); decide
                · cases ht
              · split at ht
                · rw [List.mem_singleton] at ht
                  subst ht
                  show IdOk (str "TIME"); decide
                · cases ht
            · cases h
          · cases h
        · split at h
          · split at h
            · cases h
              intro c hc
              rw [List.mem_singleton] at hc
              subst hc
              exact hf
            · cases h
          · split at h
            · split at h <;> cases h
            · cases h
    · cases h
  · cases h

/-- The contents of a tag of frames with proper identifiers are empty or begin with a frame. -/
theorem createItems_first {o : WriteOpts} {fs : List Frame} {b : Bytes} (hf : ∀ f ∈ fs, IdOk f.id.asStr) (h : createItems o fs = .ok b) :
    FrameFirst b := by
  have key : ∀ (fs : List Frame) (root : Bool) (p : Option TextF) (b : Bytes), (∀ f ∈ fs, IdOk f.id.asStr) →
      itemsFrom o root p fs = .ok b → FrameFirst b := by
    intro fs
    induction fs with
    | nil =>
      intro root p b _ h
      rw [itemsFrom] at h
      unfold writePeople at h
      split at h
      · cases h; exact .inl rfl
      · obtain ⟨v, -, h⟩ := bind_ok h
        exact writeFrame_first (by decide) h
    | cons f fs ih =>
      intro root p b hf h
      have hfs : ∀ g ∈ fs, IdOk g.id.asStr := fun g hg => hf g (by simp [hg])
      have hf := hf f (by simp)
      rw [itemsFrom] at h
      cases hp : prepare o f with
      | skip => rw [hp] at h; exact ih _ _ _ hfs h
      | refuse => rw [hp] at h; cases h
      | people e pairs => rw [hp] at h; exact ih _ _ _ hfs h
      | replace l =>
        rw [hp] at h
        obtain ⟨b1, hb, h⟩ := bind_ok h
        obtain ⟨r, hr, h⟩ := bind_ok h
        cases h
        exact (writeLeaves_first l b1 (prepare_replace hf hp) hb).append (ih _ _ _ hfs hr)
      | write =>
        rw [hp] at h
        simp only at h
        split at h
        · exact ih _ _ _ hfs h
        · obtain ⟨v, -, h⟩ := bind_ok h
          obtain ⟨b1, hb, h⟩ := bind_ok h
          obtain ⟨r, hr, h⟩ := bind_ok h
          cases h
          exact (writeFrame_first hf hb).append (ih _ _ _ hfs hr)
  exact key fs false none b hf h

end Lofty.Id3v2

namespace Lofty.FileTags

/-- What a save of such a tag leaves: a file that begins with a tag whose header is refused. -/
theorem experimental_saved {fl : Id3v2.Flags} (hexp : fl.experimental = true) (hcrc : fl.crc = false) (hres : fl.restrictions = none)
    {w : Id3v2.WriteOpts} (hw : w.v23 = true) {padding : Option Nat} {junk : Nat} {fs : List Id3v2.Frame} {body : Bytes}
    (hid : ∀ fr ∈ fs, Id3v2.IdOk fr.id.asStr) (hi : Id3v2.createItems w fs = .ok body) (hne : body ≠ []) {f g : Bytes}
    (h : saveId3v2 fl w padding junk fs f = .ok g) :
    (∃ b more, g = 0x49 :: 0x44 :: 0x33 :: b :: more) ∧ ∃ e p, 14 ≤ p ∧ Id3v2.parseHeader g 0 = .error (e, p) := by
  rcases Id3v2.createItems_first hid hi with rfl | ⟨b0, b1, b2, b3, body, rfl, hb⟩
  · exact absurd rfl hne
  have hfs : fs ≠ [] := by
    rintro rfl
    cases hi
  unfold saveId3v2 at h
  obtain ⟨new, hn, h⟩ := bind_ok h
  rw [if_neg (by simpa using hfs), hi, ok_bind, hw] at hn
  unfold Id3v2.writeFile at h
  obtain ⟨x, -, h⟩ := bind_ok h
  cases h
  obtain ⟨⟨b, more, rfl⟩, e, p, hp, hr⟩ := Id3v2.v23_experimental_refused hexp hcrc hres hb hn [] (f.drop x.2)
  exact ⟨⟨b, more ++ f.drop x.2, rfl⟩, e, p, by simpa using hp, hr⟩

/-- C23, a disagreement: **an MPEG file in which an ID3v2.3 tag was saved with the experimental flag cannot be read any more**, with
any options, even without its tags. -/
theorem mpeg_experimental_unreadable {fl : Id3v2.Flags} (hexp : fl.experimental = true) (hcrc : fl.crc = false) (hres : fl.restrictions = none)
    {w : Id3v2.WriteOpts} (hw : w.v23 = true) {padding : Option Nat} {junk : Nat} {fs : List Id3v2.Frame} {body : Bytes}
    (hid : ∀ fr ∈ fs, Id3v2.IdOk fr.id.asStr) (hi : Id3v2.createItems w fs = .ok body) (hne : body ≠ []) {f g : Bytes}
    (h : saveId3v2 fl w padding junk fs f = .ok g) (o : Opts) : ∃ e, readMpeg o g = .error e := by
  obtain ⟨⟨b, more, rfl⟩, e, p, -, hr⟩ := experimental_saved hexp hcrc hres hw hid hi hne h
  have hid : ascii "ID3" = [0x49, 0x44, 0x33] := by decide
  have ht : readAt (0x49 :: 0x44 :: 0x33 :: b :: more) 0 4 = .ok [0x49, 0x44, 0x33, b] := by
    unfold readAt
    rw [if_pos (by simp only [List.length_cons]; omega)]
    rfl
  have hz : (0x49 :: 0x44 :: 0x33 :: b :: more).dropWhile (fun x : UInt8 => decide (x = 0)) = 0x49 :: 0x44 :: 0x33 :: b :: more := by
    rw [List.dropWhile_cons]
    rfl
  refine ⟨e, ?_⟩
  unfold readMpeg
  simp only [hz, Nat.sub_self]
  rw [if_neg (by simp)]
  unfold front
  rw [ht]
  simp only
  rw [if_pos (by rw [hid]; rfl), hr]
  rfl

/-- C23, a disagreement: an AAC file in which an ID3v2.3 tag was saved with the experimental flag cannot be read any more, either. -/
theorem aac_experimental_unreadable {fl : Id3v2.Flags} (hexp : fl.experimental = true) (hcrc : fl.crc = false) (hres : fl.restrictions = none)
    {w : Id3v2.WriteOpts} (hw : w.v23 = true) {padding : Option Nat} {junk : Nat} {fs : List Id3v2.Frame} {body : Bytes}
    (hid : ∀ fr ∈ fs, Id3v2.IdOk fr.id.asStr) (hi : Id3v2.createItems w fs = .ok body) (hne : body ≠ []) {f g : Bytes}
    (h : saveId3v2 fl w padding junk fs f = .ok g) (o : Opts) : ∃ e, readAac o g = .error e := by
  obtain ⟨⟨b, more, rfl⟩, e, p, -, hr⟩ := experimental_saved hexp hcrc hres hw hid hi hne h
  have hid : ascii "ID3" = [0x49, 0x44, 0x33] := by decide
  have ht : readAt (0x49 :: 0x44 :: 0x33 :: b :: more) 0 4 = .ok [0x49, 0x44, 0x33, b] := by
    unfold readAt
    rw [if_pos (by simp only [List.length_cons]; omega)]
    rfl
  have hz : (0x49 :: 0x44 :: 0x33 :: b :: more).dropWhile (fun x : UInt8 => decide (x = 0)) = 0x49 :: 0x44 :: 0x33 :: b :: more := by
    rw [List.dropWhile_cons]
    rfl
  refine ⟨e, ?_⟩
  unfold readAac
  simp only [hz, Nat.sub_self]
  rw [if_neg (by simp)]
  unfold aacFront
  rw [ht]
  simp only
  rw [if_pos (by rw [hid]; rfl), hr]
  rfl

/-- The options of the examples, for version 2.3. -/
def exW23 : Id3v2.WriteOpts := ⟨true, false, true⟩

/-- A version 2.3 tag of another program with a title and the experimental flag, in its right place (ID3v2.3 3.1). -/
def experimentalTag : Bytes :=
  let b := ((Save.id3v2 exFlags exW23 none (titleTag "first")).encoded.toOption).getD []
  b.take 5 ++ 0x20 :: b.drop 6

/-- C23: **saving the tag of a file unchanged makes the file unreadable.**  The tag of another program is read with its title and its
experimental flag; saved as it was read, as a version 2.3 tag, the file is refused. -/
theorem unchanged_save_unreadable :
    let first := (readMpeg (exOpts true false) (experimentalTag ++ threeFrames)).toOption.bind (·.id3v2)
    first.map (fun t => (t.flags.experimental, Id3v2.getText t.frames (.valid (str "TIT2")))) = some (true, some (str "first")) ∧
    (first.bind fun t => ((Save.id3v2 t.flags exW23 none t.frames).run 100 (experimentalTag ++ threeFrames)).toOption.map fun g =>
      (readMpeg (exOpts true false) g).toOption.isSome) = some false := by
  decide +kernel

/-- C102: with a checksum as well, the misplaced flag announces the extended header that is not announced otherwise (C101): the title
is read, only the experimental flag is lost.  The theorems above are not true without `hcrc`. -/
theorem experimental_with_checksum :
    (((Save.id3v2 ⟨false, true, false, true, none⟩ exW23 none (titleTag "first")).run 100 threeFrames).toOption.bind fun g =>
      (readMpeg (exOpts true false) g).toOption.bind (·.id3v2)).map
        (fun t => (t.flags.experimental, t.flags.crc, Id3v2.getText t.frames (.valid (str "TIT2")))) = some (false, true, some (str "first")) := by
  decide +kernel

/-- The contents of the tag of `unchanged_save_unreadable` are as the theorems ask for. -/
example : ((Id3v2.createItems exW23 (titleTag "first")).toOption.map fun b => (b.take 4, decide (16 ≤ (b.headD 0).toNat)))
    = some (ascii "TIT2", true) := by
  decide +kernel

end Lofty.FileTags
