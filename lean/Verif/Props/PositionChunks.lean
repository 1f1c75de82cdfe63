import Verif.Props.Position
import Verif.Props.IffFiles
/-!
# C84: saving to WAV and AIFF files with the cursor anywhere

`bytesAt f p n` are the `n` bytes behind the place `p` of a file.
-/
namespace Lofty.Position
open Item Save

/-- The `n` bytes of `f` from the place `p` on. -/
def bytesAt (f : Bytes) (p n : Nat) : Bytes := (f.drop p).take n

theorem verifyWav_at {f : Bytes} {p n : Nat} (h : Iff.verifyWav (f.drop p) = .ok n) :
    bytesAt f p 4 = ascii "RIFF" ∧ bytesAt f (p + 8) 4 = ascii "WAVE" ∧ n = fromLE (bytesAt f (p + 4) 4) := by
  unfold Iff.verifyWav at h
  obtain ⟨id, h1, h2⟩ := bind_ok h
  unfold readAt at h1
  split at h1
  · cases h1
    simp only [List.drop_zero] at h2
    split at h2
    · cases h2
    · rename_i hn
      simp only [ne_eq, not_or, not_not] at hn
      obtain rfl := (Except.ok.injEq _ _).mp h2
      unfold bytesAt
      refine ⟨?_, ?_, ?_⟩
      · rw [← hn.1, List.take_take]; rfl
      · rw [← hn.2, List.drop_take, List.drop_drop]
      · rw [List.drop_take, List.drop_drop, List.take_take]; rfl
  · cases h1

theorem verifyAiff_at {f : Bytes} {p : Nat} {u : Unit} (h : Iff.verifyAiff (f.drop p) = .ok u) :
    bytesAt f p 4 = ascii "FORM" ∧ (bytesAt f (p + 8) 4 = ascii "AIFF" ∨ bytesAt f (p + 8) 4 = ascii "AIFC") := by
  unfold Iff.verifyAiff at h
  obtain ⟨id, h1, h2⟩ := bind_ok h
  unfold readAt at h1
  split at h1
  · cases h1
    simp only [List.drop_zero] at h2
    have e : (List.take 12 (List.drop p f)).drop 8 = bytesAt f (p + 8) 4 := by
      unfold bytesAt; rw [List.drop_take, List.drop_drop]
    split at h2
    · cases h2
    · rename_i hn
      simp only [ne_eq, not_not] at hn
      rw [e] at h2
      split at h2
      · rename_i hc
        refine ⟨?_, hc⟩
        unfold bytesAt; rw [← hn, List.take_take]; rfl
      · cases h2
  · cases h1

theorem save_write {o : Options} {x : Own} {p : Nat} {f g : Bytes} (h : save o x p f = .ok g) :
    ∃ ft, verified f p = .ok ft ∧ write o ft f p x = .ok g := by
  unfold save at h
  split at h
  · cases h
  · rename_i ft hft
    split at h
    · cases h
    · exact ⟨ft, hft, h⟩

/-- An INFO list is saved only if a WAV file begins at the cursor. -/
theorem info_needs_header {o : Options} {t : List Iff.Item} {f g : Bytes} {p : Nat} (h : save o (.riffInfo t) p f = .ok g) :
    bytesAt f p 4 = ascii "RIFF" ∧ bytesAt f (p + 8) 4 = ascii "WAVE" := by
  obtain ⟨ft, -, hw⟩ := save_write h
  change writeInfo (o.mode = .strict) f p t = .ok g at hw
  unfold writeInfo at hw
  obtain ⟨n, h1, -⟩ := bind_ok hw
  exact ⟨(verifyWav_at h1).1, (verifyWav_at h1).2.1⟩

/-- If the files that begin at the two places say that they have the same size, the place does not matter. -/
theorem info_anywhere_partial {o : Options} {t : List Iff.Item} {f g g' : Bytes} {p q : Nat}
    (hs : bytesAt f (p + 4) 4 = bytesAt f (q + 4) 4)
    (hp : save o (.riffInfo t) p f = .ok g) (hq : save o (.riffInfo t) q f = .ok g') : g = g' := by
  obtain ⟨_, -, hw⟩ := save_write hp
  obtain ⟨_, -, hw'⟩ := save_write hq
  change writeInfo (o.mode = .strict) f p t = .ok g at hw
  change writeInfo (o.mode = .strict) f q t = .ok g' at hw'
  unfold writeInfo at hw hw'
  obtain ⟨n, h1, h2⟩ := bind_ok hw
  obtain ⟨n', h1', h2'⟩ := bind_ok hw'
  have e : n = n' := by rw [(verifyWav_at h1).2.2, (verifyWav_at h1').2.2, hs]
  subst e
  rw [h2] at h2'
  exact (Except.ok.injEq _ _).mp h2'

/-- AIFF text chunks are saved only if an AIFF file begins at the cursor. -/
theorem text_needs_header {o : Options} {t : Iff.Aiff} {f g : Bytes} {p : Nat} (h : save o (.aiffText t) p f = .ok g) :
    bytesAt f p 4 = ascii "FORM" ∧ (bytesAt f (p + 8) 4 = ascii "AIFF" ∨ bytesAt f (p + 8) 4 = ascii "AIFC") := by
  obtain ⟨ft, -, hw⟩ := save_write h
  change writeAiff (o.mode = .strict) f p t = .ok g at hw
  unfold writeAiff at hw
  obtain ⟨n, h1, -⟩ := bind_ok hw
  exact verifyAiff_at h1

/-- What the first chunk at the cursor says of its size. -/
theorem first_chunk {be strict : Bool} {f : Bytes} {p : Nat} {h : Option Iff.Hdr} {c : Iff.Chunks}
    (e : (Iff.Chunks.new f p f.length).next be strict = .ok (h, c)) :
    ∀ x, h = some x → x.size = (if be then fromBE else fromLE) (bytesAt f (p + 4) 4) := by
  intro x hx
  subst hx
  have hk : (Iff.Chunks.new f p f.length).skip = .ok (Iff.Chunks.new f p f.length) := rfl
  unfold Iff.Chunks.next at e
  rw [hk] at e
  change (Iff.Chunks.new f p f.length).header be strict = _ at e
  unfold Iff.Chunks.header at e
  split at e
  · cases e
  · obtain ⟨id, h1, e⟩ := bind_ok e
    split at e
    · split at e <;> cases e
    · obtain ⟨s, h2, e⟩ := bind_ok e
      have hs : s = bytesAt f (p + 4) 4 := by
        change readAt f (p + 4) 4 = .ok s at h2
        unfold readAt at h2
        split at h2
        · exact ((Except.ok.injEq _ _).mp h2).symm
        · cases h2
      rw [← hs]
      cases be
      · change (if fromLE s > _ then _ else _) = _ at e
        split at e
        · split at e <;> cases e
        · cases e; rfl
      · change (if fromBE s > _ then _ else _) = _ at e
        split at e
        · split at e <;> cases e
        · cases e; rfl

theorem findId3_eq {be strict : Bool} {f : Bytes} {p q : Nat} {r r' : Nat × Option (Nat × Nat)}
    (hs : bytesAt f (p + 4) 4 = bytesAt f (q + 4) 4)
    (hp : findId3 be strict f p = .ok r) (hq : findId3 be strict f q = .ok r') : r = r' := by
  unfold findId3 at hp hq
  obtain ⟨⟨h, c⟩, h1, h2⟩ := bind_ok hp
  obtain ⟨⟨h', c'⟩, h1', h2'⟩ := bind_ok hq
  cases h with
  | none => cases h2
  | some x =>
    cases h' with
    | none => cases h2'
    | some y =>
      have e : x.size = y.size := by rw [first_chunk h1 x rfl, first_chunk h1' y rfl, hs]
      simp only at h2 h2'
      rw [e] at h2
      rw [h2] at h2'
      exact (Except.ok.injEq _ _).mp h2'

theorem saveId3_eq {be isWav strict upper : Bool} {fl : Id3v2.Flags} {w : Id3v2.WriteOpts} {padding : Option Nat}
    {fs : List Id3v2.Frame} {f g g' : Bytes} {p q : Nat} (hs : bytesAt f (p + 4) 4 = bytesAt f (q + 4) 4)
    (hp : saveId3 be isWav strict upper fl w padding fs f p = .ok g)
    (hq : saveId3 be isWav strict upper fl w padding fs f q = .ok g') : g = g' := by
  unfold saveId3 at hp hq
  obtain ⟨new, h1, h2⟩ := bind_ok hp
  obtain ⟨new', h1', h2'⟩ := bind_ok hq
  rw [h1] at h1'
  obtain rfl := (Except.ok.injEq _ _).mp h1'
  unfold writeChunkFile at h2 h2'
  obtain ⟨r, k1, k2⟩ := bind_ok h2
  obtain ⟨r', k1', k2'⟩ := bind_ok h2'
  obtain rfl := findId3_eq hs k1 k1'
  rw [k2] at k2'
  exact (Except.ok.injEq _ _).mp k2'

/-- ID3v2 tags of WAV and AIFF files: if the files that begin at the two places say that they have the same size, the place
does not matter. -/
theorem id3v2_chunk_anywhere_partial {o : Options} {fl : Id3v2.Flags} {fs : List Id3v2.Frame} {f g g' : Bytes} {p q : Nat}
    {ft : FileType} (hft : ft = .wav ∨ ft = .aiff) (vp : verified f p = .ok ft) (vq : verified f q = .ok ft)
    (hs : bytesAt f (p + 4) 4 = bytesAt f (q + 4) 4)
    (hp : save o (.id3v2 fl fs) p f = .ok g) (hq : save o (.id3v2 fl fs) q f = .ok g') : g = g' := by
  obtain ⟨_, v, hw⟩ := save_write hp
  obtain ⟨_, v', hw'⟩ := save_write hq
  rw [vp] at v
  rw [vq] at v'
  obtain rfl := (Except.ok.injEq _ _).mp v
  obtain rfl := (Except.ok.injEq _ _).mp v'
  rcases hft with rfl | rfl <;> exact saveId3_eq hs hw hw'

/-! ## Cases -/

/-- A WAV file whose last chunk is a WAV file. -/
def outerWav : Bytes :=
  Iff.wav [(ascii "fmt ", Lossless.fmtChunk 1 1 8 8 1 8 []), (ascii "data", List.replicate 60 0), (ascii "note", Iff.wav IffFiles.exWav)]

/-- The place where the inner file begins. -/
def innerPlace : Nat := outerWav.length - (Iff.wav IffFiles.exWav).length

/-- The samples of `outerWav` are the 60 bytes from its 44th on. -/
theorem outer_sound : bytesAt outerWav 36 8 = ascii "data" ++ leBytes 4 60 ∧ bytesAt outerWav 4 4 = leBytes 4 164 := by decide +kernel

/-- With the cursor at the inner file the INFO list is put into the samples of the outer one, and the file says that it ends
there. -/
theorem info_in_sound :
    (save exOptions (.riffInfo [(str "INAM", str "t")]) innerPlace outerWav).toOption.map
        (fun g => g == (ascii "RIFF" ++ leBytes 4 74) ++ ((outerWav.take 60).drop 8 ++
          (ascii "LIST" ++ leBytes 4 14 ++ ascii "INFOINAM" ++ leBytes 4 2 ++ [116, 0] ++ outerWav.drop 60))) = some true := by
  decide +kernel

/-- The same list saved at the start goes to the end. -/
theorem info_at_start :
    (save exOptions (.riffInfo [(str "INAM", str "t")]) 0 outerWav).toOption.map
        (fun g => g == (ascii "RIFF" ++ leBytes 4 186) ++ (outerWav.drop 8 ++
          (ascii "LIST" ++ leBytes 4 14 ++ ascii "INFOINAM" ++ leBytes 4 2 ++ [116, 0]))) = some true := by
  decide +kernel

/-- Two WAV files of one size, one behind the other. -/
def twoWavs : Bytes := Iff.wav IffFiles.exWav ++ Iff.wav IffFiles.exWav

example : (save exOptions (.riffInfo [(str "INAM", str "t")]) 60 twoWavs).toOption.isSome = true ∧
    bytesAt twoWavs (60 + 4) 4 = bytesAt twoWavs (0 + 4) 4 ∧ verified twoWavs 60 = .ok .wav ∧ verified twoWavs 0 = .ok .wav ∧
    (save exOptions (.id3v2 noFlags (frames exOptions (titled .id3v2))) 60 twoWavs).toOption.isSome = true := by decide +kernel

/-- An AIFF file whose last chunk is an AIFF file. -/
def outerAiff : Bytes :=
  Iff.aiff (ascii "AIFF") (IffFiles.exAiff ++ [(ascii "NOTE", Iff.aiff (ascii "AIFF") IffFiles.exAiff)])

/-- Text chunks are refused there, although the file is recognised: as many bytes are expected behind the cursor as the whole
file has. -/
theorem inner_aiff_refused : verified outerAiff 78 = .ok .aiff ∧
    (save exOptions (.aiffText Iff.sampleAiff) 78 outerAiff).toOption.isSome = false ∧
    (save exOptions (.aiffText Iff.sampleAiff) 0 outerAiff).toOption.isSome = true := by decide +kernel

end Lofty.Position
