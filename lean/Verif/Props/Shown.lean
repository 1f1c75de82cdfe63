import Verif.Props.Untagged
import Verif.Props.AudioFiles
import Verif.Props.StreamHeaders
import Verif.Props.Flac
import Verif.Props.IffFiles
import Verif.Props.OggWrite
import Verif.Props.Mp4Audio
/-!
# C79: an opened file shows the properties of its audio

What `FileProperties` of an opened file are, from the headers in the file: end to end, through the chunks, blocks, packets and tags around
them and the conversion of the properties of the format.
-/
namespace Lofty.Opened
open Item Lofty.Save

/-! ## FLAC -/

open Lofty.Flac Lofty.Flac.Spec in
theorem flacLoop_stop (o : Vorbis.Opts) (tags : Bool) (rest : Bytes) (bs : List MBlock) : ∀ (a : Bytes) (fuel : Nat) (r : Found) {m : Found} {stop : Nat},
    bs ≠ [] → (∀ b ∈ bs, b.Valid) → flacLoop o tags (a ++ (encode bs ++ rest)) fuel false a.length r = .ok (m, stop) →
    stop = a.length + (encode bs).length := by
  induction bs with
  | nil => intro a fuel r m stop h; exact absurd rfl h
  | cons b bs ih =>
    intro a fuel r m stop _ hv h
    have hb := hv b (by simp)
    cases fuel with
    | zero => cases h
    | succ fuel =>
      rw [flacLoop] at h
      cases bs with
      | nil =>
        rw [encode, readBlock_encodeOne a _ true b _ hb, ok_bind] at h
        obtain ⟨r', -, h⟩ := bind_ok h
        cases fuel <;> (cases h; rw [encode, encodeOne_length])
      | cons c cs =>
        rw [encode_cons b (by simp), List.append_assoc, readBlock_encodeOne a _ false b _ hb, ok_bind] at h
        obtain ⟨r', -, h⟩ := bind_ok h
        have := ih (a ++ encodeOne false b) fuel r' (m := m) (stop := stop) (by simp) (fun x hx => hv x (List.mem_cons_of_mem _ hx))
          (by simpa [encodeOne_length] using h)
        rw [this, encode_cons b (by simp)]
        simp only [List.length_append]
        omega

open Lofty.Flac Lofty.Flac.Spec Lofty.Lossless in
/-- C79: **what is shown of a FLAC file is what its STREAMINFO block says**, whatever other blocks and tags there are. -/
theorem flac_shown {o : ReadOptions} {tags : Bool} {pre audio : Bytes} {bs : List MBlock} {blocks frames rate channels bits total signature : Nat}
    (hpre : Skipped pre) (hv : ∀ b ∈ bs, b.Valid) (hb : blocks < 2 ^ 32) (hf : frames < 2 ^ 48)
    (hr : rate < 2 ^ 20) (hc : 1 ≤ channels ∧ channels ≤ 8) (hbits : 1 ≤ bits ∧ bits ≤ 32) (ht : total < 2 ^ 36)
    (hs : signature < 2 ^ 128) {f : Bytes}
    (hfile : f = stream pre ((0, streamInfo blocks frames rate channels bits total signature) :: bs) audio) (hlen : f.length < 2 ^ 61)
    {ts : List Tag} {g : Generic} (h : wholeAs o ⟨tags, true⟩ f .flac = .ok (ts, g)) :
    let d := total * 1000 / rate
    g = ⟨d, some (if d = 0 ∨ audio = [] then 0 else f.length * 8 / d % 2 ^ 32), some (if d = 0 ∨ audio = [] then 0 else audio.length * 8 / d % 2 ^ 32),
      some rate, some bits, some channels, none⟩ := by
  intro d
  change wholeFlac o ⟨tags, true⟩ f = _ at h
  have h4 : (ascii "fLaC").length = 4 := by decide
  have hsi : (streamInfo blocks frames rate channels bits total signature).length = 34 := by
    unfold streamInfo
    simp only [List.length_append, beBytes_length]
  generalize hsi' : streamInfo blocks frames rate channels bits total signature = si at *
  unfold wholeFlac at h
  obtain ⟨r, hfind⟩ : ∃ r, Id3v2.find f 0 tags none = .ok (r, pre.length) := by
    rw [hfile]
    refine hpre tags _ ?_
    rw [List.length_append, encode_length]
    simp
    omega
  simp only at h
  rw [hfind, ok_bind] at h
  simp only at h
  obtain ⟨id3, -, h⟩ := bind_ok h
  rw [hfile, verify_stream pre si bs audio (by omega), ok_bind, ← hfile] at h
  simp only at h
  rw [if_neg (by omega)] at h
  obtain ⟨⟨m, stop⟩, hloop, h⟩ := bind_ok h
  simp only [if_true] at h
  obtain ⟨p, hp, h⟩ := bind_ok h
  cases h
  have hstop : f.length = stop + audio.length := by
    cases bs with
    | nil =>
      have : stop = pre.length + 4 + (4 + si.length) := by
        cases hf' : f.length + 1 <;> (rw [hf'] at hloop; cases hloop; rfl)
      rw [this, hfile]
      unfold stream
      simp only [List.length_append, h4, encode, encodeOne_length]
      omega
    | cons c cs =>
      have e : f = (pre ++ (ascii "fLaC" ++ encodeOne false (0, si))) ++ (encode (c :: cs) ++ audio) := by
        rw [hfile]; unfold stream; rw [encode_cons _ (by simp)]; simp
      have hl : (pre ++ (ascii "fLaC" ++ encodeOne false (0, si))).length = pre.length + 4 + (4 + si.length) := by
        simp [encodeOne_length, h4]; omega
      rw [← hl] at hloop
      have := flacLoop_stop o.comments tags audio (c :: cs) (pre ++ (ascii "fLaC" ++ encodeOne false (0, si))) (f.length + 1) _ (by simp) hv
        (m := m) (stop := stop) (by rw [← e]; exact hloop)
      rw [this]
      conv => lhs; rw [e]
      simp only [List.length_append]
      omega
  unfold flacProps at hp
  rw [if_neg (by omega), show f.length - stop = audio.length by omega, ← hsi'] at hp
  have := flac_fields hb hf hr hc hbits ht hs (stream := audio.length) (file := f.length) hlen (by omega) []
  rw [List.append_nil] at this
  simp only at this
  rw [this] at hp
  cases hp
  unfold Generic.ofFlac
  simp only [List.length_eq_zero_iff]
  rfl

/-! ## WAV and AIFF -/

/-- The chunks with a name. -/
def named (id : String) (cs : List Iff.Chunk) : List Iff.Chunk := cs.filter fun d => d.1 = ascii id

theorem named_cons (id : String) (d : Iff.Chunk) (cs : List Iff.Chunk) : named id (d :: cs) = if d.1 = ascii id then d :: named id cs else named id cs := by
  unfold named
  rw [List.filter_cons]
  simp only [decide_eq_true_eq]

open Lofty.IffFiles Lofty.Iff in
/-- What is collected from chunks of which at most one is a format, at most one has audio and at most one has a number of samples. -/
theorem wavAudio_fold (cs : List Chunk) : ∀ (a : WavAudio) {fmt : Bytes} {samples stream : Nat},
    (∀ d ∈ named "fact" cs, 4 ≤ d.2.length) → (a.samples ≠ 0 → named "fact" cs = []) →
    (a.fmt ≠ [] → named "fmt " cs = []) → (a.stream ≠ 0 → named "data" cs = []) →
    (named "fmt " cs).length ≤ 1 → (named "fact" cs).length ≤ 1 → (named "data" cs).length ≤ 1 →
    fmt = (if a.fmt = [] then ((named "fmt " cs).map (·.2)).headD [] else a.fmt) →
    samples = (if a.samples = 0 then ((named "fact" cs).map fun d => fromLE (d.2.take 4)).headD 0 else a.samples) →
    stream = (if a.stream = 0 then ((named "data" cs).map (·.2.length)).headD 0 else a.stream) →
    cs.foldlM (wavAudio true) a = .ok ⟨stream, samples, fmt⟩ := by
  induction cs with
  | nil =>
    intro a fmt samples stream _ _ _ _ _ _ _ e1 e2 e3
    obtain ⟨x, y, z⟩ := a
    simp only [named, List.filter_nil, List.map_nil, List.headD_nil] at e1 e2 e3
    subst e1 e2 e3
    simp only [List.foldlM_nil]
    by_cases hz : z = [] <;> by_cases hx : x = 0 <;> by_cases hy : y = 0 <;> simp [hz, hx, hy] <;> rfl
  | cons d cs ih =>
    intro a fmt samples stream h4 hn hf hs h1 h2 h3 e1 e2 e3
    simp only [named_cons] at h4 hn hf hs h1 h2 h3 e1 e2 e3
    rw [List.foldlM_cons]
    unfold wavAudio
    rw [if_pos rfl]
    by_cases hfm : d.1 = ascii "fmt "
    · have n1 : ¬ d.1 = ascii "data" := by rw [hfm]; decide
      have n2 : ¬ d.1 = ascii "fact" := by rw [hfm]; decide
      rw [if_neg n1] at h3 e3 hs
      rw [if_neg n2] at h2 e2 hn h4
      rw [if_pos hfm] at h1 e1 hf ⊢
      have hz : a.fmt = [] := Classical.byContradiction fun h => by have := hf h; cases this
      have hr : named "fmt " cs = [] := by
        simp only [List.length_cons] at h1
        exact List.length_eq_zero_iff.mp (by omega)
      rw [if_pos hz, ok_bind]
      rw [if_pos hz] at e1
      exact ih { a with fmt := d.2 } h4 hn (fun _ => hr) hs (by rw [hr]; simp) h2 h3 (by rw [e1, hr]; simp) e2 e3
    · rw [if_neg hfm] at h1 e1 hf ⊢
      by_cases hfa : d.1 = ascii "fact"
      · have n1 : ¬ d.1 = ascii "data" := by rw [hfa]; decide
        rw [if_neg n1] at h3 e3 hs
        rw [if_pos hfa] at h2 e2 hn h4 ⊢
        have hz : a.samples = 0 := Classical.byContradiction fun h => by have := hn h; cases this
        have hr : named "fact" cs = [] := by
          simp only [List.length_cons] at h2
          exact List.length_eq_zero_iff.mp (by omega)
        have := h4 d (by simp)
        rw [if_pos hz, if_neg (by omega), ok_bind]
        rw [if_pos hz] at e2
        exact ih { a with samples := fromLE (d.2.take 4) } (by rw [hr]; simp) (fun _ => hr) hf hs h1 (by rw [hr]; simp) h3 e1
          (by rw [e2, hr]; simp) e3
      · rw [if_neg hfa] at h2 e2 hn h4 ⊢
        by_cases hda : d.1 = ascii "data"
        · rw [if_pos hda] at h3 e3 hs ⊢
          have hz : a.stream = 0 := Classical.byContradiction fun h => by have := hs h; cases this
          have hr : named "data" cs = [] := by
            simp only [List.length_cons] at h3
            exact List.length_eq_zero_iff.mp (by omega)
          rw [if_pos hz, ok_bind]
          rw [if_pos hz] at e3
          exact ih { a with stream := d.2.length } h4 hn hf (fun _ => hr) h1 h2 (by rw [hr]; simp) e1 e2 (by rw [e3, hr]; simp)
        · rw [if_neg hda] at h3 e3 hs ⊢
          rw [ok_bind]
          exact ih _ h4 hn hf hs h1 h2 h3 e1 e2 e3

theorem named_rest {id : String} {cs : List Iff.Chunk} (h1 : ascii id ≠ ascii "LIST") (h2 : ascii id ≠ ascii "ID3 ") (h3 : ascii id ≠ ascii "id3 ")
    (h4 : ascii id ≠ ascii "JUNK") : named id (IffFiles.wavRest cs) = named id cs := by
  unfold named IffFiles.wavRest
  rw [List.filter_filter]
  refine List.filter_congr fun d _ => ?_
  rw [Bool.eq_iff_iff]
  simp only [Bool.and_eq_true, decide_eq_true_eq, and_iff_left_iff_imp]
  intro e
  unfold IffFiles.IsInfo Iff.Chunk.IsId3
  rw [e]
  exact ⟨fun h => h1 h.1, fun h => h.elim h2 h3, h4⟩

/-- The options with which chapters within chapters are read `k` deep. -/
def ReadOptions.deep (o : ReadOptions) (k : Nat) : ReadOptions := { o with depth := k }

open Lofty.IffFiles Lofty.Iff Lofty.Lossless in
/-- A WAV file with one format and one `data` chunk, and at most one `fact` chunk. -/
theorem wav_whole {o : ReadOptions} {cs : List Chunk} {t : WavTags} (h : WavHas (o.with ⟨true, true⟩) cs t) (hsz : (Iff.wav cs).length < 2 ^ 32)
    {fmt audio : Bytes} {fact : Nat} (hfmt : named "fmt " cs = [(ascii "fmt ", fmt)]) (haudio : named "data" cs = [(ascii "data", audio)])
    (hfact : named "fact" cs = [] ∧ fact = 0 ∨ fact < 2 ^ 32 ∧ ∃ more, named "fact" cs = [(ascii "fact", leBytes 4 fact ++ more)]) {p : Lossless.Wav}
    (hp : Lossless.wav fmt fact audio.length (Iff.wav cs).length = .ok p) :
    ∃ n ts, ∀ k, n ≤ k → wholeAs (o.deep k) ⟨true, true⟩ (Iff.wav cs) .wav = .ok (ts, .ofWav p) := by
  obtain ⟨n, hn⟩ := readWav_has rfl h hsz
  refine ⟨n, wavTagsOf o.custom ⟨some p, t.info, t.id3v2⟩, fun k hk => ?_⟩
  have hfold : (wavRest cs).foldlM (wavAudio true) ⟨0, 0, []⟩ = .ok ⟨audio.length, fact, fmt⟩ := by
    have r1 : named "fmt " (wavRest cs) = _ := (named_rest (by decide) (by decide) (by decide) (by decide)).trans hfmt
    have r2 : named "data" (wavRest cs) = _ := (named_rest (by decide) (by decide) (by decide) (by decide)).trans haudio
    have r3 : named "fact" (wavRest cs) = named "fact" cs := named_rest (by decide) (by decide) (by decide) (by decide)
    have f1 : (named "fact" cs).length ≤ 1 := by rcases hfact with ⟨e, -⟩ | ⟨-, more, e⟩ <;> simp [e]
    have f2 : ∀ d ∈ named "fact" cs, 4 ≤ d.2.length := by
      rcases hfact with ⟨e, -⟩ | ⟨-, more, e⟩
      · simp [e]
      · simp [e]
    have f3 : fact = ((named "fact" cs).map fun d => fromLE (d.2.take 4)).headD 0 := by
      rcases hfact with ⟨e, e'⟩ | ⟨hl, more, e⟩
      · simp [e, e']
      · rw [e]
        simp only [List.map_cons, List.map_nil, List.headD_cons]
        rw [List.take_append_of_le_length (by simp), List.take_of_length_le (by simp), fromLE_leBytes_of_lt hl]
    refine wavAudio_fold (wavRest cs) ⟨0, 0, []⟩ (by rw [r3]; exact f2) (fun h => absurd rfl h) (fun h => absurd rfl h) (fun h => absurd rfl h)
      (by rw [r1]; simp) (by rw [r3]; exact f1) (by rw [r2]; simp) (by rw [r1]; rfl) (by rw [r3]; exact f3) (by rw [r2]; rfl)
  change (IffFiles.readWav { (o.with ⟨true, true⟩) with depth := k } (Iff.wav cs)).map _ = _
  rw [hn k hk]
  change Except.map _ ((wavRest cs).foldlM (wavAudio true) ⟨0, 0, []⟩ >>= _) = _
  rw [hfold, ok_bind]
  unfold wavDone
  simp only [show (o.with ⟨true, true⟩).readProps = true from rfl, if_true]
  rw [hp, ok_bind]
  rfl

open Lofty.IffFiles Lofty.Iff Lofty.Lossless in
/-- C79: **what is shown of a WAV file is what its format chunk says**, with the duration of its audio, wherever these chunks are and whatever
tags there are. -/
theorem wav_shown {o : ReadOptions} {cs : List Chunk} {t : WavTags} (h : WavHas (o.with ⟨true, true⟩) cs t) (hsz : (Iff.wav cs).length < 2 ^ 32)
    {format channels rate bps align bits fact : Nat} {audio rest : Bytes}
    (hfmt : named "fmt " cs = [(ascii "fmt ", fmtChunk format channels rate bps align bits rest)])
    (haudio : named "data" cs = [(ascii "data", audio)])
    (hfact : named "fact" cs = [] ∧ fact = 0 ∨ fact < 2 ^ 32 ∧ ∃ more, named "fact" cs = [(ascii "fact", leBytes 4 fact ++ more)])
    (hf : format < 2 ^ 16) (hf' : format ≠ 0xFFFE) (hc : 0 < channels ∧ channels < 256) (hr : 0 < rate ∧ rate < 2 ^ 32) (hb : bps < 2 ^ 32)
    (ha : align < 2 ^ 16) (hbits : 0 < bits ∧ bits < 256) (h8 : 8 ∣ bits) (hs : 0 < wavSamples format channels bits fact audio.length)
    (ha0 : audio ≠ []) :
    let d := nearest (wavSamples format channels bits fact audio.length * 1000) rate
    let byteRate := nearest (bps * 8) 1000
    ∃ n ts, ∀ k, n ≤ k → wholeAs (o.deep k) ⟨true, true⟩ (Iff.wav cs) .wav = .ok (ts,
      ⟨d, some (if d = 0 then 0 else nearest ((Iff.wav cs).length * 8) d % 2 ^ 32),
        some (if byteRate = 0 ∧ d ≠ 0 then nearest (audio.length * 8) d % 2 ^ 32 else byteRate),
        some rate, some bits, some channels, none⟩) := by
  intro d byteRate
  have hl : 0 < audio.length ∧ audio.length < 2 ^ 32 := by
    refine ⟨List.length_pos_iff.mpr ha0, ?_⟩
    have : (ascii "data", audio) ∈ cs := (List.mem_filter.mp (show (ascii "data", audio) ∈ named "data" cs by rw [haudio]; simp)).1
    exact (h.ok _ this).1.2
  have hfl : fact < 2 ^ 32 := by
    rcases hfact with ⟨-, e⟩ | ⟨e, -⟩
    · rw [e]; decide
    · exact e
  exact wav_whole h hsz hfmt haudio hfact (wav_fields hf hf' hc hr hb ha hbits.2 h8 hl hfl (by omega) hs hbits.1 rest)

open Lofty.IffFiles Lofty.Iff Lofty.Lossless in
/-- C79: **the same of a WAV file with an extensible format chunk**: the number of valid bits and the channel mask are those of the extension. -/
theorem wav_extensible_shown {o : ReadOptions} {cs : List Chunk} {t : WavTags} (h : WavHas (o.with ⟨true, true⟩) cs t)
    (hsz : (Iff.wav cs).length < 2 ^ 32) {format channels rate bps align bits valid mask fact : Nat} {audio rest : Bytes} (hrest : 14 ≤ rest.length)
    (hfmt : named "fmt " cs = [(ascii "fmt ", fmtChunk 0xFFFE channels rate bps align bits (fmtExtra valid mask format rest))])
    (haudio : named "data" cs = [(ascii "data", audio)])
    (hfact : named "fact" cs = [] ∧ fact = 0 ∨ fact < 2 ^ 32 ∧ ∃ more, named "fact" cs = [(ascii "fact", leBytes 4 fact ++ more)])
    (hf : format < 2 ^ 16) (hc : 0 < channels ∧ channels < 256) (hr : 0 < rate ∧ rate < 2 ^ 32) (hb : bps < 2 ^ 32)
    (ha : align < 2 ^ 16) (hbits : 0 < bits ∧ bits < 256) (h8 : 8 ∣ bits) (hv : valid < 256) (hm : mask < 2 ^ 32)
    (hs : 0 < wavSamples format channels bits fact audio.length) (ha0 : audio ≠ []) :
    let d := nearest (wavSamples format channels bits fact audio.length * 1000) rate
    let byteRate := nearest (bps * 8) 1000
    ∃ n ts, ∀ k, n ≤ k → wholeAs (o.deep k) ⟨true, true⟩ (Iff.wav cs) .wav = .ok (ts,
      ⟨d, some (if d = 0 then 0 else nearest ((Iff.wav cs).length * 8) d % 2 ^ 32),
        some (if byteRate = 0 ∧ d ≠ 0 then nearest (audio.length * 8) d % 2 ^ 32 else byteRate),
        some rate, some (if valid = 0 then bits else valid), some channels, some mask⟩) := by
  intro d byteRate
  have hl : 0 < audio.length ∧ audio.length < 2 ^ 32 := by
    refine ⟨List.length_pos_iff.mpr ha0, ?_⟩
    have : (ascii "data", audio) ∈ cs := (List.mem_filter.mp (show (ascii "data", audio) ∈ named "data" cs by rw [haudio]; simp)).1
    exact (h.ok _ this).1.2
  have hfl : fact < 2 ^ 32 := by
    rcases hfact with ⟨-, e⟩ | ⟨e, -⟩
    · rw [e]; decide
    · exact e
  exact wav_whole h hsz hfmt haudio hfact (wav_extensible_fields hf hc hr hb ha hbits.2 h8 hv hm hl hfl (by omega) hs hbits.1 rest hrest)

open Lofty.IffFiles Lofty.Iff in
/-- What is collected from chunks of which at most one is a `COMM` chunk and at most one has audio. -/
theorem aiffAudio_fold (cs : List Chunk) : ∀ (a : AiffAudio) {comm : Option Bytes} {stream : Nat},
    (∀ d ∈ named "COMM" cs, 18 ≤ d.2.length) → (a.comm ≠ none → named "COMM" cs = []) →
    (named "COMM" cs).length ≤ 1 → (named "SSND" cs).length ≤ 1 →
    comm = (if a.comm = none then ((named "COMM" cs).map (·.2)).head? else a.comm) →
    stream = ((named "SSND" cs).map (·.2.length)).headD a.stream →
    cs.foldlM (aiffAudio true) a = .ok ⟨comm, stream⟩ := by
  induction cs with
  | nil =>
    intro a comm stream _ _ _ _ e1 e2
    obtain ⟨x, y⟩ := a
    simp only [named, List.filter_nil, List.map_nil, List.headD_nil, List.head?_nil] at e1 e2
    subst e1 e2
    simp only [List.foldlM_nil]
    by_cases hz : x = none <;> simp [hz] <;> rfl
  | cons d cs ih =>
    intro a comm stream h18 hn h1 h2 e1 e2
    simp only [named_cons] at h18 hn h1 h2 e1 e2
    rw [List.foldlM_cons]
    unfold aiffAudio
    rw [if_pos rfl]
    by_cases hco : d.1 = ascii "COMM"
    · have n1 : ¬ d.1 = ascii "SSND" := by rw [hco]; decide
      rw [if_neg n1] at h2 e2
      rw [if_pos hco] at h1 e1 hn h18 ⊢
      have hz : a.comm = none := Classical.byContradiction fun h => by have := hn h; cases this
      have hr : named "COMM" cs = [] := by
        simp only [List.length_cons] at h1
        exact List.length_eq_zero_iff.mp (by omega)
      have := h18 d (by simp)
      rw [if_pos hz, if_neg (by omega), ok_bind]
      rw [if_pos hz] at e1
      exact ih { a with comm := some d.2 } (by rw [hr]; simp) (fun _ => hr) (by rw [hr]; simp) h2 (by rw [e1, hr]; simp) e2
    · rw [if_neg hco] at h1 e1 hn h18 ⊢
      by_cases hss : d.1 = ascii "SSND"
      · rw [if_pos hss] at h2 e2 ⊢
        have hr : named "SSND" cs = [] := by
          simp only [List.length_cons] at h2
          exact List.length_eq_zero_iff.mp (by omega)
        rw [ok_bind]
        exact ih { a with stream := d.2.length } h18 hn h1 (by rw [hr]; simp) e1 (by rw [e2, hr]; simp)
      · rw [if_neg hss] at h2 e2 ⊢
        rw [ok_bind]
        exact ih _ h18 hn h1 h2 e1 e2

theorem named_aiffRest {id : String} {cs : List Iff.Chunk} (h : ∀ b : Bytes, ¬ Iff.Chunk.IsText (ascii id, b))
    (h2 : ascii id ≠ ascii "ID3 ") (h3 : ascii id ≠ ascii "id3 ") : named id (IffFiles.aiffRest cs) = named id cs := by
  unfold named IffFiles.aiffRest
  rw [List.filter_filter]
  refine List.filter_congr fun d _ => ?_
  rw [Bool.eq_iff_iff]
  simp only [Bool.and_eq_true, decide_eq_true_eq, and_iff_left_iff_imp]
  intro e
  obtain ⟨a, b⟩ := d
  simp only at e
  subst e
  exact ⟨h b, fun h => h.elim h2 h3⟩

open Lofty.IffFiles Lofty.Iff Lofty.Lossless in
/-- C79: **what is shown of an AIFF file is what its `COMM` chunk says**: the sampling rate, the duration of its sample frames, the size of the
samples and the channels, of both of which only the last eight bits are shown. -/
theorem aiff_shown_partial {o : ReadOptions} {cs : List Chunk} {t : AiffTags} (h : AiffHas (o.with ⟨true, true⟩) cs t)
    {channels frames size rate : Nat} {x : F80} {audio rest : Bytes} (hcomm : named "COMM" cs = [(ascii "COMM", commChunk channels frames size x rest)])
    (haudio : named "SSND" cs = [(ascii "SSND", audio)]) (ha : audio ≠ [])
    (hc : 0 < channels ∧ channels < 2 ^ 16) (hfr : frames < 2 ^ 32) (hsz : size < 2 ^ 16)
    (he : x.exponent < 32768) (hf : x.fraction < 2 ^ 64) (hx : aiffRate x = .ok rate) (hr : 0 < rate ∧ rate < 2 ^ 32) :
    ∃ n ts a b, (∀ k, n ≤ k → wholeAs (o.deep k) ⟨true, true⟩ (Iff.aiff (ascii "AIFF") cs) .aiff = .ok (ts,
      ⟨frames * 1000 / rate, some b, some a, some rate, some (size % 256), some (channels % 256), none⟩)) ∧
      (0 < frames → rateOf audio.length frames rate ≤ 2 ^ 32 - 2 → Near a (rateOf audio.length frames rate)) ∧
      (0 < frames → rateOf (Iff.aiff (ascii "AIFF") cs).length frames rate ≤ 2 ^ 32 - 2 →
        Near b (rateOf (Iff.aiff (ascii "AIFF") cs).length frames rate)) := by
  obtain ⟨n, hn⟩ := readAiff_has rfl (.inl rfl) h
  obtain ⟨p, hp, hrep, -⟩ := aiff_fields hc hfr hsz he hf hx hr rest audio.length (Iff.aiff (ascii "AIFF") cs).length
  refine ⟨n, aiffTagsOf o.custom ⟨some p, t.text, t.id3v2⟩, p.audio, p.overall, fun k hk => ?_, hrep.audio, hrep.overall⟩
  have hfold : (aiffRest cs).foldlM (aiffAudio true) ⟨none, 0⟩ = .ok ⟨some (commChunk channels frames size x rest), audio.length⟩ := by
    have r1 : named "COMM" (aiffRest cs) = _ := (named_aiffRest (fun b => show ¬ (_ ∨ _) by dsimp only; decide) (by decide) (by decide)).trans hcomm
    have r2 : named "SSND" (aiffRest cs) = _ := (named_aiffRest (fun b => show ¬ (_ ∨ _) by dsimp only; decide) (by decide) (by decide)).trans haudio
    refine aiffAudio_fold (aiffRest cs) ⟨none, 0⟩ ?_ (fun h => absurd rfl h) (by rw [r1]; simp) (by rw [r2]; simp) (by rw [r1]; rfl)
      (by rw [r2]; rfl)
    rw [r1]
    intro d hd
    simp only [List.mem_singleton] at hd
    subst hd
    unfold commChunk
    simp only [List.length_append, beBytes_length, Lossless.bytes_length]
    omega
  change (IffFiles.readAiff { (o.with ⟨true, true⟩) with depth := k } (Iff.aiff (ascii "AIFF") cs)).map _ = _
  rw [hn k hk]
  change Except.map _ ((aiffRest cs).foldlM (aiffAudio true) ⟨none, 0⟩ >>= _) = _
  rw [hfold, ok_bind]
  unfold aiffDone aiffProps
  have hne : ¬ audio.length = 0 := fun h => ha (List.length_eq_zero_iff.mp h)
  simp only [show (o.with ⟨true, true⟩).readProps = true from rfl, if_true, if_neg hne]
  rw [show decide (ascii "AIFF" = ascii "AIFC") = false by decide, hp, ok_bind]
  obtain ⟨q1, q2, q3, q4, -, -⟩ := hrep
  change Except.ok (_, Generic.ofAiff p) = _
  unfold Generic.ofAiff
  rw [q1, q2, q3, q4]
  rfl

/-! ## WavPack and Monkey's Audio -/

open Lofty.WavPack Lofty.Lossless in
/-- C79: **what is shown of a WavPack file is what the header of its first block with samples says**, whatever tags and blocks follow. -/
theorem wavpack_shown {o : ReadOptions} {tags : Bool} {pre : List Blk} {b : Blk}
    (hpre : ∀ x ∈ pre, x.Ok ∧ x.standard ∧ (x.initial = true → x.supported) ∧ x.samples = 0)
    (hok : b.Ok) (hst : b.standard) (hsup : b.supported) (hi : b.initial = true) (hf : b.final = true) (hs : b.samples ≠ 0)
    (ht : 0 < b.total ∧ b.total < 2 ^ 32 - 1) {f t : Bytes} (hfile : f = concat pre ++ (b.bytes ++ t)) {ts : List Tag} {g : Generic}
    (h : wholeAs o ⟨tags, true⟩ f .wavPack = .ok (ts, g)) :
    let rate := rates.getD b.rateIndex 0
    ∃ overall audio, g = ⟨nearest (b.total * 1000) rate, some overall, some audio, some rate, some b.bits, some (if b.mono then 1 else 2),
        some (if b.mono then 4 else 3)⟩ ∧
      (rateOf f.length b.total rate ≤ 2 ^ 32 - 2 → Near overall (rateOf f.length b.total rate)) ∧
      ∃ m, FileTags.readWavPack (o.with ⟨tags, true⟩) f = .ok m ∧
        (rateOf m.stream b.total rate ≤ 2 ^ 32 - 2 → Near audio (rateOf m.stream b.total rate)) := by
  intro rate
  change (FileTags.readWavPackFile (o.with ⟨tags, true⟩) f).map _ = _ at h
  unfold FileTags.readWavPackFile at h
  rcases hm : FileTags.readWavPack (o.with ⟨tags, true⟩) f with e | m
  · rw [hm] at h; cases h
  rw [hm, ok_bind, if_pos (show (o.with ⟨tags, true⟩).readProps = true from rfl)] at h
  obtain ⟨p, hp, rep⟩ := wavpack_fields (strict := decide ((o.with ⟨tags, true⟩).id3.mode = .strict)) hpre hok hst hsup hi hf hs ht.1 t m.stream
  rw [← hfile] at hp rep
  rw [hp, ok_bind] at h
  obtain rfl := (Prod.mk.inj ((Except.ok.injEq _ _).mp h)).2
  obtain ⟨-, q2, -, q4, q5, q6, q7, q8, q9⟩ := rep
  have hne : ¬ b.total = 2 ^ 32 - 1 := by omega
  refine ⟨p.overall, p.audio, ?_, q9 hne, m, rfl, q8 hne⟩
  change Generic.ofWavPack p = _
  unfold Generic.ofWavPack
  rw [q2, q4, q5, q6, q7, if_neg hne]
  cases b.mono <;> rfl

open Lofty.FileTags Lofty.Lossless in
/-- C79: **what is shown of a Monkey's Audio file is what its header says**, after any saves of tags to it. -/
theorem mac_shown {o : ReadOptions} {audio g : Bytes} (ha : Audio (o.with ⟨true, true⟩) audio)
    {version level flags perFrame final frames bits channels rate : Nat} {d1 d2 extra rest : Bytes}
    (hfile : audio = ascii "MAC " ++ macHeader version d1 d2 extra level flags perFrame final frames bits channels rate rest)
    (hv : 3980 ≤ version ∧ version < 2 ^ 16) (hd1 : d1.length = 2) (hd2 : d2.length = 40) (hx : 52 + extra.length < 2 ^ 32)
    (hpf : perFrame < 2 ^ 32) (hfin : 0 < final ∧ final < 2 ^ 32) (hfr : 0 < frames ∧ frames < 2 ^ 32) (h1 : final = 1 → frames = 1)
    (hb : bits < 256) (hc : 1 ≤ channels ∧ channels ≤ 32) (hr : 0 < rate ∧ rate < 2 ^ 32)
    (hs : final + perFrame * (frames - 1) < 2 ^ 39)
    (l : List Save) (hl : ∀ s ∈ l, s.Ok (o.with ⟨true, true⟩) audio) (hg : runAll o.junk l audio = .ok g) :
    let samples := final + perFrame * (frames - 1)
    ∃ n overall rate', (∀ k, n ≤ k → ∃ ts, wholeAs (o.deep k) ⟨true, true⟩ g .ape = .ok (ts,
        ⟨nearest (samples * 1000) rate, some overall, some rate', some rate, some bits, some channels, none⟩)) ∧
      (rateOf audio.length samples rate ≤ 2 ^ 32 - 2 → Near rate' (rateOf audio.length samples rate)) := by
  intro samples
  have h4 : audio.take 4 = ascii "MAC " := by
    rw [hfile, List.take_append_of_le_length (by decide), List.take_of_length_le (by decide)]
  have hdrop : audio.drop 4 = macHeader version d1 d2 extra level flags perFrame final frames bits channels rate rest := by
    rw [hfile, List.drop_append_of_le_length (by decide), List.drop_of_length_le (by decide), List.nil_append]
  obtain ⟨p, hp, rep⟩ := mac_fields (strict := decide ((o.with ⟨true, true⟩).id3.mode = .strict)) hv hd1 hd2 hx hpf hfin hfr h1 hb hc hr hs audio.length 0
    (rest := rest) (level := level) (flags := flags)
  rw [← hdrop] at hp
  obtain ⟨n, d0, h⟩ := mac_saves_properties rfl rfl ha h4 hp l hl hg
  refine ⟨d0, n, p.audio, fun k hk => ?_, rep.audio⟩
  obtain ⟨m, hm, -⟩ := h k hk
  refine ⟨macTagsOf o.custom m, ?_⟩
  change (readMacFile { (o.with ⟨true, true⟩) with depth := k } g).map _ = _
  rw [hm]
  obtain ⟨-, q2, q3, q4, q5, -, -⟩ := rep
  change Except.ok (_, Generic.ofMac _) = _
  unfold Generic.ofMac
  simp only
  rw [q2, q3, q4, q5]
  rfl

/-! ## OGG -/

open Lofty.OggProps in
/-- The properties of an OGG file are those of its identification header and of its last page. -/
theorem ogg_whole {o : ReadOptions} {tags : Bool} {f : Bytes} {fmt : OggWrite.Format} {ts : List Tag} {g : Generic}
    (h : wholeOgg o ⟨tags, true⟩ f fmt = .ok (ts, g)) :
    ∃ hd, readHeaders f fmt.head fmt.sig fmt.count tags = .ok hd ∧ oggProps fmt hd f = .ok g := by
  unfold wholeOgg at h
  obtain ⟨hd, h1, h⟩ := bind_ok h
  obtain ⟨v, -, h⟩ := bind_ok h
  simp only [if_true] at h
  obtain ⟨p, h2, h⟩ := bind_ok h
  cases h
  exact ⟨hd, h1, h2⟩

open Lofty.OggProps Lofty.Ogg Lofty.OggWrite in
theorem headers_eq {fmt : Format} {f ident comment rest d1 sig : Bytes} {others : List Bytes} {b : Bool} {a : Headers} {first : PageHeader}
    (hf : PageHeader.read 0 f = .ok (first, d1)) (hh : Headed fmt f (ident :: comment :: others) rest)
    (h : readHeaders f fmt.head sig fmt.count b = .ok a) : a = ⟨first.abgp, ident, comment, f.length - rest.length⟩ := by
  obtain ⟨p, k1, k4⟩ := hh
  unfold readHeaders at h
  rw [hf, ok_bind] at h
  simp only at h
  rw [k1, ok_bind] at h
  simp only at h
  rw [show p.get 0 = .ok (some ident) from get_holds p _ k4 0, ok_bind,
    show p.get 1 = .ok (some comment) from get_holds p _ k4 1, ok_bind] at h
  simp only at h
  split at h
  · cases h
  · split at h
    · cases h
    · cases h
      rfl

open Lofty.OggProps Lofty.Ogg Lofty.OggWrite in
/-- The last page of a file, behind the first `lo` bytes: behind its start, no marker of a page belongs to one. -/
def LastPage (f : Bytes) (lo : Nat) (page : Page) : Prop :=
  ∃ p r, lo ≤ p ∧ Page.read p (f.drop p) = .ok (page, r) ∧ ∀ j, p < j → (f.drop j).take 4 = ascii "OggS" → NotAPage f j

open Lofty.OggProps Lofty.Ogg Lofty.OggWrite in
/-- C79: **what is shown of an Opus file is what its identification header says**; the duration is that of the samples (48 in a millisecond)
between the first and the last page, less those to be skipped. -/
theorem opus_shown {o : ReadOptions} {tags : Bool} {f comment rest d1 more : Bytes} {first : PageHeader} {page : Page}
    {version channels family : UInt8} {preSkip rate gain : Nat} (h1 : preSkip < 2 ^ 16) (h2 : rate < 2 ^ 32) (h3 : gain < 2 ^ 16) {ident : Bytes}
    (hi : ident = opusHead ++ [version, channels] ++ leBytes 2 preSkip ++ leBytes 4 rate ++ leBytes 2 gain ++ [family] ++ more)
    (hf : PageHeader.read 0 f = .ok (first, d1)) (hh : Headed .opus f [ident, comment] rest)
    (hlast : LastPage f (f.length - rest.length) page) (hl : f.length < 2 ^ 61)
    (hs : 24 ≤ page.header.abgp - first.abgp - preSkip) (hs' : (page.header.abgp - first.abgp - preSkip) * 1000 + 24000 < 2 ^ 64)
    {ts : List Tag} {g : Generic} (h : wholeAs o ⟨tags, true⟩ f .opus = .ok (ts, g)) :
    let samples := page.header.abgp - first.abgp - preSkip
    ∃ ms mask, 48 * ms ≤ samples + 24 ∧ samples + 24 < 48 * (ms + 1) ∧ Channels.fromOpus channels.toNat = some mask ∧
      g = ⟨ms, some (f.length * 8 / ms % 2 ^ 32), some ((f.length - (ident.length + comment.length)) * 8 / ms % 2 ^ 32),
        some rate, none, some channels.toNat, some mask⟩ := by
  intro samples
  obtain ⟨hd, k1, k2⟩ := ogg_whole (show wholeOgg o ⟨tags, true⟩ f .opus = _ from h)
  have hlen := (readHeaders_ok (by decide) k1).1
  obtain rfl := headers_eq hf hh k1
  simp only at hlen
  obtain ⟨p, r, q1, q2, q3⟩ := hlast
  have hpage := findLast_found q1 q2 q3
  unfold oggProps at k2
  simp only at k2
  rw [hpage] at k2
  cases hp : opusProperties ⟨first.abgp, ident, comment, f.length - rest.length⟩ (.ok page) f.length with
  | error e => rw [hp] at k2; cases k2
  | ok q =>
    rw [hp] at k2
    obtain rfl : Generic.ofOpus q = g := (Except.ok.injEq _ _).mp k2
    obtain ⟨-, e2, e3, -, e5, -⟩ := (opus_fields h1 h2 h3 hi).2 q hp
    obtain ⟨ms, t1, t2, t3, t4⟩ := opusTimes_ok hl hlen hs hs'
    have hid : opusIdent ident = .ok ⟨version.toNat, channels.toNat, preSkip, rate, gain, family.toNat⟩ := by
      rw [hi]
      exact opusIdent_ok opusHead more version channels family preSkip rate gain (by decide) h1 h2 h3
    unfold opusProperties at hp
    simp only at hp
    rw [hid, ok_bind] at hp
    simp only at hp
    split at hp
    · cases hp
    · rw [e5] at hp
      simp only at hp
      rw [t1, ok_bind] at hp
      have hq := (Except.ok.injEq _ _).mp hp
      have hm := (opus_mask _ _ e5).1
      have hne : ¬ q.mask = 0 := by
        intro h0
        rw [h0] at hm e5
        have h00 : channels.toNat = 0 := by rw [← hm]; decide
        rw [h00] at e5
        cases e5
      refine ⟨ms, q.mask, t2, t3, e5, ?_⟩
      unfold Generic.ofOpus
      rw [if_neg hne, e2, e3, ← hq]

open Lofty.OggProps Lofty.Ogg Lofty.OggWrite in
/-- C79: **what is shown of a Vorbis file is what its identification header says**; the duration is that between the first and the last page. -/
theorem vorbis_shown {o : ReadOptions} {tags : Bool} {f comment setup rest d1 more : Bytes} {first : PageHeader} {page : Page}
    {version rate maximum nominal minimum : Nat} {channels : UInt8} (h1 : version < 2 ^ 32) (h2 : 0 < rate ∧ rate < 2 ^ 32) (h3 : maximum < 2 ^ 32)
    (h4 : nominal < 2 ^ 32) (h5 : minimum < 2 ^ 32)
    (hf : PageHeader.read 0 f = .ok (first, d1))
    (hh : Headed .vorbis f [vorbisPacket version channels rate maximum nominal minimum more, comment, setup] rest)
    (hlast : LastPage f (f.length - rest.length) page) (hv : page.Valid) (ht : first.abgp < page.header.abgp)
    {ts : List Tag} {g : Generic} (h : wholeAs o ⟨tags, true⟩ f .vorbis = .ok (ts, g)) :
    let samples := page.header.abgp - first.abgp
    ∃ ms, 2 * rate * ms ≤ 2 * (samples * 1000) + rate ∧ 2 * (samples * 1000) < 2 * rate * (ms + 1) ∧
      g = ⟨ms % 2 ^ 64, some (if ms % 2 ^ 64 = 0 then 0 else min (f.length * 8) (2 ^ 64 - 1) / (ms % 2 ^ 64) % 2 ^ 32), some (if 0 < nominal ∧ nominal < 2 ^ 31 then nominal / 1000 else 0),
        some rate, none, some channels.toNat, none⟩ := by
  intro samples
  obtain ⟨hd, k1, k2⟩ := ogg_whole (show wholeOgg o ⟨tags, true⟩ f .vorbis = _ from h)
  obtain rfl := headers_eq hf hh k1
  obtain ⟨p, r, q1, q2, q3⟩ := hlast
  have hpage := findLast_found q1 q2 q3
  unfold oggProps at k2
  simp only at k2
  rw [hpage] at k2
  obtain ⟨ms, t1, t2, t3⟩ := vorbisLength_ok first.abgp rate page hv h2.1 h2.2 ht
  refine ⟨ms, t2, t3, ?_⟩
  unfold vorbisProperties vorbisPacket at k2
  simp only [List.append_assoc] at k2
  rw [List.drop_left' (by decide), readLE_append _ h1, ok_bind] at k2
  simp only [List.cons_append, List.nil_append] at k2
  rw [readU8_cons, ok_bind] at k2
  simp only at k2
  rw [readLE_append _ h2.2, ok_bind] at k2
  simp only at k2
  rw [readLE_append _ h3, ok_bind] at k2
  simp only at k2
  rw [readLE_append _ h4, ok_bind] at k2
  simp only at k2
  rw [readLE_append _ h5, ok_bind] at k2
  simp only at k2
  rw [t1, ok_bind, nominal_rate h4] at k2
  obtain rfl := (Except.ok.injEq _ _).mp k2
  unfold Generic.ofVorbis satMul
  rfl

theorem except_map {α β : Type} {f : α → β} {x : Except Err α} {b : β} (h : x.map f = .ok b) : ∃ a, x = .ok a ∧ b = f a := by
  cases x with
  | error e => cases h
  | ok a => cases h; exact ⟨a, rfl, rfl⟩

theorem divRound_eq {a b n : Nat} (h : Math.divRound 64 a b = .ok n) : n = Lossless.nearest a b := by
  have h' := h
  unfold Math.divRound at h'
  split at h'
  · cases h'
  split at h'
  · cases h'
  rw [Lossless.divRound_nearest (by omega) (by omega)] at h
  exact ((Except.ok.injEq _ _).mp h).symm

open Lofty.OggProps Lofty.Ogg Lofty.OggWrite in
/-- C79: **what is shown of a Speex file is what its header says**. -/
theorem speex_shown {o : ReadOptions} {tags : Bool} {f comment rest d1 name more : Bytes} {first : PageHeader} {page : Page}
    {version size rate mode bitstream channels nominal frame vbr : Nat} (hn : name.length = 28) (hm : 16 ≤ more.length)
    (h1 : version < 2 ^ 32) (h2 : size < 2 ^ 32) (h3 : 0 < rate ∧ rate < 2 ^ 32) (h4 : mode < 2 ^ 32) (h5 : bitstream < 2 ^ 32) (h6 : channels < 2 ^ 32)
    (h7 : nominal < 2 ^ 32) (h8 : frame < 2 ^ 32) (h9 : vbr < 2 ^ 32) {ident : Bytes}
    (hi : ident = speexPacket name version size rate mode bitstream channels nominal frame vbr more)
    (hf : PageHeader.read 0 f = .ok (first, d1)) (hh : Headed .speex f [ident, comment] rest)
    (hlast : LastPage f (f.length - rest.length) page) (ht : first.abgp < page.header.abgp)
    {ts : List Tag} {g : Generic} (h : wholeAs o ⟨tags, true⟩ f .speex = .ok (ts, g)) :
    let ms := Lossless.nearest ((page.header.abgp - first.abgp) * 1000) rate
    let quotient := fun a => if 0 < nominal ∧ nominal < 2 ^ 31 then a / ms else Lossless.nearest a ms
    g = ⟨ms, some (quotient (min (f.length * 8) (2 ^ 64 - 1)) % 2 ^ 32),
        some (if 0 < nominal ∧ nominal < 2 ^ 31 then nominal / 1000
          else quotient (min ((f.length - (ident.length + comment.length)) * 8) (2 ^ 64 - 1)) % 2 ^ 32),
        some rate, none, some channels, none⟩ := by
  intro ms quotient
  obtain ⟨hd, k1, k2⟩ := ogg_whole (show wholeOgg o ⟨tags, true⟩ f .speex = _ from h)
  obtain rfl := headers_eq hf hh k1
  obtain ⟨p, r, q1, q2, q3⟩ := hlast
  have hpage := findLast_found q1 q2 q3
  unfold oggProps at k2
  simp only at k2
  rw [hpage] at k2
  have hil : ident.length = 80 - 16 + more.length := by
    rw [hi]; unfold speexPacket; simp only [List.length_append, leBytes_length, hn]
  unfold speexProperties at k2
  simp only at k2
  rw [if_neg (by omega)] at k2
  generalize hgen : ident.length = il at k2
  rw [hi] at k2
  unfold speexPacket at k2
  simp only [List.append_assoc] at k2
  rw [List.drop_left' hn, readLE_append _ h1, ok_bind] at k2
  simp only at k2
  split at k2
  · cases k2
  rw [readLE_append _ h2, ok_bind] at k2
  simp only at k2
  rw [readLE_append _ h3.2, ok_bind] at k2
  simp only at k2
  rw [readLE_append _ h4, ok_bind] at k2
  simp only at k2
  rw [readLE_append _ h5, ok_bind] at k2
  simp only at k2
  rw [readLE_append _ h6, ok_bind] at k2
  simp only at k2
  split at k2
  · cases k2
  rw [readLE_append _ h7, ok_bind] at k2
  simp only at k2
  rw [readLE_append _ h8, ok_bind] at k2
  simp only at k2
  rw [readLE_append _ h9, ok_bind] at k2
  simp only at k2
  obtain ⟨x, k3, rfl⟩ := except_map k2
  clear k2
  obtain ⟨⟨l, d⟩, hl, k2⟩ := bind_ok k3
  obtain ⟨⟨a, b⟩, hr, k2⟩ := bind_ok k2
  simp only at k2
  obtain rfl := (Except.ok.injEq _ _).mp k2
  obtain ⟨rfl, rfl⟩ : l = ms ∧ d = ms := by
    unfold speexLength at hl
    simp only at hl
    rw [if_pos h3.1, if_pos (by omega)] at hl
    unfold mulU64 at hl
    split at hl
    · cases hl
    rw [ok_bind] at hl
    obtain ⟨n, hn, hl⟩ := bind_ok hl
    cases hl
    exact ⟨divRound_eq hn, divRound_eq hn⟩
  have hsig : 0 < signed 32 nominal ↔ 0 < nominal ∧ nominal < 2 ^ 31 := by
    unfold signed
    split <;> omega
  have hnr := nominal_rate h7
  unfold Generic.ofSpeex
  simp only
  unfold speexRates at hr
  by_cases hpos : 0 < nominal ∧ nominal < 2 ^ 31
  · rw [if_pos (hsig.mpr hpos)] at hr
    unfold divU64 at hr
    split at hr
    · cases hr
    rw [ok_bind, hnr, if_pos hpos] at hr
    cases hr
    simp only [quotient, if_pos hpos]
    rfl
  · rw [if_neg (fun h => hpos (hsig.mp h))] at hr
    obtain ⟨x, hx, hr⟩ := bind_ok hr
    obtain ⟨y, hy, hr⟩ := bind_ok hr
    cases hr
    simp only [quotient, if_neg hpos]
    rw [divRound_eq hx, divRound_eq hy]
    rfl

/-! ## MPEG and AAC -/

open Lofty.FileTags in
theorem mpegProps_first {f : Bytes} {h : Mpeg.Header} {k n : Nat} {P : Mpeg.Props} (hP : mpegProps f (some (h, k)) n = .ok P) :
    P.sampleRate = h.sampleRate ∧ P.channels = if h.channelMode = .singleChannel then 1 else 2 := by
  unfold mpegProps at hP
  simp only at hP
  split at hP
  · cases hP
  obtain ⟨b, -, hP⟩ := bind_ok hP
  obtain ⟨v, -, hP⟩ := bind_ok hP
  have hrest : ∀ c, Mpeg.readProperties.rest f h k n c = .ok P → P.sampleRate = h.sampleRate ∧ P.channels = if h.channelMode = .singleChannel then 1 else 2 := by
    intro c hc
    unfold Mpeg.readProperties.rest at hc
    split at hc
    · cases hc; exact ⟨rfl, rfl⟩
    · obtain ⟨⟨pos, last⟩, -, hc⟩ := bind_ok hc
      cases last with
      | none => cases hc; exact ⟨rfl, rfl⟩
      | some last =>
        simp only at hc
        unfold Mpeg.cbrProperties at hc
        simp only at hc
        split at hc
        · cases hc; exact ⟨rfl, rfl⟩
        · obtain ⟨x, -, hc⟩ := bind_ok hc
          obtain ⟨y, -, hc⟩ := bind_ok hc
          cases hc
          exact ⟨rfl, rfl⟩
  unfold Mpeg.readProperties at hP
  cases v with
  | none => exact hrest _ hP
  | some v =>
    simp only at hP
    split at hP
    · unfold Mpeg.vbrProperties at hP
      obtain ⟨a1, -, hP⟩ := bind_ok hP
      obtain ⟨a2, -, hP⟩ := bind_ok hP
      obtain ⟨a3, -, hP⟩ := bind_ok hP
      obtain ⟨a4, -, hP⟩ := bind_ok hP
      obtain ⟨a5, -, hP⟩ := bind_ok hP
      obtain ⟨a6, -, hP⟩ := bind_ok hP
      obtain ⟨a7, -, hP⟩ := bind_ok hP
      cases hP
      exact ⟨rfl, rfl⟩
    · exact hrest _ hP

open Lofty.FileTags in
/-- C79: **what is shown of an MPEG file is what the header of its first frame says**, with the duration and the bit rate of its audio, after any
saves of tags to it.  A single channel is in the centre (4), stereo and joint stereo have left and right (3), two independent channels have no
places. -/
theorem mpeg_shown {o : ReadOptions} {audio g : Bytes} (ha : Audio (o.with ⟨true, true⟩) audio)
    {h : Mpeg.Header} {k : Nat} (hk : Mpeg.findNext audio (audio.length + 1) 0 = .ok (some (h, k)))
    {P : Mpeg.Props} (hP : mpegProps audio (some (h, k)) audio.length = .ok P) (hd : P.duration ≠ 0)
    (l : List Save) (hl : ∀ s ∈ l, s.Ok (o.with ⟨true, true⟩) audio) (hg : runAll o.junk l audio = .ok g) (hsz : g.length < 2 ^ 61) :
    ∃ n overall, ∀ d, n ≤ d → ∃ ts, wholeAs (o.deep d) ⟨true, true⟩ g .mpeg = .ok (ts,
      ⟨P.duration, some overall, some P.audio, some h.sampleRate, none, some (if h.channelMode = .singleChannel then 1 else 2),
        match h.channelMode with
        | .singleChannel => some 4
        | .stereo => some 3
        | .jointStereo => some 3
        | .dualChannel => none⟩) := by
  have hlay := runAll_layout ha l audio g _ hl (layout_plain ha) hg
  obtain ⟨P', hs, d0, h0⟩ := (readMpeg_layout rfl ha hlay hk).2 rfl hsz P hP hd
  generalize l.foldl (Tags.after (o.with ⟨true, true⟩)) ⟨none, none, none⟩ = t at hlay h0
  have hlong := ha.long
  obtain ⟨lead, ape, v1, x, y, z, hx, hy, hz, hv⟩ := hlay
  obtain ⟨d1, hfront⟩ := front_read (suf := ape ++ v1) rfl ha hx hk
  have hpad := layout_start ha hx (ape ++ v1)
  refine ⟨max d0 d1, P'.overall, fun d hd => ⟨tagsOf o.custom x z y, ?_⟩⟩
  change wholeMpeg (o.deep d) ⟨true, true⟩ _ = _
  unfold wholeMpeg
  have e1 := h0 d (by omega)
  have hne : (lead ++ (audio ++ (ape ++ v1))).length ≠ 0 := by simp only [List.length_append]; omega
  obtain ⟨n, hn⟩ : ∃ n, (lead ++ (audio ++ (ape ++ v1))).length + 1 = n + 2 := ⟨(lead ++ (audio ++ (ape ++ v1))).length - 1, by omega⟩
  have e2 := hfront d (by omega) n
  have ed : (o.deep d).with ⟨true, true⟩ = { (o.with ⟨true, true⟩) with depth := d } := rfl
  rw [ed, e1, ok_bind]
  simp only
  rw [hpad, Nat.sub_self, hn, e2, ok_bind]
  obtain ⟨s1, s2, s3, s4⟩ := hs
  obtain ⟨f1, f2⟩ := mpegProps_first hP
  simp only
  unfold Generic.ofMpeg
  rw [s1, s2, s3, s4, f1, f2]
  cases h.channelMode <;> rfl

open Lofty.FileTags in
/-- C79: **what is shown of an AAC file is what the header of its first frame says**, after any saves of tags to it, if it can be opened. -/
theorem aac_shown {o : ReadOptions} {audio g : Bytes} (ha : Audio (o.with ⟨true, true⟩) audio)
    {h : Aac.Header} {k : Nat} (hk : Aac.findNext audio (audio.length + 1) 0 = .ok (some (h, k)))
    (l : List Save) (hl : ∀ s ∈ l, s.Ok (o.with ⟨true, true⟩) audio) (hg : runAll o.junk l audio = .ok g) :
    ∃ n, ∀ d, n ≤ d → ∀ ts s, wholeAs (o.deep d) ⟨true, true⟩ g .aac = .ok (ts, s) →
      ∃ duration rate, s = ⟨duration, some rate, some rate, some h.sampleRate, none, some h.channels, Channels.fromMp4 h.channels⟩ := by
  have hlay := runAll_layout ha l audio g _ hl (layout_plain ha) hg
  generalize l.foldl (Tags.after (o.with ⟨true, true⟩)) ⟨none, none, none⟩ = t at hlay
  have hlong := ha.long
  obtain ⟨lead, ape, v1, x, y, z, hx, hy, hz, hv⟩ := hlay
  obtain ⟨d1, hfront⟩ := aacFront_read (suf := ape ++ v1) rfl ha hx hk
  have hpad := layout_start ha hx (ape ++ v1)
  have hne : (lead ++ (audio ++ (ape ++ v1))).length ≠ 0 := by simp only [List.length_append]; omega
  obtain ⟨n, hn⟩ : ∃ n, (lead ++ (audio ++ (ape ++ v1))).length + 1 = n + 2 := ⟨(lead ++ (audio ++ (ape ++ v1))).length - 1, by omega⟩
  refine ⟨d1, fun d hd ts s hw => ?_⟩
  have e2 := hfront d hd n
  rw [← hn] at e2
  have ed : (o.deep d).with ⟨true, true⟩ = { (o.with ⟨true, true⟩) with depth := d } := rfl
  change wholeAac (o.deep d) ⟨true, true⟩ _ = _ at hw
  unfold wholeAac at hw
  obtain ⟨m, hm, hw⟩ := bind_ok hw
  cases hp : m.props with
  | none =>
    rw [ed] at hm
    unfold readAac at hm
    simp only at hm
    rw [hpad, Nat.sub_self, if_neg (fun h => hne h.symm), e2, ok_bind] at hm
    obtain ⟨a, -, hm⟩ := bind_ok hm
    obtain ⟨b, -, hm⟩ := bind_ok hm
    rw [if_pos (show (o.with ⟨true, true⟩).readProps = true from rfl)] at hm
    obtain ⟨c, -, hm⟩ := bind_ok hm
    cases hm
    cases hp
  | some p =>
    rw [hp] at hw
    simp only at hw
    rw [ed, hpad, Nat.sub_self, e2, ok_bind] at hw
    cases hw
    exact ⟨p.duration, p.bitrate, rfl⟩

open Lofty.FileTags in
/-- A Musepack file behind any saves: the properties are read from the audio and what follows it. -/
theorem mpc_whole {o : ReadOptions} {audio g : Bytes} (ha : Audio (o.with ⟨true, true⟩) audio) (l : List Save)
    (hl : ∀ s ∈ l, s.Ok (o.with ⟨true, true⟩) audio) (hg : runAll o.junk l audio = .ok g) :
    ∃ n suf ts, ∀ d, n ≤ d → wholeAs (o.deep d) ⟨true, true⟩ g .mpc =
      (mpcProps o.mode (audio ++ suf) audio.length).map fun q => (ts, .ofMpc q) := by
  have hlay := runAll_layout ha l audio g _ hl (layout_plain ha) hg
  obtain ⟨d0, h0⟩ := readMpc_layout rfl ha hlay
  generalize l.foldl (Tags.after (o.with ⟨true, true⟩)) ⟨none, none, none⟩ = t at hlay h0
  obtain ⟨lead, ape, v1, x, y, z, hx, hy, hz, hv⟩ := hlay
  obtain ⟨r, r1, -⟩ := find_lead (suf := ape ++ v1) rfl ha hx
  refine ⟨d0, ape ++ v1, tagsOf o.custom x z y, fun d hd => ?_⟩
  change wholeMpc (o.deep d) ⟨true, true⟩ _ = _
  unfold wholeMpc
  have ed : (o.deep d).with ⟨true, true⟩ = { (o.with ⟨true, true⟩) with depth := d } := rfl
  rw [ed, h0 d hd, ok_bind]
  simp only [if_true]
  rw [show Id3v2.find (lead ++ (audio ++ (ape ++ v1))) 0 true none = _ from r1, ok_bind]
  simp only
  rw [List.drop_left' rfl]
  change (mpcProps o.mode _ _).bind _ = _
  cases mpcProps o.mode (audio ++ (ape ++ v1)) audio.length <;> rfl

open Lofty.FileTags Lofty.Mpc Lofty.Mpc.Spec in
/-- C79: **what is shown of a Musepack file of version 8 is what its last stream header says**, after any saves of tags to it: the duration is
that of the samples less those of the silence at the beginning, the bit rates that of the contents of all packets. -/
theorem mpc8_shown {o : ReadOptions} {audio g : Bytes} (ha : Audio (o.with ⟨true, true⟩) audio) {p : List Packet} {q : Packet} {rest : Bytes}
    (hfile : audio = ascii "MPCK" ++ ((p.map Packet.bytes).flatten ++ q.bytes ++ rest))
    (hp : ∀ x ∈ p, x.Valid ∧ Readable x ∧ x.key ≠ ascii "SE") (hq : q.Valid) (hqe : q.key = ascii "SE")
    {crc count silence k1 k2 freq bands channels block : Nat} {version : UInt8} {ms : Bool}
    (hcrc : crc < 2 ^ 32) (hk1 : 1 ≤ k1 ∧ k1 ≤ 9 ∧ count < 128 ^ k1) (hk2 : 1 ≤ k2 ∧ k2 ≤ 9 ∧ silence < 128 ^ k2)
    (hfreq : freq < 4) (hbands : bands < 32) (hch : channels < 16) (hblock : block < 8) {more : Bytes}
    (hsh : last "SH" p = some (beBytes 4 crc ++ version :: (size k1 count ++ (size k2 silence ++
        UInt8.ofNat (freq * 32 + bands) :: UInt8.ofNat (channels * 16 + (if ms then 8 else 0) + block) :: more))))
    {gain : ReplayGain} (hrg : value ReplayGain.read (last "RG" p) = some gain)
    (hpos : 0 < ((p ++ [q]).map (·.payload.length)).sum) (hsum : ((p ++ [q]).map (·.payload.length)).sum < 2 ^ 45)
    (hsil : silence < count) (hcount : count < 2 ^ 54)
    (l : List Save) (hl : ∀ s ∈ l, s.Ok (o.with ⟨true, true⟩) audio) (hg : runAll o.junk l audio = .ok g) :
    let rate := [44100, 48000, 37800, 32000].getD freq 0
    let average := ((p ++ [q]).map (·.payload.length)).sum * 8 * rate / ((count - silence) * 1000) % 2 ^ 32
    ∃ n, ∀ d, n ≤ d → ∃ ts, wholeAs (o.deep d) ⟨true, true⟩ g .mpc = .ok (ts,
      ⟨Lossless.nearest ((count - silence) * 1000) rate, some average, some average, some rate, none, some (channels + 1), none⟩) := by
  intro rate average
  obtain ⟨n, suf, ts, h⟩ := mpc_whole ha l hl hg
  refine ⟨n, fun d hd => ⟨ts, ?_⟩⟩
  rw [h d hd]
  have hrate : 0 < rate ∧ rate ≤ 48000 := by
    have : freq = 0 ∨ freq = 1 ∨ freq = 2 ∨ freq = 3 := by omega
    rcases this with rfl | rfl | rfl | rfl <;> decide
  have hst := streamHeader_read (freq := freq) (version := version) (ms := ms) hcrc hk1 hk2 (by omega) hbands hch hblock more
  have e := sv8_read hp hq hqe (rest ++ suf) (by omega) (h := _) (g := gain)
    (show value StreamHeader.read (last "SH" p) = some _ by rw [hsh]; unfold value; simp only; rw [hst]) hrg hpos o.mode
  have hm4 : (ascii "MPCK").length = 4 := by decide
  unfold mpcProps
  rw [hfile, List.append_assoc, if_pos (by rw [List.take_append_of_le_length (by omega), List.take_of_length_le (by omega)]),
    List.drop_left' hm4, List.append_assoc _ rest suf, e]
  unfold sv8Properties
  simp only
  rw [if_neg (by omega), if_neg (by change ¬ rate = 0; omega), if_neg (by omega), if_neg (by omega), if_neg (by omega)]
  change Except.map _ (Except.map _ ((Math.divRound 64 ((count - silence) * 1000) rate).bind _)) = _
  rw [Lossless.divRound_nearest hrate.1 (by omega)]
  have hprod : ((p ++ [q]).map (·.payload.length)).sum * 8 * rate < 2 ^ 64 := by
    have : ((p ++ [q]).map (·.payload.length)).sum * 8 * rate ≤ (2 ^ 45 * 8) * 48000 := Nat.mul_le_mul (by omega) hrate.2
    omega
  change Except.map _ (Except.map _ (if _ then _ else _)) = _
  rw [if_neg (by
    change ¬ (2 ^ 64 ≤ _ ∨ 2 ^ 64 ≤ ((p ++ [q]).map (·.payload.length)).sum * 8 * rate)
    omega)]
  rfl

open Lofty.FileTags Lofty.Mpc in
/-- C79: **what is shown of a Musepack file of version 7**, after any saves of tags to it: the sampling rate of its header, and two channels. -/
theorem mpc7_shown {o : ReadOptions} {audio g : Bytes} (ha : Audio (o.with ⟨true, true⟩) audio)
    {high count maxLevel freq link profile maxBand tp tg ap ag unused length : Nat} {encoder : UInt8} {midSide intensity fast gapless : Bool}
    {rest : Bytes} (h0 : high < 16) (h1 : count < 2 ^ 32) (h2 : maxLevel < 2 ^ 16) (h3 : freq < 4) (h4 : link < 4) (h5 : profile < 16)
    (h6 : maxBand < 64) (h7 : tp < 2 ^ 16) (h8 : tg < 2 ^ 16) (h9 : ap < 2 ^ 16) (h10 : ag < 2 ^ 16) (h11 : unused < 2 ^ 19) (h12 : length < 2 ^ 11)
    (hfile : audio = ascii "MP+" ++ (leBytes 1 (7 + 16 * high) ++ leBytes 4 count ++
      leBytes 4 (sv7Word maxLevel freq link profile maxBand midSide intensity) ++ leBytes 2 tp ++ leBytes 2 tg ++ leBytes 2 ap ++ leBytes 2 ag ++
      leBytes 4 (sv7Tail unused fast length gapless) ++ [encoder] ++ rest))
    (l : List Save) (hl : ∀ s ∈ l, s.Ok (o.with ⟨true, true⟩) audio) (hg : runAll o.junk l audio = .ok g) :
    ∃ n, ∀ d, n ≤ d → ∀ ts s, wholeAs (o.deep d) ⟨true, true⟩ g .mpc = .ok (ts, s) →
      ∃ duration average, s = ⟨duration, some average, some average, some (sv7Rate freq), none, some 2, none⟩ := by
  obtain ⟨n, suf, ts', h⟩ := mpc_whole ha l hl hg
  refine ⟨n, fun d hd ts s hw => ?_⟩
  rw [h d hd] at hw
  obtain ⟨x, hx, e⟩ := except_map hw
  cases e
  have hm3 : (ascii "MP+").length = 3 := by decide
  unfold mpcProps at hx
  rw [hfile, List.append_assoc (ascii "MP+")] at hx
  have ht4 : List.take 4 (ascii "MP+" ++ (leBytes 1 (7 + 16 * high) ++ leBytes 4 count ++
      leBytes 4 (sv7Word maxLevel freq link profile maxBand midSide intensity) ++ leBytes 2 tp ++ leBytes 2 tg ++ leBytes 2 ap ++ leBytes 2 ag ++
      leBytes 4 (sv7Tail unused fast length gapless) ++ [encoder] ++ rest ++ suf)) ≠ ascii "MPCK" := by
    intro hc
    have := congrArg (List.take 3) hc
    rw [List.take_take, List.take_append_of_le_length (by omega)] at this
    revert this
    decide
  rw [if_neg ht4, if_pos (by rw [List.take_append_of_le_length (by omega), List.take_of_length_le (by omega)]), List.drop_left' hm3] at hx
  obtain ⟨p, hp, rfl⟩ := except_map hx
  rw [List.append_assoc _ rest suf] at hp
  have f := sv7_fields h0 h1 h2 h3 h4 h5 h6 h7 h8 h9 h10 h11 h12 hp
  refine ⟨sv7Duration p, p.averageBitrate, ?_⟩
  change Generic.ofMpc (.sv7 p (sv7Duration p)) = _
  unfold Generic.ofMpc
  simp only
  rw [f.2.1, f.2.2.1]

theorem le4_take3 {w a b c : Nat} (h : (leBytes 4 w).take 3 = [UInt8.ofNat a, UInt8.ofNat b, UInt8.ofNat c]) (ha : a < 256) (hb : b < 256) (hc : c < 256) :
    w % 2 ^ 24 = a + 256 * b + 65536 * c := by
  simp only [leBytes, List.take, List.cons.injEq, and_true] at h
  obtain ⟨e1, e2, e3⟩ := h
  have f1 := congrArg UInt8.toNat e1
  have f2 := congrArg UInt8.toNat e2
  have f3 := congrArg UInt8.toNat e3
  simp only [UInt8.toNat_ofNat'] at f1 f2 f3
  omega

open Lofty.FileTags Lofty.Mpc in
/-- C79: **what is shown of a Musepack file of the versions 4 to 6**, after any saves of tags to it: the duration follows from the number of
frames in its header; the rate is 44100 Hz, with two channels. -/
theorem mpc4_shown {o : ReadOptions} {audio g : Bytes} (ha : Audio (o.with ⟨true, true⟩) audio)
    {block maxBand version bitrate count : Nat} {midSide intensity : Bool} {more : List Nat} {rest : Bytes}
    (h1 : block < 2 ^ 6) (h2 : maxBand < 2 ^ 5) (h3 : version < 2 ^ 10) (h4 : bitrate < 2 ^ 9) (h5 : count < 2 ^ 32)
    (hm : more.length = 6) (hw : ∀ w ∈ more, w < 2 ^ 32)
    (hfile : audio = leBytes 4 (sv4Word block maxBand version midSide intensity bitrate) ++ leBytes 4 count ++ more.flatMap (leBytes 4) ++ rest)
    (hv : 4 ≤ version ∧ version ≤ 6) (hstrict : o.mode = .strict → bitrate = 0 ∧ intensity = false ∧ block = 1)
    (l : List Save) (hl : ∀ s ∈ l, s.Ok (o.with ⟨true, true⟩) audio) (hg : runAll o.junk l audio = .ok g) :
    ∃ n average, ∀ d, n ≤ d → ∃ ts, wholeAs (o.deep d) ⟨true, true⟩ g .mpc = .ok (ts,
      ⟨if sv4Frames version count = 0 then 0 else ((sv4Frames version count * 1152 - 481) * 1000 + 22050) / 44100,
        some average, some average, some 44100, none, some 2, none⟩) := by
  obtain ⟨n, suf, ts, h⟩ := mpc_whole ha l hl hg
  have hms : midSide.toNat < 2 := by cases midSide <;> decide
  have his : intensity.toNat < 2 := by cases intensity <;> decide
  have hbad : ∀ a b c, a < 256 → b < 256 → c < 256 → (a + 256 * b + 65536 * c) / 2048 % 1024 ≠ version →
      ∀ r, List.take 3 (audio ++ r) ≠ [UInt8.ofNat a, UInt8.ofNat b, UInt8.ofNat c] := by
    intro a b c ha' hb' hc' hne r hc
    have hl4 : (leBytes 4 (sv4Word block maxBand version midSide intensity bitrate)).length = 4 := by simp
    rw [hfile, List.append_assoc, List.append_assoc, List.append_assoc, List.take_append_of_le_length (by omega)] at hc
    have := le4_take3 hc ha' hb' hc'
    unfold sv4Word at this
    omega
  have e := sv4_fields (midSide := midSide) (intensity := intensity) (rest := rest ++ suf) h1 h2 h3 h4 h5 hm hw o.mode
  rw [if_neg (by
    rintro (h | h | ⟨hs, h⟩)
    · omega
    · omega
    · obtain ⟨a, b, c⟩ := hstrict hs
      rcases h with h | h | h
      · exact h a
      · rw [b] at h; cases h
      · exact h c)] at e
  have key : ∃ b, mpcProps o.mode (audio ++ suf) audio.length = .ok (.sv4
      { frameCount := sv4Frames version count, midSideStereo := midSide, streamVersion := version, maxBand := maxBand
        duration := if sv4Frames version count = 0 then 0 else ((sv4Frames version count * 1152 - 481) * 1000 + 22050) / 44100 } b) := by
    unfold mpcProps
    rw [if_neg (fun hc => by
      have h3' : List.take 3 (List.take 4 (audio ++ suf)) = List.take 3 (ascii "MPCK") := by rw [hc]
      rw [List.take_take] at h3'
      exact hbad 0x4D 0x50 0x43 (by omega) (by omega) (by omega) (by omega) suf h3'),
      if_neg (show ¬ List.take 3 (audio ++ suf) = ascii "MP+" from hbad 0x4D 0x50 0x2B (by omega) (by omega) (by omega) (by omega) suf)]
    rw [← List.append_assoc, ← hfile] at e
    rw [e, ok_bind]
    rw [hfile, List.append_assoc, List.append_assoc, List.append_assoc, readLE_append _ (by unfold sv4Word; omega), ok_bind]
    exact ⟨_, rfl⟩
  obtain ⟨b, hb⟩ := key
  refine ⟨n, b, fun d hd => ⟨ts, ?_⟩⟩
  rw [h d hd, hb]
  rfl

open Lofty.Mp4 Lofty.Mp4Write Lofty.Mp4Read Lofty.Mp4Props Lofty.Ilst in
/-- A file with a tag as the writer leaves it, or without any. -/
def Mp4File (before moov after : Forest) : Prop :=
  (∃ x : File, x.Ok ∧ Clear x ∧ before = x.before ∧ moov = x.moov x.space ∧ after = x.after) ∨ Plain before moov after ∧ Silent moov

open Lofty.Mp4 Lofty.Mp4Write Lofty.Mp4Read Lofty.Mp4Props Lofty.Ilst in
/-- The bit rate of the audio: that of the audio data if the table of the samples has more than one length, or else the one `given` with the
description of the codec; if there is none, that of the audio data again. -/
def mp4Rate (stts : Option (List (Nat × Nat))) (given timescale duration mdat ms : Nat) : Nat :=
  let rate := match stts with
    | none => given
    | some [(_, 1)] => given
    | some _ => mdat * 8 * timescale / duration / 1000
  if rate = 0 then mdat * 8 / ms else rate

open Lofty.Mp4 Lofty.Mp4Write Lofty.Mp4Read Lofty.Mp4Props Lofty.Ilst in
theorem mp4_whole {o : ReadOptions} {stsd : Bytes} {before moov after : Forest} (hx : Mp4File before moov after)
    {timescale duration mdat : Nat} {stts : Option (List (Nat × Nat))} (ha : Audio before moov after timescale duration stsd stts mdat)
    (hlim : stsd.length ≤ o.mp4.limit) (hst : ∀ l, stts = some l → l.length ≤ o.mp4.limit) (hts : 0 < timescale)
    (hfit : duration * 1000 + timescale < 2 ^ 64) (hms : 8 ≤ Lossless.nearest (duration * 1000) timescale) (hbits : mdat * 8 * timescale / duration < 2 ^ 32)
    {q : Props} {given : Nat} (hgiven : q.audio = none ∧ given = 0 ∨ q.audio = some given)
    (hq : readStsd o.mp4.opts.mode o.mp4.limit stsd { duration := Lossless.nearest (duration * 1000) timescale } = .ok q)
    {w : Shown} (h : wholeAs o ⟨true, true⟩ (whole before moov after).bytes .mp4 = .ok w) :
    let ms := Lossless.nearest (duration * 1000) timescale
    w.2 = ⟨ms, some ((whole before moov after).bytes.length * 8 / ms), some (mp4Rate stts given timescale duration mdat ms), q.sampleRate, q.bitDepth,
      q.channels, none⟩ := by
  intro ms
  have h' : ((Mp4Props.readFile { o.mp4 with tags := true, properties := true } (whole before moov after).bytes).bind fun r => _) = .ok w := h
  obtain ⟨cfg, hcfg⟩ : ∃ cfg : Config, { o.mp4 with tags := true, properties := true } = cfg := ⟨_, rfl⟩
  rw [hcfg] at h'
  obtain ⟨⟨b, t, p⟩, h1, h2⟩ := bind_ok h'
  have hp : cfg.properties = true := by rw [← hcfg]
  have htg : cfg.tags = true := by rw [← hcfg]
  have hl : cfg.limit = o.mp4.limit := by rw [← hcfg]
  have hm : cfg.opts.mode = o.mp4.opts.mode := by rw [← hcfg]
  have hread : ∃ brand tag, FileOk before moov after brand ∧ after.Ok ∧
      readFrom cfg (whole before moov after).bytes = .ok (brand, ⟨found cfg (before.bytes.length + 8) moov, tag⟩) := by
    rcases hx with ⟨x, hx, hc, rfl, rfl, rfl⟩ | ⟨hpl, hsil⟩
    · obtain ⟨brand, hok, hr⟩ := read_file x hx hc cfg htg
      have h1' := h1
      unfold readFile at h1'
      obtain ⟨⟨b', m⟩, k1, -⟩ := bind_ok h1'
      have k0 := k1
      change readFrom cfg x.bytes = _ at k1
      rw [hr] at k1
      obtain ⟨t0, k2, k3⟩ := bind_ok k1
      refine ⟨brand, some t0, hok, hx.after.1, ?_⟩
      change readFrom cfg x.bytes = _
      rw [hr, k2]
      rfl
    · obtain ⟨c0, rest0, hbr, h4, brand, hd⟩ := hpl.brand
      have hok0 : FileOk before moov after brand := ⟨⟨c0, rest0, hbr, h4, hd⟩, hpl.front, hpl.inner, hpl.size⟩
      exact ⟨brand, none, hok0, hpl.back, read_silent hok0 hsil cfg⟩
  obtain ⟨brand, tag, hok, haf, hread⟩ := hread
  have := file_props_partial hok haf ha cfg hp hread (by omega) (by intro l hl'; rw [hl]; exact hst l hl') hts hfit hms hbits
    (q := q) (by rw [hm, hl]; exact hq)
  have e1 := h1.symm.trans this
  simp only [Except.ok.injEq, Prod.mk.injEq] at e1
  obtain ⟨-, -, rfl⟩ := e1
  obtain rfl := (Except.ok.injEq _ _).mp h2
  simp only [Option.elim, Generic.ofMp4]
  congr 1
  have key : ∀ (a : Option Nat) (b : Nat), (a = none ∧ b = 0 ∨ a = some b) →
      (if a = none ∨ a = some 0 then some (mdat * 8 / ms) else a) = some (if b = 0 then mdat * 8 / ms else b) := by
    rintro a b (⟨rfl, rfl⟩ | rfl)
    · rfl
    · by_cases hb : b = 0
      · rw [hb]; rfl
      · rw [if_neg (by simp [hb]), if_neg hb]
  unfold mp4Rate
  refine key _ _ ?_
  match stts with
  | none => exact hgiven
  | some [] => exact .inr rfl
  | some [(a, 0)] => exact .inr rfl
  | some [(a, 1)] => exact hgiven
  | some [(a, b + 2)] => exact .inr rfl
  | some ((a, 0) :: b :: c) => exact .inr rfl
  | some ((a, 1) :: b :: c) => exact .inr rfl
  | some ((a, n + 2) :: b :: c) => exact .inr rfl

theorem average_given (average : Nat) {ms : Nat} (h : 8 ≤ ms) : (if 0 < average ∨ ms = 0 then some (average / 1000) else none) = none ∧ average / 1000 = 0 ∨
    (if 0 < average ∨ ms = 0 then some (average / 1000) else none) = some (average / 1000) := by
  by_cases h0 : 0 < average
  · right; rw [if_pos (.inl h0)]
  · left; exact ⟨by rw [if_neg (by omega)], by omega⟩

open Lofty.Mp4 Lofty.Mp4Write Lofty.Mp4Read Lofty.Mp4Props Lofty.Ilst in
/-- C79: **what is shown of an MP4 file with AAC audio is what the headers of its first track with sound say**: the duration is that of the media
header, the sampling rate and the number of channels those of the configuration of the codec. -/
theorem mp4_shown_partial {o : ReadOptions} {flags : Bytes} {count : Nat} {e : Entry} {l1 l2 l3 stream sizes kids rest tail : Bytes} {codec average : Nat}
    {type frequency channels more : Nat} (hf : flags.length = 4) (hcount : 0 < count ∧ count < 2 ^ 32) (he : e.Ok)
    (hl1 : LenOk l1) (hl2 : LenOk l2) (hl3 : LenOk l3) (hs : stream.length = 3) (hz : sizes.length = 8) (hco : codec < 256) (hav : average < 2 ^ 32)
    (ht : type ∈ types) (ht31 : type < 31) (hfr : frequency < 13) (hch : channels < 7) (hm : more < 8)
    (hsz : 36 + e.extra.length + (box (ascii "esds") (esdsOf l1 l2 l3 stream codec sizes average (configOf type frequency channels more ++ tail)) ++ kids).length < 2 ^ 32)
    {stsd : Bytes} (hstsd : stsd = stsdOf flags count (ascii "mp4a") e
      (box (ascii "esds") (esdsOf l1 l2 l3 stream codec sizes average (configOf type frequency channels more ++ tail)) ++ kids) rest)
    {before moov after : Forest} (hx : Mp4File before moov after)
    {timescale duration mdat : Nat} {stts : Option (List (Nat × Nat))} (ha : Audio before moov after timescale duration stsd stts mdat)
    (hlim : stsd.length ≤ o.mp4.limit) (hst : ∀ l, stts = some l → l.length ≤ o.mp4.limit) (hts : 0 < timescale)
    (hfit : duration * 1000 + timescale < 2 ^ 64) (hms : 8 ≤ Lossless.nearest (duration * 1000) timescale) (hbits : mdat * 8 * timescale / duration < 2 ^ 32)
    {w : Shown} (h : wholeAs o ⟨true, true⟩ (whole before moov after).bytes .mp4 = .ok w) :
    let ms := Lossless.nearest (duration * 1000) timescale
    w.2 = ⟨ms, some ((whole before moov after).bytes.length * 8 / ms), some (mp4Rate stts (average / 1000) timescale duration mdat ms),
      some (frequencies.getD frequency 0), none, some (if channels = 0 then e.channels else channels), none⟩ := by
  have hq := aac_fields (flags := flags) (count := count) (rest := rest) (tail := tail) hf hcount he hl1 hl2 hl3 hs hz hco hav ht ht31 hfr hch hm hsz
    o.mp4.opts.mode o.mp4.limit { duration := Lossless.nearest (duration * 1000) timescale }
  rw [← hstsd] at hq
  exact mp4_whole hx ha hlim hst hts hfit hms hbits (average_given average hms) hq h

open Lofty.Mp4 Lofty.Mp4Write Lofty.Mp4Read Lofty.Mp4Props Lofty.Ilst in
/-- C79: the same for the types of audio from 32, with the number of channels of the sample entry. -/
theorem mp4_escaped_shown_partial {o : ReadOptions} {flags : Bytes} {count : Nat} {e : Entry} {l1 l2 l3 stream sizes kids rest tail : Bytes} {codec average : Nat}
    {type frequency more : Nat} (hf : flags.length = 4) (hcount : 0 < count ∧ count < 2 ^ 32) (he : e.Ok)
    (hl1 : LenOk l1) (hl2 : LenOk l2) (hl3 : LenOk l3) (hs : stream.length = 3) (hz : sizes.length = 8) (hco : codec < 256) (hav : average < 2 ^ 32)
    (ht : 32 ≤ type ∧ type < 40) (ht36 : type ≠ 36) (hfr : frequency < 13) (hm : more < 32)
    (hsz : 36 + e.extra.length + (box (ascii "esds") (esdsOf l1 l2 l3 stream codec sizes average (escapedConfigOf type frequency 0 more ++ tail)) ++ kids).length < 2 ^ 32)
    {stsd : Bytes} (hstsd : stsd = stsdOf flags count (ascii "mp4a") e
      (box (ascii "esds") (esdsOf l1 l2 l3 stream codec sizes average (escapedConfigOf type frequency 0 more ++ tail)) ++ kids) rest)
    {before moov after : Forest} (hx : Mp4File before moov after)
    {timescale duration mdat : Nat} {stts : Option (List (Nat × Nat))} (ha : Audio before moov after timescale duration stsd stts mdat)
    (hlim : stsd.length ≤ o.mp4.limit) (hst : ∀ l, stts = some l → l.length ≤ o.mp4.limit) (hts : 0 < timescale)
    (hfit : duration * 1000 + timescale < 2 ^ 64) (hms : 8 ≤ Lossless.nearest (duration * 1000) timescale) (hbits : mdat * 8 * timescale / duration < 2 ^ 32)
    {w : Shown} (h : wholeAs o ⟨true, true⟩ (whole before moov after).bytes .mp4 = .ok w) :
    let ms := Lossless.nearest (duration * 1000) timescale
    w.2 = ⟨ms, some ((whole before moov after).bytes.length * 8 / ms), some (mp4Rate stts (average / 1000) timescale duration mdat ms),
      some (frequencies.getD frequency 0), none, some e.channels, none⟩ := by
  have hq := escaped_fields (flags := flags) (count := count) (rest := rest) (tail := tail) hf hcount he hl1 hl2 hl3 hs hz hco hav ht ht36 hfr hm hsz
    o.mp4.opts.mode o.mp4.limit { duration := Lossless.nearest (duration * 1000) timescale }
  rw [← hstsd] at hq
  exact mp4_whole hx ha hlim hst hts hfit hms hbits (average_given average hms) hq h

open Lofty.Mp4 Lofty.Mp4Write Lofty.Mp4Read Lofty.Mp4Props Lofty.Ilst in
/-- C79: the same for Audio Lossless Coding, with the sampling rate and the number of channels of its own header. -/
theorem mp4_als_shown_partial {o : ReadOptions} {flags : Bytes} {count : Nat} {e : Entry} {l1 l2 l3 stream sizes kids rest tail : Bytes} {codec average : Nat}
    {rate frequency samples channels : Nat} (hf : flags.length = 4) (hcount : 0 < count ∧ count < 2 ^ 32) (he : e.Ok)
    (hl1 : LenOk l1) (hl2 : LenOk l2) (hl3 : LenOk l3) (hs : stream.length = 3) (hz : sizes.length = 8) (hco : codec < 256) (hav : average < 2 ^ 32)
    (hr : rate < 2 ^ 24) (hfr : frequency < 2 ^ 32) (hch : 0 < channels ∧ channels < 256)
    (hsz : 36 + e.extra.length + (box (ascii "esds") (esdsOf l1 l2 l3 stream codec sizes average (alsOf rate frequency samples channels ++ tail)) ++ kids).length < 2 ^ 32)
    {stsd : Bytes} (hstsd : stsd = stsdOf flags count (ascii "mp4a") e
      (box (ascii "esds") (esdsOf l1 l2 l3 stream codec sizes average (alsOf rate frequency samples channels ++ tail)) ++ kids) rest)
    {before moov after : Forest} (hx : Mp4File before moov after)
    {timescale duration mdat : Nat} {stts : Option (List (Nat × Nat))} (ha : Audio before moov after timescale duration stsd stts mdat)
    (hlim : stsd.length ≤ o.mp4.limit) (hst : ∀ l, stts = some l → l.length ≤ o.mp4.limit) (hts : 0 < timescale)
    (hfit : duration * 1000 + timescale < 2 ^ 64) (hms : 8 ≤ Lossless.nearest (duration * 1000) timescale) (hbits : mdat * 8 * timescale / duration < 2 ^ 32)
    {w : Shown} (h : wholeAs o ⟨true, true⟩ (whole before moov after).bytes .mp4 = .ok w) :
    let ms := Lossless.nearest (duration * 1000) timescale
    w.2 = ⟨ms, some ((whole before moov after).bytes.length * 8 / ms), some (mp4Rate stts (average / 1000) timescale duration mdat ms),
      some frequency, none, some channels, none⟩ := by
  have hq := als_fields (flags := flags) (count := count) (rest := rest) (tail := tail) hf hcount he hl1 hl2 hl3 hs hz hco hav hr hfr hch hsz
    o.mp4.opts.mode o.mp4.limit { duration := Lossless.nearest (duration * 1000) timescale }
  rw [← hstsd] at hq
  exact mp4_whole hx ha hlim hst hts hfit hms hbits (average_given average hms) hq h

open Lofty.Mp4 Lofty.Mp4Write Lofty.Mp4Read Lofty.Mp4Props Lofty.Ilst in
/-- C79: **what is shown of an MP4 file with Apple Lossless audio is what its description of the codec says.** -/
theorem mp4_alac_shown_partial {o : ReadOptions} {flags : Bytes} {count : Nat} {e : Entry} {version perFrame rice maxima : Bytes} {compatible : UInt8}
    {bits channels average rate : Nat}
    (hf : flags.length = 4) (hc : 0 < count ∧ count < 2 ^ 32) (he : e.Ok) (hv0 : e.version = 0) (h1 : version.length = 4) (h2 : perFrame.length = 4) (h3 : rice.length = 3)
    (h4 : maxima.length = 6) (hb : bits < 256) (hch : channels < 256) (hav : average < 2 ^ 32) (hr : rate < 2 ^ 32)
    {stsd : Bytes} (hstsd : stsd = stsdOf flags count (ascii "alac") e
      (box (ascii "alac") (cookieOf version perFrame compatible bits rice channels maxima average rate)) [])
    {before moov after : Forest} (hx : Mp4File before moov after)
    {timescale duration mdat : Nat} {stts : Option (List (Nat × Nat))} (ha : Audio before moov after timescale duration stsd stts mdat)
    (hlim : stsd.length ≤ o.mp4.limit) (hst : ∀ l, stts = some l → l.length ≤ o.mp4.limit) (hts : 0 < timescale)
    (hfit : duration * 1000 + timescale < 2 ^ 64) (hms : 8 ≤ Lossless.nearest (duration * 1000) timescale) (hbits : mdat * 8 * timescale / duration < 2 ^ 32)
    {w : Shown} (h : wholeAs o ⟨true, true⟩ (whole before moov after).bytes .mp4 = .ok w) :
    let ms := Lossless.nearest (duration * 1000) timescale
    w.2 = ⟨ms, some ((whole before moov after).bytes.length * 8 / ms), some (mp4Rate stts (average / 1000) timescale duration mdat ms),
      some rate, some bits, some channels, none⟩ := by
  have hq := alac_fields (flags := flags) (count := count) (compatible := compatible) hf hc he hv0 h1 h2 h3 h4 hb hch hav hr
    o.mp4.opts.mode o.mp4.limit { duration := Lossless.nearest (duration * 1000) timescale }
  rw [← hstsd] at hq
  exact mp4_whole hx ha hlim hst hts hfit hms hbits (.inr rfl) hq h

open Lofty.Mp4 Lofty.Mp4Write Lofty.Mp4Read Lofty.Mp4Props Lofty.Ilst in
/-- C79: **what is shown of an MP4 file with FLAC audio is what its stream information says.** -/
theorem mp4_flac_shown_partial {o : ReadOptions} {flags : Bytes} {count : Nat} {e : Entry} {version kids rest tail : Bytes} {kind : UInt8}
    {blocks frames rate channels bits total signature : Nat}
    (hf : flags.length = 4) (hc : 0 < count ∧ count < 2 ^ 32) (he : e.Ok) (hv : version.length = 4)
    (hb : blocks < 2 ^ 32) (hfr : frames < 2 ^ 48) (hr : rate < 2 ^ 20) (hch : 1 ≤ channels ∧ channels ≤ 8) (hb32 : 1 ≤ bits ∧ bits ≤ 32)
    (ht : total < 2 ^ 36) (hs : signature < 2 ^ 128)
    (hsz : 36 + e.extra.length + (box (ascii "dfLa") (version ++ ([kind] ++ (beBytes 3 34 ++ (Lossless.streamInfo blocks frames rate channels bits total signature ++ tail)))) ++ kids).length < 2 ^ 32)
    {stsd : Bytes} (hstsd : stsd = stsdOf flags count (ascii "fLaC") e
      (box (ascii "dfLa") (version ++ ([kind] ++ (beBytes 3 34 ++ (Lossless.streamInfo blocks frames rate channels bits total signature ++ tail)))) ++ kids) rest)
    {before moov after : Forest} (hx : Mp4File before moov after)
    {timescale duration mdat : Nat} {stts : Option (List (Nat × Nat))} (ha : Audio before moov after timescale duration stsd stts mdat)
    (h34 : 34 ≤ o.mp4.limit) (hlim : stsd.length ≤ o.mp4.limit) (hst : ∀ l, stts = some l → l.length ≤ o.mp4.limit) (hts : 0 < timescale)
    (hfit : duration * 1000 + timescale < 2 ^ 64) (hms : 8 ≤ Lossless.nearest (duration * 1000) timescale) (hbits : mdat * 8 * timescale / duration < 2 ^ 32)
    {w : Shown} (h : wholeAs o ⟨true, true⟩ (whole before moov after).bytes .mp4 = .ok w) :
    let ms := Lossless.nearest (duration * 1000) timescale
    w.2 = ⟨ms, some ((whole before moov after).bytes.length * 8 / ms), some (mp4Rate stts 0 timescale duration mdat ms),
      some rate, some bits, some channels, none⟩ := by
  have hq := flac_mp4_fields (flags := flags) (count := count) (rest := rest) hf hc he hv hb hfr hr hch hb32 ht hs hsz
    o.mp4.opts.mode o.mp4.limit h34 { duration := Lossless.nearest (duration * 1000) timescale }
  rw [← hstsd] at hq
  exact mp4_whole hx ha hlim hst hts hfit hms hbits (.inl ⟨rfl, rfl⟩) hq h

/-! ## Examples -/

/-- An opened file, seen as a value. -/
theorem opened {α ε : Type} {x : Except ε α} (h : x.toOption.isSome = true) : ∃ a, x = .ok a := by
  cases x with
  | error e => cases h
  | ok a => exact ⟨a, rfl⟩

/-- The options of the examples. -/
def exShown : ReadOptions := ⟨.relaxed, 100, true, true, 16777216, fun _ => none, 5, Rating.default⟩

theorem exShown_with : exShown.with ⟨true, true⟩ = FileTags.exOpts true true := rfl

/-- A second of stereo in FLAC, with a padding block. -/
def flacSecond : Bytes :=
  Flac.stream [] [(0, Lossless.streamInfo (4096 * 2 ^ 16 + 4096) 0 44100 2 16 44100 0), (1, [0, 0])] (List.replicate 600 9)

example : ∃ ts, wholeAs exShown ⟨true, true⟩ flacSecond .flac = .ok (ts, ⟨1000, some 5, some 4, some 44100, some 16, some 2, none⟩) := by
  obtain ⟨⟨ts, g⟩, h⟩ := opened (x := wholeAs exShown ⟨true, true⟩ flacSecond .flac) (by decide +kernel)
  have e := flac_shown Flac.skipped_nil (bs := [(1, [0, 0])]) (by simp [Flac.Spec.MBlock.Valid]) (by decide) (by decide) (by decide) (by decide) (by decide) (by decide)
    (by decide) rfl (by decide +kernel) h
  refine ⟨ts, h.trans ?_⟩
  rw [e]
  exact congrArg (fun g => Except.ok (ts, g)) (by decide +kernel)

open Lofty.IffFiles in
theorem exWav_has : WavHas (exShown.with ⟨true, true⟩) exWav ⟨[], none⟩ := by
  refine ⟨fun d hd => ⟨?_, ?_⟩, .inl ⟨by decide, rfl⟩, .inl ⟨by decide, rfl⟩⟩
  · simp only [exWav, List.mem_cons, List.not_mem_nil, or_false] at hd
    rcases hd with rfl | rfl <;> exact ok_fourcc (by simp) (by decide)
  · revert d; decide

open Lofty.IffFiles in
example : ∃ n ts, ∀ k, n ≤ k → wholeAs (exShown.deep k) ⟨true, true⟩ (Iff.wav exWav) .wav = .ok (ts, ⟨2000, some 0, some 0, some 8, some 8, some 1, none⟩) := by
  obtain ⟨n, ts, h⟩ := wav_shown exWav_has (by decide) (format := 1) (channels := 1) (rate := 8) (bps := 8) (align := 1) (bits := 8) (fact := 0)
    (audio := List.replicate 16 0) (rest := []) (by decide +kernel) (by decide +kernel) (.inl ⟨by decide +kernel, rfl⟩) (by decide) (by decide) (by decide)
    (by decide) (by decide) (by decide) (by decide) (by decide) (by decide) (by decide)
  exact ⟨n, ts, fun k hk => (h k hk).trans (congrArg (fun g => Except.ok (ts, g)) (by decide +kernel))⟩

/-- Three channels of 24 bits, of which 20 are used: left, right and centre. -/
def threeChannels : List Iff.Chunk :=
  [(ascii "fmt ", Lossless.fmtChunk 0xFFFE 3 100 900 9 24 (Lossless.fmtExtra 20 7 1 (List.replicate 14 0))), (ascii "data", List.replicate 90 0)]

open Lofty.IffFiles in
example : ∃ n ts, ∀ k, n ≤ k → wholeAs (exShown.deep k) ⟨true, true⟩ (Iff.wav threeChannels) .wav =
    .ok (ts, ⟨100, some 13, some 7, some 100, some 20, some 3, some 7⟩) := by
  have h0 : WavHas (exShown.with ⟨true, true⟩) threeChannels ⟨[], none⟩ := by
    refine ⟨fun d hd => ⟨?_, ?_⟩, .inl ⟨by decide, rfl⟩, .inl ⟨by decide, rfl⟩⟩
    · simp only [threeChannels, List.mem_cons, List.not_mem_nil, or_false] at hd
      rcases hd with rfl | rfl <;> exact ok_fourcc (by simp) (by decide)
    · revert d; decide
  obtain ⟨n, ts, h⟩ := wav_extensible_shown h0 (by decide +kernel) (format := 1) (channels := 3) (rate := 100) (bps := 900) (align := 9) (bits := 24)
    (valid := 20) (mask := 7) (fact := 0) (audio := List.replicate 90 0) (rest := List.replicate 14 0) (by decide) (by decide +kernel) (by decide +kernel)
    (.inl ⟨by decide +kernel, rfl⟩) (by decide) (by decide) (by decide) (by decide) (by decide) (by decide) (by decide) (by decide) (by decide)
    (by decide) (by decide)
  exact ⟨n, ts, fun k hk => (h k hk).trans (congrArg (fun g => Except.ok (ts, g)) (by decide +kernel))⟩

/-- The sound of an AIFF file: two channels of 16 bits, 8000 times a second. -/
def aiffSecond (channels size : Nat) : List Iff.Chunk :=
  [(ascii "COMM", Lossless.commChunk channels 16000 size ⟨false, 16383 + 12, 8000 * 2 ^ 51⟩ []), (ascii "SSND", List.replicate 64 0)]

open Lofty.IffFiles in
theorem aiffSecond_has (channels size : Nat) : AiffHas (exShown.with ⟨true, true⟩) (aiffSecond channels size) ⟨⟨none, none, none, none, none⟩, none⟩ := by
  refine ⟨fun d hd => ?_, ⟨_, List.mem_cons_self, rfl⟩, ⟨⟨none, none, none, none, none⟩, rfl, ?_, ?_, by decide⟩, .inl ⟨rfl, rfl⟩⟩
  · simp only [aiffSecond, List.mem_cons, List.not_mem_nil, or_false] at hd
    rcases hd with rfl | rfl <;> exact ok_fourcc (by simp) (by simp [Lossless.commChunk, Lossless.F80.bytes])
  · unfold Iff.Aiff.Fits; decide +kernel
  · unfold Iff.Aiff.Clean Iff.Comment.Ok Iff.EvenInit; decide +kernel

open Lofty.IffFiles in
example : ∃ n ts a b, ∀ k, n ≤ k → wholeAs (exShown.deep k) ⟨true, true⟩ (Iff.aiff (ascii "AIFF") (aiffSecond 2 16)) .aiff =
    .ok (ts, ⟨2000, some b, some a, some 8000, some 16, some 2, none⟩) := by
  obtain ⟨n, ts, a, b, h, -⟩ := aiff_shown_partial (aiffSecond_has 2 16) (channels := 2) (frames := 16000) (size := 16) (rate := 8000)
    (x := ⟨false, 16383 + 12, 8000 * 2 ^ 51⟩) (audio := List.replicate 64 0) (rest := []) (by decide +kernel) (by decide +kernel) (by decide) (by decide)
    (by decide) (by decide) (by decide) (by decide) (by decide +kernel) (by decide)
  exact ⟨n, ts, a, b, h⟩

open Lofty.IffFiles in
/-- **Wide AIFF files**: of the channels and the bits of a sample only the lowest byte is shown; a file with 258 channels is shown as one with two. -/
theorem aiff_channels_cut : ∃ n ts a b, ∀ k, n ≤ k → wholeAs (exShown.deep k) ⟨true, true⟩ (Iff.aiff (ascii "AIFF") (aiffSecond 258 16)) .aiff =
    .ok (ts, ⟨2000, some b, some a, some 8000, some 16, some 2, none⟩) := by
  obtain ⟨n, ts, a, b, h, -⟩ := aiff_shown_partial (aiffSecond_has 258 16) (channels := 258) (frames := 16000) (size := 16) (rate := 8000)
    (x := ⟨false, 16383 + 12, 8000 * 2 ^ 51⟩) (audio := List.replicate 64 0) (rest := []) (by decide +kernel) (by decide +kernel) (by decide) (by decide)
    (by decide) (by decide) (by decide) (by decide) (by decide +kernel) (by decide)
  exact ⟨n, ts, a, b, h⟩

example : ∃ ts a b, wholeAs exShown ⟨true, true⟩ FileTags.wvFile .wavPack = .ok (ts, ⟨10000, some a, some b, some 44100, some 16, some 2, some 3⟩) := by
  obtain ⟨⟨ts, g⟩, h⟩ := opened (x := wholeAs exShown ⟨true, true⟩ FileTags.wvFile .wavPack) (by decide +kernel)
  obtain ⟨a, b, e, -⟩ := wavpack_shown (pre := []) (b := ⟨0x410, [0, 0], 441000, 0, 22050, 9 * 2 ^ 23 + 0x1800 + 1, 7, List.replicate 200 5⟩) (t := []) (by simp)
    ⟨by decide, by decide, by decide, by decide, by decide, by decide, by decide, by decide +kernel⟩ ⟨by decide, by decide⟩ ⟨by decide, by decide⟩ (by decide +kernel) (by decide +kernel) (by decide +kernel) (by decide +kernel)
    (by decide +kernel) h
  refine ⟨ts, a, b, h.trans ?_⟩
  rw [e]
  rfl

example : ∃ n a b, ∀ k, n ≤ k → ∃ ts, wholeAs (exShown.deep k) ⟨true, true⟩ FileTags.macFile .ape =
    .ok (ts, ⟨1000, some a, some b, some 44100, some 16, some 2, none⟩) := by
  obtain ⟨n, a, b, h, -⟩ := mac_shown (o := exShown) (FileTags.macFile_audio true true) (version := 3990) (level := 2000) (flags := 0) (perFrame := 294912)
    (final := 44100) (frames := 1) (bits := 16) (channels := 2) (rate := 44100) (extra := []) (d1 := [0, 0]) (d2 := List.replicate 40 0)
    (rest := List.replicate 200 5) rfl (by decide) rfl rfl (by decide) (by decide) (by decide) (by decide) (by decide) (by decide) (by decide) (by decide)
    (by decide) [] (by simp) rfl
  exact ⟨n, a, b, h⟩

open Lofty.OggProps Lofty.Ogg Lofty.OggWrite in
/-- A page, where it is. -/
def placed (n : Nat) (q : Page) : Page := ⟨q.content, { q.header with start := n }, n + q.asBytes.length⟩

open Lofty.OggProps Lofty.Ogg Lofty.OggWrite in
theorem placed_valid {n : Nat} {q : Page} (h : q.Valid) : (placed n q).Valid := by
  obtain ⟨h1, h2, h3, h4, h5, h6, h7⟩ := h
  exact ⟨h1, h2, h3, h4, h5, h6, h7⟩

open Lofty.OggProps Lofty.Ogg Lofty.OggWrite in
theorem last_page {f pre : Bytes} {q : Page} {lo : Nat} (hf : f = pre ++ q.asBytes) (hq : q.Valid) (hlo : lo ≤ pre.length)
    (hall : ∀ j < f.length, pre.length < j → (f.drop j).take 4 ≠ ascii "OggS") : LastPage f lo (placed pre.length q) := by
  refine ⟨pre.length, [], hlo, ?_, fun j hj h => ?_⟩
  · rw [hf, List.drop_left' rfl]
    have := page_write_read q hq pre.length []
    rw [List.append_nil] at this
    exact this
  · exfalso
    by_cases hlt : j < f.length
    · exact hall j hlt hj h
    · rw [List.drop_eq_nil_of_le (by omega)] at h
      exact absurd h (by decide)

open Lofty.OggProps Lofty.Ogg Lofty.OggWrite in
theorem opus_last : LastPage opus (opus.length - (audio1.asBytes ++ audio2.asBytes).length) (placed (front ++ audio1.asBytes).length audio2) :=
  last_page (by unfold opus; rw [List.append_assoc]) (genCrc_valid (by decide) (by decide) (by decide) (by decide) (by decide) (by decide))
    (by decide +kernel) (by decide +kernel)

open Lofty.OggProps Lofty.Ogg Lofty.OggWrite in
example : ∃ ts a b, wholeAs exShown ⟨true, true⟩ opus .opus = .ok (ts, ⟨34, some a, some b, some 48000, none, some 2, some 3⟩) := by
  obtain ⟨⟨ts, g⟩, h⟩ := opened (x := wholeAs exShown ⟨true, true⟩ opus .opus) (by decide +kernel)
  obtain ⟨⟨first, d1⟩, hf⟩ := opened (x := PageHeader.read 0 opus) (by decide +kernel)
  have h0 : (PageHeader.read 0 opus).toOption.map (·.1.abgp) = some 0 := by decide +kernel
  rw [hf] at h0
  have h0 : first.abgp = 0 := by simpa [Except.toOption] using h0
  have e : (placed (front ++ audio1.asBytes).length audio2).header.abgp = 1920 := rfl
  obtain ⟨ms, mask, h1, h2, h3, h4⟩ := opus_shown (version := 1) (channels := 2) (family := 0) (preSkip := 312) (rate := 48000) (gain := 0) (more := [])
    (by decide) (by decide) (by decide) (by decide +kernel) hf opus_headed opus_last (by decide +kernel) (by rw [h0]; decide) (by rw [h0]; decide) h
  rw [h0, e] at h1 h2
  obtain rfl : ms = 34 := by omega
  obtain rfl : mask = 3 := by
    have : Channels.fromOpus (2 : UInt8).toNat = some 3 := by decide
    rw [this] at h3
    exact (Option.some.inj h3).symm
  subst h4
  exact ⟨ts, _, _, h⟩

open Lofty.OggProps Lofty.Ogg Lofty.OggWrite in
/-- The pages before the last of a Vorbis file. -/
def vorbisFront : Bytes :=
  (page 2 0 0 (vorbisPacket 0 2 44100 0 128000 0 [0xB8, 1])).asBytes ++
    ((page 0 0 1 ([3] ++ ascii "vorbis" ++ leBytes 4 1 ++ ascii "x" ++ leBytes 4 0 ++ [1])).asBytes ++ (page 0 0 2 ([5] ++ ascii "vorbis" ++ [1])).asBytes)

open Lofty.OggProps Lofty.Ogg Lofty.OggWrite in
/-- Ten seconds of Vorbis. -/
def vorbisFile : Bytes := vorbisFront ++ (page 4 441000 3 [0xFC, 4, 5]).asBytes

open Lofty.OggProps Lofty.Ogg Lofty.OggWrite in
theorem vorbis_headed : Headed .vorbis vorbisFile [vorbisPacket 0 2 44100 0 128000 0 [0xB8, 1],
    [3] ++ ascii "vorbis" ++ leBytes 4 1 ++ ascii "x" ++ leBytes 4 0 ++ [1], [5] ++ ascii "vorbis" ++ [1]] (page 4 441000 3 [0xFC, 4, 5]).asBytes :=
  ⟨⟨vorbisPacket 0 2 44100 0 128000 0 [0xB8, 1] ++ ([3] ++ ascii "vorbis" ++ leBytes 4 1 ++ ascii "x" ++ leBytes 4 0 ++ [1]) ++ ([5] ++ ascii "vorbis" ++ [1]),
    [(vorbisPacket 0 2 44100 0 128000 0 [0xB8, 1]).length, 17, 8]⟩, by decide +kernel, rfl, [], by simp⟩

open Lofty.OggProps Lofty.Ogg Lofty.OggWrite in
theorem vorbis_last : LastPage vorbisFile (vorbisFile.length - (page 4 441000 3 [0xFC, 4, 5]).asBytes.length)
    (placed vorbisFront.length (page 4 441000 3 [0xFC, 4, 5])) :=
  last_page rfl (genCrc_valid (by decide) (by decide) (by decide) (by decide) (by decide) (by decide)) (by decide +kernel) (by decide +kernel)

open Lofty.OggProps Lofty.Ogg Lofty.OggWrite in
example : ∃ ts a, wholeAs exShown ⟨true, true⟩ vorbisFile .vorbis = .ok (ts, ⟨10000, some a, some 128, some 44100, none, some 2, none⟩) := by
  obtain ⟨⟨ts, g⟩, h⟩ := opened (x := wholeAs exShown ⟨true, true⟩ vorbisFile .vorbis) (by decide +kernel)
  obtain ⟨⟨first, d1⟩, hf⟩ := opened (x := PageHeader.read 0 vorbisFile) (by decide +kernel)
  have h0 : (PageHeader.read 0 vorbisFile).toOption.map (·.1.abgp) = some 0 := by decide +kernel
  rw [hf] at h0
  have h0 : first.abgp = 0 := by simpa [Except.toOption] using h0
  have e : (placed vorbisFront.length (page 4 441000 3 [0xFC, 4, 5])).header.abgp = 441000 := rfl
  obtain ⟨ms, h1, h2, h4⟩ := vorbis_shown (by decide) (by decide) (by decide) (by decide) (by decide) hf vorbis_headed vorbis_last
    (placed_valid (genCrc_valid (by decide) (by decide) (by decide) (by decide) (by decide) (by decide))) (by rw [h0]; decide) h
  rw [h0, e] at h1 h2
  obtain rfl : ms = 10000 := by omega
  subst h4
  exact ⟨ts, _, h⟩

open Lofty.OggProps Lofty.Ogg Lofty.OggWrite in
/-- The identification header of a Speex file. -/
def speexIdent : Bytes := speexPacket (speexHead ++ List.replicate 20 0) 1 80 8000 0 4 1 0 160 0 (List.replicate 16 0)

open Lofty.OggProps Lofty.Ogg Lofty.OggWrite in
/-- The pages before the last of a Speex file. -/
def speexFront : Bytes := (page 2 0 0 speexIdent).asBytes ++ (page 0 0 1 (leBytes 4 1 ++ ascii "x" ++ leBytes 4 0)).asBytes

open Lofty.OggProps Lofty.Ogg Lofty.OggWrite in
/-- Ten seconds of Speex. -/
def speexTen : Bytes := speexFront ++ (page 4 80000 2 [0xFC, 4, 5]).asBytes

open Lofty.OggProps Lofty.Ogg Lofty.OggWrite in
theorem speex_headed : Headed .speex speexTen [speexIdent, leBytes 4 1 ++ ascii "x" ++ leBytes 4 0] (page 4 80000 2 [0xFC, 4, 5]).asBytes :=
  ⟨⟨speexIdent ++ (leBytes 4 1 ++ ascii "x" ++ leBytes 4 0), [speexIdent.length, 9]⟩, by decide +kernel, rfl, [], by simp⟩

open Lofty.OggProps Lofty.Ogg Lofty.OggWrite in
theorem speex_last : LastPage speexTen (speexTen.length - (page 4 80000 2 [0xFC, 4, 5]).asBytes.length)
    (placed speexFront.length (page 4 80000 2 [0xFC, 4, 5])) :=
  last_page rfl (genCrc_valid (by decide) (by decide) (by decide) (by decide) (by decide) (by decide)) (by decide +kernel) (by decide +kernel)

open Lofty.OggProps Lofty.Ogg Lofty.OggWrite in
example : ∃ ts, wholeAs exShown ⟨true, true⟩ speexTen .speex = .ok (ts, ⟨10000, some 0, some 0, some 8000, none, some 1, none⟩) := by
  obtain ⟨⟨ts, g⟩, h⟩ := opened (x := wholeAs exShown ⟨true, true⟩ speexTen .speex) (by decide +kernel)
  obtain ⟨⟨first, d1⟩, hf⟩ := opened (x := PageHeader.read 0 speexTen) (by decide +kernel)
  have h0 : (PageHeader.read 0 speexTen).toOption.map (·.1.abgp) = some 0 := by decide +kernel
  rw [hf] at h0
  have h0 : first.abgp = 0 := by simpa [Except.toOption] using h0
  have e := speex_shown (by decide) (by decide) (by decide) (by decide) (by decide) (by decide) (by decide) (by decide) (by decide) (by decide) (by decide)
    rfl hf speex_headed speex_last (by rw [h0]; decide) h
  rw [h0] at e
  refine ⟨ts, h.trans (congrArg (fun g => Except.ok (ts, g)) (e.trans ?_))⟩
  decide +kernel

open Lofty.FileTags in
/-- Five saves to an MPEG file. -/
example : ∃ g overall n, runAll 100 someSaves threeFrames = .ok g ∧ ∀ d, n ≤ d → ∃ ts, wholeAs (exShown.deep d) ⟨true, true⟩ g .mpeg =
    .ok (ts, ⟨216, some overall, some 8, some 8000, none, some 1, some 4⟩) := by
  obtain ⟨g, hg⟩ := opened (x := runAll 100 someSaves threeFrames) (by decide +kernel)
  have hl : ((runAll 100 someSaves threeFrames).toOption.getD []).length < 2 ^ 61 := by decide +kernel
  rw [hg] at hl
  obtain ⟨n, overall, h⟩ := mpeg_shown (o := exShown) (threeFrames_audio _ _) threeFrames_first threeFrames_props (by decide) someSaves (someSaves_ok _ _) hg hl
  exact ⟨g, overall, n, hg, h⟩

open Lofty.FileTags in
example : ∃ h k, Aac.findNext threeAac (threeAac.length + 1) 0 = .ok (some (h, k)) ∧ ∃ n, ∀ d, n ≤ d → ∀ ts s,
    wholeAs (exShown.deep d) ⟨true, true⟩ threeAac .aac = .ok (ts, s) →
      ∃ duration rate, s = ⟨duration, some rate, some rate, some h.sampleRate, none, some h.channels, Channels.fromMp4 h.channels⟩ := by
  have hk : ((Aac.findNext threeAac (threeAac.length + 1) 0).toOption.bind id).isSome = true := by decide +kernel
  obtain ⟨x, hx⟩ := opened (x := Aac.findNext threeAac (threeAac.length + 1) 0) (by decide +kernel)
  rw [hx] at hk
  match x, hx with
  | some (h, k), hx => exact ⟨h, k, hx, aac_shown (o := exShown) (threeAac_audio _ _) hx [] (by simp) rfl⟩
  | none, _ => cases hk

/-- What is shown of it. -/
example : (wholeAs exShown ⟨true, true⟩ FileTags.threeAac .aac).map (·.2) = .ok ⟨200, some 12, some 12, some 16000, none, some 1, some 4⟩ := by
  decide +kernel

open Lofty.Mpc Lofty.Mpc.Spec in
/-- The packets of ten seconds of Musepack 8. -/
def mpc8Packets : List Packet :=
  [⟨ascii "SH", 1, beBytes 4 1 ++ 8 :: (size 3 441000 ++ (size 1 0 ++ [0x1B, 0x1B]))⟩, ⟨ascii "RG", 1, [1, 0, 2, 0, 3, 0, 4, 0, 5]⟩,
    ⟨ascii "AP", 2, List.replicate 200 7⟩]

open Lofty.Mpc Lofty.Mpc.Spec in
/-- The file. -/
def mpc8File : Bytes := ascii "MPCK" ++ ((mpc8Packets.map Packet.bytes).flatten ++ (⟨ascii "SE", 1, []⟩ : Packet).bytes ++ [])

theorem mpc8File_audio : FileTags.Audio (exShown.with ⟨true, true⟩) mpc8File where
  long := by decide +kernel
  junk := by show 3 ≤ 100 ∧ 100 ≤ mpc8File.length; decide +kernel
  start := by decide +kernel
  noId3v2 := FileTags.noMarker_of_find (by show Id3v2.findInJunk (mpc8File.take 100) = none; decide +kernel)
  noApe := by decide +kernel
  noApe8 := by decide +kernel
  noApeEnd := by decide +kernel
  noId3v1 := by unfold Id3v1.Tagged; decide +kernel

open Lofty.Mpc Lofty.Mpc.Spec in
example : ∃ n, ∀ d, n ≤ d → ∃ ts, wholeAs (exShown.deep d) ⟨true, true⟩ mpc8File .mpc = .ok (ts, ⟨10000, some 0, some 0, some 44100, none, some 2, none⟩) := by
  have h := mpc8_shown (o := exShown) mpc8File_audio (p := mpc8Packets) (q := ⟨ascii "SE", 1, []⟩) (rest := []) rfl (by
      intro p hp
      simp only [mpc8Packets, List.mem_cons, List.not_mem_nil, or_false] at hp
      rcases hp with rfl | rfl | rfl
      · exact ⟨⟨by decide, by decide, by decide⟩, ⟨fun _ => ⟨⟨1, 8, 441000, 0, 44100, 28, 2, true, 64⟩, [], by decide +kernel⟩, fun h => absurd h (by decide), fun h => absurd h (by decide)⟩, by decide⟩
      · exact ⟨⟨by decide, by decide, by decide⟩, ⟨fun h => absurd h (by decide), fun _ => ⟨⟨1, 2, 3, 4, 5⟩, [], by decide +kernel⟩, fun h => absurd h (by decide)⟩, by decide⟩
      · exact ⟨⟨by decide, by decide, by decide +kernel⟩, ⟨fun h => absurd h (by decide), fun h => absurd h (by decide), fun h => absurd h (by decide)⟩, by decide⟩)
    ⟨by decide, by decide, by decide⟩ rfl (crc := 1) (count := 441000) (silence := 0) (k1 := 3) (k2 := 1) (freq := 0) (bands := 27) (channels := 1) (block := 3)
    (version := 8) (ms := true) (more := []) (gain := ⟨1, 2, 3, 4, 5⟩) (by decide) (by decide) (by decide) (by decide) (by decide) (by decide) (by decide)
    (by decide +kernel) (by decide +kernel) (by decide +kernel) (by decide +kernel) (by decide) (by decide) [] (by simp) rfl
  obtain ⟨n, h⟩ := h
  refine ⟨n, fun d hd => ?_⟩
  obtain ⟨ts, h⟩ := h d hd
  exact ⟨ts, h.trans (congrArg (fun g => Except.ok (ts, g)) (by decide +kernel))⟩

open Lofty.Mpc in
/-- Musepack 7. -/
def mpc7File : Bytes := ascii "MP+" ++ (leBytes 1 (7 + 16 * 0) ++ leBytes 4 100 ++ leBytes 4 (sv7Word 1 1 2 10 27 true false) ++ leBytes 2 0 ++ leBytes 2 0 ++
  leBytes 2 0 ++ leBytes 2 0 ++ leBytes 4 (sv7Tail 0 true 100 true) ++ [120] ++ List.replicate 200 7)

theorem mpc7File_audio : FileTags.Audio (exShown.with ⟨true, true⟩) mpc7File where
  long := by decide +kernel
  junk := by show 3 ≤ 100 ∧ 100 ≤ mpc7File.length; decide +kernel
  start := by decide +kernel
  noId3v2 := FileTags.noMarker_of_find (by show Id3v2.findInJunk (mpc7File.take 100) = none; decide +kernel)
  noApe := by decide +kernel
  noApe8 := by decide +kernel
  noApeEnd := by decide +kernel
  noId3v1 := by unfold Id3v1.Tagged; decide +kernel

example : ∃ n, ∀ d, n ≤ d → ∀ ts s, wholeAs (exShown.deep d) ⟨true, true⟩ mpc7File .mpc = .ok (ts, s) →
    ∃ duration average, s = ⟨duration, some average, some average, some 48000, none, some 2, none⟩ :=
  mpc7_shown (o := exShown) mpc7File_audio (high := 0) (count := 100) (maxLevel := 1) (freq := 1) (link := 2) (profile := 10) (maxBand := 27) (tp := 0) (tg := 0)
    (ap := 0) (ag := 0) (unused := 0) (length := 100) (encoder := 120) (midSide := true) (intensity := false) (fast := true) (gapless := true)
    (rest := List.replicate 200 7) (by decide) (by decide) (by decide) (by decide) (by decide) (by decide) (by decide) (by decide) (by decide) (by decide)
    (by decide) (by decide) (by decide) rfl [] (by simp) rfl

/-- What is shown of it. -/
example : (wholeAs exShown ⟨true, true⟩ mpc7File .mpc).map (·.2) = .ok ⟨2400, some 0, some 0, some 48000, none, some 2, none⟩ := by
  decide +kernel

open Lofty.Mpc in
/-- Musepack 5. -/
def mpc5File : Bytes := leBytes 4 (sv4Word 1 20 5 true false 0) ++ leBytes 4 100 ++ [1, 2, 3, 4, 5, 6].flatMap (leBytes 4) ++ List.replicate 200 7

theorem mpc5File_audio : FileTags.Audio (exShown.with ⟨true, true⟩) mpc5File where
  long := by decide +kernel
  junk := by show 3 ≤ 100 ∧ 100 ≤ mpc5File.length; decide +kernel
  start := by decide +kernel
  noId3v2 := FileTags.noMarker_of_find (by show Id3v2.findInJunk (mpc5File.take 100) = none; decide +kernel)
  noApe := by decide +kernel
  noApe8 := by decide +kernel
  noApeEnd := by decide +kernel
  noId3v1 := by unfold Id3v1.Tagged; decide +kernel

example : ∃ n average, ∀ d, n ≤ d → ∃ ts, wholeAs (exShown.deep d) ⟨true, true⟩ mpc5File .mpc =
    .ok (ts, ⟨2575, some average, some average, some 44100, none, some 2, none⟩) := by
  obtain ⟨n, a, h⟩ := mpc4_shown (o := exShown) mpc5File_audio (block := 1) (maxBand := 20) (version := 5) (midSide := true) (intensity := false) (bitrate := 0)
    (count := 100) (more := [1, 2, 3, 4, 5, 6]) (rest := List.replicate 200 7) (by decide) (by decide) (by decide) (by decide) (by decide) rfl (by decide) rfl
    (by decide) (fun h => by cases h) [] (by simp) rfl
  exact ⟨n, a, h⟩

open Lofty.Mp4 Lofty.Mp4Write Lofty.Mp4Read Lofty.Mp4Props Lofty.Ilst in
theorem shown_eq {ms ms' a a' n : Nat} {r b c m : Option Nat} (h1 : ms = ms') (h2 : a = a') :
    (⟨ms, some n, some a, r, b, c, m⟩ : Generic) = ⟨ms', some n, some a', r, b, c, m⟩ := by rw [h1, h2]

open Lofty.Mp4 Lofty.Mp4Write Lofty.Mp4Read Lofty.Mp4Props Lofty.Ilst in
example : ∃ w n, wholeAs exShown ⟨true, true⟩ aacFile.bytes .mp4 = .ok w ∧
    w.2 = ⟨10500, some n, some 7, some 48000, none, some 6, none⟩ := by
  obtain ⟨w, h⟩ := opened (x := wholeAs exShown ⟨true, true⟩ aacFile.bytes .mp4) (by decide +kernel)
  have e := mp4_shown_partial (o := exShown) (flags := [0, 0, 0, 0]) (count := 1) (e := entry) (l1 := [0x80, 0x80, 0x80, 34])
    (l2 := [0x80, 0x80, 0x80, 20]) (l3 := [2])
    (stream := [0, 1, 0]) (sizes := [21, 0, 0, 0, 0, 1, 0, 0]) (kids := []) (rest := []) (tail := []) (codec := 0x40) (average := 128000)
    (type := 2) (frequency := 3) (channels := 6) (more := 0) rfl (by decide) entry_ok (len4 _ (by decide)) (len4 _ (by decide)) (len1 _ (by decide))
    rfl rfl (by decide) (by decide) (by decide) (by decide) (by decide) (by decide) (by decide) (by decide +kernel) rfl
    (.inl ⟨aacFile, aacFile_ok, aacFile_clear, rfl, rfl, rfl⟩) aac_audio
    (by decide +kernel) (by intro l hl; injection hl with hl; subst hl; decide) (by decide) (by decide) (by decide) (by decide) h
  exact ⟨w, _, h, e.trans (shown_eq (by decide) (by decide))⟩

open Lofty.Mp4 Lofty.Mp4Write Lofty.Mp4Read Lofty.Mp4Props Lofty.Ilst in
/-- A track of ten seconds and a half. -/
def oneTrack (stsd : Bytes) : Forest :=
  track (mdhd1 [0, 0, 0] (List.replicate 16 0) 48000 504000 [0, 0, 0, 0]) "soun" stsd [(492, 1024), (1, 192)] .nil

open Lofty.Mp4 Lofty.Mp4Write Lofty.Mp4Read Lofty.Mp4Props Lofty.Ilst in
theorem oneTrack_audio (stsd : Bytes) : Audio ftyp (oneTrack stsd) aacFile.after 48000 504000 stsd (some [(492, 1024), (1, 192)]) 10000 := by
  refine ⟨⟨[], mediaIn (mdhd1 [0, 0, 0] (List.replicate 16 0) 48000 504000 [0, 0, 0, 0]) "soun" _, [], rfl, by simp, ?_, ?_,
    .leaf (ascii "mdhd") _ (.leaf (ascii "hdlr") _ .nil), .leaf (ascii "smhd") _ .nil, _, .nil, rfl, by decide, by decide, only_of (by rfl),
    _, only_of (by rfl), [0, 0, 0, 0], rfl, by decide, by decide, rfl⟩, List.replicate 10000 0, by rfl, List.length_replicate⟩
  · exact ⟨handler "soun", by simp [mediaIn, items], by decide, by decide⟩
  · exact ⟨_, only_of (by rfl), by decide, .inr ⟨[0, 0, 0], List.replicate 16 0, [0, 0, 0, 0], rfl, rfl, by decide, rfl⟩⟩

open Lofty.Mp4 Lofty.Mp4Write Lofty.Mp4Read Lofty.Mp4Props Lofty.Ilst in
theorem oneTrack_file {stsd : Bytes} (h : (whole ftyp (oneTrack stsd) aacFile.after).bytes.length < 2 ^ 32) : Mp4File ftyp (oneTrack stsd) aacFile.after := by
  refine .inr ⟨⟨⟨_, _, rfl, by decide, "M4A ".toList, rfl⟩, aac_plain.front, track_ok trivial, aacFile_ok.after.1, h⟩, ?_⟩
  simp only [oneTrack, track, Silent, Forest.top, Other]
  decide

open Lofty.Mp4 Lofty.Mp4Write Lofty.Mp4Read Lofty.Mp4Props Lofty.Ilst in
example : ∃ w n, wholeAs exShown ⟨true, true⟩ (whole ftyp (oneTrack (stsdOf [0, 0, 0, 0] 1 (ascii "alac") entry (alacBox 2304000) [])) aacFile.after).bytes .mp4 = .ok w ∧
    w.2 = ⟨10500, some n, some 7, some 96000, some 24, some 2, none⟩ := by
  obtain ⟨w, h⟩ := opened (x := wholeAs exShown ⟨true, true⟩ (whole ftyp (oneTrack (stsdOf [0, 0, 0, 0] 1 (ascii "alac") entry (alacBox 2304000) [])) aacFile.after).bytes .mp4) (by decide +kernel)
  have e := mp4_alac_shown_partial (o := exShown) rfl (by decide) entry_ok rfl rfl rfl rfl rfl (by decide) (by decide) (by decide) (by decide) rfl
    (oneTrack_file (by decide +kernel)) (oneTrack_audio _) (by decide +kernel) (by intro l hl; injection hl with hl; subst hl; decide) (by decide) (by decide) (by decide)
    (by decide) h
  exact ⟨w, _, h, e.trans (shown_eq (by decide) (by decide))⟩

open Lofty.Mp4 Lofty.Mp4Write Lofty.Mp4Read Lofty.Mp4Props Lofty.Ilst in
example : ∃ w n, wholeAs exShown ⟨true, true⟩ (whole ftyp (oneTrack (stsdOf [0, 0, 0, 0] 1 (ascii "fLaC") entry
      (box (ascii "dfLa") ([0, 0, 0, 0] ++ ([0x80] ++ (beBytes 3 34 ++ (Lossless.streamInfo 0x10001000 0 192000 2 24 1000 0 ++ [])))) ++ []) [])) aacFile.after).bytes .mp4 = .ok w ∧
    w.2 = ⟨10500, some n, some 7, some 192000, some 24, some 2, none⟩ := by
  obtain ⟨w, h⟩ := opened (x := wholeAs exShown ⟨true, true⟩ (whole ftyp (oneTrack (stsdOf [0, 0, 0, 0] 1 (ascii "fLaC") entry
      (box (ascii "dfLa") ([0, 0, 0, 0] ++ ([0x80] ++ (beBytes 3 34 ++ (Lossless.streamInfo 0x10001000 0 192000 2 24 1000 0 ++ [])))) ++ []) [])) aacFile.after).bytes .mp4) (by decide +kernel)
  have e := mp4_flac_shown_partial (o := exShown) rfl (by decide) entry_ok rfl (by decide) (by decide) (by decide) (by decide) (by decide) (by decide) (by decide)
    (by decide +kernel) rfl
    (oneTrack_file (by decide +kernel)) (oneTrack_audio _) (by decide) (by decide +kernel) (by intro l hl; injection hl with hl; subst hl; decide) (by decide) (by decide) (by decide)
    (by decide) h
  exact ⟨w, _, h, e.trans (shown_eq (by decide) (by decide))⟩

open Lofty.Mp4 Lofty.Mp4Write Lofty.Mp4Read Lofty.Mp4Props Lofty.Ilst in
example : ∃ w n, wholeAs exShown ⟨true, true⟩ (whole ftyp (oneTrack (stsdOf [0, 0, 0, 0] 1 (ascii "mp4a") entry (esds 0x6B 0 (escapedConfigOf 34 4 0 0))  [])) aacFile.after).bytes .mp4 = .ok w ∧
    w.2 = ⟨10500, some n, some 7, some 44100, none, some 2, none⟩ := by
  obtain ⟨w, h⟩ := opened (x := wholeAs exShown ⟨true, true⟩ (whole ftyp (oneTrack (stsdOf [0, 0, 0, 0] 1 (ascii "mp4a") entry (esds 0x6B 0 (escapedConfigOf 34 4 0 0))  [])) aacFile.after).bytes .mp4) (by decide +kernel)
  have e := mp4_escaped_shown_partial (o := exShown) (flags := [0, 0, 0, 0]) (count := 1) (e := entry) (l1 := [0x80, 0x80, 0x80, 34]) (l2 := [0x80, 0x80, 0x80, 20]) (l3 := [2])
    (stream := [0, 1, 0]) (sizes := [21, 0, 0, 0, 0, 1, 0, 0]) (kids := []) (rest := []) (tail := []) (codec := 0x6B) (average := 0)
    (type := 34) (frequency := 4) (more := 0) rfl (by decide) entry_ok (len4 _ (by decide)) (len4 _ (by decide)) (len1 _ (by decide))
    rfl rfl (by decide) (by decide) (by decide) (by decide) (by decide) (by decide) (by decide +kernel) rfl
    (oneTrack_file (by decide +kernel)) (oneTrack_audio _) (by decide +kernel) (by intro l hl; injection hl with hl; subst hl; decide) (by decide) (by decide) (by decide)
    (by decide) h
  exact ⟨w, _, h, e.trans (shown_eq (by decide) (by decide))⟩

open Lofty.Mp4 Lofty.Mp4Write Lofty.Mp4Read Lofty.Mp4Props Lofty.Ilst in
example : ∃ w n, wholeAs exShown ⟨true, true⟩ (whole ftyp (oneTrack (stsdOf [0, 0, 0, 0] 1 (ascii "mp4a") entry (esds 0x40 900000 (alsOf 96000 96000 1000 5)) [])) aacFile.after).bytes .mp4 = .ok w ∧
    w.2 = ⟨10500, some n, some 7, some 96000, none, some 5, none⟩ := by
  obtain ⟨w, h⟩ := opened (x := wholeAs exShown ⟨true, true⟩ (whole ftyp (oneTrack (stsdOf [0, 0, 0, 0] 1 (ascii "mp4a") entry (esds 0x40 900000 (alsOf 96000 96000 1000 5)) [])) aacFile.after).bytes .mp4) (by decide +kernel)
  have e := mp4_als_shown_partial (o := exShown) (flags := [0, 0, 0, 0]) (count := 1) (e := entry) (l1 := [0x80, 0x80, 0x80, 34]) (l2 := [0x80, 0x80, 0x80, 20]) (l3 := [2])
    (stream := [0, 1, 0]) (sizes := [21, 0, 0, 0, 0, 1, 0, 0]) (kids := []) (rest := []) (tail := []) (codec := 0x40) (average := 900000)
    (rate := 96000) (frequency := 96000) (samples := 1000) (channels := 5) rfl (by decide) entry_ok (len4 _ (by decide)) (len4 _ (by decide)) (len1 _ (by decide))
    rfl rfl (by decide) (by decide) (by decide) (by decide) (by decide) (by decide +kernel) rfl
    (oneTrack_file (by decide +kernel)) (oneTrack_audio _) (by decide +kernel) (by intro l hl; injection hl with hl; subst hl; decide) (by decide) (by decide) (by decide)
    (by decide) h
  exact ⟨w, _, h, e.trans (shown_eq (by decide) (by decide))⟩

end Lofty.Opened
