import Verif.Lemmas.Lossless
import Mathlib.Data.Nat.Bitwise
import Verif.Lemmas.NoErr
import Verif.Lemmas.Vorbis
/-!
# C61: what is reported about lossless audio

Durations and bit rates computed in floating point are those of exact arithmetic, and the fields of the headers of FLAC,
WAV, AIFF and Monkey's Audio files are reported as they were written.
-/
namespace Lofty.Lossless
open Lofty.Float64
open Lofty.Math (divRound)

/-! ## Integers -/

theorem divRound_nearest {a b : ℕ} (hb : 0 < b) (h : a + b / 2 < 2 ^ 64) : divRound 64 a b = .ok (nearest a b) := by
  unfold divRound nearest
  rw [if_neg (by omega), if_neg (by omega)]
  apply congrArg Except.ok
  have h1 : a + b / 2 = (2 * a + b) / 2 := by omega
  rw [h1, Nat.div_div_eq_div_mul]

theorem leBytes_add (a b n : ℕ) : leBytes (b + a) n = leBytes b n ++ leBytes a (n / 256 ^ b) := by
  induction b generalizing n with
  | zero => simp [leBytes]
  | succ b ih =>
    rw [Nat.succ_add, leBytes, ih, leBytes, Nat.div_div_eq_div_mul, ← Nat.pow_succ', List.cons_append]

theorem leBytes_mod (k n : ℕ) : leBytes k (n % 256 ^ k) = leBytes k n := by
  rw [← fromLE_leBytes]
  have := leBytes_fromLE (leBytes k n)
  rw [leBytes_length] at this
  exact this

theorem beBytes_add (a b n : ℕ) : beBytes (a + b) n = beBytes a (n / 256 ^ b) ++ beBytes b (n % 256 ^ b) := by
  unfold beBytes
  rw [Nat.add_comm a b, leBytes_add, List.reverse_append, leBytes_mod]

theorem and15 (n : ℕ) : n &&& 0xF = n % 16 := Nat.and_two_pow_sub_one_eq_mod n 4
theorem and31 (n : ℕ) : n &&& 31 = n % 32 := Nat.and_two_pow_sub_one_eq_mod n 5
theorem and7 (n : ℕ) : n &&& 7 = n % 8 := Nat.and_two_pow_sub_one_eq_mod n 3

/-! ## FLAC -/

/-- C61: **FLAC**: sample rate, channels, bits per sample and signature are those in STREAMINFO, the duration is the number of samples
divided by the sample rate, and nothing is divided by zero. -/
theorem flac_fields {blocks frames rate channels bits total signature stream file : ℕ} (hb : blocks < 2 ^ 32) (hf : frames < 2 ^ 48)
    (hr : rate < 2 ^ 20) (hc : 1 ≤ channels ∧ channels ≤ 8) (hbits : 1 ≤ bits ∧ bits ≤ 32) (ht : total < 2 ^ 36)
    (hs : signature < 2 ^ 128) (hfile : file < 2 ^ 61) (hstream : stream ≤ file) (rest : Bytes) :
    let d := total * 1000 / rate
    flac (streamInfo blocks frames rate channels bits total signature ++ rest) stream file = .ok
      ⟨d, if d = 0 ∨ stream = 0 then 0 else file * 8 / d % 2 ^ 32, if d = 0 ∨ stream = 0 then 0 else stream * 8 / d % 2 ^ 32,
        rate, bits, channels, signature⟩ := by
  intro d
  unfold flac streamInfo
  generalize hn : ((rate * 8 + (channels - 1)) * 32 + (bits - 1)) * 2 ^ 36 + total = n
  rw [show beBytes 8 n = beBytes (4 + 4) n from rfl, beBytes_add]
  simp only [List.append_assoc]
  rw [readBE_append _ hb, ok_bind]
  simp only
  rw [readBE_append _ hf, ok_bind]
  simp only
  rw [readBE_append _ (by omega), ok_bind]
  simp only
  rw [readBE_append _ (by omega), ok_bind]
  simp only
  rw [readBE_append _ hs, ok_bind]
  simp only
  have e1 : (n / 256 ^ 4) >>> 12 = rate := by rw [Nat.shiftRight_eq_div_pow]; omega
  have e2 : ((n / 256 ^ 4) >>> 4 &&& 31) + 1 = bits := by rw [Nat.shiftRight_eq_div_pow, and31]; omega
  have e3 : ((n / 256 ^ 4) >>> 9 &&& 7) + 1 = channels := by rw [Nat.shiftRight_eq_div_pow, and7]; omega
  have e4 : ((n / 256 ^ 4 &&& 0xF) <<< 32) ||| (n % 256 ^ 4) = total := by
    have h4 : n % 256 ^ 4 < 2 ^ 32 := Nat.mod_lt _ (by decide)
    rw [and15, ← Nat.shiftLeft_add_eq_or_of_lt h4, Nat.shiftLeft_eq]
    have h5 : n / 256 ^ 4 % 16 = total / 2 ^ 32 := by omega
    have h6 : n % 256 ^ 4 = total % 2 ^ 32 := by omega
    rw [h5, h6]
    exact Nat.div_add_mod' total (2 ^ 32)
  rw [e1, e2, e3, e4]
  clear e1 e2 e3 e4 hn
  by_cases h : 0 < rate ∧ 0 < total
  · rw [if_pos h]
    have hd : total * 1000 / rate = d := rfl
    simp only [hd]
    clear_value d
    by_cases h2 : d = 0 ∨ stream = 0
    · rw [if_neg (by omega), if_pos h2, if_pos h2]
    · rw [if_pos (by omega), if_neg (by omega), if_neg h2, if_neg h2]
  · have hd : d = 0 := by
      show total * 1000 / rate = 0
      rcases Nat.eq_zero_or_pos rate with h0 | h0
      · rw [h0]; exact Nat.div_zero _
      · have : total = 0 := by omega
        rw [this]; simp
    rw [if_neg h, if_pos (.inl hd), if_pos (.inl hd), hd]

example : flac (streamInfo (4096 * 65536 + 4096) 14 44100 2 16 441000 12345) 1000000 1010000 = .ok ⟨10000, 808, 800, 44100, 16, 2, 12345⟩ := by
  decide +kernel

/-! ## WAV -/

theorem readFmt_plain {format channels rate bps align bits : ℕ} (hf : format < 2 ^ 16) (hf' : format ≠ 0xFFFE) (hc : channels < 2 ^ 16)
    (hr : rate < 2 ^ 32) (hb : bps < 2 ^ 32) (ha : align < 2 ^ 16) (hbits : bits < 2 ^ 16) (rest : Bytes) :
    readFmt (fmtChunk format channels rate bps align bits rest) = .ok ⟨format, channels % 256, rate, bps, align, bits, none⟩ := by
  unfold readFmt fmtChunk
  simp only [List.append_assoc]
  rw [readLE_append _ hf, ok_bind]
  simp only
  rw [readLE_append _ hc, ok_bind]
  simp only
  rw [readLE_append _ hr, ok_bind]
  simp only
  rw [readLE_append _ hb, ok_bind]
  simp only
  rw [readLE_append _ ha, ok_bind]
  simp only
  rw [readLE_append _ hbits, ok_bind]
  simp only
  rw [if_neg hf']

theorem readFmt_extensible {format channels rate bps align bits valid mask : ℕ} (hf : format < 2 ^ 16) (hc : channels < 2 ^ 16)
    (hr : rate < 2 ^ 32) (hb : bps < 2 ^ 32) (ha : align < 2 ^ 16) (hbits : bits < 2 ^ 16) (hv : valid < 2 ^ 16) (hm : mask < 2 ^ 32)
    (rest : Bytes) (hrest : 14 ≤ rest.length) :
    readFmt (fmtChunk 0xFFFE channels rate bps align bits (fmtExtra valid mask format rest))
      = .ok ⟨format, channels % 256, rate, bps, align, bits, some (valid, mask)⟩ := by
  have hlen : ¬ (fmtChunk 0xFFFE channels rate bps align bits (fmtExtra valid mask format rest)).length < 40 := by
    unfold fmtChunk fmtExtra
    simp only [List.length_append, leBytes_length]
    omega
  unfold readFmt
  simp only [if_neg hlen]
  unfold fmtChunk fmtExtra
  simp only [List.append_assoc]
  rw [readLE_append _ (by decide), ok_bind]
  simp only
  rw [readLE_append _ hc, ok_bind]
  simp only
  rw [readLE_append _ hr, ok_bind]
  simp only
  rw [readLE_append _ hb, ok_bind]
  simp only
  rw [readLE_append _ ha, ok_bind]
  simp only
  rw [readLE_append _ hbits, ok_bind]
  simp only
  rw [if_pos trivial, readLE_append _ (by decide), ok_bind]
  simp only
  rw [readLE_append _ hv, ok_bind]
  simp only
  rw [readLE_append _ hm, ok_bind]
  simp only
  rw [readLE_append _ hf, ok_bind]

theorem wavTimes_samples {f : Fmt} {samples stream file : ℕ} (hr : 0 < f.rate) (hr' : f.rate < 2 ^ 32) (hs : 0 < samples) (hs' : samples < 2 ^ 32)
    (hb : f.bytesPerSecond < 2 ^ 32) (hstream : stream < 2 ^ 32) (hfile : file < 2 ^ 60) :
    let d := nearest (samples * 1000) f.rate
    let byteRate := nearest (f.bytesPerSecond * 8) 1000
    wavTimes f samples stream file = .ok (d, if d = 0 then 0 else nearest (file * 8) d % 2 ^ 32,
      if byteRate = 0 ∧ d ≠ 0 then nearest (stream * 8) d % 2 ^ 32 else byteRate) := by
  intro d byteRate
  have hd : divRound 64 (samples * 1000) f.rate = .ok d := divRound_nearest hr (by omega)
  have hdle : d ≤ 2 * (samples * 1000) + f.rate := Nat.div_le_self _ _
  have hbr : byteRate < 2 ^ 32 := by
    show (2 * (f.bytesPerSecond * 8) + 1000) / (2 * 1000) < 2 ^ 32
    omega
  have ha : (if 0 < f.bytesPerSecond then do
      let a ← divRound 64 (f.bytesPerSecond * 8) 1000
      .ok (a % 2 ^ 32)
    else .ok 0 : Except Err ℕ) = .ok byteRate := by
    by_cases h0 : 0 < f.bytesPerSecond
    · rw [if_pos h0, divRound_nearest (by omega) (by omega), ok_bind]
      exact congrArg Except.ok (Nat.mod_eq_of_lt hbr)
    · rw [if_neg h0]
      apply congrArg Except.ok
      show 0 = (2 * (f.bytesPerSecond * 8) + 1000) / (2 * 1000)
      omega
  unfold wavTimes
  rw [ha, ok_bind, if_pos ⟨hr, hs⟩, hd, ok_bind]
  by_cases h0 : d = 0
  · rw [if_neg (by omega), if_pos h0, if_neg (by omega), h0]
  · have hd0 : 0 < d := by omega
    rw [if_pos hd0, if_neg h0, times8, if_neg (by omega), ok_bind, divRound_nearest hd0 (by omega), ok_bind]
    by_cases hb0 : byteRate = 0
    · rw [if_pos hb0, divRound_nearest hd0 (by omega), ok_bind, if_pos ⟨hb0, h0⟩]
    · rw [if_neg hb0, if_neg (by omega)]

/-- C61: **WAV**, as far as the number of samples is known: the fields are those of the `fmt ` chunk, the duration is the number of samples
divided by the sample rate, rounded to the nearest millisecond. -/
theorem wav_fields {format channels rate bps align bits fact stream file : ℕ} (hf : format < 2 ^ 16) (hf' : format ≠ 0xFFFE)
    (hc : 0 < channels ∧ channels < 256) (hr : 0 < rate ∧ rate < 2 ^ 32) (hb : bps < 2 ^ 32) (ha : align < 2 ^ 16) (hbits : bits < 256)
    (h8 : 8 ∣ bits) (hstream : 0 < stream ∧ stream < 2 ^ 32) (hfact : fact < 2 ^ 32) (hfile : file < 2 ^ 60)
    (hs : 0 < wavSamples format channels bits fact stream) (hbits0 : 0 < bits) (rest : Bytes) :
    let d := nearest (wavSamples format channels bits fact stream * 1000) rate
    let byteRate := nearest (bps * 8) 1000
    wav (fmtChunk format channels rate bps align bits rest) fact stream file = .ok
      ⟨if format = 1 then .pcm else if format = 3 then .ieeeFloat else .other format, d,
        if d = 0 then 0 else nearest (file * 8) d % 2 ^ 32,
        if byteRate = 0 ∧ d ≠ 0 then nearest (stream * 8) d % 2 ^ 32 else byteRate, rate, bits, channels, none⟩ := by
  intro d byteRate
  have hlen : ¬ (fmtChunk format channels rate bps align bits rest).length < 16 := by
    unfold fmtChunk
    simp only [List.length_append, leBytes_length]
    omega
  have hc' : channels % 256 = channels := Nat.mod_eq_of_lt hc.2
  have hss : wavSamples format channels bits fact stream < 2 ^ 32 := by
    unfold wavSamples
    split
    · exact lt_of_le_of_lt (Nat.div_le_self _ _) hstream.2
    · exact hfact
  unfold wav
  rw [if_neg hlen, if_neg (by omega), readFmt_plain hf hf' (by omega) hr.2 hb ha (by omega), ok_bind]
  simp only [hc']
  rw [if_neg (by omega), if_neg (by simpa using Nat.mod_eq_zero_of_dvd h8)]
  have hpcm : ¬ (¬ (format = 1 ∨ format = 3) ∧ fact = 0) := by
    rintro ⟨h1, h2⟩
    unfold wavSamples at hs
    rw [if_neg h1] at hs
    omega
  have hsam : (if 0 < bits ∧ (fact = 0 ∨ (format = 1 ∨ format = 3)) then stream / (channels * (bits / 8)) else fact)
      = wavSamples format channels bits fact stream := by
    unfold wavSamples
    by_cases hp : format = 1 ∨ format = 3
    · rw [if_pos hp, if_pos ⟨hbits0, .inr hp⟩]
    · rw [if_neg hp, if_neg]
      rintro ⟨-, h | h⟩
      · exact hpcm ⟨hp, h⟩
      · exact hp h
  rw [if_neg hpcm, hsam, wavTimes_samples hr.1 hr.2 hs hss hb hstream.2 hfile, ok_bind]
  have hdep : wavDepth ⟨format, channels, rate, bps, align, bits, none⟩ = bits := by
    unfold wavDepth
    simp only
    rw [if_pos hbits0, Nat.mod_eq_of_lt hbits]
  rw [hdep]
  rfl

/-- C61: **WAV, extensible format**: the format is that of the extension, as are the channel mask and, if it is given, the bit depth. -/
theorem wav_extensible_fields {format channels rate bps align bits valid mask fact stream file : ℕ} (hf : format < 2 ^ 16)
    (hc : 0 < channels ∧ channels < 256) (hr : 0 < rate ∧ rate < 2 ^ 32) (hb : bps < 2 ^ 32) (ha : align < 2 ^ 16) (hbits : bits < 256)
    (h8 : 8 ∣ bits) (hv : valid < 256) (hm : mask < 2 ^ 32) (hstream : 0 < stream ∧ stream < 2 ^ 32) (hfact : fact < 2 ^ 32) (hfile : file < 2 ^ 60)
    (hs : 0 < wavSamples format channels bits fact stream) (hbits0 : 0 < bits) (rest : Bytes) (hrest : 14 ≤ rest.length) :
    let d := nearest (wavSamples format channels bits fact stream * 1000) rate
    let byteRate := nearest (bps * 8) 1000
    wav (fmtChunk 0xFFFE channels rate bps align bits (fmtExtra valid mask format rest)) fact stream file = .ok
      ⟨if format = 1 then .pcm else if format = 3 then .ieeeFloat else .other format, d,
        if d = 0 then 0 else nearest (file * 8) d % 2 ^ 32,
        if byteRate = 0 ∧ d ≠ 0 then nearest (stream * 8) d % 2 ^ 32 else byteRate, rate, if valid = 0 then bits else valid, channels,
        some mask⟩ := by
  intro d byteRate
  have hlen : ¬ (fmtChunk 0xFFFE channels rate bps align bits (fmtExtra valid mask format rest)).length < 16 := by
    unfold fmtChunk
    simp only [List.length_append, leBytes_length]
    omega
  have hc' : channels % 256 = channels := Nat.mod_eq_of_lt hc.2
  have hss : wavSamples format channels bits fact stream < 2 ^ 32 := by
    unfold wavSamples
    split
    · exact lt_of_le_of_lt (Nat.div_le_self _ _) hstream.2
    · exact hfact
  unfold wav
  rw [if_neg hlen, if_neg (by omega), readFmt_extensible hf (by omega) hr.2 hb ha (by omega) (by omega) hm rest hrest, ok_bind]
  simp only [hc']
  rw [if_neg (by omega), if_neg (by simpa using Nat.mod_eq_zero_of_dvd h8)]
  have hpcm : ¬ (¬ (format = 1 ∨ format = 3) ∧ fact = 0) := by
    rintro ⟨h1, h2⟩
    unfold wavSamples at hs
    rw [if_neg h1] at hs
    omega
  have hsam : (if 0 < bits ∧ (fact = 0 ∨ (format = 1 ∨ format = 3)) then stream / (channels * (bits / 8)) else fact)
      = wavSamples format channels bits fact stream := by
    unfold wavSamples
    by_cases hp : format = 1 ∨ format = 3
    · rw [if_pos hp, if_pos ⟨hbits0, .inr hp⟩]
    · rw [if_neg hp, if_neg]
      rintro ⟨-, h | h⟩
      · exact hpcm ⟨hp, h⟩
      · exact hp h
  rw [if_neg hpcm, hsam, wavTimes_samples hr.1 hr.2 hs hss hb hstream.2 hfile, ok_bind]
  have hdep : wavDepth ⟨format, channels, rate, bps, align, bits, some (valid, mask)⟩ = if valid = 0 then bits else valid := by
    unfold wavDepth
    simp only
    by_cases h0 : valid = 0
    · rw [if_neg (by omega), if_pos hbits0, if_pos h0, Nat.mod_eq_of_lt hbits]
    · rw [if_pos (by omega), if_neg h0, Nat.mod_eq_of_lt hv]
  rw [hdep]
  rfl

/-- A second of stereo, 16 bits. -/
example : wav (fmtChunk 1 2 44100 176400 4 16 []) 0 176400 176444 = .ok ⟨.pcm, 1000, 1412, 1411, 44100, 16, 2, none⟩ := by decide +kernel

/-- Six channels of 24 bits, of which 20 are used. -/
example : wav (fmtChunk 0xFFFE 6 48000 864000 18 24 (fmtExtra 20 0x3F 1 (List.replicate 14 0))) 0 432000 432100
    = .ok ⟨.pcm, 500, 6914, 6912, 48000, 20, 6, some 0x3F⟩ := by decide +kernel

theorem divRound_no_panic {a b : ℕ} (hb : 0 < b) (h : a + b / 2 < 2 ^ 64) : divRound 64 a b ≠ .error .panic := by
  rw [divRound_nearest hb h]
  exact fun h => nomatch h

theorem divRound_le {a b n : ℕ} (h : divRound 64 a b = .ok n) : n ≤ a + b / 2 := by
  unfold divRound at h
  split at h
  · cases h
  · split at h
    · cases h
    · cases h
      exact Nat.div_le_self _ _

theorem readLE_lt {k n : ℕ} {r r' : Bytes} (h : readLE k r = .ok (n, r')) : n < 256 ^ k := by
  obtain ⟨a, -, h2, h3⟩ := readLE_ok h
  rw [h3, ← h2]
  exact fromLE_lt a

theorem readFmt_bounds {b : Bytes} {f : Fmt} (h : readFmt b = .ok f) : f.rate < 2 ^ 32 ∧ f.bytesPerSecond < 2 ^ 32 := by
  unfold readFmt at h
  obtain ⟨⟨v1, r1⟩, h1, h⟩ := bind_ok h
  obtain ⟨⟨v2, r2⟩, h2, h⟩ := bind_ok h
  obtain ⟨⟨v3, r3⟩, h3, h⟩ := bind_ok h
  obtain ⟨⟨v4, r4⟩, h4, h⟩ := bind_ok h
  obtain ⟨⟨v5, r5⟩, h5, h⟩ := bind_ok h
  obtain ⟨⟨v6, r6⟩, h6, h⟩ := bind_ok h
  have b3 := readLE_lt h3
  have b4 := readLE_lt h4
  simp only at h
  by_cases hc : v1 = 65534
  · rw [if_pos hc] at h
    by_cases hl : b.length < 40
    · rw [if_pos hl] at h; cases h
    · rw [if_neg hl] at h
      obtain ⟨⟨v7, r7⟩, h7, h⟩ := bind_ok h
      obtain ⟨⟨v8, r8⟩, h8, h⟩ := bind_ok h
      obtain ⟨⟨v9, r9⟩, h9, h⟩ := bind_ok h
      obtain ⟨⟨v10, r10⟩, h10, h⟩ := bind_ok h
      cases h
      exact ⟨b3, b4⟩
  · rw [if_neg hc] at h
    cases h
    exact ⟨b3, b4⟩

theorem readFmt_ne (b : Bytes) : readFmt b ≠ .error .panic := by
  have hr : ∀ n r, readLE n r ≠ .error .panic := fun n r => readLE_ne (by decide) n r
  unfold readFmt
  refine bind_ne (hr _ _) fun x1 => bind_ne (hr _ _) fun x2 => bind_ne (hr _ _) fun x3 => bind_ne (hr _ _) fun x4 =>
    bind_ne (hr _ _) fun x5 => bind_ne (hr _ _) fun x6 => ?_
  simp only
  split
  · split
    · exact fun h => nomatch h
    · exact bind_ne (hr _ _) fun x1 => bind_ne (hr _ _) fun x2 => bind_ne (hr _ _) fun x3 => bind_ne (hr _ _) fun x4 => fun h => nomatch h
  · exact fun h => nomatch h

theorem divRound_ok {a b : ℕ} (hb : 0 < b) (h : a + b / 2 < 2 ^ 64) : ∃ n, divRound 64 a b = .ok n ∧ n ≤ a + b / 2 := by
  have := divRound_nearest hb h
  exact ⟨_, this, divRound_le this⟩

/-- C61: no WAV file makes the computation panic, unless it has 2^60 bytes. -/
theorem wav_no_panic (fmt : Bytes) {fact stream file : ℕ} (hf : fact < 2 ^ 32) (hs : stream < 2 ^ 32) (hfile : file < 2 ^ 60) :
    wav fmt fact stream file ≠ .error .panic := by
  unfold wav
  split
  · exact fun h => nomatch h
  split
  · exact fun h => nomatch h
  cases hx : readFmt fmt with
  | error e => rw [error_bind]; intro h; cases h; exact readFmt_ne fmt hx
  | ok f =>
  obtain ⟨hrate, hbps⟩ := readFmt_bounds hx
  rw [ok_bind]
  split
  · exact fun h => nomatch h
  split
  · exact fun h => nomatch h
  simp only
  split
  · exact fun h => nomatch h
  have hsam : (if 0 < f.bits ∧ (fact = 0 ∨ (f.format = 1 ∨ f.format = 3)) then stream / (f.channels * (f.bits / 8)) else fact) < 2 ^ 32 := by
    split
    · exact lt_of_le_of_lt (Nat.div_le_self _ _) hs
    · exact hf
  refine bind_ne ?_ fun x => fun h => nomatch h
  generalize (if 0 < f.bits ∧ (fact = 0 ∨ (f.format = 1 ∨ f.format = 3)) then stream / (f.channels * (f.bits / 8)) else fact) = samples at *
  unfold wavTimes
  refine bind_ne ?_ fun audio => ?_
  · split
    · refine bind_ne (divRound_no_panic (by decide) (by omega)) fun x => fun h => nomatch h
    · exact fun h => nomatch h
  have h8 : times8 file = .ok (file * 8) := by unfold times8; rw [if_neg (by omega)]
  split
  · next hc =>
    obtain ⟨n, hn, hle⟩ := divRound_ok (a := samples * 1000) hc.1 (by omega)
    rw [hn, ok_bind]
    split
    · next hn0 =>
      rw [h8, ok_bind]
      refine bind_ne (divRound_no_panic hn0 (by omega)) fun x => ?_
      split
      · exact bind_ne (divRound_no_panic hn0 (by omega)) fun x => fun h => nomatch h
      · exact fun h => nomatch h
    · exact fun h => nomatch h
  split
  · next hc =>
    obtain ⟨n, hn, hle⟩ := divRound_ok (a := stream * 1000) hc.2 (by omega)
    rw [hn, ok_bind]
    split
    · next hn0 =>
      rw [h8, ok_bind]
      exact bind_ne (divRound_no_panic hn0 (by omega)) fun x => fun h => nomatch h
    · exact fun h => nomatch h
  · exact fun h => nomatch h

/-- C61 is false of the code: the number of channels is cut to eight bits; 258 channels are reported as two. -/
theorem wav_channels_cut : wav (fmtChunk 1 258 44100 22755600 516 16 []) 0 516000 516044
    = .ok ⟨.pcm, 2925, 1411, 182045, 44100, 16, 2, none⟩ ∧
    wav (fmtChunk 1 256 44100 22579200 512 16 []) 0 512000 512044 = .error .parse := by
  decide +kernel

/-! ## AIFF -/

theorem log2_bounds {n : ℕ} (h : 1 ≤ n) : 2 ^ n.log2 ≤ n ∧ n < 2 ^ (n.log2 + 1) :=
  ⟨Nat.log2_self_le (by omega), Nat.lt_log2_self⟩

/-- The bits of a number that is in the range of a double. -/
theorem bits_eq {x : F80} (hs : x.signed = false) (hf : 2 ^ 63 ≤ x.fraction) (hf' : x.fraction < 2 ^ 64) (he : 15361 ≤ x.exponent)
    (he' : x.exponent ≤ 17406) : x.bits = (x.exponent - 15360) * 2 ^ 52 + (x.fraction - 2 ^ 63) / 2 ^ 11 := by
  unfold F80.bits
  have h1 : ¬ x.exponent = 32767 := by omega
  have h2 : ¬ x.fraction = 0 := by omega
  have h3 : (((x.exponent : Int) - 16383 + 1023) % 4096).toNat = x.exponent - 15360 := by omega
  have h4 : x.fraction &&& 0x7FFFFFFFFFFFFFFF = x.fraction - 2 ^ 63 := by
    rw [show (0x7FFFFFFFFFFFFFFF : ℕ) = 2 ^ 63 - 1 from rfl, Nat.and_two_pow_sub_one_eq_mod]
    omega
  simp only [hs, h1, h2, if_false, h3, h4, Bool.false_eq_true, Nat.zero_shiftLeft, Nat.zero_or]
  rw [Nat.shiftRight_eq_div_pow, ← Nat.shiftLeft_add_eq_or_of_lt (by omega), Nat.shiftLeft_eq]

/-- The value read: the fraction loses its last eleven bits. -/
theorem ofBits_eq {x : F80} (hs : x.signed = false) (hf : 2 ^ 63 ≤ x.fraction) (hf' : x.fraction < 2 ^ 64) (he : 15361 ≤ x.exponent)
    (he' : x.exponent ≤ 17406) :
    ofBits x.bits = .fin (((x.fraction / 2 ^ 11 : ℕ) : ℚ) * pow2 ((x.exponent : ℤ) - 16435)) ∧ x.bits.testBit 63 = false := by
  have hb := bits_eq hs hf hf' he he'
  constructor
  · have h1 : (x.bits >>> 52) % 2048 = x.exponent - 15360 := by
      rw [hb, Nat.shiftRight_eq_div_pow]
      omega
    have h2 : x.bits % 2 ^ 52 = x.fraction / 2 ^ 11 - 2 ^ 52 := by
      rw [hb]
      omega
    unfold ofBits
    simp only [h1, h2]
    rw [if_neg (by omega), if_neg (by omega)]
    have h3 : 2 ^ 52 + (x.fraction / 2 ^ 11 - 2 ^ 52) = x.fraction / 2 ^ 11 := by omega
    rw [h3]
    have h4 : ((x.exponent - 15360 : ℕ) : ℤ) - 1075 = (x.exponent : ℤ) - 16435 := by omega
    rw [h4]
  · apply Nat.testBit_lt_two_pow
    rw [hb]
    omega

theorem floor_half (F s : ℕ) : ⌊(F : ℚ) / ((2 ^ s : ℕ) : ℚ) + 1 / 2⌋ = (nearest F (2 ^ s) : ℤ) := by
  have h0 : ((2 ^ s : ℕ) : ℚ) ≠ 0 := by positivity
  have h1 : (F : ℚ) / ((2 ^ s : ℕ) : ℚ) + 1 / 2 = ((2 * F + 2 ^ s : ℕ) : ℚ) / ((2 * 2 ^ s : ℕ) : ℚ) := by
    push_cast at h0 ⊢
    field_simp
  rw [h1, Rat.floor_natCast_div_natCast]
  rfl

theorem nearest_cut (F : ℕ) {s : ℕ} (h : 12 ≤ s) : nearest (F / 2 ^ 11) (2 ^ (s - 11)) = nearest F (2 ^ s) := by
  obtain ⟨t, rfl⟩ : ∃ t, s = t + 12 := ⟨s - 12, by omega⟩
  unfold nearest
  have e1 : t + 12 - 11 = t + 1 := by omega
  have e2 : 2 ^ (t + 1) = 2 ^ t * 2 := pow_succ 2 t
  have e3 : 2 ^ (t + 12) = 2 ^ t * 2 ^ 12 := pow_add 2 t 12
  rw [e1, e2, e3]
  generalize 2 ^ t = u
  have h1 : 2 * (F / 2 ^ 11) + u * 2 = (F / 2 ^ 11 + u) * 2 := by ring
  have h2 : 2 * (u * 2) = 2 * (2 * u) := by ring
  rw [h1, h2, ← Nat.div_div_eq_div_mul, Nat.mul_div_cancel _ (by decide)]
  have h3 : 2 * (u * 2 ^ 12) = 2 ^ 12 * (2 * u) := by ring
  rw [h3, ← Nat.div_div_eq_div_mul (2 * F + u * 2 ^ 12)]
  congr 1
  omega

/-- C61: **the sample rate of an AIFF file** is the number in its header rounded to the nearest integer (2^32 - 1 if it is greater than
that), for every number whose exponent is in the range of a double. -/
theorem aiff_rate {x : F80} (hs : x.signed = false) (hf : 2 ^ 63 ≤ x.fraction) (hf' : x.fraction < 2 ^ 64) (he : 15361 ≤ x.exponent)
    (he' : x.exponent ≤ 17406) : aiffRate x = .ok (min ⌊x.value + 1 / 2⌋.toNat (2 ^ 32 - 1)) := by
  obtain ⟨h1, h2⟩ := ofBits_eq hs hf hf' he he'
  have key : min ⌊((x.fraction / 2 ^ 11 : ℕ) : ℚ) * pow2 ((x.exponent : ℤ) - 16435) + 1 / 2⌋.toNat (2 ^ 32 - 1)
      = min ⌊x.value + 1 / 2⌋.toNat (2 ^ 32 - 1) := by
    unfold F80.value
    rw [pow2_eq, pow2_eq]
    by_cases hq : x.exponent ≤ 16434
    · obtain ⟨s, hs⟩ : ∃ s, x.exponent + s = 16446 := ⟨16446 - x.exponent, by omega⟩
      have hs12 : 12 ≤ s := by omega
      have e1 : (x.exponent : ℤ) - 16446 = -(s : ℤ) := by omega
      have e2 : (x.exponent : ℤ) - 16435 = -((s - 11 : ℕ) : ℤ) := by omega
      have p1 : ∀ (F k : ℕ), (F : ℚ) * 2 ^ (-(k : ℤ)) = (F : ℚ) / ((2 ^ k : ℕ) : ℚ) := by
        intro F k
        rw [zpow_neg, zpow_natCast, div_eq_mul_inv]
        push_cast
        rfl
      rw [e1, e2, p1, p1, floor_half, floor_half, nearest_cut _ hs12]
    · have big : ∀ v : ℚ, 2 ^ 32 ≤ v → min ⌊v + 1 / 2⌋.toNat (2 ^ 32 - 1) = 2 ^ 32 - 1 := by
        intro v hv
        apply Nat.min_eq_right
        have : (2 ^ 32 : ℤ) ≤ ⌊v + 1 / 2⌋ := by
          apply Int.le_floor.mpr
          push_cast
          linarith
        omega
      have m : ∀ {F : ℕ} {a : ℤ} {k : ℕ}, 2 ^ k ≤ F → 32 ≤ (k : ℤ) + a → (2 : ℚ) ^ 32 ≤ (F : ℚ) * 2 ^ a := by
        intro F a k hF hk
        have hF' : (2 : ℚ) ^ (k : ℤ) ≤ F := by
          rw [zpow_natCast]
          exact_mod_cast hF
        have ha : (0 : ℚ) < 2 ^ a := zpow_pos (by norm_num) a
        calc (2 : ℚ) ^ 32 = 2 ^ (32 : ℤ) := by norm_cast
          _ ≤ 2 ^ ((k : ℤ) + a) := zpow_le_zpow_right₀ (by norm_num) hk
          _ = 2 ^ (k : ℤ) * 2 ^ a := zpow_add₀ (by norm_num) _ _
          _ ≤ _ := mul_le_mul_of_nonneg_right hF' ha.le
      rw [big _ (m (k := 52) (by omega) (by omega)), big _ (m (k := 63) hf (by omega))]
  unfold aiffRate
  rw [h1]
  simp only [h2]
  rw [if_neg (by decide)]
  unfold F64.round F64.toU
  simp only
  rw [← key]
  apply congrArg Except.ok
  have hfl : ∀ z : ℤ, Rat.floor (z : ℚ) = z := fun z => by rw [floor_eq]; exact Int.floor_intCast z
  rw [hfl, floor_eq]

/-- Every integer below 2^32 is reported exactly. -/
theorem aiff_rate_int {n : ℕ} (h : 1 ≤ n) (h' : n < 2 ^ 32) : aiffRate (.ofInt n) = .ok n := by
  obtain ⟨hl, hu⟩ := log2_bounds h
  have hlog : n.log2 < 32 := by
    by_contra hc
    have : 2 ^ 32 ≤ 2 ^ n.log2 := Nat.pow_le_pow_right (by decide) (by omega)
    omega
  have hp : 2 ^ n.log2 * 2 ^ (63 - n.log2) = 2 ^ 63 := by rw [← pow_add]; congr 1; omega
  have hf : 2 ^ 63 ≤ n * 2 ^ (63 - n.log2) := by
    rw [← hp]
    exact Nat.mul_le_mul_right _ hl
  have hf' : n * 2 ^ (63 - n.log2) < 2 ^ 64 := by
    have := (Nat.mul_lt_mul_right (Nat.two_pow_pos (63 - n.log2))).mpr hu
    rw [pow_succ, Nat.mul_right_comm, hp] at this
    omega
  rw [aiff_rate (x := .ofInt n) rfl hf hf' (by show 15361 ≤ 16383 + n.log2; omega) (by show 16383 + n.log2 ≤ 17406; omega)]
  have hv : (F80.ofInt n).value = n := by
    unfold F80.value F80.ofInt
    simp only
    rw [pow2_eq]
    have e1 : ((16383 + n.log2 : ℕ) : ℤ) - 16446 = -((63 - n.log2 : ℕ) : ℤ) := by omega
    rw [e1, zpow_neg, zpow_natCast]
    push_cast
    rw [mul_assoc, mul_inv_cancel₀ (by positivity), mul_one]
  rw [hv]
  have : ⌊(n : ℚ) + 1 / 2⌋ = (n : ℤ) := by
    rw [Int.floor_eq_iff]
    push_cast
    constructor <;> linarith
  rw [this, Int.toNat_natCast]
  exact congrArg Except.ok (by omega)

theorem sign_bit : ∀ a < 256, (decide (UInt8.ofNat a &&& 0x80 ≠ 0) = decide (128 ≤ a)) ∧ (UInt8.ofNat a &&& 0x7F).toNat = a % 128 := by
  decide +kernel

theorem ofBytes_bytes {x : F80} (he : x.exponent < 32768) (hf : x.fraction < 2 ^ 64) : F80.ofBytes x.bytes = x := by
  obtain ⟨s, e, f⟩ := x
  unfold F80.bytes
  simp only at he hf ⊢
  have hb : ∀ n, beBytes 2 n = [UInt8.ofNat (n / 256), UInt8.ofNat n] := fun n => rfl
  rw [hb]
  generalize hn : (if s = true then 32768 else 0) + e = n
  have hlt : n / 256 < 256 := by
    split at hn <;> omega
  obtain ⟨h1, h2⟩ := sign_bit (n / 256) hlt
  unfold F80.ofBytes
  simp only [List.cons_append, List.nil_append, List.getD_cons_zero, List.getD_cons_succ, List.drop_succ_cons, List.drop_zero]
  rw [h1, h2, fromBE_beBytes_of_lt hf]
  have h3 : (UInt8.ofNat n).toNat = n % 256 := UInt8.toNat_ofNat'
  rw [h3, ← Nat.shiftLeft_add_eq_or_of_lt (show n % 256 < 2 ^ 8 from Nat.mod_lt _ (by decide)), Nat.shiftLeft_eq]
  cases s with
  | false =>
    rw [if_neg (by decide)] at hn
    have e1 : decide (128 ≤ n / 256) = false := decide_eq_false (by omega)
    have e2 : n / 256 % 128 * 2 ^ 8 + n % 256 = e := by omega
    rw [e1, e2]
  | true =>
    rw [if_pos rfl] at hn
    have e1 : decide (128 ≤ n / 256) = true := decide_eq_true (by omega)
    have e2 : n / 256 % 128 * 2 ^ 8 + n % 256 = e := by omega
    rw [e1, e2]

/-- What is reported about an AIFF file: the fields of `COMM`, the duration in whole milliseconds, and bit rates as close as the computation
allows. -/
structure AiffReport (p : Aiff) (channels frames size rate stream file : ℕ) : Prop where
  channels : p.channels = channels
  sampleSize : p.sampleSize = size
  sampleRate : p.sampleRate = rate
  duration : p.duration = frames * 1000 / rate
  audio : 0 < frames → rateOf stream frames rate ≤ 2 ^ 32 - 2 → Near p.audio (rateOf stream frames rate)
  overall : 0 < frames → rateOf file frames rate ≤ 2 ^ 32 - 2 → Near p.overall (rateOf file frames rate)

theorem bytes_length (x : F80) : x.bytes.length = 10 := by
  unfold F80.bytes
  simp only [List.length_append, beBytes_length]

theorem aiff_run {channels frames size rate : ℕ} {x : F80} (hc : 0 < channels ∧ channels < 2 ^ 16) (hfr : frames < 2 ^ 32) (hsz : size < 2 ^ 16)
    (he : x.exponent < 32768) (hf : x.fraction < 2 ^ 64) (hx : aiffRate x = .ok rate) (hr : 0 < rate ∧ rate < 2 ^ 32) (rest : Bytes)
    (aifc : Bool) (stream file : ℕ) : ∃ p : Option (Bytes × Option Str) → Aiff,
      aiff (commChunk channels frames size x rest) aifc stream file
        = (if 5 ≤ rest.length ∧ aifc then do let c ← compression rest; .ok (p (some c)) else .ok (p none)) ∧
      ∀ c, AiffReport (p c) channels frames size rate stream file ∧ (p c).compression = c := by
  unfold aiff commChunk
  simp only [List.append_assoc]
  rw [readBE_append _ hc.2, ok_bind]
  simp only
  rw [if_neg (by omega), readBE_append _ hfr, ok_bind]
  simp only
  rw [readBE_append _ hsz, ok_bind]
  simp only
  rw [readN_append x.bytes rest (bytes_length x), ok_bind]
  simp only
  rw [ofBytes_bytes he hf, hx, ok_bind]
  refine ⟨fun c => ⟨_, _, _, rate, size, channels, c⟩, rfl, fun c => ?_⟩
  by_cases h0 : 0 < frames
  · simp only [if_pos (And.intro hr.1 h0)]
    exact ⟨⟨rfl, rfl, rfl, millis_trunc (by omega) (by omega) hr.1,
      fun _ h => kbps_near (by omega) h0 (by omega) hr.1 h, fun _ h => kbps_near (by omega) h0 (by omega) hr.1 h⟩, trivial⟩
  · have : frames = 0 := by omega
    have hn : ¬ (0 < rate ∧ 0 < frames) := by omega
    simp only [if_neg hn]
    refine ⟨⟨rfl, rfl, rfl, ?_, fun h => absurd h h0, fun h => absurd h h0⟩, trivial⟩
    rw [this]
    simp

/-- C61: **AIFF** (not compressed). -/
theorem aiff_fields {channels frames size rate : ℕ} {x : F80} (hc : 0 < channels ∧ channels < 2 ^ 16) (hfr : frames < 2 ^ 32) (hsz : size < 2 ^ 16)
    (he : x.exponent < 32768) (hf : x.fraction < 2 ^ 64) (hx : aiffRate x = .ok rate) (hr : 0 < rate ∧ rate < 2 ^ 32) (rest : Bytes)
    (stream file : ℕ) : ∃ p, aiff (commChunk channels frames size x rest) false stream file = .ok p ∧
      AiffReport p channels frames size rate stream file ∧ p.compression = none := by
  obtain ⟨p, hp, h⟩ := aiff_run hc hfr hsz he hf hx hr rest false stream file
  rw [if_neg (by simp)] at hp
  exact ⟨_, hp, h none⟩

theorem utf8_empty {t : Str} (h : (utf8 t).length = 0) : t = [] := by
  have h2 := fromUtf8_utf8 t
  rw [List.length_eq_zero_iff.mp h] at h2
  have h3 : fromUtf8 [] = some [] := by decide
  rw [h3] at h2
  exact (Option.some.inj h2).symm

/-- C61: **AIFF-C**: the same, with the compression type; the name is only kept of types that are not known. -/
theorem aifc_fields {channels frames size rate : ℕ} {x : F80} {ty : Bytes} {name : Str} (hc : 0 < channels ∧ channels < 2 ^ 16) (hfr : frames < 2 ^ 32)
    (hsz : size < 2 ^ 16) (he : x.exponent < 32768) (hf : x.fraction < 2 ^ 64) (hx : aiffRate x = .ok rate) (hr : 0 < rate ∧ rate < 2 ^ 32)
    (hty : ty.length = 4) (hname : (utf8 name).length < 256) (hnul : name.getLast? ≠ some '\x00') (rest : Bytes) (stream file : ℕ) :
    ∃ p, aiff (commChunk channels frames size x (ty ++ UInt8.ofNat (utf8 name).length :: utf8 name ++ rest)) true stream file = .ok p ∧
      AiffReport p channels frames size rate stream file ∧ p.compression = some (ty, if ty ∈ knownTypes then none else some name) := by
  have hcomp : compression (ty ++ UInt8.ofNat (utf8 name).length :: utf8 name ++ rest) = .ok (ty, if ty ∈ knownTypes then none else some name) := by
    unfold compression
    rw [List.append_assoc, readN_append ty _ hty, ok_bind]
    simp only
    by_cases hk : ty ∈ knownTypes
    · rw [if_pos (by simpa using hk), if_pos hk]
    · rw [if_neg (by simpa using hk), if_neg hk, List.cons_append, readU8_cons, ok_bind]
      simp only
      have hl : (UInt8.ofNat (utf8 name).length).toNat = (utf8 name).length := by
        rw [UInt8.toNat_ofNat', Nat.mod_eq_of_lt hname]
      rw [hl]
      by_cases h0 : 0 < (utf8 name).length
      · rw [if_pos h0, readN_append _ _ rfl, ok_bind]
        simp only
        rw [Vorbis.utf8Decode_utf8 _ hnul, ok_bind]
      · rw [if_neg h0, utf8_empty (t := name) (by omega)]
  obtain ⟨p, hp, h⟩ := aiff_run hc hfr hsz he hf hx hr (ty ++ UInt8.ofNat (utf8 name).length :: utf8 name ++ rest) true stream file
  rw [if_pos ⟨by simp only [List.length_append, List.length_cons, hty]; omega, rfl⟩, hcomp, ok_bind] at hp
  exact ⟨_, hp, h _⟩

/-- Ten seconds of stereo. -/
example : aiff (commChunk 2 441000 16 (.ofInt 44100) []) false 1764000 1764100 = .ok ⟨10000, 1411, 1411, 44100, 16, 2, none⟩ := by
  decide +kernel

example : aiff (commChunk 2 441000 16 (.ofInt 44100) (ascii "ima4" ++ UInt8.ofNat 9 :: ascii "IMA 4:1  " ++ [0])) true 1764000 1764100
    = .ok ⟨10000, 1411, 1411, 44100, 16, 2, some (ascii "ima4", some (str "IMA 4:1  "))⟩ := by
  decide +kernel

/-- C61 is false of the code for numbers that are not normalised: one half (with the highest bit of its fraction not set) is read as three halves,
and 22050 as 54818. -/
theorem aiff_unnormalised : (⟨false, 16383, 2 ^ 62⟩ : F80).value = 1 / 2 ∧ aiffRate ⟨false, 16383, 2 ^ 62⟩ = .ok 2 ∧
    (⟨false, 16398, 22050 * 2 ^ 48⟩ : F80).value = 22050 ∧ aiffRate ⟨false, 16398, 22050 * 2 ^ 48⟩ = .ok 54818 := by
  decide +kernel

/-- C61 is false of the code for numbers out of the range of a double: their exponent wraps around.  2^4096 is read as 1. -/
theorem aiff_wraps : (⟨false, 20479, 2 ^ 63⟩ : F80).value = 2 ^ 4096 ∧ aiffRate ⟨false, 20479, 2 ^ 63⟩ = .ok 1 ∧
    (⟨false, 15358, 2 ^ 63⟩ : F80).value = 1 / 2 ^ 1025 ∧ aiffRate ⟨false, 15358, 2 ^ 63⟩ = .error .parse := by
  decide +kernel

/-! ## Monkey's Audio -/

theorem and_bit (n k : ℕ) : n &&& 2 ^ k = 2 ^ k * (n / 2 ^ k % 2) := by
  rw [Nat.and_two_pow, Nat.toNat_testBit, Nat.mul_comm]

/-- What is reported about a file of Monkey's Audio: the fields of its header, the duration to the nearest millisecond, and bit rates as close
as the computation allows. -/
structure MacReport (p : Mac) (version bits channels rate samples stream file : ℕ) : Prop where
  version : p.version = version
  bitDepth : p.bitDepth = bits
  channels : p.channels = channels
  sampleRate : p.sampleRate = rate
  duration : p.duration = nearest (samples * 1000) rate
  audio : rateOf stream samples rate ≤ 2 ^ 32 - 2 → Near p.audio (rateOf stream samples rate)
  overall : rateOf file samples rate ≤ 2 ^ 32 - 2 → Near p.overall (rateOf file samples rate)

theorem macFinish_report {strict : Bool} {version bits channels rate frames final perFrame stream file : ℕ} (hc : 1 ≤ channels ∧ channels ≤ 32)
    (hr : 0 < rate ∧ rate < 2 ^ 32) (hf : 0 < frames) (hfin : 0 < final) (h1 : final = 1 → frames = 1)
    (hs : final + perFrame * (frames - 1) < 2 ^ 39) :
    ∃ p, macFinish strict ⟨version, 0, 0, 0, rate, bits, channels⟩ frames final perFrame stream file = .ok p ∧
      MacReport p version bits channels rate (final + perFrame * (frames - 1)) stream file := by
  have hv : macValid frames channels = true := by
    unfold macValid
    exact decide_eq_true ⟨hc.1, hc.2, by omega⟩
  have hsam : (if 1 < final then final + perFrame * (frames - 1) else final) = final + perFrame * (frames - 1) := by
    by_cases h : 1 < final
    · rw [if_pos h]
    · rw [if_neg h]
      have := h1 (by omega)
      rw [this]
      simp
  unfold macFinish macTimes
  simp only
  rw [if_pos hv, if_pos hr.1, hsam]
  have h0 : 0 < final + perFrame * (frames - 1) := by omega
  exact ⟨_, rfl, ⟨rfl, rfl, rfl, rfl, millis_round hs (by omega) hr.1,
    fun h => kbps_near hs h0 (by omega) hr.1 h, fun h => kbps_near hs h0 (by omega) hr.1 h⟩⟩

/-- C61: **Monkey's Audio, from version 3980**, also with a descriptor that is longer than usual. -/
theorem mac_fields {strict : Bool} {version level flags perFrame final frames bits channels rate : ℕ} {d1 d2 extra rest : Bytes}
    (hv : 3980 ≤ version ∧ version < 2 ^ 16) (hd1 : d1.length = 2) (hd2 : d2.length = 40) (hx : 52 + extra.length < 2 ^ 32)
    (hpf : perFrame < 2 ^ 32) (hfin : 0 < final ∧ final < 2 ^ 32) (hfr : 0 < frames ∧ frames < 2 ^ 32) (h1 : final = 1 → frames = 1)
    (hb : bits < 256) (hc : 1 ≤ channels ∧ channels ≤ 32) (hr : 0 < rate ∧ rate < 2 ^ 32)
    (hs : final + perFrame * (frames - 1) < 2 ^ 39) (stream file : ℕ) :
    ∃ p, mac strict (macHeader version d1 d2 extra level flags perFrame final frames bits channels rate rest) stream file = .ok p ∧
      MacReport p version bits channels rate (final + perFrame * (frames - 1)) stream file := by
  unfold mac macHeader
  simp only [List.append_assoc]
  rw [readLE_append _ hv.2]
  simp only
  rw [if_pos hv.1]
  unfold macNew
  have hdl : (d1 ++ (leBytes 4 (52 + extra.length) ++ d2)).length = 46 := by
    simp only [List.length_append, leBytes_length, hd1, hd2]
  have assoc : ∀ t : Bytes, d1 ++ (leBytes 4 (52 + extra.length) ++ (d2 ++ t)) = (d1 ++ (leBytes 4 (52 + extra.length) ++ d2)) ++ t := by
    intro t
    simp only [List.append_assoc]
  rw [assoc, readN_append _ _ hdl]
  simp only
  have hlen : fromLE (((d1 ++ (leBytes 4 (52 + extra.length) ++ d2)).drop 2).take 4) = 52 + extra.length := by
    rw [← hd1, List.drop_left, List.take_append_of_le_length (by rw [leBytes_length]), List.take_of_length_le (by rw [leBytes_length]),
      fromLE_leBytes_of_lt hx]
  rw [hlen]
  have hskip : ∀ t : Bytes, (if 52 < 52 + extra.length then (extra ++ t).drop (52 + extra.length - 52) else extra ++ t) = t := by
    intro t
    rw [Nat.add_sub_cancel_left, List.drop_left]
    split
    · rfl
    · have : extra = [] := List.length_eq_zero_iff.mp (by omega)
      rw [this]
      rfl
  rw [hskip]
  have hh : ∀ t : Bytes, leBytes 2 level ++ (leBytes 2 flags ++ (leBytes 4 perFrame ++ (leBytes 4 final ++ (leBytes 4 frames ++ (leBytes 2 bits ++
      (leBytes 2 channels ++ (leBytes 4 rate ++ t))))))) = (leBytes 2 level ++ (leBytes 2 flags ++ (leBytes 4 perFrame ++ (leBytes 4 final ++
        (leBytes 4 frames ++ (leBytes 2 bits ++ (leBytes 2 channels ++ leBytes 4 rate))))))) ++ t := by
    intro t
    simp only [List.append_assoc]
  rw [hh, readN_append _ _ (by simp only [List.length_append, leBytes_length])]
  simp only
  have hdrop : ∀ t : Bytes, (leBytes 2 level ++ (leBytes 2 flags ++ t)).drop 4 = t := by
    intro t
    rw [← List.append_assoc]
    exact List.drop_left' (by simp only [List.length_append, leBytes_length])
  rw [hdrop, readLE_append _ hpf, ok_bind]
  simp only
  rw [readLE_append _ hfin.2, ok_bind]
  simp only
  rw [readLE_append _ hfr.2, ok_bind]
  simp only
  rw [readLE_append _ (by omega), ok_bind]
  simp only
  rw [readLE_append _ (by omega), ok_bind]
  simp only
  rw [← List.append_nil (leBytes 4 rate), readLE_append _ hr.2, ok_bind]
  simp only
  rw [Nat.mod_eq_of_lt hb, Nat.mod_eq_of_lt (by omega : channels < 256)]
  exact macFinish_report hc hr hfr.1 hfin.1 h1 hs

/-- The bit depth in the flags of old files. -/
def oldDepth (flags : ℕ) : ℕ := if flags % 2 = 1 then 8 else if flags / 8 % 2 = 1 then 24 else 16

/-- The blocks of a frame of old files: 9216, from version 3800 with extra high compression and from 3900 73728, from 3950 294912. -/
def oldBlocks (version level : ℕ) : ℕ :=
  if version < 3800 then 9216
  else if version < 3900 then (if level < 4000 then 9216 else 73728)
  else if version < 3950 then 73728
  else 294912

/-- C61: **Monkey's Audio, before version 3980**. -/
theorem mac_old_fields {strict : Bool} {version level flags channels rate wavHeader wavTail frames final : ℕ} {rest : Bytes}
    (hv : version < 3980) (hl : level < 2 ^ 16) (hfl : flags < 2 ^ 16) (hc : 1 ≤ channels ∧ channels ≤ 32) (hr : 0 < rate ∧ rate < 2 ^ 32)
    (hfr : 0 < frames ∧ frames < 2 ^ 32) (hfin : 0 < final ∧ final < 2 ^ 32) (h1 : final = 1 → frames = 1)
    (hs : final + oldBlocks version level * (frames - 1) < 2 ^ 39) (stream file : ℕ) :
    ∃ p, mac strict (macHeaderOld version level flags channels rate wavHeader wavTail frames final rest) stream file = .ok p ∧
      MacReport p version (oldDepth flags) channels rate (final + oldBlocks version level * (frames - 1)) stream file := by
  have hblocks : macBlocks version level = oldBlocks version level := by
    unfold macBlocks oldBlocks
    repeat' split
    all_goals omega
  have hdepth : (if flags &&& 1 = 1 then 8 else if flags &&& 8 = 8 then 24 else 16) = oldDepth flags := by
    unfold oldDepth
    have e1 : flags &&& 1 = flags % 2 := Nat.and_one_is_mod flags
    have e2 : (flags &&& 8 = 8) = (flags / 8 % 2 = 1) := by
      have h8 := and_bit flags 3
      change flags &&& 8 = 8 * (flags / 8 % 2) at h8
      rw [h8]
      apply propext
      omega
    rw [e1]
    simp only [e2]
  unfold mac macHeaderOld
  simp only [List.append_assoc]
  rw [readLE_append _ (by omega)]
  simp only
  rw [if_neg (by omega)]
  unfold macOld
  have hh : ∀ t : Bytes, leBytes 2 level ++ (leBytes 2 flags ++ (leBytes 2 channels ++ (leBytes 4 rate ++ (leBytes 4 wavHeader ++ (leBytes 4 wavTail ++
      (leBytes 4 frames ++ (leBytes 4 final ++ t))))))) = (leBytes 2 level ++ (leBytes 2 flags ++ (leBytes 2 channels ++ (leBytes 4 rate ++
        ((leBytes 4 wavHeader ++ leBytes 4 wavTail) ++ (leBytes 4 frames ++ leBytes 4 final)))))) ++ t := by
    intro t
    simp only [List.append_assoc]
  rw [hh, readN_append _ _ (by simp only [List.length_append, leBytes_length])]
  simp only
  rw [readLE_append _ hl, ok_bind]
  simp only
  rw [readLE_append _ hfl, ok_bind]
  simp only
  rw [readLE_append _ (by omega), ok_bind]
  simp only
  rw [readLE_append _ hr.2, ok_bind]
  simp only
  rw [readN_append _ _ (by simp only [List.length_append, leBytes_length]), ok_bind]
  simp only
  rw [readLE_append _ hfr.2, ok_bind]
  simp only
  rw [← List.append_nil (leBytes 4 final), readLE_append _ hfin.2, ok_bind]
  simp only
  rw [Nat.mod_eq_of_lt (by omega : channels < 256), hblocks, hdepth]
  exact macFinish_report hc hr hfr.1 hfin.1 h1 hs

example : mac true (macHeader 3990 [0, 0] (List.replicate 40 0) [1, 2, 3] 2000 0 294912 1000 3 16 2 44100 []) 1000000 1000100
    = .ok ⟨3990, 13397, 597, 597, 44100, 16, 2⟩ := by decide +kernel

example : mac true (macHeaderOld 3850 4000 8 2 44100 44 0 5 1000 []) 1000000 1000100
    = .ok ⟨3850, 6710, 1192, 1192, 44100, 24, 2⟩ := by decide +kernel

/-- C61 is false of the code for a last frame of at most one block: the other frames are not counted.  Ten full frames and one block at 44.1 kHz
(66.9 seconds) are reported to last nothing, at more than two million kilobits per second. -/
theorem mac_single_block : mac true (macHeader 3990 [0, 0] (List.replicate 40 0) [] 2000 0 294912 1 11 16 2 44100 []) 6000000 6000100
    = .ok ⟨3990, 0, 2116835280, 2116800000, 44100, 16, 2⟩ := by decide +kernel

/-- An empty last frame: bit rates of 2^32 - 1, the result of dividing by zero. -/
theorem mac_empty_frame : mac true (macHeader 3990 [0, 0] (List.replicate 40 0) [] 2000 0 294912 0 11 16 2 44100 []) 6000000 6000100
    = .ok ⟨3990, 0, 4294967295, 4294967295, 44100, 16, 2⟩ := by decide +kernel

end Lofty.Lossless
