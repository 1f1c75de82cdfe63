import Verif.Model.Aac
import Verif.Spec.Mpeg
import Verif.Props.Mpeg
/-!
# C45: reading AAC frames comes to an end
-/
namespace Lofty.Aac
open Lofty.Mpeg (searchSync cmpHeader)
open Lofty.Mpeg.Spec (SyncAt field wordAt)

/-! ## Headers -/

theorem objectTypeOf_ok {n : Nat} (h : n < 4) : ∃ t, objectTypeOf n = .ok t ∧
    (t = .main ↔ n = 0) ∧ (t = .lowComplexity ↔ n = 1) ∧ (t = .scalableSampleRate ↔ n = 2) ∧
    (t = .longTermPrediction ↔ n = 3) := by
  match n, h with
  | 0, _ => exact ⟨_, rfl, by decide⟩
  | 1, _ => exact ⟨_, rfl, by decide⟩
  | 2, _ => exact ⟨_, rfl, by decide⟩
  | 3, _ => exact ⟨_, rfl, by decide⟩

theorem and3 (n : Nat) : n &&& 3 = n % 4 := Nat.and_two_pow_sub_one_eq_mod n 2
theorem and1 (n : Nat) : n &&& 1 = n % 2 := Nat.and_two_pow_sub_one_eq_mod n 1
theorem and15 (n : Nat) : n &&& 15 = n % 16 := Nat.and_two_pow_sub_one_eq_mod n 4

theorem len_bits (a b c : Nat) (hb : b < 256) (hc : c < 256) :
    ((a &&& 3) <<< 11) ||| (b <<< 3) ||| (c >>> 5) = a % 4 * 2048 + b * 8 + c / 32 := by
  rw [and3, Nat.shiftRight_eq_div_pow, Nat.or_assoc, Nat.shiftLeft_eq, Nat.shiftLeft_eq]
  have h1 : b * 2 ^ 3 ||| c / 2 ^ 5 = b * 8 + c / 32 := by
    rw [Nat.mul_comm b, ← Nat.two_pow_add_eq_or_of_lt (by omega)]
  rw [h1, Nat.mul_comm, ← Nat.two_pow_add_eq_or_of_lt (by omega)]
  omega

theorem channel_bits (a b : Nat) (hb : b < 256) : ((a &&& 1) <<< 2) ||| ((b >>> 6) &&& 3) = a % 2 * 4 + b / 64 := by
  rw [and1, and3, Nat.shiftRight_eq_div_pow, Nat.shiftLeft_eq, Nat.mul_comm, ← Nat.two_pow_add_eq_or_of_lt (by omega)]
  omega

/-- The layout of the header: the 56 bits are twelve of sync, then the fields below. -/
structure Decoded (w : Nat) (h : Header) : Prop where
  version : h.version = if field w 43 1 = 1 then .v2 else .v4
  crc : h.hasCrc = decide (field w 40 1 = 0)
  objectType : (h.objectType = .main ↔ field w 38 2 = 0) ∧ (h.objectType = .lowComplexity ↔ field w 38 2 = 1) ∧
    (h.objectType = .scalableSampleRate ↔ field w 38 2 = 2) ∧ (h.objectType = .longTermPrediction ↔ field w 38 2 = 3)
  rate : sampleRates[field w 34 4]? = some h.sampleRate
  channels : h.channels = field w 30 3
  original : h.original = decide (field w 29 1 = 1)
  /-- The bit the standard calls "home"; the copyright bits are the next two. -/
  copyright : h.copyright = decide (field w 28 1 = 1)
  len : h.len = field w 13 13
  bitrate : h.bitrate = h.len * h.sampleRate / 1024 * 8 / 1024

/-- **Decoding a header**: refused only for the forbidden sampling rate index 15, otherwise every field comes from its
own bits. -/
theorem decode_spec {b : Bytes} (hl : b.length = 7) :
    (field (fromBE b) 34 4 = 15 → decode b = .error .parse) ∧
    (field (fromBE b) 34 4 ≠ 15 → ∃ h, decode b = .ok h ∧ Decoded (fromBE b) h ∧ h.bytes = b) := by
  match b, hl with
  | [a1, a2, a3, a4, a5, a6, a7], _ =>
    have hw : fromBE [a1, a2, a3, a4, a5, a6, a7] = a1.toNat * 2 ^ 48 + a2.toNat * 2 ^ 40 + a3.toNat * 2 ^ 32 +
        a4.toNat * 2 ^ 24 + a5.toNat * 2 ^ 16 + a6.toNat * 2 ^ 8 + a7.toNat := by
      simp only [fromBE, List.reverse_cons, List.reverse_nil, List.nil_append, List.cons_append, fromLE]
      omega
    have h2 := a2.toNat_lt
    have h3 := a3.toNat_lt
    have h4 := a4.toNat_lt
    have h5 := a5.toNat_lt
    have h6 := a6.toNat_lt
    have h7 := a7.toNat_lt
    obtain ⟨t, ht, ht1, ht2, ht3, ht4⟩ := objectTypeOf_ok (n := (a3.toNat >>> 6) &&& 3) (by rw [and3]; omega)
    have hty : field (fromBE [a1, a2, a3, a4, a5, a6, a7]) 38 2 = (a3.toNat >>> 6) &&& 3 := by
      rw [hw, and3, Nat.shiftRight_eq_div_pow]
      unfold field
      omega
    have hidx : field (fromBE [a1, a2, a3, a4, a5, a6, a7]) 34 4 = (a3.toNat >>> 2) &&& 15 := by
      rw [hw, and15, Nat.shiftRight_eq_div_pow]
      unfold field
      omega
    unfold decode
    simp only [ht, ok_bind]
    rw [hidx]
    refine ⟨fun h => by rw [if_pos h], fun h => ?_⟩
    rw [if_neg h]
    have hlt : (a3.toNat >>> 2) &&& 15 < sampleRates.length := by
      rw [and15] at h ⊢
      have : sampleRates.length = 15 := rfl
      omega
    rw [List.getElem?_eq_getElem hlt]
    refine ⟨_, rfl, ⟨?_, ?_, ?_, ?_, ?_, ?_, ?_, ?_, rfl⟩, rfl⟩
    · have : field (fromBE [a1, a2, a3, a4, a5, a6, a7]) 43 1 = (a2.toNat >>> 3) &&& 1 := by
        rw [hw, and1, Nat.shiftRight_eq_div_pow]
        unfold field
        omega
      rw [this]
      have : (a2.toNat >>> 3) &&& 1 < 2 := by rw [and1]; omega
      by_cases h0 : (a2.toNat >>> 3) &&& 1 = 0
      · simp [h0]
      · simp [show (a2.toNat >>> 3) &&& 1 = 1 by omega]
    · have : field (fromBE [a1, a2, a3, a4, a5, a6, a7]) 40 1 = a2.toNat &&& 1 := by
        rw [hw, and1]
        unfold field
        omega
      rw [this]
    · rw [hty]
      exact ⟨ht1, ht2, ht3, ht4⟩
    · rw [hidx, List.getElem?_eq_getElem hlt]
    · simp only
      rw [channel_bits _ _ h4, hw]
      unfold field
      omega
    · have : field (fromBE [a1, a2, a3, a4, a5, a6, a7]) 29 1 = (a4.toNat >>> 5) &&& 1 := by
        rw [hw, and1, Nat.shiftRight_eq_div_pow]
        unfold field
        omega
      rw [this]
    · have : field (fromBE [a1, a2, a3, a4, a5, a6, a7]) 28 1 = (a4.toNat >>> 4) &&& 1 := by
        rw [hw, and1, Nat.shiftRight_eq_div_pow]
        unfold field
        omega
      rw [this]
    · simp only
      rw [len_bits _ _ _ h5 h6, hw]
      unfold field
      omega

example : ∃ h, decode [0xFF, 0xF1, 0x50, 0x80, 0x2E, 0x7F, 0xFC] = .ok h ∧ h.sampleRate = 44100 ∧ h.len = 371 ∧ h.channels = 2 ∧
    h.bitrate = 124 := by exact ⟨_, rfl, by decide⟩

/-- **The home bit is reported as the copyright mark**, and the copyright bits are not looked at. -/
theorem home_is_copyright :
    (∃ h, decode [0xFF, 0xF1, 0x50, 0x90, 0x2E, 0x7F, 0xFC] = .ok h ∧ h.copyright = true) ∧
    (∃ h, decode [0xFF, 0xF1, 0x50, 0x8C, 0x2E, 0x7F, 0xFC] = .ok h ∧ h.copyright = false) :=
  ⟨⟨_, rfl, by decide⟩, ⟨_, rfl, by decide⟩⟩

theorem rate_le {i r : Nat} (h : sampleRates[i]? = some r) : r ≤ 96000 := by
  have hm := List.mem_of_getElem? h
  have : ∀ r ∈ sampleRates, r ≤ 96000 := by decide
  exact this r hm

/-- A frame has no more kilobits per second than bytes. -/
theorem bitrate_le {w : Nat} {h : Header} (hd : Decoded w h) : h.bitrate ≤ h.len := by
  rw [hd.bitrate]
  have := rate_le hd.rate
  have h1 : h.len * h.sampleRate ≤ h.len * 96000 := Nat.mul_le_mul_left _ this
  omega

/-! ## Frames -/

/-- The bytes at `p` are a header for a frame, and at the end of the frame (or of its header, if the length is too
small for that) the same bits come again: sync, version, layer, CRC mark, object type, sampling rate, channels. -/
structure FrameAt (f : Bytes) (p : Nat) (h : Header) : Prop where
  sync : SyncAt f p
  inside : p + 7 ≤ f.length
  decoded : decode ((f.drop p).take 7) = .ok h
  next : ∃ w, wordAt f (p + max h.len (if h.hasCrc then 9 else 7)) = some w ∧
    fromBE ((f.drop p).take 4) &&& headerMask = w &&& headerMask

theorem FrameAt.fits {f : Bytes} {p : Nat} {h : Header} (hf : FrameAt f p h) : p + h.len + 4 ≤ f.length := by
  obtain ⟨w, hw, _⟩ := hf.next
  have hm := Nat.le_max_left h.len (if h.hasCrc then 9 else 7)
  generalize max h.len (if h.hasCrc then 9 else 7) = m at hw hm
  unfold wordAt at hw
  by_cases hx : p + m + 4 ≤ f.length
  · omega
  · rw [if_neg hx] at hw
    cases hw

theorem decode_error {b : Bytes} (hl : b.length = 7) {e : Err} (h : decode b = .error e) : e = .parse := by
  obtain ⟨h1, h2⟩ := decode_spec hl
  by_cases hx : field (fromBE b) 34 4 = 15
  · rw [h1 hx] at h
    cases h
    rfl
  · obtain ⟨x, hx, _⟩ := h2 hx
    rw [hx] at h
    cases h

theorem decode_bytes {b : Bytes} (hl : b.length = 7) {h : Header} (hd : decode b = .ok h) :
    Decoded (fromBE b) h ∧ h.bytes = b := by
  obtain ⟨h1, h2⟩ := decode_spec hl
  by_cases hx : field (fromBE b) 34 4 = 15
  · rw [h1 hx] at hd
    cases hd
  · obtain ⟨x, hx, h3⟩ := h2 hx
    rw [hx] at hd
    cases hd
    exact h3

theorem take7_length {f : Bytes} {p : Nat} (h : p + 7 ≤ f.length) : ((f.drop p).take 7).length = 7 := by
  simp only [List.length_take, List.length_drop]
  omega

/-- Reading a header at a position: all cases. -/
theorem read_cases (f : Bytes) (p : Nat) :
    (f.length < p + 7 ∧ Header.read f p = .error .eof) ∨
    (p + 7 ≤ f.length ∧ Header.read f p = .error .parse) ∨
    (p + 7 ≤ f.length ∧ ∃ h, decode ((f.drop p).take 7) = .ok h ∧
      Header.read f p = .ok (h, p + if h.hasCrc then 9 else 7)) := by
  unfold Header.read readAt
  by_cases hl : p + 7 ≤ f.length
  · right
    rw [if_pos hl, ok_bind]
    cases hd : decode ((f.drop p).take 7) with
    | error e =>
      left
      have := decode_error (take7_length hl) hd
      subst this
      exact ⟨hl, rfl⟩
    | ok h => exact .inr ⟨hl, h, rfl, rfl⟩
  · left
    rw [if_neg hl]
    exact ⟨by omega, rfl⟩

/-- One step of the search, for a sync at `start`. -/
theorem findNext_step {f : Bytes} {fuel pos rel : Nat} (hs : searchSync (f.drop pos) = some rel) :
    (findNext f (fuel + 1) pos = .error .eof) ∨ (findNext f (fuel + 1) pos = .error .parse) ∨
    (findNext f (fuel + 1) pos = .ok none) ∨
    (∃ h, FrameAt f (pos + rel) h ∧ findNext f (fuel + 1) pos = .ok (some (h, pos + rel + h.len))) ∨
    (∃ next, pos + rel + 7 ≤ next ∧ next ≤ f.length ∧ findNext f (fuel + 1) pos = findNext f fuel next) := by
  obtain ⟨hsync, _⟩ := Mpeg.searchSync_some.mp hs
  rw [Mpeg.syncAt_drop] at hsync
  rw [findNext, hs]
  simp only
  rcases read_cases f (pos + rel) with ⟨_, hr⟩ | ⟨_, hr⟩ | ⟨hl, h, hd, hr⟩
  · left; rw [hr]; rfl
  · right; left; rw [hr]; rfl
  · right; right
    rw [hr, ok_bind]
    simp only
    have hb : h.bytes = (f.drop (pos + rel)).take 7 := (decode_bytes (take7_length hl) hd).2
    have h4 : h.bytes.take 4 = (f.drop (pos + rel)).take 4 := by
      rw [hb, List.take_take]
      rfl
    unfold cmpHeader
    have hn : pos + rel + (if h.hasCrc then 9 else 7) + (h.len - (if h.hasCrc then 9 else 7)) =
        pos + rel + max h.len (if h.hasCrc then 9 else 7) := by
      rw [Nat.max_def]
      split <;> split <;> omega
    have hge : 7 ≤ max h.len (if h.hasCrc = true then 9 else 7) := by
      have h1 := Nat.le_max_right h.len (if h.hasCrc = true then 9 else 7)
      have h2 : 7 ≤ (if h.hasCrc = true then 9 else 7) := by split <;> omega
      exact Nat.le_trans h2 h1
    simp only [hn, h4]
    rcases Mpeg.readAt_wordAt f (pos + rel + max h.len (if h.hasCrc then 9 else 7)) with
      ⟨w', hr', hw', hl'⟩ | ⟨⟨e, hr', _⟩, _⟩
    · rw [hr']
      simp only
      by_cases hm : fromBE ((f.drop (pos + rel)).take 4) &&& headerMask = fromBE w' &&& headerMask
      · rw [if_pos hm]
        right; left
        exact ⟨h, ⟨hsync, hl, hd, _, hw', hm⟩, rfl⟩
      · rw [if_neg hm]
        right; right
        exact ⟨_, by omega, by omega, rfl⟩
    · rw [hr']
      left; rfl

/-- **Finding a frame** comes to an end, and what it gives is a frame at or behind the position it starts from. -/
theorem findNext_spec (f : Bytes) : ∀ (fuel pos : Nat), 0 < fuel → f.length < pos + fuel →
    findNext f fuel pos = .error .eof ∨ findNext f fuel pos = .error .parse ∨ findNext f fuel pos = .ok none ∨
    ∃ h p, pos ≤ p ∧ FrameAt f p h ∧ findNext f fuel pos = .ok (some (h, p + h.len)) := by
  intro fuel
  induction fuel with
  | zero => intro pos h; omega
  | succ fuel ih =>
    intro pos _ hlt
    cases hs : searchSync (f.drop pos) with
    | none =>
      rw [findNext, hs]
      exact .inr (.inr (.inl rfl))
    | some rel =>
      rcases findNext_step (fuel := fuel) hs with h | h | h | ⟨h, hf, he⟩ | ⟨next, h1, h2, he⟩
      · exact .inl h
      · exact .inr (.inl h)
      · exact .inr (.inr (.inl h))
      · exact .inr (.inr (.inr ⟨h, _, by omega, hf, he⟩))
      · rw [he]
        rcases ih next (by omega) (by omega) with h | h | h | ⟨h, p, hp, hf, he⟩
        · exact .inl h
        · exact .inr (.inl h)
        · exact .inr (.inr (.inl h))
        · exact .inr (.inr (.inr ⟨h, p, by omega, hf, he⟩))

/-- **A frame without a sync before it** is found. -/
theorem findNext_first {f : Bytes} {pos p : Nat} {h : Header} (hp : pos ≤ p) (hf : FrameAt f p h)
    (hno : ∀ q, pos ≤ q → q < p → ¬ SyncAt f q) (fuel : Nat) :
    findNext f (fuel + 1) pos = .ok (some (h, p + h.len)) := by
  have hs : searchSync (f.drop pos) = some (p - pos) := by
    rw [Mpeg.searchSync_some, Mpeg.syncAt_drop, show pos + (p - pos) = p by omega]
    refine ⟨hf.sync, ?_⟩
    intro k hk
    rw [Mpeg.syncAt_drop]
    exact hno _ (by omega) (by omega)
  rw [findNext, hs]
  simp only
  rw [show pos + (p - pos) = p by omega]
  have hb : h.bytes = (f.drop p).take 7 := (decode_bytes (take7_length hf.inside) hf.decoded).2
  have h4 : h.bytes.take 4 = (f.drop p).take 4 := by
    rw [hb, List.take_take]
    rfl
  rcases read_cases f p with ⟨hlt, _⟩ | ⟨_, hr⟩ | ⟨_, h', hd', hr⟩
  · have := hf.inside; omega
  · unfold Header.read readAt at hr
    rw [if_pos hf.inside, ok_bind, hf.decoded] at hr
    cases hr
  · rw [hf.decoded] at hd'
    cases hd'
    rw [hr, ok_bind]
    simp only
    unfold cmpHeader
    have hn : p + (if h.hasCrc then 9 else 7) + (h.len - (if h.hasCrc then 9 else 7)) =
        p + max h.len (if h.hasCrc then 9 else 7) := by
      rw [Nat.max_def]
      split <;> split <;> omega
    simp only [hn, h4]
    obtain ⟨w, hw, hm⟩ := hf.next
    rcases Mpeg.readAt_wordAt f (p + max h.len (if h.hasCrc then 9 else 7)) with ⟨b', hr', hwb', _⟩ | ⟨_, hwn⟩
    · rw [hr']
      rw [hw] at hwb'
      cases hwb'
      simp only
      rw [if_pos hm]
    · rw [hw] at hwn; cases hwn

/-! ## All frames -/

/-- Frames behind each other: each starts at or behind the end of the one before it. -/
def Frames (f : Bytes) : Nat → List (Nat × Header) → Prop
  | _, [] => True
  | pos, (p, h) :: l => pos ≤ p ∧ FrameAt f p h ∧ Frames f (p + h.len) l

/-- **Averaging comes to an end** unless a frame announces the length zero, for every file below 4 GiB.  If it gives a
result, that is the sum of the bit rates of successive frames of the file and their number. -/
theorem average_partial {f : Bytes} (hz : ∀ p h, FrameAt f p h → h.len ≠ 0) (hlen : f.length < 2 ^ 32) :
    ∀ (fuel pos rate count : Nat), 0 < fuel → f.length < pos + fuel → rate ≤ pos → count ≤ pos →
    average f fuel pos rate count = .error .eof ∨ average f fuel pos rate count = .error .parse ∨
    ∃ l, Frames f pos l ∧
      average f fuel pos rate count = .ok (rate + (l.map (·.2.bitrate)).sum, count + l.length) := by
  intro fuel
  induction fuel with
  | zero => intro pos _ _ h; omega
  | succ fuel ih =>
    intro pos rate count _ hlt hr hc
    rw [average]
    rcases findNext_spec f (f.length + 1) pos (by omega) (by omega) with h | h | h | ⟨h, p, hp, hf, he⟩
    · left; rw [h]; rfl
    · right; left; rw [h]; rfl
    · right; right
      rw [h]
      exact ⟨[], trivial, by simp only [ok_bind, List.map_nil, List.sum_nil, List.length_nil, Nat.add_zero]⟩
    · rw [he, ok_bind]
      simp only
      have hfit := hf.fits
      have hne := hz p h hf
      have hbit := bitrate_le (decode_bytes (take7_length hf.inside) hf.decoded).1
      rw [if_neg (by omega)]
      rcases ih (p + h.len) (rate + h.bitrate) (count + 1) (by omega) (by omega) (by omega) (by omega) with
        h1 | h1 | ⟨l, hl, h1⟩
      · left; exact h1
      · right; left; exact h1
      · right; right
        refine ⟨(p, h) :: l, ⟨hp, hf, hl⟩, ?_⟩
        rw [h1]
        simp only [List.map_cons, List.sum_cons, List.length_cons, Except.ok.injEq, Prod.mk.injEq]
        omega

/-- **Reading the properties** comes to an end without a panic unless a frame announces the length zero, and the bit
rate is the average, the duration what follows from it. -/
theorem readProperties_partial {f : Bytes} (hz : ∀ p h, FrameAt f p h → h.len ≠ 0) (hlen : f.length < 2 ^ 32)
    {first : Header} {p : Nat} (hf : FrameAt f p first) (strict : Bool) {streamLen : Nat} (hs : streamLen ≤ f.length) :
    readProperties f strict first (p + first.len) streamLen (f.length + 1) = .error .eof ∨
    readProperties f strict first (p + first.len) streamLen (f.length + 1) = .error .parse ∨
    ∃ l, Frames f p l ∧ l ≠ [] ∧
      let rate := (l.map (·.2.bitrate)).sum / l.length
      readProperties f strict first (p + first.len) streamLen (f.length + 1) =
        .ok { bitrate := rate, duration := streamLen * 8 / rate } := by
  have hne := hz p first hf
  have hbit := bitrate_le (decode_bytes (take7_length hf.inside) hf.decoded).1
  have hfit := hf.fits
  unfold readProperties
  by_cases h1 : first.sampleRate = 0 ∧ strict = true
  · rw [if_pos h1]; right; left; rfl
  · rw [if_neg h1]
    by_cases h2 : first.bitrate = 0
    · rw [if_pos h2]; right; left; rfl
    · rw [if_neg h2]
      rcases average_partial hz hlen (f.length + 1) (p + first.len) first.bitrate 1 (by omega) (by omega) (by omega)
        (by omega) with h | h | ⟨l, hl, h⟩
      · left; rw [h]; rfl
      · right; left; rw [h]; rfl
      · right; right
        refine ⟨(p, first) :: l, ⟨Nat.le_refl _, hf, hl⟩, by simp, ?_⟩
        simp only [h, ok_bind, List.map_cons, List.sum_cons, List.length_cons]
        unfold properties
        rw [Nat.add_comm 1 l.length]
        split
        · rw [if_neg (by omega)]
        · rename_i h0
          rw [Nat.eq_zero_of_not_pos h0, Nat.div_zero]

/-- Two frames of seven bytes. -/
example :
    let frame : Bytes := [0xFF, 0xF1, 0x50, 0x80, 0x00, 0xE0, 0x1C]
    let f := frame ++ frame
    ∃ h, FrameAt f 0 h ∧ readProperties f true h 7 14 15 = .ok { bitrate := 2, duration := 56 } := by
  refine ⟨⟨.v4, .lowComplexity, 44100, 2, false, false, 7, 2, [0xFF, 0xF1, 0x50, 0x80, 0x00, 0xE0, 0x1C], false⟩,
    ⟨⟨0xF1, rfl, rfl, by decide⟩, by decide, rfl, 0xFFF15080, by decide +kernel, by decide +kernel⟩, by decide +kernel⟩

/-- The two frames meet the condition of `average_partial`. -/
example :
    let f : Bytes := [0xFF, 0xF1, 0x50, 0x80, 0x00, 0xE0, 0x1C, 0xFF, 0xF1, 0x50, 0x80, 0x00, 0xE0, 0x1C]
    ∀ p h, FrameAt f p h → h.len ≠ 0 := by
  intro f p h hf
  obtain ⟨b, h0, _⟩ := hf.sync
  have hp : p < 8 := by have := hf.inside; have hl : f.length = 14 := rfl; omega
  have h1 : ∀ p, p < 8 → f[p]? = some 0xFF → p = 0 ∨ p = 7 := by decide
  have hd := hf.decoded
  have hc : ∀ b : Bytes, decode b = .ok h → b = f.take 7 → h.len ≠ 0 := by
    intro b hb hb'
    subst hb'
    have : decode (f.take 7) = .ok ⟨.v4, .lowComplexity, 44100, 2, false, false, 7, 2,
      [0xFF, 0xF1, 0x50, 0x80, 0x00, 0xE0, 0x1C], false⟩ := rfl
    rw [this] at hb
    cases hb
    decide
  rcases h1 p hp h0 with rfl | rfl
  · exact hc _ hd rfl
  · exact hc _ hd rfl

/-- The bytes of a frame of seven bytes, a frame that announces the length zero, and the start of another one. -/
def zeroFile : Bytes :=
  [0xFF, 0xF1, 0x50, 0x80, 0x00, 0xE0, 0x1C] ++ [0xFF, 0xF1, 0x50, 0x80, 0x00, 0x00, 0x1C] ++ [0xFF, 0xF1, 0x50, 0x80]

/-- **A frame that announces the length zero is read for ever.**  The bit rate and the count grow until they leave 32
bits if they are checked; without zero-rate frames that would end the loop with a panic.  Here the frame of length zero
has the bit rate zero, so the count ends it after 2^32 rounds with a panic, not before; however often the loop has run
before that, it goes on. -/
theorem zero_length_repeats : ∀ (rounds count : Nat), count + rounds < 2 ^ 32 →
    average zeroFile rounds 7 2 count = .error .diverge := by
  have hfind : findNext zeroFile (zeroFile.length + 1) 7 = .ok (some
      (⟨.v4, .lowComplexity, 44100, 2, false, false, 0, 0, [0xFF, 0xF1, 0x50, 0x80, 0x00, 0x00, 0x1C], false⟩, 7)) := by
    decide +kernel
  intro rounds
  induction rounds with
  | zero => intro count _; rfl
  | succ n ih =>
    intro count hc
    rw [average, hfind, ok_bind]
    simp only
    rw [if_neg (by omega)]
    exact ih (count + 1) (by omega)

/-- The same for the whole computation of the properties. -/
theorem zero_length_hangs : ∃ h, findNext zeroFile (zeroFile.length + 1) 0 = .ok (some (h, 7)) ∧
    ∀ rounds, rounds < 2 ^ 32 - 1 → readProperties zeroFile true h 7 18 rounds = .error .diverge := by
  refine ⟨⟨.v4, .lowComplexity, 44100, 2, false, false, 7, 2, [0xFF, 0xF1, 0x50, 0x80, 0x00, 0xE0, 0x1C], false⟩,
    by decide +kernel, ?_⟩
  intro rounds hr
  unfold readProperties
  rw [if_neg (by decide), if_neg (by decide), zero_length_repeats rounds 1 (by omega)]
  rfl

/-- **A file cut off within the header of a frame** is refused, one cut off later or earlier is read. -/
theorem cut_header_refused :
    let frame : Bytes := [0xFF, 0xF1, 0x50, 0x80, 0x00, 0xE0, 0x1C]
    ∃ h, FrameAt (frame ++ frame) 0 h ∧
      readProperties (frame ++ frame ++ frame.take 4) false h 7 18 19 = .error .eof ∧
      readProperties (frame ++ frame ++ frame.take 1) false h 7 15 19 = .ok { bitrate := 2, duration := 60 } := by
  refine ⟨⟨.v4, .lowComplexity, 44100, 2, false, false, 7, 2, [0xFF, 0xF1, 0x50, 0x80, 0x00, 0xE0, 0x1C], false⟩,
    ⟨⟨0xF1, rfl, rfl, by decide⟩, by decide, rfl, 0xFFF15080, by decide +kernel, by decide +kernel⟩,
    by decide +kernel, by decide +kernel⟩

/-- **A tag behind the frames can make the file unreadable**: an ID3v1 tag with a title of `ÿÿÿ`. -/
theorem tag_taken_for_frame :
    let frame : Bytes := [0xFF, 0xF1, 0x50, 0x80, 0x00, 0xE0, 0x1C]
    let tag (title : Bytes) : Bytes := ascii "TAG" ++ title ++ List.replicate (125 - title.length) 0
    let f (title : Bytes) : Bytes := frame ++ frame ++ tag title
    ∃ h, FrameAt (f [255, 255, 255]) 0 h ∧
      readProperties (f [255, 255, 255]) false h 7 14 200 = .error .parse ∧
      readProperties (f [65, 66, 67]) false h 7 14 200 = .ok { bitrate := 2, duration := 56 } := by
  refine ⟨⟨.v4, .lowComplexity, 44100, 2, false, false, 7, 2, [0xFF, 0xF1, 0x50, 0x80, 0x00, 0xE0, 0x1C], false⟩,
    ⟨⟨0xF1, rfl, rfl, by decide⟩, by decide +kernel, rfl, 0xFFF15080, by decide +kernel, by decide +kernel⟩,
    by decide +kernel, by decide +kernel⟩

end Lofty.Aac
