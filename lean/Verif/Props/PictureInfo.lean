import Verif.Spec.PictureInfo
import Verif.Lemmas.Bytes
import Verif.Lemmas.Picture
/-!
# C65: dimensions of pictures
-/
namespace Lofty.Picture

theorem readN_app (a r : Bytes) : readN a.length (a ++ r) = .ok (a, r) := by
  unfold readN
  rw [if_pos (by simp), List.take_left, List.drop_left]

theorem readN_app' {n : Nat} {a r : Bytes} (h : a.length = n) : readN n (a ++ r) = .ok (a, r) := by
  rw [← h]; exact readN_app a r

theorem readBE2 {n : Nat} (h : n < 2 ^ 16) (r : Bytes) : readBE 2 (beBytes 2 n ++ r) = .ok (n, r) := by
  unfold readBE
  rw [readN_app' (by simp)]
  show Except.ok (fromBE (beBytes 2 n), r) = _
  rw [fromBE_beBytes_of_lt (by omega)]

theorem drop_app {n : Nat} {a r : Bytes} (h : a.length = n) : (a ++ r).drop n = r := by
  rw [← h]; exact List.drop_left

theorem palette_chunks : ∀ (cs : List PngChunk) (fuel : Nat) (rest : Bytes), (∀ c ∈ cs, c.Ok) → cs.length < fuel →
    ((∃ c ∈ cs, c.ty = ascii "PLTE") ∨ rest.length < 8) →
    pngPalette fuel (cs.flatMap PngChunk.bytes ++ rest)
      = .ok (((cs.find? fun c => c.ty = ascii "PLTE").map fun c => c.content.length / 3).getD 0) := by
  intro cs
  induction cs with
  | nil =>
    intro fuel rest _ hf hr
    obtain ⟨fuel, rfl⟩ : ∃ k, fuel = k + 1 := ⟨fuel - 1, by simp at hf; omega⟩
    have hr : rest.length < 8 := by
      rcases hr with ⟨c, hc, _⟩ | h
      · cases hc
      · exact h
    rw [List.flatMap_nil, List.nil_append, pngPalette]
    unfold readBE readN
    by_cases h4 : 4 ≤ rest.length
    · rw [if_pos h4]
      simp only
      rw [if_neg (by rw [List.length_drop]; omega)]
      rfl
    · rw [if_neg h4]
      rfl
  | cons c cs ih =>
    intro fuel rest hok hf hr
    obtain ⟨h1, h2, h3⟩ := hok c List.mem_cons_self
    obtain ⟨fuel, rfl⟩ : ∃ k, fuel = k + 1 := ⟨fuel - 1, by simp at hf; omega⟩
    rw [List.flatMap_cons, pngPalette]
    unfold PngChunk.bytes
    simp only [List.append_assoc]
    rw [readBE4 (by omega)]
    simp only
    rw [readN_app' h1]
    simp only
    by_cases hp : c.ty = ascii "PLTE"
    · rw [if_pos hp, List.find?_cons_of_pos (by simpa using hp)]
      rfl
    · rw [if_neg hp, if_neg (by omega), List.find?_cons_of_neg (by simpa using hp), ← List.append_assoc,
        drop_app (by rw [List.length_append, h2])]
      refine ih fuel rest (fun d hd => hok d (List.mem_cons_of_mem _ hd)) (by simp at hf; omega) ?_
      rcases hr with ⟨d, hd, hq⟩ | h
      · rcases List.mem_cons.mp hd with rfl | hd
        · exact absurd hq hp
        · exact .inl ⟨d, hd, hq⟩
      · exact .inr h

theorem chunks_le (cs : List PngChunk) : cs.length ≤ (cs.flatMap PngChunk.bytes).length := by
  induction cs with
  | nil => simp
  | cons c cs ih =>
    rw [List.flatMap_cons, List.length_append, List.length_cons]
    unfold PngChunk.bytes at ih ⊢
    simp only [List.length_append, beBytes_length] at ih ⊢
    omega

/-- C65: the dimensions of a PNG image are those of its header, the depth is that of all samples of a pixel, and the number of
colours is that of the palette, wherever it is.  `_partial`: not for images of greyscale with alpha (`png_grey_alpha`). -/
theorem png_info_partial (width height : Nat) (depth colorType : UInt8) (tail : Bytes) (cs : List PngChunk) (rest : Bytes)
    (hw : width < 2 ^ 32) (hh : height < 2 ^ 32) (hc : colorType ≠ 4) (ht : tail.length = 7) (hcs : ∀ c ∈ cs, c.Ok)
    (hr : (∃ c ∈ cs, c.ty = ascii "PLTE") ∨ rest.length < 8 ∨ colorType ≠ 3) :
    fromPng (png width height depth colorType tail cs rest) =
      .ok ⟨UInt32.ofNat width, UInt32.ofNat height, UInt32.ofNat (depth.toNat * pngSamples colorType), UInt32.ofNat (pngColors colorType cs)⟩ := by
  unfold fromPng png
  rw [readN_app' (n := 8) (show List.length ([0x89, 0x50, 0x4E, 0x47, 0x0D, 0x0A, 0x1A, 0x0A] : Bytes) = 8 from rfl), ok_bind]
  simp only [ne_eq, not_true_eq_false, if_false]
  rw [← List.append_assoc (beBytes 4 13), readN_app' (by rfl), ok_bind]
  simp only
  rw [if_neg (by decide), readBE4 hw, ok_bind]
  simp only
  rw [readBE4 hh, ok_bind]
  simp only [readU8, ok_bind]
  have hd : (if colorType = 2 then depth.toNat * 3 else if colorType = 4 ∨ colorType = 6 then depth.toNat * 4 else depth.toNat)
      = depth.toNat * pngSamples colorType := by
    unfold pngSamples
    by_cases h2 : colorType = 2
    · rw [if_pos h2, if_pos h2]
    · rw [if_neg h2, if_neg h2]
      by_cases h6 : colorType = 6
      · rw [if_pos (.inr h6), if_neg hc, if_pos h6]
      · rw [if_neg (by simp [hc, h6]), if_neg hc, if_neg h6, Nat.mul_one]
  rw [hd]
  unfold pngColors
  by_cases h3 : colorType = 3
  · rw [if_neg (by simp [h3]), if_pos h3, drop_app ht, palette_chunks cs _ rest hcs _ _]
    · rfl
    · have := chunks_le cs
      simp only [List.length_append]
      omega
    · rcases hr with h | h | h
      · exact .inl h
      · exact .inr h
      · exact absurd h3 h
  · rw [if_pos h3, if_neg h3]

theorem segs_scan : ∀ (segs : List JpegSeg) (fuel : Nat) (r : Bytes), segs.length ≤ fuel →
    (∀ s ∈ segs, s.Ok ∧ ¬ IsFrame s.marker ∧ s.marker ≠ 0xDA) →
    jpegScan fuel (segs.flatMap JpegSeg.bytes ++ r) = jpegScan (fuel - segs.length) r := by
  intro segs
  induction segs with
  | nil => intros; rfl
  | cons s segs ih =>
    intro fuel r hf hok
    obtain ⟨h1, h2, h3⟩ := hok s List.mem_cons_self
    obtain ⟨fuel, rfl⟩ : ∃ k, fuel = k + 1 := ⟨fuel - 1, by simp at hf; omega⟩
    rw [List.flatMap_cons, jpegScan]
    unfold JpegSeg.bytes
    simp only [List.append_assoc, List.cons_append, readU8, ok_bind, ne_eq, not_true_eq_false, if_false]
    rw [readBE2 h1, ok_bind]
    simp only
    have h2' : ¬ (s.marker = 192 ∨ s.marker = 194) := h2
    rw [if_neg h3, if_neg h2', checkedSub_le (by omega), ok_bind, show s.content.length + 2 - 2 = s.content.length by omega, List.drop_left]
    show jpegScan fuel (segs.flatMap JpegSeg.bytes ++ r) = _
    rw [ih fuel r (by simp at hf; omega) (fun d hd => hok d (List.mem_cons_of_mem _ hd)), List.length_cons,
      show fuel + 1 - (segs.length + 1) = fuel - segs.length by omega]

theorem segs_le (segs : List JpegSeg) : segs.length ≤ (segs.flatMap JpegSeg.bytes).length := by
  induction segs with
  | nil => simp
  | cons c cs ih =>
    rw [List.flatMap_cons, List.length_append, List.length_cons]
    unfold JpegSeg.bytes at ih ⊢
    simp only [List.length_append, List.length_cons, beBytes_length] at ih ⊢
    omega

/-- C65: the dimensions of a JPEG image are those of its first baseline or progressive frame, wherever it is among the segments.
`_partial`: the frame must not be the first segment (`jpeg_first_frame`), there must be no fill bytes between segments
(`jpeg_fill_bytes`), and the depth of a pixel must be below 256 (`jpeg_depth_panics`). -/
theorem jpeg_info_partial (first : JpegSeg) (segs : List JpegSeg) (marker : UInt8) (precision components : UInt8) (height width : Nat)
    (more rest : Bytes) (h1 : first.Ok) (hs : ∀ s ∈ segs, s.Ok ∧ ¬ IsFrame s.marker ∧ s.marker ≠ 0xDA) (hm : IsFrame marker)
    (hf : JpegSeg.Ok ⟨marker, jpegFrame precision height width components more⟩)
    (hh : height < 2 ^ 16) (hw : width < 2 ^ 16) (hd : precision.toNat * components.toNat < 256) :
    fromJpeg (jpeg (first :: segs ++ [⟨marker, jpegFrame precision height width components more⟩]) rest) =
      .ok ⟨UInt32.ofNat width, UInt32.ofNat height, UInt32.ofNat (precision.toNat * components.toNat), 0⟩ := by
  unfold fromJpeg jpeg
  have e : (0xFF :: 0xD8 :: ((first :: segs ++ [(⟨marker, jpegFrame precision height width components more⟩ : JpegSeg)]).flatMap JpegSeg.bytes ++ rest) : Bytes)
      = [0xFF, 0xD8, 0xFF, first.marker] ++ (beBytes 2 (first.content.length + 2) ++ (first.content ++
        (segs.flatMap JpegSeg.bytes ++ (JpegSeg.bytes ⟨marker, jpegFrame precision height width components more⟩ ++ rest)))) := by
    simp [JpegSeg.bytes]
  rw [e, readN_app' (n := 4) (show List.length [0xFF, 0xD8, 0xFF, first.marker] = 4 from rfl), ok_bind]
  simp only
  rw [if_neg (by simp), readBE2 h1, ok_bind]
  simp only
  rw [if_neg (by omega), show first.content.length + 2 - 2 = first.content.length by omega, List.drop_left, segs_scan segs _ _ _ hs]
  · generalize hk : (first.content ++ (segs.flatMap JpegSeg.bytes ++ (JpegSeg.bytes ⟨marker, jpegFrame precision height width components more⟩ ++ rest))).length + 1
      - segs.length = k
    have hk : ∃ j, k = j + 1 := by
      have := segs_le segs
      simp only [List.length_append] at hk
      exact ⟨k - 1, by omega⟩
    obtain ⟨j, rfl⟩ := hk
    have hda : marker ≠ 0xDA := by rcases hm with rfl | rfl <;> decide
    rw [jpegScan]
    unfold JpegSeg.bytes jpegFrame
    simp only [List.append_assoc, List.cons_append, readU8, ok_bind, ne_eq, not_true_eq_false, if_false]
    have hf' : (precision :: (beBytes 2 height ++ (beBytes 2 width ++ components :: more))).length + 2 < 2 ^ 16 := hf
    rw [readBE2 hf', ok_bind]
    simp only
    have hm' : marker = 192 ∨ marker = 194 := hm
    rw [if_neg hda, if_pos hm', ok_bind]
    simp only
    rw [readBE2 hh, ok_bind]
    simp only
    rw [readBE2 hw, ok_bind]
    simp only [ok_bind]
    rw [if_neg (by omega)]
  · have := segs_le segs
    simp only [List.length_append]
    omega

theorem palette_total : ∀ (fuel : Nat) (d : Bytes), d.length < fuel → ∃ n, pngPalette fuel d = .ok n := by
  intro fuel
  induction fuel with
  | zero => intro d h; omega
  | succ fuel ih =>
    intro d h
    rw [pngPalette]
    unfold readBE readN
    by_cases h4 : 4 ≤ d.length
    · rw [if_pos h4]
      simp only
      by_cases h8 : 4 ≤ (d.drop 4).length
      · rw [if_pos h8]
        simp only
        split
        · exact ⟨_, rfl⟩
        · split
          · exact ⟨_, rfl⟩
          · refine ih _ ?_
            simp only [List.length_drop] at h8 ⊢
            omega
      · rw [if_neg h8]; exact ⟨_, rfl⟩
    · rw [if_neg h4]; exact ⟨_, rfl⟩

theorem readN_error {n : Nat} {r : Bytes} {e : Err} (h : readN n r = .error e) : e = .eof := by
  unfold readN at h
  split at h
  · cases h
  · cases h; rfl

theorem readN_ok {n : Nat} {r a b : Bytes} (h : readN n r = .ok (a, b)) : b.length + n = r.length := by
  unfold readN at h
  split at h
  · cases h
    rw [List.length_drop]
    omega
  · cases h

theorem readBE_error {n : Nat} {r : Bytes} {e : Err} (h : readBE n r = .error e) : e = .eof := by
  unfold readBE at h
  split at h
  · cases h
  · rename_i h'
    cases h
    exact readN_error h'

theorem readBE_ok {n k : Nat} {r b : Bytes} (h : readBE n r = .ok (k, b)) : b.length + n = r.length := by
  unfold readBE at h
  split at h
  · rename_i h'
    cases h
    exact readN_ok h'
  · cases h

theorem readU8_error {r : Bytes} {e : Err} (h : readU8 r = .error e) : e = .eof := by
  cases r <;> cases h
  rfl

theorem readU8_ok {r b : Bytes} {x : UInt8} (h : readU8 r = .ok (x, b)) : b.length + 1 = r.length := by
  cases r <;> cases h
  rfl

theorem png_total {d : Bytes} {e : Err} (h : fromPng d = .error e) : e = .eof ∨ e = .parse := by
  unfold fromPng at h
  cases h1 : readN 8 d with
  | error e' => rw [h1] at h; cases h; exact .inl (readN_error h1)
  | ok x =>
    obtain ⟨sig, r⟩ := x
    rw [h1, ok_bind] at h
    simp only at h
    split at h
    · cases h; exact .inr rfl
    cases h2 : readN 8 r with
    | error e' => rw [h2] at h; cases h; exact .inl (readN_error h2)
    | ok x =>
      obtain ⟨ih, r⟩ := x
      rw [h2, ok_bind] at h
      simp only at h
      split at h
      · cases h; exact .inr rfl
      cases h3 : readBE 4 r with
      | error e' => rw [h3] at h; cases h; exact .inl (readBE_error h3)
      | ok x =>
        obtain ⟨w, r⟩ := x
        rw [h3, ok_bind] at h
        simp only at h
        cases h4 : readBE 4 r with
        | error e' => rw [h4] at h; cases h; exact .inl (readBE_error h4)
        | ok x =>
          obtain ⟨hh, r⟩ := x
          rw [h4, ok_bind] at h
          simp only at h
          cases h5 : readU8 r with
          | error e' => rw [h5] at h; cases h; exact .inl (readU8_error h5)
          | ok x =>
            obtain ⟨dp, r⟩ := x
            rw [h5, ok_bind] at h
            simp only at h
            cases h6 : readU8 r with
            | error e' => rw [h6] at h; cases h; exact .inl (readU8_error h6)
            | ok x =>
              obtain ⟨ct, r⟩ := x
              rw [h6, ok_bind] at h
              simp only at h
              split at h
              · cases h
              · obtain ⟨n, hn⟩ := palette_total (r.length + 1) (r.drop 7) (by rw [List.length_drop]; omega)
                rw [hn] at h
                cases h

theorem scan_total : ∀ (fuel : Nat) (d : Bytes) (e : Err), d.length < fuel → jpegScan fuel d = .error e → e = .eof ∨ e = .parse ∨ e = .panic := by
  intro fuel
  induction fuel with
  | zero => intro d e h; omega
  | succ fuel ih =>
    intro d e hl h
    rw [jpegScan] at h
    cases h1 : readU8 d with
    | error e' => rw [h1] at h; cases h; exact .inr (.inl rfl)
    | ok x =>
      obtain ⟨b, r1⟩ := x
      have l1 := readU8_ok h1
      rw [h1] at h
      simp only at h
      split at h
      · cases h; exact .inr (.inl rfl)
      cases h2 : readU8 r1 with
      | error e' => rw [h2] at h; cases h; exact .inl (readU8_error h2)
      | ok x =>
        obtain ⟨m, r2⟩ := x
        have l2 := readU8_ok h2
        rw [h2, ok_bind] at h
        simp only at h
        cases h3 : readBE 2 r2 with
        | error e' => rw [h3] at h; cases h; exact .inl (readBE_error h3)
        | ok x =>
          obtain ⟨len, r3⟩ := x
          have l3 := readBE_ok h3
          rw [h3, ok_bind] at h
          simp only at h
          split at h
          · cases h; exact .inr (.inl rfl)
          split at h
          · cases h4 : readU8 r3 with
            | error e' => rw [h4] at h; cases h; exact .inl (readU8_error h4)
            | ok x =>
              rw [h4, ok_bind] at h
              try simp only at h
              cases h5 : readBE 2 x.2 with
              | error e' => rw [h5] at h; cases h; exact .inl (readBE_error h5)
              | ok y =>
                rw [h5, ok_bind] at h
                try simp only at h
                cases h6 : readBE 2 y.2 with
                | error e' => rw [h6] at h; cases h; exact .inl (readBE_error h6)
                | ok z =>
                  rw [h6, ok_bind] at h
                  try simp only at h
                  cases h7 : readU8 z.2 with
                  | error e' => rw [h7] at h; cases h; exact .inl (readU8_error h7)
                  | ok u =>
                    rw [h7, ok_bind] at h
                    try simp only at h
                    split at h
                    · cases h; exact .inr (.inr rfl)
                    · cases h
          · unfold checkedSub at h
            split at h
            · rw [ok_bind] at h
              exact ih _ e (by rw [List.length_drop]; omega) h
            · cases h; exact .inr (.inr rfl)

theorem jpeg_total {d : Bytes} {e : Err} (h : fromJpeg d = .error e) : e ≠ .diverge := by
  unfold fromJpeg at h
  cases h1 : readN 4 d with
  | error e' => rw [h1] at h; cases h; rw [readN_error h1]; simp
  | ok x =>
    obtain ⟨sig, r⟩ := x
    rw [h1, ok_bind] at h
    simp only at h
    split at h
    · cases h; simp
    cases h2 : readBE 2 r with
    | error e' => rw [h2] at h; cases h; rw [readBE_error h2]; simp
    | ok x =>
      obtain ⟨len, r⟩ := x
      rw [h2, ok_bind] at h
      simp only at h
      split at h
      · cases h; simp
      · rcases scan_total _ _ e (by rw [List.length_drop]; omega) h with rfl | rfl | rfl <;> simp

/-- C65: asking for the dimensions of a picture always ends, and fails only for pictures of less than 8 bytes (and, with a panic, for
some damaged JPEG images: `jpeg_length_panics`, `jpeg_depth_panics`); pictures that are neither PNG nor JPEG have no dimensions. -/
theorem info_total_partial (p : Pic) :
    (p.data.length < 8 ∧ infoOf p = .error .notEnough) ∨ (8 ≤ p.data.length ∧ ((∃ i, infoOf p = .ok i) ∨
      (p.data.take 3 = [0xFF, 0xD8, 0xFF] ∧ infoOf p = .error .panic))) := by
  unfold infoOf
  by_cases h8 : p.data.length < 8
  · exact .inl ⟨h8, by rw [if_pos h8]⟩
  refine .inr ⟨by omega, ?_⟩
  rw [if_neg h8]
  split
  · cases hx : fromPng p.data with
    | ok i => exact .inl ⟨i, rfl⟩
    | error e => rcases png_total hx with rfl | rfl <;> exact .inl ⟨_, rfl⟩
  · split
    · rename_i hj
      cases hx : fromJpeg p.data with
      | ok i => exact .inl ⟨i, rfl⟩
      | error e =>
        have := jpeg_total hx
        cases e with
        | panic => exact .inr ⟨hj, rfl⟩
        | diverge => exact absurd rfl this
        | _ => exact .inl ⟨_, rfl⟩
    · exact .inl ⟨_, rfl⟩

/-- C65: pictures of other kinds have no dimensions. -/
theorem info_other (p : Pic) (h : 8 ≤ p.data.length) (h1 : p.data.take 4 ≠ [0x89, 0x50, 0x4E, 0x47]) (h2 : p.data.take 3 ≠ [0xFF, 0xD8, 0xFF]) :
    infoOf p = .ok ⟨0, 0, 0, 0⟩ := by
  unfold infoOf
  rw [if_neg (by omega), if_neg h1, if_neg h2]
  rfl

/-- C65: the dimensions of a picture are those of the image in it. -/
theorem info_of_image (p : Pic) (h : 8 ≤ p.data.length) (i : Info) :
    (p.data.take 4 = [0x89, 0x50, 0x4E, 0x47] → fromPng p.data = .ok i → infoOf p = .ok i) ∧
    (p.data.take 3 = [0xFF, 0xD8, 0xFF] → fromJpeg p.data = .ok i → infoOf p = .ok i) := by
  unfold infoOf
  rw [if_neg (by omega)]
  refine ⟨fun h1 h2 => ?_, fun h1 h2 => ?_⟩
  · rw [if_pos h1, h2]; rfl
  · rw [if_neg (fun h' => ?_), if_pos h1, h2]
    · rfl
    · have := congrArg (List.take 3) h'
      rw [List.take_take, show min 3 4 = 3 from rfl, h1] at this
      exact absurd this (by decide)

/-! ## Examples -/

/-- An image with a palette of two colours behind a text chunk. -/
example : fromPng (png 640 480 8 3 [0, 0, 0, 1, 2, 3, 4] [⟨ascii "tEXt", [1, 2, 3], [0, 0, 0, 0]⟩, ⟨ascii "PLTE", [0, 0, 0, 255, 255, 255], [0, 0, 0, 0]⟩] [1, 2, 3])
    = .ok ⟨640, 480, 8, 2⟩ := by
  rw [png_info_partial 640 480 8 3 _ _ _ (by decide) (by decide) (by decide) rfl _ (.inl ⟨⟨ascii "PLTE", [0, 0, 0, 255, 255, 255], [0, 0, 0, 0]⟩, by simp, rfl⟩)]
  · rfl
  · intro c hc
    simp only [List.mem_cons, List.not_mem_nil, or_false] at hc
    rcases hc with rfl | rfl <;> exact ⟨by decide, by decide, by decide⟩

/-- A progressive JPEG image with a JFIF header and a quantization table. -/
example : fromJpeg (jpeg (⟨0xE0, ascii "JFIF"⟩ :: [⟨0xDB, [1, 2, 3]⟩] ++ [⟨0xC2, jpegFrame 8 480 640 3 [1, 2]⟩]) [0xFF, 0xDA]) = .ok ⟨640, 480, 24, 0⟩ :=
  jpeg_info_partial ⟨0xE0, ascii "JFIF"⟩ [⟨0xDB, [1, 2, 3]⟩] 0xC2 8 3 480 640 [1, 2] [0xFF, 0xDA] (by unfold JpegSeg.Ok; decide)
    (by
      intro s hs
      simp only [List.mem_cons, List.not_mem_nil, or_false] at hs
      subst hs
      exact ⟨by unfold JpegSeg.Ok; decide, by unfold IsFrame; decide, by decide⟩)
    (.inr rfl) (by unfold JpegSeg.Ok; decide) (by decide) (by decide) (by decide)

/-! ## Disagreements -/

/-- Disagreement: the depth of greyscale images with alpha is doubled (two samples of 8 bits are 32 bits). -/
theorem png_grey_alpha (width height : Nat) (tail rest : Bytes) (hw : width < 2 ^ 32) (hh : height < 2 ^ 32) :
    fromPng (png width height 8 4 tail [] rest) = .ok ⟨UInt32.ofNat width, UInt32.ofNat height, 32, 0⟩ ∧ 8 * pngSamples 4 = 16 := by
  refine ⟨?_, rfl⟩
  unfold fromPng png
  rw [readN_app' (n := 8) (show List.length ([0x89, 0x50, 0x4E, 0x47, 0x0D, 0x0A, 0x1A, 0x0A] : Bytes) = 8 from rfl), ok_bind]
  simp only [ne_eq, not_true_eq_false, if_false]
  rw [← List.append_assoc (beBytes 4 13), readN_app' (by rfl), ok_bind]
  simp only
  rw [if_neg (by decide), readBE4 hw, ok_bind]
  simp only
  rw [readBE4 hh, ok_bind]
  rfl

/-- Disagreement: a frame that is the first segment is not found: such images have no dimensions. -/
theorem jpeg_first_frame : infoOf ⟨.other, none, none, jpeg [⟨0xC0, jpegFrame 8 480 640 3 []⟩] [0xFF, 0xDA]⟩ = .ok ⟨0, 0, 0, 0⟩ := by
  decide +kernel

/-- Disagreement: nor is one behind fill bytes (any number of bytes `FF` may precede a marker). -/
theorem jpeg_fill_bytes :
    infoOf ⟨.other, none, none, jpeg [⟨0xE0, ascii "JFIF"⟩] (0xFF :: (JpegSeg.bytes ⟨0xC0, jpegFrame 8 480 640 3 []⟩ ++ List.replicate 600 0))⟩
      = .ok ⟨0, 0, 0, 0⟩ := by
  decide +kernel

/-- Disagreement: a segment with an impossible size makes the subtraction overflow (a panic in debug builds). -/
theorem jpeg_length_panics : infoOf ⟨.other, none, none, [0xFF, 0xD8, 0xFF, 0xE0, 0, 2, 0xFF, 0xDB, 0, 0]⟩ = .error .panic := by
  decide +kernel

/-- Disagreement: so does the depth of a frame with many components (the product is computed in a byte). -/
theorem jpeg_depth_panics :
    infoOf ⟨.other, none, none, jpeg [⟨0xE0, ascii "JFIF"⟩, ⟨0xC0, jpegFrame 16 480 640 16 []⟩] []⟩ = .error .panic := by
  decide +kernel

end Lofty.Picture
