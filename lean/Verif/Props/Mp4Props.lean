import Verif.Lemmas.Mp4Props
import Verif.Props.Mp4Read
import Verif.Props.Lossless
/-!
# C63: the audio properties of MP4 files

The properties reported are those of the first track with sound, the duration is exact, and saving a tag keeps them.
-/
namespace Lofty.Mp4Props
open Lofty.Text Lofty.Mp4 Lofty.Ilst Lofty.Mp4Write Lofty.Mp4Read
open Lofty.Lossless (nearest)

/-- The sample table of `minf`. -/
theorem parseMinf_tables {mode : Mode} {limit : Nat} {minf1 tables minf2 : Forest} {rest : Bytes} {r : Rd} {stsd : Bytes} {stts : Option (List (Nat × Nat))}
    (hok : (minf1.append (.node (ascii "stbl") tables minf2)).Ok) (hno : ascii "stbl" ∉ minf1.top)
    (hd : Only (ascii "stsd") stsd tables) (hlim : stsd.length ≤ limit)
    (hs : Paced tables stts)
    (hst : ∀ l, stts = some l → l.length ≤ limit)
    (ha : At r ((minf1.append (.node (ascii "stbl") tables minf2)).bytes ++ rest))
    (hsz : 8 + (minf1.append (.node (ascii "stbl") tables minf2)).bytes.length < 2 ^ 32) :
    parseMinf mode limit r (8 + (minf1.append (.node (ascii "stbl") tables minf2)).bytes.length) = .ok (some (stsd, stts)) := by
  obtain ⟨ok1, ok2⟩ := ok_split hok
  have hit : items (minf1.append (.node (ascii "stbl") tables minf2)) = items minf1 ++ (ascii "stbl", tables.bytes) :: items minf2 := by
    rw [items_append, items]
  have hby := items_bytes (minf1.append (.node (ascii "stbl") tables minf2))
  rw [hit] at hby
  rw [← hby] at ha hsz ⊢
  have hids : ∀ x ∈ items minf1, IdOk x.1 ∧ x.1 ≠ ascii "stbl" := fun x hx =>
    ⟨items_ok ok1 x hx, fun e => hno (by rw [← items_top, ← e]; exact List.mem_map_of_mem hx)⟩
  have hlen : (boxes (items minf1 ++ (ascii "stbl", tables.bytes) :: items minf2)).length =
      (boxes (items minf1)).length + (8 + tables.bytes.length + (boxes (items minf2)).length) := by
    rw [boxes_append, List.length_append, boxes_length_cons (x := (ascii "stbl", tables.bytes)) stbl_ok]
  unfold parseMinf
  have hfuel : (items minf1).length < r.f.length + 1 := by
    have h1 := length_le_boxes fun x hx => (hids x hx).1
    have h2 := ha.2.2
    rw [List.length_append] at h2
    omega
  rw [findChild_first stbl_ok tables.bytes rest (items minf2) (items minf1) hids _ r _ hfuel ha (by omega) rfl, ok_bind]
  simp only
  have ha2 : At (r.skip ((boxes (items minf1)).length + 8)) (boxes (items tables) ++ (boxes (items minf2) ++ rest)) := by
    rw [boxes_append, boxes_cons, List.append_assoc, List.append_assoc] at ha
    have := into_box (ha.skip rfl) stbl_ok
    rw [skip_skip] at this
    rw [items_bytes tables]
    exact this
  have hb := items_bytes tables
  obtain ⟨hd1, hd2⟩ := hd
  have hstsd := (lastOf_only (items tables) hd2).1 hd1
  have hll := length_le_boxes (items_ok ok2.2.2.1)
  cases stts with
  | none =>
    have hn : ∀ c, (ascii "stts", c) ∉ items tables := not_top hs
    have e := stblLoop_list (mode := mode) (limit := limit) (len := 8 + tables.bytes.length) (es := []) (Nat.zero_le _)
      (boxes (items minf2) ++ rest) (items tables) (items_ok ok2.2.2.1) (fun d hm => by rw [hd2 d hm]; exact hlim)
      (fun d hm => absurd hm (hn d)) (8 + tables.bytes.length + 1) _ 8 (none, none) (by rw [hb] at hll; omega) ha2 (by rw [hb]; omega) (by rw [hb])
    rw [e, hstsd, (lastOf_only (c := []) (items tables) (fun d hm => absurd hm (hn d))).2 (hn [])]
    rfl
  | some l =>
    obtain ⟨c, ⟨hc1, hc2⟩, hsteps⟩ := hs
    have e := stblLoop_list (mode := mode) (limit := limit) (len := 8 + tables.bytes.length) (es := l) (hst l rfl)
      (boxes (items minf2) ++ rest) (items tables) (items_ok ok2.2.2.1) (fun d hm => by rw [hd2 d hm]; exact hlim)
      (fun d hm => by rw [hc2 d hm]; exact hsteps) (8 + tables.bytes.length + 1) _ 8 (none, none) (by rw [hb] at hll; omega) ha2 (by rw [hb]; omega) (by rw [hb])
    rw [e, hstsd, (lastOf_only (items tables) hc2).1 hc1]
    rfl

theorem split_map {α β : Type} (g : α → β) {l : List α} {a : List β} {b : β} {c : List β} (h : l.map g = a ++ b :: c) :
    ∃ a' b' c', l = a' ++ b' :: c' ∧ a'.map g = a ∧ g b' = b ∧ c'.map g = c := by
  rw [List.map_eq_append_iff] at h
  obtain ⟨a', r, rfl, h1, h2⟩ := h
  rw [List.map_eq_cons_iff] at h2
  obtain ⟨b', c', rfl, h3, h4⟩ := h2
  exact ⟨a', b', c', rfl, h1, h3, h4⟩

/-- **C63, where the properties come from.** They are computed from the header, the sample description and the time table of the
first track with sound, and from the length of the audio and of the file, wherever the tracks are. -/
theorem properties_of {before moov after : Forest} {brand : Str} {timescale duration mdat : Nat} {stsd : Bytes} {stts : Option (List (Nat × Nat))}
    (h : FileOk before moov after brand) (hafter : after.Ok) (ha : Audio before moov after timescale duration stsd stts mdat)
    (mode : Mode) (limit : Nat) (hlim : stsd.length ≤ limit) (hst : ∀ l, stts = some l → l.length ≤ limit) :
    readProperties mode limit ((Rd.new (whole before moov after).bytes).resetBounds 0 (whole before moov after).bytes.length)
        (tracks (before.bytes.length + 8) moov) (whole before moov after).bytes.length =
      millis timescale duration >>= fun d => readStsd mode limit stsd { duration := d } >>= fun p =>
        if 0 < duration then bitrates p timescale duration mdat (whole before moov after).bytes.length stts else .ok p := by
  have hsize := h.size
  have hokw : (whole before moov after).Ok := by
    have : ∀ f g : Forest, f.Ok → g.Ok → (f.append g).Ok := by
      intro f g hf hg
      induction f with
      | nil => exact hg
      | leaf id c rest ih => exact ⟨hf.1, hf.2.1, ih hf.2.2⟩
      | node id kids rest _ ih => exact ⟨hf.1, hf.2.1, hf.2.2.1, ih hf.2.2.2⟩
    exact this _ _ h.names.1 ⟨moov_ok, by unfold IsContainer; decide, h.inner, hafter⟩
  generalize hF : (whole before moov after).bytes = F at *
  have hFb : F.drop (before.bytes.length + 8) = moov.bytes ++ after.bytes := by
    rw [← hF, whole, append_bytes, Forest.bytes, ← List.drop_drop, List.drop_left' rfl, box_eq, ← List.append_assoc (beBytes 4 _), List.append_assoc,
      List.drop_left' (by rw [List.length_append, beBytes_length]; rfl)]
  have hFl : before.bytes.length + 8 + moov.bytes.length ≤ F.length := by
    have e : F.length = before.bytes.length + (8 + moov.bytes.length + after.bytes.length) := by
      rw [← hF, whole, append_bytes, List.length_append, bytes_length_node moov_ok]
    omega
  generalize hr : (Rd.new F).resetBounds 0 F.length = r
  have h0 : r.start = 0 := by rw [← hr]; rfl
  have hl : r.len = r.f.length := by rw [← hr]; rfl
  have hrf : r.f = F := by rw [← hr]; rfl
  obtain ⟨⟨mute, media, more, hmed, hmute, hsound, ⟨mc, hmc, htimes⟩, front, minf1, tables, minf2, hmedia, hfront, hnostbl, hstsd, hstts⟩, dc, hfind, hdl⟩ := ha
  rw [← places_snd moov (before.bytes.length + 8)] at hmed
  obtain ⟨mute', x, more', hpl, e1, e2, e3⟩ := split_map Prod.snd hmed
  have hthere := places_there moov h.inner (before.bytes.length + 8)
  rw [hpl] at hthere
  have hx := hthere x (by simp)
  have hitems : items x.2 = items front ++ [(ascii "minf", (minf1.append (.node (ascii "stbl") tables minf2)).bytes)] := by
    rw [e2, hmedia, items_append, items]
    rfl
  have hlastx : MinfLast x.2 := by
    intro y hy e
    rw [hitems, List.dropLast_concat] at hy
    exact hfront (by rw [← items_top, ← e]; exact List.mem_map_of_mem hy)
  have hall : ∀ y ∈ mute' ++ [x], y.2.Ok ∧ MinfLast y.2 ∧ y.1 + 8 ≤ r.f.length ∧ ∃ rest, r.f.drop (y.1 + 8) = y.2.bytes ++ rest := by
    intro y hy
    have ht := hthere y (by rw [List.mem_append, List.mem_singleton] at hy; rw [List.mem_append, List.mem_cons]; exact hy.elim .inl fun e => .inr (.inl e))
    refine ⟨ht.1, ?_, ?_, ?_⟩
    · rw [List.mem_append, List.mem_singleton] at hy
      rcases hy with hy | rfl
      · exact (hmute y.2 (by rw [← e1]; exact List.mem_map_of_mem hy)).2
      · exact hlastx
    · have := ht.2.1
      rw [hrf]
      omega
    · rw [hrf]
      exact ht.2.2 F after.bytes hFb
  have htrak := trakLoop_first (mode := mode) h0 hl (by rw [hrf]; exact hsize) x more' mute' hall
    (fun y hy => (hmute y.2 (by rw [← e1]; exact List.mem_map_of_mem hy)).1) (by rw [e2]; exact hsound) ⟨false, none, none⟩ rfl
  obtain ⟨_, _, hxl, xrest, hxd⟩ := hall x (by simp)
  rw [← items_bytes] at hxd
  -- the header of the media
  obtain ⟨q1, p1, p2, p3⟩ := (lastAt_only (items x.2) (items_ok hx.1) (by rw [e2]; exact hmc.2) (x.1 + 8)).1 (by rw [e2]; exact hmc.1)
  obtain ⟨rest1, p3⟩ := p3 _ _ hxd
  -- the tables
  have hmi : ∀ d, (ascii "minf", d) ∈ items x.2 → d = (minf1.append (.node (ascii "stbl") tables minf2)).bytes := by
    intro d hd
    rw [hitems, List.mem_append, List.mem_singleton] at hd
    rcases hd with hd | hd
    · exact absurd hd (not_top hfront d)
    · exact congrArg Prod.snd hd
  obtain ⟨q2, s1, s2, s3⟩ := (lastAt_only (items x.2) (items_ok hx.1) hmi (x.1 + 8)).1 (by rw [hitems]; simp)
  obtain ⟨rest2, s3⟩ := s3 _ _ hxd
  have hxb : (boxes (items x.2)).length = x.2.bytes.length := by rw [items_bytes]
  have hxe := hx.2.1
  have hokm : (minf1.append (.node (ascii "stbl") tables minf2)).Ok := by
    have := hx.1
    rw [e2, hmedia] at this
    exact (ok_split this).2.2.2.1
  have ham : At (r.seekStart (q1 + 8)) (mc ++ rest1) := by
    have := Rd.at_seek (s := q1 + 8) h0 hl (by rw [hrf]; omega)
    rwa [← List.drop_drop, p3, box_eq, List.append_assoc, List.append_assoc, ← List.append_assoc (beBytes 4 _),
      List.drop_left' (by rw [List.length_append, beBytes_length]; rfl)] at this
  have hai : At (r.seekStart (q2 + 8)) ((minf1.append (.node (ascii "stbl") tables minf2)).bytes ++ rest2) := by
    have := Rd.at_seek (s := q2 + 8) h0 hl (by rw [hrf]; omega)
    rwa [← List.drop_drop, s3, box_eq, List.append_assoc, List.append_assoc, ← List.append_assoc (beBytes 4 _),
      List.drop_left' (by rw [List.length_append, beBytes_length]; rfl)] at this
  -- the audio
  have had : At (r.seekStart 0) (boxes (items (whole before moov after)) ++ []) := by
    have := Rd.at_seek (s := 0) h0 hl (Nat.zero_le _)
    rwa [List.drop_zero, hrf, ← hF, ← items_bytes, ← List.append_nil (boxes _)] at this
  have hwl : (boxes (items (whole before moov after))).length = F.length := by rw [items_bytes, hF]
  have hmdat : mdatLength mode (r.f.length + 1) (r.seekStart 0) = .ok dc.length :=
    mdatLength_find [] (items (whole before moov after)) (items_ok hokw) hfind _ _
      (by have := length_le_boxes (items_ok hokw); rw [hrf]; omega) had (by omega)
  unfold readProperties findAudio
  rw [places_info moov h.inner, hpl, htrak, ok_bind, p1, s1]
  simp only [Bool.not_true, Option.map_some, infoOf]
  rw [if_neg (by simp), ok_bind]
  simp only
  rw [parseMdhd_times ham htimes, ok_bind]
  simp only
  cases millis timescale duration with
  | error e => rfl
  | ok d =>
    rw [ok_bind, ok_bind, parseMinf_tables hokm hnostbl hstsd hlim hstts hst hai (by omega), ok_bind]
    simp only
    rw [hmdat]
    simp only [hdl]

/-! ## The sample descriptions -/

theorem esds_ok : IdOk (ascii "esds") := by unfold IdOk; decide
theorem mp4a_ok : IdOk (ascii "mp4a") := by unfold IdOk; decide
theorem alac_ok : IdOk (ascii "alac") := by unfold IdOk; decide
theorem flac_ok : IdOk (ascii "fLaC") := by unfold IdOk; decide
theorem dfla_ok : IdOk (ascii "dfLa") := by unfold IdOk; decide

/-- A sample entry up to its atoms. -/
theorem stsdEntry_head {mode : Mode} {limit : Nat} {r : Rd} {id kids rest : Bytes} {e : Entry} (he : e.Ok) (hid : IdOk id)
    (ha : At r (box id (e.bytes ++ kids) ++ rest)) (hsz : 8 + (e.bytes ++ kids).length < 2 ^ 32) (p : Props) :
    ∃ r', At r' (kids ++ rest) ∧ r'.len = r.len ∧ stsdEntry mode limit r p =
      (if id = ascii "mp4a" then mp4a mode r' { p with channels := some e.channels, sampleRate := some e.rate } >>= fun p => .ok (p, none)
      else if id = ascii "alac" then alac mode r' { p with channels := some e.channels, sampleRate := some e.rate } >>= fun p => .ok (p, none)
      else if id = ascii "fLaC" then flac mode limit r' { p with channels := some e.channels, sampleRate := some e.rate } >>= fun p => .ok (p, none)
      else skipAtom r' false (r'.pos - r.pos) >>= fun r'' => .ok (if id = ascii "drms" then
        { p with channels := some e.channels, sampleRate := some e.rate, drm := true }
        else { p with channels := some e.channels, sampleRate := some e.rate }, some r'')) := by
  obtain ⟨h1, h2, h3, h4, h5, h6, h7⟩ := he
  have hv : e.version < 2 := by rcases h2 with h | h <;> omega
  have a0 := into_box ha hid
  unfold Entry.bytes at a0
  simp only [List.append_assoc] at a0
  have a1 := a0.skip h1
  have a2 := a1.skip (beBytes_length 2 _)
  have a3 := a2.skip h3
  have a4 := a3.skip (beBytes_length 2 _)
  have a5 := a4.skip h5
  have a6 := a5.skip (beBytes_length 4 _)
  have hrate : (e.rate * 65536 + e.fraction) >>> 16 = e.rate := by rw [Nat.shiftRight_eq_div_pow]; omega
  refine ⟨((((((r.skip 8).skip 8).skip 2).skip 6).skip 2).skip 6).skip 4 |>.skip e.extra.length, a6.skip rfl, rfl, ?_⟩
  unfold stsdEntry
  rw [next_box ha hid hsz, ok_bind]
  simp only
  rw [if_neg (by simp), a1.raw (beBytes_length 2 _), ok_bind]
  simp only
  rw [fromBE_beBytes_of_lt (by omega), if_neg (by omega), a3.raw (beBytes_length 2 _), ok_bind]
  simp only
  rw [a5.raw (beBytes_length 4 _), ok_bind]
  simp only
  rw [fromBE_beBytes_of_lt (by omega), fromBE_beBytes_of_lt (by omega), hrate, Nat.mod_eq_of_lt h4]
  rcases h2 with ⟨h2, hx⟩ | ⟨h2, hx⟩
  · rw [if_neg (by omega), if_neg (by omega), ok_bind, hx]
    rfl
  · rw [if_pos (by omega), ok_bind, hx]

/-- The number of entries. -/
theorem readStsd_first {mode : Mode} {limit : Nat} {flags : Bytes} {count : Nat} {id : Bytes} {e : Entry} {kids rest : Bytes} (hf : flags.length = 4)
    (hc : 0 < count ∧ count < 2 ^ 32) (p q : Props)
    (h : ∀ r, At r (box id (e.bytes ++ kids) ++ rest) → r.len = (stsdOf flags count id e kids rest).length → stsdEntry mode limit r p = .ok (q, none)) :
    readStsd mode limit (stsdOf flags count id e kids rest) p = .ok q := by
  have a0 : At (Rd.new (stsdOf flags count id e kids rest)) (flags ++ (beBytes 4 count ++ (box id (e.bytes ++ kids) ++ rest))) := at_new _
  have a1 := a0.skip hf
  have a2 := a1.skip (beBytes_length 4 _)
  have hs := h _ a2 rfl
  unfold readStsd
  rw [a1.raw (beBytes_length 4 _), ok_bind]
  simp only
  rw [fromBE_beBytes_of_lt (by omega)]
  obtain ⟨n, rfl⟩ : ∃ n, count = n + 1 := ⟨count - 1, by omega⟩
  rw [stsdLoop, hs, ok_bind]

theorem descLen_bytes {rest : Bytes} {b : UInt8} (hb : b < 0x80) (a : Bytes) (ha : ∀ x ∈ a, 0x80 ≤ x) : ∀ (n : Nat) (r : Rd), a.length < n →
    At r (a ++ ([b] ++ rest)) → descLen n r = .ok (r.skip (a.length + 1)) := by
  induction a with
  | nil =>
    intro n r hn h
    obtain ⟨k, rfl⟩ : ∃ k, n = k + 1 := ⟨n - 1, by omega⟩
    rw [List.nil_append] at h
    rw [descLen, h.take (n := 1) rfl, ok_bind]
    simp only
    rw [if_pos (by simp [hb])]
    rfl
  | cons x a ih =>
    intro n r hn h
    obtain ⟨k, rfl⟩ : ∃ k, n = k + 1 := ⟨n - 1, by omega⟩
    have hx := ha x (by simp)
    have h' : At r ([x] ++ (a ++ ([b] ++ rest))) := h
    rw [descLen, h'.take (n := 1) rfl, ok_bind]
    simp only
    rw [if_neg (by simp only [List.all_cons, List.all_nil, Bool.and_true, decide_eq_true_eq]; exact UInt8.not_lt.mpr hx),
      ih (fun y hy => ha y (by simp [hy])) k _ (by simpa using hn) (h'.skip (n := 1) rfl), skip_skip]
    simp only [List.length_cons]
    rw [show 1 + (a.length + 1) = a.length + 1 + 1 by omega]

/-- A descriptor. -/
theorem descriptor_bytes {r : Rd} {t : UInt8} {l rest : Bytes} (hl : LenOk l) (h : At r ([t] ++ (l ++ rest))) :
    descriptor r = .ok ([t], (r.skip 1).skip l.length) ∧ At ((r.skip 1).skip l.length) rest := by
  obtain ⟨a, b, rfl, h1, h2, h3⟩ := hl
  have h4 := h.skip (n := 1) rfl
  refine ⟨?_, h4.skip rfl⟩
  unfold descriptor
  rw [h.take (n := 1) rfl, ok_bind]
  simp only
  rw [descLen_bytes h3 a h2 4 _ (by omega) (by simpa only [List.append_assoc] using h4), ok_bind, List.length_append]
  rfl

/-- From `esds` to the configuration of the codec. -/
theorem mp4a_specific {mode : Mode} {r : Rd} {l1 l2 l3 stream sizes config rest : Bytes} {codec average : Nat} (hl1 : LenOk l1) (hl2 : LenOk l2)
    (hl3 : LenOk l3) (hs : stream.length = 3) (hz : sizes.length = 8) (hc : codec < 256) (hav : average < 2 ^ 32)
    (ha : At r (box (ascii "esds") (esdsOf l1 l2 l3 stream codec sizes average config) ++ rest))
    (hsz : 8 + (esdsOf l1 l2 l3 stream codec sizes average config).length < 2 ^ 32) (p : Props) :
    ∃ r', At r' (config ++ rest) ∧ mp4a mode r p = specific r' { p with codec := codecOf codec } >>= fun p =>
      .ok (if 0 < average ∨ p.duration = 0 then { p with audio := some (average / 1000) } else p) := by
  have a0 := into_box ha esds_ok
  unfold esdsOf at a0
  simp only [List.append_assoc] at a0
  have a1 : At ((r.skip 8).skip 4) _ := a0.skip (a := [0, 0, 0, 0]) rfl
  obtain ⟨d1, a2⟩ := descriptor_bytes hl1 a1
  have a3 := a2.skip hs
  obtain ⟨d2, a4⟩ := descriptor_bytes hl2 a3
  have a5 := a4.skip (beBytes_length 1 _)
  have a6 := a5.skip hz
  have a7 := a6.skip (beBytes_length 4 _)
  obtain ⟨d3, a8⟩ := descriptor_bytes hl3 a7
  refine ⟨_, a8, ?_⟩
  unfold mp4a
  rw [next_box ha esds_ok hsz]
  simp only
  rw [if_neg (by simp), a0.raw (a := [0, 0, 0, 0]) (n := 4) rfl, ok_bind]
  simp only
  rw [if_neg (by decide), d1, ok_bind]
  simp only
  rw [if_pos trivial, d2, ok_bind]
  simp only
  rw [if_pos trivial]
  unfold decoderConfig
  rw [a4.raw (beBytes_length 1 _), ok_bind]
  simp only
  rw [a6.raw (beBytes_length 4 _), ok_bind]
  simp only
  rw [d3, ok_bind]
  simp only
  rw [if_pos trivial, fromBE_beBytes_of_lt (by omega), fromBE_beBytes_of_lt (by omega)]
  have hco : (if codec = 0x40 ∨ codec = 0x41 ∨ codec = 0x66 ∨ codec = 0x67 ∨ codec = 0x68 then some Codec.aac
      else if codec = 0x69 ∨ codec = 0x6B then some .mp3 else none) = codecOf codec := by
    unfold codecOf
    simp only [List.mem_cons, List.not_mem_nil, or_false]
  rw [hco]

theorem known_types : ∀ n, knownType n = true ↔ n ∈ types := by
  intro n
  by_cases h : n < 64
  · have : ∀ n < 64, knownType n = true ↔ n ∈ types := by decide
    exact this n h
  · constructor
    · intro hk
      simp only [knownType, Bool.or_eq_true, Bool.and_eq_true, decide_eq_true_eq] at hk
      omega
    · intro hm
      have : ∀ x ∈ types, x < 64 := by decide
      exact absurd (this n hm) h

theorem rates_eq : ∀ i, i < 13 → sampleRates.getD i 0 = frequencies.getD i 0 := by decide

/-- The configuration of AAC: type, sampling frequency and channels. -/
theorem specific_config {r : Rd} {type frequency channels more : Nat} {rest : Bytes} (ht : type ∈ types) (ht31 : type < 31) (hf : frequency < 13)
    (hc : channels < 16) (hm : more < 8) (ha : At r (configOf type frequency channels more ++ rest)) (p : Props) :
    specific r p = .ok { p with
      objectType := some type, sampleRate := some (frequencies.getD frequency 0),
      channels := if 0 < channels then some channels else p.channels } := by
  have e : configOf type frequency channels more = beBytes 1 ((type * 2048 + frequency * 128 + channels * 8 + more) / 256) ++
    beBytes 1 (type * 2048 + frequency * 128 + channels * 8 + more) := rfl
  rw [e, List.append_assoc] at ha
  have a1 := ha.skip (beBytes_length 1 _)
  unfold specific
  rw [ha.raw (beBytes_length 1 _), ok_bind]
  simp only
  rw [a1.raw (beBytes_length 1 _), ok_bind]
  simp only
  rw [fromBE_beBytes, fromBE_beBytes, Nat.pow_one]
  have ea : (type * 2048 + frequency * 128 + channels * 8 + more) / 256 % 256 = type * 8 + frequency / 2 := by omega
  have eb : (type * 2048 + frequency * 128 + channels * 8 + more) % 256 = frequency % 2 * 128 + channels * 8 + more := by omega
  rw [ea, eb]
  have e1 : (type * 8 + frequency / 2) >>> 3 = type := by rw [Nat.shiftRight_eq_div_pow]; omega
  have e2 : ((type * 8 + frequency / 2) &&& 7) <<< 1 ||| (frequency % 2 * 128 + channels * 8 + more) >>> 7 = frequency := by
    rw [show (7 : Nat) = 2 ^ 3 - 1 from rfl, Nat.and_two_pow_sub_one_eq_mod, Nat.shiftRight_eq_div_pow, ← Nat.shiftLeft_add_eq_or_of_lt (by omega),
      Nat.shiftLeft_eq]
    omega
  have e3 : (frequency % 2 * 128 + channels * 8 + more) >>> 3 &&& 0xF = channels := by
    rw [show (0xF : Nat) = 2 ^ 4 - 1 from rfl, Nat.and_two_pow_sub_one_eq_mod, Nat.shiftRight_eq_div_pow]
    omega
  have hn31 : ¬ type = 31 := by omega
  simp only [e1, e2, if_neg hn31]
  unfold rateOf
  have hk : knownType type = true := (known_types type).mpr ht
  have h15 : ¬ frequency = 15 := by omega
  have h15' : frequency < 15 := by omega
  have h31 : decide (type = 31) = false := decide_eq_false (by omega)
  rw [hk, h31, if_neg h15, if_pos h15', e3]
  simp only [Bool.not_true, Bool.false_eq_true, if_false]
  rw [ok_bind]
  simp only
  rw [if_neg (by omega), rates_eq frequency hf]
  rfl

/-- The types from 32 to 39, without channels. -/
theorem specific_escaped {r : Rd} {type frequency more : Nat} {rest : Bytes} (ht : 32 ≤ type ∧ type < 40) (ht36 : type ≠ 36) (hf : frequency < 13)
    (hm : more < 32) (ha : At r (escapedConfigOf type frequency 0 more ++ rest)) (p : Props) :
    specific r p = .ok { p with objectType := some type, sampleRate := some (frequencies.getD frequency 0) } := by
  have hN : escapedConfigOf type frequency 0 more = beBytes 3 (31 * 2 ^ 19 + (type - 32) * 8192 + frequency * 512 + 0 * 32 + more) := rfl
  generalize hNd : 31 * 2 ^ 19 + (type - 32) * 8192 + frequency * 512 + 0 * 32 + more = N at hN
  have e : escapedConfigOf type frequency 0 more = beBytes 1 (N / 256 / 256) ++ (beBytes 1 (N / 256) ++ beBytes 1 N) := by rw [hN]; rfl
  rw [e, List.append_assoc, List.append_assoc] at ha
  have a1 := ha.skip (beBytes_length 1 _)
  have a2 := a1.skip (beBytes_length 1 _)
  unfold specific
  rw [ha.raw (beBytes_length 1 _), ok_bind]
  simp only
  rw [a1.raw (beBytes_length 1 _), ok_bind]
  simp only
  rw [fromBE_beBytes, fromBE_beBytes, Nat.pow_one]
  have ea : N / 256 / 256 % 256 = 248 := by omega
  have eb : N / 256 % 256 = (type - 32) * 32 + frequency * 2 := by omega
  have ec : N % 256 = more := by omega
  rw [ea, eb]
  have e1 : 32 + ((248 &&& 7) ||| ((type - 32) * 32 + frequency * 2) >>> 5) = type := by
    rw [Nat.shiftRight_eq_div_pow, show (248 &&& 7) = 0 from rfl, Nat.zero_or]
    omega
  have e2 : ((type - 32) * 32 + frequency * 2) >>> 1 &&& 0xF = frequency := by
    rw [show (0xF : Nat) = 2 ^ 4 - 1 from rfl, Nat.and_two_pow_sub_one_eq_mod, Nat.shiftRight_eq_div_pow]
    omega
  have e3 : ((type - 32) * 32 + frequency * 2) &&& 1 = 0 := by rw [Nat.and_one_is_mod]; omega
  have e4 : more &&& 0xE0 = 0 := by
    have : ∀ m < 32, m &&& 0xE0 = 0 := by decide
    exact this more hm
  have h31 : (248 >>> 3 = 31) := rfl
  simp only [h31, if_true, e1, e2, decide_true]
  unfold rateOf
  have hk : knownType type = true := (known_types type).mpr (by
    have : ∀ t, 32 ≤ t → t < 40 → t ∈ types := by decide
    exact this type ht.1 ht.2)
  have h15 : ¬ frequency = 15 := by omega
  have h15' : frequency < 15 := by omega
  rw [hk, if_neg h15, if_pos h15', a2.raw (beBytes_length 1 _)]
  simp only [Bool.not_true, Bool.false_eq_true, if_false, if_true, ok_bind]
  rw [fromBE_beBytes, Nat.pow_one, ec, e3, e4, if_neg (by omega), rates_eq frequency hf]
  rfl

/-- The Audio Lossless Coding. -/
theorem specific_als {r : Rd} {rate frequency samples channels : Nat} {rest : Bytes} (hr : rate < 2 ^ 24) (hf : frequency < 2 ^ 32)
    (hc : 0 < channels ∧ channels < 256) (ha : At r (alsOf rate frequency samples channels ++ rest)) (p : Props) :
    specific r p = .ok { p with objectType := some 36, sampleRate := some frequency, channels := some channels } := by
  unfold alsOf at ha
  generalize hNd : 31 * 2 ^ 43 + 4 * 2 ^ 37 + 15 * 2 ^ 33 + rate * 512 = N at ha
  have e : beBytes 6 N = beBytes 1 (N / 256 / 256 / 256 / 256 / 256) ++ (beBytes 1 (N / 256 / 256 / 256 / 256) ++ (beBytes 3 (N / 256) ++ beBytes 1 N)) := rfl
  have hz : beBytes 1 N = [0] := by
    have : UInt8.ofNat N = 0 := by
      apply UInt8.toNat_inj.mp
      rw [UInt8.toNat_ofNat']
      show N % 256 = 0
      omega
    show [UInt8.ofNat N] = [0]
    rw [this]
  rw [hz] at e
  rw [e] at ha
  have ha' : At r (beBytes 1 (N / 256 / 256 / 256 / 256 / 256) ++ (beBytes 1 (N / 256 / 256 / 256 / 256) ++ (beBytes 3 (N / 256) ++ (([0] ++ ascii "ALS" ++ [0]) ++
    (beBytes 4 frequency ++ (beBytes 4 samples ++ (beBytes 2 (channels - 1) ++ rest))))))) := by
    simpa only [List.append_assoc] using ha
  clear ha
  have a1 := ha'.skip (beBytes_length 1 _)
  have a2 := a1.skip (beBytes_length 1 _)
  have a3 := a2.skip (beBytes_length 3 _)
  have a4 := a3.skip (n := 5) rfl
  have a5 := a4.skip (beBytes_length 4 _)
  have a6 := a5.skip (beBytes_length 4 _)
  unfold specific
  rw [ha'.raw (beBytes_length 1 _), ok_bind]
  simp only
  rw [a1.raw (beBytes_length 1 _), ok_bind]
  simp only
  rw [fromBE_beBytes, fromBE_beBytes, Nat.pow_one]
  have ea : N / 256 / 256 / 256 / 256 / 256 % 256 = 248 := by omega
  obtain ⟨k, hk, eb⟩ : ∃ k < 2, N / 256 / 256 / 256 / 256 % 256 = 158 + k := ⟨rate / 2 ^ 23, by omega, by omega⟩
  rw [ea, eb]
  have e1 : ∀ k < 2, 32 + ((248 &&& 7) ||| (158 + k) >>> 5) = 36 := by decide
  have e2 : ∀ k < 2, (158 + k) >>> 1 &&& 0xF = 15 := by decide
  have h31 : (248 >>> 3 = 31) := rfl
  simp only [h31, if_true, e1 k hk, e2 k hk, decide_true]
  unfold rateOf
  have hkn : knownType 36 = true := rfl
  rw [hkn, a2.raw (beBytes_length 3 _)]
  simp only [Bool.not_true, Bool.false_eq_true, if_false, if_true, ok_bind]
  unfold als
  rw [a3.take (n := 5) rfl, ok_bind]
  simp only
  rw [if_pos trivial, a4.raw (beBytes_length 4 _), ok_bind]
  simp only
  rw [a6.raw (beBytes_length 2 _), ok_bind]
  simp only
  rw [fromBE_beBytes_of_lt (by omega), fromBE_beBytes_of_lt (by omega), if_neg (by omega)]
  rw [show (channels - 1) % 256 + 1 = channels by omega]

/-- A sample entry with a configuration, of which it is known what it says. -/
theorem mp4a_entry {flags : Bytes} {count : Nat} {e : Entry} {l1 l2 l3 stream sizes kids rest config : Bytes} {codec average : Nat}
    (hf : flags.length = 4) (hc : 0 < count ∧ count < 2 ^ 32) (he : e.Ok)
    (hl1 : LenOk l1) (hl2 : LenOk l2) (hl3 : LenOk l3) (hs : stream.length = 3) (hz : sizes.length = 8) (hco : codec < 256) (hav : average < 2 ^ 32)
    (hsz : 36 + e.extra.length + (box (ascii "esds") (esdsOf l1 l2 l3 stream codec sizes average config) ++ kids).length < 2 ^ 32)
    (mode : Mode) (limit : Nat) (p q : Props)
    (hq : ∀ r rest, At r (config ++ rest) →
      specific r { p with channels := some e.channels, sampleRate := some e.rate, codec := codecOf codec } = .ok q) :
    readStsd mode limit (stsdOf flags count (ascii "mp4a") e
      (box (ascii "esds") (esdsOf l1 l2 l3 stream codec sizes average config) ++ kids) rest) p =
      .ok (if 0 < average ∨ q.duration = 0 then { q with audio := some (average / 1000) } else q) := by
  refine readStsd_first hf hc _ _ fun r ha _ => ?_
  have hel : e.bytes.length = 28 + e.extra.length := by
    unfold Entry.bytes
    simp only [List.length_append, beBytes_length, he.reserved, he.vendor, he.sizes]
    omega
  have hbl := box_length (ascii "esds") (esdsOf l1 l2 l3 stream codec sizes average config) rfl
  obtain ⟨r', ha', -, h⟩ := stsdEntry_head (mode := mode) (limit := limit) he mp4a_ok ha (by rw [List.length_append, hel]; omega) p
  rw [h, if_pos rfl]
  rw [List.append_assoc] at ha'
  rw [List.length_append, hbl] at hsz
  obtain ⟨r'', ha'', h2⟩ := mp4a_specific (mode := mode) hl1 hl2 hl3 hs hz hco hav ha' (by omega) { p with channels := some e.channels, sampleRate := some e.rate }
  rw [h2, hq _ _ ha'', ok_bind, ok_bind]

/-- **C63, AAC and MP3.** The codec, the type, the sample rate and the number of channels are those of the configuration of the
codec, the latter that of the sample entry if the configuration leaves it open; the bit rate is the average bit rate given. -/
theorem aac_fields {flags : Bytes} {count : Nat} {e : Entry} {l1 l2 l3 stream sizes kids rest tail : Bytes} {codec average : Nat}
    {type frequency channels more : Nat} (hf : flags.length = 4) (hc : 0 < count ∧ count < 2 ^ 32) (he : e.Ok)
    (hl1 : LenOk l1) (hl2 : LenOk l2) (hl3 : LenOk l3) (hs : stream.length = 3) (hz : sizes.length = 8) (hco : codec < 256) (hav : average < 2 ^ 32)
    (ht : type ∈ types) (ht31 : type < 31) (hfr : frequency < 13) (hch : channels < 7) (hm : more < 8)
    (hsz : 36 + e.extra.length + (box (ascii "esds") (esdsOf l1 l2 l3 stream codec sizes average (configOf type frequency channels more ++ tail)) ++ kids).length < 2 ^ 32)
    (mode : Mode) (limit : Nat) (p : Props) :
    readStsd mode limit (stsdOf flags count (ascii "mp4a") e
      (box (ascii "esds") (esdsOf l1 l2 l3 stream codec sizes average (configOf type frequency channels more ++ tail)) ++ kids) rest) p =
      .ok { p with
        codec := codecOf codec, objectType := some type, sampleRate := some (frequencies.getD frequency 0),
        channels := some (if channels = 0 then e.channels else channels),
        audio := if 0 < average ∨ p.duration = 0 then some (average / 1000) else p.audio } := by
  rw [mp4a_entry hf hc he hl1 hl2 hl3 hs hz hco hav hsz mode limit p _ fun r rest ha => by
    rw [List.append_assoc] at ha
    exact specific_config ht ht31 hfr (by omega) hm ha _]
  congr 1
  by_cases c0 : channels = 0
  · subst c0
    simp only [Nat.lt_irrefl, if_true, if_false]
    split <;> rfl
  · have : 0 < channels := by omega
    simp only [if_neg c0, if_pos this]
    split <;> rfl

/-- **C63, types from 32.** Likewise for the types 32 to 39, if the configuration leaves the number of channels open. -/
theorem escaped_fields {flags : Bytes} {count : Nat} {e : Entry} {l1 l2 l3 stream sizes kids rest tail : Bytes} {codec average : Nat}
    {type frequency more : Nat} (hf : flags.length = 4) (hc : 0 < count ∧ count < 2 ^ 32) (he : e.Ok)
    (hl1 : LenOk l1) (hl2 : LenOk l2) (hl3 : LenOk l3) (hs : stream.length = 3) (hz : sizes.length = 8) (hco : codec < 256) (hav : average < 2 ^ 32)
    (ht : 32 ≤ type ∧ type < 40) (ht36 : type ≠ 36) (hfr : frequency < 13) (hm : more < 32)
    (hsz : 36 + e.extra.length + (box (ascii "esds") (esdsOf l1 l2 l3 stream codec sizes average (escapedConfigOf type frequency 0 more ++ tail)) ++ kids).length < 2 ^ 32)
    (mode : Mode) (limit : Nat) (p : Props) :
    readStsd mode limit (stsdOf flags count (ascii "mp4a") e
      (box (ascii "esds") (esdsOf l1 l2 l3 stream codec sizes average (escapedConfigOf type frequency 0 more ++ tail)) ++ kids) rest) p =
      .ok { p with
        codec := codecOf codec, objectType := some type, sampleRate := some (frequencies.getD frequency 0), channels := some e.channels,
        audio := if 0 < average ∨ p.duration = 0 then some (average / 1000) else p.audio } := by
  rw [mp4a_entry hf hc he hl1 hl2 hl3 hs hz hco hav hsz mode limit p _ fun r rest ha => by
    rw [List.append_assoc] at ha
    exact specific_escaped ht ht36 hfr hm ha _]
  congr 1
  simp only
  split <;> rfl

/-- **C63, Audio Lossless Coding.** The sample rate and the number of channels are those of its own header. -/
theorem als_fields {flags : Bytes} {count : Nat} {e : Entry} {l1 l2 l3 stream sizes kids rest tail : Bytes} {codec average : Nat}
    {rate frequency samples channels : Nat} (hf : flags.length = 4) (hc : 0 < count ∧ count < 2 ^ 32) (he : e.Ok)
    (hl1 : LenOk l1) (hl2 : LenOk l2) (hl3 : LenOk l3) (hs : stream.length = 3) (hz : sizes.length = 8) (hco : codec < 256) (hav : average < 2 ^ 32)
    (hr : rate < 2 ^ 24) (hfr : frequency < 2 ^ 32) (hch : 0 < channels ∧ channels < 256)
    (hsz : 36 + e.extra.length + (box (ascii "esds") (esdsOf l1 l2 l3 stream codec sizes average (alsOf rate frequency samples channels ++ tail)) ++ kids).length < 2 ^ 32)
    (mode : Mode) (limit : Nat) (p : Props) :
    readStsd mode limit (stsdOf flags count (ascii "mp4a") e
      (box (ascii "esds") (esdsOf l1 l2 l3 stream codec sizes average (alsOf rate frequency samples channels ++ tail)) ++ kids) rest) p =
      .ok { p with
        codec := codecOf codec, objectType := some 36, sampleRate := some frequency, channels := some channels,
        audio := if 0 < average ∨ p.duration = 0 then some (average / 1000) else p.audio } := by
  rw [mp4a_entry hf hc he hl1 hl2 hl3 hs hz hco hav hsz mode limit p _ fun r rest ha => by
    rw [List.append_assoc] at ha
    exact specific_als hr hfr hch ha _]
  congr 1
  simp only
  split <;> rfl

/-- **C63, Apple Lossless.** The fields of the description, if there is nothing else in the sample descriptions. -/
theorem alac_fields {flags : Bytes} {count : Nat} {e : Entry} {version perFrame rice maxima : Bytes} {compatible : UInt8} {bits channels average rate : Nat}
    (hf : flags.length = 4) (hc : 0 < count ∧ count < 2 ^ 32) (he : e.Ok) (hv0 : e.version = 0) (h1 : version.length = 4) (h2 : perFrame.length = 4) (h3 : rice.length = 3)
    (h4 : maxima.length = 6) (hb : bits < 256) (hch : channels < 256) (hav : average < 2 ^ 32) (hr : rate < 2 ^ 32)
    (mode : Mode) (limit : Nat) (p : Props) :
    readStsd mode limit (stsdOf flags count (ascii "alac") e
      (box (ascii "alac") (cookieOf version perFrame compatible bits rice channels maxima average rate)) []) p =
      .ok { p with
        codec := some .alac, bitDepth := some bits, channels := some channels, audio := some (average / 1000), sampleRate := some rate } := by
  have hx : e.extra = [] := by
    rcases he.version with h | h
    · exact h.2
    · omega
  have hel : e.bytes.length = 28 := by
    unfold Entry.bytes
    simp only [List.length_append, beBytes_length, he.reserved, he.vendor, he.sizes, hx, List.length_nil]
  have hcl : (cookieOf version perFrame compatible bits rice channels maxima average rate).length = 28 := by
    unfold cookieOf
    simp only [List.length_append, beBytes_length, h1, h2, h3, h4, List.length_cons, List.length_nil]
  have hbl := box_length (ascii "alac") (cookieOf version perFrame compatible bits rice channels maxima average rate) rfl
  refine readStsd_first hf hc _ _ fun r ha hlen => ?_
  obtain ⟨r', ha', hl', h⟩ := stsdEntry_head (mode := mode) (limit := limit) he alac_ok ha (by rw [List.length_append, hel, hbl, hcl]; omega) p
  rw [h, if_neg (by decide), if_pos rfl]
  have h80 : r'.len = 80 := by
    rw [hl', hlen]
    unfold stsdOf
    rw [List.append_nil, List.length_append, List.length_append, box_length _ _ rfl, List.length_append, beBytes_length, hel, hbl, hcl, hf]
  unfold alac
  rw [if_neg (by omega), next_box ha' alac_ok (by rw [hcl]; omega)]
  simp only
  have a0 := into_box ha' alac_ok
  unfold cookieOf at a0
  simp only [List.append_assoc] at a0
  have a1 : At (((r'.skip 8).skip 4).skip 4) _ := (a0.skip h1).skip h2
  have a2 : At ((((r'.skip 8).skip 4).skip 4).skip 1) _ := a1.skip (a := [compatible]) rfl
  have e9 : (((r'.skip 8).skip 4).skip 4).skip 1 = (r'.skip 8).skip 9 := by simp only [skip_skip, Nat.add_assoc, Nat.reduceAdd]
  rw [e9] at a2
  have a3 := a2.skip (beBytes_length 1 _)
  have a4 := a3.skip h3
  have a5 := a4.skip (beBytes_length 1 _)
  have a6 := a5.skip h4
  have a7 := a6.skip (beBytes_length 4 _)
  rw [if_neg (by simp), a2.raw (beBytes_length 1 _), ok_bind]
  simp only
  rw [a4.raw (beBytes_length 1 _), ok_bind]
  simp only
  rw [a6.raw (beBytes_length 4 _), ok_bind]
  simp only
  rw [a7.raw (beBytes_length 4 _), ok_bind, ok_bind]
  simp only
  rw [fromBE_beBytes_of_lt (by omega), fromBE_beBytes_of_lt (by omega), fromBE_beBytes_of_lt (by omega), fromBE_beBytes_of_lt (by omega)]

/-- **C63, FLAC.** The fields of the stream information in `dfLa`, whatever blocks follow. -/
theorem flac_mp4_fields {flags : Bytes} {count : Nat} {e : Entry} {version kids rest tail : Bytes} {kind : UInt8}
    {blocks frames rate channels bits total signature : Nat}
    (hf : flags.length = 4) (hc : 0 < count ∧ count < 2 ^ 32) (he : e.Ok) (hv : version.length = 4)
    (hb : blocks < 2 ^ 32) (hfr : frames < 2 ^ 48) (hr : rate < 2 ^ 20) (hch : 1 ≤ channels ∧ channels ≤ 8) (hbits : 1 ≤ bits ∧ bits ≤ 32)
    (ht : total < 2 ^ 36) (hs : signature < 2 ^ 128)
    (hsz : 36 + e.extra.length + (box (ascii "dfLa") (version ++ ([kind] ++ (beBytes 3 34 ++ (Lossless.streamInfo blocks frames rate channels bits total signature ++ tail)))) ++ kids).length < 2 ^ 32)
    (mode : Mode) (limit : Nat) (hlim : 34 ≤ limit) (p : Props) :
    readStsd mode limit (stsdOf flags count (ascii "fLaC") e
      (box (ascii "dfLa") (version ++ ([kind] ++ (beBytes 3 34 ++ (Lossless.streamInfo blocks frames rate channels bits total signature ++ tail)))) ++ kids) rest) p =
      .ok { p with codec := some .flac, bitDepth := some bits, channels := some channels, sampleRate := some rate } := by
  have hil : (Lossless.streamInfo blocks frames rate channels bits total signature).length = 34 := by
    unfold Lossless.streamInfo
    simp only [List.length_append, beBytes_length]
  have hel : e.bytes.length = 28 + e.extra.length := by
    unfold Entry.bytes
    simp only [List.length_append, beBytes_length, he.reserved, he.vendor, he.sizes]
    omega
  have hbl := box_length (ascii "dfLa") (version ++ ([kind] ++ (beBytes 3 34 ++ (Lossless.streamInfo blocks frames rate channels bits total signature ++ tail)))) rfl
  have hcl : (version ++ ([kind] ++ (beBytes 3 34 ++ (Lossless.streamInfo blocks frames rate channels bits total signature ++ tail)))).length = 42 + tail.length := by
    simp only [List.length_append, beBytes_length, hil, hv, List.length_cons, List.length_nil]
    omega
  refine readStsd_first hf hc _ _ fun r ha _ => ?_
  obtain ⟨r', ha', -, h⟩ := stsdEntry_head (mode := mode) (limit := limit) he flac_ok ha (by rw [List.length_append, hel]; omega) p
  rw [h, if_neg (by decide), if_neg (by decide), if_pos rfl]
  rw [List.append_assoc] at ha'
  rw [List.length_append, hbl, hcl] at hsz
  have a0 := into_box ha' dfla_ok
  simp only [List.append_assoc] at a0
  have a1 := a0.skip hv
  have a2 : At (((r'.skip 8).skip 4).skip 1) _ := a1.skip (a := [kind]) rfl
  have a3 := a2.skip (beBytes_length 3 _)
  unfold flac
  rw [next_box ha' dfla_ok (by rw [hcl]; omega), ok_bind]
  simp only
  rw [hcl, if_neg (by simp), if_neg (by omega), if_neg (by omega), a1.take (a := [kind]) (n := 1) rfl, ok_bind]
  simp only
  rw [a2.take (beBytes_length 3 _), ok_bind]
  simp only
  have h34 : fromBE (beBytes 3 34) = 34 := by decide
  rw [h34, if_neg (by omega), a3.take hil, ok_bind]
  simp only
  have hfl := Lossless.flac_fields (stream := 0) (file := 0) hb hfr hr hch hbits ht hs (by omega) (Nat.le_refl _) []
  rw [List.append_nil] at hfl
  rw [hfl, ok_bind, ok_bind]

/-! ## Whole files -/

/-- The bit rates: the overall one from the size of the file, that of the audio from its size if the time table says so or nothing
else is known. -/
theorem bitrates_eq (p : Props) (timescale duration mdat file : Nat) (stts : Option (List (Nat × Nat))) (hd : 8 ≤ p.duration)
    (hf : file < 2 ^ 32) (hm : mdat ≤ file) (hb : mdat * 8 * timescale / duration < 2 ^ 32) :
    bitrates p timescale duration mdat file stts = .ok { p with
      overall := some (file * 8 / p.duration)
      audio :=
        let given := match stts with
          | none => p.audio
          | some [(_, 1)] => p.audio
          | some _ => some (mdat * 8 * timescale / duration / 1000)
        if given = none ∨ given = some 0 then some (mdat * 8 / p.duration) else given } := by
  have hlt : ∀ n, n < 2 ^ 32 → n * 8 / p.duration < 2 ^ 32 := fun n hn => by
    have : n * 8 / p.duration ≤ n * 8 / 8 := Nat.div_le_div_left hd (by omega)
    omega
  have h1 := Nat.mod_eq_of_lt (hlt file hf)
  have h2 := Nat.mod_eq_of_lt (hlt mdat (by omega))
  have key : ∀ q : Props, q.duration = p.duration → (if q.duration = 0 then .ok q
      else if 2 ^ 64 ≤ file * 8 then .error .panic
      else
        let p := { q with overall := some (file * 8 / q.duration % 2 ^ 32) }
        if p.audio = none ∨ p.audio = some 0 then
          if 2 ^ 64 ≤ mdat * 8 then .error .panic
          else .ok { p with audio := some (mdat * 8 / p.duration % 2 ^ 32) }
        else .ok p : Except Err Props) = .ok { q with
          overall := some (file * 8 / p.duration), audio := if q.audio = none ∨ q.audio = some 0 then some (mdat * 8 / p.duration) else q.audio } := by
    intro q hq
    rw [hq, if_neg (by omega), if_neg (by omega), h1]
    simp only
    split
    · rw [if_neg (by omega), h2]
    · rfl
  unfold bitrates
  cases stts with
  | none => exact key p rfl
  | some l =>
    rcases l with - | ⟨⟨a, b⟩, - | ⟨y, l⟩⟩
    · have hc : ¬ (([] : List (Nat × Nat)).length = 1 ∧ (([] : List (Nat × Nat)).all fun e => e.2 = 1) = true) := by simp
      simp only [if_neg hc, Nat.mod_eq_of_lt hb]
      exact key { p with audio := some (mdat * 8 * timescale / duration / 1000) } rfl
    · by_cases h1b : b = 1
      · subst h1b
        have hc : ([(a, 1)] : List (Nat × Nat)).length = 1 ∧ (([(a, 1)] : List (Nat × Nat)).all fun e => e.2 = 1) = true := by simp
        simp only [if_pos hc]
        exact key p rfl
      · have hc : ¬ (([(a, b)] : List (Nat × Nat)).length = 1 ∧ (([(a, b)] : List (Nat × Nat)).all fun e => e.2 = 1) = true) := by simp [h1b]
        simp only [if_neg hc, Nat.mod_eq_of_lt hb]
        have hk := key { p with audio := some (mdat * 8 * timescale / duration / 1000) } rfl
        rcases b with - | - | b
        · exact hk
        · exact absurd rfl h1b
        · exact hk
    · have hc : ¬ (((a, b) :: y :: l).length = 1 ∧ (((a, b) :: y :: l).all fun e => e.2 = 1) = true) := by simp
      simp only [if_neg hc, Nat.mod_eq_of_lt hb]
      exact key { p with audio := some (mdat * 8 * timescale / duration / 1000) } rfl

/-! The duration is not changed by the sample descriptions. -/

theorem als_duration {r : Rd} {p q : Props} (h : als r p = .ok q) : q.duration = p.duration := by
  unfold als at h
  obtain ⟨⟨a, r⟩, _, h⟩ := bind_ok h
  simp only at h
  split at h
  · obtain ⟨⟨b, r⟩, _, h⟩ := bind_ok h
    obtain ⟨⟨c, r⟩, _, h⟩ := bind_ok h
    simp only at h
    split at h
    · cases h
    · obtain rfl := (Except.ok.injEq _ _).mp h
      rfl
  · obtain rfl := (Except.ok.injEq _ _).mp h
    rfl

theorem specific_duration {r : Rd} {p q : Props} (h : specific r p = .ok q) : q.duration = p.duration := by
  unfold specific at h
  obtain ⟨⟨a, r⟩, _, h⟩ := bind_ok h
  obtain ⟨⟨b, r⟩, _, h⟩ := bind_ok h
  simp only at h
  have key : ∀ (type : Nat) (x : Except Err (Option Nat × Nat × Rd)), (x >>= fun y =>
      if type = 36 then als y.2.2 { p with objectType := some type, sampleRate := y.1.or p.sampleRate, channels := if 0 < y.2.1 then some y.2.1 else p.channels }
      else .ok { p with objectType := some type, sampleRate := y.1.or p.sampleRate, channels := if 0 < y.2.1 then some y.2.1 else p.channels }) = .ok q →
      q.duration = p.duration := by
    intro type x h
    obtain ⟨y, _, h⟩ := bind_ok h
    split at h
    · rw [als_duration h]
    · obtain rfl := (Except.ok.injEq _ _).mp h
      rfl
  split at h
  · split at h
    · cases h
    · exact key _ _ h
  · split at h
    · cases h
    · exact key _ _ h

theorem decoder_duration {r : Rd} {p q : Props} (h : decoderConfig r p = .ok q) : q.duration = p.duration := by
  unfold decoderConfig at h
  obtain ⟨⟨a, r⟩, _, h⟩ := bind_ok h
  obtain ⟨⟨b, r⟩, _, h⟩ := bind_ok h
  obtain ⟨⟨c, r⟩, _, h⟩ := bind_ok h
  simp only at h
  split at h
  · obtain ⟨p', h1, h⟩ := bind_ok h
    have := specific_duration h1
    obtain rfl := (Except.ok.injEq _ _).mp h
    split <;> exact this
  · obtain ⟨p', h1, h⟩ := bind_ok h
    have : p'.duration = p.duration := by
      obtain rfl := (Except.ok.injEq _ _).mp h1
      rfl
    obtain rfl := (Except.ok.injEq _ _).mp h
    split <;> exact this

theorem mp4a_duration {mode : Mode} {r : Rd} {p q : Props} (h : mp4a mode r p = .ok q) : q.duration = p.duration := by
  unfold mp4a at h
  simp only at h
  split at h
  · cases h
  · obtain rfl := (Except.ok.injEq _ _).mp h
    rfl
  · obtain rfl := (Except.ok.injEq _ _).mp h
    rfl
  · split at h
    · obtain rfl := (Except.ok.injEq _ _).mp h
      rfl
    · obtain ⟨⟨a, r⟩, _, h⟩ := bind_ok h
      simp only at h
      split at h
      · obtain rfl := (Except.ok.injEq _ _).mp h
        rfl
      · obtain ⟨⟨a, r⟩, _, h⟩ := bind_ok h
        simp only at h
        split at h
        · obtain ⟨⟨a, r⟩, _, h⟩ := bind_ok h
          simp only at h
          split at h
          · rw [decoder_duration h]
          · obtain rfl := (Except.ok.injEq _ _).mp h
            rfl
        · obtain rfl := (Except.ok.injEq _ _).mp h
          rfl

theorem alac_duration {mode : Mode} {r : Rd} {p q : Props} (h : alac mode r p = .ok q) : q.duration = p.duration := by
  unfold alac at h
  split at h
  · obtain rfl := (Except.ok.injEq _ _).mp h
    rfl
  · split at h
    · cases h
    · obtain rfl := (Except.ok.injEq _ _).mp h
      rfl
    · obtain rfl := (Except.ok.injEq _ _).mp h
      rfl
    · split at h
      · obtain rfl := (Except.ok.injEq _ _).mp h
        rfl
      · obtain ⟨⟨a, r⟩, _, h⟩ := bind_ok h
        obtain ⟨⟨b, r⟩, _, h⟩ := bind_ok h
        obtain ⟨⟨c, r⟩, _, h⟩ := bind_ok h
        obtain ⟨⟨d, r⟩, _, h⟩ := bind_ok h
        obtain rfl := (Except.ok.injEq _ _).mp h
        rfl

theorem flac_duration {mode : Mode} {limit : Nat} {r : Rd} {p q : Props} (h : flac mode limit r p = .ok q) : q.duration = p.duration := by
  unfold flac at h
  obtain ⟨⟨a, r⟩, _, h⟩ := bind_ok h
  simp only at h
  split at h
  · obtain rfl := (Except.ok.injEq _ _).mp h
    rfl
  · split at h
    · obtain rfl := (Except.ok.injEq _ _).mp h
      rfl
    · split at h
      · cases h
      · split at h
        · obtain rfl := (Except.ok.injEq _ _).mp h
          rfl
        · obtain ⟨⟨a, r⟩, _, h⟩ := bind_ok h
          obtain ⟨⟨b, r⟩, _, h⟩ := bind_ok h
          simp only at h
          split at h
          · cases h
          · obtain ⟨⟨c, r⟩, _, h⟩ := bind_ok h
            obtain ⟨d, _, h⟩ := bind_ok h
            obtain rfl := (Except.ok.injEq _ _).mp h
            rfl

theorem entry_duration {mode : Mode} {limit : Nat} {r : Rd} {p q : Props} {o : Option Rd} (h : stsdEntry mode limit r p = .ok (q, o)) :
    q.duration = p.duration := by
  unfold stsdEntry at h
  obtain ⟨⟨a, r⟩, _, h⟩ := bind_ok h
  simp only at h
  split at h
  · cases h
  · split at h
    · cases h
    · split at h
      · cases h
      · obtain ⟨⟨a, r⟩, _, h⟩ := bind_ok h
        simp only at h
        split at h
        · cases h
        · obtain ⟨⟨a, r⟩, _, h⟩ := bind_ok h
          obtain ⟨⟨a, r⟩, _, h⟩ := bind_ok h
          simp only at h
          have key : ∀ {id : Bytes} {start : Nat} (r' : Rd) (p' : Props), p'.duration = p.duration → (if id = ascii "mp4a" then do
              let p ← mp4a mode r' p'
              .ok (p, none)
            else if id = ascii "alac" then do
              let p ← alac mode r' p'
              .ok (p, none)
            else if id = ascii "fLaC" then do
              let p ← flac mode limit r' p'
              .ok (p, none)
            else do
              let r'' ← skipAtom r' false (r'.pos - start)
              .ok (if id = ascii "drms" then { p' with drm := true } else p', some r'')) = Except.ok (q, o) → q.duration = p.duration := by
            intro id start r' p' hp h
            split at h
            · obtain ⟨p'', h1, h⟩ := bind_ok h
              obtain ⟨rfl, _⟩ := Prod.mk.injEq _ _ _ _ ▸ (Except.ok.injEq _ _).mp h
              rw [mp4a_duration h1, hp]
            · split at h
              · obtain ⟨p'', h1, h⟩ := bind_ok h
                obtain ⟨rfl, _⟩ := Prod.mk.injEq _ _ _ _ ▸ (Except.ok.injEq _ _).mp h
                rw [alac_duration h1, hp]
              · split at h
                · obtain ⟨p'', h1, h⟩ := bind_ok h
                  obtain ⟨rfl, _⟩ := Prod.mk.injEq _ _ _ _ ▸ (Except.ok.injEq _ _).mp h
                  rw [flac_duration h1, hp]
                · obtain ⟨r'', _, h⟩ := bind_ok h
                  obtain ⟨rfl, _⟩ := Prod.mk.injEq _ _ _ _ ▸ (Except.ok.injEq _ _).mp h
                  split <;> exact hp
          split at h
          · rw [ok_bind] at h
            exact key _ _ (by rfl) h
          · split at h
            · obtain ⟨⟨x, r⟩, _, h⟩ := bind_ok h
              simp only at h
              rw [ok_bind] at h
              exact key _ _ (by rfl) h
            · rw [ok_bind] at h
              exact key _ _ (by rfl) h

theorem loop_duration {mode : Mode} {limit : Nat} (n : Nat) : ∀ {r : Rd} {p q : Props}, stsdLoop mode limit n r p = .ok q → q.duration = p.duration := by
  induction n with
  | zero =>
    intro r p q h
    rw [stsdLoop] at h
    obtain rfl := (Except.ok.injEq _ _).mp h
    rfl
  | succ n ih =>
    intro r p q h
    rw [stsdLoop] at h
    obtain ⟨⟨p', o⟩, h1, h⟩ := bind_ok h
    simp only at h
    split at h
    · obtain rfl := (Except.ok.injEq _ _).mp h
      exact entry_duration h1
    · exact (ih h).trans (entry_duration h1)

theorem stsd_duration {mode : Mode} {limit : Nat} {b : Bytes} {p q : Props} (h : readStsd mode limit b p = .ok q) : q.duration = p.duration := by
  unfold readStsd at h
  obtain ⟨⟨a, r⟩, _, h⟩ := bind_ok h
  exact loop_duration _ h

theorem found_tracks {cfg : Config} (h : cfg.properties = true) (p : Nat) (f : Forest) : found cfg p f = tracks p f := by
  unfold found
  rw [if_pos h]

/-- The audio is no longer than the file. -/
theorem mdat_le {before moov after : Forest} {timescale duration mdat : Nat} {stsd : Bytes} {stts : Option (List (Nat × Nat))}
    (ha : Audio before moov after timescale duration stsd stts mdat) : mdat ≤ (whole before moov after).bytes.length := by
  obtain ⟨c, hf, rfl⟩ := ha.data
  have hm := List.mem_of_find?_eq_some hf
  rw [← items_bytes]
  generalize items (whole before moov after) = l at hm
  induction l with
  | nil => cases hm
  | cons x l ih =>
    rw [boxes_cons, List.length_append]
    rcases List.mem_cons.mp hm with h | h
    · rw [← h, box_length _ _ rfl]
      simp only
      omega
    · have := ih h
      omega

/-- **C63, whole files.** The properties of a file are those its sample description gives, with the duration of the media header
rounded to the nearest millisecond, the overall bit rate `8 * size / duration`, and, if there is a time table that says so or no bit
rate is given, that of the audio computed from the size of the first `mdat` and the duration.  The number and place of other atoms
and tracks do not matter.  `_partial`: media shorter than 8 milliseconds, longer than `2^64` milliseconds or of more than `2^32` bits
per second are left out. -/
theorem file_props_partial {before moov after : Forest} {brand : Str} {timescale duration mdat : Nat} {stsd : Bytes} {stts : Option (List (Nat × Nat))}
    (h : FileOk before moov after brand) (hafter : after.Ok) (ha : Audio before moov after timescale duration stsd stts mdat)
    (cfg : Config) (hcfg : cfg.properties = true) {tag : Option Tag}
    (hread : readFrom cfg (whole before moov after).bytes = .ok (brand, ⟨found cfg (before.bytes.length + 8) moov, tag⟩))
    (hlim : stsd.length ≤ cfg.limit) (hst : ∀ l, stts = some l → l.length ≤ cfg.limit) (hts : 0 < timescale)
    (hfit : duration * 1000 + timescale < 2 ^ 64) (hms : 8 ≤ nearest (duration * 1000) timescale) (hbits : mdat * 8 * timescale / duration < 2 ^ 32)
    {q : Props} (hq : readStsd cfg.opts.mode cfg.limit stsd { duration := nearest (duration * 1000) timescale } = .ok q) :
    readFile cfg (whole before moov after).bytes = .ok (brand, tag, some { q with
      duration := nearest (duration * 1000) timescale
      overall := some ((whole before moov after).bytes.length * 8 / nearest (duration * 1000) timescale)
      audio :=
        let given := match stts with
          | none => q.audio
          | some [(_, 1)] => q.audio
          | some _ => some (mdat * 8 * timescale / duration / 1000)
        if given = none ∨ given = some 0 then some (mdat * 8 / nearest (duration * 1000) timescale) else given }) := by
  have hmil : millis timescale duration = .ok (nearest (duration * 1000) timescale) := by
    unfold millis
    rw [if_neg (by omega), if_neg (by omega), Lossless.divRound_nearest hts (by omega)]
  have hdur : 0 < duration := by
    rcases Nat.eq_zero_or_pos duration with rfl | h0
    · exfalso
      have : nearest (0 * 1000) timescale = 0 := by
        unfold nearest
        rw [Nat.div_eq_zero_iff]
        omega
      omega
    · exact h0
  have hqd : q.duration = nearest (duration * 1000) timescale := stsd_duration hq
  have hp := properties_of h hafter ha cfg.opts.mode cfg.limit hlim hst
  rw [hmil, ok_bind, hq, ok_bind, if_pos hdur, bitrates_eq q timescale duration mdat _ stts (by omega) h.size (mdat_le ha) hbits] at hp
  unfold readFile
  rw [hread, ok_bind]
  simp only
  rw [if_pos hcfg, found_tracks hcfg, hp, ok_bind, hqd]

/-! ## Saving -/

/-- The size of the file only matters for the overall bit rate. -/
theorem bitrates_size {p q : Props} {timescale duration mdat file file' : Nat} {stts : Option (List (Nat × Nat))} (hf' : file' < 2 ^ 32)
    (h : bitrates p timescale duration mdat file stts = .ok q) : ∃ q', bitrates p timescale duration mdat file' stts = .ok q' ∧ q'.Same q := by
  have key : ∀ p' : Props,
      (if p'.duration = 0 then .ok p' else if 2 ^ 64 ≤ file * 8 then .error .panic
        else if p'.audio = none ∨ p'.audio = some 0 then
          if 2 ^ 64 ≤ mdat * 8 then .error .panic
          else .ok { p' with overall := some (file * 8 / p'.duration % 2 ^ 32), audio := some (mdat * 8 / p'.duration % 2 ^ 32) }
        else .ok { p' with overall := some (file * 8 / p'.duration % 2 ^ 32) } : Except Err Props) = .ok q →
      ∃ q', (if p'.duration = 0 then .ok p' else if 2 ^ 64 ≤ file' * 8 then .error .panic
        else if p'.audio = none ∨ p'.audio = some 0 then
          if 2 ^ 64 ≤ mdat * 8 then .error .panic
          else .ok { p' with overall := some (file' * 8 / p'.duration % 2 ^ 32), audio := some (mdat * 8 / p'.duration % 2 ^ 32) }
        else .ok { p' with overall := some (file' * 8 / p'.duration % 2 ^ 32) } : Except Err Props) = .ok q' ∧ q'.Same q := by
    intro p' h
    by_cases h0 : p'.duration = 0
    · rw [if_pos h0] at h ⊢
      exact ⟨_, rfl, by obtain rfl := (Except.ok.injEq _ _).mp h; rfl⟩
    · rw [if_neg h0] at h ⊢
      rw [if_neg (by omega)]
      split at h
      · cases h
      · split at h
        · rename_i hc
          split at h
          · cases h
          · rename_i hd
            rw [if_pos hc, if_neg hd]
            exact ⟨_, rfl, by obtain rfl := (Except.ok.injEq _ _).mp h; rfl⟩
        · rename_i hc
          rw [if_neg hc]
          exact ⟨_, rfl, by obtain rfl := (Except.ok.injEq _ _).mp h; rfl⟩
  unfold bitrates at h ⊢
  exact key _ h

/-- Two files with the same audio have the same properties. -/
theorem same_audio {before moov after before' moov' after' : Forest} {brand brand' : Str} {timescale duration mdat : Nat} {stsd : Bytes}
    {stts : Option (List (Nat × Nat))}
    (h : FileOk before moov after brand) (hafter : after.Ok) (ha : Audio before moov after timescale duration stsd stts mdat)
    (h' : FileOk before' moov' after' brand') (hafter' : after'.Ok) (ha' : Audio before' moov' after' timescale duration stsd stts mdat)
    (mode : Mode) (limit : Nat) (hlim : stsd.length ≤ limit) (hst : ∀ l, stts = some l → l.length ≤ limit) {p : Props}
    (hp : readProperties mode limit ((Rd.new (whole before moov after).bytes).resetBounds 0 (whole before moov after).bytes.length)
        (tracks (before.bytes.length + 8) moov) (whole before moov after).bytes.length = .ok p) :
    ∃ p', readProperties mode limit ((Rd.new (whole before' moov' after').bytes).resetBounds 0 (whole before' moov' after').bytes.length)
        (tracks (before'.bytes.length + 8) moov') (whole before' moov' after').bytes.length = .ok p' ∧ p'.Same p := by
  rw [properties_of h hafter ha mode limit hlim hst] at hp
  rw [properties_of h' hafter' ha' mode limit hlim hst]
  obtain ⟨d, h1, hp⟩ := bind_ok hp
  obtain ⟨q, h2, hp⟩ := bind_ok hp
  rw [h1, ok_bind, h2, ok_bind]
  split at hp
  · rw [if_pos ‹_›]
    exact bitrates_size h'.size hp
  · rw [if_neg ‹_›]
    exact ⟨_, rfl, by obtain rfl := (Except.ok.injEq _ _).mp hp; rfl⟩

/-- Plain atoms other than offset tables are not touched. -/
theorem mapOffsets_items (s : Nat → Nat) {id : Bytes} (hid : ¬ IsContainer id) (hst : id ≠ ascii "stco") (f : Forest) (h : f.Ok) (c : Bytes) :
    (id, c) ∈ items (f.mapOffsets s) ↔ (id, c) ∈ items f := by
  induction f with
  | nil => exact Iff.rfl
  | leaf n d rest ih =>
    rw [Forest.mapOffsets, items, items, List.mem_cons, List.mem_cons, ih h.2.2]
    by_cases hn : n = ascii "stco"
    · rw [if_pos hn]
      have e1 : ∀ x, (id, c) ≠ (n, x) := fun x e => hst ((congrArg Prod.fst e).trans hn)
      simp only [e1, false_or]
    · rw [if_neg hn]
  | node n kids rest _ ih =>
    rw [Forest.mapOffsets, items, items, List.mem_cons, List.mem_cons, ih h.2.2.2]
    have e1 : ∀ x, (id, c) ≠ (n, x) := fun x e => hid (by
      have e' : id = n := congrArg Prod.fst e
      rw [e']
      exact h.2.1)
    simp only [e1, false_or]

theorem only_moved (s : Nat → Nat) {id c : Bytes} (hid : ¬ IsContainer id) (hst : id ≠ ascii "stco") {f : Forest} (h : f.Ok) (ho : Only id c f) :
    Only id c (f.mapOffsets s) :=
  ⟨(mapOffsets_items s hid hst f h c).mpr ho.1, fun d hd => ho.2 d ((mapOffsets_items s hid hst f h d).mp hd)⟩

theorem sound_moved (s : Nat → Nat) {f : Forest} (h : f.Ok) : Sound (f.mapOffsets s) ↔ Sound f := by
  have hc : ¬ IsContainer (ascii "hdlr") := by unfold IsContainer; decide
  unfold Sound
  simp only [mapOffsets_items s hc (by decide) f h]

theorem dropLast_names {f g : Forest} (h : f.top = g.top) (hm : MinfLast g) : MinfLast f := by
  intro x hx e
  have h1 : x.1 ∈ ((items f).dropLast).map Prod.fst := List.mem_map_of_mem hx
  rw [List.map_dropLast, items_top, h, ← items_top, ← List.map_dropLast, List.mem_map] at h1
  obtain ⟨y, hy, e'⟩ := h1
  exact hm y hy (e'.trans e)

theorem mediaOf_moved (s : Nat → Nat) (f : Forest) : mediaOf (f.mapOffsets s) = (mediaOf f).map (Forest.mapOffsets s) := by
  induction f with
  | nil => rfl
  | leaf id c rest ih => exact ih
  | node id kids rest _ ih =>
    rw [Forest.mapOffsets, mediaOf, mediaOf, ih]
    split <;> rfl

theorem medias_moved (s : Nat → Nat) (f : Forest) : medias (f.mapOffsets s) = (medias f).map (Forest.mapOffsets s) := by
  induction f with
  | nil => rfl
  | leaf id c rest ih => exact ih
  | node id kids rest _ ih =>
    rw [Forest.mapOffsets, medias, medias, ih, List.map_append, mediaOf_moved]
    split
    · cases mediaOf kids <;> rfl
    · rfl

theorem medias_append (f g : Forest) : medias (f.append g) = medias f ++ medias g := by
  induction f with
  | nil => rfl
  | leaf id c rest ih => exact ih
  | node id kids rest _ ih => rw [Forest.append, medias, medias, ih, List.append_assoc]

theorem mediaOf_ok {f m : Forest} (h : f.Ok) (hm : mediaOf f = some m) : m.Ok := by
  induction f with
  | nil => cases hm
  | leaf id c rest ih => exact ih h.2.2 hm
  | node id kids rest _ ih =>
    rw [mediaOf] at hm
    split at hm
    · obtain rfl := (Option.some.injEq _ _).mp hm
      exact h.2.2.1
    · exact ih h.2.2.2 hm

theorem medias_ok {f : Forest} (h : f.Ok) : ∀ m ∈ medias f, m.Ok := by
  induction f with
  | nil => intro m hm; cases hm
  | leaf id c rest ih => exact ih h.2.2
  | node id kids rest _ ih =>
    intro m hm
    rw [medias, List.mem_append] at hm
    rcases hm with hm | hm
    · split at hm
      · exact mediaOf_ok h.2.2.1 (by simpa using hm)
      · cases hm
    · exact ih h.2.2.2 m hm

/-- Moving the audio does not change what is said about it. -/
theorem audio_moved {before moov moov' after : Forest} {timescale duration mdat : Nat} {stsd : Bytes} {stts : Option (List (Nat × Nat))}
    (hok : moov.Ok) (ha : Audio before moov after timescale duration stsd stts mdat) (s : Nat → Nat)
    (hm : medias moov' = (medias moov).map (Forest.mapOffsets s)) : Audio before moov' after timescale duration stsd stts mdat := by
  obtain ⟨⟨mute, media, rest, h1, h2, h3, ⟨c, h4, h5⟩, front, minf1, tables, minf2, e, hf, hs, hd, hp⟩, dc, hdc, hl⟩ := ha
  have hoks := medias_ok hok
  rw [h1] at hoks
  have okm := hoks media (by simp)
  have okt : tables.Ok := by
    rw [e] at okm
    exact (ok_split (ok_split okm).2.2.2.1).2.2.2.1
  refine ⟨⟨mute.map (Forest.mapOffsets s), media.mapOffsets s, rest.map (Forest.mapOffsets s), by rw [hm, h1, List.map_append, List.map_cons], ?_,
    (sound_moved s okm).mpr h3, ⟨c, only_moved s (by unfold IsContainer; decide) (by decide) okm h4, h5⟩, front.mapOffsets s, minf1.mapOffsets s,
    tables.mapOffsets s, minf2.mapOffsets s, ?_, by rw [mapOffsets_top]; exact hf, by rw [mapOffsets_top]; exact hs,
    only_moved s (by unfold IsContainer; decide) (by decide) okt hd, ?_⟩, dc, ?_, hl⟩
  · intro m hm
    obtain ⟨m', hm', rfl⟩ := List.mem_map.mp hm
    exact ⟨fun h => (h2 m' hm').1 ((sound_moved s (hoks m' (by simp [hm']))).mp h), dropLast_names (mapOffsets_top s m') (h2 m' hm').2⟩
  · rw [e, append_mapOffsets, Forest.mapOffsets, append_mapOffsets, Forest.mapOffsets, Forest.mapOffsets]
  · cases stts with
    | none => show _ ∉ _; rw [mapOffsets_top]; exact hp
    | some l =>
      obtain ⟨c, hc, hst⟩ := hp
      exact ⟨c, only_moved s (by unfold IsContainer; decide) (by decide) okt hc, hst⟩
  · rw [whole, items_append, items] at hdc ⊢
    have hne : ¬ ascii "moov" = ascii "mdat" := by decide
    rw [List.find?_append, List.find?_cons_of_neg (by simpa using hne)] at hdc ⊢
    exact hdc

/-- The tag and its padding are not part of any track. -/
theorem medias_region (x : File) (region : Bytes) : medias (x.moov region) = medias x.moov1 ++ medias x.moov2 := by
  rw [File.moov, medias_append, medias, if_neg (by decide), List.nil_append]

/-- What is read of a file as it is. -/
theorem read_file (x : File) (hx : x.Ok) (hc : Clear x) (cfg : Config) (htags : cfg.tags = true) :
    ∃ brand, FileOk x.before (x.moov x.space) x.after brand ∧ readFrom cfg x.bytes =
      (if x.ilst.length > cfg.limit then .error .alloc else parse cfg.opts x.ilst) >>= fun t =>
        .ok (brand, ⟨found cfg (x.before.bytes.length + 8) (x.moov x.space), some t⟩) := by
  obtain ⟨c, rest, hb, h4, brand, hd⟩ := hx.brand
  have hok : FileOk x.before (x.moov x.space) x.after brand :=
    ⟨⟨c, rest, hb, h4, hd⟩, ⟨hx.before.1, hx.before.2.1⟩, moov_forest_ok x hx _, hx.size⟩
  have hfree : ∀ (l : List Bytes), ∀ y ∈ l.map (fun c => (ascii "free", c)), IdOk y.1 ∧ Other y.1 ∧ y.1 ≠ ascii "ilst" := by
    intro l y hy
    obtain ⟨c, _, rfl⟩ := List.mem_map.mp hy
    exact ⟨free_ok, by show Other (ascii "free"); unfold Other; decide, by show ascii "free" ≠ _; decide⟩
  have e : boxes x.items1 ++ x.space ++ boxes x.items2 = boxes (x.items1 ++ x.free1.map (fun c => (ascii "free", c))) ++
      (box (ascii "ilst") x.ilst ++ boxes (x.free2.map (fun c => (ascii "free", c)) ++ x.items2)) := by
    simp only [File.space, File.space1, frees, boxes_append, List.append_assoc]
  have hsp : 8 ≤ x.space.length := by
    simp only [File.space, File.space1, List.length_append, box_length _ _ (rfl : (ascii "ilst").length = 4)]
    omega
  have hv : MetaOk x.version (boxes x.items1 ++ x.space ++ boxes x.items2) := by
    rcases hx.version with ⟨h1, h2⟩ | ⟨h1, h2⟩
    · refine .inl ⟨h1, by simp only [List.length_append]; omega, ?_⟩
      rwa [List.take_append_of_le_length (by simp only [List.length_append]; omega)]
    · refine .inr ⟨h1, ?_⟩
      rwa [List.drop_append_of_le_length (by simp only [List.length_append]; omega),
        List.take_append_of_le_length (by simp only [List.length_drop, List.length_append]; omega)]
  refine ⟨brand, hok, ?_⟩
  rw [e] at hv
  refine read_tag (moov1 := x.moov1) (udta1 := x.udta1) (udta2 := x.udta2) (moov2 := x.moov2) (version := x.version)
    (items1 := x.items1 ++ x.free1.map (fun c => (ascii "free", c))) (items2 := x.free2.map (fun c => (ascii "free", c)) ++ x.items2)
    (by rw [← e, File.moov]; simp only [List.append_assoc]) hok hc.moov1 hc.moov2 hx.udta1.2.2.1 hc.udta2 hv ?_ ?_ cfg htags
  · intro y hy
    rcases List.mem_append.mp hy with hy | hy
    · exact ⟨hx.items1.1 y hy, hc.items1 y hy⟩
    · exact ⟨(hfree _ y hy).1, (hfree _ y hy).2.2⟩
  · intro y hy
    rcases List.mem_append.mp hy with hy | hy
    · exact ⟨(hfree _ y hy).1, (hfree _ y hy).2.1⟩
    · exact ⟨(hx.items2.1 y hy).1, hc.items2 y hy⟩

/-- What follows from reading a file with its properties. -/
theorem readFile_props {cfg : Config} (hprops : cfg.properties = true) {f : Bytes} {b : Str} {old : Option Tag} {p : Props}
    (hp : readFile cfg f = .ok (b, old, some p)) :
    ∃ m, readFrom cfg f = .ok (b, m) ∧
      readProperties cfg.opts.mode cfg.limit ((Rd.new f).resetBounds 0 f.length) m.traks f.length = .ok p := by
  unfold readFile at hp
  obtain ⟨⟨b', m⟩, h1, hp⟩ := bind_ok hp
  simp only at hp
  rw [if_pos hprops] at hp
  obtain ⟨p', h2, hp⟩ := bind_ok hp
  simp only [Except.ok.injEq, Prod.mk.injEq, Option.some.injEq] at hp
  obtain ⟨rfl, _, rfl⟩ := hp
  exact ⟨m, h1, h2⟩

/-- **C63, saving.** A tag is saved to a file that has one: the tag that is read back is the new one, and the properties are those of
the file before, except that the overall bit rate is that of the new size; wherever the tag is, and however much the audio moves.
`_partial`: the hypotheses of `Mp4Read.save_read_partial`, and the audio is as in `Audio`. -/
theorem save_props_partial (x : File) (hx : x.Ok) (hc : Clear x) (t : Tag) (hne : t ≠ []) (cfg : Config) (htags : cfg.tags = true)
    (hprops : cfg.properties = true) (hat : ∀ a ∈ t, AtomOk cfg.opts a) (hlim : (t.flatMap atomBox).length ≤ cfg.limit) (mode : Mode)
    (pad : Option Nat) (hpad : ∀ k, pad = some k → 8 ≤ k) (hsz : 3 * x.bytes.length + 2 * (t.flatMap atomBox).length + pad.getD 0 < 2 ^ 30)
    {timescale duration mdat : Nat} {stsd : Bytes} {stts : Option (List (Nat × Nat))}
    (ha : Audio x.before (x.moov x.space) x.after timescale duration stsd stts mdat)
    (hls : stsd.length ≤ cfg.limit) (hst : ∀ l, stts = some l → l.length ≤ cfg.limit)
    {b : Str} {old : Option Tag} {p : Props} (hp : readFile cfg x.bytes = .ok (b, old, some p)) :
    ∃ f p', writeTo x.bytes t mode pad = .ok f ∧ readFile cfg f = .ok (b, some t, some p') ∧ p'.Same p := by
  obtain ⟨m, hp1, hp2⟩ := readFile_props hprops hp
  obtain ⟨brand, hok, hr⟩ := read_file x hx hc cfg htags
  rw [hr] at hp1
  obtain ⟨t0, _, hp1⟩ := bind_ok hp1
  obtain ⟨rfl, rfl⟩ := (Prod.mk.injEq _ _ _ _).mp ((Except.ok.injEq _ _).mp hp1)
  simp only [found_tracks hprops] at hp2
  obtain ⟨f, brand', hw, ⟨c, rest, hb1, hb2⟩, hr'⟩ := save_read_partial x hx hc t hne cfg htags hat hlim mode pad hpad hsz
  have hb : build t = .ok (box (ascii "ilst") (t.flatMap atomBox)) :=
    build_layout t hne (fun a ha => ⟨fun d hd => valueOk_writable ((hat a ha).2.2 d hd), header_ok (hat a ha).1⟩) (by omega)
  have hnl : (box (ascii "ilst") (t.flatMap atomBox)).length = 8 + (t.flatMap atomBox).length := box_length _ _ rfl
  have hsp := space1_lt x
  have hw' := write_partial x hx t mode pad _ hb (by intro e; rw [e] at hnl; simp at hnl; omega) hpad (by rw [hnl]; omega)
  have hfl := fit_le x (box (ascii "ilst") (t.flatMap atomBox)) pad hpad
  generalize hR : (x.fit (box (ascii "ilst") (t.flatMap atomBox)) pad).1 = region at hw' hfl hr'
  generalize hS : moved x.start (x.fit (box (ascii "ilst") (t.flatMap atomBox)) pad).2 = s at hw'
  obtain ⟨brand2, _, hok'⟩ := file_ok_moved x hx region s (by rw [hnl] at hfl; omega)
  have ha' := audio_moved (moov' := (x.moov region).mapOffsets s) (moov_forest_ok x hx _) ha s (by rw [medias_moved, medias_region, medias_region])
  obtain ⟨p', h1, h2⟩ := same_audio hok hx.after.1 ha hok' hx.after.1 ha' cfg.opts.mode cfg.limit hls hst hp2
  obtain rfl := (Except.ok.injEq _ _).mp (hw.symm.trans hw')
  have hbrand : brand' = brand := by
    obtain ⟨c', rest', e1, _, e2⟩ := hok.front
    rw [hb1] at e1
    injection e1 with _ e3 _
    rw [← e3, hb2] at e2
    exact (Except.ok.injEq _ _).mp e2
  refine ⟨_, p', hw', ?_, h2⟩
  unfold readFile
  rw [hr', ok_bind]
  simp only
  rw [if_pos hprops, found_tracks hprops, ← mapOffsets_tracks s (Mp4Read.moov_tables x hx region)]
  have h1' : readProperties cfg.opts.mode cfg.limit
      ((Rd.new (x.whole ((x.moov region).mapOffsets s)).bytes).resetBounds 0 (x.whole ((x.moov region).mapOffsets s)).bytes.length)
      (tracks (x.before.bytes.length + 8) ((x.moov region).mapOffsets s)) (x.whole ((x.moov region).mapOffsets s)).bytes.length = .ok p' := h1
  rw [h1', ok_bind, hbrand]

/-- **C63, removing.** Removing the tag keeps the properties but for the overall bit rate. -/
theorem remove_props_partial (x : File) (hx : x.Ok) (hc : Clear x) (hi : x.items1 ≠ []) (cfg : Config) (htags : cfg.tags = true)
    (hprops : cfg.properties = true) (mode : Mode) (pad : Option Nat)
    {timescale duration mdat : Nat} {stsd : Bytes} {stts : Option (List (Nat × Nat))}
    (ha : Audio x.before (x.moov x.space) x.after timescale duration stsd stts mdat)
    (hls : stsd.length ≤ cfg.limit) (hst : ∀ l, stts = some l → l.length ≤ cfg.limit)
    {b : Str} {old : Option Tag} {p : Props} (hp : readFile cfg x.bytes = .ok (b, old, some p)) :
    ∃ f p', writeTo x.bytes [] mode pad = .ok f ∧ readFile cfg f = .ok (b, none, some p') ∧ p'.Same p := by
  obtain ⟨m, hp1, hp2⟩ := readFile_props hprops hp
  obtain ⟨brand, hok, hr⟩ := read_file x hx hc cfg htags
  rw [hr] at hp1
  obtain ⟨t0, _, hp1⟩ := bind_ok hp1
  obtain ⟨rfl, rfl⟩ := (Prod.mk.injEq _ _ _ _).mp ((Except.ok.injEq _ _).mp hp1)
  simp only [found_tracks hprops] at hp2
  obtain ⟨f, brand', hw, ⟨c, rest, hb1, hb2⟩, hr'⟩ := remove_read_partial x hx hc hi cfg htags mode pad
  have hw' := remove_partial x hx mode pad
  generalize hR : frees x.free1 ++ frees x.free2 = region at hw' hr'
  generalize hS : moved (x.start + (frees x.free1).length) (-(8 + x.ilst.length : Nat)) = s at hw'
  have hsl : region.length ≤ x.space.length := by
    rw [← hR]
    simp only [File.space, File.space1, List.length_append]
    omega
  have hfok : FileOk x.before ((x.moov region).mapOffsets s) x.after brand := by
    refine ⟨hok.front, hok.names, mapOffsets_ok s (moov_forest_ok x hx _), ?_⟩
    have h0 := hx.size
    have h1 : x.bytes.length = _ := wholeLen_eq x x.space
    have h2 : (whole x.before ((x.moov region).mapOffsets s) x.after).bytes.length =
        x.before.bytes.length + (8 + (x.moov region).bytes.length + x.after.bytes.length) := by
      rw [whole, append_bytes, List.length_append, bytes_length_node moov_ok, mapOffsets_length _ _ (Mp4Read.moov_tables x hx _)]
    have a1 := moovLen_eq x x.space
    have a2 := udtaLen_eq x x.space
    have a3 := metaLen_eq x x.space
    have b1 := moovLen_eq x region
    have b2 := udtaLen_eq x region
    have b3 := metaLen_eq x region
    simp only [List.length_append] at a3 b3
    omega
  have ha' := audio_moved (moov' := (x.moov region).mapOffsets s) (moov_forest_ok x hx _) ha s (by rw [medias_moved, medias_region, medias_region])
  obtain ⟨p', h1, h2⟩ := same_audio hok hx.after.1 ha hfok hx.after.1 ha' cfg.opts.mode cfg.limit hls hst hp2
  obtain rfl := (Except.ok.injEq _ _).mp (hw.symm.trans hw')
  have hbrand : brand' = brand := by
    obtain ⟨c', rest', e1, _, e2⟩ := hok.front
    rw [hb1] at e1
    injection e1 with _ e3 _
    rw [← e3, hb2] at e2
    exact (Except.ok.injEq _ _).mp e2
  refine ⟨_, p', hw', ?_, h2⟩
  unfold readFile
  rw [hr', ok_bind]
  simp only
  rw [if_pos hprops, found_tracks hprops, ← mapOffsets_tracks s (Mp4Read.moov_tables x hx region)]
  have h1' : readProperties cfg.opts.mode cfg.limit
      ((Rd.new (x.whole ((x.moov region).mapOffsets s)).bytes).resetBounds 0 (x.whole ((x.moov region).mapOffsets s)).bytes.length)
      (tracks (x.before.bytes.length + 8) ((x.moov region).mapOffsets s)) (x.whole ((x.moov region).mapOffsets s)).bytes.length = .ok p' := h1
  rw [h1', ok_bind, hbrand]

theorem audio_same {before moov moov' after : Forest} {timescale duration mdat : Nat} {stsd : Bytes} {stts : Option (List (Nat × Nat))}
    (ha : Audio before moov after timescale duration stsd stts mdat) (hm : medias moov' = medias moov) :
    Audio before moov' after timescale duration stsd stts mdat := by
  obtain ⟨h1, dc, hdc, hl⟩ := ha
  refine ⟨by rw [hm]; exact h1, dc, ?_, hl⟩
  rw [whole, items_append, items] at hdc ⊢
  have hne : ¬ ascii "moov" = ascii "mdat" := by decide
  rw [List.find?_append, List.find?_cons_of_neg (by simpa using hne)] at hdc ⊢
  exact hdc

/-- **C63, creating.** The first tag of a file: it is read back, and the properties are kept but for the overall bit rate. -/
theorem create_props_partial {before kids after : Forest} (h : Plain before kids after) (hsil : Silent kids)
    (hu : ascii "udta" ∉ kids.top) (t : Tag) (hne : t ≠ [])
    (cfg : Config) (htags : cfg.tags = true) (hprops : cfg.properties = true) (hat : ∀ a ∈ t, AtomOk cfg.opts a)
    (hlim : (t.flatMap atomBox).length ≤ cfg.limit)
    (mode : Mode) (pad : Option Nat) (hsz : (whole before kids after).bytes.length + (t.flatMap atomBox).length + 72 < 2 ^ 32)
    {timescale duration mdat : Nat} {stsd : Bytes} {stts : Option (List (Nat × Nat))}
    (ha : Audio before kids after timescale duration stsd stts mdat)
    (hls : stsd.length ≤ cfg.limit) (hst : ∀ l, stts = some l → l.length ≤ cfg.limit)
    {b : Str} {old : Option Tag} {p : Props} (hp : readFile cfg (whole before kids after).bytes = .ok (b, old, some p)) :
    ∃ f p', old = none ∧ writeTo (whole before kids after).bytes t mode pad = .ok f ∧ readFile cfg f = .ok (b, some t, some p') ∧ p'.Same p := by
  obtain ⟨c0, rest0, hbr, h4, brand, hd⟩ := h.brand
  have hok0 : FileOk before kids after brand := ⟨⟨c0, rest0, hbr, h4, hd⟩, h.front, h.inner, h.size⟩
  have hr := read_silent hok0 hsil cfg
  unfold readFile at hp
  rw [hr, ok_bind] at hp
  simp only at hp
  rw [if_pos hprops, found_tracks hprops] at hp
  obtain ⟨p0, hp2, hp⟩ := bind_ok hp
  simp only [Except.ok.injEq, Prod.mk.injEq, Option.some.injEq] at hp
  obtain ⟨rfl, rfl, rfl⟩ := hp
  obtain ⟨f, brand', hw, ⟨c, rest, hb1, hb2⟩, hr'⟩ := create_read_partial h hsil hu t hne cfg htags hat hlim mode pad hsz
  have hb : build t = .ok (box (ascii "ilst") (t.flatMap atomBox)) :=
    build_layout t hne (fun a ha => ⟨fun d hd => valueOk_writable ((hat a ha).2.2 d hd), header_ok (hat a ha).1⟩) (by omega)
  have hnl : (box (ascii "ilst") (t.flatMap atomBox)).length = 8 + (t.flatMap atomBox).length := box_length _ _ rfl
  have hw' := create_udta h hu t mode pad _ hb (by rw [hnl]; unfold whole at hsz; omega)
  rw [if_neg hne] at hw'
  have hml : (newMeta (box (ascii "ilst") (t.flatMap atomBox))).length = 37 + (8 + (t.flatMap atomBox).length) := by
    unfold newMeta
    rw [List.length_append, List.length_append, box_length _ _ rfl, box_length _ _ rfl]
    simp [ascii]
    omega
  generalize hN : Forest.node (ascii "udta") (.leaf (ascii "meta") (newMeta (box (ascii "ilst") (t.flatMap atomBox))) .nil) kids = moov' at hw'
  have hkl : moov'.bytes.length = 61 + (t.flatMap atomBox).length + kids.bytes.length := by
    rw [← hN, bytes_length_node udta_ok, bytes_length_leaf meta_ok, hml]
    simp only [Forest.bytes, List.length_nil]
    omega
  have hok : FileOk before moov' after brand := by
    refine ⟨⟨c0, rest0, hbr, h4, hd⟩, h.front, ?_, ?_⟩
    · rw [← hN]
      refine ⟨udta_ok, by unfold IsContainer; decide, ⟨meta_ok, ?_, trivial⟩, h.inner⟩
      unfold IsContainer; decide
    · have e := plain_length before kids after
      have e' := plain_length before moov' after
      unfold whole at hsz ⊢
      omega
  have ha' : Audio before moov' after timescale duration stsd stts mdat := audio_same ha (by
    rw [← hN, medias, if_neg (by decide), List.nil_append])
  obtain ⟨p', h1, h2⟩ := same_audio hok0 h.back ha hok h.back ha' cfg.opts.mode cfg.limit hls hst hp2
  obtain rfl := (Except.ok.injEq _ _).mp (hw.symm.trans hw')
  have hbrand : brand' = brand := by
    rw [hb1] at hbr
    injection hbr with _ e3 _
    rw [← e3, hb2] at hd
    exact (Except.ok.injEq _ _).mp hd
  have htr : tracks (before.bytes.length + 8 + (61 + (t.flatMap atomBox).length)) kids = tracks (before.bytes.length + 8) moov' := by
    rw [← hN, tracks, if_neg (by decide), List.nil_append, bytes_length_leaf meta_ok, hml]
    simp only [Forest.bytes, List.length_nil]
    congr 1
    omega
  refine ⟨_, p', rfl, hw', ?_, h2⟩
  unfold readFile
  rw [hr', ok_bind]
  simp only
  rw [if_pos hprops, found_tracks hprops, htr]
  have h1' : readProperties cfg.opts.mode cfg.limit
      ((Rd.new (before.append (.node (ascii "moov") moov' after)).bytes).resetBounds 0 (before.append (.node (ascii "moov") moov' after)).bytes.length)
      (tracks (before.bytes.length + 8) moov') (before.append (.node (ascii "moov") moov' after)).bytes.length = .ok p' := h1
  rw [h1', ok_bind, hbrand]

end Lofty.Mp4Props
