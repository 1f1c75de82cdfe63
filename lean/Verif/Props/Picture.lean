import Verif.Lemmas.Picture
/-! # C17 (FLAC picture blocks) and C18 (picture type tables) -/
namespace Lofty.Picture

/-- The pictures that have a unique serialised form: the type is not an `Undefined`
duplicate of a defined one; an unknown MIME string is non-empty and is not a spelling
of a known MIME type; the description, if present, is not empty; neither ends in NUL;
all lengths fit in 32 bits. -/
structure Stable (p : Pic) : Prop where
  ty : ∀ b, p.ty = .undefined b → 20 < b.toNat
  mime : ∀ s, p.mime = some (.unknown s) →
    s ≠ [] ∧ s.getLast? ≠ some '\x00' ∧
      s.map lowerChar ∉ [str "image/jpeg", str "image/jpg", str "image/png", str "image/tiff",
        str "image/bmp", str "image/gif"]
  desc : ∀ d, p.desc = some d → d ≠ [] ∧ d.getLast? ≠ some '\x00' ∧ (utf8 d).length < 2 ^ 32
  mimeLen : (utf8 p.mimeStr).length < 2 ^ 32
  dataLen : p.data.length < 2 ^ 32

/-- C18: code to type to code is the identity on all bytes. -/
theorem asU8_fromU8 (b : UInt8) : (PicType.fromU8 b).asU8 = b := by
  have := fromU8_asU8_table ⟨b.toNat, b.toNat_lt⟩
  simpa using this

/-- C18: type to code to type is the identity, except that an `Undefined` with a
defined code becomes the defined type. -/
theorem fromU8_asU8 (t : PicType) (h : ∀ b, t = .undefined b → 20 < b.toNat) :
    PicType.fromU8 t.asU8 = t := by
  cases t with
  | undefined b =>
    have hb := h b rfl
    have tbl : ∀ i : Fin 256, 20 < i.val → PicType.fromU8 (UInt8.ofNat i.val) = .undefined (UInt8.ofNat i.val) := by
      decide +kernel
    have := tbl ⟨b.toNat, b.toNat_lt⟩ hb
    simpa [PicType.asU8] using this
  | _ => rfl

example : ∀ b, PicType.undefined 21 = .undefined b → 20 < b.toNat := by
  intro b h; cases h; decide

/-- C18: defined types have distinct codes, all at most 20. -/
theorem asU8_inj (s t : PicType) (hs : ∀ b, s = .undefined b → 20 < b.toNat)
    (ht : ∀ b, t = .undefined b → 20 < b.toNat) (h : s.asU8 = t.asU8) : s = t := by
  rw [← fromU8_asU8 s hs, h, fromU8_asU8 t ht]

/-- C18: the APE key of every type maps back to the type. -/
theorem fromApeKey_asApeKey (t : PicType) (k : Str) (h : t.asApeKey = some k) :
    PicType.fromApeKey k = t := by
  cases t <;> simp only [PicType.asApeKey, Option.some.injEq, reduceCtorEq] at h <;> subst h <;> decide +kernel

/-- C18: a key that maps to a defined type is that type's key. -/
theorem asApeKey_fromApeKey (k : Str) :
    PicType.fromApeKey k = .undefined 0 ∨ (PicType.fromApeKey k).asApeKey = some k := by
  have key : ∀ (s : Str) (t e : PicType), t.asApeKey = some s →
      (e = .undefined 0 ∨ e.asApeKey = some k) →
      (if k = s then t else e) = .undefined 0 ∨ (if k = s then t else e).asApeKey = some k := by
    intro s t e h he
    by_cases hk : k = s
    · rw [if_pos hk, hk]; exact Or.inr h
    · rw [if_neg hk]; exact he
  unfold PicType.fromApeKey
  repeat refine key _ _ _ rfl ?_
  exact Or.inl rfl

/-- C18: the APE keys of two types coincide only if the types do. -/
theorem asApeKey_inj (s t : PicType) (k : Str) (hs : s.asApeKey = some k) (ht : t.asApeKey = some k) :
    s = t := by
  rw [← fromApeKey_asApeKey s k hs, fromApeKey_asApeKey t k ht]

/-- C18: the exported list of APE picture keys is the list of the keys of the types
with codes 0 to 20, in that order. -/
theorem apePictureTypes_eq :
    apePictureTypes.map some = (List.range 21).map fun i => (PicType.fromU8 (UInt8.ofNat i)).asApeKey := by
  decide +kernel

/-- What a description looks like after a round trip. -/
def descBack : Option Str → Option Str
  | some d => if d = [] then none else some (Text.trimEndNulls d)
  | none => none

/-- What a MIME type looks like after a round trip. -/
def mimeBack (p : Pic) : Option Mime :=
  if Text.trimEndNulls p.mimeStr = [] then none else some (Mime.fromStr (Text.trimEndNulls p.mimeStr))

/-- C17, for every picture with lengths that fit in 32 bits, whatever follows it: the
parser returns the dimensions and data unchanged and type, MIME type and description
in their normal form. -/
theorem fromFlac_asFlac_norm (p : Pic) (i : Info) (strict : Bool) (rest : Bytes)
    (hm : (utf8 p.mimeStr).length < 2 ^ 32) (hd : p.data.length < 2 ^ 32)
    (hdesc : ∀ d, p.desc = some d → (utf8 d).length < 2 ^ 32) :
    fromFlacInner strict (asFlacRaw p i ++ rest)
      = .ok (⟨PicType.fromU8 p.ty.asU8, mimeBack p, descBack p.desc, p.data⟩, i) := by
  have hty := p.ty.asU8.toNat_lt
  have hty' : p.ty.asU8.toNat < 2 ^ 32 := by omega
  -- the description field, as length and bytes
  obtain ⟨db, hdb, hdbl⟩ : ∃ db : Bytes, descField p.desc = beBytes 4 db.length ++ db ∧ db.length < 2 ^ 32 ∧
        db = utf8 (p.desc.getD []) := by
    cases hpd : p.desc with
    | none => exact ⟨[], by decide, by decide, rfl⟩
    | some d => exact ⟨utf8 d, rfl, hdesc d hpd, rfl⟩
  obtain ⟨hdbl, hdbe⟩ := hdbl
  let tail := beBytes 4 i.width.toNat ++ (beBytes 4 i.height.toNat ++ (beBytes 4 i.colorDepth.toNat
    ++ (beBytes 4 i.numColors.toNat ++ (beBytes 4 p.data.length ++ (p.data ++ rest)))))
  have hc : asFlacRaw p i ++ rest = beBytes 4 p.ty.asU8.toNat ++ (beBytes 4 (utf8 p.mimeStr).length
      ++ (utf8 p.mimeStr ++ (beBytes 4 db.length ++ (db ++ tail)))) := by
    unfold asFlacRaw
    rw [hdb]
    simp only [List.append_assoc, tail]
  have htl : tail.length = 20 + p.data.length + rest.length := by
    simp [tail]; omega
  generalize hcont : asFlacRaw p i ++ rest = content at hc
  have hlen : content.length = 12 + (utf8 p.mimeStr).length + db.length + tail.length := by
    rw [hc]; simp; omega
  have hs1 : slice content 8 (8 + (utf8 p.mimeStr).length) = .ok (utf8 p.mimeStr) := by
    have := slice_mid (beBytes 4 p.ty.asU8.toNat ++ beBytes 4 (utf8 p.mimeStr).length) (utf8 p.mimeStr)
      (beBytes 4 db.length ++ (db ++ tail)) 8 (8 + (utf8 p.mimeStr).length) (by simp) (by simp)
    rw [hc]
    simpa only [List.append_assoc] using this
  have hs2 : slice content (12 + (utf8 p.mimeStr).length) (12 + (utf8 p.mimeStr).length + db.length) = .ok db := by
    have := slice_mid (beBytes 4 p.ty.asU8.toNat ++ beBytes 4 (utf8 p.mimeStr).length ++ utf8 p.mimeStr
      ++ beBytes 4 db.length) db tail (12 + (utf8 p.mimeStr).length) (12 + (utf8 p.mimeStr).length + db.length)
      (by simp; omega) (by simp; omega)
    rw [hc]
    simpa only [List.append_assoc] using this
  have hdescr : flacDesc content (utf8 p.mimeStr).length db.length (db.length + tail.length) (db ++ tail)
      = .ok (descBack p.desc, tail.length, tail) := by
    unfold flacDesc
    by_cases h0 : db.length = 0
    · rw [if_neg (by omega)]
      have hnil : db = [] := List.length_eq_zero_iff.mp h0
      have : p.desc.getD [] = [] := utf8_eq_nil (by rw [← hdbe, hnil])
      have hb : descBack p.desc = none := by
        cases hpd : p.desc with
        | none => rfl
        | some d => rw [hpd] at this; simp only [Option.getD_some] at this; simp [descBack, this]
      simp [hb, hnil]
    · rw [if_pos (by omega)]
      simp only
      rw [hs2, ok_bind, checkedSub_le (by omega), ok_bind]
      have hb : descBack p.desc = some (Text.trimEndNulls (p.desc.getD [])) := by
        cases hpd : p.desc with
        | none => rw [hpd] at hdbe; rw [hdbe] at h0; simp at h0
        | some d =>
          rw [hpd] at hdbe
          have : d ≠ [] := by rintro rfl; rw [hdbe] at h0; simp at h0
          simp [descBack, this]
      have hu : Text.utf8Decode db = .ok (Text.trimEndNulls (p.desc.getD [])) := by
        rw [hdbe, Text.utf8Decode, fromUtf8_utf8]
      rw [hu, hb]
      simp [Except.toOption]
  unfold fromFlacInner
  simp only
  rw [if_neg (by omega)]
  conv => lhs; arg 1; rw [hc]
  rw [readBE4 hty', ok_bind]
  simp only
  rw [checkedSub_le (by omega), ok_bind, if_neg (by omega), readBE4 hm, ok_bind]
  simp only
  rw [checkedSub_le (by omega), ok_bind, if_neg (by omega), hs1, ok_bind]
  rw [Text.utf8Decode, fromUtf8_utf8]
  simp only [ok_bind, List.drop_left]
  rw [checkedSub_le (by omega), ok_bind, readBE4 hdbl, ok_bind]
  simp only
  rw [checkedSub_le (by omega), ok_bind]
  rw [show content.length - 4 - 4 - (utf8 p.mimeStr).length - 4 = db.length + tail.length by omega, hdescr, ok_bind]
  simp only [tail]
  rw [readBE4 i.width.toNat_lt, ok_bind]
  simp only
  rw [readBE4 i.height.toNat_lt, ok_bind]
  simp only
  rw [readBE4 i.colorDepth.toNat_lt, ok_bind]
  simp only
  rw [readBE4 i.numColors.toNat_lt, ok_bind]
  simp only
  rw [readBE4 hd, ok_bind]
  simp only
  have htl' : (beBytes 4 i.width.toNat ++ (beBytes 4 i.height.toNat ++ (beBytes 4 i.colorDepth.toNat
    ++ (beBytes 4 i.numColors.toNat ++ (beBytes 4 p.data.length ++ (p.data ++ rest)))))).length
      = 20 + p.data.length + rest.length := htl
  rw [checkedSub_le (by omega), ok_bind, if_neg (by omega), readN_append _ _ rfl, ok_bind]
  simp [mimeBack]

/-- C17: a picture in normal form survives serialisation, both as the raw block and as
the base 64 text of a Vorbis comment. -/
theorem fromFlac_asFlac (p : Pic) (i : Info) (enc strict : Bool) (h : Stable p) :
    fromFlacBytes (asFlacBytes p i enc) enc strict = .ok (p, i) := by
  have hnorm := fromFlac_asFlac_norm p i strict [] h.mimeLen h.dataLen (fun d hd => (h.desc d hd).2.2)
  rw [List.append_nil] at hnorm
  have hmain : fromFlacInner strict (asFlacRaw p i) = .ok (p, i) := by
    rw [hnorm, fromU8_asU8 p.ty h.ty]
    have hmb : mimeBack p = p.mime := by
      unfold mimeBack
      cases hm : p.mime with
      | none => simp [Pic.mimeStr, hm, Text.trimEndNulls]
      | some m =>
        have hms : p.mimeStr = m.asStr := by simp [Pic.mimeStr, hm]
        rw [hms]
        cases m with
        | unknown s =>
          obtain ⟨h1, h2, h3⟩ := h.mime s hm
          simp only [Mime.asStr, Text.trimEndNulls_eq s h2, if_neg h1]
          simp only [List.mem_cons, List.not_mem_nil, or_false, not_or] at h3
          simp [Mime.fromStr, h3]
        | _ => decide +kernel
    have hdb : descBack p.desc = p.desc := by
      cases hd : p.desc with
      | none => rfl
      | some d =>
        obtain ⟨h1, h2, _⟩ := h.desc d hd
        simp [descBack, h1, Text.trimEndNulls_eq d h2]
    rw [hmb, hdb]
  unfold fromFlacBytes asFlacBytes
  cases enc with
  | false => simpa using hmain
  | true => simp only [if_true, b64Decode_encode]; exact hmain

example : Stable ⟨.coverFront, some .png, some (str "Fläche"), [1, 2, 3]⟩ where
  ty := by intro b h; cases h
  mime := by intro s h; cases h
  desc := by intro d h; cases h; decide
  mimeLen := by decide
  dataLen := by decide

example : Stable ⟨.undefined 77, some (.unknown (str "image/webp")), none, []⟩ where
  ty := by intro b h; cases h; decide
  mime := by intro s h; cases h; decide +kernel
  desc := by intro d h; cases h
  mimeLen := by decide
  dataLen := by decide

/-- Outside the normal form the picture changes: an empty description is lost and an
upper-case MIME string becomes the known type. -/
theorem flac_picture_normalised :
    fromFlacBytes (asFlacBytes ⟨.undefined 3, some (.unknown (str "IMAGE/PNG")), some [], []⟩ Info.default false)
      false true = .ok (⟨.coverFront, some .png, none, []⟩, Info.default) := by decide +kernel

/-- C17: parsing arbitrary bytes as a FLAC picture block never panics (no out-of-range
slice, no negative length): it yields a picture or an error. -/
theorem fromFlacBytes_no_panic (b : Bytes) (enc strict : Bool) :
    fromFlacBytes b enc strict ≠ .error .panic := by
  have hbe : ∀ k (x : Bytes) (e : Err), readBE k x = .error e → e = .eof := by
    intro k x e h
    unfold readBE readN at h
    split at h
    · cases h
    · next h' => split at h' <;> cases h' ; cases h; rfl
  have hinner : ∀ content, fromFlacInner strict content ≠ .error .panic := by
    intro content h
    unfold fromFlacInner at h
    simp only at h
    split at h
    · cases h
    rename_i h32
    cases h1 : readBE 4 content with
    | error e => rw [h1, error_bind] at h; cases h; cases hbe _ _ _ h1
    | ok x1 =>
      obtain ⟨ty, r1⟩ := x1
      obtain ⟨a1, e1, l1, _⟩ := readBE_ok h1
      have hl1 : content.length = 4 + r1.length := by rw [e1]; simp [l1]
      rw [h1, ok_bind] at h
      simp only at h
      rw [checkedSub_le (by omega), ok_bind] at h
      split at h
      · cases h
      cases h2 : readBE 4 r1 with
      | error e => rw [h2, error_bind] at h; cases h; cases hbe _ _ _ h2
      | ok x2 =>
        obtain ⟨ml, r2⟩ := x2
        obtain ⟨a2, e2, l2, _⟩ := readBE_ok h2
        have hl2 : r1.length = 4 + r2.length := by rw [e2]; simp [l2]
        rw [h2, ok_bind] at h
        simp only at h
        rw [checkedSub_le (by omega), ok_bind] at h
        split at h
        · cases h
        rename_i hml
        rw [slice, if_pos (by omega), ok_bind] at h
        cases h3 : Text.utf8Decode ((content.take (8 + ml)).drop 8) with
        | error e =>
          rw [h3, error_bind] at h; cases h
          unfold Text.utf8Decode at h3
          split at h3 <;> cases h3
        | ok ms =>
          rw [h3, ok_bind, checkedSub_le (by omega), ok_bind] at h
          cases h4 : readBE 4 (r2.drop ml) with
          | error e => rw [h4, error_bind] at h; cases h; cases hbe _ _ _ h4
          | ok x4 =>
            obtain ⟨dl, r4⟩ := x4
            obtain ⟨a4, e4, l4, _⟩ := readBE_ok h4
            have hl4 : (r2.drop ml).length = 4 + r4.length := by rw [e4]; simp [l4]
            rw [List.length_drop] at hl4
            rw [h4, ok_bind] at h
            simp only at h
            rw [checkedSub_le (by omega), ok_bind] at h
            -- the description step keeps `size = remaining length`
            have hfd : ∃ d r5, flacDesc content ml dl (content.length - 4 - 4 - ml - 4) r4
                = .ok (d, r5.length, r5) := by
              unfold flacDesc
              by_cases hc : dl > 0 ∧ dl < content.length - 4 - 4 - ml - 4
              · rw [if_pos hc]
                simp only
                rw [slice, if_pos (by omega), ok_bind, checkedSub_le (by omega), ok_bind]
                refine ⟨(Text.utf8Decode ((content.take (12 + ml + dl)).drop (12 + ml))).toOption,
                  r4.drop dl, ?_⟩
                rw [List.length_drop, show content.length - 4 - 4 - ml - 4 - dl = r4.length - dl by omega]
              · rw [if_neg hc]
                exact ⟨none, r4, by rw [show content.length - 4 - 4 - ml - 4 = r4.length by omega]⟩
            obtain ⟨d, r5, hfd⟩ := hfd
            rw [hfd, ok_bind] at h
            simp only at h
            cases g1 : readBE 4 r5 with
            | error e => rw [g1, error_bind] at h; cases h; cases hbe _ _ _ g1
            | ok y1 =>
              obtain ⟨w, q1⟩ := y1
              obtain ⟨b1, f1, m1, _⟩ := readBE_ok g1
              have k1 : r5.length = 4 + q1.length := by rw [f1]; simp [m1]
              rw [g1, ok_bind] at h
              simp only at h
              cases g2 : readBE 4 q1 with
              | error e => rw [g2, error_bind] at h; cases h; cases hbe _ _ _ g2
              | ok y2 =>
                obtain ⟨w2, q2⟩ := y2
                obtain ⟨b2, f2, m2, _⟩ := readBE_ok g2
                have k2 : q1.length = 4 + q2.length := by rw [f2]; simp [m2]
                rw [g2, ok_bind] at h
                simp only at h
                cases g3 : readBE 4 q2 with
                | error e => rw [g3, error_bind] at h; cases h; cases hbe _ _ _ g3
                | ok y3 =>
                  obtain ⟨w3, q3⟩ := y3
                  obtain ⟨b3, f3, m3, _⟩ := readBE_ok g3
                  have k3 : q2.length = 4 + q3.length := by rw [f3]; simp [m3]
                  rw [g3, ok_bind] at h
                  simp only at h
                  cases g4 : readBE 4 q3 with
                  | error e => rw [g4, error_bind] at h; cases h; cases hbe _ _ _ g4
                  | ok y4 =>
                    obtain ⟨w4, q4⟩ := y4
                    obtain ⟨b4, f4, m4, _⟩ := readBE_ok g4
                    have k4 : q3.length = 4 + q4.length := by rw [f4]; simp [m4]
                    rw [g4, ok_bind] at h
                    simp only at h
                    cases g5 : readBE 4 q4 with
                    | error e => rw [g5, error_bind] at h; cases h; cases hbe _ _ _ g5
                    | ok y5 =>
                      obtain ⟨w5, q5⟩ := y5
                      obtain ⟨b5, f5, m5, _⟩ := readBE_ok g5
                      have k5 : q4.length = 4 + q5.length := by rw [f5]; simp [m5]
                      rw [g5, ok_bind] at h
                      simp only at h
                      rw [checkedSub_le (by omega), ok_bind] at h
                      split at h
                      · cases h
                      · rw [readN_le (by omega), ok_bind] at h
                        cases h
  unfold fromFlacBytes
  split
  · split
    · intro h; cases h
    · exact hinner _
  · exact hinner _

/-! ### Image formats by their first bytes -/

/-- The first bytes of an image of the given format. -/
def Magic (m : Mime) (d : Bytes) : Prop :=
  match m with
  | .png => [0x89, 0x50, 0x4E, 0x47, 0x0D, 0x0A, 0x1A, 0x0A] <+: d
  | .jpeg => [0xFF, 0xD8] <+: d
  | .gif => [0x47, 0x49, 0x46, 0x38, 0x37, 0x61] <+: d ∨ [0x47, 0x49, 0x46, 0x38, 0x39, 0x61] <+: d
  | .bmp => [0x42, 0x4D] <+: d
  | .tiff => [0x49, 0x49, 0x2A, 0x00] <+: d ∨ [0x4D, 0x4D, 0x00, 0x2A] <+: d
  | _ => False

/-- C17: the format of an image is detected by its first bytes (at least eight of them): a
format is reported exactly if the image starts with the bytes of that format, and anything
else is refused. -/
theorem mimeFromBin_spec (d : Bytes) (h : 8 ≤ d.length) (m : Mime) : mimeFromBin d = .ok m ↔ Magic m d := by
  match d, h with
  | b0 :: b1 :: b2 :: b3 :: b4 :: b5 :: b6 :: b7 :: d, _ =>
    have hmk : ∀ m, Magic m (b0 :: b1 :: b2 :: b3 :: b4 :: b5 :: b6 :: b7 :: d) ↔
        match m with
        | .png => b0 = 0x89 ∧ b1 = 0x50 ∧ b2 = 0x4E ∧ b3 = 0x47 ∧ b4 = 0x0D ∧ b5 = 0x0A ∧ b6 = 0x1A ∧ b7 = 0x0A
        | .jpeg => b0 = 0xFF ∧ b1 = 0xD8
        | .gif => b0 = 0x47 ∧ b1 = 0x49 ∧ b2 = 0x46 ∧ b3 = 0x38 ∧ (b4 = 0x37 ∨ b4 = 0x39) ∧ b5 = 0x61
        | .bmp => b0 = 0x42 ∧ b1 = 0x4D
        | .tiff => (b0 = 0x49 ∧ b1 = 0x49 ∧ b2 = 0x2A ∧ b3 = 0) ∨ (b0 = 0x4D ∧ b1 = 0x4D ∧ b2 = 0 ∧ b3 = 0x2A)
        | _ => False := by
      intro m
      cases m <;> simp [Magic, List.cons_prefix_cons, eq_comm]
      constructor
      · rintro (⟨h1, h2, h3, h4, h5, h6⟩ | ⟨h1, h2, h3, h4, h5, h6⟩)
        · exact ⟨h1, h2, h3, h4, Or.inl h5, h6⟩
        · exact ⟨h1, h2, h3, h4, Or.inr h5, h6⟩
      · rintro ⟨h1, h2, h3, h4, h5 | h5, h6⟩
        · exact Or.inl ⟨h1, h2, h3, h4, h5, h6⟩
        · exact Or.inr ⟨h1, h2, h3, h4, h5, h6⟩
    rw [hmk]
    unfold mimeFromBin
    simp only
    split
    · rename_i h1
      simp only [List.cons.injEq, and_true] at h1
      obtain ⟨rfl, rfl, rfl, rfl, rfl, rfl, rfl, rfl⟩ := h1
      cases m <;> simp
    · rename_i n1
      simp only [List.cons.injEq, and_true] at n1
      split
      · rename_i h1
        obtain ⟨rfl, rfl⟩ := h1
        cases m <;> simp
      · rename_i n2
        split
        · rename_i h1
          obtain ⟨rfl, rfl, rfl, rfl, h5, rfl⟩ := h1
          cases m <;> simp [h5]
        · rename_i n3
          split
          · rename_i h1
            obtain ⟨rfl, rfl⟩ := h1
            cases m <;> simp
          · rename_i n4
            split
            · rename_i h1
              cases m <;> simp
              all_goals first
                | exact n1
                | exact n2
                | exact n3
                | exact n4
                | exact h1
                | (rcases h1 with ⟨rfl, rfl, rfl, rfl⟩ | ⟨rfl, rfl, rfl, rfl⟩ <;> simp)
            · rename_i n5
              cases m <;> simp
              all_goals first
                | exact n1
                | exact n2
                | exact n3
                | exact n4
                | exact n5
                | (simp at n1 n2 n3 n4 n5; first | exact n1 | exact n2 | exact n3 | exact n4 | exact n5)

example : mimeFromBin [0x4D, 0x4D, 0, 0x2A, 0, 0, 0, 8] = .ok .tiff := by decide

end Lofty.Picture
