import Verif.Lemmas.Id3v2Header
/-! # C23 (ID3v2 header) and C25 (restrictions) -/
namespace Lofty.Id3v2

/-! ## C25 -/

/-- C25: decoding any byte and encoding the result gives the byte. -/
theorem restrictions_byte (b : UInt8) : (Restrictions.fromByte b).asByte = b := by
  have tbl : ∀ i : Fin 256, (Restrictions.fromByte (UInt8.ofNat i.val)).asByte = UInt8.ofNat i.val := by decide +kernel
  simpa using tbl ⟨b.toNat, b.toNat_lt⟩

/-- C25: every combination of restrictions survives. -/
theorem restrictions_value (r : Restrictions) : Restrictions.fromByte r.asByte = r := by
  obtain ⟨a, b, c, d, e⟩ := r
  cases a <;> cases b <;> (rcases c with _ | c) <;> (try cases c) <;> cases d <;> (rcases e with _ | e) <;>
    (try cases e) <;> decide

/-- C25: the fields of the byte, as documented in the ID3v2.4 structure (`%xxyzzabb`). -/
theorem restrictions_fields (b : UInt8) :
    (Restrictions.fromByte b).size = [SizeR.s128F1M, .s64F128K, .s32F40K, .s32F4K].getD (b.toNat / 64) .s128F1M ∧
    (Restrictions.fromByte b).textEncoding = decide (b.toNat / 32 % 2 = 1) ∧
    (Restrictions.fromByte b).textSize = [none, some TextR.c1024, some .c128, some .c30].getD (b.toNat / 8 % 4) none ∧
    (Restrictions.fromByte b).imageEncoding = decide (b.toNat / 4 % 2 = 1) ∧
    (Restrictions.fromByte b).imageSize = [none, some ImageR.p256, some .p64, some .p64x64].getD (b.toNat % 4) none := by
  have tbl : ∀ i : Fin 256,
    (Restrictions.fromByte (UInt8.ofNat i.val)).size = [SizeR.s128F1M, .s64F128K, .s32F40K, .s32F4K].getD (i.val / 64) .s128F1M ∧
    (Restrictions.fromByte (UInt8.ofNat i.val)).textEncoding = decide (i.val / 32 % 2 = 1) ∧
    (Restrictions.fromByte (UInt8.ofNat i.val)).textSize = [none, some TextR.c1024, some .c128, some .c30].getD (i.val / 8 % 4) none ∧
    (Restrictions.fromByte (UInt8.ofNat i.val)).imageEncoding = decide (i.val / 4 % 2 = 1) ∧
    (Restrictions.fromByte (UInt8.ofNat i.val)).imageSize = [none, some ImageR.p256, some .p64, some .p64x64].getD (i.val % 4) none := by
    decide +kernel
  simpa using tbl ⟨b.toNat, b.toNat_lt⟩

/-! ## C23 -/

/-- The numeric version of a header. -/
def Version.number : Version → Nat
  | .v2 => 2 | .v3 => 3 | .v4 => 4

theorem versionOf_eq (b : UInt8) (v : Version) : versionOf b = some v ↔ b.toNat = v.number := by
  have tbl : ∀ i : Fin 256, ∀ v : Fin 3, let v := [Version.v2, .v3, .v4].getD v.val .v2
      versionOf (UInt8.ofNat i.val) = some v ↔ i.val = v.number := by decide +kernel
  cases v
  · simpa using tbl ⟨b.toNat, b.toNat_lt⟩ 0
  · simpa using tbl ⟨b.toNat, b.toNat_lt⟩ 1
  · simpa using tbl ⟨b.toNat, b.toNat_lt⟩ 2

theorem and40 (b : UInt8) : (b &&& 0x40 = 0x40) ↔ b.toNat / 64 % 2 = 1 := by
  have tbl : ∀ i : Fin 256, (UInt8.ofNat i.val &&& 0x40 = 0x40) ↔ i.val / 64 % 2 = 1 := by decide +kernel
  simpa using tbl ⟨b.toNat, b.toNat_lt⟩

theorem headerFlags_eq (v : Version) (b : UInt8) : headerFlags v b =
    ⟨decide (b.toNat / 128 % 2 = 1), v != .v2 && decide (b.toNat / 32 % 2 = 1),
      v != .v2 && decide (b.toNat / 16 % 2 = 1), false, none⟩ := by
  have tbl : ∀ i : Fin 256, ((UInt8.ofNat i.val &&& 0x80) == 0x80) = decide (i.val / 128 % 2 = 1) ∧
    ((UInt8.ofNat i.val &&& 0x20) == 0x20) = decide (i.val / 32 % 2 = 1) ∧
    ((UInt8.ofNat i.val &&& 0x10) == 0x10) = decide (i.val / 16 % 2 = 1) := by decide +kernel
  have t := tbl ⟨b.toNat, b.toNat_lt⟩
  simp only [UInt8.ofNat_toNat] at t
  unfold headerFlags
  rw [t.1, t.2.1, t.2.2]

/-- C23: the decoding of a header without extended header.  It is accepted exactly for the
marker `ID3` and versions 2, 3, 4 (whatever the revision); bit 6 of a v2.2 header is refused;
each flag is its own bit of the flag byte; the size is the 28-bit value of four seven-bit
groups; exactly ten bytes are consumed. -/
theorem parseHeader_spec (pre rest : Bytes) (m0 m1 m2 major minor fl s0 s1 s2 s3 : UInt8)
    (hext : fl.toNat / 64 % 2 = 0) (h : Header) (p : Nat) :
    parseHeader (pre ++ [m0, m1, m2, major, minor, fl, s0, s1, s2, s3] ++ rest) pre.length = .ok (h, p) ↔
      [m0, m1, m2] = [0x49, 0x44, 0x33] ∧ major.toNat = h.version.number ∧ p = pre.length + 10 ∧
      h.size = s0.toNat % 128 * 2 ^ 21 + s1.toNat % 128 * 2 ^ 14 + s2.toNat % 128 * 2 ^ 7 + s3.toNat % 128 ∧
      h.extendedSize = 0 ∧
      h.flags = ⟨decide (fl.toNat / 128 % 2 = 1), h.version != .v2 && decide (fl.toNat / 32 % 2 = 1),
        h.version != .v2 && decide (fl.toNat / 16 % 2 = 1), false, none⟩ := by
  have h40 : ¬ (fl &&& 0x40 = 0x40) := by rw [and40]; omega
  have hsize : unsynch (fromBE [s0, s1, s2, s3]) =
      s0.toNat % 128 * 2 ^ 21 + s1.toNat % 128 * 2 ^ 14 + s2.toNat % 128 * 2 ^ 7 + s3.toNat % 128 := by
    have l0 := s0.toNat_lt; have l1 := s1.toNat_lt; have l2 := s2.toNat_lt; have l3 := s3.toNat_lt
    have e : fromBE [s0, s1, s2, s3] = s0.toNat * 2 ^ 24 + s1.toNat * 2 ^ 16 + s2.toNat * 2 ^ 8 + s3.toNat := by
      simp only [fromBE, fromLE, List.reverse_cons, List.reverse_nil, List.nil_append, List.cons_append]
      omega
    rw [unsynch_eq _ (by rw [e]; omega), e]
    omega
  unfold parseHeader
  rw [List.append_assoc, need_append pre _ rest 10 rfl, ok_bind]
  simp only
  unfold decodeHeader
  have hid : ascii "ID3" = [0x49, 0x44, 0x33] := by decide
  simp only [List.take_succ_cons, List.take_zero, hid, List.getD_cons_succ, List.getD_cons_zero,
    List.drop_succ_cons, List.drop_zero, hsize]
  by_cases hm : [m0, m1, m2] = [0x49, 0x44, 0x33]
  · rw [if_neg (by simpa using hm)]
    cases hv : versionOf major with
    | none =>
      constructor
      · intro h; cases h
      · rintro ⟨_, hv', _⟩
        rw [(versionOf_eq major h.version).mpr hv'] at hv
        cases hv
    | some v =>
      have hv' := (versionOf_eq major v).mp hv
      simp only
      rw [if_neg (by intro hc; exact h40 hc.2), if_neg (by intro hc; exact h40 hc.2), ok_bind]
      simp only
      rw [if_neg (by omega), headerFlags_eq]
      constructor
      · intro hh
        cases hh
        exact ⟨hm, hv', by simp⟩
      · rintro ⟨_, h2, h3, h4, h5, h6⟩
        have : v = h.version := by
          have := (versionOf_eq major h.version).mpr h2
          rw [hv] at this
          simpa using this
        subst this
        obtain ⟨v, f, s, e⟩ := h
        simp only at h3 h4 h5 h6
        rw [h3, ← h4, ← h6, h5]
  · rw [if_pos (by simpa using hm)]
    constructor
    · intro h; cases h
    · intro h; exact absurd h.1 hm

/-- C23: a v2.2 header with bit 6 set is refused. -/
theorem parseHeader_v2_bit6 (pre rest : Bytes) (minor fl s0 s1 s2 s3 : UInt8) (hfl : fl.toNat / 64 % 2 = 1) :
    parseHeader (pre ++ [0x49, 0x44, 0x33, 2, minor, fl, s0, s1, s2, s3] ++ rest) pre.length
      = .error (.parse, pre.length + 10) := by
  unfold parseHeader
  rw [List.append_assoc, need_append pre _ rest 10 rfl, ok_bind]
  simp only
  unfold decodeHeader
  have hid : ascii "ID3" = [0x49, 0x44, 0x33] := by decide
  have hv : versionOf 2 = some .v2 := by decide
  simp only [List.take_succ_cons, List.take_zero, hid, List.getD_cons_succ, List.getD_cons_zero, hv]
  rw [if_neg (by simp), if_pos ⟨trivial, (and40 fl).mpr hfl⟩]

theorem v24Byte_40 (fl : Flags) : ¬ (fl.v24Byte &&& 0x40 = 0x40) := by
  obtain ⟨u, e, f, c, r⟩ := fl
  show ¬ (((if u then (0x80 : UInt8) else 0) ||| (if e then 0x20 else 0) ||| (if f then 0x10 else 0)) &&& 0x40 = 0x40)
  revert u e f
  decide

theorem v23Byte_40 (fl : Flags) (h : fl.experimental = false) : ¬ (fl.v23Byte &&& 0x40 = 0x40) := by
  obtain ⟨u, e, f, c, r⟩ := fl
  simp only at h
  subst h
  show ¬ (((if false then (0x40 : UInt8) else 0) ||| (if f then 0x10 else 0)) &&& 0x40 = 0x40)
  revert f
  decide

/-- The flags a reader sees after the writer stored `fl`: v2.3 headers have no
unsynchronisation bit in this writer. -/
def written (fl : Flags) (v23 : Bool) : Flags := { fl with unsynchronisation := !v23 && fl.unsynchronisation }

/-- C23: a tag without CRC and restrictions, written with any padding, parses back with the
same version, flags and a size that covers frames and padding; the header is followed by the
frames.  (For v2.3 the experimental flag must be clear, see `v23_experimental_wrong`.) -/
theorem parseHeader_createTag_partial (fl : Flags) (v23 : Bool) (padding : Option Nat) (body tag rest : Bytes)
    (hcrc : fl.crc = false) (hres : fl.restrictions = none) (hexp : v23 = true → fl.experimental = false)
    (hsize : body.length + padding.getD 0 < 2 ^ 32)
    (h : createTag fl v23 padding body = .ok tag) :
    parseHeader (tag ++ rest) 0 = .ok (⟨if v23 then .v3 else .v4, written fl v23,
        body.length + if fl.footer then 0 else padding.getD 0, 0⟩, 10) ∧
      tag = tag.take 10 ++ body ++ (if fl.footer then ascii "3DI" ++ (tag.drop 3).take 7
        else List.replicate (padding.getD 0) 0) ∧ (tag.take 10).length = 10 := by
  unfold createTag at h
  have hx : extHeader fl = .ok [] := by rw [extHeader, hcrc, hres]; rfl
  rw [hx, ok_bind] at h
  simp only [List.length_nil, Nat.zero_add, List.append_nil] at h
  generalize hpad : (if fl.footer = true then 0 else padding.getD 0) = pad at h
  have hpadle : body.length + pad < 2 ^ 32 := by rw [← hpad]; split <;> omega
  rw [Nat.mod_eq_of_lt hpadle] at h
  cases hs : synch (body.length + pad) with
  | none => rw [hs] at h; cases h
  | some s =>
    rw [hs] at h
    simp only [hcrc, Bool.false_eq_true, if_false, ok_bind] at h
    obtain ⟨hu, hslt⟩ := unsynch_synch _ _ hpadle hs
    let hd : Bytes := ascii "ID3" ++ [if v23 = true then 3 else 4, 0, if v23 = true then fl.v23Byte else fl.v24Byte] ++ beBytes 4 s
    have hhd : hd.length = 10 := by simp only [hd, List.length_append, beBytes_length, List.length_cons, List.length_nil]; decide
    have htag : ∃ t, tag = hd ++ body ++ t ∧ t = (if fl.footer then ascii "3DI" ++ (tag.drop 3).take 7
        else List.replicate (padding.getD 0) 0) := by
      split at h
      · rename_i hf
        simp only [Except.ok.injEq] at h
        refine ⟨_, by rw [← h]; simp only [hd, List.append_assoc]; rfl, ?_⟩
        rw [if_pos hf, ← h]
        have : ∀ x y : Bytes, (hd ++ x ++ y).drop 3 = hd.drop 3 ++ (x ++ y) := by
          intro x y
          rw [List.append_assoc, List.drop_append_of_le_length (by omega)]
        have t7 : ∀ x : Bytes, (hd.drop 3 ++ x).take 7 = hd.drop 3 := by
          intro x
          rw [List.take_append_of_le_length (by simp [hhd]), List.take_of_length_le (by simp [hhd])]
        have e1 : List.take 7 (List.drop 3 (hd ++ body)) = hd.drop 3 := by
          have := this body []
          simp only [List.append_nil] at this
          rw [this, t7]
        have e2 : List.take 7 (List.drop 3 (hd ++ body ++ ascii "3DI" ++ List.take 7 (List.drop 3 (hd ++ body)))) = hd.drop 3 := by
          rw [List.append_assoc (hd ++ body), this, t7]
        show ascii "3DI" ++ List.take 7 (List.drop 3 (hd ++ body))
          = ascii "3DI" ++ List.take 7 (List.drop 3 (hd ++ body ++ ascii "3DI" ++ List.take 7 (List.drop 3 (hd ++ body))))
        rw [e2, e1]
      · rename_i hf
        simp only [Except.ok.injEq] at h
        refine ⟨_, by rw [← h], ?_⟩
        rw [if_neg hf, ← hpad, if_neg hf]
    obtain ⟨t, ht, ht'⟩ := htag
    have htake : tag.take 10 = hd := by rw [ht, List.append_assoc, ← hhd, List.take_left]
    refine ⟨?_, by rw [htake, ← ht', ht], by rw [htake, hhd]⟩
    unfold parseHeader
    have hsplit : tag ++ rest = [] ++ (hd ++ (body ++ t ++ rest)) := by rw [ht]; simp
    have hneed := need_append [] hd (body ++ t ++ rest) 10 hhd
    rw [hsplit]
    rw [List.length_nil] at hneed
    rw [hneed, ok_bind]
    simp only
    unfold decodeHeader
    have h3 : hd.take 3 = ascii "ID3" := rfl
    have h4 : hd.getD 3 0 = if v23 = true then 3 else 4 := rfl
    have h5 : hd.getD 5 0 = if v23 = true then fl.v23Byte else fl.v24Byte := rfl
    have h6 : hd.drop 6 = beBytes 4 s := rfl
    rw [h3, h4, h5, h6, if_neg (by simp), fromBE_beBytes_of_lt (by omega), hu]
    have hv : versionOf (if v23 = true then 3 else 4) = some (if v23 = true then .v3 else .v4) := by
      cases v23 <;> decide
    rw [hv]
    simp only
    have h40 : ¬ ((if v23 = true then fl.v23Byte else fl.v24Byte) &&& 0x40 = 0x40) := by
      cases v23
      · exact v24Byte_40 fl
      · exact v23Byte_40 fl (hexp rfl)
    rw [if_neg (by intro hc; exact h40 hc.2), if_neg (by intro hc; exact h40 hc.2), ok_bind]
    simp only
    rw [if_neg (by omega)]
    have hfl : headerFlags (if v23 = true then .v3 else .v4) (if v23 = true then fl.v23Byte else fl.v24Byte) = written fl v23 := by
      obtain ⟨u, e, f, c, r⟩ := fl
      simp only at hcrc hres
      subst hcrc hres
      cases v23
      · cases u <;> cases e <;> cases f <;> decide
      · have := hexp rfl
        simp only at this
        subst this
        cases u <;> cases f <;> decide
    rw [hfl]

example : createTag ⟨true, true, true, false, none⟩ false (some 1024) (ascii "TIT2") =
    .ok (ascii "ID3" ++ [4, 0, 0xB0, 0, 0, 0, 4] ++ ascii "TIT2" ++ ascii "3DI" ++ [4, 0, 0xB0, 0, 0, 0, 4]) := by
  decide +kernel

/-- C23, a disagreement: a tag with restrictions is written with an extended header that
the header flags do not announce; the reader takes it for frames. -/
theorem ext_header_not_announced :
    (createTag ⟨false, false, false, false, some (Restrictions.fromByte 0)⟩ false none (ascii "TIT2")).toOption.map
      (fun t => parseHeader t 0) = some (.ok (⟨.v4, ⟨false, false, false, false, none⟩, 12, 0⟩, 10)) := by
  decide +kernel

/-- C23, a disagreement: the v2.3 writer stores the experimental flag in the bit that
announces an extended header. -/
theorem v23_experimental_wrong :
    (createTag ⟨false, true, false, false, none⟩ true none (ascii "TIT2" ++ List.replicate 20 0)).toOption.map
      (fun t => (parseHeader t 0).toOption.isSome) = some false := by
  decide +kernel

/-- C23: in an accepted header the extended header is smaller than the tag. -/
theorem parseHeader_ext_size {d : Bytes} {pos p : Nat} {h : Header} (hh : parseHeader d pos = .ok (h, p)) :
    h.extendedSize = 0 ∨ h.extendedSize < h.size := by
  unfold parseHeader at hh
  obtain ⟨x, -, hh⟩ := bind_ok hh
  unfold decodeHeader at hh
  simp only at hh
  split at hh
  · cases hh
  · split at hh
    · cases hh
    · split at hh
      · cases hh
      · obtain ⟨y, -, hh⟩ := bind_ok hh
        split at hh
        · cases hh
        · cases hh
          simp only
          omega

theorem and_bits (b : UInt8) : (b.toNat &&& 0x20 = 0x20 ↔ b.toNat / 32 % 2 = 1) ∧
    (b.toNat &&& 0x10 = 0x10 ↔ b.toNat / 16 % 2 = 1) := by
  have h : ∀ i : Fin 256, (i.val &&& 0x20 = 0x20 ↔ i.val / 32 % 2 = 1) ∧ (i.val &&& 0x10 = 0x10 ↔ i.val / 16 % 2 = 1) := by
    decide +kernel
  exact h ⟨b.toNat, b.toNat_lt⟩

theorem readExtended_spec (pre crc res rest : Bytes) (n fb r0 r1 : UInt8) (flags : Flags) (size : Nat) (h6 : 6 ≤ size)
    (hcrc : crc.length = if fb.toNat / 32 % 2 = 1 then 6 else 0)
    (hres : res = if fb.toNat / 16 % 2 = 1 then [r0, r1] else []) :
    readExtended (pre ++ ([n, fb] ++ (crc ++ (res ++ rest)))) pre.length flags size
      = .ok (⟨flags.unsynchronisation, flags.experimental, flags.footer,
          if fb.toNat / 32 % 2 = 1 then true else flags.crc,
          if fb.toNat / 16 % 2 = 1 then some (Restrictions.fromByte r1) else flags.restrictions⟩,
        pre.length + 2 + crc.length + res.length) := by
  obtain ⟨b1, b2⟩ := and_bits fb
  unfold readExtended
  rw [if_neg (by omega), need_append pre [n, fb] _ 2 rfl, ok_bind]
  simp only
  have hf : fromLE ([n, fb].drop 1) = fb.toNat := by simp [fromLE]
  simp only [hf]
  have e1 : pre ++ ([n, fb] ++ (crc ++ (res ++ rest))) = (pre ++ [n, fb]) ++ (crc ++ (res ++ rest)) := by simp
  have e2 : pre ++ ([n, fb] ++ (crc ++ (res ++ rest))) = (pre ++ [n, fb] ++ crc) ++ (res ++ rest) := by simp
  have hl : pre.length + 2 = (pre ++ [n, fb]).length := by simp
  have hc : ∀ (k : Nat → Except (Err × Nat) (Flags × Nat)),
      ((if fb.toNat &&& 0x20 = 0x20 then do
        let (_, pos) ← need (pre ++ ([n, fb] ++ (crc ++ (res ++ rest)))) (pre.length + 2) 6
        .ok pos
      else .ok (pre.length + 2) : Except (Err × Nat) Nat) >>= k) = k (pre.length + 2 + crc.length) := by
    intro k
    by_cases hb : fb.toNat / 32 % 2 = 1
    · rw [if_pos (b1.mpr hb), e1, hl, need_append _ crc _ 6 (by rw [hcrc, if_pos hb]), ok_bind, ok_bind]
      rw [hcrc, if_pos hb]
    · rw [if_neg (fun h => hb (b1.mp h)), ok_bind, hcrc, if_neg hb, Nat.add_zero]
  rw [hc]
  simp only [b1]
  by_cases hb : fb.toNat / 16 % 2 = 1
  · rw [if_pos hb] at hres
    rw [if_pos (b2.mpr hb), e2]
    have hl2 : pre.length + 2 + crc.length = (pre ++ [n, fb] ++ crc).length := by simp; omega
    rw [hl2, need_append _ res _ 2 (by rw [hres]; rfl), ok_bind, hres]
    simp [fromLE, hb]
  · rw [if_neg hb] at hres
    rw [if_neg (fun h => hb (b2.mp h)), hres]
    simp [hb]

theorem synch_size (s0 s1 s2 s3 : UInt8) : unsynch (fromBE [s0, s1, s2, s3]) =
      s0.toNat % 128 * 2 ^ 21 + s1.toNat % 128 * 2 ^ 14 + s2.toNat % 128 * 2 ^ 7 + s3.toNat % 128 := by
  have l0 := s0.toNat_lt; have l1 := s1.toNat_lt; have l2 := s2.toNat_lt; have l3 := s3.toNat_lt
  have e : fromBE [s0, s1, s2, s3] = s0.toNat * 2 ^ 24 + s1.toNat * 2 ^ 16 + s2.toNat * 2 ^ 8 + s3.toNat := by
    simp only [fromBE, fromLE, List.reverse_cons, List.reverse_nil, List.nil_append, List.cons_append]
    omega
  rw [unsynch_eq _ (by rw [e]; omega), e]
  omega

/-- C23: the decoding of an ID3v2.4 header with an extended header: the CRC bit and the
restrictions are those of the extended flag byte `fb`, whose data fields follow it (six bytes
for the CRC, two for the restrictions), and nothing else is consumed.  An extended header
that does not fit the tag is refused. -/
theorem parseHeader_ext_v24 (pre rest crc res : Bytes) (minor fl n fb r0 r1 : UInt8) (size4 ext4 : Bytes)
    (s0 s1 s2 s3 e0 e1 e2 e3 : UInt8) (size ext : Nat) (hfl : fl.toNat / 64 % 2 = 1)
    (hs4 : size4 = [s0, s1, s2, s3]) (he4 : ext4 = [e0, e1, e2, e3])
    (hsize : size = s0.toNat % 128 * 2 ^ 21 + s1.toNat % 128 * 2 ^ 14 + s2.toNat % 128 * 2 ^ 7 + s3.toNat % 128)
    (hext : ext = e0.toNat % 128 * 2 ^ 21 + e1.toNat % 128 * 2 ^ 14 + e2.toNat % 128 * 2 ^ 7 + e3.toNat % 128)
    (hcrc : crc.length = if fb.toNat / 32 % 2 = 1 then 6 else 0)
    (hres : res = if fb.toNat / 16 % 2 = 1 then [r0, r1] else []) :
    parseHeader (pre ++ (([0x49, 0x44, 0x33, 4, minor, fl] ++ size4) ++ (ext4 ++ ([n, fb] ++ (crc ++ (res ++ rest)))))) pre.length
      = if ext < 6 then .error (.parse, pre.length + 14)
        else if size ≤ ext then .error (.parse, pre.length + 16 + crc.length + res.length)
        else .ok (⟨.v4, ⟨decide (fl.toNat / 128 % 2 = 1), decide (fl.toNat / 32 % 2 = 1), decide (fl.toNat / 16 % 2 = 1),
            decide (fb.toNat / 32 % 2 = 1), if fb.toNat / 16 % 2 = 1 then some (Restrictions.fromByte r1) else none⟩,
            size, ext⟩, pre.length + 16 + crc.length + res.length) := by
  subst hs4 he4
  have h40 : fl &&& 0x40 = 0x40 := (and40 fl).mpr hfl
  have hid : ascii "ID3" = [0x49, 0x44, 0x33] := by decide
  unfold parseHeader
  rw [need_append pre _ _ 10 rfl, ok_bind]
  simp only
  unfold decodeHeader
  have e1' : ([0x49, 0x44, 0x33, 4, minor, fl] ++ [s0, s1, s2, s3] : Bytes).take 3 = ascii "ID3" := by rw [hid]; rfl
  have e2' : ([0x49, 0x44, 0x33, 4, minor, fl] ++ [s0, s1, s2, s3] : Bytes).getD 3 0 = 4 := rfl
  have e3' : ([0x49, 0x44, 0x33, 4, minor, fl] ++ [s0, s1, s2, s3] : Bytes).getD 5 0 = fl := rfl
  have e4' : ([0x49, 0x44, 0x33, 4, minor, fl] ++ [s0, s1, s2, s3] : Bytes).drop 6 = [s0, s1, s2, s3] := rfl
  rw [if_neg (by rw [e1']; simp), e2', show versionOf 4 = some .v4 from rfl]
  simp only
  rw [e3', if_neg (by simp), if_pos ⟨by simp, h40⟩, e4', synch_size, ← hsize]
  unfold readExtHeader
  simp only
  have hl1 : pre.length + 10 = (pre ++ ([0x49, 0x44, 0x33, 4, minor, fl] ++ [s0, s1, s2, s3])).length := by simp
  rw [← List.append_assoc pre, hl1, need_append _ [e0, e1, e2, e3] _ 4 rfl, ok_bind]
  simp only
  rw [synch_size, ← hext]
  by_cases h6 : ext < 6
  · rw [if_pos h6]
    unfold readExtended
    rw [if_pos h6]
    simp
  · rw [if_neg h6]
    have hl2 : (pre ++ ([0x49, 0x44, 0x33, 4, minor, fl] ++ [s0, s1, s2, s3])).length + 4
        = (pre ++ ([0x49, 0x44, 0x33, 4, minor, fl] ++ [s0, s1, s2, s3]) ++ [e0, e1, e2, e3]).length := by simp
    rw [← List.append_assoc (pre ++ _), hl2, readExtended_spec _ crc res rest n fb r0 r1 _ ext (by omega) hcrc hres, ok_bind, ok_bind]
    simp only
    have hp : (pre ++ ([0x49, 0x44, 0x33, 4, minor, fl] ++ [s0, s1, s2, s3]) ++ [e0, e1, e2, e3]).length + 2 + crc.length + res.length
        = pre.length + 16 + crc.length + res.length := by simp
    rw [hp]
    by_cases hle : size ≤ ext
    · rw [if_pos hle, if_pos ⟨by omega, hle⟩]
    · rw [if_neg hle, if_neg (fun h => hle h.2), headerFlags_eq]
      simp

/-- An extended header with restrictions only. -/
example : parseHeader (ascii "ID3" ++ [4, 0, 0x40, 0, 0, 0, 20] ++ [0, 0, 0, 8, 1, 0x10, 1, 0x80] ++ [1, 2]) 0
    = .ok (⟨.v4, ⟨false, false, false, false, some (Restrictions.fromByte 0x80)⟩, 20, 8⟩, 18) := by decide +kernel

end Lofty.Id3v2
