import Verif.Model.Synchsafe
import Verif.Spec.Synchsafe
import Verif.Lemmas.Synchsafe
import Verif.Lemmas.Bytes
import Verif.Lemmas.Bits
/-! # C01, C02: synchsafe integers and unsynchronised streams -/
namespace Lofty.Synchsafe

/-! ## C01 -/

/-- C01 (8 bit): encoding succeeds exactly below `2^7`. -/
theorem synch8_isSome_iff (n : BitVec 8) : (synch8 n).isSome ↔ n.toNat < 2 ^ 7 := by
  unfold synch8
  have : (0xFF#8 >>> 1).toNat = 2 ^ 7 - 1 := by decide
  split <;> simp_all [BitVec.lt_def] <;> omega

/-- C01 (16 bit): encoding succeeds exactly below `2^14`. -/
theorem synch16_isSome_iff (n : BitVec 16) : (synch16 n).isSome ↔ n.toNat < 2 ^ 14 := by
  unfold synch16
  have : (0xFFFF#16 >>> 2).toNat = 2 ^ 14 - 1 := by decide
  split <;> simp_all [BitVec.lt_def] <;> omega

/-- C01 (32 bit): encoding succeeds exactly below `2^28`. -/
theorem synch32_isSome_iff (n : BitVec 32) : (synch32 n).isSome ↔ n.toNat < 2 ^ 28 := by
  unfold synch32
  have : (0xFFFFFFFF#32 >>> 4).toNat = 2 ^ 28 - 1 := by decide
  split <;> simp_all [BitVec.lt_def] <;> omega

/-- C01 (8 bit): decoding an encoded value gives the value back, and the encoded
byte has its top bit clear. -/
theorem synch8_roundtrip (n s : BitVec 8) (h : synch8 n = some s) :
    unsynch8 s = n ∧ TopBitsClear s := by
  have hn := (synch8_isSome_iff n).mp (by simp [h])
  simp only [synch8, Option.ite_none_left_eq_some, Option.some.injEq] at h
  obtain ⟨_, rfl⟩ := h
  have h7 := getElem_of_toNat_lt hn (i := 7) (by omega) (by omega)
  constructor
  · unfold unsynch8
    ext i hi
    interval_cases i <;> simp [*]
  · intro i hi h8
    interval_cases i <;> simp_all

set_option maxRecDepth 2000 in
/-- C01 (16 bit): decoding an encoded value gives the value back, and both bytes
have their top bit clear. -/
theorem synch16_roundtrip (n s : BitVec 16) (h : synch16 n = some s) :
    unsynch16 s = n ∧ TopBitsClear s := by
  have hn := (synch16_isSome_iff n).mp (by simp [h])
  simp only [synch16, Option.ite_none_left_eq_some, Option.some.injEq] at h
  obtain ⟨_, rfl⟩ := h
  have h14 := getElem_of_toNat_lt hn (i := 14) (by omega) (by omega)
  have h15 := getElem_of_toNat_lt hn (i := 15) (by omega) (by omega)
  constructor
  · unfold unsynch16
    ext i hi
    interval_cases i <;> simp [*]
  · intro i hi h8
    interval_cases i <;> simp_all

set_option maxRecDepth 4000 in
/-- C01 (32 bit): decoding an encoded value gives the value back, and all four
bytes have their top bit clear. -/
theorem synch32_roundtrip (n s : BitVec 32) (h : synch32 n = some s) :
    unsynch32 s = n ∧ TopBitsClear s := by
  have hn := (synch32_isSome_iff n).mp (by simp [h])
  simp only [synch32, Option.ite_none_left_eq_some, Option.some.injEq] at h
  obtain ⟨_, rfl⟩ := h
  have h28 := getElem_of_toNat_lt hn (i := 28) (by omega) (by omega)
  have h29 := getElem_of_toNat_lt hn (i := 29) (by omega) (by omega)
  have h30 := getElem_of_toNat_lt hn (i := 30) (by omega) (by omega)
  have h31 := getElem_of_toNat_lt hn (i := 31) (by omega) (by omega)
  constructor
  · unfold unsynch32
    ext i hi
    interval_cases i <;> simp [*]
  · intro i hi h8
    interval_cases i <;> simp_all

set_option maxRecDepth 4000 in
/-- C01: conversely, every value with clear top bits is the encoding of what it
decodes to (so no synchsafe value on disk is misread or unreachable). -/
theorem unsynch32_synch (s : BitVec 32) (h : TopBitsClear s) : synch32 (unsynch32 s) = some s := by
  have h7 := h 7 (by omega) rfl
  have h15 := h 15 (by omega) rfl
  have h23 := h 23 (by omega) rfl
  have h31 := h 31 (by omega) rfl
  simp only [BitVec.getLsbD_eq_getElem, show (7 : Nat) < 32 by omega, show (15 : Nat) < 32 by omega,
    show (23 : Nat) < 32 by omega, show (31 : Nat) < 32 by omega] at h7 h15 h23 h31
  have hlt : (unsynch32 s).toNat < 2 ^ 28 := by
    have : (unsynch32 s) = (unsynch32 s) &&& 0x0FFFFFFF#32 := by
      unfold unsynch32
      ext i hi
      interval_cases i <;> simp [*]
    rw [this, BitVec.toNat_and]
    exact Nat.lt_of_le_of_lt Nat.and_le_right (by decide)
  have hs := (synch32_isSome_iff (unsynch32 s)).mpr hlt
  obtain ⟨t, ht⟩ := Option.isSome_iff_exists.mp hs
  rw [ht]
  congr 1
  simp only [synch32, Option.ite_none_left_eq_some, Option.some.injEq] at ht
  rw [← ht.2]
  unfold unsynch32
  ext i hi
  interval_cases i <;> simp [*]

/-- C01 (widening 8 → 16): never fails, decodes to the value, top bits clear. -/
theorem widen8_roundtrip (n : BitVec 8) :
    unsynch16 (widen8 n) = n.setWidth 16 ∧ TopBitsClear (widen8 n) := by
  constructor
  · unfold unsynch16 widen8
    ext i hi
    interval_cases i <;> simp
  · intro i hi h8
    unfold widen8
    interval_cases i <;> simp_all

set_option maxRecDepth 4000 in
/-- C01 (widening 16 → 32): never fails, decodes to the value, top bits clear. -/
theorem widen16_roundtrip (n : BitVec 16) :
    unsynch32 (widen16 n) = n.setWidth 32 ∧ TopBitsClear (widen16 n) := by
  constructor
  · unfold unsynch32 widen16
    ext i hi
    interval_cases i <;> simp
  · intro i hi h8
    unfold widen16
    interval_cases i <;> simp_all

/-- C01 (widening 32 → 64): the seven-bit groups of the value, in order, become
the low seven bits of the successive bytes; every other bit is zero.  (The code
has no 64-bit decoder to invert it with.) -/
theorem widen32_groups (n : BitVec 32) (i : Nat) (hi : i < 64) :
    (widen32 n).getLsbD i =
      if i % 8 = 7 then false else n.getLsbD (7 * (i / 8) + i % 8) := by
  unfold widen32
  interval_cases i <;> simp

example : ∃ s, synch32 0x0FFFFFFF#32 = some s ∧ s = 0x7F7F7F7F#32 := ⟨_, rfl, by decide⟩
example : synch32 0x10000000#32 = none := by decide
example : TopBitsClear (0x7F017F00#32) := by unfold TopBitsClear; decide

/-! ## C02 -/

/-- C02: however the wrapped reader delivers the data (any split into non-empty
chunks) and however the caller sizes its reads, each read returns exactly the
next bytes of the data with every zero after `0xFF` removed; a short read only
happens at the end of the data. -/
theorem unsync_reads (chunks : List Bytes) (hne : ∀ c ∈ chunks, c ≠ []) (sizes : List Nat) :
    ((Stream.new chunks).reads sizes).1 = pieces (desync chunks.flatten) sizes := by
  rw [reads_spec _ _ (by simpa [Stream.new] using hne)]
  simp [Stream.new, pending]

/-- C02: even when the wrapped reader delivers nothing in between (empty reads before the
end of the data), the bytes handed out so far are always a prefix of the data with every
zero after `0xFF` removed: no stuffing byte is kept and no data byte is lost. -/
theorem unsync_prefix (chunks : List Bytes) (sizes : List Nat) :
    ((Stream.new chunks).reads sizes).1.flatten <+: desync chunks.flatten := by
  refine ⟨_, reads_prefix (Stream.new chunks) sizes |>.trans ?_⟩
  simp [Stream.new, pending]

/-- C02: data unsynchronised by any conforming writer – one that inserts a zero
at least after each `0xFF` that is followed by a zero – is recovered exactly, for
every chunking of the source and every sequence of read sizes. -/
theorem unsync_recovers (needs : Bytes → Bool) (h0 : ∀ r, needs (0 :: r) = true) (d : Bytes)
    (chunks : List Bytes) (hne : ∀ c ∈ chunks, c ≠ [])
    (hc : chunks.flatten = unsyncWith needs d) (sizes : List Nat) :
    ((Stream.new chunks).reads sizes).1 = pieces d sizes := by
  rw [unsync_reads chunks hne, hc, desync_unsyncWith needs d h0]

example : ∀ r, id3Rule (0 :: r) = true := by intro r; rfl
example : [[0xFF], [0, 0x1A, 0xFF], [0x00, 0x15]].flatten = unsyncWith (fun _ => true) [0xFF, 0x1A, 0xFF, 0x15]
    := by decide
example : ((Stream.new [[0xFF], [0, 0x1A, 0xFF], [0x00, 0x15]]).reads [1, 2, 5]).1
    = [[0xFF], [0x1A, 0xFF], [0x15]] := by
  simp [Stream.new, Stream.reads, Stream.read, readLoop]

example : ((Stream.new [[0xFF], [], [0, 0x1A]]).reads [2, 2]).1 = [[0xFF], [0x1A]] := by
  simp [Stream.new, Stream.reads, Stream.read, readLoop]

end Lofty.Synchsafe
