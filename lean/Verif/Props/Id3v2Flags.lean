import Verif.Model.Id3v2Frame
/-!
# C24: frame flags in the two bit layouts

The payloads of grouping, encryption and data length are not part of the flag bits; they are
stored in front of the frame's content.  The bits only say whether they are present.
-/
namespace Lofty.Id3v2

/-- The flags without the payloads of grouping, encryption and data length. -/
def FrameFlags.kinds (f : FrameFlags) : FrameFlags :=
  { f with grouping := f.grouping.map fun _ => 0, encryption := f.encryption.map fun _ => 0,
           dataLength := f.dataLength.map fun _ => 0 }

/-- `x & (1 << k) == 1 << k` asks for bit `k`. -/
theorem and_bit (x : UInt16) (k : Nat) (m : UInt16) (hm : m.toNat = 2 ^ k) :
    (x &&& m == m) = x.toNat.testBit k := by
  have e : (x &&& m == m) = (x.toNat &&& 2 ^ k == 2 ^ k) := by
    rw [Bool.eq_iff_iff, beq_iff_eq, beq_iff_eq, ← UInt16.toNat_inj, UInt16.toNat_and, hm]
  rw [e, Bool.eq_iff_iff, beq_iff_eq]
  constructor
  · intro h
    have := congrArg (·.testBit k) h
    simpa [Nat.testBit_and, Nat.testBit_two_pow] using this
  · intro h
    apply Nat.eq_of_testBit_eq
    intro i
    rw [Nat.testBit_and, Nat.testBit_two_pow]
    by_cases hi : k = i
    · subst hi; simp [h]
    · simp [hi]

/-- Reading ID3v2.4 flags: `%0abc0000 %0h00kmnp`. -/
theorem parseV24_bits (x : UInt16) : FrameFlags.parseV24 x =
    { tagAlter := x.toNat.testBit 14, fileAlter := x.toNat.testBit 13, readOnly := x.toNat.testBit 12,
      grouping := if x.toNat.testBit 6 then some 0 else none, compression := x.toNat.testBit 3,
      encryption := if x.toNat.testBit 2 then some 0 else none, unsync := x.toNat.testBit 1,
      dataLength := if x.toNat.testBit 0 then some 0 else none } := by
  unfold FrameFlags.parseV24 someZero
  rw [and_bit x 14 _ (by decide), and_bit x 13 _ (by decide), and_bit x 12 _ (by decide), and_bit x 6 _ (by decide),
    and_bit x 3 _ (by decide), and_bit x 2 _ (by decide), and_bit x 1 _ (by decide), and_bit x 0 _ (by decide)]

/-- Reading ID3v2.3 flags: `%abc00000 %ijk00000`. -/
theorem parseV23_bits (x : UInt16) : FrameFlags.parseV23 x =
    { tagAlter := x.toNat.testBit 15, fileAlter := x.toNat.testBit 14, readOnly := x.toNat.testBit 13,
      compression := x.toNat.testBit 7, encryption := if x.toNat.testBit 6 then some 0 else none,
      grouping := if x.toNat.testBit 5 then some 0 else none } := by
  unfold FrameFlags.parseV23 someZero
  rw [and_bit x 15 _ (by decide), and_bit x 14 _ (by decide), and_bit x 13 _ (by decide), and_bit x 5 _ (by decide),
    and_bit x 7 _ (by decide), and_bit x 6 _ (by decide)]

/-- ID3v2.4: every combination of flags survives. -/
theorem parseV24_asV24 (f : FrameFlags) : FrameFlags.parseV24 f.asV24 = f.kinds := by
  have all : ∀ a b c g k e u d : Bool, FrameFlags.parseV24
      (bit a 0x4000 ||| bit b 0x2000 ||| bit c 0x1000 ||| bit g 0x0040 ||| bit k 0x0008 ||| bit e 0x0004 ||| bit u 0x0002
        ||| bit d 0x0001) = ⟨a, b, c, someZero g, k, someZero e, u, someZero d⟩ := by decide +kernel
  obtain ⟨a, b, c, g, k, e, u, d⟩ := f
  unfold FrameFlags.asV24
  rw [all]
  cases g <;> cases e <;> cases d <;> simp [FrameFlags.kinds, someZero]

/-- ID3v2.3: every combination of the six flags of that version survives; unsynchronisation and the data length
indicator do not exist there and are dropped. -/
theorem parseV23_asV23 (f : FrameFlags) :
    FrameFlags.parseV23 f.asV23 = { f.kinds with unsync := false, dataLength := none } := by
  have all : ∀ a b c g k e : Bool, FrameFlags.parseV23
      (bit a 0x8000 ||| bit b 0x4000 ||| bit c 0x2000 ||| bit g 0x0020 ||| bit k 0x0080 ||| bit e 0x0040) =
        ⟨a, b, c, someZero g, k, someZero e, false, none⟩ := by decide +kernel
  obtain ⟨a, b, c, g, k, e, u, d⟩ := f
  unfold FrameFlags.asV23
  rw [all]
  cases g <;> cases e <;> simp [FrameFlags.kinds, someZero]

/-- Distinct flags have distinct ID3v2.4 encodings. -/
theorem asV24_inj (f g : FrameFlags) : f.asV24 = g.asV24 ↔ f.kinds = g.kinds := by
  constructor
  · intro h; rw [← parseV24_asV24, ← parseV24_asV24, h]
  · intro h
    have e : ∀ f : FrameFlags, f.asV24 = f.kinds.asV24 := by
      intro f; unfold FrameFlags.asV24 FrameFlags.kinds; simp
    rw [e f, e g, h]

/-- Flags that ID3v2.3 can represent have distinct encodings there. -/
theorem asV23_inj (f g : FrameFlags) (hf : f.unsync = false ∧ f.dataLength = none) (hg : g.unsync = false ∧ g.dataLength = none) :
    f.asV23 = g.asV23 ↔ f.kinds = g.kinds := by
  have k : ∀ f : FrameFlags, f.unsync = false ∧ f.dataLength = none →
      FrameFlags.parseV23 f.asV23 = f.kinds := by
    intro f hf
    rw [parseV23_asV23]
    obtain ⟨a, b, c, g, k, e, u, d⟩ := f
    obtain ⟨rfl, rfl⟩ := hf
    rfl
  constructor
  · intro h; rw [← k f hf, ← k g hg, h]
  · intro h
    have e : ∀ f : FrameFlags, f.asV23 = f.kinds.asV23 := by
      intro f; unfold FrameFlags.asV23 FrameFlags.kinds; simp
    rw [e f, e g, h]

/-- ID3v2.4 defines bits 14, 13, 12, 6, 3, 2, 1, 0; no other bit is ever set. -/
theorem asV24_defined (f : FrameFlags) (k : Nat) (h : f.asV24.toNat.testBit k = true) : k ∈ [14, 13, 12, 6, 3, 2, 1, 0] := by
  have hk : k < 16 := by
    rcases Nat.lt_or_ge k 16 with h1 | h1
    · exact h1
    · have := Nat.testBit_lt_two_pow (x := f.asV24.toNat) (i := k)
        (Nat.lt_of_lt_of_le f.asV24.toNat_lt (Nat.pow_le_pow_right (by decide) h1))
      rw [this] at h; cases h
  have hz : f.asV24.toNat &&& 0x8FB0 = 0 := by
    have all : ∀ a b c g k e u d : Bool,
        (bit a 0x4000 ||| bit b 0x2000 ||| bit c 0x1000 ||| bit g 0x0040 ||| bit k 0x0008 ||| bit e 0x0004 ||| bit u 0x0002
          ||| bit d 0x0001).toNat &&& 0x8FB0 = 0 := by decide +kernel
    exact all _ _ _ _ _ _ _ _
  have ht : (f.asV24.toNat &&& 0x8FB0).testBit k = false := by rw [hz]; simp
  rw [Nat.testBit_and, h, Bool.true_and] at ht
  have all : ∀ k : Fin 16, (0x8FB0 : Nat).testBit k.val = false → k.val ∈ [14, 13, 12, 6, 3, 2, 1, 0] := by decide +kernel
  exact all ⟨k, hk⟩ ht

/-- ID3v2.3 defines bits 15, 14, 13, 7, 6, 5; no other bit is ever set. -/
theorem asV23_defined (f : FrameFlags) (k : Nat) (h : f.asV23.toNat.testBit k = true) : k ∈ [15, 14, 13, 7, 6, 5] := by
  have hk : k < 16 := by
    rcases Nat.lt_or_ge k 16 with h1 | h1
    · exact h1
    · have := Nat.testBit_lt_two_pow (x := f.asV23.toNat) (i := k)
        (Nat.lt_of_lt_of_le f.asV23.toNat_lt (Nat.pow_le_pow_right (by decide) h1))
      rw [this] at h; cases h
  have hz : f.asV23.toNat &&& 0x1F1F = 0 := by
    have all : ∀ a b c g k e : Bool,
        (bit a 0x8000 ||| bit b 0x4000 ||| bit c 0x2000 ||| bit g 0x0020 ||| bit k 0x0080 ||| bit e 0x0040).toNat
          &&& 0x1F1F = 0 := by decide +kernel
    exact all _ _ _ _ _ _
  have ht : (f.asV23.toNat &&& 0x1F1F).testBit k = false := by rw [hz]; simp
  rw [Nat.testBit_and, h, Bool.true_and] at ht
  have all : ∀ k : Fin 16, (0x1F1F : Nat).testBit k.val = false → k.val ∈ [15, 14, 13, 7, 6, 5] := by decide +kernel
  exact all ⟨k, hk⟩ ht

example : (FrameFlags.mk true false true (some 7) false (some 3) true (some 100)).asV24 = 0x5047 := by decide
example : FrameFlags.parseV24 0x5047 = ⟨true, false, true, some 0, false, some 0, true, some 0⟩ := by decide
example : (FrameFlags.mk true false true (some 7) true none false none).asV23 = 0xA0A0 := by decide
example : FrameFlags.parseV23 0xA0A0 = ⟨true, false, true, some 0, true, none, false, none⟩ := by decide

end Lofty.Id3v2
