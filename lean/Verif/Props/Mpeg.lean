import Verif.Spec.Mpeg
import Verif.Lemmas.Bytes
import Verif.Lemmas.File
import Verif.Props.Math
/-!
# MPEG audio headers (C42), frame searches (C43) and durations (C44)
-/
namespace Lofty.Mpeg
open Spec

/-! ## Headers -/

def Version.all : List Version := [.v1, .v2, .v25]
def Layer.all : List Layer := [.layer1, .layer2, .layer3]
def ChannelMode.all : List ChannelMode := [.stereo, .jointStereo, .dualChannel, .singleChannel]
theorem Version.mem_all (v : Version) : v ∈ Version.all := by cases v <;> decide
theorem Layer.mem_all (l : Layer) : l ∈ Layer.all := by cases l <;> decide
theorem ChannelMode.mem_all (c : ChannelMode) : c ∈ ChannelMode.all := by cases c <;> decide

/-- What the numbers of a header have to be. -/
def numbersSpec (v : Version) (l : Layer) (b s : Nat) (padded : Bool) (cm : ChannelMode) : Option Numbers :=
  if b = 0 ∨ b = 15 ∨ s = 3 then none
  else
    let br := bitrate v l b
    let sr := Spec.sampleRate v s
    some ⟨sr, samples v l * br * 125 / sr + (if padded then (if l = .layer1 then 4 else 1) else 0),
      (if v = .v1 then (if cm = .singleChannel then 17 else 32) else (if cm = .singleChannel then 9 else 17)) + 4,
      samples v l, br⟩

theorem numbers_table : ∀ v ∈ Version.all, ∀ l ∈ Layer.all, ∀ b ∈ List.range 16, ∀ s ∈ List.range 4,
    ∀ p ∈ [true, false], ∀ cm ∈ ChannelMode.all, numbers v l b s p cm = .ok (numbersSpec v l b s p cm) := by
  decide +kernel

theorem numbers_eq (v : Version) (l : Layer) {b s : Nat} (hb : b < 16) (hs : s < 4) (p : Bool) (cm : ChannelMode) :
    numbers v l b s p cm = .ok (numbersSpec v l b s p cm) :=
  numbers_table v v.mem_all l l.mem_all b (List.mem_range.mpr hb) s (List.mem_range.mpr hs) p (by cases p <;> simp) cm cm.mem_all

/-- **Which words are headers**: all but those with a reserved version, a reserved layer, the bit rates "free" and
"forbidden" or the reserved sample rate.  No word makes the decoder fail. -/
theorem read_isSome (data : Nat) : ∃ o, Header.read data = .ok o ∧ (o.isSome = true ↔
    field data 19 2 ≠ 1 ∧ field data 17 2 ≠ 0 ∧ field data 12 4 ≠ 0 ∧ field data 12 4 ≠ 15 ∧ field data 10 2 ≠ 3) := by
  have hv : field data 19 2 < 4 := Nat.mod_lt _ (by decide)
  have hl : field data 17 2 < 4 := Nat.mod_lt _ (by decide)
  have hb : field data 12 4 < 16 := Nat.mod_lt _ (by decide)
  have hs : field data 10 2 < 4 := Nat.mod_lt _ (by decide)
  have e1 : data / 2 ^ 19 % 4 = field data 19 2 := rfl
  have e2 : data / 2 ^ 17 % 4 = field data 17 2 := rfl
  have e3 : data / 2 ^ 12 % 16 = field data 12 4 := rfl
  have e4 : data / 2 ^ 10 % 4 = field data 10 2 := rfl
  unfold Header.read
  simp only [e1, e2, e3, e4]
  generalize field data 19 2 = v at *
  generalize field data 17 2 = l at *
  generalize field data 12 4 = b at *
  generalize field data 10 2 = s at *
  have hv' : v = 0 ∨ v = 1 ∨ v = 2 ∨ v = 3 := by omega
  have hl' : l = 0 ∨ l = 1 ∨ l = 2 ∨ l = 3 := by omega
  have main : ∀ (version : Version) (layer : Layer), ∃ o, (match numbers version layer b s (data / 2 ^ 9 % 2 = 1)
        (channelModeOf (data / 2 ^ 6 % 4)) with
      | .error e => .error e
      | .ok none => .ok none
      | .ok (some n) => .ok (some ⟨n.sampleRate, n.len, n.dataStart, n.samples, n.bitrate, version, layer,
          channelModeOf (data / 2 ^ 6 % 4), modeExtensionOf (channelModeOf (data / 2 ^ 6 % 4)) data,
          data / 2 ^ 3 % 2 = 1, data / 2 ^ 2 % 2 = 1, emphasisOf (data % 4)⟩) : Except Err (Option Header)) = .ok o ∧
      (o.isSome = true ↔ b ≠ 0 ∧ b ≠ 15 ∧ s ≠ 3) := by
    intro version layer
    rw [numbers_eq version layer hb hs]
    unfold numbersSpec
    by_cases h : b = 0 ∨ b = 15 ∨ s = 3
    · rw [if_pos h]
      refine ⟨none, rfl, ?_⟩
      simp; omega
    · rw [if_neg h]
      refine ⟨_, rfl, ?_⟩
      simp; omega
  rcases hv' with rfl | rfl | rfl | rfl
  · rcases hl' with rfl | rfl | rfl | rfl
    · exact ⟨none, rfl, by simp⟩
    all_goals (simp only [versionOf, layerOf]; obtain ⟨o, h1, h2⟩ := main _ _; exact ⟨o, h1, by simp [h2]⟩)
  · exact ⟨none, by simp [versionOf], by simp⟩
  · rcases hl' with rfl | rfl | rfl | rfl
    · exact ⟨none, rfl, by simp⟩
    all_goals (simp only [versionOf, layerOf]; obtain ⟨o, h1, h2⟩ := main _ _; exact ⟨o, h1, by simp [h2]⟩)
  · rcases hl' with rfl | rfl | rfl | rfl
    · exact ⟨none, rfl, by simp⟩
    all_goals (simp only [versionOf, layerOf]; obtain ⟨o, h1, h2⟩ := main _ _; exact ⟨o, h1, by simp [h2]⟩)

/-- The decoder never fails. -/
theorem read_total (data : Nat) : ∃ o, Header.read data = .ok o := by
  obtain ⟨o, h, _⟩ := read_isSome data
  exact ⟨o, h⟩

/-- **What a header says**: each value is determined by its own bits, in the way of the standard. -/
theorem read_fields {data : Nat} {h : Header} (hr : Header.read data = .ok (some h)) :
    versionOf (field data 19 2) = some h.version ∧ layerOf (field data 17 2) = some h.layer ∧
    h.bitrate = bitrate h.version h.layer (field data 12 4) ∧
    h.sampleRate = Spec.sampleRate h.version (field data 10 2) ∧
    h.samples = samples h.version h.layer ∧
    h.channelMode = channelModeOf (field data 6 2) ∧
    h.modeExtension = (if field data 6 2 = 1 then some (field data 4 2) else none) ∧
    (h.copyright = true ↔ field data 3 1 = 1) ∧ (h.original = true ↔ field data 2 1 = 1) ∧
    h.emphasis = emphasisOf (field data 0 2) ∧
    h.dataStart = (match h.version, h.channelMode with
      | .v1, .singleChannel => 21
      | .v1, _ => 36
      | _, .singleChannel => 13
      | _, _ => 21) ∧
    h.len = h.samples * h.bitrate * 125 / h.sampleRate +
      (if field data 9 1 = 1 then (if h.layer = .layer1 then 4 else 1) else 0) := by
  have hb : data / 2 ^ 12 % 16 < 16 := Nat.mod_lt _ (by decide)
  have hs : data / 2 ^ 10 % 4 < 4 := Nat.mod_lt _ (by decide)
  unfold Header.read at hr
  cases hv : versionOf (data / 2 ^ 19 % 4) with
  | none => rw [hv] at hr; cases hr
  | some version =>
  cases hl : layerOf (data / 2 ^ 17 % 4) with
  | none => rw [hv, hl] at hr; cases hr
  | some layer =>
  rw [hv, hl] at hr
  simp only at hr
  rw [numbers_eq version layer hb hs] at hr
  unfold numbersSpec at hr
  by_cases h0 : data / 2 ^ 12 % 16 = 0 ∨ data / 2 ^ 12 % 16 = 15 ∨ data / 2 ^ 10 % 4 = 3
  · rw [if_pos h0] at hr; cases hr
  · rw [if_neg h0] at hr
    simp only [Except.ok.injEq, Option.some.injEq] at hr
    subst hr
    have hm : data / 2 ^ 6 % 4 < 4 := Nat.mod_lt _ (by decide)
    refine ⟨hv, hl, rfl, rfl, rfl, rfl, ?_, ?_, ?_, ?_, ?_, ?_⟩
    · show modeExtensionOf (channelModeOf (data / 2 ^ 6 % 4)) data = if data / 2 ^ 6 % 4 = 1 then some (data / 2 ^ 4 % 4) else none
      generalize data / 2 ^ 6 % 4 = m at hm
      have : m = 0 ∨ m = 1 ∨ m = 2 ∨ m = 3 := by omega
      rcases this with rfl | rfl | rfl | rfl <;> rfl
    · simp [field]
    · simp [field]
    · simp [field]
    · simp only
      generalize channelModeOf (data / 2 ^ 6 % 4) = c
      cases version <;> cases c <;> rfl
    · simp [field]

/-- **Nothing is zero**: a header that is accepted has a bit rate, a sampling rate and a length. -/
theorem read_nonzero {data : Nat} {h : Header} (hr : Header.read data = .ok (some h)) :
    0 < h.bitrate ∧ 8000 ≤ h.sampleRate ∧ h.sampleRate ≤ 48000 ∧ 384 ≤ h.samples ∧ h.samples ≤ 1152 ∧ 8 ≤ h.bitrate ∧
      h.bitrate ≤ 448 ∧ 24 ≤ h.len ∧ h.len < 2 ^ 16 := by
  have hb : data / 2 ^ 12 % 16 < 16 := Nat.mod_lt _ (by decide)
  have hs : data / 2 ^ 10 % 4 < 4 := Nat.mod_lt _ (by decide)
  have htab : ∀ v ∈ Version.all, ∀ l ∈ Layer.all, ∀ b ∈ List.range 16, ∀ s ∈ List.range 4,
    ∀ p ∈ [true, false], ∀ n ∈ (numbersSpec v l b s p .stereo).toList,
      0 < n.bitrate ∧ 8000 ≤ n.sampleRate ∧ n.sampleRate ≤ 48000 ∧ 384 ≤ n.samples ∧ n.samples ≤ 1152 ∧ 8 ≤ n.bitrate ∧
      n.bitrate ≤ 448 ∧ 24 ≤ n.len ∧ n.len < 2 ^ 16 := by decide +kernel
  unfold Header.read at hr
  cases hv : versionOf (data / 2 ^ 19 % 4) with
  | none => rw [hv] at hr; cases hr
  | some version =>
  cases hl : layerOf (data / 2 ^ 17 % 4) with
  | none => rw [hv, hl] at hr; cases hr
  | some layer =>
  rw [hv, hl] at hr
  simp only at hr
  rw [numbers_eq version layer hb hs] at hr
  have ht := htab version version.mem_all layer layer.mem_all _ (List.mem_range.mpr hb) _ (List.mem_range.mpr hs)
    (decide (data / 2 ^ 9 % 2 = 1)) (by cases decide (data / 2 ^ 9 % 2 = 1) <;> simp)
  unfold numbersSpec at hr ht
  by_cases h0 : data / 2 ^ 12 % 16 = 0 ∨ data / 2 ^ 12 % 16 = 15 ∨ data / 2 ^ 10 % 4 = 3
  · rw [if_pos h0] at hr; cases hr
  · rw [if_neg h0] at hr ht
    simp only [Except.ok.injEq, Option.some.injEq] at hr
    subst hr
    have h2 := ht _ (Option.mem_toList.mpr rfl)
    exact h2

/-- **Frame length** in layers II and III: as in the standard. -/
theorem len_standard_partial {data : Nat} {h : Header} (hr : Header.read data = .ok (some h)) (hl : h.layer ≠ .layer1) :
    h.len = frameLength h.version h.layer h.bitrate h.sampleRate (field data 9 1) := by
  obtain ⟨_, _, _, _, hsamp, _, _, _, _, _, _, hlen⟩ := read_fields hr
  rw [hlen, hsamp]
  have hp : field data 9 1 = 0 ∨ field data 9 1 = 1 := by
    have : field data 9 1 < 2 := Nat.mod_lt _ (by decide)
    omega
  have key : ∀ n k r : Nat, n % 8 = 0 → n * k * 125 / r = n / 8 * (1000 * k) / r := by
    intro n k r hn
    have : n * k * 125 = n / 8 * (1000 * k) := by
      have : n = 8 * (n / 8) := by omega
      generalize n / 8 = m at this
      subst this
      have : 8 * m * k * 125 = m * (1000 * k) := by
        rw [Nat.mul_comm 8 m, Nat.mul_assoc m 8 k, Nat.mul_assoc m (8 * k) 125]
        congr 1
        omega
      rw [this]
    rw [this]
  unfold frameLength
  cases hll : h.layer with
  | layer1 => exact absurd hll hl
  | layer2 =>
    simp only
    rw [key _ _ _ (by simp [samples])]
    rcases hp with hp | hp <;> simp [hp]
  | layer3 =>
    simp only
    rw [key _ _ _ (by cases h.version <;> simp [samples])]
    rcases hp with hp | hp <;> simp [hp]

/-- **Layer I** frames are made of four-byte slots; the code does not round down to whole slots.  With 32 kbit/s at
44.1 kHz a frame has 32 bytes, not 34. -/
theorem layer1_length_wrong : ∃ h, Header.read 0xFFFF1000 = .ok (some h) ∧ h.layer = .layer1 ∧ h.bitrate = 32 ∧
    h.sampleRate = 44100 ∧ h.len = 34 ∧ frameLength h.version h.layer h.bitrate h.sampleRate 0 = 32 :=
  ⟨_, rfl, by decide⟩

example : ∃ h, Header.read 0xFFFB9064 = .ok (some h) ∧ h.bitrate = 128 ∧ h.sampleRate = 44100 ∧ h.len = 417
    ∧ h.channelMode = .jointStereo ∧ h.modeExtension = some 2 := ⟨_, rfl, by decide⟩
example : Header.read 0xFFFFFFFF = .ok none := rfl

/-! ## Searches -/

theorem verifySync_iff (a b : UInt8) : verifySync a b = true ↔ a = 0xFF ∧ 0xE0 ≤ b.toNat := by
  have : ∀ b : UInt8, (b >>> 5 = 7) ↔ 0xE0 ≤ b.toNat := by
    intro b
    have h : ∀ n : Fin 256, ((UInt8.ofNat n.val) >>> 5 = 7) ↔ 0xE0 ≤ (UInt8.ofNat n.val).toNat := by decide +kernel
    have := h ⟨b.toNat, b.toNat_lt⟩
    simpa using this
  unfold verifySync
  rw [Bool.and_eq_true, decide_eq_true_eq, decide_eq_true_eq, this]

theorem syncAt_cons (a : UInt8) (f : Bytes) (i : Nat) : SyncAt (a :: f) (i + 1) ↔ SyncAt f i := by
  unfold SyncAt
  simp

theorem syncAt_zero (a b : UInt8) (f : Bytes) : SyncAt (a :: b :: f) 0 ↔ verifySync a b = true := by
  rw [verifySync_iff]
  unfold SyncAt
  simp

theorem searchFrom_spec (r : Bytes) : ∀ (a : UInt8) (i : Nat),
    match searchFrom a r i with
    | some j => i ≤ j ∧ SyncAt (a :: r) (j - i) ∧ ∀ k, k < j - i → ¬ SyncAt (a :: r) k
    | none => ∀ k, ¬ SyncAt (a :: r) k := by
  induction r with
  | nil =>
    intro a i
    simp only [searchFrom]
    rintro k ⟨b, h1, h2, _⟩
    simp at h2
  | cons b r ih =>
    intro a i
    rw [searchFrom]
    by_cases hv : verifySync a b = true
    · rw [if_pos hv]
      refine ⟨Nat.le_refl i, ?_, ?_⟩
      · rw [Nat.sub_self]; exact (syncAt_zero a b r).mpr hv
      · intro k hk; omega
    · rw [if_neg hv]
      have := ih b (i + 1)
      cases hs : searchFrom b r (i + 1) with
      | none =>
        rw [hs] at this
        simp only at this ⊢
        intro k
        cases k with
        | zero => rw [syncAt_zero]; exact hv
        | succ k => rw [syncAt_cons]; exact this k
      | some j =>
        rw [hs] at this
        simp only at this ⊢
        obtain ⟨h1, h2, h3⟩ := this
        refine ⟨by omega, ?_, ?_⟩
        · have : j - i = (j - (i + 1)) + 1 := by omega
          rw [this, syncAt_cons]; exact h2
        · intro k hk
          cases k with
          | zero => rw [syncAt_zero]; exact hv
          | succ k => rw [syncAt_cons]; exact h3 k (by omega)

/-- **Forward search**: the first frame sync. -/
theorem searchSync_some {f : Bytes} {i : Nat} : searchSync f = some i ↔ SyncAt f i ∧ ∀ k, k < i → ¬ SyncAt f k := by
  cases f with
  | nil =>
    constructor
    · intro h; cases h
    · rintro ⟨⟨b, h, _⟩, _⟩; simp at h
  | cons a r =>
    have := searchFrom_spec r a 0
    rw [searchSync]
    cases hs : searchFrom a r 0 with
    | none =>
      rw [hs] at this
      simp only at this
      constructor
      · intro h; cases h
      · rintro ⟨h, _⟩; exact absurd h (this i)
    | some j =>
      rw [hs] at this
      simp only [Nat.sub_zero] at this
      constructor
      · intro h; cases h; exact ⟨this.2.1, this.2.2⟩
      · rintro ⟨h1, h2⟩
        congr 1
        rcases Nat.lt_trichotomy i j with h | h | h
        · exact absurd h1 (this.2.2 i h)
        · exact h.symm
        · exact absurd this.2.1 (h2 j h)

/-- No frame sync, no result. -/
theorem searchSync_none {f : Bytes} : searchSync f = none ↔ ∀ k, ¬ SyncAt f k := by
  constructor
  · intro h k hk
    -- the smallest one would have been found
    have : ∀ n, ∀ m ≤ n, ¬ SyncAt f m := by
      intro n
      induction n with
      | zero =>
        intro m hm hs
        have : m = 0 := by omega
        subst this
        have := searchSync_some.mpr ⟨hs, by intro k hk; omega⟩
        rw [h] at this; cases this
      | succ n ih =>
        intro m hm hs
        by_cases hmn : m ≤ n
        · exact ih m hmn hs
        · have := searchSync_some.mpr ⟨hs, by intro k hk; exact ih k (by omega)⟩
          rw [h] at this; cases this
    exact this k k (Nat.le_refl _) hk
  · intro h
    cases hs : searchSync f with
    | none => rfl
    | some i => exact absurd (searchSync_some.mp hs).1 (h i)

/-- A frame header at position `i` that ends in front of `stop`. -/
def HeaderAt (f : Bytes) (i stop : Nat) (h : Header) : Prop :=
  SyncAt f i ∧ i + 4 ≤ stop ∧ ∃ w, wordAt f i = some w ∧ Header.read w = .ok (some h)

theorem wordAt_bytes {f : Bytes} {i : Nat} {a b c d : UInt8} (h0 : f[i]? = some a) (h1 : f[i + 1]? = some b)
    (h2 : f[i + 2]? = some c) (h3 : f[i + 3]? = some d) : wordAt f i = some (fromBE [a, b, c, d]) := by
  have hlen : i + 3 < f.length := (List.getElem?_eq_some_iff.mp h3).1
  unfold wordAt
  rw [if_pos (by omega)]
  congr 2
  have hd : f.drop i = a :: b :: c :: d :: f.drop (i + 4) := by
    have e0 := List.getElem?_eq_some_iff.mp h0
    have e1 := List.getElem?_eq_some_iff.mp h1
    have e2 := List.getElem?_eq_some_iff.mp h2
    have e3 := List.getElem?_eq_some_iff.mp h3
    rw [List.drop_eq_getElem_cons e0.1, List.drop_eq_getElem_cons e1.1, List.drop_eq_getElem_cons e2.1,
      List.drop_eq_getElem_cons e3.1, e0.2, e1.2, e2.2, e3.2]
  rw [hd]
  rfl

/-- The last header in front of `k`, or none. -/
def LastIn (buf : Bytes) (k : Nat) : Option (Nat × Header) → Prop
  | some (p, h) => p < k ∧ HeaderAt buf p buf.length h ∧ ∀ q h', p < q → q < k → ¬ HeaderAt buf q buf.length h'
  | none => ∀ q h', q < k → ¬ HeaderAt buf q buf.length h'

/-- The loop on a buffer of exactly the size asked for. -/
theorem revLoop_spec (buf : Bytes) (k : Nat) : ∀ (next : UInt8), k ≤ buf.length → (buf[k]?.getD 0 = next) →
    ∃ o, revLoop buf buf.length k next = .ok o ∧ LastIn buf k o := by
  induction k with
  | zero =>
    intro next _ _
    exact ⟨none, rfl, by intro q h' hq; omega⟩
  | succ k ih =>
    intro next hk hnext
    have hkl : k < buf.length := by omega
    obtain ⟨o, ho, hspec⟩ := ih buf[k] (by omega) (by rw [List.getElem?_eq_getElem hkl]; rfl)
    -- without a header at `k` the answer is that for the rest
    have hskip : (∀ h', ¬ HeaderAt buf k buf.length h') → LastIn buf (k + 1) o := by
      intro hno
      cases o with
      | none =>
        intro q h' hq
        by_cases hqk : q = k
        · subst hqk; exact hno h'
        · exact hspec q h' (by omega)
      | some ph =>
        obtain ⟨p, h⟩ := ph
        have hp : p < k := hspec.1
        refine ⟨Nat.lt_succ_of_lt hp, hspec.2.1, ?_⟩
        intro q h' hpq hq
        by_cases hqk : q = k
        · subst hqk; exact hno h'
        · exact hspec.2.2 q h' hpq (by omega)
    rw [revLoop, List.getElem?_eq_getElem hkl]
    simp only
    by_cases hv : verifySync buf[k] next = true
    · rw [if_pos hv, if_neg (by omega)]
      have hstart : buf.length - (buf.length - k) = k := by omega
      rw [hstart]
      by_cases h4 : k + 4 > buf.length
      · rw [if_pos h4]
        refine ⟨o, ho, hskip ?_⟩
        rintro h' ⟨_, h, _⟩
        omega
      · rw [if_neg h4, List.getElem?_eq_getElem (by omega : k + 2 < buf.length),
          List.getElem?_eq_getElem (by omega : k + 3 < buf.length)]
        simp only
        have hk1 : k + 1 < buf.length := by omega
        have hn : next = buf[k + 1] := by rw [List.getElem?_eq_getElem hk1] at hnext; exact hnext.symm
        have hw : wordAt buf k = some (fromBE [buf[k], next, buf[k + 2], buf[k + 3]]) :=
          wordAt_bytes (List.getElem?_eq_getElem hkl) (by rw [hn]; exact List.getElem?_eq_getElem hk1)
            (List.getElem?_eq_getElem _) (List.getElem?_eq_getElem _)
        obtain ⟨r, hr⟩ := read_total (fromBE [buf[k], next, buf[k + 2], buf[k + 3]])
        rw [hr]
        cases r with
        | none =>
          refine ⟨o, ho, hskip ?_⟩
          rintro h' ⟨_, _, w, hw', hh⟩
          rw [hw] at hw'
          cases hw'
          rw [hr] at hh
          cases hh
        | some h =>
          refine ⟨some (k, h), rfl, by omega, ⟨?_, by omega, _, hw, hr⟩, ?_⟩
          · rw [verifySync_iff] at hv
            exact ⟨next, by rw [List.getElem?_eq_getElem hkl, hv.1], by rw [hn]; exact List.getElem?_eq_getElem hk1, hv.2⟩
          · intro q h' h1 h2; omega
    · rw [if_neg hv]
      refine ⟨o, ho, hskip ?_⟩
      rintro h' ⟨⟨b, h1, h2, h3⟩, h4, _⟩
      apply hv
      rw [verifySync_iff]
      rw [List.getElem?_eq_getElem hkl] at h1
      have : next = b := by rw [h2] at hnext; exact hnext.symm
      rw [this]
      exact ⟨Option.some.inj h1, h3⟩

theorem getElem_window (f : Bytes) (start n i : Nat) (h : i < n) : ((f.drop start).take n)[i]? = f[start + i]? := by
  rw [List.getElem?_take_of_lt h, List.getElem?_drop]

theorem headerAt_window {f : Bytes} {start n i : Nat} (hl : start + n ≤ f.length) (hi : i + 4 ≤ n) (h : Header) :
    HeaderAt ((f.drop start).take n) i n h ↔ HeaderAt f (start + i) (start + n) h := by
  have hw : wordAt ((f.drop start).take n) i = wordAt f (start + i) := by
    unfold wordAt
    rw [if_pos (by rw [List.length_take, List.length_drop]; omega), if_pos (by omega)]
    congr 2
    rw [List.drop_take, List.drop_drop, List.take_take]
    congr 1
    omega
  unfold HeaderAt SyncAt
  rw [hw, getElem_window _ _ _ _ (by omega), getElem_window _ _ _ _ (by omega)]
  simp only [Nat.add_assoc]
  constructor
  · rintro ⟨h1, h2, h3⟩; exact ⟨h1, by omega, h3⟩
  · rintro ⟨h1, h2, h3⟩; exact ⟨h1, by omega, h3⟩

/-- **Reverse search**: from a position in the file, the last header that starts and ends in the kilobyte in front of
it; if there is none, the position of the beginning of that kilobyte. -/
theorem revSearch_spec {f : Bytes} {pos : Nat} (hp : pos ≤ f.length) :
    (∃ p h, revSearch f pos = .ok (p, some h) ∧ HeaderAt f p pos h ∧ pos - 1024 ≤ p ∧
      ∀ q h', p < q → ¬ HeaderAt f q pos h') ∨
    (revSearch f pos = .ok (pos - 1024, none) ∧ ∀ q h', pos - 1024 ≤ q → ¬ HeaderAt f q pos h') := by
  have hb : min pos 1024 ≤ pos := Nat.min_le_left _ _
  have hs : pos - min pos 1024 = pos - 1024 := by omega
  have hlen : ((f.drop (pos - min pos 1024)).take (min pos 1024)).length = min pos 1024 := by
    rw [List.length_take, List.length_drop]; omega
  have hspec := revLoop_spec ((f.drop (pos - min pos 1024)).take (min pos 1024)) (min pos 1024) 0 (by omega)
    (by rw [List.getElem?_eq_none (by omega)]; rfl)
  obtain ⟨o, ho, hspec⟩ := hspec
  rw [hlen] at ho
  unfold revSearch
  simp only
  rw [show (revLoop ((f.drop (pos - min pos 1024)).take (min pos 1024)) (min pos 1024)
    ((f.drop (pos - min pos 1024)).take (min pos 1024)).length 0) = .ok o by rw [hlen]; exact ho]
  unfold LastIn at hspec
  simp only [hlen] at hspec
  have hwin : ∀ i h, i + 4 ≤ min pos 1024 → (HeaderAt ((f.drop (pos - min pos 1024)).take (min pos 1024)) i (min pos 1024) h ↔
      HeaderAt f (pos - min pos 1024 + i) pos h) := by
    intro i h hi
    have := headerAt_window (f := f) (start := pos - min pos 1024) (n := min pos 1024) (i := i) (by omega) hi h
    have e : pos - min pos 1024 + min pos 1024 = pos := by omega
    rw [e] at this
    exact this
  cases o with
  | none =>
    right
    refine ⟨by rw [hs], ?_⟩
    intro q h' hq hh
    have h4 := hh.2.1
    have := (hwin (q - (pos - min pos 1024)) h' (by omega)).mpr (by
      have e : pos - min pos 1024 + (q - (pos - min pos 1024)) = q := by omega
      rw [e]; exact hh)
    exact hspec _ h' (show q - (pos - min pos 1024) < min pos 1024 by omega) this
  | some ph =>
    obtain ⟨p, h⟩ := ph
    left
    have hpk := hspec.1
    have h4 := hspec.2.1.2.1
    refine ⟨pos - min pos 1024 + p, h, rfl, (hwin p h h4).mp hspec.2.1, by omega, ?_⟩
    intro q h' hq hh
    have h4' := hh.2.1
    have := (hwin (q - (pos - min pos 1024)) h' (by omega)).mpr (by
      have e : pos - min pos 1024 + (q - (pos - min pos 1024)) = q := by omega
      rw [e]; exact hh)
    exact hspec.2.2 _ h' (show p < q - (pos - min pos 1024) by omega) (by omega) this

/-- Each reverse search ends at an earlier position. -/
theorem revSearch_progress {f : Bytes} {pos : Nat} (hp : pos ≤ f.length) (h0 : 0 < pos) {p : Nat} {o : Option Header}
    (h : revSearch f pos = .ok (p, o)) : p < pos := by
  rcases revSearch_spec hp with ⟨q, x, hq, hat, _⟩ | ⟨hq, _⟩
  · rw [hq] at h
    simp only [Except.ok.injEq, Prod.mk.injEq] at h
    have := hat.2.1
    omega
  · rw [hq] at h
    simp only [Except.ok.injEq, Prod.mk.injEq] at h
    omega

/-- **Repeated reverse search terminates**, and what it finds is a header of the same kind as the first one. -/
theorem lastFrame_spec (f : Bytes) (first : Header) : ∀ (fuel pos last : Nat), pos ≤ f.length → pos < fuel →
    ∃ p o, lastFrame f first fuel pos last = .ok (p, o) ∧ ∀ h, o = some h →
      HeaderAt f p pos h ∧ h.version = first.version ∧ h.layer = first.layer ∧ h.sampleRate = first.sampleRate := by
  have hcmp : ∀ {h : Header}, h.cmp first = true → h.version = first.version ∧ h.layer = first.layer ∧ h.sampleRate = first.sampleRate := by
    intro h hc
    unfold Header.cmp at hc
    simp only [Bool.and_eq_true, decide_eq_true_eq] at hc
    exact ⟨hc.1.1, hc.1.2, hc.2⟩
  intro fuel
  induction fuel with
  | zero => intro pos last _ h; omega
  | succ fuel ih =>
    intro pos last hp hf
    rw [lastFrame]
    by_cases h0 : pos = 0
    · rw [if_pos h0]
      exact ⟨last, none, rfl, by intro h hh; cases hh⟩
    · rw [if_neg h0]
      rcases revSearch_spec hp with ⟨p, h, hr, hat, _⟩ | ⟨hr, _⟩
      · have hlt := hat.2.1
        rw [hr]
        simp only
        by_cases hc : h.cmp first = true
        · rw [if_pos hc]
          exact ⟨p, some h, rfl, by intro h' hh; cases hh; exact ⟨hat, hcmp hc⟩⟩
        · rw [if_neg hc]
          obtain ⟨p', o, h1, h2⟩ := ih p p (by omega) (by omega)
          refine ⟨p', o, h1, ?_⟩
          intro h' hh
          obtain ⟨⟨hs, h4, hw⟩, hc'⟩ := h2 h' hh
          exact ⟨⟨hs, by omega, hw⟩, hc'⟩
      · rw [hr]
        simp only
        obtain ⟨p', o, h1, h2⟩ := ih (pos - 1024) last (by omega) (by omega)
        refine ⟨p', o, h1, ?_⟩
        intro h' hh
        obtain ⟨⟨hs, h4, hw⟩, hc'⟩ := h2 h' hh
        exact ⟨⟨hs, by omega, hw⟩, hc'⟩

/-- If the kilobyte in front of the position contains a header of the right kind behind which there is no header, it is
the one that is found. -/
theorem lastFrame_found {f : Bytes} {first h : Header} {pos p : Nat} (hp : pos ≤ f.length) (hat : HeaderAt f p pos h)
    (hwin : pos - 1024 ≤ p) (hlast : ∀ q h', p < q → ¬ HeaderAt f q pos h') (hc : h.cmp first = true) (last : Nat) :
    lastFrame f first (pos + 1) pos last = .ok (p, some h) := by
  have h4 := hat.2.1
  rw [lastFrame, if_neg (by omega)]
  rcases revSearch_spec hp with ⟨p', h', hr, hat', _, hl'⟩ | ⟨hr, hno⟩
  · have : p' = p := by
      rcases Nat.lt_trichotomy p' p with hx | hx | hx
      · exact absurd hat (hl' p h hx)
      · exact hx
      · exact absurd hat' (hlast p' h' hx)
    subst this
    have : h' = h := by
      obtain ⟨w, hw, hh⟩ := hat.2.2
      obtain ⟨w', hw', hh'⟩ := hat'.2.2
      rw [hw] at hw'
      cases hw'
      rw [hh] at hh'
      cases hh'
      rfl
    subst this
    rw [hr]
    simp only
    rw [if_pos hc]
  · exact absurd hat (hno p h hwin)

/-- **A header across the border** of two searched kilobytes is missed: here the only frame of the file is not found. -/
theorem border_header_missed :
    let f : Bytes := [0, 0, 0xFF, 0xFB, 0x90, 0x64] ++ List.replicate 1022 0
    HeaderAt f 2 f.length ⟨44100, 417, 36, 1152, 128, .v1, .layer3, .jointStereo, some 2, false, true, none⟩ ∧
    lastFrame f ⟨44100, 417, 36, 1152, 128, .v1, .layer3, .jointStereo, some 2, false, true, none⟩ (f.length + 1) f.length f.length
      = .ok (f.length, none) := by
  intro f
  constructor
  · exact ⟨⟨0xFB, rfl, rfl, by decide⟩, by decide +kernel, 0xFFFB9064, by decide +kernel, rfl⟩
  · have hlen : f.length = 1028 := by
      rw [show f = [0, 0, 0xFF, 0xFB, 0x90, 0x64] ++ List.replicate 1022 0 from rfl, List.length_append, List.length_replicate]
      rfl
    have honly : ∀ q stop h, HeaderAt f q stop h → q = 2 := by
      rintro q stop h ⟨⟨b, hb, _⟩, _⟩
      by_cases hq : q < 6
      · have : ∀ q, q < 6 → f[q]? = some 0xFF → q = 2 := by decide +kernel
        exact this q hq hb
      · rw [show f = [0, 0, 0xFF, 0xFB, 0x90, 0x64] ++ List.replicate 1022 0 from rfl,
          List.getElem?_append_right (by simp; omega), List.getElem?_replicate] at hb
        split at hb
        · cases hb
        · cases hb
    rw [hlen]
    generalize (⟨44100, 417, 36, 1152, 128, .v1, .layer3, .jointStereo, some 2, false, true, none⟩ : Header) = first
    have h1 : revSearch f 1028 = .ok (4, none) := by
      rcases revSearch_spec (f := f) (pos := 1028) (by omega) with ⟨p, h, _, hat, hp, _⟩ | ⟨h, _⟩
      · have := honly p _ h hat
        omega
      · exact h
    have h2 : revSearch f 4 = .ok (0, none) := by
      rcases revSearch_spec (f := f) (pos := 4) (by omega) with ⟨p, h, _, hat, hp, _⟩ | ⟨h, _⟩
      · have h3 := honly p _ h hat
        have := hat.2.1
        omega
      · exact h
    rw [lastFrame, if_neg (by decide), h1]
    simp only
    rw [lastFrame, if_neg (by decide), h2]
    simp only
    rw [lastFrame, if_pos rfl]

/-- A frame header at position `p` that is followed, at the distance it announces, by a header of the same kind. -/
def FrameAt (f : Bytes) (p : Nat) (h : Header) : Prop :=
  HeaderAt f p f.length h ∧ ∃ w w', wordAt f p = some w ∧ wordAt f (p + h.len) = some w' ∧
    w &&& headerMask = w' &&& headerMask

theorem readAt_wordAt (f : Bytes) (i : Nat) :
    (∃ b, readAt f i 4 = .ok b ∧ wordAt f i = some (fromBE b) ∧ i + 4 ≤ f.length) ∨
    ((∃ e, readAt f i 4 = .error e ∧ e ≠ .diverge) ∧ wordAt f i = none) := by
  unfold readAt wordAt
  by_cases h : i + 4 ≤ f.length
  · left
    simp [h]
  · right
    simp [h]

theorem syncAt_drop (f : Bytes) (pos k : Nat) : SyncAt (f.drop pos) k ↔ SyncAt f (pos + k) := by
  unfold SyncAt
  simp only [List.getElem?_drop, Nat.add_assoc]

/-- **Finding a frame** terminates and gives a frame. -/
theorem findNext_spec (f : Bytes) : ∀ (fuel pos : Nat), 0 < fuel → f.length < pos + fuel →
    findNext f fuel pos ≠ .error .diverge ∧
    ∀ h p, findNext f fuel pos = .ok (some (h, p)) → pos ≤ p ∧ FrameAt f p h := by
  intro fuel
  induction fuel with
  | zero => intro pos h; omega
  | succ fuel ih =>
    intro pos _ hlt
    rw [findNext]
    cases hs : searchSync (f.drop pos) with
    | none => exact ⟨by simp, by intro h p hh; cases hh⟩
    | some rel =>
      obtain ⟨hsync, _⟩ := searchSync_some.mp hs
      rw [syncAt_drop] at hsync
      simp only
      rcases readAt_wordAt f (pos + rel) with ⟨w, hr, hw, hl⟩ | ⟨⟨e, hr, he⟩, _⟩
      · rw [hr, ok_bind]
        obtain ⟨o, ho⟩ := read_total (fromBE w)
        rw [ho, ok_bind]
        cases o with
        | none =>
          simp only
          obtain ⟨h1, h2⟩ := ih (pos + rel + 4) (by omega) (by omega)
          refine ⟨h1, ?_⟩
          intro h p hh
          obtain ⟨h3, h4⟩ := h2 h p hh
          exact ⟨by omega, h4⟩
        | some h =>
          simp only
          have h24 : 24 ≤ h.len := (read_nonzero ho).2.2.2.2.2.2.2.1
          have hn : pos + rel + 4 + (h.len - 4) = pos + rel + h.len := by omega
          unfold cmpHeader
          simp only [hn]
          rcases readAt_wordAt f (pos + rel + h.len) with ⟨w', hr', hw', hl'⟩ | ⟨⟨e, hr', _⟩, _⟩
          · rw [hr']
            simp only
            by_cases hm : fromBE w &&& headerMask = fromBE w' &&& headerMask
            · rw [if_pos hm]
              refine ⟨by simp, ?_⟩
              intro h' p hh
              simp only [Except.ok.injEq, Option.some.injEq, Prod.mk.injEq] at hh
              obtain ⟨rfl, rfl⟩ := hh
              exact ⟨by omega, ⟨hsync, by omega, _, hw, ho⟩, _, _, hw, hw', hm⟩
            · rw [if_neg hm]
              simp only
              obtain ⟨h1, h2⟩ := ih (pos + rel + h.len) (by omega) (by omega)
              refine ⟨h1, ?_⟩
              intro h p hh
              obtain ⟨h3, h4⟩ := h2 h p hh
              exact ⟨by omega, h4⟩
          · rw [hr']
            exact ⟨by simp, by intro h p hh; cases hh⟩
      · rw [hr, error_bind]
        refine ⟨by simpa using he, ?_⟩
        intro h p hh
        cases hh

/-- **The first frame is found** if no frame sync comes before it. -/
theorem findNext_first {f : Bytes} {pos p : Nat} {h : Header} (hp : pos ≤ p) (hf : FrameAt f p h)
    (hno : ∀ q, pos ≤ q → q < p → ¬ SyncAt f q) (fuel : Nat) : findNext f (fuel + 1) pos = .ok (some (h, p)) := by
  obtain ⟨⟨hsync, _, w0, hw0, hr0⟩, w, w', hw, hw', hm⟩ := hf
  have hs : searchSync (f.drop pos) = some (p - pos) := by
    rw [searchSync_some, syncAt_drop, show pos + (p - pos) = p by omega]
    refine ⟨hsync, ?_⟩
    intro k hk
    rw [syncAt_drop]
    exact hno _ (by omega) (by omega)
  rw [findNext, hs]
  simp only
  rw [show pos + (p - pos) = p by omega]
  rcases readAt_wordAt f p with ⟨b, hr, hwb, _⟩ | ⟨_, hwn⟩
  · rw [hr, ok_bind]
    rw [hw] at hw0
    cases hw0
    rw [hw] at hwb
    cases hwb
    rw [hr0, ok_bind]
    simp only
    have h24 : 24 ≤ h.len := (read_nonzero hr0).2.2.2.2.2.2.2.1
    have hn : p + 4 + (h.len - 4) = p + h.len := by omega
    unfold cmpHeader
    simp only [hn]
    rcases readAt_wordAt f (p + h.len) with ⟨b', hr', hwb', _⟩ | ⟨_, hwn⟩
    · rw [hr']
      rw [hw'] at hwb'
      cases hwb'
      simp only
      rw [if_pos hm]
    · rw [hw'] at hwn; cases hwn
  · rw [hw] at hwn; cases hwn

/-- **A frame behind a stray `FF`** is not found: the search goes on four bytes behind the false sync. -/
theorem hidden_frame :
    let frame : Bytes := [0xFF, 0xFB, 0x14, 0x64] ++ List.replicate 92 0
    (∃ h, FrameAt (0xFF :: frame ++ frame) 1 h) ∧ findNext (0xFF :: frame ++ frame) 300 0 = .ok none ∧
      (∃ h, findNext (frame ++ frame) 300 0 = .ok (some (h, 0))) := by
  refine ⟨⟨⟨48000, 96, 36, 1152, 32, .v1, .layer3, .jointStereo, some 2, false, true, none⟩,
    ⟨⟨0xFB, rfl, rfl, by decide⟩, by decide +kernel, 0xFFFB1464, by decide +kernel, rfl⟩,
      0xFFFB1464, 0xFFFB1464, by decide +kernel, by decide +kernel, rfl⟩,
    by decide +kernel,
    ⟨⟨48000, 96, 36, 1152, 32, .v1, .layer3, .jointStereo, some 2, false, true, none⟩, by decide +kernel⟩⟩

/-! ## Durations -/

/-- **No division by zero** with a variable bit rate: whatever the header of the first frame and the counts in the VBR
header, the duration and the bit rates are computed, as long as the length of the file fits into 61 bits. -/
theorem vbrProperties_total {data : Nat} {first : Header} (hr : Header.read data = .ok (some first)) {v : Vbr}
    (hf : 0 < v.frames) (hf' : v.frames < 2 ^ 32) (hs : v.size < 2 ^ 32) {len : Nat} (hl : len < 2 ^ 61) :
    ∃ p, vbrProperties first v len = .ok p ∧ 0 < p.duration ∧
      p.duration = (first.samples * 1000 * v.frames + first.sampleRate / 2) / first.sampleRate ∧
      p.overall = len * 8 / p.duration % 2 ^ 32 ∧ p.audio = v.size * 8 / p.duration % 2 ^ 32 ∧
      p.sampleRate = first.sampleRate ∧ p.channels = channelsOf first := by
  obtain ⟨_, hsr, hsr', hsm, hsm', _⟩ := read_nonzero hr
  have h1 : first.samples * 1000 ≤ 1152000 := by omega
  have h2 : first.samples * 1000 * v.frames < 1152000 * 2 ^ 32 :=
    Nat.lt_of_le_of_lt (Nat.mul_le_mul_right _ h1) (Nat.mul_lt_mul_of_pos_left hf' (by decide))
  have h3 : 384000 ≤ first.samples * 1000 * v.frames :=
    calc 384000 = 384000 * 1 := rfl
      _ ≤ first.samples * 1000 * v.frames := Nat.mul_le_mul (by omega) hf
  have h4 : 0 < (first.samples * 1000 * v.frames + first.sampleRate / 2) / first.sampleRate :=
    Nat.div_pos (by omega) (by omega)
  have hdiv : Math.divRound 64 (first.samples * 1000 * v.frames) first.sampleRate
      = .ok ((first.samples * 1000 * v.frames + first.sampleRate / 2) / first.sampleRate) := by
    unfold Math.divRound
    rw [if_neg (by omega), if_neg (by omega)]
  generalize hd : (first.samples * 1000 * v.frames + first.sampleRate / 2) / first.sampleRate = d at h4 hdiv
  refine ⟨⟨d, len * 8 / d % 2 ^ 32, v.size * 8 / d % 2 ^ 32, first.sampleRate, channelsOf first⟩, ?_, h4, rfl, rfl, rfl, rfl, rfl⟩
  unfold vbrProperties
  have m1 : mulU64 first.samples 1000 = .ok (first.samples * 1000) := if_pos (by omega)
  have m2 : mulU64 (first.samples * 1000) v.frames = .ok (first.samples * 1000 * v.frames) := if_pos (by omega)
  have m3 : mulU64 len 8 = .ok (len * 8) := if_pos (by omega)
  have m4 : mulU64 v.size 8 = .ok (v.size * 8) := if_pos (by omega)
  rw [m1, ok_bind, m2, ok_bind, hdiv, ok_bind, m3, ok_bind, m4]
  unfold divU
  rw [if_neg (by omega), ok_bind, ok_bind, if_neg (by omega), ok_bind]

/-- **With a constant bit rate** the duration in milliseconds is the number of bits from the first frame to the end of the
last one, divided by the kilobits per second and rounded. -/
theorem cbrProperties_total {data : Nat} {first last : Header} (hr : Header.read data = .ok (some first))
    {firstPos lastPos : Nat} (hp : firstPos ≤ lastPos + last.len) {len : Nat} (hl : lastPos + last.len < 2 ^ 60) (cbr : Bool) :
    ∃ p, cbrProperties first firstPos lastPos last len cbr = .ok p ∧
      p.duration = ((lastPos + last.len - firstPos) * 8 + first.bitrate / 2) / first.bitrate ∧
      p.audio = first.bitrate ∧ p.sampleRate = first.sampleRate ∧ p.channels = channelsOf first := by
  obtain ⟨hb, _, _, _, _, _, hb', _⟩ := read_nonzero hr
  unfold cbrProperties
  simp only
  rw [if_neg (by omega)]
  have m1 : mulU64 (lastPos + last.len - firstPos) 8 = .ok ((lastPos + last.len - firstPos) * 8) := if_pos (by omega)
  have hdiv : Math.divRound 64 ((lastPos + last.len - firstPos) * 8) first.bitrate
      = .ok (((lastPos + last.len - firstPos) * 8 + first.bitrate / 2) / first.bitrate) := by
    unfold Math.divRound
    rw [if_neg (by omega), if_neg (by omega)]
  rw [m1, ok_bind, hdiv, ok_bind]
  exact ⟨_, rfl, rfl, rfl, rfl, rfl⟩

/-- **The properties of every MPEG file are computed**, without division by zero, overflow or endless search. -/
theorem readProperties_total {f : Bytes} {data : Nat} {first : Header} (hr : Header.read data = .ok (some first))
    {firstPos lastPos : Nat} (hp : lastPos ≤ f.length) (hf : f.length < 2 ^ 59) {v : Option Vbr}
    (hv : ∀ x, v = some x → x.frames < 2 ^ 32 ∧ x.size < 2 ^ 32) :
    ∃ p, readProperties f first firstPos lastPos v = .ok p ∧ p.sampleRate = first.sampleRate ∧
      p.channels = channelsOf first := by
  have hrest : ∀ cbr, ∃ p, readProperties.rest f first firstPos lastPos cbr = .ok p ∧
      p.sampleRate = first.sampleRate ∧ p.channels = channelsOf first := by
    intro cbr
    obtain ⟨hb, _⟩ := read_nonzero hr
    unfold readProperties.rest
    rw [if_neg (by omega)]
    obtain ⟨p, o, h1, h2⟩ := lastFrame_spec f first (lastPos + 1) lastPos lastPos hp (by omega)
    rw [h1, ok_bind]
    cases o with
    | none => exact ⟨_, rfl, rfl, rfl⟩
    | some last =>
      simp only
      obtain ⟨⟨_, h4, w, _, hw⟩, _⟩ := h2 last rfl
      have hlen := (read_nonzero hw).2.2.2.2.2.2.2.2
      by_cases hlt : p + last.len < firstPos
      · unfold cbrProperties
        simp only
        rw [if_pos hlt]
        exact ⟨_, rfl, rfl, rfl⟩
      · obtain ⟨q, hq, _, _, h5, h6⟩ := cbrProperties_total (last := last) hr (firstPos := firstPos) (lastPos := p) (by omega)
          (len := f.length) (by omega) cbr
        exact ⟨q, hq, h5, h6⟩
  unfold readProperties
  cases v with
  | none => exact hrest false
  | some v =>
    simp only
    by_cases h : first.sampleRate > 0 ∧ v.frames > 0 ∧ v.size > 0
    · rw [if_pos h]
      obtain ⟨hv1, hv2⟩ := hv v rfl
      obtain ⟨p, hp, _, _, _, _, h5, h6⟩ := vbrProperties_total hr h.2.1 hv1 hv2 (len := f.length) (by omega)
      exact ⟨p, hp, h5, h6⟩
    · rw [if_neg h]
      exact hrest _

/-- The counts in a VBR header are 32-bit numbers. -/
theorem vbr_read_bounds {r : Bytes} {v : Vbr} (h : Vbr.read r = .ok (some v)) : v.frames < 2 ^ 32 ∧ v.size < 2 ^ 32 := by
  have hb : ∀ {r : Bytes} {x : Nat × Bytes}, readBE 4 r = .ok x → x.1 < 2 ^ 32 := by
    intro r x hx
    obtain ⟨a, _, ha, hx⟩ := readBE_ok (n := x.1) (r' := x.2) hx
    rw [hx]
    have := fromBE_lt a
    rw [ha] at this
    exact this
  unfold Vbr.read at h
  obtain ⟨⟨hd, r1⟩, h1, h⟩ := bind_ok h
  simp only at h
  split at h
  · split at h
    · cases h
    · obtain ⟨⟨fl, r2⟩, h2, h⟩ := bind_ok h
      simp only at h
      split at h
      · cases h
      · split at h
        · cases h
        · obtain ⟨x, h3, h⟩ := bind_ok h
          obtain ⟨y, h4, h⟩ := bind_ok h
          cases h
          exact ⟨hb h3, hb h4⟩
  · split at h
    · split at h
      · cases h
      · obtain ⟨_, _, h⟩ := bind_ok h
        obtain ⟨x, h3, h⟩ := bind_ok h
        obtain ⟨y, h4, h⟩ := bind_ok h
        cases h
        exact ⟨hb h4, hb h3⟩
    · cases h

/-- A layer III stream of 1000 frames of 1152 samples at 44.1 kHz. -/
example : ∃ p, vbrProperties ⟨44100, 417, 36, 1152, 128, .v1, .layer3, .jointStereo, some 2, false, true, none⟩
    ⟨.xing, 1000, 417000⟩ 417500 = .ok p ∧ p.duration = 26122 ∧ p.audio = 127 := ⟨_, rfl, by decide⟩

end Lofty.Mpeg
