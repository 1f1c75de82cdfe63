import Verif.Spec.Mpc
import Verif.Lemmas.NoErr
/-!
# C46: Musepack sizes and packets; C44: durations and bit rates of Musepack streams
-/
namespace Lofty.Mpc
open Spec (size Packet)
open Lofty.Math (divRound)

/-! ## Sizes -/

theorem size_length (k n : Nat) : (size k n).length = k := by
  induction k with
  | zero => rfl
  | succ k ih => simp [size, ih]

theorem size_add (k n d : Nat) : size k (n + d * 128 ^ k) = size k n := by
  induction k generalizing d with
  | zero => rfl
  | succ k ih =>
    have h128 : 0 < 128 ^ k := Nat.pow_pos (by decide)
    have e : n + d * 128 ^ (k + 1) = n + (d * 128) * 128 ^ k := by rw [Nat.pow_succ, Nat.mul_assoc, Nat.mul_comm 128]
    rw [size, size]
    have e2 : (n + d * 128 ^ (k + 1)) / 128 ^ k % 128 = n / 128 ^ k % 128 := by
      rw [e, Nat.add_mul_div_right _ _ h128, Nat.add_mul_mod_self_right]
    rw [e2, e, ih]

theorem and127 (n : Nat) : n &&& 0x7F = n % 128 := Nat.and_two_pow_sub_one_eq_mod n 7

theorem top_bit (b : UInt8) : b.toNat &&& 0x80 = 0 ↔ b.toNat < 128 := by
  have h : ∀ x : Fin 256, x.val &&& 0x80 = 0 ↔ x.val < 128 := by decide +kernel
  exact h ⟨b.toNat, b.toNat_lt⟩

theorem pow_le {c : Nat} (h : c ≤ 9) : 128 ^ c ≤ 2 ^ 63 := by
  calc 128 ^ c ≤ 128 ^ 9 := Nat.pow_le_pow_right (by decide) h
    _ = 2 ^ 63 := by decide

/-- One byte of a size. -/
theorem readSizeFrom_cons {s c : Nat} (b : UInt8) (r : Bytes) (hs : s < 128 ^ c) (hc : c < 9) :
    readSizeFrom s c (b :: r) =
      if b.toNat < 128 then .ok ((s * 128 + b.toNat % 128, c + 1), r)
      else readSizeFrom (s * 128 + b.toNat % 128) (c + 1) r := by
  have hp : 128 ^ c * 128 ≤ 2 ^ 63 := by rw [← Nat.pow_succ]; exact pow_le (by omega)
  have hv : ((s <<< 7) % 2 ^ 64) ||| (b.toNat &&& 0x7F) = s * 128 + b.toNat % 128 := by
    rw [and127, Nat.shiftLeft_eq, Nat.mod_eq_of_lt (by omega), Nat.mul_comm, ← Nat.two_pow_add_eq_or_of_lt (by omega)]
  rw [readSizeFrom, if_neg (by omega), hv]
  simp only [top_bit]

theorem size_lt {s c : Nat} (b : UInt8) (hs : s < 128 ^ c) : s * 128 + b.toNat % 128 < 128 ^ (c + 1) := by
  rw [Nat.pow_succ]
  omega

theorem readSizeFrom_size (r : Bytes) : ∀ (k n s c : Nat), 1 ≤ k → c + k ≤ 9 → s < 128 ^ c → n < 128 ^ k →
    readSizeFrom s c (size k n ++ r) = .ok ((s * 128 ^ k + n, c + k), r) := by
  intro k
  induction k with
  | zero => intro _ _ _ h; omega
  | succ k ih =>
    intro n s c _ hc hs hn
    have h128 : 0 < 128 ^ k := Nat.pow_pos (by decide)
    have hd : n / 128 ^ k < 128 := by
      rw [Nat.div_lt_iff_lt_mul h128, Nat.mul_comm, ← Nat.pow_succ]
      exact hn
    rw [size, List.cons_append, readSizeFrom_cons _ _ hs (by omega), Nat.mod_eq_of_lt hd]
    by_cases hk : k = 0
    · subst hk
      simp only [Nat.pow_zero, Nat.div_one, if_pos, Nat.add_zero] at hd ⊢
      have hb : (UInt8.ofNat n).toNat = n := by simp; omega
      rw [hb, if_pos hd, Nat.mod_eq_of_lt hd]
      rfl
    · have hb : (UInt8.ofNat (n / 128 ^ k + 128)).toNat = n / 128 ^ k + 128 := by simp; omega
      have hmod : (n / 128 ^ k + 128) % 128 = n / 128 ^ k := by
        generalize n / 128 ^ k = d at hd
        omega
      have hge : ¬ (n / 128 ^ k + 128) < 128 := Nat.not_lt.mpr (Nat.le_add_left _ _)
      simp only [if_neg hk]
      rw [hb, if_neg hge, hmod]
      have hs' : s * 128 + n / 128 ^ k < 128 ^ (c + 1) := by rw [Nat.pow_succ]; omega
      have hm : n % 128 ^ k + n / 128 ^ k * 128 ^ k = n := by
        have := Nat.mod_add_div n (128 ^ k)
        rw [Nat.mul_comm] at this
        exact this
      have hsz : size k n = size k (n % 128 ^ k) := by
        have := size_add k (n % 128 ^ k) (n / 128 ^ k)
        rw [hm] at this
        exact this
      rw [hsz, ih _ _ _ (by omega) (by omega) hs' (Nat.mod_lt _ h128)]
      have : (s * 128 + n / 128 ^ k) * 128 ^ k + n % 128 ^ k = s * 128 ^ (k + 1) + n := by
        rw [Nat.add_mul, Nat.pow_succ, Nat.mul_assoc, Nat.mul_comm 128]
        omega
      rw [this, show c + 1 + k = c + (k + 1) by omega]

/-- **A stored size is read back**, for every value below 2^63 in every width from one to nine bytes that holds it. -/
theorem readSize_size {k n : Nat} (h1 : 1 ≤ k) (h9 : k ≤ 9) (hn : n < 128 ^ k) (r : Bytes) :
    readSize (size k n ++ r) = .ok ((n, k), r) := by
  unfold readSize
  rw [readSizeFrom_size r k n 0 0 h1 (by omega) (by simp) hn]
  simp

example : readSize (size 2 300 ++ [1, 2]) = .ok ((300, 2), [1, 2]) ∧ size 2 300 = [0x82, 0x2C] := by decide

theorem readSizeFrom_ok (r : Bytes) : ∀ (s c n k : Nat) (r' : Bytes), c ≤ 9 → s < 128 ^ c →
    readSizeFrom s c r = .ok ((n, k), r') →
    ∃ j m, 1 ≤ j ∧ k = c + j ∧ k ≤ 9 ∧ m < 128 ^ j ∧ n = s * 128 ^ j + m ∧ r = size j m ++ r' := by
  induction r with
  | nil => intro s c n k r' _ _ h; cases h
  | cons b r ih =>
    intro s c n k r' hc hs h
    by_cases h9 : c < 9
    · rw [readSizeFrom_cons b r hs h9] at h
      by_cases hb : b.toNat < 128
      · rw [if_pos hb] at h
        simp only [Except.ok.injEq, Prod.mk.injEq] at h
        obtain ⟨⟨rfl, rfl⟩, rfl⟩ := h
        refine ⟨1, b.toNat, by omega, rfl, by omega, by omega, by omega, ?_⟩
        simp only [size, Nat.pow_zero, Nat.div_one, if_pos, Nat.add_zero, List.cons_append, List.nil_append,
          Nat.mod_eq_of_lt hb, UInt8.ofNat_toNat]
      · rw [if_neg hb] at h
        obtain ⟨j, m, hj, hk, hk9, hm, hn, hr⟩ := ih _ _ _ _ _ (by omega) (size_lt b hs) h
        have h128 : 0 < 128 ^ j := Nat.pow_pos (by decide)
        have hlt := b.toNat_lt
        refine ⟨j + 1, m + b.toNat % 128 * 128 ^ j, by omega, by omega, hk9, ?_, ?_, ?_⟩
        · rw [Nat.pow_succ]
          have : b.toNat % 128 * 128 ^ j ≤ 127 * 128 ^ j := Nat.mul_le_mul_right _ (by omega)
          omega
        · rw [hn, Nat.add_mul, Nat.pow_succ, Nat.mul_assoc, Nat.mul_comm 128]
          omega
        · rw [size, size_add, Nat.add_mul_div_right _ _ h128, Nat.div_eq_of_lt hm, if_neg (by omega),
            show (0 + b.toNat % 128) % 128 + 128 = b.toNat by omega, UInt8.ofNat_toNat, hr]
          rfl
    · rw [readSizeFrom, if_pos (by omega)] at h
      cases h

/-- **Only sizes are read**: what was read was a size in one to nine bytes, and exactly those were taken. -/
theorem readSize_ok {r r' : Bytes} {n k : Nat} (h : readSize r = .ok ((n, k), r')) :
    1 ≤ k ∧ k ≤ 9 ∧ n < 128 ^ k ∧ n < 2 ^ 63 ∧ r = size k n ++ r' := by
  obtain ⟨j, m, hj, hk, hk9, hm, hn, hr⟩ := readSizeFrom_ok r 0 0 n k r' (by omega) (by simp) h
  simp only [Nat.zero_mul, Nat.zero_add] at hn hk
  subst hn hk
  exact ⟨hj, hk9, hm, Nat.lt_of_lt_of_le hm (pow_le hk9), hr⟩

theorem readSizeFrom_error (r : Bytes) : ∀ (s c : Nat) (e : Err), c ≤ 9 → s < 128 ^ c →
    readSizeFrom s c r = .error e →
    (e = .eof ∧ r.length + c < 10 ∧ ∀ b ∈ r, 128 ≤ b.toNat) ∨
    (e = .tooMuch ∧ 10 ≤ r.length + c ∧ ∀ b ∈ r.take (9 - c), 128 ≤ b.toNat) := by
  induction r with
  | nil =>
    intro s c e hc _ h
    cases h
    exact .inl ⟨rfl, by simp; omega, by simp⟩
  | cons b r ih =>
    intro s c e hc hs h
    by_cases h9 : c < 9
    · rw [readSizeFrom_cons b r hs h9] at h
      by_cases hb : b.toNat < 128
      · rw [if_pos hb] at h
        cases h
      · rw [if_neg hb] at h
        rcases ih _ _ _ (by omega) (size_lt b hs) h with ⟨h1, h2, h3⟩ | ⟨h1, h2, h3⟩
        · refine .inl ⟨h1, by simp only [List.length_cons]; omega, ?_⟩
          intro x hx
          rcases List.mem_cons.mp hx with rfl | hx
          · omega
          · exact h3 x hx
        · refine .inr ⟨h1, by simp only [List.length_cons]; omega, ?_⟩
          intro x hx
          rw [show 9 - c = (9 - (c + 1)) + 1 by omega, List.take_succ_cons] at hx
          rcases List.mem_cons.mp hx with rfl | hx
          · omega
          · exact h3 x hx
    · rw [readSizeFrom, if_pos (by omega)] at h
      cases h
      refine .inr ⟨rfl, by simp only [List.length_cons]; omega, ?_⟩
      rw [show 9 - c = 0 by omega]
      simp

/-- **Refused sizes**: nine continued bytes with something behind them are refused as too long, and if the bytes end
before the size does, that is the error. -/
theorem readSize_error {r : Bytes} {e : Err} (h : readSize r = .error e) :
    (e = .eof ∧ r.length < 10 ∧ ∀ b ∈ r, 128 ≤ b.toNat) ∨
    (e = .tooMuch ∧ 10 ≤ r.length ∧ ∀ b ∈ r.take 9, 128 ≤ b.toNat) :=
  readSizeFrom_error r 0 0 e (by omega) (by simp) h

example : readSize (List.replicate 9 0x80 ++ [0]) = .error .tooMuch ∧ readSize (List.replicate 8 0x80 ++ [1]) = .ok ((1, 9), []) := by
  decide

/-! ## Packets -/

theorem upper_iff (b : UInt8) : upper b = true ↔ 65 ≤ b.toNat ∧ b.toNat ≤ 90 := by simp [upper]

/-- **The next packet**: the rest of the current one is skipped, and the key and the length of the content are given. -/
theorem next_packet {s : Reader} {p : Packet} (hp : p.Valid) {r : Bytes} (hs : s.rest.drop s.capacity = p.bytes ++ r) :
    s.next = .ok ((p.key, p.payload.length), { rest := p.payload ++ r, capacity := p.payload.length }) := by
  unfold Reader.next
  have hall : p.key.all upper = true := by
    rw [List.all_eq_true]
    intro b hb
    rw [upper_iff]
    exact hp.key.2 b hb
  rw [hs, Packet.bytes, List.append_assoc, List.append_assoc, readN_append _ _ hp.key.1, ok_bind]
  simp only [hall, Bool.true_eq_false, if_false]
  rw [readSize_size hp.width.1 hp.width.2 hp.fits, ok_bind]
  simp only
  rw [Nat.add_sub_cancel_left]

/-- What the packets leave behind: the header, gain and encoder packets must be readable. -/
structure Readable (p : Packet) : Prop where
  header : p.key = ascii "SH" → ∃ h r, StreamHeader.read p.payload = .ok (h, r)
  gain : p.key = ascii "RG" → ∃ h r, ReplayGain.read p.payload = .ok (h, r)
  encoder : p.key = ascii "EI" → ∃ h r, EncoderInfo.read p.payload = .ok (h, r)

/-- The value in a packet, if it can be read. -/
def value (g : Bytes → Except Err (α × Bytes)) (o : Option Bytes) : Option α :=
  match o with
  | none => none
  | some b => match g b with
    | .ok (a, _) => some a
    | .error _ => none

theorem within_ok {s : Reader} {g : Bytes → Except Err (α × Bytes)} {a : α} {b r r' : Bytes}
    (hs : s.rest = b ++ r) (hc : s.capacity = b.length) (hg : g b = .ok (a, r')) :
    ∃ s', s.within g = .ok (a, s') ∧ s'.rest.drop s'.capacity = r := by
  unfold Reader.within
  have hw : s.rest.take s.capacity = b := by rw [hs, hc, List.take_left' rfl]
  simp only [hw, hg, ok_bind]
  refine ⟨_, rfl, ?_⟩
  simp only [hs, hc, List.drop_drop]
  rw [show b.length - r'.length + (b.length - (b.length - r'.length)) = b.length by omega, List.drop_left' rfl]

theorem value_append (g : Bytes → Except Err (α × Bytes)) (key : String) (l : List Packet) (p : Packet) :
    value g (Spec.last key (l ++ [p])) =
      if p.key = ascii key then value g (some p.payload) else value g (Spec.last key l) := by
  unfold Spec.last
  rw [List.filter_append]
  by_cases h : p.key = ascii key
  · rw [if_pos h]
    simp [h]
  · rw [if_neg h]
    simp [h]

theorem value_some {g : Bytes → Except Err (α × Bytes)} {b : Bytes} {a : α} {r : Bytes} (h : g b = .ok (a, r)) :
    value g (some b) = some a := by
  simp [value, h]

/-- What the loop has found after the packets `l`. -/
def foundAfter (l : List Packet) : Found where
  streamHeader := value StreamHeader.read (Spec.last "SH" l)
  replayGain := value ReplayGain.read (Spec.last "RG" l)
  encoderInfo := value EncoderInfo.read (Spec.last "EI" l)
  streamLength := (l.map (·.payload.length)).sum
  streamEnd := false

theorem packet_step {l : List Packet} {p : Packet} (hr : Readable p) (hse : p.key ≠ ascii "SE") {r : Bytes}
    (hl : (l.map (·.payload.length)).sum + p.payload.length < 2 ^ 64) :
    ∃ s, packet p.key p.payload.length { rest := p.payload ++ r, capacity := p.payload.length } (foundAfter l) =
      .ok (foundAfter (l ++ [p]), s) ∧ s.rest.drop s.capacity = r := by
  have hsum : ((l ++ [p]).map (·.payload.length)).sum = (l.map (·.payload.length)).sum + p.payload.length := by simp
  have hdrop : List.drop p.payload.length (p.payload ++ r) = r := List.drop_left' rfl
  have hfa : foundAfter (l ++ [p]) =
      { streamHeader := if p.key = ascii "SH" then value StreamHeader.read (some p.payload) else (foundAfter l).streamHeader
        replayGain := if p.key = ascii "RG" then value ReplayGain.read (some p.payload) else (foundAfter l).replayGain
        encoderInfo := if p.key = ascii "EI" then value EncoderInfo.read (some p.payload) else (foundAfter l).encoderInfo
        streamLength := (foundAfter l).streamLength + p.payload.length
        streamEnd := false } := by
    simp only [foundAfter, value_append, hsum]
  have hlen : (foundAfter l).streamLength = (l.map (·.payload.length)).sum := rfl
  have hend : (foundAfter l).streamEnd = false := rfl
  rw [hfa]
  generalize foundAfter l = acc at *
  unfold packet
  rw [if_neg (by omega)]
  simp only
  by_cases h1 : p.key = ascii "SH"
  · have n2 : ¬ p.key = ascii "RG" := by rw [h1]; decide
    have n3 : ¬ p.key = ascii "EI" := by rw [h1]; decide
    obtain ⟨h, x, hx⟩ := hr.header h1
    rw [if_pos h1, if_pos h1, if_neg n2, if_neg n3]
    obtain ⟨s', hs', hd⟩ := within_ok (s := { rest := p.payload ++ r, capacity := p.payload.length }) rfl rfl hx
    rw [hs', ok_bind, value_some hx]
    exact ⟨s', by simp only [hend], hd⟩
  · rw [if_neg h1, if_neg h1]
    by_cases h2 : p.key = ascii "RG"
    · have n3 : ¬ p.key = ascii "EI" := by rw [h2]; decide
      obtain ⟨h, x, hx⟩ := hr.gain h2
      rw [if_pos h2, if_pos h2, if_neg n3]
      obtain ⟨s', hs', hd⟩ := within_ok (s := { rest := p.payload ++ r, capacity := p.payload.length }) rfl rfl hx
      rw [hs', ok_bind, value_some hx]
      exact ⟨s', by simp only [hend], hd⟩
    · rw [if_neg h2, if_neg h2]
      by_cases h3 : p.key = ascii "EI"
      · obtain ⟨h, x, hx⟩ := hr.encoder h3
        rw [if_pos h3, if_pos h3]
        obtain ⟨s', hs', hd⟩ := within_ok (s := { rest := p.payload ++ r, capacity := p.payload.length }) rfl rfl hx
        rw [hs', ok_bind, value_some hx]
        exact ⟨s', by simp only [hend], hd⟩
      · rw [if_neg h3, if_neg h3, if_neg hse]
        exact ⟨{ rest := p.payload ++ r, capacity := p.payload.length }, by simp only [hend], hdrop⟩

theorem bytes_length (p : Packet) : p.bytes.length = p.key.length + p.width + p.payload.length := by
  simp [Packet.bytes, size_length, Nat.add_assoc]

/-- The loop over all packets up to the end packet. -/
theorem packets_spec {q : Packet} (hq : q.Valid) (hqe : q.key = ascii "SE") (r : Bytes) (l : List Packet) :
    ∀ (l0 : List Packet) (fuel : Nat) (s : Reader), (∀ p ∈ l, p.Valid ∧ Readable p ∧ p.key ≠ ascii "SE") →
    ((l0 ++ l ++ [q]).map (·.payload.length)).sum < 2 ^ 64 →
    s.rest.drop s.capacity = (l.map Packet.bytes).flatten ++ q.bytes ++ r → l.length < fuel →
    packets fuel s (foundAfter l0) = .ok { foundAfter (l0 ++ l) with
      streamLength := ((l0 ++ l ++ [q]).map (·.payload.length)).sum, streamEnd := true } := by
  induction l with
  | nil =>
    intro l0 fuel s _ hsum hs hf
    match fuel, hf with
    | fuel + 1, _ =>
      rw [packets, next_packet hq (r := r) (by simpa using hs)]
      simp only
      have hlen : (foundAfter l0).streamLength + q.payload.length = ((l0 ++ [] ++ [q]).map (fun p : Packet => p.payload.length)).sum := by
        simp [foundAfter]
      unfold packet
      rw [hlen, if_neg (by omega)]
      simp only [hqe]
      rw [if_neg (by decide), if_neg (by decide), if_neg (by decide), if_pos trivial, ok_bind]
      simp
  | cons p l ih =>
    intro l0 fuel s hv hsum hs hf
    match fuel, hf with
    | fuel + 1, hf =>
      obtain ⟨hpv, hpr, hpe⟩ := hv p (List.mem_cons_self ..)
      rw [packets, next_packet hpv (r := (l.map Packet.bytes).flatten ++ q.bytes ++ r) (by simpa using hs)]
      simp only
      obtain ⟨s', hs', hd⟩ := packet_step (l := l0) hpr hpe (r := (l.map Packet.bytes).flatten ++ q.bytes ++ r) (by
        simp only [List.map_append, List.map_cons, List.sum_append, List.sum_cons] at hsum
        omega)
      rw [hs', ok_bind]
      simp only
      rw [if_neg (by simp [foundAfter])]
      have := ih (l0 ++ [p]) fuel s' (fun x hx => hv x (List.mem_cons_of_mem _ hx)) (by simpa using hsum) hd
        (by simp only [List.length_cons] at hf; omega)
      rw [this]
      simp

/-- **Reading a stream of version 8**: the header, gain and encoder values are those of the last such packets before the
end packet, and the length that enters the bit rate is the sum of the contents of all packets.  What comes behind the
end packet does not matter. -/
theorem sv8_read {l : List Packet} {q : Packet} (hl : ∀ p ∈ l, p.Valid ∧ Readable p ∧ p.key ≠ ascii "SE")
    (hq : q.Valid) (hqe : q.key = ascii "SE") (r : Bytes)
    (hsum : ((l ++ [q]).map (·.payload.length)).sum < 2 ^ 64) {h : StreamHeader} {g : ReplayGain}
    (hh : value StreamHeader.read (Spec.last "SH" l) = some h) (hg : value ReplayGain.read (Spec.last "RG" l) = some g)
    (hpos : 0 < ((l ++ [q]).map (·.payload.length)).sum) (mode : Mode) :
    sv8Read ((l.map Packet.bytes).flatten ++ q.bytes ++ r) mode =
      sv8Properties ((l ++ [q]).map (·.payload.length)).sum h g (value EncoderInfo.read (Spec.last "EI" l)) := by
  have hlen : ∀ l : List Packet, (∀ p ∈ l, p.Valid) → l.length ≤ ((l.map Packet.bytes).flatten).length := by
    intro l hv
    induction l with
    | nil => simp
    | cons p l ih =>
      have := (hv p (List.mem_cons_self ..)).key.1
      have hp := bytes_length p
      have := ih (fun x hx => hv x (List.mem_cons_of_mem _ hx))
      simp only [List.map_cons, List.flatten_cons, List.length_append, List.length_cons]
      omega
  unfold sv8Read
  have h0 : ({} : Found) = foundAfter [] := rfl
  rw [h0, packets_spec hq hqe r l [] _ _ hl (by simpa using hsum) (by simp) (by
    have := hlen l (fun p hp => (hl p hp).1)
    simp only [List.length_append]
    omega), ok_bind]
  simp only [List.nil_append, foundAfter, hh, hg]
  rw [if_neg (by simp), if_neg (by simp), if_neg (by omega), if_neg (by simp)]
  rfl

theorem header_byte (a b : Nat) (ha : a < 8) (hb : b < 32) :
    ((UInt8.ofNat (a * 32 + b)).toNat &&& 0xE0) >>> 5 = a ∧ (UInt8.ofNat (a * 32 + b)).toNat &&& 0x1F = b := by
  have h : ∀ a : Fin 8, ∀ b : Fin 32, ((UInt8.ofNat (a.val * 32 + b.val)).toNat &&& 0xE0) >>> 5 = a.val ∧
      (UInt8.ofNat (a.val * 32 + b.val)).toNat &&& 0x1F = b.val := by decide +kernel
  exact h ⟨a, ha⟩ ⟨b, hb⟩

theorem channel_byte (a : Nat) (ms : Bool) (b : Nat) (ha : a < 16) (hb : b < 8) :
    let x := (UInt8.ofNat (a * 16 + (if ms then 8 else 0) + b)).toNat
    x >>> 4 = a ∧ (decide (x &&& 8 = 8)) = ms ∧ x &&& 7 = b := by
  have h : ∀ a : Fin 16, ∀ ms : Bool, ∀ b : Fin 8,
      let x := (UInt8.ofNat (a.val * 16 + (if ms then 8 else 0) + b.val)).toNat
      x >>> 4 = a.val ∧ (decide (x &&& 8 = 8)) = ms ∧ x &&& 7 = b.val := by decide +kernel
  exact h ⟨a, ha⟩ ms ⟨b, hb⟩

/-- **The stream header is read as it is laid out**: check sum, version, two sizes, then three bits for the sampling
rate and five for the bands, then four for the channels, one for mid/side stereo and three for the block size. -/
theorem streamHeader_read {crc count silence k1 k2 freq bands channels block : Nat} {version : UInt8} {ms : Bool}
    (hcrc : crc < 2 ^ 32) (hk1 : 1 ≤ k1 ∧ k1 ≤ 9 ∧ count < 128 ^ k1) (hk2 : 1 ≤ k2 ∧ k2 ≤ 9 ∧ silence < 128 ^ k2)
    (hfreq : freq < 8) (hbands : bands < 32) (hch : channels < 16) (hblock : block < 8) (r : Bytes) :
    StreamHeader.read (beBytes 4 crc ++ version :: (size k1 count ++ (size k2 silence ++
        UInt8.ofNat (freq * 32 + bands) :: UInt8.ofNat (channels * 16 + (if ms then 8 else 0) + block) :: r))) =
      .ok ({ crc, streamVersion := version.toNat, sampleCount := count, beginningSilence := silence,
             sampleRate := [44100, 48000, 37800, 32000].getD freq 0, maxUsedBands := bands + 1, channels := channels + 1,
             msUsed := ms, audioBlockFrames := 4 ^ block }, r) := by
  unfold StreamHeader.read
  obtain ⟨h1, h2⟩ := header_byte freq bands hfreq hbands
  obtain ⟨h3, h4, h5⟩ := channel_byte channels ms block hch hblock
  rw [readBE_append _ (by omega), ok_bind]
  simp only
  rw [readU8_cons, ok_bind]
  simp only
  rw [readSize_size hk1.1 hk1.2.1 hk1.2.2, ok_bind]
  simp only
  rw [readSize_size hk2.1 hk2.2.1 hk2.2.2, ok_bind]
  simp only
  rw [readU8_cons, ok_bind]
  simp only
  rw [h1, h2]
  have htab : ∀ i : Fin 8, frequencyTable[i.val]? = some ([44100, 48000, 37800, 32000].getD i.val 0) := by decide
  have ht := htab ⟨freq, hfreq⟩
  simp only at ht
  rw [ht]
  simp only
  rw [readU8_cons, ok_bind]
  simp only
  rw [h3, h4, h5]

/-- A whole stream: header, gain, one audio packet, end, and something behind it. -/
example :
    let sh : Packet := ⟨ascii "SH", 1, beBytes 4 1 ++ 8 :: (size 3 441000 ++ (size 1 0 ++ [0x1B, 0x1B]))⟩
    let rg : Packet := ⟨ascii "RG", 1, [1, 0, 2, 0, 3, 0, 4, 0, 5]⟩
    let ap : Packet := ⟨ascii "AP", 2, List.replicate 200 7⟩
    let se : Packet := ⟨ascii "SE", 1, []⟩
    (∀ p ∈ [sh, rg, ap, se], p.Valid) ∧
    ∃ p, sv8Read (([sh, rg, ap].map Packet.bytes).flatten ++ se.bytes ++ [1, 2, 3]) .strict = .ok p ∧
      p.duration = 10000 ∧ p.streamHeader.channels = 2 ∧ p.replayGain.albumPeak = 5 := by
  refine ⟨?_, ⟨10000, 0, ⟨1, 8, 441000, 0, 44100, 28, 2, true, 64⟩, ⟨1, 2, 3, 4, 5⟩, none⟩, by decide +kernel, rfl, rfl, rfl⟩
  intro p hp
  simp only [List.mem_cons, List.not_mem_nil, or_false] at hp
  rcases hp with rfl | rfl | rfl | rfl
  · exact ⟨by decide, by decide, by decide⟩
  · exact ⟨by decide, by decide, by decide⟩
  · exact ⟨by decide, by decide, by decide +kernel⟩
  · exact ⟨by decide, by decide, by decide⟩

/-! ## The loop comes to an end -/

theorem readSize_ne {e : Err} (he : e ≠ .eof) (he' : e ≠ .tooMuch) (r : Bytes) : readSize r ≠ .error e := by
  intro h
  rcases readSize_error h with ⟨h1, _⟩ | ⟨h1, _⟩
  · exact he h1
  · exact he' h1

theorem streamHeader_ne {e : Err} (he : e ≠ .eof) (he' : e ≠ .tooMuch) (r : Bytes) : StreamHeader.read r ≠ .error e := by
  unfold StreamHeader.read
  refine bind_ne (readBE_ne he _ _) fun a => bind_ne (readU8_ne he _) fun b => bind_ne (readSize_ne he he' _) fun c =>
    bind_ne (readSize_ne he he' _) fun d => bind_ne (readU8_ne he _) fun x => ?_
  have hlt : (x.1.toNat &&& 0xE0) >>> 5 < 8 := by
    have h : ∀ n : Fin 256, (n.val &&& 0xE0) >>> 5 < 8 := by decide +kernel
    exact h ⟨x.1.toNat, x.1.toNat_lt⟩
  simp only
  cases hf : frequencyTable[(x.1.toNat &&& 0xE0) >>> 5]? with
  | none => rw [List.getElem?_eq_none_iff] at hf; exact absurd hlt (by have : frequencyTable.length = 8 := rfl; omega)
  | some rate =>
    simp only
    exact bind_ne (readU8_ne he _) fun y => by simp

theorem replayGain_ne {e : Err} (he : e ≠ .eof) (r : Bytes) : ReplayGain.read r ≠ .error e := by
  unfold ReplayGain.read
  exact bind_ne (readU8_ne he _) fun _ => bind_ne (readBE_ne he _ _) fun _ => bind_ne (readBE_ne he _ _) fun _ =>
    bind_ne (readBE_ne he _ _) fun _ => bind_ne (readBE_ne he _ _) fun _ => by intro h; cases h

theorem encoderInfo_ne {e : Err} (he : e ≠ .eof) (r : Bytes) : EncoderInfo.read r ≠ .error e := by
  unfold EncoderInfo.read
  exact bind_ne (readU8_ne he _) fun _ => bind_ne (readU8_ne he _) fun _ => bind_ne (readU8_ne he _) fun _ =>
    bind_ne (readU8_ne he _) fun _ => by intro h; cases h

theorem within_ne {α : Type} {s : Reader} {g : Bytes → Except Err (α × Bytes)} {e : Err} (hg : ∀ r, g r ≠ .error e) :
    s.within g ≠ .error e := by
  unfold Reader.within
  exact bind_ne (hg _) fun _ => by simp

/-- What is left of the packet and what comes behind it lies in the same file. -/
theorem within_drop {s s' : Reader} {g : Bytes → Except Err (α × Bytes)} {a : α} (h : s.within g = .ok (a, s')) :
    (s'.rest.drop s'.capacity).length ≤ (s.rest.drop s.capacity).length ∧ s'.rest.length ≤ s.rest.length := by
  unfold Reader.within at h
  simp only at h
  cases hg : g (s.rest.take s.capacity) with
  | error e => rw [hg] at h; cases h
  | ok x =>
    obtain ⟨y, r⟩ := x
    simp only [hg, ok_bind, Except.ok.injEq, Prod.mk.injEq] at h
    obtain ⟨_, rfl⟩ := h
    simp only [List.length_drop, List.length_take]
    omega

theorem next_shorter {s s' : Reader} {x : Bytes × Nat} (h : s.next = .ok (x, s')) :
    s'.rest.length + 3 ≤ (s.rest.drop s.capacity).length := by
  unfold Reader.next at h
  obtain ⟨⟨key, r⟩, h1, h⟩ := bind_ok h
  simp only at h
  split at h
  · cases h
  · obtain ⟨⟨⟨n, k⟩, r'⟩, h2, h⟩ := bind_ok h
    simp only [Except.ok.injEq, Prod.mk.injEq] at h
    obtain ⟨_, rfl⟩ := h
    obtain ⟨hk, _, _, _, hr⟩ := readSize_ok h2
    obtain ⟨hr1, hl⟩ := readN_ok h1
    have hlen : r.length = (size k n ++ r').length := by rw [hr]
    rw [List.length_append, size_length] at hlen
    have hd : (s.rest.drop s.capacity).length = key.length + r.length := by rw [hr1, List.length_append]
    simp only
    omega

theorem packet_shorter {key : Bytes} {n : Nat} {s s' : Reader} {acc acc' : Found}
    (h : packet key n s acc = .ok (acc', s')) : s'.rest.length ≤ s.rest.length := by
  unfold packet at h
  split at h
  · cases h
  · simp only at h
    split at h
    · obtain ⟨⟨x, y⟩, h1, h⟩ := bind_ok h
      simp only [Except.ok.injEq, Prod.mk.injEq] at h
      rw [← h.2]
      exact (within_drop h1).2
    · split at h
      · obtain ⟨⟨x, y⟩, h1, h⟩ := bind_ok h
        simp only [Except.ok.injEq, Prod.mk.injEq] at h
        rw [← h.2]
        exact (within_drop h1).2
      · split at h
        · obtain ⟨⟨x, y⟩, h1, h⟩ := bind_ok h
          simp only [Except.ok.injEq, Prod.mk.injEq] at h
          rw [← h.2]
          exact (within_drop h1).2
        · split at h
          · simp only [Except.ok.injEq, Prod.mk.injEq] at h
            rw [h.2]
            exact Nat.le_refl _
          · simp only [Except.ok.injEq, Prod.mk.injEq] at h
            rw [h.2]
            exact Nat.le_refl _

theorem packet_ne (key : Bytes) (n : Nat) (s : Reader) (acc : Found) : packet key n s acc ≠ .error .diverge := by
  unfold packet
  split
  · intro h; cases h
  · simp only
    split
    · exact bind_ne (within_ne (streamHeader_ne (by decide) (by decide))) fun _ => by intro h; cases h
    · split
      · exact bind_ne (within_ne (replayGain_ne (by decide))) fun _ => by intro h; cases h
      · split
        · exact bind_ne (within_ne (encoderInfo_ne (by decide))) fun _ => by intro h; cases h
        · split
          · intro h; cases h
          · intro h; cases h

theorem packets_ne : ∀ (fuel : Nat) (s : Reader) (acc : Found), s.rest.length < fuel →
    packets fuel s acc ≠ .error .diverge := by
  intro fuel
  induction fuel with
  | zero => intro s acc h; omega
  | succ fuel ih =>
    intro s acc hs
    rw [packets]
    cases hn : s.next with
    | error e => intro h; cases h
    | ok x =>
      obtain ⟨⟨key, n⟩, s1⟩ := x
      have h1 := next_shorter hn
      simp only [List.length_drop] at h1
      simp only
      cases hp : packet key n s1 acc with
      | error e =>
        rw [error_bind]
        have := packet_ne key n s1 acc
        rw [hp] at this
        exact fun h => this (by cases h; rfl)
      | ok y =>
        obtain ⟨acc', s2⟩ := y
        rw [ok_bind]
        simp only
        have h2 := packet_shorter hp
        split
        · intro h; cases h
        · exact ih s2 acc' (by omega)

/-! ## Durations and bit rates -/

/-- **No division by zero and no overflow** for version 8 as long as the stream has fewer than 2^54 samples and the
packets announce fewer than 2^45 bytes; the duration is the number of samples without the silence over the sampling rate,
to the nearest millisecond. -/
theorem sv8Properties_partial {len : Nat} {h : StreamHeader} (g : ReplayGain) (enc : Option EncoderInfo)
    (hlen : len < 2 ^ 45) (hcount : h.sampleCount < 2 ^ 54) (hrate : h.sampleRate ≤ 48000)
    (hs : h.beginningSilence ≤ h.sampleCount) :
    ∃ p, sv8Properties len h g enc = .ok p ∧ p.streamHeader = h ∧ p.replayGain = g ∧ p.encoderInfo = enc ∧
      (0 < h.sampleRate → h.beginningSilence < h.sampleCount →
        p.duration = ((h.sampleCount - h.beginningSilence) * 1000 + h.sampleRate / 2) / h.sampleRate ∧
        p.averageBitrate = len * 8 * h.sampleRate / ((h.sampleCount - h.beginningSilence) * 1000) % 2 ^ 32) := by
  unfold sv8Properties
  rw [if_neg (by omega)]
  by_cases h1 : h.sampleRate = 0
  · rw [if_pos h1]
    exact ⟨_, rfl, rfl, rfl, rfl, by omega⟩
  · rw [if_neg h1]
    by_cases h2 : h.sampleCount = 0
    · rw [if_pos h2]
      exact ⟨_, rfl, rfl, rfl, rfl, by omega⟩
    · rw [if_neg h2]
      simp only
      by_cases h3 : h.sampleCount - h.beginningSilence = 0
      · rw [if_pos h3]
        exact ⟨_, rfl, rfl, rfl, rfl, by omega⟩
      · rw [if_neg h3, if_neg (by omega)]
        unfold divRound
        rw [if_neg h1, if_neg (by omega), ok_bind]
        have hm : len * 8 * h.sampleRate ≤ len * 8 * 48000 := Nat.mul_le_mul_left _ hrate
        rw [if_neg (by omega)]
        exact ⟨_, rfl, rfl, rfl, rfl, fun _ _ => ⟨rfl, rfl⟩⟩

example : ∃ p, sv8Properties 40000 { sampleCount := 441000, sampleRate := 44100 } {} none = .ok p ∧
    p.duration = 10000 ∧ p.averageBitrate = 32 :=
  ⟨⟨10000, 32, { sampleCount := 441000, sampleRate := 44100 }, {}, none⟩, by decide +kernel, rfl, rfl⟩

/-- Every header that is read has a sampling rate from the table. -/
theorem streamHeader_rate {r r' : Bytes} {h : StreamHeader} (hr : StreamHeader.read r = .ok (h, r')) :
    h.sampleRate ∈ [44100, 48000, 37800, 32000, 0] ∧ h.sampleCount < 2 ^ 63 ∧ h.beginningSilence < 2 ^ 63 := by
  unfold StreamHeader.read at hr
  obtain ⟨a, _, hr⟩ := bind_ok hr
  obtain ⟨b, _, hr⟩ := bind_ok hr
  obtain ⟨⟨⟨c, c'⟩, c''⟩, hc, hr⟩ := bind_ok hr
  obtain ⟨⟨⟨d, d'⟩, d''⟩, hd, hr⟩ := bind_ok hr
  obtain ⟨x, _, hr⟩ := bind_ok hr
  have h1 := (readSize_ok hc).2.2.2.1
  have h2 := (readSize_ok hd).2.2.2.1
  cases hf : frequencyTable[(x.1.toNat &&& 0xE0) >>> 5]? with
  | none => simp only [hf] at hr; cases hr
  | some rate =>
    simp only [hf] at hr
    obtain ⟨y, _, hr⟩ := bind_ok hr
    simp only [Except.ok.injEq, Prod.mk.injEq] at hr
    obtain ⟨rfl, _⟩ := hr
    refine ⟨?_, h1, h2⟩
    have hm := List.mem_of_getElem? hf
    have : ∀ r ∈ frequencyTable, r ∈ [44100, 48000, 37800, 32000, 0] := by decide
    exact this rate hm

/-- **Reading ends** for every file, and the only way to fail other than by an error is the overflow of a product, for
a header with at least 2^54 samples or packets that announce at least 2^45 bytes. -/
theorem sv8Read_ends (r : Bytes) (mode : Mode) : sv8Read r mode ≠ .error .diverge := by
  unfold sv8Read
  refine bind_ne (packets_ne _ _ _ (by simp)) fun acc => ?_
  split
  · intro h; cases h
  · split
    · intro h; cases h
    · split
      · intro h; cases h
      · split
        · intro h; cases h
        · unfold sv8Properties
          split
          · intro h; cases h
          · split
            · intro h; cases h
            · split
              · intro h; cases h
              · simp only
                split
                · intro h; cases h
                · split
                  · intro h; cases h
                  · refine bind_ne ?_ fun _ => ?_
                    · unfold divRound
                      split
                      · intro h; cases h
                      · split
                        · intro h; cases h
                        · intro h; cases h
                    · split
                      · intro h; cases h
                      · intro h; cases h

/-- **A header with too many samples** makes the computation overflow: 2^62 samples. -/
theorem many_samples_panic :
    sv8Read (Packet.bytes ⟨ascii "SH", 1, beBytes 4 1 ++ 8 :: (size 9 (2 ^ 62) ++ (size 1 0 ++ [0x1B, 0x1B]))⟩) .relaxed =
      .error .panic := by decide +kernel

/-- **An audio packet that announces too much** makes it overflow as well: 2^60 bytes, though the file ends right
there. -/
theorem long_packet_panic :
    sv8Read (Packet.bytes ⟨ascii "SH", 1, beBytes 4 1 ++ 8 :: (size 3 441000 ++ (size 1 0 ++ [0x1B, 0x1B]))⟩ ++
      ascii "AP" ++ size 9 (2 ^ 60)) .relaxed = .error .panic := by decide +kernel

/-- **Version 7**: exactly one kind of header makes the bit rate divide by zero, a gapless stream of one frame of which
no sample is used. -/
theorem sv7Bitrate_panic {p : Sv7} {len : Nat} (hlen : len < 2 ^ 45) (hfreq : p.sampleFreq ≤ 48000)
    (hcount : p.frameCount < 2 ^ 32) :
    sv7Bitrate p len = .error .panic ↔
      p.sampleFreq ≠ 0 ∧ p.trueGapless = true ∧ p.frameCount = 1 ∧ p.lastFrameLength = 0 := by
  unfold sv7Bitrate
  have hf : frameLength = 1152 := rfl
  have hd : synthDelay = 481 := rfl
  have hm : len * 8 * p.sampleFreq ≤ len * 8 * 48000 := Nat.mul_le_mul_left _ hfreq
  rw [hf, hd]
  by_cases h1 : p.lastFrameLength > 1152
  · rw [if_pos h1]
    constructor
    · intro h; cases h
    · rintro ⟨_, _, _, h⟩; omega
  · rw [if_neg h1]
    by_cases h2 : p.sampleFreq = 0
    · rw [if_pos h2]
      constructor
      · intro h; cases h
      · rintro ⟨h, _⟩; exact absurd h2 h
    · rw [if_neg h2]
      by_cases h3 : p.frameCount = 0
      · rw [if_pos h3]
        constructor
        · intro h; cases h
        · rintro ⟨_, _, h, _⟩; omega
      · rw [if_neg h3]
        cases hg : p.trueGapless with
        | true =>
          simp only [if_true]
          rw [if_neg (by omega), if_neg (by omega)]
          by_cases h4 : (p.frameCount * 1152 - (1152 - p.lastFrameLength)) * 1000 = 0
          · rw [if_pos h4]
            exact ⟨fun _ => ⟨h2, trivial, by omega, by omega⟩, fun _ => rfl⟩
          · rw [if_neg h4]
            constructor
            · intro h; cases h
            · rintro ⟨_, _, h5, h6⟩; exact absurd (by omega) h4
        | false =>
          simp only [Bool.false_eq_true, if_false]
          rw [if_neg (by omega), if_neg (by omega), if_neg (by omega)]
          constructor
          · intro h; cases h
          · rintro ⟨_, h, _⟩; cases h

/-- **A gapless file of one empty frame** panics. -/
theorem sv7_gapless_panic :
    sv7Read ([7] ++ leBytes 4 1 ++ leBytes 4 0 ++ leBytes 4 0 ++ leBytes 4 0 ++ leBytes 4 0x80000000 ++ [0]) 100 =
      .error .panic := by decide +kernel

example : ∃ p, sv7Read ([7] ++ leBytes 4 100 ++ leBytes 4 0x5BA80001 ++ leBytes 4 0 ++ leBytes 4 0 ++
    leBytes 4 0xC8080000 ++ [120]) 50000 = .ok p ∧ p.frameCount = 100 ∧ p.averageBitrate = 153 ∧ p.lastFrameLength = 1152 ∧
    p.midSideStereo = true ∧ p.maxBand = 27 ∧ p.profile = 10 ∧ p.link = 2 :=
  ⟨⟨153, 2, 100, false, true, 27, 10, 2, 44100, 1, 0, 0, 0, 0, true, 1152, true, 120⟩, by decide +kernel,
    rfl, rfl, rfl, rfl, rfl, rfl, rfl⟩

/-- **Versions 4 to 6** never fail in the computation of the duration. -/
theorem sv4Duration_total {p : Sv4} (hc : p.frameCount < 2 ^ 32) (hr : p.sampleRate = 44100) :
    ∃ q, sv4Duration p = .ok q ∧
      q.duration = if p.frameCount = 0 then p.duration else ((p.frameCount * 1152 - 481) * 1000 + 22050) / 44100 := by
  unfold sv4Duration
  have hf : frameLength = 1152 := rfl
  have hd : synthDelay = 481 := rfl
  rw [hf, hd]
  by_cases h : p.frameCount = 0
  · rw [if_pos h]
    exact ⟨p, rfl, by rw [if_pos h]⟩
  · rw [if_neg h, if_neg h]
    simp only
    rw [if_neg (by omega), hr]
    unfold divRound
    rw [if_neg (by decide), if_neg (by omega), ok_bind]
    exact ⟨_, rfl, rfl⟩

end Lofty.Mpc
