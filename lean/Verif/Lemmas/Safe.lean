import Verif.Model.Opened
/-!
# Results that are neither a panic nor an endless loop
-/
namespace Lofty.Safe

/-- The result is no panic, an endless loop only if `D`, and what it gives is such. -/
structure Fine {α : Type} (D : Prop) (x : Except Err α) (P : α → Prop) : Prop where
  safe : ∀ e, x = .error e → e ≠ .panic ∧ (e = .diverge → D)
  gives : ∀ a, x = .ok a → P a

variable {α β : Type} {D : Prop}

theorem Fine.ok {P : α → Prop} {a : α} (h : P a) : Fine D (.ok a) P := ⟨fun _ h => by (cases h), fun b hb => by cases hb; exact h⟩

/-- An error that is neither. -/
theorem Fine.err {P : α → Prop} {e : Err} (h : e ≠ .panic ∧ e ≠ .diverge := by decide) : Fine D (.error e) P :=
  ⟨fun e' he => by cases he; exact ⟨h.1, fun x => absurd x h.2⟩, fun _ h => by cases h⟩

theorem Fine.bind {P : α → Prop} {Q : β → Prop} {x : Except Err α} {f : α → Except Err β} (h : Fine D x P) (hf : ∀ a, P a → Fine D (f a) Q) :
    Fine D (x >>= f) Q := by
  cases x with
  | error e => exact ⟨fun e' he => by cases he; exact h.safe e rfl, fun _ h => by cases h⟩
  | ok a => exact hf a (h.gives a rfl)

theorem Fine.map {P : α → Prop} {Q : β → Prop} {x : Except Err α} {f : α → β} (h : Fine D x P) (hf : ∀ a, P a → Q (f a)) : Fine D (x.map f) Q := by
  cases x with
  | error e => exact ⟨fun e' he => by cases he; exact h.safe e rfl, fun _ h => by cases h⟩
  | ok a => exact .ok (hf a (h.gives a rfl))

theorem Fine.ite {P : α → Prop} {c : Prop} [Decidable c] {a b : Except Err α} (h1 : c → Fine D a P) (h2 : ¬ c → Fine D b P) :
    Fine D (if c then a else b) P := by
  by_cases hc : c
  · rw [if_pos hc]; exact h1 hc
  · rw [if_neg hc]; exact h2 hc

theorem Fine.imp {P Q : α → Prop} {x : Except Err α} (h : Fine D x P) (hf : ∀ a, P a → Q a) : Fine D x Q := ⟨h.safe, fun a ha => hf a (h.gives a ha)⟩

theorem Fine.any {P : α → Prop} {x : Except Err α} (h : Fine D x P) : Fine D x (fun _ => True) := h.imp fun _ _ => trivial

theorem Fine.weak {E : Prop} {P : α → Prop} {x : Except Err α} (h : Fine D x P) (hd : D → E) : Fine E x P :=
  ⟨fun e he => ⟨(h.safe e he).1, fun x => hd ((h.safe e he).2 x)⟩, h.gives⟩

/-! ## Readers -/

theorem readN_fine (n : Nat) (r : Bytes) : Fine D (readN n r) (fun a => a.1.length = n ∧ a.2.length + n = r.length ∧ a.2 = r.drop n) := by
  unfold readN
  refine .ite (fun h => .ok ?_) fun _ => .err
  simp only [List.length_take, List.length_drop]
  exact ⟨by omega, by omega, trivial⟩

theorem readU8_fine (r : Bytes) : Fine D (readU8 r) (fun a => a.2.length + 1 = r.length) := by
  cases r with
  | nil => exact .err
  | cons b r => exact .ok rfl

theorem fromLE_lt (b : Bytes) : fromLE b < 256 ^ b.length := by
  induction b with
  | nil => decide
  | cons b l ih =>
    have := UInt8.toNat_lt b
    rw [fromLE, List.length_cons, Nat.pow_succ]
    omega

theorem fromBE_lt (b : Bytes) : fromBE b < 256 ^ b.length := by
  have := fromLE_lt b.reverse
  rwa [List.length_reverse] at this

theorem readLE_fine (k : Nat) (r : Bytes) : Fine D (readLE k r) (fun a => a.2.length + k = r.length ∧ a.1 < 256 ^ k) := by
  unfold readLE
  have h := readN_fine (D := D) k r
  revert h
  cases readN k r with
  | error e => intro h; exact ⟨fun e' he => h.safe e' (by cases he; rfl), fun _ h => by cases h⟩
  | ok a =>
    intro h
    have := h.gives a rfl
    refine .ok ⟨this.2.1, ?_⟩
    have h2 := fromLE_lt a.1
    rwa [this.1] at h2

theorem readBE_fine (k : Nat) (r : Bytes) : Fine D (readBE k r) (fun a => a.2.length + k = r.length ∧ a.1 < 256 ^ k) := by
  unfold readBE
  have h := readN_fine (D := D) k r
  revert h
  cases readN k r with
  | error e => intro h; exact ⟨fun e' he => h.safe e' (by cases he; rfl), fun _ h => by cases h⟩
  | ok a =>
    intro h
    have := h.gives a rfl
    refine .ok ⟨this.2.1, ?_⟩
    have h2 := fromBE_lt a.1
    rwa [this.1] at h2

/-! ## Texts -/

section
open Text

theorem utf8Decode_fine (b : Bytes) : Fine D (utf8Decode b) (fun _ => True) := by
  unfold utf8Decode
  cases fromUtf8 b with
  | none => exact .err
  | some t => exact .ok trivial

theorem utf16Bytes_fine (b : Bytes) (be : Bool) : Fine D (utf16DecodeBytes b be) (fun _ => True) := by
  unfold utf16DecodeBytes
  refine .ite (fun _ => .ok trivial) fun _ => ?_
  unfold utf16Decode
  cases fromUtf16 (utf16Chunks be b) with
  | none => exact .err
  | some t => exact .ok trivial

theorem readTerm1_length (d : Bytes) : (readTerm1 d).1.length + (readTerm1 d).2.1 + (readTerm1 d).2.2.length ≤ d.length := by
  induction d with
  | nil => decide
  | cons b d ih =>
    rw [readTerm1]
    revert ih
    obtain ⟨r, t, rest⟩ := readTerm1 d
    intro ih
    by_cases h : b = 0
    · rw [if_pos h]; simp; omega
    · rw [if_neg h]
      simp only [List.length_cons] at ih ⊢
      omega

theorem readTerm2_length : ∀ d : Bytes, (readTerm2 d).1.length + (readTerm2 d).2.1 + (readTerm2 d).2.2.length ≤ d.length
  | [] => by decide
  | [_] => by simp [readTerm2]
  | b1 :: b2 :: d => by
    have ih := readTerm2_length d
    rw [readTerm2]
    revert ih
    obtain ⟨r, t, rest⟩ := readTerm2 d
    intro ih
    by_cases h : b1 = 0 ∧ b2 = 0
    · rw [if_pos h]; simp; omega
    · rw [if_neg h]
      simp only [List.length_cons] at ih ⊢
      omega

theorem readTo_length (e : Encoding) (d : Bytes) :
    (readToTerminator e d).1.length + (readToTerminator e d).2.1 + (readToTerminator e d).2.2.length ≤ d.length := by
  cases e <;> first | exact readTerm1_length d | exact readTerm2_length d

/-- The byte order mark of a decoded text is none or one of the two. -/
def Bom (b : UInt8 × UInt8) : Prop := b = (0, 0) ∨ b = (0xFE, 0xFF) ∨ b = (0xFF, 0xFE)

theorem decodeRaw_fine (e : Encoding) (bom : UInt8 × UInt8) (raw : Bytes) : Fine D (decodeRaw e bom raw) (fun a => Bom a.2) := by
  unfold decodeRaw
  cases e with
  | latin1 => exact .ok (.inl rfl)
  | utf16be => exact (utf16Bytes_fine ..).map fun _ _ => .inl rfl
  | utf8 => exact (utf8Decode_fine ..).map fun _ _ => .inl rfl
  | utf16 =>
    cases raw with
    | nil => exact .err
    | cons b1 raw =>
      cases raw with
      | nil => exact .err
      | cons b2 raw =>
        refine .ite (fun _ => .err) fun _ => .ite (fun h => ?_) fun _ => .ite (fun h => ?_) fun _ => .err
        · exact (utf16Bytes_fine ..).map fun _ _ => .inr (.inl h)
        · exact (utf16Bytes_fine ..).map fun _ _ => .inr (.inr h)

theorem decodeText_fine (e : Encoding) (t : Bool) (bom : UInt8 × UInt8) (d : Bytes) :
    Fine D (decodeText e t bom d) (fun a => a.1.bytesRead + a.2.length ≤ d.length ∧ Bom a.1.bom) := by
  unfold decodeText
  refine .ite (fun _ => ?_) fun _ => .ite (fun _ => .ok ⟨by simp, .inl rfl⟩) fun _ => ?_
  · have h := readTo_length e d
    revert h
    obtain ⟨raw, tl, rest⟩ := readToTerminator e d
    intro h
    dsimp only at h ⊢
    refine .ite (fun _ => .ok ⟨by dsimp only; omega, .inl rfl⟩) fun _ => ?_
    exact (decodeRaw_fine ..).map fun _ hb => ⟨h, hb⟩
  · exact (decodeRaw_fine ..).map fun _ hb => ⟨by simp, hb⟩

theorem terminatedBom_fine (be : Bool) (d : Bytes) : Fine D (utf16DecodeTerminatedMaybeBom be d) (fun a => a.2.length ≤ d.length) := by
  unfold utf16DecodeTerminatedMaybeBom
  have h := readTo_length .utf16 d
  revert h
  obtain ⟨raw, tl, rest⟩ := readToTerminator .utf16 d
  intro h
  dsimp only at h ⊢
  split
  · exact .ite (fun _ => (utf16Bytes_fine ..).map fun _ _ => by dsimp only; omega) fun _ =>
      .ite (fun _ => (utf16Bytes_fine ..).map fun _ _ => by dsimp only; omega) fun _ => (utf16Bytes_fine ..).map fun _ _ => by dsimp only; omega
  · exact (utf16Bytes_fine ..).map fun _ _ => by dsimp only; omega

theorem ofByte_fine (b : UInt8) : Fine D (Encoding.ofByte b) (fun _ => True) := by
  unfold Encoding.ofByte
  exact .ite (fun _ => .ok trivial) fun _ => .ite (fun _ => .ok trivial) fun _ => .ite (fun _ => .ok trivial) fun _ =>
    .ite (fun _ => .ok trivial) fun _ => .err

end

/-! ## Timestamps -/

section
open Timestamp

theorem segLoop_fine (sep : Bool) (m : Mode) : ∀ (b : Bytes) (num : Option Nat) (count : Nat),
    Fine D (segLoop sep m b num count) (fun a => m = .strict → (num.isSome ∨ b ≠ []) → a.1.isSome) := by
  intro b
  induction b with
  | nil => intro num count; exact .ok fun _ h => by simpa using h
  | cons i b ih =>
    intro num count
    unfold segLoop
    refine .ite (fun _ => .ite (fun _ => .err) fun h => (ih ..).imp fun a ha hm => absurd hm h) fun _ => .ite (fun _ => .ite (fun h => ?_) fun _ => .err) fun _ => ?_
    · exact .ok fun hm => absurd hm h.2.2
    · exact (ih ..).imp fun a ha hm _ => ha hm (.inl rfl)

theorem segDigits_fine {size : Nat} (hs : 0 < size) (sep : Bool) (m : Mode) (c : Bytes) : Fine D (segDigits size sep m c) (fun _ => True) := by
  unfold segDigits
  refine .ite (fun _ => .ite (fun _ => .err) fun _ => .ok trivial) fun hl => .bind (segLoop_fine ..) ?_
  rintro ⟨num, count⟩ h
  cases num with
  | some n => exact .ok trivial
  | none =>
    refine .ite (fun hm => ?_) fun _ => .ok trivial
    have : c.take size ≠ [] := by
      intro hc
      have := congrArg List.length hc
      simp only [List.length_take, List.length_nil] at this
      omega
    exact absurd (h hm (.inr this)) Bool.false_ne_true

theorem segment_fine {size : Nat} (hs : 0 < size) (sep : Option Bytes) (m : Mode) (c : Bytes) : Fine D (segment size sep m c) (fun _ => True) := by
  unfold segment
  split
  · exact .ok trivial
  · exact segDigits_fine hs ..
  · split
    · exact .ite (fun _ => .err) fun _ => segDigits_fine hs ..
    · exact .ite (fun _ => .err) fun _ => .ok trivial

theorem segments_fine (m : Mode) : ∀ (l : List (Option Bytes)) (c : Bytes), Fine D (segments m l c) (fun _ => True) := by
  intro l
  induction l with
  | nil => intro c; exact .ok trivial
  | cons s l ih =>
    intro c
    unfold segments
    exact .bind (segment_fine (by decide) ..) fun _ _ => .ite (fun _ => .ok trivial) fun _ => .bind (ih _) fun _ _ => .ok trivial

theorem skipSpace_fine : ∀ (r : Bytes) (c : UInt8), Fine D (skipSpace c r) (fun _ => True) := by
  intro r
  induction r with
  | nil => intro c; unfold skipSpace; exact .ite (fun _ => .err) fun _ => .ok trivial
  | cons d r ih => intro c; unfold skipSpace; exact .ite (fun _ => ih _) fun _ => .ok trivial

/-- Reading a time stamp does not panic. -/
theorem time_fine (m : Mode) (r : Bytes) : Fine D (Timestamp.parse m r) (fun _ => True) := by
  unfold Timestamp.parse
  cases r with
  | nil => exact .ite (fun _ => .err) fun _ => .ok trivial
  | cons c r =>
    refine .bind (P := fun _ => True) ?_ fun _ _ => ?_
    · unfold Timestamp.start
      exact .ite (fun _ => .ok trivial) fun _ => skipSpace_fine ..
    · unfold Timestamp.parseContent
      exact .bind (segment_fine (by decide) ..) fun _ _ => .ite (fun _ => .ite (fun _ => .err) fun _ => .ok trivial) fun _ =>
        .ite (fun _ => .ok trivial) fun _ => .bind (segments_fine ..) fun _ _ => .ok trivial

end

end Lofty.Safe
