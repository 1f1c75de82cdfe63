import Verif.Lemmas.SafeFiles
import Verif.Props.IlstTotal
/-!
# Reading MP4 files neither panics nor loops
-/
namespace Lofty.Safe
open Lofty.Mp4 Lofty.Ilst Lofty.Mp4Read

variable {D : Prop}

/-- None of the odd headers that the reader stumbles over: atoms with a length of 64 bits, and atoms without length where the
reader may already be behind the end. -/
structure Plain (f : Bytes) : Prop where
  wide : NoWide f
  zero : ∀ p, (f.drop p).take 4 = [0, 0, 0, 0] →
    (f.drop (p + 4)).take 4 ∉ [ascii "hdlr", ascii "ilst", ascii "mhdr", ascii "ctry", ascii "lang", ascii "----"]
  inner : ∀ p, (f.drop p).take 4 = ascii "----" → (f.drop (p + 4)).take 4 ≠ [0, 0, 0, 0]
  mean : ∀ p, (f.drop (p + 4)).take 4 = ascii "mean" → (f.drop (p + fromBE ((f.drop p).take 4))).take 4 ≠ [0, 0, 0, 0]

/-- A reader of `f` that has not lost its end, or does not look behind it. -/
structure In (f : Bytes) (r : Rd) : Prop where
  file : r.f = f
  bound : r.start + r.len < 2 ^ 32
  fits : r.rem < 8 ∨ r.pos + r.rem ≤ r.start + r.len ∨ (r.rem = 8 ∧ (f.drop r.pos).take 4 ≠ [0, 0, 0, 0])

/-- The same bounds. -/
def Same (r r' : Rd) : Prop := r'.start = r.start ∧ r'.len = r.len

theorem Same.trans {a b c : Rd} (h : Same a b) (h' : Same b c) : Same a c := ⟨h'.1.trans h.1, h'.2.trans h.2⟩

theorem skip_skip (r : Rd) (a b : Nat) : (r.skip a).skip b = r.skip (a + b) := by
  simp only [Rd.skip, Nat.add_assoc, Nat.sub_sub]

theorem In.skip {f : Bytes} {r : Rd} (h : In f r) (k : Nat) : In f (r.skip k) := by
  refine ⟨h.file, h.bound, ?_⟩
  rcases h.fits with h1 | h1 | ⟨h1, h2⟩
  · left; simp only [Rd.skip]; omega
  · simp only [Rd.skip]; omega
  · cases k with
    | zero => exact .inr (.inr ⟨h1, h2⟩)
    | succ k => left; simp only [Rd.skip]; omega

theorem raw_fine (r : Rd) (n : Nat) : Fine D (r.raw n) (fun a => a.2 = r.skip n ∧ r.pos + n ≤ r.f.length ∧ a.1 = (r.f.drop r.pos).take n) := by
  unfold Rd.raw
  exact .ite (fun h => .ok ⟨rfl, h, rfl⟩) fun _ => .err

theorem take_fine (r : Rd) (n : Nat) : Fine D (r.take n) (fun a => a.2 = r.skip n ∧ r.pos + n ≤ r.f.length ∧ a.1 = (r.f.drop r.pos).take n) := by
  unfold Rd.take
  exact .ite (fun h => .err) fun _ => raw_fine r n

theorem zeros_of {b : Bytes} (hl : b.length = 4) (h : fromBE b = 0) : b = [0, 0, 0, 0] := by
  have := beBytes_fromBE b
  rw [hl, h] at this
  rw [← this]
  decide

/-- What reading a header gives: a usual one, or one without length. -/
theorem head_fine {f : Bytes} {r : Rd} (hf : r.f = f) (hw : NoWide f) (hb : r.start + r.len < 2 ^ 32)
    (hz : (f.drop r.pos).take 4 = [0, 0, 0, 0] → r.pos + 8 ≤ r.start + r.len) (size : Nat) (mode : Mode) :
    Fine D (readHead r size mode) (fun a => a.2.f = f ∧ Same r a.2 ∧ (a.1 = none → a.2.rem = 0) ∧ ∀ x, a.1 = some x →
      x.1 = r.pos ∧ x.2.2.1 = false ∧ x.2.2.2 = (f.drop (r.pos + 4)).take 4 ∧ 8 ≤ x.2.1 ∧ x.2.1 < 2 ^ 32 ∧ x.2.1 ≤ size + 8 ∧ r.pos + 8 ≤ f.length ∧
      (((f.drop r.pos).take 4 ≠ [0, 0, 0, 0] ∧ a.2 = r.skip 8 ∧ x.2.1 = fromBE ((f.drop r.pos).take 4)) ∨
       ((f.drop r.pos).take 4 = [0, 0, 0, 0] ∧ r.pos + 8 ≤ a.2.pos ∧ (a.2.rem = 0 ∨ a.2.pos + a.2.rem ≤ a.2.start + a.2.len) ∧
         (r.start = 0 → a.2.pos = r.pos + 8)))) := by
  unfold readHead
  dsimp only
  refine .bind (take_fine r 4) fun a ha => .bind (take_fine a.2 4) fun b hb' => ?_
  obtain ⟨a1, a2, a3⟩ := ha
  obtain ⟨b1, b2, b3⟩ := hb'
  rw [a1] at b2 b3
  rw [a1, skip_skip] at b1
  simp only [Rd.skip] at b2 b3
  rw [hf] at a3 b2 b3
  refine .ite (fun _ => .ite (fun _ => .err) fun _ => .ok ?_) fun hid => ?_
  · rw [b1]
    exact ⟨hf, ⟨rfl, rfl⟩, fun _ => rfl, fun _ h => by cases h⟩
  have hid' : b.1.all validByte = true := by
    cases h : b.1.all validByte with
    | true => rfl
    | false => rw [h] at hid; exact absurd rfl hid
  have hl : ((f.drop r.pos).take 4).length = 4 := by rw [List.length_take, List.length_drop]; omega
  have hr : b.2.f = f := by rw [b1]; exact hf
  -- the length
  refine .bind (P := fun c => c.2.1 = false ∧ c.2.2.f = f ∧ Same r c.2.2 ∧ c.1 < 2 ^ 32 ∧
      (((f.drop r.pos).take 4 ≠ [0, 0, 0, 0] ∧ c.2.2 = r.skip 8 ∧ c.1 = fromBE ((f.drop r.pos).take 4)) ∨
       ((f.drop r.pos).take 4 = [0, 0, 0, 0] ∧ r.pos + 8 ≤ c.2.2.pos ∧ (c.2.2.rem = 0 ∨ c.2.2.pos + c.2.2.rem ≤ c.2.2.start + c.2.2.len) ∧
         (r.start = 0 → c.2.2.pos = r.pos + 8)))) ?_ ?_
  · unfold lenOf
    rw [a3, b1]
    refine .ite (fun h0 => ?_) fun h0 => .ite (fun h1 => ?_) fun h1 => .ok ⟨rfl, hf, ⟨rfl, rfl⟩, ?_, .inl ⟨?_, rfl, rfl⟩⟩
    · have hz' := zeros_of hl h0
      have h8 := hz hz'
      dsimp only [Rd.seekEnd, Rd.skip]
      refine .ite (fun hle => .ok ⟨rfl, ?_, ?_, ?_, .inr ⟨hz', ?_⟩⟩) fun hle => absurd h8 hle
      · dsimp only [Rd.seekStart]
        split <;> exact hf
      · dsimp only [Rd.seekStart]
        split <;> exact ⟨rfl, rfl⟩
      · dsimp only
        omega
      · dsimp only [Rd.seekStart]
        split
        · dsimp only
          exact ⟨h8, .inl rfl, fun h => by omega⟩
        · dsimp only
          exact ⟨by omega, .inr (by omega), fun h => by omega⟩
    · refine .bind (take_fine ..) fun c hc => absurd ⟨fromBE_one hl h1, ?_, ?_⟩ (hw r.pos)
      · have := hc.2.1
        simp only [Rd.skip] at this
        rw [hf] at this
        omega
      · rw [← b3]; exact hid'
    · have := fromBE_lt ((f.drop r.pos).take 4)
      rw [hl] at this
      dsimp only
      omega
    · intro h
      rw [h] at h0
      exact h0 (by decide)
  · rintro ⟨len, ext, r'⟩ ⟨c1, c2, c3, c4, c5⟩
    dsimp only at c1 c2 c3 c4 c5 ⊢
    refine .ite (fun _ => .err) fun h8 => .ite (fun _ => .ite (fun _ => .ok ?_) fun _ => .err) fun hs => .ok ?_
    · exact ⟨c2, c3, fun _ => rfl, fun _ h => by cases h⟩
    · refine ⟨c2, c3, fun h => (by cases h), fun x hx => ?_⟩
      cases hx
      exact ⟨rfl, c1, b3, by dsimp only; omega, c4, by dsimp only; omega, by omega, c5⟩

/-- A part of a freeform identifier, with its length. -/
theorem chunk_fine {f : Bytes} {r : Rd} (hf : r.f = f) (hw : NoWide f) (hb : r.start + r.len < 2 ^ 32)
    (hz : (f.drop r.pos).take 4 ≠ [0, 0, 0, 0]) (name : Bytes) (size : Nat) (mode : Mode) :
    Fine D (freeformChunk r name size mode) (fun a => (f.drop (r.pos + 4)).take 4 = name ∧ a.2.2 = r.skip (fromBE ((f.drop r.pos).take 4))) := by
  unfold freeformChunk
  refine .bind (head_fine hf hw hb (fun h => absurd h hz) size mode) ?_
  rintro ⟨h, r'⟩ hh
  cases h with
  | none => exact .err
  | some x =>
    obtain ⟨st, len, ext, id⟩ := x
    obtain ⟨_, _, _, hx⟩ := hh
    obtain ⟨-, -, x3, x4, -, -, -, x8⟩ := hx _ rfl
    dsimp only at x3 x4 x8 ⊢
    rcases x8 with ⟨-, e1, e2⟩ | ⟨e, _⟩
    · refine .ite (fun _ => .err) fun hn => .ite (fun _ => .err) fun h12 => .ite (fun _ => .err) fun _ => .bind (take_fine ..) fun c hc =>
        .bind (utf8Decode_fine _) fun t _ => .ok ⟨?_, ?_⟩
      · rw [← x3]; exact Decidable.not_not.mp hn
      · dsimp only
        rw [hc.1, e1, skip_skip, skip_skip, ← e2]
        congr 1
        omega
    · exact absurd e hz

/-- The position does not go back, or nothing is left. -/
theorem next_fine {f : Bytes} (hp : Plain f) {r : Rd} (h : In f r) (mode : Mode) : Fine D (r.next mode) (fun a => In f a.2 ∧ Same r a.2 ∧
    (a.1 = none → a.2.rem = 0) ∧ ∀ i, a.1 = some i → i.start = r.pos ∧ i.extended = false ∧ 8 ≤ i.len ∧ i.len < 2 ^ 32 ∧ i.len ≤ r.rem + 8 ∧ 8 ≤ r.rem ∧
      r.pos + 8 ≤ f.length ∧ r.pos + 8 ≤ a.2.pos ∧ (r.start = 0 → (∃ b, i.ident = .fourcc b) → a.2.pos = r.pos + 8)) := by
  unfold Rd.next
  refine .ite (fun h0 => .ok ⟨h, ⟨rfl, rfl⟩, fun _ => h0, fun _ h => by cases h⟩) fun _ => .ite (fun _ => .err) fun h8 => ?_
  unfold readInfo
  have hz : (f.drop r.pos).take 4 = [0, 0, 0, 0] → r.pos + 8 ≤ r.start + r.len := by
    intro hz
    rcases h.fits with h1 | h1 | ⟨_, h1⟩
    · omega
    · omega
    · exact absurd hz h1
  refine .bind (head_fine h.file hp.wide h.bound hz r.rem mode) ?_
  rintro ⟨x, r'⟩ ⟨y1, y2, y3, y4⟩
  have hbound : r'.start + r'.len < 2 ^ 32 := by
    rw [y2.1, y2.2]
    exact h.bound
  cases x with
  | none =>
    have : r'.rem = 0 := y3 rfl
    exact .ok ⟨⟨y1, hbound, .inl (by dsimp only; omega)⟩, y2, fun _ => this, fun _ h => by cases h⟩
  | some x =>
    obtain ⟨st, len, ext, id⟩ := x
    obtain ⟨z1, z2, z3, z4, z5, z6, z7, z8⟩ := y4 _ rfl
    dsimp only at y1 y2 z1 z2 z3 z4 z5 z6 z7 z8 ⊢
    have hin : In f r' := by
      rcases z8 with ⟨_, e, _⟩ | ⟨_, _, e | e, _⟩
      · rw [e]; exact h.skip 8
      · exact ⟨y1, hbound, .inl (by omega)⟩
      · exact ⟨y1, hbound, .inr (.inl e)⟩
    have hpos : r.pos + 8 ≤ r'.pos := by
      rcases z8 with ⟨_, e, _⟩ | ⟨_, e, _⟩
      · rw [e]; exact Nat.le_refl _
      · exact e
    unfold identOf
    dsimp only
    refine .ite (fun hid => .ite (fun hs => absurd hs (by omega)) fun _ => .ite (fun _ => .err) fun _ => ?_) fun _ =>
      .ok ⟨hin, y2, fun h => (by cases h), fun i hi => ?_⟩
    · rcases z8 with ⟨_, e, _⟩ | ⟨e, _⟩
      · unfold parseFreeform
        refine .bind (P := fun a => (∃ x y, a.1 = .freeform x y) ∧ ∃ k, a.2 = r'.skip k) ?_ ?_
        · have hi1 : (f.drop r'.pos).take 4 ≠ [0, 0, 0, 0] := by
            rw [e]
            exact hp.inner (r.pos + 4) (z3 ▸ hid)
          refine .ite (fun _ => .err) fun _ => .bind (chunk_fine y1 hp.wide hbound hi1 _ _ mode) ?_
          rintro ⟨t1, s1, r1⟩ ⟨m1, m2⟩
          dsimp only at m2 ⊢
          have hn1 : (f.drop r1.pos).take 4 ≠ [0, 0, 0, 0] := by
            rw [m2]
            exact hp.mean r'.pos m1
          refine .bind (chunk_fine (by rw [m2]; exact y1) hp.wide (by rw [m2]; exact hbound) hn1 _ _ mode) ?_
          rintro ⟨t2, s2, r2⟩ ⟨_, n2⟩
          dsimp only at n2
          exact .ok ⟨⟨_, _, rfl⟩, _, by dsimp only; rw [n2, m2, skip_skip]⟩
        · rintro ⟨i, r''⟩ ⟨⟨u, v, hu⟩, k, hk⟩
          dsimp only at hk hu ⊢
          subst hk
          refine .ok ⟨hin.skip k, y2, fun h => (by cases h), fun i hi => ?_⟩
          cases hi
          refine ⟨z1, z2, z4, z5, z6, by omega, z7, ?_, fun _ h => ?_⟩
          · simp only [Rd.skip]; omega
          · obtain ⟨b, hb⟩ := h
            rw [hu] at hb
            cases hb
      · exact absurd (z3 ▸ hid) fun hc => hp.zero r.pos e (by rw [hc]; decide)
    · cases hi
      refine ⟨z1, z2, z4, z5, z6, by omega, z7, hpos, fun hs _ => ?_⟩
      rcases z8 with ⟨_, e, _⟩ | ⟨_, _, _, e⟩
      · rw [e]; rfl
      · exact e hs


theorem atomSkip_fine (r : Rd) {i : Info} (h1 : i.extended = false) (h2 : 8 ≤ i.len) (h3 : i.len < 2 ^ 32) :
    Fine D (skipAtom r i.extended i.len) (fun r' => r' = r.skip (i.len - 8)) := by
  unfold skipAtom
  rw [h1, Nat.mod_eq_of_lt h3]
  refine .ite (fun _ => ?_) fun h => absurd rfl h
  dsimp only
  exact .ite (fun _ => .ok rfl) fun h => absurd h2 h

theorem seek_fine {f : Bytes} (hp : Plain f) (name : Bytes) (mode : Mode) : ∀ (k : Nat) (r : Rd) (read len : Nat), In f r → 0 < k → f.length < k + r.pos →
    Fine D (seekAtom k r read len name mode) (fun a => In f a.2 ∧ Same r a.2 ∧ ((a.1 = none ∧ a.2.rem = 0) ∨ r.pos ≤ a.2.pos)) := by
  intro k
  induction k with
  | zero => intro r read len _ h; omega
  | succ k ih =>
    intro r read len hr _ hk
    unfold seekAtom
    refine .ite (fun _ => .bind (next_fine hp hr mode) ?_) fun _ => .ok ⟨hr, ⟨rfl, rfl⟩, .inr (Nat.le_refl _)⟩
    rintro ⟨a, r'⟩ ⟨h1, h2, h3, h4⟩
    cases a with
    | none => exact .ok ⟨h1, h2, .inl ⟨rfl, h3 rfl⟩⟩
    | some a =>
      obtain ⟨z1, z2, z3, z4, z5, z6, z7, z8, z9⟩ := h4 a rfl
      dsimp only at h1 h2 z8 ⊢
      refine .ite (fun _ => .ok ⟨h1, h2, .inr (by dsimp only; omega)⟩) fun _ => .bind (atomSkip_fine r' z2 z3 z4) ?_
      rintro _ rfl
      have hp' : (r'.skip (a.len - 8)).pos = r'.pos + (a.len - 8) := rfl
      refine (ih _ _ _ (h1.skip _) (by omega) (by omega)).imp fun b hb => ⟨hb.1, h2.trans hb.2.1, hb.2.2.imp id fun h => ?_⟩
      omega

theorem full_fine {f : Bytes} (hp : Plain f) {r : Rd} (h : In f r) : Fine D (metaIsFull r) (fun a => In f a.2 ∧ Same r a.2 ∧ r.pos ≤ a.2.pos) := by
  unfold metaIsFull
  refine .bind (take_fine r 4) fun a ha => .bind (take_fine a.2 4) fun b hb => ?_
  obtain ⟨a1, a2, a3⟩ := ha
  obtain ⟨b1, b2, b3⟩ := hb
  rw [a1] at b2 b3
  rw [a1, skip_skip] at b1
  simp only [Rd.skip] at b2 b3
  rw [h.file] at a2 a3 b2 b3
  refine .ite (fun hid => .ok ⟨⟨?_, ?_, ?_⟩, ?_, ?_⟩) fun _ => .ok ⟨⟨?_, ?_, ?_⟩, ?_, ?_⟩
  · rw [b1]; exact h.file
  · rw [b1]; exact h.bound
  · rw [b1]
    simp only [Rd.back, Rd.skip]
    have hz : (f.drop r.pos).take 4 ≠ [0, 0, 0, 0] := fun h0 => by
      refine hp.zero r.pos h0 ?_
      rw [← b3]
      rcases hid with e | e | e | e | e <;> rw [e] <;> decide
    rw [Nat.add_sub_cancel]
    rcases h.fits with h1 | h1 | h1
    · exact .inr (.inr ⟨by omega, hz⟩)
    · by_cases h8 : 8 ≤ r.rem
      · exact .inr (.inl (by omega))
      · exact .inr (.inr ⟨by omega, hz⟩)
    · exact .inr (.inr ⟨by omega, hz⟩)
  · rw [b1]; exact ⟨rfl, rfl⟩
  · rw [b1]
    simp only [Rd.back, Rd.skip]
    omega
  · rw [b1]; exact h.file
  · rw [b1]; exact h.bound
  · rw [b1]
    simp only [Rd.back, Rd.skip]
    rcases h.fits with h1 | h1 | h1
    · exact .inl (by omega)
    · by_cases h8 : 8 ≤ r.rem
      · exact .inr (.inl (by omega))
      · exact .inl (by omega)
    · exact .inl (by omega)
  · rw [b1]; exact ⟨rfl, rfl⟩
  · rw [b1]
    simp only [Rd.back, Rd.skip]
    omega

theorem NoWide.part {f : Bytes} (h : NoWide f) (p n : Nat) : NoWide ((f.drop p).take n) := by
  intro q hq
  obtain ⟨h1, h2, h3⟩ := hq
  have hlen : ((f.drop p).take n).length ≤ f.length - p ∧ ((f.drop p).take n).length ≤ n := by
    rw [List.length_take, List.length_drop]
    omega
  have key : ∀ s, s + 4 ≤ n → ((((f.drop p).take n).drop s).take 4) = (f.drop (p + s)).take 4 := by
    intro s hs
    rw [List.drop_take, List.take_take, List.drop_drop, Nat.min_eq_left (by omega)]
  refine h (p + q) ⟨?_, by omega, ?_⟩
  · rw [← key q (by omega)]; exact h1
  · rw [Nat.add_assoc, ← key (q + 4) (by omega)]; exact h3

theorem ilst_fine {f : Bytes} (hp : Plain f) (hf : f.length + 8 < 2 ^ 32) (cfg : Config) {r : Rd} (h : In f r) (len : Nat) :
    Fine D (readIlst cfg r len) (fun a => In f a.2 ∧ Same r a.2 ∧ r.pos ≤ a.2.pos) := by
  unfold readIlst
  refine .ite (fun _ => .err) fun _ => .bind (take_fine ..) fun a ha => .bind (P := fun _ => True) ?_ fun t _ => .ok ?_
  · have hl : a.1.length + 8 < 2 ^ 32 := by
      rw [ha.2.2, List.length_take, List.length_drop, h.file]
      omega
    refine ⟨fun e he => ⟨?_, ?_⟩, fun _ _ => trivial⟩
    · rintro rfl
      obtain ⟨p, hw⟩ := parse_panics_only_wide cfg.opts a.1 hl he
      rw [ha.2.2, h.file] at hw
      exact NoWide.part hp.wide _ _ p hw
    · rintro rfl
      exact absurd he (parse_ends cfg.opts a.1 hl)
  · dsimp only
    rw [ha.1]
    exact ⟨h.skip _, ⟨rfl, rfl⟩, Nat.le_add_right _ _⟩

theorem udta_fine {f : Bytes} (hp : Plain f) (hf : f.length + 8 < 2 ^ 32) (cfg : Config) {r : Rd} (h : In f r) (len : Nat) :
    Fine D (ilstFromUdta cfg r len) (fun a => In f a.2 ∧ Same r a.2 ∧ (a.2.rem = 0 ∨ r.pos ≤ a.2.pos)) := by
  unfold ilstFromUdta
  refine .bind (seek_fine hp _ _ _ r _ _ h (by omega) (by rw [h.file]; omega)) ?_
  rintro ⟨m, r1⟩ ⟨h1, s1, p1⟩
  cases m with
  | none => exact .ok ⟨h1, s1, p1.imp And.right id⟩
  | some size =>
    dsimp only at h1 s1 p1 ⊢
    replace p1 := p1.resolve_left fun h => by cases h.1
    refine .bind (full_fine hp h1) ?_
    rintro ⟨full, r2⟩ ⟨h2, s2, p2⟩
    dsimp only at h2 s2 p2 ⊢
    refine .bind (seek_fine hp _ _ _ r2 _ _ h2 (by omega) (by rw [h2.file]; omega)) ?_
    rintro ⟨i, r3⟩ ⟨h3, s3, p3⟩
    dsimp only at h3 s3 p3
    cases i with
    | none => exact .ok ⟨h3, (s1.trans s2).trans s3, p3.imp And.right fun h => by dsimp only at h ⊢; omega⟩
    | some size =>
      replace p3 := p3.resolve_left fun h => by cases h.1
      refine .bind (ilst_fine hp hf cfg h3 _) ?_
      rintro ⟨t, r4⟩ ⟨h4, s4, p4⟩
      refine .ok ⟨h4, ((s1.trans s2).trans s3).trans s4, .inr ?_⟩
      dsimp only at p4 ⊢
      omega

theorem moov_fine {f : Bytes} (hp : Plain f) (hf : f.length + 8 < 2 ^ 32) (cfg : Config) (hc : cfg.properties = false) : ∀ (k : Nat) (r : Rd) (m : Moov),
    In f r → 0 < k → (r.rem = 0 ∨ f.length < k + r.pos) → Fine D (moovLoop cfg k r m) (fun _ => True) := by
  intro k
  induction k with
  | zero => intro r m _ h; omega
  | succ k ih =>
    intro r m hr _ hk
    unfold moovLoop
    have hn := next_fine (D := D) hp hr cfg.opts.mode
    split
    · rename_i he
      exact absurd rfl (hn.safe _ he).1
    · exact .ok trivial
    · exact .ok trivial
    · rename_i a r' he
      obtain ⟨h1, h2, h3, h4⟩ := hn.gives _ he
      obtain ⟨z1, z2, z3, z4, z5, z6, z7, z8, z9⟩ := h4 a rfl
      dsimp only at h1 h2 z8
      refine .bind (P := fun x => In f x.2 ∧ (x.2.rem = 0 ∨ r'.pos ≤ x.2.pos)) ?_ fun x hx => ih _ _ hx.1 (by omega) (hx.2.imp id fun h => by omega)
      unfold moovStep
      refine .ite (fun h => absurd (hc.symm.trans h.2) Bool.false_ne_true) fun _ => .ite (fun _ => .bind (udta_fine hp hf cfg h1 _) fun x hx => .ok ⟨hx.1, hx.2.2⟩) fun _ =>
        .bind (atomSkip_fine r' z2 z3 z4) ?_
      rintro _ rfl
      exact .ok ⟨h1.skip _, .inr (Nat.le_add_right _ _)⟩

theorem findMoov_fine {f : Bytes} (hp : Plain f) (mode : Mode) : ∀ (k : Nat) (r : Rd), In f r → r.start = 0 → r.len = f.length → 0 < k → f.length < k + r.pos →
    Fine D (findMoov k r mode) (fun a => a.2.f = f ∧ a.2.pos = a.1.start + 8 ∧ 8 ≤ a.1.len ∧ a.1.start + a.1.len ≤ f.length + 8) := by
  intro k
  induction k with
  | zero => intro r _ _ _ h; omega
  | succ k ih =>
    intro r hr hs hl _ hk
    unfold findMoov
    have hn := next_fine (D := D) hp hr mode
    split
    · rename_i he
      exact absurd rfl (hn.safe _ he).1
    · exact .err
    · exact .err
    · rename_i a r' he
      obtain ⟨h1, h2, h3, h4⟩ := hn.gives _ he
      obtain ⟨z1, z2, z3, z4, z5, z6, z7, z8, z9⟩ := h4 a rfl
      dsimp only at h1 h2 z8 z9
      refine .ite (fun hm => .ok ⟨h1.file, ?_, z3, ?_⟩) fun _ => .bind (atomSkip_fine r' z2 z3 z4) ?_
      · rw [z1]; exact z9 hs ⟨_, hm⟩
      · dsimp only
        have : r.pos + r.rem ≤ f.length := by
          rcases hr.fits with h | h | ⟨h, _⟩ <;> omega
        omega
      · rintro _ rfl
        refine ih _ (h1.skip _) (h2.1.trans hs) (h2.2.trans hl) (by omega) ?_
        simp only [Rd.skip]
        omega

theorem mp4_fine {f : Bytes} (hp : Plain f) (hf : f.length + 8 < 2 ^ 32) (cfg : Config) (hc : cfg.properties = false) : Fine D (readFrom cfg f) (fun _ => True) := by
  have h0 : In f (Rd.new f) := ⟨rfl, by simp only [Rd.new]; omega, .inr (.inl (by simp only [Rd.new]; omega))⟩
  unfold readFrom
  refine .bind (P := fun a => In f a.2 ∧ Same (Rd.new f) a.2) ?_ ?_
  · unfold verifyMp4
    refine .bind (next_fine hp h0 _) ?_
    rintro ⟨a, r⟩ ⟨h1, h2, h3, h4⟩
    cases a with
    | none => exact .err
    | some a =>
      refine .ite (fun _ => .err) fun _ => .ite (fun _ => .err) fun _ => .bind (take_fine ..) fun b hb => ?_
      dsimp only
      split
      · refine .ok ?_
        dsimp only
        rw [hb.1, skip_skip]
        exact ⟨h1.skip _, h2⟩
      · exact .err
  · rintro ⟨brand, r⟩ ⟨h1, h2⟩
    dsimp only at h1 h2 ⊢
    refine .bind (findMoov_fine hp _ _ r h1 h2.1 h2.2 (by omega) (by omega)) ?_
    rintro ⟨a, r'⟩ ⟨k1, k2, k3, k4⟩
    dsimp only at k1 k2 k3 k4 ⊢
    refine .bind (moov_fine hp hf cfg hc _ _ _ ⟨k1, ?_, .inr (.inl ?_)⟩ (by omega) (.inr ?_)) fun _ _ => .ok trivial
    all_goals
      simp only [Rd.resetBounds]
      omega

end Lofty.Safe
