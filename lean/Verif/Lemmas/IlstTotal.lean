import Verif.Lemmas.Ilst
import Verif.Lemmas.NoErr
/-! Helper lemmas: the readers of `ilst` advance. -/
namespace Lofty.Mp4
open Lofty.Text Lofty.Ilst

/-- A reader over the whole of `f`. -/
def Good (f : Bytes) (r : Rd) : Prop :=
  r.f = f ∧ r.start = 0 ∧ r.len = f.length ∧ r.rem = f.length - r.pos

theorem good_new (f : Bytes) : Good f (Rd.new f) := ⟨rfl, rfl, rfl, by simp [Rd.new]⟩

theorem Good.skip {f : Bytes} {r : Rd} (h : Good f r) (n : Nat) : Good f (r.skip n) := by
  obtain ⟨h1, h2, h3, h4⟩ := h
  refine ⟨h1, h2, h3, ?_⟩
  show r.rem - n = f.length - (r.pos + n)
  omega

theorem Good.seekEnd {f : Bytes} {r : Rd} (h : Good f r) : Good f r.seekEnd ∧ r.seekEnd.pos = f.length ∧ r.seekEnd.rem = 0 := by
  obtain ⟨h1, h2, h3, h4⟩ := h
  have hp : r.seekEnd.pos = f.length := by simp [Rd.seekEnd, h2, h3]
  refine ⟨⟨h1, h2, h3, ?_⟩, hp, rfl⟩
  rw [hp]
  simp [Rd.seekEnd]

theorem Good.seekStart {f : Bytes} {r : Rd} (h : Good f r) (s : Nat) :
    Good f (r.seekStart s) ∧ (r.seekStart s).rem = f.length - s := by
  obtain ⟨h1, h2, h3, h4⟩ := h
  unfold Rd.seekStart
  split
  · refine ⟨⟨h1, h2, h3, ?_⟩, ?_⟩
    · simp [h2, h3]
    · simp only; omega
  · refine ⟨⟨h1, h2, h3, ?_⟩, ?_⟩
    · simp [h2, h3]
    · simp [h2, h3]

theorem Good.seekStart_pos {f : Bytes} {r : Rd} (h : Good f r) {s : Nat} (hs : s ≤ f.length) :
    (r.seekStart s).pos = s := by
  obtain ⟨h1, h2, h3, h4⟩ := h
  unfold Rd.seekStart
  rw [if_neg (by omega)]
  simp [h2]

theorem raw_ok {r r' : Rd} {n : Nat} {b : Bytes} (h : r.raw n = .ok (b, r')) :
    r' = r.skip n ∧ r.pos + n ≤ r.f.length ∧ b = (r.f.drop r.pos).take n := by
  unfold Rd.raw at h
  split at h
  · simp only [Except.ok.injEq, Prod.mk.injEq] at h
    exact ⟨h.2.symm, by assumption, h.1.symm⟩
  · cases h

theorem take_ok {r r' : Rd} {n : Nat} {b : Bytes} (h : r.take n = .ok (b, r')) :
    r' = r.skip n ∧ r.pos + n ≤ r.f.length ∧ b = (r.f.drop r.pos).take n := by
  unfold Rd.take at h
  split at h
  · cases h
  · exact raw_ok h

/-- The bytes at `p` are the header of an atom with a 64-bit length. -/
def WideAt (f : Bytes) (p : Nat) : Prop :=
  (f.drop p).take 4 = [0, 0, 0, 1] ∧ p + 16 ≤ f.length ∧ ((f.drop (p + 4)).take 4).all validByte = true

theorem fromBE_one {b : Bytes} (hl : b.length = 4) (h : fromBE b = 1) : b = [0, 0, 0, 1] := by
  have := beBytes_fromBE b
  rw [hl, h] at this
  rw [← this]
  decide

/-- What a header that was read says. -/
theorem readHead_some {f : Bytes} {r r' : Rd} {size : Nat} {mode : Mode} {st len : Nat} {ext : Bool} {id : Bytes}
    (hg : Good f r) (h : readHead r size mode = .ok (some (st, len, ext, id), r')) :
    Good f r' ∧ st = r.pos ∧ 8 ≤ len ∧ len - 8 ≤ size ∧ r'.pos ≤ f.length ∧
      id = (f.drop (r.pos + 4)).take 4 ∧ id.all validByte = true ∧
      ((ext = false ∧ r'.pos = r.pos + 8 ∧ (len = fromBE ((f.drop r.pos).take 4) ∨ len = f.length - (r.pos + 8))) ∨
        (ext = true ∧ r'.pos = r.pos + 16 ∧ WideAt f r.pos ∧ len = fromBE ((f.drop (r.pos + 8)).take 8))) := by
  unfold readHead at h
  obtain ⟨⟨lb, r1⟩, h1, h⟩ := bind_ok h
  obtain ⟨⟨id1, r2⟩, h2, h⟩ := bind_ok h
  obtain ⟨e1, l1, b1⟩ := take_ok h1
  obtain ⟨e2, l2, b2⟩ := take_ok h2
  subst e1
  simp only [skip_pos, skip_f, hg.1] at l1 l2 b1 b2
  rw [skip_skip] at e2
  subst e2
  simp only at h
  split at h
  · split at h <;> simp at h
  · rename_i hv
    obtain ⟨⟨len1, ext1, r3⟩, h3, h⟩ := bind_ok h
    simp only at h
    have hgs := hg.skip 8
    have key : Good f r3 ∧ r3.pos ≤ f.length ∧
        ((ext1 = false ∧ r3.pos = r.pos + 8 ∧ (len1 = fromBE lb ∨ len1 = f.length - (r.pos + 8))) ∨
          (ext1 = true ∧ r3.pos = r.pos + 16 ∧ fromBE lb = 1 ∧ r.pos + 16 ≤ f.length ∧ len1 = fromBE ((f.drop (r.pos + 8)).take 8))) := by
      unfold lenOf at h3
      split at h3
      · simp only at h3
        split at h3
        · rename_i hle
          simp only [Except.ok.injEq, Prod.mk.injEq] at h3
          obtain ⟨hl, he, hr⟩ := h3
          have hse := hgs.seekEnd
          have hp : (r.skip 8).pos ≤ f.length := by simp only [skip_pos]; omega
          have hss := (hse.1).seekStart (r.skip 8).pos
          have hsp := (hse.1).seekStart_pos hp
          subst hr
          refine ⟨hss.1, by rw [hsp]; exact hp, Or.inl ⟨he.symm, by rw [hsp]; rfl, Or.inr ?_⟩⟩
          rw [← hl, hse.2.1]; rfl
        · cases h3
      · split at h3
        · rename_i hone
          obtain ⟨⟨b, r4⟩, h4, h3⟩ := bind_ok h3
          obtain ⟨e4, l4, b4⟩ := take_ok h4
          simp only [Except.ok.injEq, Prod.mk.injEq] at h3
          obtain ⟨hl, he, hr⟩ := h3
          subst e4
          subst hr
          simp only [skip_pos, skip_f, hg.1] at l4 b4
          refine ⟨(hg.skip 8).skip 8, by simp only [skip_pos]; omega, Or.inr ⟨he.symm, by simp only [skip_pos], hone, by omega, ?_⟩⟩
          rw [← hl, b4]
        · simp only [Except.ok.injEq, Prod.mk.injEq] at h3
          obtain ⟨hl, he, hr⟩ := h3
          subst hr
          exact ⟨hgs, by simp only [skip_pos]; omega, Or.inl ⟨he.symm, rfl, Or.inl hl.symm⟩⟩
    split at h
    · cases h
    · rename_i hlen
      split at h
      · split at h <;> simp at h
      · rename_i hsz
        simp only [Except.ok.injEq, Prod.mk.injEq, Option.some.injEq] at h
        obtain ⟨⟨e1, e2, e3, e4⟩, e5⟩ := h
        subst e1 e2 e3 e4 e5
        have hid : id1.all validByte = true := by simpa using hv
        refine ⟨key.1, rfl, by omega, by omega, key.2.1, b2, hid, ?_⟩
        rcases key.2.2 with ⟨k1, k2, k3⟩ | ⟨k1, k2, k3, k4, k5⟩
        · left
          refine ⟨k1, k2, ?_⟩
          rw [← b1]; exact k3
        · right
          refine ⟨k1, k2, ⟨?_, k4, ?_⟩, k5⟩
          · rw [← b1]
            exact fromBE_one (by rw [b1]; simp; omega) k3
          · rw [← b2]; exact hid

theorem readHead_none {f : Bytes} {r r' : Rd} {size : Nat} {mode : Mode}
    (hg : Good f r) (h : readHead r size mode = .ok (none, r')) : Good f r' ∧ r'.rem = 0 := by
  unfold readHead at h
  obtain ⟨⟨lb, r1⟩, h1, h⟩ := bind_ok h
  obtain ⟨⟨id1, r2⟩, h2, h⟩ := bind_ok h
  obtain ⟨e1, l1, b1⟩ := take_ok h1
  obtain ⟨e2, l2, b2⟩ := take_ok h2
  subst e1
  subst e2
  have hgs := (hg.skip 4).skip 4
  simp only [skip_pos, skip_f, hg.1] at l1 l2
  simp only at h
  split at h
  · split at h
    · cases h
    · simp only [Except.ok.injEq, Prod.mk.injEq, true_and] at h
      subst h
      exact ⟨hgs.seekEnd.1, hgs.seekEnd.2.2⟩
  · obtain ⟨⟨len1, ext1, r3⟩, h3, h⟩ := bind_ok h
    simp only at h
    have hg3 : Good f r3 := by
      unfold lenOf at h3
      split at h3
      · simp only at h3
        split at h3
        · simp only [Except.ok.injEq, Prod.mk.injEq] at h3
          rw [← h3.2.2]
          exact (hgs.seekEnd.1.seekStart _).1
        · cases h3
      · split at h3
        · obtain ⟨⟨b, r4⟩, h4, h3⟩ := bind_ok h3
          obtain ⟨e4, l4, b4⟩ := take_ok h4
          simp only [Except.ok.injEq, Prod.mk.injEq] at h3
          rw [← h3.2.2, e4]
          exact hgs.skip 8
        · simp only [Except.ok.injEq, Prod.mk.injEq] at h3
          rw [← h3.2.2]; exact hgs
    split at h
    · cases h
    · split at h
      · split at h
        · simp only [Except.ok.injEq, Prod.mk.injEq, true_and] at h
          subst h
          exact ⟨hg3.seekEnd.1, hg3.seekEnd.2.2⟩
        · cases h
      · simp at h

theorem readHead_ne {r : Rd} {size : Nat} {mode : Mode} : readHead r size mode ≠ .error .diverge := by
  have take_ne : ∀ (r : Rd) n, r.take n ≠ .error .diverge := by
    intro r n h
    unfold Rd.take Rd.raw at h
    split at h
    · cases h
    · split at h <;> cases h
  unfold readHead
  refine bind_ne (take_ne _ _) fun ⟨lb, r⟩ => bind_ne (take_ne _ _) fun ⟨id, r⟩ => ?_
  simp only
  split
  · split <;> simp
  · refine bind_ne ?_ fun ⟨len, ext, r⟩ => ?_
    · unfold lenOf
      split
      · simp only
        split <;> simp
      · split
        · exact bind_ne (take_ne _ _) fun ⟨b, r⟩ => by simp
        · simp
    · simp only
      split
      · simp
      · split
        · split <;> simp
        · simp

/-- No atom header with a 64-bit length stands anywhere in the bytes. -/
def NoWide (f : Bytes) : Prop := ∀ p, ¬ WideAt f p

theorem chunk_ok {f : Bytes} {r r' : Rd} {name : Bytes} {size size' : Nat} {mode : Mode} {s : Str}
    (hg : Good f r) (h : freeformChunk r name size mode = .ok (s, size', r')) :
    Good f r' ∧ r'.pos ≤ f.length ∧ r.pos ≤ r'.pos ∧ (NoWide f → r'.pos + size' = r.pos + size) := by
  unfold freeformChunk at h
  obtain ⟨⟨hd, r1⟩, h1, h⟩ := bind_ok h
  rcases hd with _ | ⟨st, len, ext, id⟩
  · cases h
  · simp only at h
    split at h
    · cases h
    · split at h
      · cases h
      · split at h
        · cases h
        · obtain ⟨⟨c, r2⟩, h2, h⟩ := bind_ok h
          obtain ⟨t, h3, h⟩ := bind_ok h
          simp only [Except.ok.injEq, Prod.mk.injEq] at h
          obtain ⟨_, hs, hr⟩ := h
          obtain ⟨g1, e1, l1, l2, p1, _, _, hx⟩ := readHead_some hg h1
          obtain ⟨e2, b2, _⟩ := take_ok h2
          subst e2
          subst hr
          refine ⟨(g1.skip 4).skip _, ?_, ?_, ?_⟩
          · simp only [skip_pos, skip_f, g1.1] at b2 ⊢; exact b2
          · simp only [skip_pos]
            rcases hx with hx | hx <;> omega
          · intro hn
            rcases hx with hx | hx
            · simp only [skip_pos]; omega
            · exact absurd hx.2.2.1 (hn _)

theorem chunk_ne {r : Rd} {name : Bytes} {size : Nat} {mode : Mode} {e : Err} (he : e = .diverge ∨ e = .panic)
    (h : readHead r size mode ≠ .error e) : freeformChunk r name size mode ≠ .error e := by
  unfold freeformChunk
  refine bind_ne h fun ⟨hd, r⟩ => ?_
  rcases hd with _ | ⟨st, len, ext, id⟩
  · rcases he with rfl | rfl <;> simp
  · simp only
    split
    · rcases he with rfl | rfl <;> simp
    · split
      · rcases he with rfl | rfl <;> simp
      · split
        · rcases he with rfl | rfl <;> simp
        · refine bind_ne ?_ fun ⟨c, r⟩ => bind_ne ?_ fun t => by simp
          · intro h
            unfold Rd.take Rd.raw at h
            split at h
            · cases h; simp at he
            · split at h
              · cases h
              · cases h; simp at he
          · simp only
            unfold utf8Decode
            split <;> rcases he with rfl | rfl <;> simp

theorem readHead_no_panic {f : Bytes} {r : Rd} (hg : Good f r) {size : Nat} {mode : Mode} :
    readHead r size mode ≠ .error .panic := by
  have take_ne : ∀ (r : Rd) n, r.take n ≠ .error .panic := by
    intro r n h
    unfold Rd.take Rd.raw at h
    split at h
    · cases h
    · split at h <;> cases h
  intro h
  unfold readHead at h
  cases h1 : r.take 4 with
  | error e => rw [h1, error_bind] at h; cases h; exact take_ne _ _ h1
  | ok p1 =>
    obtain ⟨lb, r1⟩ := p1
    rw [h1, ok_bind] at h
    obtain ⟨e1, l1, b1⟩ := take_ok h1
    subst e1
    simp only at h
    cases h2 : (r.skip 4).take 4 with
    | error e => rw [h2, error_bind] at h; cases h; exact take_ne _ _ h2
    | ok p2 =>
      obtain ⟨id, r2⟩ := p2
      obtain ⟨e2, l2, b2⟩ := take_ok h2
      subst e2
      rw [h2, ok_bind] at h
      simp only at h
      split at h
      · split at h <;> cases h
      · revert h
        refine bind_ne ?_ fun ⟨len, ext, r⟩ => ?_
        · have hgs := (hg.skip 4).skip 4
          have hse := hgs.seekEnd
          simp only [skip_pos, skip_f, hg.1] at l2
          unfold lenOf
          split
          · simp only
            rw [if_pos (by rw [hse.2.1]; simp only [skip_pos]; omega)]
            simp
          · split
            · exact bind_ne (take_ne _ _) fun ⟨b, r⟩ => by simp
            · simp
        · simp only
          split
          · simp
          · split
            · split <;> simp
            · simp

/-- What `AtomInfo::read` does to a reader. -/
theorem readInfo_some {f : Bytes} {r r' : Rd} {size : Nat} {mode : Mode} {a : Info}
    (hg : Good f r) (h : readInfo r size mode = .ok (some a, r')) :
    Good f r' ∧ r'.pos ≤ f.length ∧ r.pos + 8 ≤ r'.pos ∧ a.start = r.pos ∧ 8 ≤ a.len ∧ a.len - 8 ≤ size ∧
      (NoWide f → a.extended = false ∧ r'.pos ≤ a.start + a.len) := by
  unfold readInfo at h
  obtain ⟨⟨hd, r1⟩, h1, h⟩ := bind_ok h
  rcases hd with _ | ⟨st, len, ext, id⟩
  · simp at h
  · obtain ⟨g1, e1, l1, l2, p1, _, _, hx⟩ := readHead_some hg h1
    have h' : identOf (st, len, ext, id) r1 size mode = .ok (some a, r') := h
    unfold identOf at h'
    split at h'
    · split at h'
      · cases h'
      · split at h'
        · cases h'
        · obtain ⟨⟨i, r2⟩, h2, h'⟩ := bind_ok h'
          simp only [Except.ok.injEq, Prod.mk.injEq, Option.some.injEq] at h'
          obtain ⟨ha, hr⟩ := h'
          subst ha
          subst hr
          unfold parseFreeform at h2
          split at h2
          · cases h2
          · obtain ⟨⟨mean, k1, r3⟩, h3, h2⟩ := bind_ok h2
            obtain ⟨⟨name, k2, r4⟩, h4, h2⟩ := bind_ok h2
            simp only [Except.ok.injEq, Prod.mk.injEq] at h2
            obtain ⟨_, hr⟩ := h2
            subst hr
            obtain ⟨g3, b3, m3, n3⟩ := chunk_ok g1 h3
            obtain ⟨g4, b4, m4, n4⟩ := chunk_ok g3 h4
            refine ⟨g4, b4, ?_, e1, l1, l2, ?_⟩
            · rcases hx with hx | hx <;> omega
            · intro hn
              have n3 := n3 hn
              have n4 := n4 hn
              simp only at n3 n4 ⊢
              rcases hx with hx | hx
              · exact ⟨hx.1, by omega⟩
              · exact absurd hx.2.2.1 (hn _)
    · simp only [Except.ok.injEq, Prod.mk.injEq, Option.some.injEq] at h'
      obtain ⟨ha, hr⟩ := h'
      subst ha
      subst hr
      refine ⟨g1, p1, ?_, e1, l1, l2, ?_⟩
      · rcases hx with hx | hx <;> omega
      · intro hn
        rcases hx with hx | hx
        · exact ⟨hx.1, by simp only; omega⟩
        · exact absurd hx.2.2.1 (hn _)

theorem readInfo_none {f : Bytes} {r r' : Rd} {size : Nat} {mode : Mode}
    (hg : Good f r) (h : readInfo r size mode = .ok (none, r')) : Good f r' ∧ r'.rem = 0 := by
  unfold readInfo at h
  obtain ⟨⟨hd, r1⟩, h1, h⟩ := bind_ok h
  rcases hd with _ | hd
  · simp only [Except.ok.injEq, Prod.mk.injEq, true_and] at h
    subst h
    exact readHead_none hg h1
  · have h' : identOf hd r1 size mode = .ok (none, r') := h
    unfold identOf at h'
    split at h'
    · split at h'
      · cases h'
      · split at h'
        · cases h'
        · obtain ⟨⟨i, r2⟩, h2, h'⟩ := bind_ok h'
          simp at h'
    · simp at h'

theorem readInfo_ne {r : Rd} {size : Nat} {mode : Mode} : readInfo r size mode ≠ .error .diverge := by
  unfold readInfo
  refine bind_ne readHead_ne fun ⟨hd, r⟩ => ?_
  rcases hd with _ | hd
  · simp
  · show identOf hd r size mode ≠ _
    unfold identOf
    split
    · split
      · simp
      · split
        · simp
        · refine bind_ne ?_ fun ⟨i, r⟩ => by simp
          unfold parseFreeform
          split
          · simp
          · refine bind_ne (chunk_ne (Or.inl rfl) readHead_ne) fun ⟨_, _, r⟩ => ?_
            refine bind_ne (chunk_ne (Or.inl rfl) readHead_ne) fun ⟨_, _, r⟩ => by simp
    · simp

theorem readInfo_no_panic {f : Bytes} {r : Rd} (hg : Good f r) {size : Nat} (hs : 8 ≤ size) {mode : Mode} :
    readInfo r size mode ≠ .error .panic := by
  intro h
  unfold readInfo at h
  cases h1 : readHead r size mode with
  | error e => rw [h1, error_bind] at h; cases h; exact readHead_no_panic hg h1
  | ok p =>
    obtain ⟨hd, r1⟩ := p
    rw [h1, ok_bind] at h
    rcases hd with _ | ⟨st, len, ext, id⟩
    · simp at h
    · have g1 := (readHead_some hg h1).1
      have h' : identOf (st, len, ext, id) r1 size mode = .error .panic := h
      unfold identOf at h'
      split at h'
      · split at h'
        · omega
        · split at h'
          · cases h'
          · revert h'
            refine bind_ne ?_ fun ⟨i, r⟩ => by simp
            intro h2
            unfold parseFreeform at h2
            split at h2
            · cases h2
            · cases h3 : freeformChunk r1 (ascii "mean") (len - 8) mode with
              | error e =>
                simp only [h3, error_bind] at h2; cases h2
                exact chunk_ne (Or.inr rfl) (readHead_no_panic g1) h3
              | ok q =>
                obtain ⟨m, k, r3⟩ := q
                have g3 := (chunk_ok g1 h3).1
                simp only [h3, ok_bind] at h2
                revert h2
                exact bind_ne (chunk_ne (Or.inr rfl) (readHead_no_panic g3)) fun ⟨_, _, r⟩ => by simp
      · simp at h'

theorem next_some {f : Bytes} {r r' : Rd} {mode : Mode} {a : Info}
    (hg : Good f r) (h : r.next mode = .ok (some a, r')) :
    Good f r' ∧ r'.pos ≤ f.length ∧ r.pos + 8 ≤ r'.pos ∧ a.start = r.pos ∧ 8 ≤ a.len ∧ a.len ≤ f.length + 8 ∧
      (NoWide f → a.extended = false ∧ r'.pos ≤ a.start + a.len) := by
  unfold Rd.next at h
  split at h
  · simp at h
  · split at h
    · cases h
    · obtain ⟨h1, h2, h3, h4, h5, h6, h7⟩ := readInfo_some hg h
      have := hg.2.2.2
      exact ⟨h1, h2, h3, h4, h5, by omega, h7⟩

theorem next_none {f : Bytes} {r r' : Rd} {mode : Mode}
    (hg : Good f r) (h : r.next mode = .ok (none, r')) : Good f r' ∧ r'.rem = 0 := by
  unfold Rd.next at h
  split at h
  · simp only [Except.ok.injEq, Prod.mk.injEq, true_and] at h
    subst h
    exact ⟨hg, by assumption⟩
  · split at h
    · cases h
    · exact readInfo_none hg h

theorem next_ne {r : Rd} {mode : Mode} : r.next mode ≠ .error .diverge := by
  unfold Rd.next
  split
  · simp
  · split
    · simp
    · exact readInfo_ne

theorem next_no_panic {f : Bytes} {r : Rd} (hg : Good f r) {mode : Mode} : r.next mode ≠ .error .panic := by
  unfold Rd.next
  split
  · simp
  · split
    · simp
    · exact readInfo_no_panic hg (by omega)

/-- Skipping an atom of `f` moves forward. -/
theorem skipAtom_ok {f : Bytes} {r r' : Rd} {ext : Bool} {len : Nat} (hg : Good f r)
    (hl : len < 2 ^ 32) (h8 : 8 ≤ len) (h : skipAtom r ext len = .ok r') : Good f r' ∧ r'.rem ≤ r.rem := by
  unfold skipAtom at h
  split at h
  · simp only [Nat.mod_eq_of_lt hl] at h
    rw [if_pos h8] at h
    cases h
    exact ⟨hg.skip _, Nat.sub_le _ _⟩
  · split at h
    · cases h
      obtain ⟨h1, h2⟩ := hg.seekStart (r.pos + (len - 8))
      refine ⟨h1, ?_⟩
      rw [h2, hg.2.2.2]
      omega
    · cases h

theorem skipAtom_ne {r : Rd} {ext : Bool} {len : Nat} {e : Err} (he : e = .diverge ∨ e = .panic) : skipAtom r ext len ≠ .error e := by
  unfold skipAtom
  split
  · simp only
    split
    · simp
    · split
      · simp
      · rcases he with rfl | rfl <;> simp
  · split
    · simp
    · rcases he with rfl | rfl <;> simp

end Lofty.Mp4

namespace Lofty.Ilst
open Lofty.Mp4 Lofty.Text

theorem take_ne' {r : Rd} {n : Nat} {e : Err} (he : e = .diverge ∨ e = .panic) : r.take n ≠ .error e := by
  intro h
  unfold Rd.take Rd.raw at h
  split at h
  · cases h; simp at he
  · split at h
    · cases h
    · cases h; simp at he

theorem raw_ne' {r : Rd} {n : Nat} {e : Err} (he : e = .diverge ∨ e = .panic) : r.raw n ≠ .error e := by
  intro h
  unfold Rd.raw at h
  split at h
  · cases h
  · cases h; simp at he

theorem typeIndicator_ne {r : Rd} {mode : Mode} {e : Err} (he : e = .diverge ∨ e = .panic) :
    typeIndicator r mode ≠ .error e := by
  unfold typeIndicator
  refine bind_ne (raw_ne' he) fun ⟨b, r⟩ => ?_
  simp only
  split
  · split
    · rcases he with rfl | rfl <;> simp
    · simp
  · exact bind_ne (raw_ne' he) fun ⟨b, r⟩ => by simp

theorem typeIndicator_ok {f : Bytes} {r r' : Rd} {mode : Mode} {t : Option Nat} (hg : Good f r)
    (h : typeIndicator r mode = .ok (t, r')) : Good f r' ∧ r'.rem ≤ r.rem := by
  unfold typeIndicator at h
  obtain ⟨⟨b, r1⟩, h1, h⟩ := bind_ok h
  obtain ⟨e1, _, _⟩ := raw_ok h1
  subst e1
  simp only at h
  split at h
  · split at h
    · cases h
    · simp only [Except.ok.injEq, Prod.mk.injEq] at h
      rw [← h.2]
      exact ⟨hg.skip _, Nat.sub_le _ _⟩
  · obtain ⟨⟨c, r2⟩, h2, h⟩ := bind_ok h
    obtain ⟨e2, _, _⟩ := raw_ok h2
    subst e2
    simp only [Except.ok.injEq, Prod.mk.injEq] at h
    rw [← h.2]
    exact ⟨(hg.skip _).skip _, Nat.le_trans (Nat.sub_le _ _) (Nat.sub_le _ _)⟩

theorem dataContent_ne {r : Rd} {code len : Nat} {acc : List (Nat × Bytes)} {e : Err} (he : e = .diverge ∨ e = .panic) :
    dataContent r code len acc ≠ .error e := by
  unfold dataContent
  split
  · exact bind_ne (take_ne' he) fun ⟨b, r⟩ => by simp
  · simp

theorem dataContent_ok {f : Bytes} {r r' : Rd} {code len : Nat} {acc acc' : List (Nat × Bytes)} (hg : Good f r)
    (h : dataContent r code len acc = .ok (acc', r')) : Good f r' ∧ r'.rem ≤ r.rem := by
  unfold dataContent at h
  split at h
  · obtain ⟨⟨c, r1⟩, h1, h⟩ := bind_ok h
    obtain ⟨e1, _, _⟩ := take_ok h1
    subst e1
    simp only [Except.ok.injEq, Prod.mk.injEq] at h
    rw [← h.2]
    exact ⟨hg.skip _, Nat.sub_le _ _⟩
  · simp only [Except.ok.injEq, Prod.mk.injEq] at h
    rw [← h.2]
    exact ⟨hg, Nat.le_refl _⟩

theorem dataLoop_total {f : Bytes} (hf : f.length + 8 < 2 ^ 32) {mode : Mode} {toRead : Nat} :
    ∀ (k pos : Nat) (acc : List (Nat × Bytes)) (r : Rd), Good f r → r.rem < k →
      dataLoop mode toRead k pos acc r ≠ .error .diverge ∧
      dataLoop mode toRead k pos acc r ≠ .error .panic ∧
      ∀ acc' r', dataLoop mode toRead k pos acc r = .ok (acc', r') → Good f r' ∧ r'.rem ≤ r.rem := by
  intro k
  induction k with
  | zero => intro pos acc r hg hk; omega
  | succ k ih =>
    intro pos acc r hg hk
    rw [dataLoop]
    by_cases hp : toRead ≤ pos
    · rw [if_pos hp]
      refine ⟨by simp, by simp, ?_⟩
      intro acc' r' h
      simp only [Except.ok.injEq, Prod.mk.injEq] at h
      rw [← h.2]
      exact ⟨hg, Nat.le_refl _⟩
    · rw [if_neg hp]
      cases hn : r.next mode with
      | error e =>
        rw [error_bind]
        refine ⟨?_, ?_, (fun _ _ h => by cases h)⟩
        · intro h; cases h; exact next_ne hn
        · intro h; cases h; exact next_no_panic hg hn
      | ok p =>
        obtain ⟨a, r1⟩ := p
        rw [ok_bind]
        rcases a with _ | a
        · refine ⟨by simp, by simp, ?_⟩
          intro acc' r' h
          simp only [Except.ok.injEq, Prod.mk.injEq] at h
          obtain ⟨h1, h2⟩ := next_none hg hn
          rw [← h.2]
          exact ⟨h1, by omega⟩
        · obtain ⟨g1, b1, m1, s1, l1, l2, _⟩ := next_some hg hn
          have hr1 : r1.rem + 8 ≤ r.rem := by
            have := g1.2.2.2; have := hg.2.2.2; omega
          simp only
          split
          · split
            · exact ⟨by simp, by simp, (fun _ _ h => by cases h)⟩
            · refine ⟨by simp, by simp, ?_⟩
              intro acc' r' h
              simp only [Except.ok.injEq, Prod.mk.injEq] at h
              rw [← h.2]
              exact ⟨g1, by omega⟩
          · split
            · split
              · exact ⟨by simp, by simp, (fun _ _ h => by cases h)⟩
              · cases hs : skipAtom r1 a.extended a.len with
                | error e =>
                  rw [error_bind]
                  refine ⟨?_, ?_, (fun _ _ h => by cases h)⟩
                  · intro h; cases h; exact skipAtom_ne (Or.inl rfl) hs
                  · intro h; cases h; exact skipAtom_ne (Or.inr rfl) hs
                | ok r2 =>
                  rw [ok_bind]
                  obtain ⟨g2, h2⟩ := skipAtom_ok g1 (by omega) l1 hs
                  obtain ⟨i1, i2, i3⟩ := ih (pos + a.len) acc r2 g2 (by omega)
                  refine ⟨i1, i2, fun acc' r' h => ?_⟩
                  have := i3 acc' r' h
                  exact ⟨this.1, by omega⟩
            · cases ht : typeIndicator r1 mode with
              | error e =>
                rw [error_bind]
                refine ⟨?_, ?_, (fun _ _ h => by cases h)⟩
                · intro h; cases h; exact typeIndicator_ne (Or.inl rfl) ht
                · intro h; cases h; exact typeIndicator_ne (Or.inr rfl) ht
              | ok q =>
                obtain ⟨t, r2⟩ := q
                obtain ⟨g2, h2⟩ := typeIndicator_ok g1 ht
                rw [ok_bind]
                rcases t with _ | code
                · simp only
                  have h3 : (r2.skip (a.len - 9)).rem ≤ r2.rem := Nat.sub_le _ _
                  obtain ⟨i1, i2, i3⟩ := ih (pos + (a.len - 9)) acc (r2.skip (a.len - 9)) (g2.skip _) (by omega)
                  refine ⟨i1, i2, fun acc' r' h => ?_⟩
                  have := i3 acc' r' h
                  exact ⟨this.1, by omega⟩
                · simp only
                  cases hc : dataContent (r2.skip 4) code a.len acc with
                  | error e =>
                    rw [error_bind]
                    refine ⟨?_, ?_, (fun _ _ h => by cases h)⟩
                    · intro h; cases h; exact dataContent_ne (Or.inl rfl) hc
                    · intro h; cases h; exact dataContent_ne (Or.inr rfl) hc
                  | ok q =>
                    obtain ⟨acc2, r3⟩ := q
                    obtain ⟨g3, h3⟩ := dataContent_ok (g2.skip 4) hc
                    have h4 : (r2.skip 4).rem ≤ r2.rem := Nat.sub_le _ _
                    rw [ok_bind]
                    obtain ⟨i1, i2, i3⟩ := ih (pos + a.len) acc2 r3 g3 (by omega)
                    refine ⟨i1, i2, fun acc' r' h => ?_⟩
                    have := i3 acc' r' h
                    exact ⟨this.1, by omega⟩

theorem parseDataInner_total {f : Bytes} (hf : f.length + 8 < 2 ^ 32) {mode : Mode} {r : Rd} (hg : Good f r) (a : Info) :
    parseDataInner r mode a ≠ .error .diverge ∧
    (r.pos ≤ a.start + a.len → parseDataInner r mode a ≠ .error .panic) ∧
    ∀ ds r', parseDataInner r mode a = .ok (ds, r') → Good f r' ∧ r'.rem ≤ r.rem := by
  unfold parseDataInner
  have hk : r.rem < r.f.length + 1 := by rw [hg.1, hg.2.2.2]; omega
  split
  · refine ⟨by simp, ?_, (fun _ _ h => by cases h)⟩
    intro h; omega
  · obtain ⟨h1, h2, h3⟩ := dataLoop_total hf (mode := mode) (toRead := a.start + a.len - r.pos) _ 0 [] r hg hk
    exact ⟨h1, fun _ => h2, h3⟩

end Lofty.Ilst
