import Verif.Model.OggProps
import Verif.Lemmas.NoErr
import Verif.Lemmas.OggRead
import Verif.Props.Rfind
import Verif.Props.Ogg
/-! Helper lemmas for the properties of OGG streams. -/
namespace Lofty.Ogg

/-- What holds of the variables of `read_count` between segments: everything read belongs to a packet. -/
structure Sound (count : Int) (st : ReadState) : Prop where
  content : st.content.length = st.sizes.sum + st.already.getD 0
  already : st.already.getD 0 ≤ st.size
  read : st.packetsRead = st.sizes.length
  less : (st.sizes.length : Int) < count

theorem byteCount_fst (size : Nat) (a : Option Nat) : (byteCountToRead size a).1 = size - a.getD 0 := by
  cases a <;> rfl

theorem byteCount_snd (size : Nat) (a : Option Nat) (h : a.getD 0 ≤ size) :
    (byteCountToRead size a).2 = some size := by
  cases a with
  | none => rfl
  | some x => simp only [byteCountToRead, Option.getD_some] at *; congr 1; omega

theorem readSegments_sound {count : Int} (hc : count ≠ -1) (segs : List UInt8) {st st' : ReadState} {d d' : Bytes}
    {b : Bool} (hs : Sound count st) (h : readSegments count segs st d = .ok (st', d', b)) :
    st'.content.length + d'.length = st.content.length + d.length ∧
    (b = false → Sound count st') ∧
    (b = true → st'.sizes.sum ≤ st'.content.length ∧ (st'.sizes.length : Int) = count) := by
  induction segs generalizing st d with
  | nil =>
    simp only [readSegments, Except.ok.injEq, Prod.mk.injEq] at h
    obtain ⟨rfl, rfl, rfl⟩ := h
    exact ⟨rfl, fun _ => hs, fun h => by cases h⟩
  | cons i segs ih =>
    simp only [readSegments] at h
    split at h
    · obtain ⟨⟨c, d1⟩, h1, h2⟩ := bind_ok h
      obtain ⟨rfl, hl⟩ := readN_ok h1
      rw [byteCount_fst] at hl
      simp only at hl h2
      have hlen : (st.content ++ c).length = (st.sizes ++ [st.size + i.toNat]).sum := by
        have := hs.content
        have := hs.already
        rw [List.length_append, List.sum_append, hl]
        simp only [List.sum_cons, List.sum_nil]
        omega
      have hbump : bumpRead count st.packetsRead = ((st.sizes ++ [st.size + i.toNat]).length : Int) := by
        unfold bumpRead
        rw [if_pos hc, hs.read]
        simp
      split at h2
      next hstop =>
        simp only [Except.ok.injEq, Prod.mk.injEq] at h2
        obtain ⟨rfl, rfl, rfl⟩ := h2
        refine ⟨?_, fun h => (by cases h), fun _ => ⟨?_, ?_⟩⟩
        · simp only [List.length_append]; omega
        · exact Nat.le_of_eq hlen.symm
        · rw [← hstop]; exact hbump.symm
      next hgo =>
        have hs' : Sound count ⟨st.content ++ c, st.sizes ++ [st.size + i.toNat], bumpRead count st.packetsRead, 0,
            none⟩ := by
          refine ⟨hlen, Nat.zero_le _, hbump, ?_⟩
          have := hs.less
          simp only at hgo ⊢
          rw [hbump] at hgo
          rw [List.length_append] at hgo ⊢
          simp only [List.length_singleton] at hgo ⊢
          omega
        obtain ⟨e, r⟩ := ih hs' h2
        refine ⟨?_, r⟩
        simp only [List.length_append] at e ⊢
        omega
    · have hs' : Sound count { st with size := st.size + i.toNat } :=
        ⟨hs.content, Nat.le_trans hs.already (Nat.le_add_right _ _), hs.read, hs.less⟩
      have r := ih hs' h
      exact r

theorem readPages_sound {count : Int} (hc : count ≠ -1) (fuel : Nat) {st st' : ReadState} {d : Bytes} {rest : Option Bytes}
    (hs : Sound count st) (h : readPages count fuel st d = .ok (st', rest)) :
    (rest = none ∧ (st'.sizes.length : Int) < count) ∨
    (∃ r, rest = some r ∧ st'.content.length + r.length ≤ st.content.length + d.length ∧
      st'.sizes.sum ≤ st'.content.length ∧ (st'.sizes.length : Int) = count) := by
  induction fuel generalizing st d with
  | zero => cases h
  | succ fuel ih =>
    simp only [readPages] at h
    cases hh : PageHeader.read 0 d with
    | error e =>
      rw [hh] at h
      simp only [Except.ok.injEq, Prod.mk.injEq] at h
      obtain ⟨rfl, rfl⟩ := h
      exact .inl ⟨rfl, hs.less⟩
    | ok v =>
      obtain ⟨hd, d1⟩ := v
      have hl := header_read_lt hh
      rw [hh] at h
      simp only at h
      obtain ⟨⟨st1, d2, b⟩, h1, h2⟩ := bind_ok h
      obtain ⟨e1, hf, ht⟩ := readSegments_sound hc _ hs h1
      cases b with
      | true =>
        simp only [if_true, Except.ok.injEq, Prod.mk.injEq] at h2
        obtain ⟨rfl, rfl⟩ := h2
        obtain ⟨a1, a2⟩ := ht rfl
        exact .inr ⟨d2, rfl, by omega, a1, a2⟩
      | false =>
        have hs1 := hf rfl
        simp only [Bool.false_eq_true, if_false] at h2
        split at h2
        · obtain ⟨⟨c, d3⟩, h3, h4⟩ := bind_ok h2
          obtain ⟨rfl, hcl⟩ := readN_ok h3
          rw [byteCount_fst] at hcl
          simp only at h4
          have hal := hs1.already
          have hco := hs1.content
          rw [byteCount_snd _ _ hal] at h4
          have hs2 : Sound count { st1 with already := some st1.size, content := st1.content ++ c } := by
            refine ⟨?_, Nat.le_refl _, hs1.read, hs1.less⟩
            simp only [List.length_append, Option.getD_some]
            omega
          rcases ih hs2 h4 with r | ⟨r, r1, r2, r3⟩
          · exact .inl r
          · refine .inr ⟨r, r1, ?_, r3⟩
            simp only [List.length_append] at r2 e1
            omega
        · rcases ih hs1 h2 with r | ⟨r, r1, r2, r3⟩
          · exact .inl r
          · exact .inr ⟨r, r1, by omega, r3⟩

/-- A counted read gives exactly that many packets, all inside the bytes consumed. -/
theorem readCount_sound {d : Bytes} {count : Nat} (h0 : 0 < count) {p : Packets} {rest : Option Bytes}
    (h : Packets.readCount d count = .ok (p, rest)) :
    ∃ r, rest = some r ∧ p.content.length + r.length ≤ d.length ∧ p.sizes.sum ≤ p.content.length ∧
      p.sizes.length = count := by
  have hc : (count : Int) ≠ -1 := by omega
  unfold Packets.readCount at h
  rw [if_neg (by omega)] at h
  obtain ⟨⟨st, rest'⟩, h1, h2⟩ := bind_ok h
  simp only at h2
  have hs : Sound count { content := [], sizes := [], packetsRead := 0, size := 0, already := none } :=
    ⟨rfl, Nat.le_refl _, rfl, by simpa using h0⟩
  split at h2
  · cases h2
  · next hn =>
    simp only [Except.ok.injEq, Prod.mk.injEq] at h2
    obtain ⟨rfl, rfl⟩ := h2
    rcases readPages_sound hc _ hs h1 with ⟨_, r2⟩ | ⟨r, r1, r2, r3, r4⟩
    · exact absurd ⟨hc, Int.ne_of_lt r2⟩ hn
    · exact ⟨r, r1, by simpa using r2, r3, by exact_mod_cast r4⟩

theorem readPages_ne {e : Err} (h1 : e ≠ .eof) (h2 : e ≠ .diverge) (count : Int) (fuel : Nat) (st : ReadState) (d : Bytes) :
    readPages count fuel st d ≠ .error e := by
  have hseg : ∀ segs st d, readSegments count segs st d ≠ .error e := by
    intro segs
    induction segs with
    | nil => intro st d h; cases h
    | cons i segs ih =>
      intro st d
      simp only [readSegments]
      split
      · refine bind_ne (readN_ne h1 _ _) fun a => ?_
        split
        · intro h; cases h
        · exact ih _ _
      · exact ih _ _
  induction fuel generalizing st d with
  | zero => intro h; cases h; exact h2 rfl
  | succ fuel ih =>
    simp only [readPages]
    cases PageHeader.read 0 d with
    | error e => simp
    | ok v =>
      simp only
      refine bind_ne (hseg _ _ _) fun a => ?_
      split
      · intro h; cases h
      · split
        · exact bind_ne (readN_ne h1 _ _) fun b => ih _ _
        · exact ih _ _

theorem readCount_ne {e : Err} (h1 : e ≠ .eof) (h3 : e ≠ .notEnough) (d : Bytes) (count : Int) :
    Packets.readCount d count ≠ .error e := by
  by_cases hd : e = .diverge
  · subst hd; exact readCount_terminates d count
  unfold Packets.readCount
  split
  · simp
  · refine bind_ne (readPages_ne h1 hd _ _ _ _) fun a => ?_
    simp only
    split
    · intro h; cases h; exact h3 rfl
    · simp

theorem header_ne {e : Err} (h1 : e ≠ .eof) (h2 : e ≠ .parse) (pos : Nat) (d : Bytes) :
    PageHeader.read pos d ≠ .error e := by
  unfold PageHeader.read
  refine bind_ne (readN_ne h1 _ _) fun ⟨_, _⟩ => ?_
  try dsimp only
  split
  · intro h; cases h; exact h2 rfl
  refine bind_ne (readU8_ne h1 _) fun ⟨_, _⟩ => ?_
  try dsimp only
  split
  · intro h; cases h; exact h2 rfl
  refine bind_ne (readU8_ne h1 _) fun a => bind_ne (readLE_ne h1 _ _) fun a => bind_ne (readLE_ne h1 _ _) fun a =>
    bind_ne (readLE_ne h1 _ _) fun a => bind_ne (readLE_ne h1 _ _) fun a => bind_ne (readU8_ne h1 _) fun ⟨_, _⟩ => ?_
  try dsimp only
  split
  · intro h; cases h; exact h2 rfl
  exact bind_ne (readN_ne h1 _ _) fun a => by simp

theorem page_ne {e : Err} (h1 : e ≠ .eof) (h2 : e ≠ .parse) (pos : Nat) (d : Bytes) : Page.read pos d ≠ .error e := by
  unfold Page.read
  exact bind_ne (header_ne h1 h2 _ _) fun a => bind_ne (readN_ne h1 _ _) fun b => by simp

theorem header_start {pos : Nat} {d rest : Bytes} {h : PageHeader} (hr : PageHeader.read pos d = .ok (h, rest)) :
    h.start = pos := (header_read_ok hr).2.2.2.2.2.2.2

end Lofty.Ogg
