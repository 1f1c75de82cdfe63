import Verif.Lemmas.Iff
/-! Helper lemmas for walking over the chunks of arbitrary bytes. -/
namespace Lofty.Iff

/-- The earliest offset (from the start of the stream) of the next chunk. -/
def Chunks.lo (c : Chunks) : Nat := c.total - (c.remaining - c.cr)

/-- The state of the reader: either the current chunk is inside the stream and the position
of the reader is the one accounted for, or the current chunk is the last one. -/
def Inv (base total : Nat) (f : Bytes) (c : Chunks) : Prop :=
  c.f = f ∧ c.total = total ∧ c.lock = none ∧
    ((c.cr ≤ c.remaining ∧ c.pos + c.remaining = base + total ∧ c.remaining ≤ total) ∨ c.remaining ≤ c.cr)

theorem inv_new (f : Bytes) (base size : Nat) : Inv base size f (Chunks.new f base size) :=
  ⟨rfl, rfl, rfl, Or.inl ⟨Nat.zero_le _, rfl, Nat.le_refl _⟩⟩

theorem inv_read {base total : Nat} {f b : Bytes} {c c1 : Chunks} {n : Nat} (hi : Inv base total f c)
    (h : c.readExact n = .ok (b, c1)) :
    Inv base total f c1 ∧ c1.cs = c.cs ∧ c1.lo = c.lo := by
  unfold Chunks.readExact at h
  split at h
  · obtain ⟨x, hx, h⟩ := bind_ok h
    cases h
    obtain ⟨h1, h2, h3, h4⟩ := hi
    refine ⟨⟨h1, h2, h3, ?_⟩, rfl, ?_⟩
    · simp only
      rcases h4 with h4 | h4
      · left; omega
      · right; omega
    · unfold Chunks.lo; simp only; congr 1; omega
  · cases h

/-- The effect of `correctPosition` on a reader that is behind a chunk. -/
theorem correct_cases {c c1 : Chunks} {n : Nat} (h : c.correctPosition n = .ok c1) :
    c1 = c ∨ (n % 2 = 1 ∧ 1 ≤ c.remaining ∧ c1 = { c with pos := c.pos + 1, remaining := c.remaining - 1 }) := by
  unfold Chunks.correctPosition at h
  split at h
  · cases h; exact Or.inl rfl
  · rename_i hn
    obtain ⟨p, hp, h⟩ := bind_ok h
    split at h
    · obtain ⟨r, hr, h⟩ := bind_ok h
      split at h
      · cases h; exact Or.inl rfl
      · cases h; exact Or.inr ⟨by omega, by omega, rfl⟩
    · cases h; exact Or.inr ⟨by omega, by omega, rfl⟩

theorem inv_skip {base total : Nat} {f : Bytes} {c c1 : Chunks} (hi : Inv base total f c) (h : c.skip = .ok c1) :
    Inv base total f c1 ∧ c1.cs = 0 ∧ c1.cr = 0 ∧ c.lo ≤ c1.lo ∧ c1.lo ≤ c.lo + c.cs % 2 := by
  unfold Chunks.skip at h
  obtain ⟨h1, h2, h3, h4⟩ := hi
  have e : (if c.cr > 0 then { c with pos := c.pos + c.cr, remaining := c.remaining - c.cr, cr := 0 } else c)
      = { c with pos := c.pos + c.cr, remaining := c.remaining - c.cr, cr := 0 } := by
    split
    · rfl
    · have : c.cr = 0 := by omega
      cases c; simp_all
  simp only [e] at h
  obtain ⟨x, hx, h⟩ := bind_ok h
  cases h
  rcases correct_cases hx with hx | ⟨hn, hr, hx⟩
  · subst hx
    refine ⟨⟨h1, h2, h3, ?_⟩, rfl, rfl, ?_, ?_⟩
    · simp only
      rcases h4 with h4 | h4
      · left; omega
      · right; omega
    · unfold Chunks.lo; simp
    · unfold Chunks.lo; simp
  · subst hx
    simp only at hr hn
    refine ⟨⟨h1, h2, h3, ?_⟩, rfl, rfl, ?_, ?_⟩
    · simp only
      rcases h4 with h4 | h4
      · left; omega
      · right; omega
    · unfold Chunks.lo; simp only; omega
    · unfold Chunks.lo; simp only; omega

theorem header_some {be strict : Bool} {c c1 : Chunks} {h : Hdr} (hh : c.header be strict = .ok (some h, c1)) :
    8 ≤ c.remaining ∧ h.start = c.total - c.remaining ∧ h.size ≤ c.remaining ∧
    (∃ s, readAt c.f c.pos 4 = .ok h.fourcc ∧ readAt c.f (c.pos + 4) 4 = .ok s ∧ FourCC h.fourcc ∧
      h.size = if be then fromBE s else fromLE s) ∧
    c1 = { c with pos := c.pos + 8, remaining := c.remaining - 8, cs := h.size, cr := h.size } := by
  unfold Chunks.header at hh
  split at hh
  · cases hh
  · obtain ⟨id, hid, hh⟩ := bind_ok hh
    have hl := (readAt_ok hid).2.1
    split at hh
    · split at hh <;> cases hh
    · rename_i hv
      obtain ⟨s, hs, hh⟩ := bind_ok hh
      simp only at hh
      generalize hsz : (if be then fromBE s else fromLE s) = size at hh
      split at hh
      · split at hh <;> cases hh
      · rename_i hz
        cases hh
        exact ⟨by omega, rfl, by simp only; omega,
          ⟨s, hid, hs, (validFourcc_iff hl).mp (by simpa using hv), hsz.symm⟩, rfl⟩

end Lofty.Iff
