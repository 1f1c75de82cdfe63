import Verif.Lemmas.Rfind
/-! # C48: backward pattern search -/
namespace Lofty.Rfind

/-- C48, found: if the (non-empty) pattern occurs between the end position and the
start position of the search and the buffer can hold it, the search answers `true`
and leaves the reader at the last occurrence. -/
theorem search_found (f pat : Bytes) (B pos : Nat) (start : Start) (stop : End)
    (hne : pat ≠ []) (hB : pat.length ≤ B) (hs : startPos f pos start ≤ f.length) (i : Nat)
    (hi : LastOccurrence f pat (endPos pos stop) (startPos f pos start) i) :
    search f pat B pos start stop = .ok (true, i) := by
  have hp : 0 < pat.length := List.length_pos_iff.mpr hne
  have h1 := hi.1.1
  have h2 := hi.1.2.1
  unfold search
  rw [if_neg (by simpa using hne)]
  simp only
  rw [if_neg (by omega)]
  rcases loop_spec f pat B (endPos pos stop) (startPos f pos start) (startPos f pos start)
    (startPos f pos start) hs hp hB (Nat.le_refl _) (fun j hj => hj.2.1) with ⟨k, hk, he⟩ | ⟨hno, _⟩
  · have := hi.2 k hk.1
    have := hk.2 i hi.1
    rw [he, show k = i by omega]
  · exact absurd hi.1 (hno i)

/-- C48, not found: if the pattern does not occur in the region, the search answers
`false` (without error). -/
theorem search_not_found (f pat : Bytes) (B pos : Nat) (start : Start) (stop : End)
    (hne : pat ≠ []) (hB : pat.length ≤ B) (hs : startPos f pos start ≤ f.length)
    (hno : ∀ i, ¬ OccursAt f pat (endPos pos stop) (startPos f pos start) i) :
    ∃ p, search f pat B pos start stop = .ok (false, p) := by
  have hp : 0 < pat.length := List.length_pos_iff.mpr hne
  unfold search
  rw [if_neg (by simpa using hne)]
  simp only
  split
  · exact ⟨pos, rfl⟩
  · rcases loop_spec f pat B (endPos pos stop) (startPos f pos start) (startPos f pos start)
      (startPos f pos start) hs hp hB (Nat.le_refl _) (fun j hj => hj.2.1) with ⟨k, hk, _⟩ | ⟨_, h⟩
    · exact absurd hk.1 (hno k)
    · exact h

/-- The default search (`rfind(pattern).search()`): the whole stream, from any
reader position, with the default 1024-byte buffer. -/
theorem rfind_default (f pat : Bytes) (pos : Nat) (hne : pat ≠ []) (hB : pat.length ≤ 1024) :
    (∃ i, search f pat 1024 pos .fromEnd .streamStart = .ok (true, i) ∧
        LastOccurrence f pat 0 f.length i) ∨
    (∃ p, search f pat 1024 pos .fromEnd .streamStart = .ok (false, p) ∧
        ∀ i, ¬ OccursAt f pat 0 f.length i) := by
  have hp : 0 < pat.length := List.length_pos_iff.mpr hne
  rcases loop_spec f pat 1024 0 f.length f.length f.length (Nat.le_refl _) hp hB (Nat.le_refl _)
    (fun j hj => hj.2.1) with ⟨k, hk, _⟩ | ⟨hno, _⟩
  · exact .inl ⟨k, search_found f pat 1024 pos .fromEnd .streamStart hne hB (Nat.le_refl _) k hk, hk⟩
  · obtain ⟨p, hp'⟩ := search_not_found f pat 1024 pos .fromEnd .streamStart hne hB (Nat.le_refl _) hno
    exact .inr ⟨p, hp', hno⟩

/-- The documented "Otherwise, the reader will be at the original position" is
false: searching `[9]` in a three-byte stream from position 1 ends at position 1+2. -/
theorem search_not_found_moves_reader :
    ∃ (f pat : Bytes) (pos p : Nat), search f pat 2 pos .fromEnd .streamStart = .ok (false, p)
      ∧ p ≠ pos := by
  refine ⟨[1, 2, 3], [9], 2, 1, ?_, by decide⟩
  simp [search, startPos, endPos, loop, readAt, lastMatch, List.range, List.range.loop]

/-- A pattern longer than the buffer is reported as absent even when present. -/
theorem search_buffer_too_small (f pat : Bytes) (B pos : Nat) (start : Start) (stop : End)
    (hne : pat ≠ []) (hB : B < pat.length) :
    search f pat B pos start stop = .ok (false, pos) := by
  unfold search
  rw [if_neg (by simpa using hne)]
  simp only
  rw [if_pos (.inr (.inr hB))]

/-- The hypotheses are met by a pattern straddling the 2-byte buffer boundary. -/
example : LastOccurrence [7, 1, 2, 7, 1, 2, 7] [1, 2] 0 7 4 := by
  refine ⟨⟨by decide, by decide, by decide⟩, ?_⟩
  intro j hj
  have h2 : j + 2 ≤ 7 := hj.2.1
  have h3 : (([7, 1, 2, 7, 1, 2, 7] : Bytes).drop j).take 2 = [1, 2] := hj.2.2
  apply Nat.le_of_not_lt
  intro h
  rw [show j = 5 by omega] at h3
  exact absurd h3 (by decide)

end Lofty.Rfind
