import Verif.Lemmas.IffWalk
/-!
# C21: walking over the chunks of arbitrary bytes terminates and stays inside the stream
-/
namespace Lofty.Iff

/-- Any use of the chunk reader: headers are read, contents are read (any number of bytes of
the current chunk at a time) or skipped, in any order.  The list holds the headers
returned. -/
inductive Walk (be strict : Bool) : Chunks → List Hdr → Chunks → Prop
  | stop (c) : Walk be strict c [] c
  | read {c c1 c2 n b hs} : c.readExact n = .ok (b, c1) → Walk be strict c1 hs c2 → Walk be strict c hs c2
  | skip {c c1 c2 hs} : c.skip = .ok c1 → Walk be strict c1 hs c2 → Walk be strict c hs c2
  | next {c c1 c2 h hs} : c.next be strict = .ok (some h, c1) → Walk be strict c1 hs c2 →
      Walk be strict c (h :: hs) c2

/-- Chunk `b` may come directly behind chunk `a`: behind its header and content, at most one
padding byte later, and only when the content has odd size. -/
def Follows (a b : Hdr) : Prop :=
  a.start + 8 + a.size ≤ b.start ∧ b.start ≤ a.start + 8 + a.size + a.size % 2

/-- Each header directly follows the one before it. -/
def Consecutive : List Hdr → Prop
  | a :: b :: l => Follows a b ∧ Consecutive (b :: l)
  | _ => True

/-- The header `h` is in the bytes `f`, in a stream of `size` bytes starting at `base`: a valid
identifier and the size, eight bytes inside the stream. -/
def HeaderAt (be : Bool) (f : Bytes) (base size : Nat) (h : Hdr) : Prop :=
  (f.drop (base + h.start)).take 4 = h.fourcc ∧ FourCC h.fourcc ∧
  (f.drop (base + h.start + 4)).take 4 = (if be then beBytes 4 h.size else leBytes 4 h.size) ∧
  h.start + 8 ≤ size ∧ h.start + h.size ≤ size ∧ base + h.start + 8 ≤ f.length

theorem readAt_eq {f x : Bytes} {p n : Nat} (h : readAt f p n = .ok x) : (f.drop p).take n = x ∧ p + n ≤ f.length := by
  unfold readAt at h
  split at h
  · rename_i h'; cases h; exact ⟨rfl, h'⟩
  · cases h

theorem walk_lemma {be strict : Bool} {c c2 : Chunks} {hs : List Hdr} {f : Bytes} {base size : Nat}
    (hw : Walk be strict c hs c2) (hi : Inv base size f c) :
    (∀ h ∈ hs, HeaderAt be f base size h) ∧ Consecutive hs ∧
    (∀ h, hs.head? = some h → c.lo ≤ h.start ∧ h.start ≤ c.lo + c.cs % 2) := by
  induction hw with
  | stop c => exact ⟨by simp, trivial, by simp⟩
  | read hr hw ih =>
    obtain ⟨i1, i2, i3⟩ := inv_read hi hr
    obtain ⟨j1, j2, j3⟩ := ih i1
    exact ⟨j1, j2, by rw [← i2, ← i3]; exact j3⟩
  | skip hr hw ih =>
    obtain ⟨i1, i2, i3, i4, i5⟩ := inv_skip hi hr
    obtain ⟨j1, j2, j3⟩ := ih i1
    refine ⟨j1, j2, fun h hh => ?_⟩
    obtain ⟨k1, k2⟩ := j3 h hh
    rw [i2] at k2
    omega
  | @next c c1 c2 h hs hr hw ih =>
    unfold Chunks.next at hr
    obtain ⟨c0, hsk, hr⟩ := bind_ok hr
    obtain ⟨⟨i0, i1, i2, i3⟩, i4, i5, i6, i7⟩ := inv_skip hi hsk
    obtain ⟨k1, k2, k3, ⟨s, k4, k5, k6, k7⟩, k8⟩ := header_some hr
    have hpos : c0.pos + c0.remaining = base + size ∧ c0.remaining ≤ size := by omega
    have hlo : c0.lo = h.start := by rw [k2]; unfold Chunks.lo; rw [i5]; rfl
    obtain ⟨j1, j2, j3⟩ := ih (by
      rw [k8]
      refine ⟨i0, i1, i2, ?_⟩
      simp only
      by_cases hle : h.size ≤ c0.remaining - 8
      · left; omega
      · right; omega)
    have hp : c0.pos = base + h.start := by omega
    refine ⟨?_, ?_, ?_⟩
    · intro x hx
      rcases List.mem_cons.mp hx with rfl | hx
      · rw [i0, hp] at k4 k5
        obtain ⟨q1, q2⟩ := readAt_eq k4
        obtain ⟨q3, q4⟩ := readAt_eq k5
        have hl := (readAt_ok k5).2.1
        refine ⟨q1, k6, ?_, by omega, by omega, by omega⟩
        rw [q3, k7]
        cases be
        · simp only [Bool.false_eq_true, if_false]; rw [← hl, leBytes_fromLE]
        · simp only [if_true]; rw [← hl, beBytes_fromBE]
      · exact j1 x hx
    · cases hs with
      | nil => trivial
      | cons y ys =>
        obtain ⟨q1, q2⟩ := j3 y rfl
        have hy := j1 y (by simp)
        have hlo1 : c1.lo = h.start + 8 + h.size ∨ c1.lo = size := by
          rw [k8]; unfold Chunks.lo; simp only
          by_cases hle : h.size ≤ c0.remaining - 8
          · left; omega
          · right; omega
        have hcs : c1.cs = h.size := by rw [k8]
        have := hy.2.2.2.1
        refine ⟨?_, j2⟩
        unfold Follows
        rw [hcs] at q2
        rcases hlo1 with e | e <;> omega
    · intro x hx
      cases hx
      rw [← hlo]
      exact ⟨i6, i7⟩

/-- C21: the headers returned by any use of the reader on any bytes are headers in the stream,
the first one at its beginning, each following one directly behind the chunk before it (and
its padding). -/
theorem walk_headers {be strict : Bool} {f : Bytes} {base size : Nat} {hs : List Hdr} {c : Chunks}
    (hw : Walk be strict (Chunks.new f base size) hs c) :
    (∀ h ∈ hs, HeaderAt be f base size h) ∧ Consecutive hs ∧ (∀ h, hs.head? = some h → h.start = 0) := by
  obtain ⟨h1, h2, h3⟩ := walk_lemma hw (inv_new f base size)
  refine ⟨h1, h2, fun h hh => ?_⟩
  obtain ⟨a, b⟩ := h3 h hh
  simp [Chunks.new, Chunks.lo] at b
  exact b

theorem chain_sum {hs : List Hdr} (hc : Consecutive hs) : ∀ (l : Hdr), hs.getLast? = some l →
    ∀ h, hs.head? = some h → (hs.map fun h => 8 + h.size).sum + h.start ≤ l.start + 8 + l.size ∧ 
      l.start + 8 + l.size ≤ (hs.map fun h => 8 + h.size).sum + h.start + (hs.dropLast.map fun h => h.size % 2).sum := by
  induction hs with
  | nil => intro l hl; cases hl
  | cons a hs ih =>
    intro l hl h hh
    cases hh
    cases hs with
    | nil => cases hl; simp; omega
    | cons b hs =>
      obtain ⟨hab, hc⟩ := hc
      obtain ⟨q1, q2⟩ := ih hc l (by simpa using hl) b rfl
      unfold Follows at hab
      simp only [List.map_cons, List.sum_cons, List.dropLast_cons₂] at q1 q2 ⊢
      omega

/-- C21: on any bytes the chunks visited never take more than the size given: headers and
contents together at most `size + 8` (the reader accepts a last chunk whose size is up to
eight bytes too large), so the contents alone never exceed `size` and there are at most
`size / 8` chunks. -/
theorem walk_sizes {be strict : Bool} {f : Bytes} {base size : Nat} {hs : List Hdr} {c : Chunks}
    (hw : Walk be strict (Chunks.new f base size) hs c) :
    (hs.map fun h => 8 + h.size).sum ≤ size + 8 ∧ (hs.map fun h => h.size).sum ≤ size ∧ 8 * hs.length ≤ size := by
  obtain ⟨h1, h2, h3⟩ := walk_headers hw
  cases hl : hs.getLast? with
  | none => rw [List.getLast?_eq_none_iff] at hl; subst hl; simp
  | some l =>
    have hlm : l ∈ hs := List.mem_of_getLast? hl
    obtain ⟨a, b, d, e, g, k⟩ := h1 l hlm
    obtain ⟨x, hx⟩ : ∃ x, hs.head? = some x := by
      cases hs with
      | nil => cases hl
      | cons x xs => exact ⟨x, rfl⟩
    obtain ⟨q1, q2⟩ := chain_sum h2 l hl x hx
    have q3 := h3 x hx
    have hadd : (hs.map fun h => 8 + h.size).sum = 8 * hs.length + (hs.map fun h => h.size).sum := by
      clear hl hlm h1 h2 h3 hx hw q1 q2
      induction hs with
      | nil => rfl
      | cons y ys ih => simp only [List.map_cons, List.sum_cons, List.length_cons, ih]; omega
    have hone : 1 ≤ hs.length := List.length_pos_of_mem hlm
    have hle : l.size ≤ (hs.map fun h => h.size).sum := by
      obtain ⟨p, s, e⟩ := List.append_of_mem hlm
      rw [e]; simp; omega
    omega

/-- C21: strict progress: each chunk starts at least eight bytes behind the one before it and
behind its content. -/
theorem walk_advances {be strict : Bool} {f : Bytes} {base size : Nat} {hs : List Hdr} {c : Chunks}
    (hw : Walk be strict (Chunks.new f base size) hs c) :
    hs.Pairwise fun a b => a.start + 8 + a.size ≤ b.start := by
  obtain ⟨-, h2, -⟩ := walk_headers hw
  clear hw
  have ht : ∀ {l : List Hdr}, Consecutive l → l.Pairwise fun a b => a.start + 8 + a.size ≤ b.start := by
    intro l hl
    induction l with
    | nil => exact .nil
    | cons a l ih =>
      cases l with
      | nil => simp
      | cons b l =>
        obtain ⟨hab, hl⟩ := hl
        have hp := ih hl
        refine List.pairwise_cons.mpr ⟨fun x hx => ?_, hp⟩
        rcases List.mem_cons.mp hx with rfl | hx
        · exact hab.1
        · have := (List.pairwise_cons.mp hp).1 x hx
          have := hab.1
          omega
  exact ht h2

/-- C21: in relaxed parsing modes, on a file that contains the whole stream, asking for the
next chunk never fails, whatever the bytes are and whatever was read before. -/
theorem walk_next_ok {be strict : Bool} {f : Bytes} {base size : Nat} {hs : List Hdr} {c : Chunks}
    (hw : Walk be strict (Chunks.new f base size) hs c) (hf : base + size ≤ f.length) :
    ∃ r, c.next be false = .ok r := by
  have hi : Inv base size f c := by
    have : ∀ {c0 : Chunks}, Walk be strict c0 hs c → Inv base size f c0 → Inv base size f c := by
      clear hf hw
      intro c0 hw hi
      induction hw with
      | stop => exact hi
      | read hr _ ih => exact ih (inv_read hi hr).1
      | skip hr _ ih => exact ih (inv_skip hi hr).1
      | next hr _ ih =>
        unfold Chunks.next at hr
        obtain ⟨c0, hsk, hr⟩ := bind_ok hr
        obtain ⟨⟨i0, i1, i2, i3⟩, i4, i5, i6, i7⟩ := inv_skip hi hsk
        obtain ⟨k1, k2, k3, -, k8⟩ := header_some hr
        apply ih
        rw [k8]
        refine ⟨i0, i1, i2, ?_⟩
        simp only
        by_cases hle : (c0.remaining - 8) ≥ Hdr.size ‹_›
        · left; omega
        · right; omega
    exact this hw (inv_new f base size)
  clear hw
  have hra : ∀ p n, p + n ≤ base + size → ∃ x, readAt f p n = .ok x := fun p n h =>
    ⟨_, if_pos (by omega)⟩
  have hsk : ∃ c1, c.skip = .ok c1 := by
    obtain ⟨h1, h2, h3, h4⟩ := hi
    unfold Chunks.skip
    simp only
    generalize hc0 : (if c.cr > 0 then { c with pos := c.pos + c.cr, remaining := c.remaining - c.cr, cr := 0 } else c) = c0
    have hinv : c0.f = f ∧ (c0.remaining = 0 ∨ c0.pos + c0.remaining = base + size) := by
      rw [← hc0]
      split
      · refine ⟨h1, ?_⟩
        simp only
        omega
      · refine ⟨h1, ?_⟩
        omega
    obtain ⟨g1, g2⟩ := hinv
    have : ∃ c1, c0.correctPosition c0.cs = .ok c1 := by
      unfold Chunks.correctPosition
      split
      · exact ⟨_, rfl⟩
      · obtain ⟨x, hx⟩ := hra c0.pos 1 (by omega)
        rw [g1, hx, ok_bind]
        split
        · rename_i hh
          obtain ⟨y, hy⟩ := hra (c0.pos + 1) 3 (by omega)
          rw [hy, ok_bind]
          split <;> exact ⟨_, rfl⟩
        · exact ⟨_, rfl⟩
    obtain ⟨c1, hc1⟩ := this
    exact ⟨_, by rw [hc1, ok_bind]⟩
  obtain ⟨c1, hc1⟩ := hsk
  obtain ⟨⟨i0, i1, i2, i3⟩, i4, i5, -, -⟩ := inv_skip hi hc1
  unfold Chunks.next
  rw [hc1, ok_bind]
  unfold Chunks.header
  split
  · exact ⟨_, rfl⟩
  · rename_i h8
    obtain ⟨x, hx⟩ := hra c1.pos 4 (by omega)
    obtain ⟨y, hy⟩ := hra (c1.pos + 4) 4 (by omega)
    rw [i0, hx, ok_bind]
    split
    · exact ⟨_, rfl⟩
    · rw [hy, ok_bind]
      simp only
      generalize (if be then fromBE y else fromLE y) = n
      split <;> exact ⟨_, rfl⟩

/-- C21: the end is final: once there is no next chunk, there never is one again. -/
theorem walk_end_final {be strict : Bool} {f : Bytes} {base size : Nat} {hs : List Hdr} {c c1 : Chunks}
    (_hw : Walk be strict (Chunks.new f base size) hs c) (h : c.next be strict = .ok (none, c1)) :
    c1.next be strict = .ok (none, c1) := by
  unfold Chunks.next at h
  obtain ⟨c0, hsk, h⟩ := bind_ok h
  have hz : c0.cs = 0 ∧ c0.cr = 0 := by
    unfold Chunks.skip at hsk
    simp only at hsk
    obtain ⟨x, hx, hsk⟩ := bind_ok hsk
    cases hsk
    refine ⟨rfl, ?_⟩
    simp only
    rcases correct_cases hx with e | ⟨-, -, e⟩ <;> rw [e] <;> split <;> simp_all
  have hc1 : c1.cs = 0 ∧ c1.cr = 0 ∧ c1.remaining < 8 := by
    unfold Chunks.header at h
    split at h
    · cases h; exact ⟨hz.1, hz.2, by assumption⟩
    · obtain ⟨id, hid, h⟩ := bind_ok h
      split at h
      · split at h
        · cases h
        · cases h; exact ⟨hz.1, hz.2, by simp⟩
      · obtain ⟨s, hs, h⟩ := bind_ok h
        simp only at h
        generalize (if be then fromBE s else fromLE s) = size at h
        split at h
        · split at h
          · cases h
          · cases h; exact ⟨hz.1, hz.2, by simp⟩
        · cases h
  have hp := pend_fresh c1 hc1.1 hc1.2.1
  rw [next_end hp hc1.2.2]
  cases c1
  simp only at hc1
  rw [hc1.1, hc1.2.1]

/-- The last chunk may claim up to eight bytes more than the stream has: here a stream of 12
bytes with one chunk of size 12. -/
theorem walk_oversized :
    ∃ c, Walk false true (Chunks.new (ascii "data" ++ ([12, 0, 0, 0] ++ [1, 2, 3, 4])) 0 12) [⟨ascii "data", 12, 0⟩] c :=
  ⟨_, .next (c1 := ⟨ascii "data" ++ ([12, 0, 0, 0] ++ [1, 2, 3, 4]), 8, 12, 4, 12, 12, none⟩) rfl (.stop _)⟩

/-- Two chunks, the first of odd size without padding byte. -/
example : ∃ c, Walk true true (Chunks.new (ascii "COMM" ++ ([0, 0, 0, 1] ++ (7 :: (ascii "SSND" ++ [0, 0, 0, 0])))) 0 17)
    [⟨ascii "COMM", 1, 0⟩, ⟨ascii "SSND", 0, 9⟩] c :=
  ⟨_, .next (c1 := ⟨ascii "COMM" ++ ([0, 0, 0, 1] ++ (7 :: (ascii "SSND" ++ [0, 0, 0, 0]))), 8, 17, 9, 1, 1, none⟩) rfl
    (.next (c1 := ⟨ascii "COMM" ++ ([0, 0, 0, 1] ++ (7 :: (ascii "SSND" ++ [0, 0, 0, 0]))), 17, 17, 0, 0, 0, none⟩) rfl (.stop _))⟩

end Lofty.Iff
