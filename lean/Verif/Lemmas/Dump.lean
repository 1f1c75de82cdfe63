import Verif.Model.Dump
import Verif.Lemmas.Bytes
import Verif.Lemmas.File
import Verif.Props.FlacMove
/-! Lemmas for C82. -/
namespace Lofty.Save

/-- `d` occurs in `g`, at position `n` or later. -/
def At (n : Nat) (d g : Bytes) : Prop := ∃ pre post, g = pre ++ (d ++ post) ∧ n ≤ pre.length

theorem At.infix {n : Nat} {d g : Bytes} (h : At n d g) : d <:+: g := by
  obtain ⟨pre, post, rfl, _⟩ := h
  exact ⟨pre, post, by simp⟩

theorem At.mono {n m : Nat} {d g : Bytes} (h : At n d g) (hm : m ≤ n) : At m d g := by
  obtain ⟨pre, post, e, hp⟩ := h
  exact ⟨pre, post, e, by omega⟩

theorem At.writeAt {n p : Nat} {d g w : Bytes} (h : At n d g) (hp : p + w.length ≤ n) : At n d (writeAt g p w) := by
  obtain ⟨pre, post, rfl, hn⟩ := h
  rw [writeAt_eq (by simp; omega)]
  refine ⟨pre.take p ++ w ++ pre.drop (p + w.length), post, ?_, by simp; omega⟩
  rw [List.take_append_of_le_length (by omega), List.drop_append_of_le_length (by omega)]
  simp

theorem At.splice {n a b : Nat} {d g w g' : Bytes} (h : At n d g) (hw : w.length = b - a) (hb : b ≤ n)
    (hs : Iff.splice g a b w = .ok g') : At n d g' := by
  obtain ⟨pre, post, rfl, hn⟩ := h
  unfold Iff.splice at hs
  split at hs
  · obtain rfl := (Except.ok.injEq _ _).mp hs
    refine ⟨pre.take a ++ w ++ pre.drop b, post, ?_, by simp; omega⟩
    rw [List.take_append_of_le_length (by omega), List.drop_append_of_le_length (by omega)]
    simp
  · cases hs

theorem at_splice {a b : Nat} {w g g' : Bytes} (hs : Iff.splice g a b w = .ok g') : At a w g' := by
  unfold Iff.splice at hs
  split at hs
  · obtain rfl := (Except.ok.injEq _ _).mp hs
    exact ⟨g.take a, g.drop b, by simp, by simp; omega⟩
  · cases hs

/-! ## WAV and AIFF -/

theorem skip_pos {c c' : Iff.Chunks} (h : c.skip = .ok c') : c.pos ≤ c'.pos ∧ c'.remaining ≤ c.remaining ∧ c'.total = c.total := by
  have key : ∀ (c : Iff.Chunks) (n : Nat) (c' : Iff.Chunks), c.correctPosition n = .ok c' →
      c.pos ≤ c'.pos ∧ c'.remaining ≤ c.remaining ∧ c'.total = c.total := by
    intro c n c' h
    unfold Iff.Chunks.correctPosition at h
    split at h
    · obtain rfl := (Except.ok.injEq _ _).mp h; simp
    · obtain ⟨p, _, h⟩ := bind_ok h
      split at h
      · obtain ⟨r, _, h⟩ := bind_ok h
        split at h
        · obtain rfl := (Except.ok.injEq _ _).mp h; simp
        · obtain rfl := (Except.ok.injEq _ _).mp h; simp
      · obtain rfl := (Except.ok.injEq _ _).mp h; simp
  unfold Iff.Chunks.skip at h
  obtain ⟨c1, h1, h⟩ := bind_ok h
  obtain rfl := (Except.ok.injEq _ _).mp h
  have := key _ _ _ h1
  split at this
  · simp only at this ⊢; omega
  · exact this

theorem next_pos {be strict : Bool} {c c' : Iff.Chunks} {h : Iff.Hdr} (hn : c.next be strict = .ok (some h, c')) :
    c.pos + 8 ≤ c'.pos ∧ c'.total = c.total ∧ c'.remaining ≤ c.remaining := by
  unfold Iff.Chunks.next at hn
  obtain ⟨c1, h1, hn⟩ := bind_ok hn
  have := skip_pos h1
  unfold Iff.Chunks.header at hn
  split at hn
  · cases (Except.ok.injEq _ _).mp hn
  · obtain ⟨id, _, hn⟩ := bind_ok hn
    split at hn
    · split at hn
      · cases hn
      · cases (Except.ok.injEq _ _).mp hn
    · obtain ⟨s, _, hn⟩ := bind_ok hn
      simp only at hn
      generalize (if be = true then fromBE s else fromLE s) = size at hn
      split at hn
      · split at hn
        · cases hn
        · cases (Except.ok.injEq _ _).mp hn
      · have := (Except.ok.injEq _ _).mp hn
        simp only [Prod.mk.injEq] at this
        obtain ⟨_, rfl⟩ := this
        simp only
        omega

theorem findInfo_pos {strict : Bool} : ∀ (n : Nat) (c : Iff.Chunks) (size pos : Nat), Iff.findInfo strict n c = .ok (some (size, pos)) →
    c.pos + 12 ≤ pos := by
  intro n
  induction n with
  | zero => intro c size pos h; cases h
  | succ n ih =>
    intro c size pos h
    unfold Iff.findInfo at h
    obtain ⟨⟨hd, c1⟩, h1, h⟩ := bind_ok h
    cases hd with
    | none => cases (Except.ok.injEq _ _).mp h
    | some hd =>
      have h2 := (next_pos h1).1
      simp only at h
      split at h
      · have := ih _ _ _ h; omega
      · obtain ⟨⟨ty, c2⟩, h3, h⟩ := bind_ok h
        have h4 : c2.pos = c1.pos + 4 := by
          unfold Iff.Chunks.readExact at h3
          split at h3
          · obtain ⟨b, _, h3⟩ := bind_ok h3
            have := (Except.ok.injEq _ _).mp h3
            simp only [Prod.mk.injEq] at this
            rw [← this.2]
          · cases h3
        simp only at h
        split at h
        · have := (Except.ok.injEq _ _).mp h
          simp only [Option.some.injEq, Prod.mk.injEq] at this
          omega
        · have := ih _ _ _ h; omega

theorem findId3Loop_range {be strict : Bool} : ∀ (n : Nat) (c : Iff.Chunks) (a b : Nat),
    IffFiles.findId3Loop be strict n c = .ok (some (a, b)) → 12 ≤ a ∧ b ≤ c.total + 12 := by
  intro n
  induction n with
  | zero => intro c a b h; cases h
  | succ n ih =>
    intro c a b h
    unfold IffFiles.findId3Loop at h
    obtain ⟨⟨hd, c1⟩, h1, h⟩ := bind_ok h
    cases hd with
    | none => cases (Except.ok.injEq _ _).mp h
    | some hd =>
      have h2 := next_pos h1
      simp only at h
      split at h
      · obtain ⟨c2, h3, h⟩ := bind_ok h
        have := skip_pos h3
        have e := (Except.ok.injEq _ _).mp h
        simp only [Option.some.injEq, Prod.mk.injEq] at e
        unfold Iff.Chunks.streamPosition at e
        omega
      · have := ih _ _ _ h; omega

theorem findId3_range {be strict : Bool} {f : Bytes} {stream a b : Nat} (h : IffFiles.findId3 be strict f = .ok (stream, some (a, b))) :
    12 ≤ a ∧ b ≤ stream + 4 := by
  unfold IffFiles.findId3 at h
  obtain ⟨⟨hd, c⟩, h1, h⟩ := bind_ok h
  cases hd with
  | none => cases h
  | some hd =>
    simp only at h
    split at h
    · cases h
    · obtain ⟨r, h2, h⟩ := bind_ok h
      have e := (Except.ok.injEq _ _).mp h
      simp only [Prod.mk.injEq] at e
      obtain ⟨rfl, rfl⟩ := e
      have := findId3Loop_range _ _ _ _ h2
      simp only [Iff.Chunks.new] at this
      omega

theorem findId3_stream {be strict : Bool} {f : Bytes} {stream : Nat} {old : Option (Nat × Nat)}
    (h : IffFiles.findId3 be strict f = .ok (stream, old)) : 8 ≤ stream ∧ stream ≤ f.length := by
  unfold IffFiles.findId3 at h
  obtain ⟨⟨hd, c⟩, h1, h⟩ := bind_ok h
  cases hd with
  | none => cases h
  | some hd =>
    simp only at h
    split at h
    · cases h
    · obtain ⟨r, h2, h⟩ := bind_ok h
      have e := (Except.ok.injEq _ _).mp h
      simp only [Prod.mk.injEq] at e
      omega

theorem At.setStream {n len : Nat} {be : Bool} {d g g' : Bytes} (h : At n d g) (hn : 8 ≤ n) (hs : IffFiles.setStream be g len = .ok g') :
    At n d g' := by
  unfold IffFiles.setStream at hs
  split at hs
  · cases hs
  · obtain rfl := (Except.ok.injEq _ _).mp hs
    refine h.writeAt ?_
    have : (IffFiles.u32 be (len % 2 ^ 32 - 8)).length = 4 := by cases be <;> rfl
    omega

theorem u32_length (be : Bool) (n : Nat) : (IffFiles.u32 be n).length = 4 := by cases be <;> rfl

theorem at_tagChunk {be upper : Bool} (tag : Bytes) : At 8 tag (IffFiles.tagChunk be upper tag) := by
  refine ⟨(if upper then ascii "ID3 " else ascii "id3 ") ++ IffFiles.u32 be tag.length, if tag.length % 2 ≠ 0 then [0] else [], ?_, ?_⟩
  · simp [IffFiles.tagChunk]
  · rw [List.length_append, u32_length]; cases upper <;> decide

theorem tagChunk_size {be upper : Bool} {tag : Bytes} (h : tag ≠ []) : (IffFiles.tagChunk be upper tag).length = IffFiles.tagChunkSize tag := by
  have : (if upper then ascii "ID3 " else ascii "id3 ").length = 4 := by cases upper <;> decide
  have e : tag.isEmpty = false := by cases tag <;> simp_all
  simp only [IffFiles.tagChunk, IffFiles.tagChunkSize, List.length_append, u32_length, this, e]
  split <;> simp <;> omega

theorem At.inside {n m : Nat} {d x g : Bytes} (h : At n d x) (hx : At m x g) : At (m + n) d g := by
  obtain ⟨a, b, rfl, h1⟩ := h
  obtain ⟨c, e, rfl, h2⟩ := hx
  exact ⟨c ++ a, b ++ e, by simp, by simp; omega⟩

theorem writeAt_parts (p : Nat) (f w : Bytes) :
    ∃ pre, Lofty.writeAt f p w = pre ++ (w ++ f.drop (p + w.length)) ∧ pre.length = p :=
  ⟨f.take p ++ List.replicate (p - f.length) 0, by simp [Lofty.writeAt], by simp; omega⟩

theorem at_writeAt (p : Nat) (f w : Bytes) : At p w (Lofty.writeAt f p w) := by
  obtain ⟨pre, e, h⟩ := writeAt_parts p f w
  exact ⟨pre, _, e, by omega⟩

theorem rewrite_at {be upper : Bool} {f tag g : Bytes} {stream : Nat} {old : Option (Nat × Nat)} (ht : tag ≠ []) (h8 : 8 ≤ stream)
    (hr : ∀ a b, old = some (a, b) → 12 ≤ a ∧ b ≤ stream + 4) (h : IffFiles.rewrite be upper f tag stream old = .ok g) : tag <:+: g := by
  have e : tag.isEmpty = false := by cases tag <;> simp_all
  unfold IffFiles.rewrite at h
  rw [e] at h
  obtain ⟨g1, h1, h⟩ := bind_ok h
  simp only [Bool.false_eq_true, if_false] at h1
  cases old with
  | none => exact (((at_tagChunk tag).inside (at_splice h1)).setStream (by omega) h).infix
  | some r =>
    obtain ⟨a, b⟩ := r
    obtain ⟨r1, r2⟩ := hr a b rfl
    simp only at h
    split at h
    · cases h
    · obtain ⟨g2, h2, h⟩ := bind_ok h
      refine At.infix (n := 12) (At.setStream ?_ (by omega) h)
      unfold Iff.splice at h1 h2
      split at h1
      · rename_i hs1
        obtain rfl := (Except.ok.injEq _ _).mp h1
        split at h2
        · obtain rfl := (Except.ok.injEq _ _).mp h2
          refine ⟨((f.take stream ++ IffFiles.tagChunk be upper tag ++ f.drop stream).take a) ++
            (f.take stream ++ ((if upper then ascii "ID3 " else ascii "id3 ") ++ IffFiles.u32 be tag.length)).drop b,
            (if tag.length % 2 ≠ 0 then [0] else []) ++ f.drop stream, ?_, ?_⟩
          · have l4 : (if upper then ascii "ID3 " else ascii "id3 ").length = 4 := by cases upper <;> decide
            have e1 : f.take stream ++ IffFiles.tagChunk be upper tag ++ f.drop stream =
                (f.take stream ++ ((if upper then ascii "ID3 " else ascii "id3 ") ++ IffFiles.u32 be tag.length)) ++
                  (tag ++ ((if tag.length % 2 ≠ 0 then [0] else []) ++ f.drop stream)) := by
              simp [IffFiles.tagChunk]
            have : (f.take stream ++ IffFiles.tagChunk be upper tag ++ f.drop stream).drop b =
                (f.take stream ++ ((if upper then ascii "ID3 " else ascii "id3 ") ++ IffFiles.u32 be tag.length)).drop b ++
                  (tag ++ ((if tag.length % 2 ≠ 0 then [0] else []) ++ f.drop stream)) := by
              rw [e1, List.drop_append_of_le_length (by
                rw [List.length_append, List.length_take, List.length_append, l4, u32_length]; omega)]
            rw [this]; simp
          · rename_i hs2
            have : 12 ≤ ((f.take stream ++ IffFiles.tagChunk be upper tag ++ f.drop stream).take a).length := by
              rw [List.length_take]; omega
            rw [List.length_append]; omega
        · cases h2
      · cases h1

theorem overwriteLast_at {be upper : Bool} {f tag g : Bytes} {stream a b : Nat} (ht : tag ≠ []) (ha : 12 ≤ a)
    (h : IffFiles.overwriteLast be upper f tag stream a b = .ok g) : tag <:+: g := by
  have e : tag.isEmpty = false := by cases tag <;> simp_all
  have base : At a (IffFiles.tagChunk be upper tag) (writeAt f a (IffFiles.tagChunk be upper tag)) := at_writeAt _ _ _
  unfold IffFiles.overwriteLast at h
  rw [e] at h
  simp only [Bool.false_eq_true, if_false] at h
  split at h
  · rename_i hgt
    split at h
    · cases h
    · refine At.infix (n := 12) (At.setStream ?_ (by omega) h)
      refine At.mono (n := a + 8) ((at_tagChunk (be := be) (upper := upper) tag).inside ?_) (by omega)
      obtain ⟨pre, e1, hl⟩ := writeAt_parts a f (IffFiles.tagChunk be upper tag)
      refine ⟨pre, [], ?_, by omega⟩
      have hc := tagChunk_size (be := be) (upper := upper) ht
      rw [truncate, e1, ← List.append_assoc, List.take_append_of_le_length (by rw [List.length_append, hl, hc]; omega),
        List.take_of_length_le (by rw [List.length_append, hl, hc]; omega), List.append_nil]
  · split at h
    · cases h
    · exact At.infix (n := 12) (At.setStream (At.mono ((at_tagChunk (be := be) (upper := upper) tag).inside base) (by omega)) (by omega) h)

theorem writeChunkFile_at {be isWav strict upper padded : Bool} {f tag g : Bytes} (ht : tag ≠ [])
    (h : IffFiles.writeChunkFile be isWav strict upper padded f tag = .ok g) : tag <:+: g := by
  have e : tag.isEmpty = false := by cases tag <;> simp_all
  unfold IffFiles.writeChunkFile at h
  obtain ⟨⟨stream, old⟩, h1, h⟩ := bind_ok h
  have hs := findId3_stream h1
  cases old with
  | none =>
    simp only [e, Bool.false_eq_true, if_false] at h
    exact rewrite_at ht hs.1 (fun a b hx => by cases hx) h
  | some r =>
    obtain ⟨a, b⟩ := r
    have hr := findId3_range h1
    simp only at h
    split at h
    · exact overwriteLast_at ht hr.1 h
    · rw [e] at h
      simp only [Bool.false_eq_true, and_false, if_false] at h
      split at h
      · cases h
      · split at h
        · obtain rfl := (Except.ok.injEq _ _).mp h
          refine (((at_tagChunk (be := be) (upper := upper) tag).inside (m := 0) ?_).inside (at_writeAt a f _)).infix
          exact ⟨[], _, rfl, by simp⟩
        · exact rewrite_at ht hs.1 (fun a b hx => by cases hx; exact hr) h

end Lofty.Save
