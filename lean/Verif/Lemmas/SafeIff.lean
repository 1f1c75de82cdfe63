import Verif.Lemmas.SafeFiles
/-!
# Reading WAV and AIFF files neither panics nor loops
-/
namespace Lofty.Safe
open Lofty.FileTags Lofty.Iff

variable {D : Prop}

/-- The same file and lock, and no more bytes left. -/
def Kept (c c' : Chunks) : Prop := c'.f = c.f ∧ c'.lock = c.lock ∧ c'.remaining ≤ c.remaining

theorem Kept.refl (c : Chunks) : Kept c c := ⟨rfl, rfl, Nat.le_refl _⟩

theorem Kept.trans {a b c : Chunks} (h : Kept a b) (h' : Kept b c) : Kept a c := ⟨h'.1.trans h.1, h'.2.1.trans h.2.1, Nat.le_trans h'.2.2 h.2.2⟩

theorem correct_fine (c : Chunks) (n : Nat) : Fine D (c.correctPosition n) (Kept c) := by
  unfold Chunks.correctPosition
  refine .ite (fun _ => .ok (.refl c)) fun _ => .bind (readAt_fine ..) fun p _ => .ite (fun _ => .bind (readAt_fine ..) fun r _ =>
    .ite (fun _ => .ok (.refl c)) fun _ => .ok ⟨rfl, rfl, Nat.sub_le _ _⟩) fun _ => .ok ⟨rfl, rfl, Nat.sub_le _ _⟩

theorem skip_fine (c : Chunks) : Fine D c.skip (Kept c) := by
  unfold Chunks.skip
  dsimp only
  refine .bind (P := Kept c) ?_ fun a ha => .ok ha
  split
  · refine (correct_fine ..).imp fun a ha => ⟨ha.1, ha.2.1, Nat.le_trans ha.2.2 (Nat.sub_le _ _)⟩
  · exact correct_fine ..

theorem chunkHeader_fine (be strict : Bool) (c : Chunks) : Fine D (c.header be strict) (fun a => Kept c a.2 ∧ (a.1.isSome → a.2.remaining + 8 ≤ c.remaining)) := by
  unfold Chunks.header
  refine .ite (fun _ => .ok ⟨.refl c, fun h => by cases h⟩) fun _ => .bind (readAt_fine ..) fun id _ => .ite (fun _ => ?_) fun _ => .bind (readAt_fine ..) fun s _ => ?_
  · exact .ite (fun _ => .err) fun _ => .ok ⟨⟨rfl, rfl, Nat.zero_le _⟩, fun h => by cases h⟩
  · dsimp only
    refine .ite (fun _ => .ite (fun _ => .err) fun _ => .ok ⟨⟨rfl, rfl, Nat.zero_le _⟩, fun h => by cases h⟩) fun _ =>
      .ok ⟨⟨rfl, rfl, Nat.sub_le _ _⟩, fun _ => by dsimp only; omega⟩

theorem chunkNext_fine (be strict : Bool) (c : Chunks) : Fine D (c.next be strict) (fun a => Kept c a.2 ∧ (a.1.isSome → a.2.remaining + 8 ≤ c.remaining)) := by
  unfold Chunks.next
  exact .bind (skip_fine c) fun a ha => (chunkHeader_fine be strict a).imp fun b hb => ⟨ha.trans hb.1, fun h => Nat.le_trans (hb.2 h) ha.2.2⟩

theorem readExact_fine (c : Chunks) (n : Nat) : Fine D (c.readExact n) (fun a => Kept c a.2 ∧ a.1.length ≤ c.f.length) := by
  unfold Chunks.readExact
  refine .ite (fun _ => .bind (readAt_fine ..) fun b hb => .ok ⟨⟨rfl, rfl, Nat.sub_le _ _⟩, ?_⟩) fun _ => .err
  rw [hb.1, List.length_take, List.length_drop]
  omega

theorem string_fine (c : Chunks) (n : Nat) : Fine D (readString c n) (fun a => Kept c a.2) := by
  unfold readString
  exact .bind (readExact_fine c n) fun a ha => .bind (utf8Decode_fine _) fun _ _ => .ok ha.1

theorem parseInfo_fine (strict : Bool) : ∀ (n : Nat) (c : Chunks) (items : List Item), c.remaining < n → Fine D (parseInfo strict n c items) (fun a => Kept c a.1) := by
  intro n
  induction n with
  | zero => intro c _ h; omega
  | succ n ih =>
    intro c items hn
    unfold parseInfo
    refine .bind (chunkNext_fine false strict c) ?_
    rintro ⟨h, c'⟩ hc
    cases h with
    | none => exact .ok hc.1
    | some h =>
      have h8 : c'.remaining + 8 ≤ c.remaining := hc.2 rfl
      refine .bind (utf8Decode_fine _) fun key _ => .ite (fun _ => .err) fun _ => .bind (readExact_fine c' h.size) ?_
      rintro ⟨b, c''⟩ hb
      have hr : c''.remaining ≤ c'.remaining := hb.1.2.2
      have go : ∀ its, Fine D (parseInfo strict n c'' its) (fun a => Kept c a.1) := fun its =>
        (ih c'' its (by omega)).imp fun a ha => hc.1.trans (hb.1.trans ha)
      dsimp only
      split
      · exact go _
      · rename_i e he
        refine .ite (fun _ => ?_) fun _ => go _
        exact ⟨fun e' h' => by cases h'; exact (utf8Decode_fine (D := D) b).safe e he, fun _ h => by cases h⟩

theorem unlock_fine (c : Chunks) (outer parent : Nat) (h : c.lock = some (outer, parent)) :
    Fine D c.unlock (fun c' => c'.f = c.f ∧ c'.lock = none ∧ c'.remaining ≤ outer) := by
  unfold Chunks.unlock
  rw [h]
  dsimp only
  refine .bind (skip_fine _) fun a ha => (correct_fine ..).imp fun b hb => ⟨hb.1.trans ha.1, hb.2.1.trans ha.2.1, hb.2.2⟩

theorem info_fine (strict : Bool) (id3 : Bytes → Except Err Unit) (fileLen : Nat) (h : Hdr) (c : Chunks) (items : List Item) (hl : c.lock = none)
    (hf : h.fourcc = ascii "LIST") : Fine D (Iff.wavChunk strict id3 fileLen h c items) (fun a => Kept c a.1) := by
  unfold Iff.wavChunk
  rw [if_pos hf]
  refine .ite (fun _ => .err) fun _ => .bind (readExact_fine c 4) ?_
  rintro ⟨ty, c'⟩ ⟨hc, _⟩
  refine .ite (fun _ => .ok hc) fun _ => .ite (fun _ => .err) fun _ => ?_
  refine .bind (P := fun d => d.f = c.f ∧ ∃ outer parent, d.lock = some (outer, parent) ∧ outer ≤ c.remaining) ?_ fun d hd => ?_
  · unfold Chunks.lockIn
    refine .ite (fun h => ?_) fun _ => .ok ⟨hc.1, _, _, rfl, ?_⟩
    · rw [hc.2.1, hl] at h
      cases h
    · have := hc.2.2
      dsimp only at this
      omega
  · obtain ⟨h1, outer, parent, h2, h3⟩ := hd
    refine .bind (parseInfo_fine strict _ d items (by omega)) fun e he => .bind (unlock_fine e.1 outer parent (he.2.1.trans h2)) fun g hg => .ok ⟨?_, ?_, ?_⟩
    · exact hg.1.trans (he.1.trans h1)
    · exact hg.2.1.trans hl.symm
    · exact Nat.le_trans hg.2.2 h3

theorem id3Chunk_fine (o : Opts) {b : Bytes} {n : Nat} (hb : b.length ≤ n) : Fine (Deep o n) (IffFiles.id3Chunk o b) (fun _ => True) := by
  unfold IffFiles.id3Chunk
  refine .ite (fun _ => .ite (fun _ => .err) fun _ => .ok trivial) fun _ => ?_
  have h := header_fine b 0
  revert h
  cases Id3v2.parseHeader b 0 with
  | error e => intro h; exact .err (h.safe e rfl)
  | ok a =>
    intro _
    exact .bind (parseId3_fine o a.1 (by rw [List.length_drop]; omega)) fun _ _ => .ok trivial

/-- Loops over chunks end, if what is done with each keeps the reader. -/
theorem chunkLoop_fine {α : Type} (be strict : Bool) (fn : Hdr → Chunks → α → Except Err (Chunks × α)) (f : Bytes)
    (hfn : ∀ h c a, c.f = f → c.lock = none → Fine D (fn h c a) (fun x => Kept c x.1)) : ∀ (n : Nat) (c : Chunks) (a : α), c.f = f → c.lock = none → c.remaining < n →
    Fine D (IffFiles.chunkLoop be strict fn n c a) (fun _ => True) := by
  intro n
  induction n with
  | zero => intro c _ _ _ h; omega
  | succ n ih =>
    intro c a hf hl hn
    unfold IffFiles.chunkLoop
    refine .bind (chunkNext_fine be strict c) ?_
    rintro ⟨h, c'⟩ hc
    cases h with
    | none => exact .ok trivial
    | some h =>
      have h8 : c'.remaining + 8 ≤ c.remaining := hc.2 rfl
      refine .bind (hfn h c' a (hc.1.1.trans hf) (hc.1.2.1.trans hl)) ?_
      rintro ⟨c'', a'⟩ hk
      have : c''.remaining ≤ c'.remaining := hk.2.2
      exact ih c'' a' (hk.1.trans (hc.1.1.trans hf)) (hk.2.1.trans (hc.1.2.1.trans hl)) (by omega)

theorem wav_fine (o : Opts) (ho : o.readProps = false) (f : Bytes) : Fine (Deep o f.length) (IffFiles.readWav o f) (fun _ => True) := by
  unfold IffFiles.readWav
  refine .bind (P := fun _ => True) ?_ fun _ _ => .bind (chunkLoop_fine false _ _ f ?_ _ _ _ rfl rfl (Nat.lt_succ_self _)) fun a _ =>
    .ite (fun h => absurd (ho.symm.trans h) Bool.false_ne_true) fun _ => .ok trivial
  · unfold verifyWav
    exact .bind (readAt_fine ..) fun _ _ => .ite (fun _ => .err) fun _ => .ok trivial
  · intro h c a hf hl
    unfold IffFiles.wavChunk
    refine .ite (fun hp => absurd (ho.symm.trans hp.2.1) Bool.false_ne_true) fun _ => .ite (fun hp => absurd (ho.symm.trans hp.2.1) Bool.false_ne_true) fun _ =>
      .ite (fun hp => absurd (ho.symm.trans hp.2.1) Bool.false_ne_true) fun _ => .ite (fun hL => ?_) fun _ => .ite (fun _ => ?_) fun _ => .ok (.refl c)
    · exact .ite (fun _ => .bind (info_fine _ _ _ h c _ hl hL) fun x hx => .ok hx) fun _ => .ite (fun _ => .err) fun _ =>
        .bind (readExact_fine ..) fun x hx => .ok hx.1
    · exact .bind (readExact_fine c h.size) fun x hx => .bind (id3Chunk_fine o (hf ▸ hx.2)) fun t _ => .ok hx.1

theorem comments_fine : ∀ (n : Nat) (c : Chunks) (out : List Comment), Fine D (parseComments n c out) (fun a => Kept c a.2)
  | 0, c, _ => .ok (.refl c)
  | n + 1, c, out => by
    unfold parseComments
    refine .bind (readExact_fine c 4) fun a ha => .bind (readExact_fine a.2 2) fun b hb => .bind (readExact_fine b.2 2) fun d hd =>
      .bind (string_fine ..) fun e he => (comments_fine n e.2 _).imp fun g hg => ?_
    exact ha.1.trans (hb.1.trans (hd.1.trans (he.trans hg)))

theorem aiffText_fine (strict : Bool) (h : Hdr) (c : Chunks) (a : Iff.AiffAcc) : Fine D (Iff.aiffChunk strict (fun _ => .ok ()) h c a) (fun x => Kept c x.1) := by
  unfold Iff.aiffChunk
  refine .ite (fun _ => .bind (readExact_fine c h.size) fun b hb => .ite (fun _ => .ite (fun _ => .err) fun _ => .ok hb.1) fun _ => .ok hb.1) fun _ =>
    .ite (fun _ => .bind (string_fine ..) fun s hs => .ok hs) fun _ => .ite (fun _ => .ite (fun _ => .ok (.refl c)) fun _ => .bind (readExact_fine c 2) fun b hb =>
      .bind (comments_fine ..) fun d hd => .ok (hb.1.trans hd)) fun _ =>
    .ite (fun _ => .bind (string_fine ..) fun s hs => .ok hs) fun _ => .ite (fun _ => .bind (string_fine ..) fun s hs => .ok hs) fun _ =>
    .ite (fun _ => .bind (string_fine ..) fun s hs => .ok hs) fun _ => .ok (.refl c)

theorem aiff_fine (o : Opts) (ho : o.readProps = false) (f : Bytes) : Fine (Deep o f.length) (IffFiles.readAiff o f) (fun _ => True) := by
  unfold IffFiles.readAiff
  refine .bind (P := fun _ => True) ?_ fun _ _ => .bind (chunkLoop_fine true _ _ f ?_ _ _ _ rfl rfl (Nat.lt_succ_self _)) fun a _ =>
    .ite (fun h => absurd (ho.symm.trans h) Bool.false_ne_true) fun _ => .ok trivial
  · unfold verifyAiff
    exact .bind (readAt_fine ..) fun _ _ => .ite (fun _ => .err) fun _ => .ite (fun _ => .ok trivial) fun _ => .err
  · intro h c a hf hl
    unfold IffFiles.aiffChunk
    refine .ite (fun _ => ?_) fun _ => .ite (fun hp => absurd (ho.symm.trans hp.2.1) Bool.false_ne_true) fun _ =>
      .ite (fun hp => absurd (ho.symm.trans hp.2) Bool.false_ne_true) fun _ => .ite (fun _ => ?_) fun _ => .ok (.refl c)
    · exact .bind (readExact_fine c h.size) fun x hx => .bind (id3Chunk_fine o (hf ▸ hx.2)) fun t _ => .ok hx.1
    · exact .bind (aiffText_fine ..) fun x hx => .ok hx

end Lofty.Safe
