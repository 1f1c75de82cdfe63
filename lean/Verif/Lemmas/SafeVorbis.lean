import Verif.Lemmas.SafeFiles
import Verif.Lemmas.NoErr
import Verif.Props.Vorbis
import Verif.Props.OggProps
/-!
# Reading comments, FLAC and Ogg files neither panics nor loops
-/
namespace Lofty.Safe
open Lofty.FileTags

variable {D : Prop}

theorem slice_ne (x : Bytes) (a b : Nat) : Picture.slice x a b ≠ .error .diverge := by
  unfold Picture.slice
  split <;> intro h <;> cases h

theorem sub_ne (a b : Nat) : Picture.checkedSub a b ≠ .error .diverge := by
  unfold Picture.checkedSub
  split <;> intro h <;> cases h

theorem picture_fine (b : Bytes) (enc strict : Bool) : Fine D (Picture.fromFlacBytes b enc strict) (fun _ => True) := by
  have inner : ∀ c, Picture.fromFlacInner strict c ≠ .error .diverge := by
    intro c
    unfold Picture.fromFlacInner
    dsimp only
    split
    · intro h; cases h
    refine bind_ne (readBE_ne (by decide) _ _) fun _ => bind_ne (sub_ne _ _) fun _ => ?_
    split
    · intro h; cases h
    refine bind_ne (readBE_ne (by decide) _ _) fun _ => bind_ne (sub_ne _ _) fun _ => ?_
    split
    · intro h; cases h
    refine bind_ne (slice_ne _ _ _) fun _ => bind_ne (fun h => ?_) fun _ => bind_ne (sub_ne _ _) fun _ => bind_ne (readBE_ne (by decide) _ _) fun _ => bind_ne (sub_ne _ _) fun _ => ?_
    · exact ((utf8Decode_fine (D := False) _).safe _ h).2 rfl
    refine bind_ne ?_ fun _ => bind_ne (readBE_ne (by decide) _ _) fun _ => bind_ne (readBE_ne (by decide) _ _) fun _ => bind_ne (readBE_ne (by decide) _ _) fun _ => bind_ne (readBE_ne (by decide) _ _) fun _ =>
      bind_ne (readBE_ne (by decide) _ _) fun _ => bind_ne (sub_ne _ _) fun _ => ?_
    · unfold Picture.flacDesc
      split
      · exact bind_ne (slice_ne _ _ _) fun _ => bind_ne (sub_ne _ _) fun _ => by intro h; cases h
      · intro h; cases h
    split
    · intro h; cases h
    refine bind_ne (fun h => ((readN_fine (D := False) _ _).safe _ h).2 rfl) fun _ => ?_
    intro h; cases h
  refine ⟨fun e he => ⟨fun h => Picture.fromFlacBytes_no_panic b enc strict (h ▸ he), fun h => ?_⟩, fun _ _ => trivial⟩
  subst h
  unfold Picture.fromFlacBytes at he
  split at he
  · split at he
    · cases he
    · exact absurd he (inner _)
  · exact absurd he (inner _)

theorem commentItem_fine (o : Vorbis.Opts) (t : Vorbis.Tag) (c : Bytes) (h : o.readCoverArt = true → ¬ Vorbis.ShortCover c) :
    Fine D (Vorbis.readItem o t c) (fun _ => True) := by
  refine ⟨fun e he => ⟨fun hp => Vorbis.readItem_no_panic o t c h (hp ▸ he), fun hd => ?_⟩, fun _ _ => trivial⟩
  subst hd
  unfold Vorbis.readItem at he
  have hu : ∀ b, Text.utf8Decode b ≠ .error .diverge := fun b h => ((utf8Decode_fine (D := False) b).safe _ h).2 rfl
  have hpic : ∀ b enc s, Picture.fromFlacBytes b enc s ≠ .error .diverge := fun b enc s h => ((picture_fine (D := False) b enc s).safe _ h).2 rfl
  split at he
  · cases he
  · split at he
    · split at he
      · cases he
      · split at he
        · cases he
        · cases he
        · rename_i e hne hx
          split at he
          · cases he; exact (hpic _ _ _ hx).elim
          · cases he
    · split at he
      · split at he
        · cases he
        · split at he
          · split at he <;> cases he
          · split at he <;> cases he
      · split at he
        · split at he
          · dsimp only at he
            split at he <;> cases he
          · rename_i e hx
            split at he
            · cases he; exact (hu _ hx).elim
            · cases he
        · split at he
          · split at he
            · cases he
            · rename_i e hx
              split at he
              · cases he; exact (hu _ hx).elim
              · cases he
          · split at he <;> cases he

/-- No part of the data is a `COVERART` field whose value is too short. -/
def NoShort (d : Bytes) : Prop := ∀ c, c <:+: d → ¬ Vorbis.ShortCover c

theorem NoShort.sub {a b : Bytes} (h : NoShort b) (hs : a <:+: b) : NoShort a := fun c hc => h c (hc.trans hs)

theorem NoShort.drop {d : Bytes} (h : NoShort d) (n : Nat) : NoShort (d.drop n) := h.sub (List.drop_suffix n d).isInfix

theorem NoShort.take {d : Bytes} (h : NoShort d) (n : Nat) : NoShort (d.take n) := h.sub (List.take_prefix n d).isInfix

theorem readLE_rest (k : Nat) (r : Bytes) : Fine D (readLE k r) (fun a => a.2 = r.drop k) := by
  unfold readLE
  have h := readN_fine (D := D) k r
  revert h
  cases readN k r with
  | error e => intro h; exact ⟨fun e' he => h.safe e' (by cases he; rfl), fun _ h => by cases h⟩
  | ok x => intro h; exact .ok (h.gives x rfl).2.2

theorem readN_both (n : Nat) (r : Bytes) : Fine D (readN n r) (fun a => a.1 = r.take n ∧ a.2 = r.drop n) := by
  unfold readN
  exact .ite (fun h => .ok ⟨rfl, rfl⟩) fun _ => .err

theorem commentItems_fine (o : Vorbis.Opts) : ∀ (n len : Nat) (t : Vorbis.Tag) (d : Bytes), (o.readCoverArt = true → NoShort d) →
    Fine D (Vorbis.readItems o n len t d) (fun _ => True) := by
  intro n
  induction n with
  | zero => intro len t d _; exact .ok trivial
  | succ n ih =>
    intro len t d h
    unfold Vorbis.readItems
    refine .bind (readLE_rest ..) fun a ha => .ite (fun _ => .err) fun _ => .bind (readN_both ..) fun b hb => .bind (commentItem_fine o t b.1 fun hr => ?_) fun t' _ => ih _ _ _ fun hr => ?_
    · rw [hb.1, ha]
      exact (((h hr).drop 4).take _) _ (List.infix_refl _)
    · rw [hb.2, ha]
      exact ((h hr).drop 4).drop _

theorem comment_fine (o : Vorbis.Opts) (d : Bytes) (len : Nat) (h : o.readCoverArt = true → NoShort d) : Fine D (Vorbis.readComments o d len) (fun _ => True) := by
  unfold Vorbis.readComments
  refine .bind (readLE_rest ..) fun a ha => .ite (fun _ => .err) fun _ => .bind (readN_both ..) fun b hb => .bind (P := fun _ => True) ?_ fun v _ =>
    .bind (readLE_rest ..) fun n hn => .ite (fun _ => .err) fun _ => commentItems_fine o _ _ _ _ fun hr => ?_
  · unfold Vorbis.readVendor
    have hu := utf8Decode_fine (D := D) b.1
    revert hu
    cases Text.utf8Decode b.1 with
    | ok v => intro _; exact .ok trivial
    | error e =>
      intro hu
      refine .ite (fun _ => ⟨fun e' he => hu.safe e' (by cases he; rfl), fun _ h => by cases h⟩) fun _ => ?_
      unfold Text.utf16Decode
      cases Text.fromUtf16 (b.1.map (·.toNat)) with
      | some t => exact .ok trivial
      | none => exact .err
  · rw [hn, hb.2, ha]
    exact (((h hr).drop 4).drop _).drop 4

/-! ## FLAC -/

theorem readBlock_fine (f : Bytes) (pos : Nat) (want : UInt8 → Bool) :
    Fine D (Flac.readBlock f pos want) (fun b => b.content <:+: f ∧ pos + 4 ≤ b.stop ∧ pos + 4 ≤ f.length) := by
  unfold Flac.readBlock
  refine .bind (readAt_fine ..) fun hd h => ?_
  dsimp only
  refine .bind (P := fun c => c <:+: f) ?_ fun c hc => .ok ⟨hc, by dsimp only; omega, h.2⟩
  refine .ite (fun _ => (readAt_fine ..).imp fun b hb => ?_) fun _ => .ok (List.nil_infix)
  rw [hb.1]
  exact (List.take_prefix _ _).isInfix.trans (List.drop_suffix _ _).isInfix

theorem step_fine (o : Vorbis.Opts) (b : Flac.Block) (r : Flac.Found) (h : o.readCoverArt = true → NoShort b.content) :
    Fine D (Flac.readStep o b r) (fun _ => True) := by
  unfold Flac.readStep
  refine .ite (fun _ => .ok trivial) fun _ => .ite (fun _ => .ite (fun _ => .err) fun _ => .bind (comment_fine o _ _ h) fun _ _ => .ok trivial) fun _ =>
    .ite (fun _ => ?_) fun _ => .ok trivial
  have hp := picture_fine (D := D) b.content false (o.mode = .strict)
  split
  · exact .ok trivial
  · rename_i he
    exact absurd rfl (hp.safe _ he).1
  · rename_i e hne he
    exact .ite (fun _ => ⟨fun e' h' => by cases h'; exact hp.safe _ he, fun _ h => by cases h⟩) fun _ => .ok trivial

theorem flacLoop_fine (o : Vorbis.Opts) (f : Bytes) (h : o.readCoverArt = true → NoShort f) : ∀ (n : Nat) (last : Bool) (pos : Nat) (r : Flac.Found),
    f.length < n + pos → 0 < n → Fine D (Flac.readLoop o f n last pos r) (fun _ => True) := by
  intro n
  induction n with
  | zero => intro _ _ _ _ h; omega
  | succ n ih =>
    intro last pos r hn _
    cases last with
    | true => exact .ok trivial
    | false =>
      unfold Flac.readLoop
      refine .bind (readBlock_fine ..) fun b hb => .bind (step_fine o b r fun hr => (h hr).sub hb.1) fun r' _ => ih _ _ _ (by omega) (by omega)

theorem flac_fine (o : Opened.ReadOptions) (f : Bytes) (h : o.cover = true → NoShort f) : Fine (Deep o.files f.length) (Opened.openFlac o f) (fun _ => True) := by
  unfold Opened.openFlac
  refine .bind (find_fine ..) fun a ha => .bind (contentOf_fine o.files f ha) fun v _ => .bind (P := fun _ => True) ?_ fun _ _ => .ok trivial
  unfold Flac.readFrom
  refine .bind (find_fine ..) fun a _ => .bind (P := fun _ => True) ?_ fun b _ => .ite (fun _ => .err) fun _ => flacLoop_fine o.comments f h _ _ _ _ (by omega) (by omega)
  unfold Flac.verify
  exact .bind (readAt_fine ..) fun _ _ => .ite (fun _ => .err) fun _ => .bind (readBlock_fine ..) fun _ _ => .ite (fun _ => .err) fun _ => .ok trivial

/-! ## Ogg -/

theorem ogg_fine (fmt : OggWrite.Format) (o : Vorbis.Opts) (f : Bytes)
    (h : o.readCoverArt = true → ∀ hd, OggProps.readHeaders f fmt.head fmt.sig fmt.count true = .ok hd → NoShort hd.comment) :
    Fine D (OggWrite.read fmt o f) (fun _ => True) := by
  unfold OggWrite.read
  have hc : 0 < fmt.count := by cases fmt <;> decide
  have ht := OggProps.readHeaders_total f fmt.head fmt.sig fmt.count hc true
  refine .bind (P := fun hd => OggProps.readHeaders f fmt.head fmt.sig fmt.count true = .ok hd) ?_ fun hd hh => .bind (comment_fine o _ _ fun hr => (h hr hd hh).drop _) fun _ _ => .ok trivial
  exact ⟨fun e he => ⟨fun hp => ht.1 (hp ▸ he), fun hd => absurd (hd ▸ he) ht.2⟩, fun a ha => ha⟩

end Lofty.Safe
