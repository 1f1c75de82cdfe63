import Verif.Props.Flac
import Verif.Lemmas.OggWrite
/-!
# Lemmas: the blocks of a FLAC file after a save
-/
namespace Lofty.Flac
open Spec

theorem scanVendor_append {v v' : Str} {bs bs' : List MBlock} (h : scanVendor v bs = .ok v') :
    scanVendor v (bs ++ bs') = scanVendor v' bs' := by
  induction bs generalizing v with
  | nil => cases h; rfl
  | cons b bs ih =>
    rw [List.cons_append, scanVendor]
    rw [scanVendor] at h
    split
    · rename_i h4
      rw [if_pos h4] at h
      obtain ⟨w, hw, h⟩ := bind_ok h
      rw [hw, ok_bind]
      exact ih h
    · rename_i h4
      rw [if_neg h4] at h
      exact ih h

theorem scanVendor_other {bs : List MBlock} (h : ∀ b ∈ bs, b.1 ≠ 4) (v : Str) : scanVendor v bs = .ok v := by
  induction bs with
  | nil => rfl
  | cons b bs ih =>
    rw [scanVendor, if_neg (h b (by simp))]
    exact ih fun b hb => h b (by simp [hb])

theorem kept_other (bs : List MBlock) : ∀ b ∈ kept bs, b.1 ≠ 4 ∧ b.1 ≠ 6 := by
  intro b hb
  have := (List.mem_filter.mp hb).2
  simpa using this

theorem kept_append (a b : List MBlock) : kept (a ++ b) = kept a ++ kept b := List.filter_append ..

theorem kept_kept (bs : List MBlock) : kept (kept bs) = kept bs := by
  unfold kept
  rw [List.filter_filter]
  simp

theorem blockVendor_packet {v : Str} {items : List Vorbis.Item} {packet : Bytes}
    (h : Vorbis.createPacket ⟨v, items, []⟩ [] false = .ok packet) (hl : packet.length < 2 ^ 24) : blockVendor packet = .ok v := by
  obtain ⟨r, rfl⟩ := OggWrite.createPacket_front h
  simp only [List.nil_append, List.length_append, leBytes_length] at hl ⊢
  unfold blockVendor
  rw [readLE_append _ (by omega), ok_bind]
  simp only
  rw [if_neg (by simp), readN_append _ _ rfl, ok_bind]
  simp only [fromUtf8_utf8, Option.getD_some]

/-- What the second save finds. -/
theorem written_blocks {bs new pad : List MBlock} {tag : Vorbis.Tag} {vendor : Str} (hnew : tagBlocks vendor tag = .ok new)
    (hpad : ∀ b ∈ pad, b.1 = 1) :
    (∃ vendor', scanVendor tag.vendor (kept bs ++ new ++ pad) = .ok vendor' ∧ tagBlocks vendor' tag = .ok new) ∧
    kept (kept bs ++ new ++ pad) = kept bs ++ pad ∧ (∀ b ∈ new, b.Valid ∧ (b.1 = 4 ∨ b.1 = 6)) ∧
    (tag.items = [] → tag.pictures = [] → new = []) ∧ (new = [] → tag.items = [] ∧ tag.pictures = []) := by
  have hnew' := hnew
  unfold tagBlocks at hnew
  cases henc : encodeTag vendor tag.items tag.pictures with
  | error e => rw [henc] at hnew; cases hnew
  | ok nb =>
    rw [henc] at hnew
    simp only [Except.map, Except.ok.injEq] at hnew
    obtain ⟨⟨c, hc, hcp⟩, hnb⟩ := encodeTag_valid _ _ _ _ henc
    have hty : ∀ b ∈ new, b.1 = 4 ∨ b.1 = 6 := by
      intro b hb
      rw [← hnew, hcp] at hb
      rcases List.mem_append.mp hb with hb | hb
      · rcases hc with ⟨-, rfl⟩ | ⟨packet, -, -, -, rfl⟩
        · simp at hb
        · rw [List.mem_singleton] at hb
          subst hb
          exact .inl rfl
      · obtain ⟨p, -, rfl⟩ := List.mem_map.mp hb
        exact .inr rfl
    have hk : kept new = [] := by
      refine List.filter_eq_nil_iff.mpr fun b hb => ?_
      rcases hty b hb with h | h <;> rw [h] <;> decide
    have hkp : kept pad = pad := by
      refine List.filter_eq_self.mpr fun b hb => ?_
      rw [hpad b hb]; decide
    have hsk := scanVendor_other (fun b hb => (kept_other bs b hb).1) tag.vendor
    have hpics : ∀ v, scanVendor v (tag.pictures.map fun p => ((6 : UInt8), Picture.asFlacBytes p.1 p.2 false)) = .ok v :=
      scanVendor_other (by
        intro b hb
        obtain ⟨p, -, rfl⟩ := List.mem_map.mp hb
        exact (by decide : (6 : UInt8) ≠ 4))
    have hpd : ∀ v, scanVendor v pad = .ok v := scanVendor_other fun b hb => by rw [hpad b hb]; decide
    refine ⟨?_, by rw [kept_append, kept_append, kept_kept, hk, hkp, List.append_nil], fun b hb => ⟨?_, hty b hb⟩, ?_, ?_⟩
    · rcases hc with ⟨h1, rfl⟩ | ⟨packet, h1, h2, h3, rfl⟩
      · refine ⟨tag.vendor, ?_, ?_⟩
        · rw [List.append_assoc, scanVendor_append hsk, ← hnew, hcp, List.nil_append, scanVendor_append (hpics _)]
          exact hpd _
        · unfold tagBlocks encodeTag at hnew' ⊢
          rw [h1] at hnew' ⊢
          exact hnew'
      · refine ⟨vendor, ?_, hnew'⟩
        rw [List.append_assoc, scanVendor_append hsk, ← hnew, hcp, List.append_assoc, List.cons_append, List.nil_append, scanVendor,
          if_pos rfl, blockVendor_packet h2 h3, ok_bind, scanVendor_append (hpics _)]
        exact hpd _
    · rw [← hnew] at hb
      obtain ⟨x, hx, rfl⟩ := List.mem_map.mp hb
      exact (hnb x hx).2
    · intro h1 h2
      rcases hc with ⟨-, rfl⟩ | ⟨packet, h1', -⟩
      · rw [← hnew, hcp, h2]; rfl
      · exact absurd h1 h1'
    · intro h
      rw [← hnew, hcp] at h
      obtain ⟨h1, h2⟩ := List.append_eq_nil_iff.mp h
      rcases hc with ⟨hi, -⟩ | ⟨packet, -, -, -, rfl⟩
      · exact ⟨hi, List.map_eq_nil_iff.mp h2⟩
      · simp at h1

theorem addedPadding_type {preferred : Option Nat} {old new : List MBlock} : ∀ b ∈ addedPadding preferred old new, b.1 = 1 ∧ b.Valid := by
  intro b hb
  unfold addedPadding at hb
  split at hb
  · simp at hb
  · split at hb
    · simp at hb
    · simp only [List.mem_singleton] at hb
      subst hb
      exact ⟨rfl, (by decide : (1 : UInt8) < 128), by simp only [List.length_replicate]; omega⟩

theorem hasType_append (tys : List UInt8) (a b : List MBlock) : hasType tys (a ++ b) = (hasType tys a || hasType tys b) :=
  List.any_append

theorem hasType_kept (bs : List MBlock) : hasType [4, 6] (kept bs) = false := by
  unfold hasType
  rw [List.any_eq_false]
  intro b hb
  obtain ⟨h1, h2⟩ := kept_other bs b hb
  simp [h1, h2]

theorem hasType_kept_padding (bs : List MBlock) : hasType [1] (kept bs) = hasType [1] bs := by
  unfold hasType kept
  rw [List.any_filter]
  congr 1
  funext b
  by_cases h : b.1 = 1
  · simp [h]
  · simp [h]

/-- The file after a save, and what a second save does to it. -/
theorem saved_stream {pre si audio g : Bytes} {bs : List MBlock} {tag : Vorbis.Tag} {preferred : Option Nat}
    {vendor : Str} {new : List MBlock} (hpre : Skipped pre) (hsi : si.length < 2 ^ 24) (hsi2 : 2 ≤ si.length)
    (hv : ∀ b ∈ bs, b.Valid) (hvendor : scanVendor tag.vendor bs = .ok vendor) (hnew : tagBlocks vendor tag = .ok new)
    (hw : writeTo (stream pre ((0, si) :: bs) audio) tag preferred = .ok g) :
    writeTo g tag preferred = .ok g ∨
    ∃ bs' vendor', g = stream pre ((0, si) :: bs') audio ∧ (∀ b ∈ bs', b.Valid) ∧ scanVendor tag.vendor bs' = .ok vendor' ∧
      tagBlocks vendor' tag = .ok new ∧ hasType [1] bs' = true ∧ hasType [1] bs = false ∧ preferred ≠ none := by
  have hw0 := hw
  rw [writeTo_stream pre si audio bs tag preferred vendor new hpre hsi hsi2 hv hvendor hnew] at hw
  obtain rfl := (Except.ok.injEq _ _).mp hw
  by_cases hnone : hasType [4, 6] bs = false ∧ tag.items = [] ∧ tag.pictures = []
  · rw [if_pos hnone] at hw0 ⊢
    exact .inl hw0
  rw [if_neg hnone]
  obtain ⟨⟨vendor', k1, k2⟩, k3, k4, k5, k6⟩ := written_blocks (bs := bs) hnew
    (fun b hb => (addedPadding_type (preferred := preferred) (old := (0, si) :: bs) (new := (0, si) :: kept bs ++ new) b hb).1)
  have hval : ∀ b ∈ kept bs ++ new ++ addedPadding preferred ((0, si) :: bs) ((0, si) :: kept bs ++ new), b.Valid := by
    intro b hb
    rcases List.mem_append.mp hb with hb | hb
    · rcases List.mem_append.mp hb with hb | hb
      · exact hv b (List.mem_filter.mp hb).1
      · exact (k4 b hb).1
    · exact (addedPadding_type b hb).2
  by_cases hp : preferred = none ∨ hasType [1] bs = true
  · left
    have hno : addedPadding preferred ((0, si) :: bs) ((0, si) :: kept bs ++ new) = [] := by
      unfold addedPadding
      rcases hp with rfl | hp
      · rfl
      · split
        · rfl
        · rw [if_pos (by simpa using hp)]
    rw [hno] at k1 k3 hval ⊢
    simp only [List.append_nil, List.cons_append] at k1 k3 hval ⊢
    rw [writeTo_stream pre si audio _ tag preferred vendor' new hpre hsi hsi2 hval k1 k2]
    congr 1
    split
    · rfl
    · rw [k3]
      have hno' : addedPadding preferred ((0, si) :: (kept bs ++ new)) ((0, si) :: kept bs ++ new) = [] := by
        unfold addedPadding
        rcases hp with rfl | hp
        · rfl
        · split
          · rfl
          · rw [if_pos]
            rw [List.tail_cons, hasType_append, hasType_kept_padding, hp]
            rfl
      rw [hno', List.append_nil]
      rfl
  · right
    have hp1 : preferred ≠ none := fun h => hp (.inl h)
    have hp2 : hasType [1] bs = false := by
      cases h : hasType [1] bs
      · rfl
      · exact absurd (.inr h) hp
    refine ⟨_, vendor', by simp only [List.cons_append], hval, k1, k2, ?_, hp2, hp1⟩
    rw [hasType_append, Bool.or_eq_true]
    right
    unfold addedPadding
    cases preferred with
    | none => exact absurd rfl hp1
    | some p =>
      simp only
      rw [if_neg (by simp [hp2])]
      rfl

end Lofty.Flac
