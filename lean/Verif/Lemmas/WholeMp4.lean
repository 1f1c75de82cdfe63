import Verif.Props.Mp4Read
import Verif.Spec.Whole
/-! # Lemmas for reading MP4 files with and without tags and properties -/
namespace Lofty.Mp4Read
open Lofty.Text Lofty.Mp4 Lofty.Ilst Lofty.Mp4Write

/-- User data is skipped if tags are not read. -/
theorem read_untagged {before moov1 kids moov2 after moov : Forest} {brand : Str}
    (hm : moov = moov1.append (.node (ascii "udta") kids moov2)) (h : FileOk before moov after brand)
    (h1 : Silent moov1) (h2 : Silent moov2) (cfg : Config) (ht : cfg.tags = false) :
    readFrom cfg (whole before moov after).bytes = .ok (brand, ⟨found cfg (before.bytes.length + 8) moov, none⟩) := by
  obtain ⟨r, ha, hp, hf, hr⟩ := read_moov h cfg
  have hsz : moov.bytes.length + 8 ≤ (whole before moov after).bytes.length := by
    rw [whole, append_bytes, List.length_append, bytes_length_node moov_ok]
    omega
  have hsize := h.size
  have hin := h.inner
  rw [hr]
  clear hr
  subst hm
  obtain ⟨o1, o2⟩ := ok_split hin
  have hlen : (moov1.append (.node (ascii "udta") kids moov2)).bytes.length =
      moov1.bytes.length + (8 + kids.bytes.length + moov2.bytes.length) := by
    rw [append_bytes, List.length_append, bytes_length_node udta_ok]
  rw [append_bytes] at ha
  obtain ⟨n1, hn1, e1⟩ := loop_silent (cfg := cfg) _ moov1 o1 h1 r ⟨[], none⟩ ha (by omega)
  have ha1 := ha.skip rfl
  rw [Forest.bytes] at ha1
  have ha2 := past_box ha1 udta_ok
  rw [show moov2.bytes = moov2.bytes ++ [] by simp] at ha2
  have hpos : ((r.skip moov1.bytes.length).skip (8 + kids.bytes.length)).pos = r.pos + moov1.bytes.length + (8 + kids.bytes.length) := by
    simp only [skip_pos]
  obtain ⟨k, hk⟩ : ∃ k, (whole before (moov1.append (.node (ascii "udta") kids moov2)) after).bytes.length + 1 = n1 + (k + 1) :=
    ⟨(whole before (moov1.append (.node (ascii "udta") kids moov2)) after).bytes.length - n1, by omega⟩
  rw [hk, e1, moovLoop, next_box ha1 udta_ok (by omega)]
  simp only
  unfold moovStep
  rw [if_neg (by simp; intro h; exact absurd h (by decide)), if_neg (by simp [ht])]
  simp only
  rw [skip_box _ _ (by omega), ok_bind, ok_bind]
  simp only
  obtain ⟨n3, hn3, e3⟩ := loop_silent (cfg := cfg) [] moov2 o2.2.2.2 h2 _ ⟨[] ++ found cfg r.pos moov1, none⟩ ha2 (by omega)
  obtain ⟨k3, rfl⟩ : ∃ k3, k = n3 + (k3 + 1) := ⟨k - n3 - 1, by omega⟩
  rw [e3, loop_end _ (ha2.skip rfl), ok_bind]
  have hne : ¬ ascii "udta" = ascii "trak" := by decide
  have hfound : found cfg r.pos (moov1.append (.node (ascii "udta") kids moov2)) = found cfg r.pos moov1 ++
      found cfg ((r.skip moov1.bytes.length).skip (8 + kids.bytes.length)).pos moov2 := by
    unfold found
    cases cfg.properties
    · rfl
    · simp only [if_true]
      rw [tracks_append o1, tracks, if_neg hne, List.nil_append, hpos]
  rw [← hp, hfound]
  rfl

/-- What is read of such a file: the tracks do not depend on whether tags are read, the tag does not depend on whether tracks are. -/
theorem layout_read {f : Bytes} (hl : Layout f) (o : Opts) (limit : Nat) : ∃ (brand : Str) (found : List Info) (tag : Except Err (Option Tag)),
    (∀ props, readFrom ⟨o, true, props, limit⟩ f = tag >>= fun t => .ok (brand, ⟨if props then found else [], t⟩)) ∧
    (∀ props, readFrom ⟨o, false, props, limit⟩ f = .ok (brand, ⟨if props then found else [], none⟩)) := by
  cases hl with
  | @silent before moov after brand h hs =>
    refine ⟨brand, tracks (before.bytes.length + 8) moov, .ok none, fun p => ?_, fun p => ?_⟩
    · rw [read_silent h hs]; rfl
    · rw [read_silent h hs]; rfl
  | @noMeta before moov1 kids moov2 after brand h h1 h2 hk =>
    generalize hm : moov1.append _ = moov at *
    refine ⟨brand, tracks (before.bytes.length + 8) moov, .ok none, fun p => ?_, fun p => ?_⟩
    · rw [read_no_meta hm.symm h h1 h2 hk _ rfl]; rfl
    · rw [read_untagged hm.symm h h1 h2 _ rfl]; rfl
  | @noIlst before moov1 udta1 udta2 moov2 after version items1 brand h h1 h2 hu1 hu2 hv hi1 =>
    generalize hm : moov1.append _ = moov at *
    refine ⟨brand, tracks (before.bytes.length + 8) moov, .ok none, fun p => ?_, fun p => ?_⟩
    · rw [read_no_ilst hm.symm h h1 h2 hu1 hu2 hv hi1 _ rfl]; rfl
    · rw [read_untagged hm.symm h h1 h2 _ rfl]; rfl
  | @tagged before moov1 udta1 udta2 moov2 after version content items1 items2 brand h h1 h2 hu1 hu2 hv hi1 hi2 =>
    generalize hm : moov1.append _ = moov at *
    refine ⟨brand, tracks (before.bytes.length + 8) moov,
      (if content.length > limit then .error .alloc else parse o content) >>= fun t => .ok (some t), fun p => ?_, fun p => ?_⟩
    · rw [read_tag hm.symm h h1 h2 hu1 hu2 hv hi1 hi2 _ rfl]
      cases (if content.length > limit then .error .alloc else parse o content : Except Err Tag) <;> rfl
    · rw [read_untagged hm.symm h h1 h2 _ rfl]; rfl

end Lofty.Mp4Read
