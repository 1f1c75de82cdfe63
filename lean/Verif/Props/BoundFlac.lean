import Verif.Props.BoundOgg
import Verif.Lemmas.AgainFlac
/-!
# C88: bound FLAC files
-/
namespace Lofty.Flac
open Spec

/-- A save that succeeds has encoded the comments. -/
theorem writeTo_encodes {pre si audio g : Bytes} {bs : List MBlock} {tag : Vorbis.Tag} {preferred : Option Nat}
    {vendor : Str} (hpre : Skipped pre) (hsi : si.length < 2 ^ 24) (hsi2 : 2 ≤ si.length)
    (hv : ∀ b ∈ bs, b.Valid) (hvendor : scanVendor tag.vendor bs = .ok vendor)
    (h : writeTo (stream pre ((0, si) :: bs) audio) tag preferred = .ok g) : ∃ new, tagBlocks vendor tag = .ok new := by
  have h4 : (ascii "fLaC").length = 4 := by decide
  have hfind : ∃ r, Id3v2.find (stream pre ((0, si) :: bs) audio) 0 false none = .ok (r, pre.length) := by
    refine hpre false _ ?_
    rw [List.length_append, encode_length]
    simp
    omega
  obtain ⟨r, hfind⟩ := hfind
  -- the scan
  have hscan : ∃ s, scan (stream pre ((0, si) :: bs) audio) ((stream pre ((0, si) :: bs) audio).length + 1) bs.isEmpty
      ⟨[⟨0, false, si, pre.length + 4, pre.length + 4 + (4 + si.length)⟩], pre.length + 4 + (4 + si.length),
        tag.vendor, false, false⟩ = .ok s ∧
      s.blocks.map Block.m = (0, si) :: kept bs ∧ (∀ b ∈ s.blocks, b.last = false) ∧
      s.stop = pre.length + 4 + (encode ((0, si) :: bs)).length ∧ s.vendor = vendor ∧
      s.remove = hasType [4, 6] bs ∧ s.padding = hasType [1] bs := by
    cases bs with
    | nil =>
      refine ⟨_, rfl, rfl, by simp, ?_, ?_, rfl, rfl⟩
      · rw [encode_length]; simp
      · simpa [scanVendor] using hvendor
    | cons c cs =>
      have e : stream pre ((0, si) :: c :: cs) audio
          = (pre ++ (ascii "fLaC" ++ encodeOne false (0, si))) ++ (encode (c :: cs) ++ audio) := by
        unfold stream; rw [encode_cons _ (by simp)]; simp
      have hlen : (pre ++ (ascii "fLaC" ++ encodeOne false (0, si))).length = pre.length + 4 + (4 + si.length) := by
        simp [encodeOne_length, h4]; omega
      obtain ⟨s, g1, g2, g3, g4, g5, g6, g7⟩ := scan_encode audio vendor (c :: cs)
        (pre ++ (ascii "fLaC" ++ encodeOne false (0, si)))
        ((stream pre ((0, si) :: c :: cs) audio).length + 1)
        ⟨[⟨0, false, si, pre.length + 4, pre.length + 4 + (4 + si.length)⟩], pre.length + 4 + (4 + si.length),
          tag.vendor, false, false⟩ (by simp) hv hlen.symm
        (by
          have : (c :: cs).length ≤ (encode (c :: cs)).length := by
            rw [encode_length]
            have gen : ∀ l : List MBlock, l.length ≤ (l.map fun b => 4 + b.2.length).sum := by
              intro l
              induction l with
              | nil => simp
              | cons x xs ih => simp only [List.length_cons, List.map_cons, List.sum_cons]; omega
            exact gen _
          rw [e]
          simp only [List.length_append] at this ⊢
          omega)
        hvendor (by simp)
      refine ⟨s, ?_, by simpa [Block.m] using g2, g3, ?_, g5, ?_, ?_⟩
      · rw [← e] at g1; exact g1
      · rw [g4, hlen, encode_cons (0, si) (List.cons_ne_nil c cs), List.length_append, encodeOne_length]
        have : ((0 : UInt8), si).2.length = si.length := rfl
        omega
      · rw [g6, Bool.false_or]; unfold hasType; congr 1; funext b; simp [Bool.beq_eq_decide_eq]
      · rw [g7, Bool.false_or]; unfold hasType; congr 1; funext b; simp [Bool.beq_eq_decide_eq]
  obtain ⟨s, g1, g2, g3, g4, g5, g6, g7⟩ := hscan
  unfold writeTo at h
  rw [hfind, ok_bind] at h
  simp only at h
  rw [verify_stream pre si bs audio hsi, ok_bind] at h
  simp only at h
  rw [g1, ok_bind, g5] at h
  split at h
  · rename_i hc
    simp only [Bool.and_eq_true, Bool.not_eq_true', List.isEmpty_iff] at hc
    refine ⟨[], ?_⟩
    unfold tagBlocks encodeTag
    rw [hc.1.2, hc.2]
    rfl
  · obtain ⟨new, hnew, -⟩ := bind_ok h
    exact ⟨new.map Block.m, by unfold tagBlocks; rw [hnew]; rfl⟩

/-- Every comment block has a vendor string, which does not end with a NUL. -/
def Vendors (bs : List MBlock) : Prop := ∀ b ∈ bs, b.1 = 4 → ∃ v, blockVendor b.2 = .ok v ∧ v.getLast? ≠ some '\x00'

theorem scanVendor_fine {bs : List MBlock} (h : Vendors bs) {v : Str} (hv : v.getLast? ≠ some '\x00') :
    ∃ v', scanVendor v bs = .ok v' ∧ v'.getLast? ≠ some '\x00' := by
  induction bs generalizing v with
  | nil => exact ⟨v, rfl, hv⟩
  | cons b bs ih =>
    have hbs : Vendors bs := fun c hc => h c (by simp [hc])
    rw [scanVendor]
    split
    · rename_i h4
      obtain ⟨w, hw, hwn⟩ := h b (by simp) h4
      rw [hw, ok_bind]
      exact ih hbs hwn
    · exact ih hbs hv

theorem vendors_written {bs new : List MBlock} {tag : Vorbis.Tag} {vendor : Str} (hnew : tagBlocks vendor tag = .ok new)
    (hvn : vendor.getLast? ≠ some '\x00') {preferred : Option Nat} {old new' : List MBlock} :
    Vendors (kept bs ++ new ++ addedPadding preferred old new') := by
  intro b hb h4
  rcases List.mem_append.mp hb with hb | hb
  · rcases List.mem_append.mp hb with hb | hb
    · exact absurd h4 (kept_other bs b hb).1
    · unfold tagBlocks at hnew
      cases henc : encodeTag vendor tag.items tag.pictures with
      | error e => rw [henc] at hnew; cases hnew
      | ok nb =>
        rw [henc] at hnew
        simp only [Except.map, Except.ok.injEq] at hnew
        obtain ⟨⟨c, hc, hcp⟩, -⟩ := encodeTag_valid _ _ _ _ henc
        rw [← hnew, hcp] at hb
        rcases List.mem_append.mp hb with hb | hb
        · rcases hc with ⟨-, rfl⟩ | ⟨packet, -, h2, h3, rfl⟩
          · simp at hb
          · rw [List.mem_singleton] at hb
            subst hb
            exact ⟨vendor, blockVendor_packet h2 h3, hvn⟩
        · obtain ⟨p, -, rfl⟩ := List.mem_map.mp hb
          exact absurd h4 (by decide : (6 : UInt8) ≠ 4)
  · have := (addedPadding_type b hb).1
    rw [this] at h4
    exact absurd h4 (by decide)

end Lofty.Flac

namespace Lofty.Bound
open Item File FileType FileType.Spec Save Opened Convert

variable {α : Type}

/-- The encoder of comments that are written does not end with a NUL. -/
theorem encoder_fine {r : ReadOptions} {t : Tag} (h : CommentsOk r t) : ((t.getString .EncoderSoftware).getD []).getLast? ≠ some '\x00' := by
  cases hg : t.getString .EncoderSoftware with
  | none => simp
  | some s =>
    simp only [Option.getD_some]
    cases s with
    | nil => simp
    | cons c s =>
      refine h.nul .EncoderSoftware _ ?_
      unfold texts
      rw [List.mem_filter]
      refine ⟨?_, rfl⟩
      unfold Tag.getString at hg
      cases hi : t.get .EncoderSoftware with
      | none => rw [hi] at hg; cases hg
      | some i =>
        rw [hi] at hg
        unfold Tag.get at hi
        have hk : i.key = .EncoderSoftware := by simpa using List.find?_some hi
        refine List.mem_filterMap.mpr ⟨i, List.mem_filter.mpr ⟨List.mem_of_find?_eq_some hi, by simpa using hk⟩, ?_⟩
        have hg : i.value.textOf = some (c :: s) := hg
        cases hv : i.value <;> rw [hv] at hg <;> first | exact hg | cases hg

/-- One save to a FLAC file. -/
theorem flac_step {o : Options} {r : ReadOptions} {t : Tag} {si audio g : Bytes} {bs : List Flac.Spec.MBlock} (ht : t.type = .vorbisComments)
    (hsi : si.length < 2 ^ 24) (hsi14 : 14 ≤ si.length) (hv : ∀ b ∈ bs, b.Valid) (hvs : Flac.Vendors bs) (hok : CommentsOk r t)
    (h : saveTo o t (Flac.stream [] ((0, si) :: bs) audio) = .ok g) :
    ∃ bl, g = Flac.stream [] ((0, si) :: bl) audio ∧ (∀ b ∈ bl, b.Valid) ∧ Flac.Vendors bl ∧
      ∃ xs, openFile r g = .ok xs ∧ ShowsComments t (seen .vorbisComments xs) := by
  have hf : ∀ bl, verified (Flac.stream [] bl audio) = .ok .flac := by
    intro bl
    rw [verified_iff]
    refine Probe.guess_magic (f := Flac.stream [] bl audio) (start := 0) (t := .flac) ?_ ⟨nofun, nofun⟩ nofun 1024
    show List.take 4 (Flac.stream [] bl audio) = _
    rfl
  obtain ⟨pics, hp, hw⟩ := comments_saved ht (hf _) (by decide) h
  have hw : Flac.writeTo (Flac.stream [] ((0, si) :: bs) audio) ⟨(vorbisRef t).1, (vorbisRef t).2, pics⟩ o.padding = .ok g := hw
  obtain ⟨vendor, hvendor, hvn⟩ := Flac.scanVendor_fine hvs (encoder_fine hok)
  have hvendor : Flac.scanVendor (Vorbis.Tag.mk (vorbisRef t).1 (vorbisRef t).2 pics).vendor bs = .ok vendor := hvendor
  obtain ⟨new, hnew⟩ := Flac.writeTo_encodes Flac.skipped_nil hsi (by omega) hv hvendor hw
  have hst := Flac.writeTo_stream [] si audio bs ⟨(vorbisRef t).1, (vorbisRef t).2, pics⟩ o.padding vendor new Flac.skipped_nil hsi
    (by omega) hv hvendor hnew
  have hfst := refPictures_fst _ hp
  have hbl : ∃ bl, g = Flac.stream [] ((0, si) :: bl) audio ∧ (∀ b ∈ bl, b.Valid) ∧ Flac.Vendors bl := by
    rw [hw] at hst
    have hst := (Except.ok.injEq _ _).mp hst
    split at hst
    · exact ⟨bs, hst, hv, hvs⟩
    · refine ⟨_, hst, ?_, Flac.vendors_written hnew hvn⟩
      intro b hb
      rcases List.mem_append.mp hb with hb | hb
      · rcases List.mem_append.mp hb with hb | hb
        · exact hv b (List.mem_filter.mp hb).1
        · exact ((Flac.written_blocks (bs := bs) (pad := []) hnew (by simp)).2.2.1 b hb).1
      · exact (Flac.addedPadding_type b hb).2
  obtain ⟨bl, rfl, h1, h2⟩ := hbl
  refine ⟨bl, rfl, h1, h2, ?_⟩
  by_cases hne : t.pictures ≠ [] ∨ ∃ k, supports .vorbisComments k = true ∧ strings t k ≠ []
  · obtain ⟨g', x, k1, k2, k3, k4, k5⟩ := flac_end_to_end (o := o) (r := r) (audio := audio) ht hsi hsi14 hv hvendor hvn hp hnew hok.nul hok.numbers
      hok.cover hok.pictures hne
    rw [h] at k1
    obtain rfl := (Except.ok.injEq _ _).mp k1
    refine ⟨[x], k2, ?_⟩
    have : seen .vorbisComments [x] = x := by
      unfold seen tagIn
      simp [k3]
    rw [this]
    exact ⟨k4, k5⟩
  · have hpic : t.pictures = [] := Classical.byContradiction fun h => hne (.inl h)
    have hstr : ∀ k, supports .vorbisComments k = true → strings t k = [] := fun k hk =>
      Classical.byContradiction fun h => hne (.inr ⟨k, hk, h⟩)
    have hp0 : pics = [] := by rw [hpic] at hfst; simpa using hfst
    have hi0 : (vorbisRef t).2 = [] := by
      refine List.eq_nil_iff_forall_not_mem.mpr fun x hx => ?_
      obtain ⟨j, hj, hjx⟩ := List.mem_filterMap.mp hx
      obtain ⟨s, hs, hjx⟩ := Option.bind_eq_some_iff.mp hjx
      obtain ⟨n, hn, -⟩ := Option.map_eq_some_iff.mp hjx
      have hk := hstr j.key (by rw [supports_map (by decide), hn]; rfl)
      have : s ∈ strings t j.key := List.mem_filterMap.mpr ⟨j, List.mem_filter.mpr ⟨hj, by simp⟩, hs⟩
      rw [hk] at this
      cases this
    have hread := Flac.readFrom_written r.comments [] si audio bs ⟨(vorbisRef t).1, (vorbisRef t).2, pics⟩ o.padding vendor new _
      Flac.skipped_nil hsi hsi14 hv hvendor hnew hw hvn (ref_stable hok.nul hok.numbers)
      (fun h => absurd hp0 h) (fun p hp' => by rw [hp0] at hp'; cases hp')
    simp only [hi0, hp0] at hread
    refine ⟨[], ?_, ?_⟩
    · have hfind : Id3v2.find (Flac.stream [] ((0, si) :: bl) audio) 0 true none = .ok (none, 0) := by
        refine flac_no_id3v2 _ ?_
        rw [List.length_append, Flac.encode_length]
        simp
        omega
      unfold openFile
      rw [hf]
      show openFlac _ _ = _
      unfold openFlac
      rw [hfind, ok_bind]
      simp only [FileTags.contentOf]
      rw [ok_bind, hread, ok_bind]
      rfl
    · refine ⟨hpic.symm, fun k hk _ => ?_⟩
      unfold texts
      rw [hstr k hk]
      rfl

/-- **C88, FLAC files.** A bound FLAC file and any history: if nothing was ever saved the file is as it was, otherwise it
opens and shows the comments that were written last. -/
theorem flac_disk_partial {o : Options} {r : ReadOptions} {b b' : Bound α} {as : List Act} {si audio : Bytes} {bs : List Flac.Spec.MBlock}
    (hty : b.inner.type = .flac) (hb : b.file = Flac.stream [] ((0, si) :: bs) audio)
    (hsi : si.length < 2 ^ 24) (hsi14 : 14 ≤ si.length) (hv : ∀ b ∈ bs, b.Valid) (hvs : Flac.Vendors bs) (hs : b.inner.Sound)
    (hok : ∀ t ∈ written b.inner as, CommentsOk r t) (h : b.run o as = .ok b') :
    match (as.foldl (Ledger.after .flac .vorbisComments) ⟨b.inner.tag .vorbisComments, none⟩).disk with
    | none => b'.intoInner = b.file
    | some t => ∃ xs, openFile r b'.intoInner = .ok xs ∧ ShowsComments t (seen .vorbisComments xs) := by
  have hl := congrArg Ledger.disk (fold_ledger hs .vorbisComments as [])
  have hg := (run_eq h).2
  have hd := written_sub b.inner as
  rw [hty] at hg hd hl
  rw [List.nil_append] at hl
  simp only [show lastOf .vorbisComments [] = none from rfl] at hl
  rw [hl, hb]
  rw [hb] at hg
  have hall : ∀ t ∈ written b.inner as, t.type = .vorbisComments := by
    intro t ht
    simpa [documented] using hd t ht
  generalize written b.inner as = ts at hg hok hall
  show match lastOf .vorbisComments ts with
    | none => b'.file = _
    | some t => ∃ xs, openFile r b'.file = .ok xs ∧ ShowsComments t (seen .vorbisComments xs)
  clear hl hd hb
  induction ts generalizing bs with
  | nil => exact ((Except.ok.injEq _ _).mp hg).symm
  | cons t ts ih =>
    have ht := hall t (by simp)
    unfold saveAll at hg
    rw [if_neg (by rw [ht]; decide)] at hg
    obtain ⟨g1, hg1, hg⟩ := bind_ok hg
    obtain ⟨bl, rfl, k1, k2, xs, k3, k4⟩ := flac_step ht hsi hsi14 hv hvs (hok t (by simp)) hg1
    have := ih k1 k2 hg (fun t h => hok t (by simp [h])) (fun t h => hall t (by simp [h]))
    rw [lastOf_cons t ht]
    simp only
    cases hl : lastOf .vorbisComments ts with
    | none =>
      rw [hl] at this
      simp only at this
      rw [this]
      exact ⟨xs, k3, k4⟩
    | some t' =>
      rw [hl] at this
      exact this

end Lofty.Bound
