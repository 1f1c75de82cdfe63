import Verif.Props.BoundOthers
/-!
# C88: bound OGG and FLAC files
-/
namespace Lofty.Bound
open Item File FileType FileType.Spec Save Opened Convert

variable {α : Type}

/-- What reopening an OGG or FLAC file shows of comments that were written: every text that was not empty, in order, and the pictures.
(Without an encoder among the comments the vendor of the file is shown as one.) -/
def ShowsComments (t u : Tag) : Prop :=
  u.pictures = t.pictures ∧
  ∀ k, supports .vorbisComments k = true → k ≠ .EncoderSoftware ∨ texts t .EncoderSoftware ≠ [] → u.getStrings k = texts t k

/-- What is asked of comments that are written, so that they can be read with the options `r` (as in C69). -/
structure CommentsOk (r : ReadOptions) (t : Tag) : Prop where
  nul : ∀ k, ∀ s ∈ texts t k, s.getLast? ≠ some '\x00'
  numbers : r.implicit = true → NumberOk t .TrackNumber ∧ NumberOk t .DiscNumber
  cover : t.pictures ≠ [] → r.cover = true
  pictures : ∀ p ∈ t.pictures, Picture.Stable p

theorem lastOf_snoc {ty : TagType} {ts : List Tag} {t : Tag} (h : t.type = ty) : lastOf ty (ts ++ [t]) = some t := by
  unfold lastOf
  rw [List.reverse_append, List.reverse_singleton, List.singleton_append, List.find?_cons]
  simp [h]

theorem lastOf_cons {ty : TagType} {ts : List Tag} (t : Tag) (h : t.type = ty) : lastOf ty (t :: ts) = some ((lastOf ty ts).getD t) := by
  unfold lastOf
  rw [List.reverse_cons, List.find?_append]
  cases (ts.reverse.find? fun t => decide (t.type = ty)) <;> simp [h]

/-- Comments saved to an OGG file. -/
theorem saveTo_ogg {fmt : OggWrite.Format} {o : Options} {t : Tag} {f : Bytes} (hf : verified f = .ok (oggType fmt)) (ht : t.type = .vorbisComments) :
    saveTo o t f = (refPictures t.pictures).bind fun pics => OggWrite.write fmt ⟨(vorbisRef t).1, (vorbisRef t).2, pics⟩ f := by
  have hd : (TagType.vorbisComments, false) ∈ documented (oggType fmt) := by cases fmt <;> decide
  rw [accepts hf o t (by rw [ht]; exact hd)]
  unfold asOwn
  rw [ht]
  simp only [vorbisTag]
  cases hp : refPictures t.pictures with
  | error e => rfl
  | ok pics =>
    show Own.saveTo o (.vorbisComments ⟨(vorbisRef t).1, (vorbisRef t).2, pics⟩) f = _
    unfold Own.saveTo
    rw [hf]
    simp only [Own.type, writable_doc hd, Bool.not_true, Bool.false_and, Bool.false_eq_true, if_false]
    cases fmt <;> rfl

/-- **Of several comments saved to an OGG file only the last ones count.** -/
theorem saveAll_ogg {fmt : OggWrite.Format} {o : Options} {ident x : Bytes} {others : List Bytes} (hi : ident = fmt.head ++ x) (h8 : 8 ≤ ident.length)
    (h255 : ident.length < 255) (ho : ∀ p ∈ others, p ≠ []) : ∀ (ts : List Tag) {f g comment rest : Bytes}, verified f = .ok (oggType fmt) →
    OggWrite.Headed fmt f (ident :: comment :: others) rest → (∀ t ∈ ts, t.type = .vorbisComments) → saveAll o (oggType fmt) ts f = .ok g →
    match lastOf .vorbisComments ts with
    | none => g = f
    | some t => saveTo o t f = .ok g
  | [], f, g, _, _, _, _, _, h => by
    obtain rfl := (Except.ok.injEq _ _).mp h
    rfl
  | t :: ts, f, g, comment, rest, hf, hh, hty, h => by
    have ht := hty t (by simp)
    have hd : (TagType.vorbisComments, false) ∈ documented (oggType fmt) := by cases fmt <;> decide
    unfold saveAll at h
    rw [if_neg (by rw [ht, writable_doc hd]; decide)] at h
    obtain ⟨g1, hg1, h⟩ := bind_ok h
    have hs := hg1
    rw [saveTo_ogg hf ht] at hs
    obtain ⟨pics, hp, hw⟩ := bind_ok hs
    obtain ⟨qs, junk, hq⟩ := OggWrite.paged_exists _ rest (Nat.le_refl _)
    have hne : ident ≠ [] := by rintro rfl; simp at h8
    obtain ⟨c, vendor, new, n, -, -, -, hh1⟩ := OggWrite.save_headers hw hh hq hne ho
    have hv1 := ogg_type hw hh hq hi h8 h255
    have ih := saveAll_ogg hi h8 h255 ho ts hv1 hh1 (fun t h => hty t (by simp [h])) h
    rw [lastOf_cons t ht]
    simp only
    cases hl : lastOf .vorbisComments ts with
    | none =>
      rw [hl] at ih
      simp only at ih
      rw [ih]
      exact hg1
    | some t' =>
      rw [hl] at ih
      simp only [Option.getD_some] at ih ⊢
      have ht' := (lastOf_mem hl).2
      rw [saveTo_ogg hv1 ht'] at ih
      obtain ⟨pics', hp', hw'⟩ := bind_ok ih
      rw [OggWrite.last_save_wins hw hh hne ho] at hw'
      rw [saveTo_ogg hf ht', hp']
      exact hw'

/-- **C88, OGG files.** A bound Vorbis, Opus or Speex file and any history: if nothing was ever saved the file is as it was, otherwise it
opens and shows the comments that were written last. -/
theorem ogg_disk_partial {fmt : OggWrite.Format} {o : Options} {r : ReadOptions} {b b' : Bound α} {as : List Act}
    {ident comment c rest : Bytes} {others : List Bytes} {vendor : Str} (hty : b.inner.type = oggType fmt) (hf : verified b.file = .ok (oggType fmt))
    (hh : OggWrite.Headed fmt b.file (ident :: comment :: others) rest) (hhead : ∃ x, ident = fmt.head ++ x) (h8 : 8 ≤ ident.length)
    (h255 : ident.length < 255) (ho : ∀ p ∈ others, p ≠ []) (hc : comment = fmt.sig ++ c) (hv : OggWrite.VendorIs c vendor)
    (hvendor : vendor.getLast? ≠ some '\x00') (hs : b.inner.Sound)
    (hok : ∀ t ∈ written b.inner as, CommentsOk r t ∧ ∀ pics new, refPictures t.pictures = .ok pics →
      Vorbis.createPacket ⟨vendor, (vorbisRef t).2, pics⟩ fmt.sig fmt.framing = .ok new → new.length < 2 ^ 32)
    (h : b.run o as = .ok b') :
    match (as.foldl (Ledger.after (oggType fmt) .vorbisComments) ⟨b.inner.tag .vorbisComments, none⟩).disk with
    | none => b'.intoInner = b.file
    | some t => ∃ x, openFile r b'.intoInner = .ok [x] ∧ x.type = .vorbisComments ∧ ShowsComments t x := by
  have hl := congrArg Ledger.disk (fold_ledger hs .vorbisComments as [])
  have hg := (run_eq h).2
  have hd := written_sub b.inner as
  rw [hty] at hg hd hl
  rw [List.nil_append] at hl
  simp only [show lastOf .vorbisComments [] = none from rfl] at hl
  rw [hl]
  obtain ⟨x, hx⟩ := hhead
  have hall : ∀ t ∈ written b.inner as, t.type = .vorbisComments := by
    intro t ht
    have := hd t ht
    cases fmt <;> simpa [oggType, documented] using this
  have key := saveAll_ogg (o := o) hx h8 h255 ho _ hf hh hall hg
  cases hlast : lastOf .vorbisComments (written b.inner as) with
  | none => rw [hlast] at key; exact key
  | some t =>
    rw [hlast] at key
    obtain ⟨ht, htt⟩ := lastOf_mem hlast
    obtain ⟨⟨n1, n2, n3, n4⟩, n5⟩ := hok t ht
    obtain ⟨x, h1, h2, h3, h4⟩ := ogg_end_to_end (r := r) htt hf key hh ⟨x, hx⟩ h8 h255 ho hc hv hvendor n1 n2 n3 n4 n5
    exact ⟨x, h1, h2, h3, h4⟩

end Lofty.Bound
