import Verif.Props.BoundFlac
import Verif.Props.Again
/-!
# C88: bound MP4 files
-/
namespace Lofty.Mp4Read
open Lofty.Text Lofty.Mp4 Lofty.Ilst Lofty.Mp4Write

theorem savedFile_clear {x : File} (h : Clear x) (s : Nat → Nat) (content : Bytes) (l : List Bytes) : Clear (savedFile x s content l) :=
  ⟨mapOffsets_silent s h.moov1, mapOffsets_silent s h.moov2, by
    intro i hi
    refine h.udta2 i ?_
    have : (x.udta2.mapOffsets s).top = x.udta2.top := mapOffsets_top s _
    rw [← this]
    exact hi, h.items1, h.items2⟩

end Lofty.Mp4Read

namespace Lofty.Bound
open Item File FileType FileType.Spec Save Opened Convert

variable {α : Type}

/-- What reopening an MP4 file shows of a tag that was written (as in C69). -/
def ShowsAtoms (t u : Tag) : Prop :=
  u.items = t.items.filterMap ilstKept ++ numberItem .TrackNumber (lastNumber t.items .TrackNumber) ++
    numberItem .TrackTotal (lastNumber t.items .TrackTotal) ++ numberItem .DiscNumber (lastNumber t.items .DiscNumber) ++
    numberItem .DiscTotal (lastNumber t.items .DiscTotal) ++ optItem .ParentalAdvisory ((ratings t.items).head?.map toDec) ∧
  u.pictures = t.pictures.map untyped ∧ u.type = .mp4Ilst

/-- What is asked of the tags that are written to a file one after the other: each has something MP4 can hold, and the files do not grow too
large. -/
def AtomsOk (o : Options) (r : ReadOptions) : List Tag → Bytes → Prop
  | [], _ => True
  | t :: ts, f => mergeIlst [] t ≠ [] ∧ Mp4Ready t ∧ ((mergeIlst [] t).flatMap Ilst.atomBox).length ≤ r.limit ∧
      8 * f.length + 8 * ((mergeIlst [] t).flatMap Ilst.atomBox).length + 7 * o.padding.getD 0 + 64 < 2 ^ 30 ∧
      ∀ g, saveTo o t f = .ok g → AtomsOk o r ts g

/-- **Several tags saved to an MP4 file**: only the last one counts. -/
theorem saveAll_mp4 {o : Options} {r : ReadOptions} (hcov : r.cover = true) (hpad : ∀ k, o.padding = some k → 8 ≤ k) :
    ∀ (ts : List Tag) (x : Mp4Write.File) {g : Bytes}, x.Ok → Mp4Read.Clear x → (x.version ≠ [] ∨ x.items2 ≠ []) →
    (∀ c rest, x.before = .leaf (ascii "ftyp") c rest → c.length + 8 < 2 ^ 24) →
    (∀ t ∈ ts, t.type = .mp4Ilst) → AtomsOk o r ts x.bytes → saveAll o .mp4 ts x.bytes = .ok g →
    match lastOf .mp4Ilst ts with
    | none => g = x.bytes
    | some t => ∃ y, openFile r g = .ok [y] ∧ ShowsAtoms t y
  | [], x, g, _, _, _, _, _, _, h => ((Except.ok.injEq _ _).mp h).symm
  | t :: ts, x, g, hx, hc, hv, hbrand, hty, hok, h => by
    have ht := hty t (by simp)
    unfold saveAll at h
    rw [if_neg (by rw [ht]; decide)] at h
    obtain ⟨g1, hg1, h⟩ := bind_ok h
    obtain ⟨k1, k2, k3, k4, k5⟩ := hok
    obtain ⟨g', y, h1, h2, h3⟩ := mp4_end_to_end_partial (o := o) (r := r) x hx hc ht hbrand k1 k2 hcov k3 hpad (by omega)
    rw [hg1] at h1
    obtain rfl := (Except.ok.injEq _ _).mp h1
    obtain ⟨s, l, -, -, hok', hw, -⟩ := Mp4Read.first_save x hx hv _ k1 (merge_atoms_ok (o := r.mp4.opts) k2 hcov) o.mode o.padding hpad k4
    have hv0 : verified x.bytes = .ok .mp4 := by
      obtain ⟨c, rest, hcr, -⟩ := hx.brand
      exact ftyp_verified hcr (hbrand c rest hcr) _
    rw [saveTo_mp4 hv0 ht, hw] at hg1
    obtain rfl := (Except.ok.injEq _ _).mp hg1
    have ih := saveAll_mp4 hcov hpad ts _ hok' (Mp4Read.savedFile_clear hc s _ l) hv hbrand (fun t h => hty t (by simp [h]))
      (k5 _ (by rw [saveTo_mp4 hv0 ht, hw])) h
    rw [lastOf_cons t ht]
    simp only
    cases hl : lastOf .mp4Ilst ts with
    | none =>
      rw [hl] at ih
      simp only at ih
      rw [ih]
      exact ⟨y, h2, h3⟩
    | some t' =>
      rw [hl] at ih
      exact ih

/-- **C88, MP4 files.** A bound MP4 file with a tag (as in C58) and any history: if nothing was ever saved the file is as it was, otherwise
it opens and shows the tag that was written last. -/
theorem mp4_disk_partial {o : Options} {r : ReadOptions} {b b' : Bound α} {as : List Act} {x : Mp4Write.File} (hty : b.inner.type = .mp4)
    (hb : b.file = x.bytes) (hx : x.Ok) (hc : Mp4Read.Clear x) (hv : x.version ≠ [] ∨ x.items2 ≠ [])
    (hbrand : ∀ c rest, x.before = .leaf (ascii "ftyp") c rest → c.length + 8 < 2 ^ 24) (hcov : r.cover = true)
    (hpad : ∀ k, o.padding = some k → 8 ≤ k) (hs : b.inner.Sound) (hok : AtomsOk o r (written b.inner as) x.bytes)
    (h : b.run o as = .ok b') :
    match (as.foldl (Ledger.after .mp4 .mp4Ilst) ⟨b.inner.tag .mp4Ilst, none⟩).disk with
    | none => b'.intoInner = b.file
    | some t => ∃ y, openFile r b'.intoInner = .ok [y] ∧ ShowsAtoms t y := by
  have hl := congrArg Ledger.disk (fold_ledger hs .mp4Ilst as [])
  have hg := (run_eq h).2
  have hd := written_sub b.inner as
  rw [hty] at hg hd hl
  rw [List.nil_append] at hl
  simp only [show lastOf .mp4Ilst [] = none from rfl] at hl
  rw [hl, hb]
  rw [hb] at hg
  exact saveAll_mp4 hcov hpad _ x hx hc hv hbrand (fun t ht => by simpa [documented] using hd t ht) hok hg

/-- **After a save** the tag of a type that can be written is, if it is still in memory, the one that was written last. -/
theorem memory_written {o : Options} {b b' : Bound α} {as : List Act} {ft : FileType} {ty : TagType} (hty : b.inner.type = ft) (hs : b.inner.Sound)
    (hw : (ty, false) ∈ documented ft) (h : b.run o (as ++ [.save]) = .ok b') {t : Tag} (ht : b'.inner.tag ty = some t) :
    ((as ++ [Act.save]).foldl (Ledger.after ft ty) ⟨b.inner.tag ty, none⟩).disk = some t := by
  have hl := congrArg Ledger.memory (fold_ledger hs ty (as ++ [.save]) [])
  rw [← (run_eq h).1, hty] at hl
  simp only [ht, show lastOf ty [] = none from rfl] at hl
  exact memory_disk hw hl

/-! ## Examples -/

/-- Two tags are saved one after the other. -/
def exHistory (ty : TagType) : List Act := [.insert (titled ty), .save, .insert (full ty)]

theorem titled_comments : CommentsOk exRead (titled .vorbisComments) := by
  refine ⟨?_, fun _ => ⟨.inl (by decide +kernel), .inl (by decide +kernel)⟩, nofun, nofun⟩
  have : ∀ k ∈ ItemKey.all, ∀ s ∈ texts (titled .vorbisComments) k, s.getLast? ≠ some '\x00' := by decide +kernel
  exact fun k => this k (ItemKey.mem_all k)

theorem full_comments : CommentsOk exRead (full .vorbisComments) := ⟨full_texts, fun _ => full_numbers, nofun, nofun⟩

/-- A bound Opus file. -/
def exOpus : Bound Unit := ⟨⟨.opus, none, []⟩, OggWrite.opus⟩

example : ∃ b', exOpus.run exWrite (exHistory .vorbisComments ++ [.save]) = .ok b' ∧ ∃ x, openFile exRead b'.intoInner = .ok [x] ∧
    x.getStrings .TrackArtist = [str "a", str "b"] := by
  have hr : (exOpus.run exWrite (exHistory .vorbisComments ++ [.save])).toOption.isSome = true := by decide +kernel
  cases hg : exOpus.run exWrite (exHistory .vorbisComments ++ [.save]) with
  | error e => rw [hg] at hr; cases hr
  | ok b' =>
    have hs : exOpus.inner.Sound := ⟨List.nodup_nil, fun _ h => nomatch h⟩
    have hlen : ∀ t ∈ [titled .vorbisComments, full .vorbisComments], ∀ pics new, refPictures t.pictures = .ok pics →
        Vorbis.createPacket ⟨str "libopus", (vorbisRef t).2, pics⟩ OggWrite.Format.opus.sig OggWrite.Format.opus.framing = .ok new → new.length < 2 ^ 32 := by
      intro t ht pics new hp hn
      have hsz : ∀ t ∈ [titled .vorbisComments, full .vorbisComments], t.pictures = [] ∧
        ((Vorbis.createPacket ⟨str "libopus", (vorbisRef t).2, []⟩ OggWrite.Format.opus.sig OggWrite.Format.opus.framing).toOption.map
          List.length).getD 0 < 1000 := by decide +kernel
      obtain ⟨h1, h2⟩ := hsz t ht
      rw [h1] at hp
      have hp : Except.ok [] = Except.ok pics := hp
      cases hp
      rw [hn] at h2
      have : new.length < 1000 := h2
      omega
    have hd := ogg_disk_partial (fmt := .opus) (r := exRead) (vendor := str "libopus") (b := exOpus) rfl opus_verified OggWrite.opus_headed
      ⟨OggWrite.ident.drop 8, by decide⟩ (by decide) (by decide) (by simp) rfl ⟨ascii "libopus", _, by decide, rfl, .inl (by decide +kernel)⟩
      (by decide) hs (fun t ht => by
        have ht : t ∈ [titled .vorbisComments, full .vorbisComments] := ht
        refine ⟨?_, hlen t ht⟩
        simp only [List.mem_cons, List.not_mem_nil, or_false] at ht
        rcases ht with rfl | rfl
        · exact titled_comments
        · exact full_comments) hg
    have hm : b'.inner.tag .vorbisComments = some (full .vorbisComments) := by rw [(run_eq hg).1]; rfl
    rw [memory_written (b := exOpus) (ft := oggType .opus) rfl hs (by decide) hg hm] at hd
    obtain ⟨x, h1, -, -, h2⟩ := hd
    exact ⟨b', rfl, x, h1, by rw [h2 _ (by decide +kernel) (.inl (by decide))]; decide +kernel⟩

/-- A bound FLAC file. -/
def exFlac : Bound Unit := ⟨⟨.flac, none, []⟩, flacFile⟩

example : ∃ b', exFlac.run exWrite (exHistory .vorbisComments ++ [.save]) = .ok b' ∧ ∃ xs, openFile exRead b'.intoInner = .ok xs ∧
    (seen .vorbisComments xs).getStrings .TrackArtist = [str "a", str "b"] := by
  have hr : (exFlac.run exWrite (exHistory .vorbisComments ++ [.save])).toOption.isSome = true := by decide +kernel
  cases hg : exFlac.run exWrite (exHistory .vorbisComments ++ [.save]) with
  | error e => rw [hg] at hr; cases hr
  | ok b' =>
    have hs : exFlac.inner.Sound := ⟨List.nodup_nil, fun _ h => nomatch h⟩
    have hd := flac_disk_partial (r := exRead) (b := exFlac) (si := List.replicate 34 7)
      (bs := [(4, [1, 0, 0, 0, 0x76, 1, 0, 0, 0, 3, 0, 0, 0, 65, 61, 98])]) (audio := [0xFF, 0xF8]) rfl rfl (by decide) (by decide)
      (by intro b hb; simp only [List.mem_cons, List.not_mem_nil, or_false] at hb; subst hb; exact ⟨by decide, by decide⟩)
      (by
        intro b hb h4
        simp only [List.mem_cons, List.not_mem_nil, or_false] at hb
        subst hb
        exact ⟨str "v", by decide +kernel, by decide⟩) hs (fun t ht => by
        have ht : t ∈ [titled .vorbisComments, full .vorbisComments] := ht
        simp only [List.mem_cons, List.not_mem_nil, or_false] at ht
        rcases ht with rfl | rfl
        · exact titled_comments
        · exact full_comments) hg
    have hm : b'.inner.tag .vorbisComments = some (full .vorbisComments) := by rw [(run_eq hg).1]; rfl
    rw [memory_written (b := exFlac) (ft := .flac) rfl hs (by decide) hg hm] at hd
    obtain ⟨xs, h1, -, h2⟩ := hd
    exact ⟨b', rfl, xs, h1, by rw [h2 _ (by decide +kernel) (.inl (by decide))]; decide +kernel⟩

/-- A bound MP4 file. -/
def exMp4 : Bound Unit := ⟨⟨.mp4, none, []⟩, (Mp4Write.file []).bytes⟩

theorem exMp4_ready : ∀ t ∈ [titled .mp4Ilst, ⟨.mp4Ilst, [], [TagItem.new .TrackTitle (.text (str "y"))], false⟩], Mp4Ready t := by
  intro t ht
  constructor
  · intro i hi s hs _
    simp only [titled, List.mem_cons, List.not_mem_nil, or_false] at ht
    rcases ht with rfl | rfl <;>
    · simp only [List.mem_cons, List.not_mem_nil, or_false] at hi
      subst hi
      cases hs
      decide
  · intro p hp
    simp only [titled, List.mem_cons, List.not_mem_nil, or_false] at ht
    rcases ht with rfl | rfl <;> cases hp

example : ∃ b', exMp4.run exWrite ([.insert (titled .mp4Ilst), .save, .insert ⟨.mp4Ilst, [], [TagItem.new .TrackTitle (.text (str "y"))], false⟩] ++
    [.save]) = .ok b' ∧ ∃ x, openFile exRead b'.intoInner = .ok [x] ∧ x.getStrings .TrackTitle = [str "y"] := by
  generalize he : ([.insert (titled .mp4Ilst), .save, .insert ⟨.mp4Ilst, [], [TagItem.new .TrackTitle (.text (str "y"))], false⟩] : List Act) = as
  have hr : (exMp4.run exWrite (as ++ [.save])).toOption.isSome = true := by subst he; decide +kernel
  cases hg : exMp4.run exWrite (as ++ [.save]) with
  | error e => rw [hg] at hr; cases hr
  | ok b' =>
    have hs : exMp4.inner.Sound := ⟨List.nodup_nil, fun _ h => nomatch h⟩
    have hok : AtomsOk exWrite exRead (written exMp4.inner (as ++ [.save])) (Mp4Write.file []).bytes := by
      subst he
      refine ⟨by decide +kernel, exMp4_ready _ (by simp), by decide +kernel, by decide +kernel, fun g hg => ?_⟩
      refine ⟨by decide +kernel, exMp4_ready _ (by simp), by decide +kernel, ?_, fun g hg => trivial⟩
      have : ((saveTo exWrite (titled .mp4Ilst) (Mp4Write.file []).bytes).toOption.map List.length).getD 0 < 10000 := by decide +kernel
      rw [hg] at this
      have h1 : g.length < 10000 := this
      have h2 : 8 * ((mergeIlst [] ⟨.mp4Ilst, [], [TagItem.new .TrackTitle (.text (str "y"))], false⟩).flatMap Ilst.atomBox).length +
        7 * exWrite.padding.getD 0 + 64 < 100000 := by decide +kernel
      omega
    have hd := mp4_disk_partial (r := exRead) (b := exMp4) rfl rfl (Mp4Write.file_ok _ (.inl rfl)) (Mp4Read.file_clear _) (.inl (by decide))
      (fun c rest h => by cases h; decide) rfl (fun k h => by cases h; decide) hs hok hg
    have hm : b'.inner.tag .mp4Ilst = some ⟨.mp4Ilst, [], [TagItem.new .TrackTitle (.text (str "y"))], false⟩ := by
      rw [(run_eq hg).1]; subst he; rfl
    rw [memory_written (b := exMp4) (ft := .mp4) rfl hs (by decide) hg hm] at hd
    obtain ⟨x, h1, h2, -⟩ := hd
    refine ⟨b', rfl, x, h1, ?_⟩
    unfold Tag.getStrings
    rw [h2]
    decide +kernel

end Lofty.Bound
