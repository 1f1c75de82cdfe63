import Verif.Lemmas.Limits
import Verif.Props.SeveralAiff
import Verif.Props.SeveralChunks
/-!
# C100: what the allocation limit does to the files the library writes
-/
namespace Lofty.Limits

/-! ## The limit only refuses -/

/-- C100: with a limit Vorbis comments are read as without, or refused because of it. -/
theorem comments_or_refused (limit : Nat) (o : Vorbis.Opts) (d : Bytes) (len : Nat) :
    readComments limit o d len = Vorbis.readComments o d len ∨ readComments limit o d len = .error .alloc := by
  unfold readComments Vorbis.readComments
  refine bind_or _ _ _ fun ⟨vl, d⟩ => ?_
  dsimp only
  split
  · exact .inl rfl
  · refine tryVec_or _ _ (bind_or _ _ _ fun ⟨raw, d⟩ => ?_)
    dsimp only
    refine bind_or _ _ _ fun vendor => bind_or _ _ _ fun ⟨n, d⟩ => ?_
    dsimp only
    split
    · exact .inl rfl
    · exact readItems_or _ _ _ _ _ _

/-- C100: so are the comments of OGG files, and so it is with saving to them. -/
theorem ogg_or_refused (limit : Nat) (fmt : OggWrite.Format) (o : Vorbis.Opts) (t : Vorbis.Tag) (f : Bytes) :
    (readOgg limit fmt o f = OggWrite.read fmt o f ∨ readOgg limit fmt o f = .error .alloc) ∧
    (writeOgg limit fmt t f = OggWrite.write fmt t f ∨ writeOgg limit fmt t f = .error .alloc) := by
  constructor
  · unfold readOgg OggWrite.read
    refine bind_or _ _ _ fun h => ?_
    dsimp only
    rcases comments_or_refused limit o (h.comment.drop fmt.sig.length) (h.comment.drop fmt.sig.length).length with e | e
    · rw [e]; exact .inl rfl
    · rw [e]; exact .inr rfl
  · unfold writeOgg OggWrite.write
    refine bind_or _ _ _ fun ⟨first, d⟩ => ?_
    dsimp only
    refine bind_or _ _ _ fun ⟨packets, rest⟩ => ?_
    dsimp only
    refine bind_or _ _ _ fun comment => ?_
    rcases comment with _ | comment
    · exact .inl rfl
    rcases rest with _ | rest
    · exact .inl rfl
    · dsimp only
      split
      · exact .inl rfl
      · have hv : oldVendor limit (comment.drop fmt.sig.length) = OggWrite.oldVendor (comment.drop fmt.sig.length) ∨
            oldVendor limit (comment.drop fmt.sig.length) = .error .alloc := by
          unfold oldVendor OggWrite.oldVendor
          refine bind_or _ _ _ fun ⟨n, b⟩ => ?_
          dsimp only
          exact tryVec_or _ _ (.inl rfl)
        rcases hv with e | e
        · rw [e]; exact .inl rfl
        · rw [e]; exact .inr rfl

/-- C100: and so are WAV and AIFF files. -/
theorem chunks_or_refused (limit : Nat) (o : FileTags.Opts) (f : Bytes) :
    (readWav limit o f = IffFiles.readWav o f ∨ readWav limit o f = .error .alloc) ∧
    (readAiff limit o f = IffFiles.readAiff o f ∨ readAiff limit o f = .error .alloc) := by
  constructor
  · unfold readWav IffFiles.readWav
    refine bind_or _ _ _ fun _ => ?_
    dsimp only
    rw [wavChunk_guarded]
    rcases guarded_or (be := false) (strict := decide (o.id3.mode = .strict)) (fun h => decide (tooLong limit o h))
      (IffFiles.wavChunk o (f.length - 12)) (f.length - 12 + 1) (Iff.Chunks.new f 12 (f.length - 12)) ⟨⟨0, 0, []⟩, [], none⟩ with e | e
    · rw [e]; exact .inl rfl
    · rw [e]; exact .inr rfl
  · unfold readAiff IffFiles.readAiff
    refine bind_or _ _ _ fun _ => ?_
    dsimp only
    rw [aiffChunk_guarded]
    rcases guarded_or (be := true) (strict := decide (o.id3.mode = .strict)) (fun h => decide (tooLong limit o h))
      (IffFiles.aiffChunk o) (f.length - 12 + 1) (Iff.Chunks.new f 12 (f.length - 12))
      ⟨⟨none, 0⟩, ⟨none, none, none, [], []⟩, none⟩ with e | e
    · rw [e]; exact .inl rfl
    · rw [e]; exact .inr rfl

/-! ## Vorbis comments -/

/-- C100: comments that are not longer than the limit as a whole are never refused. -/
theorem comments_small {limit : Nat} (o : Vorbis.Opts) (d : Bytes) {len : Nat} (h : len ≤ limit) :
    readComments limit o d len = Vorbis.readComments o d len := by
  unfold readComments Vorbis.readComments
  refine congrArg _ (funext fun ⟨vl, d⟩ => ?_)
  dsimp only
  split
  · rfl
  · rw [tryVec_le (by omega), ok_bind]
    refine congrArg _ (funext fun ⟨raw, d⟩ => ?_)
    dsimp only
    refine congrArg _ (funext fun vendor => congrArg _ (funext fun ⟨n, d⟩ => ?_))
    dsimp only
    split
    · rfl
    · exact readItems_small o _ _ _ _ (by omega)

/-- C100, **FLAC**: the length of a block has three bytes, so that the default limit never refuses its comments. -/
theorem flac_never_refused (o : Vorbis.Opts) {content : Bytes} (h : content.length < 2 ^ 24) :
    readComments defaultLimit o content content.length = Vorbis.readComments o content content.length :=
  comments_small o content (by unfold defaultLimit; omega)

/-- The comments of a tag are no longer than `limit`, its pictures in base64 included; comments without a value are not written. -/
def Within (limit : Nat) (t : Vorbis.Tag) : Prop :=
  (utf8 t.vendor).length ≤ limit ∧ (∀ i ∈ t.items, i.2 ≠ [] → (utf8 i.1).length + 1 + (utf8 i.2).length ≤ limit) ∧
  ∀ p ∈ t.pictures, 23 + (Picture.asFlacBytes p.1 p.2 true).length ≤ limit

instance (limit : Nat) (t : Vorbis.Tag) : Decidable (Within limit t) := by unfold Within; infer_instance

/-- C100: what is read of comments that were written: the same, if each of them is within the limit, otherwise nothing. -/
theorem written_limited {limit : Nat} (o : Vorbis.Opts) (t : Vorbis.Tag) (sig : Bytes) (framing : Bool) (packet rest : Bytes) (len : Nat)
    (hw : Vorbis.createPacket t sig framing = .ok packet) (hvendor : t.vendor.getLast? ≠ some '\x00')
    (hitems : Vorbis.Stable o (t.items.filter fun i => !i.2.isEmpty)) (hcover : t.pictures ≠ [] → o.readCoverArt = true)
    (hpics : ∀ p ∈ t.pictures, Picture.Stable p.1) (hlen : packet.length - sig.length ≤ len) (hmax : len < 2 ^ 32) :
    readComments limit o (packet.drop sig.length ++ rest) len =
      if Within limit t then .ok ({ t with items := t.items.filter fun i => !i.2.isEmpty }, (if framing then [1] else []) ++ rest)
      else .error .alloc := by
  unfold Vorbis.createPacket at hw
  obtain ⟨⟨cb, n⟩, h1, hw⟩ := bind_ok hw
  obtain ⟨⟨pb, m⟩, h2, hw⟩ := bind_ok hw
  cases hw
  obtain ⟨rfl, rfl, hl1⟩ := Vorbis.createComments_eq _ _ _ h1
  obtain ⟨rfl, rfl, hl2⟩ := Vorbis.createPictures_eq _ _ _ h2
  have hwithin : Within limit t ↔ (utf8 t.vendor).length ≤ limit ∧
      ∀ c ∈ (t.items.filter fun i => !i.2.isEmpty).map Vorbis.commentBytes ++ t.pictures.map Vorbis.pictureComment, c.length ≤ limit := by
    have hp : ∀ p, (Vorbis.pictureComment p).length = 23 + (Picture.asFlacBytes p.1 p.2 true).length := by
      intro p; unfold Vorbis.pictureComment; rw [List.length_append]; rfl
    have hc : ∀ i, (Vorbis.commentBytes i).length = (utf8 i.1).length + 1 + (utf8 i.2).length := by
      intro i; unfold Vorbis.commentBytes; rw [List.length_append, List.length_cons]; omega
    unfold Within
    refine and_congr_right fun _ => ⟨fun h c hcm => ?_, fun h => ⟨fun i hi hne => ?_, fun p hpm => ?_⟩⟩
    · rcases List.mem_append.mp hcm with hcm | hcm
      · obtain ⟨i, hi, rfl⟩ := List.mem_map.mp hcm
        obtain ⟨hi, hne⟩ := List.mem_filter.mp hi
        rw [hc]
        exact h.1 i hi (by rintro e; rw [e] at hne; exact absurd hne (by decide))
      · obtain ⟨p, hpm, rfl⟩ := List.mem_map.mp hcm
        rw [hp]
        exact h.2 p hpm
    · rw [← hc]
      exact h _ (List.mem_append_left _ (List.mem_map_of_mem (List.mem_filter.mpr ⟨hi, by simpa using hne⟩)))
    · rw [← hp]
      exact h _ (List.mem_append_right _ (List.mem_map_of_mem hpm))
  generalize hits : (t.items.filter fun i => !i.2.isEmpty) = its at *
  let cs := its.map Vorbis.commentBytes ++ t.pictures.map Vorbis.pictureComment
  have hcsl : cs.length = its.length + t.pictures.length := by simp [cs]
  have henc : Vorbis.encodeAll cs = Vorbis.encodeAll (its.map Vorbis.commentBytes) ++ Vorbis.encodeAll (t.pictures.map Vorbis.pictureComment) := by
    simp [cs, Vorbis.encodeAll]
  have hfold : cs.foldlM (Vorbis.readItem o) ⟨t.vendor, [], []⟩ = .ok { t with items := its } := by
    rw [List.foldlM_append, Vorbis.foldl_items o its ⟨t.vendor, [], []⟩ (by simpa using hitems), ok_bind]
    cases hp : t.pictures with
    | nil => rw [← hp]; simp [hp]; rfl
    | cons p ps => rw [← hp, Vorbis.foldl_pictures o (hcover (by simp [hp])) _ _ hpics]; simp
  have hcl : ∀ c ∈ cs, c.length < 2 ^ 32 := by
    intro c hc
    rcases List.mem_append.mp hc with hc | hc <;> obtain ⟨i, hi, rfl⟩ := List.mem_map.mp hc
    · exact hl1 i hi
    · exact hl2 i hi
  simp only [List.append_assoc] at hlen ⊢
  rw [← List.append_assoc (Vorbis.encodeAll _) (Vorbis.encodeAll _) _, ← henc]
  rw [← List.append_assoc (Vorbis.encodeAll _) (Vorbis.encodeAll _) _, ← henc] at hlen
  rw [List.drop_left]
  simp only [List.length_append, leBytes_length, Vorbis.encodeAll_length] at hlen
  have hlen2 : 4 + (utf8 t.vendor).length + 4 + (4 * cs.length + (cs.map List.length).sum) ≤ len := by omega
  simp only [List.append_assoc]
  unfold readComments
  rw [readLE_append _ (by omega), ok_bind]
  simp only
  rw [if_neg (by omega)]
  by_cases hv : limit < (utf8 t.vendor).length
  · rw [tryVec_gt hv, error_bind, if_neg (fun h => by have := h.1; omega)]
  rw [tryVec_le (by omega), ok_bind, readN_append _ _ rfl, ok_bind]
  simp only
  rw [Vorbis.readVendor, Vorbis.utf8Decode_utf8 _ hvendor]
  simp only [ok_bind]
  rw [readLE_append _ (by omega), ok_bind]
  simp only
  rw [if_neg (by omega), ← hcsl, readItems_encodeAll o cs _ _ _ _ (by omega) hcl hfold]
  exact if_congr (by rw [hwithin]; exact ⟨fun h => ⟨by omega, h⟩, fun h => h.2⟩) rfl rfl

open Lofty.Ogg Lofty.OggProps in
/-- **C100, OGG files.** The comments saved to a file are read from it if each of them is within the limit; otherwise they were saved, but
the file cannot be read any more. -/
theorem ogg_limited {limit : Nat} {fmt : OggWrite.Format} {t : Vorbis.Tag} {f g ident comment c rest : Bytes} {others : List Bytes} {vendor : Str}
    {o : Vorbis.Opts} (h : OggWrite.write fmt t f = .ok g) (hh : OggWrite.Headed fmt f (ident :: comment :: others) rest)
    (hhead : ∃ r, ident = fmt.head ++ r) (ho : ∀ p ∈ others, p ≠ []) (hc : comment = fmt.sig ++ c) (hv : OggWrite.VendorIs c vendor)
    (hvendor : vendor.getLast? ≠ some '\x00') (hitems : Vorbis.Stable o (t.items.filter fun i => !i.2.isEmpty))
    (hcover : t.pictures ≠ [] → o.readCoverArt = true) (hpics : ∀ p ∈ t.pictures, Picture.Stable p.1)
    (hlen : ∀ new, Vorbis.createPacket { t with vendor := vendor } fmt.sig fmt.framing = .ok new → new.length < 2 ^ 32) :
    readOgg limit fmt o g = if Within limit { t with vendor := vendor }
      then .ok { vendor := vendor, items := t.items.filter (fun i => !i.2.isEmpty), pictures := t.pictures } else .error .alloc := by
  obtain ⟨qs, junk, hq⟩ := OggWrite.paged_exists _ rest (Nat.le_refl _)
  obtain ⟨first, d1, c', vendor', new, heads, h1, h2, h3, h4, h5, rfl⟩ := OggWrite.save_file h hh hq
  obtain rfl : c = c' := List.append_cancel_left (hc ▸ h2)
  obtain rfl : vendor = vendor' := by
    have a := OggWrite.oldVendor_eq.mpr hv
    rw [OggWrite.oldVendor_eq.mpr h3] at a
    exact ((Except.ok.injEq _ _).mp a).symm
  have hl := hlen new h4
  have w2 := written_limited (limit := limit) o _ _ _ new [] (new.length - fmt.sig.length) h4 hvendor hitems hcover hpics (Nat.le_refl _) (by omega)
  have hs := (header_read_ok h1).2.2.2.2.1
  have hi : ident ≠ [] := by
    obtain ⟨r, rfl⟩ := hhead
    cases fmt <;> simp [OggWrite.Format.head, opusHead, vorbisHead, speexHead, ascii]
  obtain ⟨⟨p, k1, k4⟩, first', d2, k2, k3, _⟩ := OggWrite.run_headed (qs := qs) (fmt := fmt) (by have := OggWrite.headed_length hh; simpa using this) (by
    intro p hp
    simp only [List.mem_cons] at hp
    rcases hp with rfl | rfl | hp
    · exact hi
    · exact OggWrite.new_ne h4
    · exact ho p hp) hs h5
  obtain ⟨r, hr⟩ := OggWrite.createPacket_front h4
  unfold readOgg readHeaders
  rw [k2, ok_bind]
  simp only
  rw [k1, ok_bind]
  simp only
  rw [show p.get 0 = .ok (some ident) from get_holds p _ k4 0, ok_bind,
    show p.get 1 = .ok (some new) from get_holds p _ k4 1, ok_bind]
  simp only
  rw [OggWrite.hasSignature_eq.mpr hhead, OggWrite.hasSignature_eq.mpr ⟨_, hr⟩, if_neg (by decide), if_neg (by simp), ok_bind]
  simp only
  rw [List.length_drop]
  rw [List.append_nil] at w2
  rw [w2]
  split <;> rfl

/-! ## ID3v2 chunks -/

open Lofty.Iff Lofty.IffFiles Lofty.FileTags

/-- Chunks are checked by what their headers say. -/
theorem tooLong_iff {limit : Nat} {o : Opts} (ho : o.readTags = true) (d : Chunk) (start : Nat) :
    decide (tooLong limit o ⟨d.1, d.2.length, start⟩) = decide (d.IsId3 ∧ limit < d.2.length) := by
  refine decide_eq_decide.mpr ?_
  unfold tooLong Chunk.IsId3
  exact ⟨fun h => ⟨h.1, h.2.2⟩, fun h => ⟨h.1, ho, h.2⟩⟩

/-- **C100, WAV files.** If no ID3v2 chunk is longer than the limit, the file is read as without; if one is, the file cannot be read at
all, and the limit is the reason if it could be read without. -/
theorem wav_limited {limit : Nat} {o : Opts} (ho : o.readTags = true) (its : Chunk → List Item) (cs : List Chunk)
    (hcs : ∀ d ∈ cs, WavReadable its d) (hsz : (wav cs).length < 2 ^ 32) :
    ((∀ d ∈ cs, d.IsId3 → d.2.length ≤ limit) → readWav limit o (wav cs) = IffFiles.readWav o (wav cs)) ∧
    ((∃ d ∈ cs, d.IsId3 ∧ limit < d.2.length) → (∃ e, readWav limit o (wav cs) = .error e) ∧
      ∀ m, IffFiles.readWav o (wav cs) = .ok m → readWav limit o (wav cs) = .error .alloc) := by
  have hsz' := hsz
  rw [wav_length] at hsz
  have hv := verifyWav_wav cs [] (by omega)
  rw [List.append_nil] at hv
  have hs := wav_split cs []
  rw [List.append_nil] at hs
  have hl := wav_length cs
  have hle := length_le_encAll false cs
  have hpf := pend_fresh (Chunks.new (wav cs) 12 (encAll false cs).length) rfl rfl
  have hst := Steps.fold (fn := IffFiles.wavChunk o (encAll false cs).length) (t := (encAll false cs).length) (be := false) (wavStep o its) cs
    ⟨⟨0, 0, []⟩, [], none⟩ (fun d hd => ⟨(hcs d hd).1, fun a => wav_step ho (hcs d hd) _ a⟩)
  have key : ∀ {fn : Hdr → Chunks → WavAcc → Except Err (Chunks × WavAcc)} {r : Except Err WavAcc},
      Steps false fn (encAll false cs).length cs ⟨⟨0, 0, []⟩, [], none⟩ r →
      chunkLoop false (decide (o.id3.mode = .strict)) fn ((encAll false cs).length + 1) (Chunks.new (wav cs) 12 (encAll false cs).length) ⟨⟨0, 0, []⟩, [], none⟩ =
        (do let x ← r; .ok (x, _)) := fun h =>
    chunkLoop_steps h ((encAll false cs).length + 1) (Chunks.new (wav cs) 12 (encAll false cs).length) _ [] (by omega) rfl rfl hs
      (by rw [wav_prefix_length]; exact hpf) (Nat.le_refl _)
  constructor
  · intro hall
    unfold readWav IffFiles.readWav
    rw [hv, ok_bind, ok_bind]
    simp only
    rw [show (wav cs).length - 12 = (encAll false cs).length by omega, wavChunk_guarded,
      key (steps_guarded hst (fun d hd start => by
        rw [tooLong_iff ho]
        exact decide_eq_false (fun h => by have := hall d hd h.1; omega))), key hst]
  · rintro ⟨d, hd, hI, hgt⟩
    obtain ⟨e, he, hr⟩ := steps_refused (g := fun d => decide (d.IsId3 ∧ limit < d.2.length)) (g' := fun h => decide (tooLong limit o h)) (fun d start => tooLong_iff ho d start) hst
      ⟨d, hd, decide_eq_true ⟨hI, hgt⟩⟩
    have herr : readWav limit o (wav cs) = .error e := by
      unfold readWav
      rw [hv, ok_bind]
      simp only
      rw [show (wav cs).length - 12 = (encAll false cs).length by omega, wavChunk_guarded, key he]
      rfl
    refine ⟨⟨e, herr⟩, fun m hm => ?_⟩
    rw [readWav_chunks ho its cs hcs hsz'] at hm
    obtain ⟨a, ha, -⟩ := bind_ok hm
    rw [herr, hr a ha]

/-- **C100, AIFF files**, in the same way. -/
theorem aiff_limited {limit : Nat} {o : Opts} (ho : o.readTags = true) {form : Bytes} (hform : form = ascii "AIFF" ∨ form = ascii "AIFC")
    {cs : List Chunk} {x : Aiff} {tags : Chunk → Option Id3Tag} (hok : ∀ d ∈ cs, d.Ok)
    (htag : ∀ d ∈ cs, d.IsId3 → IffFiles.id3Chunk o d.2 = .ok (tags d)) (htext : cs.filter (fun d => d.IsText) = textChunks x) (hf : x.Fits)
    (hc : x.Clean) :
    ((∀ d ∈ cs, d.IsId3 → d.2.length ≤ limit) → readAiff limit o (aiff form cs) = IffFiles.readAiff o (aiff form cs)) ∧
    ((∃ d ∈ cs, d.IsId3 ∧ limit < d.2.length) → (∃ e, readAiff limit o (aiff form cs) = .error e) ∧
      ∀ m, IffFiles.readAiff o (aiff form cs) = .ok m → readAiff limit o (aiff form cs) = .error .alloc) := by
  have hfl : form.length = 4 := by rcases hform with rfl | rfl <;> rfl
  have hl := aiff_length hfl cs
  have hs := aiff_split form cs
  have hpl := aiff_prefix_length hfl (4 + (encAll true cs).length)
  have hle := length_le_encAll true cs
  have hst := aiff_steps (t := (encAll true cs).length) ho (tags := tags) cs ⟨⟨none, 0⟩, ⟨none, none, none, [], []⟩, none⟩ hok htag
    (by rw [htext]; exact steps_textChunks x hf hc)
  have hpf := pend_fresh (Chunks.new (aiff form cs) 12 (encAll true cs).length) rfl rfl
  have key : ∀ {fn : Hdr → Chunks → IffFiles.AiffAcc → Except Err (Chunks × IffFiles.AiffAcc)} {r : Except Err IffFiles.AiffAcc},
      Steps true fn (encAll true cs).length cs ⟨⟨none, 0⟩, ⟨none, none, none, [], []⟩, none⟩ r →
      chunkLoop true (decide (o.id3.mode = .strict)) fn ((encAll true cs).length + 1) (Chunks.new (aiff form cs) 12 (encAll true cs).length)
        ⟨⟨none, 0⟩, ⟨none, none, none, [], []⟩, none⟩ = (do let x ← r; .ok (x, _)) := fun h =>
    chunkLoop_steps h ((encAll true cs).length + 1) (Chunks.new (aiff form cs) 12 (encAll true cs).length)
      (ascii "FORM" ++ (beBytes 4 (4 + (encAll true cs).length) ++ form)) [] (by omega) rfl rfl (by rw [List.append_nil]; exact hs)
      (by rw [hpl]; exact hpf) (Nat.le_refl _)
  constructor
  · intro hall
    unfold readAiff IffFiles.readAiff
    rw [verifyAiff_aiff cs hform, ok_bind, ok_bind]
    simp only
    rw [show (aiff form cs).length - 12 = (encAll true cs).length by omega, aiffChunk_guarded,
      key (steps_guarded hst (fun d hd start => by
        rw [tooLong_iff ho]
        exact decide_eq_false (fun h => by have := hall d hd h.1; omega))), key hst]
  · rintro ⟨d, hd, hI, hgt⟩
    obtain ⟨e, he, hr⟩ := steps_refused (g := fun d => decide (d.IsId3 ∧ limit < d.2.length)) (g' := fun h => decide (tooLong limit o h)) (fun d start => tooLong_iff ho d start) hst
      ⟨d, hd, decide_eq_true ⟨hI, hgt⟩⟩
    have herr : readAiff limit o (aiff form cs) = .error e := by
      unfold readAiff
      rw [verifyAiff_aiff cs hform, ok_bind]
      simp only
      rw [show (aiff form cs).length - 12 = (encAll true cs).length by omega, aiffChunk_guarded, key he]
      rfl
    refine ⟨⟨e, herr⟩, fun m hm => ?_⟩
    rw [readAiff_chunks ho hform hok htag htext hf hc] at hm
    obtain ⟨a, ha, -⟩ := bind_ok hm
    rw [ha] at hr
    rw [herr, hr _ rfl]

/-! ## Cases that meet the hypotheses -/

/-- The comment saved has eight bytes. -/
theorem opus_limited (limit : Nat) : readOgg limit .opus ⟨.strict, true, true⟩
      ((OggWrite.page 2 0 0 OggWrite.ident).asBytes ++ (OggWrite.page 0 0 1 OggWrite.newComments).asBytes ++ (OggWrite.audio1.asBytes ++ OggWrite.audio2.asBytes)) =
    if Within limit { OggWrite.newTag with vendor := str "libopus" } then .ok ⟨str "libopus", [(str "ARTIST", str "a")], []⟩ else .error .alloc := by
  refine ogg_limited (c := leBytes 4 7 ++ (ascii "libopus" ++ (leBytes 4 1 ++ leBytes 4 7 ++ ascii "TITLE=x"))) OggWrite.opus_saved OggWrite.opus_headed
    ⟨_, rfl⟩ (by simp) (by decide) ⟨ascii "libopus", _, by decide, rfl, .inl (by decide +kernel)⟩ (by decide) OggWrite.newTag_stable
    (by decide) (fun p hp => by cases hp) ?_
  intro new h
  have h2 : Vorbis.createPacket { OggWrite.newTag with vendor := str "libopus" } OggWrite.Format.opus.sig OggWrite.Format.opus.framing
      = .ok OggWrite.newComments := by decide +kernel
  rw [h2] at h
  obtain rfl := (Except.ok.injEq _ _).mp h
  decide

/-- **OGG files become unreadable**: with a limit of seven bytes the tag is saved without an error, and the new file is refused; with eight it
is read.  It can still be replaced, as saving reads only the vendor string. -/
theorem saved_then_refused : ∃ g, writeOgg 7 .opus OggWrite.newTag OggWrite.opus = .ok g ∧ readOgg 7 .opus ⟨.strict, true, true⟩ g = .error .alloc ∧
    readOgg 8 .opus ⟨.strict, true, true⟩ g = .ok ⟨str "libopus", [(str "ARTIST", str "a")], []⟩ ∧
    ∃ g', writeOgg 7 .opus ⟨[], [(str "B", str "c")], []⟩ g = .ok g' ∧ readOgg 7 .opus ⟨.strict, true, true⟩ g' = .ok ⟨str "libopus", [(str "B", str "c")], []⟩ := by
  refine ⟨_, by decide +kernel, (opus_limited 7).trans (if_neg (by decide)), (opus_limited 8).trans (if_pos (by decide)), ?_⟩
  refine ⟨((writeOgg 7 .opus ⟨[], [(str "B", str "c")], []⟩ ((OggWrite.page 2 0 0 OggWrite.ident).asBytes ++
    (OggWrite.page 0 0 1 OggWrite.newComments).asBytes ++ (OggWrite.audio1.asBytes ++ OggWrite.audio2.asBytes))).toOption).getD [], ?_, ?_⟩ <;> decide +kernel

/-- A WAV file with an ID3v2 tag of a single title. -/
def titledWav : List Chunk := exWav ++ [(ascii "ID3 ", titleBytes "first")]

theorem titledWav_readable : ∀ d ∈ titledWav, WavReadable (fun _ => []) d := by
  intro d hd
  simp only [titledWav, exWav, List.mem_append, List.mem_cons, List.not_mem_nil, or_false] at hd
  rcases hd with (rfl | rfl) | rfl
  · exact ⟨ok_fourcc (by simp) (by decide), by decide, fun h => absurd h (by decide)⟩
  · exact ⟨ok_fourcc (by simp) (by decide), by decide, fun h => absurd h (by decide)⟩
  · exact ⟨ok_fourcc (by simp) (by decide +kernel), fun h => absurd h (by decide), fun h => absurd h (by unfold IsInfo; exact fun h => absurd h.1 (by decide))⟩

/-- **The limit is not one for single items**: the only frame of the tag is saved in 16 bytes, but with a limit of 20 the file is refused. -/
theorem whole_tag_counted : (titleBytes "first").length = 26 ∧
    IffFiles.saveId3 false true true true exFlags exW none (titleTag "first") (wav exWav) = .ok (wav titledWav) ∧
    (∃ e, readWav 20 (exOpts true false) (wav titledWav) = .error e) ∧
    readWav 26 (exOpts true false) (wav titledWav) = IffFiles.readWav (exOpts true false) (wav titledWav) := by
  have hsz : (wav titledWav).length < 2 ^ 32 := by decide +kernel
  have hl : (titleBytes "first").length = 26 := by decide +kernel
  refine ⟨hl, by decide +kernel, ((wav_limited rfl _ _ titledWav_readable hsz).2
    ⟨(ascii "ID3 ", titleBytes "first"), by simp [titledWav], by decide, by rw [hl]; decide⟩).1,
    (wav_limited rfl _ _ titledWav_readable hsz).1 fun d hd hI => ?_⟩
  simp only [titledWav, exWav, List.mem_append, List.mem_cons, List.not_mem_nil, or_false] at hd
  rcases hd with (rfl | rfl) | rfl
  · exact absurd hI (by decide)
  · exact absurd hI (by decide)
  · rw [hl]

/-- The same tag in an AIFF file. -/
example : (∃ e, readAiff 20 (exOpts true false) (aiff (ascii "AIFF") (exAiff ++ [(ascii "ID3 ", titleBytes "first")])) = .error e) := by
  have ht : ∃ y, IffFiles.id3Chunk (exOpts true false) (titleBytes "first") = .ok y := by
    cases h : IffFiles.id3Chunk (exOpts true false) (titleBytes "first") with
    | ok y => exact ⟨y, rfl⟩
    | error e =>
      have : (IffFiles.id3Chunk (exOpts true false) (titleBytes "first")).toOption.isSome = true := by decide +kernel
      rw [h] at this; cases this
  obtain ⟨y, hy⟩ := ht
  refine ((aiff_limited rfl (.inl rfl) (x := ⟨none, none, none, none, none⟩) (tags := fun _ => y) ?_ ?_ (by decide +kernel)
    ⟨by simp, by simp, by decide⟩ ⟨by simp, by simp, by simp [EvenInit]⟩).2 ⟨(ascii "ID3 ", titleBytes "first"), by simp, by decide, by decide +kernel⟩).1
  · intro d hd
    simp only [exAiff, List.cons_append, List.nil_append, List.mem_cons, List.not_mem_nil, or_false] at hd
    rcases hd with rfl | rfl | rfl <;> exact ⟨(validFourcc_iff (by decide)).mp (by decide), by decide +kernel⟩
  · intro d hd hI
    simp only [exAiff, List.cons_append, List.nil_append, List.mem_cons, List.not_mem_nil, or_false] at hd
    rcases hd with rfl | rfl | rfl
    · exact absurd hI (by decide)
    · exact absurd hI (by decide)
    · exact hy

example : readComments defaultLimit ⟨.strict, true, true⟩ (leBytes 4 0 ++ leBytes 4 0) 8 = .ok (⟨[], [], []⟩, []) :=
  (flac_never_refused _ (by decide)).trans (by decide)

end Lofty.Limits
