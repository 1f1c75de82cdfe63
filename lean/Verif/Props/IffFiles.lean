import Verif.Lemmas.IffFiles
import Verif.Props.FileTags
/-!
# C64: the tags of WAV and AIFF files
-/
namespace Lofty.IffFiles
open Lofty.Iff Lofty.FileTags

/-! ## WAV -/

/-- C64: a tag that can be encoded is saved to every such WAV file; only the tag of its kind is replaced, and the other
chunks stay as they are and in their order. -/
theorem wav_save_partial {o : Opts} {cs : List Chunk} {t : WavTags} {s : WavSave} {b : Bytes} (h : WavHas o cs t) (hs : s.Ok o cs)
    (hb : s.encoded = .ok b) :
    ∃ cs', s.run (wav cs) = .ok (wav cs') ∧ WavHas o cs' (t.after s) ∧ wavRest cs' = wavRest cs ∧ (wav cs').length < 2 ^ 32 := by
  obtain ⟨hsz, hs⟩ := hs
  replace hsz := hsz b hb
  cases s with
  | id3v2 s => exact wav_id3_run h hs.1 hs.2 hb hsz
  | info strict items => exact wav_info_run h hs hb hsz

theorem wav_encoded {f g : Bytes} {s : WavSave} (h : s.run f = .ok g) : ∃ b, s.encoded = .ok b := by
  cases s with
  | id3v2 s =>
    unfold WavSave.run saveId3 at h
    simp only at h
    obtain ⟨b, hb, -⟩ := bind_ok h
    exact ⟨b, hb⟩
  | info strict items =>
    unfold WavSave.run writeInfo at h
    simp only at h
    obtain ⟨n, -, h⟩ := bind_ok h
    obtain ⟨b, hb, -⟩ := bind_ok h
    exact ⟨b, hb⟩

theorem runWav_has {o : Opts} : ∀ (l : List WavSave) (cs : List Chunk) (t : WavTags) (g : Bytes), WavHas o cs t → WavOk o l (wav cs) →
    (wav cs).length < 2 ^ 32 → runWav l (wav cs) = .ok g →
    ∃ cs', g = wav cs' ∧ WavHas o cs' (l.foldl WavTags.after t) ∧ wavRest cs' = wavRest cs ∧ (wav cs').length < 2 ^ 32 := by
  intro l
  induction l with
  | nil =>
    intro cs t g h _ hsz hr
    cases hr
    exact ⟨cs, rfl, h, rfl, hsz⟩
  | cons s l ih =>
    intro cs t g h hl hsz hr
    obtain ⟨h1, h2⟩ := hl
    rw [runWav] at hr
    obtain ⟨f, hf, hr⟩ := bind_ok hr
    obtain ⟨b, hb⟩ := wav_encoded hf
    obtain ⟨cs', q1, q2, q3, q4⟩ := wav_save_partial h (h1 cs rfl (fun d hd => (h.ok d hd).1)) hb
    rw [q1] at hf
    cases hf
    obtain ⟨cs2, r1, r2, r3, r4⟩ := ih cs' _ g q2 (h2 _ q1) q4 hr
    exact ⟨cs2, r1, r2, r3.trans q3, r4⟩

/-- What is read from a WAV file with the given tags. -/
theorem readWav_has {o : Opts} (ho : o.readTags = true) {cs : List Chunk} {t : WavTags} (h : WavHas o cs t) (hsz : (wav cs).length < 2 ^ 32) :
    ∃ n, ∀ k, n ≤ k → readWav { o with depth := k } (wav cs) = (do
      let p ← (wavRest cs).foldlM (wavAudio o.readProps) ⟨0, 0, []⟩
      wavDone o ⟨p, t.info, t.id3v2⟩ (wav cs).length) := by
  obtain ⟨hok, hinfo, hid⟩ := h
  have hread : ∀ d ∈ cs, WavReadable (fun _ => t.info) d := by
    intro d hd
    obtain ⟨h1, h2⟩ := hok d hd
    refine ⟨h1, h2, fun hI => ?_⟩
    rcases hinfo with ⟨hn, -⟩ | ⟨junk, hn, hj1, -, hj3⟩
    · exact absurd hI (by simpa using List.filter_eq_nil_iff.mp hn d hd)
    · have : d ∈ cs.filter (fun d => IsInfo d) := List.mem_filter.mpr ⟨hd, by simpa using hI⟩
      rw [hn, List.mem_singleton] at this
      exact ⟨junk, this, hj1, hj3⟩
  have hits : (cs.filter fun d => IsInfo d).flatMap (fun _ => t.info) = t.info := by
    rcases hinfo with ⟨hn, h0⟩ | ⟨junk, hn, -⟩ <;> rw [hn]
    · simp [h0]
    · simp
  have hid' : ∃ n, ∀ k, n ≤ k → (∀ d ∈ cs, d.IsId3 → id3Chunk { o with depth := k } d.2 = .ok t.id3v2) := by
    rcases hid with ⟨hn, -⟩ | ⟨d, hn, n, hr⟩
    · exact ⟨0, fun k _ d hd hI => absurd hI (by simpa using List.filter_eq_nil_iff.mp hn d hd)⟩
    · refine ⟨n, fun k hk e he hI => ?_⟩
      have : e ∈ cs.filter (fun d => d.IsId3) := List.mem_filter.mpr ⟨he, by simpa using hI⟩
      rw [hn, List.mem_singleton] at this
      subst this
      exact hr k hk
  have htags : (cs.filter fun d => d.IsId3).foldl (fun x _ => addTag x t.id3v2) none = t.id3v2 := by
    rcases hid with ⟨hn, h0⟩ | ⟨d, hn, -⟩ <;> rw [hn]
    · rw [h0]; rfl
    · rw [List.foldl_cons, List.foldl_nil]
      cases t.id3v2 <;> rfl
  obtain ⟨n, hn⟩ := hid'
  refine ⟨n, fun k hk => ?_⟩
  rw [readWav_chunks (o := { o with depth := k }) ho (fun _ => t.info) cs hread hsz,
    fold_wav (tags := fun _ => t.id3v2) cs _ (hn k hk)]
  simp only [List.nil_append]
  rw [hits, htags]
  cases (wavRest cs).foldlM (wavAudio o.readProps) ⟨0, 0, []⟩ with
  | error e => rfl
  | ok p => rfl

/-- C64: whatever is saved to a WAV file, in whichever order: afterwards every chunk that is neither a tag nor filler is
still there, unchanged and in the same order; the file has exactly the tags last saved (a tag of a kind nothing was saved
of is still what it was); and the properties are the same, except for the bit rate that counts the whole file.  `_partial`
because the hypotheses exclude the saves the library gets wrong (see `Id3Save.Safe`). -/
theorem wav_saves_partial {o : Opts} (ho : o.readTags = true) {cs : List Chunk} {t : WavTags} {m0 : WavFile} {l : List WavSave} {g : Bytes}
    (h : WavHas o cs t) (hsz : (wav cs).length < 2 ^ 32) (hm : ∃ n, ∀ k, n ≤ k → readWav { o with depth := k } (wav cs) = .ok m0)
    (hl : WavOk o l (wav cs)) (hr : runWav l (wav cs) = .ok g) :
    ∃ cs', g = wav cs' ∧ wavRest cs' = wavRest cs ∧ ∃ m n, (∀ k, n ≤ k → readWav { o with depth := k } g = .ok m) ∧
      m.info = (l.foldl WavTags.after t).info ∧ m.id3v2 = (l.foldl WavTags.after t).id3v2 ∧ SameWav m.props m0.props := by
  obtain ⟨cs', rfl, h', hrest, hsz'⟩ := runWav_has l cs t g h hl hsz hr
  refine ⟨cs', rfl, hrest, ?_⟩
  obtain ⟨n0, hn0⟩ := hm
  obtain ⟨n1, hn1⟩ := readWav_has ho h hsz
  obtain ⟨n2, hn2⟩ := readWav_has ho h' hsz'
  have e := hn1 (max n0 n1) (Nat.le_max_right _ _)
  rw [hn0 (max n0 n1) (Nat.le_max_left _ _)] at e
  obtain ⟨p, hp, e⟩ := bind_ok e.symm
  have hb := audio_bounds (wavRest cs) _ p (fun d hd => (h.ok d (List.mem_filter.mp hd).1).1) ⟨by decide, by decide⟩ hp
  unfold wavDone at e
  rw [hrest, hp] at hn2
  by_cases hpr : o.readProps = true
  · rw [if_pos hpr] at e
    obtain ⟨q, hq, e⟩ := bind_ok e
    obtain rfl := (Except.ok.injEq _ _).mp e
    obtain ⟨q', hq', hsame⟩ := wav_file (m := (wav cs').length) hb.2 hb.1 (by omega) hq
    refine ⟨⟨some q', _, _⟩, n2, fun k hk => ?_, rfl, rfl, hsame⟩
    rw [hn2 k hk, ok_bind]
    unfold wavDone
    rw [if_pos hpr, hq']
    rfl
  · rw [if_neg hpr] at e
    obtain rfl := (Except.ok.injEq _ _).mp e
    refine ⟨⟨none, _, _⟩, n2, fun k hk => ?_, rfl, rfl, trivial⟩
    rw [hn2 k hk, ok_bind]
    unfold wavDone
    rw [if_neg hpr]

/-! ## AIFF -/

/-- C64: a tag that can be encoded is saved to every such AIFF file; only the tag of its kind is replaced, and the other
chunks stay as they are and in their order. -/
theorem aiff_save_partial {o : Opts} {form : Bytes} {cs : List Chunk} {t : AiffTags} {s : AiffSave} {b : Bytes}
    (hform : form = ascii "AIFF" ∨ form = ascii "AIFC") (h : AiffHas o cs t) (hs : s.Ok o form cs) (hb : s.encoded = .ok b) :
    ∃ cs', s.run (aiff form cs) = .ok (aiff form cs') ∧ AiffHas o cs' (t.after s) ∧ aiffRest cs' = aiffRest cs := by
  obtain ⟨hsz, hs⟩ := hs
  replace hsz := hsz b hb
  cases s with
  | id3v2 s => exact aiff_id3_run hform h hs.1 hs.2 hb hsz
  | text strict x => exact aiff_text_run hform h hs.1 hs.2 hb hsz

theorem aiff_encoded {f g : Bytes} {s : AiffSave} (h : s.run f = .ok g) : ∃ b, s.encoded = .ok b := by
  cases s with
  | id3v2 s =>
    unfold AiffSave.run saveId3 at h
    simp only at h
    obtain ⟨b, hb, -⟩ := bind_ok h
    exact ⟨b, hb⟩
  | text strict x =>
    unfold AiffSave.run writeAiff at h
    simp only at h
    obtain ⟨n, -, h⟩ := bind_ok h
    obtain ⟨b, hb, -⟩ := bind_ok h
    exact ⟨b, hb⟩

theorem runAiff_has {o : Opts} {form : Bytes} (hform : form = ascii "AIFF" ∨ form = ascii "AIFC") : ∀ (l : List AiffSave) (cs : List Chunk)
    (t : AiffTags) (g : Bytes), AiffHas o cs t → AiffOk o l (aiff form cs) → runAiff l (aiff form cs) = .ok g →
    ∃ cs', g = aiff form cs' ∧ AiffHas o cs' (l.foldl AiffTags.after t) ∧ aiffRest cs' = aiffRest cs := by
  have hfl : form.length = 4 := by rcases hform with rfl | rfl <;> rfl
  intro l
  induction l with
  | nil =>
    intro cs t g h _ hr
    cases hr
    exact ⟨cs, rfl, h, rfl⟩
  | cons s l ih =>
    intro cs t g h hl hr
    obtain ⟨h1, h2⟩ := hl
    rw [runAiff] at hr
    obtain ⟨f, hf, hr⟩ := bind_ok hr
    obtain ⟨b, hb⟩ := aiff_encoded hf
    obtain ⟨cs', q1, q2, q3⟩ := aiff_save_partial hform h (h1 form cs rfl hfl h.ok) hb
    rw [q1] at hf
    cases hf
    obtain ⟨cs2, r1, r2, r3⟩ := ih cs' _ g q2 (h2 _ q1) hr
    exact ⟨cs2, r1, r2, r3.trans q3⟩

/-- What is read from an AIFF file with the given tags. -/
theorem readAiff_has {o : Opts} (ho : o.readTags = true) {form : Bytes} (hform : form = ascii "AIFF" ∨ form = ascii "AIFC") {cs : List Chunk}
    {t : AiffTags} (h : AiffHas o cs t) :
    ∃ n, ∀ k, n ≤ k → readAiff { o with depth := k } (aiff form cs) = (do
      let p ← (aiffRest cs).foldlM (aiffAudio o.readProps) ⟨none, 0⟩
      aiffDone o form p t.text t.id3v2 (aiff form cs).length) := by
  obtain ⟨hok, -, ⟨x, hx1, hx2, hx3, hx4⟩, hid⟩ := h
  have hid' : ∃ n, ∀ k, n ≤ k → (∀ d ∈ cs, d.IsId3 → id3Chunk { o with depth := k } d.2 = .ok t.id3v2) := by
    rcases hid with ⟨hn, -⟩ | ⟨d, hn, n, hr⟩
    · exact ⟨0, fun k _ d hd hI => absurd hI (by simpa using List.filter_eq_nil_iff.mp hn d hd)⟩
    · refine ⟨n, fun k hk e he hI => ?_⟩
      have : e ∈ cs.filter (fun d => d.IsId3) := List.mem_filter.mpr ⟨he, by simpa using hI⟩
      rw [hn, List.mem_singleton] at this
      subst this
      exact hr k hk
  have htags : (cs.filter fun d => d.IsId3).foldl (fun x _ => addTag x t.id3v2) none = t.id3v2 := by
    rcases hid with ⟨hn, h0⟩ | ⟨d, hn, -⟩ <;> rw [hn]
    · rw [h0]; rfl
    · rw [List.foldl_cons, List.foldl_nil]
      cases t.id3v2 <;> rfl
  obtain ⟨n, hn⟩ := hid'
  refine ⟨n, fun k hk => ?_⟩
  rw [readAiff_chunks (o := { o with depth := k }) ho hform (tags := fun _ => t.id3v2) hok (hn k hk) hx1 hx2 hx3, htags, hx4]
  rfl

/-- C64: whatever is saved to an AIFF file, in whichever order: afterwards every chunk that is not a tag is still there,
unchanged and in the same order; the file has exactly the tags last saved (a tag of a kind nothing was saved of is still
what it was); and the properties are the same, except for the bit rate that counts the whole file.  `_partial` because the
hypotheses exclude the saves the library gets wrong (see `Id3Save.Safe`). -/
theorem aiff_saves_partial {o : Opts} (ho : o.readTags = true) {form : Bytes} (hform : form = ascii "AIFF" ∨ form = ascii "AIFC")
    {cs : List Chunk} {t : AiffTags} {m0 : AiffFile} {l : List AiffSave} {g : Bytes} (h : AiffHas o cs t)
    (hm : ∃ n, ∀ k, n ≤ k → readAiff { o with depth := k } (aiff form cs) = .ok m0)
    (hl : AiffOk o l (aiff form cs)) (hr : runAiff l (aiff form cs) = .ok g) :
    ∃ cs', g = aiff form cs' ∧ aiffRest cs' = aiffRest cs ∧ ∃ m n, (∀ k, n ≤ k → readAiff { o with depth := k } g = .ok m) ∧
      m.text = (l.foldl AiffTags.after t).text ∧ m.id3v2 = (l.foldl AiffTags.after t).id3v2 ∧ SameAiff m.props m0.props := by
  obtain ⟨cs', rfl, h', hrest⟩ := runAiff_has hform l cs t g h hl hr
  refine ⟨cs', rfl, hrest, ?_⟩
  obtain ⟨n0, hn0⟩ := hm
  obtain ⟨n1, hn1⟩ := readAiff_has ho hform h
  obtain ⟨n2, hn2⟩ := readAiff_has ho hform h'
  have e := hn1 (max n0 n1) (Nat.le_max_right _ _)
  rw [hn0 (max n0 n1) (Nat.le_max_left _ _)] at e
  obtain ⟨p, hp, e⟩ := bind_ok e.symm
  unfold aiffDone at e
  rw [hrest, hp] at hn2
  by_cases hpr : o.readProps = true
  · rw [if_pos hpr] at e
    obtain ⟨q, hq, e⟩ := bind_ok e
    obtain rfl := (Except.ok.injEq _ _).mp e
    have : ∃ q', aiffProps p (decide (form = ascii "AIFC")) (aiff form cs').length = .ok q' ∧ { q' with overall := q.overall } = q := by
      unfold aiffProps at hq ⊢
      cases hc : p.comm with
      | none => rw [hc] at hq; cases hq
      | some comm =>
        rw [hc] at hq
        simp only at hq ⊢
        split at hq
        · cases hq
        · rename_i h0
          rw [if_neg h0]
          exact aiff_file hq
    obtain ⟨q', hq', hsame⟩ := this
    refine ⟨⟨some q', _, _⟩, n2, fun k hk => ?_, rfl, rfl, hsame⟩
    rw [hn2 k hk, ok_bind]
    unfold aiffDone
    rw [if_pos hpr, hq']
    rfl
  · rw [if_neg hpr] at e
    obtain rfl := (Except.ok.injEq _ _).mp e
    refine ⟨⟨none, _, _⟩, n2, fun k hk => ?_, rfl, rfl, trivial⟩
    rw [hn2 k hk, ok_bind]
    unfold aiffDone
    rw [if_neg hpr]

/-! ## Examples -/

theorem enc_inj {be : Bool} {d e : Chunk} (hd : d.Ok) (he : e.Ok) {x y : Bytes} (h : enc be d ++ x = enc be e ++ y) : d = e ∧ x = y := by
  obtain ⟨⟨d1, -⟩, d2⟩ := hd
  obtain ⟨⟨e1, -⟩, e2⟩ := he
  obtain ⟨i, b⟩ := d
  obtain ⟨j, c⟩ := e
  simp only [enc, List.append_assoc] at *
  obtain ⟨rfl, k⟩ := List.append_inj h (d1.trans e1.symm)
  obtain ⟨k1, k2⟩ := List.append_inj k (by cases be <;> simp)
  have hl : b.length = c.length := by
    cases be
    · have := congrArg fromLE k1
      simpa [fromLE_leBytes_of_lt (show b.length < 256 ^ 4 by omega), fromLE_leBytes_of_lt (show c.length < 256 ^ 4 by omega)] using this
    · have := congrArg fromBE k1
      simpa [fromBE_beBytes_of_lt (show b.length < 256 ^ 4 by omega), fromBE_beBytes_of_lt (show c.length < 256 ^ 4 by omega)] using this
  obtain ⟨rfl, k3⟩ := List.append_inj k2 hl
  exact ⟨rfl, (List.append_inj k3 rfl).2⟩

/-- The chunks of a file are determined by its bytes. -/
theorem encAll_inj (be : Bool) : ∀ cs ds : List Chunk, (∀ d ∈ cs, d.Ok) → (∀ d ∈ ds, d.Ok) → encAll be cs = encAll be ds → cs = ds := by
  have hne : ∀ (d : Chunk) (x : Bytes), [] ≠ enc be d ++ x := by
    intro d x h
    have := congrArg List.length h
    rw [List.length_append, enc_length] at this
    simp at this
    omega
  intro cs
  induction cs with
  | nil =>
    intro ds _ _ h
    cases ds with
    | nil => rfl
    | cons d ds => exact absurd h (hne d _)
  | cons c cs ih =>
    intro ds hc hd h
    cases ds with
    | nil => exact absurd h.symm (hne c _)
    | cons d ds =>
      rw [encAll_cons, encAll_cons] at h
      obtain ⟨rfl, h'⟩ := enc_inj (hc c List.mem_cons_self) (hd d List.mem_cons_self) h
      rw [ih ds (fun e he => hc e (List.mem_cons_of_mem _ he)) (fun e he => hd e (List.mem_cons_of_mem _ he)) h']

theorem wav_inj {cs ds : List Chunk} (hc : ∀ d ∈ cs, d.Ok) (hd : ∀ d ∈ ds, d.Ok) (h : wav cs = wav ds) : cs = ds := by
  refine encAll_inj false cs ds hc hd ?_
  unfold wav at h
  have h := (List.append_inj h rfl).2
  have h := (List.append_inj h (by simp)).2
  exact (List.append_inj h rfl).2

theorem aiff_inj {form form' : Bytes} (hf : form.length = 4) (hf' : form'.length = 4) {cs ds : List Chunk} (hc : ∀ d ∈ cs, d.Ok)
    (hd : ∀ d ∈ ds, d.Ok) (h : aiff form cs = aiff form' ds) : form = form' ∧ cs = ds := by
  unfold aiff at h
  have h := (List.append_inj h rfl).2
  have h := (List.append_inj h (by simp)).2
  have h := List.append_inj h (hf.trans hf'.symm)
  exact ⟨h.1, encAll_inj true cs ds hc hd h.2⟩

theorem wavOk_cons {o : Opts} {s : WavSave} {l : List WavSave} {cs : List Chunk} {g : Bytes} (hc : ∀ d ∈ cs, d.Ok) (hs : s.Ok o cs)
    (hr : s.run (wav cs) = .ok g) (hl : WavOk o l g) : WavOk o (s :: l) (wav cs) := by
  refine ⟨fun ds h hd => ?_, fun g' hg => ?_⟩
  · rw [← wav_inj hc hd h]; exact hs
  · rw [hr] at hg; cases hg; exact hl

theorem aiffOk_cons {o : Opts} {s : AiffSave} {l : List AiffSave} {form : Bytes} {cs : List Chunk} {g : Bytes} (hf : form.length = 4)
    (hc : ∀ d ∈ cs, d.Ok) (hs : s.Ok o form cs) (hr : s.run (aiff form cs) = .ok g) (hl : AiffOk o l g) : AiffOk o (s :: l) (aiff form cs) := by
  refine ⟨fun form' ds h hf' hd => ?_, fun g' hg => ?_⟩
  · obtain ⟨rfl, rfl⟩ := aiff_inj hf hf' hc hd h
    exact hs
  · rw [hr] at hg; cases hg; exact hl

/-- Without a tag nothing can go wrong. -/
theorem safe_none {s : Id3Save} {isWav : Bool} {cs : List Chunk} (h : ∀ d ∈ cs, ¬ d.IsId3) : s.Safe isWav cs :=
  fun _ d _ _ hc hd => absurd hd (h d (by rw [hc]; simp))

/-- Nor if the tag at the end gets no longer. -/
theorem safe_last {s : Id3Save} {isWav : Bool} {cs : List Chunk} {d : Chunk} (h : ∀ d ∈ cs, ¬ d.IsId3)
    (hb : ∀ b, s.encoded = .ok b → padded b ≤ padded d.2) : s.Safe isWav (cs ++ [d]) := by
  intro pre e post b hc he hb' _
  rcases List.eq_nil_or_concat post with rfl | ⟨post, x, rfl⟩
  · rw [if_pos rfl]
    have := List.append_inj' (show cs ++ [d] = pre ++ [e] from hc) rfl
    cases this.2
    exact hb b hb'
  · have := List.append_inj' (show cs ++ [d] = (pre ++ e :: post) ++ [x] by rw [hc]; simp) rfl
    exact absurd he (h e (by rw [this.1]; simp))

/-- The tag of the examples. -/
def exSave (fs : List Id3v2.Frame) : Id3Save := ⟨true, true, ⟨false, false, false, false, none⟩, ⟨false, false, true⟩, some 11, fs⟩

/-- Its bytes. -/
def exBytes (fs : List Id3v2.Frame) : Bytes := (exSave fs).encoded.toOption.getD []

theorem exSave_ok (a b : Bool) : (exSave Id3v2.sample).Ok (exOpts a b) := by
  obtain ⟨h1, h2⟩ := Id3v2.sample_ok ⟨false, false, true⟩ .relaxed (.inr rfl)
  refine .inr ⟨rfl, rfl, rfl, rfl, h1, h2, fun b hb => ?_⟩
  have : ((Id3v2.createItems ⟨false, false, true⟩ Id3v2.sample).toOption.map List.length).getD 0 < 1000 := by decide +kernel
  rw [show Id3v2.createItems ⟨false, false, true⟩ Id3v2.sample = .ok b from hb] at this
  have : b.length < 1000 := this
  show b.length + 11 < 2 ^ 32
  omega

theorem exSave_size {b : Bytes} (h : (exSave Id3v2.sample).encoded = .ok b) : b.length < 1000 := by
  have : (exBytes Id3v2.sample).length < 1000 := by decide +kernel
  unfold exBytes at this
  rw [h] at this
  exact this

/-- Two seconds of silence. -/
def exWav : List Chunk := [(ascii "fmt ", Lossless.fmtChunk 1 1 8 8 1 8 []), (ascii "data", List.replicate 16 0)]

theorem ok_fourcc {i b : Bytes} (hi : i ∈ [ascii "fmt ", ascii "data", ascii "LIST", ascii "ID3 ", ascii "COMM", ascii "SSND"])
    (hb : b.length < 2 ^ 32) : Chunk.Ok (i, b) := by
  refine ⟨?_, hb⟩
  show FourCC i
  simp only [List.mem_cons, List.not_mem_nil, or_false] at hi
  rcases hi with rfl | rfl | rfl | rfl | rfl | rfl <;> exact (validFourcc_iff (by decide)).mp (by decide)

/-- Some saves to a WAV file. -/
def wavSaves : List WavSave :=
  [.info true [(str "IART", str "a")], .id3v2 (exSave Id3v2.sample), .id3v2 (exSave Id3v2.sample), .info false [(str "INAM", str "bc")]]

/-- The file with the first two of them. -/
def wavTagged : List Chunk := exWav ++ [infoList [(str "IART", str "a")]]

theorem wavSaves_ok (a b : Bool) : WavOk (exOpts a b) wavSaves (wav exWav) := by
  have hi : ∀ b, createInfo [(str "IART", str "a")] = .ok b → b.length < 100 := by
    intro b h
    have : ((createInfo [(str "IART", str "a")]).toOption.getD []).length < 100 := by decide
    rw [h] at this; exact this
  have hi' : ∀ b, createInfo [(str "INAM", str "bc")] = .ok b → b.length < 100 := by
    intro b h
    have : ((createInfo [(str "INAM", str "bc")]).toOption.getD []).length < 100 := by decide
    rw [h] at this; exact this
  have hb : ∀ b, (exSave Id3v2.sample).encoded = .ok b → b = exBytes Id3v2.sample := by
    intro b h; unfold exBytes; rw [h]; rfl
  have l0 : (wav exWav).length < 1000 := by decide +kernel
  have l1 : (wav wavTagged).length < 1000 := by decide +kernel
  have l2 : (wav (wavTagged ++ [(ascii "ID3 ", exBytes Id3v2.sample)])).length < 3000 := by decide +kernel
  have o0 : ∀ d ∈ exWav, d.Ok := by
    intro d hd
    simp only [exWav, List.mem_cons, List.not_mem_nil, or_false] at hd
    rcases hd with rfl | rfl <;> exact ok_fourcc (by simp) (by decide)
  have o1 : ∀ d ∈ wavTagged, d.Ok := by
    intro d hd
    simp only [wavTagged, List.mem_append, List.mem_cons, List.not_mem_nil, or_false] at hd
    rcases hd with hd | rfl
    · exact o0 d hd
    · exact ok_fourcc (by simp) (by decide)
  have o2 : ∀ d ∈ wavTagged ++ [(ascii "ID3 ", exBytes Id3v2.sample)], d.Ok := by
    intro d hd
    simp only [List.mem_append, List.mem_cons, List.not_mem_nil, or_false] at hd
    rcases hd with hd | rfl
    · exact o1 d hd
    · exact ok_fourcc (by simp) (by decide +kernel)
  have n1 : ∀ d ∈ wavTagged, ¬ d.IsId3 := by decide
  refine wavOk_cons o0 ⟨fun b h => ?_, ?_⟩ (g := wav wavTagged) (by decide +kernel) ?_
  · have := hi b h; omega
  · intro i hi
    simp only [List.mem_cons, List.not_mem_nil, or_false] at hi
    subst hi
    exact ⟨(validFourcc_iff (by decide)).mp (by decide), by decide, by decide⟩
  refine wavOk_cons o1 ⟨fun b h => ?_, exSave_ok a b, safe_none n1⟩ (g := wav (wavTagged ++ [(ascii "ID3 ", exBytes Id3v2.sample)]))
    (by decide +kernel) ?_
  · have := exSave_size h; omega
  refine wavOk_cons o2 ⟨fun b h => ?_, exSave_ok a b, safe_last n1 fun b h => ?_⟩
    (g := wav (wavTagged ++ [(ascii "ID3 ", exBytes Id3v2.sample)])) (by decide +kernel) ?_
  · have := exSave_size h; omega
  · rw [hb b h]
  refine ⟨fun cs h _ => ⟨fun b h' => ?_, ?_⟩, fun _ _ => trivial⟩
  · have := hi' b h'; rw [← h]; omega
  · intro i hi
    simp only [List.mem_cons, List.not_mem_nil, or_false] at hi
    subst hi
    exact ⟨(validFourcc_iff (by decide)).mp (by decide), by decide, by decide⟩

/-- The example: the file has both tags, the audio is unchanged and lasts two seconds. -/
example : ∃ cs', runWav wavSaves (wav exWav) = .ok (wav cs') ∧ wavRest cs' = exWav ∧ ∃ m n, (∀ k, n ≤ k →
    readWav { exOpts true true with depth := k } (wav cs') = .ok m) ∧ m.info = [(str "INAM", str "bc")] ∧
      m.id3v2 = some ⟨.v4, ⟨false, false, false, false, none⟩, Id3v2.sample⟩ ∧ m.props.map (·.duration) = some 2000 := by
  have h0 : WavHas (exOpts true true) exWav ⟨[], none⟩ := by
    refine ⟨fun d hd => ⟨?_, ?_⟩, .inl ⟨by decide, rfl⟩, .inl ⟨by decide, rfl⟩⟩
    · simp only [exWav, List.mem_cons, List.not_mem_nil, or_false] at hd
      rcases hd with rfl | rfl <;> exact ok_fourcc (by simp) (by decide)
    · revert d; decide
  have hsz : (wav exWav).length < 2 ^ 32 := by decide
  have hm : ∃ m0, (∃ n, ∀ k, n ≤ k → readWav { exOpts true true with depth := k } (wav exWav) = .ok m0) ∧
      m0.props.map (·.duration) = some 2000 := by
    obtain ⟨n, hn⟩ := readWav_has (o := exOpts true true) rfl h0 hsz
    have hd : (show Except Err WavFile from do
      let p ← (wavRest exWav).foldlM (wavAudio true) ⟨0, 0, []⟩
      wavDone (exOpts true true) ⟨p, [], none⟩ (wav exWav).length).toOption.bind (fun m : WavFile => m.props.map (·.duration)) = some 2000 := by
      decide +kernel
    rcases he : (show Except Err WavFile from do
      let p ← (wavRest exWav).foldlM (wavAudio true) ⟨0, 0, []⟩
      wavDone (exOpts true true) ⟨p, [], none⟩ (wav exWav).length) with e | m0
    · rw [he] at hd; cases hd
    · rw [he] at hd
      exact ⟨m0, ⟨n, fun k hk => (hn k hk).trans he⟩, hd⟩
  obtain ⟨m0, hm, hd⟩ := hm
  have hs : (runWav wavSaves (wav exWav)).toOption.isSome = true := by decide +kernel
  rcases hg : runWav wavSaves (wav exWav) with e | g
  · rw [hg] at hs; cases hs
  · obtain ⟨cs', rfl, h1, m, n, h2, h3, h4, h5⟩ := wav_saves_partial (o := exOpts true true) rfl h0 hsz hm (wavSaves_ok _ _) hg
    refine ⟨cs', rfl, h1, m, n, h2, ?_, h4, ?_⟩
    · rw [h3]; decide
    · rcases hp : m.props with _ | p <;> rcases hp0 : m0.props with _ | p0 <;> rw [hp, hp0] at h5
      · rw [hp0] at hd; cases hd
      · cases h5
      · cases h5
      · rw [hp0] at hd
        have : { p with overall := p0.overall } = p0 := h5
        rw [← this] at hd
        exact hd

/-- The `COMM` chunk of the example. -/
def exComm : Chunk := (ascii "COMM", [0, 1, 0, 0, 0, 16, 0, 8, 0x40, 0x02, 0x80, 0, 0, 0, 0, 0, 0, 0])

/-- Its audio. -/
def exSsnd : Chunk := (ascii "SSND", List.replicate 24 0)

/-- Two seconds of silence. -/
def exAiff : List Chunk := [exComm, exSsnd]

/-- Some saves to an AIFF file. -/
def aiffSaves : List AiffSave := [.id3v2 (exSave Id3v2.sample), .text true sampleAiff, .id3v2 (exSave [])]

theorem aiffSaves_ok (a b : Bool) : AiffOk (exOpts a b) aiffSaves (aiff (ascii "AIFF") exAiff) := by
  have ht : ∀ b, createText sampleAiff = .ok b → b.length < 1000 := by
    intro b h
    have : ((createText sampleAiff).toOption.getD []).length < 1000 := by decide +kernel
    rw [h] at this; exact this
  have l0 : (aiff (ascii "AIFF") exAiff).length < 1000 := by decide +kernel
  have l1 : (aiff (ascii "AIFF") (exAiff ++ [(ascii "ID3 ", exBytes Id3v2.sample)])).length < 3000 := by decide +kernel
  have l2 : (aiff (ascii "AIFF") ([exComm] ++ textChunks sampleAiff ++ [exSsnd, (ascii "ID3 ", exBytes Id3v2.sample)])).length < 3000 := by
    decide +kernel
  have o0 : ∀ d ∈ exAiff, d.Ok := by
    intro d hd
    simp only [exAiff, List.mem_cons, List.not_mem_nil, or_false] at hd
    rcases hd with rfl | rfl <;> exact ok_fourcc (by simp) (by decide)
  have o1 : ∀ d ∈ exAiff ++ [(ascii "ID3 ", exBytes Id3v2.sample)], d.Ok := by
    intro d hd
    simp only [List.mem_append, List.mem_cons, List.not_mem_nil, or_false] at hd
    rcases hd with hd | rfl
    · exact o0 d hd
    · exact ok_fourcc (by simp) (by decide +kernel)
  refine aiffOk_cons rfl o0 ⟨fun b h => ?_, exSave_ok a b, safe_none (by decide)⟩
    (g := aiff (ascii "AIFF") (exAiff ++ [(ascii "ID3 ", exBytes Id3v2.sample)])) (by decide +kernel) ?_
  · have := exSave_size h; omega
  refine aiffOk_cons rfl o1 ⟨fun b h => ?_, ?_, ?_⟩
    (g := aiff (ascii "AIFF") ([exComm] ++ textChunks sampleAiff ++ [exSsnd, (ascii "ID3 ", exBytes Id3v2.sample)])) (by decide +kernel) ?_
  · have := ht b h; omega
  · unfold Aiff.Fits; decide +kernel
  · unfold Aiff.Clean Comment.Ok EvenInit; decide +kernel
  refine ⟨fun form cs h _ _ => ⟨fun b h' => ?_, .inl rfl, fun pre d post b _ _ h' hb => ?_⟩, fun _ _ => trivial⟩
  · cases h'
    rw [← h]
    rw [List.length_nil]
    omega
  · cases h'
    exact absurd rfl hb

/-- The example: the ID3v2 tag is gone again, the text chunks are there, the audio is unchanged and lasts two seconds. -/
example : ∃ cs', runAiff aiffSaves (aiff (ascii "AIFF") exAiff) = .ok (aiff (ascii "AIFF") cs') ∧ aiffRest cs' = exAiff ∧ ∃ m n, (∀ k, n ≤ k →
    readAiff { exOpts true true with depth := k } (aiff (ascii "AIFF") cs') = .ok m) ∧ m.text = sampleAiff ∧
      m.id3v2 = none ∧ m.props.map (·.duration) = some 2000 := by
  have h0 : AiffHas (exOpts true true) exAiff ⟨⟨none, none, none, none, none⟩, none⟩ := by
    refine ⟨fun d hd => ?_, ⟨exComm, by decide, rfl⟩, ⟨⟨none, none, none, none, none⟩, by decide, ?_, ?_, by decide⟩, .inl ⟨by decide, rfl⟩⟩
    · simp only [exAiff, List.mem_cons, List.not_mem_nil, or_false] at hd
      rcases hd with rfl | rfl <;> exact ok_fourcc (by simp) (by decide)
    · unfold Aiff.Fits; decide +kernel
    · unfold Aiff.Clean Comment.Ok EvenInit; decide +kernel
  have hm : ∃ m0, (∃ n, ∀ k, n ≤ k → readAiff { exOpts true true with depth := k } (aiff (ascii "AIFF") exAiff) = .ok m0) ∧
      m0.props.map (·.duration) = some 2000 := by
    obtain ⟨n, hn⟩ := readAiff_has (o := exOpts true true) rfl (.inl rfl) h0
    have hd : (show Except Err AiffFile from do
      let p ← (aiffRest exAiff).foldlM (aiffAudio true) ⟨none, 0⟩
      aiffDone (exOpts true true) (ascii "AIFF") p ⟨none, none, none, none, none⟩ none (aiff (ascii "AIFF") exAiff).length).toOption.bind
        (fun m : AiffFile => m.props.map (·.duration)) = some 2000 := by
      decide +kernel
    rcases he : (show Except Err AiffFile from do
      let p ← (aiffRest exAiff).foldlM (aiffAudio true) ⟨none, 0⟩
      aiffDone (exOpts true true) (ascii "AIFF") p ⟨none, none, none, none, none⟩ none (aiff (ascii "AIFF") exAiff).length) with e | m0
    · rw [he] at hd; cases hd
    · rw [he] at hd
      exact ⟨m0, ⟨n, fun k hk => (hn k hk).trans he⟩, hd⟩
  obtain ⟨m0, hm, hd⟩ := hm
  have hs : (runAiff aiffSaves (aiff (ascii "AIFF") exAiff)).toOption.isSome = true := by decide +kernel
  rcases hg : runAiff aiffSaves (aiff (ascii "AIFF") exAiff) with e | g
  · rw [hg] at hs; cases hs
  · obtain ⟨cs', rfl, h1, m, n, h2, h3, h4, h5⟩ := aiff_saves_partial (o := exOpts true true) rfl (.inl rfl) h0 hm (aiffSaves_ok _ _) hg
    refine ⟨cs', rfl, h1, m, n, h2, ?_, h4, ?_⟩
    · rw [h3]; decide
    · rcases hp : m.props with _ | p <;> rcases hp0 : m0.props with _ | p0 <;> rw [hp, hp0] at h5
      · rw [hp0] at hd; cases hd
      · cases h5
      · cases h5
      · rw [hp0] at hd
        have : { p with overall := p0.overall } = p0 := h5
        rw [← this] at hd
        exact hd

/-! ## Disagreements -/

/-- A short tag. -/
def exShort : List Id3v2.Frame := [.leaf {} (.comment ⟨.utf8, (101, 110, 103), [], str "x"⟩)]

/-- A second of silence: 300 bytes. -/
def exSilence : List Chunk := [(ascii "fmt ", Lossless.fmtChunk 1 1 300 300 1 8 []), (ascii "data", List.replicate 300 0)]

/-- What is read after some saves. -/
def readAfter (l : List WavSave) (cs : List Chunk) : Except Err WavFile := do
  let f ← runWav l (wav cs)
  readWav (exOpts true true) f

/-- Disagreement: **saving a longer ID3v2 tag to a WAV file writes a wrong size** (498 bytes, but the header says 274 + 8: the
growth is taken off instead of added).  **Saving an INFO list next lands in the middle of the audio or of the ID3v2 tag, and
both tags are lost**.  If the tag grows by more than the size of the file, the subtraction overflows. -/
theorem grown_size :
    (runWav [.id3v2 (exSave exShort), .id3v2 (exSave Id3v2.sample)] (wav exSilence)).map (fun f => (f.length, fromLE ((f.drop 4).take 4)))
      = .ok (498, 274) ∧
    (readAfter [.id3v2 (exSave exShort), .id3v2 (exSave Id3v2.sample), .info false [(str "INAM", str "bc")]] exSilence).map
      (fun m => (m.info, m.id3v2.isSome)) = .ok ([], false) ∧
    (runWav [.id3v2 (exSave exShort), .id3v2 (exSave Id3v2.sample)] (wav exWav)).map List.length = .error .panic := by
  decide +kernel

/-- Disagreement: **saving a shorter ID3v2 tag to a WAV file whose tag lies before the audio destroys the audio**: the size of
the filler chunk counts its own header, so the header of the `data` chunk is taken for filler.  The file could be read before
and cannot afterwards. -/
theorem junk_swallows_data :
    (readAfter [] [exSilence[0], (ascii "ID3 ", exBytes Id3v2.sample), exSilence[1]]).map (fun m => m.props.map (·.duration)) = .ok (some 1000) ∧
    (readAfter [.id3v2 (exSave exShort)] [exSilence[0], (ascii "ID3 ", exBytes Id3v2.sample), exSilence[1]]).map
      (fun m => m.props.map (·.duration)) = .error .parse := by
  decide +kernel

/-- Disagreement: only the first ID3v2 chunk is ever replaced.  The reader reads them all: a file with two of them still has a
tag after the tag was removed. -/
theorem second_tag_stays :
    (readAfter [.id3v2 (exSave [])] (exSilence ++ [(ascii "ID3 ", exBytes Id3v2.sample), (ascii "ID3 ", exBytes Id3v2.sample)])).map
      (fun m => m.id3v2.map (·.frames.length)) = .ok (some 5) := by
  decide +kernel

end Lofty.IffFiles
