import Verif.Spec.IffFiles
import Verif.Lemmas.FileLayout
import Verif.Props.Wav
import Verif.Props.Aiff
import Verif.Props.Lossless
import Verif.Lemmas.Ilst
/-!
# Lemmas for whole WAV and AIFF files
-/
namespace Lofty.IffFiles
open Lofty.Iff Lofty.FileTags

/-! ## The loop over the chunks -/

/-- The body `fn` of the loop turns `a0` into `r` on chunk `d`, and leaves the reader in this chunk or behind it. -/
def Step {α : Type} (be : Bool) (fn : Hdr → Chunks → α → Except Err (Chunks × α)) (t : Nat) (d : Chunk) (a0 : α)
    (r : Except Err α) : Prop :=
  ∀ (f a rest : Bytes) (R start : Nat), f = a ++ (enc be d ++ rest) → (enc be d).length + R ≤ t →
    match r with
    | .error e => fn ⟨d.1, d.2.length, start⟩ ⟨f, a.length + 8, t, (enc be d).length + R - 8, d.2.length, d.2.length, none⟩ a0 = .error e
    | .ok a1 => ∃ c', fn ⟨d.1, d.2.length, start⟩ ⟨f, a.length + 8, t, (enc be d).length + R - 8, d.2.length, d.2.length, none⟩ a0
        = .ok (c', a1) ∧ c'.f = f ∧ c'.total = t ∧ c'.lock = none ∧ Pend c' (a.length + (enc be d).length) R

/-- All chunks one after the other. -/
inductive Steps {α : Type} (be : Bool) (fn : Hdr → Chunks → α → Except Err (Chunks × α)) (t : Nat) : List Chunk → α → Except Err α → Prop
  | nil (a) : Steps be fn t [] a (.ok a)
  | stop {d ds a e} : d.Ok → Step be fn t d a (.error e) → Steps be fn t (d :: ds) a (.error e)
  | cons {d ds a a1 r} : d.Ok → Step be fn t d a (.ok a1) → Steps be fn t ds a1 r → Steps be fn t (d :: ds) a r

theorem Steps.append {α : Type} {be : Bool} {fn : Hdr → Chunks → α → Except Err (Chunks × α)} {t : Nat} {ds es : List Chunk} {a0 a1 : α}
    {r : Except Err α} (h1 : Steps be fn t ds a0 (.ok a1)) (h2 : Steps be fn t es a1 r) : Steps be fn t (ds ++ es) a0 r := by
  generalize hr : Except.ok a1 = r1 at h1
  induction h1 with
  | nil a => cases hr; exact h2
  | stop => cases hr
  | cons ho hs _ ih => exact .cons ho hs (ih hr)

/-- Chunks read by a function of their own. -/
theorem Steps.fold {α : Type} {be : Bool} {fn : Hdr → Chunks → α → Except Err (Chunks × α)} {t : Nat} (step : α → Chunk → Except Err α)
    (ds : List Chunk) : ∀ a0, (∀ d ∈ ds, d.Ok ∧ ∀ a, Step be fn t d a (step a d)) → Steps be fn t ds a0 (ds.foldlM step a0) := by
  induction ds with
  | nil => intro a0 _; exact .nil a0
  | cons d ds ih =>
    intro a0 h
    obtain ⟨h1, h2⟩ := h d (by simp)
    have h2 := h2 a0
    rw [List.foldlM_cons]
    cases hs : step a0 d with
    | error e => rw [error_bind]; exact .stop h1 (hs ▸ h2)
    | ok a1 => rw [ok_bind]; exact .cons h1 (hs ▸ h2) (ih a1 (fun d hd => h d (by simp [hd])))

theorem chunkLoop_steps {α : Type} {be strict : Bool} {fn : Hdr → Chunks → α → Except Err (Chunks × α)} {t : Nat} {ds : List Chunk} {a0 : α}
    {r : Except Err α} (h : Steps be fn t ds a0 r) : ∀ (n : Nat) (c : Chunks) (a rest : Bytes), ds.length < n → c.lock = none → c.total = t →
    c.f = a ++ (encAll be ds ++ rest) → Pend c a.length (encAll be ds).length → (encAll be ds).length ≤ t →
    chunkLoop be strict fn n c a0 = (do let x ← r; .ok (x, a.length + (encAll be ds).length)) := by
  induction h with
  | nil x =>
    intro n c a rest hn _ _ hf hp _
    obtain ⟨m, rfl⟩ : ∃ m, n = m + 1 := ⟨n - 1, by simp at hn; omega⟩
    rw [chunkLoop, next_end hp (by simp [encAll]), ok_bind, ok_bind]
    simp [encAll]
  | @stop d ds x e hok hs =>
    intro n c a rest hn hlk htt hf hp hle
    obtain ⟨m, rfl⟩ : ∃ m, n = m + 1 := ⟨n - 1, by simp at hn; omega⟩
    have hel := enc_length be d
    have h4 := hok.1.1
    rw [encAll_cons] at hf hp hle
    rw [List.length_append] at hp hle
    rw [List.append_assoc] at hf
    rw [chunkLoop, next_pend hp hf hok.1 hok.2 (by omega), ok_bind]
    simp only
    have := hs c.f a (encAll be ds ++ rest) (encAll be ds).length (c.total - ((enc be d).length + (encAll be ds).length)) hf hle
    simp only at this
    rw [hlk, htt]
    rw [htt] at this
    rw [this]
    rfl
  | @cons d ds x a1 r hok hs _ ih =>
    intro n c a rest hn hlk htt hf hp hle
    obtain ⟨m, rfl⟩ : ∃ m, n = m + 1 := ⟨n - 1, by simp at hn; omega⟩
    have hel := enc_length be d
    have h4 := hok.1.1
    rw [encAll_cons] at hf hp hle
    rw [List.length_append] at hp hle
    rw [List.append_assoc] at hf
    rw [chunkLoop, next_pend hp hf hok.1 hok.2 (by omega), ok_bind]
    simp only
    obtain ⟨c', q1, q2, q3, q4, q5⟩ := hs c.f a (encAll be ds ++ rest) (encAll be ds).length
      (c.total - ((enc be d).length + (encAll be ds).length)) hf hle
    rw [htt] at q1
    rw [hlk, htt, q1, ok_bind]
    simp only
    have := ih m c' (a ++ enc be d) rest (by simp at hn; omega) q4 q3 (by rw [q2, hf]; simp)
      (by rw [List.length_append]; exact q5) (by omega)
    rw [this]
    simp only [encAll_cons, List.length_append, Nat.add_assoc]

/-- The reader is somewhere in chunk `d`. -/
theorem pend_inside {be : Bool} {f a rest : Bytes} {d : Chunk} {t R j : Nat} (hf : f = a ++ (enc be d ++ rest)) (h4 : d.1.length = 4)
    (hj : j ≤ d.2.length) :
    Pend ⟨f, a.length + 8 + j, t, (enc be d).length + R - 8 - j, d.2.length, d.2.length - j, none⟩ (a.length + (enc be d).length) R := by
  have hel := enc_length be d
  exact pend_chunk (be := be) (d := d) (a := a) hf h4 rfl (by simp only; omega) (by simp only; omega)

/-- The body reads `j` bytes of the chunk. -/
theorem Step.inside {α : Type} {be : Bool} {fn : Hdr → Chunks → α → Except Err (Chunks × α)} {t : Nat} {d : Chunk} {a0 a1 : α}
    (h4 : d.1.length = 4) (j : Nat) (hj : j ≤ d.2.length)
    (h : ∀ (f a rest : Bytes) (R start : Nat), f = a ++ (enc be d ++ rest) →
      fn ⟨d.1, d.2.length, start⟩ ⟨f, a.length + 8, t, (enc be d).length + R - 8, d.2.length, d.2.length, none⟩ a0
        = .ok (⟨f, a.length + 8 + j, t, (enc be d).length + R - 8 - j, d.2.length, d.2.length - j, none⟩, a1)) :
    Step be fn t d a0 (.ok a1) := by
  intro f a rest R start hf _
  exact ⟨_, h f a rest R start hf, rfl, rfl, rfl, pend_inside hf h4 hj⟩

/-- The body does not read anything. -/
theorem Step.stay {α : Type} {be : Bool} {fn : Hdr → Chunks → α → Except Err (Chunks × α)} {t : Nat} {d : Chunk} {a0 a1 : α}
    (h4 : d.1.length = 4) (h : ∀ c start, fn ⟨d.1, d.2.length, start⟩ c a0 = .ok (c, a1)) : Step be fn t d a0 (.ok a1) :=
  Step.inside h4 0 (Nat.zero_le _) fun _ _ _ _ _ _ => h _ _

/-- The body fails. -/
theorem Step.fail {α : Type} {be : Bool} {fn : Hdr → Chunks → α → Except Err (Chunks × α)} {t : Nat} {d : Chunk} {a0 : α} {e : Err}
    (h : ∀ (f a rest : Bytes) (R start : Nat), f = a ++ (enc be d ++ rest) →
      fn ⟨d.1, d.2.length, start⟩ ⟨f, a.length + 8, t, (enc be d).length + R - 8, d.2.length, d.2.length, none⟩ a0 = .error e) :
    Step be fn t d a0 (.error e) := fun f a rest R start hf _ => h f a rest R start hf

/-! ## WAV -/

/-- What one chunk changes of what is collected for the properties. -/
def wavAudio (props : Bool) (a : WavAudio) (d : Chunk) : Except Err WavAudio :=
  if props then
    if d.1 = ascii "fmt " then .ok (if a.fmt = [] then { a with fmt := d.2 } else a)
    else if d.1 = ascii "fact" then
      if a.samples = 0 then (if d.2.length < 4 then .error .eof else .ok { a with samples := fromLE (d.2.take 4) }) else .ok a
    else if d.1 = ascii "data" then .ok (if a.stream = 0 then { a with stream := d.2.length } else a)
    else .ok a
  else .ok a

/-- What one chunk changes, if `its` gives the items of INFO lists. -/
def wavStep (o : Opts) (its : Chunk → List Item) (a : WavAcc) (d : Chunk) : Except Err WavAcc :=
  if IsInfo d then .ok { a with items := a.items ++ its d }
  else if d.IsId3 then do
    let t ← id3Chunk o d.2
    .ok { a with id3v2 := addTag a.id3v2 t }
  else do
    let p ← wavAudio o.readProps a.audio d
    .ok { a with audio := p }

/-- A chunk the WAV reader understands. -/
def WavReadable (its : Chunk → List Item) (d : Chunk) : Prop :=
  d.Ok ∧ (d.1 = ascii "LIST" → 4 ≤ d.2.length) ∧
  (IsInfo d → ∃ junk, d = infoListWith (its d) junk ∧ junk.length < 8 ∧ ∀ i ∈ its d, ItemOk i)

theorem wav_step {o : Opts} (ho : o.readTags = true) {its : Chunk → List Item} {d : Chunk} (h : WavReadable its d) (t : Nat) (a : WavAcc) :
    Step false (wavChunk o t) t d a (wavStep o its a d) := by
  obtain ⟨⟨hfc, hlen⟩, hl4, hinfo⟩ := h
  have h4 := hfc.1
  have hel := enc_length false d
  by_cases hL : d.1 = ascii "LIST"
  · -- lists
    have n1 : d.1 ≠ ascii "fmt " := by rw [hL]; decide
    have n2 : d.1 ≠ ascii "fact" := by rw [hL]; decide
    have n3 : d.1 ≠ ascii "data" := by rw [hL]; decide
    have n4 : ¬ d.IsId3 := by unfold Chunk.IsId3; rw [hL]; decide
    have hw : ∀ c start, wavChunk o t ⟨d.1, d.2.length, start⟩ c a = (do
        let (c, items) ← Iff.wavChunk (o.id3.mode = .strict) (fun _ => .ok ()) t ⟨d.1, d.2.length, start⟩ c a.items
        .ok (c, { a with items := items })) := by
      intro c start
      unfold wavChunk
      simp only [n1, n2, n3, hL, ho, false_and, if_false, if_true]
      rfl
    unfold wavStep
    by_cases hI : IsInfo d
    · rw [if_pos hI]
      obtain ⟨junk, hd, hj, hits⟩ := hinfo hI
      intro f pre rest R start hf ht
      obtain ⟨c', q1, q2, q3, q4, q5⟩ := wavChunk_info (o.id3.mode = .strict) (fun _ => .ok ()) (its d) junk hj f pre rest t R start
        a.items hits (by rw [← hd]; exact hf) (by rw [← hd]; exact ht)
      rw [← hd] at q1 q5
      refine ⟨c', ?_, q2, q3, q4, q5⟩
      rw [hw, hL, q1]
      rfl
    · rw [if_neg hI, if_neg n4]
      have hty : d.2.take 4 ≠ ascii "INFO" := fun h => hI ⟨hL, h⟩
      have ha : wavAudio o.readProps a.audio d = .ok a.audio := by
        unfold wavAudio
        rw [if_neg n1, if_neg n2, if_neg n3]
        simp
      rw [ha, ok_bind]
      refine Step.inside h4 4 (hl4 hL) ?_
      intro f pre rest R start hf
      rw [hw]
      unfold Iff.wavChunk
      have := hl4 hL
      have h5 : ¬ d.2.length < 4 := by omega
      simp only [hL, if_true, h5, if_false]
      rw [readType (d := d) (a := pre) hf h4 (hl4 hL), ok_bind]
      simp only
      rw [if_pos hty, ok_bind]
  · have hI : ¬ IsInfo d := fun h => hL h.1
    unfold wavStep
    rw [if_neg hI]
    by_cases hT : d.IsId3
    · have n1 : d.1 ≠ ascii "fmt " := by rcases hT with h | h <;> rw [h] <;> decide
      have n2 : d.1 ≠ ascii "fact" := by rcases hT with h | h <;> rw [h] <;> decide
      have n3 : d.1 ≠ ascii "data" := by rcases hT with h | h <;> rw [h] <;> decide
      rw [if_pos hT]
      have hw : ∀ (f pre rest : Bytes) (R start : Nat), f = pre ++ (enc false d ++ rest) →
          wavChunk o t ⟨d.1, d.2.length, start⟩ ⟨f, pre.length + 8, t, (enc false d).length + R - 8, d.2.length, d.2.length, none⟩ a = (do
            let x ← id3Chunk o d.2
            .ok (⟨f, pre.length + 8 + d.2.length, t, (enc false d).length + R - 8 - d.2.length, d.2.length, 0, none⟩,
              { a with id3v2 := addTag a.id3v2 x })) := by
        intro f pre rest R start hf
        have hT' : d.1 = ascii "ID3 " ∨ d.1 = ascii "id3 " := hT
        unfold wavChunk
        simp only [n1, n2, n3, hL, ho, false_and, if_false, and_true]
        rw [if_pos hT', readAll (be := false) (d := d) (a := pre) hf h4, ok_bind]
      cases hx : id3Chunk o d.2 with
      | error e =>
        rw [error_bind]
        refine Step.fail fun f pre rest R start hf => ?_
        rw [hw f pre rest R start hf, hx, error_bind]
      | ok x =>
        rw [ok_bind]
        refine Step.inside h4 _ (Nat.le_refl _) fun f pre rest R start hf => ?_
        rw [hw f pre rest R start hf, hx, ok_bind, Nat.sub_self]
    · rw [if_neg hT]
      have hT' : ¬ (d.1 = ascii "ID3 " ∨ d.1 = ascii "id3 ") := hT
      unfold wavAudio
      by_cases hp : o.readProps = true
      · rw [if_pos hp]
        by_cases h1 : d.1 = ascii "fmt "
        · rw [if_pos h1, ok_bind]
          by_cases h0 : a.audio.fmt = []
          · rw [if_pos h0]
            refine Step.inside h4 _ (Nat.le_refl _) fun f pre rest R start hf => ?_
            unfold wavChunk
            simp only [h1, hp, h0, and_self, if_true]
            rw [readAll (be := false) (d := d) (a := pre) hf h4, ok_bind, Nat.sub_self]
          · rw [if_neg h0]
            refine Step.stay h4 fun c start => ?_
            have n2 : d.1 ≠ ascii "fact" := by rw [h1]; decide
            have n3 : d.1 ≠ ascii "data" := by rw [h1]; decide
            unfold wavChunk
            simp only [n2, n3, h0, hL, hT', and_false, false_and, if_false]
        · rw [if_neg h1]
          by_cases h2 : d.1 = ascii "fact"
          · rw [if_pos h2]
            have n3 : d.1 ≠ ascii "data" := by rw [h2]; decide
            by_cases h0 : a.audio.samples = 0
            · rw [if_pos h0]
              by_cases hs : d.2.length < 4
              · rw [if_pos hs, error_bind]
                refine Step.fail fun f pre rest R start hf => ?_
                unfold wavChunk
                simp only [h1, false_and, if_false]
                rw [if_pos ⟨h2, hp, h0⟩]
                unfold Chunks.readExact
                simp only
                rw [if_neg (by omega)]
                rfl
              · rw [if_neg hs, ok_bind]
                refine Step.inside h4 4 (by omega) fun f pre rest R start hf => ?_
                unfold wavChunk
                simp only [h1, false_and, if_false]
                rw [if_pos ⟨h2, hp, h0⟩, readType (d := d) (a := pre) hf h4 (by omega), ok_bind]
            · rw [if_neg h0, ok_bind]
              refine Step.stay h4 fun c start => ?_
              unfold wavChunk
              simp only [h1, n3, h0, hL, hT', and_false, false_and, if_false]
          · rw [if_neg h2]
            by_cases h3 : d.1 = ascii "data"
            · rw [if_pos h3, ok_bind]
              refine Step.stay h4 fun c start => ?_
              unfold wavChunk
              simp only [h1, h2, hL, hT', false_and, if_false]
              by_cases h0 : a.audio.stream = 0
              · rw [if_pos ⟨h3, hp, h0⟩, if_pos h0]
              · rw [if_neg (fun h => h0 h.2.2), if_neg h0]
            · rw [if_neg h3, ok_bind]
              refine Step.stay h4 fun c start => ?_
              unfold wavChunk
              simp only [h1, h2, h3, hL, hT', false_and, if_false]
      · rw [if_neg hp, ok_bind]
        refine Step.stay h4 fun c start => ?_
        unfold wavChunk
        simp only [hp, hL, hT', Bool.false_eq_true, false_and, and_false, if_false]

/-- The result of the reader from what it has collected. -/
def wavDone (o : Opts) (a : WavAcc) (len : Nat) : Except Err WavFile :=
  if o.readProps then do
    let p ← Lossless.wav a.audio.fmt a.audio.samples a.audio.stream len
    .ok ⟨some p, a.items, a.id3v2⟩
  else .ok ⟨none, a.items, a.id3v2⟩

/-- Reading a WAV file chunk by chunk. -/
theorem readWav_chunks {o : Opts} (ho : o.readTags = true) (its : Chunk → List Item) (cs : List Chunk) (hcs : ∀ d ∈ cs, WavReadable its d)
    (hsz : (wav cs).length < 2 ^ 32) :
    readWav o (wav cs) = (do
      let a ← cs.foldlM (wavStep o its) ⟨⟨0, 0, []⟩, [], none⟩
      wavDone o a (wav cs).length) := by
  rw [wav_length] at hsz
  have hv := verifyWav_wav cs [] (by omega)
  rw [List.append_nil] at hv
  have hs := wav_split cs []
  rw [List.append_nil] at hs
  unfold readWav
  rw [hv, ok_bind]
  simp only
  have hl := wav_length cs
  have hle := length_le_encAll false cs
  rw [show (wav cs).length - 12 = (encAll false cs).length by omega]
  have hpf := pend_fresh (Chunks.new (wav cs) 12 (encAll false cs).length) rfl rfl
  have hst := Steps.fold (fn := wavChunk o (encAll false cs).length) (t := (encAll false cs).length) (be := false) (wavStep o its) cs
    ⟨⟨0, 0, []⟩, [], none⟩ (fun d hd => ⟨(hcs d hd).1, fun a => wav_step ho (hcs d hd) _ a⟩)
  rw [chunkLoop_steps hst ((encAll false cs).length + 1) (Chunks.new (wav cs) 12 (encAll false cs).length) _ [] (by omega) rfl rfl hs
    (by rw [wav_prefix_length]; exact hpf) (Nat.le_refl _)]
  cases cs.foldlM (wavStep o its) ⟨⟨0, 0, []⟩, [], none⟩ with
  | error e => rfl
  | ok a =>
    rw [ok_bind, ok_bind, ok_bind]
    simp only
    unfold wavDone
    rw [wav_prefix_length, ← hl]

/-- Audio, INFO items and ID3v2 tags do not depend on each other. -/
theorem fold_wav {o : Opts} {its : Chunk → List Item} {tags : Chunk → Option Id3Tag} : ∀ (cs : List Chunk) (a : WavAcc),
    (∀ d ∈ cs, d.IsId3 → id3Chunk o d.2 = .ok (tags d)) →
    cs.foldlM (wavStep o its) a = (do
      let p ← (wavRest cs).foldlM (wavAudio o.readProps) a.audio
      .ok ⟨p, a.items ++ (cs.filter fun d => IsInfo d).flatMap its, (cs.filter fun d => d.IsId3).foldl (fun t d => addTag t (tags d)) a.id3v2⟩) := by
  intro cs
  induction cs with
  | nil => intro a _; simp [wavRest]; rfl
  | cons d cs ih =>
    intro a h
    have ih := fun a => ih a (fun e he => h e (by simp [he]))
    rw [List.foldlM_cons]
    by_cases hI : IsInfo d
    · have hn : ¬ d.IsId3 := by unfold Chunk.IsId3; rw [hI.1]; decide
      have hw : wavRest (d :: cs) = wavRest cs := by unfold wavRest; rw [List.filter_cons_of_neg (by simp [hI])]
      rw [List.filter_cons_of_pos (by simp [hI]), List.filter_cons_of_neg (by simp [hn]), hw]
      unfold wavStep
      rw [if_pos hI, ok_bind]
      have := ih { a with items := a.items ++ its d }
      unfold wavStep at this
      rw [this]
      simp
    · by_cases hT : d.IsId3
      · have hw : wavRest (d :: cs) = wavRest cs := by unfold wavRest; rw [List.filter_cons_of_neg (by simp [hT])]
        rw [List.filter_cons_of_neg (by simp [hI]), List.filter_cons_of_pos (by simp [hT]), hw]
        unfold wavStep
        rw [if_neg hI, if_pos hT, h d (by simp) hT, ok_bind, ok_bind]
        have := ih { a with id3v2 := addTag a.id3v2 (tags d) }
        unfold wavStep at this
        rw [this]
        simp
      · rw [List.filter_cons_of_neg (by simp [hI]), List.filter_cons_of_neg (by simp [hT])]
        have hs : wavStep o its a d = (do let p ← wavAudio o.readProps a.audio d; .ok { a with audio := p }) := by
          unfold wavStep; rw [if_neg hI, if_neg hT]
        rw [hs]
        by_cases hJ : d.1 = ascii "JUNK"
        · have hw : wavRest (d :: cs) = wavRest cs := by unfold wavRest; rw [List.filter_cons_of_neg (by simp [hJ])]
          have ha : wavAudio o.readProps a.audio d = .ok a.audio := by
            unfold wavAudio
            rw [if_neg (show ¬ d.1 = ascii "fmt " by rw [hJ]; decide), if_neg (show ¬ d.1 = ascii "fact" by rw [hJ]; decide),
              if_neg (show ¬ d.1 = ascii "data" by rw [hJ]; decide)]
            simp
          rw [ha, ok_bind, ok_bind, hw]
          exact ih a
        · have hw : wavRest (d :: cs) = d :: wavRest cs := by unfold wavRest; rw [List.filter_cons_of_pos (by simp [hI, hT, hJ])]
          rw [hw, List.foldlM_cons]
          cases wavAudio o.readProps a.audio d with
          | error e => rfl
          | ok p => rw [ok_bind, ok_bind, ok_bind]; exact ih { a with audio := p }

theorem wavAudio_bounds {props : Bool} {a b : WavAudio} {d : Chunk} (hd : d.Ok) (ha : a.stream < 2 ^ 32 ∧ a.samples < 2 ^ 32)
    (h : wavAudio props a d = .ok b) : b.stream < 2 ^ 32 ∧ b.samples < 2 ^ 32 := by
  unfold wavAudio at h
  have hl := hd.2
  split at h
  · split at h
    · cases h; split <;> exact ha
    split at h
    · split at h
      · split at h
        · cases h
        · cases h
          refine ⟨ha.1, ?_⟩
          have := fromLE_lt (d.2.take 4)
          have h4 : (d.2.take 4).length ≤ 4 := List.length_take_le _ _
          calc fromLE (d.2.take 4) < 256 ^ (d.2.take 4).length := this
            _ ≤ 256 ^ 4 := Nat.pow_le_pow_right (by decide) h4
            _ = 2 ^ 32 := by decide
      · cases h; exact ha
    split at h
    · cases h
      split
      · exact ⟨hl, ha.2⟩
      · exact ha
    · cases h; exact ha
  · cases h; exact ha

theorem audio_bounds {props : Bool} : ∀ (cs : List Chunk) (a b : WavAudio), (∀ d ∈ cs, d.Ok) → a.stream < 2 ^ 32 ∧ a.samples < 2 ^ 32 →
    cs.foldlM (wavAudio props) a = .ok b → b.stream < 2 ^ 32 ∧ b.samples < 2 ^ 32 := by
  intro cs
  induction cs with
  | nil => intro a b _ ha h; cases h; exact ha
  | cons d cs ih =>
    intro a b hcs ha h
    rw [List.foldlM_cons] at h
    obtain ⟨c, hc, h⟩ := bind_ok h
    exact ih c b (fun e he => hcs e (by simp [he])) (wavAudio_bounds (hcs d (by simp)) ha hc) h

/-- Only the overall bit rate depends on the size of the file. -/
theorem wavTimes_file {f : Lossless.Fmt} {samples stream n m du ov au : Nat} (hs : samples < 2 ^ 32) (hst : stream < 2 ^ 32)
    (hr : f.rate < 2 ^ 32) (hb : f.bytesPerSecond < 2 ^ 32) (hm : m < 2 ^ 60)
    (h : Lossless.wavTimes f samples stream n = .ok (du, ov, au)) : ∃ ov', Lossless.wavTimes f samples stream m = .ok (du, ov', au) := by
  have h8 : Lossless.times8 m = .ok (m * 8) := by unfold Lossless.times8; rw [if_neg (by omega)]
  unfold Lossless.wavTimes at h ⊢
  obtain ⟨audio, ha, h⟩ := bind_ok h
  rw [ha, ok_bind]
  by_cases hc : 0 < f.rate ∧ 0 < samples
  · rw [if_pos hc] at h ⊢
    obtain ⟨len, hl, h⟩ := bind_ok h
    obtain ⟨n', hn', hle⟩ := Lossless.divRound_ok (a := samples * 1000) hc.1 (by omega)
    rw [hl] at hn'
    cases hn'
    rw [hl, ok_bind]
    by_cases h0 : 0 < len
    · rw [if_pos h0] at h ⊢
      obtain ⟨x, hx, h⟩ := bind_ok h
      obtain ⟨ov0, ho, h⟩ := bind_ok h
      obtain ⟨ov1, ho1, -⟩ := Lossless.divRound_ok (a := m * 8) h0 (by omega)
      rw [h8, ok_bind, ho1, ok_bind]
      by_cases hz : audio = 0
      · rw [if_pos hz] at h ⊢
        obtain ⟨a1, ha1, h⟩ := bind_ok h
        rw [ha1, ok_bind]
        cases h
        exact ⟨_, rfl⟩
      · rw [if_neg hz] at h ⊢
        cases h
        exact ⟨_, rfl⟩
    · rw [if_neg h0] at h ⊢
      exact ⟨_, h⟩
  · rw [if_neg hc] at h ⊢
    by_cases hc : 0 < stream ∧ 0 < f.bytesPerSecond
    · rw [if_pos hc] at h ⊢
      obtain ⟨len, hl, h⟩ := bind_ok h
      obtain ⟨n', hn', hle⟩ := Lossless.divRound_ok (a := stream * 1000) hc.2 (by omega)
      rw [hl] at hn'
      cases hn'
      rw [hl, ok_bind]
      by_cases h0 : 0 < len
      · rw [if_pos h0] at h ⊢
        obtain ⟨x, hx, h⟩ := bind_ok h
        obtain ⟨ov0, ho, h⟩ := bind_ok h
        obtain ⟨ov1, ho1, -⟩ := Lossless.divRound_ok (a := m * 8) h0 (by omega)
        rw [h8, ok_bind, ho1, ok_bind]
        cases h
        exact ⟨_, rfl⟩
      · rw [if_neg h0] at h ⊢
        exact ⟨_, h⟩
    · rw [if_neg hc] at h ⊢
      exact ⟨_, h⟩

theorem wav_file {fmt : Bytes} {fact stream n m : Nat} {p : Lossless.Wav} (hf : fact < 2 ^ 32) (hs : stream < 2 ^ 32) (hm : m < 2 ^ 60)
    (h : Lossless.wav fmt fact stream n = .ok p) : ∃ q, Lossless.wav fmt fact stream m = .ok q ∧ { q with overall := p.overall } = p := by
  unfold Lossless.wav at h ⊢
  split at h
  · cases h
  rename_i c1
  split at h
  · cases h
  rename_i c2
  obtain ⟨f, hfmt, h⟩ := bind_ok h
  split at h
  · cases h
  rename_i c3
  split at h
  · cases h
  rename_i c4
  simp only at h
  split at h
  · cases h
  rename_i c5
  obtain ⟨⟨du, ov, au⟩, ht, h⟩ := bind_ok h
  obtain ⟨hrate, hbps⟩ := Lossless.readFmt_bounds hfmt
  have hsam : (if 0 < f.bits ∧ (fact = 0 ∨ (f.format = 1 ∨ f.format = 3)) then stream / (f.channels * (f.bits / 8)) else fact) < 2 ^ 32 := by
    split
    · exact Nat.lt_of_le_of_lt (Nat.div_le_self _ _) hs
    · exact hf
  obtain ⟨ov', ht'⟩ := wavTimes_file hsam hs hrate hbps hm ht
  rw [if_neg c1, if_neg c2, hfmt, ok_bind, if_neg c3, if_neg c4]
  simp only
  rw [if_neg c5, ht', ok_bind]
  obtain rfl := (Except.ok.injEq _ _).mp h
  exact ⟨_, rfl, rfl⟩

/-! ## The writer -/

theorem u32_length (be : Bool) (n : Nat) : (u32 be n).length = 4 := by
  unfold u32; split <;> simp

theorem tagChunk_enc (be upper : Bool) (tag : Bytes) : tagChunk be upper tag = enc be (if upper then ascii "ID3 " else ascii "id3 ", tag) := by
  unfold tagChunk enc u32
  congr 3
  rcases Nat.mod_two_eq_zero_or_one tag.length with h | h <;> rw [h] <;> rfl

/-- The new chunk, if there is a tag. -/
def newChunk (upper : Bool) (tag : Bytes) : List Chunk := if tag = [] then [] else [(if upper then ascii "ID3 " else ascii "id3 ", tag)]

theorem newChunk_length (be upper : Bool) (tag : Bytes) : (encAll be (newChunk upper tag)).length = tagChunkSize tag := by
  unfold newChunk tagChunkSize
  by_cases h : tag = []
  · subst h; rfl
  · have hi : tag.isEmpty = false := by simpa using h
    have : (if upper = true then ascii "ID3 " else ascii "id3 ").length = 4 := by split <;> rfl
    rw [if_neg h, encAll_cons, encAll_nil, List.append_nil, enc_length, hi]
    simp only
    rw [this, if_neg (by simp)]
    rcases Nat.mod_two_eq_zero_or_one tag.length with h | h <;> rw [h] <;> simp <;> omega

theorem tagBytes (be upper : Bool) (tag : Bytes) :
    (if tag.isEmpty = true then [] else tagChunk be upper tag) = encAll be (newChunk upper tag) := by
  unfold newChunk
  by_cases h : tag = []
  · subst h; rfl
  · rw [if_neg (by simpa using h), if_neg h, encAll_cons, encAll_nil, List.append_nil, tagChunk_enc]

theorem file_eq (be : Bool) (magic form : Bytes) (cs : List Chunk) :
    file be magic form cs = magic ++ (u32 be (4 + (encAll be cs).length) ++ (form ++ encAll be cs)) := rfl

theorem file_length {be : Bool} {magic form : Bytes} (hm : magic.length = 4) (hf : form.length = 4) (cs : List Chunk) :
    (file be magic form cs).length = 12 + (encAll be cs).length := by
  rw [file_eq]
  simp only [List.length_append, u32_length, hm, hf]
  omega

theorem setStream_file {be : Bool} {magic form x : Bytes} {n len : Nat} (hm : magic.length = 4) (hl : len < 2 ^ 32)
    (hx : len = 12 + x.length) (g : Bytes) (hg : g = magic ++ (u32 be n ++ (form ++ x))) :
    setStream be g len = .ok (magic ++ (u32 be (4 + x.length) ++ (form ++ x))) := by
  unfold setStream
  have := Ilst.writeAt_mid magic (u32 be n) (u32 be (4 + x.length)) (form ++ x) (by rw [u32_length, u32_length])
  rw [hm] at this
  rw [Nat.mod_eq_of_lt hl, if_neg (by omega), hg, show len - 8 = 4 + x.length by omega, this]

theorem findId3Loop_none {be strict : Bool} : ∀ (ds : List Chunk) (n : Nat) (c : Chunks) (a rest : Bytes), (∀ d ∈ ds, d.Ok ∧ ¬ d.IsId3) →
    ds.length < n → c.lock = none → c.f = a ++ (encAll be ds ++ rest) → Pend c a.length ((encAll be ds).length + 4) →
    findId3Loop be strict n c = .ok none := by
  intro ds
  induction ds with
  | nil =>
    intro n c a rest _ hn hlk hf hp
    obtain ⟨m, rfl⟩ : ∃ m, n = m + 1 := ⟨n - 1, by simp at hn; omega⟩
    rw [findId3Loop, next_end hp (by simp [encAll]), ok_bind]
  | cons d ds ih =>
    intro n c a rest hds hn hlk hf hp
    obtain ⟨m, rfl⟩ : ∃ m, n = m + 1 := ⟨n - 1, by simp at hn; omega⟩
    obtain ⟨⟨hfc, hl⟩, hni⟩ := hds d (by simp)
    have hel := enc_length be d
    have h4 := hfc.1
    rw [encAll_cons] at hf hp
    rw [List.length_append] at hp
    rw [List.append_assoc] at hf
    rw [findId3Loop, next_pend hp hf hfc hl (by omega), ok_bind]
    simp only
    have hni' : ¬ (d.1 = ascii "ID3 " ∨ d.1 = ascii "id3 ") := hni
    rw [if_neg hni', hlk]
    refine ih m _ (a ++ enc be d) rest (fun e he => hds e (by simp [he])) (by simp at hn; omega) rfl (by simp only; rw [hf]; simp) ?_
    have := pend_inside (t := c.total) (R := (encAll be ds).length + 4) (j := 0) hf h4 (Nat.zero_le _)
    rw [List.length_append]
    simpa [Nat.add_assoc] using this

theorem findId3Loop_some {be strict : Bool} {d : Chunk} (hd : d.Ok) (hi : d.IsId3) (post : List Chunk) : ∀ (ds : List Chunk) (n : Nat) (c : Chunks)
    (a rest : Bytes), (∀ d ∈ ds, d.Ok ∧ ¬ d.IsId3) → ds.length < n → c.lock = none → c.f = a ++ (encAll be (ds ++ d :: post) ++ rest) →
    Pend c a.length ((encAll be (ds ++ d :: post)).length + 4) → (encAll be (ds ++ d :: post)).length + 4 ≤ c.total →
    findId3Loop be strict n c = .ok (some (c.total - ((encAll be (d :: post)).length + 4) + 12, c.total - ((encAll be post).length + 4) + 12)) := by
  intro ds
  induction ds with
  | nil =>
    intro n c a rest _ hn hlk hf hp ht
    obtain ⟨m, rfl⟩ : ∃ m, n = m + 1 := ⟨n - 1, by simp at hn; omega⟩
    have hel := enc_length be d
    have h4 := hd.1.1
    rw [List.nil_append, encAll_cons] at hf hp ht
    rw [List.length_append] at hp ht
    rw [List.append_assoc] at hf
    rw [findId3Loop, next_pend hp hf hd.1 hd.2 (by omega), ok_bind]
    simp only
    have hi' : d.1 = ascii "ID3 " ∨ d.1 = ascii "id3 " := hi
    rw [if_pos hi', hlk]
    have := pend_inside (t := c.total) (R := (encAll be post).length + 4) (j := 0) hf h4 (Nat.zero_le _)
    unfold Pend at this
    simp only [Nat.add_zero, Nat.sub_zero, ← Nat.add_assoc] at this ⊢
    rw [this, ok_bind]
    unfold Chunks.streamPosition
    simp only
    rw [encAll_cons, List.length_append]
  | cons e ds ih =>
    intro n c a rest hds hn hlk hf hp ht
    obtain ⟨m, rfl⟩ : ∃ m, n = m + 1 := ⟨n - 1, by simp at hn; omega⟩
    obtain ⟨⟨hfc, hl⟩, hni⟩ := hds e (by simp)
    have hel := enc_length be e
    have h4 := hfc.1
    rw [List.cons_append, encAll_cons] at hf hp ht
    rw [List.length_append] at hp ht
    rw [List.append_assoc] at hf
    rw [findId3Loop, next_pend hp hf hfc hl (by omega), ok_bind]
    simp only
    have hni' : ¬ (e.1 = ascii "ID3 " ∨ e.1 = ascii "id3 ") := hni
    rw [if_neg hni', hlk]
    refine ih m ⟨c.f, a.length + 8, c.total, (enc be e).length + (encAll be (ds ++ d :: post)).length + 4 - 8, e.2.length, e.2.length, none⟩
      (a ++ enc be e) rest (fun e he => hds e (by simp [he])) (by simp at hn; omega) rfl (by simp only; rw [hf]; simp) ?_ (by simp only; omega)
    have := pend_inside (t := c.total) (R := (encAll be (ds ++ d :: post)).length + 4) (j := 0) hf h4 (Nat.zero_le _)
    rw [List.length_append]
    simpa [Nat.add_assoc] using this

/-- The whole file is one chunk. -/
theorem file_chunk (be : Bool) (magic form : Bytes) (hf : form.length = 4) (cs : List Chunk) (hcs : ∀ d ∈ cs, d.Ok) :
    file be magic form cs = enc be (magic, form ++ encAll be cs) := by
  have hev := encAll_even be cs (fun d hd => (hcs d hd).1.1)
  rw [file_eq]
  unfold enc u32
  simp only [List.length_append, hf]
  rw [show (4 + (encAll be cs).length) % 2 = 0 by omega]
  simp

theorem file_split (be : Bool) (magic form : Bytes) (cs : List Chunk) :
    file be magic form cs = (magic ++ (u32 be (4 + (encAll be cs).length) ++ form)) ++ (encAll be cs ++ []) := by
  rw [file_eq]; simp

theorem findId3_none {be strict : Bool} {magic form : Bytes} (hm : FourCC magic) (hf : form.length = 4) {cs : List Chunk}
    (hcs : ∀ d ∈ cs, d.Ok ∧ ¬ d.IsId3) (hsz : (file be magic form cs).length < 2 ^ 32) :
    findId3 be strict (file be magic form cs) = .ok (12 + (encAll be cs).length, none) := by
  have hl := file_length (be := be) hm.1 hf cs
  have hfl : (magic ++ (u32 be (4 + (encAll be cs).length) ++ form)).length = 12 := by simp [u32_length, hm.1, hf]
  have hc := file_chunk be magic form hf cs (fun d hd => (hcs d hd).1)
  have hd : ((magic, form ++ encAll be cs) : Chunk).2.length = 4 + (encAll be cs).length := by simp [hf]
  unfold findId3
  rw [next_pend (d := (magic, form ++ encAll be cs)) (a := []) (rest := []) (pend_fresh (Chunks.new (file be magic form cs) 0 _) rfl rfl)
    (by simp only [Chunks.new, List.append_nil, List.nil_append]; exact hc) hm (by rw [hd]; omega)
    (by rw [hd]; simp only [Chunks.new]; omega), ok_bind]
  simp only
  rw [hd, if_neg (by omega)]
  have hp := pend_fresh (Chunks.new (file be magic form cs) 12 (4 + (encAll be cs).length + 8 - 8)) rfl rfl
  have hle := length_le_encAll be cs
  rw [findId3Loop_none cs _ (Chunks.new (file be magic form cs) 12 (4 + (encAll be cs).length + 8 - 8)) _ [] hcs (by omega) rfl
    (file_split be magic form cs) (by
      rw [hfl]
      simp only [Chunks.new] at hp ⊢
      rw [show (encAll be cs).length + 4 = 4 + (encAll be cs).length + 8 - 8 by omega]
      exact hp), ok_bind, show 4 + (encAll be cs).length + 8 = 12 + (encAll be cs).length by omega]

theorem findId3_some {be strict : Bool} {magic form : Bytes} (hm : FourCC magic) (hf : form.length = 4) {pre post : List Chunk} {d : Chunk}
    (hpre : ∀ d ∈ pre, d.Ok ∧ ¬ d.IsId3) (hd : d.Ok) (hi : d.IsId3) (hpost : ∀ d ∈ post, d.Ok)
    (hsz : (file be magic form (pre ++ d :: post)).length < 2 ^ 32) :
    findId3 be strict (file be magic form (pre ++ d :: post))
      = .ok (12 + (encAll be (pre ++ d :: post)).length, some (12 + (encAll be pre).length, 12 + (encAll be pre).length + (enc be d).length)) := by
  have hcs : ∀ e ∈ pre ++ d :: post, e.Ok := by
    intro e he
    simp only [List.mem_append, List.mem_cons] at he
    rcases he with he | rfl | he
    · exact (hpre e he).1
    · exact hd
    · exact hpost e he
  have hl := file_length (be := be) hm.1 hf (pre ++ d :: post)
  have hfl : (magic ++ (u32 be (4 + (encAll be (pre ++ d :: post)).length) ++ form)).length = 12 := by simp [u32_length, hm.1, hf]
  have hc := file_chunk be magic form hf _ hcs
  have hdl : ((magic, form ++ encAll be (pre ++ d :: post)) : Chunk).2.length = 4 + (encAll be (pre ++ d :: post)).length := by simp [hf]
  have hsp : (encAll be (pre ++ d :: post)).length = (encAll be pre).length + ((enc be d).length + (encAll be post).length) := by
    rw [encAll_append, encAll_cons]; simp
  unfold findId3
  rw [next_pend (d := (magic, form ++ encAll be (pre ++ d :: post))) (a := []) (rest := [])
    (pend_fresh (Chunks.new (file be magic form (pre ++ d :: post)) 0 _) rfl rfl)
    (by simp only [Chunks.new, List.append_nil, List.nil_append]; exact hc) hm (by rw [hdl]; omega)
    (by rw [hdl]; simp only [Chunks.new]; omega), ok_bind]
  simp only
  rw [hdl, if_neg (by omega)]
  have hp := pend_fresh (Chunks.new (file be magic form (pre ++ d :: post)) 12 (4 + (encAll be (pre ++ d :: post)).length + 8 - 8)) rfl rfl
  have hle := length_le_encAll be (pre ++ d :: post)
  rw [List.length_append] at hle
  rw [findId3Loop_some hd hi post pre _ (Chunks.new (file be magic form (pre ++ d :: post)) 12 (4 + (encAll be (pre ++ d :: post)).length + 8 - 8)) _ []
    hpre (by omega) rfl (file_split be magic form _) (by
      rw [hfl]
      simp only [Chunks.new] at hp ⊢
      rw [show (encAll be (pre ++ d :: post)).length + 4 = 4 + (encAll be (pre ++ d :: post)).length + 8 - 8 by omega]
      exact hp) (by simp only [Chunks.new]; omega), ok_bind]
  simp only [Chunks.new]
  rw [encAll_cons, List.length_append, hsp]
  congr 2
  · omega
  · congr 2 <;> omega

/-- The chunks after the save of a tag, if there was none. -/
theorem writeChunkFile_none {be isWav strict upper padded : Bool} {magic form tag : Bytes} (hm : FourCC magic) (hf : form.length = 4)
    {cs : List Chunk} (hcs : ∀ d ∈ cs, d.Ok ∧ ¬ d.IsId3) (hsz : (file be magic form cs).length + tag.length + 9 < 2 ^ 32) :
    writeChunkFile be isWav strict upper padded (file be magic form cs) tag = .ok (file be magic form (cs ++ newChunk upper tag)) := by
  have hl := file_length (be := be) hm.1 hf cs
  unfold writeChunkFile
  rw [findId3_none hm hf hcs (by omega), ok_bind]
  simp only
  by_cases ht : tag = []
  · subst ht
    rw [if_pos (show List.isEmpty ([] : Bytes) = true from rfl)]
    unfold newChunk
    rw [if_pos rfl, List.append_nil]
  · rw [if_neg (by simpa using ht)]
    unfold rewrite
    rw [tagBytes]
    have := splice_append (file be magic form cs) [] [] (encAll be (newChunk upper tag)) _ _ hl rfl
    simp only [List.append_nil, List.length_nil, Nat.add_zero] at this
    rw [this, ok_bind]
    simp only
    have hn := newChunk_length be upper tag
    have hts : tagChunkSize tag ≤ tag.length + 9 := by unfold tagChunkSize; split <;> split <;> omega
    rw [setStream_file (magic := magic) (form := form) (x := encAll be (cs ++ newChunk upper tag)) (n := 4 + (encAll be cs).length) hm.1
      (by omega) (by rw [encAll_append, List.length_append, hn]; omega) _ (by rw [file_eq, encAll_append]; simp)]
    rfl

theorem tagChunkSize_padded {tag : Bytes} (h : tag ≠ []) : tagChunkSize tag = IffFiles.padded tag + 8 := by
  unfold tagChunkSize IffFiles.padded
  rw [if_neg (by simpa using h)]
  rcases Nat.mod_two_eq_zero_or_one tag.length with h | h <;> rw [h] <;> simp <;> omega

/-- The chunks after the save of a tag, if there was one.  The new one is the last. -/
theorem writeChunkFile_some {be isWav strict upper pad : Bool} {magic form tag : Bytes} (hm : FourCC magic) (hf : form.length = 4)
    {pre post : List Chunk} {d : Chunk} (hpre : ∀ d ∈ pre, d.Ok ∧ ¬ d.IsId3) (hd : d.Ok) (hi : d.IsId3) (hpost : ∀ d ∈ post, d.Ok)
    (hsz : (file be magic form (pre ++ d :: post)).length + tag.length + 9 < 2 ^ 32)
    (hsafe : tag ≠ [] → if post = [] then padded tag ≤ padded d.2 else isWav = true → pad = true → padded d.2 < padded tag + 8) :
    writeChunkFile be isWav strict upper pad (file be magic form (pre ++ d :: post)) tag
      = .ok (file be magic form (if post ≠ [] ∧ isWav = true ∧ pad = true ∧ tag = [] then pre ++ (ascii "JUNK", d.2) :: post
          else pre ++ post ++ newChunk upper tag)) := by
  have hl := file_length (be := be) hm.1 hf (pre ++ d :: post)
  have hel := enc_length be d
  have h4 := hd.1.1
  have hsp : (encAll be (pre ++ d :: post)).length = (encAll be pre).length + ((enc be d).length + (encAll be post).length) := by
    rw [encAll_append, encAll_cons]; simp
  have hn := newChunk_length be upper tag
  have hts : tagChunkSize tag ≤ tag.length + 9 := by unfold tagChunkSize; split <;> split <;> omega
  have hpd : (enc be d).length = padded d.2 + 8 := by unfold IffFiles.padded; omega
  -- the file in parts
  have hparts : ∀ n x, magic ++ (u32 be n ++ (form ++ (encAll be pre ++ x))) = (magic ++ (u32 be n ++ (form ++ encAll be pre))) ++ x := by
    intro n x; simp
  have hlen : ∀ n, (magic ++ (u32 be n ++ (form ++ encAll be pre))).length = 12 + (encAll be pre).length := by
    intro n; simp [u32_length, hm.1, hf]; omega
  have hfile : file be magic form (pre ++ d :: post) = (magic ++ (u32 be (4 + (encAll be (pre ++ d :: post)).length) ++ (form ++ encAll be pre)))
      ++ (enc be d ++ encAll be post) := by
    rw [file_eq, ← hparts, encAll_append, encAll_cons]
  unfold writeChunkFile
  rw [findId3_some hm hf hpre hd hi hpost (by omega), ok_bind]
  simp only
  by_cases hp : post = []
  · -- at the end
    subst hp
    rw [encAll_nil, List.length_nil] at hsp
    rw [encAll_nil, List.append_nil] at hfile
    rw [if_pos ⟨by omega, by omega⟩, if_neg (by simp), List.append_nil]
    unfold overwriteLast
    by_cases ht : tag = []
    · subst ht
      rw [if_pos (show List.isEmpty ([] : Bytes) = true from rfl), if_neg (by omega)]
      unfold newChunk
      rw [if_pos rfl, List.append_nil]
      rw [setStream_file (magic := magic) (form := form) (x := encAll be pre) (n := 4 + (encAll be (pre ++ [d])).length) hm.1 (by omega) (by omega) _
        (by rw [hfile]; unfold truncate; rw [List.take_left' (hlen _)])]
      rfl
    · have hs := hsafe ht
      rw [if_pos rfl] at hs
      have htc := tagChunkSize_padded ht
      have htb : tagChunk be upper tag = encAll be (newChunk upper tag) := by
        rw [← tagBytes, if_neg (by simpa using ht)]
      have hw : writeAt (file be magic form (pre ++ [d])) (12 + (encAll be pre).length) (tagChunk be upper tag)
          = (magic ++ (u32 be (4 + (encAll be (pre ++ [d])).length) ++ (form ++ encAll be pre)))
            ++ (encAll be (newChunk upper tag) ++ (enc be d).drop (tagChunkSize tag)) := by
        rw [writeAt_eq (by omega), hfile, List.take_left' (hlen _), ← List.drop_drop, List.drop_left' (hlen _), htb, hn]
        simp
      rw [if_neg (by simpa using ht)]
      simp only
      rw [hw]
      have hset : ∀ len g, len = 12 + (encAll be (pre ++ newChunk upper tag)).length → g = (magic ++ (u32 be (4 + (encAll be (pre ++ [d])).length) ++ (form ++ encAll be pre)))
          ++ encAll be (newChunk upper tag) → setStream be g len = .ok (file be magic form (pre ++ newChunk upper tag)) := by
        intro len g hlen' hg
        have h5 := hlen'
        rw [encAll_append be pre (newChunk upper tag), List.length_append, hn] at h5
        rw [setStream_file (magic := magic) (form := form) (x := encAll be (pre ++ newChunk upper tag)) (n := 4 + (encAll be (pre ++ [d])).length) hm.1
          (by omega) hlen' g (by rw [hg, encAll_append be pre (newChunk upper tag)]; simp)]
        rfl
      split
      · rw [if_neg (by omega)]
        apply hset
        · rw [encAll_append be pre (newChunk upper tag), List.length_append, hn]; omega
        · unfold truncate
          rw [← List.append_assoc]
          apply List.take_left'
          rw [List.length_append, hlen, hn]
          omega
      · rw [if_neg (by omega)]
        apply hset
        · rw [encAll_append be pre (newChunk upper tag), List.length_append, hn]; omega
        · rw [List.drop_eq_nil_of_le (by omega), List.append_nil]
  · -- in the middle
    have hpl : 0 < (encAll be post).length := by
      have := length_le_encAll be post
      have : 0 < post.length := List.length_pos_iff.mpr hp
      omega
    rw [if_neg (by omega)]
    by_cases hj : isWav = true ∧ pad = true ∧ tag = []
    · obtain ⟨h1, h2, h3⟩ := hj
      subst h3
      rw [if_pos ⟨h1, h2, rfl⟩, if_pos ⟨hp, h1, h2, rfl⟩]
      have he : enc be d = d.1 ++ (u32 be d.2.length ++ (d.2 ++ List.replicate (d.2.length % 2) 0)) := rfl
      have he' : enc be (ascii "JUNK", d.2) = ascii "JUNK" ++ (u32 be d.2.length ++ (d.2 ++ List.replicate (d.2.length % 2) 0)) := rfl
      have hwm := Ilst.writeAt_mid (magic ++ (u32 be (4 + (encAll be (pre ++ d :: post)).length) ++ (form ++ encAll be pre))) d.1 (ascii "JUNK")
        ((u32 be d.2.length ++ (d.2 ++ List.replicate (d.2.length % 2) 0)) ++ encAll be post) (by rw [h4]; rfl)
      rw [hlen] at hwm
      have hlj : (enc be (ascii "JUNK", d.2)).length = (enc be d).length := by
        rw [he, he']
        simp only [List.length_append]
        rw [h4]; rfl
      have hfile' : file be magic form (pre ++ d :: post) = (magic ++ (u32 be (4 + (encAll be (pre ++ d :: post)).length) ++ (form ++ encAll be pre)))
          ++ (d.1 ++ ((u32 be d.2.length ++ (d.2 ++ List.replicate (d.2.length % 2) 0)) ++ encAll be post)) := by
        rw [hfile, he, List.append_assoc d.1]
      have hsj : (encAll be (pre ++ (ascii "JUNK", d.2) :: post)).length = (encAll be pre).length + ((enc be d).length + (encAll be post).length) := by
        rw [encAll_append, encAll_cons, List.length_append, List.length_append, hlj]
      rw [hfile', hwm, file_eq, hsj, hsp, encAll_append, encAll_cons, he']
      simp
    · have hj1 : ¬ (isWav = true ∧ pad = true ∧ tag.isEmpty = true) := by simpa using hj
      rw [if_neg hj1, if_neg (by omega), if_neg (show ¬ (post ≠ [] ∧ isWav = true ∧ pad = true ∧ tag = []) from fun h => hj h.2)]
      have hj2 : ¬ (isWav = true ∧ pad = true ∧ 12 + (encAll be pre).length + (enc be d).length - (12 + (encAll be pre).length) - 8 ≥ tagChunkSize tag) := by
        rintro ⟨h1, h2, h3⟩
        have ht : tag ≠ [] := fun h => hj ⟨h1, h2, h⟩
        have := hsafe ht
        rw [if_neg hp] at this
        have := this h1 h2
        have htc := tagChunkSize_padded ht
        omega
      rw [if_neg hj2]
      unfold rewrite
      rw [tagBytes]
      have := splice_append (file be magic form (pre ++ d :: post)) [] [] (encAll be (newChunk upper tag)) _ _ hl rfl
      simp only [List.append_nil, List.length_nil, Nat.add_zero] at this
      rw [this, ok_bind]
      simp only
      have hfile' : file be magic form (pre ++ d :: post) ++ encAll be (newChunk upper tag)
          = (magic ++ (u32 be (4 + (encAll be (pre ++ d :: post)).length) ++ (form ++ encAll be pre)))
            ++ (enc be d ++ (encAll be post ++ encAll be (newChunk upper tag))) := by
        rw [hfile]; simp only [List.append_assoc]
      have hnew : (encAll be (pre ++ post ++ newChunk upper tag)).length = (encAll be pre).length + (encAll be post).length + tagChunkSize tag := by
        rw [encAll_append be (pre ++ post), encAll_append be pre post, List.length_append, List.length_append, hn]
      rw [if_neg (by omega), hfile',
        splice_append _ (enc be d) (encAll be post ++ encAll be (newChunk upper tag)) [] _ _ (hlen _) rfl, ok_bind, List.append_nil]
      rw [setStream_file (magic := magic) (form := form) (x := encAll be (pre ++ post ++ newChunk upper tag)) (n := 4 + (encAll be (pre ++ d :: post)).length) hm.1
        (by omega) (by rw [hnew]; omega) _
        (by rw [encAll_append be (pre ++ post), encAll_append be pre post]; simp)]
      rfl

/-! ## The saves of WAV files -/

theorem filter_single {α : Type} {p : α → Bool} : ∀ {l : List α} {x : α}, l.filter p = [x] →
    ∃ pre post, l = pre ++ x :: post ∧ (∀ y ∈ pre, p y = false) ∧ (∀ y ∈ post, p y = false) ∧ p x = true := by
  intro l
  induction l with
  | nil => intro x h; simp at h
  | cons a l ih =>
    intro x h
    by_cases ha : p a = true
    · rw [List.filter_cons_of_pos ha] at h
      obtain ⟨rfl, hnil⟩ := List.cons.inj h
      refine ⟨[], l, rfl, by simp, ?_, ha⟩
      intro y hy
      have := List.filter_eq_nil_iff.mp hnil y hy
      simpa using this
    · rw [List.filter_cons_of_neg ha] at h
      obtain ⟨pre, post, rfl, h1, h2, h3⟩ := ih h
      refine ⟨a :: pre, post, rfl, ?_, h2, h3⟩
      intro y hy
      rcases List.mem_cons.mp hy with rfl | hy
      · simpa using ha
      · exact h1 y hy

/-- A tag that was saved is read back. -/
theorem id3Chunk_lead {o : Opts} {b : Bytes} {t : Id3Tag} (h : LeadOf o.id3 b (some t)) :
    ∃ n, ∀ k, n ≤ k → id3Chunk { o with depth := k } b = .ok (some t) := by
  cases h with
  | tag fl padding body fs b hcrc hres hun hsize hb hr =>
    obtain ⟨n, hr⟩ := hr
    refine ⟨n, fun k hk => ?_⟩
    obtain ⟨pad, h1, h2, h3⟩ := lead_parse hcrc hres hun hsize hb []
    rw [List.append_nil] at h1 h2
    unfold id3Chunk
    rw [if_neg (by omega), h1]
    simp only
    unfold parseId3
    simp only [Nat.sub_zero]
    rw [h2, hun, hr k hk pad]
    rfl

theorem lead_length {po : Id3v2.ParseOpts} {b : Bytes} {t : Id3Tag} (h : LeadOf po b (some t)) : 10 ≤ b.length := by
  cases h with
  | tag fl padding body fs b hcrc hres hun hsize hb hr =>
    obtain ⟨pad, h1, h2, h3⟩ := lead_parse hcrc hres hun hsize hb []
    omega

/-- What a tag is encoded to. -/
theorem encoded_lead {o : Opts} {s : Id3Save} {b : Bytes} (hs : s.Ok o) (hb : s.encoded = .ok b) : LeadOf o.id3 b s.tag := by
  unfold Id3Save.encoded at hb
  unfold Id3Save.tag
  by_cases hf : s.frames = []
  · rw [hf] at hb
    obtain rfl := (Except.ok.injEq _ _).mp hb
    rw [if_pos hf]
    exact .none
  · rw [if_neg hf]
    rw [if_neg (by simpa using hf)] at hb
    rcases hs with hs | ⟨h1, h2, h3, h4, h5, h6, h7⟩
    · exact absurd hs hf
    · obtain ⟨body, hbody, hb⟩ := bind_ok hb
      rw [h1] at hb
      have hsz := h7 body hbody
      have hrt := Id3v2.tag_rt_v4_partial s.w o.id3 s.frames h1 h5 h6 hbody (by omega)
      exact .tag { s.fl with footer := false } s.padding body s.frames b h2 h3 h4 hsz hb hrt

theorem newChunk_isId3 {upper : Bool} {tag : Bytes} {d : Chunk} (h : d ∈ newChunk upper tag) : d.IsId3 ∧ d.2 = tag ∧ tag ≠ [] := by
  unfold newChunk at h
  split at h
  · cases h
  · rename_i ht
    rw [List.mem_singleton] at h
    subst h
    refine ⟨?_, rfl, ht⟩
    unfold Chunk.IsId3
    cases upper
    · exact .inr rfl
    · exact .inl rfl

theorem fourcc_id3 (upper : Bool) : FourCC (if upper then ascii "ID3 " else ascii "id3 ") := by
  cases upper <;> exact (validFourcc_iff rfl).mp (by decide)

theorem fourcc_junk : FourCC (ascii "JUNK") := (validFourcc_iff rfl).mp (by decide)

theorem IsInfo.not_id3 {d : Chunk} (h : d.IsId3) : ¬ IsInfo d := by
  rintro ⟨h1, -⟩
  unfold Chunk.IsId3 at h
  rw [h1] at h
  exact absurd h (by decide)

/-- Saving an ID3v2 tag: the tag is replaced, everything else is kept. -/
theorem wav_id3_run {o : Opts} {cs : List Chunk} {t : WavTags} {s : Id3Save} {b : Bytes} (hw : WavHas o cs t) (hs : s.Ok o)
    (hsafe : s.Safe true cs) (hb : s.encoded = .ok b) (hsz : (wav cs).length + b.length + 9 < 2 ^ 32) :
    ∃ cs', (WavSave.id3v2 s).run (wav cs) = .ok (wav cs') ∧ WavHas o cs' { t with id3v2 := s.tag } ∧ wavRest cs' = wavRest cs ∧
      (wav cs').length < 2 ^ 32 := by
  obtain ⟨hok, hinfo, hid⟩ := hw
  have hlead := encoded_lead hs hb
  have hrun : ∀ cs', writeChunkFile false true s.strict s.upper s.padding.isSome (wav cs) b = .ok (wav cs') →
      (WavSave.id3v2 s).run (wav cs) = .ok (wav cs') := by
    intro cs' h
    unfold WavSave.run saveId3
    unfold Id3Save.encoded at hb
    simp only
    rw [hb, ok_bind, h]
  have hnl := newChunk_length false s.upper b
  have hts : tagChunkSize b ≤ b.length + 9 := by unfold tagChunkSize; split <;> split <;> omega
  have hmagic : FourCC (ascii "RIFF") := (validFourcc_iff rfl).mp (by decide)
  -- the new chunk
  have hnew : ∀ d ∈ newChunk s.upper b, d.Ok ∧ (d.1 = ascii "LIST" → 4 ≤ d.2.length) := by
    intro d hd
    unfold newChunk at hd
    split at hd
    · cases hd
    · rw [List.mem_singleton] at hd
      subst hd
      refine ⟨⟨fourcc_id3 _, by simp only; omega⟩, fun h => absurd h ?_⟩
      show ¬ (if s.upper then ascii "ID3 " else ascii "id3 ") = ascii "LIST"
      cases s.upper <;> decide
  have hfi : (newChunk s.upper b).filter (fun d => IsInfo d) = [] := by
    rw [List.filter_eq_nil_iff]
    intro d hd
    simpa using IsInfo.not_id3 (newChunk_isId3 hd).1
  have hfr : wavRest (newChunk s.upper b) = [] := by
    unfold wavRest
    rw [List.filter_eq_nil_iff]
    intro d hd
    have := (newChunk_isId3 hd).1
    simp [this]
  have hft : ((newChunk s.upper b).filter (fun d => d.IsId3) = [] ∧ s.tag = none) ∨
      ∃ d, (newChunk s.upper b).filter (fun d => d.IsId3) = [d] ∧ ∃ n, ∀ k, n ≤ k → id3Chunk { o with depth := k } d.2 = .ok s.tag := by
    cases htag : s.tag with
    | none =>
      rw [htag] at hlead
      cases hlead
      exact .inl ⟨rfl, rfl⟩
    | some x =>
      rw [htag] at hlead
      have hne : b ≠ [] := by
        rintro rfl
        have := lead_length hlead
        simp at this
      right
      refine ⟨(if s.upper then ascii "ID3 " else ascii "id3 ", b), ?_, id3Chunk_lead hlead⟩
      unfold newChunk
      rw [if_neg hne, List.filter_cons_of_pos, List.filter_nil]
      simp only [decide_eq_true_eq]
      cases s.upper
      · exact .inr rfl
      · exact .inl rfl
  rcases hid with ⟨hid, -⟩ | ⟨d, hid, -⟩
  · -- no tag yet
    have hno : ∀ d ∈ cs, d.Ok ∧ ¬ d.IsId3 := by
      intro d hd
      have := List.filter_eq_nil_iff.mp hid d hd
      exact ⟨(hok d hd).1, by simpa using this⟩
    refine ⟨cs ++ newChunk s.upper b, hrun _ ?_, ⟨?_, ?_, ?_⟩, ?_, ?_⟩
    · exact writeChunkFile_none hmagic rfl hno hsz
    · intro e he
      rcases List.mem_append.mp he with he | he
      · exact hok e he
      · exact hnew e he
    · rw [List.filter_append, hfi, List.append_nil]; exact hinfo
    · rw [List.filter_append, hid, List.nil_append]; exact hft
    · have : wavRest (cs ++ newChunk s.upper b) = wavRest cs ++ wavRest (newChunk s.upper b) := by unfold wavRest; rw [List.filter_append]
      rw [this, hfr, List.append_nil]
    · rw [wav_length] at hsz ⊢
      rw [encAll_append, List.length_append]
      omega
  · obtain ⟨pre, post, rfl, hpre, hpost, hdi⟩ := filter_single hid
    have hdi : d.IsId3 := by simpa using hdi
    have hdn := IsInfo.not_id3 hdi
    have hpre' : ∀ e ∈ pre, e.Ok ∧ ¬ e.IsId3 := fun e he => ⟨(hok e (by simp [he])).1, by simpa using hpre e he⟩
    have hpost' : ∀ e ∈ post, e.Ok := fun e he => (hok e (by simp [he])).1
    have hrun2 := writeChunkFile_some (be := false) (isWav := true) (strict := s.strict) (upper := s.upper) (pad := s.padding.isSome)
      (form := ascii "WAVE") hmagic rfl hpre' (hok d (by simp)).1 hdi hpost' hsz (fun hne => by
        have := hsafe pre d post b rfl hdi hb hne
        exact this)
    have hf1 : pre.filter (fun d => d.IsId3) = [] := List.filter_eq_nil_iff.mpr (fun e he => by simp [hpre e he])
    have hf2 : post.filter (fun d => d.IsId3) = [] := List.filter_eq_nil_iff.mpr (fun e he => by simp [hpost e he])
    refine ⟨_, hrun _ hrun2, ?_⟩
    split
    · -- renamed
      rename_i hc
      have hbe := hc.2.2.2
      have htag : s.tag = none := by
        rcases hft with h | ⟨x, h, -⟩
        · exact h.2
        · unfold newChunk at h
          rw [if_pos hbe] at h
          simp at h
      have hjn : ¬ IsInfo (ascii "JUNK", d.2) := fun h => absurd h.1 (show ¬ ascii "JUNK" = ascii "LIST" by decide)
      have hji : ¬ Chunk.IsId3 (ascii "JUNK", d.2) :=
        show ¬ (ascii "JUNK" = ascii "ID3 " ∨ ascii "JUNK" = ascii "id3 ") by decide
      refine ⟨⟨?_, ?_, ?_⟩, ?_, ?_⟩
      · intro e he
        simp only [List.mem_append, List.mem_cons] at he
        rcases he with he | rfl | he
        · exact hok e (by simp [he])
        · exact ⟨⟨fourcc_junk, (hok d (by simp)).1.2⟩, fun h => absurd h (show ¬ ascii "JUNK" = ascii "LIST" by decide)⟩
        · exact hok e (by simp [he])
      · rw [List.filter_append, List.filter_cons_of_neg (by simpa using hjn)]
        rw [List.filter_append, List.filter_cons_of_neg (by simpa using hdn)] at hinfo
        exact hinfo
      · left
        rw [List.filter_append, List.filter_cons_of_neg (by simpa using hji), hf1, hf2]
        exact ⟨rfl, htag⟩
      · unfold wavRest
        rw [List.filter_append, List.filter_append, List.filter_cons_of_neg (by simp), List.filter_cons_of_neg (by simp [hdi])]
      · rw [wav_length, encAll_append, encAll_cons, List.length_append, List.length_append] at hsz ⊢
        have h1 := enc_length false d
        have h2 := enc_length false (ascii "JUNK", d.2)
        have h4 := (hok d (by simp)).1.1.1
        have h5 : (ascii "JUNK").length = 4 := rfl
        simp only at h2
        omega
    · refine ⟨⟨?_, ?_, ?_⟩, ?_, ?_⟩
      · intro e he
        simp only [List.mem_append] at he
        rcases he with (he | he) | he
        · exact hok e (by simp [he])
        · exact hok e (by simp [he])
        · exact hnew e he
      · rw [List.filter_append, List.filter_append, hfi, List.append_nil]
        rw [List.filter_append, List.filter_cons_of_neg (by simpa using hdn)] at hinfo
        exact hinfo
      · rw [List.filter_append, List.filter_append, hf1, hf2]
        exact hft
      · have : wavRest (pre ++ post ++ newChunk s.upper b) = wavRest pre ++ wavRest post ++ wavRest (newChunk s.upper b) := by
          unfold wavRest; rw [List.filter_append, List.filter_append]
        rw [this, hfr, List.append_nil]
        unfold wavRest
        rw [List.filter_append, List.filter_cons_of_neg (by simp [hdi])]
      · rw [wav_length] at hsz ⊢
        rw [encAll_append, encAll_cons, List.length_append, List.length_append] at hsz
        rw [encAll_append, encAll_append, List.length_append, List.length_append]
        omega

theorem createInfo_length {items : List Item} {b : Bytes} (hk : ∀ i ∈ items, FourCC (utf8 i.1)) (h : createInfo items = .ok b) :
    b.length = (encAll false (written items)).length := by
  unfold createInfo at h
  unfold written
  by_cases hi : items = []
  · subst hi
    obtain rfl := (Except.ok.injEq _ _).mp h
    rfl
  · rw [if_neg (by simpa using hi)] at h
    simp only at h
    rw [flatMap_infoItem] at h
    split at h
    · cases h
    obtain rfl := (Except.ok.injEq _ _).mp h
    have hev : (encAll false ((items.filter fun i => !i.2.isEmpty).map infoChunk)).length % 2 = 0 := by
      apply encAll_even
      intro d hd
      obtain ⟨i, hi, rfl⟩ := List.mem_map.mp hd
      exact (hk i (List.mem_filter.mp hi).1).1
    rw [if_neg hi, encAll_cons, encAll_nil, List.append_nil, enc_length]
    simp only [infoList, List.length_append, leBytes_length, ascii_info_length]
    generalize (encAll false ((items.filter fun i => !i.2.isEmpty).map infoChunk)).length = n at hev ⊢
    rw [show (4 + n) % 2 = 0 by omega]
    omega

theorem infoList_isInfo (items : List Item) (junk : Bytes) : IsInfo (infoListWith items junk) := by
  refine ⟨rfl, ?_⟩
  show (ascii "INFO" ++ _).take 4 = ascii "INFO"
  rw [List.take_left' ascii_info_length]

/-- Saving an INFO list: the list is replaced, everything else is kept. -/
theorem wav_info_run {o : Opts} {cs : List Chunk} {t : WavTags} {strict : Bool} {items : List Item} {b : Bytes} (hw : WavHas o cs t)
    (hit : ∀ i ∈ items, ItemOk i) (hb : createInfo items = .ok b) (hsz : (wav cs).length + b.length + 9 < 2 ^ 32) :
    ∃ cs', writeInfo strict (wav cs) items = .ok (wav cs') ∧ WavHas o cs' { t with info := items.filter fun i => !i.2.isEmpty } ∧
      wavRest cs' = wavRest cs ∧ (wav cs').length < 2 ^ 32 := by
  obtain ⟨hok, hinfo, hid⟩ := hw
  have hk : ∀ i ∈ items, FourCC (utf8 i.1) := fun i hi => (hit i hi).1
  have hbl := createInfo_length hk hb
  rw [wav_length] at hsz
  -- the new chunk
  have hnew : ∀ d ∈ written items, d.Ok ∧ (d.1 = ascii "LIST" → 4 ≤ d.2.length) := by
    intro d hd
    have hl : (enc false d).length ≤ (encAll false (written items)).length := by
      obtain ⟨x, y, hxy⟩ := List.append_of_mem hd
      rw [hxy, encAll_append, encAll_cons]
      simp; omega
    have hel := enc_length false d
    unfold written at hd
    split at hd
    · cases hd
    · rw [List.mem_singleton] at hd
      subst hd
      refine ⟨⟨fourcc_list, by omega⟩, fun _ => ?_⟩
      simp [infoList, ascii_info_length]
  have hfi : (written items).filter (fun d => IsInfo d) = written items := by
    rw [List.filter_eq_self]
    intro d hd
    unfold written at hd
    split at hd
    · cases hd
    · rw [List.mem_singleton] at hd
      subst hd
      have := infoList_isInfo (items.filter fun i => !i.2.isEmpty) []
      rw [infoListWith_nil] at this
      simpa using this
  have hni : ∀ d ∈ written items, IsInfo d := by
    intro d hd
    rw [← hfi] at hd
    simpa using (List.mem_filter.mp hd).2
  have hft : (written items).filter (fun d => d.IsId3) = [] := by
    rw [List.filter_eq_nil_iff]
    intro d hd
    have := hni d hd
    have : ¬ d.IsId3 := fun h => IsInfo.not_id3 h this
    simpa using this
  have hfr : wavRest (written items) = [] := by
    unfold wavRest
    rw [List.filter_eq_nil_iff]
    intro d hd
    simp [hni d hd]
  have hres : (written items = [] ∧ (items.filter fun i => !i.2.isEmpty) = []) ∨
      ∃ junk, written items = [infoListWith (items.filter fun i => !i.2.isEmpty) junk] ∧ junk.length < 8 ∧ junk.length % 2 = 0 ∧
        ∀ i ∈ (items.filter fun i => !i.2.isEmpty), ItemOk i := by
    unfold written
    by_cases hi : items = []
    · subst hi; exact .inl ⟨rfl, rfl⟩
    · right
      refine ⟨[], ?_, by decide, rfl, fun i hi => hit i (List.mem_filter.mp hi).1⟩
      rw [if_neg hi, infoListWith_nil]
  rcases hinfo with ⟨hinfo, -⟩ | ⟨junk, hinfo, hj1, hj2, hj3⟩
  · have hplain : ∀ d ∈ cs, d.Plain := by
      intro d hd
      obtain ⟨h1, h2⟩ := hok d hd
      refine ⟨h1, fun hL => ⟨h2 hL, fun hI => ?_⟩⟩
      have := List.filter_eq_nil_iff.mp hinfo d hd
      exact absurd (show IsInfo d from ⟨hL, hI⟩) (by simpa using this)
    have hrun := writeInfo_append strict cs [] items hplain hk (by rw [wav_length]; omega)
      (by rw [encAll_append, List.length_append]; omega)
    rw [List.append_nil, List.append_nil] at hrun
    refine ⟨_, hrun, ⟨?_, ?_, ?_⟩, ?_, ?_⟩
    · intro e he
      rcases List.mem_append.mp he with he | he
      · exact hok e he
      · exact hnew e he
    · rw [List.filter_append, hinfo, hfi, List.nil_append]; exact hres
    · rw [List.filter_append, hft, List.append_nil]; exact hid
    · have : wavRest (cs ++ written items) = wavRest cs ++ wavRest (written items) := by unfold wavRest; rw [List.filter_append]
      rw [this, hfr, List.append_nil]
    · rw [wav_length, encAll_append, List.length_append]
      omega
  · obtain ⟨pre, post, rfl, hpre, hpost, -⟩ := filter_single hinfo
    have hplain : ∀ d ∈ pre, d.Plain := by
      intro d hd
      obtain ⟨h1, h2⟩ := hok d (by simp [hd])
      refine ⟨h1, fun hL => ⟨h2 hL, fun hI => ?_⟩⟩
      have := hpre d hd
      exact absurd (show IsInfo d from ⟨hL, hI⟩) (by simpa using this)
    have hev : (encAll false (t.info.map infoChunk)).length % 2 = 0 := by
      apply encAll_even
      intro d hd
      obtain ⟨i, hi, rfl⟩ := List.mem_map.mp hd
      exact (hj3 i hi).1.1
    have hdi := infoList_isInfo t.info junk
    have hdt : ¬ (infoListWith t.info junk).IsId3 := fun h => IsInfo.not_id3 h hdi
    have hsp : (encAll false (pre ++ infoListWith t.info junk :: post)).length
        = (encAll false pre).length + ((enc false (infoListWith t.info junk)).length + (encAll false post).length) := by
      rw [encAll_append, encAll_cons]; simp
    have hrun := writeInfo_replace_partial strict pre post (encAll false (t.info.map infoChunk) ++ junk) [] items hplain
      (by rw [List.length_append]; omega) hk (by
        rw [wav_length]
        show 12 + (encAll false (pre ++ infoListWith t.info junk :: post)).length < _
        omega)
      (by rw [encAll_append, encAll_append, List.length_append, List.length_append]; omega)
    rw [List.append_nil, List.append_nil] at hrun
    have hf1 : pre.filter (fun d => IsInfo d) = [] := List.filter_eq_nil_iff.mpr (fun e he => by simp [hpre e he])
    have hf2 : post.filter (fun d => IsInfo d) = [] := List.filter_eq_nil_iff.mpr (fun e he => by simp [hpost e he])
    refine ⟨_, hrun, ⟨?_, ?_, ?_⟩, ?_, ?_⟩
    · intro e he
      simp only [List.mem_append] at he
      rcases he with (he | he) | he
      · exact hok e (by simp [he])
      · exact hnew e he
      · exact hok e (by simp [he])
    · rw [List.filter_append, List.filter_append, hf1, hf2, hfi, List.nil_append, List.append_nil]; exact hres
    · rw [List.filter_append, List.filter_append, hft, List.append_nil]
      rw [List.filter_append, List.filter_cons_of_neg (by simpa using hdt)] at hid
      exact hid
    · have : wavRest (pre ++ written items ++ post) = wavRest pre ++ wavRest (written items) ++ wavRest post := by
        unfold wavRest; rw [List.filter_append, List.filter_append]
      rw [this, hfr, List.append_nil]
      unfold wavRest
      rw [List.filter_append, List.filter_cons_of_neg (by simp [hdi])]
    · rw [wav_length, encAll_append, encAll_append, List.length_append, List.length_append]
      omega

/-! ## AIFF -/

/-- What one chunk changes of what is collected for the properties. -/
def aiffAudio (props : Bool) (a : AiffAudio) (d : Chunk) : Except Err AiffAudio :=
  if props then
    if d.1 = ascii "COMM" then
      if a.comm = none then (if d.2.length < 18 then .error .notEnough else .ok { a with comm := some d.2 }) else .ok a
    else if d.1 = ascii "SSND" then .ok { a with stream := d.2.length }
    else .ok a
  else .ok a

theorem id3_not_text {d : Chunk} (h : d.IsId3) : ¬ d.IsText := by
  unfold Chunk.IsText
  rcases h with h | h <;> rw [h] <;> decide

theorem aiff_id3_step {o : Opts} (ho : o.readTags = true) {d : Chunk} {x : Option Id3Tag} {t : Nat} (hok : d.Ok) (hT : d.IsId3)
    (hx : id3Chunk o d.2 = .ok x) (a : AiffAcc) : Step true (aiffChunk o) t d a (.ok { a with id3v2 := addTag a.id3v2 x }) := by
  refine Step.inside hok.1.1 _ (Nat.le_refl _) fun f pre rest R start hf => ?_
  unfold aiffChunk
  have hT' : d.1 = ascii "ID3 " ∨ d.1 = ascii "id3 " := hT
  simp only
  rw [if_pos ⟨hT', ho⟩, readAll (be := true) (d := d) (a := pre) hf hok.1.1, ok_bind]
  simp only
  rw [hx, ok_bind, Nat.sub_self]

theorem aiff_text_step {o : Opts} (ho : o.readTags = true) {d : Chunk} {t : Nat} (hok : d.Ok) (hT : d.IsText) {x y : Iff.AiffAcc}
    (h : Iff.Step (decide (o.id3.mode = .strict)) (fun _ => .ok ()) d x y) (a : AiffAcc) (ha : a.text = x) :
    Step true (aiffChunk o) t d a (.ok { a with text := y }) := by
  intro f pre rest R start hf ht
  have hel := enc_length true d
  have h4 := hok.1.1
  obtain ⟨j, hj, hs⟩ := h pre rest f t R start none hf
  have hr : (enc true d).length + R - 8 = R + d.2.length + d.2.length % 2 := by omega
  have n0 : ¬ ((d.1 = ascii "ID3 " ∨ d.1 = ascii "id3 ") ∧ o.readTags = true) := fun h => id3_not_text h.1 hT
  have n1 : ¬ (d.1 = ascii "COMM" ∧ o.readProps = true ∧ a.audio.comm = none) := fun h => comm_not_text h.1 hT
  have n2 : ¬ (d.1 = ascii "SSND" ∧ o.readProps = true) := by
    intro h
    unfold Chunk.IsText at hT
    rw [h.1] at hT
    exact absurd hT (by decide)
  refine ⟨_, ?_, rfl, rfl, rfl, pend_inside hf h4 hj⟩
  unfold aiffChunk
  simp only
  rw [if_neg n0, if_neg n1, if_neg n2, if_pos ho, hr, ha, hs, ok_bind]
  simp only
  rw [show R + d.2.length + d.2.length % 2 - j = R + (d.2.length - j) + d.2.length % 2 by omega]

theorem aiff_audio_step {o : Opts} (ho : o.readTags = true) {d : Chunk} {t : Nat} (hok : d.Ok) (hT : ¬ d.IsText) (hI : ¬ d.IsId3) (a : AiffAcc) :
    Step true (aiffChunk o) t d a (do let p ← aiffAudio o.readProps a.audio d; .ok { a with audio := p }) := by
  have h4 := hok.1.1
  have n0 : ¬ ((d.1 = ascii "ID3 " ∨ d.1 = ascii "id3 ") ∧ o.readTags = true) := fun h => hI h.1
  have hplain : ∀ c start, Iff.aiffChunk (decide (o.id3.mode = .strict)) (fun _ => .ok ()) ⟨d.1, d.2.length, start⟩ c a.text = .ok (c, a.text) := by
    intro c start
    unfold Iff.aiffChunk
    unfold Chunk.IsText at hT
    simp only [not_or] at hT
    obtain ⟨t1, t2, t3, t4, t5⟩ := hT
    simp only [t1, t2, t3, t4, t5, false_and, if_false]
    exact if_neg hI
  unfold aiffAudio
  by_cases hp : o.readProps = true
  · rw [if_pos hp]
    by_cases hC : d.1 = ascii "COMM"
    · rw [if_pos hC]
      by_cases h0 : a.audio.comm = none
      · rw [if_pos h0]
        by_cases h18 : d.2.length < 18
        · rw [if_pos h18, error_bind]
          refine Step.fail fun f pre rest R start hf => ?_
          unfold aiffChunk
          simp only
          rw [if_neg n0, if_pos ⟨hC, hp, h0⟩, if_pos h18]
        · rw [if_neg h18, ok_bind]
          refine Step.inside h4 _ (Nat.le_refl _) fun f pre rest R start hf => ?_
          unfold aiffChunk
          simp only
          rw [if_neg n0, if_pos ⟨hC, hp, h0⟩, if_neg h18, readAll (be := true) (d := d) (a := pre) hf h4, ok_bind, Nat.sub_self]
      · rw [if_neg h0, ok_bind]
        refine Step.stay h4 fun c start => ?_
        have n1 : ¬ (d.1 = ascii "COMM" ∧ o.readProps = true ∧ a.audio.comm = none) := fun h => h0 h.2.2
        have n2 : ¬ (d.1 = ascii "SSND" ∧ o.readProps = true) := by rw [hC]; exact fun h => absurd h.1 (by decide)
        unfold aiffChunk
        simp only
        rw [if_neg n0, if_neg n1, if_neg n2, if_pos ho, hplain, ok_bind]
    · rw [if_neg hC]
      have n1 : ¬ (d.1 = ascii "COMM" ∧ o.readProps = true ∧ a.audio.comm = none) := fun h => hC h.1
      by_cases hS : d.1 = ascii "SSND"
      · rw [if_pos hS, ok_bind]
        refine Step.stay h4 fun c start => ?_
        unfold aiffChunk
        simp only
        rw [if_neg n0, if_neg n1, if_pos ⟨hS, hp⟩]
      · rw [if_neg hS, ok_bind]
        refine Step.stay h4 fun c start => ?_
        have n2 : ¬ (d.1 = ascii "SSND" ∧ o.readProps = true) := fun h => hS h.1
        unfold aiffChunk
        simp only
        rw [if_neg n0, if_neg n1, if_neg n2, if_pos ho, hplain, ok_bind]
  · rw [if_neg hp, ok_bind]
    refine Step.stay h4 fun c start => ?_
    have n1 : ¬ (d.1 = ascii "COMM" ∧ o.readProps = true ∧ a.audio.comm = none) := fun h => hp h.2.1
    have n2 : ¬ (d.1 = ascii "SSND" ∧ o.readProps = true) := fun h => hp h.2
    unfold aiffChunk
    simp only
    rw [if_neg n0, if_neg n1, if_neg n2, if_pos ho, hplain, ok_bind]

/-- Audio, text and ID3v2 tags do not depend on each other. -/
theorem aiff_steps {o : Opts} (ho : o.readTags = true) {t : Nat} {tags : Chunk → Option Id3Tag} {y : Iff.AiffAcc} : ∀ (cs : List Chunk) (a : AiffAcc),
    (∀ d ∈ cs, d.Ok) → (∀ d ∈ cs, d.IsId3 → id3Chunk o d.2 = .ok (tags d)) →
    Iff.Steps (decide (o.id3.mode = .strict)) (fun _ => .ok ()) (cs.filter fun d => d.IsText) a.text y →
    Steps true (aiffChunk o) t cs a (do
      let p ← (aiffRest cs).foldlM (aiffAudio o.readProps) a.audio
      .ok ⟨p, y, (cs.filter fun d => d.IsId3).foldl (fun t d => addTag t (tags d)) a.id3v2⟩) := by
  intro cs
  induction cs with
  | nil =>
    intro a _ _ h
    simp only [List.filter_nil] at h
    cases h
    exact .nil a
  | cons d cs ih =>
    intro a hok htag h
    have ih := fun a => ih a (fun e he => hok e (by simp [he])) (fun e he => htag e (by simp [he]))
    have hd := hok d (by simp)
    by_cases hT : d.IsText
    · have hI : ¬ d.IsId3 := fun h => id3_not_text h hT
      rw [List.filter_cons_of_pos (by simpa using hT)] at h
      obtain ⟨z, -, hz, h⟩ := h
      have hw : aiffRest (d :: cs) = aiffRest cs := by unfold aiffRest; rw [List.filter_cons_of_neg (by simp [hT])]
      rw [hw, List.filter_cons_of_neg (by simpa using hI)]
      exact .cons hd (aiff_text_step ho hd hT hz a rfl) (ih { a with text := z } h)
    · rw [List.filter_cons_of_neg (by simpa using hT)] at h
      by_cases hI : d.IsId3
      · have hw : aiffRest (d :: cs) = aiffRest cs := by unfold aiffRest; rw [List.filter_cons_of_neg (by simp [hI])]
        rw [hw, List.filter_cons_of_pos (by simpa using hI)]
        exact .cons hd (aiff_id3_step ho hd hI (htag d (by simp) hI) a) (ih { a with id3v2 := addTag a.id3v2 (tags d) } h)
      · have hw : aiffRest (d :: cs) = d :: aiffRest cs := by unfold aiffRest; rw [List.filter_cons_of_pos (by simp [hI, hT])]
        rw [hw, List.filter_cons_of_neg (by simpa using hI), List.foldlM_cons]
        have hs := aiff_audio_step (t := t) ho hd hT hI a
        cases hp : aiffAudio o.readProps a.audio d with
        | error e =>
          rw [hp] at hs
          exact .stop hd hs
        | ok p =>
          rw [hp] at hs
          exact .cons hd hs (ih { a with audio := p } h)

/-- The result of the reader from what it has collected. -/
def aiffDone (o : Opts) (form : Bytes) (a : AiffAudio) (text : Aiff) (id3v2 : Option Id3Tag) (len : Nat) : Except Err AiffFile :=
  if o.readProps then do
    let p ← aiffProps a (decide (form = ascii "AIFC")) len
    .ok ⟨some p, text, id3v2⟩
  else .ok ⟨none, text, id3v2⟩

/-- Reading an AIFF file. -/
theorem readAiff_chunks {o : Opts} (ho : o.readTags = true) {form : Bytes} (hform : form = ascii "AIFF" ∨ form = ascii "AIFC")
    {cs : List Chunk} {x : Aiff} {tags : Chunk → Option Id3Tag} (hok : ∀ d ∈ cs, d.Ok)
    (htag : ∀ d ∈ cs, d.IsId3 → id3Chunk o d.2 = .ok (tags d)) (htext : cs.filter (fun d => d.IsText) = textChunks x) (hf : x.Fits) (hc : x.Clean) :
    readAiff o (aiff form cs) = (do
      let a ← (aiffRest cs).foldlM (aiffAudio o.readProps) ⟨none, 0⟩
      aiffDone o form a x.normal ((cs.filter fun d => d.IsId3).foldl (fun t d => addTag t (tags d)) none) (aiff form cs).length) := by
  have hfl : form.length = 4 := by rcases hform with rfl | rfl <;> rfl
  have hl := aiff_length hfl cs
  have hs := aiff_split form cs
  have hpl := aiff_prefix_length hfl (4 + (encAll true cs).length)
  have hle := length_le_encAll true cs
  have hstp := aiff_steps (t := (encAll true cs).length) ho (tags := tags) cs ⟨⟨none, 0⟩, ⟨none, none, none, [], []⟩, none⟩ hok htag
    (by rw [htext]; exact steps_textChunks x hf hc)
  have hty : ((aiff form cs).drop 8).take 4 = form := by
    rw [hs, show ascii "FORM" ++ (beBytes 4 (4 + (encAll true cs).length) ++ form) ++ encAll true cs
      = (ascii "FORM" ++ beBytes 4 (4 + (encAll true cs).length)) ++ (form ++ encAll true cs) by simp,
      List.drop_left' (by rw [List.length_append, beBytes_length]; rfl), List.take_left' hfl]
  unfold readAiff
  rw [verifyAiff_aiff cs hform, ok_bind]
  simp only
  rw [hty, show (aiff form cs).length - 12 = (encAll true cs).length by omega]
  have hpf := pend_fresh (Chunks.new (aiff form cs) 12 (encAll true cs).length) rfl rfl
  rw [chunkLoop_steps hstp ((encAll true cs).length + 1) (Chunks.new (aiff form cs) 12 (encAll true cs).length)
    (ascii "FORM" ++ (beBytes 4 (4 + (encAll true cs).length) ++ form)) [] (by omega) rfl rfl (by rw [List.append_nil]; exact hs)
    (by rw [hpl]; exact hpf) (Nat.le_refl _)]
  cases (aiffRest cs).foldlM (aiffAudio o.readProps) ⟨none, 0⟩ with
  | error e => rfl
  | ok a =>
    rw [ok_bind, ok_bind, ok_bind, ok_bind]
    simp only
    unfold aiffDone
    rw [hpl, ← hl, filter_ne_nil, filter_ne_nil]
    rfl

theorem aiff_file {comm : Bytes} {aifc : Bool} {stream n m : Nat} {p : Lossless.Aiff} (h : Lossless.aiff comm aifc stream n = .ok p) :
    ∃ q, Lossless.aiff comm aifc stream m = .ok q ∧ { q with overall := p.overall } = p := by
  unfold Lossless.aiff at h ⊢
  obtain ⟨⟨ch, r1⟩, h1, h⟩ := bind_ok h
  rw [h1, ok_bind]
  simp only at h ⊢
  split at h
  · cases h
  rename_i hc
  rw [if_neg hc]
  obtain ⟨⟨fr, r2⟩, h2, h⟩ := bind_ok h
  rw [h2, ok_bind]
  simp only at h ⊢
  obtain ⟨⟨sz, r3⟩, h3, h⟩ := bind_ok h
  rw [h3, ok_bind]
  simp only at h ⊢
  obtain ⟨⟨b, r4⟩, h4, h⟩ := bind_ok h
  rw [h4, ok_bind]
  simp only at h ⊢
  obtain ⟨rate, h5, h⟩ := bind_ok h
  rw [h5, ok_bind]
  by_cases hr : 0 < rate ∧ 0 < fr
  · rw [if_pos hr] at h ⊢
    simp only at h ⊢
    split at h
    · rename_i hx
      rw [if_pos hx]
      obtain ⟨c, h6, h⟩ := bind_ok h
      rw [h6, ok_bind]
      obtain rfl := (Except.ok.injEq _ _).mp h
      exact ⟨_, rfl, rfl⟩
    · rename_i hx
      rw [if_neg hx]
      obtain rfl := (Except.ok.injEq _ _).mp h
      exact ⟨_, rfl, rfl⟩
  · rw [if_neg hr] at h ⊢
    exact ⟨p, h, rfl⟩

/-! ## The saves of AIFF files -/

theorem filter_not_nil {α : Type} {p : α → Bool} : ∀ {l : List α}, l.filter p ≠ [] →
    ∃ pre x post, l = pre ++ x :: post ∧ (∀ y ∈ pre, p y = false) ∧ p x = true := by
  intro l
  induction l with
  | nil => intro h; simp at h
  | cons a l ih =>
    intro h
    by_cases ha : p a = true
    · exact ⟨[], a, l, rfl, by simp, ha⟩
    · rw [List.filter_cons_of_neg ha] at h
      obtain ⟨pre, x, post, rfl, h1, h2⟩ := ih h
      refine ⟨a :: pre, x, post, rfl, ?_, h2⟩
      intro y hy
      rcases List.mem_cons.mp hy with rfl | hy
      · simpa using ha
      · exact h1 y hy

theorem last_of {α : Type} {p : α → Bool} : ∀ {l : List α}, (∃ x ∈ l, p x = true) →
    ∃ pre x post, l = pre ++ x :: post ∧ p x = true ∧ ∀ y ∈ post, p y = false := by
  intro l
  induction l with
  | nil => rintro ⟨x, h, -⟩; cases h
  | cons a l ih =>
    rintro ⟨x, hx, hp⟩
    by_cases hl : ∃ x ∈ l, p x = true
    · obtain ⟨pre, x, post, rfl, h1, h2⟩ := ih hl
      exact ⟨a :: pre, x, post, rfl, h1, h2⟩
    · rcases List.mem_cons.mp hx with rfl | hx
      · refine ⟨[], x, l, rfl, hp, fun y hy => ?_⟩
        by_cases hy' : p y = true
        · exact absurd ⟨y, hy, hy'⟩ hl
        · simpa using hy'
      · exact absurd ⟨x, hx, hp⟩ hl

theorem textChunks_isText (t : Aiff) : ∀ d ∈ textChunks t, d.IsText := by
  intro d hd
  unfold textChunks at hd
  simp only [List.mem_append, List.mem_map] at hd
  unfold Chunk.IsText
  rcases hd with (((hd | ⟨s, -, rfl⟩) | ⟨s, -, rfl⟩) | ⟨s, -, rfl⟩) | ⟨s, -, rfl⟩
  · split at hd
    · cases hd
    · rw [List.mem_singleton] at hd
      subst hd
      simp [comtChunk]
  all_goals simp

theorem textChunks_ok {t : Aiff} (h : t.Fits) : ∀ d ∈ textChunks t, d.Ok := by
  intro d hd
  refine ⟨?_, h.2.2 d hd⟩
  obtain ⟨k1, k2, k3, k4, k5⟩ := fourcc_text
  rcases textChunks_isText t d hd with h | h | h | h | h <;> rw [h] <;> assumption

/-- Saving an ID3v2 tag: the tag is replaced, everything else is kept. -/
theorem aiff_id3_run {o : Opts} {form : Bytes} {cs : List Chunk} {t : AiffTags} {s : Id3Save} {b : Bytes}
    (hform : form = ascii "AIFF" ∨ form = ascii "AIFC") (hw : AiffHas o cs t) (hs : s.Ok o)
    (hsafe : s.Safe false cs) (hb : s.encoded = .ok b) (hsz : (aiff form cs).length + b.length + 9 < 2 ^ 32) :
    ∃ cs', (AiffSave.id3v2 s).run (aiff form cs) = .ok (aiff form cs') ∧ AiffHas o cs' { t with id3v2 := s.tag } ∧
      aiffRest cs' = aiffRest cs := by
  obtain ⟨hok, hcomm, htext, hid⟩ := hw
  have hfl : form.length = 4 := by rcases hform with rfl | rfl <;> rfl
  have hlead := encoded_lead hs hb
  have hrun : ∀ cs', writeChunkFile true false s.strict s.upper s.padding.isSome (aiff form cs) b = .ok (aiff form cs') →
      (AiffSave.id3v2 s).run (aiff form cs) = .ok (aiff form cs') := by
    intro cs' h
    unfold AiffSave.run saveId3
    unfold Id3Save.encoded at hb
    simp only
    rw [hb, ok_bind, h]
  have hmagic : FourCC (ascii "FORM") := (validFourcc_iff rfl).mp (by decide)
  -- the new chunk
  have hnew : ∀ d ∈ newChunk s.upper b, d.Ok := by
    intro d hd
    unfold newChunk at hd
    split at hd
    · cases hd
    · rw [List.mem_singleton] at hd
      subst hd
      exact ⟨fourcc_id3 _, by simp only; omega⟩
  have hfi : (newChunk s.upper b).filter (fun d => d.IsText) = [] := by
    rw [List.filter_eq_nil_iff]
    intro d hd
    simpa using id3_not_text (newChunk_isId3 hd).1
  have hfr : aiffRest (newChunk s.upper b) = [] := by
    unfold aiffRest
    rw [List.filter_eq_nil_iff]
    intro d hd
    have := (newChunk_isId3 hd).1
    simp [this]
  have hft : ((newChunk s.upper b).filter (fun d => d.IsId3) = [] ∧ s.tag = none) ∨
      ∃ d, (newChunk s.upper b).filter (fun d => d.IsId3) = [d] ∧ ∃ n, ∀ k, n ≤ k → id3Chunk { o with depth := k } d.2 = .ok s.tag := by
    cases htag : s.tag with
    | none =>
      rw [htag] at hlead
      cases hlead
      exact .inl ⟨rfl, rfl⟩
    | some x =>
      rw [htag] at hlead
      have hne : b ≠ [] := by
        rintro rfl
        have := lead_length hlead
        simp at this
      right
      refine ⟨(if s.upper then ascii "ID3 " else ascii "id3 ", b), ?_, id3Chunk_lead hlead⟩
      unfold newChunk
      rw [if_neg hne, List.filter_cons_of_pos, List.filter_nil]
      simp only [decide_eq_true_eq]
      cases s.upper
      · exact .inr rfl
      · exact .inl rfl
  rcases hid with ⟨hid, -⟩ | ⟨d, hid, -⟩
  · have hno : ∀ d ∈ cs, d.Ok ∧ ¬ d.IsId3 := by
      intro d hd
      have := List.filter_eq_nil_iff.mp hid d hd
      exact ⟨hok d hd, by simpa using this⟩
    refine ⟨cs ++ newChunk s.upper b, hrun _ ?_, ⟨?_, ?_, ?_, ?_⟩, ?_⟩
    · exact writeChunkFile_none hmagic hfl hno hsz
    · intro e he
      rcases List.mem_append.mp he with he | he
      · exact hok e he
      · exact hnew e he
    · obtain ⟨e, he, hc⟩ := hcomm
      exact ⟨e, by simp [he], hc⟩
    · rw [List.filter_append, hfi, List.append_nil]; exact htext
    · rw [List.filter_append, hid, List.nil_append]; exact hft
    · have : aiffRest (cs ++ newChunk s.upper b) = aiffRest cs ++ aiffRest (newChunk s.upper b) := by unfold aiffRest; rw [List.filter_append]
      rw [this, hfr, List.append_nil]
  · obtain ⟨pre, post, rfl, hpre, hpost, hdi⟩ := filter_single hid
    have hdi : d.IsId3 := by simpa using hdi
    have hdn := id3_not_text hdi
    have hpre' : ∀ e ∈ pre, e.Ok ∧ ¬ e.IsId3 := fun e he => ⟨hok e (by simp [he]), by simpa using hpre e he⟩
    have hpost' : ∀ e ∈ post, e.Ok := fun e he => hok e (by simp [he])
    have hrun2 := writeChunkFile_some (be := true) (isWav := false) (strict := s.strict) (upper := s.upper) (pad := s.padding.isSome)
      (form := form) hmagic hfl hpre' (hok d (by simp)) hdi hpost' hsz (fun hne => by
        have := hsafe pre d post b rfl hdi hb hne
        exact this)
    rw [if_neg (show ¬ (post ≠ [] ∧ false = true ∧ s.padding.isSome = true ∧ b = []) from fun h => by simp at h)] at hrun2
    have hf1 : pre.filter (fun d => d.IsId3) = [] := List.filter_eq_nil_iff.mpr (fun e he => by simp [hpre e he])
    have hf2 : post.filter (fun d => d.IsId3) = [] := List.filter_eq_nil_iff.mpr (fun e he => by simp [hpost e he])
    refine ⟨_, hrun _ hrun2, ⟨?_, ?_, ?_, ?_⟩, ?_⟩
    · intro e he
      simp only [List.mem_append] at he
      rcases he with (he | he) | he
      · exact hok e (by simp [he])
      · exact hok e (by simp [he])
      · exact hnew e he
    · obtain ⟨e, he, hc⟩ := hcomm
      simp only [List.mem_append, List.mem_cons] at he
      rcases he with he | rfl | he
      · exact ⟨e, by simp [he], hc⟩
      · unfold Chunk.IsId3 at hdi
        rw [hc] at hdi
        exact absurd hdi (by decide)
      · exact ⟨e, by simp [he], hc⟩
    · rw [List.filter_append, List.filter_append, hfi, List.append_nil]
      rw [List.filter_append, List.filter_cons_of_neg (by simpa using hdn)] at htext
      exact htext
    · rw [List.filter_append, List.filter_append, hf1, hf2]
      exact hft
    · have : aiffRest (pre ++ post ++ newChunk s.upper b) = aiffRest pre ++ aiffRest post ++ aiffRest (newChunk s.upper b) := by
        unfold aiffRest; rw [List.filter_append, List.filter_append]
      rw [this, hfr, List.append_nil]
      unfold aiffRest
      rw [List.filter_append, List.filter_cons_of_neg (by simp [hdi])]

/-- Saving the text chunks: they are replaced, everything else is kept. -/
theorem aiff_text_run {o : Opts} {form : Bytes} {cs : List Chunk} {t : AiffTags} {strict : Bool} {x : Aiff} {b : Bytes}
    (hform : form = ascii "AIFF" ∨ form = ascii "AIFC") (hw : AiffHas o cs t) (hx : x.Fits) (hc : x.Clean)
    (hb : createText x = .ok b) (hsz : (aiff form cs).length + b.length + 9 < 2 ^ 32) :
    ∃ cs', writeAiff strict (aiff form cs) x = .ok (aiff form cs') ∧ AiffHas o cs' { t with text := x.normal } ∧
      aiffRest cs' = aiffRest cs := by
  obtain ⟨hok, hcomm, ⟨y, htext, -⟩, hid⟩ := hw
  have hfl : form.length = 4 := by rcases hform with rfl | rfl <;> rfl
  rw [aiff_length hfl] at hsz
  rw [createText_spec x hx] at hb
  obtain rfl := (Except.ok.injEq _ _).mp hb
  have hT := textChunks_isText x
  have hfi : (textChunks x).filter (fun d => d.IsText) = textChunks x := by
    rw [List.filter_eq_self]
    intro d hd
    simpa using hT d hd
  have hft : (textChunks x).filter (fun d => d.IsId3) = [] := by
    rw [List.filter_eq_nil_iff]
    intro d hd
    have : ¬ d.IsId3 := fun h => id3_not_text h (hT d hd)
    simpa using this
  have hfr : aiffRest (textChunks x) = [] := by
    unfold aiffRest
    rw [List.filter_eq_nil_iff]
    intro d hd
    simp [hT d hd]
  by_cases hnone : cs.filter (fun d => d.IsText) = []
  · have hno : ∀ d ∈ cs, ¬ d.IsText := by
      intro d hd
      have := List.filter_eq_nil_iff.mp hnone d hd
      simpa using this
    obtain ⟨pre, c, post, rfl, hc1, hc2⟩ := last_of (p := fun d : Chunk => decide (d.1 = ascii "COMM")) (l := cs)
      (by obtain ⟨d, h1, h2⟩ := hcomm; exact ⟨d, h1, by simpa using h2⟩)
    have hc1 : c.1 = ascii "COMM" := by simpa using hc1
    have hlen : ∀ l : List Chunk, (encAll true (pre ++ c :: (l ++ post))).length = (encAll true (pre ++ c :: post)).length + (encAll true l).length := by
      intro l
      simp only [encAll_append, encAll_cons, List.length_append]
      omega
    have hrun := writeAiff_insert strict form pre post c x hform hx hok hc1 (fun d hd => by simpa using hc2 d hd) hno
      (by rw [aiff_length hfl, hlen]; omega)
    have hsplit : ∀ p : Chunk → Bool, (pre ++ c :: (textChunks x ++ post)).filter p = pre.filter p ++ ([c].filter p ++ ((textChunks x).filter p ++ post.filter p)) := by
      intro p
      rw [← List.filter_append, ← List.filter_append, ← List.filter_append]
      rfl
    have hsplit' : ∀ p : Chunk → Bool, (pre ++ c :: post).filter p = pre.filter p ++ ([c].filter p ++ post.filter p) := by
      intro p
      rw [← List.filter_append, ← List.filter_append]
      rfl
    rw [hsplit'] at hnone hid
    obtain ⟨g1, g2⟩ := List.append_eq_nil_iff.mp hnone
    obtain ⟨g2, g3⟩ := List.append_eq_nil_iff.mp g2
    refine ⟨_, hrun, ⟨?_, ⟨c, by simp, hc1⟩, ⟨x, ?_, hx, hc, rfl⟩, ?_⟩, ?_⟩
    · intro e he
      simp only [List.mem_append, List.mem_cons] at he
      rcases he with he | rfl | he | he
      · exact hok e (by simp [he])
      · exact hok e (by simp)
      · exact textChunks_ok hx e he
      · exact hok e (by simp [he])
    · rw [hsplit, hfi, g1, g2, g3]; simp
    · rw [hsplit, hft, List.nil_append]; exact hid
    · unfold aiffRest
      rw [hsplit, hsplit']
      unfold aiffRest at hfr
      rw [hfr, List.nil_append]
  · obtain ⟨pre, old, post, rfl, hpre, hold⟩ := filter_not_nil hnone
    have hold : old.IsText := by simpa using hold
    have hpre' : ∀ d ∈ pre, ¬ d.IsText := fun d hd => by simpa using hpre d hd
    have hpl : (encAll true (post.filter fun d => ¬ d.IsText)).length ≤ (encAll true post).length := by
      clear hpre hpre' hnone htext hcomm hok hid hsz
      induction post with
      | nil => exact Nat.le_refl _
      | cons e post ih =>
        by_cases he : e.IsText
        · rw [List.filter_cons_of_neg (by simpa using he), encAll_cons, List.length_append]; omega
        · rw [List.filter_cons_of_pos (by simpa using he), encAll_cons, encAll_cons, List.length_append, List.length_append]; omega
    have hrun := writeAiff_replace strict form pre post old x hform hx hok hcomm hpre' hold (by
      rw [aiff_length hfl]
      rw [encAll_append, encAll_append, List.length_append, List.length_append]
      rw [encAll_append, encAll_cons, List.length_append, List.length_append] at hsz
      omega)
    have hoid : ¬ old.IsId3 := fun h => id3_not_text h hold
    refine ⟨_, hrun, ⟨?_, ?_, ⟨x, ?_, hx, hc, rfl⟩, ?_⟩, ?_⟩
    · intro e he
      simp only [List.mem_append] at he
      rcases he with (he | he) | he
      · exact hok e (by simp [he])
      · exact textChunks_ok hx e he
      · exact hok e (by simp [(List.mem_filter.mp he).1])
    · obtain ⟨e, he, hc⟩ := hcomm
      have hne := comm_not_text hc
      simp only [List.mem_append, List.mem_cons] at he
      rcases he with he | rfl | he
      · exact ⟨e, by simp [he], hc⟩
      · exact absurd hold hne
      · refine ⟨e, ?_, hc⟩
        rw [List.mem_append]
        exact .inr (List.mem_filter.mpr ⟨he, by simpa using hne⟩)
    · have g1 : pre.filter (fun d => d.IsText) = [] := List.filter_eq_nil_iff.mpr (fun e he => by simpa using hpre' e he)
      have g2 : (post.filter fun d => ¬ d.IsText).filter (fun d => d.IsText) = [] := by
        rw [List.filter_eq_nil_iff]
        intro e he
        have := (List.mem_filter.mp he).2
        simpa using this
      rw [List.filter_append, List.filter_append, g1, g2, hfi]
      simp
    · have g2 : (post.filter fun d => ¬ d.IsText).filter (fun d => d.IsId3) = post.filter (fun d => d.IsId3) := by
        rw [List.filter_filter]
        congr 1
        funext e
        by_cases he : e.IsId3
        · simp [he, id3_not_text he]
        · simp [he]
      rw [List.filter_append, List.filter_append, hft, List.append_nil, g2]
      rw [List.filter_append, List.filter_cons_of_neg (by simpa using hoid)] at hid
      exact hid
    · have g2 : aiffRest (post.filter fun d => ¬ d.IsText) = aiffRest post := by
        unfold aiffRest
        rw [List.filter_filter]
        congr 1
        funext e
        by_cases he : e.IsText <;> simp [he]
      have : aiffRest (pre ++ textChunks x ++ post.filter fun d => ¬ d.IsText) = aiffRest pre ++ aiffRest (textChunks x)
          ++ aiffRest (post.filter fun d => ¬ d.IsText) := by
        unfold aiffRest; rw [List.filter_append, List.filter_append]
      rw [this, hfr, g2, List.append_nil]
      unfold aiffRest
      rw [List.filter_append, List.filter_cons_of_neg (by simp [hold])]

end Lofty.IffFiles
