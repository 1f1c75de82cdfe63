import Verif.Props.Ape
import Verif.Props.Id3v2List
import Verif.Props.TaggedFile
/-!
# Several values in one text, and the primary tag (C91)

ID3v2.4 and APE keep the values of a field in one text, separated by NUL.  `Values` says what the values of a text are
without reference to how they are found.
-/
namespace Lofty

/-- `vs` are the values of the text `s`: at least one, none with NUL in it, and joined by NUL they are `s`. -/
def Values (s : Str) (vs : List Str) : Prop := vs ≠ [] ∧ (∀ v ∈ vs, '\x00' ∉ v) ∧ ['\x00'].intercalate vs = s

theorem intercalate_cons_cons (a b : Str) (l : List Str) :
    ['\x00'].intercalate (a :: b :: l) = a ++ '\x00' :: ['\x00'].intercalate (b :: l) := by
  simp [List.intercalate, List.intersperse]

theorem intercalate_one (a : Str) : ['\x00'].intercalate [a] = a := by simp [List.intercalate, List.intersperse]

/-- The first value grows by a character. -/
theorem Values.cons {c : Char} (hc : c ≠ '\x00') {s p : Str} {ps : List Str} (h : Values s (p :: ps)) :
    Values (c :: s) ((c :: p) :: ps) := by
  obtain ⟨_, h2, h3⟩ := h
  refine ⟨by simp, ?_, ?_⟩
  · intro v hv
    rcases List.mem_cons.mp hv with rfl | hv
    · intro h
      rcases List.mem_cons.mp h with h | h
      · exact hc h.symm
      · exact h2 p (by simp) h
    · exact h2 v (by simp [hv])
  · cases ps with
    | nil => rw [intercalate_one] at h3 ⊢; rw [h3]
    | cons q ps => rw [intercalate_cons_cons] at h3 ⊢; rw [← h3]; rfl

/-- An empty value in front. -/
theorem Values.nul {s : Str} {vs : List Str} (h : Values s vs) : Values ('\x00' :: s) ([] :: vs) := by
  obtain ⟨h1, h2, h3⟩ := h
  refine ⟨by simp, by simpa using h2, ?_⟩
  cases vs with
  | nil => exact absurd rfl h1
  | cons v vs => rw [intercalate_cons_cons, h3]; rfl

/-- A text has only one list of values. -/
theorem values_unique {vs : List Str} : ∀ {ws : List Str} {s : Str}, Values s vs → Values s ws → vs = ws := by
  -- what stands in front of the first NUL is the first value
  have hfirst : ∀ {a b r r' : Str}, '\x00' ∉ a → '\x00' ∉ b → a ++ '\x00' :: r = b ++ '\x00' :: r' → a = b ∧ r = r' := by
    intro a
    induction a with
    | nil =>
      intro b r r' _ hb h
      cases b with
      | nil => exact ⟨rfl, by simpa using h⟩
      | cons c b =>
        simp only [List.nil_append, List.cons_append, List.cons.injEq] at h
        exact absurd (h.1 ▸ List.mem_cons_self ..) hb
    | cons x a ih =>
      intro b r r' ha hb h
      cases b with
      | nil =>
        simp only [List.nil_append, List.cons_append, List.cons.injEq] at h
        exact absurd (h.1 ▸ List.mem_cons_self ..) ha
      | cons c b =>
        simp only [List.cons_append, List.cons.injEq] at h
        obtain ⟨h1, h2⟩ := ih (fun h => ha (List.mem_cons_of_mem _ h)) (fun h => hb (List.mem_cons_of_mem _ h)) h.2
        exact ⟨by rw [h.1, h1], h2⟩
  induction vs with
  | nil => intro ws s h; exact absurd rfl h.1
  | cons v vs ih =>
    rintro ws s ⟨_, hv, hs⟩ ⟨hw0, hw, hs'⟩
    cases ws with
    | nil => exact absurd rfl hw0
    | cons w ws =>
      have hvn := hv v (by simp)
      have hwn := hw w (by simp)
      cases vs with
      | nil =>
        rw [intercalate_one] at hs
        cases ws with
        | nil => rw [intercalate_one] at hs'; rw [hs, hs']
        | cons x ws =>
          rw [intercalate_cons_cons, ← hs] at hs'
          exact absurd (hs' ▸ by simp) hvn
      | cons y vs =>
        rw [intercalate_cons_cons] at hs
        cases ws with
        | nil =>
          rw [intercalate_one, ← hs] at hs'
          exact absurd (hs' ▸ by simp) hwn
        | cons x ws =>
          rw [intercalate_cons_cons, ← hs] at hs'
          obtain ⟨h1, h2⟩ := hfirst hwn hvn hs'
          rw [h1, ih ⟨by simp, fun z hz => hv z (by simp [hz]), rfl⟩ ⟨by simp, fun z hz => hw z (by simp [hz]), h2⟩]

/-- The values of two texts joined by NUL are those of the first and those of the second. -/
theorem Values.append {s t : Str} {vs ws : List Str} (h : Values s vs) (h' : Values t ws) :
    Values (s ++ '\x00' :: t) (vs ++ ws) := by
  induction vs generalizing s with
  | nil => exact absurd rfl h.1
  | cons v vs ih =>
    obtain ⟨_, h2, h3⟩ := h
    obtain ⟨w0, w2, w3⟩ := h'
    refine ⟨by simp, ?_, ?_⟩
    · intro x hx
      rcases List.mem_append.mp hx with hx | hx
      · exact h2 x hx
      · exact w2 x hx
    · cases vs with
      | nil =>
        rw [intercalate_one] at h3
        cases ws with
        | nil => exact absurd rfl w0
        | cons w ws =>
          rw [List.singleton_append, intercalate_cons_cons, w3, h3]
      | cons y vs =>
        rw [intercalate_cons_cons] at h3
        have h4 := (ih (s := ['\x00'].intercalate (y :: vs)) ⟨by simp, fun z hz => h2 z (by simp [hz]), rfl⟩).2.2
        rw [List.cons_append, List.cons_append, intercalate_cons_cons, ← List.cons_append, h4, ← h3]
        simp

end Lofty

namespace Lofty.Id3v2

theorem splitOn_values (s : Str) : Values s (splitOn '\x00' s) := by
  induction s with
  | nil => exact ⟨by simp [splitOn], by simp [splitOn], rfl⟩
  | cons c s ih =>
    rw [splitOn]
    by_cases hc : c = '\x00'
    · rw [if_pos hc, hc]; exact ih.nul
    · rw [if_neg hc]
      cases hs : splitOn '\x00' s with
      | nil => exact absurd hs ih.1
      | cons p ps => rw [hs] at ih; exact ih.cons hc

/-- **The texts of an ID3v2 frame** are the values of its text: those parts that joined with NUL give the text. -/
theorem getTexts_iff (l : List Frame) (id : FrameId) (vs : List Str) :
    getTexts l id = some vs ↔ ∃ s, getText l id = some s ∧ Values s vs := by
  unfold getTexts getText
  cases get l id with
  | none => simp
  | some f =>
    have key : ∀ s : Str, some (splitOn '\x00' s) = some vs ↔ ∃ x, some s = some x ∧ Values x vs := by
      intro s
      simp only [Option.some.injEq, exists_eq_left']
      exact ⟨fun h => h ▸ splitOn_values s, fun h => values_unique (splitOn_values s) h⟩
    cases f with
    | leaf fl b =>
      cases b <;> first | exact key _ | simp
    | _ => simp

/-- **Several values written into a frame** are the ones found there, if none has NUL in it. -/
theorem getTexts_insert {l : List Frame} (hd : Distinct l) {id : FrameId} (hid : ∀ g ∈ l, g.id = id → ∃ fl e s, g = .leaf fl (.text ⟨id, e, s⟩))
    {vs : List Str} (hne : vs ≠ []) (hv : ∀ v ∈ vs, '\x00' ∉ v) (e : Text.Encoding) (fl : FrameFlags) :
    getTexts (insert l (.leaf fl (.text ⟨id, e, ['\x00'].intercalate vs⟩))).2 id = some vs := by
  rw [getTexts_iff]
  refine ⟨['\x00'].intercalate vs, ?_, hne, hv, rfl⟩
  unfold getText
  have := get_insert l (.leaf fl (.text ⟨id, e, ['\x00'].intercalate vs⟩)) hd rfl (by
    intro g hg hgid
    obtain ⟨fl', e', s, rfl⟩ := hid g hg hgid
    simp [Same])
  rw [show (Frame.leaf fl (.text ⟨id, e, ['\x00'].intercalate vs⟩)).id = id from rfl] at this
  rw [this]

/-- Two artists in a new tag. -/
example : getTexts (insert [] (.leaf {} (.text ⟨.valid (str "TPE1"), .utf8, str "A\x00B"⟩))).2 (.valid (str "TPE1")) =
    some [str "A", str "B"] :=
  getTexts_insert (vs := [str "A", str "B"]) List.Pairwise.nil (by simp) (by decide) (by decide) .utf8 {}

end Lofty.Id3v2

namespace Lofty.Ape

theorem splitOn_values (s : Str) : Values s (Pairs.splitOn (· = '\x00') s) := by
  induction s with
  | nil => exact ⟨by simp [Pairs.splitOn], by simp [Pairs.splitOn], rfl⟩
  | cons c s ih =>
    rw [Pairs.splitOn]
    by_cases hc : c = '\x00'
    · rw [if_pos (by simpa using hc), hc]; exact ih.nul
    · rw [if_neg (by simpa using hc)]
      cases hs : Pairs.splitOn (fun x => decide (x = '\x00')) s with
      | nil => exact absurd hs ih.1
      | cons p ps => rw [hs] at ih; exact ih.cons hc

/-- **The values of an APE item** are those of its text or locator; a binary item has none. -/
theorem textValues_iff (i : Item) (vs : List Str) :
    i.textValues = some vs ↔ ∃ s, (i.value = .text s ∨ i.value = .locator s) ∧ Values s vs := by
  obtain ⟨ro, k, v⟩ := i
  have key : ∀ s : Str, some (Pairs.splitOn (· = '\x00') s) = some vs ↔ Values s vs := by
    intro s
    simp only [Option.some.injEq]
    exact ⟨fun h => h ▸ splitOn_values s, fun h => values_unique (splitOn_values s) h⟩
  cases v with
  | text s => unfold Item.textValues; rw [key]; simp
  | locator s => unfold Item.textValues; rw [key]; simp
  | binary b => simp [Item.textValues]

/-- The values found under a key. -/
def valuesAt (l : List Item) (k : Str) : Option (List Str) := (get l k).bind Item.textValues

/-- **Pushing a text adds its values** behind those of the text that is there, under every spelling of the key. -/
theorem push_values {l : List Item} {ro : Bool} {k : Str} {s : Str} {vs : List Str} (hs : Values s vs) {old : Item} {t : Str}
    (hold : get l k = some old) (ht : old.value = .text t) {ws : List Str} (hws : Values t ws) {k' : Str} (hk : SameKey k' k) :
    valuesAt (push l ⟨ro, k, .text s⟩) k' = some (ws ++ vs) := by
  have hget : get l k' = some old := by
    rw [← hold]
    unfold get
    congr 1
    funext x
    by_cases h : SameKey x.key k
    · rw [eqIc_true.mpr h, eqIc_true.mpr (h.trans hk.symm)]
    · rw [eqIc_false.mpr h, eqIc_false.mpr (fun hc => h (hc.trans hk))]
  unfold valuesAt
  rw [get_push]
  simp only [applySpec, hget]
  rw [if_pos hk]
  obtain ⟨ro', kk, v⟩ := old
  simp only at ht
  subst ht
  simp only [joined, Option.bind_some]
  rw [textValues_iff]
  refine ⟨t ++ '\x00' :: s, .inl (by simp), hws.append hs⟩

/-- **Values pushed one after the other** onto a key that is not there are the values of the key, in that order. -/
theorem pushed_values {l : List Item} {k : Str} (hn : get l k = none) {vs : List Str} (hne : vs ≠ [])
    (hv : ∀ v ∈ vs, '\x00' ∉ v) (ro : Bool) {k' : Str} (hk : SameKey k' k) :
    valuesAt (vs.foldl (fun l v => push l ⟨ro, k, .text v⟩) l) k' = some vs := by
  have one : ∀ {v : Str}, '\x00' ∉ v → Values v [v] := fun h => ⟨by simp, by simpa using h, intercalate_one _⟩
  -- with a text already there
  have more : ∀ (vs : List Str), (∀ v ∈ vs, '\x00' ∉ v) → ∀ (l : List Item) (old : Item) (t : Str) (ws : List Str),
      get l k = some old → old.value = .text t → Values t ws →
      valuesAt (vs.foldl (fun l v => push l ⟨ro, k, .text v⟩) l) k' = some (ws ++ vs) := by
    intro vs
    induction vs with
    | nil =>
      intro _ l old t ws h1 h2 h3
      have hget : get l k' = some old := by
        rw [← h1]
        unfold get
        congr 1
        funext x
        by_cases h : SameKey x.key k
        · rw [eqIc_true.mpr h, eqIc_true.mpr (h.trans hk.symm)]
        · rw [eqIc_false.mpr h, eqIc_false.mpr (fun hc => h (hc.trans hk))]
      unfold valuesAt
      rw [List.foldl_nil, hget, Option.bind_some, List.append_nil, textValues_iff]
      exact ⟨t, .inl h2, h3⟩
    | cons v vs ih =>
      intro hv l old t ws h1 h2 h3
      rw [List.foldl_cons]
      have hg : get (push l ⟨ro, k, .text v⟩) k = some (joined old ⟨ro, k, .text v⟩) := by
        rw [get_push]
        simp only [applySpec, h1]
        rw [if_pos (show SameKey k k from rfl)]
      obtain ⟨ro', kk, x⟩ := old
      simp only at h2
      subst h2
      rw [ih (fun z hz => hv z (by simp [hz])) _ _ (t ++ '\x00' :: v) (ws ++ [v]) hg (by simp [joined])
        (h3.append (one (hv v (by simp))))]
      simp
  cases vs with
  | nil => exact absurd rfl hne
  | cons v vs =>
    rw [List.foldl_cons]
    have hg : get (push l ⟨ro, k, .text v⟩) k = some ⟨ro, k, .text v⟩ := by
      rw [get_push]
      simp only [applySpec, hn]
      rw [if_pos (show SameKey k k from rfl)]
    exact more vs (fun z hz => hv z (by simp [hz])) _ _ v [v] hg rfl (one (hv v (by simp)))

/-- Three artists. -/
example : valuesAt ([str "A", str "B", str "C"].foldl (fun l v => push l ⟨false, str "Artist", .text v⟩) []) (str "ARTIST") =
    some [str "A", str "B", str "C"] :=
  pushed_values rfl (by decide) (by decide) false (by decide)

end Lofty.Ape

namespace Lofty.File
open Item FileType FileType.Spec

variable {α : Type}

/-- **A file contains a tag of a type** exactly if it can be asked for. -/
theorem containsType_iff (f : Tagged α) (t : TagType) : f.containsType t = true ↔ ∃ x, f.tag t = some x ∧ x ∈ f.tags ∧ x.type = t := by
  unfold Tagged.containsType Tagged.tag
  rw [List.any_eq_true]
  constructor
  · rintro ⟨x, hx, ht⟩
    cases h : f.tags.find? fun x => x.type = t with
    | none => exact absurd ht (List.find?_eq_none.mp h x hx)
    | some y => exact ⟨y, rfl, List.mem_of_find?_eq_some h, by simpa using List.find?_some h⟩
  · rintro ⟨x, _, hx, ht⟩
    exact ⟨x, hx, by simpa using ht⟩

/-- The type of the primary tag, as documented for each file type. -/
def primaryOf : FileType → TagType
  | .aac | .mpeg | .aiff | .wav => .id3v2
  | .ape | .mpc | .wavPack => .ape
  | .flac | .opus | .vorbis | .speex => .vorbisComments
  | .mp4 => .mp4Ilst

/-- **The primary tag after any history** is the last one put in under the documented type of the file type the file has
by then, with its changes. -/
theorem primary_history {f : Tagged α} (h : f.Sound) (ops : List Op) :
    (ops.foldl step f).primaryTag =
      (ops.foldl (latest (primaryOf (ops.foldl step f).type)) (f.tag (primaryOf (ops.foldl step f).type), f.type)).1 := by
  have hp : ∀ t : FileType, t.primaryTagType = primaryOf t := by intro t; cases t <;> rfl
  unfold Tagged.primaryTag
  rw [hp, ← history_latest h]

/-- After a change of the type of the file the primary tag is another one. -/
example (a : Tag) (ha : a.type = .id3v2) :
    ([Op.insert a, .changeType .ape].foldl step (⟨.mpeg, none, []⟩ : Tagged Nat)).primaryTag = none ∧
    ([Op.insert a].foldl step (⟨.mpeg, none, []⟩ : Tagged Nat)).primaryTag = some a := by
  constructor
  · rw [primary_history ⟨by simp, by simp⟩]
    simp [step, Tagged.changeFileType, primaryOf, latest, ha, Tagged.tag]
  · rw [primary_history ⟨by simp, by simp⟩]
    have hs : (FileType.mpeg.tagSupport .id3v2).readable = true := rfl
    simp only [List.foldl, step, Tagged.insertTag, ha, hs, if_true, Tagged.remove, List.findIdx?_nil, primaryOf, latest]
    rw [if_pos ⟨trivial, by decide⟩]

end Lofty.File

namespace Lofty.FileType
open FileType.Spec Probe

/-- **The type of a buffer** is that of its signature. -/
theorem fromBuffer_magic {t : FileType} {d : Bytes} (h : Magic t d) (hp : Plain t d) (hl : t = .vorbis → 36 ≤ d.length) :
    fromBuffer (d.take 36) = .ok (some t) := by
  unfold fromBuffer
  rw [fromBufferInner_magic h hp hl]

/-- **A buffer and the file it is the beginning of** have the same type, if the buffer has one. -/
theorem fromBuffer_probe {f : Bytes} {t : FileType} (h : fromBuffer (f.take 36) = .ok (some t)) (maxJunk : Nat) :
    guessInner f 0 maxJunk = .ok (some t, 0) := by
  unfold fromBuffer at h
  unfold guessInner
  simp only [List.drop_zero]
  split at h
  · cases h
  · rename_i e
    obtain rfl : _ = t := by simpa using h
    rw [e]
  · cases h

/-- A buffer that starts with an ID3v2 tag has no type of its own. -/
theorem fromBuffer_id3 {major revision flags : UInt8} {n : Nat} (hn : n < 2 ^ 28) {s : BitVec 32}
    (hs : Synchsafe.synch32 (BitVec.ofNat 32 n) = some s) (hf : flags.toNat % 16 = 0) (body d : Bytes) :
    fromBuffer ((tagBytes major revision flags s body ++ d).take 36) = .ok none := by
  unfold fromBuffer
  rw [fromBuffer_tag hn hs hf]

example : fromBuffer (ascii "fLaC" ++ [0, 0, 0, 34]) = .ok (some .flac) := by decide

end Lofty.FileType
