import Verif.Lemmas.Aiff
/-!
# C20: AIFF text chunks survive writing and reading; the other chunks of the file do not change
-/
namespace Lofty.Iff

/-- The `COMT` chunk: the number of comments and the comments. -/
def comtChunk (cs : List Comment) : Chunk := (ascii "COMT", beBytes 2 cs.length ++ commentBytes cs)

/-- The chunks a tag is written as: the comments (if there are any), the name, the author, the
copyright and the annotations, each text as it is. -/
def textChunks (t : Aiff) : List Chunk :=
  (if t.comments.getD [] = [] then [] else [comtChunk (t.comments.getD [])])
  ++ (t.name.toList.map fun s => (ascii "NAME", utf8 s))
  ++ (t.author.toList.map fun s => (ascii "AUTH", utf8 s))
  ++ (t.copyright.toList.map fun s => (ascii "(c) ", utf8 s))
  ++ ((t.annotations.getD []).map fun s => (ascii "ANNO", utf8 s))

/-- Everything fits its size field. -/
def Aiff.Fits (t : Aiff) : Prop :=
  (t.comments.getD []).length ≤ 65535 ∧ (∀ c ∈ t.comments.getD [], (utf8 c.text).length ≤ 65535) ∧
  ∀ d ∈ textChunks t, d.2.length < 2 ^ 32

theorem pad_eq (n : Nat) : (if n % 2 ≠ 0 then [(0 : UInt8)] else []) = List.replicate (n % 2) 0 := by
  rcases Nat.mod_two_eq_zero_or_one n with h | h <;> simp [h]

theorem writeText_some (key : Bytes) (s : Str) (h : (utf8 s).length < 2 ^ 32) :
    writeText key (some s) = enc true (key, utf8 s) := by
  unfold writeText enc
  simp only
  rw [if_pos h, pad_eq]
  simp

theorem writeText_opt (key : Bytes) (o : Option Str) (h : ∀ s, o = some s → (utf8 s).length < 2 ^ 32) :
    writeText key o = encAll true (o.toList.map fun s => (key, utf8 s)) := by
  cases o with
  | none => rfl
  | some s => rw [writeText_some key s (h s rfl)]; simp [encAll]

theorem writeText_all (key : Bytes) (l : List Str) (h : ∀ s ∈ l, (utf8 s).length < 2 ^ 32) :
    (l.flatMap fun s => writeText key (some s)) = encAll true (l.map fun s => (key, utf8 s)) := by
  induction l with
  | nil => rfl
  | cons s l ih =>
    rw [List.flatMap_cons, ih (fun s hs => h s (by simp [hs])), List.map_cons, encAll_cons,
      writeText_some key s (h s (by simp))]

theorem writeComments_spec (cs : List Comment) (h : ∀ c ∈ cs, (utf8 c.text).length ≤ 65535) :
    writeComments cs = .ok (commentBytes cs) := by
  induction cs with
  | nil => rfl
  | cons c cs ih =>
    have hc := h c (by simp)
    rw [writeComments, writeComment, if_neg (by omega), ok_bind, ih (fun c hc => h c (by simp [hc])), ok_bind, pad_eq]
    simp [commentBytes, encComment]

theorem writeComt_spec (o : Option (List Comment)) (h1 : (o.getD []).length ≤ 65535)
    (h2 : ∀ c ∈ o.getD [], (utf8 c.text).length ≤ 65535)
    (h3 : o.getD [] ≠ [] → (comtChunk (o.getD [])).2.length < 2 ^ 32) :
    writeComt o = .ok (encAll true (if o.getD [] = [] then [] else [comtChunk (o.getD [])])) := by
  cases o with
  | none => rfl
  | some cs =>
    simp only [Option.getD_some] at *
    unfold writeComt
    by_cases hc : cs = []
    · simp [hc, encAll]
    · have h3 := h3 hc
      unfold comtChunk at h3 ⊢
      simp only at h3 ⊢
      rw [if_neg (by simpa using hc), if_neg (by omega), writeComments_spec cs h2, ok_bind, if_neg hc]
      rw [if_neg (by omega), pad_eq]
      simp [encAll, enc]

/-- C20: the text chunks are written one after the other, each with its identifier, its exact
length (big endian) and its content, padded to an even length. -/
theorem createText_spec (t : Aiff) (h : t.Fits) : createText t = .ok (encAll true (textChunks t)) := by
  obtain ⟨h1, h2, h3⟩ := h
  have hc : t.comments.getD [] ≠ [] → (comtChunk (t.comments.getD [])).2.length < 2 ^ 32 := by
    intro hc
    exact h3 _ (by simp [textChunks, hc])
  unfold createText
  rw [writeComt_spec _ h1 h2 hc, ok_bind]
  rw [writeText_opt _ t.name (fun s hs => h3 (ascii "NAME", utf8 s) (by simp [textChunks, hs])),
    writeText_opt _ t.author (fun s hs => h3 (ascii "AUTH", utf8 s) (by simp [textChunks, hs])),
    writeText_opt _ t.copyright (fun s hs => h3 (ascii "(c) ", utf8 s) (by simp [textChunks, hs])),
    writeText_all _ _ (fun s hs => h3 (ascii "ANNO", utf8 s) (by simp only [textChunks, List.mem_append, List.mem_map]; exact Or.inr ⟨s, hs, rfl⟩))]
  unfold textChunks
  simp only [encAll_append]

/-! ### Reading -/

/-- The texts of a tag can be read back: none ends in NUL, the numbers of the comments fit
and all comments but the last have a text of even length. -/
def Aiff.Clean (t : Aiff) : Prop :=
  (∀ s ∈ t.name.toList ++ t.author.toList ++ t.copyright.toList ++ t.annotations.getD [], s.getLast? ≠ some '\x00') ∧
  (∀ c ∈ t.comments.getD [], c.Ok) ∧ EvenInit (t.comments.getD [])

/-- What is read back: an empty list of annotations or comments is no list. -/
def Aiff.normal (t : Aiff) : Aiff :=
  { t with annotations := t.annotations.filter (· ≠ []), comments := t.comments.filter (· ≠ []) }

theorem aiff_split (form : Bytes) (cs : List Chunk) : aiff form cs
    = (ascii "FORM" ++ (beBytes 4 (4 + (encAll true cs).length) ++ form)) ++ encAll true cs := by
  simp [aiff]

theorem aiff_prefix_length {form : Bytes} (h : form.length = 4) (n : Nat) :
    (ascii "FORM" ++ (beBytes 4 n ++ form)).length = 12 := by
  simp [h]; rfl

theorem aiff_length {form : Bytes} (h : form.length = 4) (cs : List Chunk) :
    (aiff form cs).length = 12 + (encAll true cs).length := by
  rw [aiff_split, List.length_append, aiff_prefix_length h]

theorem verifyAiff_aiff {form : Bytes} (cs : List Chunk) (hform : form = ascii "AIFF" ∨ form = ascii "AIFC") :
    verifyAiff (aiff form cs) = .ok () := by
  have hl : form.length = 4 := by rcases hform with rfl | rfl <;> rfl
  unfold verifyAiff
  have hr := readAt_append [] (ascii "FORM" ++ (beBytes 4 (4 + (encAll true cs).length) ++ form))
    (encAll true cs) 12 (aiff_prefix_length hl _)
  rw [List.nil_append, ← aiff_split] at hr
  rw [show ([] : Bytes).length = 0 from rfl] at hr
  rw [hr, ok_bind]
  have h4 : (ascii "FORM").length = 4 := rfl
  rw [List.take_left' h4, show (8 : Nat) = 4 + 4 from rfl, ← List.drop_drop, List.drop_left' h4,
    List.drop_left' (beBytes_length _ _), if_neg (by simp), if_pos hform]

theorem fourcc_text : FourCC (ascii "NAME") ∧ FourCC (ascii "AUTH") ∧ FourCC (ascii "(c) ") ∧ FourCC (ascii "ANNO")
    ∧ FourCC (ascii "COMT") := by
  refine ⟨?_, ?_, ?_, ?_, ?_⟩ <;> exact (validFourcc_iff rfl).mp (by decide)

theorem steps_anno {strict : Bool} {id3 : Bytes → Except Err Unit} (l : List Str) (acc : AiffAcc)
    (h : ∀ s ∈ l, s.getLast? ≠ some '\x00' ∧ (utf8 s).length < 2 ^ 32) :
    Steps strict id3 (l.map fun s => (ascii "ANNO", utf8 s)) acc { acc with annotations := acc.annotations ++ l } := by
  induction l generalizing acc with
  | nil => simp [Steps]
  | cons s l ih =>
    refine ⟨_, ⟨fourcc_text.2.2.2.1, (h s (by simp)).2⟩, step_anno (h s (by simp)).1 acc, ?_⟩
    have := ih { acc with annotations := acc.annotations ++ [s] } (fun s hs => h s (by simp [hs]))
    simpa using this

theorem steps_textChunks {strict : Bool} {id3 : Bytes → Except Err Unit} (t : Aiff) (hf : t.Fits) (hc : t.Clean) :
    Steps strict id3 (textChunks t) ⟨none, none, none, [], []⟩
      ⟨t.name, t.author, t.copyright, t.annotations.getD [], t.comments.getD []⟩ := by
  obtain ⟨f1, f2, f3⟩ := hf
  obtain ⟨c1, c2, c3⟩ := hc
  have g1 : ∀ s, t.name = some s → (utf8 s).length < 2 ^ 32 := fun s hs => f3 (ascii "NAME", utf8 s) (by simp [textChunks, hs])
  have g2 : ∀ s, t.author = some s → (utf8 s).length < 2 ^ 32 := fun s hs => f3 (ascii "AUTH", utf8 s) (by simp [textChunks, hs])
  have g3 : ∀ s, t.copyright = some s → (utf8 s).length < 2 ^ 32 := fun s hs => f3 (ascii "(c) ", utf8 s) (by simp [textChunks, hs])
  have g4 : ∀ s ∈ t.annotations.getD [], (utf8 s).length < 2 ^ 32 := fun s hs => f3 (ascii "ANNO", utf8 s)
    (by simp only [textChunks, List.mem_append, List.mem_map]; exact Or.inr ⟨s, hs, rfl⟩)
  obtain ⟨k1, k2, k3, k4, k5⟩ := fourcc_text
  unfold textChunks
  refine steps_append (a1 := ⟨t.name, t.author, t.copyright, [], t.comments.getD []⟩)
    (steps_append (a1 := ⟨t.name, t.author, none, [], t.comments.getD []⟩)
    (steps_append (a1 := ⟨t.name, none, none, [], t.comments.getD []⟩)
    (steps_append (a1 := ⟨none, none, none, [], t.comments.getD []⟩) ?_ ?_) ?_) ?_) ?_
  · by_cases h : t.comments.getD [] = []
    · rw [if_pos h, h]; rfl
    · rw [if_neg h]
      refine ⟨_, ⟨k5, f3 _ (by simp [textChunks, h])⟩, step_comt c2 c3 f1 _ rfl, rfl⟩
  · cases hn : t.name with
    | none => rfl
    | some s => exact ⟨_, ⟨k1, g1 s hn⟩, step_name (c1 s (by simp [hn])) _ rfl, rfl⟩
  · cases hn : t.author with
    | none => rfl
    | some s => exact ⟨_, ⟨k2, g2 s hn⟩, step_auth (c1 s (by simp [hn])) _ rfl, rfl⟩
  · cases hn : t.copyright with
    | none => rfl
    | some s => exact ⟨_, ⟨k3, g3 s hn⟩, step_copy (c1 s (by simp [hn])) _ rfl, rfl⟩
  · have := steps_anno (strict := strict) (id3 := id3) (t.annotations.getD [])
      ⟨t.name, t.author, t.copyright, [], t.comments.getD []⟩
      (fun s hs => ⟨c1 s (by simp only [List.mem_append]; exact Or.inr hs), g4 s hs⟩)
    simpa using this

theorem filter_ne_nil {α : Type} [DecidableEq α] (o : Option (List α)) :
    (if (o.getD []).isEmpty then none else some (o.getD [])) = o.filter (· ≠ []) := by
  cases o with
  | none => rfl
  | some l => cases l <;> simp [Option.filter]

/-- C20: the text chunks of a tag, wherever they are in an AIFF file, are read back as the
tag: name, author, copyright, annotations in order and comments in order. -/
theorem readAiff_aiff (strict : Bool) (id3 : Bytes → Except Err Unit) (form : Bytes) (pre post : List Chunk) (t : Aiff)
    (hform : form = ascii "AIFF" ∨ form = ascii "AIFC") (hf : t.Fits) (hc : t.Clean)
    (hpre : ∀ d ∈ pre, d.Ok ∧ ¬ d.IsText ∧ d.Id3Ok strict id3)
    (hpost : ∀ d ∈ post, d.Ok ∧ ¬ d.IsText ∧ d.Id3Ok strict id3) :
    readAiff strict id3 (aiff form (pre ++ textChunks t ++ post)) = .ok t.normal := by
  have hl : form.length = 4 := by rcases hform with rfl | rfl <;> rfl
  generalize hcs : pre ++ textChunks t ++ post = cs
  have hsteps : Steps strict id3 cs ⟨none, none, none, [], []⟩
      ⟨t.name, t.author, t.copyright, t.annotations.getD [], t.comments.getD []⟩ := by
    rw [← hcs]
    exact steps_append (steps_append (steps_same fun d hd => ⟨(hpre d hd).1, step_plain (hpre d hd).1 (hpre d hd).2.1 (hpre d hd).2.2 _⟩)
      (steps_textChunks t hf hc))
      (steps_same fun d hd => ⟨(hpost d hd).1, step_plain (hpost d hd).1 (hpost d hd).2.1 (hpost d hd).2.2 _⟩)
  have hle := length_le_encAll true cs
  have hlen := aiff_length hl cs
  unfold readAiff
  rw [verifyAiff_aiff cs hform, ok_bind]
  simp only
  rw [show (aiff form cs).length - 12 = (encAll true cs).length by omega]
  have hpf := pend_fresh (Chunks.new (aiff form cs) 12 (encAll true cs).length) rfl rfl
  rw [aiffLoop_steps strict id3 cs _ (Chunks.new (aiff form cs) 12 (encAll true cs).length) _ _ _ (by omega) hsteps
    (aiff_split form cs) (by rw [aiff_prefix_length hl]; exact hpf), ok_bind]
  simp only [filter_ne_nil, Aiff.normal]

/-! ### Writing -/

theorem setSize {form : Bytes} (hl : form.length = 4) (n : Nat) (cs : List Chunk) (h : 4 + (encAll true cs).length < 2 ^ 32) :
    (if (ascii "FORM" ++ (beBytes 4 n ++ form) ++ encAll true cs).length < 8 then Except.error .panic
      else splice (ascii "FORM" ++ (beBytes 4 n ++ form) ++ encAll true cs) 4 8
        (beBytes 4 (((ascii "FORM" ++ (beBytes 4 n ++ form) ++ encAll true cs).length - 8) % 2 ^ 32)))
      = .ok (aiff form cs) := by
  have h4 : (ascii "FORM").length = 4 := rfl
  have hlen : (ascii "FORM" ++ (beBytes 4 n ++ form) ++ encAll true cs).length = 12 + (encAll true cs).length := by
    rw [List.length_append, aiff_prefix_length hl]
  rw [hlen, if_neg (by omega)]
  have e : ascii "FORM" ++ (beBytes 4 n ++ form) ++ encAll true cs
      = ascii "FORM" ++ (beBytes 4 n ++ (form ++ encAll true cs)) := by simp
  rw [e, splice_append _ _ _ _ 4 8 h4 (by simp), show (12 + (encAll true cs).length - 8) % 2 ^ 32
    = 4 + (encAll true cs).length by rw [Nat.mod_eq_of_lt (by omega)]; omega]
  simp [aiff]

/-- C20/C29: writing to an AIFF file that already has text chunks puts the new text chunks
where the first old one was, removes all other old text chunks and keeps all other chunks as
they are, with the size of the file updated. -/
theorem writeAiff_replace (strict : Bool) (form : Bytes) (pre post : List Chunk) (old : Chunk) (t : Aiff)
    (hform : form = ascii "AIFF" ∨ form = ascii "AIFC") (hf : t.Fits)
    (hok : ∀ d ∈ pre ++ old :: post, d.Ok) (hcomm : ∃ d ∈ pre ++ old :: post, d.1 = ascii "COMM")
    (hpre : ∀ d ∈ pre, ¬ d.IsText) (hold : old.IsText)
    (hsz : (aiff form (pre ++ textChunks t ++ post.filter fun d => ¬ d.IsText)).length < 2 ^ 32) :
    writeAiff strict (aiff form (pre ++ old :: post)) t
      = .ok (aiff form (pre ++ textChunks t ++ post.filter fun d => ¬ d.IsText)) := by
  have hl : form.length = 4 := by rcases hform with rfl | rfl <;> rfl
  rw [aiff_length hl] at hsz
  generalize hcs : pre ++ old :: post = cs at *
  have hle := length_le_encAll true cs
  have hlen := aiff_length hl cs
  unfold writeAiff
  rw [verifyAiff_aiff cs hform, ok_bind]
  simp only
  rw [createText_spec t hf, ok_bind, show (aiff form cs).length - 12 = (encAll true cs).length by omega]
  have hpf := pend_fresh (Chunks.new (aiff form cs) 12 (encAll true cs).length) rfl rfl
  have hft := findText_spec strict cs ((encAll true cs).length + 1) (Chunks.new (aiff form cs) 12 (encAll true cs).length)
    (ascii "FORM" ++ (beBytes 4 (4 + (encAll true cs).length) ++ form)) [] none (by omega) hok
    (aiff_split form cs) (by rw [aiff_prefix_length hl]; exact hpf) (by rw [aiff_prefix_length hl]; simp [Chunks.new])
    (by rw [aiff_prefix_length hl]; exact Nat.le_refl _)
  rw [aiff_prefix_length hl] at hft
  obtain ⟨p, hp⟩ := Option.isSome_iff_exists.mp (commEnd_isSome 12 none cs (Or.inr hcomm))
  rw [hft, hp]
  rw [← hcs, ranges_append, ranges_nil 12 pre hpre, ranges, if_pos hold]
  simp only [foundText, ok_bind, List.nil_append, List.singleton_append]
  rw [hcs]
  generalize hP : ascii "FORM" ++ (beBytes 4 (4 + (encAll true cs).length) ++ form) = P
  have hPl : P.length = 12 := by rw [← hP]; exact aiff_prefix_length hl _
  have e : aiff form cs = (P ++ encAll true pre ++ enc true old) ++ (encAll true post ++ []) := by
    rw [aiff_split, hP, ← hcs, encAll_append, encAll_cons]; simp
  have hd := drainRanges_spec post (P ++ encAll true pre ++ enc true old) []
  simp only [List.length_append, hPl] at hd
  rw [e, hd, ok_bind]
  have e2 : P ++ encAll true pre ++ enc true old ++ (encAll true (post.filter fun d => ¬ d.IsText) ++ [])
      = (P ++ encAll true pre) ++ (enc true old ++ encAll true (post.filter fun d => ¬ d.IsText)) := by simp
  rw [e2, splice_append _ _ _ _ (12 + (encAll true pre).length) _ (by simp [hPl]) rfl, ok_bind]
  have e3 : P ++ encAll true pre ++ encAll true (textChunks t) ++ encAll true (post.filter fun d => ¬ d.IsText)
      = ascii "FORM" ++ (beBytes 4 (4 + (encAll true cs).length) ++ form)
        ++ encAll true (pre ++ textChunks t ++ post.filter fun d => ¬ d.IsText) := by
    rw [encAll_append, encAll_append, hP]; simp
  rw [e3]
  exact setSize hl _ _ (by omega)

/-- C20/C29: writing to an AIFF file without text chunks puts the text chunks behind the last
`COMM` chunk and keeps all chunks as they are. -/
theorem writeAiff_insert (strict : Bool) (form : Bytes) (pre post : List Chunk) (comm : Chunk) (t : Aiff)
    (hform : form = ascii "AIFF" ∨ form = ascii "AIFC") (hf : t.Fits)
    (hok : ∀ d ∈ pre ++ comm :: post, d.Ok) (hcomm : comm.1 = ascii "COMM") (hpost : ∀ d ∈ post, d.1 ≠ ascii "COMM")
    (ht : ∀ d ∈ pre ++ comm :: post, ¬ d.IsText)
    (hsz : (aiff form (pre ++ comm :: (textChunks t ++ post))).length < 2 ^ 32) :
    writeAiff strict (aiff form (pre ++ comm :: post)) t = .ok (aiff form (pre ++ comm :: (textChunks t ++ post))) := by
  have hl : form.length = 4 := by rcases hform with rfl | rfl <;> rfl
  rw [aiff_length hl] at hsz
  generalize hcs : pre ++ comm :: post = cs at *
  have hle := length_le_encAll true cs
  have hlen := aiff_length hl cs
  unfold writeAiff
  rw [verifyAiff_aiff cs hform, ok_bind]
  simp only
  rw [createText_spec t hf, ok_bind, show (aiff form cs).length - 12 = (encAll true cs).length by omega]
  have hpf := pend_fresh (Chunks.new (aiff form cs) 12 (encAll true cs).length) rfl rfl
  have hft := findText_spec strict cs ((encAll true cs).length + 1) (Chunks.new (aiff form cs) 12 (encAll true cs).length)
    (ascii "FORM" ++ (beBytes 4 (4 + (encAll true cs).length) ++ form)) [] none (by omega) hok
    (aiff_split form cs) (by rw [aiff_prefix_length hl]; exact hpf) (by rw [aiff_prefix_length hl]; simp [Chunks.new])
    (by rw [aiff_prefix_length hl]; exact Nat.le_refl _)
  rw [aiff_prefix_length hl] at hft
  have hce : commEnd 12 none cs = some (12 + (encAll true pre).length + (enc true comm).length) := by
    rw [← hcs, commEnd_append, commEnd, if_pos hcomm, commEnd_none _ _ _ hpost]
  rw [hft, hce, ranges_nil 12 cs ht]
  simp only [foundText, ok_bind, List.nil_append]
  generalize hP : ascii "FORM" ++ (beBytes 4 (4 + (encAll true cs).length) ++ form) = P
  have hPl : P.length = 12 := by rw [← hP]; exact aiff_prefix_length hl _
  have e : aiff form cs = (P ++ encAll true pre ++ enc true comm) ++ ([] ++ encAll true post) := by
    rw [aiff_split, hP, ← hcs, encAll_append, encAll_cons]; simp
  rw [e, splice_append _ [] _ _ (12 + (encAll true pre).length + (enc true comm).length)
    (12 + (encAll true pre).length + (enc true comm).length) (by simp [hPl]; omega) rfl, ok_bind]
  have e3 : P ++ encAll true pre ++ enc true comm ++ encAll true (textChunks t) ++ encAll true post
      = ascii "FORM" ++ (beBytes 4 (4 + (encAll true cs).length) ++ form)
        ++ encAll true (pre ++ comm :: (textChunks t ++ post)) := by
    rw [encAll_append, encAll_cons, encAll_append, hP]; simp
  rw [e3]
  exact setSize hl _ _ (by omega)

/-- C20: text chunks written to an AIFF file that has text chunks are read back. -/
theorem readAiff_replaced (strict strict' : Bool) (id3 : Bytes → Except Err Unit) (form : Bytes) (pre post : List Chunk)
    (old : Chunk) (t : Aiff) (hform : form = ascii "AIFF" ∨ form = ascii "AIFC") (hf : t.Fits) (hc : t.Clean)
    (hok : ∀ d ∈ pre ++ old :: post, d.Ok) (hid : ∀ d ∈ pre ++ old :: post, d.Id3Ok strict' id3)
    (hcomm : ∃ d ∈ pre ++ old :: post, d.1 = ascii "COMM")
    (hpre : ∀ d ∈ pre, ¬ d.IsText) (hold : old.IsText)
    (hsz : (aiff form (pre ++ textChunks t ++ post.filter fun d => ¬ d.IsText)).length < 2 ^ 32) :
    ∃ g, writeAiff strict (aiff form (pre ++ old :: post)) t = .ok g ∧ readAiff strict' id3 g = .ok t.normal := by
  refine ⟨_, writeAiff_replace strict form pre post old t hform hf hok hcomm hpre hold hsz, ?_⟩
  refine readAiff_aiff strict' id3 form pre _ t hform hf hc (fun d hd => ?_) (fun d hd => ?_)
  · exact ⟨hok d (by simp [hd]), hpre d hd, hid d (by simp [hd])⟩
  · obtain ⟨h1, h2⟩ := List.mem_filter.mp hd
    exact ⟨hok d (by simp [h1]), by simpa using h2, hid d (by simp [h1])⟩

/-- C20: text chunks written to an AIFF file without text chunks are read back. -/
theorem readAiff_inserted (strict strict' : Bool) (id3 : Bytes → Except Err Unit) (form : Bytes) (pre post : List Chunk)
    (comm : Chunk) (t : Aiff) (hform : form = ascii "AIFF" ∨ form = ascii "AIFC") (hf : t.Fits) (hc : t.Clean)
    (hok : ∀ d ∈ pre ++ comm :: post, d.Ok) (hid : ∀ d ∈ pre ++ comm :: post, d.Id3Ok strict' id3)
    (hcomm : comm.1 = ascii "COMM") (hpost : ∀ d ∈ post, d.1 ≠ ascii "COMM")
    (ht : ∀ d ∈ pre ++ comm :: post, ¬ d.IsText)
    (hsz : (aiff form (pre ++ comm :: (textChunks t ++ post))).length < 2 ^ 32) :
    ∃ g, writeAiff strict (aiff form (pre ++ comm :: post)) t = .ok g ∧ readAiff strict' id3 g = .ok t.normal := by
  refine ⟨_, writeAiff_insert strict form pre post comm t hform hf hok hcomm hpost ht hsz, ?_⟩
  have e : pre ++ comm :: (textChunks t ++ post) = (pre ++ [comm]) ++ textChunks t ++ post := by simp
  rw [e]
  refine readAiff_aiff strict' id3 form _ post t hform hf hc (fun d hd => ?_) (fun d hd => ?_)
  · have hd' : d ∈ pre ++ comm :: post := by
      rcases List.mem_append.mp hd with h | h
      · simp [h]
      · simp [List.mem_singleton.mp h]
    exact ⟨hok d hd', ht d hd', hid d hd'⟩
  · exact ⟨hok d (by simp [hd]), ht d (by simp [hd]), hid d (by simp [hd])⟩

/-- C20: a file without a `COMM` chunk is refused and not written. -/
theorem writeAiff_no_comm (strict : Bool) (form : Bytes) (cs : List Chunk) (t : Aiff)
    (hform : form = ascii "AIFF" ∨ form = ascii "AIFC") (hf : t.Fits)
    (hok : ∀ d ∈ cs, d.Ok) (hcomm : ∀ d ∈ cs, d.1 ≠ ascii "COMM") :
    writeAiff strict (aiff form cs) t = .error .parse := by
  have hl : form.length = 4 := by rcases hform with rfl | rfl <;> rfl
  have hle := length_le_encAll true cs
  have hlen := aiff_length hl cs
  unfold writeAiff
  rw [verifyAiff_aiff cs hform, ok_bind]
  simp only
  rw [createText_spec t hf, ok_bind, show (aiff form cs).length - 12 = (encAll true cs).length by omega]
  have hpf := pend_fresh (Chunks.new (aiff form cs) 12 (encAll true cs).length) rfl rfl
  have hft := findText_spec strict cs ((encAll true cs).length + 1) (Chunks.new (aiff form cs) 12 (encAll true cs).length)
    (ascii "FORM" ++ (beBytes 4 (4 + (encAll true cs).length) ++ form)) [] none (by omega) hok
    (aiff_split form cs) (by rw [aiff_prefix_length hl]; exact hpf) (by rw [aiff_prefix_length hl]; simp [Chunks.new])
    (by rw [aiff_prefix_length hl]; exact Nat.le_refl _)
  rw [hft, commEnd_none _ _ _ hcomm]
  rfl

/-- A tag with all kinds of text chunks, two comments and odd lengths. -/
def sampleAiff : Aiff :=
  ⟨some (str "abc"), some (str "de"), none, some [str "x", str "yz"], some [⟨1, 2, str "hi"⟩, ⟨3, 4, str "odd"⟩]⟩

instance (d : Bytes) : Decidable (d.getLast? ≠ some (0 : UInt8)) := inferInstance

example : sampleAiff.Fits := by
  unfold Aiff.Fits; decide +kernel
example : sampleAiff.Clean := by
  unfold Aiff.Clean Comment.Ok EvenInit; decide +kernel
example : writeAiff true (aiff (ascii "AIFF") [(ascii "COMM", [1, 2, 3]), (ascii "NAME", [65]), (ascii "SSND", [7, 8]), (ascii "ANNO", [66])])
    sampleAiff
    = .ok (aiff (ascii "AIFF") ([(ascii "COMM", [1, 2, 3])] ++ textChunks sampleAiff ++ [(ascii "SSND", [7, 8])])) := by
  decide +kernel
example : readAiff true (fun _ => .ok ()) (aiff (ascii "AIFC") ([(ascii "COMM", [1, 2, 3])] ++ textChunks sampleAiff)) = .ok sampleAiff := by
  decide +kernel

/-- Without the condition that all comments but the last have even length the property
fails: the reader does not skip the padding of a comment, so a tag this library wrote itself
cannot be read back (here the file is not even readable). -/
theorem odd_comment_unreadable :
    ∃ g, writeAiff true (aiff (ascii "AIFF") [(ascii "COMM", [])])
        ⟨none, none, none, none, some [⟨1, 2, str "odd"⟩, ⟨3, 4, str "hi"⟩]⟩ = .ok g ∧
      readAiff false (fun _ => .ok ()) g = .error .eof := by
  refine ⟨aiff (ascii "AIFF") ((ascii "COMM", []) :: textChunks ⟨none, none, none, none, some [⟨1, 2, str "odd"⟩, ⟨3, 4, str "hi"⟩]⟩), ?_, ?_⟩ <;>
    decide +kernel

end Lofty.Iff
