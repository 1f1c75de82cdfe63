import Verif.Lemmas.Aiff
/-!
# C19: RIFF INFO lists survive writing and reading; the other chunks of the file do not change
-/
namespace Lofty.Iff

/-- The chunks a list of items is written as: none at all for the empty list, otherwise one
INFO list with the items whose value is not empty. -/
def written (items : List Item) : List Chunk :=
  if items = [] then [] else [infoList (items.filter fun i => !i.2.isEmpty)]

/-- C19: an INFO list is written as one `LIST` chunk of type `INFO` holding, in order, the
items with a value, each a chunk with the value and a NUL, everything on even offsets. -/
theorem createInfo_spec (items : List Item) (hk : ∀ i ∈ items, FourCC (utf8 i.1))
    (hsz : (encAll false (written items)).length < 2 ^ 32) :
    createInfo items = .ok (encAll false (written items)) := by
  unfold createInfo written at *
  by_cases hi : items = []
  · simp [hi, encAll]
  · rw [if_neg (by simpa using hi), if_neg hi, flatMap_infoItem]
    rw [if_neg hi] at hsz
    have hev : (encAll false ((items.filter fun i => !i.2.isEmpty).map infoChunk)).length % 2 = 0 := by
      apply encAll_even
      intro d hd
      obtain ⟨i, hi, rfl⟩ := List.mem_map.mp hd
      exact (hk i (List.mem_filter.mp hi).1).1
    rw [encAll_cons, encAll_nil, List.append_nil] at hsz ⊢
    have hl : (infoList (items.filter fun i => !i.2.isEmpty)).2.length
        = 4 + (encAll false ((items.filter fun i => !i.2.isEmpty).map infoChunk)).length := by
      simp [infoList, ascii_info_length]
    rw [enc_length] at hsz
    have he : (infoList (items.filter fun i => !i.2.isEmpty)).2.length % 2 = 0 := by omega
    simp only
    rw [if_neg (by simp only [List.length_append, ascii_info_length]; omega)]
    unfold enc
    rw [he]
    simp [infoList]

/-- C19: the size of a written INFO list is even, so the chunks after it stay aligned. -/
theorem written_even (items : List Item) (hk : ∀ i ∈ items, FourCC (utf8 i.1)) :
    (encAll false (written items)).length % 2 = 0 := by
  apply encAll_even
  intro d hd
  unfold written at hd
  split at hd
  · cases hd
  · simp only [List.mem_singleton] at hd
    rw [hd]; rfl

theorem wav_split (cs : List Chunk) (tail : Bytes) : wav cs ++ tail
    = (ascii "RIFF" ++ (leBytes 4 (4 + (encAll false cs).length) ++ ascii "WAVE")) ++ (encAll false cs ++ tail) := by
  simp [wav]

theorem wav_prefix_length (n : Nat) : (ascii "RIFF" ++ (leBytes 4 n ++ ascii "WAVE")).length = 12 := by
  simp; rfl

theorem wav_length (cs : List Chunk) : (wav cs).length = 12 + (encAll false cs).length := by
  have := congrArg List.length (wav_split cs [])
  rw [List.append_nil, List.length_append, wav_prefix_length, List.append_nil] at this
  exact this

theorem verifyWav_wav (cs : List Chunk) (tail : Bytes) (h : 4 + (encAll false cs).length < 2 ^ 32) :
    verifyWav (wav cs ++ tail) = .ok (4 + (encAll false cs).length) := by
  unfold verifyWav
  have hr := readAt_append [] (ascii "RIFF" ++ (leBytes 4 (4 + (encAll false cs).length) ++ ascii "WAVE"))
    (encAll false cs ++ tail) 12 (wav_prefix_length _)
  rw [List.nil_append, ← wav_split] at hr
  rw [show ([] : Bytes).length = 0 from rfl] at hr
  rw [hr, ok_bind]
  have h4 : (ascii "RIFF").length = 4 := rfl
  rw [List.take_left' h4, show (8 : Nat) = 4 + 4 from rfl, ← List.drop_drop, List.drop_left' h4,
    List.drop_left' (leBytes_length _ _), List.take_left' (leBytes_length _ _), if_neg (by simp),
    fromLE_leBytes_of_lt (by simpa using h)]

/-- The INFO items of the parts of a file. -/
def itemsOf (parts : List (Chunk ⊕ (List Item × Bytes))) : List Item :=
  parts.flatMap (Sum.elim (fun _ => []) (·.1))

/-- The chunks of the parts of a file: any chunk, or an INFO list with the given items (and
possibly some bytes behind them). -/
def chunksOf (parts : List (Chunk ⊕ (List Item × Bytes))) : List Chunk :=
  parts.map (Sum.elim id fun p => infoListWith p.1 p.2)

/-- The parts are readable. -/
def PartOk (strict : Bool) (id3 : Bytes → Except Err Unit) : Chunk ⊕ (List Item × Bytes) → Prop
  | .inl d => d.Plain ∧ d.Id3Ok strict id3
  | .inr (is, junk) => (∀ i ∈ is, ItemOk i) ∧ junk.length < 8 ∧ (infoListWith is junk).2.length < 2 ^ 32

theorem wavLoop_parts (strict : Bool) (id3 : Bytes → Except Err Unit) (parts : List (Chunk ⊕ (List Item × Bytes))) :
    ∀ (n : Nat) (c : Chunks) (a rest : Bytes) (items : List Item), parts.length < n →
    (∀ p ∈ parts, PartOk strict id3 p) → c.lock = none → c.f = a ++ (encAll false (chunksOf parts) ++ rest) →
    Pend c a.length (encAll false (chunksOf parts)).length → (encAll false (chunksOf parts)).length ≤ c.total →
    wavLoop strict id3 c.total n c items = .ok (items ++ itemsOf parts) := by
  induction parts with
  | nil =>
    intro n c a rest items hn _ _ hf hp _
    obtain ⟨m, rfl⟩ : ∃ m, n = m + 1 := ⟨n - 1, by simp at hn; omega⟩
    rw [wavLoop, next_end hp (by simp [chunksOf, encAll]), ok_bind]
    simp [itemsOf]
  | cons p parts ih =>
    intro n c a rest items hn hok hlk hf hp ht
    obtain ⟨m, rfl⟩ : ∃ m, n = m + 1 := ⟨n - 1, by simp at hn; omega⟩
    simp only [List.length_cons] at hn
    have hih := fun (c' : Chunks) (a' : Bytes) (its : List Item) => ih m c' a' rest its (by omega)
      (fun p hp => hok p (by simp [hp]))
    cases p with
    | inl d =>
      obtain ⟨h1, h2⟩ := hok _ (List.mem_cons_self ..)
      have e : chunksOf (.inl d :: parts) = [d] ++ chunksOf parts := rfl
      rw [e, encAll_append] at hf hp ht
      simp only [List.append_assoc, List.length_append] at hf hp ht
      obtain ⟨c', q1, q2, q3, q4, q5⟩ := wavLoop_plain strict id3 c.total [d] m c a _ _ items
        (by intro x hx; rw [List.mem_singleton] at hx; rw [hx]; exact ⟨h1, h2⟩) hf hp
      rw [show [d].length + m = m + 1 by simp; omega] at q1
      have := hih c' (a ++ encAll false [d]) items (q4.trans hlk) (by rw [q2, hf]; simp)
        (by rw [List.length_append]; exact q5) (by omega)
      rw [q1, ← q3, this]
      simp [itemsOf]
    | inr q =>
      obtain ⟨is, junk⟩ := q
      obtain ⟨h1, hj, h2⟩ := hok _ (List.mem_cons_self ..)
      have e : chunksOf (.inr (is, junk) :: parts) = infoListWith is junk :: chunksOf parts := rfl
      rw [e, encAll_cons] at hf hp ht
      simp only [List.append_assoc, List.length_append] at hf hp ht
      obtain ⟨c', q1, q2, q3, q4, q5⟩ := wavLoop_info strict id3 is junk hj m c a _ _ items h1 h2 hf hlk hp ht
      have := hih c' (a ++ enc false (infoListWith is junk)) (items ++ is) q4 (by rw [q2, hf]; simp)
        (by rw [List.length_append]; exact q5) (by omega)
      rw [q1, ← q3, this]
      simp [itemsOf]

/-- C19: reading a WAV file returns exactly the items of its INFO lists, in order, whatever
the other chunks are and in whatever parsing mode. -/
theorem readWav_wav (strict : Bool) (id3 : Bytes → Except Err Unit) (parts : List (Chunk ⊕ (List Item × Bytes)))
    (hok : ∀ p ∈ parts, PartOk strict id3 p) (hsz : 4 + (encAll false (chunksOf parts)).length < 2 ^ 32) :
    readWav strict id3 (wav (chunksOf parts)) = .ok (itemsOf parts) := by
  have hv := verifyWav_wav (chunksOf parts) [] hsz
  rw [List.append_nil] at hv
  have hs := wav_split (chunksOf parts) []
  rw [List.append_nil] at hs
  unfold readWav
  rw [hv, ok_bind]
  simp only
  have hl := wav_length (chunksOf parts)
  have hle := length_le_encAll false (chunksOf parts)
  rw [show (chunksOf parts).length = parts.length by simp [chunksOf]] at hle
  rw [show (wav (chunksOf parts)).length - 12 = (encAll false (chunksOf parts)).length by omega]
  have hpf := pend_fresh (Chunks.new (wav (chunksOf parts)) 12 (encAll false (chunksOf parts)).length) rfl rfl
  have := wavLoop_parts strict id3 parts ((encAll false (chunksOf parts)).length + 1)
    (Chunks.new (wav (chunksOf parts)) 12 (encAll false (chunksOf parts)).length) _ [] [] (by omega) hok rfl hs
    (by rw [wav_prefix_length]; exact hpf) (Nat.le_refl _)
  simpa [Chunks.new] using this

/-- C19/C29: writing INFO items to a WAV file without INFO list appends one INFO list to its
chunks (or changes nothing when there are no items); all other chunks and anything behind
the RIFF chunk stay as they are. -/
theorem writeInfo_append (strict : Bool) (cs : List Chunk) (tail : Bytes) (items : List Item)
    (hcs : ∀ d ∈ cs, d.Plain) (hk : ∀ i ∈ items, FourCC (utf8 i.1)) (hsz : (wav cs).length < 2 ^ 32)
    (hsz' : 4 + (encAll false (cs ++ written items)).length < 2 ^ 32) :
    writeInfo strict (wav cs ++ tail) items = .ok (wav (cs ++ written items) ++ tail) := by
  rw [encAll_append, List.length_append] at hsz'
  rw [wav_length] at hsz
  unfold writeInfo
  rw [verifyWav_wav cs tail (by omega), ok_bind, createInfo_spec items hk (by omega), ok_bind,
    if_neg (by omega), if_neg (by rw [List.length_append, wav_length]; omega), if_neg (by omega)]
  have hpf := pend_fresh (Chunks.new (wav cs ++ tail) 12 (4 + (encAll false cs).length - 4)) rfl rfl
  have hle := length_le_encAll false cs
  rw [findInfo_none strict cs _ _ _ tail (by omega) hcs (wav_split cs tail)
    (by rw [wav_prefix_length]; simpa [Chunks.new] using hpf), ok_bind]
  simp only
  rw [if_neg (by omega)]
  have := splice_append (wav cs) [] tail (encAll false (written items)) (4 + (encAll false cs).length + 8)
    (4 + (encAll false cs).length + 8) (by rw [wav_length]; omega) rfl
  rw [List.nil_append] at this
  rw [this, ok_bind]
  congr 1
  have h4 : (ascii "RIFF").length = 4 := rfl
  have e : wav cs ++ encAll false (written items) ++ tail = ascii "RIFF" ++ (leBytes 4 (4 + (encAll false cs).length)
      ++ (ascii "WAVE" ++ (encAll false cs ++ (encAll false (written items) ++ tail)))) := by
    simp [wav]
  rw [e, writeAt_eq (by simp [h4]), leBytes_length, List.take_left' h4, ← List.drop_drop, List.drop_left' h4,
    List.drop_left' (leBytes_length _ _)]
  simp only [wav, encAll_append, List.append_assoc, List.length_append]
  rw [show (encAll false (written items)).length + (4 + (encAll false cs).length)
    = 4 + ((encAll false cs).length + (encAll false (written items)).length) by omega]

/-- C19/C29 (partial: the old INFO list must have an even size; `odd_list_breaks_file` shows
that the code fails otherwise): writing INFO items to a WAV file with an INFO list replaces
the first INFO list (or removes it when there are no items); all other chunks and anything
behind the RIFF chunk stay as they are. -/
theorem writeInfo_replace_partial (strict : Bool) (pre post : List Chunk) (d tail : Bytes) (items : List Item)
    (hpre : ∀ d ∈ pre, d.Plain) (hd : d.length % 2 = 0) (hk : ∀ i ∈ items, FourCC (utf8 i.1))
    (hsz : (wav (pre ++ (ascii "LIST", ascii "INFO" ++ d) :: post)).length < 2 ^ 32)
    (hsz' : 4 + (encAll false (pre ++ written items ++ post)).length < 2 ^ 32) :
    writeInfo strict (wav (pre ++ (ascii "LIST", ascii "INFO" ++ d) :: post) ++ tail) items
      = .ok (wav (pre ++ written items ++ post) ++ tail) := by
  rw [encAll_append, encAll_append, List.length_append, List.length_append] at hsz'
  have hel := enc_length false (ascii "LIST", ascii "INFO" ++ d)
  simp only [List.length_append, ascii_info_length] at hel
  rw [show (ascii "LIST").length = 4 from rfl] at hel
  have htot : (encAll false (pre ++ (ascii "LIST", ascii "INFO" ++ d) :: post)).length
      = (encAll false pre).length + ((12 + d.length) + (encAll false post).length) := by
    rw [encAll_append, encAll_cons]; simp only [List.length_append]; omega
  rw [wav_length, htot] at hsz
  unfold writeInfo
  rw [verifyWav_wav _ tail (by omega), ok_bind, createInfo_spec items hk (by omega), ok_bind,
    if_neg (by omega), if_neg (by rw [List.length_append, wav_length]; omega), if_neg (by omega)]
  have hpf := pend_fresh (Chunks.new (wav (pre ++ (ascii "LIST", ascii "INFO" ++ d) :: post) ++ tail) 12
    (4 + (encAll false (pre ++ (ascii "LIST", ascii "INFO" ++ d) :: post)).length - 4)) rfl rfl
  have hle := length_le_encAll false pre
  have hs := wav_split (pre ++ (ascii "LIST", ascii "INFO" ++ d) :: post) tail
  rw [findInfo_some strict pre d (encAll false post ++ tail) _
    (Chunks.new (wav (pre ++ (ascii "LIST", ascii "INFO" ++ d) :: post) ++ tail) 12
      (4 + (encAll false (pre ++ (ascii "LIST", ascii "INFO" ++ d) :: post)).length - 4))
    (ascii "RIFF" ++ (leBytes 4 (4 + (encAll false (pre ++ (ascii "LIST", ascii "INFO" ++ d) :: post)).length)
      ++ ascii "WAVE"))
    (12 + d.length + (encAll false post).length) (by omega) hpre (by omega)
    (by
      show wav (pre ++ (ascii "LIST", ascii "INFO" ++ d) :: post) ++ tail = _
      rw [hs, encAll_append, encAll_cons]; simp only [List.append_assoc])
    (by omega)
    (by
      rw [wav_prefix_length, ← htot]
      simpa [Chunks.new] using hpf), ok_bind]
  simp only
  rw [wav_prefix_length, if_neg (by omega), if_neg (by omega), if_neg (by omega)]
  have h4 : (ascii "RIFF").length = 4 := rfl
  have e : wav (pre ++ (ascii "LIST", ascii "INFO" ++ d) :: post) ++ tail
      = (ascii "RIFF" ++ (leBytes 4 (4 + (encAll false (pre ++ (ascii "LIST", ascii "INFO" ++ d) :: post)).length)
        ++ ascii "WAVE") ++ encAll false pre) ++ (enc false (ascii "LIST", ascii "INFO" ++ d) ++ (encAll false post ++ tail)) := by
    rw [hs, encAll_append, encAll_cons]; simp only [List.append_assoc]
  have hl1 : (ascii "RIFF" ++ (leBytes 4 (4 + (encAll false (pre ++ (ascii "LIST", ascii "INFO" ++ d) :: post)).length)
        ++ ascii "WAVE") ++ encAll false pre).length = 12 + (encAll false pre).length + 12 - 12 := by
    rw [List.length_append, wav_prefix_length]; omega
  rw [e, splice_append _ _ _ _ _ _ hl1 (by omega), ok_bind]
  have e2 : (ascii "RIFF" ++ (leBytes 4 (4 + (encAll false (pre ++ (ascii "LIST", ascii "INFO" ++ d) :: post)).length)
        ++ ascii "WAVE") ++ encAll false pre) ++ encAll false (written items) ++ (encAll false post ++ tail)
      = ascii "RIFF" ++ (leBytes 4 (4 + (encAll false (pre ++ (ascii "LIST", ascii "INFO" ++ d) :: post)).length)
        ++ (ascii "WAVE" ++ (encAll false pre ++ (encAll false (written items) ++ (encAll false post ++ tail))))) := by
    simp only [List.append_assoc]
  rw [e2, splice_append _ _ _ _ 4 8 h4 (by simp)]
  rw [htot]
  simp only [wav, encAll_append, List.append_assoc, List.length_append]
  rw [show (encAll false (written items)).length + (4 + ((encAll false pre).length
      + (12 + d.length + (encAll false post).length)) - (8 + (4 + d.length)))
    = 4 + ((encAll false pre).length + ((encAll false (written items)).length + (encAll false post).length)) by omega]

theorem infoListWith_nil (items : List Item) : infoListWith items [] = infoList items := by
  simp [infoListWith, infoList]

theorem chunksOf_inl (cs : List Chunk) : chunksOf (cs.map .inl) = cs := by
  unfold chunksOf
  rw [List.map_map, show ((Sum.elim id fun p : List Item × Bytes => infoListWith p.1 p.2) ∘ Sum.inl : Chunk → Chunk) = id from rfl, List.map_id]

theorem itemsOf_inl (cs : List Chunk) : itemsOf (cs.map .inl) = [] := by
  induction cs with
  | nil => rfl
  | cons c cs ih => exact ih

theorem itemsOf_append (a b : List (Chunk ⊕ (List Item × Bytes))) : itemsOf (a ++ b) = itemsOf a ++ itemsOf b := by
  simp [itemsOf]

theorem chunksOf_append (a b : List (Chunk ⊕ (List Item × Bytes))) : chunksOf (a ++ b) = chunksOf a ++ chunksOf b := by
  simp [chunksOf]

theorem info_size {items : List Item} (n : Nat) (h : n + (encAll false [infoList items]).length < 2 ^ 32) :
    (infoList items).2.length < 2 ^ 32 := by
  rw [encAll_cons, encAll_nil, List.append_nil, enc_length] at h
  omega

/-- C19: items written to a WAV file (with or without an INFO list of even size) are read
back: exactly the items with a value, in order. -/
theorem readWav_written (strict strict' : Bool) (id3 : Bytes → Except Err Unit) (pre post : List Chunk)
    (old : Option Bytes) (items : List Item)
    (hpre : ∀ d ∈ pre, d.Plain ∧ d.Id3Ok strict' id3) (hpost : ∀ d ∈ post, d.Plain ∧ d.Id3Ok strict' id3)
    (hold : ∀ d, old = some d → d.length % 2 = 0) (hk : ∀ i ∈ items, ItemOk i)
    (hpo : old = none → post = [])
    (hsz : (wav (pre ++ (old.map fun d => (ascii "LIST", ascii "INFO" ++ d)).toList ++ post)).length < 2 ^ 32)
    (hsz' : 4 + (encAll false (pre ++ written items ++ post)).length < 2 ^ 32) :
    ∃ g, writeInfo strict (wav (pre ++ (old.map fun d => (ascii "LIST", ascii "INFO" ++ d)).toList ++ post)) items = .ok g ∧
      readWav strict' id3 g = .ok (items.filter fun i => !i.2.isEmpty) := by
  have hk' : ∀ i ∈ items, FourCC (utf8 i.1) := fun i hi => (hk i hi).1
  refine ⟨wav (pre ++ written items ++ post), ?_, ?_⟩
  · cases old with
    | none =>
      rw [hpo rfl] at hsz hsz' ⊢
      simp only [Option.map_none, Option.toList_none, List.append_nil] at hsz hsz' ⊢
      have := writeInfo_append strict pre [] items (fun d hd => (hpre d hd).1) hk' hsz hsz'
      simpa using this
    | some d =>
      simp only [Option.map_some, Option.toList_some, List.append_assoc, List.singleton_append] at hsz ⊢
      have := writeInfo_replace_partial strict pre post d [] items (fun d hd => (hpre d hd).1) (hold d rfl) hk' hsz hsz'
      simpa using this
  · by_cases hi : items = []
    · subst hi
      have := readWav_wav strict' id3 ((pre ++ post).map .inl) (by
        intro p hp
        obtain ⟨d, hd, rfl⟩ := List.mem_map.mp hp
        rcases List.mem_append.mp hd with h | h
        · exact hpre d h
        · exact hpost d h) (by rw [chunksOf_inl]; simpa [written] using hsz')
      rw [chunksOf_inl, itemsOf_inl] at this
      simpa [written] using this
    · have hw : written items = [infoList (items.filter fun i => !i.2.isEmpty)] := if_neg hi
      have e : chunksOf (pre.map .inl ++ .inr (items.filter fun i => !i.2.isEmpty, []) :: post.map .inl)
          = pre ++ written items ++ post := by
        rw [hw, chunksOf_append, chunksOf_inl, List.append_assoc, List.singleton_append]
        rw [← infoListWith_nil]
        exact congrArg _ (congrArg _ (chunksOf_inl post))
      have := readWav_wav strict' id3 (pre.map .inl ++ .inr (items.filter fun i => !i.2.isEmpty, []) :: post.map .inl) (by
        intro p hp
        rcases List.mem_append.mp hp with h | h
        · obtain ⟨d, hd, rfl⟩ := List.mem_map.mp h
          exact hpre d hd
        · rcases List.mem_cons.mp h with rfl | h
          · refine ⟨fun i hi => hk i (List.mem_filter.mp hi).1, by decide, infoListWith_nil _ ▸ info_size (4 + (encAll false pre).length + (encAll false post).length) ?_⟩
            rw [encAll_append, encAll_append, hw] at hsz'
            simp only [List.length_append] at hsz'
            refine Nat.lt_of_le_of_lt (Nat.le_of_eq ?_) hsz'
            exact (by intros; omega : ∀ P Q c : Nat, 4 + P + Q + c = 4 + (P + c + Q)) _ _ _
          · obtain ⟨d, hd, rfl⟩ := List.mem_map.mp h
            exact hpost d hd) (by rw [e]; exact hsz')
      rw [e] at this
      rw [this, itemsOf_append, itemsOf_inl]
      refine congrArg Except.ok ?_
      show (items.filter fun i => !i.2.isEmpty) ++ itemsOf (post.map .inl) = _
      rw [itemsOf_inl, List.append_nil]

/-- A small file: a format chunk of odd size, an INFO list, audio data. -/
def sampleWav : List Chunk :=
  [(ascii "fmt ", [1, 2, 3]), infoList [(str "IART", str "ab"), (str "INAM", str "x")], (ascii "data", [7, 8])]

example : ItemOk (str "IART", str "abc") :=
  ⟨(validFourcc_iff (by decide)).mp (by decide), by decide, by decide⟩
example : Chunk.Plain (ascii "fmt ", [1, 2, 3]) :=
  ⟨⟨(validFourcc_iff rfl).mp (by decide), by decide⟩, by intro h; exact absurd h (by decide)⟩
example : readWav true (fun _ => .ok ()) (wav sampleWav) = .ok [(str "IART", str "ab"), (str "INAM", str "x")] := by
  decide +kernel
example : PartOk true (fun _ => .ok ()) (.inr ([(str "IART", str "ab")], [0])) :=
  ⟨by intro i hi; rw [List.mem_singleton.mp hi]; exact ⟨(validFourcc_iff (by decide)).mp (by decide), by decide, by decide⟩,
    by decide, by decide⟩
example : readWav true (fun _ => .ok ()) (wav [infoListWith [(str "IART", str "ab")] [0], infoList [(str "INAM", str "x")]])
    = .ok [(str "IART", str "ab"), (str "INAM", str "x")] := by
  decide +kernel
example : writeInfo true (wav sampleWav ++ [9]) [(str "ICMT", str "long"), (str "IGNR", [])]
    = .ok (wav [(ascii "fmt ", [1, 2, 3]), infoList [(str "ICMT", str "long")], (ascii "data", [7, 8])] ++ [9]) := by
  decide +kernel

/-- The full statement of `writeInfo_replace_partial` fails for an old INFO list of odd size:
its padding byte stays in the file and the chunks behind it are no longer found.  Here the
`data` chunk is cut off by removing the INFO list. -/
theorem odd_list_breaks_file :
    writeInfo false (wav [(ascii "LIST", ascii "INFO" ++ (ascii "IART" ++ [1, 0, 0, 0, 65])), (ascii "data", [7, 8])]) []
      = .ok (ascii "RIFF" ++ ([15, 0, 0, 0] ++ (ascii "WAVE" ++ (0 :: enc false (ascii "data", [7, 8]))))) ∧
    ((Chunks.new (ascii "RIFF" ++ ([15, 0, 0, 0] ++ (ascii "WAVE" ++ (0 :: enc false (ascii "data", [7, 8]))))) 12 11).next
      false false).toOption.map (·.1) = some none := by
  decide +kernel

/-- An INFO list whose size field counts the chunk header (accepted by the chunk reader when
it is the last chunk) makes the writer panic. -/
theorem oversized_list_panics :
    writeInfo false (ascii "RIFF" ++ ([16, 0, 0, 0] ++ (ascii "WAVE" ++ (ascii "LIST" ++ ([12, 0, 0, 0] ++ ascii "INFO"))))) []
      = .error .panic := by
  decide +kernel

end Lofty.Iff
