import Verif.Lemmas.Iff
/-! Helper lemmas for AIFF text chunks. -/
namespace Lofty.Iff

theorem mem_textIds (d : Chunk) : d.1 ∈ textIds ↔ d.IsText := by
  simp [textIds, Chunk.IsText]

/-- The ranges of the text chunks, the first chunk starting at `base`. -/
def ranges (base : Nat) : List Chunk → List (Nat × Nat)
  | [] => []
  | d :: ds => (if d.IsText then [(base, base + (enc true d).length)] else [])
      ++ ranges (base + (enc true d).length) ds

/-- The position behind the last `COMM` chunk. -/
def commEnd (base : Nat) (cur : Option Nat) : List Chunk → Option Nat
  | [] => cur
  | d :: ds => commEnd (base + (enc true d).length)
      (if d.1 = ascii "COMM" then some (base + (enc true d).length) else cur) ds

theorem comm_not_text {d : Chunk} (h : d.1 = ascii "COMM") : ¬ d.IsText := by
  unfold Chunk.IsText
  rw [h]
  decide

theorem findText_spec (strict : Bool) (ds : List Chunk) : ∀ (n : Nat) (c : Chunks) (a : Bytes)
    (rs : List (Nat × Nat)) (cm : Option Nat), ds.length < n → (∀ d ∈ ds, d.Ok) →
    c.f = a ++ encAll true ds → Pend c a.length (encAll true ds).length →
    a.length + (encAll true ds).length = 12 + c.total → 12 ≤ a.length →
    findText strict n c rs cm = foundText (rs ++ ranges a.length ds) (commEnd a.length cm ds) := by
  induction ds with
  | nil =>
    intro n c a rs cm hn _ hf hp _ _
    obtain ⟨m, rfl⟩ : ∃ m, n = m + 1 := ⟨n - 1, by simp at hn; omega⟩
    rw [findText, next_end hp (by simp [encAll]), ok_bind]
    simp only [commEnd, ranges, List.append_nil]
  | cons d ds ih =>
    intro n c a rs cm hn hok hf hp ht h12
    obtain ⟨m, rfl⟩ : ∃ m, n = m + 1 := ⟨n - 1, by simp at hn; omega⟩
    obtain ⟨h1, h2⟩ := hok d (by simp)
    have h14 := h1.1
    have hel := enc_length true d
    rw [encAll_cons] at hf hp ht
    rw [List.length_append] at hp ht
    rw [findText, next_pend (be := true) hp hf h1 h2 (by omega), ok_bind]
    simp only
    have hpd := pend_chunk (be := true) (d := d) (a := a) (R := (encAll true ds).length)
      (c := ⟨c.f, a.length + 8, c.total, (enc true d).length + (encAll true ds).length - 8, d.2.length, d.2.length, c.lock⟩)
      hf h14 rfl rfl (by simp only; omega)
    have hih := fun (c1 : Chunks) rs cm (hp : Pend c1 (a ++ enc true d).length (encAll true ds).length)
        (e1 : c1.f = c.f) (e2 : c1.total = c.total) =>
      ih m c1 (a ++ enc true d) rs cm (by simp at hn; omega) (fun d hd => hok d (by simp [hd]))
        (by rw [e1, hf]; simp) hp (by rw [e2, List.length_append]; omega) (by rw [List.length_append]; omega)
    simp only [List.length_append] at hih
    have hfresh := pend_fresh (Chunks.mk c.f (a.length + (enc true d).length) c.total (encAll true ds).length 0 0 c.lock) rfl rfl
    by_cases hT : d.IsText
    · rw [if_pos ((mem_textIds d).mpr hT)]
      have hC : d.1 ≠ ascii "COMM" := fun h => comm_not_text h hT
      unfold Pend at hpd
      rw [hpd, ok_bind, hih _ _ _ hfresh rfl rfl]
      simp only [commEnd, ranges, if_pos hT, if_neg hC]
      unfold Chunks.streamPosition
      simp only
      rw [show c.total - ((enc true d).length + (encAll true ds).length) + 12 = a.length by omega,
        show c.total - (encAll true ds).length + 12 = a.length + (enc true d).length by omega]
      simp
    · rw [if_neg (fun h => hT ((mem_textIds d).mp h))]
      by_cases hC : d.1 = ascii "COMM"
      · rw [if_pos hC]
        unfold Pend at hpd
        rw [hpd, ok_bind, hih _ _ _ hfresh rfl rfl]
        simp only [commEnd, ranges, if_neg hT, if_pos hC]
        unfold Chunks.streamPosition
        simp only
        rw [show c.total - (encAll true ds).length + 12 = a.length + (enc true d).length by omega]
        simp
      · rw [if_neg hC, hih _ _ _ hpd rfl rfl]
        simp only [commEnd, ranges, if_neg hT, if_neg hC]
        simp

theorem splice_append (a x b w : Bytes) (n m : Nat) (hn : a.length = n) (hm : n + x.length = m) :
    splice (a ++ (x ++ b)) n m w = .ok (a ++ w ++ b) := by
  subst hn; subst hm
  unfold splice
  rw [if_pos (by simp), List.take_left, ← List.drop_drop, List.drop_left, List.drop_left]

theorem drainRanges_append (f : Bytes) (rs ss : List (Nat × Nat)) :
    drainRanges f (rs ++ ss) = (drainRanges f rs >>= fun g => drainRanges g ss) := by
  induction rs generalizing f with
  | nil => rfl
  | cons r rs ih =>
    obtain ⟨a, b⟩ := r
    simp only [List.cons_append, drainRanges]
    cases h : splice f a b [] with
    | error e => rfl
    | ok g => simp [ih]

theorem drainRanges_spec (ds : List Chunk) : ∀ (a tail : Bytes),
    drainRanges (a ++ (encAll true ds ++ tail)) (ranges a.length ds).reverse
      = .ok (a ++ (encAll true (ds.filter fun d => ¬ d.IsText) ++ tail)) := by
  induction ds with
  | nil => intro a tail; simp [ranges, drainRanges, encAll]
  | cons d ds ih =>
    intro a tail
    have h := ih (a ++ enc true d) tail
    rw [List.length_append] at h
    simp only [ranges, List.reverse_append, drainRanges_append]
    rw [encAll_cons, List.append_assoc, ← List.append_assoc a, h, ok_bind]
    by_cases hT : d.IsText
    · rw [if_pos hT, List.filter_cons_of_neg (by simpa using hT)]
      simp only [List.reverse_singleton, drainRanges]
      rw [List.append_assoc, splice_append _ _ _ _ _ _ rfl rfl, ok_bind]
      simp
    · rw [if_neg hT, List.filter_cons_of_pos (by simpa using hT), encAll_cons]
      simp [drainRanges]

theorem commEnd_append (base : Nat) (cur : Option Nat) (ds es : List Chunk) :
    commEnd base cur (ds ++ es) = commEnd (base + (encAll true ds).length) (commEnd base cur ds) es := by
  induction ds generalizing base cur with
  | nil => simp [commEnd, encAll]
  | cons d ds ih =>
    simp only [List.cons_append, commEnd, encAll_cons, List.length_append]
    rw [ih, Nat.add_assoc]

theorem commEnd_none (base : Nat) (cur : Option Nat) (ds : List Chunk) (h : ∀ d ∈ ds, d.1 ≠ ascii "COMM") :
    commEnd base cur ds = cur := by
  induction ds generalizing base with
  | nil => rfl
  | cons d ds ih =>
    rw [commEnd, if_neg (h d (by simp))]
    exact ih _ (fun d hd => h d (by simp [hd]))

theorem commEnd_isSome (base : Nat) (cur : Option Nat) (ds : List Chunk) (h : cur.isSome ∨ ∃ d ∈ ds, d.1 = ascii "COMM") :
    (commEnd base cur ds).isSome := by
  induction ds generalizing base cur with
  | nil =>
    rcases h with h | ⟨d, hd, _⟩
    · exact h
    · cases hd
  | cons d ds ih =>
    rw [commEnd]
    apply ih
    by_cases hd : d.1 = ascii "COMM"
    · left; simp [hd]
    · rw [if_neg hd]
      rcases h with h | ⟨e, he, hc⟩
      · exact Or.inl h
      · rcases List.mem_cons.mp he with rfl | he
        · exact absurd hc hd
        · exact Or.inr ⟨e, he, hc⟩

theorem ranges_nil (base : Nat) (ds : List Chunk) (h : ∀ d ∈ ds, ¬ d.IsText) : ranges base ds = [] := by
  induction ds generalizing base with
  | nil => rfl
  | cons d ds ih =>
    rw [ranges, if_neg (h d (by simp)), List.nil_append]
    exact ih _ (fun d hd => h d (by simp [hd]))

theorem ranges_append (base : Nat) (ds es : List Chunk) :
    ranges base (ds ++ es) = ranges base ds ++ ranges (base + (encAll true ds).length) es := by
  induction ds generalizing base with
  | nil => simp [ranges, encAll]
  | cons d ds ih => simp only [List.cons_append, ranges, encAll_cons, List.length_append, ih, Nat.add_assoc, List.append_assoc]

/-! ### Reading -/

/-- Reading chunk `d` turns the collected values `a0` into `a1` and reads only inside it. -/
def Step (strict : Bool) (id3 : Bytes → Except Err Unit) (d : Chunk) (a0 a1 : AiffAcc) : Prop :=
  ∀ (a rest f : Bytes) (t R start : Nat) (l : Option (Nat × Nat)), f = a ++ (enc true d ++ rest) →
    ∃ j, j ≤ d.2.length ∧ aiffChunk strict id3 ⟨d.1, d.2.length, start⟩
      ⟨f, a.length + 8, t, R + d.2.length + d.2.length % 2, d.2.length, d.2.length, l⟩ a0
      = .ok (⟨f, a.length + 8 + j, t, R + (d.2.length - j) + d.2.length % 2, d.2.length, d.2.length - j, l⟩, a1)

/-- Reading the chunks one after the other. -/
def Steps (strict : Bool) (id3 : Bytes → Except Err Unit) : List Chunk → AiffAcc → AiffAcc → Prop
  | [], a0, a1 => a0 = a1
  | d :: ds, a0, a2 => ∃ a1, d.Ok ∧ Step strict id3 d a0 a1 ∧ Steps strict id3 ds a1 a2

theorem steps_append {strict : Bool} {id3 : Bytes → Except Err Unit} {ds es : List Chunk} {a0 a1 a2 : AiffAcc}
    (h1 : Steps strict id3 ds a0 a1) (h2 : Steps strict id3 es a1 a2) : Steps strict id3 (ds ++ es) a0 a2 := by
  induction ds generalizing a0 with
  | nil => cases h1; exact h2
  | cons d ds ih =>
    obtain ⟨b, q1, q2, q3⟩ := h1
    exact ⟨b, q1, q2, ih q3⟩

theorem steps_same {strict : Bool} {id3 : Bytes → Except Err Unit} {ds : List Chunk} {a : AiffAcc}
    (h : ∀ d ∈ ds, d.Ok ∧ Step strict id3 d a a) : Steps strict id3 ds a a := by
  induction ds with
  | nil => rfl
  | cons d ds ih => exact ⟨a, (h d (by simp)).1, (h d (by simp)).2, ih (fun d hd => h d (by simp [hd]))⟩

theorem aiffLoop_steps (strict : Bool) (id3 : Bytes → Except Err Unit) (ds : List Chunk) :
    ∀ (n : Nat) (c : Chunks) (a : Bytes) (a0 a1 : AiffAcc), ds.length < n → Steps strict id3 ds a0 a1 →
    c.f = a ++ encAll true ds → Pend c a.length (encAll true ds).length →
    aiffLoop strict id3 n c a0 = .ok a1 := by
  induction ds with
  | nil =>
    intro n c a a0 a1 hn hs hf hp
    obtain ⟨m, rfl⟩ : ∃ m, n = m + 1 := ⟨n - 1, by simp at hn; omega⟩
    rw [aiffLoop, next_end hp (by simp [encAll]), ok_bind]
    cases hs
    rfl
  | cons d ds ih =>
    intro n c a a0 a2 hn hs hf hp
    obtain ⟨m, rfl⟩ : ∃ m, n = m + 1 := ⟨n - 1, by simp at hn; omega⟩
    obtain ⟨a1, ⟨h1, h2⟩, h3, h4⟩ := hs
    have h14 := h1.1
    have hel := enc_length true d
    rw [encAll_cons] at hf hp
    rw [List.length_append] at hp
    rw [aiffLoop, next_pend (be := true) hp hf h1 h2 (by omega), ok_bind]
    simp only
    obtain ⟨j, hj, hstep⟩ := h3 a (encAll true ds) c.f c.total (encAll true ds).length
      (c.total - ((enc true d).length + (encAll true ds).length)) c.lock hf
    rw [show (enc true d).length + (encAll true ds).length - 8
      = (encAll true ds).length + d.2.length + d.2.length % 2 by omega, hstep, ok_bind]
    simp only
    refine ih m _ (a ++ enc true d) a1 a2 (by simp at hn; omega) h4 (by rw [List.append_assoc]; exact hf) ?_
    rw [List.length_append]
    exact pend_chunk (be := true) (d := d) (a := a) hf h14 rfl (by simp only; omega) (by simp only)

theorem step_plain {strict : Bool} {id3 : Bytes → Except Err Unit} {d : Chunk} (hok : d.Ok) (hT : ¬ d.IsText)
    (hI : d.Id3Ok strict id3) (acc : AiffAcc) : Step strict id3 d acc acc := by
  intro a rest f t R start l hf
  unfold aiffChunk
  simp only
  unfold Chunk.IsText at hT
  simp only [not_or] at hT
  obtain ⟨t1, t2, t3, t4, t5⟩ := hT
  by_cases h : d.1 = ascii "ID3 " ∨ d.1 = ascii "id3 "
  · obtain ⟨g1, g2⟩ := hI h
    rw [if_pos h, readAll (be := true) (d := d) (a := a) hf hok.1.1, ok_bind]
    simp only
    refine ⟨d.2.length, Nat.le_refl _, ?_⟩
    have e : R + d.2.length + d.2.length % 2 - d.2.length = R + (d.2.length - d.2.length) + d.2.length % 2 := by omega
    rw [e, Nat.sub_self]
    by_cases h10 : d.2.length < 10
    · have hs : strict = false := by
        cases strict
        · rfl
        · exact absurd (g1 rfl) (by omega)
      rw [if_pos h10, if_neg (by simp [hs])]
    · rw [if_neg h10, g2 (by omega), ok_bind]
  · rw [if_neg h, if_neg t4, if_neg (fun h => t5 h.1), if_neg (fun h => t1 h.1), if_neg (fun h => t2 h.1),
      if_neg (fun h => t3 h.1)]
    exact ⟨0, by omega, rfl⟩

theorem readString_all {a rest f : Bytes} {id : Bytes} {s : Str} {t R : Nat} {l : Option (Nat × Nat)}
    (hf : f = a ++ (enc true (id, utf8 s) ++ rest)) (hid : id.length = 4) (hs : s.getLast? ≠ some '\x00') :
    readString (Chunks.mk f (a.length + 8) t (R + (utf8 s).length + (utf8 s).length % 2) (utf8 s).length (utf8 s).length l)
      (utf8 s).length
      = .ok (s, ⟨f, a.length + 8 + (utf8 s).length, t, R + ((utf8 s).length - (utf8 s).length) + (utf8 s).length % 2,
        (utf8 s).length, (utf8 s).length - (utf8 s).length, l⟩) := by
  unfold readString
  have := readAll (be := true) (d := (id, utf8 s)) (a := a) (rest := rest) (f := f) (t := t)
    (R := R + (utf8 s).length + (utf8 s).length % 2) (cs := (utf8 s).length) (l := l) hf hid
  simp only at this
  rw [this, ok_bind]
  simp only
  rw [Vorbis.utf8Decode_utf8 s hs, ok_bind, Nat.sub_self,
    show R + (utf8 s).length + (utf8 s).length % 2 - (utf8 s).length = R + 0 + (utf8 s).length % 2 by omega]

theorem fourcc_of {b : Bytes} (h : b.length = 4) (h' : validFourcc b = true) : FourCC b := (validFourcc_iff h).mp h'

theorem step_anno {strict : Bool} {id3 : Bytes → Except Err Unit} {s : Str} (hs : s.getLast? ≠ some '\x00') (acc : AiffAcc) :
    Step strict id3 (ascii "ANNO", utf8 s) acc { acc with annotations := acc.annotations ++ [s] } := by
  intro a rest f t R start l hf
  refine ⟨(utf8 s).length, Nat.le_refl _, ?_⟩
  unfold aiffChunk
  simp only
  rw [if_neg (by decide), if_pos trivial, readString_all hf rfl hs, ok_bind]

theorem step_name {strict : Bool} {id3 : Bytes → Except Err Unit} {s : Str} (hs : s.getLast? ≠ some '\x00') (acc : AiffAcc)
    (h : acc.name = none) : Step strict id3 (ascii "NAME", utf8 s) acc { acc with name := some s } := by
  intro a rest f t R start l hf
  refine ⟨(utf8 s).length, Nat.le_refl _, ?_⟩
  unfold aiffChunk
  simp only
  rw [if_neg (by decide), if_neg (by decide), if_neg (fun h => absurd h.1 (by decide)), if_pos ⟨trivial, h⟩,
    readString_all hf rfl hs, ok_bind]

theorem step_auth {strict : Bool} {id3 : Bytes → Except Err Unit} {s : Str} (hs : s.getLast? ≠ some '\x00') (acc : AiffAcc)
    (h : acc.author = none) : Step strict id3 (ascii "AUTH", utf8 s) acc { acc with author := some s } := by
  intro a rest f t R start l hf
  refine ⟨(utf8 s).length, Nat.le_refl _, ?_⟩
  unfold aiffChunk
  simp only
  rw [if_neg (by decide), if_neg (by decide), if_neg (fun h => absurd h.1 (by decide)),
    if_neg (fun h => absurd h.1 (by decide)), if_pos ⟨trivial, h⟩, readString_all hf rfl hs, ok_bind]

theorem step_copy {strict : Bool} {id3 : Bytes → Except Err Unit} {s : Str} (hs : s.getLast? ≠ some '\x00') (acc : AiffAcc)
    (h : acc.copyright = none) : Step strict id3 (ascii "(c) ", utf8 s) acc { acc with copyright := some s } := by
  intro a rest f t R start l hf
  refine ⟨(utf8 s).length, Nat.le_refl _, ?_⟩
  unfold aiffChunk
  simp only
  rw [if_neg (by decide), if_neg (by decide), if_neg (fun h => absurd h.1 (by decide)),
    if_neg (fun h => absurd h.1 (by decide)), if_neg (fun h => absurd h.1 (by decide)), if_pos ⟨trivial, h⟩,
    readString_all hf rfl hs, ok_bind]

/-! ### Comments -/

/-- The bytes of the comments. -/
def commentBytes (cs : List Comment) : Bytes := cs.flatMap fun c => encComment c.timestamp c.marker c.text

/-- The fields of a comment fit, its text does not end in NUL. -/
def Comment.Ok (c : Comment) : Prop :=
  c.timestamp < 2 ^ 32 ∧ c.marker < 2 ^ 16 ∧ (utf8 c.text).length ≤ 65535 ∧ c.text.getLast? ≠ some '\x00'

/-- All texts but the last have even length. -/
def EvenInit (cs : List Comment) : Prop := ∀ c ∈ cs.dropLast, (utf8 c.text).length % 2 = 0

theorem parseComments_spec (cs : List Comment) : ∀ (c : Chunks) (a rest : Bytes) (out : List Comment),
    (∀ x ∈ cs, x.Ok) → EvenInit cs → c.f = a ++ (commentBytes cs ++ rest) → c.pos = a.length →
    (commentBytes cs).length ≤ c.cr → ∃ j, j ≤ (commentBytes cs).length ∧
      parseComments cs.length c out
        = .ok (out ++ cs, { c with pos := c.pos + j, remaining := c.remaining - j, cr := c.cr - j }) := by
  induction cs with
  | nil =>
    intro c a rest out _ _ _ _ _
    exact ⟨0, by simp, by simp [parseComments]⟩
  | cons x xs ih =>
    intro c a rest out hok hev hf hp hcr
    obtain ⟨h1, h2, h3, h4⟩ := hok x (by simp)
    have e : commentBytes (x :: xs) = encComment x.timestamp x.marker x.text ++ commentBytes xs := rfl
    rw [e] at hf hcr
    have hel : (encComment x.timestamp x.marker x.text).length = 8 + (utf8 x.text).length + (utf8 x.text).length % 2 := by
      simp [encComment]; omega
    rw [List.length_append] at hcr
    simp only [encComment, List.append_assoc] at hf
    rw [List.length_cons, parseComments, readExact_append hf hp (beBytes_length _ _) (by omega), ok_bind]
    simp only
    have hf2 := hf
    rw [← List.append_assoc a] at hf2
    rw [readExact_append (c := ⟨c.f, c.pos + 4, c.total, c.remaining - 4, c.cs, c.cr - 4, c.lock⟩) hf2 (by simp [hp])
      (beBytes_length _ _) (by simp only; omega), ok_bind]
    simp only
    have hf3 := hf2
    rw [← List.append_assoc (a ++ _)] at hf3
    rw [readExact_append (c := ⟨c.f, c.pos + 4 + 2, c.total, c.remaining - 4 - 2, c.cs, c.cr - 4 - 2, c.lock⟩) hf3
      (by simp [hp]) (beBytes_length _ _) (by simp only; omega), ok_bind]
    simp only
    rw [fromBE_beBytes_of_lt (k := 2) (by omega), fromBE_beBytes_of_lt (k := 2) (by omega), fromBE_beBytes_of_lt (k := 4) (by omega)]
    have hf4 := hf3
    rw [← List.append_assoc (a ++ _ ++ _)] at hf4
    unfold readString
    rw [readExact_append (c := ⟨c.f, c.pos + 4 + 2 + 2, c.total, c.remaining - 4 - 2 - 2, c.cs, c.cr - 4 - 2 - 2, c.lock⟩) hf4
      (by simp [hp]) rfl (by simp only; omega), ok_bind]
    simp only
    rw [Vorbis.utf8Decode_utf8 _ h4, ok_bind, ok_bind]
    simp only
    cases xs with
    | nil =>
      refine ⟨8 + (utf8 x.text).length, by rw [e, List.length_append]; omega, ?_⟩
      simp only [List.length_nil, parseComments]
      congr 3 <;> omega
    | cons y ys =>
      have hx : (utf8 x.text).length % 2 = 0 := hev x (by simp)
      have hev' : EvenInit (y :: ys) := fun c hc => hev c (by simp [hc])
      have hf5 := hf4
      rw [hx, List.replicate_zero, List.nil_append, ← List.append_assoc (a ++ _ ++ _ ++ _)] at hf5
      obtain ⟨j, hj, hr⟩ := ih ⟨c.f, c.pos + 4 + 2 + 2 + (utf8 x.text).length, c.total,
        c.remaining - 4 - 2 - 2 - (utf8 x.text).length, c.cs, c.cr - 4 - 2 - 2 - (utf8 x.text).length, c.lock⟩ _ rest
        (out ++ [⟨x.timestamp, x.marker, x.text⟩]) (fun x hx => hok x (by simp [hx])) hev' hf5
        (by simp [hp]; omega) (by simp only; omega)
      refine ⟨8 + (utf8 x.text).length + j, by rw [e, List.length_append]; omega, ?_⟩
      rw [hr, List.append_assoc, List.singleton_append]
      congr 3 <;> simp only <;> omega

theorem step_comt {strict : Bool} {id3 : Bytes → Except Err Unit} {cs : List Comment} (hok : ∀ x ∈ cs, x.Ok)
    (hev : EvenInit cs) (hn : cs.length ≤ 65535) (acc : AiffAcc) (h : acc.comments = []) :
    Step strict id3 (ascii "COMT", beBytes 2 cs.length ++ commentBytes cs) acc { acc with comments := cs } := by
  intro a rest f t R start l hf
  generalize hL : (beBytes 2 cs.length ++ commentBytes cs).length = L
  have hL' : L = 2 + (commentBytes cs).length := by rw [← hL]; simp
  have hf2 : f = (a ++ (ascii "COMT" ++ beBytes 4 L)) ++ (beBytes 2 cs.length ++ (commentBytes cs
      ++ (List.replicate (L % 2) 0 ++ rest))) := by
    rw [hf]; unfold enc; simp only [hL]; simp
  have hl : (a ++ (ascii "COMT" ++ beBytes 4 L)).length = a.length + 8 := by
    simp; rfl
  have hf3 := hf2
  rw [← List.append_assoc (a ++ _)] at hf3
  obtain ⟨j, hj, hp⟩ := parseComments_spec cs ⟨f, a.length + 8 + 2, t, R + L + L % 2 - 2, L, L - 2, l⟩ _ _ [] hok hev hf3
    (by simp only [List.length_append, beBytes_length] at hl ⊢; omega) (by simp only; omega)
  refine ⟨2 + j, by omega, ?_⟩
  unfold aiffChunk
  simp only
  rw [if_neg (by decide), if_neg (by decide), if_pos ⟨trivial, h⟩, if_neg (by omega),
    readExact_append (c := ⟨f, a.length + 8, t, R + L + L % 2, L, L, l⟩) hf2 (by rw [hl]) (beBytes_length _ _)
      (by simp only; omega), ok_bind]
  simp only
  rw [fromBE_beBytes_of_lt (k := 2) (by omega), hp, ok_bind]
  simp only [List.nil_append]
  congr 3 <;> omega

end Lofty.Iff
