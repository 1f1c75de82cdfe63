import Verif.Lemmas.Id3v23Date
import Verif.Props.Id3v22
import Verif.Spec.Id3v23Dates
/-!
# The date of a recording in an ID3v2.3 tag (C95)
-/
namespace Lofty.Id3v2
open Lofty.Text (Encoding)

theorem upId_nextId (s : Str) : upId true true s = nextId s := by
  unfold upId nextId
  rw [if_pos ⟨rfl, rfl⟩]
  by_cases h1 : s = str "TYER"
  · subst h1; decide
  · by_cases h2 : s = str "TORY"
    · subst h2; decide
    · by_cases h3 : s = str "IPLS"
      · subst h3; decide
      · rw [if_neg h1, if_neg h2, if_neg h3, lookup_none (by simp [h1, h2, h3])]; rfl

/-! ## Frames -/

/-- A frame of an ID3v2.3 tag, by its id, what it says and its body. -/
structure Part23 where
  name : Str
  content : Content
  body : Bytes

/-- The bytes of the frames. -/
def pieceBytes (l : List Part23) : Bytes := l.flatMap fun f => frame23 f.name f.body

/-- A frame whose id has the meaning of the content's id in ID3v2.4, and whose body is that of the content. -/
def Part23.Ok (po : ParseOpts) (f : Part23) : Prop :=
  IdOk f.name ∧ f.content.id = .valid (nextId f.name) ∧ (∃ ne, ContentOk (oldOpts ne) po f.content ∧ f.content.reencode (oldOpts ne) = f.content ∧
    f.content.asBytes (oldOpts ne) = .ok f.body) ∧ f.body.length < 2 ^ 32

theorem nextId_ok {s : Str} (h : IdOk s) : IdOk (nextId s) := by
  unfold nextId
  split
  · decide
  · split
    · decide
    · split
      · decide
      · exact h

theorem piece_read (rc : Bytes → Except Err (List Frame × Bytes)) (po : ParseOpts) (hi : po.implicit = true) {f : Part23} (h : f.Ok po) (rest : Bytes) :
    readFrame rc po .v3 false (frame23 f.name f.body ++ rest) = .ok (.next (.leaf {} f.content) rest) := by
  obtain ⟨h1, h2, ⟨ne, h3, h4, h5⟩, h6⟩ := h
  have hw : writeFrame (oldOpts ne) f.name {} f.body = .ok (frame23 f.name f.body) := by
    show (Except.ok _ : Except Err Bytes) = _
    rw [Nat.mod_eq_of_lt h6]; rfl
  have hu : upId (oldOpts ne).v23 po.implicit f.name = nextId f.name := by rw [hi]; exact upId_nextId _
  have hc := cover_of_ok h3
  rw [h2] at hc
  have := readFrame_up rc (oldOpts ne) po rest h1 (by rw [hu]; exact nextId_ok h1) (by decide) (content_nonempty _ _ _ h3 h5) h6 (by rw [hu]; exact hc) hw
  rw [hu] at this
  rw [show Version.v3 = (oldOpts ne).version from rfl, this, parseFrame, parseContent]
  obtain ⟨n1, n2⟩ := notChapter_of_ok h3
  rw [h2] at n1 n2
  have h7 := content_rt (oldOpts ne) po f.content h3 h5
  rw [h2, h4] at h7
  rw [if_neg n1, if_neg n2, h7]
  rfl

theorem pieces_loop (rc : Bytes → Except Err (List Frame × Bytes)) (po : ParseOpts) (hi : po.implicit = true) (pad : Nat) (l : List Part23) (h : ∀ f ∈ l, f.Ok po) :
    ∀ (acc : List Frame) (n : Nat), (pieceBytes l).length < n →
      ∃ r, readLoop rc po .v3 false n (pieceBytes l ++ List.replicate pad 0) acc = .ok ((l.map fun f => Frame.leaf {} f.content).foldl addFrame acc, r) := by
  induction l with
  | nil =>
    intro acc n hn
    obtain ⟨n, rfl⟩ : ∃ k, n = k + 1 := ⟨n - 1, by omega⟩
    have : parseFrameHeader .v3 po.implicit (pieceBytes [] ++ List.replicate pad 0) = .none :=
      noFrame_header (oldOpts false) po.implicit (by
        cases pad with
        | zero => exact .inl (by decide)
        | succ k => exact .inr rfl)
    refine ⟨(List.replicate pad 0).drop 10, ?_⟩
    rw [readLoop, readFrame, this]
    rfl
  | cons f l ih =>
    intro acc n hn
    have hb : pieceBytes (f :: l) = frame23 f.name f.body ++ pieceBytes l := rfl
    obtain ⟨n, rfl⟩ : ∃ k, n = k + 1 := ⟨n - 1, by omega⟩
    have hl : 0 < (frame23 f.name f.body).length := by simp [frame23]
    rw [hb, List.length_append] at hn
    obtain ⟨r, hr⟩ := ih (fun g hg => h g (by simp [hg])) (addFrame acc (.leaf {} f.content)) n (by omega)
    refine ⟨r, ?_⟩
    rw [readLoop, hb, List.append_assoc, piece_read rc po hi (h f (by simp))]
    exact hr

theorem foldl_distinct : ∀ (fs acc : List Frame), (acc ++ fs).Pairwise (fun a b => ¬ Same a b) → OncePerTag (acc ++ fs) → fs.foldl addFrame acc = acc ++ fs := by
  intro fs
  induction fs with
  | nil => intro acc _ _; simp
  | cons f fs ih =>
    intro acc h1 h2
    rw [List.foldl_cons, addFrame_new h1 h2, ih _ (by simpa using h1) (by simpa using h2)]
    simp

/-- What is read before the date is put together. -/
theorem pieces_parse (po : ParseOpts) (hi : po.implicit = true) (l : List Part23) (h : ∀ f ∈ l, f.Ok po)
    (hs : (l.map fun f => Frame.leaf {} f.content).Pairwise (fun a b => ¬ Same a b)) (ho : OncePerTag (l.map fun f => Frame.leaf {} f.content))
    (pad d : Nat) : parseTag po .v3 false (d + 1) (pieceBytes l ++ List.replicate pad 0) = .ok (constructTdrc (l.map fun f => Frame.leaf {} f.content)) := by
  obtain ⟨r, hr⟩ := pieces_loop (readAll po .v3 d false) po hi pad l h [] ((pieceBytes l ++ List.replicate pad 0).length + 1) (by simp; omega)
  rw [foldl_distinct _ [] (by simpa using hs) (by simpa using ho), List.nil_append] at hr
  rw [parseTag]
  simp only [Bool.false_and, Bool.false_eq_true, if_false, readAll, hr, ok_bind, hi]
  rfl

/-! ## Dates -/

/-- The frames with the day and the time, where there are any. -/
def dayAndTime (fl ft : FrameFlags) (ed et : Encoding) (day : Option (Nat × Nat)) (time : Option (Nat × Nat)) : List Frame :=
  (day.map fun p => dayFrame fl ed p.1 p.2).toList ++ (time.map fun p => timeFrame ft et p.1 p.2).toList

theorem construct_parts {R B : List Frame} (hB : NoDate B) (fy fl ft : FrameFlags) (ey ed et : Encoding) (y : Nat) (day time : Option (Nat × Nat))
    (hd : ∀ p, day = some p → p.1 < 100 ∧ p.2 < 100) (ht : ∀ p, time = some p → p.1 < 100 ∧ p.2 < 100)
    (hR : R.Perm (B ++ yearFrame fy ey y :: dayAndTime fl ft ed et day time)) :
    (constructTdrc R).Perm (B ++ joined ft ey et y day time) := by
  have b1 : ∀ g ∈ B, g.id ≠ .valid (str "TDRC") := fun g hg => (hB g hg).1
  have b2 : ∀ g ∈ B, g.id ≠ .valid (str "TDAT") := fun g hg => (hB g hg).2.1
  have b3 : ∀ g ∈ B, g.id ≠ .valid (str "TIME") := fun g hg => (hB g hg).2.2
  generalize hT : dayAndTime fl ft ed et day time = T at *
  have hTid : ∀ g ∈ T, g.id ≠ .valid (str "TDRC") := by
    intro g hg
    rw [← hT, dayAndTime] at hg
    rcases List.mem_append.mp hg with hg | hg
    · obtain ⟨p, _, rfl⟩ := Option.map_eq_some_iff.mp (Option.mem_toList.mp hg)
      exact (by decide : FrameId.valid (str "TDAT") ≠ .valid (str "TDRC"))
    · obtain ⟨p, _, rfl⟩ := Option.map_eq_some_iff.mp (Option.mem_toList.mp hg)
      exact (by decide : FrameId.valid (str "TIME") ≠ .valid (str "TDRC"))
  have r1 := (remove_partial R (.valid (str "TDRC"))).1
  have hf := hR.filter fun g => decide (g.id = .valid (str "TDRC"))
  rw [List.filter_append, filter_id_nil b1, List.nil_append, List.filter_cons_of_pos (by exact decide_eq_true rfl), filter_id_nil hTid] at hf
  rw [List.perm_singleton.mp hf] at r1
  have r2 := remove_perm (x := .valid (str "TDRC")) hR
  rw [List.filter_append, filter_id_all b1, List.filter_cons_of_neg (by simp [yearFrame, Frame.id, Content.id]), filter_id_all hTid] at r2
  unfold constructTdrc
  generalize remove R (.valid (str "TDRC")) = r at r1 r2 ⊢
  obtain ⟨a, l'⟩ := r
  simp only at r1 r2
  subst r1
  have hl' : ∀ g ∈ l', g.id ≠ .valid (str "TDRC") := by
    intro g hg
    rcases List.mem_append.mp (r2.mem_iff.mp hg) with h | h
    · exact b1 g h
    · exact hTid g h
  have ins : ∀ (e : Encoding) (w : Timestamp), (insert l' (.leaf {} (.time ⟨.valid (str "TDRC"), e, w⟩))).2 = l' ++ [recorded e w] :=
    fun e w => insert_new hl' (by show str "TDRC" ∉ _; decide)
  simp only [yearFrame, Option.isSome_none, Bool.false_eq_true, if_false, ins]
  have nday : ∀ p, day = some p → twoNumbers (Timestamp.pad 2 p.1 ++ Timestamp.pad 2 p.2) = some p := fun p hp => twoNumbers_pads (hd p hp).1 (hd p hp).2
  have ntime : ∀ p, time = some p → twoNumbers (Timestamp.pad 2 p.1 ++ Timestamp.pad 2 p.2) = some p := fun p hp => twoNumbers_pads (ht p hp).1 (ht p hp).2
  have hne : (FrameId.valid (str "TDAT")) ≠ .valid (str "TIME") := by decide
  have hne' : (FrameId.valid (str "TIME")) ≠ .valid (str "TDAT") := by decide
  cases day with
  | none =>
    have g1 : get l' (.valid (str "TDAT")) = none := by
      refine (get_perm r2 b2 ?_).trans ?_
      all_goals
        rw [← hT]
        cases time with
        | none => first | rfl | exact Nat.zero_le _
        | some p =>
          show _
          simp only [dayAndTime, Option.map_none, Option.toList_none, List.nil_append, Option.map_some, Option.toList_some]
          rw [List.filter_cons_of_neg (by exact neg_id (a := .valid (str "TIME")) rfl hne')]
          first | rfl | exact Nat.zero_le _
    rw [numbersOf, getText, g1]
    simp only [Option.bind_none]
    have := r2.append_right [recorded ey ⟨y, none, none, none, none, none⟩]
    rw [← hT, List.append_assoc] at this
    cases time <;> exact this
  | some p =>
    have hp := nday p rfl
    have g1 : get l' (.valid (str "TDAT")) = some (dayFrame fl ed p.1 p.2) := by
      refine (get_perm r2 b2 ?_).trans ?_
      all_goals
        rw [← hT]
        cases time with
        | none =>
          show _
          simp only [dayAndTime, Option.map_none, Option.toList_none, List.append_nil, Option.map_some, Option.toList_some]
          rw [List.filter_cons_of_pos (by rfl)]
          first | rfl | exact Nat.le_refl _
        | some q =>
          show _
          simp only [dayAndTime, Option.map_some, Option.toList_some, List.cons_append, List.nil_append]
          rw [List.filter_cons_of_pos (by rfl), List.filter_cons_of_neg (by exact neg_id (a := .valid (str "TIME")) rfl hne')]
          first | rfl | exact Nat.le_refl _
    cases time with
    | none =>
      have g2 : get l' (.valid (str "TIME")) = none := by
        refine (get_perm r2 b3 ?_).trans ?_
        all_goals
          rw [← hT]
          simp only [dayAndTime, Option.map_none, Option.toList_none, List.append_nil, Option.map_some, Option.toList_some]
          rw [List.filter_cons_of_neg (by exact neg_id (a := .valid (str "TDAT")) rfl hne)]
          first | rfl | exact Nat.zero_le _
      simp only [numbersOf, getText, g1, g2, dayFrame, Option.bind_some, Option.bind_none, hp]
      have p1 := remove_perm (x := .valid (str "TDAT")) (r2.append_right [recorded ey ⟨y, some p.2, some p.1, none, none, none⟩])
      rw [List.append_assoc, List.filter_append, filter_id_all b2, ← hT] at p1
      exact p1
    | some q =>
      have hq := ntime q rfl
      have g2 : get l' (.valid (str "TIME")) = some (timeFrame ft et q.1 q.2) := by
        refine (get_perm r2 b3 ?_).trans ?_
        all_goals
          rw [← hT]
          simp only [dayAndTime, Option.map_some, Option.toList_some, List.cons_append, List.nil_append]
          rw [List.filter_cons_of_neg (by exact neg_id (a := .valid (str "TDAT")) rfl hne), List.filter_cons_of_pos (by rfl)]
          first | rfl | exact Nat.le_refl _
      simp only [numbersOf, getText, g1, g2, dayFrame, timeFrame, Option.bind_some, hp, hq]
      have p1 := remove_perm (x := .valid (str "TDAT")) (r2.append_right [recorded ey ⟨y, some p.2, some p.1, some q.1, some q.2, none⟩])
      rw [List.append_assoc, List.filter_append, filter_id_all b2, ← hT] at p1
      have p2 := remove_perm (x := .valid (str "TIME")) p1
      rw [List.filter_append, filter_id_all b3] at p2
      exact p2

/-- **Dates are put together**: in an ID3v2.3 tag with the year, the day and the time of a recording, anywhere among frames `B` that say nothing about it, the three
frames become one that says all of it; without a time, the day; without a day, the year alone (a time then stays as it was).  Nothing else changes.

Missing, because the program does not do it: a year frame, or a frame of ID3v2.4, that holds more than a year is dropped (`full_date_lost`). -/
theorem date_v23_partial (po : ParseOpts) (hi : po.implicit = true) (l : List Part23) (h : ∀ f ∈ l, f.Ok po)
    (hs : (l.map fun f => Frame.leaf {} f.content).Pairwise (fun a b => ¬ Same a b)) (ho : OncePerTag (l.map fun f => Frame.leaf {} f.content))
    {B : List Frame} (hB : NoDate B) (ey ed et : Encoding) (y : Nat) (day time : Option (Nat × Nat))
    (hd : ∀ p, day = some p → p.1 < 100 ∧ p.2 < 100) (ht : ∀ p, time = some p → p.1 < 100 ∧ p.2 < 100)
    (hl : (l.map fun f => Frame.leaf {} f.content).Perm (B ++ yearFrame {} ey y :: dayAndTime {} {} ed et day time)) (pad d : Nat) :
    ∃ L, parseTag po .v3 false (d + 1) (pieceBytes l ++ List.replicate pad 0) = .ok L ∧
      L.Perm (B ++ joined {} ey et y day time) :=
  ⟨_, pieces_parse po hi l h hs ho pad d, construct_parts hB _ _ _ ey ed et y day time hd ht hl⟩

/-- **Without a date** the frames are those of the tag, in their order. -/
theorem no_date_v23 (po : ParseOpts) (hi : po.implicit = true) (l : List Part23) (h : ∀ f ∈ l, f.Ok po)
    (hs : (l.map fun f => Frame.leaf {} f.content).Pairwise (fun a b => ¬ Same a b)) (ho : OncePerTag (l.map fun f => Frame.leaf {} f.content))
    (hn : ∀ f ∈ l, f.name ≠ str "TYER" ∧ f.name ≠ str "TDRC") (pad d : Nat) :
    parseTag po .v3 false (d + 1) (pieceBytes l ++ List.replicate pad 0) = .ok (l.map fun f => Frame.leaf {} f.content) := by
  rw [pieces_parse po hi l h hs ho pad d, construct_none]
  intro g hg
  obtain ⟨f, hf, rfl⟩ := List.mem_map.mp hg
  obtain ⟨h1, h2⟩ := hn f hf
  rw [Frame.id, (h f hf).2.1]
  intro e
  have e := FrameId.valid.inj e
  unfold nextId at e
  rw [if_neg h1] at e
  split at e
  · exact absurd e (by decide)
  · split at e
    · exact absurd e (by decide)
    · exact h2 e

/-! ## Disagreements -/

/-- **Disagreement**: a date in one frame is lost, under the id of ID3v2.4 (which other programs write into ID3v2.3 tags) and under that of ID3v2.3. -/
theorem full_date_lost :
    parseTag (opts .strict) .v3 false 1 (frame23 (str "TIT2") (0 :: ascii "t") ++ frame23 (str "TDRC") (0 :: ascii "2001-03-12")) =
      .ok [.leaf {} (.text ⟨.valid (str "TIT2"), .latin1, str "t"⟩)] ∧
    parseTag (opts .strict) .v3 false 1 (frame23 (str "TIT2") (0 :: ascii "t") ++ frame23 (str "TYER") (0 :: ascii "2001-03-12")) =
      .ok [.leaf {} (.text ⟨.valid (str "TIT2"), .latin1, str "t"⟩)] ∧
    parseTag { opts .strict with implicit := false } .v3 false 1 (frame23 (str "TIT2") (0 :: ascii "t") ++ frame23 (str "TDRC") (0 :: ascii "2001-03-12")) =
      .ok [.leaf {} (.text ⟨.valid (str "TIT2"), .latin1, str "t"⟩), recorded .latin1 ⟨2001, some 3, some 12, none, none, none⟩] := by decide +kernel

/-- **Disagreement**: a day that does not exist is taken over unchecked, and the tag can then not be saved. -/
theorem wrong_day_taken :
    parseTag (opts .strict) .v3 false 1 (frame23 (str "TYER") (0 :: ascii "2001") ++ frame23 (str "TDAT") (0 :: ascii "9999")) =
      .ok [recorded .latin1 ⟨2001, some 99, some 99, none, none, none⟩] ∧
    (createItems ⟨false, false, true⟩ [recorded .latin1 ⟨2001, some 99, some 99, none, none, none⟩]).toOption = none := by decide +kernel

/-! ## A tag -/

/-- The time before the year, in UTF-16, a title, and the day at the end. -/
def samplePieces : List Part23 :=
  [ ⟨str "TIME", .text ⟨.valid (str "TIME"), .utf16, str "0815"⟩, [1, 0xFF, 0xFE, 48, 0, 56, 0, 49, 0, 53, 0]⟩,
    ⟨str "TYER", .time ⟨.valid (str "TDRC"), .latin1, ⟨2001, none, none, none, none, none⟩⟩, 0 :: ascii "2001"⟩,
    ⟨str "TIT2", .text ⟨.valid (str "TIT2"), .latin1, str "t"⟩, 0 :: ascii "t"⟩,
    ⟨str "TDAT", .text ⟨.valid (str "TDAT"), .latin1, str "1203"⟩, 0 :: ascii "1203"⟩ ]

theorem samplePieces_ok : ∀ f ∈ samplePieces, f.Ok (opts .strict) := by
  intro f hf
  simp only [samplePieces, List.mem_cons, List.not_mem_nil, or_false] at hf
  rcases hf with rfl | rfl | rfl | rfl
  · exact ⟨by decide, by decide, ⟨false, ⟨.inl ⟨rfl, by decide⟩, by decide⟩, rfl, by decide⟩, by decide⟩
  · exact ⟨by decide, by decide, ⟨false, ⟨by decide, (Timestamp.verify_iff _).mp (by decide)⟩, rfl, by decide⟩, by decide⟩
  · exact ⟨by decide, by decide, ⟨false, ⟨.inl ⟨rfl, by decide⟩, by decide⟩, rfl, by decide⟩, by decide⟩
  · exact ⟨by decide, by decide, ⟨false, ⟨.inl ⟨rfl, by decide⟩, by decide⟩, rfl, by decide⟩, by decide⟩

example (pad d : Nat) : ∃ L, parseTag (opts .strict) .v3 false (d + 1) (pieceBytes samplePieces ++ List.replicate pad 0) = .ok L ∧
    L.Perm ([.leaf {} (.text ⟨.valid (str "TIT2"), .latin1, str "t"⟩)] ++ [recorded .latin1 ⟨2001, some 3, some 12, some 8, some 15, none⟩]) :=
  date_v23_partial (opts .strict) rfl samplePieces samplePieces_ok (by decide +kernel) (once_of_nodup (by decide))
    (B := [.leaf {} (.text ⟨.valid (str "TIT2"), .latin1, str "t"⟩)]) (by
      intro g hg
      simp only [List.mem_singleton] at hg
      subst hg
      exact ⟨by decide, by decide, by decide⟩) .latin1 .latin1 .utf16 2001 (some (12, 3)) (some (8, 15))
    (by rintro p ⟨⟩; decide) (by rintro p ⟨⟩; decide) (by decide +kernel) pad d

end Lofty.Id3v2
