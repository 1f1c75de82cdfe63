import Verif.Spec.Chained
import Verif.Props.FileTags
import Verif.Props.Id3v2List
/-!
# C96: several ID3v2 tags in front of the audio of an MPEG file
-/
namespace Lofty.FileTags

theorem made_lead {o : Opts} {audio : Bytes} {x : Bytes × Id3Tag} (h : Made o audio x) : LeadOf o.id3 x.1 (some x.2) := by
  obtain ⟨fl, w, padding, fs, hne, hs, hb, hx⟩ := h
  rw [hx]
  rcases hs with hs | ⟨h1, h2, h3, h4, h5, h6, h7⟩
  · exact absurd hs hne
  · simp only [Save.encoded] at hb
    rw [if_neg (by simpa using hne)] at hb
    obtain ⟨body, hbody, hb⟩ := bind_ok hb
    rw [h1] at hb
    have hsz := h7 body hbody
    have hrt := Id3v2.tag_rt_v4_partial w o.id3 fs h1 h5 h6 hbody (by omega)
    exact .tag fl padding body fs x.1 h2 h3 h4 hsz hb hrt

/-- The tags behind the first: each is read where the one before ends, and its frames are inserted. -/
theorem front_rest {o : Opts} (ho : o.readTags = true) {audio suf : Bytes} (ha : Audio o audio)
    {h : Mpeg.Header} {k : Nat} (hk : Mpeg.findNext audio (audio.length + 1) 0 = .ok (some (h, k))) (l : List (Bytes × Id3Tag))
    (hl : ∀ x ∈ l, LeadOf o.id3 x.1 (some x.2) ∧ x.2.flags.footer = false) :
    ∃ d0, ∀ d, d0 ≤ d → ∀ (pre : Bytes) (n : Nat) (old : Id3Tag),
      front { o with depth := d } (pre ++ (chain l ++ (audio ++ suf))) (n + l.length + 1) pre.length ⟨some old, none⟩ =
        .ok (⟨some { old with frames := (l.map fun y => y.2.frames).flatten.foldl (fun fs f => (Id3v2.insert fs f).2) old.frames }, none⟩,
          some (h, pre.length + (chain l).length + k)) := by
  have hlong := ha.long
  induction l with
  | nil =>
    refine ⟨0, fun d _ pre n old => ?_⟩
    have hr4 : readAt audio 0 4 = .ok (audio.take 4) := by unfold readAt; rw [if_pos (by omega)]; simp
    have h3 : (audio.take 4).take 3 ≠ ascii "ID3" := by
      rw [List.take_take]; exact noMarker_take3 ha.noId3v2 ha.junk.1
    have hrd := readAt_ext (pre := pre) (suf := suf) hr4
    rw [Nat.add_zero] at hrd
    simp only [chain, List.map_nil, List.flatten_nil, List.nil_append, List.length_nil, Nat.add_zero, List.foldl_nil]
    rw [front, hrd]
    simp only
    rw [if_neg h3, if_neg ha.noApe]
    have := findNext_ext pre audio suf _ ((pre ++ (audio ++ suf)).length + 1) 0 h k hk (by simp; omega)
    simp only [Nat.add_zero] at this
    rw [this, ok_bind]
    rfl
  | cons x l ih =>
    obtain ⟨d1, ih⟩ := ih fun y hy => hl y (by simp [hy])
    obtain ⟨hx, hfoot⟩ := hl x (by simp)
    obtain ⟨xb, xt⟩ := x
    simp only at hx hfoot
    cases hx with
    | tag fl padding body fs b hcrc hres hun hsize hb hr =>
    obtain ⟨d0, hr⟩ := hr
    refine ⟨max d0 d1, fun d hd pre n old => ?_⟩
    simp only at hfoot
    generalize hrest : chain l ++ (audio ++ suf) = rest at *
    obtain ⟨pad, p1, p2, p3⟩ := lead_parse hcrc hres hun hsize hb rest
    rw [hfoot, if_neg (by simp), Nat.add_zero] at p3
    have hid : xb.take 3 = ascii "ID3" := (Id3v2.findAt_written ⟨fl, false, padding, body, hcrc, hres, by simp, hsize, hb⟩ []).2.1
    have hf : chain ((xb, (⟨.v4, fl, fs⟩ : Id3Tag)) :: l) ++ (audio ++ suf) = xb ++ rest := by
      rw [← hrest]; simp [chain]
    rw [hf]
    have hrd : readAt (pre ++ (xb ++ rest)) pre.length 4 = .ok (xb.take 4) := by
      unfold readAt
      rw [if_pos (by simp only [List.length_append]; omega), List.drop_left' rfl, List.take_append_of_le_length (by omega)]
    have hp := Id3v2.parseHeader_shift pre (xb ++ rest) 0
    rw [p1, Nat.add_zero] at hp
    rw [List.length_cons, ← Nat.add_assoc, front, hrd]
    simp only
    rw [if_pos (by rw [List.take_take]; exact hid), hp]
    simp only [Id3v2.shift]
    rw [ho, if_pos rfl]
    unfold parseId3
    simp only
    have hdrop : (pre ++ (xb ++ rest)).drop (pre.length + 10) = (xb ++ rest).drop 10 := by
      rw [← List.drop_drop, List.drop_left' rfl]
    rw [Nat.sub_zero, hdrop, p2, hun, hr d (by omega) pad, ok_bind, ok_bind]
    have hlen : (pre ++ (xb ++ rest)).length - (pre.length + 10) ≥ body.length + pad := by simp only [List.length_append]; omega
    rw [Nat.min_eq_left hlen]
    have := ih d (by omega) (pre ++ xb) n (addFrames old fs)
    rw [List.append_assoc, List.length_append, ho, p3] at this
    rw [Nat.add_assoc pre.length 10, this]
    simp only [addFrames, List.map_cons, List.flatten_cons, List.foldl_append, chain, List.length_append, p3]
    simp only [Nat.add_assoc]

/-- All the tags, from the start of the file. -/
theorem front_chain {o : Opts} (ho : o.readTags = true) {audio suf : Bytes} (ha : Audio o audio)
    {h : Mpeg.Header} {k : Nat} (hk : Mpeg.findNext audio (audio.length + 1) 0 = .ok (some (h, k))) (x : Bytes × Id3Tag) (l : List (Bytes × Id3Tag))
    (hx : LeadOf o.id3 x.1 (some x.2)) (hl : ∀ x ∈ l, LeadOf o.id3 x.1 (some x.2) ∧ x.2.flags.footer = false) :
    ∃ d0, ∀ d, d0 ≤ d → ∀ n, front { o with depth := d } (chain (x :: l) ++ (audio ++ suf)) (n + l.length + 2) 0 ⟨none, none⟩ =
      .ok (⟨merged (x :: l), none⟩, some (h, (chain (x :: l)).length + k)) := by
  obtain ⟨d1, hrest⟩ := front_rest (suf := suf) ho ha hk l hl
  obtain ⟨xb, xt⟩ := x
  simp only at hx
  cases hx with
  | tag fl padding body fs b hcrc hres hun hsize hb hr =>
  obtain ⟨d0, hr⟩ := hr
  refine ⟨max d0 d1, fun d hd n => ?_⟩
  have := hrest d (by omega) xb n ⟨.v4, fl, fs⟩
  generalize hrs : chain l ++ (audio ++ suf) = rest at *
  obtain ⟨pad, p1, p2, p3⟩ := lead_parse hcrc hres hun hsize hb rest
  have hid : xb.take 3 = ascii "ID3" := (Id3v2.findAt_written ⟨fl, false, padding, body, hcrc, hres, by simp, hsize, hb⟩ []).2.1
  have hf : chain ((xb, (⟨.v4, fl, fs⟩ : Id3Tag)) :: l) ++ (audio ++ suf) = xb ++ rest := by
    rw [← hrs]; simp [chain]
  rw [hf]
  have hrd : readAt (xb ++ rest) 0 4 = .ok (xb.take 4) := by
    unfold readAt
    rw [if_pos (by simp only [List.length_append]; omega), List.drop_zero, List.take_append_of_le_length (by omega)]
  rw [front, hrd]
  simp only
  rw [if_pos (by rw [List.take_take]; exact hid), p1]
  simp only
  rw [ho, if_pos rfl]
  unfold parseId3
  simp only
  rw [Nat.sub_zero, p2, hun, hr d (by omega) pad, ok_bind, ok_bind]
  have hlen : (xb ++ rest).length - 10 ≥ body.length + pad := by simp only [List.length_append]; omega
  rw [Nat.min_eq_left hlen]
  have hpos : (if fl.footer = true then 10 + (body.length + pad) + 10 else 10 + (body.length + pad)) = xb.length := by
    rw [p3]; split <;> omega
  rw [hpos]
  rw [ho] at this
  rw [this]
  simp only [merged, chain, List.map_cons, List.flatten_cons, List.length_append]

theorem chain_starts {o : Opts} {x : Bytes × Id3Tag} {l : List (Bytes × Id3Tag)} (hx : LeadOf o.id3 x.1 (some x.2)) (suf : Bytes) :
    (chain (x :: l) ++ suf).dropWhile (· = 0) = chain (x :: l) ++ suf := by
  rcases lead_written hx with ⟨-, h⟩ | ⟨hw, -⟩
  · cases h
  · have h3 := (Id3v2.findAt_written hw []).2.1
    obtain ⟨xb, xt⟩ := x
    simp only at h3
    cases xb with
    | nil => exact absurd h3 (by decide)
    | cons a b =>
      rw [Id3v2.id3_bytes] at h3
      simp only [List.take_succ_cons, List.cons.injEq] at h3
      simp only [chain, List.map_cons, List.flatten_cons, List.cons_append]
      rw [List.dropWhile_cons_of_neg]
      simp [h3.1]

theorem chain_length (l : List (Bytes × Id3Tag)) {o : Opts} (hl : ∀ x ∈ l, LeadOf o.id3 x.1 (some x.2)) : l.length ≤ (chain l).length := by
  induction l with
  | nil => simp
  | cons x l ih =>
    have := ih fun y hy => hl y (by simp [hy])
    rcases lead_written (hl x (by simp)) with ⟨-, h⟩ | ⟨hw, -⟩
    · cases h
    · have h3 := (Id3v2.findAt_written hw []).2.2
      simp only [chain, List.map_cons, List.flatten_cons, List.length_append, List.length_cons] at this ⊢
      omega

/-- Saves behind the audio leave its start alone. -/
theorem behind_none {o : Opts} (s : List Save) (hs : ∀ y ∈ s, y.Behind) (t : Tags) :
    (s.foldl (Tags.after o) t).id3v2 = t.id3v2 := by
  induction s generalizing t with
  | nil => rfl
  | cons y s ih =>
    rw [List.foldl_cons, ih fun z hz => hs z (by simp [hz])]
    cases y with
    | id3v2 fl w p fs => exact (hs (.id3v2 fl w p fs) (by simp)).elim
    | ape t => rfl
    | id3v1 a b => rfl

theorem read_chain {o : Opts} (ho : o.readTags = true) {audio suf : Bytes} {t : Tags} (ha : Audio o audio)
    (hf : Layout o audio suf t) (ht : t.id3v2 = none) {h : Mpeg.Header} {k : Nat} (hk : Mpeg.findNext audio (audio.length + 1) 0 = .ok (some (h, k)))
    (x : Bytes × Id3Tag) (l : List (Bytes × Id3Tag))
    (hx : LeadOf o.id3 x.1 (some x.2)) (hl : ∀ x ∈ l, LeadOf o.id3 x.1 (some x.2) ∧ x.2.flags.footer = false) :
    (o.readProps = false → ∃ d0, ∀ d, d0 ≤ d → readMpeg { o with depth := d } (chain (x :: l) ++ suf) = .ok ⟨merged (x :: l), t.id3v1, t.ape, none⟩) ∧
    (o.readProps = true → (chain (x :: l) ++ suf).length < 2 ^ 61 → ∀ P, mpegProps audio (some (h, k)) audio.length = .ok P → P.duration ≠ 0 →
      ∃ P', Same P' P ∧ ∃ d0, ∀ d, d0 ≤ d → readMpeg { o with depth := d } (chain (x :: l) ++ suf) = .ok ⟨merged (x :: l), t.id3v1, t.ape, some P'⟩) := by
  have hlong := ha.long
  obtain ⟨lead, ape, v1, x0, y, z, hx0, hy, hz, hv⟩ := hf
  simp only at ht
  subst ht
  rcases lead_written hx0 with ⟨rfl, -⟩ | ⟨-, h0⟩
  swap
  · exact absurd rfl h0
  rw [List.nil_append]
  obtain ⟨d0, hfront⟩ := front_chain (suf := ape ++ v1) ho ha hk x l hx hl
  have hpad := chain_starts (l := l) hx (audio ++ (ape ++ v1))
  have hcl := chain_length (o := o) (x :: l) (by
    intro y hy
    rcases List.mem_cons.mp hy with rfl | hy
    · exact hx
    · exact (hl y hy).1)
  rw [List.length_cons] at hcl
  generalize hch : chain (x :: l) = ch at *
  obtain ⟨tl, ht1, ht2, ht3, -, -, ht4⟩ := tail_read (lead := ch) ho ha hy hz hv
  have hend := mpegEnd_read ht3 ht4
  have hne : (ch ++ (audio ++ (ape ++ v1))).length ≠ 0 := by simp only [List.length_append]; omega
  have htail : ∀ d, tail { o with depth := d } (ch ++ (audio ++ (ape ++ v1))) = tail o (ch ++ (audio ++ (ape ++ v1))) := by
    intro d
    rfl
  have main : ∀ d, d0 ≤ d → readMpeg { o with depth := d } (ch ++ (audio ++ (ape ++ v1))) =
      if o.readProps then do
        let p ← mpegProps (ch ++ (audio ++ (ape ++ v1))) (some (h, ch.length + k)) (ch.length + audio.length)
        .ok ⟨merged (x :: l), z, y, some p⟩
      else .ok ⟨merged (x :: l), z, y, none⟩ := by
    intro d hd
    unfold readMpeg
    simp only
    rw [hpad, Nat.sub_self, if_neg (fun h => hne h.symm)]
    obtain ⟨n, hn⟩ : ∃ n, (ch ++ (audio ++ (ape ++ v1))).length + 1 = n + l.length + 2 :=
      ⟨(ch ++ (audio ++ (ape ++ v1))).length - l.length - 1, by simp only [List.length_append]; omega⟩
    rw [hn, hfront d hd n, ok_bind]
    simp only
    rw [htail, ht1, ok_bind, hend, ok_bind]
    simp only [ht2]
  constructor
  · intro hp
    refine ⟨d0, fun d hd => ?_⟩
    rw [main d hd, hp]
    rfl
  · intro hp hsz P hP hdur
    obtain ⟨P', hP', hsame⟩ := mpegProps_ext (pre := ch) (suf := ape ++ v1) hP hdur (by omega)
    refine ⟨P', hsame, d0, fun d hd => ?_⟩
    rw [main d hd, hp, if_pos rfl, hP', ok_bind]

/-- Inserting a frame leaves the frames with other ids. -/
theorem insert_others (l : List Id3v2.Frame) {f : Id3v2.Frame} {i : Id3v2.FrameId} (hf : f.id ≠ i) :
    ((Id3v2.insert l f).2.filter fun g => decide (g.id = i)).Perm (l.filter fun g => decide (g.id = i)) := by
  by_cases ho : f.id.asStr ∈ Id3v2.onceIds.map String.toList
  · obtain ⟨-, r, h1, h2, -⟩ := Id3v2.insert_once_partial l f ho
    rw [h1, List.filter_append, List.filter_cons_of_neg (by simpa using hf), List.filter_nil, List.append_nil]
    refine (h2.filter _).trans ?_
    rw [List.filter_filter]
    refine List.Perm.of_eq (List.filter_congr fun g _ => ?_)
    by_cases hg : g.id = i
    · simp [hg, Ne.symm hf]
    · simp [hg]
  · rcases Id3v2.insert_spec l f ho with ⟨-, h⟩ | ⟨a, g, b, h1, -, h3, h⟩
    · rw [h, List.filter_append, List.filter_cons_of_neg (by simpa using hf), List.filter_nil, List.append_nil]
    · have hg : g.id ≠ i := by rw [Id3v2.same_id h3]; exact hf
      rw [h, h1]
      simp only [List.filter_append, List.append_assoc]
      rw [List.filter_cons_of_neg (by simpa using hf), List.filter_cons_of_neg (by simpa using hg), List.filter_nil, List.append_nil]

theorem inserts_others (fs : List Id3v2.Frame) {i : Id3v2.FrameId} (hf : ∀ f ∈ fs, f.id ≠ i) (l : List Id3v2.Frame) :
    ((fs.foldl (fun l f => (Id3v2.insert l f).2) l).filter fun g => decide (g.id = i)).Perm (l.filter fun g => decide (g.id = i)) := by
  induction fs generalizing l with
  | nil => exact .refl _
  | cons f fs ih =>
    rw [List.foldl_cons]
    exact (ih (fun g hg => hf g (by simp [hg])) _).trans (insert_others l (hf f (by simp)))

/-- Inserting a text takes out the text with the same id. -/
theorem insert_text {l : List Id3v2.Frame} {fl : Id3v2.FrameFlags} {t : Id3v2.TextF} (honce : t.id.asStr ∉ Id3v2.onceIds.map String.toList)
    (hl : (l.filter fun g => decide (g.id = t.id)).length ≤ 1)
    (hk : ∀ g ∈ l.filter (fun g => decide (g.id = t.id)), ∃ fl' u, g = .leaf fl' (.text u)) :
    (Id3v2.insert l (.leaf fl (.text t))).2.filter (fun g => decide (g.id = t.id)) = [.leaf fl (.text t)] := by
  have hid : (Id3v2.Frame.leaf fl (.text t)).id = t.id := rfl
  rcases Id3v2.insert_spec l (.leaf fl (.text t)) honce with ⟨h1, h⟩ | ⟨a, g, b, h1, -, h3, h⟩
  · have : l.filter (fun g => decide (g.id = t.id)) = [] := by
      rw [List.filter_eq_nil_iff]
      intro g hg hgi
      obtain ⟨fl', u, rfl⟩ := hk g (List.mem_filter.mpr ⟨hg, hgi⟩)
      have hgi := of_decide_eq_true hgi
      exact h1 _ hg hgi
    rw [h, List.filter_append, this, List.filter_cons_of_pos (by simp [hid])]
    rfl
  · have hg : g.id = t.id := Id3v2.same_id h3
    rw [h1, List.filter_append, List.filter_cons_of_pos (by simpa using hg), List.length_append, List.length_cons] at hl
    rw [h, List.filter_append, List.filter_append, List.filter_cons_of_pos (by simp [hid]), List.length_eq_zero_iff.mp (by omega : (a.filter _).length = 0),
      List.length_eq_zero_iff.mp (by omega : (b.filter _).length = 0)]
    rfl

/-! ## The claims -/

/-- C96: **several ID3v2 tags are read as one.**  In front of an MPEG file, to which tags of the other kinds were saved in any order, stand ID3v2
tags of any number.  Reading the file shows the first with the frames of all the others inserted in order, and the other tags as they are.
Missing: tags with a footer behind the first (`footer_hides`), and tags that the library did not write. -/
theorem tags_merged_partial {o : Opts} (ho : o.readTags = true) (hp : o.readProps = false) {audio g : Bytes} (ha : Audio o audio)
    {h : Mpeg.Header} {k : Nat} (hk : Mpeg.findNext audio (audio.length + 1) 0 = .ok (some (h, k)))
    (s : List Save) (hs : ∀ y ∈ s, y.Ok o audio ∧ y.Behind) (hg : runAll o.junk s audio = .ok g)
    (x : Bytes × Id3Tag) (l : List (Bytes × Id3Tag)) (hx : Made o audio x) (hl : ∀ y ∈ l, Made o audio y ∧ y.2.flags.footer = false) :
    ∃ d0, ∀ d, d0 ≤ d → ∃ m, readMpeg { o with depth := d } (chain (x :: l) ++ g) = .ok m ∧
      (⟨m.id3v2, m.id3v1, m.ape⟩ : Tags) = { s.foldl (Tags.after o) ⟨none, none, none⟩ with id3v2 := merged (x :: l) } := by
  have hlay := runAll_layout ha s audio g _ (fun y hy => (hs y hy).1) (layout_plain ha) hg
  obtain ⟨d0, h0⟩ := (read_chain ho ha hlay (behind_none s (fun y hy => (hs y hy).2) _) hk x l (made_lead hx)
    (fun y hy => ⟨made_lead (hl y hy).1, (hl y hy).2⟩)).1 hp
  exact ⟨d0, fun d hd => ⟨_, h0 d hd, rfl⟩⟩

/-- C96: **further tags do not change what is reported about the audio.** -/
theorem tags_merged_properties_partial {o : Opts} (ho : o.readTags = true) (hp : o.readProps = true) {audio g : Bytes} (ha : Audio o audio)
    {h : Mpeg.Header} {k : Nat} (hk : Mpeg.findNext audio (audio.length + 1) 0 = .ok (some (h, k)))
    {P : Mpeg.Props} (hP : mpegProps audio (some (h, k)) audio.length = .ok P) (hd : P.duration ≠ 0)
    (s : List Save) (hs : ∀ y ∈ s, y.Ok o audio ∧ y.Behind) (hg : runAll o.junk s audio = .ok g)
    (x : Bytes × Id3Tag) (l : List (Bytes × Id3Tag)) (hx : Made o audio x) (hl : ∀ y ∈ l, Made o audio y ∧ y.2.flags.footer = false)
    (hsz : (chain (x :: l) ++ g).length < 2 ^ 61) :
    ∃ P', (P'.duration = P.duration ∧ P'.audio = P.audio ∧ P'.sampleRate = P.sampleRate ∧ P'.channels = P.channels) ∧
    ∃ d0, ∀ d, d0 ≤ d → ∃ m, readMpeg { o with depth := d } (chain (x :: l) ++ g) = .ok m ∧ m.props = some P' ∧ m.id3v2 = merged (x :: l) := by
  have hlay := runAll_layout ha s audio g _ (fun y hy => (hs y hy).1) (layout_plain ha) hg
  obtain ⟨P', hs, d0, h0⟩ := (read_chain ho ha hlay (behind_none s (fun y hy => (hs y hy).2) _) hk x l (made_lead hx)
    (fun y hy => ⟨made_lead (hl y hy).1, (hl y hy).2⟩)).2 hp hsz P hP hd
  exact ⟨P', hs, d0, fun d hd => ⟨_, h0 d hd, rfl, rfl⟩⟩

/-- C96: **what the last tag says of a text is what is read**: a text of one of the further tags that no other of them names replaces the text of the
first tag. -/
theorem last_text_read (x : Bytes × Id3Tag) (l : List (Bytes × Id3Tag)) (fl : Id3v2.FrameFlags) (t : Id3v2.TextF) (a b : List Id3v2.Frame)
    (hx : (x.2.frames.filter fun g => g.id = t.id).length ≤ 1) (hk : ∀ g ∈ x.2.frames, g.id = t.id → ∃ fl' u, g = .leaf fl' (.text u))
    (honce : t.id.asStr ∉ Id3v2.onceIds.map String.toList)
    (hl : (l.map fun y => y.2.frames).flatten = a ++ .leaf fl (.text t) :: b) (ha : ∀ g ∈ a, g.id ≠ t.id) (hb : ∀ g ∈ b, g.id ≠ t.id) :
    ∃ m, merged (x :: l) = some m ∧ Id3v2.getText m.frames t.id = some t.value := by
  refine ⟨_, rfl, ?_⟩
  simp only
  rw [hl, List.foldl_append, List.foldl_cons]
  have h1 := inserts_others a (i := t.id) ha x.2.frames
  have h2 := insert_text (fl := fl) honce (by rw [h1.length_eq]; exact hx) (fun g hg => by
    have := List.mem_filter.mp (h1.mem_iff.mp hg)
    exact hk g this.1 (by simpa using this.2))
  have h3 := inserts_others b (i := t.id) hb (Id3v2.insert (a.foldl (fun l f => (Id3v2.insert l f).2) x.2.frames) (.leaf fl (.text t))).2
  rw [h2] at h3
  unfold Id3v2.getText Id3v2.get
  rw [← List.head?_filter, List.perm_singleton.mp h3]
  rfl

/-- C96: saving to a file with several ID3v2 tags replaces the first and leaves the others. -/
theorem save_first_only {o : Opts} {audio : Bytes} (hj : 3 ≤ o.junk) {x : Bytes × Id3Tag} (hx : Made o audio x) (l : List (Bytes × Id3Tag)) (g b : Bytes)
    (fl : Id3v2.Flags) (w : Id3v2.WriteOpts) (padding : Option Nat) (fs : List Id3v2.Frame) (hb : (Save.id3v2 fl w padding fs).encoded = .ok b) :
    (Save.id3v2 fl w padding fs).run o.junk (chain (x :: l) ++ g) = .ok (b ++ (chain l ++ g)) := by
  rcases lead_written (made_lead hx) with ⟨-, h⟩ | ⟨hw, -⟩
  · cases h
  · simp only [Save.encoded] at hb
    simp only [Save.run, saveId3v2]
    rw [hb, ok_bind]
    have : chain (x :: l) ++ g = x.1 ++ (chain l ++ g) := by simp [chain]
    rw [this]
    exact Id3v2.writeFile_tagged hw _ _ _ hj

/-- C96: **after a save the further tags are still read**: what the file shows is the new tag with their frames inserted, and if the tag saved is empty,
the tag made of them alone.  With no further tag this is the tag saved.  Missing: as in `tags_merged_partial`. -/
theorem save_then_read_partial {o : Opts} (ho : o.readTags = true) (hp : o.readProps = false) {audio g : Bytes} (ha : Audio o audio)
    {h : Mpeg.Header} {k : Nat} (hk : Mpeg.findNext audio (audio.length + 1) 0 = .ok (some (h, k)))
    (s : List Save) (hs : ∀ y ∈ s, y.Ok o audio ∧ y.Behind) (hg : runAll o.junk s audio = .ok g)
    (x : Bytes × Id3Tag) (l : List (Bytes × Id3Tag)) (hx : Made o audio x) (hl : ∀ y ∈ l, Made o audio y ∧ y.2.flags.footer = false)
    {fl : Id3v2.Flags} {w : Id3v2.WriteOpts} {padding : Option Nat} {fs : List Id3v2.Frame} (hok : (Save.id3v2 fl w padding fs).Ok o audio)
    {g' : Bytes} (hrun : (Save.id3v2 fl w padding fs).run o.junk (chain (x :: l) ++ g) = .ok g') :
    ∃ d0, ∀ d, d0 ≤ d → ∃ m, readMpeg { o with depth := d } g' = .ok m ∧
      (⟨m.id3v2, m.id3v1, m.ape⟩ : Tags) = { s.foldl (Tags.after o) ⟨none, none, none⟩ with
        id3v2 := merged (if fs = [] then l else ([], ⟨.v4, fl, fs⟩) :: l) } := by
  obtain ⟨b, hb⟩ := encoded_of_run hrun
  have h1 := save_first_only ha.junk.1 hx l g b fl w padding fs hb
  rw [hrun] at h1
  obtain rfl := (Except.ok.injEq _ _).mp h1
  by_cases hf : fs = []
  · subst hf
    obtain rfl := (Except.ok.injEq _ _).mp hb
    rw [if_pos rfl, List.nil_append]
    cases l with
    | nil =>
      have hlay := runAll_layout ha s audio g _ (fun y hy => (hs y hy).1) (layout_plain ha) hg
      have hn := behind_none (o := o) s (fun y hy => (hs y hy).2) ⟨none, none, none⟩
      obtain ⟨d0, h0⟩ := (readMpeg_layout ho ha hlay hk).1 hp
      refine ⟨d0, fun d hd => ⟨_, h0 d hd, ?_⟩⟩
      rw [hn]
      rfl
    | cons y l =>
      exact tags_merged_partial ho hp ha hk s hs hg y l (hl y (by simp)).1 fun z hz => hl z (by simp [hz])
  · rw [if_neg hf, show b ++ (chain l ++ g) = chain ((b, (⟨.v4, fl, fs⟩ : Id3Tag)) :: l) ++ g by simp [chain]]
    exact tags_merged_partial ho hp ha hk s hs hg (b, ⟨.v4, fl, fs⟩) l ⟨fl, w, padding, fs, hf, hok, hb, rfl⟩ hl

/-- C96, **disagreement in general**: a text is saved to a file with further ID3v2 tags one of which has a text of this id.  What is read afterwards is
the old text. -/
theorem saved_text_hidden {o : Opts} (ho : o.readTags = true) (hp : o.readProps = false) {audio g : Bytes} (ha : Audio o audio)
    {h : Mpeg.Header} {k : Nat} (hk : Mpeg.findNext audio (audio.length + 1) 0 = .ok (some (h, k)))
    (s : List Save) (hs : ∀ y ∈ s, y.Ok o audio ∧ y.Behind) (hg : runAll o.junk s audio = .ok g)
    (x : Bytes × Id3Tag) (l : List (Bytes × Id3Tag)) (hx : Made o audio x) (hl : ∀ y ∈ l, Made o audio y ∧ y.2.flags.footer = false)
    {fl : Id3v2.Flags} {w : Id3v2.WriteOpts} {padding : Option Nat} {ff : Id3v2.FrameFlags} {new : Id3v2.TextF}
    (hok : (Save.id3v2 fl w padding [.leaf ff (.text new)]).Ok o audio)
    {g' : Bytes} (hrun : (Save.id3v2 fl w padding [.leaf ff (.text new)]).run o.junk (chain (x :: l) ++ g) = .ok g')
    {fo : Id3v2.FrameFlags} {old : Id3v2.TextF} {a b : List Id3v2.Frame} (hid : old.id = new.id)
    (honce : old.id.asStr ∉ Id3v2.onceIds.map String.toList)
    (hold : (l.map fun y => y.2.frames).flatten = a ++ .leaf fo (.text old) :: b) (hna : ∀ f ∈ a, f.id ≠ old.id) (hnb : ∀ f ∈ b, f.id ≠ old.id) :
    ∃ d0, ∀ d, d0 ≤ d → ∃ m t, readMpeg { o with depth := d } g' = .ok m ∧ m.id3v2 = some t ∧ Id3v2.getText t.frames new.id = some old.value := by
  obtain ⟨d0, h0⟩ := save_then_read_partial ho hp ha hk s hs hg x l hx hl hok hrun
  refine ⟨d0, fun d hd => ?_⟩
  obtain ⟨m, h1, h2⟩ := h0 d hd
  obtain ⟨t, h3, h4⟩ := last_text_read ([], ⟨.v4, fl, [.leaf ff (.text new)]⟩) l fo old a b
    (List.length_filter_le _ _)
    (fun f hf _ => by simp only [List.mem_singleton] at hf; exact ⟨ff, new, hf⟩) honce hold hna hnb
  refine ⟨m, t, h1, ?_, by rw [← hid]; exact h4⟩
  have := congrArg Tags.id3v2 h2
  simp only at this
  rw [this, if_neg (by simp), h3]

/-- C96, **disagreement in general**: removing the ID3v2 tag of a file with further ones leaves a file with an ID3v2 tag. -/
theorem removal_leaves {o : Opts} (ho : o.readTags = true) (hp : o.readProps = false) {audio g : Bytes} (ha : Audio o audio)
    {h : Mpeg.Header} {k : Nat} (hk : Mpeg.findNext audio (audio.length + 1) 0 = .ok (some (h, k)))
    (s : List Save) (hs : ∀ y ∈ s, y.Ok o audio ∧ y.Behind) (hg : runAll o.junk s audio = .ok g)
    (x : Bytes × Id3Tag) (l : List (Bytes × Id3Tag)) (hx : Made o audio x) (hl : ∀ y ∈ l, Made o audio y ∧ y.2.flags.footer = false) (hne : l ≠ [])
    (fl : Id3v2.Flags) (w : Id3v2.WriteOpts) (padding : Option Nat) :
    ∃ g', (Save.id3v2 fl w padding []).run o.junk (chain (x :: l) ++ g) = .ok g' ∧
      ∃ d0, ∀ d, d0 ≤ d → ∃ m t, readMpeg { o with depth := d } g' = .ok m ∧ m.id3v2 = some t := by
  have hrun := save_first_only ha.junk.1 hx l g [] fl w padding [] rfl
  refine ⟨_, hrun, ?_⟩
  obtain ⟨d0, h0⟩ := save_then_read_partial ho hp ha hk s hs hg x l hx hl (.inl rfl) hrun
  refine ⟨d0, fun d hd => ?_⟩
  obtain ⟨m, h1, h2⟩ := h0 d hd
  have := congrArg Tags.id3v2 h2
  simp only at this
  cases l with
  | nil => exact absurd rfl hne
  | cons y l => exact ⟨m, _, h1, this⟩

/-! ## A case that meets the hypotheses -/

/-- A tag with one title. -/
def titleTag (v : String) : List Id3v2.Frame := [.leaf {} (.text ⟨.valid (str "TIT2"), .utf8, str v⟩)]

def exW : Id3v2.WriteOpts := ⟨false, false, true⟩

def exFlags : Id3v2.Flags := ⟨false, false, false, false, none⟩

def titleBytes (v : String) : Bytes := ((Save.id3v2 exFlags exW none (titleTag v)).encoded.toOption).getD []

theorem first_made : (Save.id3v2 exFlags exW none (titleTag "first")).Ok (exOpts true false) threeFrames ∧
    (Save.id3v2 exFlags exW none (titleTag "first")).encoded = .ok (titleBytes "first") := by
  refine ⟨.inr ⟨rfl, rfl, rfl, rfl, fun f hf => ?_, ⟨by decide, by decide, Id3v2.once_of_nodup (by decide)⟩, fun b hb => ?_⟩, by decide +kernel⟩
  · simp only [titleTag, List.mem_cons, List.not_mem_nil, or_false] at hf
    subst hf
    exact .leaf _ _ (str "TIT2") (by decide) rfl (by decide) (by show _ → _ ∉ Id3v2.idsV23 true; decide) ⟨.inl ⟨rfl, by decide⟩, by decide⟩
  · have : ((Id3v2.createItems exW (titleTag "first")).toOption.map List.length).getD 0 < 1000 := by decide +kernel
    rw [hb] at this
    have : b.length < 1000 := this
    simp; omega

theorem second_made : (Save.id3v2 exFlags exW none (titleTag "second")).Ok (exOpts true false) threeFrames ∧
    (Save.id3v2 exFlags exW none (titleTag "second")).encoded = .ok (titleBytes "second") := by
  refine ⟨.inr ⟨rfl, rfl, rfl, rfl, fun f hf => ?_, ⟨by decide, by decide, Id3v2.once_of_nodup (by decide)⟩, fun b hb => ?_⟩, by decide +kernel⟩
  · simp only [titleTag, List.mem_cons, List.not_mem_nil, or_false] at hf
    subst hf
    exact .leaf _ _ (str "TIT2") (by decide) rfl (by decide) (by show _ → _ ∉ Id3v2.idsV23 true; decide) ⟨.inl ⟨rfl, by decide⟩, by decide⟩
  · have : ((Id3v2.createItems exW (titleTag "second")).toOption.map List.length).getD 0 < 1000 := by decide +kernel
    rw [hb] at this
    have : b.length < 1000 := this
    simp; omega

theorem new_made : (Save.id3v2 exFlags exW none (titleTag "new")).Ok (exOpts true false) threeFrames ∧
    (Save.id3v2 exFlags exW none (titleTag "new")).encoded = .ok (titleBytes "new") := by
  refine ⟨.inr ⟨rfl, rfl, rfl, rfl, fun f hf => ?_, ⟨by decide, by decide, Id3v2.once_of_nodup (by decide)⟩, fun b hb => ?_⟩, by decide +kernel⟩
  · simp only [titleTag, List.mem_cons, List.not_mem_nil, or_false] at hf
    subst hf
    exact .leaf _ _ (str "TIT2") (by decide) rfl (by decide) (by show _ → _ ∉ Id3v2.idsV23 true; decide) ⟨.inl ⟨rfl, by decide⟩, by decide⟩
  · have : ((Id3v2.createItems exW (titleTag "new")).toOption.map List.length).getD 0 < 1000 := by decide +kernel
    rw [hb] at this
    have : b.length < 1000 := this
    simp; omega

/-- A file with the titles `first` and `second` in two tags: reading shows `second`, and so it does after `new` was saved. -/
example : ∃ g', (Save.id3v2 exFlags exW none (titleTag "new")).run 100 (titleBytes "first" ++ (titleBytes "second" ++ threeFrames)) = .ok g' ∧
    ∃ d0, ∀ d, d0 ≤ d → ∃ m t, readMpeg { exOpts true false with depth := d } g' = .ok m ∧ m.id3v2 = some t ∧
      Id3v2.getText t.frames (.valid (str "TIT2")) = some (str "second") := by
  have hx : Made (exOpts true false) threeFrames (titleBytes "first", ⟨.v4, exFlags, titleTag "first"⟩) :=
    ⟨_, _, _, _, by simp [titleTag], first_made.1, first_made.2, rfl⟩
  have hl : ∀ y ∈ [(titleBytes "second", (⟨.v4, exFlags, titleTag "second"⟩ : Id3Tag))], Made (exOpts true false) threeFrames y ∧ y.2.flags.footer = false := by
    intro y hy
    rw [List.mem_singleton] at hy
    subst hy
    exact ⟨⟨_, _, _, _, by simp [titleTag], second_made.1, second_made.2, rfl⟩, rfl⟩
  have hrun := save_first_only (o := exOpts true false) (by decide) hx [(titleBytes "second", ⟨.v4, exFlags, titleTag "second"⟩)] threeFrames _ _ _ _ _ new_made.2
  have h0 := saved_text_hidden (o := exOpts true false) rfl rfl (threeFrames_audio _ _) threeFrames_first [] (by simp) rfl _ _ hx hl new_made.1 hrun
    (old := ⟨.valid (str "TIT2"), .utf8, str "second"⟩) (a := []) (b := []) rfl (by decide) rfl (by simp) (by simp)
  refine ⟨_, ?_, h0⟩
  rw [← hrun]
  simp [chain, exOpts]

/-- Disagreement: behind a further tag with a footer the next tag is not read, its title is lost. -/
theorem footer_hides :
    let foot : Id3v2.Flags := ⟨false, false, true, false, none⟩
    let album : List Id3v2.Frame := [.leaf {} (.text ⟨.valid (str "TALB"), .utf8, str "a"⟩)]
    let albumBytes := ((Save.id3v2 foot exW none album).encoded.toOption).getD []
    let shows f := (readMpeg (exOpts true false) f).map fun m => m.id3v2.map fun t => [Id3v2.getText t.frames (.valid (str "TIT2")), Id3v2.getText t.frames (.valid (str "TALB"))]
    shows (albumBytes ++ (titleBytes "second" ++ threeFrames)) = .ok (some [some (str "second"), some (str "a")]) ∧
    shows (titleBytes "first" ++ (albumBytes ++ (titleBytes "second" ++ threeFrames))) = .ok (some [some (str "first"), some (str "a")]) := by
  decide +kernel

end Lofty.FileTags
