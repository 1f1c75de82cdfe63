import Verif.Model.Mp4Read
import Verif.Spec.Mp4Read
import Verif.Lemmas.Mp4WriteFile
/-! Helper lemmas about reading MP4 files. -/
namespace Lofty.Mp4Read
open Lofty.Text Lofty.Mp4 Lofty.Ilst Lofty.Mp4Write

theorem items_bytes (f : Forest) : boxes (items f) = f.bytes := by
  induction f with
  | nil => rfl
  | leaf id c rest ih => rw [items, boxes_cons, ih, Forest.bytes]
  | node id kids rest _ ih => rw [items, boxes_cons, ih, Forest.bytes]

theorem items_top (f : Forest) : (items f).map Prod.fst = f.top := by
  induction f with
  | nil => rfl
  | leaf id c rest ih => rw [items, List.map_cons, ih, Forest.top]
  | node id kids rest _ ih => rw [items, List.map_cons, ih, Forest.top]

theorem items_ok {f : Forest} (h : f.Ok) : ∀ x ∈ items f, IdOk x.1 := by
  induction f with
  | nil => intro x hx; cases hx
  | leaf id c rest ih =>
    intro x hx
    rw [items, List.mem_cons] at hx
    rcases hx with rfl | hx
    · exact h.1
    · exact ih h.2.2 x hx
  | node id kids rest _ ih =>
    intro x hx
    rw [items, List.mem_cons] at hx
    rcases hx with rfl | hx
    · exact h.1
    · exact ih h.2.2.2 x hx

theorem items_names {f : Forest} {P : Bytes → Prop} (h : ∀ i ∈ f.top, P i) : ∀ x ∈ items f, P x.1 := by
  intro x hx
  apply h
  rw [← items_top]
  exact List.mem_map_of_mem hx

theorem boxes_length_cons {x : Bytes × Bytes} (h : IdOk x.1) (l : List (Bytes × Bytes)) :
    (boxes (x :: l)).length = 8 + x.2.length + (boxes l).length := by
  rw [boxes_cons, List.length_append, box_length _ _ h.1]

theorem length_le_boxes {l : List (Bytes × Bytes)} (h : ∀ x ∈ l, IdOk x.1) : l.length ≤ (boxes l).length := by
  induction l with
  | nil => exact Nat.zero_le _
  | cons x l ih =>
    have := ih fun y hy => h y (by simp [hy])
    rw [boxes_length_cons (h x (by simp)), List.length_cons]
    omega

theorem ok_split {f g : Forest} : (f.append g).Ok → f.Ok ∧ g.Ok := by
  induction f with
  | nil => exact fun h => ⟨trivial, h⟩
  | leaf id c rest ih => intro h; exact ⟨⟨h.1, h.2.1, (ih h.2.2).1⟩, (ih h.2.2).2⟩
  | node id kids rest _ ih => intro h; exact ⟨⟨h.1, h.2.1, h.2.2.1, (ih h.2.2.2).1⟩, (ih h.2.2.2).2⟩

/-- The next atom. -/
theorem next_box {r : Rd} {id c rest : Bytes} {mode : Mode} (h : At r (box id c ++ rest)) (hid : IdOk id)
    (hl : 8 + c.length < 2 ^ 32) :
    r.next mode = .ok (some ⟨r.pos, 8 + c.length, false, .fourcc id⟩, r.skip 8) := by
  have hrem : r.rem = 8 + c.length + rest.length := by
    rw [h.2.1, List.length_append, box_length _ _ hid.1]
  have h' := h
  rw [box_eq, List.append_assoc, List.append_assoc] at h'
  unfold Rd.next
  rw [if_neg (by omega), if_neg (by omega), readInfo_box h' (by omega) hl hid.1 hid.2.1 (by omega) hid.2.2]

/-- Into an atom. -/
theorem into_box {r : Rd} {id c rest : Bytes} (h : At r (box id c ++ rest)) (hid : IdOk id) : At (r.skip 8) (c ++ rest) := by
  rw [box_eq, List.append_assoc, List.append_assoc, ← List.append_assoc (beBytes 4 _)] at h
  exact h.skip (by rw [List.length_append, beBytes_length, hid.1])

/-- Past an atom. -/
theorem past_box {r : Rd} {id c rest : Bytes} (h : At r (box id c ++ rest)) (hid : IdOk id) : At (r.skip (8 + c.length)) rest :=
  h.skip (box_length _ _ hid.1)

theorem skip_box (r : Rd) (c : Bytes) (hl : 8 + c.length < 2 ^ 32) :
    skipAtom (r.skip 8) false (8 + c.length) = .ok (r.skip (8 + c.length)) := by
  rw [skip_ok (by omega) hl, skip_skip, show 8 + (8 + c.length - 8) = 8 + c.length by omega]

/-- The atom is found. -/
theorem seekAtom_some {mode : Mode} {id : Bytes} (hid : IdOk id) (c rest : Bytes) (l : List (Bytes × Bytes))
    (h : ∀ x ∈ l, IdOk x.1 ∧ x.1 ≠ id) : ∀ (fuel : Nat) (r : Rd) (read len : Nat), (boxes l).length < fuel →
    At r (boxes l ++ (box id c ++ rest)) → (boxes l).length + (8 + c.length) < 2 ^ 32 → read + (boxes l).length < len →
    seekAtom fuel r read len id mode = .ok (some (8 + c.length), r.skip ((boxes l).length + 8)) := by
  induction l with
  | nil =>
    intro fuel r read len hf ha hs hr
    obtain ⟨k, rfl⟩ : ∃ k, fuel = k + 1 := ⟨fuel - 1, by omega⟩
    have hb : boxes [] = [] := rfl
    rw [hb] at ha hr hs ⊢
    simp only [List.nil_append, List.length_nil] at ha hr hs ⊢
    rw [seekAtom, if_pos (by omega), next_box ha hid (by omega), ok_bind]
    simp only [if_true, Nat.zero_add]
  | cons x l ih =>
    intro fuel r read len hf ha hs hr
    obtain ⟨k, rfl⟩ : ∃ k, fuel = k + 1 := ⟨fuel - 1, by omega⟩
    obtain ⟨h1, h2⟩ := h x (by simp)
    rw [boxes_length_cons h1] at hf hs hr ⊢
    rw [boxes_cons, List.append_assoc] at ha
    rw [seekAtom, if_pos (by omega), next_box ha h1 (by omega), ok_bind]
    simp only
    rw [if_neg (by simpa using h2), skip_box _ _ (by omega), ok_bind,
      ih (fun y hy => h y (by simp [hy])) k _ _ _ (by omega) (past_box ha h1) (by omega) (by omega), skip_skip]
    simp only [Nat.add_assoc]

/-- It is not. -/
theorem seekAtom_none {mode : Mode} {id : Bytes} (rest : Bytes) (l : List (Bytes × Bytes))
    (h : ∀ x ∈ l, IdOk x.1 ∧ x.1 ≠ id) : ∀ (fuel : Nat) (r : Rd) (read len : Nat), (boxes l).length < fuel →
    At r (boxes l ++ rest) → (boxes l).length < 2 ^ 32 → len ≤ read + (boxes l).length →
    ∃ l1 l2, l = l1 ++ l2 ∧ seekAtom fuel r read len id mode = .ok (none, r.skip (boxes l1).length) ∧
      (len = read + (boxes l).length → l2 = []) := by
  induction l with
  | nil =>
    intro fuel r read len hf ha hs hr
    obtain ⟨k, rfl⟩ : ∃ k, fuel = k + 1 := ⟨fuel - 1, by omega⟩
    have hb : (boxes []).length = 0 := rfl
    rw [hb] at hr
    refine ⟨[], [], rfl, ?_, fun _ => rfl⟩
    rw [seekAtom, if_neg (by omega)]
    rfl
  | cons x l ih =>
    intro fuel r read len hf ha hs hr
    obtain ⟨k, rfl⟩ : ∃ k, fuel = k + 1 := ⟨fuel - 1, by omega⟩
    obtain ⟨h1, h2⟩ := h x (by simp)
    by_cases hc : read < len
    · rw [boxes_length_cons h1] at hf hs hr
      rw [boxes_cons, List.append_assoc] at ha
      obtain ⟨l1, l2, rfl, e, he⟩ := ih (fun y hy => h y (by simp [hy])) k (r.skip (8 + x.2.length)) (read + (8 + x.2.length)) len
        (by omega) (past_box ha h1) (by omega) (by omega)
      refine ⟨x :: l1, l2, rfl, ?_, fun hc => he (by rw [boxes_length_cons h1] at hc; omega)⟩
      rw [seekAtom, if_pos hc, next_box ha h1 (by omega), ok_bind]
      simp only
      rw [if_neg (by simpa using h2), skip_box _ _ (by omega), ok_bind, e, skip_skip, boxes_length_cons h1]
    · refine ⟨[], x :: l, rfl, ?_, fun he => ?_⟩
      · rw [seekAtom, if_neg hc]
        rfl
      · rw [boxes_length_cons h1] at he
        omega

/-- The media atom of a track. -/
theorem findChild_list {mode : Mode} (rest : Bytes) (l : List (Bytes × Bytes)) (h : ∀ x ∈ l, IdOk x.1) :
    ∀ (fuel : Nat) (r : Rd), (boxes l).length < fuel → At r (boxes l ++ rest) → (boxes l).length + 8 < 2 ^ 32 →
    (firstMdia r.pos l = none ∧ findChild fuel r (8 + (boxes l).length) (ascii "mdia") mode = .ok (none, r.skip (boxes l).length)) ∨
    (∃ l1 c l2, l = l1 ++ (ascii "mdia", c) :: l2 ∧
      firstMdia r.pos l = some ⟨r.pos + (boxes l1).length, 8 + c.length, false, .fourcc (ascii "mdia")⟩ ∧
      findChild fuel r (8 + (boxes l).length) (ascii "mdia") mode =
        .ok (some ⟨r.pos + (boxes l1).length, 8 + c.length, false, .fourcc (ascii "mdia")⟩, r.skip ((boxes l1).length + 8))) := by
  induction l with
  | nil =>
    intro fuel r hf _ _
    obtain ⟨k, rfl⟩ : ∃ k, fuel = k + 1 := ⟨fuel - 1, by omega⟩
    exact .inl ⟨rfl, by rw [findChild]; rfl⟩
  | cons x l ih =>
    intro fuel r hf ha hs
    obtain ⟨k, rfl⟩ : ∃ k, fuel = k + 1 := ⟨fuel - 1, by omega⟩
    have h1 := h x (by simp)
    have hlen := boxes_length_cons h1 l
    have ha0 := ha
    rw [boxes_cons, List.append_assoc] at ha
    have ha' := ha
    rw [box_eq, List.append_assoc, List.append_assoc] at ha'
    have e : findChild (k + 1) r (8 + (boxes (x :: l)).length) (ascii "mdia") mode =
        if (Ident.fourcc x.1) = .fourcc (ascii "mdia") then .ok (some ⟨r.pos, 8 + x.2.length, false, .fourcc x.1⟩, r.skip 8)
        else findChild k (r.skip (8 + x.2.length)) (8 + (boxes l).length) (ascii "mdia") mode := by
      rw [findChild, if_neg (by omega), readInfo_box ha' (by omega) (by omega) h1.1 h1.2.1 (by omega) h1.2.2, ok_bind]
      simp only
      split
      · rfl
      · rw [skip_box _ _ (by omega), ok_bind, show 8 + (boxes (x :: l)).length - (8 + x.2.length) = 8 + (boxes l).length by omega]
    by_cases hx : x.1 = ascii "mdia"
    · right
      obtain ⟨n, c⟩ := x
      obtain rfl : n = ascii "mdia" := hx
      refine ⟨[], c, l, rfl, ?_, ?_⟩
      · rw [firstMdia, if_pos rfl]
        rfl
      · rw [e, if_pos rfl]
        simp only [show (boxes []).length = 0 from rfl, Nat.zero_add, Nat.add_zero]
    · have e' : findChild (k + 1) r (8 + (boxes (x :: l)).length) (ascii "mdia") mode =
          findChild k (r.skip (8 + x.2.length)) (8 + (boxes l).length) (ascii "mdia") mode := by
        rw [e, if_neg (by simpa using hx)]
      have hfm : firstMdia r.pos (x :: l) = firstMdia (r.skip (8 + x.2.length)).pos l := by
        rw [firstMdia, if_neg hx]
        rfl
      rw [e', hfm]
      rcases ih (fun y hy => h y (by simp [hy])) k (r.skip (8 + x.2.length)) (by omega) (past_box ha h1) (by omega) with
        ⟨a, b⟩ | ⟨l1, c, l2, rfl, a, b⟩
      · left
        refine ⟨a, ?_⟩
        rw [b, skip_skip, hlen]
      · right
        refine ⟨x :: l1, c, l2, rfl, ?_, ?_⟩
        · rw [a, skip_pos, boxes_length_cons h1]
          simp only [Nat.add_assoc]
        · rw [b, skip_skip, skip_pos, boxes_length_cons h1]
          simp only [Nat.add_assoc]

/-- Atoms that are neither tracks nor user data. -/
theorem loop_other {cfg : Config} (rest : Bytes) (l : List (Bytes × Bytes)) (h : ∀ x ∈ l, IdOk x.1 ∧ Other x.1) :
    ∀ (k : Nat) (r : Rd) (m : Moov), At r (boxes l ++ rest) → (boxes l).length < 2 ^ 32 →
    moovLoop cfg (l.length + k) r m = moovLoop cfg k (r.skip (boxes l).length) m := by
  induction l with
  | nil =>
    intro k r m _ _
    rw [List.length_nil, Nat.zero_add]
    rfl
  | cons x l ih =>
    intro k r m ha hs
    obtain ⟨h1, h2, h3⟩ := h x (by simp)
    rw [boxes_length_cons h1] at hs ⊢
    rw [boxes_cons, List.append_assoc] at ha
    rw [List.length_cons, show l.length + 1 + k = (l.length + k) + 1 by omega, moovLoop, next_box ha h1 (by omega)]
    simp only
    unfold moovStep
    rw [if_neg (by simp [h3]), if_neg (by simp [h2])]
    simp only
    rw [skip_box _ _ (by omega), ok_bind, ok_bind]
    simp only
    rw [ih (fun y hy => h y (by simp [hy])) k _ m (past_box ha h1) (by omega), skip_skip]

/-- The tracks found if they are asked for. -/
def found (cfg : Config) (p : Nat) (f : Forest) : List Info := if cfg.properties then tracks p f else []

theorem bytes_length_leaf {id c : Bytes} (h : IdOk id) (f : Forest) :
    (Forest.leaf id c f).bytes.length = 8 + c.length + f.bytes.length := by
  rw [Forest.bytes, List.length_append, box_length _ _ h.1]

theorem bytes_length_node {id : Bytes} (h : IdOk id) (k f : Forest) :
    (Forest.node id k f).bytes.length = 8 + k.bytes.length + f.bytes.length := by
  rw [Forest.bytes, List.length_append, box_length _ _ h.1]

/-- A track. -/
theorem loop_track {cfg : Config} {kids : Forest} (hk : kids.Ok) (ho : ∀ k ∈ kids.top, Other k) (hc : cfg.properties = true)
    {rest : Bytes} {r : Rd} (m : Moov) (ha : At r (box (ascii "trak") kids.bytes ++ rest)) (hs : 8 + kids.bytes.length < 2 ^ 32) :
    ∃ n ≤ 8 + kids.bytes.length, ∀ k, moovLoop cfg (n + k) r m = moovLoop cfg k (r.skip (8 + kids.bytes.length))
      { m with traks := m.traks ++ (firstMdia (r.pos + 8) (items kids)).toList } := by
  have htrak : IdOk (ascii "trak") := by unfold IdOk; decide
  have hids := items_ok hk
  have hb := items_bytes kids
  have hi := into_box ha htrak
  rw [← hb] at hi
  have hfl : (boxes (items kids)).length < (r.skip 8).f.length + 1 := by
    have := hi.2.2
    rw [List.length_append] at this
    omega
  have hbl : kids.bytes.length = (boxes (items kids)).length := by rw [hb]
  have hstep : ∀ k m' r', (findChild ((r.skip 8).f.length + 1) (r.skip 8) (8 + (boxes (items kids)).length) (ascii "mdia") cfg.opts.mode >>=
        fun x => match x.1 with
        | none => .ok (m, x.2)
        | some c => skipAtom x.2 c.extended c.len >>= fun r => .ok ({ m with traks := m.traks ++ [c] }, r)) = .ok (m', r') →
      moovLoop cfg (k + 1) r m = moovLoop cfg k r' m' := by
    intro k m' r' he
    rw [moovLoop, next_box ha htrak (by omega)]
    simp only
    unfold moovStep
    rw [if_pos (by simp [hc])]
    rw [← hbl] at he
    refine Eq.trans (congrArg (fun x => x >>= fun y => moovLoop cfg k y.2 y.1) he) ?_
    rw [ok_bind]
  rcases findChild_list (mode := cfg.opts.mode) rest (items kids) hids ((r.skip 8).f.length + 1) (r.skip 8) hfl hi
    (by rw [hb]; omega) with ⟨e1, e2⟩ | ⟨l1, c, l2, hl, e1, e2⟩
  · refine ⟨1, by omega, fun k => ?_⟩
    rw [Nat.add_comm 1 k, hstep k m ((r.skip 8).skip (boxes (items kids)).length) (by rw [e2, ok_bind])]
    rw [show (r.skip 8).pos = r.pos + 8 from rfl] at e1
    rw [e1, hb, skip_skip]
    simp
  · have hlen : (boxes (items kids)).length = (boxes l1).length + (8 + c.length + (boxes l2).length) := by
      rw [hl, boxes_append, List.length_append, boxes_length_cons (hids (ascii "mdia", c) (by rw [hl]; simp))]
    have hid2 : ∀ x ∈ l2, IdOk x.1 ∧ Other x.1 := fun x hx =>
      ⟨hids x (by rw [hl]; simp [hx]), items_names ho x (by rw [hl]; simp [hx])⟩
    have hmd : IdOk (ascii "mdia") := by unfold IdOk; decide
    have hi2 : At ((r.skip 8).skip ((boxes l1).length + (8 + c.length))) (boxes l2 ++ rest) := by
      rw [hl, boxes_append, boxes_cons, List.append_assoc, List.append_assoc] at hi
      have := past_box (hi.skip rfl) hmd
      rw [skip_skip] at this
      exact this
    refine ⟨1 + l2.length, ?_, fun k => ?_⟩
    · have := length_le_boxes (fun x hx => (hid2 x hx).1)
      omega
    · have hsk : (r.skip 8).skip ((boxes l1).length + 8) = ((r.skip 8).skip (boxes l1).length).skip 8 := by
        simp only [skip_skip, Nat.add_assoc]
      rw [show 1 + l2.length + k = (l2.length + k) + 1 by omega,
        hstep (l2.length + k) { m with traks := m.traks ++ [⟨(r.skip 8).pos + (boxes l1).length, 8 + c.length, false, .fourcc (ascii "mdia")⟩] }
          (((r.skip 8).skip (boxes l1).length).skip (8 + c.length)) (by
            rw [e2, ok_bind]
            simp only
            rw [hsk, skip_box _ _ (by omega), ok_bind])]
      rw [show (r.skip 8).pos = r.pos + 8 from rfl] at e1
      rw [skip_skip, skip_skip]
      rw [skip_skip] at hi2
      rw [loop_other rest l2 hid2 k _ _ hi2 (by omega), skip_skip, e1]
      have : 8 + ((boxes l1).length + (8 + c.length)) + (boxes l2).length = 8 + kids.bytes.length := by rw [← hb]; omega
      rw [this]
      rfl

/-- Atoms of `moov` without user data. -/
theorem loop_silent {cfg : Config} (rest : Bytes) (f : Forest) (hf : f.Ok) (hsil : Silent f) :
    ∀ (r : Rd) (m : Moov), At r (f.bytes ++ rest) → f.bytes.length < 2 ^ 32 →
    ∃ n ≤ f.bytes.length, ∀ k, moovLoop cfg (n + k) r m =
      moovLoop cfg k (r.skip f.bytes.length) { m with traks := m.traks ++ found cfg r.pos f } := by
  have one : ∀ (id c : Bytes) (r : Rd) (m : Moov) (z : Bytes), IdOk id → id ≠ ascii "udta" →
      (id = ascii "trak" → cfg.properties = false) → At r (box id c ++ z) → 8 + c.length < 2 ^ 32 →
      ∀ k, moovLoop cfg (1 + k) r m = moovLoop cfg k (r.skip (8 + c.length)) m := by
    intro id c r m z h1 h2 h3 ha hs k
    rw [Nat.add_comm 1 k, moovLoop, next_box ha h1 hs]
    simp only
    unfold moovStep
    rw [if_neg (by rintro ⟨e, e'⟩; rw [h3 (by simpa using e)] at e'; cases e'), if_neg (by simp [h2])]
    simp only
    rw [skip_box _ _ hs, ok_bind, ok_bind]
  induction f with
  | nil =>
    intro r m _ _
    refine ⟨0, Nat.le_refl _, fun k => ?_⟩
    have : found cfg r.pos .nil = [] := by unfold found tracks; simp
    rw [this, Nat.zero_add, List.append_nil]
    rfl
  | leaf id c g ih =>
    intro r m ha hs
    obtain ⟨h1, _, h3⟩ := hf
    obtain ⟨⟨s1, s2⟩, s3⟩ := hsil
    rw [bytes_length_leaf h1] at hs ⊢
    rw [Forest.bytes, List.append_assoc] at ha
    obtain ⟨n, hn, e⟩ := ih h3 s3 (r.skip (8 + c.length)) m (past_box ha h1) (by omega)
    refine ⟨1 + n, by omega, fun k => ?_⟩
    rw [Nat.add_assoc, one id c r m _ h1 s1 (fun h => absurd h s2) ha (by omega), e, skip_skip]
    rfl
  | node id kids g _ ih =>
    intro r m ha hs
    obtain ⟨h1, _, h3, h4⟩ := hf
    obtain ⟨s1, s2, s3⟩ := hsil
    rw [bytes_length_node h1] at hs ⊢
    rw [Forest.bytes, List.append_assoc] at ha
    have hp := past_box ha h1
    by_cases ht : id = ascii "trak" ∧ cfg.properties = true
    · obtain ⟨rfl, hc⟩ := ht
      obtain ⟨n1, hn1, e1⟩ := loop_track h3 (s2 rfl) hc m ha (by omega)
      obtain ⟨n, hn, e⟩ := ih h4 s3 (r.skip (8 + kids.bytes.length))
        { m with traks := m.traks ++ (firstMdia (r.pos + 8) (items kids)).toList } hp (by omega)
      refine ⟨n1 + n, by omega, fun k => ?_⟩
      rw [Nat.add_assoc, e1, e, skip_skip]
      simp only [found, hc, if_true, tracks, skip_pos, List.append_assoc]
    · obtain ⟨n, hn, e⟩ := ih h4 s3 (r.skip (8 + kids.bytes.length)) m hp (by omega)
      refine ⟨1 + n, by omega, fun k => ?_⟩
      have hoff : id = ascii "trak" → cfg.properties = false := by
        intro h
        cases hc : cfg.properties
        · rfl
        · exact absurd ⟨h, hc⟩ ht
      rw [Nat.add_assoc, one id _ r m _ h1 s1 hoff ha (by omega), e, skip_skip]
      have : found cfg r.pos (.node id kids g) = found cfg (r.skip (8 + kids.bytes.length)).pos g := by
        unfold found
        cases hc : cfg.properties
        · rfl
        · have hne : ¬ id = ascii "trak" := fun h => ht ⟨h, hc⟩
          simp only [if_true, tracks, if_neg hne, List.nil_append, skip_pos]
      rw [this]

/-- The end of `moov`. -/
theorem loop_end {cfg : Config} {r : Rd} (m : Moov) (ha : At r []) (k : Nat) : moovLoop cfg (k + 1) r m = .ok m := by
  rw [moovLoop]
  unfold Rd.next
  rw [if_pos (by rw [ha.2.1]; rfl)]

/-- The version of `meta`. -/
theorem meta_version {r : Rd} {version rest more : Bytes} (h : MetaOk version rest) (ha : At r (version ++ (rest ++ more))) :
    ∃ full, metaIsFull r = .ok (full, r.skip version.length) ∧ (if full then 12 else 8) = 8 + version.length := by
  rcases h with ⟨h4, hr, hn⟩ | ⟨h0, hm⟩
  · refine ⟨true, ?_, by simp [h4]⟩
    rw [show rest = rest.take 4 ++ rest.drop 4 by simp, List.append_assoc] at ha
    rw [metaIsFull_back ha h4 (by simp; omega), if_neg hn, h4]
  · refine ⟨false, ?_, by simp [h0]⟩
    subst h0
    have hl : 8 ≤ rest.length := by
      have : ((rest.drop 4).take 4).length = 4 := by
        generalize (rest.drop 4).take 4 = z at hm
        revert z
        unfold metaNames
        decide
      simp at this
      omega
    have hsplit : rest ++ more = rest.take 4 ++ ((rest.drop 4).take 4 ++ (rest.drop 8 ++ more)) := by
      have : rest = rest.take 4 ++ ((rest.drop 4).take 4 ++ rest.drop 8) := by
        rw [show rest.drop 8 = (rest.drop 4).drop 4 by rw [List.drop_drop], List.take_append_drop, List.take_append_drop]
      conv => lhs; rw [this]
      simp only [List.append_assoc]
    rw [List.nil_append, hsplit] at ha
    rw [metaIsFull_back ha (by simp; omega) (by simp; omega), if_pos hm]
    rfl

/-- The brand. -/
theorem verify_at {f c z : Bytes} {s : Str} {mode : Mode} (hf : f = box (ascii "ftyp") c ++ z) (h4 : 4 ≤ c.length)
    (hs : utf8Decode (c.take 4) = .ok s) (hl : f.length < 2 ^ 32) :
    verifyMp4 (Rd.new f) mode = .ok (s, (Rd.new f).skip (8 + c.length)) := by
  have hid : IdOk (ascii "ftyp") := by unfold IdOk; decide
  have hlen : f.length = 8 + c.length + z.length := by rw [hf, List.length_append, box_length _ _ hid.1]
  have h0 : At (Rd.new f) (box (ascii "ftyp") c ++ z) := hf ▸ at_new f
  have h1 := into_box h0 hid
  rw [show c = c.take 4 ++ c.drop 4 by simp, List.append_assoc] at h1
  unfold verifyMp4
  rw [next_box h0 hid (by omega), ok_bind]
  simp only
  rw [if_neg (by simp), if_neg (by omega), h1.take (by simp; omega), ok_bind]
  simp only
  rw [hs]
  simp only [skip_skip]
  rw [show 8 + 4 + (8 + c.length - 12) = 8 + c.length by omega]

/-- `moov`. -/
theorem find_list {mode : Mode} (c rest : Bytes) (l : List (Bytes × Bytes)) (h : ∀ x ∈ l, IdOk x.1 ∧ x.1 ≠ ascii "moov") :
    ∀ (fuel : Nat) (r : Rd), l.length < fuel → At r (boxes l ++ (box (ascii "moov") c ++ rest)) →
    (boxes l).length + (8 + c.length) < 2 ^ 32 →
    findMoov fuel r mode = .ok (⟨r.pos + (boxes l).length, 8 + c.length, false, .fourcc (ascii "moov")⟩, r.skip ((boxes l).length + 8)) := by
  induction l with
  | nil =>
    intro fuel r hf ha hs
    obtain ⟨k, rfl⟩ : ∃ k, fuel = k + 1 := ⟨fuel - 1, by omega⟩
    have hb : boxes [] = [] := rfl
    rw [hb] at ha hs ⊢
    simp only [List.nil_append, List.length_nil] at ha hs ⊢
    rw [findMoov, next_box ha moov_ok (by omega)]
    simp only [if_true, Nat.zero_add, Nat.add_zero]
  | cons x l ih =>
    intro fuel r hf ha hs
    obtain ⟨k, rfl⟩ : ∃ k, fuel = k + 1 := ⟨fuel - 1, by omega⟩
    obtain ⟨h1, h2⟩ := h x (by simp)
    rw [boxes_length_cons h1] at hs ⊢
    rw [boxes_cons, List.append_assoc] at ha
    rw [findMoov, next_box ha h1 (by omega)]
    simp only
    rw [if_neg (by simpa using h2), skip_box _ _ (by omega), ok_bind,
      ih (fun y hy => h y (by simp [hy])) k _ (by simp at hf; omega) (past_box ha h1) (by omega), skip_skip, skip_pos]
    simp only [Nat.add_assoc]

/-- The way to the atoms of `moov`. -/
theorem read_moov {before moov after : Forest} {brand : Str} (h : FileOk before moov after brand) (cfg : Config) :
    ∃ r, At r moov.bytes ∧ r.pos = before.bytes.length + 8 ∧ r.f = (whole before moov after).bytes ∧
      readFrom cfg (whole before moov after).bytes =
        (moovLoop cfg ((whole before moov after).bytes.length + 1) r ⟨[], none⟩ >>= fun m => .ok (brand, m)) := by
  obtain ⟨c, rest, hb, h4, hs⟩ := h.front
  have hl := h.size
  have hB : (whole before moov after).bytes = box (ascii "ftyp") c ++ (boxes (items rest) ++ (box (ascii "moov") moov.bytes ++ after.bytes)) := by
    rw [whole, append_bytes, hb, Forest.bytes, items_bytes, Forest.bytes, List.append_assoc]
  have hbef : before.bytes.length = 8 + c.length + (boxes (items rest)).length := by
    rw [hb, Forest.bytes, List.length_append, items_bytes, box_length _ _ rfl]
  generalize hF : (whole before moov after).bytes = F at hl hB ⊢
  have hlen : F.length = 8 + c.length + ((boxes (items rest)).length + (8 + moov.bytes.length + after.bytes.length)) := by
    rw [hB]
    simp only [List.length_append]
    rw [box_length _ _ rfl, box_length _ _ rfl]
  have h0 : At (Rd.new F) (box (ascii "ftyp") c ++ (boxes (items rest) ++ (box (ascii "moov") moov.bytes ++ after.bytes))) := by
    have := at_new F
    conv at this => rhs; rw [hB]
    exact this
  have hid : IdOk (ascii "ftyp") := by unfold IdOk; decide
  have h1 := past_box h0 hid
  have hn : ∀ x ∈ items rest, IdOk x.1 ∧ x.1 ≠ ascii "moov" := by
    have h1 := h.names.1
    have h2 := h.names.2
    rw [hb] at h1 h2
    intro x hx
    refine ⟨items_ok h1.2.2 x hx, ?_⟩
    have := items_names (P := fun i => i ≠ ascii "moov") (f := rest)
      (fun i hi e => h2 (by rw [Forest.top]; exact List.mem_cons_of_mem _ (e ▸ hi))) x hx
    exact this
  have hf := find_list (mode := cfg.opts.mode) moov.bytes after.bytes (items rest) hn (F.length + 1) ((Rd.new F).skip (8 + c.length))
    (by have := length_le_boxes (fun x hx => (hn x hx).1); omega) h1 (by omega)
  have h2 : At (((Rd.new F).skip (8 + c.length)).skip ((boxes (items rest)).length + 8)) (moov.bytes ++ after.bytes) := by
    have := into_box (h1.skip rfl) moov_ok
    rw [skip_skip] at this
    exact this
  refine ⟨(((Rd.new F).skip (8 + c.length)).skip ((boxes (items rest)).length + 8)).resetBounds
      (((Rd.new F).skip (8 + c.length)).pos + (boxes (items rest)).length + 8) (8 + moov.bytes.length - 8), ?_, ?_, rfl, ?_⟩
  · rw [show 8 + moov.bytes.length - 8 = moov.bytes.length by omega]
    exact at_bounds h2 _
  · show 0 + (8 + c.length) + ((boxes (items rest)).length + 8) = _
    omega
  · unfold readFrom
    rw [verify_at hB h4 hs hl, ok_bind]
    simp only
    rw [hf, ok_bind]

end Lofty.Mp4Read
