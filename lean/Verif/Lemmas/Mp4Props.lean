import Verif.Lemmas.Mp4Read
import Verif.Spec.Mp4Props
/-! Helper lemmas about the properties of MP4 files. -/
namespace Lofty.Mp4Props
open Lofty.Text Lofty.Mp4 Lofty.Ilst Lofty.Mp4Write Lofty.Mp4Read

theorem Rd.at_seek {r : Rd} {s : Nat} (h0 : r.start = 0) (hl : r.len = r.f.length) (hs : s ≤ r.f.length) : At (r.seekStart s) (r.f.drop s) := by
  unfold Rd.seekStart
  rw [if_neg (by omega), h0, Nat.zero_add]
  refine ⟨⟨[], by simp⟩, ?_, ?_⟩
  · show r.len - s = _
    rw [List.length_drop, hl]
  · show s + _ ≤ r.f.length
    rw [List.length_drop]
    omega

theorem seek_pos {r : Rd} {s : Nat} (h0 : r.start = 0) (hl : r.len = r.f.length) (hs : s ≤ r.f.length) : (r.seekStart s).pos = s := by
  unfold Rd.seekStart
  rw [if_neg (by omega), h0, Nat.zero_add]

@[simp] theorem seek_f (r : Rd) (s : Nat) : (r.seekStart s).f = r.f := by
  unfold Rd.seekStart
  split <;> rfl

/-- Where the last atom of a name is, and what it holds. -/
def lastAt (name : Bytes) : Nat → List (Bytes × Bytes) → Option (Nat × Bytes)
  | _, [] => none
  | p, x :: l => (lastAt name (p + (8 + x.2.length)) l).or (if x.1 = name then some (p, x.2) else none)

def infoOf (name : Bytes) (x : Nat × Bytes) : Info := ⟨x.1, 8 + x.2.length, false, .fourcc name⟩

def sound (l : List (Bytes × Bytes)) : Bool :=
  l.any fun x => decide (x.1 = ascii "hdlr" ∧ 12 ≤ x.2.length ∧ (x.2.drop 8).take 4 = ascii "soun")

theorem mdhd_ok : IdOk (ascii "mdhd") := by unfold IdOk; decide
theorem hdlr_ok : IdOk (ascii "hdlr") := by unfold IdOk; decide
theorem minf_ok : IdOk (ascii "minf") := by unfold IdOk; decide
theorem stbl_ok : IdOk (ascii "stbl") := by unfold IdOk; decide

theorem mdiaLoop_list {mode : Mode} {len : Nat} (rest : Bytes) (l : List (Bytes × Bytes)) (h : ∀ x ∈ l, IdOk x.1)
    (hm : ∀ x ∈ l.dropLast, x.1 ≠ ascii "minf") : ∀ (fuel : Nat) (r : Rd) (read : Nat) (t : Trak), l.length < fuel →
    At r (boxes l ++ rest) → (boxes l).length < 2 ^ 32 → len = read + (boxes l).length →
    mdiaLoop mode len fuel r read t = .ok ⟨t.audio || sound l, ((lastAt (ascii "mdhd") r.pos l).map (infoOf (ascii "mdhd"))).or t.mdhd,
      ((lastAt (ascii "minf") r.pos l).map (infoOf (ascii "minf"))).or t.minf⟩ := by
  induction l with
  | nil =>
    intro fuel r read t hf ha hs hl
    obtain ⟨k, rfl⟩ : ∃ k, fuel = k + 1 := ⟨fuel - 1, by omega⟩
    have hb : (boxes []).length = 0 := rfl
    rw [mdiaLoop, if_neg (by omega)]
    simp [sound, lastAt]
  | cons x l ih =>
    intro fuel r read t hf ha hs hl
    obtain ⟨k, rfl⟩ : ∃ k, fuel = k + 1 := ⟨fuel - 1, by simp at hf; omega⟩
    have h1 := h x (by simp)
    rw [boxes_length_cons h1] at hs hl
    rw [boxes_cons, List.append_assoc] at ha
    have hf' : l.length < k := by simpa using hf
    have hm' : ∀ y ∈ l.dropLast, y.1 ≠ ascii "minf" := by
      intro y hy
      refine hm y ?_
      cases l with
      | nil => simp at hy
      | cons z l => rw [List.dropLast_cons_of_ne_nil (by simp)]; simp [hy]
    have ih' := fun t => ih (fun y hy => h y (by simp [hy])) hm' k (r.skip (8 + x.2.length)) (read + (8 + x.2.length)) t hf' (past_box ha h1) (by omega) (by omega)
    rw [mdiaLoop, if_pos (by omega), next_box ha h1 (by omega), ok_bind]
    simp only [Ident.fourcc.injEq]
    by_cases c1 : x.1 = ascii "mdhd"
    · have n1 : ¬ x.1 = ascii "minf" := by rw [c1]; decide
      have n2 : ¬ x.1 = ascii "hdlr" := by rw [c1]; decide
      rw [if_pos c1, skip_box _ _ (by omega), ok_bind, ih']
      simp only [lastAt, if_pos c1, if_neg n1, sound, List.any_cons, n2, false_and, decide_false, Bool.false_or, skip_pos, Option.or_none]
      congr 2
      · cases lastAt (ascii "mdhd") (r.pos + (8 + x.2.length)) l <;> simp [infoOf, c1]
    · rw [if_neg c1]
      by_cases c2 : x.1 = ascii "hdlr"
      · have n1 : ¬ x.1 = ascii "minf" := by rw [c2]; decide
        rw [if_pos c2]
        by_cases c3 : 8 + x.2.length < 20
        · rw [if_pos c3, skip_box _ _ (by omega), ok_bind, ih']
          have n3 : ¬ 12 ≤ x.2.length := by omega
          have hso : sound (x :: l) = sound l := by simp only [sound, List.any_cons, n3, false_and, and_false, decide_false, Bool.false_or]
          simp only [lastAt, if_neg c1, if_neg n1, hso, skip_pos, Option.or_none]
        · rw [if_neg c3]
          have hin := into_box ha h1
          have e1 : x.2 = x.2.take 8 ++ ((x.2.drop 8).take 4 ++ x.2.drop 12) := by
            rw [show x.2.drop 12 = (x.2.drop 8).drop 4 by rw [List.drop_drop], List.take_append_drop, List.take_append_drop]
          rw [e1, List.append_assoc, List.append_assoc] at hin
          have hin2 := hin.skip (n := 8) (by rw [List.length_take]; omega)
          rw [hin2.take (n := 4) (by rw [List.length_take, List.length_drop]; omega), ok_bind]
          simp only
          rw [skip_ok (by omega) (by omega), ok_bind, skip_skip, skip_skip, skip_skip,
            show 8 + (8 + (4 + (8 + x.2.length - 12 - 8))) = 8 + x.2.length by omega, ih']
          have n3 : 12 ≤ x.2.length := by omega
          have hso : sound (x :: l) = (decide ((x.2.drop 8).take 4 = ascii "soun") || sound l) := by
            simp only [sound, List.any_cons, c2, n3, true_and]
          simp only [lastAt, if_neg c1, if_neg n1, hso, skip_pos, Option.or_none, Bool.or_assoc]
      · rw [if_neg c2]
        by_cases c3 : x.1 = ascii "minf"
        · rw [if_pos c3]
          have hnil : l = [] := by
            cases l with
            | nil => rfl
            | cons z l => exact absurd c3 (hm x (by rw [List.dropLast_cons_of_ne_nil (by simp)]; simp))
          subst hnil
          obtain ⟨k, rfl⟩ : ∃ k', k = k' + 1 := ⟨k - 1, by simp at hf'; omega⟩
          have hb : (boxes []).length = 0 := rfl
          rw [mdiaLoop, if_neg (by omega)]
          have hso : sound [x] = false := by simp [sound, c2]
          have n1 : ¬ ascii "minf" = ascii "mdhd" := by decide
          simp only [lastAt, hso, Bool.or_false, c3, if_neg n1, if_true]
          rfl
        · rw [if_neg c3, skip_box _ _ (by omega), ok_bind, ih']
          simp only [lastAt, if_neg c1, if_neg c3, sound, List.any_cons, c2, false_and, decide_false, Bool.false_or, skip_pos, Option.or_none]

/-- Where the atom is. -/
theorem lastAt_only {name c : Bytes} (l : List (Bytes × Bytes)) (h : ∀ x ∈ l, IdOk x.1) (hu : ∀ d, (name, d) ∈ l → d = c) : ∀ p : Nat,
    ((name, c) ∈ l → ∃ q, lastAt name p l = some (q, c) ∧ q + (8 + c.length) ≤ p + (boxes l).length ∧
      ∀ F rest : Bytes, F.drop p = boxes l ++ rest → ∃ rest', F.drop q = box name c ++ rest') ∧
    ((name, c) ∉ l → lastAt name p l = none) := by
  induction l with
  | nil => exact fun p => ⟨fun hc => by simp at hc, fun _ => rfl⟩
  | cons x l ih =>
    intro p
    have h1 := h x (by simp)
    obtain ⟨i1, i2⟩ := ih (fun y hy => h y (by simp [hy])) (fun d hd => hu d (by simp [hd])) (p + (8 + x.2.length))
    have hdrop : ∀ F rest : Bytes, F.drop p = boxes (x :: l) ++ rest → F.drop (p + (8 + x.2.length)) = boxes l ++ rest := by
      intro F rest hF
      rw [← List.drop_drop, hF, boxes_cons, List.append_assoc, List.drop_left' (box_length _ _ h1.1)]
    constructor
    · intro hc
      by_cases hl : (name, c) ∈ l
      · obtain ⟨q, e1, e2, e3⟩ := i1 hl
        refine ⟨q, by rw [lastAt, e1]; rfl, by rw [boxes_length_cons h1]; omega, fun F rest hF => e3 F rest (hdrop F rest hF)⟩
      · have hx : x = (name, c) := by
          simp only [List.mem_cons] at hc
          rcases hc with hc | hc
          · exact hc.symm
          · exact absurd hc hl
        subst hx
        refine ⟨p, by rw [lastAt, i2 hl, if_pos rfl]; rfl, by rw [boxes_length_cons h1]; simp only; omega, fun F rest hF => ⟨boxes l ++ rest, ?_⟩⟩
        rw [hF, boxes_cons, List.append_assoc]
    · intro hc
      simp only [List.mem_cons, not_or] at hc
      rw [lastAt, i2 hc.2, if_neg]
      · rfl
      · intro e
        obtain ⟨n, d⟩ := x
        simp only at e
        subst e
        have := hu d (by simp)
        subst this
        exact hc.1 rfl

/-- The header of the media. -/
theorem parseMdhd_times {r : Rd} {c rest : Bytes} {timescale duration : Nat} (ha : At r (c ++ rest)) (h : Times c timescale duration) :
    parseMdhd r = .ok (timescale, duration) := by
  obtain ⟨ht, ⟨flags, times, more, h1, h2, hd, rfl⟩ | ⟨flags, times, more, h1, h2, hd, rfl⟩⟩ := h
  · unfold mdhd0 at ha
    simp only [List.append_assoc] at ha
    unfold parseMdhd
    rw [ha.raw (n := 1) rfl, ok_bind]
    have a1 := ha.skip (n := 1) rfl
    simp only
    rw [a1.raw h1, ok_bind]
    have a2 := a1.skip h1
    simp only
    rw [if_neg (by decide)]
    have e : times = times.take 4 ++ times.drop 4 := (List.take_append_drop _ _).symm
    rw [e, List.append_assoc] at a2
    have l4 : (times.take 4).length = 4 := by rw [List.length_take]; omega
    have l5 : (times.drop 4).length = 4 := by rw [List.length_drop]; omega
    rw [a2.raw l4, ok_bind]
    have a3 := a2.skip l4
    simp only
    rw [a3.raw l5, ok_bind]
    have a4 := a3.skip l5
    simp only
    rw [a4.raw (beBytes_length 4 _), ok_bind]
    have a5 := a4.skip (beBytes_length 4 _)
    simp only
    rw [a5.raw (beBytes_length 4 _), ok_bind]
    simp only
    rw [fromBE_beBytes_of_lt (by omega), fromBE_beBytes_of_lt (by omega)]
  · unfold mdhd1 at ha
    simp only [List.append_assoc] at ha
    unfold parseMdhd
    rw [ha.raw (n := 1) rfl, ok_bind]
    have a1 := ha.skip (n := 1) rfl
    simp only
    rw [a1.raw h1, ok_bind]
    have a2 := a1.skip h1
    simp only
    rw [if_pos trivial]
    have e : times = times.take 8 ++ times.drop 8 := (List.take_append_drop _ _).symm
    rw [e, List.append_assoc] at a2
    have l4 : (times.take 8).length = 8 := by rw [List.length_take]; omega
    have l5 : (times.drop 8).length = 8 := by rw [List.length_drop]; omega
    rw [a2.raw l4, ok_bind]
    have a3 := a2.skip l4
    simp only
    rw [a3.raw l5, ok_bind]
    have a4 := a3.skip l5
    simp only
    rw [a4.raw (beBytes_length 4 _), ok_bind]
    have a5 := a4.skip (beBytes_length 4 _)
    simp only
    rw [a5.raw (beBytes_length 8 _), ok_bind]
    simp only
    rw [fromBE_beBytes_of_lt (by omega), fromBE_beBytes_of_lt (by omega)]

/-- The entries of the time table. -/
theorem sttsEntries_list (l : List (Nat × Nat)) (h : ∀ x ∈ l, x.1 < 2 ^ 32 ∧ x.2 < 2 ^ 32) (rest : Bytes) : ∀ r : Rd,
    At r ((l.flatMap fun x => beBytes 4 x.1 ++ beBytes 4 x.2) ++ rest) → sttsEntries l.length r = .ok (l, r.skip (8 * l.length)) := by
  induction l with
  | nil => intro r _; rfl
  | cons x l ih =>
    intro r ha
    obtain ⟨h1, h2⟩ := h x (by simp)
    rw [List.flatMap_cons, List.append_assoc, List.append_assoc] at ha
    rw [List.length_cons, sttsEntries, ha.take (beBytes_length 4 _), ok_bind]
    have a1 := ha.skip (beBytes_length 4 _)
    simp only
    rw [a1.take (beBytes_length 4 _), ok_bind]
    have a2 := a1.skip (beBytes_length 4 _)
    simp only
    rw [ih (fun y hy => h y (by simp [hy])) _ a2, ok_bind, fromBE_beBytes_of_lt (by omega), fromBE_beBytes_of_lt (by omega)]
    simp only [skip_skip]
    rw [show 4 + 4 + 8 * l.length = 8 * (l.length + 1) by omega]

theorem flatMap_length8 (l : List (Nat × Nat)) : (l.flatMap fun x => beBytes 4 x.1 ++ beBytes 4 x.2).length = 8 * l.length := by
  induction l with
  | nil => rfl
  | cons x l ih =>
    rw [List.flatMap_cons, List.length_append, ih]
    simp only [List.length_append, beBytes_length, List.length_cons]
    omega

theorem steps_length {c : Bytes} {l : List (Nat × Nat)} (h : Steps c l) : c.length = 8 + 8 * l.length := by
  obtain ⟨flags, h1, -, -, rfl⟩ := h
  unfold sttsOf
  simp only [List.length_append, beBytes_length, flatMap_length8]
  omega

theorem parseStts_steps {limit : Nat} {r : Rd} {c rest : Bytes} {l : List (Nat × Nat)} (ha : At r (c ++ rest)) (h : Steps c l) (hl : l.length ≤ limit) :
    parseStts limit r = .ok (l, r.skip c.length) := by
  have hlen := steps_length h
  obtain ⟨flags, h1, h2, h3, rfl⟩ := h
  unfold sttsOf at ha
  simp only [List.append_assoc] at ha
  unfold parseStts
  rw [ha.take h1, ok_bind]
  have a1 := ha.skip h1
  simp only
  rw [a1.take (beBytes_length 4 _), ok_bind]
  have a2 := a1.skip (beBytes_length 4 _)
  simp only
  rw [fromBE_beBytes_of_lt (by omega), if_neg (by omega), sttsEntries_list l h3 rest _ a2, skip_skip, skip_skip, hlen, ← Nat.add_assoc]

/-- The last content of a name. -/
def lastOf (name : Bytes) : List (Bytes × Bytes) → Option Bytes
  | [] => none
  | x :: l => (lastOf name l).or (if x.1 = name then some x.2 else none)

theorem lastOf_only {name c : Bytes} (l : List (Bytes × Bytes)) (hu : ∀ d, (name, d) ∈ l → d = c) :
    ((name, c) ∈ l → lastOf name l = some c) ∧ ((name, c) ∉ l → lastOf name l = none) := by
  induction l with
  | nil => simp [lastOf]
  | cons x l ih =>
    obtain ⟨i1, i2⟩ := ih fun d hd => hu d (by simp [hd])
    obtain ⟨n, d⟩ := x
    by_cases hl : (name, c) ∈ l
    · refine ⟨fun _ => by rw [lastOf, i1 hl]; rfl, fun hc => absurd (List.mem_cons_of_mem _ hl) hc⟩
    · rw [lastOf, i2 hl]
      by_cases hn : n = name
      · subst hn
        have := hu d (by simp)
        subst this
        simp
      · rw [if_neg hn]
        refine ⟨fun hc => ?_, fun _ => rfl⟩
        simp only [List.mem_cons, Prod.mk.injEq] at hc
        rcases hc with ⟨hc, _⟩ | hc
        · exact absurd hc.symm hn
        · exact absurd hc hl

/-- The tables. -/
theorem stblLoop_list {mode : Mode} {limit len : Nat} {es : List (Nat × Nat)} (hes : es.length ≤ limit) (rest : Bytes) (l : List (Bytes × Bytes))
    (h : ∀ x ∈ l, IdOk x.1) (hd : ∀ d, (ascii "stsd", d) ∈ l → d.length ≤ limit) (hsteps : ∀ d, (ascii "stts", d) ∈ l → Steps d es) :
    ∀ (fuel : Nat) (r : Rd) (read : Nat) (t : Option Bytes × Option (List (Nat × Nat))), l.length < fuel →
    At r (boxes l ++ rest) → (boxes l).length < 2 ^ 32 → len = read + (boxes l).length →
    stblLoop mode limit len fuel r read t = .ok ((lastOf (ascii "stsd") l).or t.1, ((lastOf (ascii "stts") l).map fun _ => es).or t.2) := by
  induction l with
  | nil =>
    intro fuel r read t hf ha hs hl
    obtain ⟨k, rfl⟩ : ∃ k, fuel = k + 1 := ⟨fuel - 1, by omega⟩
    have hb : (boxes []).length = 0 := rfl
    rw [stblLoop, if_neg (by omega)]
    rfl
  | cons x l ih =>
    intro fuel r read t hf ha hs hl
    obtain ⟨k, rfl⟩ : ∃ k, fuel = k + 1 := ⟨fuel - 1, by simp at hf; omega⟩
    have h1 := h x (by simp)
    rw [boxes_length_cons h1] at hs hl
    rw [boxes_cons, List.append_assoc] at ha
    have hf' : l.length < k := by simpa using hf
    have ih' := fun t => ih (fun y hy => h y (by simp [hy])) (fun d hm => hd d (by simp [hm])) (fun d hm => hsteps d (by simp [hm])) k
      (r.skip (8 + x.2.length)) (read + (8 + x.2.length)) t hf' (past_box ha h1) (by omega) (by omega)
    have hin := into_box ha h1
    rw [stblLoop, if_pos (by omega), next_box ha h1 (by omega), ok_bind]
    simp only
    obtain ⟨n, c⟩ := x
    simp only at *
    by_cases c1 : n = ascii "stsd"
    · subst c1
      have n1 : ¬ ascii "stsd" = ascii "stts" := by decide
      have := hd c (by simp)
      rw [if_pos rfl]
      unfold parseStsd
      simp only
      rw [if_neg (by omega), hin.take (by omega), ok_bind]
      simp only
      rw [skip_skip, show 8 + (8 + c.length - 8) = 8 + c.length by omega, ih']
      simp only [lastOf, if_true, if_neg n1, Option.or_none]
      cases lastOf (ascii "stsd") l <;> rfl
    · rw [if_neg c1]
      by_cases c2 : n = ascii "stts"
      · subst c2
        rw [if_pos rfl, parseStts_steps hin (hsteps c (by simp)) hes, ok_bind]
        simp only
        rw [skip_skip, ih']
        simp only [lastOf, if_true, if_neg c1, Option.or_none]
        cases lastOf (ascii "stts") l <;> rfl
      · rw [if_neg c2, skip_box _ _ (by omega), ok_bind, ih']
        simp only [lastOf, if_neg c1, if_neg c2, Option.or_none]

/-- The first atom of a name. -/
theorem findChild_first {mode : Mode} {name : Bytes} (hn : IdOk name) (c rest : Bytes) (l2 l : List (Bytes × Bytes)) (h : ∀ x ∈ l, IdOk x.1 ∧ x.1 ≠ name) :
    ∀ (fuel : Nat) (r : Rd) (len : Nat), l.length < fuel → At r (boxes (l ++ (name, c) :: l2) ++ rest) → (boxes (l ++ (name, c) :: l2)).length < 2 ^ 32 →
    len = 8 + (boxes (l ++ (name, c) :: l2)).length →
    findChild fuel r len name mode = .ok (some ⟨r.pos + (boxes l).length, 8 + c.length, false, .fourcc name⟩, r.skip ((boxes l).length + 8)) := by
  induction l with
  | nil =>
    intro fuel r len hf ha hs hl
    obtain ⟨k, rfl⟩ : ∃ k, fuel = k + 1 := ⟨fuel - 1, by omega⟩
    rw [List.nil_append] at ha hs hl
    rw [boxes_length_cons (x := (name, c)) hn] at hs hl
    rw [boxes_cons, List.append_assoc, box_eq, List.append_assoc, List.append_assoc] at ha
    simp only at hs hl ha
    have hb : (boxes []).length = 0 := rfl
    rw [findChild, if_neg (by omega), readInfo_box ha (by omega) (by omega) hn.1 hn.2.1 (by omega) hn.2.2, ok_bind]
    simp only [if_true, hb, Nat.add_zero, Nat.zero_add]
  | cons x l ih =>
    intro fuel r len hf ha hs hl
    obtain ⟨k, rfl⟩ : ∃ k, fuel = k + 1 := ⟨fuel - 1, by omega⟩
    obtain ⟨h1, h2⟩ := h x (by simp)
    rw [List.cons_append] at ha hs hl
    rw [boxes_length_cons h1] at hs hl
    rw [boxes_cons, List.append_assoc] at ha
    have ha' := ha
    rw [box_eq, List.append_assoc, List.append_assoc] at ha'
    rw [findChild, if_neg (by omega), readInfo_box ha' (by omega) (by omega) h1.1 h1.2.1 (by omega) h1.2.2, ok_bind]
    simp only
    rw [if_neg (by simpa using h2), skip_box _ _ (by omega), ok_bind, ih (fun y hy => h y (by simp [hy])) k _ _ (by simpa using hf) (past_box ha h1) (by omega) (by omega)]
    rw [skip_pos, skip_skip, boxes_length_cons h1]
    simp only [Nat.add_assoc]

/-- The first `mdat`. -/
theorem mdatLength_find {mode : Mode} {c : Bytes} (rest : Bytes) (l : List (Bytes × Bytes)) (h : ∀ x ∈ l, IdOk x.1)
    (hf : l.find? (fun x => x.1 = ascii "mdat") = some (ascii "mdat", c)) :
    ∀ (fuel : Nat) (r : Rd), l.length < fuel → At r (boxes l ++ rest) → (boxes l).length < 2 ^ 32 → mdatLength mode fuel r = .ok c.length := by
  induction l with
  | nil => simp at hf
  | cons x l ih =>
    intro fuel r hk ha hs
    obtain ⟨k, rfl⟩ : ∃ k, fuel = k + 1 := ⟨fuel - 1, by omega⟩
    have h1 := h x (by simp)
    rw [boxes_length_cons h1] at hs
    rw [boxes_cons, List.append_assoc] at ha
    rw [mdatLength, next_box ha h1 (by omega)]
    simp only [Ident.fourcc.injEq]
    rw [List.find?_cons] at hf
    by_cases hx : x.1 = ascii "mdat"
    · rw [if_pos hx]
      rw [decide_eq_true hx] at hf
      simp only [Option.some.injEq] at hf
      subst hf
      exact congrArg Except.ok (show 8 + c.length - 8 = c.length by omega)
    · rw [if_neg hx]
      rw [decide_eq_false hx] at hf
      simp only at hf
      rw [skip_box _ _ (by omega), ok_bind, ih (fun y hy => h y (by simp [hy])) hf k _ (by simpa using hk) (past_box ha h1) (by omega)]

/-! ## The tracks -/

theorem sound_iff (f : Forest) : sound (items f) = true ↔ Sound f := by
  unfold sound Sound
  rw [List.any_eq_true]
  constructor
  · rintro ⟨⟨n, c⟩, hm, h⟩
    obtain ⟨rfl, h2, h3⟩ := of_decide_eq_true h
    exact ⟨c, hm, h2, h3⟩
  · rintro ⟨c, hm, h2, h3⟩
    exact ⟨_, hm, decide_eq_true ⟨rfl, h2, h3⟩⟩

/-- The first `mdia` and where it is. -/
def placeOf : Nat → Forest → Option (Nat × Forest)
  | _, .nil => none
  | p, .leaf _ c rest => placeOf (p + (8 + c.length)) rest
  | p, .node id kids rest => if id = ascii "mdia" then some (p, kids) else placeOf (p + (8 + kids.bytes.length)) rest

/-- The `mdia` atoms and where they are. -/
def places : Nat → Forest → List (Nat × Forest)
  | _, .nil => []
  | p, .leaf _ c rest => places (p + (8 + c.length)) rest
  | p, .node id kids rest => (if id = ascii "trak" then (placeOf (p + 8) kids).toList else []) ++ places (p + (8 + kids.bytes.length)) rest

theorem placeOf_snd (f : Forest) : ∀ p, (placeOf p f).map Prod.snd = mediaOf f := by
  induction f with
  | nil => intro p; rfl
  | leaf id c rest ih => intro p; exact ih _
  | node id kids rest _ ih =>
    intro p
    rw [placeOf, mediaOf]
    split
    · rfl
    · exact ih _

theorem places_snd (f : Forest) : ∀ p, (places p f).map Prod.snd = medias f := by
  induction f with
  | nil => intro p; rfl
  | leaf id c rest ih => intro p; exact ih _
  | node id kids rest _ ih =>
    intro p
    rw [places, medias, List.map_append, ih]
    split
    · rw [← placeOf_snd kids (p + 8)]
      cases placeOf (p + 8) kids <;> rfl
    · rfl

/-- The atom at the place. -/
def mdiaInfo (x : Nat × Forest) : Info := ⟨x.1, 8 + x.2.bytes.length, false, .fourcc (ascii "mdia")⟩

theorem placeOf_info (f : Forest) (h : f.Ok) : ∀ p, firstMdia p (items f) = (placeOf p f).map mdiaInfo := by
  induction f with
  | nil => intro p; rfl
  | leaf id c rest ih =>
    intro p
    rw [items, firstMdia, placeOf, if_neg, ih h.2.2]
    rintro rfl
    exact h.2.1 (by unfold IsContainer; decide)
  | node id kids rest _ ih =>
    intro p
    rw [items, firstMdia, placeOf]
    split
    · rfl
    · exact ih h.2.2.2 _

theorem places_info (f : Forest) (h : f.Ok) : ∀ p, tracks p f = (places p f).map mdiaInfo := by
  induction f with
  | nil => intro p; rfl
  | leaf id c rest ih => intro p; exact ih h.2.2 _
  | node id kids rest _ ih =>
    intro p
    rw [tracks, places, List.map_append, ih h.2.2.2]
    split
    · rw [placeOf_info kids h.2.2.1]
      cases placeOf (p + 8) kids <;> rfl
    · rfl

/-- What is at the place. -/
def There (p : Nat) (bytes : Bytes) (x : Nat × Forest) : Prop :=
  x.2.Ok ∧ x.1 + 8 + x.2.bytes.length ≤ p + bytes.length ∧ ∀ F rest : Bytes, F.drop p = bytes ++ rest → ∃ rest', F.drop (x.1 + 8) = x.2.bytes ++ rest'

theorem there_into {p : Nat} {id c : Bytes} {x : Nat × Forest} (h : IdOk id) (ht : There (p + 8) c x) (b : Bytes) : There p (box id c ++ b) x := by
  refine ⟨ht.1, ?_, fun F rest hF => ?_⟩
  · have := ht.2.1
    rw [List.length_append, box_length _ _ h.1]
    omega
  · refine ht.2.2 F (b ++ rest) ?_
    rw [← List.drop_drop, hF, box_eq, ← List.append_assoc (beBytes 4 _), List.append_assoc, List.append_assoc,
      List.drop_left' (by rw [List.length_append, beBytes_length, h.1])]

theorem there_past {p : Nat} {id c b : Bytes} {x : Nat × Forest} (h : IdOk id) (ht : There (p + (8 + c.length)) b x) : There p (box id c ++ b) x := by
  refine ⟨ht.1, ?_, fun F rest hF => ?_⟩
  · have := ht.2.1
    rw [List.length_append, box_length _ _ h.1]
    omega
  · refine ht.2.2 F rest ?_
    rw [← List.drop_drop, hF, List.append_assoc, List.drop_left' (box_length _ _ h.1)]

theorem placeOf_there (f : Forest) (h : f.Ok) : ∀ p x, placeOf p f = some x → There p f.bytes x := by
  induction f with
  | nil => intro p x hx; simp [placeOf] at hx
  | leaf id c rest ih =>
    intro p x hx
    exact there_past h.1 (ih h.2.2 _ _ hx)
  | node id kids rest _ ih =>
    intro p x hx
    rw [placeOf] at hx
    split at hx
    · obtain rfl := (Option.some.injEq _ _).mp hx
      refine there_into h.1 ⟨h.2.2.1, Nat.le_refl _, fun F rest hF => ⟨rest, hF⟩⟩ _
    · exact there_past h.1 (ih h.2.2.2 _ _ hx)

theorem places_there (f : Forest) (h : f.Ok) : ∀ p, ∀ x ∈ places p f, There p f.bytes x := by
  induction f with
  | nil => intro p x hx; simp [places] at hx
  | leaf id c rest ih =>
    intro p x hx
    exact there_past h.1 (ih h.2.2 _ _ hx)
  | node id kids rest _ ih =>
    intro p x hx
    rw [places, List.mem_append] at hx
    rcases hx with hx | hx
    · split at hx
      · exact there_into h.1 (placeOf_there kids h.2.2.1 _ _ (by simpa using hx)) _
      · simp at hx
    · exact there_past h.1 (ih h.2.2.2 _ _ hx)

/-- One track. -/
theorem mdia_track {mode : Mode} {r : Rd} {x : Nat × Forest} {rest : Bytes} (h0 : r.start = 0) (hl : r.len = r.f.length) (hok : x.2.Ok)
    (hm : MinfLast x.2) (hd : r.f.drop (x.1 + 8) = x.2.bytes ++ rest) (hsz : r.f.length < 2 ^ 32) (hle : x.1 + 8 ≤ r.f.length) :
    mdiaLoop mode (mdiaInfo x).len ((mdiaInfo x).len + 1) (r.seekStart ((mdiaInfo x).start + 8)) 8 ⟨false, none, none⟩ =
      .ok ⟨sound (items x.2), (lastAt (ascii "mdhd") (x.1 + 8) (items x.2)).map (infoOf (ascii "mdhd")),
        (lastAt (ascii "minf") (x.1 + 8) (items x.2)).map (infoOf (ascii "minf"))⟩ := by
  have ha := Rd.at_seek h0 hl hle
  have hb := items_bytes x.2
  rw [hd, ← hb] at ha
  have hlen : (boxes (items x.2)).length ≤ r.f.length := by
    rw [hb]
    have := congrArg List.length hd
    simp only [List.length_drop, List.length_append] at this
    omega
  have := mdiaLoop_list (mode := mode) (len := (mdiaInfo x).len) rest (items x.2) (items_ok hok) hm ((mdiaInfo x).len + 1)
    (r.seekStart ((mdiaInfo x).start + 8)) 8 ⟨false, none, none⟩
    (by have := length_le_boxes (items_ok hok); rw [hb] at this; show _ < 8 + x.2.bytes.length + 1; omega) ha (by omega)
    (by show 8 + x.2.bytes.length = _; rw [hb])
  rw [this]
  have hp : (r.seekStart ((mdiaInfo x).start + 8)).pos = x.1 + 8 := seek_pos h0 hl hle
  rw [hp]
  simp

/-- The tracks up to the one with sound. -/
theorem trakLoop_first {mode : Mode} {r : Rd} (h0 : r.start = 0) (hl : r.len = r.f.length) (hsz : r.f.length < 2 ^ 32) (x : Nat × Forest)
    (more : List (Nat × Forest)) (mute : List (Nat × Forest)) (hall : ∀ y ∈ mute ++ [x], y.2.Ok ∧ MinfLast y.2 ∧ y.1 + 8 ≤ r.f.length ∧ ∃ rest, r.f.drop (y.1 + 8) = y.2.bytes ++ rest)
    (hmute : ∀ y ∈ mute, ¬ Sound y.2) (hx : Sound x.2) : ∀ t : Trak, t.audio = false →
    trakLoop mode r ((mute ++ x :: more).map mdiaInfo) t =
      .ok ⟨true, (lastAt (ascii "mdhd") (x.1 + 8) (items x.2)).map (infoOf (ascii "mdhd")),
        (lastAt (ascii "minf") (x.1 + 8) (items x.2)).map (infoOf (ascii "minf"))⟩ := by
  induction mute with
  | nil =>
    intro t ht
    obtain ⟨a, b, c, rest, d⟩ := hall x (by simp)
    rw [List.nil_append, List.map_cons, trakLoop, if_neg (by simp [ht]), mdia_track h0 hl a b d hsz c, ok_bind, (sound_iff _).mpr hx]
    cases more with
    | nil => rfl
    | cons y more => rw [List.map_cons, trakLoop, if_pos rfl]
  | cons y mute ih =>
    intro t ht
    obtain ⟨a, b, c, rest, d⟩ := hall y (by simp)
    rw [List.cons_append, List.map_cons, trakLoop, if_neg (by simp [ht]), mdia_track h0 hl a b d hsz c, ok_bind]
    refine ih (fun z hz => hall z (by rw [List.cons_append]; exact List.mem_cons_of_mem _ hz)) (fun z hz => hmute z (by simp [hz])) _ ?_
    show sound (items y.2) = false
    cases hs : sound (items y.2)
    · rfl
    · exact absurd ((sound_iff _).mp hs) (hmute y (by simp))

theorem items_append (f g : Forest) : items (f.append g) = items f ++ items g := by
  induction f with
  | nil => rfl
  | leaf id c rest ih => rw [Forest.append, items, ih, items, List.cons_append]
  | node id kids rest _ ih => rw [Forest.append, items, ih, items, List.cons_append]

theorem not_top {id : Bytes} {f : Forest} (h : id ∉ f.top) (c : Bytes) : (id, c) ∉ items f := by
  intro hm
  rw [← items_top] at h
  exact h (List.mem_map_of_mem (f := Prod.fst) hm)

end Lofty.Mp4Props
