import Verif.Props.Ilst
/-!
# MP4 tags of other writers: flags and genre numbers (C36)
-/
namespace Lofty.Ilst
open Lofty.Mp4

/-- One step of the loop over an atom with raw values, up to what the step makes of them. -/
theorem loop_raw {o : Opts} {id : Bytes} (hid : IdentOk (.fourcc id)) {l : List (Nat × Bytes)}
    (hl : (box id (l.flatMap dataBox)).length < 2 ^ 32) (hv : ∀ v ∈ l, v.1 < 2 ^ 24 ∧ v.2 ≠ [])
    {t : Tag} {g : List Data}
    (hstep : ∀ r i, i.ident = .fourcc id → parseDataInner r o.mode i = .ok (l, r.skip (l.flatMap dataBox).length) →
      ilstStep o r i [] [] = .ok (t, g, r.skip (l.flatMap dataBox).length)) (fuel : Nat) :
    ilstLoop o (fuel + 2) (Rd.new (box id (l.flatMap dataBox))) [] [] = .ok (t, g) := by
  have h4 : id.length = 4 := hid.1
  have hbox : (box id (l.flatMap dataBox)).length = 8 + (l.flatMap dataBox).length := by
    rw [box_length _ _ h4]
  have hr := at_new (box id (l.flatMap dataBox))
  have hr' : At (Rd.new (box id (l.flatMap dataBox))) (beBytes 4 (box id (l.flatMap dataBox)).length ++ (id ++ (l.flatMap dataBox))) := by
    rw [hbox]; exact hr
  have hrem := hr.2.1
  have hnext : (Rd.new (box id (l.flatMap dataBox))).next o.mode =
      .ok (some ⟨(Rd.new (box id (l.flatMap dataBox))).pos, (box id (l.flatMap dataBox)).length, false, .fourcc id⟩,
        (Rd.new (box id (l.flatMap dataBox))).skip 8) := by
    unfold Rd.next
    rw [if_neg (by omega), if_neg (by omega)]
    rw [readInfo_box hr' (by omega) hl h4 hid.2.1 (by omega) hid.2.2.1]
  rw [ilstLoop, hnext]
  simp only
  have hr2 : At ((Rd.new (box id (l.flatMap dataBox))).skip 8) (l.flatMap dataBox ++ []) := by
    rw [List.append_nil]
    have : box id (l.flatMap dataBox) = (beBytes 4 (8 + (l.flatMap dataBox).length) ++ id) ++ l.flatMap dataBox := by
      rw [box]; simp only [List.append_assoc]
    rw [this] at hr
    rw [this]
    exact hr.skip (by simp [h4])
  have hpd := parseDataInner_boxes (mode := o.mode) (a := ⟨(Rd.new (box id (l.flatMap dataBox))).pos, (box id (l.flatMap dataBox)).length, false, .fourcc id⟩) hr2
    (by simp only [skip_pos]; omega) hv (by omega)
  rw [hstep _ ⟨(Rd.new (box id (l.flatMap dataBox))).pos, (box id (l.flatMap dataBox)).length, false, .fourcc id⟩ rfl hpd, ok_bind]
  simp only [skip_skip]
  have hr3 : At ((Rd.new (box id (l.flatMap dataBox))).skip (8 + (l.flatMap dataBox).length)) [] := by
    have hr := at_new (box id (l.flatMap dataBox))
    have e : box id (l.flatMap dataBox) = box id (l.flatMap dataBox) ++ [] := by simp
    rw [e] at hr
    have := hr.skip (n := 8 + (l.flatMap dataBox).length) (by omega)
    rwa [← e] at this
  rw [ilstLoop]
  have h0 : ((Rd.new (box id (l.flatMap dataBox))).skip (8 + (l.flatMap dataBox).length)).rem = 0 := hr3.2.1
  unfold Rd.next
  rw [if_pos h0]

theorem box_fuel (id : Bytes) (c : Bytes) : ∃ k, (box id c).length + 1 = k + 2 :=
  ⟨(box id c).length - 1, by
    have : 1 ≤ (box id c).length := by rw [box, List.length_append, beBytes_length]; omega
    omega⟩

/-- **C36.** A flag atom is set if any byte of its first value is not zero, whatever type, length or number of values
another writer gave it. -/
theorem flag_read (o : Opts) {name : String} (hn : name ∈ ["cpil", "hdvd", "pcst", "pgap", "shwm"]) (v : Nat × Bytes)
    (l : List (Nat × Bytes)) (hv : ∀ v' ∈ v :: l, v'.1 < 2 ^ 24 ∧ v'.2 ≠ [])
    (hl : (box (ascii name) ((v :: l).flatMap dataBox)).length < 2 ^ 32) :
    parse o (box (ascii name) ((v :: l).flatMap dataBox)) =
      .ok [⟨.fourcc (ascii name), .single (.bool (decide (∃ b ∈ v.2, b ≠ 0)))⟩] := by
  have hid : IdentOk (.fourcc (ascii name)) := by
    simp only [List.mem_cons, List.not_mem_nil, or_false] at hn
    rcases hn with rfl | rfl | rfl | rfl | rfl <;> unfold IdentOk <;> decide +kernel
  have hfl : ascii name ∈ flagAtoms ∧ ascii name ≠ ascii "free" ∧ ascii name ≠ ascii "skip" ∧ ascii name ≠ ascii "covr" ∧
      ascii name ≠ ascii "gnre" ∧ ascii name ≠ ascii "plID" := by
    simp only [List.mem_cons, List.not_mem_nil, or_false] at hn
    rcases hn with rfl | rfl | rfl | rfl | rfl <;> decide +kernel
  obtain ⟨h1, h2, h3, h4, h5, h6⟩ := hfl
  unfold parse
  obtain ⟨k, hk⟩ := box_fuel (ascii name) ((v :: l).flatMap dataBox)
  rw [hk, loop_raw (t := [⟨.fourcc (ascii name), .single (.bool (decide (∃ b ∈ v.2, b ≠ 0)))⟩]) (g := []) hid hl hv, ok_bind]
  · simp
  · intro r i hi hpd
    unfold ilstStep
    rw [hi]
    simp only
    rw [if_neg (by simp [h2, h3]), if_neg h4, if_neg h5, if_neg h6, if_pos h1, hpd, ok_bind]
    simp only [hi, List.nil_append]
    have : (v.2.any fun x => decide (x ≠ 0)) = decide (∃ b ∈ v.2, b ≠ 0) := by
      rw [Bool.eq_iff_iff]; simp [List.any_eq_true]
    rw [this]

example : parse ⟨.strict, true, true⟩ (box (ascii "pgap") (dataBox (0, [0, 1]))) =
    .ok [⟨.fourcc (ascii "pgap"), .single (.bool true)⟩] := by decide +kernel

/-- **C36.** A genre number is read as the text of that genre, counting from 1; numbers outside of the list of genres are
dropped. -/
theorem genre_read (o : Opts) (ho : o.implicit = true) (code : Nat) (hc : code < 2 ^ 24) (a n : UInt8) :
    parse o (box (ascii "gnre") ([(code, [a, n])].flatMap dataBox)) =
      .ok (match n.toNat with
        | 0 => []
        | m + 1 => match Id3v1.genres[m]? with
          | some s => [⟨genId, .single (.utf8 s)⟩]
          | none => []) := by
  have hid : IdentOk (.fourcc (ascii "gnre")) := by unfold IdentOk; decide +kernel
  have hne : ascii "gnre" ≠ ascii "free" ∧ ascii "gnre" ≠ ascii "skip" ∧ ascii "gnre" ≠ ascii "covr" := by decide +kernel
  unfold parse
  obtain ⟨k, hk⟩ := box_fuel (ascii "gnre") ([(code, [a, n])].flatMap dataBox)
  rw [hk, loop_raw (t := []) (g := [(code, [a, n])].filterMap fun d => upgradeGenre d.2) hid ?_ ?_, ok_bind]
  · simp only [ho, true_and]
    have hu : upgradeGenre [a, n] = match n.toNat with
        | 0 => none
        | m + 1 => (Id3v1.genres[m]?).map .utf8 := by
      unfold upgradeGenre
      rw [if_pos (by simp)]
      simp only [List.getD_cons_succ, List.getD_cons_zero]
      cases hn : n.toNat with
      | zero => rfl
      | succ m =>
        simp only [Nat.succ_pos, true_and, Nat.add_sub_cancel]
        by_cases hm : m < Id3v1.genres.length
        · rw [if_pos (by omega), List.getElem?_eq_getElem hm, List.getD_eq_getElem?_getD, List.getElem?_eq_getElem hm]; rfl
        · rw [if_neg (by omega), List.getElem?_eq_none (by omega)]; rfl
    simp only [List.filterMap_cons, hu, List.filterMap_nil]
    cases n.toNat with
    | zero => rfl
    | succ m => simp only; cases Id3v1.genres[m]? <;> rfl
  · intro r i hi hpd
    unfold ilstStep
    rw [hi]
    simp only
    rw [if_neg (by simp [hne.1, hne.2.1]), if_neg hne.2.2, if_pos trivial, hpd, ok_bind]
    simp only [ho, if_true, List.nil_append]
  · simp only [List.flatMap_cons, List.flatMap_nil, List.append_nil]
    rw [box_length _ _ hid.1, dataBox_length]; simp
  · intro v hv
    simp only [List.mem_singleton] at hv
    subst hv
    exact ⟨hc, by simp⟩

example : parse ⟨.strict, true, true⟩ (box (ascii "gnre") (dataBox (0, [0, 18]))) = .ok [⟨genId, .single (.utf8 (str "Rock"))⟩] := by
  decide +kernel

end Lofty.Ilst
