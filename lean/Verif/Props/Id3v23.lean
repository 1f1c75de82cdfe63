import Verif.Lemmas.Id3v23Date
/-!
# C54: a tag saved as ID3v2.3 and read again
-/
namespace Lofty.Id3v2
open Lofty.Text

/-- **A tag saved as ID3v2.3 comes back as `savedV23` says**, except that frames may change places if there is a recording date.  Missing (hence
`_partial`): years below 1000 (see `early_year_lost`), tags with two recording dates, text that cannot be kept in a text frame (`FrameOk`), and
people whose list ends in an empty value (see `last_person_lost`). -/
theorem tag_v23_partial (o : WriteOpts) (po : ParseOpts) (fs : List Frame) (h23 : o.v23 = true) (himp : po.implicit = true)
    (hf : ∀ f ∈ fs, V23Ok o po f) (hl : V23List o fs) {b : Bytes} (hb : createItems o fs = .ok b) (hlen : b.length < 2 ^ 32) :
    ∃ l : List Frame, l.Perm (savedV23 o fs) ∧ (fs.filterMap (dateOf o) = [] → l = savedV23 o fs) ∧
      ∃ d0, ∀ d, d0 ≤ d → ∀ pad, parseTag po .v3 false d (b ++ List.replicate pad 0) = .ok l := by
  have hback : ∀ f ∈ fs, ∃ d0, ∀ d, d0 ≤ d → (FrameOk o po f → ReadBack o po (readAll po o.version d false) f) := by
    intro f _
    by_cases h : FrameOk o po f
    · obtain ⟨d0, h0⟩ := frame_rt h
      exact ⟨d0, fun d hd _ => h0 d hd⟩
    · exact ⟨0, fun d _ h' => absurd h' h⟩
  obtain ⟨d0, h0⟩ := eventually_all fs _ hback
  have hB := base_nodate h23 hf
  have hsaved : savedV23 o fs = (fs.flatMap (placed o) ++ peopleFrames (peopleOf o fs)) ++ fs.filterMap (dateOf o) := rfl
  have hpB : (fs.flatMap (placed o) ++ peopleFrames (peopleOf o fs)).Pairwise fun a b => ¬ Same a b := by
    have := hl.distinct
    rw [hsaved] at this
    exact (List.pairwise_append.mp this).1
  have hoB : OncePerTag (fs.flatMap (placed o) ++ peopleFrames (peopleOf o fs)) := by
    intro id hid
    have := hl.once id hid
    rw [hsaved, List.filter_append, List.length_append] at this
    omega
  have hlist : ∃ R : List Frame, R = fs.flatMap (read1 o) ++ peopleFrames (peopleOf o fs) ∧ R.Pairwise (fun a b => ¬ Same a b) ∧ OncePerTag R ∧
      (constructTdrc R).Perm (savedV23 o fs) ∧ (fs.filterMap (dateOf o) = [] → constructTdrc R = savedV23 o fs) := by
    refine ⟨_, rfl, ?_⟩
    by_cases hd : fs.filterMap (dateOf o) = []
    · rw [read1_nodate hd, construct_none fun g hg => (hB g hg).1, hsaved, hd, List.append_nil]
      exact ⟨hpB, hoB, List.Perm.refl _, fun _ => rfl⟩
    · obtain ⟨flags, t, h1, h2, h3, h4⟩ := dates_one hl.dates hd
      have hR : (fs.flatMap (read1 o) ++ peopleFrames (peopleOf o fs)).Perm
          ((fs.flatMap (placed o) ++ peopleFrames (peopleOf o fs)) ++ dateFrames o flags t) := by
        have := (flatMap_read1 o fs).append_right (peopleFrames (peopleOf o fs))
        rw [h3] at this
        refine this.trans ?_
        rw [List.append_assoc, List.append_assoc]
        exact List.Perm.append_left _ List.perm_append_comm
      have ht : Timestamp.InRange t.time := by
        cases hf _ h1 with
        | plain _ h =>
          obtain ⟨_, _, _, _, hid⟩ := plain_none h23 h
          exfalso
          apply hid
          simp only [Frame.id, Content.id, h2]
          decide
        | dropped _ h =>
          exfalso
          simp only [Frame.id, Content.id, h2] at h
          revert h; decide
        | original _ _ _ _ ht => exact ht
        | date _ _ _ _ ht => exact ht
      obtain ⟨r1, r2⟩ := read_list hB hR hpB hoB
      refine ⟨r1, r2, ?_, fun h => absurd h hd⟩
      rw [hsaved, h4]
      exact construct_date ht hB hR
  obtain ⟨R, hR, r1, r2, r3, r4⟩ := hlist
  refine ⟨constructTdrc R, r3, r4, d0 + 1, fun d hd pad => ?_⟩
  obtain ⟨d, rfl⟩ : ∃ k, d = k + 1 := ⟨d - 1, by omega⟩
  have hv : o.version = .v3 := by simp [WriteOpts.version, h23]
  obtain ⟨ps, e1, e2, e3⟩ := items_pieces (readAll po o.version d false) h23 himp fs false none b
    (fun f hf' => ⟨hf f hf', h0 d (by omega) f hf'⟩) (by simpa using hl.roots) (by simp) (fun x hx => hl.people x hx) hb hlen
  have e3' : ps.map (·.2) = R := e3.trans hR.symm
  have hr := pieces_read (readAll po o.version d false) o po (List.replicate pad 0) (by
    cases pad with
    | zero => exact .inl (by simp)
    | succ n => exact .inr rfl) ps [] e2 (by rw [List.nil_append, e3']; exact r1) (by rw [List.nil_append, e3']; exact r2)
    ((b ++ List.replicate pad 0).length + 1) (by rw [← e1, List.length_append]; omega)
  rw [← e1, hv, List.nil_append, e3'] at hr
  unfold parseTag
  simp only [Bool.false_and, Bool.false_eq_true, if_false]
  rw [readAll, hr]
  simp only [ok_bind, himp]
  rfl

/-- **Genres listed after saving**: the same names as before, if no genre is in parentheses and none but the last has a closing one.  (See
`genre_parenthesis`.) -/
theorem genres_v23 (gs : List Str) (hg : ∀ g ∈ gs, g ≠ [] ∧ '\x00' ∉ g ∧ g.head? ≠ some '(') (hp : ∀ g ∈ gs.dropLast, ')' ∉ g) :
    genreList (genreText gs).length (genreText gs) = gs.map genreName
    ∧ genreList (joinNul gs).length (joinNul gs) = gs.map genreName :=
  ⟨genreList_text gs hg hp _ (Nat.le_refl _),
   genreList_join gs (fun g h => ⟨(hg g h).1, (hg g h).2.1⟩) (fun g h => (hg g (List.mem_of_getLast? h)).2.2) _ (Nat.le_refl _)⟩

/-- **Names of genres**: a number of the standard list stands for its name, `RX` and `CR` for Remix and Cover, anything else for itself. -/
theorem genre_name (g : Str) :
    genreName g = if g = str "RX" then str "Remix" else if g = str "CR" then str "Cover"
      else if (utf8 g).length ≤ 3 then ((parseUInt (2 ^ 64) g).bind (Id3v1.genres[·]?)).getD g else g := by
  by_cases h1 : g = str "RX"
  · subst h1; decide +kernel
  · by_cases h2 : g = str "CR"
    · subst h2; decide +kernel
    · unfold genreName
      simp only [if_neg h1, if_neg h2]
      by_cases h3 : 3 < (utf8 g).length
      · rw [if_pos h3, if_neg (by omega)]
      · rw [if_neg h3, if_pos (by omega)]
        cases parseUInt (2 ^ 64) g <;> rfl

/-! ## Where code and expectation differ -/

/-- Write the frames as ID3v2.3 and read them back. -/
def rewrite23 (m : Mode) (fs : List Frame) : Except Err (List Frame) :=
  (createItems ⟨true, false, false⟩ fs).bind (parseTag (opts m) .v3 false 2)

def tdrc (t : Timestamp) : Frame := .leaf {} (.time ⟨.valid (str "TDRC"), .latin1, t⟩)

def tit1 (s : String) : Frame := .leaf {} (.text ⟨.valid (str "TIT2"), .latin1, str s⟩)

/-- A year below 1000 is written with fewer than four digits and cannot be read back: in strict mode the whole tag is refused. -/
theorem early_year_lost : rewrite23 .strict [tit1 "a", tdrc ⟨999, none, none, none, none, none⟩] = .error .parse
    ∧ rewrite23 .bestAttempt [tit1 "a", tdrc ⟨999, none, none, none, none, none⟩] ≠ .ok [tit1 "a", tdrc ⟨999, none, none, none, none, none⟩] := by
  decide +kernel

/-- Parts of a date are lost: the month without a day, the hour without a minute, the second. -/
theorem date_parts_lost :
    rewrite23 .strict [tdrc ⟨2001, some 2, none, none, none, none⟩] = .ok [tdrc ⟨2001, none, none, none, none, none⟩]
    ∧ rewrite23 .strict [tdrc ⟨2001, some 2, some 3, some 4, none, none⟩] = .ok [tdrc ⟨2001, some 2, some 3, none, none, none⟩]
    ∧ rewrite23 .strict [tdrc ⟨2001, some 2, some 3, some 4, some 5, some 6⟩] = .ok [tdrc ⟨2001, some 2, some 3, some 4, some 5, none⟩] := by
  decide +kernel

/-- With a date the frames change places: first and second here. -/
theorem date_reorders : rewrite23 .strict [tit1 "a", .leaf {} (.binary (.valid (str "MCDI")) [1]), tdrc ⟨2001, none, none, none, none, none⟩]
    = .ok [.leaf {} (.binary (.valid (str "MCDI")) [1]), tit1 "a", tdrc ⟨2001, none, none, none, none, none⟩] := by decide +kernel

/-- The last of several people is lost if its value is empty. -/
theorem last_person_lost : rewrite23 .strict [.leaf {} (.keyValue ⟨.valid (str "TIPL"), .latin1, [(str "mix", str "A"), (str "DJ", [])]⟩)]
    = .ok [.leaf {} (.keyValue ⟨.valid (str "TIPL"), .latin1, [(str "mix", str "A")]⟩)] := by decide +kernel

/-- Musicians become involved people. -/
theorem musicians_become_people : rewrite23 .strict [.leaf {} (.keyValue ⟨.valid (str "TMCL"), .latin1, [(str "drums", str "A")]⟩)]
    = .ok [.leaf {} (.keyValue ⟨.valid (str "TIPL"), .latin1, [(str "drums", str "A")]⟩)] := by decide +kernel

/-- Of two genres the first of which has parentheses, others are read back. -/
theorem genre_parenthesis : genreList 20 (genreText [str "A(b)", str "C"]) = [str "A(b", str ")C"] := by decide +kernel

/-! ## Examples -/

/-- A list of frames that meets the hypotheses of `tag_v23_partial`. -/
def sample23 : List Frame :=
  [ .leaf { grouping := some 7 } (.text ⟨.valid (str "TIT2"), .utf8, str "Títle"⟩),
    tdrc ⟨2001, some 2, some 3, some 4, some 5, some 6⟩,
    .leaf {} (.time ⟨.valid (str "TDOR"), .utf8, ⟨1999, some 1, none, none, none, none⟩⟩),
    .leaf {} (.time ⟨.valid (str "TDTG"), .utf8, ⟨1999, some 1, none, none, none, none⟩⟩),
    .leaf {} (.keyValue ⟨.valid (str "TMCL"), .utf8, [(str "drums", str "A")]⟩),
    .leaf {} (.text ⟨.valid (str "TCON"), .utf8, str "17\x00Remix\x00Eigenes"⟩),
    .leaf {} (.keyValue ⟨.valid (str "TIPL"), .latin1, [(str "mix", str "B"), (str "producer", str "C")]⟩) ]

def opts23 : WriteOpts := ⟨true, false, true⟩

theorem sample23_saved : savedV23 opts23 sample23 =
  [ .leaf { grouping := some 7 } (.text ⟨.valid (str "TIT2"), .utf16, str "Títle"⟩),
    .leaf {} (.time ⟨.valid (str "TDOR"), .utf16, ⟨1999, none, none, none, none, none⟩⟩),
    .leaf {} (.text ⟨.valid (str "TCON"), .utf16, str "(17)(RX)Eigenes"⟩),
    .leaf {} (.keyValue ⟨.valid (str "TIPL"), .utf16, [(str "drums", str "A"), (str "mix", str "B"), (str "producer", str "C")]⟩),
    .leaf {} (.time ⟨.valid (str "TDRC"), .latin1, ⟨2001, some 2, some 3, some 4, some 5, none⟩⟩) ] := by decide +kernel

theorem sample23_ok (m : Mode) : (∀ f ∈ sample23, V23Ok opts23 (opts m) f) ∧ V23List opts23 sample23 := by
  constructor
  · intro f hf
    simp only [sample23, List.mem_cons, List.not_mem_nil, or_false] at hf
    rcases hf with rfl | rfl | rfl | rfl | rfl | rfl | rfl
    · exact .plain _ (.leaf _ _ (str "TIT2") (by decide) rfl (by decide) (by show _ → _ ∉ idsV23 true; decide) ⟨.inl ⟨rfl, by decide⟩, by decide⟩)
        (by decide) (by decide)
    · exact .date _ _ (by decide) rfl ((Timestamp.verify_iff _).mp (by decide)) (by decide)
    · exact .original _ _ (by decide) rfl ((Timestamp.verify_iff _).mp (by decide))
    · exact .dropped _ (.inr (by decide))
    · exact .people _ _ (.inr rfl)
    · exact .genre _ _ [str "17", str "Remix", str "Eigenes"] (by decide) rfl rfl ⟨by decide, by decide, by
        intro g hg
        simp at hg
        subst hg
        decide⟩ (by exact (by decide : Final .utf16 (str "17\x00Remix\x00Eigenes")).1)
    · exact .people _ _ (.inl rfl)
  · have h := sample23_saved
    refine ⟨by decide, by decide +kernel, ?_, by rw [h]; decide, by rw [h]; exact once_of_nodup (by decide)⟩
    intro x hx
    have : x = (.utf16, [(str "drums", str "A"), (str "mix", str "B"), (str "producer", str "C")]) := by
      have e : peopleOf opts23 sample23 = some (.utf16, [(str "drums", str "A"), (str "mix", str "B"), (str "producer", str "C")]) := by decide +kernel
      rw [e] at hx
      exact (Option.some.inj hx).symm
    subst this
    refine ⟨by decide, by decide, .inr ?_⟩
    intro p hp
    simp at hp
    subst hp
    decide

example : (createItems opts23 sample23).toOption.isSome = true := by decide +kernel

example : genreList 30 (genreText [str "17", str "Remix", str "Eigenes"]) = [str "Rock", str "Remix", str "Eigenes"] := by decide +kernel

end Lofty.Id3v2
