import Verif.Lemmas.ConvertId3v2Read
/-!
# The frames of each kind that a generic tag becomes
-/
namespace Lofty.Convert
open Lofty.Item
open Lofty.Id3v2 (Frame Content FrameId sameFrame)

theorem filterMap_map' {α : Type} {l : List TagItem} {f : TagItem → Option α} {g : α → Frame} :
    (l.filterMap fun i => (f i).map g) = (l.filterMap f).map g := (List.map_filterMap).symm

/-! ## Texts -/

/-- The texts of the items whose keys are in a list and that are read as `k`. -/
def textsIn (keys : List ItemKey) (owned : Bool) (items : List TagItem) (k : ItemKey) : List Str :=
  (items.filter fun i => keys.contains i.key && decide (readAs .id3v2 i.key = k)).filterMap (itemText owned)

theorem own_text {custom : Rating.Provider} {owned : Bool} {items : List TagItem} {k : ItemKey} (hk : k ∈ multiText ++ otherText)
    (hr : readAs .id3v2 k = k) :
    (ownFrames custom owned items).filter (isText (nameOf k)) = (textsIn otherText owned items k).map (newText (nameOf k)) := by
  have hk' : k ∈ textKeys ++ userKeys ++ urlKeys := by
    have : ∀ k ∈ multiText ++ otherText, k ∈ textKeys ++ userKeys ++ urlKeys := by decide
    exact this k hk
  unfold textsIn
  rw [← filterMap_map']
  refine own_filter ?_ ?_
  · intro i f hf hp
    rcases own_made hf with ⟨hi, v, rfl⟩ | ⟨_, _, rfl⟩ | ⟨_, _, rfl⟩ | ⟨_, _, rfl⟩ | ⟨_, _, rfl⟩ | ⟨_, _, rfl⟩
    · have hn : nameOf i.key = nameOf k := by simpa [isText, newText] using hp
      rw [name_eq_iff (by
        have : ∀ k ∈ flagKeys ++ dateKeys ++ otherText, k ∈ textKeys ++ userKeys ++ urlKeys := by decide
        exact this _ hi) hk', hr] at hn
      have htab : ∀ j ∈ flagKeys ++ dateKeys ++ otherText, ∀ k ∈ multiText ++ otherText, readAs .id3v2 j = k → otherText.contains j = true := by
        decide
      rw [Bool.and_eq_true]
      exact ⟨htab _ hi k hk hn, by simpa using hn⟩
    all_goals cases hp
  · intro i hq
    rw [Bool.and_eq_true, decide_eq_true_eq] at hq
    have ho : i.key ∈ otherText := by simpa using hq.1
    have htab : ∀ j ∈ otherText, specialFrame.contains j = false ∧ collected j = false := by decide
    rw [own_other custom owned (htab _ ho).1 (htab _ ho).2, if_pos hq.1]
    have hn : nameOf i.key = nameOf k := (name_eq_iff (by simp [textKeys, ho]) hk').mpr (hq.2.trans hr.symm)
    rw [hn]
    refine filter_all fun f hf => ?_
    obtain ⟨v, _, rfl⟩ := mem_optMap hf
    simp [isText, newText]

theorem multi_ops {owned : Bool} {items : List TagItem} {k : ItemKey} (hk : k ∈ textKeys ++ userKeys ++ urlKeys)
    (hr : readAs .id3v2 k = k) :
    ((items.filterMap (textOp owned)).filter fun e => e.1 = nameOf k).map (fun e => e.2) = textsIn multiText owned items k := by
  unfold textsIn
  induction items with
  | nil => rfl
  | cons i items ih =>
    by_cases hm : multiText.contains i.key = true
    · have hm' : i.key ∈ multiText := by simpa using hm
      have hi : i.key ∈ textKeys ++ userKeys ++ urlKeys := by simp [textKeys, hm']
      have hop : textOp owned i = (itemText owned i).map fun v => (nameOf i.key, v) := by
        unfold textOp
        rw [if_pos hm, mapKey_nameOf hi]
        cases itemText owned i <;> rfl
      by_cases hn : nameOf i.key = nameOf k
      · rw [List.filter_cons_of_pos (p := fun i : TagItem => multiText.contains i.key && decide (readAs .id3v2 i.key = k)) (by
          rw [Bool.and_eq_true]
          exact ⟨hm, by simp [(name_eq_iff hi hk).mp hn, hr]⟩)]
        cases ht : itemText owned i with
        | none => rw [List.filterMap_cons_none (by rw [hop, ht]; rfl), List.filterMap_cons_none ht, ih]
        | some v =>
          rw [List.filterMap_cons_some (b := (nameOf i.key, v)) (by rw [hop, ht]; rfl), List.filterMap_cons_some ht,
            List.filter_cons_of_pos (by simpa using hn), List.map_cons, ih]
      · rw [List.filter_cons_of_neg (p := fun i : TagItem => multiText.contains i.key && decide (readAs .id3v2 i.key = k)) (by
          rw [Bool.and_eq_true]
          rintro ⟨_, h⟩
          exact hn ((name_eq_iff hi hk).mpr ((of_decide_eq_true h).trans hr.symm))), ← ih]
        cases ht : itemText owned i with
        | none => rw [List.filterMap_cons_none (by rw [hop, ht]; rfl)]
        | some v =>
          rw [List.filterMap_cons_some (b := (nameOf i.key, v)) (by rw [hop, ht]; rfl), List.filter_cons_of_neg (by simpa using hn)]
    · rw [List.filter_cons_of_neg (p := fun i : TagItem => multiText.contains i.key && decide (readAs .id3v2 i.key = k)) (by
          rw [Bool.and_eq_true]
          exact fun h => hm h.1), ← ih, List.filterMap_cons_none (by unfold textOp; rw [if_neg hm])]

/-- The text frames of a key, in the order of insertion. -/
theorem text_frames {custom : Rating.Provider} {owned : Bool} {items : List TagItem} {k : ItemKey} (hk : k ∈ multiText ++ otherText)
    (hr : readAs .id3v2 k = k) :
    (allFrames custom owned items).filter (isText (nameOf k)) =
      (textsIn otherText owned items k ++ (joined (textsIn multiText owned items k)).toList).map (newText (nameOf k)) := by
  have hk' : k ∈ textKeys ++ userKeys ++ urlKeys := by
    have : ∀ k ∈ multiText ++ otherText, k ∈ textKeys ++ userKeys ++ urlKeys := by decide
    exact this k hk
  have hn : nameOf k ≠ str "TRCK" ∧ nameOf k ≠ str "TPOS" := by
    have : ∀ k ∈ multiText ++ otherText, nameOf k ≠ str "TRCK" ∧ nameOf k ≠ str "TPOS" := by decide +kernel
    exact this k hk
  rw [all_text _ _ _ _ hn.1 hn.2, own_text hk hr, multi_ops hk' hr, List.map_append]

theorem textsIn_nil {keys : List ItemKey} {owned : Bool} {items : List TagItem} {k : ItemKey}
    (h : ∀ i ∈ items, i.key ∈ keys → readAs .id3v2 i.key ≠ k) : textsIn keys owned items k = [] := by
  unfold textsIn
  have : (items.filter fun i => keys.contains i.key && decide (readAs .id3v2 i.key = k)) = [] := by
    rw [List.filter_eq_nil_iff]
    intro i hi hq
    rw [Bool.and_eq_true, decide_eq_true_eq] at hq
    exact h i hi (by simpa using hq.1) hq.2
  rw [this]; rfl

/-- Flags. -/
theorem flag_frames {custom : Rating.Provider} {owned : Bool} {items : List TagItem} {k : ItemKey} (hk : k ∈ flagKeys) :
    (allFrames custom owned items).filter (isText (nameOf k)) =
      ((items.filter fun i => i.key = k).filterMap fun i => i.value.textOf.bind flagItem).map fun f => newText (nameOf k) (flagText f) := by
  have hk' : k ∈ textKeys ++ userKeys ++ urlKeys := by simp [textKeys, hk]
  have hr : ∀ k ∈ flagKeys, readAs .id3v2 k = k := by decide
  have hn : nameOf k ≠ str "TRCK" ∧ nameOf k ≠ str "TPOS" := by
    have : ∀ k ∈ flagKeys, nameOf k ≠ str "TRCK" ∧ nameOf k ≠ str "TPOS" := by decide +kernel
    exact this k hk
  have htab : ∀ j ∈ multiText ++ (dateKeys ++ otherText), ∀ k ∈ flagKeys, readAs .id3v2 j ≠ k := by decide
  rw [all_text _ _ _ _ hn.1 hn.2, multi_ops hk' (hr k hk), textsIn_nil fun i _ hi => htab _ (by simp [hi]) k hk, ← filterMap_map']
  simp only [joined, Option.toList_none, List.map_nil, List.append_nil]
  refine own_filter ?_ ?_
  · intro i f hf hp
    rcases own_made hf with ⟨hi, v, rfl⟩ | ⟨_, _, rfl⟩ | ⟨_, _, rfl⟩ | ⟨_, _, rfl⟩ | ⟨_, _, rfl⟩ | ⟨_, _, rfl⟩
    · have hn : nameOf i.key = nameOf k := by simpa [isText, newText] using hp
      rw [name_eq_iff (by
        have : ∀ k ∈ flagKeys ++ dateKeys ++ otherText, k ∈ textKeys ++ userKeys ++ urlKeys := by decide
        exact this _ hi) hk', hr k hk] at hn
      rw [List.append_assoc, List.mem_append] at hi
      rcases hi with hi | hi
      · simpa [hr _ hi] using hn
      · exact absurd hn (htab _ (List.mem_append_right _ hi) k hk)
    all_goals cases hp
  · intro i hq
    have hq' : i.key = k := by simpa using hq
    rw [own_flag custom owned (hq' ▸ hk), hq']
    refine filter_all fun f hf => ?_
    obtain ⟨v, _, rfl⟩ := mem_optMap hf
    simp [isText, newText]

/-! ## User texts -/

theorem valueAt_fold {κ α : Type} [DecidableEq κ] (g : α → Str → Str) (key : α → κ) (val : α → Str) (k : κ) (ops : List α) :
    ∀ l : List (κ × Str), valueAt k (ops.foldl (fun l e => upsert (g e) (key e) (val e) l) l) =
      (ops.filter fun e => key e = k).foldl (fun o e => some ((o.map (g e)).getD (val e))) (valueAt k l) := by
  induction ops with
  | nil => intro l; rfl
  | cons e ops ih =>
    intro l
    rw [List.foldl_cons, ih, valueAt_upsert]
    by_cases h : key e = k
    · rw [List.filter_cons_of_pos (by simpa using h), if_pos h.symm, List.foldl_cons, h]
    · rw [List.filter_cons_of_neg (by simpa using h), if_neg (Ne.symm h)]

/-- The texts of the items of a key. -/
def textsOf (owned : Bool) (items : List TagItem) (k : ItemKey) : List Str :=
  (items.filter fun i => i.key = k).filterMap (itemText owned)

theorem user_ops {owned : Bool} {items : List TagItem} {k : ItemKey} (hk : k ∈ multiUser ++ singleUser) :
    (items.filterMap (userOp owned)).filter (fun e => e.2.1 = nameOf k) =
      (textsOf owned items k).map fun v => (multiUser.contains k, nameOf k, v) := by
  unfold textsOf
  have hks : k ∈ textKeys ++ userKeys ++ urlKeys := by
    rw [← List.append_nil (multiUser ++ singleUser)] at hk
    have : ∀ k ∈ multiUser ++ singleUser ++ [], k ∈ textKeys ++ userKeys ++ urlKeys := by decide
    exact this k hk
  have hra : ∀ k ∈ multiUser ++ singleUser, readAs .id3v2 k = k := by decide
  induction items with
  | nil => rfl
  | cons i items ih =>
    by_cases hi : i.key ∈ multiUser ++ singleUser
    · have his : i.key ∈ textKeys ++ userKeys ++ urlKeys := by
        have : ∀ k ∈ multiUser ++ singleUser, k ∈ textKeys ++ userKeys ++ urlKeys := by decide
        exact this _ hi
      have hop : userOp owned i = (itemText owned i).map fun v => (multiUser.contains i.key, nameOf i.key, v) := by
        unfold userOp
        rw [mapKey_nameOf his]
        by_cases hm : multiUser.contains i.key = true
        · rw [if_pos hm, hm]
          cases itemText owned i <;> rfl
        · have hsu : singleUser.contains i.key = true := by
            rw [List.mem_append] at hi
            rcases hi with hi | hi
            · exact absurd (by simpa using hi) hm
            · simpa using hi
          rw [if_neg hm, if_pos hsu, Bool.not_eq_true] at *
          rw [hm]
          cases itemText owned i <;> rfl
      by_cases hn : i.key = k
      · rw [List.filter_cons_of_pos (p := fun i : TagItem => decide (i.key = k)) (by simpa using hn)]
        cases ht : itemText owned i with
        | none => rw [List.filterMap_cons_none (by rw [hop, ht]; rfl), List.filterMap_cons_none ht, ih]
        | some v =>
          rw [List.filterMap_cons_some (by rw [hop, ht]; rfl), List.filterMap_cons_some ht,
            List.filter_cons_of_pos (by simp [hn]), List.map_cons, ih, hn]
      · have hnn : nameOf i.key ≠ nameOf k := by
          intro e
          rw [name_eq_iff his hks, hra _ hi, hra _ hk] at e
          exact hn e
        rw [List.filter_cons_of_neg (p := fun i : TagItem => decide (i.key = k)) (by simpa using hn), ← ih]
        cases ht : itemText owned i with
        | none => rw [List.filterMap_cons_none (by rw [hop, ht]; rfl)]
        | some v =>
          rw [List.filterMap_cons_some (by rw [hop, ht]; rfl), List.filter_cons_of_neg (by simpa using hnn)]
    · rw [List.filter_cons_of_neg (p := fun i : TagItem => decide (i.key = k)) (by
        simp only [decide_eq_true_eq]
        intro e
        exact hi (e ▸ hk)), ← ih, List.filterMap_cons_none]
      rw [List.mem_append, not_or] at hi
      unfold userOp
      rw [if_neg (by simpa using hi.1), if_neg (by simpa using hi.2)]

theorem joined_fold (l : List Str) : l.foldl (fun o e => some ((o.map (extendText e)).getD e)) none = joined l := by
  have key : ∀ r : List Str, r.reverse.foldl (fun o e => some ((o.map (extendText e)).getD e)) none = joined r.reverse := by
    intro r
    induction r with
    | nil => rfl
    | cons e r ih => rw [List.reverse_cons, List.foldl_append, ih, joined_append]; rfl
  have := key l.reverse
  rwa [List.reverse_reverse] at this

theorem own_user_nil {custom : Rating.Provider} {owned : Bool} {items : List TagItem} {k : ItemKey} (hk : k ∈ multiUser ++ singleUser) :
    (ownFrames custom owned items).filter (isUser (nameOf k)) = [] := by
  rw [List.filter_eq_nil_iff]
  intro f hf hp
  obtain ⟨i, _, hi⟩ := List.mem_filterMap.mp hf
  rcases own_made hi with ⟨_, v, rfl⟩ | ⟨_, _, rfl⟩ | ⟨_, _, rfl⟩ | ⟨hik, v, rfl⟩ | ⟨_, _, rfl⟩ | ⟨_, _, rfl⟩
  case inr.inr.inr.inl =>
    have hn : nameOf i.key = nameOf k := by simpa [isUser, newUserText] using hp
    rw [hik] at hn
    have : ∀ k ∈ multiUser ++ singleUser, nameOf .ParentalAdvisory ≠ nameOf k := by decide +kernel
    exact this k hk hn
  all_goals cases hp

/-- User texts that may have several values. -/
theorem multi_user_frames {custom : Rating.Provider} {owned : Bool} {items : List TagItem} {k : ItemKey} (hk : k ∈ multiUser) :
    (allFrames custom owned items).filter (isUser (nameOf k)) = (joined (textsOf owned items k)).toList.map (newUserText (nameOf k)) := by
  have hk' : k ∈ multiUser ++ singleUser := List.mem_append_left _ hk
  have hc : multiUser.contains k = true := by simpa using hk
  rw [all_user, own_user_nil hk', ctx_users, valueAt_fold (fun e : Bool × Str × Str => if e.1 then extendText e.2.2 else fun _ => e.2.2)
    (fun e => e.2.1) (fun e => e.2.2), user_ops hk', List.foldl_map, hc]
  simp only [if_true, valueAt, List.nil_append]
  rw [joined_fold]

/-- User texts with one value. -/
theorem single_user_frames {custom : Rating.Provider} {owned : Bool} {items : List TagItem} {k : ItemKey} (hk : k ∈ singleUser) :
    (allFrames custom owned items).filter (isUser (nameOf k)) = (textsOf owned items k).getLast?.toList.map (newUserText (nameOf k)) := by
  have hk' : k ∈ multiUser ++ singleUser := List.mem_append_right _ hk
  have hc : multiUser.contains k = false := by
    have : ∀ k ∈ singleUser, multiUser.contains k = false := by decide
    exact this k hk
  rw [all_user, own_user_nil hk', ctx_users, valueAt_fold (fun e : Bool × Str × Str => if e.1 then extendText e.2.2 else fun _ => e.2.2)
    (fun e => e.2.1) (fun e => e.2.2), user_ops hk', List.foldl_map, hc]
  simp only [Bool.false_eq_true, if_false, valueAt, List.nil_append]
  have key : ∀ (l : List Str) (o : Option Str), l.foldl (fun (o : Option Str) e => some ((o.map fun _ => e).getD e)) o = (l.getLast?).or o := by
    intro l
    induction l with
    | nil => intro o; cases o <;> rfl
    | cons e l ih =>
      intro o
      rw [List.foldl_cons, ih]
      cases l with
      | nil => cases o <;> rfl
      | cons x l => simp [List.getLast?_cons_cons, List.getLast?_eq_some_getLast]
  rw [key]
  cases (textsOf owned items k).getLast? <;> rfl

/-- Advisory ratings. -/
theorem advisory_frames {custom : Rating.Provider} {owned : Bool} {items : List TagItem} :
    (allFrames custom owned items).filter (isUser (nameOf .ParentalAdvisory)) =
      ((items.filter fun i => i.key = .ParentalAdvisory).filterMap advisoryOf).map fun r => newUserText (nameOf .ParentalAdvisory) (toDec r) := by
  rw [all_user, ctx_users, valueAt_fold (fun e : Bool × Str × Str => if e.1 then extendText e.2.2 else fun _ => e.2.2)
    (fun e => e.2.1) (fun e => e.2.2)]
  have h0 : ((items.filterMap (userOp owned)).filter fun e => e.2.1 = nameOf .ParentalAdvisory) = [] := by
    rw [List.filter_eq_nil_iff]
    intro e he hn
    obtain ⟨i, _, hi⟩ := List.mem_filterMap.mp he
    have htab : ∀ k ∈ multiUser ++ singleUser, nameOf k ≠ nameOf .ParentalAdvisory := by decide +kernel
    have hmem : i.key ∈ multiUser ++ singleUser ∧ e.2.1 = nameOf i.key := by
      unfold userOp at hi
      unfold nameOf
      split at hi
      · rename_i hm
        cases ht : itemText owned i with
        | none => rw [ht] at hi; cases hi
        | some v =>
          rw [ht, Option.bind_some] at hi
          obtain ⟨n, hn', rfl⟩ := mem_optMap hi
          rw [hn']
          exact ⟨List.mem_append_left _ (by simpa using hm), rfl⟩
      · split at hi
        · rename_i hm
          cases ht : itemText owned i with
          | none => rw [ht] at hi; cases hi
          | some v =>
            rw [ht, Option.bind_some] at hi
            obtain ⟨n, hn', rfl⟩ := mem_optMap hi
            rw [hn']
            exact ⟨List.mem_append_right _ (by simpa using hm), rfl⟩
        · cases hi
    simp only [decide_eq_true_eq] at hn
    exact htab _ hmem.1 (hmem.2.symm.trans hn)
  rw [h0, ← filterMap_map']
  simp only [List.foldl_nil, valueAt, Option.toList_none, List.map_nil, List.append_nil]
  refine own_filter ?_ ?_
  · intro i f hf hp
    rcases own_made hf with ⟨_, v, rfl⟩ | ⟨_, _, rfl⟩ | ⟨_, _, rfl⟩ | ⟨hik, v, rfl⟩ | ⟨_, _, rfl⟩ | ⟨_, _, rfl⟩
    case inr.inr.inr.inl => simpa using hik
    all_goals cases hp
  · intro i hq
    rw [own_advisory custom owned (by simpa using hq)]
    refine filter_all fun f hf => ?_
    obtain ⟨v, _, rfl⟩ := mem_optMap hf
    simp [isUser, newUserText]

/-! ## Links and recording ids -/

theorem url_frames {custom : Rating.Provider} {owned : Bool} {items : List TagItem} {k : ItemKey} (hk : k ∈ urlKeys) :
    (allFrames custom owned items).filter (isUrl (nameOf k)) = (textsOf owned items k).map (newUrl (nameOf k)) := by
  rw [all_own _ _ _ _ (fun _ _ => ⟨rfl, rfl⟩) (fun _ => rfl) (fun _ => ⟨rfl, rfl⟩)]
  unfold textsOf
  rw [← filterMap_map']
  refine own_filter ?_ ?_
  · intro i f hf hp
    rcases own_made hf with ⟨_, v, rfl⟩ | ⟨_, _, rfl⟩ | ⟨hi, _, rfl⟩ | ⟨_, v, rfl⟩ | ⟨_, _, rfl⟩ | ⟨_, _, rfl⟩
    case inr.inr.inl =>
      have hn : nameOf i.key = nameOf k := by simpa [isUrl, newUrl] using hp
      rw [name_eq_iff (by simp [hi]) (by simp [hk]), url_table _ hi, url_table _ hk] at hn
      simpa using hn
    all_goals cases hp
  · intro i hq
    have hq' : i.key = k := by simpa using hq
    have htab : ∀ j ∈ urlKeys, specialFrame.contains j = false ∧ collected j = false ∧ otherText.contains j = false := by decide
    have hu : i.key ∈ urlKeys := hq' ▸ hk
    rw [own_other custom owned (htab _ hu).1 (htab _ hu).2.1, (htab _ hu).2.2, if_neg (by simp), if_pos (by simpa using hu), hq']
    refine filter_all fun f hf => ?_
    obtain ⟨v, _, rfl⟩ := mem_optMap hf
    simp [isUrl, newUrl]

theorem ufid_frames {custom : Rating.Provider} {owned : Bool} {items : List TagItem} :
    (allFrames custom owned items).filter isUfid =
      ((items.filter fun i => i.key = .MusicBrainzRecordingId).filterMap (recordingOf owned)).map
        fun s => .leaf {} (.ufid ⟨musicbrainz, utf8 s⟩) := by
  rw [all_own _ _ _ _ (fun _ _ => ⟨rfl, rfl⟩) (fun _ => rfl) (fun _ => ⟨rfl, rfl⟩), ← filterMap_map']
  refine own_filter ?_ ?_
  · intro i f hf hp
    rcases own_made hf with ⟨_, v, rfl⟩ | ⟨_, _, rfl⟩ | ⟨_, _, rfl⟩ | ⟨_, v, rfl⟩ | ⟨hi, _, rfl⟩ | ⟨_, _, rfl⟩
    case inr.inr.inr.inr.inl => simpa using hi
    all_goals cases hp
  · intro i hq
    rw [own_recording custom owned (by simpa using hq)]
    refine filter_all fun f hf => ?_
    obtain ⟨v, _, rfl⟩ := mem_optMap hf
    simp [isUfid]

end Lofty.Convert
