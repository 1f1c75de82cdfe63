import Verif.Lemmas.Id3v23Items
import Verif.Model.Id3v2Genres
/-!
# Putting the parts of a date together again
-/
namespace Lofty.Id3v2
open Lofty.Text

/-! ## Reading genres -/

theorem genreName_of_keep (g : Str) : genreName (parseGenreKeep g) = genreName g := by
  by_cases h1 : g = str "RX"
  · subst h1; decide +kernel
  · by_cases h2 : g = str "CR"
    · subst h2; decide +kernel
    · rw [parseGenreKeep_eq h1 h2]

theorem genreList_nil (n : Nat) : genreList n [] = [] := by cases n <;> rfl

theorem genreList_join (gs : List Str) (hg : ∀ g ∈ gs, g ≠ [] ∧ '\x00' ∉ g) (hl : ∀ g, gs.getLast? = some g → g.head? ≠ some '(') :
    ∀ n, (joinNul gs).length ≤ n → genreList n (joinNul gs) = gs.map genreName := by
  induction gs with
  | nil => intro n _; exact genreList_nil n
  | cons g gs ih =>
    intro n hn
    obtain ⟨h1, h2⟩ := hg g (by simp)
    have hpos := List.length_pos_iff.mpr h1
    cases gs with
    | nil =>
      rw [joinNul] at hn ⊢
      obtain ⟨m, rfl⟩ : ∃ m, n = m + 1 := ⟨n - 1, by omega⟩
      rw [genreList, if_neg (by simpa using h1), genreStep_plain h2 (hl g rfl), genreList_nil]
      rfl
    | cons g' gs =>
      have e : joinNul (g :: g' :: gs) = g ++ '\x00' :: joinNul (g' :: gs) := rfl
      rw [e] at hn ⊢
      simp only [List.length_append, List.length_cons] at hn
      obtain ⟨m, rfl⟩ : ∃ m, n = m + 1 := ⟨n - 1, by omega⟩
      rw [genreList, if_neg (by simp), genreStep_nul h2]
      simp only
      rw [ih (fun x hx => hg x (by simp [hx])) (fun x hx => hl x (by rw [List.getLast?_cons_cons]; exact hx)) m (by omega)]
      rfl

theorem genreStep_paren {g r : Str} (h0 : '\x00' ∉ g) (hr : '\x00' ∉ r) (h1 : ')' ∉ g) (h2 : g.head? ≠ some '(') (hne : g ≠ []) :
    genreStep ('(' :: g ++ ')' :: r) = (g, r) := by
  have ⟨a1, a2⟩ := takeWhile_stop (p := fun c => decide (c ≠ ')')) (g := g) (r := r) (c := ')')
    (fun x hx => decide_eq_true fun h => h1 (h ▸ hx)) rfl
  obtain ⟨c, g', rfl⟩ : ∃ c g', g = c :: g' := by
    cases g with
    | nil => exact absurd rfl hne
    | cons c g' => exact ⟨c, g', rfl⟩
  unfold genreStep
  have hn : ('(' :: (c :: g') ++ ')' :: r).contains '\x00' = false := by
    rw [← Bool.not_eq_true, List.contains_iff_mem]
    simp only [List.cons_append, List.mem_cons, List.mem_append, not_or] at h0 ⊢
    exact ⟨by decide, h0.1, h0.2, by decide, hr⟩
  have hs : (startsWith '(' ('(' :: (c :: g') ++ ')' :: r) && ('(' :: (c :: g') ++ ')' :: r).contains ')') = true := by
    simp [startsWith]
  rw [hn, hs]
  simp only [Bool.false_eq_true, if_false, if_true]
  have hd : ('(' :: (c :: g') ++ ')' :: r).drop 1 = (c :: g') ++ ')' :: r := rfl
  have hw : ('(' :: (c :: g') ++ ')' :: r).dropWhile (fun c => decide (c ≠ ')')) = ((c :: g') ++ ')' :: r).dropWhile (fun c => decide (c ≠ ')')) := rfl
  rw [hd, hw, a1, a2, if_neg]
  · rfl
  · simpa [startsWith] using h2

theorem no_nul_genreText {gs : List Str} (h : ∀ g ∈ gs, '\x00' ∉ g) : '\x00' ∉ genreText gs := by
  intro hc
  rcases mem_genreText hc with ⟨g, hg, h'⟩ | h'
  · exact h g hg h'
  · revert h'; decide

theorem genreList_paren {g r : Str} {n : Nat} (h0 : '\x00' ∉ g) (hr : '\x00' ∉ r) (h1 : ')' ∉ g) (h2 : g.head? ≠ some '(') (hne : g ≠ []) :
    genreList (n + 1) (('(' :: g ++ [')']) ++ r) = genreName g :: genreList n r := by
  have e : ('(' :: g ++ [')']) ++ r = '(' :: g ++ ')' :: r := by simp
  rw [e, genreList, if_neg (by simp), genreStep_paren h0 hr h1 h2 hne]

theorem genreList_text (gs : List Str) (hg : ∀ g ∈ gs, g ≠ [] ∧ '\x00' ∉ g ∧ g.head? ≠ some '(') (hp : ∀ g ∈ gs.dropLast, ')' ∉ g) :
    ∀ n, (genreText gs).length ≤ n → genreList n (genreText gs) = gs.map genreName := by
  induction gs with
  | nil => intro n _; exact genreList_nil n
  | cons g gs ih =>
    intro n hn
    obtain ⟨h1, h2, h3⟩ := hg g (by simp)
    have hr : '\x00' ∉ genreText gs := no_nul_genreText fun x hx => (hg x (by simp [hx])).2.1
    have step : ∀ g', '\x00' ∉ g' → ')' ∉ g' → g'.head? ≠ some '(' → g' ≠ [] → genreName g' = genreName g →
        genreText (g :: gs) = ('(' :: g' ++ [')']) ++ genreText gs → genreList n (genreText (g :: gs)) = (g :: gs).map genreName := by
      intro g' a1 a2 a3 a4 a5 a6
      rw [a6] at hn ⊢
      simp only [List.length_append, List.length_cons] at hn
      obtain ⟨m, rfl⟩ : ∃ m, n = m + 1 := ⟨n - 1, by omega⟩
      rw [genreList_paren a1 hr a2 a3 a4, a5, ih (fun x hx => hg x (by simp [hx])) (fun x hx => hp x (by
        cases gs with
        | nil => cases hx
        | cons y ys => rw [List.dropLast_cons_cons]; exact List.mem_cons_of_mem _ hx)) m (by omega)]
      rfl
    by_cases c1 : g = str "Remix" ∨ g = str "RX"
    · refine step (str "RX") (by decide) (by decide) (by decide) (by decide) ?_ (by rw [genreText, if_pos c1]; rfl)
      rcases c1 with rfl | rfl <;> decide +kernel
    · by_cases c2 : g = str "Cover" ∨ g = str "CR"
      · refine step (str "CR") (by decide) (by decide) (by decide) (by decide) ?_ (by rw [genreText, if_neg c1, if_pos c2]; rfl)
        rcases c2 with rfl | rfl <;> decide +kernel
      · by_cases c3 : gs = [] ∧ parseUInt 256 g = none
        · have e : genreText (g :: gs) = g := by
            rw [genreText, if_neg c1, if_neg c2, if_pos c3, c3.1]
            simp [genreText]
          rw [e] at hn ⊢
          have hpos := List.length_pos_iff.mpr h1
          obtain ⟨m, rfl⟩ : ∃ m, n = m + 1 := ⟨n - 1, by omega⟩
          rw [genreList, if_neg (by simpa using h1), genreStep_plain h2 h3, genreList_nil, c3.1]
          rfl
        · refine step g h2 ?_ h3 h1 rfl (by rw [genreText, if_neg c1, if_neg c2, if_neg c3])
          cases gs with
          | cons y ys => exact hp g (by simp)
          | nil =>
            have : parseUInt 256 g ≠ none := fun h => c3 ⟨rfl, h⟩
            intro hm
            apply this
            have hd : digitVal ')' = none := by decide
            unfold parseUInt
            split
            · rfl
            · rename_i cs
              split
              · rfl
              · exact parseDigits_none_of_mem _ hd _ _ (by simpa using hm)
            · exact parseDigits_none_of_mem _ hd _ _ hm

/-! ## Dates -/

theorem filter_id_nil {l : List Frame} {x : FrameId} (h : ∀ g ∈ l, g.id ≠ x) : l.filter (fun g => g.id = x) = [] :=
  List.filter_eq_nil_iff.mpr fun g hg => by simpa using h g hg

theorem filter_id_all {l : List Frame} {x : FrameId} (h : ∀ g ∈ l, g.id ≠ x) : l.filter (fun g => g.id ≠ x) = l :=
  List.filter_eq_self.mpr fun g hg => by simpa using h g hg

theorem neg_id {f : Frame} {a x : FrameId} (h : f.id = a) (hn : a ≠ x) : ¬ decide (f.id = x) = true := by simp [h, hn]

theorem construct_none {l : List Frame} (h : ∀ g ∈ l, g.id ≠ .valid (str "TDRC")) : constructTdrc l = l := by
  have h1 := (remove_partial l (.valid (str "TDRC"))).1
  rw [filter_id_nil h] at h1
  unfold constructTdrc
  generalize remove l (.valid (str "TDRC")) = r at h1
  obtain ⟨a, b⟩ := r
  simp only at h1
  subst h1
  rfl

theorem get_perm {l B T : List Frame} {x : FrameId} (hp : l.Perm (B ++ T)) (hB : ∀ g ∈ B, g.id ≠ x) (hT : (T.filter fun g => g.id = x).length ≤ 1) :
    get l x = (T.filter fun g => g.id = x).head? := by
  have h := hp.filter fun g => decide (g.id = x)
  rw [List.filter_append, filter_id_nil hB, List.nil_append] at h
  rw [get, ← List.head?_filter]
  generalize T.filter (fun g => decide (g.id = x)) = m at h hT
  match m, hT with
  | [], _ => rw [List.perm_nil.mp h]
  | [a], _ => rw [List.perm_singleton.mp h]

theorem remove_perm {l m : List Frame} {x : FrameId} (hp : l.Perm m) : (remove l x).2.Perm (m.filter fun g => g.id ≠ x) :=
  (remove_partial l x).2.1.trans (hp.filter _)

theorem insert_new {l : List Frame} {f : Frame} (h : ∀ g ∈ l, g.id ≠ f.id) (hf : f.id.asStr ∉ onceIds.map String.toList) :
    (insert l f).2 = l ++ [f] := by
  rcases insert_spec l f hf with ⟨_, h2⟩ | ⟨a, g, b, h1, _, h3, _⟩
  · rw [h2]
  · exact absurd (same_id h3) (h g (by rw [h1]; simp))

/-- No part of a date. -/
def NoDate (l : List Frame) : Prop := ∀ g ∈ l, g.id ≠ .valid (str "TDRC") ∧ g.id ≠ .valid (str "TDAT") ∧ g.id ≠ .valid (str "TIME")

theorem construct_date {o : WriteOpts} {flags : FrameFlags} {t : TimeF} (ht : Timestamp.InRange t.time) {R B : List Frame} (hB : NoDate B)
    (hR : R.Perm (B ++ dateFrames o flags t)) :
    (constructTdrc R).Perm (B ++ [.leaf {} (.time ⟨.valid (str "TDRC"), o.enc t.enc, dateKept t.time⟩)]) := by
  have b1 : ∀ g ∈ B, g.id ≠ .valid (str "TDRC") := fun g hg => (hB g hg).1
  have b2 : ∀ g ∈ B, g.id ≠ .valid (str "TDAT") := fun g hg => (hB g hg).2.1
  have b3 : ∀ g ∈ B, g.id ≠ .valid (str "TIME") := fun g hg => (hB g hg).2.2
  generalize hT : (splitTdrc.date t ++ splitTdrc.time t).map (fun x => Frame.leaf flags (.text x)) = T at *
  have hTid : ∀ g ∈ T, g.id ≠ .valid (str "TDRC") := by
    intro g hg
    rw [← hT] at hg
    obtain ⟨x, hx, rfl⟩ := List.mem_map.mp hg
    rcases List.mem_append.mp hx with hx | hx
    · unfold splitTdrc.date at hx
      split at hx
      · simp only [List.mem_cons, List.not_mem_nil, or_false] at hx
        subst hx
        exact (by decide : FrameId.valid (str "TDAT") ≠ .valid (str "TDRC"))
      · cases hx
    · unfold splitTdrc.time at hx
      split at hx
      · simp only [List.mem_cons, List.not_mem_nil, or_false] at hx
        subst hx
        exact (by decide : FrameId.valid (str "TIME") ≠ .valid (str "TDRC"))
      · cases hx
  have hD : dateFrames o flags t = .leaf flags (.time ⟨.valid (str "TDRC"), o.enc t.enc, yearOnly t.time.year⟩) :: T := by
    rw [dateFrames, hT]
  rw [hD] at hR
  have r1 := (remove_partial R (.valid (str "TDRC"))).1
  have hf := hR.filter fun g => decide (g.id = .valid (str "TDRC"))
  rw [List.filter_append, filter_id_nil b1, List.nil_append, List.filter_cons_of_pos (by exact decide_eq_true rfl), filter_id_nil hTid] at hf
  rw [List.perm_singleton.mp hf] at r1
  have r2 := remove_perm (x := .valid (str "TDRC")) hR
  rw [List.filter_append, filter_id_all b1, List.filter_cons_of_neg (by simp [Frame.id, Content.id]), filter_id_all hTid] at r2
  unfold constructTdrc
  generalize remove R (.valid (str "TDRC")) = r at r1 r2 ⊢
  obtain ⟨a, l'⟩ := r
  simp only at r1 r2
  subst r1
  have hl' : ∀ g ∈ l', g.id ≠ .valid (str "TDRC") := by
    intro g hg
    rcases List.mem_append.mp (r2.mem_iff.mp hg) with h | h
    · exact b1 g h
    · exact hTid g h
  have ins : ∀ (e : Encoding) (w : Timestamp), (insert l' (.leaf {} (.time ⟨.valid (str "TDRC"), e, w⟩))).2
      = l' ++ [.leaf {} (.time ⟨.valid (str "TDRC"), e, w⟩)] :=
    fun e w => insert_new hl' (by show str "TDRC" ∉ _; decide)
  simp only [yearOnly, Option.isSome_none, Bool.false_eq_true, if_false, ins]
  obtain ⟨y, mo, d, hh, mi, se⟩ := ht
  rcases t with ⟨tid, enc, ty, tmo, td, th, tmi, ts⟩
  simp only at *
  cases td with
  | none =>
    have : th = none := by
      cases th with
      | none => rfl
      | some x => have := (hh x rfl).2; simp at this
    subst this
    have hTn : T = [] := by
      rw [← hT]
      cases tmo <;> rfl
    subst hTn
    have g1 : get l' (.valid (str "TDAT")) = none := get_perm r2 b2 (by simp)
    rw [numbersOf, getText, g1]
    simp only [Option.bind_none]
    rw [List.append_nil] at r2
    have : dateKept ⟨ty, tmo, none, none, tmi, ts⟩ = ⟨ty, none, none, none, none, none⟩ := by cases tmo <;> rfl
    rw [this]
    exact r2.append_right _
  | some dd =>
    obtain ⟨d1, d2⟩ := d dd rfl
    cases tmo with
    | none => simp at d2
    | some mm =>
      have m1 := mo mm rfl
      have tnum : twoNumbers (Timestamp.pad 2 dd ++ Timestamp.pad 2 mm) = some (dd, mm) := twoNumbers_pads (by omega) (by omega)
      by_cases hc : ∃ h m, th = some h ∧ tmi = some m
      · obtain ⟨h, m, rfl, rfl⟩ := hc
        have h1 := (hh h rfl).1
        have h2 := (mi m rfl).1
        have tnum2 : twoNumbers (Timestamp.pad 2 h ++ Timestamp.pad 2 m) = some (h, m) := twoNumbers_pads (by omega) (by omega)
        have hT2 : T = [.leaf flags (.text ⟨.valid (str "TDAT"), enc.toId3v23, Timestamp.pad 2 dd ++ Timestamp.pad 2 mm⟩),
          .leaf flags (.text ⟨.valid (str "TIME"), enc.toId3v23, Timestamp.pad 2 h ++ Timestamp.pad 2 m⟩)] := hT.symm
        subst hT2
        have g1 : get l' (.valid (str "TDAT")) = some (.leaf flags (.text ⟨.valid (str "TDAT"), enc.toId3v23, Timestamp.pad 2 dd ++ Timestamp.pad 2 mm⟩)) := by
          refine (get_perm r2 b2 ?_).trans ?_
          · rw [List.filter_cons_of_pos (by rfl), List.filter_cons_of_neg (by exact neg_id (a := .valid (str "TIME")) rfl (by decide))]; exact Nat.le_refl _
          · rw [List.filter_cons_of_pos (by rfl)]; rfl
        have g2 : get l' (.valid (str "TIME")) = some (.leaf flags (.text ⟨.valid (str "TIME"), enc.toId3v23, Timestamp.pad 2 h ++ Timestamp.pad 2 m⟩)) := by
          refine (get_perm r2 b3 ?_).trans ?_
          · rw [List.filter_cons_of_neg (by exact neg_id (a := .valid (str "TDAT")) rfl (by decide)), List.filter_cons_of_pos (by rfl)]; exact Nat.le_refl _
          · rw [List.filter_cons_of_neg (by exact neg_id (a := .valid (str "TDAT")) rfl (by decide)), List.filter_cons_of_pos (by rfl)]; rfl
        simp only [numbersOf, getText, g1, g2, Option.bind_some, tnum, tnum2]
        have p1 := remove_perm (x := .valid (str "TDAT")) (r2.append_right [Frame.leaf {} (.time ⟨.valid (str "TDRC"), o.enc enc, ⟨ty, some mm, some dd, some h, some m, none⟩⟩)])
        rw [List.append_assoc, List.filter_append, filter_id_all b2] at p1
        have p2 := remove_perm (x := .valid (str "TIME")) p1
        rw [List.filter_append, filter_id_all b3] at p2
        exact p2
      · have hT2 : T = [.leaf flags (.text ⟨.valid (str "TDAT"), enc.toId3v23, Timestamp.pad 2 dd ++ Timestamp.pad 2 mm⟩)] := by
          rw [← hT]
          cases th with
          | none => rfl
          | some h =>
            cases tmi with
            | none => rfl
            | some m => exact absurd ⟨h, m, rfl, rfl⟩ hc
        have hk : dateKept ⟨ty, some mm, some dd, th, tmi, ts⟩ = ⟨ty, some mm, some dd, none, none, none⟩ := by
          cases th with
          | none => rfl
          | some h =>
            cases tmi with
            | none => rfl
            | some m => exact absurd ⟨h, m, rfl, rfl⟩ hc
        rw [hk]
        subst hT2
        have g1 : get l' (.valid (str "TDAT")) = some (.leaf flags (.text ⟨.valid (str "TDAT"), enc.toId3v23, Timestamp.pad 2 dd ++ Timestamp.pad 2 mm⟩)) := by
          refine (get_perm r2 b2 ?_).trans ?_
          · rw [List.filter_cons_of_pos (by rfl)]; exact Nat.le_refl _
          · rw [List.filter_cons_of_pos (by rfl)]; rfl
        have g2 : get l' (.valid (str "TIME")) = none := by
          refine (get_perm r2 b3 ?_).trans ?_
          · rw [List.filter_cons_of_neg (by exact neg_id (a := .valid (str "TDAT")) rfl (by decide))]; exact Nat.zero_le _
          · rw [List.filter_cons_of_neg (by exact neg_id (a := .valid (str "TDAT")) rfl (by decide))]; rfl
        simp only [numbersOf, getText, g1, g2, Option.bind_some, Option.bind_none, tnum]
        have p1 := remove_perm (x := .valid (str "TDAT")) (r2.append_right [Frame.leaf {} (.time ⟨.valid (str "TDRC"), o.enc enc, ⟨ty, some mm, some dd, none, none, none⟩⟩)])
        rw [List.append_assoc, List.filter_append, filter_id_all b2] at p1
        exact p1

/-! ## The list that is read -/

/-- The parts of a date. -/
def date1 (o : WriteOpts) (f : Frame) : List Frame :=
  match f with
  | .leaf flags (.time t) => if t.id = .valid (str "TDRC") then dateFrames o flags t else []
  | _ => []

theorem read1_eq (o : WriteOpts) (f : Frame) : read1 o f = placed o f ++ date1 o f := by
  unfold read1 date1
  split
  · rename_i flags t
    split
    · rename_i h
      have : placed o (.leaf flags (.time t)) = [] := by
        unfold placed
        simp only
        rw [if_neg (by simp only [Frame.id, Content.id, h]; decide), if_neg (by rw [h]; decide)]
      rw [this]
      simp only [if_pos h, List.nil_append]
    · rename_i h
      simp only [if_neg h, List.append_nil]
  · split <;> simp_all

theorem flatMap_read1 (o : WriteOpts) (fs : List Frame) : (fs.flatMap (read1 o)).Perm (fs.flatMap (placed o) ++ fs.flatMap (date1 o)) := by
  induction fs with
  | nil => exact List.Perm.refl _
  | cons f fs ih =>
    rw [List.flatMap_cons, List.flatMap_cons, List.flatMap_cons, read1_eq, List.append_assoc, List.append_assoc]
    refine List.Perm.append_left _ ?_
    refine (List.Perm.append_left _ ih).trans ?_
    rw [← List.append_assoc, ← List.append_assoc]
    exact List.Perm.append_right _ List.perm_append_comm

theorem date1_none {o : WriteOpts} {f : Frame} (h : dateOf o f = none) : date1 o f = [] := by
  unfold dateOf at h
  unfold date1
  split at h
  · split at h
    · cases h
    · rename_i h1; simp only [if_neg h1]
  · split <;> simp_all

theorem dates_nil {o : WriteOpts} {fs : List Frame} (h : fs.filterMap (dateOf o) = []) : fs.flatMap (date1 o) = [] := by
  rw [List.flatMap_eq_nil_iff]
  intro f hf
  exact date1_none (List.filterMap_eq_nil_iff.mp h f hf)

theorem read1_nodate {o : WriteOpts} {fs : List Frame} (h : fs.filterMap (dateOf o) = []) : fs.flatMap (read1 o) = fs.flatMap (placed o) := by
  induction fs with
  | nil => rfl
  | cons f fs ih =>
    have hf : dateOf o f = none := List.filterMap_eq_nil_iff.mp h f (by simp)
    rw [List.filterMap_cons_none hf] at h
    rw [List.flatMap_cons, List.flatMap_cons, ih h, read1_eq, date1_none hf, List.append_nil]

theorem dates_one {o : WriteOpts} {fs : List Frame} (hl : (fs.filterMap (dateOf o)).length ≤ 1) (hne : fs.filterMap (dateOf o) ≠ []) :
    ∃ flags t, Frame.leaf flags (.time t) ∈ fs ∧ t.id = .valid (str "TDRC") ∧ fs.flatMap (date1 o) = dateFrames o flags t
      ∧ fs.filterMap (dateOf o) = [.leaf {} (.time ⟨.valid (str "TDRC"), o.enc t.enc, dateKept t.time⟩)] := by
  induction fs with
  | nil => exact absurd rfl hne
  | cons f fs ih =>
    cases hf : dateOf o f with
    | none =>
      rw [List.filterMap_cons_none hf] at hl hne ⊢
      obtain ⟨flags, t, h1, h2, h3, h4⟩ := ih hl hne
      exact ⟨flags, t, by simp [h1], h2, by rw [List.flatMap_cons, date1_none hf, h3]; rfl, h4⟩
    | some g =>
      rw [List.filterMap_cons_some hf] at hl ⊢
      have hn : fs.filterMap (dateOf o) = [] := List.eq_nil_of_length_eq_zero (by simpa using hl)
      unfold dateOf at hf
      split at hf
      · rename_i flags t
        split at hf
        · rename_i hi
          cases hf
          refine ⟨flags, t, by simp, hi, ?_, by rw [hn]⟩
          rw [List.flatMap_cons, dates_nil hn, date1, if_pos hi, List.append_nil]
        · cases hf
      · cases hf

theorem base_nodate {o : WriteOpts} {po : ParseOpts} (h23 : o.v23 = true) {fs : List Frame} (hf : ∀ f ∈ fs, V23Ok o po f) :
    NoDate (fs.flatMap (placed o) ++ peopleFrames (peopleOf o fs)) := by
  intro g hg
  rcases List.mem_append.mp hg with hg | hg
  · obtain ⟨f, h1, h2⟩ := List.mem_flatMap.mp hg
    cases hf f h1 with
    | plain _ h n1 n2 =>
      obtain ⟨e, _, _, _, hid⟩ := plain_none h23 h
      rw [e] at h2
      simp only [List.mem_cons, List.not_mem_nil, or_false] at h2
      rw [h2, frame_reencode_id]
      refine ⟨fun he => hid ?_, n1, n2⟩
      rw [he]; decide
    | dropped _ h =>
      rw [(dropped_none (o := o) h).1] at h2
      cases h2
    | original flags t hfl hi ht =>
      unfold placed at h2
      rw [if_neg (by simp only [Frame.id, Content.id, hi]; decide)] at h2
      simp only [if_pos hi, List.mem_cons, List.not_mem_nil, or_false] at h2
      rw [h2]; exact ⟨(by decide : FrameId.valid (str "TDOR") ≠ _), (by decide : FrameId.valid (str "TDOR") ≠ _), (by decide : FrameId.valid (str "TDOR") ≠ _)⟩
    | date flags t hfl hi ht hy =>
      unfold placed at h2
      rw [if_neg (by simp only [Frame.id, Content.id, hi]; decide)] at h2
      simp only at h2
      rw [if_neg (by rw [hi]; decide)] at h2
      cases h2
    | genre flags t gs hfl hi hval hgs hrep =>
      unfold placed at h2
      rw [if_neg (by simp only [Frame.id, Content.id, hi]; decide)] at h2
      simp only [if_pos hi, List.mem_cons, List.not_mem_nil, or_false] at h2
      rw [h2]; exact ⟨(by decide : FrameId.valid (str "TCON") ≠ _), (by decide : FrameId.valid (str "TCON") ≠ _), (by decide : FrameId.valid (str "TCON") ≠ _)⟩
    | people flags k hi =>
      unfold placed at h2
      split at h2 <;> cases h2
  · cases hp : peopleOf o fs with
    | none => rw [hp] at hg; cases hg
    | some x =>
      rw [hp] at hg
      simp only [peopleFrames, List.mem_cons, List.not_mem_nil, or_false] at hg
      rw [hg]; exact ⟨(by decide : FrameId.valid (str "TIPL") ≠ _), (by decide : FrameId.valid (str "TIPL") ≠ _), (by decide : FrameId.valid (str "TIPL") ≠ _)⟩

theorem dateFrames_ids (o : WriteOpts) (flags : FrameFlags) (t : TimeF) : (dateFrames o flags t).Pairwise (fun a b => a.id ≠ b.id) ∧
    ∀ g ∈ dateFrames o flags t, g.id = .valid (str "TDRC") ∨ g.id = .valid (str "TDAT") ∨ g.id = .valid (str "TIME") := by
  rcases t with ⟨tid, enc, ty, tmo, td, th, tmi, ts⟩
  unfold dateFrames splitTdrc.date splitTdrc.time
  cases tmo <;> cases td <;> cases th <;> cases tmi <;>
    simp only [List.map_cons, List.map_nil, List.nil_append, List.cons_append, List.pairwise_cons, List.mem_cons, List.not_mem_nil, or_false, forall_eq_or_imp,
      forall_eq, Frame.id, Content.id, List.Pairwise.nil, false_imp_iff, implies_true, and_true] <;>
    decide

theorem read_list {o : WriteOpts} {flags : FrameFlags} {t : TimeF} {R B : List Frame} (hB : NoDate B) (hR : R.Perm (B ++ dateFrames o flags t))
    (hd : B.Pairwise fun a b => ¬ Same a b) (ho : OncePerTag B) : R.Pairwise (fun a b => ¬ Same a b) ∧ OncePerTag R := by
  obtain ⟨i1, i2⟩ := dateFrames_ids o flags t
  constructor
  · refine (hR.pairwise_iff (fun {a b} h hs => h (same_symm hs))).mpr ?_
    refine List.pairwise_append.mpr ⟨hd, i1.imp fun h hs => h (same_id hs), fun a ha b hb hs => ?_⟩
    have e := same_id hs
    obtain ⟨n1, n2, n3⟩ := hB a ha
    rcases i2 b hb with h | h | h
    · exact n1 (e.trans h)
    · exact n2 (e.trans h)
    · exact n3 (e.trans h)
  · intro id hid
    rw [(hR.filter _).length_eq, List.filter_append, filter_id_nil (l := dateFrames o flags t), List.append_nil]
    · exact ho id hid
    · intro g hg he
      rw [← he] at hid
      rcases i2 g hg with h | h | h <;> rw [h] at hid <;> revert hid <;> decide

end Lofty.Id3v2
