import Verif.Model.ConvertId3v2
import Verif.Props.Convert
/-!
# Lemmas about the conversion of generic tags to ID3v2
-/
namespace Lofty.Convert
open Lofty.Item
open Lofty.Id3v2 (Frame Content FrameId sameFrame)

/-! ## Association lists -/

/-- Values joined by NULs; `none` if there are none. -/
def joined : List Str → Option Str
  | [] => none
  | v :: vs => some (vs.foldl (fun c v => c ++ '\x00' :: v) v)

theorem joined_append (l : List Str) (v : Str) : joined (l ++ [v]) = some (((joined l).map (extendText v)).getD v) := by
  cases l with
  | nil => rfl
  | cons x l => simp [joined, extendText]

/-- The first value of a key. -/
def valueAt {κ : Type} [DecidableEq κ] (k : κ) : List (κ × Str) → Option Str
  | [] => none
  | e :: l => if e.1 = k then some e.2 else valueAt k l

theorem valueAt_upsert {κ : Type} [DecidableEq κ] (f : Str → Str) (k : κ) (v : Str) (l : List (κ × Str)) (k' : κ) :
    valueAt k' (upsert f k v l) = if k' = k then some (((valueAt k l).map f).getD v) else valueAt k' l := by
  induction l with
  | nil =>
    by_cases h : k' = k
    · subst h; simp [valueAt, upsert]
    · simp [valueAt, upsert, h, Ne.symm h]
  | cons e l ih =>
    unfold upsert
    by_cases ha : e.1 = k
    · rw [if_pos ha]
      by_cases h : k' = k
      · subst h; simp [valueAt, ha]
      · simp [valueAt, ha, h, Ne.symm h]
    · rw [if_neg ha]
      by_cases h : k' = e.1
      · subst h; simp [valueAt, ha]
      · have h' : ¬ e.1 = k' := fun x => h x.symm
        simp only [valueAt, if_neg h', if_neg ha, ih]

theorem upsert_keys {κ : Type} [DecidableEq κ] (f : Str → Str) (k : κ) (v : Str) (l : List (κ × Str)) :
    (upsert f k v l).map (fun e => e.1) = if k ∈ l.map (fun e => e.1) then l.map (fun e => e.1) else l.map (fun e => e.1) ++ [k] := by
  induction l with
  | nil => simp [upsert]
  | cons e l ih =>
    unfold upsert
    by_cases h : e.1 = k
    · rw [if_pos h]; simp [h]
    · rw [if_neg h, List.map_cons, List.map_cons, ih]
      have h' : ¬ k = e.1 := fun x => h x.symm
      by_cases hm : k ∈ l.map (fun e => e.1)
      · rw [if_pos hm, if_pos (by simp [hm])]
      · rw [if_neg hm, if_neg (by simp only [List.mem_cons, not_or]; exact ⟨h', hm⟩)]; rfl

theorem upsert_nodup {κ : Type} [DecidableEq κ] {f : Str → Str} {k : κ} {v : Str} {l : List (κ × Str)}
    (h : (l.map fun e => e.1).Nodup) : ((upsert f k v l).map fun e => e.1).Nodup := by
  rw [upsert_keys]
  split
  · exact h
  · rename_i hk
    rw [List.nodup_append]
    refine ⟨h, by simp, ?_⟩
    intro a ha b hb
    rw [List.mem_singleton] at hb
    subst hb
    intro e
    exact hk (e ▸ ha)

/-- In a list with distinct keys, the entries of a key are what looking it up gives. -/
theorem filter_valueAt {κ : Type} [DecidableEq κ] {l : List (κ × Str)} (h : (l.map fun e => e.1).Nodup) (k : κ) :
    l.filter (fun e => e.1 = k) = (valueAt k l).toList.map fun v => (k, v) := by
  induction l with
  | nil => rfl
  | cons e l ih =>
    obtain ⟨a, b⟩ := e
    rw [List.map_cons, List.nodup_cons] at h
    by_cases ha : a = k
    · subst ha
      rw [List.filter_cons_of_pos (by simp)]
      simp only [valueAt, if_true, Option.toList_some, List.map_cons, List.map_nil]
      have : l.filter (fun e => e.1 = a) = [] := by
        rw [List.filter_eq_nil_iff]
        intro x hx hxa
        exact h.1 (List.mem_map.mpr ⟨x, hx, by simpa using hxa⟩)
      rw [this]
    · rw [List.filter_cons_of_neg (by simpa using ha), ih h.2]
      simp only [valueAt, if_neg ha]

/-- The values of a key that are collected under several `upsert`s that extend. -/
theorem valueAt_ops {κ : Type} [DecidableEq κ] (ops : List (κ × Str)) (k : κ) :
    valueAt k (ops.foldl (fun l e => upsert (extendText e.2) e.1 e.2 l) []) =
      joined ((ops.filter fun e => e.1 = k).map fun e => e.2) := by
  have key : ∀ (ops : List (κ × Str)), valueAt k (ops.reverse.reverse.foldl (fun l e => upsert (extendText e.2) e.1 e.2 l) []) =
      joined ((ops.reverse.reverse.filter fun e => e.1 = k).map fun e => e.2) := by
    intro ops
    induction ops.reverse with
    | nil => rfl
    | cons e r ih =>
      rw [List.reverse_cons, List.foldl_append, List.filter_append, List.map_append]
      simp only [List.foldl_cons, List.foldl_nil]
      rw [valueAt_upsert]
      by_cases h : k = e.1
      · subst h
        rw [if_pos rfl, ih, List.filter_cons_of_pos (by simp)]
        simp only [List.filter_nil, List.map_cons, List.map_nil]
        rw [joined_append]
      · rw [if_neg h, ih, List.filter_cons_of_neg (by simpa using Ne.symm h)]
        simp
  have := key ops
  rwa [List.reverse_reverse] at this

theorem ops_nodup {κ α : Type} [DecidableEq κ] (g : α → Str → Str) (key : α → κ) (val : α → Str) (ops : List α) :
    ∀ l : List (κ × Str), (l.map fun e => e.1).Nodup →
      ((ops.foldl (fun l e => upsert (g e) (key e) (val e) l) l).map fun e => e.1).Nodup := by
  induction ops with
  | nil => intro l h; exact h
  | cons e ops ih => intro l h; exact ih _ (upsert_nodup h)

/-! ## Splitting texts at NULs -/

theorem splitNul_ne_nil (c : Char) (s : Str) : Id3v2.splitOn c s ≠ [] := by
  induction s with
  | nil => simp [Id3v2.splitOn]
  | cons x s ih =>
    unfold Id3v2.splitOn
    split
    · simp
    · split <;> simp

theorem splitOn_cons (c x : Char) (s : Str) : Id3v2.splitOn c (x :: s) =
    if x = c then [] :: Id3v2.splitOn c s
    else match Id3v2.splitOn c s with
      | [] => [[x]]
      | p :: ps => (x :: p) :: ps := by
  conv => lhs; unfold Id3v2.splitOn
  cases Id3v2.splitOn c s <;> rfl

theorem splitOn_append (c : Char) (a b : Str) : Id3v2.splitOn c (a ++ c :: b) = Id3v2.splitOn c a ++ Id3v2.splitOn c b := by
  induction a with
  | nil => rw [List.nil_append, splitOn_cons, if_pos rfl]; rfl
  | cons x a ih =>
    rw [List.cons_append, splitOn_cons, splitOn_cons c x a]
    by_cases h : x = c
    · rw [if_pos h, if_pos h, ih]; rfl
    · rw [if_neg h, if_neg h, ih]
      cases hs : Id3v2.splitOn c a with
      | nil => exact absurd hs (splitNul_ne_nil c a)
      | cons p ps => rfl

/-- The values of joined texts are the values of the texts. -/
theorem splitOn_joined (l : List Str) : (joined l).toList.flatMap (Id3v2.splitOn '\x00') = l.flatMap (Id3v2.splitOn '\x00') := by
  cases l with
  | nil => rfl
  | cons v vs =>
    simp only [joined, Option.toList_some, List.flatMap_cons, List.flatMap_nil, List.append_nil]
    induction vs generalizing v with
    | nil => simp
    | cons w vs ih =>
      rw [List.foldl_cons, ih, splitOn_append, List.flatMap_cons, List.append_assoc]

theorem splitOn_none {c : Char} {s : Str} (h : c ∉ s) : Id3v2.splitOn c s = [s] := by
  induction s with
  | nil => rfl
  | cons x s ih =>
    simp only [List.mem_cons, not_or] at h
    unfold Id3v2.splitOn
    rw [if_neg (Ne.symm h.1), ih h.2]

/-! ## The set of frames -/

theorem insertSet_filter {p : Frame → Bool} (hp : ∀ a b, sameFrame a b = true → p a = p b) (l : List Frame) (f : Frame) :
    (insertSet l f).filter p = if p f then insertSet (l.filter p) f else l.filter p := by
  unfold insertSet
  by_cases hf : p f = true
  · have : (l.any fun g => sameFrame g f) = ((l.filter p).any fun g => sameFrame g f) := by
      rw [Bool.eq_iff_iff, List.any_eq_true, List.any_eq_true]
      constructor
      · rintro ⟨g, hg, hs⟩
        exact ⟨g, List.mem_filter.mpr ⟨hg, by rw [hp g f hs, hf]⟩, hs⟩
      · rintro ⟨g, hg, hs⟩
        exact ⟨g, (List.mem_filter.mp hg).1, hs⟩
    rw [if_pos hf, ← this]
    split
    · rfl
    · rw [List.filter_append, List.filter_cons_of_pos hf]; rfl
  · rw [if_neg hf]
    split
    · rfl
    · rw [List.filter_append, List.filter_cons_of_neg hf]; simp

/-- Choosing frames by a property that equal frames share can be done before making the list a set. -/
theorem set_filter {p : Frame → Bool} (hp : ∀ a b, sameFrame a b = true → p a = p b) (l : List Frame) :
    (l.foldl insertSet []).filter p = (l.filter p).foldl insertSet [] := by
  have key : ∀ (l acc : List Frame), (l.foldl insertSet acc).filter p = (l.filter p).foldl insertSet (acc.filter p) := by
    intro l
    induction l with
    | nil => intro acc; rfl
    | cons f l ih =>
      intro acc
      rw [List.foldl_cons, ih, insertSet_filter hp]
      by_cases hf : p f = true
      · rw [if_pos hf, List.filter_cons_of_pos hf]; rfl
      · rw [if_neg hf, List.filter_cons_of_neg hf]
  simpa using key l []

theorem mem_set {l : List Frame} {f : Frame} (h : f ∈ l.foldl insertSet []) : f ∈ l := by
  have key : ∀ (l acc : List Frame), f ∈ l.foldl insertSet acc → f ∈ l ∨ f ∈ acc := by
    intro l
    induction l with
    | nil => intro acc h; exact .inr h
    | cons g l ih =>
      intro acc h
      rw [List.foldl_cons] at h
      rcases ih _ h with h | h
      · exact .inl (List.mem_cons_of_mem _ h)
      · unfold insertSet at h
        split at h
        · exact .inr h
        · rcases List.mem_append.mp h with h | h
          · exact .inr h
          · rw [List.mem_singleton] at h; subst h; exact .inl (by simp)
  rcases key l [] h with h | h
  · exact h
  · cases h

/-- Of frames that are all equal, the first stays. -/
theorem set_same {l : List Frame} (h : ∀ a ∈ l, ∀ b ∈ l, sameFrame a b = true) : l.foldl insertSet [] = l.take 1 := by
  cases l with
  | nil => rfl
  | cons f l =>
    rw [List.foldl_cons]
    have h0 : insertSet [] f = [f] := rfl
    rw [h0]
    have key : ∀ m : List Frame, (∀ b ∈ m, sameFrame f b = true) → m.foldl insertSet [f] = [f] := by
      intro m
      induction m with
      | nil => intro _; rfl
      | cons g m ih =>
        intro hm
        rw [List.foldl_cons]
        have : insertSet [f] g = [f] := by
          unfold insertSet
          rw [if_pos]
          simp [hm g (by simp)]
        rw [this]
        exact ih fun b hb => hm b (by simp [hb])
    rw [key l fun b hb => h f (by simp) b (by simp [hb])]
    rfl

/-- A set of frames that are pairwise different is the list. -/
theorem set_distinct {l : List Frame} (h : l.Pairwise fun a b => sameFrame a b = false) : l.foldl insertSet [] = l := by
  have key : ∀ (m acc : List Frame), (acc ++ m).Pairwise (fun a b => sameFrame a b = false) → m.foldl insertSet acc = acc ++ m := by
    intro m
    induction m with
    | nil => intro acc _; simp
    | cons g m ih =>
      intro acc hm
      rw [List.foldl_cons]
      have hg : insertSet acc g = acc ++ [g] := by
        unfold insertSet
        rw [if_neg]
        intro ha
        obtain ⟨x, hx, hs⟩ := List.any_eq_true.mp ha
        rw [List.pairwise_append] at hm
        rw [hm.2.2 x hx g (by simp)] at hs
        cases hs
      rw [hg, ih _ (by simpa using hm)]
      simp
  simpa using key l [] (by simpa using h)

/-! ## The context -/

/-- The context after some items. -/
def ctxOf (owned : Bool) (items : List TagItem) : Ctx :=
  items.foldl (fun c i => if collected i.key then collect owned c i else c) {}

/-- The frame of a single item. -/
def ownOf (custom : Rating.Provider) (owned : Bool) (i : TagItem) : Option Frame :=
  if collected i.key then none else ownFrame custom owned i

/-- The frames made of single items, in order. -/
def ownFrames (custom : Rating.Provider) (owned : Bool) (items : List TagItem) : List Frame :=
  items.filterMap (ownOf custom owned)

theorem allFrames_eq (custom : Rating.Provider) (owned : Bool) (items : List TagItem) :
    allFrames custom owned items = ownFrames custom owned items ++
      (if (ctxOf owned items).tipl.isEmpty then [] else [.leaf {} (.keyValue ⟨.valid (str "TIPL"), .utf8, (ctxOf owned items).tipl⟩)]) ++
      (ctxOf owned items).texts.map (fun e => newText e.1 e.2) ++ (ctxOf owned items).users.map (fun e => newUserText e.1 e.2) ++
      (ctxOf owned items).comments.map newComment ++ (ctxOf owned items).lyrics.map newLyrics ++
      (numberFrame (str "TRCK") (ctxOf owned items).track (ctxOf owned items).trackTotal).toList ++
      (numberFrame (str "TPOS") (ctxOf owned items).disc (ctxOf owned items).discTotal).toList := by
  have key : ∀ (items : List TagItem) (c : Ctx) (l : List Frame), items.foldl (fun (s : Ctx × List Frame) i =>
      ((itemToFrame custom owned s.1 i).1, s.2 ++ (itemToFrame custom owned s.1 i).2.toList)) (c, l) =
      (items.foldl (fun c i => if collected i.key then collect owned c i else c) c, l ++ ownFrames custom owned items) := by
    intro items
    induction items with
    | nil => intro c l; simp [ownFrames]
    | cons i items ih =>
      intro c l
      rw [List.foldl_cons, ih, List.foldl_cons]
      unfold itemToFrame ownFrames
      by_cases h : collected i.key = true
      · rw [if_pos h, List.filterMap_cons_none (by unfold ownOf; rw [if_pos h])]
        simp [h]
      · rw [if_neg h]
        cases ho : ownFrame custom owned i with
        | none => rw [List.filterMap_cons_none (by unfold ownOf; rw [if_neg h, ho])]; simp [h]
        | some f => rw [List.filterMap_cons_some (by unfold ownOf; rw [if_neg h, ho])]; simp [h]
  unfold allFrames
  simp only
  rw [key items {} []]
  rfl

/-- What the context collects: a fold over the steps for one of its parts. -/
theorem ctx_part {α β : Type} {owned : Bool} {part : Ctx → α} {op : TagItem → Option β} {apply : α → β → α}
    (h : ∀ (c : Ctx) i, part (if collected i.key then collect owned c i else c) =
      match op i with
      | some o => apply (part c) o
      | none => part c) (items : List TagItem) :
    part (ctxOf owned items) = (items.filterMap op).foldl apply (part {}) := by
  have key : ∀ (items : List TagItem) (c : Ctx),
      part (items.foldl (fun c i => if collected i.key then collect owned c i else c) c) =
        (items.filterMap op).foldl apply (part c) := by
    intro items
    induction items with
    | nil => intro c; rfl
    | cons i items ih =>
      intro c
      rw [List.foldl_cons, ih, h]
      cases hop : op i with
      | none => rw [List.filterMap_cons_none hop]
      | some o => rw [List.filterMap_cons_some hop]; rfl
  exact key items {}

/-- The steps for texts. -/
def textOp (owned : Bool) (i : TagItem) : Option (Str × Str) :=
  if multiText.contains i.key then (itemText owned i).bind fun v => (mapKey .id3v2 i.key).map fun id => (id, v) else none

/-- The steps for user texts: with `true` if they extend. -/
def userOp (owned : Bool) (i : TagItem) : Option (Bool × Str × Str) :=
  if multiUser.contains i.key then (itemText owned i).bind fun v => (mapKey .id3v2 i.key).map fun id => (true, id, v)
  else if singleUser.contains i.key then (itemText owned i).bind fun v => (mapKey .id3v2 i.key).map fun id => (false, id, v)
  else none

/-- The steps for comments or lyrics. -/
def langOp (k : ItemKey) (owned : Bool) (i : TagItem) : Option ((Bytes × Str) × Str) :=
  if i.key = k then (itemText owned i).map fun v => ((i.lang, i.description), v) else none

/-- The steps for people. -/
def tiplOp (owned : Bool) (i : TagItem) : Option (Str × Str) :=
  (tiplMap.find? fun e => e.1 = i.key).bind fun e => (itemText owned i).map fun v => (e.2, v)

/-- The steps for a number. -/
def numberOp (k : ItemKey) (i : TagItem) : Option (Option Nat) := if i.key = k then some (parseNumber i) else none

theorem ctx_texts (owned : Bool) (items : List TagItem) : (ctxOf owned items).texts =
    (items.filterMap (textOp owned)).foldl (fun l e => upsert (extendText e.2) e.1 e.2 l) [] := by
  refine ctx_part (part := Ctx.texts) ?_ items
  intro c i
  unfold textOp
  by_cases h : multiText.contains i.key = true
  · have hc : collected i.key = true := by unfold collected; rw [h]; rfl
    rw [if_pos hc, if_pos h]
    unfold collect
    rw [if_pos h]
    cases itemText owned i with
    | none => rfl
    | some v =>
      cases mapKey .id3v2 i.key with
      | none => rfl
      | some id => rfl
  · rw [if_neg h]
    split
    · unfold collect
      rw [if_neg h]
      (repeat' split) <;> first | rfl | contradiction
    · rfl

theorem ctx_users (owned : Bool) (items : List TagItem) : (ctxOf owned items).users =
    (items.filterMap (userOp owned)).foldl
      (fun l e => upsert (if e.1 then extendText e.2.2 else fun _ => e.2.2) e.2.1 e.2.2 l) [] := by
  refine ctx_part (part := Ctx.users) ?_ items
  intro c i
  unfold userOp
  by_cases h : multiUser.contains i.key = true
  · have ht : multiText.contains i.key = false := by
      have : ∀ k ∈ multiUser, multiText.contains k = false := by decide
      exact this _ (by simpa using h)
    have hc : collected i.key = true := by unfold collected; rw [h]; simp
    rw [if_pos hc, if_pos h]
    unfold collect
    rw [if_neg (by rw [ht]; simp), if_pos h]
    cases itemText owned i with
    | none => rfl
    | some v =>
      cases mapKey .id3v2 i.key with
      | none => rfl
      | some id => rfl
  · rw [if_neg h]
    by_cases hs : singleUser.contains i.key = true
    · have ht : multiText.contains i.key = false := by
        have : ∀ k ∈ singleUser, multiText.contains k = false := by decide
        exact this _ (by simpa using hs)
      have hc : collected i.key = true := by unfold collected; rw [hs]; simp
      rw [if_pos hc, if_pos hs]
      unfold collect
      rw [if_neg (by rw [ht]; simp), if_neg h, if_pos hs]
      cases itemText owned i with
      | none => rfl
      | some v =>
        cases mapKey .id3v2 i.key with
        | none => rfl
        | some id => rfl
    · rw [if_neg hs]
      split
      · unfold collect
        rw [if_neg h, if_neg hs]
        (repeat' split) <;> first | rfl | contradiction
      · rfl

/-- The steps of `collect` for the keys that are not texts. -/
theorem collect_comment {owned : Bool} {c : Ctx} {i : TagItem} (h : i.key = .Comment) : collect owned c i =
    match itemText owned i with
    | some v => { c with comments := upsert (extendText v) (i.lang, i.description) v c.comments }
    | none => c := by
  unfold collect
  rw [h, if_neg (by decide), if_neg (by decide), if_neg (by decide)]
  cases itemText owned i <;> rfl

theorem collect_lyrics {owned : Bool} {c : Ctx} {i : TagItem} (h : i.key = .UnsyncLyrics) : collect owned c i =
    match itemText owned i with
    | some v => { c with lyrics := upsert (extendText v) (i.lang, i.description) v c.lyrics }
    | none => c := by
  unfold collect
  rw [h, if_neg (by decide), if_neg (by decide), if_neg (by decide)]
  cases itemText owned i <;> rfl

theorem ctx_comments (owned : Bool) (items : List TagItem) : (ctxOf owned items).comments =
    (items.filterMap (langOp .Comment owned)).foldl (fun l e => upsert (extendText e.2) e.1 e.2 l) [] := by
  refine ctx_part (part := Ctx.comments) ?_ items
  intro c i
  unfold langOp
  by_cases h : i.key = .Comment
  · have hc : collected i.key = true := by rw [h]; decide
    rw [if_pos hc, if_pos h, collect_comment h]
    cases itemText owned i <;> rfl
  · rw [if_neg h]
    split
    · unfold collect
      repeat' split
      all_goals first | rfl | (rename_i hk _ _; exact absurd hk h) | (rename_i hk _; exact absurd hk h) | contradiction
    · rfl

theorem ctx_lyrics (owned : Bool) (items : List TagItem) : (ctxOf owned items).lyrics =
    (items.filterMap (langOp .UnsyncLyrics owned)).foldl (fun l e => upsert (extendText e.2) e.1 e.2 l) [] := by
  refine ctx_part (part := Ctx.lyrics) ?_ items
  intro c i
  unfold langOp
  by_cases h : i.key = .UnsyncLyrics
  · have hc : collected i.key = true := by rw [h]; decide
    rw [if_pos hc, if_pos h, collect_lyrics h]
    cases itemText owned i <;> rfl
  · rw [if_neg h]
    split
    · unfold collect
      repeat' split
      all_goals first | rfl | (rename_i hk _ _; exact absurd hk h) | (rename_i hk _; exact absurd hk h) | contradiction
    · rfl

theorem last_fold {α : Type} (l : List α) (a : α) : l.foldl (fun _ x => x) a = l.getLast?.getD a := by
  induction l generalizing a with
  | nil => rfl
  | cons x l ih =>
    rw [List.foldl_cons, ih]
    cases l with
    | nil => rfl
    | cons y l => simp [List.getLast?_cons_cons, List.getLast?_eq_some_getLast]

/-- The number of a key that its last item gives. -/
def numberGiven (k : ItemKey) (items : List TagItem) : Option Nat := ((items.filter fun i => i.key = k).getLast?).bind parseNumber

theorem number_ops (k : ItemKey) (items : List TagItem) :
    (items.filterMap (numberOp k)).foldl (fun _ x => x) none = numberGiven k items := by
  have : items.filterMap (numberOp k) = (items.filter fun i => i.key = k).map parseNumber := by
    induction items with
    | nil => rfl
    | cons i items ih =>
      by_cases h : i.key = k
      · rw [List.filterMap_cons_some (by unfold numberOp; rw [if_pos h]), List.filter_cons_of_pos (by simpa using h), ih]; rfl
      · rw [List.filterMap_cons_none (by unfold numberOp; rw [if_neg h]), List.filter_cons_of_neg (by simpa using h), ih]
  rw [this, last_fold, List.getLast?_map]
  unfold numberGiven
  cases (items.filter fun i => i.key = k).getLast? <;> rfl

theorem ctx_numbers (owned : Bool) (items : List TagItem) :
    (ctxOf owned items).track = numberGiven .TrackNumber items ∧ (ctxOf owned items).trackTotal = numberGiven .TrackTotal items ∧
    (ctxOf owned items).disc = numberGiven .DiscNumber items ∧ (ctxOf owned items).discTotal = numberGiven .DiscTotal items := by
  refine ⟨?_, ?_, ?_, ?_⟩
  · rw [← number_ops]
    refine ctx_part (part := Ctx.track) (owned := owned) ?_ items
    intro c i
    unfold numberOp
    by_cases h : i.key = .TrackNumber
    · rw [if_pos (by rw [h]; decide), if_pos h]
      unfold collect
      rw [h, if_neg (by decide), if_neg (by decide), if_neg (by decide)]
    · rw [if_neg h]
      split
      · unfold collect
        repeat' split
        all_goals first | rfl | contradiction
      · rfl
  · rw [← number_ops]
    refine ctx_part (part := Ctx.trackTotal) (owned := owned) ?_ items
    intro c i
    unfold numberOp
    by_cases h : i.key = .TrackTotal
    · rw [if_pos (by rw [h]; decide), if_pos h]
      unfold collect
      rw [h, if_neg (by decide), if_neg (by decide), if_neg (by decide)]
    · rw [if_neg h]
      split
      · unfold collect
        repeat' split
        all_goals first | rfl | contradiction
      · rfl
  · rw [← number_ops]
    refine ctx_part (part := Ctx.disc) (owned := owned) ?_ items
    intro c i
    unfold numberOp
    by_cases h : i.key = .DiscNumber
    · rw [if_pos (by rw [h]; decide), if_pos h]
      unfold collect
      rw [h, if_neg (by decide), if_neg (by decide), if_neg (by decide)]
    · rw [if_neg h]
      split
      · unfold collect
        repeat' split
        all_goals first | rfl | contradiction
      · rfl
  · rw [← number_ops]
    refine ctx_part (part := Ctx.discTotal) (owned := owned) ?_ items
    intro c i
    unfold numberOp
    by_cases h : i.key = .DiscTotal
    · rw [if_pos (by rw [h]; decide), if_pos h]
      unfold collect
      rw [h, if_neg (by decide), if_neg (by decide), if_neg (by decide)]
    · rw [if_neg h]
      split
      · unfold collect
        repeat' split
        all_goals first | rfl | contradiction
      · rfl

theorem ctx_tipl (owned : Bool) (items : List TagItem) : (ctxOf owned items).tipl = items.filterMap (tiplOp owned) := by
  have h1 : (ctxOf owned items).tipl = (items.filterMap (tiplOp owned)).foldl (fun l e => l ++ [e]) [] := by
    refine ctx_part (part := Ctx.tipl) (owned := owned) ?_ items
    intro c i
    unfold tiplOp
    cases hf : tiplMap.find? (fun e => e.1 = i.key) with
    | none =>
      rw [Option.bind_none]
      split
      · unfold collect
        repeat' split
        all_goals first | rfl | simp_all
      · rfl
    | some e =>
      have hm := List.mem_of_find?_eq_some hf
      have hk : e.1 = i.key := by simpa using List.find?_some hf
      have hall : ∀ e ∈ tiplMap, collected e.1 = true ∧ multiText.contains e.1 = false ∧ multiUser.contains e.1 = false ∧
          singleUser.contains e.1 = false ∧ e.1 ≠ .Comment ∧ e.1 ≠ .UnsyncLyrics ∧ e.1 ≠ .TrackNumber ∧ e.1 ≠ .TrackTotal ∧
          e.1 ≠ .DiscNumber ∧ e.1 ≠ .DiscTotal := by decide
      obtain ⟨h0, h1, h2, h3, h4, h5, h6, h7, h8, h9⟩ := hall e hm
      rw [hk] at h0 h1 h2 h3 h4 h5 h6 h7 h8 h9
      rw [if_pos h0]
      unfold collect
      rw [if_neg (by rw [h1]; simp), if_neg (by rw [h2]; simp), if_neg (by rw [h3]; simp)]
      split
      · contradiction
      · contradiction
      · contradiction
      · contradiction
      · contradiction
      · contradiction
      · simp only [hf]
        cases itemText owned i <;> rfl
  rw [h1]
  have h2 : ∀ (l a : List (Str × Str)), l.foldl (fun l e => l ++ [e]) a = a ++ l := by
    intro l
    induction l with
    | nil => simp
    | cons x l ih => intro a; rw [List.foldl_cons, ih]; simp
  rw [h2]; rfl

/-! ## Which frames there are -/

/-- The name of a key in ID3v2. -/
def nameOf (k : ItemKey) : Str := (mapKey .id3v2 k).getD []

def flagKeys : List ItemKey := [.FlagCompilation, .FlagPodcast]
def dateKeys : List ItemKey := [.RecordingDate, .OriginalReleaseDate]

/-- The keys that are written as texts without special treatment. -/
def otherText : List ItemKey :=
  [.AlbumTitleSortOrder, .AlbumArtistSortOrder, .TrackTitleSortOrder, .TrackArtistSortOrder, .ComposerSortOrder, .Label,
   .ReleaseDate, .Isrc, .TaggingTime, .Length, .OriginalFileName, .OriginalMediaType, .EncodedBy, .EncoderSoftware,
   .EncoderSettings, .EncodingTime, .InitialKey, .IntegerBpm, .PodcastDescription, .PodcastSeriesCategory,
   .PodcastGlobalUniqueId, .PodcastKeywords]

/-- The keys that are written as links. -/
def urlKeys : List ItemKey :=
  [.AudioFileUrl, .AudioSourceUrl, .CommercialInformationUrl, .CopyrightUrl, .TrackArtistUrl, .RadioStationUrl, .PaymentUrl,
   .PublisherUrl, .PodcastUrl]

/-- The keys with an arm of their own. -/
def specialFrame : List ItemKey := flagKeys ++ dateKeys ++ [.ParentalAdvisory, .MusicBrainzRecordingId, .Popularimeter]

def textKeys : List ItemKey := multiText ++ flagKeys ++ dateKeys ++ otherText ++ [.TrackNumber, .DiscNumber]
def userKeys : List ItemKey := multiUser ++ singleUser ++ [.ParentalAdvisory]

/-- Every frame that can come of a generic tag. -/
inductive MadeFrame (custom : Rating.Provider) : Frame → Prop
  | text (j : ItemKey) (v : Str) (h : j ∈ textKeys) : MadeFrame custom (newText (nameOf j) v)
  | user (j : ItemKey) (v : Str) (h : j ∈ userKeys) : MadeFrame custom (newUserText (nameOf j) v)
  | url (j : ItemKey) (v : Str) (h : j ∈ urlKeys) : MadeFrame custom (newUrl (nameOf j) v)
  | time (j : ItemKey) (t : Timestamp) (h : j ∈ dateKeys) : MadeFrame custom (newTime (nameOf j) t)
  | ufid (d : Bytes) : MadeFrame custom (.leaf {} (.ufid ⟨musicbrainz, d⟩))
  | pop (p : Rating.Pop) : MadeFrame custom (newPop custom p)
  | tipl (l : List (Str × Str)) (h : ∀ e ∈ l, ∃ x ∈ tiplMap, x.2 = e.1) :
      MadeFrame custom (.leaf {} (.keyValue ⟨.valid (str "TIPL"), .utf8, l⟩))
  | comment (e : (Bytes × Str) × Str) : MadeFrame custom (newComment e)
  | lyrics (e : (Bytes × Str) × Str) : MadeFrame custom (newLyrics e)

/-- What the last arm makes of a key. -/
def otherKind (j : ItemKey) : Option Bool :=
  (mapKey .id3v2 j).bind fun m =>
    if (utf8 m).length = 4 then
      match FrameId.new m with
      | .ok id =>
        if m.head? = some 'T' then (if id = .valid m then some true else none)
        else if m.head? = some 'W' then (if id = .valid m then some false else none)
        else none
      | .error _ => none
    else none

theorem other_table : ∀ j ∈ ItemKey.all, collected j = false → specialFrame.contains j = false →
    otherKind j = if otherText.contains j then some true else if urlKeys.contains j then some false else none := by
  decide +kernel

theorem id_new_valid {m : Str} {id : FrameId} (hl : (utf8 m).length = 4) (h : FrameId.new m = .ok id) : id = .valid m := by
  unfold FrameId.new at h
  split at h
  · cases h
  · rename_i ha
    have hlen : m.length = 4 := by
      have hall : ∀ c ∈ m, c.toNat ≤ 127 := by
        intro c hc
        have ha' : m.all Id3v2.idChar = true := by simpa using ha
        have := List.all_eq_true.mp ha' c hc
        simp only [Id3v2.idChar, Bool.or_eq_true, Bool.and_eq_true, decide_eq_true_eq] at this
        have hZ : 'Z'.toNat = 90 := rfl
        have h9 : '9'.toNat = 57 := rfl
        omega
      rw [utf8_ascii m hall, List.length_map] at hl
      exact hl
    split at h
    · omega
    · cases h; rfl

theorem otherFrame_eq {owned : Bool} {i : TagItem} (h1 : collected i.key = false) (h2 : specialFrame.contains i.key = false) :
    otherFrame owned i = if otherText.contains i.key then (itemText owned i).map (newText (nameOf i.key))
      else if urlKeys.contains i.key then (itemText owned i).map (newUrl (nameOf i.key)) else none := by
  have ht := other_table i.key i.key.mem_all h1 h2
  unfold otherKind at ht
  unfold otherFrame nameOf
  cases hm : mapKey .id3v2 i.key with
  | none =>
    rw [hm] at ht
    rw [Option.bind_none] at ht ⊢
    split
    · rename_i h; rw [if_pos h] at ht; cases ht
    · split
      · rename_i h h'; rw [if_neg h, if_pos h'] at ht; cases ht
      · rfl
  | some m =>
    rw [hm] at ht
    rw [Option.bind_some] at ht ⊢
    split at ht
    · rename_i hl
      rw [if_pos hl]
      cases hn : FrameId.new m with
      | error e =>
        simp only [hn] at ht ⊢
        split
        · rename_i h; rw [if_pos h] at ht; cases ht
        · split
          · rename_i h h'; rw [if_neg h, if_pos h'] at ht; cases ht
          · rfl
      | ok id =>
        obtain rfl := id_new_valid hl hn
        simp only [hn, if_true] at ht ⊢
        by_cases hT : m.head? = some 'T'
        · rw [if_pos hT] at ht ⊢
          by_cases hx : otherText.contains i.key = true
          · rw [if_pos hx]; rfl
          · rw [if_neg hx] at ht
            split at ht <;> cases ht
        · rw [if_neg hT] at ht ⊢
          by_cases hx : otherText.contains i.key = true
          · rw [if_pos hx] at ht
            split at ht <;> cases ht
          · rw [if_neg hx] at ht ⊢
            by_cases hW : m.head? = some 'W'
            · rw [if_pos hW] at ht ⊢
              by_cases hu : urlKeys.contains i.key = true
              · rw [if_pos hu]; rfl
              · rw [if_neg hu] at ht; cases ht
            · rw [if_neg hW] at ht ⊢
              by_cases hu : urlKeys.contains i.key = true
              · rw [if_pos hu] at ht; cases ht
              · rw [if_neg hu]
    · rename_i hl
      rw [if_neg hl]
      split
      · rename_i h; rw [if_pos h] at ht; cases ht
      · split
        · rename_i h h'; rw [if_neg h, if_pos h'] at ht; cases ht
        · rfl

theorem mapKey_nameOf {j : ItemKey} (h : j ∈ textKeys ++ userKeys ++ urlKeys) : mapKey .id3v2 j = some (nameOf j) := by
  have : ∀ j ∈ textKeys ++ userKeys ++ urlKeys, (mapKey .id3v2 j).isSome = true := by decide +kernel
  obtain ⟨n, hn⟩ := Option.isSome_iff_exists.mp (this j h)
  rw [nameOf, hn]; rfl

theorem mem_optMap {α β : Type} {o : Option α} {g : α → β} {b : β} (h : o.map g = some b) : ∃ a, o = some a ∧ g a = b := by
  cases o with
  | none => cases h
  | some a => exact ⟨a, rfl, Option.some.inj h⟩

theorem made_own {custom : Rating.Provider} {owned : Bool} {i : TagItem} {f : Frame} (hc : collected i.key = false)
    (h : ownFrame custom owned i = some f) : MadeFrame custom f := by
  by_cases hs : specialFrame.contains i.key = true
  · have hm : i.key ∈ specialFrame := by simpa using hs
    unfold ownFrame at h
    have hcase : i.key = .FlagCompilation ∨ i.key = .FlagPodcast ∨ i.key = .RecordingDate ∨ i.key = .OriginalReleaseDate ∨
        i.key = .ParentalAdvisory ∨ i.key = .MusicBrainzRecordingId ∨ i.key = .Popularimeter := by
      simpa [specialFrame, flagKeys, dateKeys] using hm
    have flag : ∀ k, i.key = k → k ∈ flagKeys → ((i.value.textOf.bind flagItem).bind fun f => (mapKey .id3v2 i.key).map
        fun id => newText id (flagText f)) = some f → MadeFrame custom f := by
      intro k hk hkm h
      rw [hk, mapKey_nameOf (j := k) (by simp [textKeys, hkm])] at h
      cases hx : i.value.textOf.bind flagItem with
      | none => rw [hx] at h; cases h
      | some b =>
        rw [hx] at h
        obtain rfl := Option.some.inj h
        exact .text k _ (by simp [textKeys, hkm])
    have date : ∀ k, i.key = k → k ∈ dateKeys → ((itemText owned i).bind fun s => (mapKey .id3v2 i.key).map
        fun id => dateFrame id s) = some f → MadeFrame custom f := by
      intro k hk hkm h
      rw [hk, mapKey_nameOf (j := k) (by simp [textKeys, hkm])] at h
      cases hx : itemText owned i with
      | none => rw [hx] at h; cases h
      | some b =>
        rw [hx] at h
        obtain rfl := Option.some.inj h
        unfold dateFrame
        split
        · exact .time k _ hkm
        · exact .text k _ (by simp [textKeys, hkm])
    rcases hcase with hk | hk | hk | hk | hk | hk | hk
    · rw [hk] at h
      exact flag _ hk (by simp [flagKeys]) (by rw [hk]; exact h)
    · rw [hk] at h
      exact flag _ hk (by simp [flagKeys]) (by rw [hk]; exact h)
    · rw [hk] at h
      exact date _ hk (by simp [dateKeys]) (by rw [hk]; exact h)
    · rw [hk] at h
      exact date _ hk (by simp [dateKeys]) (by rw [hk]; exact h)
    · rw [hk] at h
      simp only at h
      obtain ⟨r, _, rfl⟩ := mem_optMap h
      have : str "ITUNESADVISORY" = nameOf .ParentalAdvisory := by decide +kernel
      rw [this]
      exact .user _ _ (by simp [userKeys])
    · rw [hk] at h
      simp only at h
      cases hx : itemText owned i with
      | none => rw [hx] at h; cases h
      | some s =>
        rw [hx, Option.bind_some] at h
        split at h
        · obtain rfl := Option.some.inj h
          exact .ufid _
        · cases h
    · rw [hk] at h
      simp only at h
      cases hx : itemText owned i with
      | none => rw [hx] at h; cases h
      | some s =>
        rw [hx, Option.bind_some] at h
        obtain ⟨r, _, rfl⟩ := mem_optMap h
        exact .pop r
  · have ho : ownFrame custom owned i = otherFrame owned i := by
      unfold ownFrame
      split
      all_goals first | rfl | (rename_i hk; rw [hk] at hs; exact absurd (by decide) hs)
    rw [ho, otherFrame_eq hc (by simpa using hs)] at h
    split at h
    · rename_i hx
      obtain ⟨v, _, rfl⟩ := mem_optMap h
      refine .text _ v ?_
      have : i.key ∈ otherText := by simpa using hx
      simp [textKeys, this]
    · split at h
      · rename_i hx
        obtain ⟨v, _, rfl⟩ := mem_optMap h
        exact .url _ v (by simpa using hx)
      · cases h

theorem upsert_mem {κ α : Type} [DecidableEq κ] (g : α → Str → Str) (key : α → κ) (val : α → Str) (ops : List α) :
    ∀ (l : List (κ × Str)) (e : κ × Str), e ∈ ops.foldl (fun l e => upsert (g e) (key e) (val e) l) l →
      (∃ o ∈ ops, key o = e.1) ∨ ∃ x ∈ l, x.1 = e.1 := by
  induction ops with
  | nil => intro l e h; exact .inr ⟨e, h, rfl⟩
  | cons o ops ih =>
    intro l e h
    rw [List.foldl_cons] at h
    rcases ih _ e h with ⟨x, hx, he⟩ | ⟨x, hx, he⟩
    · exact .inl ⟨x, List.mem_cons_of_mem _ hx, he⟩
    · have hk : x.1 ∈ (upsert (g o) (key o) (val o) l).map fun e => e.1 := List.mem_map.mpr ⟨x, hx, rfl⟩
      rw [upsert_keys] at hk
      split at hk
      · obtain ⟨y, hy, hye⟩ := List.mem_map.mp hk
        exact .inr ⟨y, hy, hye.trans he⟩
      · rcases List.mem_append.mp hk with hk | hk
        · obtain ⟨y, hy, hye⟩ := List.mem_map.mp hk
          exact .inr ⟨y, hy, hye.trans he⟩
        · rw [List.mem_singleton] at hk
          exact .inl ⟨o, by simp, hk.symm.trans he⟩

/-- Every frame made of a generic tag is one of those. -/
theorem made_all {custom : Rating.Provider} {owned : Bool} {items : List TagItem} {f : Frame}
    (h : f ∈ allFrames custom owned items) : MadeFrame custom f := by
  rw [allFrames_eq] at h
  simp only [List.mem_append] at h
  rcases h with ((((((h | h) | h) | h) | h) | h) | h) | h
  · obtain ⟨i, _, hi⟩ := List.mem_filterMap.mp h
    unfold ownOf at hi
    split at hi
    · cases hi
    · rename_i hc
      exact made_own (by simpa using hc) hi
  · split at h
    · cases h
    · rw [List.mem_singleton] at h
      subst h
      refine .tipl _ ?_
      rw [ctx_tipl]
      intro e he
      obtain ⟨i, _, hi⟩ := List.mem_filterMap.mp he
      unfold tiplOp at hi
      cases hf : tiplMap.find? (fun e => e.1 = i.key) with
      | none => rw [hf] at hi; cases hi
      | some x =>
        rw [hf, Option.bind_some] at hi
        obtain ⟨v, _, rfl⟩ := mem_optMap hi
        exact ⟨x, List.mem_of_find?_eq_some hf, rfl⟩
  · obtain ⟨e, he, rfl⟩ := List.mem_map.mp h
    rw [ctx_texts] at he
    rcases upsert_mem (fun e : Str × Str => extendText e.2) (fun e => e.1) (fun e => e.2) _ _ _ he with ⟨o, ho, hoe⟩ | ⟨x, hx, _⟩
    · obtain ⟨i, _, hi⟩ := List.mem_filterMap.mp ho
      unfold textOp at hi
      split at hi
      · rename_i hm
        have hm' : i.key ∈ multiText := by simpa using hm
        rw [mapKey_nameOf (j := i.key) (by simp [textKeys, hm'])] at hi
        cases hx : itemText owned i with
        | none => rw [hx] at hi; cases hi
        | some v =>
          rw [hx] at hi
          obtain rfl := Option.some.inj hi
          rw [← hoe]
          exact .text _ _ (by simp [textKeys, hm'])
      · cases hi
    · cases hx
  · obtain ⟨e, he, rfl⟩ := List.mem_map.mp h
    rw [ctx_users] at he
    rcases upsert_mem (fun e : Bool × Str × Str => if e.1 then extendText e.2.2 else fun _ => e.2.2) (fun e => e.2.1) (fun e => e.2.2) _ _ _ he with
      ⟨o, ho, hoe⟩ | ⟨x, hx, _⟩
    · obtain ⟨i, _, hi⟩ := List.mem_filterMap.mp ho
      unfold userOp at hi
      split at hi
      · rename_i hm
        have hm' : i.key ∈ multiUser := by simpa using hm
        rw [mapKey_nameOf (j := i.key) (by simp [userKeys, hm'])] at hi
        cases hx : itemText owned i with
        | none => rw [hx] at hi; cases hi
        | some v =>
          rw [hx] at hi
          obtain rfl := Option.some.inj hi
          rw [← hoe]
          exact .user _ _ (by simp [userKeys, hm'])
      · split at hi
        · rename_i hm
          have hm' : i.key ∈ singleUser := by simpa using hm
          rw [mapKey_nameOf (j := i.key) (by simp [userKeys, hm'])] at hi
          cases hx : itemText owned i with
          | none => rw [hx] at hi; cases hi
          | some v =>
            rw [hx] at hi
            obtain rfl := Option.some.inj hi
            rw [← hoe]
            exact .user _ _ (by simp [userKeys, hm'])
        · cases hi
    · cases hx
  · obtain ⟨e, _, rfl⟩ := List.mem_map.mp h
    exact .comment e
  · obtain ⟨e, _, rfl⟩ := List.mem_map.mp h
    exact .lyrics e
  · rw [Option.mem_toList] at h
    obtain ⟨v, _, rfl⟩ := mem_optMap h
    have : str "TRCK" = nameOf .TrackNumber := by decide +kernel
    rw [this]
    exact .text _ _ (by simp [textKeys])
  · rw [Option.mem_toList] at h
    obtain ⟨v, _, rfl⟩ := mem_optMap h
    have : str "TPOS" = nameOf .DiscNumber := by decide +kernel
    rw [this]
    exact .text _ _ (by simp [textKeys])

/-! ## What the frames are read as -/

/-- The keys a text frame can be read as. -/
def yieldOf (j : ItemKey) : List ItemKey :=
  if j = .TrackNumber then [.TrackNumber, .TrackTotal]
  else if j = .DiscNumber then [.DiscNumber, .DiscTotal]
  else [readAs .id3v2 j]

theorem splitNumbers_keys {c : Str} {a b : ItemKey} {l : List TagItem} (h : splitNumbers c a b = some l) {x : TagItem}
    (hx : x ∈ l) : x.key = a ∨ x.key = b := by
  unfold splitNumbers at h
  cases h1 : pairNumber (splitSep c).1 with
  | none => rw [h1] at h; cases h
  | some n =>
    rw [h1, Option.bind_some] at h
    cases h2 : (splitSep c).2 with
    | none =>
      rw [h2] at h
      obtain rfl := Option.some.inj h
      rw [List.mem_singleton] at hx
      subst hx; exact .inl rfl
    | some t =>
      rw [h2] at h
      obtain ⟨v, _, rfl⟩ := mem_optMap h
      simp only [List.mem_cons, List.not_mem_nil, or_false] at hx
      rcases hx with rfl | rfl
      · exact .inl rfl
      · exact .inr rfl

theorem values_key {k : ItemKey} {c : Str} {x : TagItem} (h : x ∈ values k c) : x.key = k := by
  unfold values at h
  obtain ⟨c, _, rfl⟩ := List.mem_map.mp h
  rfl

theorem pair_find {j : ItemKey} (h : j ∈ textKeys) : pairIds.find? (fun e => e.1 = nameOf j) =
    if j = .TrackNumber then some (str "TRCK", .TrackNumber, .TrackTotal)
    else if j = .DiscNumber then some (str "TPOS", .DiscNumber, .DiscTotal) else none := by
  have : ∀ j ∈ textKeys, pairIds.find? (fun e => e.1 = nameOf j) =
    if j = .TrackNumber then some (str "TRCK", .TrackNumber, .TrackTotal)
    else if j = .DiscNumber then some (str "TPOS", .DiscNumber, .DiscTotal) else none := by decide +kernel
  exact this j h

theorem tcon_iff {j : ItemKey} (h : j ∈ textKeys) : nameOf j = str "TCON" ↔ j = .Genre := by
  have : ∀ j ∈ textKeys, nameOf j = str "TCON" ↔ j = .Genre := by decide +kernel
  exact this j h

theorem fromKey_nameOf {j : ItemKey} (h : j ∈ textKeys ++ userKeys ++ urlKeys) :
    fromKey .id3v2 (nameOf j) = some (readAs .id3v2 j) := fromKey_mapKey (mapKey_nameOf h)

theorem splitFrame_text (custom : Rating.Provider) (n v : Str) : splitFrame custom (newText n v) =
    match pairItems n v with
    | some l => { items := l }
    | none =>
      if n = str "TCON" then { items := (Id3v2.genreList v.length v).map fun g => TagItem.new .Genre (.text g) }
      else keyed n (newText n v) fun k => values k v := rfl

/-- A text frame that is no number, no genre. -/
theorem split_text_frame {custom : Rating.Provider} {j : ItemKey} (h : j ∈ textKeys) (h1 : j ≠ .TrackNumber) (h2 : j ≠ .DiscNumber)
    (h3 : j ≠ .Genre) (v : Str) : (splitFrame custom (newText (nameOf j) v)).items = values (readAs .id3v2 j) v := by
  rw [splitFrame_text]
  have hp : pairItems (nameOf j) v = none := by
    unfold pairItems
    rw [pair_find h, if_neg h1, if_neg h2]; rfl
  rw [hp]
  simp only
  rw [if_neg (fun he => h3 ((tcon_iff h).mp he))]
  unfold keyed
  rw [fromKey_nameOf (by simp [h])]

theorem split_genre {custom : Rating.Provider} (v : Str) : (splitFrame custom (newText (nameOf .Genre) v)).items =
    (Id3v2.genreList v.length v).map fun g => TagItem.new .Genre (.text g) := by
  rw [splitFrame_text]
  have hp : pairItems (nameOf .Genre) v = none := by
    unfold pairItems
    rw [pair_find (by decide)]; rfl
  rw [hp]
  simp only
  rw [if_pos ((tcon_iff (by decide)).mpr rfl)]

theorem text_keys {custom : Rating.Provider} {j : ItemKey} (h : j ∈ textKeys) {v : Str} {x : TagItem}
    (hx : x ∈ (splitFrame custom (newText (nameOf j) v)).items) : x.key ∈ yieldOf j := by
  unfold yieldOf
  by_cases h1 : j = .TrackNumber
  · subst h1
    rw [splitFrame_text] at hx
    rw [if_pos rfl]
    have hp : pairItems (nameOf .TrackNumber) v = splitNumbers v .TrackNumber .TrackTotal := by
      unfold pairItems
      rw [pair_find h, if_pos rfl]; rfl
    rw [hp] at hx
    cases hs : splitNumbers v .TrackNumber .TrackTotal with
    | some l =>
      rw [hs] at hx
      have := splitNumbers_keys hs hx
      simpa using this
    | none =>
      rw [hs] at hx
      simp only at hx
      rw [if_neg (fun he => absurd ((tcon_iff h).mp he) (by decide))] at hx
      unfold keyed at hx
      rw [fromKey_nameOf (by decide)] at hx
      have := values_key hx
      rw [this]
      decide
  · rw [if_neg h1]
    by_cases h2 : j = .DiscNumber
    · subst h2
      rw [splitFrame_text] at hx
      rw [if_pos rfl]
      have hp : pairItems (nameOf .DiscNumber) v = splitNumbers v .DiscNumber .DiscTotal := by
        unfold pairItems
        rw [pair_find h, if_neg h1, if_pos rfl]; rfl
      rw [hp] at hx
      cases hs : splitNumbers v .DiscNumber .DiscTotal with
      | some l =>
        rw [hs] at hx
        have := splitNumbers_keys hs hx
        simpa using this
      | none =>
        rw [hs] at hx
        simp only at hx
        rw [if_neg (fun he => absurd ((tcon_iff h).mp he) (by decide))] at hx
        unfold keyed at hx
        rw [fromKey_nameOf (by decide)] at hx
        have := values_key hx
        rw [this]
        decide
    · rw [if_neg h2]
      by_cases h3 : j = .Genre
      · subst h3
        rw [split_genre] at hx
        obtain ⟨g, _, rfl⟩ := List.mem_map.mp hx
        show ItemKey.Genre ∈ [readAs .id3v2 .Genre]
        decide
      · rw [split_text_frame h h1 h2 h3] at hx
        rw [values_key hx]; simp

theorem user_table : ∀ j ∈ userKeys, readAs .id3v2 j = j ∧ (nameOf j).isEmpty = false := by decide +kernel
theorem url_table : ∀ j ∈ urlKeys, readAs .id3v2 j = j := by decide
theorem date_table : ∀ j ∈ dateKeys, readAs .id3v2 j = j := by decide

theorem split_user {custom : Rating.Provider} {j : ItemKey} (h : j ∈ userKeys) (v : Str) :
    (splitFrame custom (newUserText (nameOf j) v)).items = values j v := by
  unfold newUserText splitFrame
  simp only
  rw [(user_table j h).2]
  simp only [Bool.false_eq_true, if_false]
  unfold keyed
  rw [fromKey_nameOf (by simp [h]), (user_table j h).1]

theorem split_url {custom : Rating.Provider} {j : ItemKey} (h : j ∈ urlKeys) (v : Str) :
    (splitFrame custom (newUrl (nameOf j) v)).items = [TagItem.new j (.locator v)] := by
  unfold newUrl splitFrame
  simp only [FrameId.asStr]
  unfold keyed
  rw [fromKey_nameOf (by simp [h]), url_table j h]

theorem split_time {custom : Rating.Provider} {j : ItemKey} (h : j ∈ dateKeys) (t : Timestamp) :
    (splitFrame custom (newTime (nameOf j) t)).items = if t.verify then [TagItem.new j (.text t.fmt)] else [] := by
  unfold newTime splitFrame
  simp only [FrameId.asStr]
  split
  · unfold keyed
    rw [fromKey_nameOf (by simp [textKeys, h]), date_table j h]
  · rfl

theorem langValues_key {k : ItemKey} {f : Id3v2.LangF} {x : TagItem} (h : x ∈ langValues k f) : x.key = k := by
  unfold langValues at h
  split at h
  · cases h
  · rcases List.mem_cons.mp h with rfl | h
    · rfl
    · obtain ⟨c, _, rfl⟩ := List.mem_map.mp h
      rfl

/-- The keys of what a frame is read as. -/
theorem made_keys {custom : Rating.Provider} {f : Frame} (h : MadeFrame custom f) {x : TagItem} (hx : x ∈ (splitFrame custom f).items) :
    (∃ j v, j ∈ textKeys ∧ f = newText (nameOf j) v ∧ x.key ∈ yieldOf j) ∨
    (∃ j v, j ∈ userKeys ∧ f = newUserText (nameOf j) v ∧ x.key = j) ∨
    (∃ j v, j ∈ urlKeys ∧ f = newUrl (nameOf j) v ∧ x.key = j) ∨
    (∃ j t, j ∈ dateKeys ∧ f = newTime (nameOf j) t ∧ x.key = j) ∨
    (∃ d, f = .leaf {} (.ufid ⟨musicbrainz, d⟩) ∧ x.key = .MusicBrainzRecordingId) ∨
    (∃ p, f = newPop custom p ∧ x.key = .Popularimeter) ∨
    (∃ l, f = .leaf {} (.keyValue ⟨.valid (str "TIPL"), .utf8, l⟩) ∧ x.key ∈ tiplMap.map fun e => e.1) ∨
    (∃ e, f = newComment e ∧ x.key = .Comment) ∨ (∃ e, f = newLyrics e ∧ x.key = .UnsyncLyrics) := by
  cases h with
  | text j v h => exact .inl ⟨j, v, h, rfl, text_keys h hx⟩
  | user j v h =>
    rw [split_user h] at hx
    exact .inr (.inl ⟨j, v, h, rfl, values_key hx⟩)
  | url j v h =>
    rw [split_url h, List.mem_singleton] at hx
    subst hx
    exact .inr (.inr (.inl ⟨j, v, h, rfl, rfl⟩))
  | time j t h =>
    rw [split_time h] at hx
    split at hx
    · rw [List.mem_singleton] at hx
      subst hx
      exact .inr (.inr (.inr (.inl ⟨j, t, h, rfl, rfl⟩)))
    · cases hx
  | ufid d =>
    unfold splitFrame at hx
    simp only at hx
    rw [if_neg (by simp)] at hx
    simp only [List.mem_singleton] at hx
    subst hx
    exact .inr (.inr (.inr (.inr (.inl ⟨d, rfl, rfl⟩))))
  | pop p =>
    refine .inr (.inr (.inr (.inr (.inr (.inl ⟨p, rfl, ?_⟩)))))
    unfold newPop splitFrame at hx
    simp only at hx
    split at hx
    · simp only [List.mem_singleton] at hx
      subst hx
      rfl
    · cases hx
  | tipl l h =>
    refine .inr (.inr (.inr (.inr (.inr (.inr (.inl ⟨l, rfl, ?_⟩))))))
    unfold splitFrame at hx
    simp only [FrameId.asStr, if_true] at hx
    obtain ⟨p, _, hp⟩ := List.mem_filterMap.mp hx
    obtain ⟨e, he, rfl⟩ := mem_optMap hp
    exact List.mem_map.mpr ⟨e, List.mem_of_find?_eq_some he, rfl⟩
  | comment e => exact .inr (.inr (.inr (.inr (.inr (.inr (.inr (.inl ⟨e, rfl, langValues_key hx⟩)))))))
  | lyrics e => exact .inr (.inr (.inr (.inr (.inr (.inr (.inr (.inr ⟨e, rfl, langValues_key hx⟩)))))))

end Lofty.Convert
