import Verif.Lemmas.ConvertId3v2
/-!
# Lemmas about ID3v2 frames made of a generic tag and read again
-/
namespace Lofty.Convert
open Lofty.Item
open Lofty.Id3v2 (Frame Content FrameId sameFrame)

/-- The items of some frames. -/
def itemsOf (custom : Rating.Provider) (l : List Frame) : List TagItem := l.flatMap fun f => (splitFrame custom f).items

theorem itemsOf_append (custom : Rating.Provider) (a b : List Frame) : itemsOf custom (a ++ b) = itemsOf custom a ++ itemsOf custom b := by
  simp [itemsOf]

/-! ## Merging into nothing -/

/-- The frames with the id `TIPL`. -/
def isTipl (f : Frame) : Bool := f.id.asStr = str "TIPL"

theorem takeFirst_none {p : Frame → Bool} {l : List Frame} (h : ∀ f ∈ l, p f = false) : Id3v2.takeFirst p l = (none, l) := by
  induction l with
  | nil => rfl
  | cons f l ih =>
    unfold Id3v2.takeFirst
    rw [if_neg (by rw [h f (by simp)]; simp), ih fun g hg => h g (by simp [hg])]

theorem takeFirst_skip {p : Frame → Bool} {a b : List Frame} (h : ∀ f ∈ a, p f = false) :
    Id3v2.takeFirst p (a ++ b) = ((Id3v2.takeFirst p b).1, a ++ (Id3v2.takeFirst p b).2) := by
  induction a with
  | nil => rfl
  | cons f a ih =>
    rw [List.cons_append]
    conv => lhs; unfold Id3v2.takeFirst
    rw [if_neg (by rw [h f (by simp)]; simp), ih fun g hg => h g (by simp [hg])]
    rfl

theorem mergeFrames_once (fs : List Frame) : ∀ l, ((l ++ fs).filter isTipl).length ≤ 1 → mergeFrames l fs = .ok (l ++ fs) := by
  induction fs with
  | nil => intro l _; simp [mergeFrames]
  | cons f fs ih =>
    intro l h
    unfold mergeFrames
    have hf : mergeFrame l f = .ok (l ++ [f]) := by
      unfold mergeFrame
      by_cases ht : f.id.asStr = str "TIPL"
      · rw [if_pos ht]
        have hn : ∀ g ∈ l, isTipl g = false := by
          intro g hg
          cases hb : isTipl g with
          | false => rfl
          | true =>
            have h1 : (l.filter isTipl).length ≥ 1 := by
              have : g ∈ l.filter isTipl := List.mem_filter.mpr ⟨hg, hb⟩
              exact List.length_pos_of_mem this
            have h2 : ((f :: fs).filter isTipl).length ≥ 1 := by
              rw [List.filter_cons_of_pos (by simpa [isTipl] using ht)]; simp
            rw [List.filter_append, List.length_append] at h
            omega
        unfold Id3v2.takeFirstId
        rw [takeFirst_none (fun g hg => by
          have := hn g hg
          simp only [isTipl, decide_eq_false_iff_not] at this ⊢
          intro he
          rw [he] at this
          exact this rfl)]
      · rw [if_neg ht]
    rw [hf]
    show mergeFrames (l ++ [f]) fs = _
    rw [ih _ (by simpa using h)]
    simp

/-- No frame made of an item is a picture. -/
theorem made_no_picture {custom : Rating.Provider} {f : Frame} (h : MadeFrame custom f) (p : Picture.Pic) :
    sameFrame f (newPicture p) = false := by
  cases h <;> rfl

theorem same_picture (a b : Picture.Pic) : sameFrame (newPicture a) (newPicture b) = decide (a = b) := by
  show ((({} : Id3v2.FrameFlags) = {} : Bool) && (Content.picture ⟨.utf8, a⟩ = Content.picture ⟨.utf8, b⟩ : Bool)) = _
  simp

/-- Of several equal pictures the last stays. -/
def lastOnly : List Picture.Pic → List Picture.Pic
  | [] => []
  | p :: ps => if p ∈ ps then lastOnly ps else p :: lastOnly ps

theorem lastOnly_mem (l : List Picture.Pic) (p : Picture.Pic) : p ∈ lastOnly l ↔ p ∈ l := by
  induction l with
  | nil => simp [lastOnly]
  | cons q l ih =>
    unfold lastOnly
    split
    · rename_i h
      rw [ih, List.mem_cons]
      constructor
      · exact .inr
      · rintro (rfl | h')
        · exact h
        · exact h'
    · rw [List.mem_cons, List.mem_cons, ih]

theorem lastOnly_nodup (l : List Picture.Pic) : (lastOnly l).Nodup := by
  induction l with
  | nil => simp [lastOnly]
  | cons q l ih =>
    unfold lastOnly
    split
    · exact ih
    · rename_i h
      rw [List.nodup_cons, lastOnly_mem]
      exact ⟨h, ih⟩

theorem lastOnly_snoc (l : List Picture.Pic) (p : Picture.Pic) : lastOnly (l ++ [p]) = (lastOnly l).filter (· ≠ p) ++ [p] := by
  induction l with
  | nil => simp [lastOnly]
  | cons q l ih =>
    rw [List.cons_append]
    unfold lastOnly
    by_cases h : q ∈ l
    · rw [if_pos h, if_pos (by simp [h]), ih]
    · rw [if_neg h]
      by_cases hq : q = p
      · rw [if_pos (by simp [hq]), List.filter_cons_of_neg (by simp [hq]), ih]
      · rw [if_neg (by simp [h, hq]), List.filter_cons_of_pos (by simpa using hq), ih]; rfl

theorem takeFirst_picture {qs : List Picture.Pic} (hq : qs.Nodup) (p : Picture.Pic) :
    (Id3v2.takeFirst (fun g => sameFrame g (newPicture p)) (qs.map newPicture)).2 = (qs.filter (· ≠ p)).map newPicture := by
  induction qs with
  | nil => rfl
  | cons q qs ih =>
    rw [List.nodup_cons] at hq
    rw [List.map_cons]
    unfold Id3v2.takeFirst
    rw [same_picture]
    by_cases h : q = p
    · subst h
      rw [if_pos (by simp), List.filter_cons_of_neg (by simp)]
      congr 1
      rw [List.filter_eq_self.mpr]
      intro x hx
      simp only [ne_eq, decide_not, Bool.not_eq_eq_eq_not, Bool.not_true, decide_eq_false_iff_not]
      intro e
      exact hq.1 (e ▸ hx)
    · rw [if_neg (by simpa using h), List.filter_cons_of_pos (by simpa using h), List.map_cons, ih hq.2]

theorem insert_pictures {fs : List Frame} (hf : ∀ f ∈ fs, ∀ p, sameFrame f (newPicture p) = false) (ps : List Picture.Pic) :
    ps.foldl (fun l p => (Id3v2.insert l (newPicture p)).2) fs = fs ++ (lastOnly ps).map newPicture := by
  have key : ∀ r : List Picture.Pic, r.reverse.foldl (fun l p => (Id3v2.insert l (newPicture p)).2) fs = fs ++ (lastOnly r.reverse).map newPicture := by
    intro r
    induction r with
    | nil => simp [lastOnly]
    | cons p r ih =>
      rw [List.reverse_cons, List.foldl_append, ih, lastOnly_snoc]
      show (Id3v2.insert _ (newPicture p)).2 = _
      unfold Id3v2.insert
      rw [if_neg (by show ¬ (Id3v2.onePerTag.contains (str "APIC") = true); decide)]
      simp only
      rw [takeFirst_skip fun f h => hf f h p, takeFirst_picture (lastOnly_nodup _)]
      simp [List.append_assoc]
  have := key ps.reverse
  rwa [List.reverse_reverse] at this

/-! ## The frames of a kind -/

/-- A class of frames that only `k` is read from. -/
theorem items_class {custom : Rating.Provider} {owned : Bool} {items : List TagItem} {fs : List Frame} {p : Frame → Bool}
    {k : ItemKey} (hfs : fs.Perm (fromTag custom owned items))
    (hk : ∀ f, MadeFrame custom f → p f = false → ∀ x ∈ (splitFrame custom f).items, x.key ≠ k) :
    (itemsOf custom fs).filter (fun x => x.key = k) = (itemsOf custom (fs.filter p)).filter (fun x => x.key = k) := by
  have hmade : ∀ f ∈ fs, MadeFrame custom f := fun f hf => made_all (mem_set (hfs.mem_iff.mp hf))
  clear hfs
  induction fs with
  | nil => rfl
  | cons f fs ih =>
    have hih := ih fun g hg => hmade g (by simp [hg])
    have e : f :: fs = [f] ++ fs := rfl
    rw [e, itemsOf_append, List.filter_append, hih, List.filter_append, itemsOf_append, List.filter_append]
    cases hp : p f with
    | true => rw [List.filter_cons_of_pos hp]; rfl
    | false =>
      rw [List.filter_cons_of_neg (p := p) (by rw [hp]; simp), List.filter_nil (p := p)]
      congr 1
      show List.filter _ (itemsOf custom [f]) = []
      rw [List.filter_eq_nil_iff]
      intro x hx
      simp only [itemsOf, List.flatMap_cons, List.flatMap_nil, List.append_nil] at hx
      simpa using hk f (hmade f (by simp)) hp x hx

/-- The frames of a class whose frames are all equal: the first. -/
theorem class_take {custom : Rating.Provider} {owned : Bool} {items : List TagItem} {fs : List Frame} {p : Frame → Bool}
    (hfs : fs.Perm (fromTag custom owned items)) (hp : ∀ a b, sameFrame a b = true → p a = p b)
    (hs : ∀ a b, p a = true → p b = true → sameFrame a b = true) :
    fs.filter p = ((allFrames custom owned items).filter p).take 1 := by
  have h1 : (fs.filter p).Perm ((fromTag custom owned items).filter p) := hfs.filter p
  unfold fromTag at h1
  rw [set_filter hp, set_same fun a ha b hb => hs a b (List.mem_filter.mp ha).2 (List.mem_filter.mp hb).2] at h1
  generalize ((allFrames custom owned items).filter p) = l at h1
  cases l with
  | nil => exact List.Perm.eq_nil h1
  | cons x l => exact List.perm_singleton.mp h1

/-- Text frames with a name. -/
def isText (n : Str) : Frame → Bool
  | .leaf _ (.text t) => t.id = .valid n
  | _ => false

/-- User text frames with a name. -/
def isUser (n : Str) : Frame → Bool
  | .leaf _ (.userText u) => u.desc = n
  | _ => false

/-- Links with a name. -/
def isUrl (n : Str) : Frame → Bool
  | .leaf _ (.url u) => u.id = .valid n
  | _ => false

/-- Frames with an owner. -/
def isUfid : Frame → Bool
  | .leaf _ (.ufid u) => u.owner = musicbrainz
  | _ => false

/-- What equal frames share. -/
theorem same_leaf {a b : Frame} (h : sameFrame a b = true) :
    (∃ fa fb x y, a = .leaf fa (.text x) ∧ b = .leaf fb (.text y) ∧ x.id = y.id) ∨
    (∃ fa fb x y, a = .leaf fa (.userText x) ∧ b = .leaf fb (.userText y) ∧ x.desc = y.desc) ∨
    (∃ fa fb x y, a = .leaf fa (.url x) ∧ b = .leaf fb (.url y) ∧ x.id = y.id) ∨
    (∃ fa fb x y, a = .leaf fa (.ufid x) ∧ b = .leaf fb (.ufid y) ∧ x.owner = y.owner) ∨
    ((∀ n, isText n a = false ∧ isUser n a = false ∧ isUrl n a = false) ∧ isUfid a = false ∧
      (∀ n, isText n b = false ∧ isUser n b = false ∧ isUrl n b = false) ∧ isUfid b = false) := by
  cases a with
  | chapter => cases b <;> first | (simp [sameFrame] at h; done) | exact .inr (.inr (.inr (.inr ⟨fun _ => ⟨rfl, rfl, rfl⟩, rfl, fun _ => ⟨rfl, rfl, rfl⟩, rfl⟩)))
  | toc => cases b <;> first | (simp [sameFrame] at h; done) | exact .inr (.inr (.inr (.inr ⟨fun _ => ⟨rfl, rfl, rfl⟩, rfl, fun _ => ⟨rfl, rfl, rfl⟩, rfl⟩)))
  | leaf fa x =>
    cases b with
    | chapter => simp [sameFrame] at h
    | toc => simp [sameFrame] at h
    | leaf fb y =>
      cases x <;> cases y <;>
        first
        | (simp [sameFrame, Id3v2.sameContent] at h; done)
        | exact .inl ⟨_, _, _, _, rfl, rfl, by simpa [sameFrame, Id3v2.sameContent] using h⟩
        | exact .inr (.inl ⟨_, _, _, _, rfl, rfl, by simpa [sameFrame, Id3v2.sameContent] using h⟩)
        | exact .inr (.inr (.inl ⟨_, _, _, _, rfl, rfl, by simpa [sameFrame, Id3v2.sameContent] using h⟩))
        | exact .inr (.inr (.inr (.inl ⟨_, _, _, _, rfl, rfl, by simpa [sameFrame, Id3v2.sameContent] using h⟩)))
        | exact .inr (.inr (.inr (.inr ⟨fun _ => ⟨rfl, rfl, rfl⟩, rfl, fun _ => ⟨rfl, rfl, rfl⟩, rfl⟩)))

theorem isText_same (n : Str) (a b : Frame) (h : sameFrame a b = true) : isText n a = isText n b := by
  rcases same_leaf h with ⟨_, _, _, _, rfl, rfl, e⟩ | ⟨_, _, _, _, rfl, rfl, e⟩ | ⟨_, _, _, _, rfl, rfl, e⟩ |
    ⟨_, _, _, _, rfl, rfl, e⟩ | ⟨h1, _, h3, _⟩
  · simp [isText, e]
  · rfl
  · rfl
  · rfl
  · rw [(h1 n).1, (h3 n).1]

theorem isUser_same (n : Str) (a b : Frame) (h : sameFrame a b = true) : isUser n a = isUser n b := by
  rcases same_leaf h with ⟨_, _, _, _, rfl, rfl, e⟩ | ⟨_, _, _, _, rfl, rfl, e⟩ | ⟨_, _, _, _, rfl, rfl, e⟩ |
    ⟨_, _, _, _, rfl, rfl, e⟩ | ⟨h1, _, h3, _⟩
  · rfl
  · simp [isUser, e]
  · rfl
  · rfl
  · rw [(h1 n).2.1, (h3 n).2.1]

theorem isUrl_same (n : Str) (a b : Frame) (h : sameFrame a b = true) : isUrl n a = isUrl n b := by
  rcases same_leaf h with ⟨_, _, _, _, rfl, rfl, e⟩ | ⟨_, _, _, _, rfl, rfl, e⟩ | ⟨_, _, _, _, rfl, rfl, e⟩ |
    ⟨_, _, _, _, rfl, rfl, e⟩ | ⟨h1, _, h3, _⟩
  · rfl
  · rfl
  · simp [isUrl, e]
  · rfl
  · rw [(h1 n).2.2, (h3 n).2.2]

theorem isUfid_same (a b : Frame) (h : sameFrame a b = true) : isUfid a = isUfid b := by
  rcases same_leaf h with ⟨_, _, _, _, rfl, rfl, e⟩ | ⟨_, _, _, _, rfl, rfl, e⟩ | ⟨_, _, _, _, rfl, rfl, e⟩ |
    ⟨_, _, _, _, rfl, rfl, e⟩ | ⟨_, h2, _, h4⟩
  · rfl
  · rfl
  · rfl
  · simp [isUfid, e]
  · rw [h2, h4]

theorem same_isText {n : Str} {a b : Frame} (ha : isText n a = true) (hb : isText n b = true) : sameFrame a b = true := by
  unfold isText at ha hb
  split at ha
  · split at hb
    · simp only [decide_eq_true_eq] at ha hb
      simp [sameFrame, Id3v2.sameContent, ha, hb]
    · cases hb
  · cases ha

theorem same_isUser {n : Str} {a b : Frame} (ha : isUser n a = true) (hb : isUser n b = true) : sameFrame a b = true := by
  unfold isUser at ha hb
  split at ha
  · split at hb
    · simp only [decide_eq_true_eq] at ha hb
      simp [sameFrame, Id3v2.sameContent, ha, hb]
    · cases hb
  · cases ha

theorem same_isUrl {n : Str} {a b : Frame} (ha : isUrl n a = true) (hb : isUrl n b = true) : sameFrame a b = true := by
  unfold isUrl at ha hb
  split at ha
  · split at hb
    · simp only [decide_eq_true_eq] at ha hb
      simp [sameFrame, Id3v2.sameContent, ha, hb]
    · cases hb
  · cases ha

theorem same_isUfid {a b : Frame} (ha : isUfid a = true) (hb : isUfid b = true) : sameFrame a b = true := by
  unfold isUfid at ha hb
  split at ha
  · split at hb
    · simp only [decide_eq_true_eq] at ha hb
      simp [sameFrame, Id3v2.sameContent, ha, hb]
    · cases hb
  · cases ha

/-! ## The frames of a kind, of all frames -/

/-- Texts as items of a key. -/
def asItems (k : ItemKey) (l : List Str) : List TagItem := l.map fun s => TagItem.new k (.text s)

theorem asItems_filter (k : ItemKey) (l : List Str) : (asItems k l).filter (fun x => x.key = k) = asItems k l := by
  rw [List.filter_eq_self]
  intro x hx
  obtain ⟨s, _, rfl⟩ := List.mem_map.mp hx
  simp [TagItem.new]

/-- The frames of a kind that single items make. -/
theorem own_filter {custom : Rating.Provider} {owned : Bool} {items : List TagItem} {p : Frame → Bool} {q : TagItem → Bool}
    {g : TagItem → Option Frame} (h : ∀ i f, ownOf custom owned i = some f → p f = true → q i = true)
    (hg : ∀ i, q i = true → (ownOf custom owned i).filter p = g i) :
    (ownFrames custom owned items).filter p = (items.filter q).filterMap g := by
  unfold ownFrames
  rw [List.filter_filterMap]
  induction items with
  | nil => rfl
  | cons i items ih =>
    by_cases hq : q i = true
    · rw [List.filter_cons_of_pos hq]
      cases hf : g i with
      | none => rw [List.filterMap_cons_none (by rw [hg i hq, hf]), List.filterMap_cons_none hf, ih]
      | some f => rw [List.filterMap_cons_some (by rw [hg i hq, hf]), List.filterMap_cons_some hf, ih]
    · rw [List.filter_cons_of_neg hq, List.filterMap_cons_none, ih]
      cases ho : ownOf custom owned i with
      | none => rfl
      | some f =>
        rw [Option.filter_some, if_neg]
        intro hp
        exact hq (h i f ho hp)

theorem filter_map_none {α : Type} {g : α → Frame} {p : Frame → Bool} (h : ∀ a, p (g a) = false) (l : List α) :
    (l.map g).filter p = [] := by
  rw [List.filter_eq_nil_iff]
  intro x hx
  obtain ⟨a, _, rfl⟩ := List.mem_map.mp hx
  rw [h a]; simp

theorem texts_filter (owned : Bool) (items : List TagItem) (n : Str) :
    ((ctxOf owned items).texts.map fun e => newText e.1 e.2).filter (isText n) =
      (joined (((items.filterMap (textOp owned)).filter fun e => e.1 = n).map fun e => e.2)).toList.map (newText n) := by
  rw [ctx_texts, List.filter_map]
  have h1 : (isText n ∘ fun e : Str × Str => newText e.1 e.2) = fun e => decide (e.1 = n) := by
    funext e
    simp [isText, newText]
  rw [h1, filter_valueAt (ops_nodup (fun e : Str × Str => extendText e.2) (fun e => e.1) (fun e => e.2) _ _ (by simp)), valueAt_ops,
    List.map_map]
  rfl

/-- The text frames of a name, of all frames. -/
theorem all_text (custom : Rating.Provider) (owned : Bool) (items : List TagItem) (n : Str) (h1 : n ≠ str "TRCK")
    (h2 : n ≠ str "TPOS") : (allFrames custom owned items).filter (isText n) =
      (ownFrames custom owned items).filter (isText n) ++
      (joined (((items.filterMap (textOp owned)).filter fun e => e.1 = n).map fun e => e.2)).toList.map (newText n) := by
  rw [allFrames_eq]
  simp only [List.filter_append]
  have e1 : (if (ctxOf owned items).tipl.isEmpty then []
      else [Frame.leaf {} (.keyValue ⟨.valid (str "TIPL"), .utf8, (ctxOf owned items).tipl⟩)]).filter (isText n) = [] := by
    split <;> rfl
  have e2 : ∀ (m : Str) (a b : Option Nat), m ≠ n → ((numberFrame m a b).toList).filter (isText n) = [] := by
    intro m a b hm
    unfold numberFrame
    cases formatPair (a.map toDec) (b.map toDec) with
    | none => rfl
    | some v =>
      show List.filter _ [newText m v] = []
      rw [List.filter_cons_of_neg (by simp [isText, newText, hm])]; rfl
  rw [e1, texts_filter, filter_map_none (fun _ => rfl), filter_map_none (fun _ => rfl), filter_map_none (fun _ => rfl),
    e2 _ _ _ (Ne.symm h1), e2 _ _ _ (Ne.symm h2)]
  simp

/-- User text frames. -/
theorem users_filter (owned : Bool) (items : List TagItem) (n : Str) :
    ((ctxOf owned items).users.map fun e => newUserText e.1 e.2).filter (isUser n) =
      (valueAt n (ctxOf owned items).users).toList.map (newUserText n) := by
  rw [List.filter_map]
  have h1 : (isUser n ∘ fun e : Str × Str => newUserText e.1 e.2) = fun e => decide (e.1 = n) := by
    funext e
    simp [isUser, newUserText]
  rw [h1, ctx_users, filter_valueAt (ops_nodup (fun e : Bool × Str × Str => if e.1 then extendText e.2.2 else fun _ => e.2.2)
    (fun e => e.2.1) (fun e => e.2.2) _ _ (by simp)), List.map_map]
  rfl

theorem all_user (custom : Rating.Provider) (owned : Bool) (items : List TagItem) (n : Str) :
    (allFrames custom owned items).filter (isUser n) =
      (ownFrames custom owned items).filter (isUser n) ++ (valueAt n (ctxOf owned items).users).toList.map (newUserText n) := by
  rw [allFrames_eq]
  simp only [List.filter_append]
  have e1 : (if (ctxOf owned items).tipl.isEmpty then []
      else [Frame.leaf {} (.keyValue ⟨.valid (str "TIPL"), .utf8, (ctxOf owned items).tipl⟩)]).filter (isUser n) = [] := by
    split <;> rfl
  have e2 : ∀ (m : Str) (a b : Option Nat), ((numberFrame m a b).toList).filter (isUser n) = [] := by
    intro m a b
    unfold numberFrame
    cases formatPair (a.map toDec) (b.map toDec) <;> rfl
  rw [e1, users_filter, filter_map_none (fun _ => rfl), filter_map_none (fun _ => rfl), filter_map_none (fun _ => rfl), e2, e2]
  simp

/-- Frames that only single items make. -/
theorem all_own (custom : Rating.Provider) (owned : Bool) (items : List TagItem) (p : Frame → Bool)
    (h : ∀ (n v : Str), p (newText n v) = false ∧ p (newUserText n v) = false) (ht : ∀ kv, p (.leaf {} (.keyValue kv)) = false)
    (hc : ∀ e, p (newComment e) = false ∧ p (newLyrics e) = false) :
    (allFrames custom owned items).filter p = (ownFrames custom owned items).filter p := by
  rw [allFrames_eq]
  simp only [List.filter_append]
  have e1 : (if (ctxOf owned items).tipl.isEmpty then []
      else [Frame.leaf {} (.keyValue ⟨.valid (str "TIPL"), .utf8, (ctxOf owned items).tipl⟩)]).filter p = [] := by
    split
    · rfl
    · rw [List.filter_cons_of_neg (by rw [ht]; simp)]; rfl
  have e2 : ∀ (m : Str) (a b : Option Nat), ((numberFrame m a b).toList).filter p = [] := by
    intro m a b
    unfold numberFrame
    cases formatPair (a.map toDec) (b.map toDec) with
    | none => rfl
    | some v =>
      show List.filter _ [newText m v] = []
      rw [List.filter_cons_of_neg (by rw [(h m v).1]; simp)]; rfl
  rw [e1, filter_map_none (fun e : Str × Str => (h e.1 e.2).1), filter_map_none (fun e : Str × Str => (h e.1 e.2).2), filter_map_none (fun e => (hc e).1),
    filter_map_none (fun e => (hc e).2), e2, e2]
  simp

/-! ## Names -/

theorem id3v2_name {j : ItemKey} {n : Str} (h : mapKey .id3v2 j = some n) : mapKey .id3v2 (readAs .id3v2 j) = some n := by
  have : ∀ k ∈ ItemKey.all, (mapKey .id3v2 k).isSome = true →
      mapKey .id3v2 (readAs .id3v2 k) = mapKey .id3v2 k ∨ k = .TrackNumber ∨ k = .DiscNumber ∨ k = .MovementNumber := by decide +kernel
  rcases this j j.mem_all (by rw [h]; rfl) with h' | h' | h' | h'
  · rw [h', h]
  · subst h'; rw [← h]; decide +kernel
  · subst h'; rw [← h]; decide +kernel
  · subst h'; rw [← h]; decide +kernel

/-- Two keys have the same name exactly if they are read as the same key. -/
theorem name_eq_iff {j k : ItemKey} (hj : j ∈ textKeys ++ userKeys ++ urlKeys) (hk : k ∈ textKeys ++ userKeys ++ urlKeys) :
    nameOf j = nameOf k ↔ readAs .id3v2 j = readAs .id3v2 k := by
  constructor
  · intro h
    have h1 := fromKey_nameOf hj
    rw [h, fromKey_nameOf hk] at h1
    exact (Option.some.inj h1).symm
  · intro h
    have h1 := id3v2_name (mapKey_nameOf hj)
    rw [h, id3v2_name (mapKey_nameOf hk)] at h1
    exact (Option.some.inj h1).symm

/-! ## What is read from where -/

/-- The keys of plain texts: not numbers, not dates. -/
def plainText : List ItemKey := multiText ++ flagKeys ++ otherText

theorem plainText_sub {k : ItemKey} (h : k ∈ plainText) : k ∈ textKeys ++ userKeys ++ urlKeys := by
  have : ∀ k ∈ plainText, k ∈ textKeys ++ userKeys ++ urlKeys := by decide
  exact this k h

theorem from_text {custom : Rating.Provider} {k : ItemKey} (hk : k ∈ plainText) {f : Frame} (hm : MadeFrame custom f)
    (hf : isText (nameOf k) f = false) : ∀ x ∈ (splitFrame custom f).items, x.key ≠ k := by
  intro x hx he
  have hall : ∀ k ∈ plainText, k ∉ userKeys ∧ k ∉ urlKeys ∧ k ∉ dateKeys ∧ k ≠ .MusicBrainzRecordingId ∧ k ≠ .Popularimeter ∧
      k ∉ tiplMap.map (fun e => e.1) ∧ k ≠ .Comment ∧ k ≠ .UnsyncLyrics ∧ k ∉ [ItemKey.TrackNumber, .TrackTotal] ∧
      k ∉ [ItemKey.DiscNumber, .DiscTotal] := by decide
  obtain ⟨a1, a2, a3, a4, a5, a6, a7, a8, a9, a10⟩ := hall k hk
  rcases made_keys hm hx with ⟨j, v, hj, rfl, hy⟩ | ⟨j, v, hj, _, hy⟩ | ⟨j, v, hj, _, hy⟩ | ⟨j, v, hj, _, hy⟩ | ⟨_, _, hy⟩ |
    ⟨_, _, hy⟩ | ⟨_, _, hy⟩ | ⟨_, _, hy⟩ | ⟨_, _, hy⟩
  · rw [he] at hy
    unfold yieldOf at hy
    split at hy
    · exact a9 hy
    · split at hy
      · exact a10 hy
      · rw [List.mem_singleton] at hy
        have hn : nameOf j = nameOf k := by
          have h1 := id3v2_name (mapKey_nameOf (j := j) (by simp [hj]))
          rw [← hy, mapKey_nameOf (plainText_sub hk)] at h1
          exact (Option.some.inj h1).symm
        simp [isText, newText, hn] at hf
  · exact a1 (by rw [← he, hy]; exact hj)
  · exact a2 (by rw [← he, hy]; exact hj)
  · exact a3 (by rw [← he, hy]; exact hj)
  · exact a4 (he.symm.trans hy)
  · exact a5 (he.symm.trans hy)
  · exact a6 (by rw [← he]; exact hy)
  · exact a7 (he.symm.trans hy)
  · exact a8 (he.symm.trans hy)

theorem from_user {custom : Rating.Provider} {k : ItemKey} (hk : k ∈ userKeys) {f : Frame} (hm : MadeFrame custom f)
    (hf : isUser (nameOf k) f = false) : ∀ x ∈ (splitFrame custom f).items, x.key ≠ k := by
  intro x hx he
  have hall : ∀ k ∈ userKeys, k ∉ textKeys.flatMap yieldOf ∧ k ∉ urlKeys ∧ k ∉ dateKeys ∧ k ≠ .MusicBrainzRecordingId ∧
      k ≠ .Popularimeter ∧ k ∉ tiplMap.map (fun e => e.1) ∧ k ≠ .Comment ∧ k ≠ .UnsyncLyrics := by decide +kernel
  obtain ⟨a1, a2, a3, a4, a5, a6, a7, a8⟩ := hall k hk
  rcases made_keys hm hx with ⟨j, v, hj, rfl, hy⟩ | ⟨j, v, hj, rfl, hy⟩ | ⟨j, v, hj, _, hy⟩ | ⟨j, v, hj, _, hy⟩ | ⟨_, _, hy⟩ |
    ⟨_, _, hy⟩ | ⟨_, _, hy⟩ | ⟨_, _, hy⟩ | ⟨_, _, hy⟩
  · exact a1 (List.mem_flatMap.mpr ⟨j, hj, he ▸ hy⟩)
  · have : j = k := hy.symm.trans he
    subst this
    simp [isUser, newUserText] at hf
  · exact a2 (by rw [← he, hy]; exact hj)
  · exact a3 (by rw [← he, hy]; exact hj)
  · exact a4 (he.symm.trans hy)
  · exact a5 (he.symm.trans hy)
  · exact a6 (by rw [← he]; exact hy)
  · exact a7 (he.symm.trans hy)
  · exact a8 (he.symm.trans hy)

theorem from_url {custom : Rating.Provider} {k : ItemKey} (hk : k ∈ urlKeys) {f : Frame} (hm : MadeFrame custom f)
    (hf : isUrl (nameOf k) f = false) : ∀ x ∈ (splitFrame custom f).items, x.key ≠ k := by
  intro x hx he
  have hall : ∀ k ∈ urlKeys, k ∉ textKeys.flatMap yieldOf ∧ k ∉ userKeys ∧ k ∉ dateKeys ∧ k ≠ .MusicBrainzRecordingId ∧
      k ≠ .Popularimeter ∧ k ∉ tiplMap.map (fun e => e.1) ∧ k ≠ .Comment ∧ k ≠ .UnsyncLyrics := by decide +kernel
  obtain ⟨a1, a2, a3, a4, a5, a6, a7, a8⟩ := hall k hk
  rcases made_keys hm hx with ⟨j, v, hj, rfl, hy⟩ | ⟨j, v, hj, rfl, hy⟩ | ⟨j, v, hj, rfl, hy⟩ | ⟨j, v, hj, _, hy⟩ | ⟨_, _, hy⟩ |
    ⟨_, _, hy⟩ | ⟨_, _, hy⟩ | ⟨_, _, hy⟩ | ⟨_, _, hy⟩
  · exact a1 (List.mem_flatMap.mpr ⟨j, hj, he ▸ hy⟩)
  · exact a2 (by rw [← he, hy]; exact hj)
  · have : j = k := hy.symm.trans he
    subst this
    simp [isUrl, newUrl] at hf
  · exact a3 (by rw [← he, hy]; exact hj)
  · exact a4 (he.symm.trans hy)
  · exact a5 (he.symm.trans hy)
  · exact a6 (by rw [← he]; exact hy)
  · exact a7 (he.symm.trans hy)
  · exact a8 (he.symm.trans hy)

/-! ## The frames of single items -/

/-- What an item makes by itself. -/
theorem own_other (custom : Rating.Provider) (owned : Bool) {i : TagItem} (hs : specialFrame.contains i.key = false)
    (hc : collected i.key = false) : ownOf custom owned i =
      if otherText.contains i.key then (itemText owned i).map (newText (nameOf i.key))
      else if urlKeys.contains i.key then (itemText owned i).map (newUrl (nameOf i.key)) else none := by
  unfold ownOf
  rw [hc, if_neg (by simp)]
  have ho : ownFrame custom owned i = otherFrame owned i := by
    unfold ownFrame
    split
    all_goals first | rfl | (rename_i hk; rw [hk] at hs; exact absurd hs (by decide))
  rw [ho, otherFrame_eq hc hs]

theorem special_not_collected {k : ItemKey} (hs : k ∈ specialFrame) : collected k = false := by
  have : ∀ k ∈ specialFrame, collected k = false := by decide
  exact this _ hs

theorem own_flag (custom : Rating.Provider) (owned : Bool) {i : TagItem} (h : i.key ∈ flagKeys) :
    ownOf custom owned i = (i.value.textOf.bind flagItem).map fun f => newText (nameOf i.key) (flagText f) := by
  unfold ownOf
  rw [special_not_collected (by simp [specialFrame, h]), if_neg (by simp)]
  have hn := mapKey_nameOf (j := i.key) (by simp [textKeys, h])
  have : ownFrame custom owned i = (i.value.textOf.bind flagItem).bind fun f => (mapKey .id3v2 i.key).map fun id => newText id (flagText f) := by
    unfold ownFrame
    have : i.key = .FlagCompilation ∨ i.key = .FlagPodcast := by simpa [flagKeys] using h
    rcases this with h | h <;> rw [h]
  rw [this, hn]
  cases i.value.textOf.bind flagItem <;> rfl

theorem own_date (custom : Rating.Provider) (owned : Bool) {i : TagItem} (h : i.key ∈ dateKeys) :
    ownOf custom owned i = (itemText owned i).map (dateFrame (nameOf i.key)) := by
  unfold ownOf
  rw [special_not_collected (by simp [specialFrame, h]), if_neg (by simp)]
  have hn := mapKey_nameOf (j := i.key) (by simp [textKeys, h])
  have : ownFrame custom owned i = (itemText owned i).bind fun s => (mapKey .id3v2 i.key).map fun id => dateFrame id s := by
    unfold ownFrame
    have : i.key = .RecordingDate ∨ i.key = .OriginalReleaseDate := by simpa [dateKeys] using h
    rcases this with h | h <;> rw [h]
  rw [this, hn]
  cases itemText owned i <;> rfl

/-- The advisory rating an item gives. -/
def advisoryOf (i : TagItem) : Option Nat := i.value.textOf.bind fun s => (parseUInt (2 ^ 8) s).bind Ilst.ratingOf

theorem own_advisory (custom : Rating.Provider) (owned : Bool) {i : TagItem} (h : i.key = .ParentalAdvisory) :
    ownOf custom owned i = (advisoryOf i).map fun r => newUserText (nameOf .ParentalAdvisory) (toDec r) := by
  have e : nameOf .ParentalAdvisory = str "ITUNESADVISORY" := by decide +kernel
  unfold ownOf
  rw [e, h, if_neg (by decide)]
  unfold ownFrame
  rw [h]
  rfl

/-- The recording id an item gives. -/
def recordingOf (owned : Bool) (i : TagItem) : Option Str :=
  (itemText owned i).bind fun s => if s.all fun c => c.toNat < 128 then some s else none

theorem own_recording (custom : Rating.Provider) (owned : Bool) {i : TagItem} (h : i.key = .MusicBrainzRecordingId) :
    ownOf custom owned i = (recordingOf owned i).map fun s => .leaf {} (.ufid ⟨musicbrainz, utf8 s⟩) := by
  unfold ownOf
  rw [h, if_neg (by decide)]
  unfold ownFrame recordingOf
  rw [h]
  simp only
  cases itemText owned i with
  | none => rfl
  | some s =>
    simp only [Option.bind_some]
    split <;> rfl

theorem own_pop (custom : Rating.Provider) (owned : Bool) {i : TagItem} (h : i.key = .Popularimeter) :
    ownOf custom owned i = ((itemText owned i).bind (Rating.fromStr custom)).map (newPop custom) := by
  unfold ownOf
  rw [h, if_neg (by decide)]
  unfold ownFrame
  rw [h]
  simp only
  cases itemText owned i <;> rfl

/-- The frames that single items make. -/
theorem own_made {custom : Rating.Provider} {owned : Bool} {i : TagItem} {f : Frame} (h : ownOf custom owned i = some f) :
    (i.key ∈ flagKeys ++ dateKeys ++ otherText ∧ ∃ v, f = newText (nameOf i.key) v) ∨
    (i.key ∈ dateKeys ∧ ∃ t, f = newTime (nameOf i.key) t) ∨ (i.key ∈ urlKeys ∧ ∃ v, f = newUrl (nameOf i.key) v) ∨
    (i.key = .ParentalAdvisory ∧ ∃ v, f = newUserText (nameOf i.key) v) ∨
    (i.key = .MusicBrainzRecordingId ∧ ∃ d, f = .leaf {} (.ufid ⟨musicbrainz, d⟩)) ∨
    (i.key = .Popularimeter ∧ ∃ p, f = newPop custom p) := by
  by_cases hs : specialFrame.contains i.key = true
  · have : ∀ k ∈ specialFrame, k ∈ flagKeys ∨ k ∈ dateKeys ∨ k = .ParentalAdvisory ∨ k = .MusicBrainzRecordingId ∨ k = .Popularimeter := by
      decide
    rcases this i.key (by simpa using hs) with hk | hk | hk | hk | hk
    · rw [own_flag custom owned hk] at h
      obtain ⟨v, _, rfl⟩ := mem_optMap h
      exact .inl ⟨by simp [hk], _, rfl⟩
    · rw [own_date custom owned hk] at h
      obtain ⟨v, _, rfl⟩ := mem_optMap h
      unfold dateFrame
      split
      · exact .inr (.inl ⟨hk, _, rfl⟩)
      · exact .inl ⟨by simp [hk], _, rfl⟩
    · rw [own_advisory custom owned hk] at h
      obtain ⟨v, _, rfl⟩ := mem_optMap h
      exact .inr (.inr (.inr (.inl ⟨hk, _, by rw [hk]⟩)))
    · rw [own_recording custom owned hk] at h
      obtain ⟨v, _, rfl⟩ := mem_optMap h
      exact .inr (.inr (.inr (.inr (.inl ⟨hk, _, rfl⟩))))
    · rw [own_pop custom owned hk] at h
      obtain ⟨v, _, rfl⟩ := mem_optMap h
      exact .inr (.inr (.inr (.inr (.inr ⟨hk, _, rfl⟩))))
  · by_cases hc : collected i.key = true
    · unfold ownOf at h
      rw [if_pos hc] at h
      cases h
    · rw [own_other custom owned (by simpa using hs) (by simpa using hc)] at h
      split at h
      · rename_i ho
        obtain ⟨v, _, rfl⟩ := mem_optMap h
        have : i.key ∈ otherText := by simpa using ho
        exact .inl ⟨by simp [this], _, rfl⟩
      · split at h
        · rename_i ho
          obtain ⟨v, _, rfl⟩ := mem_optMap h
          exact .inr (.inr (.inl ⟨by simpa using ho, _, rfl⟩))
        · cases h

theorem filter_all {o : Option Frame} {p : Frame → Bool} (h : ∀ f, o = some f → p f = true) : o.filter p = o := by
  cases o with
  | none => rfl
  | some f => rw [Option.filter_some, if_pos (h f rfl)]

end Lofty.Convert
