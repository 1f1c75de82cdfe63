import Verif.Lemmas.ConvertId3v2More
import Verif.Spec.ConvertId3v2Merge
/-!
# Frames held back by a split, and merging into them
-/
namespace Lofty.Convert
open Lofty.Item
open Lofty.Id3v2 (Frame Content FrameId sameFrame)

theorem keyed_cases (n : Str) (f : Frame) (g : ItemKey → List TagItem) :
    (Spec.known n = true ∧ ∃ k, fromKey .id3v2 n = some k ∧ keyed n f g = { items := g k }) ∨
      (Spec.known n = false ∧ keyed n f g = { kept := some f }) := by
  unfold keyed Spec.known
  cases h : fromKey .id3v2 n with
  | none => exact Or.inr ⟨rfl, rfl⟩
  | some k => exact Or.inl ⟨rfl, k, rfl, rfl⟩

theorem pair_known {n v : Str} {l : List TagItem} (h : pairItems n v = some l) : Spec.known n = true := by
  unfold pairItems at h
  cases hf : pairIds.find? fun e => e.1 = n with
  | none => rw [hf] at h; exact absurd h (by simp)
  | some e =>
    have h1 := List.mem_of_find?_eq_some hf
    have h2 := List.find?_some hf
    have : ∀ e ∈ pairIds, Spec.known e.1 = true := by decide +kernel
    have h3 := this e h1
    rwa [of_decide_eq_true h2] at h3

theorem tcon_known : Spec.known (str "TCON") = true := by decide +kernel

theorem role_known (r : Str) : (tiplMap.any fun e => e.2 = r) = Spec.knownRole r := by
  have h : Spec.knownRole r = (tiplMap.map fun e => e.2).contains r := rfl
  rw [h, Bool.eq_iff_iff, List.any_eq_true, List.contains_iff_mem, List.mem_map]
  constructor
  · rintro ⟨e, he, hr⟩; exact ⟨e, he, of_decide_eq_true hr⟩
  · rintro ⟨e, he, hr⟩; exact ⟨e, he, decide_eq_true hr⟩

/-- A frame without a generic view is held back as it is. -/
theorem split_unviewed {custom : Rating.Provider} {f : Frame} (hv : Spec.viewed custom f = false) (hp : Spec.isPeople f = false) :
    splitFrame custom f = { kept := some f } := by
  cases f with
  | chapter => rfl
  | toc => rfl
  | leaf fl c =>
    cases c with
    | text t =>
      have hk : Spec.known t.id.asStr = false := hv
      unfold splitFrame
      simp only
      cases hpi : pairItems t.id.asStr t.value with
      | some l => rw [pair_known hpi] at hk; cases hk
      | none =>
        simp only
        rw [if_neg (by intro e; rw [e, tcon_known] at hk; cases hk)]
        rcases keyed_cases t.id.asStr (.leaf fl (.text t)) (fun k => values k t.value) with ⟨h, _⟩ | ⟨_, h⟩
        · rw [h] at hk; cases hk
        · exact h
    | userText u =>
      have hk : (!u.desc.isEmpty && Spec.known u.desc) = false := hv
      unfold splitFrame
      simp only
      split
      · rfl
      · rename_i hd
        rcases keyed_cases u.desc (.leaf fl (.userText u)) (fun k => values k u.content) with ⟨h, _⟩ | ⟨_, h⟩
        · rw [h] at hk; simp at hk; rw [hk] at hd; exact absurd rfl hd
        · exact h
    | userUrl u =>
      have hk : (!u.desc.isEmpty && decide ((utf8 u.desc).length ≠ 4) && Spec.known u.desc) = false := hv
      unfold splitFrame
      simp only
      split
      · rfl
      · rename_i hd
        rcases keyed_cases u.desc (.leaf fl (.userUrl u)) (fun k => (Id3v2.splitOn '\x00' u.content).map fun c => TagItem.new k (.locator c))
          with ⟨h, _⟩ | ⟨_, h⟩
        · rw [h] at hk
          simp only [Bool.or_eq_true, decide_eq_true_eq, not_or] at hd
          rw [Bool.and_true, Bool.and_eq_false_iff] at hk
          rcases hk with hk | hk
          · rw [Bool.not_eq_false'] at hk; exact absurd hk hd.1
          · rw [decide_eq_false_iff_not] at hk; exact absurd hd.2 hk
        · exact h
    | url u =>
      have hk : Spec.known u.id.asStr = false := hv
      unfold splitFrame
      simp only
      rcases keyed_cases u.id.asStr (.leaf fl (.url u)) (fun k => [TagItem.new k (.locator u.url)]) with ⟨h, _⟩ | ⟨_, h⟩
      · rw [h] at hk; cases hk
      · exact h
    | time t =>
      have hk : (t.time.verify && Spec.known t.id.asStr) = false := hv
      unfold splitFrame
      simp only
      split
      · rename_i hd
        rw [hd, Bool.true_and] at hk
        rcases keyed_cases t.id.asStr (.leaf fl (.time t)) (fun k => [TagItem.new k (.text t.time.fmt)]) with ⟨h, _⟩ | ⟨_, h⟩
        · rw [h] at hk; cases hk
        · exact h
      · rfl
    | ufid o =>
      have hk : decide (o.owner = str "http://musicbrainz.org") = false := hv
      unfold splitFrame
      simp only
      exact if_pos (of_decide_eq_false hk)
    | pop p =>
      have hk : (Rating.kindOf custom p.email).isSome = false := hv
      unfold splitFrame Rating.mapped
      simp only
      cases hq : Rating.kindOf custom p.email with
      | none => rfl
      | some q => rw [hq] at hk; cases hk
    | keyValue kv =>
      have hk : decide (kv.id.asStr = str "TIPL") = false := hp
      unfold splitFrame
      simp only
      rw [if_neg (of_decide_eq_false hk)]
    | comment => cases hv
    | lyrics => cases hv
    | picture => cases hv
    | rva => rfl
    | owner => rfl
    | etco => rfl
    | priv => rfl
    | binary => rfl

/-- A frame with a generic view is not held back. -/
theorem split_viewed {custom : Rating.Provider} {f : Frame} (hv : Spec.viewed custom f = true) : (splitFrame custom f).kept = none := by
  cases f with
  | chapter => cases hv
  | toc => cases hv
  | leaf fl c =>
    cases c with
    | text t =>
      have hk : Spec.known t.id.asStr = true := hv
      unfold splitFrame
      simp only
      cases hpi : pairItems t.id.asStr t.value with
      | some l => rfl
      | none =>
        simp only
        split
        · rfl
        · rcases keyed_cases t.id.asStr (.leaf fl (.text t)) (fun k => values k t.value) with ⟨_, k, _, h⟩ | ⟨h, _⟩
          · rw [h]
          · rw [h] at hk; cases hk
    | userText u =>
      have hk : (!u.desc.isEmpty && Spec.known u.desc) = true := hv
      rw [Bool.and_eq_true] at hk
      unfold splitFrame
      simp only
      rw [if_neg (by intro e; rw [e] at hk; cases hk.1)]
      rcases keyed_cases u.desc (.leaf fl (.userText u)) (fun k => values k u.content) with ⟨_, k, _, h⟩ | ⟨h, _⟩
      · rw [h]
      · rw [h] at hk; cases hk.2
    | userUrl u =>
      have hk : (!u.desc.isEmpty && decide ((utf8 u.desc).length ≠ 4) && Spec.known u.desc) = true := hv
      rw [Bool.and_eq_true, Bool.and_eq_true] at hk
      unfold splitFrame
      simp only
      rw [if_neg (by
        rw [Bool.or_eq_true]
        rintro (e | e)
        · rw [e] at hk; cases hk.1.1
        · exact of_decide_eq_true hk.1.2 (of_decide_eq_true e))]
      rcases keyed_cases u.desc (.leaf fl (.userUrl u)) (fun k => (Id3v2.splitOn '\x00' u.content).map fun c => TagItem.new k (.locator c))
        with ⟨_, k, _, h⟩ | ⟨h, _⟩
      · rw [h]
      · rw [h] at hk; cases hk.2
    | url u =>
      have hk : Spec.known u.id.asStr = true := hv
      unfold splitFrame
      simp only
      rcases keyed_cases u.id.asStr (.leaf fl (.url u)) (fun k => [TagItem.new k (.locator u.url)]) with ⟨_, k, _, h⟩ | ⟨h, _⟩
      · rw [h]
      · rw [h] at hk; cases hk
    | time t =>
      have hk : (t.time.verify && Spec.known t.id.asStr) = true := hv
      rw [Bool.and_eq_true] at hk
      unfold splitFrame
      simp only
      rw [if_pos hk.1]
      rcases keyed_cases t.id.asStr (.leaf fl (.time t)) (fun k => [TagItem.new k (.text t.time.fmt)]) with ⟨_, k, _, h⟩ | ⟨h, _⟩
      · rw [h]
      · rw [h] at hk; cases hk.2
    | ufid o =>
      have hk : decide (o.owner = str "http://musicbrainz.org") = true := hv
      unfold splitFrame
      simp only
      rw [if_neg (fun e => e (of_decide_eq_true hk))]
    | pop p =>
      have hk : (Rating.kindOf custom p.email).isSome = true := hv
      unfold splitFrame Rating.mapped
      simp only
      cases hq : Rating.kindOf custom p.email with
      | none => rw [hq] at hk; cases hk
      | some q => rfl
    | keyValue => cases hv
    | comment => rfl
    | lyrics => rfl
    | picture => rfl
    | rva => cases hv
    | owner => cases hv
    | etco => cases hv
    | priv => cases hv
    | binary => cases hv

/-- The people whose roles have no key stay; the others become items. -/
theorem split_people (custom : Rating.Provider) (fl : Id3v2.FrameFlags) (kv : Id3v2.KvF) (h : kv.id.asStr = str "TIPL") :
    splitFrame custom (.leaf fl (.keyValue kv)) =
      { items := (kv.pairs.filterMap fun p => (tiplMap.find? fun e => e.2 = p.1).map fun e => TagItem.new e.1 (.text p.2))
        kept := if (kv.pairs.filter fun p => !Spec.knownRole p.1).isEmpty then none
          else some (.leaf fl (.keyValue { kv with pairs := kv.pairs.filter fun p => !Spec.knownRole p.1 })) } := by
  unfold splitFrame
  simp only
  rw [if_pos h]
  simp only [role_known]

theorem role_find {r : Str} (h : Spec.knownRole r = false) : (tiplMap.find? fun e => e.2 = r) = none := by
  rw [← role_known] at h
  rw [List.find?_eq_none]
  intro e he hr
  rw [List.any_eq_false] at h
  exact h e he hr

/-- What is held back once is held back again, and nothing else comes of it. -/
theorem kept_stable {custom : Rating.Provider} {f g : Frame} (h : (splitFrame custom f).kept = some g) :
    splitFrame custom g = { kept := some g } := by
  by_cases hp : Spec.isPeople f = true
  · cases f with
    | chapter => cases hp
    | toc => cases hp
    | leaf fl c =>
      cases c with
      | keyValue kv =>
        have hk : kv.id.asStr = str "TIPL" := of_decide_eq_true hp
        rw [split_people custom fl kv hk] at h
        simp only at h
        split at h
        · cases h
        · rename_i hne
          obtain rfl := (Option.some.injEq _ _).mp h
          rw [split_people custom fl { kv with pairs := kv.pairs.filter fun p => !Spec.knownRole p.1 } hk]
          simp only [List.filter_filter, Bool.and_self]
          rw [if_neg hne]
          rw [List.filterMap_eq_nil_iff.mpr]
          intro p hp
          have := (List.mem_filter.mp hp).2
          rw [role_find (by simpa using this)]
          rfl
      | _ => cases hp
  · by_cases hv : Spec.viewed custom f = true
    · rw [split_viewed hv] at h; cases h
    · have hs := split_unviewed (by simpa using hv) (by simpa using hp)
      rw [hs] at h
      obtain rfl := (Option.some.injEq _ _).mp h
      exact hs

/-! ## Merging into the frames held back -/

theorem mergeFrames_none {fs : List Frame} (h : ∀ f ∈ fs, isTipl f = false) : ∀ l, mergeFrames l fs = .ok (l ++ fs) := by
  induction fs with
  | nil => intro l; simp [mergeFrames]
  | cons f fs ih =>
    intro l
    have e : mergeFrames l (f :: fs) = (mergeFrame l f).bind fun l => mergeFrames l fs := rfl
    have hf : mergeFrame l f = .ok (l ++ [f]) := by
      unfold mergeFrame
      have := h f (by simp)
      rw [isTipl, decide_eq_false_iff_not] at this
      rw [if_neg this]
    rw [e, hf]
    show mergeFrames (l ++ [f]) fs = _
    rw [ih (fun g hg => h g (by simp [hg])), List.append_assoc]
    rfl

theorem mergeFrames_append (a b : List Frame) : ∀ l, mergeFrames l (a ++ b) = (mergeFrames l a).bind fun l => mergeFrames l b := by
  induction a with
  | nil => intro l; rfl
  | cons f a ih =>
    intro l
    have e : mergeFrames l (f :: a) = (mergeFrame l f).bind fun l => mergeFrames l a := rfl
    have e' : mergeFrames l (f :: a ++ b) = (mergeFrame l f).bind fun l => mergeFrames l (a ++ b) := rfl
    rw [e, e']
    cases mergeFrame l f with
    | error x => rfl
    | ok l' => exact ih l'

theorem takeFirst_cases (p : Frame → Bool) (l : List Frame) :
    (Id3v2.takeFirst p l = (none, l) ∧ ∀ f ∈ l, p f = false) ∨
      ∃ a g b, l = a ++ g :: b ∧ p g = true ∧ Id3v2.takeFirst p l = (some g, a ++ b) := by
  induction l with
  | nil => exact Or.inl ⟨rfl, by simp⟩
  | cons f l ih =>
    have e : Id3v2.takeFirst p (f :: l) = if p f then (some f, l) else ((Id3v2.takeFirst p l).1, f :: (Id3v2.takeFirst p l).2) := rfl
    cases hp : p f with
    | true => exact Or.inr ⟨[], f, l, rfl, hp, by rw [e, hp]; rfl⟩
    | false =>
      rcases ih with ⟨h1, h2⟩ | ⟨a, g, b, h1, h2, h3⟩
      · refine Or.inl ⟨by rw [e, hp, h1]; rfl, ?_⟩
        intro g hg
        rcases List.mem_cons.mp hg with rfl | hg
        · exact hp
        · exact h2 g hg
      · exact Or.inr ⟨f :: a, g, b, by rw [h1]; rfl, h2, by rw [e, hp, h3]; rfl⟩

/-- The frames held back of a list. -/
def heldOf (custom : Rating.Provider) (l : List Frame) : List Frame := l.filterMap fun f => (splitFrame custom f).kept

theorem heldOf_append (custom : Rating.Provider) (a b : List Frame) : heldOf custom (a ++ b) = heldOf custom a ++ heldOf custom b :=
  List.filterMap_append ..

theorem heldOf_stable {custom : Rating.Provider} {l : List Frame} (h : ∀ f ∈ l, splitFrame custom f = { kept := some f }) :
    heldOf custom l = l := by
  induction l with
  | nil => rfl
  | cons f l ih =>
    unfold heldOf at ih ⊢
    rw [List.filterMap_cons, h f (by simp)]
    simp only
    rw [ih fun g hg => h g (by simp [hg])]

theorem itemsOf_stable {custom : Rating.Provider} {l : List Frame} (h : ∀ f ∈ l, splitFrame custom f = { kept := some f }) :
    itemsOf custom l = [] := by
  unfold itemsOf
  rw [List.flatMap_eq_nil_iff]
  intro f hf
  rw [h f hf]

/-- A list of people that is held back, with more people whose roles have keys. -/
theorem split_extended {custom : Rating.Provider} {fl : Id3v2.FrameFlags} {kv : Id3v2.KvF} (h : kv.id.asStr = str "TIPL")
    (hs : splitFrame custom (.leaf fl (.keyValue kv)) = { kept := some (.leaf fl (.keyValue kv)) })
    {l : List (Str × Str)} (hl : ∀ e ∈ l, ∃ x ∈ tiplMap, x.2 = e.1) :
    splitFrame custom (.leaf fl (.keyValue { kv with pairs := kv.pairs ++ l })) =
      { items := l.filterMap fun p => (tiplMap.find? fun e => e.2 = p.1).map fun e => TagItem.new e.1 (.text p.2)
        kept := some (.leaf fl (.keyValue kv)) } := by
  rw [split_people custom fl { kv with pairs := kv.pairs ++ l } h]
  rw [split_people custom fl kv h] at hs
  simp only [Split.mk.injEq, true_and] at hs
  have hnew : (l.filter fun p => !Spec.knownRole p.1) = [] := by
    rw [List.filter_eq_nil_iff]
    intro p hp
    obtain ⟨x, hx, e⟩ := hl p hp
    rw [← role_known, Bool.not_eq_true', Bool.not_eq_false, List.any_eq_true]
    exact ⟨x, hx, decide_eq_true e⟩
  simp only
  rw [List.filterMap_append, hs.1, List.nil_append, List.filter_append, hnew, List.append_nil, hs.2]

theorem held_no_picture {custom : Rating.Provider} {f : Frame} (h : splitFrame custom f = { kept := some f }) (p : Picture.Pic) :
    sameFrame f (newPicture p) = false := by
  cases f with
  | chapter => rfl
  | toc => rfl
  | leaf fl c =>
    cases c with
    | picture q =>
      have : (splitFrame custom (.leaf fl (.picture q))).kept = none := rfl
      rw [h] at this
      cases this
    | _ => simp [sameFrame, newPicture, Id3v2.sameContent]

theorem held_pictures {custom : Rating.Provider} {f : Frame} (h : splitFrame custom f = { kept := some f }) :
    (splitFrame custom f).pictures = [] := by rw [h]

/-- Merging never panics. -/
theorem mergeFrames_total {fs : List Frame} (h : ∀ f ∈ fs, isTipl f = true → isKv f = true) : ∀ l, ∃ r, mergeFrames l fs = .ok r := by
  induction fs with
  | nil => intro l; exact ⟨l, rfl⟩
  | cons f fs ih =>
    intro l
    have e : mergeFrames l (f :: fs) = (mergeFrame l f).bind fun l => mergeFrames l fs := rfl
    have hf : ∃ r, mergeFrame l f = .ok r := by
      unfold mergeFrame
      split
      · rename_i ht
        have hk := h f (by simp) (decide_eq_true ht)
        split
        · exact ⟨_, rfl⟩
        · split
          · exact ⟨_, rfl⟩
          · rename_i hno
            cases f with
            | chapter => cases hk
            | toc => cases hk
            | leaf fl c =>
              cases c with
              | keyValue kv => exact absurd rfl (hno fl kv)
              | _ => cases hk
      · exact ⟨_, rfl⟩
    obtain ⟨r, hr⟩ := hf
    obtain ⟨r', hr'⟩ := ih (fun g hg => h g (by simp [hg])) r
    exact ⟨r', by rw [e, hr]; exact hr'⟩

/-- What the merged list is: the frames held back with the new ones, where new people join the first list of people. -/
inductive Merged : List Frame → List Frame → List Frame → Prop
  | plain (rest fs : List Frame) : Merged rest fs (rest ++ fs)
  | joined (a b c d : List Frame) (fl : Id3v2.FrameFlags) (kv : Id3v2.KvF) (l : List (Str × Str))
      (h : kv.id.asStr = str "TIPL") (hl : ∀ e ∈ l, ∃ x ∈ tiplMap, x.2 = e.1) :
      Merged (a ++ .leaf fl (.keyValue kv) :: b) (c ++ .leaf {} (.keyValue ⟨.valid (str "TIPL"), .utf8, l⟩) :: d)
        (a ++ b ++ c ++ .leaf fl (.keyValue { kv with pairs := kv.pairs ++ l }) :: d)

theorem filter_single {α : Type} {p : α → Bool} {l : List α} {x : α} (h : l.filter p = [x]) :
    ∃ a b, l = a ++ x :: b ∧ (∀ y ∈ a, p y = false) ∧ ∀ y ∈ b, p y = false := by
  induction l with
  | nil => cases h
  | cons y l ih =>
    cases hy : p y with
    | true =>
      rw [List.filter_cons_of_pos (a := y) hy, List.cons.injEq] at h
      refine ⟨[], l, by rw [h.1]; rfl, by simp, ?_⟩
      intro z hz
      have := List.filter_eq_nil_iff.mp h.2 z hz
      simpa using this
    | false =>
      rw [List.filter_cons_of_neg (a := y) (by simp [hy])] at h
      obtain ⟨a, b, e, h1, h2⟩ := ih h
      refine ⟨y :: a, b, by rw [e]; rfl, ?_, h2⟩
      intro z hz
      rcases List.mem_cons.mp hz with rfl | hz
      · exact hy
      · exact h1 z hz

theorem merge_merged {custom : Rating.Provider} {owned : Bool} {items : List TagItem} {rest fs : List Frame}
    (hkv : ∀ f ∈ rest, f.id = .valid (str "TIPL") → isKv f = true) (hfs : fs.Perm (fromTag custom owned items)) :
    ∃ l, mergeFrames rest fs = .ok l ∧ Merged rest fs l := by
  have hmade : ∀ f ∈ fs, MadeFrame custom f := fun f hf => made_all (mem_set (hfs.mem_iff.mp hf))
  have htipl : ∀ f ∈ fs, isTipl f = isKv f := fun f hf => made_tipl (hmade f hf)
  have hk := fs_kv hfs
  rw [kv_frames] at hk
  split at hk
  · refine ⟨_, mergeFrames_none ?_ rest, .plain _ _⟩
    intro f hf
    rw [htipl f hf]
    have := List.filter_eq_nil_iff.mp hk f hf
    simpa using this
  · obtain ⟨c, d, rfl, hc, hd⟩ := filter_single hk
    have hmt := hmade _ (List.mem_append_right c (List.mem_cons_self ..))
    have hl : ∀ e ∈ items.filterMap (tiplOp owned), ∃ x ∈ tiplMap, x.2 = e.1 := by
      generalize items.filterMap (tiplOp owned) = l at hmt ⊢
      generalize hF : Frame.leaf {} (.keyValue ⟨.valid (str "TIPL"), .utf8, l⟩) = F at hmt
      cases hmt with
      | tipl l' h' => cases hF; exact h'
      | _ => cases hF
    have hc' : ∀ f ∈ c, isTipl f = false := fun f hf => by rw [htipl f (by simp [hf])]; exact hc f hf
    have hd' : ∀ f ∈ d, isTipl f = false := fun f hf => by rw [htipl f (by simp [hf])]; exact hd f hf
    generalize hT : items.filterMap (tiplOp owned) = l at hl
    rw [mergeFrames_append, mergeFrames_none hc']
    show ∃ r, mergeFrames (rest ++ c) (_ :: d) = .ok r ∧ _
    have e : mergeFrames (rest ++ c) (Frame.leaf {} (.keyValue ⟨.valid (str "TIPL"), .utf8, l⟩) :: d) =
      (mergeFrame (rest ++ c) (Frame.leaf {} (.keyValue ⟨.valid (str "TIPL"), .utf8, l⟩))).bind fun l => mergeFrames l d := rfl
    rw [e]
    unfold mergeFrame
    rw [if_pos (show (Frame.leaf {} (.keyValue ⟨.valid (str "TIPL"), .utf8, l⟩)).id.asStr = str "TIPL" from rfl)]
    unfold Id3v2.takeFirstId
    have hcid : ∀ f ∈ c, decide (f.id = .valid (str "TIPL")) = false := by
      intro f hf
      have := hc' f hf
      rw [isTipl, decide_eq_false_iff_not] at this
      rw [decide_eq_false_iff_not]
      intro he
      rw [he] at this
      exact this rfl
    rcases takeFirst_cases (fun f => decide (f.id = .valid (str "TIPL"))) (rest ++ c) with ⟨h1, _⟩ | ⟨a, g, b, h1, h2, h3⟩
    · rw [h1]
      refine ⟨_, mergeFrames_none hd' _, ?_⟩
      have := Merged.plain rest (c ++ Frame.leaf {} (.keyValue ⟨.valid (str "TIPL"), .utf8, l⟩) :: d)
      simpa using this
    · rw [h3]
      have hgid : g.id = .valid (str "TIPL") := of_decide_eq_true h2
      -- the frame is one of those held back
      have hin : ∃ b', rest = a ++ g :: b' ∧ b = b' ++ c := by
        rcases List.append_eq_append_iff.mp h1 with ⟨a', e1, e2⟩ | ⟨b', e1, e2⟩
        · have : g ∈ c := by rw [e2]; simp
          rw [hcid g this] at h2; cases h2
        · cases b' with
          | nil =>
            have : g ∈ c := by
              have e2' : c = g :: b := by simpa using e2.symm
              rw [e2']; simp
            rw [hcid g this] at h2; cases h2
          | cons x b' =>
            rw [List.cons_append, List.cons.injEq] at e2
            exact ⟨b', by rw [e1, e2.1], e2.2⟩
      obtain ⟨b', rfl, rfl⟩ := hin
      have hgk := hkv g (by simp) hgid
      cases g with
      | chapter => cases hgk
      | toc => cases hgk
      | leaf fl x =>
        cases x with
        | keyValue kv =>
          refine ⟨_, mergeFrames_none hd' _, ?_⟩
          have hid : kv.id.asStr = str "TIPL" := by
            have : kv.id = .valid (str "TIPL") := hgid
            rw [this]; rfl
          have := Merged.joined a b' c d fl kv l hid hl
          simpa [extendPairs] using this
        | _ => cases hgk

theorem merged_split {custom : Rating.Provider} {rest fs l : List Frame} (hm : Merged rest fs l)
    (hrest : ∀ f ∈ rest, splitFrame custom f = { kept := some f }) :
    (heldOf custom l).Perm (rest ++ heldOf custom fs) ∧ itemsOf custom l = itemsOf custom fs := by
  cases hm with
  | plain => rw [heldOf_append, heldOf_stable hrest, itemsOf_append, itemsOf_stable hrest]; exact ⟨List.Perm.refl _, rfl⟩
  | joined a b c d fl kv l h hl =>
    have ha : ∀ f ∈ a, splitFrame custom f = { kept := some f } := fun f hf => hrest f (by simp [hf])
    have hb : ∀ f ∈ b, splitFrame custom f = { kept := some f } := fun f hf => hrest f (by simp [hf])
    have hg := hrest (.leaf fl (.keyValue kv)) (by simp)
    have hx := split_extended h hg hl
    have hT := split_people custom {} ⟨.valid (str "TIPL"), .utf8, l⟩ rfl
    have hnew : (l.filter fun p => !Spec.knownRole p.1) = [] := by
      rw [List.filter_eq_nil_iff]
      intro p hp
      obtain ⟨x, hx, e⟩ := hl p hp
      rw [← role_known, Bool.not_eq_true', Bool.not_eq_false, List.any_eq_true]
      exact ⟨x, hx, decide_eq_true e⟩
    rw [hnew] at hT
    constructor
    · have e1 : heldOf custom (Frame.leaf fl (.keyValue { kv with pairs := kv.pairs ++ l }) :: d) =
          .leaf fl (.keyValue kv) :: heldOf custom d := by
        unfold heldOf
        rw [List.filterMap_cons, hx]
      have e2 : heldOf custom (Frame.leaf {} (.keyValue ⟨.valid (str "TIPL"), .utf8, l⟩) :: d) = heldOf custom d := by
        unfold heldOf
        rw [List.filterMap_cons, hT]
        rfl
      rw [heldOf_append, heldOf_append, heldOf_append, heldOf_append, e1, e2, heldOf_stable ha, heldOf_stable hb]
      simp only [List.append_assoc, List.cons_append]
      refine List.Perm.append_left a ?_
      rw [← List.append_assoc, ← List.append_assoc]
      exact List.perm_middle
    · have e1 : itemsOf custom (Frame.leaf fl (.keyValue { kv with pairs := kv.pairs ++ l }) :: d) =
          itemsOf custom (Frame.leaf {} (.keyValue ⟨.valid (str "TIPL"), .utf8, l⟩) :: d) := by
        unfold itemsOf
        rw [List.flatMap_cons, List.flatMap_cons, hx, hT]
      rw [itemsOf_append, itemsOf_append, itemsOf_append, itemsOf_append, e1, itemsOf_stable ha, itemsOf_stable hb]
      rfl

theorem merged_mem {rest fs l : List Frame} (hm : Merged rest fs l) {f : Frame} (hf : f ∈ l) :
    f ∈ rest ∨ f ∈ fs ∨ isKv f = true := by
  cases hm with
  | plain => rcases List.mem_append.mp hf with h | h <;> simp [h]
  | joined a b c d fl kv l h hl =>
    simp only [List.mem_append, List.mem_cons] at hf
    rcases hf with ((hf | hf) | hf) | rfl | hf
    · simp [hf]
    · simp [hf]
    · simp [hf]
    · exact Or.inr (Or.inr rfl)
    · simp [hf]

theorem kv_pictures (custom : Rating.Provider) {f : Frame} (h : isKv f = true) :
    (splitFrame custom f).pictures = [] ∧ ∀ p, sameFrame f (newPicture p) = false := by
  cases f with
  | chapter => cases h
  | toc => cases h
  | leaf fl c =>
    cases c with
    | keyValue kv =>
      refine ⟨?_, fun p => by simp [sameFrame, newPicture, Id3v2.sameContent]⟩
      unfold splitFrame
      simp only
      split <;> rfl
    | _ => cases h

end Lofty.Convert
