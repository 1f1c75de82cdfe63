import Verif.Spec.Tag
import Verif.Lemmas.Drain
import Verif.Lemmas.Ascii
import Verif.Props.Timestamp
/-!
# The generic tag (C32)
-/
namespace Lofty.Item
open Spec

/-! ## Single operations -/

theorem filter_ne_eq (l : List TagItem) (k k' : ItemKey) :
    (l.filter fun i => i.key ≠ k).filter (fun i => i.key = k') = if k' = k then [] else l.filter fun i => i.key = k' := by
  rw [List.filter_filter]
  split
  · rename_i h
    subst h
    rw [List.filter_eq_nil_iff]
    intro a _ h
    simp at h
  · rename_i h
    apply List.filter_congr
    intro a _
    by_cases h1 : a.key = k'
    · have h2 : a.key ≠ k := by rw [h1]; exact h
      simp [h1, h]
    · simp [h1]

/-- **Insertion**: afterwards the item is the only one of its key and the last of all; the items of other keys, the
pictures and everything else are as before. -/
theorem insert_ok (t : Tag) (i : TagItem) (h : supports t.type i.key = true) :
    ∃ t', t.insert i = (true, t') ∧ t'.getItems i.key = [i] ∧ t'.get i.key = some i ∧ t'.items.getLast? = some i ∧
      (t'.items.filter fun j => j.key ≠ i.key) = (t.items.filter fun j => j.key ≠ i.key) ∧
      t'.pictures = t.pictures ∧ t'.type = t.type ∧ t'.companion = t.companion := by
  refine ⟨t.insertUnchecked i, ?_, ?_, ?_, ?_, ?_, rfl, rfl, rfl⟩
  · rw [Tag.insert, if_pos h]
  · show List.filter _ (_ ++ _) = _
    rw [List.filter_append, filter_ne_eq, if_pos rfl]
    simp
  · show List.find? _ (_ ++ _) = _
    rw [List.find?_append, List.find?_eq_none.mpr]
    · simp
    · intro a ha
      rw [List.mem_filter] at ha
      simpa using ha.2
  · simp [Tag.insertUnchecked]
  · show List.filter _ (_ ++ _) = _
    rw [List.filter_append, List.filter_filter]
    simp

/-- **Pushing** appends. -/
theorem push_ok (t : Tag) (i : TagItem) (h : supports t.type i.key = true) :
    t.push i = (true, { t with items := t.items ++ [i] }) := by
  rw [Tag.push, if_pos h]; rfl

/-- **Keys the tag type does not have** are refused without effect. -/
theorem unsupported_no_effect (t : Tag) (i : TagItem) (h : supports t.type i.key = false) :
    t.insert i = (false, t) ∧ t.push i = (false, t) := by
  unfold Tag.insert Tag.push
  rw [h]
  exact ⟨rfl, rfl⟩

/-- The return values say whether the tag type has the key. -/
theorem insert_result (t : Tag) (i : TagItem) : (t.insert i).1 = supports t.type i.key ∧ (t.push i).1 = supports t.type i.key := by
  unfold Tag.insert Tag.push
  cases supports t.type i.key <;> exact ⟨rfl, rfl⟩

/-- **Removal** of a key removes its items and keeps the others in order. -/
theorem removeKey_spec (t : Tag) (k : ItemKey) :
    (t.removeKey k).getItems k = [] ∧ (t.removeKey k).items = (t.items.filter fun i => i.key ≠ k) ∧
      (∀ k', k' ≠ k → (t.removeKey k).getItems k' = t.getItems k') ∧ (t.removeKey k).pictures = t.pictures := by
  refine ⟨?_, rfl, ?_, rfl⟩
  · show List.filter _ (List.filter _ _) = _
    rw [filter_ne_eq, if_pos rfl]
  · intro k' h
    show List.filter _ (List.filter _ _) = _
    rw [filter_ne_eq, if_neg h]
    rfl

/-- **Taking** returns the items of the key that pass, in order.  What is left is the rest, in some order: the library
documents that the order is kept, which is wrong (`take_reorders`). -/
theorem takeFilter_partial (t : Tag) (k : ItemKey) (p : TagItem → Bool) :
    (t.takeFilter k p).1 = (t.items.filter fun i => decide (i.key = k) && p i) ∧
    (t.takeFilter k p).2.items.Perm (t.items.filter fun i => !(decide (i.key = k) && p i)) ∧
    ((t.takeFilter k p).1 = [] → (t.takeFilter k p).2 = t) ∧
    (t.takeFilter k p).2.pictures = t.pictures ∧ (t.takeFilter k p).2.type = t.type := by
  have h := drainFilter_spec (fun i => decide (i.key = k) && p i) t.items
  refine ⟨h.1, h.2.1, ?_, rfl, rfl⟩
  intro h0
  have h1 : t.items.filter (fun i => decide (i.key = k) && p i) = [] := h.1.symm.trans h0
  show { t with items := _ } = t
  rw [h.2.2 h1]

/-- All items of a key. -/
theorem take_partial (t : Tag) (k : ItemKey) :
    (t.take k).1 = t.getItems k ∧ (t.take k).2.items.Perm (t.removeKey k).items ∧ (t.take k).2.getItems k = [] := by
  have h := takeFilter_partial t k fun _ => true
  have h2 : (t.take k).2.items.Perm (t.removeKey k).items := by
    have := h.2.1
    simp only [Bool.and_true] at this
    simpa [Tag.removeKey, Tag.take] using this
  refine ⟨?_, h2, ?_⟩
  · have := h.1
    simp only [Bool.and_true] at this
    exact this
  · have := (removeKey_spec t k).1
    unfold Tag.getItems at this ⊢
    have hp := h2.filter fun i => decide (i.key = k)
    rw [this] at hp
    exact hp.eq_nil

/-- The strings taken are those of the texts and locators of the key, in order. -/
theorem takeStrings_spec (t : Tag) (k : ItemKey) :
    (t.takeStrings k).1 = (t.getItems k).filterMap (fun i => i.value.intoString) ∧ (t.takeStrings k).2 = (t.take k).2 := by
  refine ⟨?_, rfl⟩
  show ((t.take k).1).filterMap _ = _
  rw [(take_partial t k).1]

/-- **The documented order is not kept**: taking the title behind an artist and an album swaps them. -/
theorem take_reorders :
    let a := TagItem.new .TrackArtist (.text (str "a"))
    let b := TagItem.new .AlbumTitle (.text (str "b"))
    let c := TagItem.new .TrackTitle (.text (str "c"))
    let t : Tag := ⟨.id3v2, [], [a, b, c], false⟩
    (t.take .TrackTitle).1 = [c] ∧ (t.take .TrackTitle).2.items = [b, a] := by decide

/-- Retaining and removing empty items. -/
theorem retain_spec (t : Tag) (p : TagItem → Bool) :
    (t.retain p).items = t.items.filter p ∧ (t.retain p).pictures = t.pictures ∧ (t.retain p).type = t.type := ⟨rfl, rfl, rfl⟩

theorem removeEmpty_spec (t : Tag) (i : TagItem) :
    i ∈ t.removeEmpty.items ↔ i ∈ t.items ∧ i.value ≠ .text [] ∧ i.value ≠ .locator [] ∧ i.value ≠ .binary [] := by
  unfold Tag.removeEmpty
  rw [List.mem_filter]
  cases hv : i.value with
  | text s => cases s <;> simp [ItemValue.isEmpty]
  | locator s => cases s <;> simp [ItemValue.isEmpty]
  | binary s => cases s <;> simp [ItemValue.isEmpty]

/-- **Remapping** keeps exactly the items whose keys the new type has. -/
theorem reMap_spec (t : Tag) (ty : TagType) :
    (t.reMap ty).type = ty ∧ (∀ k, (t.reMap ty).getItems k = if supports ty k then t.getItems k else []) ∧
      (t.reMap ty).items.Sublist t.items ∧ (t.reMap ty).pictures = t.pictures ∧ (t.reMap ty).companion = false := by
  refine ⟨rfl, ?_, List.filter_sublist, rfl, rfl⟩
  intro k
  show List.filter _ (List.filter _ _) = _
  rw [List.filter_filter]
  split
  · rename_i h
    apply List.filter_congr
    intro a _
    by_cases hk : a.key = k
    · simp [hk, h]
    · simp [hk]
  · rename_i h
    rw [List.filter_eq_nil_iff]
    intro a _ hx
    simp only [Bool.and_eq_true, decide_eq_true_eq] at hx
    rw [hx.1] at hx
    exact h hx.2

/-! ## Reading -/

theorem find_filter_head {α : Type} (p : α → Bool) (l : List α) : l.find? p = (l.filter p).head? := by
  rw [List.head?_filter]

/-- The getters look at the first item of the key; the iterators at all of them, in order. -/
theorem getters (t : Tag) (k : ItemKey) :
    t.get k = (t.getItems k).head? ∧ t.getString k = ((t.getItems k).head?.bind fun i => i.value.textOf) ∧
    t.getStrings k = (t.getItems k).filterMap (fun i => i.value.textOf) ∧
    t.getLocators k = (t.getItems k).filterMap (fun i => i.value.locatorOf) ∧
    t.getBytes k = (t.getItems k).filterMap (fun i => i.value.binaryOf) ∧
    t.contains k = !(t.getItems k).isEmpty ∧
    ∀ convert, t.getBinary k convert = (t.getItems k).head?.bind fun i =>
      i.value.binaryOf.or (if convert = true then (i.value.textOf.or i.value.locatorOf).map utf8 else none) := by
  have hm : ∀ {β : Type} (f : TagItem → Option β), (t.items.filterMap fun i => if i.key = k then f i else none)
      = (t.getItems k).filterMap f := by
    intro β f
    unfold Tag.getItems
    rw [List.filterMap_filter]
    congr 1
    funext i
    by_cases h : i.key = k <;> simp [h]
  refine ⟨find_filter_head _ _, ?_, hm _, hm _, hm _, ?_, ?_⟩
  · unfold Tag.getString Tag.get
    rw [find_filter_head]
    rfl
  · unfold Tag.contains Tag.getItems
    induction t.items with
    | nil => rfl
    | cons a l ih =>
      rw [List.any_cons, List.filter_cons, ih]
      cases decide (a.key = k) <;> simp
  · intro convert
    have e : (t.getItems k).head? = t.get k := (find_filter_head _ _).symm
    unfold Tag.getBinary
    rw [e]
    cases t.get k with
    | none => rfl
    | some i =>
      obtain ⟨lang, descr, key, value⟩ := i
      cases value <;> cases convert <;> rfl

/-! ## Histories -/

theorem ofTag_filter (l : List TagItem) (p : TagItem → Bool) (k : ItemKey) :
    (l.filter p).filter (fun i => i.key = k) = (l.filter fun i => i.key = k).filter p := by
  rw [List.filter_filter, List.filter_filter]
  apply List.filter_congr
  intro a _
  exact Bool.and_comm _ _

/-- One operation on a tag whose contents are as expected up to order, or exactly as expected. -/
theorem step_refines (R : List TagItem → List TagItem → Prop) (hR : ∀ l, R l l)
    (happ : ∀ {a b : List TagItem} (c), R a b → R (a ++ c) (b ++ c))
    (hfil : ∀ {a b : List TagItem} (p : TagItem → Bool), R a b → R (a.filter p) (b.filter p))
    (t : Tag) (s : Store) (op : Op) (htake : op.takes = true → ∀ a b, a.Perm b → R a b)
    (htrans : ∀ {a b c}, R a b → R b c → R a c)
    (hty : t.type = s.type) (hs : ∀ k, R ((ofTag t).items k) (s.items k)) :
    (applyTag t op).type = (s.apply op).type ∧ ∀ k, R ((ofTag (applyTag t op)).items k) ((s.apply op).items k) := by
  have hset : ∀ (l : List TagItem) (k : ItemKey) (l' : List TagItem) (t' : Tag), t'.type = s.type →
      (∀ k', R (t'.items.filter fun i => i.key = k') (if k' = k then l' else s.items k')) →
      t'.type = (s.set k l').type ∧ ∀ k', R ((ofTag t').items k') ((s.set k l').items k') := by
    intro l k l' t' h1 h2
    exact ⟨h1, h2⟩
  have hins : ∀ i, (t.insertUnchecked i).type = (s.set i.key [i]).type ∧
      ∀ k', R ((ofTag (t.insertUnchecked i)).items k') ((s.set i.key [i]).items k') := by
    intro i
    apply hset []
    · exact hty
    · intro k'
      show R (List.filter _ (_ ++ _)) _
      rw [List.filter_append, filter_ne_eq]
      split
      · rename_i h; subst h; simp; exact hR _
      · rename_i h
        have : ([i].filter fun j => decide (j.key = k')) = [] := by simp [Ne.symm h]
        rw [this, List.append_nil]
        exact hs k'
  have hpush : ∀ i, (t.pushUnchecked i).type = (s.set i.key (s.items i.key ++ [i])).type ∧
      ∀ k', R ((ofTag (t.pushUnchecked i)).items k') ((s.set i.key (s.items i.key ++ [i])).items k') := by
    intro i
    apply hset []
    · exact hty
    · intro k'
      show R (List.filter _ (_ ++ _)) _
      rw [List.filter_append]
      split
      · rename_i h
        subst h
        have : ([i].filter fun j => decide (j.key = i.key)) = [i] := by simp
        rw [this]
        exact happ _ (hs i.key)
      · rename_i h
        have : ([i].filter fun j => decide (j.key = k')) = [] := by simp [Ne.symm h]
        rw [this, List.append_nil]
        exact hs k'
  have htf : ∀ k p, (∀ a b, a.Perm b → R a b) → (t.takeFilter k p).2.type = (s.set k ((s.items k).filter fun i => !p i)).type ∧
      ∀ k', R ((ofTag (t.takeFilter k p).2).items k') ((s.set k ((s.items k).filter fun i => !p i)).items k') := by
    intro k p hperm
    apply hset []
    · exact hty
    · intro k'
      refine htrans (hperm _ _ ((takeFilter_partial t k p).2.1.filter _)) ?_
      rw [List.filter_filter]
      split
      · rename_i h
        subst h
        have : (t.items.filter fun i => decide (i.key = k') && !(decide (i.key = k') && p i))
            = ((t.items.filter fun i => i.key = k').filter fun i => !p i) := by
          rw [List.filter_filter]
          apply List.filter_congr
          intro a _
          cases decide (a.key = k') <;> cases p a <;> rfl
        rw [this]
        exact hfil _ (hs k')
      · rename_i h
        have : (t.items.filter fun i => decide (i.key = k') && !(decide (i.key = k) && p i))
            = (t.items.filter fun i => i.key = k') := by
          apply List.filter_congr
          intro a _
          by_cases h1 : a.key = k'
          · have : a.key ≠ k := by rw [h1]; exact h
            simp [h1, h]
          · simp [h1]
        rw [this]
        exact hs k'
  cases op with
  | insert i =>
    show ((t.insert i).2).type = _ ∧ _
    simp only [applyTag, Tag.insert, Store.apply, hty]
    split
    · exact hins i
    · exact ⟨hty, hs⟩
  | insertUnchecked i => exact hins i
  | push i =>
    simp only [applyTag, Tag.push, Store.apply, hty]
    split
    · exact hpush i
    · exact ⟨hty, hs⟩
  | pushUnchecked i => exact hpush i
  | take k =>
    have := htf k (fun _ => true) (htake rfl)
    have he : (s.items k).filter (fun _ => !true) = [] := by simp
    rw [he] at this
    exact this
  | takeFilter k p => exact htf k p (htake rfl)
  | removeKey k =>
    apply hset []
    · exact hty
    · intro k'
      show R (List.filter _ (List.filter _ _)) _
      rw [filter_ne_eq]
      split
      · exact hR _
      · exact hs k'
  | removeEmpty =>
    refine ⟨hty, ?_⟩
    intro k'
    show R (List.filter _ (List.filter _ _)) _
    rw [ofTag_filter]
    exact hfil _ (hs k')
  | retain p =>
    refine ⟨hty, ?_⟩
    intro k'
    show R (List.filter _ (List.filter _ _)) _
    rw [ofTag_filter]
    exact hfil _ (hs k')
  | reMap ty =>
    refine ⟨rfl, ?_⟩
    intro k'
    have := (reMap_spec t ty).2.1 k'
    show R ((t.reMap ty).getItems k') (if supports ty k' = true then s.items k' else [])
    rw [this]
    split
    · exact hs k'
    · exact hR _
  | clear => exact ⟨hty, fun _ => hR []⟩

/-- **Every history**: after any sequence of operations, for each key the tag has the expected items, up to order. -/
theorem history_partial (t : Tag) (ops : List Op) :
    (ops.foldl applyTag t).type = (ops.foldl Store.apply (ofTag t)).type ∧
      ∀ k, ((ops.foldl applyTag t).getItems k).Perm ((ops.foldl Store.apply (ofTag t)).items k) := by
  have h : ∀ (ops : List Op) (t : Tag) (s : Store), t.type = s.type → (∀ k, ((ofTag t).items k).Perm (s.items k)) →
      (ops.foldl applyTag t).type = (ops.foldl Store.apply s).type ∧
        ∀ k, ((ofTag (ops.foldl applyTag t)).items k).Perm ((ops.foldl Store.apply s).items k) := by
    intro ops
    induction ops with
    | nil => intro t s h1 h2; exact ⟨h1, h2⟩
    | cons op ops ih =>
      intro t s h1 h2
      have := step_refines List.Perm List.Perm.refl (fun c h => h.append_right c) (fun p h => h.filter p) t s op
        (fun _ _ _ h => h) (fun h h' => h.trans h') h1 h2
      exact ih _ _ this.1 this.2
  exact h ops t (ofTag t) rfl fun _ => .refl _

/-- **Every history without taking**: the order is as expected, too. -/
theorem history_exact (t : Tag) (ops : List Op) (hops : ∀ op ∈ ops, op.takes = false) :
    (ops.foldl applyTag t).type = (ops.foldl Store.apply (ofTag t)).type ∧
      ∀ k, (ops.foldl applyTag t).getItems k = (ops.foldl Store.apply (ofTag t)).items k := by
  have h : ∀ (ops : List Op) (t : Tag) (s : Store), (∀ op ∈ ops, op.takes = false) → t.type = s.type →
      (∀ k, (ofTag t).items k = s.items k) →
      (ops.foldl applyTag t).type = (ops.foldl Store.apply s).type ∧
        ∀ k, (ofTag (ops.foldl applyTag t)).items k = (ops.foldl Store.apply s).items k := by
    intro ops
    induction ops with
    | nil => intro t s _ h1 h2; exact ⟨h1, h2⟩
    | cons op ops ih =>
      intro t s hops h1 h2
      have h0 := hops op (by simp)
      have := step_refines (· = ·) (fun _ => rfl) (fun c h => by rw [h]) (fun p h => by rw [h]) t s op
        (fun h => by rw [h0] at h; cases h) (fun h h' => h.trans h') h1 h2
      exact ih _ _ (fun op h => hops op (by simp [h])) this.1 this.2
  exact h ops t (ofTag t) hops rfl fun _ => rfl

/-- **Only representable items**: as long as the checked operations are used, a tag never holds an item whose key its
type does not have. -/
theorem supported_invariant (ty : TagType) (ops : List Op) (hops : ∀ op ∈ ops, op.checked = true) :
    ∀ i ∈ (ops.foldl applyTag (Tag.new ty)).items, supports (ops.foldl applyTag (Tag.new ty)).type i.key = true := by
  have h : ∀ (ops : List Op) (t : Tag), (∀ op ∈ ops, op.checked = true) → (∀ i ∈ t.items, supports t.type i.key = true) →
      ∀ i ∈ (ops.foldl applyTag t).items, supports (ops.foldl applyTag t).type i.key = true := by
    intro ops
    induction ops with
    | nil => intro t _ h; exact h
    | cons op ops ih =>
      intro t hops ht
      apply ih _ (fun op h => hops op (by simp [h]))
      have h0 := hops op (by simp)
      have htf : ∀ k p, ∀ i ∈ (t.takeFilter k p).2.items, supports t.type i.key = true := by
        intro k p i hi
        have := (takeFilter_partial t k p).2.1.mem_iff.mp hi
        rw [List.mem_filter] at this
        exact ht i this.1
      cases op with
      | insert i =>
        intro j hj
        simp only [applyTag, Tag.insert] at hj ⊢
        split at hj
        · rename_i hsup
          rw [if_pos hsup]
          simp only [Tag.insertUnchecked, List.mem_append, List.mem_filter, List.mem_singleton] at hj
          rcases hj with hj | rfl
          · exact ht j hj.1
          · exact hsup
        · rename_i hsup
          rw [if_neg hsup]
          exact ht j hj
      | insertUnchecked i => cases h0
      | push i =>
        intro j hj
        simp only [applyTag, Tag.push] at hj ⊢
        split at hj
        · rename_i hsup
          rw [if_pos hsup]
          simp only [Tag.pushUnchecked, List.mem_append, List.mem_singleton] at hj
          rcases hj with hj | rfl
          · exact ht j hj
          · exact hsup
        · rename_i hsup
          rw [if_neg hsup]
          exact ht j hj
      | pushUnchecked i => cases h0
      | take k => exact htf k _
      | takeFilter k p => exact htf k p
      | removeKey k =>
        intro j hj
        simp only [applyTag, Tag.removeKey, List.mem_filter] at hj
        exact ht j hj.1
      | removeEmpty =>
        intro j hj
        simp only [applyTag, Tag.removeEmpty, List.mem_filter] at hj
        exact ht j hj.1
      | retain p =>
        intro j hj
        simp only [applyTag, Tag.retain, List.mem_filter] at hj
        exact ht j hj.1
      | reMap ty =>
        intro j hj
        simp only [applyTag, Tag.reMap, List.mem_filter] at hj
        exact hj.2
      | clear => intro j hj; cases hj
  exact h ops (Tag.new ty) hops (by intro i hi; cases hi)

example : (∀ op ∈ [Op.insert (TagItem.new .TrackTitle (.text (str "a"))), .take .Genre, .reMap .ape], op.checked = true) ∧
    ([Op.insert (TagItem.new .TrackTitle (.text (str "a"))), .take .Genre, .reMap .ape].foldl applyTag (Tag.new .id3v2)).items
      = [TagItem.new .TrackTitle (.text (str "a"))] := by
  constructor
  · simp [Op.checked]
  · decide +kernel

/-! ## Accessors -/

/-- A text set is the text got and the only item of its key; other keys are not touched.  Without support by the tag
type nothing happens. -/
theorem setText_spec (t : Tag) (k : ItemKey) (s : Str) :
    (supports t.type k = true → (t.setText k s).getString k = some s ∧ (t.setText k s).getStrings k = [s]) ∧
    (∀ k', k' ≠ k → (t.setText k s).getItems k' = t.getItems k') ∧
    (supports t.type k = false → t.setText k s = t) := by
  refine ⟨?_, ?_, ?_⟩
  · intro h
    obtain ⟨t', h1, h2, _⟩ := insert_ok t (TagItem.new k (.text s)) h
    have : t.setText k s = t' := by unfold Tag.setText Tag.insertText; rw [h1]
    rw [this]
    have hg : t'.getItems k = [TagItem.new k (.text s)] := h2
    rw [(getters t' k).2.1, (getters t' k).2.2.1, hg]
    exact ⟨rfl, rfl⟩
  · intro k' hk
    cases hs : supports t.type k with
    | false =>
      have := (unsupported_no_effect t (TagItem.new k (.text s)) hs).1
      unfold Tag.setText Tag.insertText
      rw [this]
    | true =>
      obtain ⟨t', h1, _, _, _, h2, _⟩ := insert_ok t (TagItem.new k (.text s)) hs
      have : t.setText k s = t' := by unfold Tag.setText Tag.insertText; rw [h1]
      rw [this]
      unfold Tag.getItems
      have := congrArg (fun l => l.filter fun i : TagItem => decide (i.key = k')) h2
      simp only [filter_ne_eq] at this
      have hk' : k' ≠ (TagItem.new k (.text s)).key := hk
      rw [if_neg hk', if_neg hk'] at this
      exact this
  · intro h
    unfold Tag.setText Tag.insertText
    rw [(unsupported_no_effect t (TagItem.new k (.text s)) h).1]

/-- **Track and disc numbers** and their totals: the number set is the number got, for every 32-bit number. -/
theorem setNumber_get (t : Tag) (k : ItemKey) (h : supports t.type k = true) {n : Nat} (hn : n < 2 ^ 32) :
    (t.setNumber k n).getU32 k = some n := by
  unfold Tag.getU32 Tag.setNumber
  rw [((setText_spec t k _).1 h).1]
  exact parseU32_toDec hn

/-- Setting one of the numbers does not change the others. -/
theorem setNumber_other (t : Tag) {k k' : ItemKey} (h : k' ≠ k) (n : Nat) : (t.setNumber k n).getU32 k' = t.getU32 k' := by
  unfold Tag.getU32 Tag.setNumber
  rw [(getters _ k').2.1, (getters t k').2.1, (setText_spec t k _).2.1 k' h]

/-- **Dates**: the date set is the date got, and there is no year beside it. -/
theorem setDate_date (t : Tag) (h : supports t.type .RecordingDate = true) {d : Timestamp} (hd : Timestamp.InRange d) :
    (t.setDate d).date = some d ∧ (t.setDate d).getItems .Year = [] := by
  have h1 := (setText_spec (t.removeKey .Year) .RecordingDate d.fmt).1 h
  constructor
  · unfold Tag.date Tag.setDate
    rw [h1.1]
    show (match Timestamp.parse .relaxed (utf8 d.fmt) with
      | .ok d => d
      | .error _ => none) = some d
    rw [Timestamp.parse_fmt hd]
  · unfold Tag.setDate
    rw [(setText_spec _ .RecordingDate d.fmt).2.1 .Year (by decide)]
    exact (removeKey_spec t .Year).1

/-- A date removed is gone, whichever way it was stored. -/
theorem removeDate_date (t : Tag) : t.removeDate.date = none := by
  unfold Tag.date Tag.removeDate
  rw [(getters _ .RecordingDate).2.1, (getters _ .Year).2.1, (removeKey_spec _ .RecordingDate).1,
    (removeKey_spec _ .RecordingDate).2.2.1 .Year (by decide), (removeKey_spec t .Year).1]
  rfl

/-- Setting the date of an AIFF text tag only removes what was there, and no failure is reported. -/
theorem aiff_date_dropped (t : Tag) (h : t.type = .aiffText) (d : Timestamp) : t.setDate d = t.removeKey .Year := by
  unfold Tag.setDate
  refine (setText_spec (t.removeKey .Year) .RecordingDate d.fmt).2.2 ?_
  show supports t.type .RecordingDate = false
  rw [h]
  decide +kernel

example : supports .id3v2 .RecordingDate = true ∧ supports .id3v2 .TrackNumber = true := by decide +kernel

/-! ## Pictures -/

/-- Removing a picture type removes its pictures and keeps the others in order. -/
theorem removePictureType_spec (t : Tag) (ty : Picture.PicType) :
    (t.removePictureType ty).getPictureType ty = none ∧
    (∀ ty', ty' ≠ ty → (t.removePictureType ty).getPictureType ty' = t.getPictureType ty') ∧
    (t.removePictureType ty).pictures.Sublist t.pictures ∧ (t.removePictureType ty).items = t.items := by
  refine ⟨?_, ?_, List.filter_sublist, rfl⟩
  · unfold Tag.getPictureType Tag.removePictureType
    rw [List.find?_eq_none]
    intro p hp
    simp only [List.mem_filter] at hp
    simpa using hp.2
  · intro ty' hne
    unfold Tag.getPictureType Tag.removePictureType
    rw [List.find?_filter]
    congr 1
    funext p
    by_cases h : p.ty = ty'
    · simp [h, hne]
    · simp [h]

/-- Replacing a picture: at its place if there is one, at the end otherwise; nothing else changes. -/
theorem setPicture_spec (t : Tag) (i : Nat) (p : Picture.Pic) :
    (t.setPicture i p).pictures[min i t.pictures.length]? = some p ∧
    (∀ j, j ≠ i → j < t.pictures.length → (t.setPicture i p).pictures[j]? = t.pictures[j]?) ∧
    (t.setPicture i p).pictures.length = max t.pictures.length (min i t.pictures.length + 1) ∧
    (t.setPicture i p).items = t.items := by
  unfold Tag.setPicture
  split
  · rename_i h
    refine ⟨?_, ?_, ?_, rfl⟩
    · rw [Nat.min_eq_right h]; simp [Tag.pushPicture]
    · intro j _ hj
      simp only [Tag.pushPicture]
      rw [List.getElem?_append_left hj]
    · rw [Nat.min_eq_right h]; simp [Tag.pushPicture]
  · rename_i h
    have h' : i < t.pictures.length := by omega
    refine ⟨?_, ?_, ?_, rfl⟩
    · rw [Nat.min_eq_left (by omega)]
      simp only
      rw [List.getElem?_set_self h']
    · intro j hj _
      simp only
      rw [List.getElem?_set_ne (Ne.symm hj)]
    · simp only [List.length_set]; omega

/-- Removing a picture by number: returns it and keeps the others; a number too big panics. -/
theorem removePicture_spec (t : Tag) (i : Nat) :
    (∀ h : i < t.pictures.length, t.removePicture i =
      .ok (t.pictures[i], { t with pictures := t.pictures.take i ++ t.pictures.drop (i + 1) })) ∧
    (t.pictures.length ≤ i → t.removePicture i = .error .panic) := by
  constructor
  · intro h
    unfold Tag.removePicture
    rw [List.getElem?_eq_getElem h]
    simp only
    rw [List.eraseIdx_eq_take_drop_succ]
  · intro h
    unfold Tag.removePicture
    rw [List.getElem?_eq_none h]

end Lofty.Item
