import Verif.Lemmas.Ape
import Verif.Props.Id3v1
import Verif.Props.Id3v2Header
import Verif.Props.Pairs
/-!
# C29, C30, C31: APE tags

`Kept` and `Distinct` (Lemmas/Ape) say which items the theorems below speak about: valid key, no
NUL at the end of a text, and no two items of the same key.
-/
namespace Lofty.Ape

/-! ## C31: keys -/

/-- C31: a key is accepted exactly if it has 2 to 255 characters, all of them printable ASCII, and
is none of the reserved words in any letter case. -/
theorem validKey_iff (k : Str) : validKey k = true ↔
    (∀ c ∈ k, ' ' ≤ c ∧ c ≤ '~') ∧ 2 ≤ k.length ∧ k.length ≤ 255 ∧
      k.map lowerChar ∉ [str "id3", str "tag", str "oggs", str "mp+"] := by
  have hc : ∀ c : Char, (' ' ≤ c ∧ c ≤ '~') ↔ (0x20 ≤ c.toNat ∧ c.toNat ≤ 0x7E) := fun c => Iff.rfl
  simp only [hc]
  have hr : invalidKeys.any (fun k' => eqIc k' k) = true ↔ k.map lowerChar ∈ [str "id3", str "tag", str "oggs", str "mp+"] := by
    have h1 : (str "ID3").map lowerChar = str "id3" := by decide
    have h2 : (str "TAG").map lowerChar = str "tag" := by decide
    have h3 : (str "OGGS").map lowerChar = str "oggs" := by decide
    have h4 : (str "MP+").map lowerChar = str "mp+" := by decide
    simp only [invalidKeys, List.any_cons, List.any_nil, Bool.or_false, Bool.or_eq_true, eqIc_iff, h1, h2, h3, h4,
      List.mem_cons, List.not_mem_nil, or_false]
    constructor <;> rintro (h | h | h | h) <;> simp [h]
  constructor
  · intro h
    have ha := validKey_ascii h
    have hl := utf8_validKey ha
    simp only [validKey, Bool.and_eq_true, Bool.not_eq_true', decide_eq_true_eq, hl] at h
    refine ⟨ha, h.1.2.1, h.1.2.2, ?_⟩
    intro hm
    rw [← hr, h.1.1] at hm
    exact absurd hm (by simp)
  · rintro ⟨ha, h1, h2, h3⟩
    have hl := utf8_validKey ha
    simp only [validKey, Bool.and_eq_true, Bool.not_eq_true', decide_eq_true_eq, hl, List.any_eq_false, Bool.not_eq_false]
    refine ⟨⟨?_, h1, h2⟩, ?_⟩
    · cases hb : invalidKeys.any (fun k' => eqIc k' k) with
      | false => exact fun x hx => by simpa using List.any_eq_false.mp hb x hx
      | true => exact absurd (hr.mp hb) h3
    · intro c hc
      simpa using ha c hc

example : validKey (str "Album Artist") = true ∧ validKey (str "oGGs") = false ∧ validKey (str "A") = false ∧
    validKey (str "Künstler") = false ∧ validKey (List.replicate 255 '~') = true ∧
    validKey (List.replicate 256 '~') = false := by decide +kernel

/-! ## C31: editing -/

/-- The same key up to the letter case of ASCII letters. -/
def SameKey (a b : Str) : Prop := a.map lowerChar = b.map lowerChar

instance (a b : Str) : Decidable (SameKey a b) := by unfold SameKey; infer_instance

theorem eqIc_true {a b : Str} : eqIc a b = true ↔ SameKey a b := eqIc_iff a b
theorem eqIc_false {a b : Str} : eqIc a b = false ↔ ¬ SameKey a b := by
  rw [← eqIc_true]; cases eqIc a b <;> simp

/-- Operations of the public interface. -/
inductive Op
  | insert (i : Item)
  | push (i : Item)
  | remove (key : Str)

/-- The operations on the list of items. -/
def apply (l : List Item) : Op → List Item
  | .insert i => insert l i
  | .push i => push l i
  | .remove k => remove l k

/-- What `push` makes of an existing and a new item: texts of the same kind are joined with NUL
under the old key and flag, everything else is replaced. -/
def joined (old new : Item) : Item :=
  match old, new with
  | ⟨ro, k, .text a⟩, ⟨_, _, .text b⟩ => ⟨ro, k, .text (a ++ ['\x00'] ++ b)⟩
  | ⟨ro, k, .locator a⟩, ⟨_, _, .locator b⟩ => ⟨ro, k, .locator (a ++ ['\x00'] ++ b)⟩
  | _, new => new

/-- The operations on a map from keys to items. -/
def applySpec (m : Str → Option Item) : Op → Str → Option Item
  | .insert i, k => if SameKey k i.key then some i else m k
  | .push i, k =>
    if SameKey k i.key then
      match m k with
      | some old => some (joined old i)
      | none => some i
    else m k
  | .remove r, k => if SameKey k r then none else m k

theorem combine_eq (a b : Item) : combine a b = joined a b := by
  obtain ⟨ra, ka, va⟩ := a
  obtain ⟨rb, kb, vb⟩ := b
  cases va <;> cases vb <;> simp [combine, joined]

theorem joined_key (a b : Item) (h : SameKey a.key b.key) : SameKey (joined a b).key b.key := by
  obtain ⟨ra, ka, va⟩ := a
  obtain ⟨rb, kb, vb⟩ := b
  cases va <;> cases vb <;> first | exact h | exact rfl

theorem get_push (l : List Item) (i : Item) (k : Str) : get (push l i) k = applySpec (get l) (.push i) k := by
  induction l with
  | nil =>
    simp only [push, applySpec, get, List.find?_cons, List.find?_nil]
    by_cases h : SameKey k i.key
    · rw [eqIc_true.mpr h.symm, if_pos h]
    · rw [eqIc_false.mpr (fun hc => h hc.symm), if_neg h]
  | cons j l ih =>
    simp only [applySpec] at ih ⊢
    rw [push]
    by_cases hj : SameKey j.key i.key
    · rw [if_pos (eqIc_true.mpr hj), combine_eq]
      have hjk := joined_key j i hj
      simp only [get, List.find?_cons]
      by_cases h : SameKey k i.key
      · rw [if_pos h, eqIc_true.mpr (hjk.trans h.symm), eqIc_true.mpr (hj.trans h.symm)]
      · rw [if_neg h, eqIc_false.mpr (fun hc => h (hc.symm.trans hjk)), eqIc_false.mpr (fun hc => h (hc.symm.trans hj))]
    · rw [if_neg (by rw [eqIc_true]; exact hj)]
      simp only [get, List.find?_cons] at ih ⊢
      by_cases hk : SameKey j.key k
      · rw [eqIc_true.mpr hk]
        have h : ¬ SameKey k i.key := fun hc => hj (hk.trans hc)
        rw [if_neg h]
      · rw [eqIc_false.mpr hk]
        exact ih

/-- C31: every operation acts on `get` as the operation on the map, for every tag and every
letter case of the key. -/
theorem get_apply (l : List Item) (o : Op) (k : Str) : get (apply l o) k = applySpec (get l) o k := by
  cases o with
  | insert i =>
    simp only [apply, applySpec, insert, get_append]
    by_cases h : SameKey k i.key
    · rw [if_pos h, get_remove_same l (eqIc_true.mpr h.symm)]
      simp [get, eqIc_true.mpr h.symm]
    · have h' : eqIc i.key k = false := eqIc_false.mpr fun hc => h hc.symm
      rw [if_neg h, get_remove_other l h']
      simp [get, h']
  | push i => exact get_push l i k
  | remove r =>
    simp only [apply, applySpec]
    by_cases h : SameKey k r
    · rw [if_pos h, get_remove_same l (eqIc_true.mpr h.symm)]
    · rw [if_neg h, get_remove_other l (eqIc_false.mpr fun hc => h hc.symm)]

/-- C31: after any history of operations, `get` answers as the map with the same history. -/
theorem history (ops : List Op) (k : Str) :
    get (ops.foldl apply []) k = ops.foldl applySpec (fun _ => none) k := by
  suffices H : ∀ (l : List Item) (m : Str → Option Item), get l = m →
      get (ops.foldl apply l) = ops.foldl applySpec m by
    rw [H [] (fun _ => none) (by funext k; rfl)]
  induction ops with
  | nil => intro l m h; exact h
  | cons o ops ih =>
    intro l m h
    simp only [List.foldl_cons]
    apply ih
    subst h
    funext k
    exact get_apply l o k

theorem distinct_push (l : List Item) (i : Item) (h : Distinct l) :
    Distinct (push l i) ∧ ∀ j ∈ push l i, SameKey j.key i.key ∨ j ∈ l := by
  induction l with
  | nil => exact ⟨by simp [push, Distinct], by simp [push, SameKey]⟩
  | cons j l ih =>
    obtain ⟨hj, hl⟩ := List.pairwise_cons.mp h
    rw [push]
    by_cases hc : SameKey j.key i.key
    · rw [if_pos (eqIc_true.mpr hc), combine_eq]
      have hk := joined_key j i hc
      refine ⟨List.pairwise_cons.mpr ⟨?_, hl⟩, ?_⟩
      · intro x hx
        rw [eqIc_false]
        intro hs
        exact eqIc_false.mp (hj x hx) (hc.trans (hk.symm.trans hs))
      · intro x hx
        rcases List.mem_cons.mp hx with rfl | hx
        · exact .inl hk
        · exact .inr (by simp [hx])
    · rw [if_neg (by rw [eqIc_true]; exact hc)]
      obtain ⟨h1, h2⟩ := ih hl
      refine ⟨List.pairwise_cons.mpr ⟨?_, h1⟩, ?_⟩
      · intro x hx
        rcases h2 x hx with hs | hm
        · rw [eqIc_false]
          exact fun hs' => hc (hs'.trans hs)
        · exact hj x hm
      · intro x hx
        rcases List.mem_cons.mp hx with rfl | hx
        · exact .inr (by simp)
        · rcases h2 x hx with hs | hm
          · exact .inl hs
          · exact .inr (by simp [hm])

theorem distinct_insert (l : List Item) (i : Item) (h : Distinct l) : Distinct (insert l i) := by
  refine List.pairwise_append.mpr ⟨h.sublist List.filter_sublist, by simp, ?_⟩
  intro a ha b hb
  obtain rfl : b = i := by simpa using hb
  simp only [remove, List.mem_filter, Bool.not_eq_true'] at ha
  exact ha.2

/-- C31: at no time are there two items of the same key. -/
theorem history_distinct (ops : List Op) :
    (ops.foldl apply []).Pairwise fun a b => ¬ SameKey a.key b.key := by
  have H : ∀ (l : List Item), Distinct l → Distinct (ops.foldl apply l) := by
    induction ops with
    | nil => intro l h; exact h
    | cons o ops ih =>
      intro l h
      simp only [List.foldl_cons]
      apply ih
      cases o with
      | insert i => exact distinct_insert l i h
      | push i => exact (distinct_push l i h).1
      | remove k => exact h.sublist List.filter_sublist
  exact (H [] (by simp [Distinct])).imp fun h => eqIc_false.mp h

/-- C31: `insert` leaves exactly one item of the key, at the end, and keeps all others in order;
`remove` keeps all others in order. -/
theorem insert_order (l : List Item) (i : Item) :
    insert l i = l.filter (fun j => ¬ SameKey j.key i.key) ++ [i] ∧
      remove l i.key = l.filter (fun j => ¬ SameKey j.key i.key) := by
  have : (fun j : Item => !eqIc j.key i.key) = fun j => decide (¬ SameKey j.key i.key) := by
    funext j
    by_cases h : SameKey j.key i.key
    · simp [eqIc_true.mpr h, h]
    · simp [eqIc_false.mpr h, h]
  simp [insert, remove, this]

/-- A title, with another letter case, an artist. -/
def exampleOps : List Op :=
  [.insert ⟨false, str "Title", .text (str "a")⟩, .push ⟨true, str "TITLE", .text (str "b")⟩,
   .push ⟨false, str "Artist", .text (str "c")⟩, .push ⟨false, str "artist", .binary [0]⟩,
   .insert ⟨false, str "Genre", .text (str "d")⟩, .remove (str "gENRE")]

example : exampleOps.foldl apply [] =
    [⟨false, str "Title", .text (str "a\x00b")⟩, ⟨false, str "artist", .binary [0]⟩] ∧
    get (exampleOps.foldl apply []) (str "tItLe") = some ⟨false, str "Title", .text (str "a\x00b")⟩ := by
  decide +kernel

/-! ## Track and disc numbers (C05 on APE tags) -/

/-- The text of the item of that key: the field of Model/Pairs. -/
def field (l : List Item) (key : Str) : Option Str :=
  match get l key with
  | some ⟨_, _, .text s⟩ => some s
  | _ => none

theorem splitNumPair_field (l : List Item) (key : Str) : splitNumPair l key = Pairs.get Pairs.apeSep (field l key) := by
  unfold splitNumPair field
  rcases get l key with _ | ⟨_, _, _ | _ | _⟩ <;> rfl

theorem field_insert (l : List Item) (key v : Str) : field (insert l ⟨false, key, .text v⟩) key = some v := by
  have := get_apply l (.insert ⟨false, key, .text v⟩) key
  simp only [apply, applySpec, SameKey] at this
  simp [field, this]

theorem field_remove (l : List Item) (key : Str) : field (remove l key) key = none := by
  unfold field
  rw [get_remove_same l (eqIc_refl key)]

/-- C05/C31: the accessors for track and disc numbers act on the text of the item as in
`Pairs.history`, and on no other key. -/
theorem stepPair_field (l : List Item) (key : Str) (o : Pairs.Op) :
    field (stepPair key l o) key = Pairs.step Pairs.apeSep (field l key) o ∧
      ∀ k, ¬ SameKey k key → get (stepPair key l o) k = get l k := by
  have hins : ∀ n t, field (insertNumberPair l key n t) key = Pairs.insertPair (field l key) n t ∧
      ∀ k, ¬ SameKey k key → get (insertNumberPair l key n t) k = get l k := by
    intro n t
    unfold insertNumberPair Pairs.insertPair
    cases Pairs.format n t with
    | none => exact ⟨rfl, fun _ _ => rfl⟩
    | some v =>
      refine ⟨field_insert l key v, fun k hk => ?_⟩
      have := get_apply l (.insert ⟨false, key, .text v⟩) k
      simp only [apply, applySpec, if_neg hk] at this
      exact this
  have hrem : ∀ k, ¬ SameKey k key → get (remove l key) k = get l k := fun k hk =>
    get_remove_other l (eqIc_false.mpr fun hc => hk hc.symm)
  cases o with
  | setNumber n => simpa only [stepPair, Pairs.step, splitNumPair_field] using hins _ _
  | setTotal t => simpa only [stepPair, Pairs.step, splitNumPair_field] using hins _ _
  | removeNumber => exact ⟨field_remove l key, hrem⟩
  | removeTotal =>
    simp only [stepPair, Pairs.step, splitNumPair_field]
    cases h : (Pairs.get Pairs.apeSep (field l key)).1 with
    | none => exact ⟨by simp [field_remove], hrem⟩
    | some n =>
      refine ⟨by simp [field_insert], fun k hk => ?_⟩
      have := get_apply (remove l key) (.insert ⟨false, key, .text (toDec n)⟩) k
      simp only [apply, applySpec, if_neg hk] at this
      simp only [this, hrem k hk]

example : field (([.setNumber 3, .setTotal 12, .removeTotal] : List Pairs.Op).foldl (stepPair (str "Track"))
    [⟨false, str "track", .text (str "1/2")⟩, ⟨false, str "Title", .text (str "x")⟩]) (str "Track") = some (str "3") := by
  decide +kernel

/-! ## C30 -/

/-- A tag the reader gives back: valid keys, no NUL at the end of a text, no key twice. -/
structure Good (t : Tag) : Prop where
  nonempty : t.items ≠ []
  kept : ∀ i ∈ t.items, Kept i
  distinct : Distinct t.items

theorem headerBytes_length (s c fl : Nat) : (headerBytes s c fl).length = 32 := by
  have : preamble.length = 8 := by decide
  simp [headerBytes, this]

/-- The parts of a written tag. -/
theorem createTag_ok {t : Tag} {b : Bytes} (hn : t.items ≠ []) (h : createTag t = .ok b) :
    (writeItems t.items).length + 32 ≤ 2 ^ 32 - 1 ∧ ∃ f1 f2, f1 < 2 ^ 32 ∧ f2 < 2 ^ 32 ∧
      b = headerBytes ((writeItems t.items).length + 32) t.items.length f1 ++ (writeItems t.items ++
        headerBytes ((writeItems t.items).length + 32) t.items.length f2) ∧
      f1 / 2 ^ 29 = 7 ∧ f2 / 2 ^ 29 = 6 ∧ f1 % 2 = (if t.readOnly then 1 else 0) ∧ f2 % 2 = f1 % 2 := by
  unfold createTag at h
  have : t.items.isEmpty = false := by cases ht : t.items with
    | nil => exact absurd ht hn
    | cons => rfl
  rw [this] at h
  simp only [Bool.false_eq_true, if_false] at h
  split at h
  · cases h
  · rename_i hs
    refine ⟨by omega, _, _, ?_, ?_, (Except.ok.inj h).symm, ?_⟩
    · split <;> omega
    · split <;> omega
    · cases t.readOnly <;> decide

theorem writeItems_count (l : List Item) : 9 * l.length ≤ (writeItems l).length := by
  induction l with
  | nil => simp [writeItems]
  | cons i l ih =>
    rw [writeItems_cons, List.length_append, Item.write_length, List.length_cons]
    omega

/-- C30: header and footer of a written tag: both carry the number of items, and the size of the
items plus the 32 bytes of the footer; they are marked as header and footer. -/
theorem createTag_layout {t : Tag} {b : Bytes} (hn : t.items ≠ []) (h : createTag t = .ok b) :
    ∃ body, b.length = 64 + body.length ∧ (b.drop 32).take body.length = body ∧
      ∀ head ∈ [b.take 32, b.drop (32 + body.length)],
        head.length = 32 ∧ head.take 8 = ascii "APETAGEX" ∧ fromLE ((head.drop 8).take 4) = 2000 ∧
        fromLE ((head.drop 12).take 4) = body.length + 32 ∧ fromLE ((head.drop 16).take 4) = t.items.length ∧
        (fromLE ((head.drop 20).take 4) / 2 ^ 29 = if head = b.take 32 then 7 else 6) ∧
        (fromLE ((head.drop 20).take 4) % 2 = if t.readOnly then 1 else 0) ∧ head.drop 24 = List.replicate 8 0 := by
  obtain ⟨hs, f1, f2, l1, l2, rfl, m1, m2, o1, o2⟩ := createTag_ok hn h
  have hc := writeItems_count t.items
  generalize hbody : writeItems t.items = body at *
  have hpre : preamble = [65, 80, 69, 84, 65, 71, 69, 88] := by decide
  have hpre' : ascii "APETAGEX" = [65, 80, 69, 84, 65, 71, 69, 88] := by decide
  have parts : ∀ fl, fl < 2 ^ 32 → ∀ hd, hd = headerBytes (body.length + 32) t.items.length fl →
      hd.length = 32 ∧ hd.take 8 = ascii "APETAGEX" ∧ fromLE ((hd.drop 8).take 4) = 2000 ∧
      fromLE ((hd.drop 12).take 4) = body.length + 32 ∧ fromLE ((hd.drop 16).take 4) = t.items.length ∧
      fromLE ((hd.drop 20).take 4) = fl ∧ hd.drop 24 = List.replicate 8 0 := by
    rintro fl hfl _ rfl
    refine ⟨headerBytes_length _ _ _, ?_, ?_, ?_, ?_, ?_, ?_⟩
    · rw [headerBytes, hpre, hpre']; rfl
    · have : (headerBytes (body.length + 32) t.items.length fl).drop 8 = leBytes 4 2000 ++ (leBytes 4 (body.length + 32) ++
          (leBytes 4 t.items.length ++ (leBytes 4 fl ++ List.replicate 8 0))) := by rw [headerBytes, hpre]; rfl
      rw [this, List.take_left' (by simp), fromLE_leBytes_of_lt (by omega)]
    · have : (headerBytes (body.length + 32) t.items.length fl).drop 12 = leBytes 4 (body.length + 32) ++
          (leBytes 4 t.items.length ++ (leBytes 4 fl ++ List.replicate 8 0)) := by rw [headerBytes, hpre]; rfl
      rw [this, List.take_left' (by simp), fromLE_leBytes_of_lt (by omega)]
    · have : (headerBytes (body.length + 32) t.items.length fl).drop 16 =
          leBytes 4 t.items.length ++ (leBytes 4 fl ++ List.replicate 8 0) := by rw [headerBytes, hpre]; rfl
      rw [this, List.take_left' (by simp), fromLE_leBytes_of_lt (by omega)]
    · have : (headerBytes (body.length + 32) t.items.length fl).drop 20 =
          leBytes 4 fl ++ List.replicate 8 0 := by rw [headerBytes, hpre]; rfl
      rw [this, List.take_left' (by simp), fromLE_leBytes_of_lt (by omega)]
    · rw [headerBytes, hpre]; rfl
  refine ⟨body, by simp [headerBytes_length]; omega, ?_, ?_⟩
  · rw [List.drop_left' (headerBytes_length _ _ _), List.take_left' rfl]
  · have e1 := List.take_left' (l₂ := body ++ headerBytes (body.length + 32) t.items.length f2)
      (headerBytes_length (body.length + 32) t.items.length f1)
    have e2 : (headerBytes (body.length + 32) t.items.length f1 ++ (body ++ headerBytes (body.length + 32) t.items.length f2)).drop
        (32 + body.length) = headerBytes (body.length + 32) t.items.length f2 := by
      rw [← List.append_assoc, List.drop_left' (by simp [headerBytes_length])]
    rw [e1, e2]
    have p1 := parts f1 l1 _ rfl
    have p2 := parts f2 l2 _ rfl
    intro head hh
    rcases List.mem_cons.mp hh with rfl | hh
    · obtain ⟨q1, q2, q3, q4, q5, q6, q7⟩ := p1
      exact ⟨q1, q2, q3, q4, q5, by rw [q6, m1, if_pos rfl], by rw [q6, o1], q7⟩
    · obtain rfl : head = _ := by simpa using hh
      obtain ⟨q1, q2, q3, q4, q5, q6, q7⟩ := p2
      refine ⟨q1, q2, q3, q4, q5, ?_, by rw [q6, o2, o1], q7⟩
      rw [q6, m2, if_neg]
      intro he
      have := p1.2.2.2.2.2.1
      rw [← he, q6] at this
      rw [this] at m2
      omega

theorem readHeader_rt (pre post body : Bytes) (count fl : Nat) (footer : Bool) (hb : body.length + 32 ≤ 2 ^ 32 - 1)
    (hc : count < 2 ^ 32) (hf : footer = true → body.length ≤ pre.length)
    (hlen : min (body.length + 64) (2 ^ 32 - 1) ≤ (pre ++ (headerBytes (body.length + 32) count fl ++ post)).length) :
    readHeader (pre ++ (headerBytes (body.length + 32) count fl ++ post)) (pre.length + 8) footer
      = .ok (⟨min (body.length + 64) (2 ^ 32 - 1), count⟩,
          if footer then pre.length - body.length else pre.length + 32) := by
  have e : (pre ++ (headerBytes (body.length + 32) count fl ++ post)).drop (pre.length + 8)
      = leBytes 4 2000 ++ (leBytes 4 (body.length + 32) ++ (leBytes 4 count ++ (leBytes 4 fl ++ List.replicate 8 0 ++ post))) := by
    rw [← List.drop_drop, List.drop_left' rfl, headerBytes]
    simp only [List.append_assoc]
    rw [List.drop_left' (by decide)]
  unfold readHeader
  rw [e, readLE_append _ (by omega), ok_bind]
  simp only
  rw [readLE_append _ (by omega), ok_bind]
  simp only
  rw [if_neg (by omega), readLE_append _ (by omega), ok_bind]
  simp only [if_true]
  have hmin : min (body.length + 32 + 32) (2 ^ 32 - 1) = min (body.length + 64) (2 ^ 32 - 1) := by omega
  rw [hmin]
  cases footer with
  | true =>
    have := hf rfl
    rw [if_neg (by omega), if_neg (by omega)]
    simp only [if_true]
    congr 2
    omega
  | false =>
    rw [if_neg (by simp), if_neg (by omega)]
    simp

/-- C30: a written tag, anywhere in a file, is read back from its footer and from its header: the
same items in the same order (without the cover art if the options exclude it).  The mark of the
tag as read-only is not read back. -/
theorem tag_rt {t : Tag} {b : Bytes} (hg : Good t) (h : createTag t = .ok b) (cover : Bool) (pre post : Bytes) :
    let back := (some ⟨false, t.items.filter fun i => cover || !Picture.apePictureTypes.contains i.key⟩,
      some ⟨min b.length (2 ^ 32 - 1), t.items.length⟩)
    readTag ⟨true, cover⟩ (pre ++ (b ++ post)) (pre.length + b.length - 32) true = .ok back ∧
      readTag ⟨true, cover⟩ (pre ++ (b ++ post)) pre.length false = .ok back := by
  intro back
  obtain ⟨hs, f1, f2, l1, l2, hb, -⟩ := createTag_ok hg.nonempty h
  have hcount := writeItems_count t.items
  have hrt := fun r hr1 hr2 rest => readItems_rt cover t.items r rest [] hg.kept (by simpa using hg.distinct) hr1 hr2
  simp only [List.nil_append] at hrt
  generalize hbody : writeItems t.items = body at *
  have hbl : b.length = body.length + 64 := by
    rw [hb]; simp [headerBytes_length]; omega
  have hback : back = (some ⟨false, t.items.filter fun i => cover || !Picture.apePictureTypes.contains i.key⟩,
    some ⟨min (body.length + 64) (2 ^ 32 - 1), t.items.length⟩) := by rw [← hbl]
  constructor
  · have e : pre ++ (b ++ post) = (pre ++ (headerBytes (body.length + 32) t.items.length f1 ++ body)) ++
        (headerBytes (body.length + 32) t.items.length f2 ++ post) := by rw [hb]; simp
    have ep : (pre ++ (headerBytes (body.length + 32) t.items.length f1 ++ body)).length = pre.length + b.length - 32 := by
      simp [headerBytes_length, hbl]; omega
    have hR := readHeader_rt (pre ++ (headerBytes (body.length + 32) t.items.length f1 ++ body)) post body t.items.length f2 true
      hs (by omega) (by intro _; simp only [List.length_append]; omega) (by
        simp only [List.length_append, headerBytes_length]; omega)
    rw [e, ← ep]
    unfold readTag
    have hP : readAt (pre ++ (headerBytes (body.length + 32) t.items.length f1 ++ body) ++ (headerBytes (body.length + 32)
        t.items.length f2 ++ post)) (pre ++ (headerBytes (body.length + 32) t.items.length f1 ++ body)).length 8 = .ok preamble := by
      simp only [headerBytes, List.append_assoc (as := preamble)]
      exact readAt_append _ preamble _ 8 (by decide)
    rw [hP, ok_bind, if_neg (by simp), hR, ok_bind]
    simp only [if_true]
    have hd : (pre ++ (headerBytes (body.length + 32) t.items.length f1 ++ body) ++ (headerBytes (body.length + 32)
        t.items.length f2 ++ post)).drop ((pre ++ (headerBytes (body.length + 32) t.items.length f1 ++ body)).length - body.length)
        = body ++ (headerBytes (body.length + 32) t.items.length f2 ++ post) := by
      have : (pre ++ (headerBytes (body.length + 32) t.items.length f1 ++ body)).length - body.length
          = (pre ++ headerBytes (body.length + 32) t.items.length f1).length := by simp only [List.length_append]; omega
      rw [this]
      have e2 : pre ++ (headerBytes (body.length + 32) t.items.length f1 ++ body) ++ (headerBytes (body.length + 32) t.items.length f2 ++ post)
        = (pre ++ headerBytes (body.length + 32) t.items.length f1) ++ (body ++ (headerBytes (body.length + 32) t.items.length f2 ++ post)) := by
        simp
      rw [e2, List.drop_left' rfl]
    rw [hd, hrt _ (by omega) (by omega), ok_bind, hback]
  · have e : pre ++ (b ++ post) = pre ++ (headerBytes (body.length + 32) t.items.length f1 ++ (body ++
        (headerBytes (body.length + 32) t.items.length f2 ++ post))) := by rw [hb]; simp
    have hR := readHeader_rt pre (body ++ (headerBytes (body.length + 32) t.items.length f2 ++ post)) body t.items.length f1 false
      hs (by omega) (by simp) (by
        simp only [List.length_append, headerBytes_length]; omega)
    rw [e]
    unfold readTag
    have hP : readAt (pre ++ (headerBytes (body.length + 32) t.items.length f1 ++ (body ++
        (headerBytes (body.length + 32) t.items.length f2 ++ post)))) pre.length 8 = .ok preamble := by
      rw [headerBytes, List.append_assoc]
      exact readAt_append _ preamble _ 8 (by decide)
    rw [hP, ok_bind, if_neg (by simp), hR, ok_bind]
    simp only [if_true, Bool.false_eq_true, if_false]
    have hd : (pre ++ (headerBytes (body.length + 32) t.items.length f1 ++ (body ++
        (headerBytes (body.length + 32) t.items.length f2 ++ post)))).drop (pre.length + 32)
        = body ++ (headerBytes (body.length + 32) t.items.length f2 ++ post) := by
      rw [← List.drop_drop, List.drop_left' rfl, List.drop_left' (headerBytes_length _ _ _)]
    rw [hd, hrt _ (by omega) (by omega), ok_bind, hback]

/-- C30: every tag whose items take less than 4 GiB is written; an empty one as nothing. -/
theorem createTag_total (t : Tag) :
    (t.items = [] → createTag t = .ok []) ∧
      (t.items ≠ [] → ((∃ b, createTag t = .ok b) ↔
        (t.items.map fun i => 9 + (utf8 i.key).length + i.value.bytes.length).sum + 32 < 2 ^ 32)) := by
  have hsum : (writeItems t.items).length = (t.items.map fun i => 9 + (utf8 i.key).length + i.value.bytes.length).sum := by
    induction t.items with
    | nil => rfl
    | cons i l ih => rw [writeItems_cons, List.length_append, Item.write_length, ih]; simp
  constructor
  · intro h; simp [createTag, h]
  · intro h
    have : t.items.isEmpty = false := by cases ht : t.items with
      | nil => exact absurd ht h
      | cons => rfl
    unfold createTag
    rw [this]
    simp only [Bool.false_eq_true, if_false]
    rw [hsum]
    split
    · rename_i hs
      constructor
      · rintro ⟨b, hb⟩; cases hb
      · intro hlt; omega
    · rename_i hs
      exact ⟨fun _ => by omega, fun _ => ⟨_, rfl⟩⟩

/-- A tag with all three kinds of values. -/
def exampleTag : Tag := ⟨true, [⟨false, str "Title", .text (str "Grüße\x00zwei")⟩, ⟨true, str "Cover Art (Front)", .binary [0, 0, 7, 0]⟩,
  ⟨false, str "File", .locator (str "http://x")⟩]⟩

theorem exampleTag_good : Good exampleTag where
  nonempty := by decide
  kept := by
    intro i hi
    simp only [exampleTag, List.mem_cons, List.not_mem_nil, or_false] at hi
    rcases hi with rfl | rfl | rfl
    · exact ⟨by decide +kernel, by decide +kernel⟩
    · exact ⟨by decide +kernel, trivial⟩
    · exact ⟨by decide +kernel, by decide +kernel⟩
  distinct := by unfold Distinct; decide +kernel

example : ∃ b, createTag exampleTag = .ok b ∧
    readTag ⟨true, true⟩ ([1, 2, 3] ++ (b ++ [4])) (3 + b.length - 32) true
      = .ok (some ⟨false, exampleTag.items⟩, some ⟨b.length, 3⟩) ∧
    readTag ⟨true, false⟩ ([1, 2, 3] ++ (b ++ [4])) 3 false
      = .ok (some ⟨false, [⟨false, str "Title", .text (str "Grüße\x00zwei")⟩, ⟨false, str "File", .locator (str "http://x")⟩]⟩,
          some ⟨b.length, 3⟩) := by
  refine ⟨_, rfl, ?_, ?_⟩ <;> decide +kernel

/-- Disagreement: the read-only mark of a tag is written but not read. -/
theorem tag_read_only_lost : ∃ b, createTag ⟨true, [⟨false, str "Title", .text (str "a")⟩]⟩ = .ok b ∧
    readTag ⟨true, true⟩ b 0 false = .ok (some ⟨false, [⟨false, str "Title", .text (str "a")⟩]⟩, some ⟨b.length, 1⟩) :=
  ⟨_, rfl, by decide +kernel⟩

/-- Disagreement: NULs at the end of a text (an empty last value) are lost. -/
theorem trailing_nul_lost : ∃ b, createTag ⟨false, [⟨false, str "Title", .text (str "a\x00")⟩]⟩ = .ok b ∧
    readTag ⟨true, true⟩ b 0 false = .ok (some ⟨false, [⟨false, str "Title", .text (str "a")⟩]⟩, some ⟨b.length, 1⟩) :=
  ⟨_, rfl, by decide +kernel⟩

/-- **An item bigger than what the tag claims to hold** is an error, one of exactly that size is not. -/
theorem item_size_limit {i : Item} (h : Kept i) {rem : Nat} (h1 : 11 ≤ rem) (hsz : i.value.bytes.length < 2 ^ 32) (rest : Bytes) :
    readItems true 1 rem (i.write ++ rest) [] = if i.value.bytes.length ≤ rem then .ok [i] else .error .sizeMismatch := by
  rw [readItems, if_neg (by omega)]
  simp only [Item.write, Nat.mod_eq_of_lt hsz, List.append_assoc, List.cons_append]
  rw [readLE_append _ (by omega), ok_bind]
  simp only
  split
  · rename_i hx
    rw [if_neg (by omega)]
  · rename_i hx
    rw [if_pos (by omega), readLE_append _ (by have := flags_lt i; omega), ok_bind]
    simp only
    rw [readKey_append _ _ (validKey_zero h.1), ok_bind]
    simp only
    rw [Vorbis.utf8Decode_utf8 _ (validKey_getLast h.1), ok_bind]
    rw [if_neg (by simp), parseItem_rt h, ok_bind]
    rfl

end Lofty.Ape
