import Verif.Spec.IlstOps
import Verif.Lemmas.Drain
import Verif.Lemmas.Bytes
/-!
# C39: editing an `ilst`

`Spec/IlstOps.lean` describes the operations on a map from identifiers to values.
-/
namespace Lofty.Ilst
open Lofty.Mp4
open Lofty.Picture (Pic)

/-! ## Single operations, for every tag (also with repeated identifiers) -/

/-- **C39.** `remove` returns all atoms with the identifier in order, and keeps all others
(as a multiset: see `remove_reorders`); nothing moves if there is no such atom. -/
theorem remove_spec (t : Tag) (i : Ident) :
    (remove t i).1 = t.filter (fun a => decide (a.ident = i)) ∧
    (remove t i).2.Perm (t.filter fun a => !decide (a.ident = i)) ∧
    (t.filter (fun a => decide (a.ident = i)) = [] → (remove t i).2 = t) :=
  drainFilter_spec _ t

example : remove [⟨trkn, .single (.signed 1)⟩, ⟨disk, .single (.signed 2)⟩, ⟨trkn, .single (.signed 3)⟩] trkn =
    ([⟨trkn, .single (.signed 1)⟩, ⟨trkn, .single (.signed 3)⟩], [⟨disk, .single (.signed 2)⟩]) := by decide

/-- Removing an atom can change the order of the others. -/
theorem remove_reorders :
    (remove [⟨disk, .single (.signed 1)⟩, ⟨rtng, .single (.signed 2)⟩, ⟨trkn, .single (.signed 3)⟩] trkn).2 =
      [⟨rtng, .single (.signed 2)⟩, ⟨disk, .single (.signed 1)⟩] := by decide

theorem mem_remove {t : Tag} {i : Ident} {a : Atom} : a ∈ (remove t i).2 ↔ a ∈ t ∧ a.ident ≠ i := by
  rw [(remove_spec t i).2.1.mem_iff, List.mem_filter]
  simp

/-- **C39.** `replace` leaves exactly one atom with the identifier, the new one, and all
others. -/
theorem replace_spec (t : Tag) (a : Atom) :
    (replace t a).filter (fun b => decide (b.ident = a.ident)) = [a] ∧
    ((replace t a).filter fun b => !decide (b.ident = a.ident)).Perm (t.filter fun b => !decide (b.ident = a.ident)) := by
  unfold replace
  have h := (remove_spec t a.ident).2.1
  refine ⟨?_, ?_⟩
  · rw [List.filter_append]
    have : (remove t a.ident).2.filter (fun b => decide (b.ident = a.ident)) = [] := by
      rw [List.filter_eq_nil_iff]
      intro b hb
      simpa using (mem_remove.mp hb).2
    rw [this]
    simp
  · rw [List.filter_append]
    simp only [List.filter_cons, decide_true, Bool.not_true, Bool.false_eq_true, if_false, List.filter_nil, List.append_nil]
    have : (remove t a.ident).2.filter (fun b => !decide (b.ident = a.ident)) = (remove t a.ident).2 := by
      rw [List.filter_eq_self]
      intro b hb
      simpa using (mem_remove.mp hb).2
    rw [this]
    exact h

theorem update_none {t : Tag} {i : Ident} {f : Atom → Atom} : update t i f = none ↔ ∀ a ∈ t, a.ident ≠ i := by
  induction t with
  | nil => simp [update]
  | cons a t ih =>
    rw [update]
    by_cases h : a.ident = i
    · rw [if_pos h]; simp [h]
    · rw [if_neg h, Option.map_eq_none_iff, ih]; simp [h]

theorem update_some {t t' : Tag} {i : Ident} {f : Atom → Atom} (h : update t i f = some t') :
    ∃ p a s, t = p ++ a :: s ∧ t' = p ++ f a :: s ∧ a.ident = i ∧ ∀ b ∈ p, b.ident ≠ i := by
  induction t generalizing t' with
  | nil => cases h
  | cons b t ih =>
    rw [update] at h
    by_cases hb : b.ident = i
    · rw [if_pos hb] at h
      cases h
      exact ⟨[], b, t, rfl, rfl, hb, by simp⟩
    · rw [if_neg hb] at h
      obtain ⟨u, hu, rfl⟩ := Option.map_eq_some_iff.mp h
      obtain ⟨p, a, s, h1, h2, h3, h4⟩ := ih hu
      refine ⟨b :: p, a, s, by rw [h1]; rfl, by rw [h2]; rfl, h3, ?_⟩
      intro x hx
      rcases List.mem_cons.mp hx with e | hx
      · rw [e]; exact hb
      · exact h4 x hx

theorem push_toList (s : Storage) (d : Data) : (s.push d).toList = s.toList ++ [d] := by
  cases s <;> rfl

theorem pushAll_toList (l : List Data) (s : Storage) : (l.foldl Storage.push s).toList = s.toList ++ l := by
  induction l generalizing s with
  | nil => simp
  | cons d l ih => rw [List.foldl_cons, ih, push_toList]; simp

/-- **C39.** `insert` keeps every other atom in its place, and gives the values of the first
atom with the identifier the new values at the end; without such an atom it appends the new
one. -/
theorem insert_spec (t : Tag) (a : Atom) (h : ¬ (a.ident = covr ∧ a.data.isPictures = true)) :
    (∃ p e s, t = p ++ e :: s ∧ e.ident = a.ident ∧ (∀ b ∈ p, b.ident ≠ a.ident) ∧
      ∃ d, insert t a = p ++ ⟨a.ident, d⟩ :: s ∧ d.toList = e.data.toList ++ a.data.toList) ∨
    ((∀ b ∈ t, b.ident ≠ a.ident) ∧ insert t a = t ++ [a]) := by
  unfold insert
  rw [if_neg h]
  cases hu : update t a.ident fun e => e.merge a with
  | none => exact Or.inr ⟨update_none.mp hu, rfl⟩
  | some t' =>
    obtain ⟨p, e, s, h1, h2, h3, h4⟩ := update_some hu
    refine Or.inl ⟨p, e, s, h1, h3, h4, (e.merge a).data, ?_, ?_⟩
    · simp only
      rw [h2]
      congr 1
      congr 1
      show e.merge a = ⟨a.ident, (e.merge a).data⟩
      rw [← h3]
      rfl
    · exact pushAll_toList _ _

example : insert [⟨trkn, .single (.signed 1)⟩, ⟨disk, .single (.signed 2)⟩] ⟨trkn, .single (.signed 3)⟩ =
    [⟨trkn, .multiple [.signed 1, .signed 3]⟩, ⟨disk, .single (.signed 2)⟩] := by decide

/-! ## Histories -/

theorem toMap_nil : toMap [] = fun _ => none := rfl

theorem toMap_none {t : Tag} {i : Ident} : toMap t i = none ↔ ∀ a ∈ t, a.ident ≠ i := by
  simp [toMap]

theorem toMap_append {t s : Tag} {i : Ident} : toMap (t ++ s) i = (toMap t i).or (toMap s i) := by
  simp only [toMap, List.find?_append]
  cases List.find? (fun a => decide (a.ident = i)) t <;> simp

theorem toMap_cons {a : Atom} {s : Tag} {i : Ident} :
    toMap (a :: s) i = if a.ident = i then some a.data.toList else toMap s i := by
  simp only [toMap, List.find?_cons]
  by_cases h : a.ident = i <;> simp [h]

theorem toMap_eq_some {t : Tag} (hu : Unique t) {i : Ident} {l : List Data} :
    toMap t i = some l ↔ ∃ a ∈ t, a.ident = i ∧ a.data.toList = l := by
  induction t with
  | nil => simp [toMap]
  | cons a t ih =>
    rw [toMap_cons]
    have hu' : Unique t := (List.nodup_cons.mp hu).2
    have hn : a.ident ∉ t.map Atom.ident := (List.nodup_cons.mp hu).1
    by_cases h : a.ident = i
    · rw [if_pos h]
      constructor
      · intro e; exact ⟨a, by simp, h, by simpa using e⟩
      · rintro ⟨b, hb, hbi, hbl⟩
        rcases List.mem_cons.mp hb with e | hb
        · rw [e] at hbl; rw [hbl]
        · exact absurd (List.mem_map.mpr ⟨b, hb, by rw [hbi, h]⟩) hn
    · rw [if_neg h, ih hu']
      simp [h]

/-- With unique identifiers the map does not depend on the order. -/
theorem toMap_perm {t s : Tag} (hp : t.Perm s) (hu : Unique t) : Unique s ∧ toMap t = toMap s := by
  have hs : Unique s := (hp.map Atom.ident).nodup_iff.mp hu
  refine ⟨hs, funext fun i => ?_⟩
  cases h : toMap s i with
  | none =>
    rw [toMap_none] at h ⊢
    exact fun a ha => h a (hp.mem_iff.mp ha)
  | some l =>
    rw [toMap_eq_some hs] at h
    rw [toMap_eq_some hu]
    obtain ⟨a, ha, h⟩ := h
    exact ⟨a, hp.mem_iff.mpr ha, h⟩

theorem unique_filter {t : Tag} (hu : Unique t) (p : Atom → Bool) : Unique (t.filter p) :=
  List.Nodup.sublist (List.Sublist.map _ List.filter_sublist) hu

theorem toMap_filter {t : Tag} (i j : Ident) :
    toMap (t.filter fun a => !decide (a.ident = i)) j = if j = i then none else toMap t j := by
  induction t with
  | nil => simp [toMap]
  | cons a t ih =>
    rw [List.filter_cons]
    by_cases h : a.ident = i
    · rw [if_neg (by simp [h]), ih, toMap_cons]
      by_cases hj : j = i
      · simp [hj]
      · rw [if_neg hj, if_neg hj, if_neg]
        rw [h]; exact fun e => hj e.symm
    · rw [if_pos (by simp [h]), toMap_cons, toMap_cons, ih]
      by_cases hj : j = i
      · subst hj; simp [h]
      · simp [hj]

theorem toMap_remove {t : Tag} (hu : Unique t) (i : Ident) :
    Unique (remove t i).2 ∧ toMap (remove t i).2 = (toMap t).set i none := by
  have hp := (remove_spec t i).2.1
  obtain ⟨h1, h2⟩ := toMap_perm hp.symm (unique_filter hu _)
  refine ⟨h1, ?_⟩
  rw [← h2]
  funext j
  rw [toMap_filter]
  rfl

theorem unique_append {t : Tag} {a : Atom} (hu : Unique t) (h : ∀ b ∈ t, b.ident ≠ a.ident) : Unique (t ++ [a]) := by
  unfold Unique
  rw [List.map_append, List.nodup_append]
  refine ⟨hu, by simp, ?_⟩
  intro x hx y hy
  obtain ⟨b, hb, rfl⟩ := List.mem_map.mp hx
  simp at hy
  subst hy
  exact h b hb

theorem toMap_replace {t : Tag} (hu : Unique t) (a : Atom) :
    Unique (replace t a) ∧ toMap (replace t a) = (toMap t).set a.ident (some a.data.toList) := by
  obtain ⟨h1, h2⟩ := toMap_remove hu a.ident
  have hn : ∀ b ∈ (remove t a.ident).2, b.ident ≠ a.ident := fun b hb => (mem_remove.mp hb).2
  refine ⟨unique_append h1 hn, funext fun j => ?_⟩
  unfold replace
  rw [toMap_append, h2, toMap_cons]
  unfold Map.set
  by_cases hj : j = a.ident
  · simp [hj]
  · rw [if_neg hj, if_neg hj, if_neg (fun e => hj e.symm), toMap_nil]
    cases toMap t j <;> rfl

/-- Changing the data of the first atom. -/
theorem toMap_mid {p s : Tag} {e a : Atom} (hu : Unique (p ++ e :: s)) (he : e.ident = a.ident) :
    Unique (p ++ a :: s) ∧ toMap (p ++ a :: s) = (toMap (p ++ e :: s)).set a.ident (some a.data.toList) := by
  have hid : (p ++ a :: s).map Atom.ident = (p ++ e :: s).map Atom.ident := by simp [he]
  have hp : ∀ b ∈ p, b.ident ≠ a.ident := by
    intro b hb hbe
    unfold Unique at hu
    rw [List.map_append, List.nodup_append] at hu
    exact hu.2.2 b.ident (List.mem_map.mpr ⟨b, hb, rfl⟩) e.ident (by simp) (by rw [hbe, he])
  have hpn : toMap p a.ident = none := toMap_none.mpr hp
  refine ⟨by unfold Unique; rw [hid]; exact hu, funext fun j => ?_⟩
  unfold Map.set
  rw [toMap_append, toMap_append, toMap_cons, toMap_cons]
  by_cases hj : j = a.ident
  · subst hj; simp [hpn]
  · rw [if_neg hj, if_neg (fun h => hj h.symm), if_neg (fun h => hj (he.symm.trans h).symm)]

theorem toMap_insertPicture {t : Tag} (hu : Unique t) (p : Pic) :
    Unique (insertPicture t p) ∧
      toMap (insertPicture t p) = (toMap t).append covr [.picture { p with ty := .other }] := by
  unfold insertPicture
  simp only
  cases h : update t covr fun a => { a with data := a.data.push (.picture { p with ty := .other }) } with
  | none =>
    have hn := update_none.mp h
    refine ⟨unique_append hu hn, funext fun j => ?_⟩
    rw [toMap_append, toMap_cons, toMap_nil]
    unfold Map.append Map.set
    by_cases hj : j = covr
    · subst hj
      rw [toMap_none.mpr hn]
      simp [Storage.toList]
    · rw [if_neg hj, if_neg (fun e => hj e.symm)]
      cases toMap t j <;> rfl
  | some t' =>
    obtain ⟨q, e, s, h1, h2, h3, h4⟩ := update_some h
    simp only
    subst h1
    obtain ⟨h5, h6⟩ := toMap_mid (a := { e with data := e.data.push (.picture { p with ty := .other }) }) hu rfl
    rw [h2]
    refine ⟨h5, ?_⟩
    rw [h6]
    simp only [h3, Map.append]
    congr 2
    rw [toMap_append, toMap_none.mpr h4, toMap_cons, if_pos h3]
    simp [push_toList]

theorem append_append (m : Map) (i : Ident) (a b : List Data) : (m.append i a).append i b = m.append i (a ++ b) := by
  funext j
  unfold Map.append Map.set
  by_cases hj : j = i
  · simp [hj]
  · simp [hj]

theorem toMap_insertData (l : List Data) : ∀ (t : Tag), Unique t → (∀ d ∈ l, d.isPicture = true) →
    Unique (l.foldl insertData t) ∧ toMap (l.foldl insertData t) =
      (if l = [] then toMap t else (toMap t).append covr (l.map stripType)) := by
  induction l with
  | nil => intro t hu _; exact ⟨hu, rfl⟩
  | cons d l ih =>
    intro t hu h
    have hd := h d (by simp)
    cases d with
    | picture p =>
      obtain ⟨h1, h2⟩ := toMap_insertPicture hu p
      obtain ⟨h3, h4⟩ := ih _ h1 fun x hx => h x (by simp [hx])
      refine ⟨h3, ?_⟩
      rw [List.foldl_cons]
      show toMap (l.foldl insertData (insertPicture t p)) = _
      rw [h4, h2, append_append, if_neg (List.cons_ne_nil (Data.picture p) l)]
      by_cases hl : l = []
      · subst hl; rfl
      · rw [if_neg hl]; rfl
    | _ => cases hd

theorem toMap_insert {t : Tag} (hu : Unique t) (a : Atom) :
    Unique (insert t a) ∧ toMap (insert t a) = Op.spec (toMap t) (.insert a) := by
  by_cases h : a.ident = covr ∧ a.data.isPictures = true
  · simp only [Op.spec]
    unfold insert
    rw [if_pos h, if_pos h]
    refine toMap_insertData _ t hu ?_
    intro d hd
    rcases ha : a.data with x | l
    · rw [ha] at hd h
      simp [Storage.toList] at hd
      subst hd
      exact h.2
    · rw [ha] at hd h
      exact List.all_eq_true.mp h.2 d hd
  · simp only [Op.spec]
    rw [if_neg h]
    rcases insert_spec t a h with ⟨p, e, s, h1, h2, h3, d, h4, h5⟩ | ⟨h1, h2⟩
    · rw [h4]
      subst h1
      obtain ⟨h6, h7⟩ := toMap_mid (a := ⟨a.ident, d⟩) hu h2
      refine ⟨h6, ?_⟩
      rw [h7]
      simp only [Map.append, h5]
      congr 2
      rw [toMap_append, toMap_none.mpr h3, toMap_cons, if_pos h2]
      rfl
    · rw [h2]
      refine ⟨unique_append hu h1, funext fun j => ?_⟩
      rw [toMap_append, toMap_cons, toMap_nil]
      unfold Map.append Map.set
      by_cases hj : j = a.ident
      · subst hj
        rw [toMap_none.mpr h1]
        simp
      · rw [if_neg hj, if_neg (fun e => hj e.symm)]
        cases toMap t j <;> rfl

theorem toMap_removePictures {t : Tag} (hu : Unique t) :
    Unique (removePictures t) ∧ toMap (removePictures t) = Op.spec (toMap t) .removePictures := by
  refine ⟨unique_filter hu _, ?_⟩
  unfold removePictures
  funext i
  simp only [Op.spec]
  induction t with
  | nil => rfl
  | cons a t ih =>
    have hu' : Unique t := (List.nodup_cons.mp hu).2
    have hn : a.ident ∉ t.map Atom.ident := (List.nodup_cons.mp hu).1
    have ih := ih hu'
    rw [List.filter_cons]
    by_cases h : a.ident = i
    · have hi : toMap t i = none := toMap_none.mpr fun b hb hbi => hn (List.mem_map.mpr ⟨b, hb, by rw [hbi, h]⟩)
      rw [hi] at ih
      rw [toMap_cons, if_pos h]
      rcases hd : a.data.toList with _ | ⟨d, l⟩
      · rw [if_pos (by simp), toMap_cons, if_pos h, hd]
      · cases d with
        | picture p =>
          rw [if_neg (by simp [Data.isPicture])]
          exact ih
        | _ => rw [if_pos (by simp [Data.isPicture]), toMap_cons, if_pos h, hd]
    · rw [toMap_cons, if_neg h, ← ih]
      generalize (!match a.data.toList.head? with | some d => d.isPicture | none => false) = c
      cases c
      · rfl
      · rw [if_pos rfl, toMap_cons, if_neg h]

theorem ofNat_mod (n : Nat) : UInt8.ofNat (n % 256) = UInt8.ofNat n := by
  apply UInt8.toNat_inj.mp
  simp

theorem pairData_eq (a b : Nat) :
    pairData a b = [0, 0, UInt8.ofNat (a / 256), UInt8.ofNat a, UInt8.ofNat (b / 256), UInt8.ofNat b] := by
  have h2 : ∀ n, beBytes 2 n = [UInt8.ofNat (n / 256), UInt8.ofNat n] := by
    intro n
    simp [beBytes, leBytes]
  simp [pairData, h2]

theorem number_eq (t : Tag) (i : Ident) :
    number t i 4 = (pairOf (toMap t) i).1 ∧ number t i 6 = (pairOf (toMap t) i).2 := by
  have h2 : ∀ a b : UInt8, fromBE [a, b] = 256 * a.toNat + b.toNat := by
    intro a b; simp [fromBE, fromLE]; omega
  unfold number pairOf
  show (match List.find? (fun a => decide (a.ident = i)) t with | some a => _ | none => _) = _ ∧ (match List.find? (fun a => decide (a.ident = i)) t with | some a => _ | none => _) = _
  unfold toMap
  cases hf : List.find? (fun a => decide (a.ident = i)) t with
  | none => exact ⟨rfl, rfl⟩
  | some a =>
    simp only [Option.map_some]
    rcases hd : a.data.toList with _ | ⟨d, l⟩
    · exact ⟨rfl, rfl⟩
    · cases d with
      | unknown c d =>
        cases c with
        | succ c => exact ⟨rfl, rfl⟩
        | zero =>
          simp only [List.head?_cons]
          constructor
          · by_cases h : 4 ≤ d.length
            · rw [if_pos h, if_pos h]
              match d, h with
              | x0 :: x1 :: x2 :: x3 :: d, _ => simp [h2]
            · rw [if_neg h, if_neg h]
          · by_cases h : 6 ≤ d.length
            · rw [if_pos h, if_pos h]
              match d, h with
              | x0 :: x1 :: x2 :: x3 :: x4 :: x5 :: d, _ => simp [h2]
            · rw [if_neg h, if_neg h]
      | _ => exact ⟨rfl, rfl⟩

/-- **C39.** Every operation does to the map what the specification says, and keeps
identifiers unique. -/
theorem run_spec {t : Tag} (hu : Unique t) (op : Op) :
    Unique (op.run t) ∧ toMap (op.run t) = op.spec (toMap t) := by
  cases op with
  | insert a => exact toMap_insert hu a
  | replace a => exact toMap_replace hu a
  | remove i => exact toMap_remove hu i
  | setText i s => exact toMap_replace hu _
  | setFlag i v =>
    cases v
    · exact toMap_remove hu i
    · exact toMap_replace hu _
  | setNumber i v =>
    obtain ⟨h1, h2⟩ := toMap_replace hu ⟨i, .single (.unknown 0 (pairData v ((number t i 6).getD 0)))⟩
    refine ⟨h1, h2.trans ?_⟩
    simp only [Op.spec, Storage.toList, pairValue, (number_eq t i).2, pairData_eq]
  | setTotal i v =>
    obtain ⟨h1, h2⟩ := toMap_replace hu ⟨i, .single (.unknown 0 (pairData ((number t i 4).getD 0) v))⟩
    refine ⟨h1, h2.trans ?_⟩
    simp only [Op.spec, Storage.toList, pairValue, (number_eq t i).1, pairData_eq]
  | removeTotal i =>
    obtain ⟨h1, h2⟩ := toMap_remove hu i
    show Unique (removeTotal t i) ∧ toMap (removeTotal t i) = (toMap t).set i ((pairOf (toMap t) i).1.map fun n => pairValue n 0)
    unfold removeTotal
    rw [← (number_eq t i).1]
    cases hn : number t i 4 with
    | none => exact ⟨h1, h2⟩
    | some n =>
      obtain ⟨h3, h4⟩ := toMap_replace h1 ⟨i, .single (.unknown 0 (pairData n 0))⟩
      refine ⟨h3, h4.trans ?_⟩
      rw [h2]
      simp only [Option.map_some, Storage.toList, pairValue, pairData_eq]
      funext j
      unfold Map.set
      by_cases hj : j = i <;> simp [hj]
  | setRating r => exact toMap_replace hu _
  | insertPicture p => exact toMap_insertPicture hu p
  | removePictures => exact toMap_removePictures hu

/-- **C39, histories.** After any sequence of operations on a tag with unique identifiers
(for instance the empty one) the identifiers are unique, and the contents are those of the
abstract map. -/
theorem history (ops : List Op) (t : Tag) (hu : Unique t) :
    Unique (ops.foldl Op.run t) ∧ toMap (ops.foldl Op.run t) = ops.foldl Op.spec (toMap t) := by
  induction ops generalizing t with
  | nil => exact ⟨hu, rfl⟩
  | cons op ops ih =>
    obtain ⟨h1, h2⟩ := run_spec hu op
    have := ih _ h1
    rw [h2] at this
    exact this

theorem unique_nil : Unique [] := List.nodup_nil

/-- A history from the empty tag. -/
example : [Op.setNumber trkn 3, .setTotal trkn 12, .setText (four 0xA9 "nam") (str "a"), .setFlag covr false,
      .insert ⟨four 0xA9 "nam", .single (.utf8 (str "b"))⟩].foldl Op.run [] =
    [⟨trkn, .single (.unknown 0 [0, 0, 0, 3, 0, 12])⟩, ⟨four 0xA9 "nam", .multiple [.utf8 (str "a"), .utf8 (str "b")]⟩] := by
  decide

/-! ## What the accessors see -/

/-- The accessors look at the map only: what `get` returns. -/
theorem get_eq (t : Tag) (i : Ident) : (get t i).map (fun a => a.data.toList) = toMap t i := rfl

theorem pairOf_set (m : Map) (i : Ident) (a b : Nat) (ha : a < 65536) (hb : b < 65536) :
    pairOf (m.set i (some (pairValue a b))) i = (some a, some b) := by
  have h1 : (UInt8.ofNat (a / 256)).toNat = a / 256 := by simp; omega
  have h2 : (UInt8.ofNat (b / 256)).toNat = b / 256 := by simp; omega
  simp only [pairOf, Map.set, if_pos, pairValue]
  simp [h1, h2]
  omega

theorem pairOf_lt (m : Map) (i : Ident) : (pairOf m i).1.getD 0 < 65536 ∧ (pairOf m i).2.getD 0 < 65536 := by
  have h : ∀ a b : UInt8, 256 * a.toNat + b.toNat < 65536 := by
    intro a b
    have := a.toNat_lt; have := b.toNat_lt
    omega
  unfold pairOf
  split
  · rename_i d l _
    have hc : ∀ (p : Prop) [Decidable p] (a b : UInt8), (if p then some (256 * a.toNat + b.toNat) else none).getD 0 < 65536 := by
      intro p _ a b
      split
      · exact h _ _
      · simp
    exact ⟨hc _ _ _, hc _ _ _⟩
  · simp

/-- **C39.** Setting the track (or disc) number makes it the number, and keeps the total
(a missing total becomes 0). -/
theorem setNumber_keeps {t : Tag} (hu : Unique t) (i : Ident) (v : Nat) (hv : v < 65536) :
    number (setNumber t i v) i 4 = some v ∧
    number (setNumber t i v) i 6 = some ((number t i 6).getD 0) := by
  have h := (run_spec hu (.setNumber i v)).2
  have h' : toMap (setNumber t i v) = (toMap t).set i (some (pairValue v ((pairOf (toMap t) i).2.getD 0))) := h
  rw [(number_eq _ i).1, (number_eq _ i).2, (number_eq t i).2, h', pairOf_set _ _ _ _ hv (pairOf_lt _ _).2]
  exact ⟨rfl, rfl⟩

/-- **C39.** Setting the total keeps the number. -/
theorem setTotal_keeps {t : Tag} (hu : Unique t) (i : Ident) (v : Nat) (hv : v < 65536) :
    number (setTotal t i v) i 6 = some v ∧
    number (setTotal t i v) i 4 = some ((number t i 4).getD 0) := by
  have h := (run_spec hu (.setTotal i v)).2
  have h' : toMap (setTotal t i v) = (toMap t).set i (some (pairValue ((pairOf (toMap t) i).1.getD 0) v)) := h
  rw [(number_eq _ i).1, (number_eq _ i).2, (number_eq t i).1, h', pairOf_set _ _ _ _ (pairOf_lt _ _).1 hv]
  exact ⟨rfl, rfl⟩

/-- **C39.** Removing the total keeps the number; the total then reads as 0, not as absent,
whenever there was a number. -/
theorem removeTotal_keeps {t : Tag} (hu : Unique t) (i : Ident) :
    number (removeTotal t i) i 4 = number t i 4 ∧
    number (removeTotal t i) i 6 = (number t i 4).map fun _ => 0 := by
  have h := (run_spec hu (.removeTotal i)).2
  have h' : toMap (removeTotal t i) = (toMap t).set i ((pairOf (toMap t) i).1.map fun n => pairValue n 0) := h
  rw [(number_eq _ i).1, (number_eq _ i).2, (number_eq t i).1, h']
  have hl := (pairOf_lt (toMap t) i).1
  cases hp : (pairOf (toMap t) i).1 with
  | none => simp [pairOf, Map.set]
  | some n =>
    rw [hp] at hl
    rw [Option.map_some, pairOf_set _ _ n 0 hl (by decide)]
    exact ⟨rfl, rfl⟩

/-- A number of 65536 or more is not kept. -/
theorem large_number_lost : number (setNumber [] trkn 65537) trkn 4 = some 1 := by decide

example : number (setTotal (setNumber [] trkn 7) trkn 12) trkn 4 = some 7 := by decide

/-- **C39.** A text that was set is read, whatever the tag. -/
theorem getText_setText (t : Tag) (i : Ident) (s : Str) : getText (setText t i s) i = some s := by
  have : get (setText t i s) i = some ⟨i, .single (.utf8 s)⟩ := by
    have h := (replace_spec t ⟨i, .single (.utf8 s)⟩).1
    unfold get setText
    rw [← List.head?_filter, h]
    rfl
  rw [getText, this]
  rfl

/-- **C39.** A flag that was set is read, whatever the tag. -/
theorem getFlag_setFlag (t : Tag) (i : Ident) (v : Bool) : getFlag (setFlag t i v) i = v := by
  cases v
  · have : get (setFlag t i false) i = none := by
      unfold get setFlag
      rw [List.find?_eq_none]
      intro a ha
      simpa using (mem_remove.mp ha).2
    rw [getFlag, this]
  · have : get (setFlag t i true) i = some ⟨i, .single (.bool true)⟩ := by
      have h := (replace_spec t ⟨i, .single (.bool true)⟩).1
      show get (replace t ⟨i, .single (.bool true)⟩) i = _
      unfold get
      rw [← List.head?_filter, h]
      rfl
    rw [getFlag, this]
    rfl

/-- **C39.** An advisory rating that was set is read, whatever the tag. -/
theorem rating_setRating (t : Tag) (r : Fin 3) : rating (setRating t r) = some r.val := by
  have : get (setRating t r) rtng = some ⟨rtng, .single (.signed (Int32.ofNat r.val))⟩ := by
    have h := (replace_spec t ⟨rtng, .single (.signed (Int32.ofNat r.val))⟩).1
    unfold get setRating
    rw [← List.head?_filter, h]
    rfl
  rw [rating, this]
  clear this
  revert r
  decide

/-- **C39.** An inserted picture is the last of the pictures. -/
theorem pictures_insertPicture {t : Tag} (hu : Unique t) (p : Pic) :
    pictures (insertPicture t p) = some ((pictures t).getD [] ++ [{ p with ty := .other }]) := by
  have h := (toMap_insertPicture hu p).2
  have hp : ∀ t : Tag, pictures t = (toMap t covr).map fun l => l.filterMap fun | .picture p => some p | _ => none := by
    intro t
    unfold pictures toMap get covr
    rw [Option.map_map]
    rfl
  rw [hp, h, hp t]
  simp only [Map.append, Map.set, if_true, Option.map_some]
  cases toMap t covr <;> simp

end Lofty.Ilst
