import Verif.Spec.Order
import Verif.Props.Timestamp
import Verif.Lemmas.Id3v2List
/-! Lemmas for C81. -/
namespace Lofty

theorem cmpNat_lt {a b : Nat} : cmpNat a b = .lt ↔ a < b := by
  unfold cmpNat
  split
  · simp_all
  · split <;> simp <;> omega
theorem cmpNat_eq {a b : Nat} : cmpNat a b = .eq ↔ a = b := by unfold cmpNat; split <;> simp_all; omega
theorem cmpNat_swap (a b : Nat) : cmpNat b a = (cmpNat a b).swap := by
  unfold cmpNat
  by_cases h1 : a < b
  · rw [if_pos h1, if_neg (by omega), if_neg (by omega)]; rfl
  · by_cases h2 : a = b
    · rw [if_neg h1, if_pos h2, if_neg (by omega), if_pos h2.symm]; rfl
    · rw [if_neg h1, if_neg h2, if_pos (by omega)]; rfl

theorem cmpNat_self (a : Nat) : cmpNat a a = .eq := cmpNat_eq.mpr rfl

theorem cmpOpt_num (a b : Option Nat) : cmpOpt a b = cmpNat (optNum a) (optNum b) := by
  cases a <;> cases b <;> simp [cmpOpt, cmpNat, optNum]

theorem optNum_inj {a b : Option Nat} (h : optNum a = optNum b) : a = b := by
  cases a <;> cases b <;> simp_all [optNum]

/-- The lexicographic order of lists of numbers. -/
def lexNat : List Nat → List Nat → Ordering
  | [], [] => .eq
  | [], _ :: _ => .lt
  | _ :: _, [] => .gt
  | a :: x, b :: y => andThen (cmpNat a b) (lexNat x y)

theorem andThen_assoc (a b c : Ordering) : andThen (andThen a b) c = andThen a (andThen b c) := by cases a <;> rfl
theorem andThen_eq (a : Ordering) : andThen a .eq = a := by cases a <;> rfl
theorem eq_andThen (a : Ordering) : andThen .eq a = a := rfl
theorem andThen_swap (a b : Ordering) : (andThen a b).swap = andThen a.swap b.swap := by cases a <;> rfl

theorem lexNat_swap : ∀ a b : List Nat, lexNat b a = (lexNat a b).swap
  | [], [] => rfl
  | [], _ :: _ => rfl
  | _ :: _, [] => rfl
  | a :: x, b :: y => by rw [lexNat, lexNat, andThen_swap, cmpNat_swap, lexNat_swap x y]

theorem lexNat_eq : ∀ a b : List Nat, lexNat a b = .eq ↔ a = b
  | [], [] => by simp [lexNat]
  | [], _ :: _ => by simp [lexNat]
  | _ :: _, [] => by simp [lexNat]
  | a :: x, b :: y => by
    rw [lexNat]
    cases h : cmpNat a b with
    | lt => simp [andThen, Nat.ne_of_lt (cmpNat_lt.mp h)]
    | eq => simp [andThen, cmpNat_eq.mp h, lexNat_eq x y]
    | gt =>
      have : a ≠ b := fun e => by rw [e, cmpNat_self] at h; cases h
      simp [andThen, this]

theorem lexNat_trans : ∀ a b c : List Nat, lexNat a b = .lt → lexNat b c = .lt → lexNat a c = .lt
  | [], [], _, h, _ => by simp [lexNat] at h
  | [], _ :: _, [], _, h => by simp [lexNat] at h
  | [], _ :: _, _ :: _, _, _ => rfl
  | _ :: _, [], _, h, _ => by simp [lexNat] at h
  | _ :: _, _ :: _, [], _, h => by simp [lexNat] at h
  | a :: x, b :: y, c :: z, h1, h2 => by
    rw [lexNat] at h1 h2 ⊢
    cases e1 : cmpNat a b with
    | gt => rw [e1] at h1; cases h1
    | lt =>
      have l1 := cmpNat_lt.mp e1
      cases e2 : cmpNat b c with
      | gt => rw [e2] at h2; cases h2
      | lt => rw [cmpNat_lt.mpr (Nat.lt_trans l1 (cmpNat_lt.mp e2))]; rfl
      | eq => rw [cmpNat_lt.mpr (cmpNat_eq.mp e2 ▸ l1)]; rfl
    | eq =>
      have l1 := cmpNat_eq.mp e1
      subst l1
      rw [e1, eq_andThen] at h1
      cases e2 : cmpNat a c with
      | gt => rw [e2] at h2; cases h2
      | lt => rfl
      | eq => rw [e2, eq_andThen] at h2; exact lexNat_trans x y z h1 h2

theorem lexNat_lt : ∀ {a b : List Nat}, a.length = b.length → (lexNat a b = .lt ↔ FirstDiff a b)
  | [], [], _ => by simp [lexNat, FirstDiff]
  | [], _ :: _, h => by simp at h
  | _ :: _, [], h => by simp at h
  | a :: x, b :: y, h => by
    have ih := lexNat_lt (a := x) (b := y) (by simpa using h)
    rw [lexNat]
    constructor
    · intro e
      cases e1 : cmpNat a b with
      | gt => rw [e1] at e; cases e
      | lt => exact ⟨0, a, b, rfl, rfl, rfl, cmpNat_lt.mp e1⟩
      | eq =>
        rw [e1, eq_andThen] at e
        obtain ⟨i, p, q, h1, h2, h3, h4⟩ := ih.mp e
        exact ⟨i + 1, p, q, by rw [List.take_succ_cons, List.take_succ_cons, h1, cmpNat_eq.mp e1], by simpa using h2, by simpa using h3, h4⟩
    · rintro ⟨i, p, q, h1, h2, h3, h4⟩
      cases i with
      | zero =>
        simp only [List.getElem?_cons_zero, Option.some.injEq] at h2 h3
        subst h2 h3
        rw [cmpNat_lt.mpr h4]; rfl
      | succ i =>
        rw [List.take_succ_cons, List.take_succ_cons, List.cons.injEq] at h1
        rw [h1.1, cmpNat_self, eq_andThen]
        exact ih.mpr ⟨i, p, q, h1.2, by simpa using h2, by simpa using h3, h4⟩

namespace Timestamp

theorem cmp_components (a b : Timestamp) : cmp a b = lexNat a.components b.components := by
  have e : ∀ t : Timestamp, t.components = [t.year, optNum t.month, optNum t.day, optNum t.hour, optNum t.minute, optNum t.second] := by
    intro t; rfl
  simp only [e, cmp, lexNat, cmpOpt_num, andThen_assoc, andThen_eq]

theorem components_inj {a b : Timestamp} (h : a.components = b.components) : a = b := by
  obtain ⟨y, m, d, hh, mi, s⟩ := a
  obtain ⟨y', m', d', hh', mi', s'⟩ := b
  simp only [components, List.map, List.cons.injEq] at h
  obtain ⟨h1, h2, h3, h4, h5, h6, -⟩ := h
  simp only [Timestamp.mk.injEq]
  exact ⟨h1, optNum_inj h2, optNum_inj h3, optNum_inj h4, optNum_inj h5, optNum_inj h6⟩

theorem textCmp_cons (a b : UInt8) (x y : Bytes) : textCmp (a :: x) (b :: y) = andThen (cmpNat a.toNat b.toNat) (textCmp x y) := by
  rw [textCmp]
  by_cases h1 : a.toNat < b.toNat
  · rw [if_pos h1, cmpNat_lt.mpr h1]; rfl
  · by_cases h2 : a.toNat = b.toNat
    · rw [if_neg h1, if_neg (by omega), h2, cmpNat_self]; rfl
    · rw [if_neg h1, if_pos (by omega), cmpNat, if_neg h1, if_neg h2]; rfl

theorem textCmp_same (p x y : Bytes) : textCmp (p ++ x) (p ++ y) = textCmp x y := by
  induction p with
  | nil => rfl
  | cons c p ih => rw [List.cons_append, List.cons_append, textCmp_cons, cmpNat_self, eq_andThen, ih]

theorem textCmp_two {m n : Nat} (hm : m ≤ 99) (hn : n ≤ 99) (x y : Bytes) :
    textCmp (two m ++ x) (two n ++ y) = andThen (cmpNat m n) (textCmp x y) := by
  simp only [two, List.cons_append, List.nil_append, textCmp_cons]
  rw [dig_toNat (by omega), dig_toNat (by omega), dig_toNat (by omega), dig_toNat (by omega), ← andThen_assoc]
  congr 1
  rcases Nat.lt_trichotomy m n with h | h | h
  · rw [cmpNat_lt.mpr h]
    by_cases h1 : m / 10 < n / 10
    · rw [cmpNat_lt.mpr (by omega)]; rfl
    · rw [cmpNat_eq.mpr (by omega), eq_andThen, cmpNat_lt.mpr (by omega)]
  · subst h; simp only [cmpNat_self]; rfl
  · rw [cmpNat_swap n m, cmpNat_lt.mpr h]
    by_cases h1 : n / 10 < m / 10
    · rw [cmpNat_swap, cmpNat_lt.mpr (show 48 + n / 10 < 48 + m / 10 by omega)]; rfl
    · rw [cmpNat_eq.mpr (by omega), eq_andThen, cmpNat_swap, cmpNat_lt.mpr (show 48 + n % 10 < 48 + m % 10 by omega)]

theorem textCmp_four {m n : Nat} (hm : m ≤ 9999) (hn : n ≤ 9999) (x y : Bytes) :
    textCmp (four m ++ x) (four n ++ y) = andThen (cmpNat m n) (textCmp x y) := by
  have e : ∀ k, four k = two (k / 100) ++ two (k % 100) := by
    intro k
    simp only [four, two, List.cons_append, List.nil_append]
    rw [show k / 1000 = k / 100 / 10 by omega, show k / 10 % 10 = k % 100 / 10 by omega, show k % 10 = k % 100 % 10 by omega]
  rw [e, e, List.append_assoc, List.append_assoc, textCmp_two (by omega) (by omega), textCmp_two (by omega) (by omega), ← andThen_assoc]
  congr 1
  rcases Nat.lt_trichotomy m n with h | h | h
  · rw [cmpNat_lt.mpr h]
    by_cases h1 : m / 100 < n / 100
    · rw [cmpNat_lt.mpr (by omega)]; rfl
    · rw [cmpNat_eq.mpr (by omega), eq_andThen, cmpNat_lt.mpr (by omega)]
  · subst h; simp only [cmpNat_self]; rfl
  · rw [cmpNat_swap n m, cmpNat_lt.mpr h]
    by_cases h1 : n / 100 < m / 100
    · rw [cmpNat_swap, cmpNat_lt.mpr h1]; rfl
    · rw [cmpNat_eq.mpr (by omega), eq_andThen, cmpNat_swap, cmpNat_lt.mpr (show n % 100 < m % 100 by omega)]

theorem textCmp_rend (ss : List (Option Bytes)) : ∀ vs ws : List Nat, vs.length ≤ ss.length → ws.length ≤ ss.length →
    (∀ v ∈ vs, v ≤ 99) → (∀ w ∈ ws, w ≤ 99) → textCmp (rend ss vs) (rend ss ws) = lexNat vs ws := by
  induction ss with
  | nil =>
    intro vs ws h1 h2 _ _
    obtain rfl := List.length_eq_zero_iff.mp (Nat.le_zero.mp h1)
    obtain rfl := List.length_eq_zero_iff.mp (Nat.le_zero.mp h2)
    rfl
  | cons s ss ih =>
    have ne : ∀ (v : Nat) (r : Bytes), ∃ c t, sepH s ++ two v ++ r = c :: t := by
      intro v r
      cases hs : sepH s with
      | nil => exact ⟨_, _, rfl⟩
      | cons c t => exact ⟨c, _, rfl⟩
    intro vs ws h1 h2 hv hw
    match vs, ws with
    | [], [] => rfl
    | [], w :: ws =>
      obtain ⟨c, t, e⟩ := ne w (rend ss ws)
      simp only [rend, e]; rfl
    | v :: vs, [] =>
      obtain ⟨c, t, e⟩ := ne v (rend ss vs)
      simp only [rend, e]; rfl
    | v :: vs, w :: ws =>
      simp only [rend, lexNat]
      rw [List.append_assoc, List.append_assoc, textCmp_same, textCmp_two (hv v (by simp)) (hw w (by simp)),
        ih vs ws (by simpa using h1) (by simpa using h2) (fun x hx => hv x (by simp [hx])) (fun x hx => hw x (by simp [hx]))]

theorem cmp_ofList {y z : Nat} {vs ws : List Nat} (h1 : vs.length ≤ 5) (h2 : ws.length ≤ 5) :
    cmp (ofList y vs) (ofList z ws) = andThen (cmpNat y z) (lexNat vs ws) := by
  have key : ∀ n (vs ws : List Nat), vs.length ≤ n → ws.length ≤ n →
      lexNat ((List.range n).map fun i => optNum vs[i]?) ((List.range n).map fun i => optNum ws[i]?) = lexNat vs ws := by
    intro n
    induction n with
    | zero =>
      intro vs ws h1 h2
      obtain rfl := List.length_eq_zero_iff.mp (Nat.le_zero.mp h1)
      obtain rfl := List.length_eq_zero_iff.mp (Nat.le_zero.mp h2)
      rfl
    | succ n ih =>
      intro vs ws h1 h2
      rw [List.range_succ_eq_map, List.map_cons, List.map_cons, List.map_map, List.map_map, lexNat]
      match vs, ws with
      | [], [] =>
        have := ih [] [] (by simp) (by simp)
        simp only [List.getElem?_nil, lexNat] at this ⊢
        simp only [Function.comp_def, List.getElem?_nil, cmpNat_self, eq_andThen]
        exact this
      | [], w :: ws =>
        simp only [List.getElem?_nil, List.getElem?_cons_zero, optNum, lexNat]
        rw [cmpNat_lt.mpr (by omega)]; rfl
      | v :: vs, [] =>
        simp only [List.getElem?_nil, List.getElem?_cons_zero, optNum, lexNat]
        rw [cmpNat_swap, cmpNat_lt.mpr (by omega)]; rfl
      | v :: vs, w :: ws =>
        have := ih vs ws (by simpa using h1) (by simpa using h2)
        simp only [Function.comp_def, List.getElem?_cons_zero, List.getElem?_cons_succ, optNum, lexNat] at this ⊢
        rw [this]
        congr 1
        simp only [cmpNat, Nat.add_lt_add_iff_right, Nat.add_right_cancel_iff]
  have k := key 5 vs ws h1 h2
  rw [cmp_components]
  have e : ∀ (y : Nat) (vs : List Nat), (ofList y vs).components = y :: (List.range 5).map fun i => optNum vs[i]? := by
    intro y vs; rfl
  rw [e, e, lexNat, k]

end Timestamp
end Lofty
