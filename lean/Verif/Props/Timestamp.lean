import Verif.Spec.Timestamp
import Verif.Lemmas.Text
import Verif.Lemmas.Ascii
import Verif.Lemmas.Bytes
/-! # C34: timestamps -/
namespace Lofty.Timestamp

/-! ## Digits -/

theorem dig_toNat {d : Nat} (h : d < 10) : (dig d).toNat = 48 + d := by
  simp only [dig, UInt8.toNat_ofNat']; omega

theorem dig_digit {d : Nat} (h : d < 10) : isDigit (dig d) = true := by
  simp only [isDigit, dig_toNat h, Bool.and_eq_true, decide_eq_true_eq]; omega

theorem dig_ne {d : Nat} (h : d < 10) {b : UInt8} (hb : b.toNat < 48 ∨ 57 < b.toNat) : dig d ≠ b := by
  intro e; have := congrArg UInt8.toNat e; rw [dig_toNat h] at this; omega

theorem two_length (n : Nat) : (two n).length = 2 := rfl
theorem four_length (n : Nat) : (four n).length = 4 := rfl

theorem segLoop_digit {hs : Bool} {mode : Mode} {d : Nat} (h : d < 10) (rest : Bytes) (num : Option Nat) (c : Nat) :
    segLoop hs mode (dig d :: rest) num c = segLoop hs mode rest (some (num.getD 0 * 10 + d)) (c + 1) := by
  rw [segLoop, if_neg (dig_ne h (by decide)), if_neg (by simp [dig_digit h]), dig_toNat h]
  have : 48 + d - 48 = d := by omega
  rw [this]

theorem segDigits_two {hs : Bool} {mode : Mode} {n : Nat} (h : n ≤ 99) (rest : Bytes) :
    segDigits 2 hs mode (two n ++ rest) = .ok ((n, 2), rest) := by
  have e : n / 10 * 10 + n % 10 = n := by omega
  rw [segDigits, if_neg (by simp [two]), List.take_left' (two_length n)]
  simp only [two]
  rw [segLoop_digit (by omega), segLoop_digit (by omega), segLoop]
  simp [e]

theorem segDigits_four {hs : Bool} {mode : Mode} {n : Nat} (h : n ≤ 9999) (rest : Bytes) :
    segDigits 4 hs mode (four n ++ rest) = .ok ((n, 4), rest) := by
  have e : ((n / 1000 * 10 + n / 100 % 10) * 10 + n / 10 % 10) * 10 + n % 10 = n := by omega
  rw [segDigits, if_neg (by simp [four]), List.take_left' (four_length n)]
  simp only [four]
  rw [segLoop_digit (by omega), segLoop_digit (by omega), segLoop_digit (by omega), segLoop_digit (by omega), segLoop]
  simp [e]

/-! ## Segments -/

/-- The first of the accepted separators. -/
def sepH : Option Bytes → Bytes
  | none => []
  | some s => s.take 1

/-- Values written with the separators of `ss` in front. -/
def rend : List (Option Bytes) → List Nat → Bytes
  | s :: ss, v :: vs => sepH s ++ two v ++ rend ss vs
  | _, _ => []

theorem two_ne_nil (n : Nat) (r : Bytes) : two n ++ r ≠ [] := by simp [two]

theorem segment_two {mode : Mode} {s : Option Bytes} (hs : s ≠ some []) {n : Nat} (h : n ≤ 99) (rest : Bytes) :
    segment 2 s mode (sepH s ++ two n ++ rest) = .ok ((n, 2), rest) := by
  cases s with
  | none =>
    have e : sepH none ++ two n ++ rest = two n ++ rest := rfl
    rw [e]
    have := segDigits_two (hs := false) (mode := mode) h rest
    simp only [two, List.cons_append, List.nil_append] at this ⊢
    simp only [segment]; exact this
  | some s =>
    cases s with
    | nil => exact absurd rfl hs
    | cons x xs =>
      have e : sepH (some (x :: xs)) ++ two n ++ rest = x :: (two n ++ rest) := rfl
      rw [e, segment]
      simp only [List.findIdx?_cons, BEq.rfl, if_true, Nat.lt_irrefl, false_and, if_false]
      exact segDigits_two h rest

theorem segments_rend {mode : Mode} (ss : List (Option Bytes)) (hss : ∀ s ∈ ss, s ≠ some []) : ∀ (vs : List Nat) (tail : Bytes),
    vs.length ≤ ss.length → (∀ v ∈ vs, v ≤ 99) → (tail ≠ [] → vs.length = ss.length) →
    segments mode ss (rend ss vs ++ tail) = .ok vs := by
  induction ss with
  | nil =>
    intro vs tail hl _ _
    cases vs with
    | nil => rfl
    | cons v vs => simp at hl
  | cons s ss ih =>
    intro vs tail hl hv ht
    cases vs with
    | nil =>
      have : tail = [] := by
        rcases Classical.em (tail = []) with h | h
        · exact h
        · have := ht h; simp at this
      subst this
      simp only [rend, List.append_nil, segments, segment, ok_bind, if_true]
    | cons v vs =>
      have hv9 := hv v (by simp)
      simp only [rend, List.append_assoc]
      rw [segments, ← List.append_assoc, segment_two (hss s (by simp)) hv9]
      simp only [ok_bind]
      rw [if_neg (by decide), ih (fun s hs => hss s (by simp [hs])) vs tail (by simpa using hl) (fun x hx => hv x (by simp [hx]))
        (fun h => by simpa using ht h)]
      simp only [ok_bind]
      rw [Nat.mod_eq_of_lt (by omega)]

theorem digit_dig {b : UInt8} (h : isDigit b = true) : b.toNat - 48 < 10 ∧ b = dig (b.toNat - 48) := by
  simp only [isDigit, Bool.and_eq_true, decide_eq_true_eq] at h
  refine ⟨by omega, ?_⟩
  apply UInt8.toNat_inj.mp
  rw [dig_toNat (by omega)]; omega

theorem segLoop_strict {hs : Bool} {i : UInt8} {rest : Bytes} {num : Option Nat} {c : Nat} {x : Option Nat × Nat}
    (h : segLoop hs .strict (i :: rest) num c = .ok x) :
    ∃ d < 10, i = dig d ∧ segLoop hs .strict rest (some (num.getD 0 * 10 + d)) (c + 1) = .ok x := by
  rw [segLoop] at h
  split at h
  · simp at h
  · split at h
    · simp at h
    · rename_i hd
      have hd' : isDigit i = true := by simpa using hd
      obtain ⟨h1, h2⟩ := digit_dig hd'
      exact ⟨_, h1, h2, h⟩

theorem segDigits_two_strict {hs : Bool} {c c' : Bytes} {n k : Nat} (h : segDigits 2 hs .strict c = .ok ((n, k), c')) :
    n ≤ 99 ∧ k = 2 ∧ c = two n ++ c' := by
  rw [segDigits] at h
  split at h
  · simp at h
  · rename_i hl
    match c, hl with
    | a :: b :: r, _ =>
      simp only [List.take_succ_cons, List.take_zero] at h
      obtain ⟨x, hx, h⟩ := bind_ok h
      obtain ⟨d1, h1, e1, hx⟩ := segLoop_strict hx
      obtain ⟨d2, h2, e2, hx⟩ := segLoop_strict hx
      simp only [segLoop, Except.ok.injEq] at hx
      subst hx
      simp only [Except.ok.injEq, Prod.mk.injEq, Option.getD_none, Option.getD_some, List.drop_succ_cons, List.drop_zero] at h
      obtain ⟨⟨hn, hk⟩, hc⟩ := h
      have q1 : n / 10 = d1 := by omega
      have q2 : n % 10 = d2 := by omega
      refine ⟨by omega, hk.symm, ?_⟩
      rw [two, q1, q2, e1, e2, ← hc]; rfl
    | [a], hl => simp at hl
    | [], hl => simp at hl

theorem segDigits_four_strict {hs : Bool} {c c' : Bytes} {n k : Nat} (h : segDigits 4 hs .strict c = .ok ((n, k), c')) :
    n ≤ 9999 ∧ k = 4 ∧ c = four n ++ c' := by
  rw [segDigits] at h
  split at h
  · simp at h
  · rename_i hl
    match c, hl with
    | a :: b :: e :: f :: r, _ =>
      simp only [List.take_succ_cons, List.take_zero] at h
      obtain ⟨x, hx, h⟩ := bind_ok h
      obtain ⟨d1, h1, e1, hx⟩ := segLoop_strict hx
      obtain ⟨d2, h2, e2, hx⟩ := segLoop_strict hx
      obtain ⟨d3, h3, e3, hx⟩ := segLoop_strict hx
      obtain ⟨d4, h4, e4, hx⟩ := segLoop_strict hx
      simp only [segLoop, Except.ok.injEq] at hx
      subst hx
      simp only [Except.ok.injEq, Prod.mk.injEq, Option.getD_none, Option.getD_some, List.drop_succ_cons, List.drop_zero] at h
      obtain ⟨⟨hn, hk⟩, hc⟩ := h
      have q1 : n / 1000 = d1 := by omega
      have q2 : n / 100 % 10 = d2 := by omega
      have q3 : n / 10 % 10 = d3 := by omega
      have q4 : n % 10 = d4 := by omega
      refine ⟨by omega, hk.symm, ?_⟩
      rw [four, q1, q2, q3, q4, e1, e2, e3, e4, ← hc]; rfl
    | [_, _, _], hl => simp at hl
    | [_, _], hl => simp at hl
    | [_], hl => simp at hl
    | [], hl => simp at hl

theorem segment_strict {s : Option Bytes} {c c' : Bytes} {n k : Nat} (h : segment 2 s .strict c = .ok ((n, k), c')) :
    (c = [] ∧ k = 0) ∨ (n ≤ 99 ∧ k = 2 ∧ c = sepH s ++ two n ++ c') := by
  unfold segment at h
  split at h
  · simp only [Except.ok.injEq, Prod.mk.injEq] at h; exact .inl ⟨rfl, h.1.2.symm⟩
  · right
    have := segDigits_two_strict h
    exact ⟨this.1, this.2.1, by simpa [sepH] using this.2.2⟩
  · rename_i b content sep
    split at h
    · rename_i pos hp
      split at h
      · simp at h
      · rename_i hpos
        have h0 : pos = 0 := by simpa using hpos
        subst h0
        cases sep with
        | nil => simp at hp
        | cons x xs =>
          have hx : x = b := by
            rw [List.findIdx?_cons] at hp
            split at hp
            · rename_i hh; simpa using hh
            · simp at hp
          have := segDigits_two_strict h
          right
          exact ⟨this.1, this.2.1, by simp only [sepH, List.take_succ_cons, List.take_zero, hx, this.2.2]; rfl⟩
    · simp at h

theorem segments_strict (ss : List (Option Bytes)) : ∀ (c : Bytes) (vs : List Nat), segments .strict ss c = .ok vs →
    vs.length ≤ ss.length ∧ (∀ v ∈ vs, v ≤ 99) ∧ ∃ tail, c = rend ss vs ++ tail ∧ (tail ≠ [] → vs.length = ss.length) := by
  induction ss with
  | nil =>
    intro c vs h
    simp only [segments, Except.ok.injEq] at h
    subst h
    exact ⟨Nat.le_refl _, by simp, c, rfl, fun _ => rfl⟩
  | cons s ss ih =>
    intro c vs h
    rw [segments] at h
    obtain ⟨⟨⟨v, n⟩, c'⟩, hs, h2⟩ := bind_ok h
    clear h
    have h := h2
    clear h2
    simp only at h
    rcases segment_strict hs with ⟨hc, hn⟩ | ⟨hv, hn, hc⟩
    · subst hn; subst hc
      simp only [if_true, Except.ok.injEq] at h
      subst h
      exact ⟨by simp, by simp, [], rfl, fun h => absurd rfl h⟩
    · subst hn
      rw [if_neg (by decide)] at h
      obtain ⟨r, hr, h⟩ := bind_ok h
      simp only [Except.ok.injEq] at h
      obtain ⟨i1, i2, tail, i3, i4⟩ := ih c' r hr
      rw [Nat.mod_eq_of_lt (by omega)] at h
      subst h
      refine ⟨by simpa using i1, ?_, tail, ?_, ?_⟩
      · intro x hx
        rcases List.mem_cons.mp hx with e | e
        · rw [e]; exact hv
        · exact i2 x e
      · rw [hc, i3]; simp [rend]
      · intro ht; simpa using i4 ht

/-! ## The whole text -/

/-- A timestamp from the components behind the year. -/
def ofList (y : Nat) (r : List Nat) : Timestamp := ⟨y, r[0]?, r[1]?, r[2]?, r[3]?, r[4]?⟩

theorem expected_ne (seps : Bool) : ∀ s ∈ expected seps, s ≠ some [] := by cases seps <;> decide

theorem render_ofList (seps : Bool) (y : Nat) (vs : List Nat) (h : vs.length ≤ 5) :
    render seps (ofList y vs) = four y ++ rend (expected seps) vs := by
  match vs, h with
  | [], _ => cases seps <;> rfl
  | [_], _ => cases seps <;> rfl
  | [_, _], _ => cases seps <;> rfl
  | [_, _, _], _ => cases seps <;> rfl
  | [_, _, _, _], _ => cases seps <;> rfl
  | [_, _, _, _, _], _ => cases seps <;> rfl
  | _ :: _ :: _ :: _ :: _ :: _ :: _, h => simp at h

theorem shape_ofList {y : Nat} {vs : List Nat} (hy : y ≤ 9999) (h : vs.length ≤ 5) (hv : ∀ v ∈ vs, v ≤ 99) : Shape (ofList y vs) := by
  match vs, h with
  | [], _ => constructor <;> simp_all [ofList]
  | [_], _ => constructor <;> simp_all [ofList]
  | [_, _], _ => constructor <;> simp_all [ofList]
  | [_, _, _], _ => constructor <;> simp_all [ofList]
  | [_, _, _, _], _ => constructor <;> simp_all [ofList]
  | [_, _, _, _, _], _ => constructor <;> simp_all [ofList]
  | _ :: _ :: _ :: _ :: _ :: _ :: _, h => simp at h

theorem ofList_of_shape {t : Timestamp} (h : Shape t) : ∃ vs : List Nat, vs.length ≤ 5 ∧ (∀ v ∈ vs, v ≤ 99) ∧ t = ofList t.year vs := by
  obtain ⟨y, mo, d, h', mi, s⟩ := t
  obtain ⟨_, hm, hd, hh, hi, hs⟩ := h
  simp only at *
  cases mo with
  | none =>
    cases d with
    | some d => simpa using hd d
    | none =>
      cases h' with
      | some d => simpa using hh d
      | none =>
        cases mi with
        | some d => simpa using hi d
        | none =>
          cases s with
          | some d => simpa using hs d
          | none => exact ⟨[], by simp, by simp, rfl⟩
  | some mo =>
    have hm := hm mo rfl
    cases d with
    | none =>
      cases h' with
      | some d => simpa using hh d
      | none =>
        cases mi with
        | some d => simpa using hi d
        | none =>
          cases s with
          | some d => simpa using hs d
          | none => exact ⟨[mo], by simp, by simpa using hm, rfl⟩
    | some d =>
      have hd := (hd d rfl).1
      cases h' with
      | none =>
        cases mi with
        | some d => simpa using hi d
        | none =>
          cases s with
          | some d => simpa using hs d
          | none => exact ⟨[mo, d], by simp, by simp [hm, hd], rfl⟩
      | some h' =>
        have hh := (hh h' rfl).1
        cases mi with
        | none =>
          cases s with
          | some d => simpa using hs d
          | none => exact ⟨[mo, d, h'], by simp, by simp [hm, hd, hh], rfl⟩
        | some mi =>
          have hi := (hi mi rfl).1
          cases s with
          | none => exact ⟨[mo, d, h', mi], by simp, by simp [hm, hd, hh, hi], rfl⟩
          | some s => exact ⟨[mo, d, h', mi, s], by simp, by simp [hm, hd, hh, hi, (hs s rfl).1], rfl⟩

/-- Does the text contain one of the marks? -/
def marks (c : Bytes) : Bool := c.any fun b => b != 84 && isSep b

theorem marks_iff (c : Bytes) : marks c = true ↔ ∃ b ∈ c, IsMark b := by
  simp only [marks, List.any_eq_true, Bool.and_eq_true, bne_iff_ne, isSep, Bool.or_eq_true, beq_iff_eq, IsMark]
  constructor
  · rintro ⟨b, hb, h1, h2⟩; exact ⟨b, hb, by rcases h2 with ((h | h) | h) | h <;> simp_all⟩
  · rintro ⟨b, hb, h | h | h⟩ <;> exact ⟨b, hb, by rw [h]; decide⟩

theorem marks_append (a b : Bytes) : marks (a ++ b) = (marks a || marks b) := by simp [marks]

theorem marks_dig {d : Nat} (h : d < 10) : IsMark (dig d) → False := by
  rintro (e | e | e)
  · exact dig_ne h (by decide) e
  · exact dig_ne h (by decide) e
  · exact dig_ne h (by decide) e

theorem marks_two {n : Nat} (h : n ≤ 99) : marks (two n) = false := by
  rw [← Bool.not_eq_true, marks_iff]
  rintro ⟨b, hb, hm⟩
  simp only [two, List.mem_cons, List.not_mem_nil, or_false] at hb
  rcases hb with rfl | rfl <;> exact marks_dig (by omega) hm

theorem marks_four {n : Nat} (h : n ≤ 9999) : marks (four n) = false := by
  rw [← Bool.not_eq_true, marks_iff]
  rintro ⟨b, hb, hm⟩
  simp only [four, List.mem_cons, List.not_mem_nil, or_false] at hb
  rcases hb with rfl | rfl | rfl | rfl <;> exact marks_dig (by omega) hm

theorem marks_rend_compact (ss : List (Option Bytes)) (hss : ∀ s ∈ ss, marks (sepH s) = false) : ∀ vs : List Nat, (∀ v ∈ vs, v ≤ 99) →
    marks (rend ss vs) = false := by
  induction ss with
  | nil => intro vs _; cases vs <;> rfl
  | cons s ss ih =>
    intro vs hv
    cases vs with
    | nil => rfl
    | cons v vs =>
      simp only [rend, marks_append, hss s (by simp), marks_two (hv v (by simp)),
        ih (fun s hs => hss s (by simp [hs])) vs (fun x hx => hv x (by simp [hx])), Bool.or_self]

theorem marks_rend {seps : Bool} {vs : List Nat} (hv : ∀ v ∈ vs, v ≤ 99) (hne : vs ≠ []) : marks (rend (expected seps) vs) = seps := by
  cases seps with
  | false => exact marks_rend_compact _ (by decide) vs hv
  | true =>
    cases vs with
    | nil => exact absurd rfl hne
    | cons v vs =>
      have : marks (sepH (some [45, 46])) = true := by decide
      simp only [expected, if_true, rend, marks_append, this, Bool.true_or]

theorem segment_year {mode : Mode} {y : Nat} (hy : y ≤ 9999) (r : Bytes) : segment 4 none mode (four y ++ r) = .ok ((y, 4), r) := by
  have := segDigits_four (hs := false) (mode := mode) hy r
  simp only [four, List.cons_append, List.nil_append] at this ⊢
  simp only [segment]; exact this

/-- A well formed text is parsed in every mode. -/
theorem parseContent_render {mode : Mode} {y : Nat} {seps : Bool} {vs : List Nat} {tail : Bytes} (hy : y ≤ 9999)
    (hl : vs.length ≤ 5) (hv : ∀ v ∈ vs, v ≤ 99) (ht : tail ≠ [] → seps = false ∧ vs.length = 5 ∧ marks tail = false) :
    parseContent mode (four y ++ rend (expected seps) vs ++ tail) = .ok (some (ofList y vs)) := by
  have hm : vs ≠ [] → marks (four y ++ rend (expected seps) vs ++ tail) = seps := by
    intro hne
    rw [marks_append, marks_append, marks_four hy, marks_rend hv hne]
    rcases Classical.em (tail = []) with h | h
    · subst h; simp [marks]
    · rw [(ht h).2.2, (ht h).1]; rfl
  rw [parseContent]
  rw [← marks, List.append_assoc, segment_year hy]
  simp only [ok_bind]
  rw [if_neg (by simp)]
  cases vs with
  | nil =>
    have : tail = [] := by
      rcases Classical.em (tail = []) with h | h
      · exact h
      · simpa using (ht h).2.1
    subst this
    rw [if_pos (by simp [rend])]; rfl
  | cons v vs =>
    rw [← List.append_assoc, hm (by simp)]
    have hne : (rend (expected seps) (v :: vs) ++ tail).isEmpty = false := by
      simp [expected, rend, two]
    rw [if_neg (by simp [hne])]
    rw [segments_rend _ (expected_ne seps) _ _ (by simpa [expected] using hl) hv (fun h => by
      have := (ht h).2.1; simpa [expected] using this)]
    rfl

theorem take_cons19 (c : UInt8) (r : Bytes) : (c :: r).take 19 = c :: r.take 18 := rfl

/-- **Strict parsing accepts exactly the ISO 8601 texts** of the documented form: the year
in four digits and every further component in two, either all parts separated by `-`, `T` and `:` or
none but `T`; and the timestamp is the one written. -/
theorem parse_strict_iff (r : Bytes) (t : Timestamp) : parse .strict r = .ok (some t) ↔ StrictText r t := by
  constructor
  · intro h
    unfold parse at h
    split at h
    · simp at h
    · rename_i c r
      rw [start, if_pos rfl] at h
      simp only [ok_bind] at h
      rw [StrictText, take_cons19]
      have hlen : (c :: r.take 18).length ≤ 19 := by simp [List.length_take]; omega
      generalize c :: r.take 18 = content at h hlen
      rw [parseContent, ← marks] at h
      obtain ⟨⟨⟨y, n⟩, c'⟩, hs, h2⟩ := bind_ok h
      clear h
      have hy : y ≤ 9999 ∧ n = 4 ∧ content = four y ++ c' ∨ (content = [] ∧ n = 0) := by
        unfold segment at hs
        split at hs
        · simp only [Except.ok.injEq, Prod.mk.injEq] at hs; exact .inr ⟨rfl, hs.1.2.symm⟩
        · exact .inl (segDigits_four_strict hs)
        · simp_all
      rcases hy with ⟨hy, hn, hc⟩ | ⟨_, hn⟩
      · subst hn
        simp only [ne_eq, not_true, if_false] at h2
        split at h2
        · rename_i hemp
          have : c' = [] := by simpa using hemp
          subst this
          simp only [Except.ok.injEq, Option.some.injEq] at h2
          subst h2
          exact ⟨shape_ofList (vs := []) hy (by simp) (by simp), false, [], by simpa [render] using hc, fun h => absurd rfl h⟩
        · rename_i hne
          obtain ⟨seps, hsep⟩ : ∃ s, marks content = s := ⟨_, rfl⟩
          rw [hsep] at h2
          obtain ⟨vs, hvs, h3⟩ := bind_ok h2
          simp only [Except.ok.injEq, Option.some.injEq] at h3
          obtain ⟨i1, i2, tail, i3, i4⟩ := segments_strict _ _ _ hvs
          have hl5 : vs.length ≤ 5 := by simpa [expected] using i1
          have h3' : t = ofList y vs := h3.symm
          subst h3'
          refine ⟨shape_ofList hy hl5 i2, seps, tail, ?_, ?_⟩
          · rw [render_ofList _ _ _ hl5, hc, i3, List.append_assoc]
          · intro ht
            have h5 : vs.length = 5 := by have := i4 ht; simpa [expected] using this
            have hseps : seps = false := by
              rw [← Bool.not_eq_true]
              intro hm
              rw [hm] at i3
              match vs, h5 with
              | [a, b, c, d, e], _ =>
                have : tail.length ≠ 0 := by simpa using ht
                rw [hc, i3] at hlen
                simp only [four, expected, rend, two, sepH, if_true, List.take_succ_cons, List.take_zero, List.cons_append, List.nil_append, List.append_nil, List.length_cons] at hlen
                omega
            refine ⟨hseps, ?_, ?_⟩
            · simp only [ofList]; rw [List.getElem?_eq_getElem (by omega)]; rfl
            · intro b hb hm
              have : marks content = true := (marks_iff _).mpr ⟨b, by rw [hc, i3]; simp [hb], hm⟩
              rw [hsep, hseps] at this; cases this
      · subst hn
        simp at h2
  · rintro ⟨hsh, seps, tail, he, ht⟩
    obtain ⟨vs, hl, hv, hts⟩ := ofList_of_shape hsh
    have hy := hsh.year
    rw [hts, render_ofList _ _ _ hl] at he
    have ht' : tail ≠ [] → seps = false ∧ vs.length = 5 ∧ marks tail = false := by
      intro h
      obtain ⟨h1, h2, h3⟩ := ht h
      refine ⟨h1, ?_, ?_⟩
      · rw [hts] at h2
        simp only [ofList] at h2
        rcases Nat.lt_or_ge vs.length 5 with h | h
        · rw [List.getElem?_eq_none (by omega)] at h2; simp at h2
        · omega
      · rw [← Bool.not_eq_true, marks_iff]
        rintro ⟨b, hb, hm⟩; exact h3 b hb hm
    have hp := parseContent_render (mode := .strict) hy hl hv ht'
    rw [← he, ← hts] at hp
    cases r with
    | nil => simp [four] at he
    | cons c r =>
      rw [take_cons19] at hp
      rw [parse, start, if_pos rfl]
      simpa using hp

/-- What a timestamp prints as. -/
theorem pad2 {n : Nat} (h : n ≤ 99) : utf8 (pad 2 n) = two n := by
  have : ∀ i : Fin 100, utf8 (pad 2 i.val) = two i.val := by decide +kernel
  exact this ⟨n, by omega⟩

theorem utf8_digitChar {d : Nat} (h : d < 10) : String.utf8EncodeChar (Nat.digitChar d) = [dig d] := by
  have : ∀ i : Fin 10, String.utf8EncodeChar (Nat.digitChar i.val) = [dig i.val] := by decide +kernel
  exact this ⟨d, h⟩

theorem utf8_zero : String.utf8EncodeChar '0' = [dig 0] := by decide

theorem pad4 {n : Nat} (h : n ≤ 9999) : utf8 (pad 4 n) = four n := by
  rcases Nat.lt_or_ge n 10 with h1 | h1
  · have e : toDec n = [Nat.digitChar n] := Nat.toDigits_of_lt_base h1
    have q1 : n / 1000 = 0 := by omega
    have q2 : n / 100 % 10 = 0 := by omega
    have q3 : n / 10 % 10 = 0 := by omega
    have q4 : n % 10 = n := by omega
    simp [pad, e, List.replicate, utf8_digitChar h1, utf8_zero, four, q1, q2, q3, q4]
  rcases Nat.lt_or_ge n 100 with h2 | h2
  · have e : toDec n = [Nat.digitChar (n / 10), Nat.digitChar (n % 10)] := by
      rw [toDec, Nat.toDigits_of_base_le (by decide) h1, Nat.toDigits_of_lt_base (by omega)]; rfl
    have q1 : n / 1000 = 0 := by omega
    have q2 : n / 100 % 10 = 0 := by omega
    have q3 : n / 10 % 10 = n / 10 := by omega
    simp [pad, e, List.replicate, utf8_digitChar (show n / 10 < 10 by omega), utf8_digitChar (show n % 10 < 10 by omega),
      utf8_zero, four, q1, q2, q3]
  rcases Nat.lt_or_ge n 1000 with h3 | h3
  · have e : toDec n = [Nat.digitChar (n / 10 / 10), Nat.digitChar (n / 10 % 10), Nat.digitChar (n % 10)] := by
      rw [toDec, Nat.toDigits_of_base_le (by decide) h1, Nat.toDigits_of_base_le (by decide) (by omega),
        Nat.toDigits_of_lt_base (by omega)]; rfl
    have q1 : n / 1000 = 0 := by omega
    have q2 : n / 100 % 10 = n / 10 / 10 := by omega
    simp [pad, e, List.replicate, utf8_digitChar (show n / 10 / 10 < 10 by omega), utf8_digitChar (show n / 10 % 10 < 10 by omega),
      utf8_digitChar (show n % 10 < 10 by omega), utf8_zero, four, q1, q2, -Nat.div_div_eq_div_mul]
  · have e : toDec n = [Nat.digitChar (n / 10 / 10 / 10), Nat.digitChar (n / 10 / 10 % 10), Nat.digitChar (n / 10 % 10), Nat.digitChar (n % 10)] := by
      rw [toDec, Nat.toDigits_of_base_le (by decide) h1, Nat.toDigits_of_base_le (by decide) (by omega),
        Nat.toDigits_of_base_le (by decide) (by omega), Nat.toDigits_of_lt_base (by omega)]; rfl
    have q1 : n / 1000 = n / 10 / 10 / 10 := by omega
    have q2 : n / 100 % 10 = n / 10 / 10 % 10 := by omega
    simp [pad, e, utf8_digitChar (show n / 10 / 10 / 10 < 10 by omega), utf8_digitChar (show n / 10 / 10 % 10 < 10 by omega),
      utf8_digitChar (show n / 10 % 10 < 10 by omega),
      utf8_digitChar (show n % 10 < 10 by omega), four, q1, q2, -Nat.div_div_eq_div_mul]

/-- **Printing yields the extended form.** -/
theorem fmt_render {t : Timestamp} (h : Shape t) : utf8 t.fmt = render true t := by
  obtain ⟨vs, hl, hv, hts⟩ := ofList_of_shape h
  have hy := pad4 h.year
  have e45 : String.utf8EncodeChar '-' = [45] := by decide
  have e84 : String.utf8EncodeChar 'T' = [84] := by decide
  have e58 : String.utf8EncodeChar ':' = [58] := by decide
  obtain ⟨y, mo, d, h', mi, s⟩ := t
  simp only at hy
  rw [hts, render_ofList _ _ _ hl]
  match vs, hl with
  | [], _ => simp [ofList, fmt, fmtField, hy, rend]
  | [a], _ =>
    simp [ofList, fmt, fmtField, hy, rend, expected, sepH, e45, pad2 (hv a (by simp))]
  | [a, b], _ =>
    simp [ofList, fmt, fmtField, hy, rend, expected, sepH, e45, pad2 (hv a (by simp)), pad2 (hv b (by simp))]
  | [a, b, c], _ =>
    simp [ofList, fmt, fmtField, hy, rend, expected, sepH, e45, e84, pad2 (hv a (by simp)), pad2 (hv b (by simp)),
      pad2 (hv c (by simp))]
  | [a, b, c, d], _ =>
    simp [ofList, fmt, fmtField, hy, rend, expected, sepH, e45, e84, e58, pad2 (hv a (by simp)), pad2 (hv b (by simp)),
      pad2 (hv c (by simp)), pad2 (hv d (by simp))]
  | [a, b, c, d, e], _ =>
    simp [ofList, fmt, fmtField, hy, rend, expected, sepH, e45, e84, e58, pad2 (hv a (by simp)), pad2 (hv b (by simp)),
      pad2 (hv c (by simp)), pad2 (hv d (by simp)), pad2 (hv e (by simp))]
  | _ :: _ :: _ :: _ :: _ :: _ :: _, h => simp at h

/-- `verify` accepts exactly the timestamps in the documented ranges. -/
theorem verify_iff (t : Timestamp) : t.verify = true ↔ InRange t := by
  obtain ⟨y, mo, d, h', mi, s⟩ := t
  constructor
  · intro h
    simp only [verify, Bool.and_eq_true, decide_eq_true_eq] at h
    obtain ⟨⟨⟨⟨⟨h1, h2⟩, h3⟩, h4⟩, h5⟩, h6⟩ := h
    constructor
    · exact h1
    · rintro x rfl; simpa [verifyField] using h2
    · rintro x rfl; simp only [verifyField, Bool.and_eq_true, decide_eq_true_eq] at h3; exact ⟨h3.2, h3.1⟩
    · rintro x rfl; simp only [verifyField, Bool.and_eq_true, decide_eq_true_eq] at h4; exact ⟨h4.2, h4.1⟩
    · rintro x rfl; simp only [verifyField, Bool.and_eq_true, decide_eq_true_eq] at h5; exact ⟨h5.2, h5.1⟩
    · rintro x rfl; simp only [verifyField, Bool.and_eq_true, decide_eq_true_eq] at h6; exact ⟨h6.2, h6.1⟩
  · rintro ⟨h1, h2, h3, h4, h5, h6⟩
    simp only at *
    simp only [verify, Bool.and_eq_true, decide_eq_true_eq]
    refine ⟨⟨⟨⟨⟨h1, ?_⟩, ?_⟩, ?_⟩, ?_⟩, ?_⟩
    · cases mo with
      | none => rfl
      | some x => simpa [verifyField] using h2 x rfl
    · cases d with
      | none => rfl
      | some x => have := h3 x rfl; simp [verifyField, this.1, this.2]
    · cases h' with
      | none => rfl
      | some x => have := h4 x rfl; simp [verifyField, this.1, this.2]
    · cases mi with
      | none => rfl
      | some x => have := h5 x rfl; simp [verifyField, this.1, this.2]
    · cases s with
      | none => rfl
      | some x => have := h6 x rfl; simp [verifyField, this.1, this.2]

theorem shape_of_range {t : Timestamp} (h : InRange t) : Shape t where
  year := h.year
  month := fun x hx => Nat.le_trans (h.month x hx) (by decide)
  day := fun x hx => ⟨Nat.le_trans (h.day x hx).1 (by decide), (h.day x hx).2⟩
  hour := fun x hx => ⟨Nat.le_trans (h.hour x hx).1 (by decide), (h.hour x hx).2⟩
  minute := fun x hx => ⟨Nat.le_trans (h.minute x hx).1 (by decide), (h.minute x hx).2⟩
  second := fun x hx => ⟨Nat.le_trans (h.second x hx).1 (by decide), (h.second x hx).2⟩

theorem dig_not_space {d : Nat} (h : d < 10) : isSpace (dig d) = false := by
  have : ∀ i : Fin 10, isSpace (dig i.val) = false := by decide
  exact this ⟨d, h⟩

theorem parse_render {mode : Mode} {t : Timestamp} (h : Shape t) (seps : Bool) : parse mode (render seps t) = .ok (some t) := by
  obtain ⟨vs, hl, hv, hts⟩ := ofList_of_shape h
  have hy := h.year
  have hp := parseContent_render (mode := mode) (seps := seps) (tail := []) hy hl hv (fun h => absurd rfl h)
  rw [List.append_nil, ← render_ofList _ _ _ hl, ← hts] at hp
  have hlen : (render seps t).length ≤ 19 := by
    rw [hts, render_ofList _ _ _ hl]
    match vs, hl with
    | [], _ => simp [four, rend]
    | [_], _ => cases seps <;> simp [four, rend, expected, two, sepH]
    | [_, _], _ => cases seps <;> simp [four, rend, expected, two, sepH]
    | [_, _, _], _ => cases seps <;> simp [four, rend, expected, two, sepH]
    | [_, _, _, _], _ => cases seps <;> simp [four, rend, expected, two, sepH]
    | [_, _, _, _, _], _ => cases seps <;> simp [four, rend, expected, two, sepH]
    | _ :: _ :: _ :: _ :: _ :: _ :: _, h => simp at h
  have hhd : ∃ r, render seps t = dig (t.year / 1000) :: r := by
    rw [hts, render_ofList _ _ _ hl]; exact ⟨_, rfl⟩
  obtain ⟨r, hr⟩ := hhd
  rw [hr] at hp hlen ⊢
  have htake : r.take 18 = r := List.take_of_length_le (by simpa using hlen)
  have hsp : skipSpace (dig (t.year / 1000)) r = .ok (dig (t.year / 1000), r) := by
    have := dig_not_space (d := t.year / 1000) (by omega)
    cases r <;> simp [skipSpace, this]
  unfold parse
  simp only [start, hsp, ite_self, ok_bind, htake, hp]

/-- **C34.** Printing a timestamp in the documented ranges and parsing the text, in any
mode, yields the same timestamp. -/
theorem parse_fmt {mode : Mode} {t : Timestamp} (h : InRange t) : parse mode (utf8 t.fmt) = .ok (some t) := by
  rw [fmt_render (shape_of_range h)]; exact parse_render (shape_of_range h) true

/-- The same for `str::parse`. -/
theorem fromStr_fmt {t : Timestamp} (h : InRange t) : fromStr t.fmt = .ok t := by
  rw [fromStr, parse_fmt h]; rfl

/-- The compact form without `-` and `:` is read as well. -/
theorem parse_compact {mode : Mode} {t : Timestamp} (h : InRange t) : parse mode (render false t) = .ok (some t) :=
  parse_render (shape_of_range h) false

/-! ## Whatever the text -/

theorem segLoop_bound {hs : Bool} {mode : Mode} (l : Bytes) : ∀ (num : Option Nat) (c : Nat) (n : Nat) (k : Nat),
    segLoop hs mode l num c = .ok (some n, k) → n < (num.getD 0 + 1) * 10 ^ l.length := by
  induction l with
  | nil =>
    intro num c n k h
    simp only [segLoop, Except.ok.injEq, Prod.mk.injEq] at h
    rw [h.1]; simp
  | cons i l ih =>
    intro num c n k h
    have key : ∀ m, n < (m + 1) * 10 ^ l.length → m ≤ num.getD 0 * 10 + 9 → n < (num.getD 0 + 1) * 10 ^ (l.length + 1) := by
      intro m h1 h2
      calc n < (m + 1) * 10 ^ l.length := h1
        _ ≤ ((num.getD 0 + 1) * 10) * 10 ^ l.length := Nat.mul_le_mul_right _ (by omega)
        _ = _ := by rw [Nat.pow_succ, Nat.mul_assoc, Nat.mul_comm 10]
    rw [segLoop] at h
    rw [List.length_cons]
    split at h
    · split at h
      · simp at h
      · exact key (num.getD 0) (ih _ _ _ _ h) (by omega)
    · split at h
      · split at h
        · simp only [Except.ok.injEq, Prod.mk.injEq] at h
          rw [h.1]
          simp only [Option.getD_some]
          exact Nat.lt_of_lt_of_le (Nat.lt_succ_self n) (Nat.le_mul_of_pos_right _ (Nat.pow_pos (by decide)))
        · simp at h
      · rename_i hd
        have hd' : isDigit i = true := by simpa using hd
        have := (digit_dig hd').1
        exact key _ (ih _ _ _ _ h) (by simp only [Option.getD_some]; omega)

theorem segDigits_bound {size : Nat} {hs : Bool} {mode : Mode} {c c' : Bytes} {n k : Nat} (h : segDigits size hs mode c = .ok ((n, k), c')) :
    n < 10 ^ size := by
  rw [segDigits] at h
  split at h
  · split at h
    · simp at h
    · simp only [Except.ok.injEq, Prod.mk.injEq] at h; rw [← h.1.1]; exact Nat.pow_pos (by decide)
  · obtain ⟨⟨num, cnt⟩, hx, h2⟩ := bind_ok h
    cases num with
    | none =>
      simp only at h2
      split at h2
      · simp at h2
      · simp only [Except.ok.injEq, Prod.mk.injEq] at h2; rw [← h2.1.1]; exact Nat.pow_pos (by decide)
    | some m =>
      simp only [Except.ok.injEq, Prod.mk.injEq] at h2
      have := segLoop_bound _ _ _ _ _ hx
      rw [← h2.1.1]
      rename_i hl
      rw [List.length_take] at this
      have e : min size c.length = size := by omega
      rw [e] at this
      simpa using this

theorem segment_bound {size : Nat} {s : Option Bytes} {mode : Mode} {c c' : Bytes} {n k : Nat} (h : segment size s mode c = .ok ((n, k), c')) :
    n < 10 ^ size := by
  unfold segment at h
  split at h
  · simp only [Except.ok.injEq, Prod.mk.injEq] at h; rw [← h.1.1]; exact Nat.pow_pos (by decide)
  · exact segDigits_bound h
  · split at h
    · split at h
      · simp at h
      · exact segDigits_bound h
    · split at h
      · simp at h
      · simp only [Except.ok.injEq, Prod.mk.injEq] at h; rw [← h.1.1]; exact Nat.pow_pos (by decide)

theorem segments_bound {mode : Mode} (ss : List (Option Bytes)) : ∀ (c : Bytes) (vs : List Nat), segments mode ss c = .ok vs →
    vs.length ≤ ss.length ∧ ∀ v ∈ vs, v ≤ 99 := by
  induction ss with
  | nil =>
    intro c vs h
    simp only [segments, Except.ok.injEq] at h
    subst h; simp
  | cons s ss ih =>
    intro c vs h
    rw [segments] at h
    obtain ⟨⟨⟨v, n⟩, c'⟩, hs, h2⟩ := bind_ok h
    simp only at h2
    split at h2
    · simp only [Except.ok.injEq] at h2; subst h2; simp
    · obtain ⟨r, hr, h3⟩ := bind_ok h2
      simp only [Except.ok.injEq] at h3
      have hb := segment_bound hs
      obtain ⟨i1, i2⟩ := ih _ _ hr
      subst h3
      refine ⟨by simpa using i1, fun x hx => ?_⟩
      rcases List.mem_cons.mp hx with e | e
      · rw [e]; have := Nat.mod_le v 256; omega
      · exact i2 x e

/-- **In every mode, whatever the text: a parsed timestamp never has a component without
all coarser ones**, its year is at most 9999 and every other component has at most two digits. -/
theorem parse_shape {mode : Mode} {r : Bytes} {t : Timestamp} (h : parse mode r = .ok (some t)) : Shape t := by
  unfold parse at h
  split at h
  · split at h <;> simp at h
  · obtain ⟨⟨c, r'⟩, _, h2⟩ := bind_ok h
    simp only at h2
    rw [parseContent] at h2
    obtain ⟨⟨⟨y, n⟩, c'⟩, hy, h3⟩ := bind_ok h2
    have hb := segment_bound hy
    simp only at h3
    split at h3
    · split at h3 <;> simp at h3
    · split at h3
      · simp only [Except.ok.injEq, Option.some.injEq] at h3
        rw [← h3]
        exact shape_ofList (vs := []) (by omega) (by simp) (by simp)
      · obtain ⟨vs, hvs, h4⟩ := bind_ok h3
        simp only [Except.ok.injEq, Option.some.injEq] at h4
        rw [← h4]
        obtain ⟨i1, i2⟩ := segments_bound _ _ _ hvs
        exact shape_ofList (by omega) (by simpa [expected] using i1) i2

/-- The lenient modes: behind a complete date anything but `T` ends the timestamp, whatever
follows, and strict mode refuses it. -/
theorem parse_date_then_other {y mo d : Nat} (hy : y ≤ 9999) (hm : mo ≤ 99) (hd : d ≤ 99) {c : UInt8} (hc : c ≠ 84) (rest : Bytes)
    (mode : Mode) :
    parse mode (four y ++ 45 :: two mo ++ 45 :: two d ++ c :: rest)
      = if mode = .strict then .error .parse else .ok (some ⟨y, some mo, some d, none, none, none⟩) := by
  have key : ∀ tail : Bytes, parseContent mode (four y ++ 45 :: two mo ++ 45 :: two d ++ c :: tail)
      = if mode = .strict then .error .parse else .ok (some ⟨y, some mo, some d, none, none, none⟩) := by
    intro tail
    have hseps : marks (four y ++ 45 :: two mo ++ 45 :: two d ++ c :: tail) = true :=
      (marks_iff _).mpr ⟨45, by simp, .inl rfl⟩
    rw [parseContent, ← marks, hseps]
    have e1 : four y ++ 45 :: two mo ++ 45 :: two d ++ c :: tail = four y ++ (45 :: two mo ++ 45 :: two d ++ c :: tail) := by simp
    have s1 := segment_two (mode := mode) (s := some [45, 46]) (by simp) hm (45 :: two d ++ c :: tail)
    have s2 := segment_two (mode := mode) (s := some [45, 46]) (by simp) hd (c :: tail)
    have e2 : sepH (some [45, 46]) ++ two mo ++ (45 :: two d ++ c :: tail) = 45 :: two mo ++ 45 :: two d ++ c :: tail := by simp [sepH]
    have e3 : sepH (some [45, 46]) ++ two d ++ (c :: tail) = 45 :: two d ++ c :: tail := by simp [sepH]
    rw [e2] at s1; rw [e3] at s2
    rw [e1, segment_year hy]
    simp only [ok_bind]
    rw [if_neg (by simp), if_neg (by simp), expected, segments]
    simp only [if_true]
    rw [s1]
    simp only [ok_bind]
    rw [if_neg (by decide), segments, s2]
    simp only [ok_bind]
    rw [if_neg (by decide), segments, segment]
    have hf : List.findIdx? (fun x => x == c) [(84 : UInt8)] = none := by
      simp [Ne.symm hc]
    rw [hf]
    simp only
    have m1 : mo % 256 = mo := Nat.mod_eq_of_lt (by omega)
    have m2 : d % 256 = d := Nat.mod_eq_of_lt (by omega)
    cases mode with
    | strict => rfl
    | _ => rw [if_neg (by simp), if_neg (by simp)]; simp only [ok_bind, if_true, m1, m2]; rfl
  have hns : isSpace (dig (y / 1000)) = false := by
    have : ∀ i : Fin 10, isSpace (dig i.val) = false := by decide
    exact this ⟨y / 1000, by omega⟩
  have e : four y ++ 45 :: two mo ++ 45 :: two d ++ c :: rest
      = dig (y / 1000) :: ([dig (y / 100 % 10), dig (y / 10 % 10), dig (y % 10)] ++ 45 :: two mo ++ 45 :: two d ++ c :: rest) := rfl
  rw [e, parse, start]
  have hst : ∀ r : Bytes, skipSpace (dig (y / 1000)) r = .ok (dig (y / 1000), r) := by
    intro r; cases r <;> simp [skipSpace, hns]
  rw [hst, ite_self]
  simp only [ok_bind]
  exact key (rest.take 8)

example : parse .bestAttempt (ascii "2024-06-03 14:08:49") = .ok (some ⟨2024, some 6, some 3, none, none, none⟩) :=
  parse_date_then_other (y := 2024) (mo := 6) (d := 3) (by decide) (by decide) (by decide) (c := 32) (by decide) (ascii "14:08:49") .bestAttempt

/-- Parsing checks no ranges (only `verify`, called when a timestamp is written, does): the
13th month is accepted even in strict mode. -/
theorem strict_accepts_month_13 : parse .strict (ascii "2024-13-45T99:99:99") = .ok (some ⟨2024, some 13, some 45, some 99, some 99, some 99⟩)
    ∧ ¬ InRange ⟨2024, some 13, some 45, some 99, some 99, some 99⟩ := by
  refine ⟨by decide, fun h => absurd (h.month 13 rfl) (by decide)⟩

/-- A text of white space only is an error in the lenient modes, although an empty text is none. -/
theorem blank_is_error : parse .bestAttempt [32, 32] = .error .eof ∧ parse .bestAttempt [] = .ok none := by decide

example : InRange ⟨2024, some 6, some 3, some 14, some 8, some 49⟩ := (verify_iff _).mp (by decide)
example : utf8 (fmt ⟨2024, some 6, some 3, some 14, some 8, some 49⟩) = ascii "2024-06-03T14:08:49" := by decide +kernel
example : parse .strict (ascii "20240603T140849") = .ok (some ⟨2024, some 6, some 3, some 14, some 8, some 49⟩) := by decide
example : parse .strict (ascii "2024-0603") = .error .parse := by decide
example : parse .bestAttempt (ascii " 2024- 6.3T14:8:49") = .ok (some ⟨2024, some 6, some 3, some 14, some 8, some 49⟩) := by decide
example : parse .relaxed (ascii "2024-06-") = .ok (some ⟨2024, some 6, none, none, none, none⟩) := by decide
example : parse .strict (ascii "2024-06-") = .error .parse := by decide

end Lofty.Timestamp
