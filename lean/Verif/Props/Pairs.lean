import Verif.Model.Pairs
import Verif.Lemmas.Ascii
/-! # C05: number/total pairs -/
namespace Lofty.Pairs

/-- A separator set that contains `/` and no digit or `+`, as both formats have. -/
structure GoodSep (sep : Char → Bool) : Prop where
  slash : sep '/' = true
  digit : ∀ c : Char, 48 ≤ c.toNat ∧ c.toNat ≤ 57 → sep c = false

theorem goodSep_id3 : GoodSep id3Sep where
  slash := by decide
  digit := by
    intro c h
    simp only [id3Sep, Bool.or_eq_false_iff, decide_eq_false_iff_not]
    constructor
    · rintro rfl; exact absurd h (by decide)
    · rintro rfl; exact absurd h (by decide)

theorem goodSep_ape : GoodSep apeSep where
  slash := by decide
  digit := by
    intro c h
    simp only [apeSep, decide_eq_false_iff_not]
    rintro rfl; exact absurd h (by decide)

theorem splitOn_none (sep : Char → Bool) (a : Str) (h : ∀ c ∈ a, sep c = false) : splitOn sep a = [a] := by
  induction a with
  | nil => rfl
  | cons c a ih =>
    rw [splitOn, h c (by simp), ih (fun c hc => h c (by simp [hc]))]
    rfl

theorem splitOn_append (sep : Char → Bool) (a b : Str) (s : Char) (h : ∀ c ∈ a, sep c = false) (hs : sep s = true) :
    splitOn sep (a ++ s :: b) = a :: splitOn sep b := by
  induction a with
  | nil => simp [splitOn, hs]
  | cons c a ih =>
    rw [List.cons_append, splitOn, h c (by simp), ih (fun c hc => h c (by simp [hc]))]
    rfl

theorem dec_noSep {sep : Char → Bool} (g : GoodSep sep) (n : Nat) : ∀ c ∈ toDec n, sep c = false :=
  fun c hc => g.digit c (toDec_digits n c hc)

theorem parse_number {sep : Char → Bool} (g : GoodSep sep) (n : Nat) (hn : n < 2 ^ 32) :
    parse sep (toDec n) = (some n, none) := by
  simp [parse, splitOn_none sep _ (dec_noSep g n), parseU32_toDec hn]

theorem parse_both {sep : Char → Bool} (g : GoodSep sep) (n t : Nat) (hn : n < 2 ^ 32) (ht : t < 2 ^ 32) :
    parse sep (toDec n ++ '/' :: toDec t) = (some n, some t) := by
  simp [parse, splitOn_append sep _ _ '/' (dec_noSep g n) g.slash, splitOn_none sep _ (dec_noSep g t),
    parseU32_toDec hn, parseU32_toDec ht]

/-- C05: a pair survives formatting and parsing; a total alone comes back with number
0; nothing is formatted for an empty pair. -/
theorem parse_format {sep : Char → Bool} (g : GoodSep sep) (n t : Option Nat)
    (hn : ∀ x, n = some x → x < 2 ^ 32) (ht : ∀ x, t = some x → x < 2 ^ 32) :
    (n = none ∧ t = none ∧ format n t = none) ∨
      ∃ v, format n t = some v ∧ parse sep v = (some (n.getD 0), t) := by
  cases n with
  | none =>
    cases t with
    | none => exact Or.inl ⟨rfl, rfl, rfl⟩
    | some t => exact Or.inr ⟨_, rfl, parse_both g 0 t (by omega) (ht t rfl)⟩
  | some n =>
    cases t with
    | none => exact Or.inr ⟨_, rfl, parse_number g n (hn n rfl)⟩
    | some t => exact Or.inr ⟨_, rfl, parse_both g n t (hn n rfl) (ht t rfl)⟩

example : format (some 3) (some 12) = some (str "3/12") ∧ parse id3Sep (str "3/12") = (some 3, some 12) := by
  decide

/-- What a caller of the accessors expects of the pair (number, total). -/
def specStep (s : Option Nat × Option Nat) : Op → Option Nat × Option Nat
  | .setNumber n => (some n, s.2)
  | .setTotal t => (some (s.1.getD 0), some t)
  | .removeNumber => (none, none)
  | .removeTotal => (s.1, none)

/-- Numbers are `u32`. -/
def Op.Fits : Op → Prop
  | .setNumber n => n < 2 ^ 32
  | .setTotal n => n < 2 ^ 32
  | _ => True

/-- C05: after every history of accessor calls on a fresh tag, the accessors return what
the history says (setting only a total makes the number 0; removing the number removes
the total too). -/
theorem history {sep : Char → Bool} (g : GoodSep sep) (ops : List Op) (h : ∀ o ∈ ops, o.Fits) :
    get sep (ops.foldl (step sep) none) = ops.foldl specStep (none, none) := by
  suffices H : ∀ (f : Field) (s : Option Nat × Option Nat), get sep f = s → (∀ x, s.1 = some x → x < 2 ^ 32) →
      (∀ x, s.2 = some x → x < 2 ^ 32) → get sep (ops.foldl (step sep) f) = ops.foldl specStep s from
    H none (none, none) rfl (by simp) (by simp)
  induction ops with
  | nil => intro f s h1 _ _; exact h1
  | cons o ops ih =>
    intro f s h1 h2 h3
    have ho := h o (by simp)
    simp only [List.foldl_cons]
    apply ih (fun o ho => h o (by simp [ho]))
    · cases o with
      | setNumber n =>
        simp only [step, insertPair, specStep, h1]
        rcases parse_format g (some n) s.2 (by intro x hx; cases hx; exact ho) h3 with ⟨h, _⟩ | ⟨v, h4, h5⟩
        · cases h
        · rw [h4]; simpa [get] using h5
      | setTotal t =>
        simp only [step, insertPair, specStep, h1]
        rcases parse_format g s.1 (some t) h2 (by intro x hx; cases hx; exact ho) with ⟨_, h, _⟩ | ⟨v, h4, h5⟩
        · cases h
        · rw [h4]; simpa [get] using h5
      | removeNumber => rfl
      | removeTotal =>
        simp only [step, specStep, h1]
        cases hs : s.1 with
        | none => rfl
        | some n => simpa [get] using parse_number g n (h2 n hs)
    · cases o with
      | setNumber n => intro x hx; simp only [specStep, Option.some.injEq] at hx; subst hx; exact ho
      | setTotal t =>
        intro x hx
        simp only [specStep, Option.some.injEq] at hx
        subst hx
        cases hs : s.1 with
        | none => simp
        | some n => simpa using h2 n hs
      | removeNumber => intro x hx; cases hx
      | removeTotal => exact h2
    · cases o with
      | setNumber n => exact h3
      | setTotal t => intro x hx; simp only [specStep, Option.some.injEq] at hx; subst hx; exact ho
      | removeNumber => intro x hx; cases hx
      | removeTotal => intro x hx; cases hx

example : get apeSep ([Op.setTotal 12, .setNumber 3, .removeTotal].foldl (step apeSep) none) = (some 3, none) := by
  decide

/-- Text that some other program wrote with an empty number is read as a number
without a total. -/
theorem missing_number_misread : parse id3Sep (str "/12") = (some 12, none) := by decide

end Lofty.Pairs
