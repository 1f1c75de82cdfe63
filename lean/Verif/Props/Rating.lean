import Verif.Model.Rating
import Verif.Lemmas.Ascii
/-!
# Star ratings (C35)
-/
namespace Lofty.Rating
open Lofty.Item (TagType)

/-- What a rating provider has to satisfy: the byte of a rating is a byte, reads as the same rating, more stars never
give a smaller byte, and a bigger byte never gives fewer stars. -/
structure Lawful (p : Provider) : Prop where
  byte : ∀ t s, p.rate t s ≤ 255
  rt : ∀ t s, p.convert t (p.rate t s) = s
  rate_mono : ∀ t s s', s.toNat < s'.toNat → p.rate t s < p.rate t s'
  convert_mono : ∀ t r r', r ≤ r' → (p.convert t r).toNat ≤ (p.convert t r').toNat

theorem byLimits_mono {a b c d : Nat} (h1 : a ≤ b) (h2 : b ≤ c) (h3 : c ≤ d) {r r' : Nat} (h : r ≤ r') :
    (byLimits a b c d r).toNat ≤ (byLimits a b c d r').toNat := by
  unfold byLimits
  repeat' split
  all_goals first | (simp only [Star.toNat]; omega) | (exfalso; omega)

theorem musicbee_lawful : Lawful musicbee where
  byte t s := by cases t <;> cases s <;> decide
  rt t s := by cases t <;> cases s <;> decide
  rate_mono t s s' h := by revert h; cases t <;> cases s <;> cases s' <;> decide
  convert_mono t r r' h := by
    simp only [musicbee]
    split
    · exact byLimits_mono (by decide) (by decide) (by decide) h
    · exact byLimits_mono (by decide) (by decide) (by decide) h

theorem default_lawful : Lawful default := ⟨musicbee_lawful.byte, musicbee_lawful.rt, musicbee_lawful.rate_mono,
  musicbee_lawful.convert_mono⟩

theorem wmp_lawful : Lawful wmp where
  byte _ := musicbee_lawful.byte .id3v2
  rt _ := musicbee_lawful.rt .id3v2
  rate_mono _ := musicbee_lawful.rate_mono .id3v2
  convert_mono _ := musicbee_lawful.convert_mono .id3v2

theorem picard_lawful : Lawful picard where
  byte t s := by cases t <;> cases s <;> decide
  rt t s := by cases t <;> cases s <;> decide
  rate_mono t s s' h := by revert h; cases t <;> cases s <;> cases s' <;> decide
  convert_mono t r r' h := by
    simp only [picard]
    split
    · exact byLimits_mono (by decide) (by decide) (by decide) h
    · exact byLimits_mono (by decide) (by decide) (by decide) h

/-- The bytes for one to five stars in ID3v2 tags, as documented by the players. -/
theorem id3v2_bytes : [Star.one, .two, .three, .four, .five].map (musicbee.rate .id3v2) = [1, 64, 128, 196, 255]
    ∧ [Star.one, .two, .three, .four, .five].map (wmp.rate .id3v2) = [1, 64, 128, 196, 255]
    ∧ [Star.one, .two, .three, .four, .five].map (picard.rate .id3v2) = [51, 102, 153, 204, 255] := by decide

/-- The numbers in other tags: a hundred for MusicBee's five stars and twenty-five for Picard's. -/
theorem other_bytes {t : TagType} (h : t ≠ .id3v2) (s : Star) :
    musicbee.rate t s = 20 * s.toNat ∧ default.rate t s = 20 * s.toNat ∧ picard.rate t s = 5 * s.toNat := by
  cases t
  case id3v2 => exact absurd rfl h
  all_goals cases s <;> decide

/-- **Thresholds**: each byte is read as the number of stars of the smallest rating byte not below it. -/
def Rounds (p : Provider) (t : TagType) : Prop := ∀ r s, r ≤ 255 →
  (p.convert t r = s ↔ (r ≤ p.rate t s ∨ s = .five) ∧ ∀ s', s'.toNat < s.toNat → p.rate t s' < r)

theorem byLimits_rounds (f : Star → Nat) (r : Nat) (s : Star) (h1 : f .one < f .two) (h2 : f .two < f .three)
    (h3 : f .three < f .four) :
    byLimits (f .one) (f .two) (f .three) (f .four) r = s ↔
      (r ≤ f s ∨ s = .five) ∧ ∀ s', s'.toNat < s.toNat → f s' < r := by
  have hall : ∀ P : Star → Prop, (∀ s', P s') ↔ (P .one ∧ P .two ∧ P .three ∧ P .four ∧ P .five) := by
    intro P
    constructor
    · intro h; exact ⟨h _, h _, h _, h _, h _⟩
    · rintro ⟨a, b, c, d, e⟩ s'; cases s' <;> assumption
  rw [hall]
  unfold byLimits
  cases s <;> simp only [Star.toNat] <;> (repeat' split) <;> simp <;> omega

theorem rounds (t : TagType) : Rounds musicbee t ∧ Rounds default t ∧ Rounds wmp t ∧ Rounds picard t := by
  have hm : ∀ t, Rounds musicbee t := by
    intro t r s _
    have h : byLimits (musicbee.rate t .one) (musicbee.rate t .two) (musicbee.rate t .three) (musicbee.rate t .four) r
        = musicbee.convert t r := by cases t <;> rfl
    rw [← h]
    apply byLimits_rounds <;> (cases t <;> decide)
  refine ⟨hm t, hm t, hm .id3v2, ?_⟩
  intro r s _
  have h : byLimits (picard.rate t .one) (picard.rate t .two) (picard.rate t .three) (picard.rate t .four) r
      = picard.convert t r := by cases t <;> rfl
  rw [← h]
  apply byLimits_rounds <;> (cases t <;> decide)

/-! ## Popularimeters -/

/-- A popularimeter as the library makes them: an email belongs to its provider, and the custom one supports the emails
it is used with. -/
def Proper (custom : Provider) (p : Pop) : Prop :=
  p.email ≠ some [] ∧ kindOf custom (p.email.getD []) = some p.kind

instance (custom : Provider) (p : Pop) : Decidable (Proper custom p) := by unfold Proper; infer_instance

theorem constructors_proper (custom : Provider) (s : Star) (c : Nat) :
    Proper custom (.wmp s c) ∧ Proper custom (.musicbee s c) ∧ Proper custom (.picard s c) := by
  refine ⟨⟨?_, ?_⟩, ⟨?_, ?_⟩, ⟨?_, ?_⟩⟩
  · intro h; revert h; simp only [Pop.wmp]; decide
  · rfl
  · intro h; revert h; simp only [Pop.musicbee]; decide
  · show kindOf custom musicbeeEmail = some .musicbee
    unfold kindOf
    rw [if_neg (by decide), if_pos rfl]
  · intro h; revert h; simp only [Pop.picard]; decide
  · show kindOf custom picardEmail = some .picard
    unfold kindOf
    rw [if_neg (by decide), if_neg (by decide), if_pos rfl]

/-- A custom rating for an email that none of the players uses. -/
theorem custom_proper (custom : Provider) {email : Str} (h0 : email ≠ []) (h1 : email ≠ wmpEmail)
    (h2 : email ≠ musicbeeEmail) (h3 : email ≠ picardEmail) (h : custom.supports email = true) (s : Star) (c : Nat) :
    Proper custom (.custom email s c) := by
  refine ⟨?_, ?_⟩
  · intro h; simp only [Pop.custom, Option.some.injEq] at h; exact h0 h
  · show kindOf custom email = some .custom
    unfold kindOf
    rw [if_neg h1, if_neg h2, if_neg h3, if_pos h]

theorem someEmail_getD {e : Option Str} (h : e ≠ some []) : someEmail (e.getD []) = e := by
  unfold someEmail
  cases e with
  | none => rfl
  | some x =>
    cases x with
    | nil => exact absurd rfl h
    | cons a b => rfl

/-- Whatever is read from a tag or a text is proper. -/
theorem mapped_proper {custom : Provider} {email : Str} {t : TagType} {r c : Nat} {p : Pop}
    (h : mapped custom email t r c = some p) : Proper custom p := by
  unfold mapped at h
  cases hk : kindOf custom email with
  | none => rw [hk] at h; cases h
  | some k =>
    rw [hk, Option.map_some, Option.some.injEq] at h
    subst h
    unfold Proper someEmail
    cases email with
    | nil => exact ⟨by simp, hk⟩
    | cons a b => exact ⟨by simp, hk⟩

/-- **Stored rating**: the email and the byte stored in a tag are read as the same rating. -/
theorem mapped_rt {custom : Provider} (hc : Lawful custom) {p : Pop} (h : Proper custom p) (t : TagType) :
    mapped custom (p.email.getD []) t (p.mappedValue custom t) p.counter = some p := by
  unfold mapped
  rw [h.2, Option.map_some, someEmail_getD h.1]
  have hl : Lawful (p.kind.provider custom) := by
    cases p.kind
    · exact wmp_lawful
    · exact musicbee_lawful
    · exact picard_lawful
    · exact hc
  unfold Pop.mappedValue
  rw [hl.rt]

/-- With the default provider every byte with any email is a rating. -/
theorem mapped_total (email : Str) (t : TagType) (r c : Nat) :
    ∃ p, mapped default email t r c = some p ∧ p.email = someEmail email ∧ p.counter = c := by
  have hk : ∃ k, kindOf default email = some k := by
    unfold kindOf
    repeat' split
    all_goals first | exact ⟨_, rfl⟩ | (rename_i h; exact absurd rfl h)
  obtain ⟨k, hk⟩ := hk
  refine ⟨⟨someEmail email, k, (k.provider default).convert t r, c⟩, ?_, rfl, rfl⟩
  unfold mapped
  rw [hk]
  rfl

theorem starOf_toDec (s : Star) : starOf (toDec s.toNat) = some s := by
  unfold starOf
  rw [parseUInt_toDec (by cases s <;> decide)]
  cases s <;> rfl

/-- **Text**: the generic tag's text of a rating is read as the same rating, if there is no bar in the email. -/
theorem fromStr_fmt_partial {custom : Provider} {p : Pop} (h : Proper custom p) (hb : '|' ∉ p.email.getD [])
    (hc : p.counter < 2 ^ 64) : fromStr custom p.fmt = some p := by
  unfold fromStr Pop.fmt
  rw [split2_append _ _ _ hb]
  simp only
  rw [split2_append _ _ _ (not_mem_toDec _ _ (by decide))]
  simp only [parseUInt_toDec hc, starOf_toDec, h.2, someEmail_getD h.1]

/-- Only one to five stars are accepted, and what is accepted is a proper rating of the email before the first bar. -/
theorem fromStr_ok {custom : Provider} {s : Str} {p : Pop} (h : fromStr custom s = some p) :
    Proper custom p ∧ p.counter < 2 ^ 64 ∧ '|' ∉ p.email.getD [] ∧
      ∃ stars counter, s = p.email.getD [] ++ '|' :: (stars ++ '|' :: counter) ∧ '|' ∉ stars ∧
        parseUInt (2 ^ 31) stars = some p.rating.toNat ∧ parseUInt (2 ^ 64) counter = some p.counter := by
  unfold fromStr at h
  rcases split2_spec '|' s with ⟨_, hs⟩ | ⟨email, rest, hS1, hS, hs⟩
  · rw [hs] at h; cases h
  · rw [hs] at h
    simp only at h
    rcases split2_spec '|' rest with ⟨_, hs⟩ | ⟨stars, counter, hS21, hS2, hs⟩
    · rw [hs] at h; cases h
    · rw [hs] at h
      simp only at h
      cases hc : parseUInt (2 ^ 64) counter with
      | none => rw [hc] at h; cases h
      | some c =>
      cases hr : starOf stars with
      | none => rw [hc, hr] at h; cases h
      | some st =>
      cases hk : kindOf custom email with
      | none => rw [hc, hr, hk] at h; cases h
      | some k =>
      rw [hc, hr, hk] at h
      simp only [Option.some.injEq] at h
      subst h
      have he : (someEmail email).getD [] = email := by
        unfold someEmail; cases email <;> rfl
      refine ⟨⟨?_, ?_⟩, parseUInt_lt (by decide) hc, ?_, stars, counter, ?_, ?_, ?_, hc⟩
      · simp only [someEmail]; cases email <;> simp
      · simp only [he]; exact hk
      · simp only [he]; exact hS1
      · simp only [he, ← hS2, ← hS]
      · exact hS21
      · simp only
        revert hr
        unfold starOf
        split <;> intro hr <;> simp_all [Star.toNat] <;> subst hr <;> rfl

/-! ## Surprises -/

/-- A bar in the email is not escaped: the text of such a rating is not accepted as a rating. -/
theorem bar_lost (custom : Provider) {p : Pop} (h : '|' ∈ p.email.getD []) : fromStr custom p.fmt = none := by
  cases hf : fromStr custom p.fmt with
  | none => rfl
  | some q =>
    obtain ⟨_, _, hb, stars, counter, hs, hst, _, hc⟩ := fromStr_ok hf
    exfalso
    obtain ⟨a, b, ha, hab, _⟩ := (split2_spec '|' (p.email.getD [])).resolve_left (fun hx => hx.1 h)
    unfold Pop.fmt at hs
    rw [hab, List.append_assoc, List.cons_append] at hs
    have h1 := split2_append '|' a (b ++ '|' :: (toDec p.rating.toNat ++ '|' :: toDec p.counter)) ha
    rw [hs, split2_append _ _ _ hb] at h1
    simp only [Prod.mk.injEq, Option.some.injEq] at h1
    have hmem : '|' ∈ counter := by
      rcases split2_spec '|' b with ⟨hb', hsp⟩ | ⟨x, y, hx, hxy, hsp⟩
      · have h2 := split2_append '|' b (toDec p.rating.toNat ++ '|' :: toDec p.counter) hb'
        rw [← h1.2, split2_append _ _ _ hst] at h2
        simp only [Prod.mk.injEq, Option.some.injEq] at h2
        rw [h2.2]; simp
      · have h2 := split2_append '|' x (y ++ '|' :: (toDec p.rating.toNat ++ '|' :: toDec p.counter)) hx
        have h3 : stars ++ '|' :: counter = x ++ '|' :: (y ++ '|' :: (toDec p.rating.toNat ++ '|' :: toDec p.counter)) := by
          rw [h1.2, hxy]; simp
        rw [← h3, split2_append _ _ _ hst] at h2
        simp only [Prod.mk.injEq, Option.some.injEq] at h2
        rw [h2.2]; simp
    rw [parseUInt_none_of_mem _ (c := '|') (by decide) (by decide) hmem] at hc
    cases hc

example : fromStr default (Pop.custom (str "a|b") .three 7).fmt = none := by decide

/-- A custom rating with an empty email comes back without email. -/
theorem empty_email_lost : fromStr default (Pop.custom [] .three 7).fmt = some ⟨none, .custom, .three, 7⟩ := by decide

/-- A custom rating made for an email of a player is written with the custom provider but read with the player's. -/
theorem custom_player_differs :
    mapped default (str "users@musicbrainz.org") .id3v2 ((Pop.custom (str "users@musicbrainz.org") .two 0).mappedValue default .id3v2) 0
      = some ⟨some (str "users@musicbrainz.org"), .picard, .two, 0⟩ ∧
    mapped default (str "users@musicbrainz.org") .id3v2 ((Pop.custom (str "users@musicbrainz.org") .three 0).mappedValue default .id3v2) 0
      = some ⟨some (str "users@musicbrainz.org"), .picard, .three, 0⟩ ∧
    mapped default (str "users@musicbrainz.org") .mp4Ilst ((Pop.custom (str "users@musicbrainz.org") .two 0).mappedValue default .mp4Ilst) 0
      = some ⟨some (str "users@musicbrainz.org"), .picard, .five, 0⟩ := by decide

example : Proper default (.custom (str "me@example.org") .four 12) := by decide
example : fromStr default (str "me@example.org|4|12") = some (.custom (str "me@example.org") .four 12) := by decide
example : (Pop.picard .four 12).mappedValue default .id3v2 = 204 := by decide

end Lofty.Rating
