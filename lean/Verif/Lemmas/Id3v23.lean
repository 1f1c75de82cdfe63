import Verif.Spec.Id3v23
/-!
# Helper lemmas about tags saved as ID3v2.3
-/
namespace Lofty.Text

/-- The bytes of a text in the middle of another one: without byte order mark and terminator. -/
def rawBytes (ne : Bool) : Encoding → Str → Bytes
  | .latin1, t => t.map fun c => UInt8.ofNat c.toNat
  | .utf8, t => utf8 t
  | .utf16, t => (t.flatMap utf16Units).flatMap (u16Bytes ne)
  | .utf16be, t => (t.flatMap utf16Units).flatMap (u16Bytes true)

/-- The terminator of a text. -/
def term : Encoding → Bytes
  | .latin1 | .utf8 => [0]
  | .utf16 | .utf16be => [0, 0]

/-- The byte order mark in front of a text. -/
def lead (ne : Bool) : Encoding → Bytes
  | .utf16 => u16Bytes ne 0xFEFF
  | _ => []

theorem rawBytes_append (ne : Bool) (e : Encoding) (a b : Str) : rawBytes ne e (a ++ b) = rawBytes ne e a ++ rawBytes ne e b := by
  cases e <;> simp [rawBytes]

theorem rawBytes_nul (ne : Bool) (e : Encoding) (b : Str) : rawBytes ne e ('\x00' :: b) = term e ++ rawBytes ne e b := by
  cases e with
  | latin1 => rfl
  | utf8 => rfl
  | utf16 =>
    have : u16Bytes ne 0 = [0, 0] := by cases ne <;> decide
    simp [rawBytes, term, utf16Units, this]
  | utf16be =>
    have : u16Bytes true 0 = [0, 0] := by decide
    simp [rawBytes, term, utf16Units, this]

theorem encode_raw (ne : Bool) (e : Encoding) (t : Str) (lossy : Bool) (hr : Representable e t) :
    encode ne e t false lossy = .ok (lead ne e ++ rawBytes ne e t) := by
  cases e with
  | latin1 => simp [encode_latin1 _ _ _ _ hr, lead, rawBytes]
  | utf8 => simp [encode, lead, rawBytes]
  | utf16 => simp [encode, utf16Encode, lead, rawBytes]
  | utf16be => simp [encode, utf16Encode, lead, rawBytes]

theorem encode_raw_term (ne : Bool) (e : Encoding) (t : Str) (lossy : Bool) (hr : Representable e t) :
    encode ne e t true lossy = .ok (lead ne e ++ rawBytes ne e t ++ term e) := by
  cases e with
  | latin1 => simp [encode_latin1 _ _ _ _ hr, lead, rawBytes, term]
  | utf8 => simp [encode, lead, rawBytes, term]
  | utf16 => simp [encode, utf16Encode, lead, rawBytes, term]
  | utf16be => simp [encode, utf16Encode, lead, rawBytes, term]

theorem rawBytes_eq_nil {ne : Bool} {e : Encoding} {t : Str} (h : rawBytes ne e t = []) : t = [] := by
  have units : ∀ be, (t.flatMap utf16Units).flatMap (u16Bytes be) = [] → t = [] := by
    intro be h
    have h1 := congrArg List.length h
    rw [flatMap_u16_length] at h1
    cases t with
    | nil => rfl
    | cons c t =>
      exfalso
      simp only [List.flatMap_cons, List.length_append, List.length_nil] at h1
      have : 0 < (utf16Units c).length := by unfold utf16Units; simp only; split <;> simp
      omega
  cases e with
  | latin1 => simpa [rawBytes] using h
  | utf8 => exact utf8_eq_nil h
  | utf16 => exact units _ h
  | utf16be => exact units _ h

/-- The raw bytes of a text decode to it under the byte order mark found earlier. -/
theorem decodeRaw_raw (ne : Bool) (e : Encoding) (t : Str) (hr : Representable e t) (hl : t.getLast? ≠ some '\x00') (hne : t ≠ []) :
    decodeRaw e (mark ne e) (rawBytes ne e t) = .ok (t, mark ne e) := by
  cases e with
  | latin1 => simp only [decodeRaw, rawBytes, latin1Decode, latin1_map_map t hr, trimEndNulls_eq t hl]; rfl
  | utf8 => simp [decodeRaw, rawBytes, utf8Decode, fromUtf8_utf8, trimEndNulls_eq t hl, Except.map, mark]
  | utf16be =>
    simp only [decodeRaw, rawBytes]
    rw [utf16DecodeBytes_units true t hl hr]; rfl
  | utf16 =>
    have h1 : rawBytes ne .utf16 t ≠ [] := fun h => hne (rawBytes_eq_nil h)
    have h2 := flatMap_u16_length ne (t.flatMap utf16Units)
    have h3 := utf16DecodeBytes_units ne t hl hr
    simp only [rawBytes] at h1 ⊢
    generalize (t.flatMap utf16Units).flatMap (u16Bytes ne) = r at h1 h2 h3 ⊢
    match r with
    | [] => exact absurd rfl h1
    | [x] => simp at h2; omega
    | x :: y :: r =>
      simp only [decodeRaw]
      rw [if_neg (by omega)]
      cases ne <;> simp [mark, h3, Except.map]

theorem readTo_term (ne : Bool) (e : Encoding) (t : Str) (rest : Bytes) (hr : Representable e t) (h0 : '\x00' ∉ t) :
    readToTerminator e (rawBytes ne e t ++ (term e ++ rest)) = (rawBytes ne e t, (term e).length, rest) := by
  cases e with
  | latin1 => exact readTerm1_noZero _ (latin1_noZero t hr h0) rest
  | utf8 => exact readTerm1_noZero _ (fun h => h0 ((zero_mem_utf8 t).mp h)) rest
  | utf16 => exact readTerm2_units ne _ (units_lt t) (units_ne_zero t h0) rest
  | utf16be => exact readTerm2_units true _ (units_lt t) (units_ne_zero t h0) rest

theorem readTo_end (ne : Bool) (e : Encoding) (t : Str) (hr : Representable e t) (h0 : '\x00' ∉ t) :
    readToTerminator e (rawBytes ne e t) = (rawBytes ne e t, 0, []) := by
  cases e with
  | latin1 => exact readTerm1_end _ (latin1_noZero t hr h0)
  | utf8 => exact readTerm1_end _ (fun h => h0 ((zero_mem_utf8 t).mp h))
  | utf16 => exact readTerm2_units_end ne _ (units_lt t) (units_ne_zero t h0)
  | utf16be => exact readTerm2_units_end true _ (units_lt t) (units_ne_zero t h0)

/-- A text in the middle of a list is read up to its terminator. -/
theorem piece_term (ne : Bool) (e : Encoding) (t : Str) (rest : Bytes) (hr : Representable e t) (h0 : '\x00' ∉ t) :
    ∃ d, decodeText e true (mark ne e) (rawBytes ne e t ++ (term e ++ rest)) = .ok (d, rest) ∧ d.content = t ∧
      d.bytesRead ≠ 0 := by
  have hpos : 0 < (term e).length := by cases e <;> simp [term]
  rw [decodeText, if_pos rfl, readTo_term ne e t rest hr h0]
  simp only
  by_cases ht : t = []
  · subst ht
    have : rawBytes ne e [] = [] := by cases e <;> rfl
    rw [this]
    exact ⟨_, rfl, rfl, by show (term e).length ≠ 0; omega⟩
  · rw [if_neg (by simpa using fun h => ht (rawBytes_eq_nil h)), decodeRaw_raw ne e t hr (getLast?_of_no_nul t h0) ht]
    exact ⟨_, rfl, rfl, by show _ + (term e).length ≠ 0; omega⟩

/-- The last text of a list is read up to the end. -/
theorem piece_end (ne : Bool) (e : Encoding) (t : Str) (hr : Representable e t) (h0 : '\x00' ∉ t) :
    ∃ d, decodeText e true (mark ne e) (rawBytes ne e t) = .ok (d, []) ∧ d.content = t ∧ (t ≠ [] → d.bytesRead ≠ 0) := by
  rw [decodeText, if_pos rfl, readTo_end ne e t hr h0]
  simp only
  by_cases ht : t = []
  · subst ht
    have : rawBytes ne e [] = [] := by cases e <;> rfl
    rw [this]
    exact ⟨_, rfl, rfl, by simp⟩
  · rw [if_neg (by simpa using fun h => ht (rawBytes_eq_nil h)), decodeRaw_raw ne e t hr (getLast?_of_no_nul t h0) ht]
    exact ⟨_, rfl, rfl, fun _ h => ht (rawBytes_eq_nil (List.length_eq_zero_iff.mp (by simpa using h)))⟩

end Lofty.Text

namespace Lofty.Id3v2
open Lofty.Text

/-! ## The list of people -/

theorem foldl_addPair (s : Str) (hs : s ≠ []) (ps : List (Str × Str)) :
    ps.foldl addPair s = s ++ ps.flatMap fun q => '\x00' :: (q.1 ++ '\x00' :: q.2) := by
  induction ps generalizing s with
  | nil => simp
  | cons p ps ih =>
    rw [List.foldl_cons, ih _ (by simp [addPair]), List.flatMap_cons, addPair, if_neg (by simpa using hs)]
    simp [List.append_assoc]

theorem joined_cons (p : Str × Str) (ps : List (Str × Str)) :
    (p :: ps).foldl addPair [] = p.1 ++ '\x00' :: (p.2 ++ ps.flatMap fun q => '\x00' :: (q.1 ++ '\x00' :: q.2)) := by
  rw [List.foldl_cons, foldl_addPair _ (by simp [addPair]), addPair]
  simp

theorem joined_rest (ps : List (Str × Str)) (h : ps ≠ []) :
    (ps.flatMap fun q => '\x00' :: (q.1 ++ '\x00' :: q.2)) = '\x00' :: ps.foldl addPair [] := by
  cases ps with
  | nil => exact absurd rfl h
  | cons p ps => rw [joined_cons]; simp

/-- Pairs that can be written in this encoding. -/
def PairsOk (e : Encoding) (ps : List (Str × Str)) : Prop := ∀ p ∈ ps, Inside e p.1 ∧ Inside e p.2

theorem representable_append {e : Encoding} {a b : Str} (ha : Representable e a) (hb : Representable e b) : Representable e (a ++ b) := by
  cases e with
  | utf8 => trivial
  | latin1 => intro c hc; rcases List.mem_append.mp hc with h | h; exact ha c h; exact hb c h
  | utf16 => intro c hc; rcases List.mem_append.mp hc with h | h; exact ha c h; exact hb c h
  | utf16be => intro c hc; rcases List.mem_append.mp hc with h | h; exact ha c h; exact hb c h

theorem representable_joined {e : Encoding} {ps : List (Str × Str)} (h : PairsOk e ps) : Representable e (ps.foldl addPair []) := by
  have one : Representable e ['\x00'] := representable_ascii (by simp)
  have : ∀ s, Representable e s → Representable e (ps.foldl addPair s) := by
    induction ps with
    | nil => intro s hs; exact hs
    | cons p ps ih =>
      intro s hs
      rw [List.foldl_cons]
      refine ih (fun q hq => h q (by simp [hq])) _ ?_
      have hp := h p (by simp)
      unfold addPair
      split
      · simpa using representable_append hp.1.1 (representable_append one hp.2.1)
      · have := representable_append (representable_append hs one) (representable_append hp.1.1 (representable_append one hp.2.1))
        simpa using this
  exact this [] (by cases e <;> simp [Representable])

theorem kvLoop_nil (e : Encoding) (bom : UInt8 × UInt8) (n : Nat) : kvLoop e bom (n + 1) [] = .ok ([], []) := by
  have : decodeText e true bom [] = .ok (⟨[], 0, (0, 0)⟩, []) := by cases e <;> rfl
  rw [kvLoop, this]
  simp only [ok_bind, this]
  rw [if_pos (by simp)]

theorem kvLoop_joined (ne : Bool) (e : Encoding) (ps : List (Str × Str)) (h : PairsOk e ps) (hl : ∀ p, ps.getLast? = some p → p.2 ≠ []) :
    ∀ n, (rawBytes ne e (ps.foldl addPair [])).length < n →
      kvLoop e (mark ne e) n (rawBytes ne e (ps.foldl addPair [])) = .ok (ps, []) := by
  induction ps with
  | nil =>
    intro n hn
    have : rawBytes ne e [] = [] := by cases e <;> rfl
    cases n with
    | zero => omega
    | succ n => rw [List.foldl_nil, this, kvLoop_nil]
  | cons p ps ih =>
    intro n hn
    have hp := h p (by simp)
    have hpos : 0 < (term e).length := by cases e <;> simp [term]
    rw [joined_cons, rawBytes_append, rawBytes_nul, rawBytes_append] at hn ⊢
    cases n with
    | zero => omega
    | succ n =>
      obtain ⟨d1, a1, a2, a3⟩ := piece_term ne e p.1 (rawBytes ne e p.2 ++ rawBytes ne e (ps.flatMap fun q => '\x00' :: (q.1 ++ '\x00' :: q.2))) hp.1.1 hp.1.2
      rw [kvLoop, a1]
      simp only [ok_bind]
      by_cases hps : ps = []
      · subst hps
        obtain ⟨d2, b1, b2, b3⟩ := piece_end ne e p.2 hp.2.1 hp.2.2
        have : rawBytes ne e [] = [] := by cases e <;> rfl
        rw [List.flatMap_nil, this, List.append_nil, b1]
        simp only [ok_bind]
        have hv := b3 (hl p (by simp))
        simp only [List.length_append] at hn
        obtain ⟨m, rfl⟩ : ∃ m, n = m + 1 := ⟨n - 1, by omega⟩
        rw [if_neg (by omega), kvLoop_nil]
        simp only [ok_bind, a2, b2]
      · rw [joined_rest ps hps, rawBytes_nul]
        rw [joined_rest ps hps, rawBytes_nul] at hn
        obtain ⟨d2, b1, b2, b3⟩ := piece_term ne e p.2 (rawBytes ne e (ps.foldl addPair [])) hp.2.1 hp.2.2
        rw [b1]
        simp only [ok_bind]
        simp only [List.length_append] at hn
        rw [if_neg (by omega), ih (fun q hq => h q (by simp [hq])) (fun q hq => hl q (by
          rw [List.getLast?_cons, hq]; rfl)) n (by omega)]
        simp only [ok_bind, a2, b2]

/-- **The text of the people** is read as the list of people. -/
theorem kvPairs_joined (o : WriteOpts) (e : Encoding) (ps : List (Str × Str)) (h : PairsOk e ps) (hne : ps ≠ [])
    (hl : ps.length = 1 ∨ ∀ p, ps.getLast? = some p → p.2 ≠ []) :
    ∃ b, o.text e (ps.foldl addPair []) false = .ok b ∧ kvPairs e b = .ok (some ps, []) := by
  refine ⟨_, encode_raw o.ne e _ o.lossy (representable_joined h), ?_⟩
  cases ps with
  | nil => exact absurd rfl hne
  | cons p ps =>
    have hp := h p (by simp)
    obtain ⟨b, h1, hbne, h2⟩ := text_term o hp.1.1 hp.1.2
    rw [WriteOpts.text, encode_raw_term o.ne e _ o.lossy hp.1.1] at h1
    cases h1
    obtain ⟨d1, a1, a2, a3, a4⟩ := h2 (rawBytes o.ne e p.2 ++ rawBytes o.ne e (ps.flatMap fun q => '\x00' :: (q.1 ++ '\x00' :: q.2)))
    have hpos : 0 < d1.bytesRead := by rw [a3]; exact List.length_pos_iff.mpr hbne
    rw [joined_cons, rawBytes_append, rawBytes_nul, rawBytes_append]
    rw [List.append_assoc, List.append_assoc] at a1
    rw [kvPairs, a1]
    simp only [ok_bind]
    rw [if_neg (by omega)]
    have hb : (if e = .utf16 then d1.bom else (0, 0)) = mark o.ne e := by
      rw [a4]; unfold mark; split <;> rfl
    rw [hb]
    by_cases hps : ps = []
    · subst hps
      obtain ⟨d2, b1, b2, b3⟩ := piece_end o.ne e p.2 hp.2.1 hp.2.2
      have : rawBytes o.ne e [] = [] := by cases e <;> rfl
      rw [List.flatMap_nil, this, List.append_nil, b1]
      simp only [ok_bind, kvLoop_nil, a2, b2]
    · rw [joined_rest ps hps, rawBytes_nul]
      obtain ⟨d2, b1, b2, b3⟩ := piece_term o.ne e p.2 (rawBytes o.ne e (ps.foldl addPair [])) hp.2.1 hp.2.2
      rw [b1]
      simp only [ok_bind]
      have hl' : ∀ q, ps.getLast? = some q → q.2 ≠ [] := by
        rcases hl with hl | hl
        · exact absurd (List.length_eq_zero_iff.mp (by simpa using hl)) hps
        · intro q hq; exact hl q (by rw [List.getLast?_cons, hq]; rfl)
      rw [kvLoop_joined o.ne e ps (fun q hq => h q (by simp [hq])) hl' _ (by omega)]
      simp only [ok_bind, a2, b2]

/-! ## Genres -/

theorem parseGenreKeep_eq {g : Str} (h1 : g ≠ str "RX") (h2 : g ≠ str "CR") : parseGenreKeep g = g := by
  unfold parseGenreKeep
  rw [if_neg h1, if_neg h2]
  split
  · rfl
  · split <;> rfl

theorem joinGenres_text (gs : List Str) : joinGenres (gs.map parseGenreKeep) = genreText gs := by
  induction gs with
  | nil => rfl
  | cons g gs ih =>
    rw [List.map_cons, joinGenres, genreText, ih]
    congr 1
    by_cases h1 : g = str "RX"
    · rw [h1, if_pos (by decide : parseGenreKeep (str "RX") = str "Remix"), if_pos (.inr rfl)]
    · by_cases h2 : g = str "CR"
      · rw [h2, if_neg (by decide : ¬ parseGenreKeep (str "CR") = str "Remix"), if_pos (by decide : parseGenreKeep (str "CR") = str "Cover"),
          if_neg (by decide), if_pos (.inr rfl)]
      · rw [parseGenreKeep_eq h1 h2]
        have e1 : (g = str "Remix" ∨ g = str "RX") ↔ g = str "Remix" := ⟨fun h => h.resolve_right h1, .inl⟩
        have e2 : (g = str "Cover" ∨ g = str "CR") ↔ g = str "Cover" := ⟨fun h => h.resolve_right h2, .inl⟩
        have e3 : ((gs.map parseGenreKeep).isEmpty = true) ↔ gs = [] := by simp
        simp only [e1, e2, e3]

theorem genreStep_plain {g : Str} (h0 : '\x00' ∉ g) (hp : g.head? ≠ some '(') : genreStep g = (g, []) := by
  unfold genreStep
  rw [if_neg (by simpa using h0), if_neg (by simp [startsWith, hp])]

theorem takeWhile_stop {p : Char → Bool} {g r : Str} {c : Char} (h : ∀ x ∈ g, p x = true) (hc : p c = false) :
    (g ++ c :: r).takeWhile p = g ∧ (g ++ c :: r).dropWhile p = c :: r := by
  induction g with
  | nil => simp [List.takeWhile, List.dropWhile, hc]
  | cons x g ih =>
    have hx := h x (by simp)
    have := ih (fun y hy => h y (by simp [hy]))
    simp only [List.cons_append, List.takeWhile_cons, List.dropWhile_cons, hx, if_true]
    exact ⟨by rw [this.1], this.2⟩

theorem genreStep_nul {g r : Str} (h0 : '\x00' ∉ g) : genreStep (g ++ '\x00' :: r) = (g, r) := by
  have ⟨h1, h2⟩ := takeWhile_stop (p := fun c => decide (c ≠ '\x00')) (g := g) (r := r) (c := '\x00')
    (fun x hx => decide_eq_true fun h => h0 (h ▸ hx)) rfl
  unfold genreStep
  rw [if_pos (by simp), h1, h2]
  rfl

theorem genresKeep_nil (n : Nat) : genresKeep n [] = [] := by cases n <;> rfl

theorem genresKeep_join (gs : List Str) (hg : ∀ g ∈ gs, g ≠ [] ∧ '\x00' ∉ g) (hl : ∀ g, gs.getLast? = some g → g.head? ≠ some '(') :
    ∀ n, (joinNul gs).length ≤ n → genresKeep n (joinNul gs) = gs.map parseGenreKeep := by
  induction gs with
  | nil => intro n _; exact genresKeep_nil n
  | cons g gs ih =>
    intro n hn
    obtain ⟨h1, h2⟩ := hg g (by simp)
    have hpos := List.length_pos_iff.mpr h1
    cases gs with
    | nil =>
      rw [joinNul] at hn ⊢
      obtain ⟨m, rfl⟩ : ∃ m, n = m + 1 := ⟨n - 1, by omega⟩
      rw [genresKeep, if_neg (by simpa using h1), genreStep_plain h2 (hl g rfl), genresKeep_nil]
      rfl
    | cons g' gs =>
      have e : joinNul (g :: g' :: gs) = g ++ '\x00' :: joinNul (g' :: gs) := rfl
      rw [e] at hn ⊢
      simp only [List.length_append, List.length_cons] at hn
      obtain ⟨m, rfl⟩ : ∃ m, n = m + 1 := ⟨n - 1, by omega⟩
      rw [genresKeep, if_neg (by simp), genreStep_nul h2]
      simp only
      rw [ih (fun x hx => hg x (by simp [hx])) (fun x hx => hl x (by rw [List.getLast?_cons_cons]; exact hx)) m (by omega)]
      rfl

/-- The text written for genres that were separated by NUL. -/
theorem genresV3_join {gs : List Str} (h : GenresOk gs) : genresV3 (joinNul gs) = genreText gs := by
  rw [genresV3, genresKeep_join gs h.2.1 h.2.2 _ (Nat.le_refl _), joinGenres_text]

theorem splitOn_plain {g : Str} (h : '\x00' ∉ g) : splitOn '\x00' g = [g] := by
  induction g with
  | nil => rfl
  | cons c g ih =>
    simp only [List.mem_cons, not_or] at h
    rw [splitOn, if_neg (fun e => h.1 e.symm), ih h.2]

theorem splitOn_append {g r : Str} (h : '\x00' ∉ g) : splitOn '\x00' (g ++ '\x00' :: r) = g :: splitOn '\x00' r := by
  induction g with
  | nil => simp [splitOn]
  | cons c g ih =>
    simp only [List.mem_cons, not_or] at h
    rw [List.cons_append, splitOn, if_neg (fun e => h.1 e.symm), ih h.2]

theorem splitOn_join (gs : List Str) (h : ∀ g ∈ gs, '\x00' ∉ g) (hne : gs ≠ []) : splitOn '\x00' (joinNul gs) = gs := by
  induction gs with
  | nil => exact absurd rfl hne
  | cons g gs ih =>
    cases gs with
    | nil => exact splitOn_plain (h g (by simp))
    | cons g' gs =>
      have e : joinNul (g :: g' :: gs) = g ++ '\x00' :: joinNul (g' :: gs) := rfl
      rw [e, splitOn_append (h g (by simp)), ih (fun x hx => h x (by simp [hx])) (by simp)]

theorem mem_joinNul {gs : List Str} {g : Str} (hg : g ∈ gs) {c : Char} (hc : c ∈ g) : c ∈ joinNul gs := by
  induction gs with
  | nil => cases hg
  | cons x gs ih =>
    cases gs with
    | nil =>
      simp only [List.mem_cons, List.not_mem_nil, or_false] at hg
      subst hg; exact hc
    | cons y gs =>
      have e : joinNul (x :: y :: gs) = x ++ '\x00' :: joinNul (y :: gs) := rfl
      rw [e]
      rcases List.mem_cons.mp hg with rfl | hg
      · exact List.mem_append_left _ hc
      · exact List.mem_append_right _ (List.mem_cons_of_mem _ (ih hg))

theorem mem_genreText {gs : List Str} {c : Char} (h : c ∈ genreText gs) : (∃ g ∈ gs, c ∈ g) ∨ c ∈ ['(', ')', 'R', 'X', 'C'] := by
  induction gs with
  | nil => cases h
  | cons g gs ih =>
    rw [genreText] at h
    rcases List.mem_append.mp h with h | h
    · split at h
      · right; revert h; simp only [str]; intro h
        have : ∀ c ∈ "(RX)".toList, c ∈ ['(', ')', 'R', 'X', 'C'] := by decide
        exact this c h
      · split at h
        · right
          have : ∀ c ∈ str "(CR)", c ∈ ['(', ')', 'R', 'X', 'C'] := by decide
          exact this c h
        · split at h
          · exact .inl ⟨g, by simp, h⟩
          · simp only [List.cons_append, List.mem_cons, List.mem_append, List.not_mem_nil, or_false] at h
            rcases h with rfl | h | rfl
            · right; simp
            · exact .inl ⟨g, by simp, h⟩
            · right; simp
    · rcases ih h with ⟨x, hx, hc⟩ | h
      · exact .inl ⟨x, by simp [hx], hc⟩
      · exact .inr h

theorem representable_of_mem {e : Encoding} {t u : Str} (ht : Representable e t) (h : ∀ c ∈ u, c ∈ t ∨ c.toNat ≤ 127) : Representable e u := by
  cases e with
  | utf8 => trivial
  | latin1 =>
    intro c hc
    rcases h c hc with h | h
    · exact ht c h
    · omega
  | utf16 =>
    intro c hc
    rcases h c hc with h | h
    · exact ht c h
    · omega
  | utf16be =>
    intro c hc
    rcases h c hc with h | h
    · exact ht c h
    · omega

theorem final_genreText {e : Encoding} {gs : List Str} (h : GenresOk gs) (hr : Representable e (joinNul gs)) : Final e (genreText gs) := by
  constructor
  · refine representable_of_mem hr fun c hc => ?_
    rcases mem_genreText hc with ⟨g, hg, h⟩ | h
    · exact .inl (mem_joinNul hg h)
    · right
      have : ∀ c ∈ ['(', ')', 'R', 'X', 'C'], c.toNat ≤ 127 := by decide
      exact this c h
  · apply getLast?_of_no_nul
    intro hc
    rcases mem_genreText hc with ⟨g, hg, h'⟩ | h'
    · exact (h.2.1 g hg).2 h'
    · revert h'; decide

/-! ## Frames as pieces of the written bytes -/

/-- A piece of the written bytes that is read as one frame. -/
def Piece (rc : Bytes → Except Err (List Frame × Bytes)) (o : WriteOpts) (po : ParseOpts) (x : Bytes × Frame) : Prop :=
  0 < x.1.length ∧ ∀ rest, readFrame rc po o.version false (x.1 ++ rest) = .ok (.next x.2 rest)

theorem pieces_read (rc : Bytes → Except Err (List Frame × Bytes)) (o : WriteOpts) (po : ParseOpts) (p : Bytes) (hp : NoFrame p)
    (ps : List (Bytes × Frame)) : ∀ acc : List Frame, (∀ x ∈ ps, Piece rc o po x) →
      (acc ++ ps.map (·.2)).Pairwise (fun a b => ¬ Same a b) → OncePerTag (acc ++ ps.map (·.2)) →
      ∀ n, (ps.flatMap (·.1)).length < n →
        readLoop rc po o.version false n (ps.flatMap (·.1) ++ p) acc = .ok (acc ++ ps.map (·.2), p.drop 10) := by
  induction ps with
  | nil =>
    intro acc _ _ _ n hn
    cases n with
    | zero => simp at hn
    | succ n =>
      rw [readLoop, List.flatMap_nil, List.nil_append, readFrame, noFrame_header o _ hp]
      simp only [if_neg o.version_ne, List.map_nil, List.append_nil]
  | cons x ps ih =>
    intro acc hx hd ho n hn
    obtain ⟨h1, h2⟩ := hx x (by simp)
    rw [List.flatMap_cons, List.length_append] at hn
    cases n with
    | zero => omega
    | succ n =>
      rw [List.map_cons] at hd ho
      rw [readLoop, List.flatMap_cons, List.append_assoc, h2]
      simp only
      rw [addFrame_new hd ho, ih (acc ++ [x.2]) (fun y hy => hx y (by simp [hy])) (by simpa using hd) (by simpa using ho) n (by omega)]
      simp

theorem leaf_piece (rc : Bytes → Except Err (List Frame × Bytes)) {o : WriteOpts} {po : ParseOpts} {name s : Str} {flags : FrameFlags}
    {v w : Bytes} {c : Content} (hn : IdOk name) (hs : IdOk s) (hu : upId o.v23 po.implicit name = s) (hf : PlainFlags flags) (hv : v ≠ [])
    (hl : v.length < 2 ^ 32) (hc : s ∉ [str "APIC", str "CHAP", str "CTOC"])
    (hp : parseLeaf po o.version (.valid s) v = .ok (some c, [])) (hw : writeFrame o name flags v = .ok w) :
    Piece rc o po (w, .leaf flags c) := by
  simp only [List.mem_cons, List.not_mem_nil, or_false, not_or] at hc
  have h10 := writeFrame_length hn hw
  refine ⟨by simp only; omega, fun rest => ?_⟩
  have hr := readFrame_up rc o po rest hn (by rw [hu]; exact hs) hf hv hl (.inr (by rw [hu]; exact hc.1)) hw
  simp only
  rw [hr, hu, parseFrame, parseContent, FrameId.asStr, if_neg hc.2.1, if_neg hc.2.2, hp]
  simp only [Except.map, Option.map, leftover, List.nil_append, if_t_t]

/-- A frame that is written as it is. -/
theorem plain_piece (rc : Bytes → Except Err (List Frame × Bytes)) {o : WriteOpts} {po : ParseOpts} {f : Frame} {s : Str} {v w : Bytes}
    (hs : Readable o po f s) (hb : ReadBack o po rc f) (hv : f.asBytes o = .ok v) (hw : writeFrame o s f.flags v = .ok w)
    (hl : w.length < 2 ^ 32) : Piece rc o po (w, f.reencode o) := by
  have h10 := writeFrame_length hs.ok hw
  have hvl : v.length ≤ w.length := writeFrame_le (by exact hs.flags) hw
  obtain ⟨hne, hpc⟩ := hb v hv (by omega)
  refine ⟨by simp only; omega, fun rest => ?_⟩
  simp only
  rw [readFrame_writeFrame rc o po rest hs.ok hs.kept hs.flags hne (by omega) hs.cover hw, parseFrame, ← hs.id, hpc]
  simp only [Except.map, leftover, List.nil_append, if_t_t]

theorem enc_enc (o : WriteOpts) (e : Encoding) : o.enc (o.enc e) = o.enc e := by
  unfold WriteOpts.enc
  cases o.v23 <;> cases e <;> rfl

theorem enc_v23 {o : WriteOpts} (h : o.v23 = true) (e : Encoding) : o.enc e.toId3v23 = o.enc e ∧ o.enc e = e.toId3v23 := by
  unfold WriteOpts.enc
  rw [h]
  cases e <;> exact ⟨rfl, rfl⟩

end Lofty.Id3v2
