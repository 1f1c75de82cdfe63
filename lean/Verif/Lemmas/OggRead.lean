import Verif.Lemmas.Ogg
import Mathlib.Data.List.Forall2
/-! Helper lemmas for C09: reading packets back. -/
namespace Lofty.Ogg

/-- The page carries the given piece. -/
structure PageFor (q : Page) (x : Piece) : Prop where
  content : q.content = x.data
  segs : q.header.segments = pieceSegments x.data
  abgp : q.header.abgp < 2 ^ 64
  serial : q.header.serial < 2 ^ 32
  seq : q.header.seq < 2 ^ 32

def pageBytes (q : Page) : Bytes := q.genCrc.asBytes

def pagesBytes (qs : List Page) : Bytes := (qs.map pageBytes).flatten

theorem readN_length {n : Nat} {d a d' : Bytes} (h : readN n d = .ok (a, d')) :
    d'.length ≤ d.length := by
  obtain ⟨rfl, _⟩ := readN_ok h
  simp

theorem readSegments_length {count : Int} (segs : List UInt8) {st st' : ReadState} {d d' : Bytes}
    {b : Bool} (h : readSegments count segs st d = .ok (st', d', b)) : d'.length ≤ d.length := by
  induction segs generalizing st d with
  | nil => cases h; exact Nat.le_refl _
  | cons i segs ih =>
    simp only [readSegments] at h
    split at h
    · obtain ⟨⟨c, d1⟩, h1, h2⟩ := bind_ok h
      have := readN_length h1
      simp only at h2
      split at h2
      · simp only [Except.ok.injEq, Prod.mk.injEq] at h2
        obtain ⟨_, rfl, _⟩ := h2
        exact this
      · exact Nat.le_trans (ih h2) this
    · exact ih h

theorem readSegments_no_diverge {count : Int} (segs : List UInt8) (st : ReadState) (d : Bytes) :
    readSegments count segs st d ≠ .error .diverge := by
  induction segs generalizing st d with
  | nil => simp [readSegments]
  | cons i segs ih =>
    simp only [readSegments]
    split
    · intro h
      generalize hn : (byteCountToRead _ _).1 = n at h
      cases hr : readN n d with
      | error e =>
        simp only [hr, error_bind] at h
        unfold readN at hr
        split at hr
        · cases hr
        · cases hr; cases h
      | ok v =>
        simp only [hr, ok_bind] at h
        split at h
        · cases h
        · exact ih _ _ h
    · exact ih _ _

theorem readPages_fuel (count : Int) (f1 f2 : Nat) (st : ReadState) (d : Bytes)
    (h1 : d.length < f1) (h2 : d.length < f2) :
    readPages count f1 st d = readPages count f2 st d := by
  induction f1 generalizing f2 st d with
  | zero => omega
  | succ f1 ih =>
    cases f2 with
    | zero => omega
    | succ f2 =>
      simp only [readPages]
      cases hh : PageHeader.read 0 d with
      | error e => rfl
      | ok v =>
        obtain ⟨h, d1⟩ := v
        have hl := header_read_lt hh
        simp only
        cases hs : readSegments count h.segments st d1 with
        | error e => rfl
        | ok v =>
          obtain ⟨st', d2, b⟩ := v
          have := readSegments_length _ hs
          simp only [ok_bind]
          cases b with
          | true => rfl
          | false =>
            simp only [Bool.false_eq_true, if_false]
            split
            · cases hr : readN (byteCountToRead st'.size st'.already).1 d2 with
              | error e => rfl
              | ok v =>
                have := readN_length hr
                simp only [ok_bind]
                exact ih _ _ _ (by omega) (by omega)
            · exact ih _ _ _ (by omega) (by omega)

theorem readN_no_diverge (n : Nat) (d : Bytes) : readN n d ≠ .error .diverge := by
  unfold readN; split <;> simp

theorem readPages_no_diverge (count : Int) (f : Nat) (st : ReadState) (d : Bytes)
    (h1 : d.length < f) : readPages count f st d ≠ .error .diverge := by
  induction f generalizing st d with
  | zero => omega
  | succ f1 ih =>
    simp only [readPages]
    cases hh : PageHeader.read 0 d with
    | error e => simp
    | ok v =>
      obtain ⟨h, d1⟩ := v
      have hl := header_read_lt hh
      simp only
      cases hs : readSegments count h.segments st d1 with
      | error e =>
        intro he
        rw [error_bind] at he
        cases he
        exact readSegments_no_diverge _ _ _ hs
      | ok v =>
        obtain ⟨st', d2, b⟩ := v
        have := readSegments_length _ hs
        simp only [ok_bind]
        cases b with
        | true => simp
        | false =>
          simp only [Bool.false_eq_true, if_false]
          split
          · cases hr : readN (byteCountToRead st'.size st'.already).1 d2 with
            | error e =>
              intro he
              rw [error_bind] at he
              cases he
              exact readN_no_diverge _ _ hr
            | ok v =>
              have := readN_length hr
              simp only [ok_bind]
              exact ih _ _ (by omega)
          · exact ih _ _ (by omega)

theorem readSegments_255 (count : Int) (k : Nat) (segs : List UInt8) (st : ReadState) (d : Bytes) :
    readSegments count (List.replicate k 255 ++ segs) st d
      = readSegments count segs { st with size := st.size + 255 * k } d := by
  induction k generalizing st with
  | zero => simp
  | succ k ih =>
    rw [List.replicate_succ, List.cons_append, readSegments]
    simp only [show ¬ ((255 : UInt8) < 255) by decide, if_false, show (255 : UInt8).toNat = 255 from rfl]
    rw [ih]
    simp only
    congr 2; omega

theorem pieceSegments_length (x : Bytes) (h : x.length ≤ 8160) :
    1 ≤ (pieceSegments x).length ∧ (pieceSegments x).length ≤ 32 := by
  unfold pieceSegments
  split
  · simp
  · simp; omega

theorem sum_replicate_255 (k : Nat) : ((List.replicate k (255 : UInt8)).map UInt8.toNat).sum = 255 * k := by
  induction k with
  | zero => rfl
  | succ k ih => rw [List.replicate_succ, List.map_cons, List.sum_cons, ih]; simp; omega

theorem pieceSegments_sum (x : Bytes) : ((pieceSegments x).map UInt8.toNat).sum = x.length := by
  unfold pieceSegments
  split
  · rw [sum_replicate_255]; omega
  · rw [List.map_append, List.sum_append, sum_replicate_255]
    simp
    omega

theorem header_of_page (q : Page) (x : Piece) (h : PageFor q x) (hl : x.data.length ≤ 8160) (rest : Bytes) :
    ∃ hd, PageHeader.read 0 (pageBytes q ++ rest) = .ok (hd, x.data ++ rest) ∧
      hd.segments = pieceSegments x.data := by
  have := pieceSegments_length x.data hl
  refine ⟨{ q.genCrc.header with start := 0 }, ?_, h.segs⟩
  have hr := header_read 0 q.genCrc.header (x.data ++ rest) (by
      simp only [Page.genCrc, h.segs]; omega) (by simp only [Page.genCrc, h.segs]; omega)
    h.abgp h.serial h.seq (by simp only [Page.genCrc]; exact BitVec.isLt _)
  rw [← hr, pageBytes, Page.asBytes, show q.genCrc.content = x.data from h.content]
  simp only [List.append_assoc]

/-- State of the reader after `s` bytes of an unfinished packet. -/
def Partial (st : ReadState) (s : Nat) : Prop :=
  st.size = s ∧ st.already = if s = 0 then none else some s

theorem byteCount_partial {st : ReadState} {s : Nat} (h : Partial st s) (n : Nat) :
    byteCountToRead (s + n) st.already = (n, if s + n = 0 then some 0 else some (s + n)) := by
  rw [h.2]
  by_cases hs : s = 0
  · subst hs
    simp [byteCountToRead]
  · simp [byteCountToRead, hs]

theorem readPages_full (count : Int) (fuel : Nat) (st : ReadState) (q : Page) (x : Piece) (s : Nat)
    (rest : Bytes) (hq : PageFor q x) (hl : x.data.length = 8160) (hst : Partial st s) :
    readPages count (fuel + 1) st (pageBytes q ++ rest)
      = readPages count fuel { st with size := s + 8160, already := some (s + 8160),
                                       content := st.content ++ x.data } rest := by
  obtain ⟨hd, h1, h2⟩ := header_of_page q x hq (by omega) rest
  simp only [readPages, h1, h2]
  have e : pieceSegments x.data = List.replicate 32 255 ++ [] := by simp [pieceSegments, hl]
  rw [e, readSegments_255]
  simp only [readSegments, ok_bind, Bool.false_eq_true, if_false, hst.1]
  rw [if_pos (by omega), show s + 255 * 32 = s + 8160 by omega, byteCount_partial hst]
  simp only [show ¬ (s + 8160 = 0) by omega, if_false]
  rw [readN_append _ _ hl, ok_bind]

theorem readPages_short (count : Int) (fuel : Nat) (st : ReadState) (q : Page) (x : Piece) (s : Nat)
    (rest : Bytes) (hq : PageFor q x) (hl : x.data.length < 8160) (hst : Partial st s) :
    readPages count (fuel + 1) st (pageBytes q ++ rest)
      = (let st' : ReadState := ⟨st.content ++ x.data, st.sizes ++ [s + x.data.length],
            bumpRead count st.packetsRead, 0, none⟩
         if st'.packetsRead = count then .ok (st', some rest) else readPages count fuel st' rest) := by
  obtain ⟨hd, h1, h2⟩ := header_of_page q x hq (by omega) rest
  simp only [readPages, h1, h2]
  have e : pieceSegments x.data
      = List.replicate (x.data.length / 255) 255 ++ [UInt8.ofNat (x.data.length % 255)] := by
    simp [pieceSegments, show ¬ x.data.length = 8160 by omega]
  have hr : (UInt8.ofNat (x.data.length % 255)).toNat = x.data.length % 255 := by
    rw [UInt8.toNat_ofNat']; omega
  have hr' : UInt8.ofNat (x.data.length % 255) < 255 := by
    rw [UInt8.lt_iff_toNat_lt, hr]
    exact Nat.mod_lt _ (by decide)
  rw [e, readSegments_255]
  simp only [readSegments, hr, hr', if_true, hst.1]
  have hsz : s + 255 * (x.data.length / 255) + x.data.length % 255 = s + x.data.length := by omega
  have hbc := byteCount_partial hst x.data.length
  simp only [hsz, hbc]
  rw [readN_append _ _ rfl, ok_bind]
  simp only []
  split
  · simp only [ok_bind, if_true]
  · simp only [ok_bind, Bool.false_eq_true, if_false, ne_eq, not_true]

theorem pageBytes_pos (q : Page) : 27 ≤ (pageBytes q).length := by
  simp [pageBytes, Page.asBytes]; omega

/-- Reading all pages of (the rest of) one packet. -/
theorem readPages_packet (count : Int) (p : Bytes) (starts : Bool) (off : Nat) (qs : List Page)
    (hq : List.Forall₂ PageFor qs (split starts off p)) (st : ReadState) (s : Nat) (rest : Bytes)
    (fuel : Nat) (hf : (pagesBytes qs ++ rest).length < fuel) (hst : Partial st s) :
    readPages count fuel st (pagesBytes qs ++ rest)
      = (let st' : ReadState := ⟨st.content ++ p, st.sizes ++ [s + p.length],
            bumpRead count st.packetsRead, 0, none⟩
         if st'.packetsRead = count then .ok (st', some rest)
         else readPages count (rest.length + 1) st' rest) := by
  induction hn : p.length using Nat.strongRecOn generalizing p starts off qs st s fuel with
  | _ n ih =>
    rw [split] at hq
    by_cases h8 : p.length < 8160
    · rw [dif_pos h8] at hq
      cases hq with
      | cons hq0 hq1 =>
        cases hq1
        rename_i q
        obtain ⟨fuel, rfl⟩ : ∃ k, fuel = k + 1 := ⟨fuel - 1, by omega⟩
        simp only [pagesBytes, List.map_cons, List.map_nil, List.flatten_cons, List.flatten_nil,
          List.append_nil] at hf ⊢
        have := pageBytes_pos q
        rw [readPages_short count fuel st q _ s rest hq0 h8 hst]
        simp only [hn]
        split
        · rfl
        · exact readPages_fuel _ _ _ _ _ (by simp at hf; omega) (by omega)
    · rw [dif_neg h8] at hq
      cases hq with
      | cons hq0 hq1 =>
        rename_i q qs'
        obtain ⟨fuel, rfl⟩ : ∃ k, fuel = k + 1 := ⟨fuel - 1, by omega⟩
        have hqb := pageBytes_pos q
        simp only [pagesBytes, List.map_cons, List.flatten_cons, List.append_assoc] at hf ⊢
        rw [readPages_full count fuel st q _ s _ hq0 (by simp; omega) hst]
        have := ih (p.drop 8160).length (by simp; omega) (p.drop 8160) false (off + 8160) qs' hq1
          { st with size := s + 8160, already := some (s + 8160), content := st.content ++ p.take 8160 }
          (s + 8160) fuel (by
            simp only [pagesBytes, List.length_append] at hf ⊢; omega)
          ⟨rfl, by simp⟩ rfl
        simp only [pagesBytes] at this
        rw [this]
        have e1 : st.content ++ p.take 8160 ++ p.drop 8160 = st.content ++ p := by simp
        have e2 : s + 8160 + (p.drop 8160).length = s + n := by simp; omega
        simp only [e1, e2]

/-- The i-th piece of a packet. -/
def pieceAt (starts : Bool) (off : Nat) (p : Bytes) (i : Nat) : Piece :=
  ⟨(p.drop (8160 * i)).take 8160, off + 8160 * i, starts && (i == 0), decide (8160 * (i + 1) < p.length)⟩

theorem split_closed (starts : Bool) (off : Nat) (p : Bytes) :
    split starts off p = (List.range (p.length / 8160 + 1)).map (pieceAt starts off p) := by
  induction hn : p.length using Nat.strongRecOn generalizing p starts off with
  | _ n ih =>
    subst hn
    rw [split]
    by_cases h8 : p.length < 8160
    · rw [dif_pos h8, Nat.div_eq_of_lt h8]
      simp [pieceAt, List.take_of_length_le (show p.length ≤ 8160 by omega)]
      omega
    · rw [dif_neg h8, ih _ (by simp; omega) _ _ _ rfl, List.range_succ_eq_map (n := p.length / 8160),
        List.map_cons, List.map_map]
      congr 1
      · simp [pieceAt]
      · have : (p.drop 8160).length / 8160 + 1 = p.length / 8160 := by
          simp only [List.length_drop]; omega
        rw [this]
        apply List.map_congr_left
        intro i _
        simp only [pieceAt, Function.comp, List.drop_drop, List.length_drop, Bool.false_and]
        have e1 : 8160 + 8160 * i = 8160 * (i + 1) := by omega
        have e2 : off + 8160 + 8160 * i = off + 8160 * (i + 1) := by omega
        have e3 : decide (8160 * (i + 1) < p.length - 8160) = decide (8160 * (i + 1 + 1) < p.length) := by
          apply decide_eq_decide.mpr; omega
        rw [e1, e2, e3]
        simp

theorem split_data (starts : Bool) (off : Nat) (p : Bytes) :
    ((split starts off p).map Piece.data).flatten = p := by
  induction hn : p.length using Nat.strongRecOn generalizing p starts off with
  | _ n ih =>
    subst hn
    rw [split]
    by_cases h8 : p.length < 8160
    · rw [dif_pos h8]; simp
    · rw [dif_neg h8]
      simp only [List.map_cons, List.flatten_cons]
      rw [ih _ (by simp; omega) _ _ _ rfl, List.take_append_drop]

theorem split_le (starts : Bool) (off : Nat) (p : Bytes) : ∀ x ∈ split starts off p, x.data.length ≤ 8160 := by
  rw [split_closed]
  intro x hx
  obtain ⟨i, _, rfl⟩ := List.mem_map.mp hx
  simp [pieceAt]; omega

theorem piecesOf_le (p : Bytes) : ∀ x ∈ piecesOf p, x.data.length ≤ 8160 := by
  unfold piecesOf
  split
  · simp
  · exact split_le _ _ _

/-- The page for piece `x` at index `i` of `total`. -/
def finalPage (serial abgp : Nat) (flags : UInt8) (total i : Nat) (x : Piece) : Page :=
  let q := piecePage serial abgp flags i x
  if flags &&& lastPageFlag = 0x04 ∧ i + 1 = total then
    { q with header := { q.header with flag := q.header.flag ||| lastPageFlag } }
  else q

theorem pagesOf_closed (ps : List Bytes) (serial abgp : Nat) (flags : UInt8) :
    pagesOf ps serial abgp flags = (ps.flatMap piecesOf).mapIdx
      (fun i x => finalPage serial abgp flags (ps.flatMap piecesOf).length i x) := by
  unfold pagesOf
  simp only
  generalize ps.flatMap piecesOf = l
  by_cases hf : flags &&& lastPageFlag = 0x04
  · rw [if_pos hf]
    apply List.ext_getElem?
    intro i
    unfold setLast
    cases hl : (l.mapIdx fun i x => piecePage serial abgp flags i x).getLast? with
    | none =>
      have : l = [] := by simpa using hl
      subst this
      rfl
    | some q =>
      simp only
      have hne : l ≠ [] := by rintro rfl; simp at hl
      have hpos : 0 < l.length := List.length_pos_iff.mpr hne
      rw [List.getLast?_eq_getElem?] at hl
      simp only [List.length_mapIdx, List.getElem?_mapIdx] at hl
      rw [List.getElem?_append, List.length_dropLast, List.length_mapIdx, List.getElem?_mapIdx]
      by_cases h1 : i < l.length - 1
      · rw [if_pos h1, List.getElem?_dropLast, List.length_mapIdx, if_pos h1, List.getElem?_mapIdx]
        congr 1
        funext x
        rw [finalPage, if_neg (by omega)]
      · rw [if_neg h1]
        by_cases h2 : i = l.length - 1
        · subst h2
          rw [List.getElem?_eq_getElem (show l.length - 1 < l.length by omega)] at hl ⊢
          simp only [Option.map_some, Option.some.injEq] at hl
          subst hl
          simp only [Nat.sub_self, List.getElem?_cons_zero, Option.map_some, Option.some.injEq]
          rw [finalPage, if_pos ⟨hf, by omega⟩]
        · rw [List.getElem?_eq_none (l := l) (by omega), List.getElem?_eq_none (by simp; omega)]
          rfl
  · rw [if_neg hf]
    congr 1
    funext i x
    rw [finalPage, if_neg (by tauto)]

theorem finalPage_for (serial abgp : Nat) (flags : UInt8) (total i : Nat) (x : Piece)
    (hs : serial < 2 ^ 32) (ha : abgp < 2 ^ 64) : PageFor (finalPage serial abgp flags total i x) x := by
  have h1 : (if x.more = true then noGranule else abgp) < 2 ^ 64 := by
    split
    · simp [noGranule]
    · exact ha
  unfold finalPage
  simp only
  split
  · exact ⟨rfl, rfl, h1, hs, Nat.mod_lt _ (by decide)⟩
  · exact ⟨rfl, rfl, h1, hs, Nat.mod_lt _ (by decide)⟩

theorem forall₂_mapIdx (l : List Piece) (F : Nat → Piece → Page) (h : ∀ i x, PageFor (F i x) x) :
    List.Forall₂ PageFor (l.mapIdx F) l := by
  induction l generalizing F with
  | nil => exact .nil
  | cons a l ih =>
    rw [List.mapIdx_cons]
    exact .cons (h 0 a) (ih _ (fun i x => h (i + 1) x))

theorem forall₂_append {α β : Type} {R : α → β → Prop} {qs : List α} {a b : List β}
    (h : List.Forall₂ R qs (a ++ b)) :
    ∃ q1 q2, List.Forall₂ R q1 a ∧ List.Forall₂ R q2 b ∧ qs = q1 ++ q2 := by
  induction a generalizing qs with
  | nil => exact ⟨[], qs, .nil, h, rfl⟩
  | cons x a ih =>
    cases h with
    | cons hx hr =>
      obtain ⟨q1, q2, h1, h2, rfl⟩ := ih hr
      exact ⟨_ :: q1, q2, .cons hx h1, h2, rfl⟩

/-- Reading the pages of several packets without reaching the requested count. -/
theorem readPages_packets (count : Int) (ps : List Bytes) (hne : ∀ p ∈ ps, p ≠ []) (qs : List Page)
    (hq : List.Forall₂ PageFor qs (ps.flatMap piecesOf)) (st : ReadState) (rest : Bytes)
    (fuel : Nat) (hf : (pagesBytes qs ++ rest).length < fuel) (hst : Partial st 0)
    (hc : (count = -1 ∧ st.packetsRead = 0) ∨ (count ≠ -1 ∧ st.packetsRead + ps.length < count)) :
    readPages count fuel st (pagesBytes qs ++ rest)
      = readPages count (rest.length + 1)
          ⟨st.content ++ ps.flatten, st.sizes ++ ps.map List.length,
            (if count = -1 then 0 else st.packetsRead + ps.length), 0, none⟩ rest := by
  induction ps generalizing qs st fuel with
  | nil =>
    cases hq
    have e : st = ⟨st.content, st.sizes, st.packetsRead, 0, none⟩ := by
      cases st
      obtain ⟨h1, h2⟩ := hst
      simp only at h1 h2 ⊢
      rw [h1, h2]; rfl
    have er : st.packetsRead = (if count = -1 then 0 else st.packetsRead + (([] : List Bytes).length : Int)) := by
      rcases hc with ⟨h1, h2⟩ | ⟨h1, _⟩
      · rw [if_pos h1, h2]
      · rw [if_neg h1]; simp
    rw [← er, List.flatten_nil, List.map_nil, List.append_nil, List.append_nil, ← e]
    simp only [pagesBytes, List.map_nil, List.flatten_nil, List.nil_append] at hf ⊢
    exact readPages_fuel _ _ _ _ _ hf (by omega)
  | cons p ps ih =>
    have hp : p ≠ [] := hne p (by simp)
    have hpe : piecesOf p = split true 0 p := by simp [piecesOf, hp]
    rw [List.flatMap_cons, hpe] at hq
    obtain ⟨q1, q2, h1, h2, rfl⟩ := forall₂_append hq
    have eb : pagesBytes (q1 ++ q2) ++ rest = pagesBytes q1 ++ (pagesBytes q2 ++ rest) := by
      simp [pagesBytes]
    rw [eb] at hf ⊢
    rw [readPages_packet count p true 0 q1 h1 st 0 _ fuel hf hst]
    simp only [Nat.zero_add]
    rw [if_neg (by
      rcases hc with ⟨h1, h2⟩ | ⟨h1, h2⟩
      · simp [bumpRead, h1, h2]
      · simp only [bumpRead, h1, ne_eq, not_false_eq_true, if_true]
        simp only [List.length_cons] at h2
        omega)]
    rw [ih (fun p hp => hne p (by simp [hp])) q2 h2 _ _ (by simp) ⟨rfl, rfl⟩ (by
      rcases hc with ⟨h1, h2⟩ | ⟨h1, h2⟩
      · left; exact ⟨h1, by simp [bumpRead, h1, h2]⟩
      · right
        refine ⟨h1, ?_⟩
        simp only [bumpRead, h1, ne_eq, not_false_eq_true, if_true]
        simp only [List.length_cons] at h2
        omega)]
    congr 1
    simp only [List.append_assoc, List.flatten_cons, List.map_cons, List.singleton_append,
      List.length_cons, ReadState.mk.injEq, true_and, and_true]
    split
    · rfl
    · rename_i h
      simp only [bumpRead, h, ne_eq, not_false_eq_true, if_true]
      omega

end Lofty.Ogg
