import Verif.Lemmas.OggProps
/-!
# C44 (OGG part): durations and bit rates of Opus, Vorbis and Speex streams; the last page
-/
namespace Lofty.OggProps
open Lofty.Ogg Lofty.Rfind
open Lofty.Math (divRound)

/-! ## The last page -/

/-- A page marker that is not the start of a page: the version is not 0, or there are no segments. -/
def NotAPage (f : Bytes) (j : Nat) : Prop :=
  (∃ v, f[j + 4]? = some v ∧ v ≠ 0) ∨ (f[j + 4]? = some 0 ∧ f[j + 26]? = some 0)

theorem bind_error {α β : Type} {x : Except Err α} {g : α → Except Err β} {e : Err} (h : (x >>= g) = .error e)
    (hx : x ≠ .error e) : ∃ a, x = .ok a ∧ g a = .error e := by
  cases x with
  | error y => rw [error_bind] at h; cases h; exact absurd rfl hx
  | ok a => exact ⟨a, rfl, h⟩

theorem readLE_le {k : Nat} {r : Bytes} (h : k ≤ r.length) : readLE k r = .ok (fromLE (r.take k), r.drop k) := by
  unfold readLE
  rw [readN_le h]

theorem header_parse_iff (f : Bytes) (j : Nat) (hm : (f.drop j).take 4 = ascii "OggS") :
    PageHeader.read j (f.drop j) = .error .parse ↔ NotAPage f j := by
  have hlen : 4 ≤ (f.drop j).length := by
    have := congrArg List.length hm
    rw [List.length_take] at this
    have e : (ascii "OggS").length = 4 := by decide
    omega
  have e4 : f[j + 4]? = ((f.drop j).drop 4)[0]? := by rw [List.drop_drop, List.getElem?_drop, Nat.add_zero]
  have e26 : f[j + 26]? = ((f.drop j).drop 4)[22]? := by
    rw [List.drop_drop, List.getElem?_drop]
  unfold NotAPage
  rw [e4, e26]
  unfold PageHeader.read
  rw [readN_le hlen, ok_bind, hm]
  simp only [ne_eq, not_true_eq_false, if_false]
  generalize (f.drop j).drop 4 = t
  cases t with
  | nil => simp [readU8]
  | cons v t =>
    rw [readU8_cons, ok_bind]
    simp only [List.getElem?_cons_zero, List.getElem?_cons_succ, Option.some.injEq]
    by_cases hv : v = 0
    · subst hv
      simp only [not_true_eq_false, if_false, true_and]
      have hno : ¬ ∃ v, (0 : UInt8) = v ∧ ¬ v = 0 := by rintro ⟨v, rfl, h⟩; exact h rfl
      constructor
      · intro h
        obtain ⟨⟨a1, t1⟩, h1, h⟩ := bind_error h (readU8_ne (by decide) _)
        obtain ⟨⟨a2, t2⟩, h2, h⟩ := bind_error h (readLE_ne (by decide) _ _)
        obtain ⟨⟨a3, t3⟩, h3, h⟩ := bind_error h (readLE_ne (by decide) _ _)
        obtain ⟨⟨a4, t4⟩, h4, h⟩ := bind_error h (readLE_ne (by decide) _ _)
        obtain ⟨⟨a5, t5⟩, h5, h⟩ := bind_error h (readLE_ne (by decide) _ _)
        obtain ⟨⟨a6, t6⟩, h6, h8⟩ := bind_error h (readU8_ne (by decide) _)
        simp only at h8 h1 h2 h3 h4 h5 h6
        rw [readU8_ok h1]
        obtain ⟨b2, rfl, l2, _⟩ := readLE_ok h2
        obtain ⟨b3, rfl, l3, _⟩ := readLE_ok h3
        obtain ⟨b4, rfl, l4, _⟩ := readLE_ok h4
        obtain ⟨b5, rfl, l5, _⟩ := readLE_ok h5
        rw [readU8_ok h6]
        have h7 : a6 < 1 := by
          by_cases hlt : a6 < 1
          · exact hlt
          · rw [if_neg hlt] at h8
            obtain ⟨⟨_, _⟩, _, h9⟩ := bind_error h8 (readN_ne (by decide) _ _)
            cases h9
        have hz : a6 = 0 := by
          have : a6.toNat < 1 := h7
          exact UInt8.toNat_inj.mp (by simp; omega)
        right
        have hl : (a1 :: (b2 ++ (b3 ++ (b4 ++ b5)))).length = 21 := by
          simp only [List.length_cons, List.length_append]; omega
        have : (a1 :: (b2 ++ (b3 ++ (b4 ++ (b5 ++ a6 :: t6)))))
            = (a1 :: (b2 ++ (b3 ++ (b4 ++ b5)))) ++ a6 :: t6 := by simp
        rw [this, List.getElem?_append_right (by omega), hl, hz]
        rfl
      · rintro (h | h)
        · exact absurd h hno
        · have hl : 22 ≤ t.length := by
            have := (List.getElem?_eq_some_iff.mp h).1
            omega
          cases t with
          | nil => cases h
          | cons fl t =>
            rw [List.getElem?_cons_succ] at h
            simp only [List.length_cons] at hl
            rw [readU8_cons, ok_bind]
            simp only
            rw [readLE_le (by omega), ok_bind]
            simp only
            rw [readLE_le (by rw [List.length_drop]; omega), ok_bind]
            simp only
            rw [readLE_le (by rw [List.length_drop, List.length_drop]; omega), ok_bind]
            simp only
            rw [readLE_le (by rw [List.length_drop, List.length_drop, List.length_drop]; omega), ok_bind]
            simp only [List.drop_drop]
            have e : t.drop (8 + 4 + 4 + 4) = 0 :: t.drop 21 := by
              have hlt : 20 < t.length := by omega
              rw [show 8 + 4 + 4 + 4 = 20 from rfl, List.drop_eq_getElem_cons hlt]
              congr 1
              exact (List.getElem?_eq_some_iff.mp h).2
            rw [e, readU8_cons, ok_bind]
            simp
    · simp [hv]

theorem search_past {f : Bytes} {lo : Nat} (h : f.length < lo) :
    search f (ascii "OggS") bufferSize lo .fromEnd .fromCurrent = .ok (false, lo) := by
  unfold search
  rw [if_neg (by decide)]
  exact if_pos (.inl h)

/-- C44 (used by all three formats): the page found is the last one.  If a page can be read at `p`, behind the headers,
and every later marker is not the start of a page, that page is returned. -/
theorem findLast_found {f : Bytes} {lo p : Nat} {page : Page} {rest : Bytes} (hp : lo ≤ p)
    (hr : Page.read p (f.drop p) = .ok (page, rest))
    (hlater : ∀ j, p < j → (f.drop j).take 4 = ascii "OggS" → NotAPage f j) :
    findLastPage f lo = .ok page := by
  have e4 : (ascii "OggS").length = 4 := by decide
  have hne : ascii "OggS" ≠ [] := by decide
  have hB : (ascii "OggS").length ≤ bufferSize := by decide
  obtain ⟨hv, hb, hst, _⟩ := page_read_write hr
  obtain ⟨⟨hd, d'⟩, hhead, _⟩ := bind_ok hr
  have hocc : (f.drop p).take 4 = ascii "OggS" := by
    rw [← hb]
    simp only [Page.asBytes, List.append_assoc]
    rw [List.take_left' e4]
  have hlen : p + 4 ≤ f.length := by
    have := congrArg List.length hocc
    rw [List.length_take, List.length_drop, e4] at this
    omega
  -- the retry loop, from any later or equal marker
  have hloop : ∀ fuel cur, cur < fuel → p ≤ cur → cur + 4 ≤ f.length → (f.drop cur).take 4 = ascii "OggS" →
      lastHeader f lo fuel cur = .ok p := by
    intro fuel
    induction fuel with
    | zero => intro cur h; omega
    | succ fuel ih =>
      intro cur hcf hpc hcl hm
      unfold lastHeader
      by_cases hc : cur = p
      · subst hc
        rw [hhead]
        simp only
        rw [header_start hhead]
      · have hbad := (header_parse_iff f cur hm).mpr (hlater cur (by omega) hm)
        rw [hbad]
        simp only
        -- the occurrence before `cur`
        have hex : OccursAt f (ascii "OggS") lo cur p ∨ cur < p + 4 := by
          by_cases h : p + 4 ≤ cur
          · left; exact ⟨hp, by rw [e4]; exact h, by rw [e4]; exact hocc⟩
          · right; omega
        rcases hex with hex | hov
        · rcases loop_spec f (ascii "OggS") bufferSize lo cur cur cur (by omega) (by decide) hB (Nat.le_refl _)
            (fun j hj => hj.2.1) with ⟨k, hk, _⟩ | ⟨hno, _⟩
          · rw [search_found f _ bufferSize cur .fromCurrent (.pos lo) hne hB (by simp only [startPos]; omega) k hk]
            simp only
            have hk1 := hk.1.2.1
            rw [e4] at hk1
            refine ih k (by omega) (hk.2 p hex) (by omega) ?_
            have := hk.1.2.2
            rw [e4] at this
            exact this
          · exact absurd hex (hno p)
        · -- two markers cannot overlap
          exfalso
          have h0 : ∀ i, i < 4 → f[p + i]? = (ascii "OggS")[i]? := by
            intro i hi
            rw [← hocc, List.getElem?_take_of_lt hi, List.getElem?_drop]
          have h1 : ∀ i, i < 4 → f[cur + i]? = (ascii "OggS")[i]? := by
            intro i hi
            rw [← hm, List.getElem?_take_of_lt hi, List.getElem?_drop]
          obtain ⟨k, hk⟩ : ∃ k, cur = p + k := ⟨cur - p, by omega⟩
          have hk4 : k < 4 ∧ 0 < k := by omega
          have a := h1 0 (by omega)
          have b := h0 k hk4.1
          rw [hk, Nat.add_zero, b] at a
          have hcase : k = 1 ∨ k = 2 ∨ k = 3 := by omega
          rcases hcase with rfl | rfl | rfl <;> exact absurd a (by decide)
  unfold findLastPage
  have hex : OccursAt f (ascii "OggS") lo f.length p := ⟨hp, by rw [e4]; exact hlen, by rw [e4]; exact hocc⟩
  rcases loop_spec f (ascii "OggS") bufferSize lo f.length f.length f.length (by omega) (by decide) hB (Nat.le_refl _)
    (fun j hj => hj.2.1) with ⟨k, hk, _⟩ | ⟨hno, _⟩
  · rw [search_found f _ bufferSize lo .fromEnd .fromCurrent hne hB (Nat.le_refl _) k hk]
    simp only
    have hk1 := hk.1.2.1
    have hk2 := hk.1.2.2
    rw [e4] at hk1 hk2
    rw [hloop (k + 1) k (by omega) (hk.2 p hex) hk1 hk2, ok_bind, hr, ok_bind]
  · exact absurd hex (hno p)

/-- C44: conversely, a page that is returned lies behind the headers, is read from there, and no later marker starts a
page. -/
theorem findLast_sound {f : Bytes} {lo : Nat} {page : Page} (h : findLastPage f lo = .ok page) :
    ∃ p rest, lo ≤ p ∧ Page.read p (f.drop p) = .ok (page, rest) ∧
      ∀ j, p < j → (f.drop j).take 4 = ascii "OggS" → NotAPage f j := by
  have e4 : (ascii "OggS").length = 4 := by decide
  have hne : ascii "OggS" ≠ [] := by decide
  have hB : (ascii "OggS").length ≤ bufferSize := by decide
  have hend : ∀ j, (f.drop j).take 4 = ascii "OggS" → j + 4 ≤ f.length := by
    intro j hj
    have := congrArg List.length hj
    rw [List.length_take, List.length_drop, e4] at this
    omega
  have hloop : ∀ fuel cur p, lo ≤ cur → cur + 4 ≤ f.length → (f.drop cur).take 4 = ascii "OggS" →
      (∀ j, cur < j → (f.drop j).take 4 = ascii "OggS" → NotAPage f j) → lastHeader f lo fuel cur = .ok p →
      lo ≤ p ∧ ∀ j, p < j → (f.drop j).take 4 = ascii "OggS" → NotAPage f j := by
    intro fuel
    induction fuel with
    | zero => intro cur p _ _ _ _ h; cases h
    | succ fuel ih =>
      intro cur p hlo hcl hm hl h
      unfold lastHeader at h
      cases hh : PageHeader.read cur (f.drop cur) with
      | ok v =>
        rw [hh] at h
        simp only [Except.ok.injEq] at h
        rw [header_start hh] at h
        subst h
        exact ⟨hlo, hl⟩
      | error e =>
        rw [hh] at h
        by_cases he : e = .parse
        · subst he
          simp only at h
          have hbad := (header_parse_iff f cur hm).mp hh
          rcases loop_spec f (ascii "OggS") bufferSize lo cur cur cur (by omega) (by decide) hB (Nat.le_refl _)
            (fun j hj => hj.2.1) with ⟨k, hk, _⟩ | ⟨hno, _⟩
          · rw [search_found f _ bufferSize cur .fromCurrent (.pos lo) hne hB (by simp only [startPos]; omega) k hk] at h
            simp only at h
            have hk1 := hk.1.2.1
            have hk2 := hk.1.2.2
            rw [e4] at hk1 hk2
            refine ih k p hk.1.1 (by omega) hk2 ?_ h
            intro j hj hjm
            rcases Nat.lt_trichotomy j cur with hlt | heq | hgt
            · by_cases hfit : j + 4 ≤ cur
              · have := hk.2 j ⟨by have := hk.1.1; omega, by rw [e4]; exact hfit, by rw [e4]; exact hjm⟩
                omega
              · exfalso
                have h0 : ∀ i, i < 4 → f[j + i]? = (ascii "OggS")[i]? := by
                  intro i hi
                  rw [← hjm, List.getElem?_take_of_lt hi, List.getElem?_drop]
                have h1 : ∀ i, i < 4 → f[cur + i]? = (ascii "OggS")[i]? := by
                  intro i hi
                  rw [← hm, List.getElem?_take_of_lt hi, List.getElem?_drop]
                obtain ⟨n, hn⟩ : ∃ n, cur = j + n := ⟨cur - j, by omega⟩
                have a := h1 0 (by omega)
                have b := h0 n (by omega)
                rw [hn, Nat.add_zero, b] at a
                have hcase : n = 1 ∨ n = 2 ∨ n = 3 := by omega
                rcases hcase with rfl | rfl | rfl <;> exact absurd a (by decide)
            · subst heq; exact hbad
            · exact hl j hgt hjm
          · obtain ⟨q, hq⟩ := search_not_found f (ascii "OggS") bufferSize cur .fromCurrent (.pos lo) hne hB
              (by simp only [startPos]; omega) hno
            rw [hq] at h
            cases h
        · cases e <;> first | exact absurd rfl he | cases h
  unfold findLastPage at h
  by_cases hlo : lo ≤ f.length
  · rcases loop_spec f (ascii "OggS") bufferSize lo f.length f.length f.length (by omega) (by decide) hB (Nat.le_refl _)
      (fun j hj => hj.2.1) with ⟨k, hk, _⟩ | ⟨hno, _⟩
    · rw [search_found f _ bufferSize lo .fromEnd .fromCurrent hne hB (Nat.le_refl _) k hk] at h
      simp only at h
      obtain ⟨start, h1, h2⟩ := bind_ok h
      obtain ⟨⟨pg, r⟩, h3, h4⟩ := bind_ok h2
      cases h4
      have hk1 := hk.1.2.1
      have hk2 := hk.1.2.2
      rw [e4] at hk1 hk2
      obtain ⟨a, b⟩ := hloop (k + 1) k start hk.1.1 hk1 hk2 (fun j hj hm => by
        have := hk.2 j ⟨by have := hk.1.1; omega, by rw [e4]; exact hend j hm, by rw [e4]; exact hm⟩
        omega) h1
      exact ⟨start, r, a, h3, b⟩
    · obtain ⟨q, hq⟩ := search_not_found f (ascii "OggS") bufferSize lo .fromEnd .fromCurrent hne hB (Nat.le_refl _) hno
      rw [hq] at h
      cases h
  · rw [search_past (by omega)] at h
    cases h

/-- C44: the search for the last page ends, and does not fail other than by an ordinary error. -/
theorem findLast_ends (f : Bytes) (lo : Nat) :
    findLastPage f lo ≠ .error .diverge ∧ findLastPage f lo ≠ .error .panic := by
  have e4 : (ascii "OggS").length = 4 := by decide
  have hne : ascii "OggS" ≠ [] := by decide
  have hB : (ascii "OggS").length ≤ bufferSize := by decide
  have hloop : ∀ fuel cur, cur < fuel → cur ≤ f.length →
      lastHeader f lo fuel cur ≠ .error .diverge ∧ lastHeader f lo fuel cur ≠ .error .panic := by
    intro fuel
    induction fuel with
    | zero => intro cur h; omega
    | succ fuel ih =>
      intro cur hcf hcl
      unfold lastHeader
      have n1 := header_ne (e := .diverge) (by decide) (by decide) cur (f.drop cur)
      have n2 := header_ne (e := .panic) (by decide) (by decide) cur (f.drop cur)
      cases hh : PageHeader.read cur (f.drop cur) with
      | ok v => simp
      | error e =>
        rw [hh] at n1 n2
        by_cases he : e = .parse
        · subst he
          simp only
          rcases loop_spec f (ascii "OggS") bufferSize lo cur cur cur hcl (by decide) hB (Nat.le_refl _)
            (fun j hj => hj.2.1) with ⟨k, hk, _⟩ | ⟨hno, _⟩
          · rw [search_found f _ bufferSize cur .fromCurrent (.pos lo) hne hB hcl k hk]
            have hk1 := hk.1.2.1
            rw [e4] at hk1
            exact ih k (by omega) (by omega)
          · obtain ⟨q, hq⟩ := search_not_found f (ascii "OggS") bufferSize cur .fromCurrent (.pos lo) hne hB hcl hno
            rw [hq]
            simp
        · cases e <;> first | exact absurd rfl he | exact absurd rfl n1 | exact absurd rfl n2 | simp
  unfold findLastPage
  by_cases hlo : lo ≤ f.length
  · rcases loop_spec f (ascii "OggS") bufferSize lo f.length f.length f.length (by omega) (by decide) hB (Nat.le_refl _)
      (fun j hj => hj.2.1) with ⟨k, hk, _⟩ | ⟨hno, _⟩
    · rw [search_found f _ bufferSize lo .fromEnd .fromCurrent hne hB (Nat.le_refl _) k hk]
      simp only
      have hk1 := hk.1.2.1
      rw [e4] at hk1
      obtain ⟨a, b⟩ := hloop (k + 1) k (by omega) (by omega)
      exact ⟨bind_ne a fun s => bind_ne (page_ne (by decide) (by decide) _ _) fun _ => by simp,
        bind_ne b fun s => bind_ne (page_ne (by decide) (by decide) _ _) fun _ => by simp⟩
    · obtain ⟨q, hq⟩ := search_not_found f (ascii "OggS") bufferSize lo .fromEnd .fromCurrent hne hB (Nat.le_refl _) hno
      rw [hq]
      simp
  · rw [search_past (by omega)]
    simp

/-- A stream of two pages and some garbage with a false marker: the second page is found. -/
example : findLastPage (([0xAA] : Bytes) ++ Page.asBytes ⟨[1, 2], ⟨0, 0, 5, 1, 0, [2], 0⟩, 0⟩
      ++ Page.asBytes ⟨[3], ⟨0, 4, 9, 1, 1, [1], 0⟩, 0⟩ ++ ascii "OggS" ++ [1]) 1
    = .ok ⟨[3], ⟨31, 4, 9, 1, 1, [1], 0⟩, 60⟩ :=
  findLast_found (rest := ascii "OggS" ++ [1]) (p := 31) (by decide) (by decide +kernel) (fun j hj hm => by
    have hl : j + 4 ≤ 65 := by
      have := congrArg List.length hm
      rw [List.length_take, List.length_drop] at this
      have e : (ascii "OggS").length = 4 := by decide
      rw [e] at this
      simp [Page.asBytes, leBytes_length, e] at this
      omega
    have key : ∀ k : Fin 35, ((([0xAA] : Bytes) ++ Page.asBytes ⟨[1, 2], ⟨0, 0, 5, 1, 0, [2], 0⟩, 0⟩
      ++ Page.asBytes ⟨[3], ⟨0, 4, 9, 1, 1, [1], 0⟩, 0⟩ ++ ascii "OggS" ++ [1]).drop (k.val + 32)).take 4 = ascii "OggS" →
      k.val = 28 := by decide +kernel
    have hk := key ⟨j - 32, by omega⟩ (by rw [Nat.sub_add_cancel (by omega)]; exact hm)
    have : j = 60 := by simp only at hk; omega
    subst this
    exact .inl ⟨1, by decide +kernel, by decide⟩)

/-! ## Header packets -/

/-- Reading the header packets ends, never fails other than by an ordinary error, and the packets lie inside the
file. -/
theorem readHeaders_total (f a b : Bytes) (count : Nat) (hc : 0 < count) (tags : Bool) :
    readHeaders f a b count tags ≠ .error .panic ∧ readHeaders f a b count tags ≠ .error .diverge := by
  have main : ∀ e : Err, e ≠ .eof → e ≠ .parse → e ≠ .notEnough → readHeaders f a b count tags ≠ .error e := by
    intro e h1 h2 h3
    unfold readHeaders
    refine bind_ne (header_ne h1 h2 _ _) fun x => ?_
    obtain ⟨first, d⟩ := x
    simp only
    cases hr : Packets.readCount f count with
    | error y =>
      rw [error_bind]
      have := readCount_ne h1 h3 f count
      rw [hr] at this
      intro h; cases h; exact this rfl
    | ok v =>
      obtain ⟨p, rest⟩ := v
      obtain ⟨r, rfl, _, hs, _⟩ := readCount_sound hc hr
      obtain ⟨ps, hps⟩ := holds_exists p hs
      rw [ok_bind]
      simp only
      rw [get_holds p ps hps, ok_bind, get_holds p ps hps, ok_bind]
      split
      · split
        · intro h; cases h; exact h2 rfl
        · split
          · intro h; cases h; exact h2 rfl
          · intro h; cases h
      · intro h; cases h; exact h2 rfl
  exact ⟨main _ (by decide) (by decide) (by decide), main _ (by decide) (by decide) (by decide)⟩

/-- The header packets have the expected signatures and lie inside the file. -/
theorem readHeaders_ok {f a b : Bytes} {count : Nat} (hc : 2 ≤ count) {tags : Bool} {h : Headers}
    (hr : readHeaders f a b count tags = .ok h) :
    h.ident.length + h.comment.length ≤ f.length ∧ h.stop ≤ f.length ∧ h.firstAbgp < 2 ^ 64 ∧
    h.ident.take a.length = a ∧ a.length ≤ h.ident.length := by
  unfold readHeaders at hr
  obtain ⟨⟨first, d⟩, h1, hr⟩ := bind_ok hr
  obtain ⟨⟨p, rest⟩, h2, hr⟩ := bind_ok hr
  obtain ⟨r, rfl, hlen, hs, hn⟩ := readCount_sound (by omega) h2
  obtain ⟨ps, hps⟩ := holds_exists p hs
  simp only at hr
  rw [get_holds p ps hps, ok_bind, get_holds p ps hps, ok_bind] at hr
  obtain ⟨hsz, t, hcont⟩ := hps
  have hpl : ps.length = count := by rw [← hn, hsz, List.length_map]
  match ps, hpl with
  | x :: y :: ps, _ =>
    simp only [List.getElem?_cons_zero, List.getElem?_cons_succ] at hr
    split at hr
    · cases hr
    next hsig =>
    split at hr
    · cases hr
    · cases hr
      simp only [hasSignature, decide_eq_false_iff_not, Decidable.not_not] at hsig
      refine ⟨?_, Nat.sub_le _ _, (header_read_ok h1).2.2.2.1, hsig.2, hsig.1⟩
      have := congrArg List.length hcont
      simp only [List.flatten_cons, List.length_append] at this
      simp only
      omega
  | [_], h => simp at h; omega
  | [], h => simp at h; omega

/-! ## Opus -/

theorem mulU64_lt {a b : Nat} (h : a * b < 2 ^ 64) : mulU64 a b = .ok (a * b) := if_neg (Nat.not_le.mpr h)

/-- C44, Opus: the computation fails exactly when the sound lasts less than half a millisecond (the duration is rounded to
zero and used as divisor), or when the number of samples is near the 64-bit limit. -/
theorem opusTimes_panic {first last preSkip fileLen headers : Nat} (hl : fileLen < 2 ^ 61) (hh : headers ≤ fileLen) :
    opusTimes first last preSkip fileLen headers = .error .panic ↔
      (0 < last - first - preSkip ∧ last - first - preSkip < 24)
      ∨ 2 ^ 64 ≤ (last - first - preSkip) * 1000 + 24000 := by
  unfold opusTimes
  simp only
  generalize last - first - preSkip = total
  by_cases h0 : 0 < total
  · rw [if_pos h0]
    by_cases h1 : 2 ^ 64 ≤ total * 1000 + 24000
    · constructor
      · intro _; exact .inr h1
      · intro _
        by_cases h2 : 2 ^ 64 ≤ total * 1000
        · unfold mulU64; rw [if_pos h2]; rfl
        · rw [mulU64_lt (by omega), ok_bind]
          have : divRound 64 (total * 1000) 48000 = .error .panic := by
            unfold divRound
            rw [if_neg (by decide), if_pos (by omega)]
          rw [this]; rfl
    · rw [mulU64_lt (by omega), ok_bind]
      have hd : divRound 64 (total * 1000) 48000 = .ok ((total * 1000 + 24000) / 48000) := by
        unfold divRound
        rw [if_neg (by decide), if_neg (by omega)]
      have hsub : subU64 fileLen headers = .ok (fileLen - headers) := if_neg (by omega)
      rw [hd, ok_bind, hsub, ok_bind, mulU64_lt (by omega), ok_bind]
      by_cases h2 : total < 24
      · have e : (total * 1000 + 24000) / 48000 = 0 := by omega
        rw [e]
        refine ⟨fun _ => .inl ⟨h0, h2⟩, fun _ => ?_⟩
        unfold divU64
        rw [if_pos rfl]
        rfl
      · have e : (total * 1000 + 24000) / 48000 ≠ 0 := by omega
        generalize (total * 1000 + 24000) / 48000 = len at e ⊢
        unfold divU64
        rw [if_neg e, ok_bind, mulU64_lt (by omega), ok_bind, if_neg e, ok_bind]
        constructor
        · intro h; cases h
        · rintro (h | h) <;> omega
  · rw [if_neg h0]
    constructor
    · intro h; cases h
    · rintro (h | h) <;> omega

/-- C44, Opus: otherwise the duration is the time of the samples (48 per millisecond) rounded to the nearest millisecond,
and the bit rates are the sizes of the file and of the file without its header packets over that duration. -/
theorem opusTimes_ok {first last preSkip fileLen headers : Nat} (hl : fileLen < 2 ^ 61) (hh : headers ≤ fileLen)
    (h1 : 24 ≤ last - first - preSkip) (h2 : (last - first - preSkip) * 1000 + 24000 < 2 ^ 64) :
    ∃ ms, opusTimes first last preSkip fileLen headers
        = .ok (ms, fileLen * 8 / ms % 2 ^ 32, (fileLen - headers) * 8 / ms % 2 ^ 32) ∧
      48 * ms ≤ last - first - preSkip + 24 ∧ last - first - preSkip + 24 < 48 * (ms + 1) ∧ 0 < ms := by
  unfold opusTimes
  simp only
  generalize last - first - preSkip = total at h1 h2 ⊢
  have m1 : mulU64 total 1000 = .ok (total * 1000) := mulU64_lt (Nat.lt_of_le_of_lt (Nat.le_add_right _ _) h2)
  have m2 : mulU64 fileLen 8 = .ok (fileLen * 8) := mulU64_lt (by omega)
  have m3 : mulU64 (fileLen - headers) 8 = .ok ((fileLen - headers) * 8) := mulU64_lt (by omega)
  rw [if_pos (by omega), m1, ok_bind]
  have hd : divRound 64 (total * 1000) 48000 = .ok ((total * 1000 + 24000) / 48000) := by
    unfold divRound
    rw [if_neg (by decide), if_neg (by omega)]
  have hsub : subU64 fileLen headers = .ok (fileLen - headers) := if_neg (by omega)
  rw [hd, ok_bind, hsub, ok_bind, m2, ok_bind]
  have e : (total * 1000 + 24000) / 48000 ≠ 0 := by omega
  have b1 : 48 * ((total * 1000 + 24000) / 48000) ≤ total + 24 := by omega
  have b2 : total + 24 < 48 * ((total * 1000 + 24000) / 48000 + 1) := by omega
  generalize (total * 1000 + 24000) / 48000 = len at e b1 b2 ⊢
  unfold divU64
  rw [if_neg e, ok_bind, m3, ok_bind, if_neg e, ok_bind]
  exact ⟨len, rfl, b1, b2, by omega⟩

/-- One second and a bit, in a file of 16 000 bytes. -/
example : opusTimes 0 48960 312 16000 100 = .ok (1014, 126, 125) := by decide +kernel

/-- C44, Opus: the fields of the identification packet. -/
theorem opusIdent_ok (sig rest : Bytes) (version channels family : UInt8) (preSkip rate gain : Nat) (hs : sig.length = 8)
    (h1 : preSkip < 2 ^ 16) (h2 : rate < 2 ^ 32) (h3 : gain < 2 ^ 16) :
    opusIdent (sig ++ [version, channels] ++ leBytes 2 preSkip ++ leBytes 4 rate ++ leBytes 2 gain ++ [family] ++ rest)
      = .ok ⟨version.toNat, channels.toNat, preSkip, rate, gain, family.toNat⟩ := by
  unfold opusIdent
  simp only [List.append_assoc]
  rw [List.drop_left' hs]
  simp only [List.cons_append, List.nil_append]
  rw [readU8_cons, ok_bind, readU8_cons, ok_bind]
  simp only
  rw [readLE_append _ h1, ok_bind]
  simp only
  rw [readLE_append _ h2, ok_bind]
  simp only
  rw [readLE_append _ h3, ok_bind, readU8_cons, ok_bind]

theorem fromOpus_isSome (n : Nat) : (Channels.fromOpus n).isSome = true ↔ 1 ≤ n ∧ n ≤ 8 := by
  match n with
  | 0 | 1 | 2 | 3 | 4 | 5 | 6 | 7 | 8 => simp [Channels.fromOpus]
  | n + 9 => simp [Channels.fromOpus]

/-- The streams for which reading an Opus file fails by a panic: a channel count without a mapping (with a mapping
family that does not restrict it), or a duration that cannot be computed. -/
def OpusFails (f : Bytes) (h : Headers) (i : OpusIdent) : Prop :=
  opusChannelsBad i = false ∧
    (¬ (1 ≤ i.channels ∧ i.channels ≤ 8) ∨
      ∃ page, findLastPage f h.stop = .ok page ∧
        ((0 < page.header.abgp - h.firstAbgp - i.preSkip ∧ page.header.abgp - h.firstAbgp - i.preSkip < 24) ∨
          2 ^ 64 ≤ (page.header.abgp - h.firstAbgp - i.preSkip) * 1000 + 24000))

/-- C44, Opus: reading fails by a panic exactly for those streams. -/
theorem readOpus_panic (f : Bytes) (tags : Bool) (hl : f.length < 2 ^ 61) :
    readOpus f tags = .error .panic ↔
      ∃ h i, readHeaders f opusHead opusTags 2 tags = .ok h ∧ opusIdent h.ident = .ok i ∧ OpusFails f h i := by
  unfold readOpus
  have ht := (readHeaders_total f opusHead opusTags 2 (by decide) tags).1
  cases hr : readHeaders f opusHead opusTags 2 tags with
  | error e =>
    rw [error_bind]
    constructor
    · intro h
      cases h
      exact absurd hr ht
    · rintro ⟨h, i, h1, _⟩; cases h1
  | ok h =>
    have hlen := (readHeaders_ok (by decide) hr).1
    rw [ok_bind]
    unfold opusProperties
    have hi : opusIdent h.ident ≠ .error .panic := by
      unfold opusIdent
      exact bind_ne (readU8_ne (by decide) _) fun _ => bind_ne (readU8_ne (by decide) _) fun _ =>
        bind_ne (readLE_ne (by decide) _ _) fun _ => bind_ne (readLE_ne (by decide) _ _) fun _ =>
        bind_ne (readLE_ne (by decide) _ _) fun _ => bind_ne (readU8_ne (by decide) _) fun _ => by simp
    cases hid : opusIdent h.ident with
    | error e =>
      rw [error_bind]
      constructor
      · intro h1
        cases h1
        exact absurd hid hi
      · rintro ⟨h', i, h1, h2, _⟩
        cases h1
        rw [hid] at h2
        cases h2
    | ok i =>
      rw [ok_bind]
      have hback : (∃ h' i', (Except.ok h : Except Err Headers) = .ok h' ∧ opusIdent h'.ident = .ok i' ∧ OpusFails f h' i')
          ↔ OpusFails f h i := by
        constructor
        · rintro ⟨h', i', h1, h2, h3⟩
          cases h1
          rw [hid] at h2
          cases h2
          exact h3
        · intro h3
          exact ⟨h, i, rfl, hid, h3⟩
      rw [hback]
      unfold OpusFails
      by_cases hb : opusChannelsBad i = true
      · rw [if_pos hb]
        simp [hb]
      · rw [if_neg hb]
        have hb' : opusChannelsBad i = false := by simpa using hb
        simp only [hb', true_and]
        have hm := fromOpus_isSome i.channels
        cases hmask : Channels.fromOpus i.channels with
        | none =>
          rw [hmask] at hm
          simp only [true_iff]
          left
          intro hx
          have := hm.mpr hx
          cases this
        | some mask =>
          rw [hmask] at hm
          have hx := hm.mp rfl
          simp only [hx, and_self, not_true_eq_false, false_or]
          cases hlast : findLastPage f h.stop with
          | error e => simp
          | ok page =>
            simp only [Except.ok.injEq, exists_eq_left']
            rw [← opusTimes_panic hl hlen]
            cases opusTimes h.firstAbgp page.header.abgp i.preSkip f.length (h.ident.length + h.comment.length) with
            | error e => rw [error_bind]; simp
            | ok v => rw [ok_bind]; simp

theorem divRound_ne (w a b : Nat) : divRound w a b ≠ .error .diverge := by
  unfold divRound
  split
  · simp
  · split <;> simp

theorem arith_ne (a b : Nat) : mulU64 a b ≠ .error .diverge ∧ subU64 a b ≠ .error .diverge ∧
    divU64 a b ≠ .error .diverge := by
  unfold mulU64 subU64 divU64
  refine ⟨?_, ?_, ?_⟩ <;> split <;> simp

/-- C44, Opus: reading ends. -/
theorem readOpus_ends (f : Bytes) (tags : Bool) : readOpus f tags ≠ .error .diverge := by
  unfold readOpus
  refine bind_ne (readHeaders_total f opusHead opusTags 2 (by decide) tags).2 fun h => ?_
  unfold opusProperties opusIdent
  refine bind_ne (bind_ne (readU8_ne (by decide) _) fun _ => bind_ne (readU8_ne (by decide) _) fun _ =>
        bind_ne (readLE_ne (by decide) _ _) fun _ => bind_ne (readLE_ne (by decide) _ _) fun _ =>
        bind_ne (readLE_ne (by decide) _ _) fun _ => bind_ne (readU8_ne (by decide) _) fun _ => by simp) fun i => ?_
  split
  · simp
  · split
    · simp
    · split
      · simp
      · refine bind_ne ?_ fun _ => by simp
        unfold opusTimes
        simp only
        split
        · exact bind_ne (arith_ne _ _).1 fun _ => bind_ne (divRound_ne _ _ _) fun _ => bind_ne (arith_ne _ _).2.1 fun _ =>
            bind_ne (arith_ne _ _).1 fun _ => bind_ne (arith_ne _ _).2.2 fun _ => bind_ne (arith_ne _ _).1 fun _ =>
            bind_ne (arith_ne _ _).2.2 fun _ => by simp
        · simp

theorem no_later {f : Bytes} {p : Nat}
    (h : ∀ k : Fin f.length, p < k.val → (f.drop k.val).take 4 ≠ ascii "OggS") :
    ∀ j, p < j → (f.drop j).take 4 = ascii "OggS" → NotAPage f j := by
  intro j hj hm
  have hl : j < f.length := by
    have := congrArg List.length hm
    rw [List.length_take, List.length_drop] at this
    have e : (ascii "OggS").length = 4 := by decide
    omega
  exact absurd hm (h ⟨j, hl⟩ hj)

/-- A small Opus file: identification, comments and one page of sound ending at the given sample. -/
def opusFile (channels family : UInt8) (last : Nat) : Bytes :=
  Page.asBytes ⟨opusHead ++ [1, channels] ++ leBytes 2 0 ++ leBytes 4 48000 ++ leBytes 2 0 ++ [family],
      ⟨0, 2, 0, 7, 0, [19], 0⟩, 0⟩
    ++ Page.asBytes ⟨opusTags ++ leBytes 4 0 ++ leBytes 4 0, ⟨0, 0, 0, 7, 1, [16], 0⟩, 0⟩
    ++ Page.asBytes ⟨[0xFC], ⟨0, 4, last, 7, 2, [1], 0⟩, 0⟩

theorem opusFile_headers : readHeaders (opusFile 2 0 10) opusHead opusTags 2 true
    = .ok ⟨0, opusHead ++ [1, 2] ++ leBytes 2 0 ++ leBytes 4 48000 ++ leBytes 2 0 ++ [0],
        opusTags ++ leBytes 4 0 ++ leBytes 4 0, 91⟩ := by decide +kernel

/-- C44 is false of the code for Opus: a file whose sound is ten samples long divides by zero. -/
theorem short_opus_panics : readOpus (opusFile 2 0 10) true = .error .panic := by
  rw [readOpus_panic _ _ (by decide +kernel)]
  refine ⟨_, _, opusFile_headers, opusIdent_ok opusHead [] 1 2 0 0 48000 0 (by decide) (by decide) (by decide) (by decide),
    by decide, .inr ⟨⟨[0xFC], ⟨91, 4, 10, 7, 2, [1], 0⟩, 120⟩, ?_, .inl ⟨by decide, by decide⟩⟩⟩
  exact findLast_found (p := 91) (rest := []) (by decide) (by decide +kernel) (no_later (by decide +kernel))

/-- C44 is false of the code for Opus: no channels, or nine channels with mapping family 255, panic. -/
theorem opus_channels_panic : readOpus (opusFile 0 0 960) true = .error .panic ∧
    readOpus (opusFile 9 255 960) true = .error .panic := by
  refine ⟨?_, ?_⟩
  · rw [readOpus_panic _ _ (by decide +kernel)]
    exact ⟨⟨0, opusHead ++ [1, 0] ++ leBytes 2 0 ++ leBytes 4 48000 ++ leBytes 2 0 ++ [0],
        opusTags ++ leBytes 4 0 ++ leBytes 4 0, 91⟩, ⟨1, 0, 0, 48000, 0, 0⟩, by decide +kernel, by decide +kernel,
        by decide, .inl (by decide)⟩
  · rw [readOpus_panic _ _ (by decide +kernel)]
    exact ⟨⟨0, opusHead ++ [1, 9] ++ leBytes 2 0 ++ leBytes 4 48000 ++ leBytes 2 0 ++ [255],
        opusTags ++ leBytes 4 0 ++ leBytes 4 0, 91⟩, ⟨1, 9, 0, 48000, 0, 255⟩, by decide +kernel, by decide +kernel,
        by decide, .inl (by decide)⟩

/-- A file that is read: 20 ms of stereo. -/
example : readOpus (opusFile 2 0 960) true = .ok ⟨20, 48, 34, 2, 3, 1, 48000, 0⟩ := by
  have h : readHeaders (opusFile 2 0 960) opusHead opusTags 2 true
    = .ok ⟨0, opusHead ++ [1, 2] ++ leBytes 2 0 ++ leBytes 4 48000 ++ leBytes 2 0 ++ [0],
        opusTags ++ leBytes 4 0 ++ leBytes 4 0, 91⟩ := by decide +kernel
  have hl : findLastPage (opusFile 2 0 960) 91 = .ok ⟨[0xFC], ⟨91, 4, 960, 7, 2, [1], 0⟩, 120⟩ :=
    findLast_found (p := 91) (rest := []) (by decide) (by decide +kernel) (no_later (by decide +kernel))
  unfold readOpus
  rw [h, ok_bind, hl]
  decide +kernel

/-! ## Vorbis -/

/-- C44, Vorbis: reading the properties of any file never fails by a panic and ends. -/
theorem readVorbis_total (f : Bytes) (tags : Bool) :
    readVorbis f tags ≠ .error .panic ∧ readVorbis f tags ≠ .error .diverge := by
  have ht := readHeaders_total f vorbisHead vorbisTags 3 (by decide) tags
  have main : ∀ e : Err, e ≠ .eof → readHeaders f vorbisHead vorbisTags 3 tags ≠ .error e →
      readVorbis f tags ≠ .error e := by
    intro e he hh
    unfold readVorbis
    refine bind_ne hh fun h => ?_
    unfold vorbisProperties
    refine bind_ne (readLE_ne he _ _) fun _ => bind_ne (readU8_ne he _) fun ⟨ch, r0⟩ => ?_
    try dsimp only
    cases hrate : readLE 4 r0 with
    | error y =>
      rw [error_bind]
      have := readLE_ne he 4 r0
      rw [hrate] at this
      intro h; cases h; exact this rfl
    | ok v =>
      obtain ⟨rate, r⟩ := v
      have hrl : rate < 2 ^ 32 := by
        obtain ⟨a, _, hl, hv⟩ := readLE_ok hrate
        have := fromLE_lt a
        rw [hl] at this
        rw [hv]
        exact this
      rw [ok_bind]
      refine bind_ne (readLE_ne he _ _) fun _ => bind_ne (readLE_ne he _ _) fun _ => bind_ne (readLE_ne he _ _) fun _ =>
        bind_ne ?_ fun _ => by simp
      cases hp : findLastPage f h.stop with
      | error y => simp [vorbisLength]
      | ok page =>
        obtain ⟨p, rest, _, hpage, _⟩ := findLast_sound hp
        have hab : page.header.abgp < 2 ^ 64 := (page_read_write hpage).1.abgp
        unfold vorbisLength
        simp only
        split
        next hpos =>
          split
          · have hd : divRound 128 ((page.header.abgp - h.firstAbgp) * 1000) rate
                = .ok (((page.header.abgp - h.firstAbgp) * 1000 + rate / 2) / rate) := by
              unfold divRound
              rw [if_neg (by omega), if_neg]
              have : rate / 2 ≤ rate := Nat.div_le_self _ _
              have e128 : (2 : Nat) ^ 128 = 2 ^ 64 * 2 ^ 64 := by decide
              omega
            rw [hd, ok_bind]
            simp
          · simp
        · simp
  exact ⟨main _ (by decide) ht.1, main _ (by decide) ht.2⟩

/-- C44, Vorbis: the duration is the number of samples over the rate, rounded to the nearest millisecond. -/
theorem vorbisLength_ok (first rate : Nat) (page : Page) (h : page.Valid) (hr : 0 < rate) (hr' : rate < 2 ^ 32)
    (ht : first < page.header.abgp) :
    ∃ ms, vorbisLength first rate (.ok page) = .ok (ms % 2 ^ 64, ms % 2 ^ 64) ∧
      2 * rate * ms ≤ 2 * ((page.header.abgp - first) * 1000) + rate ∧
      2 * ((page.header.abgp - first) * 1000) < 2 * rate * (ms + 1) := by
  have hab := h.abgp
  have hd : divRound 128 ((page.header.abgp - first) * 1000) rate
      = .ok (((page.header.abgp - first) * 1000 + rate / 2) / rate) := by
    unfold divRound
    rw [if_neg (by omega), if_neg]
    have : rate / 2 ≤ rate := Nat.div_le_self _ _
    have e128 : (2 : Nat) ^ 128 = 2 ^ 64 * 2 ^ 64 := by decide
    omega
  refine ⟨((page.header.abgp - first) * 1000 + rate / 2) / rate, ?_, ?_, ?_⟩
  · unfold vorbisLength
    simp only
    rw [if_pos hr, if_pos (by omega), hd, ok_bind]
  · generalize (page.header.abgp - first) * 1000 = t
    have := Nat.div_mul_le_self (t + rate / 2) rate
    have e : 2 * rate * ((t + rate / 2) / rate) = 2 * ((t + rate / 2) / rate * rate) := by
      rw [Nat.mul_assoc, Nat.mul_comm rate]
    omega
  · generalize (page.header.abgp - first) * 1000 = t
    have := Nat.lt_mul_div_succ (t + rate / 2) hr
    have e : 2 * rate * ((t + rate / 2) / rate + 1) = 2 * (rate * ((t + rate / 2) / rate + 1)) := by
      rw [Nat.mul_assoc]
    omega

example : vorbisLength 0 44100 (.ok ⟨[1, 2, 3], ⟨0, 2, 66150, 9, 0, [3], 5⟩, 31⟩) = .ok (1500, 1500) := by decide +kernel

/-! ## Speex -/

/-- C44, Speex: the length used as divisor fails exactly when the number of samples is near the 64-bit limit. -/
theorem speexLength_panic (first rate : Nat) (last : Except Err Page) :
    speexLength first rate last = .error .panic ↔
      ∃ page, last = .ok page ∧ 0 < rate ∧ 0 < page.header.abgp - first ∧
        2 ^ 64 ≤ (page.header.abgp - first) * 1000 + rate / 2 := by
  cases last with
  | error e => simp [speexLength]
  | ok page =>
    unfold speexLength
    simp only [Except.ok.injEq, exists_eq_left']
    by_cases hr : 0 < rate
    · rw [if_pos hr]
      by_cases ht : 0 < page.header.abgp - first
      · rw [if_pos ht]
        generalize page.header.abgp - first = total at ht ⊢
        simp only [hr, ht, true_and]
        by_cases h1 : 2 ^ 64 ≤ total * 1000
        · unfold mulU64
          rw [if_pos h1, error_bind]
          simp only [true_iff]
          exact Nat.le_trans h1 (Nat.le_add_right _ _)
        · rw [mulU64_lt (Nat.lt_of_not_le h1), ok_bind]
          unfold divRound
          rw [if_neg (by omega)]
          split
          next h2 => rw [error_bind]; simp [h2]
          next h2 =>
            rw [ok_bind]
            constructor
            · intro h; cases h
            · intro h; exact absurd h h2
      · rw [if_neg ht]
        simp [ht]
    · rw [if_neg hr]
      simp [hr]

/-- C44, Speex: the bit rates divide by zero exactly when that length is zero (small files: the sums fit). -/
theorem speexRates_panic (nominal fileLen stream length : Nat) (h1 : fileLen < 2 ^ 60) (h2 : stream ≤ fileLen)
    (h3 : length < 2 ^ 63) :
    speexRates nominal fileLen stream length = .error .panic ↔ length = 0 := by
  have s1 : satMul fileLen 8 = fileLen * 8 := by unfold satMul; omega
  have s2 : satMul stream 8 = stream * 8 := by unfold satMul; omega
  have b1 : length / 2 < 2 ^ 62 := by omega
  unfold speexRates
  rw [s1, s2]
  by_cases h0 : length = 0
  · subst h0
    simp only [iff_true]
    split <;> rfl
  · simp only [h0, iff_false]
    split
    · unfold divU64
      rw [if_neg h0, ok_bind]
      simp
    · unfold divRound
      rw [if_neg h0, if_neg (by omega), ok_bind, if_neg h0, if_neg (by omega), ok_bind]
      simp

/-- C44, Speex: the length is zero exactly when there are fewer samples than a two thousandth of the rate. -/
theorem speexLength_zero (first rate : Nat) (last : Except Err Page) :
    (∃ d, speexLength first rate last = .ok (0, d)) ↔
      ∃ page, last = .ok page ∧ 0 < rate ∧ 0 < page.header.abgp - first ∧
        (page.header.abgp - first) * 1000 + rate / 2 < min rate (2 ^ 64) := by
  cases last with
  | error e => simp [speexLength]
  | ok page =>
    unfold speexLength
    simp only [Except.ok.injEq, exists_eq_left']
    by_cases hr : 0 < rate
    · rw [if_pos hr]
      by_cases ht : 0 < page.header.abgp - first
      · rw [if_pos ht]
        generalize page.header.abgp - first = total at ht ⊢
        simp only [hr, ht, true_and]
        rw [Nat.lt_min]
        by_cases h1 : 2 ^ 64 ≤ total * 1000
        · unfold mulU64
          rw [if_pos h1, error_bind]
          constructor
          · rintro ⟨d, h⟩; cases h
          · rintro ⟨_, h⟩
            exact absurd (Nat.le_trans h1 (Nat.le_add_right _ _)) (Nat.not_le.mpr h)
        · rw [mulU64_lt (Nat.lt_of_not_le h1), ok_bind]
          unfold divRound
          rw [if_neg (by omega)]
          split
          next h2 =>
            rw [error_bind]
            constructor
            · rintro ⟨d, h⟩; cases h
            · rintro ⟨_, h⟩; exact absurd h2 (Nat.not_le.mpr h)
          next h2 =>
            rw [ok_bind]
            simp only [Except.ok.injEq, Prod.mk.injEq]
            have hz := Nat.div_eq_zero_iff (a := total * 1000 + rate / 2) (b := rate)
            constructor
            · rintro ⟨d, h, _⟩
              rcases hz.mp h with h | h
              · omega
              · exact ⟨h, Nat.lt_of_not_le h2⟩
            · rintro ⟨h, _⟩
              exact ⟨_, hz.mpr (.inr h), rfl⟩
      · rw [if_neg ht]
        simp [ht]
    · rw [if_neg hr]
      simp [hr]

/-- C44, Speex: reading the properties of a file fails by a panic only if its last page makes the length fail or zero. -/
theorem readSpeex_partial (f : Bytes) (tags : Bool) (hl : f.length < 2 ^ 60)
    (hpage : ∀ h page rate, readHeaders f speexHead [] 2 tags = .ok h → findLastPage f h.stop = .ok page →
      readLE 4 (h.ident.drop 36) = .ok rate → h.firstAbgp < page.header.abgp →
      2 * ((page.header.abgp - h.firstAbgp) * 1000) ≥ rate.1 ∧
      (page.header.abgp - h.firstAbgp) * 1000 < 2 ^ 63) :
    readSpeex f tags ≠ .error .panic ∧ readSpeex f tags ≠ .error .diverge := by
  have ht := readHeaders_total f speexHead [] 2 (by decide) tags
  have main : ∀ e : Err, e ≠ .eof → e ≠ .parse → readHeaders f speexHead [] 2 tags ≠ .error e →
      readSpeex f tags ≠ .error e := by
    intro e he he' hh
    unfold readSpeex
    cases hr : readHeaders f speexHead [] 2 tags with
    | error y => rw [hr] at hh; rw [error_bind]; intro h; cases h; exact hh rfl
    | ok h =>
      have hlen := (readHeaders_ok (by decide) hr).1
      rw [ok_bind]
      unfold speexProperties
      split
      · intro h; cases h; exact he' rfl
      next h80 =>
      have hl80 : 80 ≤ h.ident.length := by omega
      rw [readLE_le (by rw [List.length_drop]; omega), ok_bind]
      simp only
      split
      · intro h; cases h; exact he' rfl
      rw [readLE_le (by simp only [List.length_drop]; omega), ok_bind]
      simp only [List.drop_drop]
      rw [readLE_le (by simp only [List.length_drop]; omega), ok_bind]
      simp only [List.drop_drop]
      have hrate : readLE 4 (h.ident.drop 36) = .ok (fromLE ((h.ident.drop 36).take 4), h.ident.drop (36 + 4)) := by
        rw [readLE_le (by simp only [List.length_drop]; omega), List.drop_drop]
      have hp := fun page hp ha => hpage h page _ hr hp hrate ha
      simp only at hp
      have hrl : fromLE ((h.ident.drop 36).take 4) < 2 ^ 32 := by
        have := fromLE_lt ((h.ident.drop 36).take 4)
        rw [List.length_take, List.length_drop, Nat.min_eq_left (by omega)] at this
        exact this
      refine bind_ne (readLE_ne he _ _) fun _ => bind_ne (readLE_ne he _ _) fun _ => bind_ne (readLE_ne he _ _) fun _ => ?_
      split
      · intro h; cases h; exact he' rfl
      refine bind_ne (readLE_ne he _ _) fun nominal => bind_ne (readLE_ne he _ _) fun _ =>
        bind_ne (readLE_ne he _ _) fun _ => ?_
      show (speexLength h.firstAbgp (fromLE ((h.ident.drop 36).take 4)) (findLastPage f h.stop) >>= _) ≠ .error e
      generalize fromLE ((h.ident.drop 36).take 4) = rate at hp hrl
      have hok : ∃ l d, speexLength h.firstAbgp rate (findLastPage f h.stop) = .ok (l, d) ∧ 0 < l ∧ l < 2 ^ 63 + 2 ^ 32 := by
        cases hlast : findLastPage f h.stop with
        | error y => exact ⟨1000, 0, rfl, by decide, by decide⟩
        | ok page =>
          unfold speexLength
          simp only
          split
          next hpos =>
            split
            next hgt =>
              obtain ⟨a, b⟩ := hp page hlast (by omega)
              generalize (page.header.abgp - h.firstAbgp) = total at a b hgt
              have hhalf : rate / 2 ≤ 2 ^ 32 := by omega
              rw [mulU64_lt (by omega), ok_bind]
              unfold divRound
              rw [if_neg (by omega), if_neg (by omega), ok_bind]
              refine ⟨_, _, rfl, ?_, ?_⟩
              · exact Nat.div_pos (by omega) hpos
              · exact Nat.lt_of_le_of_lt (Nat.div_le_self _ _) (Nat.add_lt_add_of_lt_of_le b hhalf)
            · exact ⟨1000, 0, rfl, by decide, by decide⟩
          · exact ⟨1000, 0, rfl, by decide, by decide⟩
      obtain ⟨l, d, hsl, hl0, hlb⟩ := hok
      rw [hsl, ok_bind]
      refine bind_ne ?_ fun _ => by simp
      have s1 : satMul f.length 8 = f.length * 8 := by unfold satMul; omega
      have s2 : satMul (f.length - (h.ident.length + h.comment.length)) 8
          = (f.length - (h.ident.length + h.comment.length)) * 8 := by unfold satMul; omega
      unfold speexRates
      simp only [s1, s2]
      split
      · unfold divU64
        rw [if_neg (by omega), ok_bind]
        simp
      · unfold divRound
        rw [if_neg (by omega), if_neg (by omega), ok_bind, if_neg (by omega), if_neg (by omega), ok_bind]
        simp
  exact ⟨main _ (by decide) (by decide) ht.1, main _ (by decide) (by decide) ht.2⟩

/-- A small Speex file at the given rate whose sound ends at the given sample. -/
def speexFile (rate last : Nat) : Bytes :=
  Page.asBytes ⟨speexHead ++ List.replicate 20 0 ++ leBytes 4 1 ++ leBytes 4 80 ++ leBytes 4 rate ++ leBytes 4 0
      ++ leBytes 4 4 ++ leBytes 4 1 ++ leBytes 4 0 ++ leBytes 4 160 ++ leBytes 4 0 ++ List.replicate 16 0,
      ⟨0, 2, 0, 7, 0, [80], 0⟩, 0⟩
    ++ Page.asBytes ⟨leBytes 4 0 ++ leBytes 4 0, ⟨0, 0, 0, 7, 1, [8], 0⟩, 0⟩
    ++ Page.asBytes ⟨[0xFC], ⟨0, 4, last, 7, 2, [1], 0⟩, 0⟩

/-- C44 is false of the code for Speex: ten samples at 44.1 kHz divide by zero. -/
theorem short_speex_panics : readSpeex (speexFile 44100 10) true = .error .panic := by
  have h : ∃ hd, readHeaders (speexFile 44100 10) speexHead [] 2 true = .ok hd ∧ hd.stop = 144 ∧
      speexProperties hd (.ok ⟨[0xFC], ⟨144, 4, 10, 7, 2, [1], 0⟩, 173⟩) 173 = .error .panic := by
    refine ⟨⟨0, ((speexFile 44100 10).drop 28).take 80, ((speexFile 44100 10).drop 136).take 8, 144⟩, ?_, rfl, ?_⟩
    · decide +kernel
    · decide +kernel
  obtain ⟨hd, h1, h2, h3⟩ := h
  have hl : findLastPage (speexFile 44100 10) 144 = .ok ⟨[0xFC], ⟨144, 4, 10, 7, 2, [1], 0⟩, 173⟩ :=
    findLast_found (p := 144) (rest := []) (by decide) (by decide +kernel) (no_later (by decide +kernel))
  have hlen : (speexFile 44100 10).length = 173 := by decide +kernel
  unfold readSpeex
  rw [h1, ok_bind, h2, hl, hlen]
  exact h3

/-- One second of mono at 8 kHz meets the conditions. -/
example : readSpeex (speexFile 8000 8000) true ≠ .error .panic := by
  have hh : readHeaders (speexFile 8000 8000) speexHead [] 2 true
      = .ok ⟨0, ((speexFile 8000 8000).drop 28).take 80, ((speexFile 8000 8000).drop 136).take 8, 144⟩ := by decide +kernel
  have hl : findLastPage (speexFile 8000 8000) 144 = .ok ⟨[0xFC], ⟨144, 4, 8000, 7, 2, [1], 0⟩, 173⟩ :=
    findLast_found (p := 144) (rest := []) (by decide) (by decide +kernel) (no_later (by decide +kernel))
  refine (readSpeex_partial _ _ (by decide +kernel) ?_).1
  intro h page rate h1 h2 h3 _
  rw [hh] at h1
  cases h1
  rw [hl] at h2
  cases h2
  have hr : (readLE 4 ((((speexFile 8000 8000).drop 28).take 80).drop 36)).map Prod.fst = .ok 8000 := by decide +kernel
  rw [h3] at hr
  simp only [Except.map, Except.ok.injEq] at hr
  rw [hr]
  decide

/-! ## Channel masks -/

/-- The number of speakers in a mask of 32 bits. -/
def speakers (m : Nat) : Nat := ((List.range 32).filter fun i => m.testBit i).length

/-- C44: an Opus mask names exactly as many speakers as there are channels. -/
theorem opus_mask (n m : Nat) (h : Channels.fromOpus n = some m) : speakers m = n ∧ m < 2 ^ 18 := by
  have hn := (fromOpus_isSome n).mp (by rw [h]; rfl)
  have key : ∀ k : Fin 9, (Channels.fromOpus k.val).all (fun m => decide (speakers m = k.val ∧ m < 2 ^ 18)) = true := by
    decide +kernel
  have := key ⟨n, by omega⟩
  simp only [h, Option.all_some, decide_eq_true_eq] at this
  exact this

/-- The same for the channel configurations of AAC, except for configuration 7, whose eight speakers are reported as
seven channels. -/
theorem aac_mask_partial (n m : Nat) (h : Channels.fromMp4 n = some m) (h7 : n ≠ 7) : speakers m = n ∧ m < 2 ^ 18 := by
  have hn : n < 8 := by
    match n, h with
    | 0, _ | 1, _ | 2, _ | 3, _ | 4, _ | 5, _ | 6, _ | 7, _ => decide
  have key : ∀ k : Fin 8, k.val ≠ 7 → (Channels.fromMp4 k.val).all (fun m => decide (speakers m = k.val ∧ m < 2 ^ 18)) = true := by
    decide +kernel
  have := key ⟨n, hn⟩ h7
  simp only [h, Option.all_some, decide_eq_true_eq] at this
  exact this

/-- AAC configuration 7 has eight speakers. -/
theorem aac_seven_is_eight : (Channels.fromMp4 7).map speakers = some 8 := by decide +kernel

example : (Channels.fromOpus 6).map speakers = some 6 := by decide +kernel

end Lofty.OggProps
