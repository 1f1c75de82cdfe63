import Verif.Lemmas.OggWrite
/-!
# C59: saving comments to an OGG file
-/
namespace Lofty.OggWrite
open Lofty.Ogg Lofty.OggProps Lofty.Vorbis

/-- The end of saving: pages for the header packets, then the others. -/
def finish (serial : Nat) (ident : Bytes) (others : List Bytes) (qs : List Page) (new : Bytes) : Except Err Bytes := do
  let heads ← paginate (ident :: new :: others) serial 0 firstPageFlag
  if qs = [] ∨ heads.length % 2 ^ 32 + qs.length ≤ 2 ^ 32 then .ok (run 0 (heads ++ qs)) else .error .panic

/-- Saving, step by step. -/
theorem write_eq {fmt : Format} (t : Tag) {f ident comment rest junk c d1 : Bytes} {first : PageHeader} {others : List Bytes}
    {vendor : Str} {qs : List Page}
    (hf : PageHeader.read 0 f = .ok (first, d1)) (hh : Headed fmt f (ident :: comment :: others) rest)
    (hc : comment = fmt.sig ++ c) (hv : VendorIs c vendor) (hq : Paged rest qs junk) :
    write fmt t f = createPacket { t with vendor := vendor } fmt.sig fmt.framing >>= finish first.serial ident others qs := by
  obtain ⟨p, h1, h2⟩ := hh
  have hget : p.get 1 = .ok (some comment) := get_holds p _ h2 1
  have hs : hasSignature comment fmt.sig = true := hasSignature_eq.mpr ⟨c, hc⟩
  unfold write
  rw [hf, ok_bind]
  simp only
  rw [h1, ok_bind]
  simp only
  rw [hget, ok_bind]
  simp only
  rw [hs, if_neg (by decide), hc, List.drop_left, oldVendor_eq.mpr hv, ok_bind]
  cases hn : createPacket { t with vendor := vendor } fmt.sig fmt.framing with
  | error e => rfl
  | ok new =>
    rw [ok_bind, ok_bind]
    obtain ⟨heads, h3, _, h5⟩ := paginate_wellformed (ident :: new :: others) first.serial 0 firstPageFlag
    have hb : (heads.map fun q => q.genCrc.asBytes).flatten = run 0 heads :=
      run_numbers fun i q hq => by rw [(h5 i q hq).2.1, Nat.zero_add]
    obtain ⟨p', s1, s2, _⟩ := set_holds p _ h2 1 new
    rw [s1, ok_bind]
    simp only
    have hw : p'.writeTo first.serial 0 firstPageFlag = .ok (run 0 heads, heads.length) := by
      unfold Packets.writeTo Packets.paginate
      rw [iter_holds p' _ s2, ok_bind]
      show (Ogg.paginate (ident :: new :: others) first.serial 0 firstPageFlag >>= _) = _
      rw [h3, ok_bind, hb]
    rw [hw, ok_bind, finish, h3, ok_bind]
    simp only
    rw [renumber_eq qs rest junk _ _ hq (by omega), run_mod]
    split
    · rw [ok_bind, run_append, Nat.zero_add]
    · rfl

/-- Everything that has to be the case for saving to succeed. -/
theorem write_ok {fmt : Format} {t : Tag} {f g : Bytes} (h : write fmt t f = .ok g) :
    ∃ first d1 ident comment others rest c vendor new, PageHeader.read 0 f = .ok (first, d1) ∧
      Headed fmt f (ident :: comment :: others) rest ∧ comment = fmt.sig ++ c ∧ VendorIs c vendor ∧
      createPacket { t with vendor := vendor } fmt.sig fmt.framing = .ok new := by
  unfold write at h
  obtain ⟨⟨first, d1⟩, h1, h⟩ := bind_ok h
  obtain ⟨⟨p, rest⟩, h2, h⟩ := bind_ok h
  simp only at h
  obtain ⟨r, ps, rfl, h3, h4, _⟩ := holds_readCount (by have := two_le fmt; omega) h2
  obtain ⟨ident, comment, others, rfl⟩ := two_packets (l := ps) (by rw [h4]; exact two_le fmt)
  rw [show p.get 1 = .ok (some comment) from get_holds p _ h3 1, ok_bind] at h
  simp only at h
  split at h
  · cases h
  · next hs =>
    obtain ⟨c, hc⟩ := hasSignature_eq.mp (by simpa using hs)
    obtain ⟨v, h5, h⟩ := bind_ok h
    obtain ⟨new, h6, _⟩ := bind_ok h
    rw [hc, List.drop_left] at h5
    exact ⟨first, d1, ident, comment, others, r, c, v, new, h1, ⟨p, h2, h3⟩, hc, oldVendor_eq.mp h5, h6⟩

theorem headed_unique {fmt : Format} {f : Bytes} {ps ps' : List Bytes} {r r' : Bytes} (h : Headed fmt f ps r)
    (h' : Headed fmt f ps' r') : ps = ps' ∧ r = r' := by
  obtain ⟨p, h1, h2⟩ := h
  obtain ⟨p', h3, h4⟩ := h'
  rw [h1] at h3
  simp only [Except.ok.injEq, Prod.mk.injEq, Option.some.injEq] at h3
  obtain ⟨rfl, rfl⟩ := h3
  have := iter_holds p _ h2
  rw [iter_holds p _ h4] at this
  exact ⟨((Except.ok.injEq _ _).mp this).symm, rfl⟩

/-- **C59, the file.** If saving succeeds, the new file consists of the pages of the header packets, in which the comments
are replaced by the new ones with the vendor string of the old ones, and of all the other pages, all of them numbered from
zero and with their checksums.  Of the other pages, which carry the audio, nothing but number and checksum is changed.
(They are those up to the first byte that does not begin a page, see `damage_cuts`.) -/
theorem save_file {fmt : Format} {t : Tag} {f g ident comment rest junk : Bytes} {others : List Bytes} {qs : List Page}
    (h : write fmt t f = .ok g) (hh : Headed fmt f (ident :: comment :: others) rest) (hq : Paged rest qs junk) :
    ∃ first d1 c vendor new heads, PageHeader.read 0 f = .ok (first, d1) ∧ comment = fmt.sig ++ c ∧ VendorIs c vendor ∧
      createPacket { t with vendor := vendor } fmt.sig fmt.framing = .ok new ∧
      paginate (ident :: new :: others) first.serial 0 firstPageFlag = .ok heads ∧ g = run 0 (heads ++ qs) := by
  obtain ⟨first, d1, ident', comment', others', rest', c, vendor, new, h1, h2, h3, h4, h5⟩ := write_ok h
  obtain ⟨he, rfl⟩ := headed_unique hh h2
  simp only [List.cons.injEq] at he
  obtain ⟨rfl, rfl, rfl⟩ := he
  rw [write_eq t h1 hh h3 h4 hq, h5, ok_bind] at h
  unfold finish at h
  obtain ⟨heads, h6, h7⟩ := bind_ok h
  refine ⟨first, d1, c, vendor, new, heads, h1, h3, h4, h5, h6, ?_⟩
  split at h7
  · exact ((Except.ok.injEq _ _).mp h7).symm
  · cases h7

/-- **C59, success.** Saving to a file whose header packets can be read and whose comments have a vendor string succeeds,
if the new comments can be encoded and there are less than 2^32 pages. -/
theorem save_succeeds {fmt : Format} {t : Tag} {f ident comment rest junk c new d1 : Bytes} {first : PageHeader} {others : List Bytes}
    {vendor : Str} {qs : List Page} (hf : PageHeader.read 0 f = .ok (first, d1))
    (hh : Headed fmt f (ident :: comment :: others) rest) (hc : comment = fmt.sig ++ c) (hv : VendorIs c vendor)
    (hn : createPacket { t with vendor := vendor } fmt.sig fmt.framing = .ok new) (hq : Paged rest qs junk)
    (hl : ∀ heads, paginate (ident :: new :: others) first.serial 0 firstPageFlag = .ok heads → heads.length + qs.length ≤ 2 ^ 32) :
    ∃ g, write fmt t f = .ok g := by
  rw [write_eq t hf hh hc hv hq, hn, ok_bind, finish]
  obtain ⟨heads, h3, _⟩ := paginate_wellformed (ident :: new :: others) first.serial 0 firstPageFlag
  have := hl heads h3
  have := Nat.mod_le heads.length (2 ^ 32)
  rw [h3, ok_bind, if_pos (.inr (by omega))]
  exact ⟨_, rfl⟩

/-- What the new file begins with. -/
theorem run_headed {fmt : Format} {ident new : Bytes} {others : List Bytes} {serial : Nat} {heads qs : List Page}
    (hn : (ident :: new :: others).length = fmt.count) (hne : ∀ p ∈ ident :: new :: others, p ≠ []) (hs : serial < 2 ^ 32)
    (hp : paginate (ident :: new :: others) serial 0 firstPageFlag = .ok heads) :
    Headed fmt (run 0 (heads ++ qs)) (ident :: new :: others) (run heads.length qs) ∧
      ∃ first d1, PageHeader.read 0 (run 0 (heads ++ qs)) = .ok (first, d1) ∧ first.serial = serial ∧
        (ident.length < 8160 → first.abgp = 0) := by
  obtain ⟨heads', h3, _, h5⟩ := paginate_wellformed (ident :: new :: others) serial 0 firstPageFlag
  rw [hp] at h3
  obtain rfl := (Except.ok.injEq _ _).mp h3
  have hb : (heads.map fun q => q.genCrc.asBytes).flatten = run 0 heads :=
    run_numbers fun i q hq => by rw [(h5 i q hq).2.1, Nat.zero_add]
  have hfor : List.Forall₂ PageFor heads ((ident :: new :: others).flatMap piecesOf) := by
    rw [paginate_eq] at hp
    obtain rfl := (Except.ok.injEq _ _).mp hp
    rw [pagesOf_closed]
    exact forall₂_mapIdx _ _ (fun i x => finalPage_for _ _ _ _ _ _ hs (by decide))
  have e : run 0 (heads ++ qs) = pagesBytes heads ++ run heads.length qs := by
    rw [run_append, ← hb, Nat.zero_add]
    rfl
  refine ⟨⟨_, by rw [e, ← hn]; exact readCount_pages _ (by simp) hne heads hfor _, rfl, [], by simp⟩, ?_⟩
  cases heads with
  | nil =>
    have hi : ident ≠ [] := hne ident (by simp)
    rw [List.flatMap_cons] at hfor
    cases hx : piecesOf ident with
    | nil =>
      unfold piecesOf at hx
      rw [if_neg (by simpa using hi), split_closed] at hx
      simp at hx
    | cons x xs =>
      rw [hx] at hfor
      cases hfor
  | cons q heads =>
    have h0 := h5 0 q rfl
    have hv : q.genCrc.Valid := by
      obtain ⟨x, hx, hpf⟩ : ∃ x ∈ (ident :: new :: others).flatMap piecesOf, PageFor q x := by
        generalize (ident :: new :: others).flatMap piecesOf = l at hfor
        cases hfor with
        | cons h _ => exact ⟨_, by simp, h⟩
      obtain ⟨p, _, hxp⟩ := List.mem_flatMap.mp hx
      exact pageFor_valid hpf (piecesOf_le p x hxp)
    have e2 : run 0 (q :: heads ++ qs) = q.genCrc.asBytes ++ (pagesBytes heads ++ run (q :: heads).length qs) := by
      rw [e]
      simp [pagesBytes, pageBytes]
    rw [e2]
    refine ⟨_, _, header_front hv _, h0.1, fun hl => ?_⟩
    have hi : ident ≠ [] := hne ident (by simp)
    have hpieces : piecesOf ident = [⟨ident, 0, true, false⟩] := by
      unfold piecesOf
      rw [if_neg (by simpa using hi)]
      rw [split_closed, Nat.div_eq_of_lt hl]
      simp [pieceAt, List.take_of_length_le (Nat.le_of_lt hl), Nat.not_lt.mpr (Nat.le_of_lt hl)]
    rw [paginate_eq] at hp
    have hq := (Except.ok.injEq _ _).mp hp
    rw [pagesOf_closed, List.flatMap_cons, hpieces] at hq
    simp only [List.cons_append, List.mapIdx_cons, List.cons.injEq] at hq
    show q.header.abgp = 0
    rw [← hq.1, finalPage_abgp]
    rfl

theorem new_ne {t : Tag} {sig new : Bytes} {b : Bool} (h : createPacket t sig b = .ok new) : new ≠ [] := by
  obtain ⟨r, rfl⟩ := createPacket_front h
  intro h
  have := congrArg List.length h
  simp at this

theorem headed_length {fmt : Format} {f : Bytes} {ps : List Bytes} {r : Bytes} (h : Headed fmt f ps r) : ps.length = fmt.count := by
  obtain ⟨p, h1, h2⟩ := h
  obtain ⟨_, ps', _, h3, h4, _⟩ := holds_readCount (by have := two_le fmt; omega) h1
  have := iter_holds p _ h2
  rw [iter_holds p _ h3] at this
  rw [← (Except.ok.injEq _ _).mp this, h4]

/-- **C59, the header packets.** The header packets of the new file are those of the old one except for the comments.
(Packets without content are assumed away, since no page is written for them.) -/
theorem save_headers {fmt : Format} {t : Tag} {f g ident comment rest junk : Bytes} {others : List Bytes} {qs : List Page}
    (h : write fmt t f = .ok g) (hh : Headed fmt f (ident :: comment :: others) rest) (hq : Paged rest qs junk)
    (hi : ident ≠ []) (ho : ∀ p ∈ others, p ≠ []) :
    ∃ c vendor new n, comment = fmt.sig ++ c ∧ VendorIs c vendor ∧
      createPacket { t with vendor := vendor } fmt.sig fmt.framing = .ok new ∧
      Headed fmt g (ident :: new :: others) (run n qs) := by
  obtain ⟨first, d1, c, vendor, new, heads, h1, h2, h3, h4, h5, rfl⟩ := save_file h hh hq
  have hs := (header_read_ok h1).2.2.2.2.1
  exact ⟨c, vendor, new, heads.length, h2, h3, h4, (run_headed (by have := headed_length hh; simpa using this) (by
    intro p hp
    simp only [List.mem_cons] at hp
    rcases hp with rfl | rfl | hp
    · exact hi
    · exact new_ne h4
    · exact ho p hp) hs h5).1⟩

theorem vendor_front {v : Str} {c : Bytes} (h : VendorIs c v) (r : Bytes) :
    VendorIs (leBytes 4 (utf8 v).length ++ (utf8 v ++ r)) v := by
  obtain ⟨raw, more, h1, _, h3⟩ := h
  refine ⟨utf8 v, r, ?_, rfl, .inl rfl⟩
  rcases h3 with h3 | ⟨_, rfl⟩
  · rw [h3]; exact h1
  · decide

/-- **C59, the last save wins.** Saving one tag and then another gives the same file (or the same error) as saving only the
other one. -/
theorem last_save_wins {fmt : Format} {t : Tag} {f g ident comment rest : Bytes} {others : List Bytes}
    (h : write fmt t f = .ok g) (hh : Headed fmt f (ident :: comment :: others) rest)
    (hi : ident ≠ []) (ho : ∀ p ∈ others, p ≠ []) (t' : Tag) : write fmt t' g = write fmt t' f := by
  obtain ⟨qs, junk, hq⟩ := paged_exists _ rest (Nat.le_refl _)
  obtain ⟨first, d1, c, vendor, new, heads, h1, h2, h3, h4, h5, rfl⟩ := save_file h hh hq
  have hs := (header_read_ok h1).2.2.2.2.1
  obtain ⟨k1, first', d2, k2, k3, _⟩ := run_headed (qs := qs) (fmt := fmt) (by have := headed_length hh; simpa using this) (by
    intro p hp
    simp only [List.mem_cons] at hp
    rcases hp with rfl | rfl | hp
    · exact hi
    · exact new_ne h4
    · exact ho p hp) hs h5
  obtain ⟨r, hr⟩ := createPacket_front h4
  obtain ⟨qs', q1, q2, q3⟩ := run_paged hq.valid heads.length
  rw [write_eq t' h1 hh h2 h3 hq, write_eq t' k2 k1 hr (vendor_front h3 r) q1, k3]
  congr 1
  funext x
  unfold finish
  congr 1
  funext hs'
  rw [run_append, run_append, q3, q2]
  have : qs' = [] ↔ qs = [] := by
    rw [← List.length_eq_zero_iff, q2, List.length_eq_zero_iff]
  simp only [this]

/-- **C59.** Saving the same tag again changes nothing. -/
theorem save_again {fmt : Format} {t : Tag} {f g ident comment rest : Bytes} {others : List Bytes}
    (h : write fmt t f = .ok g) (hh : Headed fmt f (ident :: comment :: others) rest)
    (hi : ident ≠ []) (ho : ∀ p ∈ others, p ≠ []) : write fmt t g = .ok g := by
  rw [last_save_wins h hh hi ho, h]

/-- **C59, reading.** The comments and pictures saved are those read from the new file, in order; the vendor string is that
of the old file.  The conditions on comments and pictures are those of C12. -/
theorem save_read {fmt : Format} {t : Tag} {f g ident comment c rest : Bytes} {others : List Bytes} {vendor : Str} {o : Opts}
    (h : write fmt t f = .ok g) (hh : Headed fmt f (ident :: comment :: others) rest)
    (hhead : ∃ r, ident = fmt.head ++ r) (ho : ∀ p ∈ others, p ≠ []) (hc : comment = fmt.sig ++ c) (hv : VendorIs c vendor)
    (hvendor : vendor.getLast? ≠ some '\x00')
    (hitems : Stable o (t.items.filter fun i => !i.2.isEmpty))
    (hcover : t.pictures ≠ [] → o.readCoverArt = true)
    (hpics : ∀ p ∈ t.pictures, Picture.Stable p.1)
    (hlen : ∀ new, createPacket { t with vendor := vendor } fmt.sig fmt.framing = .ok new → new.length < 2 ^ 32) :
    read fmt o g = .ok { vendor := vendor, items := t.items.filter (fun i => !i.2.isEmpty), pictures := t.pictures } := by
  obtain ⟨qs, junk, hq⟩ := paged_exists _ rest (Nat.le_refl _)
  obtain ⟨first, d1, c', vendor', new, heads, h1, h2, h3, h4, h5, rfl⟩ := save_file h hh hq
  obtain rfl : c = c' := List.append_cancel_left (hc ▸ h2)
  obtain rfl : vendor = vendor' := by
    have a := oldVendor_eq.mpr hv
    rw [oldVendor_eq.mpr h3] at a
    exact ((Except.ok.injEq _ _).mp a).symm
  have hs := (header_read_ok h1).2.2.2.2.1
  have hi : ident ≠ [] := by
    obtain ⟨r, rfl⟩ := hhead
    cases fmt <;> simp [Format.head, opusHead, vorbisHead, speexHead, ascii]
  obtain ⟨⟨p, k1, k4⟩, first', d2, k2, k3, _⟩ := run_headed (qs := qs) (fmt := fmt) (by have := headed_length hh; simpa using this) (by
    intro p hp
    simp only [List.mem_cons] at hp
    rcases hp with rfl | rfl | hp
    · exact hi
    · exact new_ne h4
    · exact ho p hp) hs h5
  obtain ⟨r, hr⟩ := createPacket_front h4
  have hl := hlen new h4
  obtain ⟨w1, w2⟩ := read_written o _ _ _ new [] (new.length - fmt.sig.length) h4 hvendor hitems hcover hpics (Nat.le_refl _) (by omega)
  unfold read readHeaders
  rw [k2, ok_bind]
  simp only
  rw [k1, ok_bind]
  simp only
  rw [show p.get 0 = .ok (some ident) from get_holds p _ k4 0, ok_bind,
    show p.get 1 = .ok (some new) from get_holds p _ k4 1, ok_bind]
  simp only
  rw [hasSignature_eq.mpr hhead, hasSignature_eq.mpr ⟨_, hr⟩, if_neg (by decide), if_neg (by simp), ok_bind]
  simp only
  rw [List.length_drop]
  rw [List.append_nil] at w2
  rw [w2, ok_bind]

/-- The headers of a file, as the properties use them. -/
theorem readHeaders_of {fmt : Format} {f ident comment rest c d1 : Bytes} {others : List Bytes} {first : PageHeader} (b : Bool)
    (hf : PageHeader.read 0 f = .ok (first, d1)) (hh : Headed fmt f (ident :: comment :: others) rest)
    (hi : ∃ r, ident = fmt.head ++ r) (hc : comment = fmt.sig ++ c) :
    readHeaders f fmt.head fmt.sig fmt.count b = .ok ⟨first.abgp, ident, comment, f.length - rest.length⟩ := by
  obtain ⟨p, k1, k4⟩ := hh
  unfold readHeaders
  rw [hf, ok_bind]
  simp only
  rw [k1, ok_bind]
  simp only
  rw [show p.get 0 = .ok (some ident) from get_holds p _ k4 0, ok_bind,
    show p.get 1 = .ok (some comment) from get_holds p _ k4 1, ok_bind]
  simp only
  rw [hasSignature_eq.mpr hi, hasSignature_eq.mpr ⟨_, hc⟩, if_neg (by decide), if_neg (by simp)]

/-- Headers that can be read have the signature of the format. -/
theorem readHeaders_sig {fmt : Format} {f ident comment rest sig : Bytes} {others : List Bytes} {b : Bool} {a : Headers}
    (hh : Headed fmt f (ident :: comment :: others) rest) (h : readHeaders f fmt.head sig fmt.count b = .ok a) :
    ∃ r, ident = fmt.head ++ r := by
  obtain ⟨p, k1, k4⟩ := hh
  unfold readHeaders at h
  obtain ⟨_, _, h⟩ := bind_ok h
  simp only at h
  rw [k1, ok_bind] at h
  simp only at h
  rw [show p.get 0 = .ok (some ident) from get_holds p _ k4 0, ok_bind,
    show p.get 1 = .ok (some comment) from get_holds p _ k4 1, ok_bind] at h
  simp only at h
  split at h
  · cases h
  · next hs => exact hasSignature_eq.mp (by simpa using hs)

/-- What the properties are computed from, except for sizes, is the same before and after saving. -/
theorem save_positions {fmt : Format} {t : Tag} {f g ident comment rest d1 : Bytes} {others : List Bytes} {qs : List Page}
    {q : Page} {first : PageHeader} (h : write fmt t f = .ok g) (hh : Headed fmt f (ident :: comment :: others) rest)
    (hq : Paged rest (qs ++ [q]) []) (hi : ∃ r, ident = fmt.head ++ r) (hl : ident.length < 8160) (ho : ∀ p ∈ others, p ≠ [])
    (hf : PageHeader.read 0 f = .ok (first, d1)) (h0 : first.abgp = 0)
    (hm : NoMarker f q.asBytes.length) (hm' : NoMarker g q.asBytes.length) (b : Bool) :
    ∃ a a' p p', readHeaders f fmt.head fmt.sig fmt.count b = .ok a ∧ readHeaders g fmt.head fmt.sig fmt.count b = .ok a' ∧
      a.ident = ident ∧ a'.ident = ident ∧ a.firstAbgp = 0 ∧ a'.firstAbgp = 0 ∧
      findLastPage f a.stop = .ok p ∧ findLastPage g a'.stop = .ok p' ∧ p'.header.abgp = p.header.abgp := by
  obtain ⟨first0, d0, c, vendor, new, heads, h1, h2, h3, h4, h5, rfl⟩ := save_file h hh hq
  have hs := (header_read_ok h1).2.2.2.2.1
  have hi' : ident ≠ [] := by
    obtain ⟨r, rfl⟩ := hi
    cases fmt <;> simp [Format.head, opusHead, vorbisHead, speexHead, ascii]
  obtain ⟨k1, first', d2, k2, _, k3⟩ := run_headed (qs := qs ++ [q]) (fmt := fmt) (by have := headed_length hh; simpa using this) (by
    intro p hp
    simp only [List.mem_cons] at hp
    rcases hp with rfl | rfl | hp
    · exact hi'
    · exact new_ne h4
    · exact ho p hp) hs h5
  obtain ⟨r, hr⟩ := createPacket_front h4
  have hvq : q.Valid := hq.valid q (by simp)
  -- the old file
  obtain ⟨pre, hpre⟩ := headed_suffix hh
  have erest : rest = (qs.map Page.asBytes).flatten ++ q.asBytes := by
    rw [hq.bytes]; simp
  have ef : f = (pre ++ (qs.map Page.asBytes).flatten) ++ q.asBytes := by
    rw [← hpre, erest, List.append_assoc]
  obtain ⟨p, p1, p2⟩ := last_found (a := pre ++ (qs.map Page.asBytes).flatten) (lo := f.length - rest.length) hvq (ef ▸ hm)
    (by rw [← hpre]; simp)
  -- the new file
  have erun : ∃ a n, n < 2 ^ 32 ∧ run 0 (heads ++ (qs ++ [q])) = (run 0 heads ++ a) ++ (numbered n q).genCrc.asBytes ∧
      run heads.length (qs ++ [q]) = a ++ (numbered n q).genCrc.asBytes := by
    refine ⟨run heads.length qs, (heads.length + qs.length) % 2 ^ 32, by omega, ?_, ?_⟩
    · rw [run_append, run_append, Nat.zero_add, List.append_assoc]
      simp [run]
    · rw [run_append]
      simp [run]
  obtain ⟨a, n, hn, e1, e2⟩ := erun
  have el : (numbered n q).genCrc.asBytes.length = q.asBytes.length := by
    simp [numbered, Page.genCrc, Page.asBytes]
  obtain ⟨p', p3, p4⟩ := last_found (a := run 0 heads ++ a) (lo := (run 0 (heads ++ (qs ++ [q]))).length - (run heads.length (qs ++ [q])).length)
    (numbered_valid hvq hn) (by rw [← e1, el]; exact hm') (by rw [e1, e2]; simp only [List.length_append]; omega)
  refine ⟨_, _, p, p', readHeaders_of b hf hh hi h2, readHeaders_of b k2 k1 hi hr, rfl, rfl, h0, k3 hl, ?_, ?_, ?_⟩
  · rw [← ef] at p1; exact p1
  · rw [← e1] at p3; exact p3
  · rw [p2, p4]; rfl

/-- **C59, the duration of Opus.** Saving comments changes neither duration nor channels nor rate nor gain: if the
properties can be read before and after, they differ in the bit rates only, which are computed from the size of the file.
It is assumed that the first page has granule position zero, that the file ends with a page, and that no page marker is
found inside of the last page (the search for the last page would otherwise find that). -/
theorem save_opus {t : Tag} {f g ident comment rest d1 : Bytes} {qs : List Page}
    {q : Page} {first : PageHeader} (h : write .opus t f = .ok g) (hh : Headed .opus f [ident, comment] rest)
    (hq : Paged rest (qs ++ [q]) []) (hl : ident.length < 8160)
    (hf : PageHeader.read 0 f = .ok (first, d1)) (h0 : first.abgp = 0)
    (hm : NoMarker f q.asBytes.length) (hm' : NoMarker g q.asBytes.length) {b : Bool} {old new : Opus}
    (hold : readOpus f b = .ok old) (hnew : readOpus g b = .ok new) :
    new = { old with overall := new.overall, audio := new.audio } := by
  have hi : ∃ r, ident = Format.opus.head ++ r := by
    obtain ⟨a, k, _⟩ := bind_ok hold
    exact readHeaders_sig hh k
  obtain ⟨a, a', p, p', r1, r2, r3, r4, r5, r6, r7, r8, r9⟩ := save_positions h hh hq hi hl (by simp) hf h0 hm hm' b
  unfold readOpus at hold hnew
  rw [show opusHead = Format.opus.head from rfl, show opusTags = Format.opus.sig from rfl, show (2 : Int) = (Format.opus.count : Int) from rfl] at hold hnew
  rw [r1, ok_bind, r7] at hold
  rw [r2, ok_bind, r8] at hnew
  unfold opusProperties at hold hnew
  rw [r3] at hold
  rw [r4] at hnew
  cases hid : opusIdent ident with
  | error e => rw [hid] at hold; cases hold
  | ok i =>
    rw [hid, ok_bind] at hold hnew
    split at hold
    · cases hold
    · next hb =>
      rw [if_neg hb] at hnew
      cases hc : Channels.fromOpus i.channels with
      | none => rw [hc] at hold; cases hold
      | some mask =>
        rw [hc] at hold hnew
        simp only [r5, r6, r9] at hold hnew
        obtain ⟨⟨d, o, x⟩, e1, e2⟩ := bind_ok hold
        obtain ⟨⟨d', o', x'⟩, e3, e4⟩ := bind_ok hnew
        have hd : d = d' := by
          unfold opusTimes at e1 e3
          simp only at e1 e3
          split at e1
          · next hp =>
            rw [if_pos hp] at e3
            obtain ⟨w, w1, e1⟩ := bind_ok e1
            rw [w1, ok_bind] at e3
            obtain ⟨l, w2, e1⟩ := bind_ok e1
            rw [w2, ok_bind] at e3
            obtain ⟨_, _, e1⟩ := bind_ok e1
            obtain ⟨_, _, e1⟩ := bind_ok e1
            obtain ⟨_, _, e1⟩ := bind_ok e1
            obtain ⟨_, _, e1⟩ := bind_ok e1
            obtain ⟨_, _, e1⟩ := bind_ok e1
            obtain ⟨_, _, e3⟩ := bind_ok e3
            obtain ⟨_, _, e3⟩ := bind_ok e3
            obtain ⟨_, _, e3⟩ := bind_ok e3
            obtain ⟨_, _, e3⟩ := bind_ok e3
            obtain ⟨_, _, e3⟩ := bind_ok e3
            cases e1
            cases e3
            rfl
          · next hp =>
            rw [if_neg hp] at e3
            cases e1
            cases e3
            rfl
        subst hd
        cases e2
        cases e4
        rfl

/-- **C59, the duration of Vorbis.** As `save_opus`; here only the overall bit rate depends on the size of the file. -/
theorem save_vorbis {t : Tag} {f g ident comment setup rest d1 : Bytes} {qs : List Page}
    {q : Page} {first : PageHeader} (h : write .vorbis t f = .ok g) (hh : Headed .vorbis f [ident, comment, setup] rest)
    (hq : Paged rest (qs ++ [q]) []) (hl : ident.length < 8160) (hs : setup ≠ [])
    (hf : PageHeader.read 0 f = .ok (first, d1)) (h0 : first.abgp = 0)
    (hm : NoMarker f q.asBytes.length) (hm' : NoMarker g q.asBytes.length) {b : Bool} {old new : OggProps.Vorbis}
    (hold : readVorbis f b = .ok old) (hnew : readVorbis g b = .ok new) : new = { old with overall := new.overall } := by
  have hi : ∃ r, ident = Format.vorbis.head ++ r := by
    obtain ⟨a, k, _⟩ := bind_ok hold
    exact readHeaders_sig hh k
  obtain ⟨a, a', p, p', r1, r2, r3, r4, r5, r6, r7, r8, r9⟩ := save_positions h hh hq hi hl (by simpa using hs) hf h0 hm hm' b
  unfold readVorbis at hold hnew
  rw [show vorbisHead = Format.vorbis.head from rfl, show vorbisTags = Format.vorbis.sig from rfl, show (3 : Int) = (Format.vorbis.count : Int) from rfl] at hold hnew
  rw [r1, ok_bind, r7] at hold
  rw [r2, ok_bind, r8] at hnew
  have hp : ∀ rate, vorbisLength 0 rate (.ok p') = vorbisLength 0 rate (.ok p) := by
    intro rate
    unfold vorbisLength
    simp only [r9]
  unfold vorbisProperties at hold hnew
  simp only [r3, r4, r5, r6, hp] at hold hnew
  obtain ⟨x1, e1, hold⟩ := bind_ok hold
  rw [e1, ok_bind] at hnew
  obtain ⟨x2, e2, hold⟩ := bind_ok hold
  rw [e2, ok_bind] at hnew
  obtain ⟨x3, e3, hold⟩ := bind_ok hold
  rw [e3, ok_bind] at hnew
  obtain ⟨x4, e4, hold⟩ := bind_ok hold
  rw [e4, ok_bind] at hnew
  obtain ⟨x5, e5, hold⟩ := bind_ok hold
  rw [e5, ok_bind] at hnew
  obtain ⟨x6, e6, hold⟩ := bind_ok hold
  rw [e6, ok_bind] at hnew
  obtain ⟨x7, e7, hold⟩ := bind_ok hold
  rw [e7, ok_bind] at hnew
  cases hold
  cases hnew
  rfl

/-- **C59, the duration of Speex.** As `save_opus`. -/
theorem save_speex {t : Tag} {f g ident comment rest d1 : Bytes} {qs : List Page}
    {q : Page} {first : PageHeader} (h : write .speex t f = .ok g) (hh : Headed .speex f [ident, comment] rest)
    (hq : Paged rest (qs ++ [q]) []) (hl : ident.length < 8160)
    (hf : PageHeader.read 0 f = .ok (first, d1)) (h0 : first.abgp = 0)
    (hm : NoMarker f q.asBytes.length) (hm' : NoMarker g q.asBytes.length) {b : Bool} {old new : Speex}
    (hold : readSpeex f b = .ok old) (hnew : readSpeex g b = .ok new) :
    new = { old with overall := new.overall, audio := new.audio } := by
  have hi : ∃ r, ident = Format.speex.head ++ r := by
    obtain ⟨a, k, _⟩ := bind_ok hold
    exact readHeaders_sig hh k
  obtain ⟨a, a', p, p', r1, r2, r3, r4, r5, r6, r7, r8, r9⟩ := save_positions h hh hq hi hl (by simp) hf h0 hm hm' b
  unfold readSpeex at hold hnew
  rw [show speexHead = Format.speex.head from rfl, show ([] : Bytes) = Format.speex.sig from rfl, show (2 : Int) = (Format.speex.count : Int) from rfl] at hold hnew
  rw [r1, ok_bind, r7] at hold
  rw [r2, ok_bind, r8] at hnew
  have hp : ∀ rate, speexLength 0 rate (.ok p') = speexLength 0 rate (.ok p) := by
    intro rate
    unfold speexLength
    simp only [r9]
  unfold speexProperties at hold hnew
  simp only [r3, r4, r5, r6, hp] at hold hnew
  split at hold
  · cases hold
  · next hb =>
    rw [if_neg hb] at hnew
    obtain ⟨x1, e1, hold⟩ := bind_ok hold
    rw [e1, ok_bind] at hnew
    split at hold
    · cases hold
    · next hb =>
      rw [if_neg hb] at hnew
      obtain ⟨x2, e2, hold⟩ := bind_ok hold
      rw [e2, ok_bind] at hnew
      obtain ⟨x3, e3, hold⟩ := bind_ok hold
      rw [e3, ok_bind] at hnew
      obtain ⟨x4, e4, hold⟩ := bind_ok hold
      rw [e4, ok_bind] at hnew
      obtain ⟨x5, e5, hold⟩ := bind_ok hold
      rw [e5, ok_bind] at hnew
      obtain ⟨x6, e6, hold⟩ := bind_ok hold
      rw [e6, ok_bind] at hnew
      split at hold
      · cases hold
      · next hb =>
        rw [if_neg hb] at hnew
        obtain ⟨x7, e7, hold⟩ := bind_ok hold
        rw [e7, ok_bind] at hnew
        obtain ⟨x8, e8, hold⟩ := bind_ok hold
        rw [e8, ok_bind] at hnew
        obtain ⟨x9, e9, hold⟩ := bind_ok hold
        rw [e9, ok_bind] at hnew
        obtain ⟨x10, e10, hold⟩ := bind_ok hold
        rw [e10, ok_bind] at hnew
        obtain ⟨x11, e11, hold⟩ := bind_ok hold
        obtain ⟨x12, e12, hnew⟩ := bind_ok hnew
        cases hold
        cases hnew
        rfl

theorem pieces_length (p : Bytes) : 8160 * (piecesOf p).length ≤ p.length + 8160 := by
  unfold piecesOf
  split
  · simp
  · rw [split_closed, List.length_map, List.length_range]
    omega

theorem pieces_sum (ps : List Bytes) : 8160 * (ps.flatMap piecesOf).length ≤ ps.flatten.length + 8160 * ps.length := by
  induction ps with
  | nil => simp
  | cons p ps ih =>
    have := pieces_length p
    simp only [List.flatMap_cons, List.length_append, List.flatten_cons, List.length_cons]
    omega

theorem pages_sum {d junk : Bytes} {qs : List Page} (h : Paged d qs junk) : 27 * qs.length ≤ d.length := by
  rw [h.bytes]
  clear h
  induction qs with
  | nil => simp
  | cons q qs ih =>
    have := asBytes_length q
    simp only [List.map_cons, List.flatten_cons, List.length_append, List.length_cons] at ih ⊢
    omega

theorem create_ne {t : Tag} {sig : Bytes} {b : Bool} : createPacket t sig b ≠ .error .panic := by
  have h1 : ∀ items, createComments items ≠ .error .panic := by
    intro items
    induction items with
    | nil => simp [createComments]
    | cons i is ih =>
      rw [createComments]
      split
      · exact ih
      · split
        · exact bind_ne ih fun a => by simp
        · simp
  have h2 : ∀ ps, createPictures ps ≠ .error .panic := by
    intro ps
    induction ps with
    | nil => simp [createPictures]
    | cons i is ih =>
      rw [createPictures]
      split
      · exact bind_ne ih fun a => by simp
      · simp
  unfold createPacket
  exact bind_ne (h1 _) fun a => bind_ne (h2 _) fun b => by simp

/-- **C59, no panic.** Whatever the bytes of the file are, saving does not panic (for files and comments below 64 GiB). -/
theorem save_no_panic (fmt : Format) (t : Tag) (f : Bytes) (hl : f.length < 2 ^ 36)
    (hn : ∀ v new, createPacket { t with vendor := v } fmt.sig fmt.framing = .ok new → new.length < 2 ^ 36) :
    write fmt t f ≠ .error .panic := by
  intro h'
  have h := h'
  unfold write at h
  cases hf : PageHeader.read 0 f with
  | error e =>
    rw [hf] at h
    obtain rfl := (Except.error.injEq _ _).mp h
    exact header_ne (by decide) (by decide) _ _ hf
  | ok x =>
    obtain ⟨first, d1⟩ := x
    cases hr : Packets.readCount f fmt.count with
    | error e =>
      rw [hf, ok_bind] at h
      simp only at h
      rw [hr] at h
      obtain rfl := (Except.error.injEq _ _).mp h
      exact readCount_ne (by decide) (by decide) _ _ hr
    | ok x =>
      obtain ⟨p, rest⟩ := x
      rw [hf, ok_bind] at h
      simp only at h
      rw [hr, ok_bind] at h
      obtain ⟨r, s1, s2, s3, s4⟩ := readCount_sound (by have := two_le fmt; omega) hr
      obtain ⟨ps, hps⟩ := holds_exists p s3
      have hpl : ps.length = fmt.count := by rw [← s4, hps.1, List.length_map]
      obtain ⟨ident, comment, others, rfl⟩ := two_packets (l := ps) (by rw [hpl]; exact two_le fmt)
      subst s1
      simp only at h
      rw [show p.get 1 = .ok (some comment) from get_holds p _ hps 1, ok_bind] at h
      simp only at h
      split at h
      · cases h
      · next hsig =>
        obtain ⟨c, hc⟩ := hasSignature_eq.mp (by simpa using hsig)
        rw [hc, List.drop_left] at h
        cases hv : oldVendor c with
        | error e =>
          rw [hv] at h
          obtain rfl := (Except.error.injEq _ _).mp h
          unfold oldVendor at hv
          exact bind_ne (readLE_ne (by decide) _ _) (fun a => bind_ne (readN_ne (by decide) _ _) fun b => by simp) hv
        | ok v =>
          obtain ⟨qs, junk, hq⟩ := paged_exists _ r (Nat.le_refl _)
          have hw := write_eq t hf ⟨p, hr, hps⟩ hc (oldVendor_eq.mp hv) hq
          rw [hw] at h'
          cases hp : createPacket { t with vendor := v } fmt.sig fmt.framing with
          | error e =>
            rw [hp] at h'
            obtain rfl := (Except.error.injEq _ _).mp h'
            exact create_ne hp
          | ok new =>
            rw [hp, ok_bind, finish, paginate_eq, ok_bind] at h'
            have a1 := pieces_sum (ident :: new :: others)
            have a2 := pages_sum hq
            have a3 := hn _ _ hp
            have a4 : (pagesOf (ident :: new :: others) first.serial 0 firstPageFlag).length
                = ((ident :: new :: others).flatMap piecesOf).length := by
              rw [pagesOf_closed, List.length_mapIdx]
            have a5 : fmt.count ≤ 3 := by cases fmt <;> decide
            have a6 : (ident :: comment :: others).flatten.length ≤ p.content.length := by
              obtain ⟨tl, ht⟩ := hps.2
              rw [ht]; simp
            rw [← hpl] at a5
            have a7 := Nat.mod_le (pagesOf (ident :: new :: others) first.serial 0 firstPageFlag).length (2 ^ 32)
            simp only [List.flatten_cons, List.length_append, List.length_cons] at a1 a5 a6
            rw [if_pos (.inr (by omega))] at h'
            cases h'

/-! ## Examples -/

/-- A page with one packet of less than 255 bytes. -/
def page (flag : UInt8) (abgp seq : Nat) (content : Bytes) : Page :=
  Page.genCrc ⟨content, ⟨0, flag, abgp, 7, seq, [UInt8.ofNat content.length], 0⟩, 0⟩

/-- The identification packet of an Opus stream. -/
def ident : Bytes := opusHead ++ [1, 2, 0x38, 1, 0x80, 0xBB, 0, 0, 0, 0, 0]

/-- A comment packet with the vendor `libopus` and one comment. -/
def oldComments : Bytes := opusTags ++ leBytes 4 7 ++ ascii "libopus" ++ leBytes 4 1 ++ leBytes 4 7 ++ ascii "TITLE=x"

/-- Two pages of audio. -/
def audio1 : Page := page 0 960 2 [0xFC, 1, 2, 3]
/-- The second one ends the stream. -/
def audio2 : Page := page 4 1920 3 [0xFC, 4, 5]

/-- The header pages. -/
def front : Bytes := (page 2 0 0 ident).asBytes ++ (page 0 0 1 oldComments).asBytes

/-- An Opus file. -/
def opus : Bytes := front ++ (audio1.asBytes ++ audio2.asBytes)

/-- The tag to be saved. -/
def newTag : Tag := ⟨str "me", [(str "ARTIST", str "a"), (str "TITLE", str "")], []⟩

/-- The new comment packet. -/
def newComments : Bytes := opusTags ++ leBytes 4 7 ++ ascii "libopus" ++ leBytes 4 1 ++ leBytes 4 8 ++ ascii "ARTIST=a"

theorem opus_headed : Headed .opus opus [ident, oldComments] (audio1.asBytes ++ audio2.asBytes) :=
  ⟨⟨ident ++ oldComments, [ident.length, oldComments.length]⟩, by decide +kernel, rfl, [], by simp⟩

theorem audio_paged : Paged (audio1.asBytes ++ audio2.asBytes) [audio1, audio2] [] := by
  refine ⟨by simp, ?_, fun q r _ h => ?_⟩
  · intro q hq
    simp only [List.mem_cons, List.not_mem_nil, or_false] at hq
    rcases hq with rfl | rfl
    · exact genCrc_valid (by decide) (by decide) (by decide) (by decide) (by decide) (by decide)
    · exact genCrc_valid (by decide) (by decide) (by decide) (by decide) (by decide) (by decide)
  · have h1 := congrArg List.length h
    have h2 := asBytes_length q
    rw [List.length_append, List.length_nil] at h1
    omega

theorem opus_saved : write .opus newTag opus
    = .ok ((page 2 0 0 ident).asBytes ++ (page 0 0 1 newComments).asBytes ++ (audio1.asBytes ++ audio2.asBytes)) := by
  decide +kernel

example : ∃ g, write .opus newTag opus = .ok g ∧ write .opus newTag g = .ok g ∧ ∀ t', write .opus t' g = write .opus t' opus :=
  ⟨_, opus_saved, save_again opus_saved opus_headed (by decide) (by simp),
    last_save_wins opus_saved opus_headed (by decide) (by simp)⟩

example : ∃ first d1 c vendor new heads, PageHeader.read 0 opus = .ok (first, d1) ∧ oldComments = opusTags ++ c ∧ VendorIs c vendor ∧
      createPacket { newTag with vendor := vendor } opusTags false = .ok new ∧
      paginate [ident, new] first.serial 0 firstPageFlag = .ok heads ∧
      (page 2 0 0 ident).asBytes ++ (page 0 0 1 newComments).asBytes ++ (audio1.asBytes ++ audio2.asBytes) = run 0 (heads ++ [audio1, audio2]) :=
  save_file opus_saved opus_headed audio_paged

theorem newTag_stable : Stable ⟨.strict, true, true⟩ (newTag.items.filter fun i => !i.2.isEmpty) := by
  intro pre i post h
  have h' : [(str "ARTIST", str "a")] = pre ++ i :: post := h
  match pre, h' with
  | [], h' =>
    simp only [List.nil_append, List.cons.injEq] at h'
    rw [← h'.1]; apply itemStable_plain <;> decide
  | a :: b, h' =>
    have := congrArg List.length h'
    simp at this

example : read .opus ⟨.strict, true, true⟩ ((page 2 0 0 ident).asBytes ++ (page 0 0 1 newComments).asBytes ++ (audio1.asBytes ++ audio2.asBytes))
    = .ok ⟨str "libopus", [(str "ARTIST", str "a")], []⟩ := by
  refine save_read (c := leBytes 4 7 ++ (ascii "libopus" ++ (leBytes 4 1 ++ leBytes 4 7 ++ ascii "TITLE=x"))) opus_saved opus_headed
    ⟨_, rfl⟩ (by simp) (by decide) ⟨ascii "libopus", _, by decide, rfl, .inl (by decide +kernel)⟩ (by decide) newTag_stable
    (by decide) (fun p hp => by cases hp) ?_
  intro new h
  have h2 : createPacket { newTag with vendor := str "libopus" } Format.opus.sig Format.opus.framing = .ok newComments := by decide +kernel
  rw [h2] at h
  obtain rfl := (Except.ok.injEq _ _).mp h
  decide

example : ∃ g, write .opus newTag opus = .ok g := by
  refine save_succeeds (first := ⟨0, 2, 0, 7, 0, [UInt8.ofNat ident.length], (page 2 0 0 ident).header.checksum⟩)
    (c := leBytes 4 7 ++ (ascii "libopus" ++ (leBytes 4 1 ++ leBytes 4 7 ++ ascii "TITLE=x")))
    (d1 := ident ++ ((page 0 0 1 oldComments).asBytes ++ (audio1.asBytes ++ audio2.asBytes))) (by decide +kernel) opus_headed
    (by decide) ⟨ascii "libopus", _, by decide, rfl, .inl (by decide +kernel)⟩ (vendor := str "libopus") (new := newComments) (by decide +kernel)
    audio_paged ?_
  intro heads h
  rw [paginate_eq] at h
  obtain rfl := (Except.ok.injEq _ _).mp h
  rw [pagesOf_closed, List.length_mapIdx]
  have := pieces_sum [ident, newComments]
  have h2 : ([ident, newComments] : List Bytes).flatten.length ≤ 1000 := by decide
  simp only [List.length_cons, List.length_nil] at *
  omega

theorem noMarker_of {f : Bytes} {n : Nat}
    (h : ∀ k < n, ((f.drop (f.length - n + 1)).drop k).take 4 ≠ ascii "OggS") : NoMarker f n := by
  intro j hj
  by_cases hk : j - (f.length - n + 1) < n
  · have := h _ hk
    rw [List.drop_drop, show f.length - n + 1 + (j - (f.length - n + 1)) = j by omega] at this
    exact this
  · rw [List.drop_eq_nil_of_le (by omega)]
    decide

example (old new : Opus) (h : readOpus opus true = .ok old)
    (h' : readOpus ((page 2 0 0 ident).asBytes ++ (page 0 0 1 newComments).asBytes ++ (audio1.asBytes ++ audio2.asBytes)) true = .ok new) :
    new = { old with overall := new.overall, audio := new.audio } :=
  save_opus (qs := [audio1]) opus_saved opus_headed audio_paged (by decide)
    (first := ⟨0, 2, 0, 7, 0, [UInt8.ofNat ident.length], (page 2 0 0 ident).header.checksum⟩)
    (d1 := ident ++ ((page 0 0 1 oldComments).asBytes ++ (audio1.asBytes ++ audio2.asBytes))) (by decide +kernel) rfl
    (noMarker_of (by decide +kernel)) (noMarker_of (by decide +kernel)) h h'

example : readOpus opus true = .ok ⟨34, 40, 28, 2, 3, 1, 48000, 0⟩ := by decide +kernel

/-! ## What goes wrong -/

/-- **C59 fails** for damaged files: a single byte between two pages, and all audio behind it is gone. -/
theorem damage_cuts : write .opus newTag (front ++ (audio1.asBytes ++ ([0] ++ audio2.asBytes)))
    = .ok ((page 2 0 0 ident).asBytes ++ (page 0 0 1 newComments).asBytes ++ audio1.asBytes) := by
  decide +kernel

/-- **C59 fails** if the first audio packet begins on the page on which the comments end: all audio is gone. -/
theorem shared_page_cuts : write .opus newTag ((page 2 0 0 ident).asBytes ++
      ((Page.genCrc ⟨oldComments ++ [0xFC, 1, 2, 3], ⟨0, 0, 960, 7, 1, [UInt8.ofNat oldComments.length, 4], 0⟩, 0⟩).asBytes ++
        audio2.asBytes))
    = .ok ((page 2 0 0 ident).asBytes ++ (page 0 0 1 newComments).asBytes) := by
  decide +kernel

/-- The pages of another stream in the same file get numbers of this stream. -/
theorem other_stream_renumbered : ∃ q : Page, q.header.serial = 8 ∧ q.header.seq = 0 ∧
    write .opus newTag (front ++ (audio1.asBytes ++ q.genCrc.asBytes))
      = .ok ((page 2 0 0 ident).asBytes ++ (page 0 0 1 newComments).asBytes ++ audio1.asBytes ++ (numbered 3 q).genCrc.asBytes) := by
  refine ⟨⟨[1, 2, 3], ⟨0, 2, 0, 8, 0, [3], 0⟩, 0⟩, rfl, rfl, ?_⟩
  decide +kernel

/-- The vendor string of a tag is never saved. -/
theorem vendor_ignored (fmt : Format) (t : Tag) (v : Str) (f : Bytes) : write fmt { t with vendor := v } f = write fmt t f := rfl

end Lofty.OggWrite
