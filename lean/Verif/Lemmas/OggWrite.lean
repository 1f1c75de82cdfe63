import Verif.Spec.OggWrite
import Verif.Lemmas.OggProps
import Verif.Props.Vorbis
import Verif.Props.OggProps
/-! Helper lemmas for C59: saving comments to an OGG file. -/
namespace Lofty.OggWrite
open Lofty.Ogg Lofty.OggProps Lofty.Vorbis

theorem genCrc_valid {q : Page} (h1 : q.header.abgp < 2 ^ 64) (h2 : q.header.serial < 2 ^ 32) (h3 : q.header.seq < 2 ^ 32)
    (h4 : 1 ≤ q.header.segments.length) (h5 : q.header.segments.length ≤ 255)
    (h6 : q.content.length = (q.header.segments.map UInt8.toNat).sum) : q.genCrc.Valid :=
  ⟨h1, h2, h3, (genCrc_spec q).2.2.2.1, h4, h5, h6⟩

theorem numbered_valid {q : Page} (h : q.Valid) {n : Nat} (hn : n < 2 ^ 32) : (numbered n q).genCrc.Valid :=
  genCrc_valid h.abgp h.serial hn h.segs_pos h.segs_le h.content

theorem pageFor_valid {q : Page} {x : Piece} (h : PageFor q x) (hl : x.data.length ≤ 8160) : q.genCrc.Valid := by
  have h1 := pieceSegments_length x.data hl
  refine genCrc_valid h.abgp h.serial h.seq ?_ ?_ ?_
  · rw [h.segs]; omega
  · rw [h.segs]; omega
  · rw [h.segs, h.content, pieceSegments_sum]

theorem header_front {q : Page} (h : q.Valid) (rest : Bytes) :
    PageHeader.read 0 (q.asBytes ++ rest) = .ok ({ q.header with start := 0 }, q.content ++ rest) := by
  rw [← header_read 0 q.header (q.content ++ rest) h.segs_pos h.segs_le h.abgp h.serial h.seq h.checksum]
  simp [Page.asBytes]

theorem asBytes_length (q : Page) : 27 ≤ q.asBytes.length := by
  have : (ascii "OggS").length = 4 := by decide
  simp [Page.asBytes, this]
  omega

/-- Every sequence of bytes begins with some pages, maybe none. -/
theorem paged_exists : ∀ (n : Nat) (d : Bytes), d.length ≤ n → ∃ qs junk, Paged d qs junk
  | 0, d, h => ⟨[], d, by simp, by simp, fun q r _ e => by
      have h1 := congrArg List.length e
      have h2 := asBytes_length q
      rw [List.length_append] at h1
      omega⟩
  | n + 1, d, h => by
    cases hr : Page.read 0 d with
    | error e =>
      refine ⟨[], d, by simp, by simp, fun q r hq he => ?_⟩
      rw [he, page_write_read q hq] at hr
      cases hr
    | ok x =>
      obtain ⟨p, d'⟩ := x
      obtain ⟨hv, he, _, _⟩ := page_read_write hr
      have hl := congrArg List.length he
      have h27 := asBytes_length p
      rw [List.length_append] at hl
      obtain ⟨qs, junk, hq⟩ := paged_exists n d' (by omega)
      refine ⟨p :: qs, junk, ?_, ?_, hq.stop⟩
      · rw [← he, hq.bytes]
        simp
      · intro q hm
        rcases List.mem_cons.mp hm with rfl | hm
        · exact hv
        · exact hq.valid q hm

theorem no_page {junk : Bytes} (h : ∀ (q : Page) (r : Bytes), q.Valid → junk ≠ q.asBytes ++ r) :
    ∃ e, Page.read 0 junk = .error e := by
  cases hr : Page.read 0 junk with
  | error e => exact ⟨e, rfl⟩
  | ok x =>
    obtain ⟨hv, he, _⟩ := page_read_write (p := x.1) (rest := x.2) hr
    exact absurd he.symm (h _ _ hv)

/-- The loop over the remaining pages. -/
theorem renumber_eq : ∀ (qs : List Page) (d junk : Bytes) (fuel s : Nat), Paged d qs junk → d.length < fuel →
    renumber fuel s d = if qs = [] ∨ s + qs.length ≤ 2 ^ 32 then .ok (run s qs) else .error .panic
  | [], d, junk, 0, s, h, hf => by omega
  | [], d, junk, fuel + 1, s, h, hf => by
    obtain ⟨e, he⟩ := no_page h.stop
    have hd : d = junk := by simpa using h.bytes
    rw [renumber, hd, he, if_pos (.inl rfl)]
    rfl
  | q :: qs, d, junk, 0, s, h, hf => by omega
  | q :: qs, d, junk, fuel + 1, s, h, hf => by
    have hd : d = q.asBytes ++ ((qs.map Page.asBytes).flatten ++ junk) := by
      rw [h.bytes]
      simp
    have h27 := asBytes_length q
    have hl := congrArg List.length hd
    rw [List.length_append] at hl
    rw [renumber, hd, page_write_read q (h.valid q (by simp))]
    simp only
    by_cases hs : 2 ^ 32 ≤ s
    · rw [if_pos hs, if_neg]
      simp only [reduceCtorEq, List.length_cons, false_or]
      omega
    · rw [if_neg hs, renumber_eq qs _ junk fuel (s + 1) ⟨rfl, fun q hq => h.valid q (by simp [hq]), h.stop⟩ (by omega)]
      by_cases hc : qs = [] ∨ s + 1 + qs.length ≤ 2 ^ 32
      · rw [if_pos hc, if_pos]
        · rw [run, Nat.mod_eq_of_lt (by omega)]
          rfl
        · right
          rw [List.length_cons]
          rcases hc with rfl | hc
          · simp only [List.length_nil]; omega
          · omega
      · rw [if_neg hc, if_neg]
        · rfl
        · simp only [not_or, reduceCtorEq, not_false_eq_true, List.length_cons, true_and] at hc ⊢
          omega

theorem run_append (n : Nat) (a b : List Page) : run n (a ++ b) = run n a ++ run (n + a.length) b := by
  induction a generalizing n with
  | nil => simp [run]
  | cons q a ih =>
    simp only [List.cons_append, run, ih, List.length_cons, List.append_assoc]
    congr 3
    omega

theorem run_mod (n : Nat) (qs : List Page) : run (n % 2 ^ 32) qs = run n qs := by
  have h : ∀ (m n : Nat) (qs : List Page), m % 2 ^ 32 = n % 2 ^ 32 → run m qs = run n qs := by
    intro m n qs
    induction qs generalizing m n with
    | nil => intro _; rfl
    | cons q qs ih =>
      intro h
      rw [run, run, h, ih (m + 1) (n + 1) (by omega)]
  exact h _ _ _ (by omega)

/-- Pages that carry their numbers already. -/
theorem run_numbers {n : Nat} {qs : List Page} (h : ∀ i q, qs[i]? = some q → q.header.seq = (n + i) % 2 ^ 32) :
    (qs.map fun q => q.genCrc.asBytes).flatten = run n qs := by
  induction qs generalizing n with
  | nil => rfl
  | cons q qs ih =>
    have h0 := h 0 q rfl
    have e : numbered (n % 2 ^ 32) q = q := by
      unfold numbered
      rw [Nat.add_zero] at h0
      rw [← h0]
    rw [List.map_cons, List.flatten_cons, run, e, ih (n := n + 1) (fun i q hq => by
      rw [h (i + 1) q (by simpa using hq)]
      congr 1
      omega)]

/-- What was written is a sequence of pages again, and numbering those gives the same. -/
theorem run_paged {qs : List Page} (hv : ∀ q ∈ qs, q.Valid) (n : Nat) :
    ∃ qs', Paged (run n qs) qs' [] ∧ qs'.length = qs.length ∧ ∀ k, run k qs' = run k qs := by
  induction qs generalizing n with
  | nil =>
    refine ⟨[], ⟨rfl, by simp, fun q r _ e => ?_⟩, rfl, fun _ => rfl⟩
    have h1 := congrArg List.length e
    have h2 := asBytes_length q
    rw [List.length_append, List.length_nil] at h1
    omega
  | cons q qs ih =>
    obtain ⟨qs', h1, h2, h3⟩ := ih (fun x hx => hv x (by simp [hx])) (n + 1)
    refine ⟨(numbered (n % 2 ^ 32) q).genCrc :: qs', ⟨?_, ?_, h1.stop⟩, by simp [h2], fun k => ?_⟩
    · rw [run, h1.bytes]
      simp
    · intro x hx
      rcases List.mem_cons.mp hx with rfl | hx
      · exact numbered_valid (hv q (by simp)) (Nat.mod_lt _ (by decide))
      · exact h1.valid x hx
    · rw [run, run, h3]
      congr 1

theorem holds_readCount {d : Bytes} {count : Nat} (h0 : 0 < count) {p : Packets} {rest : Option Bytes}
    (h : Packets.readCount d count = .ok (p, rest)) :
    ∃ r ps, rest = some r ∧ p.Holds ps ∧ ps.length = count ∧ r.length ≤ d.length := by
  obtain ⟨r, h1, h2, h3, h4⟩ := readCount_sound h0 h
  obtain ⟨ps, hp⟩ := holds_exists p h3
  refine ⟨r, ps, h1, hp, ?_, by omega⟩
  rw [← h4, hp.1, List.length_map]

theorem two_le (fmt : Format) : 2 ≤ fmt.count := by
  cases fmt <;> decide

theorem two_packets {l : List Bytes} (h : 2 ≤ l.length) : ∃ a b c, l = a :: b :: c := by
  match l, h with
  | a :: b :: c, _ => exact ⟨a, b, c, rfl⟩

theorem oldVendor_eq {c : Bytes} {v : Str} : oldVendor c = .ok v ↔ VendorIs c v := by
  constructor
  · intro h
    unfold oldVendor at h
    obtain ⟨⟨n, b⟩, h1, h⟩ := bind_ok h
    obtain ⟨⟨raw, more⟩, h2, h⟩ := bind_ok h
    have h9 : (fromUtf8 raw).getD [] = v := (Except.ok.injEq _ _).mp h
    obtain ⟨a, rfl, l1, rfl⟩ := readLE_ok h1
    obtain ⟨rfl, l2⟩ := readN_ok h2
    have hb := leBytes_fromLE a
    rw [l1] at hb
    have hlt := fromLE_lt a
    rw [l1] at hlt
    refine ⟨raw, more, by omega, by rw [l2, hb], ?_⟩
    cases hu : fromUtf8 raw with
    | some s =>
      rw [hu] at h9
      left
      rw [← h9]
      exact utf8_fromUtf8 hu
    | none =>
      rw [hu] at h9
      refine .inr ⟨fun s hs => ?_, h9.symm⟩
      rw [← hs, fromUtf8_utf8] at hu
      cases hu
  · rintro ⟨raw, more, hl, rfl, hv⟩
    unfold oldVendor
    rw [readLE_append _ (by omega), ok_bind]
    simp only
    rw [readN_append _ _ rfl, ok_bind]
    simp only [Except.ok.injEq]
    rcases hv with rfl | ⟨hv, rfl⟩
    · rw [fromUtf8_utf8]
      rfl
    · cases hu : fromUtf8 raw with
      | some s => exact absurd (utf8_fromUtf8 hu) (hv s)
      | none => rfl

theorem hasSignature_eq {c sig : Bytes} : hasSignature c sig = true ↔ ∃ r, c = sig ++ r := by
  unfold hasSignature
  rw [decide_eq_true_iff]
  constructor
  · rintro ⟨_, h⟩
    exact ⟨c.drop sig.length, by conv => lhs; rw [← List.take_append_drop sig.length c, h]⟩
  · rintro ⟨r, rfl⟩
    exact ⟨by simp, List.take_left⟩

/-- What `create_metadata_packet` puts in front: signature, vendor. -/
theorem createPacket_front {t : Tag} {sig : Bytes} {framing : Bool} {p : Bytes} (h : createPacket t sig framing = .ok p) :
    ∃ r, p = sig ++ (leBytes 4 (utf8 t.vendor).length ++ (utf8 t.vendor ++ r)) := by
  unfold createPacket at h
  obtain ⟨⟨cb, n⟩, _, h⟩ := bind_ok h
  obtain ⟨⟨pb, m⟩, _, h⟩ := bind_ok h
  simp only [Except.ok.injEq] at h
  exact ⟨leBytes 4 (n + m) ++ cb ++ pb ++ (if framing then [1] else []), by rw [← h]; simp⟩

theorem readN_suffix {n : Nat} {d a d' : Bytes} (h : readN n d = .ok (a, d')) : d' <:+ d := by
  obtain ⟨rfl, _⟩ := readN_ok h
  exact List.suffix_append _ _

theorem readSegments_suffix {count : Int} (segs : List UInt8) {st st' : ReadState} {d d' : Bytes}
    {b : Bool} (h : readSegments count segs st d = .ok (st', d', b)) : d' <:+ d := by
  induction segs generalizing st d with
  | nil => cases h; exact List.suffix_refl _
  | cons i segs ih =>
    simp only [readSegments] at h
    split at h
    · obtain ⟨⟨c, d1⟩, h1, h2⟩ := bind_ok h
      have h3 := readN_suffix h1
      simp only at h2
      split at h2
      · cases h2; exact h3
      · exact (ih h2).trans h3
    · exact ih h

theorem readPages_suffix {count : Int} (fuel : Nat) {st st' : ReadState} {d r : Bytes}
    (h : readPages count fuel st d = .ok (st', some r)) : r <:+ d := by
  induction fuel generalizing st d with
  | zero => cases h
  | succ fuel ih =>
    rw [readPages] at h
    cases hr : PageHeader.read 0 d with
    | error e => rw [hr] at h; cases h
    | ok v =>
      obtain ⟨hd, d1⟩ := v
      rw [hr] at h
      simp only at h
      have h0 : d1 <:+ d := by
        rw [(header_read_ok hr).1]
        exact List.suffix_append _ _
      obtain ⟨⟨st1, d2, stop⟩, h1, h2⟩ := bind_ok h
      have h3 := readSegments_suffix _ h1
      simp only at h2
      split at h2
      · cases h2; exact h3.trans h0
      · split at h2
        · obtain ⟨⟨c, d3⟩, h4, h5⟩ := bind_ok h2
          exact ((ih h5).trans (readN_suffix h4)).trans (h3.trans h0)
        · exact (ih h2).trans (h3.trans h0)

/-- What follows the header packets is the end of the file. -/
theorem headed_suffix {fmt : Format} {f : Bytes} {ps : List Bytes} {r : Bytes} (h : Headed fmt f ps r) : r <:+ f := by
  obtain ⟨p, h1, _⟩ := h
  unfold Packets.readCount at h1
  rw [if_neg (by have := two_le fmt; omega)] at h1
  obtain ⟨⟨st, rest⟩, h2, h3⟩ := bind_ok h1
  simp only at h3
  split at h3
  · cases h3
  · simp only [Except.ok.injEq, Prod.mk.injEq] at h3
    obtain ⟨_, rfl⟩ := h3
    exact readPages_suffix _ h2

/-- The page found from the end is the last one. -/
theorem last_found {a : Bytes} {q : Page} {lo : Nat} (hv : q.Valid) (ha : NoMarker (a ++ q.asBytes) q.asBytes.length)
    (hlo : lo ≤ a.length) : ∃ p, findLastPage (a ++ q.asBytes) lo = .ok p ∧ p.header.abgp = q.header.abgp := by
  have hr := page_write_read q hv a.length []
  rw [List.append_nil] at hr
  have hf := findLast_found (f := a ++ q.asBytes) hlo (by rw [List.drop_left]; exact hr) (fun j hj hm =>
    absurd hm (ha j (by rw [List.length_append]; omega)))
  exact ⟨_, hf, rfl⟩

end Lofty.OggWrite
