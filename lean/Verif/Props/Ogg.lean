import Verif.Lemmas.OggPackets
import Verif.Props.OggCrc
/-!
# C07, C09, C10, C11 (and the page part of C08): OGG pages and packets
-/
namespace Lofty.Ogg

/-! ## C07: page round trip -/

/-- The conditions a page has to meet to be representable: header fields fit their
widths, 1 to 255 segments, content as long as the segment table says. -/
structure Page.Valid (p : Page) : Prop where
  abgp : p.header.abgp < 2 ^ 64
  serial : p.header.serial < 2 ^ 32
  seq : p.header.seq < 2 ^ 32
  checksum : p.header.checksum < 2 ^ 32
  segs_pos : 1 ≤ p.header.segments.length
  segs_le : p.header.segments.length ≤ 255
  content : p.content.length = (p.header.segments.map UInt8.toNat).sum

/-- C07: writing a valid page and reading it back from position `pos` gives the same
page (with its start and end set to where it was read), whatever follows. -/
theorem page_write_read (p : Page) (hv : p.Valid) (pos : Nat) (rest : Bytes) :
    Page.read pos (p.asBytes ++ rest)
      = .ok ({ content := p.content, header := { p.header with start := pos },
               stop := pos + p.asBytes.length }, rest) := by
  have h := header_read pos p.header (p.content ++ rest) hv.segs_pos hv.segs_le hv.abgp hv.serial
    hv.seq hv.checksum
  have e : p.asBytes ++ rest = ascii "OggS" ++ [0] ++ [p.header.flag] ++ leBytes 8 p.header.abgp ++ leBytes 4 p.header.serial
      ++ leBytes 4 p.header.seq ++ leBytes 4 p.header.checksum
      ++ [UInt8.ofNat p.header.segments.length] ++ p.header.segments ++ (p.content ++ rest) := by
    simp [Page.asBytes]
  unfold Page.read
  rw [e, h, ok_bind]
  have hn : readN (PageHeader.contentSize { p.header with start := pos }) (p.content ++ rest)
      = .ok (p.content, rest) := by
    have : PageHeader.contentSize { p.header with start := pos } = p.content.length := hv.content.symm
    rw [this]; exact readN_append _ _ rfl
  simp only [hn, ok_bind, ← e]
  simp

example : Page.Valid ⟨[1, 2, 3], ⟨0, 2, 7, 9, 0, [3], 5⟩, 31⟩ :=
  ⟨by decide, by decide, by decide, by decide, by decide, by decide, by decide⟩

/-- C07, converse: a page that was read is valid, and writing it gives back exactly the
bytes it was read from. -/
theorem page_read_write {pos : Nat} {d rest : Bytes} {p : Page} (h : Page.read pos d = .ok (p, rest)) :
    p.Valid ∧ p.asBytes ++ rest = d ∧ p.header.start = pos ∧ p.stop = pos + p.asBytes.length := by
  unfold Page.read at h
  obtain ⟨⟨hd, d'⟩, h1, h2⟩ := bind_ok h
  obtain ⟨⟨c, d''⟩, h3, h4⟩ := bind_ok h2
  simp only [Except.ok.injEq, Prod.mk.injEq] at h4
  obtain ⟨h4, rfl⟩ := h4
  subst h4
  obtain ⟨e1, a1, a2, a3, a4, a5, a6, a7⟩ := header_read_ok h1
  obtain ⟨e2, l2⟩ := readN_ok h3
  have hb : Page.asBytes ⟨c, hd, pos + (d.length - d''.length)⟩ ++ d'' = d := by
    simp only [Page.asBytes, List.append_assoc]
    rw [e1, e2]
    simp
  refine ⟨⟨a3, a4, a5, a6, a1, a2, l2⟩, hb, a7, ?_⟩
  have := congrArg List.length hb
  simp only [List.length_append] at this
  simp only
  omega

/-- C08: `gen_crc` stores the CRC-32 of the page as written with a zero checksum field,
changes nothing else, and a reader that zeroes the four checksum bytes of the written
page recomputes the stored value. -/
theorem genCrc_spec (p : Page) :
    p.genCrc.content = p.content ∧ p.genCrc.stop = p.stop ∧
    p.genCrc.header = { p.header with checksum := p.genCrc.header.checksum } ∧
    p.genCrc.header.checksum < 2 ^ 32 ∧
    ((p.genCrc.asBytes.drop 22).take 4) = leBytes 4 p.genCrc.header.checksum ∧
    (crcSpec (bitsOf (p.genCrc.asBytes.take 22 ++ [0, 0, 0, 0] ++ p.genCrc.asBytes.drop 26))).toNat
      = p.genCrc.header.checksum := by
  have split26 : ∀ q : Page, q.asBytes = (ascii "OggS" ++ [0] ++ [q.header.flag] ++ leBytes 8 q.header.abgp
        ++ leBytes 4 q.header.serial ++ leBytes 4 q.header.seq) ++ (leBytes 4 q.header.checksum
        ++ ([UInt8.ofNat q.header.segments.length] ++ q.header.segments ++ q.content)) := by
    intro q; simp [Page.asBytes]
  have l22 : ∀ q : Page, (ascii "OggS" ++ [0] ++ [q.header.flag] ++ leBytes 8 q.header.abgp
        ++ leBytes 4 q.header.serial ++ leBytes 4 q.header.seq).length = 22 := by
    intro q; simp
  refine ⟨rfl, rfl, rfl, ?_, ?_, ?_⟩
  · show (crc32 _).toNat < _
    exact (crc32 _).isLt
  · rw [split26, List.drop_left' (l22 _)]
    rw [List.take_left' (by simp)]
  · rw [← crc32_eq_spec]
    show _ = (crc32 _).toNat
    congr 2
    have e26 : p.genCrc.asBytes.drop 26 = ((p.genCrc.asBytes.drop 22).drop 4) := by
      rw [List.drop_drop]
    rw [e26, split26 p.genCrc, List.drop_left' (l22 _), List.take_left' (l22 _),
      List.drop_left' (by simp)]
    conv => rhs; rw [split26]
    have e0 : leBytes 4 0 = [0, 0, 0, 0] := by decide
    simp [e0, Page.genCrc]

/-! ## C09: paginate, write, read back -/

/-- C09: for non-empty packets, any stream serial and granule position of the right
width and any flags, pagination succeeds, and reading all packets from the written
pages gives the packets back in order. -/
theorem paginate_read (ps : List Bytes) (hne : ∀ p ∈ ps, p ≠ []) (serial abgp : Nat) (flags : UInt8)
    (hs : serial < 2 ^ 32) (ha : abgp < 2 ^ 64) :
    ∃ pages, paginate ps serial abgp flags = .ok pages ∧
      Packets.read (pages.map fun q => q.genCrc.asBytes).flatten
        = .ok (⟨ps.flatten, ps.map List.length⟩, none) ∧
      Packets.iter ⟨ps.flatten, ps.map List.length⟩ = .ok ps := by
  refine ⟨_, paginate_eq _ _ _ _, ?_, ?_⟩
  · unfold Packets.read Packets.readCount
    rw [if_neg (by decide)]
    have hq : List.Forall₂ PageFor (pagesOf ps serial abgp flags) (ps.flatMap piecesOf) := by
      rw [pagesOf_closed]
      exact forall₂_mapIdx _ _ (fun i x => finalPage_for _ _ _ _ _ _ hs ha)
    have h := readPages_packets (-1) ps hne _ hq ⟨[], [], 0, 0, none⟩ []
      ((pagesBytes (pagesOf ps serial abgp flags) ++ []).length + 1) (by omega) ⟨rfl, rfl⟩
      (Or.inl ⟨rfl, rfl⟩)
    simp only [List.append_nil] at h
    show (readPages (-1) ((pagesBytes (pagesOf ps serial abgp flags)).length + 1) _
      (pagesBytes (pagesOf ps serial abgp flags)) >>= _) = _
    rw [h]
    simp [readPages, PageHeader.read, readN]
  · have := iterFrom_flatten ps []
    rw [List.append_nil] at this
    exact this

example : ∀ p ∈ [[1, 2, 3], List.replicate 600 (7 : UInt8), [9]], p ≠ [] := by decide

/-- Reading as many packets as the pages carry, whatever comes after them. -/
theorem readCount_pages (ps : List Bytes) (hp : ps ≠ []) (hne : ∀ p ∈ ps, p ≠ []) (q1 : List Page)
    (h1 : List.Forall₂ PageFor q1 (ps.flatMap piecesOf)) (rest : Bytes) :
    Packets.readCount (pagesBytes q1 ++ rest) ps.length = .ok (⟨ps.flatten, ps.map List.length⟩, some rest) := by
  obtain ⟨ps', p, rfl⟩ : ∃ ps' p, ps = ps' ++ [p] :=
    ⟨ps.dropLast, ps.getLast hp, (List.dropLast_append_getLast hp).symm⟩
  rw [List.flatMap_append] at h1
  obtain ⟨q3, q4, h3, h4, rfl⟩ := forall₂_append h1
  have hpe : piecesOf p = split true 0 p := by
    have : p ≠ [] := hne p (by simp)
    simp [piecesOf, this]
  simp only [List.flatMap_cons, List.flatMap_nil, List.append_nil, hpe] at h4
  have eb : pagesBytes (q3 ++ q4) ++ rest = pagesBytes q3 ++ (pagesBytes q4 ++ rest) := by
    simp [pagesBytes]
  have hlen : ((ps' ++ [p]).length : Int) = ps'.length + 1 := by simp
  rw [eb, hlen]
  unfold Packets.readCount
  rw [if_neg (by omega)]
  rw [readPages_packets _ ps' (fun p hp => hne p (by simp [hp])) q3 h3 _ _ _ (by omega) ⟨rfl, rfl⟩
    (Or.inr ⟨by omega, by simp⟩)]
  rw [readPages_packet _ p true 0 q4 h4 _ 0 _ _ (by omega) ⟨rfl, rfl⟩]
  have hb : bumpRead ((ps'.length : Int) + 1) (if ((ps'.length : Int) + 1) = -1 then 0 else 0 + (ps'.length : Int))
      = (ps'.length : Int) + 1 := by
    rw [if_neg (by omega), bumpRead, if_pos (by omega)]; omega
  simp only [hb, if_true, ok_bind]
  rw [if_neg (by simp)]
  simp

/-- C09: reading exactly `k` packets from a stream that starts with the pages of at
least `k` non-empty packets returns the first `k` of them whatever comes after the
pages, and leaves the reader at the first page of the next packet. -/
theorem paginate_readCount (ps qs : List Bytes) (hp : ps ≠ []) (hne : ∀ p ∈ ps ++ qs, p ≠ [])
    (serial abgp : Nat) (flags : UInt8) (hs : serial < 2 ^ 32) (ha : abgp < 2 ^ 64) (rest : Bytes) :
    ∃ pagesP pagesQ, paginate (ps ++ qs) serial abgp flags = .ok (pagesP ++ pagesQ) ∧
      (pagesP.map fun q => q.content).flatten = ps.flatten ∧
      Packets.readCount (((pagesP ++ pagesQ).map fun q => q.genCrc.asBytes).flatten ++ rest) ps.length
        = .ok (⟨ps.flatten, ps.map List.length⟩,
            some ((pagesQ.map fun q => q.genCrc.asBytes).flatten ++ rest)) := by
  have hq : List.Forall₂ PageFor (pagesOf (ps ++ qs) serial abgp flags) ((ps ++ qs).flatMap piecesOf) := by
    rw [pagesOf_closed]
    exact forall₂_mapIdx _ _ (fun i x => finalPage_for _ _ _ _ _ _ hs ha)
  rw [List.flatMap_append] at hq
  obtain ⟨q1, q2, h1, h2, he⟩ := forall₂_append hq
  refine ⟨q1, q2, by rw [paginate_eq, he], ?_, ?_⟩
  · have hc : q1.map (fun q => q.content) = (ps.flatMap piecesOf).map Piece.data := by
      clear hq h2 he hne hp
      revert h1
      generalize ps.flatMap piecesOf = l
      intro h1
      induction h1 with
      | nil => rfl
      | cons hx _ ih => simp [hx.content, ih]
    rw [hc]
    clear hq h1 h2 he hne hp hc
    induction ps with
    | nil => rfl
    | cons p ps ih =>
      rw [List.flatMap_cons, List.map_append, List.flatten_append, ih, piecesOf_data,
        List.flatten_cons]
  · have eb : ((q1 ++ q2).map fun q => q.genCrc.asBytes).flatten ++ rest
        = pagesBytes q1 ++ ((q2.map fun q => q.genCrc.asBytes).flatten ++ rest) := by
      have : ∀ l : List Page, (l.map fun q => q.genCrc.asBytes).flatten = pagesBytes l := fun _ => rfl
      rw [this, this]
      simp [pagesBytes]
    rw [eb]
    exact readCount_pages ps hp (fun p hp => hne p (by simp [hp])) q1 h1 _

example : Packets.readCount (([⟨[1, 2, 3], ⟨0, 0, 0, 5, 0, [3], 0⟩, 3⟩, ⟨[9], ⟨3, 0, 0, 5, 1, [1], 0⟩, 4⟩] :
    List Page).map fun q => q.genCrc.asBytes).flatten 1
    = .ok (⟨[1, 2, 3], [3]⟩, some (Page.genCrc ⟨[9], ⟨3, 0, 0, 5, 1, [1], 0⟩, 4⟩).asBytes) := by
  decide +kernel

/-- C09: reading packets always terminates: the iteration bound of the model is never
what stops it. -/
theorem readCount_terminates (d : Bytes) (count : Int) : Packets.readCount d count ≠ .error .diverge := by
  unfold Packets.readCount
  split
  · simp
  · intro h
    cases hr : readPages count (d.length + 1) ⟨[], [], 0, 0, none⟩ d with
    | error e =>
      rw [hr, error_bind] at h
      cases h
      exact readPages_no_diverge _ _ _ _ (by omega) hr
    | ok x =>
      rw [hr, ok_bind] at h
      simp only at h
      split at h <;> simp at h

/-! ## C10: pages produced by pagination are well-formed -/

/-- What the pages of one packet have to look like. -/
structure GroupOk (p : Bytes) (g : List Page) : Prop where
  nonempty : g ≠ []
  /-- The page contents make up the packet. -/
  content : (g.map fun q => q.content).flatten = p
  /-- Every page but the last is filled: 32 lacing values of 255. -/
  full : ∀ i q, g[i]? = some q → i + 1 < g.length → q.header.segments = List.replicate 32 255
  /-- The last page ends the packet: at most 32 lacing values, all 255 but the last. -/
  last : ∀ q, g.getLast? = some q → ∃ k r, k < 32 ∧ r < 255 ∧ q.header.segments = List.replicate k 255 ++ [r]
  /-- Every page is as long as its segment table says. -/
  sizes : ∀ q ∈ g, q.content.length = (q.header.segments.map UInt8.toNat).sum
  /-- The continuation flag is set on all pages but the first. -/
  cont : ∀ i q, g[i]? = some q → ((q.header.flag &&& 1 : UInt8) ≠ 0 ↔ i ≠ 0)

/-- The pages of one packet. -/
theorem group_ok (serial abgp : Nat) (flags : UInt8) (total k : Nat) (p : Bytes) (hp : p ≠ []) :
    GroupOk p ((piecesOf p).mapIdx (fun i x => finalPage serial abgp flags total (k + i) x)) := by
  have hpos : 0 < p.length := List.length_pos_iff.mpr hp
  have hget : ∀ i q, ((piecesOf p).mapIdx (fun i x => finalPage serial abgp flags total (k + i) x))[i]? = some q →
      i < p.length / 8160 + 1 ∧ q = finalPage serial abgp flags total (k + i) (pieceAt true 0 p i) := by
    intro i q h
    rw [List.getElem?_mapIdx, piecesOf_closed p hp] at h
    obtain ⟨x, hx, rfl⟩ := Option.map_eq_some_iff.mp h
    rw [List.getElem?_map] at hx
    obtain ⟨j, hj, rfl⟩ := Option.map_eq_some_iff.mp hx
    obtain ⟨h1, h2⟩ := List.getElem?_eq_some_iff.mp hj
    simp at h1 h2
    subst h2
    exact ⟨by omega, rfl⟩
  have hlen : ((piecesOf p).mapIdx (fun i x => finalPage serial abgp flags total (k + i) x)).length
      = p.length / 8160 + 1 := by simp [piecesOf_closed p hp]
  constructor
  · intro h
    rw [h] at hlen
    simp at hlen
  · have : ((piecesOf p).mapIdx (fun i x => finalPage serial abgp flags total (k + i) x)).map (fun q => q.content)
        = (piecesOf p).map Piece.data := by
      apply List.ext_getElem?
      intro i
      simp only [List.getElem?_map, List.getElem?_mapIdx, Option.map_map, Function.comp_def, finalPage_content]
    rw [this, piecesOf_data]
  · intro i q h hi
    obtain ⟨h1, rfl⟩ := hget i q h
    rw [hlen] at hi
    rw [finalPage_segments, pieceSegments, if_pos]
    simp only [pieceAt, List.length_take, List.length_drop]
    omega
  · intro q h
    rw [List.getLast?_eq_getElem?, hlen] at h
    obtain ⟨_, rfl⟩ := hget _ q h
    have hl : (pieceAt true 0 p (p.length / 8160)).data.length < 8160 := by
      simp only [pieceAt, List.length_take, List.length_drop]; omega
    simp only [Nat.add_sub_cancel]
    refine ⟨_, _, ?_, ?_, by rw [finalPage_segments, pieceSegments, if_neg (by omega)]⟩
    · omega
    · have : (pieceAt true 0 p (p.length / 8160)).data.length % 255 < 255 := Nat.mod_lt _ (by decide)
      rw [UInt8.lt_iff_toNat_lt]
      simp
      omega
  · intro q hq
    obtain ⟨i, h⟩ := List.mem_iff_getElem?.mp hq
    obtain ⟨h1, rfl⟩ := hget i q h
    rw [finalPage_content, finalPage_segments, pieceSegments_sum]
  · intro i q h
    obtain ⟨h1, rfl⟩ := hget i q h
    rw [finalPage_flag]
    have hb : ∀ b1 b2 b3 : Bool,
        (((((if b1 then firstPageFlag else if b2 then continuedPacket else 0) |||
            (if b3 then lastPageFlag else 0)) &&& 1 : UInt8) ≠ 0) ↔ b1 = false ∧ b2 = true) := by
      decide +kernel
    have h := hb ((k + i == 0) && flags &&& firstPageFlag != 0) (!(pieceAt true 0 p i).starts)
      (decide (flags &&& lastPageFlag = 0x04 ∧ k + i + 1 = total))
    simp only [decide_eq_true_eq] at h
    refine h.trans ?_
    by_cases hi : i = 0 <;> simp [pieceAt, hi]

/-- C10: the pages consist of one well-formed group per non-empty packet, in order;
serial numbers and sequence numbers (modulo 2^32) are right; the first-page flag is on
the first page only, the last-page flag on the last page only, each only if requested;
no other flag bits appear. -/
theorem paginate_wellformed (ps : List Bytes) (serial abgp : Nat) (flags : UInt8) :
    ∃ pages, paginate ps serial abgp flags = .ok pages ∧
      (∃ groups, pages = groups.flatten ∧
        List.Forall₂ (fun g p => GroupOk p g) groups (ps.filter fun p => !p.isEmpty)) ∧
      ∀ i q, pages[i]? = some q →
        q.header.serial = serial ∧ q.header.seq = i % 2 ^ 32 ∧
        ((q.header.flag &&& 2 : UInt8) ≠ 0 ↔ i = 0 ∧ (flags &&& 2 : UInt8) ≠ 0) ∧
        ((q.header.flag &&& 4 : UInt8) ≠ 0 ↔ i + 1 = pages.length ∧ (flags &&& 4 : UInt8) ≠ 0) ∧
        (q.header.flag &&& 0xF8 : UInt8) = 0 := by
  refine ⟨_, paginate_eq _ _ _ _, ?_, ?_⟩
  · rw [pagesOf_closed]
    refine ⟨groupsFrom (finalPage serial abgp flags (ps.flatMap piecesOf).length) 0 ps, ?_, ?_⟩
    · rw [groupsFrom_flatten]
      simp
    · exact groupsFrom_forall _ _ _ _ (fun k p hp => group_ok serial abgp flags _ k p hp)
  · intro i q hq
    rw [pagesOf_closed] at hq ⊢
    rw [List.length_mapIdx]
    rw [List.getElem?_mapIdx] at hq
    obtain ⟨x, hx, rfl⟩ := Option.map_eq_some_iff.mp hq
    rw [finalPage_serial, finalPage_seq, finalPage_flag]
    refine ⟨rfl, rfl, ?_⟩
    have h4 : flags &&& lastPageFlag = 0x04 ↔ (flags &&& 4 : UInt8) ≠ 0 := by
      have : ∀ f : Fin 256, (UInt8.ofNat f.val) &&& lastPageFlag = 0x04 ↔ (UInt8.ofNat f.val &&& 4 : UInt8) ≠ 0 := by
        decide +kernel
      have h := this ⟨flags.toNat, flags.toNat_lt⟩
      simpa using h
    have hb : ∀ b1 b2 b3 : Bool,
        (((((if b1 then firstPageFlag else if b2 then continuedPacket else 0) |||
            (if b3 then lastPageFlag else 0)) &&& 2 : UInt8) ≠ 0) ↔ b1 = true) ∧
        (((((if b1 then firstPageFlag else if b2 then continuedPacket else 0) |||
            (if b3 then lastPageFlag else 0)) &&& 4 : UInt8) ≠ 0) ↔ b3 = true) ∧
        (((if b1 then firstPageFlag else if b2 then continuedPacket else 0) |||
            (if b3 then lastPageFlag else 0)) &&& 0xF8 : UInt8) = 0 := by decide +kernel
    have h := hb ((i == 0) && flags &&& firstPageFlag != 0) (!x.starts)
      (decide (flags &&& lastPageFlag = 0x04 ∧ i + 1 = (ps.flatMap piecesOf).length))
    simp only [decide_eq_true_eq] at h
    refine ⟨h.1.trans ?_, h.2.1.trans ?_, h.2.2⟩
    · simp [firstPageFlag]
    · rw [h4]; exact and_comm

/-- The full C10 asks of the granule position: the given one on pages on which a packet
ends, -1 on all others. -/
def GranulesRight (ps : List Bytes) (serial abgp : Nat) (flags : UInt8) : Prop :=
  ∃ pages, paginate ps serial abgp flags = .ok pages ∧
    ∀ q ∈ pages, q.header.abgp
      = if q.header.segments.any (fun s => decide (s < 255)) then abgp else 2 ^ 64 - 1

/-- C10, granule positions: the given one on pages on which a packet ends and -1 on all
others, provided that no (non-zero) packet length is a multiple of 8160 (see
`paginate_granules_wrong`). -/
theorem paginate_granules_partial (ps : List Bytes) (serial abgp : Nat) (flags : UInt8)
    (hm : ∀ p ∈ ps, p ≠ [] → p.length % 8160 ≠ 0) : GranulesRight ps serial abgp flags := by
  refine ⟨_, paginate_eq _ _ _ _, ?_⟩
  intro q hq
  rw [pagesOf_closed] at hq
  obtain ⟨i, h⟩ := List.mem_iff_getElem?.mp hq
  rw [List.getElem?_mapIdx] at h
  obtain ⟨x, hx, rfl⟩ := Option.map_eq_some_iff.mp h
  have hmem := List.mem_of_getElem? hx
  obtain ⟨p, hp, hxp⟩ := List.mem_flatMap.mp hmem
  have hpn : p ≠ [] := by rintro rfl; simp [piecesOf] at hxp
  rw [piecesOf_closed p hpn] at hxp
  obtain ⟨j, hj, rfl⟩ := List.mem_map.mp hxp
  simp at hj
  have hm' := hm p hp hpn
  rw [finalPage_abgp, finalPage_segments]
  by_cases hl : 8160 * (j + 1) < p.length
  · have : (pieceAt true 0 p j).data.length = 8160 := by
      simp only [pieceAt, List.length_take, List.length_drop]; omega
    have hany : (List.replicate 32 (255 : UInt8)).any (fun s => decide (s < 255)) = false := by decide
    rw [pieceSegments, if_pos this, hany]
    simp [pieceAt, hl, noGranule]
  · have : (pieceAt true 0 p j).data.length < 8160 := by
      simp only [pieceAt, List.length_take, List.length_drop]; omega
    have hne : (pieceAt true 0 p j).data.length ≠ 8160 := by omega
    have hany : (List.replicate ((pieceAt true 0 p j).data.length / 255) (255 : UInt8)
        ++ [UInt8.ofNat ((pieceAt true 0 p j).data.length % 255)]).any (fun s => decide (s < 255)) = true := by
      have h2 : (pieceAt true 0 p j).data.length % 255 < 255 := Nat.mod_lt _ (by decide)
      simp only [List.any_append, List.any_cons, List.any_nil, Bool.or_false, Bool.or_eq_true,
        decide_eq_true_eq]
      right
      rw [UInt8.lt_iff_toNat_lt]
      simp
      omega
    rw [pieceSegments, if_neg hne, hany]
    simp [pieceAt, hl]

example : ∀ p ∈ [List.replicate 9000 (1 : UInt8), [2, 3]], p ≠ [] → p.length % 8160 ≠ 0 := by
  intro p hp _
  rcases List.mem_cons.mp hp with rfl | hp
  · rw [List.length_replicate]; decide
  · have : p = [2, 3] := by simpa using hp
    subst this; decide

/-- A packet of 8160 bytes: its first page is full, the packet does not end on it (it
ends on the page with the single lacing value 0 that follows), and yet the page carries
the granule position instead of -1. -/
theorem paginate_granules_wrong : ¬ GranulesRight [List.replicate 8160 0] 1 5 0 := by
  have hc : (paginate [List.replicate 8160 0] 1 5 0).map
      (fun l => l.all fun q => q.header.abgp
        == if q.header.segments.any (fun s => decide (s < 255)) then 5 else 2 ^ 64 - 1) = .ok false := by
    decide +kernel
  rintro ⟨pages, h, hg⟩
  rw [h] at hc
  simp only [Except.map, Except.ok.injEq] at hc
  rw [← Bool.not_eq_true, List.all_eq_true] at hc
  exact hc (fun q hq => by rw [hg q hq]; exact beq_self_eq_true _)

/-! ## C11: indexed packet access -/

/-- The packets of a container, defined without its offsets: the container holds the
packets `ps` (one after the other, in the order of their sizes). -/
def Packets.Holds (p : Packets) (ps : List Bytes) : Prop :=
  p.sizes = ps.map List.length ∧ ∃ t, p.content = ps.flatten ++ t

/-- C11: every container whose sizes do not exceed its content holds some packets. -/
theorem holds_exists (p : Packets) (h : p.sizes.sum ≤ p.content.length) : ∃ ps, p.Holds ps := by
  obtain ⟨ps, hp⟩ := iterFrom_total h
  exact ⟨ps, iterFrom_ok hp⟩

/-- C11: iterating gives exactly the packets held. -/
theorem iter_holds (p : Packets) (ps : List Bytes) (h : p.Holds ps) : p.iter = .ok ps := by
  obtain ⟨h1, t, h2⟩ := h
  unfold Packets.iter
  rw [h1, h2]
  exact iterFrom_flatten ps t

/-- C11: `get i` is the i-th packet, or nothing if there is none. -/
theorem get_holds (p : Packets) (ps : List Bytes) (h : p.Holds ps) (i : Nat) : p.get i = .ok ps[i]? := by
  obtain ⟨h1, t, h2⟩ := h
  unfold Packets.get Packets.span
  rw [h1, List.getElem?_map]
  cases hi : ps[i]? with
  | none => rfl
  | some q =>
    simp only [Option.map_some]
    have e := split_at_idx ps i q hi
    rw [sum_take_map_length]
    have ef : ps.flatten = (ps.take i).flatten ++ (q ++ (ps.drop (i + 1)).flatten) := by
      conv => lhs; rw [e]
      simp
    rw [h2, ef, if_pos (by simp)]
    simp only [List.append_assoc, Nat.add_sub_cancel_left]
    rw [List.drop_left, List.take_left]

/-- C11: `set i c` replaces the i-th packet and no other, for any new length, and does
nothing (reporting `false`) if there is no i-th packet. -/
theorem set_holds (p : Packets) (ps : List Bytes) (h : p.Holds ps) (i : Nat) (c : Bytes) :
    ∃ p', p.set i c = .ok (p', decide (i < ps.length)) ∧ p'.Holds (ps.set i c) ∧
      (ps.length ≤ i → p' = p) := by
  obtain ⟨h1, t, h2⟩ := h
  unfold Packets.set Packets.span
  rw [h1, List.getElem?_map]
  cases hi : ps[i]? with
  | none =>
    have hl : ps.length ≤ i := List.getElem?_eq_none_iff.mp hi
    refine ⟨p, ?_, ?_, fun _ => rfl⟩
    · simp; omega
    · rw [List.set_eq_of_length_le hl]
      exact ⟨h1, t, h2⟩
  | some q =>
    have hl : i < ps.length := (List.getElem?_eq_some_iff.mp hi).1
    simp only [Option.map_some]
    have e := split_at_idx ps i q hi
    rw [sum_take_map_length]
    have ef : ps.flatten = (ps.take i).flatten ++ (q ++ (ps.drop (i + 1)).flatten) := by
      conv => lhs; rw [e]
      simp
    rw [h2, ef, if_pos (by simp)]
    refine ⟨_, by rw [decide_eq_true hl], ⟨?_, t, ?_⟩, fun h => absurd h (by omega)⟩
    · simp [List.map_set]
    · have es : ps.set i c = ps.take i ++ c :: ps.drop (i + 1) := by
        rw [List.set_eq_take_append_cons_drop, if_pos hl]
      rw [es]
      simp only [List.append_assoc, List.flatten_append, List.flatten_cons]
      rw [List.take_left, ← List.append_assoc (ps.take i).flatten q,
        List.drop_left' (List.length_append)]

/-- Any sequence of replacements, `Packets::set` repeated. -/
def setMany (p : Packets) : List (Nat × Bytes) → Except Err Packets
  | [] => .ok p
  | (i, c) :: ops => do
    let (p, _) ← p.set i c
    setMany p ops

/-- C11: after any sequence of replacements the container holds the list obtained by
the same replacements on a plain list. -/
theorem setMany_holds (ops : List (Nat × Bytes)) (p : Packets) (ps : List Bytes) (h : p.Holds ps) :
    ∃ p', setMany p ops = .ok p' ∧ p'.Holds (ops.foldl (fun l o => l.set o.1 o.2) ps) := by
  induction ops generalizing p ps with
  | nil => exact ⟨p, rfl, h⟩
  | cons o ops ih =>
    obtain ⟨i, c⟩ := o
    obtain ⟨p', h1, h2, _⟩ := set_holds p ps h i c
    obtain ⟨p'', h3, h4⟩ := ih p' _ h2
    exact ⟨p'', by rw [setMany, h1]; exact h3, h4⟩

example : Packets.Holds ⟨[1, 2, 3, 4, 5], [2, 0, 3]⟩ [[1, 2], [], [3, 4, 5]] := ⟨by decide, [], by decide⟩

example : Packets.set ⟨[1, 2, 3, 4, 5], [2, 0, 3]⟩ 1 [9, 9] = .ok (⟨[1, 2, 9, 9, 3, 4, 5], [2, 2, 3]⟩, true) := by
  decide

end Lofty.Ogg
