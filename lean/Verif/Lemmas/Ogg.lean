import Verif.Model.Ogg
import Verif.Lemmas.Bytes
/-! Helper lemmas for C07, C09, C10, C11. -/
namespace Lofty.Ogg

@[simp] theorem oggs_length : (ascii "OggS").length = 4 := by decide

theorem header_read (pos : Nat) (h : PageHeader) (rest : Bytes)
    (h1 : 1 ≤ h.segments.length) (h2 : h.segments.length ≤ 255)
    (ha : h.abgp < 2 ^ 64) (hs : h.serial < 2 ^ 32) (hq : h.seq < 2 ^ 32) (hc : h.checksum < 2 ^ 32) :
    PageHeader.read pos (ascii "OggS" ++ [0] ++ [h.flag] ++ leBytes 8 h.abgp ++ leBytes 4 h.serial
      ++ leBytes 4 h.seq ++ leBytes 4 h.checksum
      ++ [UInt8.ofNat h.segments.length] ++ h.segments ++ rest) = .ok ({ h with start := pos }, rest) := by
  have hn : (UInt8.ofNat h.segments.length).toNat = h.segments.length := by
    rw [UInt8.toNat_ofNat']; exact Nat.mod_eq_of_lt (by omega)
  have hn1 : ¬ UInt8.ofNat h.segments.length < 1 := by
    rw [UInt8.lt_iff_toNat_lt, hn, show (1 : UInt8).toNat = 1 from rfl]; omega
  simp only [PageHeader.read, List.append_assoc, List.cons_append, List.nil_append]
  rw [readN_append _ _ oggs_length, ok_bind]
  simp only [ne_eq, not_true, if_false, readU8_cons, ok_bind]
  rw [readLE_append _ (by simpa using ha), ok_bind]
  simp only
  rw [readLE_append _ (by simpa using hs), ok_bind]
  simp only
  rw [readLE_append _ (by simpa using hq), ok_bind]
  simp only
  rw [readLE_append _ (by simpa using hc), ok_bind]
  simp only [readU8_cons, ok_bind, hn1, if_false, hn]
  rw [readN_append _ _ rfl, ok_bind]

theorem header_read_ok {pos : Nat} {d rest : Bytes} {h : PageHeader}
    (hr : PageHeader.read pos d = .ok (h, rest)) :
    d = ascii "OggS" ++ [0] ++ [h.flag] ++ leBytes 8 h.abgp ++ leBytes 4 h.serial
      ++ leBytes 4 h.seq ++ leBytes 4 h.checksum
      ++ [UInt8.ofNat h.segments.length] ++ h.segments ++ rest
    ∧ 1 ≤ h.segments.length ∧ h.segments.length ≤ 255 ∧ h.abgp < 2 ^ 64 ∧ h.serial < 2 ^ 32
    ∧ h.seq < 2 ^ 32 ∧ h.checksum < 2 ^ 32 ∧ h.start = pos := by
  unfold PageHeader.read at hr
  obtain ⟨⟨sig, d1⟩, e1, hr⟩ := bind_ok hr
  simp only at hr
  split at hr
  · cases hr
  rename_i hsig
  obtain ⟨⟨v, d2⟩, e2, hr⟩ := bind_ok hr
  simp only at hr
  split at hr
  · cases hr
  rename_i hv
  obtain ⟨⟨flag, d3⟩, e3, hr⟩ := bind_ok hr
  simp only at hr
  obtain ⟨⟨abgp, d4⟩, e4, hr⟩ := bind_ok hr
  simp only at hr
  obtain ⟨⟨serial, d5⟩, e5, hr⟩ := bind_ok hr
  simp only at hr
  obtain ⟨⟨seq, d6⟩, e6, hr⟩ := bind_ok hr
  simp only at hr
  obtain ⟨⟨ck, d7⟩, e7, hr⟩ := bind_ok hr
  simp only at hr
  obtain ⟨⟨n, d8⟩, e8, hr⟩ := bind_ok hr
  simp only at hr
  split at hr
  · cases hr
  rename_i hn
  obtain ⟨⟨tab, d9⟩, e9, hr⟩ := bind_ok hr
  simp only [Except.ok.injEq, Prod.mk.injEq] at hr
  obtain ⟨rfl, rfl⟩ := hr
  obtain ⟨rfl, _⟩ := readN_ok e1
  have := readU8_ok e2; subst this
  have := readU8_ok e3; subst this
  obtain ⟨a4, rfl, l4, rfl⟩ := readLE_ok e4
  obtain ⟨a5, rfl, l5, rfl⟩ := readLE_ok e5
  obtain ⟨a6, rfl, l6, rfl⟩ := readLE_ok e6
  obtain ⟨a7, rfl, l7, rfl⟩ := readLE_ok e7
  have := readU8_ok e8; subst this
  obtain ⟨rfl, lt⟩ := readN_ok e9
  have hsig' : sig = ascii "OggS" := by simpa using hsig
  have hv' : v = 0 := by simpa using hv
  subst hsig' hv'
  have b4 := leBytes_fromLE a4
  have b5 := leBytes_fromLE a5
  have b6 := leBytes_fromLE a6
  have b7 := leBytes_fromLE a7
  have c4 := fromLE_lt a4
  have c5 := fromLE_lt a5
  have c6 := fromLE_lt a6
  have c7 := fromLE_lt a7
  rw [l4] at b4 c4
  rw [l5] at b5 c5
  rw [l6] at b6 c6
  rw [l7] at b7 c7
  have hnn : 1 ≤ n.toNat := by
    rw [UInt8.lt_iff_toNat_lt] at hn
    rw [show (1 : UInt8).toNat = 1 from rfl] at hn; omega
  have hn2 := n.toNat_lt
  refine ⟨?_, by simp only; omega, by simp only; omega, by simpa using c4, by simpa using c5,
    by simpa using c6, by simpa using c7, rfl⟩
  simp only [b4, b5, b6, b7, lt, UInt8.ofNat_toNat]
  simp

theorem header_read_lt {pos : Nat} {d rest : Bytes} {h : PageHeader}
    (hr : PageHeader.read pos d = .ok (h, rest)) : rest.length + 28 ≤ d.length := by
  obtain ⟨he, h1, _⟩ := header_read_ok hr
  have := congrArg List.length he
  simp at this
  omega

/-! ## Pagination -/

/-- A piece of a packet that ends up on one page. -/
structure Piece where
  data : Bytes
  offset : Nat
  starts : Bool
  more : Bool

/-- Cut a packet into pieces of 8160 bytes; the last piece is shorter (maybe empty). -/
def split (starts : Bool) (offset : Nat) (p : Bytes) : List Piece :=
  if _h : p.length < 8160 then [⟨p, offset, starts, false⟩]
  else ⟨p.take 8160, offset, starts, decide (8160 < p.length)⟩ ::
    split false (offset + 8160) (p.drop 8160)
termination_by p.length
decreasing_by simp; omega

def piecesOf (p : Bytes) : List Piece := if p.isEmpty then [] else split true 0 p

def pieceSegments (d : Bytes) : Bytes :=
  if d.length = 8160 then List.replicate 32 255
  else List.replicate (d.length / 255) 255 ++ [UInt8.ofNat (d.length % 255)]

def piecePage (serial abgp : Nat) (flags : UInt8) (i : Nat) (x : Piece) : Page :=
  { content := x.data
    header :=
      { start := x.offset
        flag := if (i == 0) && flags &&& firstPageFlag != 0 then firstPageFlag
                else if !x.starts then continuedPacket else 0
        abgp := if x.more then noGranule else abgp
        serial := serial
        seq := i % 2 ^ 32
        segments := pieceSegments x.data
        checksum := 0 }
    stop := x.offset + x.data.length }

/-- The invariant between two pages. -/
structure CtxOk (c : Ctx) : Prop where
  idx : c.idx = c.pages.length
  rem : c.remaining = maxWrittenContent
  fin : c.finished = false
  first : c.firstPage = (c.pages.length == 0)

theorem mapIdx_piecePage_append (serial abgp : Nat) (flags : UInt8) (k : Nat) (xs ys : List Piece) :
    (xs ++ ys).mapIdx (fun i x => piecePage serial abgp flags (k + i) x)
      = xs.mapIdx (fun i x => piecePage serial abgp flags (k + i) x)
        ++ ys.mapIdx (fun i x => piecePage serial abgp flags (k + xs.length + i) x) := by
  rw [List.mapIdx_append]
  congr 1
  apply List.ext_getElem?
  intro i
  simp only [List.getElem?_mapIdx]
  congr 2
  funext x
  congr 1; omega

/-- Flushing a piece appends the page of that piece. -/
theorem flush_piece (c : Ctx) (x : Piece) (hidx : c.idx = c.pages.length)
    (hfirst : c.firstPage = (c.pages.length == 0)) (hfresh : c.fresh = x.starts)
    (hpos : c.pos = x.offset) (hfin : c.finished = !x.more)
    (hlen : x.offset + x.data.length ≤ c.curLen) (hmax : x.data.length ≤ 8160)
    (hseg : x.data.length ≠ 8160 → c.lastSeg = some (UInt8.ofNat (x.data.length % 255))) :
    c.flush x.data = .ok { c with
      pages := c.pages ++ [piecePage c.serial c.abgp c.headerFlags c.pages.length x]
      pos := x.offset + x.data.length, idx := c.idx + 1, finished := false
      remaining := maxWrittenContent } := by
  unfold Ctx.flush
  simp only
  rw [if_neg (by omega), if_neg (by simp [maxWrittenSegments]; omega)]
  have hab : (if c.finished = true then c.abgp else noGranule)
      = (if x.more = true then noGranule else c.abgp) := by
    rw [hfin]; cases x.more <;> simp
  by_cases h8 : x.data.length = 8160
  · have hfull : x.data.length / 255 = maxWrittenSegments := by rw [h8]; rfl
    rw [if_neg (by simp [hfull])]
    simp only [piecePage, pieceSegments, h8, if_true, hpos, hidx, hfirst, hfresh, hab]
    try rfl
  · have hfull : x.data.length / 255 ≠ maxWrittenSegments := by
      simp [maxWrittenSegments]; omega
    rw [if_pos hfull, hseg h8]
    simp only [piecePage, pieceSegments, h8, if_false, hpos, hidx, hfirst, hfresh, hab]

/-- What the loop and the final nil page do with the rest of a packet. -/
def packetTail (fuel : Nat) (c : Ctx) (p : Bytes) : Except Err Ctx := do
  let (c, left) ← paginateLoop fuel c [] p
  let c ← if left.isEmpty then .ok c else c.flush left
  if c.curLen ≠ 0 ∧ c.curLen % (255 * maxWrittenSegments) = 0 then
    ({ c with finished := true } : Ctx).flush []
  else .ok c

theorem loop_nil (fuel : Nat) (c : Ctx) (l : Bytes) : paginateLoop (fuel + 1) c l [] = .ok (c, l) := by
  simp [paginateLoop]

/-- One iteration of the loop when a whole page or the rest of the packet is taken. -/
theorem loop_step (fuel : Nat) (c : Ctx) (p : Bytes) (hp : p ≠ []) (hr : c.remaining = maxWrittenContent) :
    paginateLoop (fuel + 1) c [] p
      = (do
          let c' ← ({ c with remaining := maxWrittenContent - min 8160 p.length,
                             finished := c.finished || decide (p.length ≤ 8160) } : Ctx).flush (p.take 8160)
          paginateLoop fuel { c' with firstPage := false, fresh := false } [] (p.drop 8160)) := by
  have hm : maxWrittenContent = 8160 := rfl
  have hpl : 0 < p.length := List.length_pos_iff.mpr hp
  rw [paginateLoop, if_neg (by simpa using hp)]
  simp only [hr, hm, List.nil_append]
  by_cases h : p.length ≤ 8160
  · have e1 : min 8160 p.length = p.length := by omega
    have e2 : p.take 8160 = p := List.take_of_length_le h
    have e3 : p.drop 8160 = [] := List.drop_eq_nil_of_le h
    simp only [e1, e2, e3, List.take_length, List.drop_length, List.isEmpty_nil, and_true, h,
      if_true, or_true, decide_true, Bool.or_true]
    cases hfl : ({ c with remaining := 8160 - p.length, finished := true } : Ctx).flush p <;> rfl
  · have e1 : min 8160 p.length = 8160 := by omega
    have e4 : (p.drop 8160).isEmpty = false := by
      rw [List.isEmpty_eq_false_iff]
      intro h'
      have := congrArg List.length h'
      simp at this
      omega
    simp only [e1, h, e4, Nat.sub_self, true_or, if_true, decide_false, Bool.or_false,
      Bool.false_eq_true, and_false, if_false]
    cases hfl : ({ c with remaining := 0 } : Ctx).flush (p.take 8160) <;> rfl

theorem packetTail_eq (fuel : Nat) (c : Ctx) (p : Bytes) (hf : p.length < fuel) (hc : CtxOk c)
    (hlen : c.pos + p.length = c.curLen) (hmul : c.pos % 8160 = 0)
    (hls : c.lastSeg = some (UInt8.ofNat (c.curLen % 255)))
    (hne : 0 < c.curLen) (hfr : p = [] → c.pages ≠ []) :
    ∃ c', packetTail fuel c p = .ok c' ∧ CtxOk c' ∧ c'.serial = c.serial ∧ c'.abgp = c.abgp ∧
      c'.headerFlags = c.headerFlags ∧
      c'.pages = c.pages ++ (split c.fresh c.pos p).mapIdx
        (fun i x => piecePage c.serial c.abgp c.headerFlags (c.pages.length + i) x) := by
  induction fuel generalizing c p with
  | zero => omega
  | succ fuel ih =>
    by_cases hp : p = []
    · -- the packet ended on a full page: a nil page follows
      subst hp
      have hcl : c.curLen % (255 * maxWrittenSegments) = 0 := by
        rw [show 255 * maxWrittenSegments = 8160 from rfl, ← hlen]; simpa using hmul
      have hfl := flush_piece { c with finished := true } ⟨[], c.pos, c.fresh, false⟩ hc.idx hc.first rfl rfl
        rfl (by simp only [List.length_nil] at hlen ⊢; omega) (by simp) (by
          intro _
          simp only [hls, List.length_nil]
          simp only [List.length_nil] at hlen
          rw [← hlen]
          congr 2
          omega)
      simp only [packetTail, loop_nil, ok_bind, List.isEmpty_nil, if_true]
      rw [if_pos ⟨by omega, hcl⟩, hfl]
      refine ⟨_, rfl, ⟨?_, rfl, rfl, ?_⟩, rfl, rfl, rfl, ?_⟩
      · simp [hc.idx]
      · have hz : c.pages ≠ [] := hfr rfl
        simp [hc.first, hz]
      · rw [split, dif_pos (by simp)]
        rfl
    · have hpl : 0 < p.length := List.length_pos_iff.mpr hp
      simp only [packetTail]
      rw [loop_step fuel c p hp hc.rem]
      have hfl := flush_piece
        { c with remaining := maxWrittenContent - min 8160 p.length,
                 finished := c.finished || decide (p.length ≤ 8160) }
        ⟨p.take 8160, c.pos, c.fresh, decide (8160 < p.length)⟩ hc.idx hc.first rfl rfl
        (by simp only [hc.fin, Bool.false_or]
            by_cases h : p.length ≤ 8160
            · simp [h]
            · simp [h, Nat.lt_of_not_le h])
        (by simp only [List.length_take]; omega) (by simp only [List.length_take]; omega)
        (by
          simp only [List.length_take, hls]
          intro h8
          congr 2
          omega)
      rw [hfl]
      simp only [ok_bind]
      by_cases h8 : p.length < 8160
      · -- short last piece
        have e2 : p.take 8160 = p := List.take_of_length_le (by omega)
        have e3 : p.drop 8160 = [] := List.drop_eq_nil_of_le (by omega)
        obtain ⟨fuel', rfl⟩ : ∃ k, fuel = k + 1 := ⟨fuel - 1, by omega⟩
        rw [e3, loop_nil]
        simp only [ok_bind, List.isEmpty_nil, if_true]
        rw [if_neg (by rw [show 255 * maxWrittenSegments = 8160 from rfl]; omega)]
        refine ⟨_, rfl, ⟨by simp [hc.idx], rfl, rfl, by simp⟩, rfl, rfl, rfl, ?_⟩
        rw [split, dif_pos h8]
        simp [e2, show ¬ 8160 < p.length by omega]
      · -- a full page
        obtain ⟨c', h1, h2, h3, h4, h5, h6⟩ := ih
          { c with pages := c.pages ++ [piecePage c.serial c.abgp c.headerFlags c.pages.length
                      ⟨p.take 8160, c.pos, c.fresh, decide (8160 < p.length)⟩]
                   pos := c.pos + (p.take 8160).length, idx := c.idx + 1, finished := false
                   remaining := maxWrittenContent, firstPage := false, fresh := false }
          (p.drop 8160) (by simp; omega) ⟨by simp [hc.idx], rfl, rfl, by simp⟩
          (by simp; omega) (by simp; omega) hls hne (by simp)
        refine ⟨c', h1, h2, h3, h4, h5, ?_⟩
        rw [h6, split.eq_def c.fresh c.pos p, dif_neg h8, List.mapIdx_cons]
        have e4 : c.pos + (p.take 8160).length = c.pos + 8160 := by simp; omega
        simp only [e4, List.append_assoc, List.length_append, List.length_singleton,
          List.cons_append, List.nil_append, Nat.add_zero]
        congr 2
        apply List.ext_getElem?
        intro i
        simp only [List.getElem?_mapIdx]
        congr 2
        funext x
        congr 1; omega

theorem paginatePacket_eq (c : Ctx) (p : Bytes) (hc : CtxOk c) :
    ∃ c', paginatePacket (c.freshPacket p) p = .ok c' ∧ CtxOk c' ∧ c'.serial = c.serial ∧
      c'.abgp = c.abgp ∧ c'.headerFlags = c.headerFlags ∧
      c'.pages = c.pages ++ (piecesOf p).mapIdx
        (fun i x => piecePage c.serial c.abgp c.headerFlags (c.pages.length + i) x) := by
  by_cases hp : p = []
  · subst hp
    refine ⟨c.freshPacket [], ?_, ⟨hc.idx, hc.rem, hc.fin, hc.first⟩, rfl, rfl, rfl, ?_⟩
    · simp [paginatePacket, paginateLoop, Ctx.freshPacket]
    · simp [piecesOf, Ctx.freshPacket]
  · have hpl : 0 < p.length := List.length_pos_iff.mpr hp
    have := packetTail_eq (2 * p.length + 1) (c.freshPacket p) p (by omega)
      ⟨hc.idx, hc.rem, hc.fin, hc.first⟩ (by simp [Ctx.freshPacket]) (by simp [Ctx.freshPacket]) rfl
      hpl (fun h => absurd h hp)
    have hpe : piecesOf p = split true 0 p := by simp [piecesOf, hp]
    rw [hpe]
    exact this

theorem paginateAll_eq (ps : List Bytes) (c : Ctx) (hc : CtxOk c) :
    ∃ c', paginateAll c ps = .ok c' ∧
      c'.pages = c.pages ++ (ps.flatMap piecesOf).mapIdx
        (fun i x => piecePage c.serial c.abgp c.headerFlags (c.pages.length + i) x) := by
  induction ps generalizing c with
  | nil => exact ⟨c, rfl, by simp⟩
  | cons p ps ih =>
    obtain ⟨c1, h1, h2, h3, h4, h5, h6⟩ := paginatePacket_eq c p hc
    obtain ⟨c2, g1, g2⟩ := ih c1 h2
    refine ⟨c2, ?_, ?_⟩
    · rw [paginateAll, h1]; exact g1
    · rw [g2, h3, h4, h5, h6, List.flatMap_cons, mapIdx_piecePage_append]
      simp

/-- The pages produced by `paginate`, in closed form. -/
def pagesOf (ps : List Bytes) (serial abgp : Nat) (flags : UInt8) : List Page :=
  let l := (ps.flatMap piecesOf).mapIdx (fun i x => piecePage serial abgp flags i x)
  if flags &&& lastPageFlag = 0x04 then setLast l else l

theorem paginate_eq (ps : List Bytes) (serial abgp : Nat) (flags : UInt8) :
    paginate ps serial abgp flags = .ok (pagesOf ps serial abgp flags) := by
  obtain ⟨c, h1, h2⟩ := paginateAll_eq ps (Ctx.new abgp serial flags) ⟨rfl, rfl, rfl, rfl⟩
  unfold paginate pagesOf
  rw [h1]
  simp only [ok_bind, h2]
  simp [Ctx.new]
  split <;> rfl

end Lofty.Ogg
