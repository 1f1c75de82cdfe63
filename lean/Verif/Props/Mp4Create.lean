import Verif.Props.Mp4Write
/-!
# Writing tags to MP4 files that have none, and examples (C37, C38)
-/
namespace Lofty.Mp4Write
open Lofty.Mp4 Lofty.Ilst

/-- The content of the `meta` atom the library creates: version, a handler atom, the tag. -/
def newMeta (ilst : Bytes) : Bytes :=
  [0, 0, 0, 0] ++ (box (ascii "hdlr") ([0, 0, 0, 0, 0, 0, 0, 0] ++ ascii "mdirappl" ++ List.replicate 9 0) ++ ilst)

theorem createMeta_eq (ilst : Bytes) : createMeta ilst = box (ascii "meta") (newMeta ilst) := by
  have h : (newMeta ilst).length = 37 + ilst.length := by
    unfold newMeta
    rw [List.length_append, List.length_append, box_length _ _ rfl]
    simp [ascii]
    omega
  unfold createMeta
  rw [box_eq, h, show 8 + (37 + ilst.length) = 45 + ilst.length by omega]
  simp only [newMeta, List.append_assoc]
  congr 1

theorem createUdta_eq (ilst : Bytes) : createUdta ilst = box (ascii "udta") (box (ascii "meta") (newMeta ilst)) := by
  unfold createUdta
  rw [createMeta_eq, box_eq (ascii "udta"), List.append_assoc]

theorem verify_box {f c z : Bytes} (hf : f = box (ascii "ftyp") c ++ z) (hb : BrandOk c) (hl : f.length < 2 ^ 32) (mode : Mode) :
    ∃ y, verifyMp4 (Rd.new f) mode = .ok y := by
  obtain ⟨h4, s, hs⟩ := hb
  have hid : IdOk (ascii "ftyp") := by unfold IdOk; decide
  have hlen : f.length = 8 + c.length + z.length := by rw [hf, List.length_append, box_length _ _ hid.1]
  have h1 : At (Rd.new f) (beBytes 4 (8 + c.length) ++ (ascii "ftyp" ++ (c ++ z))) := by
    have := at_new f
    conv at this => rhs; rw [hf, box, List.append_assoc, List.append_assoc]
    exact this
  have h2 : At ((Rd.new f).skip 8) (c.take 4 ++ (c.drop 4 ++ z)) := by
    have := h1
    rw [← List.append_assoc] at this
    have := this.skip (n := 8) (by simp [hid.1])
    rw [← List.append_assoc, List.take_append_drop]
    exact this
  unfold verifyMp4 Rd.next
  have hrem : (Rd.new f).rem = f.length := rfl
  rw [hrem, if_neg (by omega), if_neg (by omega), readInfo_box h1 (by omega) (by omega) hid.1 hid.2.1 (by omega) hid.2.2, ok_bind]
  simp only
  rw [if_neg (by simp), if_neg (by omega), h2.take (by simp; omega), ok_bind]
  simp only
  rw [hs]
  exact ⟨_, rfl⟩

/-- Well-formed files of which only the first `moov` matters. -/
structure Plain (before kids after : Forest) : Prop where
  brand : ∃ c rest, before = .leaf (ascii "ftyp") c rest ∧ BrandOk c
  front : before.Ok ∧ ascii "moov" ∉ before.top
  inner : kids.Ok
  back : after.Ok
  size : (before.append (.node (ascii "moov") kids after)).bytes.length < 2 ^ 32

theorem plain_steps {before kids after : Forest} (h : Plain before kids after) (t : Tag) (mode : Mode) (pad : Option Nat)
    (new : Bytes) (hb : build t = .ok new) :
    writeTo (before.append (.node (ascii "moov") kids after)).bytes t mode pad =
      writeMoov (before.append (.node (ascii "moov") kids after)).bytes (ctx 0 (before.append (.node (ascii "moov") kids after)))
        (.mk ⟨before.bytes.length, 8 + kids.bytes.length, false, .fourcc (ascii "moov")⟩ (ctx (before.bytes.length + 8) kids)) new mode pad := by
  obtain ⟨c, rest, hbr, hc⟩ := h.brand
  have hF : (before.append (.node (ascii "moov") kids after)).Ok :=
    ok_append h.front.1 ⟨moov_ok, by unfold IsContainer; decide, h.inner, h.back⟩
  have hz : ∃ z, (before.append (.node (ascii "moov") kids after)).bytes = box (ascii "ftyp") c ++ z :=
    ⟨rest.bytes ++ (Forest.node (ascii "moov") kids after).bytes, by rw [append_bytes, hbr, Forest.bytes, List.append_assoc]⟩
  obtain ⟨z, hz⟩ := hz
  obtain ⟨y, hy⟩ := verify_box hz hc h.size mode
  have hr := readAtoms_ok (mode := mode) _ hF ((before.append (.node (ascii "moov") kids after)).bytes.length + 1)
    (Rd.new (before.append (.node (ascii "moov") kids after)).bytes) [] (Nat.lt_succ_self _) (by rw [List.append_nil]; exact at_new _) h.size
  have hfind : findTop (ctx 0 (before.append (.node (ascii "moov") kids after))) (ascii "moov") =
      some (.mk ⟨before.bytes.length, 8 + kids.bytes.length, false, .fourcc (ascii "moov")⟩ (ctx (before.bytes.length + 8) kids)) := by
    rw [ctx_append h.front.1, findTop_append_none h.front.2, ctx, findTop, Nat.zero_add]
    rw [List.find?_cons_of_pos (by simp [CAtom.info])]
  unfold writeTo
  rw [hy, ok_bind, hr, ok_bind]
  simp only
  rw [show (Rd.new (before.append (.node (ascii "moov") kids after)).bytes).pos = 0 from rfl, hfind]
  simp only
  rw [hb, ok_bind]

theorem plain_bytes (before kids after : Forest) : (before.append (.node (ascii "moov") kids after)).bytes =
    (before.bytes ++ (beBytes 4 (8 + kids.bytes.length) ++ ascii "moov")) ++ (kids.bytes ++ after.bytes) := by
  simp only [append_bytes, Forest.bytes, box, List.append_assoc]

theorem plain_length (before kids after : Forest) : (before.append (.node (ascii "moov") kids after)).bytes.length =
    before.bytes.length + 8 + kids.bytes.length + after.bytes.length := by
  rw [plain_bytes]
  simp only [List.length_append, beBytes_length, show (ascii "moov").length = 4 from rfl]
  omega

theorem plain_at (before kids after : Forest) :
    At (Rd.at (before.append (.node (ascii "moov") kids after)).bytes (before.bytes.length + 8)) (kids.bytes ++ after.bytes) := by
  have h := at_at (before.bytes ++ (beBytes 4 (8 + kids.bytes.length) ++ ascii "moov")) (kids.bytes ++ after.bytes)
  have hl : (before.bytes ++ (beBytes 4 (8 + kids.bytes.length) ++ ascii "moov")).length = before.bytes.length + 8 := by
    simp only [List.length_append, beBytes_length, show (ascii "moov").length = 4 from rfl]
  rw [hl, ← plain_bytes] at h
  exact h

/-- **C37.** A file without `udta` gets one as first atom of `moov`, and nothing else changes
(not the chunk offsets either, see `offsets_stale`); an empty tag leaves it as it is. -/
theorem create_udta {before kids after : Forest} (h : Plain before kids after) (hu : ascii "udta" ∉ kids.top) (t : Tag) (mode : Mode)
    (pad : Option Nat) (new : Bytes) (hb : build t = .ok new)
    (hsz : (before.append (.node (ascii "moov") kids after)).bytes.length + new.length + 64 < 2 ^ 32) :
    writeTo (before.append (.node (ascii "moov") kids after)).bytes t mode pad =
      .ok (if t = [] then (before.append (.node (ascii "moov") kids after)).bytes
        else (before.append (.node (ascii "moov") (.node (ascii "udta") (.leaf (ascii "meta") (newMeta new) .nil) kids) after)).bytes) := by
  have hl := plain_length before kids after
  rw [plain_steps h t mode pad new hb]
  obtain ⟨r', hr'⟩ := findChild_none (mode := mode) after.bytes 8 (Nat.le_refl 8) kids h.inner hu
    ((before.append (.node (ascii "moov") kids after)).bytes.length + 1) _ (by omega) (plain_at before kids after) (by omega)
  unfold writeMoov
  simp only [CAtom.info, Info.headerSize, Bool.false_eq_true, if_false]
  rw [Nat.add_comm 8 kids.bytes.length, hr', ok_bind]
  simp only
  by_cases ht : t = []
  · subst ht
    rw [build_nil] at hb
    injection hb with hb
    subst hb
    rw [if_pos rfl, if_pos rfl]
  · have hn : new ≠ [] := by
      rintro rfl
      cases t with
      | nil => exact ht rfl
      | cons a t => exact build_cons_ne a t hb
    rw [if_neg hn, if_neg ht]
    have hsp := splice_mid (before.bytes ++ (beBytes 4 (8 + kids.bytes.length) ++ ascii "moov")) [] (createUdta new) (kids.bytes ++ after.bytes)
    have hl' : (before.bytes ++ (beBytes 4 (8 + kids.bytes.length) ++ ascii "moov")).length = before.bytes.length + 8 := by
      simp only [List.length_append, beBytes_length, show (ascii "moov").length = 4 from rfl]
    rw [hl', List.nil_append, List.length_nil, Nat.add_zero, ← plain_bytes] at hsp
    have hcl : (createUdta new).length = 53 + new.length := by
      rw [createUdta_eq, box_length _ _ rfl, box_length _ _ rfl]
      unfold newMeta
      rw [List.length_append, List.length_append, box_length _ _ rfl]
      simp [ascii]
      omega
    rw [hsp, ok_bind]
    unfold finish
    simp only
    rw [if_neg (by omega)]
    have hss := setSize_mid before.bytes (ascii "moov" ++ (createUdta new ++ (kids.bytes ++ after.bytes))) (8 + kids.bytes.length)
      (kids.bytes.length + 8 - 0 + (createUdta new).length) false (by omega)
    simp only [List.append_assoc]
    rw [hss, plain_bytes, createUdta_eq]
    simp only [Forest.bytes, List.append_nil, List.append_assoc]
    congr 4
    rw [List.length_append, box_length _ _ rfl]
    omega

/-- **C37.** A file whose `udta` has no `meta` gets one as first atom of `udta`, and nothing
else changes; an empty tag leaves it as it is. -/
theorem create_meta {before moov1 kids moov2 after : Forest} (h : Plain before (moov1.append (.node (ascii "udta") kids moov2)) after)
    (ho : moov1.Ok ∧ kids.Ok) (hu : ascii "udta" ∉ moov1.top) (hm : ascii "meta" ∉ kids.top) (t : Tag) (mode : Mode)
    (pad : Option Nat) (new : Bytes) (hb : build t = .ok new)
    (hsz : (before.append (.node (ascii "moov") (moov1.append (.node (ascii "udta") kids moov2)) after)).bytes.length + new.length + 64 < 2 ^ 32) :
    writeTo (before.append (.node (ascii "moov") (moov1.append (.node (ascii "udta") kids moov2)) after)).bytes t mode pad =
      .ok (if t = [] then (before.append (.node (ascii "moov") (moov1.append (.node (ascii "udta") kids moov2)) after)).bytes
        else (before.append (.node (ascii "moov") (moov1.append (.node (ascii "udta")
          (.leaf (ascii "meta") (newMeta new) kids) moov2)) after)).bytes) := by
  have hl := plain_length before (moov1.append (.node (ascii "udta") kids moov2)) after
  have hkl : (moov1.append (.node (ascii "udta") kids moov2)).bytes.length = moov1.bytes.length + (8 + kids.bytes.length + moov2.bytes.length) := by
    rw [append_bytes, List.length_append, Forest.bytes, List.length_append, box_length _ _ rfl]
  have hat := plain_at before (moov1.append (.node (ascii "udta") kids moov2)) after
  rw [plain_steps h t mode pad new hb]
  have hB := plain_bytes before (moov1.append (.node (ascii "udta") kids moov2)) after
  generalize hX : (before.append (.node (ascii "moov") (moov1.append (.node (ascii "udta") kids moov2)) after)).bytes = X at hsz hl hat hB ⊢
  have hat1 : At (Rd.at X (before.bytes.length + 8)) (moov1.bytes ++ (box (ascii "udta") kids.bytes ++ (moov2.bytes ++ after.bytes))) := by
    have := hat
    rw [append_bytes, Forest.bytes] at this
    simp only [List.append_assoc] at this
    exact this
  have f1 := findChild_some (mode := mode) udta_ok kids.bytes (moov2.bytes ++ after.bytes) moov1 ho.1 hu (X.length + 1) _
    (8 + (moov1.append (.node (ascii "udta") kids moov2)).bytes.length) (by omega) hat1 (by omega) (by omega)
  have hat2 : At ((Rd.at X (before.bytes.length + 8)).skip (moov1.bytes.length + 8)) (kids.bytes ++ (moov2.bytes ++ after.bytes)) := by
    have h := hat1
    rw [box_eq (ascii "udta")] at h
    simp only [List.append_assoc] at h
    have h := ((h.skip rfl).skip (beBytes_length _ _)).skip (n := 4) rfl
    rw [skip_skip, skip_skip] at h
    exact h
  obtain ⟨r', hr'⟩ := findChild_none (mode := mode) (moov2.bytes ++ after.bytes) 8 (Nat.le_refl 8) kids ho.2 hm (X.length + 1) _
    (by omega) hat2 (by omega)
  unfold writeMoov
  simp only [CAtom.info, Info.headerSize, Bool.false_eq_true, if_false]
  rw [f1, ok_bind]
  simp only
  rw [Nat.add_comm 8 kids.bytes.length, hr', ok_bind]
  simp only
  by_cases ht : t = []
  · subst ht
    rw [build_nil] at hb
    injection hb with hb
    subst hb
    rw [if_pos rfl, if_pos rfl]
  · have hn : new ≠ [] := by
      rintro rfl
      cases t with
      | nil => exact ht rfl
      | cons a t => exact build_cons_ne a t hb
    rw [if_neg hn, if_neg ht]
    have hcl : (createMeta new).length = 45 + new.length := by
      rw [createMeta_eq, box_length _ _ rfl]
      unfold newMeta
      rw [List.length_append, List.length_append, box_length _ _ rfl]
      simp [ascii]
      omega
    have hp : (Rd.at X (before.bytes.length + 8)).pos + moov1.bytes.length = before.bytes.length + 8 + moov1.bytes.length := rfl
    rw [hp]
    -- the size of udta
    have e0 : X = (before.bytes ++ (beBytes 4 (8 + (moov1.append (.node (ascii "udta") kids moov2)).bytes.length) ++ (ascii "moov" ++ moov1.bytes))) ++
        (beBytes 4 (8 + kids.bytes.length) ++ (ascii "udta" ++ (kids.bytes ++ (moov2.bytes ++ after.bytes)))) := by
      conv => lhs; rw [hB]
      rw [append_bytes, Forest.bytes, box_eq]
      simp only [List.append_assoc]
    generalize hM : 8 + (moov1.append (.node (ascii "udta") kids moov2)).bytes.length = M at e0 hB ⊢
    have l0 : (before.bytes ++ (beBytes 4 M ++ (ascii "moov" ++ moov1.bytes))).length = before.bytes.length + 8 + moov1.bytes.length := by
      simp only [List.length_append, beBytes_length, show (ascii "moov").length = 4 from rfl]
      omega
    have hs1 := setSize_mid (before.bytes ++ (beBytes 4 M ++ (ascii "moov" ++ moov1.bytes))) (ascii "udta" ++ (kids.bytes ++ (moov2.bytes ++ after.bytes)))
      (8 + kids.bytes.length) (kids.bytes.length + 8 + (createMeta new).length) false (by omega)
    rw [← e0, l0] at hs1
    rw [hs1]
    have hsp := splice_mid ((before.bytes ++ (beBytes 4 M ++ (ascii "moov" ++ moov1.bytes))) ++
      (beBytes 4 (kids.bytes.length + 8 + (createMeta new).length) ++ ascii "udta")) [] (createMeta new) (kids.bytes ++ (moov2.bytes ++ after.bytes))
    have hl2 : ((before.bytes ++ (beBytes 4 M ++ (ascii "moov" ++ moov1.bytes))) ++
      (beBytes 4 (kids.bytes.length + 8 + (createMeta new).length) ++ ascii "udta")).length = before.bytes.length + 8 + moov1.bytes.length + 8 := by
      rw [List.length_append, l0]
      simp only [List.length_append, beBytes_length, show (ascii "udta").length = 4 from rfl]
    rw [hl2, List.nil_append, List.length_nil, Nat.add_zero] at hsp
    simp only [List.append_assoc] at hsp ⊢
    rw [hsp, ok_bind]
    unfold finish
    simp only
    rw [if_neg (by omega)]
    have hs2 := setSize_mid before.bytes (ascii "moov" ++ (moov1.bytes ++ (beBytes 4 (kids.bytes.length + 8 + (createMeta new).length) ++
      (ascii "udta" ++ (createMeta new ++ (kids.bytes ++ (moov2.bytes ++ after.bytes))))))) M
      (M - (kids.bytes.length + 8) + (kids.bytes.length + 8 + (createMeta new).length)) false (by omega)
    rw [hs2, plain_bytes]
    simp only [append_bytes, Forest.bytes]
    rw [box_eq (ascii "udta")]
    simp only [List.length_append, List.append_assoc, ← createMeta_eq, beBytes_length, show (ascii "udta").length = 4 from rfl]
    rw [show M - (kids.bytes.length + 8) + (kids.bytes.length + 8 + (createMeta new).length) =
        8 + (moov1.bytes.length + (4 + (4 + ((createMeta new).length + kids.bytes.length)) + moov2.bytes.length)) by omega,
      show kids.bytes.length + 8 + (createMeta new).length = 8 + ((createMeta new).length + kids.bytes.length) by omega]
    simp only [Nat.add_assoc]

/-! ## Examples -/

/-- A tag with one item, 35 bytes. -/
def sample : Tag := [⟨.fourcc [0xA9, 110, 97, 109], .single (.utf8 "abc".toList)⟩]

def stbl (es : List Nat) : Forest :=
  .node (ascii "trak") (.node (ascii "mdia") (.node (ascii "minf") (.node (ascii "stbl")
    (.leaf (ascii "stco") ([0, 0, 0, 0] ++ beBytes 4 es.length ++ es.flatMap (beBytes 4)) .nil) .nil) .nil) .nil) .nil

def mdat : Forest := .leaf (ascii "mdat") [1, 2, 3, 4] .nil

def ftyp : Forest := .leaf (ascii "ftyp") (ascii "M4A " ++ [0, 0, 0, 0]) .nil

def hdlr : Bytes × Bytes := (ascii "hdlr", List.replicate 25 0)

/-- A file with a track whose two chunks lie before and behind the tag. -/
def file (free : List Bytes) : File where
  before := ftyp
  moov1 := stbl [8, 250]
  udta1 := .nil
  version := [0, 0, 0, 0]
  items1 := [hdlr]
  free1 := []
  ilst := []
  free2 := free
  items2 := []
  udta2 := .leaf (ascii "name") [65] .nil
  moov2 := .nil
  after := mdat

theorem file_ok (free : List Bytes) (h : free = [] ∨ free = [List.replicate 50 7]) : (file free).Ok := by
  refine ⟨⟨_, _, rfl, ⟨by decide, "M4A ".toList, rfl⟩⟩, ⟨?_, ?_, ?_⟩, ⟨?_, ?_⟩, ⟨?_, ?_, ?_, ?_⟩, ⟨?_, ?_, ?_⟩, ⟨?_, ?_, ?_, ?_⟩, ⟨?_, ?_, ?_⟩, ⟨?_, ?_⟩, ⟨?_, ?_⟩, .inl ⟨rfl, ?_⟩, ?_, ?_⟩
  case refine_24 => rcases h with rfl | rfl <;> decide +kernel
  case refine_26 => rcases h with rfl | rfl <;> decide +kernel
  all_goals simp only [file, ftyp, mdat, stbl, Forest.Ok, Forest.Tables, Forest.top, Forest.names, IdOk, IsContainer, hdlr, tableCount]
  all_goals first | decide | simp

/-- In place. -/
example : ∃ f, writeTo (file [List.replicate 50 7]).bytes sample .bestAttempt none = .ok f ∧
    f.length = (file [List.replicate 50 7]).bytes.length := by
  obtain ⟨f, h1, h2, _⟩ := in_place _ (file_ok _ (.inr rfl)) sample .bestAttempt none _ rfl (by decide) (by decide +kernel)
  exact ⟨f, h1, h2⟩

/-- Growing by 27 bytes: the offset of the chunk behind the tag becomes 277. -/
example : writeTo (file []).bytes sample .bestAttempt none =
    .ok ((file []).whole (({ file [] with moov1 := stbl [8, 277] } : File).moov (build sample |>.toOption.getD []))).bytes := by
  rw [write_partial _ (file_ok _ (.inl rfl)) sample .bestAttempt none _ rfl (by decide) (by intro k h; cases h) (by decide +kernel)]
  decide +kernel

/-- Removing. -/
example : writeTo (file []).bytes [] .bestAttempt none =
    .ok ((file []).whole (({ file [] with moov1 := stbl [8, 242] } : File).moov [])).bytes := by
  rw [remove_partial _ (file_ok _ (.inl rfl))]
  decide +kernel

/-! ## Where it goes wrong -/

/-- A file without `udta`; its only chunk is the four bytes at offset 84. -/
def bare : Forest := ftyp.append (.node (ascii "moov") (stbl [84]) mdat)

theorem bare_plain : Plain ftyp (stbl [84]) mdat := by
  refine ⟨⟨_, _, rfl, by decide, "M4A ".toList, rfl⟩, ⟨?_, ?_⟩, ?_, ?_, by decide +kernel⟩
  all_goals simp only [ftyp, mdat, stbl, Forest.Ok, Forest.top, IdOk, IsContainer]
  all_goals first | decide | simp

/-- **C38 fails** when `udta` has to be created: the chunk moves, its offset does not. -/
theorem offsets_stale : ∃ f, writeTo bare.bytes sample .bestAttempt none = .ok f ∧
    f = (ftyp.append (.node (ascii "moov") (.node (ascii "udta") (.leaf (ascii "meta") (newMeta (build sample |>.toOption.getD [])) .nil)
      (stbl [84])) mdat)).bytes ∧
    (bare.bytes.drop 84).take 4 = [1, 2, 3, 4] ∧ (f.drop 84).take 4 ≠ [1, 2, 3, 4] := by
  refine ⟨_, create_udta bare_plain (by decide) sample .bestAttempt none _ rfl (by decide +kernel), ?_⟩
  decide +kernel

/-- The same when `meta` has to be created. -/
theorem offsets_stale_meta : ∃ f, writeTo (ftyp.append (.node (ascii "moov") ((stbl [92]).append (.node (ascii "udta") .nil .nil)) mdat)).bytes
      sample .bestAttempt none = .ok f ∧
    f = (ftyp.append (.node (ascii "moov") ((stbl [92]).append (.node (ascii "udta") (.leaf (ascii "meta")
      (newMeta (build sample |>.toOption.getD [])) .nil) .nil)) mdat)).bytes ∧
    ((ftyp.append (.node (ascii "moov") ((stbl [92]).append (.node (ascii "udta") .nil .nil)) mdat)).bytes.drop 92).take 4 = [1, 2, 3, 4] ∧
    (f.drop 92).take 4 ≠ [1, 2, 3, 4] := by
  have hp : Plain ftyp ((stbl [92]).append (.node (ascii "udta") .nil .nil)) mdat := by
    refine ⟨⟨_, _, rfl, by decide, "M4A ".toList, rfl⟩, ⟨?_, ?_⟩, ?_, ?_, by decide +kernel⟩
    all_goals simp only [ftyp, mdat, stbl, Forest.append, Forest.Ok, Forest.top, IdOk, IsContainer]
    all_goals first | decide | simp
  have hs : (stbl [92]).Ok ∧ Forest.nil.Ok := by
    simp only [stbl, Forest.Ok, IdOk, IsContainer]
    decide
  refine ⟨_, create_meta hp hs (by decide) (by decide) sample .bestAttempt none _ rfl (by decide +kernel), ?_⟩
  decide +kernel

/-- A file whose `meta` has a handler atom and no `ilst`, as it is after removing the tag. -/
def noIlst (items : List (Bytes × Bytes)) : Forest :=
  ftyp.append (.node (ascii "moov") (.node (ascii "udta") (.leaf (ascii "meta") ([0, 0, 0, 0] ++ boxes items) .nil) .nil) mdat)

/-- **C37 fails** when `meta` has atoms but no `ilst`: the first of them, here the handler, is
overwritten by the tag ... -/
theorem hdlr_replaced : writeTo (noIlst [hdlr]).bytes sample .bestAttempt none =
    .ok (noIlst [(ascii "ilst", (build sample |>.toOption.getD []).drop 8)]).bytes := by decide +kernel

/-- ... and taken out when the (absent) tag is removed. -/
theorem hdlr_removed : writeTo (noIlst [hdlr]).bytes [] .bestAttempt none = .ok (noIlst []).bytes := by decide +kernel

/-- A track with a 64-bit offset table. -/
def co64 (e : Nat) : Forest :=
  .node (ascii "trak") (.node (ascii "mdia") (.node (ascii "minf") (.node (ascii "stbl")
    (.leaf (ascii "co64") ([0, 0, 0, 0] ++ beBytes 4 1 ++ beBytes 8 e) .nil) .nil) .nil) .nil) .nil

/-- **C38 fails** for 64-bit offset tables: the number of entries is taken from the middle of
the first entry, and saving fails ... -/
theorem co64_error : writeTo ({ file [] with moov1 := co64 250 } : File).bytes sample .bestAttempt none = .error .eof := by
  decide +kernel

/-- ... or leaves the offset as it was. -/
theorem co64_stale : writeTo ({ file [] with moov1 := co64 (2 ^ 32) } : File).bytes sample .bestAttempt none =
    .ok (({ file [] with moov1 := co64 (2 ^ 32) } : File).whole (({ file [] with moov1 := co64 (2 ^ 32) } : File).moov
      (build sample |>.toOption.getD []))).bytes := by
  decide +kernel

/-- **C37 fails** for preferred padding below 8 bytes: a panic. -/
theorem small_padding_panics : writeTo ({ file [] with ilst := List.replicate 30 0 } : File).bytes sample .bestAttempt (some 7) = .error .panic := by
  decide +kernel

/-- A fragment with a base data offset. -/
def fragment (high low : Nat) : Forest :=
  .node (ascii "moof") (.leaf (ascii "tfhd") ([0, 0, 0, 1] ++ beBytes 4 1 ++ beBytes 4 high ++ beBytes 4 low) .nil) mdat

/-- **C38 fails** for fragments: the offset is looked for where the track's number is, so that
only its upper half changes (and this only in a `tfhd` directly in `moof`, where none belongs). -/
theorem tfhd_wrong : writeTo ({ file [] with after := fragment 0 250 } : File).bytes sample .bestAttempt none =
    .ok (({ file [] with after := fragment 27 250 } : File).whole (({ file [] with moov1 := stbl [8, 277] } : File).moov
      (build sample |>.toOption.getD []))).bytes := by
  decide +kernel

end Lofty.Mp4Write
