import Verif.Lemmas.Mp4Write
/-! Helper lemmas for writing MP4 files with a tag. -/
namespace Lofty.Mp4Write
open Lofty.Mp4 Lofty.Ilst

theorem box_eq (id c : Bytes) : box id c = beBytes 4 (8 + c.length) ++ (id ++ c) := rfl

/-- The bytes of a file with explicit size fields. -/
def flat (A : Bytes) (a : Nat) (m1 : Bytes) (b : Nat) (u1 : Bytes) (c : Nat) (V region W u2 m2 D : Bytes) : Bytes :=
  A ++ (beBytes 4 a ++ (ascii "moov" ++ (m1 ++ (beBytes 4 b ++ (ascii "udta" ++ (u1 ++ (beBytes 4 c ++ (ascii "meta" ++
    (V ++ (region ++ (W ++ (u2 ++ (m2 ++ D)))))))))))))

theorem whole_flat (x : File) (s : Nat → Nat) (region : Bytes) (h1 : x.moov1.Tables) (h2 : x.moov2.Tables) (h3 : x.udta1.Tables)
    (h4 : x.udta2.Tables) :
    (x.whole ((x.moov region).mapOffsets s)).bytes =
      let c := 8 + (x.version ++ boxes x.items1 ++ region ++ boxes x.items2).length
      let b := 8 + (x.udta1.bytes.length + (c + x.udta2.bytes.length))
      let a := 8 + (x.moov1.bytes.length + (b + x.moov2.bytes.length))
      flat x.before.bytes a (x.moov1.mapOffsets s).bytes b (x.udta1.mapOffsets s).bytes c (x.version ++ boxes x.items1) region
        (boxes x.items2) (x.udta2.mapOffsets s).bytes (x.moov2.mapOffsets s).bytes x.after.bytes := by
  have hm : ¬ ascii "meta" = ascii "stco" := by decide
  have l1 := mapOffsets_length s _ h1
  have l2 := mapOffsets_length s _ h2
  have l3 := mapOffsets_length s _ h3
  have l4 := mapOffsets_length s _ h4
  have bu : ∀ y : Bytes, (box (ascii "udta") y).length = 8 + y.length := fun y => box_length _ _ rfl
  have bm : ∀ y : Bytes, (box (ascii "meta") y).length = 8 + y.length := fun y => box_length _ _ rfl
  simp only [File.whole, File.moov, append_bytes, append_mapOffsets, Forest.mapOffsets, Forest.bytes, if_neg hm]
  simp only [flat]
  rw [box]
  simp only [List.length_append, l1, l2, l3, l4, bu, bm, List.append_assoc]
  rw [box]
  simp only [List.length_append, l1, l2, l3, l4, bu, bm, List.append_assoc]
  rw [box]
  simp only [List.length_append, List.append_assoc]

theorem flat_length (A : Bytes) (a : Nat) (m1 : Bytes) (b : Nat) (u1 : Bytes) (c : Nat) (V region W u2 m2 D : Bytes) :
    (flat A a m1 b u1 c V region W u2 m2 D).length =
      A.length + (8 + (m1.length + (8 + (u1.length + (8 + (V.length + (region.length + (W.length + (u2.length + (m2.length + D.length)))))))))) := by
  have h1 : (ascii "moov").length = 4 := rfl
  have h2 : (ascii "udta").length = 4 := rfl
  have h3 : (ascii "meta").length = 4 := rfl
  simp only [flat, List.length_append, beBytes_length, h1, h2, h3]
  omega

/-- The offset tables of `moov`. -/
theorem fold_flat (d : Int) (off : Nat) (x : File) (hx : x.Ok) (region : Bytes) (A : Bytes) (a b c : Nat) (V R W D : Bytes)
    (hl : V.length + R.length + W.length = (x.version ++ boxes x.items1 ++ region ++ boxes x.items2).length) :
    (findAll (ascii "stco") (ctx (A.length + 8) (x.moov region))).foldlM (shiftStco d off)
      (flat A a x.moov1.bytes b x.udta1.bytes c V R W x.udta2.bytes x.moov2.bytes D)
    = .ok (flat A a (x.moov1.mapOffsets (moved off d)).bytes b (x.udta1.mapOffsets (moved off d)).bytes c V R W
        (x.udta2.mapOffsets (moved off d)).bytes (x.moov2.mapOffsets (moved off d)).bytes D) := by
  obtain ⟨m1, m1t, _, _⟩ := hx.moov1
  obtain ⟨m2, m2t, _⟩ := hx.moov2
  obtain ⟨u1, u1t, _, _⟩ := hx.udta1
  obtain ⟨u2, u2t, _⟩ := hx.udta2
  have l1 := mapOffsets_length (moved off d) _ m1t
  have l2 := mapOffsets_length (moved off d) _ m2t
  have l3 := mapOffsets_length (moved off d) _ u1t
  have l4 := mapOffsets_length (moved off d) _ u2t
  have n1 : (ascii "moov").length = 4 := rfl
  have n2 : (ascii "udta").length = 4 := rfl
  have n3 : (ascii "meta").length = 4 := rfl
  have hs : ¬ ascii "udta" = ascii "stco" := by decide
  have hs' : ¬ ascii "meta" = ascii "stco" := by decide
  have hb : ∀ y : Bytes, (box (ascii "meta") y).length = 8 + y.length := fun y => box_length _ _ rfl
  have hc : findAll (ascii "stco") (ctx (A.length + 8) (x.moov region)) =
      findAll (ascii "stco") (ctx (A.length + 8) x.moov1) ++
      (findAll (ascii "stco") (ctx (A.length + 8 + x.moov1.bytes.length + 8) x.udta1) ++
       (findAll (ascii "stco") (ctx (A.length + 8 + x.moov1.bytes.length + 8 + x.udta1.bytes.length +
          (8 + (V.length + R.length + W.length))) x.udta2) ++
        findAll (ascii "stco") (ctx (A.length + 8 + x.moov1.bytes.length +
          (8 + (x.udta1.bytes.length + (8 + (V.length + R.length + W.length) + x.udta2.bytes.length)))) x.moov2))) := by
    rw [File.moov, ctx_append m1, findAll_append]
    congr 1
    rw [ctx, findAll, CAtom.findAll]
    simp only [if_neg hs]
    rw [ctx_append u1, findAll_append, ctx, findAll, CAtom.findAll]
    simp only [if_neg hs', findAll, List.nil_append, append_bytes, Forest.bytes, List.length_append, hb, List.append_assoc]
    simp only [List.length_append] at hl
    simp only [hl, Nat.add_assoc]
  rw [hc]
  -- the atoms before udta
  have s1 := fold_stco d off x.moov1 m1 m1t (A ++ (beBytes 4 a ++ ascii "moov"))
    (beBytes 4 b ++ (ascii "udta" ++ (x.udta1.bytes ++ (beBytes 4 c ++ (ascii "meta" ++
      (V ++ (R ++ (W ++ (x.udta2.bytes ++ (x.moov2.bytes ++ D))))))))))
  have q1 : (A ++ (beBytes 4 a ++ ascii "moov")).length = A.length + 8 := by
    simp only [List.length_append, beBytes_length, n1]
  rw [q1] at s1
  have g1 : flat A a x.moov1.bytes b x.udta1.bytes c V R W x.udta2.bytes x.moov2.bytes D =
      (A ++ (beBytes 4 a ++ ascii "moov")) ++ (x.moov1.bytes ++ (beBytes 4 b ++ (ascii "udta" ++ (x.udta1.bytes ++ (beBytes 4 c ++ (ascii "meta" ++
      (V ++ (R ++ (W ++ (x.udta2.bytes ++ (x.moov2.bytes ++ D))))))))))) := by
    simp only [flat, List.append_assoc]
  rw [g1, foldlM_append_ok _ _ _ _ _ s1]
  -- the atoms before meta
  generalize hM1 : (x.moov1.mapOffsets (moved off d)).bytes = M1 at l1 ⊢
  have s2 := fold_stco d off x.udta1 u1 u1t (A ++ (beBytes 4 a ++ (ascii "moov" ++ (M1 ++ (beBytes 4 b ++ ascii "udta")))))
    (beBytes 4 c ++ (ascii "meta" ++ (V ++ (R ++ (W ++ (x.udta2.bytes ++ (x.moov2.bytes ++ D)))))))
  have q2 : (A ++ (beBytes 4 a ++ (ascii "moov" ++ (M1 ++ (beBytes 4 b ++ ascii "udta"))))).length
      = A.length + 8 + x.moov1.bytes.length + 8 := by
    simp only [List.length_append, beBytes_length, n1, n2, l1]
    omega
  rw [q2] at s2
  have g2 : (A ++ (beBytes 4 a ++ ascii "moov")) ++ (M1 ++ (beBytes 4 b ++ (ascii "udta" ++ (x.udta1.bytes ++ (beBytes 4 c ++ (ascii "meta" ++
      (V ++ (R ++ (W ++ (x.udta2.bytes ++ (x.moov2.bytes ++ D))))))))))) =
      (A ++ (beBytes 4 a ++ (ascii "moov" ++ (M1 ++ (beBytes 4 b ++ ascii "udta"))))) ++ (x.udta1.bytes ++
    (beBytes 4 c ++ (ascii "meta" ++ (V ++ (R ++ (W ++ (x.udta2.bytes ++ (x.moov2.bytes ++ D)))))))) := by
    simp only [List.append_assoc]
  rw [g2, foldlM_append_ok _ _ _ _ _ s2]
  -- the atoms behind meta
  generalize hU1 : (x.udta1.mapOffsets (moved off d)).bytes = U1 at l3 ⊢
  have s3 := fold_stco d off x.udta2 u2 u2t (A ++ (beBytes 4 a ++ (ascii "moov" ++ (M1 ++ (beBytes 4 b ++ (ascii "udta" ++
    (U1 ++ (beBytes 4 c ++ (ascii "meta" ++ (V ++ (R ++ W))))))))))) (x.moov2.bytes ++ D)
  have q3 : (A ++ (beBytes 4 a ++ (ascii "moov" ++ (M1 ++ (beBytes 4 b ++ (ascii "udta" ++
    (U1 ++ (beBytes 4 c ++ (ascii "meta" ++ (V ++ (R ++ W))))))))))).length
      = A.length + 8 + x.moov1.bytes.length + 8 + x.udta1.bytes.length + (8 + (V.length + R.length + W.length)) := by
    simp only [List.length_append, beBytes_length, n1, n2, n3, l1, l3]
    omega
  rw [q3] at s3
  have g3 : (A ++ (beBytes 4 a ++ (ascii "moov" ++ (M1 ++ (beBytes 4 b ++ ascii "udta"))))) ++ (U1 ++
    (beBytes 4 c ++ (ascii "meta" ++ (V ++ (R ++ (W ++ (x.udta2.bytes ++ (x.moov2.bytes ++ D)))))))) =
    (A ++ (beBytes 4 a ++ (ascii "moov" ++ (M1 ++ (beBytes 4 b ++ (ascii "udta" ++
    (U1 ++ (beBytes 4 c ++ (ascii "meta" ++ (V ++ (R ++ W))))))))))) ++ (x.udta2.bytes ++ (x.moov2.bytes ++ D)) := by
    simp only [List.append_assoc]
  rw [g3, foldlM_append_ok _ _ _ _ _ s3]
  -- the atoms behind udta
  generalize hU2 : (x.udta2.mapOffsets (moved off d)).bytes = U2 at l4 ⊢
  have s4 := fold_stco d off x.moov2 m2 m2t (A ++ (beBytes 4 a ++ (ascii "moov" ++ (M1 ++ (beBytes 4 b ++ (ascii "udta" ++
    (U1 ++ (beBytes 4 c ++ (ascii "meta" ++ (V ++ (R ++ (W ++ U2)))))))))))) D
  have q4 : (A ++ (beBytes 4 a ++ (ascii "moov" ++ (M1 ++ (beBytes 4 b ++ (ascii "udta" ++
    (U1 ++ (beBytes 4 c ++ (ascii "meta" ++ (V ++ (R ++ (W ++ U2)))))))))))).length
      = A.length + 8 + x.moov1.bytes.length +
          (8 + (x.udta1.bytes.length + (8 + (V.length + R.length + W.length) + x.udta2.bytes.length))) := by
    simp only [List.length_append, beBytes_length, n1, n2, n3, l1, l3, l4]
    omega
  rw [q4] at s4
  have g4 : (A ++ (beBytes 4 a ++ (ascii "moov" ++ (M1 ++ (beBytes 4 b ++ (ascii "udta" ++
    (U1 ++ (beBytes 4 c ++ (ascii "meta" ++ (V ++ (R ++ W))))))))))) ++ (U2 ++ (x.moov2.bytes ++ D)) =
    (A ++ (beBytes 4 a ++ (ascii "moov" ++ (M1 ++ (beBytes 4 b ++ (ascii "udta" ++
    (U1 ++ (beBytes 4 c ++ (ascii "meta" ++ (V ++ (R ++ (W ++ U2)))))))))))) ++ (x.moov2.bytes ++ D) := by
    simp only [List.append_assoc]
  rw [g4, s4]
  simp only [flat, List.append_assoc]

theorem names_append (f g : Forest) : (f.append g).names = f.names ++ g.names := by
  induction f with
  | nil => rfl
  | leaf id c rest ih => simp [Forest.append, Forest.names, ih]
  | node id kids rest _ ih => simp [Forest.append, Forest.names, ih]

/-- No 64-bit tables. -/
theorem no_co64 (x : File) (hx : x.Ok) (region : Bytes) (p : Nat) : findAll (ascii "co64") (ctx p (x.moov region)) = [] := by
  apply findAll_none
  obtain ⟨_, _, _, h1⟩ := hx.moov1
  obtain ⟨_, _, h2⟩ := hx.moov2
  obtain ⟨_, _, _, h3⟩ := hx.udta1
  obtain ⟨_, _, h4⟩ := hx.udta2
  have e1 : ¬ ascii "co64" = ascii "udta" := by decide
  have e2 : ¬ ascii "co64" = ascii "meta" := by decide
  simp only [File.moov, names_append, Forest.names, List.mem_append, List.mem_cons, not_or]
  exact ⟨h1, e1, ⟨h3, e2, h4⟩, h2⟩

theorem ok_append {f g : Forest} (hf : f.Ok) (hg : g.Ok) : (f.append g).Ok := by
  induction f with
  | nil => exact hg
  | leaf id c rest ih => exact ⟨hf.1, hf.2.1, ih hf.2.2⟩
  | node id kids rest _ ih => exact ⟨hf.1, hf.2.1, hf.2.2.1, ih hf.2.2.2⟩

theorem moov_forest_ok (x : File) (hx : x.Ok) (region : Bytes) : (x.moov region).Ok := by
  refine ok_append hx.moov1.1 ⟨udta_ok, by unfold IsContainer; decide, ok_append hx.udta1.1 ⟨meta_ok, ?_, hx.udta2.1⟩, hx.moov2.1⟩
  unfold IsContainer; decide

theorem whole_ok (x : File) (hx : x.Ok) (region : Bytes) : (x.whole (x.moov region)).Ok := by
  refine ok_append hx.before.1 ⟨moov_ok, by unfold IsContainer; decide, moov_forest_ok x hx region, hx.after.1⟩

/-- The atoms of the file. -/
theorem atoms_ok (x : File) (hx : x.Ok) (mode : Mode) :
    readAtoms mode (x.bytes.length + 1) (Rd.new x.bytes) x.bytes.length =
      .ok (ctx 0 (x.whole (x.moov x.space)), 0, (Rd.new x.bytes).skip x.bytes.length) := by
  have h := readAtoms_ok (mode := mode) _ (whole_ok x hx x.space) (x.bytes.length + 1) (Rd.new x.bytes) []
    (Nat.lt_succ_self _) (by rw [List.append_nil]; exact at_new _) hx.size
  exact h

/-- The moov atom. -/
theorem find_moov (x : File) (hx : x.Ok) (region : Bytes) :
    findTop (ctx 0 (x.whole (x.moov region))) (ascii "moov") =
      some (.mk ⟨x.before.bytes.length, 8 + (x.moov region).bytes.length, false, .fourcc (ascii "moov")⟩
        (ctx (x.before.bytes.length + 8) (x.moov region))) := by
  rw [File.whole, ctx_append hx.before.1, findTop_append_none hx.before.2.1, ctx, findTop, Nat.zero_add]
  rw [List.find?_cons_of_pos (by simp [CAtom.info])]

theorem find_moof (x : File) (hx : x.Ok) (region : Bytes) :
    findTop (ctx 0 (x.whole (x.moov region))) (ascii "moof") = none := by
  rw [File.whole, ctx_append hx.before.1, findTop_append_none hx.before.2.2, ctx]
  have h : ¬ ascii "moov" = ascii "moof" := by decide
  have := findTop_none hx.after.2 (0 + x.before.bytes.length + (8 + (x.moov region).bytes.length))
  rw [findTop] at this ⊢
  rw [List.find?_cons_of_neg (by simp [CAtom.info, h])]
  exact this

theorem verify_ok (x : File) (hx : x.Ok) (mode : Mode) : ∃ y, verifyMp4 (Rd.new x.bytes) mode = .ok y := by
  obtain ⟨c, rest, hb, h4, s, hs⟩ := hx.brand
  have hl := hx.size
  have hid : IdOk (ascii "ftyp") := by unfold IdOk; decide
  obtain ⟨z, hz⟩ : ∃ z, x.bytes = box (ascii "ftyp") c ++ z := by
    refine ⟨rest.bytes ++ (Forest.node (ascii "moov") (x.moov x.space) x.after).bytes, ?_⟩
    rw [File.bytes, File.whole, append_bytes, hb, Forest.bytes, List.append_assoc]
  have hlen : x.bytes.length = 8 + c.length + z.length := by rw [hz, List.length_append, box_length _ _ hid.1]
  have h1 : At (Rd.new x.bytes) (beBytes 4 (8 + c.length) ++ (ascii "ftyp" ++ (c ++ z))) := by
    have := at_new x.bytes
    conv at this => rhs; rw [hz, box, List.append_assoc, List.append_assoc]
    exact this
  have h2 : At ((Rd.new x.bytes).skip 8) (c.take 4 ++ (c.drop 4 ++ z)) := by
    have := h1
    rw [← List.append_assoc] at this
    have := this.skip (n := 8) (by simp [hid.1])
    rw [← List.append_assoc, List.take_append_drop]
    exact this
  unfold verifyMp4 Rd.next
  have hrem : (Rd.new x.bytes).rem = x.bytes.length := rfl
  rw [hrem, if_neg (by omega), if_neg (by omega), readInfo_box h1 (by omega) (by omega) hid.1 hid.2.1 (by omega) hid.2.2, ok_bind]
  simp only
  rw [if_neg (by simp), if_neg (by omega), h2.take (by simp; omega), ok_bind]
  simp only
  rw [hs]
  exact ⟨_, rfl⟩

theorem moov_bytes (x : File) (region : Bytes) : (x.moov region).bytes =
    x.moov1.bytes ++ (box (ascii "udta") (x.udta1.bytes ++
      (box (ascii "meta") (x.version ++ boxes x.items1 ++ region ++ boxes x.items2) ++ x.udta2.bytes)) ++ x.moov2.bytes) := by
  simp only [File.moov, append_bytes, Forest.bytes]

theorem whole_bytes (x : File) (m : Forest) : (x.whole m).bytes =
    (x.before.bytes ++ (beBytes 4 (8 + m.bytes.length) ++ ascii "moov")) ++ (m.bytes ++ x.after.bytes) := by
  simp only [File.whole, append_bytes, Forest.bytes, box, List.append_assoc]

/-- The contents of `meta`. -/
def File.metaLen (x : File) (region : Bytes) : Nat := (x.version ++ boxes x.items1 ++ region ++ boxes x.items2).length

/-- The contents of `udta`. -/
def File.udtaLen (x : File) (region : Bytes) : Nat := x.udta1.bytes.length + (8 + x.metaLen region + x.udta2.bytes.length)

theorem boxes_atoms (x : File) : boxes x.atoms = boxes x.items1 ++ x.space ++ boxes x.items2 := by
  simp only [File.atoms, File.space, File.space1, frees, boxes_append, boxes_cons, List.append_assoc]

theorem metaIsFull_back {r : Rd} {a b c : Bytes} (h : At r (a ++ (b ++ c))) (ha : a.length = 4) (hb : b.length = 4) :
    metaIsFull r = .ok (if b ∈ metaNames then (false, r) else (true, r.skip 4)) := by
  have h1 := h.skip ha
  have hrem := h.2.1
  simp only [List.length_append] at hrem
  unfold metaIsFull
  rw [h.take ha, ok_bind]
  simp only
  rw [h1.take hb, ok_bind]
  have hm : (b = ascii "hdlr" ∨ b = ascii "ilst" ∨ b = ascii "mhdr" ∨ b = ascii "ctry" ∨ b = ascii "lang") ↔ b ∈ metaNames := by
    simp [metaNames]
  simp only [hm]
  by_cases hin : b ∈ metaNames
  · rw [if_pos hin, if_pos hin]
    have : ((r.skip 4).skip 4).back 8 = r := by
      cases r
      simp only [Rd.skip, Rd.back, Rd.mk.injEq, true_and] at hrem ⊢
      omega
    rw [this]
  · rw [if_neg hin, if_neg hin]
    have : ((r.skip 4).skip 4).back 4 = r.skip 4 := by
      cases r
      simp only [Rd.skip, Rd.back, Rd.mk.injEq, true_and] at hrem ⊢
      omega
    rw [this]

/-- The way to the atoms of `meta`. -/
theorem walk (x : File) (hx : x.Ok) (mode : Mode) :
    ∃ r1 r2 r3 full rest, findChild (x.bytes.length + 1) (Rd.at x.bytes (x.before.bytes.length + 8))
        (8 + (x.moov x.space).bytes.length) (ascii "udta") mode
        = .ok (some ⟨x.before.bytes.length + 8 + x.moov1.bytes.length, 8 + x.udtaLen x.space, false, .fourcc (ascii "udta")⟩, r1) ∧
      findChild (x.bytes.length + 1) r1 (8 + x.udtaLen x.space) (ascii "meta") mode
        = .ok (some ⟨x.before.bytes.length + 8 + x.moov1.bytes.length + 8 + x.udta1.bytes.length, 8 + x.metaLen x.space, false,
          .fourcc (ascii "meta")⟩, r2) ∧
      metaIsFull r2 = .ok (full, r3) ∧ At r3 (boxes x.atoms ++ rest) ∧
      r3.pos = x.before.bytes.length + 8 + x.moov1.bytes.length + 8 + x.udta1.bytes.length + 8 + x.version.length := by
  have hl := hx.size
  have hX : x.bytes = (x.before.bytes ++ (beBytes 4 (8 + (x.moov x.space).bytes.length) ++ ascii "moov")) ++
      ((x.moov x.space).bytes ++ x.after.bytes) := whole_bytes x _
  have hmb := moov_bytes x x.space
  have e1 : (x.before.bytes ++ (beBytes 4 (8 + (x.moov x.space).bytes.length) ++ ascii "moov")).length = x.before.bytes.length + 8 := by
    simp only [List.length_append, beBytes_length, show (ascii "moov").length = 4 from rfl]
  have hU : (x.udta1.bytes ++ (box (ascii "meta") (x.version ++ boxes x.items1 ++ x.space ++ boxes x.items2) ++ x.udta2.bytes)).length
      = x.udtaLen x.space := by
    simp only [File.udtaLen, File.metaLen, List.length_append]
    rw [box_length _ _ rfl]
    simp only [List.length_append]
  have hM : (x.moov x.space).bytes.length = x.moov1.bytes.length + (8 + x.udtaLen x.space + x.moov2.bytes.length) := by
    rw [hmb, List.length_append, List.length_append, box_length _ _ rfl, hU]
  have hXl : x.bytes.length = x.before.bytes.length + 8 + ((x.moov x.space).bytes.length + x.after.bytes.length) := by
    conv => lhs; rw [hX, List.length_append, e1, List.length_append]
  have hUl : x.udtaLen x.space = x.udta1.bytes.length + (8 + x.metaLen x.space + x.udta2.bytes.length) := rfl
  have a0 : At (Rd.at x.bytes (x.before.bytes.length + 8)) ((x.moov x.space).bytes ++ x.after.bytes) := by
    have := at_at (x.before.bytes ++ (beBytes 4 (8 + (x.moov x.space).bytes.length) ++ ascii "moov")) ((x.moov x.space).bytes ++ x.after.bytes)
    rw [e1, ← hX] at this
    exact this
  -- udta
  have a1 := a0
  rw [hmb] at a1
  simp only [List.append_assoc] at a1
  have f1 := findChild_some (mode := mode) udta_ok (x.udta1.bytes ++ (box (ascii "meta") (x.version ++ boxes x.items1 ++ x.space ++ boxes x.items2) ++ x.udta2.bytes))
    (x.moov2.bytes ++ x.after.bytes) x.moov1 hx.moov1.1 hx.moov1.2.2.1 (x.bytes.length + 1) (Rd.at x.bytes (x.before.bytes.length + 8))
    (8 + (x.moov x.space).bytes.length) (by omega) (by simp only [List.append_assoc]; exact a1) (by omega) (by omega)
  rw [hU] at f1
  -- meta
  have a2 : At ((Rd.at x.bytes (x.before.bytes.length + 8)).skip (x.moov1.bytes.length + 8))
      (x.udta1.bytes ++ (box (ascii "meta") (x.version ++ boxes x.items1 ++ x.space ++ boxes x.items2) ++ (x.udta2.bytes ++ (x.moov2.bytes ++ x.after.bytes)))) := by
    have h := a1
    rw [box_eq (ascii "udta")] at h
    simp only [List.append_assoc] at h
    have h := ((h.skip rfl).skip (beBytes_length _ _)).skip (n := 4) rfl
    rw [skip_skip, skip_skip] at h
    simp only [List.append_assoc]
    exact h
  generalize hr1 : (Rd.at x.bytes (x.before.bytes.length + 8)).skip (x.moov1.bytes.length + 8) = r1 at f1 a2
  have p1 : r1.pos = x.before.bytes.length + 8 + (x.moov1.bytes.length + 8) := by rw [← hr1]; rfl
  have f2 := findChild_some (mode := mode) meta_ok (x.version ++ boxes x.items1 ++ x.space ++ boxes x.items2)
    (x.udta2.bytes ++ (x.moov2.bytes ++ x.after.bytes)) x.udta1 hx.udta1.1 hx.udta1.2.2.1 (x.bytes.length + 1) r1
    (8 + x.udtaLen x.space) (by omega) a2
    (by show x.udta1.bytes.length + (8 + x.metaLen x.space) < _; omega) (by show x.udta1.bytes.length + (8 + x.metaLen x.space) < _; omega)
  have a3 : At (r1.skip (x.udta1.bytes.length + 8)) (x.version ++ (boxes x.items1 ++ x.space ++ (boxes x.items2 ++ (x.udta2.bytes ++ (x.moov2.bytes ++ x.after.bytes))))) := by
    have h := a2
    rw [box_eq (ascii "meta")] at h
    simp only [List.append_assoc] at h
    have h := ((h.skip rfl).skip (beBytes_length _ _)).skip (n := 4) rfl
    rw [skip_skip, skip_skip] at h
    simp only [List.append_assoc]
    exact h
  generalize hr2 : r1.skip (x.udta1.bytes.length + 8) = r2 at f2 a3
  have p2 : r2.pos = r1.pos + (x.udta1.bytes.length + 8) := by rw [← hr2]; rfl
  refine ⟨r1, r2, ?_⟩
  have f1' : findChild (x.bytes.length + 1) (Rd.at x.bytes (x.before.bytes.length + 8))
        (8 + (x.moov x.space).bytes.length) (ascii "udta") mode
        = .ok (some ⟨x.before.bytes.length + 8 + x.moov1.bytes.length, 8 + x.udtaLen x.space, false, .fourcc (ascii "udta")⟩, r1) := f1
  have f2' : findChild (x.bytes.length + 1) r1 (8 + x.udtaLen x.space) (ascii "meta") mode
        = .ok (some ⟨x.before.bytes.length + 8 + x.moov1.bytes.length + 8 + x.udta1.bytes.length, 8 + x.metaLen x.space, false,
          .fourcc (ascii "meta")⟩, r2) := by
    rw [f2, p1]
    rfl
  have hsp : 8 ≤ (boxes x.items1 ++ x.space).length := by
    simp only [File.space, File.space1, List.length_append]
    rw [box_length _ _ rfl]
    omega
  have ea : boxes x.atoms ++ (x.udta2.bytes ++ (x.moov2.bytes ++ x.after.bytes)) =
      boxes x.items1 ++ x.space ++ (boxes x.items2 ++ (x.udta2.bytes ++ (x.moov2.bytes ++ x.after.bytes))) := by
    rw [boxes_atoms]
    simp only [List.append_assoc]
  generalize hB : boxes x.items1 ++ x.space = B at hsp a3 ea
  have hv := hx.version
  rw [hB] at hv
  rcases hv with ⟨v4, hn⟩ | ⟨v0, hn⟩
  · have hbk : At r2 (x.version ++ (B.take 4 ++ (B.drop 4 ++ (boxes x.items2 ++ (x.udta2.bytes ++ (x.moov2.bytes ++ x.after.bytes)))))) := by
      rw [← List.append_assoc (B.take 4), List.take_append_drop]
      exact a3
    have hf := metaIsFull_back hbk v4 (by simp; omega)
    rw [if_neg hn] at hf
    refine ⟨r2.skip 4, true, x.udta2.bytes ++ (x.moov2.bytes ++ x.after.bytes), f1', f2', hf, ?_, ?_⟩
    · rw [ea]
      exact a3.skip v4
    · rw [skip_pos, p2, p1, v4]
      omega
  · rw [v0, List.nil_append] at a3
    have hbk : At r2 (B.take 4 ++ ((B.drop 4).take 4 ++ (B.drop 8 ++ (boxes x.items2 ++ (x.udta2.bytes ++ (x.moov2.bytes ++ x.after.bytes)))))) := by
      have e : B = B.take 4 ++ ((B.drop 4).take 4 ++ B.drop 8) := by
        have h1 := (List.take_append_drop 4 (B.drop 4)).symm
        rw [List.drop_drop] at h1
        rw [← h1, List.take_append_drop]
      rw [e] at a3
      simp only [List.append_assoc] at a3
      exact a3
    have hf := metaIsFull_back hbk (by simp; omega) (by simp; omega)
    rw [if_pos hn] at hf
    refine ⟨r2, false, x.udta2.bytes ++ (x.moov2.bytes ++ x.after.bytes), f1', f2', hf, ?_, ?_⟩
    · rw [ea]
      exact a3
    · rw [p2, p1, v0]
      simp only [List.length_nil]
      omega

theorem atoms_ids (x : File) (hx : x.Ok) : ∀ y ∈ x.atoms, IdOk y.1 := by
  intro y hy
  simp only [File.atoms, List.mem_append, List.mem_cons, List.mem_map] at hy
  rcases hy with (hy | ⟨c, _, rfl⟩) | rfl | ⟨c, _, rfl⟩ | hy
  · exact hx.items1.1 y hy
  · exact free_ok
  · exact ilst_ok
  · exact free_ok
  · exact (hx.items2.1 y hy).1

theorem frees_ids (l : List Bytes) : ∀ y ∈ l.map (fun c => (ascii "free", c)), IdOk y.1 := by
  intro y hy
  obtain ⟨c, _, rfl⟩ := List.mem_map.mp hy
  exact free_ok

theorem atoms_idx (x : File) (hx : x.Ok) : lastIdx (ascii "ilst") 0 0 x.atoms = x.items1.length + x.free1.length + 1 := by
  have hfi : ¬ ascii "free" = ascii "ilst" := by decide
  rw [File.atoms, lastIdx_append, lastIdx, lastIdx_append]
  simp only [if_true]
  rw [lastIdx_none (l := x.free2.map _), lastIdx_none (l := x.items2)]
  · simp
  · intro y hy; exact (hx.items2.1 y hy).2
  · intro y hy
    obtain ⟨c, _, rfl⟩ := List.mem_map.mp hy
    exact hfi

/-- The atoms of `meta` as they are found. -/
theorem tree_ok (x : File) (hx : x.Ok) (mode : Mode) {r : Rd} {rest : Bytes} (h : At r (boxes x.atoms ++ rest)) :
    ∃ r', atomTree r (8 + x.metaLen x.space - 8) (ascii "ilst") mode =
      .ok (x.items1.length + x.free1.length, infos r.pos x.atoms, r') := by
  have hl := hx.size
  have hb := congrArg List.length (boxes_atoms x)
  have hm : 8 + x.metaLen x.space - 8 = (boxes x.atoms).length + x.version.length := by
    simp only [List.length_append] at hb
    simp only [File.metaLen, List.length_append, hb]
    omega
  have hv : x.version.length ≤ 8 := by
    rcases hx.version with ⟨h, _⟩ | ⟨h, _⟩
    · omega
    · rw [h]; simp
  have hlt : (boxes x.atoms).length < 2 ^ 32 := by
    have h1 := congrArg List.length (whole_bytes x (x.moov x.space))
    have h2 := congrArg List.length (moov_bytes x x.space)
    have hw : x.bytes.length = (x.whole (x.moov x.space)).bytes.length := rfl
    simp only [List.length_append] at h1 h2 hb
    rw [box_length _ _ rfl] at h2
    simp only [List.length_append] at h2
    rw [box_length _ _ rfl] at h2
    simp only [List.length_append] at h2
    omega
  obtain ⟨r', hr'⟩ := treeLoop_ok (mode := mode) (upTo := ascii "ilst") hv x.atoms (atoms_ids x hx) ((boxes x.atoms).length + x.version.length + 1) r 0 0 []
    (by omega) h hlt (fun e => hx.last (List.eq_nil_of_length_eq_zero e))
  refine ⟨r', ?_⟩
  unfold atomTree
  rw [hm, hr', ok_bind, atoms_idx x hx]
  rfl

/-- The plan. -/
theorem plan_ok (x : File) (hx : x.Ok) (new : Bytes) (m : Info) {p : Nat} (hp : p + (boxes x.items1).length = x.start) :
    plan m (x.items1.length + x.free1.length) (infos p x.atoms) new =
      if new = [] then .ok (.range (x.start + (frees x.free1).length) (x.start + x.space1.length) [])
      else if x.space.length > new.length + 8 then .ok (.inPlace x.start (x.space.length - new.length))
      else .ok (.range x.start (x.start + x.space1.length) new) := by
  have hlt : x.space.length < 2 ^ 32 := by
    have hl := hx.size
    have h1 := congrArg List.length (whole_bytes x (x.moov x.space))
    have h2 := congrArg List.length (moov_bytes x x.space)
    have hw : x.bytes.length = (x.whole (x.moov x.space)).bytes.length := rfl
    simp only [List.length_append] at h1 h2
    rw [box_length _ _ rfl] at h2
    simp only [List.length_append] at h2
    rw [box_length _ _ rfl] at h2
    simp only [List.length_append] at h2
    omega
  have i1 := hx.items1.1
  have i2 : ∀ y ∈ x.items2, IdOk y.1 := fun y hy => (hx.items2.1 y hy).1
  have hs1 : x.space1.length = (frees x.free1).length + (8 + x.ilst.length) := by
    rw [File.space1, List.length_append, box_length _ _ rfl]
  have hs : x.space.length = x.space1.length + (frees x.free2).length := by
    rw [File.space, List.length_append]
  -- the list of atoms
  have htree : infos p x.atoms = (infos p x.items1 ++ infos x.start (x.free1.map fun c => (ascii "free", c))) ++
      (⟨x.start + (frees x.free1).length, 8 + x.ilst.length, false, .fourcc (ascii "ilst")⟩ ::
        (infos (x.start + x.space1.length) (x.free2.map fun c => (ascii "free", c)) ++
          infos (x.start + x.space1.length + (frees x.free2).length) x.items2)) := by
    have hq : x.start + (frees x.free1).length + (8 + x.ilst.length) = x.start + x.space1.length := by omega
    rw [File.atoms, List.append_assoc, infos_append i1, infos_append (frees_ids _), infos, infos_append (frees_ids _), hp,
      List.append_assoc]
    simp only [show boxes (x.free1.map fun c => (ascii "free", c)) = frees x.free1 from rfl,
      show boxes (x.free2.map fun c => (ascii "free", c)) = frees x.free2 from rfl, hq]
  have hlen : (infos p x.items1 ++ infos x.start (x.free1.map fun c => (ascii "free", c))).length = x.items1.length + x.free1.length := by
    simp [infos_length]
  rw [htree]
  generalize hE : (⟨x.start + (frees x.free1).length, 8 + x.ilst.length, false, .fourcc (ascii "ilst")⟩ : Info) = e
  have he1 : e.start = x.start + (frees x.free1).length := by rw [← hE]
  have he2 : e.len = 8 + x.ilst.length := by rw [← hE]
  generalize hT1 : infos p x.items1 = T1 at hlen ⊢
  generalize hF1 : infos x.start (x.free1.map fun c => (ascii "free", c)) = F1 at hlen ⊢
  generalize hF2 : infos (x.start + x.space1.length) (x.free2.map fun c => (ascii "free", c)) = F2
  generalize hT2 : infos (x.start + x.space1.length + (frees x.free2).length) x.items2 = T2
  have hget : ((T1 ++ F1) ++ (e :: (F2 ++ T2)))[x.items1.length + x.free1.length]? = some e := by
    rw [List.getElem?_append_right (by omega), hlen, Nat.sub_self]
    rfl
  have htake : ((T1 ++ F1) ++ (e :: (F2 ++ T2))).take (x.items1.length + x.free1.length) = T1 ++ F1 := List.take_left' hlen
  have hdrop : ((T1 ++ F1) ++ (e :: (F2 ++ T2))).drop (x.items1.length + x.free1.length + 1) = F2 ++ T2 := by
    rw [← hlen, ← List.drop_drop, List.drop_left' rfl]
    rfl
  have hbef : (T1 ++ F1).reverse.takeWhile isFree = F1.reverse := by
    rw [List.reverse_append]
    refine takeWhile_append_stop ?_ ?_
    · intro a ha
      rw [← hF1] at ha
      exact isFree_frees _ _ a (List.mem_reverse.mp ha)
    · intro a ha
      rw [List.head?_reverse] at ha
      have h1 : T1.getLast?.map Info.ident = x.items1.getLast?.map fun y => .fourcc y.1 := by rw [← hT1]; exact infos_getLast
      rw [ha, Option.map_some] at h1
      have h2 := hx.items1.2
      cases hg : x.items1.getLast? with
      | none => rw [hg] at h1; cases h1
      | some y =>
        rw [hg] at h1 h2
        simp only [Option.map_some, Option.some.injEq, ne_eq] at h1 h2
        unfold isFree
        rw [h1]
        apply decide_eq_false
        intro h
        injection h with h
        exact h2 h
  have haft : (F2 ++ T2).takeWhile isFree = F2 := by
    refine takeWhile_append_stop ?_ ?_
    · intro a ha
      rw [← hF2] at ha
      exact isFree_frees _ _ a ha
    · intro a ha
      rw [← hT2] at ha
      have h2 := hx.items2.2
      cases hg : x.items2 with
      | nil => rw [hg] at ha; cases ha
      | cons y l =>
        rw [hg] at ha h2
        simp only [infos, List.head?_cons, Option.some.injEq] at ha
        simp only [List.head?_cons, Option.map_some, Option.some.injEq, ne_eq] at h2
        subst ha
        unfold isFree
        apply decide_eq_false
        intro h
        injection h with h
        exact h2 h
  have hst : (F1.reverse.getLast?.map Info.start).getD e.start = x.start := by
    rw [List.getLast?_reverse, ← hF1, infos_head, he1]
    cases x.free1 with
    | nil => simp [frees, boxes]
    | cons c l => rfl
  have hav : e.len + (F1.reverse.map Info.len).sum + (F2.map Info.len).sum = x.space.length := by
    rw [List.map_reverse, List.sum_reverse, ← hF1, ← hF2, infos_sum (frees_ids _), infos_sum (frees_ids _), he2]
    simp only [frees] at hs hs1
    omega
  unfold plan
  rw [hget]
  simp only
  rw [htake, hdrop, hbef, haft, hst, hav, he1, he2]
  by_cases hn : new = []
  · rw [if_pos hn, if_pos hn, hs1]
    simp only [Nat.add_assoc]
  · rw [if_neg hn, if_neg hn]
    by_cases hb : x.space.length > new.length + 8
    · rw [if_pos hb, if_pos hb, if_neg (by omega)]
    · rw [if_neg hb, if_neg hb, hs1]
      simp only [Nat.add_assoc]

theorem udtaLen_eq (x : File) (region : Bytes) :
    x.udtaLen region = x.udta1.bytes.length + (8 + x.metaLen region + x.udta2.bytes.length) := rfl

theorem metaLen_eq (x : File) (region : Bytes) :
    x.metaLen region = (x.version ++ boxes x.items1).length + region.length + (boxes x.items2).length := by
  simp only [File.metaLen, List.length_append]

theorem moovLen_eq (x : File) (region : Bytes) :
    (x.moov region).bytes.length = x.moov1.bytes.length + (8 + x.udtaLen region + x.moov2.bytes.length) := by
  rw [moov_bytes, List.length_append, List.length_append, box_length _ _ rfl]
  simp only [File.udtaLen, File.metaLen, List.length_append]
  rw [box_length _ _ rfl]
  simp only [List.length_append]

theorem wholeLen_eq (x : File) (region : Bytes) :
    (x.whole (x.moov region)).bytes.length = x.before.bytes.length + 8 + (x.moov region).bytes.length + x.after.bytes.length := by
  rw [whole_bytes]
  simp only [List.length_append, beBytes_length, show (ascii "moov").length = 4 from rfl]
  omega

/-- The file with a region, without moving offsets or with. -/
theorem whole_flat' (x : File) (hx : x.Ok) (s : Nat → Nat) (region : Bytes) :
    (x.whole ((x.moov region).mapOffsets s)).bytes =
      flat x.before.bytes (8 + (x.moov region).bytes.length) (x.moov1.mapOffsets s).bytes (8 + x.udtaLen region)
        (x.udta1.mapOffsets s).bytes (8 + x.metaLen region) (x.version ++ boxes x.items1) region
        (boxes x.items2) (x.udta2.mapOffsets s).bytes (x.moov2.mapOffsets s).bytes x.after.bytes := by
  rw [whole_flat x s region hx.moov1.2.1 hx.moov2.2.1 hx.udta1.2.1 hx.udta2.2.1, moovLen_eq]
  rfl

theorem tables_append {f g : Forest} (hf : f.Tables) (hg : g.Tables) : (f.append g).Tables := by
  induction f with
  | nil => exact hg
  | leaf id c rest ih => exact ⟨hf.1, ih hf.2⟩
  | node id kids rest _ ih => exact ⟨hf.1, ih hf.2⟩

theorem moov_tables (x : File) (hx : x.Ok) (region : Bytes) : (x.moov region).Tables := by
  have hs : ¬ ascii "meta" = ascii "stco" := by decide
  exact tables_append hx.moov1.2.1 ⟨tables_append hx.udta1.2.1 ⟨fun e => absurd e hs, hx.udta2.2.1⟩, hx.moov2.2.1⟩

theorem bytes_flat (x : File) (hx : x.Ok) : x.bytes =
    flat x.before.bytes (8 + (x.moov x.space).bytes.length) x.moov1.bytes (8 + x.udtaLen x.space)
        x.udta1.bytes (8 + x.metaLen x.space) (x.version ++ boxes x.items1) x.space
        (boxes x.items2) x.udta2.bytes x.moov2.bytes x.after.bytes := by
  have h := whole_flat' x hx id x.space
  have hid : ∀ o, o < 2 ^ 32 → id o = o := fun _ _ => rfl
  rw [mapOffsets_same hid _ (moov_tables x hx _), mapOffsets_same hid _ hx.moov1.2.1, mapOffsets_same hid _ hx.moov2.2.1,
    mapOffsets_same hid _ hx.udta1.2.1, mapOffsets_same hid _ hx.udta2.2.1] at h
  exact h

/-- Setting the size of `meta`. -/
theorem setSize_meta (A : Bytes) (a : Nat) (m1 : Bytes) (b : Nat) (u1 : Bytes) (c : Nat) (V R W u2 m2 D : Bytes) (n p : Nat) (e : Bool)
    (hp : p = A.length + 8 + m1.length + 8 + u1.length) (hn : n < 2 ^ 32) :
    setSize (flat A a m1 b u1 c V R W u2 m2 D) p n e = flat A a m1 b u1 n V R W u2 m2 D := by
  have h := setSize_mid (A ++ (beBytes 4 a ++ (ascii "moov" ++ (m1 ++ (beBytes 4 b ++ (ascii "udta" ++ u1))))))
    (ascii "meta" ++ (V ++ (R ++ (W ++ (u2 ++ (m2 ++ D)))))) c n e hn
  have hl : (A ++ (beBytes 4 a ++ (ascii "moov" ++ (m1 ++ (beBytes 4 b ++ (ascii "udta" ++ u1)))))).length = p := by
    simp only [List.length_append, beBytes_length, show (ascii "moov").length = 4 from rfl, show (ascii "udta").length = 4 from rfl, hp]
    omega
  rw [hl] at h
  simp only [List.append_assoc] at h
  exact h

theorem setSize_udta (A : Bytes) (a : Nat) (m1 : Bytes) (b : Nat) (u1 : Bytes) (c : Nat) (V R W u2 m2 D : Bytes) (n p : Nat) (e : Bool)
    (hp : p = A.length + 8 + m1.length) (hn : n < 2 ^ 32) :
    setSize (flat A a m1 b u1 c V R W u2 m2 D) p n e = flat A a m1 n u1 c V R W u2 m2 D := by
  have h := setSize_mid (A ++ (beBytes 4 a ++ (ascii "moov" ++ m1)))
    (ascii "udta" ++ (u1 ++ (beBytes 4 c ++ (ascii "meta" ++ (V ++ (R ++ (W ++ (u2 ++ (m2 ++ D))))))))) b n e hn
  have hl : (A ++ (beBytes 4 a ++ (ascii "moov" ++ m1))).length = p := by
    simp only [List.length_append, beBytes_length, show (ascii "moov").length = 4 from rfl, hp]
    omega
  rw [hl] at h
  simp only [List.append_assoc] at h
  exact h

theorem setSize_moov (A : Bytes) (a : Nat) (m1 : Bytes) (b : Nat) (u1 : Bytes) (c : Nat) (V R W u2 m2 D : Bytes) (n : Nat) (e : Bool)
    (hn : n < 2 ^ 32) :
    setSize (flat A a m1 b u1 c V R W u2 m2 D) A.length n e = flat A n m1 b u1 c V R W u2 m2 D :=
  setSize_mid A (ascii "moov" ++ (m1 ++ (beBytes 4 b ++ (ascii "udta" ++ (u1 ++ (beBytes 4 c ++ (ascii "meta" ++
    (V ++ (R ++ (W ++ (u2 ++ (m2 ++ D)))))))))))) a n e hn

theorem splice_flat (A : Bytes) (a : Nat) (m1 : Bytes) (b : Nat) (u1 : Bytes) (c : Nat) (V r1 old r2 W u2 m2 D : Bytes) (p q : Nat)
    (rep : Bytes) (hp : p = A.length + 8 + m1.length + 8 + u1.length + 8 + V.length + r1.length) (hq : q = p + old.length) :
    splice (flat A a m1 b u1 c V (r1 ++ (old ++ r2)) W u2 m2 D) p q rep
      = .ok (flat A a m1 b u1 c V (r1 ++ (rep ++ r2)) W u2 m2 D) := by
  have h := splice_mid (A ++ (beBytes 4 a ++ (ascii "moov" ++ (m1 ++ (beBytes 4 b ++ (ascii "udta" ++ (u1 ++ (beBytes 4 c ++ (ascii "meta" ++
    (V ++ r1)))))))))) old rep (r2 ++ (W ++ (u2 ++ (m2 ++ D))))
  have hl : (A ++ (beBytes 4 a ++ (ascii "moov" ++ (m1 ++ (beBytes 4 b ++ (ascii "udta" ++ (u1 ++ (beBytes 4 c ++ (ascii "meta" ++
    (V ++ r1)))))))))).length = p := by
    simp only [List.length_append, beBytes_length, show (ascii "moov").length = 4 from rfl, show (ascii "udta").length = 4 from rfl,
      show (ascii "meta").length = 4 from rfl, hp]
    omega
  rw [hl, ← hq] at h
  simp only [List.append_assoc] at h
  simp only [flat, List.append_assoc]
  exact h

theorem moved_off_same (x : File) (hx : x.Ok) {off : Nat} {d : Int} (hd : d = 0) :
    (x.moov1.mapOffsets (moved off d)).bytes = x.moov1.bytes ∧ (x.moov2.mapOffsets (moved off d)).bytes = x.moov2.bytes ∧
    (x.udta1.mapOffsets (moved off d)).bytes = x.udta1.bytes ∧ (x.udta2.mapOffsets (moved off d)).bytes = x.udta2.bytes := by
  subst hd
  have h := fun o h => moved_zero off o h
  rw [mapOffsets_same h _ hx.moov1.2.1, mapOffsets_same h _ hx.moov2.2.1, mapOffsets_same h _ hx.udta1.2.1, mapOffsets_same h _ hx.udta2.2.1]
  exact ⟨rfl, rfl, rfl, rfl⟩

/-- Replacing a range and finishing. -/
theorem replace_ok (x : File) (hx : x.Ok) (r1 old r2 rep rep' : Bytes) (d : Int) (p : Nat) (pad : Option Nat)
    (hsp : x.space = r1 ++ (old ++ r2))
    (hpad : padChanged rep ((rep.length : Int) - old.length) pad = .ok (rep', d, p))
    (hr : rep'.length = rep.length + p) (hd : d = (rep'.length : Int) - old.length)
    (hsz : x.bytes.length + rep'.length < 2 ^ 32) :
    (do
      let (f, usize) ← replaceRange (ctx 0 (x.whole (x.moov x.space))) (ctx (x.before.bytes.length + 8) (x.moov x.space))
        ⟨x.before.bytes.length + 8 + x.moov1.bytes.length + 8 + x.udta1.bytes.length, 8 + x.metaLen x.space, false, .fourcc (ascii "meta")⟩
        ⟨x.before.bytes.length + 8 + x.moov1.bytes.length, 8 + x.udtaLen x.space, false, .fourcc (ascii "udta")⟩
        x.bytes (x.start + r1.length) (x.start + r1.length + old.length) rep pad
      finish ⟨x.before.bytes.length, 8 + (x.moov x.space).bytes.length, false, .fourcc (ascii "moov")⟩ f (8 + x.udtaLen x.space) usize)
    = .ok (x.whole ((x.moov (r1 ++ (rep' ++ r2))).mapOffsets (moved (x.start + r1.length) d))).bytes := by
  have hm0 := metaLen_eq x x.space
  have hu0 := udtaLen_eq x x.space
  have hv0 := moovLen_eq x x.space
  have hm1 := metaLen_eq x (r1 ++ (rep' ++ r2))
  have hu1 := udtaLen_eq x (r1 ++ (rep' ++ r2))
  have hv1 := moovLen_eq x (r1 ++ (rep' ++ r2))
  have hw : x.bytes.length = _ := wholeLen_eq x x.space
  have hsl := congrArg List.length hsp
  simp only [List.length_append] at hsl hm1
  have hst : x.start = x.before.bytes.length + 8 + x.moov1.bytes.length + 8 + x.udta1.bytes.length + 8 + (x.version ++ boxes x.items1).length := by
    simp only [File.start, List.length_append]
    omega
  rw [whole_flat' x hx]
  unfold replaceRange
  simp only
  have hdf : x.start + r1.length + old.length - (x.start + r1.length) = old.length := by omega
  rw [if_neg (by omega), hdf]
  simp only [List.length_append] at hm0
  have hsize : 8 + x.metaLen x.space - old.length + rep.length + p = 8 + x.metaLen (r1 ++ (rep' ++ r2)) := by omega
  have husize : (8 + x.udtaLen x.space) - (8 + x.metaLen x.space) + (8 + x.metaLen (r1 ++ (rep' ++ r2))) = 8 + x.udtaLen (r1 ++ (rep' ++ r2)) := by
    omega
  have hmsize : 8 + (x.moov x.space).bytes.length - (8 + x.udtaLen x.space) + (8 + x.udtaLen (r1 ++ (rep' ++ r2)))
      = 8 + (x.moov (r1 ++ (rep' ++ r2))).bytes.length := by omega
  have hdd : ((8 + x.metaLen x.space - old.length + rep.length : Nat) : Int) - (8 + x.metaLen x.space : Nat) = (rep.length : Int) - old.length := by
    omega
  rw [hdd, hpad, ok_bind]
  simp only
  rw [hsize, if_neg (by omega), husize]
  have hB := bytes_flat x hx
  by_cases h0 : d = 0
  · obtain ⟨e1, e2, e3, e4⟩ := moved_off_same x hx (off := x.start + r1.length) h0
    have hq : 8 + x.metaLen (r1 ++ (rep' ++ r2)) = 8 + x.metaLen x.space := by omega
    have hq2 : 8 + x.udtaLen (r1 ++ (rep' ++ r2)) = 8 + x.udtaLen x.space := by omega
    have hq3 : 8 + (x.moov (r1 ++ (rep' ++ r2))).bytes.length = 8 + (x.moov x.space).bytes.length := by omega
    rw [if_neg (by omega), if_neg (by omega), moveOffsets, if_neg (by omega), ok_bind]
    conv in splice x.bytes _ _ _ => rw [hB]; arg 1; arg 8; rw [hsp]
    rw [splice_flat _ _ _ _ _ _ _ _ _ _ _ _ _ _ _ _ _ (by omega) rfl, ok_bind, ok_bind]
    simp only
    unfold finish
    simp only
    rw [if_neg (by omega), setSize_moov _ _ _ _ _ _ _ _ _ _ _ _ _ _ (by omega), e1, e2, e3, e4]
    rw [hq, hq2, hq3, show 8 + (x.moov x.space).bytes.length - (8 + x.udtaLen x.space) + (8 + x.udtaLen x.space) = 8 + (x.moov x.space).bytes.length by omega]
  · rw [if_pos (by omega), if_pos (by omega), moveOffsets, if_pos h0]
    rw [hB, setSize_meta _ _ _ _ _ _ _ _ _ _ _ _ _ _ _ rfl (by omega), setSize_udta _ _ _ _ _ _ _ _ _ _ _ _ _ _ _ rfl (by omega)]
    unfold updateOffsets
    have hfold := fold_flat d (x.start + r1.length) x hx x.space x.before.bytes (8 + (x.moov x.space).bytes.length)
      (8 + x.udtaLen (r1 ++ (rep' ++ r2))) (8 + x.metaLen (r1 ++ (rep' ++ r2))) (x.version ++ boxes x.items1) x.space (boxes x.items2) x.after.bytes
      (by simp only [List.length_append])
    rw [hfold, ok_bind, no_co64 x hx, List.foldlM_nil]
    simp only [pure_bind, find_moof x hx]
    rw [ok_bind]
    have l1 := mapOffsets_length (moved (x.start + r1.length) d) _ hx.moov1.2.1
    have l2 := mapOffsets_length (moved (x.start + r1.length) d) _ hx.udta1.2.1
    rw [hsp, splice_flat _ _ _ _ _ _ _ _ _ _ _ _ _ _ _ _ _ (by omega) rfl, ok_bind, ok_bind]
    simp only
    unfold finish
    simp only
    rw [← hsp, if_neg (by omega), setSize_moov _ _ _ _ _ _ _ _ _ _ _ _ _ _ (by omega), hmsize]

end Lofty.Mp4Write
