import Verif.Props.Mp4Read
/-! Helper lemmas for saving the same tag to an MP4 file again. -/
namespace Lofty.Mp4Read
open Lofty.Text Lofty.Mp4 Lofty.Ilst Lofty.Mp4Write

/-- The file after a save: the new `ilst`, the padding behind it, and the chunk offsets moved. -/
def savedFile (x : File) (s : Nat → Nat) (content : Bytes) (l : List Bytes) : File :=
  { before := x.before, moov1 := x.moov1.mapOffsets s, udta1 := x.udta1.mapOffsets s, version := x.version,
    items1 := x.items1, free1 := [], ilst := content, free2 := l, items2 := x.items2,
    udta2 := x.udta2.mapOffsets s, moov2 := x.moov2.mapOffsets s, after := x.after }

theorem mapOffsets_names (s : Nat → Nat) (f : Forest) : (f.mapOffsets s).names = f.names := by
  induction f with
  | nil => rfl
  | leaf id c rest ih => rw [Forest.mapOffsets, Forest.names, ih, Forest.names]
  | node id kids rest ihk ih => rw [Forest.mapOffsets, Forest.names, ih, ihk, Forest.names]

theorem mapTable_count (s : Nat → Nat) (c : Bytes) (h : 8 + 4 * tableCount c ≤ c.length) : tableCount (mapTable s c) = tableCount c := by
  unfold mapTable tableCount
  have h8 : (c.take 8).length = 8 := by rw [List.length_take]; omega
  rw [List.drop_append_of_le_length (by omega), List.take_append_of_le_length (by rw [List.length_drop]; omega)]
  congr 1
  rw [List.drop_take, List.take_take]
  rfl

theorem mapOffsets_tables (s : Nat → Nat) (f : Forest) (h : f.Tables) : (f.mapOffsets s).Tables := by
  induction f with
  | nil => trivial
  | leaf id c rest ih =>
    refine ⟨?_, ih h.2⟩
    intro e
    rw [if_pos e, mapTable_count s c (h.1 e), mapTable_length s c (h.1 e)]
    exact h.1 e
  | node id kids rest ihk ih => exact ⟨ihk h.1, ih h.2⟩

theorem savedFile_space (x : File) (s : Nat → Nat) (content : Bytes) (l : List Bytes) :
    (savedFile x s content l).space = box (ascii "ilst") content ++ frees l := rfl

/-- The bytes of the file after a save. -/
theorem savedFile_bytes (x : File) (s : Nat → Nat) (content : Bytes) (l : List Bytes) :
    (savedFile x s content l).bytes = (x.whole ((x.moov (box (ascii "ilst") content ++ frees l)).mapOffsets s)).bytes := by
  have hne : ¬ ascii "meta" = ascii "stco" := by decide
  rw [File.bytes, savedFile_space]
  congr 1
  unfold File.whole File.moov
  rw [append_mapOffsets, Forest.mapOffsets, append_mapOffsets, Forest.mapOffsets, if_neg hne]
  rfl

/-- A saved file is a well-formed file again. -/
theorem savedFile_ok (x : File) (hx : x.Ok) (s : Nat → Nat) (content : Bytes) (l : List Bytes)
    (hv : x.version ≠ [] ∨ x.items2 ≠ []) (hsz : x.bytes.length + (box (ascii "ilst") content ++ frees l).length < 2 ^ 30) :
    (savedFile x s content l).Ok := by
  have hnl : (box (ascii "ilst") content).length = 8 + content.length := box_length _ _ rfl
  refine ⟨hx.brand, hx.before, hx.after, ?_, ?_, ?_, ?_, hx.items1, hx.items2, ?_, ?_, ?_⟩
  · exact ⟨mapOffsets_ok s hx.moov1.1, mapOffsets_tables s _ hx.moov1.2.1, by rw [savedFile, mapOffsets_top]; exact hx.moov1.2.2.1,
      by rw [savedFile, mapOffsets_names]; exact hx.moov1.2.2.2⟩
  · exact ⟨mapOffsets_ok s hx.moov2.1, mapOffsets_tables s _ hx.moov2.2.1, by rw [savedFile, mapOffsets_names]; exact hx.moov2.2.2⟩
  · exact ⟨mapOffsets_ok s hx.udta1.1, mapOffsets_tables s _ hx.udta1.2.1, by rw [savedFile, mapOffsets_top]; exact hx.udta1.2.2.1,
      by rw [savedFile, mapOffsets_names]; exact hx.udta1.2.2.2⟩
  · exact ⟨mapOffsets_ok s hx.udta2.1, mapOffsets_tables s _ hx.udta2.2.1, by rw [savedFile, mapOffsets_names]; exact hx.udta2.2.2⟩
  · rw [savedFile_space]
    show (x.version.length = 4 ∧ (boxes x.items1 ++ _).take 4 ∉ metaNames) ∨ (x.version = [] ∧ ((boxes x.items1 ++ _).drop 4).take 4 ∈ metaNames)
    by_cases hi : x.items1 = []
    · have hb0 : boxes [] = [] := rfl
      rw [hi, hb0, List.nil_append]
      rcases hx.version with ⟨h4, _⟩ | ⟨h0, _⟩
      · refine .inl ⟨h4, ?_⟩
        rw [box_eq, List.append_assoc, List.take_left' (beBytes_length _ _)]
        rw [List.length_append, hnl] at hsz
        exact size_not_name (by omega)
      · refine .inr ⟨h0, ?_⟩
        rw [box_eq, List.append_assoc, List.drop_left' (beBytes_length _ _), List.append_assoc, List.take_left' (l₁ := ascii "ilst") (i := 4) rfl]
        decide
    · rcases metaOk_items (b := box (ascii "ilst") content ++ frees l) hx.items1.1 hi hx.version with ⟨h4, _, h⟩ | h
      · exact .inl ⟨h4, h⟩
      · exact .inr h
  · intro h0
    have h2 : x.items2 ≠ [] := by
      rcases hv with hv | hv
      · exact absurd h0 hv
      · exact hv
    have hl := hx.last h0
    have hg : ∀ a b : List (Bytes × Bytes), (a ++ b ++ x.items2).getLast? = x.items2.getLast? := by
      intro a b
      rw [List.getLast?_append]
      cases hq : x.items2.getLast? with
      | none => exact absurd (List.getLast?_eq_none_iff.mp hq) h2
      | some y => rfl
    have e1 : x.atoms = (x.items1 ++ x.free1.map (fun c => (ascii "free", c))) ++
        ((ascii "ilst", x.ilst) :: x.free2.map (fun c => (ascii "free", c))) ++ x.items2 := by
      unfold File.atoms; simp
    have e2 : (savedFile x s content l).atoms = x.items1 ++
        ((ascii "ilst", content) :: l.map (fun c => (ascii "free", c))) ++ x.items2 := by
      unfold File.atoms savedFile; simp
    rw [e1, hg] at hl
    rw [e2, hg]
    exact hl
  · rw [savedFile_bytes]
    obtain ⟨_, _, hok⟩ := file_ok_moved x hx (box (ascii "ilst") content ++ frees l) s (by omega)
    exact hok.size

/-- How much longer a saved file is. -/
theorem savedFile_length (x : File) (hx : x.Ok) (s : Nat → Nat) (content : Bytes) (l : List Bytes) :
    (savedFile x s content l).bytes.length + x.space.length = x.bytes.length + (box (ascii "ilst") content ++ frees l).length := by
  rw [savedFile_bytes]
  have h1 : x.bytes.length = _ := wholeLen_eq x x.space
  generalize box (ascii "ilst") content ++ frees l = region
  have h2 : (x.whole ((x.moov region).mapOffsets s)).bytes.length =
      x.before.bytes.length + (8 + (x.moov region).bytes.length + x.after.bytes.length) := by
    rw [File.whole, append_bytes, List.length_append, bytes_length_node moov_ok, mapOffsets_length _ _ (moov_tables x hx region)]
  have a1 := moovLen_eq x x.space
  have a2 := udtaLen_eq x x.space
  have a3 := metaLen_eq x x.space
  have b1 := moovLen_eq x region
  have b2 := udtaLen_eq x region
  have b3 := metaLen_eq x region
  simp only [List.length_append] at a3 b3
  omega

theorem frees_pad (k : Nat) : frees [List.replicate (k - 8) 1] = padding k := by simp [padding, frees, boxes]

/-- A file whose tag is the one that is saved, with at most one padding atom as the library
writes it behind: nothing changes. -/
theorem fit_same (y : File) (l : List Bytes) (h1 : y.free1 = []) (h2 : y.free2 = l)
    (hl : l = [] ∨ ∃ k, 8 ≤ k ∧ l = [List.replicate (k - 8) 1]) (pad : Option Nat) :
    y.fit (box (ascii "ilst") y.ilst) pad = (y.space, 0) := by
  have hs1 : y.space1 = box (ascii "ilst") y.ilst := by rw [File.space1, h1]; rfl
  unfold File.fit
  rw [hs1]
  have hs : y.space = box (ascii "ilst") y.ilst ++ frees l := by rw [File.space, hs1, h2]
  rw [hs]
  rcases hl with rfl | ⟨k, hk, rfl⟩
  · have : frees [] = [] := rfl
    rw [if_neg (by rw [this, List.append_nil]; omega), if_pos (Nat.le_refl _), h2]
    simp
  · rw [frees_pad]
    have hp := padding_length hk
    by_cases h8 : k > 8
    · rw [if_pos (by rw [List.length_append, hp]; omega)]
      rw [List.length_append, hp, show (box (ascii "ilst") y.ilst).length + k - (box (ascii "ilst") y.ilst).length = k by omega]
    · rw [if_neg (by rw [List.length_append, hp]; omega), if_pos (Nat.le_refl _), h2, frees_pad]
      simp

theorem frees_length_cons (c : Bytes) (l : List Bytes) : (frees (c :: l)).length = 8 + c.length + (frees l).length := by
  show (boxes ((ascii "free", c) :: l.map _)).length = _
  rw [boxes_length_cons free_ok]
  rfl

/-- What the padding behind the tag is after a save. -/
theorem fit_padding (x : File) (content : Bytes) (pad : Option Nat) (hpad : ∀ k, pad = some k → 8 ≤ k)
    (h : (box (ascii "ilst") content).length + 8 < x.space.length ∨ x.free2 = []) :
    ∃ l, (l = [] ∨ ∃ k, 8 ≤ k ∧ l = [List.replicate (k - 8) 1]) ∧
      (x.fit (box (ascii "ilst") content) pad).1 = box (ascii "ilst") content ++ frees l := by
  have hn : frees [] = [] := rfl
  unfold File.fit
  by_cases hs : x.space.length > (box (ascii "ilst") content).length + 8
  · rw [if_pos hs]
    exact ⟨_, .inr ⟨x.space.length - (box (ascii "ilst") content).length, by omega, rfl⟩, by rw [frees_pad]⟩
  · rw [if_neg hs]
    have hf : x.free2 = [] := by
      rcases h with h | h
      · exact absurd h hs
      · exact h
    rw [hf, hn]
    split
    · exact ⟨[], .inl rfl, by rw [hn]⟩
    · split
      · next h8 => exact ⟨_, .inr ⟨_, h8, rfl⟩, by rw [frees_pad, List.append_nil]⟩
      · split
        · exact ⟨[], .inl rfl, by rw [hn]⟩
        · next k => exact ⟨_, .inr ⟨k, hpad k rfl, rfl⟩, by rw [frees_pad, List.append_nil]⟩

/-- A file whose tag is the one that is saved: it fits in place, or the padding behind is no
more than one empty atom. -/
theorem same_fits (y : File) (h1 : y.free1 = []) :
    (box (ascii "ilst") y.ilst).length + 8 < y.space.length ∨ y.free2 = [] ∨ y.free2 = [[]] := by
  have hs : y.space.length = (box (ascii "ilst") y.ilst).length + (frees y.free2).length := by
    rw [File.space, File.space1, h1]
    show ((([] : Bytes) ++ _) ++ _).length = _
    rw [List.nil_append, List.length_append]
  cases hq : y.free2 with
  | nil => exact .inr (.inl rfl)
  | cons c r =>
    rw [hq, frees_length_cons] at hs
    cases r with
    | nil =>
      cases c with
      | nil => exact .inr (.inr rfl)
      | cons a c => left; rw [hs]; simp only [List.length_cons]; omega
    | cons d r =>
      left
      rw [hs, frees_length_cons]
      omega

/-- Saving the tag a file has, when nothing is to change. -/
theorem write_same (y : File) (hy : y.Ok) (t : Tag) (mode : Mode) (pad : Option Nat) (hb : build t = .ok (box (ascii "ilst") y.ilst))
    (hpad : ∀ k, pad = some k → 8 ≤ k) (h1 : y.free1 = []) (hl : y.free2 = [] ∨ ∃ k, 8 ≤ k ∧ y.free2 = [List.replicate (k - 8) 1])
    (hsz : 2 * y.bytes.length + (box (ascii "ilst") y.ilst).length + pad.getD 0 < 2 ^ 32) :
    writeTo y.bytes t mode pad = .ok y.bytes := by
  have hnl : (box (ascii "ilst") y.ilst).length = 8 + y.ilst.length := box_length _ _ rfl
  rw [write_partial y hy t mode pad _ hb (by intro e; rw [e] at hnl; simp at hnl; omega) hpad hsz]
  rw [fit_same y y.free2 h1 rfl hl pad]
  simp only
  rw [mapOffsets_same (fun o h => moved_zero _ o h) _ (Mp4Write.moov_tables y hy _)]
  rfl

/-- Saving to a file whose tag is already the one that is saved, twice. -/
theorem same_settles (y : File) (hy : y.Ok) (hv : y.version ≠ [] ∨ y.items2 ≠ []) (t : Tag) (mode : Mode) (pad : Option Nat)
    (hb : build t = .ok (box (ascii "ilst") y.ilst))
    (hpad : ∀ k, pad = some k → 8 ≤ k) (h1 : y.free1 = [])
    (hsz : 4 * y.bytes.length + 3 * pad.getD 0 < 2 ^ 30) :
    ∃ g, writeTo y.bytes t mode pad = .ok g ∧ g.length = y.bytes.length ∧ writeTo g t mode pad = .ok g := by
  have hnl : (box (ascii "ilst") y.ilst).length = 8 + y.ilst.length := box_length _ _ rfl
  have hsp := space1_lt y
  have hs1 : y.space1 = box (ascii "ilst") y.ilst := by rw [File.space1, h1]; rfl
  rw [hs1] at hsp
  rcases same_fits y h1 with hfit | hnil | hone
  · have hw := write_partial y hy t mode pad _ hb (by intro e; rw [e] at hnl; simp at hnl; omega) hpad (by omega)
    have hf : y.fit (box (ascii "ilst") y.ilst) pad =
        (box (ascii "ilst") y.ilst ++ frees [List.replicate (y.space.length - (box (ascii "ilst") y.ilst).length - 8) 1], 0) := by
      unfold File.fit
      rw [if_pos hfit, frees_pad]
    rw [hf] at hw
    simp only at hw
    rw [← savedFile_bytes] at hw
    have hlen := savedFile_length y hy (moved y.start 0) y.ilst [List.replicate (y.space.length - (box (ascii "ilst") y.ilst).length - 8) 1]
    rw [frees_pad, List.length_append, padding_length (by omega)] at hlen
    refine ⟨_, hw, by omega, ?_⟩
    have hok := savedFile_ok y hy (moved y.start 0) y.ilst [List.replicate (y.space.length - (box (ascii "ilst") y.ilst).length - 8) 1] hv
      (by rw [frees_pad, List.length_append, padding_length (by omega)]; omega)
    exact write_same _ hok t mode pad hb hpad rfl (.inr ⟨y.space.length - (box (ascii "ilst") y.ilst).length, by omega, rfl⟩)
      (by show 2 * _ + (box (ascii "ilst") y.ilst).length + _ < _; omega)
  · exact ⟨_, write_same y hy t mode pad hb hpad h1 (.inl hnil) (by omega), rfl, write_same y hy t mode pad hb hpad h1 (.inl hnil) (by omega)⟩
  · have h := write_same y hy t mode pad hb hpad h1 (.inr ⟨8, Nat.le_refl _, hone⟩) (by omega)
    exact ⟨_, h, rfl, h⟩

end Lofty.Mp4Read
