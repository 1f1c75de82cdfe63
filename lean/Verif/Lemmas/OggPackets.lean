import Verif.Lemmas.OggRead
/-! Helper lemmas for C10 (grouping of pages) and C11 (packet access). -/
namespace Lofty.Ogg

/-! ### Grouping pages by packet -/

def groupsFrom (F : Nat → Piece → Page) : Nat → List Bytes → List (List Page)
  | _, [] => []
  | k, p :: ps =>
    if p.isEmpty then groupsFrom F k ps
    else (piecesOf p).mapIdx (fun i x => F (k + i) x) :: groupsFrom F (k + (piecesOf p).length) ps

theorem groupsFrom_flatten (F : Nat → Piece → Page) (k : Nat) (ps : List Bytes) :
    (groupsFrom F k ps).flatten = (ps.flatMap piecesOf).mapIdx (fun i x => F (k + i) x) := by
  induction ps generalizing k with
  | nil => rfl
  | cons p ps ih =>
    rw [groupsFrom]
    split
    · rename_i h
      rw [ih, List.flatMap_cons]
      simp [piecesOf, h]
    · rw [List.flatten_cons, ih, List.flatMap_cons, List.mapIdx_append]
      congr 1
      apply List.ext_getElem?
      intro i
      simp only [List.getElem?_mapIdx]
      congr 1
      funext x
      rw [Nat.add_assoc, Nat.add_comm (piecesOf p).length]

theorem groupsFrom_forall (F : Nat → Piece → Page) (k : Nat) (ps : List Bytes)
    (P : List Page → Bytes → Prop)
    (h : ∀ k p, p ≠ [] → P ((piecesOf p).mapIdx (fun i x => F (k + i) x)) p) :
    List.Forall₂ P (groupsFrom F k ps) (ps.filter (fun p => !p.isEmpty)) := by
  induction ps generalizing k with
  | nil => exact .nil
  | cons p ps ih =>
    rw [groupsFrom]
    by_cases hp : p.isEmpty
    · simp [hp, ih]
    · simp only [hp, List.filter_cons, Bool.false_eq_true, if_false, Bool.not_false, if_true]
      exact .cons (h k p (by simpa using hp)) (ih _)

theorem piecesOf_closed (p : Bytes) (hp : p ≠ []) :
    piecesOf p = (List.range (p.length / 8160 + 1)).map (pieceAt true 0 p) := by
  rw [piecesOf, if_neg (by simpa using hp), split_closed]

theorem piecesOf_data (p : Bytes) : ((piecesOf p).map Piece.data).flatten = p := by
  unfold piecesOf
  split
  · rename_i h; simp at h; simp [h]
  · exact split_data _ _ _

theorem finalPage_content (s a : Nat) (fl : UInt8) (t i : Nat) (x : Piece) :
    (finalPage s a fl t i x).content = x.data := by
  unfold finalPage; simp only; split <;> rfl

theorem finalPage_segments (s a : Nat) (fl : UInt8) (t i : Nat) (x : Piece) :
    (finalPage s a fl t i x).header.segments = pieceSegments x.data := by
  unfold finalPage; simp only; split <;> rfl

theorem finalPage_abgp (s a : Nat) (fl : UInt8) (t i : Nat) (x : Piece) :
    (finalPage s a fl t i x).header.abgp = if x.more then noGranule else a := by
  unfold finalPage; simp only; split <;> rfl

theorem finalPage_serial (s a : Nat) (fl : UInt8) (t i : Nat) (x : Piece) :
    (finalPage s a fl t i x).header.serial = s := by
  unfold finalPage; simp only; split <;> rfl

theorem finalPage_seq (s a : Nat) (fl : UInt8) (t i : Nat) (x : Piece) :
    (finalPage s a fl t i x).header.seq = i % 2 ^ 32 := by
  unfold finalPage; simp only; split <;> rfl

theorem finalPage_flag (s a : Nat) (fl : UInt8) (t i : Nat) (x : Piece) :
    (finalPage s a fl t i x).header.flag =
      (if (i == 0) && fl &&& firstPageFlag != 0 then firstPageFlag
        else if !x.starts then continuedPacket else 0)
      ||| (if fl &&& lastPageFlag = 0x04 ∧ i + 1 = t then lastPageFlag else 0) := by
  unfold finalPage; simp only; split
  · rfl
  · simp [piecePage]

/-! ### Packet access -/

theorem iterFrom_flatten (ps : List Bytes) (t : Bytes) :
    iterFrom (ps.flatten ++ t) (ps.map List.length) = .ok ps := by
  induction ps generalizing t with
  | nil => rfl
  | cons p ps ih =>
    simp only [List.flatten_cons, List.map_cons, List.append_assoc]
    rw [iterFrom, if_pos (by simp)]
    rw [List.drop_left, List.take_left, ih]
    rfl

theorem iterFrom_ok {c : Bytes} {ns : List Nat} {ps : List Bytes} (h : iterFrom c ns = .ok ps) :
    ns = ps.map List.length ∧ ∃ t, c = ps.flatten ++ t := by
  induction ns generalizing c ps with
  | nil => simp [iterFrom] at h; subst h; exact ⟨rfl, c, rfl⟩
  | cons n ns ih =>
    rw [iterFrom] at h
    split at h
    · rename_i hn
      obtain ⟨l, hl, he⟩ := bind_ok h
      simp at he
      subst he
      obtain ⟨h1, t, h2⟩ := ih hl
      refine ⟨?_, t, ?_⟩
      · simp [← h1]; omega
      · rw [List.flatten_cons, List.append_assoc, ← h2, List.take_append_drop]
    · simp at h

theorem iterFrom_total {c : Bytes} {ns : List Nat} (h : ns.sum ≤ c.length) :
    ∃ ps, iterFrom c ns = .ok ps := by
  induction ns generalizing c with
  | nil => exact ⟨[], rfl⟩
  | cons n ns ih =>
    simp at h
    obtain ⟨ps, hp⟩ := ih (c := c.drop n) (by simp; omega)
    exact ⟨_, by rw [iterFrom, if_pos (by omega), hp]; rfl⟩

theorem sum_take_map_length (ps : List Bytes) (i : Nat) :
    ((ps.map List.length).take i).sum = (ps.take i).flatten.length := by
  rw [← List.map_take, List.length_flatten]

theorem split_at_idx (ps : List Bytes) (i : Nat) (p : Bytes) (h : ps[i]? = some p) :
    ps = ps.take i ++ p :: ps.drop (i + 1) := by
  have hi : i < ps.length := by
    by_contra hc
    rw [List.getElem?_eq_none (by omega)] at h; cases h
  rw [List.getElem?_eq_getElem hi] at h
  cases h
  rw [← List.drop_eq_getElem_cons, List.take_append_drop]

end Lofty.Ogg
