import Verif.Props.Picture
import Verif.Lemmas.Text
/-!
# Pictures in APE items and pictures from files (C90)

`Picture::as_ape_bytes`, `Picture::from_ape_bytes` and `Picture::from_reader` are public.  The first writes the description
as UTF-8, the second reads it as Latin-1.
-/
namespace Lofty.Picture

/-- What stands in front of the first NUL, what comes behind it. -/
theorem apeDesc_split {desc : Bytes} (h : (0 : UInt8) ∉ desc) (data : Bytes) :
    apeDesc (desc ++ 0 :: data) = (desc.map fun b => Char.ofNat b.toNat, desc.length + 1, data) := by
  induction desc with
  | nil => simp [apeDesc]
  | cons b d ih =>
    simp only [List.mem_cons, not_or] at h
    rw [List.cons_append, apeDesc, if_neg (fun e => h.1 e.symm), ih h.2]
    simp

theorem apeDesc_whole {b : Bytes} (h : (0 : UInt8) ∉ b) : (apeDesc b).2.2 = [] := by
  induction b with
  | nil => rfl
  | cons x b ih =>
    simp only [List.mem_cons, not_or] at h
    rw [apeDesc, if_neg (fun e => h.1 e.symm)]
    exact ih h.2

theorem split_nul {b : Bytes} (h : (0 : UInt8) ∈ b) : ∃ desc data, b = desc ++ 0 :: data ∧ (0 : UInt8) ∉ desc := by
  induction b with
  | nil => cases h
  | cons x b ih =>
    by_cases hx : x = 0
    · exact ⟨[], b, by rw [hx]; rfl, by simp⟩
    · rcases List.mem_cons.mp h with e | h
      · exact absurd e.symm hx
      · obtain ⟨a, c, h1, h2⟩ := ih h
        exact ⟨x :: a, c, by rw [h1]; rfl, by simp [h2, Ne.symm hx]⟩

/-- **When an APE item is a picture**: it is read exactly if it is a text without NUL, a NUL and at least eight bytes of an
image in one of the five known formats; the picture has the type of the key, the format of the image, the text with each
byte as a character, and the image. -/
theorem fromApe_iff (key : Str) (b : Bytes) (p : Pic) :
    fromApeBytes key b = .ok p ↔ ∃ desc data m, b = desc ++ 0 :: data ∧ (0 : UInt8) ∉ desc ∧ 8 ≤ data.length ∧ Magic m data ∧
      p = ⟨PicType.fromApeKey key, some m, if desc = [] then none else some (desc.map fun c => Char.ofNat c.toNat), data⟩ := by
  have hmagic : ∀ (d : Bytes) (m : Mime), 8 ≤ d.length → (Magic m (d.take 8) ↔ Magic m d) := by
    intro d m hd
    match d, hd with
    | b0 :: b1 :: b2 :: b3 :: b4 :: b5 :: b6 :: b7 :: d, _ =>
      cases m <;> simp [Magic, List.cons_prefix_cons]
  have hread : ∀ {desc data : Bytes}, (0 : UInt8) ∉ desc → (fromApeBytes key (desc ++ 0 :: data) = .ok p ↔
      8 ≤ data.length ∧ ∃ m, Magic m data ∧
        p = ⟨PicType.fromApeKey key, some m, if desc = [] then none else some (desc.map fun c => Char.ofNat c.toNat), data⟩) := by
    intro desc data hd
    unfold fromApeBytes
    rw [if_neg (by simp), apeDesc_split hd]
    simp only
    have hdrop : (desc ++ 0 :: data).drop (desc.length + 1) = data := by
      rw [show desc ++ 0 :: data = (desc ++ [0]) ++ data by simp]
      exact List.drop_left' (by simp)
    rw [hdrop]
    have hemp : (desc.map fun b => Char.ofNat b.toNat).isEmpty = decide (desc = []) := by cases desc <;> simp
    rw [hemp]
    by_cases h8 : 8 ≤ data.length
    · have : readN 8 data = .ok (data.take 8, data.drop 8) := by
        unfold readN; rw [if_pos h8]
      rw [this, ok_bind]
      simp only [h8, true_and]
      cases hm : mimeFromBin (data.take 8) with
      | error e =>
        rw [error_bind]
        refine ⟨fun h => (by cases h), ?_⟩
        rintro ⟨m, h1, _⟩
        rw [(mimeFromBin_spec _ (by simp; omega) m).mpr ((hmagic _ _ h8).mpr h1)] at hm
        cases hm
      | ok m =>
        rw [ok_bind]
        have h1 := (hmagic _ _ h8).mp ((mimeFromBin_spec _ (by simp; omega) m).mp hm)
        constructor
        · intro h
          exact ⟨m, h1, by rw [← (Except.ok.injEq _ _).mp h]; simp⟩
        · rintro ⟨m', h2, rfl⟩
          have h3 := (mimeFromBin_spec _ (by simp; omega) m').mpr ((hmagic _ _ h8).mpr h2)
          rw [hm] at h3
          obtain rfl := (Except.ok.injEq _ _).mp h3
          simp
    · have : readN 8 data = .error .eof := by
        unfold readN; rw [if_neg h8]
      rw [this, error_bind]
      exact ⟨fun h => (by cases h), fun h => absurd h.1 h8⟩
  constructor
  · intro h
    by_cases h0 : (0 : UInt8) ∈ b
    · obtain ⟨desc, data, rfl, hd⟩ := split_nul h0
      obtain ⟨h1, m, h2, h3⟩ := (hread hd).mp h
      exact ⟨desc, data, m, rfl, hd, h1, h2, h3⟩
    · unfold fromApeBytes at h
      split at h
      · cases h
      · have := apeDesc_whole h0
        revert h
        generalize apeDesc b = x at this ⊢
        obtain ⟨x1, x2, x3⟩ := x
        simp only at this ⊢
        subst this
        intro h
        cases h
  · rintro ⟨desc, data, m, rfl, hd, h1, h2, h3⟩
    exact (hread hd).mpr ⟨h1, m, h2, h3⟩

/-- The error of an item that is no picture is an ordinary one. -/
theorem fromApe_no_panic (key : Str) (b : Bytes) : fromApeBytes key b ≠ .error .panic := by
  intro h
  unfold fromApeBytes at h
  split at h
  · cases h
  · generalize apeDesc b = x at h
    obtain ⟨x1, x2, x3⟩ := x
    simp only at h
    unfold readN at h
    split at h
    rotate_left
    · cases h
    · rename_i hl
      rw [ok_bind] at h
      have hlen : 8 ≤ (x3.take 8).length := by simp; omega
      simp only at h
      match hx : x3.take 8, hlen with
      | b0 :: b1 :: b2 :: b3 :: b4 :: b5 :: b6 :: b7 :: d, _ =>
        rw [hx] at h
        unfold mimeFromBin at h
        simp only at h
        repeat' split at h
        all_goals cases h

/-- A character read back from one byte is the one written exactly in ASCII. -/
theorem latin_utf8 (t : Str) : ((utf8 t).map fun b => Char.ofNat b.toNat) = t ↔ ∀ c ∈ t, c.toNat ≤ 127 := by
  constructor
  · intro h c hc
    -- a character beyond ASCII has more than one byte
    have hlen : ∀ t : Str, t.length ≤ (utf8 t).length ∧ ((utf8 t).length = t.length → ∀ c ∈ t, c.toNat ≤ 127) := by
      intro t
      induction t with
      | nil => simp
      | cons c t ih =>
        rw [utf8_cons, List.length_append, List.length_cons]
        have hc1 : 1 ≤ (String.utf8EncodeChar c).length := by
          rcases Nat.lt_or_ge 127 c.toNat with h | h
          · have := String.length_utf8EncodeChar c
            have := c.utf8Size_pos
            omega
          · rw [utf8EncodeChar_ascii c h]; simp
        refine ⟨by omega, fun he x hx => ?_⟩
        have h1 : (String.utf8EncodeChar c).length = 1 := by omega
        rcases List.mem_cons.mp hx with rfl | hx
        · rcases Nat.lt_or_ge 127 x.toNat with h | h
          · rw [String.length_utf8EncodeChar, Char.utf8Size_eq_one_iff] at h1
            have : x.val.toNat ≤ 127 := by simpa using UInt32.le_iff_toNat_le.mp h1
            exact this
          · exact h
        · exact ih.2 (by omega) x hx
    refine (hlen t).2 ?_ c hc
    have := congrArg List.length h
    simpa using this
  · intro h
    rw [utf8_ascii t h, List.map_map]
    conv => rhs; rw [← List.map_id t]
    apply List.map_congr_left
    intro c hc
    have := h c hc
    simp only [Function.comp, id]
    rw [UInt8.toNat_ofNat', Nat.mod_eq_of_lt (by omega)]
    exact Char.ofNat_toNat c

/-- **Written and read again**: a picture of a type with a key, whose media type is that of its image and whose description,
if there is one, is neither empty nor contains NUL, is read back as it was exactly if its description is ASCII text. -/
theorem ape_round {p : Pic} {key : Str} {m : Mime} (hk : p.ty.asApeKey = some key) (hm : Magic m p.data)
    (hmime : p.mime = some m) (h8 : 8 ≤ p.data.length) (hd : ∀ d, p.desc = some d → d ≠ [] ∧ '\x00' ∉ d) :
    fromApeBytes key (asApeBytes p) = .ok p ↔ ∀ d, p.desc = some d → ∀ c ∈ d, c.toNat ≤ 127 := by
  have hkey := fromApeKey_asApeKey _ _ hk
  obtain ⟨ty, mime, desc, data⟩ := p
  simp only at hk hm hmime h8 hd hkey
  subst hmime
  have hwhole : fromApeBytes key (asApeBytes ⟨ty, some m, desc, data⟩) =
      .ok ⟨ty, some m, desc.map fun d => (utf8 d).map fun b => Char.ofNat b.toNat, data⟩ := by
    rw [fromApe_iff]
    cases desc with
    | none => exact ⟨[], data, m, by simp [asApeBytes], by simp, h8, hm, by simp [hkey]⟩
    | some d =>
      obtain ⟨h1, h2⟩ := hd d rfl
      refine ⟨utf8 d, data, m, by simp [asApeBytes], fun h => h2 ((zero_mem_utf8 d).mp h), h8, hm, ?_⟩
      rw [if_neg (fun h => h1 (utf8_eq_nil h)), hkey]
      rfl
  rw [hwhole]
  cases desc with
  | none => simp
  | some d =>
    simp only [Option.map_some, Except.ok.injEq, Pic.mk.injEq, Option.some.injEq, true_and, and_true, forall_eq']
    exact latin_utf8 d

/-- A picture with an ASCII description. -/
example : fromApeBytes (str "Cover Art (Front)") (asApeBytes ⟨.coverFront, some .jpeg, some (str "Front"),
    [0xFF, 0xD8, 0xFF, 0xE0, 0, 1, 2, 3]⟩) =
    .ok ⟨.coverFront, some .jpeg, some (str "Front"), [0xFF, 0xD8, 0xFF, 0xE0, 0, 1, 2, 3]⟩ :=
  (ape_round (m := .jpeg) (by decide) ⟨[0xFF, 0xE0, 0, 1, 2, 3], rfl⟩ rfl (by decide) (by
    intro d h
    obtain rfl := (Option.some.injEq _ _).mp h
    decide)).mpr (by
    intro d h
    obtain rfl := (Option.some.injEq _ _).mp h
    decide)

/-- The description `Fläche` is read back as `FlÃ¤che`. -/
theorem ape_garbled : fromApeBytes (str "Cover Art (Front)") (asApeBytes ⟨.coverFront, some .jpeg, some (str "Fläche"),
    [0xFF, 0xD8, 0xFF, 0xE0, 0, 1, 2, 3]⟩) =
    .ok ⟨.coverFront, some .jpeg, some (str "FlÃ¤che"), [0xFF, 0xD8, 0xFF, 0xE0, 0, 1, 2, 3]⟩ := by decide

/-- What stands behind a NUL in the description becomes part of the image, which is then no longer one. -/
theorem ape_nul : fromApeBytes (str "Cover Art (Front)") (asApeBytes ⟨.coverFront, some .jpeg, some (str "a\x00b"),
    [0xFF, 0xD8, 0xFF, 0xE0, 0, 1, 2, 3]⟩) = .error .parse := by decide

/-- **A picture from a file**: it is read exactly if the file has at least eight bytes and starts with those of one of the
known formats; the picture has that format, all the bytes, the type "other" and no description. -/
theorem fromReader_iff (b : Bytes) (p : Pic) :
    fromReader b = .ok p ↔ 8 ≤ b.length ∧ ∃ m, Magic m b ∧ p = ⟨.other, some m, none, b⟩ := by
  have hmagic : ∀ (d : Bytes) (m : Mime), 8 ≤ d.length → (Magic m (d.take 8) ↔ Magic m d) := by
    intro d m hd
    match d, hd with
    | b0 :: b1 :: b2 :: b3 :: b4 :: b5 :: b6 :: b7 :: d, _ =>
      cases m <;> simp [Magic, List.cons_prefix_cons]
  unfold fromReader
  by_cases h8 : b.length < 8
  · rw [if_pos h8]
    exact ⟨fun h => (by cases h), fun h => by omega⟩
  · rw [if_neg h8]
    have hl : 8 ≤ (b.take 8).length := by simp; omega
    cases hm : mimeFromBin (b.take 8) with
    | error e =>
      rw [error_bind]
      refine ⟨fun h => (by cases h), ?_⟩
      rintro ⟨_, m, h1, _⟩
      rw [(mimeFromBin_spec _ hl m).mpr ((hmagic _ _ (by omega)).mpr h1)] at hm
      cases hm
    | ok m =>
      rw [ok_bind]
      have h1 := (hmagic _ _ (by omega)).mp ((mimeFromBin_spec _ hl m).mp hm)
      constructor
      · intro h
        exact ⟨by omega, m, h1, ((Except.ok.injEq _ _).mp h).symm⟩
      · rintro ⟨_, m', h2, rfl⟩
        have h3 := (mimeFromBin_spec _ hl m').mpr ((hmagic _ _ (by omega)).mpr h2)
        rw [hm] at h3
        obtain rfl := (Except.ok.injEq _ _).mp h3
        rfl

example : fromReader [0x42, 0x4D, 1, 2, 3, 4, 5, 6, 7] = .ok ⟨.other, some .bmp, none, [0x42, 0x4D, 1, 2, 3, 4, 5, 6, 7]⟩ := by
  decide

end Lofty.Picture
