import Verif.Lemmas.Order
/-! # C81: equality, hashing and order agree -/
namespace Lofty
namespace Timestamp

/-- The order of timestamps is an order, and only a timestamp itself is equal to it. -/
theorem cmp_order : IsOrder Eq cmp where
  swap a b := by rw [cmp_components, cmp_components, lexNat_swap]
  equal a b := by rw [cmp_components, lexNat_eq]; exact ⟨components_inj, fun h => h ▸ rfl⟩
  trans a b c h1 h2 := by rw [cmp_components] at *; exact lexNat_trans _ _ _ h1 h2

/-- It is the order in time: the coarsest component that differs decides, and a timestamp without a
component comes before those that have it. -/
theorem cmp_first_difference (a b : Timestamp) : cmp a b = .lt ↔ FirstDiff a.components b.components := by
  rw [cmp_components]; exact lexNat_lt rfl

/-- **Sorting by text is sorting by time**: the printed forms of two timestamps whose components fit into
their digits and have no gaps — which every timestamp read from a text is (`parse_shape`) — are ordered
like the timestamps.  Missing: timestamps with gaps or too large components
(`gap_not_printed`, `wide_years_misordered`). -/
theorem text_order_partial {a b : Timestamp} (ha : Shape a) (hb : Shape b) : textCmp (utf8 a.fmt) (utf8 b.fmt) = cmp a b := by
  rw [fmt_render ha, fmt_render hb]
  obtain ⟨vs, h1, h2, e1⟩ := ofList_of_shape ha
  obtain ⟨ws, h3, h4, e2⟩ := ofList_of_shape hb
  have ey := ha.year
  have ez := hb.year
  rw [e1, e2]
  generalize a.year = y at *
  generalize b.year = z at *
  rw [render_ofList true y vs h1, render_ofList true z ws h3, textCmp_four ey ez, cmp_ofList h1 h3,
    textCmp_rend (expected true) vs ws (by simpa [expected] using h1) (by simpa [expected] using h3) h2 h4]

/-- Two texts in whatever accepted form: their timestamps are ordered like the texts they are printed as. -/
theorem read_order {m m' : Mode} {r r' : Bytes} {a b : Timestamp} (ha : parse m r = .ok (some a)) (hb : parse m' r' = .ok (some b)) :
    cmp a b = textCmp (utf8 a.fmt) (utf8 b.fmt) :=
  (text_order_partial (parse_shape ha) (parse_shape hb)).symm

example : cmp ⟨2024, some 6, some 3, none, none, none⟩ ⟨2024, some 6, some 3, some 0, none, none⟩ = .lt ∧
    cmp ⟨2024, some 6, some 3, some 23, some 59, some 59⟩ ⟨2024, some 6, some 4, none, none, none⟩ = .lt := by decide

example : Shape ⟨2024, some 6, some 3, some 14, some 8, some 49⟩ ∧ Shape ⟨2024, some 11, none, none, none, none⟩ ∧
    textCmp (utf8 (fmt ⟨2024, some 6, some 3, some 14, some 8, some 49⟩)) (utf8 (fmt ⟨2024, some 11, none, none, none, none⟩)) = .lt := by
  refine ⟨⟨by decide, by simp, by simp, by simp, by simp, by simp⟩, ⟨by decide, by simp, by simp, by simp, by simp, by simp⟩, by decide +kernel⟩

/-- A day without a month is not printed: the timestamps differ, the texts do not. -/
theorem gap_not_printed : fmt ⟨2024, none, some 3, none, none, none⟩ = fmt ⟨2024, none, none, none, none, none⟩ ∧
    cmp ⟨2024, none, some 3, none, none, none⟩ ⟨2024, none, none, none, none, none⟩ = .gt := by decide +kernel

/-- A year of five digits comes first as a text and last as a timestamp. -/
theorem wide_years_misordered : cmp ⟨2024, none, none, none, none, none⟩ ⟨10000, none, none, none, none, none⟩ = .lt ∧
    textCmp (utf8 (fmt ⟨2024, none, none, none, none, none⟩)) (utf8 (fmt ⟨10000, none, none, none, none, none⟩)) = .gt := by
  decide +kernel

end Timestamp

namespace Id3v2

/-- "The same frame" is an equivalence. -/
theorem same_equivalence : Equivalence Same where
  refl a := by
    cases a with
    | leaf fl c => cases c <;> simp [Same]
    | chapter => simp [Same]
    | toc => simp [Same]
  symm := same_symm
  trans {a b c} h1 h2 := by
    cases a with
    | chapter => cases b <;> cases c <;> simp_all [Same]
    | toc => cases b <;> cases c <;> simp_all [Same]
    | leaf fa x =>
      cases b with
      | chapter => simp [Same] at h1
      | toc => simp [Same] at h1
      | leaf fb y =>
        cases c with
        | chapter => simp [Same] at h2
        | toc => simp [Same] at h2
        | leaf fc z => cases x <;> cases y <;> simp [Same] at h1 <;> cases z <;> simp_all [Same]

/-- **Equal frames hash alike**, with every hasher, and frames that feed a hasher the same data are equal. -/
theorem hash_agrees (a b : Frame) : a.feed = b.feed ↔ sameFrame a b = true := by
  rw [sameFrame_iff]
  cases a with
  | chapter => cases b <;> simp [Frame.feed, Same]; rename_i c; cases c <;> simp [Content.variant]
  | toc => cases b <;> simp [Frame.feed, Same]; rename_i c; cases c <;> simp [Content.variant]
  | leaf fa x =>
    cases b with
    | chapter => cases x <;> simp [Frame.feed, Content.feed, Content.variant, Same]
    | toc => cases x <;> simp [Frame.feed, Content.feed, Content.variant, Same]
    | leaf fb y => cases x <;> cases y <;> simp [Frame.feed, Content.feed, Content.variant, Same]

/-- For every hasher. -/
theorem equal_frames_hash_alike {H : Type} (hash : List Fed → H) {a b : Frame} (h : Same a b) : hash a.feed = hash b.feed := by
  rw [(hash_agrees a b).mpr ((sameFrame_iff a b).mpr h)]

theorem audio_text_hash (a b : AtxtF) : a.feed = b.feed ↔ a.same b = true := by
  simp [AtxtF.feed, AtxtF.same]

/-- Two comments with the same language and description are one to a hash set, whatever they say. -/
example : sameFrame (.leaf {} (.comment ⟨.utf8, (101, 110, 103), [], "a".toList⟩))
      (.leaf {} (.comment ⟨.latin1, (101, 110, 103), [], "b".toList⟩)) = true ∧
    Frame.feed (.leaf {} (.comment ⟨.utf8, (101, 110, 103), [], "a".toList⟩)) =
      Frame.feed (.leaf {} (.comment ⟨.latin1, (101, 110, 103), [], "b".toList⟩)) ∧
    Frame.feed (.leaf {} (.comment ⟨.utf8, (101, 110, 103), [], "a".toList⟩)) ≠
      Frame.feed (.leaf {} (.lyrics ⟨.utf8, (101, 110, 103), [], "a".toList⟩)) := by decide

/-- The order of timestamp frames is the order of their timestamps.  Missing: that frames which compare
as equal are equal (`timestamp_frames_equal_in_order_only`). -/
theorem timestamp_frame_order_partial : IsOrder (fun a b : TimeF => a.time = b.time) TimeF.cmp where
  swap a b := Timestamp.cmp_order.swap a.time b.time
  equal a b := Timestamp.cmp_order.equal a.time b.time
  trans a b c := Timestamp.cmp_order.trans a.time b.time c.time

/-- Missing: that events which compare as equal are equal (documented). -/
theorem event_order_partial : IsOrder (fun a b : Event => a.time = b.time) Event.cmp where
  swap a b := cmpNat_swap a.time b.time
  equal a b := cmpNat_eq
  trans a b c h1 h2 := cmpNat_lt.mpr (Nat.lt_trans (cmpNat_lt.mp h1) (cmpNat_lt.mp h2))

/-- The recording time and the release time of a song compare as equal, but are different frames: an
ordered set keeps one of them. -/
theorem timestamp_frames_equal_in_order_only :
    TimeF.cmp ⟨.valid (str "TDRC"), .utf8, ⟨2024, none, none, none, none, none⟩⟩ ⟨.valid (str "TDRL"), .utf8, ⟨2024, none, none, none, none, none⟩⟩ = .eq ∧
    sameFrame (.leaf {} (.time ⟨.valid (str "TDRC"), .utf8, ⟨2024, none, none, none, none, none⟩⟩))
      (.leaf {} (.time ⟨.valid (str "TDRL"), .utf8, ⟨2024, none, none, none, none, none⟩⟩)) = false := by decide

end Id3v2
end Lofty
