import Verif.Lemmas.Vorbis
import Verif.Props.Picture
/-! # C12, C13, C14: Vorbis comments -/
namespace Lofty.Vorbis

/-! ## C12: round trip -/

/-- A number field (`TRACKNUMBER`, `DISCNUMBER`) that a reader with implicit conversions
keeps as it is: it holds no slash and either is not a number at all or is a canonical
number not preceded by a field that setting the number would replace. -/
def NumberStable (replaced : List Str) (earlier : List Item) (v : Str) : Prop :=
  '/' ∉ v ∧ (parseU32 v = none ∨
    ((∃ n, n < 2 ^ 32 ∧ v = toDec n) ∧ ∀ i ∈ earlier, ∀ r ∈ replaced, eqIc i.1 r = false))

/-- A comment with a unique serialised form, given the comments in front of it. -/
structure ItemStable (o : Opts) (earlier : List Item) (i : Item) : Prop where
  key : verifyKey i.1 = true
  nul : i.2.getLast? ≠ some '\x00'
  notPicture : eqIc i.1 (str "METADATA_BLOCK_PICTURE") = false
  notCover : eqIc i.1 (str "COVERART") = false
  track : eqIc i.1 (str "TRACKNUMBER") = true → i.1 = str "TRACKNUMBER" ∧
    (o.implicitConversions = true →
      NumberStable [str "TRACKNUMBER", str "TRACKNUM"] earlier i.2)
  disc : eqIc i.1 (str "DISCNUMBER") = true → i.1 = str "DISCNUMBER" ∧
    (o.implicitConversions = true → NumberStable [str "DISCNUMBER"] earlier i.2)

/-- Every comment of the list is stable. -/
def Stable (o : Opts) (items : List Item) : Prop :=
  ∀ earlier i later, items = earlier ++ i :: later → ItemStable o earlier i

theorem filter_none {items : List Item} {k : Str} (h : ∀ i ∈ items, eqIc i.1 k = false) :
    (items.filter fun i => !eqIc i.1 k) = items := by
  rw [List.filter_eq_self]; intro i hi; simp [h i hi]

theorem remove_none {t : Tag} {k : Str} (h : ∀ i ∈ t.items, eqIc i.1 k = false) : (remove t k).2 = t := by
  have := (drainFilter_spec (fun i : Item => eqIc i.1 k) t.items).2.2
    (by rw [List.filter_eq_nil_iff]; intro i hi; simp [h i hi])
  show ({ t with items := (drainFilter (fun i : Item => eqIc i.1 k) t.items).2 } : Tag) = t
  rw [this]

theorem readItem_stable (o : Opts) (t : Tag) (i : Item) (h : ItemStable o t.items i) :
    readItem o t (commentBytes i) = .ok { t with items := t.items ++ [i] } := by
  obtain ⟨k, v⟩ := i
  have hk := h.key
  simp only at hk
  obtain ⟨_, hascii, _, hvalid⟩ := verifyKey_ascii hk
  have hnp := h.notPicture
  have hnc := h.notCover
  simp only at hnp hnc
  unfold readItem
  rw [split_comment k v hk]
  simp only
  rw [eqIcB_lit k hk _ (by decide), hnp, if_neg (by simp), eqIcB_lit k hk _ (by decide), hnc, if_neg (by simp),
    eqIcB_lit k hk _ (by decide), eqIcB_lit k hk _ (by decide), utf8Decode_utf8 v h.nul]
  simp only
  by_cases ht : eqIc k (str "TRACKNUMBER") = true
  · obtain ⟨hkt, hn⟩ := h.track ht
    simp only at hkt hn
    rw [ht]
    simp only [Bool.true_or, if_true]
    by_cases hi : o.implicitConversions = true
    · obtain ⟨hs, hc⟩ := hn hi
      rw [hi]
      simp only [Bool.not_true, Bool.false_eq_true, if_false]
      unfold pushNumber
      rw [split2_noSep _ _ hs]
      simp only [Option.bind_none, if_true]
      rcases hc with hc | ⟨⟨n, hn', rfl⟩, hc⟩
      · rw [hc]; simp only [hkt]
      · rw [parseU32_toDec hn']
        simp only
        have r1 : (remove t (str "TRACKNUMBER")).2 = t :=
          remove_none fun i hi => hc i hi _ (by simp)
        have r2 : (remove t (str "TRACKNUM")).2 = t :=
          remove_none fun i hi => hc i hi _ (by simp)
        rw [setTrack, r1, r2, insert, if_pos (by decide), filter_none fun i hi => hc i hi _ (by simp), hkt]
    · simp only [Bool.not_eq_true] at hi
      rw [hi]
      simp [hkt]
  · simp only [Bool.not_eq_true] at ht
    rw [ht]
    by_cases hd : eqIc k (str "DISCNUMBER") = true
    · obtain ⟨hkt, hn⟩ := h.disc hd
      simp only at hkt hn
      rw [hd]
      simp only [Bool.false_or, if_true]
      by_cases hi : o.implicitConversions = true
      · obtain ⟨hs, hc⟩ := hn hi
        rw [hi]
        simp only [Bool.not_true, Bool.false_eq_true, if_false]
        unfold pushNumber
        rw [split2_noSep _ _ hs]
        simp only [Option.bind_none, Bool.false_eq_true, if_false]
        rcases hc with hc | ⟨⟨n, hn', rfl⟩, hc⟩
        · rw [hc]; simp only [hkt]
        · rw [parseU32_toDec hn']
          simp only
          rw [setDisk, insert, if_pos (by decide), filter_none fun i hi => hc i hi _ (by simp), hkt]
      · simp only [Bool.not_eq_true] at hi
        rw [hi]
        simp [hkt]
    · simp only [Bool.not_eq_true] at hd
      rw [hd]
      simp only [Bool.or_self, Bool.false_eq_true, if_false]
      rw [if_pos hvalid, asciiStr_utf8 k hascii]

theorem readItem_picture (o : Opts) (t : Tag) (p : Picture.Pic × Picture.Info) (ho : o.readCoverArt = true)
    (h : Picture.Stable p.1) :
    readItem o t (pictureComment p) = .ok { t with pictures := t.pictures ++ [p] } := by
  have e : pictureComment p = ascii "METADATA_BLOCK_PICTURE" ++ 0x3D :: Picture.asFlacBytes p.1 p.2 true := by
    simp [pictureComment, ascii]
  unfold readItem
  rw [e, split2_append _ _ _ (by decide)]
  simp only
  rw [if_pos (by decide), ho, Picture.fromFlac_asFlac p.1 p.2 true _ h]
  simp

theorem foldl_items (o : Opts) (items : List Item) : ∀ (t : Tag),
    Stable o (t.items ++ items) →
      (items.map commentBytes).foldlM (readItem o) t = .ok { t with items := t.items ++ items } := by
  induction items with
  | nil => intro t _; simp; rfl
  | cons i is ih =>
    intro t h
    simp only [List.map_cons, List.foldlM_cons]
    rw [readItem_stable o t i (h t.items i is rfl), ok_bind, ih _ (by simpa using h)]
    simp

theorem foldl_pictures (o : Opts) (ho : o.readCoverArt = true) (ps : List (Picture.Pic × Picture.Info)) : ∀ (t : Tag),
    (∀ p ∈ ps, Picture.Stable p.1) →
      (ps.map pictureComment).foldlM (readItem o) t = .ok { t with pictures := t.pictures ++ ps } := by
  induction ps with
  | nil => intro t _; simp; rfl
  | cons i is ih =>
    intro t h
    simp only [List.map_cons, List.foldlM_cons]
    rw [readItem_picture o t i ho (h i (by simp)), ok_bind, ih _ (fun p hp => h p (by simp [hp]))]
    simp

/-- C12: writing a tag and reading the packet back (any signature, with or without the
framing bit, whatever follows) gives the same vendor, the same comments in the same order
and the same pictures, and consumes exactly the comments.  Comments with an empty value
are not written. -/
theorem read_written (o : Opts) (t : Tag) (sig : Bytes) (framing : Bool) (packet rest : Bytes) (len : Nat)
    (hw : createPacket t sig framing = .ok packet)
    (hvendor : t.vendor.getLast? ≠ some '\x00')
    (hitems : Stable o (t.items.filter fun i => !i.2.isEmpty))
    (hcover : t.pictures ≠ [] → o.readCoverArt = true)
    (hpics : ∀ p ∈ t.pictures, Picture.Stable p.1)
    (hlen : packet.length - sig.length ≤ len) (hmax : len < 2 ^ 32) :
    packet.take sig.length = sig ∧
    readComments o (packet.drop sig.length ++ rest) len
      = .ok ({ t with items := t.items.filter fun i => !i.2.isEmpty },
          (if framing then [1] else []) ++ rest) := by
  unfold createPacket at hw
  obtain ⟨⟨cb, n⟩, h1, hw⟩ := bind_ok hw
  obtain ⟨⟨pb, m⟩, h2, hw⟩ := bind_ok hw
  cases hw
  obtain ⟨rfl, rfl, hl1⟩ := createComments_eq _ _ _ h1
  obtain ⟨rfl, rfl, hl2⟩ := createPictures_eq _ _ _ h2
  generalize hits : (t.items.filter fun i => !i.2.isEmpty) = its at *
  let cs := its.map commentBytes ++ t.pictures.map pictureComment
  have hcsl : cs.length = its.length + t.pictures.length := by simp [cs]
  have henc : encodeAll cs = encodeAll (its.map commentBytes) ++ encodeAll (t.pictures.map pictureComment) := by
    simp [cs, encodeAll]
  have hfold : cs.foldlM (readItem o) ⟨t.vendor, [], []⟩ = .ok { t with items := its } := by
    rw [List.foldlM_append, foldl_items o its ⟨t.vendor, [], []⟩ (by simpa using hitems), ok_bind]
    cases hp : t.pictures with
    | nil => rw [← hp]; simp [hp]; rfl
    | cons p ps => rw [← hp, foldl_pictures o (hcover (by simp [hp])) _ _ hpics]; simp
  have hcl : ∀ c ∈ cs, c.length < 2 ^ 32 := by
    intro c hc
    rcases List.mem_append.mp hc with hc | hc <;> obtain ⟨i, hi, rfl⟩ := List.mem_map.mp hc
    · exact hl1 i hi
    · exact hl2 i hi
  simp only [List.append_assoc] at hlen ⊢
  rw [← List.append_assoc (encodeAll _) (encodeAll _) _, ← henc]
  rw [← List.append_assoc (encodeAll _) (encodeAll _) _, ← henc] at hlen
  refine ⟨List.take_left, ?_⟩
  rw [List.drop_left]
  simp only [List.length_append, leBytes_length, encodeAll_length] at hlen
  have hlen2 : 4 + (utf8 t.vendor).length + 4 + (4 * cs.length + (cs.map List.length).sum) ≤ len := by omega
  simp only [List.append_assoc]
  unfold readComments
  rw [readLE_append _ (by omega), ok_bind]
  simp only
  rw [if_neg (by omega), readN_append _ _ rfl, ok_bind]
  simp only
  rw [readVendor, utf8Decode_utf8 _ hvendor]
  simp only [ok_bind]
  rw [readLE_append _ (by omega), ok_bind]
  simp only
  rw [if_neg (by omega), ← hcsl, readItems_encodeAll o cs _ _ _ _ (by omega) hcl hfold]

/-- A tag meeting the hypotheses of `read_written`: two artists, a value with an equals
sign, a track number, an empty value. -/
def exampleTag : Tag where
  vendor := str "libFLAC"
  items := [(str "Artist", str "a"), (str "ARTIST", str "b=c"), (str "EMPTY", []), (str "TRACKNUMBER", str "7")]
  pictures := [(⟨.coverFront, some .png, some (str "d"), [1, 2, 3]⟩, Picture.Info.default)]

theorem itemStable_plain (o : Opts) (pre : List Item) (i : Item) (h1 : verifyKey i.1 = true)
    (h2 : i.2.getLast? ≠ some '\x00') (h3 : eqIc i.1 (str "METADATA_BLOCK_PICTURE") = false)
    (h4 : eqIc i.1 (str "COVERART") = false) (h5 : eqIc i.1 (str "TRACKNUMBER") = false)
    (h6 : eqIc i.1 (str "DISCNUMBER") = false) : ItemStable o pre i :=
  ⟨h1, h2, h3, h4, by simp [h5], by simp [h6]⟩

example : Stable ⟨.strict, true, true⟩ (exampleTag.items.filter fun i => !i.2.isEmpty) := by
  intro pre i post h
  have h' : [(str "Artist", str "a"), (str "ARTIST", str "b=c"), (str "TRACKNUMBER", str "7")] = pre ++ i :: post := h
  match pre, h' with
  | [], h' =>
    simp only [List.nil_append, List.cons.injEq] at h'
    rw [← h'.1]; apply itemStable_plain <;> decide
  | [a], h' =>
    simp only [List.cons_append, List.nil_append, List.cons.injEq] at h'
    rw [← h'.2.1]; apply itemStable_plain <;> decide
  | [a, b], h' =>
    simp only [List.cons_append, List.nil_append, List.cons.injEq] at h'
    rw [← h'.2.2.1, ← h'.1, ← h'.2.1]
    refine ⟨by decide, by decide, by decide, by decide, fun _ => ⟨rfl, fun _ => ⟨by decide, .inr ⟨⟨7, by decide, by decide⟩, by decide⟩⟩⟩, ?_⟩
    intro h; exact absurd h (by decide)
  | a :: b :: c :: d, h' =>
    have := congrArg List.length h'
    simp at this

example : (∀ p ∈ exampleTag.pictures, Picture.Stable p.1) ∧ exampleTag.vendor.getLast? ≠ some '\x00' ∧
    ∃ packet, createPacket exampleTag (ascii "OpusTags") false = .ok packet ∧ packet.length - 8 ≤ 1000 := by
  refine ⟨?_, by decide, ?_⟩
  · intro p hp
    simp only [exampleTag, List.mem_singleton] at hp
    subst hp
    constructor
    · intro b h; cases h
    · intro s h; cases h
    · intro d h; cases h; decide
    · decide
    · decide
  · cases h : createPacket exampleTag (ascii "OpusTags") false with
    | ok p =>
      have : (match createPacket exampleTag (ascii "OpusTags") false with
        | .ok p => decide (p.length - 8 ≤ 1000) | .error _ => false) = true := by decide +kernel
      rw [h] at this
      exact ⟨p, rfl, by simpa using this⟩
    | error e =>
      have : (match createPacket exampleTag (ascii "OpusTags") false with
        | .ok _ => true | .error _ => false) = true := by decide +kernel
      rw [h] at this
      cases this

/-- C12: a track or disc number of the form `n/total` is read (with implicit conversions)
as the number and the total, replacing the values read before. -/
theorem read_number_pair (o : Opts) (t : Tag) (isTrack : Bool) (key : Str) (n m : Nat) (hn : n < 2 ^ 32) (hm : m < 2 ^ 32)
    (ho : o.implicitConversions = true)
    (hk : eqIc key (str (if isTrack then "TRACKNUMBER" else "DISCNUMBER")) = true) :
    readItem o t (commentBytes (key, toDec n ++ '/' :: toDec m))
      = .ok (if isTrack then setTrack (setTrackTotal t m) n else setDisk (setDiskTotal t m) n) := by
  have hval : verifyKey key = true := by
    rw [verifyKey_congr hk]
    cases isTrack <;> decide
  have hnul : (toDec n ++ '/' :: toDec m).getLast? ≠ some '\x00' := by
    rw [List.getLast?_append, List.getLast?_cons]
    cases h : (toDec m).getLast? with
    | none => simp
    | some c =>
      have := toDec_digits m c (List.mem_of_getLast? h)
      simp only [Option.getD_some, Option.some_or, ne_eq, Option.some.injEq]
      rintro rfl
      revert this
      decide
  have hsep : '/' ∉ toDec n := not_mem_toDec n '/' (by decide)
  unfold readItem
  rw [split_comment key _ hval]
  simp only
  rw [eqIcB_lit key hval _ (by decide), eqIcB_lit key hval _ (by decide), eqIcB_lit key hval _ (by decide),
    eqIcB_lit key hval _ (by decide), utf8Decode_utf8 _ hnul]
  simp only [eqIc_congr hk]
  cases isTrack
  · rw [if_neg (by decide), if_neg (by decide), if_pos (by decide), ho, if_neg (by simp)]
    have e : eqIc (str "DISCNUMBER") (str "TRACKNUMBER") = false := by
      decide
    simp only [pushNumber, split2_append _ _ _ hsep, parseU32_toDec hn, Option.bind_some, parseU32_toDec hm, e,
      Bool.false_eq_true, if_false]
  · rw [if_neg (by decide), if_neg (by decide), if_pos (by decide), ho, if_neg (by simp)]
    have e : eqIc (str "TRACKNUMBER") (str "TRACKNUMBER") = true := by
      decide
    simp only [pushNumber, split2_append _ _ _ hsep, parseU32_toDec hn, Option.bind_some, parseU32_toDec hm, e,
      if_true]

example : eqIc (str "TrackNumber") (str (if true then "TRACKNUMBER" else "DISCNUMBER")) = true := by decide

/-! ## C13: editing -/

/-- The abstract state: the values of each key (keys that agree up to ASCII letter case
are the same key). -/
abbrev Multimap := Str → List Str

/-- The editing operations. -/
inductive Op
  | insert (key value : Str)
  | push (key value : Str)
  | remove (key : Str)

/-- What an operation does to the abstract state.  Invalid keys are ignored by `insert`
and `push`. -/
def Op.spec (m : Multimap) : Op → Multimap
  | .insert k v => fun q => if verifyKey k && eqIc k q then [v] else m q
  | .push k v => fun q => if verifyKey k && eqIc k q then m q ++ [v] else m q
  | .remove k => fun q => if eqIc k q then [] else m q

/-- What an operation does to the tag. -/
def Op.run (t : Tag) : Op → Tag
  | .insert k v => Vorbis.insert t k v
  | .push k v => Vorbis.push t k v
  | .remove k => (Vorbis.remove t k).2

theorem remove_tag (t : Tag) (k : Str) : (remove t k).2 =
    { t with items := (drainFilter (fun i : Item => eqIc i.1 k) t.items).2 } := rfl

theorem remove_out (t : Tag) (k : Str) : (remove t k).1 =
    (drainFilter (fun i : Item => eqIc i.1 k) t.items).1.map (·.2) := rfl

theorem getAll_eq (t : Tag) (q : Str) : getAll t q = (t.items.filter fun i => eqIc i.1 q).map (·.2) := by
  unfold getAll
  induction t.items with
  | nil => rfl
  | cons i is ih =>
    by_cases h : eqIc i.1 q = true
    · simp [h, ih]
    · simp only [Bool.not_eq_true] at h
      simp [h, ih]

/-- C13: `get` is the first of `get_all`, and nothing for an invalid key. -/
theorem get_eq_head (t : Tag) (q : Str) : get t q = if verifyKey q then (getAll t q).head? else none := by
  unfold get
  split
  · rw [getAll_eq]
    simp [List.head?_filter]
  · rfl

/-- C13: the values of every key after one insertion: the inserted value alone for that
key, in any letter case, the old values in the old order for the others. -/
theorem getAll_insert (t : Tag) (k v q : Str) :
    getAll (insert t k v) q = Op.spec (getAll t) (.insert k v) q := by
  unfold Op.spec insert
  simp only
  by_cases hv : verifyKey k = true
  · rw [if_pos hv, hv]
    simp only [Bool.true_and]
    rw [getAll_eq]
    simp only [List.filter_append, List.filter_filter]
    by_cases hq : eqIc k q = true
    · rw [if_pos hq]
      have : (t.items.filter fun i => eqIc i.1 q && !eqIc i.1 k) = [] := by
        rw [List.filter_eq_nil_iff]
        intro i _ h
        simp only [Bool.and_eq_true, Bool.not_eq_true'] at h
        have := eqIc_trans h.1 (by rw [eqIc_comm]; exact hq)
        rw [h.2] at this; cases this
      rw [this]
      simp [hq]
    · rw [if_neg hq]
      simp only [Bool.not_eq_true] at hq
      have : (t.items.filter fun i => eqIc i.1 q && !eqIc i.1 k) = t.items.filter fun i => eqIc i.1 q := by
        apply List.filter_congr
        intro i _
        by_cases h : eqIc i.1 k = true
        · rw [h, eqIc_congr h, hq]; rfl
        · simp only [Bool.not_eq_true] at h; simp [h]
      rw [this, getAll_eq]
      simp [hq]
  · rw [if_neg hv]
    simp only [Bool.not_eq_true] at hv
    simp [hv]

/-- C13: the values of every key after appending one. -/
theorem getAll_push (t : Tag) (k v q : Str) : getAll (push t k v) q = Op.spec (getAll t) (.push k v) q := by
  unfold Op.spec push
  simp only
  by_cases hv : verifyKey k = true
  · rw [if_pos hv, hv, getAll_eq, getAll_eq]
    by_cases hq : eqIc k q = true
    · simp [hq]
    · simp only [Bool.not_eq_true] at hq; simp [hq]
  · rw [if_neg hv]
    simp only [Bool.not_eq_true] at hv
    simp [hv]

/-- C13: `remove` returns the values of the key in order, leaves none of them, and keeps
the values of every other key with their multiplicity. -/
theorem remove_spec (t : Tag) (k : Str) :
    (remove t k).1 = getAll t k ∧ getAll (remove t k).2 k = [] ∧
      ∀ q, (getAll (remove t k).2 q).Perm (Op.spec (getAll t) (.remove k) q) := by
  obtain ⟨h1, h2, _⟩ := drainFilter_spec (fun i : Item => eqIc i.1 k) t.items
  have key : ∀ q, (getAll (remove t k).2 q).Perm (Op.spec (getAll t) (.remove k) q) := by
    intro q
    unfold Op.spec
    simp only
    rw [getAll_eq, remove_tag]
    simp only
    refine ((h2.filter _).map _).trans ?_
    rw [List.filter_filter]
    by_cases hq : eqIc k q = true
    · rw [if_pos hq]
      have : (t.items.filter fun i => eqIc i.1 q && !eqIc i.1 k) = [] := by
        rw [List.filter_eq_nil_iff]
        intro i _ h
        simp only [Bool.and_eq_true, Bool.not_eq_true'] at h
        have := eqIc_trans h.1 (by rw [eqIc_comm]; exact hq)
        rw [h.2] at this; cases this
      rw [this]; rfl
    · rw [if_neg hq]
      simp only [Bool.not_eq_true] at hq
      have : (t.items.filter fun i => eqIc i.1 q && !eqIc i.1 k) = t.items.filter fun i => eqIc i.1 q := by
        apply List.filter_congr
        intro i _
        by_cases h : eqIc i.1 k = true
        · rw [h, eqIc_congr h, hq]; rfl
        · simp only [Bool.not_eq_true] at h; simp [h]
      rw [this, ← getAll_eq]
  refine ⟨by rw [remove_out, h1, getAll_eq], ?_, key⟩
  have := key k
  simp only [Op.spec, eqIc_refl, if_true] at this
  exact this.eq_nil

theorem spec_perm (m m' : Multimap) (h : ∀ q, (m q).Perm (m' q)) (op : Op) (q : Str) :
    (op.spec m q).Perm (op.spec m' q) := by
  cases op <;> simp only [Op.spec] <;> split
  · exact .refl _
  · exact h q
  · exact (h q).append_right _
  · exact h q
  · exact .refl _
  · exact h q

/-- C13: any sequence of operations, on any tag, acts on the values of each key as on a
case-insensitive multimap. -/
theorem history (ops : List Op) (t : Tag) (q : Str) :
    (getAll (ops.foldl Op.run t) q).Perm (ops.foldl Op.spec (getAll t) q) := by
  suffices h : ∀ (t : Tag) (m : Multimap), (∀ q, (getAll t q).Perm (m q)) →
      ∀ q, (getAll (ops.foldl Op.run t) q).Perm (ops.foldl Op.spec m q) from
    h t _ (fun _ => .refl _) q
  induction ops with
  | nil => intro t m h q; exact h q
  | cons op ops ih =>
    intro t m h q
    refine ih _ _ ?_ q
    intro q
    refine List.Perm.trans ?_ (spec_perm _ _ h op q)
    cases op with
    | insert k v => rw [Op.run, getAll_insert]
    | push k v => rw [Op.run, getAll_push]
    | remove k => exact (remove_spec t k).2.2 q

/-- C13: without removals the order of the values is kept too. -/
theorem history_ordered (ops : List Op) (hops : ∀ k, Op.remove k ∉ ops) (t : Tag) (q : Str) :
    getAll (ops.foldl Op.run t) q = ops.foldl Op.spec (getAll t) q := by
  induction ops generalizing t with
  | nil => rfl
  | cons op ops ih =>
    rw [List.foldl_cons, List.foldl_cons, ih (fun k hk => hops k (by simp [hk]))]
    have e : getAll (Op.run t op) = Op.spec (getAll t) op := by
      funext q
      cases op with
      | insert k v => exact getAll_insert t k v q
      | push k v => exact getAll_push t k v q
      | remove k => exact absurd (by simp) (hops k)
    rw [e]

/-- C13: no operation touches the vendor string or the pictures. -/
theorem history_frame (ops : List Op) (t : Tag) :
    (ops.foldl Op.run t).vendor = t.vendor ∧ (ops.foldl Op.run t).pictures = t.pictures := by
  induction ops generalizing t with
  | nil => exact ⟨rfl, rfl⟩
  | cons op ops ih =>
    rw [List.foldl_cons, (ih _).1, (ih _).2]
    cases op <;> simp only [Op.run, insert, push, remove_tag] <;> (try split) <;> simp

/-- C13: after an insertion `get` finds the inserted value in any letter case. -/
theorem get_insert (t : Tag) (k v q : Str) (hk : verifyKey k = true) (hq : eqIc k q = true) :
    get (insert t k v) q = some v := by
  rw [get_eq_head, ← verifyKey_congr hq, if_pos hk, getAll_insert]
  simp [Op.spec, hk, hq]

example : verifyKey (str "Title") = true ∧ eqIc (str "Title") (str "TITLE") = true := by decide

/-- C13, a disagreement: removing a key can change what `get` returns for another key,
because the removal reorders the remaining comments. -/
theorem remove_reorders : ∃ t : Tag, get t (str "A") = some (str "1") ∧
    get (remove t (str "X")).2 (str "A") = some (str "2") :=
  ⟨⟨[], [(str "A", str "1"), (str "A", str "2"), (str "X", str "3")], []⟩, by decide, by decide⟩

/-- C13: the numeric accessors return what was set. -/
theorem numbers (t : Tag) (n : Nat) (h : n < 2 ^ 32) :
    track (setTrack t n) = some n ∧ trackTotal (setTrackTotal t n) = some n ∧
      disk (setDisk t n) = some n ∧ diskTotal (setDiskTotal t n) = some n := by
  have keep : ∀ (t : Tag) (k q v : Str), eqIc k q = false → verifyKey q = true → getAll t q = [v] →
      get (remove t k).2 q = some v := by
    intro t k q v h1 h2 h3
    have := (remove_spec t k).2.2 q
    simp only [Op.spec, h1, Bool.false_eq_true, if_false, h3] at this
    rw [get_eq_head, if_pos h2, List.perm_singleton.mp this]
    rfl
  refine ⟨?_, ?_, ?_, ?_⟩
  · rw [track, number, setTrack, get_insert _ _ _ _ (by decide) (by decide)]
    exact parseU32_toDec h
  · rw [trackTotal, number, setTrackTotal,
      keep _ (str "TOTALTRACKS") (str "TRACKTOTAL") (toDec n) (by decide) (by decide)
        (by rw [getAll_insert]; simp only [Op.spec]; rw [if_pos (by decide)])]
    exact parseU32_toDec h
  · rw [disk, setDisk, get_insert _ _ _ _ (by decide) (by decide)]
    exact parseU32_toDec h
  · rw [diskTotal, number, setDiskTotal,
      keep _ (str "TOTALDISCS") (str "DISCTOTAL") (toDec n) (by decide) (by decide)
        (by rw [getAll_insert]; simp only [Op.spec]; rw [if_pos (by decide)])]
    exact parseU32_toDec h

/-! ## C14: totality and bounds -/

/-- The comments of a block with `n` comments, by their length prefixes (as many as are
complete). -/
def fields : Nat → Bytes → List Bytes
  | 0, _ => []
  | n + 1, d =>
    if 4 + fromLE (d.take 4) ≤ d.length then
      (d.drop 4).take (fromLE (d.take 4)) :: fields n (d.drop (4 + fromLE (d.take 4)))
    else []

/-- A `COVERART` field whose decoded value is too short to be recognised as an image. -/
def ShortCover (c : Bytes) : Prop :=
  ∃ value img, split2 0x3D c = ((split2 0x3D c).1, some value) ∧
    eqIcB (split2 0x3D c).1 (ascii "COVERART") = true ∧ Picture.b64Decode value = some img ∧ img.length < 8

theorem mimeFromBin_panic {d : Bytes} (h : Picture.mimeFromBin d = .error .panic) : d.length < 8 := by
  unfold Picture.mimeFromBin at h
  split at h
  · repeat' split at h
    all_goals cases h
  · rename_i hne
    match d with
    | b0 :: b1 :: b2 :: b3 :: b4 :: b5 :: b6 :: b7 :: r => exact absurd rfl (hne b0 b1 b2 b3 b4 b5 b6 b7 r)
    | [] | [_] | [_, _] | [_, _, _] | [_, _, _, _] | [_, _, _, _, _] | [_, _, _, _, _, _] | [_, _, _, _, _, _, _] =>
      simp

theorem utf8Decode_no_panic (b : Bytes) : Text.utf8Decode b ≠ .error .panic := by
  unfold Text.utf8Decode
  split <;> simp

theorem readItem_no_panic (o : Opts) (t : Tag) (c : Bytes) (h : o.readCoverArt = true → ¬ ShortCover c) :
    readItem o t c ≠ .error .panic := by
  unfold readItem
  intro hp
  split at hp
  · cases hp
  · rename_i key value hs
    split at hp
    · split at hp
      · cases hp
      · split at hp
        · cases hp
        · rename_i he; exact Picture.fromFlacBytes_no_panic _ _ _ he
        · rename_i e hne _
          split at hp
          · cases hp; exact hne rfl
          · cases hp
    · split at hp
      · rename_i hcov
        split at hp
        · cases hp
        · rename_i hr
          simp only [Bool.not_eq_true', Bool.not_eq_false] at hr
          split at hp
          · rename_i d hd
            split at hp
            · rename_i hm
              exact h hr ⟨value, d, by rw [hs], by rw [hs]; exact hcov, hd, mimeFromBin_panic hm⟩
            · cases hp
            · cases hp
          · split at hp <;> cases hp
      · split at hp
        · split at hp
          · simp only at hp
            split at hp <;> cases hp
          · rename_i e he
            split at hp
            · cases hp; exact utf8Decode_no_panic _ he
            · cases hp
        · split at hp
          · split at hp
            · cases hp
            · rename_i e he
              split at hp
              · cases hp; exact utf8Decode_no_panic _ he
              · cases hp
          · split at hp <;> cases hp

theorem readItems_no_panic (o : Opts) (n : Nat) : ∀ (len : Nat) (t : Tag) (d : Bytes),
    (o.readCoverArt = true → ∀ c ∈ fields n d, ¬ ShortCover c) → readItems o n len t d ≠ .error .panic := by
  induction n with
  | zero => intro len t d _ h; cases h
  | succ n ih =>
    intro len t d hc h
    rw [readItems] at h
    unfold readLE at h
    by_cases h4 : 4 ≤ d.length
    · rw [readN_le h4] at h
      simp only [ok_bind] at h
      split at h
      · cases h
      · by_cases hl : fromLE (d.take 4) ≤ (d.drop 4).length
        · rw [readN_le hl] at h
          simp only [ok_bind] at h
          have hf : fields (n + 1) d = (d.drop 4).take (fromLE (d.take 4))
              :: fields n ((d.drop 4).drop (fromLE (d.take 4))) := by
            rw [fields, if_pos (by simp only [List.length_drop] at hl; omega), List.drop_drop]
          rw [hf] at hc
          cases hr : readItem o t ((d.drop 4).take (fromLE (d.take 4))) with
          | error e =>
            rw [hr, error_bind] at h
            cases h
            exact readItem_no_panic o t _ (fun ho => hc ho _ (by simp)) hr
          | ok t' =>
            rw [hr, ok_bind] at h
            exact ih _ _ _ (fun ho c hcm => hc ho c (List.mem_cons_of_mem _ hcm)) h
        · rw [readN_gt (by omega)] at h
          cases h
    · rw [readN_gt (by omega)] at h
      cases h

theorem readVendor_no_panic (o : Opts) (raw : Bytes) : readVendor o raw ≠ .error .panic := by
  unfold readVendor Text.utf16Decode
  intro h
  split at h
  · cases h
  · rename_i e he
    split at h
    · cases h; exact utf8Decode_no_panic _ he
    · split at h <;> cases h

/-- C14, for all data: reading never panics if cover art is not read or if no `COVERART`
field decodes to fewer than eight bytes.  (Every input gives a tag or an error: the reader
is a total function.)  The missing part is false, see `coverart_panics`. -/
theorem readComments_no_panic_partial (o : Opts) (d : Bytes) (len : Nat)
    (h : o.readCoverArt = true → ∀ vl, ∀ c ∈ fields (fromLE ((d.drop (4 + vl)).take 4)) (d.drop (8 + vl)),
      vl = fromLE (d.take 4) → ¬ ShortCover c) :
    readComments o d len ≠ .error .panic := by
  intro hp
  unfold readComments at hp
  unfold readLE at hp
  by_cases h4 : 4 ≤ d.length
  · rw [readN_le h4] at hp
    simp only [ok_bind] at hp
    split at hp
    · cases hp
    · by_cases hl : fromLE (d.take 4) ≤ (d.drop 4).length
      · rw [readN_le hl] at hp
        simp only [ok_bind] at hp
        cases hv : readVendor o ((d.drop 4).take (fromLE (d.take 4))) with
        | error e =>
          rw [hv, error_bind] at hp
          cases hp
          exact readVendor_no_panic _ _ hv
        | ok v =>
          rw [hv, ok_bind] at hp
          by_cases h4' : 4 ≤ ((d.drop 4).drop (fromLE (d.take 4))).length
          · rw [readN_le h4'] at hp
            simp only [ok_bind] at hp
            split at hp
            · cases hp
            · refine readItems_no_panic o _ _ _ _ ?_ hp
              intro ho c hc
              refine h ho (fromLE (d.take 4)) c ?_ rfl
              simp only [List.drop_drop] at hc
              rw [show 4 + fromLE (d.take 4) + 4 = 8 + fromLE (d.take 4) by omega] at hc
              exact hc
          · rw [readN_gt (by omega)] at hp
            cases hp
      · rw [readN_gt (by omega)] at hp
        cases hp
  · rw [readN_gt (by omega)] at hp
    cases hp

/-- C14, a disagreement: a short `COVERART` field makes the reader panic. -/
theorem coverart_panics :
    readComments ⟨.bestAttempt, true, true⟩
      (leBytes 4 0 ++ leBytes 4 1 ++ leBytes 4 13 ++ ascii "COVERART=AAAA") 21 = .error .panic := by
  decide +kernel

theorem readItems_consumed (o : Opts) (n : Nat) : ∀ (len : Nat) (t t' : Tag) (d rest : Bytes),
    readItems o n len t d = .ok (t', rest) →
    ∃ cs : List Bytes, cs.length = n ∧ d = encodeAll cs ++ rest ∧ (cs.map List.length).sum ≤ len ∧
      cs.foldlM (readItem o) t = .ok t' := by
  induction n with
  | zero => intro len t t' d rest h; cases h; exact ⟨[], rfl, rfl, by simp, rfl⟩
  | succ n ih =>
    intro len t t' d rest h
    rw [readItems] at h
    obtain ⟨⟨cl, d1⟩, h1, h⟩ := bind_ok h
    simp only at h
    split at h
    · cases h
    · obtain ⟨⟨c, d2⟩, h2, h⟩ := bind_ok h
      simp only at h
      obtain ⟨t1, h3, h⟩ := bind_ok h
      obtain ⟨cs, e1, e2, e3, e4⟩ := ih _ _ _ _ _ h
      obtain ⟨a, e5, e6, e6'⟩ := readLE_ok h1
      obtain ⟨e7, e8⟩ := readN_ok h2
      have e6'' : leBytes 4 c.length = a := by rw [e8, e6', ← e6, leBytes_fromLE]
      refine ⟨c :: cs, by simp [e1], ?_, ?_, ?_⟩
      · rw [e5, e7, e2, ← e6'']
        simp [encodeAll]
      · simp only [List.map_cons, List.sum_cons]
        omega
      · simp only [List.foldlM_cons]
        rw [h3, ok_bind, e4]

/-- C14: a successful parse is the fold of the fields of the data; the vendor string and
all fields together have at most the declared length, there are at most a quarter of the
declared length many of them, and what is consumed is the vendor string, the fields and
their four-byte lengths. -/
theorem readComments_bounds (o : Opts) (d rest : Bytes) (len : Nat) (t : Tag)
    (h : readComments o d len = .ok (t, rest)) :
    ∃ (vendor : Bytes) (cs : List Bytes),
      d = leBytes 4 vendor.length ++ vendor ++ leBytes 4 cs.length ++ encodeAll cs ++ rest ∧
      vendor.length + (cs.map List.length).sum ≤ len ∧ 4 * cs.length ≤ len - vendor.length ∧
      ∃ v, readVendor o vendor = .ok v ∧ cs.foldlM (readItem o) ⟨v, [], []⟩ = .ok t := by
  unfold readComments at h
  obtain ⟨⟨vl, d1⟩, h1, h⟩ := bind_ok h
  simp only at h
  split at h
  · cases h
  · obtain ⟨⟨raw, d2⟩, h2, h⟩ := bind_ok h
    simp only at h
    obtain ⟨v, h3, h⟩ := bind_ok h
    obtain ⟨⟨n, d3⟩, h4, h⟩ := bind_ok h
    simp only at h
    split at h
    · cases h
    · rename_i hn
      obtain ⟨cs, e1, e2, e3, e4⟩ := readItems_consumed _ _ _ _ _ _ _ h
      obtain ⟨a, e5, e6, e6'⟩ := readLE_ok h1
      obtain ⟨e7, e8⟩ := readN_ok h2
      obtain ⟨b, e9, e10, e10'⟩ := readLE_ok h4
      have ea : leBytes 4 raw.length = a := by rw [e8, e6', ← e6, leBytes_fromLE]
      have eb : leBytes 4 cs.length = b := by rw [e1, e10', ← e10, leBytes_fromLE]
      refine ⟨raw, cs, ?_, ?_, ?_, v, h3, e4⟩
      · rw [e5, e7, e9, e2, ← ea, ← eb]
        simp
      · omega
      · have : (len - vl) / 4 % 2 ^ 32 ≤ (len - vl) / 4 := Nat.mod_le _ _
        omega

/-- C14: an item count that does not fit in the declared length is rejected, whatever the
items are. -/
theorem readComments_rejects_count (o : Opts) (vendor : Bytes) (n len : Nat) (rest : Bytes)
    (hv : vendor.length ≤ len) (hlen : len < 2 ^ 32) (hn : n < 2 ^ 32) (h : len - vendor.length < 4 * n) :
    ∃ e, readComments o (leBytes 4 vendor.length ++ vendor ++ leBytes 4 n ++ rest) len = .error e ∧ e ≠ .panic := by
  unfold readComments
  simp only [List.append_assoc]
  rw [readLE_append _ (by omega), ok_bind]
  simp only
  rw [if_neg (by omega), readN_append _ _ rfl, ok_bind]
  simp only
  cases hv : readVendor o vendor with
  | error e =>
    refine ⟨e, rfl, ?_⟩
    rintro rfl
    exact readVendor_no_panic _ _ hv
  | ok v =>
    rw [ok_bind, readLE_append _ (by omega), ok_bind]
    simp only
    rw [if_pos (by omega)]
    exact ⟨_, rfl, by simp⟩

example : (ascii "v").length ≤ 8 ∧ 8 < 2 ^ 32 ∧ 8 - (ascii "v").length < 4 * 2 := by decide

end Lofty.Vorbis
