import Verif.Lemmas.Accessor
/-! Lemmas for the accessors of tags that store number and total together: APE and MP4. -/
namespace Lofty.Accessor

theorem parseDigits_lt (max : Nat) : ∀ (s : Str) (acc n : Nat), acc < max → parseDigits max acc s = some n → n < max := by
  intro s
  induction s with
  | nil => intro acc n h e; cases e; exact h
  | cons c s ih =>
    intro acc n _ e
    unfold parseDigits at e
    split at e
    · cases e
    · split at e
      · rename_i h; exact ih _ _ h e
      · cases e

theorem parseU32_lt {s : Str} {n : Nat} (h : parseU32 s = some n) : n < 2 ^ 32 := by
  unfold parseU32 parseUInt at h
  split at h
  · cases h
  · split at h
    · cases h
    · exact parseDigits_lt _ _ _ _ (by decide) h
  · exact parseDigits_lt _ _ _ _ (by decide) h

theorem pairs_lt (sep : Char → Bool) (f : Option Str) :
    (∀ x, (Pairs.get sep f).1 = some x → x < 2 ^ 32) ∧ (∀ x, (Pairs.get sep f).2 = some x → x < 2 ^ 32) := by
  cases f with
  | none => exact ⟨fun _ h => (by cases h), fun _ h => (by cases h)⟩
  | some v =>
    have : ∀ (i x : Nat), ((Pairs.splitOn sep v).filterMap parseU32)[i]? = some x → x < 2 ^ 32 := by
      intro i x h
      obtain ⟨s, _, hs⟩ := List.mem_filterMap.mp (List.mem_of_getElem? h)
      exact parseU32_lt hs
    exact ⟨this 0, this 1⟩

theorem pairs_step {sep : Char → Bool} (g : Pairs.GoodSep sep) (f : Option Str) (o : Pairs.Op) (ho : o.Fits) :
    Pairs.get sep (Pairs.step sep f o) = Pairs.specStep (Pairs.get sep f) o := by
  obtain ⟨h2, h3⟩ := pairs_lt sep f
  generalize hs : Pairs.get sep f = s at h2 h3
  cases o with
  | setNumber n =>
    simp only [Pairs.step, Pairs.insertPair, Pairs.specStep, hs]
    rcases Pairs.parse_format g (some n) s.2 (by intro x hx; cases hx; exact ho) h3 with ⟨h, _⟩ | ⟨v, h4, h5⟩
    · cases h
    · rw [h4]; simpa [Pairs.get] using h5
  | setTotal t =>
    simp only [Pairs.step, Pairs.insertPair, Pairs.specStep, hs]
    rcases Pairs.parse_format g s.1 (some t) h2 (by intro x hx; cases hx; exact ho) with ⟨_, h, _⟩ | ⟨v, h4, h5⟩
    · cases h
    · rw [h4]; simpa [Pairs.get] using h5
  | removeNumber => rfl
  | removeTotal =>
    simp only [Pairs.step, Pairs.specStep, hs]
    cases hs : s.1 with
    | none => rfl
    | some n => simpa [Pairs.get] using Pairs.parse_number g n (h2 n hs)

theorem seen_getD (n : Option Nat) : seen (some (.number (n.getD 0))) = seen (n.map .number) := by
  cases n <;> rfl

theorem seen_seen (v : Option Value) : seen (seen v) = seen v := by
  match v with
  | none => rfl
  | some (.text _) => rfl
  | some (.date _) => rfl
  | some (.number 0) => rfl
  | some (.number (n + 1)) => rfl

/-- A text as a date. -/
def dateValue (o : Option Str) : Option Value := (o.bind tryParse).map .date

theorem seen_dateValue (o : Option Str) : seen (dateValue o) = dateValue o := by
  unfold dateValue
  cases o.bind tryParse <;> rfl

theorem dateValue_none : dateValue none = none := rfl

theorem dateValue_fmt {d : Timestamp} (h : Timestamp.InRange d) : dateValue (some d.fmt) = some (.date d) := by
  simp [dateValue, tryParse_fmt h]

/-! ## APE -/

/-- The keys the accessors look at. -/
inductive AKey
  | artist | title | album | genre | comment | track | disc | year
  deriving DecidableEq

def AKey.name : AKey → Str
  | .artist => str "Artist"
  | .title => str "Title"
  | .album => str "Album"
  | .genre => str "GENRE"
  | .comment => str "Comment"
  | .track => str "Track"
  | .disc => str "Disc"
  | .year => str "Year"

theorem AKey.eqIc_name (a b : AKey) : eqIc a.name b.name = decide (a = b) := by
  cases a <;> cases b <;> decide +kernel

/-- The text of a key. -/
def amap (l : List Ape.Item) (k : AKey) : Option Str := apeText l k.name

theorem sameKey_name {a b : AKey} : Ape.SameKey a.name b.name ↔ a = b := by
  rw [← Ape.eqIc_true, AKey.eqIc_name]; simp

theorem apeText_field (l : List Ape.Item) (k : Str) : apeText l k = Ape.field l k := rfl

theorem amap_insert (l : List Ape.Item) (k : AKey) (s : Str) :
    amap (Ape.insert l ⟨false, k.name, .text s⟩) = fun q => if q = k then some s else amap l q := by
  funext q
  by_cases h : q = k
  · subst h
    rw [if_pos rfl, amap, apeText_field, Ape.field_insert]
  · rw [if_neg h]
    have := Ape.get_apply l (.insert ⟨false, k.name, .text s⟩) q.name
    simp only [Ape.apply, Ape.applySpec, if_neg (fun e => h (sameKey_name.mp e))] at this
    simp only [amap, apeText, this]

theorem amap_remove (l : List Ape.Item) (k : AKey) :
    amap (Ape.remove l k.name) = fun q => if q = k then none else amap l q := by
  funext q
  by_cases h : q = k
  · subst h
    rw [if_pos rfl, amap, apeText_field, Ape.field_remove]
  · rw [if_neg h]
    have e : eqIc k.name q.name = false := by rw [AKey.eqIc_name]; simpa using fun e => h e.symm
    simp only [amap, apeText, Ape.get_remove_other l e]

theorem amap_stepPair (l : List Ape.Item) (k : AKey) (o : Pairs.Op) :
    amap (Ape.stepPair k.name l o) = fun q => if q = k then Pairs.step Pairs.apeSep (amap l k) o else amap l q := by
  funext q
  obtain ⟨h1, h2⟩ := Ape.stepPair_field l k.name o
  by_cases h : q = k
  · subst h
    rw [if_pos rfl, amap, apeText_field, h1]; rfl
  · rw [if_neg h]
    simp only [amap, apeText, h2 q.name fun e => h (sameKey_name.mp e)]

/-- The fields in terms of the keys. -/
def apeView (m : AKey → Option Str) : View := fun f => match f with
  | .artist => (m .artist).map .text
  | .title => (m .title).map .text
  | .album => (m .album).map .text
  | .genre => (m .genre).map .text
  | .comment => (m .comment).map .text
  | .track => seen ((Pairs.get Pairs.apeSep (m .track)).1.map .number)
  | .trackTotal => seen ((Pairs.get Pairs.apeSep (m .track)).2.map .number)
  | .disk => seen ((Pairs.get Pairs.apeSep (m .disc)).1.map .number)
  | .diskTotal => seen ((Pairs.get Pairs.apeSep (m .disc)).2.map .number)
  | .date => dateValue (m .year)

theorem seen_text (o : Option Str) : seen (o.map .text) = o.map .text := by cases o <;> rfl
theorem seen_date (o : Option Timestamp) : seen (o.map .date) = o.map .date := by cases o <;> rfl

theorem view_ape (l : List Ape.Item) : seenView ape l = apeView (amap l) := by
  funext f
  cases f
  case date => exact seen_dateValue _
  case track => simp only [seenView, ape, Ape.splitNumPair_field]; rfl
  case trackTotal => simp only [seenView, ape, Ape.splitNumPair_field]; rfl
  case disk => simp only [seenView, ape, Ape.splitNumPair_field]; rfl
  case diskTotal => simp only [seenView, ape, Ape.splitNumPair_field]; rfl
  all_goals exact seen_text _

theorem ape_step (l : List Ape.Item) (op : Op) (h : ∀ f v, op = .set f v → Proper f v)
    (hr : TotalGone (seenView ape l) op) :
    seenView ape (op.run ape l) = op.seenSpec (seenView ape l) := by
  obtain ⟨hr1, hr2⟩ := hr
  rw [view_ape] at hr1 hr2
  have hst := fun f o ho => pairs_step Pairs.goodSep_ape f o ho
  cases op with
  | set f v =>
    have hp := h f v rfl
    rw [view_ape, view_ape]
    cases f <;> cases v <;> try exact hp.elim
    case track.number n =>
      have e : (Op.set .track (.number n)).run ape l = Ape.stepPair AKey.track.name l (.setNumber n) := rfl
      rw [e, amap_stepPair]
      funext g
      cases g <;> simp [apeView, Op.seenSpec, Op.spec, hst _ (.setNumber n) hp, Pairs.specStep, seen_text, seen_dateValue, dateValue_none, seen_seen]
    case disk.number n =>
      have e : (Op.set .disk (.number n)).run ape l = Ape.stepPair AKey.disc.name l (.setNumber n) := rfl
      rw [e, amap_stepPair]
      funext g
      cases g <;> simp [apeView, Op.seenSpec, Op.spec, hst _ (.setNumber n) hp, Pairs.specStep, seen_text, seen_dateValue, dateValue_none, seen_seen]
    case trackTotal.number n =>
      have e : (Op.set .trackTotal (.number n)).run ape l = Ape.stepPair AKey.track.name l (.setTotal n) := rfl
      rw [e, amap_stepPair]
      funext g
      cases g <;> simp [apeView, Op.seenSpec, Op.spec, hst _ (.setTotal n) hp, Pairs.specStep, seen_text, seen_dateValue, dateValue_none, seen_seen,
        seen_getD]
    case diskTotal.number n =>
      have e : (Op.set .diskTotal (.number n)).run ape l = Ape.stepPair AKey.disc.name l (.setTotal n) := rfl
      rw [e, amap_stepPair]
      funext g
      cases g <;> simp [apeView, Op.seenSpec, Op.spec, hst _ (.setTotal n) hp, Pairs.specStep, seen_text, seen_dateValue, dateValue_none, seen_seen,
        seen_getD]
    case date.date d =>
      have e : (Op.set .date (.date d)).run ape l = Ape.insert l ⟨false, AKey.year.name, .text d.fmt⟩ := rfl
      rw [e, amap_insert]
      funext g
      cases g <;> simp [apeView, Op.seenSpec, Op.spec, seen_text, seen_dateValue, dateValue_none, seen_seen, dateValue_fmt hp]
      rfl
    case artist.text s =>
      rw [show (Op.set .artist (.text s)).run ape l = Ape.insert l ⟨false, AKey.artist.name, .text s⟩ from rfl, amap_insert]
      funext g
      cases g <;> simp [apeView, Op.seenSpec, Op.spec, seen_text, seen_dateValue, dateValue_none, seen_seen]
      rfl
    case title.text s =>
      rw [show (Op.set .title (.text s)).run ape l = Ape.insert l ⟨false, AKey.title.name, .text s⟩ from rfl, amap_insert]
      funext g
      cases g <;> simp [apeView, Op.seenSpec, Op.spec, seen_text, seen_dateValue, dateValue_none, seen_seen]
      rfl
    case album.text s =>
      rw [show (Op.set .album (.text s)).run ape l = Ape.insert l ⟨false, AKey.album.name, .text s⟩ from rfl, amap_insert]
      funext g
      cases g <;> simp [apeView, Op.seenSpec, Op.spec, seen_text, seen_dateValue, dateValue_none, seen_seen]
      rfl
    case genre.text s =>
      rw [show (Op.set .genre (.text s)).run ape l = Ape.insert l ⟨false, AKey.genre.name, .text s⟩ from rfl, amap_insert]
      funext g
      cases g <;> simp [apeView, Op.seenSpec, Op.spec, seen_text, seen_dateValue, dateValue_none, seen_seen]
      rfl
    case comment.text s =>
      rw [show (Op.set .comment (.text s)).run ape l = Ape.insert l ⟨false, AKey.comment.name, .text s⟩ from rfl, amap_insert]
      funext g
      cases g <;> simp [apeView, Op.seenSpec, Op.spec, seen_text, seen_dateValue, dateValue_none, seen_seen]
      rfl
  | remove f =>
    rw [view_ape, view_ape]
    have del : ∀ (k : AKey), (Op.remove f).run ape l = Ape.remove l k.name →
        apeView (fun q => if q = k then none else amap l q) = (Op.remove f).seenSpec (apeView (amap l)) →
        apeView (amap ((Op.remove f).run ape l)) = (Op.remove f).seenSpec (apeView (amap l)) := by
      intro k e hv
      rw [e, amap_remove, hv]
    cases f
    case track =>
      have ht := hr1 rfl
      refine del .track rfl ?_
      funext g
      cases g <;> simp [apeView, Op.seenSpec, Op.spec, seen_text, seen_dateValue, dateValue_none, seen_seen, Pairs.get]
      exact ht.symm
    case disk =>
      have ht := hr2 rfl
      refine del .disc rfl ?_
      funext g
      cases g <;> simp [apeView, Op.seenSpec, Op.spec, seen_text, seen_dateValue, dateValue_none, seen_seen, Pairs.get]
      exact ht.symm
    case trackTotal =>
      have e : (Op.remove .trackTotal).run ape l = Ape.stepPair AKey.track.name l .removeTotal := rfl
      rw [e, amap_stepPair]
      funext g
      cases g <;> simp [apeView, Op.seenSpec, Op.spec, hst _ .removeTotal trivial, Pairs.specStep, seen_text, seen_dateValue, dateValue_none, seen_seen]
      
    case diskTotal =>
      have e : (Op.remove .diskTotal).run ape l = Ape.stepPair AKey.disc.name l .removeTotal := rfl
      rw [e, amap_stepPair]
      funext g
      cases g <;> simp [apeView, Op.seenSpec, Op.spec, hst _ .removeTotal trivial, Pairs.specStep, seen_text, seen_dateValue, dateValue_none, seen_seen]
      
    case artist => exact del .artist rfl (by funext g; cases g <;> simp [apeView, Op.seenSpec, Op.spec, seen_text, seen_dateValue, dateValue_none, seen_seen]; rfl)
    case title => exact del .title rfl (by funext g; cases g <;> simp [apeView, Op.seenSpec, Op.spec, seen_text, seen_dateValue, dateValue_none, seen_seen]; rfl)
    case album => exact del .album rfl (by funext g; cases g <;> simp [apeView, Op.seenSpec, Op.spec, seen_text, seen_dateValue, dateValue_none, seen_seen]; rfl)
    case genre => exact del .genre rfl (by funext g; cases g <;> simp [apeView, Op.seenSpec, Op.spec, seen_text, seen_dateValue, dateValue_none, seen_seen]; rfl)
    case comment => exact del .comment rfl (by funext g; cases g <;> simp [apeView, Op.seenSpec, Op.spec, seen_text, seen_dateValue, dateValue_none, seen_seen]; rfl)
    case date => exact del .year rfl (by funext g; cases g <;> simp [apeView, Op.seenSpec, Op.spec, seen_text, seen_dateValue, dateValue_none, seen_seen]; rfl)

/-! ## MP4 -/

/-- The keys the accessors look at. -/
inductive MKey
  | artist | title | album | genre | comment | track | disc | day
  deriving DecidableEq

def MKey.ident : MKey → Mp4.Ident
  | .artist => Ilst.four 0xA9 "ART"
  | .title => Ilst.four 0xA9 "nam"
  | .album => Ilst.four 0xA9 "alb"
  | .genre => Ilst.four 0xA9 "gen"
  | .comment => Ilst.four 0xA9 "cmt"
  | .track => Ilst.trkn
  | .disc => Ilst.disk
  | .day => Ilst.four 0xA9 "day"

theorem MKey.ident_inj (a b : MKey) : a.ident = b.ident ↔ a = b := by
  cases a <;> cases b <;> decide +kernel

/-- The values of a key. -/
def mmap (m : Ilst.Map) (k : MKey) : Option (List Ilst.Data) := m k.ident

theorem mmap_set (m : Ilst.Map) (k : MKey) (v : Option (List Ilst.Data)) :
    mmap (m.set k.ident v) = fun q => if q = k then v else mmap m q := by
  funext q
  simp only [mmap, Ilst.Map.set, MKey.ident_inj]

/-- The pair of numbers in the values of an atom. -/
def mpair (v : Option (List Ilst.Data)) : Option Nat × Option Nat := Ilst.pairOf (fun _ => v) Ilst.trkn

theorem pairOf_mmap (m : Ilst.Map) (k : MKey) : Ilst.pairOf m k.ident = mpair (mmap m k) := rfl

/-- The text in the values of an atom. -/
def mtext : Option (List Ilst.Data) → Option Str
  | some (.utf8 s :: _) => some s
  | some (.utf16 s :: _) => some s
  | _ => none

def mdate : Option (List Ilst.Data) → Option Str
  | some (.utf8 s :: _) => some s
  | _ => none

/-- The fields in terms of the keys. -/
def mp4View (m : MKey → Option (List Ilst.Data)) : View := fun f => match f with
  | .artist => (mtext (m .artist)).map .text
  | .title => (mtext (m .title)).map .text
  | .album => (mtext (m .album)).map .text
  | .genre => (mtext (m .genre)).map .text
  | .comment => (mtext (m .comment)).map .text
  | .track => seen ((mpair (m .track)).1.map .number)
  | .trackTotal => seen ((mpair (m .track)).2.map .number)
  | .disk => seen ((mpair (m .disc)).1.map .number)
  | .diskTotal => seen ((mpair (m .disc)).2.map .number)
  | .date => dateValue (mdate (m .day))

theorem getText_toMap (t : Ilst.Tag) (i : Mp4.Ident) : Ilst.getText t i = mtext (Ilst.toMap t i) := by
  unfold Ilst.getText Ilst.get Ilst.toMap
  cases t.find? (fun a => decide (a.ident = i)) with
  | none => rfl
  | some a =>
    simp only [Option.map_some]
    cases a.data.toList with
    | nil => rfl
    | cons d l => cases d <;> rfl

theorem dateText_toMap (t : Ilst.Tag) : mp4DateText t = mdate (Ilst.toMap t (mp4Key .date)) := by
  unfold mp4DateText Ilst.get Ilst.toMap
  cases t.find? (fun a => decide (a.ident = mp4Key .date)) with
  | none => rfl
  | some a =>
    simp only [Option.map_some]
    cases a.data.toList with
    | nil => rfl
    | cons d l => cases d <;> rfl

theorem view_mp4 (t : Ilst.Tag) : seenView mp4 t = mp4View (mmap (Ilst.toMap t)) := by
  funext f
  cases f
  case date => simp only [seenView, mp4, dateText_toMap]; exact seen_dateValue _
  case track => simp only [seenView, mp4, (Ilst.number_eq _ _).1]; rfl
  case trackTotal => simp only [seenView, mp4, (Ilst.number_eq _ _).2]; rfl
  case disk => simp only [seenView, mp4, (Ilst.number_eq _ _).1]; rfl
  case diskTotal => simp only [seenView, mp4, (Ilst.number_eq _ _).2]; rfl
  all_goals simp only [seenView, mp4, getText_toMap]; exact seen_text _

theorem mpair_value {a b : Nat} (ha : a < 65536) (hb : b < 65536) : mpair (some (Ilst.pairValue a b)) = (some a, some b) := by
  have := Ilst.pairOf_set (fun _ => none) Ilst.trkn a b ha hb
  simpa [mpair, Ilst.pairOf, Ilst.Map.set] using this

theorem mpair_lt (v : Option (List Ilst.Data)) : (mpair v).1.getD 0 < 65536 ∧ (mpair v).2.getD 0 < 65536 :=
  Ilst.pairOf_lt _ _

theorem mtext_utf8 (s : Str) : mtext (some [.utf8 s]) = some s := rfl
theorem mdate_utf8 (s : Str) : mdate (some [.utf8 s]) = some s := rfl
theorem mtext_none : mtext none = none := rfl
theorem mdate_none : mdate none = none := rfl
theorem mpair_none : mpair none = (none, none) := rfl
theorem seen_none : seen none = none := rfl
theorem seen_some_text (s : Str) : seen (some (.text s)) = some (.text s) := rfl
theorem seen_some_date (d : Timestamp) : seen (some (.date d)) = some (.date d) := rfl

/-- The calls as operations on the atoms. -/
theorem mp4_run (t : Ilst.Tag) (op : Op) (h : ∀ f v, op = .set f v → Proper f v) : ∃ o : Ilst.Op, op.run mp4 t = o.run t ∧
    match op with
    | .set .artist (.text s) => o = .setText MKey.artist.ident s
    | .set .title (.text s) => o = .setText MKey.title.ident s
    | .set .album (.text s) => o = .setText MKey.album.ident s
    | .set .genre (.text s) => o = .setText MKey.genre.ident s
    | .set .comment (.text s) => o = .setText MKey.comment.ident s
    | .set .date (.date d) => o = .setText MKey.day.ident d.fmt
    | .set .track (.number n) => o = .setNumber MKey.track.ident n
    | .set .trackTotal (.number n) => o = .setTotal MKey.track.ident n
    | .set .disk (.number n) => o = .setNumber MKey.disc.ident n
    | .set .diskTotal (.number n) => o = .setTotal MKey.disc.ident n
    | .remove .artist => o = .remove MKey.artist.ident
    | .remove .title => o = .remove MKey.title.ident
    | .remove .album => o = .remove MKey.album.ident
    | .remove .genre => o = .remove MKey.genre.ident
    | .remove .comment => o = .remove MKey.comment.ident
    | .remove .date => o = .remove MKey.day.ident
    | .remove .track => o = .remove MKey.track.ident
    | .remove .disk => o = .remove MKey.disc.ident
    | .remove .trackTotal => o = .removeTotal MKey.track.ident
    | .remove .diskTotal => o = .removeTotal MKey.disc.ident
    | _ => False := by
  cases op with
  | set f v =>
    have hp := h f v rfl
    cases f <;> cases v <;> first | exact hp.elim | exact ⟨_, rfl, rfl⟩
  | remove f => cases f <;> exact ⟨_, rfl, rfl⟩

theorem mp4_step (t : Ilst.Tag) (op : Op) (hu : Ilst.Unique t)
    (h : ∀ f v, op = .set f v → Proper f v ∧ ∀ n, v = .number n → n < 65536)
    (hr : TotalGone (seenView mp4 t) op) :
    Ilst.Unique (op.run mp4 t) ∧ seenView mp4 (op.run mp4 t) = op.seenSpec (seenView mp4 t) := by
  obtain ⟨hr1, hr2⟩ := hr
  rw [view_mp4] at hr1 hr2
  obtain ⟨o, ho, hm⟩ := mp4_run t op fun f v e => (h f v e).1
  obtain ⟨h1, h2⟩ := Ilst.run_spec hu o
  rw [ho]
  refine ⟨h1, ?_⟩
  rw [view_mp4, view_mp4, h2]
  have l1 := fun v => (mpair_lt v).1
  have l2 := fun v => (mpair_lt v).2
  cases op with
  | set f v =>
    obtain ⟨hp, hn⟩ := h f v rfl
    cases f <;> cases v <;> simp only at hm <;> subst hm
    case track.number n =>
      have hn := hn n rfl
      simp only [Ilst.Op.spec, mmap_set, pairOf_mmap]
      funext g
      cases g <;> simp [mp4View, Op.seenSpec, Op.spec, seen_text, seen_dateValue, dateValue_none, seen_seen, mpair_value hn (l2 _), seen_getD]
    case disk.number n =>
      have hn := hn n rfl
      simp only [Ilst.Op.spec, mmap_set, pairOf_mmap]
      funext g
      cases g <;> simp [mp4View, Op.seenSpec, Op.spec, seen_text, seen_dateValue, dateValue_none, seen_seen, mpair_value hn (l2 _), seen_getD]
    case trackTotal.number n =>
      have hn := hn n rfl
      simp only [Ilst.Op.spec, mmap_set, pairOf_mmap]
      funext g
      cases g <;> simp [mp4View, Op.seenSpec, Op.spec, seen_text, seen_dateValue, dateValue_none, seen_seen, mpair_value (l1 _) hn, seen_getD]
    case diskTotal.number n =>
      have hn := hn n rfl
      simp only [Ilst.Op.spec, mmap_set, pairOf_mmap]
      funext g
      cases g <;> simp [mp4View, Op.seenSpec, Op.spec, seen_text, seen_dateValue, dateValue_none, seen_seen, mpair_value (l1 _) hn, seen_getD]
    case date.date d =>
      simp only [Ilst.Op.spec, mmap_set]
      funext g
      cases g <;> simp [mp4View, Op.seenSpec, Op.spec, seen_text, seen_dateValue, dateValue_none, seen_seen, mdate_utf8, dateValue_fmt hp, seen_some_date]
    all_goals
      simp only [Ilst.Op.spec, mmap_set]
      funext g
      cases g <;> simp [mp4View, Op.seenSpec, Op.spec, seen_text, seen_dateValue, dateValue_none, seen_seen, mtext_utf8, seen_some_text]
  | remove f =>
    cases f <;> simp only at hm <;> subst hm
    case track =>
      have ht := hr1 rfl
      simp only [Ilst.Op.spec, mmap_set]
      funext g
      cases g <;> simp [mp4View, Op.seenSpec, Op.spec, seen_text, seen_dateValue, dateValue_none, seen_seen, mpair_none, seen_none]
      exact ht.symm
    case disk =>
      have ht := hr2 rfl
      simp only [Ilst.Op.spec, mmap_set]
      funext g
      cases g <;> simp [mp4View, Op.seenSpec, Op.spec, seen_text, seen_dateValue, dateValue_none, seen_seen, mpair_none, seen_none]
      exact ht.symm
    case trackTotal =>
      simp only [Ilst.Op.spec, mmap_set, pairOf_mmap]
      have e : seen ((mpair (Option.map (fun n => Ilst.pairValue n 0) (mpair (mmap (Ilst.toMap t) .track)).1)).1.map .number) =
          seen ((mpair (mmap (Ilst.toMap t) .track)).1.map .number) ∧
          seen ((mpair (Option.map (fun n => Ilst.pairValue n 0) (mpair (mmap (Ilst.toMap t) .track)).1)).2.map .number) = none := by
        have := l1 (mmap (Ilst.toMap t) .track)
        cases hx : (mpair (mmap (Ilst.toMap t) .track)).1 with
        | none => exact ⟨rfl, rfl⟩
        | some n =>
          rw [hx] at this
          replace this : n < 65536 := this
          simp only [Option.map_some, mpair_value this (by decide : 0 < 65536)]
          exact ⟨trivial, rfl⟩
      funext g
      cases g <;> simp [mp4View, Op.seenSpec, Op.spec, seen_text, seen_dateValue, dateValue_none, seen_seen, e.1, e.2, seen_none]
    case diskTotal =>
      simp only [Ilst.Op.spec, mmap_set, pairOf_mmap]
      have e : seen ((mpair (Option.map (fun n => Ilst.pairValue n 0) (mpair (mmap (Ilst.toMap t) .disc)).1)).1.map .number) =
          seen ((mpair (mmap (Ilst.toMap t) .disc)).1.map .number) ∧
          seen ((mpair (Option.map (fun n => Ilst.pairValue n 0) (mpair (mmap (Ilst.toMap t) .disc)).1)).2.map .number) = none := by
        have := l1 (mmap (Ilst.toMap t) .disc)
        cases hx : (mpair (mmap (Ilst.toMap t) .disc)).1 with
        | none => exact ⟨rfl, rfl⟩
        | some n =>
          rw [hx] at this
          replace this : n < 65536 := this
          simp only [Option.map_some, mpair_value this (by decide : 0 < 65536)]
          exact ⟨trivial, rfl⟩
      funext g
      cases g <;> simp [mp4View, Op.seenSpec, Op.spec, seen_text, seen_dateValue, dateValue_none, seen_seen, e.1, e.2, seen_none]
    all_goals
      simp only [Ilst.Op.spec, mmap_set]
      funext g
      cases g <;> simp [mp4View, Op.seenSpec, Op.spec, seen_text, seen_dateValue, dateValue_none, seen_seen, mtext_none, mdate_none, seen_none]

end Lofty.Accessor
