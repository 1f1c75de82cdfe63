import Verif.Lemmas.AccessorPairs
import Verif.Props.Id3v2List
/-! Lemmas for the accessors of ID3v2 tags. -/
namespace Lofty.Accessor
open Lofty.Id3v2 (Frame FrameId)

/-- What the accessors look at. -/
inductive IKey
  | tpe1 | tit2 | talb | tcon | trck | tpos | tdrc | comm
  deriving DecidableEq

def IKey.id : IKey → FrameId
  | .tpe1 => .valid (str "TPE1")
  | .tit2 => .valid (str "TIT2")
  | .talb => .valid (str "TALB")
  | .tcon => .valid (str "TCON")
  | .trck => .valid (str "TRCK")
  | .tpos => .valid (str "TPOS")
  | .tdrc => .valid (str "TDRC")
  | .comm => .valid (str "COMM")

theorem IKey.id_inj (a b : IKey) : a.id = b.id ↔ a = b := by
  cases a <;> cases b <;> decide +kernel

theorem IKey.many (a : IKey) : Id3v2.onePerTag.contains a.id.asStr = false := by
  cases a <;> decide +kernel

/-- Whether the accessors of a key look at a frame. -/
def IKey.sees : IKey → Frame → Bool
  | .comm, f => (plainComment f).isSome
  | k, f => decide (f.id = k.id)

theorem IKey.sees_id {k : IKey} {f : Frame} (h : k.sees f = true) : f.id = k.id := by
  cases k <;> simp only [IKey.sees, decide_eq_true_eq] at h <;> try exact h
  unfold plainComment at h
  split at h
  · rfl
  · cases h

/-- Text frames and nothing else, at most one of them, for the ids of texts; at most one date and at most one comment without
description. -/
structure Id3v2Ok (t : Id3v2Tag) : Prop where
  once : ∀ k : IKey, (t.frames.filter k.sees).length ≤ 1
  text : ∀ k : IKey, k ≠ .comm → k ≠ .tdrc → ∀ f ∈ t.frames, f.id = k.id → ∃ fl x, f = .leaf fl (.text x)

/-- What the accessors of a key find. -/
def imap (l : List Frame) (k : IKey) : Option Frame := (l.filter k.sees).head?

theorem takeFirst_filter (p q : Frame → Bool) (h : ∀ f, p f = true → q f = false) : ∀ l : List Frame,
    (Id3v2.takeFirst p l).2.filter q = l.filter q
  | [] => rfl
  | f :: l => by
    unfold Id3v2.takeFirst
    by_cases hp : p f = true
    · simp [hp, h f hp]
    · simp [hp, List.filter_cons, takeFirst_filter p q h l]

theorem takeFirst_tail (p q : Frame → Bool) : ∀ l : List Frame, (∀ f ∈ l, p f = q f) →
    (Id3v2.takeFirst p l).2.filter q = (l.filter q).tail
  | [], _ => rfl
  | f :: l, h => by
    unfold Id3v2.takeFirst
    have hf := h f (by simp)
    by_cases hp : p f = true
    · simp [hp, ← hf]
    · simp only [hp, if_false, Bool.false_eq_true, List.filter_cons, ← hf]
      exact takeFirst_tail p q l fun g hg => h g (by simp [hg])

theorem same_newText (g : Frame) (id : FrameId) (s : Str) :
    Id3v2.sameFrame g (newText id s) = match g with
      | .leaf _ (.text x) => decide (x.id = id)
      | _ => false := by
  cases g with
  | leaf fl c => cases c <;> simp [Id3v2.sameFrame, Id3v2.sameContent, newText]
  | chapter => rfl
  | toc => rfl

theorem same_newText_id {g : Frame} {id : FrameId} {s : Str} (h : Id3v2.sameFrame g (newText id s) = true) : g.id = id := by
  rw [same_newText] at h
  split at h
  · simpa [Frame.id, Id3v2.Content.id] using h
  · cases h

theorem sees_newText (k q : IKey) (hk : k ≠ .comm) (s : Str) : q.sees (newText k.id s) = decide (q = k) := by
  cases q <;> simp only [IKey.sees, newText, Frame.id, Id3v2.Content.id, IKey.id_inj, plainComment] <;>
    first | (simp only [eq_comm]; done) | skip
  all_goals cases k <;> first | rfl | exact absurd rfl hk

theorem filter_insertText {t : Id3v2Tag} (ht : Id3v2Ok t) {k : IKey} (h1 : k ≠ .comm) (h2 : k ≠ .tdrc) (s : Str) (q : IKey) :
    (Id3v2.insert t.frames (newText k.id s)).2.filter q.sees = if q = k then [newText k.id s] else t.frames.filter q.sees := by
  have e : (Id3v2.insert t.frames (newText k.id s)).2 =
      (Id3v2.takeFirst (fun g => Id3v2.sameFrame g (newText k.id s)) t.frames).2 ++ [newText k.id s] := by
    unfold Id3v2.insert
    have : Id3v2.onePerTag.contains (newText k.id s).id.asStr = false := k.many
    rw [this]; rfl
  rw [e, List.filter_append, List.filter_cons, sees_newText k q h1]
  by_cases hq : q = k
  · subst hq
    rw [if_pos rfl]
    rw [takeFirst_tail _ _ _ fun f hf => ?_]
    · have := ht.once q
      match hx : t.frames.filter q.sees, this with
      | [], _ => simp
      | [a], _ => simp
      | _ :: _ :: _, h => simp at h
    · have hs : q.sees f = decide (f.id = q.id) := by cases q <;> first | rfl | exact absurd rfl h1
      rw [hs]
      cases hd : decide (f.id = q.id) with
      | false =>
        cases h' : Id3v2.sameFrame f (newText q.id s) with
        | false => rfl
        | true => rw [same_newText_id h'] at hd; simp at hd
      | true =>
        obtain ⟨fl, x, rfl⟩ := ht.text q h1 h2 f hf (by simpa using hd)
        rw [same_newText]
        exact hd
  · rw [if_neg hq, takeFirst_filter]
    · simp [hq]
    · intro f hf
      cases h' : q.sees f with
      | false => rfl
      | true =>
        have := IKey.sees_id h'
        rw [same_newText_id hf] at this
        exact absurd ((IKey.id_inj _ _).mp this).symm hq

theorem mem_insertText {t : Id3v2Tag} {id : FrameId} {s : Str} {f : Frame}
    (h : f ∈ (Id3v2.insert t.frames (newText id s)).2) (hm : Id3v2.onePerTag.contains id.asStr = false) :
    f ∈ t.frames ∨ f = newText id s := by
  unfold Id3v2.insert at h
  have : Id3v2.onePerTag.contains (newText id s).id.asStr = false := hm
  rw [this] at h
  simp only [Bool.false_eq_true, if_false, List.mem_append, List.mem_singleton] at h
  rcases h with h | h
  · left
    exact (Id3v2.takeFirst_sublist _ _).mem h
  · exact .inr h

theorem insertText_ok {t : Id3v2Tag} (ht : Id3v2Ok t) {k : IKey} (h1 : k ≠ .comm) (h2 : k ≠ .tdrc) (s : Str) :
    Id3v2Ok { t with frames := (Id3v2.insert t.frames (newText k.id s)).2 } ∧
    imap (Id3v2.insert t.frames (newText k.id s)).2 = fun q => if q = k then some (newText k.id s) else imap t.frames q := by
  refine ⟨⟨fun q => ?_, fun q q1 q2 f hf hid => ?_⟩, funext fun q => ?_⟩
  · show ((Id3v2.insert t.frames (newText k.id s)).2.filter q.sees).length ≤ 1
    rw [filter_insertText ht h1 h2]
    split
    · simp
    · exact ht.once q
  · rcases mem_insertText hf k.many with hf | rfl
    · exact ht.text q q1 q2 f hf hid
    · exact ⟨_, _, rfl⟩
  · unfold imap
    rw [filter_insertText ht h1 h2]
    split <;> rfl

theorem filter_remove {t : Id3v2Tag} (ht : Id3v2Ok t) {k : IKey} (h1 : k ≠ .comm) (q : IKey) :
    (Id3v2.remove t.frames k.id).2.filter q.sees = if q = k then [] else t.frames.filter q.sees := by
  have hp := ((Id3v2.remove_partial t.frames k.id).2.1).filter q.sees
  rw [List.filter_filter] at hp
  by_cases hq : q = k
  · subst hq
    rw [if_pos rfl]
    have : (t.frames.filter fun a => q.sees a && decide (a.id ≠ q.id)) = [] := by
      rw [List.filter_eq_nil_iff]
      intro f _ hf
      simp only [Bool.and_eq_true, decide_eq_true_eq] at hf
      exact hf.2 (IKey.sees_id hf.1)
    rw [this] at hp
    exact hp.eq_nil
  · rw [if_neg hq]
    have : (t.frames.filter fun a => q.sees a && decide (a.id ≠ k.id)) = t.frames.filter q.sees := by
      apply List.filter_congr
      intro f _
      cases hs : q.sees f with
      | false => rfl
      | true =>
        have := IKey.sees_id hs
        simp [this, IKey.id_inj, hq]
    rw [this] at hp
    have hl := ht.once q
    generalize t.frames.filter q.sees = l at hp hl
    match l, hl with
    | [], _ => exact hp.eq_nil
    | [a], _ => exact List.perm_singleton.mp hp
    | _ :: _ :: _, hl => simp at hl

theorem iremove_ok {t : Id3v2Tag} (ht : Id3v2Ok t) {k : IKey} (h1 : k ≠ .comm) :
    Id3v2Ok { t with frames := (Id3v2.remove t.frames k.id).2 } ∧
    imap (Id3v2.remove t.frames k.id).2 = fun q => if q = k then none else imap t.frames q := by
  refine ⟨⟨fun q => ?_, fun q q1 q2 f hf hid => ?_⟩, funext fun q => ?_⟩
  · show ((Id3v2.remove t.frames k.id).2.filter q.sees).length ≤ 1
    rw [filter_remove ht h1]
    split
    · simp
    · exact ht.once q
  · have := (Id3v2.remove_partial t.frames k.id).2.1.mem_iff.mp hf
    exact ht.text q q1 q2 f (List.mem_filter.mp this).1 hid
  · unfold imap
    rw [filter_remove ht h1]
    split <;> rfl

/-! ## Comments -/

theorem plain_withContent (s : Str) {f : Frame} (h : (plainComment f).isSome = true) :
    ∃ fl c, f = .leaf fl (.comment c) ∧ c.desc = [] ∧ withContent s f = .leaf fl (.comment { c with content := s }) := by
  cases f with
  | leaf fl c =>
    cases c <;> simp only [plainComment, Option.isSome_none, Bool.false_eq_true] at h
    rename_i c
    split at h
    · rename_i hd; exact ⟨fl, c, rfl, hd, rfl⟩
    · cases h
  | chapter => cases h
  | toc => cases h

theorem filter_plain_other {q : IKey} (hq : q ≠ .comm) (l : List Frame) :
    (l.filter fun g => (plainComment g).isNone).filter q.sees = l.filter q.sees := by
  rw [List.filter_filter]
  apply List.filter_congr
  intro f _
  cases hs : q.sees f with
  | false => rfl
  | true =>
    cases hp : (plainComment f).isSome with
    | false => simpa using hp
    | true =>
      have h1 := IKey.sees_id hs
      have h2 : f.id = IKey.comm.id := IKey.sees_id (k := .comm) hp
      rw [h1, IKey.id_inj] at h2
      exact absurd h2 hq

theorem filter_setComment_other {q : IKey} (hq : q ≠ .comm) (s : Str) : ∀ l : List Frame,
    (id3v2SetComment s l).filter q.sees = l.filter q.sees
  | [] => by
    unfold id3v2SetComment
    cases q <;> first | rfl | exact absurd rfl hq
  | f :: l => by
    unfold id3v2SetComment
    by_cases h : (plainComment f).isSome = true
    · rw [if_pos h, List.filter_cons, List.filter_cons, filter_plain_other hq]
      obtain ⟨fl, c, rfl, hd, e⟩ := plain_withContent s h
      rw [e]
      have : ∀ c' : Id3v2.LangF, q.sees (.leaf fl (.comment c')) = false := by
        intro c'
        cases hs : q.sees (.leaf fl (.comment c')) with
        | false => rfl
        | true =>
          have h1 : IKey.comm.id = q.id := IKey.sees_id hs
          exact absurd ((IKey.id_inj _ _).mp h1).symm hq
      rw [this, this]; rfl
    · rw [if_neg h, List.filter_cons, List.filter_cons, filter_setComment_other hq s l]

theorem filter_setComment (s : Str) : ∀ l : List Frame, ∃ (fl : Id3v2.FrameFlags) (c : Id3v2.LangF),
    (id3v2SetComment s l).filter IKey.comm.sees = [.leaf fl (.comment ({ c with content := s } : Id3v2.LangF))] ∧ c.desc = []
  | [] => ⟨{}, ⟨.utf8, (88, 88, 88), [], s⟩, rfl, rfl⟩
  | f :: l => by
    unfold id3v2SetComment
    by_cases h : (plainComment f).isSome = true
    · rw [if_pos h]
      obtain ⟨fl, c, rfl, hd, e⟩ := plain_withContent s h
      refine ⟨fl, c, ?_, hd⟩
      rw [e, List.filter_cons]
      have h1 : IKey.comm.sees (.leaf fl (.comment { c with content := s })) = true := by simp [IKey.sees, plainComment, hd]
      rw [if_pos h1, List.filter_filter]
      have : (l.filter fun a => IKey.comm.sees a && (plainComment a).isNone) = [] := by
        rw [List.filter_eq_nil_iff]
        intro g _
        simp only [IKey.sees]
        cases plainComment g <;> simp
      rw [this]
    · rw [if_neg h]
      obtain ⟨fl, c, h1, h2⟩ := filter_setComment s l
      refine ⟨fl, c, ?_, h2⟩
      rw [List.filter_cons, if_neg (show ¬ IKey.comm.sees f = true from h), h1]

theorem mem_setComment (s : Str) : ∀ (l : List Frame) (f : Frame), f ∈ id3v2SetComment s l → f ∈ l ∨ f.id = IKey.comm.id
  | [], f, h => by
    simp only [id3v2SetComment, List.mem_singleton] at h
    subst h
    exact .inr rfl
  | g :: l, f, h => by
    unfold id3v2SetComment at h
    by_cases hp : (plainComment g).isSome = true
    · rw [if_pos hp] at h
      rcases List.mem_cons.mp h with rfl | h
      · obtain ⟨fl, c, rfl, hd, e⟩ := plain_withContent s hp
        rw [e]; exact .inr rfl
      · exact .inl (List.mem_cons_of_mem _ (List.mem_filter.mp h).1)
    · rw [if_neg hp] at h
      rcases List.mem_cons.mp h with rfl | h
      · exact .inl (by simp)
      · rcases mem_setComment s l f h with h | h
        · exact .inl (List.mem_cons_of_mem _ h)
        · exact .inr h

theorem setComment_ok {t : Id3v2Tag} (ht : Id3v2Ok t) (s : Str) :
    Id3v2Ok { t with frames := id3v2SetComment s t.frames } ∧
    ∃ (fl : Id3v2.FrameFlags) (c : Id3v2.LangF), c.desc = [] ∧ imap (id3v2SetComment s t.frames) = fun q =>
      if q = .comm then some (.leaf fl (.comment ({ c with content := s } : Id3v2.LangF))) else imap t.frames q := by
  obtain ⟨fl, c, h1, h2⟩ := filter_setComment s t.frames
  refine ⟨⟨fun q => ?_, fun q q1 q2 f hf hid => ?_⟩, fl, c, h2, funext fun q => ?_⟩
  · show ((id3v2SetComment s t.frames).filter q.sees).length ≤ 1
    by_cases hq : q = .comm
    · subst hq; rw [h1]; simp
    · rw [filter_setComment_other hq]; exact ht.once q
  · rcases mem_setComment s _ _ hf with h | h
    · exact ht.text q q1 q2 f h hid
    · rw [hid, IKey.id_inj] at h
      exact absurd h q1
  · unfold imap
    by_cases hq : q = .comm
    · subst hq; rw [h1]; rfl
    · rw [filter_setComment_other hq, if_neg hq]

theorem removeComment_ok {t : Id3v2Tag} (ht : Id3v2Ok t) :
    Id3v2Ok { t with frames := t.frames.filter fun g => (plainComment g).isNone } ∧
    imap (t.frames.filter fun g => (plainComment g).isNone) = fun q => if q = .comm then none else imap t.frames q := by
  have h1 : (t.frames.filter fun g => (plainComment g).isNone).filter IKey.comm.sees = [] := by
    rw [List.filter_filter, List.filter_eq_nil_iff]
    intro g _
    simp only [IKey.sees]
    cases plainComment g <;> simp
  refine ⟨⟨fun q => ?_, fun q q1 q2 f hf hid => ?_⟩, funext fun q => ?_⟩
  · show ((t.frames.filter fun g => (plainComment g).isNone).filter q.sees).length ≤ 1
    by_cases hq : q = .comm
    · subst hq; rw [h1]; simp
    · rw [filter_plain_other hq]; exact ht.once q
  · exact ht.text q q1 q2 f (List.mem_filter.mp hf).1 hid
  · unfold imap
    by_cases hq : q = .comm
    · subst hq; rw [h1]; rfl
    · rw [filter_plain_other hq, if_neg hq]

/-! ## The fields -/

/-- The text of a frame. -/
def itext : Option Frame → Option Str
  | some (.leaf _ (.text f)) => some f.value
  | _ => none

/-- The text of a frame as it is shown. -/
def ishow (v : Id3v2.Version) (o : Option Frame) : Option Str := (itext o).map (removeSeparators v)

def igenre (o : Option Frame) : Option Str :=
  match (itext o).map fun s => Id3v2.genreList s.length s with
  | some (g :: gs) => some (g ++ joinSlash gs)
  | _ => none

def idate : Option Frame → Option Timestamp
  | some (.leaf _ (.time t)) => some t.time
  | _ => none

def icomment (o : Option Frame) : Option Str := (o.bind plainComment).map (·.content)

/-- The fields in terms of the frames. -/
def id3v2View (v : Id3v2.Version) (m : IKey → Option Frame) : View := fun f => match f with
  | .artist => (ishow v (m .tpe1)).map .text
  | .title => (ishow v (m .tit2)).map .text
  | .album => (ishow v (m .talb)).map .text
  | .genre => (igenre (m .tcon)).map .text
  | .comment => (icomment (m .comm)).map .text
  | .track => seen ((Pairs.get Pairs.id3Sep (itext (m .trck))).1.map .number)
  | .trackTotal => seen ((Pairs.get Pairs.id3Sep (itext (m .trck))).2.map .number)
  | .disk => seen ((Pairs.get Pairs.id3Sep (itext (m .tpos))).1.map .number)
  | .diskTotal => seen ((Pairs.get Pairs.id3Sep (itext (m .tpos))).2.map .number)
  | .date => (idate (m .tdrc)).map .date

theorem get_imap (l : List Frame) (k : IKey) (h : k ≠ .comm) : Id3v2.get l k.id = imap l k := by
  unfold Id3v2.get imap
  rw [← List.head?_filter]
  cases k <;> first | rfl | exact absurd rfl h

theorem getText_imap (l : List Frame) (k : IKey) (h : k ≠ .comm) : Id3v2.getText l k.id = itext (imap l k) := by
  unfold Id3v2.getText
  rw [get_imap l k h]; rfl

theorem comment_imap (l : List Frame) : id3v2Comment l = icomment (imap l .comm) := by
  unfold id3v2Comment icomment imap
  congr 1
  induction l with
  | nil => rfl
  | cons f l ih =>
    rw [List.findSome?_cons, List.filter_cons]
    cases h : plainComment f with
    | none => simp only [IKey.sees, h]; simpa [IKey.sees] using ih
    | some c => simp [IKey.sees, h]

theorem genre_imap (l : List Frame) : id3v2Genre l = igenre (imap l .tcon) := by
  unfold id3v2Genre Id3v2.genresOf igenre
  rw [show (.valid (str "TCON") : FrameId) = IKey.tcon.id from rfl, get_imap l .tcon (by decide)]
  generalize imap l .tcon = o
  match o with
  | none => rfl
  | some (.leaf _ c) => cases c <;> rfl
  | some (.chapter ..) => rfl
  | some (.toc ..) => rfl

theorem date_imap (l : List Frame) : id3v2Date l = idate (imap l .tdrc) := by
  unfold id3v2Date
  rw [show id3v2Id .date = IKey.tdrc.id from rfl, get_imap l .tdrc (by decide)]
  rfl

theorem view_id3v2 (t : Id3v2Tag) : seenView id3v2 t = id3v2View t.version (imap t.frames) := by
  funext f
  have hp : ∀ k : IKey, k ≠ .comm → id3v2Pair t.frames k.id = Pairs.get Pairs.id3Sep (itext (imap t.frames k)) := by
    intro k hk
    unfold id3v2Pair
    rw [getText_imap _ _ hk]
  cases f
  case artist =>
    show seen ((((Id3v2.getText t.frames IKey.tpe1.id).map (removeSeparators t.version))).map .text) = _
    rw [getText_imap _ _ (by decide), seen_text]; rfl
  case title =>
    show seen ((((Id3v2.getText t.frames IKey.tit2.id).map (removeSeparators t.version))).map .text) = _
    rw [getText_imap _ _ (by decide), seen_text]; rfl
  case album =>
    show seen ((((Id3v2.getText t.frames IKey.talb.id).map (removeSeparators t.version))).map .text) = _
    rw [getText_imap _ _ (by decide), seen_text]; rfl
  case genre =>
    show seen ((id3v2Genre t.frames).map .text) = _
    rw [genre_imap, seen_text]; rfl
  case comment =>
    show seen ((id3v2Comment t.frames).map .text) = _
    rw [comment_imap, seen_text]; rfl
  case date =>
    show seen ((id3v2Date t.frames).map .date) = _
    rw [date_imap, seen_date]; rfl
  case track =>
    show seen ((id3v2Pair t.frames IKey.trck.id).1.map .number) = _
    rw [hp _ (by decide)]; rfl
  case trackTotal =>
    show seen ((id3v2Pair t.frames IKey.trck.id).2.map .number) = _
    rw [hp _ (by decide)]; rfl
  case disk =>
    show seen ((id3v2Pair t.frames IKey.tpos.id).1.map .number) = _
    rw [hp _ (by decide)]; rfl
  case diskTotal =>
    show seen ((id3v2Pair t.frames IKey.tpos.id).2.map .number) = _
    rw [hp _ (by decide)]; rfl

theorem igenre_plain {s : Str} (h : PlainGenre s) (id : FrameId) : igenre (some (newText id s)) = some s := by
  have hstep : Id3v2.genreStep s = (s, []) := by
    unfold Id3v2.genreStep
    rw [if_neg (by simpa using h.nul)]
    have : Id3v2.startsWith '(' s = false := by
      have := h.paren
      cases s with
      | nil => rfl
      | cons c s => simpa [Id3v2.startsWith] using this
    rw [this]
    rfl
  have hname : Id3v2.genreName s = s := by
    unfold Id3v2.genreName
    rw [h.number]
    simp only [if_neg h.rx, if_neg h.cr]
    split <;> rfl
  obtain ⟨n, hn⟩ : ∃ n, s.length = n + 1 := by
    cases s with
    | nil => exact absurd rfl h.nonempty
    | cons c s => exact ⟨s.length, rfl⟩
  have hl : Id3v2.genreList s.length s = [s] := by
    rw [hn, Id3v2.genreList, if_neg (by simpa using h.nonempty), hstep, hname]
    cases n <;> simp [Id3v2.genreList]
  simp only [igenre, newText, itext, Option.map_some, hl]
  simp [joinSlash]

theorem removeSeparators_plain {s : Str} (h : '\x00' ∉ s) (v : Id3v2.Version) : removeSeparators v s = s := by
  unfold removeSeparators
  rw [if_neg]
  simp [h]

theorem itext_new (id : FrameId) (s : Str) : itext (some (newText id s)) = some s := rfl
theorem ishow_new {s : Str} (h : '\x00' ∉ s) (v : Id3v2.Version) (id : FrameId) : ishow v (some (newText id s)) = some s := by
  simp [ishow, itext_new, removeSeparators_plain h]
theorem ishow_none (v : Id3v2.Version) : ishow v none = none := rfl
theorem itext_none : itext none = none := rfl
theorem igenre_none : igenre none = none := rfl
theorem icomment_none : icomment none = none := rfl
theorem idate_none : idate none = none := rfl

/-- The accessors of pairs on the frames. -/
theorem pair_run {t : Id3v2Tag} (ht : Id3v2Ok t) {k : IKey} (h1 : k ≠ .comm) (h2 : k ≠ .tdrc) (o : Pairs.Op) (ho : o.Fits)
    {l : List Frame}
    (hl : l = match o with
      | .setNumber n => id3v2InsertPair t.frames k.id (some n) (id3v2Pair t.frames k.id).2
      | .setTotal n => id3v2InsertPair t.frames k.id (id3v2Pair t.frames k.id).1 (some n)
      | .removeTotal => id3v2RemoveTotal t.frames k.id
      | .removeNumber => (Id3v2.remove t.frames k.id).2) :
    Id3v2Ok { t with frames := l } ∧ (∀ q, q ≠ k → imap l q = imap t.frames q) ∧
    Pairs.get Pairs.id3Sep (itext (imap l k)) = Pairs.specStep (Pairs.get Pairs.id3Sep (itext (imap t.frames k))) o := by
  have hp : id3v2Pair t.frames k.id = Pairs.get Pairs.id3Sep (itext (imap t.frames k)) := by
    unfold id3v2Pair
    rw [getText_imap _ _ h1]
  have hs := pairs_step Pairs.goodSep_id3 (itext (imap t.frames k)) o ho
  have ins : ∀ n m : Option Nat, Id3v2Ok { t with frames := id3v2InsertPair t.frames k.id n m } ∧
      (∀ q, q ≠ k → imap (id3v2InsertPair t.frames k.id n m) q = imap t.frames q) ∧
      itext (imap (id3v2InsertPair t.frames k.id n m) k) = Pairs.insertPair (itext (imap t.frames k)) n m := by
    intro n m
    unfold id3v2InsertPair Pairs.insertPair
    cases Pairs.format n m with
    | none => exact ⟨ht, fun _ _ => rfl, rfl⟩
    | some s =>
      obtain ⟨a, b⟩ := insertText_ok ht h1 h2 s
      refine ⟨a, fun q hq => ?_, ?_⟩
      · simp only [b, if_neg hq]
      · simp only [b, if_true, itext_new]
  cases o with
  | setNumber n =>
    subst hl
    obtain ⟨a, b, c⟩ := ins (some n) (id3v2Pair t.frames k.id).2
    refine ⟨a, b, ?_⟩
    simp only
    rw [c, hp]
    exact hs
  | setTotal n =>
    subst hl
    obtain ⟨a, b, c⟩ := ins (id3v2Pair t.frames k.id).1 (some n)
    refine ⟨a, b, ?_⟩
    simp only
    rw [c, hp]
    exact hs
  | removeNumber =>
    subst hl
    obtain ⟨a, b⟩ := iremove_ok ht h1
    refine ⟨a, fun q hq => ?_, ?_⟩
    · simp only [b, if_neg hq]
    · simp only [b, if_true, itext_none]; rfl
  | removeTotal =>
    subst hl
    simp only [id3v2RemoveTotal]
    rw [← hs]
    simp only [Pairs.step, ← hp]
    obtain ⟨a, b⟩ := iremove_ok ht h1
    cases (id3v2Pair t.frames k.id).1 with
    | none =>
      refine ⟨a, fun q hq => ?_, ?_⟩
      · simp only [b, if_neg hq]
      · simp only [b, if_true, itext_none]; rfl
    | some n =>
      obtain ⟨c, d⟩ := insertText_ok a h1 h2 (toDec n)
      refine ⟨c, fun q hq => ?_, ?_⟩
      · simp only [d, b, if_neg hq]
      · simp only [d, if_true, itext_new]; rfl

theorem id3v2_step (t : Id3v2Tag) (op : Op) (ht : Id3v2Ok t) (h : ∀ f v, op = .set f v → Id3v2Fits f v)
    (hr : TotalGone (seenView id3v2 t) op) :
    Id3v2Ok (op.run id3v2 t) ∧ seenView id3v2 (op.run id3v2 t) = op.seenSpec (seenView id3v2 t) := by
  obtain ⟨hr1, hr2⟩ := hr
  rw [view_id3v2] at hr1 hr2
  have tac : ∀ {t' : Id3v2Tag}, Id3v2Ok t' → op.run id3v2 t = t' → t'.version = t.version →
      id3v2View t.version (imap t'.frames) = op.seenSpec (id3v2View t.version (imap t.frames)) →
      Id3v2Ok (op.run id3v2 t) ∧ seenView id3v2 (op.run id3v2 t) = op.seenSpec (seenView id3v2 t) := by
    intro t' hok e hv heq
    rw [e, view_id3v2, view_id3v2, hv]
    exact ⟨hok, heq⟩
  cases op with
  | set f v =>
    have hp := h f v rfl
    cases f <;> cases v <;> try exact hp.elim
    case artist.text s =>
      obtain ⟨a, b⟩ := insertText_ok ht (k := .tpe1) (by decide) (by decide) s
      refine tac a rfl rfl ?_
      simp only [b]
      funext g
      cases g <;> simp [id3v2View, Op.seenSpec, Op.spec, seen_text, seen_date, seen_seen, ishow_new hp, seen_some_text]
    case title.text s =>
      obtain ⟨a, b⟩ := insertText_ok ht (k := .tit2) (by decide) (by decide) s
      refine tac a rfl rfl ?_
      simp only [b]
      funext g
      cases g <;> simp [id3v2View, Op.seenSpec, Op.spec, seen_text, seen_date, seen_seen, ishow_new hp, seen_some_text]
    case album.text s =>
      obtain ⟨a, b⟩ := insertText_ok ht (k := .talb) (by decide) (by decide) s
      refine tac a rfl rfl ?_
      simp only [b]
      funext g
      cases g <;> simp [id3v2View, Op.seenSpec, Op.spec, seen_text, seen_date, seen_seen, ishow_new hp, seen_some_text]
    case genre.text s =>
      obtain ⟨a, b⟩ := insertText_ok ht (k := .tcon) (by decide) (by decide) s
      refine tac a rfl rfl ?_
      simp only [b]
      funext g
      cases g <;> simp [id3v2View, Op.seenSpec, Op.spec, seen_text, seen_date, seen_seen, igenre_plain hp, seen_some_text]
    case comment.text s =>
      obtain ⟨a, fl, c, hc, b⟩ := setComment_ok ht s
      refine tac a rfl rfl ?_
      simp only [b]
      funext g
      cases g <;> simp [id3v2View, Op.seenSpec, Op.spec, seen_text, seen_date, seen_seen, icomment, plainComment, hc, seen_some_text]
    case track.number n =>
      obtain ⟨a, b, c⟩ := pair_run ht (k := .trck) (by decide) (by decide) (.setNumber n) hp rfl
      refine tac a rfl rfl ?_
      funext g
      cases g <;> simp [id3v2View, Op.seenSpec, Op.spec, seen_text, seen_date, seen_seen, b, c, Pairs.specStep]
    case trackTotal.number n =>
      obtain ⟨a, b, c⟩ := pair_run ht (k := .trck) (by decide) (by decide) (.setTotal n) hp rfl
      refine tac a rfl rfl ?_
      funext g
      cases g <;> simp [id3v2View, Op.seenSpec, Op.spec, seen_text, seen_date, seen_seen, b, c, Pairs.specStep, seen_getD]
    case disk.number n =>
      obtain ⟨a, b, c⟩ := pair_run ht (k := .tpos) (by decide) (by decide) (.setNumber n) hp rfl
      refine tac a rfl rfl ?_
      funext g
      cases g <;> simp [id3v2View, Op.seenSpec, Op.spec, seen_text, seen_date, seen_seen, b, c, Pairs.specStep]
    case diskTotal.number n =>
      obtain ⟨a, b, c⟩ := pair_run ht (k := .tpos) (by decide) (by decide) (.setTotal n) hp rfl
      refine tac a rfl rfl ?_
      funext g
      cases g <;> simp [id3v2View, Op.seenSpec, Op.spec, seen_text, seen_date, seen_seen, b, c, Pairs.specStep, seen_getD]
  | remove f =>
    have del : ∀ k : IKey, k ≠ .comm → (Op.remove f).run id3v2 t = { t with frames := (Id3v2.remove t.frames k.id).2 } →
        id3v2View t.version (fun q => if q = k then none else imap t.frames q) =
          (Op.remove f).seenSpec (id3v2View t.version (imap t.frames)) →
        Id3v2Ok ((Op.remove f).run id3v2 t) ∧
          seenView id3v2 ((Op.remove f).run id3v2 t) = (Op.remove f).seenSpec (seenView id3v2 t) := by
      intro k hk e hv
      obtain ⟨a, b⟩ := iremove_ok ht hk
      exact tac a e rfl (by simp only [b]; exact hv)
    cases f
    case artist => exact del .tpe1 (by decide) rfl (by
      funext g; cases g <;> simp [id3v2View, Op.seenSpec, Op.spec, seen_text, seen_date, seen_seen, ishow_none, seen_none])
    case title => exact del .tit2 (by decide) rfl (by
      funext g; cases g <;> simp [id3v2View, Op.seenSpec, Op.spec, seen_text, seen_date, seen_seen, ishow_none, seen_none])
    case album => exact del .talb (by decide) rfl (by
      funext g; cases g <;> simp [id3v2View, Op.seenSpec, Op.spec, seen_text, seen_date, seen_seen, ishow_none, seen_none])
    case genre => exact del .tcon (by decide) rfl (by
      funext g; cases g <;> simp [id3v2View, Op.seenSpec, Op.spec, seen_text, seen_date, seen_seen, igenre_none, seen_none])
    case date => exact del .tdrc (by decide) rfl (by
      funext g; cases g <;> simp [id3v2View, Op.seenSpec, Op.spec, seen_text, seen_date, seen_seen, idate_none, seen_none])
    case track =>
      have hx := hr1 rfl
      refine del .trck (by decide) rfl ?_
      funext g
      cases g <;> simp [id3v2View, Op.seenSpec, Op.spec, seen_text, seen_date, seen_seen, itext_none, seen_none, Pairs.get]
      exact hx.symm
    case disk =>
      have hx := hr2 rfl
      refine del .tpos (by decide) rfl ?_
      funext g
      cases g <;> simp [id3v2View, Op.seenSpec, Op.spec, seen_text, seen_date, seen_seen, itext_none, seen_none, Pairs.get]
      exact hx.symm
    case trackTotal =>
      obtain ⟨a, b, c⟩ := pair_run ht (k := .trck) (by decide) (by decide) .removeTotal trivial rfl
      refine tac a rfl rfl ?_
      funext g
      cases g <;> simp [id3v2View, Op.seenSpec, Op.spec, seen_text, seen_date, seen_seen, b, c, Pairs.specStep, seen_none]
    case diskTotal =>
      obtain ⟨a, b, c⟩ := pair_run ht (k := .tpos) (by decide) (by decide) .removeTotal trivial rfl
      refine tac a rfl rfl ?_
      funext g
      cases g <;> simp [id3v2View, Op.seenSpec, Op.spec, seen_text, seen_date, seen_seen, b, c, Pairs.specStep, seen_none]
    case comment =>
      obtain ⟨a, b⟩ := removeComment_ok ht
      refine tac a rfl rfl ?_
      simp only [b]
      funext g
      cases g <;> simp [id3v2View, Op.seenSpec, Op.spec, seen_text, seen_date, seen_seen, icomment_none, seen_none]

end Lofty.Accessor
