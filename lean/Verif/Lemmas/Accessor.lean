import Verif.Spec.Accessor
import Verif.Props.Tag
import Verif.Props.Vorbis
import Verif.Props.Ape
import Verif.Props.IlstOps
import Verif.Props.Id3v1
import Verif.Props.Pairs
/-! Lemmas for the accessors. -/
namespace Lofty.Accessor

/-- From one call to all calls. -/
theorem history {T : Type} {A : Impl T} {vw : T → View} {sp : View → Op → View} {Ok : T → Prop} {P : View → Op → Prop}
    (step : ∀ t op, Ok t → P (vw t) op → Ok (op.run A t) ∧ vw (op.run A t) = sp (vw t) op) :
    ∀ (ops : List Op) (t : T), Ok t → Follows sp P (vw t) ops →
      Ok (ops.foldl (Op.run A) t) ∧ vw (ops.foldl (Op.run A) t) = ops.foldl sp (vw t)
  | [], _, h, _ => ⟨h, rfl⟩
  | op :: ops, t, h, hf => by
    obtain ⟨h1, h2⟩ := step t op h hf.1
    have := history step ops (op.run A t) h1 (by rw [h2]; exact hf.2)
    rw [h2] at this
    exact this

theorem follows_and {sp : View → Op → View} {P Q : View → Op → Prop} : ∀ (ops : List Op) (s : View), Follows sp P s ops →
    Follows sp Q s ops → Follows sp (fun s op => P s op ∧ Q s op) s ops
  | [], _, _, _ => trivial
  | _ :: ops, _, h, h' => ⟨⟨h.1, h'.1⟩, follows_and ops _ h.2 h'.2⟩

/-- A condition that does not depend on the state. -/
theorem follows_of {sp : View → Op → View} {P : Op → Prop} : ∀ (ops : List Op) (s : View), (∀ op ∈ ops, P op) →
    Follows sp (fun _ => P) s ops
  | [], _, _ => trivial
  | op :: ops, _, h => ⟨h op (by simp), follows_of ops _ fun o ho => h o (by simp [ho])⟩

theorem tryParse_fmt {d : Timestamp} (h : Timestamp.InRange d) : tryParse d.fmt = some d := by
  unfold tryParse
  rw [Timestamp.parse_fmt h]

/-! ## The generic tag -/

/-- The fields in terms of the first text of every key. -/
def genericView (m : Item.ItemKey → Option Str) : View := fun f => match f with
  | .artist | .title | .album | .genre | .comment => (m (genericKey f)).map .text
  | .track | .trackTotal | .disk | .diskTotal => ((m (genericKey f)).bind parseU32).map .number
  | .date => (((m .RecordingDate).or (m .Year)).bind tryParse).map .date

theorem view_generic (t : Item.Tag) : view generic t = genericView t.getString := by
  funext f
  cases f <;> rfl

theorem getString_setText (t : Item.Tag) (k : Item.ItemKey) (s : Str) (h : Item.supports t.type k = true) :
    (t.setText k s).getString = fun k' => if k' = k then some s else t.getString k' := by
  funext k'
  by_cases hk : k' = k
  · rw [if_pos hk, hk]
    exact ((Item.setText_spec t k s).1 h).1
  · rw [if_neg hk, (Item.getters _ k').2.1, (Item.getters t k').2.1, (Item.setText_spec t k s).2.1 k' hk]

theorem getString_removeKey (t : Item.Tag) (k : Item.ItemKey) :
    (t.removeKey k).getString = fun k' => if k' = k then none else t.getString k' := by
  funext k'
  by_cases hk : k' = k
  · rw [if_pos hk, hk, (Item.getters _ k).2.1, (Item.removeKey_spec t k).1]; rfl
  · rw [if_neg hk, (Item.getters _ k').2.1, (Item.getters t k').2.1, (Item.removeKey_spec t k).2.2.1 k' hk]

theorem setText_type (t : Item.Tag) (k : Item.ItemKey) (s : Str) : (t.setText k s).type = t.type := by
  unfold Item.Tag.setText Item.Tag.insertText Item.Tag.insert
  split <;> rfl

theorem generic_step (t : Item.Tag) (op : Op)
    (h : ∀ f v, op = .set f v → Proper f v ∧ Item.supports t.type (genericKey f) = true) :
    (op.run generic t).type = t.type ∧ view generic (op.run generic t) = op.spec (view generic t) := by
  cases op with
  | set f v =>
    obtain ⟨hp, hs⟩ := h f v rfl
    rw [view_generic, view_generic]
    cases f <;> cases v <;> try exact hp.elim
    case date.date d =>
      refine ⟨by simp only [Op.run, generic, Item.Tag.setDate, setText_type]; rfl, ?_⟩
      simp only [Op.run, generic, Item.Tag.setDate]
      rw [getString_setText (t.removeKey .Year) .RecordingDate _ hs, getString_removeKey]
      funext g
      cases g <;> simp [genericView, Op.spec, genericKey, tryParse_fmt hp]
    all_goals
      refine ⟨setText_type _ _ _, ?_⟩
      simp only [Op.run, generic, Item.Tag.setNumber]
      rw [getString_setText _ _ _ hs]
      funext g
      cases g <;> simp [genericView, Op.spec, genericKey]
      try exact parseU32_toDec hp
  | remove f =>
    rw [view_generic, view_generic]
    cases f
    case date =>
      refine ⟨rfl, ?_⟩
      simp only [Op.run, generic, Item.Tag.removeDate]
      rw [getString_removeKey, getString_removeKey]
      funext g
      cases g <;> simp [genericView, Op.spec, genericKey]
    all_goals
      refine ⟨rfl, ?_⟩
      simp only [Op.run, generic]
      rw [getString_removeKey]
      funext g
      cases g <;> simp [genericView, Op.spec, genericKey]

/-! ## RIFF INFO -/

theorem filter_eraseKey (k q : Str) : ∀ l : List Iff.Item, (Iff.eraseKey k l).filter (fun i => eqIc i.1 q) =
    if eqIc k q then (l.filter fun i => eqIc i.1 q).tail else l.filter fun i => eqIc i.1 q
  | [] => by simp [Iff.eraseKey]
  | i :: l => by
    unfold Iff.eraseKey
    by_cases h : eqIc i.1 k = true
    · rw [if_pos h, List.filter_cons]
      have : eqIc i.1 q = eqIc k q := eqIc_congr h q
      rw [this]
      cases hq : eqIc k q <;> simp
    · rw [if_neg h, List.filter_cons, List.filter_cons, filter_eraseKey k q l]
      cases hq : eqIc k q with
      | false => simp
      | true =>
        have : eqIc i.1 q = false := by
          cases h' : eqIc i.1 q with
          | false => rfl
          | true => exact absurd (eqIc_trans h' (by rw [eqIc_comm]; exact hq)) h
        simp [this]

theorem get_filter (l : List Iff.Item) (k : Str) : Iff.get l k = Iff.get (l.filter fun i => eqIc i.1 k) k := by
  unfold Iff.get
  rw [List.find?_filter]
  congr 2
  funext i
  by_cases h : i.1 = k
  · simp [h, eqIc_refl]
  · simp [h]

theorem riff_insert {l : List Iff.Item} {k v : Str} (hl : (l.filter fun i => eqIc i.1 k).length ≤ 1)
    (hk : (utf8 k).length = 4 ∧ Iff.validFourcc (utf8 k) = true) (q : Str) :
    ((Iff.insert l k v).filter fun i => eqIc i.1 q) =
      if eqIc k q then [(k, v)] else l.filter fun i => eqIc i.1 q := by
  unfold Iff.insert
  rw [if_pos hk, List.filter_append, filter_eraseKey]
  cases h : eqIc k q with
  | false => simp [h]
  | true =>
    have : (fun i : Iff.Item => eqIc i.1 q) = fun i => eqIc i.1 k := by
      funext i
      rw [eqIc_comm, ← eqIc_congr h i.1, eqIc_comm]
    rw [this]
    have : (l.filter fun i => eqIc i.1 k).tail = [] := by
      cases hx : (l.filter fun i => eqIc i.1 k) with
      | nil => rfl
      | cons a b =>
        rw [hx] at hl
        cases b with
        | nil => rfl
        | cons => simp at hl
    simp [this, eqIc_refl]

theorem riff_remove {l : List Iff.Item} {k : Str} (hl : (l.filter fun i => eqIc i.1 k).length ≤ 1) (q : Str) :
    ((Iff.remove l k).2.filter fun i => eqIc i.1 q) = if eqIc k q then [] else l.filter fun i => eqIc i.1 q := by
  unfold Iff.remove
  rw [filter_eraseKey]
  cases h : eqIc k q with
  | false => simp
  | true =>
    have : (fun i : Iff.Item => eqIc i.1 q) = fun i => eqIc i.1 k := by
      funext i
      rw [eqIc_comm, ← eqIc_congr h i.1, eqIc_comm]
    rw [this]
    cases hx : (l.filter fun i => eqIc i.1 k) with
    | nil => rfl
    | cons a b =>
      rw [hx] at hl
      cases b with
      | nil => rfl
      | cons => simp at hl

theorem riff_keys : ∀ f g k q, riffKey f = some k → riffKey g = some q → eqIc k q = decide (f = g) := by
  intro f g k q h1 h2
  cases f <;> cases g <;> cases h1 <;> cases h2 <;> decide +kernel

theorem riff_valid : ∀ f k, riffKey f = some k → (utf8 k).length = 4 ∧ Iff.validFourcc (utf8 k) = true := by
  intro f k h
  cases f <;> cases h <;> decide +kernel

theorem riffValue_text {f : Field} {v : Value} (h : Proper f v) : riffValue f (valueText v) = some v ∧ Typed f v = true := by
  cases f <;> cases v <;> try exact h.elim
  case date.date d => exact ⟨by simp [riffValue, valueText, tryParse_fmt h], rfl⟩
  all_goals
    refine ⟨?_, rfl⟩
    simp only [riffValue, valueText]
    try rw [parseU32_toDec h]; rfl

theorem riff_step (l : List Iff.Item) (op : Op) (hl : RiffOk l)
    (h : ∀ f v, op = .set f v → Proper f v ∧ f ≠ .disk ∧ f ≠ .diskTotal) :
    RiffOk (op.run riff l) ∧ view riff (op.run riff l) = op.spec (view riff l) := by
  have hview : ∀ (l' : List Iff.Item) (g : Field), view riff l' g =
      ((riffKey g).bind fun q => Iff.get (l'.filter fun i => eqIc i.1 q) q).bind (riffValue g) := by
    intro l' g
    simp only [view, riff]
    cases riffKey g with
    | none => rfl
    | some q => simp only [Option.bind_some]; rw [← get_filter]
  cases op with
  | set f v =>
    obtain ⟨hp, h1, h2⟩ := h f v rfl
    obtain ⟨k, hk⟩ : ∃ k, riffKey f = some k := by cases f <;> first | exact ⟨_, rfl⟩ | exact absurd rfl h1 | exact absurd rfl h2
    have hrun : (Op.set f v).run riff l = Iff.insert l k (valueText v) := by
      simp only [Op.run, riff, hk, (riffValue_text hp).2, if_true]
    rw [hrun]
    have hf := riff_insert (v := valueText v) (hl f k hk) (riff_valid f k hk)
    constructor
    · intro g q hq
      rw [hf]
      split
      · simp
      · exact hl g q hq
    · funext g
      rw [hview]
      cases hq : riffKey g with
      | none =>
        have : g ≠ f := by rintro rfl; rw [hk] at hq; cases hq
        simp only [Op.spec, if_neg this]
        rw [hview, hq]; rfl
      | some q =>
        simp only [Option.bind_some, hf, riff_keys f g k q hk hq, Op.spec]
        by_cases hfg : f = g
        · subst hfg
          rw [hk] at hq; cases hq
          simp [Iff.get, (riffValue_text hp).1]
        · rw [if_neg (by simpa using hfg), if_neg (fun e => hfg e.symm), hview, hq]; rfl
  | remove f =>
    cases hk : riffKey f with
    | none =>
      have hrun : (Op.remove f).run riff l = l := by simp only [Op.run, riff, hk]
      rw [hrun]
      refine ⟨hl, ?_⟩
      funext g
      simp only [Op.spec]
      split
      · rename_i e
        subst e
        rw [hview, hk]; rfl
      · rfl
    | some k =>
      have hrun : (Op.remove f).run riff l = (Iff.remove l k).2 := by simp only [Op.run, riff, hk]
      rw [hrun]
      have hf := riff_remove (hl f k hk)
      constructor
      · intro g q hq
        rw [hf]
        split
        · simp
        · exact hl g q hq
      · funext g
        rw [hview]
        cases hq : riffKey g with
        | none =>
          have : g ≠ f := by rintro rfl; rw [hk] at hq; cases hq
          simp only [Op.spec, if_neg this]
          rw [hview, hq]; rfl
        | some q =>
          simp only [Option.bind_some, hf, riff_keys f g k q hk hq, Op.spec]
          by_cases hfg : f = g
          · subst hfg
            simp [Iff.get]
          · rw [if_neg (by simpa using hfg), if_neg (fun e => hfg e.symm), hview, hq]; rfl

/-! ## ID3v1 and AIFF -/

theorem aiff_step (t : Iff.Aiff) (op : Op) (hc : t.comments.getD [] = [])
    (h : ∀ f v, op = .set f v → Proper f v ∧ (f = .artist ∨ f = .title ∨ f = .comment)) :
    (op.run aiff t).comments.getD [] = [] ∧ view aiff (op.run aiff t) = op.spec (view aiff t) := by
  have hn : ∀ t' : Iff.Aiff, t'.comments = t.comments → aiffComment t' = match t'.annotations with
      | some (a :: _) => some a
      | _ => none := by
    intro t' ht
    unfold aiffComment
    rw [ht]
    cases t'.annotations with
    | none =>
      cases hx : t.comments with
      | none => rfl
      | some cs =>
        rw [hx] at hc
        simp only [Option.getD_some] at hc
        rw [hc]; rfl
    | some as =>
      cases as with
      | cons => rfl
      | nil =>
        cases hx : t.comments with
        | none => rfl
        | some cs =>
          rw [hx] at hc
          simp only [Option.getD_some] at hc
          rw [hc]; rfl
  cases op with
  | set f v =>
    obtain ⟨hp, hf⟩ := h f v rfl
    rcases hf with rfl | rfl | rfl <;> cases v <;> try exact hp.elim
    all_goals
      refine ⟨hc, ?_⟩
      funext g
      cases g <;> simp [Op.run, aiff, view, Op.spec, hn]
  | remove f =>
    refine ⟨?_, ?_⟩
    · cases f <;> exact hc
    · funext g
      cases f <;> cases g <;> simp [Op.run, aiff, view, Op.spec, hn]

theorem cutComment_all (s : Str) : ∀ n, n + (utf8 s).length ≤ 28 → Id3v1.cutComment n s = s := by
  induction s with
  | nil => intro n _; rfl
  | cons c s ih =>
    intro n h
    have e : (utf8 (c :: s)).length = (utf8 [c]).length + (utf8 s).length := by simp [utf8]
    rw [e] at h
    unfold Id3v1.cutComment
    rw [if_neg (by omega), ih _ (by omega)]

theorem id3v1_step (t : Id3v1.Tag) (op : Op) (h : ∀ f v, op = .set f v → Id3v1Fits f v) :
    view id3v1 (op.run id3v1 t) = op.spec (view id3v1 t) := by
  cases op with
  | set f v =>
    have hp := h f v rfl
    cases f <;> cases v <;> try exact hp.elim
    case genre.text s =>
      have hs : s ∈ Id3v1.genres := hp
      obtain ⟨i, hi, rfl⟩ := List.getElem_of_mem hs
      have hlen : Id3v1.genres.length = 192 := by decide +kernel
      have ht := Id3v1.genre_table ⟨i, by omega⟩
      have hgd : Id3v1.genres.getD i [] = Id3v1.genres[i] := by simp [List.getD, hi]
      simp only [hgd] at ht
      funext g
      have hset : t.setGenre Id3v1.genres[i] = { t with genre := some (UInt8.ofNat i) } := by
        unfold Id3v1.Tag.setGenre
        rw [ht]
      have hb : (UInt8.ofNat i).toNat = i := by simp; omega
      simp only [Op.run, id3v1, view, Op.spec]
      rw [hset]
      cases g <;> simp [Id3v1.Tag.genreName, Id3v1.Tag.trackNumber, hb, List.getElem?_eq_getElem hi]
    case comment.text s =>
      have hs : (utf8 s).length ≤ 28 := hp
      have hcut : Id3v1.cutComment 0 s = s := cutComment_all s 0 (by omega)
      funext g
      cases g <;> simp [Op.run, id3v1, view, Op.spec, Id3v1.Tag.setComment, hcut, Id3v1.Tag.genreName,
        Id3v1.Tag.trackNumber]
    case track.number n =>
      have hn : n < 256 := hp
      funext g
      cases g <;> simp [Op.run, id3v1, view, Op.spec, Id3v1.Tag.setTrack, Id3v1.Tag.genreName, Id3v1.Tag.trackNumber]
      omega
    case date.date d =>
      have hd : d = ⟨d.year, none, none, none, none, none⟩ := hp
      funext g
      cases g <;> simp [Op.run, id3v1, view, Op.spec, Id3v1.Tag.genreName, Id3v1.Tag.trackNumber]
      exact hd.symm
    all_goals
      funext g
      cases g <;> simp [Op.run, id3v1, view, Op.spec, Id3v1.Tag.genreName, Id3v1.Tag.trackNumber]
  | remove f =>
    funext g
    cases f <;> cases g <;> simp [Op.run, id3v1, view, Op.spec, Id3v1.Tag.genreName, Id3v1.Tag.trackNumber]

end Lofty.Accessor
