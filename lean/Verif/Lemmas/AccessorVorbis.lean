import Verif.Lemmas.Accessor
/-! Lemmas for the accessors of Vorbis comments. -/
namespace Lofty.Accessor

/-- The keys the accessors look at. -/
inductive VKey
  | artist | title | album | genre | comment | trackNumber | trackNum | trackTotal | totalTracks
  | discNumber | discTotal | totalDiscs | date | year
  deriving DecidableEq

def VKey.name : VKey → Str
  | .artist => str "ARTIST"
  | .title => str "TITLE"
  | .album => str "ALBUM"
  | .genre => str "GENRE"
  | .comment => str "COMMENT"
  | .trackNumber => str "TRACKNUMBER"
  | .trackNum => str "TRACKNUM"
  | .trackTotal => str "TRACKTOTAL"
  | .totalTracks => str "TOTALTRACKS"
  | .discNumber => str "DISCNUMBER"
  | .discTotal => str "DISCTOTAL"
  | .totalDiscs => str "TOTALDISCS"
  | .date => str "DATE"
  | .year => str "YEAR"

theorem VKey.eqIc_name (a b : VKey) : eqIc a.name b.name = decide (a = b) := by
  cases a <;> cases b <;> decide +kernel

theorem VKey.verify (a : VKey) : Vorbis.verifyKey a.name = true := by
  cases a <;> decide +kernel

/-- The comments with a key. -/
def commentsOf (t : Vorbis.Tag) (k : VKey) : List Vorbis.Item := t.items.filter fun i => eqIc i.1 k.name

/-- No key the accessors look at occurs twice. -/
def VorbisOk (t : Vorbis.Tag) : Prop := ∀ k : VKey, (commentsOf t k).length ≤ 1

/-- The value of a key. -/
def vmap (t : Vorbis.Tag) (k : VKey) : Option Str := Vorbis.get t k.name

theorem vmap_eq (t : Vorbis.Tag) (k : VKey) : vmap t k = (commentsOf t k).head?.map (·.2) := by
  unfold vmap Vorbis.get commentsOf
  rw [if_pos k.verify, List.head?_filter]

theorem commentsOf_insert (t : Vorbis.Tag) (k q : VKey) (v : Str) :
    commentsOf (Vorbis.insert t k.name v) q = if q = k then [(k.name, v)] else commentsOf t q := by
  unfold commentsOf Vorbis.insert
  rw [if_pos k.verify]
  simp only [List.filter_append, List.filter_filter]
  by_cases h : q = k
  · subst h
    rw [if_pos rfl]
    simp [eqIc_refl]
  · rw [if_neg h]
    have e : eqIc k.name q.name = false := by rw [VKey.eqIc_name]; simpa using fun e => h e.symm
    simp only [List.filter_cons, e, List.filter_nil, Bool.false_eq_true, if_false, List.append_nil]
    apply List.filter_congr
    intro i _
    cases hi : eqIc i.1 q.name with
    | false => simp
    | true =>
      have : eqIc i.1 k.name = false := by
        cases hk : eqIc i.1 k.name with
        | false => rfl
        | true =>
          have := eqIc_trans (eqIc_comm i.1 k.name ▸ hk) hi
          rw [e] at this; cases this
      simp [this]

theorem commentsOf_remove {t : Vorbis.Tag} (ht : VorbisOk t) (k q : VKey) :
    commentsOf (Vorbis.remove t k.name).2 q = if q = k then [] else commentsOf t q := by
  have hp := (drainFilter_spec (fun i : Vorbis.Item => eqIc i.1 k.name) t.items).2.1
  have hq : ((drainFilter (fun i : Vorbis.Item => eqIc i.1 k.name) t.items).2.filter fun i => eqIc i.1 q.name).Perm
      (((t.items.filter fun i => !eqIc i.1 k.name)).filter fun i => eqIc i.1 q.name) := hp.filter _
  have e : commentsOf (Vorbis.remove t k.name).2 q =
      (drainFilter (fun i : Vorbis.Item => eqIc i.1 k.name) t.items).2.filter fun i => eqIc i.1 q.name := rfl
  rw [e]
  by_cases h : q = k
  · subst h
    rw [if_pos rfl]
    rw [List.filter_filter] at hq
    have : (t.items.filter fun i => eqIc i.1 q.name && !eqIc i.1 q.name) = [] := by
      rw [List.filter_eq_nil_iff]; intro i _; cases eqIc i.1 q.name <;> simp
    rw [this] at hq
    exact hq.eq_nil
  · rw [if_neg h]
    have e : eqIc k.name q.name = false := by rw [VKey.eqIc_name]; simpa using fun e => h e.symm
    have h2 : (((t.items.filter fun i => !eqIc i.1 k.name)).filter fun i => eqIc i.1 q.name) = commentsOf t q := by
      rw [List.filter_filter]
      apply List.filter_congr
      intro i _
      cases hi : eqIc i.1 q.name with
      | false => simp
      | true =>
        have : eqIc i.1 k.name = false := by
          cases hk : eqIc i.1 k.name with
          | false => rfl
          | true =>
            have := eqIc_trans (eqIc_comm i.1 k.name ▸ hk) hi
            rw [e] at this; cases this
        simp [this]
    rw [h2] at hq
    have hl := ht q
    generalize commentsOf t q = l at hq hl
    match l, hl with
    | [], _ => exact hq.eq_nil
    | [a], _ => exact List.perm_singleton.mp hq
    | _ :: _ :: _, hl => simp at hl

theorem insert_ok {t : Vorbis.Tag} (ht : VorbisOk t) (k : VKey) (v : Str) : VorbisOk (Vorbis.insert t k.name v) := by
  intro q
  rw [commentsOf_insert]
  split
  · simp
  · exact ht q

theorem remove_ok {t : Vorbis.Tag} (ht : VorbisOk t) (k : VKey) : VorbisOk (Vorbis.remove t k.name).2 := by
  intro q
  rw [commentsOf_remove ht]
  split
  · simp
  · exact ht q

theorem vmap_insert (t : Vorbis.Tag) (k : VKey) (v : Str) :
    vmap (Vorbis.insert t k.name v) = fun q => if q = k then some v else vmap t q := by
  funext q
  rw [vmap_eq, commentsOf_insert]
  split
  · rfl
  · rw [vmap_eq]

theorem vmap_remove {t : Vorbis.Tag} (ht : VorbisOk t) (k : VKey) :
    vmap (Vorbis.remove t k.name).2 = fun q => if q = k then none else vmap t q := by
  funext q
  rw [vmap_eq, commentsOf_remove ht]
  split
  · rfl
  · rw [vmap_eq]

/-- The fields in terms of the keys. -/
def vorbisView (m : VKey → Option Str) : View := fun f => match f with
  | .artist => (m .artist).map .text
  | .title => (m .title).map .text
  | .album => (m .album).map .text
  | .genre => (m .genre).map .text
  | .comment => (m .comment).map .text
  | .track => (((m .trackNumber).or (m .trackNum)).bind parseU32).map .number
  | .trackTotal => (((m .trackTotal).or (m .totalTracks)).bind parseU32).map .number
  | .disk => ((m .discNumber).bind parseU32).map .number
  | .diskTotal => (((m .discTotal).or (m .totalDiscs)).bind parseU32).map .number
  | .date => (((m .date).or (m .year)).bind tryParse).map .date

theorem number_or (t : Vorbis.Tag) (a b : Str) :
    Vorbis.number t a b = ((Vorbis.get t a).or (Vorbis.get t b)).bind parseU32 := by
  unfold Vorbis.number
  cases Vorbis.get t a with
  | some v => rfl
  | none => cases Vorbis.get t b <;> rfl

theorem view_vorbis (t : Vorbis.Tag) : view vorbis t = vorbisView (vmap t) := by
  funext f
  cases f <;> simp only [view, vorbis, Vorbis.track, Vorbis.trackTotal, Vorbis.diskTotal, number_or] <;> rfl

theorem vorbis_step (t : Vorbis.Tag) (op : Op) (ht : VorbisOk t) (h : ∀ f v, op = .set f v → Proper f v) :
    VorbisOk (op.run vorbis t) ∧ view vorbis (op.run vorbis t) = op.spec (view vorbis t) := by
  have one : ∀ (k : VKey) (v : Str) (o : Op), o.run vorbis t = Vorbis.insert t k.name v →
      (vorbisView (fun q => if q = k then some v else vmap t q) = o.spec (vorbisView (vmap t))) →
      VorbisOk (o.run vorbis t) ∧ view vorbis (o.run vorbis t) = o.spec (view vorbis t) := by
    intro k v o e hv
    rw [e, view_vorbis, view_vorbis, vmap_insert]
    exact ⟨insert_ok ht _ _, hv⟩
  have del : ∀ (k : VKey) (o : Op), o.run vorbis t = (Vorbis.remove t k.name).2 →
      (vorbisView (fun q => if q = k then none else vmap t q) = o.spec (vorbisView (vmap t))) →
      VorbisOk (o.run vorbis t) ∧ view vorbis (o.run vorbis t) = o.spec (view vorbis t) := by
    intro k o e hv
    rw [e, view_vorbis, view_vorbis, vmap_remove ht]
    exact ⟨remove_ok ht _, hv⟩
  have del2 : ∀ (k k' : VKey) (o : Op), o.run vorbis t = vorbisRemove2 t k.name k'.name →
      (vorbisView (fun q => if q = k' then none else if q = k then none else vmap t q) = o.spec (vorbisView (vmap t))) →
      VorbisOk (o.run vorbis t) ∧ view vorbis (o.run vorbis t) = o.spec (view vorbis t) := by
    intro k k' o e hv
    rw [e, view_vorbis, view_vorbis, vorbisRemove2, vmap_remove (remove_ok ht _), vmap_remove ht]
    exact ⟨remove_ok (remove_ok ht _) _, hv⟩
  have ins2 : ∀ (k k' : VKey) (v : Str) (o : Op), o.run vorbis t = (Vorbis.remove (Vorbis.insert t k.name v) k'.name).2 →
      (vorbisView (fun q => if q = k' then none else if q = k then some v else vmap t q) = o.spec (vorbisView (vmap t))) →
      VorbisOk (o.run vorbis t) ∧ view vorbis (o.run vorbis t) = o.spec (view vorbis t) := by
    intro k k' v o e hv
    rw [e, view_vorbis, view_vorbis, vmap_remove (insert_ok ht _ _), vmap_insert]
    exact ⟨remove_ok (insert_ok ht _ _) _, hv⟩
  cases op with
  | set f v =>
    have hp := h f v rfl
    cases f <;> cases v <;> try exact hp.elim
    case artist.text s => exact one .artist s _ rfl (by funext g; cases g <;> simp [vorbisView, Op.spec])
    case title.text s => exact one .title s _ rfl (by funext g; cases g <;> simp [vorbisView, Op.spec])
    case album.text s => exact one .album s _ rfl (by funext g; cases g <;> simp [vorbisView, Op.spec])
    case genre.text s => exact one .genre s _ rfl (by funext g; cases g <;> simp [vorbisView, Op.spec])
    case comment.text s => exact one .comment s _ rfl (by funext g; cases g <;> simp [vorbisView, Op.spec])
    case disk.number n =>
      exact one .discNumber (toDec n) _ rfl (by funext g; cases g <;> simp [vorbisView, Op.spec, parseU32_toDec hp])
    case trackTotal.number n =>
      exact ins2 .trackTotal .totalTracks (toDec n) _ rfl (by
        funext g; cases g <;> simp [vorbisView, Op.spec, parseU32_toDec hp])
    case diskTotal.number n =>
      exact ins2 .discTotal .totalDiscs (toDec n) _ rfl (by
        funext g; cases g <;> simp [vorbisView, Op.spec, parseU32_toDec hp])
    case date.date d =>
      exact ins2 .date .year d.fmt _ rfl (by funext g; cases g <;> simp [vorbisView, Op.spec, tryParse_fmt hp])
    case track.number n =>
      have e : (Op.set .track (.number n)).run vorbis t =
        Vorbis.insert (vorbisRemove2 t VKey.trackNumber.name VKey.trackNum.name) VKey.trackNumber.name (toDec n) := rfl
      rw [e, view_vorbis, view_vorbis, vmap_insert, vorbisRemove2, vmap_remove (remove_ok ht _), vmap_remove ht]
      refine ⟨insert_ok (remove_ok (remove_ok ht _) _) _ _, ?_⟩
      funext g
      cases g <;> simp [vorbisView, Op.spec, parseU32_toDec hp]
  | remove f =>
    cases f
    case artist => exact del .artist _ rfl (by funext g; cases g <;> simp [vorbisView, Op.spec])
    case title => exact del .title _ rfl (by funext g; cases g <;> simp [vorbisView, Op.spec])
    case album => exact del .album _ rfl (by funext g; cases g <;> simp [vorbisView, Op.spec])
    case genre => exact del .genre _ rfl (by funext g; cases g <;> simp [vorbisView, Op.spec])
    case comment => exact del .comment _ rfl (by funext g; cases g <;> simp [vorbisView, Op.spec])
    case disk => exact del .discNumber _ rfl (by funext g; cases g <;> simp [vorbisView, Op.spec])
    case track => exact del2 .trackNumber .trackNum _ rfl (by funext g; cases g <;> simp [vorbisView, Op.spec])
    case trackTotal => exact del2 .trackTotal .totalTracks _ rfl (by funext g; cases g <;> simp [vorbisView, Op.spec])
    case diskTotal => exact del2 .discTotal .totalDiscs _ rfl (by funext g; cases g <;> simp [vorbisView, Op.spec])
    case date => exact del2 .date .year _ rfl (by funext g; cases g <;> simp [vorbisView, Op.spec])

end Lofty.Accessor
