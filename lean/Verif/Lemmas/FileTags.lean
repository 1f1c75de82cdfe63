import Verif.Spec.FileTags
/-!
# Lemmas for the tags around the audio
-/
namespace Lofty.FileTags
open Ape (Kept Distinct writeItems)

theorem readItemsAt_rt (cover : Bool) (l : List Ape.Item) : ∀ (f : Bytes) (rem pos : Nat) (rest : Bytes) (acc : List Ape.Item),
    (∀ i ∈ l, Kept i) → Distinct (acc ++ l) → (writeItems l).length ≤ rem → rem < 2 ^ 32 → f.drop pos = writeItems l ++ rest →
    readItemsAt cover f l.length rem pos acc
      = .ok (acc ++ l.filter fun i => cover || !Picture.apePictureTypes.contains i.key, pos + (writeItems l).length) := by
  induction l with
  | nil => intro f rem pos rest acc _ _ _ _ _; simp [readItemsAt, writeItems]
  | cons i l ih =>
    intro f rem pos rest acc hk hd hlen hrem hf
    have hki := hk i (by simp)
    have hkl : ∀ j ∈ l, Kept j := fun j hj => hk j (by simp [hj])
    have hw := Ape.Item.write_length i
    have hlen0 := hlen
    rw [Ape.writeItems_cons, List.length_append] at hlen
    have h2 := Ape.validKey_len hki.1
    have hsz : i.value.bytes.length < 2 ^ 32 := by omega
    have hnext : f.drop (pos + 8 + (utf8 i.key).length + 1 + i.value.bytes.length) = writeItems l ++ rest := by
      have e : pos + 8 + (utf8 i.key).length + 1 + i.value.bytes.length = pos + i.write.length := by omega
      rw [e, ← List.drop_drop, hf, Ape.writeItems_cons, List.append_assoc, List.drop_left' rfl]
    rw [List.length_cons, readItemsAt, if_neg (by omega), hf, Ape.writeItems_cons]
    simp only [Ape.Item.write, Nat.mod_eq_of_lt hsz, List.append_assoc, List.cons_append]
    rw [readLE_append _ (by omega), ok_bind]
    simp only
    rw [if_neg (by omega), readLE_append _ (by have := Ape.flags_lt i; omega), ok_bind]
    simp only
    rw [Ape.readKey_append _ _ (Ape.validKey_zero hki.1), ok_bind]
    simp only
    rw [Vorbis.utf8Decode_utf8 _ (Ape.validKey_getLast hki.1), ok_bind]
    have hacc : ∀ j ∈ acc, eqIc j.key i.key = false := by
      intro j hj
      exact (List.pairwise_append.mp hd).2.2 j hj i (by simp)
    cases hc : Picture.apePictureTypes.contains i.key && !cover with
    | true =>
      rw [if_pos rfl, ih f _ _ rest _ hkl ?_ (by omega) (by omega) hnext]
      · simp only [Bool.and_eq_true, Bool.not_eq_true'] at hc
        rw [List.filter_cons_of_neg (by simp only [hc.1, hc.2]; decide)]
        simp only [List.length_append, List.length_cons, leBytes_length]
        congr 2
        omega
      · unfold Distinct at *
        exact hd.sublist (by simp)
    | false =>
      rw [if_neg (by simp), Ape.parseItem_rt hki, ok_bind]
      simp only
      rw [Ape.insert_new _ _ hacc, ih f _ _ rest _ hkl (by simpa using hd) (by omega) (by omega) hnext]
      rw [List.filter_cons_of_pos]
      · simp only [List.length_append, List.length_cons, leBytes_length, List.append_assoc, List.singleton_append]
        congr 2
        omega
      · cases cover
        · simpa using hc
        · rfl

open Ape in
theorem readApe_rt {t : Tag} {b : Bytes} (o : Opts) (ho : o.readTags = true) (hg : Good t) (h : createTag t = .ok b)
    (hsize : b.length < 2 ^ 32) (pre post : Bytes) :
    readApe o (pre ++ (b ++ post)) (pre.length + b.length - 32) true
      = .ok (some ⟨false, visible o t.items⟩, some ⟨b.length, t.items.length⟩, pre.length + b.length) := by
  obtain ⟨hs, f1, f2, l1, l2, hb, -⟩ := createTag_ok hg.nonempty h
  have hcount := writeItems_count t.items
  have hrt := fun f r p hr1 hr2 rest => readItemsAt_rt o.id3.readCover t.items f r p rest [] hg.kept (by simpa using hg.distinct) hr1 hr2
  simp only [List.nil_append] at hrt
  generalize hbody : writeItems t.items = body at *
  have hbl : b.length = body.length + 64 := by
    rw [hb]; simp [headerBytes_length]; omega
  have e : pre ++ (b ++ post) = (pre ++ (headerBytes (body.length + 32) t.items.length f1 ++ body)) ++
      (headerBytes (body.length + 32) t.items.length f2 ++ post) := by rw [hb]; simp
  have ep : (pre ++ (headerBytes (body.length + 32) t.items.length f1 ++ body)).length = pre.length + b.length - 32 := by
    simp [headerBytes_length, hbl]; omega
  have hR := readHeader_rt (pre ++ (headerBytes (body.length + 32) t.items.length f1 ++ body)) post body t.items.length f2 true
    hs (by omega) (by intro _; simp only [List.length_append]; omega) (by
      simp only [List.length_append, headerBytes_length]; omega)
  rw [e, ← ep]
  unfold readApe
  have hP : readAt (pre ++ (headerBytes (body.length + 32) t.items.length f1 ++ body) ++ (headerBytes (body.length + 32)
      t.items.length f2 ++ post)) (pre ++ (headerBytes (body.length + 32) t.items.length f1 ++ body)).length 8 = .ok preamble := by
    simp only [headerBytes, List.append_assoc (as := preamble)]
    exact readAt_append _ preamble _ 8 (by decide)
  rw [hP, ok_bind, if_neg (by simp), hR, ok_bind]
  simp only [if_true, ho]
  have en : (pre ++ (headerBytes (body.length + 32) t.items.length f1 ++ body)).length - body.length
      = (pre ++ headerBytes (body.length + 32) t.items.length f1).length := by simp only [List.length_append]; omega
  have hd : (pre ++ (headerBytes (body.length + 32) t.items.length f1 ++ body) ++ (headerBytes (body.length + 32)
      t.items.length f2 ++ post)).drop ((pre ++ (headerBytes (body.length + 32) t.items.length f1 ++ body)).length - body.length)
      = body ++ (headerBytes (body.length + 32) t.items.length f2 ++ post) := by
    rw [en]
    have e2 : pre ++ (headerBytes (body.length + 32) t.items.length f1 ++ body) ++ (headerBytes (body.length + 32) t.items.length f2 ++ post)
      = (pre ++ headerBytes (body.length + 32) t.items.length f1) ++ (body ++ (headerBytes (body.length + 32) t.items.length f2 ++ post)) := by
      simp
    rw [e2, List.drop_left' rfl]
  unfold readApeWith
  simp only
  rw [hrt _ _ _ (by omega) (by omega) _ hd]
  simp only [ok_bind]
  rw [hbl, Nat.min_eq_left (by omega)]
  refine congrArg Except.ok (Prod.ext rfl (Prod.ext rfl ?_))
  simp only [List.length_append, headerBytes_length]
  omega

theorem readApe_none {o : Opts} {f : Bytes} {pos : Nat} {footer : Bool} (hl : pos + 8 ≤ f.length)
    (h : (f.drop pos).take 8 ≠ ascii "APETAGEX") : readApe o f pos footer = .ok (none, none, pos + 8) := by
  unfold readApe readAt
  rw [if_pos hl, ok_bind]
  exact if_pos h

/-! ## Frames -/

theorem searchFrom_append (suf : Bytes) : ∀ (d : Bytes) (a : UInt8) (i r : Nat), Mpeg.searchFrom a d i = some r →
    Mpeg.searchFrom a (d ++ suf) i = some r := by
  intro d
  induction d with
  | nil => intro a i r h; simp [Mpeg.searchFrom] at h
  | cons b d ih =>
    intro a i r h
    rw [List.cons_append]
    rw [Mpeg.searchFrom] at h ⊢
    split at h
    · rename_i hv; rw [if_pos hv]; exact h
    · rename_i hv; rw [if_neg hv]; exact ih b _ _ h

theorem searchSync_append {d : Bytes} {r : Nat} (suf : Bytes) (h : Mpeg.searchSync d = some r) : Mpeg.searchSync (d ++ suf) = some r := by
  cases d with
  | nil => simp [Mpeg.searchSync] at h
  | cons a d => exact searchFrom_append suf d a 0 r h

theorem drop_ext (pre audio suf : Bytes) (p : Nat) (hp : p ≤ audio.length) :
    (pre ++ (audio ++ suf)).drop (pre.length + p) = audio.drop p ++ suf := by
  rw [← List.drop_drop, List.drop_left' rfl, List.drop_append_of_le_length hp]

theorem readAt_ext {pre audio suf b : Bytes} {p n : Nat} (h : readAt audio p n = .ok b) :
    readAt (pre ++ (audio ++ suf)) (pre.length + p) n = .ok b := by
  unfold readAt at h ⊢
  split at h
  · rename_i hl
    rw [if_pos (by simp only [List.length_append]; omega), drop_ext _ _ _ _ (by omega), List.take_append_of_le_length (by simp; omega)]
    exact h
  · exact absurd h (by simp)

/-- A first frame found in the audio is found there in the file. -/
theorem findNext_ext (pre audio suf : Bytes) : ∀ (n m p : Nat) (h : Mpeg.Header) (k : Nat),
    Mpeg.findNext audio n p = .ok (some (h, k)) → n ≤ m →
    Mpeg.findNext (pre ++ (audio ++ suf)) m (pre.length + p) = .ok (some (h, pre.length + k)) := by
  intro n
  induction n with
  | zero => intro m p h k hf; simp [Mpeg.findNext] at hf
  | succ n ih =>
    intro m p h k hf hm
    obtain ⟨m, rfl⟩ : ∃ j, m = j + 1 := ⟨m - 1, by omega⟩
    rw [Mpeg.findNext] at hf ⊢
    have hp : p ≤ audio.length := by
      by_cases hp : p ≤ audio.length
      · exact hp
      · rw [List.drop_eq_nil_of_le (by omega)] at hf
        simp [Mpeg.searchSync] at hf
    rw [drop_ext _ _ _ _ hp]
    cases hs : Mpeg.searchSync (audio.drop p) with
    | none => rw [hs] at hf; simp at hf
    | some rel =>
      rw [hs] at hf
      rw [searchSync_append suf hs]
      simp only at hf ⊢
      obtain ⟨w, hw, hf⟩ := bind_ok hf
      have hw' := readAt_ext (pre := pre) (suf := suf) hw
      rw [← Nat.add_assoc] at hw'
      rw [hw', ok_bind]
      obtain ⟨x, hx, hf⟩ := bind_ok hf
      rw [hx, ok_bind]
      cases x with
      | none =>
        simp only at hf ⊢
        have := ih m _ h k hf (by omega)
        rw [← Nat.add_assoc, ← Nat.add_assoc] at this
        exact this
      | some hd =>
        simp only at hf ⊢
        unfold Mpeg.cmpHeader at hf ⊢
        simp only at hf ⊢
        cases hr : readAt audio (p + rel + 4 + (hd.len - 4)) 4 with
        | error e => rw [hr] at hf; simp at hf
        | ok b =>
          have hr' := readAt_ext (pre := pre) (suf := suf) hr
          simp only [← Nat.add_assoc] at hr'
          rw [hr] at hf
          rw [hr']
          simp only at hf ⊢
          by_cases hc : fromBE w &&& Mpeg.headerMask = fromBE b &&& Mpeg.headerMask
          · rw [if_pos hc] at hf ⊢
            simp only at hf ⊢
            simp only [Except.ok.injEq, Option.some.injEq, Prod.mk.injEq] at hf
            obtain ⟨rfl, rfl⟩ := hf
            rw [Nat.add_assoc]
          · rw [if_neg hc] at hf ⊢
            simp only at hf ⊢
            have := ih m _ h k hf (by omega)
            simp only [← Nat.add_assoc] at this
            exact this

theorem getElem_ext (q buf : Bytes) (k : Nat) : (q ++ buf)[q.length + k]? = buf[k]? := by
  rw [List.getElem?_append_right (by omega)]
  congr 1
  omega

/-- A frame found searching backwards is found also if there is more in front. -/
theorem revLoop_ext (q buf : Bytes) : ∀ (k : Nat) (next : UInt8) (rel : Nat) (h : Mpeg.Header), k ≤ buf.length →
    Mpeg.revLoop buf buf.length k next = .ok (some (rel, h)) →
    Mpeg.revLoop (q ++ buf) (q ++ buf).length (q.length + k) next = .ok (some (q.length + rel, h)) := by
  intro k
  induction k with
  | zero => intro next rel h _ hr; simp [Mpeg.revLoop] at hr
  | succ k ih =>
    intro next rel h hk hr
    rw [← Nat.add_assoc, Mpeg.revLoop, getElem_ext]
    rw [Mpeg.revLoop] at hr
    cases hb : buf[k]? with
    | none => rw [hb] at hr; simp at hr
    | some b =>
      rw [hb] at hr
      simp only at hr ⊢
      by_cases hv : Mpeg.verifySync b next = true
      · rw [if_pos hv] at hr ⊢
        have e1 : buf.length - (buf.length - k) = k := by omega
        have e2 : (q ++ buf).length - ((q ++ buf).length - (q.length + k)) = q.length + k := by
          simp only [List.length_append]; omega
        rw [if_neg (by omega), e1] at hr
        rw [if_neg (by simp only [List.length_append]; omega), e2]
        by_cases hl : k + 4 > buf.length
        · rw [if_pos hl] at hr
          rw [if_pos (by simp only [List.length_append]; omega)]
          exact ih _ _ _ (by omega) hr
        · rw [if_neg hl] at hr
          rw [if_neg (by simp only [List.length_append]; omega), Nat.add_assoc, Nat.add_assoc, getElem_ext, getElem_ext]
          cases hc : buf[k + 2]? with
          | none => rw [hc] at hr; simp at hr
          | some c =>
            cases hd : buf[k + 3]? with
            | none => rw [hc, hd] at hr; simp at hr
            | some d =>
              rw [hc, hd] at hr
              simp only at hr ⊢
              cases hH : Mpeg.Header.read (fromBE [b, next, c, d]) with
              | error e => rw [hH] at hr; simp at hr
              | ok x =>
                rw [hH] at hr
                cases x with
                | none => exact ih _ _ _ (by omega) hr
                | some hd' =>
                  simp only [Except.ok.injEq, Option.some.injEq, Prod.mk.injEq] at hr ⊢
                  exact ⟨by omega, hr.2⟩
      · rw [if_neg hv] at hr ⊢
        exact ih _ _ _ (by omega) hr

theorem revLoop_le (buf : Bytes) (bounds : Nat) : ∀ (k : Nat) (next : UInt8) (rel : Nat) (h : Mpeg.Header),
    Mpeg.revLoop buf bounds k next = .ok (some (rel, h)) → rel ≤ bounds := by
  intro k
  induction k with
  | zero => intro next rel h hr; simp [Mpeg.revLoop] at hr
  | succ k ih =>
    intro next rel h hr
    rw [Mpeg.revLoop] at hr
    split at hr
    · simp at hr
    · split at hr
      · simp only at hr
        split at hr
        · simp at hr
        · split at hr
          · exact ih _ _ _ hr
          · split at hr
            · split at hr
              · simp at hr
              · simp only [Except.ok.injEq, Option.some.injEq, Prod.mk.injEq] at hr
                omega
              · exact ih _ _ _ hr
            · simp at hr
      · exact ih _ _ _ hr

/-- What the backward search looks at: the last bytes in front of the position. -/
theorem window_ext (pre audio suf : Bytes) (p : Nat) (hp : p ≤ audio.length) :
    ∃ q, q.length = min (pre.length + p) 1024 - min p 1024 ∧
      ((pre ++ (audio ++ suf)).drop (pre.length + p - min (pre.length + p) 1024)).take (min (pre.length + p) 1024)
        = q ++ (audio.drop (p - min p 1024)).take (min p 1024) ∧ ((audio.drop (p - min p 1024)).take (min p 1024)).length = min p 1024 := by
  have e1 : ∀ (f : Bytes) (n : Nat), (f.drop (n - min n 1024)).take (min n 1024) = (f.take n).drop (n - min n 1024) := by
    intro f n
    rw [List.drop_take]
    congr 1
    omega
  rw [e1, e1]
  have e2 : (pre ++ (audio ++ suf)).take (pre.length + p) = pre ++ audio.take p := by
    rw [List.take_length_add_append, List.take_append_of_le_length hp]
  rw [e2]
  refine ⟨((pre ++ audio.take p).drop (pre.length + p - min (pre.length + p) 1024)).take (min (pre.length + p) 1024 - min p 1024), ?_, ?_, ?_⟩
  · simp only [List.length_take, List.length_drop, List.length_append]; omega
  · have h3 : (audio.take p).drop (p - min p 1024) = (pre ++ audio.take p).drop (pre.length + (p - min p 1024)) := by
      rw [← List.drop_drop, List.drop_left' rfl]
    rw [h3]
    have h4 : pre.length + (p - min p 1024) = (pre.length + p - min (pre.length + p) 1024) + (min (pre.length + p) 1024 - min p 1024) := by omega
    rw [h4, ← List.drop_drop, List.take_append_drop]
  · simp only [List.length_take, List.length_drop]; omega

theorem revSearch_some {pre audio suf : Bytes} {p k : Nat} {h : Mpeg.Header} (hp : p ≤ audio.length)
    (hr : Mpeg.revSearch audio p = .ok (k, some h)) :
    k ≤ p ∧ Mpeg.revSearch (pre ++ (audio ++ suf)) (pre.length + p) = .ok (pre.length + k, some h) := by
  obtain ⟨q, hq, hw, hl⟩ := window_ext pre audio suf p hp
  unfold Mpeg.revSearch at hr ⊢
  simp only at hr ⊢
  rw [hw]
  generalize hbuf : (audio.drop (p - min p 1024)).take (min p 1024) = buf at *
  rw [← hl] at hr
  cases hL : Mpeg.revLoop buf buf.length buf.length 0 with
  | error e => rw [hL] at hr; simp at hr
  | ok x =>
    rw [hL] at hr
    cases x with
    | none => simp at hr
    | some x =>
      obtain ⟨rel, h'⟩ := x
      simp only [Except.ok.injEq, Option.some.injEq, Prod.mk.injEq] at hr
      obtain ⟨hr1, rfl⟩ := hr
      have hle := revLoop_le _ _ _ _ _ _ hL
      have := revLoop_ext q buf _ _ _ _ (Nat.le_refl _) hL
      have e : min (pre.length + p) 1024 = (q ++ buf).length := by simp only [List.length_append]; omega
      rw [e, show (q ++ buf).length = q.length + buf.length from List.length_append]
      rw [show (q ++ buf).length = q.length + buf.length from List.length_append] at this
      rw [this]
      simp only [Except.ok.injEq, Prod.mk.injEq, and_true]
      refine ⟨by omega, by omega⟩

theorem revSearch_none {pre audio suf : Bytes} {p k : Nat} (hp : p ≤ audio.length)
    (hr : Mpeg.revSearch audio p = .ok (k, none)) (hk : 0 < k) :
    k ≤ p ∧ Mpeg.revSearch (pre ++ (audio ++ suf)) (pre.length + p) = .ok (pre.length + k, none) := by
  obtain ⟨q, hq, hw, hl⟩ := window_ext pre audio suf p hp
  unfold Mpeg.revSearch at hr ⊢
  simp only at hr ⊢
  rw [hw]
  generalize hbuf : (audio.drop (p - min p 1024)).take (min p 1024) = buf at *
  cases hL : Mpeg.revLoop buf (min p 1024) buf.length 0 with
  | error e => rw [hL] at hr; simp at hr
  | ok x =>
    rw [hL] at hr
    cases x with
    | some x => simp at hr
    | none =>
      simp only [Except.ok.injEq, Prod.mk.injEq, and_true] at hr
      have h1 : min p 1024 = 1024 := by omega
      have h2 : min (pre.length + p) 1024 = 1024 := by omega
      have hq0 : q = [] := List.eq_nil_of_length_eq_zero (by omega)
      rw [hq0, List.nil_append, h2, ← h1, hL]
      simp only [Except.ok.injEq, Prod.mk.injEq, and_true]
      omega

/-- The last frame of the audio is found there in the file. -/
theorem lastFrame_ext (pre audio suf : Bytes) (first : Mpeg.Header) : ∀ (n m p last last' k : Nat) (h : Mpeg.Header),
    p ≤ audio.length → n ≤ m → Mpeg.lastFrame audio first n p last = .ok (k, some h) →
    Mpeg.lastFrame (pre ++ (audio ++ suf)) first m (pre.length + p) last' = .ok (pre.length + k, some h) := by
  intro n
  induction n with
  | zero => intro m p last last' k h _ _ hf; simp [Mpeg.lastFrame] at hf
  | succ n ih =>
    intro m p last last' k h hp hm hf
    obtain ⟨m, rfl⟩ : ∃ j, m = j + 1 := ⟨m - 1, by omega⟩
    rw [Mpeg.lastFrame] at hf ⊢
    by_cases h0 : p = 0
    · rw [if_pos h0] at hf; simp at hf
    · rw [if_neg h0] at hf
      rw [if_neg (by omega)]
      cases hr : Mpeg.revSearch audio p with
      | error e => rw [hr] at hf; simp at hf
      | ok x =>
        obtain ⟨q, x⟩ := x
        rw [hr] at hf
        cases x with
        | none =>
          simp only at hf
          have hq : 0 < q := by
            by_cases hq : 0 < q
            · exact hq
            · obtain rfl : q = 0 := by omega
              cases n with
              | zero => simp [Mpeg.lastFrame] at hf
              | succ n => simp [Mpeg.lastFrame] at hf
          obtain ⟨hl, he⟩ := revSearch_none (pre := pre) (suf := suf) hp hr hq
          rw [he]
          exact ih m q _ _ k h (by omega) (by omega) hf
        | some hd =>
          simp only at hf
          obtain ⟨hl, he⟩ := revSearch_some (pre := pre) (suf := suf) hp hr
          rw [he]
          simp only
          by_cases hc : hd.cmp first = true
          · rw [if_pos hc] at hf ⊢
            simp only [Except.ok.injEq, Option.some.injEq, Prod.mk.injEq] at hf ⊢
            exact ⟨by omega, hf.2⟩
          · rw [if_neg hc] at hf ⊢
            exact ih m q _ _ k h (by omega) (by omega) hf

/-- Everything about the audio that does not depend on the size of the file. -/
def Same (a b : Mpeg.Props) : Prop :=
  a.duration = b.duration ∧ a.audio = b.audio ∧ a.sampleRate = b.sampleRate ∧ a.channels = b.channels

theorem vbr_ext {h : Mpeg.Header} {v : Mpeg.Vbr} {a b : Nat} {P : Mpeg.Props} (hP : Mpeg.vbrProperties h v a = .ok P) (hb : b * 8 < 2 ^ 64) :
    ∃ P', Mpeg.vbrProperties h v b = .ok P' ∧ Same P' P := by
  unfold Mpeg.vbrProperties at hP ⊢
  obtain ⟨x1, h1, hP⟩ := bind_ok hP
  obtain ⟨x2, h2, hP⟩ := bind_ok hP
  obtain ⟨x3, h3, hP⟩ := bind_ok hP
  obtain ⟨x4, h4, hP⟩ := bind_ok hP
  obtain ⟨x5, h5, hP⟩ := bind_ok hP
  obtain ⟨x6, h6, hP⟩ := bind_ok hP
  obtain ⟨x7, h7, hP⟩ := bind_ok hP
  rw [h1, ok_bind, h2, ok_bind, h3, ok_bind]
  have h4' : Mpeg.mulU64 b 8 = .ok (b * 8) := by unfold Mpeg.mulU64; rw [if_pos hb]
  have h5' : ∃ y, Mpeg.divU (b * 8) x3 = .ok y := by
    unfold Mpeg.divU at h5 ⊢
    split at h5
    · simp at h5
    · rename_i h0; rw [if_neg h0]; exact ⟨_, rfl⟩
  obtain ⟨y, hy⟩ := h5'
  rw [h4', ok_bind, hy, ok_bind, h6, ok_bind, h7, ok_bind]
  obtain rfl := (Except.ok.injEq _ _).mp hP
  exact ⟨_, rfl, rfl, rfl, rfl, rfl⟩

theorem cbr_ext {h last : Mpeg.Header} {s k n a b : Nat} {cbr : Bool} {P : Mpeg.Props}
    (hP : Mpeg.cbrProperties h s k last a cbr = .ok P) (hd : P.duration ≠ 0) :
    ∃ P', Mpeg.cbrProperties h (n + s) (n + k) last b cbr = .ok P' ∧ Same P' P := by
  unfold Mpeg.cbrProperties at hP ⊢
  simp only at hP ⊢
  split at hP
  · obtain rfl := (Except.ok.injEq _ _).mp hP
    exact absurd rfl hd
  · rename_i hs
    rw [if_neg (by omega)]
    obtain ⟨x1, h1, hP⟩ := bind_ok hP
    obtain ⟨x2, h2, hP⟩ := bind_ok hP
    rw [show n + k + last.len - (n + s) = k + last.len - s by omega, h1, ok_bind, h2, ok_bind]
    obtain rfl := (Except.ok.injEq _ _).mp hP
    exact ⟨_, rfl, rfl, rfl, rfl, rfl⟩

/-- The properties of the audio do not depend on what stands around it. -/
theorem mpegProps_ext {pre audio suf : Bytes} {h : Mpeg.Header} {k : Nat} {P : Mpeg.Props}
    (hP : mpegProps audio (some (h, k)) audio.length = .ok P) (hd : P.duration ≠ 0)
    (hlen : (pre ++ (audio ++ suf)).length * 8 < 2 ^ 64) :
    ∃ P', mpegProps (pre ++ (audio ++ suf)) (some (h, pre.length + k)) (pre.length + audio.length) = .ok P' ∧ Same P' P := by
  unfold mpegProps at hP ⊢
  simp only at hP ⊢
  split at hP
  · simp at hP
  · rename_i h0
    rw [if_neg h0]
    obtain ⟨b, hb, hP⟩ := bind_ok hP
    obtain ⟨v, hv, hP⟩ := bind_ok hP
    have hb' := readAt_ext (pre := pre) (suf := suf) hb
    rw [← Nat.add_assoc] at hb'
    rw [hb', ok_bind, hv, ok_bind]
    have key : ∀ cbr, Mpeg.readProperties.rest audio h k audio.length cbr = .ok P →
        ∃ P', Mpeg.readProperties.rest (pre ++ (audio ++ suf)) h (pre.length + k) (pre.length + audio.length) cbr = .ok P' ∧ Same P' P := by
      intro cbr hR
      unfold Mpeg.readProperties.rest at hR ⊢
      split at hR
      · obtain rfl := (Except.ok.injEq _ _).mp hR
        exact absurd rfl hd
      · rename_i hbr
        rw [if_neg hbr]
        obtain ⟨⟨q, x⟩, hx, hR⟩ := bind_ok hR
        cases x with
        | none =>
          obtain rfl := (Except.ok.injEq _ _).mp hR
          exact absurd rfl hd
        | some last =>
          have := lastFrame_ext pre audio suf h _ (pre.length + audio.length + 1) _ _ (pre.length + audio.length) _ _ (Nat.le_refl _) (by omega) hx
          rw [this, ok_bind]
          simp only at hR ⊢
          exact cbr_ext hR hd
    unfold Mpeg.readProperties at hP ⊢
    cases v with
    | none => exact key _ hP
    | some v =>
      simp only at hP ⊢
      split at hP
      · rename_i hc
        rw [if_pos hc]
        exact vbr_ext hP hlen
      · rename_i hc
        rw [if_neg hc]
        exact key _ hP

end Lofty.FileTags
