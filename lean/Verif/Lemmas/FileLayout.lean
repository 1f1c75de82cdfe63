import Verif.Lemmas.FileTags
/-!
# The layout of a file with tags around the audio
-/
namespace Lofty.FileTags

/-- An ID3v2 tag written by the library at the start of the file. -/
inductive LeadOf (po : Id3v2.ParseOpts) : Bytes → Option Id3Tag → Prop
  | none : LeadOf po [] none
  | tag (fl : Id3v2.Flags) (padding : Option Nat) (body : Bytes) (fs : List Id3v2.Frame) (b : Bytes)
      (hcrc : fl.crc = false) (hres : fl.restrictions = none) (hun : fl.unsynchronisation = false)
      (hsize : body.length + padding.getD 0 < 2 ^ 32) (hb : Id3v2.createTag fl false padding body = .ok b)
      (hr : ∃ d0, ∀ d, d0 ≤ d → ∀ pad, Id3v2.parseTag po .v4 false d (body ++ List.replicate pad 0) = .ok fs) :
      LeadOf po b (some ⟨.v4, fl, fs⟩)

/-- An APE tag written by the library behind the audio. -/
inductive ApeOf (o : Opts) : Bytes → Option Ape.Tag → Prop
  | none : ApeOf o [] none
  | tag (t : Ape.Tag) (b : Bytes) (hg : Ape.Good t) (hb : Ape.createTag t = .ok b) (hsize : b.length < 2 ^ 32) :
      ApeOf o b (some ⟨false, visible o t.items⟩)

/-- An ID3v1 tag written by the library at the end of the file. -/
inductive V1Of (o : Opts) : Bytes → Option Id3v1.Tag → Prop
  | none : V1Of o [] none
  | tag (t : Id3v1.Tag) (lossy : Bool) (b : Bytes) (hb : Id3v1.encode lossy t = .ok b) (hy : o.id3.mode = .strict → t.year ≠ none) :
      V1Of o b (some (Id3v1.stored t))

/-- A file with the given audio and tags. -/
inductive Layout (o : Opts) (audio : Bytes) : Bytes → Tags → Prop
  | mk (lead ape v1 : Bytes) (x : Option Id3Tag) (y : Option Ape.Tag) (z : Option Id3v1.Tag) (hx : LeadOf o.id3 lead x)
      (hy : ApeOf o ape y) (hz : V1Of o v1 z) (hv : ¬ Id3v1.Tagged (audio ++ ape)) :
      Layout o audio (lead ++ (audio ++ (ape ++ v1))) ⟨x, z, y⟩

theorem lead_written {po : Id3v2.ParseOpts} {lead : Bytes} {x : Option Id3Tag} (h : LeadOf po lead x) :
    (lead = [] ∧ x = none) ∨ (Id3v2.Written lead ∧ x ≠ none) := by
  cases h with
  | none => exact .inl ⟨rfl, rfl⟩
  | tag fl padding body fs b hcrc hres hun hsize hb hr =>
    exact .inr ⟨⟨fl, false, padding, body, hcrc, hres, by simp, hsize, hb⟩, by simp⟩

/-- Whether a file ends in an ID3v1 tag depends on its last 128 bytes only. -/
theorem tagged_append {lead front : Bytes} (h : 128 ≤ front.length) : Id3v1.Tagged (lead ++ front) ↔ Id3v1.Tagged front := by
  unfold Id3v1.Tagged
  have e : (lead ++ front).drop ((lead ++ front).length - 128) = front.drop (front.length - 128) := by
    rw [show (lead ++ front).length - 128 = lead.length + (front.length - 128) by simp; omega, ← List.drop_drop, List.drop_left' rfl]
  rw [e]
  simp only [List.length_append]
  constructor
  · rintro ⟨_, h2⟩; exact ⟨h, h2⟩
  · rintro ⟨_, h2⟩; exact ⟨by omega, h2⟩

theorem noMarker_take {d : Bytes} {n m : Nat} (h : Id3v2.NoMarker (d.take n)) (hm : m ≤ n) : Id3v2.NoMarker (d.take m) := by
  intro a b hab
  apply h a (b ++ (d.take n).drop m)
  have : d.take n = d.take m ++ (d.take n).drop m := by
    conv_lhs => rw [← List.take_append_drop m (d.take n)]
    rw [List.take_take, Nat.min_eq_left hm]
  refine this.trans ?_
  conv_lhs => rw [hab]
  simp only [List.append_assoc]

theorem noMarker_take3 {d : Bytes} {n : Nat} (h : Id3v2.NoMarker (d.take n)) (h3 : 3 ≤ n) : d.take 3 ≠ ascii "ID3" := by
  intro e
  rw [Id3v2.id3_bytes] at e
  apply h [] ((d.take n).drop 3)
  rw [List.nil_append, ← e]
  conv_lhs => rw [← List.take_append_drop 3 (d.take n)]
  rw [List.take_take, Nat.min_eq_left h3]

/-- The search for the ID3v1 tag finds it and nothing else. -/
theorem find_read {o : Opts} {audio lead ape v1 : Bytes} {z : Option Id3v1.Tag}
    (ha : Audio o audio) (hz : V1Of o v1 z) (hv : ¬ Id3v1.Tagged (audio ++ ape)) :
    Id3v1.find (o.id3.mode = .strict) true (lead ++ (audio ++ (ape ++ v1)))
      = .ok (!v1.isEmpty, z, (lead ++ (audio ++ ape)).length) ∧ (v1 = [] ∨ v1.length = 128) := by
  have hl := ha.long
  have e : lead ++ (audio ++ (ape ++ v1)) = (lead ++ (audio ++ ape)) ++ v1 := by simp
  rw [e]
  cases hz with
  | none =>
    rw [List.append_nil, Id3v1.find_untagged]
    · exact ⟨rfl, .inl rfl⟩
    · rwa [tagged_append (by simp; omega)]
  | tag t lossy b hb hyr =>
    have h1 := (Id3v1.parse_encode (strict := false) hb).1
    rw [Id3v1.find_written hb (by simpa using hyr)]
    refine ⟨?_, .inr h1⟩
    have : v1.isEmpty = false := by
      cases v1 with
      | nil => simp at h1
      | cons a l => rfl
    rw [this]; rfl

/-- The search at the end of the file finds the two tags there and nothing else. -/
theorem tail_read {o : Opts} (ho : o.readTags = true) {audio lead ape v1 : Bytes} {y : Option Ape.Tag} {z : Option Id3v1.Tag}
    (ha : Audio o audio) (hy : ApeOf o ape y) (hz : V1Of o v1 z) (hv : ¬ Id3v1.Tagged (audio ++ ape)) :
    ∃ t, tail o (lead ++ (audio ++ (ape ++ v1))) = .ok t ∧ t.v1 = z ∧ t.ape = y ∧
      t.hasV1 = !v1.isEmpty ∧ (v1 = [] ∨ v1.length = 128) ∧
      ((t.header = none ∧ ape = [] ∧ y = none ∧ t.pos + 24 = lead.length + audio.length) ∨
        (∃ n, t.header = some ⟨ape.length, n⟩ ∧ t.pos = lead.length + audio.length + ape.length)) := by
  have hl := ha.long
  have hfind := find_read (lead := lead) ha hz hv
  unfold tail
  rw [ho, hfind.1, ok_bind]
  simp only
  have hq : 128 ≤ (lead ++ (audio ++ ape)).length := by simp only [List.length_append]; omega
  rw [if_neg (by omega), if_neg (by omega)]
  cases hy with
  | none =>
    have hr : readApe o (lead ++ (audio ++ ([] ++ v1))) ((lead ++ (audio ++ [])).length - 32) true
        = .ok (none, none, (lead ++ (audio ++ [])).length - 32 + 8) := by
      apply readApe_none
      · simp only [List.length_append, List.length_nil]; omega
      · have e : (lead ++ (audio ++ ([] : Bytes))).length - 32 = lead.length + (audio.length - 32) := by
          simp only [List.length_append, List.length_nil]; omega
        rw [e, drop_ext _ _ _ _ (by omega), List.take_append_of_le_length (by simp; omega)]
        exact ha.noApeEnd
    rw [hr, ok_bind]
    refine ⟨_, rfl, rfl, rfl, rfl, hfind.2, .inl ⟨rfl, rfl, rfl, ?_⟩⟩
    simp only [List.length_append, List.length_nil]
    omega
  | tag t b hg hb hsize =>
    have hr := readApe_rt o ho hg hb hsize (lead ++ audio) v1
    rw [show (lead ++ audio) ++ (ape ++ v1) = lead ++ (audio ++ (ape ++ v1)) by simp,
      show (lead ++ audio).length + ape.length - 32 = (lead ++ (audio ++ ape)).length - 32 by simp [Nat.add_assoc]] at hr
    rw [hr, ok_bind]
    refine ⟨_, rfl, rfl, rfl, rfl, hfind.2, .inr ⟨_, rfl, ?_⟩⟩
    simp only [List.length_append]

theorem mpegEnd_read {t : Tail} {lead audio ape : Bytes} {y : Option Ape.Tag} (h1 : t.ape = y)
    (h : (t.header = none ∧ ape = [] ∧ y = none ∧ t.pos + 24 = lead.length + audio.length) ∨
        (∃ n, t.header = some ⟨ape.length, n⟩ ∧ t.pos = lead.length + audio.length + ape.length)) :
    mpegEnd t none = .ok (y, lead.length + audio.length) := by
  unfold mpegEnd
  rcases h with ⟨h2, -, h3, h4⟩ | ⟨n, h2, h3⟩
  · rw [h2, h3, h4]
  · rw [h2]
    simp only
    rw [if_neg (by omega), h1, h3]
    congr 2
    omega

/-- The content and the end of an ID3v2 tag at the start of the file. -/
theorem lead_parse {fl : Id3v2.Flags} {padding : Option Nat} {body b : Bytes}
    (hcrc : fl.crc = false) (hres : fl.restrictions = none) (hun : fl.unsynchronisation = false)
    (hsize : body.length + padding.getD 0 < 2 ^ 32) (hb : Id3v2.createTag fl false padding body = .ok b) (rest : Bytes) :
    ∃ pad, Id3v2.parseHeader (b ++ rest) 0 = .ok (⟨.v4, fl, body.length + pad, 0⟩, 10) ∧
      ((b ++ rest).drop 10).take (body.length + pad) = body ++ List.replicate pad 0 ∧
      b.length = 10 + (body.length + pad) + (if fl.footer then 10 else 0) := by
  obtain ⟨h1, h2, h3⟩ := Id3v2.parseHeader_createTag_partial fl false padding body b rest hcrc hres (by simp) hsize hb
  have hw : Id3v2.written fl false = fl := by
    obtain ⟨a1, a2, a3, a4, a5⟩ := fl
    simp only at hun
    subst hun
    rfl
  rw [hw] at h1
  refine ⟨if fl.footer then 0 else padding.getD 0, ?_, ?_, ?_⟩
  · simpa using h1
  · rw [h2]
    cases hf : fl.footer with
    | true =>
      simp only [if_true, List.append_assoc]
      rw [List.drop_left' h3, Nat.add_zero, List.take_left' rfl, List.replicate_zero, List.append_nil]
    | false =>
      simp only [Bool.false_eq_true, if_false]
      rw [List.append_assoc, List.append_assoc, List.drop_left' h3, ← List.append_assoc, List.take_left' (by simp)]
  · have := congrArg List.length h2
    simp only [List.length_append, h3] at this
    cases hf : fl.footer with
    | true =>
      simp only [hf, if_true, List.length_append, List.length_take, List.length_drop] at this ⊢
      have h9 : (ascii "3DI").length = 3 := by decide
      simp only [List.length_take] at h3
      omega
    | false => simp [hf] at this ⊢; omega

theorem front_read {o : Opts} (ho : o.readTags = true) {audio lead suf : Bytes} {x : Option Id3Tag} (ha : Audio o audio)
    (hx : LeadOf o.id3 lead x) {h : Mpeg.Header} {k : Nat} (hk : Mpeg.findNext audio (audio.length + 1) 0 = .ok (some (h, k))) :
    ∃ d0, ∀ d, d0 ≤ d → ∀ n, front { o with depth := d } (lead ++ (audio ++ suf)) (n + 2) 0 ⟨none, none⟩
      = .ok (⟨x, none⟩, some (h, lead.length + k)) := by
  have hlong := ha.long
  have h4 : ∀ f4, readAt audio 0 4 = .ok f4 → f4 = audio.take 4 := by
    intro f4 hf; unfold readAt at hf; rw [if_pos (by omega)] at hf
    simpa using ((Except.ok.injEq _ _).mp hf).symm
  have hr4 : readAt audio 0 4 = .ok (audio.take 4) := by unfold readAt; rw [if_pos (by omega)]; simp
  have h3 : (audio.take 4).take 3 ≠ ascii "ID3" := by
    rw [List.take_take]; exact noMarker_take3 ha.noId3v2 ha.junk.1
  -- the last round
  have last : ∀ d n st, (st.id3v2 = none → lead = []) → front { o with depth := d } (lead ++ (audio ++ suf)) (n + 1) lead.length st
      = .ok (st, some (h, lead.length + k)) := by
    intro d n st hst
    have hrd := readAt_ext (pre := lead) (suf := suf) hr4
    rw [Nat.add_zero] at hrd
    rw [front, hrd]
    simp only
    rw [if_neg h3, if_neg ha.noApe]
    have := findNext_ext lead audio suf _ ((lead ++ (audio ++ suf)).length + 1) 0 h k hk (by simp; omega)
    simp only [Nat.add_zero] at this
    rw [this, ok_bind]
    simp only
    have hj : junkTag { o with depth := d } (lead ++ (audio ++ suf)) (lead.length + k) st = .ok st := by
      unfold junkTag
      split
      · rename_i hc
        obtain rfl := hst (by simpa using hc.1)
        unfold Id3v2.find
        simp only [List.drop_zero, List.nil_append, List.length_nil, Nat.zero_add]
        rw [List.take_append_of_le_length (by have := ha.junk.2; omega), Id3v2.findInJunk_none (noMarker_take ha.noId3v2 (by omega))]
        rfl
      · rfl
    rw [hj, ok_bind]
  cases hx with
  | none => exact ⟨0, fun d _ n => by have := last d (n + 1) ⟨none, none⟩ (by simp); simpa using this⟩
  | tag fl padding body fs b hcrc hres hun hsize hb hr =>
    obtain ⟨d0, hr⟩ := hr
    refine ⟨d0, fun d hd n => ?_⟩
    obtain ⟨pad, p1, p2, p3⟩ := lead_parse hcrc hres hun hsize hb (audio ++ suf)
    have hid : lead.take 3 = ascii "ID3" := (Id3v2.findAt_written ⟨fl, false, padding, body, hcrc, hres, by simp, hsize, hb⟩ []).2.1
    have hrd : readAt (lead ++ (audio ++ suf)) 0 4 = .ok (lead.take 4) := by
      unfold readAt
      rw [if_pos (by simp only [List.length_append]; omega), List.drop_zero, List.take_append_of_le_length (by omega)]
    rw [front, hrd]
    simp only
    rw [if_pos (by rw [List.take_take]; exact hid), p1]
    simp only
    rw [ho, if_pos rfl]
    unfold parseId3
    simp only
    rw [Nat.sub_zero, p2, hun, hr d hd pad, ok_bind, ok_bind]
    have hlen : (lead ++ (audio ++ suf)).length - 10 ≥ body.length + pad := by simp only [List.length_append]; omega
    rw [Nat.min_eq_left hlen]
    have hpos : (if fl.footer = true then 10 + (body.length + pad) + 10 else 10 + (body.length + pad)) = lead.length := by
      rw [p3]; split <;> omega
    rw [hpos]
    simp only [ho] at last
    exact last d n ⟨some ⟨.v4, fl, fs⟩, none⟩ (fun hc => by simp at hc)

/-! ## AAC -/

/-- A first frame found in the audio is found there in the file. -/
theorem aacNext_ext (pre audio suf : Bytes) : ∀ (n m p : Nat) (h : Aac.Header) (k : Nat),
    Aac.findNext audio n p = .ok (some (h, k)) → n ≤ m →
    Aac.findNext (pre ++ (audio ++ suf)) m (pre.length + p) = .ok (some (h, pre.length + k)) := by
  intro n
  induction n with
  | zero => intro m p h k hf; simp [Aac.findNext] at hf
  | succ n ih =>
    intro m p h k hf hm
    obtain ⟨m, rfl⟩ : ∃ j, m = j + 1 := ⟨m - 1, by omega⟩
    rw [Aac.findNext] at hf ⊢
    have hp : p ≤ audio.length := by
      by_cases hp : p ≤ audio.length
      · exact hp
      · rw [List.drop_eq_nil_of_le (by omega)] at hf
        simp [Mpeg.searchSync] at hf
    rw [drop_ext _ _ _ _ hp]
    cases hs : Mpeg.searchSync (audio.drop p) with
    | none => rw [hs] at hf; simp at hf
    | some rel =>
      rw [hs] at hf
      rw [searchSync_append suf hs]
      simp only at hf ⊢
      obtain ⟨⟨hd, q⟩, hw, hf⟩ := bind_ok hf
      have hw' : Aac.Header.read (pre ++ (audio ++ suf)) (pre.length + p + rel) = .ok (hd, pre.length + q) := by
        unfold Aac.Header.read at hw ⊢
        obtain ⟨b, hb, hw⟩ := bind_ok hw
        obtain ⟨h', hh, hw⟩ := bind_ok hw
        have hb' := readAt_ext (pre := pre) (suf := suf) hb
        rw [← Nat.add_assoc] at hb'
        rw [hb', ok_bind, hh, ok_bind]
        simp only [Except.ok.injEq, Prod.mk.injEq] at hw ⊢
        obtain ⟨rfl, rfl⟩ := hw
        exact ⟨rfl, by omega⟩
      rw [hw', ok_bind]
      simp only at hf ⊢
      unfold Mpeg.cmpHeader at hf ⊢
      simp only at hf ⊢
      generalize hsz : (if hd.hasCrc = true then 9 else 7) = hsize at *
      cases hr : readAt audio (q + (hd.len - hsize)) 4 with
      | error e => rw [hr] at hf; simp at hf
      | ok b =>
        have hr' := readAt_ext (pre := pre) (suf := suf) hr
        simp only [← Nat.add_assoc] at hr'
        rw [hr] at hf
        rw [hr']
        simp only at hf ⊢
        by_cases hc : fromBE (hd.bytes.take 4) &&& Aac.headerMask = fromBE b &&& Aac.headerMask
        · rw [if_pos hc] at hf ⊢
          simp only at hf ⊢
          simp only [Except.ok.injEq, Option.some.injEq, Prod.mk.injEq] at hf ⊢
          obtain ⟨rfl, rfl⟩ := hf
          exact ⟨rfl, by omega⟩
        · rw [if_neg hc] at hf ⊢
          simp only at hf ⊢
          have := ih m _ h k hf (by omega)
          simp only [← Nat.add_assoc] at this
          exact this

theorem aacFront_read {o : Opts} (ho : o.readTags = true) {audio lead suf : Bytes} {x : Option Id3Tag} (ha : Audio o audio)
    (hx : LeadOf o.id3 lead x) {h : Aac.Header} {k : Nat} (hk : Aac.findNext audio (audio.length + 1) 0 = .ok (some (h, k))) :
    ∃ d0, ∀ d, d0 ≤ d → ∀ n, aacFront { o with depth := d } (lead ++ (audio ++ suf)) (n + 2) 0 (lead ++ (audio ++ suf)).length none
      = .ok ⟨x, (audio ++ suf).length + (if x.isSome then 10 else 0), some (h, lead.length + k)⟩ := by
  have hlong := ha.long
  have hr4 : readAt audio 0 4 = .ok (audio.take 4) := by unfold readAt; rw [if_pos (by omega)]; simp
  have h3 : (audio.take 4).take 3 ≠ ascii "ID3" := by
    rw [List.take_take]; exact noMarker_take3 ha.noId3v2 ha.junk.1
  have last : ∀ d n s tag, aacFront { o with depth := d } (lead ++ (audio ++ suf)) (n + 1) lead.length s tag
      = .ok ⟨tag, s, some (h, lead.length + k)⟩ := by
    intro d n s tag
    have hrd := readAt_ext (pre := lead) (suf := suf) hr4
    rw [Nat.add_zero] at hrd
    rw [aacFront, hrd]
    simp only
    rw [if_neg h3]
    have := aacNext_ext lead audio suf _ ((lead ++ (audio ++ suf)).length + 1) 0 h k hk (by simp; omega)
    simp only [Nat.add_zero] at this
    rw [this, ok_bind]
  cases hx with
  | none => exact ⟨0, fun d _ n => by have := last d (n + 1) (audio ++ suf).length none; simpa using this⟩
  | tag fl padding body fs b hcrc hres hun hsize hb hr =>
    obtain ⟨d0, hr⟩ := hr
    refine ⟨d0, fun d hd n => ?_⟩
    obtain ⟨pad, p1, p2, p3⟩ := lead_parse hcrc hres hun hsize hb (audio ++ suf)
    have hid : lead.take 3 = ascii "ID3" := (Id3v2.findAt_written ⟨fl, false, padding, body, hcrc, hres, by simp, hsize, hb⟩ []).2.1
    have hrd : readAt (lead ++ (audio ++ suf)) 0 4 = .ok (lead.take 4) := by
      unfold readAt
      rw [if_pos (by simp only [List.length_append]; omega), List.drop_zero, List.take_append_of_le_length (by omega)]
    have hlen : (lead ++ (audio ++ suf)).length - 10 ≥ body.length + pad := by simp only [List.length_append]; omega
    have hL : (lead ++ (audio ++ suf)).length = lead.length + (audio ++ suf).length := List.length_append
    rw [aacFront, hrd]
    simp only
    rw [if_pos (by rw [List.take_take]; exact hid), p1]
    simp only
    rw [checkedSub, if_neg (by omega), ok_bind, ho, if_pos rfl]
    unfold parseId3
    simp only
    rw [Nat.sub_zero, p2, hun, hr d hd pad, ok_bind, ok_bind]
    rw [Nat.min_eq_left hlen]
    simp only [ho] at last
    cases hf : fl.footer with
    | true =>
      rw [hf] at p3
      simp only [if_true] at p3 ⊢
      rw [checkedSub, if_neg (by omega), ok_bind, show 10 + (body.length + pad) + 10 = lead.length by omega, last]
      simp only [Option.isSome_some, if_true, Except.ok.injEq, AacFront.mk.injEq, true_and, and_true]
      omega
    | false =>
      rw [hf] at p3
      simp only [Bool.false_eq_true, if_false, Nat.add_zero] at p3 ⊢
      rw [← p3, last]
      simp only [Option.isSome_some, if_true, Except.ok.injEq, AacFront.mk.injEq, true_and, and_true]
      omega

end Lofty.FileTags
