import Verif.Lemmas.SafeId3v2
import Verif.Props.Mpeg
import Verif.Props.Aac
import Verif.Props.Detection
/-!
# Reading the tags around the audio neither panics nor loops
-/
namespace Lofty.Safe
open Lofty.FileTags

variable {D : Prop}

theorem readAt_fine (f : Bytes) (p n : Nat) : Fine D (readAt f p n) (fun b => b = (f.drop p).take n ∧ p + n ≤ f.length) := by
  unfold readAt
  exact .ite (fun h => .ok ⟨rfl, h⟩) fun _ => .err

/-! ## ID3v2 headers -/

/-- As `Fine`, for errors with a position: they are ordinary ones, and what is given is such. -/
structure FineP {α : Type} (x : Except (Err × Nat) α) (P : α → Prop) : Prop where
  safe : ∀ e, x = .error e → e.1 ≠ .panic ∧ e.1 ≠ .diverge
  gives : ∀ a, x = .ok a → P a

theorem FineP.ok {α : Type} {P : α → Prop} {a : α} (h : P a) : FineP (.ok a) P := ⟨fun _ h => by (cases h), fun b hb => by cases hb; exact h⟩

theorem FineP.err {α : Type} {P : α → Prop} {e : Err} {p : Nat} (h : e ≠ .panic ∧ e ≠ .diverge := by decide) : FineP (.error (e, p)) P :=
  ⟨fun e' he => by cases he; exact h, fun _ h => by cases h⟩

theorem FineP.bind {α β : Type} {P : α → Prop} {Q : β → Prop} {x : Except (Err × Nat) α} {f : α → Except (Err × Nat) β} (h : FineP x P)
    (hf : ∀ a, P a → FineP (f a) Q) : FineP (x >>= f) Q := by
  cases x with
  | error e => exact ⟨fun e' he => by cases he; exact h.safe e rfl, fun _ h => by cases h⟩
  | ok a => exact hf a (h.gives a rfl)

theorem FineP.ite {α : Type} {P : α → Prop} {c : Prop} [Decidable c] {a b : Except (Err × Nat) α} (h1 : c → FineP a P) (h2 : ¬ c → FineP b P) :
    FineP (if c then a else b) P := by
  by_cases hc : c
  · rw [if_pos hc]; exact h1 hc
  · rw [if_neg hc]; exact h2 hc

theorem need_fine (d : Bytes) (p n : Nat) : FineP (Id3v2.need d p n) (fun a => a.2 = p + n ∧ p + n ≤ d.length ∧ a.1.length = n) := by
  unfold Id3v2.need
  refine .ite (fun h => .ok ⟨rfl, h, ?_⟩) fun _ => .err
  simp only [List.length_take, List.length_drop]
  omega

theorem extended_fine (d : Bytes) (p : Nat) (fl : Id3v2.Flags) (size : Nat) : FineP (Id3v2.readExtended d p fl size) (fun a => p ≤ a.2) := by
  unfold Id3v2.readExtended
  refine .ite (fun _ => .err) fun _ => .bind (need_fine ..) fun a ha => ?_
  dsimp only
  refine .bind (P := fun q => p ≤ q) ?_ fun q hq => ?_
  · exact .ite (fun _ => .bind (need_fine ..) fun b hb => .ok (by omega)) fun _ => .ok (by omega)
  · exact .ite (fun _ => .bind (need_fine ..) fun b hb => .ok (by dsimp only; omega)) fun _ => .ok hq

theorem extHeader_fine (d : Bytes) (p : Nat) (hp : p ≤ d.length) (v : Id3v2.Version) (fl : Id3v2.Flags) : FineP (Id3v2.readExtHeader d p v fl) (fun a => p ≤ a.2.2) := by
  unfold Id3v2.readExtHeader
  cases v with
  | v2 => exact .ok (Nat.le_refl _)
  | v4 => exact .bind (need_fine ..) fun a ha => .bind (extended_fine ..) fun b hb => .ok (by dsimp only; omega)
  | v3 =>
    refine .ite (fun _ => ?_) fun _ => .bind (need_fine ..) fun a ha => .bind (extended_fine ..) fun b hb => .ok (by dsimp only; omega)
    dsimp only
    have h : FineP (Id3v2.need (Synchsafe.desync ((d.drop p).take 8192)) 0 4 >>= fun x =>
        Id3v2.readExtended (Synchsafe.desync ((d.drop p).take 8192)) x.2 fl (fromBE x.1) >>= fun y => Except.ok (fromBE x.1, y.1)) (fun _ => True) :=
      .bind (need_fine ..) fun a _ => .bind (extended_fine ..) fun b _ => .ok trivial
    revert h
    split
    · intro _; exact .ok (by dsimp only; omega)
    · rename_i e q hq
      intro h
      exact .err (h.safe _ hq)

theorem header_fine (d : Bytes) (p : Nat) : FineP (Id3v2.parseHeader d p) (fun a => p + 10 ≤ a.2) := by
  unfold Id3v2.parseHeader
  refine .bind (need_fine ..) fun a ha => ?_
  dsimp only
  unfold Id3v2.decodeHeader
  refine .ite (fun _ => .err) fun _ => ?_
  split
  · exact .err
  · dsimp only
    refine .ite (fun _ => .err) fun _ => .bind (P := fun x => p + 10 ≤ x.2.2) ?_ ?_
    · exact .ite (fun _ => by have := extHeader_fine d a.2 (by omega) ‹_› (Id3v2.headerFlags ‹_› (a.1.getD 5 0)); rw [ha.1] at this ⊢; exact this) fun _ => .ok (by dsimp only; omega)
    · rintro ⟨e, fl, q⟩ hq
      exact .ite (fun _ => .err) fun _ => .ok hq

/-- Nothing is read beyond the end. -/
theorem findAt_fine (f : Bytes) (p : Nat) (read : Bool) :
    Fine D (Id3v2.findAt f p read) (fun a => ∀ h c, a.1 = some (h, some c) → c.length ≤ f.length) := by
  unfold Id3v2.findAt
  have h := header_fine f p
  revert h
  cases Id3v2.parseHeader f p with
  | error e => intro _; exact .ite (fun _ => .err) fun _ => .ok fun _ _ h => by cases h
  | ok a =>
    intro _
    dsimp only
    refine .ite (fun _ => ?_) fun _ => .ok fun _ _ h => by cases h
    have h := need_fine f a.2 a.1.size
    revert h
    cases Id3v2.need f a.2 a.1.size with
    | error e =>
      intro h
      have := h.safe e rfl
      exact .err this
    | ok c =>
      intro h
      have := h.gives c rfl
      refine .ok fun h' c' hc => ?_
      cases hc
      omega

theorem find_fine (f : Bytes) (p : Nat) (read : Bool) (junk : Option Nat) :
    Fine D (Id3v2.find f p read junk) (fun a => ∀ h c, a.1 = some (h, some c) → c.length ≤ f.length) := by
  unfold Id3v2.find
  cases junk with
  | none => exact findAt_fine ..
  | some w =>
    dsimp only
    cases Id3v2.findInJunk ((f.drop p).take w) with
    | none => exact .ok fun _ _ h => by cases h
    | some off => exact findAt_fine ..

/-- When reading an ID3v2 tag in `n` bytes may not end. -/
def Deep (o : Opts) (n : Nat) : Prop := ¬ NoGrow o.id3 ∨ o.depth ≤ n

theorem Deep.mono {o : Opts} {m n : Nat} (h : Deep o m) (hm : m ≤ n) : Deep o n := h.imp_right fun h => Nat.le_trans h hm

theorem parseId3_fine (o : Opts) (h : Id3v2.Header) {c : Bytes} {n : Nat} (hc : c.length ≤ n) : Fine (Deep o n) (parseId3 o h c) (fun _ => True) := by
  unfold parseId3
  refine .bind ((parseTag_fine ..).weak fun hd => Deep.mono hd ?_) fun _ _ => .ok trivial
  rw [List.length_take]
  omega

theorem contentOf_fine (o : Opts) (f : Bytes) {r : Option (Id3v2.Header × Option Bytes)} (hr : ∀ h c, r = some (h, some c) → c.length ≤ f.length) :
    Fine (Deep o f.length) (contentOf o r) (fun _ => True) := by
  unfold contentOf
  split
  · exact (parseId3_fine o _ (hr _ _ rfl)).map fun _ _ => trivial
  · exact .ok trivial

/-! ## The end of the file -/

theorem v1_fine (strict read : Bool) (f : Bytes) : Fine D (Id3v1.find strict read f)
    (fun a => (a.1 = false ∧ a.2.2 = f.length) ∨ (a.1 = true ∧ a.2.2 + 128 = f.length)) := by
  unfold Id3v1.find
  refine .ite (fun _ => .ok (.inl ⟨rfl, rfl⟩)) fun hl => .bind (readAt_fine ..) fun h _ => .ite (fun _ => .ok (.inl ⟨rfl, rfl⟩)) fun _ => ?_
  refine .ite (fun _ => .bind (readAt_fine ..) fun b _ => .bind (P := fun _ => True) ?_ fun t _ => .ok (.inr ⟨rfl, by dsimp only; omega⟩)) fun _ =>
    .ok (.inr ⟨rfl, by dsimp only; omega⟩)
  unfold Id3v1.parse
  refine .ite (fun _ => .err) fun _ => ?_
  dsimp only
  refine .bind (P := fun _ => True) ?_ fun _ _ => .ok trivial
  unfold Id3v1.parseYear
  exact .ite (fun _ => .ite (fun _ => .err) fun _ => .ok trivial) fun _ => .ok trivial

theorem key_fine : ∀ r : Bytes, Fine D (Ape.readKey r) (fun _ => True)
  | [] => .err
  | b :: r => by
    unfold Ape.readKey
    exact .ite (fun _ => .ok trivial) fun _ => .bind (key_fine r) fun _ _ => .ok trivial

theorem item_fine (r : Bytes) (key : Str) (flags size : Nat) : Fine D (Ape.parseItem r key flags size) (fun _ => True) := by
  unfold Ape.parseItem
  refine .bind (readN_fine ..) fun v _ => .bind (P := fun _ => True) ?_ fun _ _ => .bind (P := fun _ => True) ?_ fun _ _ => .ok trivial
  · unfold Ape.parseValue
    exact .ite (fun _ => (utf8Decode_fine _).map fun _ _ => trivial) fun _ => .ite (fun _ => .ok trivial) fun _ =>
      .ite (fun _ => (utf8Decode_fine _).map fun _ _ => trivial) fun _ => .err
  · unfold Ape.Item.new
    exact .ite (fun _ => .ok trivial) fun _ => .err

theorem items_fine (cover : Bool) (f : Bytes) : ∀ (n rem pos : Nat) (acc : List Ape.Item), Fine D (readItemsAt cover f n rem pos acc) (fun a => pos ≤ a.2) := by
  intro n
  induction n with
  | zero => intro rem pos acc; exact .ok (Nat.le_refl _)
  | succ n ih =>
    intro rem pos acc
    unfold readItemsAt
    refine .ite (fun _ => .ok (Nat.le_refl _)) fun _ => .bind (readLE_fine ..) fun s _ => .ite (fun _ => .err) fun _ =>
      .bind (readLE_fine ..) fun fl _ => .bind (key_fine _) fun k _ => .bind (utf8Decode_fine _) fun key _ => .ite (fun _ => ?_) fun _ =>
      .bind (item_fine ..) fun i _ => ?_
    · exact (ih ..).imp fun a ha => by omega
    · exact (ih ..).imp fun a ha => by omega

theorem apeWith_fine (o : Opts) (f : Bytes) (h : Ape.Header) (pos : Nat) : Fine D (readApeWith o f h pos) (fun a => pos ≤ a.2) := by
  unfold readApeWith
  exact .bind (items_fine ..) fun a ha => .ok (by dsimp only; omega)

/-- The header of an APE tag: what it says of the size. -/
theorem apeHeader_fine (f : Bytes) (pos : Nat) (footer : Bool) : Fine D (Ape.readHeader f pos footer)
    (fun a => a.1.size ≤ fromLE ((f.drop (pos + 4)).take 4) + 32 ∧ a.1.size ≤ f.length ∧ (footer = false → a.2 = pos + 24)) := by
  unfold Ape.readHeader
  refine .bind (P := fun a => a.2 = f.drop (pos + 4)) ?_ fun a ha => .bind (P := fun b => b.1 = fromLE ((f.drop (pos + 4)).take 4)) ?_ fun s hs => ?_
  · unfold readLE
    have h := readN_fine (D := D) 4 (f.drop pos)
    revert h
    cases readN 4 (f.drop pos) with
    | error e => intro h; exact ⟨fun e' he => h.safe e' (by cases he; rfl), fun _ h => by cases h⟩
    | ok x => intro h; exact .ok ((h.gives x rfl).2.2.trans (by rw [List.drop_drop]))
  · rw [ha]
    unfold readLE readN
    by_cases h : 4 ≤ (f.drop (pos + 4)).length
    · rw [if_pos h]; exact .ok rfl
    · rw [if_neg h]; exact .err
  · refine .ite (fun _ => .err) fun _ => .bind (readLE_fine ..) fun c _ => .ite (fun _ => .err) fun _ => ?_
    dsimp only
    refine .ite (fun _ => .err) fun ht => .ok ⟨?_, by dsimp only; omega, ?_⟩
    · dsimp only
      rw [hs]
      split <;> omega
    · intro hf
      dsimp only
      rw [hf]
      simp

/-- The bytes in front of `q` are the footer of an APE tag that claims `n` bytes. -/
def FooterAt (f : Bytes) (q n : Nat) : Prop :=
  32 ≤ q ∧ (f.drop (q - 32)).take 8 = ascii "APETAGEX" ∧ n = fromLE ((f.drop (q - 20)).take 4)

theorem tail_fine (o : Opts) (f : Bytes) : Fine D (tail o f) (fun t => ∀ h, t.header = some h →
    ∃ q n, FooterAt f q n ∧ h.size ≤ n + 32 ∧ ((t.hasV1 = false ∧ q = f.length) ∨ (t.hasV1 = true ∧ q + 128 = f.length))) := by
  unfold tail
  refine .bind (v1_fine ..) ?_
  rintro ⟨fd, v1, q⟩ ha
  refine .ite (fun _ => .err) fun _ => .ite (fun _ => .err) fun hq => ?_
  refine .bind (P := fun x => ∀ h, x.2.1 = some h → ∃ n, FooterAt f q n ∧ h.size ≤ n + 32) ?_ ?_
  · unfold readApe
    refine .bind (readAt_fine ..) fun p hp => .ite (fun _ => .ok fun _ h => by cases h) fun hpre => .bind (apeHeader_fine ..) fun h hh => ?_
    have key : ∃ n, FooterAt f q n ∧ h.1.size ≤ n + 32 := by
      refine ⟨_, ⟨by omega, ?_, rfl⟩, ?_⟩
      · rw [← hp.1]
        exact Decidable.not_not.mp hpre
      · have := hh.1
        rwa [show q - 32 + 8 + 4 = q - 20 by omega] at this
    refine .ite (fun _ => .bind (apeWith_fine ..) fun t _ => .ok fun h' e => ?_) fun _ => .ok fun h' e => ?_
    · cases e; exact key
    · cases e; exact key
  · rintro ⟨t, h, p⟩ hx
    refine .ok fun h' e => ?_
    obtain ⟨n, h1, h2⟩ := hx h' e
    exact ⟨q, n, h1, h2, ha⟩

theorem v1sub_fine (t : Tail) (n : Nat) : Fine D (withoutV1 t n) (fun m => m = n - (if t.hasV1 then 128 else 0)) := by
  unfold withoutV1 checkedSub
  refine .ite (fun h => .ite (fun _ => .err) fun _ => .ok ?_) fun h => .ok ?_
  · rw [if_pos h]
  · rw [if_neg h]; rfl

theorem checkedSub_fine (a b : Nat) : Fine D (checkedSub a b) (fun m => m = a - b) := by
  unfold checkedSub
  exact .ite (fun _ => .err) fun _ => .ok rfl

/-! ## MPEG -/

theorem mpegNext_fine (f : Bytes) (pos : Nat) : Fine D (Mpeg.findNext f (f.length + 1) pos) (fun _ => True) := by
  have h : ∀ (n pos : Nat), Fine True (Mpeg.findNext f n pos) (fun _ => True) := by
    intro n
    induction n with
    | zero => exact fun pos => ⟨fun e h => by cases h; exact ⟨by decide, fun _ => trivial⟩, fun _ _ => trivial⟩
    | succ n ih =>
      intro pos
      unfold Mpeg.findNext
      split
      · exact .ok trivial
      · refine .bind (P := fun _ => True) ?_ fun w _ => ?_
        · exact (readAt_fine ..).any
        · obtain ⟨o, ho⟩ := Mpeg.read_total (fromBE w)
          rw [ho]
          cases o with
          | none => exact ih _
          | some x =>
            change Fine True (match Mpeg.cmpHeader f _ 4 x.len (fromBE w) Mpeg.headerMask with
              | (.equal, _) => _ | (.undetermined, _) => _ | (.notEqual, next) => _) _
            split
            · exact .ok trivial
            · exact .ok trivial
            · exact ih _
  have h2 := (Mpeg.findNext_spec f (f.length + 1) pos (by omega) (by omega)).1
  exact ⟨fun e he => ⟨((h _ _).safe e he).1, fun hd => absurd (hd ▸ he) h2⟩, fun _ _ => trivial⟩

theorem junkTag_fine (o : Opts) (f : Bytes) (off : Nat) (st : Front) : Fine (Deep o f.length) (junkTag o f off st) (fun _ => True) := by
  unfold junkTag
  refine .ite (fun _ => .bind (find_fine ..) ?_) fun _ => .ok trivial
  rintro ⟨r, p⟩ hr
  dsimp only
  split
  · exact .bind (parseId3_fine o _ (hr _ _ rfl)) fun _ _ => .ok trivial
  · exact .ok trivial

theorem front_fine (o : Opts) (f : Bytes) : ∀ (n pos : Nat) (st : Front), f.length < n + pos → 0 < n → Fine (Deep o f.length) (front o f n pos st) (fun _ => True) := by
  intro n
  induction n with
  | zero => intro pos st _ h; omega
  | succ n ih =>
    intro pos st hn _
    unfold front
    have h4 := readAt_fine (D := Deep o f.length) f pos 4
    revert h4
    cases readAt f pos 4 with
    | error e => intro _; exact .ok trivial
    | ok b =>
      intro h4
      have hlen := (h4.gives b rfl).2
      have ih' : ∀ q st', pos + 10 ≤ q → Fine (Deep o f.length) (front o f n q st') (fun _ => True) := fun q st' hq =>
        ih q st' (by omega) (by omega)
      dsimp only
      refine .ite (fun _ => ?_) fun _ => .ite (fun _ => ?_) fun _ => .bind (mpegNext_fine f pos) ?_
      · have h := header_fine f pos
        revert h
        cases Id3v2.parseHeader f pos with
        | error e => intro h; exact .err (h.safe e rfl)
        | ok a =>
          obtain ⟨h, p⟩ := a
          intro hh
          have hp : pos + 10 ≤ p := hh.gives _ rfl
          dsimp only
          refine .ite (fun _ => .bind (parseId3_fine o h (by rw [List.length_drop]; omega)) fun t _ => ?_) fun _ => ih' _ _ ?_
          · split
            · exact ih' _ _ (by omega)
            · refine ih' _ _ ?_
              split <;> omega
          · split <;> omega
      · refine .bind (readAt_fine ..) fun r _ => .ite (fun _ => .bind (apeHeader_fine ..) fun a ha => ?_) fun _ => .err
        have h2 := ha.2.2 rfl
        exact .ite (fun _ => .bind (apeWith_fine ..) fun t ht => ih' _ _ (by omega)) fun _ => ih' _ _ (by omega)
      · intro r _
        cases r with
        | none => exact .ok trivial
        | some x => exact .bind (junkTag_fine ..) fun _ _ => .ok trivial

theorem mpeg_fine (o : Opts) (ho : o.readProps = false) (f : Bytes) : Fine (Deep o f.length) (readMpeg o f) (fun _ => True) := by
  unfold readMpeg
  dsimp only
  refine .ite (fun _ => .err) fun _ => .bind (front_fine o f _ _ _ (by omega) (by omega)) fun a _ => .bind (tail_fine o f) fun t _ =>
    .bind (P := fun _ => True) ?_ fun b _ => .ite (fun h => absurd (ho.symm.trans h) Bool.false_ne_true) fun _ => .ok trivial
  unfold mpegEnd
  split
  · exact .ite (fun _ => .err) fun _ => .ok trivial
  · exact .ok trivial

/-! ## Monkey's Audio, WavPack, Musepack -/

theorem macLoop_fine (o : Opts) (f header : Bytes) : ∀ (n pos stream : Nat) (ape : Option Ape.Tag), f.length < n + pos → 0 < n →
    Fine D (macLoop o f header n pos stream ape) (fun a => a.2 = stream) := by
  intro n
  induction n with
  | zero => intro pos stream ape _ h; omega
  | succ n ih =>
    intro pos stream ape hn _
    unfold macLoop
    refine .ite (fun _ => .ok rfl) fun h1 => .ite (fun h2 => ?_) fun _ => .err
    have never : ∀ n pos stream ape a, macLoop o f header n pos stream ape = .ok a → False := by
      intro n
      induction n with
      | zero => intro _ _ _ _ h; cases h
      | succ n ih =>
        intro pos stream ape a h
        unfold macLoop at h
        rw [if_neg h1, if_pos h2] at h
        cases hr : readAt f pos 4 with
        | error e => rw [hr] at h; cases h
        | ok r =>
          rw [hr] at h
          change (if r ≠ ascii "AGEX" then _ else _) = _ at h
          split at h
          · cases h
          · cases hh : Ape.readHeader f (pos + 4) false with
            | error e => rw [hh] at h; cases h
            | ok x =>
              obtain ⟨hd, next⟩ := x
              rw [hh] at h
              change (checkedSub stream hd.size >>= _) = _ at h
              cases hs : checkedSub stream hd.size with
              | error e => rw [hs] at h; cases h
              | ok s =>
                rw [hs] at h
                change (if o.readTags = true then _ else _) = _ at h
                split at h
                · cases ht : readApeWith o f hd next with
                  | error e => rw [ht] at h; cases h
                  | ok t =>
                    rw [ht] at h
                    exact ih _ _ _ _ h
                · exact ih _ _ _ _ h
    refine .bind (readAt_fine ..) fun r hr => .ite (fun _ => .err) fun _ => .bind (apeHeader_fine ..) fun a ha => .bind (checkedSub_fine ..) fun s _ => ?_
    have h2 := ha.2.2 rfl
    refine .ite (fun _ => .bind (apeWith_fine ..) fun t ht => ?_) fun _ => ?_
    · exact ⟨(ih t.2 s (some t.1) (by omega) (by omega)).safe, fun a ha => (never _ _ _ _ _ ha).elim⟩
    · exact ⟨(ih a.2 s ape (by omega) (by omega)).safe, fun a ha => (never _ _ _ _ _ ha).elim⟩

/-- The size of an ID3v2 tag at the start of a file. -/
def leading (f : Bytes) : Nat :=
  match Id3v2.find f 0 true none with
  | .ok (some (h, _), _) => h.fullTagSize
  | _ => 0

theorem subU64_fine {a b : Nat} (h : b ≤ a) : Fine D (subU64 a b) (fun _ => True) := by
  unfold subU64
  exact .ite (fun h' => absurd h' (by omega)) fun _ => .ok trivial

theorem mac_fine (o : Opts) (ho : o.readTags = true) (f : Bytes)
    (hf : ∀ q n, q = f.length ∨ q + 128 = f.length → FooterAt f q n → leading f + n + 32 ≤ q) : Fine (Deep o f.length) (readMac o f) (fun _ => True) := by
  unfold readMac
  refine .bind (P := fun a => (∀ h c, a.1 = some (h, some c) → c.length ≤ f.length) ∧ Id3v2.find f 0 true none = .ok a) ?_ fun a ha => ?_
  · rw [ho]
    have h := find_fine (D := Deep o f.length) f 0 true none
    exact ⟨h.safe, fun a ha => ⟨h.gives a ha, ha⟩⟩
  refine .bind (P := fun s => s = f.length - leading f) ?_ fun s hs => .bind (contentOf_fine o f ha.1) fun v _ => .bind (readAt_fine ..) fun hd hl =>
    .bind (macLoop_fine o f hd _ _ _ _ (by omega) (by omega)) fun m hm => .bind (tail_fine o f) fun t ht => .bind (v1sub_fine ..) fun s' hs' => ?_
  · unfold withoutV2 leading
    rw [ha.2]
    obtain ⟨r, p⟩ := a
    cases r with
    | none => exact .ok rfl
    | some x => exact checkedSub_fine ..
  · split
    · rename_i h hh
      obtain ⟨q, n, h1, h2, h3⟩ := ht h hh
      refine .bind (subU64_fine ?_) fun _ _ => .ok trivial
      rcases h3 with ⟨h3, h4⟩ | ⟨h3, h4⟩
      · have := hf q n (.inl h4) h1
        rw [hs', hm, hs, h3]
        simp only [Bool.false_eq_true, if_false]
        omega
      · have := hf q n (.inr h4) h1
        rw [hs', hm, hs, h3]
        simp only [if_true]
        omega
    · exact .ok trivial

theorem wavPack_fine (o : Opts) (f : Bytes) (hf : ∀ q n, q = f.length ∨ q + 128 = f.length → FooterAt f q n → n + 32 ≤ q) :
    Fine D (readWavPack o f) (fun _ => True) := by
  unfold readWavPack
  refine .bind (tail_fine o f) fun t ht => .bind (v1sub_fine ..) fun s' hs' => ?_
  split
  · rename_i h hh
    obtain ⟨q, n, h1, h2, h3⟩ := ht h hh
    refine .bind (subU64_fine ?_) fun _ _ => .ok trivial
    rcases h3 with ⟨h3, h4⟩ | ⟨h3, h4⟩
    · have := hf q n (.inl h4) h1
      rw [hs', h3]
      simp only [Bool.false_eq_true, if_false]
      omega
    · have := hf q n (.inr h4) h1
      rw [hs', h3]
      simp only [if_true]
      omega
  · exact .ok trivial

theorem mpc_fine (o : Opts) (f : Bytes) : Fine (Deep o f.length) (readMpc o f) (fun _ => True) := by
  unfold readMpc
  refine .bind (find_fine ..) fun a ha => .bind (P := fun _ => True) ?_ fun s _ => .bind (contentOf_fine o f ha) fun v _ => .bind (tail_fine o f) fun t _ =>
    .bind (v1sub_fine ..) fun s' _ => .bind (P := fun _ => True) ?_ fun _ _ => .bind (readAt_fine ..) fun _ _ => .ok trivial
  · unfold withoutContent
    split
    · exact (checkedSub_fine ..).any
    · exact .ok trivial
  · split
    · exact .ite (fun _ => .err) fun _ => (checkedSub_fine ..).any
    · exact .ok trivial

/-! ## AAC -/

theorem aacNext_fine (f : Bytes) (pos : Nat) : Fine D (Aac.findNext f (f.length + 1) pos) (fun _ => True) := by
  rcases Aac.findNext_spec f (f.length + 1) pos (by omega) (by omega) with h | h | h | ⟨_, _, _, _, h⟩
  · rw [h]; exact .err
  · rw [h]; exact .err
  · rw [h]; exact .ok trivial
  · rw [h]; exact .ok trivial

theorem aacFront_fine (o : Opts) (f : Bytes) : ∀ (n pos stream : Nat) (tag : Option Id3Tag), f.length < n + pos → 0 < n →
    Fine (Deep o f.length) (aacFront o f n pos stream tag) (fun _ => True) := by
  intro n
  induction n with
  | zero => intro pos stream tag _ h; omega
  | succ n ih =>
    intro pos stream tag hn _
    unfold aacFront
    have h4 := readAt_fine (D := Deep o f.length) f pos 4
    revert h4
    cases readAt f pos 4 with
    | error e => intro _; exact .ok trivial
    | ok b =>
      intro h4
      have hlen := (h4.gives b rfl).2
      have ih' : ∀ q s t, pos + 10 ≤ q → Fine (Deep o f.length) (aacFront o f n q s t) (fun _ => True) := fun q s t hq => ih q s t (by omega) (by omega)
      dsimp only
      refine .ite (fun _ => ?_) fun _ => .bind (aacNext_fine f pos) fun _ _ => .ok trivial
      have h := header_fine f pos
      revert h
      cases Id3v2.parseHeader f pos with
      | error e => intro h; exact .err (h.safe e rfl)
      | ok a =>
        obtain ⟨h, p⟩ := a
        intro hh
        have hp : pos + 10 ≤ p := hh.gives _ rfl
        dsimp only
        refine .bind (checkedSub_fine ..) fun s _ => .ite (fun _ => .bind (parseId3_fine o h (by rw [List.length_drop]; omega)) fun t _ => ?_) fun _ => ?_
        · split
          · exact ih' _ _ _ (by omega)
          · exact .ite (fun _ => .bind (checkedSub_fine ..) fun _ _ => ih' _ _ _ (by omega)) fun _ => ih' _ _ _ (by omega)
        · exact .ite (fun _ => .bind (checkedSub_fine ..) fun _ _ => ih' _ _ _ (by omega)) fun _ => ih' _ _ _ (by omega)

theorem aac_fine (o : Opts) (ho : o.readProps = false) (f : Bytes) : Fine (Deep o f.length) (readAac o f) (fun _ => True) := by
  unfold readAac
  dsimp only
  refine .ite (fun _ => .err) fun _ => .bind (aacFront_fine o f _ _ _ _ (by omega) (by omega)) fun a _ => .bind (v1_fine ..) fun t _ =>
    .bind (P := fun _ => True) ?_ fun b _ => .ite (fun h => absurd (ho.symm.trans h) Bool.false_ne_true) fun _ => .ok trivial
  exact .ite (fun _ => (checkedSub_fine ..).any) fun _ => .ok trivial

end Lofty.Safe
