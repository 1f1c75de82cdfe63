import Verif.Spec.Storage
import Verif.Lemmas.File
import Verif.Lemmas.FlacMove
import Verif.Lemmas.Bytes
import Verif.Props.FlacMove
import Verif.Props.OggWrite
import Verif.Lemmas.Paths
/-!
# Lemmas about the files that saves leave behind
-/
namespace Lofty.Storage
open Item Save

theorem contents_bind {α : Type} (k : Bytes → Store α) (cap : Nat) (f : Bytes) : (contents >>= k) cap f = k f cap f := rfl

theorem check_ok {α β : Type} (a : α) (k : α → Store β) (cap : Nat) (f : Bytes) :
    (check (.ok a) >>= k) cap f = k a cap f := rfl

theorem check_error {α β : Type} (e : Err) (k : α → Store β) (cap : Nat) (f : Bytes) :
    (check (.error e) >>= k) cap f = (.error (.lib e), f) := rfl

theorem bind_ran {α β : Type} {x : Store α} {k : α → Store β} {cap : Nat} {f g : Bytes} {a : α} (h : x cap f = (.ok a, g)) :
    (x >>= k) cap f = k a cap g := by
  show (match x cap f with
    | (.ok a, g) => k a cap g
    | (.error e, g) => (.error e, g)) = _
  rw [h]

theorem bind_failed {α β : Type} {x : Store α} {k : α → Store β} {cap : Nat} {f g : Bytes} {e : Failure}
    (h : x cap f = (.error e, g)) : (x >>= k) cap f = (.error e, g) := by
  show (match x cap f with
    | (.ok a, g) => k a cap g
    | (.error e, g) => (.error e, g)) = _
  rw [h]

theorem put_fits {p : Nat} {w f : Bytes} {cap : Nat} (h : (writeAt f p w).length ≤ cap) :
    put p w cap f = (.ok (), writeAt f p w) := if_pos h

theorem put_full {p : Nat} {w f : Bytes} {cap : Nat} (h : ¬ (writeAt f p w).length ≤ cap) :
    put p w cap f = (.error .full, (writeAt f p w).take cap) := if_neg h

theorem check_onto {α : Type} {x : Except Err α} {k : α → Store Unit} {y : α → Except Err Bytes} {cap : Nat} {f : Bytes}
    (h : ∀ a, x = .ok a → k a cap f = onto cap f (y a)) : (check x >>= k) cap f = onto cap f (x >>= y) := by
  cases x with
  | error e => rfl
  | ok a => exact h a rfl

theorem check_inPlace {α : Type} {x : Except Err α} {k : α → Store Unit} {y : α → Except Err Bytes} {cap : Nat} {f : Bytes}
    (h : ∀ a, x = .ok a → k a cap f = inPlace cap f (y a)) : (check x >>= k) cap f = inPlace cap f (x >>= y) := by
  cases x with
  | error e => rfl
  | ok a => exact h a rfl

theorem writeAt_zero_nil (w : Bytes) : writeAt [] 0 w = w := by simp [writeAt]

theorem replaceFile_eq (g : Bytes) (cap : Nat) (f : Bytes) : replaceFile g cap f = onto cap f (.ok g) := by
  show put 0 g cap (truncate f 0) = _
  unfold put onto
  rw [show truncate f 0 = [] from rfl, writeAt_zero_nil]

theorem check_replace (x : Except Err Bytes) (cap : Nat) (f : Bytes) :
    (check x >>= replaceFile) cap f = onto cap f x := by
  cases x with
  | error e => rfl
  | ok g => exact replaceFile_eq g cap f

theorem put_eq (p : Nat) (w : Bytes) (cap : Nat) (f : Bytes) : put p w cap f = onto cap f (.ok (writeAt f p w)) := rfl

theorem onto_fits {cap : Nat} {f g : Bytes} (h : g.length ≤ cap) : onto cap f (.ok g) = (.ok (), g) := if_pos h

theorem check_err_onto (e : Err) (cap : Nat) (f : Bytes) : (check (.error e) : Store Unit) cap f = onto cap f (.error e) := rfl

/-! ## The writers that replace the file -/

theorem writeApe_eq (t : Ape.Tag) (cap : Nat) (f : Bytes) : writeApe t cap f = onto cap f (Ape.writeTo {} f t) := by
  unfold writeApe Ape.writeTo
  rw [contents_bind]
  exact check_onto fun e _ => check_onto fun new _ => check_replace _ cap f

theorem writeId3v1_eq (lossy : Bool) (t : Id3v1.Tag) {cap : Nat} {f : Bytes} (h : f.length ≤ cap) :
    writeId3v1 lossy t cap f = onto cap f (Id3v1.write lossy f t) := by
  unfold writeId3v1 Id3v1.write
  rw [contents_bind]
  refine check_onto fun x _ => ?_
  obtain ⟨found, y, pos⟩ := x
  simp only
  by_cases he : (t.isEmpty && found) = true
  · rw [if_pos he, if_pos he, onto_fits (by simp only [truncate, List.length_take]; omega)]
    rfl
  · rw [if_neg he, if_neg he]
    exact check_onto fun b _ => put_eq pos b cap f

theorem writeFront_eq (o : Options) (fl : Id3v2.Flags) (fs : List Id3v2.Frame) (cap : Nat) (f : Bytes) :
    writeFront o fl fs cap f = onto cap f (FileTags.saveId3v2 fl o.frames o.padding o.junk fs f) := by
  unfold writeFront FileTags.saveId3v2
  exact check_onto (x := encodeId3v2 fl o.frames o.padding fs) fun new _ => check_replace _ cap f

theorem writeInfo_eq (strict : Bool) (t : List Iff.Item) (cap : Nat) (f : Bytes) :
    writeInfo strict t cap f = onto cap f (Iff.writeInfo strict f t) := check_replace _ cap f

theorem writeAiff_eq (strict : Bool) (t : Iff.Aiff) (cap : Nat) (f : Bytes) :
    writeAiff strict t cap f = onto cap f (Iff.writeAiff strict f t) := check_replace _ cap f

/-! ## FLAC files -/

theorem extend_eq (B : Nat) (hB : 0 < B) (n cap : Nat) (f : Bytes) (h : f.length ≤ cap) :
    extend B hB n cap f = if f.length + n ≤ cap then (.ok (), f ++ List.replicate n 0)
      else (.error .full, f ++ List.replicate (cap - f.length) 0) := by
  induction n using Nat.strongRecOn generalizing f with
  | ind n ih =>
    unfold extend
    by_cases h0 : n = 0
    · subst h0
      rw [dif_pos rfl, if_pos (by omega)]
      simp only [List.replicate_zero, List.append_nil]
      rfl
    · rw [dif_neg h0, contents_bind]
      have hm : 0 < min n B := by omega
      have hw := writeAt_end f (List.replicate (min n B) 0)
      by_cases h1 : f.length + min n B ≤ cap
      · rw [bind_ran (put_fits (by rw [hw]; simpa using h1)), hw, ih _ (by omega) _ (by simpa using h1)]
        simp only [List.length_append, List.length_replicate, List.append_assoc, List.replicate_append_replicate]
        rw [show f.length + min n B + (n - min n B) = f.length + n by omega, show min n B + (n - min n B) = n by omega,
          show min n B + (cap - (f.length + min n B)) = cap - f.length by omega]
      · rw [bind_failed (put_full (by rw [hw]; simpa using h1)), hw, if_neg (by omega)]
        rw [List.take_append, List.take_of_length_le h, List.take_replicate, show min (cap - f.length) (min n B) = cap - f.length by omega]

theorem shiftRight_run (B : Nat) (hB : 0 < B) (start cursor amount cap : Nat) (f : Bytes) (hc : f.length ≤ cap)
    (h : start ≤ cursor) (hl : cursor + amount ≤ f.length) :
    shiftRight B hB start cursor amount cap f
      = (.ok (), writeAt f (start + amount) ((f.drop start).take (cursor - start))) := by
  have key : ∀ n f cursor, cursor - start = n → f.length ≤ cap → start ≤ cursor → cursor + amount ≤ f.length →
      ∃ g, Flac.shiftRight B hB f start cursor amount = .ok g ∧ shiftRight B hB start cursor amount cap f = (.ok (), g) := by
    intro n
    induction n using Nat.strongRecOn with
    | ind n ih =>
      intro f cursor hn hc h hl
      unfold shiftRight Flac.shiftRight
      by_cases hs : cursor > start
      · rw [dif_pos hs, dif_pos hs, contents_bind]
        simp only
        have hr : readAt f (cursor - min (cursor - start) B) (min (cursor - start) B)
            = .ok ((f.drop (cursor - min (cursor - start) B)).take (min (cursor - start) B)) := if_pos (by omega)
        rw [hr, check_ok]
        generalize hb : (f.drop (cursor - min (cursor - start) B)).take (min (cursor - start) B) = buf
        have hbl : buf.length = min (cursor - start) B := by rw [← hb]; simp; omega
        have hw := writeAt_length (f := f) (w := buf) (p := cursor - min (cursor - start) B + amount) (by omega)
        rw [bind_ran (put_fits (by omega))]
        simp only
        exact ih _ (by omega) _ _ rfl (by omega) (by omega) (by omega)
      · rw [dif_neg hs, dif_neg hs]
        exact ⟨f, rfl, rfl⟩
  obtain ⟨g, h1, h2⟩ := key _ f cursor rfl hc h hl
  rw [Flac.shiftRight_eq B hB f start cursor amount h hl] at h1
  rw [h2, (Except.ok.injEq _ _).mp h1]

theorem shiftLeft_run (B : Nat) (hB : 0 < B) (cursor stop amount cap : Nat) (f : Bytes) (hc : f.length ≤ cap)
    (h : cursor ≤ stop) (hl : stop ≤ f.length) (ha : amount ≤ cursor) :
    shiftLeft B hB cursor stop amount cap f
      = (.ok (), writeAt f (cursor - amount) ((f.drop cursor).take (stop - cursor))) := by
  have key : ∀ n f cursor, stop - cursor = n → f.length ≤ cap → cursor ≤ stop → stop ≤ f.length → amount ≤ cursor →
      ∃ g, Flac.shiftLeft B hB f cursor stop amount = .ok g ∧ shiftLeft B hB cursor stop amount cap f = (.ok (), g) := by
    intro n
    induction n using Nat.strongRecOn with
    | ind n ih =>
      intro f cursor hn hc h hl ha
      unfold shiftLeft Flac.shiftLeft
      by_cases hs : cursor < stop
      · rw [dif_pos hs, dif_pos hs, contents_bind]
        simp only
        have hr : readAt f cursor (min (stop - cursor) B) = .ok ((f.drop cursor).take (min (stop - cursor) B)) := if_pos (by omega)
        rw [hr, check_ok]
        generalize hb : (f.drop cursor).take (min (stop - cursor) B) = buf
        have hbl : buf.length = min (stop - cursor) B := by rw [← hb]; simp; omega
        have hw := writeAt_length (f := f) (w := buf) (p := cursor - amount) (by omega)
        rw [bind_ran (put_fits (by omega))]
        simp only
        exact ih _ (by omega) _ _ rfl (by omega) (by omega) (by omega) (by omega)
      · rw [dif_neg hs, dif_neg hs]
        exact ⟨f, rfl, rfl⟩
  obtain ⟨g, h1, h2⟩ := key _ f cursor rfl hc h hl ha
  rw [Flac.shiftLeft_eq B hB f cursor stop amount h hl ha] at h1
  rw [h2, (Except.ok.injEq _ _).mp h1]

theorem replaceRange_run (B : Nat) (hB : 0 < B) (start stop : Nat) (new : Bytes) {cap : Nat} {f : Bytes} (hc : f.length ≤ cap) :
    replaceRange B hB start stop new cap f = inPlace cap f (Flac.replaceRange B hB f start stop new) := by
  unfold replaceRange
  rw [contents_bind]
  by_cases h1 : start > stop
  · rw [if_pos h1, Flac.replaceRange_invalid B hB f start stop new (.inl h1)]
    rfl
  rw [if_neg h1]
  by_cases h2 : stop > f.length
  · rw [if_pos h2, Flac.replaceRange_invalid B hB f start stop new (.inr h2)]
    rfl
  rw [if_neg h2]
  have hfin := Flac.replaceRange_splice B hB f start stop new (by omega) (by omega)
  have hlen : (f.take start ++ new ++ f.drop stop).length = start + new.length + (f.length - stop) := by simp; omega
  rw [hfin]
  unfold Flac.replaceRange at hfin
  rw [if_neg h1, if_neg h2] at hfin
  simp only at hfin
  by_cases h3 : new.length > stop - start
  · rw [if_pos h3] at hfin ⊢
    have hx := extend_eq B hB (new.length - (stop - start)) cap f hc
    by_cases h4 : f.length + (new.length - (stop - start)) ≤ cap
    · rw [if_pos h4] at hx
      rw [Flac.extendStorage_eq, Flac.shiftRight_eq _ _ _ _ _ _ (by omega) (by simp)] at hfin
      rw [bind_ran hx, bind_ran (shiftRight_run B hB _ _ _ cap _ (by simpa using h4) (by omega) (by simp))]
      simp only at hfin ⊢
      rw [put_eq, (Except.ok.injEq _ _).mp hfin]
      unfold onto inPlace
      simp only
      rw [if_pos (by omega), if_pos (by omega)]
    · rw [if_neg h4] at hx
      rw [bind_failed hx]
      unfold inPlace
      simp only
      rw [if_neg (by omega)]
  · rw [if_neg h3] at hfin ⊢
    have hle : start + new.length + (f.length - stop) ≤ cap := by omega
    by_cases h5 : new.length < stop - start
    · rw [if_pos h5] at hfin ⊢
      rw [Flac.shiftLeft_eq _ _ _ _ _ _ (by omega) (by omega) (by omega)] at hfin
      rw [bind_ran (shiftLeft_run B hB _ _ _ cap _ hc (by omega) (by omega) (by omega)), bind_ran (x := cut _) rfl]
      simp only at hfin ⊢
      rw [put_eq, (Except.ok.injEq _ _).mp hfin]
      unfold onto inPlace
      simp only
      rw [if_pos (by omega), if_pos (by omega)]
    · rw [if_neg h5] at hfin ⊢
      show put start new cap f = _
      simp only at hfin
      rw [put_eq, (Except.ok.injEq _ _).mp hfin]
      unfold onto inPlace
      simp only
      rw [if_pos (by omega), if_pos (by omega)]

theorem writeFlac_eq (t : Vorbis.Tag) (preferred : Option Nat) {cap : Nat} {f : Bytes} (hc : f.length ≤ cap) :
    writeFlac t preferred cap f = inPlace cap f (Flac.writeTo f t preferred) := by
  unfold writeFlac Flac.writeTo
  rw [contents_bind]
  refine check_inPlace fun x _ => ?_
  obtain ⟨y, pos⟩ := x
  refine check_inPlace fun si _ => check_inPlace fun s _ => ?_
  by_cases h : (!s.remove && t.items.isEmpty && t.pictures.isEmpty) = true
  · rw [if_pos h, if_pos h]
    show (_, f) = _
    unfold inPlace
    simp only
    rw [if_pos hc]
  · rw [if_neg h, if_neg h]
    exact check_inPlace fun new _ => check_inPlace fun out _ => replaceRange_run _ _ _ _ _ hc

/-! ## MP4 files -/

theorem writeMp4_eq (o : Options) (t : Ilst.Tag) {cap : Nat} {f : Bytes} (hc : f.length ≤ cap) :
    writeMp4 o t cap f = onto cap f (Mp4Write.writeTo f t o.mode o.padding) := by
  unfold writeMp4
  rw [contents_bind]
  cases h : Mp4Write.writeTo f t o.mode o.padding with
  | error e => rfl
  | ok g =>
    rw [check_ok]
    by_cases hq : (t.isEmpty && Paths.mp4Quiet o f) = true
    · rw [if_pos hq]
      rw [Bool.and_eq_true] at hq
      obtain rfl : t = [] := List.isEmpty_iff.mp hq.1
      obtain rfl := Paths.mp4_quiet hq.2 h
      rw [onto_fits hc]
      rfl
    · rw [if_neg hq]
      exact replaceFile_eq g cap f

/-! ## OGG files -/

theorem take_take_append {a b : Bytes} {n : Nat} (h : n ≤ a.length) : (a ++ b).take n = a.take n := by
  rw [List.take_append, Nat.sub_eq_zero_of_le h, List.take_zero, List.append_nil]

/-- `put` at the end of the file, followed by something that adds to the file. -/
theorem put_more {cap : Nat} {g b out : Bytes} {k : Store Unit}
    (h : (g ++ b).length ≤ cap → k cap (g ++ b) = onto cap [] (.ok (g ++ b ++ out))) :
    (do put g.length b; k) cap g = onto cap [] (.ok (g ++ (b ++ out))) := by
  by_cases hl : (g ++ b).length ≤ cap
  · rw [bind_ran (put_fits (by rw [writeAt_end]; exact hl)), writeAt_end, h hl, List.append_assoc]
  · rw [bind_failed (put_full (by rw [writeAt_end]; exact hl)), writeAt_end]
    unfold onto
    simp only
    rw [if_neg (by rw [← List.append_assoc, List.length_append]; omega), ← List.append_assoc, take_take_append (a := g ++ b) (b := out) (by omega)]

theorem sendAll_eq (bs : List Bytes) (cap : Nat) (g : Bytes) (hg : g.length ≤ cap) :
    sendAll bs cap g = onto cap [] (.ok (g ++ bs.flatten)) := by
  induction bs generalizing g with
  | nil =>
    rw [sendAll, List.flatten_nil, List.append_nil, onto_fits hg]
    rfl
  | cons b bs ih =>
    rw [sendAll, contents_bind, List.flatten_cons]
    exact put_more fun hl => ih _ hl

theorem renumber_run : ∀ (fuel s : Nat) (d out : Bytes), OggWrite.renumber fuel s d = .ok out → ∀ (cap : Nat) (g : Bytes),
    g.length ≤ cap → renumber fuel s d cap g = onto cap [] (.ok (g ++ out))
  | 0, s, d, out, h, cap, g, hg => by cases h
  | fuel + 1, s, d, out, h, cap, g, hg => by
    rw [OggWrite.renumber] at h
    rw [renumber]
    cases hr : Ogg.Page.read 0 d with
    | error e =>
      rw [hr] at h
      obtain rfl := (Except.ok.injEq _ _).mp h
      rw [List.append_nil, onto_fits hg]
      rfl
    | ok x =>
      obtain ⟨p, d'⟩ := x
      rw [hr] at h
      simp only at h ⊢
      by_cases hs : 2 ^ 32 ≤ s
      · rw [if_pos hs] at h
        cases h
      · rw [if_neg hs] at h ⊢
        obtain ⟨out', h1, h⟩ := bind_ok h
        obtain rfl := (Except.ok.injEq _ _).mp h
        rw [contents_bind]
        exact put_more fun hl => renumber_run fuel (s + 1) d' out' h1 cap _ hl

theorem onto_base {cap : Nat} {f f' g : Bytes} : onto cap f (.ok g) = onto cap f' (.ok g) := rfl

theorem renumber_fails : ∀ (fuel s : Nat) (d : Bytes), OggWrite.renumber fuel s d = .error .panic → ∀ (cap : Nat) (g : Bytes),
    (renumber fuel s d cap g).1 = .error (.lib .panic) ∨ (renumber fuel s d cap g).1 = .error .full
  | 0, s, d, h, cap, g => by cases h
  | fuel + 1, s, d, h, cap, g => by
    rw [OggWrite.renumber] at h
    rw [renumber]
    cases hr : Ogg.Page.read 0 d with
    | error e => rw [hr] at h; cases h
    | ok x =>
      obtain ⟨p, d'⟩ := x
      rw [hr] at h
      simp only at h ⊢
      by_cases hs : 2 ^ 32 ≤ s
      · rw [if_pos hs]
        exact .inl rfl
      · rw [if_neg hs] at h ⊢
        rw [contents_bind]
        generalize ({ p with header := { p.header with seq := s } } : Ogg.Page).genCrc.asBytes = b at h ⊢
        cases h1 : OggWrite.renumber fuel (s + 1) d' with
        | ok out => rw [h1] at h; cases h
        | error e =>
          rw [h1] at h
          obtain rfl := (Except.error.injEq _ _).mp h
          by_cases hl : (g ++ b).length ≤ cap
          · rw [bind_ran (put_fits (by rw [writeAt_end]; exact hl))]
            exact renumber_fails fuel (s + 1) d' h1 cap _
          · rw [bind_failed (put_full (by rw [writeAt_end]; exact hl))]
            exact .inr rfl

open Lofty.Ogg Lofty.OggProps Lofty.OggWrite in
/-- Saving comments replaces the file, except for more than 2 ^ 32 pages. -/
theorem writeOgg_eq (fmt : OggWrite.Format) (t : Vorbis.Tag) (cap : Nat) (f : Bytes) :
    writeOgg fmt t cap f = onto cap f (OggWrite.write fmt t f) ∨
    (OggWrite.write fmt t f = .error .panic ∧
      ((writeOgg fmt t cap f).1 = .error (.lib .panic) ∨ (writeOgg fmt t cap f).1 = .error .full)) := by
  unfold writeOgg OggWrite.write
  rw [contents_bind]
  cases hf : PageHeader.read 0 f with
  | error e => exact .inl rfl
  | ok x =>
    obtain ⟨first, d1⟩ := x
    rw [check_ok, ok_bind]
    simp only
    cases hr : Packets.readCount f fmt.count with
    | error e => exact .inl rfl
    | ok x =>
      obtain ⟨p, rest⟩ := x
      rw [check_ok, ok_bind]
      simp only
      obtain ⟨r, s1, s2, s3, s4⟩ := readCount_sound (by have := two_le fmt; omega) hr
      obtain ⟨ps, hps⟩ := holds_exists p s3
      have hpl : ps.length = fmt.count := by rw [← s4, hps.1, List.length_map]
      obtain ⟨ident, comment, others, rfl⟩ := two_packets (l := ps) (by rw [hpl]; exact two_le fmt)
      subst s1
      rw [show p.get 1 = .ok (some comment) from get_holds p _ hps 1, check_ok, ok_bind]
      simp only
      by_cases hsig : hasSignature comment fmt.sig = false
      · rw [if_pos hsig, if_pos hsig]
        exact .inl rfl
      · rw [if_neg hsig, if_neg hsig]
        cases hv : oldVendor (comment.drop fmt.sig.length) with
        | error e => exact .inl rfl
        | ok v =>
          rw [check_ok, ok_bind]
          cases hp : Vorbis.createPacket { t with vendor := v } fmt.sig fmt.framing with
          | error e => exact .inl rfl
          | ok new =>
            rw [check_ok, ok_bind]
            obtain ⟨p', q1, q2, _⟩ := set_holds p _ hps 1 new
            rw [q1, check_ok, ok_bind]
            simp only
            rw [bind_ran (x := cut 0) rfl, show truncate f 0 = [] from rfl]
            have hpg : p'.paginate first.serial 0 firstPageFlag
                = .ok (pagesOf (ident :: new :: others) first.serial 0 firstPageFlag) := by
              unfold Packets.paginate
              rw [iter_holds p' _ q2, ok_bind]
              exact paginate_eq _ _ _ _
            unfold Packets.writeTo
            rw [hpg, check_ok, ok_bind, ok_bind]
            simp only
            generalize pagesOf (ident :: new :: others) first.serial 0 firstPageFlag = pages
            generalize hb : (pages.map fun q => q.genCrc.asBytes) = bs
            have hsend := sendAll_eq bs cap [] (Nat.zero_le _)
            rw [List.nil_append] at hsend
            obtain ⟨qs, junk, hq⟩ := paged_exists _ r (Nat.le_refl _)
            have hren := renumber_eq qs r junk (r.length + 1) (pages.length % 2 ^ 32) hq (by omega)
            generalize hw : OggWrite.renumber (r.length + 1) (pages.length % 2 ^ 32) r = w at hren ⊢
            by_cases hl : bs.flatten.length ≤ cap
            · rw [onto_fits hl] at hsend
              rw [bind_ran hsend]
              cases w with
              | ok out =>
                left
                rw [ok_bind, renumber_run _ _ _ _ hw cap _ hl]
                rfl
              | error e =>
                right
                obtain rfl : e = .panic := by
                  split at hren
                  · cases hren
                  · exact (Except.error.injEq _ _).mp hren
                exact ⟨rfl, renumber_fails _ _ _ hw cap _⟩
            · have hsend : sendAll bs cap [] = (.error .full, bs.flatten.take cap) := by
                rw [hsend]
                exact if_neg hl
              rw [bind_failed hsend]
              cases w with
              | ok out =>
                left
                rw [ok_bind]
                unfold onto
                simp only
                rw [if_neg (by rw [List.length_append]; omega), take_take_append (by omega)]
              | error e =>
                right
                obtain rfl : e = .panic := by
                  split at hren
                  · cases hren
                  · exact (Except.error.injEq _ _).mp hren
                exact ⟨rfl, .inr rfl⟩

/-! ## ID3v2 tags of WAV and AIFF files -/

theorem length_writeAt (f : Bytes) (p : Nat) (w : Bytes) : (writeAt f p w).length = max f.length (p + w.length) := by
  unfold writeAt
  simp only [List.length_append, List.length_take, List.length_replicate, List.length_drop]
  omega

theorem u32_length (be : Bool) (n : Nat) : (IffFiles.u32 be n).length = 4 := by
  unfold IffFiles.u32
  split <;> simp

theorem tagChunk_length (be upper : Bool) (tag : Bytes) (h : tag.isEmpty = false) :
    (IffFiles.tagChunk be upper tag).length = IffFiles.tagChunkSize tag := by
  unfold IffFiles.tagChunk IffFiles.tagChunkSize
  rw [h]
  have h1 : (if upper then ascii "ID3 " else ascii "id3 ").length = 4 := by split <;> rfl
  simp only [List.length_append, h1, u32_length]
  split <;> simp <;> omega

theorem putStream_run (be : Bool) (len cap : Nat) (g : Bytes) :
    putStream be len cap g = match IffFiles.setStream be g len with
      | .error e => (.error (.lib e), g)
      | .ok h => onto cap g (.ok h) := by
  unfold putStream IffFiles.setStream
  by_cases h : len % 2 ^ 32 < 8
  · rw [if_pos h, if_pos h]
    rfl
  · rw [if_neg h, if_neg h]
    rfl

theorem setStream_error {be : Bool} {g : Bytes} {len : Nat} {e : Err} (h : IffFiles.setStream be g len = .error e) : e = .panic := by
  unfold IffFiles.setStream at h
  split at h
  · exact ((Except.error.injEq _ _).mp h).symm
  · cases h

theorem setStream_length {be : Bool} {g h : Bytes} {len : Nat} (hs : IffFiles.setStream be g len = .ok h) : g.length ≤ h.length := by
  unfold IffFiles.setStream at hs
  split at hs
  · cases hs
  · rw [← (Except.ok.injEq _ _).mp hs, length_writeAt]
    omega

/-- What becomes of the tag at the end of the file: if there is space it is what `Save` says, and the only error of the library is
a panic. -/
theorem overwriteLast_run (be upper : Bool) (tag : Bytes) (stream a b cap : Nat) (f : Bytes) (hb : b = f.length) (hc : f.length ≤ cap) :
    (∀ g, IffFiles.overwriteLast be upper f tag stream a b = .ok g → g.length ≤ cap →
      overwriteLast be upper tag stream a b cap f = (.ok (), g)) ∧
    (∀ g, overwriteLast be upper tag stream a b cap f = (.ok (), g) →
      IffFiles.overwriteLast be upper f tag stream a b = .ok g ∧ g.length ≤ cap) ∧
    (∀ e g, overwriteLast be upper tag stream a b cap f = (.error (.lib e), g) →
      e = .panic ∧ IffFiles.overwriteLast be upper f tag stream a b = .error .panic) := by
  have last : ∀ len h, h.length ≤ cap →
      (∀ g, IffFiles.setStream be h len = .ok g → g.length ≤ cap → putStream be len cap h = (.ok (), g)) ∧
      (∀ g, putStream be len cap h = (.ok (), g) → IffFiles.setStream be h len = .ok g ∧ g.length ≤ cap) ∧
      (∀ e g, putStream be len cap h = (.error (.lib e), g) → e = .panic ∧ IffFiles.setStream be h len = .error .panic) := by
    intro len h hh
    rw [putStream_run]
    cases hs : IffFiles.setStream be h len with
    | error e =>
      have he := setStream_error hs
      subst he
      refine ⟨fun g hg => (nomatch hg), fun g hg => by simp at hg, fun e g hg => ?_⟩
      simp only [Prod.mk.injEq, Except.error.injEq, Failure.lib.injEq] at hg
      exact ⟨hg.1.symm, rfl⟩
    | ok k =>
      simp only
      refine ⟨fun g hg hl => ?_, fun g hg => ?_, fun e g hg => ?_⟩
      · obtain rfl := (Except.ok.injEq _ _).mp hg
        exact onto_fits hl
      · by_cases hk : k.length ≤ cap
        · rw [onto_fits hk, Prod.mk.injEq] at hg
          rw [← hg.2]
          exact ⟨rfl, hk⟩
        · unfold onto at hg
          simp only at hg
          rw [if_neg hk] at hg
          simp at hg
      · by_cases hk : k.length ≤ cap
        · rw [onto_fits hk] at hg
          simp at hg
        · unfold onto at hg
          simp only at hg
          rw [if_neg hk] at hg
          simp at hg
  have bad : ∀ (x : Except Failure Unit × Bytes), x = (.error (.lib .panic), f) ∨ (∃ g, x = (.error (.lib .panic), g)) →
      (∀ g, (Except.error Err.panic : Except Err Bytes) = .ok g → g.length ≤ cap → x = (.ok (), g)) ∧
      (∀ g, x = (.ok (), g) → (Except.error Err.panic : Except Err Bytes) = .ok g ∧ g.length ≤ cap) ∧
      (∀ e g, x = (.error (.lib e), g) → e = .panic ∧ (Except.error Err.panic : Except Err Bytes) = .error .panic) := by
    intro x hx
    obtain ⟨g, rfl⟩ : ∃ g, x = (.error (.lib .panic), g) := by
      rcases hx with h | h
      · exact ⟨f, h⟩
      · exact h
    refine ⟨fun g hg => (nomatch hg), fun g hg => by simp at hg, fun e g hg => ?_⟩
    simp only [Prod.mk.injEq, Except.error.injEq, Failure.lib.injEq] at hg
    exact ⟨hg.1.symm, rfl⟩
  unfold overwriteLast IffFiles.overwriteLast
  by_cases ht : tag.isEmpty = true
  · rw [if_pos ht, if_pos ht]
    by_cases h1 : stream < b - a
    · rw [if_pos h1, if_pos h1]
      exact bad _ (.inl rfl)
    · rw [if_neg h1, if_neg h1, bind_ran (x := cut a) rfl]
      exact last _ _ (by simp only [truncate, List.length_take]; omega)
  · rw [if_neg ht, if_neg ht]
    have hcl := tagChunk_length be upper tag (by simpa using ht)
    have hwl := length_writeAt f a (IffFiles.tagChunk be upper tag)
    rw [hcl] at hwl
    simp only
    by_cases h2 : b - a > IffFiles.tagChunkSize tag
    · rw [if_pos h2, bind_ran (put_fits (by omega)), if_pos h2]
      by_cases h3 : stream < b - a - IffFiles.tagChunkSize tag
      · rw [if_pos h3, if_pos h3]
        exact bad _ (.inr ⟨_, rfl⟩)
      · rw [if_neg h3, if_neg h3, bind_ran (x := cut _) rfl]
        exact last _ _ (by simp only [truncate, List.length_take]; omega)
    · rw [if_neg h2]
      by_cases hfit : (writeAt f a (IffFiles.tagChunk be upper tag)).length ≤ cap
      · rw [bind_ran (put_fits hfit), if_neg h2]
        by_cases h3 : stream < IffFiles.tagChunkSize tag - (b - a)
        · rw [if_pos h3, if_pos h3]
          exact bad _ (.inr ⟨_, rfl⟩)
        · rw [if_neg h3, if_neg h3]
          exact last _ _ hfit
      · rw [bind_failed (put_full hfit)]
        refine ⟨fun g hg hl => ?_, fun g hg => by simp at hg, fun e g hg => by simp at hg⟩
        by_cases h3 : stream < IffFiles.tagChunkSize tag - (b - a)
        · rw [if_pos h3] at hg
          cases hg
        · rw [if_neg h3] at hg
          have := setStream_length hg
          omega

/-- Whether the ID3v2 tag of a WAV or AIFF file is at its end. -/
theorem writeChunkFile_run (be isWav strict upper padded : Bool) (tag : Bytes) (cap : Nat) (f : Bytes) (hc : f.length ≤ cap) :
    (∀ g, IffFiles.writeChunkFile be isWav strict upper padded f tag = .ok g → g.length ≤ cap →
      writeChunkFile be isWav strict upper padded tag cap f = (.ok (), g)) ∧
    (∀ g, writeChunkFile be isWav strict upper padded tag cap f = (.ok (), g) →
      IffFiles.writeChunkFile be isWav strict upper padded f tag = .ok g ∧ g.length ≤ cap) ∧
    (∀ e g, writeChunkFile be isWav strict upper padded tag cap f = (.error (.lib e), g) →
      IffFiles.writeChunkFile be isWav strict upper padded f tag = .error e ∧ (e ≠ .panic → g = f)) := by
  have easy : ∀ (x : Except Failure Unit × Bytes) (r : Except Err Bytes), x = onto cap f r →
      (∀ g, r = .ok g → g.length ≤ cap → x = (.ok (), g)) ∧ (∀ g, x = (.ok (), g) → r = .ok g ∧ g.length ≤ cap) ∧
      (∀ e g, x = (.error (.lib e), g) → r = .error e ∧ (e ≠ .panic → g = f)) := by
    intro x r hx
    subst hx
    cases r with
    | error e =>
      refine ⟨fun g hg => (nomatch hg), fun g hg => by simp [onto] at hg, fun e' g hg => ?_⟩
      simp only [onto, Prod.mk.injEq, Except.error.injEq, Failure.lib.injEq] at hg
      exact ⟨by rw [hg.1], fun _ => hg.2.symm⟩
    | ok k =>
      by_cases hk : k.length ≤ cap
      · rw [onto_fits hk]
        refine ⟨fun g hg _ => by rw [(Except.ok.injEq _ _).mp hg], fun g hg => ?_, fun e g hg => by simp at hg⟩
        rw [Prod.mk.injEq] at hg
        rw [← hg.2]
        exact ⟨rfl, hk⟩
      · have : onto cap f (.ok k) = (.error .full, k.take cap) := if_neg hk
        rw [this]
        refine ⟨fun g hg hl => ?_, fun g hg => by simp at hg, fun e g hg => by simp at hg⟩
        rw [(Except.ok.injEq _ _).mp hg] at hk
        exact absurd hl hk
  unfold writeChunkFile IffFiles.writeChunkFile
  rw [contents_bind]
  cases hf : IffFiles.findId3 be strict f with
  | error e => exact easy _ _ rfl
  | ok x =>
    obtain ⟨stream, old⟩ := x
    rw [check_ok, ok_bind]
    simp only
    cases old with
    | none =>
      simp only
      by_cases ht : tag.isEmpty = true
      · rw [if_pos ht, if_pos ht]
        exact easy _ _ (onto_fits hc).symm
      · rw [if_neg ht, if_neg ht]
        exact easy _ _ (check_replace _ cap f)
    | some ab =>
      obtain ⟨a, b⟩ := ab
      simp only
      by_cases h1 : b = stream ∧ f.length = stream
      · rw [if_pos h1, if_pos h1]
        obtain ⟨q1, q2, q3⟩ := overwriteLast_run be upper tag stream a b cap f (by rw [h1.1, h1.2]) hc
        exact ⟨q1, q2, fun e g hg => ⟨by rw [(q3 e g hg).1]; exact (q3 e g hg).2, fun hn => absurd (q3 e g hg).1 hn⟩⟩
      rw [if_neg h1, if_neg h1]
      by_cases h2 : isWav = true ∧ padded = true ∧ tag.isEmpty = true
      · rw [if_pos h2, if_pos h2]
        exact easy _ _ rfl
      rw [if_neg h2, if_neg h2]
      by_cases h3 : isWav = true ∧ padded = true ∧ b - a < 8
      · rw [if_pos h3, if_pos h3]
        exact easy _ _ rfl
      rw [if_neg h3, if_neg h3]
      by_cases h4 : isWav = true ∧ padded = true ∧ b - a - 8 ≥ IffFiles.tagChunkSize tag
      · rw [if_pos h4, if_pos h4]
        exact easy _ _ rfl
      rw [if_neg h4, if_neg h4]
      exact easy _ _ (check_replace _ cap f)

/-! ## All tags -/

/-- What all writers have in common. -/
def Faithful (cap : Nat) (f : Bytes) (x : Except Failure Unit × Bytes) (r : Except Err Bytes) : Prop :=
  (∀ g, r = .ok g → g.length ≤ cap → x = (.ok (), g)) ∧ (∀ g, x = (.ok (), g) → r = .ok g ∧ g.length ≤ cap) ∧
    (∀ e g, x = (.error (.lib e), g) → r = .error e ∧ (e ≠ .panic → g = f))

theorem faithful_of {cap : Nat} {f : Bytes} {r : Except Err Bytes} {left : Bytes → Bytes} {x : Except Failure Unit × Bytes}
    (hx : x = match r with
      | .error e => (.error (.lib e), f)
      | .ok g => if g.length ≤ cap then (.ok (), g) else (.error .full, left g)) : Faithful cap f x r := by
  subst hx
  cases r with
  | error e =>
    refine ⟨fun g hg => (nomatch hg), fun g hg => by simp at hg, fun e' g hg => ?_⟩
    simp only [Prod.mk.injEq, Except.error.injEq, Failure.lib.injEq] at hg
    exact ⟨by rw [hg.1], fun _ => hg.2.symm⟩
  | ok k =>
    simp only
    by_cases hk : k.length ≤ cap
    · rw [if_pos hk]
      refine ⟨fun g hg _ => by rw [(Except.ok.injEq _ _).mp hg], fun g hg => ?_, fun e g hg => by simp at hg⟩
      rw [Prod.mk.injEq] at hg
      rw [← hg.2]
      exact ⟨rfl, hk⟩
    · rw [if_neg hk]
      refine ⟨fun g hg hl => ?_, fun g hg => by simp at hg, fun e g hg => by simp at hg⟩
      rw [(Except.ok.injEq _ _).mp hg] at hk
      exact absurd hl hk

theorem faithful_onto {cap : Nat} {f : Bytes} {r : Except Err Bytes} {x : Except Failure Unit × Bytes} (hx : x = onto cap f r) :
    Faithful cap f x r := faithful_of (left := fun g => g.take cap) (hx.trans (by cases r <;> rfl))

theorem faithful_inPlace {cap : Nat} {f : Bytes} {r : Except Err Bytes} {x : Except Failure Unit × Bytes} (hx : x = inPlace cap f r) :
    Faithful cap f x r := faithful_of (left := fun _ => f ++ List.replicate (cap - f.length) 0) (hx.trans (by cases r <;> rfl))

theorem faithful_ogg (fmt : OggWrite.Format) (t : Vorbis.Tag) (cap : Nat) (f : Bytes) :
    Faithful cap f (writeOgg fmt t cap f) (OggWrite.write fmt t f) := by
  rcases writeOgg_eq fmt t cap f with h | ⟨h1, h2⟩
  · exact faithful_onto h
  · rw [h1]
    refine ⟨fun g hg => (nomatch hg), fun g hg => ?_, fun e g hg => ?_⟩
    · rw [hg] at h2
      simp at h2
    · rw [hg] at h2
      simp only [Except.error.injEq, Failure.lib.injEq, reduceCtorEq, or_false] at h2
      exact ⟨by rw [h2], fun h => absurd h2 h⟩

theorem faithful_check {α : Type} {e : Except Err α} {k : α → Store Unit} {y : α → Except Err Bytes} {cap : Nat} {f : Bytes}
    (h : ∀ a, e = .ok a → Faithful cap f (k a cap f) (y a)) : Faithful cap f ((check e >>= k) cap f) (e >>= y) := by
  cases e with
  | error e => exact faithful_onto rfl
  | ok a => exact h a rfl

theorem write_faithful (o : Options) (ft : FileType) (x : Own) {cap : Nat} {f : Bytes} (hc : f.length ≤ cap) :
    Faithful cap f (write o ft x cap f) (x.write o ft f) := by
  cases x with
  | ape t => exact faithful_onto (writeApe_eq t cap f)
  | id3v1 t => exact faithful_onto (writeId3v1_eq o.lossy t hc)
  | id3v2 fl fs =>
    show Faithful cap f (writeId3v2 o ft fl fs cap f) (Save.writeId3v2 o ft fl fs f)
    unfold writeId3v2 Save.writeId3v2
    split
    · unfold IffFiles.saveId3
      exact faithful_check (e := encodeId3v2 _ _ _ fs) fun new _ => writeChunkFile_run _ _ _ _ _ new cap f hc
    · unfold IffFiles.saveId3
      exact faithful_check (e := encodeId3v2 _ _ _ fs) fun new _ => writeChunkFile_run _ _ _ _ _ new cap f hc
    · split
      · contradiction
      · contradiction
      · exact faithful_onto (writeFront_eq o fl fs cap f)
  | mp4Ilst t => exact faithful_onto (writeMp4_eq o t hc)
  | vorbisComments t =>
    show Faithful cap f (writeVorbis o ft t cap f) (Save.writeVorbis o ft t f)
    unfold writeVorbis Save.writeVorbis
    split
    · exact faithful_inPlace (writeFlac_eq t o.padding hc)
    · exact faithful_ogg .opus t cap f
    · exact faithful_ogg .vorbis t cap f
    · exact faithful_ogg .speex t cap f
    · split <;> first | contradiction | exact faithful_onto rfl
  | riffInfo t => exact faithful_onto (writeInfo_eq _ t cap f)
  | aiffText t => exact faithful_onto (writeAiff_eq _ t cap f)

theorem save_faithful (o : Options) (x : Own) {cap : Nat} {f : Bytes} (hc : f.length ≤ cap) :
    Faithful cap f (save o x cap f) (x.saveTo o f) := by
  unfold save Own.saveTo
  rw [contents_bind]
  cases hv : verified f with
  | error e => exact faithful_onto rfl
  | ok ft =>
    rw [check_ok]
    simp only
    by_cases h : (!(ft.tagSupport x.type).writable && !x.isEmpty) = true
    · rw [if_pos h, if_pos h]
      exact faithful_onto rfl
    · rw [if_neg h, if_neg h]
      exact write_faithful o ft x hc

/-- The writers that make the new file in memory and then write it. -/
theorem write_onto (o : Options) {ft : FileType} {x : Own} {cap : Nat} {f : Bytes} (hc : f.length ≤ cap)
    (h1 : x.type = .id3v2 → ft ≠ .wav ∧ ft ≠ .aiff) (h2 : x.type = .vorbisComments → ft ≠ .flac)
    (h3 : x.write o ft f ≠ .error .panic) : write o ft x cap f = onto cap f (x.write o ft f) := by
  cases x with
  | ape t => exact writeApe_eq t cap f
  | id3v1 t => exact writeId3v1_eq o.lossy t hc
  | id3v2 fl fs =>
    show writeId3v2 o ft fl fs cap f = onto cap f (Save.writeId3v2 o ft fl fs f)
    obtain ⟨n1, n2⟩ := h1 rfl
    unfold writeId3v2 Save.writeId3v2
    split
    · exact absurd rfl n1
    · exact absurd rfl n2
    · split <;> first | contradiction | exact writeFront_eq o fl fs cap f
  | mp4Ilst t => exact writeMp4_eq o t hc
  | vorbisComments t =>
    have n1 := h2 rfl
    have h3 : Save.writeVorbis o ft t f ≠ .error .panic := h3
    show writeVorbis o ft t cap f = onto cap f (Save.writeVorbis o ft t f)
    unfold writeVorbis
    unfold Save.writeVorbis at h3 ⊢
    split
    · exact absurd rfl n1
    · exact (writeOgg_eq .opus t cap f).resolve_right fun h => h3 h.1
    · exact (writeOgg_eq .vorbis t cap f).resolve_right fun h => h3 h.1
    · exact (writeOgg_eq .speex t cap f).resolve_right fun h => h3 h.1
    · split <;> first | contradiction | rfl
  | riffInfo t => exact writeInfo_eq _ t cap f
  | aiffText t => exact writeAiff_eq _ t cap f

end Lofty.Storage
