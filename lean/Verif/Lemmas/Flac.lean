import Verif.Model.Flac
import Verif.Spec.Flac
import Verif.Lemmas.Bytes
import Verif.Props.FlacMove
/-! Helper lemmas for FLAC metadata. -/
namespace Lofty

end Lofty

namespace Lofty.Flac
open Spec

theorem headerByte (ty : UInt8) (last : Bool) (h : ty < 128) :
    ((ty + if last then 128 else 0) &&& 0x7F) = ty ∧
    (((ty + if last then 128 else 0) &&& 0x80) != 0) = last ∧
    ((ty &&& 0x7F) ||| (if last then 0x80 else 0)) = ty + if last then 128 else 0 := by
  have tbl : ∀ (l : Bool) (i : Fin 256), UInt8.ofNat i.val < 128 →
      ((UInt8.ofNat i.val + if l then 128 else 0) &&& 0x7F) = UInt8.ofNat i.val ∧
      (((UInt8.ofNat i.val + if l then 128 else 0) &&& 0x80) != 0) = l ∧
      ((UInt8.ofNat i.val &&& 0x7F) ||| (if l then 0x80 else 0)) = UInt8.ofNat i.val + if l then 128 else 0 := by
    decide +kernel
  simpa using tbl last ⟨ty.toNat, ty.toNat_lt⟩ (by simpa using h)

theorem encodeOne_length (last : Bool) (b : MBlock) : (encodeOne last b).length = 4 + b.2.length := by
  simp [encodeOne]; omega

theorem encode_length (bs : List MBlock) : (encode bs).length = (bs.map fun b => 4 + b.2.length).sum := by
  induction bs with
  | nil => rfl
  | cons b bs ih =>
    cases bs with
    | nil => simp [encode, encodeOne_length]
    | cons c cs => simp only [encode, List.length_append, encodeOne_length, ih, List.map_cons, List.sum_cons]

theorem readBlock_encodeOne (a rest : Bytes) (last : Bool) (b : MBlock) (want : UInt8 → Bool) (h : b.Valid) :
    readBlock (a ++ (encodeOne last b ++ rest)) a.length want
      = .ok ⟨b.1, last, if want b.1 then b.2 else [], a.length, a.length + (4 + b.2.length)⟩ := by
  obtain ⟨ty, c⟩ := b
  obtain ⟨h1, h2⟩ := h
  simp only at h1 h2
  obtain ⟨e1, e2, -⟩ := headerByte ty last h1
  have hb : encodeOne last (ty, c) = ((ty + if last then 128 else 0) :: beBytes 3 c.length) ++ c := by
    simp [encodeOne]
  unfold readBlock
  rw [hb, List.append_assoc, readAt_append _ _ _ 4 (by simp), ok_bind]
  have hs : fromBE (beBytes 3 c.length) = c.length := fromBE_beBytes_of_lt (by omega)
  simp only [List.getD_cons_zero, List.drop_succ_cons, List.drop_zero, e1, e2, hs]
  have hc : readAt (a ++ ((ty + if last then 128 else 0) :: beBytes 3 c.length ++ (c ++ rest))) (a.length + 4) c.length
      = .ok c := by
    have := readAt_append (a ++ ((ty + if last then 128 else 0) :: beBytes 3 c.length)) c rest c.length rfl
    simpa using this
  by_cases hw : want ty = true
  · simp only [hw, if_true]
    rw [hc, ok_bind]
    congr 2
    omega
  · simp only [hw]
    simp
    omega

theorem write_eq (b : Block) (hty : b.ty < 128) (hl : b.content.length < 2 ^ 24) :
    b.write = .ok (encodeOne b.last (b.ty, b.content)) := by
  unfold Block.write encodeOne maxContent
  rw [if_neg (by omega), (headerByte b.ty b.last hty).2.2]

theorem encode_cons (b : MBlock) {bs : List MBlock} (h : bs ≠ []) : encode (b :: bs) = encodeOne false b ++ encode bs := by
  cases bs with
  | nil => exact absurd rfl h
  | cons c cs => rfl

/-- Type and content of a block. -/
def Block.m (b : Block) : MBlock := (b.ty, b.content)

theorem writeBlocks_markLast (bs : List Block) (hlast : ∀ b ∈ bs, b.last = false)
    (hv : ∀ b ∈ bs, MBlock.Valid b.m) :
    writeBlocks (markLast bs) = .ok (encode (bs.map Block.m)) := by
  induction bs with
  | nil => rfl
  | cons b bs ih =>
    have hb := hv b (by simp)
    cases bs with
    | nil =>
      simp only [markLast, writeBlocks, List.map_cons, List.map_nil, encode]
      rw [write_eq { b with last := true } hb.1 hb.2]
      simp [Block.m]
    | cons c cs =>
      have e : markLast (b :: c :: cs) = b :: markLast (c :: cs) := rfl
      rw [e, writeBlocks, ih (fun x hx => hlast x (List.mem_cons_of_mem _ hx)) (fun x hx => hv x (List.mem_cons_of_mem _ hx)),
        write_eq _ hb.1 hb.2, hlast b (by simp)]
      rfl


/-- The vendor after scanning: that of the last comment block. -/
def scanVendor : Str → List MBlock → Except Err Str
  | v, [] => .ok v
  | v, b :: bs => if b.1 = 4 then do
      let v ← blockVendor b.2
      scanVendor v bs
    else scanVendor v bs

theorem scan_encode (rest : Bytes) (v' : Str) (bs : List MBlock) : ∀ (a : Bytes) (fuel : Nat) (s : Scan),
    bs ≠ [] → (∀ b ∈ bs, b.Valid) → s.stop = a.length → bs.length ≤ fuel → scanVendor s.vendor bs = .ok v' →
    (∀ b ∈ s.blocks, b.last = false) →
    ∃ s', scan (a ++ (encode bs ++ rest)) fuel false s = .ok s' ∧
      s'.blocks.map Block.m = s.blocks.map Block.m ++ kept bs ∧ (∀ b ∈ s'.blocks, b.last = false) ∧
      s'.stop = a.length + (encode bs).length ∧ s'.vendor = v' ∧
      s'.remove = (s.remove || bs.any fun b => b.1 == 4 || b.1 == 6) ∧
      s'.padding = (s.padding || bs.any fun b => b.1 == 1) := by
  induction bs with
  | nil => intro a fuel s h; exact absurd rfl h
  | cons b bs ih =>
    intro a fuel s _ hv hstop hfuel hvend hlast
    obtain ⟨fuel, rfl⟩ : ∃ n, fuel = n + 1 := ⟨fuel - 1, by simp at hfuel; omega⟩
    have hb := hv b (by simp)
    have key : ∀ (last : Bool) (tail : Bytes), (last = true ↔ bs = []) →
        encode (b :: bs) = encodeOne last b ++ tail → (bs ≠ [] → tail = encode bs) → (bs = [] → tail = []) →
        ∃ s', scan (a ++ (encode (b :: bs) ++ rest)) (fuel + 1) false s = .ok s' ∧
      s'.blocks.map Block.m = s.blocks.map Block.m ++ kept (b :: bs) ∧ (∀ b ∈ s'.blocks, b.last = false) ∧
      s'.stop = a.length + (encode (b :: bs)).length ∧ s'.vendor = v' ∧
      s'.remove = (s.remove || (b :: bs).any fun b => b.1 == 4 || b.1 == 6) ∧
      s'.padding = (s.padding || (b :: bs).any fun b => b.1 == 1) := by
      intro last tail hl henc htail htail0
      have finish : ∀ (s1 : Scan), s1.stop = a.length + (4 + b.2.length) → scanVendor s1.vendor bs = .ok v' →
          (∀ b ∈ s1.blocks, b.last = false) →
          s1.blocks.map Block.m = s.blocks.map Block.m ++ kept [b] →
          s1.remove = (s.remove || (b.1 == 4 || b.1 == 6)) → s1.padding = (s.padding || b.1 == 1) →
          ∃ s', scan (a ++ (encodeOne last b ++ (tail ++ rest))) fuel last s1 = .ok s' ∧
      s'.blocks.map Block.m = s.blocks.map Block.m ++ kept (b :: bs) ∧ (∀ b ∈ s'.blocks, b.last = false) ∧
      s'.stop = a.length + (encode (b :: bs)).length ∧ s'.vendor = v' ∧
      s'.remove = (s.remove || (b :: bs).any fun b => b.1 == 4 || b.1 == 6) ∧
      s'.padding = (s.padding || (b :: bs).any fun b => b.1 == 1) := by
        intro s1 h1 h2 h3 h4 h5 h6
        cases bs with
        | nil =>
          obtain rfl : last = true := hl.mpr rfl
          refine ⟨s1, ?_, h4, h3, ?_, ?_, ?_, ?_⟩
          · cases fuel <;> rfl
          · rw [h1, encode_length]; simp
          · simpa [scanVendor] using h2
          · rw [h5]; simp
          · rw [h6]; simp
        | cons c cs =>
          have hlf : last = false := by
            cases last with
            | false => rfl
            | true => exact absurd (hl.mp rfl) (by simp)
          rw [htail (by simp), hlf]
          have hfuel' : (c :: cs).length ≤ fuel := by simp at hfuel ⊢; omega
          obtain ⟨s', g1, g2, g3, g4, g5, g6, g7⟩ := ih (a ++ encodeOne false b) fuel s1 (by simp)
            (fun x hx => hv x (List.mem_cons_of_mem _ hx)) (by rw [h1]; simp [encodeOne_length]) hfuel' h2 h3
          refine ⟨s', by simpa using g1, ?_, g3, ?_, g5, ?_, ?_⟩
          · rw [g2, h4, List.append_assoc]
            congr 1
            simp [kept, ← List.filter_append]
          · rw [g4, encode_length (b :: c :: cs), encode_length (c :: cs)]
            simp [encodeOne_length]; omega
          · rw [g6, h5, List.any_cons (a := b), Bool.or_assoc]
          · rw [g7, h6, List.any_cons (a := b), Bool.or_assoc]
      rw [show a ++ (encode (b :: bs) ++ rest) = a ++ (encodeOne last b ++ (tail ++ rest)) by
        rw [henc, List.append_assoc]]
      rw [scan, hstop, readBlock_encodeOne a _ last b _ hb, ok_bind]
      simp only
      by_cases h4 : b.1 = 4
      · rw [if_pos h4]
        simp only [scanVendor, h4, if_true] at hvend
        obtain ⟨v1, hv1, hvend⟩ := bind_ok hvend
        have hw : (if (b.1 != 6) = true then b.2 else []) = b.2 := by rw [h4]; rfl
        rw [hw, hv1, ok_bind]
        have e1 : (b.1 == 6) = false := by rw [h4]; rfl
        have e2 : (b.1 == 1) = false := by rw [h4]; rfl
        have e3 : (b.1 == 4) = true := by rw [h4]; rfl
        refine finish ⟨s.blocks, a.length + (4 + b.2.length), v1, true, s.padding || b.1 == 1⟩ rfl hvend hlast (by simp [kept, h4]) (by simp [e3]) rfl
      · rw [if_neg h4]
        simp only [scanVendor, h4, if_false] at hvend
        by_cases h6 : b.1 = 6
        · rw [if_pos h6]
          refine finish ⟨s.blocks, a.length + (4 + b.2.length), s.vendor, s.remove || b.1 == 6, s.padding || b.1 == 1⟩ rfl hvend hlast (by simp [kept, h6]) (by simp [h6]) rfl
        · rw [if_neg h6]
          refine finish ⟨s.blocks ++ [⟨b.1, false, if (b.1 != 6) = true then b.2 else [], a.length, a.length + (4 + b.2.length)⟩],
            a.length + (4 + b.2.length), s.vendor, s.remove || b.1 == 6, s.padding || b.1 == 1⟩ rfl hvend ?_ ?_ ?_ rfl
          · intro x hx
            rcases List.mem_append.mp hx with hx | hx
            · exact hlast x hx
            · simp at hx; rw [hx]
          · have hw : (b.1 != 6) = true := by simp [h6]
            simp [kept, h4, h6, Block.m]
          · have e4 : (b.1 == 4) = false := by simpa using h4
            simp only [e4, Bool.false_or]
    by_cases hbs : bs = []
    · subst hbs
      exact key true [] (by simp) (by simp [encode]) (fun h => absurd rfl h) (fun _ => rfl)
    · exact key false (encode bs) (by simp [hbs]) (encode_cons b hbs) (fun _ => rfl) (fun h => absurd h hbs)

/-- The block a reader sees for an encoded one. -/
def seen (b : MBlock) : Block := ⟨b.1, false, b.2, 0, 0⟩

theorem readStep_seen (o : Vorbis.Opts) (b : MBlock) (r : Found) (last : Bool) (p q : Nat) :
    readStep o ⟨b.1, last, if b.1 == 4 || (b.1 == 6 && o.readCoverArt) then b.2 else [], p, q⟩ r
      = readStep o (seen b) r := by
  unfold readStep seen
  simp only
  by_cases h4 : b.1 = 4
  · simp [h4]
  · by_cases h6 : b.1 = 6
    · cases ho : o.readCoverArt
      · simp [h6]
      · simp [h6]
    · simp [h4, h6]

theorem readLoop_encode (o : Vorbis.Opts) (rest : Bytes) (bs : List MBlock) : ∀ (a : Bytes) (fuel : Nat) (r : Found),
    bs ≠ [] → (∀ b ∈ bs, b.Valid) → bs.length ≤ fuel →
    readLoop o (a ++ (encode bs ++ rest)) fuel false a.length r
      = (bs.map seen).foldlM (fun r b => readStep o b r) r := by
  induction bs with
  | nil => intro a fuel s h; exact absurd rfl h
  | cons b bs ih =>
    intro a fuel r _ hv hfuel
    obtain ⟨fuel, rfl⟩ : ∃ n, fuel = n + 1 := ⟨fuel - 1, by simp at hfuel; omega⟩
    have hb := hv b (by simp)
    rw [readLoop, List.map_cons, List.foldlM_cons]
    cases bs with
    | nil =>
      rw [encode, readBlock_encodeOne a _ true b _ hb, ok_bind]
      simp only
      rw [readStep_seen]
      congr 1
      funext r
      cases fuel <;> rfl
    | cons c cs =>
      rw [encode_cons b (by simp), List.append_assoc, readBlock_encodeOne a _ false b _ hb, ok_bind]
      simp only
      rw [readStep_seen]
      congr 1
      funext r
      have := ih (a ++ encodeOne false b) fuel r (by simp)
        (fun x hx => hv x (List.mem_cons_of_mem _ hx)) (by simp at hfuel ⊢; omega)
      rw [← this]
      simp [encodeOne_length]

end Lofty.Flac
