import Verif.Model.Mp4
import Verif.Spec.Ilst
import Verif.Lemmas.Bytes
import Verif.Lemmas.Text
import Verif.Lemmas.File
/-! Helper lemmas about MP4 readers. -/
namespace Lofty.Mp4
open Lofty.Text Lofty.Ilst

/-- The reader stands before `rest`, which is all that is left within its bounds. -/
def At (r : Rd) (rest : Bytes) : Prop :=
  (∃ tail, r.f.drop r.pos = rest ++ tail) ∧ r.rem = rest.length ∧ r.pos + rest.length ≤ r.f.length

@[simp] theorem skip_skip (r : Rd) (a b : Nat) : (r.skip a).skip b = r.skip (a + b) := by
  simp [Rd.skip, Nat.add_assoc, Nat.sub_sub]

@[simp] theorem skip_pos (r : Rd) (n : Nat) : (r.skip n).pos = r.pos + n := rfl
@[simp] theorem skip_f (r : Rd) (n : Nat) : (r.skip n).f = r.f := rfl
@[simp] theorem skip_zero (r : Rd) : r.skip 0 = r := rfl

theorem At.skip {r : Rd} {a b : Bytes} (h : At r (a ++ b)) {n : Nat} (hn : a.length = n) :
    At (r.skip n) b := by
  obtain ⟨⟨tail, h1⟩, h2, h3⟩ := h
  simp only [List.length_append] at h2 h3
  refine ⟨⟨tail, ?_⟩, ?_, ?_⟩
  · show r.f.drop (r.pos + n) = b ++ tail
    rw [← List.drop_drop, h1, List.append_assoc]
    exact List.drop_left' hn
  · show r.rem - n = b.length
    omega
  · show r.pos + n + b.length ≤ r.f.length
    omega

theorem At.raw {r : Rd} {a b : Bytes} (h : At r (a ++ b)) {n : Nat} (hn : a.length = n) :
    r.raw n = .ok (a, r.skip n) := by
  obtain ⟨⟨tail, h1⟩, _, h3⟩ := h
  simp only [List.length_append] at h3
  unfold Rd.raw
  rw [if_pos (by omega), h1, List.append_assoc, List.take_left' hn]
  rfl

theorem At.take {r : Rd} {a b : Bytes} (h : At r (a ++ b)) {n : Nat} (hn : a.length = n) :
    r.take n = .ok (a, r.skip n) := by
  have h2 := h.2.1
  simp only [List.length_append] at h2
  unfold Rd.take
  rw [if_neg (by omega), h.raw hn]

theorem at_new (f : Bytes) : At (Rd.new f) f := ⟨⟨[], by simp [Rd.new]⟩, rfl, by simp [Rd.new]⟩

theorem at_at (a b : Bytes) : At (Rd.at (a ++ b) a.length) b := by
  refine ⟨⟨[], ?_⟩, ?_, ?_⟩ <;> simp [Rd.at]

/-- New bounds. -/
theorem at_bounds {r : Rd} {a b : Bytes} (h : At r (a ++ b)) (start : Nat) : At (r.resetBounds start a.length) a := by
  obtain ⟨⟨tail, h1⟩, _, h3⟩ := h
  rw [List.length_append] at h3
  refine ⟨⟨b ++ tail, ?_⟩, rfl, ?_⟩
  · rw [← List.append_assoc]; exact h1
  · show r.pos + a.length ≤ r.f.length
    omega

/-- The header of an atom. -/
theorem readHead_box {r : Rd} {L size : Nat} {id rest : Bytes} {mode : Mode}
    (h : At r (beBytes 4 L ++ (id ++ rest))) (h8 : 8 ≤ L) (hL : L < 2 ^ 32) (hid : id.length = 4)
    (hv : id.all validByte = true) (hs : L - 8 ≤ size) :
    readHead r size mode = .ok (some (r.pos, L, false, id), r.skip 8) := by
  have hL' : L < 256 ^ 4 := by omega
  unfold readHead
  rw [h.take (beBytes_length 4 L), ok_bind]
  simp only
  have h' := h.skip (beBytes_length 4 L)
  rw [h'.take hid, ok_bind]
  simp only [hv, Bool.not_true, Bool.false_eq_true, if_false]
  have hl : lenOf (fromBE (beBytes 4 L)) ((r.skip 4).skip 4) = .ok (L, false, (r.skip 4).skip 4) := by
    rw [fromBE_beBytes_of_lt hL']
    unfold lenOf
    rw [if_neg (by omega), if_neg (by omega)]
  rw [hl, ok_bind]
  simp only
  rw [if_neg (by omega), if_neg (by omega), skip_skip]

theorem box_length (id content : Bytes) (h : id.length = 4) : (box id content).length = 8 + content.length := by
  simp [box, h]; omega

theorem ascii_mean : (ascii "mean").length = 4 ∧ (ascii "mean").all validByte = true := by decide
theorem ascii_name : (ascii "name").length = 4 ∧ (ascii "name").all validByte = true := by decide

/-- A `mean` or `name` atom. -/
theorem freeformChunk_box {r : Rd} {size : Nat} {id rest : Bytes} {s : Str} {mode : Mode}
    (h : At r (box id ([0, 0, 0, 0] ++ utf8 s) ++ rest)) (hid : id.length = 4)
    (hv : id.all validByte = true) (hs : 12 + (utf8 s).length ≤ size)
    (hL : 12 + (utf8 s).length < 2 ^ 32) (ht : TextOk s) :
    freeformChunk r id size mode
      = .ok (s, size - (12 + (utf8 s).length), r.skip (12 + (utf8 s).length)) := by
  have e : 8 + ([0, 0, 0, 0] ++ utf8 s : Bytes).length = 12 + (utf8 s).length := by
    simp; omega
  have h1 : At r (beBytes 4 (12 + (utf8 s).length) ++ (id ++ ([0, 0, 0, 0] ++ (utf8 s ++ rest)))) := by
    have := h
    unfold box at this
    rw [e] at this
    simpa [List.append_assoc] using this
  unfold freeformChunk
  rw [readHead_box h1 (by omega) hL hid hv (by omega), ok_bind]
  simp only
  rw [if_neg (by simp), if_neg (by omega), if_neg (by omega)]
  have h2 : At (r.skip 8) ([0, 0, 0, 0] ++ (utf8 s ++ rest)) := by
    have := (h1.skip (beBytes_length _ _)).skip hid
    rwa [skip_skip] at this
  have h3 := h2.skip (n := 4) rfl
  rw [h3.take (n := 12 + (utf8 s).length - 12) (by omega), ok_bind]
  simp only
  have hd : utf8Decode (utf8 s) = .ok s := by
    unfold utf8Decode
    rw [fromUtf8_utf8]
    simp only
    rw [trimEndNulls_eq s ht]
  rw [hd, ok_bind, skip_skip, skip_skip, show 8 + (4 + (12 + (utf8 s).length - 12)) = 12 + (utf8 s).length by omega]

/-- An ordinary atom. -/
theorem readInfo_box {r : Rd} {L size : Nat} {id rest : Bytes} {mode : Mode}
    (h : At r (beBytes 4 L ++ (id ++ rest))) (h8 : 8 ≤ L) (hL : L < 2 ^ 32) (hid : id.length = 4)
    (hv : id.all validByte = true) (hs : L - 8 ≤ size) (hf : id ≠ ascii "----") :
    readInfo r size mode = .ok (some ⟨r.pos, L, false, .fourcc id⟩, r.skip 8) := by
  unfold readInfo
  rw [readHead_box h h8 hL hid hv hs, ok_bind]
  simp only
  unfold identOf
  rw [if_neg hf]

theorem ascii_free : (ascii "----").length = 4 ∧ (ascii "----").all validByte = true := by decide

/-- A freeform atom. -/
theorem readInfo_freeform {r : Rd} {L size : Nat} {m n : Str} {rest : Bytes} {mode : Mode}
    (h : At r (beBytes 4 L ++ (ascii "----" ++ (Ident.names (.freeform m n) ++ rest))))
    (h8 : 8 + (Ident.names (.freeform m n)).length ≤ L) (hL : L < 2 ^ 32)
    (hs : L ≤ size) (hm : TextOk m) (hn : TextOk n) :
    readInfo r size mode = .ok (some ⟨r.pos, L, false, .freeform m n⟩,
      r.skip (8 + (Ident.names (.freeform m n)).length)) := by
  have hlen : (Ident.names (.freeform m n)).length = (12 + (utf8 m).length) + (12 + (utf8 n).length) := by
    simp only [Ident.names, List.length_append]
    rw [box_length _ _ ascii_mean.1, box_length _ _ ascii_name.1]
    simp; omega
  unfold readInfo
  rw [readHead_box h (by omega) hL ascii_free.1 ascii_free.2 (by omega), ok_bind]
  simp only
  unfold identOf
  rw [if_pos rfl, if_neg (by omega), if_neg (by omega)]
  simp only
  have h1 : At (r.skip 8) (box (ascii "mean") ([0, 0, 0, 0] ++ utf8 m) ++ (box (ascii "name") ([0, 0, 0, 0] ++ utf8 n) ++ rest)) := by
    have := (h.skip (beBytes_length _ _)).skip ascii_free.1
    rw [skip_skip] at this
    simpa [Ident.names, List.append_assoc] using this
  unfold parseFreeform
  rw [if_neg (by omega), freeformChunk_box h1 ascii_mean.1 ascii_mean.2 (by omega) (by omega) hm, ok_bind]
  simp only
  have hb : (box (ascii "mean") ([0, 0, 0, 0] ++ utf8 m)).length = 12 + (utf8 m).length := by
    rw [box_length _ _ ascii_mean.1]; simp; omega
  have h2 := h1.skip hb
  rw [freeformChunk_box h2 ascii_name.1 ascii_name.2 (by omega) (by omega) hn, ok_bind]
  simp only
  rw [ok_bind]
  simp only [skip_skip]
  rw [hlen, show 8 + (12 + (utf8 m).length) + (12 + (utf8 n).length) = 8 + (12 + (utf8 m).length + (12 + (utf8 n).length)) by omega]

end Lofty.Mp4
