import Verif.Model.FlacMove
import Verif.Lemmas.File
/-! Helper lemmas for C03. -/
namespace Lofty.Flac

theorem extendStorage_eq (B : Nat) (hB : 0 < B) (f : Bytes) (n : Nat) :
    extendStorage B hB f n = f ++ List.replicate n 0 := by
  fun_induction extendStorage B hB f n with
  | case1 f => simp
  | case2 f n h chunk ih =>
    rw [ih, writeAt_end, List.append_assoc, List.replicate_append_replicate]
    congr 2; omega

theorem shiftRight_eq (B : Nat) (hB : 0 < B) (f : Bytes) (start cursor amount : Nat)
    (h : start ≤ cursor) (hl : cursor + amount ≤ f.length) :
    shiftRight B hB f start cursor amount
      = .ok (writeAt f (start + amount) ((f.drop start).take (cursor - start))) := by
  fun_induction shiftRight B hB f start cursor amount with
  | case1 f cursor hc chunk source e he =>
    simp only [readAt] at he
    rw [if_pos (by omega)] at he
    cases he
  | case2 f cursor hc chunk source buf he ih =>
    have hb : buf = (f.drop source).take chunk := by
      simp only [readAt] at he
      rw [if_pos (by omega)] at he
      exact (Except.ok.inj he).symm
    have hbl : buf.length = chunk := by rw [hb]; simp; omega
    have hl1 : (writeAt f (source + amount) buf).length = f.length := writeAt_length (by omega)
    rw [ih (by omega) (by omega)]
    congr 1
    have hsl : ((writeAt f (source + amount) buf).drop start).take (source - start)
        = (f.drop start).take (source - start) :=
      slice_writeAt_of_disjoint (by omega) (Or.inl (by omega))
    rw [hsl]
    have ha : ((f.drop start).take (source - start)).length = source - start := by simp; omega
    have e1 : source + amount = start + amount + ((f.drop start).take (source - start)).length := by
      omega
    rw [e1, writeAt_writeAt_left (by omega), hb]
    congr 1
    have : (f.drop source) = (f.drop start).drop (source - start) := by
      rw [List.drop_drop]; congr 1; omega
    rw [this, ← List.take_add]
    congr 1; omega
  | case3 f cursor hc =>
    have : cursor - start = 0 := by omega
    rw [this, List.take_zero, writeAt_nil_of_le (by omega)]

theorem shiftLeft_eq (B : Nat) (hB : 0 < B) (f : Bytes) (cursor stop amount : Nat)
    (h : cursor ≤ stop) (hl : stop ≤ f.length) (ha : amount ≤ cursor) :
    shiftLeft B hB f cursor stop amount
      = .ok (writeAt f (cursor - amount) ((f.drop cursor).take (stop - cursor))) := by
  fun_induction shiftLeft B hB f cursor stop amount with
  | case1 f cursor hc chunk e he =>
    simp only [readAt] at he
    rw [if_pos (by omega)] at he
    cases he
  | case2 f cursor hc chunk buf he ih =>
    have hb : buf = (f.drop cursor).take chunk := by
      simp only [readAt] at he
      rw [if_pos (by omega)] at he
      exact (Except.ok.inj he).symm
    have hbl : buf.length = chunk := by rw [hb]; simp; omega
    have hl1 : (writeAt f (cursor - amount) buf).length = f.length := writeAt_length (by omega)
    rw [ih (by omega) (by omega) (by omega)]
    congr 1
    have hsl : ((writeAt f (cursor - amount) buf).drop (cursor + chunk)).take (stop - (cursor + chunk))
        = (f.drop (cursor + chunk)).take (stop - (cursor + chunk)) :=
      slice_writeAt_of_disjoint (by omega) (Or.inr (by omega))
    rw [hsl]
    have e1 : cursor + chunk - amount = cursor - amount + buf.length := by omega
    have hl2 : ((f.drop (cursor + chunk)).take (stop - (cursor + chunk))).length
        = stop - (cursor + chunk) := by simp; omega
    rw [e1, writeAt_writeAt_right (by omega), hb]
    congr 1
    rw [← List.drop_drop, ← List.take_add]
    congr 1; omega
  | case3 f cursor hc =>
    have : stop - cursor = 0 := by omega
    rw [this, List.take_zero, writeAt_nil_of_le (by omega)]

end Lofty.Flac
