import Verif.Props.Mpc
/-!
# The other packets of Musepack SV8 (C46)
-/
namespace Lofty.Mpc

/-- **The replay gain packet is read as it is laid out**: version, then gain and peak of the title and of the album. -/
theorem replayGain_read {tg tp ag ap : Nat} (version : UInt8) (h1 : tg < 2 ^ 16) (h2 : tp < 2 ^ 16) (h3 : ag < 2 ^ 16)
    (h4 : ap < 2 ^ 16) (r : Bytes) :
    ReplayGain.read (version :: (beBytes 2 tg ++ (beBytes 2 tp ++ (beBytes 2 ag ++ (beBytes 2 ap ++ r))))) =
      .ok (⟨version.toNat, tg, tp, ag, ap⟩, r) := by
  unfold ReplayGain.read
  rw [readU8_cons, ok_bind]
  simp only
  rw [readBE_append _ (by omega), ok_bind]
  simp only
  rw [readBE_append _ (by omega), ok_bind]
  simp only
  rw [readBE_append _ (by omega), ok_bind]
  simp only
  rw [readBE_append _ (by omega), ok_bind]

/-- **The encoder packet is read as it is laid out**: seven bits for the quality in eighths and one for the PNS tool, then
the three parts of the version. -/
theorem encoderInfo_read {q : Nat} (hq : q < 128) (pns : Bool) (major minor build : UInt8) (r : Bytes) :
    EncoderInfo.read (UInt8.ofNat (q * 2 + (if pns then 1 else 0)) :: major :: minor :: build :: r) =
      .ok (⟨q, pns, major.toNat, minor.toNat, build.toNat⟩, r) := by
  have h : ∀ q : Fin 128, ∀ pns : Bool,
      let x := (UInt8.ofNat (q.val * 2 + (if pns then 1 else 0))).toNat
      (x &&& 0xFE) >>> 1 = q.val ∧ (decide (x &&& 1 = 1)) = pns := by decide +kernel
  obtain ⟨h1, h2⟩ := h ⟨q, hq⟩ pns
  unfold EncoderInfo.read
  rw [readU8_cons, ok_bind]
  simp only
  rw [readU8_cons, ok_bind]
  simp only
  rw [readU8_cons, ok_bind]
  simp only
  rw [readU8_cons, ok_bind]
  simp only at h1 h2 ⊢
  rw [h1, h2]

/-- Packets that are too short are refused. -/
theorem short_packets (r : Bytes) : (r.length < 9 → ReplayGain.read r = .error .eof) ∧
    (r.length < 4 → EncoderInfo.read r = .error .eof) := by
  constructor
  · intro h
    match r with
    | [] => rfl
    | [_] => rfl
    | [_, _] => rfl
    | [_, _, _] => rfl
    | [_, _, _, _] => rfl
    | [_, _, _, _, _] => rfl
    | [_, _, _, _, _, _] => rfl
    | [_, _, _, _, _, _, _] => rfl
    | [_, _, _, _, _, _, _, _] => rfl
    | _ :: _ :: _ :: _ :: _ :: _ :: _ :: _ :: _ :: _ => simp at h; omega
  · intro h
    match r with
    | [] => rfl
    | [_] => rfl
    | [_, _] => rfl
    | [_, _, _] => rfl
    | _ :: _ :: _ :: _ :: _ => simp at h; omega

example : EncoderInfo.read [0x51, 1, 30, 1, 9] = .ok (⟨40, true, 1, 30, 1⟩, [9]) :=
  encoderInfo_read (q := 40) (by decide) true 1 30 1 [9]

end Lofty.Mpc
