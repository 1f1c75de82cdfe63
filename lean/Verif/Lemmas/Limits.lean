import Verif.Model.Limits
import Verif.Lemmas.IffFiles
import Verif.Props.OggWrite
/-!
# Lemmas on the readers with the allocation limit
-/
namespace Lofty.Limits

/-! ## Vorbis comments -/

theorem tryVec_le {limit n : Nat} (h : n ≤ limit) : tryVec limit n = .ok () := by unfold tryVec; rw [if_neg (by omega)]

theorem tryVec_gt {limit n : Nat} (h : limit < n) : tryVec limit n = .error .alloc := by unfold tryVec; rw [if_pos h]

theorem bind_or {α β : Type} (x : Except Err α) (f g : α → Except Err β) (h : ∀ a, f a = g a ∨ f a = .error .alloc) :
    (x >>= f) = (x >>= g) ∨ (x >>= f) = .error .alloc := by
  cases x with
  | error e => exact .inl rfl
  | ok a => exact h a

theorem tryVec_or {β : Type} (limit n : Nat) {x y : Except Err β} (h : x = y ∨ x = .error .alloc) :
    (tryVec limit n >>= fun _ => x) = y ∨ (tryVec limit n >>= fun _ => x) = .error .alloc := by
  by_cases hl : limit < n
  · rw [tryVec_gt hl]; exact .inr rfl
  · rw [tryVec_le (by omega)]; exact h

theorem readItems_or (limit : Nat) (o : Vorbis.Opts) (n : Nat) : ∀ (len : Nat) (t : Vorbis.Tag) (d : Bytes),
    readItems limit o n len t d = Vorbis.readItems o n len t d ∨ readItems limit o n len t d = .error .alloc := by
  induction n with
  | zero => intro len t d; exact .inl rfl
  | succ n ih =>
    intro len t d
    unfold readItems Vorbis.readItems
    refine bind_or _ _ _ fun ⟨cl, d⟩ => ?_
    dsimp only
    split
    · exact .inl rfl
    · refine tryVec_or _ _ (bind_or _ _ _ fun ⟨c, d⟩ => ?_)
      dsimp only
      exact bind_or _ _ _ fun t => ih _ _ _

theorem readItems_small {limit : Nat} (o : Vorbis.Opts) (n : Nat) : ∀ (len : Nat) (t : Vorbis.Tag) (d : Bytes), len ≤ limit →
    readItems limit o n len t d = Vorbis.readItems o n len t d := by
  induction n with
  | zero => intro len t d _; rfl
  | succ n ih =>
    intro len t d hl
    unfold readItems Vorbis.readItems
    refine congrArg _ (funext fun ⟨cl, d⟩ => ?_)
    dsimp only
    split
    · rfl
    · rw [tryVec_le (by omega), ok_bind]
      refine congrArg _ (funext fun ⟨c, d⟩ => ?_)
      dsimp only
      exact congrArg _ (funext fun t => ih _ _ _ (by omega))

/-- Comments one after the other, if all of them can be read without the limit. -/
theorem readItems_encodeAll {limit : Nat} (o : Vorbis.Opts) (cs : List Bytes) (rest : Bytes) :
    ∀ (len : Nat) (t t' : Vorbis.Tag), (cs.map List.length).sum ≤ len → (∀ c ∈ cs, c.length < 2 ^ 32) →
      cs.foldlM (Vorbis.readItem o) t = .ok t' →
      readItems limit o cs.length len t (Vorbis.encodeAll cs ++ rest) =
        if ∀ c ∈ cs, c.length ≤ limit then .ok (t', rest) else .error .alloc := by
  induction cs with
  | nil =>
    intro len t t' _ _ h
    simp only [List.foldlM_nil] at h
    cases h
    rw [if_pos (by intro c hc; cases hc)]
    rfl
  | cons c cs ih =>
    intro len t t' hsum hlen h
    simp only [List.foldlM_cons] at h
    obtain ⟨t1, h1, h2⟩ := bind_ok h
    simp only [List.map_cons, List.sum_cons] at hsum
    have e : Vorbis.encodeAll (c :: cs) ++ rest = leBytes 4 c.length ++ (c ++ (Vorbis.encodeAll cs ++ rest)) := by
      simp [Vorbis.encodeAll]
    have hcl := hlen c (by simp)
    rw [List.length_cons, readItems, e, readLE_append _ (by omega), ok_bind]
    simp only
    rw [if_neg (by omega)]
    by_cases hl : limit < c.length
    · rw [tryVec_gt hl, error_bind, if_neg (fun h => by have := h c (by simp); omega)]
    · rw [tryVec_le (by omega), ok_bind, readN_append _ _ rfl, ok_bind]
      simp only
      rw [h1, ok_bind, ih _ _ _ (by omega) (fun c hc => hlen c (by simp [hc])) h2]
      refine if_congr ⟨fun h x hx => ?_, fun h x hx => h x (by simp [hx])⟩ rfl rfl
      rcases List.mem_cons.mp hx with rfl | hx
      · omega
      · exact h x hx

/-! ## Chunks -/

open Lofty.Iff Lofty.IffFiles

/-- The loop with a check of the headers in front. -/
def guarded {α : Type} (g : Hdr → Bool) (fn : Hdr → Chunks → α → Except Err (Chunks × α)) (h : Hdr) (c : Chunks) (a : α) : Except Err (Chunks × α) :=
  if g h then .error .alloc else fn h c a

theorem guarded_or {α : Type} {be strict : Bool} (g : Hdr → Bool) (fn : Hdr → Chunks → α → Except Err (Chunks × α)) (n : Nat) : ∀ (c : Chunks) (a : α),
    chunkLoop be strict (guarded g fn) n c a = chunkLoop be strict fn n c a ∨ chunkLoop be strict (guarded g fn) n c a = .error .alloc := by
  induction n with
  | zero => intro c a; exact .inl rfl
  | succ n ih =>
    intro c a
    unfold chunkLoop
    refine bind_or _ _ _ fun ⟨h, c⟩ => ?_
    cases h with
    | none => exact .inl rfl
    | some h =>
      dsimp only
      by_cases hg : g h = true
      · unfold guarded; rw [if_pos hg]; exact .inr rfl
      · have e : guarded g fn h c a = fn h c a := by unfold guarded; rw [if_neg hg]
        rw [e]
        exact bind_or _ _ _ fun ⟨c, a⟩ => ih c a

theorem step_guarded {α : Type} {be : Bool} {g : Hdr → Bool} {fn : Hdr → Chunks → α → Except Err (Chunks × α)} {t : Nat} {d : Chunk} {a0 : α}
    {r : Except Err α} (hg : ∀ start, g ⟨d.1, d.2.length, start⟩ = false) (h : Step be fn t d a0 r) : Step be (guarded g fn) t d a0 r := by
  intro f a rest R start hf hle
  have := h f a rest R start hf hle
  unfold guarded
  rw [if_neg (by rw [hg]; decide)]
  exact this

theorem step_refused {α : Type} {be : Bool} {g : Hdr → Bool} {fn : Hdr → Chunks → α → Except Err (Chunks × α)} {t : Nat} {d : Chunk} (a0 : α)
    (hg : ∀ start, g ⟨d.1, d.2.length, start⟩ = true) : Step be (guarded g fn) t d a0 (.error .alloc) := by
  intro f a rest R start hf hle
  show guarded g fn _ _ _ = _
  unfold guarded
  rw [if_pos (hg start)]

theorem steps_guarded {α : Type} {be : Bool} {g : Hdr → Bool} {fn : Hdr → Chunks → α → Except Err (Chunks × α)} {t : Nat} {ds : List Chunk} {a0 : α}
    {r : Except Err α} (h : Steps be fn t ds a0 r) (hg : ∀ d ∈ ds, ∀ start, g ⟨d.1, d.2.length, start⟩ = false) :
    Steps be (guarded g fn) t ds a0 r := by
  induction h with
  | nil a => exact .nil a
  | @stop d ds a e ho hs => exact .stop ho (step_guarded (hg d (by simp)) hs)
  | @cons d ds a a1 r ho hs _ ih => exact .cons ho (step_guarded (hg d (by simp)) hs) (ih fun e he => hg e (by simp [he]))

theorem steps_refused {α : Type} {be : Bool} {g : Chunk → Bool} {g' : Hdr → Bool} {fn : Hdr → Chunks → α → Except Err (Chunks × α)} {t : Nat}
    {ds : List Chunk} {a0 : α} {r : Except Err α} (hgg : ∀ d start, g' ⟨d.1, d.2.length, start⟩ = g d)
    (h : Steps be fn t ds a0 r) (hg : ∃ d ∈ ds, g d = true) :
    ∃ e, Steps be (guarded g' fn) t ds a0 (.error e) ∧ (∀ a, r = .ok a → e = .alloc) := by
  induction h with
  | nil a => obtain ⟨d, hd, _⟩ := hg; cases hd
  | @stop d ds a e ho hs =>
    by_cases hd : g d = true
    · exact ⟨_, .stop ho (step_refused _ fun s => by rw [hgg, hd]), fun a _ => rfl⟩
    · exact ⟨_, .stop ho (step_guarded (fun s => by rw [hgg]; simpa using hd) hs), fun a h => by cases h⟩
  | @cons d ds a a1 r ho hs _ ih =>
    by_cases hd : g d = true
    · exact ⟨_, .stop ho (step_refused _ fun s => by rw [hgg, hd]), fun a _ => rfl⟩
    · obtain ⟨x, hx, hgx⟩ := hg
      obtain ⟨e, he, hr⟩ := ih ⟨x, (List.mem_cons.mp hx).resolve_left (fun h => hd (h ▸ hgx)), hgx⟩
      exact ⟨e, .cons ho (step_guarded (fun s => by rw [hgg]; simpa using hd) hs) he, hr⟩

theorem wavChunk_guarded (limit : Nat) (o : FileTags.Opts) (n : Nat) :
    wavChunk limit o n = guarded (fun h => decide (tooLong limit o h)) (IffFiles.wavChunk o n) := by
  funext h c a
  unfold wavChunk guarded
  simp only [decide_eq_true_eq]

theorem aiffChunk_guarded (limit : Nat) (o : FileTags.Opts) :
    aiffChunk limit o = guarded (fun h => decide (tooLong limit o h)) (IffFiles.aiffChunk o) := by
  funext h c a
  unfold aiffChunk guarded
  simp only [decide_eq_true_eq]

end Lofty.Limits
