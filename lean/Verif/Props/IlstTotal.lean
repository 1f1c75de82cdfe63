import Verif.Lemmas.IlstTotal
import Verif.Props.Ilst
/-!
# C36: reading an `ilst` ends, and panics only on atoms with a 64-bit length

`WideAt f p` says that the bytes of `f` at `p` look like the header of an atom whose length
is given by 64 bits: 00 00 00 01, then four admissible identifier bytes, then 8 more bytes.
-/
namespace Lofty.Ilst
open Lofty.Mp4 Lofty.Text

theorem interpret_ne {code : Nat} {c : Bytes} {e : Err} (he : e = .diverge ∨ e = .panic) : interpret code c ≠ .error e := by
  have hu : utf8Decode c ≠ .error e := by
    unfold utf8Decode
    split <;> rcases he with rfl | rfl <;> simp
  have hu16 : utf16DecodeBytes c true ≠ .error e := by
    unfold utf16DecodeBytes utf16Decode
    split
    · simp
    · split <;> rcases he with rfl | rfl <;> simp
  unfold interpret
  split
  · exact bind_ne hu fun _ => by simp
  · split
    · exact bind_ne hu16 fun _ => by simp
    · split
      · refine bind_ne ?_ fun _ => by simp
        unfold parseInt
        split
        · simp
        · split
          · simp
          · split
            · simp
            · split <;> rcases he with rfl | rfl <;> simp
      · split
        · refine bind_ne ?_ fun _ => by simp
          unfold parseUint
          split <;> rcases he with rfl | rfl <;> simp
        · simp

theorem interpretAll_ne {l : List (Nat × Bytes)} {e : Err} (he : e = .diverge ∨ e = .panic) : interpretAll l ≠ .error e := by
  induction l with
  | nil => simp [interpretAll]
  | cons x l ih =>
    obtain ⟨c, b⟩ := x
    rw [interpretAll]
    exact bind_ne (interpret_ne he) fun d => bind_ne ih fun ds => by simp

/-- Progress of the body of the loop. -/
structure StepOk (f : Bytes) (r : Rd) (x : Except Err (Tag × List Data × Rd)) (fits : Prop) : Prop where
  diverge : x ≠ .error .diverge
  panic : fits → x ≠ .error .panic
  adv : ∀ t g r', x = .ok (t, g, r') → Good f r' ∧ r'.rem ≤ r.rem

theorem step_of_inner {f : Bytes} (hf : f.length + 8 < 2 ^ 32) {mode : Mode} {r : Rd} (hg : Good f r) {a : Info}
    {k : List (Nat × Bytes) × Rd → Except Err (Tag × List Data × Rd)}
    (hk : ∀ p, k p ≠ .error .diverge ∧ k p ≠ .error .panic)
    (hr : ∀ p t g r', k p = .ok (t, g, r') → r' = p.2) :
    StepOk f r (parseDataInner r mode a >>= k) (r.pos ≤ a.start + a.len) := by
  obtain ⟨h1, h2, h3⟩ := parseDataInner_total hf (mode := mode) hg a
  refine ⟨bind_ne h1 fun p => (hk p).1, fun hfit => bind_ne (h2 hfit) fun p => (hk p).2, ?_⟩
  intro t g r' h
  obtain ⟨p, hp, h⟩ := bind_ok h
  rw [hr p t g r' h]
  exact h3 p.1 p.2 hp

theorem step_of_skip {f : Bytes} (hf : f.length + 8 < 2 ^ 32) {r : Rd} (hg : Good f r) {a : Info} {P : Prop}
    (h8 : 8 ≤ a.len) (hl : a.len ≤ f.length + 8) (t : Tag) (g : List Data) :
    StepOk f r (do let r ← skipAtom r a.extended a.len; Except.ok (t, g, r)) P := by
  refine ⟨bind_ne (skipAtom_ne (Or.inl rfl)) fun _ => by simp, fun _ => bind_ne (skipAtom_ne (Or.inr rfl)) fun _ => by simp, ?_⟩
  intro t' g' r' h
  obtain ⟨r1, h1, h⟩ := bind_ok h
  simp only [Except.ok.injEq, Prod.mk.injEq] at h
  rw [← h.2.2]
  exact skipAtom_ok hg (by omega) h8 h1

theorem ilstStep_total {f : Bytes} (hf : f.length + 8 < 2 ^ 32) {o : Opts} {r : Rd} (hg : Good f r) {a : Info}
    (h8 : 8 ≤ a.len) (hl : a.len ≤ f.length + 8) (t : Tag) (g : List Data) :
    StepOk f r (ilstStep o r a t g) (r.pos ≤ a.start + a.len) := by
  have hpd : StepOk f r (do let (t, r) ← parseData r o.mode t a; Except.ok (t, g, r)) (r.pos ≤ a.start + a.len) := by
    unfold parseData
    rw [bind_assoc]
    refine step_of_inner hf hg ?_ ?_
    · intro p
      rcases hi : interpretAll p.1 with e | ds
      · rcases p with ⟨ds', r'⟩
        simp only at hi
        simp only [hi]
        split
        · refine ⟨?_, ?_⟩
          · intro h; cases h; exact interpretAll_ne (Or.inl rfl) hi
          · intro h; cases h; exact interpretAll_ne (Or.inr rfl) hi
        · exact ⟨(fun h => by cases h), (fun h => by cases h)⟩
      · rcases p with ⟨ds', r'⟩
        simp only at hi
        simp only [hi]
        cases Storage.ofList ds <;> exact ⟨(fun h => by cases h), (fun h => by cases h)⟩
    · intro p t' g' r' h
      rcases p with ⟨ds', r1⟩
      rcases hi : interpretAll ds' with e | ds
      · simp only [hi] at h
        split at h
        · cases h
        · cases h; rfl
      · simp only [hi] at h
        cases hs : Storage.ofList ds with
        | none => simp only [hs] at h; cases h; rfl
        | some s => simp only [hs] at h; cases h; rfl
  unfold ilstStep
  rcases a.ident with id | ⟨m, n⟩
  · simp only
    split
    · exact step_of_skip hf hg h8 hl t g
    · split
      · split
        · unfold handleCovr
          rw [bind_assoc]
          refine step_of_inner hf hg ?_ ?_
          · rintro ⟨ds, r'⟩
            simp only
            cases coverData ds with
            | none => 
              simp only
              split <;> exact ⟨(fun h => by cases h), (fun h => by cases h)⟩
            | some ds =>
              simp only
              cases Storage.ofList ds <;> exact ⟨(fun h => by cases h), (fun h => by cases h)⟩
          · rintro ⟨ds, r1⟩ t' g' r' h
            simp only at h
            cases hc : coverData ds with
            | none =>
              simp only [hc] at h
              split at h
              · cases h
              · cases h; rfl
            | some ds =>
              simp only [hc] at h
              cases hs : Storage.ofList ds with
              | none => simp only [hs] at h; cases h; rfl
              | some s => simp only [hs] at h; cases h; rfl
        · exact step_of_skip hf hg h8 hl t g
      · split
        · refine step_of_inner hf hg ?_ ?_
          · rintro ⟨ds, r'⟩
            simp only
            split <;> simp
          · rintro ⟨ds, r1⟩ t' g' r' h
            simp only at h
            split at h <;> (simp only [Except.ok.injEq, Prod.mk.injEq] at h; exact h.2.2.symm)
        · split
          · refine step_of_inner hf hg ?_ ?_
            · rintro ⟨ds, r'⟩; simp
            · rintro ⟨ds, r1⟩ t' g' r' h
              simp only [Except.ok.injEq, Prod.mk.injEq] at h; exact h.2.2.symm
          · split
            · refine step_of_inner hf hg ?_ ?_
              · rintro ⟨ds, r'⟩; cases ds <;> simp
              · rintro ⟨ds, r1⟩ t' g' r' h
                cases ds <;> (simp only [Except.ok.injEq, Prod.mk.injEq] at h; exact h.2.2.symm)
            · exact hpd
  · exact hpd

theorem ilstLoop_total {f : Bytes} (hf : f.length + 8 < 2 ^ 32) {o : Opts} : ∀ (k : Nat) (r : Rd) (t : Tag) (g : List Data),
    Good f r → r.rem < k →
    ilstLoop o k r t g ≠ .error .diverge ∧ (NoWide f → ilstLoop o k r t g ≠ .error .panic) := by
  intro k
  induction k with
  | zero => intro r t g hg hk; omega
  | succ k ih =>
    intro r t g hg hk
    rw [ilstLoop]
    cases hn : r.next o.mode with
    | error e =>
      have := next_no_panic hg (mode := o.mode)
      rw [hn] at this
      cases e <;> first | exact absurd rfl this | exact ⟨by simp, fun _ => by simp⟩
    | ok p =>
      obtain ⟨a, r1⟩ := p
      rcases a with _ | a
      · exact ⟨by simp, fun _ => by simp⟩
      · simp only
        obtain ⟨g1, b1, m1, s1, l1, l2, hw⟩ := next_some hg hn
        have hr1 : r1.rem + 8 ≤ r.rem := by
          have := g1.2.2.2; have := hg.2.2.2; omega
        have hs := ilstStep_total hf (o := o) g1 l1 l2 t g
        cases hx : ilstStep o r1 a t g with
        | error e =>
          rw [error_bind]
          refine ⟨?_, fun hnw => ?_⟩
          · intro h; cases h; exact hs.diverge hx
          · intro h; cases h; exact hs.panic (hw hnw).2 hx
        | ok q =>
          obtain ⟨t', g', r2⟩ := q
          obtain ⟨g2, h2⟩ := hs.adv t' g' r2 hx
          rw [ok_bind]
          exact ih r2 t' g' g2 (by omega)

/-- **C36.** Reading an `ilst` ends, whatever its bytes are. -/
theorem parse_ends (o : Opts) (f : Bytes) (hf : f.length + 8 < 2 ^ 32) : parse o f ≠ .error .diverge := by
  have h := (ilstLoop_total hf (o := o) (f.length + 1) (Rd.new f) [] [] (good_new f) (by simp [Rd.new])).1
  unfold parse
  refine bind_ne h fun ⟨t, g⟩ => ?_
  simp only
  split
  · split <;> simp
  · simp

/-- **C36.** Reading an `ilst` panics only if its bytes contain the header of an atom with a
64-bit length (`extended_panics` is such a case). -/
theorem parse_panics_only_wide (o : Opts) (f : Bytes) (hf : f.length + 8 < 2 ^ 32)
    (h : parse o f = .error .panic) : ∃ p, WideAt f p := by
  apply Classical.byContradiction
  intro hn
  have hn' : NoWide f := fun p hp => hn ⟨p, hp⟩
  have h1 := (ilstLoop_total hf (o := o) (f.length + 1) (Rd.new f) [] [] (good_new f) (by simp [Rd.new])).2 hn'
  revert h
  unfold parse
  refine bind_ne h1 fun ⟨t, g⟩ => ?_
  simp only
  split
  · split <;> simp
  · simp

/-- In the panic of `extended_panics` the header stands at the beginning. -/
example : WideAt ([0, 0, 0, 1, 0xA9] ++ ascii "nam" ++ beBytes 8 8) 0 := by
  refine ⟨by decide, by decide, by decide⟩

/-- An atom whose content is cut off: the hypotheses of `parse_ends` hold and the result is
the error-free prefix. -/
example : parse ⟨.bestAttempt, true, true⟩ (box (ascii "tmpo") (dataBox (21, [7])) ++ [0, 0, 0, 9]) =
    .ok [⟨.fourcc (ascii "tmpo"), .single (.signed 7)⟩] := by decide +kernel

end Lofty.Ilst
