import Verif.Lemmas.Resolvers
/-!
# C83: custom resolvers
-/
namespace Lofty.Resolvers
open Item FileType

/-! ## The registry -/

/-- **The registry only grows**: behind every execution, by any number of threads, all earlier entries are still there, and no
name is there twice. -/
theorem registry_grows (cs : List (Nat × Op)) (w : World) :
    w.entries <+: (run cs w).entries ∧ ((w.entries.map (·.1)).Nodup → ((run cs w).entries.map (·.1)).Nodup) := by
  induction cs generalizing w with
  | nil => exact ⟨List.prefix_refl _, id⟩
  | cons c cs ih =>
    obtain ⟨h1, h2⟩ := ih (step c w).2
    rcases step_entries c w with he | ⟨n, r, _, hn, _, he⟩
    · rw [he] at h1 h2; exact ⟨h1, h2⟩
    · refine ⟨List.IsPrefix.trans ⟨[(n, r)], he.symm⟩ h1, fun hd => h2 ?_⟩
      rw [he, List.map_append, List.nodup_append]
      refine ⟨hd, by simp, ?_⟩
      intro a ha b hb hab
      simp only [List.map_cons, List.map_nil, List.mem_singleton] at hb
      obtain ⟨e, he', rfl⟩ := List.mem_map.mp ha
      exact hn e he' (hab.trans hb)

theorem quiet_clean (cs : List (Nat × Op)) (w : World) (h : w.poisoned = false) (hq : panics cs w = false) : (run cs w).poisoned = false := by
  induction cs generalizing w with
  | nil => exact h
  | cons c cs ih =>
    simp only [panics, Bool.or_eq_false_iff] at hq
    exact ih _ (step_quiet c w h hq.1) hq.2

/-- **A registered resolver stays**: once a registration has succeeded, the name stands for that resolver as long as no call
panics, whatever the threads do. -/
theorem registered_stays_partial {n : Str} {r : Resolver} {w : World} (cs : List (Nat × Op)) (hr : (register n r w).1 = .ok ())
    (hq : panics cs (register n r w).2 = false) : (lookup n (run cs (register n r w).2)).1 = .ok r := by
  have hp : w.poisoned = false ∧ (∀ e ∈ w.entries, e.1 ≠ n) ∧ (register n r w).2 = { w with entries := w.entries ++ [(n, r)] } := by
    unfold register at hr ⊢
    split at hr
    · cases hr
    · split at hr
      · cases hr
      · rename_i h1 h2
        refine ⟨by simpa using h1, ?_, by rw [if_neg h1, if_neg h2]⟩
        intro e he hn
        exact h2 (List.any_eq_true.mpr ⟨e, he, by simpa using hn⟩)
  obtain ⟨h1, h2, h3⟩ := hp
  rw [h3] at hq ⊢
  have hc := quiet_clean cs { w with entries := w.entries ++ [(n, r)] } h1 hq
  obtain ⟨rest, hpre⟩ := (registry_grows cs { w with entries := w.entries ++ [(n, r)] }).1
  unfold lookup
  rw [hc, ← hpre]
  have : ((w.entries ++ [(n, r)] ++ rest).find? fun e => decide (e.1 = n)) = some (n, r) := by
    rw [List.append_assoc, List.find?_append, List.find?_eq_none.mpr (by intro e he; simpa using h2 e he)]
    simp
  simp only [Bool.false_eq_true, if_false, this]

/-- **A name is registered once**: it is accepted just when it is new. -/
theorem register_new {n : Str} {r : Resolver} {w : World} (h : w.poisoned = false) :
    (register n r w).1 = .ok () ↔ ∀ e ∈ w.entries, e.1 ≠ n := by
  unfold register
  rw [h]
  simp only [Bool.false_eq_true, if_false]
  split
  · rename_i hx
    obtain ⟨e, he, hn⟩ := List.any_eq_true.mp hx
    simp only [reduceCtorEq, false_iff]
    exact fun h => h e he (by simpa using hn)
  · rename_i hx
    simp only [true_iff]
    intro e he hn
    exact hx (List.any_eq_true.mpr ⟨e, he, by simpa using hn⟩)

/-! ## Extensions -/

/-- **Extensions that no resolver claims**, and threads that do not use resolvers: as without resolvers. -/
theorem ext_unclaimed_partial {order : List (Str × Resolver) → List (Str × Resolver)} (ho : ∀ l, (order l).Perm l) {th : Nat} {ext : Str} {w : World}
    (h : w.off th = true ∨ w.poisoned = false ∧ ∀ e ∈ w.entries, e.2.extension ≠ some (ext.map lowerChar)) :
    fromExt order th ext w = (FileType.fromExt ext).map .known := by
  unfold fromExt
  rcases h with h | ⟨h1, h2⟩
  · rw [if_pos h]
  · split
    · rfl
    · rw [h1, List.find?_eq_none.mpr (by intro e he; simpa using h2 e ((ho _).mem_iff.mp he))]
      simp

/-- **Extensions that just one resolver claims** stand for its type, also those of a format; the order of the registry has no
influence. -/
theorem ext_claimed {order : List (Str × Resolver) → List (Str × Resolver)} (ho : ∀ l, (order l).Perm l) {th : Nat} {ext : Str} {w : World}
    {e : Str × Resolver} (hu : w.off th = false) (hp : w.poisoned = false) (he : e ∈ w.entries) (hx : e.2.extension = some (ext.map lowerChar))
    (hone : ∀ e' ∈ w.entries, e'.2.extension = some (ext.map lowerChar) → e'.1 = e.1) : fromExt order th ext w = some (.custom e.1) := by
  unfold fromExt
  rw [hu, hp]
  simp only [Bool.false_eq_true, if_false]
  cases hf : (order w.entries).find? fun e => decide (e.2.extension = some (ext.map lowerChar)) with
  | none =>
    have := List.find?_eq_none.mp hf e ((ho _).mem_iff.mpr he)
    simp [hx] at this
  | some e' =>
    have h1 := List.mem_of_find?_eq_some hf
    have h2 := List.find?_some hf
    simp only at h2 ⊢
    rw [hone e' ((ho _).mem_iff.mp h1) (by simpa using h2)]

/-! ## Contents -/

/-- **Files that no resolver claims**, and threads that do not use resolvers: as without resolvers.  A poisoned registry is
ignored here. -/
theorem content_unclaimed {order : List (Str × Resolver) → List (Str × Resolver)} (ho : ∀ l, (order l).Perm l) {th : Nat} {f : Bytes}
    {start junk : Nat} {w : World} (h : w.off th = true ∨ w.poisoned = true ∨ ∀ e ∈ w.entries, e.2.guess ((f.drop start).take 36) = .ok none) :
    guess order th f start junk w = ((Probe.guessInner f start junk).map fun r => (r.1.map .known, r.2), w) := by
  unfold guess
  rcases h with h | h | h
  · rw [h]; rfl
  · rw [h, Bool.or_true]; rfl
  · split
    · rfl
    · rw [guessLoop_none fun e he => h e ((ho _).mem_iff.mp he)]; rfl

/-- **Files that are claimed for one type** are of that type, whatever they would be without resolvers, and the
reader stays where it was. -/
theorem content_claimed {order : List (Str × Resolver) → List (Str × Resolver)} (ho : ∀ l, (order l).Perm l) {th : Nat} {f : Bytes}
    {start junk : Nat} {w : World} {t : AnyType} (hu : w.off th = false) (hp : w.poisoned = false)
    (hall : ∀ e ∈ w.entries, e.2.guess ((f.drop start).take 36) = .ok none ∨ e.2.guess ((f.drop start).take 36) = .ok (some t))
    (hone : ∃ e ∈ w.entries, e.2.guess ((f.drop start).take 36) = .ok (some t)) : guess order th f start junk w = (.ok (some t, start), w) := by
  unfold guess
  rw [hu, hp, guessLoop_some (fun e he => hall e ((ho _).mem_iff.mp he)) (by
    obtain ⟨e, h1, h2⟩ := hone
    exact ⟨e, (ho _).mem_iff.mpr h1, h2⟩)]
  rfl

/-- **A claimed file is read by the resolver of its type**: with the type that the extension stands for. -/
theorem claimed_read {order : List (Str × Resolver) → List (Str × Resolver)} (ho : ∀ l, (order l).Perm l) {th : Nat} {ext n : Str} {w : World}
    (hd : (w.entries.map (·.1)).Nodup) (hu : w.off th = false) (h : fromExt order th ext w = some (.custom n)) :
    ∃ r, (n, r) ∈ w.entries ∧ r.extension = some (ext.map lowerChar) ∧ reader th (some (.custom n)) w = (.ok (.inr r), w) := by
  unfold fromExt at h
  rw [hu] at h
  simp only [Bool.false_eq_true, if_false] at h
  split at h
  · cases h
  · rename_i hp
    split at h
    · rename_i e hf
      obtain rfl := AnyType.custom.inj (Option.some.inj h)
      have h1 := (ho _).mem_iff.mp (List.mem_of_find?_eq_some hf)
      have h2 := List.find?_some hf
      refine ⟨e.2, h1, by simpa using h2, ?_⟩
      have : w.entries.find? (fun x => decide (x.1 = e.1)) = some e := by
        clear hf hp h h2
        induction hw : w.entries generalizing w with
        | nil => rw [hw] at h1; cases h1
        | cons a l ih =>
          rw [hw] at h1 hd
          simp only [List.map_cons, List.nodup_cons, List.mem_map, not_exists, not_and] at hd
          rw [List.find?_cons]
          rcases List.mem_cons.mp h1 with rfl | h1
          · simp
          · have : a.1 ≠ e.1 := fun hx => hd.1 e h1 hx.symm
            simp only [this, decide_false]
            exact ih (w := { w with entries := l }) hd.2 hu h1 rfl
      unfold reader lookup
      simp only [hu, Bool.false_eq_true, if_false, hp, this]
      rfl
    · cases hk : FileType.fromExt ext with
      | none => rw [hk] at h; cases h
      | some k => rw [hk] at h; cases h

/-! ## Where it goes wrong -/

/-- **After a panic with the lock held** nothing recovers: in every continuation, each thread that uses resolvers (the default) gets
no type for any extension, `mp3` included, and every registration panics. -/
theorem poisoned_forever {w : World} (h : w.poisoned = true) (cs : List (Nat × Op)) :
    (∀ order th ext, (run cs w).off th = false → fromExt order th ext (run cs w) = none) ∧
    (∀ n r, (register n r (run cs w)).1 = .error .panic) ∧ ∀ n, (lookup n (run cs w)).1 = .error .panic := by
  have hp : (run cs w).poisoned = true := by
    induction cs generalizing w with
    | nil => exact h
    | cons c cs ih => exact ih (step_poisoned c w h)
  refine ⟨fun order th ext hu => ?_, fun n r => ?_, fun n => ?_⟩
  · unfold fromExt; rw [hu, hp]; rfl
  · unfold register; rw [hp]; rfl
  · unfold lookup; rw [hp]; rfl

/-- **A failed registration breaks the detection by extension** for the rest of the program, and so does asking for
the tags of a type that is not registered. -/
theorem failed_call_poisons {w : World} (h : w.poisoned = false) :
    (∀ n r, (register n r w).1 = .error .panic → (register n r w).2.poisoned = true) ∧
    ∀ n, (∀ e ∈ w.entries, e.1 ≠ n) → (primaryTagType (.custom n) w).2.poisoned = true := by
  constructor
  · intro n r hr
    unfold register at hr ⊢
    rw [h] at hr ⊢
    simp only [Bool.false_eq_true, if_false] at hr ⊢
    split
    · rfl
    · rename_i hx; rw [if_neg hx] at hr; cases hr
  · intro n hn
    have : w.entries.find? (fun x => decide (x.1 = n)) = none := List.find?_eq_none.mpr (by intro e he; simpa using hn e he)
    simp only [primaryTagType, lookup, h, Bool.false_eq_true, if_false, this]

/-- A resolver for files that begin with `my`. -/
def mine (ext : String) : Resolver :=
  ⟨some (str ext), .id3v2, fun t => if t = .id3v2 then .readWrite else .unsupported,
    fun b => .ok (if b.take 2 = ascii "my" then some (.custom (str "My")) else none)⟩

/-- The same name twice: `mp3` is unknown afterwards. -/
theorem twice_registered : let w := (register (str "My") (mine "my") (register (str "My") (mine "my") .start).2).2
    fromExt id 0 (str "mp3") .start = some (.known .mpeg) ∧ fromExt id 0 (str "mp3") w = none ∧
    fromExt id 0 (str "mp3") (setUse 0 false w) = some (.known .mpeg) := by decide +kernel

/-- **An extension with capital letters** is never found, since the one looked for is in small letters. -/
theorem capital_extension : let w := (register (str "My") (mine "My") .start).2
    fromExt id 0 (str "My") w = none ∧ fromExt id 0 (str "my") w = none := by decide +kernel

/-- **The same resolver under two names** is accepted, against the documentation; the order of the hash map then decides. -/
theorem same_type_twice : let w := (register (str "B") (mine "my") (register (str "A") (mine "my") .start).2).2
    (register (str "B") (mine "my") (register (str "A") (mine "my") .start).2).1.isOk = true ∧
    fromExt id 0 (str "my") w = some (.custom (str "A")) ∧ fromExt List.reverse 0 (str "my") w = some (.custom (str "B")) := by
  decide +kernel

/-! ## Examples -/

/-- A registry with one resolver. -/
def one : World := (register (str "My") (mine "my") .start).2

example : fromExt List.reverse 3 (str "MY") one = some (.custom (str "My")) :=
  ext_claimed (e := (str "My", mine "my")) (fun l => List.reverse_perm l) rfl rfl (by simp [one, register, World.start]) (by decide +kernel) (by
    intro e he _
    simp only [one, register, World.start] at he
    simp at he
    rw [he])

example : fromExt id 3 (str "mp3") one = some (.known .mpeg) := by
  rw [ext_unclaimed_partial (order := id) (fun l => List.Perm.refl l) (.inr ⟨rfl, by decide +kernel⟩)]
  decide +kernel

example : (guess id 0 (ascii "my file") 0 100 one).1 = .ok (some (.custom (str "My")), 0) := by
  rw [content_claimed (order := id) (t := .custom (str "My")) (fun l => List.Perm.refl l) rfl rfl (by decide +kernel) (by decide +kernel)]

/-- Two threads: the second registration of another name and reading do not disturb the first. -/
example : (lookup (str "My") (run [(1, .register (str "Other") (mine "other")), (0, .read (some (.custom (str "Other")))), (1, .setUse false)] one)).1 =
    .ok (mine "my") :=
  registered_stays_partial (w := .start) _ rfl (by decide +kernel)

end Lofty.Resolvers
