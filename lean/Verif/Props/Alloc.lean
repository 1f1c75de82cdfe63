import Verif.Lemmas.Alloc
import Verif.Model.Vorbis
import Verif.Lemmas.Text
/-!
# C86: the code that the compiler does not check does nothing undefined

Buffers whose size a file decides are filled through a raw pointer, and the keys of Vorbis comments become strings without a
check.  Rust leaves it undefined what happens if memory outside of the buffer or not yet written is used, or if the bytes of a
string are not UTF-8.
-/
namespace Lofty.Alloc
variable {α : Type}

/-- A vector as safe code has it: its elements exist and are initialised. -/
def Buf.Valid (b : Buf α) : Prop := b.len ≤ b.cells.length ∧ ∀ c ∈ b.cells.take b.len, c.isSome = true

/-- Its elements. -/
def Buf.elements (b : Buf α) : List α := (b.cells.take b.len).filterMap id

theorem filterMap_some (xs : List α) : (xs.map some).filterMap id = xs := by
  induction xs with
  | nil => rfl
  | cons x xs ih => simp [ih]

/-- Repeating an element into a vector that is not longer than asked for is never undefined; if it succeeds, the vector is valid
and has its old elements and clones behind them. -/
theorem repeat_safe (w : World α) (limit : Nat) (b : Buf α) (n : Nat) (hb : b.Valid) (hn : b.len ≤ n) :
    repeatInto w limit b n ≠ .undefined ∧
    ∀ b', repeatInto w limit b n = .ok b' → b'.Valid ∧ b'.len = n ∧
      ∃ xs, b'.elements = b.elements ++ xs ∧ ∀ i (h : i < xs.length), w.clone i = some xs[i] := by
  unfold repeatInto
  by_cases h0 : n = 0
  · rw [if_pos h0]
    refine ⟨by simp, ?_⟩
    intro b' h
    obtain rfl := (Out.ok.injEq _ _).mp h
    exact ⟨hb, by omega, [], by simp, by intro i h; simp at h⟩
  rw [if_neg h0]
  by_cases hl : n > limit
  · rw [if_pos hl]; exact ⟨by simp, by intro b' h; cases h⟩
  rw [if_neg hl]
  rcases reserve_cases w b n with ⟨c, hc⟩ | hc
  · obtain ⟨r1, r2, r3⟩ := reserve_ok hb.1 hc
    rw [hc]
    simp only
    have hi : ((c.cells.take c.len).all Option.isSome) = true := by
      rw [r1, r3]; exact List.all_eq_true.mpr hb.2
    rcases fill_spec w c.block n (n - c.len) (c.cells.length + 1) c.len 0 c (by omega) (by omega) (by omega) rfl hi with
      ⟨j, _, _, _, h4⟩ | ⟨xs, h1, h2, b', h3, h4, h5, h6⟩
    · rw [h4]; exact ⟨by simp, by intro b' h; cases h⟩
    · rw [h3]
      refine ⟨by simp, ?_⟩
      intro b'' h
      obtain rfl := (Out.ok.injEq _ _).mp h
      refine ⟨⟨by omega, ?_⟩, h4, xs, ?_, ?_⟩
      · rw [h4, h6]
        intro x hx
        rcases List.mem_append.mp hx with hx | hx
        · exact List.all_eq_true.mp hi x hx
        · obtain ⟨y, _, rfl⟩ := List.mem_map.mp hx; rfl
      · unfold Buf.elements
        rw [h4, h6, List.filterMap_append, filterMap_some, r1, r3]
      · intro i hi; simpa using h2 i hi
  · rw [hc]; exact ⟨by simp, by intro b' h; cases h⟩

/-- `try_vec![x; n]` is never undefined, whatever the size, the limit, the allocator and `clone` do. -/
theorem vec_never_undefined (w : World α) (limit n : Nat) : fromElement w limit n ≠ .undefined :=
  (repeat_safe w limit Buf.new n ⟨Nat.le_refl _, by intro c h; cases h⟩ (Nat.zero_le _)).1

/-- If it succeeds, it is the vector of `n` copies, and `n` is within the limit. -/
theorem vec_exact {w : World α} {limit n : Nat} {x : α} {b : Buf α} (hx : ∀ i, w.clone i = some x)
    (h : fromElement w limit n = .ok b) : b.Valid ∧ b.elements = List.replicate n x ∧ n ≤ limit := by
  obtain ⟨h1, h2, xs, h3, h4⟩ := (repeat_safe w limit Buf.new n ⟨Nat.le_refl _, by intro c h; cases h⟩ (Nat.zero_le _)).2 b h
  have hl : n ≤ limit := by
    unfold fromElement repeatInto at h
    by_cases h0 : n = 0
    · omega
    · rw [if_neg h0] at h
      by_cases hn : n > limit
      · rw [if_pos hn] at h; cases h
      · omega
  refine ⟨h1, ?_, hl⟩
  have he : b.elements = xs := by rw [h3]; rfl
  have hlen : xs.length = n := by
    rw [← he, ← h2]
    unfold Buf.elements
    have : ∀ l : List (Option α), (∀ c ∈ l, c.isSome = true) → (l.filterMap id).length = l.length := by
      intro l
      induction l with
      | nil => intro _; rfl
      | cons a l ih =>
        intro h
        obtain ⟨y, rfl⟩ := Option.isSome_iff_exists.mp (h a List.mem_cons_self)
        simp [ih fun c hc => h c (List.mem_cons_of_mem _ hc)]
    rw [this _ h1.2, List.length_take]
    exact Nat.min_eq_left h1.1
  rw [he]
  refine List.eq_replicate_iff.mpr ⟨hlen, ?_⟩
  intro y hy
  obtain ⟨i, hi, rfl⟩ := List.mem_iff_getElem.mp hy
  have := h4 i hi
  rw [hx i] at this
  exact (Option.some.inj this).symm

/-- When it succeeds: if the size is zero, or within the limit and the allocator has the memory. -/
theorem vec_succeeds {w : World α} {limit n : Nat} {x : α} (hx : ∀ i, w.clone i = some x) :
    (∃ b, fromElement w limit n = .ok b) ↔ n = 0 ∨ (n ≤ limit ∧ n * w.size < 2 ^ 63 ∧ (w.alloc n).isSome = true) := by
  unfold fromElement repeatInto
  by_cases h0 : n = 0
  · simp [h0]
  rw [if_neg h0]
  by_cases hl : n > limit
  · rw [if_pos hl]
    constructor
    · rintro ⟨b, h⟩; cases h
    · rintro (h | ⟨h, _⟩) <;> omega
  rw [if_neg hl]
  have hr : reserve w Buf.new n = (if 2 ^ 63 ≤ n * w.size then .err .reserve else
      match w.alloc n with
      | none => .err .reserve
      | some extra => .ok ⟨[] ++ List.replicate (0 + n + extra - 0) none, 0, 0 + 1⟩) := by
    unfold reserve
    rw [if_neg (by simp [Buf.new]; omega)]
    simp only [Buf.new, Nat.zero_add, List.take_nil]
    rfl
  by_cases hs : 2 ^ 63 ≤ n * w.size
  · rw [hr, if_pos hs]
    constructor
    · rintro ⟨b, h⟩; cases h
    · rintro (h | ⟨_, h, _⟩) <;> omega
  · rw [hr, if_neg hs]
    cases ha : w.alloc n with
    | none =>
      constructor
      · rintro ⟨b, h⟩; cases h
      · rintro (h | ⟨_, _, h⟩)
        · omega
        · cases h
    | some extra =>
      constructor
      · intro _; exact .inr ⟨by omega, by omega, rfl⟩
      · intro _
        simp only
        rcases fill_spec w 1 n n (0 + n + extra + 1) 0 0 ⟨List.replicate (0 + n + extra) none, 0, 1⟩ (by omega) (by omega)
          (by simp) rfl (by simp) with ⟨j, _, _, h3, _⟩ | ⟨xs, _, _, b', h3, _⟩
        · rw [hx j] at h3; cases h3
        · exact ⟨b', by simpa using h3⟩

/-- A size over the limit is refused before memory is asked for. -/
theorem vec_limit (w : World α) {limit n : Nat} (h : limit < n) :
    fromElement w limit n = .err .limitExceeded ∧ withCapacity w limit n = .err .limitExceeded := by
  unfold fromElement repeatInto withCapacity
  rw [if_neg (by omega), if_pos h, if_pos h]
  exact ⟨rfl, rfl⟩

/-- A vector with reserved memory is empty and has room. -/
theorem capacity_exact {w : World α} {limit n : Nat} {b : Buf α} (h : withCapacity w limit n = .ok b) :
    b.Valid ∧ b.elements = [] ∧ n ≤ b.cells.length ∧ n ≤ limit := by
  unfold withCapacity at h
  split at h
  · cases h
  · obtain ⟨h1, h2, _⟩ := reserve_ok (Nat.le_refl _) h
    have h1 : b.len = 0 := h1
    have h2 : 0 + n ≤ b.cells.length := h2
    refine ⟨⟨by omega, ?_⟩, ?_, by omega, by omega⟩
    · rw [h1]; intro c hc; cases hc
    · unfold Buf.elements; rw [h1]; rfl

/-- The condition on the length is needed: a longer vector is written beyond its memory.  No caller has one. -/
theorem longer_undefined : repeatInto (⟨1, fun _ => some 0, fun _ => some 7⟩ : World Nat) 10 ⟨[some 1, some 2], 2, 0⟩ 1 = .undefined := by
  decide

/-- The limit counts elements: for larger elements more bytes than the limit are reserved. -/
theorem limit_not_bytes : ∃ b, withCapacity (⟨8, fun _ => some 0, fun _ => some 0⟩ : World Nat) 16 16 = .ok b ∧
    16 < b.cells.length * 8 := ⟨_, rfl, by decide⟩

/-- The keys of Vorbis comments that are made strings without a check are UTF-8, and are the strings a check would give. -/
theorem key_is_utf8 {k : Bytes} (h : Vorbis.validKey k = true) : fromUtf8 k = some (Vorbis.asciiStr k) := by
  have e : utf8 (Vorbis.asciiStr k) = k := by
    have hall : ∀ b ∈ k, b.toNat ≤ 0x7D := by
      intro b hb
      have := List.all_eq_true.mp h b hb
      simp only [Bool.and_eq_true, decide_eq_true_eq] at this
      exact this.1.2
    clear h
    induction k with
    | nil => rfl
    | cons b k ih =>
      have hb := hall b List.mem_cons_self
      have hv : (Char.ofNat b.toNat).toNat = b.toNat := by
        have : b.toNat.isValidChar := Or.inl (by omega)
        simp [Char.ofNat, this, Char.toNat, Char.ofNatAux]
      show utf8 (Char.ofNat b.toNat :: Vorbis.asciiStr k) = b :: k
      rw [utf8_cons, utf8EncodeChar_ascii _ (by omega), hv, ih fun c hc => hall c (List.mem_cons_of_mem _ hc)]
      simp
  rw [← e, fromUtf8_utf8, e]

/-! ## Cases -/

/-- Bytes, with an allocator that gives a bit more than asked for. -/
def bytes : World UInt8 := ⟨1, fun _ => some 3, fun _ => some 0⟩

example : ∃ b, fromElement bytes 100 5 = .ok b ∧ b.elements = List.replicate 5 0 := by
  obtain ⟨b, h⟩ := (vec_succeeds (w := bytes) (limit := 100) (n := 5) (x := 0) fun _ => rfl).mpr (.inr (by decide))
  exact ⟨b, h, (vec_exact (fun _ => rfl) h).2.1⟩

/-- A clone that panics. -/
example : fromElement (⟨1, fun _ => some 0, fun i => if i = 3 then none else some 1⟩ : World Nat) 100 5 = .panic := by decide

/-- Elements that are behind the old ones. -/
example : (match repeatInto (⟨1, fun _ => some 2, fun _ => some 9⟩ : World Nat) 10 ⟨[some 1, some 2], 2, 0⟩ 4 with
    | .ok b => b.elements
    | _ => []) = [1, 2, 9, 9] := by decide

example : Vorbis.validKey (ascii "TITLE") = true ∧ Vorbis.validKey [0x54, 0xFF] = false := by decide +kernel

end Lofty.Alloc
