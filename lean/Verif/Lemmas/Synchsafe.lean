import Verif.Model.Synchsafe
import Verif.Spec.Synchsafe
import Verif.Lemmas.Bytes
/-! Helper lemmas for C02. -/
namespace Lofty.Synchsafe

theorem desync_cons (a : UInt8) (r : Bytes) :
    desync (a :: r) = a :: (match a == 0xFF, r with
      | true, b :: r' => if b = 0 then desync r' else desync (b :: r')
      | _, r => desync r) := by
  cases r with
  | nil => by_cases h : a = 0xFF <;> simp [desync, h]
  | cons b r =>
    by_cases h : a = 0xFF <;> by_cases h2 : b = 0 <;> simp [desync, h, h2]

/-- what remains to be delivered in a stream state -/
def pending (avail : Bytes) (inner : List Bytes) (ff : Bool) : Bytes :=
  match ff, avail ++ inner.flatten with
  | true, 0 :: r => desync r
  | _, r => desync r

theorem pending_refill (c : Bytes) (cs : List Bytes) (ff : Bool) :
    pending [] (c :: cs) ff = pending c cs ff := by
  simp [pending]

theorem readLoop_spec (n : Nat) (avail : Bytes) (inner : List Bytes) (ff : Bool)
    (hne : ∀ c ∈ inner, c ≠ []) :
    (readLoop n avail inner ff).1 = (pending avail inner ff).take n ∧
    (let s := (readLoop n avail inner ff).2
     pending s.avail s.inner s.ff = (pending avail inner ff).drop n ∧ ∀ c ∈ s.inner, c ≠ []) := by
  fun_induction readLoop n avail inner ff with
  | case1 => simpa using hne
  | case2 ff n => cases ff <;> simp [pending, desync]
  | case3 => simp at hne
  | case4 ff n b c cs ih =>
    rw [pending_refill]
    exact ih (fun c hc => hne c (List.mem_cons_of_mem _ hc))
  | case5 ff n b rest cs h ih =>
    simp only [Bool.and_eq_true, beq_iff_eq] at h
    obtain ⟨rfl, rfl⟩ := h
    have := ih hne
    have e : pending (0 :: rest) cs true = pending rest cs false := by simp [pending]
    rw [e]; exact this
  | case6 ff n b rest cs h r ih =>
    have ih := ih hne
    have e : pending (b :: rest) cs ff = b :: pending rest cs (b == 0xFF) := by
      have : pending (b :: rest) cs ff = desync (b :: (rest ++ cs.flatten)) := by
        unfold pending
        cases ff <;> simp_all
      rw [this, desync_cons]
      unfold pending
      cases hb : (b == 0xFF) <;> cases hr : rest ++ cs.flatten
      · rfl
      · rfl
      · rfl
      · next x xs => by_cases hx : x = 0 <;> simp [hx]
    rw [e]
    simp only [List.take_succ_cons, List.drop_succ_cons, List.cons.injEq, true_and]
    exact ih

theorem readLoop_prefix (n : Nat) (avail : Bytes) (inner : List Bytes) (ff : Bool) :
    (readLoop n avail inner ff).1 ++ (let s := (readLoop n avail inner ff).2; pending s.avail s.inner s.ff)
      = pending avail inner ff := by
  fun_induction readLoop n avail inner ff with
  | case1 => simp
  | case2 ff n => simp
  | case3 ff n cs => simp [pending]
  | case4 ff n b c cs ih => rw [pending_refill]; exact ih
  | case5 ff n b rest cs h ih =>
    simp only [Bool.and_eq_true, beq_iff_eq] at h
    obtain ⟨rfl, rfl⟩ := h
    have e : pending (0 :: rest) cs true = pending rest cs false := by simp [pending]
    rw [e]; exact ih
  | case6 ff n b rest cs h r ih =>
    have e : pending (b :: rest) cs ff = b :: pending rest cs (b == 0xFF) := by
      have : pending (b :: rest) cs ff = desync (b :: (rest ++ cs.flatten)) := by
        unfold pending
        cases ff <;> simp_all
      rw [this, desync_cons]
      unfold pending
      cases hb : (b == 0xFF) <;> cases hr : rest ++ cs.flatten
      · rfl
      · rfl
      · rfl
      · next x xs => by_cases hx : x = 0 <;> simp [hx]
    rw [e, List.cons_append]
    exact congrArg _ ih

theorem reads_prefix (s : Stream) (ns : List Nat) :
    (s.reads ns).1.flatten ++ (let t := (s.reads ns).2; pending t.avail t.inner t.ff)
      = pending s.avail s.inner s.ff := by
  induction ns generalizing s with
  | nil => rfl
  | cons n ns ih =>
    simp only [Stream.reads, List.flatten_cons, List.append_assoc]
    rw [ih (s.read n).2]
    unfold Stream.read
    by_cases hn : n = 0
    · simp [hn]
    · simp only [hn, if_false]
      exact readLoop_prefix n s.avail s.inner s.ff

theorem reads_spec (s : Stream) (ns : List Nat) (hne : ∀ c ∈ s.inner, c ≠ []) :
    (s.reads ns).1 = pieces (pending s.avail s.inner s.ff) ns := by
  induction ns generalizing s with
  | nil => rfl
  | cons n ns ih =>
    simp only [Stream.reads, Stream.read, pieces]
    by_cases hn : n = 0
    · subst hn
      simp [ih s hne]
    · simp only [hn, if_false]
      obtain ⟨h1, h2, h3⟩ := readLoop_spec n s.avail s.inner s.ff hne
      rw [h1, ih _ h3, h2]

theorem desync_unsyncWith (needs : Bytes → Bool) (d : Bytes)
    (h0 : ∀ r, needs (0 :: r) = true) : desync (unsyncWith needs d) = d := by
  induction d with
  | nil => rfl
  | cons b r ih =>
    unfold unsyncWith
    split
    · next h => simp [desync, h.1, ih]
    · next h =>
      rw [desync_cons]
      congr 1
      cases hb : (b == 0xFF)
      · simpa using ih
      · simp only [beq_iff_eq] at hb
        have hn : needs r = false := by simpa [hb] using h
        cases r with
        | nil => simp [unsyncWith, desync]
        | cons x xs =>
          have hx : x ≠ 0 := by rintro rfl; simp [h0] at hn
          have hh : ∃ t, unsyncWith needs (x :: xs) = x :: t := by
            unfold unsyncWith; split <;> exact ⟨_, rfl⟩
          obtain ⟨t, ht⟩ := hh
          rw [ht] at ih ⊢
          simp [hx, ih]

end Lofty.Synchsafe
