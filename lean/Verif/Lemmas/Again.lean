import Verif.Spec.Again
import Verif.Props.FileTags
/-!
# Lemmas: files after saves, byte by byte
-/
namespace Lofty.FileTags

/-- The bytes of the tags of a file. -/
structure Parts where
  lead : Bytes
  ape : Bytes
  v1 : Bytes

def Parts.file (p : Parts) (audio : Bytes) : Bytes := p.lead ++ (audio ++ (p.ape ++ p.v1))

/-- The tags after a save. -/
def Parts.after (p : Parts) (b : Bytes) : Kind → Parts
  | .id3v2 => { p with lead := b }
  | .ape => { p with ape := b }
  | .id3v1 => { p with v1 := b }

/-- Tags that were written by the library. -/
structure Parts.Ours (p : Parts) (audio : Bytes) : Prop where
  lead : p.lead = [] ∨ Id3v2.Written p.lead
  ape : p.ape = [] ∨ ∃ t, Ape.Good t ∧ Ape.createTag t = .ok p.ape ∧ p.ape.length < 2 ^ 32
  v1 : p.v1 = [] ∨ ∃ lossy t, Id3v1.encode lossy t = .ok p.v1
  last : ¬ Id3v1.Tagged (audio ++ p.ape)

theorem step_bytes {o : Opts} {audio b : Bytes} {p : Parts} {s : Save} (ha : Audio o audio) (hs : s.Found audio)
    (hp : p.Ours audio) (hb : s.encoded = .ok b) :
    s.run o.junk (p.file audio) = .ok ((p.after b s.kind).file audio) ∧ (p.after b s.kind).Ours audio := by
  have hlong := ha.long
  obtain ⟨lead, ape, v1⟩ := p
  obtain ⟨hx, hy, hz, hv⟩ := hp
  simp only at hx hy hz hv
  unfold Parts.file
  cases s with
  | id3v2 fl w padding fs =>
    simp only [Save.encoded] at hb
    have hw : Id3v2.writeFile (lead ++ (audio ++ (ape ++ v1))) o.junk b = .ok (b ++ (audio ++ (ape ++ v1))) := by
      rcases hx with rfl | h
      · apply Id3v2.writeFile_untagged
        rw [List.nil_append, List.take_append_of_le_length ha.junk.2]
        exact ha.noId3v2
      · exact Id3v2.writeFile_tagged h _ _ _ ha.junk.1
    refine ⟨?_, ?_, hy, hz, hv⟩
    · simp only [Save.run, saveId3v2]
      rw [hb, ok_bind, hw]
      rfl
    · cases fs with
      | nil =>
        obtain rfl := (Except.ok.injEq _ _).mp hb
        exact .inl rfl
      | cons fr fs =>
        rcases hs with hs | ⟨h2, h3, h4, h7⟩
        · simp at hs
        · rw [if_neg (by simp)] at hb
          obtain ⟨body, hbody, hb⟩ := bind_ok hb
          exact .inr ⟨fl, w.v23, padding, body, h2, h3, h4, h7 body hbody, hb⟩
  | ape t =>
    simp only [Save.encoded] at hb
    have hlead : Ape.Leading lead (audio ++ (ape ++ v1)) := by
      rcases hx with rfl | h
      · apply Ape.leading_nil
        · rw [List.take_append_of_le_length (by omega), ← Id3v2.id3_bytes]
          exact noMarker_take3 ha.noId3v2 ha.junk.1
        · simp only [List.length_append]; omega
      · exact Ape.leading_written h _
    have htr : Ape.Trailing (lead ++ (audio ++ ape)) v1 := by
      rcases hz with rfl | ⟨lossy, t, hb⟩
      · exact .none (by rwa [tagged_append (by simp; omega)])
      · obtain ⟨h1, h2, -⟩ := Id3v1.parse_encode (strict := false) hb
        exact .tag h1 h2
    have hw : Ape.writeTo {} (lead ++ (audio ++ (ape ++ v1))) t = .ok (lead ++ (audio ++ (b ++ v1))) := by
      rcases hy with rfl | ⟨t0, hg, hb0, hsize⟩
      · exact Ape.writeTo_untagged {} lead audio v1 b t hlead (by simpa using htr) (by omega) ha.noApe8 ha.noApeEnd hb
      · exact Ape.writeTo_tagged {} rfl lead audio ape v1 b t t0 hlead htr (by omega) ha.noApe8 hg hb0 hsize hb
    refine ⟨hw, hx, ?_, hz, ?_⟩
    all_goals simp only [Parts.after, Save.kind]
    · by_cases hi : t.items = []
      · left
        have := (Ape.createTag_total t).1 hi
        rw [hb] at this
        exact (Except.ok.injEq _ _).mp this
      · rcases hs with hs | ⟨hg, hs⟩
        · exact absurd hs hi
        · exact .inr ⟨t, hg, hb, (hs b hb).1⟩
    · by_cases hi : t.items = []
      · have := (Ape.createTag_total t).1 hi
        rw [hb] at this
        obtain rfl := (Except.ok.injEq _ _).mp this
        rw [List.append_nil]
        exact ha.noId3v1
      · rcases hs with hs | ⟨hg, hs⟩
        · exact absurd hs hi
        · exact (hs b hb).2
  | id3v1 lossy t =>
    simp only [Save.encoded] at hb
    have e : ∀ v, lead ++ (audio ++ (ape ++ v)) = (lead ++ (audio ++ ape)) ++ v := by intro v; simp
    refine ⟨?_, hx, hy, .inr ⟨lossy, t, hb⟩, hv⟩
    simp only [Save.run, Parts.after, Save.kind]
    rw [e, e]
    rcases hz with rfl | ⟨l0, t0, hb0⟩
    · rw [List.append_nil]
      exact Id3v1.write_untagged (by rwa [tagged_append (by simp; omega)]) hb
    · obtain ⟨h1, h2, -⟩ := Id3v1.parse_encode (strict := false) hb0
      have hw := Id3v1.write_tagged (audio := lead ++ (audio ++ ape)) h1 h2 hb
      rw [if_neg hs] at hw
      exact hw

theorem parts_plain {o : Opts} {audio : Bytes} (ha : Audio o audio) : (⟨[], [], []⟩ : Parts).Ours audio where
  lead := .inl rfl
  ape := .inl rfl
  v1 := .inl rfl
  last := by rw [List.append_nil]; exact ha.noId3v1

theorem runAll_append (junk : Nat) (l l' : List Save) (f : Bytes) :
    runAll junk (l ++ l') f = (runAll junk l f).bind (runAll junk l') := by
  induction l generalizing f with
  | nil => rfl
  | cons s l ih =>
    rw [List.cons_append, runAll, runAll]
    cases s.run junk f with
    | error e => rfl
    | ok g => exact ih g

theorem lastSave_concat (k : Kind) (l : List Save) (s : Save) :
    lastSave k (l ++ [s]) = if s.kind = k then some s else lastSave k l := by
  unfold lastSave
  by_cases h : s.kind = k <;> simp [h]

/-- The file after any saves. -/
theorem runAll_bytes {o : Opts} {audio : Bytes} (ha : Audio o audio) : ∀ (n : Nat) (l : List Save) (g : Bytes), l.length = n →
    (∀ s ∈ l, s.Found audio) → runAll o.junk l audio = .ok g →
    ∃ p : Parts, g = p.file audio ∧ p.Ours audio ∧ lastBytes .id3v2 l = .ok p.lead ∧ lastBytes .ape l = .ok p.ape ∧
      lastBytes .id3v1 l = .ok p.v1 := by
  intro n
  induction n with
  | zero =>
    intro l g hl _ h
    obtain rfl := List.eq_nil_of_length_eq_zero hl
    obtain rfl := (Except.ok.injEq _ _).mp h
    exact ⟨⟨[], [], []⟩, by simp [Parts.file], parts_plain ha, rfl, rfl, rfl⟩
  | succ n ih =>
    intro l g hl hs h
    rcases List.eq_nil_or_concat l with rfl | ⟨l, s, rfl⟩
    · simp at hl
    rw [List.concat_eq_append] at *
    rw [runAll_append] at h
    obtain ⟨f, hf, h⟩ := bind_ok h
    obtain ⟨p, rfl, hp, h1, h2, h3⟩ := ih l f (by simpa using hl) (fun s' hs' => hs s' (by simp [hs'])) hf
    rw [runAll] at h
    obtain ⟨g', hg, h⟩ := bind_ok h
    obtain rfl := (Except.ok.injEq _ _).mp h
    obtain ⟨b, hb⟩ := encoded_of_run hg
    obtain ⟨a1, a2⟩ := step_bytes ha (hs s (by simp)) hp hb
    rw [hg] at a1
    refine ⟨p.after b s.kind, (Except.ok.injEq _ _).mp a1, a2, ?_⟩
    unfold lastBytes at *
    simp only [lastSave_concat]
    cases hk : s.kind
    · exact ⟨by rw [if_pos rfl]; exact hb, by rw [if_neg (by simp)]; exact h2, by rw [if_neg (by simp)]; exact h3⟩
    · exact ⟨by rw [if_neg (by simp)]; exact h1, by rw [if_pos rfl]; exact hb, by rw [if_neg (by simp)]; exact h3⟩
    · exact ⟨by rw [if_neg (by simp)]; exact h1, by rw [if_neg (by simp)]; exact h2, by rw [if_pos rfl]; exact hb⟩

end Lofty.FileTags
