import Verif.Model.Links
import Verif.Props.Id3v2Items
/-!
# Link frames can always be written (C92)
-/
namespace Lofty.Id3v2

/-- **A link is accepted exactly if Latin-1 has all its characters**; otherwise the frame stays as it is. -/
theorem setUrl_spec (f : UrlF) (url : Str) :
    ((f.setUrl url).1 = true ↔ ∀ c ∈ url, c.toNat ≤ 255) ∧
    (f.setUrl url).2 = (if (f.setUrl url).1 then { f with url := url } else f) := by
  unfold UrlF.setUrl Text.verifyLatin1
  constructor
  · split
    · rename_i h; simpa using h
    · rename_i h; simpa using h
  · split <;> rfl

/-- The frame can be written, whatever the options are. -/
def UrlF.Writable (f : UrlF) : Prop := ∀ o : WriteOpts, ∃ b, f.asBytes o = .ok b

/-- Which frames can be written. -/
theorem writable_iff (f : UrlF) : f.Writable ↔ ∀ c ∈ f.url, c.toNat ≤ 255 := by
  constructor
  · intro h c hc
    apply Classical.byContradiction
    intro hn
    obtain ⟨b, hb⟩ := h ⟨false, false, false⟩
    obtain ⟨e, he⟩ := (Text.encode_fails_iff false .latin1 f.url false false).mpr ⟨rfl, rfl, c, hc, by omega⟩
    have : f.asBytes ⟨false, false, false⟩ = .error e := he
    rw [this] at hb
    cases hb
  · intro h o
    cases hb : f.asBytes o with
    | ok b => exact ⟨b, rfl⟩
    | error e =>
      have he : ∃ err, Text.encode o.ne .latin1 f.url false o.lossy = .error err := ⟨e, hb⟩
      obtain ⟨_, _, c, hc, hlt⟩ := (Text.encode_fails_iff _ _ _ _ _).mp he
      have := h c hc
      omega

/-- **A frame that was read can be written.** -/
theorem parsed_writable {id : FrameId} {r r' : Bytes} {f : UrlF} (h : UrlF.parse id r = .ok (some f, r')) : f.Writable := by
  rw [writable_iff]
  unfold UrlF.parse at h
  obtain ⟨⟨u, x⟩, h1, h2⟩ := bind_ok h
  have hu : ∀ c ∈ u.content, c.toNat ≤ 255 := by
    have key : ∀ b : Bytes, ∀ c ∈ Text.latin1Decode b, c.toNat ≤ 255 := by
      intro b c hc
      unfold Text.latin1Decode Text.trimEndNulls at hc
      rw [List.mem_reverse] at hc
      have := (List.dropWhile_sublist _).subset hc
      rw [List.mem_reverse, List.mem_map] at this
      obtain ⟨x, _, rfl⟩ := this
      have hx := x.toNat_lt
      rw [toNat_charOfNat x.toNat (Or.inl (by omega))]
      omega
    unfold termText Text.decodeText at h1
    rw [if_pos rfl] at h1
    generalize Text.readToTerminator .latin1 r = z at h1
    obtain ⟨raw, tl, rest⟩ := z
    simp only at h1
    split at h1
    · obtain ⟨rfl, _⟩ := Prod.mk.inj ((Except.ok.injEq _ _).mp h1)
      intro c hc
      cases hc
    · simp only [Text.decodeRaw, Except.map, Except.ok.injEq, Prod.mk.injEq] at h1
      rw [← h1.1]
      exact key raw
  simp only at h2
  split at h2
  · have := (Except.ok.injEq _ _).mp h2
    cases this
  · obtain ⟨h3, _⟩ := Prod.mk.inj ((Except.ok.injEq _ _).mp h2)
    rw [← (Option.some.injEq _ _).mp h3]
    exact hu

/-- **After any number of changes** a frame that could be written still can, and its link is the last one that was
accepted. -/
theorem links_written {f : UrlF} (h : f.Writable) (urls : List Str) :
    (urls.foldl (fun f u => (f.setUrl u).2) f).Writable ∧
    (urls.foldl (fun f u => (f.setUrl u).2) f).url =
      ((urls.filter fun u => u.all fun c => c.toNat ≤ 255).getLast?).getD f.url := by
  induction urls generalizing f with
  | nil => exact ⟨h, rfl⟩
  | cons u urls ih =>
    rw [List.foldl_cons]
    by_cases hu : ∀ c ∈ u, c.toNat ≤ 255
    · have hall : (u.all fun c => decide (c.toNat ≤ 255)) = true := by simpa using hu
      have he : (f.setUrl u).2 = { f with url := u } := by
        rw [(setUrl_spec f u).2, if_pos ((setUrl_spec f u).1.mpr hu)]
      rw [he]
      obtain ⟨h1, h2⟩ := ih (f := { f with url := u }) ((writable_iff _).mpr hu)
      refine ⟨h1, h2.trans ?_⟩
      rw [List.filter_cons, if_pos hall, List.getLast?_cons]
      simp
    · have hall : ¬ (u.all fun c => decide (c.toNat ≤ 255)) = true := by simpa using hu
      have he : (f.setUrl u).2 = f := by
        rw [(setUrl_spec f u).2, if_neg (fun hc => hu ((setUrl_spec f u).1.mp hc))]
      rw [he, List.filter_cons, if_neg hall]
      exact ih h

example : (UrlF.mk (.valid (str "WCOM")) (str "http://é")).Writable := (writable_iff _).mpr (by decide)

end Lofty.Id3v2
