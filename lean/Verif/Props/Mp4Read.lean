import Verif.Lemmas.Mp4Read
import Verif.Props.Mp4Create
import Verif.Props.Ilst
/-!
# Reading the tag of an MP4 file

C58: the tag that is saved is the tag that is read.
-/
namespace Lofty.Mp4Read
open Lofty.Text Lofty.Mp4 Lofty.Ilst Lofty.Mp4Write

theorem tracks_append {f : Forest} (h : f.Ok) (p : Nat) (g : Forest) :
    tracks p (f.append g) = tracks p f ++ tracks (p + f.bytes.length) g := by
  induction f generalizing p with
  | nil => rfl
  | leaf id c rest ih =>
    rw [Forest.append, tracks, tracks, ih h.2.2, bytes_length_leaf h.1, Nat.add_assoc]
  | node id kids rest _ ih =>
    rw [Forest.append, tracks, tracks, ih h.2.2.2, bytes_length_node h.1, List.append_assoc, Nat.add_assoc]

/-- What user data holds, as far as it is looked at: the end of the last atom passed, and the
tag. -/
theorem udta_steps {cfg : Config} {moov1 kids moov2 : Forest} (h1 : moov1.Ok ∧ Silent moov1) (hk : kids.Ok)
    (h2 : moov2.Ok ∧ Silent moov2) (ht : cfg.tags = true) {r : Rd} {fuel : Nat}
    (ha : At r (moov1.append (.node (ascii "udta") kids moov2)).bytes)
    (hs : (moov1.append (.node (ascii "udta") kids moov2)).bytes.length < 2 ^ 32)
    (hf : (moov1.append (.node (ascii "udta") kids moov2)).bytes.length < fuel)
    (res : Except Err (Option Tag))
    (hu : ∀ r' : Rd, At r' (kids.bytes ++ moov2.bytes) → r'.f = r.f → ∃ skipped l2, (∀ x ∈ l2, IdOk x.1 ∧ Other x.1) ∧
      kids.bytes = skipped ++ boxes l2 ∧
      ilstFromUdta cfg r' kids.bytes.length = res >>= fun t => .ok (t, r'.skip skipped.length)) :
    moovLoop cfg fuel r ⟨[], none⟩ = res >>= fun t =>
      .ok ⟨found cfg r.pos (moov1.append (.node (ascii "udta") kids moov2)), t⟩ := by
  have hlen : (moov1.append (.node (ascii "udta") kids moov2)).bytes.length =
      moov1.bytes.length + (8 + kids.bytes.length + moov2.bytes.length) := by
    rw [append_bytes, List.length_append, bytes_length_node udta_ok]
  rw [append_bytes] at ha
  obtain ⟨n1, hn1, e1⟩ := loop_silent (cfg := cfg) _ moov1 h1.1 h1.2 r ⟨[], none⟩ ha (by omega)
  have ha1 := ha.skip rfl
  rw [Forest.bytes] at ha1
  have ha2 := into_box ha1 udta_ok
  obtain ⟨skipped, l2, hl2, hb, hu⟩ := hu _ ha2 rfl
  have hkl : kids.bytes.length = skipped.length + (boxes l2).length := by rw [hb, List.length_append]
  obtain ⟨k, rfl⟩ : ∃ k, fuel = n1 + (k + 1) := ⟨fuel - n1 - 1, by omega⟩
  rw [e1, moovLoop, next_box ha1 udta_ok (by omega)]
  simp only
  unfold moovStep
  rw [if_neg (by simp; intro h; exact absurd h (by decide)), if_pos (by simp [ht])]
  simp only
  rw [show 8 + kids.bytes.length - 8 = kids.bytes.length by omega, hu]
  cases res with
  | error e => rfl
  | ok t =>
    rw [ok_bind, ok_bind, ok_bind]
    simp only
    rw [hb, List.append_assoc] at ha2
    have ha3 := ha2.skip rfl
    have hl := length_le_boxes (fun x hx => (hl2 x hx).1)
    obtain ⟨k2, rfl⟩ : ∃ k2, k = l2.length + k2 := ⟨k - l2.length, by omega⟩
    rw [loop_other _ l2 hl2 k2 _ _ ha3 (by omega)]
    have ha4 := ha3.skip rfl
    rw [show moov2.bytes = moov2.bytes ++ [] by simp] at ha4
    have hpos : (((((r.skip moov1.bytes.length).skip 8).skip skipped.length)).skip (boxes l2).length).pos =
        r.pos + moov1.bytes.length + (8 + kids.bytes.length) := by
      simp only [skip_pos]
      omega
    generalize (((((r.skip moov1.bytes.length).skip 8).skip skipped.length)).skip (boxes l2).length) = r4 at ha4 hpos ⊢
    obtain ⟨n3, hn3, e3⟩ := loop_silent (cfg := cfg) [] moov2 h2.1 h2.2 r4 (Moov.add ⟨[] ++ found cfg r.pos moov1, none⟩ t) ha4 (by omega)
    obtain ⟨k3, rfl⟩ : ∃ k3, k2 = n3 + (k3 + 1) := ⟨k2 - n3 - 1, by omega⟩
    rw [e3, loop_end _ (ha4.skip rfl)]
    have hne : ¬ ascii "udta" = ascii "trak" := by decide
    have hfound : found cfg r.pos (moov1.append (.node (ascii "udta") kids moov2)) = found cfg r.pos moov1 ++ found cfg r4.pos moov2 := by
      unfold found
      cases cfg.properties
      · rfl
      · simp only [if_true]
        rw [tracks_append h1.1, tracks, if_neg hne, List.nil_append, hpos]
    rw [hfound]
    cases t <;> rfl

/-- **C58, reading.** The tag of a file is the content of the first `ilst` of the first `meta`
of the `udta` of the first `moov`, whatever atoms stand around it: before and behind `moov`,
`udta`, `meta` and `ilst`, padding included, and whether `meta` has a version field or not.
The tracks found do not depend on it either.  If the `ilst` cannot be read, neither can the
file. -/
theorem read_tag {before moov1 udta1 udta2 moov2 after : Forest} {version content : Bytes} {items1 items2 : List (Bytes × Bytes)}
    {brand : Str} {moov : Forest}
    (hm : moov = moov1.append (.node (ascii "udta") (udta1.append (.leaf (ascii "meta")
      (version ++ (boxes items1 ++ (box (ascii "ilst") content ++ boxes items2))) udta2)) moov2))
    (h : FileOk before moov after brand)
    (h1 : Silent moov1) (h2 : Silent moov2) (hu1 : ascii "meta" ∉ udta1.top) (hu2 : ∀ i ∈ udta2.top, Other i)
    (hv : MetaOk version (boxes items1 ++ (box (ascii "ilst") content ++ boxes items2)))
    (hi1 : ∀ x ∈ items1, IdOk x.1 ∧ x.1 ≠ ascii "ilst") (hi2 : ∀ x ∈ items2, IdOk x.1 ∧ Other x.1)
    (cfg : Config) (ht : cfg.tags = true) :
    readFrom cfg (whole before moov after).bytes =
      (if content.length > cfg.limit then .error .alloc else parse cfg.opts content) >>= fun t =>
        .ok (brand, ⟨found cfg (before.bytes.length + 8) moov, some t⟩) := by
  obtain ⟨r, ha, hp, hf, hr⟩ := read_moov h cfg
  have hin := h.inner
  have hsz : moov.bytes.length + 8 ≤ (whole before moov after).bytes.length := by
    rw [whole, append_bytes, List.length_append, bytes_length_node moov_ok]
    omega
  have hsize := h.size
  rw [hr]
  subst hm
  obtain ⟨o1, o2⟩ := ok_split hin
  have oku := ok_split o2.2.2.1
  have hkb : (udta1.append (.leaf (ascii "meta") (version ++ (boxes items1 ++ (box (ascii "ilst") content ++ boxes items2))) udta2)).bytes =
      udta1.bytes ++ (box (ascii "meta") (version ++ (boxes items1 ++ (box (ascii "ilst") content ++ boxes items2))) ++ udta2.bytes) := by
    rw [append_bytes, Forest.bytes]
  rw [udta_steps ⟨o1, h1⟩ o2.2.2.1 ⟨o2.2.2.2, h2⟩ ht ha (by omega) (by omega)
    ((if content.length > cfg.limit then .error .alloc else parse cfg.opts content) >>= fun t => .ok (some t))]
  · rw [hp]
    cases (if content.length > cfg.limit then .error .alloc else parse cfg.opts content) with
    | error e => rfl
    | ok t => rfl
  · intro r' ha' hf'
    refine ⟨udta1.bytes ++ (beBytes 4 (8 + (version ++ (boxes items1 ++ (box (ascii "ilst") content ++ boxes items2))).length) ++ (ascii "meta" ++
      (version ++ (boxes items1 ++ box (ascii "ilst") content)))), items2 ++ items udta2,
      fun x hx => (List.mem_append.mp hx).elim (hi2 x) fun hx => ⟨items_ok oku.2.2.2 x hx, items_names hu2 x hx⟩,
      by rw [hkb, boxes_append, items_bytes, box_eq (ascii "meta")]; simp only [List.append_assoc], ?_⟩
    rw [hkb] at ha' ⊢
    generalize hM : version ++ (boxes items1 ++ (box (ascii "ilst") content ++ boxes items2)) = M at ha' ⊢
    have hMl : M.length = version.length + ((boxes items1).length + (8 + content.length + (boxes items2).length)) := by
      rw [← hM]
      simp only [List.length_append]
      rw [box_length _ _ rfl]
    have hfl := ha'.2.2
    rw [hf', hf] at hfl
    simp only [List.length_append] at hfl
    rw [box_length _ _ rfl] at hfl
    have hu1' : ∀ x ∈ items udta1, IdOk x.1 ∧ x.1 ≠ ascii "meta" := fun x hx =>
      ⟨items_ok oku.1 x hx, items_names (P := fun i => i ≠ ascii "meta") (fun i hi e => hu1 (e ▸ hi)) x hx⟩
    have hub := items_bytes udta1
    rw [← hub] at hfl
    have a1 : At r' (boxes (items udta1) ++ (box (ascii "meta") M ++ (udta2.bytes ++ moov2.bytes))) := by
      rw [hub]
      simp only [List.append_assoc] at ha'
      exact ha'
    have hrf : r'.f.length = (whole before (moov1.append (.node (ascii "udta") (udta1.append (.leaf (ascii "meta") M udta2)) moov2)) after).bytes.length := by
      rw [hf', hf, hM]
    have s1 := seekAtom_some (mode := cfg.opts.mode) meta_ok M (udta2.bytes ++ moov2.bytes) (items udta1) hu1' (r'.f.length + 1) r' 8
      (udta1.bytes ++ (box (ascii "meta") M ++ udta2.bytes)).length (by rw [hf', hf]; omega) a1
      (by omega) (by simp only [List.length_append]; rw [box_length _ _ rfl, hub]; omega)
    have a2 := into_box (a1.skip rfl) meta_ok
    rw [skip_skip] at a2
    unfold ilstFromUdta
    rw [s1, ok_bind]
    simp only
    generalize hr2 : r'.skip ((boxes (items udta1)).length + 8) = r2 at a2 ⊢
    have hr2f : r2.f = r'.f := by rw [← hr2]; rfl
    rw [← hM] at a2
    have a2' : At r2 (version ++ ((boxes items1 ++ (box (ascii "ilst") content ++ boxes items2)) ++ (udta2.bytes ++ moov2.bytes))) := by
      simpa only [List.append_assoc] using a2
    obtain ⟨full, m1, m2⟩ := meta_version hv a2'
    rw [m1, ok_bind]
    simp only
    rw [m2]
    have a3 := a2'.skip rfl
    have a3' : At (r2.skip version.length) (boxes items1 ++ (box (ascii "ilst") content ++ (boxes items2 ++ (udta2.bytes ++ moov2.bytes)))) := by
      simpa only [List.append_assoc] using a3
    have s2 := seekAtom_some (mode := cfg.opts.mode) ilst_ok content (boxes items2 ++ (udta2.bytes ++ moov2.bytes)) items1 hi1
      ((r2.skip version.length).f.length + 1) (r2.skip version.length) (8 + version.length) (8 + M.length)
      (by show _ < r2.f.length + 1; rw [hr2f, hf', hf]; omega) a3' (by omega) (by omega)
    rw [s2, ok_bind]
    simp only
    have a4 := into_box (a3'.skip rfl) ilst_ok
    rw [skip_skip] at a4
    unfold readIlst
    rw [show 8 + content.length - 8 = content.length by omega]
    by_cases hlim : content.length > cfg.limit
    · rw [if_pos hlim, if_pos hlim]
      rfl
    · rw [if_neg hlim, if_neg hlim, a4.take rfl, ok_bind]
      simp only
      cases parse cfg.opts content with
      | error e => rfl
      | ok t =>
        simp only [ok_bind]
        rw [skip_skip, skip_skip, ← hr2, skip_skip]
        congr 3
        simp only [List.length_append, beBytes_length, show (ascii "meta").length = 4 from rfl, hub]
        rw [box_length _ _ rfl]
        omega

/-- **C58.** No user data, no tag. -/
theorem read_silent {before moov after : Forest} {brand : Str} (h : FileOk before moov after brand) (hs : Silent moov) (cfg : Config) :
    readFrom cfg (whole before moov after).bytes = .ok (brand, ⟨found cfg (before.bytes.length + 8) moov, none⟩) := by
  obtain ⟨r, ha, hp, hf, hr⟩ := read_moov h cfg
  have hsz : moov.bytes.length + 8 ≤ (whole before moov after).bytes.length := by
    rw [whole, append_bytes, List.length_append, bytes_length_node moov_ok]
    omega
  have hsize := h.size
  have ha' : At r (moov.bytes ++ []) := by rwa [List.append_nil]
  obtain ⟨n, hn, e⟩ := loop_silent (cfg := cfg) [] moov h.inner hs r ⟨[], none⟩ ha' (by omega)
  obtain ⟨k, hk⟩ : ∃ k, (whole before moov after).bytes.length + 1 = n + (k + 1) :=
    ⟨(whole before moov after).bytes.length - n, by omega⟩
  rw [hr, hk, e, loop_end _ (ha'.skip rfl), ok_bind, hp]
  rfl

/-- **C58.** User data without `meta`: no tag. -/
theorem read_no_meta {before moov1 kids moov2 after moov : Forest} {brand : Str}
    (hm : moov = moov1.append (.node (ascii "udta") kids moov2)) (h : FileOk before moov after brand)
    (h1 : Silent moov1) (h2 : Silent moov2) (hk : ∀ i ∈ kids.top, i ≠ ascii "meta" ∧ Other i) (cfg : Config) (ht : cfg.tags = true) :
    readFrom cfg (whole before moov after).bytes = .ok (brand, ⟨found cfg (before.bytes.length + 8) moov, none⟩) := by
  obtain ⟨r, ha, hp, hf, hr⟩ := read_moov h cfg
  have hsz : moov.bytes.length + 8 ≤ (whole before moov after).bytes.length := by
    rw [whole, append_bytes, List.length_append, bytes_length_node moov_ok]
    omega
  have hsize := h.size
  have hin := h.inner
  rw [hr]
  subst hm
  obtain ⟨o1, o2⟩ := ok_split hin
  rw [udta_steps ⟨o1, h1⟩ o2.2.2.1 ⟨o2.2.2.2, h2⟩ ht ha (by omega) (by omega) (.ok none)]
  · rw [hp]
    rfl
  · intro r' ha' hf'
    have hfl := ha'.2.2
    rw [List.length_append] at hfl
    have hrl : r'.f.length < 2 ^ 32 := by rw [hf', hf]; exact hsize
    have hkb := items_bytes kids
    rw [← hkb] at ha'
    have hkl : kids.bytes.length = (boxes (items kids)).length := by rw [hkb]
    obtain ⟨l1, l2, hl, e, _⟩ := seekAtom_none (mode := cfg.opts.mode) (id := ascii "meta") moov2.bytes (items kids)
      (fun x hx => ⟨items_ok o2.2.2.1 x hx, (items_names hk x hx).1⟩) (r'.f.length + 1) r' 8 kids.bytes.length
      (by omega) ha' (by omega) (by omega)
    refine ⟨boxes l1, l2, fun x hx => ⟨items_ok o2.2.2.1 x (by rw [hl]; simp [hx]), (items_names hk x (by rw [hl]; simp [hx])).2⟩,
      by rw [← hkb, hl, boxes_append], ?_⟩
    unfold ilstFromUdta
    rw [e, ok_bind]
    rfl

/-- **C58.** A `meta` without `ilst`: no tag. -/
theorem read_no_ilst {before moov1 udta1 udta2 moov2 after : Forest} {version : Bytes} {items1 : List (Bytes × Bytes)}
    {brand : Str} {moov : Forest}
    (hm : moov = moov1.append (.node (ascii "udta") (udta1.append (.leaf (ascii "meta") (version ++ boxes items1) udta2)) moov2))
    (h : FileOk before moov after brand)
    (h1 : Silent moov1) (h2 : Silent moov2) (hu1 : ascii "meta" ∉ udta1.top) (hu2 : ∀ i ∈ udta2.top, Other i)
    (hv : MetaOk version (boxes items1)) (hi1 : ∀ x ∈ items1, IdOk x.1 ∧ x.1 ≠ ascii "ilst")
    (cfg : Config) (ht : cfg.tags = true) :
    readFrom cfg (whole before moov after).bytes = .ok (brand, ⟨found cfg (before.bytes.length + 8) moov, none⟩) := by
  obtain ⟨r, ha, hp, hf, hr⟩ := read_moov h cfg
  have hin := h.inner
  have hsz : moov.bytes.length + 8 ≤ (whole before moov after).bytes.length := by
    rw [whole, append_bytes, List.length_append, bytes_length_node moov_ok]
    omega
  have hsize := h.size
  rw [hr]
  subst hm
  obtain ⟨o1, o2⟩ := ok_split hin
  have oku := ok_split o2.2.2.1
  have hne : 0 < version.length + (boxes items1).length := by
    rcases hv with ⟨h4, _⟩ | ⟨_, hm⟩
    · omega
    · have : ((boxes items1).drop 4).take 4 ≠ [] := by
        intro e
        rw [e] at hm
        revert hm
        decide
      cases hb : boxes items1 with
      | nil => rw [hb] at this; exact absurd rfl this
      | cons a l => rw [List.length_cons]; omega
  have hkb : (udta1.append (.leaf (ascii "meta") (version ++ boxes items1) udta2)).bytes =
      udta1.bytes ++ (box (ascii "meta") (version ++ boxes items1) ++ udta2.bytes) := by
    rw [append_bytes, Forest.bytes]
  rw [udta_steps ⟨o1, h1⟩ o2.2.2.1 ⟨o2.2.2.2, h2⟩ ht ha (by omega) (by omega) (.ok none)]
  · rw [hp]
    rfl
  · intro r' ha' hf'
    refine ⟨udta1.bytes ++ box (ascii "meta") (version ++ boxes items1), items udta2,
      fun x hx => ⟨items_ok oku.2.2.2 x hx, items_names hu2 x hx⟩,
      by rw [hkb, items_bytes]; simp only [List.append_assoc], ?_⟩
    rw [hkb] at ha' ⊢
    have hrl : r'.f.length < 2 ^ 32 := by rw [hf', hf]; exact hsize
    have hfl := ha'.2.2
    simp only [List.length_append] at hfl
    rw [box_length _ _ rfl, List.length_append] at hfl
    have hu1' : ∀ x ∈ items udta1, IdOk x.1 ∧ x.1 ≠ ascii "meta" := fun x hx =>
      ⟨items_ok oku.1 x hx, items_names (P := fun i => i ≠ ascii "meta") (fun i hi e => hu1 (e ▸ hi)) x hx⟩
    have hub := items_bytes udta1
    have a1 : At r' (boxes (items udta1) ++ (box (ascii "meta") (version ++ boxes items1) ++ (udta2.bytes ++ moov2.bytes))) := by
      rw [hub]
      simp only [List.append_assoc] at ha' ⊢
      exact ha'
    have s1 := seekAtom_some (mode := cfg.opts.mode) meta_ok (version ++ boxes items1) (udta2.bytes ++ moov2.bytes) (items udta1) hu1'
      (r'.f.length + 1) r' 8 (udta1.bytes ++ (box (ascii "meta") (version ++ boxes items1) ++ udta2.bytes)).length
      (by rw [hub]; omega) a1 (by rw [hub, List.length_append]; omega)
      (by simp only [List.length_append]; rw [box_length _ _ rfl, hub, List.length_append]; omega)
    have a2 := into_box (a1.skip rfl) meta_ok
    rw [skip_skip] at a2
    unfold ilstFromUdta
    rw [s1, ok_bind]
    simp only
    generalize hr2 : r'.skip ((boxes (items udta1)).length + 8) = r2 at a2 ⊢
    have hr2f : r2.f = r'.f := by rw [← hr2]; rfl
    rw [List.append_assoc] at a2
    obtain ⟨full, m1, m2⟩ := meta_version hv a2
    rw [m1, ok_bind]
    simp only
    rw [m2]
    obtain ⟨l1, l2, hl, e, he⟩ := seekAtom_none (mode := cfg.opts.mode) (id := ascii "ilst") (udta2.bytes ++ moov2.bytes) items1 hi1
      ((r2.skip version.length).f.length + 1) (r2.skip version.length) (8 + version.length) (8 + (version ++ boxes items1).length)
      (by show _ < r2.f.length + 1; rw [hr2f]; omega) (a2.skip rfl) (by omega) (by rw [List.length_append]; omega)
    obtain rfl := he (by rw [List.length_append]; omega)
    rw [List.append_nil] at hl
    subst hl
    rw [e, ok_bind]
    simp only [ok_bind]
    rw [skip_skip, ← hr2, skip_skip]
    congr 3
    simp only [List.length_append]
    rw [box_length _ _ rfl, hub, List.length_append]
    omega

/-! ## Saving, then reading -/

/-- What is written in place of padding and old tag. -/
theorem fit_boxes (x : File) (content : Bytes) (pad : Option Nat) :
    ∃ l : List Bytes, (x.fit (box (ascii "ilst") content) pad).1 = box (ascii "ilst") content ++ frees l := by
  have hp : ∀ n, padding n = frees [List.replicate (n - 8) 1] := fun n => by simp [padding, frees, boxes]
  have ha : ∀ a b : List Bytes, frees (a ++ b) = frees a ++ frees b := fun a b => by simp [frees, boxes_append]
  have hn : frees [] = [] := rfl
  unfold File.fit
  split
  · exact ⟨_, by rw [hp]⟩
  · split
    · exact ⟨_, rfl⟩
    · split
      · exact ⟨_ :: x.free2, by rw [hp, List.append_assoc, ← ha]; rfl⟩
      · split
        · exact ⟨_, rfl⟩
        · exact ⟨_ :: x.free2, by rw [hp, List.append_assoc, ← ha]; rfl⟩

/-- The recognition of `meta` depends on its first atom only. -/
theorem metaOk_items {version a b : Bytes} {items1 : List (Bytes × Bytes)} (hi : ∀ x ∈ items1, IdOk x.1) (hne : items1 ≠ [])
    (h : (version.length = 4 ∧ (boxes items1 ++ a).take 4 ∉ metaNames) ∨
      (version = [] ∧ ((boxes items1 ++ a).drop 4).take 4 ∈ metaNames)) : MetaOk version (boxes items1 ++ b) := by
  cases items1 with
  | nil => exact absurd rfl hne
  | cons y l =>
    have h8 : 8 ≤ (boxes (y :: l)).length := by rw [boxes_length_cons (hi y (by simp))]; omega
    have t4 : ∀ z, (boxes (y :: l) ++ z).take 4 = (boxes (y :: l)).take 4 := fun z => by
      rw [List.take_append_of_le_length (by omega)]
    have d4 : ∀ z, ((boxes (y :: l) ++ z).drop 4).take 4 = ((boxes (y :: l)).drop 4).take 4 := fun z => by
      rw [List.drop_append_of_le_length (by omega), List.take_append_of_le_length (by simp; omega)]
    rw [t4, d4] at h
    unfold MetaOk
    rw [t4, d4, List.length_append]
    rcases h with ⟨h1, h2⟩ | h
    · exact .inl ⟨h1, by omega, h2⟩
    · exact .inr h

/-- A size below 2³⁰ does not look like a name. -/
theorem size_not_name {n : Nat} (h : n < 2 ^ 30) : beBytes 4 n ∉ metaNames := by
  intro hm
  have h1 : fromBE (beBytes 4 n) = n := fromBE_beBytes_of_lt (by omega)
  have : ∀ z ∈ metaNames, 2 ^ 30 ≤ fromBE z := by decide
  have := this _ hm
  omega

/-- Moving offsets changes no name. -/
theorem mapOffsets_top (s : Nat → Nat) (f : Forest) : (f.mapOffsets s).top = f.top := by
  induction f with
  | nil => rfl
  | leaf id c rest ih => rw [Forest.mapOffsets, Forest.top, ih, Forest.top]
  | node id kids rest _ ih => rw [Forest.mapOffsets, Forest.top, ih, Forest.top]

theorem mapOffsets_ok (s : Nat → Nat) {f : Forest} (h : f.Ok) : (f.mapOffsets s).Ok := by
  induction f with
  | nil => trivial
  | leaf id c rest ih => exact ⟨h.1, h.2.1, ih h.2.2⟩
  | node id kids rest ihk ih => exact ⟨h.1, h.2.1, ihk h.2.2.1, ih h.2.2.2⟩

theorem mapOffsets_silent (s : Nat → Nat) {f : Forest} (h : Silent f) : Silent (f.mapOffsets s) := by
  induction f with
  | nil => trivial
  | leaf id c rest ih => exact ⟨h.1, ih h.2⟩
  | node id kids rest _ ih =>
    refine ⟨h.1, fun e => ?_, ih h.2.2⟩
    rw [mapOffsets_top]
    exact h.2.1 e

theorem mapOffsets_firstMdia (s : Nat → Nat) {f : Forest} (ht : f.Tables) (p : Nat) :
    firstMdia p (items (f.mapOffsets s)) = firstMdia p (items f) := by
  induction f generalizing p with
  | nil => rfl
  | leaf id c rest ih =>
    obtain ⟨h1, h2⟩ := ht
    have hl : (if id = ascii "stco" then mapTable s c else c).length = c.length := by
      split
      · exact mapTable_length s c (h1 ‹_›)
      · rfl
    rw [Forest.mapOffsets, items, items, firstMdia, firstMdia, ih h2, hl]
  | node id kids rest _ ih =>
    rw [Forest.mapOffsets, items, items, firstMdia, firstMdia, ih ht.2, mapOffsets_length _ _ ht.1]

theorem mapOffsets_tracks (s : Nat → Nat) {f : Forest} (ht : f.Tables) (p : Nat) : tracks p (f.mapOffsets s) = tracks p f := by
  induction f generalizing p with
  | nil => rfl
  | leaf id c rest ih =>
    obtain ⟨h1, h2⟩ := ht
    have hl : (if id = ascii "stco" then mapTable s c else c).length = c.length := by
      split
      · exact mapTable_length s c (h1 ‹_›)
      · rfl
    rw [Forest.mapOffsets, tracks, tracks, ih h2, hl]
  | node id kids rest _ ih =>
    rw [Forest.mapOffsets, tracks, tracks, ih ht.2, mapOffsets_length _ _ ht.1, mapOffsets_firstMdia _ ht.1]

theorem tables_append {f g : Forest} (hf : f.Tables) (hg : g.Tables) : (f.append g).Tables := by
  induction f with
  | nil => exact hg
  | leaf id c rest ih => exact ⟨hf.1, ih hf.2⟩
  | node id kids rest _ ih => exact ⟨hf.1, ih hf.2⟩

theorem moov_tables (x : File) (hx : x.Ok) (region : Bytes) : (x.moov region).Tables :=
  tables_append hx.moov1.2.1 ⟨tables_append hx.udta1.2.1 ⟨fun e => absurd e (by decide), hx.udta2.2.1⟩, hx.moov2.2.1⟩

/-- The file with other bytes in the place of padding and tag. -/
theorem file_ok_moved (x : File) (hx : x.Ok) (region : Bytes) (s : Nat → Nat) (hsz : x.bytes.length + region.length < 2 ^ 32) :
    ∃ brand, (∃ c rest, x.before = .leaf (ascii "ftyp") c rest ∧ utf8Decode (c.take 4) = .ok brand) ∧
      FileOk x.before ((x.moov region).mapOffsets s) x.after brand := by
  obtain ⟨c, rest, hb, h4, brand, hd⟩ := hx.brand
  refine ⟨brand, ⟨c, rest, hb, hd⟩, ⟨c, rest, hb, h4, hd⟩, ⟨hx.before.1, hx.before.2.1⟩, mapOffsets_ok s (moov_forest_ok x hx region), ?_⟩
  have h1 : x.bytes.length = _ := wholeLen_eq x x.space
  have h2 : (whole x.before ((x.moov region).mapOffsets s) x.after).bytes.length =
      x.before.bytes.length + (8 + (x.moov region).bytes.length + x.after.bytes.length) := by
    rw [whole, append_bytes, List.length_append, bytes_length_node moov_ok, mapOffsets_length _ _ (moov_tables x hx region)]
  have a1 := moovLen_eq x x.space
  have a2 := udtaLen_eq x x.space
  have a3 := metaLen_eq x x.space
  have b1 := moovLen_eq x region
  have b2 := udtaLen_eq x region
  have b3 := metaLen_eq x region
  simp only [List.length_append] at a3 b3
  omega

theorem found_moved (x : File) (hx : x.Ok) (region : Bytes) (s : Nat → Nat) (cfg : Config) (p : Nat) :
    found cfg p ((x.moov region).mapOffsets s) = found cfg p (x.moov region) := by
  unfold found
  split
  · exact mapOffsets_tracks s (moov_tables x hx region) p
  · rfl

/-- **C58, saving.** A tag saved to a file that has one is the tag that is read back, all of
it and nothing else, together with the brand and the tracks of the file; wherever the tag is
in the file, whatever padding there is, however the sizes change, and in every parsing mode.
`_partial`: the atoms must be ones an `ilst` can hold (`AtomOk`, see C36), the file must be one
the writer handles (`File.Ok`, see C37) and unambiguous (`Clear`), and the tag must fit in the
allocation limit. -/
theorem save_read_partial (x : File) (hx : x.Ok) (hc : Clear x) (t : Tag) (hne : t ≠ []) (cfg : Config) (htags : cfg.tags = true)
    (hat : ∀ a ∈ t, AtomOk cfg.opts a) (hlim : (t.flatMap atomBox).length ≤ cfg.limit) (mode : Mode) (pad : Option Nat)
    (hpad : ∀ k, pad = some k → 8 ≤ k)
    (hsz : 3 * x.bytes.length + 2 * (t.flatMap atomBox).length + pad.getD 0 < 2 ^ 30) :
    ∃ f brand, writeTo x.bytes t mode pad = .ok f ∧
      (∃ c rest, x.before = .leaf (ascii "ftyp") c rest ∧ utf8Decode (c.take 4) = .ok brand) ∧
      readFrom cfg f = .ok (brand, ⟨found cfg (x.before.bytes.length + 8)
        (x.moov (x.fit (box (ascii "ilst") (t.flatMap atomBox)) pad).1), some t⟩) := by
  have hb : build t = .ok (box (ascii "ilst") (t.flatMap atomBox)) :=
    build_layout t hne (fun a ha => ⟨fun d hd => valueOk_writable ((hat a ha).2.2 d hd), header_ok (hat a ha).1⟩) (by omega)
  have hnl : (box (ascii "ilst") (t.flatMap atomBox)).length = 8 + (t.flatMap atomBox).length := box_length _ _ rfl
  have hsp := space1_lt x
  have hw := write_partial x hx t mode pad _ hb (by intro e; rw [e] at hnl; simp at hnl; omega) hpad (by rw [hnl]; omega)
  obtain ⟨l, hl⟩ := fit_boxes x (t.flatMap atomBox) pad
  have hfl := fit_le x (box (ascii "ilst") (t.flatMap atomBox)) pad hpad
  generalize hR : (x.fit (box (ascii "ilst") (t.flatMap atomBox)) pad).1 = region at hw hl hfl ⊢
  generalize hS : moved x.start (x.fit (box (ascii "ilst") (t.flatMap atomBox)) pad).2 = s at hw
  obtain ⟨brand, hbr, hok⟩ := file_ok_moved x hx region s (by rw [hnl] at hfl; omega)
  refine ⟨_, brand, hw, hbr, ?_⟩
  have hmoov : (x.moov region).mapOffsets s = (x.moov1.mapOffsets s).append (.node (ascii "udta") ((x.udta1.mapOffsets s).append
      (.leaf (ascii "meta") (x.version ++ (boxes x.items1 ++ (box (ascii "ilst") (t.flatMap atomBox) ++
        boxes (l.map (fun c => (ascii "free", c)) ++ x.items2)))) (x.udta2.mapOffsets s))) (x.moov2.mapOffsets s)) := by
    have hne : ¬ ascii "meta" = ascii "stco" := by decide
    rw [File.moov, append_mapOffsets, Forest.mapOffsets, append_mapOffsets, Forest.mapOffsets, if_neg hne, hl, boxes_append]
    simp only [List.append_assoc, frees]
  have hfree : ∀ y ∈ l.map (fun c => (ascii "free", c)), IdOk y.1 ∧ Other y.1 := by
    intro y hy
    obtain ⟨c, _, rfl⟩ := List.mem_map.mp hy
    exact ⟨free_ok, by show Other (ascii "free"); unfold Other; decide⟩
  have hmeta : MetaOk x.version (boxes x.items1 ++ (box (ascii "ilst") (t.flatMap atomBox) ++
      boxes (l.map (fun c => (ascii "free", c)) ++ x.items2))) := by
    by_cases hi : x.items1 = []
    · have hv := hx.version
      rw [hi]
      have hb0 : boxes [] = [] := rfl
      rw [hb0, List.nil_append]
      rcases hv with ⟨h4, _⟩ | ⟨h0, _⟩
      · refine .inl ⟨h4, ?_, ?_⟩
        · rw [List.length_append, hnl]; omega
        · rw [box_eq, List.append_assoc, List.take_left' (beBytes_length _ _)]
          exact size_not_name (by omega)
      · refine .inr ⟨h0, ?_⟩
        rw [box_eq, List.append_assoc, List.drop_left' (beBytes_length _ _), List.append_assoc, List.take_left' (l₁ := ascii "ilst") (i := 4) rfl]
        decide
    · exact metaOk_items hx.items1.1 hi hx.version
  have h := read_tag hmoov hok (mapOffsets_silent s hc.moov1) (mapOffsets_silent s hc.moov2)
    (by rw [mapOffsets_top]; exact hx.udta1.2.2.1) (by rw [mapOffsets_top]; exact hc.udta2) hmeta
    (fun y hy => ⟨hx.items1.1 y hy, hc.items1 y hy⟩)
    (fun y hy => (List.mem_append.mp hy).elim (hfree y) fun hy => ⟨(hx.items2.1 y hy).1, hc.items2 y hy⟩) cfg htags
  rw [if_neg (by omega), parse_layout_partial t hat (by omega), ok_bind, found_moved x hx] at h
  exact h

/-- **C58, removing.** After the tag has been removed from a file, the file reads as one
without a tag, with the same brand and the same tracks.  `_partial`: some atom comes before the
tag in `meta` (usually `hdlr`); without one the file cannot be read any more, see
`removed_unreadable`. -/
theorem remove_read_partial (x : File) (hx : x.Ok) (hc : Clear x) (hi : x.items1 ≠ []) (cfg : Config) (htags : cfg.tags = true)
    (mode : Mode) (pad : Option Nat) :
    ∃ f brand, writeTo x.bytes [] mode pad = .ok f ∧
      (∃ c rest, x.before = .leaf (ascii "ftyp") c rest ∧ utf8Decode (c.take 4) = .ok brand) ∧
      readFrom cfg f = .ok (brand, ⟨found cfg (x.before.bytes.length + 8) (x.moov (frees x.free1 ++ frees x.free2)), none⟩) := by
  have hw := remove_partial x hx mode pad
  generalize hS : moved (x.start + (frees x.free1).length) (-(8 + x.ilst.length : Nat)) = s at hw
  have hsl : (frees x.free1 ++ frees x.free2).length ≤ x.space.length := by
    simp only [File.space, File.space1, List.length_append]
    omega
  have hfok : ∃ brand, (∃ c rest, x.before = .leaf (ascii "ftyp") c rest ∧ utf8Decode (c.take 4) = .ok brand) ∧
      FileOk x.before ((x.moov (frees x.free1 ++ frees x.free2)).mapOffsets s) x.after brand := by
    obtain ⟨c, rest, hb, h4, brand, hd⟩ := hx.brand
    refine ⟨brand, ⟨c, rest, hb, hd⟩, ⟨c, rest, hb, h4, hd⟩, ⟨hx.before.1, hx.before.2.1⟩, mapOffsets_ok s (moov_forest_ok x hx _), ?_⟩
    have h0 := hx.size
    have h1 : x.bytes.length = _ := wholeLen_eq x x.space
    have h2 : (whole x.before ((x.moov (frees x.free1 ++ frees x.free2)).mapOffsets s) x.after).bytes.length =
        x.before.bytes.length + (8 + (x.moov (frees x.free1 ++ frees x.free2)).bytes.length + x.after.bytes.length) := by
      rw [whole, append_bytes, List.length_append, bytes_length_node moov_ok, mapOffsets_length _ _ (moov_tables x hx _)]
    have a1 := moovLen_eq x x.space
    have a2 := udtaLen_eq x x.space
    have a3 := metaLen_eq x x.space
    have b1 := moovLen_eq x (frees x.free1 ++ frees x.free2)
    have b2 := udtaLen_eq x (frees x.free1 ++ frees x.free2)
    have b3 := metaLen_eq x (frees x.free1 ++ frees x.free2)
    omega
  obtain ⟨brand, hbr, hok⟩ := hfok
  refine ⟨_, brand, hw, hbr, ?_⟩
  have hmoov : (x.moov (frees x.free1 ++ frees x.free2)).mapOffsets s = (x.moov1.mapOffsets s).append (.node (ascii "udta")
      ((x.udta1.mapOffsets s).append (.leaf (ascii "meta") (x.version ++ boxes (x.items1 ++ ((x.free1 ++ x.free2).map (fun c => (ascii "free", c)) ++ x.items2)))
        (x.udta2.mapOffsets s))) (x.moov2.mapOffsets s)) := by
    have hne : ¬ ascii "meta" = ascii "stco" := by decide
    rw [File.moov, append_mapOffsets, Forest.mapOffsets, append_mapOffsets, Forest.mapOffsets, if_neg hne]
    simp only [List.append_assoc, frees, boxes_append, List.map_append]
  have hfree : ∀ y ∈ (x.free1 ++ x.free2).map (fun c => (ascii "free", c)), IdOk y.1 ∧ y.1 ≠ ascii "ilst" := by
    intro y hy
    obtain ⟨c, _, rfl⟩ := List.mem_map.mp hy
    exact ⟨free_ok, by show ascii "free" ≠ _; decide⟩
  have h := read_no_ilst hmoov hok (mapOffsets_silent s hc.moov1) (mapOffsets_silent s hc.moov2)
    (by rw [mapOffsets_top]; exact hx.udta1.2.2.1) (by rw [mapOffsets_top]; exact hc.udta2)
    (by rw [boxes_append]; exact metaOk_items hx.items1.1 hi hx.version)
    (fun y hy => by
      rcases List.mem_append.mp hy with hy | hy
      · exact ⟨hx.items1.1 y hy, hc.items1 y hy⟩
      · rcases List.mem_append.mp hy with hy | hy
        · exact hfree y hy
        · exact hx.items2.1 y hy) cfg htags
  rw [found_moved x hx] at h
  exact h

theorem newMeta_eq (content : Bytes) : newMeta (box (ascii "ilst") content) =
    [0, 0, 0, 0] ++ (boxes [(ascii "hdlr", [0, 0, 0, 0, 0, 0, 0, 0] ++ ascii "mdirappl" ++ List.replicate 9 0)] ++
      (box (ascii "ilst") content ++ boxes [])) := by
  simp [newMeta, boxes]

theorem metaOk_new (z : Bytes) :
    MetaOk [0, 0, 0, 0] (boxes [(ascii "hdlr", [0, 0, 0, 0, 0, 0, 0, 0] ++ ascii "mdirappl" ++ List.replicate 9 0)] ++ z) := by
  have h : boxes [(ascii "hdlr", [0, 0, 0, 0, 0, 0, 0, 0] ++ ascii "mdirappl" ++ List.replicate 9 0)] = [0, 0, 0, 33] ++
      (ascii "hdlr" ++ ([0, 0, 0, 0, 0, 0, 0, 0] ++ ascii "mdirappl" ++ List.replicate 9 0)) := by decide
  refine .inl ⟨rfl, ?_, ?_⟩
  · rw [h]; simp
  · rw [h]
    show [0, 0, 0, 33] ∉ metaNames
    decide

/-- **C58, creating.** A tag saved to a file without user data is the tag that is read back. -/
theorem create_read_partial {before kids after : Forest} (h : Plain before kids after) (hsil : Silent kids)
    (hu : ascii "udta" ∉ kids.top) (t : Tag) (hne : t ≠ [])
    (cfg : Config) (htags : cfg.tags = true) (hat : ∀ a ∈ t, AtomOk cfg.opts a) (hlim : (t.flatMap atomBox).length ≤ cfg.limit)
    (mode : Mode) (pad : Option Nat) (hsz : (whole before kids after).bytes.length + (t.flatMap atomBox).length + 72 < 2 ^ 32) :
    ∃ f brand, writeTo (whole before kids after).bytes t mode pad = .ok f ∧
      (∃ c rest, before = .leaf (ascii "ftyp") c rest ∧ utf8Decode (c.take 4) = .ok brand) ∧
      readFrom cfg f = .ok (brand, ⟨found cfg (before.bytes.length + 8 + (61 + (t.flatMap atomBox).length)) kids, some t⟩) := by
  have hb : build t = .ok (box (ascii "ilst") (t.flatMap atomBox)) :=
    build_layout t hne (fun a ha => ⟨fun d hd => valueOk_writable ((hat a ha).2.2 d hd), header_ok (hat a ha).1⟩) (by omega)
  have hnl : (box (ascii "ilst") (t.flatMap atomBox)).length = 8 + (t.flatMap atomBox).length := box_length _ _ rfl
  have hw := create_udta h hu t mode pad _ hb (by rw [hnl]; unfold whole at hsz; omega)
  rw [if_neg hne] at hw
  have hml : (newMeta (box (ascii "ilst") (t.flatMap atomBox))).length = 37 + (8 + (t.flatMap atomBox).length) := by
    unfold newMeta
    rw [List.length_append, List.length_append, box_length _ _ rfl, box_length _ _ rfl]
    simp [ascii]
    omega
  obtain ⟨c, rest, hbr, h4, brand, hd⟩ := h.brand
  have hkl : ((Forest.node (ascii "udta") (.leaf (ascii "meta") (newMeta (box (ascii "ilst") (t.flatMap atomBox))) .nil) kids)).bytes.length =
      61 + (t.flatMap atomBox).length + kids.bytes.length := by
    rw [bytes_length_node udta_ok, bytes_length_leaf meta_ok, hml]
    simp only [Forest.bytes, List.length_nil]
    omega
  have hok : FileOk before (.node (ascii "udta") (.leaf (ascii "meta") (newMeta (box (ascii "ilst") (t.flatMap atomBox))) .nil) kids) after brand := by
    refine ⟨⟨c, rest, hbr, h4, hd⟩, h.front, ⟨udta_ok, by unfold IsContainer; decide, ⟨meta_ok, ?_, trivial⟩, h.inner⟩, ?_⟩
    · unfold IsContainer; decide
    · have e := plain_length before kids after
      have e' := plain_length before (.node (ascii "udta") (.leaf (ascii "meta") (newMeta (box (ascii "ilst") (t.flatMap atomBox))) .nil) kids) after
      unfold whole at hsz ⊢
      omega
  refine ⟨_, brand, hw, ⟨c, rest, hbr, hd⟩, ?_⟩
  have hr := read_tag (moov1 := .nil) (udta1 := .nil) (udta2 := .nil) (moov2 := kids) (version := [0, 0, 0, 0]) (content := t.flatMap atomBox)
    (items1 := [(ascii "hdlr", [0, 0, 0, 0, 0, 0, 0, 0] ++ ascii "mdirappl" ++ List.replicate 9 0)]) (items2 := [])
    (by rw [newMeta_eq]; rfl) hok trivial hsil (by simp [Forest.top]) (by simp [Forest.top]) (metaOk_new _)
    (by intro y hy; rw [List.mem_singleton] at hy; subst hy; constructor
        · show IdOk (ascii "hdlr"); unfold IdOk; decide
        · show ascii "hdlr" ≠ _; decide)
    (by intro y hy; cases hy) cfg htags
  rw [if_neg (by omega), parse_layout_partial t hat (by omega), ok_bind] at hr
  have hf : found cfg (before.bytes.length + 8) (.node (ascii "udta") (.leaf (ascii "meta") (newMeta (box (ascii "ilst") (t.flatMap atomBox))) .nil) kids) =
      found cfg (before.bytes.length + 8 + (61 + (t.flatMap atomBox).length)) kids := by
    unfold found
    split
    · rw [tracks, if_neg (by decide), List.nil_append, bytes_length_leaf meta_ok, hml]
      simp only [Forest.bytes, List.length_nil]
      congr 1
      omega
    · rfl
  rw [hf] at hr
  exact hr

/-- **C58, creating.** The same for a file with user data but no `meta`. -/
theorem create_meta_read_partial {before moov1 kids moov2 after : Forest}
    (h : Plain before (moov1.append (.node (ascii "udta") kids moov2)) after) (h1 : Silent moov1) (h2 : Silent moov2)
    (hk : ∀ i ∈ kids.top, i ≠ ascii "meta" ∧ Other i) (hu : ascii "udta" ∉ moov1.top) (t : Tag) (hne : t ≠ [])
    (cfg : Config) (htags : cfg.tags = true) (hat : ∀ a ∈ t, AtomOk cfg.opts a) (hlim : (t.flatMap atomBox).length ≤ cfg.limit)
    (mode : Mode) (pad : Option Nat)
    (hsz : (whole before (moov1.append (.node (ascii "udta") kids moov2)) after).bytes.length + (t.flatMap atomBox).length + 72 < 2 ^ 32) :
    ∃ f brand, writeTo (whole before (moov1.append (.node (ascii "udta") kids moov2)) after).bytes t mode pad = .ok f ∧
      (∃ c rest, before = .leaf (ascii "ftyp") c rest ∧ utf8Decode (c.take 4) = .ok brand) ∧
      readFrom cfg f = .ok (brand, ⟨found cfg (before.bytes.length + 8) (moov1.append (.node (ascii "udta")
        (.leaf (ascii "meta") (newMeta (box (ascii "ilst") (t.flatMap atomBox))) kids) moov2)), some t⟩) := by
  have hb : build t = .ok (box (ascii "ilst") (t.flatMap atomBox)) :=
    build_layout t hne (fun a ha => ⟨fun d hd => valueOk_writable ((hat a ha).2.2 d hd), header_ok (hat a ha).1⟩) (by omega)
  have hnl : (box (ascii "ilst") (t.flatMap atomBox)).length = 8 + (t.flatMap atomBox).length := box_length _ _ rfl
  obtain ⟨o1, o2⟩ := ok_split h.inner
  have hw := create_meta h ⟨o1, o2.2.2.1⟩ hu (fun hm => (hk _ hm).1 rfl) t mode pad _ hb (by rw [hnl]; unfold whole at hsz; omega)
  rw [if_neg hne] at hw
  have hml : (newMeta (box (ascii "ilst") (t.flatMap atomBox))).length = 37 + (8 + (t.flatMap atomBox).length) := by
    unfold newMeta
    rw [List.length_append, List.length_append, box_length _ _ rfl, box_length _ _ rfl]
    simp [ascii]
    omega
  obtain ⟨c, rest, hbr, h4, brand, hd⟩ := h.brand
  have hok : FileOk before (moov1.append (.node (ascii "udta") (.leaf (ascii "meta") (newMeta (box (ascii "ilst") (t.flatMap atomBox))) kids) moov2)) after brand := by
    refine ⟨⟨c, rest, hbr, h4, hd⟩, h.front, ok_append o1 ⟨udta_ok, by unfold IsContainer; decide, ⟨meta_ok, ?_, o2.2.2.1⟩, o2.2.2.2⟩, ?_⟩
    · unfold IsContainer; decide
    · have e := plain_length before (moov1.append (.node (ascii "udta") kids moov2)) after
      have e' := plain_length before (moov1.append (.node (ascii "udta") (.leaf (ascii "meta") (newMeta (box (ascii "ilst") (t.flatMap atomBox))) kids) moov2)) after
      have k1 : (moov1.append (.node (ascii "udta") kids moov2)).bytes.length =
          moov1.bytes.length + (8 + kids.bytes.length + moov2.bytes.length) := by
        rw [append_bytes, List.length_append, bytes_length_node udta_ok]
      have k2 : (moov1.append (.node (ascii "udta") (.leaf (ascii "meta") (newMeta (box (ascii "ilst") (t.flatMap atomBox))) kids) moov2)).bytes.length =
          moov1.bytes.length + (8 + (8 + (37 + (8 + (t.flatMap atomBox).length)) + kids.bytes.length) + moov2.bytes.length) := by
        rw [append_bytes, List.length_append, bytes_length_node udta_ok, bytes_length_leaf meta_ok, hml]
      unfold whole at hsz ⊢
      omega
  refine ⟨_, brand, hw, ⟨c, rest, hbr, hd⟩, ?_⟩
  have hr := read_tag (moov1 := moov1) (udta1 := .nil) (udta2 := kids) (moov2 := moov2) (version := [0, 0, 0, 0]) (content := t.flatMap atomBox)
    (items1 := [(ascii "hdlr", [0, 0, 0, 0, 0, 0, 0, 0] ++ ascii "mdirappl" ++ List.replicate 9 0)]) (items2 := [])
    (by rw [newMeta_eq]; rfl) hok h1 h2 (by simp [Forest.top]) (fun i hi => (hk i hi).2) (metaOk_new _)
    (by intro y hy; rw [List.mem_singleton] at hy; subst hy; constructor
        · show IdOk (ascii "hdlr"); unfold IdOk; decide
        · show ascii "hdlr" ≠ _; decide)
    (by intro y hy; cases hy) cfg htags
  rw [if_neg (by omega), parse_layout_partial t hat (by omega), ok_bind] at hr
  exact hr

/-! ## What was not asked for -/

theorem loop_switches (cfg : Config) : ∀ (k : Nat) (r : Rd) (m m' : Moov), moovLoop cfg k r m = .ok m' →
    (cfg.tags = false → m'.ilst = m.ilst) ∧ (cfg.properties = false → m'.traks = m.traks) := by
  intro k
  induction k with
  | zero => intro r m m' h; cases h
  | succ k ih =>
    intro r m m' h
    rw [moovLoop] at h
    split at h
    · cases h
    · cases h; exact ⟨fun _ => rfl, fun _ => rfl⟩
    · cases h; exact ⟨fun _ => rfl, fun _ => rfl⟩
    · obtain ⟨⟨m1, r1⟩, h1, h2⟩ := bind_ok h
      obtain ⟨i1, i2⟩ := ih _ _ _ h2
      have : (cfg.tags = false → m1.ilst = m.ilst) ∧ (cfg.properties = false → m1.traks = m.traks) := by
        unfold moovStep at h1
        split at h1
        · rename_i hc
          obtain ⟨⟨c, r2⟩, _, h1⟩ := bind_ok h1
          cases c with
          | none => cases h1; exact ⟨fun _ => rfl, fun _ => rfl⟩
          | some c =>
            obtain ⟨r3, _, h1⟩ := bind_ok h1
            cases h1
            exact ⟨fun _ => rfl, fun h => by rw [hc.2] at h; cases h⟩
        · split at h1
          · rename_i hc
            obtain ⟨⟨t, r2⟩, _, h1⟩ := bind_ok h1
            cases h1
            refine ⟨fun h => (by rw [hc.2] at h; cases h), fun _ => ?_⟩
            unfold Moov.add
            cases t with
            | none => rfl
            | some t => cases m.ilst <;> rfl
          · obtain ⟨r3, _, h1⟩ := bind_ok h1
            cases h1
            exact ⟨fun _ => rfl, fun _ => rfl⟩
      exact ⟨fun h => (i1 h).trans (this.1 h), fun h => (i2 h).trans (this.2 h)⟩

/-- **C58.** Whatever the bytes of a file are: without `read_tags` no tag is returned, and
without `read_properties` no tracks are looked for. -/
theorem not_asked {cfg : Config} {f : Bytes} {brand : Str} {m : Moov} (h : readFrom cfg f = .ok (brand, m)) :
    (cfg.tags = false → m.ilst = none) ∧ (cfg.properties = false → m.traks = []) := by
  unfold readFrom at h
  obtain ⟨⟨b, r⟩, _, h⟩ := bind_ok h
  obtain ⟨⟨a, r'⟩, _, h⟩ := bind_ok h
  obtain ⟨m', h1, h⟩ := bind_ok h
  cases h
  exact loop_switches cfg _ _ _ _ h1

/-! ## Examples -/

def exCfg : Config := ⟨⟨.bestAttempt, true, true⟩, true, true, 16777216⟩

theorem sample_ok : ∀ a ∈ sample, AtomOk exCfg.opts a := by
  intro a ha
  rw [sample, List.mem_singleton] at ha
  subst ha
  refine ⟨⟨rfl, by decide, by decide, by decide, by decide⟩, trivial, ?_⟩
  intro d hd
  have hd : d ∈ [Data.utf8 "abc".toList] := hd
  rw [List.mem_singleton] at hd
  subst hd
  unfold ValueOk
  rw [if_neg (by decide), if_neg (by decide), if_neg (by decide), if_neg (by decide)]
  exact ⟨by decide, by unfold TextOk; decide⟩

theorem stbl_silent (es : List Nat) : Silent (stbl es) := by
  simp only [stbl, Silent, Forest.top, List.mem_singleton, forall_eq, Other]
  decide

theorem file_clear (free : List Bytes) : Clear (file free) := by
  refine ⟨stbl_silent _, trivial, ?_, ?_, ?_⟩
  · simp only [file, Forest.top, List.mem_singleton, forall_eq, Other]; decide
  · simp only [file, List.mem_singleton, forall_eq, hdlr]; decide
  · intro i hi; cases hi

/-- Saving in the padding, saving with growth, removing. -/
example : ∃ f brand traks, writeTo (file [List.replicate 50 7]).bytes sample .strict none = .ok f ∧
    readFrom exCfg f = .ok (brand, ⟨traks, some sample⟩) := by
  obtain ⟨f, brand, h1, _, h2⟩ := save_read_partial _ (file_ok _ (.inr rfl)) (file_clear _) sample (by decide) exCfg rfl sample_ok
    (by decide +kernel) .strict none (by intro k h; cases h) (by decide +kernel)
  exact ⟨f, brand, _, h1, h2⟩

example : ∃ f brand traks, writeTo (file []).bytes sample .strict (some 1024) = .ok f ∧
    readFrom exCfg f = .ok (brand, ⟨traks, some sample⟩) ∧ traks.length = 1 := by
  obtain ⟨f, brand, h1, _, h2⟩ := save_read_partial _ (file_ok _ (.inl rfl)) (file_clear _) sample (by decide) exCfg rfl sample_ok
    (by decide +kernel) .strict (some 1024) (by intro k h; injection h with h; subst h; decide) (by decide +kernel)
  exact ⟨f, brand, _, h1, h2, by decide +kernel⟩

example : ∃ f brand traks, writeTo (file []).bytes [] .strict none = .ok f ∧
    readFrom exCfg f = .ok (brand, ⟨traks, none⟩) := by
  obtain ⟨f, brand, h1, _, h2⟩ := remove_read_partial _ (file_ok _ (.inl rfl)) (file_clear _) (by decide) exCfg rfl .strict none
  exact ⟨f, brand, _, h1, h2⟩

/-- Creating. -/
example : ∃ f brand traks, writeTo bare.bytes sample .strict none = .ok f ∧ readFrom exCfg f = .ok (brand, ⟨traks, some sample⟩) := by
  obtain ⟨f, brand, h1, _, h2⟩ := create_read_partial bare_plain (stbl_silent _) (by decide) sample (by decide) exCfg rfl sample_ok
    (by decide +kernel) .strict none (by decide +kernel)
  exact ⟨f, brand, _, h1, h2⟩

/-! ## Where it goes wrong -/

/-- The tag that is read, and the number of tracks. -/
def summary (cfg : Config) (f : Bytes) : Except Err (Option Tag × Nat) := do
  let (_, m) ← readFrom cfg f
  .ok (m.ilst, m.traks.length)

/-- A tag with another title. -/
def oldTag : Tag := [⟨.fourcc [0xA9, 110, 97, 109], .single (.utf8 "old".toList)⟩]

/-- The `meta` of the file holds two `ilst`, an old title in the first one. -/
def twice : File := { file [] with items1 := [hdlr, (ascii "ilst", oldTag.flatMap atomBox)] }

/-- **C58 fails** with two `ilst` in a `meta`: saving replaces the last one, reading takes the
first, so what was saved is not what is read. -/
theorem saved_not_read : (writeTo twice.bytes sample .bestAttempt none >>= summary exCfg) = .ok (some oldTag, 1) := by
  decide +kernel

/-- A file whose `meta` has no version and begins with the tag, followed by padding. -/
def headless : File := { file [[0, 0]] with version := [], items1 := [], ilst := oldTag.flatMap atomBox }

/-- **C58 fails** when the tag is the first atom of a `meta` without version: after removing it
the file cannot be read in strict mode any more, since `meta` is taken for one with a version. -/
theorem removed_unreadable : summary { exCfg with opts := ⟨.strict, true, true⟩ } headless.bytes = .ok (some oldTag, 1) ∧
    (writeTo headless.bytes [] .strict none >>= summary { exCfg with opts := ⟨.strict, true, true⟩ }) = .error .parse := by
  decide +kernel

/-- A `meta` with nothing but version and tag at the end of `moov`. -/
def last : File := { file [] with items1 := [], ilst := oldTag.flatMap atomBox, udta2 := .nil }

/-- **C58 fails** for it as well. -/
theorem removed_unreadable_end : summary exCfg last.bytes = .ok (some oldTag, 1) ∧
    (writeTo last.bytes [] .bestAttempt none >>= summary exCfg) = .error .eof := by
  decide +kernel

/-- User data with a tag. -/
def userData (tail : Bytes) (rest : Forest) : Forest :=
  .leaf (ascii "udta") (box (ascii "meta") ([0, 0, 0, 0] ++ (box hdlr.1 hdlr.2 ++ box (ascii "ilst") (oldTag.flatMap atomBox))) ++ tail) rest

/-- A file with a tag in its track. -/
def trackTag : Bytes := (whole ftyp (.node (ascii "trak") (.node (ascii "mdia") .nil (userData [] .nil)) .nil) .nil).bytes

/-- User data of a track is not that of the file; but with `read_properties` it is read as
such, and without it is not. -/
theorem track_tag_read : summary exCfg trackTag = .ok (some oldTag, 1) ∧
    summary { exCfg with properties := false } trackTag = .ok (none, 0) := by
  decide +kernel

/-- A file with a track behind user data; four zero bytes may end the latter. -/
def terminated (tail : Bytes) : Bytes := (whole ftyp (userData tail (.node (ascii "trak") (.node (ascii "mdia") .nil .nil) .nil)) .nil).bytes

/-- User data that ends in four zero bytes, as QuickTime allows, hides the tracks behind it:
the atoms behind the tag are read as if they were in `moov`, and there the four bytes do not
begin an atom. -/
theorem terminator_hides_tracks : summary exCfg (terminated []) = .ok (some oldTag, 1) ∧
    summary exCfg (terminated [0, 0, 0, 0]) = .ok (some oldTag, 0) := by
  decide +kernel

/-- A tag beyond the allocation limit is saved, but the file cannot be read any more. -/
theorem limit_unreadable : (writeTo bare.bytes sample .bestAttempt none >>= summary { exCfg with limit := 20 }) = .error .alloc := by
  decide +kernel

/-- A file whose sound comes first, in an atom with the given header. -/
def soundFirst (header : Bytes) : Bytes :=
  box (ascii "ftyp") (ascii "M4A " ++ [0, 0, 0, 0]) ++ (header ++ List.replicate 20 5) ++ (Forest.node (ascii "moov") (userData [] .nil) .nil).bytes

/-- **C58 fails** for files that hold the sound in an atom with a 64-bit length in front of `moov`: eight bytes too many are skipped
(`skip_atom`, mp4/read/mod.rs 107-113, does not know that the header had 16 bytes), and `moov` is not found.  With a length of 32 bits it is. -/
theorem wide_sound_hides_tag : summary { exCfg with properties := false } (soundFirst (beBytes 4 28 ++ ascii "mdat")) = .ok (some oldTag, 0) ∧
    summary { exCfg with properties := false } (soundFirst (beBytes 4 1 ++ ascii "mdat" ++ beBytes 8 36)) = .error .parse := by
  decide +kernel

end Lofty.Mp4Read
