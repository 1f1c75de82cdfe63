import Verif.Spec.WavPack
import Verif.Props.Lossless
/-!
# C62: what is reported about WavPack files
-/
namespace Lofty.WavPack
open Lofty.Float64
open Lofty.Lossless

/-! ## Headers -/

theorem header_bytes {b : Blk} (h : b.Ok) (t : Bytes) :
    header (b.bytes ++ t) = .ok ⟨b.version, 24 + b.content.length, b.total, b.samples, b.flags⟩ := by
  unfold header Blk.bytes
  simp only [List.append_assoc]
  rw [readN_append (ascii "wvpk") _ (by decide), ok_bind]
  simp only
  rw [if_neg (by simp), readLE_append _ (by have := h.size; omega), ok_bind]
  simp only
  rw [if_neg (by omega), if_neg (by have := h.size; omega), readLE_append _ h.version, ok_bind]
  simp only
  rw [List.drop_left' h.track, readLE_append _ h.total, ok_bind]
  simp only
  rw [List.drop_left' (leBytes_length _ _), readLE_append _ h.samples, ok_bind]
  simp only
  rw [readLE_append _ h.flags, ok_bind]

theorem blk_length {b : Blk} (h : b.Ok) : b.bytes.length = 32 + b.content.length := by
  unfold Blk.bytes
  simp only [List.length_append, leBytes_length, h.track]
  have : (ascii "wvpk").length = 4 := by decide
  omega

theorem blk_split {b : Blk} (h : b.Ok) : ∃ hd : Bytes, hd.length = 32 ∧ b.bytes = hd ++ b.content := by
  refine ⟨_, ?_, rfl⟩
  simp only [List.length_append, leBytes_length, h.track]
  decide

theorem flag_iff (n k : ℕ) : (n &&& 2 ^ k = 2 ^ k) ↔ n.testBit k = true := by
  rw [and_bit, Nat.testBit_eq_decide_div_mod_eq, decide_eq_true_iff]
  have h1 : 0 < 2 ^ k := Nat.two_pow_pos k
  have h2 : n / 2 ^ k % 2 = 0 ∨ n / 2 ^ k % 2 = 1 := by omega
  rcases h2 with h2 | h2 <;> rw [h2] <;> omega

theorem flag_pos (n k : ℕ) : (0 < n &&& 2 ^ k) ↔ n.testBit k = true := by
  rw [and_bit, Nat.testBit_eq_decide_div_mod_eq, decide_eq_true_iff]
  have h1 : 0 < 2 ^ k := Nat.two_pow_pos k
  have h2 : n / 2 ^ k % 2 = 0 ∨ n / 2 ^ k % 2 = 1 := by omega
  rcases h2 with h2 | h2 <;> rw [h2] <;> omega

theorem flag_zero (n k : ℕ) : (n &&& 2 ^ k = 0) ↔ n.testBit k = false := by
  rw [and_bit, Nat.testBit_eq_decide_div_mod_eq, decide_eq_false_iff_not]
  have h1 : 0 < 2 ^ k := Nat.two_pow_pos k
  have h2 : n / 2 ^ k % 2 = 0 ∨ n / 2 ^ k % 2 = 1 := by omega
  rcases h2 with h2 | h2 <;> rw [h2] <;> omega

/-- The parsed header of a block. -/
def Blk.parsed (b : Blk) : Block := ⟨b.version, 24 + b.content.length, b.total, b.samples, b.flags⟩

theorem rateIndex_eq (b : Blk) : (b.flags >>> 23) &&& 0xF = b.rateIndex := by
  rw [and15, Nat.shiftRight_eq_div_pow]
  rfl

theorem step_standard {strict : Bool} {b : Blk} (h : b.Ok) (hs : b.standard) (front t : Bytes) (p : Props) (total : ℕ) :
    step strict (front ++ (b.bytes ++ t)) p total front.length
      = stepBody strict b.parsed { p with sampleRate := sampleRates.getD b.rateIndex 0 } total front.length := by
  unfold step
  rw [List.drop_left, header_bytes h]
  simp only
  rw [rateIndex_eq]
  have hd : ¬ (b.flags &&& 0x80000000 = 0x80000000) := by
    have h1 := (flag_iff b.flags 31).not.mpr (by rw [show b.flags.testBit 31 = false from hs.2]; decide)
    exact h1
  rw [if_neg (by rintro (h1 | h1); exacts [hs.1 h1, hd h1])]
  rfl

/-- What an initial block sets. -/
def Blk.apply (b : Blk) (p : Props) : Props :=
  { p with
    bitDepth := b.bits
    version := b.version
    lossless := !b.hybrid
    channels := if b.final then (if b.mono then 1 else 2) else p.channels
    mask := if b.final then (if b.mono then Channels.mono else Channels.stereo) else p.mask }

theorem bits_le (b : Blk) : b.bits % 256 = b.bits := by
  unfold Blk.bits
  omega

theorem stepBody_eq {strict : Bool} {b : Blk} (hv : b.initial = true → b.supported) (p : Props) (total offset : ℕ) :
    stepBody strict b.parsed p total offset
      = (if b.samples ≠ 0 ∧ b.final = true then
          .stop (if b.initial = true then b.apply p else p) (if b.initial = true then b.total else total)
        else .next (if b.initial = true then b.apply p else p) (if b.initial = true then b.total else total) (offset + (32 + b.content.length))) := by
  have hi : (b.flags &&& 0x800 = 0x800) ↔ b.initial = true := flag_iff b.flags 11
  have hf : (b.flags &&& 0x1000 = 0x1000) ↔ b.final = true := flag_iff b.flags 12
  have hf' : (b.flags &&& 0x1000 > 0) ↔ b.final = true := flag_pos b.flags 12
  have hm : (b.flags &&& 4 > 0) ↔ b.mono = true := flag_pos b.flags 2
  have hh : (b.flags &&& 8 = 0) ↔ b.hybrid = false := flag_zero b.flags 3
  have hb : (((b.flags &&& 3) + 1) * 8 - ((b.flags &&& (0x1F <<< 13)) >>> 13)) % 256 = b.bits := by
    have e1 : b.flags &&& 3 = b.flags % 4 := Nat.and_two_pow_sub_one_eq_mod b.flags 2
    have e2 : (b.flags &&& (0x1F <<< 13)) >>> 13 = b.flags / 2 ^ 13 % 32 := by
      rw [Nat.shiftRight_and_distrib, Nat.shiftRight_eq_div_pow, show (0x1F <<< 13) >>> 13 = 31 from rfl, and31]
    rw [e1, e2]
    exact bits_le b
  have hh' : decide (b.hybrid = false) = !b.hybrid := by
    cases b.hybrid <;> rfl
  unfold stepBody
  simp only [Blk.parsed, hi, hf, hf', hm, hb, hh, hh']
  rw [if_neg (by rintro ⟨h1, h2⟩; have := hv h1; unfold Blk.supported at this; omega)]
  unfold Blk.apply
  have hoff : offset + (24 + b.content.length + 8) = offset + (32 + b.content.length) := by omega
  rw [hoff]
  by_cases h0 : b.samples = 0
  · have hn : ¬ (b.samples ≠ 0 ∧ b.final = true) := fun h => h.1 h0
    rw [if_pos h0, if_neg hn]
  · by_cases h1 : b.final = true
    · have hy : b.samples ≠ 0 ∧ b.final = true := ⟨h0, h1⟩
      rw [if_neg h0, if_pos hy]
      simp only [h1, if_true]
    · have hn : ¬ (b.samples ≠ 0 ∧ b.final = true) := fun h => h1 h.2
      rw [if_neg h0, if_neg hn]
      simp only [h1, Bool.false_eq_true, if_false]

/-- All blocks, each behind the other. -/
def concat (bs : List Blk) : Bytes := (bs.map Blk.bytes).flatten

/-- What is known behind blocks that do not end the search. -/
def run : List Blk → Props × ℕ → Props × ℕ
  | [], x => x
  | b :: bs, (p, total) =>
    run bs (if b.initial = true then b.apply { p with sampleRate := rates.getD b.rateIndex 0 } else { p with sampleRate := rates.getD b.rateIndex 0 },
      if b.initial = true then b.total else total)

theorem rates_eq (i : ℕ) (h : i < 16) : sampleRates.getD i 0 = rates.getD i 0 := by
  have : ∀ i < 16, sampleRates.getD i 0 = rates.getD i 0 := by decide
  exact this i h

theorem rateIndex_lt (b : Blk) : b.rateIndex < 16 := Nat.mod_lt _ (by decide)

theorem loop_blocks {strict : Bool} (bs : List Blk) (hok : ∀ b ∈ bs, b.Ok ∧ b.standard ∧ (b.initial = true → b.supported) ∧
    (b.samples = 0 ∨ b.final = false)) (front t : Bytes) (p : Props) (total n : ℕ) :
    loop strict (front ++ (concat bs ++ t)) (bs.length + n) p total front.length
      = loop strict ((front ++ concat bs) ++ t) n (run bs (p, total)).1 (run bs (p, total)).2 (front ++ concat bs).length := by
  induction bs generalizing front p total with
  | nil => simp [concat, run]
  | cons b bs ih =>
    obtain ⟨h1, h2, h3, h4⟩ := hok b List.mem_cons_self
    have hc : concat (b :: bs) = b.bytes ++ concat bs := rfl
    have e : (b :: bs).length + n = (bs.length + n) + 1 := by simp only [List.length_cons]; omega
    rw [e]
    rw [hc, List.append_assoc b.bytes, loop, step_standard h1 h2, stepBody_eq h3, if_neg (by rintro ⟨ha, hb⟩; rcases h4 with h4 | h4; exacts [ha h4, by rw [h4] at hb; cases hb])]
    simp only
    have hl : front.length + (32 + b.content.length) = (front ++ b.bytes).length := by
      rw [List.length_append, blk_length h1]
    have ha : front ++ (b.bytes ++ (concat bs ++ t)) = (front ++ b.bytes) ++ (concat bs ++ t) := by simp only [List.append_assoc]
    rw [hl, ha, ih (fun b hb => hok b (List.mem_cons_of_mem _ hb)), rates_eq _ (rateIndex_lt b), List.append_assoc front b.bytes]
    rfl

/-- What is reported of the block that ends the search, as far as the header tells. -/
structure Report (p : Props) (b : Blk) (rate stream file : ℕ) : Prop where
  version : p.version = b.version
  bitDepth : p.bitDepth = b.bits
  lossless : p.lossless = !b.hybrid
  channels : p.channels = if b.mono then 1 else 2
  mask : p.mask = if b.mono then 4 else 3
  sampleRate : p.sampleRate = rate
  duration : p.duration = if b.total = 2 ^ 32 - 1 then 0 else nearest (b.total * 1000) rate
  audio : b.total ≠ 2 ^ 32 - 1 → rateOf stream b.total rate ≤ 2 ^ 32 - 2 → Near p.audio (rateOf stream b.total rate)
  overall : b.total ≠ 2 ^ 32 - 1 → rateOf file b.total rate ≤ 2 ^ 32 - 2 → Near p.overall (rateOf file b.total rate)

theorem finish_report {p : Props} {b : Blk} {rate : ℕ} (hr : 0 < rate ∧ rate < 2 ^ 32) (hp : p.sampleRate = rate) (hd : p.duration = 0)
    (hb : b.final = true) (h0 : 0 < b.total) (h1 : b.total < 2 ^ 32) (strict : Bool) (stream file : ℕ) :
    ∃ q, (if b.total = 2 ^ 32 - 1 then .ok (b.apply p)
      else if b.total = 0 ∨ (b.apply p).sampleRate = 0 then (if strict then .error .parse else .ok (b.apply p))
      else .ok { b.apply p with
        duration := ((millis b.total (b.apply p).sampleRate).add .half).toU 64
        audio := kbps stream (millis b.total (b.apply p).sampleRate)
        overall := kbps file (millis b.total (b.apply p).sampleRate) } : Except Err Props) = .ok q ∧ Report q b rate stream file := by
  have hc : (b.apply p).channels = if b.mono then 1 else 2 := by
    unfold Blk.apply
    simp only [hb, if_true]
  have hm : (b.apply p).mask = if b.mono then 4 else 3 := by
    unfold Blk.apply
    simp only [hb, if_true]
    cases b.mono <;> rfl
  have hs : (b.apply p).sampleRate = rate := hp
  by_cases hu : b.total = 2 ^ 32 - 1
  · rw [if_pos hu]
    exact ⟨_, rfl, ⟨rfl, rfl, rfl, hc, hm, hs, by rw [if_pos hu]; exact hd, fun h => absurd hu h, fun h => absurd hu h⟩⟩
  · rw [if_neg hu, if_neg (by rw [hs]; omega), hs]
    refine ⟨_, rfl, ⟨rfl, rfl, rfl, hc, hm, ?_, ?_, fun _ h => ?_, fun _ h => ?_⟩⟩
    · exact hs
    · rw [if_neg hu]
      exact millis_round (by omega) (by omega) hr.1
    · exact kbps_near (by omega) h0 (by omega) hr.1 h
    · exact kbps_near (by omega) h0 (by omega) hr.1 h

theorem run_duration (bs : List Blk) (x : Props × ℕ) (h : x.1.duration = 0) : (run bs x).1.duration = 0 := by
  induction bs generalizing x with
  | nil => exact h
  | cons b bs ih =>
    obtain ⟨p, total⟩ := x
    unfold run
    apply ih
    simp only
    split <;> exact h

theorem concat_length {bs : List Blk} (h : ∀ b ∈ bs, b.Ok) : bs.length ≤ (concat bs).length := by
  induction bs with
  | nil => exact Nat.zero_le _
  | cons b bs ih =>
    have h1 := blk_length (h b List.mem_cons_self)
    have h2 := ih fun b hb => h b (List.mem_cons_of_mem _ hb)
    have hc : concat (b :: bs) = b.bytes ++ concat bs := rfl
    rw [hc, List.length_append, List.length_cons]
    omega

/-- C62: **WavPack, mono and stereo, standard sample rates**: behind any number of blocks without samples, the first block with samples is what is
reported, whatever follows it. -/
theorem wavpack_fields {strict : Bool} {pre : List Blk} {b : Blk} (hpre : ∀ x ∈ pre, x.Ok ∧ x.standard ∧ (x.initial = true → x.supported) ∧ x.samples = 0)
    (hok : b.Ok) (hst : b.standard) (hsup : b.supported) (hi : b.initial = true) (hf : b.final = true) (hs : b.samples ≠ 0)
    (ht : 0 < b.total) (t : Bytes) (stream : ℕ) :
    ∃ p, readProperties strict (concat pre ++ (b.bytes ++ t)) stream = .ok p ∧
      Report p b (rates.getD b.rateIndex 0) stream (concat pre ++ (b.bytes ++ t)).length := by
  unfold readProperties
  have hlen : pre.length ≤ (concat pre ++ (b.bytes ++ t)).length := by
    have := concat_length (bs := pre) fun x hx => (hpre x hx).1
    rw [List.length_append]
    omega
  generalize hL : (concat pre ++ (b.bytes ++ t)).length = L at *
  obtain ⟨n, hn⟩ : ∃ n, L + 1 = pre.length + (n + 1) := ⟨L - pre.length, by omega⟩
  have hl := loop_blocks (strict := strict) pre (fun x hx => ⟨(hpre x hx).1, (hpre x hx).2.1, (hpre x hx).2.2.1, .inl (hpre x hx).2.2.2⟩) [] (b.bytes ++ t) {} 0 (n + 1)
  simp only [List.nil_append, List.length_nil] at hl
  rw [hn, hl, loop, step_standard hok hst, stepBody_eq (fun _ => hsup), if_pos ⟨hs, hf⟩, if_pos hi, if_pos hi]
  simp only
  rw [ok_bind]
  simp only
  rw [rates_eq _ (rateIndex_lt b)]
  have hrate : 0 < rates.getD b.rateIndex 0 ∧ rates.getD b.rateIndex 0 < 2 ^ 32 := by
    have : ∀ i < 16, i ≠ 15 → 0 < rates.getD i 0 ∧ rates.getD i 0 < 2 ^ 32 := by decide
    exact this _ (rateIndex_lt b) hst.1
  exact finish_report (p := { (run pre ({}, 0)).1 with sampleRate := rates.getD b.rateIndex 0 }) hrate rfl (run_duration pre ({}, 0) rfl) hf ht hok.total strict stream L


def exampleBlock : Blk := ⟨0x410, [0, 0], 441000, 0, 22050, 9 * 2 ^ 23 + 0x1800 + 1, 7, [1, 2, 3]⟩

/-- A block without samples, then stereo, 16 bits, 44.1 kHz, ten seconds. -/
example : readProperties true (concat [⟨0x410, [0, 0], 0, 0, 0, 9 * 2 ^ 23 + 0x1800 + 1, 7, [9]⟩] ++ (exampleBlock.bytes ++ [])) 1000000
    = .ok ⟨0x410, 10000, 0, 800, 44100, 2, 3, 16, true⟩ := by decide +kernel

example : exampleBlock.standard ∧ exampleBlock.supported ∧ exampleBlock.initial = true ∧ exampleBlock.final = true ∧ exampleBlock.samples ≠ 0 ∧
    0 < exampleBlock.total ∧ exampleBlock.bits = 16 ∧ exampleBlock.mono = false ∧ rates.getD exampleBlock.rateIndex 0 = 44100 := by
  refine ⟨⟨by decide, by decide⟩, ⟨by decide, by decide⟩, by decide, by decide, by decide, by decide, by decide, by decide, by decide⟩

/-! ## More than two channels -/

/-- The channels are only counted in a block that is both first and last. -/
theorem run_channels (bs : List Blk) (h : ∀ b ∈ bs, ¬ (b.initial = true ∧ b.final = true)) (x : Props × ℕ) : (run bs x).1.channels = x.1.channels := by
  induction bs generalizing x with
  | nil => rfl
  | cons b bs ih =>
    obtain ⟨p, total⟩ := x
    unfold run
    rw [ih fun b hb => h b (List.mem_cons_of_mem _ hb)]
    have hb := h b List.mem_cons_self
    by_cases h1 : b.initial = true
    · simp only [if_pos h1]
      have h2 : ¬ b.final = true := fun h2 => hb ⟨h1, h2⟩
      unfold Blk.apply
      simp only [if_neg h2]
    · simp only [if_neg h1]

/-- C62 is false of the code for more than two channels: **every file of more than one block per sequence, at a standard sample rate, is said to have no
channels** (their number is in a sub-block, which is only read at other sample rates). -/
theorem multichannel_not_counted {strict : Bool} {bs : List Blk} {b : Blk} (hbs : ∀ x ∈ bs, x.Ok ∧ x.standard ∧ (x.initial = true → x.supported) ∧ x.final = false)
    (hok : b.Ok) (hst : b.standard) (hi : b.initial = false) (hf : b.final = true) (hs : b.samples ≠ 0) (t : Bytes) (stream : ℕ) {p : Props}
    (h : readProperties strict (concat bs ++ (b.bytes ++ t)) stream = .ok p) : p.channels = 0 := by
  unfold readProperties at h
  have hlen : bs.length ≤ (concat bs ++ (b.bytes ++ t)).length := by
    have := concat_length (bs := bs) fun x hx => (hbs x hx).1
    rw [List.length_append]
    omega
  generalize hL : (concat bs ++ (b.bytes ++ t)).length = L at *
  obtain ⟨n, hn⟩ : ∃ n, L + 1 = bs.length + (n + 1) := ⟨L - bs.length, by omega⟩
  have hl := loop_blocks (strict := strict) bs (fun x hx => ⟨(hbs x hx).1, (hbs x hx).2.1, (hbs x hx).2.2.1, .inr (hbs x hx).2.2.2⟩) [] (b.bytes ++ t) {} 0 (n + 1)
  simp only [List.nil_append, List.length_nil] at hl
  have hni : ¬ b.initial = true := by rw [hi]; decide
  rw [hn, hl, loop, step_standard hok hst, stepBody_eq (fun h => absurd h hni), if_pos ⟨hs, hf⟩, if_neg hni, if_neg hni] at h
  simp only at h
  rw [ok_bind] at h
  simp only at h
  have hc : (run bs (({} : Props), 0)).1.channels = 0 := run_channels bs (fun x hx h => by rw [(hbs x hx).2.2.2] at h; cases h.2) _
  split at h
  · obtain rfl := (Except.ok.injEq _ _).mp h
    exact hc
  · split at h
    · split at h
      · cases h
      · obtain rfl := (Except.ok.injEq _ _).mp h
        exact hc
    · obtain rfl := (Except.ok.injEq _ _).mp h
      exact hc

/-- Four channels, two in each of two blocks, named in a sub-block of the first. -/
theorem four_channels : readProperties true
    (concat [⟨0x410, [0, 0], 441000, 0, 22050, 9 * 2 ^ 23 + 0x800 + 1, 7, (⟨0xD, [4, 0x33]⟩ : Sub).bytes⟩] ++
      ((⟨0x410, [0, 0], 441000, 0, 22050, 9 * 2 ^ 23 + 0x1000 + 1, 7, []⟩ : Blk).bytes ++ [])) 1000000
    = .ok ⟨0x410, 10000, 0, 800, 44100, 0, 0, 16, true⟩ := by decide +kernel

/-! ## Sample rates in sub-blocks -/

/-- The sub-blocks that the reader is to understand here: the identifier fits, sample rates have three bytes or more, the multiplier of DSD at least two, of which the
first is at most 30; the channels are not among them. -/
structure Sub.Ok (s : Sub) : Prop where
  id : s.id < 64
  size : (s.data.length + 1) / 2 < 2 ^ 24
  rate : s.id = 0x27 → 3 ≤ s.data.length
  dsd : s.id = 0xE → 2 ≤ s.data.length ∧ (s.data.headD 0).toNat ≤ 30
  channels : s.id ≠ 0xD

/-- What a sub-block says about the sample rate. -/
def Sub.rateOf (s : Sub) (rate : ℕ) : ℕ :=
  if s.id = 0x27 then fromLE (s.data.take 3)
  else if s.id = 0xE then rate * 2 ^ (s.data.headD 0).toNat % 2 ^ 32
  else rate

def concatSubs (l : List Sub) : Bytes := (l.map Sub.bytes).flatten

theorem ids : ∀ id < 64, ∀ odd < 2, ∀ large < 2, (decide (UInt8.ofNat (id + 64 * odd + 128 * large) &&& 0x80 ≠ 0) = decide (large = 1)) ∧
    (decide (UInt8.ofNat (id + 64 * odd + 128 * large) &&& 0x40 ≠ 0) = decide (odd = 1)) ∧
    (UInt8.ofNat (id + 64 * odd + 128 * large) &&& 0x3F).toNat = id := by
  decide +kernel

theorem subHeader_bytes {s : Sub} (h : s.Ok) (t : Bytes) :
    ∃ i : UInt8, subHeader (s.bytes ++ t) = .ok (i, 2 * ((s.data.length + 1) / 2), s.data ++ List.replicate (s.data.length % 2) 0 ++ t) ∧
      decide (i &&& 0x40 ≠ 0) = decide (s.data.length % 2 = 1) ∧ (i &&& 0x3F).toNat = s.id := by
  unfold Sub.bytes
  simp only
  generalize hw : (s.data.length + 1) / 2 = w
  have hw24 : w < 2 ^ 24 := hw ▸ h.size
  by_cases hl : 255 < w
  · rw [if_pos hl, if_pos hl]
    obtain ⟨h1, h2, h3⟩ := ids s.id h.id (s.data.length % 2) (Nat.mod_lt _ (by decide)) 1 (by decide)
    refine ⟨_, ?_, h2, h3⟩
    have hle : leBytes 3 w = [UInt8.ofNat w, UInt8.ofNat (w / 256), UInt8.ofNat (w / 256 / 256)] := rfl
    rw [hle]
    unfold subHeader
    simp only [List.cons_append, List.nil_append]
    rw [readU8_cons, ok_bind]
    simp only
    rw [readU8_cons, ok_bind]
    simp only
    rw [if_pos (of_decide_eq_true (h1.trans (by decide))), readU8_cons, ok_bind]
    simp only
    rw [readU8_cons, ok_bind]
    simp only [UInt8.toNat_ofNat', Nat.shiftLeft_eq]
    have e : w % 2 ^ 8 * 2 ^ 1 + w / 256 % 2 ^ 8 * 2 ^ 9 + w / 256 / 256 % 2 ^ 8 * 2 ^ 17 = 2 * w := by omega
    rw [e]
  · rw [if_neg hl, if_neg hl]
    obtain ⟨h1, h2, h3⟩ := ids s.id h.id (s.data.length % 2) (Nat.mod_lt _ (by decide)) 0 (by decide)
    refine ⟨_, ?_, h2, h3⟩
    have hle : leBytes 1 w = [UInt8.ofNat w] := rfl
    rw [hle]
    unfold subHeader
    simp only [List.cons_append, List.nil_append]
    rw [readU8_cons, ok_bind]
    simp only
    rw [readU8_cons, ok_bind]
    simp only
    rw [if_neg (of_decide_eq_false (h1.trans (by decide)))]
    simp only [UInt8.toNat_ofNat', Nat.shiftLeft_eq]
    have e : w % 2 ^ 8 * 2 ^ 1 = 2 * w := by omega
    rw [e]

theorem subBlock_data {strict : Bool} {s : Sub} (h : s.Ok) (h0 : 0 < s.data.length) (t : Bytes) (p : Props) :
    ∃ k ≤ s.data.length, subBlock strict s.id (s.data ++ t) s.data.length p
      = ({ p with sampleRate := s.rateOf p.sampleRate }, .ok (some (s.data.drop k ++ t, s.data.length - k))) := by
  unfold subBlock Sub.rateOf
  by_cases h1 : s.id = 0x27
  · have hlen := h.rate h1
    simp only [if_pos h1]
    refine ⟨3, hlen, ?_⟩
    rw [if_neg (by omega)]
    have hr : readLE 3 (s.data ++ t) = .ok (fromLE (s.data.take 3), s.data.drop 3 ++ t) := by
      unfold readLE
      have hs : s.data ++ t = s.data.take 3 ++ (s.data.drop 3 ++ t) := by rw [← List.append_assoc, List.take_append_drop]
      rw [hs, readN_append _ _ (by rw [List.length_take]; omega)]
    have hsub : sub s.data.length 3 = .ok (s.data.length - 3) := by unfold sub; rw [if_neg (by omega)]
    rw [hr, hsub]
  · simp only [if_neg h1]
    by_cases h2 : s.id = 0xE
    · obtain ⟨hlen, h30⟩ := h.dsd h2
      simp only [if_pos h2]
      refine ⟨1, by omega, ?_⟩
      rw [if_neg (by omega)]
      have hsub : sub s.data.length 1 = .ok (s.data.length - 1) := by unfold sub; rw [if_neg (by omega)]
      rw [hsub]
      cases hd : s.data with
      | nil => rw [hd] at h0; cases h0
      | cons x d =>
        rw [hd] at h30
        rw [List.cons_append, readU8_cons]
        simp only [List.headD_cons] at h30 ⊢
        rw [if_neg (by omega)]
        simp only [Nat.shiftLeft_eq, Nat.one_mul]
        rfl
    · simp only [if_neg h2, if_neg h.channels]
      exact ⟨0, Nat.zero_le _, by simp only [List.drop_zero, Nat.sub_zero]⟩

theorem extended_sub {strict : Bool} {s : Sub} (h : s.Ok) (t : Bytes) (p : Props) (n : ℕ) :
    extended strict (n + 1) (s.bytes ++ t) p = extended strict n t { p with sampleRate := s.rateOf p.sampleRate } := by
  have hlen2 : ¬ (s.bytes ++ t).length < 2 := by
    unfold Sub.bytes
    simp only [List.cons_append, List.length_cons, List.length_append, leBytes_length]
    split <;> omega
  obtain ⟨i, hh, hodd, hid⟩ := subHeader_bytes h t
  rw [extended, if_neg hlen2, hh]
  simp only
  by_cases h0 : s.data.length = 0
  · have hd : s.data = [] := List.length_eq_zero_iff.mp h0
    have hrate : s.rateOf p.sampleRate = p.sampleRate := by
      unfold Sub.rateOf
      rw [if_neg (fun h1 => by have := h.rate h1; omega), if_neg (fun h1 => by have := (h.dsd h1).1; omega)]
    rw [hd, hrate]
    rfl
  · rw [if_neg (by omega), if_neg (by simp only [List.length_append, List.length_replicate]; omega), hid]
    have hodd' : (i &&& 0x40 ≠ 0) ↔ s.data.length % 2 = 1 := by
      constructor
      · intro h1
        rw [decide_eq_true h1] at hodd
        exact of_decide_eq_true hodd.symm
      · intro h1
        rw [decide_eq_true h1] at hodd
        exact of_decide_eq_true hodd
    have hsub : sub (2 * ((s.data.length + 1) / 2)) (if i &&& 0x40 ≠ 0 then 1 else 0) = .ok s.data.length := by
      unfold sub
      by_cases ho : i &&& 0x40 ≠ 0
      · have := hodd'.mp ho
        rw [if_pos ho, if_neg (by omega)]
        exact congrArg Except.ok (by omega)
      · have : ¬ s.data.length % 2 = 1 := fun h1 => ho (hodd'.mpr h1)
        rw [if_neg ho, if_neg (by omega)]
        exact congrArg Except.ok (by omega)
    rw [hsub]
    simp only
    rw [List.append_assoc]
    obtain ⟨k, hk, hb⟩ := subBlock_data (strict := strict) h (by omega) (List.replicate (s.data.length % 2) 0 ++ t) p
    rw [hb]
    simp only
    have hdl : (s.data.drop k).length = s.data.length - k := List.length_drop
    rw [if_neg (by rw [List.length_append, hdl]; omega), List.drop_left' hdl]
    by_cases ho : i &&& 0x40 ≠ 0
    · have := hodd'.mp ho
      rw [if_pos ho, this]
      rfl
    · have : ¬ s.data.length % 2 = 1 := fun h1 => ho (hodd'.mpr h1)
      have : s.data.length % 2 = 0 := by omega
      rw [if_neg ho, this]
      rfl

theorem sub_length {s : Sub} : 2 ≤ s.bytes.length := by
  unfold Sub.bytes
  simp only [List.cons_append, List.length_cons, List.length_append, leBytes_length]
  split <;> omega

theorem extended_subs {strict : Bool} (l : List Sub) (h : ∀ s ∈ l, s.Ok) (p : Props) (n : ℕ) :
    extended strict (l.length + (n + 1)) (concatSubs l) p = ({ p with sampleRate := l.foldl (fun r s => s.rateOf r) p.sampleRate }, .ok ()) := by
  induction l generalizing p with
  | nil =>
    rw [show concatSubs [] = [] from rfl, show ([] : List Sub).length + (n + 1) = n + 1 from Nat.zero_add _, extended, if_pos (by decide)]
    rfl
  | cons s l ih =>
    have e : (s :: l).length + (n + 1) = (l.length + (n + 1)) + 1 := by simp only [List.length_cons]; omega
    have hc : concatSubs (s :: l) = s.bytes ++ concatSubs l := rfl
    rw [e, hc, extended_sub (h s List.mem_cons_self), ih fun s hs => h s (List.mem_cons_of_mem _ hs)]
    rfl

theorem concatSubs_length (l : List Sub) : l.length ≤ (concatSubs l).length := by
  induction l with
  | nil => exact Nat.zero_le _
  | cons s l ih =>
    have h1 := sub_length (s := s)
    have hc : concatSubs (s :: l) = s.bytes ++ concatSubs l := rfl
    rw [hc, List.length_append, List.length_cons]
    omega

theorem step_custom {strict : Bool} {b : Blk} {l : List Sub} (h : b.Ok) (hs : ¬ b.standard) (hc : b.content = concatSubs l) (hl : ∀ s ∈ l, s.Ok)
    (hr : l.foldl (fun r s => s.rateOf r) (rates.getD b.rateIndex 0) ≠ 0) (front t : Bytes) (p : Props) (total : ℕ) :
    step strict (front ++ (b.bytes ++ t)) p total front.length
      = stepBody strict b.parsed { p with sampleRate := l.foldl (fun r s => s.rateOf r) (rates.getD b.rateIndex 0) } total front.length := by
  unfold step
  rw [List.drop_left, header_bytes h]
  simp only
  rw [rateIndex_eq]
  have hcond : b.rateIndex = 15 ∨ b.flags &&& 0x80000000 = 0x80000000 := by
    by_contra hn
    rw [not_or] at hn
    refine hs ⟨hn.1, ?_⟩
    have h1 := (flag_iff b.flags 31).not.mp hn.2
    exact Bool.eq_false_iff.mpr h1
  rw [if_pos hcond]
  have hread : readAt (front ++ (b.bytes ++ t)) (front.length + 32) (24 + b.content.length - 24) = .ok b.content := by
    have hl : 24 + b.content.length - 24 = b.content.length := by omega
    obtain ⟨hd, hd32, hbytes⟩ := blk_split h
    unfold readAt
    rw [hl, hbytes, if_pos (by simp only [List.length_append, hd32]; omega), List.append_assoc hd, ← List.append_assoc front,
      List.drop_left' (by rw [List.length_append, hd32]), List.take_left' rfl]
  rw [hread]
  simp only
  obtain ⟨n, hn⟩ : ∃ n, b.content.length + 1 = l.length + (n + 1) := ⟨b.content.length - l.length, by
    have := concatSubs_length l
    rw [← hc] at this
    omega⟩
  have hx : extended strict (b.content.length + 1) b.content { p with sampleRate := sampleRates.getD b.rateIndex 0 }
      = ({ p with sampleRate := l.foldl (fun r s => s.rateOf r) (rates.getD b.rateIndex 0) }, .ok ()) := by
    rw [hn, hc, extended_subs l hl, rates_eq _ (rateIndex_lt b)]
  rw [hx]
  simp only
  rw [if_neg (fun h => hr h.2)]
  rfl

/-- C62: **WavPack, other sample rates and DSD, mono and stereo**: the sample rate is that of the sub-blocks of the block, wherever they are in it; the multiplier
of DSD multiplies it. -/
theorem wavpack_custom_fields {strict : Bool} {pre : List Blk} {b : Blk} {l : List Sub}
    (hpre : ∀ x ∈ pre, x.Ok ∧ x.standard ∧ (x.initial = true → x.supported) ∧ x.samples = 0)
    (hok : b.Ok) (hst : ¬ b.standard) (hc : b.content = concatSubs l) (hl : ∀ s ∈ l, s.Ok) {rate : ℕ}
    (hr : l.foldl (fun r s => s.rateOf r) (rates.getD b.rateIndex 0) = rate) (hr' : 0 < rate ∧ rate < 2 ^ 32)
    (hsup : b.supported) (hi : b.initial = true) (hf : b.final = true) (hs : b.samples ≠ 0) (ht : 0 < b.total) (t : Bytes) (stream : ℕ) :
    ∃ p, readProperties strict (concat pre ++ (b.bytes ++ t)) stream = .ok p ∧ Report p b rate stream (concat pre ++ (b.bytes ++ t)).length := by
  unfold readProperties
  have hlen : pre.length ≤ (concat pre ++ (b.bytes ++ t)).length := by
    have := concat_length (bs := pre) fun x hx => (hpre x hx).1
    rw [List.length_append]
    omega
  generalize hL : (concat pre ++ (b.bytes ++ t)).length = L at *
  obtain ⟨n, hn⟩ : ∃ n, L + 1 = pre.length + (n + 1) := ⟨L - pre.length, by omega⟩
  have hlp := loop_blocks (strict := strict) pre (fun x hx => ⟨(hpre x hx).1, (hpre x hx).2.1, (hpre x hx).2.2.1, .inl (hpre x hx).2.2.2⟩) [] (b.bytes ++ t) {} 0 (n + 1)
  simp only [List.nil_append, List.length_nil] at hlp
  rw [hn, hlp, loop, step_custom hok hst hc hl (by omega), stepBody_eq (fun _ => hsup), if_pos ⟨hs, hf⟩, if_pos hi, if_pos hi]
  simp only
  rw [ok_bind]
  simp only
  rw [hr]
  exact finish_report (p := { (run pre ({}, 0)).1 with sampleRate := rate }) hr' rfl (run_duration pre ({}, 0) rfl) hf ht hok.total strict stream L

/-- Sub-blocks of various sizes, among them the sample rate (three bytes), 37800. -/
def customSubs : List Sub := [⟨0x21, [1, 2, 3, 4, 5]⟩, ⟨0x2, []⟩, ⟨0x27, leBytes 3 37800⟩, ⟨0xA, List.replicate 600 7⟩]

def customBlock : Blk := ⟨0x410, [0, 0], 378000, 0, 22050, 15 * 2 ^ 23 + 0x1804 + 2, 7, concatSubs customSubs⟩

example : readProperties true (concat [] ++ (customBlock.bytes ++ [])) 1000000 = .ok ⟨0x410, 10000, 1, 800, 37800, 1, 4, 24, true⟩ := by
  decide +kernel

example : ¬ customBlock.standard ∧ customSubs.foldl (fun r s => s.rateOf r) (rates.getD customBlock.rateIndex 0) = 37800 := by
  refine ⟨fun h => h.1 (by decide), by decide⟩

/-- DSD64: 44.1 kHz, multiplied by 64. -/
example : readProperties true ((⟨0x410, [0, 0], 28224000, 0, 22050, 2 ^ 31 + 9 * 2 ^ 23 + 0x1800, 7, concatSubs [⟨0xE, [6, 1]⟩]⟩ : Blk).bytes) 1000000
    = .ok ⟨0x410, 10000, 0, 800, 2822400, 2, 3, 8, true⟩ := by decide +kernel

/-- C62 is false of the code for files that name their channels next to another sample rate: the byte of the channels is not counted, so that the next sub-block is looked for
one byte too far.  Files of six channels at 37800 Hz are not read at all, or have no duration. -/
theorem channels_drift :
    let file (l : List Sub) : Bytes := (⟨0x410, [0, 0], 378000, 0, 22050, 15 * 2 ^ 23 + 0x800 + 1, 7, concatSubs l⟩ : Blk).bytes ++
      (⟨0x410, [0, 0], 378000, 0, 22050, 15 * 2 ^ 23 + 0x1000 + 1, 7, concatSubs [⟨0x27, leBytes 3 37800⟩]⟩ : Blk).bytes
    readProperties true (file [⟨0x27, leBytes 3 37800⟩, ⟨0xD, [6, 0x3F]⟩]) 1000000 = .error .sizeMismatch ∧
      readProperties true (file [⟨0xD, [6, 0x3F]⟩, ⟨0x27, leBytes 3 37800⟩]) 1000000 = .error .sizeMismatch ∧
      (readProperties false (file [⟨0x27, leBytes 3 37800⟩, ⟨0xD, [6, 0x3F]⟩]) 1000000).map (·.duration) = .ok 0 ∧
      (readProperties true (file [⟨0x27, leBytes 3 37800⟩]) 1000000).map (·.duration) = .ok 10000 := by
  decide +kernel

/-! ## No panic, no endless loop -/

theorem sub_ok {a b : ℕ} (h : b ≤ a) : sub a b = .ok (a - b) := by unfold sub; rw [if_neg (by omega)]

def Calm {α : Type} (x : Except Err α) : Prop := x ≠ .error .panic ∧ x ≠ .error .diverge

theorem calm_ok {α : Type} (a : α) : Calm (.ok a : Except Err α) := by
  constructor <;> (intro h; cases h)

theorem calm_err {α : Type} {e : Err} (h1 : e ≠ .panic) (h2 : e ≠ .diverge) : Calm (.error e : Except Err α) := by
  constructor <;> (intro h; cases h; contradiction)

theorem calm_bind {α β : Type} {x : Except Err α} {g : α → Except Err β} (hx : Calm x) (hg : ∀ a, Calm (g a)) : Calm (x >>= g) :=
  ⟨bind_ne hx.1 fun a => (hg a).1, bind_ne hx.2 fun a => (hg a).2⟩

theorem calm_readU8 (r : Bytes) : Calm (readU8 r) := ⟨readU8_ne (by decide) r, readU8_ne (by decide) r⟩
theorem calm_readLE (n : ℕ) (r : Bytes) : Calm (readLE n r) := ⟨readLE_ne (by decide) n r, readLE_ne (by decide) n r⟩
theorem calm_readN (n : ℕ) (r : Bytes) : Calm (readN n r) := ⟨readN_ne (by decide) n r, readN_ne (by decide) n r⟩

theorem calm_header (r : Bytes) : Calm (header r) := by
  unfold header
  refine calm_bind (calm_readN _ _) fun ⟨a, r⟩ => ?_
  simp only
  split
  · exact calm_err (by decide) (by decide)
  refine calm_bind (calm_readLE _ _) fun ⟨a, r⟩ => ?_
  simp only
  split
  · exact calm_err (by decide) (by decide)
  split
  · exact calm_err (by decide) (by decide)
  exact calm_bind (calm_readLE _ _) fun x => calm_bind (calm_readLE _ _) fun x => calm_bind (calm_readLE _ _) fun x => calm_bind (calm_readLE _ _) fun x => calm_ok _

/-- The error, or the rest, of a reader. -/
theorem readU8_cases (r : Bytes) : readU8 r = .error .eof ∨ ∃ a r', readU8 r = .ok (a, r') ∧ r'.length + 1 = r.length := by
  cases r with
  | nil => exact .inl rfl
  | cons a r => exact .inr ⟨a, r, rfl, rfl⟩

theorem readLE_cases (n : ℕ) (r : Bytes) : readLE n r = .error .eof ∨ ∃ a r', readLE n r = .ok (a, r') ∧ r'.length + n = r.length := by
  unfold readLE readN
  by_cases h : n ≤ r.length
  · rw [if_pos h]
    refine .inr ⟨_, _, rfl, ?_⟩
    rw [List.length_drop]
    omega
  · rw [if_neg h]
    exact .inl rfl

theorem calm_eof {α : Type} : Calm (.error .eof : Except Err α) := calm_err (by decide) (by decide)

theorem calm_multichannel (r : Bytes) (size : ℕ) (p : Props) :
    Calm (multichannel r size p).2 ∧ ∀ r' s', (multichannel r size p).2 = .ok (r', s') → r'.length ≤ r.length := by
  unfold multichannel
  by_cases h1 : size ≤ 1
  · rw [if_pos h1]
    exact ⟨calm_err (by decide) (by decide), fun _ _ h => by cases h⟩
  rw [if_neg h1]
  rcases readU8_cases r with h | ⟨c, r1, h, hl⟩
  · rw [h]
    exact ⟨calm_eof, fun _ _ h => by cases h⟩
  rw [h]
  simp only
  rw [sub_ok (show 2 ≤ size by omega), ok_bind]
  by_cases h3 : size - 2 ≤ 3
  · simp only [if_pos h3]
    rcases readLE_cases (size - 2 + 1) r1 with h | ⟨m, r2, h, hl2⟩
    · rw [h, error_bind]
      exact ⟨calm_eof, fun _ _ h => by cases h⟩
    rw [h, ok_bind]
    simp only
    rw [sub_ok (show size - 2 + 1 ≤ size by omega), ok_bind]
    refine ⟨calm_ok _, fun _ _ h => ?_⟩
    cases h
    omega
  simp only [if_neg h3]
  by_cases h5 : size - 2 ≤ 5
  · simp only [if_pos h5]
    rcases readU8_cases r1 with h | ⟨d, r2, h, hl2⟩
    · rw [h, error_bind]
      exact ⟨calm_eof, fun _ _ h => by cases h⟩
    rw [h, ok_bind]
    simp only
    rcases readLE_cases (size - 2 - 1) r2 with h | ⟨m, r3, h, hl3⟩
    · rw [h, error_bind]
      exact ⟨calm_eof, fun _ _ h => by cases h⟩
    rw [h, ok_bind]
    simp only
    rw [sub_ok (show size - 2 ≤ size by omega), ok_bind]
    refine ⟨calm_ok _, fun _ _ h => ?_⟩
    cases h
    omega
  · simp only [if_neg h5]
    exact ⟨calm_err (by decide) (by decide), fun _ _ h => by cases h⟩

theorem calm_subBlock (strict : Bool) (id : ℕ) (r : Bytes) (size : ℕ) (p : Props) :
    Calm (subBlock strict id r size p).2 ∧ ∀ r' s', (subBlock strict id r size p).2 = .ok (some (r', s')) → r'.length ≤ r.length := by
  unfold subBlock
  by_cases h1 : id = 0x27
  · simp only [if_pos h1]
    by_cases h2 : size < 3
    · rw [if_pos h2]
      exact ⟨calm_err (by decide) (by decide), fun _ _ h => by cases h⟩
    rw [if_neg h2, sub_ok (by omega)]
    rcases readLE_cases 3 r with h | ⟨m, r1, h, hl⟩
    · rw [h]
      exact ⟨calm_eof, fun _ _ h => by cases h⟩
    rw [h]
    refine ⟨calm_ok _, fun _ _ h => ?_⟩
    cases h
    omega
  simp only [if_neg h1]
  by_cases h2 : id = 0xE
  · simp only [if_pos h2]
    by_cases h3 : size ≤ 1
    · rw [if_pos h3]
      exact ⟨calm_err (by decide) (by decide), fun _ _ h => by cases h⟩
    rw [if_neg h3, sub_ok (by omega)]
    rcases readU8_cases r with h | ⟨m, r1, h, hl⟩
    · rw [h]
      exact ⟨calm_eof, fun _ _ h => by cases h⟩
    rw [h]
    simp only
    by_cases h4 : 30 < m.toNat
    · rw [if_pos h4]
      cases strict with
      | true => exact ⟨calm_err (by decide) (by decide), fun _ _ h => by cases h⟩
      | false => exact ⟨calm_ok _, fun _ _ h => by cases h⟩
    · rw [if_neg h4]
      refine ⟨calm_ok _, fun _ _ h => ?_⟩
      cases h
      omega
  simp only [if_neg h2]
  by_cases h3 : id = 0xD
  · simp only [if_pos h3]
    have hm := calm_multichannel r size p
    cases hx : multichannel r size p with
    | mk q y =>
      rw [hx] at hm
      cases y with
      | error e =>
        exact ⟨⟨fun h => hm.1.1 (by cases h; rfl), fun h => hm.1.2 (by cases h; rfl)⟩, fun _ _ h => by cases h⟩
      | ok x =>
        refine ⟨calm_ok _, fun r' s' h => ?_⟩
        cases h
        exact hm.2 r' s' rfl
  · simp only [if_neg h3]
    refine ⟨calm_ok _, fun r' s' h => ?_⟩
    cases h
    exact le_refl _

theorem calm_subHeader (r : Bytes) : Calm (subHeader r) ∧ ∀ i s r', subHeader r = .ok (i, s, r') → r'.length + 2 ≤ r.length := by
  unfold subHeader
  rcases readU8_cases r with h | ⟨i, r1, h, hl⟩
  · rw [h, error_bind]
    exact ⟨calm_eof, fun _ _ _ h => by cases h⟩
  rw [h, ok_bind]
  simp only
  rcases readU8_cases r1 with h | ⟨a, r2, h, hl2⟩
  · rw [h, error_bind]
    exact ⟨calm_eof, fun _ _ _ h => by cases h⟩
  rw [h, ok_bind]
  simp only
  by_cases h8 : i &&& 0x80 ≠ 0
  · rw [if_pos h8]
    rcases readU8_cases r2 with h | ⟨b, r3, h, hl3⟩
    · rw [h, error_bind]
      exact ⟨calm_eof, fun _ _ _ h => by cases h⟩
    rw [h, ok_bind]
    simp only
    rcases readU8_cases r3 with h | ⟨c, r4, h, hl4⟩
    · rw [h, error_bind]
      exact ⟨calm_eof, fun _ _ _ h => by cases h⟩
    rw [h, ok_bind]
    refine ⟨calm_ok _, fun _ _ _ h => ?_⟩
    cases h
    show r4.length + 2 ≤ r.length
    omega
  · rw [if_neg h8]
    refine ⟨calm_ok _, fun _ _ _ h => ?_⟩
    cases h
    omega

theorem subHeader_even {r r' : Bytes} {i : UInt8} {s : ℕ} (h : subHeader r = .ok (i, s, r')) : s % 2 = 0 := by
  unfold subHeader at h
  obtain ⟨⟨i1, r1⟩, -, h⟩ := bind_ok h
  obtain ⟨⟨a, r2⟩, -, h⟩ := bind_ok h
  simp only at h
  split at h
  · obtain ⟨⟨b, r3⟩, -, h⟩ := bind_ok h
    obtain ⟨⟨c, r4⟩, -, h⟩ := bind_ok h
    cases h
    simp only [Nat.shiftLeft_eq]
    omega
  · cases h
    simp only [Nat.shiftLeft_eq]
    omega

theorem calm_extended (strict : Bool) (n : ℕ) (r : Bytes) (p : Props) (hn : r.length < n) : Calm (extended strict n r p).2 := by
  induction n generalizing r p with
  | zero => omega
  | succ n ih =>
    rw [extended]
    by_cases h2 : r.length < 2
    · rw [if_pos h2]
      exact calm_ok _
    rw [if_neg h2]
    obtain ⟨c1, l1⟩ := calm_subHeader r
    cases hh : subHeader r with
    | error e =>
      rw [hh] at c1
      exact ⟨fun h => c1.1 (by cases h; rfl), fun h => c1.2 (by cases h; rfl)⟩
    | ok x =>
      obtain ⟨i, size, r1⟩ := x
      have hl := l1 i size r1 hh
      have hev := subHeader_even hh
      simp only
      by_cases h0 : size = 0
      · rw [if_pos h0]
        exact ih r1 p (by omega)
      rw [if_neg h0]
      by_cases h1 : r1.length < size
      · rw [if_pos h1]
        exact calm_err (by decide) (by decide)
      rw [if_neg h1, sub_ok (by split <;> omega)]
      simp only
      generalize (size - if i &&& 0x40 ≠ 0 then 1 else 0) = size'
      obtain ⟨c3, l3⟩ := calm_subBlock strict (i &&& 0x3F).toNat r1 size' p
      cases hs : subBlock strict (i &&& 0x3F).toNat r1 size' p with
      | mk q y =>
        rw [hs] at c3 l3
        cases y with
        | error e => exact ⟨fun h => c3.1 (by cases h; rfl), fun h => c3.2 (by cases h; rfl)⟩
        | ok z =>
          cases z with
          | none => exact calm_ok _
          | some z =>
            obtain ⟨r2, s2⟩ := z
            have hl3 := l3 r2 s2 rfl
            simp only
            by_cases h4 : r2.length < s2
            · rw [if_pos h4]
              exact calm_err (by decide) (by decide)
            rw [if_neg h4]
            have hdl : (r2.drop s2).length ≤ r2.length := by rw [List.length_drop]; omega
            by_cases ho : i &&& 0x40 ≠ 0
            · rw [if_pos ho]
              rcases readU8_cases (r2.drop s2) with h | ⟨c, r4, h, hl4⟩
              · rw [h]
                exact calm_eof
              · rw [h]
                exact ih r4 q (by omega)
            · rw [if_neg ho]
              exact ih _ q (by omega)

/-- A round ends without a panic, and goes on in the file. -/
theorem step_calm (strict : Bool) (f : Bytes) (p : Props) (total offset : ℕ) :
    (∀ e, step strict f p total offset = .fail e → e ≠ .panic ∧ e ≠ .diverge) ∧
      ∀ q t o, step strict f p total offset = .next q t o → offset < f.length ∧ offset < o := by
  have hbody : ∀ (b : Block) (q : Props), (∀ e, stepBody strict b q total offset = .fail e → e ≠ .panic ∧ e ≠ .diverge) ∧
      ∀ q' t o, stepBody strict b q total offset = .next q' t o → offset < o := by
    intro b q
    unfold stepBody
    simp only
    split
    · split
      · exact ⟨fun e h => (by cases h; exact ⟨by decide, by decide⟩), fun _ _ _ h => by cases h⟩
      · exact ⟨fun e h => (by cases h), fun _ _ _ h => by cases h⟩
    · split
      · exact ⟨fun e h => (by cases h), fun _ _ _ h => by cases h; omega⟩
      · split
        · exact ⟨fun e h => (by cases h), fun _ _ _ h => by cases h⟩
        · exact ⟨fun e h => (by cases h), fun _ _ _ h => by cases h; omega⟩
  unfold step
  have hcalm := calm_header (f.drop offset)
  cases hh : header (f.drop offset) with
  | error e =>
    rw [hh] at hcalm
    cases strict with
    | true => exact ⟨fun e' h => by cases h; exact ⟨fun h => hcalm.1 (by rw [h]), fun h => hcalm.2 (by rw [h])⟩, fun _ _ _ h => by cases h⟩
    | false => exact ⟨fun e h => (by cases h), fun _ _ _ h => by cases h⟩
  | ok b =>
    have hlt : offset < f.length := by
      by_contra hn
      rw [List.drop_eq_nil_of_le (by omega)] at hh
      cases hh
    simp only
    split
    · cases hr : readAt f (offset + 32) (b.size - 24) with
      | error e =>
        refine ⟨fun e' h => ?_, fun _ _ _ h => by cases h⟩
        cases h
        unfold readAt at hr
        split at hr
        · cases hr
        · cases hr
          exact ⟨by decide, by decide⟩
      | ok content =>
        simp only
        have hx := calm_extended strict (content.length + 1) content { p with sampleRate := sampleRates.getD ((b.flags >>> 23) &&& 0xF) 0 } (by omega)
        cases he : extended strict (content.length + 1) content { p with sampleRate := sampleRates.getD ((b.flags >>> 23) &&& 0xF) 0 } with
        | mk q y =>
          rw [he] at hx
          cases y with
          | error e =>
            cases strict with
            | true => exact ⟨fun e' h => by cases h; exact ⟨fun h => hx.1 (by rw [h]), fun h => hx.2 (by rw [h])⟩, fun _ _ _ h => by cases h⟩
            | false => exact ⟨fun e h => (by cases h), fun _ _ _ h => by cases h⟩
          | ok u =>
            simp only
            split
            · split
              · exact ⟨fun e h => (by cases h; exact ⟨by decide, by decide⟩), fun _ _ _ h => by cases h⟩
              · exact ⟨fun e h => (by cases h), fun _ _ _ h => by cases h⟩
            · exact ⟨(hbody _ _).1, fun q t o h => ⟨hlt, (hbody _ _).2 q t o h⟩⟩
    · exact ⟨(hbody _ _).1, fun q t o h => ⟨hlt, (hbody _ _).2 q t o h⟩⟩

theorem calm_loop (strict : Bool) (f : Bytes) (n : ℕ) (p : Props) (total offset : ℕ) (h0 : 0 < n) (hn : f.length < n + offset) :
    Calm (loop strict f n p total offset) := by
  induction n generalizing p total offset with
  | zero => omega
  | succ n ih =>
    rw [loop]
    obtain ⟨h1, h2⟩ := step_calm strict f p total offset
    cases hs : step strict f p total offset with
    | fail e => exact calm_err (h1 e hs).1 (h1 e hs).2
    | stop q t => exact calm_ok _
    | next q t o =>
      obtain ⟨h3, h4⟩ := h2 q t o hs
      exact ih q t o (by omega) (by omega)

/-- C62: **whatever the bytes of a file are**, reading the properties of a WavPack file ends, and not by a panic. -/
theorem wavpack_total (strict : Bool) (f : Bytes) (stream : ℕ) :
    readProperties strict f stream ≠ .error .panic ∧ readProperties strict f stream ≠ .error .diverge := by
  unfold readProperties
  refine calm_bind (calm_loop strict f _ _ _ _ (by omega) (by omega)) fun ⟨p, total⟩ => ?_
  simp only
  split
  · exact calm_ok _
  · split
    · split
      · exact calm_err (by decide) (by decide)
      · exact calm_ok _
    · exact calm_ok _

end Lofty.WavPack
