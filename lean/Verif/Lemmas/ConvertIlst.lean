import Verif.Model.ConvertIlst
import Verif.Props.Convert
import Verif.Props.IlstOps
/-!
# Conversion of generic tags: names of MP4 atoms
-/
namespace Lofty.Convert
open Lofty.Item
open Lofty.Mp4 (Ident)
open Lofty.Ilst (Atom Data Storage covr trkn disk rtng)

/-! ## Names -/

/-- The identifier of a key is looked up under the name of the key. -/
theorem keyStr_ident (k : ItemKey) : (identOfKey k).map keyStr = mapKey .mp4Ilst k := by
  have : ∀ k ∈ ItemKey.all, (identOfKey k).map keyStr = mapKey .mp4Ilst k := by decide +kernel
  exact this k k.mem_all

theorem mapping_ident {k : ItemKey} {i : Ident} (h : identOfKey k = some i) : mappingOf i = .mapped (readAs .mp4Ilst k) := by
  have := keyStr_ident k
  rw [h] at this
  unfold mappingOf
  rw [fromKey_mapKey this.symm]

theorem ident_some {k : ItemKey} : (identOfKey k).isSome = supports .mp4Ilst k := by
  rw [supports_map (by decide), ← keyStr_ident]; cases identOfKey k <;> rfl

theorem mapping_covr : mappingOf covr = .picture := by decide +kernel
theorem mapping_trkn : mappingOf trkn = .mapped .TrackTotal := by decide +kernel
theorem mapping_disk : mappingOf disk = .mapped .DiscTotal := by decide +kernel
theorem mapping_rtng : mappingOf rtng = .mapped .ParentalAdvisory := by decide +kernel

/-- The keys that are not simply stored as a text: the numbers, the flags and the advisory rating. -/
def ilstNumbers : List ItemKey := [.TrackNumber, .TrackTotal, .DiscNumber, .DiscTotal]
/-- The flags. -/
def ilstFlags : List ItemKey := [.FlagCompilation, .FlagPodcast]

theorem ident_table : ∀ k ∈ ItemKey.all,
    (identOfKey k = some rtng ↔ k = .ParentalAdvisory) ∧
    (k ∉ ilstNumbers → (identOfKey k).bind pairOf = none ∧ readAs .mp4Ilst k ∉ ilstNumbers) ∧
    (k ∈ ilstNumbers ∨ k ∈ ilstFlags ∨ k = .ParentalAdvisory → supports .mp4Ilst k = true) ∧
    (k ∈ ilstFlags ∨ k = .ParentalAdvisory → readAs .mp4Ilst k = k) ∧
    (k ≠ .ParentalAdvisory → readAs .mp4Ilst k ≠ .ParentalAdvisory) := by
  decide +kernel

end Lofty.Convert
