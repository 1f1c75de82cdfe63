import Verif.Props.Ogg
import Verif.Model.OggWrite
/-!
# What saving comments to an OGG file should do

A file is a sequence of pages.  The first ones carry the header packets, the others the audio.
-/
namespace Lofty.OggWrite
open Lofty.Ogg

/-- The header packets of a file are `ps`, and `rest` follows the last of them. -/
def Headed (fmt : Format) (f : Bytes) (ps : List Bytes) (rest : Bytes) : Prop :=
  ∃ p : Packets, Packets.readCount f fmt.count = .ok (p, some rest) ∧ p.Holds ps

/-- `d` consists of the pages `qs` and of `junk`, which does not begin with a page. -/
structure Paged (d : Bytes) (qs : List Page) (junk : Bytes) : Prop where
  bytes : d = (qs.map Page.asBytes).flatten ++ junk
  valid : ∀ q ∈ qs, q.Valid
  stop : ∀ (q : Page) (r : Bytes), q.Valid → junk ≠ q.asBytes ++ r

/-- The page with the number `n`. -/
def numbered (n : Nat) (q : Page) : Page := { q with header := { q.header with seq := n } }

/-- The bytes of pages numbered from `n` (numbers have 32 bits), with their checksums. -/
def run (n : Nat) : List Page → Bytes
  | [] => []
  | q :: qs => (numbered (n % 2 ^ 32) q).genCrc.asBytes ++ run (n + 1) qs

/-- The vendor string at the front of the comments, empty if it is not text. -/
def VendorIs (comments : Bytes) (v : Str) : Prop :=
  ∃ raw more, raw.length < 2 ^ 32 ∧ comments = leBytes 4 raw.length ++ (raw ++ more) ∧
    (utf8 v = raw ∨ ((∀ s, utf8 s ≠ raw) ∧ v = []))

/-- The last `n` bytes have no marker of a page but at their beginning. -/
def NoMarker (f : Bytes) (n : Nat) : Prop := ∀ j, f.length - n < j → (f.drop j).take 4 ≠ ascii "OggS"

end Lofty.OggWrite
