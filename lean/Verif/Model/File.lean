import Verif.Model.Bytes
/-!
# Random-access files

The `FileLike` operations (`lofty/src/util/io.rs` 298-307: `Read + Write + Seek +
Truncate + Length`) on an in-memory file.  Positions are passed explicitly:
`seek(Start(p)); read_exact(..)` is `readAt`, `seek(Start(p)); write_all(..)` is
`writeAt`.
-/
namespace Lofty

/-- `seek(SeekFrom::Start(pos))` followed by `read_exact` of `n` bytes. -/
def readAt (f : Bytes) (pos n : Nat) : Except Err Bytes :=
  if pos + n ≤ f.length then .ok ((f.drop pos).take n) else .error .eof

/-- `seek(SeekFrom::Start(pos))` followed by `write_all(w)`: overwrites existing
bytes, extends the file at its end, and zero-fills a gap when writing past the
end (the behaviour of `std::fs::File` and of `Cursor<Vec<u8>>`). -/
def writeAt (f : Bytes) (pos : Nat) (w : Bytes) : Bytes :=
  f.take pos ++ List.replicate (pos - f.length) 0 ++ w ++ f.drop (pos + w.length)

/-- `Truncate::truncate` for `Vec<u8>` (io.rs 63-68); `File::set_len` agrees
when the new length is not larger. -/
def truncate (f : Bytes) (n : Nat) : Bytes := f.take n

end Lofty
