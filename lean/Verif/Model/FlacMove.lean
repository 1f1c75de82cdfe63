import Verif.Model.File
/-!
# In-place replacement of a byte range

Models `replace_range` and its helpers, `lofty/src/flac/write.rs` 184-305.  The
copy-buffer size is a parameter `B` (the code uses `MOVE_BUFFER_SIZE` = 65536).
-/
namespace Lofty.Flac

/-- `extend_storage`, flac/write.rs 233-248: append `amount` zero bytes in pieces
of at most `B`. -/
def extendStorage (B : Nat) (hB : 0 < B) (f : Bytes) (amount : Nat) : Bytes :=
  if _h : amount = 0 then f
  else
    let chunk := min amount B
    extendStorage B hB (writeAt f f.length (List.replicate chunk 0)) (amount - chunk)
termination_by amount
decreasing_by omega

/-- `shift_right`, flac/write.rs 250-277: move `f[start..cursor]` up by `amount`,
starting from the end. -/
def shiftRight (B : Nat) (hB : 0 < B) (f : Bytes) (start cursor amount : Nat) : Except Err Bytes :=
  if _h : cursor > start then
    let chunk := min (cursor - start) B
    let source := cursor - chunk
    match readAt f source chunk with
    | .error e => .error e
    | .ok buf => shiftRight B hB (writeAt f (source + amount) buf) start source amount
  else .ok f
termination_by cursor - start
decreasing_by omega

/-- `shift_left`, flac/write.rs 279-305: move `f[cursor..stop]` down by `amount`,
starting from the front. -/
def shiftLeft (B : Nat) (hB : 0 < B) (f : Bytes) (cursor stop amount : Nat) : Except Err Bytes :=
  if _h : cursor < stop then
    let chunk := min (stop - cursor) B
    match readAt f cursor chunk with
    | .error e => .error e
    | .ok buf => shiftLeft B hB (writeAt f (cursor - amount) buf) (cursor + chunk) stop amount
  else .ok f
termination_by stop - cursor
decreasing_by omega

/-- `replace_range`, flac/write.rs 186-231. -/
def replaceRange (B : Nat) (hB : 0 < B) (f : Bytes) (start stop : Nat) (new : Bytes) :
    Except Err Bytes :=
  if start > stop then .error .sizeMismatch
  else if stop > f.length then .error .sizeMismatch
  else
    let oldLen := stop - start
    let moved : Except Err Bytes :=
      if new.length > oldLen then
        let d := new.length - oldLen
        shiftRight B hB (extendStorage B hB f d) stop f.length d
      else if new.length < oldLen then
        let d := oldLen - new.length
        match shiftLeft B hB f stop f.length d with
        | .error e => .error e
        | .ok f' => .ok (truncate f' (f.length - d))
      else .ok f
    match moved with
    | .error e => .error e
    | .ok f' => .ok (writeAt f' start new)

/-- `MOVE_BUFFER_SIZE`, flac/write.rs 184. -/
def moveBufferSize : Nat := 64 * 1024

end Lofty.Flac
