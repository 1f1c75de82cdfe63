import Verif.Model.Bytes
/-!
# Buffers whose size a file decides

`lofty/src/util/alloc.rs`, `lofty/src/macros.rs`: the vectors made by `try_vec!` and `try_with_capacity_stable`.  The first of
them writes through a raw pointer; here the memory of a vector is explicit, and what Rust leaves undefined is the outcome
`undefined`.
-/
namespace Lofty.Alloc

/-- The memory of a `Vec<T>`: `cells` are as many as its capacity, `none` where nothing was written.  `block` tells apart the
allocations the vector has had, so that pointers into an old one are recognised. -/
structure Buf (α : Type) where
  cells : List (Option α)
  len : Nat
  block : Nat
  deriving DecidableEq

/-- `Vec::new()`. -/
def Buf.new {α : Type} : Buf α := ⟨[], 0, 0⟩

/-- `AllocationError`, util/alloc.rs 7-14. -/
inductive AllocErr
  | limitExceeded
  | reserve
  deriving DecidableEq

/-- How a call ends: `panic` is a panic of `T::clone`. -/
inductive Out (β : Type)
  | ok (b : β)
  | err (e : AllocErr)
  | panic
  | undefined
  deriving DecidableEq

/-- What the code does not decide: the size of an element in bytes; `alloc n` is what the allocator does with a request for `n`
elements, `none` if it refuses, otherwise how many more it gives; `clone i` is the result of the `i`th call of `T::clone`, `none`
if it panics. -/
structure World (α : Type) where
  size : Nat
  alloc : Nat → Option Nat
  clone : Nat → Option α

variable {α : Type}

/-- `Vec::try_reserve` of the standard library: room for `n` more elements; no more than `isize::MAX` bytes. -/
def reserve (w : World α) (b : Buf α) (n : Nat) : Out (Buf α) :=
  if b.len + n ≤ b.cells.length then .ok b
  else if 2 ^ 63 ≤ (b.len + n) * w.size then .err .reserve
  else
    match w.alloc (b.len + n) with
    | none => .err .reserve
    | some extra =>
      .ok ⟨b.cells.take b.len ++ List.replicate (b.len + n + extra - b.len) none, b.len, b.block + 1⟩

/-- `ptr.add(i).write(x)` for a pointer into the allocation `block`: undefined outside of it. -/
def writeCell (b : Buf α) (block i : Nat) (x : α) : Option (Buf α) :=
  if block = b.block ∧ i < b.cells.length then some { b with cells := b.cells.set i (some x) } else none

/-- `Vec::set_len`: undefined unless the first `n` cells exist and are initialised. -/
def setLen (b : Buf α) (n : Nat) : Option (Buf α) :=
  if n ≤ b.cells.length ∧ (b.cells.take n).all Option.isSome then some { b with len := n } else none

/-- The loop of `fallible_repeat`, util/alloc.rs 59-69, with `fuel` for its rounds; the end of the fuel is an end by an undefined
write (`fill_fuel`). `k` counts the clones. -/
def fill (w : World α) (block expected : Nat) : Nat → Nat → Nat → Buf α → Out (Buf α)
  | fuel, current, k, b =>
    if current = expected then
      match setLen b current with
      | some b => .ok b
      | none => .undefined
    else
      match fuel with
      | 0 => .undefined
      | fuel + 1 =>
        match w.clone k with
        | none => .panic
        | some x =>
          match writeCell b block current x with
          | none => .undefined
          | some b => fill w block expected fuel (current + 1) (k + 1) b

/-- `fallible_repeat`, util/alloc.rs 46-76: `limit` is `allocation_limit` of the options of the thread. -/
def repeatInto (w : World α) (limit : Nat) (b : Buf α) (expected : Nat) : Out (Buf α) :=
  if expected = 0 then .ok b
  else if expected > limit then .err .limitExceeded
  else
    match reserve w b expected with
    | .ok b => fill w b.block expected (b.cells.length + 1) b.len 0 b
    | .err e => .err e
    | .panic => .panic
    | .undefined => .undefined

/-- `fallible_vec_from_element`, util/alloc.rs 81-89, i.e. `try_vec!`, macros.rs 1-3. -/
def fromElement (w : World α) (limit expected : Nat) : Out (Buf α) := repeatInto w limit Buf.new expected

/-- `try_with_capacity_stable`, util/alloc.rs 102-111. -/
def withCapacity (w : World α) (limit capacity : Nat) : Out (Buf α) :=
  if capacity > limit then .err .limitExceeded else reserve w Buf.new capacity

end Lofty.Alloc
