import Verif.Model.FileType
/-!
# Custom resolvers

The registry of custom file types (`lofty/src/resolve.rs`) and the functions that look at it, called from any number
of threads.  Every function takes the lock of the registry at most once, so that an execution is a list of calls.
The resolvers are the user's: their functions are parameters.
-/
namespace Lofty.Resolvers
open Item FileType

/-- `FileType` with custom types, file/file_type.rs 46-79. -/
inductive AnyType
  | known (t : FileType)
  | custom (name : Str)
  deriving DecidableEq

/-- `FileResolver`, resolve.rs 19-33.  `guess` may panic. -/
structure Resolver where
  extension : Option Str
  primary : TagType
  support : TagType → Support
  guess : Bytes → Except Err (Option AnyType)

/-- `CUSTOM_RESOLVERS`, resolve.rs 36-39, with its mutex: `poisoned` is set when a thread panics that holds the lock.
`off` are the threads whose global options have `use_custom_resolvers` off (config/global_options.rs 3-9 and 67-70). -/
structure World where
  entries : List (Str × Resolver)
  poisoned : Bool
  off : Nat → Bool

/-- The start of a program: no resolvers, all options at their defaults (config/global_options.rs 46-52). -/
def World.start : World := ⟨[], false, fun _ => false⟩

/-- `apply_global_options`, config/global_options.rs 147-151, of a thread. -/
def setUse (thread : Nat) (use : Bool) (w : World) : World :=
  { w with off := fun n => if n = thread then !use else w.off n }

/-- `register_custom_resolver`, resolve.rs 114-126.  The assertion fails with the lock held. -/
def register (name : Str) (r : Resolver) (w : World) : Except Err Unit × World :=
  if w.poisoned then (.error .panic, w)
  else if w.entries.any fun e => e.1 = name then (.error .panic, { w with poisoned := true })
  else (.ok (), { w with entries := w.entries ++ [(name, r)] })

/-- `lookup_resolver`, resolve.rs 41-52.  It panics with the lock held. -/
def lookup (name : Str) (w : World) : Except Err Resolver × World :=
  if w.poisoned then (.error .panic, w)
  else match w.entries.find? fun e => e.1 = name with
    | some e => (.ok e.2, w)
    | none => (.error .panic, { w with poisoned := true })

/-- `FileType::from_ext`, file/file_type.rs 184-219; `order` is the order of the hash map. -/
def fromExt (order : List (Str × Resolver) → List (Str × Resolver)) (thread : Nat) (ext : Str) (w : World) : Option AnyType :=
  if w.off thread then (FileType.fromExt ext).map .known
  else if w.poisoned then none
  else match (order w.entries).find? fun e => e.2.extension = some (ext.map lowerChar) with
    | some e => some (.custom e.1)
    | none => (FileType.fromExt ext).map .known

/-- The loop over the resolvers, probe.rs 341-345. -/
def guessLoop (buf : Bytes) : List (Str × Resolver) → Except Err (Option AnyType)
  | [] => .ok none
  | e :: es =>
    match e.2.guess buf with
    | .error _ => .error .panic
    | .ok (some t) => .ok (some t)
    | .ok none => guessLoop buf es

/-- `Probe::guess_inner` without the custom resolvers, probe.rs 348-399. -/
def guessKnown (f : Bytes) (start maxJunk : Nat) : Except Err (Option AnyType × Nat) :=
  (Probe.guessInner f start maxJunk).map fun r => (r.1.map .known, r.2)

/-- `Probe::guess_inner`, probe.rs 322-399: the type and the position of the reader. -/
def guess (order : List (Str × Resolver) → List (Str × Resolver)) (thread : Nat) (f : Bytes) (start maxJunk : Nat) (w : World) :
    Except Err (Option AnyType × Nat) × World :=
  if w.off thread || w.poisoned then (guessKnown f start maxJunk, w)
  else match guessLoop ((f.drop start).take 36) (order w.entries) with
    | .error e => (.error e, { w with poisoned := true })
    | .ok (some t) => (.ok (some t, start), w)
    | .ok none => (guessKnown f start maxJunk, w)

/-- `FileType::primary_tag_type`, file/file_type.rs 103-116. -/
def primaryTagType (t : AnyType) (w : World) : Except Err TagType × World :=
  match t with
  | .known t => (.ok t.primaryTagType, w)
  | .custom c => ((lookup c w).1.map (·.primary), (lookup c w).2)

/-- `FileType::tag_support`, file/file_type.rs 133-177. -/
def tagSupport (t : AnyType) (tag : TagType) (w : World) : Except Err Support × World :=
  match t with
  | .known t => (.ok (t.tagSupport tag), w)
  | .custom c => ((lookup c w).1.map (·.support tag), (lookup c w).2)

/-- What `Probe::read_inner` reads the file with, probe.rs 470-495: the reader of a format or a resolver. -/
def reader (thread : Nat) (t : Option AnyType) (w : World) : Except Err (FileType ⊕ Resolver) × World :=
  match t with
  | none => (.error .unsupported, w)
  | some (.known t) => (.ok (.inl t), w)
  | some (.custom c) =>
    if w.off thread then (.error .unsupported, w) else ((lookup c w).1.map .inr, (lookup c w).2)

/-- The calls. -/
inductive Op
  | setUse (use : Bool)
  | register (name : Str) (r : Resolver)
  | guess (order : List (Str × Resolver) → List (Str × Resolver)) (f : Bytes) (start maxJunk : Nat)
  | primary (t : AnyType)
  | support (t : AnyType) (tag : TagType)
  | read (t : Option AnyType)

/-- Whether a result is a panic. -/
def isPanic {α : Type} : Except Err α → Bool
  | .error .panic => true
  | _ => false

/-- A call of a thread: whether it panics, and the world behind it (probe.rs, resolve.rs, file/file_type.rs as above;
`from_ext` never changes anything). -/
def step (c : Nat × Op) (w : World) : Bool × World :=
  match c.2 with
  | .setUse use => (false, setUse c.1 use w)
  | .register name r => (isPanic (register name r w).1, (register name r w).2)
  | .guess order f start maxJunk => (isPanic (guess order c.1 f start maxJunk w).1, (guess order c.1 f start maxJunk w).2)
  | .primary t => (isPanic (primaryTagType t w).1, (primaryTagType t w).2)
  | .support t tag => (isPanic (tagSupport t tag w).1, (tagSupport t tag w).2)
  | .read t => (isPanic (reader c.1 t w).1, (reader c.1 t w).2)

/-- An execution: the calls of all threads in the order they take the lock. -/
def run : List (Nat × Op) → World → World
  | [], w => w
  | c :: cs, w => run cs (step c w).2

/-- Whether some call of an execution panics. -/
def panics : List (Nat × Op) → World → Bool
  | [], _ => false
  | c :: cs, w => (step c w).1 || panics cs (step c w).2

end Lofty.Resolvers
