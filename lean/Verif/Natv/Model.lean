/-!
# The cache of natively compiled classes (C110)

`NativeClassCache` (`crates/executor/src/state_reader/native.rs`) gives the native code of a class if
it has been compiled, and otherwise asks one compiler thread for it; the caller then runs the CASM
code.  The model is a transition system of requests and steps of the compiler thread, which interleave
arbitrarily: the cache is behind a mutex, so that `get` is one step, and the thread takes the lock
only to store a result.

Simplified: a class hash and a definition are numbers; the compiler is a parameter.  `SizedCache` is
a list, most recently used first.
-/

namespace Verif.Natv

/-- What becomes of an attempt to compile a definition (`sierra_class_as_native`,
`native.rs:139-202`). -/
inductive Outcome
  | ok (native : Nat)
  | error
  /-- a panic outside `catch_unwind` (`native.rs:171-185`): it ends the thread -/
  | panic
deriving DecidableEq, Repr

/-- `CacheItem` (`native.rs:24-27`). -/
inductive Item
  | compiled (native : Nat)
  | pending
deriving DecidableEq, Repr

/-- The compiler thread (`native.rs:93-137`). -/
inductive Thread
  | idle
  /-- compiling this class -/
  | working (hash defn : Nat)
  | ended
deriving DecidableEq, Repr

/-- The cache, the channel and the thread. -/
structure Sys where
  cap : Nat
  /-- `SizedCache`, most recently used first -/
  cache : List (Nat × Item)
  /-- the channel, oldest first: class hash and definition -/
  queue : List (Nat × Nat)
  thread : Thread
  /-- all requests: class hash, definition and answer, newest first (not read by the program) -/
  asked : List (Nat × Nat × Option Nat)
deriving DecidableEq, Repr

/-- `NativeClassCache::spawn` (`native.rs:38-55`); the size is not zero. -/
def start (cap : Nat) : Sys := ⟨cap, [], [], .idle, []⟩

/-- `cache_get` of `SizedCache`: a hit becomes the most recently used entry. -/
def cacheGet (c : List (Nat × Item)) (h : Nat) : Option Item × List (Nat × Item) :=
  match c.find? fun e => e.1 == h with
  | none => (none, c)
  | some e => (some e.2, e :: c.filter fun x => x.1 != h)

/-- `cache_set` of `SizedCache`: replaces the entry of the key, or adds one; if the cache is full,
the least recently used entry goes. -/
def cacheSet (cap : Nat) (c : List (Nat × Item)) (h : Nat) (i : Item) : List (Nat × Item) :=
  ((h, i) :: c.filter fun x => x.1 != h).take cap

/-- `NativeClassCache::get` (`native.rs:57-88`).  A send to a thread that has ended is ignored. -/
def get (s : Sys) (h d : Nat) : Option Nat × Sys :=
  match cacheGet s.cache h with
  | (some (.compiled n), c) => (some n, { s with cache := c, asked := (h, d, some n) :: s.asked })
  | (some .pending, c) => (none, { s with cache := c, asked := (h, d, none) :: s.asked })
  | (none, c) => (none, { s with
      cache := cacheSet s.cap c h .pending
      queue := if s.thread = .ended then s.queue else s.queue ++ [(h, d)]
      asked := (h, d, none) :: s.asked })

/-- What can happen. -/
inductive Act
  | get (h d : Nat)
  /-- the thread takes the next class from the channel -/
  | take
  /-- the thread is done with a class -/
  | done
deriving DecidableEq, Repr

/-- One step; `none` if it cannot happen. -/
def step (compile : Nat → Outcome) (s : Sys) : Act → Option Sys
  | .get h d => some (get s h d).2
  | .take => match s.thread, s.queue with
    | .idle, (h, d) :: q => some { s with thread := .working h d, queue := q }
    | _, _ => none
  | .done => match s.thread with
    | .working h d => match compile d with
      | .ok n => some { s with thread := .idle, cache := cacheSet s.cap s.cache h (.compiled n) }
      | .error => some { s with thread := .idle }
      | .panic => some { s with thread := .ended, queue := [] }
    | _ => none

/-- Steps in order. -/
def run (compile : Nat → Outcome) : Sys → List Act → Option Sys
  | s, [] => some s
  | s, a :: as => (step compile s a).bind fun s' => run compile s' as

/-- `non_cached_compiled_contract_class` for a class with CASM code
(`crates/executor/src/state_reader.rs:127-165`): the code that is run, and whether it may be put
into the cache of all classes.  Simplified: that a class without a block number is not put there either
is left out. -/
inductive Code
  | native (n : Nat)
  | casm (d : Nat)
deriving DecidableEq, Repr

/-- Chooses the code; `force` and `version` decide whether native execution applies (Sierra 1.7.0 or
later), `enabled` is whether there is a native cache. -/
def runnable (enabled force : Bool) (version : Nat × Nat × Nat) (s : Sys) (h d : Nat) :
    (Code × Bool) × Sys :=
  if force || decide (1 < version.1 ∨ (version.1 = 1 ∧ 7 ≤ version.2.1)) then
    if enabled then
      match get s h d with
      | (some n, s') => ((.native n, true), s')
      | (none, s') => ((.casm d, false), s')
    else ((.casm d, true), s)
  else ((.casm d, true), s)

end Verif.Natv
