/-
Model of the bandwidth limit on connections with peers.

Code modelled (all in /repo/crates):
* p2p/src/transport/rate_limit.rs:30-60     `MIN_BYTES_PER_SEC`, `RateLimit::new`
* p2p/src/transport/rate_limit.rs:130-194   `Connection`: reading and writing
* p2p/src/transport/rate_limit.rs:215-256   `Limited`, `Limiter`
* p2p/src/builder.rs:102-114                the transport that is built
* pathfinder/src/config/p2p/cli.rs:126-142, config.rs:119-129   the two options

What is modelled of libraries that are not in /repo:
* `governor` 0.10.4: `Quota::per_second` gives one permit every ⌊10⁹ / max⌋
  nanoseconds and at most `max` at once; `check_n` is its rule on the time at which the
  permits granted so far are paid off (GCRA), in nanoseconds without overflow;
  `until_n_ready` repeats `check_n` and, while it refuses, waits on a timer made for the
  purpose.
* a timer wakes the task that polled it, unless it is dropped before it is due.
* a socket that has nothing to offer keeps the waker of the task that polled it last,
  and wakes that task once, when it has.
-/

namespace Verif.Rate

/-- governor `Quota::per_second(max)` (rate_limit.rs:53-54): `max` permits at most at
once, and one more every `per` nanoseconds. -/
structure Quota where
  max : Nat
  per : Nat
deriving DecidableEq

/-- governor `Quota::per_second`: the interval is 1 s divided by `max`, in whole
nanoseconds. -/
def perSecond (max : Nat) : Quota := { max := max, per := 1000000000 / max }

/-- What `check_n` says. -/
inductive Check where
  /-- more was asked for than can ever be granted (`InsufficientCapacity`) -/
  | never
  /-- refused until the time given -/
  | notUntil (at_ : Nat)
  /-- granted; the time at which all permits granted so far are paid off -/
  | granted (tat : Nat)
deriving DecidableEq

/-- governor `check_n` for `n ≥ 1` permits at the time `now`, where `tat` is the time
noted at the last grant, none at the start. -/
def check (q : Quota) (tat : Option Nat) (now n : Nat) : Check :=
  if q.per * q.max < q.per * n then .never
  else
    let tat := tat.getD (now + q.per)
    let earliest := tat + q.per * (n - 1) - q.per * q.max
    if now < earliest then .notUntil earliest
    else .granted (max tat now + q.per * n)

/-- One direction of a connection: rate_limit.rs:215-218, 231-234 `Limited` and
`Limiter`, with the socket's side and, for the statements only, what went through. -/
structure Half where
  /-- the state of the limiter -/
  tat : Option Nat := none
  /-- the timer of the limiter that would wake the task, if there is one -/
  timer : Option Nat := none
  /-- the socket is to wake the task -/
  waker : Bool := false
  /-- when how many bytes went through -/
  log : List (Nat × Nat) := []
deriving DecidableEq

/-- A connection, the task that uses it and the clock. -/
structure Sys where
  now : Nat := 0
  rd : Half := {}
  wr : Half := {}
  /-- bytes that the socket has received and that were not read -/
  inbox : List UInt8 := []
  /-- bytes that the user of the connection has read -/
  got : List UInt8 := []
  /-- bytes that the socket has taken to be sent -/
  sent : List UInt8 := []
  /-- how many more it takes -/
  room : Nat := 0
  /-- the task runs, or is about to -/
  awake : Bool := true
deriving DecidableEq

/-- rate_limit.rs:136-142: a new connection. -/
def init : Sys := {}

/-- What a call of `poll_read` or `poll_write` returns. -/
inductive Ret where
  | pending
  | done (n : Nat)
  | failed
  | panic
deriving DecidableEq

/-- rate_limit.rs:157-159 and 180-182: the future of `until_n_ready` is made and polled
once.  Its first step is `check_n`; if that refuses, it makes a timer and polls it. -/
def pollUntil (q : Quota) (now n : Nat) (h : Half) : Check × Half :=
  match check q h.tat now n with
  | .never => (.never, h)
  | .notUntil t => (.notUntil t, { h with timer := some t })
  | .granted t => (.granted t, { h with tat := some t })

/-- The same lines: the future is a local variable, pinned on the stack, so it is
dropped when the call returns, and the timer with it. -/
def dropFut (h : Half) : Half := { h with timer := none }

/-- rate_limit.rs:151-159 and 174-182, the same for both directions: the length is cut
to what can be granted at once, and must not be 0 (`NonZeroU32::new(n).unwrap()`); then
permits are waited for.  Gives the number of bytes to go on with. -/
def admit (q : Quota) (now len : Nat) (h : Half) : Except Ret Nat × Half :=
  let n := min len q.max
  if n = 0 then (.error .panic, h)
  else
    match pollUntil q now n h with
    | (.never, h) => (.error .panic, dropFut h)
    | (.notUntil _, h) => (.error .pending, dropFut h)
    | (.granted _, h) => (.ok n, dropFut h)

/-- What the socket does when it is polled: it fails, or offers at most so many bytes
(it may offer fewer than it could). -/
inductive Offer where
  | fails
  | upTo (k : Nat)
deriving DecidableEq

/-- rate_limit.rs:146-165: `poll_read` with a buffer of `len` bytes.  The socket gives
what it has received, up to the length asked for; if it has nothing it keeps the waker.
(The end of the stream, a read of 0 bytes, is not modelled.) -/
def pollRead (q : Quota) (len : Nat) (o : Offer) (s : Sys) : Ret × Sys :=
  match admit q s.now len s.rd with
  | (.error r, h) => (r, { s with rd := h })
  | (.ok n, h) =>
    match o with
    | .fails => (.failed, { s with rd := h })
    | .upTo k =>
      let m := min n (min (k + 1) s.inbox.length)
      if m = 0 then (.pending, { s with rd := { h with waker := true } })
      else
        (.done m, { s with
          rd := { h with log := h.log ++ [(s.now, m)] }
          inbox := s.inbox.drop m
          got := s.got ++ s.inbox.take m })

/-- rate_limit.rs:169-185: `poll_write` with the bytes `buf`. -/
def pollWrite (q : Quota) (buf : List UInt8) (o : Offer) (s : Sys) : Ret × Sys :=
  match admit q s.now buf.length s.wr with
  | (.error r, h) => (r, { s with wr := h })
  | (.ok n, h) =>
    match o with
    | .fails => (.failed, { s with wr := h })
    | .upTo k =>
      let m := min n (min (k + 1) s.room)
      if m = 0 then (.pending, { s with wr := { h with waker := true } })
      else
        (.done m, { s with
          wr := { h with log := h.log ++ [(s.now, m)] }
          room := s.room - m
          sent := s.sent ++ buf.take m })

/-- A timer that is due wakes the task. -/
def due (now : Nat) (h : Half) : Bool :=
  match h.timer with
  | some t => decide (t ≤ now)
  | none => false

/-- What can happen. -/
inductive Act where
  /-- time passes -/
  | tick (ns : Nat)
  /-- the socket receives bytes -/
  | arrive (bs : List UInt8)
  /-- the socket has sent bytes, and takes as many more -/
  | drain (k : Nat)
  /-- something else wakes the task -/
  | wake
  /-- the task reads -/
  | read (len : Nat) (o : Offer)
  /-- the task writes -/
  | write (buf : List UInt8) (o : Offer)
  /-- the task returns: it runs again once woken -/
  | sleep
deriving DecidableEq

/-- One step.  Time that passes wakes the task if one of its timers is due; bytes that
arrive, and room, wake it if the socket has its waker. -/
def step (qr qw : Quota) (s : Sys) : Act → Option Sys
  | .tick d =>
    let now := s.now + d
    some { s with now := now, awake := s.awake || due now s.rd || due now s.wr }
  | .arrive bs =>
    some { s with
      inbox := s.inbox ++ bs
      awake := s.awake || s.rd.waker
      rd := { s.rd with waker := false } }
  | .drain k =>
    some { s with
      room := s.room + k
      awake := s.awake || s.wr.waker
      wr := { s.wr with waker := false } }
  | .wake => some { s with awake := true }
  | .read len o => if s.awake then some (pollRead qr len o s).2 else none
  | .write buf o => if s.awake then some (pollWrite qw buf o s).2 else none
  | .sleep => if s.awake then some { s with awake := false } else none

/-- A run. -/
def run (qr qw : Quota) : Sys → List Act → Option Sys
  | s, [] => some s
  | s, a :: as =>
    match step qr qw s a with
    | some s' => run qr qw s' as
    | none => none

/-- rate_limit.rs:30. -/
def minBytesPerSec : Nat := 10 * 1024 * 1024

/-- What becomes of the two options. -/
inductive Limits where
  | refused
  | panic
  | unlimited
  | limited (rd wr : Quota)
deriving DecidableEq

/-- cli.rs:131, 140 (each option requires the other; a value is a `NonZeroU32`),
config.rs:119-129 (a limit below the least is refused) and p2p/src/builder.rs:102-114
with rate_limit.rs:48-60 (the quotas). -/
def configure (rd wr : Option Nat) : Limits :=
  if rd.isSome != wr.isSome then .refused
  else if rd.any (fun n => decide (n = 0 ∨ 2 ^ 32 ≤ n)) || wr.any (fun n => decide (n = 0 ∨ 2 ^ 32 ≤ n)) then
    .refused
  else if rd.any (fun n => decide (n < minBytesPerSec)) || wr.any (fun n => decide (n < minBytesPerSec)) then
    .refused
  else
    match rd, wr with
    | none, none => .unlimited
    | some r, some w => .limited (perSecond r) (perSecond w)
    | _, _ => .panic

end Verif.Rate
