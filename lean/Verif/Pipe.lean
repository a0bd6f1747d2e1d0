import Verif.Base

/-!
# Model of the emulated pipe

`/repo/src/interface/pipe.rs`.  A pipe is a bounded byte ring buffer plus two
reference counts.  There are two models:

* a sequential one (`writeNow`, `readNow`, `writevNow`): a whole call runs without any
  other thread touching the pipe;
* a concurrent one (`Sys`, `step`): any number of threads; every load of a shared
  quantity is a separate step, only the two mutexes of the ring buffer ends
  are respected.
-/

namespace Verif.Pipe

/-- `PAGE_SIZE`, `/repo/src/interface/pipe.rs` 39. -/
def pageSize : Nat := 4096
/-- `PIPE_CAPACITY`, `/repo/src/safeposix/syscalls/fs_constants.rs`. -/
def pipeCapacity : Nat := 65536
/-- `UDSOCK_CAPACITY`, `/repo/src/safeposix/syscalls/net_constants.rs`. -/
def udsockCapacity : Nat := 212992
/-- `CANCEL_CHECK_INTERVAL`, `/repo/src/interface/pipe.rs` 45. -/
def cancelInterval : Nat := 1048576

/-- `EmulatedPipe`, `/repo/src/interface/pipe.rs` 52-58.  `buf` is the content of the
ring buffer, oldest byte first; `cap` its capacity (`size`). -/
structure Pipe where
  buf : List UInt8
  cap : Nat
  wref : Nat
  rref : Nat
  deriving DecidableEq, Repr

/-- `new_with_capacity`, `/repo/src/interface/pipe.rs` 74-84. -/
def Pipe.new (size : Nat) : Pipe := { buf := [], cap := size, wref := 1, rref := 1 }

/-- `write_end.remaining()` of the ring buffer: `/repo/src/interface/pipe.rs` 255. -/
def Pipe.remaining (p : Pipe) : Nat := p.cap - p.buf.length

/-- `is_pipe_closed`, `/repo/src/interface/pipe.rs` 93-95. -/
def Pipe.isClosed (p : Pipe) : Bool := p.wref + p.rref == 0

/-- The two access modes `flags & O_RDWRFLAGS` that a pipe end can have; any other value
is `other` and is ignored by `incr_ref`/`decr_ref`. -/
inductive End | read | write
  deriving DecidableEq, Repr

/-- `incr_ref`, `/repo/src/interface/pipe.rs` 120-127. -/
def Pipe.incr (p : Pipe) : End → Pipe
  | .read => { p with rref := p.rref + 1 }
  | .write => { p with wref := p.wref + 1 }

/-- `decr_ref`, `/repo/src/interface/pipe.rs` 138-145.  The code's `fetch_sub` wraps at 0;
here subtraction is truncated.  `Kernel` proves the count is positive whenever this is
called. -/
def Pipe.decr (p : Pipe) : End → Pipe
  | .read => { p with rref := p.rref - 1 }
  | .write => { p with wref := p.wref - 1 }

/-- `check_select_read`, `/repo/src/interface/pipe.rs` 155-160. -/
def Pipe.selectRead (p : Pipe) : Bool := decide (p.buf.length > 0) || p.wref == 0

/-- `check_select_write`, `/repo/src/interface/pipe.rs` 171-178. -/
def Pipe.selectWrite (p : Pipe) : Bool := decide (p.remaining > pageSize) || p.rref == 0

/-! ## Sequential model -/

/-- The `while` loop of `write_to_pipe`, `/repo/src/interface/pipe.rs` 249-288, run with no
other thread acting.  `w` is `bytes_written`.  A blocking write that has no room
spins forever: `blocked`.  `fuel` bounds the iterations; `writeNow_fuel` in
`PipeProps` shows that it never runs out. -/
def writeLoop (data : List UInt8) (nb : Bool) : Nat → Pipe → Nat → Pipe × Ret
  | 0, p, _ => (p, .blocked)
  | fuel + 1, p, w =>
    if w < data.length then
      if p.rref = 0 then (p, .err .EPIPE)
      else if p.remaining < pageSize then
        if nb then
          if w > 0 then (p, .ok w) else (p, .err .EAGAIN)
        else (p, .blocked)
      else
        let e := min data.length (w + p.remaining)
        writeLoop data nb fuel { p with buf := p.buf ++ (data.take e).drop w } e
    else (p, .ok w)

/-- `write_to_pipe`, `/repo/src/interface/pipe.rs` 211-289. -/
def Pipe.writeNow (p : Pipe) (data : List UInt8) (nb : Bool) : Pipe × Ret :=
  if data.length = 0 then (p, .ok 0)
  else writeLoop data nb (data.length + 1) p 0

/-- `read_from_pipe`, `/repo/src/interface/pipe.rs` 403-463, run with no other thread
acting: result bytes and return value.  A blocking read of an empty pipe with writers
spins `CANCEL_CHECK_INTERVAL` times and returns `EAGAIN`, upon which its only callers
(`read_syscall`, `/repo/src/safeposix/syscalls/fs_calls.rs` 1580-1742, and
`recv`) try again for ever: `blocked`. -/
def Pipe.readNow (p : Pipe) (n : Nat) (nb : Bool) : Pipe × Ret × List UInt8 :=
  if n = 0 then (p, .ok 0, [])
  else if p.buf.length = 0 then
    if p.wref = 0 then (p, .ok 0, [])
    else if nb then (p, .err .EAGAIN, [])
    else (p, .blocked, [])
  else
    let k := min n p.buf.length
    ({ p with buf := p.buf.drop k }, .ok k, p.buf.take k)

/-- The `for` loop of `write_vectored_to_pipe`, `/repo/src/interface/pipe.rs` 345-372; `tot` is
`total_bytes_written`. -/
def writevLoop (nb : Bool) : List (List UInt8) → Pipe → Nat → Pipe × Ret
  | [], p, tot => (p, .ok tot)
  | iov :: rest, p, tot =>
    match p.writeNow iov nb with
    | (p', .ok v) => writevLoop nb rest p' (tot + v.toNat)
    | (p', .err .EPIPE) => (p', .err .EPIPE)
    | (p', .err .EAGAIN) => if tot = 0 then (p', .err .EAGAIN) else (p', .ok tot)
    | (p', r) => (p', r)

/-- `write_vectored_to_pipe`, `/repo/src/interface/pipe.rs` 329-373. -/
def Pipe.writevNow (p : Pipe) (iovs : List (List UInt8)) (nb : Bool) : Pipe × Ret :=
  writevLoop nb iovs p 0

/-! ## Concurrent model -/

/-- Where a thread is inside `write_to_pipe` (it holds the `write_end` mutex). -/
inductive WPhase
  /-- at line 249/250, about to load the read reference count -/
  | ref
  /-- at line 255, about to load `remaining` -/
  | rem
  /-- at line 282, `remaining` loaded -/
  | push (remaining : Nat)
  deriving DecidableEq, Repr

/-- The activation record of a `write_to_pipe` call. -/
structure Writer where
  tid : Nat
  data : List UInt8
  nb : Bool
  /-- `bytes_written` -/
  w : Nat
  phase : WPhase
  deriving DecidableEq, Repr

/-- Where a thread is inside `read_from_pipe` (it holds the `read_end` mutex). -/
inductive RPhase
  /-- at line 416, about to load `read_end.len()` -/
  | first
  /-- at line 421: non-blocking and empty, about to load the write reference count -/
  | nbRef
  /-- at line 435: `pipe_space == 0`, about to load the write reference count -/
  | loopRef
  /-- at line 447, about to reload `read_end.len()` -/
  | loopLen
  /-- at line 458, `pipe_space` loaded and non-zero -/
  | pop (space : Nat)
  deriving DecidableEq, Repr

/-- The activation record of a `read_from_pipe` call. -/
structure Reader where
  tid : Nat
  n : Nat
  nb : Bool
  count : Nat
  phase : RPhase
  deriving DecidableEq, Repr

/-- The pipe together with the threads inside its two critical sections. -/
structure Sys where
  p : Pipe
  wr : Option Writer
  rd : Option Reader
  deriving DecidableEq, Repr

/-- A new pipe with nobody inside. -/
def Sys.init (cap : Nat) : Sys := { p := Pipe.new cap, wr := none, rd := none }

/-- What a schedule can let happen next. -/
inductive Act
  /-- thread enters `write_to_pipe` and takes the `write_end` mutex if it is free -/
  | beginWrite (tid : Nat) (data : List UInt8) (nb : Bool)
  /-- the thread holding the `write_end` mutex makes one step -/
  | writeStep
  /-- thread enters `read_from_pipe` and takes the `read_end` mutex if it is free -/
  | beginRead (tid n : Nat) (nb : Bool)
  /-- the thread holding the `read_end` mutex makes one step -/
  | readStep
  /-- a descriptor of this end is created / closed (`incr_ref`/`decr_ref`) -/
  | incr (e : End)
  | decr (e : End)
  deriving DecidableEq, Repr

/-- A completed call. `pushed` is the number of bytes of `data` the call put
into the ring buffer; `bytes` what the read call stored in its buffer. -/
inductive Ev
  | wrote (tid : Nat) (data : List UInt8) (nb : Bool) (pushed : Nat) (ret : Ret)
  | read (tid n : Nat) (nb : Bool) (ret : Ret) (bytes : List UInt8)
  deriving DecidableEq, Repr

/-- One step of the thread inside `write_to_pipe`, `/repo/src/interface/pipe.rs` 249-288. -/
def stepWriter (s : Sys) (t : Writer) : Sys × Option Ev :=
  match t.phase with
  | .ref =>
    if t.w < t.data.length then
      if s.p.rref = 0 then
        ({ s with wr := none }, some (.wrote t.tid t.data t.nb t.w (.err .EPIPE)))
      else ({ s with wr := some { t with phase := .rem } }, none)
    else ({ s with wr := none }, some (.wrote t.tid t.data t.nb t.w (.ok t.w)))
  | .rem =>
    if s.p.remaining < pageSize then
      if t.nb then
        if t.w > 0 then
          ({ s with wr := none }, some (.wrote t.tid t.data t.nb t.w (.ok t.w)))
        else ({ s with wr := none }, some (.wrote t.tid t.data t.nb t.w (.err .EAGAIN)))
      else ({ s with wr := some { t with phase := .ref } }, none)
    else ({ s with wr := some { t with phase := .push s.p.remaining } }, none)
  | .push r =>
    let e := min t.data.length (t.w + r)
    ({ s with p := { s.p with buf := s.p.buf ++ (t.data.take e).drop t.w }
              wr := some { t with w := e, phase := .ref } }, none)

/-- One step of the thread inside `read_from_pipe`, `/repo/src/interface/pipe.rs` 416-462. -/
def stepReader (s : Sys) (t : Reader) : Sys × Option Ev :=
  match t.phase with
  | .first =>
    if s.p.buf.length = 0 then
      if t.nb then ({ s with rd := some { t with phase := .nbRef } }, none)
      else ({ s with rd := some { t with phase := .loopRef } }, none)
    else ({ s with rd := some { t with phase := .pop s.p.buf.length } }, none)
  | .nbRef =>
    if s.p.wref = 0 then ({ s with rd := none }, some (.read t.tid t.n t.nb (.ok 0) []))
    else ({ s with rd := none }, some (.read t.tid t.n t.nb (.err .EAGAIN) []))
  | .loopRef =>
    if s.p.wref = 0 then ({ s with rd := none }, some (.read t.tid t.n t.nb (.ok 0) []))
    else if t.count = cancelInterval then
      ({ s with rd := none }, some (.read t.tid t.n t.nb (.err .EAGAIN) []))
    else ({ s with rd := some { t with phase := .loopLen } }, none)
  | .loopLen =>
    if s.p.buf.length = 0 then
      ({ s with rd := some { t with count := t.count + 1, phase := .loopRef } }, none)
    else
      ({ s with rd := some { t with count := t.count + 1, phase := .pop s.p.buf.length } }, none)
  | .pop space =>
    let k := min t.n space
    ({ s with p := { s.p with buf := s.p.buf.drop k }, rd := none },
      some (.read t.tid t.n t.nb (.ok k) (s.p.buf.take k)))

/-- One step of a schedule.  An action that is not enabled leaves the state alone (the
thread waits for the mutex, or there is no thread to step). -/
def step (s : Sys) : Act → Sys × Option Ev
  | .beginWrite tid data nb =>
    if data.length = 0 then (s, some (.wrote tid data nb 0 (.ok 0)))
    else match s.wr with
      | some _ => (s, none)
      | none => ({ s with wr := some { tid, data, nb, w := 0, phase := .ref } }, none)
  | .writeStep =>
    match s.wr with
    | none => (s, none)
    | some t => stepWriter s t
  | .beginRead tid n nb =>
    if n = 0 then (s, some (.read tid n nb (.ok 0) []))
    else match s.rd with
      | some _ => (s, none)
      | none => ({ s with rd := some { tid, n, nb, count := 0, phase := .first } }, none)
  | .readStep =>
    match s.rd with
    | none => (s, none)
    | some t => stepReader s t
  | .incr e => ({ s with p := s.p.incr e }, none)
  | .decr e => ({ s with p := s.p.decr e }, none)

/-- Run a schedule, collecting the completed calls in order. -/
def run (s : Sys) : List Act → Sys × List Ev
  | [] => (s, [])
  | a :: as =>
    let (s', e) := step s a
    let (s'', es) := run s' as
    (s'', e.toList ++ es)

end Verif.Pipe
