import Verif.Select

/-!
# epoll used by several threads

`Select.lean` runs each `epoll_ctl` and `epoll_wait` at once.  Here the threads of one cage make them together with other calls, and
what matters is the reader-writer lock that each entry of the descriptor table has (`get_filedescriptor`,
`/repo/src/safeposix/cage.rs` 187-196, gives the lock of the entry):

* `epoll_ctl` takes the entry of `epfd` for writing and then, holding it, the entry of `fd` for reading
  (`/repo/src/safeposix/syscalls/net_calls.rs` 4736-4757);
* `epoll_wait` takes the entry of `epfd` for writing and keeps it to the end (4919-4920), also while it waits in `poll_syscall` (4989);
  on the way it takes the entry of each registered descriptor for reading, for a moment each (4940-4945, and in the `select_syscall`
  that poll makes for it, 4568-4575);
* `close` takes the entry for writing, lets it go, and takes it again to remove the descriptor
  (`/repo/src/safeposix/syscalls/fs_calls.rs` 3595-3609, 3820-3842); other calls take one entry for reading or writing and may keep it as long as they last.

Simplifications: a reader-writer lock is granted whenever it is free (the fair queue of `parking_lot` is not modelled, so some further
ways to wait are not here); the map hands out its entries in the order of the list; a closed descriptor is taken out of the map when it
is found closed and not after the whole scan (the map is locked between); what a look at an open descriptor finds is arbitrary among
the events asked for; the inner `select` of one entry is one step and fails only with
`EBADF`; an `fd` is a natural number (a negative one is refused like one from
1024 on).  Other calls that fail because the descriptor is closed are not told from those that do not.
-/

namespace Verif.EpollConc

open Verif.Select

/-- What an entry of the descriptor table holds, as far as epoll looks: `FileDescriptor`, `/repo/src/safeposix/cage.rs` 51-57. -/
inductive Obj
  | epoll (m : Reg)
  | file
  | plain
  deriving DecidableEq

/-- What a call makes. -/
inductive Kind
  | epoll
  | file
  | plain
  deriving DecidableEq

/-- `EpollDesc` is made with an empty map, `/repo/src/safeposix/syscalls/net_calls.rs` 4620-4640. -/
def Kind.obj : Kind → Obj
  | .epoll => .epoll []
  | .file => .file
  | .plain => .plain

/-- The view that `epollCtl` of `Select.lean` takes of an entry. -/
def Obj.view : Obj → View
  | .epoll _ => .epoll
  | .file => .file
  | .plain => .stream

/-- The calls.  `create fd k`: a call that makes a descriptor of kind `k` and is about to try the number `fd`; if that is taken or locked
the code goes on to the next number, which is another `create` here (the answer for one number is then `ENFILE`).  `other fd w`: any other call that takes the entry of `fd`, for writing if `w`, and lasts as long as it likes. -/
inductive Call
  | ctl (ep : Nat) (op : Int) (fd : Nat) (ev : Ev)
  | wait (ep : Nat) (max : Int)
  | close (fd : Nat)
  | create (fd : Nat) (k : Kind)
  | other (fd : Nat) (w : Bool)
  deriving DecidableEq

/-- What a call returns. -/
inductive Res
  | ok (n : Nat) (evs : List (Nat × Ev))
  | err (e : Errno)
  | panic
  deriving DecidableEq

/-- Where a thread is. -/
inductive Pc
  | idle
  /-- about to take its first lock -/
  | want (c : Call)
  /-- in `epoll_ctl`, with the entry of `ep`, about to take that of `fd` -/
  | ctl2 (ep : Nat) (op : Int) (fd : Nat) (ev : Ev)
  /-- in the first loop of `epoll_wait`: registrations to go through and entries for poll so far -/
  | scan (ep : Nat) (max : Int) (todo : Reg) (polls : List PollFd)
  /-- in `poll_syscall`: entries still to look at in this pass, those looked at, and how many of these are counted -/
  | poll (ep : Nat) (max : Int) (todo done : List PollFd) (hit : Nat)
  /-- in `close`, between `_close_helper_inner` and the removal -/
  | close2 (fd : Nat)
  /-- in another call, with the entry of `fd` -/
  | inUse (fd : Nat) (w : Bool)
  deriving DecidableEq

structure St where
  slot : Nat → Option Obj
  /-- the thread that has the entry for writing -/
  wr : Nat → Option Nat
  /-- the threads that have it for reading -/
  rd : Nat → List Nat
  pc : Nat → Pc

/-- No descriptor, no thread in a call. -/
def St.init : St := { slot := fun _ => none, wr := fun _ => none, rd := fun _ => [], pc := fun _ => .idle }

def upd {α : Type} (f : Nat → α) (i : Nat) (v : α) : Nat → α := fun j => if j = i then v else f j

/-- What happened. -/
inductive Note
  /-- thread `t` returned from `c` -/
  | ret (t : Nat) (c : Call) (r : Res)
  /-- thread `t`, in `epoll_wait`, took `fd` out of the list of `ep` -/
  | drop (t ep fd : Nat)
  /-- thread `t`, in `epoll_wait`, looked at `fd` -/
  | look (t fd : Nat) (found : BitVec 16)

/-- A move of a thread: it begins a call, or goes one step; `found` are the events that a look at a descriptor finds, `late` whether the
time is up; or a signal is found after a pass of poll. -/
inductive Act
  | begin (t : Nat) (c : Call)
  | go (t : Nat) (found : BitVec 16) (late : Bool)
  | intr (t : Nat)

/-- What `epoll_ctl` finds at `epfd`. -/
def epSlot : Option Obj → EpSlot
  | none => .closed
  | some (.epoll m) => .epoll m
  | some _ => .notEpoll

/-- The map in an entry after a call. -/
def putBack (o : Option Obj) : EpSlot → Option Obj
  | .epoll m => some (.epoll m)
  | _ => o

def Res.ofRet : Ret → Res
  | .ok n => .ok n.toNat []
  | .err e => .err e
  | _ => .panic

def St.free (s : St) (fd : Nat) : Bool := s.wr fd == none && s.rd fd == []

/-- The first step of a call, taken when its first lock is granted; `none`: it waits.
`/repo/src/safeposix/syscalls/net_calls.rs` 4717-4751 and 4836-4858 (`epoll_ctl`), 4917-4934 and 5036-5050 (`epoll_wait`);
`/repo/src/safeposix/syscalls/fs_calls.rs` 3595-3609 (`close`); `/repo/src/safeposix/cage.rs` 127-160 (a new descriptor). -/
def first (s : St) (t : Nat) : Call → Option (St × List Note)
  | .ctl ep op fd ev =>
    if ep ≥ 1024 ∨ fd ≥ 1024 then some ({ s with pc := upd s.pc t .idle }, [.ret t (.ctl ep op fd ev) (.err .EBADF)])
    else if s.free ep = false then none
    else
      match s.slot ep with
      | none => some ({ s with pc := upd s.pc t .idle }, [.ret t (.ctl ep op fd ev) (.err .EBADF)])
      | some (.epoll _) =>
        if fd = ep then some ({ s with pc := upd s.pc t .idle }, [.ret t (.ctl ep op fd ev) (.err .EINVAL)])
        else some ({ s with wr := upd s.wr ep (some t), pc := upd s.pc t (.ctl2 ep op fd ev) }, [])
      | some _ => some ({ s with pc := upd s.pc t .idle }, [.ret t (.ctl ep op fd ev) (.err .EINVAL)])
  | .wait ep max =>
    if ep ≥ 1024 then some ({ s with pc := upd s.pc t .idle }, [.ret t (.wait ep max) (.err .EBADF)])
    else if s.free ep = false then none
    else
      match s.slot ep with
      | none => some ({ s with pc := upd s.pc t .idle }, [.ret t (.wait ep max) (.err .EBADF)])
      | some (.epoll m) =>
        if max ≤ 0 then some ({ s with pc := upd s.pc t .idle }, [.ret t (.wait ep max) (.err .EINVAL)])
        else some ({ s with wr := upd s.wr ep (some t), pc := upd s.pc t (.scan ep max m []) }, [])
      | some _ => some ({ s with pc := upd s.pc t .idle }, [.ret t (.wait ep max) (.err .EINVAL)])
  | .close fd =>
    if fd ≥ 1024 then some ({ s with pc := upd s.pc t .idle }, [.ret t (.close fd) .panic])
    else if s.free fd = false then none
    else
      match s.slot fd with
      | none => some ({ s with pc := upd s.pc t .idle }, [.ret t (.close fd) (.err .EBADF)])
      | some _ => some ({ s with pc := upd s.pc t (.close2 fd) }, [])
  | .create fd k =>
    if fd ≥ 1024 ∨ s.free fd = false ∨ s.slot fd ≠ none then
      some ({ s with pc := upd s.pc t .idle }, [.ret t (.create fd k) (.err .ENFILE)])
    else some ({ s with slot := upd s.slot fd (some k.obj), pc := upd s.pc t .idle }, [.ret t (.create fd k) (.ok fd [])])
  | .other fd w =>
    if fd ≥ 1024 then some ({ s with pc := upd s.pc t .idle }, [.ret t (.other fd w) (.err .EBADF)])
    else if w then
      if s.free fd = false then none
      else some ({ s with wr := upd s.wr fd (some t), pc := upd s.pc t (.inUse fd true) }, [])
    else if s.wr fd ≠ none then none
    else some ({ s with rd := upd s.rd fd (t :: s.rd fd), pc := upd s.pc t (.inUse fd false) }, [])

/-- The second part of `epoll_ctl`, when the entry of `fd` can be read, `/repo/src/safeposix/syscalls/net_calls.rs` 4753-4844; both locks
are let go at the end. -/
def second (s : St) (t ep : Nat) (op : Int) (fd : Nat) (ev : Ev) : Option (St × List Note) :=
  if s.wr fd ≠ none then none
  else
    let x := epollCtl (epSlot (s.slot ep)) ep op fd ((s.slot fd).map Obj.view) ev
    some ({ s with slot := upd s.slot ep (putBack (s.slot ep) x.1), wr := upd s.wr ep none, pc := upd s.pc t .idle },
      [.ret t (.ctl ep op fd ev) (.ofRet x.2)])

/-- The second part of `close`, `/repo/src/safeposix/syscalls/fs_calls.rs` 3828-3842: whatever is there now is removed. -/
def remove (s : St) (t fd : Nat) : Option (St × List Note) :=
  if s.free fd = false then none
  else some ({ s with slot := upd s.slot fd none, pc := upd s.pc t .idle }, [.ret t (.close fd) (.ok 0 [])])

/-- One registration in the first loop of `epoll_wait`, `/repo/src/safeposix/syscalls/net_calls.rs` 4936-4985; after the last, poll
begins (4988-4989). -/
def scanStep (s : St) (t ep : Nat) (max : Int) (todo : Reg) (polls : List PollFd) : Option (St × List Note) :=
  match todo with
  | [] => some ({ s with pc := upd s.pc t (.poll ep max polls [] 0) }, [])
  | (fd, e) :: rest =>
    if s.wr fd ≠ none then none
    else
      match s.slot fd with
      | none =>
        some ({ s with slot := upd s.slot ep (match s.slot ep with
                                              | some (.epoll m) => some (.epoll (m.del fd))
                                              | o => o),
                       pc := upd s.pc t (.scan ep max rest polls) }, [.drop t ep fd])
      | some _ =>
        some ({ s with pc := upd s.pc t (.scan ep max rest (polls ++ [{ fd := fd, events := toPoll e.events, revents := 0 }])) }, [])

/-- One entry in a pass of poll, `/repo/src/safeposix/syscalls/net_calls.rs` 4531-4602; after a pass that counted something, or when the
time is up, the events are handed out (4995-5033) and the entry of `ep` is let go; otherwise the next pass begins (4604-4616). -/
def pollStep (s : St) (t ep : Nat) (max : Int) (todo done : List PollFd) (hit : Nat) (found : BitVec 16) (late : Bool) :
    Option (St × List Note) :=
  match todo with
  | x :: rest =>
    if x.events = 0 then
      some ({ s with pc := upd s.pc t (.poll ep max rest (done ++ [{ x with revents := 0 }]) hit) }, [.look t x.fd.toNat 0])
    else if s.wr x.fd.toNat ≠ none then none
    else
      match s.slot x.fd.toNat with
      | none =>
        some ({ s with pc := upd s.pc t (.poll ep max rest (done ++ [{ x with revents := pollNval }]) (hit + 1)) },
          [.look t x.fd.toNat pollNval])
      | some _ =>
        let m := found &&& x.events
        some ({ s with pc := upd s.pc t (.poll ep max rest (done ++ [{ x with revents := m }]) (if m = 0 then hit else hit + 1)) },
          [.look t x.fd.toNat m])
  | [] =>
    if hit ≠ 0 ∨ late = true then
      let r : Res :=
        match s.slot ep with
        | some (.epoll m) =>
          match collect m max.toNat done with
          | .ok es => .ok es.length es
          | .error _ => .panic
        | _ => .panic
      some ({ s with wr := upd s.wr ep none, pc := upd s.pc t .idle }, [.ret t (.wait ep max) r])
    else some ({ s with pc := upd s.pc t (.poll ep max done [] 0) }, [])

/-- One move; `none`: it cannot be made now. -/
def step (s : St) : Act → Option (St × List Note)
  | .begin t c =>
    match s.pc t with
    | .idle => some ({ s with pc := upd s.pc t (.want c) }, [])
    | _ => none
  | .go t found late =>
    match s.pc t with
    | .idle => none
    | .want c => first s t c
    | .ctl2 ep op fd ev => second s t ep op fd ev
    | .close2 fd => remove s t fd
    | .scan ep max todo polls => scanStep s t ep max todo polls
    | .poll ep max todo done hit => pollStep s t ep max todo done hit found late
    | .inUse fd true => some ({ s with wr := upd s.wr fd none, pc := upd s.pc t .idle }, [.ret t (.other fd true) (.ok 0 [])])
    | .inUse fd false =>
      some ({ s with rd := upd s.rd fd ((s.rd fd).filter (· ≠ t)), pc := upd s.pc t .idle }, [.ret t (.other fd false) (.ok 0 [])])
  | .intr t =>
    match s.pc t with
    | .poll ep max [] _ 0 => some ({ s with wr := upd s.wr ep none, pc := upd s.pc t .idle }, [.ret t (.wait ep max) (.err .EINTR)])
    | _ => none

/-- A schedule; moves that cannot be made are passed over. -/
def runFrom : St → List Act → St × List Note
  | s, [] => (s, [])
  | s, a :: as =>
    match step s a with
    | none => runFrom s as
    | some (s1, l) => ((runFrom s1 as).1, l ++ (runFrom s1 as).2)

def run (as : List Act) : St × List Note := runFrom .init as

end Verif.EpollConc
