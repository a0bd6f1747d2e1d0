import Verif.EpollConc

/-!
# What a program may rely on when several threads use epoll

One history of all calls, in the order in which they return.  The specification keeps, for each descriptor, what it is and, for an epoll
descriptor, the registrations as a map; and for each thread what it last saw at each descriptor.
-/

namespace Verif.EpollConc

open Verif.Select (Ev)

/-- A descriptor as the program sees it. -/
inductive SObj
  | epoll (m : Nat → Option Ev)
  | file
  | plain

structure Sp where
  fd : Nat → Option SObj
  seen : Nat → Nat → BitVec 16

def Sp.init : Sp := { fd := fun _ => none, seen := fun _ _ => 0 }

def Sp.set (σ : Sp) (fd : Nat) (o : Option SObj) : Sp := { σ with fd := fun d => if d = fd then o else σ.fd d }

/-- The map with `fd` set. -/
def setReg (m : Nat → Option Ev) (fd : Nat) (e : Option Ev) : Nat → Option Ev := fun d => if d = fd then e else m d

/-- `epoll_ctl` done at once: 1 is ADD, 2 DEL, 3 MOD. -/
def Sp.ctl (σ : Sp) (ep : Nat) (op : Int) (fd : Nat) (ev : Ev) : Res × Sp :=
  if ep ≥ 1024 ∨ fd ≥ 1024 then (.err .EBADF, σ)
  else
    match σ.fd ep with
    | none => (.err .EBADF, σ)
    | some (.epoll m) =>
      if fd = ep then (.err .EINVAL, σ)
      else
        match σ.fd fd with
        | none => (.err .EBADF, σ)
        | some (.epoll _) => (.err .EBADF, σ)
        | some .file => (.err .EPERM, σ)
        | some .plain =>
          if op = 1 then
            if (m fd).isSome then (.err .EEXIST, σ) else (.ok 0 [], σ.set ep (some (.epoll (setReg m fd (some ev)))))
          else if op = 2 then
            if (m fd).isSome then (.ok 0 [], σ.set ep (some (.epoll (setReg m fd none)))) else (.err .ENOENT, σ)
          else if op = 3 then
            if (m fd).isSome then (.ok 0 [], σ.set ep (some (.epoll (setReg m fd (some ev))))) else (.err .ENOENT, σ)
          else (.err .EINVAL, σ)
    | some _ => (.err .EINVAL, σ)

def Kind.sobj : Kind → SObj
  | .epoll => .epoll fun _ => none
  | .file => .file
  | .plain => .plain

/-- The events of poll as those of epoll: readable, writable, urgent. -/
def bits (r : BitVec 16) : BitVec 32 :=
  (if r &&& 1 ≠ 0 then 1 else 0) ||| (if r &&& 4 ≠ 0 then 4 else 0) ||| (if r &&& 2 ≠ 0 then 2 else 0)

/-- What must hold of the next thing that happens. -/
def Sp.allows (σ : Sp) : Note → Prop
  | .ret _ (.ctl ep op fd ev) r => r = (σ.ctl ep op fd ev).1
  | .ret _ (.close fd) r =>
    r = .ok 0 [] ∨ (r = .err .EBADF ∧ σ.fd fd = none) ∨ (r = .panic ∧ fd ≥ 1024)
  | .ret _ (.create fd _) r => (σ.fd fd = none ∧ r = .ok fd []) ∨ r = .err .ENFILE
  | .ret t (.wait ep max) (.ok n evs) =>
    n = evs.length ∧ (n : Int) ≤ max ∧ (evs.map (·.1)).Nodup ∧
      ∃ m, σ.fd ep = some (.epoll m) ∧
        ∀ p ∈ evs, ∃ e, m p.1 = some e ∧ p.2.data = e.data ∧ p.2.events ≠ 0 ∧ p.2.events = bits (σ.seen t p.1) ∧
          p.2.events &&& e.events = p.2.events
  | .ret _ (.wait ep max) (.err e) =>
    e = .EINTR ∨ (e = .EBADF ∧ (ep ≥ 1024 ∨ σ.fd ep = none)) ∨
      (e = .EINVAL ∧ (max ≤ 0 ∨ (σ.fd ep ≠ none ∧ ∀ m, σ.fd ep ≠ some (.epoll m))))
  | .ret _ (.wait _ _) .panic => False
  | .ret _ (.other _ _) _ => True
  | .drop _ ep fd => σ.fd fd = none ∧ ∃ m, σ.fd ep = some (.epoll m) ∧ (m fd).isSome
  | .look _ fd r => σ.fd fd = none → bits r = 0

/-- And what it changes. -/
def Sp.after (σ : Sp) : Note → Sp
  | .ret _ (.ctl ep op fd ev) _ => (σ.ctl ep op fd ev).2
  | .ret _ (.close fd) (.ok _ _) => σ.set fd none
  | .ret _ (.create fd k) (.ok _ _) => σ.set fd (some k.sobj)
  | .drop _ ep fd =>
    match σ.fd ep with
    | some (.epoll m) => σ.set ep (some (.epoll (setReg m fd none)))
    | _ => σ
  | .look t fd r => { σ with seen := fun u d => if u = t ∧ d = fd then r else σ.seen u d }
  | .ret _ _ _ => σ

/-- The whole history is allowed. -/
def Allowed : Sp → List Note → Prop
  | _, [] => True
  | σ, n :: l => σ.allows n ∧ Allowed (σ.after n) l

def afterAll : Sp → List Note → Sp
  | σ, [] => σ
  | σ, n :: l => afterAll (σ.after n) l

/-- What the model's state says of a descriptor, for comparison. -/
def Obj.abs : Obj → SObj
  | .epoll m => .epoll m.get
  | .file => .file
  | .plain => .plain

end Verif.EpollConc
