import Verif.PortsProps

/-!
# Port calls by several threads

`Ports.lean` runs each call on the port table at once.  In the code a call on a given port holds the entry of the port in
the `DashMap` from the look-up to the update (`_reserve_localport`, `/repo/src/safeposix/net.rs` 401-441;
`_release_localport`, 473-521), so it is one step.  The search for an ephemeral port is not: it takes the write lock of
the counter of its type (280-286, 330-336) and keeps it to the end, but tries the candidates one at a time
(287-306, 337-356), and each try (`initialize_port`, 222-261) holds only the entry of that candidate.  Calls of other
threads on given ports, and searches of the other three types, run between two tries.

Simplification: the read of the counter and the lock are one step (nothing but a search of the type touches the counter).
-/

namespace Verif.PortsConc

open Verif.Ports

/-- A search in progress: the locals of `_get_available_tcp_port`, `/repo/src/safeposix/net.rs` 313-363; `rest` are the
candidates that the two loops have still to try. -/
structure Search where
  addr : Addr
  ty : PType
  reb : Bool
  rest : List Nat

/-- The table with the reservations granted, the four locks of the counters (`RustLock` of
`/repo/src/safeposix/net.rs` 206-209) and what each thread is doing. -/
structure St where
  sys : Sys
  lock : PType → Option Nat
  busy : Nat → Option Search

/-- Nothing reserved, no thread in a call. -/
def St.init : St := { sys := .init, lock := fun _ => none, busy := fun _ => none }

/-- What a thread does next. -/
inductive Ev
  /-- thread `t` makes a call that is one step -/
  | call (t : Nat) (op : Op)
  /-- thread `t` asks for an ephemeral port and gets the lock -/
  | start (t : Nat) (a : Addr) (ty : PType) (reb : Bool)
  /-- thread `t` tries its next candidate -/
  | tryNext (t : Nat)

/-- The thread of an event. -/
def Ev.thread : Ev → Nat
  | .call t _ => t
  | .start t _ _ _ => t
  | .tryNext t => t

/-- Calls that are one step: those that name a port. -/
def oneStep : Op → Bool
  | .reserve _ port _ _ => port != 0
  | .release _ _ _ => true

/-- One try, `/repo/src/safeposix/net.rs` 291-312 and 341-362: success moves the counter and ends the search; after the last
candidate the search ends with `EADDRINUSE`. -/
def tryStep (devs : List Addr) (s : St) (t : Nat) (x : Search) : St × Option Ret :=
  match x.rest with
  | [] => ({ s with lock := updK s.lock x.ty none, busy := updK s.busy t none }, some (.err .EADDRINUSE))
  | q :: rest =>
    let k : Key := ⟨swap16 q, x.ty⟩
    match initPort devs (s.sys.net.used k) x.addr x.reb with
    | some l =>
      ({ sys := { net := { used := updK s.sys.net.used k (some l)
                           next := updK s.sys.net.next x.ty (decNext (s.sys.net.next x.ty)) }
                  held := { addr := x.addr, key := k, reb := x.reb } :: s.sys.held }
         lock := updK s.lock x.ty none
         busy := updK s.busy t none }, some (.ok (swap16 q)))
    | none =>
      if rest = [] then
        ({ s with lock := updK s.lock x.ty none, busy := updK s.busy t none }, some (.err .EADDRINUSE))
      else ({ s with busy := updK s.busy t (some { x with rest := rest }) }, none)

/-- One event: the state after it and, when it ends a call, the answer; `none` if the thread cannot do it now. -/
def act (devs : List Addr) (s : St) : Ev → Option (St × Option Ret)
  | .call t op =>
    if s.busy t = none ∧ oneStep op = true then
      some ({ s with sys := step devs s.sys op }, some (call devs s.sys.net op).2)
    else none
  | .start t a ty reb =>
    if s.busy t = none then
      if !devs.contains a then some (s, some (.err .EADDRNOTAVAIL))
      else if s.lock ty = none then
        some ({ s with lock := updK s.lock ty (some t)
                       busy := updK s.busy t (some ⟨a, ty, reb, candidates (s.sys.net.next ty)⟩) }, none)
      else none
    else none
  | .tryNext t =>
    match s.busy t with
    | none => none
    | some x => some (tryStep devs s t x)

/-- The events that respect `Ports.Clean`. -/
def CleanEv (s : St) : Ev → Prop
  | .call _ op => Clean s.sys.held op
  | _ => True

/-- `Path devs s es s'`: from `s` the events of `es`, each possible and clean when it comes, lead to `s'`; `es` lists each
event with the state before it and the answer it gives. -/
inductive Path (devs : List Addr) : St → List (St × Ev × Option Ret) → St → Prop
  | nil {s} : Path devs s [] s
  | snoc {s es s1 e s2 r} : Path devs s es s1 → CleanEv s1 e → act devs s1 e = some (s2, r) →
      Path devs s (es ++ [(s1, e, r)]) s2

end Verif.PortsConc
