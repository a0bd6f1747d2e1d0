import Verif.Misc
import Verif.Recovery

/-!
# Model of a failure of the machine: what the host's disk holds when the power fails

The host keeps what is written to its files in memory and writes it to the disk when it likes, or when asked.  The code asks in
`fsync_syscall` and `fdatasync_syscall` only, for the host file of the descriptor (`/repo/src/interface/file.rs` 107-128): the log is written through a
memory map (`/repo/src/interface/file.rs` 353-374) and the metadata file by plain writes (`/repo/src/safeposix/filesystem.rs` 419-433), neither
followed by a request to the host.

Simplifications: a host file has on the disk one of the contents it had between two calls, never a mixture; of the log a prefix is on the disk; the metadata file
is on the disk.  A real disk can lose more.
-/

namespace Verif.Power
open Verif.Path Verif.Fs Verif.Kernel Verif.Recovery

/-- The running system, the metadata file it was started from, and for each host file the contents it may have on the disk. -/
structure Sys where
  b : Snap
  s : State
  may : Nat → List (Option (List UInt8))

/-- A system call, or `fsync`, or `fdatasync` (which has the same text), with the host's answer. -/
inductive Call
  | sys (op : Op)
  | fsync (fd : Int) (hostOk : Bool)
  deriving DecidableEq, Repr

/-- One call of cage `c`.  A content that a call gives to a host file may reach the disk from then on; after a successful request only
the present one is there. -/
def call (P : Sys) (c : Nat) : Call → Sys × Ret
  | .sys op =>
    ({ P with s := (step P.s c op).1
              may := fun i => if (step P.s c op).1.fs.disk i = P.s.fs.disk i then P.may i
                              else (step P.s c op).1.fs.disk i :: P.may i }, (step P.s c op).2.ret)
  | .fsync fd ok =>
    match Misc.fsync P.s c fd ok with
    | (.ok v, some i) => ({ P with may := upd P.may i [P.s.fs.disk i] }, .ok v)
    | (r, _) => (P, r)

/-- A history of calls. -/
def run (P : Sys) : List (Nat × Call) → Sys
  | [] => P
  | (c, x) :: h => run (call P c x).1 h

/-- Just started: the host files are on the disk as they are. -/
def start (b : Snap) (s : State) : Sys := ⟨b, s, fun i => [s.fs.disk i]⟩

/-- The power fails: what may be on the disk. -/
structure Lost (P : Sys) (d : Disk) : Prop where
  snap : d.snap = .whole P.b
  log : ∃ k, d.log = some (P.s.fs.log.take k)
  files : ∀ i, d.files i ∈ P.may i

end Verif.Power
