import Verif.Pipe

/-!
# Specification vocabulary for the pipe properties
-/

namespace Verif.Pipe

/-- The bytes a completed call took from its caller and put into the pipe. -/
def Ev.accepted : Ev → List UInt8
  | .wrote _ data _ pushed _ => data.take pushed
  | .read .. => []

/-- The bytes a completed call delivered to its caller. -/
def Ev.delivered : Ev → List UInt8
  | .wrote .. => []
  | .read _ _ _ _ bytes => bytes

/-- The bytes of the write call in progress that have already entered the pipe. -/
def Sys.inProgress (s : Sys) : List UInt8 :=
  match s.wr with
  | none => []
  | some t => t.data.take t.w

/-- What a completed call's return value says about the bytes it moved. -/
def Ev.Consistent : Ev → Prop
  | .wrote _ data nb pushed ret =>
      pushed ≤ data.length ∧
      (ret = .ok pushed ∧ (nb = false → pushed = data.length) ∧ (data ≠ [] → 0 < pushed) ∨
       ret = .err .EAGAIN ∧ pushed = 0 ∧ nb = true ∨
       ret = .err .EPIPE)
  | .read _ n _ ret bytes =>
      bytes.length ≤ n ∧
      (ret = .ok bytes.length ∨ ret = .err .EAGAIN ∧ bytes = [])

end Verif.Pipe
