import Verif.SemShm

/-!
# Words for C94
-/

namespace Verif.SemShm

/-- Process `c` has segment `id` attached at address `a`. -/
def Attached (s : St) (c a id : Nat) : Prop := ∃ rv, s.sh.rev c = some rv ∧ (a, id) ∈ rv

/-- Address `h` of process `c` is byte `d` of segment `id`. -/
def At (s : St) (c h id d : Nat) : Prop := ∃ a g, Attached s c a id ∧ s.sh.segs id = some g ∧ d < g.size ∧ h = a + d

/-- What C94 asks for: the same byte of a segment is the same semaphore, or none, in all processes that have the segment
attached, wherever they have it. -/
def Same (s : St) : Prop := ∀ c h c' h' id d, At s c h id d → At s c' h' id d → s.tab c h = s.tab c' h'

/-- Everybody who has the segment attached has it at the addresses at which `c` has it. -/
def SameAddrs (s : St) (c id : Nat) : Prop := ∀ p b, Attached s p b id → ∀ a, Attached s p a id ↔ Attached s c a id

/-- What the callers have to respect for C94 to hold in the code as it is:
* a segment is attached where the process has no segment and no semaphore yet, and if a semaphore was ever initialised in it,
  some process has it attached and it was not destroyed;
* in a segment, semaphores are process-shared and at its first byte, and when one is initialised or destroyed, all processes
  have the segment at the same addresses;
* the numbers of new processes are free.
(`pick`: the choice of the hash table, any cage that has the segment attached.) -/
def Careful (s : St) (c : Nat) : Op → Prop
  | .shm (.at id addr host) pick =>
    host = true ∧
    (pick = none → ∀ p a, ¬ Attached s p a id) ∧ (∀ p, pick = some p → ∃ a, Attached s p a id) ∧
    (∀ g, s.sh.segs id = some g → addr + g.size < w32 ∧
      ∀ d, d < g.size → s.tab c (addr + d) = none ∧ ∀ id' d', ¬ At s c (addr + d) id' d') ∧
    (s.offs id ≠ [] → ∃ p a, Attached s p a id ∧ s.tab p a ≠ none)
  | .shm (.fork ch) _ => s.sh.rev ch = none
  | .shm (.exec ch) _ => ch = c ∨ s.sh.rev ch = none
  | .init h ps _ => ∀ id d, At s c h id d → ps = true ∧ d = 0 ∧ SameAddrs s c id
  | .destroy h => ∀ id d, At s c h id d → SameAddrs s c id
  | _ => True

/-- States reached by such calls. -/
inductive Reach (chk : Bool) : St → Prop
  | init : Reach chk init
  | step {s c op} : Reach chk s → Careful s c op → Reach chk (step chk s c op).1

/-- The calls that use a semaphore. -/
inductive Use
  | wait | trywait | timedwait (expired : Bool) | post | getvalue
  deriving DecidableEq, Repr

/-- Such a call on a handle. -/
def Use.on : Use → Nat → Op
  | .wait, h => .wait h
  | .trywait, h => .trywait h
  | .timedwait e, h => .timedwait h e
  | .post, h => .post h
  | .getvalue, h => .getvalue h

end Verif.SemShm
