import Verif.ExitConc

/-!
# Words for C95
-/

namespace Verif.ExitConc

/-- Thread `t` is in a `close` of this descriptor. -/
def InClose (s : St) (t : Tid) (fd : Fd) : Prop := s.pc t = .begun (.close fd) ∨ s.pc t = .closing fd

/-- Thread `t` is in `exit`. -/
def InExit (s : St) (t : Tid) : Prop := s.pc t = .begun .exit ∨ ∃ k half, s.pc t = .exiting k half

/-- Thread `t` is in a call that makes descriptors. -/
def InNew (s : St) (t : Tid) : Prop := (∃ fd, s.pc t = .begun (.dup fd)) ∨ s.pc t = .begun .pipe

/-- What the threads of a process have to respect: a descriptor is closed by one thread at a time, and `exit`, which closes all, is
called by one thread, with no `close` under way, and nobody closes after that.  With `quiet`, nobody makes descriptors either from
the moment `exit` is called.  Reading, writing and forking is always allowed, and so is anything in other processes. -/
def Careful (quiet : Bool) (s : St) : Act → Prop
  | .enter _ (.close fd) => (∀ u, ¬ InClose s u fd) ∧ ∀ u, ¬ InExit s u
  | .enter _ .exit => (∀ u fd, ¬ InClose s u fd) ∧ (∀ u, ¬ InExit s u) ∧ (quiet = true → ∀ u, ¬ InNew s u)
  | .enter _ (.dup _) => quiet = true → ∀ u, ¬ InExit s u
  | .enter _ .pipe => quiet = true → ∀ u, ¬ InExit s u
  | _ => True

/-- Reached by such calls, in any interleaving, from any table of descriptors. -/
inductive Reach (c : Cfg) (quiet : Bool) : St → Prop
  | rest (slot : Fd → Option End) (ext : End → Nat) (data : Nat → Nat) (np : Nat)
      (h1 : ∀ fd e, slot fd = some e → fd < c.N ∧ e.pipe < np) (h2 : ∀ e, np ≤ e.pipe → ext e = 0) : Reach c quiet (atRest c slot ext data np)
  | act {s : St} (a : Act) : Reach c quiet s → Careful quiet s a → Reach c quiet (act c s a)

/-- What another process that reads now is answered: bytes if there are any, else end of file when the counter says that nobody can
write; `blocked` if it has to wait. -/
def readAnswer (s : St) (p n : Nat) : Ret := match readNow s p n with | some (_, r) => r | none => .blocked

/-- The descriptors of the process that refer to this end. -/
def Has (c : Cfg) (s : St) (fd : Fd) (e : End) : Prop := fd < c.N ∧ s.slot fd = some e

end Verif.ExitConc
