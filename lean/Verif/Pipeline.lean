import Verif.PipeCap
import Verif.StatBufProps

/-!
# Two programs joined by a pipe: C99

`producer < file | consumer > file` on the kernel model.  The programs are those that every shell user runs: the producer reads its
input block by block and writes what it got to the pipe until its input ends, then closes the pipe; the consumer reads the pipe
until it gets end of file and writes what it got to its output.  Each call is one step; calls of the two programs and of any other
processes come in any order.
-/

namespace Verif.Pipeline
open Verif.Fs Verif.Kernel Verif.Path

/-- Where the producer is. -/
inductive Prod
  /-- about to read -/
  | ready
  /-- with bytes it has still to write -/
  | has (d : List UInt8)
  /-- its input has ended -/
  | ended
  /-- the pipe is closed -/
  | done
  deriving DecidableEq

/-- Where the consumer is. -/
inductive Cons
  | ready
  | has (d : List UInt8)
  /-- it got end of file -/
  | done
  deriving DecidableEq

/-- Processes and descriptors: the producer reads `fi` and writes `fo`, the consumer reads `gi` and writes `go`. -/
structure Plan where
  cp : Nat
  fi : Nat
  fo : Nat
  cq : Nat
  gi : Nat
  go : Nat

structure Conf where
  s : State
  p : Prod
  q : Cons

inductive Move
  /-- the producer reads up to `n` bytes -/
  | take (n : Nat)
  /-- the producer writes what it has -/
  | put
  /-- the producer closes the pipe -/
  | shut
  /-- the consumer reads up to `n` bytes -/
  | get (n : Nat)
  /-- the consumer writes what it has -/
  | store
  /-- another call: of another process, or another thread -/
  | other (c : Nat) (op : Op)

/-- What a program has still to write after a write call: it goes on behind the bytes the call has taken, and tries again when
the call has taken none. -/
def rest (d : List UInt8) : Ret → List UInt8
  | .ok v => d.drop v.toNat
  | _ => d

/-- One move. -/
def next (P : Plan) (x : Conf) : Move → Conf
  | .take n =>
    match x.p with
    | .ready =>
      let r := step x.s P.cp (.read P.fi n)
      { x with
        s := r.1
        p := match r.2.ret with
          | .ok v => if v = 0 then .ended else .has r.2.data
          | _ => .ready }
    | _ => x
  | .put =>
    match x.p with
    | .has d =>
      let r := step x.s P.cp (.write P.fo d)
      { x with s := r.1, p := if rest d r.2.ret = [] then .ready else .has (rest d r.2.ret) }
    | _ => x
  | .shut =>
    match x.p with
    | .ended => { x with s := (step x.s P.cp (.close P.fo)).1, p := .done }
    | _ => x
  | .get n =>
    match x.q with
    | .ready =>
      let r := step x.s P.cq (.read P.gi n)
      { x with
        s := r.1
        q := match r.2.ret with
          | .ok v => if v = 0 then .done else .has r.2.data
          | _ => .ready }
    | _ => x
  | .store =>
    match x.q with
    | .has d =>
      let r := step x.s P.cq (.write P.go d)
      { x with s := r.1, q := if rest d r.2.ret = [] then .ready else .has (rest d r.2.ret) }
    | _ => x
  | .other c op => { x with s := (step x.s c op).1 }

/-! ## Specification -/

/-- A call of somebody else leaves alone what the two programs use: their four descriptors, the bytes of the two files, the bytes in
the pipe.  It may make and close further descriptors of all of them. -/
structure Kept (P : Plan) (i j id : Nat) (s s' : State) : Prop where
  fi : slot s' P.cp P.fi = slot s P.cp P.fi
  fo : slot s' P.cp P.fo = slot s P.cp P.fo
  gi : slot s' P.cq P.gi = slot s P.cq P.gi
  go : slot s' P.cq P.go = slot s P.cq P.go
  src : bytes s' i = bytes s i
  dst : bytes s' j = bytes s j
  pipe : (s'.pipes id).map (·.buf) = (s.pipes id).map (·.buf)

/-- Block sizes: not zero, below 2^31, and at most a page for a producer whose end of the pipe may block (the bytes such a
call has put in when it blocks are not in its answer). -/
def Fair (P : Plan) (i j id : Nat) (fw : BitVec 32) (x : Conf) : Move → Prop
  | .take n => 0 < n ∧ n < 2147483648 ∧ (n ≤ 4096 ∨ fw &&& 0o4000#32 ≠ 0#32)
  | .get n => 0 < n ∧ n < 2147483648
  | .other c op => Tame x.s c op ∧ (step x.s c op).2.ret ≠ .panic ∧ Kept P i j id x.s (step x.s c op).1
  | _ => True

/-- A move of one of the two programs. -/
def Own : Move → Prop
  | .other _ _ => False
  | _ => True

/-- A run of fair moves. -/
inductive Runs (P : Plan) (i j id : Nat) (fw : BitVec 32) : Conf → List Move → Conf → Prop
  | nil (x : Conf) : Runs P i j id fw x [] x
  | cons {x y : Conf} {m : Move} {ms : List Move} (h : Fair P i j id fw x m) (hr : Runs P i j id fw (next P x m) ms y) :
      Runs P i j id fw x (m :: ms) y

/-- The start: the producer's input is open for reading at the beginning of the regular file `i`, the consumer's output at the
beginning of the empty regular file `j`, which is another one, and the two ends of the empty pipe `id` are in place. -/
structure Start (P : Plan) (i j id : Nat) (fw : BitVec 32) (x : Conf) : Prop where
  reach : Reach x.s
  p : x.p = .ready
  q : x.q = .ready
  small : P.fo < 1024 ∧ P.gi < 1024
  ne : i ≠ j
  src : ∃ f n, OpenOn x.s P.cp P.fi i 0 f ∧ f &&& 3#32 ≠ 1#32 ∧ IsFile x.s i n
  dst : ∃ f, OpenOn x.s P.cq P.go j 0 f ∧ f &&& 3#32 ≠ 0#32 ∧ IsFile x.s j 0
  out : slot x.s P.cp P.fo = some (.pipe id fw) ∧ fw &&& 3#32 = 1#32
  inp : ∃ f, slot x.s P.cq P.gi = some (.pipe id f) ∧ f &&& 3#32 = 0#32
  empty : (x.s.pipes id).map (·.buf) = some []

/-- How much is left to do: every byte has four stations to pass, and the two programs have to notice the end. -/
def todo (P : Plan) (i id : Nat) (x : Conf) : Nat :=
  let pos := match slot x.s P.cp P.fi with | some (.file _ pos _) => pos | _ => 0
  let buf := match x.s.pipes id with | some p => p.buf.length | none => 0
  4 * ((bytes x.s i).length - pos) +
    (match x.p with | .ready => 2 | .has d => 3 * d.length + 2 | .ended => 1 | .done => 0) +
    2 * buf + (match x.q with | .ready => 1 | .has d => d.length + 1 | .done => 0)

end Verif.Pipeline
