import Verif.PipelineProps
import Verif.NsWitness

/-!
# C99: a shell's pipeline meets the hypotheses
-/

namespace Verif.Pipeline
open Verif.Fs Verif.Kernel Verif.Path
open Verif.Pipe (Pipe)

/-- A shell makes `/a` with seven bytes, opens it at its beginning, makes `/b` and a pipe, and forks.  The parent becomes the
producer, the child the consumer. -/
def shellOps : List (Nat × Op) :=
  [(0, .openP [47, 97] 0o102#32 0o666#32), (0, .write 3 [1, 2, 3, 4, 5, 6, 7]), (0, .lseek 3 0 0),
   (0, .openP [47, 98] 0o102#32 0o666#32), (0, .pipe2 0#32), (0, .fork 2), (0, .close 5)]

/-- The consumer has not closed its copy of the write end. -/
def careless : State := run init shellOps

/-- It has. -/
def ready : State := run careless [(2, .close 6)]

def plan : Plan := { cp := 0, fi := 3, fo := 6, cq := 2, gi := 5, go := 4 }

theorem careless_reach : Reach careless := Reach.init.run _ (by decide +kernel)
theorem ready_reach : Reach ready := careless_reach.run _ (by decide +kernel)

def inoOf (s : State) (c fd : Nat) : Nat := match slot s c fd with | some (.file i _ _) => i | _ => 0

def start (s : State) : Conf := { s := s, p := .ready, q := .ready }

theorem file_of {s : State} {i n : Nat} (h : (s.fs.inodes i).map (fun nd => (nd.kind, nd.size)) = some (.file, n)) : IsFile s i n := by
  cases hn : s.fs.inodes i with
  | none => rw [hn] at h; cases h
  | some nd =>
    rw [hn] at h
    simp only [Option.map_some, Option.some.injEq, Prod.mk.injEq] at h
    exact ⟨nd, hn, h.1, h.2⟩

theorem start_of {s : State} (hr : Reach s) (h1 : slot s 0 3 = some (.file 9 0 2#32)) (h2 : slot s 2 4 = some (.file 10 0 2#32))
    (h3 : slot s 0 6 = some (.pipe 0 1#32)) (h4 : slot s 2 5 = some (.pipe 0 0#32))
    (h5 : (s.fs.inodes 9).map (fun nd => (nd.kind, nd.size)) = some (.file, 7))
    (h6 : (s.fs.inodes 10).map (fun nd => (nd.kind, nd.size)) = some (.file, 0)) (h7 : (s.pipes 0).map (·.buf) = some []) :
    Start plan 9 10 0 1#32 (start s) :=
  ⟨hr, rfl, rfl, by decide, by decide, ⟨2#32, 7, openOn_of_slot (by decide) h1, by decide, file_of h5⟩,
    ⟨2#32, openOn_of_slot (by decide) h2, by decide, file_of h6⟩, ⟨h3, by decide⟩, ⟨0#32, h4, by decide⟩, h7⟩

theorem ready_start : Start plan 9 10 0 1#32 (start ready) :=
  start_of ready_reach (by decide +kernel) (by decide +kernel) (by decide +kernel) (by decide +kernel) (by decide +kernel)
    (by decide +kernel) (by decide +kernel)

theorem careless_start : Start plan 9 10 0 1#32 (start careless) :=
  start_of careless_reach (by decide +kernel) (by decide +kernel) (by decide +kernel) (by decide +kernel) (by decide +kernel)
    (by decide +kernel) (by decide +kernel)

/-- The producer reads four bytes and writes them, the consumer takes three, the producer reads on, the consumer writes. -/
def half : List Move := [.take 4, .put, .get 3, .take 4, .store, .put, .take 4]

/-- The consumer asks too early, gets the rest, the producer closes, the consumer gets end of file. -/
def rest2 : List Move := [.get 100, .store, .get 5, .shut, .get 5]

def after (x : Conf) (ms : List Move) : Conf := ms.foldl (next plan) x

theorem runs_after (x : Conf) (ms : List Move) (h : ∀ m ∈ ms, ∀ y, Fair plan 9 10 0 1#32 y m) :
    Runs plan 9 10 0 1#32 x ms (after x ms) := by
  induction ms generalizing x with
  | nil => exact .nil x
  | cons m ms ih => exact .cons (h m (by simp) x) (ih _ (fun m' hm' => h m' (by simp [hm'])))

theorem half_fair : ∀ m ∈ half, ∀ y, Fair plan 9 10 0 1#32 y m := by
  intro m hm y
  simp only [half, List.mem_cons, List.not_mem_nil, or_false] at hm
  rcases hm with rfl | rfl | rfl | rfl | rfl | rfl | rfl <;> simp [Fair]

theorem rest2_fair : ∀ m ∈ rest2, ∀ y, Fair plan 9 10 0 1#32 y m := by
  intro m hm y
  simp only [rest2, List.mem_cons, List.not_mem_nil, or_false] at hm
  rcases hm with rfl | rfl | rfl | rfl | rfl <;> simp [Fair]

/-- A run to the middle: three bytes in the output, four in the pipe, the producer through with its input. -/
example : Runs plan 9 10 0 1#32 (start ready) half (after (start ready) half) := runs_after _ _ half_fair
example : bytes (after (start ready) half).s 10 = [1, 2, 3] ∧ (after (start ready) half).p = .ended ∧
    (after (start ready) half).q = .ready ∧ countSlots (after (start ready) half).s.cages (isEndOf 0 1#32) = 1 ∧
    todo plan 9 0 (start ready) = 31 ∧ todo plan 9 0 (after (start ready) half) = 10 := by decide +kernel

/-- A complete run. -/
example : Runs plan 9 10 0 1#32 (start ready) (half ++ rest2) (after (start ready) (half ++ rest2)) :=
  runs_after _ _ (fun m hm => (List.mem_append.1 hm).elim (half_fair m) (rest2_fair m))
example : (after (start ready) (half ++ rest2)).q = .done ∧
    bytes (after (start ready) (half ++ rest2)).s 10 = [1, 2, 3, 4, 5, 6, 7] := by decide +kernel

/-- With the careless consumer the same run ends before end of file, with a write end open: the hypotheses of `pipeline_hangs`. -/
example : (after (start careless) (half ++ rest2)).q = .ready ∧ (after (start careless) (half ++ rest2)).p = .done ∧
    countSlots (after (start careless) (half ++ rest2)).s.cages (isEndOf 0 1#32) = 1 ∧
    (step (after (start careless) (half ++ rest2)).s 2 (.read 5 5)).2.ret = .blocked := by decide +kernel

theorem tame_mkdir (s : State) (c : Nat) (p : Str) (m : BitVec 32) : Tame s c (.mkdir p m) := by
  unfold Tame; split <;> trivial

theorem fair_other {s : State} {c : Nat} {op : Op} (ht : ∀ s, Tame s c op) (hn : (step s c op).2.ret ≠ .panic)
    (h : ∀ q ∈ [(0, 3), (0, 6), (2, 5), (2, 4)], slot (step s c op).1 q.1 q.2 = slot s q.1 q.2)
    (h5 : bytes (step s c op).1 9 = bytes s 9) (h6 : bytes (step s c op).1 10 = bytes s 10)
    (h7 : ((step s c op).1.pipes 0).map (·.buf) = (s.pipes 0).map (·.buf)) :
    Fair plan 9 10 0 1#32 (start s) (.other c op) :=
  ⟨ht _, hn, h (0, 3) (by simp), h (0, 6) (by simp), h (2, 5) (by simp), h (2, 4) (by simp), h5, h6, h7⟩

def elsewhere : Op := .mkdir [47, 100] 0o777#32

theorem elsewhere_tame (s : State) (c : Nat) : Tame s c elsewhere := tame_mkdir s c _ _

/-- A call of somebody else in between: the init process makes a directory. -/
example : Fair plan 9 10 0 1#32 (start ready) (.other 1 elsewhere) := by
  apply fair_other
  · exact fun s => elsewhere_tame s 1
  all_goals decide +kernel

end Verif.Pipeline
