import Verif.PipeConcLemmas

/-!
# Pipes used by several threads: vectored writes, calls that must not wait, progress (C83)
-/

namespace Verif.PipeConc
open Verif.Pipe (Sys Writer Reader pageSize cancelInterval pipeCapacity)

/-! ## Vectored writes -/

/-- C83.  With any number of threads that read, write and write vectored in any interleaving: the bytes delivered, followed by those in the
pipe, are those of the buffers in the order in which their transfer ended, each in one piece, followed by what the buffer
in transfer has put in. -/
theorem writev_stream (cap : Nat) (as : List Act) :
    (((run (St.init cap) as).2.filterMap Ev.call?).map Pipe.Ev.delivered).flatten ++ (run (St.init cap) as).1.sys.p.buf =
    (((run (St.init cap) as).2.filterMap Ev.call?).map Pipe.Ev.accepted).flatten ++ (run (St.init cap) as).1.sys.inProgress := by
  simpa using fifo_run as (St.init cap) [] [] (inv_init cap) rfl

/-- C83.  The buffers of one thread's vectored writes enter the pipe in the order of the calls and of the buffers in each call, and nothing
else of them does: what they put in is what the calls that ended have put in, followed by what the one under way has. -/
theorem writev_own (cap : Nat) (as : List Act) (tid : Nat) :
    (((run (St.init cap) as).2).map (pieces tid)).flatten =
    (((run (St.init cap) as).2).map (claimed tid)).flatten ++ (run (St.init cap) as).1.soFar tid := by
  simpa [St.soFar, St.init] using own_run tid as (inv_init cap)

/-- C83, what holds of the answer of a vectored write that other threads interrupt (missing: that a non-blocking one has put in the first bytes of the
whole, `writev_hole_violated`; that EPIPE means that nothing was put in): the buffers are put in in order, of each a first part; the number answered
is that of the bytes put in; a blocking call that answers a number has put in everything; EAGAIN means that nothing was. -/
theorem writev_count_partial (cap : Nat) (as : List Act) {tid : Nat} {iovs : List (List UInt8)} {nb : Bool}
    {put : List (List UInt8)} {ret : Ret} (h : Ev.vecDone tid iovs nb put ret ∈ (run (St.init cap) as).2) :
    put.length ≤ iovs.length ∧ (∀ i (_ : i < put.length) (_ : i < iovs.length), put[i] <+: iovs[i]) ∧
    ((ret = .ok put.flatten.length ∧ (nb = false → put = iovs)) ∨
     (ret = .err .EAGAIN ∧ put.flatten = [] ∧ nb = true) ∨ ret = .err .EPIPE) :=
  (run_inv as (inv_init cap)).2 tid iovs nb put ret h

/-- Thread 1 writes two buffers at once, thread 2 writes between them. -/
def mixed : List Act :=
  [.beginV 1 [[1, 2], [3]] false, .nextV 1, .base .writeStep, .base .writeStep, .base .writeStep, .base .writeStep,
   .base (.beginWrite 2 [9] false), .base .writeStep, .base .writeStep, .base .writeStep, .base .writeStep,
   .nextV 1, .base .writeStep, .base .writeStep, .base .writeStep, .base .writeStep, .nextV 1]

/-- A vectored write that ends, with another's bytes in between: the hypotheses of `writev_count_partial` are met. -/
example : Ev.vecDone 1 [[1, 2], [3]] false [[1, 2], [3]] (.ok 3) ∈ (run (St.init 65536) mixed).2 := by decide +kernel

/-- C83 violated: the bytes of a vectored write, three in all, do not stay together when another thread writes. -/
theorem writev_mixed_violated : (run (St.init pipeCapacity) mixed).1.sys.p.buf = [1, 2, 9, 3] := by decide +kernel

/-- A non-blocking vectored write of 65537 bytes and one more: the first buffer fills the pipe, another thread reads it all, the second
buffer goes in. -/
def hole : List Act :=
  [.beginV 1 [List.replicate 65537 0, [7]] true, .nextV 1, .base .writeStep, .base .writeStep, .base .writeStep, .base .writeStep,
   .base .writeStep, .base (.beginRead 2 65536 false), .base .readStep, .base .readStep,
   .nextV 1, .base .writeStep, .base .writeStep, .base .writeStep, .base .writeStep, .nextV 1]

/-- C83 violated: a non-blocking vectored write answers 65537, but the 65537th byte of its data is not in the pipe: the last byte of the first
buffer is left out and the second buffer follows. -/
theorem writev_hole_violated :
    (run (St.init pipeCapacity) hole).2.getLast? =
      some (.vecDone 1 [List.replicate 65537 0, [7]] true [List.replicate 65536 0, [7]] (.ok 65537)) ∧
    ([List.replicate 65537 0, [7]] : List (List UInt8)).flatten.take 65537 = List.replicate 65537 0 := by
  obtain ⟨s, es, h⟩ := hole_run (List.replicate 65537 0) (List.length_replicate ..)
  refine ⟨?_, ?_⟩
  · have ht : (List.replicate 65537 (0 : UInt8)).take 65536 = List.replicate 65536 0 := by
      simp [List.take_replicate, -List.reduceReplicate]
    rw [ht] at h
    unfold hole
    rw [h, List.getLast?_append]
    rfl
  · simp [-List.reduceReplicate]

/-! ## Calls that must not wait -/

/-- C83, the part of "a non-blocking write does not wait" that holds (missing: it can wait for the lock, `nonblocking_waits_violated`): once a non-blocking write
has the lock, it ends after a number of its own steps that depends on the length of its data only, whatever the other threads do. -/
theorem nonblocking_write_ends_partial (cap : Nat) (pre as : List Pipe.Act) {t : Writer}
    (ht : (Pipe.run (Sys.init cap) pre).1.wr = some t) (hnb : t.nb = true) (hc : 3 * t.data.length + 1 ≤ as.count .writeStep) :
    ∃ pushed ret, Pipe.Ev.wrote t.tid t.data true pushed ret ∈ (Pipe.run (Pipe.run (Sys.init cap) pre).1 as).2 :=
  nb_write_run as (Pipe.inv_run pre _ (Pipe.inv_init cap)) ht hnb (Nat.le_trans (wLeft_le t) hc)

example : (Pipe.run (Sys.init 65536) [.beginWrite 1 [5, 6] true]).1.wr = some ⟨1, [5, 6], true, 0, .ref⟩ ∧
    3 * 2 + 1 ≤ (List.replicate 7 Pipe.Act.writeStep).count .writeStep := by decide

/-- C83, the same for reads: a non-blocking read that has the lock ends after two of its own steps; a blocking one gives the lock
back, with an answer or to be asked again, after at most 2 · 1048576 + 3. -/
theorem read_ends_partial (cap : Nat) (pre as : List Pipe.Act) {t : Reader}
    (ht : (Pipe.run (Sys.init cap) pre).1.rd = some t) (hf : t.phase = .first)
    (hc : (if t.nb then 2 else 2 * cancelInterval + 3) ≤ as.count .readStep) :
    ∃ ret bytes, Pipe.Ev.read t.tid t.n t.nb ret bytes ∈ (Pipe.run (Pipe.run (Sys.init cap) pre).1 as).2 :=
  read_run as (RInv.run pre (rinv_init cap)) ht (by simpa only [rLeft, hf] using hc)

example : (Pipe.run (Sys.init 65536) [.beginRead 1 10 true]).1.rd = some ⟨1, 10, true, 0, .first⟩ := by decide

/-- Thread 1 writes 65537 bytes into a new pipe and waits for room. -/
def filled : List Pipe.Act := [.beginWrite 1 (List.replicate 65537 0) false, .writeStep, .writeStep, .writeStep]

theorem filled_stuck : Stuck (Pipe.run (Sys.init pipeCapacity) filled).1 := by
  have h : (Pipe.run (Sys.init pipeCapacity) filled).1 =
      ⟨⟨(List.replicate 65537 0).take 65536, 65536, 1, 1⟩, some ⟨1, List.replicate 65537 0, false, 65536, .ref⟩, none⟩ := by
    simp [filled, Pipe.run, Pipe.step, Pipe.stepWriter, Sys.init, Pipe.Pipe.new, pipeCapacity, Pipe.Pipe.remaining, pageSize,
      -List.reduceReplicate]
  rw [h]
  refine ⟨_, rfl, rfl, ?_, .inl rfl, ?_, by decide⟩
  · simp [-List.reduceReplicate]
  · simp [Pipe.Pipe.remaining, pageSize, -List.reduceReplicate]

/-- C83 violated: while a blocking write waits for room, a non-blocking write to the same pipe does not answer EAGAIN, and neither select nor poll for
writing answers, even with timeout zero: as long as nobody reads and no reader closes, however many steps the threads take, no write of at least one byte
ends and the check of the write end waits for the lock. -/
theorem nonblocking_waits_violated (as : List Pipe.Act) (hno : ∀ a ∈ as, a ≠ .readStep ∧ a ≠ .decr .read) :
    let s := (Pipe.run (Sys.init pipeCapacity) filled).1
    (∀ tid data nb pushed ret, Pipe.Ev.wrote tid data nb pushed ret ∈ (Pipe.run s as).2 → data = []) ∧
    selectWrite (Pipe.run s as).1 = none := by
  obtain ⟨⟨t, h1, _⟩, h2⟩ := Stuck.run as filled_stuck hno
  exact ⟨h2, by rw [selectWrite, if_neg (by rw [h1]; simp)]⟩

example : ∀ a ∈ [Pipe.Act.beginWrite 2 [5] true, .writeStep, .writeStep, .beginWrite 2 [5] true],
    a ≠ .readStep ∧ a ≠ .decr .read := by decide

/-- C83 violated: a check of the read end (select, poll) waits while another thread waits for data in a blocking read. -/
theorem select_read_waits_violated :
    selectRead (Pipe.run (Sys.init pipeCapacity) [.beginRead 1 10 false, .readStep, .readStep, .readStep]).1 = none := by
  decide +kernel

/-! ## No deadlock -/

/-- C83.  A read and a write under way are never both stuck, for a pipe that holds at least a page: if there are bytes in the pipe, the reader ends
within three of its steps; if there are none, within three of its steps the writer ends or puts some in. -/
theorem read_write_progress (cap : Nat) (hcap : pageSize ≤ cap) (pre : List Pipe.Act) {t : Writer} {u : Reader} :
    let s := (Pipe.run (Sys.init cap) pre).1
    s.wr = some t → s.rd = some u →
    (s.p.buf ≠ [] → ∃ ret bytes, Pipe.Ev.read u.tid u.n u.nb ret bytes ∈ (Pipe.run s [.readStep, .readStep, .readStep]).2) ∧
    (s.p.buf = [] → (∃ pushed ret, Pipe.Ev.wrote t.tid t.data t.nb pushed ret ∈ (Pipe.run s [.writeStep, .writeStep, .writeStep]).2) ∨
      (Pipe.run s [.writeStep, .writeStep, .writeStep]).1.p.buf ≠ []) := by
  intro s ht hu
  have hi : Pipe.Inv s := Pipe.inv_run pre _ (Pipe.inv_init cap)
  have hc : s.p.cap = cap := cap_run pre _
  constructor
  · intro hb
    exact read_three hu hb
  · intro hb
    exact write_three hi (by rw [hc]; exact hcap) ht hb

example : (Pipe.run (Sys.init 4096) [.beginRead 1 10 false, .readStep, .beginWrite 2 [7] false]).1.wr = some ⟨2, [7], false, 0, .ref⟩ ∧
    (Pipe.run (Sys.init 4096) [.beginRead 1 10 false, .readStep, .beginWrite 2 [7] false]).1.rd = some ⟨1, 10, false, 0, .loopRef⟩ := by
  decide

end Verif.PipeConc
