import Verif.PipeLemmas

/-!
# Pipe properties: C01, C02, C03, C04
-/

namespace Verif.Pipe

/-! ## C01: in order, no loss, no duplication, no invention -/

/-- C01.  For every schedule of any number of readers, writers and descriptor openings and
closings, from a new pipe of any capacity: all bytes delivered by completed reads, in order,
followed by the bytes still buffered, are exactly the bytes accepted from completed writes,
in order (each write contiguous), followed by what the write in progress has put in. -/
theorem pipe_fifo (cap : Nat) (as : List Act) :
    ((run (Sys.init cap) as).2.map Ev.delivered).flatten ++ (run (Sys.init cap) as).1.p.buf =
    ((run (Sys.init cap) as).2.map Ev.accepted).flatten ++ (run (Sys.init cap) as).1.inProgress := by
  simpa using fifo_run as (Sys.init cap) [] [] (inv_init cap) rfl

/-- C01/C02, per call: return values tell the truth about the bytes moved.  A write that
returns `v` put exactly its first `v` bytes into the pipe (all of them when blocking, at
least one unless empty), `EAGAIN` means none; a read that returns `v` delivered exactly
`v` bytes, at most what it asked for. -/
theorem pipe_returns_count (cap : Nat) (as : List Act) :
    ∀ ev ∈ (run (Sys.init cap) as).2, ev.Consistent :=
  consistent_run as _ (inv_init cap)

/-- A schedule with two writers contending for the pipe and a reader in between. -/
def demo : List Act :=
  [.beginWrite 1 [1, 2, 3] false, .writeStep, .beginWrite 2 [9] true, .writeStep, .writeStep,
   .beginRead 3 2 false, .readStep, .readStep, .writeStep, .beginWrite 2 [9] true,
   .writeStep, .writeStep, .writeStep, .writeStep, .beginRead 4 5 true, .readStep, .readStep]

example : (run (Sys.init 65536) demo).2.map Ev.delivered = [[1, 2], [], [], [3, 9]] ∧
    (run (Sys.init 65536) demo).2.map Ev.accepted = [[], [1, 2, 3], [9], []] := by decide

/-! ## C02: capacity -/

/-- C02.  Under every schedule a pipe never holds more than its capacity. -/
theorem pipe_bounded (cap : Nat) (as : List Act) :
    (run (Sys.init cap) as).1.p.buf.length ≤ cap := by
  have hcap : ∀ (as : List Act) (s : Sys), (run s as).1.p.cap = s.p.cap := by
    intro as
    induction as with
    | nil => intro s; rfl
    | cons a as ih =>
      intro s
      simp only [run]
      rw [ih]
      cases a <;> simp only [step, stepWriter, stepReader] <;> (repeat' split) <;> simp
  have := (inv_run as _ (inv_init cap)).bufCap
  rwa [hcap] at this

example : (run (Sys.init pipeCapacity) demo).1.p.buf.length ≤ 65536 := pipe_bounded _ _

/-- C02, sequential: what a write call adds is exactly the prefix its return value states. -/
theorem write_appends (p : Pipe) (data : List UInt8) (nb : Bool) (v : Nat)
    (h : (p.writeNow data nb).2 = .ok v) :
    v ≤ data.length ∧ (p.writeNow data nb).1 = { p with buf := p.buf ++ data.take v } :=
  writeNow_ok p data nb v h

example : ((Pipe.new 65536).writeNow [1, 2, 3] true).2 = .ok 3 := by decide

/-- C01/C02, sequential: a read that returns `v` delivered the `v` oldest bytes, removed exactly
those, and got as many as it asked for unless the pipe held fewer; otherwise nothing moved. -/
theorem read_removes (p : Pipe) (n : Nat) (nb : Bool) :
    (∀ v : Nat, (p.readNow n nb).2.1 = .ok v → v = min n p.buf.length ∧
      (p.readNow n nb).2.2 = p.buf.take v ∧ (p.readNow n nb).1 = { p with buf := p.buf.drop v }) ∧
    ((∀ v : Nat, (p.readNow n nb).2.1 ≠ .ok v) → (p.readNow n nb).2.2 = [] ∧ (p.readNow n nb).1 = p) := by
  have z : ∀ v : Nat, (0 : Int) = (v : Int) → v = 0 := by intro v h; omega
  unfold Pipe.readNow
  (repeat' split) <;> refine ⟨?_, ?_⟩ <;> simp only [Ret.ok.injEq, ne_eq]
  · rename_i hn
    rintro v h; rw [z v h]
    exact ⟨by omega, by simp, by simp⟩
  · intro h; exact absurd rfl (h 0)
  · rename_i hb _
    rintro v h; rw [z v h]
    exact ⟨by omega, by simp, by simp⟩
  · intro h; exact absurd rfl (h 0)
  · intro v h; cases h
  · simp
  · intro v h; cases h
  · simp
  · rintro v h
    have : v = min n p.buf.length := by omega
    subst this; simp
  · intro h; exact absurd rfl (h (min n p.buf.length))

example : ({ buf := [1, 2, 3], cap := 9, wref := 1, rref := 1 } : Pipe).readNow 2 false =
    ({ buf := [3], cap := 9, wref := 1, rref := 1 }, .ok 2, [1, 2]) := by decide

/-! ## C03: end of file and broken pipe -/

/-- C03, reads (sequential): a read of a positive count returns 0 exactly if the pipe is
empty and has no write end; a non-blocking read fails with EAGAIN exactly if the pipe is
empty and has a write end; otherwise it delivers the oldest bytes. -/
theorem read_eof_iff (p : Pipe) (n : Nat) (nb : Bool) (hn : 0 < n) :
    ((p.readNow n nb).2.1 = .ok 0 ↔ p.buf = [] ∧ p.wref = 0) ∧
    ((p.readNow n nb).2.1 = .err .EAGAIN ↔ p.buf = [] ∧ p.wref ≠ 0 ∧ nb = true) ∧
    ((p.readNow n nb).2.1 = .blocked ↔ p.buf = [] ∧ p.wref ≠ 0 ∧ nb = false) := by
  unfold Pipe.readNow
  grind [List.length_eq_zero_iff]

example : ((Pipe.new 10).readNow 4 true).2.1 = .err .EAGAIN := by decide

/-- C03, writes (sequential): a write of a positive count returns EPIPE exactly if no read
end is open. -/
theorem write_epipe_iff (p : Pipe) (data : List UInt8) (nb : Bool) (hd : data ≠ []) :
    (p.writeNow data nb).2 = .err .EPIPE ↔ p.rref = 0 :=
  writeNow_epipe p data nb hd

example : ((Pipe.new 9000 |>.decr .read).writeNow [1] false).2 = .err .EPIPE := by decide

/-- C03 under concurrency, the part that holds: a read that returns 0 for a positive count
does so at a moment when no write end is open, and EPIPE is returned only at a moment
when no read end is open; EAGAIN for reads only while a write end is open.
(`_partial`: that the pipe is empty at that moment fails, see `read_eof_violated`; that a
write which transferred bytes reports them fails, see `write_count_violated`.) -/
theorem pipe_eof_epipe_partial (s : Sys) (a : Act) (hi : Inv s) :
    (∀ tid n nb bs, (step s a).2 = some (.read tid n nb (.ok 0) bs) → 0 < n → s.p.wref = 0) ∧
    (∀ tid n nb bs, (step s a).2 = some (.read tid n nb (.err .EAGAIN) bs) → s.p.wref ≠ 0) ∧
    (∀ tid d nb k, (step s a).2 = some (.wrote tid d nb k (.err .EPIPE)) → s.p.rref = 0) := by
  obtain ⟨h1, h2, h2', h3, h3', h4, h5⟩ := hi
  refine ⟨?_, ?_, ?_⟩ <;>
    (cases a <;> simp only [step, stepWriter, stepReader] <;> (repeat' split) <;> grind)

/-- C03 under concurrency: once the last read end is closed and no write is under way, and as long
as no new read end is made, every write of at least one byte by any thread fails with EPIPE
having put in nothing, and the pipe never holds more than it did. -/
theorem broken_pipe (s : Sys) (as : List Act) (hr : s.p.rref = 0) (hw : s.wr = none)
    (hno : Act.incr .read ∉ as) :
    (∀ tid d nb k r, Ev.wrote tid d nb k r ∈ (run s as).2 → d ≠ [] → r = .err .EPIPE ∧ k = 0) ∧
    (∃ k, (run s as).1.p.buf = s.p.buf.drop k) := by
  have key : ∀ (as : List Act) (s : Sys), s.p.rref = 0 →
      (∀ t, s.wr = some t → t.phase = .ref ∧ t.w = 0 ∧ t.data ≠ []) → Act.incr .read ∉ as →
      (∀ tid d nb k r, Ev.wrote tid d nb k r ∈ (run s as).2 → d ≠ [] → r = .err .EPIPE ∧ k = 0) ∧
      (∃ k, (run s as).1.p.buf = s.p.buf.drop k) := by
    intro as
    induction as with
    | nil => intro s _ _ _; exact ⟨by simp [run], 0, by simp [run]⟩
    | cons a as ih =>
      intro s hr hw hno
      have hs : (step s a).1.p.rref = 0 ∧
          (∀ t, (step s a).1.wr = some t → t.phase = .ref ∧ t.w = 0 ∧ t.data ≠ []) ∧
          (∀ tid d nb k r, (step s a).2 = some (.wrote tid d nb k r) → d ≠ [] →
            r = .err .EPIPE ∧ k = 0) ∧ (∃ k, (step s a).1.p.buf = s.p.buf.drop k) := by
        cases a with
        | incr e =>
          cases e
          · simp at hno
          · refine ⟨by simpa [step, Pipe.incr] using hr, by simpa [step] using hw, by simp [step],
              0, by simp [step]⟩
        | decr e =>
          refine ⟨by cases e <;> simp [step, Pipe.decr, hr], by simpa [step] using hw, by simp [step],
              0, by simp [step]⟩
        | beginWrite tid d nb =>
          simp only [step]
          split
          · rename_i h0
            refine ⟨hr, hw, ?_, 0, by simp⟩
            intro tid d nb k r he hd
            cases he
            exact absurd (List.eq_nil_of_length_eq_zero h0) hd
          · split
            · exact ⟨hr, hw, by simp, 0, by simp⟩
            · refine ⟨hr, ?_, by simp, 0, by simp⟩
              intro t ht; cases ht; exact ⟨rfl, rfl, by rintro rfl; simp_all⟩
        | writeStep =>
          simp only [step]
          split
          · exact ⟨hr, hw, by simp, 0, by simp⟩
          · rename_i t ht
            obtain ⟨h1, h2, h3⟩ := hw t ht
            have h4 : 0 < t.data.length := List.length_pos_iff.mpr h3
            simp only [stepWriter, h1, h2, h4, hr, if_true]
            exact ⟨trivial, by simp, by simp +contextual, 0, by simp⟩
        | beginRead tid n nb =>
          simp only [step]
          (repeat' split) <;> exact ⟨hr, hw, by simp, 0, by simp⟩
        | readStep =>
          simp only [step]
          split
          · exact ⟨hr, hw, by simp, 0, by simp⟩
          · simp only [stepReader]
            (repeat' split) <;>
              first
                | exact ⟨hr, hw, by simp, 0, rfl⟩
                | exact ⟨hr, hw, by simp, _, rfl⟩
      obtain ⟨h1, h2, h3, k1, h4⟩ := hs
      obtain ⟨g1, k2, g2⟩ := ih _ h1 h2 (fun h => hno (List.mem_cons_of_mem _ h))
      refine ⟨?_, k1 + k2, ?_⟩
      · intro tid d nb k r hm hd
        simp only [run, List.mem_append, Option.mem_toList] at hm
        rcases hm with hm | hm
        · exact h3 tid d nb k r hm hd
        · exact g1 tid d nb k r hm hd
      · simp only [run]; rw [g2, h4, List.drop_drop]
  exact key as s hr (by simp [hw]) hno

/-- Two writers after the only reader has gone, and a third thread still reading what is left. -/
def brokenDemo : List Act :=
  [.beginWrite 2 [9] false, .writeStep, .beginWrite 3 [7, 7] true, .beginRead 4 1 true, .writeStep,
   .readStep, .readStep]

example : (run { p := { buf := [1, 2], cap := 9000, wref := 1, rref := 0 }, wr := none, rd := none }
      brokenDemo).2 =
    [.wrote 2 [9] false 0 (.err .EPIPE), .wrote 3 [7, 7] true 0 (.err .EPIPE), .read 4 1 true (.ok 1) [1]] := by
  decide

/-- C03 under concurrency: once the last write end is closed with no write or read under way, and
as long as none is made and nobody writes, every read of a positive count by any thread succeeds:
it returns bytes, and it returns 0 only after every byte that was in the pipe has been delivered;
what is delivered is what was there, in order. -/
theorem drained_then_eof (s : Sys) (as : List Act) (h0 : s.p.wref = 0) (hw : s.wr = none)
    (hrd : s.rd = none) (hno : Act.incr .write ∉ as) (hnw : ∀ tid d nb, Act.beginWrite tid d nb ∉ as) :
    (∀ tid n nb r bs, Ev.read tid n nb r bs ∈ (run s as).2 → r = .ok bs.length ∧ bs.length ≤ n) ∧
    ((run s as).2.map Ev.delivered).flatten ++ (run s as).1.p.buf = s.p.buf ∧
    (∀ es1 es2 tid n nb bs, (run s as).2 = es1 ++ Ev.read tid n nb (.ok 0) bs :: es2 → 0 < n →
      (es1.map Ev.delivered).flatten = s.p.buf) := by
  have key : ∀ (as : List Act) (s : Sys), s.p.wref = 0 → s.wr = none →
      (∀ t, s.rd = some t → 0 < t.n ∧ (t.phase = .first ∨ (t.phase = .nbRef ∧ s.p.buf = []) ∨
        (t.phase = .loopRef ∧ s.p.buf = []) ∨ (t.phase = .pop s.p.buf.length ∧ s.p.buf ≠ []))) →
      Act.incr .write ∉ as → (∀ tid d nb, Act.beginWrite tid d nb ∉ as) →
      (∀ tid n nb r bs, Ev.read tid n nb r bs ∈ (run s as).2 → r = .ok bs.length ∧ bs.length ≤ n) ∧
      ((run s as).2.map Ev.delivered).flatten ++ (run s as).1.p.buf = s.p.buf ∧
      (∀ es1 es2 tid n nb bs, (run s as).2 = es1 ++ Ev.read tid n nb (.ok 0) bs :: es2 → 0 < n →
        (es1.map Ev.delivered).flatten = s.p.buf) := by
    intro as
    induction as with
    | nil => intro s _ _ _ _ _; refine ⟨by simp [run], by simp [run], by simp [run]⟩
    | cons a as ih =>
      intro s h0 hw hr hno hnw
      have hs : (step s a).1.p.wref = 0 ∧ (step s a).1.wr = none ∧
          (∀ t, (step s a).1.rd = some t → 0 < t.n ∧ (t.phase = .first ∨
            (t.phase = .nbRef ∧ (step s a).1.p.buf = []) ∨
            (t.phase = .loopRef ∧ (step s a).1.p.buf = []) ∨
            (t.phase = .pop (step s a).1.p.buf.length ∧ (step s a).1.p.buf ≠ []))) ∧
          (((step s a).2 = none ∧ (step s a).1.p.buf = s.p.buf) ∨
            ∃ tid n nb bs, (step s a).2 = some (.read tid n nb (.ok bs.length) bs) ∧ bs.length ≤ n ∧
              bs ++ (step s a).1.p.buf = s.p.buf ∧ (bs = [] → 0 < n → s.p.buf = [])) := by
        cases a with
        | incr e =>
          cases e
          · exact ⟨by simpa [step, Pipe.incr] using h0, hw, by simpa [step] using hr, by simp [step]⟩
          · simp at hno
        | decr e =>
          exact ⟨by cases e <;> simp [step, Pipe.decr, h0], hw, by simpa [step] using hr, by simp [step]⟩
        | beginWrite tid d nb => exact absurd List.mem_cons_self (hnw tid d nb)
        | writeStep => simp only [step, hw]; exact ⟨h0, trivial, hr, by simp⟩
        | beginRead tid n nb =>
          simp only [step]
          split
          · rename_i hn
            refine ⟨h0, hw, hr, .inr ⟨tid, n, nb, [], rfl, by simp, rfl, by omega⟩⟩
          · split
            · exact ⟨h0, hw, hr, by simp⟩
            · refine ⟨h0, hw, ?_, by simp⟩
              intro t ht; cases ht; exact ⟨by simp only; omega, .inl rfl⟩
        | readStep =>
          simp only [step]
          split
          · exact ⟨h0, hw, hr, by simp⟩
          · rename_i t ht
            obtain ⟨hn, hp⟩ := hr t ht
            simp only [stepReader]
            rcases hp with hp | ⟨hp, hb⟩ | ⟨hp, hb⟩ | ⟨hp, hb⟩
            · simp only [hp]
              split
              · rename_i hl
                have hl' := List.eq_nil_of_length_eq_zero hl
                split
                · exact ⟨h0, hw, by simp [hn, hl'], by simp⟩
                · exact ⟨h0, hw, by simp [hn, hl'], by simp⟩
              · rename_i hl
                have hl' : s.p.buf ≠ [] := fun h => hl (by rw [h]; rfl)
                exact ⟨h0, hw, by simp [hn, hl'], by simp⟩
            · simp only [hp, h0, if_true]
              exact ⟨trivial, hw, by simp, .inr ⟨_, _, _, [], rfl, by simp, rfl, fun _ _ => hb⟩⟩
            · simp only [hp, h0, if_true]
              exact ⟨trivial, hw, by simp, .inr ⟨_, _, _, [], rfl, by simp, rfl, fun _ _ => hb⟩⟩
            · simp only [hp]
              have hl : 0 < s.p.buf.length := List.length_pos_iff.mpr hb
              refine ⟨h0, hw, by simp, .inr ⟨t.tid, t.n, t.nb, s.p.buf.take (min t.n s.p.buf.length),
                ?_, ?_, List.take_append_drop .., ?_⟩⟩
              · simp
              · rw [List.length_take]; omega
              · intro hx; exfalso
                have := congrArg List.length hx
                rw [List.length_take, List.length_nil] at this; omega
      obtain ⟨h1, h2, h3, h4⟩ := hs
      obtain ⟨g1, g2, g3⟩ := ih _ h1 h2 h3 (fun h => hno (List.mem_cons_of_mem _ h))
        (fun tid d nb h => hnw tid d nb (List.mem_cons_of_mem _ h))
      rcases h4 with ⟨he, hb⟩ | ⟨tid0, n0, nb0, bs0, he, hle, hb, hz⟩
      · simp only [run, he, Option.toList, List.nil_append]
        rw [hb] at g2 g3
        exact ⟨g1, g2, g3⟩
      · simp only [run, he, Option.toList, List.cons_append, List.nil_append]
        refine ⟨?_, ?_, ?_⟩
        · intro tid n nb r bs hm
          rcases List.mem_cons.mp hm with h | h
          · cases h; exact ⟨rfl, hle⟩
          · exact g1 tid n nb r bs h
        · rw [List.map_cons, List.flatten_cons, List.append_assoc, g2]; exact hb
        · intro es1 es2 tid n nb bs hx hn
          cases es1 with
          | nil =>
            simp only [List.nil_append, List.cons.injEq] at hx
            obtain ⟨hx, -⟩ := hx
            simp only [Ev.read.injEq, Ret.ok.injEq] at hx
            obtain ⟨-, e2, -, e4, -⟩ := hx
            have : bs0 = [] := List.eq_nil_of_length_eq_zero (by omega)
            rw [List.map_nil, hz this (by omega)]; rfl
          | cons e es1 =>
            simp only [List.cons_append, List.cons.injEq] at hx
            obtain ⟨rfl, hx⟩ := hx
            rw [List.map_cons, List.flatten_cons, g3 es1 es2 tid n nb bs hx hn]; exact hb
  exact key as s h0 hw (by simp [hrd]) hno hnw

/-- The schedule of `read_eof_violated`: the reader finds the pipe empty; before it loads
the write reference count, the writer writes a byte and closes. -/
def eofRace : List Act :=
  [.beginRead 1 5 false, .readStep, .beginWrite 2 [7] false, .writeStep, .writeStep, .writeStep,
   .writeStep, .decr .write, .readStep]

/-- C03 violated under concurrency: a read returns 0 (end of file) although the pipe holds
a byte that was written before the writer closed. -/
theorem read_eof_violated :
    (run (Sys.init 65536) eofRace).2.getLast? = some (.read 1 5 false (.ok 0) []) ∧
    (run (Sys.init 65536) eofRace).1.p.buf = [7] := by decide

/-- The schedule of `write_count_violated`: capacity 4096, a blocking write of 4097 bytes
pushes 4096 bytes, is waiting for room, and the only reader closes. -/
def epipeRace : List Act :=
  [.beginWrite 1 (List.replicate 4097 0) false, .writeStep, .writeStep, .writeStep, .decr .read,
   .writeStep]

/-- C03 violated under concurrency: a write that transferred 4096 bytes reports EPIPE
instead of the count. -/
theorem write_count_violated :
    (run (Sys.init 4096) epipeRace).2 =
      [.wrote 1 (List.replicate 4097 0) false 4096 (.err .EPIPE)] := by
  simp [run, epipeRace, step, stepWriter, Sys.init, Pipe.new, Pipe.remaining, pageSize, Pipe.decr,
    -List.reduceReplicate]

/-! ## C04: readiness agrees with what the call does -/

/-- C04, reads: reported readable iff a read of a positive count (blocking or not)
neither blocks nor fails with EAGAIN. -/
theorem select_read_iff (p : Pipe) (n : Nat) (nb : Bool) (hn : 0 < n) :
    p.selectRead = true ↔
      (p.readNow n nb).2.1 ≠ .blocked ∧ (p.readNow n nb).2.1 ≠ .err .EAGAIN := by
  unfold Pipe.selectRead Pipe.readNow
  grind

/-- C04, writes, soundness: if reported writable, a non-blocking write of a positive count
does not fail with EAGAIN; it transfers at least one byte or reports EPIPE. -/
theorem select_write_sound (p : Pipe) (data : List UInt8) (hd : data ≠ [])
    (h : p.selectWrite = true) :
    (p.writeNow data true).2 = .err .EPIPE ∨ ∃ v : Nat, 0 < v ∧ (p.writeNow data true).2 = .ok v :=
  selectWrite_sound p data hd h

/-- C04, writes, completeness, the part that holds: a pipe not reported writable does not
accept a non-blocking write unless exactly one page is free. -/
theorem select_write_complete_partial (p : Pipe) (data : List UInt8) (hd : data ≠ [])
    (h : p.selectWrite = false) (hne : p.remaining ≠ pageSize) :
    (p.writeNow data true).2 = .err .EAGAIN :=
  selectWrite_complete p data hd h hne

example : (Pipe.new 100).selectWrite = false ∧ (Pipe.new 100).remaining ≠ pageSize := by decide

/-- C04 violated (completeness): with exactly 4096 bytes free a pipe is not reported
writable although a write succeeds. -/
theorem select_write_violated :
    ∃ p : Pipe, p.selectWrite = false ∧ (p.writeNow [1] true).2 = .ok 1 :=
  ⟨Pipe.new 4096, by decide, by decide⟩

/-- C04 violated (soundness for blocking writes): a pipe is reported writable, yet a blocking
write of more than the free space blocks (POSIX allows this; the property as stated
does not). -/
theorem select_write_blocking_violated :
    ∃ (p : Pipe) (d : List UInt8), p.selectWrite = true ∧ (p.writeNow d false).2 = .blocked :=
  ⟨Pipe.new 4097, List.replicate 4098 0, by decide, by
    simp [Pipe.writeNow, writeLoop, Pipe.new, Pipe.remaining, pageSize, -List.reduceReplicate]⟩

/-! ## writev -/

/-- C01 for `writev` (sequential): a `writev` that returns `v` appended exactly the first
`v` bytes of the concatenation of its buffers. -/
theorem writev_appends (p : Pipe) (iovs : List (List UInt8)) (nb : Bool) (v : Nat)
    (h : (p.writevNow iovs nb).2 = .ok v) :
    v ≤ iovs.flatten.length ∧
    (p.writevNow iovs nb).1 = { p with buf := p.buf ++ iovs.flatten.take v } :=
  writevNow_ok p iovs nb v h

example : ((Pipe.new 65536).writevNow [[1, 2], [], [3]] true).2 = .ok 3 := by decide

end Verif.Pipe
