import Verif.ReplaceCrash

/-! # C103: an editor that saves a file meets the hypotheses, and what a shutdown does to it -/

namespace Verif.Replace
open Verif.Fs Verif.Kernel Verif.Path Verif.Recovery
open Verif.Pipeline (file_of tame_read)

/-- `/a` has three bytes and process 1 has it open for reading; the editor, process 0, makes `/b`. -/
def editOps : List (Nat × Op) :=
  [(0, .openP pA 0o102#32 0o666#32), (0, .write 3 [1, 2, 3]), (0, .close 3), (1, .openP pA 0#32 0#32), (0, .openP pB 0o102#32 0o666#32)]

def edit : State := run init editOps

def plan : Plan := { c := 0, fd := 3, tmp := pB, new := pA, T := [[98]], N := [[97]] }

def begun : Conf := { s := edit, left := [7, 8, 9, 10, 11], done := false }

theorem edit_reach : Reach edit := Reach.init.run _ (by decide +kernel)

theorem walk_one {s : State} {n : Name} {i : Nat} (h : (s.fs.inodes rootIno).map (fun nd => (nd.isDir, decide ((n, i) ∈ nd.ents))) = some (true, true)) :
    To s [n] i := by
  cases hr : s.fs.inodes rootIno with
  | none => rw [hr] at h; cases h
  | some nd =>
    rw [hr] at h
    simp only [Option.map_some, Option.some.injEq, Prod.mk.injEq, decide_eq_true_eq] at h
    exact .down hr h.1 h.2 (.here _)

theorem paths_of {s : State} (h : (s.cages 0).map (fun cg => (cg.path pB, cg.path pA)) = some ([[98]], [[97]])) :
    ∃ cg, s.cages plan.c = some cg ∧ plan.tmp ≠ [] ∧ plan.new ≠ [] ∧ cg.path plan.tmp = plan.T ∧ cg.path plan.new = plan.N := by
  cases hc : s.cages 0 with
  | none => rw [hc] at h; cases h
  | some cg =>
    rw [hc] at h
    simp only [Option.map_some, Option.some.injEq, Prod.mk.injEq] at h
    exact ⟨cg, hc, by decide, by decide, h.1, h.2⟩

theorem begun_start : Start plan 9 10 begun where
  reach := edit_reach
  live := rfl
  ne := by decide
  fd := ⟨2#32, Kernel.openOn_of_slot (by decide) (by decide +kernel), by decide, file_of (by decide +kernel)⟩
  paths := paths_of (by decide +kernel)
  dir := ⟨[], [98], [97], rfl, rfl⟩
  tmp := walk_one (by decide +kernel)
  new := walk_one (by decide +kernel)

/-- The editor writes two bytes, process 1 reads two of the old file, the editor writes the rest and renames. -/
def saving : List Move := [.put 2, .other 1 (.read 3 2), .put 100, .swap]

def after (x : Conf) (ms : List Move) : Conf := ms.foldl (next plan) x

theorem read_panics {s : State} (h : (step s 1 (.read 3 2)).2.ret = .ok 2) : (step s 1 (.read 3 2)).2.ret ≠ .panic := by
  rw [h]; exact fun a => nomatch a

theorem runs_of {x : Conf} (h1 : Fair plan 9 10 (next plan x (.put 2)) (.other 1 (.read 3 2))) : Runs plan 9 10 x saving (after x saving) :=
  .cons (by show 2 < 2147483648; decide) (.cons h1 (.cons (by show 100 < 2147483648; decide) (.cons trivial (.nil _))))

theorem fair_read {s : State} (hr : Reach s) (h1 : slot s 1 3 = some (.file 9 0 0#32))
    (h2 : (s.fs.inodes 9).map (fun nd => (nd.kind, nd.size)) = some (.file, 3)) (h3 : (step s 1 (.read 3 2)).2.ret = .ok 2) {l : List UInt8} {d : Bool} :
    Fair plan 9 10 ⟨s, l, d⟩ (.other 1 (.read 3 2)) :=
  ⟨fun _ => ⟨tame_read _ _ _ _, read_panics h3⟩,
    reader_kept hr (by decide) (Kernel.openOn_of_slot (by decide) h1) (file_of h2) (by decide) (by decide) (by decide)⟩

theorem saving_runs : Runs plan 9 10 begun saving (after begun saving) := by
  refine runs_of (fair_read ?_ (by decide +kernel) (by decide +kernel) (by decide +kernel))
  obtain ⟨f, h⟩ := begun_start.ok
  exact (h.put rfl 2 (by decide)).1.reach

/-- The file is saved; process 1 goes on reading the old bytes; who opens the name now reads the new. -/
example : (after begun saving).done = true ∧ bytes (after begun saving).s 9 = [1, 2, 3] ∧ bytes (after begun saving).s 10 = [7, 8, 9, 10, 11] ∧
    (step (after begun saving).s 1 (.read 3 9)).2.data = [3] ∧
    (step (run (after begun saving).s [(1, .openP pA 0#32 0#32)]) 1 (.read 4 9)).2.data = [7, 8, 9, 10, 11] := by
  refine ⟨?_, ?_, ?_, ?_, ?_⟩ <;> decide +kernel

/-- Before the rename: a beginning of the new content under the other name. -/
example : (after begun [.put 2]).done = false ∧ bytes (after begun [.put 2]).s 10 = [7, 8] ∧ (after begun [.put 2]).left = [9, 10, 11] ∧
    (after begun [.put 2, .put 100]).left = [] := by
  refine ⟨?_, ?_, ?_, ?_⟩ <;> decide +kernel

/-- The session of `replace_crash_partial`. -/
example : Sess (fun _ => False) (snapOf format) edit ∧ IsFile edit 9 3 :=
  ⟨Sess.run .init editOps (by decide +kernel) (.inr (by decide +kernel)), file_of (by decide +kernel)⟩

/-- `rename_over_partial` and `crash_over_partial`: the two names. -/
example : ∃ cg, edit.cages 0 = some cg ∧ Leads edit cg pB 10 ∧ Leads edit cg pA 9 ∧ cg.path pB = [] ++ [[98]] ∧ cg.path pA = [] ++ [[97]] := by
  obtain ⟨cg, hc, -, -, h3, h4⟩ := begun_start.paths
  have h3 : cg.path pB = [[98]] := h3
  have h4 : cg.path pA = [[97]] := h4
  refine ⟨cg, hc, ?_, ?_, h3, h4⟩
  · unfold Leads; rw [h3]; exact begun_start.tmp
  · unfold Leads; rw [h4]; exact begun_start.new

/-- C103 fails at a clean shutdown: `rename` records the new name as that of a unix socket, and the shutdown deletes it.  After the next start the
file is there under neither name: neither the old content nor the new. -/
theorem replace_shutdown_violated : let s := run (after begun saving).s [(0, .close 3)]
    found s pA = .ok 0 ∧ (finalize s).2 = .ok 0 ∧
    ∃ s', reboot (stopped s) = some s' ∧ found s' pA = .err .ENOENT ∧ found s' pB = .err .ENOENT := by
  refine ⟨by decide +kernel, by decide +kernel, _, reboot_stopped _, by decide +kernel, by decide +kernel⟩

/-- C103 fails at a shutdown while the editor still has the file open: the file is deleted first, and when the descriptor is closed there is nothing to
close; the shutdown aborts before it has written the metadata. -/
theorem replace_shutdown_aborts_violated : let s := (after begun saving).s
    found s pA = .ok 0 ∧ (finalize s).2 = .panic := by
  refine ⟨by decide +kernel, by decide +kernel⟩

/-- C103.  The old file stays for ever: when the last descriptor is closed it has no name, but its link count is 1 and its bytes are on the disk; the
directory's link count is one too high. -/
theorem replace_leak_violated : let s := run (after begun saving).s [(1, .close 3), (0, .close 3)]
    numNames s 9 = 0 ∧ countSlots s.cages (isFileOf 9) = 0 ∧ (s.fs.inodes 9).map (fun d => (d.link, d.ref)) = some (1, 0) ∧ bytes s 9 = [1, 2, 3] ∧
    (s.fs.inodes 1).map (fun d => (d.link, d.ents.length)) = some (7, 5) := by
  refine ⟨?_, ?_, ?_, ?_, ?_⟩ <;> decide +kernel

end Verif.Replace
