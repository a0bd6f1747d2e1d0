import Verif.ScratchWitness
import Verif.RecoveryWitness

/-! # What a crash and a shutdown leave of a file without a name (property C116) -/

namespace Verif.Scratch
open Verif.Fs Verif.Kernel Verif.Path Verif.Confine Verif.FsTools Verif.Recovery

/-! ## Lemmas -/

theorem walk_sub {a a' : Nat → Option Inode} {d e : Nat} {ns : List Name} (hsub : ∀ i nd', a' i = some nd' → ∃ nd, a i = some nd ∧ SamePlace nd' nd)
    (hw : Walk a' d ns e) : Walk a d ns e := by
  induction hw with
  | here => exact .here _
  | down h1 h2 h3 _ ih =>
    obtain ⟨nd, g1, g2, -, g3⟩ := hsub _ _ h1
    refine .down g1 ?_ (by rw [← g3]; exact h3) ih
    simp only [Inode.isDir] at h2 ⊢; rw [← g2]; exact h2

/-- A number that the metadata does not have, and that is not to be given, is never one of a file. -/
theorem stays_away {b : Snap} {disk : Nat → Option (List UInt8)} {i : Nat} (h : b.inodes i = none) (hlt : i < b.next) (more : List (Nat × Op)) :
    (run (boot (start b disk)) more).fs.inodes i = none := by
  obtain ⟨-, hnext, hat⟩ := boot_at (start b disk) i
  cases hnd : (run (boot (start b disk)) more).fs.inodes i with
  | none => rfl
  | some nd =>
    rcases (run_exists (i := i) (h := more) (by unfold Kernel.Exists; rw [hnd]; simp)).2 with g | g
    · rcases hat with ⟨-, h2⟩ | ⟨x, r, h1, -⟩
      · exact absurd h2 g
      · simp only [start] at h1; rw [h] at h1; cases h1
    · rw [hnext] at g
      have g' : b.next ≤ i := g
      omega

/-! ## Theorems -/

/-- C116.  The process dies while the file is held: after the restart there is no such file, no path leads to it, and no file made later gets its number, under which
its bytes are kept.  Partial: the crash is between two calls, and the system had been started on a new disk or after a clean shutdown. -/
theorem scratch_crash_partial {E : Nat → Prop} {i : Nat} {s : State} (h : Start E i s) {hist : List (Nat × Op)} (hc : Calm s hist) {D : Nat → Prop} {b : Snap}
    (hs : Sess D b (run s hist)) :
    ∃ s1, reboot (diskOf b (run s hist).fs) = some s1 ∧ NoPath s1 i ∧ ∀ more, (run s1 more).fs.inodes i = none := by
  obtain ⟨hR, hn, -, hb⟩ := walk_on h.reach h.bound h.nameless h.only hc
  have T := hR.inv.fs.tree
  have hP := sess_pend hs
  have gone : (recover b (run s hist).fs.log).inodes i = none := by
    cases hr : (recover b (run s hist).fs.log).inodes i with
    | none => rfl
    | some nd' =>
      obtain ⟨nd, h1, h2, -⟩ := (crash_table hP T).1 i nd' hr
      obtain ⟨n, nd0, hnd0, hk0, -⟩ := h.file
      obtain ⟨nd1, e1, e2⟩ := StatBuf.run_kind hist h.bound h1
      rw [hnd0] at e1; cases e1
      have hk : nd.kind = .file := e2.trans hk0
      have hl := nlink_is_names hR h1 (by rw [hk]; simp)
      rw [noNames hR hn] at hl
      simp [keeps, hk, hl] at h2
  refine ⟨_, reboot_crash b _, ?_, fun more => ?_⟩
  · intro q hq w
    refine hn q hq (walk_sub (fun k nd' hk => ?_) w)
    obtain ⟨-, -, ⟨h1, h2⟩ | ⟨x, r, h1, h2⟩⟩ := boot_at (start (recover b (run s hist).fs.log) (run s hist).fs.disk) k
    · rw [h2] at hk; cases hk
    · rw [h2] at hk; cases hk
      obtain ⟨nd, g1, -, g2⟩ := (crash_table hP T).1 k x h1
      exact ⟨nd, g1, (view_place g2).1⟩
  · exact stays_away gone (Nat.lt_of_lt_of_le hb hP.next) more

/-- C116.  The system is shut down while the file is held: its bytes are removed from the disk, and after the restart it is as after a crash.  Partial: no path is
recorded as that of a unix socket. -/
theorem scratch_shutdown_partial {E : Nat → Prop} {i : Nat} {s : State} (h : Start E i s) {hist : List (Nat × Op)} (hc : Calm s hist)
    (hd : (run s hist).fs.dom = []) :
    (finalize (run s hist)).2 = .ok 0 ∧ (stopped (run s hist)).files i = none ∧
    ∃ s1, reboot (stopped (run s hist)) = some s1 ∧ NoPath s1 i ∧ ∀ more, (run s1 more).fs.inodes i = none := by
  obtain ⟨hR, hn, -, hb⟩ := walk_on h.reach h.bound h.nameless h.only hc
  have hx := exitAll_fs hR.inv
  have hs := Shed.exitAll maxCage (run s hist)
  rw [reboot_stopped]
  simp only [stopped]
  rw [finalize_eq hd]
  refine ⟨(exitAll_inv hR.inv maxCage).2.1, ?_⟩
  generalize (exitAll maxCage (run s hist)).1.fs = g at hs hx
  have gone : g.inodes i = none := by
    rcases hs.at_ i with ⟨-, p2⟩ | ⟨nd, -, -, p2⟩ | ⟨nd, r, p1, p2, p3⟩
    · exact p2
    · exact p2
    · exfalso
      have hk : nd.kind = .file := by
        obtain ⟨n, nd0, hnd0, hk0, -⟩ := h.file
        obtain ⟨nd1, e1, e2⟩ := StatBuf.run_kind hist h.bound p1
        rw [hnd0] at e1; cases e1
        exact e2.trans hk0
      have hl := nlink_is_names hR p1 (by rw [hk]; simp)
      rw [noNames hR hn] at hl
      have := hx.loc i
      simp only [LocalAt, p2, hk, hl] at this
      omega
  have gone' : (snapOf g).inodes i = none := by simp only [snapOf, gone, Option.map_none]
  refine ⟨by have := hx.loc i; rw [gone] at this; exact this.2.1, _, rfl, ?_, fun more => ?_⟩
  · intro q hq w
    refine hn q hq (walk_sub (fun k nd' hk => ?_) w)
    obtain ⟨-, -, ⟨h1, h2⟩ | ⟨x, r, h1, h2⟩⟩ := boot_at (start (snapOf g) g.disk) k
    · rw [h2] at hk; cases hk
    · rw [h2] at hk; cases hk
      simp only [start, snapOf] at h1
      rcases hs.at_ k with ⟨-, p2⟩ | ⟨nd, -, -, p2⟩ | ⟨nd, r, p1, p2, -⟩
      · rw [p2] at h1; cases h1
      · rw [p2] at h1; cases h1
      · rw [p2] at h1; cases h1; exact ⟨nd, p1, rfl, rfl, rfl⟩
  · refine stays_away gone' ?_ more
    rw [show (snapOf g).next = (run s hist).fs.next from hs.next]; exact hb

/-! ## The case: the process dies while cages 0 and 2 hold the file -/

theorem story_sess : Sess (fun _ => False) (snapOf format) (run begun story) :=
  Sess.run (Sess.run .init [(0, .openP pX 0o302#32 0o600#32), (0, .unlink pX)] (by decide +kernel) (.inr (by decide +kernel))) story (by decide +kernel)
    (.inr (by decide +kernel))

/-- The hypotheses are met.  The file that cage 1 made is still there, with its bytes. -/
example : ∃ i s1, reboot (diskOf (snapOf format) (run begun story).fs) = some s1 ∧ NoPath s1 i ∧ (∀ more, (run s1 more).fs.inodes i = none) ∧
    bytes (run begun story) i = [1, 2, 3] := by
  obtain ⟨i, hS, ho⟩ := begun_start
  have hi : i = 9 := by
    obtain ⟨-, cg, hc, hd⟩ := ho
    have : ((begun.cages 0).bind (·.fds 3)) = some (.file 9 0 2#32) := by decide +kernel
    rw [hc] at this
    simp only [Option.bind_some, hd, Option.some.injEq, Desc.file.injEq] at this
    exact this.1
  obtain ⟨s1, e, h1, h2⟩ := scratch_crash_partial hS story_calm story_sess
  exact ⟨i, s1, e, h1, h2, by rw [hi]; decide +kernel⟩

/-- The same for a shutdown. -/
example : ∃ i, (stopped (run begun story)).files i = none ∧ bytes (run begun story) i = [1, 2, 3] := by
  obtain ⟨i, hS, ho⟩ := begun_start
  have hi : i = 9 := by
    obtain ⟨-, cg, hc, hd⟩ := ho
    have : ((begun.cages 0).bind (·.fds 3)) = some (.file 9 0 2#32) := by decide +kernel
    rw [hc] at this
    simp only [Option.bind_some, hd, Option.some.injEq, Desc.file.injEq] at this
    exact this.1
  exact ⟨i, (scratch_shutdown_partial hS story_calm (by decide +kernel)).2.1, by rw [hi]; decide +kernel⟩

end Verif.Scratch
