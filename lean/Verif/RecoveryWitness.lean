import Verif.RecoveryProps

/-!
# Recovery: states that meet the hypotheses, and states that break the properties

Every broken property is shown on a history that the interface allows.
-/

namespace Verif.Recovery
open Verif.Path Verif.Fs Verif.Kernel

/-! ## Concrete sessions -/

/-- The call does not ask for `O_TRUNC`. -/
def noTrunc : Op → Bool
  | .openP _ f _ => f &&& oTRUNC != oTRUNC
  | _ => true

theorem Sess.run {D : Nat → Prop} {b : Snap} {s : State} (hs : Sess D b s) (h : List (Nat × Op)) (hb : runB s h = true)
    (hn : (∀ i, D i) ∨ h.all (fun x => noTrunc x.2) = true) : Sess D b (Kernel.run s h) := by
  induction h generalizing s with
  | nil => exact hs
  | cons x h ih =>
    obtain ⟨c, op⟩ := x
    simp only [runB, Bool.and_eq_true, decide_eq_true_eq] at hb
    refine ih (.step c op hs (tameB_tame hb.1.1) hb.1.2 ?_) hb.2 ?_
    · intro i hi
      rcases hn with hn | hn
      · exact hn i
      · simp only [List.all_cons, Bool.and_eq_true] at hn
        have h1 := hn.1
        unfold Cuts at hi
        cases op <;> first | exact hi.elim | skip
        simp only [noTrunc, bne_iff_ne, ne_eq] at h1
        exact absurd hi.1 h1
    · rcases hn with hn | hn
      · exact .inl hn
      · simp only [List.all_cons, Bool.and_eq_true] at hn; exact .inr hn.2

/-- The size that `stat` reports to cage 0. -/
def sizeOf? (s : State) (p : Str) : Option Nat := ((step s 0 (.stat p)).2.stat).map Stat.size
/-- The return value of `stat` in cage 0. -/
def found (s : State) (p : Str) : Ret := (step s 0 (.stat p)).2.ret

/-- `/b`. -/
def pB : Str := [47, 98]
/-- `/d`. -/
def pD : Str := [47, 100]
/-- `/d/a`. -/
def pDA : Str := [47, 100, 47, 97]
/-- `/d/b`. -/
def pDB : Str := [47, 100, 47, 98]

/-- A directory, a file in it with two names, one of them removed again, a change of mode, and an open file without name. -/
def work : List (Nat × Op) :=
  [(0, .mkdir pD 0o777#32), (0, .openP pDA 0o102#32 0o666#32), (0, .write 3 [1, 2, 3]), (1, .link pDA pDB), (1, .chmod pDB 0o600#32),
   (0, .openP pA 0o102#32 0o666#32), (0, .write 4 [7]), (0, .unlink pA), (0, .unlink pDA)]

theorem work_sess : Sess (fun _ => False) (snapOf format) (Kernel.run init work) :=
  Sess.run .init work (by decide +kernel) (.inr (by decide +kernel))

/-- C26 and C28 are about states like this one: after the crash `/d/b` has its 3 bytes and mode 0600, `/d/a` and `/a` are gone. -/
example : ∃ s', reboot (diskOf (snapOf format) (Kernel.run init work).fs) = some s' ∧
    sizeOf? s' pDB = some 3 ∧ found s' pDA = .err .ENOENT ∧ s'.fs.disk 10 = some [1, 2, 3] ∧
    (Kernel.run init work).fs.inodes 11 ≠ none ∧ s'.fs.inodes 11 = none := by
  refine ⟨_, reboot_crash _ _, by decide +kernel, by decide +kernel, by decide +kernel, ?_, ?_⟩
  · rw [← Option.isSome_iff_ne_none]; decide +kernel
  · rw [← Option.isNone_iff_eq_none]; decide +kernel

/-- C53 is about states like this one. -/
example : Life (snapOf format) (Kernel.run init work) ∧ (Kernel.run init work).fs.dom = [] := ⟨work_sess.life, by decide +kernel⟩

/-- C16: a life with a clean restart and a crash after it. -/
example : ∃ b1 s1 b2 s2, Later (snapOf format) (Kernel.run init work) b1 s1 ∧ Later b1 s1 b2 s2 ∧
    Kernel.Exists (Kernel.run init work) 11 ∧ ¬ Kernel.Exists s1 11 := by
  have hd : (Kernel.run init work).fs.dom = [] := by decide +kernel
  have h1 := Later.restart (.refl (snapOf format) (Kernel.run init work)) hd (reboot_stopped _)
  have hs := Sess.restart (D := fun _ => False) work_sess.life hd
  refine ⟨_, _, _, _, h1, Later.crash (.refl _ _) (sess_synced hs) (reboot_crash _ _), ?_, ?_⟩
  · unfold Kernel.Exists; rw [← Option.isSome_iff_ne_none]; decide +kernel
  · unfold Kernel.Exists
    simp only [ne_eq, Decidable.not_not]
    rw [← Option.isNone_iff_eq_none]; decide +kernel

/-! ## C26 -/

/-- A file of 3 bytes is opened with `O_TRUNC`. -/
def cutting : List (Nat × Op) :=
  [(0, .openP pA 0o102#32 0o666#32), (0, .write 3 [1, 2, 3]), (0, .openP pA 0o1002#32 0o666#32)]

/-- C26 fails for the size of a file emptied by an open: the new size is not logged. The old size comes back, but not the content. -/
theorem crash_size_violated : Sess (fun _ => True) (snapOf format) (Kernel.run init cutting) ∧
    sizeOf? (Kernel.run init cutting) pA = some 0 ∧
    ∃ s', reboot (diskOf (snapOf format) (Kernel.run init cutting).fs) = some s' ∧ sizeOf? s' pA = some 3 ∧ s'.fs.disk 9 = some [] :=
  ⟨Sess.run .init cutting (by decide +kernel) (.inl (fun _ => trivial)), by decide +kernel, _, reboot_crash _ _, by decide +kernel,
    by decide +kernel⟩

/-- A directory is removed while it is open. -/
def leaving : List (Nat × Op) := [(0, .mkdir pA 0o777#32), (0, .openP pA 0o0#32 0o0#32), (0, .rmdir pA)]

/-- C26 fails for directories without a name: one that was open when it was removed is still there after the crash, for ever. -/
theorem crash_reclaim_violated : Sess (fun _ => False) (snapOf format) (Kernel.run init leaving) ∧
    found (Kernel.run init leaving) pA = .err .ENOENT ∧
    ∃ s', reboot (diskOf (snapOf format) (Kernel.run init leaving).fs) = some s' ∧ s'.fs.inodes 9 ≠ none ∧
      nameCount s'.fs.inodes s'.fs.next 9 = 0 := by
  refine ⟨Sess.run .init leaving (by decide +kernel) (.inr (by decide +kernel)), by decide +kernel, _, reboot_crash _ _, ?_, by decide +kernel⟩
  rw [← Option.isSome_iff_ne_none]; decide +kernel

/-! ## C28, C16 -/

/-- One new directory. -/
def making : List (Nat × Op) := [(0, .mkdir pA 0o777#32)]

/-- C28 fails right after recovery: the log has been removed and the metadata file not written, so a second crash takes back everything that
happened before the first.  C16 fails with it: the number of the lost directory is given out again. -/
theorem second_crash_violated : Sess (fun _ => False) (snapOf format) (Kernel.run init making) ∧
    ∃ s1 s2, reboot (diskOf (snapOf format) (Kernel.run init making).fs) = some s1 ∧
      reboot (diskOf (snapOf format) s1.fs) = some s2 ∧
      found s1 pA = .ok 0 ∧ found s2 pA = .err .ENOENT ∧
      Kernel.Exists s1 9 ∧ ¬ Kernel.Exists s2 9 ∧ Kernel.Exists (step s2 0 (.mkdir pB 0o777#32)).1 9 := by
  refine ⟨Sess.run .init making (by decide +kernel) (.inr (by decide +kernel)), _, _, reboot_crash _ _, reboot_crash _ _,
    by decide +kernel, by decide +kernel, ?_, ?_, ?_⟩
  · unfold Kernel.Exists; rw [← Option.isSome_iff_ne_none]; decide +kernel
  · unfold Kernel.Exists
    simp only [ne_eq, Decidable.not_not]
    rw [← Option.isNone_iff_eq_none]; decide +kernel
  · unfold Kernel.Exists; rw [← Option.isSome_iff_ne_none]; decide +kernel

/-- C28 fails during recovery, between the removal of the log and the end of recovery. -/
theorem recovery_crash_violated : ∃ d', d' ∈ loadDisks (diskOf (snapOf format) (Kernel.run init making).fs) ∧
    ∃ s1 s2, reboot (diskOf (snapOf format) (Kernel.run init making).fs) = some s1 ∧ reboot d' = some s2 ∧
      found s1 pA = .ok 0 ∧ found s2 pA = .err .ENOENT :=
  ⟨{ diskOf (snapOf format) (Kernel.run init making).fs with log := none }, by simp [loadDisks, diskOf], _, _, reboot_crash _ _, rfl,
    by decide +kernel, by decide +kernel⟩

/-- C28 fails during shutdown: between the removal of the metadata file and its rewriting a crash loses the whole file system, and a crash
while it is being written leaves a system that cannot start. -/
theorem shutdown_crash_violated :
    ∃ d1 d2, d1 ∈ stopDisks (diskOf (snapOf format) (finalize (Kernel.run init making)).1.fs) (snapOf (finalize (Kernel.run init making)).1.fs) ∧
      d2 ∈ stopDisks (diskOf (snapOf format) (finalize (Kernel.run init making)).1.fs) (snapOf (finalize (Kernel.run init making)).1.fs) ∧
      found (Kernel.run init making) pA = .ok 0 ∧ (∃ s1, reboot d1 = some s1 ∧ found s1 pA = .err .ENOENT) ∧ reboot d2 = none :=
  ⟨{ diskOf (snapOf format) (finalize (Kernel.run init making)).1.fs with snap := .missing },
    { diskOf (snapOf format) (finalize (Kernel.run init making)).1.fs with snap := .torn }, by simp [stopDisks], by simp [stopDisks],
    by decide +kernel, ⟨_, rfl, by decide +kernel⟩, rfl⟩

/-! ## C53 -/

/-- A file is renamed. -/
def renamed : List (Nat × Op) := [(0, .openP pA 0o102#32 0o666#32), (0, .close 3), (0, .rename pA pB)]

/-- C53 fails for whatever was renamed: rename records the new path as that of a unix socket, and the shutdown deletes it. -/
theorem shutdown_deletes_violated : Reach (Kernel.run init renamed) ∧ found (Kernel.run init renamed) pB = .ok 0 ∧
    (finalize (Kernel.run init renamed)).2 = .ok 0 ∧
    ∃ s', reboot (stopped (Kernel.run init renamed)) = some s' ∧ found s' pB = .err .ENOENT :=
  ⟨Reach.init.run renamed (by decide +kernel), by decide +kernel, by decide +kernel, _, reboot_stopped _, by decide +kernel⟩

/-- A file is renamed and then the directory it is in. -/
def moving : List (Nat × Op) :=
  [(0, .mkdir pD 0o777#32), (0, .openP pDA 0o102#32 0o666#32), (0, .close 3), (0, .rename pDA pDB), (0, .rename pD pA)]

/-- C53 fails: a shutdown can abort. -/
theorem shutdown_aborts_violated : Reach (Kernel.run init moving) ∧ (finalize (Kernel.run init moving)).2 = .panic :=
  ⟨Reach.init.run moving (by decide +kernel), by decide +kernel⟩

end Verif.Recovery
