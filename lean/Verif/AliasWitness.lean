import Verif.AliasProps
import Verif.MailboxWitness
import Verif.NamesKeptWitness
import Verif.RecoveryWitness

/-! # The names of a file after a crash, and a case (property C117) -/

namespace Verif.Alias
open Verif.Fs Verif.Kernel Verif.Path Verif.Recovery

/-- C117.  After a crash and the next start names of one object are names of one object still, and names of different objects are not.  Partial: the crash is
between two calls, and the system had been started on a new disk or after a clean shutdown. -/
theorem alias_crash_partial {D : Nat → Prop} {b : Snap} {s : State} (hs : Sess D b s) :
    ∃ s1, reboot (diskOf b s.fs) = some s1 ∧ ∀ q q' : List Name, (∀ n ∈ q, Good n) → (∀ n ∈ q', Good n) → ∀ i,
      (Walk s1.fs.inodes rootIno q i ∧ Walk s1.fs.inodes rootIno q' i) ↔ (Walk s.fs.inodes rootIno q i ∧ Walk s.fs.inodes rootIno q' i) := by
  obtain ⟨s1, e, ht⟩ := crash_paths_partial hs
  exact ⟨s1, e, fun q q' hq hq' i => by rw [(ht q hq i).1, (ht q' hq' i).1]⟩

/-! ## A case -/

/-- `/a` -/
def pA : Str := [47, 97]
/-- `/d` -/
def pD : Str := [47, 100]
/-- `/d/b` -/
def pB : Str := [47, 100, 47, 98]

/-- A way to check it. -/
theorem both_of {s : State} (hR : Reach s) {p p' : Str} (hp : p ≠ []) (hp' : p' ≠ []) {i : Nat}
    (h : ((s.cages 0).map fun cg => ((match s.fs.walk (cg.path p) with | some (some j, _) => decide (j = i) | _ => false),
      (match s.fs.walk (cg.path p') with | some (some j, _) => decide (j = i) | _ => false))) = some (true, true)) : Both s 0 p p' := by
  cases hc : s.cages 0 with
  | none => rw [hc] at h; cases h
  | some cg =>
    rw [hc] at h
    simp only [Option.map_some, Option.some.injEq, Prod.mk.injEq] at h
    exact ⟨hp, hp', cg, i, hc, Mailbox.leads_of hR hc h.1, Mailbox.leads_of hR hc h.2⟩

/-- `/a` with three bytes, and a directory. -/
def before : List (Nat × Op) := [(0, .openP pA 0o102#32 0o644#32), (0, .write 3 [1, 2, 3]), (0, .mkdir pD 0o755#32)]

/-- The file has the names `/a` and `/d/b`. -/
def linked : State := (step (run init before) 0 (.link pA pB)).1

theorem before_reach : Reach (run init before) := Reach.run .init _ (by decide +kernel)

theorem linked_both : Both linked 0 pA pB := alias_made before_reach (v := 0) (by decide +kernel)

theorem linked_reach : Reach linked :=
  .step 0 _ before_reach (by generalize run init before = z; unfold Tame; split <;> trivial) (by decide +kernel)

/-- `/a` is opened, cut and described. -/
def work : List (Nat × Op) := [(0, .openP pA 0o2#32 0#32), (0, .truncate pA 1), (0, .stat pA)]

/-- The hypotheses are met: the three calls with `/d/b` instead, or with the names mixed, are the same calls. -/
example : run linked [(0, .openP pB 0o2#32 0#32), (0, .truncate pA 1), (0, .stat pB)] = run linked work ∧
    answers linked work = [.r (.ok 4), .r (.ok 0), { ret := .ok 0, stat := some ⟨9, 0o100644#32, 2, 1, 0⟩ }] := by
  have w : Swapped linked work [(0, .openP pB 0o2#32 0#32), (0, .truncate pA 1), (0, .stat pB)] :=
    .cons (.open_ _ _ linked_both) (.cons (.same _) (.cons
      (.stat (both_of (s := run linked [(0, .openP pA 0o2#32 0#32), (0, .truncate pA 1)]) (Reach.run linked_reach _ (by decide +kernel)) (by decide) (by decide) (i := 9)
        (by decide +kernel))) (.nil _)))
  exact ⟨(alias_history_partial linked_reach (runB_calm (by decide +kernel)) w).1, by decide +kernel⟩

/-- `/d/c` -/
def pC : Str := [47, 100, 47, 99]

/-- Cage 1 makes a third name and removes it, and cage 0 writes. -/
def busy : List (Nat × Op) := [(1, .link pA pC), (0, .write 3 [7]), (1, .unlink pC), (1, .chmod pB 0o600#32)]

/-- The two names stay. -/
example : Both (run linked busy) 0 pA pB := by
  obtain ⟨-, -, cg, i, hc, -, -⟩ := linked_both
  have h1 : ((linked.cages 0).bind fun cg => ((run linked busy).cages 0).map fun cg' => (decide (cg'.cwd = cg.cwd),
      decide (∀ q ∈ takesAll linked busy, ¬ q <+: cg.path pA ∧ ¬ q <+: cg.path pB))) = some (true, true) := by decide +kernel
  rw [hc] at h1
  cases hc' : (run linked busy).cages 0 with
  | none => rw [hc'] at h1; cases h1
  | some cg' =>
    rw [hc'] at h1
    simp only [Option.bind_some, Option.map_some, Option.some.injEq, Prod.mk.injEq, decide_eq_true_eq] at h1
    exact alias_lasts_partial linked_reach (Runs.of (by decide +kernel)) hc hc' h1.1 linked_both h1.2

/-- `/d/../d` -/
def pDD : Str := [47, 100, 47, 46, 46, 47, 100]

/-- Two ways to write the path of the directory: `chdir` with either does the same, and succeeds. -/
example : step linked 0 (.chdir pDD) = step linked 0 (.chdir pD) ∧ (step linked 0 (.chdir pD)).2 = .r (.ok 0) :=
  ⟨alias_call linked_reach (.chdir (both_of (i := 10) linked_reach (by decide) (by decide) (by decide +kernel))), by decide +kernel⟩

/-- When `/a` is removed, `/d/b` is there with its three bytes. -/
example : ∃ cg i, linked.cages 0 = some cg ∧ Leads (step linked 0 (.unlink pA)).1 cg pB i ∧ bytes (step linked 0 (.unlink pA)).1 i = bytes linked i := by
  obtain ⟨-, -, cg, i, hc, ha, hb⟩ := linked_both
  have hne : ((linked.cages 0).map fun cg => decide (cg.path pB ≠ cg.path pA)) = some true := by decide +kernel
  rw [hc] at hne
  obtain ⟨h1, h2, -⟩ := alias_unlink_partial linked_reach hc hc hb ha (by simpa using hne) (by decide +kernel)
  exact ⟨cg, i, hc, h1, h2⟩

/-- After a crash both names are there. -/
example : ∃ s1, reboot (diskOf (snapOf format) linked.fs) = some s1 ∧ ∃ i, Walk s1.fs.inodes rootIno [[97]] i ∧ Walk s1.fs.inodes rootIno [[100], [98]] i := by
  have hs : Sess (fun _ => False) (snapOf format) linked :=
    Sess.run .init (before ++ [(0, .link pA pB)]) (by decide +kernel) (.inr (by decide +kernel))
  obtain ⟨s1, e, h⟩ := alias_crash_partial hs
  obtain ⟨-, -, cg, i, hc, ha, hb⟩ := linked_both
  have hp : ((linked.cages 0).map fun cg => (cg.path pA, cg.path pB)) = some ([[97]], [[100], [98]]) := by decide +kernel
  rw [hc] at hp
  simp only [Option.map_some, Option.some.injEq, Prod.mk.injEq] at hp
  unfold Leads at ha hb
  rw [hp.1] at ha; rw [hp.2] at hb
  exact ⟨s1, e, i, (h _ _ (by decide) (by decide) i).2 ⟨ha, hb⟩⟩

end Verif.Alias
