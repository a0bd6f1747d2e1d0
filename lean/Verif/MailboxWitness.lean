import Verif.MailboxProps
import Verif.LockFileProps

/-!
# Handing over work under a name: a concrete case (C112)
-/

namespace Verif.Mailbox
open Verif.Fs Verif.Kernel Verif.Path Verif.Recovery

/-- `/tmp/j`, `j` relative to `/tmp`; the poster's `/tmp/a` and `/tmp/b`; the workers' `/tmp/v` and `w`. -/
def jAbs : Str := [47, 116, 109, 112, 47, 106]
def jRel : Str := [106]
def pA : Str := [47, 116, 109, 112, 47, 97]
def pB : Str := [47, 116, 109, 112, 47, 98]
def pV : Str := [47, 116, 109, 112, 47, 118]
def rW : Str := [119]
def jobN : List Name := [[116, 109, 112], [106]]

/-- Two processes, the second in `/tmp`; the first has written two jobs under private names. -/
def made : State := run init [(1, .chdir [47, 116, 109, 112]), (0, .openP pA 0o102#32 0o644#32), (0, .write 3 [1, 2, 3]), (0, .close 3),
  (0, .openP pB 0o102#32 0o644#32), (0, .write 3 [4, 5]), (0, .close 3)]

theorem made_reach : Reach made := Reach.init.run _ (by decide +kernel)

def begun : Conf := ⟨made, [], []⟩

theorem missing_of {s : State} (hR : Reach s) {c : Nat} {cg : Cage} (hc : s.cages c = some cg) {p : Str}
    (hw : (match s.fs.walk (cg.path p) with | some (none, _) => true | _ => false) = true) (j : Nat) : ¬ Leads s cg p j := by
  intro hl
  obtain ⟨par, hr, -⟩ := hR.inv.walk_found hc hl
  rw [hr] at hw; cases hw

theorem leads_of {s : State} (hR : Reach s) {c : Nat} {cg : Cage} (hc : s.cages c = some cg) {p : Str} {i : Nat}
    (hw : (match s.fs.walk (cg.path p) with | some (some j, _) => decide (j = i) | _ => false) = true) : Leads s cg p i := by
  obtain ⟨r, hr, hlook⟩ := look hR.inv.fs.tree (cg.path p) (hR.inv.gp hc p)
  rw [hr] at hw
  cases hlook with
  | root e => have := of_decide_eq_true hw; subst this; unfold Leads; rw [e]; exact .here _
  | gone => cases hw
  | free => cases hw
  | found _ _ w => have := of_decide_eq_true hw; subst this; exact w

theorem begun_start : Start jobN begun := by
  refine ⟨made_reach, rfl, rfl, by intro n hn; revert n; decide, ?_⟩
  obtain ⟨cg, hc, hp, hw⟩ : ∃ cg, made.cages 0 = some cg ∧ cg.path jAbs = jobN ∧
      (match made.fs.walk (cg.path jAbs) with | some (none, _) => true | _ => false) = true := ⟨_, rfl, by decide +kernel, by decide +kernel⟩
  intro k hk
  exact missing_of made_reach hc hw k (by unfold Leads; rw [hp]; exact hk)

/-- The first posts a job and removes its own name; it cannot post the second one over it; the second process claims the first job; the first process
claims in vain, posts the second one and claims it itself. -/
def story : List Move :=
  [.post 0 pA jAbs, .other 0 (.unlink pA), .post 0 pB jAbs, .claim 1 jRel rW, .claim 0 jAbs pV, .post 0 pB jAbs, .claim 0 jAbs pV]

def s1 : State := (step made 0 (.link pA jAbs)).1
def s2 : State := (step s1 0 (.unlink pA)).1
def s3 : State := (step s2 0 (.link pB jAbs)).1
def s4 : State := (step s3 1 (.rename jRel rW)).1
def s5 : State := (step s4 0 (.rename jAbs pV)).1
def s6 : State := (step s5 0 (.link pB jAbs)).1
def s7 : State := (step s6 0 (.rename jAbs pV)).1

theorem r1 : Reach s1 := .step 0 _ made_reach trivial (by decide +kernel)
theorem r2 : Reach s2 := by
  obtain ⟨cg, hc, hp⟩ : ∃ cg, s1.cages 0 = some cg ∧ (match s1.fs.walk (cg.path pA) with
      | some (_, some par) => (match s1.fs.inodes par with | some nd => decide (nd.mode &&& 0o222#32 ≠ 0#32) | none => false)
      | _ => false) = true := ⟨_, rfl, by decide +kernel⟩
  refine .step 0 _ r1 (LockFile.give_tame r1 hc (LockFile.writable_of r1 (r1.inv.gp hc pA) hp)) (by decide +kernel)

def free (s : State) (c : Nat) (p : Str) : Bool :=
  match s.cages c with
  | some cg => (match s.fs.walk (cg.path p) with | some (none, _) => true | _ => false)
  | none => false

theorem free_fair {s : State} (hR : Reach s) {c : Nat} {p q : Str} {N : List Name} (hp : ∀ cg, s.cages c = some cg → cg.path p = N)
    (hq : free s c q = true) : ∃ cg, s.cages c = some cg ∧ cg.path p = N ∧ ∀ j, ¬ Leads s cg q j := by
  unfold free at hq
  cases hc : s.cages c with
  | none => rw [hc] at hq; cases hq
  | some cg => rw [hc] at hq; exact ⟨cg, rfl, hp cg hc, missing_of hR hc hq⟩

theorem r3 : Reach s3 := .step 0 _ r2 trivial (by decide +kernel)
theorem f4 : ∃ cg, s3.cages 1 = some cg ∧ cg.path jRel = jobN ∧ ∀ j, ¬ Leads s3 cg rW j :=
  free_fair r3 (by intro cg e; cases e; decide +kernel) (by decide +kernel)
theorem r4 : Reach s4 := by
  obtain ⟨cg, hc, -, hf⟩ := f4
  exact .step 1 _ r3 (rename_tame r3 hc hf) (by decide +kernel)
theorem f5 : ∃ cg, s4.cages 0 = some cg ∧ cg.path jAbs = jobN ∧ ∀ j, ¬ Leads s4 cg pV j :=
  free_fair r4 (by intro cg e; cases e; decide +kernel) (by decide +kernel)
theorem r5 : Reach s5 := by
  obtain ⟨cg, hc, -, hf⟩ := f5
  exact .step 0 _ r4 (rename_tame r4 hc hf) (by decide +kernel)
theorem r6 : Reach s6 := .step 0 _ r5 trivial (by decide +kernel)
theorem f7 : ∃ cg, s6.cages 0 = some cg ∧ cg.path jAbs = jobN ∧ ∀ j, ¬ Leads s6 cg pV j :=
  free_fair r6 (by intro cg e; cases e; decide +kernel) (by decide +kernel)

/-- The hypotheses hold of this story; in the end both jobs are claimed, each by one process. -/
theorem story_runs : Runs jobN begun story ⟨s7, [9, 10], [(1, 9), (0, 10)]⟩ := by
  have w2 : Fair jobN ⟨s1, [9], []⟩ (.other 0 (.unlink pA)) := by
    obtain ⟨cg, hc, hp⟩ : ∃ cg, s1.cages 0 = some cg ∧ (match s1.fs.walk (cg.path pA) with
        | some (_, some par) => (match s1.fs.inodes par with | some nd => decide (nd.mode &&& 0o222#32 ≠ 0#32) | none => false)
        | _ => false) = true := ⟨_, rfl, by decide +kernel⟩
    exact ⟨LockFile.give_tame r1 hc (LockFile.writable_of r1 (r1.inv.gp hc pA) hp), by decide +kernel, by decide +kernel⟩
  refine .cons (y := ⟨s1, [9], []⟩) ⟨_, rfl, by decide +kernel⟩
    (.posted (x := begun) rfl (leads_of (c := 0) made_reach rfl (by decide +kernel)) (by decide +kernel)) ?_
  refine .cons (y := ⟨s2, [9], []⟩) w2 (.other (x := ⟨s1, [9], []⟩)) ?_
  refine .cons (y := ⟨s3, [9], []⟩) ⟨_, rfl, by decide +kernel⟩ (.notPosted (x := ⟨s2, [9], []⟩) (by decide +kernel)) ?_
  refine .cons (y := ⟨s4, [9], [(1, 9)]⟩) f4
    (.claimed (x := ⟨s3, [9], []⟩) rfl (leads_of (c := 1) r3 rfl (by decide +kernel)) (by decide +kernel)) ?_
  refine .cons (y := ⟨s5, [9], [(1, 9)]⟩) f5 (.notClaimed (x := ⟨s4, [9], [(1, 9)]⟩) (by decide +kernel)) ?_
  refine .cons (y := ⟨s6, [9, 10], [(1, 9)]⟩) ⟨_, rfl, by decide +kernel⟩
    (.posted (x := ⟨s5, [9], [(1, 9)]⟩) rfl (leads_of (c := 0) r5 rfl (by decide +kernel)) (by decide +kernel)) ?_
  exact .cons (y := ⟨s7, [9, 10], [(1, 9), (0, 10)]⟩) f7
    (.claimed (x := ⟨s6, [9, 10], [(1, 9)]⟩) rfl (leads_of (c := 0) r6 rfl (by decide +kernel)) (by decide +kernel)) (.nil _)

/-- Nothing is left at the name, and each job has its content. -/
example : (∀ k, ¬ Holds s7 jobN k) ∧ bytes s7 9 = [1, 2, 3] ∧ bytes s7 10 = [4, 5] := by
  refine ⟨fun k hk => ?_, by decide +kernel, by decide +kernel⟩
  have := (mail_exact_partial begun_start story_runs).1 k hk
  simp at this

end Verif.Mailbox
