import Verif.ScratchProps

/-! # How a program gets a file without a name, and a case (property C116) -/

namespace Verif.Scratch
open Verif.Fs Verif.Kernel Verif.Path Verif.Confine Verif.FsTools

/-- C116.  Open a new file and remove its name: what `Start` asks for holds of the new file and the family of the caller alone, and the descriptor that `open`
returned is one for it.  Nothing is asked of the path but that it led nowhere, and nothing of what others have open. -/
theorem scratch_made {s : State} (hR : Reach s) {c : Nat} {cg : Cage} (hc : s.cages c = some cg) {p : Str} {flags mode : BitVec 32}
    (hno : ∀ i, ¬ Leads s cg p i) {v : Int} (hv : (step s c (.openP p flags mode)).2.ret = .ok v)
    (hu : (step (step s c (.openP p flags mode)).1 c (.unlink p)).2.ret = .ok 0) :
    ∃ (i fd : Nat), v = fd ∧ Start (· = c) i (step (step s c (.openP p flags mode)).1 c (.unlink p)).1 ∧
      OpenOn (step (step s c (.openP p flags mode)).1 c (.unlink p)).1 c fd i 0 (flags &&& 0o2000003#32) ∧
      bytes (step (step s c (.openP p flags mode)).1 c (.unlink p)).1 i = [] := by
  obtain ⟨-, i, fd, h1, h2, h3, h4, h5, h6, h7, -⟩ := open_creates hR hc hno hv
  have hR1 : Reach (step s c (.openP p flags mode)).1 := .step c _ hR (by simp only [Tame, hc]) (by rw [hv]; simp)
  have hold : ∀ k, k ≠ c → (step s c (.openP p flags mode)).1.cages k = s.cages k := fun k hk => cage_isolation hk (by simp) (by simp)
  have hcw : ∃ cg1, (step s c (.openP p flags mode)).1.cages c = some cg1 ∧ cg1.cwd = cg.cwd := by
    obtain ⟨-, cg1, e1, -⟩ := h4
    refine ⟨cg1, e1, ?_⟩
    simp only [step, hc, openSys] at e1
    repeat' split at e1
    all_goals first
      | (rw [hc] at e1; cases e1; rfl)
      | (simp only [State.setFd, hc, State.setCage, upd_same, Option.some.injEq] at e1; subst e1; rfl)
  obtain ⟨cg1, hc1, hcwd⟩ := hcw
  have hl : Leads (step s c (.openP p flags mode)).1 cg1 p i := by
    unfold Leads Cage.path; rw [hcwd]; exact h3
  generalize step s c (.openP p flags mode) = r at *
  have hopen : 0 < countSlots r.1.cages (isFileOf i) := by
    rw [← refs_are_descriptors hR1 h5 (by simp) (by simp)]; simp
  obtain ⟨-, -, -, hR2, -⟩ := unlink_ok hR1 hc1 hl h5 hu
  obtain ⟨u1, u2, u3, -, u5, u6⟩ := unlink_open_file hR1 hc1 hl ⟨_, h5, rfl, rfl⟩ hopen hu
  refine ⟨i, fd, h2, ⟨hR2, ⟨_, u2⟩, u6 h7, ?_⟩, (u5 c fd 0 _ 0 0 h4).1, by rw [u3]; exact h6⟩
  rintro k ⟨fd', pos, f, hs⟩
  by_cases hk : k = c
  · exact hk
  · exfalso
    have : Has s k (.file i) := ⟨fd', pos, f, by simpa only [slot, u1, hold k hk] using hs⟩
    obtain ⟨nd, hnd⟩ := has_exists hR this
    rw [h1] at hnd; cases hnd

/-! ## A case -/

/-- `/x` -/
def pX : Str := [47, 120]

/-- Cage 0 opens `/x`, new, and removes the name. -/
def begun : State := run init [(0, .openP pX 0o302#32 0o600#32), (0, .unlink pX)]

theorem begun_start : ∃ i, Start (· = 0) i begun ∧ OpenOn begun 0 3 i 0 2#32 := by
  have hc : ∃ cg, init.cages 0 = some cg := ⟨_, rfl⟩
  obtain ⟨cg, hc⟩ := hc
  have hno : ∀ i, ¬ Leads init cg pX i := by
    intro i hi
    obtain ⟨par, hw, -⟩ := Reach.init.inv.walk_found hc hi
    have : ((init.cages 0).bind fun cg => (init.fs.walk (cg.path pX)).map fun r => r.1.isSome) = some false := by decide +kernel
    simp [hc, hw] at this
  obtain ⟨i, fd, h1, h2, h3, -⟩ := scratch_made (flags := 0o302#32) (mode := 0o600#32) (v := 3) Reach.init hc hno (by decide +kernel) (by decide +kernel)
  have : fd = 3 := by omega
  subst this
  exact ⟨i, h2, h3⟩

/-- What happens then: it writes, forks 2, which writes too; cage 1 makes another `/x`, writes and opens it again. -/
def story : List (Nat × Op) :=
  [(0, .write 3 [1, 2]), (0, .fork 2), (2, .write 3 [3]), (1, .openP pX 0o102#32 0o600#32), (1, .write 3 [9, 9, 9])]

theorem story_calm : Calm begun story := runB_calm (by decide +kernel)

/-- The hypotheses are met: the family is 0 and 2, and cage 1 truncates what is now called `/x`, which is not the file. -/
example : ∃ i, NoPath (run begun story) i ∧ (∀ k fd pos f, OpenOn (run begun story) k fd i pos f → k = 0 ∨ k = 2) ∧
    bytes (step (run begun story) 1 (.truncate pX 0)).1 i = bytes (run begun story) i ∧ (step (run begun story) 1 (.truncate pX 0)).2.ret = .ok 0 ∧
    OpenOn (run begun story) 0 3 i 2 2#32 := by
  obtain ⟨i, hS, ho⟩ := begun_start
  have fam : ∀ k, family story (· = 0) k → k = 0 ∨ k = 2 := by
    intro k h
    simp only [story, family, kin] at h
    split at h
    · exact .inr ‹_›
    · exact .inl h
  have hi : i = 9 := by
    obtain ⟨-, cg, hc, hd⟩ := ho
    have : ((begun.cages 0).bind (·.fds 3)) = some (.file 9 0 2#32) := by decide +kernel
    rw [hc] at this
    simp only [Option.bind_some, hd, Option.some.injEq, Desc.file.injEq] at this
    exact this.1
  have ho' : OpenOn (run begun story) 0 3 i 2 2#32 := by
    subst hi
    refine Pipeline.openOn_of_slot (by decide) ?_
    decide +kernel
  refine ⟨i, scratch_hidden_partial hS story_calm, fun k fd pos f h => fam k (scratch_family_partial hS story_calm h), ?_, by decide +kernel, ho'⟩
  refine (scratch_private_partial hS story_calm (c := 1) (op := .truncate pX 0) ?_ (by decide +kernel) (fun h => ?_) ho').1
  · generalize run begun story = z
    unfold Tame
    split <;> trivial
  · rcases fam 1 h with e | e <;> cases e

/-- When both have exited, the file is gone. -/
example : ∃ i, ∀ more, (run (run begun (story ++ [(0, .exit 0), (2, .exit 0)])) more).fs.inodes i = none := by
  obtain ⟨i, hS, -⟩ := begun_start
  have hcalm : Calm begun (story ++ [(0, .exit 0), (2, .exit 0)]) := runB_calm (by decide +kernel)
  refine ⟨i, fun more => scratch_gone_partial hS hcalm (fun k hk => ?_) more⟩
  have := (walk_on hS.reach hS.bound hS.nameless hS.only hcalm).2.2.1 k hk
  simp only [story, List.cons_append, List.nil_append, family, kin] at this
  obtain ⟨h1, h2, h3⟩ := this
  split at h3
  · exact h1 ‹_›
  · exact h2 h3

end Verif.Scratch
