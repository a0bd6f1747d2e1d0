import Verif.FsToolsLemmas

/-!
# What calls do to directory entries
-/

namespace Verif.Kernel
open Verif.Path Verif.Fs Verif.Pipe

/-- Nothing new, and no entries changed: what is in `b` is in `a`, with the same kind and entries. -/
structure Thin (a b : Nat → Option Inode) : Prop where
  get : ∀ d nd', b d = some nd' → ∃ nd, a d = some nd ∧ nd'.kind = nd.kind ∧ nd'.ents = nd.ents

theorem Thin.refl (a : Nat → Option Inode) : Thin a a := ⟨fun _ nd h => ⟨nd, h, rfl, rfl⟩⟩

theorem Thin.trans {a b c : Nat → Option Inode} (h : Thin a b) (h' : Thin b c) : Thin a c := by
  refine ⟨fun d nd h1 => ?_⟩
  obtain ⟨x, h2, h3, h4⟩ := h'.get d nd h1
  obtain ⟨y, h5, h6, h7⟩ := h.get d x h2
  exact ⟨y, h5, h3.trans h6, h4.trans h7⟩

theorem Thin.upd {a : Nat → Option Inode} {i : Nat} {nd nd' : Inode} (h : a i = some nd) (hk : nd'.kind = nd.kind)
    (he : nd'.ents = nd.ents) : Thin a (upd a i (some nd')) := by
  refine ⟨fun d x hx => ?_⟩
  rw [upd_apply] at hx
  split at hx
  · rename_i e; subst e; cases hx; exact ⟨nd, h, hk, he⟩
  · exact ⟨x, hx, rfl, rfl⟩

theorem Thin.del (a : Nat → Option Inode) (i : Nat) : Thin a (Verif.upd a i none) := by
  refine ⟨fun d x hx => ?_⟩
  rw [upd_apply] at hx
  split at hx
  · cases hx
  · exact ⟨x, hx, rfl, rfl⟩

/-! ## Calls of the file system -/

theorem openObj_table (fs : Fs) (i n : Nat) : (fs.openObj i n).inodes = fs.inodes := by
  unfold Fs.openObj; split <;> rfl

theorem writeAt_inodes {fs fs' : Fs} {i off : Nat} {data : List UInt8} (h : fs.writeAt i off data = some fs') : fs'.inodes = fs.inodes := by
  unfold Fs.writeAt at h
  split at h
  · cases h
  · split at h
    · cases h
    · cases h; rfl

theorem thin_openExisting (fs : Fs) (i : Nat) (flags : BitVec 32) : Thin fs.inodes (fs.openExisting i flags).1.inodes := by
  unfold Fs.openExisting
  split
  · exact .refl _
  · split
    · exact .refl _
    · rename_i nd hi
      split
      · exact .refl _
      · split
        · split
          · exact .refl _
          · simp only [Fs.set, openObj_table, Fs.rmHost]
            exact .upd hi rfl rfl
        · simp only [Fs.set, openObj_table]
          exact .upd hi rfl rfl
      · exact .upd hi rfl rfl

theorem thin_chmodIno (fs : Fs) (i : Nat) (mode : BitVec 32) : Thin fs.inodes (fs.chmodIno i mode).1.inodes := by
  unfold Fs.chmodIno
  split
  · split
    · exact .refl _
    · rename_i nd hi
      dsimp only
      split <;> exact .upd hi rfl rfl
  · exact .refl _

theorem thin_truncIno (fs : Fs) (i : Nat) (len : Int) (m : Bool) : Thin fs.inodes (fs.truncIno i len m).1.inodes := by
  unfold Fs.truncIno
  split
  · exact .refl _
  · split
    · exact .refl _
    · rename_i nd hi
      split
      · exact .refl _
      · exact .refl _
      · exact .refl _
      · dsimp only
        split
        · exact .refl _
        · split
          · exact .refl _
          · rename_i fs2 h2
            have e : fs2.inodes = fs.inodes := by
              split at h2
              · rw [writeAt_inodes h2, openObj_table]
              · split at h2
                · cases h2
                · split at h2
                  · cases h2
                  · cases h2; exact openObj_table ..
            simp only [Fs.logIno, Fs.set]
            rw [e]
            exact .upd hi rfl rfl

theorem thin_writeIno {fs fs' : Fs} {i : Nat} {nd : Inode} {off : Nat} {data : List UInt8} (hi : fs.inodes i = some nd)
    (h : fs.writeIno i nd off data = some fs') : Thin fs.inodes fs'.inodes := by
  unfold Fs.writeIno at h
  dsimp only at h
  split at h
  · cases h
  · rename_i fs1 h1
    have e1 : fs1.inodes = fs.inodes := by
      split at h1
      · exact writeAt_inodes h1
      · split at h1
        · cases h1
        · cases h1; rfl
    split at h
    · cases h
    · rename_i fs2 h2
      have e2 := (writeAt_inodes h2).trans e1
      split at h
      · cases h
        simp only [Fs.logIno, Fs.set]
        rw [e2]
        exact .upd hi rfl rfl
      · cases h; rw [e2]; exact .refl _

theorem thin_incRef {fs fs' : Fs} {i : Nat} (h : fs.incRef i = some fs') : Thin fs.inodes fs'.inodes := by
  unfold Fs.incRef at h
  split at h
  · cases h
  · rename_i nd hi
    cases h; exact .upd hi rfl rfl

theorem thin_closeIno (fs : Fs) (i : Nat) : Thin fs.inodes (fs.closeIno i).1.inodes := by
  unfold Fs.closeIno
  split
  · exact .refl _
  · rename_i nd hi
    have h1 : Thin fs.inodes (upd fs.inodes i (some { nd with ref := nd.ref - 1 })) := .upd hi rfl rfl
    dsimp only
    (repeat' split) <;> first | exact .refl _ | exact h1 | exact h1.trans (.del _ _)

/-! ## Calls that do not name anything -/

variable {s : State} {c : Nat} {cg : Cage}

theorem thin_bump {s' : State} {d : Desc} (h : s.bump d = some s') : Thin s.fs.inodes s'.fs.inodes := by
  unfold State.bump at h
  split at h
  · split at h
    · cases h
    · rename_i fs hf; cases h; exact thin_incRef hf
  · split at h
    · cases h
    · cases h; exact .refl _
  · cases h; exact .refl _

theorem thin_drop (s : State) (d : Desc) : Thin s.fs.inodes (s.drop d).1.fs.inodes := by
  unfold State.drop
  split
  · exact thin_closeIno ..
  · split <;> exact .refl _
  · exact .refl _

theorem thin_closeSlot (s : State) (c fd : Nat) (o : Option Desc) : Thin s.fs.inodes (s.closeSlot c fd o).1.fs.inodes := by
  unfold State.closeSlot
  split
  · exact .refl _
  · rename_i d
    have := thin_drop s d
    split
    · rename_i s' r h; rw [h] at this; rw [setFd_fs]; exact this
    · rename_i s' r _ h; rw [h] at this; exact this

theorem thin_putCopy (s : State) (c : Nat) (d : Desc) (fd : Nat) : Thin s.fs.inodes (s.putCopy c d fd).1.fs.inodes := by
  unfold State.putCopy
  split
  · exact .refl _
  · rename_i s1 h; rw [setFd_fs]; exact thin_bump h

theorem thin_dupFrom (s : State) (c : Nat) (cg : Cage) (d : Desc) (k : Nat) : Thin s.fs.inodes (dupFrom s c cg d k).1.fs.inodes := by
  unfold dupFrom
  split
  · exact .refl _
  · split
    · exact .refl _
    · exact thin_putCopy ..

theorem thin_closeWhere (sel : Desc → Bool) (c : Nat) : ∀ (k : Nat) (s : State), Thin s.fs.inodes (closeWhere sel c k s).1.fs.inodes
  | 0, s => .refl _
  | k + 1, s => by
    have ih := thin_closeWhere sel c k s
    unfold closeWhere
    split
    · rename_i s' h; rw [h] at ih; exact ih
    · rename_i s' r _ h
      rw [h] at ih
      split
      · exact ih
      · split
        · exact ih
        · split
          · exact ih.trans (thin_closeSlot ..)
          · exact ih

theorem thin_forkCopy (t : Table) (child : Nat) : ∀ (k : Nat) (s s' : State), forkCopy t child k s = some s' → Thin s.fs.inodes s'.fs.inodes
  | 0, s, s', h => by cases h; exact .refl _
  | k + 1, s, s', h => by
    unfold forkCopy at h
    split at h
    · cases h
    · rename_i s1 h1
      have ih := thin_forkCopy t child k s s1 h1
      split at h
      · cases h; exact ih
      · split at h
        · cases h
        · rename_i s2 h2
          cases h
          rw [setFd_fs]
          exact ih.trans (thin_bump h2)

/-- The calls that give or take names. -/
def givesNames : Op → Bool
  | .mkdir .. | .mknod .. | .link .. | .unlink .. | .rmdir .. | .rename .. => true
  | .openP .. => true
  | _ => false

theorem thin_step (s : State) (c : Nat) (op : Op) (h : givesNames op = false) : Thin s.fs.inodes (step s c op).1.fs.inodes := by
  unfold step
  split
  · exact .refl _
  · rename_i cg hc
    cases op with
    | openP | mkdir | mknod | link | unlink | rmdir | rename => cases h
    | chmod p mode =>
      dsimp only [State.onFs, Fs.chmod]
      split
      · exact .refl _
      · exact .refl _
      · exact thin_chmodIno ..
    | fchmod fd mode =>
      dsimp only [fchmod]
      split
      · exact .refl _
      · exact .refl _
      · exact thin_chmodIno ..
      · exact .refl _
    | stat | fstat | access => exact .refl _
    | chdir p => dsimp only [chdir]; (repeat' split) <;> exact .refl _
    | fchdir fd => dsimp only [fchdir]; (repeat' split) <;> exact .refl _
    | truncate p len =>
      dsimp only [State.onFs, Fs.truncate]
      split
      · exact .refl _
      · exact .refl _
      · exact thin_truncIno ..
    | ftruncate fd len =>
      dsimp only [ftruncate]
      split
      · exact .refl _
      · exact .refl _
      · split
        · exact .refl _
        · exact thin_truncIno ..
      · exact .refl _
    | read fd n => dsimp only [read]; (repeat' split) <;> first | exact .refl _ | (rw [setFd_fs]; exact .refl _)
    | pread fd n off => dsimp only [pread]; (repeat' split) <;> exact .refl _
    | write fd data =>
      dsimp only [write]
      (repeat' split) <;> first | exact .refl _ | (rw [setFd_fs]; exact thin_writeIno (by assumption) (by assumption))
    | pwrite fd data off =>
      dsimp only [pwrite]
      (repeat' split) <;> first | exact .refl _ | exact thin_writeIno (by assumption) (by assumption)
    | writev fd iovs =>
      dsimp only [writev]
      (repeat' split) <;> first | exact .refl _ | (rw [setFd_fs]; exact thin_writeIno (by assumption) (by assumption))
    | lseek fd off wh => dsimp only [lseek]; (repeat' split) <;> first | exact .refl _ | (rw [setFd_fs]; exact .refl _)
    | getdents fd b => dsimp only [getdents]; (repeat' split) <;> first | exact .refl _ | (rw [setFd_fs]; exact .refl _)
    | dup fd =>
      dsimp only [dup]
      (repeat' split) <;> first | exact .refl _ | exact thin_dupFrom ..
    | dup2 o n =>
      dsimp only [dup2]
      split
      · exact .refl _
      · split
        · exact .refl _
        · split
          · exact .refl _
          · exact .refl _
          · rename_i d _
            cases cg.fds n.toNat with
            | none =>
              dsimp only
              (repeat' split) <;> first | exact .refl _ | exact thin_putCopy ..
            | some dn =>
              have h1 := thin_drop s dn
              dsimp only
              split
              · exact h1
              · split
                · exact h1
                · exact h1.trans (thin_putCopy ..)
    | close fd =>
      dsimp only [close]
      split
      · exact .refl _
      · exact thin_closeSlot ..
    | fcntl fd cmd arg =>
      dsimp only [fcntl]
      (repeat' split) <;> first | exact .refl _ | exact thin_dupFrom .. | (rw [setFd_fs]; exact .refl _)
    | pipe2 fl =>
      dsimp only [pipe2]
      (repeat' split) <;> first | exact .refl _ | (simp only [setFd_fs]; exact .refl _)
    | socket nb ce => dsimp only [putNew]; split <;> first | exact .refl _ | (rw [setFd_fs]; exact .refl _)
    | epollCreate n =>
      dsimp only [putNew]
      (repeat' split) <;> first | exact .refl _ | (rw [setFd_fs]; exact .refl _)
    | fork ch =>
      dsimp only [fork]
      split
      · exact .refl _
      · split
        · exact .refl _
        · rename_i s1 h1
          have h2 : Thin s.fs.inodes s1.fs.inodes := by
            have h3 := thin_forkCopy cg.fds ch maxFd _ s1 h1
            rwa [State.setCage] at h3
          split
          · split
            · exact .refl _
            · rename_i nd hnd
              split
              · exact h2.trans (.upd hnd rfl rfl)
              · exact .refl _
          · exact .refl _
    | exec ch =>
      dsimp only [exec]
      have h1 := thin_closeWhere (fun d => d.flags &&& oCLOEXEC != 0) c maxFd s
      split
      · exact .refl _
      · split
        · rename_i s' h2; rw [h2] at h1; exact h1
        · rename_i s' r _ h2
          rw [h2] at h1
          split <;> exact h1
    | exit st =>
      dsimp only [exit]
      have h1 := thin_closeWhere (fun _ => true) c maxFd s
      split
      · rename_i s' h2; rw [h2] at h1; exact h1
      · rename_i s' r _ h2; rw [h2] at h1; exact h1

end Verif.Kernel
