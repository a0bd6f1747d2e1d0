import Verif.RecoverySess

/-!
# Dying inside a call

A call appends its log records one by one (`log_metadata`, `/repo/src/safeposix/filesystem.rs` 399-416; the callers in
`/repo/src/safeposix/syscalls/fs_calls.rs` 292-293, 556-557, 720-721, 886-887, 1069-1070, 2109, 2355, 2730, 3709, 3746, 3772, 4187,
4858-4859, 4966, 5038).  When the process dies inside a call, the log ends with the first few of the records of that call.
-/

namespace Verif.Recovery
open Verif.Path Verif.Fs Verif.Kernel

/-! ## Specification -/

/-- What is on disk when the process dies inside the call that leads from `s` to `s'`, after `k` of the records of that call have
been appended.  The host files hold anything. -/
def midDisk (b : Snap) (s s' : State) (k : Nat) (files : Nat → Option (List UInt8)) : Disk :=
  { snap := .whole b, log := some (s'.fs.log.take (s.fs.log.length + k)), files := files }

/-! ## What a call logs -/

/-- Every record a call appends holds the inode as it was before the call or as it is after it. -/
def Steps (a a' : Fs) : Prop :=
  ∃ recs, a'.log = a.log ++ recs ∧
    ∀ e ∈ recs, e.2.map clean = (a.inodes e.1).map clean ∨ e.2.map clean = (a'.inodes e.1).map clean

/-- Inodes only vanish, and the records say what was before or that the inode is gone. -/
structure Fades (a a' : Fs) : Prop where
  at_ : ∀ i, (a'.inodes i).map clean = (a.inodes i).map clean ∨ a'.inodes i = none
  log : ∃ recs, a'.log = a.log ++ recs ∧
    ∀ e ∈ recs, e.2.map clean = (a.inodes e.1).map clean ∨ (e.2 = none ∧ a'.inodes e.1 = none)

theorem Fades.refl (a : Fs) : Fades a a := ⟨fun _ => .inl rfl, [], by simp, by simp⟩

theorem Fades.trans {a b c : Fs} (h1 : Fades a b) (h2 : Fades b c) : Fades a c := by
  have gone : ∀ i, b.inodes i = none → c.inodes i = none := by
    intro i hi
    rcases h2.at_ i with h | h
    · rw [hi] at h; simpa using h
    · exact h
  refine ⟨?_, ?_⟩
  · intro i
    rcases h2.at_ i with h | h
    · rcases h1.at_ i with g | g
      · exact .inl (h.trans g)
      · exact .inr (gone i g)
    · exact .inr h
  · obtain ⟨r1, e1, g1⟩ := h1.log
    obtain ⟨r2, e2, g2⟩ := h2.log
    refine ⟨r1 ++ r2, by rw [e2, e1, List.append_assoc], ?_⟩
    intro e he
    rcases List.mem_append.1 he with he | he
    · rcases g1 e he with h | ⟨h, g⟩
      · exact .inl h
      · exact .inr ⟨h, gone _ g⟩
    · rcases g2 e he with h | ⟨h, g⟩
      · rcases h1.at_ e.1 with k | k
        · exact .inl (h.trans k)
        · refine .inr ⟨?_, gone _ k⟩
          rw [k] at h; simpa using h
      · exact .inr ⟨h, g⟩

theorem Fades.steps {a a' : Fs} (h : Fades a a') : Steps a a' := by
  obtain ⟨r, e, g⟩ := h.log
  refine ⟨r, e, fun x hx => ?_⟩
  rcases g x hx with k | ⟨k, l⟩
  · exact .inl k
  · exact .inr (by rw [k, l])

theorem Steps.same {a a' : Fs} (h : a'.log = a.log) : Steps a a' := ⟨[], by simp [h], by simp⟩

theorem Steps.refl (a : Fs) : Steps a a := .same rfl

theorem Steps.log1 {a g : Fs} (h : g.log = a.log) (i : Nat) : Steps a (g.logIno i) :=
  ⟨[(i, g.inodes i)], by simp [Fs.logIno, h], by intro e he; simp only [List.mem_singleton] at he; subst he; exact .inr rfl⟩

theorem Steps.log2 {a g : Fs} (h : g.log = a.log) (i j : Nat) : Steps a ((g.logIno i).logIno j) :=
  ⟨[(i, g.inodes i), (j, g.inodes j)], by simp [Fs.logIno, h], by
    intro e he
    simp only [List.mem_cons, List.not_mem_nil, or_false] at he
    rcases he with rfl | rfl <;> exact .inr rfl⟩

theorem Steps.congr {a a' a'' : Fs} (h : Steps a a') (h1 : a''.log = a'.log) (h2 : a''.inodes = a'.inodes) : Steps a a'' := by
  obtain ⟨r, e, g⟩ := h
  exact ⟨r, by rw [h1, e], by rw [h2]; exact g⟩

theorem openObj_log (fs : Fs) (i sz : Nat) : (fs.openObj i sz).log = fs.log := by unfold Fs.openObj; split <;> rfl

theorem Steps.create {fs fs' : Fs} {par : Nat} {name : Name} {nd : Nat → Inode} (hc : fs.create par name nd = some fs') : Steps fs fs' := by
  unfold Fs.create at hc
  repeat' split at hc
  all_goals cases hc
  exact .log2 (by rfl) _ _

theorem Steps.mkdir (fs : Fs) (p : List Name) (m : BitVec 32) : Steps fs (fs.mkdir p m).1 := by
  unfold Fs.mkdir
  repeat' split
  all_goals first | exact .refl _ | exact .create ‹_›

theorem Steps.mknod (fs : Fs) (p : List Name) (m : BitVec 32) (d : BitVec 64) : Steps fs (fs.mknod p m d).1 := by
  unfold Fs.mknod
  repeat' split
  all_goals first | exact .refl _ | exact .create ‹_›

theorem Steps.openP (fs : Fs) (p : List Name) (flags m : BitVec 32) : Steps fs (fs.openP p flags m).1 := by
  unfold Fs.openP
  repeat' split
  all_goals first
    | exact .refl _
    | exact (Steps.create ‹_›).congr (openObj_log _ _ _) (openObj_inodes _ _ _).1
    | skip
  unfold Fs.openExisting
  repeat' split
  all_goals first
    | exact .refl _
    | exact .same rfl
    | exact .same (openObj_log _ _ _)

theorem Steps.link (fs : Fs) (o n : List Name) : Steps fs (fs.link o n).1 := by
  unfold Fs.link
  repeat' split
  all_goals try dsimp only
  all_goals repeat' split
  all_goals first
    | exact .refl _
    | exact .same rfl
    | exact .log2 (by rfl) _ _

theorem removeFromParent_log (fs : Fs) (par : Nat) (p : List Name) : (fs.removeFromParent par p).1.log = fs.log := by
  unfold Fs.removeFromParent
  repeat' split
  all_goals rfl

theorem Steps.unlink (fs : Fs) (p : List Name) : Steps fs (fs.unlink p).1 := by
  unfold Fs.unlink
  cases hw : fs.walk p with
  | none => exact .refl _
  | some r =>
    obtain ⟨o, par⟩ := r
    cases o with
    | none => exact .refl _
    | some i =>
      cases par with
      | none => exact .refl _
      | some par =>
        dsimp only
        cases hi : fs.inodes i with
        | none => exact .refl _
        | some nd =>
          dsimp only
          by_cases hd : nd.isDir = true
          · rw [if_pos hd]; exact .refl _
          · rw [if_neg hd]
            have hl := removeFromParent_log (fs.set i (some { nd with link := nd.link - 1 })) par p
            generalize (fs.set i (some { nd with link := nd.link - 1 })).removeFromParent par p = x at hl ⊢
            obtain ⟨fs2, r⟩ := x
            have hl : fs2.log = fs.log := hl
            cases r
            case ok =>
              dsimp only
              repeat' split
              all_goals first
                | exact .same hl
                | exact .log2 (by exact hl) _ _
            all_goals exact .same hl

theorem Steps.rmdir (fs : Fs) (p : List Name) : Steps fs (fs.rmdir p).1 := by
  unfold Fs.rmdir
  cases hw : fs.walk p with
  | none => exact .refl _
  | some r =>
    obtain ⟨o, par⟩ := r
    cases o with
    | none => exact .refl _
    | some i =>
      cases par with
      | none => exact .refl _
      | some par =>
        dsimp only
        cases hpar : fs.inodes par with
        | none => exact .refl _
        | some pd =>
          dsimp only
          split
          · exact .refl _
          · cases hi : fs.inodes i with
            | none => exact .refl _
            | some nd =>
              dsimp only
              by_cases hd : nd.isDir = true
              · rw [if_pos hd]
                by_cases hl : nd.link > 3
                · rw [if_pos hl]; exact .refl _
                · rw [if_neg hl]
                  by_cases hm : (!modeIsDir nd.mode) = true
                  · rw [if_pos hm]; exact .refl _
                  · rw [if_neg hm]
                    by_cases hw2 : nd.mode &&& sIWALL = 0
                    · rw [if_pos hw2]; exact .refl _
                    · rw [if_neg hw2]
                      have h0 : (if nd.ref = 0 then fs.set i (some { nd with link := 2 }) else fs).log = fs.log := by split <;> rfl
                      generalize (if nd.ref = 0 then fs.set i (some { nd with link := 2 }) else fs) = g at h0 ⊢
                      have hl := removeFromParent_log g par p
                      generalize g.removeFromParent par p = x at hl ⊢
                      obtain ⟨fs2, r⟩ := x
                      have hl2 : fs2.log = fs.log := hl.trans h0
                      clear hl
                      cases r
                      case ok =>
                        dsimp only
                        split
                        all_goals exact .log2 (by exact hl2) _ _
                      all_goals exact .same hl2
              · rw [if_neg hd]; exact .refl _

theorem Steps.rename (fs : Fs) (o n : List Name) : Steps fs (fs.rename o n).1 := by
  unfold Fs.rename
  repeat' split
  any_goals exact .refl _
  · exact Steps.congr (Steps.log1 (g := fs.set _ _) (by rfl) _) (by rfl) (by rfl)

theorem Steps.chmodIno (fs : Fs) (i : Nat) (m : BitVec 32) : Steps fs (fs.chmodIno i m).1 := by
  unfold Fs.chmodIno
  repeat' split
  all_goals try dsimp only
  all_goals repeat' split
  all_goals first
    | exact .refl _
    | exact .same rfl
    | exact .log1 (by rfl) _

theorem Steps.chmod (fs : Fs) (p : List Name) (m : BitVec 32) : Steps fs (fs.chmod p m).1 := by
  unfold Fs.chmod
  repeat' split
  all_goals first | exact .refl _ | exact .chmodIno ..

theorem Steps.writeIno {fs fs' : Fs} {i off : Nat} {nd : Inode} {data : List UInt8} (e : fs.writeIno i nd off data = some fs') :
    Steps fs fs' := by
  unfold Fs.writeIno at e
  have key : ∀ fs1, (if off > nd.size then fs.writeAt i nd.size (List.replicate (off - nd.size) 0)
    else if (fs.fobj i).isNone then none else some fs) = some fs1 → fs1.log = fs.log := by
    intro fs1 e1
    repeat' split at e1
    · exact (writeAt_same e1).2.1
    · cases e1
    · cases e1; rfl
  generalize (if off > nd.size then fs.writeAt i nd.size (List.replicate (off - nd.size) 0)
    else if (fs.fobj i).isNone then none else some fs) = g at e key
  cases g with
  | none => cases e
  | some fs1 =>
    have h1 := key fs1 rfl
    dsimp only at e
    cases e2 : fs1.writeAt i off data with
    | none => rw [e2] at e; cases e
    | some fs2 =>
      rw [e2] at e
      have h2 : fs2.log = fs.log := (writeAt_same e2).2.1.trans h1
      dsimp only at e
      split at e
      · cases e; exact .log1 (by exact h2) _
      · cases e; exact .same h2

theorem Steps.truncIno (fs : Fs) (i : Nat) (len : Int) (me : Bool) : Steps fs (fs.truncIno i len me).1 := by
  unfold Fs.truncIno
  split
  · exact .refl _
  · cases hi : fs.inodes i with
    | none => exact .refl _
    | some nd =>
      dsimp only
      split
      any_goals exact .refl _
      split
      · exact .refl _
      · have key : ∀ fs2, (if nd.size < len.toNat then (fs.openObj i nd.size).writeAt i nd.size (List.replicate (len.toNat - nd.size) 0)
            else match (fs.openObj i nd.size).fobj i with
              | none => none
              | some sz =>
                if len.toNat > sz then none
                else some { (fs.openObj i nd.size) with
                  disk := upd (fs.openObj i nd.size).disk i (some ((((fs.openObj i nd.size).disk i).getD []).take len.toNat))
                  fobj := upd (fs.openObj i nd.size).fobj i (some len.toNat) }) = some fs2 → fs2.log = fs.log := by
          intro fs2 e
          have h1 := openObj_log fs i nd.size
          repeat' split at e
          · exact (writeAt_same e).2.1.trans h1
          · cases e
          · cases e
          · cases e; exact h1
        generalize (if nd.size < len.toNat then (fs.openObj i nd.size).writeAt i nd.size (List.replicate (len.toNat - nd.size) 0)
            else match (fs.openObj i nd.size).fobj i with
              | none => none
              | some sz =>
                if len.toNat > sz then none
                else some { (fs.openObj i nd.size) with
                  disk := upd (fs.openObj i nd.size).disk i (some ((((fs.openObj i nd.size).disk i).getD []).take len.toNat))
                  fobj := upd (fs.openObj i nd.size).fobj i (some len.toNat) }) = g at key ⊢
        cases g with
        | none => exact .refl _
        | some fs2 => exact .log1 (by exact key fs2 rfl) _

theorem Steps.truncate (fs : Fs) (p : List Name) (len : Int) : Steps fs (fs.truncate p len).1 := by
  unfold Fs.truncate
  repeat' split
  all_goals first | exact .refl _ | exact .truncIno ..

/-! ## What goes when descriptors go -/

theorem Fades.setRef {fs : Fs} {i r : Nat} {nd : Inode} (hi : fs.inodes i = some nd) : Fades fs (fs.set i (some { nd with ref := r })) := by
  refine ⟨fun k => .inl ?_, [], by simp [Fs.set], by simp⟩
  simp only [Fs.set, upd_apply]
  split
  · rename_i e; subst e; rw [hi]; rfl
  · rfl

theorem Fades.gone {a b : Fs} {i : Nat} (h : Fades a b) (f : Nat → Option Nat) (d : Nat → Option (List UInt8)) :
    Fades a ((({ (b.set i none) with fobj := f, disk := d } : Fs)).logIno i) := by
  refine h.trans ⟨?_, [(i, none)], by simp [Fs.logIno, Fs.set], ?_⟩
  · intro k
    simp only [Fs.logIno, Fs.set, upd_apply]
    split
    · exact .inr rfl
    · exact .inl rfl
  · intro e he
    simp only [List.mem_singleton] at he
    subst he
    exact .inr ⟨rfl, by simp [Fs.logIno, Fs.set]⟩

theorem Fades.logAgain {a b : Fs} (h : Fades a b) (i : Nat) : Fades a (b.logIno i) := by
  refine h.trans ⟨fun _ => .inl rfl, [(i, b.inodes i)], rfl, ?_⟩
  intro e he
  simp only [List.mem_singleton] at he
  subst he
  exact .inl rfl

theorem Fades.congr {a b b' : Fs} (h : Fades a b) (h1 : b'.log = b.log) (h2 : b'.inodes = b.inodes) : Fades a b' := by
  refine ⟨by rw [h2]; exact h.at_, ?_⟩
  rw [h1, h2]; exact h.log

theorem Fades.closeIno (fs : Fs) (i : Nat) : Fades fs (fs.closeIno i).1 := by
  unfold Fs.closeIno
  cases hi : fs.inodes i with
  | none => exact .refl _
  | some nd =>
    have h1 : Fades fs (fs.set i (some { nd with ref := nd.ref - 1 })) := .setRef hi
    dsimp only
    cases hk : nd.kind <;> dsimp only
    all_goals (try rw [← hk])
    all_goals repeat' split
    all_goals first
      | exact .refl _
      | exact h1
      | exact h1.logAgain _
      | exact h1.congr rfl rfl
      | exact h1.gone _ _

theorem Fades.incRef {fs fs' : Fs} {i : Nat} (e : fs.incRef i = some fs') : Fades fs fs' := by
  unfold Fs.incRef at e
  split at e
  · cases e
  · cases e; exact .setRef ‹_›

theorem Fades.bump {s s' : State} {d : Desc} (e : s.bump d = some s') : Fades s.fs s'.fs := by
  cases d <;> simp only [State.bump] at e
  · split at e
    · cases e
    · cases e; exact .incRef ‹_›
  · split at e
    · cases e
    · cases e; exact .refl _
  all_goals cases e; exact .refl _

theorem Fades.drop (s : State) (d : Desc) : Fades s.fs (s.drop d).1.fs := by
  cases d <;> simp only [State.drop]
  · exact .closeIno ..
  · split <;> exact .refl _
  all_goals exact .refl _

theorem Fades.closeSlot (s : State) (c fd : Nat) (o : Option Desc) : Fades s.fs (s.closeSlot c fd o).1.fs := by
  simp only [State.closeSlot]
  split
  · exact .refl _
  · rename_i d
    have h := Fades.drop s d
    split <;> rename_i e <;> rw [e] at h
    · rw [setFd_fs']; exact h
    · exact h

theorem Fades.putCopy (s : State) (c : Nat) (d : Desc) (n : Nat) : Fades s.fs (s.putCopy c d n).1.fs := by
  simp only [State.putCopy]
  split
  · exact .refl _
  · rw [setFd_fs']; exact .bump ‹_›

theorem Fades.dupFrom (s : State) (c : Nat) (cg : Cage) (d : Desc) (n : Nat) : Fades s.fs (dupFrom s c cg d n).1.fs := by
  simp only [Kernel.dupFrom]
  repeat' split
  all_goals first | exact .refl _ | exact .putCopy ..

theorem Fades.closeWhere (sel : Desc → Bool) (c : Nat) (k : Nat) (s : State) : Fades s.fs (closeWhere sel c k s).1.fs := by
  induction k with
  | zero => exact .refl _
  | succ k ih =>
    simp only [Kernel.closeWhere]
    split <;> rename_i e <;> rw [e] at ih
    · exact ih
    · repeat' split
      all_goals first | exact ih | exact ih.trans (.closeSlot ..)

theorem Fades.forkCopy {t : Table} {ch k : Nat} {s s' : State} (e : forkCopy t ch k s = some s') : Fades s.fs s'.fs := by
  induction k generalizing s' with
  | zero => cases e; exact .refl _
  | succ k ih =>
    simp only [Kernel.forkCopy] at e
    split at e
    · cases e
    · rename_i s1 e1
      split at e
      · cases e; exact ih e1
      · split at e
        · cases e
        · cases e
          rw [setFd_fs']
          exact (ih e1).trans (.bump ‹_›)

theorem Fades.exit (s : State) (c : Nat) (st : Int) : Fades s.fs (Kernel.exit s c st).1.fs := by
  have h2 := Fades.closeWhere (fun _ => true) c maxFd s
  unfold Kernel.exit
  generalize Kernel.closeWhere (fun _ => true) c maxFd s = x at h2 ⊢
  obtain ⟨s', r⟩ := x
  cases r <;> exact h2

theorem Steps.nonEmpty {p : Str} {s : State} {r : State × Out} (h : Steps s.fs r.1.fs) : Steps s.fs (nonEmpty p s r).1.fs := by
  unfold Kernel.nonEmpty
  split
  · exact .refl _
  · exact h

/-- Every call logs only what was or what is. -/
theorem steps_step (s : State) (c : Nat) (op : Op) : Steps s.fs (step s c op).1.fs := by
  cases hc : s.cages c with
  | none => simp only [step, hc]; exact .refl _
  | some cg =>
    cases op with
    | openP p flags mode =>
      have h1 := Steps.openP s.fs (cg.path p) flags mode
      simp only [step, hc, openSys]
      split
      · exact .refl _
      · split
        · exact .refl _
        · split <;> rename_i e <;> rw [e] at h1
          · exact h1
          · rw [setFd_fs']; exact h1
    | mkdir p m => simp only [step, hc]; exact .nonEmpty (.mkdir ..)
    | mknod p m d => simp only [step, hc]; exact .nonEmpty (.mknod ..)
    | link o n => simp only [step, hc]; exact .nonEmpty (.nonEmpty (.link ..))
    | unlink p => simp only [step, hc]; exact .nonEmpty (.unlink ..)
    | rmdir p => simp only [step, hc]; exact .nonEmpty (.rmdir ..)
    | rename o n => simp only [step, hc]; exact .nonEmpty (.nonEmpty (.rename ..))
    | chmod p m => simp only [step, hc]; exact .chmod ..
    | fchmod fd m =>
      simp only [step, hc, fchmod]
      repeat' split
      all_goals first | exact .refl _ | exact .chmodIno ..
    | stat p => simp only [step, hc]; exact .refl _
    | fstat fd => simp only [step, hc]; exact .refl _
    | access p m => simp only [step, hc]; exact .refl _
    | chdir p => simp only [step, hc, chdir]; repeat' split
                 all_goals exact .same rfl
    | fchdir fd => simp only [step, hc, fchdir]; repeat' split
                   all_goals exact .same rfl
    | truncate p len => simp only [step, hc]; exact .truncate ..
    | ftruncate fd len =>
      simp only [step, hc, ftruncate]
      repeat' split
      all_goals first | exact .refl _ | exact .truncIno ..
    | read fd n =>
      simp only [step, hc, Kernel.read]
      repeat' split
      all_goals first | exact .same rfl | (rw [setFd_fs']; exact .same rfl)
    | pread fd n off =>
      simp only [step, hc, pread]
      repeat' split
      all_goals exact .same rfl
    | write fd data =>
      simp only [step, hc, Kernel.write]
      repeat' split
      all_goals first | exact .same rfl | (rw [setFd_fs']; exact .writeIno ‹_›)
    | pwrite fd data off =>
      simp only [step, hc, pwrite]
      repeat' split
      all_goals first | exact .same rfl | exact .writeIno ‹_›
    | writev fd iovs =>
      simp only [step, hc, writev]
      repeat' split
      all_goals first | exact .same rfl | (rw [setFd_fs']; exact .writeIno ‹_›)
    | lseek fd off w =>
      simp only [step, hc, lseek]
      repeat' split
      all_goals first | exact .same rfl | (rw [setFd_fs']; exact .same rfl)
    | getdents fd b =>
      simp only [step, hc, getdents]
      repeat' split
      all_goals first | exact .same rfl | (rw [setFd_fs']; exact .same rfl)
    | dup fd =>
      simp only [step, hc, dup]
      repeat' split
      all_goals first | exact .same rfl | exact (Fades.dupFrom ..).steps
    | dup2 o n =>
      simp only [step, hc, dup2]
      repeat' split
      all_goals first
        | exact .same rfl
        | exact (Fades.drop ..).steps
        | exact (Fades.putCopy ..).steps
        | exact ((Fades.drop ..).trans (.putCopy ..)).steps
    | close fd =>
      simp only [step, hc, close]
      split
      · exact .same rfl
      · exact (Fades.closeSlot ..).steps
    | fcntl fd cmd arg =>
      simp only [step, hc, fcntl]
      repeat' split
      all_goals first | exact .same rfl | (rw [setFd_fs']; exact .same rfl) | exact (Fades.dupFrom ..).steps
    | pipe2 fl =>
      simp only [step, hc, pipe2]
      repeat' split
      all_goals first | exact .same rfl | (rw [setFd_fs']; exact .same rfl) | (rw [setFd_fs', setFd_fs']; exact .same rfl)
    | socket a b =>
      simp only [step, hc, putNew]
      repeat' split
      all_goals first | exact .same rfl | (rw [setFd_fs']; exact .same rfl)
    | epollCreate n =>
      simp only [step, hc, putNew]
      repeat' split
      all_goals first | exact .same rfl | (rw [setFd_fs']; exact .same rfl)
    | fork ch =>
      simp only [step, hc, fork]
      split
      · exact .same rfl
      · split
        · exact .same rfl
        · rename_i s1 h1
          have h2 := Fades.forkCopy h1
          simp only [State.setCage] at h2
          repeat' split
          all_goals first | exact .same rfl | exact (h2.trans (.setRef ‹_›)).steps
    | exec ch =>
      simp only [step, hc, exec]
      have h2 := Fades.closeWhere (fun d => d.flags &&& oCLOEXEC != 0) c maxFd s
      by_cases hm : ch ≥ maxCage
      · rw [if_pos hm]; exact .refl _
      · rw [if_neg hm]
        generalize maxFd = k at h2 ⊢
        split <;> rename_i e <;> rw [e] at h2
        · exact h2.steps
        · split
          · exact h2.steps
          · simp only [State.setCage]; exact h2.steps
    | exit st =>
      simp only [step, hc]
      exact (Fades.exit s c st).steps

end Verif.Recovery
