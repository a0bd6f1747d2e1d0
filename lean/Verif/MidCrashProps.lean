import Verif.MidCrash
import Verif.RecoveryWitness

/-!
# Crashes inside a call: C78

The process dies inside a call, when some of the log records of the call have been appended and the others not (`midDisk`).
-/

namespace Verif.Recovery
open Verif.Path Verif.Fs Verif.Kernel

/-! ## Specification -/

/-- Object `i` is in `s1` what it is in `s`: kind, mode, link count, entries, and size unless `cut`; or it is not in `s1`, and in
`s` it is not there either or has no name (and is not the root). -/
def AsIn (cut : Prop) (s s1 : State) (i : Nat) : Prop :=
  (∃ nd nd1, s.fs.inodes i = some nd ∧ s1.fs.inodes i = some nd1 ∧ nd1.kind = nd.kind ∧ nd1.mode = nd.mode ∧ nd1.link = nd.link ∧
    nd1.ents = nd.ents ∧ (¬ cut → nd1.size = nd.size)) ∨
  (s1.fs.inodes i = none ∧ (s.fs.inodes i = none ∨ (i ≠ rootIno ∧ Unnamed s i)))

/-- The path `ns` from `d` leads to `e` in both tables, through the same directories. -/
inductive WalkBoth (a a' : Nat → Option Inode) : Nat → List Name → Nat → Prop
  | here (d : Nat) : WalkBoth a a' d [] d
  | down {d j k : Nat} {n : Name} {ns : List Name} {nd nd' : Inode} : a d = some nd → nd.isDir → (n, j) ∈ nd.ents →
      a' d = some nd' → nd'.isDir → (n, j) ∈ nd'.ents → WalkBoth a a' j ns k → WalkBoth a a' d (n :: ns) k

/-- The state with these host files. -/
def withFiles (s : State) (files : Nat → Option (List UInt8)) : State := { s with fs := { s.fs with disk := files } }

/-- The calls other than mkdir, mknod, link, unlink, rmdir, exec, exit and an open that may make a file. -/
def plainCall : Op → Bool
  | .mkdir .. | .mknod .. | .link .. | .unlink .. | .rmdir .. | .exec .. | .exit .. => false
  | .openP _ flags _ => flags &&& oCREAT == 0
  | _ => true

/-! ## Lemmas -/

theorem WalkBoth.left {a a' : Nat → Option Inode} {d e : Nat} {ns : List Name} (h : WalkBoth a a' d ns e) : Walk a d ns e := by
  induction h with
  | here => exact .here _
  | down h1 h2 h3 _ _ _ _ ih => exact .down h1 h2 h3 ih

theorem WalkBoth.right {a a' : Nat → Option Inode} {d e : Nat} {ns : List Name} (h : WalkBoth a a' d ns e) : Walk a' d ns e := by
  induction h with
  | here => exact .here _
  | down _ _ _ h1 h2 h3 _ ih => exact .down h1 h2 h3 ih

theorem replay_pick (m : Nat → Option Inode) (l : Log) (i : Nat) :
    replay m l i = m i ∨ ∃ e ∈ l, e.1 = i ∧ replay m l i = e.2.map clean := by
  induction l generalizing m with
  | nil => exact .inl rfl
  | cons e l ih =>
    have h0 : replay m (e :: l) = replay (upd m e.1 (e.2.map clean)) l := rfl
    rw [h0]
    rcases ih (upd m e.1 (e.2.map clean)) with h | ⟨x, hx, h1, h2⟩
    · rw [h]
      by_cases hi : i = e.1
      · subst hi
        exact .inr ⟨e, by simp, rfl, by rw [upd_same]⟩
      · exact .inl (upd_ne _ _ hi)
    · exact .inr ⟨x, by simp [hx], h1, h2⟩

theorem view_clean (D : Nat → Prop) (i : Nat) (o o' : Option Inode) (h : o.map clean = o'.map clean) :
    o.map (view D i) = o'.map (view D i) := by
  have hc : ∀ nd, view D i (clean nd) = view D i nd := fun nd => view_blind D i nd 0
  cases o <;> cases o' <;> simp only [Option.map_none, Option.map_some, reduceCtorEq, Option.some.injEq] at h ⊢
  rename_i x y
  rw [← hc x, ← hc y, h]

variable {D : Nat → Prop} {b : Snap}

/-- Number by number, the log cut anywhere inside a call tells the state before or after that call. -/
theorem mid_table {s s' : State} (h1 : Pend (view D) b [] s.fs) (hs : Steps s.fs s'.fs) (k i : Nat) :
    (replay b.inodes (s'.fs.log.take (s.fs.log.length + k)) i).map (view D i) = (s.fs.inodes i).map (view D i) ∨
    (replay b.inodes (s'.fs.log.take (s.fs.log.length + k)) i).map (view D i) = (s'.fs.inodes i).map (view D i) := by
  obtain ⟨recs, e, g⟩ := hs
  have ht : s'.fs.log.take (s.fs.log.length + k) = s.fs.log ++ recs.take k := by
    rw [e, List.take_length_add_append]
  rw [ht, replay_append]
  rcases replay_pick (replay b.inodes s.fs.log) (recs.take k) i with h | ⟨x, hx, hi, h⟩
  · rw [h]; exact .inl (h1.same i (by simp))
  · rw [h]
    subst hi
    rcases g x (List.mem_of_mem_take hx) with h3 | h3
    · left
      refine view_clean D _ _ _ ?_
      rw [← h3]
      cases x.2 <;> simp [clean]
    · right
      refine view_clean D _ _ _ ?_
      rw [← h3]
      cases x.2 <;> simp [clean]

theorem keeps_place {x y : Inode} (h : SamePlace x y) : keeps x = keeps y := by
  obtain ⟨h1, h2, -⟩ := h
  simp only [keeps, h1, h2]

/-- What is dropped has no name. -/
theorem dropped_unnamed {s : State} (T : Tree s.fs.inodes s.fs.next) (hn : ∀ i nd, s.fs.inodes i = some nd → nd.isSock = false)
    {i : Nat} {nd : Inode} (hi : s.fs.inodes i = some nd) (hk : ¬ keeps nd = true) : i ≠ rootIno ∧ Unnamed s i := by
  rcases fsck_drops T hn i with h | ⟨-, h⟩
  · simp only [fsck, hi] at h
    rw [if_neg hk] at h; cases h
  · refine ⟨h.1, ?_⟩
    intro d nd n h1 h2 h3
    exact nameCount_zero T h.2.1 h1 h2 h3

theorem asIn_of {s : State} (T : Tree s.fs.inodes s.fs.next) (hn : ∀ i nd, s.fs.inodes i = some nd → nd.isSock = false) {l : Log}
    {files : Nat → Option (List UInt8)} {i : Nat}
    (h : (replay b.inodes l i).map (view D i) = (s.fs.inodes i).map (view D i)) : AsIn (D i) s (boot (start (recover b l) files)) i := by
  obtain ⟨-, -, hb⟩ := boot_at (start (recover b l) files) i
  have hst : (start (recover b l) files).inodes i = fsck (replay b.inodes l) i := rfl
  rw [hst] at hb
  simp only [fsck] at hb
  cases hr : replay b.inodes l i with
  | none =>
    rw [hr] at hb h
    right
    rcases hb with ⟨-, hb⟩ | ⟨x, r, hb, -⟩
    · refine ⟨hb, .inl ?_⟩
      cases hx : s.fs.inodes i with
      | none => rfl
      | some x => rw [hx] at h; cases h
    · cases hb
  | some x =>
    rw [hr] at hb h
    cases hx : s.fs.inodes i with
    | none => rw [hx] at h; cases h
    | some y =>
      rw [hx] at h
      have hv : view D i x = view D i y := by simpa using h
      obtain ⟨hp, hm, hz⟩ := view_place hv
      dsimp only at hb
      by_cases hk : keeps x = true
      · rw [if_pos hk] at hb
        rcases hb with ⟨hb, -⟩ | ⟨z, r, hb, hb2⟩
        · cases hb
        · cases hb
          exact .inl ⟨y, _, hx, hb2, hp.1, hm, hp.2.1, hp.2.2, hz⟩
      · rw [if_neg hk] at hb
        rcases hb with ⟨-, hb⟩ | ⟨z, r, hb, -⟩
        · exact .inr ⟨hb, .inr (dropped_unnamed T hn hx (by rw [← keeps_place hp]; exact hk))⟩
        · cases hb

theorem reboot_mid (b : Snap) (s s' : State) (k : Nat) (files : Nat → Option (List UInt8)) :
    reboot (midDisk b s s' k files) = some (boot (start (recover b (s'.fs.log.take (s.fs.log.length + k))) files)) := rfl

/-! ### How many records -/

theorem create_log {fs fs' : Fs} {par : Nat} {name : Name} {nd : Nat → Inode} (hc : fs.create par name nd = some fs') :
    fs'.log.length = fs.log.length + 2 := by
  unfold Fs.create at hc
  repeat' split at hc
  all_goals cases hc
  simp [Fs.logIno]

/-- At most one record. -/
def Few (a a' : Fs) : Prop := a'.log.length ≤ a.log.length + 1

theorem Few.same {a a' : Fs} (h : a'.log = a.log) : Few a a' := by unfold Few; rw [h]; omega

theorem Few.log1 {a g : Fs} (h : g.log = a.log) (i : Nat) : Few a (g.logIno i) := by unfold Few; simp [Fs.logIno, h]

theorem Few.congr {a a' a'' : Fs} (h : Few a a') (h1 : a''.log = a'.log) : Few a a'' := by unfold Few at *; rw [h1]; exact h

theorem Few.rename (fs : Fs) (o n : List Name) : Few fs (fs.rename o n).1 := by
  unfold Fs.rename
  repeat' split
  any_goals exact .same rfl
  exact Few.congr (Few.log1 (g := fs.set _ _) (by rfl) _) (by rfl)

theorem Few.chmodIno (fs : Fs) (i : Nat) (m : BitVec 32) : Few fs (fs.chmodIno i m).1 := by
  unfold Fs.chmodIno
  repeat' split
  all_goals try dsimp only
  all_goals repeat' split
  all_goals first
    | exact .same rfl
    | exact .log1 (by rfl) _

theorem Few.writeIno {fs fs' : Fs} {i off : Nat} {nd : Inode} {data : List UInt8} (e : fs.writeIno i nd off data = some fs') :
    Few fs fs' := by
  unfold Fs.writeIno at e
  have key : ∀ fs1, (if off > nd.size then fs.writeAt i nd.size (List.replicate (off - nd.size) 0)
    else if (fs.fobj i).isNone then none else some fs) = some fs1 → fs1.log = fs.log := by
    intro fs1 e1
    repeat' split at e1
    · exact (writeAt_same e1).2.1
    · cases e1
    · cases e1; rfl
  generalize (if off > nd.size then fs.writeAt i nd.size (List.replicate (off - nd.size) 0)
    else if (fs.fobj i).isNone then none else some fs) = g at e key
  cases g with
  | none => cases e
  | some fs1 =>
    have h1 := key fs1 rfl
    dsimp only at e
    cases e2 : fs1.writeAt i off data with
    | none => rw [e2] at e; cases e
    | some fs2 =>
      rw [e2] at e
      have h2 : fs2.log = fs.log := (writeAt_same e2).2.1.trans h1
      dsimp only at e
      split at e
      · cases e; exact .log1 (by exact h2) _
      · cases e; exact .same h2

theorem Few.truncIno (fs : Fs) (i : Nat) (len : Int) (me : Bool) : Few fs (fs.truncIno i len me).1 := by
  unfold Fs.truncIno
  split
  · exact .same rfl
  · cases hi : fs.inodes i with
    | none => exact .same rfl
    | some nd =>
      dsimp only
      split
      any_goals exact .same rfl
      split
      · exact .same rfl
      · have key : ∀ fs2, (if nd.size < len.toNat then (fs.openObj i nd.size).writeAt i nd.size (List.replicate (len.toNat - nd.size) 0)
            else match (fs.openObj i nd.size).fobj i with
              | none => none
              | some sz =>
                if len.toNat > sz then none
                else some { (fs.openObj i nd.size) with
                  disk := upd (fs.openObj i nd.size).disk i (some ((((fs.openObj i nd.size).disk i).getD []).take len.toNat))
                  fobj := upd (fs.openObj i nd.size).fobj i (some len.toNat) }) = some fs2 → fs2.log = fs.log := by
          intro fs2 e
          have h1 := openObj_log fs i nd.size
          repeat' split at e
          · exact (writeAt_same e).2.1.trans h1
          · cases e
          · cases e
          · cases e; exact h1
        generalize (if nd.size < len.toNat then (fs.openObj i nd.size).writeAt i nd.size (List.replicate (len.toNat - nd.size) 0)
            else match (fs.openObj i nd.size).fobj i with
              | none => none
              | some sz =>
                if len.toNat > sz then none
                else some { (fs.openObj i nd.size) with
                  disk := upd (fs.openObj i nd.size).disk i (some ((((fs.openObj i nd.size).disk i).getD []).take len.toNat))
                  fobj := upd (fs.openObj i nd.size).fobj i (some len.toNat) }) = g at key ⊢
        cases g with
        | none => exact .same rfl
        | some fs2 => exact .log1 (by exact key fs2 rfl) _

theorem Few.closeIno (fs : Fs) (i : Nat) : Few fs (fs.closeIno i).1 := by
  unfold Fs.closeIno
  cases hi : fs.inodes i with
  | none => exact .same rfl
  | some nd =>
    dsimp only
    cases hk : nd.kind <;> dsimp only
    all_goals repeat' split
    all_goals first
      | exact .same rfl
      | exact .log1 (by rfl) _

theorem bump_log {s s' : State} {d : Desc} (e : s.bump d = some s') : s'.fs.log = s.fs.log := by
  cases d <;> simp only [State.bump] at e
  · split at e
    · cases e
    · rename_i h
      cases e
      unfold Fs.incRef at h
      split at h
      · cases h
      · cases h; rfl
  · split at e
    · cases e
    · cases e; rfl
  all_goals cases e; rfl

theorem putCopy_log (s : State) (c : Nat) (d : Desc) (n : Nat) : (s.putCopy c d n).1.fs.log = s.fs.log := by
  simp only [State.putCopy]
  split
  · rfl
  · rw [setFd_fs']; exact bump_log ‹_›

theorem dupFrom_log (s : State) (c : Nat) (cg : Cage) (d : Desc) (n : Nat) : (dupFrom s c cg d n).1.fs.log = s.fs.log := by
  simp only [Kernel.dupFrom]
  repeat' split
  all_goals first | rfl | exact putCopy_log ..

theorem forkCopy_log {t : Table} {ch k : Nat} {s s' : State} (e : forkCopy t ch k s = some s') : s'.fs.log = s.fs.log := by
  induction k generalizing s' with
  | zero => cases e; rfl
  | succ k ih =>
    simp only [Kernel.forkCopy] at e
    split at e
    · cases e
    · rename_i s1 e1
      split at e
      · cases e; exact ih e1
      · split at e
        · cases e
        · cases e
          rw [setFd_fs']
          exact (bump_log ‹_›).trans (ih e1)

theorem Few.drop (s : State) (d : Desc) : Few s.fs (s.drop d).1.fs := by
  cases d <;> simp only [State.drop]
  · exact .closeIno ..
  · split <;> exact .same rfl
  all_goals exact .same rfl

theorem Few.closeSlot (s : State) (c fd : Nat) (o : Option Desc) : Few s.fs (s.closeSlot c fd o).1.fs := by
  simp only [State.closeSlot]
  split
  · exact .same rfl
  · rename_i d
    have h := Few.drop s d
    split <;> rename_i e <;> rw [e] at h
    · rw [setFd_fs']; exact h
    · exact h

theorem Few.openP {fs : Fs} {p : List Name} {flags m : BitVec 32} (h : flags &&& oCREAT = 0) : Few fs (fs.openP p flags m).1 := by
  unfold Fs.openP
  repeat' split
  all_goals first
    | exact .same rfl
    | (rename_i h' _ _ _ _ _ _; exact absurd h h')
    | skip
  all_goals unfold Fs.openExisting
  all_goals repeat' split
  all_goals first
    | exact .same rfl
    | exact .same (openObj_log _ _ _)

theorem Few.nonEmpty {p : Str} {s : State} {r : State × Out} (h : Few s.fs r.1.fs) : Few s.fs (nonEmpty p s r).1.fs := by
  unfold Kernel.nonEmpty
  split
  · exact .same rfl
  · exact h

theorem few_step {s : State} {c : Nat} {op : Op} (h : plainCall op = true) : Few s.fs (step s c op).1.fs := by
  cases hc : s.cages c with
  | none => simp only [step, hc]; exact .same rfl
  | some cg =>
    cases op with
    | openP p flags mode =>
      simp only [plainCall, beq_iff_eq] at h
      have h1 := Few.openP (fs := s.fs) (p := cg.path p) (m := mode) h
      simp only [step, hc, openSys]
      split
      · exact .same rfl
      · split
        · exact .same rfl
        · split <;> rename_i e <;> rw [e] at h1
          · exact h1
          · rw [setFd_fs']; exact h1
    | mkdir p m => cases h
    | mknod p m d => cases h
    | link o n => cases h
    | unlink p => cases h
    | rmdir p => cases h
    | exec p => cases h
    | exit p => cases h
    | rename o n => simp only [step, hc]; exact .nonEmpty (.nonEmpty (.rename ..))
    | chmod p m =>
      simp only [step, hc, Fs.chmod]
      repeat' split
      all_goals first | exact .same rfl | exact .chmodIno ..
    | fchmod fd m =>
      simp only [step, hc, fchmod]
      repeat' split
      all_goals first | exact .same rfl | exact .chmodIno ..
    | stat p => simp only [step, hc]; exact .same rfl
    | fstat fd => simp only [step, hc]; exact .same rfl
    | access p m => simp only [step, hc]; exact .same rfl
    | chdir p => simp only [step, hc, chdir]; repeat' split
                 all_goals exact .same rfl
    | fchdir fd => simp only [step, hc, fchdir]; repeat' split
                   all_goals exact .same rfl
    | truncate p len =>
      simp only [step, hc, Fs.truncate]
      repeat' split
      all_goals first | exact .same rfl | exact .truncIno ..
    | ftruncate fd len =>
      simp only [step, hc, ftruncate]
      repeat' split
      all_goals first | exact .same rfl | exact .truncIno ..
    | read fd n =>
      simp only [step, hc, Kernel.read]
      repeat' split
      all_goals first | exact .same rfl | (rw [setFd_fs']; exact .same rfl)
    | pread fd n off =>
      simp only [step, hc, pread]
      repeat' split
      all_goals exact .same rfl
    | write fd data =>
      simp only [step, hc, Kernel.write]
      repeat' split
      all_goals first | exact .same rfl | (rw [setFd_fs']; exact .writeIno ‹_›)
    | pwrite fd data off =>
      simp only [step, hc, pwrite]
      repeat' split
      all_goals first | exact .same rfl | exact .writeIno ‹_›
    | writev fd iovs =>
      simp only [step, hc, writev]
      repeat' split
      all_goals first | exact .same rfl | (rw [setFd_fs']; exact .writeIno ‹_›)
    | lseek fd off w =>
      simp only [step, hc, lseek]
      repeat' split
      all_goals first | exact .same rfl | (rw [setFd_fs']; exact .same rfl)
    | getdents fd b =>
      simp only [step, hc, getdents]
      repeat' split
      all_goals first | exact .same rfl | (rw [setFd_fs']; exact .same rfl)
    | dup fd =>
      simp only [step, hc, dup]
      repeat' split
      all_goals first | exact .same rfl | exact .same (dupFrom_log ..)
    | dup2 o n =>
      simp only [step, hc, dup2]
      repeat' split
      all_goals first
        | exact .same rfl
        | exact Few.drop ..
        | exact .same (putCopy_log ..)
        | exact (Few.drop ..).congr (putCopy_log ..)
    | close fd =>
      simp only [step, hc, close]
      split
      · exact .same rfl
      · exact .closeSlot ..
    | fcntl fd cmd arg =>
      simp only [step, hc, fcntl]
      repeat' split
      all_goals first | exact .same rfl | (rw [setFd_fs']; exact .same rfl) | exact .same (dupFrom_log ..)
    | pipe2 fl =>
      simp only [step, hc, pipe2]
      repeat' split
      all_goals first | exact .same rfl | (rw [setFd_fs']; exact .same rfl) | (rw [setFd_fs', setFd_fs']; exact .same rfl)
    | socket a b =>
      simp only [step, hc, putNew]
      repeat' split
      all_goals first | exact .same rfl | (rw [setFd_fs']; exact .same rfl)
    | epollCreate n =>
      simp only [step, hc, putNew]
      repeat' split
      all_goals first | exact .same rfl | (rw [setFd_fs']; exact .same rfl)
    | fork ch =>
      simp only [step, hc, fork]
      split
      · exact .same rfl
      · split
        · exact .same rfl
        · rename_i s1 h1
          have h2 := forkCopy_log h1
          simp only [State.setCage] at h2
          repeat' split
          all_goals first | exact .same rfl | exact .same h2

theorem crash_same {s : State} (hs : Sess D b s) {l : Log} (hl : l = s.fs.log) (files : Nat → Option (List UInt8)) :
    SameTree D (withFiles s files) (boot (start (recover b l) files)) := by
  subst hl
  have T := hs.life.inv.fs.tree
  obtain ⟨h1, h2⟩ := crash_table (sess_pend hs) T
  refine same_tree (s := withFiles s files) T ?_ ?_
  · intro i nd' hi
    obtain ⟨nd, g1, -, g2⟩ := h1 i nd' hi
    exact ⟨nd, g1, (view_place g2).1⟩
  · intro i nd hi hl
    obtain ⟨nd', g1, g2⟩ := h2 i nd hi hl
    obtain ⟨g3, g4, g5⟩ := view_place g2
    exact ⟨nd', g1, g3, g4, g5, fun _ => rfl⟩

/-! ## C78 -/

/-- C78.  Wherever inside a call the process dies, the system comes up again, and each single object is then what it was before the
call or what it would have been after it (or is gone, if it had no name there). -/
theorem mid_crash_each_partial {s : State} {c : Nat} {op : Op} (h : Sess D b s) (ht : Tame s c op) (hp : (step s c op).2.ret ≠ .panic)
    (hcut : ∀ i, Cuts s c op i → D i) (k : Nat) (files : Nat → Option (List UInt8)) :
    ∃ s1, reboot (midDisk b s (step s c op).1 k files) = some s1 ∧ ∀ i, AsIn (D i) s s1 i ∨ AsIn (D i) (step s c op).1 s1 i := by
  have h' := Sess.step c op h ht hp hcut
  refine ⟨_, reboot_mid b s _ k files, fun i => ?_⟩
  rcases mid_table (sess_pend h) (steps_step s c op) k i with e | e
  · exact .inl (asIn_of h.life.inv.fs.tree (sess_pend h).nosock e)
  · exact .inr (asIn_of h'.life.inv.fs.tree (sess_pend h').nosock e)

/-- C78.  Wherever inside a call the process dies: a path that leads through the same directories to the same object before and after the call
leads to it in the system that comes up again. -/
theorem mid_crash_paths_partial {s : State} {c : Nat} {op : Op} (h : Sess D b s) (ht : Tame s c op) (hp : (step s c op).2.ret ≠ .panic)
    (hcut : ∀ i, Cuts s c op i → D i) (k : Nat) (files : Nat → Option (List UInt8)) {ns : List Name} (hns : ∀ n ∈ ns, Good n) {e : Nat}
    (hw : WalkBoth s.fs.inodes (step s c op).1.fs.inodes rootIno ns e) :
    ∃ s1, reboot (midDisk b s (step s c op).1 k files) = some s1 ∧ Walk s1.fs.inodes rootIno ns e ∧ s1.fs.inodes e ≠ none := by
  obtain ⟨s1, hr, hall⟩ := mid_crash_each_partial h ht hp hcut k files
  refine ⟨s1, hr, ?_⟩
  have h' := Sess.step c op h ht hp hcut
  have T := h.life.inv.fs.tree
  have T' := h'.life.inv.fs.tree
  have hpr : ∀ n ∈ ns, Proper n := fun n hn => Good.proper (hns n hn)
  clear hns
  have there : ∀ d, Live s.fs.inodes d → (∃ nd, s.fs.inodes d = some nd) → Live (step s c op).1.fs.inodes d →
      (∃ nd, (step s c op).1.fs.inodes d = some nd) → ∃ nd1, s1.fs.inodes d = some nd1 ∧
        ((∃ nd, s.fs.inodes d = some nd ∧ nd1.kind = nd.kind ∧ nd1.ents = nd.ents) ∨
          ∃ nd, (step s c op).1.fs.inodes d = some nd ∧ nd1.kind = nd.kind ∧ nd1.ents = nd.ents) := by
    intro d l1 ⟨x1, e1⟩ l2 ⟨x2, e2⟩
    have no : ∀ s0 : State, Live s0.fs.inodes d → ¬ (d ≠ rootIno ∧ Unnamed s0 d) := by
      intro s0 hl ⟨g1, g2⟩
      rcases hl with hl | ⟨p, pd, m, a1, a2, a3⟩
      · exact g1 hl
      · exact g2 p pd m a1 a2 a3
    rcases hall d with (⟨nd, nd1, a1, a2, a3, a4, a5, a6, -⟩ | ⟨a1, a2 | a2⟩) | (⟨nd, nd1, a1, a2, a3, a4, a5, a6, -⟩ | ⟨a1, a2 | a2⟩)
    · exact ⟨nd1, a2, .inl ⟨nd, a1, a3, a6⟩⟩
    · rw [e1] at a2; cases a2
    · exact absurd a2 (no s l1)
    · exact ⟨nd1, a2, .inr ⟨nd, a1, a3, a6⟩⟩
    · rw [e2] at a2; cases a2
    · exact absurd a2 (no _ l2)
  have key : ∀ ms d, (∀ n ∈ ms, Proper n) → Live s.fs.inodes d → (∃ nd, s.fs.inodes d = some nd) →
      Live (step s c op).1.fs.inodes d → (∃ nd, (step s c op).1.fs.inodes d = some nd) →
      WalkBoth s.fs.inodes (step s c op).1.fs.inodes d ms e → Walk s1.fs.inodes d ms e ∧ s1.fs.inodes e ≠ none := by
    clear hw hpr
    intro ms d hpr l1 e1 l2 e2 w
    induction w with
    | here d =>
      obtain ⟨nd1, g, -⟩ := there d l1 e1 l2 e2
      exact ⟨.here _, by rw [g]; simp⟩
    | @down d j k n ns nd nd' a1 a2 a3 b1 b2 b3 _ ih =>
      have hn : Proper n := hpr n (by simp)
      obtain ⟨nd1, g, hg⟩ := there d l1 e1 l2 e2
      obtain ⟨w1, w2⟩ := ih (fun m hm => hpr m (by simp [hm])) (.inr ⟨d, nd, n, a1, a3, hn⟩)
        (by obtain ⟨-, -, -, jd, q, -⟩ := T.ent a1 a3 hn; exact ⟨jd, q⟩) (.inr ⟨d, nd', n, b1, b3, hn⟩)
        (by obtain ⟨-, -, -, jd, q, -⟩ := T'.ent b1 b3 hn; exact ⟨jd, q⟩)
      refine ⟨.down g ?_ ?_ w1, w2⟩
      · rcases hg with ⟨x, x1, x2, -⟩ | ⟨x, x1, x2, -⟩
        · rw [a1] at x1; cases x1; simp only [Inode.isDir] at a2 ⊢; rw [x2]; exact a2
        · rw [b1] at x1; cases x1; simp only [Inode.isDir] at b2 ⊢; rw [x2]; exact b2
      · rcases hg with ⟨x, x1, -, x2⟩ | ⟨x, x1, -, x2⟩
        · rw [a1] at x1; cases x1; rw [x2]; exact a3
        · rw [b1] at x1; cases x1; rw [x2]; exact b3
  obtain ⟨r1, q1, -⟩ := T.root
  obtain ⟨r2, q2, -⟩ := T'.root
  exact key ns rootIno hpr (.inl rfl) ⟨r1, q1⟩ (.inl rfl) ⟨r2, q2⟩ hw

/-- C78.  Before the first record of a call has been appended the whole system is as before the call, and after the last as after it, with the
content the host files have. -/
theorem mid_crash_ends_partial {s : State} {c : Nat} {op : Op} (h : Sess D b s) (ht : Tame s c op) (hp : (step s c op).2.ret ≠ .panic)
    (hcut : ∀ i, Cuts s c op i → D i) (files : Nat → Option (List UInt8)) :
    (∃ s1, reboot (midDisk b s (step s c op).1 0 files) = some s1 ∧ SameTree D (withFiles s files) s1) ∧
    ∀ k, (step s c op).1.fs.log.length ≤ s.fs.log.length + k →
      ∃ s1, reboot (midDisk b s (step s c op).1 k files) = some s1 ∧ SameTree D (withFiles (step s c op).1 files) s1 := by
  have h' := Sess.step c op h ht hp hcut
  obtain ⟨recs, e, -⟩ := steps_step s c op
  refine ⟨⟨_, reboot_mid .., crash_same h ?_ files⟩, fun k hk => ⟨_, reboot_mid .., crash_same h' ?_ files⟩⟩
  · rw [e]; simp
  · exact List.take_of_length_le hk

/-- C78.  Calls other than mkdir, mknod, link, unlink, rmdir, exec, exit and an open that may make a file are done or not done: wherever inside the
call the process dies, the system comes up as before the call or as after it, with the content the host files have. -/
theorem mid_crash_atomic_partial {s : State} {c : Nat} {op : Op} (h : Sess D b s) (ht : Tame s c op) (hp : (step s c op).2.ret ≠ .panic)
    (hcut : ∀ i, Cuts s c op i → D i) (hop : plainCall op = true) (k : Nat) (files : Nat → Option (List UInt8)) :
    ∃ s1, reboot (midDisk b s (step s c op).1 k files) = some s1 ∧
      (SameTree D (withFiles s files) s1 ∨ SameTree D (withFiles (step s c op).1 files) s1) := by
  obtain ⟨h0, h1⟩ := mid_crash_ends_partial h ht hp hcut files
  cases k with
  | zero => obtain ⟨s1, e, g⟩ := h0; exact ⟨s1, e, .inl g⟩
  | succ k =>
    have hf : Few s.fs (step s c op).1.fs := few_step hop
    unfold Few at hf
    obtain ⟨s1, e, g⟩ := h1 (k + 1) (by omega)
    exact ⟨s1, e, .inr g⟩

/-- Leaving descriptors. -/
def leaveCall : Op → Bool
  | .exec .. | .exit .. => true
  | _ => false

theorem shed_step {s : State} {c : Nat} {op : Op} (h : leaveCall op = true) : Shed s.fs (step s c op).1.fs := by
  cases hc : s.cages c with
  | none => simp only [step, hc]; exact .refl _
  | some cg =>
    cases op with
    | exec ch =>
      simp only [step, hc, exec]
      have h2 := Shed.closeWhere (fun d => d.flags &&& oCLOEXEC != 0) c maxFd s
      by_cases hm : ch ≥ maxCage
      · rw [if_pos hm]; exact .refl _
      · rw [if_neg hm]
        generalize maxFd = k at h2 ⊢
        split <;> rename_i e <;> rw [e] at h2
        · exact h2
        · split
          · exact h2
          · simp only [State.setCage]; exact h2
    | exit st => simp only [step, hc]; exact Shed.exit s c st
    | _ => cases h

/-- C78.  exec and exit: wherever inside the call the process dies, every path leads to what it led to before. -/
theorem mid_crash_leave_partial {s : State} {c : Nat} {op : Op} (h : Sess D b s) (hop : leaveCall op = true) (k : Nat)
    (files : Nat → Option (List UInt8)) :
    ∃ s1, reboot (midDisk b s (step s c op).1 k files) = some s1 ∧ SameTree D (withFiles s files) s1 := by
  refine ⟨_, reboot_mid b s _ k files, ?_⟩
  have T := h.life.inv.fs.tree
  have hp := sess_pend h
  have hsh := shed_step (s := s) (c := c) hop
  have hmix : ∀ i, (replay b.inodes ((step s c op).1.fs.log.take (s.fs.log.length + k)) i).map (view D i) = (s.fs.inodes i).map (view D i) ∨
      ((replay b.inodes ((step s c op).1.fs.log.take (s.fs.log.length + k)) i) = none ∧
        ∃ nd, s.fs.inodes i = some nd ∧ keeps nd = false) := by
    intro i
    rcases mid_table hp (steps_step s c op) k i with e | e
    · exact .inl e
    · rcases hsh.at_ i with ⟨h1, h2⟩ | ⟨nd, h1, h2, h3⟩ | ⟨nd, r, h1, h2, -⟩
      · left; rw [e, h1, h2]
      · right
        rw [h3] at e
        exact ⟨by simpa using e, nd, h1, h2⟩
      · left; rw [e, h1, h2]
        exact congrArg some (view_blind D i nd r)
  generalize (step s c op).1.fs.log.take (s.fs.log.length + k) = l at hmix ⊢
  refine same_tree (s := withFiles s files) T ?_ ?_
  · intro i nd' hi
    simp only [recover, fsck] at hi
    cases hr : replay b.inodes l i with
    | none => rw [hr] at hi; cases hi
    | some x =>
      rw [hr] at hi
      dsimp only at hi
      split at hi
      · cases hi
        rcases hmix i with e | ⟨e, -⟩
        · rw [hr] at e
          cases hx : s.fs.inodes i with
          | none => rw [hx] at e; cases e
          | some y =>
            rw [hx] at e
            exact ⟨y, hx, (view_place (D := D) (i := i) (by simpa using e)).1⟩
        · rw [hr] at e; cases e
      · cases hi
  · intro i nd hi hl
    have hkn : keeps nd = true := by
      by_cases hk : keeps nd = true
      · exact hk
      · rcases fsck_drops T hp.nosock i with h4 | ⟨-, h4⟩
        · simp only [fsck] at h4
          rw [show s.fs.inodes i = some nd from hi] at h4
          dsimp only at h4
          rw [if_neg hk] at h4; cases h4
        · exact absurd h4 hl
    rcases hmix i with e | ⟨-, x, e1, e2⟩
    · rw [show s.fs.inodes i = some nd from hi] at e
      cases hr : replay b.inodes l i with
      | none => rw [hr] at e; cases e
      | some x =>
        rw [hr] at e
        obtain ⟨g1, g2, g3⟩ := view_place (D := D) (i := i) (x := x) (y := nd) (by simpa using e)
        refine ⟨x, ?_, g1, g2, g3, fun _ => rfl⟩
        simp only [recover, fsck, hr]
        rw [if_pos (by rw [keeps_place g1]; exact hkn)]
    · rw [show s.fs.inodes i = some nd from hi] at e1
      cases e1; rw [hkn] at e2; cases e2

/-! ## Witnesses -/

/-- The state after dying inside call `op` of cage 0 in the state after `h`, with one record appended. -/
def died (h : List (Nat × Op)) (op : Op) : State :=
  boot (start (recover (snapOf format) ((step (Kernel.run init h) 0 op).1.fs.log.take ((Kernel.run init h).fs.log.length + 1)))
    (step (Kernel.run init h) 0 op).1.fs.disk)

theorem died_reboot (h : List (Nat × Op)) (op : Op) :
    reboot (midDisk (snapOf format) (Kernel.run init h) (step (Kernel.run init h) 0 op).1 1 (step (Kernel.run init h) 0 op).1.fs.disk) =
      some (died h op) := rfl

/-- A file with two names. -/
def twoNames : List (Nat × Op) := [(0, .openP pA 0o102#32 0o666#32), (0, .write 3 [1, 2, 3]), (0, .close 3), (0, .link pA pB)]
/-- A file with one name. -/
def oneName : List (Nat × Op) := [(0, .openP pA 0o102#32 0o666#32), (0, .write 3 [1, 2, 3]), (0, .close 3)]

/-- C78 is about calls like these: `rename` is done or not done, `mkdir` and `unlink` are calls with two records. -/
example : Sess (fun _ => False) (snapOf format) (Kernel.run init twoNames) ∧
    Tame (Kernel.run init twoNames) 0 (.rename pA pD) ∧ (step (Kernel.run init twoNames) 0 (.rename pA pD)).2.ret = .ok 0 ∧
    plainCall (.rename pA pD) = true ∧
    (step (Kernel.run init twoNames) 0 (.rename pA pD)).1.fs.log.length = (Kernel.run init twoNames).fs.log.length + 1 ∧
    found (died twoNames (.rename pA pD)) pA = .err .ENOENT ∧ sizeOf? (died twoNames (.rename pA pD)) pD = some 3 ∧
    Tame (Kernel.run init twoNames) 0 (.unlink pA) ∧ (step (Kernel.run init twoNames) 0 (.unlink pA)).2.ret = .ok 0 ∧
    (step (Kernel.run init twoNames) 0 (.unlink pA)).1.fs.log.length = (Kernel.run init twoNames).fs.log.length + 2 :=
  ⟨Sess.run .init twoNames (by decide +kernel) (.inr (by decide +kernel)), tameB_tame (by decide +kernel), by decide +kernel, rfl,
    by decide +kernel, by decide +kernel, by decide +kernel, tameB_tame (by decide +kernel), by decide +kernel, by decide +kernel⟩

/-- `exit` of a cage with an open file without a name logs more than nothing. -/
example : Sess (fun _ => False) (snapOf format) (Kernel.run init work) ∧ leaveCall (.exit 0) = true ∧
    (step (Kernel.run init work) 0 (.exit 0)).2.ret = .ok 0 ∧
    (Kernel.run init work).fs.log.length < (step (Kernel.run init work) 0 (.exit 0)).1.fs.log.length :=
  ⟨work_sess, rfl, by decide +kernel, by decide +kernel⟩

/-- C78 fails for a call that makes something (mkdir, mknod, open with `O_CREAT`): the directory is logged before the new object.  When the
process dies between the two records, the name is there after the restart and leads nowhere, so that even `stat` of it aborts the whole
system; and when something else is made later, under any name, the old name leads to that. -/
theorem mid_crash_create_violated : Sess (fun _ => False) (snapOf format) (Kernel.run init []) ∧
    (step (Kernel.run init []) 0 (.mkdir pA 0o777#32)).2.ret = .ok 0 ∧
    reboot (midDisk (snapOf format) (Kernel.run init []) (step (Kernel.run init []) 0 (.mkdir pA 0o777#32)).1 1
      (step (Kernel.run init []) 0 (.mkdir pA 0o777#32)).1.fs.disk) = some (died [] (.mkdir pA 0o777#32)) ∧
    found (died [] (.mkdir pA 0o777#32)) pA = .panic ∧
    (step (died [] (.mkdir pA 0o777#32)) 0 (.openP pB 0o102#32 0o666#32)).2.ret = .ok 3 ∧
    ((step (step (died [] (.mkdir pA 0o777#32)) 0 (.openP pB 0o102#32 0o666#32)).1 0 (.stat pA)).2.stat =
      (step (step (died [] (.mkdir pA 0o777#32)) 0 (.openP pB 0o102#32 0o666#32)).1 0 (.stat pB)).2.stat) ∧
    found (step (died [] (.mkdir pA 0o777#32)) 0 (.openP pB 0o102#32 0o666#32)).1 pA = .ok 0 :=
  ⟨.init, by decide +kernel, died_reboot _ _, by decide +kernel, by decide +kernel, by decide +kernel, by decide +kernel⟩

/-- C78 fails for `link`: the directory is logged before the link count.  When the process dies between the two records the file has two names
and the count 1; removing one name then removes the file, and `stat` of the other name aborts the whole system. -/
theorem mid_crash_link_violated : Sess (fun _ => False) (snapOf format) (Kernel.run init oneName) ∧
    (step (Kernel.run init oneName) 0 (.link pA pB)).2.ret = .ok 0 ∧
    reboot (midDisk (snapOf format) (Kernel.run init oneName) (step (Kernel.run init oneName) 0 (.link pA pB)).1 1
      (step (Kernel.run init oneName) 0 (.link pA pB)).1.fs.disk) = some (died oneName (.link pA pB)) ∧
    found (died oneName (.link pA pB)) pA = .ok 0 ∧ found (died oneName (.link pA pB)) pB = .ok 0 ∧
    ((step (died oneName (.link pA pB)) 0 (.stat pB)).2.stat).map Stat.nlink = some 1 ∧
    (step (died oneName (.link pA pB)) 0 (.unlink pA)).2.ret = .ok 0 ∧
    found (step (died oneName (.link pA pB)) 0 (.unlink pA)).1 pB = .panic :=
  ⟨Sess.run .init oneName (by decide +kernel) (.inr (by decide +kernel)), by decide +kernel, died_reboot _ _, by decide +kernel,
    by decide +kernel, by decide +kernel, by decide +kernel, by decide +kernel⟩

/-- C78 fails for `unlink`: the name is gone and the link count not changed, so that the file stays for ever after its last name has
been removed. -/
theorem mid_crash_unlink_violated : Sess (fun _ => False) (snapOf format) (Kernel.run init twoNames) ∧
    (step (Kernel.run init twoNames) 0 (.unlink pA)).2.ret = .ok 0 ∧
    reboot (midDisk (snapOf format) (Kernel.run init twoNames) (step (Kernel.run init twoNames) 0 (.unlink pA)).1 1
      (step (Kernel.run init twoNames) 0 (.unlink pA)).1.fs.disk) = some (died twoNames (.unlink pA)) ∧
    found (died twoNames (.unlink pA)) pA = .err .ENOENT ∧
    ((step (died twoNames (.unlink pA)) 0 (.stat pB)).2.stat).map Stat.nlink = some 2 ∧
    (step (died twoNames (.unlink pA)) 0 (.unlink pB)).2.ret = .ok 0 ∧
    ((step (died twoNames (.unlink pA)) 0 (.unlink pB)).1.fs.inodes 9).isSome = true ∧
    nameCount (step (died twoNames (.unlink pA)) 0 (.unlink pB)).1.fs.inodes 10 9 = 0 :=
  ⟨Sess.run .init twoNames (by decide +kernel) (.inr (by decide +kernel)), by decide +kernel, died_reboot _ _, by decide +kernel,
    by decide +kernel, by decide +kernel, by decide +kernel, by decide +kernel⟩

/-- C78 fails for `rmdir`: the name is gone and the directory is still there, for ever, its number taken. -/
theorem mid_crash_rmdir_violated : Sess (fun _ => False) (snapOf format) (Kernel.run init making) ∧
    (step (Kernel.run init making) 0 (.rmdir pA)).2.ret = .ok 0 ∧
    reboot (midDisk (snapOf format) (Kernel.run init making) (step (Kernel.run init making) 0 (.rmdir pA)).1 1
      (step (Kernel.run init making) 0 (.rmdir pA)).1.fs.disk) = some (died making (.rmdir pA)) ∧
    found (died making (.rmdir pA)) pA = .err .ENOENT ∧
    ((died making (.rmdir pA)).fs.inodes 9).isSome = true ∧ nameCount (died making (.rmdir pA)).fs.inodes 10 9 = 0 :=
  ⟨Sess.run .init making (by decide +kernel) (.inr (by decide +kernel)), by decide +kernel, died_reboot _ _, by decide +kernel,
    by decide +kernel, by decide +kernel⟩

end Verif.Recovery
