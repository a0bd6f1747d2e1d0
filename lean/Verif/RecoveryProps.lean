import Verif.RecoverySess
import Verif.NsProps
import Verif.HistProps

/-!
# Crash recovery, shutdown and restart: C16, C26, C28, C53

The properties are about paths followed from the root through directory entries (`Walk`) and about what `stat` reports.
-/

namespace Verif.Recovery
open Verif.Path Verif.Fs Verif.Kernel

/-! ## Specification -/

/-- The system that starts on these host files; `none` if it aborts. -/
def reboot (d : Disk) : Option State := (load d).map boot

/-- The object with number `i` is the same in both states: kind, mode, link count, entries, content; the size too, unless
`cut`. -/
def SameAt (cut : Prop) (s s' : State) (i : Nat) : Prop :=
  ∃ nd nd', s.fs.inodes i = some nd ∧ s'.fs.inodes i = some nd' ∧ nd'.kind = nd.kind ∧ nd'.mode = nd.mode ∧ nd'.link = nd.link ∧
    nd'.ents = nd.ents ∧ (¬ cut → nd'.size = nd.size) ∧ (nd.kind = .file → s'.fs.disk i = s.fs.disk i)

/-- Every path leads to the same object in both states, or to none in both. -/
def SameTree (D : Nat → Prop) (s s' : State) : Prop :=
  ∀ ns, (∀ n ∈ ns, Good n) → ∀ i, (Walk s'.fs.inodes rootIno ns i ↔ Walk s.fs.inodes rootIno ns i) ∧
    (Walk s.fs.inodes rootIno ns i → SameAt (D i) s s' i)

/-- No directory has an entry for `i`. -/
def Unnamed (s : State) (i : Nat) : Prop := ∀ d nd n, s.fs.inodes d = some nd → (n, i) ∈ nd.ents → ¬ Proper n

/-! ## Lemmas -/

theorem incref_at (fs : Fs) (i : Nat) : (increfRoot fs).disk = fs.disk ∧ (increfRoot fs).next = fs.next ∧
    ((fs.inodes i = none ∧ (increfRoot fs).inodes i = none) ∨
     ∃ nd r, fs.inodes i = some nd ∧ (increfRoot fs).inodes i = some { nd with ref := r }) := by
  unfold increfRoot
  cases hr : fs.inodes rootIno with
  | none =>
    refine ⟨rfl, rfl, ?_⟩
    cases h : fs.inodes i with
    | none => exact .inl ⟨rfl, by rfl⟩
    | some nd => exact .inr ⟨nd, nd.ref, rfl, by rfl⟩
  | some x =>
    refine ⟨rfl, rfl, ?_⟩
    by_cases e : i = rootIno
    · subst e; exact .inr ⟨x, x.ref + 1, hr, by simp [Fs.set]⟩
    · simp only [Fs.set]
      rw [upd_ne _ _ e]
      cases h : fs.inodes i with
      | none => exact .inl ⟨rfl, rfl⟩
      | some nd => exact .inr ⟨nd, nd.ref, rfl, rfl⟩

theorem boot_at (fs : Fs) (i : Nat) : (boot fs).fs.disk = fs.disk ∧ (boot fs).fs.next = fs.next ∧
    ((fs.inodes i = none ∧ (boot fs).fs.inodes i = none) ∨
     ∃ nd r, fs.inodes i = some nd ∧ (boot fs).fs.inodes i = some { nd with ref := r }) := by
  obtain ⟨h1, h2, h3⟩ := incref_at fs i
  obtain ⟨g1, g2, g3⟩ := incref_at (increfRoot fs) i
  refine ⟨g1.trans h1, g2.trans h2, ?_⟩
  simp only [boot]
  rcases h3 with ⟨a, c⟩ | ⟨nd, r, a, c⟩
  · rcases g3 with ⟨-, e⟩ | ⟨x, q, e, -⟩
    · exact .inl ⟨a, e⟩
    · rw [c] at e; cases e
  · rcases g3 with ⟨e, -⟩ | ⟨x, q, e, e'⟩
    · rw [c] at e; cases e
    · rw [c] at e; cases e; exact .inr ⟨nd, q, a, e'⟩

/-- A start from a table that has lost at most loose inodes. -/
theorem same_tree {D : Nat → Prop} {s : State} {b : Snap} {disk : Nat → Option (List UInt8)} (T : Tree s.fs.inodes s.fs.next)
    (hsub : ∀ i nd', b.inodes i = some nd' → ∃ nd, s.fs.inodes i = some nd ∧ SamePlace nd' nd)
    (hkeep : ∀ i nd, s.fs.inodes i = some nd → ¬ Loose s.fs.inodes s.fs.next i → ∃ nd', b.inodes i = some nd' ∧ SamePlace nd' nd ∧
      nd'.mode = nd.mode ∧ (¬ D i → nd'.size = nd.size) ∧ (nd.kind = .file → disk i = s.fs.disk i)) :
    SameTree D s (boot (start b disk)) := by
  intro ns hns i
  have hp : ∀ n ∈ ns, Proper n := fun n hn => Good.proper (hns n hn)
  refine ⟨walk_prune T ?_ ?_ hp root_not_loose, ?_⟩
  · intro k nd' hk
    obtain ⟨-, -, ⟨h1, h2⟩ | ⟨x, r, h1, h2⟩⟩ := boot_at (start b disk) k
    · rw [h2] at hk; cases hk
    · rw [h2] at hk; cases hk
      exact hsub k x h1
  · intro k nd hk hl
    obtain ⟨nd', g1, g2, -⟩ := hkeep k nd hk hl
    obtain ⟨-, -, ⟨h1, h2⟩ | ⟨x, r, h1, h2⟩⟩ := boot_at (start b disk) k
    · simp only [start] at h1; rw [g1] at h1; cases h1
    · simp only [start] at h1; rw [g1] at h1; cases h1
      exact ⟨_, h2, g2⟩
  · intro hw
    have hl := walk_not_loose T hw hp root_not_loose
    obtain ⟨nd, hnd⟩ := Walk.exists T hw hp (by obtain ⟨nd, h1, -⟩ := T.root; exact ⟨nd, h1⟩)
    obtain ⟨nd', g1, ⟨g2, g3, g4⟩, g5, g6, g7⟩ := hkeep i nd hnd hl
    obtain ⟨hd, -, ⟨h1, h2⟩ | ⟨x, r, h1, h2⟩⟩ := boot_at (start b disk) i
    · simp only [start] at h1; rw [g1] at h1; cases h1
    · simp only [start] at h1; rw [g1] at h1; cases h1
      refine ⟨nd, _, hnd, h2, g2, g5, g3, g4, g6, ?_⟩
      intro hk
      rw [hd]
      simp only [start, g1]
      rw [if_pos (by simp only [Inode.isFile, g2, hk])]
      exact g7 hk

/-- The same tree answers `stat` in the same way. -/
theorem same_stat {s s' : State} (h : Inv s []) (h' : Inv s' []) (ht : SameTree (fun _ => False) s s') {c c' : Nat} {cg cg' : Cage}
    (hc : s.cages c = some cg) (hc' : s'.cages c' = some cg') {p : Str} (hp : isRelative p = false) :
    (step s' c' (.stat p)).2 = (step s c (.stat p)).2 := by
  have e : cg'.path p = cg.path p := by simp only [Cage.path, normpath_absolute cg'.cwd cg.cwd p hp]
  have hg := h.gp hc p
  by_cases hex : ∃ i, Leads s cg p i
  · obtain ⟨i, hi⟩ := hex
    obtain ⟨h1, h2⟩ := ht _ hg i
    have hi' : Leads s' cg' p i := by unfold Leads; rw [e]; exact h1.2 hi
    obtain ⟨par, w1, -⟩ := h.walk_found hc hi
    obtain ⟨par', w2, -⟩ := h'.walk_found hc' hi'
    obtain ⟨nd, nd', n1, n2, n3, n4, n5, n6, n7, -⟩ := h2 hi
    have hst : statOf i nd' = statOf i nd := by simp only [statOf, n3, n4, n5, n7 (fun e => e)]
    simp only [step, hc, hc', Fs.stat, w1, w2, n1, n2, hst]
  · have hno : ∀ i, ¬ Leads s cg p i := fun i hi => hex ⟨i, hi⟩
    have hno' : ∀ i, ¬ Leads s' cg' p i := by
      intro i hi
      unfold Leads at hi; rw [e] at hi
      exact hno i ((ht _ hg i).1.1 hi)
    obtain ⟨par, w1, -⟩ := h.walk_missing hc hno
    obtain ⟨par', w2, -⟩ := h'.walk_missing hc' hno'
    simp only [step, hc, hc', Fs.stat, w1, w2]

/-! ## C26: crash -/

theorem reboot_crash (b : Snap) (s : State) : reboot (diskOf b s.fs) = some (boot (start (recover b s.fs.log) s.fs.disk)) := rfl

/-- C26.  The process dies between two calls: the system comes up again, every path leads to what it led to, with the same kind,
mode, link count, entries and content, and with the same size unless the file was emptied by an open with `O_TRUNC` in this
session (`D`).  Histories: any tame calls of any cages since a start on a new disk or after a clean shutdown. -/
theorem crash_paths_partial {D : Nat → Prop} {b : Snap} {s : State} (h : Sess D b s) :
    ∃ s', reboot (diskOf b s.fs) = some s' ∧ SameTree D s s' := by
  refine ⟨_, reboot_crash b s, ?_⟩
  have T := h.life.inv.fs.tree
  obtain ⟨h1, h2⟩ := crash_table (sess_pend h) T
  refine same_tree T ?_ ?_
  · intro i nd' hi
    obtain ⟨nd, g1, -, g2⟩ := h1 i nd' hi
    exact ⟨nd, g1, (view_place g2).1⟩
  · intro i nd hi hl
    obtain ⟨nd', g1, g2⟩ := h2 i nd hi hl
    obtain ⟨g3, g4, g5⟩ := view_place g2
    exact ⟨nd', g1, g3, g4, g5, fun _ => rfl⟩

/-- C26.  The same as an answer of the interface: if no file was emptied by an open, `stat` of every absolute path gives after the crash what it
gave before it, in whichever cage. -/
theorem crash_stat_partial {b : Snap} {s : State} (h : Sess (fun _ => False) b s) {c : Nat} {cg : Cage} (hc : s.cages c = some cg) {p : Str}
    (hp : isRelative p = false) :
    ∃ s', reboot (diskOf b s.fs) = some s' ∧ (step s' 0 (.stat p)).2 = (step s c (.stat p)).2 ∧
      (step s' 1 (.stat p)).2 = (step s c (.stat p)).2 := by
  obtain ⟨s', e, ht⟩ := crash_paths_partial h
  rw [reboot_crash] at e
  cases e
  have hi := (Life.crash h.life (sess_synced h)).inv
  exact ⟨_, reboot_crash b s, same_stat h.life.inv hi ht hc rfl hp, same_stat h.life.inv hi ht hc rfl hp⟩

/-- C26.  What a crash finds without a name is reclaimed, unless it is a directory. -/
theorem crash_reclaims_partial {D : Nat → Prop} {b : Snap} {s : State} (h : Sess D b s) {i : Nat} {nd : Inode} (hi : s.fs.inodes i = some nd)
    (hk : nd.kind ≠ .dir) (hn : Unnamed s i) :
    ∃ s', reboot (diskOf b s.fs) = some s' ∧ s'.fs.inodes i = none ∧ s'.fs.disk i = none := by
  refine ⟨_, reboot_crash b s, ?_⟩
  have T := h.life.inv.fs.tree
  have hnd : nd.isDir = false := by cases hx : nd.kind <;> simp_all [Inode.isDir]
  have hl : nd.link = 0 := by
    rw [T.flink hi hnd]
    apply sumTo_zero
    intro d _
    simp only [namesIn]
    split
    · rfl
    · rename_i dd hd
      apply Classical.byContradiction
      intro hne
      obtain ⟨n, h1, h2⟩ := nm_pos.1 (Nat.pos_of_ne_zero hne)
      exact hn d dd n hd h1 h2
  have hx : (recover b s.fs.log).inodes i = none := by
    cases hr : (recover b s.fs.log).inodes i with
    | none => rfl
    | some nd' =>
      obtain ⟨x, g1, g2, -⟩ := (crash_table (sess_pend h) T).1 i nd' hr
      rw [hi] at g1; cases g1
      simp only [keeps] at g2
      cases hx : nd.kind <;> simp_all
  obtain ⟨hd, -, ⟨h1, h2⟩ | ⟨x, r, h1, h2⟩⟩ := boot_at (start (recover b s.fs.log) s.fs.disk) i
  · refine ⟨h2, ?_⟩
    rw [hd]; simp only [start, hx]
  · simp only [start, hx] at h1; cases h1

/-- C26.  And nothing appears that was not there. -/
theorem crash_invents_nothing {D : Nat → Prop} {b : Snap} {s : State} (h : Sess D b s) :
    ∃ s', reboot (diskOf b s.fs) = some s' ∧ ∀ i, s'.fs.inodes i ≠ none → s.fs.inodes i ≠ none := by
  refine ⟨_, reboot_crash b s, ?_⟩
  intro i hi
  have T := h.life.inv.fs.tree
  obtain ⟨-, -, ⟨h1, h2⟩ | ⟨x, r, h1, h2⟩⟩ := boot_at (start (recover b s.fs.log) s.fs.disk) i
  · exact absurd h2 hi
  · obtain ⟨y, g1, -⟩ := (crash_table (sess_pend h) T).1 i x h1
    rw [g1]; simp

/-! ## C53: clean shutdown and restart -/

/-- What is on disk after a clean shutdown. -/
def stopped (s : State) : Disk := { snap := .whole (snapOf (finalize s).1.fs), log := none, files := (finalize s).1.fs.disk }

theorem reboot_stopped (s : State) : reboot (stopped s) =
    some (boot (start (snapOf (finalize s).1.fs) (finalize s).1.fs.disk)) := rfl

/-- C53.  The shutdown does not abort, the system comes up again, and every path leads to what it led to, with the same attributes and content.
States: every reachable one, also after earlier restarts and crashes, in which no path is recorded as that of a unix socket. -/
theorem restart_paths_partial {b : Snap} {s : State} (h : Life b s) (hd : s.fs.dom = []) :
    (finalize s).2 = .ok 0 ∧ ∃ s', reboot (stopped s) = some s' ∧ SameTree (fun _ => False) s s' := by
  have hinv := h.inv
  refine ⟨by rw [finalize_eq hd]; exact (exitAll_inv hinv maxCage).2.1, _, reboot_stopped s, ?_⟩
  rw [finalize_eq hd]
  have T := hinv.fs.tree
  obtain ⟨b0, h0⟩ := life_nosock h
  have hs := Shed.exitAll maxCage s
  generalize (exitAll maxCage s).1.fs = g at hs
  refine same_tree T ?_ ?_
  · intro i nd' hi
    simp only [snapOf] at hi
    rcases hs.at_ i with ⟨-, p2⟩ | ⟨nd, -, -, p2⟩ | ⟨nd, r, p1, p2, p3⟩
    · rw [p2] at hi; cases hi
    · rw [p2] at hi; cases hi
    · rw [p2] at hi; cases hi; exact ⟨nd, p1, rfl, rfl, rfl⟩
  · intro i nd hi hl
    simp only [snapOf]
    rcases hs.at_ i with ⟨p1, -⟩ | ⟨x, p1, p2, p3⟩ | ⟨x, r, p1, p2, p3⟩
    · rw [hi] at p1; cases p1
    · rw [hi] at p1; cases p1
      rcases fsck_drops T h0.nosock i with h4 | ⟨-, h4⟩
      · simp only [fsck, hi, p2] at h4; cases h4
      · exact absurd h4 hl
    · rw [hi] at p1; cases p1
      rw [p2]
      exact ⟨_, rfl, ⟨rfl, rfl, rfl⟩, rfl, fun _ => rfl, fun _ => p3⟩

/-- C53.  The same as an answer of the interface. -/
theorem restart_stat_partial {b : Snap} {s : State} (h : Life b s) (hd : s.fs.dom = []) {c : Nat} {cg : Cage} (hc : s.cages c = some cg) {p : Str}
    (hp : isRelative p = false) :
    ∃ s', reboot (stopped s) = some s' ∧ (step s' 0 (.stat p)).2 = (step s c (.stat p)).2 ∧
      (step s' 1 (.stat p)).2 = (step s c (.stat p)).2 := by
  obtain ⟨-, s', e, ht⟩ := restart_paths_partial h hd
  rw [reboot_stopped] at e
  cases e
  have hi := (Life.restart h hd).inv
  exact ⟨_, reboot_stopped s, same_stat h.inv hi ht hc rfl hp, same_stat h.inv hi ht hc rfl hp⟩

/-! ## C28: replaying twice, crashes during recovery and shutdown -/

theorem replay_twice (m : Nat → Option Inode) (l : Log) : replay (replay m l) l = replay m l := by
  funext i
  by_cases ht : ∃ e, e ∈ l ∧ e.1 = i
  · exact replay_touched ht _ _
  · exact replay_untouched (fun e he hi => ht ⟨e, he, hi⟩) _

/-- C28.  Recovering from what the first recovery made gives the same table. -/
theorem recover_twice (b : Snap) (l : Log) : (recover (recover b l) l).inodes = (recover b l).inodes := by
  funext i
  simp only [recover]
  by_cases ht : ∃ e, e ∈ l ∧ e.1 = i
  · simp only [fsck]; rw [replay_touched ht _ b.inodes]
  · have hu : ∀ m, replay m l i = m i := fun m => replay_untouched (fun e he hi => ht ⟨e, he, hi⟩) m
    simp only [fsck]
    rw [hu, hu]
    dsimp only [fsck]
    rw [hu]
    cases hx : b.inodes i with
    | none => rfl
    | some nd =>
      dsimp only
      by_cases hk : keeps nd = true
      · simp only [hk, if_true]
      · rw [if_neg hk]

/-- C28.  A crash during recovery before the log is removed loses nothing: the next recovery starts from the same files. -/
theorem recovery_crash_partial (d d' : Disk) (h : d' ∈ loadDisks d) (hs : ∃ b, d.snap = .whole b) (hl : d'.log = d.log) : reboot d' = reboot d := by
  obtain ⟨b, hb⟩ := hs
  obtain ⟨sn, lg, fl⟩ := d
  simp only at hb; subst hb
  simp only [loadDisks, List.mem_cons, List.not_mem_nil, or_false] at h
  rcases h with rfl | rfl | rfl
  · rfl
  · simp only at hl; subst hl; rfl
  · simp only at hl; subst hl; rfl

/-- C28.  A crash during shutdown while the log is still there, before the metadata file is removed or after it has been written again: the system
comes up, and every path leads to what it led to when the shutdown began (sizes as in C26). -/
theorem shutdown_crash_partial {D : Nat → Prop} {b : Snap} {s : State} (h : Sess D b s) (hd : s.fs.dom = []) (d : Disk)
    (hm : d ∈ stopDisks (diskOf b (finalize s).1.fs) (snapOf (finalize s).1.fs)) (hw : ∃ b', d.snap = .whole b') (hl : d.log ≠ none) :
    ∃ s', reboot d = some s' ∧ SameTree D s s' := by
  have hinv := h.life.inv
  have T := hinv.fs.tree
  have hp := exitAll_pend (view_blind D) maxCage (sess_pend h)
  have hs := Shed.exitAll maxCage s
  have hT2 := (exitAll_inv hinv maxCage).1.fs.tree
  rw [finalize_eq hd] at hm
  generalize (exitAll maxCage s).1.fs = g at hs hp hm hT2
  -- the table that the shutdown wrote, or the log over the old one, or the log over the new one
  have key : ∀ b' : Snap, (∀ i, (replay b'.inodes g.log i).map (view D i) = (g.inodes i).map (view D i)) →
      SameTree D s (boot (start (recover b' g.log) g.disk)) := by
    intro b' hb'
    have hp' : Pend (view D) { b' with next := g.next } [] g :=
      ⟨hp.nosock, fun i _ => hb' i, Nat.le_succ_of_le (maxNum_le _ _)⟩
    obtain ⟨h1, h2⟩ := crash_table hp' hT2
    refine same_tree T ?_ ?_
    · intro i nd' hi
      obtain ⟨nd, g1, -, g2⟩ := h1 i nd' hi
      rcases hs.at_ i with ⟨-, p2⟩ | ⟨x, -, -, p2⟩ | ⟨x, r, p1, p2, p3⟩
      · rw [g1] at p2; cases p2
      · rw [g1] at p2; cases p2
      · rw [g1] at p2; cases p2
        exact ⟨x, p1, (view_place g2).1⟩
    · intro i nd hi hnl
      rcases hs.at_ i with ⟨p1, -⟩ | ⟨x, p1, p2, p3⟩ | ⟨x, r, p1, p2, p3⟩
      · rw [hi] at p1; cases p1
      · rw [hi] at p1; cases p1
        rcases fsck_drops T (sess_pend h).nosock i with h4 | ⟨-, h4⟩
        · simp only [fsck, hi, p2] at h4; cases h4
        · exact absurd h4 hnl
      · rw [hi] at p1; cases p1
        have hkn : keeps nd = true := by
          rcases fsck_drops T (sess_pend h).nosock i with h4 | ⟨-, h4⟩
          · simp only [fsck, hi] at h4
            by_cases hkk : keeps nd = true
            · exact hkk
            · rw [if_neg hkk] at h4; cases h4
          · exact absurd h4 hnl
        have h5 := hb' i
        rw [p2] at h5
        cases hr : replay b'.inodes g.log i with
        | none => rw [hr] at h5; cases h5
        | some y =>
          rw [hr] at h5
          have h6 : view D i y = view D i { nd with ref := r } := by simpa using h5
          obtain ⟨⟨v1, v2, v3⟩, v4, v5⟩ := view_place h6
          refine ⟨y, ?_, ⟨v1, v2, v3⟩, v4, v5, fun _ => p3⟩
          simp only [recover, fsck, hr]
          rw [if_pos]
          simp only [keeps] at hkn ⊢
          rw [v1, v2]; exact hkn
  simp only [stopDisks, List.mem_cons, List.not_mem_nil, or_false] at hm
  rcases hm with rfl | rfl | rfl | rfl | rfl
  · exact ⟨_, rfl, key b (fun i => hp.same i (by simp))⟩
  · obtain ⟨_, e⟩ := hw; cases e
  · obtain ⟨_, e⟩ := hw; cases e
  · refine ⟨_, rfl, key (snapOf g) ?_⟩
    intro i
    by_cases ht : ∃ e, e ∈ g.log ∧ e.1 = i
    · rw [replay_touched ht _ b.inodes]; exact hp.same i (by simp)
    · rw [replay_untouched (fun e he hi => ht ⟨e, he, hi⟩)]
      simp only [snapOf]
      cases g.inodes i with
      | none => rfl
      | some nd => exact congrArg some (view_blind D i nd 0)
  · exact absurd rfl hl

/-! ## C16: numbers across restarts and crashes -/

/-- The second state comes later in the life of the system: after calls, clean restarts and crashes. -/
inductive Later : Snap → State → Snap → State → Prop
  | refl (b : Snap) (s : State) : Later b s b s
  | step {b b' : Snap} {s s' : State} (c : Nat) (op : Op) : Later b s b' s' → Tame s' c op → (step s' c op).2.ret ≠ .panic →
      Later b s b' (step s' c op).1
  | restart {b b' : Snap} {s s' s'' : State} : Later b s b' s' → s'.fs.dom = [] → reboot (stopped s') = some s'' →
      Later b s (snapOf (finalize s').1.fs) s''
  | crash {b b' : Snap} {s s' s'' : State} : Later b s b' s' → Synced b' s'.fs → reboot (diskOf b' s'.fs) = some s'' →
      Later b s b' s''

theorem Later.life {b b' : Snap} {s s' : State} (h : Later b s b' s') (hl : Life b s) : Life b' s' := by
  induction h with
  | refl => exact hl
  | step c op _ ht hp ih => exact .step c op (ih hl) ht hp
  | restart _ hd e ih => rw [reboot_stopped] at e; cases e; exact .restart (ih hl) hd
  | crash _ hs e ih => rw [reboot_crash] at e; cases e; exact .crash (ih hl) hs

theorem restart_keep {s : State} (hd : s.fs.dom = []) {s' : State} (e : reboot (stopped s) = some s') :
    s'.fs.next = s.fs.next ∧ ∀ i, Exists s' i → Exists s i := by
  rw [reboot_stopped, finalize_eq hd] at e
  have hs := Shed.exitAll maxCage s
  generalize (exitAll maxCage s).1.fs = g at hs e
  cases e
  refine ⟨(boot_at _ 0).2.1.trans hs.next, ?_⟩
  intro i hi
  obtain ⟨-, -, ⟨h1, h2⟩ | ⟨x, r, h1, h2⟩⟩ := boot_at (start (snapOf g) g.disk) i
  · exact absurd h2 hi
  · simp only [start, snapOf] at h1
    rcases hs.at_ i with ⟨-, p2⟩ | ⟨nd, -, -, p2⟩ | ⟨nd, q, p1, -⟩
    · rw [p2] at h1; cases h1
    · rw [p2] at h1; cases h1
    · unfold Kernel.Exists; rw [p1]; simp

theorem crash_keep {b : Snap} {s : State} (hs : Synced b s.fs) {s' : State} (e : reboot (diskOf b s.fs) = some s') :
    s.fs.next ≤ s'.fs.next ∧ ∀ i, Exists s' i → Exists s i := by
  rw [reboot_crash] at e
  cases e
  refine ⟨by rw [(boot_at _ 0).2.1]; exact hs.next, ?_⟩
  intro i hi
  obtain ⟨-, -, ⟨h1, h2⟩ | ⟨x, r, h1, h2⟩⟩ := boot_at (start (recover b s.fs.log) s.fs.disk) i
  · exact absurd h2 hi
  · simp only [start, recover, fsck, hs.same i] at h1
    unfold Kernel.Exists
    intro hx
    rw [hx] at h1; cases h1

theorem Later.keep {b b' : Snap} {s s' : State} (h : Later b s b' s') (hl : Life b s) :
    s.fs.next ≤ s'.fs.next ∧ ∀ i, Exists s' i → Exists s i ∨ s.fs.next ≤ i := by
  induction h with
  | refl => exact ⟨Nat.le_refl _, fun i hi => .inl hi⟩
  | step c op _ ht hp ih =>
    obtain ⟨h1, h2⟩ := ih hl
    refine ⟨Nat.le_trans h1 (step_evo _ c op).next, fun i hi => ?_⟩
    rcases step_exists hi with h3 | h3
    · exact h2 i h3
    · exact .inr (by omega)
  | restart _ hd e ih =>
    obtain ⟨h1, h2⟩ := ih hl
    obtain ⟨g1, g2⟩ := restart_keep hd e
    exact ⟨by omega, fun i hi => h2 i (g2 i hi)⟩
  | crash _ hs e ih =>
    obtain ⟨h1, h2⟩ := ih hl
    obtain ⟨g1, g2⟩ := crash_keep hs e
    exact ⟨by omega, fun i hi => h2 i (g2 i hi)⟩

/-- C16.  Across calls, clean restarts and crashes (from which the disk can restore the memory): once an object has existed and is gone, its
number is never in use again. -/
theorem number_not_reused_across_partial {b b1 b2 : Snap} {s s1 s2 : State} (hl : Life b s) (h1 : Later b s b1 s1) (h2 : Later b1 s1 b2 s2)
    (i : Nat) (hex : Exists s i) (hgone : ¬ Exists s1 i) : ¬ Exists s2 i := by
  intro hx
  have hb : i < s.fs.next := by
    cases hi : s.fs.inodes i with
    | none => exact absurd hi hex
    | some nd => exact hl.inv.fs.tree.bound hi
  obtain ⟨k1, -⟩ := h1.keep hl
  rcases (h2.keep (h1.life hl)).2 i hx with h | h
  · exact hgone h
  · omega

end Verif.Recovery
