import Verif.AnyLock

/-! # Locks made with open, mkdir or link: at most one process has the lock (property C114) -/

namespace Verif.AnyLock
open Verif.Fs Verif.Kernel Verif.Path Verif.Recovery
open Verif.LockFile (Conf There Ok Start)
open Verif.Mailbox (object_leads free_leads link_returns)

/-! ## Lemmas -/

theorem mkdir_returns {s : State} (hR : Reach s) {c : Nat} {cg : Cage} (hc : s.cages c = some cg) (p : Str) (mode : BitVec 32) :
    (∃ e, (step s c (.mkdir p mode)).2.ret = .err e) ∨ (step s c (.mkdir p mode)).2.ret = .ok 0 := by
  by_cases hp : p = []
  · simp [step, hc, nonEmpty, hp, Out.r]
  · obtain ⟨pl, ha, -⟩ := place_exists_unique hR hc p
    rw [mkdir_answer hR hc hp ha]
    cases pl <;> simp only [mkdirAnswer] <;> (repeat' split) <;> simp

theorem There.ne_nil {s : State} {N : List Name} (h : ¬ There s N) : N ≠ [] := by
  rintro rfl; exact h ⟨rootIno, .here _⟩

/-- A call to make the name neither aborts nor is one of those left out. -/
theorem make_returns {s : State} (hR : Reach s) {c : Nat} {cg : Cage} (hc : s.cages c = some cg) {p : Str} (hp : cg.path p ≠ []) (w : Make) :
    Tame s c (w.op p) ∧ ((∃ e, (step s c (w.op p)).2.ret = .err e) ∨ ∃ v, (step s c (w.op p)).2.ret = .ok v) := by
  cases w with
  | file flags mode => exact ⟨by simp only [Make.op, Tame, hc], LockFile.open_returns hR hc p flags mode⟩
  | dir mode => exact ⟨by simp only [Make.op, Tame, hc], (mkdir_returns hR hc p mode).imp id fun h => ⟨0, h⟩⟩
  | link old => exact ⟨by simp only [Make.op, Tame, hc], (link_returns hR hc old p hp).imp id fun h => ⟨0, h⟩⟩

/-- If it succeeds, the name was missing and is there. -/
theorem make_ok {s : State} (hR : Reach s) {c : Nat} {cg : Cage} (hc : s.cages c = some cg) {p : Str} {w : Make} (hw : w.Excl) {v : Int}
    (hret : (step s c (w.op p)).2.ret = .ok v) : (∀ k, ¬ Leads s cg p k) ∧ ∃ i, Leads (step s c (w.op p)).1 cg p i := by
  cases w with
  | dir mode =>
    obtain ⟨d, n, i, h1, h2, -⟩ := mkdir_effect hR hc hret
    exact ⟨free_leads hR h1, i, h2⟩
  | link old =>
    obtain ⟨d, k, d', k', i, nd, pd', -, h2, h3, -⟩ := link_effect hR hc hret
    exact ⟨free_leads hR h2, i, object_leads h3⟩
  | file flags mode =>
    simp only [Make.op] at hret ⊢
    have hno : ∀ k, ¬ Leads s cg p k := by
      intro k hk
      have hpe : p ≠ [] := by rintro rfl; simp [step, hc, openSys, Out.r] at hret
      have hfd : ∃ fd, fd < 1024 ∧ cg.fds fd = none := by
        cases hn : nextFd cg.fds 0 with
        | none => simp [step, hc, openSys, hpe, hn, Out.r] at hret
        | some fd => obtain ⟨-, a, b, -⟩ := Kernel.nextFd_some hn; exact ⟨fd, a, b⟩
      rw [open_excl_existing hR hc hpe hk hfd hw] at hret
      cases hret
    obtain ⟨-, i, fd, -, -, hi, -⟩ := open_creates hR hc hno hret
    exact ⟨hno, i, hi⟩

theorem take_ok {N : List Name} {x : Conf} (hN : N ≠ []) (h : Ok N x) {c : Nat} {p : Str} {w : Make} (hf : Fair N x (.take c p w)) :
    Ok N (next x (.take c p w)) := by
  obtain ⟨⟨cg, hc, hp⟩, hw⟩ := hf
  obtain ⟨ht, hans⟩ := make_returns h.reach hc (p := p) (by rw [hp]; exact hN) w
  have hnp : (step x.s c (w.op p)).2.ret ≠ .panic := by
    intro hx; rcases hans with ⟨e, he⟩ | ⟨v, hv⟩ <;> simp_all
  have hlead : ∀ s k, Leads s cg p k ↔ Walk s.fs.inodes rootIno N k := by intro s k; unfold Leads; rw [hp]
  refine ⟨.step c _ h.reach ht hnp, h.good, ?_⟩
  rcases hans with ⟨e, hret⟩ | ⟨v, hret⟩
  · have hE : There (step x.s c (w.op p)).1 N ↔ There x.s N :=
      exists_congr fun k => failed_call_keeps_paths h.reach (by cases w <;> rfl) hret rootIno k N
    simp only [next, hret, hE]; exact h.one
  · obtain ⟨a, i, b⟩ := make_ok h.reach hc hw hret
    rcases h.one with ⟨h1, -⟩ | ⟨c', -, k, hk⟩
    · exact .inr ⟨c, by simp only [next, hret, h1], i, (hlead _ _).1 b⟩
    · exact absurd ((hlead _ _).2 hk) (a k)

theorem give_ok {N : List Name} {x : Conf} (h : Ok N x) {c : Nat} {p : Str} {dir : Bool} (hf : Fair N x (.give c p dir)) :
    Ok N (next x (.give c p dir)) := by
  obtain ⟨⟨cg, hc, hp⟩, hnp, hw⟩ := hf
  cases dir with
  | false =>
    have := LockFile.give_ok h (c := c) (p := p) ⟨⟨cg, hc, hp⟩, hw rfl⟩
    exact this
  | true =>
    by_cases hm : c ∈ x.holders
    · simp only [gone, if_true] at hnp
      have hnx : next x (.give c p true) = ⟨(step x.s c (.rmdir p)).1,
          if (step x.s c (.rmdir p)).2.ret = .ok 0 then x.holders.erase c else x.holders⟩ := by simp only [next, if_pos hm, gone, if_true]
      have hR' : Reach (step x.s c (.rmdir p)).1 := .step c _ h.reach (by simp only [Tame, hc]) hnp
      rw [hnx]
      refine ⟨hR', h.good, ?_⟩
      obtain ⟨h1, k, hk⟩ : x.holders = [c] ∧ There x.s N := by
        rcases h.one with ⟨h1, -⟩ | ⟨c', h1, h2⟩
        · rw [h1] at hm; simp at hm
        · rw [h1] at hm ⊢; simp at hm; subst hm; exact ⟨rfl, h2⟩
      have hlead : Leads x.s cg p k := by unfold Leads; rw [hp]; exact hk
      by_cases hret : (step x.s c (.rmdir p)).2.ret = .ok 0
      · left
        refine ⟨by simp [hret, h1], ?_⟩
        rintro ⟨j, hj⟩
        have e := (rmdir_effect h.reach hc hret hlead).1 N j (fun n hn => (isDots_iff n).2 (Good.proper (h.good n hn)))
        obtain ⟨a, b⟩ := e.1 hj
        exact b (walk_fun h.reach.inv.fs.tree a hk)
      · right
        refine ⟨c, by simp [hret, h1], k, ?_⟩
        obtain ⟨e, he⟩ : ∃ e, (step x.s c (.rmdir p)).2.ret = .err e := by
          by_cases hpe : p = []
          · simp [step, hc, nonEmpty, hpe, Out.r]
          · obtain ⟨pl, ha, -⟩ := place_exists_unique h.reach hc p
            rw [rmdir_answer h.reach hc hpe ha] at hret hnp ⊢
            revert hret hnp
            cases pl <;> simp only [rmdirAnswer] <;> (repeat' split) <;> simp
        exact (failed_call_keeps_paths h.reach (op := .rmdir p) rfl he rootIno k N).2 hk
    · simp only [next, if_neg hm]; exact h

theorem Runs.ok {N : List Name} {x y : Conf} {ms : List Move} (hN : N ≠ []) (hr : Runs N x ms y) (h : Ok N x) : Ok N y := by
  induction hr with
  | nil => exact h
  | cons hf _ ih =>
    rename_i m _ _
    refine ih ?_
    cases m with
    | take => exact take_ok hN h hf
    | give => exact give_ok h hf
    | other => exact LockFile.other_ok h hf

/-! ## Theorems -/

/-- C114.  **At most one process has the lock**, whatever happens in whatever order and whichever of the three calls each process makes it with; and the
name is there exactly while somebody has it. -/
theorem any_lock_exclusive_partial {N : List Name} {x y : Conf} {ms : List Move} (h : Start N x) (hr : Runs N x ms y) :
    y.holders.length ≤ 1 ∧ (y.holders ≠ [] ↔ There y.s N) := by
  rcases (hr.ok (There.ne_nil h.missing) h.ok).one with ⟨h1, h2⟩ | ⟨c, h1, h2⟩
  · rw [h1]; exact ⟨by simp, by simp [h2]⟩
  · rw [h1]; exact ⟨by simp, by simp [h2]⟩

/-- C114.  While somebody has it, everybody who tries is told an error, and nothing changes. -/
theorem any_lock_refused_partial {N : List Name} {x y : Conf} {ms : List Move} (h : Start N x) (hr : Runs N x ms y) (hh : y.holders ≠ [])
    {c : Nat} {cg : Cage} (hc : y.s.cages c = some cg) {p : Str} (hN : cg.path p = N) {w : Make} (hw : w.Excl) :
    (step y.s c (w.op p)).1 = y.s ∧ (∃ e, (step y.s c (w.op p)).2.ret = .err e) ∧ next y (.take c p w) = y := by
  have ok := hr.ok (There.ne_nil h.missing) h.ok
  obtain ⟨k, hk⟩ := (any_lock_exclusive_partial h hr).2.1 hh
  have hlead : Leads y.s cg p k := by unfold Leads; rw [hN]; exact hk
  obtain ⟨-, ⟨e, he⟩ | ⟨v, hv⟩⟩ := make_returns ok.reach hc (p := p) (by rw [hN]; exact There.ne_nil h.missing) w
  · have := failed_call_changes_nothing_partial ok.reach (c := c) (op := w.op p) (by cases w <;> rfl) (by cases w <;> (intro _ _ _ _ _ _ _ hx; cases hx)) he
    exact ⟨this, ⟨e, he⟩, by simp only [next, he, this]⟩
  · exact absurd hlead ((make_ok ok.reach hc hw hv).1 k)

/-- C114.  With `mkdir` the error is EEXIST. -/
theorem dir_lock_refused_partial {N : List Name} {x y : Conf} {ms : List Move} (h : Start N x) (hr : Runs N x ms y) (hh : y.holders ≠ [])
    {c : Nat} {cg : Cage} (hc : y.s.cages c = some cg) {p : Str} (hp : p ≠ []) (hN : cg.path p = N) (mode : BitVec 32) :
    (step y.s c (.mkdir p mode)).2.ret = .err .EEXIST := by
  have ok := hr.ok (There.ne_nil h.missing) h.ok
  obtain ⟨k, hk⟩ := (any_lock_exclusive_partial h hr).2.1 hh
  have hlead : Leads y.s cg p k := by unfold Leads; rw [hN]; exact hk
  obtain ⟨pl, ha, -⟩ := place_exists_unique ok.reach hc p
  rw [mkdir_answer ok.reach hc hp ha]
  cases pl with
  | root => rfl
  | object => rfl
  | free d n => exact absurd hlead (free_leads ok.reach ha k)
  | nowhere =>
    exfalso
    obtain ⟨ps, n, e, hn⟩ := ha
    unfold Leads at hlead
    rw [e] at hlead
    obtain ⟨d', nd', a, b, b', e'⟩ := hlead.split
    exact hn d' a ⟨nd', b, isDir_iff.1 b'⟩

/-- C114.  When nobody has it, whoever tries with `mkdir` and a valid mode gets it, if the lock is in a directory that exists. -/
theorem dir_lock_granted_partial {N : List Name} {x y : Conf} {ms : List Move} (h : Start N x) (hr : Runs N x ms y) (hh : y.holders = [])
    {c : Nat} {cg : Cage} (hc : y.s.cages c = some cg) {p : Str} (hp : p ≠ []) (hN : cg.path p = N) {mode : BitVec 32} (hm : ModeValid mode)
    {ps : List Name} {n : Name} {d : Nat} (hd : N = ps ++ [n]) (hw : Walk y.s.fs.inodes rootIno ps d) (hdir : IsDir y.s d) :
    (next y (.take c p (.dir mode))).holders = [c] := by
  have ok := hr.ok (There.ne_nil h.missing) h.ok
  have hno : ¬ There y.s N := fun e => ((any_lock_exclusive_partial h hr).2.2 e) hh
  obtain ⟨nd, hnd, hk⟩ := hdir
  have hat : At y.s cg p (.free d n) := by
    refine ⟨ps, by rw [hN, hd], hw, ⟨nd, hnd, hk⟩, ?_⟩
    intro i hi
    exact hno ⟨i, by rw [hd]; exact hw.snoc hnd (isDir_iff.2 hk) ((entry_iff hnd).1 hi)⟩
  have := mkdir_answer ok.reach hc hp hat mode
  simp only [mkdirAnswer, if_pos hm] at this
  simp only [next, Make.op, this, hh]

/-- C114.  Whoever has it and made it with `mkdir` can give it back with `rmdir`, and then nobody has it: if nothing was put into it and it and its
directory may be changed. -/
theorem dir_lock_returned_partial {N : List Name} {x y : Conf} {ms : List Move} (h : Start N x) (hr : Runs N x ms y) {c : Nat} (hh : c ∈ y.holders)
    {cg : Cage} (hc : y.s.cages c = some cg) {p : Str} (hp : p ≠ []) (hN : cg.path p = N) {ps : List Name} {n : Name} {d k : Nat} {pd nd : Inode}
    (hd : N = ps ++ [n]) (hw : Walk y.s.fs.inodes rootIno ps d) (hpd : y.s.fs.inodes d = some pd) (hpm : pd.mode &&& 0o222#32 ≠ 0#32)
    (hk : Walk y.s.fs.inodes rootIno N k) (hnd : y.s.fs.inodes k = some nd) (hdir : nd.kind = .dir) (he : Empty y.s k)
    (hty : nd.mode &&& 0o170000#32 = 0o40000#32) (hm : nd.mode &&& 0o222#32 ≠ 0#32) :
    (next y (.give c p true)).holders = [] ∧ ¬ There (next y (.give c p true)).s N := by
  have ok := hr.ok (There.ne_nil h.missing) h.ok
  have hlead : Leads y.s cg p k := by unfold Leads; rw [hN]; exact hk
  have hret := (rmdir_iff_partial ok.reach hc (p := p)).2 ⟨hp, ps, n, d, k, pd, nd, by rw [hN, hd], hw, hpd, hlead, hnd, hdir, he, hpm, hm, hty⟩
  have ok' := give_ok ok (c := c) (p := p) (dir := true) ⟨⟨cg, hc, hN⟩, by simp [gone, hret], nofun⟩
  have hone : y.holders = [c] := by
    rcases ok.one with ⟨h1, -⟩ | ⟨c', h1, -⟩
    · rw [h1] at hh; simp at hh
    · rw [h1] at hh ⊢; simp at hh; subst hh; rfl
  have hx : (next y (.give c p true)).holders = [] := by simp [next, hone, gone, hret]
  refine ⟨hx, ?_⟩
  rcases ok'.one with ⟨-, h2⟩ | ⟨c', h1, -⟩
  · exact h2
  · rw [hx] at h1; cases h1

/-- C114.  After a crash and the next start the name is there exactly if somebody had the lock. -/
theorem any_lock_crash_partial {N : List Name} {x y : Conf} {ms : List Move} (h : Start N x) (hr : Runs N x ms y) {D : Nat → Prop} {b : Snap}
    (hs : Sess D b y.s) : ∃ s1, reboot (diskOf b y.s.fs) = some s1 ∧ (There s1 N ↔ y.holders ≠ []) := by
  obtain ⟨s1, e, ht⟩ := crash_paths_partial hs
  refine ⟨s1, e, ?_⟩
  rw [(any_lock_exclusive_partial h hr).2]
  exact exists_congr fun k => (ht N h.good k).1

end Verif.AnyLock
