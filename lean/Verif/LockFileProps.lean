import Verif.LockFile
import Verif.NameConcWitness

/-! # Lock files: at most one process has the lock (property C105) -/

namespace Verif.LockFile
open Verif.Fs Verif.Kernel Verif.Path Verif.Recovery

/-- What holds all the time. -/
structure Ok (N : List Name) (x : Conf) : Prop where
  reach : Reach x.s
  good : ∀ n ∈ N, Good n
  one : (x.holders = [] ∧ ¬ There x.s N) ∨ ∃ c, x.holders = [c] ∧ There x.s N

theorem open_returns {s : State} (hR : Reach s) {c : Nat} {cg : Cage} (hc : s.cages c = some cg) (p : Str) (flags mode : BitVec 32) :
    (∃ e, (step s c (.openP p flags mode)).2.ret = .err e) ∨ ∃ v, (step s c (.openP p flags mode)).2.ret = .ok v := by
  by_cases hp : p = []
  · simp [step, hc, openSys, hp, Out.r]
  · cases hn : nextFd cg.fds 0 with
    | none => simp [step, hc, openSys, hp, hn, Out.r]
    | some fd =>
      obtain ⟨pl, ha, -⟩ := place_exists_unique hR hc p
      rw [open_answer hR hc hp ha flags mode hn]
      simp only
      split <;> simp

theorem take_ok {N : List Name} {x : Conf} (h : Ok N x) {c : Nat} {p : Str} {flags mode : BitVec 32} (hf : Fair N x (.take c p flags mode)) :
    Ok N (next x (.take c p flags mode)) := by
  obtain ⟨⟨cg, hc, hp⟩, hfl⟩ := hf
  have hans := open_returns h.reach hc p flags mode
  have hnp : (step x.s c (.openP p flags mode)).2.ret ≠ .panic := by
    intro hx; rcases hans with ⟨e, he⟩ | ⟨v, hv⟩ <;> simp_all
  have hR' : Reach (step x.s c (.openP p flags mode)).1 := .step c _ h.reach (by simp only [Tame, hc]) hnp
  have hlead : ∀ s k, Leads s cg p k ↔ Walk s.fs.inodes rootIno N k := by intro s k; unfold Leads; rw [hp]
  refine ⟨hR', h.good, ?_⟩
  rcases hans with ⟨e, hret⟩ | ⟨v, hret⟩
  · have hk := fun k => failed_call_keeps_paths h.reach (op := .openP p flags mode) rfl hret rootIno k N
    have hE : There (step x.s c (.openP p flags mode)).1 N ↔ There x.s N := exists_congr hk
    simp only [next, hret, hE]; exact h.one
  · rcases h.one with ⟨h1, h2⟩ | ⟨c', h1, k, hk⟩
    · obtain ⟨-, i, fd, -, -, hi, -⟩ := open_creates h.reach hc (fun i hi => h2 ⟨i, (hlead _ _).1 hi⟩) hret
      right
      exact ⟨c, by simp only [next, hret, h1], i, (hlead _ _).1 hi⟩
    · exfalso
      have hpe : p ≠ [] := by rintro rfl; simp [step, hc, openSys, Out.r] at hret
      have hfd : ∃ fd, fd < 1024 ∧ cg.fds fd = none := by
        cases hn : nextFd cg.fds 0 with
        | none => simp [step, hc, openSys, hpe, hn, Out.r] at hret
        | some fd => obtain ⟨-, a, b, -⟩ := Kernel.nextFd_some hn; exact ⟨fd, a, b⟩
      rw [open_excl_existing h.reach hc hpe ((hlead _ _).2 hk) hfd hfl] at hret
      cases hret

theorem unlink_returns {s : State} (hR : Reach s) {c : Nat} {cg : Cage} (hc : s.cages c = some cg) (p : Str) :
    (∃ e, (step s c (.unlink p)).2.ret = .err e) ∨ (step s c (.unlink p)).2.ret = .ok 0 := by
  by_cases hp : p = []
  · simp [step, hc, nonEmpty, hp, Out.r]
  · obtain ⟨pl, ha, -⟩ := place_exists_unique hR hc p
    rw [unlink_answer hR hc hp ha]
    cases pl <;> simp only [unlinkAnswer] <;> (repeat' split) <;> simp

theorem give_tame {s : State} (hR : Reach s) {c : Nat} {cg : Cage} (hc : s.cages c = some cg) {p : Str}
    (hw : ∀ ps n d nd, cg.path p = ps ++ [n] → Walk s.fs.inodes rootIno ps d → s.fs.inodes d = some nd → nd.mode &&& 0o222#32 ≠ 0#32) :
    Tame s c (.unlink p) := by
  simp only [Tame, hc]
  intro i par pd hr hpar
  obtain ⟨r, hr', hlook⟩ := look hR.inv.fs.tree (cg.path p) (hR.inv.gp hc p)
  rw [hr] at hr'; cases hr'
  cases hlook with
  | found heq w w' hpar' hd hl hf hg hi h1 h7 hne => exact hw _ _ _ _ heq w hpar

theorem give_ok {N : List Name} {x : Conf} (h : Ok N x) {c : Nat} {p : Str} (hf : Fair N x (.give c p)) :
    Ok N (next x (.give c p)) := by
  by_cases hm : c ∈ x.holders
  · obtain ⟨⟨cg, hc, hp⟩, hw⟩ := hf
    have ht := give_tame h.reach hc (p := p) (by rw [hp]; exact hw)
    have hans := unlink_returns h.reach hc p
    have hnp : (step x.s c (.unlink p)).2.ret ≠ .panic := by
      intro hx; rcases hans with ⟨e, he⟩ | hv <;> simp_all
    have hR' : Reach (step x.s c (.unlink p)).1 := .step c _ h.reach ht hnp
    have hnx : next x (.give c p) = ⟨(step x.s c (.unlink p)).1,
        if (step x.s c (.unlink p)).2.ret = .ok 0 then x.holders.erase c else x.holders⟩ := by simp only [next, if_pos hm]
    rw [hnx]
    refine ⟨hR', h.good, ?_⟩
    obtain ⟨h1, k, hk⟩ : x.holders = [c] ∧ There x.s N := by
      rcases h.one with ⟨h1, -⟩ | ⟨c', h1, h2⟩
      · rw [h1] at hm; simp at hm
      · rw [h1] at hm ⊢; simp at hm; subst hm; exact ⟨rfl, h2⟩
    rcases hans with ⟨e, hret⟩ | hret
    · right
      refine ⟨c, by simp [hret, h1], k, ?_⟩
      exact (failed_call_keeps_paths h.reach (op := .unlink p) rfl hret rootIno k N).2 hk
    · left
      refine ⟨by simp [hret, h1], ?_⟩
      rintro ⟨j, hj⟩
      have hi : Leads x.s cg p k := by unfold Leads; rw [hp]; exact hk
      obtain ⟨nd, hnd⟩ := h.reach.inv.leads_exists hc hi
      obtain ⟨-, -, -, -, ps, n, d, u2, u3, u4, -⟩ := unlink_ok h.reach hc hi hnd hret
      rw [hp] at u2
      subst u2
      have w' := names_kept_partial h.reach ht (ns := ps) (fun m hm => h.good m (by simp [hm])) (by
        intro q hq hpre
        simp only [takes, hc, List.mem_singleton] at hq
        subst hq
        rw [hp] at hpre
        have := hpre.length_le
        simp only [List.length_append, List.length_cons, List.length_nil] at this; omega) u3
      obtain ⟨d', nd', a, b, -, e⟩ := hj.split
      have := walk_fun hR'.inv.fs.tree a w'
      subst this
      exact ((u4 n j).1 ((entry_iff b).2 e)).1 rfl
  · simp only [next, if_neg hm]; exact h

theorem other_ok {N : List Name} {x : Conf} (h : Ok N x) {c : Nat} {op : Op} (hf : Fair N x (.other c op)) :
    Ok N (next x (.other c op)) := by
  obtain ⟨ht, hnp, hq⟩ := hf
  have hR' : Reach (step x.s c op).1 := .step c _ h.reach ht hnp
  have hE : There (step x.s c op).1 N ↔ There x.s N :=
    exists_congr fun k => ⟨names_made_partial h.reach ht h.good (fun q hm => hq q (by simp [hm])),
      names_kept_partial h.reach ht h.good (fun q hm => hq q (by simp [hm]))⟩
  refine ⟨hR', h.good, ?_⟩
  simp only [next, hE]; exact h.one

theorem Start.ok {N : List Name} {x : Conf} (h : Start N x) : Ok N x := ⟨h.reach, h.good, .inl ⟨h.nobody, h.missing⟩⟩

theorem Runs.ok {N : List Name} {x y : Conf} {ms : List Move} (hr : Runs N x ms y) (h : Ok N x) : Ok N y := by
  induction hr with
  | nil => exact h
  | cons hf _ ih =>
    rename_i m _ _
    refine ih ?_
    cases m with
    | take => exact take_ok h hf
    | give => exact give_ok h hf
    | other => exact other_ok h hf

/-! ## Theorems -/

/-- C105.  **At most one process has the lock**, whatever happens in whatever order, and the file is there exactly while somebody has it.  Partial:
calls come one after the other; threads that call at the same time can both get the lock (`lock_two_violated`). -/
theorem lock_exclusive_partial {N : List Name} {x y : Conf} {ms : List Move} (h : Start N x) (hr : Runs N x ms y) :
    y.holders.length ≤ 1 ∧ (y.holders ≠ [] ↔ There y.s N) := by
  rcases (hr.ok h.ok).one with ⟨h1, h2⟩ | ⟨c, h1, h2⟩
  · rw [h1]; exact ⟨by simp, by simp [h2]⟩
  · rw [h1]; exact ⟨by simp, by simp [h2]⟩

/-- C105.  While somebody has it, everybody who tries, also the one who has it, is told EEXIST, and nothing changes.  (With no free descriptor the
answer is another error.) -/
theorem lock_refused_partial {N : List Name} {x y : Conf} {ms : List Move} (h : Start N x) (hr : Runs N x ms y) (hh : y.holders ≠ [])
    {c : Nat} {cg : Cage} (hc : y.s.cages c = some cg) {p : Str} (hp : p ≠ []) (hN : cg.path p = N) {flags : BitVec 32} (mode : BitVec 32)
    (hf : flags &&& 0o300#32 = 0o300#32) (hfd : ∃ fd, fd < 1024 ∧ cg.fds fd = none) :
    step y.s c (.openP p flags mode) = (y.s, { ret := .err .EEXIST }) ∧ next y (.take c p flags mode) = y := by
  obtain ⟨k, hk⟩ := (lock_exclusive_partial h hr).2.1 hh
  have := open_excl_existing (hr.ok h.ok).reach hc hp (i := k) (by unfold Leads; rw [hN]; exact hk) hfd (mode := mode) hf
  exact ⟨this, by simp only [next, this]⟩

/-- C105.  When nobody has it, whoever tries gets it: with a free descriptor, a valid mode and a lock in a directory that exists.  (`O_ASYNC` among
the flags is refused, C19.) -/
theorem lock_granted_partial {N : List Name} {x y : Conf} {ms : List Move} (h : Start N x) (hr : Runs N x ms y) (hh : y.holders = [])
    {c : Nat} {cg : Cage} (hc : y.s.cages c = some cg) {p : Str} (hp : p ≠ []) (hN : cg.path p = N) {flags mode : BitVec 32}
    (hf : flags &&& 0o300#32 = 0o300#32) (ha : flags &&& 0o20000#32 = 0#32) (hm : ModeValid mode)
    (hfd : ∃ fd, fd < 1024 ∧ cg.fds fd = none) {ps : List Name} {n : Name} {d : Nat} (hd : N = ps ++ [n]) (hw : Walk y.s.fs.inodes rootIno ps d)
    (hdir : IsDir y.s d) : (next y (.take c p flags mode)).holders = [c] := by
  have ok := hr.ok h.ok
  have hno : ¬ There y.s N := fun e => ((lock_exclusive_partial h hr).2.2 e) hh
  obtain ⟨nd, hnd, hk⟩ := hdir
  have hat : At y.s cg p (.free d n) := by
    refine ⟨ps, by rw [hN, hd], hw, ⟨nd, hnd, hk⟩, ?_⟩
    intro i hi
    exact hno ⟨i, by rw [hd]; exact hw.snoc hnd (isDir_iff.2 hk) ((entry_iff hnd).1 hi)⟩
  cases hn : nextFd cg.fds 0 with
  | none =>
    obtain ⟨fd, a, b⟩ := hfd
    exact absurd b (Kernel.nextFd_none hn fd (Nat.zero_le _) a)
  | some fd =>
    have hcreat : ¬ (flags &&& 0o100#32 = 0#32) := by
      intro e
      have : flags &&& 0o300#32 &&& 0o100#32 = 0#32 := by
        rw [BitVec.and_assoc, show (0o300#32 &&& 0o100#32) = 0o100#32 from rfl, e]
      rw [hf] at this; revert this; decide
    have hno2 : ¬ (flags &&& 0o20000#32 = 0o20000#32) := by rw [ha]; decide
    have := open_answer ok.reach hc hp hat flags mode hn
    simp only [openAnswer, if_neg hcreat, if_neg hno2, if_pos hm] at this
    simp only [next, this, hh]

/-- C105.  Whoever has it can give it back, and then nobody has it: if the lock is a name of a file, as it is unless somebody put something else
there, and its directory may be changed. -/
theorem lock_returned_partial {N : List Name} {x y : Conf} {ms : List Move} (h : Start N x) (hr : Runs N x ms y) {c : Nat} (hh : c ∈ y.holders)
    {cg : Cage} (hc : y.s.cages c = some cg) {p : Str} (hp : p ≠ []) (hN : cg.path p = N) {k : Nat} (hk : Walk y.s.fs.inodes rootIno N k)
    (hfile : ¬ IsDir y.s k)
    (hw : ∀ ps n d nd, N = ps ++ [n] → Walk y.s.fs.inodes rootIno ps d → y.s.fs.inodes d = some nd → nd.mode &&& 0o222#32 ≠ 0#32) :
    (next y (.give c p)).holders = [] ∧ ¬ There (next y (.give c p)).s N := by
  have ok := hr.ok h.ok
  have ok' := give_ok ok (c := c) (p := p) ⟨⟨cg, hc, hN⟩, hw⟩
  obtain ⟨pl, ha, -⟩ := place_exists_unique ok.reach hc p
  have hret : (step y.s c (.unlink p)).2.ret = .ok 0 := by
    rw [unlink_answer ok.reach hc hp ha]
    have hlead : Leads y.s cg p k := by unfold Leads; rw [hN]; exact hk
    obtain ⟨nd, hnd⟩ := ok.reach.inv.leads_exists hc hlead
    have T := ok.reach.inv.fs.tree
    cases pl with
    | root =>
      exfalso
      simp only [At] at ha
      unfold Leads at hlead
      rw [ha] at hlead
      cases hlead
      obtain ⟨rd, r1, r2⟩ := T.root
      exact hfile ⟨rd, r1, isDir_iff.1 r2⟩
    | nowhere =>
      exfalso
      obtain ⟨ps, n, e, hn⟩ := ha
      unfold Leads at hlead
      rw [e] at hlead
      obtain ⟨d', nd', a, b, b', e'⟩ := hlead.split
      exact hn d' a ⟨nd', b, isDir_iff.1 b'⟩
    | free d n =>
      exfalso
      obtain ⟨ps, e, a, -, hn⟩ := ha
      unfold Leads at hlead
      rw [e] at hlead
      obtain ⟨d', nd', a', b, -, e'⟩ := hlead.split
      have := walk_fun T a' a; subst this
      exact hn k ((entry_iff b).2 e')
    | object d n i =>
      obtain ⟨ps, e, a, ⟨dd, hdd, hdk⟩, hn⟩ := ha
      unfold Leads at hlead
      rw [e] at hlead
      have hi := walk_fun T hlead (a.snoc hdd (isDir_iff.2 hdk) ((entry_iff hdd).1 hn))
      subst hi
      have h1 : ¬ (kindOf y.s k = some .dir) := by
        intro hx
        simp only [kindOf, hnd, Option.map_some, Option.some.injEq] at hx
        exact hfile ⟨nd, hnd, hx⟩
      have h2 : ¬ (modeOf y.s d &&& 0o222#32 = 0#32) := by
        simp only [modeOf, hdd, Option.map_some, Option.getD_some]
        exact hw ps n d dd (hN ▸ e) a hdd
      simp only [unlinkAnswer, if_neg h1, if_neg h2]
  have hone : y.holders = [c] := by
    rcases ok.one with ⟨h1, -⟩ | ⟨c', h1, -⟩
    · rw [h1] at hh; simp at hh
    · rw [h1] at hh ⊢; simp at hh; subst hh; rfl
  have hx : (next y (.give c p)).holders = [] := by simp [next, hone, hret]
  refine ⟨hx, ?_⟩
  rcases ok'.one with ⟨-, h2⟩ | ⟨c', h1, -⟩
  · exact h2
  · rw [hx] at h1; cases h1

/-- C105.  After a crash and the next start the lock is there exactly if somebody had it. -/
theorem lock_crash_partial {N : List Name} {x y : Conf} {ms : List Move} (h : Start N x) (hr : Runs N x ms y) {D : Nat → Prop} {b : Snap}
    (hs : Sess D b y.s) : ∃ s1, reboot (diskOf b y.s.fs) = some s1 ∧ (There s1 N ↔ y.holders ≠ []) := by
  obtain ⟨s1, e, ht⟩ := crash_paths_partial hs
  refine ⟨s1, e, ?_⟩
  rw [(lock_exclusive_partial h hr).2]
  exact exists_congr fun k => (ht N h.good k).1

/-- C105, violated: two threads take the lock at the same time, and both get it. -/
theorem lock_two_violated : ∃ ms : List NameConc.Act, let s := NameConc.run NameConc.s0 ms
    ms.filter (fun a => match a with | .start _ _ => true | _ => false) =
      [.start 0 (.open NameConc.dx 0o302#32 0o644#32), .start 1 (.open NameConc.dx 0o302#32 0o644#32)] ∧
    NameConc.s0.fs.walk NameConc.dx = some (none, some 9) ∧ s.dead = false ∧ (∃ i, s.res 0 = some (.opened i 0)) ∧ ∃ i, s.res 1 = some (.opened i 0) := by
  obtain ⟨h1, -, h2, h3, -⟩ := NameConc.excl_create_violated
  exact ⟨_, by decide +kernel, by decide +kernel, h1, ⟨_, h2⟩, ⟨_, h3⟩⟩

/-! ## A concrete case -/

/-- `/tmp/l`, and `l` relative to `/tmp` -/
def abs : Str := [47, 116, 109, 112, 47, 108]
def rel : Str := [108]
def lockN : List Name := [[116, 109, 112], [108]]

/-- Two processes, the second in `/tmp`. -/
def two : State := run init [(1, .chdir [47, 116, 109, 112])]

theorem two_reach : Reach two := Reach.init.run _ (by decide +kernel)

def begun : Conf := ⟨two, []⟩

theorem two_missing : ¬ There two lockN := by
  obtain ⟨cg, hc, hp⟩ : ∃ cg, two.cages 0 = some cg ∧ cg.path abs = lockN := ⟨_, rfl, by decide +kernel⟩
  rintro ⟨k, hk⟩
  refine (lookup_exact two_reach hc abs).2.2 (by decide +kernel) k ?_
  unfold Leads; rw [hp]; exact hk

theorem lockN_good : ∀ n ∈ lockN, Good n := by intro n hn; revert n; decide

theorem begun_start : Start lockN begun := ⟨two_reach, rfl, lockN_good, two_missing⟩

/-- The first process takes the lock, the second tries in vain, the first gives it back, the second gets it. -/
def story : List Move :=
  [.take 0 abs 0o301#32 0o600#32, .take 1 rel 0o301#32 0o600#32, .other 0 (.mkdir [47, 116, 109, 112, 47, 109] 0o700#32), .give 0 abs,
   .take 1 rel 0o302#32 0o644#32]

theorem writable_of {s : State} (hR : Reach s) {N : List Name} (hN : ∀ n ∈ N, Good n)
    (hb : (match s.fs.walk N with
      | some (_, some par) => (match s.fs.inodes par with | some nd => decide (nd.mode &&& 0o222#32 ≠ 0#32) | none => false)
      | _ => false) = true) :
    ∀ ps n d nd, N = ps ++ [n] → Walk s.fs.inodes rootIno ps d → s.fs.inodes d = some nd → nd.mode &&& 0o222#32 ≠ 0#32 := by
  intro ps n d nd e w hd
  obtain ⟨r, hr, hl⟩ := look hR.inv.fs.tree N hN
  rw [hr] at hb
  cases hl with
  | root => cases hb
  | gone => cases hb
  | found heq w' _ hpar =>
    rw [e] at heq
    obtain ⟨rfl, -⟩ := List.append_inj' heq rfl
    have := walk_fun hR.inv.fs.tree w w'; subst this
    rw [hd] at hpar; cases hpar
    simp only [hd] at hb
    exact of_decide_eq_true hb
  | free heq w' hpar =>
    rw [e] at heq
    obtain ⟨rfl, -⟩ := List.append_inj' heq rfl
    have := walk_fun hR.inv.fs.tree w w'; subst this
    rw [hd] at hpar; cases hpar
    simp only [hd] at hb
    exact of_decide_eq_true hb

/-- The hypotheses of the theorems hold of this story; in the end the second process has the lock. -/
theorem story_runs : ∃ y, Runs lockN begun story y ∧ y.holders = [1] := by
  refine ⟨story.foldl next begun, ?_, by decide +kernel⟩
  have h0 := begun_start.ok
  have f1 : Fair lockN begun (.take 0 abs 0o301#32 0o600#32) := ⟨⟨_, rfl, by decide +kernel⟩, by decide⟩
  have h1 := take_ok h0 f1
  have f2 : Fair lockN (next begun (.take 0 abs 0o301#32 0o600#32)) (.take 1 rel 0o301#32 0o600#32) := ⟨⟨_, rfl, by decide +kernel⟩, by decide⟩
  have h2 := take_ok h1 f2
  have f3 : Fair lockN (next (next begun (.take 0 abs 0o301#32 0o600#32)) (.take 1 rel 0o301#32 0o600#32))
      (.other 0 (.mkdir [47, 116, 109, 112, 47, 109] 0o700#32)) := by
    refine ⟨trivial, by decide +kernel, by decide +kernel⟩
  have h3 := other_ok h2 f3
  have f4 : Fair lockN (next (next (next begun (.take 0 abs 0o301#32 0o600#32)) (.take 1 rel 0o301#32 0o600#32))
      (.other 0 (.mkdir [47, 116, 109, 112, 47, 109] 0o700#32))) (.give 0 abs) :=
    ⟨⟨_, rfl, by decide +kernel⟩, writable_of h3.reach lockN_good (by decide +kernel)⟩
  refine .cons f1 (.cons f2 (.cons f3 (.cons f4 (.cons ⟨⟨_, rfl, by decide +kernel⟩, by decide⟩ (.nil _)))))

example : ∃ y, Runs lockN begun story y ∧ y.holders.length ≤ 1 ∧ There y.s lockN := by
  obtain ⟨y, h1, h2⟩ := story_runs
  obtain ⟨h3, h4⟩ := lock_exclusive_partial begun_start h1
  exact ⟨y, h1, h3, h4.1 (by rw [h2]; simp)⟩

end Verif.LockFile
