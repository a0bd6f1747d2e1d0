import Verif.Rlimit

/-! # The reported limit on descriptors is the true one (property C106) -/

namespace Verif.Rlimit
open Verif.Kernel

/-- The calls on limits add no states: whatever was reached with them is reached without them. -/
theorem Hist.reach {s : State} (h : Hist s) : Reach s := by
  induction h with
  | init => exact .init
  | op c o _ ht hp ih => exact .step c o ih ht hp
  | get _ _ _ _ ih => exact ih
  | set _ _ _ _ ih => exact ih

/-- What `L` being the limit on descriptors means in a state: no cage has a descriptor numbered `L` or above;
a call with valid arguments that makes a descriptor is refused with ENFILE exactly if all numbers below `L` that it
may use are taken; copying onto a number from `L` on is refused. -/
structure Limit (L : Nat) (s : State) : Prop where
  below : ∀ c cg fd d, s.cages c = some cg → cg.fds fd = some d → fd < L
  full : ∀ c cg op start, s.cages c = some cg → op.start = some start → ValidNew cg op →
    ((step s c op).2.ret = .err .ENFILE ↔ ∀ fd, start ≤ fd → fd < L → cg.fds fd ≠ none)
  onto : ∀ c cg (old new : Int), s.cages c = some cg → (L : Int) ≤ new → (step s c (.dup2 old new)).2.ret = .err .EBADF

/-- C106.  After every history of calls, limits set in between or not, every cage that asks for the limit on descriptors is
told 0 and a number that is the limit. -/
theorem nofile_true_partial {s : State} (h : Hist s) (buf : Rlim) :
    (getrlimit rlimitNofile buf).1 = 0 ∧ Limit (getrlimit rlimitNofile buf).2.cur.toNat s := by
  refine ⟨rfl, ?_⟩
  have e : (getrlimit rlimitNofile buf).2.cur.toNat = 1024 := rfl
  rw [e]
  refine ⟨?_, ?_, ?_⟩
  · intro c cg fd d hc hd
    exact ((h.reach.inv.cage c cg hc).2.1 fd d hd).1
  · intro c cg op start hc hs hv
    exact new_fd_enfile_partial hc hs hv
  · intro c cg old new hc hn
    have : (maxFd : Int) ≤ new := hn
    simp only [step, hc, dup2]
    simp [Out.r, this]

/-- C106.  Each cage can get that many: as long as a cage has a free number below the limit, `socket` and `epoll_create`
succeed and give it the lowest such number. -/
theorem nofile_usable {s : State} (h : Hist s) (buf : Rlim) {c : Nat} {cg : Cage} (hc : s.cages c = some cg)
    {fd : Nat} (hl : fd < (getrlimit rlimitNofile buf).2.cur.toNat) (hf : cg.fds fd = none) (hlow : ∀ j, j < fd → cg.fds j ≠ none)
    (nb ce : Bool) :
    (step s c (.socket nb ce)).2.ret = .ok fd ∧ (step s c (.epollCreate 1)).2.ret = .ok fd := by
  have e : (getrlimit rlimitNofile buf).2.cur.toNat = 1024 := rfl
  rw [e] at hl
  have hn := nextFd_eq hl hf hlow
  constructor
  · simp only [step, hc, putNew, hn]; rfl
  · simp only [step, hc, putNew, hn]; rfl

/-- C106.  The whole table can be filled: a history after which a cage has exactly the reported number of descriptors open,
and the next request is refused. -/
theorem nofile_reached (buf : Rlim) : ∃ s cg, Hist s ∧ s.cages 0 = some cg ∧
    (∀ fd, (∃ d, cg.fds fd = some d) ↔ fd < (getrlimit rlimitNofile buf).2.cur.toNat) ∧
    (step s 0 (.dup 1)).2.ret = .err .ENFILE := by
  have e : (getrlimit rlimitNofile buf).2.cur.toNat = 1024 := rfl
  have hist : ∀ k, k ≤ 1021 → Hist (dups k) := by
    intro k
    induction k with
    | zero => intro _; exact .init
    | succ k ih =>
      intro hk
      obtain ⟨-, cg, hc, h1, h2, -, -⟩ := dups_table k (by omega)
      rw [dups_succ]
      refine .op 0 (.dup 1) (ih (by omega)) (by simp [Tame, hc]) ?_
      obtain ⟨n, f, hs⟩ := h1 1 (by omega)
      have hn : nextFd cg.fds 0 = some (3 + k) := nextFd_eq (by omega) (h2 _ (by omega)) (by
        intro j hj; obtain ⟨n, f, e⟩ := h1 j hj; simp [e])
      simp only [step, hc, dup, if_neg (by decide : ¬ (1 : Int) = 0), getFd_in (t := cg.fds) (by decide : (0 : Int) ≤ 1)
        (by decide), Int.toNat_one, hs, dupFrom, hn, Desc.isEpoll, Bool.false_eq_true, if_false, State.putCopy, State.bump,
        Desc.setFlags, Desc.flags]
      simp [Out.r]
  obtain ⟨-, cg, hc, h1, h2, -, -⟩ := dups_table 1021 (by omega)
  refine ⟨dups 1021, cg, hist 1021 (by omega), hc, ?_, ?_⟩
  · rw [e]
    intro fd
    constructor
    · rintro ⟨d, hd⟩
      rcases Nat.lt_or_ge fd 1024 with h | h
      · exact h
      · rw [h2 fd (by omega)] at hd; cases hd
    · intro h
      obtain ⟨n, f, hd⟩ := h1 fd (by omega)
      exact ⟨_, hd⟩
  · obtain ⟨n, f, hs⟩ := h1 1 (by omega)
    refine (new_fd_enfile_partial (start := 0) hc rfl ?_).2 ?_
    · exact ⟨by decide, by decide, by simp [hs]⟩
    · intro j _ hj
      obtain ⟨n, f, hd⟩ := h1 j (by omega)
      simp [hd]

/-- C106.  The limit on the stack is reported as fixed numbers, the soft one not above the hard one, and the same holds for the
descriptors; every other resource number is refused with -1 and the caller's buffer stays as it was. -/
theorem getrlimit_answers (res : BitVec 64) (buf : Rlim) :
    ((getrlimit res buf).1 = 0 ↔ res.toNat < 2) ∧ ((getrlimit res buf).1 = 0 ∨ (getrlimit res buf).1 = -1) ∧
    ((getrlimit res buf).1 = 0 → (getrlimit res buf).2.cur.toNat ≤ (getrlimit res buf).2.max.toNat) ∧
    ((getrlimit res buf).1 = -1 → (getrlimit res buf).2 = buf) ∧
    (getrlimit 0#64 buf).2 = ⟨8388608#64, 4294967296#64⟩ ∧ (getrlimit 1#64 buf).2 = ⟨1024#64, 4096#64⟩ := by
  refine ⟨?_, ?_, ?_, ?_, by rfl, by rfl⟩
  · by_cases h1 : res = 1#64
    · subst h1; simp [getrlimit, rlimitNofile]
    · by_cases h2 : res = 0#64
      · subst h2; simp [getrlimit, rlimitNofile, rlimitStack]
      · have e : (getrlimit res buf).1 = -1 := by
          unfold getrlimit; rw [if_neg (show ¬ res = rlimitNofile from h1), if_neg (show ¬ res = rlimitStack from h2)]
        rw [e]
        simp only [← BitVec.toNat_inj, BitVec.toNat_ofNat] at h1 h2
        simp; omega
  all_goals
    by_cases h1 : res = rlimitNofile
    · subst h1; simp (decide := true) [getrlimit]
    · by_cases h2 : res = rlimitStack
      · subst h2; simp (decide := true) [getrlimit, h1]
      · simp [getrlimit, h1, h2]

/-- C106, violated: setting the limit on descriptors is reported as done whatever the value, yet nothing changes: the limit
reported afterwards is the old one, and a cage that limited itself to no descriptors still gets one.  A value above the hard limit is
accepted as well. -/
theorem setrlimit_violated : (∀ v, setrlimit rlimitNofile v = 0) ∧
    (∀ s c v, next s c (.set rlimitNofile v) = s) ∧ (∀ buf, (getrlimit rlimitNofile buf).2.cur = 1024#64) ∧
    (step (next init 0 (.set rlimitNofile 0#64)) 0 (.socket false false)).2.ret = .ok 3 ∧
    setrlimit rlimitNofile 5000#64 = 0 ∧ (∀ buf, (getrlimit rlimitNofile buf).2.max.toNat < 5000) := by
  refine ⟨fun _ => rfl, fun _ _ _ => rfl, fun _ => rfl, ?_, rfl, fun _ => by show (4096 : Nat) < 5000; decide⟩
  decide +kernel

/-- C106, violated: the hard limit reported, 4096, cannot be reached: no history opens a descriptor numbered 1024 or above. -/
theorem nofile_max_violated (buf : Rlim) : (getrlimit rlimitNofile buf).2.max.toNat = 4096 ∧
    ∀ s, Hist s → ∀ c cg fd, s.cages c = some cg → 1024 ≤ fd → cg.fds fd = none := by
  refine ⟨rfl, ?_⟩
  intro s h c cg fd hc hf
  cases hd : cg.fds fd with
  | none => rfl
  | some d =>
    have := ((h.reach.inv.cage c cg hc).2.1 fd d hd).1
    simp only [maxFd] at this; omega

/-- C106, violated: the numbers Linux gives these resources, 7 for descriptors and 3 for the stack, are refused, and Linux's
number 1 (the size of files) is taken for the number of descriptors; the stack limit cannot be set. -/
theorem rlimit_numbers_violated (buf : Rlim) (v : BitVec 64) : (getrlimit 7#64 buf).1 = -1 ∧ (getrlimit 3#64 buf).1 = -1 ∧
    (getrlimit 1#64 buf).2.cur = 1024#64 ∧ setrlimit 7#64 v = -1 ∧ setrlimit rlimitStack v = -1 :=
  ⟨rfl, rfl, rfl, rfl, rfl⟩

/-- The hypotheses are met: a cage sets a limit, makes a socket, and asks; number 4 is the next. -/
example : ∃ s cg, Hist s ∧ s.cages 0 = some cg ∧ cg.fds 3 ≠ none ∧ cg.fds 4 = none ∧
    (step s 0 (.socket false false)).2.ret = .ok 4 := by
  have h : Hist (next (next init 0 (.set rlimitNofile 10#64)) 0 (.op (.socket false false))) :=
    .op 0 _ (.set 0 _ _ .init) (by simp only [Tame]; split <;> trivial) (by decide +kernel)
  refine ⟨_, _, h, rfl, ?_, ?_, ?_⟩ <;> decide +kernel

end Verif.Rlimit
