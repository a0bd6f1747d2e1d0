import Verif.AdvLock

/-!
# flock properties: C06
-/

namespace Verif.AdvLock

/-! ## Specification -/

/-- Schedules in which callers release only locks they hold. -/
inductive Reach : Sys → Prop
  | init : Reach Sys.init
  | step {s a} : Reach s → (∀ tid pick, a = .release tid pick → ∃ k, (tid, k) ∈ s.held) →
      Reach (step s a).1

/-- A request is compatible with the current holders. -/
def Compatible (held : List (Nat × Kind)) : Kind → Prop
  | .ex => held = []
  | .sh => ∀ h ∈ held, h.2 = .sh

/-! ## Lemmas -/

/-- The guard encodes the holders; no wake-up is lost. -/
structure Inv (s : Sys) : Prop where
  enc : s.guard = -1 ∧ (∃ t, s.held = [(t, .ex)]) ∨
        s.guard = s.held.length ∧ ∀ h ∈ s.held, h.2 = .sh
  shAsleep : ∀ t, (t, Kind.sh) ∈ s.asleep → s.guard = -1
  exAsleep : s.asleep ≠ [] → s.guard = 0 → ∃ t, (t, Kind.ex) ∈ s.woken

theorem mem_eraseIdx {α} {l : List α} {i : Nat} {x : α} (h : x ∈ l.eraseIdx i) : x ∈ l :=
  List.mem_of_mem_eraseIdx h

theorem inv_init : Inv Sys.init := by
  constructor <;> simp [Sys.init]

theorem acquire_some {g g' : Int} {k : Kind} (h : acquire g k = some g') :
    k = .ex ∧ g = 0 ∧ g' = -1 ∨ k = .sh ∧ 0 ≤ g ∧ g' = g + 1 := by
  cases k <;> simp only [acquire] at h <;> split at h <;> simp_all <;> omega

theorem acquire_none {g : Int} {k : Kind} (h : acquire g k = none) :
    k = .ex ∧ g ≠ 0 ∨ k = .sh ∧ g < 0 := by
  cases k <;> simp only [acquire] at h <;> split at h <;> simp_all

theorem inv_grant (s : Sys) (tid : Nat) (k : Kind) (g : Int) (w : List (Nat × Kind))
    (h : Inv s) (ha : acquire s.guard k = some g) :
    Inv { s with guard := g, woken := w, held := (tid, k) :: s.held } := by
  obtain ⟨h1, h2, h3⟩ := h
  rcases acquire_some ha with ⟨rfl, h0, rfl⟩ | ⟨rfl, h0, rfl⟩
  · have hnil : s.held = [] := by
      rcases h1 with ⟨h, _⟩ | ⟨h, _⟩
      · omega
      · exact List.length_eq_zero_iff.1 (by omega)
    refine ⟨.inl ⟨rfl, tid, by simp [hnil]⟩, fun t _ => rfl, fun _ h => absurd h (by simp)⟩
  · refine ⟨.inr ⟨?_, ?_⟩, ?_, ?_⟩
    · rcases h1 with ⟨h, _⟩ | ⟨h, _⟩
      · omega
      · simp; omega
    · rcases h1 with ⟨h, _⟩ | ⟨h, hh⟩
      · omega
      · simpa using hh
    · intro t ht
      have := h2 t ht; omega
    · intro _ h; simp at h; omega

theorem inv_step (s : Sys) (a : Act) (h : Inv s)
    (hd : ∀ tid pick, a = .release tid pick → ∃ k, (tid, k) ∈ s.held) : Inv (step s a).1 := by
  have h' := h
  obtain ⟨h1, h2, h3⟩ := h'
  cases a with
  | request tid k =>
    simp only [step]
    split
    · rename_i g hg
      exact inv_grant s tid k g s.woken h hg
    · rename_i hg
      refine ⟨h1, ?_, ?_⟩
      · intro t ht
        simp at ht
        rcases ht with ht | ht
        · exact h2 t ht
        · rcases acquire_none hg with ⟨hk, _⟩ | ⟨hk, hl⟩
          · simp [hk] at ht
          · rcases h1 with ⟨h, _⟩ | ⟨h, _⟩
            · exact h
            · omega
      · intro _ hz
        rcases acquire_none hg with ⟨hk, hl⟩ | ⟨hk, hl⟩ <;> simp at hz <;> omega
  | tryReq tid k c =>
    simp only [step]
    split
    · rename_i g hg
      simp only [tryLock] at hg
      split at hg
      · simp at hg
      · exact inv_grant s tid k g s.woken h hg
    · exact h
  | recheck i =>
    simp only [step]
    split
    · exact h
    · rename_i tid k hi
      split
      · rename_i g hg
        exact inv_grant s tid k g _ h hg
      · rename_i hg
        refine ⟨h1, ?_, ?_⟩
        · intro t ht
          simp at ht
          rcases ht with ht | ht
          · exact h2 t ht
          · rcases acquire_none hg with ⟨hk, _⟩ | ⟨hk, hl⟩
            · simp [hk] at ht
            · rcases h1 with ⟨h, _⟩ | ⟨h, _⟩
              · exact h
              · omega
        · intro _ hz
          rcases acquire_none hg with ⟨hk, hl⟩ | ⟨hk, hl⟩ <;> simp at hz <;> omega
  | release tid pick =>
    obtain ⟨k, hk⟩ := hd tid pick rfl
    have hlen : (s.held.eraseP (fun h => h.1 == tid)).length = s.held.length - 1 :=
      List.length_eraseP_of_mem hk (by simp)
    have hpos : 0 < s.held.length := List.length_pos_of_mem hk
    simp only [step, unlock]
    rcases h1 with ⟨hg, t, ht⟩ | ⟨hg, hall⟩
    · -- exclusive holder
      simp [hg, notify]
      refine ⟨.inr ⟨?_, ?_⟩, ?_, ?_⟩
      · have : s.held.length = 1 := by rw [ht]; rfl
        simp only [hlen, this]; rfl
      · intro x hx
        have : (s.held.eraseP (fun h => h.1 == tid)) = [] := by
          apply List.length_eq_zero_iff.1
          have : s.held.length = 1 := by rw [ht]; rfl
          omega
        simp [this] at hx
      · simp
      · simp
    · have hgp : s.guard > 0 := by omega
      have hmem : ∀ h ∈ s.held.eraseP (fun h => h.1 == tid), h.2 = .sh := fun x hx =>
        hall x (List.mem_of_mem_eraseP hx)
      have hna : ∀ t, (t, Kind.sh) ∉ s.asleep := fun t ht => by have := h2 t ht; omega
      simp only [hgp, if_true]
      split
      · rename_i hz
        simp only [notify]
        split
        · rename_i hn
          refine ⟨.inr ⟨?_, hmem⟩, ?_, ?_⟩
          · simp [hlen]; omega
          · intro t ht; exact absurd ht (hna t)
          · intro hne
            rw [List.getElem?_eq_none_iff] at hn
            exact absurd (Nat.mod_lt pick (List.length_pos_iff.2 hne)) (Nat.not_lt.2 hn)
        · rename_i t hn
          refine ⟨.inr ⟨?_, hmem⟩, ?_, ?_⟩
          · simp [hlen]; omega
          · intro t ht; exact absurd (List.mem_of_mem_eraseIdx ht) (hna t)
          · intro _ _
            have hmem := List.mem_of_getElem? hn
            obtain ⟨t1, k1⟩ := t
            refine ⟨t1, ?_⟩
            cases k1 with
            | sh => exact absurd hmem (hna t1)
            | ex => simp
      · rename_i hz
        simp only [notify]
        refine ⟨.inr ⟨?_, hmem⟩, ?_, ?_⟩
        · simp [hlen]; omega
        · intro t ht; exact absurd ht (hna t)
        · intro _ h; exact absurd h hz

theorem reach_inv {s : Sys} (h : Reach s) : Inv s := by
  induction h with
  | init => exact inv_init
  | step _ hd ih => exact inv_step _ _ ih hd

/-! ## Properties -/

/-- C06, mutual exclusion: in every reachable state an exclusive holder is the only holder. -/
theorem flock_mutual_exclusion {s : Sys} (h : Reach s) {t : Nat} (ht : (t, Kind.ex) ∈ s.held) :
    s.held = [(t, .ex)] := by
  rcases (reach_inv h).enc with ⟨_, t', h'⟩ | ⟨_, h'⟩
  · rw [h'] at ht ⊢; simp at ht; simp [ht]
  · have := h' _ ht; simp at this

/-- C06, non-blocking requests: with the inner mutex free, `LOCK_NB` succeeds exactly if the
request is compatible with the current holders, and fails with EAGAIN, changing nothing,
otherwise. -/
theorem flock_nb_iff {s : Sys} (h : Reach s) (t : Nat) (k : Kind) :
    ((step s (.tryReq t k false)).2 = some (.ok 0) ↔ Compatible s.held k) ∧
    (¬ Compatible s.held k → step s (.tryReq t k false) = (s, some (.err .EAGAIN))) := by
  have hk : (∃ g, acquire s.guard k = some g) ↔ Compatible s.held k := by
    rcases (reach_inv h).enc with ⟨hg, t', h'⟩ | ⟨hg, h'⟩ <;> cases k <;>
      simp [acquire, Compatible, hg, h']
    all_goals first | exact h' | omega | (intro a b hab; exact h' (a, b) hab)
  cases hq : acquire s.guard k with
  | none => rw [hq] at hk; simp at hk; simp [step, tryLock, hq, hk]
  | some g => rw [hq] at hk; simp at hk; simp [step, tryLock, hq, hk]

/-- C06, grants: whenever any step grants a lock, the grant is compatible with all other
holders at that moment. -/
theorem flock_grant_compatible {s : Sys} (h : Reach s) (a : Act) (t : Nat) (k : Kind)
    (hg : (step s a).1.held = (t, k) :: s.held) : Compatible s.held k := by
  have key : ∀ g k, acquire s.guard k = some g → Compatible s.held k := by
    intro g k hg
    rcases acquire_some hg with ⟨rfl, h0, _⟩ | ⟨rfl, h0, _⟩
    · rcases (reach_inv h).enc with ⟨h1, _⟩ | ⟨h1, _⟩
      · omega
      · exact List.length_eq_zero_iff.1 (by omega)
    · rcases (reach_inv h).enc with ⟨h1, _⟩ | ⟨_, h1⟩
      · omega
      · exact h1
  have hself : ∀ x : Nat × Kind, s.held ≠ x :: s.held := fun x hx => by
    have := congrArg List.length hx; simp at this
  cases a with
  | request tid k' =>
    simp only [step] at hg
    split at hg
    · rename_i g hq; simp at hg; exact hg.2 ▸ key g k' hq
    · exact absurd hg (hself _)
  | tryReq tid k' c =>
    simp only [step, tryLock] at hg
    split at hg
    · rename_i g hq
      split at hq
      · simp at hq
      · simp at hg; exact hg.2 ▸ key g k' hq
    · exact absurd hg (hself _)
  | recheck i =>
    simp only [step] at hg
    split at hg
    · exact absurd hg (hself _)
    · split at hg
      · rename_i g hq; simp at hg; exact hg.2 ▸ key g _ hq
      · exact absurd hg (hself _)
  | release tid pick =>
    have : ∀ n (s' : Sys), (notify s' pick n).held = s'.held := by
      intro n s'; cases n <;> simp [notify]; split <;> rfl
    simp only [step, this] at hg
    have h1 := congrArg List.length hg
    have h2 := List.length_eraseP_le (p := fun h : Nat × Kind => h.1 == tid) (l := s.held)
    simp at h1; omega

/-- C06, no lost wake-up: if nobody holds the lock and somebody waits, some notified thread's
next re-check is granted; and a shared request sleeps only while an exclusive lock is held. -/
theorem flock_no_lost_wakeup {s : Sys} (h : Reach s) :
    (s.held = [] → s.asleep ≠ [] → ∃ i, (step s (.recheck i)).2 = some (.ok 0)) ∧
    (∀ t, (t, Kind.sh) ∈ s.asleep → ∃ t', s.held = [(t', .ex)]) := by
  have hi := reach_inv h
  constructor
  · intro hn ha
    have hg : s.guard = 0 := by
      rcases hi.enc with ⟨_, t, ht⟩ | ⟨h1, _⟩
      · simp [hn] at ht
      · simp [h1, hn]
    obtain ⟨t, ht⟩ := hi.exAsleep ha hg
    obtain ⟨i, hi', hti⟩ := List.getElem_of_mem ht
    refine ⟨i, ?_⟩
    have : s.woken[i]? = some (t, .ex) := by rw [List.getElem?_eq_getElem hi', hti]
    simp [step, this, acquire, hg]
  · intro t ht
    have := hi.shAsleep t ht
    rcases hi.enc with ⟨_, t', h'⟩ | ⟨h1, _⟩
    · exact ⟨t', h'⟩
    · omega

/-- C06: `flock` rejects exactly the operations that are not one of SH, EX, UN (with or
without NB). -/
theorem flock_decode (op : BitVec 32) :
    decode op = none ↔ ¬ (op &&& 11#32 = 1#32 ∨ op &&& 11#32 = 2#32 ∨ op &&& 11#32 = 8#32) := by
  unfold decode; grind

/-- How often thread and mode `x` are waiting, asleep or woken. -/
def waiting (s : Sys) (x : Nat × Kind) : Nat := s.asleep.count x + s.woken.count x

/-- C06, no caller is lost or duplicated, in any state.  A request is from then on either a holder
or a waiter; a non-blocking one never waits; a waiter that rechecks remains a waiter or becomes a
holder, nobody else is touched; a release wakes waiters but loses none and makes none. -/
theorem flock_nobody_lost (s : Sys) (x : Nat × Kind) :
    (∀ t k, waiting (step s (.request t k)).1 x + (step s (.request t k)).1.held.count x =
      waiting s x + s.held.count x + (if (t, k) = x then 1 else 0)) ∧
    (∀ t k c, waiting (step s (.tryReq t k c)).1 x = waiting s x) ∧
    (∀ i, waiting (step s (.recheck i)).1 x + (step s (.recheck i)).1.held.count x =
      waiting s x + s.held.count x) ∧
    (∀ t pick, waiting (step s (.release t pick)).1 x = waiting s x) := by
  have er : ∀ (l : List (Nat × Kind)) (i : Nat) (y : Nat × Kind), l[i]? = some y →
      l.count x = (l.eraseIdx i).count x + (if y = x then 1 else 0) := by
    intro l
    induction l with
    | nil => intro i y h; simp at h
    | cons a l ih =>
      intro i y h
      cases i with
      | zero => simp at h; subst h; simp [List.count_cons]
      | succ i =>
        simp at h
        rw [List.eraseIdx_cons_succ, List.count_cons, List.count_cons, ih i y h]; omega
  refine ⟨?_, ?_, ?_, ?_⟩
  · intro t k
    simp only [step]
    split <;> simp only [waiting, List.count_cons, List.count_append, List.count_nil, beq_iff_eq] <;> omega
  · intro t k c
    simp only [step]
    split <;> rfl
  · intro i
    simp only [step]
    split
    · rfl
    · rename_i t k hw
      have := er _ _ _ hw
      split <;> simp only [waiting, List.count_cons, List.count_append, List.count_nil, beq_iff_eq] <;> omega
  · intro t pick
    simp only [step]
    generalize (unlock s.guard).2.1 = n
    cases n with
    | none => rfl
    | all => simp [notify, waiting, Nat.add_comm]
    | one =>
      simp only [notify]
      split
      · rfl
      · rename_i y hw
        have := er _ _ _ hw
        simp only [waiting, List.count_cons, List.count_append, List.count_nil, beq_iff_eq]
        omega

/-- A reachable state with an exclusive holder and both kinds of waiters. -/
def demo : Sys :=
  (step (step (step Sys.init (.request 1 .ex)).1 (.request 2 .sh)).1 (.request 3 .ex)).1

theorem demo_reach : Reach demo :=
  .step (.step (.step .init (by simp)) (by simp)) (by simp)

example : demo.held = [(1, .ex)] ∧ demo.asleep = [(2, .sh), (3, .ex)] := by decide

example : waiting (step demo (.release 1 0)).1 (2, .sh) = 1 ∧ (step demo (.release 1 0)).1.asleep = [] := by
  decide

/-- A reachable state where the lock is free but somebody is still asleep (a shared holder left
while two exclusive requests waited): the hypotheses of `flock_no_lost_wakeup` are met. -/
def demo2 : Sys :=
  (step (step (step (step Sys.init (.request 1 .sh)).1 (.request 2 .ex)).1 (.request 3 .ex)).1
    (.release 1 1)).1

theorem demo2_reach : Reach demo2 :=
  .step (.step (.step (.step .init (by simp)) (by simp)) (by simp))
    (by intro tid pick h; cases h; exact ⟨.sh, by decide⟩)

example : demo2.held = [] ∧ demo2.asleep = [(2, .ex)] ∧ demo2.woken = [(3, .ex)] := by decide

/-- C06.  Through one open file: after the exclusive lock is granted every further request is refused, and after a shared lock is
granted the exclusive one is; other opens keep their locks. -/
theorem flock_one_open (o : Opens) (i : Nat) (k k' : Kind) (h : (flockNb o i k).2 = .ok 0) (hk : k = .ex ∨ k' = .ex) (h0 : ∀ g ∈ o, 0 ≤ g) :
    (flockNb (flockNb o i k).1 i k').2 = .err .EAGAIN ∧ ∀ j, j ≠ i → (flockNb o i k).1[j]? = o[j]? := by
  unfold flockNb at h ⊢
  cases hg : o[i]? with
  | none => rw [hg] at h; cases h
  | some g =>
    have hpos : 0 ≤ g := h0 g (List.mem_of_getElem? hg)
    have hi : i < o.length := by
      rcases Nat.lt_or_ge i o.length with h | h
      · exact h
      · rw [List.getElem?_eq_none h] at hg; cases hg
    rw [hg] at h
    dsimp only at h ⊢
    cases ht : tryLock g k false with
    | none => rw [ht] at h; cases h
    | some g' =>
      dsimp only
      have he : (o.set i g')[i]? = some g' := by rw [List.getElem?_set_self hi]
      refine ⟨?_, fun j hj => by rw [List.getElem?_set_ne (Ne.symm hj)]⟩
      rw [he]
      dsimp only
      have hn : tryLock g' k' false = none := by
        simp only [tryLock, acquire] at ht ⊢
        cases k <;> cases k' <;> simp_all <;> omega
      rw [hn]

example : (flockNb [0, 3] 0 .ex).2 = .ok 0 ∧ (flockNb [0, 3] 1 .sh).2 = .ok 0 := by decide

/-! ## Violations -/

/-- C06 violated: two opens of one file have separate locks, so both obtain the exclusive
lock. -/
theorem flock_two_opens_violated :
    let o := openAgain (openAgain [])
    (flockNb o 0 .ex).2 = .ok 0 ∧ (flockNb (flockNb o 0 .ex).1 1 .ex).2 = .ok 0 := by decide

/-- C06 violated: `LOCK_NB` may fail with EAGAIN although nobody holds the lock, when another
thread is just inside the lock's inner mutex. -/
theorem flock_nb_spurious_violated :
    ∃ s, Reach s ∧ s.held = [] ∧ (step s (.tryReq 1 .sh true)).2 = some (.err .EAGAIN) :=
  ⟨_, .init, rfl, by decide⟩

/-- C06 violated: a caller that holds nothing can release another's exclusive lock, after which
a second exclusive lock is granted while the first is still held by its owner. -/
theorem flock_foreign_unlock_violated :
    let s := (step (step (step Sys.init (.request 1 .ex)).1 (.release 2 0)).1 (.request 3 .ex)).1
    s.held = [(3, .ex), (1, .ex)] := by decide

/-- A holder of a shared lock that asks for the exclusive one (lock conversion) sleeps although
it is the only holder: nobody else can wake it. -/
theorem flock_upgrade_deadlock :
    let s := (step (step Sys.init (.request 1 .sh)).1 (.request 1 .ex)).1
    s.held = [(1, .sh)] ∧ s.asleep = [(1, .ex)] ∧ s.woken = [] := by decide

end Verif.AdvLock
