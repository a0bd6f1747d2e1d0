import Verif.FlockConcLemmas

/-!
# C93: a thread that holds a file lock can use the file and unlock it
-/

namespace Verif.FlockConc
open Verif.AdvLock

/-- C93.  A knot does not come undone: neither of the two threads returns, whatever others do, as long as nobody unlocks what they have not
locked. -/
theorem knot_hangs {h o : Nat} {k : Kind} {u fd : Nat} {k' : Kind} {s : St} (hc : Knot h o k u fd k' s) (hk : ¬ Compatible k' k) :
    Hangs s h ∧ Hangs s u := by
  have key : ∀ acts, Along Honest s acts → Knot h o k u fd k' (run s acts) := fun acts ha =>
    along_run (I := Knot h o k u fd k') (fun _ _ _ hc ha hs => knot_step hc hk ha hs) hc ha
  refine ⟨fun acts ha => ?_, fun acts ha => ?_⟩
  · have hc' := key acts ha
    rcases hc'.tied with e | ⟨op, _, hb | hb⟩ | ⟨⟨op, _, hb⟩, _⟩
    · subst e; rw [hc'.waits]; intro e; cases e
    all_goals rw [hb]; intro e; cases e
  · rw [(key acts ha).waits]; intro e; cases e

/-! ## What holds -/

/-- C93.  Through whatever descriptors locks are taken: one thread has an exclusive lock on an open file, or some have shared ones. -/
theorem exclusive (N : Nat) (acts : List Act) (ha : Along Honest (init N) acts) (o : Nat) :
    (∃ t, on (run (init N) acts) o = [(t, o, .ex)]) ∨ ∀ x ∈ on (run (init N) acts) o, x.2.2 = .sh := by
  rcases (reach_good N ha).agrees o with ⟨_, t, o', h⟩ | ⟨_, h⟩
  · refine Or.inl ⟨t, ?_⟩
    have : (t, o', Kind.ex) ∈ on (run (init N) acts) o := by rw [h]; exact List.mem_cons_self
    rw [h, ← (mem_on.mp this).2]
  · exact Or.inr h

/-- C93.  A thread that waits for a lock can have it exactly when nobody has one that does not go with it. -/
theorem granted_iff (N : Nat) (acts : List Act) (ha : Along Honest (init N) acts) (t fd o : Nat) (k : Kind)
    (ht : (run (init N) acts).thr[t]? = some (.wait fd o k)) :
    (∃ s', step (run (init N) acts) (.grant t) = some s' ∧ s'.thr[t]? = some .idle ∧ s'.held = (t, o, k) :: (run (init N) acts).held ∧
      s'.log = (run (init N) acts).log ++ [(t, fd, .lock k, .ok 0)]) ↔
    ∀ u k', (u, o, k') ∈ (run (init N) acts).held → Compatible k k' := by
  have hg := reach_good N ha
  generalize run (init N) acts = s at ht hg ⊢
  have hn := agrees_none (hg.agrees o) k
  cases hq : acquire (s.guard o) k with
  | none =>
    constructor
    · rintro ⟨s', hs, _⟩; simp [step, ht, hq] at hs
    · intro h
      obtain ⟨x, hx, hc⟩ := hn.mp hq
      obtain ⟨hx, e⟩ := mem_on.mp hx
      exact absurd (h x.1 x.2.2 (by rw [← e]; exact hx)) hc
  | some g =>
    refine ⟨fun _ u k' hu => ?_, fun _ => ⟨ret { s with guard := upd s.guard o g, held := (t, o, k) :: s.held } t fd (.lock k) (.ok 0),
      by simp only [step, ht, hq], ?_, rfl, rfl⟩⟩
    · refine Classical.byContradiction fun hc => ?_
      have := hn.mpr ⟨_, mem_on.mpr ⟨hu, rfl⟩, hc⟩
      rw [hq] at this; cases this
    · exact List.getElem?_set_self (List.getElem?_eq_some_iff.mp ht).1

/-- C93.  A call that does not get on with its descriptor is behind another thread on the same descriptor: one that waits in `flock`, or a queued one. -/
theorem why (N : Nat) (acts : List Act) (t fd : Nat) (op : Op)
    (ht : (run (init N) acts).thr[t]? = some (.call fd op) ∨ (run (init N) acts).thr[t]? = some (.queued fd op)) (hf : Free (run (init N) acts) op) :
    (∃ s', step (run (init N) acts) (.go t) = some s' ∧
      (s'.thr[t]? = some .idle ∨ ∃ o k, op = .lock k ∧ s'.thr[t]? = some (.wait fd o k))) ∨
    (∃ (u o : Nat) (k : Kind), u ≠ t ∧ (run (init N) acts).thr[u]? = some (.wait fd o k)) ∨
    (∃ (u : Nat) (op' : Op), u ≠ t ∧ (run (init N) acts).thr[u]? = some (.queued fd op')) := by
  generalize run (init N) acts = s at ht hf ⊢
  have hlt : t < s.thr.length := by rcases ht with h | h <;> exact (List.getElem?_eq_some_iff.mp h).1
  by_cases hw : waiter s fd = true
  · obtain ⟨u, o, k, hu⟩ := waiter_iff.mp hw
    refine Or.inr (Or.inl ⟨u, o, k, ?_, hu⟩)
    rintro rfl
    rcases ht with h | h <;> rw [h] at hu <;> cases hu
  · rw [Bool.not_eq_true] at hw
    by_cases hq : queue s fd = true ∧ s.thr[t]? = some (.call fd op)
    · obtain ⟨u, op', hu⟩ := queue_iff.mp hq.1
      refine Or.inr (Or.inr ⟨u, op', ?_, hu⟩)
      rintro rfl
      rw [hq.2] at hu; cases hu
    · have hs : step s (.go t) = perform s t fd op := by
        rcases ht with h | h
        · have : queue s fd = false := by
            cases hqq : queue s fd with
            | false => rfl
            | true => exact absurd ⟨hqq, h⟩ hq
          simp [step, h, hw, this]
        · simp [step, h, hw]
      rw [hs]
      have hsome : ∃ s', perform s t fd op = some s' := by
        unfold perform
        cases s.fds fd with
        | none => exact ⟨_, rfl⟩
        | some o =>
          cases op with
          | lock k => dsimp only; cases acquire (s.guard o) k <;> exact ⟨_, rfl⟩
          | tryLock k c => dsimp only; cases tryLock (s.guard o) k c <;> exact ⟨_, rfl⟩
          | dup n => dsimp only; rw [if_pos (hf n (Or.inl rfl))]; exact ⟨_, rfl⟩
          | copy n => dsimp only; rw [if_pos (hf n (Or.inr rfl))]; exact ⟨_, rfl⟩
          | _ => exact ⟨_, rfl⟩
      obtain ⟨s', hs'⟩ := hsome
      refine Or.inl ⟨s', hs', ?_⟩
      rcases perform_thr hs' with e | ⟨o, k, ho, _, _, e⟩
      · exact Or.inl (by rw [e]; exact List.getElem?_set_self hlt)
      · exact Or.inr ⟨o, k, ho, by rw [e]; exact List.getElem?_set_self hlt⟩

/-- C93.  `flock` without `LOCK_NB` that has the slot: with the lock if nobody has one that does not go with it (it answers 0), and otherwise the thread
waits for that lock, of the kind it asked for. -/
theorem lock_answers (N : Nat) (acts : List Act) (ha : Along Honest (init N) acts) (t fd o : Nat) (k : Kind) (s' : St)
    (ht : (run (init N) acts).thr[t]? = some (.call fd (.lock k))) (hf : (run (init N) acts).fds fd = some o)
    (hs : step (run (init N) acts) (.go t) = some s') :
    ((∀ u k', (u, o, k') ∈ (run (init N) acts).held → Compatible k k') → s'.thr[t]? = some .idle ∧
      s'.held = (t, o, k) :: (run (init N) acts).held ∧ s'.log = (run (init N) acts).log ++ [(t, fd, .lock k, .ok 0)]) ∧
    ((∃ u k', (u, o, k') ∈ (run (init N) acts).held ∧ ¬ Compatible k k') → s'.thr[t]? = some (.wait fd o k) ∧
      s'.held = (run (init N) acts).held ∧ s'.log = (run (init N) acts).log) := by
  have hg := reach_good N ha
  generalize run (init N) acts = s at *
  have hlt := (List.getElem?_eq_some_iff.mp ht).1
  have hp : perform s t fd (.lock k) = some s' := by
    simp only [step, ht] at hs
    rw [if_neg (show ¬ (Op.lock k).writes = true from Bool.false_ne_true)] at hs
    cases hq : queue s fd with
    | true => rw [hq, if_pos rfl] at hs; cases hs
    | false => rw [hq, if_neg Bool.false_ne_true] at hs; exact hs
  unfold perform at hp
  rw [hf] at hp
  have hn := agrees_none (hg.agrees o) k
  dsimp only at hp
  cases hq : acquire (s.guard o) k with
  | none =>
    rw [hq] at hp; cases hp
    refine ⟨fun h => ?_, fun _ => ⟨List.getElem?_set_self hlt, rfl, rfl⟩⟩
    obtain ⟨x, hx, hc⟩ := hn.mp hq
    obtain ⟨hx, e⟩ := mem_on.mp hx
    exact absurd (h x.1 x.2.2 (by rw [← e]; exact hx)) hc
  | some g =>
    rw [hq] at hp; cases hp
    refine ⟨fun _ => ⟨List.getElem?_set_self hlt, rfl, rfl⟩, fun ⟨u, k', hu, hc⟩ => ?_⟩
    have := hn.mpr ⟨_, mem_on.mpr ⟨hu, rfl⟩, hc⟩
    rw [hq] at this; cases this

/-- C93.  A `close` that gets on frees the descriptor, only that one, and the locks stay as they are. -/
theorem close_frees (N : Nat) (acts : List Act) (t fd o : Nat) (s' : St) (ht : (run (init N) acts).thr[t]? = some (.call fd .close))
    (hf : (run (init N) acts).fds fd = some o) (hs : step (run (init N) acts) (.go t) = some s') :
    (s'.thr[t]? = some (.queued fd .close) ∧ s'.fds = (run (init N) acts).fds) ∨
    (s'.thr[t]? = some .idle ∧ s'.fds fd = none ∧ (∀ n, n ≠ fd → s'.fds n = (run (init N) acts).fds n) ∧
      s'.held = (run (init N) acts).held ∧ s'.guard = (run (init N) acts).guard) := by
  generalize run (init N) acts = s at *
  have hlt := (List.getElem?_eq_some_iff.mp ht).1
  simp only [step, ht] at hs
  rw [if_pos (show (Op.close).writes = true from rfl)] at hs
  cases hw : waiter s fd with
  | true => rw [hw, if_pos rfl] at hs; cases hs; exact .inl ⟨List.getElem?_set_self hlt, rfl⟩
  | false =>
    rw [hw, if_neg Bool.false_ne_true] at hs
    simp only [perform, hf] at hs
    cases hs
    exact .inr ⟨List.getElem?_set_self hlt, upd_same _ _ _, fun n hn => upd_ne _ _ hn, rfl, rfl⟩

/-- C93.  `flock` with `LOCK_NB` that has the slot returns at once, 0 with the lock if nobody has one that does not go with it, and EAGAIN otherwise (the
inner mutex being free: see C06); on a closed descriptor every call returns EBADF. -/
theorem nb_answers (N : Nat) (acts : List Act) (ha : Along Honest (init N) acts) (t fd : Nat) (k : Kind) (s' : St)
    (ht : (run (init N) acts).thr[t]? = some (.call fd (.tryLock k false))) (hs : step (run (init N) acts) (.go t) = some s') :
    s'.thr[t]? = some .idle ∧ ∃ r, s'.log = (run (init N) acts).log ++ [(t, fd, .tryLock k false, r)] ∧
      ((run (init N) acts).fds fd = none → r = .err .EBADF ∧ s'.held = (run (init N) acts).held) ∧
      ∀ o, (run (init N) acts).fds fd = some o →
        ((∀ u k', (u, o, k') ∈ (run (init N) acts).held → Compatible k k') → r = .ok 0 ∧ s'.held = (t, o, k) :: (run (init N) acts).held) ∧
        ((∃ u k', (u, o, k') ∈ (run (init N) acts).held ∧ ¬ Compatible k k') → r = .err .EAGAIN ∧ s'.held = (run (init N) acts).held) := by
  have hg := reach_good N ha
  generalize run (init N) acts = s at *
  have hlt := (List.getElem?_eq_some_iff.mp ht).1
  have hp : perform s t fd (.tryLock k false) = some s' := by
    simp only [step, ht] at hs
    rw [if_neg (show ¬ (Op.tryLock k false).writes = true from Bool.false_ne_true)] at hs
    cases hq : queue s fd with
    | true => rw [hq, if_pos rfl] at hs; cases hs
    | false => rw [hq, if_neg Bool.false_ne_true] at hs; exact hs
  unfold perform at hp
  cases ho : s.fds fd with
  | none =>
    rw [ho] at hp; cases hp
    exact ⟨List.getElem?_set_self hlt, _, rfl, fun _ => ⟨rfl, rfl⟩, fun o h => by cases h⟩
  | some o =>
    rw [ho] at hp
    have hn := agrees_none (hg.agrees o) k
    dsimp only [tryLock] at hp
    rw [if_neg Bool.false_ne_true] at hp
    cases hq : acquire (s.guard o) k with
    | none =>
      rw [hq] at hp; cases hp
      refine ⟨List.getElem?_set_self hlt, _, rfl, fun h => (by cases h), fun o' h => ?_⟩
      cases h
      refine ⟨fun h => ?_, fun _ => ⟨rfl, rfl⟩⟩
      obtain ⟨x, hx, hc⟩ := hn.mp hq
      obtain ⟨hx, e⟩ := mem_on.mp hx
      exact absurd (h x.1 x.2.2 (by rw [← e]; exact hx)) hc
    | some g =>
      rw [hq] at hp; cases hp
      refine ⟨List.getElem?_set_self hlt, _, rfl, fun h => (by cases h), fun o' h => ?_⟩
      cases h
      refine ⟨fun _ => ⟨rfl, rfl⟩, fun ⟨u, k', hu, hc⟩ => ?_⟩
      have := hn.mpr ⟨_, mem_on.mpr ⟨hu, rfl⟩, hc⟩
      rw [hq] at this; cases this

/-- C93.  Calls on a descriptor that is not open return EBADF and do nothing else. -/
theorem closed_badf (s s' : St) (t fd : Nat) (op : Op) (hc : s.fds fd = none) (ht : s.thr[t]? = some (.call fd op) ∨ s.thr[t]? = some (.queued fd op))
    (hs : step s (.go t) = some s') (hi : s'.thr[t]? = some .idle) :
    s'.log = s.log ++ [(t, fd, op, .err .EBADF)] ∧ s'.held = s.held ∧ s'.guard = s.guard ∧ s'.fds = s.fds := by
  have hlt : t < s.thr.length := by rcases ht with h | h <;> exact (List.getElem?_eq_some_iff.mp h).1
  rcases step_cases hs with ⟨_, e, _⟩ | ⟨_, _, _, e, _⟩ | ⟨t', fd', op', e, _, _, _, rfl⟩ | ⟨t', fd', op', e, h, _, hp⟩ | ⟨_, _, _, _, _, e, _⟩
  · cases e
  · cases e
  · cases e
    rw [List.getElem?_set_self hlt] at hi; cases hi
  · cases e
    have e2 : fd' = fd ∧ op' = op := by
      rcases h with h | h <;> rcases ht with h' | h' <;> rw [h] at h' <;> cases h' <;> exact ⟨rfl, rfl⟩
    obtain ⟨rfl, rfl⟩ := e2
    unfold perform at hp
    rw [hc] at hp
    cases hp
    exact ⟨rfl, rfl, rfl, rfl⟩
  · cases e

/-- Who is where, when descriptors are kept apart. -/
def Apart (own : Nat → Option Nat) (s : St) : Prop :=
  (∀ (t fd : Nat) (op : Op), s.thr[t]? = some (.call fd op) → Sep own (.call t fd op)) ∧
  (∀ (t fd : Nat) (op : Op), s.thr[t]? ≠ some (.queued fd op)) ∧
  ∀ (t fd o : Nat) (k : Kind), s.thr[t]? = some (.wait fd o k) → own fd = some t

theorem apart_waiter {own : Nat → Option Nat} {s : St} (h : Apart own s) {t fd : Nat} {op : Op} (ht : s.thr[t]? = some (.call fd op)) :
    waiter s fd = false := by
  cases hw : waiter s fd with
  | false => rfl
  | true =>
    obtain ⟨u, o, k, hu⟩ := waiter_iff.mp hw
    have e := h.2.2 u fd o k hu
    have := h.1 t fd op ht
    simp only [Sep, e] at this
    subst this
    rw [ht] at hu; cases hu

theorem apart_step {own : Nat → Option Nat} {s s' : St} {a : Act} (h : Apart own s) (ha : Sep own a) (hs : step s a = some s') : Apart own s' := by
  have key : ∀ (t : Nat) (p : Ph), (∀ fd op, p = .call fd op → Sep own (.call t fd op)) → (∀ fd op, p ≠ .queued fd op) →
      (∀ fd o k, p = .wait fd o k → own fd = some t) → ∀ s'' : St, s''.thr = s.thr.set t p → Apart own s'' := by
    intro t p h1 h2 h3 s'' e
    refine ⟨fun u fd op hu => ?_, fun u fd op hu => ?_, fun u fd o k hu => ?_⟩
    · rw [e] at hu
      rcases set_get hu with ⟨rfl, hq⟩ | ⟨_, hq⟩
      · exact h1 fd op hq.symm
      · exact h.1 u fd op hq
    · rw [e] at hu
      rcases set_get hu with ⟨_, hq⟩ | ⟨_, hq⟩
      · exact h2 fd op hq.symm
      · exact h.2.1 u fd op hq
    · rw [e] at hu
      rcases set_get hu with ⟨rfl, hq⟩ | ⟨_, hq⟩
      · exact h3 fd o k hq.symm
      · exact h.2.2 u fd o k hq
  rcases step_cases hs with ⟨fd, _, _, rfl⟩ | ⟨t, fd, op, rfl, hi, rfl⟩ | ⟨t, fd, op, rfl, hc, hw, hq, rfl⟩ | ⟨t, fd, op, rfl, hc, _, hp⟩ | ⟨t, fd, o, k, g, rfl, _, _, rfl⟩
  · exact h
  · exact key t _ (fun fd op e => by cases e; exact ha) (fun _ _ e => by cases e) (fun _ _ _ e => by cases e) _ rfl
  · rw [apart_waiter h hc] at hq; cases hq
  · rcases perform_thr hp with e | ⟨o, k, rfl, _, _, e⟩
    · exact key t _ (fun _ _ e => by cases e) (fun _ _ e => by cases e) (fun _ _ _ e => by cases e) _ e
    · refine key t (.wait fd o k) (fun _ _ e => by cases e) (fun _ _ e => by cases e) (fun _ _ _ e' => ?_) _ (by rw [e])
      cases e'
      rcases hc with hc | hc
      · have := h.1 t fd _ hc
        simp only [Sep] at this
        split at this
        · rename_i u hu; rw [hu, this]
        · exact absurd rfl (this k)
      · exact absurd hc (h.2.1 t fd _)
  · exact key t _ (fun _ _ e => by cases e) (fun _ _ e => by cases e) (fun _ _ _ e => by cases e) _ rfl

theorem apart_run (own : Nat → Option Nat) (N : Nat) (acts : List Act) (ha : Along (fun _ => Sep own) (init N) acts) : Apart own (run (init N) acts) := by
  refine along_run (I := Apart own) (fun _ _ _ h hp hs => apart_step h hp hs) ?_ ha
  have hi : ∀ (t : Nat) (p : Ph), (init N).thr[t]? = some p → p = .idle := fun t p h => by
    have := List.mem_of_getElem? h
    rw [init, List.mem_replicate] at this
    exact this.2
  exact show Apart own (init N) from ⟨fun t fd op h => (by cases hi _ _ h), fun t fd op h => (by cases hi _ _ h), fun t fd o k h => (by cases hi _ _ h)⟩

/-- C93, for programs in which nobody else uses a descriptor that a thread waits on with `flock`: every call goes on at once, except `flock` without
`LOCK_NB` when another lock that does not go with it is there.  Missing: descriptors shared by threads (`use_violated`). -/
theorem goes_on_partial (own : Nat → Option Nat) (N : Nat) (acts : List Act) (hh : Along Honest (init N) acts) (ha : Along (fun _ => Sep own) (init N) acts)
    (t fd : Nat) (op : Op) (ht : (run (init N) acts).thr[t]? = some (.call fd op)) (hf : Free (run (init N) acts) op) :
    ∃ s', step (run (init N) acts) (.go t) = some s' ∧ (s'.thr[t]? = some .idle ∨
      ∃ o k u k', op = .lock k ∧ s'.thr[t]? = some (.wait fd o k) ∧ (u, o, k') ∈ s'.held ∧ ¬ Compatible k k') := by
  have hap := apart_run own N acts ha
  have hg := reach_good N hh
  have hw := why N acts t fd op (Or.inl ht) hf
  generalize run (init N) acts = s at *
  have hwn := apart_waiter hap ht
  rcases hw with ⟨s', hs, h⟩ | ⟨u, o, k, _, hu⟩ | ⟨u, op', _, hu⟩
  · refine ⟨s', hs, ?_⟩
    rcases h with h | ⟨o, k, rfl, hwt⟩
    · exact Or.inl h
    · right
      rcases step_cases hs with ⟨fd, e, _⟩ | ⟨t, fd, op, e, _⟩ | ⟨t', fd', op', e, hc, hwr, hq, rfl⟩ | ⟨t', fd', op', e, hc, _, hp⟩ | ⟨t', fd, o, k, g, e, _⟩
      · cases e
      · cases e
      · cases e
        rw [List.getElem?_set_self (List.getElem?_eq_some_iff.mp ht).1] at hwt
        cases hwt
      · cases e
        have e2 : fd' = fd ∧ op' = .lock k := by
          rcases hc with hc | hc <;> rw [ht] at hc <;> cases hc
          exact ⟨rfl, rfl⟩
        obtain ⟨rfl, rfl⟩ := e2
        rcases perform_thr hp with e | ⟨o', k', e1, hfd, hac, e⟩
        · rw [e, List.getElem?_set_self (List.getElem?_eq_some_iff.mp ht).1] at hwt; cases hwt
        · cases e1
          rw [e, List.getElem?_set_self (List.getElem?_eq_some_iff.mp ht).1] at hwt
          cases hwt
          obtain ⟨x, hx, hc⟩ := (agrees_none (hg.agrees o) k).mp hac
          obtain ⟨hx, e3⟩ := mem_on.mp hx
          refine ⟨o, k, x.1, x.2.2, rfl, ?_, ?_, hc⟩
          · rw [e]; exact List.getElem?_set_self (List.getElem?_eq_some_iff.mp ht).1
          · rw [e, ← e3]; exact hx
      · cases e
  · rw [waiter_iff.mpr ⟨u, o, k, hu⟩] at hwn; cases hwn
  · exact absurd hu (hap.2.1 u fd op')

/-- A thread that makes calls one after the other, while the others do nothing. -/
def alone (t fd : Nat) (ops : List Op) : List Act := ops.flatMap fun op => [.call t fd op, .go t]

theorem alone_use {own : Nat → Option Nat} {t fd o : Nat} (hown : ∀ op, (∀ k, op ≠ .lock k) → Sep own (.call t fd op)) :
    ∀ (ops : List Op) (s : St), Apart own s → s.thr[t]? = some .idle → s.fds fd = some o → (∀ op ∈ ops, op = .use ∨ op = .look) →
      (run s (alone t fd ops)).thr = s.thr ∧ (run s (alone t fd ops)).fds = s.fds ∧ (run s (alone t fd ops)).guard = s.guard ∧
      (run s (alone t fd ops)).held = s.held ∧ (run s (alone t fd ops)).log = s.log ++ ops.map (fun op => (t, fd, op, .ok 0)) := by
  intro ops
  induction ops with
  | nil => intro s _ _ _ _; exact ⟨rfl, rfl, rfl, rfl, by simp [alone, run]⟩
  | cons op ops ih =>
    intro s hap hi hfd hop
    have hlt := (List.getElem?_eq_some_iff.mp hi).1
    have hopu := hop op List.mem_cons_self
    have hs1 : step s (.call t fd op) = some { s with thr := s.thr.set t (.call fd op) } := by simp only [step, hi, if_true]
    have hnl : ∀ k, op ≠ .lock k := by rcases hopu with rfl | rfl <;> intro k e <;> cases e
    have hap1 := apart_step hap (hown op hnl) hs1
    have ht1 : ({ s with thr := s.thr.set t (.call fd op) } : St).thr[t]? = some (.call fd op) := List.getElem?_set_self hlt
    have hw1 := apart_waiter hap1 ht1
    have hq1 : queue { s with thr := s.thr.set t (.call fd op) } fd = false := by
      cases hq : queue { s with thr := s.thr.set t (.call fd op) } fd with
      | false => rfl
      | true => obtain ⟨u, op', hu⟩ := queue_iff.mp hq; exact absurd hu (hap1.2.1 u fd op')
    have hthr : (s.thr.set t (.call fd op)).set t .idle = s.thr := by
      rw [List.set_set]
      refine List.ext_getElem? fun i => ?_
      by_cases e : i = t
      · subst e; rw [List.getElem?_set_self hlt, hi]
      · rw [List.getElem?_set_ne (Ne.symm e)]
    have hs2 : step { s with thr := s.thr.set t (.call fd op) } (.go t) = some { s with log := s.log ++ [(t, fd, op, .ok 0)] } := by
      have hp : perform { s with thr := s.thr.set t (.call fd op) } t fd op = some { s with log := s.log ++ [(t, fd, op, .ok 0)] } := by
        unfold perform
        dsimp only
        rw [hfd]
        rcases hopu with rfl | rfl <;> simp only [ret, hthr]
      simp only [step, ht1, hw1, hq1, if_neg Bool.false_ne_true, ite_self]
      exact hp
    have hap2 : Apart own { s with log := s.log ++ [(t, fd, op, .ok 0)] } := hap
    obtain ⟨h1, h2, h3, h4, h5⟩ := ih { s with log := s.log ++ [(t, fd, op, .ok 0)] } hap2 hi hfd (fun op h => hop op (List.mem_cons_of_mem _ h))
    have e : run s (alone t fd (op :: ops)) = run { s with log := s.log ++ [(t, fd, op, .ok 0)] } (alone t fd ops) := by
      show run s ([.call t fd op, .go t] ++ alone t fd ops) = _
      rw [run_append]
      simp only [run, hs1, Option.getD_some, hs2]
    rw [e]
    refine ⟨h1, h2, h3, h4, ?_⟩
    rw [h5]
    simp

/-- C93, for the same programs: a thread that has a lock can use the file any number of times and unlock it, all with result 0, without anybody
else doing anything; after that the lock is given back.  Missing: descriptors shared by threads (`use_violated`). -/
theorem section_partial (own : Nat → Option Nat) (N : Nat) (acts : List Act) (ha : Along (fun _ => Sep own) (init N) acts)
    (t fd o : Nat) (k : Kind) (hi : (run (init N) acts).thr[t]? = some .idle) (hfd : (run (init N) acts).fds fd = some o)
    (hheld : (t, o, k) ∈ (run (init N) acts).held) (hown : own fd = some t ∨ own fd = none) (ops : List Op) (hops : ∀ op ∈ ops, op = .use ∨ op = .look) :
    let s' := run (run (init N) acts) (alone t fd (ops ++ [.unlock]))
    s'.thr[t]? = some .idle ∧ s'.log = (run (init N) acts).log ++ (ops ++ [Op.unlock]).map (fun op => (t, fd, op, .ok 0)) ∧
    s'.held.length + 1 = (run (init N) acts).held.length ∧ ∃ k', (run (init N) acts).held.Perm ((t, o, k') :: s'.held) := by
  have hap := apart_run own N acts ha
  generalize run (init N) acts = s at *
  have hsep : ∀ op, (∀ k, op ≠ .lock k) → Sep own (.call t fd op) := by
    intro op hop
    simp only [Sep]
    rcases hown with h | h <;> rw [h]
    exact hop
  obtain ⟨h1, h2, h3, h4, h5⟩ := alone_use hsep ops s hap hi hfd hops
  have e : run s (alone t fd (ops ++ [.unlock])) = run (run s (alone t fd ops)) [.call t fd .unlock, .go t] := by
    unfold alone
    rw [List.flatMap_append, run_append]; rfl
  intro s'
  have hs' : s' = run (run s (alone t fd ops)) [.call t fd .unlock, .go t] := e
  generalize run s (alone t fd ops) = s1 at *
  have hap1 : Apart own s1 := by unfold Apart; rw [h1]; exact hap
  have hi1 : s1.thr[t]? = some .idle := by rw [h1]; exact hi
  have hlt := (List.getElem?_eq_some_iff.mp hi1).1
  have hs1 : step s1 (.call t fd .unlock) = some { s1 with thr := s1.thr.set t (.call fd .unlock) } := by simp only [step, hi1, if_true]
  have hap2 := apart_step hap1 (hsep .unlock (fun k e => by cases e)) hs1
  have ht2 : ({ s1 with thr := s1.thr.set t (.call fd .unlock) } : St).thr[t]? = some (.call fd .unlock) := List.getElem?_set_self hlt
  have hq2 : queue { s1 with thr := s1.thr.set t (.call fd .unlock) } fd = false := by
    cases hq : queue { s1 with thr := s1.thr.set t (.call fd .unlock) } fd with
    | false => rfl
    | true => obtain ⟨u, op', hu⟩ := queue_iff.mp hq; exact absurd hu (hap2.2.1 u fd op')
  have hfd1 : s1.fds fd = some o := by rw [h2]; exact hfd
  have hs2 : step { s1 with thr := s1.thr.set t (.call fd .unlock) } (.go t) =
      perform { s1 with thr := s1.thr.set t (.call fd .unlock) } t fd .unlock := by
    simp only [step, ht2, hq2, if_neg Bool.false_ne_true, Op.writes]
  have hfin : s' = ret { s1 with thr := s1.thr.set t (.call fd .unlock)
                                 guard := upd s1.guard o (AdvLock.unlock (s1.guard o)).1
                                 held := s1.held.eraseP (fun h => h.1 == t && h.2.1 == o) } t fd .unlock (.ok 0) := by
    rw [hs']
    simp only [run, hs1, Option.getD_some, hs2]
    unfold perform
    dsimp only
    rw [hfd1]
    rfl
  rw [hfin]
  have hx : (t, o, k) ∈ s1.held := by rw [h4]; exact hheld
  obtain ⟨x, l1, l2, hn, hp, heq, her⟩ := List.exists_of_eraseP (p := fun h : Nat × Nat × Kind => h.1 == t && h.2.1 == o) hx (by simp)
  refine ⟨?_, ?_, ?_, x.2.2, ?_⟩
  · simp only [ret]; exact List.getElem?_set_self (by rw [List.length_set]; exact hlt)
  · simp only [ret, h5, List.map_append, List.append_assoc, List.map_cons, List.map_nil]
  · simp only [ret]; rw [her, ← h4, heq, List.length_append, List.length_append, List.length_cons]; omega
  · simp only [ret]; rw [her, ← h4, heq]
    have : x = (t, o, x.2.2) := by
      simp at hp
      rcases x with ⟨a, b, c⟩
      simp only at hp
      rw [hp.1, hp.2]
    rw [← this]
    exact List.perm_middle

/-! ## Threads that share a descriptor -/

/-- The step is not a call to unlock. -/
def noUnlock : Act → Bool
  | .call _ _ .unlock => false
  | _ => true

theorem honest_noUnlock (N : Nat) (acts : List Act) (h : acts.all noUnlock = true) : Along Honest (init N) acts := by
  have key : ∀ (acts : List Act) (s : St), (∀ (t fd : Nat), s.thr[t]? ≠ some (.call fd .unlock)) → acts.all noUnlock = true → Along Honest s acts := by
    intro acts
    induction acts with
    | nil => intro s _ _; trivial
    | cons a acts ih =>
      intro s hs ha
      rw [List.all_cons, Bool.and_eq_true] at ha
      refine ⟨?_, ih _ ?_ ha.2⟩
      · cases a with
        | go t => intro fd o hc; exact absurd hc (hs t fd)
        | _ => trivial
      · cases he : step s a with
        | none => exact hs
        | some s' =>
          intro t fd ht
          dsimp only [Option.getD_some] at ht
          have other : ∀ (u : Nat) (p : Ph), p ≠ .call fd .unlock → (s.thr.set u p)[t]? ≠ some (.call fd .unlock) := by
            intro u p hp e
            rcases set_get e with ⟨_, hq⟩ | ⟨_, hq⟩
            · exact hp hq.symm
            · exact hs t fd hq
          rcases step_cases he with ⟨fd, _, _, rfl⟩ | ⟨u, fd', op, rfl, _, rfl⟩ | ⟨u, fd', op, _, _, _, _, rfl⟩ | ⟨u, fd', op, _, _, _, hp⟩ | ⟨u, fd', o, k, g, _, _, _, rfl⟩
          · exact hs _ _ ht
          · exact other _ _ (fun e => by cases e; cases ha.1) ht
          · exact other _ _ (fun e => by cases e) ht
          · rcases perform_thr hp with e | ⟨o, k, _, _, _, e⟩ <;> rw [e] at ht <;> exact other _ _ (fun e => by cases e) ht
          · exact other _ _ (fun e => by cases e) ht
  refine key acts _ (fun t fd ht => ?_) h
  have := List.mem_of_getElem? ht
  rw [init, List.mem_replicate] at this
  cases this.2

/-- Thread `t` has a lock, and thread `u` waits for it through descriptor `fd`. -/
def Waits (s : St) (t o : Nat) (k : Kind) (u fd : Nat) (k' : Kind) : Prop :=
  (t, o, k) ∈ s.held ∧ s.thr[u]? = some (.wait fd o k') ∧ ¬ Compatible k' k

theorem waits_core {N : Nat} {acts : List Act} (ha : Along Honest (init N) acts) {t o : Nat} {k : Kind} {u fd : Nat} {k' : Kind}
    (hw : Waits (run (init N) acts) t o k u fd k') : Core t o k u fd k' (run (init N) acts) :=
  have hg := good_run ⟨good_init N, queues_init N⟩ ha
  ⟨hg.1, hg.2, hw.1, hw.2.1⟩

theorem call_core {t o : Nat} {k : Kind} {u fd : Nat} {k' : Kind} {s : St} (hc : Core t o k u fd k' s) (hk : ¬ Compatible k' k) {v : Nat} {op : Op}
    (hi : s.thr[v]? = some .idle) (fd' : Nat) : Core t o k u fd k' (run s [.call v fd' op]) ∧ (run s [.call v fd' op]).thr[v]? = some (.call fd' op) ∧
      ∀ w p, w ≠ v → s.thr[w]? = some p → (run s [.call v fd' op]).thr[w]? = some p := by
  have hs : step s (.call v fd' op) = some { s with thr := s.thr.set v (.call fd' op) } := by simp only [step, hi, if_true]
  have := core_step hc hk (a := .call v fd' op) trivial hs (Or.inr rfl)
  simp only [run, hs, Option.getD_some]
  exact ⟨this, List.getElem?_set_self (List.getElem?_eq_some_iff.mp hi).1, fun w p hw hp => by rw [List.getElem?_set_ne (Ne.symm hw)]; exact hp⟩

/-- C93.  In every state in which a thread has a lock and another waits for it through descriptor `fd`: if the first one reads, writes, seeks, closes or
copies `fd`, both hang. -/
theorem use_hangs (N : Nat) (acts : List Act) (ha : Along Honest (init N) acts) (t o : Nat) (k : Kind) (u fd : Nat) (k' : Kind)
    (hw : Waits (run (init N) acts) t o k u fd k') (hi : (run (init N) acts).thr[t]? = some .idle) (op : Op) (ho : op.writes = true) :
    Hangs (run (run (init N) acts) [.call t fd op]) t ∧ Hangs (run (run (init N) acts) [.call t fd op]) u := by
  obtain ⟨h1, h2, _⟩ := call_core (waits_core ha hw) hw.2.2 (op := op) hi fd
  exact knot_hangs ⟨h1, Or.inr (Or.inl ⟨op, ho, Or.inl h2⟩)⟩ hw.2.2

/-- C93.  If a third thread's read or write is queued behind the one that waits, even unlocking hangs, and so does `flock` with `LOCK_NB`. -/
theorem unlock_hangs (N : Nat) (acts : List Act) (ha : Along Honest (init N) acts) (t o : Nat) (k : Kind) (u fd : Nat) (k' : Kind)
    (hw : Waits (run (init N) acts) t o k u fd k') (hi : (run (init N) acts).thr[t]? = some .idle) (v : Nat) (op' : Op)
    (hv : (run (init N) acts).thr[v]? = some (.queued fd op')) (op : Op) :
    Hangs (run (run (init N) acts) [.call t fd op]) t ∧ Hangs (run (run (init N) acts) [.call t fd op]) u := by
  obtain ⟨h1, h2, h3⟩ := call_core (waits_core ha hw) hw.2.2 (op := op) hi fd
  refine knot_hangs ⟨h1, Or.inr ?_⟩ hw.2.2
  cases ho : op.writes with
  | true => exact Or.inl ⟨op, ho, Or.inl h2⟩
  | false => exact Or.inr ⟨⟨op, ho, h2⟩, v, op', h3 v _ (fun e => by subst e; rw [hi] at hv; cases hv) hv⟩

/-- C93.  A thread that asks again for a lock it has, through any descriptor of the same open file, hangs, unless both are shared. -/
theorem relock_hangs (N : Nat) (acts : List Act) (ha : Along Honest (init N) acts) (t o : Nat) (k : Kind) (fd : Nat) (k' : Kind)
    (hh : (t, o, k) ∈ (run (init N) acts).held) (hk : ¬ Compatible k' k) (hi : (run (init N) acts).thr[t]? = some .idle)
    (hfd : (run (init N) acts).fds fd = some o) (hq : ∀ (v : Nat) (op : Op), (run (init N) acts).thr[v]? ≠ some (.queued fd op)) :
    Hangs (run (run (init N) acts) [.call t fd (.lock k'), .go t]) t := by
  have hg := good_run ⟨good_init N, queues_init N⟩ ha
  generalize run (init N) acts = s at *
  have hlt := (List.getElem?_eq_some_iff.mp hi).1
  have hs1 : step s (.call t fd (.lock k')) = some { s with thr := s.thr.set t (.call fd (.lock k')) } := by simp only [step, hi, if_true]
  have hg1 := good_step hg (a := .call t fd (.lock k')) trivial hs1
  have ht1 : ({ s with thr := s.thr.set t (.call fd (.lock k')) } : St).thr[t]? = some (.call fd (.lock k')) := List.getElem?_set_self hlt
  have hq1 : queue { s with thr := s.thr.set t (.call fd (.lock k')) } fd = false := by
    cases hqq : queue { s with thr := s.thr.set t (.call fd (.lock k')) } fd with
    | false => rfl
    | true =>
      obtain ⟨v, op, hv⟩ := queue_iff.mp hqq
      rcases set_get hv with ⟨_, e⟩ | ⟨_, e⟩
      · cases e
      · exact absurd e (hq v op)
  have hac : acquire (s.guard o) k' = none := (agrees_none (hg.1.agrees o) k').mpr ⟨(t, o, k), mem_on.mpr ⟨hh, rfl⟩, hk⟩
  have hs2 : step { s with thr := s.thr.set t (.call fd (.lock k')) } (.go t) =
      some { s with thr := (s.thr.set t (.call fd (.lock k'))).set t (.wait fd o k') } := by
    simp only [step, ht1, hq1, if_neg Bool.false_ne_true, Op.writes]
    unfold perform
    dsimp only
    rw [hfd]
    dsimp only
    rw [hac]
  have hg2 := good_step hg1 (a := .go t) (fun fd o h => by rw [ht1] at h; cases h) hs2
  have e : run s [.call t fd (.lock k'), .go t] = { s with thr := (s.thr.set t (.call fd (.lock k'))).set t (.wait fd o k') } := by
    simp only [run, hs1, Option.getD_some, hs2]
  rw [e]
  exact (knot_hangs (h := t) (o := o) (k := k) (u := t) (fd := fd) (k' := k')
    ⟨⟨hg2.1, hg2.2, hh, List.getElem?_set_self (by rw [List.length_set]; exact hlt)⟩, Or.inl rfl⟩ hk).1

/-- C93.  A thread that closes a descriptor (or ends its process) on which another waits for a lock does not get on as long as the owner of the lock, in
whatever process, does nothing. -/
theorem close_waits (N : Nat) (acts : List Act) (ha : Along Honest (init N) acts) (t o : Nat) (k : Kind) (u fd : Nat) (k' : Kind)
    (hw : Waits (run (init N) acts) t o k u fd k') (v : Nat) (op : Op) (ho : op.writes = true) (hv : (run (init N) acts).thr[v]? = some .idle)
    (more : List Act) (hm : Along (fun s a => Honest s a ∧ a ≠ .go t) (run (run (init N) acts) [.call v fd op]) more) :
    (run (run (run (init N) acts) [.call v fd op]) more).thr[v]? ≠ some .idle := by
  obtain ⟨h1, h2, _⟩ := call_core (waits_core ha hw) hw.2.2 (op := op) hv fd
  have := along_run (I := fun s => Core t o k u fd k' s ∧ Behind s fd v)
    (fun s a s' h hp hs => ⟨core_step h.1 hw.2.2 hp.1 hs (Or.inl hp.2), behind_step (waiter_iff.mpr ⟨u, o, k', h.1.waits⟩) h.2 hs⟩)
    ⟨h1, ⟨op, ho, Or.inl h2⟩⟩ hm
  obtain ⟨_, _, hb | hb⟩ := this.2 <;> rw [hb] <;> intro e <;> cases e

/-- Thread 0 locks descriptor 3 exclusively, thread 1 waits for it through the same descriptor. -/
def shared : List Act := [.open 3, .call 0 3 (.lock .ex), .go 0, .call 1 3 (.lock .ex), .go 1]

theorem shared_waits : Waits (run (init 3) shared) 0 0 .ex 1 3 .ex := ⟨by decide, by decide, by decide⟩

/-- C93 violated: two threads lock a file, write to it and unlock it, through one descriptor: the one that has the lock hangs in `write`, for it waits for
the slot that the other keeps while it waits for the lock. -/
theorem use_violated : Hangs (run (run (init 3) shared) [.call 0 3 .use]) 0 ∧ Hangs (run (run (init 3) shared) [.call 0 3 .use]) 1 :=
  use_hangs 3 shared (honest_noUnlock 3 shared (by decide)) 0 0 .ex 1 3 .ex shared_waits (by decide) .use rfl

/-- C93 violated: the same with `close`, which should release the lock. -/
theorem close_violated : Hangs (run (run (init 3) shared) [.call 0 3 .close]) 0 ∧ Hangs (run (run (init 3) shared) [.call 0 3 .close]) 1 :=
  use_hangs 3 shared (honest_noUnlock 3 shared (by decide)) 0 0 .ex 1 3 .ex shared_waits (by decide) .close rfl

/-- C93 violated: with a third thread that reads the file, `flock(LOCK_UN)` itself hangs, and a request with `LOCK_NB` waits for ever. -/
theorem unlock_violated : Hangs (run (run (init 3) (shared ++ [.call 2 3 .use, .go 2])) [.call 0 3 .unlock]) 0 ∧
    Hangs (run (run (init 3) (shared ++ [.call 2 3 .use, .go 2])) [.call 0 3 (.tryLock .sh false)]) 0 := by
  have hh := honest_noUnlock 3 (shared ++ [.call 2 3 .use, .go 2]) (by decide)
  have hw : Waits (run (init 3) (shared ++ [.call 2 3 .use, .go 2])) 0 0 .ex 1 3 .ex := ⟨by decide, by decide, by decide⟩
  exact ⟨(unlock_hangs 3 _ hh 0 0 .ex 1 3 .ex hw (by decide) 2 .use (by decide) .unlock).1,
    (unlock_hangs 3 _ hh 0 0 .ex 1 3 .ex hw (by decide) 2 .use (by decide) (.tryLock .sh false)).1⟩

/-- C93 violated: a lock belongs to the open file, so that asking for it again, or through a copy of the descriptor, should succeed; the thread hangs. -/
theorem relock_violated : Hangs (run (run (init 3) [.open 3, .call 0 3 (.lock .ex), .go 0]) [.call 0 3 (.lock .ex), .go 0]) 0 ∧
    Hangs (run (run (init 3) [.open 3, .call 0 3 (.lock .ex), .go 0, .call 0 3 (.dup 4), .go 0]) [.call 0 4 (.lock .sh), .go 0]) 0 := by
  have none : ∀ (l : List Ph) (fd : Nat), (l.any fun p => match p with | .queued _ _ => true | _ => false) = false →
      ∀ (v : Nat) (op : Op), l[v]? ≠ some (.queued fd op) := by
    intro l fd h v op e
    have := List.any_eq_false.mp h _ (List.mem_of_getElem? e)
    simp at this
  exact ⟨relock_hangs 3 _ (honest_noUnlock 3 _ (by decide)) 0 0 .ex 3 .ex (by decide) (by decide) (by decide) (by decide) (none _ _ (by decide)),
    relock_hangs 3 _ (honest_noUnlock 3 _ (by decide)) 0 0 .ex 4 .sh (by decide) (by decide) (by decide) (by decide) (none _ _ (by decide))⟩

/-- C93 violated: a process one of whose threads waits for a lock cannot end (`close` of descriptor 5, its copy of 3) while the owner of the lock, in another
process, keeps it. -/
theorem exit_violated (more : List Act) :
    let s := run (run (init 3) [.open 3, .call 0 3 (.copy 5), .go 0, .call 0 3 (.lock .ex), .go 0, .call 1 5 (.lock .sh), .go 1]) [.call 2 5 .close]
    Along (fun s a => Honest s a ∧ a ≠ .go 0) s more → (run s more).thr[2]? ≠ some .idle :=
  close_waits 3 _ (honest_noUnlock 3 _ (by decide)) 0 0 .ex 1 5 .sh ⟨by decide, by decide, by decide⟩ 2 .close rfl (by decide) more

/-! ## The hypotheses can be met -/

/-- Two processes: thread 0 locks through 3, thread 1 waits through its copy 5, thread 2 looks at descriptor 4 of another file. -/
def demo : List Act := [.open 3, .open 4, .call 0 3 (.copy 5), .go 0, .call 0 3 (.lock .ex), .go 0, .call 1 5 (.lock .sh), .go 1, .call 2 4 .use]

/-- Descriptor 3 is used by thread 0, 5 by thread 1, 4 by anybody. -/
def demoOwn : Nat → Option Nat := fun fd => if fd = 3 then some 0 else if fd = 5 then some 1 else none

theorem sep_all {own : Nat → Option Nat} {acts : List Act} (h : ∀ a ∈ acts, Sep own a) : ∀ s, Along (fun _ => Sep own) s acts := by
  induction acts with
  | nil => intro s; trivial
  | cons a l ih => intro s; exact ⟨h a List.mem_cons_self, ih (fun a ha => h a (List.mem_cons_of_mem _ ha)) _⟩

theorem demo_sep : Along (fun _ => Sep demoOwn) (init 3) demo := by
  refine sep_all ?_ _
  simp [demo, Sep, demoOwn]

example : Along Honest (init 3) demo ∧ (run (init 3) demo).thr[2]? = some (.call 4 .use) ∧ (run (init 3) demo).thr[1]? = some (.wait 5 0 .sh) ∧
    (run (init 3) demo).thr[0]? = some .idle ∧ (0, 0, .ex) ∈ (run (init 3) demo).held ∧ (run (init 3) demo).fds 3 = some 0 :=
  ⟨honest_noUnlock 3 _ (by decide), by decide, by decide, by decide, by decide, by decide⟩

/-- A request with `LOCK_NB` in that state, and one on a closed descriptor. -/
example : let s := run (init 3) (demo ++ [.go 2, .call 2 3 (.tryLock .sh false), .go 2, .call 2 3 .close, .go 2, .call 2 3 .use, .go 2])
    s.log.drop 3 = [(2, 3, .tryLock .sh false, .err .EAGAIN), (2, 3, .close, .ok 0), (2, 3, .use, .err .EBADF)] := by decide

/-- The owner writes, unlocks, and the other gets the lock. -/
example : (run (run (init 3) demo) (alone 0 3 [.use, .unlock] ++ [.grant 1])).held = [(1, 0, .sh)] ∧
    (run (run (init 3) demo) (alone 0 3 [.use, .unlock] ++ [.grant 1])).thr[1]? = some .idle := by decide

example : ∃ s', step (run (init 3) demo) (.go 2) = some s' ∧ s'.thr[2]? = some .idle := by
  have hf : Free (run (init 3) demo) .use := fun n h => by rcases h with h | h <;> cases h
  obtain ⟨s', h, e | ⟨_, _, _, _, e, _⟩⟩ := goes_on_partial demoOwn 3 demo (honest_noUnlock 3 _ (by decide)) demo_sep 2 4 .use (by decide) hf
  · exact ⟨s', h, e⟩
  · cases e

end Verif.FlockConc
