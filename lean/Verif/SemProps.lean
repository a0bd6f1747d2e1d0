import Verif.Sem

/-!
# Semaphore properties: C07
-/

namespace Verif.Sem

/-! ## Specification: counting successful calls in a history -/

/-- A completed call: operation, semaphore object its handle designates, result. -/
abbrev Call := Op × Option Nat × Ret

/-- A successful post on object `id`. -/
def isPost (id : Nat) : Call → Bool
  | (.post _ _, some i, .ok _) => i == id
  | _ => false

/-- A successful wait (of any kind) on object `id`. -/
def isWait (id : Nat) : Call → Bool
  | (.wait _ _, some i, .ok _) => i == id
  | (.trywait _ _, some i, .ok _) => i == id
  | (.timedwait _ _ _, some i, .ok _) => i == id
  | _ => false

/-- A successful creation of object `id`. -/
def isInit (id : Nat) : Call → Bool
  | (.init _ _ _, some i, .ok _) => i == id
  | _ => false

/-- The value object `id` is created with by this call. -/
def initValue (id : Nat) : Call → Nat
  | (.init _ _ v, some i, .ok _) => if i = id then v else 0
  | _ => 0

/-- Number of successful posts on object `id` in a history. -/
def posts (id : Nat) (h : List Call) : Nat := h.countP (isPost id)
/-- Number of successful waits on object `id` in a history. -/
def waits (id : Nat) (h : List Call) : Nat := h.countP (isWait id)
/-- The value object `id` was created with in a history (there is at most one creation). -/
def created (id : Nat) (h : List Call) : Nat := (h.map (initValue id)).sum

/-! ## Lemmas -/

/-- Objects that do not exist yet have value 0 and nobody designates them. -/
structure Wf (s : State) : Prop where
  tab : ∀ c h id, s.table c h = some id → id < s.next
  val : ∀ id, s.vals id ≤ semValueMax
  fresh : ∀ id, s.next ≤ id → s.vals id = 0

theorem wf_init : Wf State.init := ⟨by simp [State.init], by simp [State.init], by simp [State.init]⟩

theorem wf_step (s : State) (op : Op) (h : Wf s) : Wf (step s op).1 := by
  obtain ⟨h1, h2, h3⟩ := h
  cases op <;> simp only [step, takeCall, take, give] <;> (repeat' split) <;>
    first
    | exact ⟨h1, h2, h3⟩
    | (constructor <;> grind [upd_app2, upd_apply])

/-- Effect of one call on the value of one object. -/
theorem step_val (s : State) (op : Op) (hw : Wf s) (id : Nat) :
    (step s op).1.vals id + (if isWait id (op, obj s op, (step s op).2) then 1 else 0) =
    s.vals id + (if isPost id (op, obj s op, (step s op).2) then 1 else 0) +
      initValue id (op, obj s op, (step s op).2) := by
  have h3 := hw.fresh s.next (Nat.le_refl _)
  cases op with
  | init c h v =>
    simp only [step]
    split
    · simp [isWait, isPost, initValue]
    cases s.table c h <;> simp [isWait, isPost, initValue, obj, upd_apply] <;> grind
  | wait c h =>
    cases ht : s.table c h with
    | none => simp [step, takeCall, obj, ht, isWait, isPost, initValue]
    | some i =>
      by_cases h0 : s.vals i = 0 <;> by_cases h1 : s.vals i < semValueMax <;>
        by_cases hi : i = id <;>
        simp_all [step, takeCall, take, obj, isWait, isPost, initValue, upd_apply] <;> grind
  | trywait c h =>
    cases ht : s.table c h with
    | none => simp [step, takeCall, obj, ht, isWait, isPost, initValue]
    | some i =>
      by_cases h0 : s.vals i = 0 <;> by_cases h1 : s.vals i < semValueMax <;>
        by_cases hi : i = id <;>
        simp_all [step, takeCall, take, obj, isWait, isPost, initValue, upd_apply] <;> grind
  | timedwait c h e =>
    cases ht : s.table c h with
    | none => simp [step, takeCall, obj, ht, isWait, isPost, initValue]
    | some i =>
      by_cases h0 : s.vals i = 0 <;> by_cases h1 : s.vals i < semValueMax <;>
        by_cases hi : i = id <;>
        simp_all [step, takeCall, take, obj, isWait, isPost, initValue, upd_apply] <;> grind
  | post c h =>
    cases ht : s.table c h with
    | none => simp [step, obj, ht, isWait, isPost, initValue]
    | some i =>
      by_cases h0 : s.vals i = 0 <;> by_cases h1 : s.vals i < semValueMax <;>
        by_cases hi : i = id <;>
        simp_all [step, give, obj, isWait, isPost, initValue, upd_apply] <;> grind
  | getvalue c h =>
    simp only [step, obj]; split <;> simp [isWait, isPost, initValue]
  | destroy c h =>
    simp only [step, obj]; split <;> simp [isWait, isPost, initValue]
  | fork p c => simp [step, isWait, isPost, initValue]
  | exec c n => simp [step, isWait, isPost, initValue]

theorem wf_run (ops : List Op) : ∀ s, Wf s → Wf (run s ops).1 := by
  induction ops with
  | nil => intro s h; exact h
  | cons op ops ih => intro s h; exact ih _ (wf_step s op h)

theorem count_run (ops : List Op) : ∀ (s : State) (id : Nat), Wf s →
    (run s ops).1.vals id + waits id (run s ops).2 =
      s.vals id + created id (run s ops).2 + posts id (run s ops).2 := by
  induction ops with
  | nil => intro s id _; simp [run, waits, posts, created]
  | cons op ops ih =>
    intro s id hw
    have h1 := ih (step s op).1 id (wf_step s op hw)
    have h2 := step_val s op hw id
    simp only [run, posts, waits, created, List.countP_cons, List.map_cons, List.sum_cons] at h1 ⊢
    omega

/-! ## Properties -/

/-- C07.  After any history of calls by any cages, the value of a semaphore plus the number
of successful waits on it is its initial value plus the number of successful posts. -/
theorem sem_count (ops : List Op) (id : Nat) :
    (run State.init ops).1.vals id + waits id (run State.init ops).2 =
      created id (run State.init ops).2 + posts id (run State.init ops).2 := by
  simpa [State.init] using count_run ops State.init id wf_init

/-- C07.  The value never exceeds `SEM_VALUE_MAX` (and is a natural number). -/
theorem sem_bounded (ops : List Op) (id : Nat) :
    (run State.init ops).1.vals id ≤ 2147483647 :=
  (wf_run ops _ wf_init).val id

/-- A creation takes the next identity. -/
theorem isInit_next (s : State) (op : Op) (id : Nat)
    (h : isInit id (op, obj s op, (step s op).2) = true) :
    id = s.next ∧ (step s op).1.next = s.next + 1 := by
  cases op <;> simp_all [isInit, obj]
  simp only [step] at h ⊢
  (repeat' split) <;> simp_all

theorem next_mono (s : State) (op : Op) : s.next ≤ (step s op).1.next := by
  cases op <;> simp only [step, takeCall] <;> (repeat' split) <;> simp

/-- C07.  Each object is created at most once in a history: its identity is fresh. -/
theorem sem_created_once (ops : List Op) (id : Nat) :
    (run State.init ops).2.countP (isInit id) ≤ 1 := by
  have key : ∀ (ops : List Op) (s : State), (run s ops).2.countP (isInit id) ≤
      if id < s.next then 0 else 1 := by
    intro ops
    induction ops with
    | nil => intro s; simp [run]
    | cons op ops ih =>
      intro s
      have h1 := ih (step s op).1
      have hn := next_mono s op
      simp only [run, List.countP_cons]
      by_cases hc : isInit id (op, obj s op, (step s op).2) = true
      · have := isInit_next s op id hc
        rw [if_pos hc]
        split at h1 <;> split <;> omega
      · rw [if_neg hc]
        split at h1 <;> split <;> omega
  exact Nat.le_trans (key ops State.init) (by split <;> omega)

/-- C07.  On a valid handle: `trywait` fails with EAGAIN exactly at value zero and otherwise
takes one unit; `post` fails with EOVERFLOW exactly at the maximum and otherwise adds one;
`wait` blocks exactly at zero; `getvalue` reports the value. -/
theorem sem_calls (s : State) (c h id : Nat) (ht : s.table c h = some id) :
    ((step s (.trywait c h)).2 = .err .EAGAIN ↔ s.vals id = 0) ∧
    ((step s (.trywait c h)).2 = .ok 0 ↔ 0 < s.vals id) ∧
    ((step s (.wait c h)).2 = .blocked ↔ s.vals id = 0) ∧
    ((step s (.post c h)).2 = .err .EOVERFLOW ↔ semValueMax ≤ s.vals id) ∧
    ((step s (.post c h)).2 = .ok 0 ↔ s.vals id < semValueMax) ∧
    (step s (.getvalue c h)).2 = .ok (s.vals id) := by
  simp only [step, takeCall, take, give, ht]
  by_cases h0 : s.vals id = 0 <;> by_cases h1 : s.vals id < semValueMax <;>
    simp [h0, h1] <;> simp [semValueMax] at * <;> omega

/-- C07.  A handle that is not initialised (or destroyed) gives EINVAL and nothing changes;
initialising a handle twice or with too large a value fails and nothing changes. -/
theorem sem_invalid (s : State) (c h v : Nat) :
    (s.table c h = none →
      step s (.wait c h) = (s, .err .EINVAL) ∧ step s (.trywait c h) = (s, .err .EINVAL) ∧
      step s (.post c h) = (s, .err .EINVAL) ∧ step s (.getvalue c h) = (s, .err .EINVAL) ∧
      step s (.destroy c h) = (s, .err .EINVAL)) ∧
    (v ≤ semValueMax → s.table c h ≠ none → step s (.init c h v) = (s, .err .EBADF)) ∧
    (semValueMax < v → step s (.init c h v) = (s, .err .EINVAL)) := by
  refine ⟨?_, ?_, ?_⟩
  · intro ht; simp [step, takeCall, ht]
  · intro hv ht
    have : ¬ v > semValueMax := by omega
    cases hq : s.table c h with
    | none => exact absurd hq ht
    | some i => simp [step, this, hq]
  · intro hv; simp [step, hv]

/-- C07, what handles designate.  In every reachable state: a successful `init` makes its handle
designate a new semaphore with the stated value, which no other handle designates; `destroy`
makes its own handle invalid and no other; a forked cage's handles designate the very semaphores
of its parent; exec leaves the new program none; every other handle of every cage, and with every
other call all handles, designate what they did before. -/
theorem sem_handles (ops : List Op) (c h c' h' : Nat) :
    let s := (run State.init ops).1
    (∀ v, (step s (.init c h v)).2 = .ok 0 ↔ v ≤ semValueMax ∧ s.table c h = none) ∧
    (∀ v, (step s (.init c h v)).2 = .ok 0 →
      ∃ id, (step s (.init c h v)).1.table c h = some id ∧ (step s (.init c h v)).1.vals id = v ∧
        ((c', h') ≠ (c, h) → (step s (.init c h v)).1.table c' h' = s.table c' h' ∧
          s.table c' h' ≠ some id)) ∧
    ((step s (.destroy c h)).2 = .ok 0 ↔ s.table c h ≠ none) ∧
    (step s (.destroy c h)).1.table c h = none ∧
    ((c', h') ≠ (c, h) → (step s (.destroy c h)).1.table c' h' = s.table c' h') ∧
    (step s (.fork c c')).1.table c' h = s.table c h ∧
    (c' ≠ h' → (step s (.fork c h')).1.table c' h = s.table c' h) ∧
    (step s (.exec c c')).1.table c' h = none ∧
    (c' ≠ c → c' ≠ h' → (step s (.exec c h')).1.table c' h = s.table c' h) ∧
    (∀ e, (step s (.wait c h)).1.table = s.table ∧ (step s (.trywait c h)).1.table = s.table ∧
      (step s (.timedwait c h e)).1.table = s.table ∧ (step s (.post c h)).1.table = s.table ∧
      (step s (.getvalue c h)).1 = s) := by
  intro s
  have hw : Wf s := wf_run ops _ wf_init
  clear_value s
  have other : ∀ (f : Nat → Option Nat), (c', h') ≠ (c, h) → f = upd (s.table c) h (f h) →
      upd s.table c f c' h' = s.table c' h' := by
    intro f hne hf
    by_cases hc : c' = c
    · subst hc
      have hh : h' ≠ h := fun e => hne (by rw [e])
      rw [upd_same, hf, upd_ne _ _ hh]
    · rw [upd_ne _ _ hc]
  refine ⟨?_, ?_, ?_, ?_, ?_, ?_, ?_, ?_, ?_, ?_⟩
  · intro v
    simp only [step]
    split
    · rename_i h1; simp; omega
    · split
      · rename_i h1 _ h2; simp [h2]
      · rename_i h1 h2; simp [h2]; omega
  · intro v hv
    simp only [step] at hv ⊢
    split at hv
    · simp at hv
    · split at hv
      · simp at hv
      · rename_i h1 _ h2
        rw [if_neg h1]
        refine ⟨s.next, by simp, by simp, fun hne => ⟨?_, ?_⟩⟩
        · exact other _ hne (by simp)
        · intro he
          have := hw.tab _ _ _ he
          omega
  · cases ht : s.table c h <;> simp [step, ht]
  · cases ht : s.table c h <;> simp [step, ht]
  · intro hne
    simp only [step]
    split
    · rfl
    · exact other _ hne (by simp)
  · simp [step]
  · intro hne; simp [step, upd_ne _ _ hne]
  · simp [step]
  · intro h1 h2; simp [step, upd_ne _ _ h1, upd_ne _ _ h2]
  · intro e
    refine ⟨?_, ?_, ?_, ?_, ?_⟩ <;> simp only [step, takeCall] <;> (repeat' split) <;> rfl

/-- A history: cage 1 creates a semaphore with value 2, forks, the child (cage 2) waits, the
parent posts and waits, a trywait by the child succeeds, the next fails. -/
def demo : List Op :=
  [.init 1 100 2, .fork 1 2, .wait 2 100, .post 1 100, .wait 1 100, .trywait 2 100, .trywait 1 100]

example : (run State.init demo).2.map (fun c => c.2.2) =
    [.ok 0, .ok 0, .ok 0, .ok 0, .ok 0, .ok 0, .err .EAGAIN] ∧
    waits 0 (run State.init demo).2 = 3 ∧ posts 0 (run State.init demo).2 = 1 ∧
    created 0 (run State.init demo).2 = 2 := by decide

end Verif.Sem
