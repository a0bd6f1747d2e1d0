import Verif.Signal
import Mathlib.Tactic.IntervalCases

/-!
# Signal properties: C36, C37
-/

set_option linter.unusedSimpArgs false

namespace Verif.Signal

/-! ## Specification -/

/-- A set of signals as a predicate on signal numbers. -/
abbrev Sigs := Nat → Bool

/-- The signals (1..64) a mask stands for: bit `sig - 1`. -/
def sigs (m : Sigset) : Sigs := fun sig => 1 ≤ sig && m.getLsbD (sig - 1)

/-- POSIX `sigprocmask`: SIG_BLOCK = 0 is union, SIG_UNBLOCK = 1 is difference,
SIG_SETMASK = 2 is replacement, anything else changes nothing. -/
def specMask (cur : Sigs) (how : Int) (set : Option Sigs) : Sigs :=
  match set with
  | none => cur
  | some set => fun sig =>
    if how = 0 then cur sig || set sig
    else if how = 1 then cur sig && !set sig
    else if how = 2 then set sig
    else cur sig

/-- The mask of thread `tid` of `cage` after a history, according to POSIX: only that thread's own
`sigprocmask` calls count. -/
def specMasks (cage tid : Nat) : List Op → Sigs → Sigs
  | [], m => m
  | .sigprocmask c t how set :: ops, m =>
    specMasks cage tid ops (if c = cage ∧ t = tid then specMask m how (set.map sigs) else m)
  | _ :: ops, m => specMasks cage tid ops m

/-- The operation starts thread `tid` of `cage`, or replaces or removes the cage. -/
def restarts (cage tid : Nat) : Op → Bool
  | .threadInit c t => c == cage && (t == tid || tid == 0)
  | .fork _ c => c == cage
  | .exec c n => c == cage || n == cage
  | _ => false

/-- Installed actions after the successful calls of a history, given the actions before it. -/
def specAction : List (Op × Out) → (Nat → Nat → Option Action) → (Nat → Nat → Option Action)
  | [], a => a
  | (op, o) :: h, a =>
    specAction h <| if o.ret ≠ .ok 0 then a else match op with
      | .sigaction c sg (some act) => fun c' sg' => if c' = c ∧ sg' = sg then some act else a c' sg'
      | .fork p c => fun c' sg => if c' = c then a p sg else a c' sg
      | .exec c n => fun c' sg => if c' = n ∨ c' = c then none else a c' sg
      | _ => a

/-! ## Lemmas -/

theorem mem_bit (m : Sigset) (sg : Nat) (h1 : 1 ≤ sg) (h2 : sg ≤ 64) :
    sigismember m sg = sigs m sg := by
  have hb : sigs m sg = m.getLsbD (sg - 1) := by simp [sigs, h1]
  rw [hb, Bool.eq_iff_iff]
  simp only [sigismember, bne_iff_ne, ne_eq]
  constructor
  · intro h
    by_contra hc
    apply h
    apply BitVec.eq_of_getLsbD_eq
    intro i hi
    simp only [BitVec.getLsbD_and, BitVec.getLsbD_shiftLeft, BitVec.getLsbD_one,
      BitVec.getLsbD_zero, Bool.and_eq_false_iff]
    by_cases he : i = sg - 1
    · left; subst he; simpa using hc
    · right; simp; omega
  · intro h hz
    have := congrArg (fun v => v.getLsbD (sg - 1)) hz
    simp [h] at this
    omega

theorem procmask_spec (m : Sigset) (how : Int) (set : Option Sigset) (sg : Nat)
    (h1 : 1 ≤ sg) (h2 : sg ≤ 64) :
    sigs (procmask m how set).1 sg = specMask (sigs m) how (set.map sigs) sg := by
  cases set with
  | none => simp [procmask, specMask]
  | some set =>
    simp only [procmask, specMask, Option.map_some]
    have : sg - 1 < 64 := by omega
    (repeat' split) <;> simp_all [sigs]

theorem sigs_inj (a b : Sigset) (h : ∀ sg, 1 ≤ sg → sg ≤ 64 → sigs a sg = sigs b sg) : a = b := by
  apply BitVec.eq_of_getLsbD_eq
  intro i hi
  have := h (i + 1) (by omega) (by omega)
  simpa [sigs] using this

theorem addset_of_mem (m : Sigset) (sg : Nat) (h : sigismember m sg = true) :
    sigaddset m sg = m := by
  simp only [sigismember, bne_iff_ne, ne_eq] at h
  apply BitVec.eq_of_getLsbD_eq
  intro i hi
  simp only [sigaddset, BitVec.getLsbD_or, BitVec.getLsbD_shiftLeft, BitVec.getLsbD_one]
  by_cases he : i = sg - 1
  · subst he
    cases hm : m.getLsbD (sg - 1) with
    | true => simp
    | false =>
      exfalso; apply h
      apply BitVec.eq_of_getLsbD_eq
      intro j hj
      by_cases hje : j = sg - 1
      · subst hje; simp [hm]
      · simp; intro _ _; omega
  · have h0 : i - (sg - 1) ≠ 0 ∨ i < sg - 1 := by omega
    rcases h0 with h0 | h0 <;> simp [h0]

/-! ## C36 -/

/-- C36.  One call on a thread's mask: the new mask is union / difference / replacement and the
old mask is reported; invalid `how` gives EINVAL. -/
theorem sigprocmask_spec (s : State) (cage tid : Nat) (how : Int) (set : Option Sigset)
    (c : Cage) (m : Sigset) (hc : s.cages cage = some c) (hm : c.mask tid = some m) :
    ∃ c' m', (step s (.sigprocmask cage tid how set)).1.cages cage = some c' ∧
      c'.mask tid = some m' ∧
      (∀ sg, 1 ≤ sg → sg ≤ 64 → sigs m' sg = specMask (sigs m) how (set.map sigs) sg) ∧
      (step s (.sigprocmask cage tid how set)).2.oldset = some m ∧
      ((step s (.sigprocmask cage tid how set)).2.ret =
        if set = none ∨ how = 0 ∨ how = 1 ∨ how = 2 then .ok 0 else .err .EINVAL) := by
  refine ⟨{ c with mask := upd c.mask tid (some (procmask m how set).1) }, (procmask m how set).1,
    ?_, ?_, ?_, ?_, ?_⟩
  · simp [step, State.setCage, hc, hm]
  · simp
  · intro sg h1 h2; exact procmask_spec m how set sg h1 h2
  · simp [step, State.setCage, hc, hm]
  · simp only [step, State.setCage, hc, hm]
    cases set with
    | none => simp [procmask]
    | some set => simp only [procmask]; (repeat' split) <;> simp_all

/-- C36.  Over any history, whatever other threads, cages and the runtime do: the mask of a thread
is what POSIX computes from its own `sigprocmask` calls. -/
theorem mask_history (ops : List Op) (cage tid : Nat) :
    ∀ (s : State) (c : Cage) (m : Sigset), s.cages cage = some c → c.mask tid = some m →
      (∀ op ∈ ops, restarts cage tid op = false) →
      ∃ c' m', (run s ops).1.cages cage = some c' ∧ c'.mask tid = some m' ∧
        ∀ sg, 1 ≤ sg → sg ≤ 64 → sigs m' sg = specMasks cage tid ops (sigs m) sg := by
  induction ops with
  | nil => intro s c m hc hm _; exact ⟨c, m, hc, hm, fun _ _ _ => rfl⟩
  | cons op ops ih =>
    intro s c m hc hm hr
    have hr' : ∀ op ∈ ops, restarts cage tid op = false := fun o ho => hr o (by simp [ho])
    have hr0 := hr op (by simp)
    simp only [run]
    -- after the step the thread's mask is `m1`
    have key : ∀ (c1 : Cage) (m1 : Sigset), (step s op).1.cages cage = some c1 →
        c1.mask tid = some m1 → (specMasks cage tid (op :: ops) (sigs m)) =
          specMasks cage tid ops (sigs m1) →
        ∃ c' m', (run (step s op).1 ops).1.cages cage = some c' ∧ c'.mask tid = some m' ∧
        ∀ sg, 1 ≤ sg → sg ≤ 64 → sigs m' sg = specMasks cage tid (op :: ops) (sigs m) sg := by
      intro c1 m1 h1 h2 h3
      rw [h3]; exact ih _ c1 m1 h1 h2 hr'
    cases op with
    | threadInit cg t =>
      simp only [restarts, Bool.and_eq_false_iff, beq_eq_false_iff_ne, Bool.or_eq_false_iff] at hr0
      cases hcg : s.cages cg with
      | none => exact key c m (by simp [step, State.setCage, hcg, hc]) hm rfl
      | some d =>
        by_cases he : cage = cg
        · subst he
          rw [hc] at hcg; cases hcg
          refine key _ m (by simp only [step, State.setCage, hc]; rw [upd_same]) ?_ rfl
          have ht : t ≠ tid ∧ tid ≠ 0 := by
            rcases hr0 with h | h
            · exact absurd rfl h
            · exact h
          show upd (upd c.mask 0 none) t _ tid = some m
          rw [upd_ne _ _ (Ne.symm ht.1), upd_ne _ _ ht.2, hm]
        · exact key c m (by simp [step, State.setCage, hcg, upd_ne _ _ he, hc]) hm rfl
    | sigprocmask cg t how set =>
      cases hcg : s.cages cg with
      | none =>
        have : ¬ (cg = cage ∧ t = tid) := by rintro ⟨rfl, _⟩; simp [hc] at hcg
        exact key c m (by simp [step, State.setCage, hcg, hc]) hm (by simp [specMasks, this])
      | some d =>
        cases hd : d.mask t with
        | none =>
          have : ¬ (cg = cage ∧ t = tid) := by
            rintro ⟨rfl, rfl⟩; rw [hc] at hcg; cases hcg; simp [hm] at hd
          exact key c m (by simp [step, State.setCage, hcg, hd, hc]) hm (by simp [specMasks, this])
        | some md =>
          by_cases he : cage = cg
          · subst he
            rw [hc] at hcg; cases hcg
            by_cases ht : tid = t
            · subst ht
              rw [hm] at hd; cases hd
              refine key _ (procmask m how set).1
                (by simp only [step, State.setCage, hc, hm]; rw [upd_same]) (by simp) ?_
              simp only [specMasks, and_self, if_true]
              congr 1
              funext sg
              by_cases h1 : 1 ≤ sg
              · by_cases h2 : sg ≤ 64
                · exact (procmask_spec m how set sg h1 h2).symm
                · have hf : ∀ x : Sigset, sigs x sg = false := by
                    intro x; simp [sigs]; intro _; exact BitVec.getLsbD_of_ge _ _ (by omega)
                  cases set with
                  | none => simp [specMask, procmask]
                  | some set => simp [specMask, hf]
              · have hf : ∀ x : Sigset, sigs x sg = false := by intro x; simp [sigs]; omega
                cases set with
                | none => simp [specMask, procmask]
                | some set => simp [specMask, hf]
            · refine key _ m (by simp only [step, State.setCage, hc, hd]; rw [upd_same]) ?_ ?_
              · show upd c.mask t _ tid = some m
                rw [upd_ne _ _ ht, hm]
              · have : ¬ t = tid := fun h => ht h.symm
                simp [specMasks, this]
          · refine key c m (by simp [step, State.setCage, hcg, hd, upd_ne _ _ he, hc]) hm ?_
            have : ¬ cg = cage := fun h => he h.symm
            simp [specMasks, this]
    | sigaction cg sg act =>
      cases hcg : s.cages cg with
      | none => exact key c m (by simp [step, State.setCage, hcg, hc]) hm rfl
      | some d =>
        by_cases he : cage = cg
        · subst he
          rw [hc] at hcg; cases hcg
          cases act with
          | none => exact key c m (by simp [step, State.setCage, hc]) hm rfl
          | some a =>
            by_cases h9 : sg = 9 ∨ sg = 19
            · exact key c m (by simp [step, State.setCage, hc, h9]) hm rfl
            · exact key { c with handlers := upd c.handlers sg (some a) } m
                (by simp [step, State.setCage, hc, h9]) hm rfl
        · refine key c m ?_ hm rfl
          simp only [step, State.setCage, hcg]
          (repeat' split) <;> simp [upd_ne _ _ he, hc]
    | kill t sg =>
      refine key c m ?_ hm rfl
      simp only [step, State.setCage]
      (repeat' split) <;> simp [hc]
    | getHandler cg t sg =>
      cases hcg : s.cages cg with
      | none => exact key c m (by simp [step, State.setCage, hcg, hc]) hm rfl
      | some d =>
        cases hd : d.mask t with
        | none => exact key c m (by simp [step, State.setCage, hcg, hd, hc]) hm rfl
        | some md =>
          by_cases hb : sigismember md sg = false
          · exact key c m (by simp [step, State.setCage, hcg, hd, hb, hc]) hm rfl
          · by_cases he : cage = cg
            · subst he
              rw [hc] at hcg; cases hcg
              refine key _ m (by simp only [step, State.setCage, hc, hd, hb]; exact upd_same _ _ _) ?_ rfl
              show upd c.mask t _ tid = some m
              by_cases ht : tid = t
              · subst ht
                rw [hm] at hd; cases hd
                rw [upd_same, addset_of_mem m sg (by simpa using hb)]
              · rw [upd_ne _ _ ht, hm]
            · exact key c m (by simp [step, State.setCage, hcg, hd, hb, upd_ne _ _ he, hc]) hm rfl
    | fork p ch =>
      simp only [restarts, beq_eq_false_iff_ne] at hr0
      refine key c m ?_ hm rfl
      simp only [step, State.setCage]
      (repeat' split) <;> simp [upd_ne _ _ (Ne.symm hr0), hc]
    | exec cg n =>
      simp only [restarts, Bool.or_eq_false_iff, beq_eq_false_iff_ne] at hr0
      refine key c m ?_ hm rfl
      simp only [step, State.setCage]
      (repeat' split) <;> simp [upd_ne _ _ (Ne.symm hr0.1), upd_ne _ _ (Ne.symm hr0.2), hc]

/-- C36.  The first thread of a forked or exec'd cage starts with the mask of the main thread of
the cage that forked or exec'd. -/
theorem mask_inherited (s : State) (cage new tid : Nat) (c : Cage) (m : Sigset)
    (hc : s.cages cage = some c) (hm : c.mask c.main = some m) (hn : new < 1024) :
    (∃ c', (step (step s (.fork cage new)).1 (.threadInit new tid)).1.cages new = some c' ∧
      c'.mask tid = some m ∧ c'.handlers = c.handlers) ∧
    (∃ c', (step (step s (.exec cage new)).1 (.threadInit new tid)).1.cages new = some c' ∧
      c'.mask tid = some m ∧ c'.handlers = fun _ => none) := by
  have hn' : ¬ new ≥ maxCageId := by simp [maxCageId]; omega
  constructor <;> simp [step, State.setCage, hc, hm, hn']

/-- C36.  `kill` sends the signal to the target's main thread; a bad id is EINVAL, a missing cage
ESRCH; no mask or handler of anybody changes. -/
theorem kill_spec (s : State) (target : Int) (sig : Nat) :
    (step s (.kill target sig)).1.cages = s.cages ∧
    (step s (.kill target sig)).2.ret =
      (if target < 0 ∨ 1024 ≤ target then .err .EINVAL
       else if (s.cages target.toNat).isSome then .ok 0 else .err .ESRCH) ∧
    (step s (.kill target sig)).1.sent = s.sent ++
      (if target < 0 ∨ 1024 ≤ target then []
       else match s.cages target.toNat with | some c => [(c.main, sig)] | none => []) := by
  simp only [step]
  split
  · simp_all
  · cases hs : s.cages target.toNat <;> simp_all

/-- C36.  Blocking a set disjoint from the mask and unblocking it again restores the mask. -/
theorem block_unblock (m set : Sigset) (h : ∀ sg, ¬ (sigs m sg = true ∧ sigs set sg = true)) :
    (procmask (procmask m 0 (some set)).1 1 (some set)).1 = m := by
  apply sigs_inj
  intro sg h1 h2
  rw [procmask_spec _ _ _ _ h1 h2]
  simp only [specMask, Option.map_some]
  have := h sg
  rw [procmask_spec _ _ _ _ h1 h2]
  simp [specMask]
  grind

/-- C36.  Exactly which signals a `sigprocmask` call sends: with SIG_UNBLOCK those of 1..63
that were blocked and are in the set; with any other `how`, none. -/
theorem sigprocmask_sends (m : Sigset) (how : Int) (set : Option Sigset) (sg : Nat) :
    sg ∈ (procmask m how set).2.1 ↔
      how = 1 ∧ 1 ≤ sg ∧ sg ≤ 63 ∧ sigs m sg = true ∧ ∃ st, set = some st ∧ sigs st sg = true := by
  cases set with
  | none => simp [procmask]
  | some set =>
    simp only [procmask]
    have hp : sg ∈ pendingSignals (m &&& set) ↔
        1 ≤ sg ∧ sg ≤ 63 ∧ sigs m sg = true ∧ sigs set sg = true := by
      simp only [pendingSignals, List.mem_filter, List.mem_range'_1]
      constructor
      · rintro ⟨⟨h1, h2⟩, h3⟩
        rw [mem_bit _ _ h1 (by omega)] at h3
        simp [sigs] at h3 ⊢
        grind
      · rintro ⟨h1, h2, h3, h4⟩
        refine ⟨⟨h1, by omega⟩, ?_⟩
        rw [mem_bit _ _ h1 (by omega)]
        simp_all [sigs]
    (repeat' split) <;> simp_all

/-- C36, delivery half.  A signal sent by `sigprocmask` was blocked before the call and is not
blocked after it. -/
theorem sent_only_when_unblocked (m : Sigset) (how : Int) (set : Option Sigset) (sg : Nat)
    (h : sg ∈ (procmask m how set).2.1) :
    sigs m sg = true ∧ sigs (procmask m how set).1 sg = false := by
  obtain ⟨rfl, h1, h2, h3, st, rfl, h4⟩ := (sigprocmask_sends m how set sg).1 h
  refine ⟨h3, ?_⟩
  rw [procmask_spec _ _ _ _ h1 (by omega)]
  simp [specMask, h4]

/-- C36 fails for pending signals: blocking and unblocking SIGUSR1 sends it to the thread
although no call and no runtime event ever raised it. -/
theorem never_raised_violated :
    (run State.init [.threadInit 1 7, .sigprocmask 1 7 0 (some (1#64 <<< 9)),
      .sigprocmask 1 7 1 (some (1#64 <<< 9))]).1.sent = [(7, 10)] := by decide

/-- C36 fails for pending signals: a SIGUSR1 that arrived while blocked is not sent again when
SIG_SETMASK unblocks it (the only send is the original one, which was refused). -/
theorem setmask_drops_pending_violated :
    let h := run State.init [.threadInit 1 7, .sigprocmask 1 7 0 (some (1#64 <<< 9)), .kill 1 10,
      .getHandler 1 7 10, .sigprocmask 1 7 2 (some 0)]
    h.1.sent = [(7, 10)] ∧ h.2.map (fun e => e.2.ret) = [.ok 0, .ok 0, .ok 0, .ok 1, .ok 0] := by
  decide

/-- C36 fails for signal 64: unblocking never sends it. -/
theorem signal64_violated (m : Sigset) (how : Int) (set : Option Sigset) :
    64 ∉ (procmask m how set).2.1 := by
  intro h
  have := (sigprocmask_sends m how set 64).1 h
  omega

example : (procmask 0b0110#64 0 (some 0b1001#64)).1 = 0b1111#64 := by decide
example : ∀ sg, ¬ (sigs 0b0110#64 sg = true ∧ sigs 0b1001#64 sg = true) := by
  intro sg
  by_cases h : sg ≤ 4
  · interval_cases sg <;> decide
  · rintro ⟨h1, h2⟩
    simp only [sigs, Bool.and_eq_true] at h1
    have : BitVec.getLsbD 6#64 (sg - 1) = Nat.testBit 6 (sg-1) := by simp [BitVec.getLsbD]
    have h3 := h1.2
    rw [this, Nat.testBit_lt_two_pow (Nat.lt_of_lt_of_le (by decide : 6 < 2 ^ 4)
      (Nat.pow_le_pow_right (by decide) (by omega)))] at h3
    simp at h3

/-! ## C37 -/

/-- Agreement of a state with a table of actions. -/
def Agrees (s : State) (a : Nat → Nat → Option Action) : Prop :=
  ∀ c cg, s.cages c = some cg → ∀ sg, cg.handlers sg = a c sg

theorem agrees_step (s : State) (op : Op) (a : Nat → Nat → Option Action) (h : Agrees s a) :
    Agrees (step s op).1 (specAction [(op, (step s op).2)] a) := by
  generalize hst : step s op = r
  cases op <;> simp only [step, State.setCage] at hst <;> (repeat' split at hst) <;> subst hst <;>
    intro c' cg' hcg sg' <;> simp only [upd_apply] at hcg <;> simp only [specAction] <;>
    (repeat' split at hcg) <;> (try simp only [Option.some.injEq, reduceCtorEq] at hcg) <;>
    (try subst hcg) <;> grind [upd_apply, Agrees]

theorem specAction_append (h₁ h₂ : List (Op × Out)) :
    ∀ a, specAction (h₁ ++ h₂) a = specAction h₂ (specAction h₁ a) := by
  induction h₁ with
  | nil => intro a; rfl
  | cons x h ih => intro a; simp only [List.cons_append, specAction]; exact ih _

theorem agrees_run (ops : List Op) : ∀ (s : State) (a : Nat → Nat → Option Action), Agrees s a →
    Agrees (run s ops).1 (specAction (run s ops).2 a) := by
  induction ops with
  | nil => intro s a h; exact h
  | cons op ops ih =>
    intro s a h
    exact ih _ _ (agrees_step s op a h)

/-- C37.  After any history of any cages, `sigaction` reports the action last installed for that
signal in that cage (inherited over fork, reset by exec), or the default. -/
theorem sigaction_reports (ops : List Op) (cage sig : Nat) (act : Option Action) (c : Cage)
    (hc : (run State.init ops).1.cages cage = some c) :
    (step (run State.init ops).1 (.sigaction cage sig act)).2.oldact =
      some ((specAction (run State.init ops).2 (fun _ _ => none) cage sig).getD Action.default) := by
  have h := agrees_run ops State.init (fun _ _ => none)
    (by intro c cg h sg; simp only [State.init] at h; split at h <;> simp_all [Cage.empty] ; subst h; rfl)
  have := h cage c hc sig
  simp only [step, State.setCage, hc]
  (repeat' split) <;> simp_all

/-- C37.  No history installs an action for SIGKILL or SIGSTOP. -/
theorem no_kill_handler (ops : List Op) (cage : Nat) (c : Cage)
    (hc : (run State.init ops).1.cages cage = some c) :
    c.handlers 9 = none ∧ c.handlers 19 = none := by
  have key : ∀ (ops : List Op) (s : State),
      (∀ cage c, s.cages cage = some c → c.handlers 9 = none ∧ c.handlers 19 = none) →
      ∀ cage c, (run s ops).1.cages cage = some c → c.handlers 9 = none ∧ c.handlers 19 = none := by
    intro ops
    induction ops with
    | nil => intro s h; exact h
    | cons op ops ih =>
      intro s h
      apply ih
      cases op <;> simp only [step, State.setCage] <;> (repeat' split) <;>
        intro cg' c' hcg <;> (try simp only [upd_apply] at hcg) <;> (repeat' split at hcg) <;>
        (try simp only [Option.some.injEq, reduceCtorEq] at hcg) <;>
        (try subst hcg) <;> grind [upd_apply]
  refine key ops State.init ?_ cage c hc
  intro cage c h
  simp only [State.init] at h
  split at h <;> simp_all
  subst h; simp [Cage.empty]

/-- C37.  `sigaction` changes only the action of that signal in that cage, and rejects
SIGKILL and SIGSTOP with EINVAL without changing anything. -/
theorem sigaction_effect (s : State) (cage sig : Nat) (a : Action) (c : Cage)
    (hc : s.cages cage = some c) :
    if sig = 9 ∨ sig = 19 then
      (step s (.sigaction cage sig (some a))).1 = s ∧
      (step s (.sigaction cage sig (some a))).2.ret = .err .EINVAL
    else
      (step s (.sigaction cage sig (some a))).2.ret = .ok 0 ∧
      (∃ c', (step s (.sigaction cage sig (some a))).1.cages cage = some c' ∧
        c'.handlers sig = some a ∧ (∀ sg, sg ≠ sig → c'.handlers sg = c.handlers sg) ∧
        c'.mask = c.mask) ∧
      (∀ c', c' ≠ cage → (step s (.sigaction cage sig (some a))).1.cages c' = s.cages c') := by
  split
  · rename_i h; simp [step, State.setCage, hc, h]
  · rename_i h
    simp only [step, State.setCage, hc, h, if_false]
    refine ⟨trivial, ⟨_, upd_same _ _ _, by simp, ?_, rfl⟩, ?_⟩
    · intro sg hs; simp [hs]
    · intro c' hc'; simp [hc']

/-- C37.  The handler the runtime is told to run is the installed one if the signal is not
blocked, 0 if none is installed, and 1 ("blocked") exactly if the signal is blocked or the
handler's address is 1. -/
theorem getHandler_spec (s : State) (cage tid sig : Nat) (c : Cage) (m : Sigset)
    (hc : s.cages cage = some c) (hm : c.mask tid = some m) (h1 : 1 ≤ sig) (h2 : sig ≤ 64) :
    (step s (.getHandler cage tid sig)).2.ret =
      if sigs m sig then .ok 1 else .ok (((c.handlers sig).map (fun a => a.handler.toNat)).getD 0) := by
  simp only [step, State.setCage, hc, hm, mem_bit m sig h1 h2]
  cases hs : sigs m sig <;> simp
  cases c.handlers sig <;> simp

/-- A history with fork and exec in which the reported actions are not the default. -/
def demoAct : Action := { handler := 0x1234, mask := 5, flags := 0 }

example : ((run State.init [.threadInit 1 7, .sigaction 1 10 (some demoAct), .fork 1 2,
    .sigaction 2 10 none, .sigaction 1 9 (some demoAct), .sigaction 1 12 none]).2.map
      fun e => (e.2.ret, e.2.oldact)) =
    [(.ok 0, none), (.ok 0, some Action.default), (.ok 0, none), (.ok 0, some demoAct),
     (.err .EINVAL, some Action.default), (.ok 0, some Action.default)] := by decide

/-! ## Sets of signals -/

/-- C36.  The set operations the masks are made with: adding and removing a signal changes the membership of that signal and of no
other. -/
theorem set_algebra (m : Sigset) {a b : Nat} (ha : 1 ≤ a ∧ a ≤ 64) (hb : 1 ≤ b ∧ b ≤ 64) :
    (sigismember (sigaddset m a) b = true ↔ b = a ∨ sigismember m b = true) ∧
    (sigismember (sigdelset m a) b = true ↔ b ≠ a ∧ sigismember m b = true) := by
  rw [mem_bit _ _ hb.1 hb.2, mem_bit _ _ hb.1 hb.2, mem_bit _ _ hb.1 hb.2]
  have e : ∀ x : Sigset, sigs x b = x.getLsbD (b - 1) := by intro x; simp [sigs, hb.1]
  rw [e, e, e]
  have hlt : b - 1 < 64 := by omega
  simp only [sigaddset, sigdelset, BitVec.getLsbD_or, BitVec.getLsbD_and, BitVec.getLsbD_not, BitVec.getLsbD_shiftLeft,
    BitVec.getLsbD_one, hlt, decide_true, Bool.true_and, Bool.or_eq_true, Bool.and_eq_true]
  by_cases h : b = a
  · subst h; simp
  · by_cases hlt' : b < a
    · have : b - 1 < a - 1 := by omega
      simp [this, h]
    · have h1 : ¬ b - 1 < a - 1 := by omega
      have h2 : ¬ b - 1 - (a - 1) = 0 := by omega
      simp [h1, h2, h]

example : sigismember (sigdelset 0x30#64 5) 5 = false ∧ sigismember (sigdelset 0x30#64 5) 6 = true ∧
    sigismember (sigdelset 0x30#64 4) 4 = false ∧ sigismember (sigaddset 0#64 64) 64 = true := by decide +kernel

/-- C36 is violated for threads the runtime has not announced: before `rustposix_thread_init` no thread has a mask, and a call that
needs it aborts the program. -/
theorem unannounced_thread_violated (tid : Nat) (how : Int) (set : Option Sigset) (sig : Nat) :
    (step State.init (.sigprocmask 1 tid how set)).2.ret = .panic ∧ (step State.init (.getHandler 1 tid sig)).2.ret = .panic ∧
    (step State.init (.fork 1 2)).2.ret = .panic := by
  refine ⟨rfl, rfl, rfl⟩

end Verif.Signal
