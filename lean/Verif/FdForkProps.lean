import Verif.FdForkLemmas

/-! # Properties of forking while other threads use the descriptor table (C84) -/

namespace Verif.FdFork

open FdConc (Tid Fd Obj set)

variable {N : Nat} {nl : Obj → Bool}

/-! ## Specification -/

/-- States some schedule leads to from a cage at rest without children. -/
def Reach (N : Nat) (nl : Obj → Bool) (s : St) : Prop :=
  ∃ (val : Fd → Option Obj) (as : List Act), s = exec N nl (atRest N val) as

/-- Disciplined use of the descriptors by the other calls (see C61); forks may happen at any
time. -/
def Disciplined (s : St) : Act → Prop
  | .call a => FdConc.Disciplined s.base a
  | .fork _ | .copy _ => True

/-- States disciplined schedules lead to. -/
inductive ReachD (N : Nat) (nl : Obj → Bool) : St → Prop
  | rest (val : Fd → Option Obj) : ReachD N nl (atRest N val)
  | step {s : St} (a : Act) : ReachD N nl s → Disciplined s a → ReachD N nl (act N nl s a)

/-- How many slots of a table of `N` slots hold an object. -/
def held (N : Nat) (tab : Fd → Option Obj) (o : Obj) : Nat :=
  ((List.range N).filter fun fd => tab fd = some o).length

/-- How many descriptors of the parent and of its children hold an object. -/
def heldByAll (N : Nat) (s : St) (o : Obj) : Nat :=
  held N s.base.val o + ((List.range s.n).map fun c => held N (s.kid c) o).sum

/-- Nobody is inside a call. -/
def AtRest (s : St) : Prop := ∀ t, s.base.pc t = .idle ∧ s.forks t = none

/-! ## Lemmas -/

theorem Reach.inv {s : St} (h : Reach N nl s) : Inv N s := by
  obtain ⟨val, as, rfl⟩ := h
  exact (Inv.atRest val).exec as

theorem act_base (s : St) (a : Act) :
    (act N nl s a).base = s.base
    ∨ ∃ b, a = .call b ∧ (act N nl s a).base = FdConc.act N s.base b := by
  cases a with
  | call b =>
    cases b with
    | enter t op =>
      simp only [act]
      split
      · exact .inr ⟨_, rfl, rfl⟩
      · exact .inl rfl
    | run t => exact .inr ⟨_, rfl, rfl⟩
  | fork t => simp only [act]; split <;> exact .inl rfl
  | copy t =>
    simp only [act]
    split
    · exact .inl rfl
    · cases hs : copyStep N nl s t _ _ with
      | none => exact .inl rfl
      | some s' =>
        rcases copyStep_cases hs with ⟨_, _, _, rfl⟩ | ⟨o, _, _, _, _, _, rfl⟩
          | ⟨o, _, _, _, _, rfl⟩ | ⟨_, rfl⟩ <;> exact .inl rfl

theorem Reach.base {s : St} (h : Reach N nl s) : FdConc.Inv N s.base := by
  obtain ⟨val, as, rfl⟩ := h
  induction as using snoc_ind with
  | h0 => exact FdConc.Inv.atRest N val
  | h1 as a ih =>
    rw [exec_snoc]
    rcases act_base (N := N) (nl := nl) (exec N nl (atRest N val) as) a with h | ⟨b, _, h⟩
    · rw [h]; exact ih
    · rw [h]; exact ih.act b

theorem ReachD.base {s : St} (h : ReachD N nl s) : FdConc.ReachD N s.base := by
  induction h with
  | rest val => exact .rest val
  | step a _ hd ih =>
    rename_i s _
    rcases act_base (N := N) (nl := nl) s a with h | ⟨b, rfl, h⟩
    · rw [h]; exact ih
    · rw [h]; exact .step b ih hd

theorem ReachD.inv {s : St} (h : ReachD N nl s) : Inv N s := by
  induction h with
  | rest val => exact Inv.atRest val
  | step a _ _ ih => exact ih.act a

theorem kids_sum (kid : Nat → Fd → Option Obj) (o : Obj) (n : Nat) :
    kids N kid o n = ((List.range n).map fun c => held N (kid c) o).sum := by
  induction n with
  | zero => rfl
  | succ n ih => simp [kids, List.range_succ, ih, held, slots]

/-! ## What the child gets -/

/-- Whatever else happens during a `fork`: each descriptor of the new child is what the parent had
under that number at some moment of the call, and the moments come in the order of the numbers. -/
theorem fork_slotwise {s : St} (h : Reach N nl s) {t : Tid} (ht : s.idle t = true)
    (as : List Act) (hb : (exec N nl s (.fork t :: as)).born s.n = true) :
    ∃ m : Nat → Nat, (∀ i j, i ≤ j → m i ≤ m j) ∧ (∀ i, m i ≤ as.length)
      ∧ ∀ fd, fd < N → (exec N nl s (.fork t :: as)).kid s.n fd
          = (exec N nl s (.fork t :: as.take (m fd))).base.val fd := by
  have hi := h.inv
  have h1 : Inv N (act N nl s (.fork t)) := hi.act _
  have hf : (act N nl s (.fork t)).forks = set s.forks t (some (s.n, 0)) := by
    simp [act, ht]
  have hn : (act N nl s (.fork t)).n = s.n + 1 := by simp [act, ht]
  have hbn : (act N nl s (.fork t)).born s.n = false := by
    simp only [act, ht, if_true]; exact (hi.notyet _ (Nat.le_refl _)).1
  obtain ⟨m, hm, hl, hv⟩ := moments (nl := nl) h1 (c := s.n) (by omega) (by
    rintro i (⟨hb', _⟩ | ⟨u, k, hu, hk⟩)
    · rw [hbn] at hb'; cases hb'
    · rw [hf] at hu
      by_cases e : u = t
      · subst e
        rw [FdConc.set_same] at hu
        simp only [Option.some.injEq, Prod.mk.injEq] at hu
        omega
      · rw [FdConc.set_ne _ _ e] at hu
        have := (hi.lt u _ k hu).1
        omega) as
  exact ⟨m, hm, hl, fun fd hfd => hv fd (.inl ⟨hb, hfd⟩)⟩

/-- A descriptor that means the same all through the `fork` means the same in the child. -/
theorem fork_unchanged {s : St} (h : Reach N nl s) {t : Tid} (ht : s.idle t = true)
    (as : List Act) (hb : (exec N nl s (.fork t :: as)).born s.n = true) {fd : Nat} (hfd : fd < N)
    (hsame : ∀ i, i ≤ as.length →
      (exec N nl s (.fork t :: as.take i)).base.val fd = s.base.val fd) :
    (exec N nl s (.fork t :: as)).kid s.n fd = s.base.val fd := by
  obtain ⟨m, _, hl, hv⟩ := fork_slotwise h ht as hb
  rw [hv fd hfd, hsame _ (hl fd)]

/-- Descriptors beyond the table are never made up, and the table of a child that is in the cage
table never changes through anything the parent does. -/
theorem fork_final {s : St} (h : Reach N nl s) {c : Nat} (hb : s.born c = true)
    (as : List Act) :
    (exec N nl s as).kid c = s.kid c ∧ (exec N nl s as).born c = true
      ∧ ∀ fd, N ≤ fd → s.kid c fd = none := by
  have key : ∀ as s, Inv N s → s.born c = true →
      (exec N nl s as).kid c = s.kid c ∧ (exec N nl s as).born c = true := by
    intro as
    induction as with
    | nil => exact fun s _ hb => ⟨rfl, hb⟩
    | cons a as ih =>
      intro s hi hb
      have hc : c < s.n := by
        apply Nat.lt_of_not_le
        intro hle
        rw [(hi.notyet c hle).1] at hb; cases hb
      have h1 : (act N nl s a).kid c = s.kid c ∧ (act N nl s a).born c = true := by
        cases a with
        | call b =>
          cases b with
          | enter t op => simp only [act]; split <;> exact ⟨rfl, hb⟩
          | run t => exact ⟨rfl, hb⟩
        | fork t =>
          simp only [act]
          split
          · exact ⟨FdConc.set_ne _ _ (Nat.ne_of_lt hc), hb⟩
          · exact ⟨rfl, hb⟩
        | copy t =>
          simp only [act]
          split
          · exact ⟨rfl, hb⟩
          · rename_i d k ht
            have hne : c ≠ d := by
              rintro rfl
              rw [(hi.lt t c k ht).2.1] at hb; cases hb
            cases hs : copyStep N nl s t d k with
            | none => exact ⟨rfl, hb⟩
            | some s' =>
              rcases copyStep_cases hs with ⟨_, _, _, rfl⟩ | ⟨o, _, _, _, _, _, rfl⟩
                | ⟨o, _, _, _, _, rfl⟩ | ⟨_, rfl⟩
              · exact ⟨rfl, hb⟩
              · exact ⟨rfl, hb⟩
              · exact ⟨FdConc.set_ne _ _ hne, hb⟩
              · refine ⟨rfl, ?_⟩
                simp only [Option.getD_some]
                rw [FdConc.set_ne _ _ hne]; exact hb
      have h2 := ih _ (hi.act a) h1.2
      exact ⟨h2.1.trans h1.1, h2.2⟩
  exact ⟨(key as s h.inv hb).1, (key as s h.inv hb).2, h.inv.beyond c⟩

/-! ## Counts -/

/-- Under every disciplined schedule with any number of forks: whenever all calls have returned,
the count of every object is the number of descriptors of the parent and of the children (those
whose `fork` died included) that hold it. -/
theorem fork_counts_partial {s : St} (h : ReachD N nl s) (hr : AtRest s) (o : Obj) :
    s.refs o = heldByAll N s o := by
  have h1 := FdConc.refs_exact_partial h.base (fun t => (hr t).1) o
  have h2 := h.inv.extra o
  rw [kids_sum] at h2
  simp only [St.refs, h1, h2, heldByAll, FdConc.count, held]
  omega

/-- Under every disciplined schedule: a `fork` that comes to a descriptor nobody is closing does
not panic there. -/
theorem fork_no_panic_partial {s : St} (h : ReachD N nl s) {t : Tid} {c k : Nat}
    (ht : s.forks t = some (c, k)) (hk : ∀ u, k ∉ FdConc.kills (s.base.pc u)) :
    (act N nl s (.copy t)).dead t = false := by
  have hd : s.dead t = false := by
    cases hx : s.dead t with
    | false => rfl
    | true => have := (h.inv.dead t hx).2; rw [ht] at this; cases this
  simp only [act, ht]
  cases hs : copyStep N nl s t c k with
  | none => exact hd
  | some s' =>
    rcases copyStep_cases hs with ⟨_, _, _, rfl⟩ | ⟨o, hkN, _, hv, _, hz, rfl⟩
      | ⟨o, _, _, _, _, rfl⟩ | ⟨_, rfl⟩
    · exact hd
    · exfalso
      have D := h.base.inv
      have n1 : ¬ FdConc.half s.base k := by
        rintro ⟨u, hu⟩
        exact hk u (FdConc.half_kills hu)
      have h1 := FdConc.owners_pos hkN hv n1
      have h2 := D.refs o
      have h3 := h.inv.extra o
      simp only [St.refs] at hz
      omega
    · exact hd
    · exact hd

/-! ## Ending -/

/-- A `fork` only ever waits for a slot another thread of the cage has locked for writing: one
that is in `dup` or `dup2` from this slot or about to fill it. -/
theorem fork_waits {s : St} (h : Reach N nl s) {t : Tid} {c k : Nat}
    (ht : s.forks t = some (c, k)) (hb : copyStep N nl s t c k = none) :
    ∃ u, u ≠ t ∧ s.base.wr k = some u ∧ FdConc.holds (s.base.pc u) k := by
  have hw : s.base.wr k ≠ none := by
    intro hw
    simp only [copyStep, hw, if_true] at hb
    split at hb
    · split at hb
      · cases hb
      · split at hb <;> cases hb
    · cases hb
  cases hu : s.base.wr k with
  | none => exact absurd hu hw
  | some u =>
    have hh := (h.base.w u k).mp hu
    refine ⟨u, ?_, rfl, hh⟩
    rintro rfl
    rw [h.inv.idle u (by rw [ht]; exact fun e => nomatch e)] at hh
    exact hh

theorem copy_all {s : St} {t : Tid} {c : Nat} (hw : ∀ fd, s.base.wr fd = none)
    (hp : ∀ fd o, s.base.val fd = some o → nl o = true → 1 ≤ s.refs o) :
    ∀ (d k : Nat), k + d = N → s.forks t = some (c, k) → (∀ fd, k ≤ fd → s.kid c fd = none) →
      ∀ s', s' = exec N nl s (List.replicate (d + 1) (.copy t)) →
        s'.born c = true ∧ s'.forks t = none
          ∧ (∀ fd, fd < k → s'.kid c fd = s.kid c fd)
          ∧ ∀ fd, k ≤ fd → fd < N → s'.kid c fd = s.base.val fd := by
  intro d
  induction d generalizing s with
  | zero =>
    intro k hk ht _ s' hs'
    subst hs'
    have e : exec N nl s (List.replicate (0 + 1) (.copy t))
        = { s with forks := set s.forks t none, born := set s.born c true } := by
      have hkN : ¬ k < N := by omega
      simp [exec, act, ht, copyStep, hkN]
    rw [e]
    exact ⟨FdConc.set_same _ _ _, FdConc.set_same _ _ _, fun _ _ => rfl,
      fun fd h1 h2 => by omega⟩
  | succ d ih =>
    intro k hk ht hem s' hs'
    have hkN : k < N := by omega
    have e : exec N nl s (List.replicate (d + 1 + 1) (.copy t))
        = exec N nl (act N nl s (.copy t)) (List.replicate (d + 1) (.copy t)) := by
      simp [exec, List.replicate_succ]
    rw [e] at hs'
    cases hv : s.base.val k with
    | none =>
      have e1 : act N nl s (.copy t) = { s with forks := set s.forks t (some (c, k + 1)) } := by
        simp [act, ht, copyStep, hkN, hw k, hv]
      rw [e1] at hs'
      obtain ⟨h1, h2, h3, h4⟩ := ih (s := { s with forks := set s.forks t (some (c, k + 1)) })
        hw hp (k + 1) (by omega) (FdConc.set_same _ _ _)
        (fun fd hfd => hem fd (by omega)) s' hs'
      refine ⟨h1, h2, fun fd hfd => h3 fd (by omega), fun fd h5 h6 => ?_⟩
      by_cases e : fd = k
      · subst e
        rw [h3 fd (by omega), hv]; exact hem fd (Nat.le_refl _)
      · exact h4 fd (by omega) h6
    | some o =>
      have hpo : ¬ (nl o = true ∧ s.refs o ≤ 0) := by
        rintro ⟨h1, h2⟩
        have := hp k o hv h1
        omega
      have e1 : act N nl s (.copy t) = { s with
            forks := set s.forks t (some (c, k + 1))
            kid := set s.kid c (set (s.kid c) k (some o))
            extra := set s.extra o (s.extra o + 1) } := by
        have hb : (nl o && decide (s.refs o ≤ 0)) = false := by
          cases hx : (nl o && decide (s.refs o ≤ 0)) with
          | false => rfl
          | true =>
            simp only [Bool.and_eq_true, decide_eq_true_eq] at hx
            exact absurd hx hpo
        simp only [act, ht, copyStep, hkN, hw k, hv, if_true, hb, Bool.false_eq_true, if_false,
          Option.getD_some]
      rw [e1] at hs'
      obtain ⟨h1, h2, h3, h4⟩ := ih (s := { s with
            forks := set s.forks t (some (c, k + 1))
            kid := set s.kid c (set (s.kid c) k (some o))
            extra := set s.extra o (s.extra o + 1) })
        hw (fun fd p hv' hn => by
          have := hp fd p hv' hn
          simp only [St.refs] at this ⊢
          by_cases ep : p = o
          · subst ep; rw [FdConc.set_same]; omega
          · rw [FdConc.set_ne _ _ ep]; exact this)
        (k + 1) (by omega) (FdConc.set_same _ _ _)
        (fun fd hfd => by
          dsimp only
          rw [FdConc.set_same, FdConc.set_ne _ _ (by omega)]; exact hem fd (by omega)) s' hs'
      refine ⟨h1, h2, fun fd hfd => ?_, fun fd h5 h6 => ?_⟩
      · rw [h3 fd (by omega)]
        dsimp only
        rw [FdConc.set_same, FdConc.set_ne _ _ (by omega)]
      · by_cases e : fd = k
        · subst e
          rw [h3 fd (by omega)]
          dsimp only
          rw [FdConc.set_same, FdConc.set_same, hv]
        · exact h4 fd (by omega) h6

/-- A `fork` nobody interferes with, called when no slot is locked and no deleted object is held:
it returns after looking at every slot once, and the child has exactly the parent's descriptors. -/
theorem fork_alone {s : St} (h : Reach N nl s) {t : Tid} (ht : s.idle t = true)
    (hw : ∀ fd, s.base.wr fd = none)
    (hp : ∀ fd o, s.base.val fd = some o → nl o = true → 1 ≤ s.refs o) :
    (exec N nl s (.fork t :: List.replicate (N + 1) (.copy t))).born s.n = true
    ∧ (exec N nl s (.fork t :: List.replicate (N + 1) (.copy t))).idle t = true
    ∧ ∀ fd, fd < N → (exec N nl s (.fork t :: List.replicate (N + 1) (.copy t))).kid s.n fd
        = s.base.val fd := by
  have e : act N nl s (.fork t) = { s with
      forks := set s.forks t (some (s.n, 0)), n := s.n + 1
      kid := set s.kid s.n (fun _ => none) } := by simp [act, ht]
  have hs : ∀ as, exec N nl s (.fork t :: as) = exec N nl (act N nl s (.fork t)) as :=
    fun _ => rfl
  rw [hs, e]
  obtain ⟨h1, h2, _, h4⟩ := copy_all (N := N) (nl := nl) (t := t) (c := s.n) (s := { s with
      forks := set s.forks t (some (s.n, 0)), n := s.n + 1
      kid := set s.kid s.n (fun _ => none) }) hw hp N 0 (by omega) (FdConc.set_same _ _ _)
      (fun fd _ => by dsimp only; rw [FdConc.set_same]) _ rfl
  refine ⟨h1, ?_, fun fd hfd => h4 fd (by omega) hfd⟩
  simp only [St.idle, Bool.and_eq_true, decide_eq_true_eq, Bool.not_eq_true'] at ht
  have hrest : ∀ (n : Nat) (s1 : St), s1.base.pc t = .idle → s1.dead t = false →
      (∀ fd, s1.base.wr fd = none) →
      (∀ fd o, s1.base.val fd = some o → nl o = true → 1 ≤ s1.refs o) →
      (exec N nl s1 (List.replicate n (.copy t))).base.pc t = .idle
      ∧ (exec N nl s1 (List.replicate n (.copy t))).dead t = false := by
    intro n
    induction n with
    | zero => exact fun s1 a b _ _ => ⟨a, b⟩
    | succ n ih =>
      intro s1 a b hw1 hp1
      have e2 : exec N nl s1 (List.replicate (n + 1) (.copy t))
          = exec N nl (act N nl s1 (.copy t)) (List.replicate n (.copy t)) := by
        simp [exec, List.replicate_succ]
      rw [e2]
      have key : (act N nl s1 (.copy t)).base = s1.base ∧ (act N nl s1 (.copy t)).dead t = false
          ∧ ∀ o, s1.refs o ≤ (act N nl s1 (.copy t)).refs o := by
        simp only [act]
        split
        · exact ⟨rfl, b, fun _ => Int.le_refl _⟩
        · cases hx : copyStep N nl s1 t _ _ with
          | none => exact ⟨rfl, b, fun _ => Int.le_refl _⟩
          | some s2 =>
            rcases copyStep_cases hx with ⟨_, _, _, rfl⟩ | ⟨o, _, _, hv, hn, hz, rfl⟩
              | ⟨o, _, _, _, _, rfl⟩ | ⟨_, rfl⟩
            · exact ⟨rfl, b, fun _ => Int.le_refl _⟩
            · have := hp1 _ o hv hn; omega
            · refine ⟨rfl, b, fun p => ?_⟩
              simp only [St.refs, Option.getD_some]
              by_cases ep : p = o
              · subst ep; rw [FdConc.set_same]; omega
              · rw [FdConc.set_ne _ _ ep]; omega
            · exact ⟨rfl, b, fun _ => Int.le_refl _⟩
      apply ih
      · rw [key.1]; exact a
      · exact key.2.1
      · rw [key.1]; exact hw1
      · rw [key.1]; exact fun fd o hv hn => Int.le_trans (hp1 fd o hv hn) (key.2.2 o)
  obtain ⟨r1, r2⟩ := hrest (N + 1) { s with
      forks := set s.forks t (some (s.n, 0)), n := s.n + 1
      kid := set s.kid s.n (fun _ => none) } ht.1.1 ht.2 hw hp
  simp only [St.idle, r1, r2, h2]
  rfl

/-! ## What goes wrong -/

/-- A table of five slots: objects 1, 2, 3 in slots 0 to 2 and object 7 in slot 4. -/
def tab5 : Fd → Option Obj
  | 0 => some 1 | 1 => some 2 | 2 => some 3 | 4 => some 7 | _ => none

/-- Thread 1 forks; while it is between slots 3 and 4, thread 2 does `dup(4)`, which returns 3,
and `close(4)`. -/
def moved : List Act :=
  [.fork 1, .copy 1, .copy 1, .copy 1, .copy 1, .call (.enter 2 (.dup 4 0)), .call (.run 2),
    .call (.run 2), .call (.run 2), .call (.run 2), .call (.run 2), .call (.run 2),
    .call (.enter 2 (.close 4)), .call (.run 2), .call (.run 2), .copy 1, .copy 1]

theorem moved_run :
    (exec 5 (fun _ => false) (atRest 5 tab5) moved).born 0 = true
    ∧ (∀ i, i ≤ moved.length → ∃ fd, fd < 5 ∧
        (exec 5 (fun _ => false) (atRest 5 tab5) (moved.take i)).base.val fd = some 7)
    ∧ ∀ fd, fd < 5 → (exec 5 (fun _ => false) (atRest 5 tab5) moved).kid 0 fd ≠ some 7 := by
  decide +kernel

/-- A child does not get the descriptors the parent had at any one moment: an object for which the
parent had an open descriptor at every moment of the `fork` can be missing from the child
altogether.  `fork` copies the table slot by slot under separate locks
(src/safeposix/syscalls/sys_calls.rs 205-284), so another thread can move a descriptor from a slot
still to be copied to one already copied. -/
theorem fork_snapshot_violated :
    ∃ (val : Fd → Option Obj) (as : List Act) (o : Obj),
      (exec 5 (fun _ => false) (atRest 5 val) as).born 0 = true
      ∧ (∀ i, i ≤ as.length → ∃ fd, fd < 5 ∧
          (exec 5 (fun _ => false) (atRest 5 val) (as.take i)).base.val fd = some o)
      ∧ (∀ fd, fd < 5 → (exec 5 (fun _ => false) (atRest 5 val) as).kid 0 fd ≠ some o)
      ∧ ∀ i, i ≤ as.length → ∃ fd, fd < 5 ∧ (exec 5 (fun _ => false) (atRest 5 val) as).kid 0 fd
          ≠ (exec 5 (fun _ => false) (atRest 5 val) (as.take i)).base.val fd := by
  obtain ⟨h1, h2, h3⟩ := moved_run
  refine ⟨tab5, moved, 7, h1, h2, h3, fun i hi => ?_⟩
  obtain ⟨fd, hfd, hv⟩ := h2 i hi
  exact ⟨fd, hfd, by rw [hv]; exact h3 fd hfd⟩

/-- Thread 2 closes descriptor 0; thread 1 forks after the object has been released and before the
slot has been emptied. -/
def halfClosed : List Act :=
  [.call (.enter 2 (.close 0)), .call (.run 2), .fork 1, .copy 1, .call (.run 2)]

/-- A `fork` can bring its thread down although every thread uses descriptors with discipline:
`close` releases the object of a descriptor before it empties the slot
(src/safeposix/syscalls/fs_calls.rs 3600-3787 and 3835-3842, separate locks), and a `fork` that
looks at the slot in between fails to find the inode of a deleted file
(src/safeposix/syscalls/sys_calls.rs 221, `unwrap`).  No child appears, and the same calls one
after the other are harmless. -/
theorem fork_panics_violated :
    ∃ (val : Fd → Option Obj) (as : List Act), ReachD 2 (fun _ => true)
        (exec 2 (fun _ => true) (atRest 2 val) as)
      ∧ (exec 2 (fun _ => true) (atRest 2 val) as).dead 1 = true
      ∧ (exec 2 (fun _ => true) (atRest 2 val) as).born 0 = false := by
  refine ⟨fun fd => if fd = 0 then some 1 else none, halfClosed, ?_, by decide +kernel,
    by decide +kernel⟩
  have h0 := ReachD.rest (N := 2) (nl := fun _ => true) (fun fd => if fd = 0 then some 1 else none)
  have h1 := h0.step (.call (.enter 2 (.close 0))) ?_
  · have h2 := h1.step (.call (.run 2)) trivial
    have h3 := h2.step (.fork 1) trivial
    have h4 := h3.step (.copy 1) trivial
    exact h4.step (.call (.run 2)) trivial
  refine ⟨fun u _ => ⟨fun fd _ h => ?_, fun fd _ h => ?_⟩, fun old new h => nomatch h⟩
  · simp [atRest, FdConc.atRest, FdConc.names] at h
  · simp [atRest, FdConc.atRest, FdConc.kills] at h

/-! ## The hypotheses are met -/

example : Reach 5 (fun _ => false) (exec 5 (fun _ => false) (atRest 5 tab5) moved) :=
  ⟨tab5, moved, rfl⟩

/-- Two forks at once and another call between their steps. -/
example :
    let s := exec 5 (fun _ => false) (atRest 5 tab5)
      [.fork 1, .copy 1, .fork 2, .copy 2, .call (.enter 3 (.dup 4 0)), .call (.run 3),
        .copy 1, .copy 2]
    s.n = 2 ∧ s.forks 1 = some (0, 2) ∧ s.forks 2 = some (1, 2) ∧ s.refs 1 = 3
      ∧ s.base.wr 4 = some 3 := by
  decide +kernel

example : (atRest 5 tab5).idle 1 = true ∧ (atRest 5 tab5).base.wr 4 = none
    ∧ (exec 5 (fun _ => false) (atRest 5 tab5)
        (.fork 1 :: List.replicate 6 (.copy 1))).kid 0 4 = some 7
    ∧ heldByAll 5 (exec 5 (fun _ => false) (atRest 5 tab5)
        (.fork 1 :: List.replicate 6 (.copy 1))) 7 = 2 := by
  decide +kernel

end Verif.FdFork
