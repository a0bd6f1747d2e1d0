import Verif.Rendezvous

/-!
# Connecting and accepting by several threads: properties (C81)

An accept has *got* a connect if it will return, or has returned, the other end of it.  The claims are about every number
of threads and every interleaving of their steps.
-/

namespace Verif.Rendezvous

open Verif.Path

/-- Accept `a` has got connect `c`. -/
def Got (s : St) (a c : Nat) : Prop := ∃ y, s.acc a = some y ∧ (y.ph = .took c ∨ y.ph = .done c)

/-- Connect `c`, to path `p`, is blocking and has not returned. -/
def Waits (s : St) (c : Nat) (p : Str) : Prop := ∃ x, s.conn c = some x ∧ x.path = p ∧ x.blk = true ∧ x.ph ≠ .returned

/-- Connect `c` to path `p` has returned 0. -/
def Returned (s : St) (c : Nat) (p : Str) : Prop := ∃ x, s.conn c = some x ∧ x.path = p ∧ x.ph = .returned

/-! ## The invariant -/

structure Inv (s : St) : Prop where
  entry : ∀ p c, s.table p = some c → ∃ x, s.conn c = some x ∧ x.path = p
  got : ∀ a y c, s.acc a = some y → (y.ph = .took c ∨ y.ph = .done c) → ∃ x, s.conn c = some x ∧ x.path = y.path ∧ x.ph = .returned
  ret : ∀ c x, s.conn c = some x → x.blk = true → x.ph = .returned → ∃ a, Got s a c
  name : ∀ c x, s.conn c = some x → x.ph ≠ .returned → s.names x.path = true
  nbl : ∀ c x, s.conn c = some x → x.blk = false → x.ph = .returned

theorem Inv.init : Inv init :=
  ⟨fun _ _ h => (by cases h), fun _ _ _ h => (by cases h), fun _ _ h => (by cases h), fun _ _ h => (by cases h),
    fun _ _ h => (by cases h)⟩

theorem Got.of_acc {s s' : St} (h : s'.acc = s.acc) {a c : Nat} : Got s' a c ↔ Got s a c := by
  unfold Got; rw [h]

theorem Inv.step {s s' : St} {e : Ev} (h : Inv s) (hs : Step s e s') : Inv s' := by
  cases hs with
  | @bind p =>
    refine ⟨h.entry, h.got, h.ret, fun c x hx hp => ?_, h.nbl⟩
    by_cases e : x.path = p
    · simp only [e, updK_same]
    · simp only [updK_ne _ _ e]; exact h.name c x hx hp
  | @forget p hn =>
    refine ⟨h.entry, h.got, h.ret, fun c x hx hp => ?_, h.nbl⟩
    have e : x.path ≠ p := fun e => hn ⟨c, x, hx, e, hp⟩
    simp only [updK_ne _ _ e]; exact h.name c x hx hp
  | refused => exact h
  | @connect c p blk hc hn =>
    have other : ∀ d x, s.conn d = some x → d ≠ c := by rintro d x hx rfl; rw [hc] at hx; cases hx
    refine ⟨fun q d hd => ?_, fun a y d ha hp => ?_, fun d x hx hb hr => ?_, fun d x hx hp => ?_, fun d x hx hb => ?_⟩
    · by_cases e : q = p
      · subst e
        simp only [updK_same, Option.some.injEq] at hd
        subst hd
        exact ⟨_, updK_same _ _ _, rfl⟩
      · simp only [updK_ne _ _ e] at hd
        obtain ⟨x, h1, h2⟩ := h.entry q d hd
        exact ⟨x, by simp only [updK_ne _ _ (other d x h1)]; exact h1, h2⟩
    · obtain ⟨x, h1, h2⟩ := h.got a y d ha hp
      exact ⟨x, by simp only [updK_ne _ _ (other d x h1)]; exact h1, h2⟩
    · by_cases e : d = c
      · subst e
        simp only [updK_same, Option.some.injEq] at hx
        subst hx
        simp only at hb
        subst hb
        cases hr
      · simp only [updK_ne _ _ e] at hx
        exact h.ret d x hx hb hr
    · by_cases e : d = c
      · subst e
        simp only [updK_same, Option.some.injEq] at hx
        subst hx
        exact hn
      · simp only [updK_ne _ _ e] at hx
        exact h.name d x hx hp
    · by_cases e : d = c
      · subst e
        simp only [updK_same, Option.some.injEq] at hx
        subst hx
        simp only at hb
        subst hb
        rfl
      · simp only [updK_ne _ _ e] at hx
        exact h.nbl d x hx hb
  | @sleep c x hc hp =>
    refine ⟨fun q d hd => ?_, fun a y d ha hy => ?_, fun d z hz hb hr => ?_, fun d z hz hz' => ?_, fun d z hz hb => ?_⟩
    · obtain ⟨z, h1, h2⟩ := h.entry q d hd
      by_cases e : d = c
      · subst e
        rw [hc] at h1; cases h1
        exact ⟨_, updK_same _ _ _, h2⟩
      · exact ⟨z, by simp only [updK_ne _ _ e]; exact h1, h2⟩
    · obtain ⟨z, h1, h2, h3⟩ := h.got a y d ha hy
      have e : d ≠ c := by
        rintro rfl
        rw [hc] at h1; cases h1
        rw [hp] at h3; cases h3
      exact ⟨z, by simp only [updK_ne _ _ e]; exact h1, h2, h3⟩
    · by_cases e : d = c
      · subst e
        simp only [updK_same, Option.some.injEq] at hz
        subst hz
        cases hr
      · simp only [updK_ne _ _ e] at hz
        exact h.ret d z hz hb hr
    · by_cases e : d = c
      · subst e
        simp only [updK_same, Option.some.injEq] at hz
        subst hz
        exact h.name d x hc (by rw [hp]; intro e; cases e)
      · simp only [updK_ne _ _ e] at hz
        exact h.name d z hz hz'
    · by_cases e : d = c
      · subst e
        simp only [updK_same, Option.some.injEq] at hz
        subst hz
        have := h.nbl d x hc hb
        rw [hp] at this; cases this
      · simp only [updK_ne _ _ e] at hz
        exact h.nbl d z hz hb
  | @accept a p nb ha =>
    refine ⟨h.entry, fun b y d hb hy => ?_, fun d x hx hb hr => ?_, h.name, h.nbl⟩
    · by_cases e : b = a
      · subst e
        simp only [updK_same, Option.some.injEq] at hb
        subst hb
        rcases hy with hy | hy <;> cases hy
      · simp only [updK_ne _ _ e] at hb
        exact h.got b y d hb hy
    · obtain ⟨b, y, h1, h2⟩ := h.ret d x hx hb hr
      have e : b ≠ a := by rintro rfl; rw [ha] at h1; cases h1
      exact ⟨b, y, by simp only [updK_ne _ _ e]; exact h1, h2⟩
  | lookNone => exact h
  | @lookAgain a y ha hp =>
    refine ⟨h.entry, fun b z d hb hz => ?_, fun d x hx hb hr => ?_, h.name, h.nbl⟩
    · by_cases e : b = a
      · subst e
        simp only [updK_same, Option.some.injEq] at hb
        subst hb
        rcases hz with hz | hz <;> cases hz
      · simp only [updK_ne _ _ e] at hb
        exact h.got b z d hb hz
    · obtain ⟨b, z, h1, h2⟩ := h.ret d x hx hb hr
      have e : b ≠ a := by
        rintro rfl
        rw [ha] at h1; cases h1
        rw [hp] at h2
        rcases h2 with h2 | h2 <;> cases h2
      exact ⟨b, z, by simp only [updK_ne _ _ e]; exact h1, h2⟩
  | lookSpin => exact h
  | @lookTake a y c x ha hp ht hc hn =>
    have hxp : x.path = y.path := by
      obtain ⟨z, h1, h2⟩ := h.entry _ _ ht
      rw [hc] at h1; cases h1
      exact h2
    have keep : ∀ d z, s.conn d = some z → ∃ z', updK s.conn c (some (woken x)) d = some z' ∧ z'.path = z.path ∧
        (z.ph = .returned → z'.ph = .returned) := by
      intro d z hz
      by_cases e : d = c
      · subst e
        rw [hc] at hz; cases hz
        exact ⟨_, updK_same _ _ _, rfl, fun _ => rfl⟩
      · exact ⟨z, by rw [updK_ne _ _ e]; exact hz, rfl, id⟩
    refine ⟨fun q d hd => ?_, fun b z d hb hz => ?_, fun d z hz hb hr => ?_, fun d z hz hz' => ?_, fun d z hz hb => ?_⟩
    · obtain ⟨z, h1, h2⟩ := h.entry q d hd
      obtain ⟨z', g1, g2, -⟩ := keep d z h1
      exact ⟨z', g1, g2.trans h2⟩
    · by_cases e : b = a
      · subst e
        simp only [updK_same, Option.some.injEq] at hb
        subst hb
        have : d = c := by
          rcases hz with hz | hz
          · exact (APhase.took.inj hz).symm
          · cases hz
        subst this
        exact ⟨_, updK_same _ _ _, hxp, rfl⟩
      · simp only [updK_ne _ _ e] at hb
        obtain ⟨w, h1, h2, h3⟩ := h.got b z d hb hz
        obtain ⟨z', g1, g2, g3⟩ := keep d w h1
        exact ⟨z', g1, g2.trans h2, g3 h3⟩
    · by_cases e : d = c
      · subst e
        exact ⟨a, _, updK_same _ _ _, .inl rfl⟩
      · simp only [updK_ne _ _ e] at hz
        obtain ⟨b, w, h1, h2⟩ := h.ret d z hz hb hr
        have e' : b ≠ a := by
          rintro rfl
          rw [ha] at h1; cases h1
          rw [hp] at h2
          rcases h2 with h2 | h2 <;> cases h2
        exact ⟨b, w, by simp only [updK_ne _ _ e']; exact h1, h2⟩
    · by_cases e : d = c
      · subst e
        simp only [updK_same, Option.some.injEq] at hz
        subst hz
        exact absurd rfl hz'
      · simp only [updK_ne _ _ e] at hz
        exact h.name d z hz hz'
    · by_cases e : d = c
      · subst e
        simp only [updK_same, Option.some.injEq] at hz
        subst hz
        rfl
      · simp only [updK_ne _ _ e] at hz
        exact h.nbl d z hz hb
  | @remove a y c ha hp =>
    refine ⟨fun q d hd => ?_, fun b z d hb hz => ?_, fun d x hx hb hr => ?_, h.name, h.nbl⟩
    · by_cases e : q = y.path
      · subst e; simp only [updK_same] at hd; cases hd
      · simp only [updK_ne _ _ e] at hd; exact h.entry q d hd
    · by_cases e : b = a
      · subst e
        simp only [updK_same, Option.some.injEq] at hb
        subst hb
        have : d = c := by
          rcases hz with hz | hz
          · cases hz
          · exact (APhase.done.inj hz).symm
        subst this
        exact h.got b y d ha (.inl hp)
      · simp only [updK_ne _ _ e] at hb
        exact h.got b z d hb hz
    · obtain ⟨b, w, h1, h2⟩ := h.ret d x hx hb hr
      by_cases e : b = a
      · subst e
        rw [ha] at h1; cases h1
        rw [hp] at h2
        have : d = c := by
          rcases h2 with h2 | h2
          · exact (APhase.took.inj h2).symm
          · cases h2
        subst this
        exact ⟨b, _, updK_same _ _ _, .inr rfl⟩
      · exact ⟨b, w, by simp only [updK_ne _ _ e]; exact h1, h2⟩

theorem Run.inv {s s' : St} (hr : Run s s') (h : Inv s) : Inv s' := by
  induction hr with
  | refl => exact h
  | tail _ hs ih => exact ih.step hs

theorem Run.trans {s s1 s2 : St} (h : Run s s1) (h' : Run s1 s2) : Run s s2 := by
  induction h' with
  | refl => exact h
  | tail _ hs ih => exact .tail ih hs

/-! ## C81: what always holds -/

/-- **C81.**  A blocking connect returns only when an accept has got it. -/
theorem returned_accepted {s : St} (hr : Run init s) {c : Nat} {x : Conn} (hc : s.conn c = some x) (hb : x.blk = true)
    (hp : x.ph = .returned) : ∃ a, Got s a c :=
  (hr.inv .init).ret c x hc hb hp

/-- **C81.**  What an accept gets is a connect that was made to its path, and that connect has returned: no wake-up is lost. -/
theorem accepted_returned {s : St} (hr : Run init s) {a c : Nat} {y : Acc} (ha : s.acc a = some y)
    (hp : y.ph = .took c ∨ y.ph = .done c) : Returned s c y.path := by
  obtain ⟨x, h1, h2, h3⟩ := (hr.inv .init).got a y c ha hp
  exact ⟨x, h1, h2, h3⟩

/-- **C81.**  As long as a connect waits, nobody takes its name away: `unlink`, `rename` and the last `close` wait for it. -/
theorem name_kept {s : St} (hr : Run init s) {c : Nat} {p : Str} (hw : Waits s c p) :
    s.names p = true ∧ ∀ s', ¬ Step s (.forget p) s' := by
  obtain ⟨x, h1, h2, h3, h4⟩ := hw
  refine ⟨h2 ▸ (hr.inv .init).name c x h1 h4, fun s' hs => ?_⟩
  cases hs with
  | forget hn => exact hn ⟨c, x, h1, h2, h4⟩

/-- **C81.**  A sleeping connect whose entry is in its place is got, and wakes, at the next look of any accept at its path. -/
theorem next_accept {s s' : St} {a c : Nat} {x : Conn} {y : Acc} (hx : s.conn c = some x)
    (hs : x.ph = .asleep) (ht : s.table x.path = some c) (ha : s.acc a = some y) (hp : y.path = x.path)
    (hl : Step s (.look a) s') : Got s' a c ∧ Returned s' c x.path := by
  have same : ∀ {y'}, s.acc a = some y' → y' = y := fun h => by rw [ha] at h; exact (Option.some.inj h).symm
  cases hl with
  | lookNone ha' _ ht' => cases same ha'; rw [hp, ht] at ht'; cases ht'
  | lookAgain ha' _ ht' => cases same ha'; rw [hp, ht] at ht'; cases ht'
  | lookSpin ha' _ ht' hc' _ hi =>
    cases same ha'
    rw [hp, ht] at ht'; cases ht'
    rw [hx] at hc'; cases hc'
    rw [hs] at hi; cases hi
  | lookTake ha' _ ht' hc' =>
    cases same ha'
    rw [hp, ht] at ht'; cases ht'
    rw [hx] at hc'; cases hc'
    exact ⟨⟨_, updK_same _ _ _, .inl rfl⟩, _, updK_same _ _ _, rfl, rfl⟩

/-- **C81.**  A connect that waits and whose entry is no longer in the table waits for ever, whatever is done afterwards; and so does whoever
wants to remove the name. -/
theorem lost_for_ever {s s' : St} (hr : Run init s) {c : Nat} {p : Str} (hw : Waits s c p) (ht : s.table p ≠ some c)
    (h : Run s s') : Waits s' c p ∧ s'.table p ≠ some c ∧ ∀ s'', ¬ Step s' (.forget p) s'' := by
  suffices H : Waits s' c p ∧ s'.table p ≠ some c from ⟨H.1, H.2, (name_kept (hr.trans h) H.1).2⟩
  induction h with
  | refl => exact ⟨hw, ht⟩
  | @tail s1 e s2 h1 hs ih =>
    have hi := (hr.trans h1).inv .init
    obtain ⟨⟨x, g1, g2, g3, g4⟩, g5⟩ := ih
    cases hs with
    | bind => exact ⟨⟨x, g1, g2, g3, g4⟩, g5⟩
    | forget => exact ⟨⟨x, g1, g2, g3, g4⟩, g5⟩
    | refused => exact ⟨⟨x, g1, g2, g3, g4⟩, g5⟩
    | @connect d q blk hd =>
      have e : c ≠ d := by rintro rfl; rw [g1] at hd; cases hd
      refine ⟨⟨x, by simp only [updK_ne _ _ e]; exact g1, g2, g3, g4⟩, ?_⟩
      by_cases e' : p = q
      · subst e'
        simp only [updK_same]
        intro h; exact e (Option.some.inj h).symm
      · simp only [updK_ne _ _ e']; exact g5
    | @sleep d z hd hp =>
      refine ⟨?_, g5⟩
      by_cases e : c = d
      · subst e
        rw [g1] at hd; cases hd
        exact ⟨_, updK_same _ _ _, g2, g3, fun h => by cases h⟩
      · exact ⟨x, by simp only [updK_ne _ _ e]; exact g1, g2, g3, g4⟩
    | accept => exact ⟨⟨x, g1, g2, g3, g4⟩, g5⟩
    | lookNone => exact ⟨⟨x, g1, g2, g3, g4⟩, g5⟩
    | lookAgain => exact ⟨⟨x, g1, g2, g3, g4⟩, g5⟩
    | lookSpin => exact ⟨⟨x, g1, g2, g3, g4⟩, g5⟩
    | @lookTake a y d z ha hp htd hd =>
      have e : c ≠ d := by
        rintro rfl
        obtain ⟨w, k1, k2⟩ := hi.entry _ _ htd
        rw [g1] at k1; cases k1
        rw [← k2, g2] at htd
        exact g5 htd
      exact ⟨⟨x, by simp only [updK_ne _ _ e]; exact g1, g2, g3, g4⟩, g5⟩
    | @remove a y d ha hp =>
      refine ⟨⟨x, g1, g2, g3, g4⟩, ?_⟩
      by_cases e : p = y.path
      · subst e; simp only [updK_same]; intro h; cases h
      · simp only [updK_ne _ _ e]; exact g5

/-- **C81.**  No deadlock between the two: a connect that has put its entry in can always go to sleep, and an accept can always take its
next step. -/
theorem not_stuck {s : St} (hr : Run init s) :
    (∀ c x, s.conn c = some x → x.ph = .inserted → ∃ s', Step s (.sleep c) s') ∧
    (∀ a y, s.acc a = some y → y.ph = .looking → ∃ s', Step s (.look a) s') ∧
    (∀ a y c, s.acc a = some y → y.ph = .took c → ∃ s', Step s (.remove a) s') := by
  refine ⟨fun c x h1 h2 => ⟨_, .sleep h1 h2⟩, fun a y h1 h2 => ?_, fun a y c h1 h2 => ⟨_, .remove h1 h2⟩⟩
  cases ht : s.table y.path with
  | none =>
    cases hn : y.nb with
    | false => exact ⟨_, .lookNone h1 h2 ht hn⟩
    | true => exact ⟨_, .lookAgain h1 h2 ht hn⟩
  | some c =>
    obtain ⟨x, hx, -⟩ := (hr.inv .init).entry _ _ ht
    by_cases hb : x.blk = true ∧ x.ph = .inserted
    · exact ⟨_, .lookSpin h1 h2 ht hx hb.1 hb.2⟩
    · exact ⟨_, .lookTake h1 h2 ht hx hb⟩

/-! ## C81: what holds if the callers take turns -/

/-- Nobody connects to a path at which a connect waits to be accepted or an accept is about to remove the entry, and nobody looks at a
path while an accept is about to remove the entry there. -/
def Turn (s : St) : Ev → Prop
  | .connect _ p _ => s.table p = none ∧ ∀ a y c, s.acc a = some y → y.path = p → y.ph ≠ .took c
  | .look b => ∀ z, s.acc b = some z → ∀ a y c, s.acc a = some y → y.path = z.path → y.ph ≠ .took c
  | _ => True

/-- Runs in which the callers take turns. -/
inductive Orderly : St → Prop
  | init : Orderly init
  | step {s e s'} : Orderly s → Turn s e → Step s e s' → Orderly s'

theorem Orderly.run {s : St} (h : Orderly s) : Run Rendezvous.init s := by
  induction h with
  | init => exact .refl
  | step _ _ hs ih => exact .tail ih hs

/-- Each connect is in the table and not finished by any accept, or finished by exactly one. -/
structure OInv (s : St) : Prop where
  took : ∀ a y c, s.acc a = some y → y.ph = .took c → s.table y.path = some c
  done : ∀ a y c, s.acc a = some y → y.ph = .done c → s.table y.path ≠ some c
  uniq : ∀ a b c, Got s a c → Got s b c → a = b
  kept : ∀ c x, s.conn c = some x → s.table x.path = some c ∨ ∃ a, Got s a c

theorem Orderly.oinv {s : St} (h : Orderly s) : OInv s := by
  induction h with
  | init =>
    exact ⟨fun _ _ _ h => (by cases h), fun _ _ _ h => (by cases h), fun _ _ _ h => (by obtain ⟨y, h, -⟩ := h; cases h),
      fun _ _ h => (by cases h)⟩
  | @step s e s' hprev ht hs h =>
    have hi := hprev.run.inv .init
    cases hs with
    | bind => exact ⟨h.took, h.done, h.uniq, h.kept⟩
    | forget => exact ⟨h.took, h.done, h.uniq, h.kept⟩
    | refused => exact h
    | @connect c p blk hc hn =>
      obtain ⟨t1, t2⟩ := ht
      have other : ∀ a d, Got s a d → d ≠ c := by
        rintro a d ⟨y, g1, g2⟩ rfl
        obtain ⟨x, k1, -⟩ := hi.got a y d g1 g2
        rw [hc] at k1; cases k1
      refine ⟨fun a y d ha hp => ?_, fun a y d ha hp => ?_, h.uniq, fun d x hx => ?_⟩
      · have e : y.path ≠ p := fun e => t2 a y d ha e hp
        simp only [updK_ne _ _ e]; exact h.took a y d ha hp
      · have e' := other a d ⟨y, ha, .inr hp⟩
        by_cases e : y.path = p
        · simp only [e, updK_same]
          intro k; exact e' (Option.some.inj k).symm
        · simp only [updK_ne _ _ e]; exact h.done a y d ha hp
      · by_cases e : d = c
        · subst e
          simp only [updK_same, Option.some.injEq] at hx
          subst hx
          exact .inl (updK_same _ _ _)
        · simp only [updK_ne _ _ e] at hx
          rcases h.kept d x hx with g | g
          · have e' : x.path ≠ p := by intro e'; rw [e', t1] at g; cases g
            exact .inl (by simp only [updK_ne _ _ e']; exact g)
          · exact .inr g
    | @sleep c x hc hp =>
      refine ⟨h.took, h.done, h.uniq, fun d z hz => ?_⟩
      by_cases e : d = c
      · subst e
        simp only [updK_same, Option.some.injEq] at hz
        subst hz
        exact h.kept d x hc
      · simp only [updK_ne _ _ e] at hz
        exact h.kept d z hz
    | @accept a p nb ha =>
      have old : ∀ b d, Got { s with acc := updK s.acc a (some ⟨p, nb, .looking⟩) } b d ↔ Got s b d := by
        intro b d
        unfold Got
        by_cases e : b = a
        · subst e
          simp only [updK_same, ha]
          constructor
          · rintro ⟨y, k1, k2⟩
            cases k1
            rcases k2 with k2 | k2 <;> cases k2
          · rintro ⟨y, k1, -⟩; cases k1
        · simp only [updK_ne _ _ e]
      refine ⟨fun b y d hb hp => ?_, fun b y d hb hp => ?_, fun b b' d g1 g2 => h.uniq b b' d ((old _ _).1 g1) ((old _ _).1 g2),
        fun d x hx => ?_⟩
      · by_cases e : b = a
        · subst e
          simp only [updK_same, Option.some.injEq] at hb
          subst hb; cases hp
        · simp only [updK_ne _ _ e] at hb; exact h.took b y d hb hp
      · by_cases e : b = a
        · subst e
          simp only [updK_same, Option.some.injEq] at hb
          subst hb; cases hp
        · simp only [updK_ne _ _ e] at hb; exact h.done b y d hb hp
      · rcases h.kept d x hx with g | ⟨b, g⟩
        · exact .inl g
        · exact .inr ⟨b, (old _ _).2 g⟩
    | lookNone => exact h
    | @lookAgain a z ha hz =>
      have old : ∀ b d, Got { s with acc := updK s.acc a (some { z with ph := .again }) } b d ↔ Got s b d := by
        intro b d
        unfold Got
        by_cases e : b = a
        · subst e
          simp only [updK_same, ha]
          constructor
          · rintro ⟨y, k1, k2⟩
            cases k1
            rcases k2 with k2 | k2 <;> cases k2
          · rintro ⟨y, k1, k2⟩
            cases k1
            rw [hz] at k2
            rcases k2 with k2 | k2 <;> cases k2
        · simp only [updK_ne _ _ e]
      refine ⟨fun b y d hb hp => ?_, fun b y d hb hp => ?_, fun b b' d g1 g2 => h.uniq b b' d ((old _ _).1 g1) ((old _ _).1 g2),
        fun d x hx => ?_⟩
      · by_cases e : b = a
        · subst e
          simp only [updK_same, Option.some.injEq] at hb
          subst hb; cases hp
        · simp only [updK_ne _ _ e] at hb; exact h.took b y d hb hp
      · by_cases e : b = a
        · subst e
          simp only [updK_same, Option.some.injEq] at hb
          subst hb; cases hp
        · simp only [updK_ne _ _ e] at hb; exact h.done b y d hb hp
      · rcases h.kept d x hx with g | ⟨b, g⟩
        · exact .inl g
        · exact .inr ⟨b, (old _ _).2 g⟩
    | lookSpin => exact h
    | @lookTake a z c x ha hz htc hc hn =>
      have hxp : x.path = z.path := by
        obtain ⟨w, k1, k2⟩ := hi.entry _ _ htc
        rw [hc] at k1; cases k1
        exact k2
      -- nobody had got it
      have fresh : ∀ b, ¬ Got s b c := by
        rintro b ⟨y, k1, k2⟩
        have hyp : y.path = z.path := by
          obtain ⟨w, j1, j2, -⟩ := hi.got b y c k1 k2
          rw [hc] at j1; cases j1
          exact j2.symm.trans hxp
        rcases k2 with k2 | k2
        · exact ht z ha b y c k1 hyp k2
        · exact h.done b y c k1 k2 (by rw [hyp]; exact htc)
      have new : ∀ b d, Got { s with conn := updK s.conn c (some (woken x)), acc := updK s.acc a (some { z with ph := .took c }) } b d ↔
          (b = a ∧ d = c) ∨ Got s b d := by
        intro b d
        unfold Got
        by_cases e : b = a
        · subst e
          simp only [updK_same, ha, true_and]
          constructor
          · rintro ⟨y, k1, k2⟩
            cases k1
            rcases k2 with k2 | k2
            · exact .inl (APhase.took.inj k2).symm
            · cases k2
          · rintro (rfl | ⟨y, k1, k2⟩)
            · exact ⟨_, rfl, .inl rfl⟩
            · cases k1
              rw [hz] at k2
              rcases k2 with k2 | k2 <;> cases k2
        · simp only [updK_ne _ _ e, e, false_and, false_or]
      refine ⟨fun b y d hb hp => ?_, fun b y d hb hp => ?_, fun b b' d g1 g2 => ?_, fun d w hw => ?_⟩
      · by_cases e : b = a
        · subst e
          simp only [updK_same, Option.some.injEq] at hb
          subst hb
          cases hp
          exact htc
        · simp only [updK_ne _ _ e] at hb; exact h.took b y d hb hp
      · by_cases e : b = a
        · subst e
          simp only [updK_same, Option.some.injEq] at hb
          subst hb; cases hp
        · simp only [updK_ne _ _ e] at hb; exact h.done b y d hb hp
      · replace g1 := (new _ _).1 g1
        replace g2 := (new _ _).1 g2
        rcases g1 with ⟨e1, e2⟩ | g1
        · rcases g2 with ⟨e3, -⟩ | g2
          · rw [e1, e3]
          · exact absurd (e2 ▸ g2) (fresh _)
        · rcases g2 with ⟨e1, e2⟩ | g2
          · exact absurd (e2 ▸ g1) (fresh b)
          · exact h.uniq _ _ _ g1 g2
      · by_cases e : d = c
        · subst e
          exact .inr ⟨a, (new _ _).2 (.inl ⟨rfl, rfl⟩)⟩
        · simp only [updK_ne _ _ e] at hw
          rcases h.kept d w hw with g | ⟨b, g⟩
          · exact .inl g
          · exact .inr ⟨b, (new _ _).2 (.inr g)⟩
    | @remove a z c ha hz =>
      have htc := h.took a z c ha hz
      have old : ∀ b d, Got { s with table := updK s.table z.path none, acc := updK s.acc a (some { z with ph := .done c }) } b d ↔ Got s b d := by
        intro b d
        unfold Got
        by_cases e : b = a
        · subst e
          simp only [updK_same, ha]
          constructor
          · rintro ⟨y, k1, k2⟩
            cases k1
            rcases k2 with k2 | k2
            · cases k2
            · cases k2
              exact ⟨z, rfl, .inl hz⟩
          · rintro ⟨y, k1, k2⟩
            cases k1
            rw [hz] at k2
            rcases k2 with k2 | k2
            · cases k2; exact ⟨_, rfl, .inr rfl⟩
            · cases k2
        · simp only [updK_ne _ _ e]
      refine ⟨fun b y d hb hp => ?_, fun b y d hb hp => ?_, fun b b' d g1 g2 => h.uniq b b' d ((old _ _).1 g1) ((old _ _).1 g2),
        fun d x hx => ?_⟩
      · by_cases e : b = a
        · subst e
          simp only [updK_same, Option.some.injEq] at hb
          subst hb; cases hp
        · simp only [updK_ne _ _ e] at hb
          have g := h.took b y d hb hp
          have e' : y.path ≠ z.path := by
            intro e'
            rw [e', htc] at g
            cases g
            exact e (h.uniq b a c ⟨y, hb, .inl hp⟩ ⟨z, ha, .inl hz⟩)
          simp only [updK_ne _ _ e']; exact g
      · by_cases e : b = a
        · subst e
          simp only [updK_same, Option.some.injEq] at hb
          subst hb
          simp only [updK_same]
          intro k; cases k
        · simp only [updK_ne _ _ e] at hb
          by_cases e' : y.path = z.path
          · simp only [e', updK_same]; intro k; cases k
          · simp only [updK_ne _ _ e']; exact h.done b y d hb hp
      · rcases h.kept d x hx with g | ⟨b, g⟩
        · by_cases e' : x.path = z.path
          · rw [e', htc] at g
            cases g
            exact .inr ⟨a, (old _ _).2 ⟨z, ha, .inl hz⟩⟩
          · exact .inl (by simp only [updK_ne _ _ e']; exact g)
        · exact .inr ⟨b, (old _ _).2 g⟩

/-- **C81, partial.**  If the callers take turns, no two accepts get the same connection. -/
theorem one_accept_partial {s : St} (h : Orderly s) {a b c : Nat} (h1 : Got s a c) (h2 : Got s b c) : a = b :=
  h.oinv.uniq a b c h1 h2

/-- **C81, partial.**  If the callers take turns, no connection is lost: a connect that has not been got is in the table, where the next accept finds
it. -/
theorem none_lost_partial {s : St} (h : Orderly s) {c : Nat} {x : Conn} (hc : s.conn c = some x) :
    (∃ a, Got s a c) ∨ s.table x.path = some c := by
  rcases h.oinv.kept c x hc with g | g
  · exact .inr g
  · exact .inl g

/-- **C81, partial.**  If the callers take turns, blocking connects and the accepts that got them correspond one to one: a blocking
connect has returned exactly if exactly one accept has got it. -/
theorem paired_partial {s : St} (h : Orderly s) {c : Nat} {x : Conn} (hc : s.conn c = some x) (hb : x.blk = true) :
    x.ph = .returned ↔ ∃ a, Got s a c ∧ ∀ b, Got s b c → b = a := by
  constructor
  · intro hp
    obtain ⟨a, ha⟩ := returned_accepted h.run hc hb hp
    exact ⟨a, ha, fun b hb => h.oinv.uniq b a c hb ha⟩
  · rintro ⟨a, ⟨y, h1, h2⟩, -⟩
    obtain ⟨z, g1, -, g3⟩ := accepted_returned h.run h1 h2
    rw [hc] at g1; cases g1
    exact g3

/-! ## C81: what fails -/

def px : Str := [47, 115]

/-- One `bind`, a blocking connect that sleeps. -/
def sA : St :=
  { names := updK (fun _ => false) px true, table := updK (fun _ => none) px (some 1)
    conn := updK (updK (fun _ => none) 1 (some ⟨px, true, .inserted⟩)) 1 (some ⟨px, true, .asleep⟩), acc := fun _ => none }

theorem sA_orderly : Orderly sA :=
  .step (e := .sleep 1)
    (.step (e := .connect 1 px true) (.step (e := .bind px) .init (by trivial) .bind)
      ⟨rfl, fun _ _ _ h => (by cases h)⟩ (.connect rfl rfl))
    (by trivial) (.sleep (x := ⟨px, true, .inserted⟩) rfl rfl)

theorem Waits.of {s : St} {c : Nat} {p : Str} (h : s.conn c = some ⟨p, true, .asleep⟩) : Waits s c p :=
  ⟨_, h, rfl, rfl, fun h => by cases h⟩

/-- **C81 fails.**  A second connect to the same path takes the place of the first: the first waits for ever, whatever is
accepted afterwards, and so does whoever wants to remove the name. -/
theorem overwritten_violated :
    ∃ s, Run init s ∧ Waits s 1 px ∧ (∃ s', Run s s' ∧ ∃ a, Got s' a 2) ∧
      ∀ s', Run s s' → Waits s' 1 px ∧ ∀ s'', ¬ Step s' (.forget px) s'' := by
  have r1 := Run.tail sA_orderly.run (Step.connect (c := 2) (p := px) (blk := true) (by rfl) (by rfl))
  have r2 := Run.tail r1 (Step.sleep (c := 2) (x := ⟨px, true, .inserted⟩) (by rfl) (by rfl))
  refine ⟨_, r2, .of (by rfl), ?_, fun s' h => ?_⟩
  · exact ⟨_, .tail (.tail .refl (.accept (a := 0) (p := px) (nb := false) (by rfl)))
      (.lookTake (a := 0) (y := ⟨px, false, .looking⟩) (c := 2) (x := ⟨px, true, .asleep⟩) (by rfl) (by rfl) (by rfl) (by rfl)
        (by decide)),
      0, ⟨px, false, .took 2⟩, by rfl, .inl rfl⟩
  · have := lost_for_ever (c := 1) (p := px) r2 (.of (by rfl)) (by decide) h
    exact ⟨this.1, this.2.2⟩

/-- **C81 fails.**  A connect that comes between the last look of an accept and its removal of the entry loses its own entry: it
waits for ever, although the connect before it was accepted and had returned. -/
theorem removed_violated :
    ∃ s, Run init s ∧ Returned s 1 px ∧ s.acc 0 = some ⟨px, false, .done 1⟩ ∧ Waits s 2 px ∧
      ∀ s', Run s s' → Waits s' 2 px ∧ ∀ s'', ¬ Step s' (.forget px) s'' := by
  have r1 := Run.tail sA_orderly.run (Step.accept (a := 0) (p := px) (nb := false) (by rfl))
  have r2 := Run.tail r1 (Step.lookTake (a := 0) (y := ⟨px, false, .looking⟩) (c := 1) (x := ⟨px, true, .asleep⟩) (by rfl) (by rfl)
    (by rfl) (by rfl) (by decide))
  have r3 := Run.tail r2 (Step.connect (c := 2) (p := px) (blk := true) (by rfl) (by rfl))
  have r4 := Run.tail r3 (Step.remove (a := 0) (y := ⟨px, false, .took 1⟩) (c := 1) (by rfl) (by rfl))
  have r5 := Run.tail r4 (Step.sleep (c := 2) (x := ⟨px, true, .inserted⟩) (by rfl) (by rfl))
  refine ⟨_, r5, ⟨⟨px, true, .returned⟩, by rfl, by rfl, by rfl⟩, by rfl, .of (by rfl), fun s' h => ?_⟩
  have := lost_for_ever (c := 2) (p := px) r5 (.of (by rfl)) (by decide) h
  exact ⟨this.1, this.2.2⟩

/-- **C81 fails.**  Two accepts on one path, for example of two processes that share the listening socket, can get the same
connection: both return the other end of one connect. -/
theorem twice_accepted_violated :
    ∃ s, Run init s ∧ s.acc 0 = some ⟨px, false, .done 1⟩ ∧ s.acc 7 = some ⟨px, false, .done 1⟩ := by
  have r1 := Run.tail sA_orderly.run (Step.accept (a := 0) (p := px) (nb := false) (by rfl))
  have r2 := Run.tail r1 (Step.accept (a := 7) (p := px) (nb := false) (by rfl))
  have r3 := Run.tail r2 (Step.lookTake (a := 0) (y := ⟨px, false, .looking⟩) (c := 1) (x := ⟨px, true, .asleep⟩) (by rfl) (by rfl)
    (by rfl) (by rfl) (by decide))
  have r4 := Run.tail r3 (Step.lookTake (a := 7) (y := ⟨px, false, .looking⟩) (c := 1) (x := ⟨px, true, .returned⟩) (by rfl) (by rfl)
    (by rfl) (by rfl) (by decide))
  have r5 := Run.tail r4 (Step.remove (a := 0) (y := ⟨px, false, .took 1⟩) (c := 1) (by rfl) (by rfl))
  have r6 := Run.tail r5 (Step.remove (a := 7) (y := ⟨px, false, .took 1⟩) (c := 1) (by rfl) (by rfl))
  exact ⟨_, r6, by rfl, by rfl⟩

/-! ## Examples -/

/-- `returned_accepted`, `accepted_returned`, `paired_partial`: an orderly run in which a connect is accepted and returns. -/
example : ∃ s, Orderly s ∧ s.conn 1 = some ⟨px, true, .returned⟩ ∧ s.acc 0 = some ⟨px, false, .done 1⟩ ∧ s.table px = none := by
  have o1 : Orderly _ := .step (e := .accept 0 px false) sA_orderly (by trivial) (.accept rfl)
  have o2 : Orderly _ := .step (e := .look 0) o1 (by
      intro z hz a y c ha _ hp
      simp only [updK] at ha
      split at ha
      · cases ha; cases hp
      · cases ha)
    (.lookTake (y := ⟨px, false, .looking⟩) (c := 1) (x := ⟨px, true, .asleep⟩) rfl rfl rfl rfl (by decide))
  exact ⟨_, .step (e := .remove 0) o2 (by trivial) (.remove (y := ⟨px, false, .took 1⟩) (c := 1) rfl rfl), rfl, rfl, rfl⟩

/-- `next_accept`, `none_lost_partial`, `name_kept`: a connect that sleeps, with its entry in its place. -/
example : Orderly sA ∧ Waits sA 1 px ∧ sA.table px = some 1 := ⟨sA_orderly, ⟨_, rfl, rfl, rfl, by decide⟩, rfl⟩

end Verif.Rendezvous
