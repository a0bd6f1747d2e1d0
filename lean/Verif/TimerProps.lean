import Verif.Timer

/-!
# Interval timer properties: C52
-/

namespace Verif.Timer

/-! ## Specification: the ideal timer

An ideal timer is a deadline (if armed) and an interval.  A request with non-zero value arms it, a
request with value zero disarms it, an expiry re-arms it with the interval or, if that is zero,
disarms it.  The unit of a request is a parameter `ns`. -/

structure Ideal where
  deadline : Option Nat
  interval : Nat
  deriving DecidableEq, Repr

/-- Ideal reaction to an event; `ns` converts (seconds, microseconds) to nanoseconds. -/
def Ideal.next (ns : Nat → Nat → Nat) (i : Ideal) : Ev → Ideal
  | .set t v _ =>
    if ns v.value.1 v.value.2 = 0 then { i with deadline := none }
    else { deadline := some (t + ns v.value.1 v.value.2), interval := ns v.interval.1 v.interval.2 }
  | .fire t => { i with deadline := if i.interval = 0 then none else some (t + i.interval) }

/-- An event is legal: SIGALRM only if armed and the deadline has passed. -/
def Ideal.legal (i : Ideal) : Ev → Prop
  | .set .. => True
  | .fire t => ∃ d, i.deadline = some d ∧ d ≤ t

/-- Every event of a trace is legal when it happens. -/
def Legal (ns : Nat → Nat → Nat) : Ideal → List Ev → Prop
  | _, [] => True
  | i, e :: es => i.legal e ∧ Legal ns (i.next ns e) es

def Ideal.run (ns : Nat → Nat → Nat) : Ideal → List Ev → Ideal
  | i, [] => i
  | i, e :: es => Ideal.run ns (i.next ns e) es

/-- POSIX: microseconds are microseconds. -/
def posixNs (sec usec : Nat) : Nat := sec * 1000000000 + usec * 1000

/-! ## Lemmas -/

/-- The implementation state represents the ideal one. -/
structure Rel (s : State) (i : Ideal) : Prop where
  armed : s.ticking = true → i.deadline = some (s.start + s.curr) ∧ i.interval = s.next
  disarmed : s.ticking = false → i.deadline = none
  past : s.start ≤ s.now
  alive : s.ticking = true → 0 < s.threads

theorem rel_init : Rel State.init { deadline := none, interval := 0 } :=
  ⟨by simp [State.init], by simp, by simp [State.init], by simp [State.init]⟩

theorem rel_step (s : State) (i : Ideal) (a : Act) (h : Rel s i) :
    Legal durationOf i (step s a).2 ∧ Rel (step s a).1 (Ideal.run durationOf i (step s a).2) := by
  obtain ⟨h1, h2, h3, h4⟩ := h
  cases a with
  | advance d =>
    refine ⟨trivial, ⟨h1, h2, ?_, h4⟩⟩
    simp only [step]; omega
  | set v =>
    refine ⟨⟨trivial, trivial⟩, ?_⟩
    simp only [step, setitimerCall, setItimer, Ideal.run, Ideal.next]
    split
    · exact ⟨by simp, by simp, h3, by simp⟩
    · split
      · rename_i ht; exact ⟨by simp, by simp_all, by simp, by simpa using h4⟩
      · exact ⟨by simp, by simp, by simp, by simp⟩
  | tick =>
    simp only [step, tick]
    split
    · exact ⟨trivial, ⟨h1, h2, h3, h4⟩⟩
    · split
      · rename_i ht
        obtain ⟨hd, hi⟩ := h1 ht
        split
        · refine ⟨⟨⟨_, hd, by omega⟩, trivial⟩, ?_⟩
          simp only [if_true, Ideal.run, Ideal.next, setItimer]
          split
          · rename_i hz
            exact ⟨by simp, by simp [hi, hz], h3, by simp⟩
          · rename_i hz
            exact ⟨by simp [hi, hz], by simp [ht], by simp, by simpa using h4⟩
        · exact ⟨trivial, ⟨h1, h2, h3, h4⟩⟩
      · rename_i ht
        exact ⟨trivial, ⟨by simp [ht], by simpa [Ideal.run] using h2, h3, by simp [ht]⟩⟩

theorem legal_append (ns) (es fs : List Ev) : ∀ i, Legal ns i (es ++ fs) ↔
    Legal ns i es ∧ Legal ns (Ideal.run ns i es) fs := by
  induction es with
  | nil => intro i; simp [Legal, Ideal.run]
  | cons e es ih => intro i; simp [Legal, Ideal.run, ih, and_assoc]

theorem run_append (ns) (es fs : List Ev) : ∀ i, Ideal.run ns i (es ++ fs) =
    Ideal.run ns (Ideal.run ns i es) fs := by
  induction es with
  | nil => intro i; rfl
  | cons e es ih => intro i; simp [Ideal.run, ih]

theorem rel_run (as : List Act) : ∀ (s : State) (i : Ideal), Rel s i →
    Legal durationOf i (run s as).2 ∧ Rel (run s as).1 (Ideal.run durationOf i (run s as).2) := by
  induction as with
  | nil => intro s i h; exact ⟨trivial, h⟩
  | cons a as ih =>
    intro s i h
    obtain ⟨h1, h2⟩ := rel_step s i a h
    obtain ⟨h3, h4⟩ := ih _ _ h2
    simp only [run]
    exact ⟨(legal_append _ _ _ _).2 ⟨h1, h3⟩, by rw [run_append]; exact h4⟩

/-! ## C52 -/

/-- The never-armed ideal timer. -/
def Ideal.init : Ideal := { deadline := none, interval := 0 }

/-- C52, safety, in the unit the code uses (`durationOf`).  In every history of requests,
passing time and tick-thread passes, each SIGALRM comes when the ideal timer is armed and
its deadline has passed: never early, never twice for a one-shot, never after a disarm. -/
theorem timer_legal_partial (as : List Act) : Legal durationOf Ideal.init (run State.init as).2 :=
  (rel_run as _ _ rel_init).1

/-- C52, progress.  Whenever the ideal timer is armed, a tick thread exists, and a pass of it sends
SIGALRM exactly when the deadline has passed. -/
theorem timer_progress (as : List Act) (d : Nat)
    (h : (Ideal.run durationOf Ideal.init (run State.init as).2).deadline = some d) :
    0 < (run State.init as).1.threads ∧
    ((step (run State.init as).1 .tick).2 =
      if d ≤ (run State.init as).1.now then [.fire (run State.init as).1.now] else []) := by
  have hr := (rel_run as _ _ rel_init).2
  generalize (run State.init as).1 = s at *
  have ht : s.ticking = true := by
    cases hs : s.ticking with
    | true => rfl
    | false =>
      have := hr.disarmed hs
      rw [show Ideal.init = { deadline := none, interval := 0 } from rfl] at h
      rw [this] at h; simp at h
  have ha := hr.armed ht
  rw [show Ideal.init = { deadline := none, interval := 0 } from rfl] at h
  rw [ha.1] at h
  have hp := hr.past
  have hth := hr.alive ht
  refine ⟨hth, ?_⟩
  have hne : s.threads ≠ 0 := by omega
  simp only [step, tick, hne, if_false, ht, if_true]
  have hd : s.start + s.curr = d := by simpa using h
  by_cases hn : d ≤ s.now
  · have : s.curr - (s.now - s.start) = 0 := by omega
    simp [this, hn]
  · have : ¬ s.curr - (s.now - s.start) = 0 := by omega
    simp [this, hn]

/-- C52.  A one-shot timer fires at most once: after an expiry with interval zero no
SIGALRM comes before the next request. -/
theorem one_shot_once (as : List Act) (pre mid : List Ev) (t u : Nat) (post : List Ev)
    (h : (run State.init as).2 = pre ++ .fire t :: (mid ++ .fire u :: post))
    (hm : ∀ e ∈ mid, ∃ w, e = .fire w) :
    (Ideal.run durationOf Ideal.init pre).interval ≠ 0 := by
  have hl := timer_legal_partial as
  rw [h, legal_append] at hl
  obtain ⟨_, hl⟩ := hl
  obtain ⟨_, hl⟩ := hl
  intro hz
  have hd : ((Ideal.run durationOf Ideal.init pre).next durationOf (.fire t)).deadline = none := by
    simp [Ideal.next, hz]
  generalize ((Ideal.run durationOf Ideal.init pre).next durationOf (.fire t)) = i at *
  cases mid with
  | nil => obtain ⟨⟨d, h1, _⟩, _⟩ := hl; rw [hd] at h1; cases h1
  | cons e mid =>
    obtain ⟨w, rfl⟩ := hm e (by simp)
    obtain ⟨⟨d, h1, _⟩, _⟩ := hl; rw [hd] at h1; cases h1

/-- C52.  Consecutive expiries are at least the interval apart. -/
theorem periodic_spacing (as : List Act) (pre : List Ev) (t u : Nat) (post : List Ev)
    (h : (run State.init as).2 = pre ++ .fire t :: .fire u :: post) :
    t + (Ideal.run durationOf Ideal.init pre).interval ≤ u := by
  have hl := timer_legal_partial as
  rw [h, legal_append] at hl
  obtain ⟨_, _, ⟨d, h1, h2⟩, _⟩ := hl
  simp only [Ideal.next] at h1
  split at h1
  · cases h1
  · simp only [Option.some.injEq] at h1; omega

/-- C52.  After a request with value zero the timer does not fire before the next request. -/
theorem disarm_silent (as : List Act) (pre : List Ev) (t u : Nat) (v old : ITimerVal)
    (post : List Ev) (hv : v.value = (0, 0))
    (h : (run State.init as).2 = pre ++ .set t v old :: .fire u :: post) : False := by
  have hl := timer_legal_partial as
  rw [h, legal_append] at hl
  obtain ⟨_, _, ⟨d, h1, _⟩, _⟩ := hl
  simp [Ideal.next, hv, durationOf] at h1

/-- C52, unit.  The code takes microseconds for nanoseconds; for requests in whole seconds the
unit is right, so there the timer is the POSIX one. -/
theorem whole_seconds_unit (sec : Nat) : durationOf sec 0 = posixNs sec 0 := by
  simp [durationOf, posixNs]

/-- C52 fails: a timer set to half a second (500000 µs) fires after half a millisecond. -/
theorem unit_violated :
    ¬ Legal posixNs Ideal.init
      (run State.init [.set ⟨(0, 500000), (0, 0)⟩, .advance 500000, .tick]).2 := by
  have : (run State.init [.set ⟨(0, 500000), (0, 0)⟩, .advance 500000, .tick]).2 =
      [.set 0 ⟨(0, 500000), (0, 0)⟩ ⟨(0, 0), (0, 0)⟩, .fire 500000] := by
      simp [run, step, tick, setitimerCall, setItimer, durationOf, reportOf, State.init]
  rw [this]
  simp [Legal, Ideal.legal, Ideal.next, posixNs]

/-- C52 fails: after an expired one-shot timer of 5 s, the next call reports 5 s left. -/
theorem report_violated :
    (run State.init [.set ⟨(5, 0), (0, 0)⟩, .advance 5000000000, .tick, .set ⟨(0, 0), (0, 0)⟩]).2 =
      [.set 0 ⟨(5, 0), (0, 0)⟩ ⟨(0, 0), (0, 0)⟩, .fire 5000000000,
       .set 5000000000 ⟨(0, 0), (0, 0)⟩ ⟨(5, 0), (0, 0)⟩] := by
      simp [run, step, tick, setitimerCall, setItimer, durationOf, reportOf, State.init]

theorem report_duration (sec : Nat) : reportOf (durationOf sec 0) = (sec, 0) := by
  unfold reportOf durationOf
  rw [Nat.zero_mod, Nat.add_zero, Nat.mul_div_cancel _ (by decide), Nat.mul_mod_left]

theorem durationOf_pos (sec : Nat) (h : 0 < sec) : 0 < durationOf sec 0 := by
  unfold durationOf
  exact Nat.lt_of_lt_of_le (Nat.mul_pos h (by decide)) (Nat.le_add_right _ _)

theorem setItimer_stored (s : State) (c n : Nat) (h : 0 < c) :
    (setItimer s c n).curr = c ∧ (setItimer s c n).next = n := by
  have : c ≠ 0 := by omega
  simp only [setItimer, if_neg this]
  split <;> exact ⟨rfl, rfl⟩

/-- C52, report.  A timer armed for whole seconds is reported with the setting of the last
arming, whatever time has passed (POSIX wants the time left). -/
theorem report_partial (s : State) (v w : ITimerVal) (h : 0 < v.value.1) (hv : v.value.2 = 0)
    (hi : v.interval.2 = 0) :
    (setitimerCall (setitimerCall s v).1 w).2 = v := by
  obtain ⟨⟨vs, vu⟩, ⟨is, iu⟩⟩ := v
  simp only at hv hi h
  subst hv hi
  have h1 := setItimer_stored s (durationOf vs 0) (durationOf is 0) (durationOf_pos vs h)
  unfold setitimerCall
  rw [h1.1, h1.2, report_duration, report_duration]

theorem report_fraction (sec usec : Nat) (h : usec < 1000000) : reportOf (durationOf sec usec) = (sec, 0) := by
  unfold reportOf durationOf
  rw [Nat.mod_eq_of_lt (show usec < 4294967296 by omega)]
  have h1 : (sec * 1000000000 + usec) / 1000000000 = sec := by omega
  have h2 : (sec * 1000000000 + usec) % 1000000000 / 1000000 = 0 := by omega
  rw [h1, h2]

/-- C52 fails: whatever fraction of a second a timer was armed with, value or interval, the next call reports none: the microseconds
were kept as nanoseconds, and are reported as milliseconds. -/
theorem report_fraction_violated (s : State) (v w : ITimerVal) (hv : v.value.2 < 1000000) (hi : v.interval.2 < 1000000)
    (h : v.value ≠ (0, 0)) :
    (setitimerCall (setitimerCall s v).1 w).2 = ⟨(v.value.1, 0), (v.interval.1, 0)⟩ := by
  obtain ⟨⟨vs, vu⟩, ⟨is, iu⟩⟩ := v
  simp only at hv hi h
  have hpos : 0 < durationOf vs vu := by
    unfold durationOf
    rw [Nat.mod_eq_of_lt (show vu < 4294967296 by omega)]
    rcases Nat.eq_zero_or_pos vs with h0 | h0
    · rcases Nat.eq_zero_or_pos vu with h1 | h1
      · subst h0; subst h1; exact absurd rfl h
      · omega
    · omega
  have h1 := setItimer_stored s (durationOf vs vu) (durationOf is iu) hpos
  unfold setitimerCall
  rw [h1.1, h1.2, report_fraction vs vu hv, report_fraction is iu hi]

example : (setitimerCall (setitimerCall State.init ⟨(1, 500000), (0, 250000)⟩).1 ⟨(0, 0), (0, 0)⟩).2 = ⟨(1, 0), (0, 0)⟩ :=
  report_fraction_violated _ ⟨(1, 500000), (0, 250000)⟩ _ (by decide) (by decide) (by decide)

example : (run State.init [.set ⟨(1, 0), (2, 0)⟩, .advance 1000000000, .tick, .tick,
    .advance 2000000000, .tick]).2 =
    [.set 0 ⟨(1, 0), (2, 0)⟩ ⟨(0, 0), (0, 0)⟩, .fire 1000000000, .fire 3000000000] := by
      simp [run, step, tick, setitimerCall, setItimer, durationOf, reportOf, State.init]

end Verif.Timer
