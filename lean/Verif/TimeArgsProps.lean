import Verif.TimeArgs
import Verif.DispatchProps

/-! # Properties of times given by callers (C85) -/

namespace Verif.TimeArgs

/-! ## Specification -/

/-- Nanoseconds meant by a `struct timeval` (seconds and microseconds). -/
def timevalNs (p : Pair) : Int := p.sec.toInt * 1000000000 + p.frac.toInt * 1000

/-- Nanoseconds meant by a `struct timespec` (seconds and nanoseconds). -/
def timespecNs (p : Pair) : Int := p.sec.toInt * 1000000000 + p.frac.toInt

/-- A proper duration: less than a second in the nanoseconds. -/
def Proper (d : Dur) : Prop := d.secs < 2 ^ 64 ∧ d.nanos < 1000000000

/-! ## Lemmas -/

theorem toInt_cases (x : BitVec 64) :
    (x.toNat < 2 ^ 63 ∧ x.toInt = x.toNat)
    ∨ (2 ^ 63 ≤ x.toNat ∧ x.toNat < 2 ^ 64 ∧ x.toInt = x.toNat - 2 ^ 64) := by
  have h := x.isLt
  rw [BitVec.toInt_eq_toNat_cond]
  split
  · exact .inl ⟨by omega, rfl⟩
  · exact .inr ⟨by omega, h, by simp⟩

theorem newDur_small {secs nanos : Nat} (h1 : secs < 2 ^ 64 - 5) (h2 : nanos < 2 ^ 32) :
    ∃ d, newDur secs nanos = .ok d ∧ Proper d ∧ d.ns = secs * 1000000000 + nanos := by
  simp only [newDur]
  split
  · exact ⟨_, rfl, ⟨by dsimp only; omega, by assumption⟩, rfl⟩
  · rw [if_pos (by omega)]
    refine ⟨_, rfl, ⟨by dsimp only; omega, by dsimp only; omega⟩, ?_⟩
    simp only [Dur.ns]
    omega

/-- Whenever `Duration::new` answers, it keeps the total. -/
theorem newDur_ns {secs nanos : Nat} (hs : secs < 2 ^ 64) {d : Dur}
    (h : newDur secs nanos = .ok d) : Proper d ∧ d.ns = secs * 1000000000 + nanos := by
  simp only [newDur] at h
  split at h
  · cases h; exact ⟨⟨hs, by assumption⟩, rfl⟩
  · split at h
    · cases h
      refine ⟨⟨by assumption, by dsimp only; omega⟩, ?_⟩
      simp only [Dur.ns]
      omega
    · cases h

theorem mul_small {c : Bool} {a b : Nat} (h : a * b < 2 ^ 32) : mulU32 c a b = .ok (a * b) := by
  unfold mulU32; exact if_pos h

theorem mul_big {a b : Nat} (h : 2 ^ 32 ≤ a * b) : mulU32 true a b = .panic := by
  unfold mulU32; rw [if_neg (Nat.not_lt.mpr h)]; rfl

theorem mul_ok {c : Bool} {a b n : Nat} (h : mulU32 c a b = .ok n) : n = a * b % 2 ^ 32 := by
  unfold mulU32 at h
  split at h
  · cases h; rw [Nat.mod_eq_of_lt (by assumption)]
  · split at h <;> cases h
    rfl

theorem mul_err {c : Bool} {a b : Nat} {e : Errno} : mulU32 c a b ≠ .err e := by
  unfold mulU32
  split
  · exact fun h => nomatch h
  · split <;> exact fun h => nomatch h

theorem newDur_err {a b : Nat} {e : Errno} : newDur a b ≠ .err e := by
  unfold newDur
  split
  · exact fun h => nomatch h
  · split <;> exact fun h => nomatch h

theorem fromTimeval_ok {c : Bool} {p : Pair} {d : Dur} :
    fromTimeval c (some p) = .ok (some d) ↔
      ∃ ns, mulU32 c (asU32 p.frac) 1000 = .ok ns ∧ newDur (asU64 p.sec) ns = .ok d := by
  unfold fromTimeval
  dsimp only
  generalize mulU32 c (asU32 p.frac) 1000 = m
  cases m with
  | ok ns =>
    dsimp only
    cases hn : newDur (asU64 p.sec) ns with
    | ok d' =>
      constructor
      · intro h; cases h; exact ⟨ns, rfl, hn⟩
      · rintro ⟨_, h1, h2⟩; cases h1; rw [hn] at h2; cases h2; rfl
    | err e =>
      constructor
      · intro h; cases h
      · rintro ⟨_, h1, h2⟩; cases h1; rw [hn] at h2; cases h2
    | panic =>
      constructor
      · intro h; cases h
      · rintro ⟨_, h1, h2⟩; cases h1; rw [hn] at h2; cases h2
  | err e => exact ⟨fun h => (nomatch h), fun ⟨_, h, _⟩ => (nomatch h)⟩
  | panic => exact ⟨fun h => (nomatch h), fun ⟨_, h, _⟩ => (nomatch h)⟩

theorem fromTimespec_in {c : Bool} {p : Pair}
    (h : ¬ (p.frac.toInt < 0 ∨ p.frac.toInt ≥ 1000000000)) :
    (∀ d, fromTimespec c (some p) = .ok d ↔
      ∃ ns, mulU32 c (asU32 p.frac) 1000000000 = .ok ns ∧ newDur (asU64 p.sec) ns = .ok d)
    ∧ (∀ e, fromTimespec c (some p) ≠ .err e)
    ∧ (mulU32 c (asU32 p.frac) 1000000000 = .panic → fromTimespec c (some p) = .panic) := by
  unfold fromTimespec
  dsimp only
  rw [if_neg h]
  have hne : ∀ e, mulU32 c (asU32 p.frac) 1000000000 ≠ .err e := fun e => mul_err
  revert hne
  generalize mulU32 c (asU32 p.frac) 1000000000 = m
  intro hne
  cases m with
  | ok ns =>
    refine ⟨fun d => ⟨fun h => ⟨ns, rfl, h⟩, ?_⟩, fun e => newDur_err, fun h => (nomatch h)⟩
    rintro ⟨_, h1, h2⟩; cases h1; exact h2
  | err e => exact absurd rfl (hne e)
  | panic =>
    exact ⟨fun d => ⟨fun h => (nomatch h), fun ⟨_, h, _⟩ => (nomatch h)⟩, fun e h => (nomatch h),
      fun _ => rfl⟩

theorem fromTimespec_out {c : Bool} {p : Pair}
    (h : p.frac.toInt < 0 ∨ p.frac.toInt ≥ 1000000000) :
    fromTimespec c (some p) = .err .EINVAL := by
  unfold fromTimespec
  dsimp only
  exact if_pos h

theorem newDur_zero (n : Nat) : newDur n 0 = .ok ⟨n, 0⟩ := by
  unfold newDur; exact if_pos (by decide)

/-- Multiplying by 10^9 in 32 bits keeps no number but zero. -/
theorem mul_keeps {n : Nat} (h : n * 1000000000 % 2 ^ 32 = n) : n = 0 := by
  have hlt : n < 2 ^ 32 := by rw [← h]; exact Nat.mod_lt _ (by decide)
  have hd : 2 ^ 32 ∣ n * 999999999 := by
    have h1 := Nat.div_add_mod (n * 1000000000) (2 ^ 32)
    rw [h] at h1
    refine ⟨n * 1000000000 / 2 ^ 32, ?_⟩
    have h2 : n * 999999999 + n = n * 1000000000 := by
      have := Nat.mul_add n 999999999 1
      rw [Nat.mul_one] at this
      exact this.symm
    exact Nat.add_right_cancel (h2.trans h1.symm)
  have hc : Nat.Coprime (2 ^ 32) 999999999 := by decide +kernel
  have h2 := hc.dvd_of_dvd_mul_right hd
  exact Nat.eq_zero_of_dvd_of_lt h2 hlt

/-! ## `select` -/

/-- The timeout of `select` is taken as exactly the time meant, in every build, if and only if it
is not negative and the microseconds are below 4294968; a null pointer means to wait for ever. -/
theorem select_timeout_exact (checks : Bool) (p : Pair) :
    fromTimeval checks none = .ok none
    ∧ ((∃ d, fromTimeval checks (some p) = .ok (some d) ∧ Proper d ∧ (d.ns : Int) = timevalNs p)
        ↔ 0 ≤ p.sec.toInt ∧ 0 ≤ p.frac.toInt ∧ p.frac.toInt < 4294968) := by
  refine ⟨rfl, ?_, ?_⟩
  · rintro ⟨d, hd, hp, hns⟩
    obtain ⟨ns, hm, hnew⟩ := fromTimeval_ok.mp hd
    have hs := toInt_cases p.sec
    have hf := toInt_cases p.frac
    have hm' : ns < 2 ^ 32 := by rw [mul_ok hm]; exact Nat.mod_lt _ (by decide)
    have hdn := (newDur_ns p.sec.isLt hnew).2
    rw [hdn] at hns
    simp only [timevalNs] at hns
    clear hm hnew hdn hd
    omega
  · rintro ⟨h1, h2, h3⟩
    have hs := toInt_cases p.sec
    have hf := toInt_cases p.frac
    have hu : asU32 p.frac * 1000 < 2 ^ 32 := by unfold asU32; omega
    obtain ⟨d, hd, hp, hn⟩ := newDur_small (secs := asU64 p.sec)
      (nanos := asU32 p.frac * 1000) (by unfold asU64; omega) hu
    refine ⟨d, fromTimeval_ok.mpr ⟨_, mul_small hu, hd⟩, hp, ?_⟩
    rw [hn]
    simp only [timevalNs]
    unfold asU32 asU64
    omega

/-- Every well-formed timeout of `select` is honoured exactly. -/
theorem select_timeout_partial (checks : Bool) (p : Pair) (hs : 0 ≤ p.sec.toInt)
    (hf : 0 ≤ p.frac.toInt ∧ p.frac.toInt < 1000000) :
    ∃ d, fromTimeval checks (some p) = .ok (some d) ∧ Proper d ∧ (d.ns : Int) = timevalNs p :=
  (select_timeout_exact checks p).2.mpr ⟨hs, hf.1, by omega⟩

/-- A negative timeout of `select` is not refused (EINVAL): `duration_fromtimeval`
(src/interface/types.rs 707-718) checks nothing, and the cast to unsigned makes it a wait of more
than 2^63 seconds. -/
theorem select_negative_violated (checks : Bool) (p : Pair) (hs : p.sec.toInt < 0)
    (hf : p.frac.toInt = 0) :
    ∃ d, fromTimeval checks (some p) = .ok (some d) ∧ 2 ^ 63 ≤ d.secs := by
  have hs' := toInt_cases p.sec
  have hf' := toInt_cases p.frac
  have h0 : p.frac.toNat = 0 := by omega
  have e : asU32 p.frac * 1000 = 0 := by unfold asU32; rw [h0]
  refine ⟨⟨p.sec.toNat, 0⟩, fromTimeval_ok.mpr ⟨0, ?_, newDur_zero _⟩, by dsimp only; omega⟩
  rw [mul_small (by rw [e]; decide), e]

/-- A large number of microseconds in the timeout of `select` stops the whole program in a debug
build and becomes less than a millisecond in a release build: it is multiplied by 1000 in 32 bits
(src/interface/types.rs 713).  Here 4.294968 seconds. -/
theorem select_overflow_violated :
    fromTimeval true (some ⟨0, 4294968⟩) = .panic
    ∧ fromTimeval false (some ⟨0, 4294968⟩) = .ok (some ⟨0, 704⟩)
    ∧ timevalNs ⟨0, 4294968⟩ = 4294968000 := by
  decide +kernel

/-- In a build with overflow checks, which timeouts of `select` stop the whole program: with seconds from 0 up, exactly those whose
microseconds, cut to 32 bits, are 4294968 or more. -/
theorem select_abort_exact (p : Pair) (hs : 0 ≤ p.sec.toInt) :
    fromTimeval true (some p) = .panic ↔ 4294968 ≤ p.frac.toNat % 4294967296 := by
  have hs' := toInt_cases p.sec
  by_cases hb : asU32 p.frac * 1000 < 2 ^ 32
  · obtain ⟨d, hd, -⟩ := newDur_small (secs := asU64 p.sec) (nanos := asU32 p.frac * 1000) (by unfold asU64; omega) hb
    rw [fromTimeval_ok.mpr ⟨_, mul_small hb, hd⟩]
    refine ⟨fun h => (nomatch h), fun h => ?_⟩
    unfold asU32 at hb
    omega
  · have hp : fromTimeval true (some p) = .panic := by
      unfold fromTimeval
      dsimp only
      rw [mul_big (Nat.not_lt.mp hb)]
    refine ⟨fun _ => ?_, fun _ => hp⟩
    unfold asU32 at hb
    omega

/-! ## `poll` and `epoll_wait` -/

/-- The timeout of `poll` and `epoll_wait`: a number of milliseconds from 0 up is taken exactly, a
negative number means to wait for ever, anything that is not a 32-bit number is refused. -/
theorem poll_timeout_exact (a : BitVec 64) :
    (a.toNat < 2 ^ 31 → ∃ d, fromMillis a = .ok (some d) ∧ Proper d ∧ d.ns = a.toNat * 1000000)
    ∧ (2 ^ 31 ≤ a.toNat → a.toNat < 2 ^ 32 → fromMillis a = .ok none)
    ∧ (2 ^ 32 ≤ a.toNat → fromMillis a = .err .EINVAL) := by
  have hm := Dispatch.mask_zero_iff a
  have hv : (a.setWidth 32).toNat = a.toNat % 2 ^ 32 := by simp
  have hi : (a.setWidth 32).toInt
      = if 2 * (a.toNat % 2 ^ 32) < 2 ^ 32 then ((a.toNat % 2 ^ 32 : Nat) : Int)
        else ((a.toNat % 2 ^ 32 : Nat) : Int) - 2 ^ 32 := by
    rw [BitVec.toInt_eq_toNat_cond, hv]
    rfl
  refine ⟨fun h => ?_, fun h1 h2 => ?_, fun h => ?_⟩
  · have e : Dispatch.getInt a = .ok (.i32 (a.setWidth 32)) := by
      simp only [Dispatch.getInt]; rw [if_pos (hm.mpr (by omega))]
    have e2 : (a.setWidth 32).toInt = (a.toNat : Int) := by
      rw [hi, if_pos (by omega)]; congr 1; omega
    refine ⟨⟨a.toNat / 1000, a.toNat % 1000 * 1000000⟩, ?_, ⟨by dsimp only; omega,
      by dsimp only; omega⟩, ?_⟩
    · simp only [fromMillis, e, e2]
      rw [if_pos (by omega)]
      rfl
    · simp only [Dur.ns]; omega
  · have e : Dispatch.getInt a = .ok (.i32 (a.setWidth 32)) := by
      simp only [Dispatch.getInt]; rw [if_pos (hm.mpr (by omega))]
    have e2 : (a.setWidth 32).toInt < 0 := by
      rw [hi, if_neg (by omega)]; omega
    simp only [fromMillis, e]
    rw [if_neg (by omega)]
  · have e : Dispatch.getInt a = .error .EINVAL := by
      simp only [Dispatch.getInt]; rw [if_neg (fun hh => by have := hm.mp hh; omega)]
    simp only [fromMillis, e]

/-! ## `cond_timedwait` and `sem_timedwait` -/

/-- A missing time is refused with EFAULT and a number of nanoseconds out of range with EINVAL;
any other time is not refused. -/
theorem timespec_refused (checks : Bool) (p : Pair) :
    fromTimespec checks none = .err .EFAULT
    ∧ (∀ e, fromTimespec checks (some p) = .err e
        ↔ e = .EINVAL ∧ (p.frac.toInt < 0 ∨ 1000000000 ≤ p.frac.toInt)) := by
  refine ⟨rfl, fun e => ?_⟩
  by_cases h : p.frac.toInt < 0 ∨ p.frac.toInt ≥ 1000000000
  · rw [fromTimespec_out h]
    constructor
    · intro he; cases he; exact ⟨rfl, h⟩
    · rintro ⟨rfl, _⟩; rfl
  · constructor
    · intro he; exact absurd he ((fromTimespec_in h).2.1 e)
    · rintro ⟨_, hh⟩; exact absurd hh h

/-- A time of whole seconds is taken exactly. -/
theorem timespec_whole_partial (checks : Bool) (p : Pair) (hs : 0 ≤ p.sec.toInt)
    (hf : p.frac.toInt = 0) :
    ∃ d, fromTimespec checks (some p) = .ok d ∧ Proper d ∧ (d.ns : Int) = timespecNs p := by
  have hs' := toInt_cases p.sec
  have hf' := toInt_cases p.frac
  have h0 : p.frac.toNat = 0 := by omega
  have e : asU32 p.frac * 1000000000 = 0 := by unfold asU32; rw [h0]
  refine ⟨⟨p.sec.toNat, 0⟩, ((fromTimespec_in (by omega)).1 _).mpr ⟨0, ?_, newDur_zero _⟩,
    ⟨by dsimp only; omega, by dsimp only; omega⟩, ?_⟩
  · rw [mul_small (by rw [e]; decide), e]
  · simp only [Dur.ns, timespecNs]; omega

/-- What a well-formed time with a fraction of a second gives when it gives anything. -/
theorem timespec_value {checks : Bool} {p : Pair} {d : Dur}
    (h : fromTimespec checks (some p) = .ok d) :
    0 ≤ p.frac.toInt ∧ p.frac.toInt < 1000000000 ∧ Proper d
      ∧ d.ns = p.sec.toNat * 1000000000 + p.frac.toNat * 1000000000 % 2 ^ 32 := by
  have hf' := toInt_cases p.frac
  by_cases hr : p.frac.toInt < 0 ∨ p.frac.toInt ≥ 1000000000
  · rw [fromTimespec_out hr] at h; cases h
  · obtain ⟨ns, hm, hn⟩ := ((fromTimespec_in hr).1 d).mp h
    have h1 := mul_ok hm
    have h2 := newDur_ns p.sec.isLt hn
    have hlow : asU32 p.frac = p.frac.toNat := by unfold asU32; omega
    rw [hlow] at h1
    refine ⟨by omega, by omega, h2.1, ?_⟩
    rw [h2.2, h1]

/-- No time with a fraction of a second is ever taken for what it means by `cond_timedwait` and
`sem_timedwait`: the nanoseconds are multiplied by 10^9
(src/interface/types.rs 750-753), in 32 bits.  This holds in every build and for every fraction. -/
theorem timespec_fraction_violated (checks : Bool) (p : Pair)
    (hf : 0 < p.frac.toInt ∧ p.frac.toInt < 1000000000) {d : Dur}
    (h : fromTimespec checks (some p) = .ok d) : (d.ns : Int) ≠ timespecNs p := by
  obtain ⟨_, _, _, hn⟩ := timespec_value h
  have hs' := toInt_cases p.sec
  have hf' := toInt_cases p.frac
  rw [hn]
  simp only [timespecNs]
  intro he
  have hr : p.frac.toNat * 1000000000 % 2 ^ 32 < 2 ^ 32 := Nat.mod_lt _ (by decide)
  have hz := @mul_keeps p.frac.toNat
  generalize p.frac.toNat * 1000000000 % 2 ^ 32 = r at he hr hz
  have hne : r ≠ p.frac.toNat := fun e => by have := hz e; omega
  omega

/-- Five nanoseconds or more stop the whole program in a debug build; one nanosecond is taken for
a whole second in every build. -/
theorem timespec_panic_violated :
    (∀ p : Pair, 5 ≤ p.frac.toInt → p.frac.toInt < 1000000000 →
      fromTimespec true (some p) = .panic)
    ∧ (∀ checks, fromTimespec checks (some ⟨0, 1⟩) = .ok ⟨1, 0⟩) := by
  refine ⟨fun p h1 h2 => ?_, by decide +kernel⟩
  have hf' := toInt_cases p.frac
  exact (fromTimespec_in (by omega)).2.2 (mul_big (by unfold asU32; omega))

/-- What `cond_timedwait` hands to the C library is the caller's deadline exactly when that is a
whole number of seconds (before 1970 included). -/
theorem cond_deadline_exact (checks : Bool) (p : Pair) :
    (∃ d, fromTimespec checks (some p) = .ok d ∧ condDeadline d = p) ↔ p.frac = 0 := by
  constructor
  · rintro ⟨d, hd, hc⟩
    obtain ⟨h1, h2, hp, hn⟩ := timespec_value hd
    have hf' := toInt_cases p.frac
    have hsl := p.sec.isLt
    obtain ⟨hp1, hp2⟩ := hp
    have hsec : d.secs = p.sec.toNat := by
      have := congrArg (fun q : Pair => q.sec.toNat) hc
      simp only [condDeadline, BitVec.toNat_ofNat] at this
      omega
    have hfr : d.nanos = p.frac.toNat := by
      have := congrArg (fun q : Pair => q.frac.toNat) hc
      simp only [condDeadline, BitVec.toNat_ofNat] at this
      omega
    simp only [Dur.ns, hsec, hfr] at hn
    generalize hr : p.frac.toNat * 1000000000 % 2 ^ 32 = r at hn
    have h0 : p.frac.toNat = 0 := mul_keeps (by rw [hr]; exact (Nat.add_left_cancel hn).symm)
    exact BitVec.eq_of_toNat_eq (by simp [h0])
  · intro h0
    have e : asU32 p.frac * 1000000000 = 0 := by unfold asU32; rw [h0]; rfl
    have hz : p.frac.toInt = 0 := by rw [h0]; rfl
    refine ⟨⟨p.sec.toNat, 0⟩, ((fromTimespec_in (by omega)).1 _).mpr ⟨0, ?_, newDur_zero _⟩, ?_⟩
    · rw [mul_small (by rw [e]; decide), e]
    · have e : (p.sec.toNat * 1000000000 + 0) % 1000000000 = 0 := by omega
      simp only [condDeadline, e]
      cases p
      simp only [Pair.mk.injEq]
      exact ⟨by simp, h0.symm⟩

/-! ## The waiting loop of `sem_timedwait` -/

/-- The call takes the semaphore at the first look that finds it free, unless it looked before
after the time was over; it never gives up while time is left, and it does give up at the first
look after that. -/
theorem timedlock_spec (d : Dur) (ls : List Look) :
    (timedlock d ls = some true ↔ ∃ l1 l l2, ls = l1 ++ l :: l2 ∧ 0 < l.value
        ∧ ∀ x ∈ l1, x.value = 0 ∧ x.elapsed ≤ d.ns)
    ∧ (timedlock d ls = some false ↔ ∃ l1 l l2, ls = l1 ++ l :: l2 ∧ l.value = 0
        ∧ d.ns < l.elapsed ∧ ∀ x ∈ l1, x.value = 0 ∧ x.elapsed ≤ d.ns)
    ∧ (timedlock d ls = none ↔ ∀ x ∈ ls, x.value = 0 ∧ x.elapsed ≤ d.ns) := by
  induction ls with
  | nil => simp [timedlock]
  | cons a ls ih =>
    obtain ⟨i1, i2, i3⟩ := ih
    by_cases hv : a.value = 0
    · by_cases he : a.elapsed > d.ns
      · have e : timedlock d (a :: ls) = some false := by simp [timedlock, hv, he]
        rw [e]
        refine ⟨⟨fun h => (nomatch h), ?_⟩, ⟨fun _ => ⟨[], a, ls, rfl, hv, he, by simp⟩, fun _ => rfl⟩,
          ⟨fun h => (nomatch h), fun h => ?_⟩⟩
        · rintro ⟨l1, l, l2, h, hp, hall⟩
          cases l1 with
          | nil => simp only [List.nil_append, List.cons.injEq] at h; rw [h.1] at hv; omega
          | cons b l1 =>
            simp only [List.cons_append, List.cons.injEq] at h
            have := hall b (by simp)
            rw [← h.1] at this; omega
        · have := h a (by simp); omega
      · have e : timedlock d (a :: ls) = timedlock d ls := by simp [timedlock, hv, he]
        rw [e, i1, i2, i3]
        refine ⟨⟨?_, ?_⟩, ⟨?_, ?_⟩, ⟨?_, ?_⟩⟩
        · rintro ⟨l1, l, l2, rfl, hp, hall⟩
          refine ⟨a :: l1, l, l2, rfl, hp, ?_⟩
          intro x hx
          rcases List.mem_cons.mp hx with rfl | hx
          · exact ⟨hv, by omega⟩
          · exact hall x hx
        · rintro ⟨l1, l, l2, h, hp, hall⟩
          cases l1 with
          | nil => simp only [List.nil_append, List.cons.injEq] at h; rw [h.1] at hv; omega
          | cons b l1 =>
            simp only [List.cons_append, List.cons.injEq] at h
            exact ⟨l1, l, l2, h.2, hp, fun x hx => hall x (by simp [hx])⟩
        · rintro ⟨l1, l, l2, rfl, hp, hlt, hall⟩
          refine ⟨a :: l1, l, l2, rfl, hp, hlt, ?_⟩
          intro x hx
          rcases List.mem_cons.mp hx with rfl | hx
          · exact ⟨hv, by omega⟩
          · exact hall x hx
        · rintro ⟨l1, l, l2, h, hp, hlt, hall⟩
          cases l1 with
          | nil => simp only [List.nil_append, List.cons.injEq] at h; rw [h.1] at he; omega
          | cons b l1 =>
            simp only [List.cons_append, List.cons.injEq] at h
            exact ⟨l1, l, l2, h.2, hp, hlt, fun x hx => hall x (by simp [hx])⟩
        · intro h x hx
          rcases List.mem_cons.mp hx with rfl | hx
          · exact ⟨hv, by omega⟩
          · exact h x hx
        · exact fun h x hx => h x (by simp [hx])
    · have e : timedlock d (a :: ls) = some true := by simp [timedlock, hv]
      rw [e]
      refine ⟨⟨fun _ => ⟨[], a, ls, rfl, by omega, by simp⟩, fun _ => rfl⟩,
        ⟨fun h => (nomatch h), ?_⟩, ⟨fun h => (nomatch h), fun h => ?_⟩⟩
      · rintro ⟨l1, l, l2, h, hp, hlt, hall⟩
        cases l1 with
        | nil => simp only [List.nil_append, List.cons.injEq] at h; rw [h.1] at hv; omega
        | cons b l1 =>
          simp only [List.cons_append, List.cons.injEq] at h
          have := hall b (by simp)
          rw [← h.1] at this; omega
      · have := h a (by simp); omega

/-- `sem_timedwait` takes the time it is given as the length of the wait, `cond_timedwait` takes
it as the moment to stop: the first adds it to the time of the call (src/interface/misc.rs
685-692), although both document the same C interface, where it is a moment
(src/safeposix/syscalls/fs_calls.rs 6765).  With a moment long past, a call that begins at
that moment or later still waits as long again. -/
theorem sem_deadline_violated (p : Pair) (hs : 0 ≤ p.sec.toInt) (hf : p.frac = 0) (checks : Bool) :
    ∃ d, fromTimespec checks (some p) = .ok d
      ∧ ∀ ls, (∀ l ∈ ls, l.value = 0 ∧ (l.elapsed : Int) ≤ timespecNs p) →
        timedlock d ls = none := by
  obtain ⟨d, hd, _, hn⟩ := timespec_whole_partial checks p hs (by simp [hf])
  refine ⟨d, hd, fun ls h => (timedlock_spec d ls).2.2.mpr fun x hx => ?_⟩
  have := h x hx
  exact ⟨this.1, by omega⟩

/-! ## Examples -/

example : fromTimeval true (some ⟨2, 500000⟩) = .ok (some ⟨2, 500000000⟩) := by decide +kernel
example : fromMillis 1500 = .ok (some ⟨1, 500000000⟩) := by decide +kernel
example : fromMillis 0xffffffff#64 = .ok none := by decide +kernel
example : fromTimespec true (some ⟨7, 0⟩) = .ok ⟨7, 0⟩ := by decide +kernel
example : fromTimespec false (some ⟨7, 500000000⟩) = .ok ⟨10, 551657984⟩ := by decide +kernel
example : (⟨-1, 0⟩ : Pair).sec.toInt < 0 := by decide +kernel
example : timedlock ⟨1, 0⟩ [⟨5, 0⟩, ⟨900000000, 0⟩, ⟨900000009, 3⟩] = some true := by decide +kernel
example : timedlock ⟨1, 0⟩ [⟨5, 0⟩, ⟨1000000001, 0⟩, ⟨1000000009, 3⟩] = some false := by
  decide +kernel

end Verif.TimeArgs
