import Verif.EpollProps

/-!
# Examples and witnesses for select, poll and epoll
-/

set_option linter.unusedSimpArgs false

namespace Verif.Select

open Verif.Pipe (Pipe)
open Verif.UnixSock (ConnState State pathOf)

/-! ## What the calls see of a unix socket -/

/-- The view of descriptor `d` in a state of the socket model. -/
def sockView (s : State) (cwd : Verif.Path.Str) (d : Nat) : Option View :=
  (s.fds d).map fun fd =>
    .unix
      { st := (s.handles fd.h).st
        request := (s.handles fd.h).laddr.map fun a => (s.acc (pathOf cwd a)).isSome
        asking := (s.handles fd.h).raddr.map fun a => (s.acc (pathOf cwd a)).isSome
        inp := (s.handles fd.h).info.bind fun i => i.recv.map s.pipes }

/-- No waiting: the call neither hangs nor reports EAGAIN. -/
def NoWait (r : Ret) : Prop := r ≠ .blocked ∧ r ≠ .err .EAGAIN

/-- C42.  A unix socket seen readable: accepting (if it listens) or receiving does not wait. -/
theorem can_read_unix {s : State} {cwd : Verif.Path.Str} {d : Nat} {v : View} {h : Host} (hv : sockView s cwd d = some v)
    (hr : CanRead h v) (hw : ∀ fd, s.fds d = some fd → (s.handles fd.h).waiting = false ∧ (s.handles fd.h).st ≠ .inProgress) :
    (UnixSock.stateOf s d = some .listen ∧ ∀ new, NoWait (UnixSock.step s (.accept d new cwd)).2.ret) ∨
    (UnixSock.stateOf s d = some .connected ∧ ∀ n, 0 < n → NoWait (UnixSock.step s (.recv d n false)).2.ret) := by
  obtain ⟨fd, hfd, rfl⟩ := Option.map_eq_some_iff.1 hv
  obtain ⟨hwait, hip⟩ := hw fd hfd
  simp only [CanRead] at hr
  rcases hr with ⟨h1, h2⟩ | ⟨h1, p, h2, h3⟩
  · left
    refine ⟨by simp [UnixSock.stateOf, hfd, h1], fun new => ?_⟩
    obtain ⟨la, hla, hacc⟩ := Option.map_eq_some_iff.1 h2
    obtain ⟨e, he⟩ := Option.isSome_iff_exists.1 hacc
    simp only [UnixSock.step, UnixSock.accept, UnixSock.withSock, hfd, hwait, Bool.false_eq_true, if_false, h1, hla, he]
    cases new with
    | none => simp [NoWait, UnixSock.Out.r]
    | some d' =>
      dsimp only
      repeat' split
      all_goals first | (simp [NoWait, UnixSock.Out.r]; done) | skip
  · right
    have hc : (s.handles fd.h).st = .connected := by
      rcases h1 with h1 | ⟨h1, -⟩
      · exact h1
      · exact absurd h1 hip
    refine ⟨by simp [UnixSock.stateOf, hfd, hc], fun n hn => ?_⟩
    obtain ⟨i, hi, hp⟩ := Option.bind_eq_some_iff.1 h2
    obtain ⟨q, hq, rfl⟩ := Option.map_eq_some_iff.1 hp
    have hpn : ∀ m, 0 < m → NoWait ((s.pipes q).readNow m fd.nb).2.1 := fun m hm =>
      (Pipe.select_read_iff (s.pipes q) m fd.nb hm).1 ((selectRead_iff _).2 h3)
    simp only [UnixSock.step, UnixSock.recv, UnixSock.withSock, hfd, hwait, Bool.false_eq_true, if_false, hc, hi, hq]
    simp only [reduceCtorEq, if_false, ne_eq, not_true_eq_false, false_and]
    split
    · simp [NoWait]
    · rename_i hk
      have hm : 0 < n - min (s.handles fd.h).peek.length n := by
        by_cases hpk : (s.handles fd.h).peek = []
        · simp [hpk]; omega
        · simp only [hpk, not_false_eq_true, true_and] at hk; omega
      have hres := hpn _ hm
      split
      · simp [NoWait]
      · rename_i p' r bs hne heq
        split
        · simp [NoWait]
        · rw [heq] at hres
          exact hres

/-! ## Examples -/

/-- Nothing of the host is ready. -/
def calm : Host := { fail := false, ready := fun _ => false }

/-- A pass that sees these descriptors. -/
def seeing (f : Nat → Option View) (late : Bool) : Pass := { rd := f, wr := f, ex := f, host := calm, late := late, sig := false }

def fullPipe : Pipe := { (Pipe.new 65536) with buf := [1, 2, 3], rref := 1, wref := 1 }
def emptyPipe : Pipe := { (Pipe.new 65536) with buf := [], rref := 1, wref := 1 }

/-- 3: a pipe with bytes, 4: an empty one, 5: a file. -/
def three : Nat → Option View := fun d => if d = 3 then some (.pipe fullPipe) else if d = 4 then some (.pipe emptyPipe) else if d = 5 then some .file else none
/-- As `three`, with nothing in either pipe. -/
def quiet : Nat → Option View := fun d => if d = 3 ∨ d = 4 then some (.pipe emptyPipe) else none

def set345 : FdSet := fun d => d == 3 || d == 4 || d == 5
def set34 : FdSet := fun d => d == 3 || d == 4

example : (select 6 (some set345) (some set34) none [seeing quiet false, seeing three false]).ret = .err .EBADF := by decide +kernel
example : (select 5 (some set345) none none [seeing quiet false, seeing three false]).ret = .ok 1 := by decide +kernel
example := select_count (nfds := 5) (r := some set345) (w := none) (e := none) (ps := [seeing quiet false, seeing three false]) (k := 1) (by decide +kernel)
example := select_bits (nfds := 6) (r := some set345) (w := some set34) (e := none) (ps := [seeing three false]) (k := 4) (by decide +kernel) 3
example := select_ebadf (nfds := 6) (r := some set345) (w := some set34) (e := none) (ps := [seeing quiet false]) (by decide +kernel)
example := select_failed (nfds := 6) (r := some set345) (w := some set34) (e := none) (ps := [seeing quiet false]) (by
  have : (select 6 (some set345) (some set34) none [seeing quiet false]).ret = .err .EBADF := by decide +kernel
  intro k; rw [this]; simp)
example := select_zero (nfds := 5) (r := some set345) (w := none) (e := none) (ps := [seeing quiet false, seeing quiet true]) (by decide +kernel)
example := select_not_zero (nfds := 5) (r := some set345) (w := none) (e := none) (p := seeing three true) (ps := []) (d := 3)
  (v := .pipe fullPipe) (by decide) (.inl ⟨⟨set345, rfl, rfl⟩, rfl, by unfold CanRead; decide +kernel⟩)
example := select_closed_partial (nfds := 6) (r := some set345) (w := none) (e := none) (p := seeing quiet false) (ps := []) (by decide)
  (by decide) ⟨5, by decide, .inl ⟨⟨set345, rfl, rfl⟩, rfl⟩⟩
  (by intro d v _ hv; simp only [seeing, quiet] at hv; split at hv <;> cases hv; trivial) (by rintro d v ⟨t, ht, -⟩; cases ht) rfl

/-- Round seen by every entry alike. -/
def round (f : Nat → Option View) (late : Bool) : Round := { sees := fun _ => [seeing f true], late := late, sig := false }

def ask (fd : Int) (ev : BitVec 16) : PollFd := { fd := fd, events := ev, revents := 0 }

def polled : List PollFd := [ask 3 (pollIn ||| pollOut), ask 4 pollIn, ask (-1) pollIn, ask 9 pollIn]

theorem polled_result : poll polled [round three false] =
    (.ok 2, [{ fd := 3, events := 5#16, revents := 5#16 }, { fd := 4, events := 1#16, revents := 0 },
      { fd := -1, events := 1#16, revents := 0 }, { fd := 9, events := 1#16, revents := pollNval }]) := by decide +kernel

example := poll_count polled_result
example := poll_entries polled_result
example := poll_honest polled_result
example := poll_closed_partial polled_result (j := 3) (x := ask 9 pollIn) rfl (by decide) (by decide) (.inl (by unfold PollFd.wants; decide))
  ⟨_, _, rfl, rfl, rfl, rfl, rfl⟩
example : poll [ask 3 pollIn, ask 4 pollIn] [round quiet false, round quiet true] = (.ok 0, [ask 3 pollIn, ask 4 pollIn]) := by decide +kernel
example := poll_zero (xs := [ask 3 pollIn, ask 4 pollIn]) (rs := [round quiet false, round quiet true])
  (ys := [ask 3 pollIn, ask 4 pollIn]) (by decide +kernel)

def evIn : Ev := { events := 1#32, data := 77 }
def evBoth : Ev := { events := 5#32, data := 78 }
def ctls : List Ctl :=
  [⟨1, 3, some (.pipe fullPipe), evIn⟩, ⟨1, 3, some (.pipe fullPipe), evIn⟩, ⟨3, 4, some (.pipe emptyPipe), evIn⟩,
    ⟨1, 4, some (.pipe emptyPipe), evIn⟩, ⟨3, 3, some (.pipe fullPipe), evBoth⟩, ⟨2, 4, some (.pipe emptyPipe), evIn⟩,
    ⟨1, 5, some .file, evIn⟩, ⟨1, 4, some (.pipe emptyPipe), evIn⟩]

example : (run 7 (.epoll []) ctls).2 = [.ok 0, .err .EEXIST, .err .ENOENT, .ok 0, .ok 0, .ok 0, .err .EPERM, .ok 0] := by decide +kernel
example := ctl_history (epfd := 7) (by decide) (by decide) ctls
example := ctl_spec (m := [(3, evIn)]) (epfd := 7) (op := 1) (fd := 4) (target := some .stream) (ev := evBoth) (by decide) (by decide)

def reg : Reg := [(3, evBoth), (4, evIn), (8, evIn)]
def opened : Nat → Bool := fun d => d == 3 || d == 4

theorem reg_wait : epollWait (.epoll reg) 7 10 reg opened [round three false] =
    (.epoll [(3, evBoth), (4, evIn)], .ok 1, [(3, { events := 5#32, data := 78 })]) := by
  have h : poll [ask 3 5#16, ask 4 1#16] [round three false] =
    (.ok 1, [{ fd := 3, events := 5#16, revents := 5#16 }, { fd := 4, events := 1#16, revents := 0 }]) := by decide +kernel
  have hm : (reg.filter fun e => opened e.1).map (fun e => ({ fd := e.1, events := toPoll e.2.events, revents := 0 } : PollFd)) =
      [ask 3 5#16, ask 4 1#16] := by decide +kernel
  have hf : (reg.filter fun e => opened e.1) = [(3, evBoth), (4, evIn)] := by decide +kernel
  unfold epollWait
  rw [if_neg (by decide)]
  dsimp only
  rw [if_neg (by decide), if_neg (by decide +kernel), hm, h, hf]
  rfl

example := wait_events (m := reg) (iter := reg) (by unfold Keys; decide +kernel) (List.Perm.refl _) reg_wait

/-! ## Where the code falls short -/

/-- C42 violated: descriptor 1023 exists, but select cannot be asked about it. -/
theorem select_last_violated (r w e : Option FdSet) (ps : List Pass) : (select 1024 r w e ps).ret = .err .EINVAL := rfl

/-- C42 violated: two descriptors of one host socket that is readable; only the first is reported. -/
theorem select_dup_violated :
    let f : Nat → Option View := fun d => if d = 3 ∨ d = 4 then some (.inet 9 false) else none
    let p : Pass := { rd := f, wr := f, ex := f, host := { fail := false, ready := fun r => r == 9 }, late := true, sig := false }
    CanRead p.host (.inet 9 false) ∧ (select 5 (some set34) none none [p]).ret = .ok 1 ∧
      ((select 5 (some set34) none none [p]).rd.map fun s => (s 3, s 4)) = some (true, false) := by
  refine ⟨by simp [CanRead], by decide +kernel, by decide +kernel⟩

/-- C42 violated: a closed descriptor and a host failure: EPERM instead of EBADF. -/
theorem select_host_failure_violated :
    let f : Nat → Option View := fun d => if d = 3 then some (.inet 9 false) else none
    let p : Pass := { rd := f, wr := f, ex := f, host := { fail := true, ready := fun _ => false }, late := true, sig := false }
    (select 5 (some fun d => d == 3) (some fun d => d == 4) none [p]).ret = .err .EPERM := by
  decide +kernel

/-- C42 violated: asking whether a socket can be written to, just when its connection is made, hangs. -/
theorem select_write_hangs_violated :
    (select 5 none (some fun d => d == 4) none [seeing (fun d => if d = 4 then some (.inet 9 true) else none) true]).ret = .blocked := by
  decide +kernel

/-- C42 violated: a listening unix socket without address aborts the program. -/
theorem select_unbound_violated :
    (select 5 (some fun d => d == 4) none none
      [seeing (fun d => if d = 4 then some (.unix { st := .listen, request := none, asking := none, inp := none }) else none) true]).ret =
      .panic := by
  decide +kernel

open Verif.UnixSock (talkS halfS cw) in
/-- C42 violated: after a peek of everything there is, the bytes are there to be received, but select does not say so. -/
theorem select_after_peek_violated :
    let s := (UnixSock.step talkS.s (.recv 5 10 true)).1
    (UnixSock.step s (.recv 5 10 false)).2.ret = .ok 3 ∧
      (select 6 (some fun d => d == 5) none none [seeing (sockView s cw) true]).ret = .ok 0 := by
  decide +kernel

open Verif.UnixSock (talkS cw) in
/-- C42 violated: a socket shut down for writing can still receive, but select does not say so. -/
theorem select_half_violated :
    let s := (UnixSock.step talkS.s (.shutdown 5 1)).1
    (UnixSock.step s (.recv 5 10 false)).2.ret = .ok 3 ∧
      (select 6 (some fun d => d == 5) none none [seeing (sockView s cw) true]).ret = .ok 0 := by
  decide +kernel

open Verif.UnixSock (talkS cw) in
example : ∃ v, sockView talkS.s cw 5 = some v ∧ CanRead calm v ∧
    ∀ n, 0 < n → NoWait (UnixSock.step talkS.s (.recv 5 n false)).2.ret := by
  have hs : ((talkS.s.fds 5).map fun fd => ((talkS.s.handles fd.h).waiting, (talkS.s.handles fd.h).st)) = some (false, .connected) := by
    decide +kernel
  have hp : ((talkS.s.fds 5).map fun fd =>
      ((talkS.s.handles fd.h).info.bind fun i => i.recv.map talkS.s.pipes).map Pipe.selectRead) = some (some true) := by decide +kernel
  obtain ⟨fd, hfd, he⟩ := Option.map_eq_some_iff.1 hs
  rw [hfd] at hp
  obtain ⟨p, hp1, hp2⟩ := Option.map_eq_some_iff.1 (Option.some.inj hp)
  have hst : (talkS.s.handles fd.h).st = .connected := congrArg Prod.snd he
  have hcr : ∀ v, sockView talkS.s cw 5 = some v → CanRead calm v := by
    intro v hv
    simp only [sockView, hfd, Option.map_some, Option.some.injEq] at hv
    subst hv
    exact .inr ⟨.inl hst, p, hp1, (selectRead_iff p).1 hp2⟩
  refine ⟨_, by simp only [sockView, hfd]; rfl, hcr _ (by simp only [sockView, hfd]; rfl), ?_⟩
  rcases can_read_unix (s := talkS.s) (cwd := cw) (d := 5) (h := calm) (by simp only [sockView, hfd]; rfl)
    (hcr _ (by simp only [sockView, hfd]; rfl)) (fun fd' h' => by
      rw [hfd] at h'; cases h'; exact ⟨congrArg Prod.fst he, by rw [hst]; simp⟩) with ⟨ha, -⟩ | ⟨-, hb⟩
  · simp [UnixSock.stateOf, hfd, hst] at ha
  · exact hb

/-- C43 violated: urgent data is reported though there is none, whenever it is asked for together with something possible. -/
theorem poll_pri_violated : poll [ask 5 (pollIn ||| pollPri)] [round three true] =
    (.ok 1, [{ fd := 5, events := 3#16, revents := 3#16 }]) := by decide +kernel

/-- C43 violated: a closed descriptor is not reported if the entry asks for nothing. -/
theorem poll_closed_silent_violated : poll [ask 9 0] [round three true] = (.ok 0, [ask 9 0]) := by decide +kernel

/-- C43 violated: the last descriptor makes the call fail, a larger one aborts the program. -/
theorem poll_large_violated (rs : List Round) (r : Round) : (poll [ask 1023 pollIn] (r :: rs)).1 = .err .EINVAL ∧
    (poll [ask 1024 pollIn] (r :: rs)).1 = .panic := by
  have h1 : pollOne { fd := 1023, events := pollIn, revents := 0 } (r.sees 0) = .error (.err .EINVAL) := by
    unfold pollOne
    dsimp only
    rw [if_neg (by decide +kernel)]
    rfl
  have h2 : pollOne { fd := 1024, events := pollIn, revents := 0 } (r.sees 0) = .error .panic := by
    unfold pollOne
    dsimp only
    rw [if_pos (by decide +kernel)]
  constructor
  · simp only [ask, poll, List.map, pollLoop, pollPass, h1]
    rw [if_neg (by decide)]
  · simp only [ask, poll, List.map, pollLoop, pollPass, h2]
    rw [if_neg (by decide)]

/-- C44 violated: the registration outlives the descriptor, if its number is in use again when the call looks: what is reported was
never registered (here the file now at 3 after the pipe registered there was closed). -/
theorem wait_reused_violated :
    let s := (run 7 (.epoll []) [⟨1, 3, some (.pipe emptyPipe), evIn⟩]).1
    let now : Nat → Option View := fun d => if d = 3 then some .file else none
    epollCtl (.epoll []) 7 1 3 (now 3) evIn = (.epoll [], .err .EPERM) ∧
    (epollWait s 7 10 [(3, evIn)] (fun d => (now d).isSome) [round now true]).2 = (.ok 1, [(3, { events := 1#32, data := 77 })]) := by
  refine ⟨by rfl, ?_⟩
  have h : poll [ask 3 1#16] [round (fun d => if d = 3 then some .file else none) true] =
    (.ok 1, [{ fd := 3, events := 1#16, revents := 1#16 }]) := by decide +kernel
  have hs : (run 7 (.epoll []) [⟨1, 3, some (.pipe emptyPipe), evIn⟩]).1 = .epoll [(3, evIn)] := by rfl
  dsimp only
  rw [hs]
  unfold epollWait
  rw [if_neg (by decide)]
  dsimp only
  rw [if_neg (by decide), if_neg (by decide +kernel)]
  have hm : (([(3, evIn)] : Reg).filter fun e => (if e.1 = 3 then some View.file else none).isSome).map
      (fun e => ({ fd := e.1, events := toPoll e.2.events, revents := 0 } : PollFd)) = [ask 3 1#16] := by decide +kernel
  have hf : (([(3, evIn)] : Reg).filter fun e => (if e.1 = 3 then some View.file else none).isSome) = [(3, evIn)] := by decide +kernel
  rw [hm, h, hf]
  rfl

/-- C44 violated: with its own number among the registrations (the epoll descriptor was moved onto a registered number), it hangs. -/
theorem wait_self_violated (isOpen : Nat → Bool) (rs : List Round) :
    (epollWait (.epoll [(7, evIn)]) 7 10 [(7, evIn)] isOpen rs).2.1 = .blocked := by
  unfold epollWait
  rw [if_neg (by decide)]
  dsimp only
  rw [if_neg (by decide), if_pos (by decide)]

end Verif.Select
