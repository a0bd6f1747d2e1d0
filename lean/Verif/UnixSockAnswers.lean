import Verif.UnixWitness

/-! Who may connect, and which addresses a connection reports: theorems about connect, accept, getpeername and getsockname of
unix sockets. -/

namespace Verif.UnixSock

open Verif.Path Verif.Fs

/-- C49.  A socket that is connected, listening or shut down in one direction cannot be connected: EISCONN, and nothing changes. -/
theorem connect_once {s : State} {d : Nat} {st : ConnState} (hr : Ready s d st) (hst : st ≠ .notConnected) (cwd a : Str) :
    step s (.connect d cwd a) = (s, .r (.err .EISCONN)) := by
  obtain ⟨fd, hfd, hw, h⟩ := hr
  simp only [step, connect, withSock, hfd, hw, h]
  simp [hst]

/-- C40, C54.  A request is made only to a path where a socket is bound. -/
theorem connect_needs_name {s : State} {d : Nat} {cwd a : Str} {st : ConnState} (hr : Ready s d st)
    (hn : pathOf cwd a ∉ (step s (.connect d cwd a)).1.fs.dom) :
    (∃ er, (step s (.connect d cwd a)).2 = .r (.err er)) ∧ (step s (.connect d cwd a)).1.acc = s.acc ∧
      (step s (.connect d cwd a)).1.pipes = s.pipes ∧ ∀ x, ((step s (.connect d cwd a)).1.handles x).st = (s.handles x).st := by
  have hab : ∀ (h : Nat), (autoBind s h cwd).acc = s.acc ∧ (autoBind s h cwd).pipes = s.pipes ∧
      ∀ x, ((autoBind s h cwd).handles x).st = (s.handles x).st := by
    intro h
    unfold autoBind
    cases hl : (s.handles h).laddr with
    | some _ => exact ⟨rfl, rfl, fun _ => rfl⟩
    | none =>
      simp only [bindH, hl]
      have hup : ∀ (y : Handle), y.st = (s.handles h).st → ∀ x, (upd s.handles h y x).st = (s.handles x).st := by
        intro y hy x
        rw [upd_apply]
        split
        · rename_i hx; rw [hx, hy]
        · rfl
      split
      · exact ⟨rfl, rfl, hup _ rfl⟩
      · exact ⟨rfl, rfl, hup _ rfl⟩
  obtain ⟨fd, hfd, hw, h⟩ := hr
  simp only [step, connect, withSock, hfd, hw, h] at hn ⊢
  by_cases hst : st = .notConnected
  · subst hst
    simp only [ne_eq, not_true, if_false, Bool.false_eq_true] at hn ⊢
    by_cases hp : pathOf cwd a ∈ (autoBind s fd.h cwd).fs.dom
    · rw [if_pos hp] at hn
      exfalso
      split at hn
      · exact hn hp
      · exact hn hp
    · rw [if_neg hp]
      exact ⟨⟨_, rfl⟩, (hab fd.h).1, (hab fd.h).2.1, (hab fd.h).2.2⟩
  · simp only [ne_eq, hst, not_false_iff, if_true, Bool.false_eq_true, if_false]
    exact ⟨⟨_, rfl⟩, trivial, trivial, fun _ => trivial⟩

/-- C40, C54.  A `connect` that succeeds at once: the peer's name is the one given, the request carries the socket's own name, and the socket is
connected. -/
theorem connect_names {s : State} {d : Nat} {cwd a : Str} (h : (step s (.connect d cwd a)).2.ret = .ok 0) :
    ∃ e own, (step s (.connect d cwd a)).1.acc (pathOf cwd a) = some e ∧ e.addr = own ∧ e.waiter = none ∧
      Ready (step s (.connect d cwd a)).1 d .connected ∧
      (step (step s (.connect d cwd a)).1 (.getpeername d)).2 = { ret := .ok 0, addr := some a } ∧
      (step (step s (.connect d cwd a)).1 (.getsockname d)).2 = { ret := .ok 0, addr := some own } := by
  generalize hx : step s (.connect d cwd a) = x at h ⊢
  simp only [step, connect, withSock] at hx
  cases hfd : s.fds d with
  | none => simp only [hfd] at hx; subst hx; cases h
  | some fd =>
    simp only [hfd] at hx
    split at hx
    · subst hx; cases h
    · split at hx
      · subst hx; cases h
      · split at hx
        · split at hx
          · rename_i i la hi hla
            have hf := (autoBind_fds s fd.h cwd).2
            cases hnb : fd.nb with
            | false => subst hx; rw [hnb] at h; cases h
            | true =>
              subst hx
              refine ⟨_, la, updK_same .., rfl, ?_, ?_, ?_, ?_⟩
              · simp [hnb]
              · refine ⟨fd, by simp [hf, hfd], ?_, ?_⟩ <;> simp [hnb]
              · simp [step, getpeername, withSock, hf, hfd, hnb]
              · simp [step, getsockname, withSock, hf, hfd, hnb, hla]
          · subst hx; cases h
        · subst hx; cases h

/-- C40.  A `connect` that has to wait leaves the request with the socket's name, and the socket as it will be when the connection is
accepted: connected, with the peer's name given. -/
theorem connect_waits {s : State} {d : Nat} {cwd a : Str} {st : ConnState} (hr : Ready s d st)
    (h : (step s (.connect d cwd a)).2.ret = .blocked) :
    ∃ fd e own, s.fds d = some fd ∧ (step s (.connect d cwd a)).1.acc (pathOf cwd a) = some e ∧ e.addr = own ∧ e.waiter = some fd.h ∧
      ((step s (.connect d cwd a)).1.handles fd.h).st = .connected ∧
      ((step s (.connect d cwd a)).1.handles fd.h).raddr = some a ∧ ((step s (.connect d cwd a)).1.handles fd.h).laddr = some own ∧
      ((step s (.connect d cwd a)).1.handles fd.h).waiting = true := by
  generalize hx : step s (.connect d cwd a) = x at h ⊢
  obtain ⟨fd, hfd, hw, hst⟩ := hr
  simp only [step, connect, withSock, hfd, hw, Bool.false_eq_true, if_false] at hx
  split at hx
  · subst hx; cases h
  · split at hx
    · split at hx
      · rename_i i la hi hla
        cases hnb : fd.nb with
        | true => subst hx; rw [hnb] at h; cases h
        | false =>
          subst hx
          refine ⟨fd, _, la, hfd, updK_same .., rfl, ?_, ?_, ?_, ?_, ?_⟩ <;> simp [hnb, hla]
      · subst hx; cases h
    · subst hx; cases h

/-- The sockets waiting in requests exist. -/
def WaitLt (s : State) : Prop := ∀ p e w, s.acc p = some e → e.waiter = some w → w < s.nh

theorem bumpEnd_acc (s : State) (e : Pipe.End) (o : Option Nat) : (bumpEnd s e o).acc = s.acc := by cases o <;> rfl
theorem dropEnd_acc (s : State) (e : Pipe.End) (o : Option Nat) : (dropEnd s e o).acc = s.acc := by cases o <;> rfl
theorem bindH_acc (s : State) (h : Nat) (cwd a : Str) : (bindH s h cwd a).1.acc = s.acc := by
  unfold bindH
  dsimp only
  cases (s.handles h).laddr
  case some => rfl
  · dsimp only
    split <;> rfl
theorem autoBind_acc (s : State) (h : Nat) (cwd : Str) : (autoBind s h cwd).acc = s.acc := by
  unfold autoBind
  split
  · rfl
  · exact bindH_acc { s with ud := s.ud + 1 } h cwd (genPath s.ud)
theorem bumpPipes_acc (s : State) (x : Handle) : (bumpPipes s x).acc = s.acc := by
  unfold bumpPipes
  split
  · rfl
  · rw [bumpEnd_acc, bumpEnd_acc]
theorem dropPipes_acc (s : State) (h : Nat) (x : Handle) (i : Info) : (dropPipes s h x i).acc = s.acc := by
  unfold dropPipes
  simp only [State.setH]
  rw [dropEnd_acc, dropEnd_acc]

theorem withSock_acc (s : State) (d : Nat) (f : Fd → Handle → State × Out) (P : (List Name → Option Entry) → Prop) (h0 : P s.acc)
    (hf : ∀ fd, s.fds d = some fd → P (f fd (s.handles fd.h)).1.acc) : P (withSock s d f).1.acc := by
  unfold withSock
  split
  · exact h0
  · rename_i fd hfd
    split
    · exact h0
    · exact hf fd hfd

/-- A request in the table after a call was there before, or was made through a descriptor. -/
theorem acc_step (s : State) (op : Op) : ∀ p e, (step s op).1.acc p = some e →
    s.acc p = some e ∨ ∃ d fd, s.fds d = some fd ∧ (e.waiter = none ∨ e.waiter = some fd.h) := by
  have same : ∀ d (f : Fd → Handle → State × Out), (∀ fd, s.fds d = some fd → (f fd (s.handles fd.h)).1.acc = s.acc) →
      (withSock s d f).1.acc = s.acc := fun d f hf => withSock_acc s d f (fun a => a = s.acc) rfl hf
  have of_eq : (step s op).1.acc = s.acc → ∀ p e, (step s op).1.acc p = some e →
    s.acc p = some e ∨ ∃ d fd, s.fds d = some fd ∧ (e.waiter = none ∨ e.waiter = some fd.h) := by
    intro h p e hp; rw [h] at hp; exact .inl hp
  cases op with
  | socket d nb => apply of_eq; simp only [step, socket]; split <;> rfl
  | bind d cwd a => apply of_eq; exact same _ _ fun fd _ => bindH_acc _ _ _ _
  | getsockname d => apply of_eq; exact same _ _ fun fd _ => rfl
  | getpeername d => apply of_eq; refine same _ _ fun fd _ => ?_; split <;> rfl
  | listen d => apply of_eq; refine same _ _ fun fd _ => ?_; split <;> rfl
  | connect d cwd a =>
    refine withSock_acc s d _ (fun acc => ∀ p e, acc p = some e →
      s.acc p = some e ∨ ∃ d fd, s.fds d = some fd ∧ (e.waiter = none ∨ e.waiter = some fd.h)) (fun p e h => .inl h) ?_
    intro fd hfd p e
    dsimp only
    split
    · exact .inl
    · split
      · split
        · dsimp only
          intro h
          by_cases hp : p = pathOf cwd a
          · subst hp
            rw [updK_same] at h
            cases h
            refine .inr ⟨d, fd, hfd, ?_⟩
            dsimp only
            cases fd.nb <;> simp
          · rw [updK_ne _ _ hp, autoBind_acc] at h
            exact .inl h
        · rw [autoBind_acc]; exact .inl
      · rw [autoBind_acc]; exact .inl
  | accept d new cwd =>
    refine withSock_acc s d _ (fun acc => ∀ p e, acc p = some e →
      s.acc p = some e ∨ ∃ d fd, s.fds d = some fd ∧ (e.waiter = none ∨ e.waiter = some fd.h)) (fun p e h => .inl h) ?_
    intro fd hfd p e
    dsimp only
    split
    · exact .inl
    · split
      · exact .inl
      · split
        · exact .inl
        · split
          · exact .inl
          · split
            · exact .inl
            · split
              · exact .inl
              · split
                · exact .inl
                · rename_i la _ _ e' _ _ _ _ _ _ _ _
                  dsimp only
                  intro h
                  have hw : (wake s e'.waiter).acc = s.acc := by cases e'.waiter <;> rfl
                  rw [hw] at h
                  by_cases hp : p = pathOf cwd la
                  · subst hp; rw [updK_same] at h; cases h
                  · rw [updK_ne _ _ hp] at h; exact .inl h
  | send d data =>
    apply of_eq; refine same _ _ fun fd _ => ?_; dsimp only; repeat' split
    all_goals rfl
  | writev d iovs =>
    apply of_eq; refine same _ _ fun fd _ => ?_; dsimp only; repeat' split
    all_goals rfl
  | recv d n pk =>
    apply of_eq; refine same _ _ fun fd _ => ?_; dsimp only; repeat' split
    all_goals rfl
  | shutdown d how =>
    apply of_eq; simp only [step, shutdown]; split
    · rfl
    · refine same _ _ fun fd _ => ?_; split
      · rfl
      · dsimp only; split <;> rfl
  | dup d d' =>
    apply of_eq; refine same _ _ fun fd _ => ?_; split
    · rfl
    · exact bumpPipes_acc _ _
  | forkFd d d' =>
    apply of_eq; refine same _ _ fun fd _ => ?_; split
    · rfl
    · split
      · rfl
      · split
        · rfl
        · exact bumpPipes_acc _ _
  | close d cwd =>
    apply of_eq; refine same _ _ fun fd _ => ?_; split
    · rfl
    · split
      · exact dropPipes_acc _ _ _ _
      · exact dropPipes_acc s fd.h (s.handles fd.h) _
  | socketpair d d' nb cwd =>
    apply of_eq
    simp only [step, socketpair]
    split
    · rfl
    · split
      · split
        · simp only [autoBind_acc]
        · split
          · simp only [autoBind_acc]
          · simp only [autoBind_acc]
      · simp only [autoBind_acc]
  | setNb d nb => apply of_eq; exact same _ _ fun fd _ => rfl
  | fsys fs => exact of_eq rfl

theorem Sys.step_s (S : Sys) (op : Op) : (S.step op).s = (UnixSock.step S.s op).1 := rfl

theorem Reach.waitLt {S : Sys} (h : Reach S) : WaitLt S.s := by
  induction h with
  | start fs => intro p e w h; cases h
  | @step S op hr _ ih =>
    intro p e w hp hw
    rw [Sys.step_s] at hp ⊢
    have K := keeps_step S.s op
    rcases acc_step S.s op p e hp with h1 | ⟨d, fd, h1, h2⟩
    · have := ih p e w h1 hw; have := K.nh; omega
    · have := hr.fdLt d fd h1
      have := K.nh
      rcases h2 with h2 | h2 <;> rw [h2] at hw
      · cases hw
      · cases hw; omega

/-- C40.  Accepting: the address reported is the one in the request, and it is what getpeername of the new descriptor reports;
getsockname of the new descriptor reports the listening socket's name; the new socket is connected and its descriptor blocks if the
listening one does; a connecting call that waited is released, and no other socket changes. -/
theorem accept_names {S : Sys} (hR : Reach S) {s : State} (hs : S.s = s) {d d' : Nat} {cwd : Str}
    (h : (step s (.accept d (some d') cwd)).2.ret = .ok d') :
    ∃ fd e own, s.fds d = some fd ∧ s.fds d' = none ∧ (step s (.getsockname d)).2.addr = some own ∧ s.acc (pathOf cwd own) = some e ∧
      (step s (.accept d (some d') cwd)).2.addr = some e.addr ∧
      (step (step s (.accept d (some d') cwd)).1 (.getpeername d')).2 = { ret := .ok 0, addr := some e.addr } ∧
      (step (step s (.accept d (some d') cwd)).1 (.getsockname d')).2 = { ret := .ok 0, addr := some own } ∧
      Ready (step s (.accept d (some d') cwd)).1 d' .connected ∧
      (∃ h', (step s (.accept d (some d') cwd)).1.fds d' = some ⟨h', fd.nb⟩) ∧
      (∀ w, e.waiter = some w →
        (step s (.accept d (some d') cwd)).1.handles w = { s.handles w with waiting := false }) ∧
      (∀ x < s.nh, e.waiter ≠ some x → (step s (.accept d (some d') cwd)).1.handles x = s.handles x) := by
  have hlt := hR.waitLt
  rw [hs] at hlt
  generalize hx : step s (.accept d (some d') cwd) = x at h ⊢
  simp only [step, accept, withSock] at hx
  cases hfd : s.fds d with
  | none => simp only [hfd] at hx; subst hx; cases h
  | some fd =>
    simp only [hfd] at hx
    split at hx
    · subst hx; cases h
    · rename_i hw
      split at hx
      · subst hx; cases h
      · rename_i hd'
        split at hx
        · subst hx; cases h
        · split at hx
          · subst hx; cases h
          · rename_i la hla
            split at hx
            · subst hx; simp only [Out.r] at h; split at h <;> cases h
            · rename_i e he
              split at hx
              · subst hx; cases h
              · rename_i ino _ hwalk
                split at hx
                · subst hx; cases h
                · subst hx
                  have hnh : (wake s e.waiter).nh = s.nh := by cases e.waiter <;> rfl
                  refine ⟨fd, e, la, rfl, Decidable.not_not.1 hd', ?_, he, rfl, ?_, ?_, ?_, ⟨_, upd_same ..⟩, ?_, ?_⟩
                  · simp only [step, getsockname, withSock, hfd]
                    rw [if_neg hw]
                    simp [hla]
                  · simp [step, getpeername, withSock]
                  · simp [step, getsockname, withSock]
                  · exact ⟨_, upd_same .., by simp, by simp⟩
                  · intro w hw
                    have h1 := hlt _ e w he hw
                    dsimp only
                    rw [upd_ne _ _ (by omega), hw]
                    exact upd_same _ _ _
                  · intro y hy hne
                    dsimp only
                    rw [upd_ne _ _ (by omega)]
                    unfold wake
                    split
                    · rfl
                    · rename_i w hw
                      exact upd_ne _ _ (fun h => hne (by rw [hw, h]))

/-- C54.  getsockname and getpeername change nothing; a socket without a peer has none to report. -/
theorem names_read_only (s : State) (d : Nat) :
    (step s (.getsockname d)).1 = s ∧ (step s (.getpeername d)).1 = s ∧
      (∀ fd, s.fds d = some fd → (s.handles fd.h).waiting = false → (s.handles fd.h).raddr = none →
        (step s (.getpeername d)).2 = .r (.err .ENOTCONN)) := by
  refine ⟨?_, ?_, ?_⟩
  · simp only [step, getsockname, withSock]; split
    · rfl
    · split <;> rfl
  · simp only [step, getpeername, withSock]; split
    · rfl
    · split
      · rfl
      · split <;> rfl
  · intro fd h1 h2 h3
    simp [step, getpeername, withSock, h1, h2, h3]

/-! The names of the connection of `linkOps`: the client was named by the system. -/

example : Ready (Sys.run { s := init fs0 } (askOps.take 4)).s 4 .notConnected ∧
    (step (Sys.run { s := init fs0 } (askOps.take 4)).s (.connect 4 cw pS)).2.ret = .ok 0 :=
  ⟨⟨⟨1, true⟩, by decide +kernel⟩, by decide +kernel⟩

example : (step (Sys.run { s := init fs0 } askOps).s (.accept 3 (some 5) cw)).2 = { ret := .ok 5, addr := some (genPath 0) } ∧
    (step linkS.s (.getpeername 5)).2 = { ret := .ok 0, addr := some (genPath 0) } ∧
    (step linkS.s (.getsockname 4)).2 = { ret := .ok 0, addr := some (genPath 0) } ∧
    (step linkS.s (.getpeername 4)).2 = { ret := .ok 0, addr := some pS } ∧
    (step linkS.s (.connect 4 cw pS)).2 = .r (.err .EISCONN) ∧
    (step (Sys.run { s := init fs0 } (askOps.take 4)).s (.connect 4 cw pO)).2 = .r (.err .ENOENT) := by decide +kernel

/-- A blocking client waits, and is released. -/
example : (step (Sys.run { s := init fs0 } [.socket 3 true, .bind 3 cw pS, .listen 3, .socket 4 false]).s (.connect 4 cw pS)).2.ret = .blocked ∧
    (step (Sys.run { s := init fs0 } [.socket 3 true, .bind 3 cw pS, .listen 3, .socket 4 false, .connect 4 cw pS]).s (.getpeername 4)).2.ret =
      .blocked ∧
    (step (Sys.run { s := init fs0 }
      [.socket 3 true, .bind 3 cw pS, .listen 3, .socket 4 false, .connect 4 cw pS, .accept 3 (some 5) cw]).s (.getpeername 4)).2 =
      { ret := .ok 0, addr := some pS } := by decide +kernel

end Verif.UnixSock
