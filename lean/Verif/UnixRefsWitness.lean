import Verif.UnixRefsProps

/-!
Concrete histories for C77: a state that meets the hypotheses of its theorems, and witnesses of what the code gets wrong.
-/

set_option linter.unusedSimpArgs false

namespace Verif.UnixSock

open Verif.Path Verif.Fs

/-- The descriptors a call may make. -/
def newFds : Op → List Nat
  | .socket d _ => [d]
  | .accept _ new _ => new.toList
  | .dup _ d' => [d']
  | .forkFd _ d' => [d']
  | .socketpair d d' _ _ => [d, d']
  | _ => []

theorem withSock_fds (s : State) (d : Nat) (f : Fd → Handle → State × Out) (k : Nat) (hk : s.fds k = none)
    (hf : ∀ fd, s.fds d = some fd → (f fd (s.handles fd.h)).1.fds k = none) : (withSock s d f).1.fds k = none := by
  unfold withSock
  split
  · exact hk
  · split
    · exact hk
    · exact hf _ (by assumption)

/-- No other descriptors appear. -/
theorem step_newFds (s : State) (op : Op) (k : Nat) (hk : s.fds k = none) (hn : k ∉ newFds op) : (step s op).1.fds k = none := by
  cases op with
  | socket d nb =>
    simp only [newFds, List.mem_singleton] at hn
    simp only [step, socket]
    split
    · exact hk
    · simp only [State.setFd, upd_ne _ _ hn]; exact hk
  | bind d cwd a => exact withSock_fds _ _ _ _ hk fun fd _ => by rw [(bindH_fds _ _ _ _).2]; exact hk
  | getsockname d => exact withSock_fds _ _ _ _ hk fun _ _ => hk
  | getpeername d => exact withSock_fds _ _ _ _ hk fun _ _ => by split <;> exact hk
  | listen d => exact withSock_fds _ _ _ _ hk fun _ _ => by split <;> exact hk
  | connect d cwd a =>
    refine withSock_fds _ _ _ _ hk fun fd _ => ?_
    split
    · exact hk
    · have := (autoBind_fds s fd.h cwd).2
      dsimp only
      generalize autoBind s fd.h cwd = t at this ⊢
      split
      · split
        · dsimp only; rw [this]; exact hk
        · rw [this]; exact hk
      · rw [this]; exact hk
  | accept d new cwd =>
    refine withSock_fds _ _ _ _ hk fun fd _ => ?_
    cases new with
    | none => exact hk
    | some d' =>
      simp only [newFds, Option.toList_some, List.mem_singleton] at hn
      dsimp only
      split
      · exact hk
      · split
        · exact hk
        · split
          · exact hk
          · split
            · exact hk
            · rename_i e _
              split
              · exact hk
              · split
                · exact hk
                · dsimp only
                  rw [upd_ne _ _ hn, (wake_fds s e.waiter).2]; exact hk
  | send d data => have := (send_fds s d data).2.1; simp only [step]; rw [this]; exact hk
  | writev d iovs => have := (writev_fds s d iovs).2.1; simp only [step]; rw [this]; exact hk
  | recv d n peek => have := (recv_fds s d n peek).2.1; simp only [step]; rw [this]; exact hk
  | shutdown d how =>
    simp only [step, shutdown]
    split
    · exact hk
    · refine withSock_fds _ _ _ _ hk fun fd _ => ?_
      split
      · exact hk
      · dsimp only
        split
        · by_cases e : k = d
          · subst e; simp only [State.setFd, upd_same]
          · simp only [State.setFd, upd_ne _ _ e]; exact hk
        · exact hk
  | dup d d' =>
    simp only [newFds, List.mem_singleton] at hn
    refine withSock_fds _ _ _ _ hk fun fd _ => ?_
    split
    · exact hk
    · simp only [State.setFd, upd_ne _ _ hn]; rw [(bumpPipes_fds _ _).2.1]; exact hk
  | forkFd d d' =>
    simp only [newFds, List.mem_singleton] at hn
    refine withSock_fds _ _ _ _ hk fun fd _ => ?_
    split
    · exact hk
    · split
      · simp only [State.setFd, upd_ne _ _ hn]; exact hk
      · split
        · exact hk
        · simp only [State.setFd, upd_ne _ _ hn]; rw [(bumpPipes_fds _ _).2.1]; exact hk
  | close d cwd =>
    refine withSock_fds _ _ _ _ hk fun fd _ => ?_
    have off : ∀ t : State, t.fds k = none → (t.setFd d none).fds k = none := by
      intro t ht
      by_cases e : k = d
      · subst e; simp only [State.setFd, upd_same]
      · simp only [State.setFd, upd_ne _ _ e]; exact ht
    split
    · exact off _ hk
    · rename_i i _
      have := (dropPipes_fds s fd.h (s.handles fd.h) i).2.1
      dsimp only
      split
      · rw [this]; exact hk
      · refine off _ ?_
        dsimp only; rw [this]; exact hk
  | socketpair d d' nb cwd =>
    simp only [newFds, List.mem_cons, List.not_mem_nil, or_false, not_or] at hn
    simp only [step, socketpair]
    split
    · exact hk
    · have h0 : ∀ t : State, t.fds k = none → (autoBind (autoBind t s.nh cwd) (s.nh + 1) cwd).fds k = none := by
        intro t ht; rw [(autoBind_fds _ _ _).2, (autoBind_fds _ _ _).2]; exact ht
      have h1 := h0 { s with
        handles := upd (upd s.handles s.nh {}) (s.nh + 1) {}, nh := s.nh + 2
        fds := upd (upd s.fds d (some { h := s.nh, nb := nb })) d' (some { h := s.nh + 1, nb := nb }) }
        (by dsimp only; rw [upd_ne _ _ hn.2, upd_ne _ _ hn.1]; exact hk)
      generalize autoBind (autoBind { s with
        handles := upd (upd s.handles s.nh {}) (s.nh + 1) {}, nh := s.nh + 2
        fds := upd (upd s.fds d (some { h := s.nh, nb := nb })) d' (some { h := s.nh + 1, nb := nb }) } s.nh cwd) (s.nh + 1) cwd = t at h1 ⊢
      split
      · split
        · exact h1
        · split
          · exact h1
          · exact h1
      · exact h1
  | setNb d nb =>
    refine withSock_fds _ _ _ _ hk fun fd hfd => ?_
    have : k ≠ d := fun e => by subst e; rw [hk] at hfd; cases hfd
    simp only [State.setFd, upd_ne _ _ this]; exact hk
  | fsys fs => exact hk

/-- `Orderly`, for a state without descriptors from `N` on. -/
def orderlyB (N : Nat) (s : State) : Op → Bool
  | .connect d cwd a => match s.fds d with
    | none => true
    | some fd => (s.handles fd.h).peek.isEmpty && (inOf s d).isNone && (outOf s d).isNone &&
        (List.range N).all (fun k => sockOf s k != some fd.h || k == d) && (s.acc (pathOf cwd a)).isNone
  | .shutdown d how => how != 2 || ((inOf s d).isNone && (outOf s d).isNone)
  | .accept d _ cwd => match s.fds d with
    | none => true
    | some fd => match (s.handles fd.h).laddr with
      | none => true
      | some la => match s.acc (pathOf cwd la) with
        | none => true
        | some x => match s.fs.walk (pathOf cwd x.addr) with
          | some (some _, _) => true
          | _ => false
  | _ => true

theorem orderly_of {N : Nat} {s : State} (hN : ∀ k, N ≤ k → s.fds k = none) {op : Op} (h : orderlyB N s op = true) : Orderly s op := by
  cases op with
  | connect d cwd a =>
    intro fd hfd
    simp only [orderlyB, hfd, Bool.and_eq_true, List.isEmpty_iff, Option.isNone_iff_eq_none, List.all_eq_true, List.mem_range,
      Bool.or_eq_true, bne_iff_ne, beq_iff_eq] at h
    obtain ⟨⟨⟨⟨h1, h2⟩, h3⟩, h4⟩, h5⟩ := h
    refine ⟨h1, h2, h3, fun k hk => ?_, h5⟩
    by_cases hlt : k < N
    · exact (h4 k hlt).resolve_left (fun c => c hk)
    · rw [sockOf_none.2 (hN k (by omega))] at hk; cases hk
  | shutdown d how =>
    intro e
    simpa [orderlyB, e] using h
  | accept d new cwd =>
    intro fd la x h1 h2 h3
    simp only [orderlyB, h1, h2, h3] at h
    split at h
    · rename_i i par hw; exact ⟨i, par, hw⟩
    · cases h
  | _ => trivial

/-- Every call is orderly, makes no descriptor from `N` on and does not panic. -/
def tidyB (N : Nat) (S : Sys) : List Op → Bool
  | [] => true
  | op :: ops => orderlyB N S.s op && (newFds op).all (· < N) && (step S.s op).2.ret != .panic && tidyB N (S.step op) ops

theorem Tidy.run {S : Sys} (h : Tidy S) {N : Nat} (hN : ∀ k, N ≤ k → S.s.fds k = none) (ops : List Op) (hc : tidyB N S ops = true) :
    Tidy (S.run ops) := by
  induction ops generalizing S with
  | nil => exact h
  | cons op ops ih =>
    simp only [tidyB, Bool.and_eq_true, List.all_eq_true, decide_eq_true_eq, bne_iff_ne] at hc
    refine ih (h.step op (orderly_of hN hc.1.1.1) hc.1.2) ?_ hc.2
    intro k hk
    exact step_newFds S.s op k (hN k hk) (fun hm => by have := hc.1.1.2 k hm; omega)

/-! ## A history that meets the hypotheses -/

/-- A connection; the client's descriptor 4 is also 8, the server's 5 is also 9 (in a forked child); the server sends two bytes. -/
def manyOps : List Op := linkOps ++ [.dup 4 8, .forkFd 5 9, .send 9 [7, 8]]
def manyS : Sys := Sys.run { s := init fs0 } manyOps
theorem manyS_tidy : Tidy manyS := (Tidy.start fs0).run (N := 10) (fun _ _ => rfl) manyOps (by decide +kernel)

/-- 5 is closed: 9 is left, the client gets no end of stream. -/
def lessOps : List Op := manyOps ++ [.recv 4 2 false, .close 5 cw]
def lessS : Sys := Sys.run { s := init fs0 } lessOps
theorem lessS_tidy : Tidy lessS :=
  (Tidy.start fs0).run (N := 10) (fun _ _ => rfl) lessOps (by decide +kernel)

theorem lessS_facts : inOf lessS.s 4 = some 1 ∧ inOf lessS.s 8 = some 1 ∧ outOf lessS.s 9 = some 1 ∧ outOf lessS.s 5 = none ∧
    outOf lessS.s 4 = some 0 ∧ inOf lessS.s 9 = some 0 ∧ pending lessS.s 4 = [] := by decide +kernel

example := end_of_stream_partial manyS_tidy (ready_of (s := manyS.s) (d := 4) (st := .connected) (by decide +kernel)) (.inl rfl)
  (p := 1) (by decide +kernel) (n := 3) (by decide) false
example := (end_of_stream_partial lessS_tidy (ready_of (s := lessS.s) (d := 4) (st := .connected) (by decide +kernel)) (.inl rfl)
  lessS_facts.1 (n := 3) (by decide) false).2 lessS_facts.2.2.2.2.2.2 (.inl ⟨9, lessS_facts.2.2.1⟩)
example := broken_pipe_partial lessS_tidy (ready_of (s := lessS.s) (d := 4) (st := .connected) (by decide +kernel)) (.inl rfl)
  lessS_facts.2.2.2.2.1 [1] [[], [2]]
example := close_keeps_others_partial manyS_tidy (d := 5) (cwd := cw) (by decide +kernel) (k := 9) (by decide)
/-- Closing 9 as well: now it gets it, and its sends fail. -/
example : ((run lessS.s [.recv 4 1 false, .send 4 [1], .close 9 cw, .recv 4 1 false, .recv 8 1 true, .send 8 [1]]).2.map (·.ret)) =
    [.err .EAGAIN, .ok 1, .ok 0, .ok 0, .ok 0, .err .EPIPE] := by decide +kernel

example := (peer_hears_partial lessS_tidy (d := 9) (e := 8) (cwd := cw) (by decide +kernel) lessS_facts.2.2.1 (by decide)
  (ready_of (st := .connected) (by decide +kernel)) (.inl rfl) lessS_facts.2.1 (by decide +kernel) (n := 1) (by decide) false)

/-! ## What the code gets wrong -/

/-- C77 is violated: a descriptor made by dup before the socket was connected is not counted.  Closing it makes the other side see end of
stream, although the socket is still open, and still sends. -/
theorem dup_before_connect_violated :
    let s := (run (init fs0) [.socket 3 true, .bind 3 cw pS, .listen 3, .socket 4 true, .dup 4 8, .connect 4 cw pS,
      .accept 3 (some 5) cw, .close 8 cw]).1
    outOf s 4 = inOf s 5 ∧ stateOf s 4 = some .connected ∧
    ((run s [.recv 5 1 false, .send 4 [1], .recv 5 1 false]).2.map (·.ret)) = [.ok 0, .ok 1, .ok 1] := by decide +kernel

/-- C77 is violated: after SHUT_RDWR no descriptor of the client is left, but the server never sees end of stream and its sends succeed. -/
theorem shut_both_silent_violated :
    let s := (run linkS.s [.shutdown 4 2]).1
    s.fds 4 = none ∧ (∀ d < 10, d ≠ 5 → outOf s d ≠ inOf s 5) ∧
    ((run s [.recv 5 1 false, .send 5 [1]]).2.map (·.ret)) = [.err .EAGAIN, .ok 1] := by decide +kernel

/-- C77 is violated: after SHUT_WR the client cannot send any more, but the server sees no end of stream. -/
theorem shut_write_silent_violated :
    ((run linkS.s [.shutdown 4 1, .send 4 [1], .recv 5 1 false]).2.map (·.ret)) = [.ok 0, .err .ENOTCONN, .err .EAGAIN] := by decide +kernel

/-- C77 is violated: if the server closes its listening socket without accepting, the client is never told: nothing can receive what it
sends, but its sends succeed and its receives wait. -/
theorem listener_closed_violated :
    ((run (Sys.run { s := init fs0 } askOps).s [.close 3 cw, .send 4 [1], .recv 4 1 false]).2.map (·.ret)) = [.ok 0, .ok 1, .err .EAGAIN] := by
  decide +kernel

/-- C77 is violated: dup makes no reference to the inode of the socket.  Once both descriptors of the client are closed, the server's
close aborts the program. -/
theorem dup_close_panic_violated :
    ((run linkS.s [.dup 4 8, .close 4 cw, .close 8 cw, .close 5 cw]).2.map (·.ret)) = [.ok 8, .ok 0, .ok 0, .panic] := by decide +kernel

end Verif.UnixSock
