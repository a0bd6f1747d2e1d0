import Verif.UnixBindProps
import Verif.KernelInit

/-!
Concrete histories beside the theorems of `UnixSockProps` and `UnixBindProps`: examples that meet their hypotheses, and witnesses
(`_violated`) of the cases where the code does not do what the property says.
-/

set_option linter.unusedSimpArgs false

namespace Verif.UnixSock

open Verif.Path Verif.Fs
open Verif.Kernel (CwdOk)

/-! ## Concrete connections -/

/-- The directory `/`. -/
def cw : Str := [47]
/-- `/srv`. -/
def pS : Str := [47, 115]
/-- `/other`. -/
def pO : Str := [47, 111]

theorem cw_ok : CwdOk cw := ⟨[], by simp, by simp [render, cw, slash]⟩

/-- The file system a program starts with. -/
def fs0 : Fs := Verif.Kernel.init.fs

theorem fs0_tree : Tree fs0.inodes fs0.next := Verif.Kernel.Reach.init.inv.fs.tree

/-- A server listens on `/s` with descriptor 3, and a client connects with descriptor 4. -/
def askOps : List Op := [.socket 3 true, .bind 3 cw pS, .listen 3, .socket 4 true, .connect 4 cw pS]
/-- The server accepts: descriptor 5. -/
def linkOps : List Op := askOps ++ [.accept 3 (some 5) cw]
/-- Both sides send, and the client has peeked. -/
def talkOps : List Op := linkOps ++ [.send 4 [1, 2, 3], .send 5 [7, 8], .recv 4 1 true]

/-- The calls, with the history. -/
def Sys.run (S : Sys) : List Op → Sys
  | [] => S
  | op :: ops => Sys.run (S.step op) ops

/-- Every connect is on a socket without peeked bytes. -/
def cleanB (s : State) : Op → Bool
  | .connect d _ _ => match s.fds d with | none => true | some fd => (s.handles fd.h).peek.isEmpty
  | _ => true

def cleansB (S : Sys) : List Op → Bool
  | [] => true
  | op :: ops => cleanB S.s op && cleansB (S.step op) ops

theorem Reach.run {S : Sys} (h : Reach S) (ops : List Op) (hc : cleansB S ops = true) : Reach (S.run ops) := by
  induction ops generalizing S with
  | nil => exact h
  | cons op ops ih =>
    simp only [cleansB, Bool.and_eq_true] at hc
    refine ih (h.step op ?_) hc.2
    cases op with
    | connect d c a =>
      intro fd hfd
      have := hc.1
      simp only [cleanB, hfd] at this
      simpa using this
    | _ => trivial

def linkS : Sys := Sys.run { s := init fs0 } linkOps
def talkS : Sys := Sys.run { s := init fs0 } talkOps

theorem linkS_reach : Reach linkS := (Reach.start fs0).run linkOps (by decide +kernel)
theorem talkS_reach : Reach talkS := (Reach.start fs0).run talkOps (by decide +kernel)

/-! ## C40 -/

/-- In `talkS` the descriptors 4 and 5 are linked, bytes are on the way in both directions, and one of them is peeked. -/
theorem talkS_facts : outOf talkS.s 4 = some 0 ∧ inOf talkS.s 5 = some 0 ∧ outOf talkS.s 5 = some 1 ∧ inOf talkS.s 4 = some 1 ∧
    pending talkS.s 5 = [1, 2, 3] ∧ pending talkS.s 4 = [7, 8] ∧ talkS.sent 0 = [1, 2, 3] ∧ talkS.sent 1 = [7, 8] ∧
    sockOf talkS.s 4 = some 1 ∧ sockOf talkS.s 5 = some 2 ∧ stateOf talkS.s 4 = some .connected ∧
    (talkS.s.handles 1).peek = [7] := by decide +kernel

theorem talkS_linked : Linked talkS.s 4 5 := ⟨⟨0, talkS_facts.1, talkS_facts.2.1⟩, 1, talkS_facts.2.2.1, talkS_facts.2.2.2.1⟩

/-- `Ready` of a concrete state can be evaluated. -/
def readyB (s : State) (d : Nat) (st : ConnState) : Bool :=
  match s.fds d with | none => false | some fd => !(s.handles fd.h).waiting && decide ((s.handles fd.h).st = st)

theorem ready_of {s : State} {d : Nat} {st : ConnState} (h : readyB s d st = true) : Ready s d st := by
  unfold readyB at h
  split at h
  · cases h
  · rename_i fd hfd
    simp only [Bool.and_eq_true, Bool.not_eq_true', decide_eq_true_eq] at h
    exact ⟨fd, hfd, h.1, h.2⟩

example : talkS.rcvd 1 ++ pending talkS.s 4 = talkS.sent 1 := by rw [talkS_facts.2.2.2.2.2.1, talkS_facts.2.2.2.2.2.2.2.1]; decide +kernel
example := fifo_partial talkS_reach talkS_facts.2.2.2.1
example := directions_match talkS_reach talkS_facts.1 talkS_facts.2.1 talkS_facts.2.2.2.1 talkS_facts.2.2.1
example := send_effect talkS talkS_facts.1 [9, 9]
example := writev_effect talkS talkS_facts.1 [[9], [], [9]]
example := recv_exact (ready_of (s := talkS.s) (d := 4) (st := .connected) (by decide +kernel)) (.inl rfl) talkS_facts.2.2.2.1 2 false
example : (step talkS.s (.recv 4 2 false)).2.bytes = [7, 8] := by decide +kernel
example : (step (Sys.run { s := init fs0 } askOps).s (.accept 3 (some 5) cw)).2.ret = .ok 5 := by decide +kernel
example : (step (init fs0) (.socketpair 3 4 false cw)).2.ret = .ok 0 := by decide +kernel
example := socketpair_links (s := init fs0) (d := 3) (d' := 4) (nb := false) (cwd := cw) (by decide +kernel)

/-- C40 is violated: bytes peeked on one connection are delivered on the next one the socket makes.  The client peeks two bytes, shuts
the socket down in both directions and connects again; on the new connection, on which nothing has been sent, it receives them. -/
theorem peek_reconnect_violated :
    let S := Sys.run linkS [.send 5 [7, 8], .recv 4 2 true, .shutdown 4 0, .shutdown 4 1, .connect 4 cw pS, .accept 3 (some 6) cw]
    Linked S.s 4 6 ∧ inOf S.s 4 = some 3 ∧ S.sent 3 = [] ∧ (step S.s (.recv 4 2 false)).2.bytes = [7, 8] := by
  refine ⟨⟨⟨2, ?_⟩, 3, ?_⟩, ?_⟩ <;> decide +kernel

/-- C40 is violated: of two clients that connect before the server accepts, the first is lost.  Its connect and its send succeed, but
the server only ever gets the second. -/
theorem first_connect_lost_violated :
    let S := Sys.run { s := init fs0 } (askOps ++ [.socket 6 true, .connect 6 cw pS, .send 4 [1, 2], .accept 3 (some 5) cw])
    stateOf S.s 4 = some .connected ∧ S.sent 0 = [1, 2] ∧ outOf S.s 4 = some 0 ∧
    Linked S.s 6 5 ∧ (step S.s (.accept 3 (some 7) cw)).2.ret = .err .EAGAIN := by
  refine ⟨?_, ?_, ?_, ⟨⟨2, ?_⟩, 3, ?_⟩, ?_⟩ <;> decide +kernel

/-- C40 is violated: if the name of the client is unlinked before the server accepts, the accepted socket aborts the program on its
first send. -/
theorem accept_unlinked_violated :
    let s := (Sys.run { s := init fs0 } askOps).s
    let s' := (run s [.fsys (s.fs.unlink (pathOf cw (genPath 0))).1, .accept 3 (some 5) cw]).1
    stateOf s' 5 = some .connected ∧ (step s' (.send 5 [1])).2.ret = .panic ∧ (step s' (.recv 5 1 false)).2.ret = .panic := by
  decide +kernel

/-! ## C41 -/

example := peek_same_result (ready_of (s := talkS.s) (d := 5) (st := .connected) (by decide +kernel)) (.inl rfl) talkS_facts.2.1 2
example : (step talkS.s (.recv 5 2 true)).2.bytes = [1, 2] ∧
    (run talkS.s [.recv 5 2 true, .recv 5 1 false, .recv 5 9 false]).2.map (·.bytes) = [[1, 2], [1], [2, 3]] := by decide +kernel
example := peek_changes_no_result talkS_reach 5 2 [(5, 1, false), (5, 9, true), (4, 1, false)]

/-! ## C49 -/

example := send_needs (s := talkS.s) (d := 4) (data := [1, 2]) (k := 2) (by decide +kernel)
example := recv_needs (s := talkS.s) (d := 4) (n := 2) (peek := false) (k := 2) (by decide +kernel)
example := shut_both (ready_of (s := talkS.s) (d := 4) (st := .connected) (by decide +kernel))

/-- The sending side of 4 is shut down; a descriptor of the same socket is made and the peer sends: nothing can be sent. -/
def halfS : Sys := Sys.run talkS [.shutdown 4 1]
theorem halfS_reach : Reach halfS := talkS_reach.run _ (by decide +kernel)
theorem halfS_later : Meanwhile 1 halfS.s (run halfS.s [.dup 4 8, .send 5 [1], .recv 8 1 false]).1 := by
  refine .step (.recv 8 1 false) (.step (.send 5 [1]) (.step (.dup 4 8) (.refl _) ?_ ?_) ?_ ?_) ?_ ?_ <;> (intros; contradiction)
example := (shut_down_stays_partial halfS_reach (d := 4) (by decide +kernel) halfS_later (e := 8) (by decide +kernel)).1
  (.inl (by decide +kernel)) [1, 2] 2

/-- C49 is violated: with a full descriptor table accept "succeeds" on any socket, listening or not, and gives back its argument. -/
theorem accept_full_violated : stateOf talkS.s 4 = some .connected ∧ step talkS.s (.accept 4 none cw) = (talkS.s, .r (.ok 4)) := by
  refine ⟨by decide +kernel, ?_⟩
  obtain ⟨fd, h1, h2, -⟩ := ready_of (s := talkS.s) (d := 4) (st := .connected) (by decide +kernel)
  simp [step, accept, withSock, h1, h2]

/-- C49 is violated: after SHUT_RD and SHUT_WR, one more SHUT_RD makes sending possible again. -/
theorem shut_again_violated :
    ((run talkS.s [.shutdown 4 0, .shutdown 4 1, .send 4 [1], .shutdown 4 0, .send 4 [1]]).2.map (·.ret)) =
      [.ok 0, .ok 0, .err .ENOTCONN, .ok 0, .ok 1] := by decide +kernel

/-- C49 is violated: SHUT_RDWR closes the descriptor, which SHUT_RD and SHUT_WR together do not. -/
theorem shut_both_differs_violated :
    ((run talkS.s [.shutdown 4 2, .getsockname 4]).2.map (·.ret)) = [.ok 0, .err .EBADF] ∧
    ((run talkS.s [.shutdown 4 0, .shutdown 4 1, .getsockname 4]).2.map (·.ret)) = [.ok 0, .ok 0, .ok 0] := by decide +kernel

/-- C49 is violated: SHUT_RD on a socket that was never connected makes it ready to send, and the send aborts the program. -/
theorem shut_unconnected_violated :
    ((run (init fs0) [.socket 3 true, .shutdown 3 0, .send 3 [1]]).2.map (·.ret)) = [.ok 3, .ok 0, .panic] := by decide +kernel

/-! ## C54 -/

example : CwdOk cw ∧ Tree linkS.s.fs.inodes linkS.s.fs.next := by
  refine ⟨cw_ok, ?_⟩
  have t : ∀ (ops : List Op) (S : Sys), Tree S.s.fs.inodes S.s.fs.next → (∀ op ∈ ops, CwdsOk op) → (∀ op ∈ ops, ∀ fs, op ≠ .fsys fs) →
      Tree (S.run ops).s.fs.inodes (S.run ops).s.fs.next := by
    intro ops
    induction ops with
    | nil => intro S h _ _; exact h
    | cons op ops ih =>
      intro S h h1 h2
      exact ih (S.step op) (tree_step h (h1 op (by simp)) fun fs e => absurd e (h2 op (by simp) fs))
        (fun o m => h1 o (by simp [m])) (fun o m => h2 o (by simp [m]))
  refine t linkOps { s := init fs0 } fs0_tree ?_ ?_
  · intro op hm
    simp only [linkOps, askOps, List.cons_append, List.nil_append, List.mem_cons, List.not_mem_nil, or_false] at hm
    rcases hm with rfl | rfl | rfl | rfl | rfl | rfl <;> first | trivial | exact cw_ok
  · intro op hm fs
    simp only [linkOps, askOps, List.cons_append, List.nil_append, List.mem_cons, List.not_mem_nil, or_false] at hm
    rcases hm with rfl | rfl | rfl | rfl | rfl | rfl <;> simp

/-- One unbound socket. -/
def oneS : Sys := Sys.run { s := init fs0 } [.socket 3 true]
theorem oneS_reach : Reach oneS := (Reach.start fs0).run _ (by decide +kernel)

example : (step oneS.s (.bind 3 cw pS)).2.ret = .ok 0 := by decide +kernel
theorem oneS_place : Place oneS.s cw pS rootIno [115] := by
  obtain ⟨rd, h1, h2⟩ := fs0_tree.root
  exact ⟨[], rd, by decide +kernel, .here _, h1, h2⟩
example := bind_effect (s := oneS.s) fs0_tree cw_ok (d := 3) (a := pS) (by decide +kernel) oneS_place
example := bound_once_for_all oneS_reach (d := 3) (h := 0) (cwd := cw) (a := pS) (by decide +kernel) (by decide +kernel)
  [.listen 3, .socket 4 true, .connect 4 cw pS, .dup 3 6, .close 3 cw] (e := 6) (st := .listen) (by decide +kernel)
  (ready_of (by decide +kernel))
/-- The root exists. -/
example := bind_existing_partial (s := oneS.s) fs0_tree cw_ok (d := 3) (a := cw) (i := rootIno)
  ⟨⟨0, true⟩, by decide +kernel, by decide +kernel, by decide +kernel⟩ (by decide) (by
    have : Verif.Kernel.names (normpath cw cw) = [] := by decide +kernel
    unfold Leads; rw [this]; exact .here _)

/-- C54 is violated: a bind that fails because the name exists leaves the socket with that address.  It reports it, it cannot be bound
to a free name any more, and a connect with it aborts the program. -/
theorem failed_bind_violated :
    ((run linkS.s [.socket 7 true, .bind 7 cw pS, .getsockname 7, .bind 7 cw pO, .connect 7 cw pS]).2.map fun o => (o.ret, o.addr)) =
      [(.ok 7, none), (.err .EADDRINUSE, none), (.ok 0, some pS), (.err .EINVAL, none), (.panic, none)] := by decide +kernel

end Verif.UnixSock
