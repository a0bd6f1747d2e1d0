import Verif.UnixRefsStep

/-!
# C77: when a unix stream socket reports that the other side is gone
-/

set_option linter.unusedSimpArgs false

namespace Verif.UnixSock

open Verif.Path Verif.Fs
open Verif.Pipe (Pipe End udsockCapacity)

/-- Somebody can still send on direction `p`: a descriptor, or the accepting side of a connection not accepted yet. -/
def CanSend (s : State) (p : Nat) : Prop := (∃ e, outOf s e = some p) ∨ ∃ w x, s.acc w = some x ∧ x.send = p
/-- Somebody can still receive from direction `p`. -/
def CanRecv (s : State) (p : Nat) : Prop := (∃ e, inOf s e = some p) ∨ ∃ w x, s.acc w = some x ∧ x.recv = p

theorem isEnd_out {s : State} {p d : Nat} : IsEnd s .write p d ↔ outOf s d = some p := by
  cases h : s.fds d <;> simp [IsEnd, outOf, sockOf, hend_write, h]

theorem isEnd_in {s : State} {p d : Nat} : IsEnd s .read p d ↔ inOf s d = some p := by
  cases h : s.fds d <;> simp [IsEnd, inOf, sockOf, hend_read, h]

theorem Counts.zero_iff {s : State} {n : Nat} (C : Counts s n) (e : End) {p : Nat} (hp : p < s.np) :
    refs e (s.pipes p) = 0 ↔ ¬ ((∃ d, IsEnd s e p d) ∨ Waits s e p) := by
  rw [C.cnt e p hp n (Nat.le_refl _)]
  constructor
  · intro h
    rintro (⟨d, hd⟩ | hw)
    · have hlt : d < n := by
        obtain ⟨x, hx, -⟩ := hd
        exact C.isLt hx
      have := sumTo_le (f := wt s e p) hlt
      rw [wt_pos hd] at this
      omega
    · rw [pend_pos hw] at h; omega
  · intro h
    rw [pend_neg (fun x => h (.inr x)), sumTo_zero fun d _ => wt_neg fun x => h (.inl ⟨d, x⟩)]

theorem Tidy.wref {S : Sys} (h : Tidy S) {p : Nat} (hp : p < S.s.np) : (S.s.pipes p).wref = 0 ↔ ¬ CanSend S.s p := by
  obtain ⟨n, C⟩ := h.counts
  have := C.zero_iff .write hp
  simp only [isEnd_out] at this
  exact this

theorem Tidy.rref {S : Sys} (h : Tidy S) {p : Nat} (hp : p < S.s.np) : (S.s.pipes p).rref = 0 ↔ ¬ CanRecv S.s p := by
  obtain ⟨n, C⟩ := h.counts
  have := C.zero_iff .read hp
  simp only [isEnd_in] at this
  exact this

theorem inOf_lt {S : Sys} (h : Reach S) {d p : Nat} (hd : inOf S.s d = some p) : p < S.s.np := by
  cases hf : S.s.fds d with
  | none => simp [inOf, hf] at hd
  | some fd => exact h.inv.inLt fd.h p (by simpa [inOf, hf] using hd)

theorem outOf_lt {S : Sys} (h : Reach S) {d p : Nat} (hd : outOf S.s d = some p) : p < S.s.np := by
  cases hf : S.s.fds d with
  | none => simp [outOf, hf] at hd
  | some fd => exact h.inv.outLt fd.h p (by simpa [outOf, hf] using hd)

/-- C77.  A receive of at least one byte on a connected socket reports end of stream if and only if every byte was received and nobody
can send on the connection any more; until then it gives bytes if there are any, and if there are none it answers EAGAIN (non-blocking)
or waits. -/
theorem end_of_stream_partial {S : Sys} (h : Tidy S) {d p : Nat} {st : ConnState} (hr : Ready S.s d st) (hst : st = .connected ∨ st = .rdOnly)
    (hin : inOf S.s d = some p) {n : Nat} (hn : 0 < n) (peek : Bool) :
    ((step S.s (.recv d n peek)).2.ret = .ok 0 ↔ pending S.s d = [] ∧ ¬ CanSend S.s p) ∧
    (pending S.s d = [] → CanSend S.s p →
      (step S.s (.recv d n peek)).2.ret = if (S.s.fds d).map (·.nb) = some true then .err .EAGAIN else .blocked) := by
  have hx := (recv_exact hr hst hin n peek).1
  have hw := h.wref (inOf_lt h.reach hin)
  rw [hx]
  by_cases hp : pending S.s d = []
  · rw [if_neg (by rintro (c | c); · omega
                   · exact c hp)]
    by_cases c : (S.s.pipes p).wref = 0
    · rw [if_pos c]
      exact ⟨⟨fun _ => ⟨hp, hw.1 c⟩, fun _ => rfl⟩, fun _ hc => absurd hc (hw.1 c)⟩
    · rw [if_neg c]
      refine ⟨⟨fun e => ?_, fun e => absurd (hw.2 e.2) c⟩, fun _ _ => ?_⟩
      · split at e <;> cases e
      · split <;> rfl
  · rw [if_pos (.inr hp)]
    refine ⟨⟨fun e => ?_, fun e => absurd e.1 hp⟩, fun e => absurd e hp⟩
    have hl : 0 < (pending S.s d).length := by
      cases hq : pending S.s d with
      | nil => exact absurd hq hp
      | cons a l => simp
    have := Ret.ok.inj e
    omega

theorem writeNow_epipe (p : Pipe) (data : List UInt8) (nb : Bool) : (p.writeNow data nb).2 = .err .EPIPE ↔ data ≠ [] ∧ p.rref = 0 := by
  unfold Pipe.Pipe.writeNow
  by_cases hd : data.length = 0
  · rw [if_pos hd]
    have : data = [] := List.eq_nil_of_length_eq_zero hd
    simp [this]
  · rw [if_neg hd]
    have hne : data ≠ [] := fun e => hd (by rw [e]; rfl)
    obtain ⟨k, _, _, _, hk, h0, -⟩ := Pipe.writeLoop_spec data nb (data.length + 1) p 0 (by omega) (by omega)
    constructor
    · intro h
      rcases hk with e | e | e | e
      · rw [e] at h; cases h
      · exact ⟨hne, e.2.1⟩
      · rw [e.1] at h; cases h
      · rw [e.1] at h; cases h
    · rintro ⟨_, h⟩
      exact h0 h (by omega)

theorem writevLoop_epipe (nb : Bool) : ∀ (iovs : List (List UInt8)) (p : Pipe) (tot : Nat),
    (Pipe.writevLoop nb iovs p tot).2 = .err .EPIPE ↔ iovs.flatten ≠ [] ∧ p.rref = 0 := by
  intro iovs
  induction iovs with
  | nil => intro p tot; simp [Pipe.writevLoop]
  | cons iov rest ih =>
    intro p tot
    have he := writeNow_epipe p iov nb
    obtain ⟨k, hk1, hk2, hk3⟩ := Pipe.writeNow_any p iov nb
    generalize hr : p.writeNow iov nb = r at he hk2 hk3
    obtain ⟨p', r⟩ := r
    simp only at he hk2 hk3
    subst hk2
    unfold Pipe.writevLoop
    rw [hr]
    rcases hk3 with e | ⟨e | e, h0⟩ | e
    · subst e
      dsimp only
      rw [ih]
      simp only [reduceCtorEq, false_iff, not_and] at he
      rw [List.flatten_cons]
      by_cases hi : iov = []
      · subst hi; simp
      · have := he hi
        simp [this]
    · subst e
      dsimp only
      simp only [true_iff] at he
      simp [he.1, he.2]
    · subst e
      simp only [reduceCtorEq, false_iff, not_and, Ret.err.injEq] at he
      dsimp only
      constructor
      · intro h; split at h <;> cases h
      · rintro ⟨h1, h2⟩
        have hi : iov = [] := by
          apply Classical.byContradiction; intro hi; exact he hi h2
        subst hi
        simp [Pipe.Pipe.writeNow] at hr
    · subst e
      simp only [reduceCtorEq, false_iff, not_and] at he
      dsimp only
      constructor
      · intro h; cases h
      · rintro ⟨h1, h2⟩
        have hi : iov = [] := by
          apply Classical.byContradiction; intro hi; exact he hi h2
        subst hi
        simp [Pipe.Pipe.writeNow] at hr

/-- C77.  A send on a connected socket fails with EPIPE if and only if there is something to send and nobody can receive on the connection
any more. -/
theorem broken_pipe_partial {S : Sys} (h : Tidy S) {d p : Nat} {st : ConnState} (hr : Ready S.s d st) (hst : st = .connected ∨ st = .wrOnly)
    (hout : outOf S.s d = some p) (data : List UInt8) (iovs : List (List UInt8)) :
    ((step S.s (.send d data)).2.ret = .err .EPIPE ↔ data ≠ [] ∧ ¬ CanRecv S.s p) ∧
    ((step S.s (.writev d iovs)).2.ret = .err .EPIPE ↔ iovs.flatten ≠ [] ∧ ¬ CanRecv S.s p) := by
  have hw := h.rref (outOf_lt h.reach hout)
  obtain ⟨fd, hfd, hwt, hs⟩ := hr
  cases hi : (S.s.handles fd.h).info with
  | none => simp [outOf, hfd, UnixSock.hout, hi] at hout
  | some i =>
    have hp : i.send = some p := by simpa [outOf, hfd, UnixSock.hout, hi] using hout
    have hok : ¬ ((S.s.handles fd.h).st ≠ .connected ∧ (S.s.handles fd.h).st ≠ .wrOnly) := by
      rw [hs]; rcases hst with rfl | rfl <;> simp
    simp only [step, send, writev, withSock, hfd, hwt, Bool.false_eq_true, if_false, hok, hi, hp]
    rw [← hw]
    exact ⟨writeNow_epipe _ _ _, writevLoop_epipe _ _ _ _⟩

/-- C77.  Closing a descriptor takes nothing from any other descriptor, also not from one of the same socket: all of them send to and
receive from what they did before. -/
theorem close_keeps_others_partial {S : Sys} (h : Tidy S) {d : Nat} {cwd : Str} (hok : (step S.s (.close d cwd)).2.ret = .ok 0) {k : Nat}
    (hk : k ≠ d) :
    inOf (step S.s (.close d cwd)).1 k = inOf S.s k ∧ outOf (step S.s (.close d cwd)).1 k = outOf S.s k ∧
    sockOf (step S.s (.close d cwd)).1 k = sockOf S.s k ∧ sockOf (step S.s (.close d cwd)).1 d = none := by
  obtain ⟨n, C⟩ := h.counts
  have I := h.reach.inv
  have conv : ∀ s', sockOf s' k = sockOf S.s k → (∀ x, sockOf S.s k = some x → ∀ e, hend e s' x = hend e S.s x) →
      inOf s' k = inOf S.s k ∧ outOf s' k = outOf S.s k ∧ sockOf s' k = sockOf S.s k := by
    intro s' h1 h2
    have i1 : ∀ s : State, inOf s k = (sockOf s k).bind (hend .read s) := by
      intro s; cases hx : s.fds k <;> simp [inOf, sockOf, hx, hend_read]
    have o1 : ∀ s : State, outOf s k = (sockOf s k).bind (hend .write s) := by
      intro s; cases hx : s.fds k <;> simp [outOf, sockOf, hx, hend_write]
    rw [i1, i1, o1, o1, h1]
    cases hx : sockOf S.s k with
    | none => simp
    | some x => simp [h2 x hx]
  simp only [step, close, withSock] at hok ⊢
  cases hfd : S.s.fds d with
  | none => rw [hfd] at hok; cases hok
  | some fd =>
    have hd : sockOf S.s d = some fd.h := by simp [sockOf, hfd]
    rw [hfd] at hok
    dsimp only at hok ⊢
    split
    · rename_i hw; rw [if_pos hw] at hok; cases hok
    · rename_i hw
      rw [if_neg hw] at hok
      cases hi : (S.s.handles fd.h).info with
      | none =>
        dsimp only
        have := conv (S.s.setFd d none) (by simp only [sockOf, State.setFd, upd_ne _ _ hk]) (fun _ _ _ => rfl)
        exact ⟨this.1, this.2.1, this.2.2, by simp only [sockOf, State.setFd, upd_same, Option.map_none]⟩
      | some i =>
        rw [hi] at hok
        dsimp only at hok ⊢
        cases hdrop : dropInode S.s.fs i.inode (S.s.handles fd.h).laddr cwd with
        | none => rw [hdrop] at hok; cases hok
        | some fs1 =>
          dsimp only
          have hlt : ∀ e p, hend e S.s fd.h = some p → p < S.s.np := fun e p h => ends_lt I e _ p h
          obtain ⟨-, h2, -, -, h5, -⟩ := dropPipes_same S.s fd.h (S.s.handles fd.h) i
          have he := fun hk' => dropPipes_ends (d' := k) C hd hk' hk hi hlt
          generalize dropPipes S.s fd.h (S.s.handles fd.h) i = t at h2 h5 he
          have := conv (State.setFd { t with fs := fs1 } d none) (by simp only [sockOf, State.setFd, upd_ne _ _ hk, h2]) (fun x hx e => ?_)
          · exact ⟨this.1, this.2.1, this.2.2, by simp only [sockOf, State.setFd, upd_same, Option.map_none]⟩
          · by_cases c : x = fd.h
            · subst c; exact he hx e fd.h
            · simp only [hend, State.setFd, h5 x c]

/-- C77.  The close of the last descriptor that can send is what the other side hears: after it the other side, having read
everything, gets end of stream, and as long as another such descriptor is open it does not. -/
theorem peer_hears_partial {S : Sys} (h : Tidy S) {d p e : Nat} {cwd : Str} (hok : (step S.s (.close d cwd)).2.ret = .ok 0)
    (hd : outOf S.s d = some p) (hed : e ≠ d)
    {st : ConnState} (hr : Ready (S.step (.close d cwd)).s e st) (hst : st = .connected ∨ st = .rdOnly) (he : inOf S.s e = some p)
    (hpend : pending (S.step (.close d cwd)).s e = []) {n : Nat} (hn : 0 < n) (peek : Bool) :
    (step (S.step (.close d cwd)).s (.recv e n peek)).2.ret = .ok 0 ↔ ∀ k, outOf S.s k = some p → k = d := by
  have hT : Tidy (S.step (.close d cwd)) := .step _ h trivial (by rw [hok]; simp)
  have keep := fun k hk => close_keeps_others_partial h (k := k) hok hk
  have hin : inOf (S.step (.close d cwd)).s e = some p := (keep e hed).1.trans he
  rw [(end_of_stream_partial hT hr hst hin hn peek).1]
  have hacc' : (S.step (.close d cwd)).s.acc = S.s.acc := (evo_close S.s d cwd).acc
  have hacc : ∀ w x, S.s.acc w = some x → x.send ≠ p := by
    intro w x hx hxp
    cases hf : S.s.fds d with
    | none => simp [outOf, hf] at hd
    | some fd => exact h.reach.inv.accOut w x fd.h hx (by rw [hxp]; simpa [outOf, hf] using hd)
  constructor
  · rintro ⟨-, hc⟩ k hk
    apply Classical.byContradiction
    intro c
    exact hc (.inl ⟨k, (keep k c).2.1.trans hk⟩)
  · intro hall
    refine ⟨hpend, ?_⟩
    rintro (⟨k, hk⟩ | ⟨w, x, hx, hxp⟩)
    · by_cases c : k = d
      · subst c
        have hsock := (keep e hed).2.2.2
        have : outOf (S.step (.close k cwd)).s k = none := by
          have : (S.step (.close k cwd)).s.fds k = none := sockOf_none.1 hsock
          simp [outOf, this]
        rw [this] at hk; cases hk
      · exact c (hall k ((keep k c).2.1.symm.trans hk))
    · rw [hacc'] at hx
      exact hacc w x hx hxp

end Verif.UnixSock
