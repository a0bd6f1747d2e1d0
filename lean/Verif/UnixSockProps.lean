import Verif.UnixSockInv
import Verif.FsInv
import Verif.KernelStep

/-!
# Unix stream sockets: C40, C41, C49 (unix part), C54
-/

set_option linter.unusedSimpArgs false

namespace Verif.UnixSock

open Verif.Path Verif.Fs
open Verif.Pipe (Pipe End udsockCapacity)
open Verif.Kernel (names CwdOk)

/-! ## Specification -/

/-- The bytes waiting to be received on descriptor `d`: those an earlier `MSG_PEEK` has already fetched, then those in the pipe. -/
def pending (s : State) (d : Nat) : List UInt8 :=
  match s.fds d with
  | none => []
  | some fd =>
    (s.handles fd.h).peek ++ (match hin s fd.h with | none => [] | some p => (s.pipes p).buf)

/-- Descriptor `d` is open, its socket is in state `st`, and no `connect` on it is waiting. -/
def Ready (s : State) (d : Nat) (st : ConnState) : Prop :=
  ∃ fd, s.fds d = some fd ∧ (s.handles fd.h).waiting = false ∧ (s.handles fd.h).st = st

/-- The descriptors are the two ends of one connection. -/
def Linked (s : State) (d e : Nat) : Prop :=
  (∃ p, outOf s d = some p ∧ inOf s e = some p) ∧ ∃ q, outOf s e = some q ∧ inOf s d = some q

/-- Some calls, one after the other. -/
def run (s : State) : List Op → State × List Out
  | [] => (s, [])
  | op :: ops => ((run (step s op).1 ops).1, (step s op).2 :: (run (step s op).1 ops).2)

/-! ## C40 -/

/-- C40 (partial: histories in which no socket is connected again while it still holds bytes it has peeked, see
`peek_reconnect_violated`).  Everything sent on a direction is what was received from it followed by what is waiting, in order, each
byte once. -/
theorem fifo_partial {S : Sys} (h : Reach S) {d p : Nat} (hd : inOf S.s d = some p) :
    S.sent p = S.rcvd p ++ pending S.s d := by
  cases hfd : S.s.fds d with
  | none => simp [inOf, hfd] at hd
  | some fd =>
    have hp : hin S.s fd.h = some p := by simpa only [inOf, hfd, Option.bind_some] using hd
    rw [h.inv.fifoH fd.h p hp, List.append_assoc]
    simp only [pending, hfd, hp]

/-- C40 (same restriction).  At any time, even after the receiving end is gone, what was received is a prefix of what was sent. -/
theorem received_prefix_partial {S : Sys} (h : Reach S) (p : Nat) : S.rcvd p <+: S.sent p := h.inv.pre p

/-- C40.  All the bytes of a direction were sent on one and the same socket. -/
theorem one_sender {S : Sys} (h : Reach S) {p a b : Nat} (ha : a ∈ S.senders p) (hb : b ∈ S.senders p) : a = b :=
  h.inv.sndU p a ha b hb

/-- C40.  All the bytes of a direction were received on one and the same socket. -/
theorem one_receiver {S : Sys} (h : Reach S) {p a b : Nat} (ha : a ∈ S.receivers p) (hb : b ∈ S.receivers p) : a = b :=
  h.inv.rcvU p a ha b hb

/-- C40.  A direction has at most one socket at either end. -/
theorem ends_unique {S : Sys} (h : Reach S) {d e p : Nat} :
    (inOf S.s d = some p → inOf S.s e = some p → sockOf S.s d = sockOf S.s e) ∧
    (outOf S.s d = some p → outOf S.s e = some p → sockOf S.s d = sockOf S.s e) := by
  constructor
  · intro h1 h2
    cases hd : S.s.fds d with
    | none => simp [inOf, hd] at h1
    | some fd =>
      cases he : S.s.fds e with
      | none => simp [inOf, he] at h2
      | some fe =>
        simp only [inOf, hd, he, Option.bind_some] at h1 h2
        simp only [sockOf, hd, he, Option.map_some, h.inv.inInj _ _ _ h1 h2]
  · intro h1 h2
    cases hd : S.s.fds d with
    | none => simp [outOf, hd] at h1
    | some fd =>
      cases he : S.s.fds e with
      | none => simp [outOf, he] at h2
      | some fe =>
        simp only [outOf, hd, he, Option.bind_some] at h1 h2
        simp only [sockOf, hd, he, Option.map_some, h.inv.outInj _ _ _ h1 h2]

theorem Pair.other {p q r : Nat} (h1 : Pair p q) (h2 : Pair r p) : r = q := by
  unfold Pair at h1 h2; omega

/-- C40.  The two directions belong together: if `e` receives what `d` sends, and each also has its other direction, then `d` receives
what `e` sends, and never what it sends itself. -/
theorem directions_match {S : Sys} (h : Reach S) {d e p q r : Nat} (h1 : outOf S.s d = some p) (h2 : inOf S.s e = some p)
    (h3 : inOf S.s d = some q) (h4 : outOf S.s e = some r) : r = q ∧ p ≠ q := by
  cases hd : S.s.fds d with
  | none => simp [inOf, hd] at h3
  | some fd =>
    cases he : S.s.fds e with
    | none => simp [inOf, he] at h2
    | some fe =>
      simp only [inOf, outOf, hd, he, Option.bind_some] at h1 h2 h3 h4
      have a := h.inv.pair _ _ _ h1 h3
      have b := h.inv.pair _ _ _ h4 h2
      exact ⟨Pair.other a b, a.2⟩

theorem noteSent_sent {S : Sys} {d p : Nat} (h : outOf S.s d = some p) (bs : List UInt8) (q : Nat) :
    (S.noteSent d bs).sent q = S.sent q ++ if q = p then bs else [] := by
  cases hd : S.s.fds d with
  | none => simp [outOf, hd] at h
  | some fd =>
    have h2 : sockOf S.s d = some fd.h := by simp only [sockOf, hd, Option.map_some]
    unfold Sys.noteSent
    rw [h, h2]
    dsimp only
    by_cases hq : q = p
    · subst hq; rw [upd_same, if_pos rfl]
    · rw [upd_ne _ _ hq, if_neg hq, List.append_nil]

/-- C40.  What a call to send (or write) means: a return value `k` says that exactly the first `k` bytes were sent, an error that none
were; other directions are not affected. -/
theorem send_effect (S : Sys) {d p : Nat} (hd : outOf S.s d = some p) (data : List UInt8) :
    (∀ k, (step S.s (.send d data)).2.ret = .ok k → 0 ≤ k ∧ k ≤ data.length ∧
      (S.step (.send d data)).sent p = S.sent p ++ data.take k.toNat) ∧
    (∀ e, (step S.s (.send d data)).2.ret = .err e → (S.step (.send d data)).sent p = S.sent p) ∧
    (∀ q, q ≠ p → (S.step (.send d data)).sent q = S.sent q) ∧ (S.step (.send d data)).rcvd = S.rcvd := by
  have hs : ∀ q, (S.step (.send d data)).sent q =
      S.sent q ++ if q = p then data.take (send S.s d data).2.pushed else [] := noteSent_sent hd _
  have hr : (S.step (.send d data)).rcvd = S.rcvd := by
    simp only [Sys.step, Sys.noteSent]; split <;> rfl
  refine ⟨?_, ?_, ?_, hr⟩
  · intro k hk
    rw [hs p, if_pos rfl]
    simp only [step] at hk
    revert hk
    unfold send withSock
    cases hfd : S.s.fds d with
    | none => intro hk; cases hk
    | some fd =>
      dsimp only
      split
      · intro hk; cases hk
      · split
        · intro hk; cases hk
        · split
          · intro hk; cases hk
          · split
            · intro hk; cases hk
            · rename_i p' _
              obtain ⟨j, h1, h2, h3⟩ := Verif.Pipe.writeNow_any (S.s.pipes p') data fd.nb
              dsimp only
              intro hk
              rw [h2, take_pushed _ _ _ h1]
              rcases h3 with e | ⟨e | e, -⟩ | e
              · have : k = (j : Int) := Ret.ok.inj (hk.symm.trans e)
                subst this
                exact ⟨by omega, by omega, by simp⟩
              all_goals rw [e] at hk; cases hk
  · intro e he
    rw [hs p, if_pos rfl]
    simp only [step] at he
    revert he
    unfold send withSock
    cases hfd : S.s.fds d with
    | none => intro _; simp [Out.r]
    | some fd =>
      dsimp only
      split
      · intro _; simp [Out.r]
      · split
        · intro _; simp [Out.r]
        · split
          · intro _; simp [Out.r]
          · split
            · intro _; simp [Out.r]
            · rename_i p' _
              obtain ⟨j, h1, h2, h3⟩ := Verif.Pipe.writeNow_any (S.s.pipes p') data fd.nb
              dsimp only
              intro hk
              rw [h2, take_pushed _ _ _ h1]
              rcases h3 with e' | ⟨e' | e', h0⟩ | e'
              · rw [e'] at hk; cases hk
              · simp [h0]
              · simp [h0]
              · rw [e'] at hk; cases hk
  · intro q hq
    rw [hs q, if_neg hq, List.append_nil]

/-- C40.  The same for writev: a return value `k` says that exactly the first `k` bytes of the buffers, one after the other, were
sent. -/
theorem writev_effect (S : Sys) {d p : Nat} (hd : outOf S.s d = some p) (iovs : List (List UInt8)) :
    (∀ k, (step S.s (.writev d iovs)).2.ret = .ok k → 0 ≤ k ∧ k ≤ iovs.flatten.length ∧
      (S.step (.writev d iovs)).sent p = S.sent p ++ iovs.flatten.take k.toNat) ∧
    (∀ q, q ≠ p → (S.step (.writev d iovs)).sent q = S.sent q) ∧ (S.step (.writev d iovs)).rcvd = S.rcvd := by
  have hs : ∀ q, (S.step (.writev d iovs)).sent q =
      S.sent q ++ if q = p then iovs.flatten.take (writev S.s d iovs).2.pushed else [] := noteSent_sent hd _
  have hr : (S.step (.writev d iovs)).rcvd = S.rcvd := by
    simp only [Sys.step, Sys.noteSent]; split <;> rfl
  refine ⟨?_, ?_, hr⟩
  · intro k hk
    rw [hs p, if_pos rfl]
    simp only [step] at hk
    revert hk
    unfold writev withSock
    cases hfd : S.s.fds d with
    | none => intro hk; cases hk
    | some fd =>
      dsimp only
      split
      · intro hk; cases hk
      · split
        · intro hk; cases hk
        · split
          · intro hk; cases hk
          · split
            · intro hk; cases hk
            · rename_i p' _
              obtain ⟨j, h1, h2, h3⟩ := Verif.Pipe.writevLoop_any fd.nb iovs (S.s.pipes p') 0
              simp only [Pipe.writevNow]
              intro hk
              rw [h2, take_pushed _ _ _ h1]
              rcases h3 with e | ⟨e, -⟩ | e | e
              · have : k = ((0 + j : Nat) : Int) := Ret.ok.inj (hk.symm.trans e)
                subst this
                exact ⟨by omega, by omega, by simp⟩
              all_goals rw [e] at hk; cases hk
  · intro q hq
    rw [hs q, if_neg hq, List.append_nil]

/-- C40, C41.  Exactly what a receive does, with or without `MSG_PEEK`: if bytes are waiting it returns the first `n` of them (or all);
if none are waiting it returns 0 if all writers are gone, EAGAIN on a non-blocking descriptor, and waits otherwise.  Without `MSG_PEEK`
the bytes returned are no longer waiting, with it they still are. -/
theorem recv_exact {s : State} {d p : Nat} {st : ConnState} (hr : Ready s d st) (hst : st = .connected ∨ st = .rdOnly)
    (hin : inOf s d = some p) (n : Nat) (peek : Bool) :
    (step s (.recv d n peek)).2 =
      (if n = 0 ∨ pending s d ≠ [] then
        { ret := .ok (min n (pending s d).length : Nat), bytes := (pending s d).take n }
      else if (s.pipes p).wref = 0 then { ret := .ok 0 }
      else if (s.fds d).map (·.nb) = some true then { ret := .err .EAGAIN } else { ret := .blocked }) ∧
    pending (step s (.recv d n peek)).1 d = if peek then pending s d else (pending s d).drop n := by
  obtain ⟨fd, hfd, hw, hs⟩ := hr
  cases hi : (s.handles fd.h).info with
  | none => simp [inOf, hfd, UnixSock.hin, hi] at hin
  | some i =>
    have hp : i.recv = some p := by simpa [inOf, hfd, UnixSock.hin, hi] using hin
    have hin1 : UnixSock.hin s fd.h = some p := by simp only [UnixSock.hin, hi, Option.bind_some, hp]
    have hpend : pending s d = (s.handles fd.h).peek ++ (s.pipes p).buf := by simp only [pending, hfd, hin1]
    have hnip : (s.handles fd.h).st ≠ .inProgress := by rw [hs]; rcases hst with rfl | rfl <;> simp
    have hok : ¬ ((s.handles fd.h).st ≠ .connected ∧ (s.handles fd.h).st ≠ .rdOnly) := by
      rw [hs]; rcases hst with rfl | rfl <;> simp
    simp only [hfd, Option.map_some, Option.some.injEq]
    generalize hx : step s (.recv d n peek) = x
    simp only [step, recv, withSock, hfd, hw, Bool.false_eq_true, if_false, hnip, hok, hi, hp] at hx
    -- the state after the call
    have hafter : ∀ (y : Handle) (q : Pipe), y.info = some i →
        pending ((s.setP p q).setH fd.h y) d = y.peek ++ q.buf := by
      intro y q e
      simp only [pending, State.setH, State.setP, hfd, UnixSock.hin, upd_same, e, Option.bind_some, hp]
    have hself : ∀ y : Handle, s.setH fd.h y = (s.setP p (s.pipes p)).setH fd.h y := by
      intro pk; simp only [State.setP, upd_self]
    by_cases hc : (s.handles fd.h).peek ≠ [] ∧ n - min (s.handles fd.h).peek.length n = 0
    · rw [if_pos hc] at hx
      have hle : n ≤ (s.handles fd.h).peek.length := by omega
      have hm : min (s.handles fd.h).peek.length n = n := Nat.min_eq_right hle
      subst hx
      have hne : pending s d ≠ [] := by
        rw [hpend]; intro e; exact hc.1 (List.append_eq_nil_iff.1 e).1
      rw [if_pos (Or.inr hne), hself, hafter _ _ rfl, hpend]
      refine ⟨?_, ?_⟩
      · dsimp only
        rw [hm, List.take_append_of_le_length hle, List.length_append, Nat.min_eq_left (by omega)]
      · cases peek with
        | true => simp
        | false =>
          simp only [Bool.false_eq_true, if_false, hm]
          rw [List.drop_append_of_le_length hle]
    · rw [if_neg hc] at hx
      have hm : min (s.handles fd.h).peek.length n = (s.handles fd.h).peek.length := by
        by_cases he : (s.handles fd.h).peek = []
        · rw [he]; simp
        · have : n - min (s.handles fd.h).peek.length n ≠ 0 := fun e => hc ⟨he, e⟩
          omega
      have hge : (s.handles fd.h).peek.length ≤ n := by omega
      rw [hm] at hx
      rw [hpend]
      generalize hK : (s.handles fd.h).peek = K at *
      -- the bytes handed over
      by_cases hz : n - K.length = 0
      · -- nothing asked
        have hK0 : K = [] := by
          cases K with
          | nil => rfl
          | cons a l => exact absurd ⟨by simp, by rw [hm]; exact hz⟩ hc
        subst hK0
        have hn0 : n = 0 := by simpa using hz
        subst hn0
        simp only [Pipe.readNow, List.length_nil, Nat.sub_self, if_true, List.take_nil, List.drop_nil] at hx
        subst hx
        simp only [true_or, if_true, Nat.zero_min, List.take_zero, List.nil_append, List.drop_zero]
        refine ⟨rfl, ?_⟩
        rw [hafter _ _ rfl]
        cases peek <;> simp
      · by_cases hb : (s.pipes p).buf.length = 0
        · have hb' : (s.pipes p).buf = [] := List.length_eq_zero_iff.1 hb
          rw [hb', List.append_nil]
          by_cases hK0 : K = []
          · subst hK0
            have hn0 : ¬ (n = 0 ∨ ([] : List UInt8) ≠ []) := by simp; simpa using hz
            rw [if_neg hn0]
            have hn1 : ¬ n = 0 := by simpa using hz
            simp only [Pipe.readNow, List.length_nil, Nat.sub_zero, hn1, hb, if_true, if_false] at hx
            by_cases hwr : (s.pipes p).wref = 0
            · rw [if_pos hwr] at hx ⊢
              dsimp only at hx
              subst hx
              refine ⟨by simp, ?_⟩
              dsimp only
              rw [hafter _ _ rfl]
              cases peek <;> simp [hb']
            · rw [if_neg hwr] at hx ⊢
              cases hnb : fd.nb with
              | true =>
                simp only [hnb, if_true, ne_eq, not_true_eq_false, if_false] at hx
                subst hx
                refine ⟨rfl, ?_⟩
                rw [hpend, hb']
                cases peek <;> simp
              | false =>
                simp only [hnb, if_true, ne_eq, not_true_eq_false, if_false, Bool.false_eq_true] at hx
                subst hx
                refine ⟨rfl, ?_⟩
                rw [hpend, hb']
                cases peek <;> simp
          · rw [if_pos (.inr hK0)]
            have hlen : K.length ≠ 0 := fun e => hK0 (List.length_eq_zero_iff.1 e)
            have hout : (∃ y, y.info = some i ∧ y.peek = (if peek then K else K.drop K.length) ∧
                x.1 = (s.setP p (s.pipes p)).setH fd.h y) ∧
                x.2 = { ret := .ok (K.length : Nat), bytes := K.take K.length } := by
              simp only [Pipe.readNow, hz, hb, if_true, if_false] at hx
              by_cases hwr : (s.pipes p).wref = 0
              · rw [if_pos hwr] at hx
                dsimp only at hx
                subst hx
                exact ⟨⟨_, rfl, by cases peek <;> simp, rfl⟩, by simp⟩
              · rw [if_neg hwr] at hx
                cases hnb : fd.nb with
                | true =>
                  simp only [hnb, if_true, ne_eq, hlen, not_false_eq_true] at hx
                  subst hx
                  exact ⟨⟨_, rfl, rfl, hself _⟩, rfl⟩
                | false =>
                  simp only [hnb, if_true, ne_eq, hlen, not_false_eq_true, Bool.false_eq_true, if_false] at hx
                  subst hx
                  exact ⟨⟨_, rfl, rfl, hself _⟩, rfl⟩
            obtain ⟨⟨y, y1, y2, h1⟩, h2⟩ := hout
            rw [h2]
            refine ⟨?_, ?_⟩
            · rw [Nat.min_eq_right hge, List.take_length, List.take_of_length_le hge]
            · rw [h1, hafter _ _ y1, hb', y2]
              cases peek with
              | true => simp
              | false => simp [List.drop_of_length_le hge]
        · have hb' : (s.pipes p).buf ≠ [] := fun e => hb (List.length_eq_zero_iff.2 e)
          have hne : K ++ (s.pipes p).buf ≠ [] := fun e => hb' (List.append_eq_nil_iff.1 e).2
          rw [if_pos (.inr hne)]
          simp only [Pipe.readNow, hz, hb, if_false, List.take_length, List.drop_length] at hx
          subst hx
          refine ⟨?_, ?_⟩
          · dsimp only
            have e1 : (K ++ (s.pipes p).buf).take n = K ++ (s.pipes p).buf.take (min (n - K.length) (s.pipes p).buf.length) := by
              rw [List.take_append, List.take_of_length_le hge]
              by_cases hle : n - K.length ≤ (s.pipes p).buf.length
              · rw [Nat.min_eq_left hle]
              · rw [Nat.min_eq_right (by omega), List.take_of_length_le (by omega), List.take_length]
            have e2 : min n (K ++ (s.pipes p).buf).length = K.length + min (n - K.length) (s.pipes p).buf.length := by
              rw [List.length_append]; omega
            rw [e1, e2]
            simp
          · dsimp only
            rw [hafter _ _ rfl]
            cases peek with
            | true => simp
            | false =>
              simp only [Bool.false_eq_true, if_false, List.nil_append]
              rw [List.drop_append, List.drop_of_length_le hge, List.nil_append]
              by_cases hle : n - K.length ≤ (s.pipes p).buf.length
              · rw [Nat.min_eq_left hle]
              · rw [Nat.min_eq_right (by omega), List.drop_of_length_le (Nat.le_refl _), List.drop_of_length_le (by omega)]

/-- C40.  A connection request is recorded with the two directions of the connecting socket, the other way round. -/
theorem connect_requests {s : State} {d : Nat} {cwd a : Str}
    (h : (step s (.connect d cwd a)).2.ret = .ok 0 ∨
      Ready s d .notConnected ∧ (step s (.connect d cwd a)).2.ret = .blocked) :
    ∃ e, (step s (.connect d cwd a)).1.acc (pathOf cwd a) = some e ∧
      outOf (step s (.connect d cwd a)).1 d = some e.recv ∧ inOf (step s (.connect d cwd a)).1 d = some e.send ∧ e.recv ≠ e.send := by
  generalize hx : step s (.connect d cwd a) = x at h ⊢
  simp only [step, connect, withSock] at hx
  cases hfd : s.fds d with
  | none =>
    simp only [hfd] at hx; subst hx
    rcases h with h | ⟨⟨fd, h1, -⟩, -⟩
    · cases h
    · rw [hfd] at h1; cases h1
  | some fd =>
    simp only [hfd] at hx
    split at hx
    · rename_i hw
      subst hx
      rcases h with h | ⟨⟨fd', h1, h2, -⟩, -⟩
      · cases h
      · rw [hfd] at h1; cases h1; rw [hw] at h2; cases h2
    · split at hx
      · subst hx; rcases h with h | ⟨-, h⟩ <;> cases h
      · split at hx
        · split at hx
          · have hf := (autoBind_fds s fd.h cwd).2
            subst hx
            refine ⟨_, updK_same .., ?_, ?_, ?_⟩
            · simp only [outOf, hf, hfd, Option.bind_some, hout, upd_same]
            · simp only [inOf, hf, hfd, Option.bind_some, hin, upd_same]
            · dsimp only; omega
          · subst hx; rcases h with h | ⟨-, h⟩ <;> cases h
        · subst hx; rcases h with h | ⟨-, h⟩ <;> cases h

/-- C40 (partial: as long as the connecting socket's address still names a file; otherwise the accepted socket has no connection,
see `accept_unlinked_violated`).  Accepting takes the request waiting at the listener's address: the new descriptor receives what the
connecting socket sends and the other way round; the request is gone. -/
theorem accept_links_partial {s : State} {d d' : Nat} {cwd : Str} (h : (step s (.accept d (some d') cwd)).2.ret = .ok d') :
    ∃ fd la e, s.fds d = some fd ∧ (s.handles fd.h).laddr = some la ∧ s.acc (pathOf cwd la) = some e ∧
      (step s (.accept d (some d') cwd)).1.acc (pathOf cwd la) = none ∧
      ((∃ i par, s.fs.walk (pathOf cwd e.addr) = some (some i, par)) →
        inOf (step s (.accept d (some d') cwd)).1 d' = some e.recv ∧ outOf (step s (.accept d (some d') cwd)).1 d' = some e.send) := by
  generalize hx : step s (.accept d (some d') cwd) = x at h ⊢
  simp only [step, accept, withSock] at hx
  cases hfd : s.fds d with
  | none => simp only [hfd] at hx; subst hx; cases h
  | some fd =>
    simp only [hfd] at hx
    split at hx
    · subst hx; cases h
    · split at hx
      · subst hx; cases h
      · split at hx
        · subst hx; cases h
        · split at hx
          · subst hx; cases h
          · rename_i la hla
            split at hx
            · subst hx; simp only [Out.r] at h; split at h <;> cases h
            · rename_i e he
              split at hx
              · subst hx; cases h
              · rename_i ino _ hwalk
                split at hx
                · subst hx; cases h
                · subst hx
                  refine ⟨fd, la, e, rfl, hla, he, updK_same .., ?_⟩
                  rintro ⟨i, par, hw⟩
                  rw [hw] at hwalk
                  simp only [Option.some.injEq, Prod.mk.injEq] at hwalk
                  rw [← hwalk.1]
                  constructor
                  · simp only [inOf, upd_same, Option.bind_some, hin, Option.map_some]
                  · simp only [outOf, upd_same, Option.bind_some, hout, Option.map_some]

/-- C40.  `socketpair` gives the two ends of one connection. -/
theorem socketpair_links {s : State} {d d' : Nat} {nb : Bool} {cwd : Str} (h : (step s (.socketpair d d' nb cwd)).2.ret = .ok 0) :
    Linked (step s (.socketpair d d' nb cwd)).1 d d' := by
  generalize hx : step s (.socketpair d d' nb cwd) = x at h ⊢
  simp only [step, socketpair] at hx
  split at hx
  · subst hx; cases h
  · rename_i hne
    have hdd : d ≠ d' := fun e => hne (.inr (.inr e))
    have hf : (autoBind (autoBind { s with
        handles := upd (upd s.handles s.nh {}) (s.nh + 1) {}, nh := s.nh + 2
        fds := upd (upd s.fds d (some { h := s.nh, nb := nb })) d' (some { h := s.nh + 1, nb := nb }) } s.nh cwd) (s.nh + 1) cwd).fds =
        upd (upd s.fds d (some { h := s.nh, nb := nb })) d' (some { h := s.nh + 1, nb := nb }) :=
      (autoBind_fds ..).2.trans (autoBind_fds ..).2
    generalize autoBind (autoBind { s with
        handles := upd (upd s.handles s.nh {}) (s.nh + 1) {}, nh := s.nh + 2
        fds := upd (upd s.fds d (some { h := s.nh, nb := nb })) d' (some { h := s.nh + 1, nb := nb }) } s.nh cwd)
          (s.nh + 1) cwd = s2 at hf hx
    split at hx
    · split at hx
      · subst hx; cases h
      · split at hx
        · subst hx; cases h
        · subst hx
          refine ⟨⟨s2.np, ?_, ?_⟩, s2.np + 1, ?_, ?_⟩
          · simp only [outOf, hf, upd_ne _ _ hdd, upd_same, Option.bind_some, hout]
            rw [upd_ne _ _ (by omega), upd_same]; rfl
          · simp only [inOf, hf, upd_same, Option.bind_some, hin]
          · simp only [outOf, hf, upd_same, Option.bind_some, hout]
          · simp only [inOf, hf, upd_ne _ _ hdd, upd_same, Option.bind_some, hin]
            rw [upd_ne _ _ (by omega), upd_same]; rfl
    · subst hx; cases h

/-! ## C41 -/

/-- What is waiting for a handle. -/
def pendH (s : State) (h : Nat) : List UInt8 :=
  (s.handles h).peek ++ (match hin s h with | none => [] | some p => (s.pipes p).buf)

theorem pending_eq {s : State} {d : Nat} {fd : Fd} (h : s.fds d = some fd) : pending s d = pendH s fd.h := by
  simp only [pending, h, pendH]

/-- The states differ only in which of the waiting bytes have been peeked. -/
structure Sim (s s' : State) : Prop where
  fds : s'.fds = s.fds
  hnd : ∀ h, { s'.handles h with peek := [] } = { s.handles h with peek := [] }
  wref : ∀ p, (s'.pipes p).wref = (s.pipes p).wref
  pend : ∀ h, pendH s' h = pendH s h

/-- No two handles receive from one direction. -/
def InInj (s : State) : Prop := ∀ h h' p, hin s h = some p → hin s h' = some p → h = h'

theorem Handle.eq_of {x y : Handle} (h : { x with peek := [] } = { y with peek := [] }) :
    x.st = y.st ∧ x.laddr = y.laddr ∧ x.raddr = y.raddr ∧ x.info = y.info ∧ x.waiting = y.waiting := by
  simpa [Handle.mk.injEq] using h

theorem recv_frame (s : State) (d n : Nat) (peek : Bool) :
    (recv s d n peek).1.fds = s.fds ∧
    (∀ h, { (recv s d n peek).1.handles h with peek := [] } = { s.handles h with peek := [] }) ∧
    (∀ p, ((recv s d n peek).1.pipes p).wref = (s.pipes p).wref) := by
  refine ⟨(recv_fds ..).2.1, ?_, ?_⟩
  · have hset : ∀ (t : State) (h k : Nat) (pk : List UInt8), t.handles = s.handles →
        { (t.setH k { s.handles k with peek := pk }).handles h with peek := [] } = { s.handles h with peek := [] } := by
      intro t h k pk e
      by_cases hk : h = k
      · subst hk; simp only [State.setH, upd_same]
      · simp only [State.setH, upd_ne _ _ hk, e]
    intro h
    generalize hr : recv s d n peek = r
    unfold recv withSock at hr
    repeat' (first | split at hr | (dsimp only at hr; split at hr))
    all_goals subst hr
    all_goals first | rfl | exact hset _ _ _ _ rfl
  · intro p
    generalize hr : recv s d n peek = r
    unfold recv withSock at hr
    repeat' (first | split at hr | (dsimp only at hr; split at hr))
    all_goals subst hr
    all_goals first | rfl | skip
    all_goals
      rename_i q _ _ p' _ _ hrd
      simp only [State.setH, State.setP]
      by_cases hp : p = q
      · subst hp
        rw [upd_same]
        rcases readNow_any (s.pipes p) (n - min (s.handles (by assumption : Fd).h).peek.length n) (by assumption : Fd).nb with
          ⟨k, _, _, e⟩ | e | e
        all_goals
          rw [e] at hrd
          simp only [Prod.mk.injEq, reduceCtorEq, false_and, and_false] at hrd
        all_goals (rw [← hrd.1])
      · rw [upd_ne _ _ hp]

theorem recv_nopipe {s s' : State} {d : Nat} {fd : Fd} (hfd : s.fds d = some fd) (hfd' : s'.fds d = some fd)
    (hh : s'.handles fd.h = s.handles fd.h) (hno : hin s fd.h = none) (n : Nat) (peek : Bool) :
    (recv s' d n peek).2 = (recv s d n peek).2 ∧ (recv s' d n peek).1.handles fd.h = (recv s d n peek).1.handles fd.h := by
  unfold recv withSock
  rw [hfd, hfd']
  dsimp only
  rw [hh]
  split
  · exact ⟨rfl, hh⟩
  · split
    · exact ⟨rfl, hh⟩
    · split
      · exact ⟨rfl, hh⟩
      · split
        · refine ⟨rfl, ?_⟩
          simp only [State.setH, upd_same]
        · cases hi : (s.handles fd.h).info with
          | none => exact ⟨rfl, hh⟩
          | some i =>
            have : i.recv = none := by simpa only [hin, hi, Option.bind_some] using hno
            simp only [this, true_and]
            exact hh

theorem pendH_other {s : State} {d : Nat} {fd : Fd} (hfd : s.fds d = some fd) (hinj : InInj s) {h : Nat} (hne : h ≠ fd.h)
    (n : Nat) (peek : Bool) : pendH (recv s d n peek).1 h = pendH s h := by
  rcases recv_cases s d n peek with ⟨e, -⟩ | ⟨fd', hfd', -, h1, -, -, -, h5, -⟩
  · rw [e]
  · rw [hfd] at hfd'; cases hfd'
    have hi : hin (recv s d n peek).1 h = hin s h := by simp only [hin, h1 h hne]
    simp only [pendH, hi, h1 h hne]
    cases hp : hin s h with
    | none => rfl
    | some p =>
      dsimp only
      rw [h5 p (fun e => hne (hinj _ _ _ hp e))]

theorem recv_hin (s : State) (d n : Nat) (peek : Bool) (h : Nat) : hin (recv s d n peek).1 h = hin s h := by
  have := (Handle.eq_of ((recv_frame s d n peek).2.1 h)).2.2.2.1
  simp only [hin, this]

theorem Sim.hin {s s' : State} (S : Sim s s') (h : Nat) : UnixSock.hin s' h = UnixSock.hin s h := by
  have := (Handle.eq_of (S.hnd h)).2.2.2.1
  simp only [UnixSock.hin, this]

theorem recv_notready {s : State} {d : Nat} {fd : Fd} (hfd : s.fds d = some fd) (hw : (s.handles fd.h).waiting = false)
    (h1 : (s.handles fd.h).st ≠ .connected) (h2 : (s.handles fd.h).st ≠ .rdOnly) (n : Nat) (peek : Bool) :
    recv s d n peek = (s, .r (if (s.handles fd.h).st = .inProgress then .panic else .err .ENOTCONN)) := by
  simp only [recv, withSock, hfd, hw, Bool.false_eq_true, if_false]
  by_cases hip : (s.handles fd.h).st = .inProgress
  · simp only [hip, if_true]
  · simp only [hip, if_false, ne_eq, h1, h2, not_false_eq_true, and_self, if_true]

theorem recv_sim {s s' : State} (S : Sim s s') (hinj : InInj s) (d n : Nat) (peek : Bool) :
    (recv s' d n peek).2 = (recv s d n peek).2 ∧ Sim (recv s d n peek).1 (recv s' d n peek).1 ∧ InInj (recv s d n peek).1 := by
  have hinj' : InInj s' := by intro a b p h1 h2; rw [S.hin] at h1 h2; exact hinj a b p h1 h2
  have hinj2 : InInj (recv s d n peek).1 := by
    intro a b p h1 h2; rw [recv_hin] at h1 h2; exact hinj a b p h1 h2
  obtain ⟨f1, f2, f3⟩ := recv_frame s d n peek
  obtain ⟨g1, g2, g3⟩ := recv_frame s' d n peek
  -- all but the waiting bytes and the output
  have wrap : (recv s' d n peek).2 = (recv s d n peek).2 →
      (∀ fd, s.fds d = some fd → pendH (recv s' d n peek).1 fd.h = pendH (recv s d n peek).1 fd.h) →
      (recv s' d n peek).2 = (recv s d n peek).2 ∧ Sim (recv s d n peek).1 (recv s' d n peek).1 ∧ InInj (recv s d n peek).1 := by
    intro ho hp
    refine ⟨ho, ⟨?_, ?_, ?_, ?_⟩, hinj2⟩
    · rw [f1, g1, S.fds]
    · intro h; rw [f2, g2, S.hnd]
    · intro p; rw [f3, g3, S.wref]
    · intro h
      cases hfd : s.fds d with
      | none =>
        have e1 : recv s d n peek = (s, .r (.err .EBADF)) := by simp only [recv, withSock, hfd]
        have e2 : recv s' d n peek = (s', .r (.err .EBADF)) := by simp only [recv, withSock, S.fds, hfd]
        rw [e1, e2]; exact S.pend h
      | some fd =>
        by_cases hh : h = fd.h
        · subst hh; exact hp fd hfd
        · rw [pendH_other hfd hinj hh, pendH_other (by rw [S.fds]; exact hfd) hinj' hh, S.pend]
  cases hfd : s.fds d with
  | none =>
    have e1 : recv s d n peek = (s, .r (.err .EBADF)) := by simp only [recv, withSock, hfd]
    have e2 : recv s' d n peek = (s', .r (.err .EBADF)) := by simp only [recv, withSock, S.fds, hfd]
    refine wrap (by rw [e1, e2]) fun fd h => ?_
    rw [hfd] at h; cases h
  | some fd =>
    have hfd' : s'.fds d = some fd := by rw [S.fds]; exact hfd
    obtain ⟨k1, -, -, k4, k5⟩ := Handle.eq_of (S.hnd fd.h)
    by_cases hw : (s.handles fd.h).waiting = true
    · have hw' : (s'.handles fd.h).waiting = true := by rw [k5]; exact hw
      have e1 : recv s d n peek = (s, .r .blocked) := by simp only [recv, withSock, hfd, hw, if_true]
      have e2 : recv s' d n peek = (s', .r .blocked) := by simp only [recv, withSock, hfd', hw', if_true]
      exact wrap (by rw [e1, e2]) fun _ _ => by rw [e1, e2]; exact S.pend _
    · have hw : (s.handles fd.h).waiting = false := by simpa using hw
      have hw' : (s'.handles fd.h).waiting = false := by rw [k5]; exact hw
      by_cases hst : (s.handles fd.h).st = .connected ∨ (s.handles fd.h).st = .rdOnly
      · cases hp : UnixSock.hin s fd.h with
        | some p =>
          have hp' : UnixSock.hin s' fd.h = some p := by rw [S.hin]; exact hp
          have r1 := recv_exact (s := s) (d := d) (p := p) ⟨fd, hfd, hw, rfl⟩ hst
            (by simp only [inOf, hfd, Option.bind_some, hp]) n peek
          have r2 := recv_exact (s := s') (d := d) (p := p) ⟨fd, hfd', hw', rfl⟩ (by rw [k1]; exact hst)
            (by simp only [inOf, hfd', Option.bind_some, hp']) n peek
          have hpe : pending s' d = pending s d := by rw [pending_eq hfd, pending_eq hfd', S.pend]
          refine wrap ?_ ?_
          · have a := r1.1
            have b := r2.1
            simp only [step] at a b
            rw [a, b, hpe, S.wref, S.fds]
          · intro fd0 h0
            rw [hfd] at h0; cases h0
            have a := r1.2
            have b := r2.2
            simp only [step] at a b
            rw [pending_eq (s := (recv s d n peek).1) (d := d) (fd := fd) (by rw [f1]; exact hfd)] at a
            rw [pending_eq (s := (recv s' d n peek).1) (d := d) (fd := fd) (by rw [g1]; exact hfd')] at b
            rw [a, b, hpe]
        | none =>
          have hpk : (s'.handles fd.h).peek = (s.handles fd.h).peek := by
            have := S.pend fd.h
            simpa only [pendH, S.hin, hp, List.append_nil] using this
          have hhe : s'.handles fd.h = s.handles fd.h := by
            have := S.hnd fd.h
            cases hx : s'.handles fd.h; cases hy : s.handles fd.h
            rw [hx, hy] at this hpk
            simp only [Handle.mk.injEq] at this hpk ⊢
            exact ⟨this.1, this.2.1, this.2.2.1, this.2.2.2.1, hpk, this.2.2.2.2.2⟩
          obtain ⟨o1, o2⟩ := recv_nopipe hfd hfd' hhe hp n peek
          refine wrap o1 fun fd0 h0 => ?_
          rw [hfd] at h0; cases h0
          simp only [pendH, recv_hin, S.hin, hp, o2]
      · have e1 := recv_notready hfd hw (fun e => hst (.inl e)) (fun e => hst (.inr e)) n peek
        have e2 := recv_notready hfd' hw' (fun e => hst (.inl (k1 ▸ e))) (fun e => hst (.inr (k1 ▸ e))) n peek
        refine wrap (by rw [e1, e2, k1]) fun _ _ => ?_
        rw [e1, e2]; exact S.pend _

/-- Peeking only changes which of the waiting bytes have been peeked. -/
theorem peek_sim {s : State} (hinj : InInj s) (d n : Nat) : Sim s (recv s d n true).1 := by
  obtain ⟨f1, f2, f3⟩ := recv_frame s d n true
  refine ⟨f1, f2, f3, fun h => ?_⟩
  rcases recv_cases s d n true with ⟨e, -⟩ | ⟨fd, hfd, -, h1, h2, -, -, h5, h6⟩
  · rw [e]
  · by_cases hh : h = fd.h
    · subst hh
      cases hp : hin s fd.h with
      | some p =>
        have := h6 p hp
        simp only [if_true, List.nil_append] at this
        simp only [pendH, recv_hin, hp, this]
      | none =>
        simp only [pendH, recv_hin, hp, List.append_nil]
        generalize hr : recv s d n true = r
        unfold recv withSock at hr
        rw [hfd] at hr
        dsimp only at hr
        split at hr
        · subst hr; rfl
        · split at hr
          · subst hr; rfl
          · split at hr
            · subst hr; rfl
            · split at hr
              · subst hr; simp only [State.setH, upd_same, if_true]
              · cases hi : (s.handles fd.h).info with
                | none => simp only [hi] at hr; subst hr; rfl
                | some i =>
                  have : i.recv = none := by simpa only [hin, hi, Option.bind_some] using hp
                  simp only [hi, this] at hr
                  subst hr; rfl
    · exact pendH_other hfd hinj hh n true

/-- C41.  A `recv` with `MSG_PEEK` returns just what a `recv` without it would return. -/
theorem peek_same_result {s : State} {d p : Nat} {st : ConnState} (hr : Ready s d st)
    (hst : st = .connected ∨ st = .rdOnly) (hi : inOf s d = some p) (n : Nat) :
    (step s (.recv d n true)).2 = (step s (.recv d n false)).2 := by
  rw [(recv_exact hr hst hi n true).1, (recv_exact hr hst hi n false).1]

/-- C41.  After a peek, any receives on any descriptors, peeking or not, return what they would have returned without it. -/
theorem peek_changes_no_result {S : Sys} (h : Reach S) (d n : Nat) (later : List (Nat × Nat × Bool)) :
    (run (step S.s (.recv d n true)).1 (later.map fun l => .recv l.1 l.2.1 l.2.2)).2 =
      (run S.s (later.map fun l => .recv l.1 l.2.1 l.2.2)).2 := by
  have hinj : InInj S.s := h.inv.inInj
  have hs := peek_sim hinj d n
  have main : ∀ (l : List (Nat × Nat × Bool)) (s s' : State), Sim s s' → InInj s →
      (run s' (l.map fun l => .recv l.1 l.2.1 l.2.2)).2 = (run s (l.map fun l => .recv l.1 l.2.1 l.2.2)).2 := by
    intro l
    induction l with
    | nil => intro s s' _ _; rfl
    | cons a l ih =>
      intro s s' hS hI
      obtain ⟨o, S2, I2⟩ := recv_sim hS hI a.1 a.2.1 a.2.2
      simp only [List.map_cons, run, step, List.cons.injEq]
      exact ⟨o, ih _ _ S2 I2⟩
  exact main later S.s _ hs hinj

/-- C41.  A peek neither sends nor receives anything and leaves the same bytes waiting on every descriptor, so that by `fifo_partial`
the bytes received later are those that would have been received without it, whatever is sent in between. -/
theorem peek_keeps_streams {S : Sys} (h : Reach S) (d n : Nat) :
    (S.step (.recv d n true)).sent = S.sent ∧ (S.step (.recv d n true)).rcvd = S.rcvd ∧
    ∀ e, pending (S.step (.recv d n true)).s e = pending S.s e := by
  refine ⟨rfl, rfl, fun e => ?_⟩
  have hs := peek_sim (s := S.s) h.inv.inInj d n
  have e1 : (S.step (.recv d n true)).s = (recv S.s d n true).1 := rfl
  rw [e1]
  cases hfd : S.s.fds e with
  | none =>
    have : (recv S.s d n true).1.fds e = none := by rw [hs.fds]; exact hfd
    simp only [pending, hfd, this]
  | some fd => rw [pending_eq hfd, pending_eq (by rw [hs.fds]; exact hfd), hs.pend]

/-! ## C49 -/

/-- C49.  send succeeds only on a connected socket, or one of which only the receiving side is shut down. -/
theorem send_needs {s : State} {d : Nat} {data : List UInt8} {k : Int} (h : (step s (.send d data)).2.ret = .ok k) :
    Ready s d .connected ∨ Ready s d .wrOnly := by
  simp only [step, send, withSock] at h
  cases hfd : s.fds d with
  | none => rw [hfd] at h; cases h
  | some fd =>
    rw [hfd] at h
    dsimp only at h
    split at h
    · cases h
    · rename_i hw
      split at h
      · cases h
      · rename_i hst
        by_cases hc : (s.handles fd.h).st = .connected
        · exact .inl ⟨fd, hfd, by simpa using hw, hc⟩
        · exact .inr ⟨fd, hfd, by simpa using hw, Decidable.not_not.1 fun e => hst ⟨hc, e⟩⟩

/-- C49.  The same for writev. -/
theorem writev_needs {s : State} {d : Nat} {iovs : List (List UInt8)} {k : Int} (h : (step s (.writev d iovs)).2.ret = .ok k) :
    Ready s d .connected ∨ Ready s d .wrOnly := by
  simp only [step, writev, withSock] at h
  cases hfd : s.fds d with
  | none => rw [hfd] at h; cases h
  | some fd =>
    rw [hfd] at h
    dsimp only at h
    split at h
    · cases h
    · rename_i hw
      split at h
      · cases h
      · rename_i hst
        by_cases hc : (s.handles fd.h).st = .connected
        · exact .inl ⟨fd, hfd, by simpa using hw, hc⟩
        · exact .inr ⟨fd, hfd, by simpa using hw, Decidable.not_not.1 fun e => hst ⟨hc, e⟩⟩

/-- C49.  recv succeeds only on a connected socket, or one of which only the sending side is shut down. -/
theorem recv_needs {s : State} {d n : Nat} {peek : Bool} {k : Int} (h : (step s (.recv d n peek)).2.ret = .ok k) :
    Ready s d .connected ∨ Ready s d .rdOnly := by
  simp only [step] at h
  cases hfd : s.fds d with
  | none =>
    have e1 : recv s d n peek = (s, .r (.err .EBADF)) := by simp only [recv, withSock, hfd]
    rw [e1] at h; cases h
  | some fd =>
    by_cases hw : (s.handles fd.h).waiting = true
    · have e1 : recv s d n peek = (s, .r .blocked) := by simp only [recv, withSock, hfd, hw, if_true]
      rw [e1] at h; cases h
    · have hw : (s.handles fd.h).waiting = false := by simpa using hw
      by_cases h1 : (s.handles fd.h).st = .connected
      · exact .inl ⟨fd, hfd, hw, h1⟩
      · by_cases h2 : (s.handles fd.h).st = .rdOnly
        · exact .inr ⟨fd, hfd, hw, h2⟩
        · rw [recv_notready hfd hw h1 h2] at h
          simp only [Out.r] at h
          split at h <;> cases h

/-- C49 (partial: if the descriptor table is not full; if it is, accept returns the listening descriptor whatever the state, see
`accept_full_violated`).  accept succeeds only on a listening socket. -/
theorem accept_needs_partial {s : State} {d d' : Nat} {cwd : Str} {k : Int} (h : (step s (.accept d (some d') cwd)).2.ret = .ok k) :
    Ready s d .listen := by
  simp only [step, accept, withSock] at h
  cases hfd : s.fds d with
  | none => rw [hfd] at h; cases h
  | some fd =>
    rw [hfd] at h
    dsimp only at h
    split at h
    · cases h
    · rename_i hw
      split at h
      · cases h
      · split at h
        · cases h
        · rename_i hst
          exact ⟨fd, hfd, by simpa using hw, Decidable.not_not.1 hst⟩

/-- The state of the socket behind a descriptor. -/
def stateOf (s : State) (d : Nat) : Option ConnState := (s.fds d).map fun fd => (s.handles fd.h).st

theorem shutdown_ok {s : State} {d : Nat} {st st' : ConnState} {how : Int} (hr : Ready s d st) (hst : shutState st how = some st')
    (hh : how = 0 ∨ how = 1) :
    (step s (.shutdown d how)).2.ret = .ok 0 ∧ Ready (step s (.shutdown d how)).1 d st' := by
  obtain ⟨fd, hfd, hw, he⟩ := hr
  have h1 : ¬ (how ≠ 0 ∧ how ≠ 1 ∧ how ≠ 2) := by omega
  have h2 : ¬ how = 2 := by omega
  simp only [step, shutdown, withSock, hfd, hw, h1, h2, if_false, Bool.false_eq_true, he, hst]
  refine ⟨rfl, fd, hfd, ?_, ?_⟩
  · simp only [State.setH, upd_same]
  · simp only [State.setH, upd_same]

/-- C49.  Shutting down both directions of a connected socket one after the other, in either order, leaves the socket in the state
`SHUT_RDWR` leaves it in. -/
theorem shut_both {s : State} {d : Nat} (hr : Ready s d .connected) :
    stateOf (run s [.shutdown d 0, .shutdown d 1]).1 d = some .notConnected ∧
    stateOf (run s [.shutdown d 1, .shutdown d 0]).1 d = some .notConnected ∧
    ∀ h, sockOf s d = some h → ((step s (.shutdown d 2)).1.handles h).st = .notConnected := by
  refine ⟨?_, ?_, ?_⟩
  · have a := shutdown_ok (st' := .wrOnly) (how := 0) hr (by decide) (.inl rfl)
    obtain ⟨-, fd, b1, -, b2⟩ := shutdown_ok (st' := .notConnected) (how := 1) a.2 (by decide) (.inr rfl)
    simp only [run, stateOf, b1, Option.map_some, b2]
  · have a := shutdown_ok (st' := .rdOnly) (how := 1) hr (by decide) (.inr rfl)
    obtain ⟨-, fd, b1, -, b2⟩ := shutdown_ok (st' := .notConnected) (how := 0) a.2 (by decide) (.inl rfl)
    simp only [run, stateOf, b1, Option.map_some, b2]
  · intro h hs
    obtain ⟨fd, hfd, hw, he⟩ := hr
    have : h = fd.h := by simpa [sockOf, hfd] using hs.symm
    subst this
    simp only [step, shutdown, withSock, hfd, hw, he, shutState]
    simp [State.setH, State.setFd]

/-- Some calls, none of which connects or shuts down the socket with handle `h`. -/
inductive Meanwhile (h : Nat) : State → State → Prop
  | refl (s : State) : Meanwhile h s s
  | step {s s' : State} (op : Op) : Meanwhile h s s' →
      (∀ d c a, op = .connect d c a → sockOf s' d ≠ some h) → (∀ d how, op = .shutdown d how → sockOf s' d ≠ some h) →
      Meanwhile h s (step s' op).1

theorem Meanwhile.nh {h : Nat} {s s' : State} (m : Meanwhile h s s') : s.nh ≤ s'.nh := by
  induction m with
  | refl => exact Nat.le_refl _
  | step op _ _ _ ih => exact Nat.le_trans ih (keeps_step _ op).nh

theorem listen_st (s : State) (d h : Nat) : ((listen s d).1.handles h).st = (s.handles h).st ∨ ((listen s d).1.handles h).st = .listen := by
  refine withSock_handle (P := fun t => (t.handles h).st = (s.handles h).st ∨ (t.handles h).st = .listen) _ _ _ (.inl rfl) fun fd _ => ?_
  split
  · exact .inl rfl
  · by_cases hk : h = fd.h
    · subst hk; right; simp only [State.setH, upd_same]
    · left; simp only [State.setH, upd_ne _ _ hk]
  · exact .inl rfl

theorem Meanwhile.st {h : Nat} {s s' : State} (m : Meanwhile h s s') (hlt : h < s.nh) :
    (s'.handles h).st = (s.handles h).st ∨ (s'.handles h).st = .listen := by
  induction m with
  | refl => exact .inl rfl
  | step op m hc hs ih =>
    rename_i t
    have hlt' : h < t.nh := Nat.lt_of_lt_of_le hlt m.nh
    by_cases hm : Moves t h op
    · cases op with
      | connect d c a => exact absurd hm (hc d c a rfl)
      | shutdown d how => exact absurd hm (hs d how rfl)
      | listen d =>
        rcases listen_st t d h with e | e
        · rcases ih with i | i
          · exact .inl (e.trans i)
          · exact .inr (e.trans i)
        · exact .inr e
      | _ => exact absurd hm (by simp [Moves])
    · have := (handle_step t op h hlt').2 hm
      rcases ih with e | e
      · exact .inl (this.trans e)
      · exact .inr (this.trans e)

/-- C49 (partial: until the socket is shut down again; a third shutdown can bring a direction back, see `shut_again_violated`).
Once the sending side is shut down, no descriptor of the socket sends anything before the socket is connected again, whatever else is
done, and the same for receiving. -/
theorem shut_down_stays_partial {S : Sys} (hR : Reach S) {d : Nat} {s' : State} {h : Nat} (hs : sockOf S.s d = some h)
    (hm : Meanwhile h S.s s') {e : Nat} (he : sockOf s' e = some h) :
    (stateOf S.s d = some .rdOnly ∨ stateOf S.s d = some .notConnected →
      ∀ data k, (step s' (.send e data)).2.ret ≠ .ok k) ∧
    (stateOf S.s d = some .wrOnly ∨ stateOf S.s d = some .notConnected →
      ∀ n peek k, (step s' (.recv e n peek)).2.ret ≠ .ok k) := by
  cases hfd : S.s.fds d with
  | none => simp [sockOf, hfd] at hs
  | some fd =>
    have hh : fd.h = h := by simpa [sockOf, hfd] using hs
    have hlt := hR.fdLt d fd hfd
    rw [hh] at hlt
    have hst := hm.st hlt
    simp only [stateOf, hfd, Option.map_some, Option.some.injEq, hh]
    constructor
    · intro h0 data k hk
      rcases send_needs hk with ⟨f, f1, -, f2⟩ | ⟨f, f1, -, f2⟩
      all_goals
        have : f.h = h := by simpa [sockOf, f1] using he
        rw [this] at f2
        rcases hst with e | e <;> rw [f2] at e
        · rw [← e] at h0; simp at h0
        · cases e
    · intro h0 n peek k hk
      rcases recv_needs hk with ⟨f, f1, -, f2⟩ | ⟨f, f1, -, f2⟩
      all_goals
        have : f.h = h := by simpa [sockOf, f1] using he
        rw [this] at f2
        rcases hst with e | e <;> rw [f2] at e
        · rw [← e] at h0; simp at h0
        · cases e

end Verif.UnixSock
