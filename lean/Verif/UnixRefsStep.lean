import Verif.UnixRefs

/-!
# The counts over every orderly history
-/

set_option linter.unusedSimpArgs false

namespace Verif.UnixSock

open Verif.Path Verif.Fs
open Verif.Pipe (Pipe End udsockCapacity)

/-- What a program must not do for the counts to be right.

* `connect`: the socket has a single descriptor and no earlier connection, holds no peeked bytes, and nobody waits to be accepted at
  the address.
* `shutdown` of both halves: only of a socket without a connection.
* `accept`: the name of the connecting socket still leads to a file. -/
def Orderly (s : State) : Op → Prop
  | .connect d cwd a => ∀ fd, s.fds d = some fd →
      (s.handles fd.h).peek = [] ∧ inOf s d = none ∧ outOf s d = none ∧ (∀ k, sockOf s k = some fd.h → k = d) ∧ s.acc (pathOf cwd a) = none
  | .shutdown d how => how = 2 → inOf s d = none ∧ outOf s d = none
  | .accept d _ cwd => ∀ fd la x, s.fds d = some fd → (s.handles fd.h).laddr = some la → s.acc (pathOf cwd la) = some x →
      ∃ i par, s.fs.walk (pathOf cwd x.addr) = some (some i, par)
  | _ => True

/-- The states reached by orderly calls, none of which panics. -/
inductive Tidy : Sys → Prop
  | start (fs : Fs) : Tidy { s := init fs }
  | step {S : Sys} (op : Op) : Tidy S → Orderly S.s op → (UnixSock.step S.s op).2.ret ≠ .panic → Tidy (S.step op)

theorem Tidy.reach {S : Sys} (h : Tidy S) : Reach S := by
  induction h with
  | start fs => exact .start fs
  | step op _ ho _ ih =>
    refine .step op ih ?_
    cases op <;> try trivial
    exact fun fd hfd => (ho fd hfd).1

theorem Counts.init (fs : Fs) : Counts (init fs) 0 :=
  ⟨fun _ _ => rfl, fun d h e => by simp [sockOf, UnixSock.init] at e, fun _ _ => rfl, fun _ _ hp => absurd hp (Nat.not_lt_zero _)⟩

theorem ends_lt {S : Sys} (I : Inv S) : ∀ e k p, hend e S.s k = some p → p < S.s.np := by
  intro e k p h
  cases e
  · exact I.inLt k p h
  · exact I.outLt k p h

theorem Counts.connect {S : Sys} (I : Inv S) {n : Nat} (C : Counts S.s n) (d : Nat) (cwd a : Str) (ho : Orderly S.s (.connect d cwd a)) :
    Counts (connect S.s d cwd a).1 n := by
  unfold UnixSock.connect withSock
  cases hfd : S.s.fds d with
  | none => exact C
  | some fd =>
    obtain ⟨-, o1, o2, o3, o4⟩ := ho fd hfd
    dsimp only
    split
    · exact C
    · split
      · exact C
      · have F := frame_autoBind C.lad fd.h cwd
        have C1 := C.frame F
        have I1 := I.evo (evo_autoBind S.s fd.h cwd)
        have hfds := (autoBind_fds S.s fd.h cwd).2
        generalize autoBind S.s fd.h cwd = s1 at F C1 I1 hfds ⊢
        split
        · split
          · rename_i i la hi hl
            have hd : sockOf S.s d = some fd.h := by simp [sockOf, hfd]
            refine C1.conn (d := d) (h := fd.h) (w := pathOf cwd a) (x := ⟨la, s1.np, s1.np + 1, if fd.nb then none else some fd.h⟩)
              (by rw [F.fds, hd]) ?_ (fun k hk => o3 k (by rw [← F.fds]; exact hk)) rfl rfl ?_ ?_ ?_ ?_ rfl rfl
              (by rw [F.acc]; exact o4) rfl rfl rfl (ends_lt I1) I1.accLt
            · intro e
              rw [F.ends]
              cases e
              · simpa [inOf, hfd, hend_read] using o1
              · simpa [outOf, hfd, hend_write] using o2
            · intro k hk; dsimp only; rw [upd_ne _ _ hk]
            · simp only [hend, upd_same, Option.bind_some, infoEnd]
            · simp only [hend, upd_same, Option.bind_some, infoEnd]
            · simp only [upd_same, hl]; simp
          · exact C1
        · exact C1

theorem Counts.accept {S : Sys} (I : Inv S) {n : Nat} (C : Counts S.s n) (d : Nat) (new : Option Nat) (cwd : Str)
    (ho : Orderly S.s (.accept d new cwd)) : ∃ m, Counts (accept S.s d new cwd).1 m := by
  unfold UnixSock.accept withSock
  cases hfd : S.s.fds d with
  | none => exact ⟨n, C⟩
  | some fd =>
    dsimp only
    split
    · exact ⟨n, C⟩
    · cases new with
      | none => exact ⟨n, C⟩
      | some d' =>
        dsimp only
        split
        · exact ⟨n, C⟩
        · rename_i hd'
          split
          · exact ⟨n, C⟩
          · cases hl : (S.s.handles fd.h).laddr with
            | none => exact ⟨n, C⟩
            | some la =>
              dsimp only
              cases hx : S.s.acc (pathOf cwd la) with
              | none => exact ⟨n, C⟩
              | some x =>
                obtain ⟨i, par, hw⟩ := ho fd la x hfd hl hx
                dsimp only
                rw [hw]
                dsimp only
                cases bumpInode S.s.fs i with
                | none => exact ⟨n, C⟩
                | some fs1 =>
                  dsimp only
                  have F := frame_wake C.lad x.waiter
                  have C1 := C.frame F
                  have hfds := (wake_fds S.s x.waiter).2
                  generalize wake S.s x.waiter = s1 at F C1 hfds ⊢
                  have hx1 : s1.acc (pathOf cwd la) = some x := by rw [F.acc]; exact hx
                  refine ⟨_, C1.acpt (d := d') (by rw [hfds]; simpa using hd') hx1 ?_ rfl rfl ?_ ?_ ?_ ?_ rfl rfl⟩
                  · intro w' x' h h2
                    rw [F.acc] at h
                    exact I.accInj _ _ _ _ h hx h2
                  · intro k hk; dsimp only; rw [upd_ne _ _ hk]
                  · intro e; cases e <;> simp only [hend, upd_same, Option.map_some, Option.bind_some, infoEnd, entEnd]
                  · simp only [upd_same]; simp
                  · intro k
                    simp only [sockOf]
                    by_cases e : k = d'
                    · subst e; simp
                    · rw [upd_ne _ _ e, if_neg e]

theorem Counts.socketpair {S : Sys} (I : Inv S) {n : Nat} (C : Counts S.s n) (d d' : Nat) (nb : Bool) (cwd : Str) :
    ∃ m, Counts (socketpair S.s d d' nb cwd).1 m := by
  unfold UnixSock.socketpair
  split
  · exact ⟨n, C⟩
  · rename_i hfree
    dsimp only
    have h1 : S.s.fds d = none := by
      apply Classical.byContradiction; intro h; exact hfree (.inl h)
    have h2 : S.s.fds d' = none := by
      apply Classical.byContradiction; intro h; exact hfree (.inr (.inl h))
    have h3 : d ≠ d' := fun h => hfree (.inr (.inr h))
    -- two sockets
    have K : ∃ m, Counts { S.s with
        handles := upd (upd S.s.handles S.s.nh {}) (S.s.nh + 1) {}, nh := S.s.nh + 2
        fds := upd (upd S.s.fds d (some { h := S.s.nh, nb := nb })) d' (some { h := S.s.nh + 1, nb := nb }) } m := by
      obtain ⟨m, Ca⟩ := C.socket d nb
      obtain ⟨m, Cb⟩ := Ca.socket d' nb
      refine ⟨m, ?_⟩
      simp only [UnixSock.socket, h1, State.setFd, upd_ne _ _ (fun x => h3 x.symm), h2] at Cb
      exact Cb
    obtain ⟨m, K⟩ := K
    have E0 : Evo S.s { S.s with
        handles := upd (upd S.s.handles S.s.nh {}) (S.s.nh + 1) {}, nh := S.s.nh + 2
        fds := upd (upd S.s.fds d (some { h := S.s.nh, nb := nb })) d' (some { h := S.s.nh + 1, nb := nb }) } := by
      refine Evo.trans (b := (S.s.setH S.s.nh {}).setH (S.s.nh + 1) {}) ?_ (.of_eq rfl rfl rfl rfl)
      exact Evo.trans (.setH (.inr rfl) (.inr rfl)) (.setH (.inr rfl) (.inr rfl))
    have I1 := I.evo (E0.trans ((evo_autoBind _ S.s.nh cwd).trans (evo_autoBind _ (S.s.nh + 1) cwd)))
    have hlt := C.hlt
    generalize ht : ({ S.s with
        handles := upd (upd S.s.handles S.s.nh {}) (S.s.nh + 1) {}, nh := S.s.nh + 2
        fds := upd (upd S.s.fds d (some { h := S.s.nh, nb := nb })) d' (some { h := S.s.nh + 1, nb := nb }) } : State) = t at K I1 ⊢
    have s1 : sockOf t d = some S.s.nh := by rw [← ht]; simp only [sockOf, upd_ne _ _ h3, upd_same, Option.map_some]
    have s2 : sockOf t d' = some (S.s.nh + 1) := by rw [← ht]; simp only [sockOf, upd_same, Option.map_some]
    have s3 : ∀ k, k ≠ d → k ≠ d' → sockOf t k = sockOf S.s k := by
      intro k a b; rw [← ht]; simp only [sockOf, upd_ne _ _ a, upd_ne _ _ b]
    have e1 : ∀ e, hend e t S.s.nh = none := by
      intro e; rw [← ht]; simp only [hend, upd_ne _ _ (show S.s.nh ≠ S.s.nh + 1 by omega), upd_same, Option.bind_none]
    have e2 : ∀ e, hend e t (S.s.nh + 1) = none := by
      intro e; rw [← ht]; simp only [hend, upd_same, Option.bind_none]
    have u1 : ∀ k, sockOf t k = some S.s.nh → k = d := by
      intro k hk
      apply Classical.byContradiction; intro c
      by_cases c' : k = d'
      · subst c'; rw [s2] at hk; have := Option.some.inj hk; omega
      · rw [s3 k c c'] at hk; have := hlt k _ hk; omega
    have u2 : ∀ k, sockOf t k = some (S.s.nh + 1) → k = d' := by
      intro k hk
      apply Classical.byContradiction; intro c'
      by_cases c : k = d
      · subst c; rw [s1] at hk; have := Option.some.inj hk; omega
      · rw [s3 k c c'] at hk; have := hlt k _ hk; omega
    have F1 := frame_autoBind K.lad S.s.nh cwd
    have F := F1.trans (frame_autoBind F1.lad (S.s.nh + 1) cwd)
    have la : ((autoBind (autoBind t S.s.nh cwd) (S.s.nh + 1) cwd).handles S.s.nh).info ≠ none →
        ((autoBind (autoBind t S.s.nh cwd) (S.s.nh + 1) cwd).handles S.s.nh).laddr ≠ none := fun h h' => h (F.lad _ h')
    have lb : ((autoBind (autoBind t S.s.nh cwd) (S.s.nh + 1) cwd).handles (S.s.nh + 1)).info ≠ none →
        ((autoBind (autoBind t S.s.nh cwd) (S.s.nh + 1) cwd).handles (S.s.nh + 1)).laddr ≠ none := fun h h' => h (F.lad _ h')
    have K1 := K.frame F
    generalize autoBind (autoBind t S.s.nh cwd) (S.s.nh + 1) cwd = u at F K1 I1 la lb ⊢
    split
    · rename_i i j hi hj
      split
      · exact ⟨m, K1⟩
      · split
        · exact ⟨m, K1⟩
        · refine ⟨m, K1.both (d := d) (d' := d') (a := S.s.nh) (b := S.s.nh + 1) (by omega) (by rw [F.fds, s1]) (by rw [F.fds, s2])
            (fun e => by rw [F.ends, e1]) (fun e => by rw [F.ends, e2]) (fun k hk => u1 k (by rw [← F.fds]; exact hk))
            (fun k hk => u2 k (by rw [← F.fds]; exact hk)) rfl rfl ?_ ?_ ?_ ?_ ?_ ?_ ?_ rfl rfl rfl (ends_lt I1) I1.accLt⟩
          · intro k a b; dsimp only; rw [upd_ne _ _ b, upd_ne _ _ a]
          · simp only [hend]; rw [upd_ne _ _ (by omega), upd_same]; rfl
          · simp only [hend]; rw [upd_ne _ _ (by omega), upd_same]; rfl
          · simp only [hend]; rw [upd_same]; rfl
          · simp only [hend]; rw [upd_same]; rfl
          · dsimp only; rw [upd_ne _ _ (by omega), upd_same]; exact la (by rw [hi]; simp)
          · dsimp only; rw [upd_same]; exact lb (by rw [hj]; simp)
    · exact ⟨m, K1⟩

theorem Counts.shutdown {s : State} {n : Nat} (C : Counts s n) (d : Nat) (how : Int) (ho : Orderly s (.shutdown d how)) :
    Counts (shutdown s d how).1 n := by
  by_cases h2 : how = 2
  · subst h2
    obtain ⟨o1, o2⟩ := ho rfl
    simp only [UnixSock.shutdown, withSock]
    cases hfd : s.fds d with
    | none => split <;> exact C
    | some fd =>
      dsimp only
      split
      · exact C
      · split
        · exact C
        · split
          · exact C
          · have F := Frame.setH (s := s) (h := fd.h) (x := { s.handles fd.h with st := (by assumption) }) C.lad rfl rfl
            simp only [if_true]
            refine (C.frame F).forget d fd.h ?_ ?_
            · rw [F.fds]; simp [sockOf, hfd]
            · intro e; rw [F.ends]
              cases e
              · simpa [inOf, hfd, hend_read] using o1
              · simpa [outOf, hfd, hend_write] using o2
  · exact C.frame (frame_shutdown C.lad d how h2)

theorem Counts.step {S : Sys} (I : Inv S) {n : Nat} (C : Counts S.s n) (op : Op) (ho : Orderly S.s op)
    (hp : (UnixSock.step S.s op).2.ret ≠ .panic) : ∃ m, Counts (UnixSock.step S.s op).1 m := by
  cases op with
  | socket d nb => exact C.socket d nb
  | bind d cwd a => exact ⟨n, C.frame (withSock_frame C.lad _ _ fun _ _ => frame_bindH C.lad _ _ _)⟩
  | getsockname d => exact ⟨n, C.frame (withSock_frame C.lad _ _ fun _ _ => .refl C.lad)⟩
  | getpeername d => exact ⟨n, C.frame (withSock_frame C.lad _ _ fun _ _ => by split <;> exact .refl C.lad)⟩
  | listen d =>
    refine ⟨n, C.frame (withSock_frame C.lad _ _ fun _ _ => ?_)⟩
    split
    · exact .refl C.lad
    · exact .setH C.lad rfl rfl
    · exact .refl C.lad
  | connect d cwd a => exact ⟨n, C.connect I d cwd a ho⟩
  | accept d new cwd => exact C.accept I d new cwd ho
  | send d data => exact ⟨n, C.frame (frame_send C.lad d data)⟩
  | writev d iovs => exact ⟨n, C.frame (frame_writev C.lad d iovs)⟩
  | recv d k peek => exact ⟨n, C.frame (frame_recv C.lad d k peek)⟩
  | shutdown d how => exact ⟨n, C.shutdown d how ho⟩
  | dup d d' =>
    simp only [UnixSock.step, UnixSock.dup, withSock]
    cases hfd : S.s.fds d with
    | none => exact ⟨n, C⟩
    | some fd =>
      dsimp only
      split
      · exact ⟨n, C⟩
      · split
        · exact ⟨n, C⟩
        · rename_i hd'
          exact ⟨_, C.copy hfd (by simpa using hd') _⟩
  | forkFd d d' =>
    simp only [UnixSock.step, UnixSock.forkFd, withSock]
    cases hfd : S.s.fds d with
    | none => exact ⟨n, C⟩
    | some fd =>
      dsimp only
      split
      · exact ⟨n, C⟩
      · split
        · exact ⟨n, C⟩
        · rename_i hd'
          cases hi : (S.s.handles fd.h).info with
          | none =>
            have := C.copy hfd (by simpa using hd') S.s.fs
            have e : bumpPipes S.s (S.s.handles fd.h) = S.s := by unfold bumpPipes; rw [hi]
            rw [e] at this
            exact ⟨_, this⟩
          | some i =>
            dsimp only
            split
            · exact ⟨n, C⟩
            · exact ⟨_, C.copy hfd (by simpa using hd') _⟩
  | close d cwd =>
    simp only [UnixSock.step, UnixSock.close, withSock] at hp ⊢
    cases hfd : S.s.fds d with
    | none => exact ⟨n, C⟩
    | some fd =>
      have hd : sockOf S.s d = some fd.h := by simp [sockOf, hfd]
      rw [hfd] at hp
      dsimp only at hp ⊢
      split
      · exact ⟨n, C⟩
      · rename_i hw
        rw [if_neg hw] at hp
        cases hi : (S.s.handles fd.h).info with
        | none => exact ⟨n, C.forget d fd.h hd (fun e => by simp [hend, hi])⟩
        | some i =>
          rw [hi] at hp
          dsimp only at hp ⊢
          split
          · rename_i hdrop; rw [hdrop] at hp; exact absurd rfl hp
          · exact ⟨n, C.less hd hi (fun e p h => ends_lt I e _ p h) _⟩
  | socketpair d d' nb cwd => exact C.socketpair I d d' nb cwd
  | setNb d nb =>
    refine ⟨n, C.frame (withSock_frame C.lad _ _ fun fd hfd => ?_)⟩
    refine ⟨fun k => ?_, rfl, rfl, rfl, fun _ _ => rfl, fun _ _ => rfl, C.lad⟩
    simp only [sockOf, State.setFd]
    by_cases e : k = d
    · subst e; rw [upd_same, hfd]; rfl
    · rw [upd_ne _ _ e]
  | fsys fs => exact ⟨n, C.frame (.fs C.lad fs)⟩

theorem Tidy.counts {S : Sys} (h : Tidy S) : ∃ n, Counts S.s n := by
  induction h with
  | start fs => exact ⟨0, .init fs⟩
  | step op h ho hp ih =>
    obtain ⟨n, C⟩ := ih
    exact C.step h.reach.inv op ho hp

end Verif.UnixSock
