import Verif.UnixSock
import Verif.PipeLemmas

/-!
# Lemmas about the unix stream socket model
-/

set_option linter.unusedSimpArgs false

namespace Verif.Pipe

/-- Whatever a write call returns, it appended a prefix of its data. -/
theorem writeNow_any (p : Pipe) (data : List UInt8) (nb : Bool) :
    ∃ k, k ≤ data.length ∧ (p.writeNow data nb).1 = { p with buf := p.buf ++ data.take k } ∧
      ((p.writeNow data nb).2 = .ok k ∨ ((p.writeNow data nb).2 = .err .EPIPE ∨ (p.writeNow data nb).2 = .err .EAGAIN) ∧ k = 0 ∨
        (p.writeNow data nb).2 = .blocked) := by
  unfold Pipe.writeNow
  split
  · exact ⟨0, by omega, by simp, .inl rfl⟩
  · obtain ⟨k, _, hk2, hk3, hk4, -⟩ := writeLoop_spec data nb (data.length + 1) p 0 (by omega) (by omega)
    refine ⟨k, hk2, by simpa using hk3, ?_⟩
    rcases hk4 with h | h | h | h
    · exact .inl h
    · exact .inr (.inl ⟨.inl h.1, h.2.2⟩)
    · exact .inr (.inl ⟨.inr h.1, h.2.1⟩)
    · exact .inr (.inr h.1)

theorem writevLoop_any (nb : Bool) (iovs : List (List UInt8)) :
    ∀ (p : Pipe) (tot : Nat), ∃ k, k ≤ iovs.flatten.length ∧
      (writevLoop nb iovs p tot).1 = { p with buf := p.buf ++ iovs.flatten.take k } ∧
      ((writevLoop nb iovs p tot).2 = .ok (tot + k : Nat) ∨
       (writevLoop nb iovs p tot).2 = .err .EAGAIN ∧ k = 0 ∨
       (writevLoop nb iovs p tot).2 = .err .EPIPE ∨
       (writevLoop nb iovs p tot).2 = .blocked) := by
  induction iovs with
  | nil => intro p tot; exact ⟨0, by simp, by simp [writevLoop], .inl rfl⟩
  | cons iov rest ih =>
    intro p tot
    obtain ⟨k, hk1, hk2, hk3⟩ := writeNow_any p iov nb
    unfold writevLoop
    rcases hk3 with h | ⟨h, h0⟩ | h
    · have hp : p.writeNow iov nb = ({ p with buf := p.buf ++ iov.take k }, .ok (k : Nat)) := Prod.ext hk2 h
      rw [hp]
      simp only [Int.toNat_natCast]
      by_cases hfull : k = iov.length
      · obtain ⟨j, hj1, hj2, hj3⟩ := ih { p with buf := p.buf ++ iov.take k } (tot + k)
        refine ⟨iov.length + j, by rw [List.flatten_cons, List.length_append]; omega, ?_, ?_⟩
        · rw [hj2, hfull]
          simp only [List.take_length, List.append_assoc, List.flatten_cons]
          rw [List.take_length_add_append]
        · rcases hj3 with e | ⟨e, e0⟩ | e | e
          · refine .inl ?_
            rw [e, hfull, Nat.add_assoc]
          · -- EAGAIN is only returned if nothing was written
            have : ∀ (its : List (List UInt8)) (q : Pipe) (t : Nat), 0 < t → (writevLoop nb its q t).2 ≠ .err .EAGAIN := by
              intro its
              induction its with
              | nil => intro q t _; simp [writevLoop]
              | cons i r ihr =>
                intro q t ht
                unfold writevLoop
                split
                · exact ihr _ _ (by omega)
                · simp
                · rw [if_neg (by omega)]; simp
                · rename_i hn _ _ hx
                  intro hh
                  simp only at hh
                  subst hh
                  simp_all
            by_cases ht : tot + k = 0
            · exact .inr (.inl ⟨e, by omega⟩)
            · exact absurd e (this _ _ _ (by omega))
          · exact .inr (.inr (.inl e))
          · exact .inr (.inr (.inr e))
      · have hlt : k < iov.length := by omega
        have hpp := writeNow_partial p iov nb k h hlt
        rw [hp] at hpp
        have h2 : (nb = false → k = iov.length) ∧ (0 < iov.length → 0 < k) := by
          unfold Pipe.writeNow at h
          rw [if_neg (by omega)] at h
          exact writeLoop_ok iov nb _ p 0 k (by omega) h
        have hnb : nb = true := by
          cases nb with
          | true => rfl
          | false => exact absurd (h2.1 rfl) hfull
        subst hnb
        rw [writevLoop_stuck rest _ (tot + k) (by omega) hpp.1 hpp.2]
        refine ⟨k, by rw [List.flatten_cons, List.length_append]; omega, ?_, .inl rfl⟩
        simp only
        rw [List.flatten_cons, List.take_append_of_le_length hk1]
    · subst h0
      rcases h with h | h
      · have hp : p.writeNow iov nb = (p, .err .EPIPE) := Prod.ext (by rw [hk2]; simp) h
        rw [hp]
        exact ⟨0, by omega, by simp, .inr (.inr (.inl rfl))⟩
      · have hp : p.writeNow iov nb = (p, .err .EAGAIN) := Prod.ext (by rw [hk2]; simp) h
        rw [hp]
        simp only
        split
        · exact ⟨0, by omega, by simp, .inr (.inl ⟨rfl, rfl⟩)⟩
        · exact ⟨0, by omega, by simp, .inl (by simp)⟩
    · have hp : p.writeNow iov nb = ({ p with buf := p.buf ++ iov.take k }, .blocked) := Prod.ext hk2 h
      rw [hp]
      refine ⟨k, by rw [List.flatten_cons, List.length_append]; omega, ?_, .inr (.inr (.inr rfl))⟩
      simp only
      rw [List.flatten_cons, List.take_append_of_le_length hk1]

end Verif.Pipe

namespace Verif.UnixSock

open Verif.Path Verif.Fs
open Verif.Pipe (Pipe End udsockCapacity)

/-- The pipe a handle receives from. -/
def hin (s : State) (h : Nat) : Option Nat := (s.handles h).info.bind (·.recv)
/-- The pipe a handle sends to. -/
def hout (s : State) (h : Nat) : Option Nat := (s.handles h).info.bind (·.send)

/-- A change that moves no bytes and makes no new connection: handles may only lose pipes. -/
structure Evo (s s' : State) : Prop where
  inn : ∀ h, (hin s' h = hin s h ∧ (s'.handles h).peek = (s.handles h).peek) ∨ hin s' h = none
  out : ∀ h, hout s' h = hout s h ∨ hout s' h = none
  buf : ∀ p, (s'.pipes p).buf = (s.pipes p).buf
  acc : s'.acc = s.acc
  np : s'.np = s.np

theorem Evo.refl (s : State) : Evo s s := ⟨fun _ => .inl ⟨rfl, rfl⟩, fun _ => .inl rfl, fun _ => rfl, rfl, rfl⟩

theorem Evo.trans {a b c : State} (h1 : Evo a b) (h2 : Evo b c) : Evo a c where
  inn h := by
    rcases h2.inn h with ⟨e, e'⟩ | e
    · rcases h1.inn h with ⟨f, f'⟩ | f
      · exact .inl ⟨e.trans f, e'.trans f'⟩
      · exact .inr (e.trans f)
    · exact .inr e
  out h := by
    rcases h2.out h with e | e
    · rcases h1.out h with f | f
      · exact .inl (e.trans f)
      · exact .inr (e.trans f)
    · exact .inr e
  buf p := (h2.buf p).trans (h1.buf p)
  acc := h2.acc.trans h1.acc
  np := h2.np.trans h1.np

/-- Replacing one handle. -/
theorem Evo.setH {s : State} {h : Nat} {x : Handle}
    (hi : ((x.info.bind (·.recv)) = hin s h ∧ x.peek = (s.handles h).peek) ∨ x.info.bind (·.recv) = none)
    (ho : x.info.bind (·.send) = hout s h ∨ x.info.bind (·.send) = none) : Evo s (s.setH h x) where
  inn k := by
    by_cases hk : k = h
    · subst hk
      simp only [hin, State.setH, upd_same]
      exact hi
    · refine .inl ?_
      simp only [hin, State.setH, upd_ne _ _ hk, and_self]
  out k := by
    by_cases hk : k = h
    · subst hk
      simp only [hout, State.setH, upd_same]
      exact ho
    · refine .inl ?_
      simp only [hout, State.setH, upd_ne _ _ hk]
  buf _ := rfl
  acc := rfl
  np := rfl

theorem Evo.setP {s : State} {p : Nat} {x : Pipe} (hb : x.buf = (s.pipes p).buf) : Evo s (s.setP p x) where
  inn _ := .inl ⟨rfl, rfl⟩
  out _ := .inl rfl
  buf q := by
    simp only [State.setP]
    by_cases hq : q = p
    · subst hq; rw [upd_same]; exact hb
    · rw [upd_ne _ _ hq]
  acc := rfl
  np := rfl

theorem Evo.of_eq {s s' : State} (h1 : s'.handles = s.handles) (h2 : s'.pipes = s.pipes) (h3 : s'.acc = s.acc) (h4 : s'.np = s.np) :
    Evo s s' := by
  refine ⟨fun h => .inl ?_, fun h => .inl ?_, fun p => by rw [h2], h3, h4⟩
  · simp only [hin, h1, and_self]
  · simp only [hout, h1]

theorem Evo.setFd (s : State) (d : Nat) (x : Option Fd) : Evo s (s.setFd d x) := .of_eq rfl rfl rfl rfl

/-- Changing a handle only in state and addresses. -/
theorem Evo.setH_same {s : State} {h : Nat} {x : Handle} (hi : x.info = (s.handles h).info) (hp : x.peek = (s.handles h).peek) :
    Evo s (s.setH h x) :=
  .setH (.inl ⟨by simp only [hin, hi], hp⟩) (.inl (by simp only [hout, hi]))

theorem evo_bindH (s : State) (h : Nat) (cwd a : Str) : Evo s (bindH s h cwd a).1 := by
  unfold bindH
  dsimp only
  cases (s.handles h).laddr
  case some => exact .refl s
  · dsimp only
    split
    · rename_i fs _ _ _
      refine Evo.trans (b := { s with fs := fs }) (.of_eq rfl rfl rfl rfl) ?_
      exact .setH (.inr rfl) (.inr rfl)
    · rename_i fs _ _ _ _
      refine Evo.trans (b := { s with fs := fs }) (.of_eq rfl rfl rfl rfl) ?_
      exact .setH_same rfl rfl

theorem evo_autoBind (s : State) (h : Nat) (cwd : Str) : Evo s (autoBind s h cwd) := by
  unfold autoBind
  split
  · exact .refl s
  · exact Evo.trans (b := { s with ud := s.ud + 1 }) (.of_eq rfl rfl rfl rfl) (evo_bindH _ _ _ _)

theorem bindH_peek (s : State) (h : Nat) (cwd a : Str) (k : Nat) : ((bindH s h cwd a).1.handles k).peek = (s.handles k).peek := by
  unfold bindH
  dsimp only
  cases (s.handles h).laddr
  case some => rfl
  · dsimp only
    split <;> (simp only [State.setH]; by_cases hk : k = h <;> simp [hk, upd])

theorem autoBind_peek (s : State) (h : Nat) (cwd : Str) (k : Nat) : ((autoBind s h cwd).handles k).peek = (s.handles k).peek := by
  unfold autoBind
  split
  · rfl
  · rw [bindH_peek]

theorem withSock_evo (s : State) (d : Nat) (f : Fd → Handle → State × Out)
    (hf : ∀ fd, s.fds d = some fd → (s.handles fd.h).waiting = false → Evo s (f fd (s.handles fd.h)).1) :
    Evo s (withSock s d f).1 := by
  unfold withSock
  split
  · exact .refl s
  · rename_i fd hfd
    split
    · exact .refl s
    · rename_i hw
      exact hf fd hfd (by simpa using hw)

theorem evo_socket (s : State) (d : Nat) (nb : Bool) : Evo s (socket s d nb).1 := by
  unfold socket
  split
  · exact .refl s
  · refine Evo.trans (b := s.setH s.nh {}) (.setH (.inr rfl) (.inr rfl)) (.of_eq rfl rfl rfl rfl)

theorem evo_listen (s : State) (d : Nat) : Evo s (listen s d).1 := by
  refine withSock_evo _ _ _ fun fd _ _ => ?_
  split
  · exact .refl s
  · exact .setH_same rfl rfl
  · exact .refl s

theorem evo_shutdown (s : State) (d : Nat) (how : Int) : Evo s (shutdown s d how).1 := by
  unfold shutdown
  split
  · exact .refl s
  · refine withSock_evo _ _ _ fun fd _ _ => ?_
    split
    · exact .refl s
    · dsimp only
      split
      · refine Evo.trans ?_ (.setFd _ _ _)
        exact .setH_same rfl rfl
      · exact .setH_same rfl rfl

theorem incr_buf (p : Pipe) (e : End) : (p.incr e).buf = p.buf := by cases e <;> rfl
theorem decrWrap_buf (p : Pipe) (e : End) : (decrWrap p e).buf = p.buf := by cases e <;> rfl

theorem evo_bumpEnd (s : State) (e : End) (o : Option Nat) : Evo s (bumpEnd s e o) := by
  cases o with
  | none => exact .refl s
  | some p => exact .setP (incr_buf _ _)

theorem evo_bumpPipes (s : State) (x : Handle) : Evo s (bumpPipes s x) := by
  unfold bumpPipes
  split
  · exact .refl s
  · exact (evo_bumpEnd _ _ _).trans (evo_bumpEnd _ _ _)

theorem evo_dropEnd (s : State) (e : End) (o : Option Nat) : Evo s (dropEnd s e o) ∧ (dropEnd s e o).handles = s.handles := by
  cases o with
  | none => exact ⟨.refl s, rfl⟩
  | some p => exact ⟨.setP (decrWrap_buf _ _), rfl⟩

theorem keepOpen_cases (s : State) (o : Option Nat) : keepOpen s o = o ∨ keepOpen s o = none := by
  cases o with
  | none => exact .inl rfl
  | some p => unfold keepOpen; dsimp only; split <;> simp

theorem evo_dup (s : State) (d d' : Nat) : Evo s (dup s d d').1 := by
  refine withSock_evo _ _ _ fun fd _ _ => ?_
  split
  · exact .refl s
  · exact (evo_bumpPipes s _).trans (.setFd _ _ _)

theorem evo_forkFd (s : State) (d d' : Nat) : Evo s (forkFd s d d').1 := by
  refine withSock_evo _ _ _ fun fd _ _ => ?_
  split
  · exact .refl s
  · split
    · exact .setFd _ _ _
    · split
      · exact .refl s
      · exact (evo_bumpPipes s _).trans (.of_eq rfl rfl rfl rfl)

theorem evo_dropPipes (s : State) (h : Nat) (i : Info) (hx : (s.handles h).info = some i) : Evo s (dropPipes s h (s.handles h) i) := by
  unfold dropPipes
  have h1 := evo_dropEnd s .write i.send
  have h2 := evo_dropEnd (dropEnd s .write i.send) .read i.recv
  refine (h1.1.trans h2.1).trans (.setH ?_ ?_)
  · simp only [hin, h2.2, h1.2, hx, Option.bind_some, and_true]
    exact keepOpen_cases _ _
  · simp only [hout, h2.2, h1.2, hx, Option.bind_some]
    exact keepOpen_cases _ _

theorem evo_close (s : State) (d : Nat) (cwd : Str) : Evo s (close s d cwd).1 := by
  refine withSock_evo _ _ _ fun fd _ _ => ?_
  split
  · exact .setFd _ _ _
  · rename_i i hi
    dsimp only
    split
    · exact evo_dropPipes s fd.h i hi
    · exact (evo_dropPipes s fd.h i hi).trans (.of_eq rfl rfl rfl rfl)

theorem evo_bind (s : State) (d : Nat) (cwd a : Str) : Evo s (bind s d cwd a).1 :=
  withSock_evo _ _ _ fun fd _ _ => evo_bindH s fd.h cwd a

theorem evo_getsockname (s : State) (d : Nat) : Evo s (getsockname s d).1 := withSock_evo _ _ _ fun _ _ _ => .refl s

theorem evo_getpeername (s : State) (d : Nat) : Evo s (getpeername s d).1 := by
  refine withSock_evo _ _ _ fun _ _ _ => ?_
  split <;> exact .refl s

end Verif.UnixSock
