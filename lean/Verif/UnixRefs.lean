import Verif.UnixSockAnswers
import Verif.RecoveryInv

/-!
# The reference counts of the two directions of a connection

Every direction of a connection counts the descriptors that can send on it and the descriptors that can receive from it.  A
descriptor that does not exist yet because the connection was not accepted counts too.
-/

set_option linter.unusedSimpArgs false

namespace Verif.UnixSock

open Verif.Path Verif.Fs
open Verif.Pipe (Pipe End udsockCapacity)

/-- The direction a socket uses at an end. -/
def infoEnd (e : End) (i : Info) : Option Nat := match e with | .write => i.send | .read => i.recv
def hend (e : End) (s : State) (h : Nat) : Option Nat := (s.handles h).info.bind (infoEnd e)
/-- The count of an end. -/
def refs (e : End) (p : Pipe) : Nat := match e with | .write => p.wref | .read => p.rref
/-- The direction the accepting side will use at an end. -/
def entEnd (e : End) (x : Entry) : Nat := match e with | .write => x.send | .read => x.recv

/-- Descriptor `d` can send on (`write`) or receive from (`read`) direction `p`. -/
def IsEnd (s : State) (e : End) (p d : Nat) : Prop := ∃ h, sockOf s d = some h ∧ hend e s h = some p
/-- A connection waits to be accepted, and its accepting side will have this end of `p`. -/
def Waits (s : State) (e : End) (p : Nat) : Prop := ∃ w x, s.acc w = some x ∧ entEnd e x = p

theorem hend_write (s : State) (h : Nat) : hend .write s h = hout s h := rfl
theorem hend_read (s : State) (h : Nat) : hend .read s h = hin s h := rfl

/-- A socket without an address has no inode and no connection. -/
def Lad (s : State) : Prop := ∀ h, (s.handles h).laddr = none → (s.handles h).info = none

open Classical in
noncomputable def wt (s : State) (e : End) (p d : Nat) : Nat := if IsEnd s e p d then 1 else 0
open Classical in
noncomputable def pend (s : State) (e : End) (p : Nat) : Nat := if Waits s e p then 1 else 0

structure Counts (s : State) (n : Nat) : Prop where
  fin : ∀ d, n ≤ d → s.fds d = none
  hlt : ∀ d h, sockOf s d = some h → h < s.nh
  lad : Lad s
  cnt : ∀ e p, p < s.np → ∀ N, n ≤ N → refs e (s.pipes p) = sumTo (wt s e p) N + pend s e p

theorem Counts.mono {s : State} {n m : Nat} (C : Counts s n) (h : n ≤ m) : Counts s m :=
  ⟨fun d hd => C.fin d (by omega), C.hlt, C.lad, fun e p hp N hN => C.cnt e p hp N (by omega)⟩

theorem wt_congr {s s' : State} {e : End} {p d : Nat} (h : IsEnd s' e p d ↔ IsEnd s e p d) : wt s' e p d = wt s e p d := by
  unfold wt; by_cases c : IsEnd s e p d
  · rw [if_pos c, if_pos (h.2 c)]
  · rw [if_neg c, if_neg (fun x => c (h.1 x))]

theorem pend_congr {s s' : State} {e : End} {p : Nat} (h : Waits s' e p ↔ Waits s e p) : pend s' e p = pend s e p := by
  unfold pend; by_cases c : Waits s e p
  · rw [if_pos c, if_pos (h.2 c)]
  · rw [if_neg c, if_neg (fun x => c (h.1 x))]

theorem wt_pos {s : State} {e : End} {p d : Nat} (h : IsEnd s e p d) : wt s e p d = 1 := by unfold wt; rw [if_pos h]
theorem wt_neg {s : State} {e : End} {p d : Nat} (h : ¬ IsEnd s e p d) : wt s e p d = 0 := by unfold wt; rw [if_neg h]
theorem pend_pos {s : State} {e : End} {p : Nat} (h : Waits s e p) : pend s e p = 1 := by unfold pend; rw [if_pos h]
theorem pend_neg {s : State} {e : End} {p : Nat} (h : ¬ Waits s e p) : pend s e p = 0 := by unfold pend; rw [if_neg h]

theorem sum_congr {s s' : State} {e : End} {p N : Nat} (h : ∀ d, IsEnd s' e p d ↔ IsEnd s e p d) :
    sumTo (wt s' e p) N = sumTo (wt s e p) N := sumTo_congr fun d _ => wt_congr (h d)

/-- One descriptor changes. -/
theorem sum_change {s s' : State} {e : End} {p N k : Nat} (hk : k < N) (h : ∀ d, d ≠ k → (IsEnd s' e p d ↔ IsEnd s e p d)) :
    sumTo (wt s' e p) N + wt s e p k = sumTo (wt s e p) N + wt s' e p k :=
  sumTo_upd hk fun d hd => wt_congr (h d hd)

/-- Nothing about descriptors, sockets' ends and counts changes. -/
structure Frame (s s' : State) : Prop where
  fds : ∀ d, sockOf s' d = sockOf s d
  acc : s'.acc = s.acc
  np : s'.np = s.np
  nh : s'.nh = s.nh
  ends : ∀ e h, hend e s' h = hend e s h
  refs : ∀ e p, refs e (s'.pipes p) = refs e (s.pipes p)
  lad : Lad s'

theorem sockOf_none {s : State} {d : Nat} : sockOf s d = none ↔ s.fds d = none := by simp [sockOf]

theorem Counts.frame {s s' : State} {n : Nat} (C : Counts s n) (F : Frame s s') : Counts s' n where
  fin d hd := by
    have := C.fin d hd
    rw [← sockOf_none] at this ⊢
    rw [F.fds]; exact this
  hlt d h e := by rw [F.nh]; rw [F.fds] at e; exact C.hlt d h e
  lad := F.lad
  cnt e p hp N hN := by
    rw [F.np] at hp
    rw [F.refs, C.cnt e p hp N hN]
    congr 1
    · refine (sum_congr fun d => ?_).symm
      simp only [IsEnd, F.fds, F.ends]
    · refine (pend_congr ?_).symm
      simp only [Waits, F.acc]

theorem Frame.refl {s : State} (h : Lad s) : Frame s s := ⟨fun _ => rfl, rfl, rfl, rfl, fun _ _ => rfl, fun _ _ => rfl, h⟩

theorem Frame.trans {a b c : State} (h1 : Frame a b) (h2 : Frame b c) : Frame a c :=
  ⟨fun d => (h2.fds d).trans (h1.fds d), h2.acc.trans h1.acc, h2.np.trans h1.np, h2.nh.trans h1.nh,
    fun e h => (h2.ends e h).trans (h1.ends e h), fun e p => (h2.refs e p).trans (h1.refs e p), h2.lad⟩

/-- A socket changes, not in its ends. -/
theorem Frame.setH {s : State} {h : Nat} {x : Handle} (L : Lad s) (hi : x.info = (s.handles h).info)
    (hl : x.laddr = (s.handles h).laddr) : Frame s (s.setH h x) := by
  have key : ∀ k, ((s.setH h x).handles k).info = (s.handles k).info ∧ ((s.setH h x).handles k).laddr = (s.handles k).laddr := by
    intro k
    simp only [State.setH]
    by_cases e : k = h
    · subst e; rw [upd_same]; exact ⟨hi, hl⟩
    · rw [upd_ne _ _ e]; exact ⟨rfl, rfl⟩
  refine ⟨fun _ => rfl, rfl, rfl, rfl, fun e k => ?_, fun _ _ => rfl, fun k hk => ?_⟩
  · simp only [hend, (key k).1]
  · rw [(key k).1]; exact L k ((key k).2 ▸ hk)

theorem Frame.fs {s : State} (L : Lad s) (fs : Fs) : Frame s { s with fs := fs } :=
  ⟨fun _ => rfl, rfl, rfl, rfl, fun _ _ => rfl, fun _ _ => rfl, L⟩

theorem Frame.setP {s : State} {p : Nat} {x : Pipe} (L : Lad s) (hx : ∀ e, UnixSock.refs e x = UnixSock.refs e (s.pipes p)) :
    Frame s (s.setP p x) := by
  refine ⟨fun _ => rfl, rfl, rfl, rfl, fun _ _ => rfl, fun e q => ?_, L⟩
  simp only [State.setP]
  by_cases h : q = p
  · subst h; rw [upd_same]; exact hx e
  · rw [upd_ne _ _ h]

theorem frame_bindH {s : State} (L : Lad s) (h : Nat) (cwd a : Str) : Frame s (bindH s h cwd a).1 := by
  unfold bindH
  dsimp only
  cases hl : (s.handles h).laddr with
  | some _ => exact .refl L
  | none =>
    have hi := L h hl
    have key : ∀ (fs : Fs) (x : Handle), x.info.bind (·.send) = none → x.info.bind (·.recv) = none → x.laddr ≠ none →
        Frame s ({ s with fs := fs }.setH h x) := by
      intro fs x h1 h2 h3
      refine ⟨fun _ => rfl, rfl, rfl, rfl, fun e k => ?_, fun _ _ => rfl, fun k hk => ?_⟩
      · by_cases hk : k = h
        · subst hk
          cases e
          · simp only [hend_read, hin, State.setH, upd_same, h2, hi, Option.bind_none]
          · simp only [hend_write, hout, State.setH, upd_same, h1, hi, Option.bind_none]
        · simp only [hend, State.setH, upd_ne _ _ hk]
      · simp only [State.setH] at hk ⊢
        by_cases e : k = h
        · subst e; rw [upd_same] at hk; exact absurd hk h3
        · rw [upd_ne _ _ e] at hk ⊢; exact L k hk
    dsimp only
    split
    · exact key _ _ rfl rfl (by simp)
    · exact key _ _ (by simp [hi]) (by simp [hi]) (by simp)

theorem frame_autoBind {s : State} (L : Lad s) (h : Nat) (cwd : Str) : Frame s (autoBind s h cwd) := by
  unfold autoBind
  split
  · exact .refl L
  · exact Frame.trans (b := { s with ud := s.ud + 1 }) ⟨fun _ => rfl, rfl, rfl, rfl, fun _ _ => rfl, fun _ _ => rfl, L⟩
      (frame_bindH (s := { s with ud := s.ud + 1 }) L _ _ _)

theorem frame_wake {s : State} (L : Lad s) (o : Option Nat) : Frame s (wake s o) := by
  cases o with
  | none => exact .refl L
  | some w => exact .setH L rfl rfl

theorem withSock_frame {s : State} (L : Lad s) (d : Nat) (f : Fd → Handle → State × Out)
    (hf : ∀ fd, s.fds d = some fd → Frame s (f fd (s.handles fd.h)).1) : Frame s (withSock s d f).1 := by
  unfold withSock
  split
  · exact .refl L
  · split
    · exact .refl L
    · exact hf _ (by assumption)

theorem refs_buf (e : End) (p : Pipe) (b : List UInt8) : refs e { p with buf := b } = refs e p := by cases e <;> rfl

theorem frame_send {s : State} (L : Lad s) (d : Nat) (data : List UInt8) : Frame s (send s d data).1 := by
  refine withSock_frame L _ _ fun fd _ => ?_
  split
  · exact .refl L
  · split
    · exact .refl L
    · split
      · exact .refl L
      · rename_i p _
        refine .setP L fun e => ?_
        obtain ⟨k, -, h, -⟩ := Pipe.writeNow_any (s.pipes p) data fd.nb
        rw [h, refs_buf]

theorem frame_writev {s : State} (L : Lad s) (d : Nat) (iovs : List (List UInt8)) : Frame s (writev s d iovs).1 := by
  refine withSock_frame L _ _ fun fd _ => ?_
  split
  · exact .refl L
  · split
    · exact .refl L
    · split
      · exact .refl L
      · rename_i p _
        refine .setP L fun e => ?_
        obtain ⟨k, -, h, -⟩ := Pipe.writevLoop_any fd.nb iovs (s.pipes p) 0
        show refs e (Pipe.writevLoop fd.nb iovs (s.pipes p) 0).1 = _
        rw [h, refs_buf]

theorem frame_recv {s : State} (L : Lad s) (d n : Nat) (peek : Bool) : Frame s (recv s d n peek).1 := by
  refine withSock_frame L _ _ fun fd _ => ?_
  dsimp only
  split
  · exact .refl L
  · split
    · exact .refl L
    · split
      · exact .setH L rfl rfl
      · split
        · exact .refl L
        · split
          · exact .refl L
          · rename_i p _
            rcases readNow_any (s.pipes p) (n - min (s.handles fd.h).peek.length n) fd.nb with ⟨k, _, _, e⟩ | e | e
            · rw [e]
              dsimp only
              exact (Frame.setP L fun e => refs_buf e _ _).trans (.setH (s := s.setP p _) L rfl rfl)
            all_goals
              rw [e]
              dsimp only
              split
              · exact .setH L rfl rfl
              · exact .refl L

theorem frame_shutdown {s : State} (L : Lad s) (d : Nat) (how : Int) (h2 : how ≠ 2) : Frame s (shutdown s d how).1 := by
  unfold shutdown
  split
  · exact .refl L
  · refine withSock_frame L _ _ fun fd _ => ?_
    split
    · exact .refl L
    · simp only [if_neg h2]
      exact .setH L rfl rfl

/-- A descriptor of a socket without ends goes away. -/
theorem Counts.forget {s : State} {n : Nat} (C : Counts s n) (d h : Nat) (hd : sockOf s d = some h) (he : ∀ e, hend e s h = none) :
    Counts (s.setFd d none) n := by
  have hs : ∀ k, sockOf (s.setFd d none) k = if k = d then none else sockOf s k := by
    intro k
    by_cases e : k = d
    · subst e; simp only [sockOf, State.setFd, upd_same, Option.map_none, if_true]
    · simp only [sockOf, State.setFd, upd_ne _ _ e, if_neg e]
  refine ⟨fun k hk => ?_, fun k x hx => ?_, C.lad, fun e p hp N hN => ?_⟩
  · rw [← sockOf_none, hs]
    split
    · rfl
    · exact sockOf_none.2 (C.fin k hk)
  · rw [hs] at hx
    split at hx
    · cases hx
    · exact C.hlt k x hx
  · have := C.cnt e p hp N hN
    rw [sum_congr (s := s) (s' := s.setFd d none) (e := e) (p := p) (N := N), pend_congr (s := s) (s' := s.setFd d none)]
    · exact this
    · rfl
    · intro k
      by_cases hk : k = d
      · subst hk
        refine ⟨fun ⟨x, hx, _⟩ => ?_, fun ⟨x, hx, h2⟩ => ?_⟩
        · rw [hs, if_pos rfl] at hx; cases hx
        · have : x = h := Option.some.inj (hx.symm.trans hd)
          subst this
          rw [he e] at h2; cases h2
      · simp only [IsEnd, hs, if_neg hk]
        exact Iff.rfl

/-- A new descriptor `d` of socket `h`, and one more reference to each of its ends. -/
theorem Counts.more {s s' : State} {n : Nat} (C : Counts s n) (d h : Nat) (hd : s.fds d = none) (hlt : h < s'.nh) (hn : s.nh ≤ s'.nh)
    (hs : ∀ k, sockOf s' k = if k = d then some h else sockOf s k) (hacc : s'.acc = s.acc) (hnp : s'.np = s.np)
    (hends : ∀ e k, hend e s' k = hend e s k) (L : Lad s')
    (hr : ∀ e p, refs e (s'.pipes p) = refs e (s.pipes p) + if hend e s h = some p then 1 else 0) : Counts s' (max n (d + 1)) := by
  refine ⟨fun k hk => ?_, fun k x hx => ?_, L, fun e p hp N hN => ?_⟩
  · rw [← sockOf_none, hs, if_neg (by omega)]
    exact sockOf_none.2 (C.fin k (by omega))
  · rw [hs] at hx
    split at hx
    · cases hx; exact hlt
    · exact Nat.lt_of_lt_of_le (C.hlt k x hx) hn
  · rw [hnp] at hp
    have h1 := C.cnt e p hp N (by omega)
    have h2 := sum_change (s := s) (s' := s') (e := e) (p := p) (N := N) (k := d) (by omega) (fun k hk => by
      simp only [IsEnd, hs, if_neg hk, hends])
    have h3 : wt s e p d = 0 := wt_neg fun ⟨x, hx, _⟩ => by rw [sockOf_none.2 hd] at hx; cases hx
    have h4 : wt s' e p d = if hend e s h = some p then 1 else 0 := by
      have : IsEnd s' e p d ↔ hend e s h = some p := by
        simp only [IsEnd, hs, if_true, hends]
        exact ⟨fun ⟨x, hx, h⟩ => by cases hx; exact h, fun h => ⟨_, rfl, h⟩⟩
      by_cases c : hend e s h = some p
      · rw [wt_pos (this.2 c), if_pos c]
      · rw [wt_neg (fun x => c (this.1 x)), if_neg c]
    have h5 : pend s' e p = pend s e p := pend_congr (by simp only [Waits, hacc])
    rw [hr, h5]
    omega

theorem refs_setP (s : State) (p : Nat) (x : Pipe) (e : End) (q : Nat) :
    refs e ((s.setP p x).pipes q) = if q = p then refs e x else refs e (s.pipes q) := by
  simp only [State.setP]
  by_cases h : q = p
  · subst h; rw [upd_same, if_pos rfl]
  · rw [upd_ne _ _ h, if_neg h]

theorem refs_bumpEnd (s : State) (e f : End) (o : Option Nat) (p : Nat) :
    refs f ((bumpEnd s e o).pipes p) = refs f (s.pipes p) + if f = e ∧ o = some p then 1 else 0 := by
  cases o with
  | none => simp [bumpEnd]
  | some q =>
    simp only [bumpEnd, refs_setP]
    by_cases h : p = q
    · subst h
      cases e <;> cases f <;> simp [refs, Pipe.Pipe.incr]
    · have : q ≠ p := fun x => h x.symm
      simp [h, this]

theorem bumpPipes_refs (s : State) (h : Nat) (f : End) (p : Nat) :
    refs f ((bumpPipes s (s.handles h)).pipes p) = refs f (s.pipes p) + if hend f s h = some p then 1 else 0 := by
  unfold bumpPipes
  split
  · rename_i hi
    simp [hend, hi]
  · rename_i i hi
    rw [refs_bumpEnd, refs_bumpEnd]
    cases f <;> simp [hend, hi, infoEnd]

theorem bumpPipes_same (s : State) (x : Handle) : (bumpPipes s x).handles = s.handles ∧ (bumpPipes s x).nh = s.nh ∧
    (bumpPipes s x).fds = s.fds ∧ (bumpPipes s x).acc = s.acc ∧ (bumpPipes s x).np = s.np := by
  have h1 : ∀ s e o, (bumpEnd s e o).handles = s.handles ∧ (bumpEnd s e o).nh = s.nh ∧ (bumpEnd s e o).fds = s.fds ∧
      (bumpEnd s e o).acc = s.acc ∧ (bumpEnd s e o).np = s.np := by
    intro s e o; cases o <;> exact ⟨rfl, rfl, rfl, rfl, rfl⟩
  unfold bumpPipes
  split
  · exact ⟨rfl, rfl, rfl, rfl, rfl⟩
  · rename_i i _
    have a := h1 s .write i.send
    have b := h1 (bumpEnd s .write i.send) .read i.recv
    exact ⟨b.1.trans a.1, b.2.1.trans a.2.1, b.2.2.1.trans a.2.2.1, b.2.2.2.1.trans a.2.2.2.1, b.2.2.2.2.trans a.2.2.2.2⟩

theorem Counts.copy {s : State} {n : Nat} (C : Counts s n) {d d' : Nat} {fd : Fd} (hfd : s.fds d = some fd) (hd' : s.fds d' = none) (fs : Fs) :
    Counts ({ bumpPipes s (s.handles fd.h) with fs := fs }.setFd d' (some fd)) (max n (d' + 1)) := by
  obtain ⟨h1, h2, h3, h4, h5⟩ := bumpPipes_same s (s.handles fd.h)
  refine C.more d' fd.h hd' ?_ ?_ ?_ h4 h5 ?_ ?_ ?_
  · show fd.h < (bumpPipes s (s.handles fd.h)).nh
    rw [h2]; exact C.hlt d fd.h (by simp [sockOf, hfd])
  · show s.nh ≤ (bumpPipes s (s.handles fd.h)).nh
    omega
  · intro k
    simp only [sockOf, State.setFd]
    rw [h3]
    by_cases e : k = d'
    · subst e; simp
    · rw [upd_ne _ _ e, if_neg e]
  · intro e k; simp only [hend, State.setFd]; rw [h1]
  · intro k; simp only [State.setFd]; rw [h1]; exact C.lad k
  · intro e p; exact bumpPipes_refs s fd.h e p

theorem Counts.socket {s : State} {n : Nat} (C : Counts s n) (d : Nat) (nb : Bool) : ∃ m, Counts (socket s d nb).1 m := by
  unfold UnixSock.socket
  split
  · exact ⟨n, C⟩
  · rename_i hd
    refine ⟨max n (d + 1), ?_⟩
    have C0 : Counts (s.setH s.nh {}) n := by
      refine ⟨C.fin, C.hlt, fun k hk => ?_, fun e p hp N hN => ?_⟩
      · simp only [State.setH] at hk ⊢
        by_cases e : k = s.nh
        · subst e; rw [upd_same]
        · rw [upd_ne _ _ e] at hk ⊢; exact C.lad k hk
      · rw [show (s.setH s.nh {}).pipes = s.pipes from rfl, C.cnt e p hp N hN]
        congr 1
        refine (sum_congr fun k => ?_).symm
        refine ⟨fun ⟨h, a, b⟩ => ⟨h, a, ?_⟩, fun ⟨h, a, b⟩ => ⟨h, a, ?_⟩⟩
        all_goals
          have := C.hlt k h a
          simp only [hend, State.setH, upd_ne _ _ (show h ≠ s.nh by omega)] at b ⊢
          exact b
    refine C0.more d s.nh hd (Nat.lt_succ_self _) (Nat.le_succ _) ?_ rfl rfl (fun _ _ => rfl) C0.lad ?_
    · intro k
      simp only [sockOf, State.setFd, State.setH]
      by_cases e : k = d
      · subst e; simp
      · rw [upd_ne _ _ e, if_neg e]
    · intro e p
      simp [hend, State.setH, State.setFd]

/-! ## Closing -/

theorem refs_dropEnd (s : State) (e f : End) (o : Option Nat) (p : Nat) (h : f = e → o = some p → refs e (s.pipes p) ≠ 0) :
    refs f ((dropEnd s e o).pipes p) + (if f = e ∧ o = some p then 1 else 0) = refs f (s.pipes p) := by
  cases o with
  | none => simp [dropEnd]
  | some q =>
    simp only [dropEnd, refs_setP]
    by_cases hp : p = q
    · subst hp
      cases e <;> cases f <;> simp_all [refs, decrWrap] <;> omega
    · have : q ≠ p := fun x => hp x.symm
      simp [hp, this]

theorem sum_two {f : Nat → Nat} {N a b : Nat} (ha : a < N) (hb : b < N) (hab : a ≠ b) : f a + f b ≤ sumTo f N := by
  induction N with
  | zero => omega
  | succ N ih =>
    simp only [sumTo]
    by_cases h1 : a = N
    · subst h1
      have := sumTo_le (f := f) (n := a) (k := b) (by omega)
      omega
    · by_cases h2 : b = N
      · subst h2
        have := sumTo_le (f := f) (n := b) (k := a) (by omega)
        omega
      · have := ih (by omega) (by omega); omega

theorem Counts.isLt {s : State} {n : Nat} (C : Counts s n) {d h : Nat} (hd : sockOf s d = some h) : d < n := by
  apply Classical.byContradiction
  intro c
  rw [sockOf_none.2 (C.fin d (by omega))] at hd
  cases hd

theorem isClosed_not {p : Pipe} (e : End) (h : refs e p ≠ 0) : p.isClosed = false := by
  cases e <;> simp_all [Pipe.Pipe.isClosed, refs]

theorem dropPipes_refs {s : State} {n : Nat} (C : Counts s n) {d h : Nat} (hd : sockOf s d = some h) {i : Info}
    (hi : (s.handles h).info = some i) (hlt : ∀ e p, hend e s h = some p → p < s.np) (e : End) (p : Nat) :
    refs e ((dropPipes s h (s.handles h) i).pipes p) + (if hend e s h = some p then 1 else 0) = refs e (s.pipes p) := by
  have pos : ∀ e p, hend e s h = some p → refs e (s.pipes p) ≠ 0 := by
    intro e p hp
    rw [C.cnt e p (hlt e p hp) n (Nat.le_refl _)]
    have := sumTo_le (f := wt s e p) (n := n) (k := d) (C.isLt hd)
    rw [wt_pos ⟨h, hd, hp⟩] at this
    omega
  have e1 : hend .write s h = i.send := by simp [hend, hi, infoEnd]
  have e2 : hend .read s h = i.recv := by simp [hend, hi, infoEnd]
  have a := refs_dropEnd s .write e i.send p (fun _ h2 => pos .write p (e1.trans h2))
  have pr : ∀ q, refs .read ((dropEnd s .write i.send).pipes q) = refs .read (s.pipes q) := by
    intro q
    have := refs_dropEnd s .write .read i.send q (by simp)
    simpa using this
  have b := refs_dropEnd (dropEnd s .write i.send) .read e i.recv p (fun _ h2 => by rw [pr]; exact pos .read p (e2.trans h2))
  show refs e ((dropEnd (dropEnd s .write i.send) .read i.recv).pipes p) + _ = _
  cases e
  · simp only [e2, reduceCtorEq, false_and, if_false, true_and, Nat.add_zero] at a b ⊢
    omega
  · simp only [e1, reduceCtorEq, false_and, if_false, true_and, Nat.add_zero] at a b ⊢
    omega

/-- Closing one of several descriptors of a socket leaves its ends. -/
theorem dropPipes_ends {s : State} {n : Nat} (C : Counts s n) {d d' h : Nat} (hd : sockOf s d = some h) (hd' : sockOf s d' = some h)
    (hne : d' ≠ d) {i : Info} (hi : (s.handles h).info = some i) (hlt : ∀ e p, hend e s h = some p → p < s.np) (e : End) (k : Nat) :
    hend e (dropPipes s h (s.handles h) i) k = hend e s k := by
  by_cases hk : k = h
  · subst hk
    have two : ∀ e p, hend e s k = some p → 2 ≤ refs e (s.pipes p) := by
      intro e p hp
      rw [C.cnt e p (hlt e p hp) n (Nat.le_refl _)]
      have := sum_two (f := wt s e p) (N := n) (C.isLt hd) (C.isLt hd') (fun x => hne x.symm)
      rw [wt_pos ⟨k, hd, hp⟩, wt_pos ⟨k, hd', hp⟩] at this
      omega
    have e1 : hend .write s k = i.send := by simp [hend, hi, infoEnd]
    have e2 : hend .read s k = i.recv := by simp [hend, hi, infoEnd]
    have k1 : keepOpen (dropEnd s .write i.send) i.send = i.send := by
      cases hs : i.send with
      | none => rfl
      | some p =>
        have t := two .write p (e1.trans hs)
        have a := refs_dropEnd s .write .write (some p) p (fun _ _ => by omega)
        simp only [and_self, if_true] at a
        simp only [keepOpen]
        rw [isClosed_not .write (by omega)]
        rfl
    have k2 : keepOpen (dropEnd (dropEnd s .write i.send) .read i.recv) i.recv = i.recv := by
      cases hs : i.recv with
      | none => rfl
      | some p =>
        have t := two .read p (e2.trans hs)
        have pr : refs .read ((dropEnd s .write i.send).pipes p) = refs .read (s.pipes p) := by
          simpa using refs_dropEnd s .write .read i.send p (by simp)
        have a := refs_dropEnd (dropEnd s .write i.send) .read .read (some p) p (fun _ _ => by omega)
        simp only [and_self, if_true] at a
        simp only [keepOpen]
        rw [isClosed_not .read (by omega)]
        rfl
    unfold dropPipes
    simp only [k1, k2]
    simp only [hend, State.setH, upd_same, hi]
  · have hh : (dropEnd (dropEnd s .write i.send) .read i.recv).handles = s.handles := by
      rw [(evo_dropEnd _ _ _).2, (evo_dropEnd _ _ _).2]
    simp only [dropPipes, hend, State.setH, upd_ne _ _ hk, hh]

theorem dropPipes_same (s : State) (h : Nat) (x : Handle) (i : Info) :
    (dropPipes s h x i).nh = s.nh ∧ (dropPipes s h x i).fds = s.fds ∧ (dropPipes s h x i).acc = s.acc ∧ (dropPipes s h x i).np = s.np ∧
    (∀ k, k ≠ h → (dropPipes s h x i).handles k = s.handles k) ∧ ((dropPipes s h x i).handles h).laddr = x.laddr := by
  have h1 : ∀ s e o, (dropEnd s e o).handles = s.handles ∧ (dropEnd s e o).nh = s.nh ∧ (dropEnd s e o).fds = s.fds ∧
      (dropEnd s e o).acc = s.acc ∧ (dropEnd s e o).np = s.np := by
    intro s e o; cases o <;> exact ⟨rfl, rfl, rfl, rfl, rfl⟩
  have a := h1 s .write i.send
  have b := h1 (dropEnd s .write i.send) .read i.recv
  refine ⟨b.2.1.trans a.2.1, b.2.2.1.trans a.2.2.1, b.2.2.2.1.trans a.2.2.2.1, b.2.2.2.2.trans a.2.2.2.2, fun k hk => ?_, ?_⟩
  · simp only [dropPipes, State.setH, upd_ne _ _ hk, b.1, a.1]
  · simp only [dropPipes, State.setH, upd_same]

theorem Counts.less {s : State} {n : Nat} (C : Counts s n) {d h : Nat} (hd : sockOf s d = some h) {i : Info}
    (hi : (s.handles h).info = some i) (hlt : ∀ e p, hend e s h = some p → p < s.np) (fs : Fs) :
    Counts ({ dropPipes s h (s.handles h) i with fs := fs }.setFd d none) n := by
  obtain ⟨h1, h2, h3, h4, h5, h6⟩ := dropPipes_same s h (s.handles h) i
  have hr := dropPipes_refs C hd hi hlt
  have he := fun d' hd' hne => dropPipes_ends (d' := d') C hd hd' hne hi hlt
  generalize dropPipes s h (s.handles h) i = t at h1 h2 h3 h4 h5 h6 hr he
  obtain ⟨u, hu⟩ : ∃ u, u = State.setFd { t with fs := fs } d none := ⟨_, rfl⟩
  rw [← hu]
  have hs : ∀ k, sockOf u k = if k = d then none else sockOf s k := by
    intro k
    simp only [hu, sockOf, State.setFd, h2]
    by_cases e : k = d
    · subst e; simp
    · rw [upd_ne _ _ e, if_neg e]
  refine ⟨fun k hk => ?_, fun k x hx => ?_, fun k hk => ?_, fun e p hp N hN => ?_⟩
  · rw [← sockOf_none, hs]
    split
    · rfl
    · exact sockOf_none.2 (C.fin k hk)
  · rw [hs] at hx
    rw [show u.nh = t.nh by rw [hu]; rfl]
    split at hx
    · cases hx
    · rw [h1]; exact C.hlt k x hx
  · rw [show u.handles = t.handles by rw [hu]; rfl] at hk ⊢
    by_cases c : k = h
    · subst c
      rw [h6] at hk
      rw [C.lad k hk] at hi; cases hi
    · rw [h5 k c] at hk ⊢; exact C.lad k hk
  · rw [show u.np = s.np by rw [hu]; exact h4] at hp
    have a := C.cnt e p hp N hN
    have b := sum_change (s := s) (s' := u) (e := e) (p := p) (N := N) (k := d)
      (Nat.lt_of_lt_of_le (C.isLt hd) hN) (fun k hk => by
        simp only [IsEnd, hs, if_neg hk]
        refine ⟨fun ⟨x, hx, hy⟩ => ⟨x, hx, ?_⟩, fun ⟨x, hx, hy⟩ => ⟨x, hx, ?_⟩⟩
        all_goals
          by_cases c : x = h
          · subst c
            have : hend e u x = hend e s x := by
              rw [← he k hx hk e x, hu]; rfl
            first
              | exact this.symm.trans hy
              | exact this.trans hy
          · simp only [hu, hend, State.setFd, h5 x c] at hy ⊢
            exact hy)
    have c1 : wt u e p d = 0 := wt_neg fun ⟨x, hx, _⟩ => by
      rw [hs, if_pos rfl] at hx; cases hx
    have c2 : wt s e p d = if hend e s h = some p then 1 else 0 := by
      have : IsEnd s e p d ↔ hend e s h = some p := by
        simp only [IsEnd, hd]
        exact ⟨fun ⟨x, hx, h⟩ => by cases hx; exact h, fun h => ⟨_, rfl, h⟩⟩
      by_cases c : hend e s h = some p
      · rw [wt_pos (this.2 c), if_pos c]
      · rw [wt_neg (fun x => c (this.1 x)), if_neg c]
    have c3 : pend u e p = pend s e p := pend_congr (by simp only [Waits, hu, State.setFd, h3])
    have := hr e p
    rw [show u.pipes = t.pipes by rw [hu]; rfl]
    omega

/-! ## New connections -/

/-- What connect needs for the counts: the socket has one descriptor and no connection, and no connection waits at the address. -/
theorem Counts.conn {s s' : State} {n : Nat} (C : Counts s n) {d h : Nat} (hd : sockOf s d = some h) (he : ∀ e, hend e s h = none)
    (hone : ∀ k, sockOf s k = some h → k = d) (hnp : s'.np = s.np + 2) (hnh : s'.nh = s.nh)
    (hh : ∀ k, k ≠ h → s'.handles k = s.handles k) (h1 : hend .write s' h = some s.np) (h2 : hend .read s' h = some (s.np + 1))
    (hl : (s'.handles h).laddr ≠ none) (hs : s'.fds = s.fds)
    (hp : s'.pipes = upd (upd s.pipes s.np (Pipe.new udsockCapacity)) (s.np + 1) (Pipe.new udsockCapacity))
    {w : List Name} {x : Entry} (hw : s.acc w = none) (ha : s'.acc = updK s.acc w (some x)) (e1 : x.recv = s.np) (e2 : x.send = s.np + 1)
    (hlt : ∀ e k p, hend e s k = some p → p < s.np) (alt : ∀ w x, s.acc w = some x → x.recv < s.np ∧ x.send < s.np) : Counts s' n := by
  have hs' : ∀ k, sockOf s' k = sockOf s k := fun k => by simp only [sockOf, hs]
  have hends : ∀ e k, k ≠ h → hend e s' k = hend e s k := fun e k hk => by simp only [hend, hh k hk]
  have wts : ∀ e p, Waits s' e p ↔ Waits s e p ∨ entEnd e x = p := by
    intro e p
    constructor
    · rintro ⟨w', y, hy, h⟩
      rw [ha] at hy
      by_cases c : w' = w
      · subst c; rw [updK_same] at hy; cases hy; exact .inr h
      · rw [updK_ne _ _ c] at hy; exact .inl ⟨w', y, hy, h⟩
    · rintro (⟨w', y, hy, h⟩ | h)
      · refine ⟨w', y, ?_, h⟩
        rw [ha, updK_ne _ _ (fun c => by rw [c, hw] at hy; cases hy)]; exact hy
      · exact ⟨w, x, by rw [ha, updK_same], h⟩
  have nowait : ∀ e p, s.np ≤ p → ¬ Waits s e p := by
    rintro e p hp ⟨w', y, hy, h⟩
    have := alt w' y hy
    cases e <;> simp only [entEnd] at h <;> omega
  refine ⟨fun k hk => by rw [hs]; exact C.fin k hk, fun k y hy => by rw [hnh]; rw [hs'] at hy; exact C.hlt k y hy, fun k hk => ?_, ?_⟩
  · by_cases c : k = h
    · subst c; exact absurd hk hl
    · rw [hh k c] at hk ⊢; exact C.lad k hk
  · intro e p hlt' N hN
    rw [hnp] at hlt'
    by_cases old : p < s.np
    · rw [hp, upd_ne _ _ (by omega), upd_ne _ _ (by omega), C.cnt e p old N hN]
      congr 1
      · refine (sum_congr fun k => ?_).symm
        simp only [IsEnd, hs']
        refine ⟨fun ⟨y, a, b⟩ => ⟨y, a, ?_⟩, fun ⟨y, a, b⟩ => ⟨y, a, ?_⟩⟩
        all_goals by_cases c : y = h
        · subst c; cases e
          · rw [h2] at b; cases b; omega
          · rw [h1] at b; cases b; omega
        · rw [hends e y c] at b; exact b
        · subst c; rw [he e] at b; cases b
        · rw [hends e y c]; exact b
      · refine (pend_congr ?_).symm
        rw [wts]
        refine ⟨fun h => h.elim id fun h => ?_, .inl⟩
        cases e <;> simp only [entEnd] at h <;> omega
    · -- a new direction
      have r1 : refs e (s'.pipes p) = 1 := by
        rw [hp]
        by_cases c : p = s.np + 1
        · subst c; rw [upd_same]; cases e <;> rfl
        · have : p = s.np := by omega
          subst this; rw [upd_ne _ _ c, upd_same]; cases e <;> rfl
      have isend : ∀ k, IsEnd s' e p k → k = d ∧ hend e s' h = some p := by
        rintro k ⟨y, a, b⟩
        rw [hs'] at a
        by_cases c : y = h
        · subst c; exact ⟨hone k a, b⟩
        · rw [hends e y c] at b; have := hlt e y p b; omega
      have dlt : d < N := Nat.lt_of_lt_of_le (C.isLt hd) hN
      by_cases c : hend e s' h = some p
      · have hsum : sumTo (wt s' e p) N = 1 := by
          have z : sumTo (fun _ => 0) N = 0 := sumTo_zero fun _ _ => rfl
          have := sumTo_upd (f := wt s' e p) (g := fun _ => 0) dlt (fun k hk => wt_neg fun h => hk (isend k h).1)
          rw [wt_pos ⟨h, by rw [hs', hd], c⟩] at this
          omega
        have : ¬ Waits s' e p := by
          rw [wts]
          rintro (h | h)
          · exact nowait e p (by omega) h
          · cases e <;> simp only [entEnd] at h
            · rw [h2] at c; cases c; omega
            · rw [h1] at c; cases c; omega
        rw [r1, hsum, pend_neg this]
      · have hsum : sumTo (wt s' e p) N = 0 := sumTo_zero fun k _ => wt_neg fun h => c (isend k h).2
        have : Waits s' e p := by
          rw [wts]
          refine .inr ?_
          cases e <;> simp only [entEnd]
          · rw [h2] at c
            have : p ≠ s.np + 1 := fun x => c (by rw [x])
            omega
          · rw [h1] at c
            have : p ≠ s.np := fun x => c (by rw [x])
            omega
        rw [r1, hsum, pend_pos this]

/-- Accepting: what waited becomes a descriptor. -/
theorem Counts.acpt {s s' : State} {n : Nat} (C : Counts s n) {d : Nat} (hd : s.fds d = none) {w : List Name} {x : Entry}
    (hx : s.acc w = some x) (hinj : ∀ w' x', s.acc w' = some x' → x'.recv = x.recv ∨ x'.send = x.send → w' = w)
    (hnp : s'.np = s.np) (hnh : s'.nh = s.nh + 1) (hh : ∀ k, k ≠ s.nh → s'.handles k = s.handles k)
    (hend' : ∀ e, hend e s' s.nh = some (entEnd e x)) (hl : (s'.handles s.nh).laddr ≠ none)
    (hs : ∀ k, sockOf s' k = if k = d then some s.nh else sockOf s k) (hp : s'.pipes = s.pipes) (ha : s'.acc = updK s.acc w none) :
    Counts s' (max n (d + 1)) := by
  have wts : ∀ e p, Waits s' e p ↔ Waits s e p ∧ entEnd e x ≠ p := by
    intro e p
    constructor
    · rintro ⟨w', y, hy, h⟩
      rw [ha] at hy
      by_cases c : w' = w
      · subst c; rw [updK_same] at hy; cases hy
      · rw [updK_ne _ _ c] at hy
        refine ⟨⟨w', y, hy, h⟩, fun h' => c (hinj w' y hy ?_)⟩
        cases e <;> simp only [entEnd] at h h'
        · exact .inl (h.trans h'.symm)
        · exact .inr (h.trans h'.symm)
    · rintro ⟨⟨w', y, hy, h⟩, h'⟩
      refine ⟨w', y, ?_, h⟩
      rw [ha, updK_ne _ _ (fun c => ?_)]
      · exact hy
      · subst c; rw [hx] at hy; cases hy; exact h' h
  refine ⟨fun k hk => ?_, fun k y hy => ?_, fun k hk => ?_, fun e p hlt N hN => ?_⟩
  · rw [← sockOf_none, hs, if_neg (by omega)]; exact sockOf_none.2 (C.fin k (by omega))
  · rw [hnh]; rw [hs] at hy
    split at hy
    · cases hy; omega
    · have := C.hlt k y hy; omega
  · by_cases c : k = s.nh
    · subst c; exact absurd hk hl
    · rw [hh k c] at hk ⊢; exact C.lad k hk
  · rw [hnp] at hlt
    have h1 := C.cnt e p hlt N (by omega)
    have h2 := sum_change (s := s) (s' := s') (e := e) (p := p) (N := N) (k := d) (by omega) (fun k hk => by
      simp only [IsEnd, hs, if_neg hk]
      refine ⟨fun ⟨y, a, b⟩ => ⟨y, a, ?_⟩, fun ⟨y, a, b⟩ => ⟨y, a, ?_⟩⟩
      all_goals
        have := C.hlt k y a
        simp only [hend, hh y (by omega)] at b ⊢
        exact b)
    have h3 : wt s e p d = 0 := wt_neg fun ⟨y, hy, _⟩ => by rw [sockOf_none.2 hd] at hy; cases hy
    have h4 : IsEnd s' e p d ↔ entEnd e x = p := by
      simp only [IsEnd, hs, if_true]
      exact ⟨fun ⟨y, hy, h⟩ => by cases hy; rw [hend'] at h; exact Option.some.inj h, fun h => ⟨_, rfl, by rw [hend', h]⟩⟩
    rw [hp]
    by_cases c : entEnd e x = p
    · rw [wt_pos (h4.2 c)] at h2
      rw [pend_pos ⟨w, x, hx, c⟩] at h1
      rw [pend_neg (fun h => ((wts e p).1 h).2 c)]
      omega
    · rw [wt_neg (fun h => c (h4.1 h))] at h2
      have : pend s' e p = pend s e p := pend_congr ((wts e p).trans ⟨fun h => h.1, fun h => ⟨h, c⟩⟩)
      omega

/-- A pair of connected sockets. -/
theorem Counts.both {s s' : State} {n : Nat} (C : Counts s n) {d d' a b : Nat} (hab : a ≠ b) (hd : sockOf s d = some a)
    (hd' : sockOf s d' = some b) (hea : ∀ e, hend e s a = none) (heb : ∀ e, hend e s b = none)
    (honea : ∀ k, sockOf s k = some a → k = d) (honeb : ∀ k, sockOf s k = some b → k = d')
    (hnp : s'.np = s.np + 2) (hnh : s'.nh = s.nh)
    (hh : ∀ k, k ≠ a → k ≠ b → s'.handles k = s.handles k)
    (a1 : hend .write s' a = some s.np) (a2 : hend .read s' a = some (s.np + 1))
    (b1 : hend .write s' b = some (s.np + 1)) (b2 : hend .read s' b = some s.np)
    (hla : (s'.handles a).laddr ≠ none) (hlb : (s'.handles b).laddr ≠ none) (hs : s'.fds = s.fds)
    (hp : s'.pipes = upd (upd s.pipes s.np (Pipe.new udsockCapacity)) (s.np + 1) (Pipe.new udsockCapacity)) (ha : s'.acc = s.acc)
    (hlt : ∀ e k p, hend e s k = some p → p < s.np) (alt : ∀ w x, s.acc w = some x → x.recv < s.np ∧ x.send < s.np) : Counts s' n := by
  have hs' : ∀ k, sockOf s' k = sockOf s k := fun k => by simp only [sockOf, hs]
  have hends : ∀ e k, k ≠ a → k ≠ b → hend e s' k = hend e s k := fun e k h1 h2 => by simp only [hend, hh k h1 h2]
  have nowait : ∀ e p, s.np ≤ p → ¬ Waits s' e p := by
    rintro e p hp ⟨w', y, hy, h⟩
    rw [ha] at hy
    have := alt w' y hy
    cases e <;> simp only [entEnd] at h <;> omega
  refine ⟨fun k hk => by rw [hs]; exact C.fin k hk, fun k y hy => by rw [hnh]; rw [hs'] at hy; exact C.hlt k y hy, fun k hk => ?_, ?_⟩
  · by_cases c : k = a
    · subst c; exact absurd hk hla
    · by_cases c' : k = b
      · subst c'; exact absurd hk hlb
      · rw [hh k c c'] at hk ⊢; exact C.lad k hk
  · intro e p hlt' N hN
    rw [hnp] at hlt'
    by_cases old : p < s.np
    · rw [hp, upd_ne _ _ (by omega), upd_ne _ _ (by omega), C.cnt e p old N hN]
      congr 1
      · refine (sum_congr fun k => ?_).symm
        simp only [IsEnd, hs']
        refine ⟨fun ⟨y, h1, h2⟩ => ⟨y, h1, ?_⟩, fun ⟨y, h1, h2⟩ => ⟨y, h1, ?_⟩⟩
        all_goals by_cases c : y = a
        · subst c; cases e
          · rw [a2] at h2; cases h2; omega
          · rw [a1] at h2; cases h2; omega
        · by_cases c' : y = b
          · subst c'; cases e
            · rw [b2] at h2; cases h2; omega
            · rw [b1] at h2; cases h2; omega
          · rw [hends e y c c'] at h2; exact h2
        · subst c; rw [hea e] at h2; cases h2
        · by_cases c' : y = b
          · subst c'; rw [heb e] at h2; cases h2
          · rw [hends e y c c']; exact h2
      · refine (pend_congr ?_).symm
        simp only [Waits, ha]
    · have r1 : refs e (s'.pipes p) = 1 := by
        rw [hp]
        by_cases c : p = s.np + 1
        · subst c; rw [upd_same]; cases e <;> rfl
        · have : p = s.np := by omega
          subst this; rw [upd_ne _ _ c, upd_same]; cases e <;> rfl
      rw [r1, pend_neg (nowait e p (by omega))]
      have one : ∀ k h, sockOf s k = some h → hend e s' h = some p → (∀ j, sockOf s j = some h → j = k) →
          (∀ y, hend e s' y = some p → y = h ∨ hend e s y = some p) → sumTo (wt s' e p) N = 1 := by
        intro k h hk hp' ho hu
        have z : sumTo (fun _ => 0) N = 0 := sumTo_zero fun _ _ => rfl
        have := sumTo_upd (f := wt s' e p) (g := fun _ => 0) (Nat.lt_of_lt_of_le (C.isLt hk) hN) (fun j hj => wt_neg ?_)
        · rw [wt_pos ⟨h, by rw [hs', hk], hp'⟩] at this
          omega
        · rintro ⟨y, u, v⟩
          rw [hs'] at u
          rcases hu y v with rfl | hv
          · exact hj (ho j u)
          · have := hlt e y p hv; omega
      have uniq : ∀ y, hend e s' y = some p → y ≠ a → y ≠ b → hend e s y = some p := fun y h h1 h2 => by rw [hends e y h1 h2] at h; exact h
      have va : hend e s' a = some p → hend e s' b ≠ some p := by
        intro h1 h2
        cases e
        · have := Option.some.inj (a2.symm.trans h1); have := Option.some.inj (b2.symm.trans h2); omega
        · have := Option.some.inj (a1.symm.trans h1); have := Option.some.inj (b1.symm.trans h2); omega
      by_cases c : hend e s' a = some p
      · refine (one d a hd c honea fun y hy => ?_).symm
        by_cases c1 : y = a
        · exact .inl c1
        · by_cases c2 : y = b
          · subst c2; exact absurd hy (va c)
          · exact .inr (uniq y hy c1 c2)
      · have cb : hend e s' b = some p := by
          cases e
          · rw [a2] at c; rw [b2]
            have : p ≠ s.np + 1 := fun x => c (by rw [x])
            congr 1; omega
          · rw [a1] at c; rw [b1]
            have : p ≠ s.np := fun x => c (by rw [x])
            congr 1; omega
        refine (one d' b hd' cb honeb fun y hy => ?_).symm
        by_cases c1 : y = b
        · exact .inl c1
        · by_cases c2 : y = a
          · subst c2; exact absurd hy c
          · exact .inr (uniq y hy c2 c1)

end Verif.UnixSock
