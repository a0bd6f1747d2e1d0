import Verif.InetSockWitness

/-!
# What a shutdown does to the address of an internet socket
-/

namespace Verif.InetSock

/-- C64.  Shutting down one half of a connection whose other half is open, or the same half again, keeps the address and all ports: no
port becomes free for others.  The socket, all other sockets and all descriptors stay as they were, except for the state of the
connection. -/
theorem half_shutdown_keeps {e : Env} {S : Sys} (h : Reach e S) {fd : Nat} {d : Desc} {k : Sock} (ha : At S.s fd d k) {how : Int}
    (hh : (how = 0 ∧ k.st ≠ .rdOnly) ∨ (how = 1 ∧ k.st ≠ .wrOnly)) (hsd : Option Errno) :
    (step e S.s (.shutdown fd how hsd)).1.net = S.s.net ∧
    (∃ st, (step e S.s (.shutdown fd how hsd)).1.socks d.h = some { k with st := st }) ∧
    (∀ j, j ≠ d.h → (step e S.s (.shutdown fd how hsd)).1.socks j = S.s.socks j) ∧
    (step e S.s (.shutdown fd how hsd)).1.tab = S.s.tab := by
  have hlt := (h.inv.tab fd d ha.tab).1
  have hw : how = 0 ∨ how = 1 ∨ how = 2 := by omega
  have h2 : how ≠ 2 := by omega
  have hrel : shutReleases k.st how = false := by
    unfold shutReleases
    rcases hh with ⟨e1, e2⟩ | ⟨e1, e2⟩
    · rw [if_pos e1]; simpa using e2
    · rw [if_neg (by omega), if_pos e1]; simpa using e2
  have hs : S.s.socks d.h = some k := ha.sock
  simp only [step, shutdown, if_pos hlt, if_pos hw]
  rw [ha.with h]
  cases hi : k.inner with
  | none =>
    simp only [hi, Option.isSome_none, Bool.false_eq_true, false_and, if_false, if_neg h2]
    exact ⟨rfl, ⟨_, by simp only [State.setS, upd_same]; rfl⟩, fun j hj => by simp only [State.setS, upd_ne _ _ hj], rfl⟩
  | some i =>
    cases hsd with
    | some er =>
      dsimp only
      exact ⟨rfl, ⟨k.st, by rw [hs, ← hi]⟩, fun _ _ => rfl, rfl⟩
    | none =>
      simp only [hi, hrel, Bool.false_eq_true, and_false, if_false, if_neg h2]
      exact ⟨rfl, ⟨_, by simp only [State.setS, upd_same]; rfl⟩, fun j hj => by simp only [State.setS, upd_ne _ _ hj], rfl⟩

/-- C64.  Shutting down the half that was still open gives the address back: the port is released, and the socket has no address. -/
theorem second_half_frees {e : Env} {S : Sys} (h : Reach e S) {fd : Nat} {d : Desc} {k : Sock} (ha : At S.s fd d k) {how : Int}
    (hh : (how = 0 ∧ k.st = .rdOnly) ∨ (how = 1 ∧ k.st = .wrOnly)) (hi : k.inner ≠ none) {a : SA} (hl : k.laddr = some a)
    (hok : (step e S.s (.shutdown fd how none)).2.ret = .ok 0) :
    (step e S.s (.shutdown fd how none)).1.net = (Ports.release e.devs S.s.net a.1 a.2 k.ty).1 ∧
    (∃ v, (Ports.release e.devs S.s.net a.1 a.2 k.ty).2 = .ok v) ∧
    (step e S.s (.shutdown fd how none)).1.socks d.h = some { k with laddr := none, st := .notConnected } := by
  have hlt := (h.inv.tab fd d ha.tab).1
  have hw : how = 0 ∨ how = 1 ∨ how = 2 := by omega
  have h2 : how ≠ 2 := by omega
  have hrel : shutReleases k.st how = true := by
    unfold shutReleases
    rcases hh with ⟨e1, e2⟩ | ⟨e1, e2⟩
    · rw [if_pos e1, e2]; rfl
    · rw [if_neg (by omega), if_pos e1, e2]; rfl
  have hst : shutState k.st how = .notConnected := by
    unfold shutState
    rcases hh with ⟨e1, e2⟩ | ⟨e1, e2⟩
    · rw [if_pos e1, e2]; rfl
    · rw [if_neg (by omega), if_pos e1, e2]; rfl
  obtain ⟨i, hi⟩ := Option.ne_none_iff_exists'.1 hi
  simp only [step, shutdown, if_pos hlt, if_pos hw] at hok ⊢
  rw [ha.with h] at hok ⊢
  simp only [hi, Option.isSome_some, hrel, and_self, if_true, if_neg h2, giveBack, hl] at hok ⊢
  cases hr : Ports.release e.devs S.s.net a.1 a.2 k.ty with
  | mk n r =>
    rw [hr] at hok
    cases r with
    | ok v =>
      dsimp only
      exact ⟨rfl, ⟨v, rfl⟩, by simp only [State.setS, upd_same, hst]⟩
    | err x => simp [Out.r] at hok
    | blocked => simp [Out.r] at hok
    | panic => simp [Out.r] at hok

/-- A connected socket bound to port 80: after one half is shut down the port is taken, after the other it is free. -/
example :
    ((view env served 1).map (·.st) = some .connected) ∧
    (view env (served ++ [.shutdown 1 0 none]) 1).map (fun k => (k.st, k.laddr)) = (view env served 1).map (fun k => (.wrOnly, k.laddr)) ∧
    (view env (served ++ [.shutdown 1 0 none]) 1).map (fun k => k.laddr.isSome && k.inner.isSome) = some true ∧
    (out env (served ++ [.shutdown 1 0 none]) (.shutdown 1 1 none)).ret = .ok 0 ∧
    (view env (served ++ [.shutdown 1 0 none, .shutdown 1 1 none]) 1).map (fun k => (k.st, k.laddr)) = some (.notConnected, none) := by
  decide +kernel

end Verif.InetSock
