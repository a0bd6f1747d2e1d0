import Verif.InetNameLemmas

/-!
# The search for a fresh port starts within the range, in every state that can be reached
-/

namespace Verif.InetSock

open Verif.Ports (Addr PType Net ephStart ephEnd)

structure Ranged (n : Net) : Prop where
  r : ∀ ty, ephStart ≤ n.next ty ∧ n.next ty ≤ ephEnd

theorem Ranged.reserve {n : Net} (h : Ranged n) (devs : List Addr) (a : Addr) (p : Nat) (ty : PType) (reb : Bool) :
    Ranged (Ports.reserve devs n a p ty reb).1 := by
  unfold Ports.reserve
  split
  · exact h
  · split
    · unfold Ports.ephemeral
      split
      · exact h
      · split
        · exact h
        · refine ⟨fun t => ?_⟩
          dsimp only
          by_cases ht : t = ty
          · subst ht; simp only [updK, if_pos]; exact Ports.decNext_range (h.r t).2
          · simp only [updK, if_neg ht]; exact h.r t
    · dsimp only
      repeat' split
      all_goals exact ⟨h.r⟩

theorem Ranged.release {n : Net} (h : Ranged n) (devs : List Addr) (a : Addr) (p : Nat) (ty : PType) :
    Ranged (Ports.release devs n a p ty).1 := by
  unfold Ports.release
  dsimp only
  repeat' split
  all_goals exact ⟨h.r⟩

theorem force_net (s : State) (k : Sock) : (force s k).1.net = s.net := by
  unfold force; split <;> rfl

theorem bindInner_ranged {e : Env} {s : State} (h : Ranged s.net) (k : Sock) (to : SA) (pre : Bool) (hb : Option Errno) :
    Ranged (bindInner e s k to pre hb).1.net := by
  have hf : Ranged (force s k).1.net := by rw [force_net]; exact h
  unfold bindInner
  dsimp only
  have hr := hf.reserve e.devs to.1 to.2 k.ty k.reuse
  repeat' split
  all_goals first
    | exact h
    | exact hf
    | (rename_i he; rw [he] at hr; exact hr)
    | (rename_i he _; rw [he] at hr; exact hr)

theorem assignAddr_ranged {e : Env} {s : State} (h : Ranged s.net) (k : Sock) (v6 : Bool) {s' : State} {r : Errno ⊕ SA}
    (ha : assignAddr e s k v6 = .inl (s', r)) : Ranged s'.net := by
  unfold assignAddr at ha
  have hr := h.reserve e.devs (wild v6) 0 k.ty false
  split at ha
  · cases ha; exact h
  · split at ha
    · rename_i he; rw [he] at hr; cases ha; exact hr
    · rename_i he; rw [he] at hr; cases ha; exact hr
    · cases ha

theorem implicitBind_ranged {e : Env} {s : State} (h : Ranged s.net) (k : Sock) (v6 : Bool) (hb : Option Errno) :
    Ranged (implicitBind e s k v6 hb).1.net := by
  unfold implicitBind
  split
  · exact h
  · split
    · exact h
    · rename_i he; exact assignAddr_ranged h _ _ he
    · rename_i he
      dsimp only
      split <;> exact bindInner_ranged (assignAddr_ranged h _ _ he) _ _ _ _

theorem giveBack_ranged {e : Env} {s : State} (h : Ranged s.net) (k : Sock) : Ranged (giveBack e s k).1.net := by
  unfold giveBack
  split
  · exact h
  · rename_i a _
    have hr := h.release e.devs a.1 a.2 k.ty
    split <;> (rename_i he; rw [he] at hr; exact hr)

theorem dropIfLast_ranged {e : Env} {s : State} (h : Ranged s.net) (x : Nat) (r : Ret) : Ranged (dropIfLast e s x r).1.net := by
  unfold dropIfLast
  dsimp only
  repeat' split
  all_goals first
    | exact h
    | exact giveBack_ranged h _

theorem withSock_ranged {e : Env} {s : State} (h : Ranged s.net) {fd : Nat} {f : Desc → Sock → State × Out}
    (hf : ∀ d k, Ranged (f d k).1.net) : Ranged (withSock e s fd f).1.net := by
  unfold withSock
  repeat' split
  all_goals first
    | exact h
    | exact hf _ _

theorem hostSend_net (s : State) (d : Desc) (k : Sock) (data : List UInt8) (to : Option SA) (hs : HSend) :
    (hostSend s d k data to hs).1.net = s.net := by
  unfold hostSend; split <;> rfl

theorem connectHost_net (s : State) (d : Desc) (k : Sock) (to : SA) (hc : HConn) : (connectHost s d k to hc).1.net = s.net := by
  unfold connectHost
  split
  · rfl
  · cases hc <;> rfl

theorem sendtoAddr_ranged {e : Env} {s : State} (h : Ranged s.net) (fd : Nat) (data : List UInt8) (to : SA) (hb : Option Errno) (hs : HSend) :
    Ranged (sendtoAddr e s fd data to hb hs).1.net := by
  unfold sendtoAddr
  refine withSock_ranged h fun d k => ?_
  dsimp only
  have hi := implicitBind_ranged (e := e) h k to.1.v6 hb
  repeat' split
  all_goals first
    | exact h
    | (rw [hostSend_net]; exact hi)
    | exact hi

theorem send_ranged {e : Env} {s : State} (h : Ranged s.net) (fd : Nat) (data : List UInt8) (hb : Option Errno) (hs : HSend) :
    Ranged (send e s fd data hb hs).1.net := by
  unfold send
  refine withSock_ranged h fun d k => ?_
  repeat' split
  all_goals first
    | exact h
    | (rw [hostSend_net]; exact h)
    | exact sendtoAddr_ranged h _ _ _ _ _

theorem step_ranged {e : Env} {s : State} (h : Ranged s.net) (op : Op) : Ranged (step e s op).1.net := by
  cases op with
  | socket v6 tcp nb clo =>
    simp only [step, socket]
    repeat' split
    all_goals exact h
  | setReuse fd => simp only [step, setReuse]; exact withSock_ranged h fun d k => h
  | dup fd =>
    simp only [step, dup]
    refine withSock_ranged h fun d k => ?_
    split <;> exact h
  | bind fd to hb => simp only [step, bind]; exact withSock_ranged h fun d k => bindInner_ranged h _ _ _ _
  | connect fd to hb hc =>
    simp only [step, connect]
    refine withSock_ranged h fun d k => ?_
    split
    · exact h
    · split
      · have hf : Ranged (force s k).1.net := by rw [force_net]; exact h
        unfold connectTcp
        dsimp only
        split
        · exact h
        · split
          · rw [connectHost_net]; exact h
          · split
            · exact hf
            · rename_i he; have := assignAddr_ranged hf _ _ he; exact this
            · rename_i he
              have := assignAddr_ranged hf _ _ he
              split
              · exact this
              · rw [connectHost_net]; exact this
      · exact implicitBind_ranged h _ _ _
  | listen fd hb hl stale =>
    simp only [step, listen]
    refine withSock_ranged h fun d k => ?_
    have hi := implicitBind_ranged (e := e) h k k.ty.v6 hb
    cases k.st <;> dsimp only
    · split
      · split
        · unfold listenHost
          repeat' split
          all_goals exact hi
        · exact hi
        · exact hi
      · exact h
    all_goals exact h
  | accept fd ha =>
    simp only [step, accept]
    refine withSock_ranged h fun d k => ?_
    unfold acceptInet
    repeat' split
    all_goals first
      | exact h
      | (rename_i a _ _ _ _ _ _ _ _ he; have hr := h.reserve e.devs a.1 0 k.ty false; rw [he] at hr; exact hr)
      | (rename_i he; have hr := congrArg (fun z => z.1) he; dsimp only at hr; rw [← hr]; exact h.reserve _ _ _ _ _)
      | (rename_i he _; have hr := congrArg (fun z => z.1) he; dsimp only at hr; rw [← hr]; exact h.reserve _ _ _ _ _)
  | send fd data hb hs => exact send_ranged h _ _ _ _
  | sendto fd data to hb hs =>
    simp only [step, sendto]
    split
    · exact send_ranged h _ _ _ _
    · exact sendtoAddr_ranged h _ _ _ _ _
  | recv fd n pk fam rdy hb hr =>
    simp only [step, recv]
    refine withSock_ranged h fun d k => ?_
    split
    · split
      · exact h
      · split
        · exact h
        · unfold recvTcp
          dsimp only
          repeat' split
          all_goals exact h
    · have hi := implicitBind_ranged (e := e) h k (fam.getD false) hb
      unfold recvUdp
      dsimp only
      repeat' split
      all_goals exact hi
  | shutdown fd how hsd =>
    simp only [step, shutdown]
    split
    · split
      · refine withSock_ranged h fun d k => ?_
        split
        · exact h
        · have hg : Ranged (if k.inner.isSome = true ∧ shutReleases k.st how = true then giveBack e s k else (s, k, none)).1.net := by
            split
            · exact giveBack_ranged h _
            · exact h
          generalize (if k.inner.isSome = true ∧ shutReleases k.st how = true then giveBack e s k else (s, k, none)) = g at hg
          split
          · exact hg
          · split
            · refine dropIfLast_ranged ?_ _ _
              exact hg
            · exact hg
      · exact h
    · exact h
  | close fd =>
    simp only [step, close]
    refine withSock_ranged h fun d k => dropIfLast_ranged ?_ _ _
    exact h

theorem Reach.ranged {e : Env} {S : Sys} (h : Reach e S) : Ranged S.s.net := by
  induction h with
  | init => exact ⟨fun _ => ⟨by show ephStart ≤ ephEnd; decide, Nat.le_refl _⟩⟩
  | step h op ih => exact step_ranged ih op

end Verif.InetSock
