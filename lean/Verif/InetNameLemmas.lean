import Verif.InetName
import Verif.PortsAnswers

/-!
# Lemmas on the addresses of internet sockets
-/

namespace Verif.InetSock

open Verif.Ports (Addr PType Net)

theorem At.name {e : Env} {S : Sys} (h : Reach e S) {fd : Nat} {d : Desc} {k : Sock} (ha : At S.s fd d k) :
    getsockname e S.s fd = match k.laddr with
      | some a => (.ok 0, some a)
      | none => if k.ty.v6 then (.panic, none) else (.ok 0, some (⟨false, 0⟩, 0)) := by
  have h1 := (h.inv.tab fd d ha.tab).1
  unfold getsockname
  rw [if_neg (by omega), Int.toNat_natCast, ha.tab]
  dsimp only
  rw [ha.sock]
  rfl

theorem At.peer {e : Env} {S : Sys} (h : Reach e S) {fd : Nat} {d : Desc} {k : Sock} (ha : At S.s fd d k) :
    getpeername e S.s fd = match k.raddr with
      | none => (.err .ENOTCONN, none)
      | some a => (.ok 0, some a) := by
  have h1 := (h.inv.tab fd d ha.tab).1
  unfold getpeername
  rw [if_neg (by omega), Int.toNat_natCast, ha.tab]
  dsimp only
  rw [ha.sock]
  rfl

/-! ## A local address stays -/

theorem bindInner_keeps {e : Env} {s : State} {k : Sock} {a : SA} (hla : k.laddr = some a) (to : SA) (pre : Bool) (hb : Option Errno) :
    (bindInner e s k to pre hb).2.1 = k := by
  unfold bindInner
  split
  · rfl
  · rw [if_pos (by rw [hla]; rfl)]

theorem implicitBind_keeps {e : Env} {s : State} {k : Sock} {a : SA} (hla : k.laddr = some a) (v6 : Bool) (hb : Option Errno) :
    implicitBind e s k v6 hb = (s, k, none) := by
  unfold implicitBind
  rw [hla]

theorem connectHost_laddr {s : State} {d : Desc} {k k' : Sock} {to : SA} {hc : HConn}
    (h : (connectHost s d k to hc).1.socks d.h = some k') : k'.laddr = k.laddr := by
  unfold connectHost at h
  split at h
  · simp [State.setS] at h; rw [← h]
  · cases hc <;> (simp [State.setS] at h; rw [← h])

theorem recvTcp_laddr {s : State} {d : Desc} {k k' : Sock} {n : Nat} {pk : Bool} {hr : HRecv}
    (h : (recvTcp s d k n pk hr).1.socks d.h = some k') : k'.laddr = k.laddr ∧ k'.raddr = k.raddr := by
  unfold recvTcp at h
  cases pk <;> simp only [Bool.false_eq_true, if_false, if_true] at h <;> repeat' split at h
  all_goals (simp [State.setS] at h; rw [← h]; exact ⟨rfl, rfl⟩)

theorem step_laddr {e : Env} {S : Sys} (h : Reach e S) (op : Op) (hop : op.isShutdown = false) {x : Nat} {k k' : Sock} {a : SA}
    (hk : S.s.socks x = some k) (hla : k.laddr = some a) (hk' : (step e S.s op).1.socks x = some k') : k'.laddr = some a := by
  by_cases hx : ∀ fd d, op.on = some fd → S.s.tab fd = some d → d.h ≠ x
  · have := (others_untouched h op).2 x k hk hx
    rw [this] at hk'; cases hk'
    exact hla
  · have hx : ∃ fd d, op.on = some fd ∧ S.s.tab fd = some d ∧ d.h = x := by
      false_or_by_contra; rename_i hn
      exact hx fun fd d h1 h2 h3 => hn ⟨fd, d, h1, h2, h3⟩
    obtain ⟨fd, d, hon, htab, rfl⟩ := hx
    have ha : At S.s fd d k := ⟨htab, hk⟩
    have stays : S.s.socks d.h = some k' → k'.laddr = some a := by
      intro he
      rw [hk] at he; cases he
      exact hla
    have sendA : ∀ to data hb hs, (sendtoAddr e S.s fd data to hb hs).1.socks d.h = some k' → k'.laddr = some a := by
      intro to data hb hs hh
      unfold sendtoAddr at hh
      rw [ha.with h, implicitBind_keeps hla] at hh
      dsimp only at hh
      repeat' split at hh
      all_goals first
        | exact stays hh
        | (unfold hostSend at hh; split at hh <;> (simp [State.setS] at hh; rw [← hh]; exact hla))
    have send1 : ∀ data hb hs, (send e S.s fd data hb hs).1.socks d.h = some k' → k'.laddr = some a := by
      intro data hb hs hh
      unfold send at hh
      rw [ha.with h] at hh
      split at hh
      · split at hh
        · exact stays hh
        · unfold hostSend at hh
          split at hh <;> (simp [State.setS] at hh; rw [← hh]; exact hla)
      · split at hh
        · exact stays hh
        · split at hh
          · exact stays hh
          · exact sendA _ _ _ _ hh
    cases op with
    | socket v6 tcp nb clo => cases hon
    | setReuse fd' =>
      cases hon
      simp only [step, setReuse] at hk'; rw [ha.with h] at hk'
      simp [State.setS] at hk'; rw [← hk']; exact hla
    | dup fd' =>
      cases hon
      refine stays ?_
      simp only [step, dup] at hk'; rw [ha.with h] at hk'
      split at hk' <;> exact hk'
    | bind fd' to hb =>
      cases hon
      simp only [step, bind] at hk'; rw [ha.with h] at hk'
      simp [State.setS, bindInner_keeps hla] at hk'; rw [← hk']; exact hla
    | connect fd' to hb hc =>
      cases hon
      simp only [step, connect] at hk'; rw [ha.with h] at hk'
      split at hk'
      · exact stays hk'
      · split at hk'
        · unfold connectTcp at hk'
          split at hk'
          · exact stays hk'
          · rw [hla] at hk'
            exact (connectHost_laddr hk').trans hla
        · unfold connectUdp at hk'
          rw [implicitBind_keeps (k := { k with raddr := some to }) hla] at hk'
          simp [State.setS] at hk'; rw [← hk']; exact hla
    | listen fd' hb hl stale =>
      cases hon
      simp only [step, listen] at hk'; rw [ha.with h, implicitBind_keeps hla] at hk'
      cases hst : k.st <;> rw [hst] at hk' <;> dsimp only at hk'
      · split at hk'
        · unfold listenHost at hk'
          rw [hla] at hk'
          dsimp only at hk'
          split at hk'
          · simp [State.setS] at hk'; rw [← hk']; exact hla
          · split at hk' <;> (simp [State.setS] at hk'; rw [← hk']; try exact hla)
        · exact stays hk'
      all_goals exact stays hk'
    | accept fd' hh =>
      cases hon
      have hne : d.h ≠ S.s.ns := by have := h.inv.hlt _ _ hk; omega
      simp only [step, accept] at hk'; rw [ha.with h] at hk'
      refine stays ?_
      unfold acceptInet at hk'
      repeat' split at hk'
      all_goals first | exact hk' | exact (upd_ne _ _ hne).symm.trans hk'
    | send fd' data hb hs => cases hon; exact send1 _ _ _ hk'
    | sendto fd' data to hb hs =>
      cases hon
      simp only [step, sendto] at hk'
      split at hk'
      · exact send1 _ _ _ hk'
      · exact sendA _ _ _ _ hk'
    | recv fd' n pk fam rdy hb hr =>
      cases hon
      simp only [step, recv] at hk'; rw [ha.with h] at hk'
      split at hk'
      · split at hk'
        · exact stays hk'
        · rename_i k1 hk1
          have hl1 : k1.laddr = k.laddr := by
            unfold settle at hk1
            repeat' split at hk1
            all_goals (simp at hk1; try rw [← hk1])
          split at hk'
          · simp [State.setS] at hk'; rw [← hk', hl1]; exact hla
          · rw [(recvTcp_laddr hk').1, hl1]; exact hla
      · unfold recvUdp at hk'
        rw [implicitBind_keeps hla] at hk'
        dsimp only at hk'
        repeat' split at hk'
        all_goals (simp [State.setS] at hk'; rw [← hk']; exact hla)
    | shutdown fd' how hsd => exact nomatch hop
    | close fd' =>
      cases hon
      simp only [step, close] at hk'; rw [ha.with h] at hk'
      rcases dropIfLast_here e { S.s with tab := upd S.s.tab fd none } d.h (.ok 0) with h1 | h1
      · rw [h1] at hk'; cases hk'
      · rw [h1] at hk'; exact stays hk'

/-! ## Where a remote address comes from -/

/-- Call `op` is a `connect` to `to` on a descriptor of socket `x`. -/
structure ConnectsTo (s : State) (op : Op) (x : Nat) (to : SA) : Prop where
  op : ∃ fd hb hc d, op = .connect fd to hb hc ∧ s.tab fd = some d ∧ d.h = x

theorem step_raddr {e : Env} {S : Sys} (h : Reach e S) (op : Op) {x : Nat} {k k' : Sock} (hk : S.s.socks x = some k)
    (hk' : (step e S.s op).1.socks x = some k') :
    k'.raddr = k.raddr ∨ ∃ to, ConnectsTo S.s op x to ∧ k'.raddr = some to ∧ (k.ty.tcp = true → k.st = .notConnected) := by
  by_cases hx : ∀ fd d, op.on = some fd → S.s.tab fd = some d → d.h ≠ x
  · have := (others_untouched h op).2 x k hk hx
    rw [this] at hk'; cases hk'
    exact .inl rfl
  · have hx : ∃ fd d, op.on = some fd ∧ S.s.tab fd = some d ∧ d.h = x := by
      false_or_by_contra; rename_i hn
      exact hx fun fd d h1 h2 h3 => hn ⟨fd, d, h1, h2, h3⟩
    obtain ⟨fd, d, hon, htab, rfl⟩ := hx
    have ha : At S.s fd d k := ⟨htab, hk⟩
    have stays : S.s.socks d.h = some k' → k'.raddr = k.raddr := by
      intro he
      rw [hk] at he; cases he
      rfl
    have use : ∀ {P : Sock → Prop}, Touch S.s d.h k (step e S.s op).1 P → P k' := by
      intro P ht
      obtain ⟨k'', h1, h2, h3⟩ := ht.here
      rw [hk'] at h1; cases h1
      exact h3
    cases op with
    | socket v6 tcp nb clo => cases hon
    | setReuse fd' =>
      cases hon
      simp only [step, setReuse] at hk'; rw [ha.with h] at hk'
      simp [State.setS] at hk'; rw [← hk']; exact .inl rfl
    | dup fd' =>
      cases hon
      refine .inl (stays ?_)
      simp only [step, dup] at hk'; rw [ha.with h] at hk'
      split at hk' <;> exact hk'
    | bind fd' to hb => cases hon; exact .inl (use (touch_bind h ha to hb)).2
    | connect fd' to hb hc =>
      cases hon
      cases ht : k.ty.tcp with
      | true =>
        rcases use (touch_connect h ha to hb hc) with ⟨_, h2⟩ | ⟨h1, _, h2, _⟩
        · exact .inl (h2 ht)
        · exact .inr ⟨to, ⟨fd, hb, hc, d, rfl, htab, rfl⟩, h2, fun _ => h1⟩
      | false =>
        simp only [step, connect] at hk'; rw [ha.with h] at hk'
        split at hk'
        · exact .inl (stays hk')
        · rw [ht] at hk'
          simp only [Bool.false_eq_true, if_false] at hk'
          unfold connectUdp at hk'
          have hh := implicitBind_helped e S.s { k with raddr := some to } k.ty.v6 hb
          simp [State.setS] at hk'
          exact .inr ⟨to, ⟨fd, hb, hc, d, rfl, htab, rfl⟩, by rw [← hk']; exact hh.kept.raddr, fun he => nomatch he⟩
    | listen fd' hb hl stale => cases hon; exact .inl (use (touch_listen h ha hb hl stale)).1
    | accept fd' hh =>
      cases hon
      have hne : d.h ≠ S.s.ns := by have := h.inv.hlt _ _ hk; omega
      simp only [step, accept] at hk'; rw [ha.with h] at hk'
      refine .inl (stays ?_)
      unfold acceptInet at hk'
      repeat' split at hk'
      all_goals first | exact hk' | exact (upd_ne _ _ hne).symm.trans hk'
    | send fd' data hb hs => cases hon; exact .inl (use (touch_send h ha data hb hs)).2
    | sendto fd' data to hb hs => cases hon; exact .inl (use (touch_sendto h ha data to hb hs)).2
    | recv fd' n pk fam rdy hb hr => cases hon; exact .inl (use (touch_recv h ha n pk rdy fam hb hr)).1
    | shutdown fd' how hsd =>
      cases hon
      have hlt := (h.inv.tab fd d htab).1
      simp only [step, shutdown, if_pos hlt] at hk'
      refine .inl ?_
      split at hk'
      · rw [ha.with h] at hk'
        split at hk'
        · exact stays hk'
        · have hg : ∀ g : State × Sock × Option Ret, (g = giveBack e S.s k ∨ g = (S.s, k, none)) → g.2.1.raddr = k.raddr := by
            rintro g (rfl | rfl)
            · rw [(giveBack_same e S.s k).2.2]
            · rfl
          have hg' := hg (if k.inner.isSome = true ∧ shutReleases k.st how = true then giveBack e S.s k else (S.s, k, none)) (by
            split
            · exact .inl rfl
            · exact .inr rfl)
          generalize (if k.inner.isSome = true ∧ shutReleases k.st how = true then giveBack e S.s k else (S.s, k, none)) = g at hg' hk'
          split at hk'
          · simp [State.setS] at hk'; rw [← hk']; exact hg'
          · split at hk'
            · rcases dropIfLast_here e { (g.1.setS d.h { g.2.1 with st := shutState k.st how }) with tab := upd (g.1.setS d.h { g.2.1 with st := shutState k.st how }).tab fd none } d.h (.ok 0) with h1 | h1
              · rw [h1] at hk'; cases hk'
              · rw [h1] at hk'
                simp [State.setS] at hk'
                rw [← hk']; exact hg'
            · simp [State.setS] at hk'; rw [← hk']; exact hg'
      · exact stays hk'
    | close fd' =>
      cases hon
      simp only [step, close] at hk'; rw [ha.with h] at hk'
      rcases dropIfLast_here e { S.s with tab := upd S.s.tab fd none } d.h (.ok 0) with h1 | h1
      · rw [h1] at hk'; cases hk'
      · rw [h1] at hk'; exact .inl (stays hk')

end Verif.InetSock
