import Verif.InetNameRange

/-!
# C102: the addresses a socket reports are the ones it was given

`getsockname` reports the address `bind` put on the socket, `getpeername` the one `connect` went to or `accept` took the connection from, through
every descriptor of the socket and for as long as it exists.
-/

namespace Verif.InetSock

open Verif.Ports (Addr PType Net)

/-- Descriptor `fd` is one of socket `x`. -/
abbrev Of (s : State) (fd x : Nat) : Prop := sockOf s fd = some x

theorem Of.at {e : Env} {S : Sys} (h : Reach e S) {fd x : Nat} (ho : Of S.s fd x) : ∃ d k, At S.s fd d k ∧ d.h = x := by
  obtain ⟨d, hd, rfl⟩ := Option.map_eq_some_iff.1 ho
  obtain ⟨k, hk⟩ := Option.ne_none_iff_exists'.1 (h.inv.tab fd d hd).2
  exact ⟨d, k, ⟨hd, hk⟩, rfl⟩

/-- C102.  Exactly the numbers that are not open descriptors are refused with EBADF, by both calls. -/
theorem name_ebadf_iff {e : Env} {S : Sys} (h : Reach e S) (fd : Int) :
    ((getsockname e S.s fd).1 = .err .EBADF ↔ ¬ ∃ n x : Nat, fd = n ∧ Of S.s n x) ∧
    ((getpeername e S.s fd).1 = .err .EBADF ↔ ¬ ∃ n x : Nat, fd = n ∧ Of S.s n x) := by
  by_cases ho : ∃ n x : Nat, fd = n ∧ Of S.s n x
  · obtain ⟨n, x, rfl, hx⟩ := ho
    obtain ⟨d, k, ha, -⟩ := hx.at h
    have hn : ¬ ¬ ∃ m y : Nat, (n : Int) = m ∧ Of S.s m y := fun hh => hh ⟨n, x, rfl, hx⟩
    refine ⟨⟨fun hh => ?_, fun hh => absurd hh hn⟩, ⟨fun hh => ?_, fun hh => absurd hh hn⟩⟩
    · rw [ha.name h] at hh
      repeat' split at hh
      all_goals exact nomatch hh
    · rw [ha.peer h] at hh
      repeat' split at hh
      all_goals exact nomatch hh
  · have hs : getsockname e S.s fd = (.err .EBADF, none) ∧ getpeername e S.s fd = (.err .EBADF, none) := by
      unfold getsockname getpeername
      by_cases hr : fd < 0 ∨ fd ≥ e.nfd
      · rw [if_pos hr, if_pos hr]; exact ⟨rfl, rfl⟩
      · rw [if_neg hr, if_neg hr]
        cases ht : S.s.tab fd.toNat with
        | none => exact ⟨rfl, rfl⟩
        | some d => exact absurd ⟨fd.toNat, d.h, by omega, Option.map_eq_some_iff.2 ⟨d, ht, rfl⟩⟩ ho
    rw [hs.1, hs.2]
    exact ⟨⟨fun _ => ho, fun _ => rfl⟩, ⟨fun _ => ho, fun _ => rfl⟩⟩

/-- C102.  All descriptors of one socket report the same. -/
theorem name_shared {e : Env} {S : Sys} (h : Reach e S) {x fd fd' : Nat} (h1 : Of S.s fd x) (h2 : Of S.s fd' x) :
    getsockname e S.s fd = getsockname e S.s fd' ∧ getpeername e S.s fd = getpeername e S.s fd' := by
  obtain ⟨d, k, ha, rfl⟩ := h1.at h
  obtain ⟨d', k', ha', hx⟩ := h2.at h
  have hk : k' = k := by
    have := ha'.sock
    rw [hx, ha.sock] at this
    cases this; rfl
  subst hk
  exact ⟨by rw [ha.name h, ha'.name h], by rw [ha.peer h, ha'.peer h]⟩

/-- **C102, partial.**  A new socket of version 4 has the unspecified address and port 0, and no peer.  Missing: version 6, for which asking aborts the
program (`name_unbound_violated`). -/
theorem name_new_partial {e : Env} {S : Sys} (h : Reach e S) {v6 tcp nb clo : Bool} {v : Int}
    (hret : (step e S.s (.socket v6 tcp nb clo)).2.ret = .ok v) :
    (v6 = false → getsockname e (S.step e (.socket v6 tcp nb clo)).s v = (.ok 0, some (⟨false, 0⟩, 0))) ∧
    getpeername e (S.step e (.socket v6 tcp nb clo)).s v = (.err .ENOTCONN, none) := by
  have hs := h.step (.socket v6 tcp nb clo)
  obtain ⟨n, d, k, hv, ha, h1, h2, h3⟩ : ∃ (n : Nat) (d : Desc) (k : Sock), v = n ∧ At (S.step e (.socket v6 tcp nb clo)).s n d k ∧ k.laddr = none ∧
      k.raddr = none ∧ k.ty.v6 = v6 := by
    simp only [Sys.step, step, socket] at hret ⊢
    split at hret
    · exact nomatch hret
    · rename_i n hn
      refine ⟨n, ?_⟩
      simp only [Out.r, Ret.ok.injEq] at hret
      exact ⟨_, _, hret.symm, ⟨upd_same _ _ _, upd_same _ _ _⟩, rfl, rfl, rfl⟩
  subst hv
  rw [ha.name hs, ha.peer hs, h1, h2]
  refine ⟨fun hv => ?_, rfl⟩
  subst hv
  dsimp only
  rw [h3]
  rfl

/-- **C102.**  After a successful `bind` every descriptor of the socket reports the address asked for, with the port asked for; for port 0, a port of
the range 32768 to 60999 (here in network byte order), never 0. -/
theorem name_bind {e : Env} {S : Sys} (h : Reach e S) {fd x : Nat} (ho : Of S.s fd x) {to : SA} {hb : Option Errno} {v : Int}
    (hret : (step e S.s (.bind fd to hb)).2.ret = .ok v) :
    ∃ p : Nat, (to.2 ≠ 0 → p = to.2) ∧ (to.2 = 0 → ∃ q, 32768 ≤ q ∧ q ≤ 60999 ∧ p = (q % 256) * 256 + q / 256) ∧ p ≠ 0 ∧
      ∀ fd', Of (S.step e (.bind fd to hb)).s fd' x → getsockname e (S.step e (.bind fd to hb)).s fd' = (.ok 0, some (to.1, p)) := by
  obtain ⟨d, k, ha, rfl⟩ := ho.at h
  obtain ⟨-, hv6, hla, hb0, p, i, hs, -, hp, -⟩ := bind_effect h ha hret
  have hz : to.2 = 0 → ∃ q, 32768 ≤ q ∧ q ≤ 60999 ∧ p = (q % 256) * 256 + q / 256 := by
    intro h0
    have hnet : (force S.s k).1.net = S.s.net := force_net _ _
    simp only [step, bind] at hs
    rw [ha.with h] at hs
    simp only [bindInner, hv6, hla, ne_eq, not_true, if_false, Option.isSome_none, Bool.false_eq_true, hnet] at hs
    simp only [step, bind] at hret
    rw [ha.with h] at hret
    simp only [bindInner, hv6, hla, ne_eq, not_true, if_false, Option.isSome_none, Bool.false_eq_true, hnet, Out.r] at hret
    cases hr : Ports.reserve e.devs S.s.net to.1 to.2 k.ty k.reuse with
    | mk n' r =>
      rw [hr] at hs hret
      cases r with
      | ok w =>
        obtain ⟨p', rfl, -, -, -, -, hq⟩ := Ports.reserve_granted hr
        simp only [State.setS, upd_same, Option.some.injEq] at hs
        have hp' := congrArg Sock.laddr hs
        simp at hp'
        rw [← hp']
        exact hq h0 (h.ranged.r k.ty).1 (h.ranged.r k.ty).2
      | err er => exact nomatch hret
      | panic => exact nomatch hret
      | blocked => exact nomatch hret
  refine ⟨p, hp, hz, ?_, fun fd' ho' => ?_⟩
  · by_cases h0 : to.2 = 0
    · obtain ⟨q, h1, h2, h3⟩ := hz h0
      omega
    · rw [hp h0]; exact h0
  · have hS := h.step (.bind fd to hb)
    obtain ⟨d', k', ha', hx⟩ := ho'.at hS
    have hk : k' = { k with laddr := some (to.1, p), inner := some i } := by
      have := ha'.sock
      rw [hx] at this
      exact Option.some.inj (this.symm.trans hs)
    rw [ha'.name hS, hk]

theorem laddr_of_name {e : Env} {S : Sys} (h : Reach e S) {fd x : Nat} (ho : Of S.s fd x) {a : SA} (hn : getsockname e S.s fd = (.ok 0, some a))
    (hp : a.2 ≠ 0) : ∃ k, S.s.socks x = some k ∧ k.laddr = some a := by
  obtain ⟨d, k, ha, rfl⟩ := ho.at h
  rw [ha.name h] at hn
  split at hn
  · rename_i b hb
    cases hn
    exact ⟨k, ha.sock, hb⟩
  · split at hn
    · exact nomatch hn
    · cases hn; exact absurd rfl hp

theorem gone_stays {e : Env} {x : Nat} (ops : List Op) {S : Sys} (h : Reach e S) (hlt : x < S.s.ns) (hn : S.s.socks x = none) :
    (S.run e ops).s.socks x = none := by
  induction ops generalizing S with
  | nil => exact hn
  | cons op ops ih =>
    have hf := step_frame h op
    refine ih (h.step op) (Nat.lt_of_lt_of_le hlt hf.ns) ?_
    refine (hf.socks x hlt ?_).trans hn
    intro fd d _ h2 h3
    exact (h.inv.tab fd d h2).2 (h3 ▸ hn)

/-- **C102, partial.**  Once a socket reports a port, it reports the same address for as long as it exists, through whatever descriptor, whatever is
called on this or any other socket and however the host answers.  Missing: after a `shutdown` the address can be gone (`name_shutdown_violated`). -/
theorem name_stays_partial {e : Env} {S : Sys} (h : Reach e S) {fd x : Nat} (ho : Of S.s fd x) {a : SA} (hn : getsockname e S.s fd = (.ok 0, some a))
    (hp : a.2 ≠ 0) (ops : List Op) (hops : ∀ op ∈ ops, op.isShutdown = false) {fd' : Nat} (ho' : Of (S.run e ops).s fd' x) :
    getsockname e (S.run e ops).s fd' = (.ok 0, some a) := by
  obtain ⟨k, hk, hla⟩ := laddr_of_name h ho hn hp
  have key : ∀ (ops : List Op) (S : Sys) (k : Sock), Reach e S → S.s.socks x = some k → k.laddr = some a → (∀ op ∈ ops, op.isShutdown = false) →
      (S.run e ops).s.socks x = none ∨ ∃ k', (S.run e ops).s.socks x = some k' ∧ k'.laddr = some a := by
    intro ops
    induction ops with
    | nil => intro S k _ hk hla _; exact .inr ⟨k, hk, hla⟩
    | cons op ops ih =>
      intro S k h hk hla hops
      cases hk' : (step e S.s op).1.socks x with
      | none => exact .inl (gone_stays (S := S.step e op) ops (h.step op) (Nat.lt_of_lt_of_le (h.inv.hlt x k hk) (step_frame h op).ns) hk')
      | some k1 =>
        exact ih (S.step e op) k1 (h.step op) hk' (step_laddr h op (hops op (by simp)) hk hla hk') (fun o ho => hops o (by simp [ho]))
  have hr := h.run ops
  obtain ⟨d', k', ha', rfl⟩ := ho'.at hr
  rcases key ops S k h hk hla hops with h1 | ⟨k2, h1, h2⟩
  · rw [ha'.sock] at h1; exact nomatch h1
  · rw [ha'.sock] at h1; cases h1
    rw [ha'.name hr, h2]

/-- The call is a `connect`. -/
def Op.isConnect : Op → Bool
  | .connect _ _ _ _ => true
  | .socket _ _ _ _ => false
  | .setReuse _ => false
  | .dup _ => false
  | .bind _ _ _ => false
  | .listen _ _ _ _ => false
  | .accept _ _ => false
  | .send _ _ _ _ => false
  | .sendto _ _ _ _ _ => false
  | .recv _ _ _ _ _ _ _ => false
  | .shutdown _ _ _ => false
  | .close _ => false

/-- **C102.**  After a successful `connect` every descriptor of the socket reports the address asked for as its peer. -/
theorem peer_connect {e : Env} {S : Sys} (h : Reach e S) {fd x : Nat} (ho : Of S.s fd x) {to : SA} {hb : Option Errno} {hc : HConn} {v : Int}
    (hret : (step e S.s (.connect fd to hb hc)).2.ret = .ok v) {fd' : Nat} (ho' : Of (S.step e (.connect fd to hb hc)).s fd' x) :
    getpeername e (S.step e (.connect fd to hb hc)).s fd' = (.ok 0, some to) := by
  obtain ⟨d, k, ha, rfl⟩ := ho.at h
  have hS := h.step (.connect fd to hb hc)
  obtain ⟨d', k', ha', hx⟩ := ho'.at hS
  have hk' : (step e S.s (.connect fd to hb hc)).1.socks d.h = some k' := hx ▸ ha'.sock
  have host : ∀ (s : State) (k : Sock), (connectHost s d k to hc).2.ret = .ok v → (connectHost s d k to hc).1.socks d.h = some k' →
      k'.raddr = some to := by
    intro s k h1 h2
    unfold connectHost at h1 h2
    split at h1
    · exact nomatch h1
    · rename_i hi
      rw [hi] at h2
      cases hc with
      | ok => simp [State.setS] at h2; rw [← h2]
      | inProgress => exact nomatch h1
      | fail er => exact nomatch h1
  have hra : k'.raddr = some to := by
    simp only [step, connect] at hk' hret
    rw [ha.with h] at hk' hret
    split at hret
    · exact nomatch hret
    · rename_i hv
      rw [if_neg hv] at hk'
      split at hret
      · rename_i ht
        rw [if_pos ht] at hk'
        unfold connectTcp at hret hk'
        split at hret
        · exact nomatch hret
        · rename_i hst
          rw [if_neg hst] at hk'
          cases hla : k.laddr with
          | some a => rw [hla] at hret hk'; exact host _ _ hret hk'
          | none =>
            rw [hla] at hret hk'
            dsimp only at hret hk'
            cases hq : assignAddr e (force S.s k).1 (force S.s k).2 k.ty.v6 with
            | inr u => rw [hq] at hret; exact nomatch hret
            | inl z =>
              obtain ⟨s', r⟩ := z
              rw [hq] at hret hk'
              cases r with
              | inl er => exact nomatch hret
              | inr a =>
                cases hb with
                | some er => exact nomatch hret
                | none => exact host _ _ hret hk'
      · rename_i ht
        rw [if_neg ht] at hk'
        unfold connectUdp at hk'
        have hh := implicitBind_helped e S.s { k with raddr := some to } k.ty.v6 hb
        simp [State.setS] at hk'
        rw [← hk']; exact hh.kept.raddr
  rw [ha'.peer hS, hra]

/-- **C102, partial.**  The descriptor `accept` returns reports as its peer the address the host gave, which is the one `accept` hands to the program, and
as its own the listening socket's address.  Missing: the port it reports is not the listening socket's (`name_accept_violated`). -/
theorem peer_accept_partial {e : Env} {S : Sys} (h : Reach e S) {fd x : Nat} (ho : Of S.s fd x) {peer : SA} {v : Int}
    (hl : ∀ k, S.s.socks x = some k → k.ty.tcp = true ∧ k.st = .listen) (hfree : ∃ i < e.nfd, S.s.tab i = none)
    (hret : (step e S.s (.accept fd (.conn peer))).2.ret = .ok v) :
    (step e S.s (.accept fd (.conn peer))).2.addr = some peer ∧
    getpeername e (S.step e (.accept fd (.conn peer))).s v = (.ok 0, some peer) ∧
    ∃ a a' : SA, getsockname e S.s fd = (.ok 0, some a) ∧ a'.1 = a.1 ∧
      getsockname e (S.step e (.accept fd (.conn peer))).s v = (.ok 0, some a') := by
  obtain ⟨d, k, ha, rfl⟩ := ho.at h
  obtain ⟨ht, hst⟩ := hl k ha.sock
  obtain ⟨n, y, i, la, rfl, -, -, -, h1, -, h2, h3, -⟩ := accept_effect h ha ht hst hfree hret
  have hS := h.step (.accept fd (.conn peer))
  have ha' : At (S.step e (.accept fd (.conn peer))).s n _ _ := h2
  refine ⟨h1, by rw [ha'.peer hS], ?_⟩
  cases hla : k.laddr with
  | none => rw [hla] at h3; exact nomatch h3
  | some a =>
    rw [hla] at h3
    refine ⟨a, la, by rw [ha.name h, hla], ?_, by rw [ha'.name hS]⟩
    exact (Option.some.inj h3).symm

/-- **C102.**  What a socket reports as its peer, or that it has none, changes only by `connect`: until then every descriptor of it reports the same,
whatever is called on this or any other socket and however the host answers. -/
theorem peer_stays {e : Env} {S : Sys} (h : Reach e S) {fd x : Nat} (ho : Of S.s fd x) (ops : List Op) (hops : ∀ op ∈ ops, op.isConnect = false)
    {fd' : Nat} (ho' : Of (S.run e ops).s fd' x) : getpeername e (S.run e ops).s fd' = getpeername e S.s fd := by
  obtain ⟨d, k, ha, rfl⟩ := ho.at h
  have key : ∀ (ops : List Op) (S : Sys) (k : Sock), Reach e S → S.s.socks d.h = some k → (∀ op ∈ ops, op.isConnect = false) →
      (S.run e ops).s.socks d.h = none ∨ ∃ k', (S.run e ops).s.socks d.h = some k' ∧ k'.raddr = k.raddr := by
    intro ops
    induction ops with
    | nil => intro S k _ hk _; exact .inr ⟨k, hk, rfl⟩
    | cons op ops ih =>
      intro S k h hk hops
      cases hk' : (step e S.s op).1.socks d.h with
      | none => exact .inl (gone_stays (S := S.step e op) ops (h.step op) (Nat.lt_of_lt_of_le (h.inv.hlt _ k hk) (step_frame h op).ns) hk')
      | some k1 =>
        have hr : k1.raddr = k.raddr := by
          rcases step_raddr h op hk hk' with h1 | ⟨to, ⟨fd, hb, hc, d, rfl, -⟩, -⟩
          · exact h1
          · exact (nomatch (hops _ List.mem_cons_self : true = false))
        rcases ih (S.step e op) k1 (h.step op) hk' (fun o ho => hops o (by simp [ho])) with h1 | ⟨k2, h1, h2⟩
        · exact .inl h1
        · exact .inr ⟨k2, h1, h2.trans hr⟩
  have hr := h.run ops
  obtain ⟨d', k', ha', hx⟩ := ho'.at hr
  rcases key ops S k h ha.sock hops with h1 | ⟨k2, h1, h2⟩
  · rw [← hx, ha'.sock] at h1; exact nomatch h1
  · rw [← hx, ha'.sock] at h1; cases h1
    rw [ha'.peer hr, ha.peer h, h2]

/-- **C102, partial.**  The peer of a connection is fixed: not even another `connect` changes it, as long as `shutdown` is not called. -/
theorem peer_fixed_partial {e : Env} {S : Sys} (h : Reach e S) {fd x : Nat} (ho : Of S.s fd x)
    (hc : ∀ k, S.s.socks x = some k → k.ty.tcp = true ∧ (k.st = .connected ∨ k.st = .rdOnly ∨ k.st = .wrOnly)) (ops : List Op)
    (hops : ∀ op ∈ ops, op.isShutdown = false) {fd' : Nat} (ho' : Of (S.run e ops).s fd' x) :
    getpeername e (S.run e ops).s fd' = getpeername e S.s fd := by
  obtain ⟨d, k, ha, rfl⟩ := ho.at h
  have key : ∀ (ops : List Op) (S : Sys) (k : Sock), Reach e S → S.s.socks d.h = some k → k.ty.tcp = true →
      (k.st = .connected ∨ k.st = .rdOnly ∨ k.st = .wrOnly) → (∀ op ∈ ops, op.isShutdown = false) →
      (S.run e ops).s.socks d.h = none ∨ ∃ k', (S.run e ops).s.socks d.h = some k' ∧ k'.raddr = k.raddr := by
    intro ops
    induction ops with
    | nil => intro S k _ hk _ _ _; exact .inr ⟨k, hk, rfl⟩
    | cons op ops ih =>
      intro S k h hk ht hst hops
      cases hk' : (step e S.s op).1.socks d.h with
      | none => exact .inl (gone_stays (S := S.step e op) ops (h.step op) (Nat.lt_of_lt_of_le (h.inv.hlt _ k hk) (step_frame h op).ns) hk')
      | some k1 =>
        have hr : k1.raddr = k.raddr := by
          rcases step_raddr h op hk hk' with h1 | ⟨to, -, -, h3⟩
          · exact h1
          · rw [h3 ht] at hst; rcases hst with h | h | h <;> exact nomatch h
        rcases state_stays_partial h hk (by rcases hst with h | h | h <;> simp [h]) [op] (fun o ho => hops o (by simp_all)) with h1 | ⟨k2, h1, h2, h3⟩
        · rw [show (S.run e [op]).s.socks d.h = (step e S.s op).1.socks d.h from rfl, hk'] at h1; exact nomatch h1
        · rw [show (S.run e [op]).s.socks d.h = (step e S.s op).1.socks d.h from rfl, hk'] at h1; cases h1
          rcases ih (S.step e op) k1 (h.step op) hk' (by rw [h3]; exact ht) (by rw [h2]; exact hst) (fun o ho => hops o (by simp [ho])) with h1 | ⟨k2, h1, h2⟩
          · exact .inl h1
          · exact .inr ⟨k2, h1, h2.trans hr⟩
  have hr := h.run ops
  obtain ⟨ht, hst⟩ := hc k ha.sock
  obtain ⟨d', k', ha', hx⟩ := ho'.at hr
  rcases key ops S k h ha.sock ht hst hops with h1 | ⟨k2, h1, h2⟩
  · rw [← hx, ha'.sock] at h1; exact nomatch h1
  · rw [← hx, ha'.sock] at h1; cases h1
    rw [ha'.peer hr, ha.peer h, h2]

/-! ## Cases in which the theorems apply -/

/-- What the two calls give after the calls `ops` of a new system. -/
def names (e : Env) (ops : List Op) (fd : Int) : (Ret × Option SA) × (Ret × Option SA) :=
  (getsockname e (Sys.init.run e ops).s fd, getpeername e (Sys.init.run e ops).s fd)

/-- A server, a client of it, and copies of both descriptors. -/
example : names env (served ++ [.dup 1, .close 1]) 2 = ((.ok 0, some (lo, 18414)), (.ok 0, some (far, 1234))) ∧
    names env served 0 = ((.ok 0, some (lo, 80)), (.err .ENOTCONN, none)) ∧
    (out env (served.take 1) (.bind 0 (lo, 80) none)).ret = .ok 0 ∧
    (out env (served.take 1) (.bind 0 (lo, 0) none)).ret = .ok 0 ∧
    names env [.socket false true false false, .bind 0 (lo, 0) none] 0 = ((.ok 0, some (lo, 18414)), (.err .ENOTCONN, none)) ∧
    (60999 % 256) * 256 + 60999 / 256 = 18414 ∧
    (out env (served.take 3) (.accept 0 (.conn (far, 1234)))).ret = .ok 1 ∧
    (view env (served.take 3) 0).map (fun k => (k.ty.tcp, k.st)) = some (true, .listen) ∧
    (view env served 1).map (fun k => (k.ty.tcp, k.st)) = some (true, .connected) := by
  refine ⟨?_, ?_, ?_, ?_, ?_, ?_, ?_, ?_, ?_⟩ <;> decide +kernel

/-- Datagrams: the last `connect` counts. -/
example : names env (dgram ++ [.connect 0 (far, 9) none .ok, .dup 0, .connect 1 (far, 10) none .ok]) 0 =
      ((.ok 0, some (lo, 53)), (.ok 0, some (far, 10))) ∧
    (out env dgram (.connect 0 (far, 9) none .ok)).ret = .ok 0 ∧ (out env talk (.connect 0 (far, 81) none .ok)).ret = .err .EISCONN := by
  decide +kernel

/-- The project's own tests, `/repo/src/tests/networking_tests.rs` 579-1030: bad descriptors, the peer of a server's and a client's end, and a socket
without an address. -/
example : names env [] (-1) = ((.err .EBADF, none), (.err .EBADF, none)) ∧ names env [] 5 = ((.err .EBADF, none), (.err .EBADF, none)) ∧
    names env [] 8 = ((.err .EBADF, none), (.err .EBADF, none)) ∧
    names env [.socket false true false false] 0 = ((.ok 0, some (anyA, 0)), (.err .ENOTCONN, none)) ∧
    names env [.socket false true false false, .bind 0 (lo, 80) none] 0 = ((.ok 0, some (lo, 80)), (.err .ENOTCONN, none)) ∧
    (names env [.socket false true false false, .connect 0 (lo, 80) none .ok] 0).2 = (.ok 0, some (lo, 80)) ∧
    (names env [.socket false false false false, .bind 0 (lo, 80) none, .connect 0 (lo, 81) none .ok] 0).2 = (.ok 0, some (lo, 81)) := by
  refine ⟨?_, ?_, ?_, ?_, ?_, ?_, ?_⟩ <;> decide +kernel

/-! ## Departures -/

/-- C102.  Asking an unbound socket of version 6 for its address aborts the program. -/
theorem name_unbound_violated :
    out env [] (.socket true true false false) = { ret := .ok 0 } ∧
    (names env [.socket true true false false] 0).1 = (.panic, none) := by decide +kernel

/-- C102.  A socket that was connected without `bind` has a port, which is taken from the table, but reports port 0. -/
theorem name_connected_violated :
    (out env [.socket false true false false] (.connect 0 (far, 80) none .ok)).ret = .ok 0 ∧
    (Sys.init.run env [.socket false true false false, .connect 0 (far, 80) none .ok]).s.net.used ⟨18414, ⟨false, true⟩⟩ ≠ none ∧
    names env [.socket false true false false, .connect 0 (far, 80) none .ok] 0 = ((.ok 0, some (anyA, 0)), (.ok 0, some (far, 80))) := by
  decide +kernel

/-- C102.  The descriptor of an accepted connection reports another port than the one the client connected to. -/
theorem name_accept_violated :
    (names env served 0).1 = (.ok 0, some (lo, 80)) ∧ (names env served 1).1 = (.ok 0, some (lo, 18414)) := by decide +kernel

/-- C102.  A refused `bind` leaves its address on the socket: a second socket reports the port the first one holds. -/
theorem name_refused_violated :
    (out env [.socket false true false false, .bind 0 (lo, 80) none, .socket false true false false] (.bind 1 (lo, 80) none)).ret =
      .err .EADDRINUSE ∧
    (names env [.socket false true false false, .bind 0 (lo, 80) none, .socket false true false false, .bind 1 (lo, 80) none] 1).1 =
      (.ok 0, some (lo, 80)) := by decide +kernel

/-- C102.  A connection that is not made yet, and a refused `connect` of a datagram socket, leave a peer. -/
theorem peer_pending_violated :
    (out env [.socket false true true false] (.connect 0 (far, 80) none .inProgress)).ret = .err .EINPROGRESS ∧
    (names env [.socket false true true false, .connect 0 (far, 80) none .inProgress] 0).2 = (.ok 0, some (far, 80)) ∧
    (out env [.socket false false true false] (.connect 0 (far, 80) (some .EACCES) .ok)).ret = .err .EACCES ∧
    (names env [.socket false false true false, .connect 0 (far, 80) (some .EACCES) .ok] 0).2 = (.ok 0, some (far, 80)) := by decide +kernel

/-- C102.  After both sides were shut down one after the other the address is gone, while the peer is still reported. -/
theorem name_shutdown_violated :
    names env (served ++ [.shutdown 1 0 none]) 1 = ((.ok 0, some (lo, 18414)), (.ok 0, some (far, 1234))) ∧
    out env (served ++ [.shutdown 1 0 none]) (.shutdown 1 1 none) = { ret := .ok 0 } ∧
    names env (served ++ [.shutdown 1 0 none, .shutdown 1 1 none]) 1 = ((.ok 0, some (anyA, 0)), (.ok 0, some (far, 1234))) := by decide +kernel

end Verif.InetSock
