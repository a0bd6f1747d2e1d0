import Verif.InetSockFrame

/-!
# Internet sockets: theorems

C64, and parts of C08, C49 and C58.
-/

namespace Verif.InetSock

open Verif.Ports (Addr PType Net)

/-! ## Bytes -/

/-- C64.  On a connected stream socket, what the `recv` calls (without MSG_PEEK) have returned is an initial part of what the
host has handed over on its socket, through whichever descriptors they were made and whatever happened in between; and no other
socket receives from that host socket. -/
theorem stream_exact {e : Env} {S : Sys} (h : Reach e S) {x i : Nat} {k : Sock} (hk : S.s.socks x = some k)
    (ht : k.ty.tcp = true) (hi : k.inner = some i) :
    S.taken x <+: S.given i ∧ ∀ y k', S.s.socks y = some k' → k'.inner = some i → y = x :=
  ⟨⟨k.peek, h.inv.stream x k i hk ht hi⟩, fun y k' hy hi' => h.inv.inj y k' x k i hy hk hi' hi⟩

/-- C64.  What a `recv` on a stream socket returns: first what the host handed over and no `recv` has returned yet, then what
the host has now, up to the size asked for; with MSG_PEEK too. -/
theorem recv_returns {e : Env} {S : Sys} (h : Reach e S) {fd i n : Nat} {d : Desc} {k : Sock} (ha : At S.s fd d k)
    (ht : k.ty.tcp = true) (hst : k.st = .connected ∨ k.st = .rdOnly) (hi : k.inner = some i) (pk rdy : Bool)
    (fam : Option Bool) (hb : Option Errno) (hr : HRecv) :
    ∃ left, S.given i = S.taken d.h ++ left ∧
      (left ≠ [] → n ≤ left.length →
        (step e S.s (.recv fd n pk fam rdy hb hr)).2 = { ret := .ok n, bytes := left.take n }) ∧
      (left.length < n ∨ left = [] → ∀ bs src, hr = .ok bs src →
        (step e S.s (.recv fd n pk fam rdy hb hr)).2 =
          { ret := .ok (left ++ bs.take (n - left.length)).length, bytes := left ++ bs.take (n - left.length)
            addr := some src, got := some (i, bs.take (n - left.length)) }) ∧
      (left ≠ [] → left.length < n → ∀ er, hr = .fail er →
        (step e S.s (.recv fd n pk fam rdy hb hr)).2 = { ret := .ok left.length, bytes := left }) ∧
      (left = [] → ∀ er, hr = .fail er →
        (step e S.s (.recv fd n pk fam rdy hb hr)).2 =
          { ret := if d.nb = false ∧ er = .EAGAIN then .blocked else .err er }) := by
  have hs : settle k rdy = some k := by
    unfold settle; rw [if_neg]; rcases hst with h | h <;> simp [h]
  have hc : ¬ (k.st ≠ .connected ∧ k.st ≠ .rdOnly) := by rcases hst with h | h <;> simp [h]
  have he : step e S.s (.recv fd n pk fam rdy hb hr) = recvTcp S.s d k n pk hr := by
    simp only [step, recv]
    rw [ha.with h]
    simp [ht, hs, hc]
  rw [he]
  refine ⟨k.peek, (h.inv.stream d.h k i ha.sock ht hi).symm, ?_, ?_, ?_, ?_⟩
  · intro h1 h2
    have : min n k.peek.length = n := by omega
    simp [recvTcp, h1, this]
  · rintro h1 bs src rfl
    have h2 : k.peek.take n = k.peek ∨ k.peek = [] := by
      rcases h1 with h1 | h1
      · exact .inl (List.take_of_length_le (by omega))
      · exact .inr h1
    rcases h2 with h2 | h2
    · have hne : ¬ (k.peek ≠ [] ∧ n - k.peek.length = 0) := by
        rintro ⟨a, b⟩
        rcases h1 with h1 | h1
        · omega
        · exact a h1
      cases pk <;> simp [recvTcp, h2, hi, hne]
    · cases pk <;> simp [recvTcp, h2, hi]
  · rintro h1 h2 er rfl
    have h3 : k.peek.take n = k.peek := List.take_of_length_le (by omega)
    have h4 : n - k.peek.length ≠ 0 := by omega
    have h5 : n - k.peek.length ≠ n := by
      have := List.length_pos_iff.2 h1
      omega
    cases pk <;> simp [recvTcp, h3, h4, h5, hi]
  · rintro h1 er rfl
    cases pk <;> simp only [recvTcp, h1, hi] <;> simp <;> split <;> rfl

/-- C64.  MSG_PEEK takes nothing: the bytes it returned are what the next `recv` on the socket returns first. -/
theorem peek_then_recv {e : Env} {S : Sys} (h : Reach e S) {fd fd' i n m : Nat} {d d' : Desc} {k : Sock} (ha : At S.s fd d k)
    (ha' : At S.s fd' d' k) (hsame : d'.h = d.h)
    (ht : k.ty.tcp = true) (hst : k.st = .connected ∨ k.st = .rdOnly) (hi : k.inner = some i) (rdy rdy' : Bool)
    (fam fam' : Option Bool) (hb hb' : Option Errno) (hr hr' : HRecv)
    (hm : m ≤ (step e S.s (.recv fd n true fam rdy hb hr)).2.bytes.length) :
    (step e (step e S.s (.recv fd n true fam rdy hb hr)).1 (.recv fd' m false fam' rdy' hb' hr')).2.bytes =
      (step e S.s (.recv fd n true fam rdy hb hr)).2.bytes.take m := by
  have hs : ∀ r, settle k r = some k := by
    intro r; unfold settle; rw [if_neg]; rcases hst with h | h <;> simp [h]
  have hc : ¬ (k.st ≠ .connected ∧ k.st ≠ .rdOnly) := by rcases hst with h | h <;> simp [h]
  have he : step e S.s (.recv fd n true fam rdy hb hr) = recvTcp S.s d k n true hr := by
    simp only [step, recv]
    rw [ha.with h]
    simp [ht, hs, hc]
  rw [he] at hm ⊢
  have hs1 := recvTcp_peek (s := S.s) (d := d) (n := n) (hr := hr) hi
  obtain ⟨pb, h1, h2⟩ := hs1
  have hfd := (h.inv.tab fd' d' ha'.tab).1
  have he2 : step e (S.s.setS d.h { k with peek := pb }) (.recv fd' m false fam' rdy' hb' hr') =
      recvTcp (S.s.setS d.h { k with peek := pb }) d' { k with peek := pb } m false hr' := by
    have hs' : settle { k with peek := pb } rdy' = some { k with peek := pb } := by
      unfold settle; rw [if_neg]; rcases hst with h | h <;> simp [h]
    simp only [step, recv, withSock, hfd, if_true, State.setS, ha'.tab, hsame, upd_same, ht, hs', hc, if_false]
  rw [h1, he2]
  obtain ⟨t, rfl⟩ := h2
  generalize (recvTcp S.s d k n true hr).2.bytes = b at hm ⊢
  have h3 : (b ++ t).take m = b.take m := by rw [List.take_append_of_le_length hm]
  have h4 : m - ((b ++ t).take m).length = 0 := by simp only [List.length_take, List.length_append]; omega
  by_cases hp : b ++ t = []
  · have hb0 : b = [] := by simp at hp; exact hp.1
    subst hb0
    simp at hm hp
    subst hm hp
    cases hr' <;> simp [recvTcp, hi] <;> (try split) <;> rfl
  · simp only [recvTcp]
    rw [if_pos ⟨hp, h4⟩]
    exact h3

/-- C64.  What `send` passes to the host is the caller's bytes, on the host socket of the descriptor's socket, for a datagram
socket to the address it was connected to; the host's answer is returned.  If nothing was passed, `send` reports no success. -/
theorem send_exact {e : Env} {S : Sys} (h : Reach e S) {fd : Nat} {d : Desc} {k : Sock} (ha : At S.s fd d k) (data : List UInt8)
    (hb : Option Errno) (hs : HSend) :
    ((step e S.s (.send fd data hb hs)).2.sent = none → ∀ v, (step e S.s (.send fd data hb hs)).2.ret ≠ .ok v) ∧
    ∀ i b to, (step e S.s (.send fd data hb hs)).2.sent = some (i, b, to) →
      b = data ∧ to = (if k.ty.tcp then none else k.raddr) ∧
      (step e S.s (.send fd data hb hs)).2.ret = (match hs with | .ok n => .ok n | .fail er => .err er) ∧
      ∃ k', (step e S.s (.send fd data hb hs)).1.socks d.h = some k' ∧ k'.inner = some i := by
  have hsr : sret hs = (match hs with | .ok n => .ok n | .fail er => .err er) := by cases hs <;> rfl
  have host : ∀ (s1 : State) (k1 : Sock) (to : Option SA),
      ((hostSend s1 d k1 data to hs).2.sent = none → ∀ v, (hostSend s1 d k1 data to hs).2.ret ≠ .ok v) ∧
      ∀ i b to', (hostSend s1 d k1 data to hs).2.sent = some (i, b, to') → b = data ∧ to' = to ∧
        (hostSend s1 d k1 data to hs).2.ret = sret hs ∧ ∃ k', (hostSend s1 d k1 data to hs).1.socks d.h = some k' ∧ k'.inner = some i := by
    intro s1 k1 to
    unfold hostSend
    split
    · simp [Out.r]
    · rename_i i hi
      refine ⟨by simp, ?_⟩
      intro i' b to' h
      simp only [Option.some.injEq, Prod.mk.injEq] at h
      obtain ⟨rfl, rfl, rfl⟩ := h
      exact ⟨rfl, rfl, rfl, k1, by simp [State.setS], hi⟩
  rw [← hsr]
  simp only [step, send]
  rw [ha.with h]
  split
  · rename_i ht
    split
    · simp [Out.r]
    · exact host S.s k none
  · rename_i ht
    cases hra : k.raddr with
    | none => simp [Out.r]
    | some to =>
      dsimp only
      split
      · simp [Out.r]
      · unfold sendtoAddr
        rw [ha.with h]
        split
        · simp [Out.r]
        · split
          · simp [Out.r]
          · dsimp only
            split
            · have := host (implicitBind e S.s k to.1.v6 hb).1 (implicitBind e S.s k to.1.v6 hb).2.1 (some to)
              simpa [ht] using this
            · rename_i r b hr
              have : ∀ v, r ≠ Ret.ok v := by
                intro v hv
                unfold implicitBind at hr
                split at hr
                · simp at hr
                · split at hr
                  · simp at hr; exact absurd (hr.1.trans hv) (by simp)
                  · simp at hr; exact absurd (hr.1.trans hv) (by simp)
                  · dsimp only at hr
                    split at hr
                    · simp at hr
                    · rename_i hnot
                      simp at hr
                      exact hnot v (hr.1.trans hv)
              simpa [Out.r] using this

/-- C64.  `sendto` on a datagram socket passes the caller's bytes to the host with the destination named. -/
theorem sendto_exact {e : Env} {S : Sys} (h : Reach e S) {fd : Nat} {d : Desc} {k : Sock} (ha : At S.s fd d k) (data : List UInt8)
    (to : SA) (hto : to ≠ (⟨to.1.v6, 0⟩, 0)) (hb : Option Errno) (hs : HSend) :
    ∀ i b to', (step e S.s (.sendto fd data to hb hs)).2.sent = some (i, b, to') →
      b = data ∧ to' = some to ∧ k.ty.tcp = false ∧ to.1.v6 = k.ty.v6 ∧
      (step e S.s (.sendto fd data to hb hs)).2.ret = (match hs with | .ok n => .ok n | .fail er => .err er) ∧
      ∃ k', (step e S.s (.sendto fd data to hb hs)).1.socks d.h = some k' ∧ k'.inner = some i := by
  have hn : nowhere to = false := by
    obtain ⟨⟨v6, bits⟩, p⟩ := to
    simp only [nowhere, Ports.Addr.unspec]
    simp only [ne_eq, Prod.mk.injEq, Ports.Addr.mk.injEq, true_and, not_and] at hto
    grind
  intro i b to'
  simp only [step, sendto, hn, Bool.false_eq_true, if_false, sendtoAddr]
  rw [ha.with h]
  split
  · simp [Out.r]
  · rename_i h1
    split
    · simp [Out.r]
    · split
      · simp [Out.r]
      · rename_i ht
        split
        · unfold hostSend
          split
          · simp [Out.r]
          · rename_i i' hi'
            intro hx
            simp only [Option.some.injEq, Prod.mk.injEq] at hx
            obtain ⟨rfl, rfl, rfl⟩ := hx
            refine ⟨rfl, rfl, by simpa using ht, by simpa using h1, ?_, _, by simp [State.setS], hi'⟩
            cases hs <;> rfl
        · simp [Out.r]

/-- C64.  A datagram arrives whole up to the size asked for, with its sender. -/
theorem datagram_received {e : Env} {S : Sys} (h : Reach e S) {fd n i : Nat} {d : Desc} {k : Sock} (ha : At S.s fd d k)
    (ht : k.ty.tcp = false) {a : SA} (hla : k.laddr = some a) (hi : k.inner = some i) (pk rdy : Bool)
    (fam : Option Bool) (hb : Option Errno) (bs : List UInt8) (src : SA) :
    (step e S.s (.recv fd n pk fam rdy hb (.ok bs src))).2 =
      { ret := .ok (bs.take n).length, bytes := bs.take n, addr := some src, got := some (i, bs.take n) } := by
  simp only [step, recv]
  rw [ha.with h]
  simp [ht, recvUdp, implicitBind, hla, hi]

/-! ## Which calls a socket allows (C49) -/

/-- C49.  `send` on a stream socket that is not connected for writing is refused and does nothing. -/
theorem send_needs {e : Env} {S : Sys} (h : Reach e S) {fd : Nat} {d : Desc} {k : Sock} (ha : At S.s fd d k)
    (ht : k.ty.tcp = true) (hst : k.st ≠ .connected ∧ k.st ≠ .wrOnly) (data : List UInt8) (hb : Option Errno) (hs : HSend) :
    step e S.s (.send fd data hb hs) = (S.s, { ret := .err .ENOTCONN }) := by
  simp only [step, send]
  rw [ha.with h]
  simp [ht, hst, Out.r]

/-- C49.  `recv` on a stream socket that is not connected for reading is refused; only a connection in progress that the host
reports as made becomes connected. -/
theorem recv_needs {e : Env} {S : Sys} (h : Reach e S) {fd : Nat} {d : Desc} {k : Sock} (ha : At S.s fd d k)
    (ht : k.ty.tcp = true) (hst : k.st ≠ .connected ∧ k.st ≠ .rdOnly) (n : Nat) (pk rdy : Bool) (hnr : k.st = .inProgress → rdy = false)
    (fam : Option Bool) (hb : Option Errno) (hr : HRecv) :
    step e S.s (.recv fd n pk fam rdy hb hr) = (S.s, { ret := .err .ENOTCONN }) := by
  have hs : settle k rdy = some k := by
    unfold settle
    split
    · rename_i h1
      have := (h.inv.good _ _ ha.sock).conn (.inr (.inr h1))
      split
      · rename_i h2; exact absurd h2 this.2
      · simp [hnr h1]
    · rfl
  have hset : S.s.setS d.h k = S.s := by
    unfold State.setS
    rw [show upd S.s.socks d.h (some k) = S.s.socks from by
      funext x; simp only [upd_apply]; split
      · rename_i h; rw [h]; exact ha.sock.symm
      · rfl]
  simp only [step, recv]
  rw [ha.with h]
  simp [ht, hs, hst, hset, Out.r]

/-- C49.  `accept` needs a listening stream socket, and otherwise does nothing. -/
theorem accept_needs {e : Env} {S : Sys} (h : Reach e S) {fd : Nat} {d : Desc} {k : Sock} (ha : At S.s fd d k)
    (hfree : ∃ i < e.nfd, S.s.tab i = none) (hst : k.ty.tcp = false ∨ k.st ≠ .listen) (hh : HAcc) :
    step e S.s (.accept fd hh) = (S.s, { ret := .err (if k.ty.tcp then .EINVAL else .EOPNOTSUPP) }) := by
  simp only [step, accept]
  rw [ha.with h]
  cases hl : lowest e S.s with
  | none =>
    obtain ⟨i, hi, hn⟩ := hfree
    exact absurd hn (lowest_none hl i hi)
  | some fd' =>
    cases ht : k.ty.tcp with
    | false => simp [Out.r]
    | true =>
      rw [ht] at hst
      simp at hst
      simp [hst, Out.r]

/-- C49.  `connect` on a stream socket already connected, connecting or listening is refused and does nothing. -/
theorem connect_needs {e : Env} {S : Sys} (h : Reach e S) {fd : Nat} {d : Desc} {k : Sock} (ha : At S.s fd d k)
    (ht : k.ty.tcp = true) (hst : k.st ≠ .notConnected) (to : SA) (hto : to.1.v6 = k.ty.v6) (hb : Option Errno) (hc : HConn) :
    step e S.s (.connect fd to hb hc) = (S.s, { ret := .err .EISCONN }) := by
  simp only [step, connect]
  rw [ha.with h]
  simp [ht, connectTcp, hst, hto, Out.r]

/-- C49.  `listen` needs a stream socket that is not connected; on a listening socket it changes nothing. -/
theorem listen_needs {e : Env} {S : Sys} (h : Reach e S) {fd : Nat} {d : Desc} {k : Sock} (ha : At S.s fd d k)
    (hst : k.ty.tcp = false ∨ k.st ≠ .notConnected) (hb hl stale : Option Errno) :
    step e S.s (.listen fd hb hl stale) = (S.s, { ret := if k.st = .listen then .ok 0 else .err .EOPNOTSUPP }) := by
  have hg := (h.inv.good _ _ ha.sock).conn
  simp only [step, listen]
  rw [ha.with h]
  cases hs : k.st <;> simp [Out.r, hs] at hst ⊢
  simp [hst]

/-- C49.  A bound socket cannot be bound again. -/
theorem bind_once {e : Env} {S : Sys} (h : Reach e S) {fd : Nat} {d : Desc} {k : Sock} (ha : At S.s fd d k)
    (hla : k.laddr ≠ none) (to : SA) (hb : Option Errno) :
    (step e S.s (.bind fd to hb)).2 = { ret := .err .EINVAL } ∧ (step e S.s (.bind fd to hb)).1.socks = S.s.socks ∧
      (step e S.s (.bind fd to hb)).1.net = S.s.net := by
  have hset : upd S.s.socks d.h (some k) = S.s.socks := by
      funext x; simp only [upd_apply]; split
      · rename_i h; rw [h]; exact ha.sock.symm
      · rfl
  have hl : k.laddr.isSome = true := Option.isSome_iff_ne_none.2 hla
  simp only [step, bind]
  rw [ha.with h]
  simp only [bindInner, hl, if_true]
  split <;> simp [Out.r, State.setS, hset]

/-! ## What a call changes -/

/-- C64.  A call on one socket leaves every other socket and every other descriptor as they were, whether it succeeds or
fails. -/
theorem others_untouched {e : Env} {S : Sys} (h : Reach e S) (op : Op) :
    (∀ i, S.s.tab i ≠ none → op.on ≠ some i → (step e S.s op).1.tab i = S.s.tab i) ∧
    (∀ x k, S.s.socks x = some k → (∀ fd d, op.on = some fd → S.s.tab fd = some d → d.h ≠ x) →
      (step e S.s op).1.socks x = some k) :=
  ⟨(step_frame h op).tab, fun x k hk hx => ((step_frame h op).socks x (h.inv.hlt x k hk) hx).trans hk⟩

/-- C08.  A call that makes a descriptor uses the lowest number that is free and returns it; no other call makes one. -/
theorem new_descriptor {e : Env} {S : Sys} (h : Reach e S) (op : Op) (i : Nat) (h1 : S.s.tab i = none)
    (h2 : (step e S.s op).1.tab i ≠ none) :
    i < e.nfd ∧ (∀ j < i, S.s.tab j ≠ none) ∧ (step e S.s op).2.ret = .ok i ∧
      ((∃ v6 tcp nb clo, op = .socket v6 tcp nb clo) ∨ (∃ fd, op = .dup fd) ∨ (∃ fd p, op = .accept fd (.conn p))) := by
  have no : ∀ {s' : State}, s'.tab = S.s.tab → s'.tab i ≠ none → False := fun hs hn => hn (hs ▸ h1)
  have upd' : ∀ {fd : Nat} {d : Desc}, lowest e S.s = some fd → upd S.s.tab fd (some d) i ≠ none →
      i = fd ∧ i < e.nfd ∧ ∀ j < i, S.s.tab j ≠ none := by
    intro fd d hl hn
    have hi : i = fd := by
      simp only [upd_apply] at hn
      split at hn
      · assumption
      · exact absurd h1 hn
    subst hi
    obtain ⟨a, _, c⟩ := lowest_some hl
    exact ⟨rfl, a, c⟩
  cases op with
  | socket v6 tcp nb clo =>
    simp only [step, socket] at h2 ⊢
    cases hl : lowest e S.s with
    | none => rw [hl] at h2; exact absurd h1 h2
    | some fd =>
      rw [hl] at h2
      obtain ⟨rfl, a, b⟩ := upd' hl h2
      exact ⟨a, b, rfl, .inl ⟨v6, tcp, nb, clo, rfl⟩⟩
  | setReuse fd =>
    rcases At.or h fd with ⟨d, k, ha⟩ | ⟨_, hw⟩
    · simp only [step, setReuse] at h2; rw [ha.with h] at h2
      exact absurd h1 h2
    · simp only [step, setReuse, hw] at h2; exact absurd h1 h2
  | dup fd =>
    rcases At.or h fd with ⟨d, k, ha⟩ | ⟨_, hw⟩
    · simp only [step, dup] at h2 ⊢; rw [ha.with h] at h2 ⊢
      cases hl : lowest e S.s with
      | none => rw [hl] at h2; exact absurd h1 h2
      | some fd' =>
        rw [hl] at h2
        obtain ⟨rfl, a, b⟩ := upd' hl h2
        exact ⟨a, b, rfl, .inr (.inl ⟨fd, rfl⟩)⟩
    · simp only [step, dup, hw] at h2; exact absurd h1 h2
  | bind fd to hb =>
    rcases At.or h fd with ⟨d, k, ha⟩ | ⟨_, hw⟩
    · exact (no (touch_bind h ha to hb).tab h2).elim
    · simp only [step, bind, hw] at h2; exact absurd h1 h2
  | connect fd to hb hc =>
    rcases At.or h fd with ⟨d, k, ha⟩ | ⟨_, hw⟩
    · exact (no (touch_connect h ha to hb hc).tab h2).elim
    · simp only [step, connect, hw] at h2; exact absurd h1 h2
  | listen fd hb hl stale =>
    rcases At.or h fd with ⟨d, k, ha⟩ | ⟨_, hw⟩
    · exact (no (touch_listen h ha hb hl stale).tab h2).elim
    · simp only [step, listen, hw] at h2; exact absurd h1 h2
  | accept fd hh =>
    rcases At.or h fd with ⟨d, k, ha⟩ | ⟨_, hw⟩
    · simp only [step, accept] at h2 ⊢; rw [ha.with h] at h2 ⊢
      cases hl : lowest e S.s with
      | none => rw [hl] at h2; exact absurd h1 h2
      | some nfd =>
        rw [hl] at h2
        dsimp only at h2 ⊢
        split at h2
        · exact absurd h1 h2
        · rename_i c1
          rw [if_neg c1]
          split at h2
          · exact absurd h1 h2
          · rename_i c2
            rw [if_neg c2]
            unfold acceptInet at h2 ⊢
            repeat' split at h2
            all_goals first
              | exact absurd h1 h2
              | skip
            obtain ⟨rfl, a, b⟩ := upd' hl h2
            simp_all
    · simp only [step, accept, hw] at h2; exact absurd h1 h2
  | send fd data hb hs =>
    rcases At.or h fd with ⟨d, k, ha⟩ | ⟨_, hw⟩
    · exact (no (touch_send h ha data hb hs).tab h2).elim
    · simp only [step, send, hw] at h2; exact absurd h1 h2
  | sendto fd data to hb hs =>
    rcases At.or h fd with ⟨d, k, ha⟩ | ⟨_, hw⟩
    · exact (no (touch_sendto h ha data to hb hs).tab h2).elim
    · simp only [step, sendto, send, sendtoAddr, hw, ite_self] at h2; exact absurd h1 h2
  | recv fd n pk fam rdy hb hr =>
    rcases At.or h fd with ⟨d, k, ha⟩ | ⟨_, hw⟩
    · exact (no (touch_recv h ha n pk rdy fam hb hr).tab h2).elim
    · simp only [step, recv, hw] at h2; exact absurd h1 h2
  | shutdown fd how hsd =>
    exfalso
    simp only [step, shutdown] at h2
    split at h2
    · split at h2
      · rcases At.or h fd with ⟨d, k, ha⟩ | ⟨_, hw⟩
        · rw [ha.with h] at h2
          split at h2
          · exact absurd h1 h2
          · rename_i inner _ _
            have hg : ∀ g : State × Sock × Option Ret, (g = giveBack e S.s k ∨ g = (S.s, k, none)) → g.1.tab = S.s.tab := by
              rintro g (rfl | rfl)
              · exact (giveBack_same e S.s k).1.tab
              · rfl
            have hg' := hg (if k.inner.isSome = true ∧ shutReleases k.st how = true then giveBack e S.s k else (S.s, k, none)) (by
              split
              · exact .inl rfl
              · exact .inr rfl)
            generalize (if k.inner.isSome = true ∧ shutReleases k.st how = true then giveBack e S.s k else (S.s, k, none)) = g at hg' h2
            split at h2
            · exact no (s' := g.1.setS _ _) hg' h2
            · split at h2
              · rw [(dropIfLast_others _ _ _ _).1] at h2
                simp only [State.setS, upd_apply, hg'] at h2
                split at h2
                · exact h2 rfl
                · exact h2 h1
              · exact no (s' := g.1.setS _ _) hg' h2
        · rw [hw] at h2; exact absurd h1 h2
      · exact absurd h1 h2
    · exact absurd h1 h2
  | close fd =>
    exfalso
    rcases At.or h fd with ⟨d, k, ha⟩ | ⟨_, hw⟩
    · simp only [step, close] at h2; rw [ha.with h, (dropIfLast_others _ _ _ _).1] at h2
      simp only [upd_apply] at h2
      split at h2
      · exact h2 rfl
      · exact h2 h1
    · simp only [step, close, hw] at h2; exact absurd h1 h2

/-- C08, C64.  A connection accepted: the lowest free descriptor, on a new connected socket of the same kind, with the peer's
address, its own host socket and a port not in use on that address; the listening socket and everything else stay. -/
theorem accept_effect {e : Env} {S : Sys} (h : Reach e S) {fd : Nat} {d : Desc} {k : Sock} (ha : At S.s fd d k)
    (ht : k.ty.tcp = true) (hst : k.st = .listen) {peer : SA} {v : Int}
    (hfree : ∃ i < e.nfd, S.s.tab i = none)
    (hret : (step e S.s (.accept fd (.conn peer))).2.ret = .ok v) :
    ∃ (n x i : Nat) (la : SA), v = n ∧ n < e.nfd ∧ S.s.tab n = none ∧ (∀ j < n, S.s.tab j ≠ none) ∧
      (step e S.s (.accept fd (.conn peer))).2.addr = some peer ∧
      S.s.socks x = none ∧
      At (step e S.s (.accept fd (.conn peer))).1 n ⟨x, d.nb, d.clo⟩
        { ty := k.ty, st := .connected, laddr := some la, raddr := some peer, inner := some i } ∧
      (k.laddr.map Prod.fst = some la.1) ∧
      (∀ y k', S.s.socks y = some k' → k'.inner ≠ some i) ∧
      (∀ j ≠ n, (step e S.s (.accept fd (.conn peer))).1.tab j = S.s.tab j) ∧
      (∀ y ≠ x, (step e S.s (.accept fd (.conn peer))).1.socks y = S.s.socks y) := by
  simp only [step, accept] at hret ⊢
  rw [ha.with h] at hret ⊢
  cases hl : lowest e S.s with
  | none =>
    obtain ⟨i, hi, hn⟩ := hfree
    exact absurd hn (lowest_none hl i hi)
  | some nfd =>
    rw [hl] at hret
    simp only [ht, Bool.not_true, Bool.false_eq_true, if_false, hst, ne_eq, not_true_eq_false] at hret ⊢
    unfold acceptInet at hret ⊢
    cases hla : k.laddr with
    | none => simp [hla, Out.r] at hret
    | some a =>
      simp only [hla] at hret ⊢
      split at hret
      · simp [Out.r] at hret
      · rename_i hp
        rw [if_neg hp]
        cases hin : k.inner with
        | none => simp [hin, Out.r] at hret
        | some j =>
          simp only [hin] at hret ⊢
          cases hres : Ports.reserve e.devs S.s.net a.1 0 k.ty false with
          | mk n' r =>
            rw [hres] at hret
            cases r with
            | ok p =>
              simp at hret
              obtain ⟨t1, t2, t3⟩ := lowest_some hl
              have hnone : S.s.socks S.s.ns = none := by
                cases hx : S.s.socks S.s.ns with
                | none => rfl
                | some k' => have := h.inv.hlt _ _ hx; omega
              refine ⟨nfd, S.s.ns, S.s.nhost, (a.1, p.toNat), hret.symm, t1, t2, t3, rfl, hnone, ⟨by simp, by simp⟩, rfl, ?_, ?_, ?_⟩
              · intro y k' hy hi
                have := (h.inv.good y k' hy).lt _ hi
                omega
              · intro j hj; simp [upd_ne _ _ hj]
              · intro y hy; simp [upd_ne _ _ hy]
            | err er => simp [Out.r] at hret
            | panic => simp [Out.r] at hret
            | blocked => simp [Out.r] at hret

/-! ## The states of a connection -/

/-- How a call may change the state of the socket it is made on. -/
inductive Moves : Op → ConnState → ConnState → Prop
  | same (op : Op) (st : ConnState) : Moves op st st
  | connected (fd : Nat) (to : SA) (hb : Option Errno) : Moves (.connect fd to hb .ok) .notConnected .connected
  | started (fd : Nat) (to : SA) (hb : Option Errno) : Moves (.connect fd to hb .inProgress) .notConnected .inProgress
  | made (fd n : Nat) (pk : Bool) (fam : Option Bool) (hb : Option Errno) (hr : HRecv) :
      Moves (.recv fd n pk fam true hb hr) .inProgress .connected
  | listening (fd : Nat) (hb stale : Option Errno) : Moves (.listen fd hb none stale) .notConnected .listen
  | noRead (fd : Nat) (st : ConnState) (hsd : Option Errno) : st ≠ .rdOnly → Moves (.shutdown fd 0 hsd) st .wrOnly
  | noReadEither (fd : Nat) (hsd : Option Errno) : Moves (.shutdown fd 0 hsd) .rdOnly .notConnected
  | noWrite (fd : Nat) (st : ConnState) (hsd : Option Errno) : st ≠ .wrOnly → Moves (.shutdown fd 1 hsd) st .rdOnly
  | noWriteEither (fd : Nat) (hsd : Option Errno) : Moves (.shutdown fd 1 hsd) .wrOnly .notConnected
  | neither (fd : Nat) (st : ConnState) (hsd : Option Errno) : Moves (.shutdown fd 2 hsd) st .notConnected

theorem shutState_moves {fd : Nat} {how : Int} {hsd : Option Errno} {st : ConnState} (h : how = 0 ∨ how = 1 ∨ how = 2) :
    Moves (.shutdown fd how hsd) st (shutState st how) := by
  rcases h with rfl | rfl | rfl
  · by_cases hs : st = .rdOnly
    · subst hs; exact .noReadEither _ _
    · simp only [shutState, if_true, if_neg hs]; exact .noRead _ _ _ hs
  · by_cases hs : st = .wrOnly
    · subst hs; exact .noWriteEither _ _
    · simp [shutState, hs]; exact .noWrite _ _ _ hs
  · simp [shutState]; exact .neither _ _ _

theorem step_moves {e : Env} {S : Sys} (h : Reach e S) (op : Op) {x : Nat} {k k' : Sock} (hk : S.s.socks x = some k)
    (hk' : (step e S.s op).1.socks x = some k') : k'.ty = k.ty ∧ Moves op k.st k'.st := by
  by_cases hx : ∀ fd d, op.on = some fd → S.s.tab fd = some d → d.h ≠ x
  · have := (others_untouched h op).2 x k hk hx
    rw [this] at hk'; cases hk'
    exact ⟨rfl, .same _ _⟩
  · have hx : ∃ fd d, op.on = some fd ∧ S.s.tab fd = some d ∧ d.h = x := by
      false_or_by_contra; rename_i hn
      exact hx fun fd d h1 h2 h3 => hn ⟨fd, d, h1, h2, h3⟩
    obtain ⟨fd, d, hon, htab, rfl⟩ := hx
    have ha : At S.s fd d k := ⟨htab, hk⟩
    have use : ∀ {P : Sock → Prop}, Touch S.s d.h k (step e S.s op).1 P → k'.ty = k.ty ∧ P k' := by
      intro P ht
      obtain ⟨k'', h1, h2, h3⟩ := ht.here
      rw [hk'] at h1; cases h1
      exact ⟨h2, h3⟩
    have stays : (step e S.s op).1.socks d.h = S.s.socks d.h → k'.ty = k.ty ∧ Moves op k.st k'.st := by
      intro he
      rw [he, hk] at hk'; cases hk'
      exact ⟨rfl, .same _ _⟩
    have eq : k'.ty = k.ty ∧ k'.st = k.st → k'.ty = k.ty ∧ Moves op k.st k'.st := fun he => ⟨he.1, he.2 ▸ .same _ _⟩
    cases op with
    | socket v6 tcp nb clo => cases hon
    | setReuse fd' =>
      cases hon
      have : Touch S.s d.h k (step e S.s (.setReuse fd)).1 (fun k' => k'.st = k.st) := by
        simp only [step, setReuse]; rw [ha.with h]
        exact .set (.refl _ _) rfl rfl
      exact eq (use this)
    | dup fd' =>
      cases hon
      refine stays ?_
      simp only [step, dup]; rw [ha.with h]
      split <;> rfl
    | bind fd' to hb => cases hon; have hu := use (touch_bind h ha to hb); exact eq ⟨hu.1, hu.2.1⟩
    | connect fd' to hb hc =>
      cases hon
      rcases use (touch_connect h ha to hb hc) with ⟨h0, ⟨h1, _⟩ | ⟨h1, _, _, ⟨_, rfl, h2⟩ | ⟨_, rfl, h2⟩⟩⟩
      · exact eq ⟨h0, h1⟩
      · rw [h1, h2]; exact ⟨h0, .connected _ _ _⟩
      · rw [h1, h2]; exact ⟨h0, .started _ _ _⟩
    | listen fd' hb hl stale =>
      cases hon
      rcases use (touch_listen h ha hb hl stale) with ⟨h0, _, h1 | ⟨h1, _, h2, rfl, _⟩⟩
      · exact eq ⟨h0, h1⟩
      · rw [h1, h2]; exact ⟨h0, .listening _ _ _⟩
    | accept fd' hh =>
      cases hon
      refine stays ?_
      have hne : d.h ≠ S.s.ns := by have := h.inv.hlt _ _ hk; omega
      simp only [step, accept]; rw [ha.with h]
      unfold acceptInet
      repeat' split
      all_goals first | rfl | exact upd_ne _ _ hne
    | send fd' data hb hs => cases hon; have hu := use (touch_send h ha data hb hs); exact eq ⟨hu.1, hu.2.1⟩
    | sendto fd' data to hb hs => cases hon; have hu := use (touch_sendto h ha data to hb hs); exact eq ⟨hu.1, hu.2.1⟩
    | recv fd' n pk fam rdy hb hr =>
      cases hon
      rcases use (touch_recv h ha n pk rdy fam hb hr) with ⟨h0, _, h1 | ⟨h1, rfl, h2⟩⟩
      · exact eq ⟨h0, h1⟩
      · rw [h1, h2]; exact ⟨h0, .made _ _ _ _ _ _⟩
    | shutdown fd' how hsd =>
      cases hon
      have hlt := (h.inv.tab fd d htab).1
      simp only [step, shutdown, if_pos hlt] at hk'
      split at hk'
      · rename_i hhow
        rw [ha.with h] at hk'
        split at hk'
        · rw [hk] at hk'; cases hk'; exact ⟨rfl, .same _ _⟩
        · have hg : ∀ g : State × Sock × Option Ret, (g = giveBack e S.s k ∨ g = (S.s, k, none)) → g.2.1.ty = k.ty ∧ g.2.1.st = k.st := by
            rintro g (rfl | rfl)
            · rw [(giveBack_same e S.s k).2.2]; exact ⟨rfl, rfl⟩
            · exact ⟨rfl, rfl⟩
          have hg' := hg (if k.inner.isSome = true ∧ shutReleases k.st how = true then giveBack e S.s k else (S.s, k, none)) (by
            split
            · exact .inl rfl
            · exact .inr rfl)
          generalize (if k.inner.isSome = true ∧ shutReleases k.st how = true then giveBack e S.s k else (S.s, k, none)) = g at hg' hk'
          split at hk'
          · simp [State.setS] at hk'; rw [← hk'] at eq ⊢; exact eq hg'
          · split at hk'
            · rcases dropIfLast_here e { (g.1.setS d.h { g.2.1 with st := shutState k.st how }) with tab := upd (g.1.setS d.h { g.2.1 with st := shutState k.st how }).tab fd none } d.h (.ok 0) with h1 | h1
              · rw [h1] at hk'; cases hk'
              · rw [h1] at hk'
                simp [State.setS] at hk'
                rw [← hk']; exact ⟨hg'.1, shutState_moves hhow⟩
            · simp [State.setS] at hk'; rw [← hk']; exact ⟨hg'.1, shutState_moves hhow⟩
      · rw [hk] at hk'; cases hk'; exact ⟨rfl, .same _ _⟩
    | close fd' =>
      cases hon
      simp only [step, close] at hk'; rw [ha.with h] at hk'
      rcases dropIfLast_here e { S.s with tab := upd S.s.tab fd none } d.h (.ok 0) with h1 | h1
      · rw [h1] at hk'; cases hk'
      · rw [h1, hk] at hk'; cases hk'; exact ⟨rfl, .same _ _⟩

/-- C49, C64.  The state of a connection changes only by a call on that socket, in the ways listed in `Moves`. -/
theorem state_moves {e : Env} {S : Sys} (h : Reach e S) (op : Op) {x : Nat} {k k' : Sock} (hk : S.s.socks x = some k)
    (hk' : (step e S.s op).1.socks x = some k') : Moves op k.st k'.st := (step_moves h op hk hk').2

/-- The state after a history of calls. -/
def Sys.run (e : Env) (S : Sys) (ops : List Op) : Sys := ops.foldl (Sys.step e) S

theorem Reach.run {e : Env} {S : Sys} (h : Reach e S) (ops : List Op) : Reach e (S.run e ops) := by
  induction ops generalizing S with
  | nil => exact h
  | cons op ops ih => exact ih (h.step op)

def Op.isShutdown : Op → Bool
  | .shutdown _ _ _ => true
  | .socket _ _ _ _ => false
  | .setReuse _ => false
  | .dup _ => false
  | .bind _ _ _ => false
  | .connect _ _ _ _ => false
  | .listen _ _ _ _ => false
  | .accept _ _ => false
  | .send _ _ _ _ => false
  | .sendto _ _ _ _ _ => false
  | .recv _ _ _ _ _ _ _ => false
  | .close _ => false

/-- C49, C64.  A direction that was shut down stays shut, as long as `shutdown` is not called again (`reopened_violated`), and
so do a made connection and a listening socket stay what they are: whatever calls are made on whatever descriptors, the socket
is gone or its state is the same. -/
theorem state_stays_partial {e : Env} {S : Sys} (h : Reach e S) {x : Nat} {k : Sock} (hk : S.s.socks x = some k)
    (hst : k.st = .connected ∨ k.st = .rdOnly ∨ k.st = .wrOnly ∨ k.st = .listen) (ops : List Op)
    (hops : ∀ op ∈ ops, op.isShutdown = false) :
    (S.run e ops).s.socks x = none ∨ ∃ k', (S.run e ops).s.socks x = some k' ∧ k'.st = k.st ∧ k'.ty = k.ty := by
  have gone : ∀ (ops : List Op) (S : Sys), Reach e S → x < S.s.ns → S.s.socks x = none → (S.run e ops).s.socks x = none := by
    intro ops
    induction ops with
    | nil => intro S _ _ h; exact h
    | cons op ops ih =>
      intro S h hlt hn
      have hf := step_frame h op
      refine ih (S.step e op) (h.step op) (Nat.lt_of_lt_of_le hlt hf.ns) ?_
      refine (hf.socks x hlt ?_).trans hn
      intro fd d _ h2 h3
      exact (h.inv.tab fd d h2).2 (h3 ▸ hn)
  induction ops generalizing S k with
  | nil => exact .inr ⟨k, hk, rfl, rfl⟩
  | cons op ops ih =>
    cases hk' : (step e S.s op).1.socks x with
    | none =>
      exact .inl (gone ops (S.step e op) (h.step op) (Nat.lt_of_lt_of_le (h.inv.hlt x k hk) (step_frame h op).ns) hk')
    | some k1 =>
      have hm := step_moves h op hk hk'
      have hop := hops op (by simp)
      have hs : k1.st = k.st := by
        have h1 := hm.2
        generalize k.st = a at h1 hst ⊢
        generalize k1.st = b at h1 ⊢
        cases h1 <;> simp_all [Op.isShutdown]
      rcases ih (h.step op) hk' (by rw [hs]; exact hst) (fun o ho => hops o (by simp [ho])) with h1 | ⟨k2, h1, h2, h3⟩
      · exact .inl h1
      · exact .inr ⟨k2, h1, h2.trans hs, h3.trans hm.1⟩

/-- C49.  After `shutdown` of the reading side of a connection, no `recv` on any descriptor of the socket returns anything,
whatever is called in between except `shutdown`; after that of the writing side no `send` passes anything to the host. -/
theorem shut_refuses_partial {e : Env} {S : Sys} (h : Reach e S) {x : Nat} {k : Sock} (hk : S.s.socks x = some k)
    (ht : k.ty.tcp = true) (ops : List Op) (hops : ∀ op ∈ ops, op.isShutdown = false) {fd : Nat}
    (hfd : sockOf (S.run e ops).s fd = some x) :
    (k.st = .wrOnly → ∀ n pk fam rdy hb hr, step e (S.run e ops).s (.recv fd n pk fam rdy hb hr) =
      ((S.run e ops).s, { ret := .err .ENOTCONN })) ∧
    (k.st = .rdOnly → ∀ data hb hs, step e (S.run e ops).s (.send fd data hb hs) = ((S.run e ops).s, { ret := .err .ENOTCONN })) := by
  have hr := h.run ops
  obtain ⟨d, hd, rfl⟩ := Option.map_eq_some_iff.1 hfd
  constructor
  · intro hst n pk fam rdy hb hr'
    rcases state_stays_partial h hk (.inr (.inr (.inl hst))) ops hops with h1 | ⟨k', h1, h2, h3⟩
    · exact absurd h1 (hr.inv.tab fd d hd).2
    · exact recv_needs hr ⟨hd, h1⟩ (by rw [h3]; exact ht) (by rw [h2, hst]; simp) n pk rdy (by rw [h2, hst]; simp) fam hb hr'
  · intro hst data hb hs
    rcases state_stays_partial h hk (.inr (.inl hst)) ops hops with h1 | ⟨k', h1, h2, h3⟩
    · exact absurd h1 (hr.inv.tab fd d hd).2
    · exact send_needs hr ⟨hd, h1⟩ (by rw [h3]; exact ht) (by rw [h2, hst]; simp) data hb hs

/-- C64.  `close` frees the number; the socket lives exactly as long as a descriptor leads to it. -/
theorem close_effect {e : Env} {S : Sys} (h : Reach e S) {fd : Nat} {d : Desc} {k : Sock} (ha : At S.s fd d k) :
    (step e S.s (.close fd)).1.tab fd = none ∧
    ((step e S.s (.close fd)).1.socks d.h = none ↔ ∀ fd' d', S.s.tab fd' = some d' → d'.h = d.h → fd' = fd) := by
  simp only [step, close]; rw [ha.with h]
  have ht : ∀ x dx, (upd S.s.tab fd none) x = some dx → x < e.nfd := by
    intro x dx hx
    simp only [upd_apply] at hx
    split at hx
    · simp at hx
    · exact (h.inv.tab x dx hx).1
  refine ⟨by rw [(dropIfLast_others _ _ _ _).1]; simp, ?_⟩
  have hr := refd_iff (e := e) (s := { S.s with tab := upd S.s.tab fd none }) (h := d.h) ht
  unfold dropIfLast
  split
  · rename_i hre
    obtain ⟨x, dx, h1, h2⟩ := hr.1 hre
    simp only [upd_apply] at h1
    split at h1
    · simp at h1
    · rename_i hne
      constructor
      · intro hn; simp [ha.sock] at hn
      · intro hall; exact absurd (hall x dx h1 h2) hne
  · rename_i hre
    have hall : ∀ fd' d', S.s.tab fd' = some d' → d'.h = d.h → fd' = fd := by
      intro fd' d' h1 h2
      false_or_by_contra; rename_i hne
      exact hre (hr.2 ⟨fd', d', by simp [upd_ne _ _ hne, h1], h2⟩)
    refine ⟨fun _ => hall, fun _ => ?_⟩
    split
    · rename_i h1; exact h1
    · split <;> simp

/-- C64.  A socket exists exactly as long as some descriptor leads to it. -/
theorem socket_lives {e : Env} {S : Sys} (h : Reach e S) (x : Nat) :
    S.s.socks x ≠ none ↔ ∃ fd, sockOf S.s fd = some x := by
  constructor
  · intro hx
    obtain ⟨k, hk⟩ := Option.ne_none_iff_exists'.1 hx
    obtain ⟨fd, d, h1, h2⟩ := h.inv.live x k hk
    exact ⟨fd, by simp [sockOf, h1, h2]⟩
  · rintro ⟨fd, hfd⟩
    obtain ⟨d, hd, rfl⟩ := Option.map_eq_some_iff.1 hfd
    exact (h.inv.tab fd d hd).2

/-! ## Aborts -/

/-- When a call aborts the program. -/
inductive Aborts (e : Env) (s : State) : Op → Prop
  /-- the number is not one of a descriptor -/
  | badFd (op : Op) (fd : Nat) : op.on = some fd → e.nfd ≤ fd → Aborts e s op
  /-- `send` on a stream socket whose reading side was shut down before it was ever bound or connected -/
  | send (fd : Nat) (d : Desc) (k : Sock) (data : List UInt8) (hb : Option Errno) (hs : HSend) : At s fd d k → k.ty.tcp = true →
      k.st = .wrOnly → k.inner = none → Aborts e s (.send fd data hb hs)
  | sendto (fd : Nat) (d : Desc) (k : Sock) (data : List UInt8) (to : SA) (hb : Option Errno) (hs : HSend) : At s fd d k →
      k.ty.tcp = true → nowhere to = true → k.st = .wrOnly → k.inner = none → Aborts e s (.sendto fd data to hb hs)
  /-- `recv` on a stream socket whose writing side was shut down before it was ever bound or connected -/
  | recv (fd n : Nat) (d : Desc) (k : Sock) (pk rdy : Bool) (fam : Option Bool) (hb : Option Errno) (hr : HRecv) : At s fd d k →
      k.ty.tcp = true → k.st = .rdOnly → k.inner = none → Aborts e s (.recv fd n pk fam rdy hb hr)
  /-- `send` on a datagram socket connected to the unspecified address with port 0 -/
  | sendNowhere (fd : Nat) (d : Desc) (k : Sock) (to : SA) (data : List UInt8) (hb : Option Errno) (hs : HSend) : At s fd d k →
      k.ty.tcp = false → k.raddr = some to → nowhere to = true → Aborts e s (.send fd data hb hs)
  | sendtoNowhere (fd : Nat) (d : Desc) (k : Sock) (to to' : SA) (data : List UInt8) (hb : Option Errno) (hs : HSend) :
      At s fd d k → k.ty.tcp = false → k.raddr = some to → nowhere to = true → nowhere to' = true →
      Aborts e s (.sendto fd data to' hb hs)
  /-- no port for a listening socket, and an unknown error number left by an earlier call -/
  | listen (fd : Nat) (d : Desc) (k : Sock) (hb hl : Option Errno) : At s fd d k → k.ty.tcp = true → k.st = .notConnected →
      k.laddr = none → Aborts e s (.listen fd hb hl none)
  /-- a listening socket whose address was taken away, or was never entered in the table of pending connections -/
  | accept (fd : Nat) (d : Desc) (k : Sock) (ha : HAcc) : At s fd d k → k.st = .listen →
      (∀ a, k.laddr = some a → (a, k.ty) ∉ s.pend) → Aborts e s (.accept fd ha)
  /-- giving back the port aborts -/
  | close (fd : Nat) (d : Desc) (k : Sock) (a : SA) : At s fd d k → k.laddr = some a →
      (Ports.release e.devs s.net a.1 a.2 k.ty).2 = .panic → Aborts e s (.close fd)
  | shutdown (fd : Nat) (how : Int) (hsd : Option Errno) (d : Desc) (k : Sock) (a : SA) : At s fd d k → k.laddr = some a →
      (Ports.release e.devs s.net a.1 a.2 k.ty).2 = .panic → Aborts e s (.shutdown fd how hsd)

/-- C58.  A call on an internet socket aborts the program only in the situations listed in `Aborts`. -/
theorem aborts_only {e : Env} {S : Sys} (h : Reach e S) (op : Op) (hp : (step e S.s op).2.ret = .panic) : Aborts e S.s op := by
  have bad : ∀ (fd : Nat) f, (¬ ∃ d k, At S.s fd d k) → (withSock e S.s fd f).2.ret = .panic → op.on = some fd → Aborts e S.s op := by
    intro fd f hn hw hon
    rcases At.or h fd with ⟨d, k, ha⟩ | ⟨_, hw'⟩
    · exact absurd ⟨d, k, ha⟩ hn
    · rw [hw'] at hw
      split at hw
      · simp [Out.r] at hw
      · exact .badFd op fd hon (by omega)
  have hostS : ∀ {s1 : State} {d : Desc} {k1 : Sock} {data : List UInt8} {to : Option SA} {hs : HSend},
      (hostSend s1 d k1 data to hs).2.ret = .panic → k1.inner = none := by
    intro s1 d k1 data to hs hx
    unfold hostSend at hx
    split at hx
    · assumption
    · exact absurd hx (sret_ne hs)
  have sendA : ∀ {fd d k data to hb hs}, At S.s fd d k → (sendtoAddr e S.s fd data to hb hs).2.ret ≠ .panic := by
    intro fd d k data to hb hs ha hx
    unfold sendtoAddr at hx
    rw [ha.with h] at hx
    split at hx
    · simp [Out.r] at hx
    · split at hx
      · simp [Out.r] at hx
      · split at hx
        · simp [Out.r] at hx
        · dsimp only at hx
          split at hx
          · rename_i hib
            exact (implicitBind_ok (h.inv.good _ _ ha.sock).laddr hib).2 (hostS hx)
          · rename_i hib
            exact implicitBind_ne hib hx
  have sendP : ∀ {fd d k data hb hs}, At S.s fd d k → (send e S.s fd data hb hs).2.ret = .panic →
      (k.ty.tcp = true ∧ k.st = .wrOnly ∧ k.inner = none) ∨ (k.ty.tcp = false ∧ ∃ to, k.raddr = some to ∧ nowhere to = true) := by
    intro fd d k data hb hs ha hx
    unfold send at hx
    rw [ha.with h] at hx
    split at hx
    · rename_i ht
      split at hx
      · simp [Out.r] at hx
      · rename_i hst
        have hin := hostS hx
        refine .inl ⟨ht, ?_, hin⟩
        false_or_by_contra; rename_i hw
        have hc : k.st = .connected := by
          false_or_by_contra; rename_i hc
          exact hst ⟨hc, hw⟩
        exact ((h.inv.good _ _ ha.sock).conn (.inl hc)).2 hin
    · rename_i ht
      refine .inr ⟨by simpa using ht, ?_⟩
      cases hra : k.raddr with
      | none => simp [hra, Out.r] at hx
      | some to =>
        simp only [hra] at hx
        split at hx
        · rename_i hn; exact ⟨to, rfl, hn⟩
        · exact absurd hx (sendA ha)
  cases op with
  | socket v6 tcp nb clo =>
    simp only [step, socket] at hp
    split at hp <;> simp [Out.r] at hp
  | setReuse fd =>
    by_cases ha : ∃ d k, At S.s fd d k
    · obtain ⟨d, k, ha⟩ := ha
      simp only [step, setReuse] at hp; rw [ha.with h] at hp
      simp [Out.r] at hp
    · exact bad fd _ ha hp rfl
  | dup fd =>
    by_cases ha : ∃ d k, At S.s fd d k
    · obtain ⟨d, k, ha⟩ := ha
      simp only [step, dup] at hp; rw [ha.with h] at hp
      split at hp <;> simp [Out.r] at hp
    · exact bad fd _ ha hp rfl
  | bind fd to hb =>
    by_cases ha : ∃ d k, At S.s fd d k
    · obtain ⟨d, k, ha⟩ := ha
      simp only [step, bind] at hp; rw [ha.with h] at hp
      exact absurd hp (bindInner_ne e S.s k to false hb)
    · exact bad fd _ ha hp rfl
  | connect fd to hb hc =>
    by_cases ha : ∃ d k, At S.s fd d k
    · obtain ⟨d, k, ha⟩ := ha
      exfalso
      simp only [step, connect] at hp; rw [ha.with h] at hp
      split at hp
      · simp [Out.r] at hp
      · split at hp
        · unfold connectTcp at hp
          split at hp
          · simp [Out.r] at hp
          · split at hp
            · rename_i a hl
              exact connectHost_ne ((h.inv.good _ _ ha.sock).laddr (by simp [hl])) hp
            · dsimp only at hp
              split at hp
              · rename_i hx; exact absurd hx assignAddr_ne
              · simp [Out.r] at hp
              · split at hp
                · simp [Out.r] at hp
                · exact connectHost_ne (force_inner _ _) hp
        · unfold connectUdp at hp
          dsimp only [Out.r] at hp
          split at hp
          · simp at hp
          · rename_i hib; exact implicitBind_ne hib hp
    · exact bad fd _ ha hp rfl
  | listen fd hb hl stale =>
    by_cases ha : ∃ d k, At S.s fd d k
    · obtain ⟨d, k, ha⟩ := ha
      simp only [step, listen] at hp; rw [ha.with h] at hp
      cases hst : k.st <;> simp only [hst] at hp
      · split at hp
        · rename_i ht
          split at hp
          · rename_i hib
            exfalso
            obtain ⟨h1, h2⟩ := implicitBind_ok (h.inv.good _ _ ha.sock).laddr hib
            unfold listenHost at hp
            split at hp
            · rename_i hx; exact h1 hx
            · split at hp
              · rename_i hx; exact h2 hx
              · split at hp <;> simp [Out.r] at hp
          · rename_i hib; exact absurd hp (implicitBind_ne hib)
          · rename_i hib
            have hla := implicitBind_some (e := e) (s := S.s) (k := k) (v6 := k.ty.v6) (hb := hb) (by rw [hib]; simp)
            cases stale with
            | some er => simp [Out.r] at hp
            | none => exact .listen fd d k hb hl ha ht hst hla
        · simp [Out.r] at hp
      all_goals simp [Out.r] at hp
    · exact bad fd _ ha hp rfl
  | accept fd hh =>
    by_cases ha : ∃ d k, At S.s fd d k
    · obtain ⟨d, k, ha⟩ := ha
      simp only [step, accept] at hp; rw [ha.with h] at hp
      split at hp
      · simp [Out.r] at hp
      · split at hp
        · simp [Out.r] at hp
        · split at hp
          · simp [Out.r] at hp
          · rename_i hst
            have hst : k.st = .listen := by simpa using hst
            refine .accept fd d k hh ha hst ?_
            intro a hl hmem
            unfold acceptInet at hp
            simp only [hl] at hp
            rw [if_neg (by simpa using hmem)] at hp
            split at hp
            · rename_i hin
              exact ((h.inv.good _ _ ha.sock).conn (.inr (.inl hst))).2 hin
            · split at hp
              · split at hp <;> simp [Out.r] at hp
              · have hk := reserve_kind e.devs S.s.net a.1 0 k.ty false
                split at hp
                · simp at hp
                · rename_i hx
                  rw [hx] at hk
                  simp [Out.r] at hp
                  simp [hp] at hk
    · exact bad fd _ ha hp rfl
  | send fd data hb hs =>
    by_cases ha : ∃ d k, At S.s fd d k
    · obtain ⟨d, k, ha⟩ := ha
      rcases sendP ha hp with ⟨h1, h2, h3⟩ | ⟨h1, to, h2, h3⟩
      · exact .send fd d k data hb hs ha h1 h2 h3
      · exact .sendNowhere fd d k to data hb hs ha h1 h2 h3
    · exact bad fd _ ha hp rfl
  | sendto fd data to hb hs =>
    by_cases ha : ∃ d k, At S.s fd d k
    · obtain ⟨d, k, ha⟩ := ha
      simp only [step, sendto] at hp
      split at hp
      · rename_i hn
        rcases sendP ha hp with ⟨h1, h2, h3⟩ | ⟨h1, to', h2, h3⟩
        · exact .sendto fd d k data to hb hs ha h1 hn h2 h3
        · exact .sendtoNowhere fd d k to' to data hb hs ha h1 h2 h3 hn
      · exact absurd hp (sendA ha)
    · simp only [step, sendto] at hp
      split at hp
      · exact bad fd _ ha hp rfl
      · exact bad fd _ ha hp rfl
  | recv fd n pk fam rdy hb hr =>
    by_cases ha : ∃ d k, At S.s fd d k
    · obtain ⟨d, k, ha⟩ := ha
      have hg := h.inv.good _ _ ha.sock
      simp only [step, recv] at hp; rw [ha.with h] at hp
      split at hp
      · rename_i ht
        split at hp
        · rename_i hse
          exfalso
          unfold settle at hse
          split at hse
          · rename_i hst
            split at hse
            · rename_i hin; exact (hg.conn (.inr (.inr hst))).2 hin
            · simp at hse
          · simp at hse
        · rename_i k' hse
          split at hp
          · simp [Out.r] at hp
          · rename_i hst
            have hin : k'.inner = none := by
              unfold recvTcp at hp
              dsimp only at hp
              split at hp
              · simp at hp
              · split at hp
                · assumption
                · exfalso
                  repeat' split at hp
                  all_goals simp [Out.r] at hp
            rcases settle_some hse with rfl | ⟨h1, rfl⟩
            · refine .recv fd n d k' pk rdy fam hb hr ha ht ?_ hin
              false_or_by_contra; rename_i hw
              have hc : k'.st = .connected := by
                false_or_by_contra; rename_i hc
                exact hst ⟨hc, hw⟩
              exact (hg.conn (.inl hc)).2 hin
            · exact absurd hin (hg.conn (.inr (.inr h1))).2
      · exfalso
        unfold recvUdp at hp
        dsimp only at hp
        split at hp
        · rename_i hib; exact implicitBind_ne hib hp
        · rename_i hib
          split at hp
          · rename_i hin; exact (implicitBind_ok hg.laddr hib).2 hin
          · split at hp
            · split at hp <;> simp [Out.r] at hp
            · simp at hp
    · exact bad fd _ ha hp rfl
  | shutdown fd how hsd =>
    simp only [step, shutdown] at hp
    split at hp
    · split at hp
      · by_cases ha : ∃ d k, At S.s fd d k
        · obtain ⟨d, k, ha⟩ := ha
          rw [ha.with h] at hp
          split at hp
          · simp [Out.r] at hp
          · have hsame := giveBack_same e S.s k
            by_cases hc : k.inner.isSome = true ∧ shutReleases k.st how = true
            · simp only [if_pos hc] at hp
              split at hp
              · rename_i r hr
                simp only [Out.r] at hp
                obtain ⟨a, h1, h2⟩ := giveBack_panic (hp ▸ hr)
                exact .shutdown fd how _ d k a ha h1 h2
              · rename_i hr
                split at hp
                · obtain ⟨k2, a, h1, h2, _⟩ := dropIfLast_panic (by simp) hp
                  simp only [State.setS, upd_same, Option.some.injEq] at h1
                  rw [← h1] at h2
                  simp only at h2
                  rw [hsame.2.2] at h2
                  simp at h2
                · simp [Out.r] at hp
            · simp only [if_neg hc] at hp
              split at hp
              · obtain ⟨k2, a, h1, h2, h3⟩ := dropIfLast_panic (by simp) hp
                simp only [State.setS, upd_same, Option.some.injEq] at h1
                rw [← h1] at h2 h3
                exact .shutdown fd how _ d k a ha h2 h3
              · simp [Out.r] at hp
        · exact bad fd _ ha hp rfl
      · simp [Out.r] at hp
    · simp [Out.r] at hp
  | close fd =>
    by_cases ha : ∃ d k, At S.s fd d k
    · obtain ⟨d, k, ha⟩ := ha
      simp only [step, close] at hp; rw [ha.with h] at hp
      obtain ⟨k2, a, h1, h2, h3⟩ := dropIfLast_panic (by simp) hp
      simp only [ha.sock, Option.some.injEq] at h1
      subst h1
      exact .close fd d k a ha h2 h3
    · exact bad fd _ ha hp rfl

end Verif.InetSock
