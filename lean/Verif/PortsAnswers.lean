import Verif.PortsProps
import Verif.InetSockWitness

/-! What `bind` and closing make of a socket and of the table of ports, and which calls may wait. -/

namespace Verif.Ports

/-- What a granted reservation is: the port asked for, or for port 0 one of the range 32768 to 60999 (in network byte order); it is in the
table afterwards, and no other port changes. -/
theorem reserve_granted {devs : List Addr} {n n' : Net} {a : Addr} {port : Nat} {ty : PType} {reb : Bool} {v : Int}
    (h : reserve devs n a port ty reb = (n', .ok v)) :
    ∃ p : Nat, v = p ∧ (port ≠ 0 → p = port) ∧ a ∈ devs ∧ n'.used ⟨p, ty⟩ ≠ none ∧
      (∀ k, k ≠ ⟨p, ty⟩ → n'.used k = n.used k) ∧
      (port = 0 → ephStart ≤ n.next ty → n.next ty ≤ ephEnd → ∃ q, 32768 ≤ q ∧ q ≤ 60999 ∧ p = (q % 256) * 256 + q / 256) := by
  unfold reserve at h
  by_cases hd : a ∈ devs
  case neg => simp [hd] at h
  rw [if_neg (by simpa using hd)] at h
  by_cases h0 : port = 0
  · rw [if_pos h0] at h
    unfold ephemeral at h
    rw [if_neg (by simpa using hd)] at h
    split at h
    · simp at h
    · rename_i q hq
      simp only [Prod.mk.injEq, Ret.ok.injEq] at h
      obtain ⟨rfl, rfl⟩ := h
      have hs := List.find?_some hq
      refine ⟨swap16 q, rfl, fun h => absurd h0 h, hd, ?_, ?_, ?_⟩
      · intro hn
        simp only [updK, if_pos] at hn
        rw [hn] at hs
        simp at hs
      · intro k hk
        simp [updK, hk]
      · intro _ h1 h2
        have hm := List.mem_of_find?_eq_some hq
        have := (candidates_mem (q := q) h1 h2).1 hm
        exact ⟨q, this.1, this.2, rfl⟩
  · rw [if_neg h0] at h
    have fin : ∀ u : Users, ({ n with used := updK n.used ⟨port, ty⟩ (some u) }, Ret.ok (port : Int)) = (n', .ok v) →
        ∃ p : Nat, v = p ∧ (port ≠ 0 → p = port) ∧ a ∈ devs ∧ n'.used ⟨p, ty⟩ ≠ none ∧
          (∀ k, k ≠ ⟨p, ty⟩ → n'.used k = n.used k) ∧
          (port = 0 → ephStart ≤ n.next ty → n.next ty ≤ ephEnd → ∃ q, 32768 ≤ q ∧ q ≤ 60999 ∧ p = (q % 256) * 256 + q / 256) := by
      intro u hu
      simp only [Prod.mk.injEq, Ret.ok.injEq] at hu
      obtain ⟨rfl, rfl⟩ := hu
      exact ⟨port, rfl, fun _ => rfl, hd, by simp [updK], fun k hk => by simp [updK, hk], fun h => absurd h h0⟩
    simp only at h
    split at h
    · split at h
      · simp at h
      · exact fin _ h
    · split at h
      · split at h
        · simp at h
        · exact fin _ h
      · exact fin _ h

/-- C32.  A bound socket cannot be bound again: EINVAL, and neither the table nor the socket changes. -/
theorem bind_bound {devs : List Addr} {n : Net} {s : Sock} (h : s.localaddr ≠ none) (a : Addr) (port : Nat) (host : Option Errno) :
    bind devs n s a port host = (n, s, .err .EINVAL) := by
  unfold bind
  rcases Option.eq_none_or_eq_some s.localaddr with h' | ⟨_, h'⟩
  · exact absurd h' h
  · rw [h']

/-- C32.  A successful bind: the socket has the address asked for with a port that is in the table (the one asked for, unless
that is 0), and nothing else in the table or of the socket changes. -/
theorem bind_done {devs : List Addr} {n n' : Net} {s s' : Sock} {a : Addr} {port : Nat} {host : Option Errno} {v : Int}
    (h : bind devs n s a port host = (n', s', .ok v)) :
    ∃ p : Nat, v = 0 ∧ s' = { s with localaddr := some (a, p) } ∧ (port ≠ 0 → p = port) ∧ a ∈ devs ∧ n'.used ⟨p, s.ty⟩ ≠ none ∧
      s.localaddr = none ∧ ∀ k, k ≠ ⟨p, s.ty⟩ → n'.used k = n.used k := by
  unfold bind at h
  cases hl : s.localaddr with
  | some _ => rw [hl] at h; simp at h
  | none =>
    rw [hl] at h
    simp only at h
    cases hr : reserve devs n a port s.ty s.reuse with
    | mk n1 r =>
      rw [hr] at h
      cases r with
      | ok p =>
        obtain ⟨q, rfl, h1, h2, h3, h4, _⟩ := reserve_granted hr
        cases host with
        | some e => simp at h
        | none =>
          simp only [Prod.mk.injEq, Ret.ok.injEq] at h
          obtain ⟨rfl, rfl, rfl⟩ := h
          exact ⟨q, rfl, rfl, h1, h2, h3, rfl, h4⟩
      | err e => simp at h
      | panic => simp at h
      | blocked => simp at h

/-- C32.  Closing the last descriptor forgets the address, whatever the answer, and nothing else of the socket; without an address it does not touch the
table. -/
theorem close_forgets (devs : List Addr) (n : Net) (s : Sock) :
    (closeSock devs n s).2.1 = { s with localaddr := none } ∧ (s.localaddr = none → closeSock devs n s = (n, s, .ok 0)) ∧
      (∀ k, (∀ a p, s.localaddr = some (a, p) → k ≠ ⟨p, s.ty⟩) → (closeSock devs n s).1.used k = n.used k) := by
  have hrel : ∀ (a : Addr) (p : Nat) (k : Key), k ≠ ⟨p, s.ty⟩ → (release devs n a p s.ty).1.used k = n.used k := by
    intro a p k hk
    unfold release
    split
    · rfl
    · simp only
      split
      · rfl
      · split
        · split
          · rfl
          · simp [updK, hk]
        · split
          · rfl
          · split
            · split <;> simp [updK, hk]
            · simp [updK, hk]
  obtain ⟨ty, reuse, la⟩ := s
  cases la with
  | none => exact ⟨rfl, fun _ => rfl, fun _ _ => rfl⟩
  | some x =>
    refine ⟨rfl, fun h => by simp at h, fun k hk => ?_⟩
    exact hrel x.1 x.2 k (hk x.1 x.2 rfl)

example : (bind devices .init { ty := tcp4, reuse := false } loop4 80 none).2 =
      ({ ty := tcp4, reuse := false, localaddr := some (loop4, 80) }, .ok 0) ∧
    (closeSock devices (bind devices .init { ty := tcp4, reuse := false } loop4 80 none).1
      { ty := tcp4, reuse := false, localaddr := some (loop4, 80) }).2 = ({ ty := tcp4, reuse := false }, .ok 0) := by
  decide +kernel

end Verif.Ports

namespace Verif.InetSock

open Verif.Ports (Addr PType Net)

/-- C32, C49.  A successful `bind`: the socket has the address asked for with the port the table granted (the one asked for, unless
that is 0), and a socket of the host; only this port enters the table, and nothing else of the socket changes. -/
theorem bind_effect {e : Env} {S : Sys} (h : Reach e S) {fd : Nat} {d : Desc} {k : Sock} (ha : At S.s fd d k) {to : SA} {hb : Option Errno} {v : Int}
    (hret : (step e S.s (.bind fd to hb)).2.ret = .ok v) :
    v = 0 ∧ to.1.v6 = k.ty.v6 ∧ k.laddr = none ∧ hb = none ∧ ∃ (p i : Nat),
      (step e S.s (.bind fd to hb)).1.socks d.h = some { k with laddr := some (to.1, p), inner := some i } ∧
      (k.inner ≠ none → k.inner = some i) ∧ (to.2 ≠ 0 → p = to.2) ∧ to.1 ∈ e.devs ∧
      (step e S.s (.bind fd to hb)).1.net.used ⟨p, k.ty⟩ ≠ none ∧
      (∀ q, q ≠ ⟨p, k.ty⟩ → (step e S.s (.bind fd to hb)).1.net.used q = S.s.net.used q) := by
  simp only [step, bind] at hret ⊢
  rw [ha.with h] at hret ⊢
  simp only [Out.r] at hret ⊢
  by_cases hv : to.1.v6 = k.ty.v6
  case neg => simp [bindInner, hv] at hret
  cases hl : k.laddr with
  | some _ => simp [bindInner, hl, hv] at hret
  | none =>
    have hf : (force S.s k).1.net = S.s.net ∧ ∃ i, (force S.s k).2 = { k with inner := some i } ∧ (k.inner ≠ none → k.inner = some i) := by
      unfold force
      cases hi : k.inner with
      | some i => exact ⟨rfl, i, by cases k; simp_all, fun _ => rfl⟩
      | none => exact ⟨rfl, S.s.nhost, rfl, fun h => absurd rfl h⟩
    obtain ⟨hnet, i, hk, hi⟩ := hf
    simp only [bindInner, hv, hl, ne_eq, not_true, if_false, Option.isSome_none, Bool.false_eq_true] at hret ⊢
    cases hr : Ports.reserve e.devs (force S.s k).1.net to.1 to.2 k.ty k.reuse with
    | mk n' r =>
      rw [hr] at hret
      cases r with
      | ok p =>
        obtain ⟨q, rfl, h1, h2, h3, h4, _⟩ := Ports.reserve_granted hr
        cases hb with
        | some er => simp [InetSock.hret] at hret
        | none =>
          simp only [InetSock.hret, Ret.ok.injEq] at hret
          refine ⟨hret.symm, trivial, trivial, rfl, q, i, ?_, hi, h1, h2, ?_, ?_⟩
          · simp [State.setS, hk]
          · simpa [State.setS] using h3
          · intro q' hq'
            have := h4 q' hq'
            simp only [State.setS]
            rw [this, hnet]
      | err er => simp at hret
      | panic => simp at hret
      | blocked => simp at hret

theorem reserve_not_blocked (devs : List Addr) (n : Net) (a : Addr) (p : Nat) (ty : PType) (reb : Bool) :
    (Ports.reserve devs n a p ty reb).2 ≠ .blocked := by
  unfold Ports.reserve Ports.ephemeral
  intro h
  simp only at h
  repeat' split at h
  all_goals simp at h

theorem release_not_blocked (devs : List Addr) (n : Net) (a : Addr) (p : Nat) (ty : PType) :
    (Ports.release devs n a p ty).2 ≠ .blocked := by
  unfold Ports.release
  intro h
  simp only at h
  repeat' split at h
  all_goals simp at h

theorem bindInner_not_blocked (e : Env) (s : State) (k : Sock) (to : SA) (pre : Bool) (hb : Option Errno) :
    (bindInner e s k to pre hb).2.2 ≠ .blocked := by
  have hh : hret hb ≠ .blocked := by cases hb <;> simp [hret]
  unfold bindInner
  split
  · simp
  · split
    · simp
    · simp only
      split
      · exact hh
      · cases hr : Ports.reserve e.devs (force s k).1.net to.1 to.2 k.ty k.reuse with
        | mk n' r =>
          have := reserve_not_blocked e.devs (force s k).1.net to.1 to.2 k.ty k.reuse
          rw [hr] at this
          cases r <;> simp_all

theorem implicitBind_not_blocked (e : Env) (s : State) (k : Sock) (v6 : Bool) (hb : Option Errno) {b : Bool} :
    (implicitBind e s k v6 hb).2.2 ≠ some (.blocked, b) := by
  unfold implicitBind
  split
  · simp
  · split
    · simp
    · simp
    · rename_i s' a _
      have := bindInner_not_blocked e s' k a true hb
      simp only
      cases hr : (bindInner e s' k a true hb).2.2 <;> simp_all

/-- C49.  On a non-blocking descriptor no call waits: it returns, whatever the host does.  On a blocking one only `accept` and `recv` wait, and
only while the host has nothing for them. -/
theorem waits_only {e : Env} {S : Sys} (op : Op) (hw : (step e S.s op).2.ret = .blocked) :
    ∃ fd d, op.on = some fd ∧ S.s.tab fd = some d ∧ d.nb = false ∧
      (op = .accept fd (.fail .EAGAIN) ∨ ∃ n pk fam rdy hb, op = .recv fd n pk fam rdy hb (.fail .EAGAIN)) := by
  have hwith : ∀ (fd : Nat) (f : Desc → Sock → State × Out), (withSock e S.s fd f).2.ret = .blocked →
      ∃ d k, S.s.tab fd = some d ∧ (f d k).2.ret = .blocked := by
    intro fd f hf
    unfold withSock at hf
    split at hf
    · split at hf
      · simp [Out.r] at hf
      · split at hf
        · simp [Out.r] at hf
        · rename_i d hd _ k _
          exact ⟨d, k, hd, hf⟩
    · simp [Out.r] at hf
  have hdrop : ∀ (s : State) (h : Nat) (v : Int), (dropIfLast e s h (.ok v)).2.ret ≠ .blocked := by
    intro s h v hh
    unfold dropIfLast at hh
    repeat' split at hh
    all_goals simp [Out.r] at hh
    split at hh <;> simp at hh
  have hsend : ∀ (s : State) (d : Desc) (k : Sock) (data : List UInt8) (to : Option SA) (hs : HSend), (hostSend s d k data to hs).2.ret ≠ .blocked := by
    intro s d k data to hs hh
    unfold hostSend at hh
    split at hh
    · simp [Out.r] at hh
    · cases hs <;> simp [sret] at hh
  have hto : ∀ (fd : Nat) (data : List UInt8) (to : SA) (hb : Option Errno) (hs : HSend), (sendtoAddr e S.s fd data to hb hs).2.ret ≠ .blocked := by
    intro fd data to hb hs hh
    obtain ⟨d, k, _, hh⟩ := hwith _ _ hh
    try simp only at hh
    split at hh
    · simp [Out.r] at hh
    · split at hh
      · simp [Out.r] at hh
      · split at hh
        · simp [Out.r] at hh
        · cases hi : (implicitBind e S.s k to.1.v6 hb).2.2 with
          | none => rw [hi] at hh; exact hsend _ _ _ _ _ _ hh
          | some x =>
            rw [hi] at hh
            obtain ⟨r, b⟩ := x
            simp only [Out.r] at hh
            subst hh
            exact implicitBind_not_blocked _ _ _ _ _ hi
  have hse : ∀ (fd : Nat) (data : List UInt8) (hb : Option Errno) (hs : HSend), (send e S.s fd data hb hs).2.ret ≠ .blocked := by
    intro fd data hb hs hh
    obtain ⟨d, k, _, hh⟩ := hwith _ _ hh
    try simp only at hh
    split at hh
    · split at hh
      · simp [Out.r] at hh
      · exact hsend _ _ _ _ _ _ hh
    · split at hh
      · simp [Out.r] at hh
      · split at hh
        · simp [Out.r] at hh
        · exact hto _ _ _ _ _ hh
  have hhost : ∀ (s : State) (d : Desc) (k : Sock) (to : SA) (hc : HConn), (connectHost s d k to hc).2.ret ≠ .blocked := by
    intro s d k to hc hh
    unfold connectHost at hh
    repeat' split at hh
    all_goals simp [Out.r] at hh
  cases op with
  | socket v6 tcp nb clo => simp only [step, socket] at hw; split at hw <;> simp [Out.r] at hw
  | setReuse fd => obtain ⟨d, k, _, hw⟩ := hwith _ _ hw; simp [Out.r] at hw
  | dup fd => obtain ⟨d, k, _, hw⟩ := hwith _ _ hw; split at hw <;> simp [Out.r] at hw
  | bind fd to hb =>
    obtain ⟨d, k, _, hw⟩ := hwith _ _ hw
    exact absurd hw (bindInner_not_blocked _ _ _ _ _ _)
  | connect fd to hb hc =>
    exfalso
    obtain ⟨d, k, _, hw⟩ := hwith _ _ hw
    try simp only at hw
    split at hw
    · simp [Out.r] at hw
    · split at hw
      · unfold connectTcp at hw
        split at hw
        · simp [Out.r] at hw
        · split at hw
          · exact hhost _ _ _ _ _ hw
          · simp only at hw
            split at hw
            · simp [Out.r] at hw
            · simp [Out.r] at hw
            · split at hw
              · simp [Out.r] at hw
              · exact hhost _ _ _ _ _ hw
      · unfold connectUdp at hw
        simp only [Out.r] at hw
        cases hi : (implicitBind e S.s { k with raddr := some to } k.ty.v6 hb).2.2 with
        | none => rw [hi] at hw; simp at hw
        | some x =>
          rw [hi] at hw
          obtain ⟨r, b⟩ := x
          try simp only at hw
          subst hw
          exact implicitBind_not_blocked _ _ _ _ _ hi
  | listen fd hb hl stale =>
    exfalso
    obtain ⟨d, k, _, hw⟩ := hwith _ _ hw
    try simp only at hw
    split at hw
    case h_6 =>
      split at hw
      · cases hi : (implicitBind e S.s k k.ty.v6 hb).2.2 with
        | none =>
          rw [hi] at hw
          simp only [listenHost] at hw
          repeat' split at hw
          all_goals simp [Out.r] at hw
        | some x =>
          rw [hi] at hw
          obtain ⟨r, b⟩ := x
          cases b with
          | false =>
            simp only [Out.r] at hw
            subst hw
            exact implicitBind_not_blocked _ _ _ _ _ hi
          | true => cases stale <;> simp [Out.r] at hw
      · simp [Out.r] at hw
    all_goals simp [Out.r] at hw
  | accept fd ha =>
    obtain ⟨d, k, hd, hw⟩ := hwith _ _ hw
    try simp only at hw
    split at hw
    · simp [Out.r] at hw
    · split at hw
      · simp [Out.r] at hw
      · split at hw
        · simp [Out.r] at hw
        · unfold acceptInet at hw
          split at hw
          · simp [Out.r] at hw
          · split at hw
            · simp [Out.r] at hw
            · split at hw
              · simp [Out.r] at hw
              · cases ha with
                | fail er =>
                  try simp only at hw
                  split at hw
                  · rename_i hc
                    exact ⟨fd, d, rfl, hd, hc.1, .inl (by rw [hc.2])⟩
                  · simp [Out.r] at hw
                | conn peer =>
                  rename_i a _ _ _ _ _ _
                  have := reserve_not_blocked e.devs S.s.net a.1 0 k.ty false
                  cases hr : Ports.reserve e.devs S.s.net a.1 0 k.ty false with
                  | mk n' r =>
                    rw [hr] at this hw
                    cases r <;> simp [Out.r] at hw this
  | send fd data hb hs => exact absurd hw (hse _ _ _ _)
  | sendto fd data to hb hs =>
    simp only [step, sendto] at hw
    split at hw
    · exact absurd hw (hse _ _ _ _)
    · exact absurd hw (hto _ _ _ _ _)
  | recv fd n pk fam rdy hb hr =>
    obtain ⟨d, k, hd, hw⟩ := hwith _ _ hw
    try simp only at hw
    have fin : d.nb = false ∧ hr = .fail .EAGAIN := by
      split at hw
      · split at hw
        · simp [Out.r] at hw
        · split at hw
          · simp [Out.r] at hw
          · unfold recvTcp at hw
            try simp only at hw
            split at hw
            · simp at hw
            · split at hw
              · simp [Out.r] at hw
              · split at hw
                · split at hw
                  · simp at hw
                  · split at hw
                    · rename_i hc; exact ⟨hc.1, by rw [hc.2]⟩
                    · simp [Out.r] at hw
                · simp at hw
      · unfold recvUdp at hw
        cases hi : (implicitBind e S.s k (fam.getD false) hb).2.2 with
        | some x =>
          simp only [hi] at hw
          obtain ⟨r, b⟩ := x
          simp only [Out.r] at hw
          subst hw
          exact absurd hi (implicitBind_not_blocked _ _ _ _ _)
        | none =>
          simp only [hi] at hw
          split at hw
          · simp [Out.r] at hw
          · split at hw
            · split at hw
              · rename_i hc; exact ⟨hc.1, by rw [hc.2]⟩
              · simp [Out.r] at hw
            · simp at hw
    exact ⟨fd, d, rfl, hd, fin.1, .inr ⟨n, pk, fam, rdy, hb, by rw [fin.2]⟩⟩
  | shutdown fd how hsd =>
    exfalso
    simp only [step, shutdown] at hw
    split at hw
    · split at hw
      · obtain ⟨d, k, _, hw⟩ := hwith _ _ hw
        have hg : ∀ r, (giveBack e S.s k).2.2 = some r → r ≠ .blocked := by
          intro r hr hb
          subst hb
          unfold giveBack at hr
          split at hr
          · simp at hr
          · rename_i a _
            have := release_not_blocked e.devs S.s.net a.1 a.2 k.ty
            cases hx : Ports.release e.devs S.s.net a.1 a.2 k.ty with
            | mk n' r =>
              rw [hx] at hr this
              cases r <;> simp at hr this
        try simp only at hw
        split at hw
        · simp [Out.r] at hw
        · cases hx : (if k.inner.isSome = true ∧ shutReleases k.st how = true then giveBack e S.s k else (S.s, k, none)).2.2 with
          | some r =>
            simp only [hx, Out.r] at hw
            have : (giveBack e S.s k).2.2 = some r := by
              split at hx
              · exact hx
              · simp at hx
            exact hg r this hw
          | none =>
            simp only [hx] at hw
            split at hw
            · exact hdrop _ _ _ hw
            · simp [Out.r] at hw
      · simp [Out.r] at hw
    · simp [Out.r] at hw
  | close fd =>
    obtain ⟨d, k, _, hw⟩ := hwith _ _ hw
    exact absurd hw (hdrop _ _ _)

/-! A `bind` to a port of the table's choice, and an `accept` that waits or, on a non-blocking descriptor, does not. -/

example : out env [.socket false true false false] (.bind 0 (lo, 0) none) = { ret := .ok 0 } ∧
    (view env [.socket false true false false, .bind 0 (lo, 0) none] 0).map (fun k => (k.laddr, k.inner)) =
      some (some (lo, Ports.swap16 60999), some 0) ∧
    out env [.socket false true false false, .bind 0 (lo, 80) none, .listen 0 none none none] (.accept 0 (.fail .EAGAIN)) = { ret := .blocked } ∧
    out env [.socket false true true false, .bind 0 (lo, 80) none, .listen 0 none none none] (.accept 0 (.fail .EAGAIN)) =
      { ret := .err .EAGAIN } := by
  decide +kernel

end Verif.InetSock
