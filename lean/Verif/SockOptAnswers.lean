import Verif.SockOptProps

/-! What getsockopt and setsockopt answer, as tables over the numbers of levels and options. -/

namespace Verif.SockOpt

/-- The options of level `SOL_SOCKET` that can be read: reuseaddr, type, error, sndbuf, rcvbuf, keepalive, oobinline, linger, reuseport,
rcvlowat, sndlowat, acceptconn. -/
def readable : List Int := [2, 3, 4, 7, 8, 9, 10, 13, 15, 18, 19, 30]

/-- What reading is to answer: level 1 is `SOL_SOCKET`, level 6 `SOL_TCP` with the one option 1 (nodelay), level 17 `SOL_UDP` with none. -/
def getSpec (level o : Int) : Ret :=
  if (level = 1 ∧ o ∈ readable) ∨ (level = 6 ∧ o = 1) then .ok 0
  else if level = 1 ∨ level = 6 ∨ level = 17 then .err .ENOPROTOOPT
  else .err .EOPNOTSUPP

theorem small {o : Int} (ho : 0 ≤ o ∧ o < 32) : o = 0 ∨ o = 1 ∨ o = 2 ∨ o = 3 ∨ o = 4 ∨ o = 5 ∨ o = 6 ∨ o = 7 ∨ o = 8 ∨ o = 9 ∨ o = 10 ∨ o = 11 ∨ o = 12 ∨ o = 13 ∨ o = 14 ∨ o = 15 ∨ o = 16 ∨ o = 17 ∨ o = 18 ∨ o = 19 ∨ o = 20 ∨ o = 21 ∨ o = 22 ∨ o = 23 ∨ o = 24 ∨ o = 25 ∨ o = 26 ∨ o = 27 ∨ o = 28 ∨ o = 29 ∨ o = 30 ∨ o = 31 := by omega

/-- C48.  What `getsockopt` answers on any socket, for every level and every option number below 32 (others abort,
`bad_option_violated`). -/
theorem get_answer (x : Handle) {level o : Int} (ho : 0 ≤ o ∧ o < 32) : (getOpt x level o).2.1 = getSpec level o := by
  by_cases h1 : level = 1
  · subst h1
    rcases small ho with rfl | rfl | rfl | rfl | rfl | rfl | rfl | rfl | rfl | rfl | rfl | rfl | rfl | rfl | rfl | rfl | rfl | rfl | rfl | rfl | rfl | rfl | rfl | rfl | rfl | rfl | rfl | rfl | rfl | rfl | rfl | rfl <;> rfl
  · by_cases h17 : level = 17
    · subst h17; simp [getOpt, optBit, ho, getSpec, solUdp]
    · by_cases h6 : level = 6
      · subst h6
        by_cases h : o = 1
        · subst h; rfl
        · simp [getOpt, optBit, ho, getSpec, solUdp, solTcp, tcpNodelay, h]
      · simp [getOpt, optBit, ho, getSpec, solUdp, solTcp, solSocket, h1, h17, h6]

/-- C48.  The options that report a fact: the type of the socket, whether it listens, and out-of-band data in line
(always). -/
theorem get_facts (x : Handle) : (getOpt x 1 3).2.2 = x.socktype ∧ (getOpt x 1 30).2.2 = (if x.listening then 1 else 0) ∧ (getOpt x 1 10).2.2 = 1 :=
  ⟨rfl, rfl, rfl⟩

/-- What setting is to answer if the host agrees. -/
def setSpec (level o v : Int) : Ret :=
  if level = 1 ∧ o ∈ [3, 18, 19, 30] then .err .ENOPROTOOPT
  else if (level = 1 ∧ (o ∈ [2, 7, 8, 9, 13, 15] ∨ o = 10 ∧ v = 1)) ∨ (level = 6 ∧ o = 1) then .ok 0
  else .err .EOPNOTSUPP

/-- C48.  What `setsockopt` answers: type, low-water marks and acceptconn cannot be set, out-of-band data can only be in
line, and options that do not exist are refused.  The other options are set, unless the host refuses a change of one of the
options it is told about (reuseaddr, reuseport, nodelay). -/
theorem set_answer (x : Handle) {level o : Int} (v : Int) (host : Option Errno) (ho : 0 ≤ o ∧ o < 32) :
    (setOpt x level o v none).2 = setSpec level o v ∧
    ((setOpt x level o v host).2 = setSpec level o v ∨
      ∃ e, host = some e ∧ x.inner = true ∧ (setOpt x level o v host) = (x, .err e) ∧ ((level = 1 ∧ (o = 2 ∨ o = 15)) ∨ (level = 6 ∧ o = 1))) := by
  have key : ∀ w : Option Errno, (setOpt x level o v w).2 = setSpec level o v ∨
      ∃ e, w = some e ∧ x.inner = true ∧ (setOpt x level o v w) = (x, .err e) ∧ ((level = 1 ∧ (o = 2 ∨ o = 15)) ∨ (level = 6 ∧ o = 1)) := by
    intro w
    have told : ∀ (q : Prop) [Decidable q] (y : Handle), (match (if q ∧ x.inner then w else none) with
        | some e => (x, Ret.err e)
        | none => (y, .ok 0)).2 = .ok 0 ∨ ∃ e, w = some e ∧ x.inner = true ∧ (match (if q ∧ x.inner then w else none) with
        | some e => (x, Ret.err e)
        | none => (y, .ok 0)) = (x, .err e) := by
      intro q _ y
      cases w with
      | none => left; simp
      | some e =>
        by_cases h : q ∧ x.inner
        · right; exact ⟨e, rfl, h.2, by simp [h]⟩
        · left; rw [if_neg h]
    by_cases h2 : level = 1 ∧ o = 2
    · obtain ⟨rfl, rfl⟩ := h2
      rcases told (setFlag x.opts (1#32 <<< 2) v ≠ x.opts) { x with opts := setFlag x.opts (1#32 <<< 2) v } with h | ⟨e, h, h', h''⟩
      · left; exact h
      · right; exact ⟨e, h, h', h'', by decide⟩
    by_cases h15 : level = 1 ∧ o = 15
    · obtain ⟨rfl, rfl⟩ := h15
      rcases told (setFlag x.opts (1#32 <<< 15) v ≠ x.opts) { x with opts := setFlag x.opts (1#32 <<< 15) v } with h | ⟨e, h, h', h''⟩
      · left; exact h
      · right; exact ⟨e, h, h', h'', by decide⟩
    by_cases h6 : level = 6 ∧ o = 1
    · obtain ⟨rfl, rfl⟩ := h6
      rcases told (setFlag x.tcp (1#32 <<< 1) v ≠ x.tcp) { x with tcp := setFlag x.tcp (1#32 <<< 1) v } with h | ⟨e, h, h', h''⟩
      · left; exact h
      · right; exact ⟨e, h, h', h'', by decide⟩
    left
    by_cases h1 : level = 1
    · subst h1
      by_cases h10 : o = 10
      · subst h10
        by_cases hv : v = 1
        · subst hv; rfl
        · simp [setOpt, setSpec, hv, optBit, solUdp, solTcp, solSocket, soAcceptconn, soLinger, soKeepalive,
              soSndlowat, soRcvlowat, soReuseport, soReuseaddr, soSndbuf, soRcvbuf, soType, soOobinline]
      · rcases small ho with rfl | rfl | rfl | rfl | rfl | rfl | rfl | rfl | rfl | rfl | rfl | rfl | rfl | rfl | rfl | rfl | rfl | rfl | rfl | rfl | rfl | rfl | rfl | rfl | rfl | rfl | rfl | rfl | rfl | rfl | rfl | rfl
        all_goals first | rfl | exact absurd rfl h10 | exact absurd ⟨rfl, rfl⟩ h2 | exact absurd ⟨rfl, rfl⟩ h15
    · have : ¬ (level = 6 ∧ o = tcpNodelay) := h6
      by_cases h17 : level = 17
      · subst h17; simp [setOpt, setSpec, solUdp]
      · by_cases h : level = 6
        · subst h
          have ho1 : o ≠ 1 := fun e => h6 ⟨rfl, e⟩
          simp [setOpt, setSpec, solUdp, solTcp, tcpNodelay, ho1]
        · simp [setOpt, setSpec, solUdp, solTcp, solSocket, h17, h, h1]
  refine ⟨?_, key host⟩
  rcases key none with h | ⟨e, h, -⟩
  · exact h
  · cases h

/-- C48.  A refused `setsockopt` changes nothing. -/
theorem set_refused (x : Handle) {level o v : Int} {host : Option Errno} {e : Errno} (h : (setOpt x level o v host).2 = .err e) :
    (setOpt x level o v host).1 = x := by
  unfold setOpt at h ⊢
  repeat' split
  all_goals first | rfl | (simp_all; done)

/-- C48.  On a number that is no open descriptor both calls answer `EBADF`; on a descriptor that is no socket `ENOTSOCK`; the state
stays as it is. -/
theorem not_a_socket (s : State) {fd : Int} (level o v : Int) (host : Option Errno) :
    ((fd < 0 ∨ 1024 ≤ fd ∨ s.fds fd.toNat = none) →
      step s (.get fd level o) = (s, .err .EBADF, 0) ∧ step s (.set fd level o v host) = (s, .err .EBADF, 0)) ∧
    (0 ≤ fd → fd < 1024 → s.fds fd.toNat = some .other →
      step s (.get fd level o) = (s, .err .ENOTSOCK, 0) ∧ step s (.set fd level o v host) = (s, .err .ENOTSOCK, 0)) := by
  have hm : (maxFd : Int) = 1024 := rfl
  constructor
  · intro h
    simp only [step, onSock]
    by_cases hb : fd < 0 ∨ fd ≥ (maxFd : Int)
    · rw [if_pos hb, if_pos hb]; exact ⟨rfl, rfl⟩
    · have : s.fds fd.toNat = none := by
        rcases h with h | h | h
        · exact absurd (.inl h) hb
        · exact absurd (.inr (by rw [hm]; exact h)) hb
        · exact h
      rw [if_neg hb, if_neg hb, this]; exact ⟨rfl, rfl⟩
  · intro h0 h1 h
    simp only [step, onSock]
    have hb : ¬ (fd < 0 ∨ fd ≥ (maxFd : Int)) := by rw [hm]; omega
    rw [if_neg hb, if_neg hb, h]; exact ⟨rfl, rfl⟩

/-- The tables are not constant: a socket can be asked for its type, not told it; the send buffer both; option 5 neither. -/
example : getSpec 1 3 = .ok 0 ∧ setSpec 1 3 0 = .err .ENOPROTOOPT ∧ getSpec 1 7 = .ok 0 ∧ setSpec 1 7 9 = .ok 0 ∧
    getSpec 1 5 = .err .ENOPROTOOPT ∧ setSpec 1 5 0 = .err .EOPNOTSUPP ∧ getSpec 41 1 = .err .EOPNOTSUPP := by decide

/-- A change that the host refuses. -/
example : setOpt { mkHandle 1 false false with inner := true } 1 2 1 (some .EINVAL) =
    ({ mkHandle 1 false false with inner := true }, .err .EINVAL) := by decide

end Verif.SockOpt
