import Verif.SockNew
import Verif.SockNewSpec

/-!
# Lemmas on making sockets
-/

namespace Verif.SockNew
open Verif.SockNewSpec

/-! ## The bits of the type argument -/

theorem and7_lt (x : I32) : (x &&& 7).toNat < 8 := by
  rw [BitVec.toNat_and]
  have h : (7 : I32).toNat = 2 ^ 3 - 1 := by decide
  rw [h, Nat.and_two_pow_sub_one_eq_mod]
  omega

theorem and_nonblock (x : I32) : x &&& sockNonblock = 0 ∨ x &&& sockNonblock = sockNonblock := by
  have h : sockNonblock = BitVec.twoPow 32 11 := by decide
  rw [h, BitVec.and_twoPow]
  split
  · exact .inr rfl
  · exact .inl rfl

theorem and_cloexec (x : I32) : x &&& sockCloexec = 0 ∨ x &&& sockCloexec = sockCloexec := by
  have h : sockCloexec = BitVec.twoPow 32 19 := by decide
  rw [h, BitVec.and_twoPow]
  split
  · exact .inr rfl
  · exact .inl rfl

theorem parts (x : I32) : x = (((x &&& 7) ||| (x &&& sockNonblock)) ||| (x &&& sockCloexec)) |||
    (x &&& ~~~(sockNonblock ||| sockCloexec ||| 7)) := by
  rw [← BitVec.and_or_distrib_left, ← BitVec.and_or_distrib_left, ← BitVec.and_or_distrib_left]
  have h : ((7 : I32) ||| sockNonblock ||| sockCloexec ||| ~~~(sockNonblock ||| sockCloexec ||| 7)) = BitVec.allOnes 32 := by decide
  rw [h, BitVec.and_allOnes]

/-- The bits of a type argument without unknown flags. -/
theorem asks_of (x : I32) (k : Kind) (hm : x &&& ~~~(sockNonblock ||| sockCloexec ||| 7) = 0)
    (hk : x &&& 7 = BitVec.ofNat 32 k.num) :
    Asks x k (decide (x &&& sockNonblock ≠ 0)) (decide (x &&& sockCloexec ≠ 0)) := by
  constructor
  have hp := parts x
  rw [hm, hk] at hp
  rcases and_nonblock x with hn | hn <;> rcases and_cloexec x with hc | hc <;> rw [hn, hc] at hp ⊢ <;> rw [hp] <;> cases k <;> decide

theorem of_asks {x : I32} {k : Kind} {nb ce : Bool} (h : Asks x k nb ce) :
    x &&& ~~~(sockNonblock ||| sockCloexec ||| 7) = 0 ∧ x &&& 7 = BitVec.ofNat 32 k.num ∧
      decide (x &&& sockNonblock ≠ 0) = nb ∧ decide (x &&& sockCloexec ≠ 0) = ce := by
  have hx : x = BitVec.ofNat 32 (k.num + nonblock nb + cloexec ce) := by
    rw [← h.eq, BitVec.ofNat_toNat, BitVec.setWidth_eq]
  rw [hx]
  cases k <;> cases nb <;> cases ce <;> decide

theorem eq_of_nat (x : I32) (n : Nat) (hn : n < 2 ^ 32) : x = BitVec.ofNat 32 n ↔ x.toNat = n := by
  constructor
  · intro h
    rw [h, BitVec.toNat_ofNat, Nat.mod_eq_of_lt hn]
  · intro h
    rw [← h, BitVec.ofNat_toNat, BitVec.setWidth_eq]

theorem proto_iff (p : I32) (k : Kind) :
    (if p = 0 then BitVec.ofNat 32 k.proto else p) = BitVec.ofNat 32 k.proto ↔ Proto p k := by
  have h0 : p = 0 ↔ p.toNat = 0 := eq_of_nat p 0 (by decide)
  have h1 := eq_of_nat p k.proto (by cases k <;> decide)
  constructor
  · intro h
    split at h
    · next e => exact ⟨.inl (h0.mp e)⟩
    · exact ⟨.inr (h1.mp h)⟩
  · rintro ⟨h | h⟩
    · rw [if_pos (h0.mpr h)]
    · split
      · rfl
      · exact h1.mpr h

theorem domain_iff (d : I32) : (d = afInet ∨ d = afInet6 ∨ d = afUnix) ↔ Domain d := by
  have h1 := eq_of_nat d 1 (by decide)
  have h2 := eq_of_nat d 2 (by decide)
  have h10 := eq_of_nat d 10 (by decide)
  constructor
  · rintro (h | h | h)
    · exact ⟨.inr (.inl (h2.mp h))⟩
    · exact ⟨.inr (.inr (h10.mp h))⟩
    · exact ⟨.inl (h1.mp h)⟩
  · rintro ⟨h | h | h⟩
    · exact .inr (.inr (h1.mpr h))
    · exact .inl (h2.mpr h)
    · exact .inr (.inl (h10.mpr h))

/-- What a request asks for is fixed by the numbers. -/
theorem Asks.unique {x : I32} {k k' : Kind} {nb nb' ce ce' : Bool} (h : Asks x k nb ce) (h' : Asks x k' nb' ce') :
    k = k' ∧ nb = nb' ∧ ce = ce' := by
  have e := h.eq.symm.trans h'.eq
  revert e
  cases k <;> cases k' <;> cases nb <;> cases nb' <;> cases ce <;> cases ce' <;> decide

/-! ## The lowest free number -/

theorem scan_some (t : Nat → Option Desc) : ∀ (k n m : Nat), scan t k n = some m →
    n ≤ m ∧ m < n + k ∧ t m = none ∧ ∀ j, n ≤ j → j < m → t j ≠ none
  | 0, _, _, h => nomatch h
  | k + 1, n, m, h => by
    unfold scan at h
    split at h
    · next e =>
      injection h with h
      subst h
      exact ⟨Nat.le_refl _, by omega, e, fun j h1 h2 => by omega⟩
    · next e =>
      obtain ⟨h1, h2, h3, h4⟩ := scan_some t k (n + 1) m h
      refine ⟨by omega, by omega, h3, fun j hj1 hj2 => ?_⟩
      by_cases hjn : j = n
      · subst hjn; exact e
      · exact h4 j (by omega) hj2

theorem scan_none (t : Nat → Option Desc) : ∀ (k n : Nat), scan t k n = none → ∀ j, n ≤ j → j < n + k → t j ≠ none
  | 0, _, _, _, h1, h2 => by omega
  | k + 1, n, h, j, h1, h2 => by
    unfold scan at h
    split at h
    · exact nomatch h
    · next e =>
      by_cases hjn : j = n
      · subst hjn; exact e
      · exact scan_none t k (n + 1) h j (by omega) (by omega)

theorem nextFd_some {t : Nat → Option Desc} {n : Nat} : nextFd t = some n ↔ Lowest t n := by
  constructor
  · intro h
    obtain ⟨_, h2, h3, h4⟩ := scan_some t _ _ _ h
    exact ⟨by simpa [maxfd] using h2, h3, fun m hm => h4 m (Nat.zero_le _) hm⟩
  · intro h
    cases e : nextFd t with
    | none => exact absurd h.free (scan_none t _ _ e n (Nat.zero_le _) (by simpa [maxfd] using h.bound))
    | some m =>
      obtain ⟨_, h2, h3, h4⟩ := scan_some t _ _ _ e
      rcases Nat.lt_trichotomy m n with hl | hl | hl
      · exact absurd h3 (h.least m hl)
      · rw [hl]
      · exact absurd h.free (h4 n (Nat.zero_le _) hl)

theorem nextFd_none {t : Nat → Option Desc} : nextFd t = none ↔ Full t := by
  constructor
  · intro h
    exact ⟨fun n hn => scan_none t _ _ h n (Nat.zero_le _) (by simpa [maxfd] using hn)⟩
  · intro h
    cases e : nextFd t with
    | none => rfl
    | some m => exact absurd (nextFd_some.mp e).free (h.all m (nextFd_some.mp e).bound)

theorem lowest_or_full (t : Nat → Option Desc) : (∃ n, Lowest t n) ∨ Full t := by
  cases e : nextFd t with
  | none => exact .inr (nextFd_none.mp e)
  | some n => exact .inl ⟨n, nextFd_some.mp e⟩

/-! ## `socket` and `socketpair` on requests that are met and on others -/

/-- The descriptor made for a request. -/
def made (s : State) (domain socktype : I32) (k : Kind) (nb ce : Bool) : Sock :=
  { flags := (if nb then oNonblock else 0) ||| (if ce then oCloexec else 0)
    domain := domain, socktype := socktype, protocol := BitVec.ofNat 32 k.proto, id := s.made }

theorem socket_wanted {d t p : I32} {k : Kind} {nb ce : Bool} (h : Wants d t p k nb ce) (s : State) :
    socket s d t p = inserter { s with made := s.made + 1 } (made s d t k nb ce) := by
  obtain ⟨h1, h2, h3, h4⟩ := of_asks h.type
  have hd := (domain_iff d).mpr h.domain
  have hp := (proto_iff p k).mpr h.proto
  unfold socket
  simp only [h1, h2, h3, h4]
  cases k with
  | stream =>
    have e : (if p = 0 then ipprotoTcp else p) = ipprotoTcp := hp
    rw [if_neg (by simp), if_pos (by decide), if_neg (fun h => h e), e]
    unfold inDomain
    rw [if_pos hd]
    rfl
  | dgram =>
    have e : (if p = 0 then ipprotoUdp else p) = ipprotoUdp := hp
    rw [if_neg (by simp), if_neg (by decide), if_pos (by decide), if_neg (fun h => h e), e]
    unfold inDomain
    rw [if_pos hd]
    rfl

theorem inDomain_bad {d : I32} (h : ¬ Domain d) (s : State) (t p : I32) (nb ce : Bool) :
    inDomain s d t p nb ce = (s, -95) := by
  unfold inDomain
  rw [if_neg (fun e => h ((domain_iff d).mp e))]
  rfl

theorem socket_unwanted {d t p : I32} (h : ∀ k nb ce, ¬ Wants d t p k nb ce) (s : State) : socket s d t p = (s, -95) := by
  unfold socket
  by_cases hm : t &&& ~~~(sockNonblock ||| sockCloexec ||| 7) = 0
  · rw [if_neg (fun e => e hm)]
    by_cases hs : t &&& 7 = sockStream
    · rw [if_pos hs]
      have ha := asks_of t .stream hm hs
      by_cases hp : (if p = 0 then ipprotoTcp else p) = ipprotoTcp
      · rw [if_neg (fun e => e hp)]
        by_cases hd : Domain d
        · exact absurd ⟨hd, ha, (proto_iff p .stream).mp hp⟩ (h _ _ _)
        · exact inDomain_bad hd s t _ _ _
      · rw [if_pos hp]; rfl
    · rw [if_neg hs]
      by_cases hg : t &&& 7 = sockDgram
      · rw [if_pos hg]
        have ha := asks_of t .dgram hm hg
        by_cases hp : (if p = 0 then ipprotoUdp else p) = ipprotoUdp
        · rw [if_neg (fun e => e hp)]
          by_cases hd : Domain d
          · exact absurd ⟨hd, ha, (proto_iff p .dgram).mp hp⟩ (h _ _ _)
          · exact inDomain_bad hd s t _ _ _
        · rw [if_pos hp]; rfl
      · rw [if_neg hg]; rfl
  · rw [if_pos hm]; rfl

theorem socketpair_wanted {d t p : I32} {nb ce : Bool} (h : WantsPair d t p nb ce) (s : State) :
    socketpair s d t p =
      (let a := inserter { s with made := s.made + 1 } (made s d t .stream nb ce)
       let b := inserter { a.1 with made := a.1.made + 1 } (made a.1 d t .stream nb ce)
       ({ b.1 with joined := (s.made, a.1.made) :: b.1.joined }, 0, some (a.2, b.2))) := by
  obtain ⟨h1, h2, h3, h4⟩ := of_asks h.type
  have hd : d = afUnix := (eq_of_nat d 1 (by decide)).mpr h.domain
  have hp : (if p = 0 then ipprotoTcp else p) = ipprotoTcp := (proto_iff p .stream).mpr h.proto
  unfold socketpair
  simp only [h1, h2, h3, h4, hd, hp]
  rw [if_neg (by simp), if_neg (by simp [Kind.num, sockStream]), if_neg (by simp)]
  rfl

theorem socketpair_unwanted {d t p : I32} (h : ∀ nb ce, ¬ WantsPair d t p nb ce) (s : State) :
    socketpair s d t p = (s, -95, none) ∨ socketpair s d t p = (s, -22, none) := by
  unfold socketpair
  by_cases hd : d = afUnix
  · rw [if_neg (fun e => e hd)]
    by_cases hs : t &&& 7 = sockStream
    · by_cases hp : (if p = 0 then ipprotoTcp else p) = ipprotoTcp
      · rw [if_neg (fun e => e.elim (fun e => e hs) (fun e => e hp))]
        by_cases hm : t &&& ~~~(sockNonblock ||| sockCloexec ||| 7) = 0
        · exact absurd ⟨(eq_of_nat d 1 (by decide)).mp hd, asks_of t .stream hm hs, (proto_iff p .stream).mp hp⟩ (h _ _)
        · rw [if_pos hm]; exact .inr rfl
      · rw [if_pos (.inr hp)]; exact .inl rfl
    · rw [if_pos (.inl hs)]; exact .inl rfl
  · rw [if_pos hd]; exact .inl rfl

theorem inserter_at {s : State} {n : Nat} (h : Lowest s.fds n) (k : Sock) :
    inserter s k = ({ s with fds := put s.fds n (some (.sock k)) }, (n : Int)) := by
  unfold inserter
  rw [nextFd_some.mpr h]

theorem inserter_full {s : State} (h : Full s.fds) (k : Sock) : inserter s k = (s, -23) := by
  unfold inserter
  rw [nextFd_none.mpr h]
  rfl

theorem inserter_made (s : State) (k : Sock) : (inserter s k).1.made = s.made := by
  unfold inserter
  split <;> rfl

theorem inserter_joined (s : State) (k : Sock) : (inserter s k).1.joined = s.joined := by
  unfold inserter
  split <;> rfl

/-- A number in use stays as it is. -/
theorem inserter_keeps (s : State) (k : Sock) {m : Nat} {e : Desc} (h : s.fds m = some e) : (inserter s k).1.fds m = some e := by
  unfold inserter
  split
  · exact h
  · next n hn =>
    have hf := (nextFd_some.mp hn).free
    show put s.fds n _ m = _
    unfold put
    rw [if_neg (fun hmn => by rw [hmn, hf] at h; exact nomatch h)]
    exact h

end Verif.SockNew
