import Verif.DuplexLemmas

/-!
# C91: Both directions of a connection can be used at once

Threads, of one process or of several, that send and receive on a connected Unix stream socket at the same time: what arrives is what was
sent, no send is mixed up with another, nobody is told EAGAIN who did not ask for it, and nobody waits for another who waits for something else: a call
that has what it needs (data, room, or nothing at all) returns.

The data part holds for all runs.  The last part holds if each thread has a descriptor of its own and no send waits for room; the theorems
named `violated` show what happens otherwise.
-/

namespace Verif.Duplex

/-! ## The data -/

/-- C91, the streams.  At any moment, what was received at a socket, followed by what waits there, is what the sends to it gave, one whole
send after the other in the order in which they returned, and at the end what the one in progress has given so far. -/
theorem stream (cfg : Cfg) (l : List Act) (k : Nat) :
    recvd cfg k (runFrom cfg (init cfg) l).log ++ (runFrom cfg (init cfg) l).buf k =
      sentTo cfg k (runFrom cfg (init cfg) l).log ++ cur (runFrom cfg (init cfg) l) k :=
  (inv_run (inv_init cfg)).stream k

/-- C91.  No more waits at a socket than fits. -/
theorem bounded (cfg : Cfg) (l : List Act) (k : Nat) : ((runFrom cfg (init cfg) l).buf k).length ≤ cfg.cap :=
  (inv_run (inv_init cfg)).cap k

/-- C91, the answers.  A send says how much it gave, and gave all if it may wait; a receive gives no more than asked for, and something if
anything was asked for; EAGAIN is for those who asked not to wait. -/
theorem answers (cfg : Cfg) (l : List Act) (e : Ev) (he : e ∈ (runFrom cfg (init cfg) l).log) :
    (∀ bs nb n, e.c = .send bs nb → e.r = .sent n → e.d = n ∧ n ≤ bs.length ∧ (nb = false → n = bs.length)) ∧
    (∀ n nb bs, e.c = .recv n nb → e.r = .data bs → bs.length ≤ n ∧ (0 < n → bs ≠ [])) ∧
    (e.r = .again → ∃ n bs, e.c = .recv n true ∨ e.c = .send bs true) := by
  obtain ⟨h1, h2, h3⟩ := (inv_run (inv_init cfg)).ev e he
  refine ⟨fun bs nb n hc hr => ?_, h2, h3⟩
  obtain ⟨h4, h5⟩ := h1 bs nb hc
  obtain ⟨h6, h7⟩ := h5 n hr
  exact ⟨h6, h6 ▸ h4, h7⟩

/-! ## Who has to wait -/

/-- The descriptor of the call a thread is in. -/
def Phase.fd : Phase → Option Nat
  | .idle => none
  | .slot fd _ | .lock fd _ | .run fd _ _ => some fd

/-- All calls on a descriptor come from one thread, `own fd`. -/
def Own (own : Nat → Nat) : Act → Prop
  | .call t fd _ => own fd = t
  | .go _ => True

/-- The send can write the rest now, or has nothing more to write, or nobody is there to read. -/
def Fits (cfg : Cfg) (s : St) (fd : Nat) (bs : List Nat) (d : Nat) : Prop :=
  bs.length ≤ d ∨ gone cfg s (peer (cfg.of fd)) = true ∨
    (cfg.page ≤ cfg.cap - (s.buf (peer (cfg.of fd))).length ∧ bs.length ≤ d + (cfg.cap - (s.buf (peer (cfg.of fd))).length))

theorem go_thr {cfg : Cfg} {s s' : St} {t : Nat} (hs : go cfg s t = some s') :
    (∀ u, u ≠ t → s'.thr u = s.thr u) ∧ ((s'.thr t).fd = none ∨ (s'.thr t).fd = (s.thr t).fd) ∧
    (∀ f, (s.thr t).fd ≠ some f → s'.slot f = s.slot f ∧ s'.open f = s.open f) := by
  have hret : ∀ {fd : Nat} {c : Call} {r : Res} {d : Nat} {b : Nat → List Nat} {op : Nat → Bool}, (s.thr t).fd = some fd →
      (∀ f, f ≠ fd → op f = s.open f) → s' = ret cfg { s with buf := b, «open» := op } t fd c r d →
      (∀ u, u ≠ t → s'.thr u = s.thr u) ∧ ((s'.thr t).fd = none ∨ (s'.thr t).fd = (s.thr t).fd) ∧
      (∀ f, (s.thr t).fd ≠ some f → s'.slot f = s.slot f ∧ s'.open f = s.open f) := by
    intro fd c r d b op hfd hop h
    subst h
    refine ⟨fun u hu => by simp [ret, put, hu], .inl (by simp [ret, put, Phase.fd]), fun f hf => ?_⟩
    have hf : f ≠ fd := fun e => hf (by rw [e]; exact hfd)
    exact ⟨by simp [ret, put, hf], hop f hf⟩
  unfold go at hs
  split at hs
  · cases hs
  · next fd c ht =>
    split at hs
    · cases hs
    · split at hs
      · cases hs
        refine ⟨fun u hu => by simp [put, hu], .inr (by simp [put, ht, Phase.fd]), fun f hf => ?_⟩
        rw [ht] at hf
        have hf : f ≠ fd := fun e => hf (by rw [e]; rfl)
        simp [put, hf]
      · cases hs
        exact ⟨fun u hu => by simp [put, hu], .inl (by simp [put, Phase.fd]), fun f hf => ⟨rfl, rfl⟩⟩
  · next fd c ht =>
    split at hs
    · cases hs
    · cases hs
      exact ⟨fun u hu => by simp [put, hu], .inr (by simp [put, ht, Phase.fd]), fun f hf => ⟨rfl, rfl⟩⟩
  · next fd c d ht =>
    have hfd : (s.thr t).fd = some fd := by rw [ht]; rfl
    cases c with
    | recv n nb =>
      simp only [runGo, Option.some.injEq] at hs
      unfold recvGo at hs
      dsimp only at hs
      split at hs
      · exact hret (b := s.buf) (op := s.open) hfd (fun _ _ => rfl) hs.symm
      · split at hs
        · exact hret (op := s.open) hfd (fun _ _ => rfl) hs.symm
        · split at hs
          · exact hret (b := s.buf) (op := s.open) hfd (fun _ _ => rfl) hs.symm
          · split at hs
            · exact hret (b := s.buf) (op := s.open) hfd (fun _ _ => rfl) hs.symm
            · subst hs
              exact ⟨fun u hu => by simp [put, hu], .inr (by simp [put, ht, Phase.fd]), fun f hf => ⟨rfl, rfl⟩⟩
    | send bs nb =>
      simp only [runGo] at hs
      unfold sendGo at hs
      dsimp only at hs
      split at hs
      · exact hret (b := s.buf) (op := s.open) hfd (fun _ _ => rfl) (Option.some.inj hs).symm
      · split at hs
        · exact hret (b := s.buf) (op := s.open) hfd (fun _ _ => rfl) (Option.some.inj hs).symm
        · split at hs
          · split at hs
            · exact hret (b := s.buf) (op := s.open) hfd (fun _ _ => rfl) (Option.some.inj hs).symm
            · cases hs
          · cases hs
            exact ⟨fun u hu => by simp [put, hu], .inr (by simp [put, ht, Phase.fd]), fun f hf => ⟨rfl, rfl⟩⟩
    | look =>
      simp only [runGo, Option.some.injEq] at hs
      exact hret (b := s.buf) (op := s.open) hfd (fun _ _ => rfl) hs.symm
    | close =>
      simp only [runGo, Option.some.injEq] at hs
      exact hret (b := s.buf) hfd (fun f hf => by simp [put, hf]) hs.symm

theorem own_run {cfg : Cfg} {own : Nat → Nat} {l : List Act} : ∀ {s : St}, (∀ t fd, (s.thr t).fd = some fd → own fd = t) →
    (∀ a ∈ l, Own own a) → ∀ t fd, ((runFrom cfg s l).thr t).fd = some fd → own fd = t := by
  induction l with
  | nil => exact fun h _ => h
  | cons a l ih =>
    intro s h hl
    simp only [runFrom]
    refine ih ?_ (fun b hb => hl b (List.mem_cons_of_mem _ hb))
    cases hs : step cfg s a with
    | none => exact h
    | some s' =>
      rw [Option.getD_some]
      intro t fd ht
      cases a with
      | call u f c =>
        simp only [step] at hs
        split at hs
        · cases hs
          simp only [put] at ht
          split at ht
          · next e =>
            simp only [Phase.fd, Option.some.injEq] at ht
            subst e; subst ht
            exact hl _ List.mem_cons_self
          · exact h t fd ht
        · cases hs
      | go u =>
        obtain ⟨h1, h2, _⟩ := go_thr hs
        by_cases hu : t = u
        · subst hu
          rcases h2 with h2 | h2
          · rw [h2] at ht; cases ht
          · exact h t fd (h2 ▸ ht)
        · rw [h1 t hu] at ht; exact h t fd ht

/-- Who has the handle gives it back in at most two steps of its own, if it need not wait for room. -/
theorem release {cfg : Cfg} {s : St} (hp : 0 < cfg.page) {u fd d : Nat} {c : Call} (hu : s.thr u = .run fd c d)
    (hf : ∀ bs, c = .send bs false → Fits cfg s fd bs d) :
    ∃ s', (go cfg s u = some s' ∨ ∃ s1, go cfg s u = some s1 ∧ go cfg s1 u = some s') ∧ s'.lock (cfg.of fd) = none := by
  have hret : ∀ (s0 : St) c r d, (ret cfg s0 u fd c r d).lock (cfg.of fd) = none := by
    intro s0 c r d; simp [ret, put]
  cases c with
  | recv n nb =>
    refine ⟨recvGo cfg s u fd n nb, .inl (by simp [go, hu, runGo]), ?_⟩
    unfold recvGo
    dsimp only
    split
    · exact hret _ _ _ _
    · split
      · exact hret _ _ _ _
      · split
        · exact hret _ _ _ _
        · split
          · exact hret _ _ _ _
          · simp [put]
  | look => exact ⟨_, .inl (by simp only [go, hu, runGo]; rfl), hret _ _ _ _⟩
  | close => exact ⟨_, .inl (by simp only [go, hu, runGo]; rfl), hret _ _ _ _⟩
  | send bs nb =>
    by_cases h1 : bs.length ≤ d
    · exact ⟨_, .inl (by simp only [go, hu, runGo, sendGo]; rw [if_pos h1]), hret _ _ _ _⟩
    by_cases h2 : gone cfg s (peer (cfg.of fd)) = true
    · exact ⟨_, .inl (by simp only [go, hu, runGo, sendGo]; rw [if_neg h1, if_pos h2]), hret _ _ _ _⟩
    by_cases h3 : cfg.cap - (s.buf (peer (cfg.of fd))).length < cfg.page
    · cases nb with
      | true => exact ⟨_, .inl (by simp only [go, hu, runGo, sendGo]; rw [if_neg h1, if_neg h2, if_pos h3, if_pos trivial]), hret _ _ _ _⟩
      | false =>
        rcases hf bs rfl with h | h | h
        · exact absurd h h1
        · exact absurd h h2
        · omega
    · have e1 : go cfg s u = some { s with
          thr := put s.thr u (.run fd (.send bs nb) (min bs.length (d + (cfg.cap - (s.buf (peer (cfg.of fd))).length))))
          buf := put s.buf (peer (cfg.of fd)) (s.buf (peer (cfg.of fd)) ++
            (bs.drop d).take (cfg.cap - (s.buf (peer (cfg.of fd))).length)) } := by
        simp only [go, hu, runGo, sendGo]; rw [if_neg h1, if_neg h2, if_neg h3]
      by_cases h4 : bs.length ≤ d + (cfg.cap - (s.buf (peer (cfg.of fd))).length)
      · refine Exists.imp (fun s' (h : go cfg _ u = some s' ∧ s'.lock (cfg.of fd) = none) => ⟨.inr ⟨_, e1, h.1⟩, h.2⟩) ?_
        exact ⟨_, by
          simp only [go, put, if_true, runGo, sendGo]
          rw [if_pos (by rw [Nat.min_eq_left h4]; exact Nat.le_refl _)], hret _ _ _ _⟩
      · cases nb with
        | false =>
          rcases hf bs rfl with h | h | h
          · exact absurd h h1
          · exact absurd h h2
          · exact absurd h.2 h4
        | true =>
          refine Exists.imp (fun s' (h : go cfg _ u = some s' ∧ s'.lock (cfg.of fd) = none) => ⟨.inr ⟨_, e1, h.1⟩, h.2⟩) ?_
          exact ⟨_, by
            simp only [go, put, if_true, runGo, sendGo]
            rw [if_neg (by rw [Nat.min_eq_right (by omega)]; omega), if_neg (by simpa [gone] using h2), if_pos (by
              rw [List.length_append, List.length_take, List.length_drop]; omega)], hret _ _ _ _⟩

/-- C91, turns.  If every thread has descriptors of its own, a call that waits, for whatever other threads do on other descriptors of the same
socket, gets its turn within four steps, as soon as no send on that socket has to wait for room.  Missing: descriptors used by two threads
(`slot_violated`, `duplex_violated`), sends that wait (`full_violated`). -/
theorem turn_partial (cfg : Cfg) (hp : 0 < cfg.page) (own : Nat → Nat) (l : List Act) (hl : ∀ a ∈ l, Own own a) (t fd : Nat) (c : Call)
    (ht : (runFrom cfg (init cfg) l).thr t = .slot fd c ∨ (runFrom cfg (init cfg) l).thr t = .lock fd c)
    (ho : (runFrom cfg (init cfg) l).open fd = true)
    (hf : ∀ u f bs d, (runFrom cfg (init cfg) l).thr u = .run f (.send bs false) d → cfg.of f = cfg.of fd →
      Fits cfg (runFrom cfg (init cfg) l) f bs d) :
    ∃ us : List Nat, us.length ≤ 4 ∧ (runFrom cfg (runFrom cfg (init cfg) l) (us.map .go)).thr t = .run fd c 0 := by
  have hi := inv_run (l := l) (inv_init cfg)
  have hown := own_run (cfg := cfg) (l := l) (s := init cfg) (fun t fd h => (nomatch h)) hl
  generalize runFrom cfg (init cfg) l = s at *
  have htf : (s.thr t).fd = some fd := by rcases ht with h | h <;> rw [h] <;> rfl
  -- once the handle is free
  have fin : ∀ s' : St, s'.thr t = s.thr t → s'.lock (cfg.of fd) = none → s'.slot fd = s.slot fd → s'.open fd = true →
      ∃ us : List Nat, us.length ≤ 2 ∧ (runFrom cfg s' (us.map .go)).thr t = .run fd c 0 := by
    intro s' h1 h2 h3 h4
    rcases ht with ht | ht
    · have hn : s.slot fd = none := by
        cases hs : s.slot fd with
        | none => rfl
        | some u =>
          have hu := (hi.slot fd u).1 hs
          have : (s.thr u).fd = some fd := by
            cases hx : s.thr u <;> rw [hx] at hu <;> simp_all [Phase.has, Phase.fd]
          have e1 := hown u fd this
          have e2 := hown t fd htf
          rw [← e1, e2, ht] at hu
          cases hu
      refine ⟨[t, t], Nat.le_refl _, ?_⟩
      simp [runFrom, step, go, h1, ht, h3, hn, h4, put, h2]
    · refine ⟨[t], Nat.le_succ 1, ?_⟩
      simp [runFrom, step, go, h1, ht, h2, put]
  cases hk : s.lock (cfg.of fd) with
  | none =>
    obtain ⟨us, h1, h2⟩ := fin s rfl hk rfl ho
    exact ⟨us, by omega, h2⟩
  | some u =>
    have hu := (hi.lock _ u).1 hk
    cases hx : s.thr u with
    | idle => rw [hx] at hu; cases hu
    | slot _ _ => rw [hx] at hu; cases hu
    | lock _ _ => rw [hx] at hu; cases hu
    | run f c' d =>
      rw [hx] at hu
      simp only [Phase.holds, Option.some.injEq] at hu
      have hut : u ≠ t := fun e => by rw [e] at hx; rcases ht with h | h <;> rw [h] at hx <;> cases hx
      have hff : (s.thr u).fd ≠ some fd := fun e => hut ((hown u fd e).symm.trans (hown t fd htf))
      obtain ⟨s', hs', hlock⟩ := release hp hx (fun bs hc => hf u f bs d (by rw [hx, hc]) hu)
      rw [hu] at hlock
      rcases hs' with hs' | ⟨s1, hs1, hs'⟩
      · obtain ⟨h1, _, h3⟩ := go_thr hs'
        obtain ⟨us, g1, g2⟩ := fin s' (h1 t (Ne.symm hut)) hlock (h3 fd hff).1 ((h3 fd hff).2.trans ho)
        refine ⟨u :: us, by simp only [List.length_cons]; omega, ?_⟩
        simp only [List.map_cons, runFrom, step, hs', Option.getD_some]
        exact g2
      · obtain ⟨h1, h2, h3⟩ := go_thr hs1
        have hff1 : (s1.thr u).fd ≠ some fd := fun e => by
          rcases h2 with h | h
          · rw [h] at e; cases e
          · exact hff (h ▸ e)
        obtain ⟨k1, _, k3⟩ := go_thr hs'
        obtain ⟨us, g1, g2⟩ := fin s' ((k1 t (Ne.symm hut)).trans (h1 t (Ne.symm hut))) hlock
          ((k3 fd hff1).1.trans (h3 fd hff).1) ((k3 fd hff1).2.trans ((h3 fd hff).2.trans ho))
        refine ⟨u :: u :: us, by simp only [List.length_cons]; omega, ?_⟩
        simp only [List.map_cons, runFrom, step, hs1, hs', Option.getD_some]
        exact g2

/-- C91.  A call whose turn it is and that has what it needs returns with the right answer: data if there are any, end of file if the other
side is gone, EAGAIN if it does not want to wait; a send for which there is room gives all. -/
theorem turn_answer (cfg : Cfg) (s : St) (t fd : Nat) (c : Call) (ht : s.thr t = .run fd c 0) :
    (∀ n nb, c = .recv n nb → 0 < n → s.buf (cfg.of fd) ≠ [] →
      ∃ s', go cfg s t = some s' ∧ s'.log = s.log ++ [⟨t, fd, c, .data ((s.buf (cfg.of fd)).take n), 0⟩] ∧
        s'.buf (cfg.of fd) = (s.buf (cfg.of fd)).drop n) ∧
    (∀ n nb, c = .recv n nb → 0 < n → s.buf (cfg.of fd) = [] → gone cfg s (peer (cfg.of fd)) = true →
      ∃ s', go cfg s t = some s' ∧ s'.log = s.log ++ [⟨t, fd, c, .eof, 0⟩]) ∧
    (∀ n, c = .recv n true → 0 < n → s.buf (cfg.of fd) = [] → gone cfg s (peer (cfg.of fd)) = false →
      ∃ s', go cfg s t = some s' ∧ s'.log = s.log ++ [⟨t, fd, c, .again, 0⟩]) ∧
    (∀ bs nb, c = .send bs nb → bs ≠ [] → gone cfg s (peer (cfg.of fd)) = false →
      cfg.page ≤ cfg.cap - (s.buf (peer (cfg.of fd))).length → bs.length ≤ cfg.cap - (s.buf (peer (cfg.of fd))).length →
      ∃ s1 s', go cfg s t = some s1 ∧ go cfg s1 t = some s' ∧ s'.log = s.log ++ [⟨t, fd, c, .sent bs.length, bs.length⟩] ∧
        s'.buf (peer (cfg.of fd)) = s.buf (peer (cfg.of fd)) ++ bs) := by
  refine ⟨?_, ?_, ?_, ?_⟩
  · intro n nb hc hn hb
    subst hc
    refine ⟨_, by simp only [go, ht, runGo, recvGo]; rw [if_neg (by omega), if_pos hb], rfl, ?_⟩
    simp [ret, put]
  · intro n nb hc hn hb hg
    subst hc
    exact ⟨_, by simp only [go, ht, runGo, recvGo]; rw [if_neg (by omega), if_neg (by simpa using hb), if_pos hg], rfl⟩
  · intro n hc hn hb hg
    subst hc
    exact ⟨_, by simp only [go, ht, runGo, recvGo]; rw [if_neg (by omega), if_neg (by simpa using hb), if_neg (by simp [hg]), if_pos trivial], rfl⟩
  · intro bs nb hc hbs hg h1 h2
    subst hc
    have h0 : bs.length ≠ 0 := fun h => hbs (List.length_eq_zero_iff.mp h)
    refine ⟨_, _, by simp only [go, ht, runGo, sendGo]; rw [if_neg (by omega), if_neg (by simp [hg]), if_neg (by omega)], by
      simp only [go, put, if_true, runGo, sendGo]
      rw [if_pos (by rw [Nat.min_eq_left (by omega)]; exact Nat.le_refl _)], ?_, ?_⟩
    · simp only [ret]
      rw [Nat.min_eq_left (by omega)]
    · simp only [ret, List.drop_zero]
      rw [List.take_of_length_le h2]
      simp [put]

/-- C91, closed descriptors.  A call on a descriptor that is closed gets EBADF as soon as nobody else is in a call on it. -/
theorem closed_badf (cfg : Cfg) (s : St) (t fd : Nat) (c : Call) (ht : s.thr t = .slot fd c) (hs : s.slot fd = none) (ho : s.open fd = false) :
    ∃ s', go cfg s t = some s' ∧ s'.log = s.log ++ [⟨t, fd, c, .badf, 0⟩] ∧ s'.buf = s.buf ∧ s'.thr t = .idle :=
  ⟨{ s with thr := put s.thr t .idle, log := s.log ++ [⟨t, fd, c, .badf, 0⟩] }, by simp [go, ht, hs, ho], rfl, rfl, by simp [put]⟩

/-- C91, closing.  A `close` that has its turn closes the descriptor, and no other; what is under way stays. -/
theorem closes (cfg : Cfg) (s : St) (t fd d : Nat) (ht : s.thr t = .run fd .close d) :
    ∃ s', go cfg s t = some s' ∧ s'.log = s.log ++ [⟨t, fd, .close, .closed, 0⟩] ∧ s'.buf = s.buf ∧
      ∀ f, s'.open f = (s.open f && f != fd) :=
  ⟨ret cfg { s with «open» := put s.open fd false } t fd .close .closed 0, by simp [go, ht, runGo], rfl, rfl, fun f => by
    by_cases h : f = fd <;> simp [ret, put, h]⟩

/-- Meets the hypotheses: a thread is about to close; one of the others is in a call. -/
example : let cfg : Cfg := ⟨(· % 2), [2, 3], 8, 4⟩
    (runFrom cfg (init cfg) [.call 1 3 .close, .go 1, .go 1, .call 2 2 (.recv 3 false)]).thr 1 = .run 3 .close 0 := by
  decide +kernel

/-- Meets the hypotheses: one thread has closed the descriptor, another calls. -/
example : let cfg : Cfg := ⟨(· % 2), [2, 3], 8, 4⟩
    let s := runFrom cfg (init cfg) [.call 1 3 .close, .go 1, .go 1, .go 1, .call 2 3 (.recv 3 false)]
    s.thr 2 = .slot 3 (.recv 3 false) ∧ s.slot 3 = none ∧ s.open 3 = false := by
  decide +kernel

/-- Nobody uses a socket of the number `k` now: no descriptor of it is open. -/
def Left (cfg : Cfg) (s : St) (k : Nat) : Prop := ∀ fd ∈ cfg.fds, cfg.of fd = k → s.open fd = false

theorem gone_iff {cfg : Cfg} {s : St} {k : Nat} : gone cfg s k = true ↔ Left cfg s k := by
  simp [gone, Left, Decidable.or_iff_not_imp_left]

/-- C91, why.  End of file is for a receive when nothing is left to be read and the other side has gone, EPIPE for a send when the other side
has gone, EAGAIN for a receive when nothing is there or a send that has written nothing for want of room, EBADF for a descriptor that is closed, and select
and poll call a socket readable exactly if data are there or the other side has gone. -/
theorem why (cfg : Cfg) (s s' : St) (t : Nat) (hs : go cfg s t = some s') :
    s'.log = s.log ∨ ∃ e, s'.log = s.log ++ [e] ∧ e.t = t ∧
      (e.r = .eof → s.buf (cfg.of e.fd) = [] ∧ Left cfg s (peer (cfg.of e.fd))) ∧
      (e.r = .pipe → Left cfg s (peer (cfg.of e.fd))) ∧
      (∀ n nb, e.c = .recv n nb → e.r = .again → s.buf (cfg.of e.fd) = []) ∧
      (∀ bs nb, e.c = .send bs nb → e.r = .again → e.d = 0 ∧ cfg.cap < (s.buf (peer (cfg.of e.fd))).length + cfg.page) ∧
      (e.r = .badf → s.open e.fd = false) ∧
      (∀ b, e.r = .ready b → (b = true ↔ s.buf (cfg.of e.fd) ≠ [] ∨ Left cfg s (peer (cfg.of e.fd)))) := by
  unfold go at hs
  split at hs
  · cases hs
  · next fd c ht =>
    split at hs
    · cases hs
    · split at hs
      · cases hs; exact .inl rfl
      · next h =>
        cases hs
        exact .inr ⟨_, rfl, rfl, by simp, by simp, by simp, by simp, by simpa using h, by simp⟩
  · split at hs
    · cases hs
    · cases hs; exact .inl rfl
  · next fd c d ht =>
    cases c with
    | recv n nb =>
      simp only [runGo, Option.some.injEq] at hs
      subst hs
      unfold recvGo
      dsimp only
      split
      · exact .inr ⟨_, rfl, rfl, by simp, by simp, by simp, by simp, by simp, by simp⟩
      · split
        · exact .inr ⟨_, rfl, rfl, by simp, by simp, by simp, by simp, by simp, by simp⟩
        · next hb =>
          have hb : s.buf (cfg.of fd) = [] := by simpa using hb
          split
          · next hg => exact .inr ⟨_, rfl, rfl, fun _ => ⟨hb, gone_iff.mp hg⟩, by simp, by simp, by simp, by simp, by simp⟩
          · split
            · exact .inr ⟨_, rfl, rfl, by simp, by simp, fun _ _ _ _ => hb, by simp, by simp, by simp⟩
            · exact .inl rfl
    | send bs nb =>
      simp only [runGo] at hs
      unfold sendGo at hs
      dsimp only at hs
      split at hs
      · cases hs; exact .inr ⟨_, rfl, rfl, by simp, by simp, by simp, by simp, by simp, by simp⟩
      · split at hs
        · next hg => cases hs; exact .inr ⟨_, rfl, rfl, by simp, fun _ => gone_iff.mp hg, by simp, by simp, by simp, by simp⟩
        · split at hs
          · next hr =>
            split at hs
            · cases hs
              refine .inr ⟨_, rfl, rfl, ?_, ?_, by simp, ?_, ?_, ?_⟩
              · dsimp only; split <;> simp
              · dsimp only; split <;> simp
              · dsimp only
                intro _ _ _ h
                split at h
                · cases h
                · omega
              · dsimp only; split <;> simp
              · dsimp only; split <;> simp
            · cases hs
          · cases hs; exact .inl rfl
    | look =>
      simp only [runGo, Option.some.injEq] at hs
      subst hs
      refine .inr ⟨_, rfl, rfl, by simp, by simp, by simp, by simp, by simp, ?_⟩
      intro b h
      simp only [Res.ready.injEq] at h
      subst h
      rw [← gone_iff]
      simp
    | close =>
      simp only [runGo, Option.some.injEq] at hs
      subst hs
      exact .inr ⟨_, rfl, rfl, by simp, by simp, by simp, by simp, by simp, by simp⟩

/-- Meets the hypotheses: the other side has been closed, and a receive finds nothing. -/
example : let cfg : Cfg := ⟨(· % 2), [2, 3], 8, 4⟩
    let s := runFrom cfg (init cfg) [.call 1 3 .close, .go 1, .go 1, .go 1, .call 2 2 (.recv 3 false), .go 2, .go 2]
    (go cfg s 2).map (·.log.map (·.r)) = some [.closed, .eof] := by
  decide +kernel

/-! ## What does not hold -/

/-- A call that adds nothing to what the other side of `fd` sees and leaves it there. -/
def Quiet (cfg : Cfg) (k : Nat) : Act → Prop
  | .call _ fd c => cfg.of fd = peer k → c = .look ∨ ∃ n nb, c = .recv n nb
  | .go _ => True

/-- The same of the call a thread is in. -/
def QuietP (cfg : Cfg) (k : Nat) : Phase → Prop
  | .idle => True
  | .slot fd c | .lock fd c | .run fd c _ => cfg.of fd = peer k → c = .look ∨ ∃ n nb, c = .recv n nb

/-- Thread 1 waits in `recv` on descriptor `a`, thread 2 waits for `a`, and nobody sends anything. -/
structure Held (cfg : Cfg) (a b n : Nat) (c : Call) (s : St) : Prop where
  one : s.thr 1 = .lock a (.recv n false) ∨ s.thr 1 = .run a (.recv n false) 0
  two : s.thr 2 = .slot a c
  slot : s.slot a = some 1
  buf : s.buf (cfg.of a) = []
  here : s.open b = true
  quiet : ∀ t, QuietP cfg (cfg.of a) (s.thr t)
  log : ∀ e ∈ s.log, e.t ≠ 1 ∧ e.t ≠ 2

theorem held_ret {cfg : Cfg} {a b n : Nat} {c c' : Call} {s : St} (h : Held cfg a b n c s) {t fd d : Nat} {r : Res}
    {bf : Nat → List Nat} {op : Nat → Bool} (h1 : t ≠ 1) (h2 : t ≠ 2) (hfd : fd ≠ a) (hb : bf (cfg.of a) = []) (ho : op b = true) :
    Held cfg a b n c (ret cfg { s with buf := bf, «open» := op } t fd c' r d) := by
  obtain ⟨g1, g2, g3, g4, g5, g6, g7⟩ := h
  constructor
  · simpa [ret, put, Ne.symm h1] using g1
  · simpa [ret, put, Ne.symm h2] using g2
  · simpa [ret, put, Ne.symm hfd] using g3
  · exact hb
  · exact ho
  · intro u; simp only [ret, put]; split
    · exact trivial
    · exact g6 u
  · intro e he
    rcases List.mem_append.mp he with h | h
    · exact g7 e h
    · rw [List.mem_singleton] at h; subst h; exact ⟨h1, h2⟩

theorem held_thr {cfg : Cfg} {a b n : Nat} {c : Call} {s s' : St} (h : Held cfg a b n c s) {t : Nat} {p : Phase} (h1 : t ≠ 1) (h2 : t ≠ 2)
    (hq : QuietP cfg (cfg.of a) p) (e1 : s'.thr = put s.thr t p) (e2 : s'.slot a = s.slot a) (e3 : s'.buf (cfg.of a) = s.buf (cfg.of a))
    (e4 : s'.open = s.open) (e5 : ∀ e ∈ s'.log, e ∈ s.log ∨ e.t = t) : Held cfg a b n c s' := by
  obtain ⟨g1, g2, g3, g4, g5, g6, g7⟩ := h
  constructor
  · rw [e1]; simpa [put, Ne.symm h1] using g1
  · rw [e1]; simpa [put, Ne.symm h2] using g2
  · rw [e2]; exact g3
  · rw [e3]; exact g4
  · rw [e4]; exact g5
  · intro u; rw [e1]; simp only [put]; split
    · exact hq
    · exact g6 u
  · intro e he
    rcases e5 e he with h | h
    · exact g7 e h
    · rw [h]; exact ⟨h1, h2⟩

theorem held_step {cfg : Cfg} {a b n : Nat} {c : Call} {s s' : St} (hi : Inv cfg s) (h : Held cfg a b n c s) (hn : 0 < n)
    (hb : b ∈ cfg.fds) (hab : cfg.of b = peer (cfg.of a)) {x : Act} (hx : Quiet cfg (cfg.of a) x) (hs : step cfg s x = some s') :
    Held cfg a b n c s' := by
  have hng : gone cfg s (peer (cfg.of a)) = false := by
    cases hg : gone cfg s (peer (cfg.of a)) with
    | false => rfl
    | true =>
      unfold gone at hg
      rw [List.all_eq_true] at hg
      have := hg b hb
      simp [hab, h.here] at this
  cases x with
  | call t fd c' =>
    simp only [step] at hs
    split at hs
    · next ht =>
      cases hs
      have h1 : t ≠ 1 := fun e => by subst e; rcases h.one with h | h <;> rw [h] at ht <;> cases ht
      have h2 : t ≠ 2 := fun e => by subst e; rw [h.two] at ht; cases ht
      exact held_thr h h1 h2 (p := .slot fd c') hx rfl rfl rfl rfl fun e he => .inl he
    · cases hs
  | go t =>
    simp only [step] at hs
    by_cases h2 : t = 2
    · subst h2
      simp [go, h.two, h.slot] at hs
    by_cases h1 : t = 1
    · subst h1
      rcases h.one with ho | ho
      · simp only [go, ho] at hs
        split at hs
        · cases hs
        · cases hs
          refine ⟨.inr (by simp [put]), by simpa [put] using h.two, h.slot, h.buf, h.here, ?_, h.log⟩
          intro u; simp only [put]; split
          · exact fun _ => .inr ⟨n, false, rfl⟩
          · exact h.quiet u
      · simp only [go, ho, runGo, recvGo] at hs
        rw [if_neg (by omega), if_neg (by simpa using h.buf), if_neg (by simp [hng]), if_neg (by simp)] at hs
        cases hs
        refine ⟨.inl (by simp [put]), by simpa [put] using h.two, h.slot, h.buf, h.here, ?_, h.log⟩
        intro u; simp only [put]; split
        · exact fun _ => .inr ⟨n, false, rfl⟩
        · exact h.quiet u
    -- another thread
    have hq := h.quiet t
    unfold go at hs
    split at hs
    · cases hs
    · next fd c' ht =>
      rw [ht] at hq
      split at hs
      · cases hs
      · next hsl =>
        split at hs
        · cases hs
          refine held_thr h h1 h2 (p := .lock fd c') hq rfl ?_ rfl rfl fun e he => .inl he
          have : a ≠ fd := fun e => hsl (by rw [← e, h.slot]; simp)
          simp [put, this]
        · cases hs
          refine held_thr h h1 h2 (p := .idle) trivial rfl rfl rfl rfl fun e he => ?_
          rcases List.mem_append.mp he with h | h
          · exact .inl h
          · rw [List.mem_singleton] at h; subst h; exact .inr rfl
    · next fd c' ht =>
      rw [ht] at hq
      split at hs
      · cases hs
      · cases hs
        exact held_thr h h1 h2 (p := .run fd c' 0) hq rfl rfl rfl rfl fun e he => .inl he
    · next fd c' d ht =>
      have hfa : fd ≠ a := fun e => by
        have := (hi.slot fd t).2 (by rw [ht]; rfl)
        rw [e, h.slot, Option.some.injEq] at this
        exact h1 this.symm
      rw [ht] at hq
      simp only [QuietP] at hq
      cases c' with
      | recv m nb =>
        simp only [runGo, Option.some.injEq] at hs
        subst hs
        unfold recvGo
        dsimp only
        split
        · exact held_ret (bf := s.buf) (op := s.open) h h1 h2 hfa h.buf h.here
        · split
          · refine held_ret (op := s.open) h h1 h2 hfa ?_ h.here
            simp only [put]; split
            · next e => rw [← e, h.buf]; simp
            · exact h.buf
          · split
            · exact held_ret (bf := s.buf) (op := s.open) h h1 h2 hfa h.buf h.here
            · split
              · exact held_ret (bf := s.buf) (op := s.open) h h1 h2 hfa h.buf h.here
              · exact held_thr h h1 h2 (p := .lock fd (.recv m nb)) hq rfl rfl rfl rfl fun e he => .inl he
      | send bs nb =>
        have hk : cfg.of fd ≠ peer (cfg.of a) := fun e => by
          rcases hq e with h | ⟨_, _, h⟩ <;> cases h
        simp only [runGo] at hs
        unfold sendGo at hs
        dsimp only at hs
        split at hs
        · cases hs; exact held_ret (bf := s.buf) (op := s.open) h h1 h2 hfa h.buf h.here
        · split at hs
          · cases hs; exact held_ret (bf := s.buf) (op := s.open) h h1 h2 hfa h.buf h.here
          · split at hs
            · split at hs
              · cases hs; exact held_ret (bf := s.buf) (op := s.open) h h1 h2 hfa h.buf h.here
              · cases hs
            · cases hs
              refine held_thr h h1 h2 (p := .run fd (.send bs nb) _) hq rfl rfl ?_ rfl fun e he => .inl he
              have : cfg.of a ≠ peer (cfg.of fd) := fun e => hk (by rw [e, peer_peer])
              simp [put, this]
      | look =>
        simp only [runGo, Option.some.injEq] at hs
        subst hs
        exact held_ret (bf := s.buf) (op := s.open) h h1 h2 hfa h.buf h.here
      | close =>
        have hk : fd ≠ b := fun e => by
          rcases hq (by rw [e, hab]) with h | ⟨_, _, h⟩ <;> cases h
        simp only [runGo, Option.some.injEq] at hs
        subst hs
        refine held_ret (bf := s.buf) h h1 h2 hfa h.buf ?_
        simp only [put]; rw [if_neg (Ne.symm hk)]; exact h.here

theorem held_run {cfg : Cfg} {a b n : Nat} {c : Call} (hn : 0 < n) (hb : b ∈ cfg.fds) (hab : cfg.of b = peer (cfg.of a)) {l : List Act} :
    ∀ {s : St}, Inv cfg s → Held cfg a b n c s → (∀ x ∈ l, Quiet cfg (cfg.of a) x) → Held cfg a b n c (runFrom cfg s l) := by
  induction l with
  | nil => exact fun _ h _ => h
  | cons x l ih =>
    intro s hi h hl
    simp only [runFrom]
    have hl' : ∀ x ∈ l, Quiet cfg (cfg.of a) x := fun y hy => hl y (List.mem_cons_of_mem _ hy)
    cases hs : step cfg s x with
    | none => exact ih hi h hl'
    | some s' => exact ih (inv_step hi hs) (held_step hi h hn hb hab (hl x List.mem_cons_self) hs) hl'

/-- Thread 1 waits for data on `a`; then thread 2 makes a call on `a`. -/
def heldRun (a n : Nat) (c : Call) : List Act := [.call 1 a (.recv n false), .go 1, .go 1, .call 2 a c]

theorem held_begin {cfg : Cfg} {a b n : Nat} (c : Call) (ha : a ∈ cfg.fds) (hb : b ∈ cfg.fds) :
    Held cfg a b n c (runFrom cfg (init cfg) (heldRun a n c)) := by
  have e : runFrom cfg (init cfg) (heldRun a n c) = { init cfg with
      thr := put (put (put (put (init cfg).thr 1 (.slot a (.recv n false))) 1 (.lock a (.recv n false))) 1 (.run a (.recv n false) 0)) 2
        (.slot a c)
      slot := put (init cfg).slot a (some 1)
      lock := put (init cfg).lock (cfg.of a) (some 1) } := by
    simp [heldRun, runFrom, step, go, init, put, ha]
  rw [e]
  refine ⟨.inr (by simp [put]), by simp [put], by simp [put], rfl, by simp [init, hb], fun t => ?_, fun e he => (nomatch he)⟩
  simp only [put]
  have hne : cfg.of a ≠ peer (cfg.of a) := fun h => peer_ne _ h.symm
  split
  · exact fun h => absurd h hne
  · split
    · exact fun h => absurd h hne
    · exact trivial

/-- C91 does not hold for descriptors that two threads use: while one waits for data in `recv`, no call of another on the same
descriptor returns, not even one that need not wait: no `send`, no select or poll, no `recv` that is not to block, no `close` (and so no
`exit`, which closes all).  It goes on until somebody sends to the socket or leaves the other side. -/
theorem slot_violated (cfg : Cfg) (a b n : Nat) (c : Call) (hn : 0 < n) (ha : a ∈ cfg.fds) (hb : b ∈ cfg.fds)
    (hab : cfg.of b = peer (cfg.of a)) (l : List Act) (hl : ∀ x ∈ l, Quiet cfg (cfg.of a) x) :
    (runFrom cfg (runFrom cfg (init cfg) (heldRun a n c)) l).thr 2 = .slot a c ∧
    ∀ e ∈ (runFrom cfg (runFrom cfg (init cfg) (heldRun a n c)) l).log, e.t ≠ 2 := by
  have h := held_run hn hb hab (inv_run (inv_init cfg)) (held_begin c ha hb) hl
  exact ⟨h.two, fun e he => (h.log e he).2⟩

/-- Meets the hypotheses: two descriptors, a third thread looks at and reads from the other side. -/
example : (∀ x ∈ [Act.call 3 4 (.recv 5 false), .go 3, .go 3, .go 2, .go 1, .call 4 4 .look, .go 4], Quiet ⟨(· - 3), [3, 4], 8, 4⟩ 0 x) ∧
    (3 : Nat) ∈ [3, 4] ∧ (4 : Nat) - 3 = peer (3 - 3) := by
  refine ⟨?_, by decide, by decide⟩
  intro x hx
  simp only [List.mem_cons, List.not_mem_nil, or_false] at hx
  rcases hx with rfl | rfl | rfl | rfl | rfl | rfl | rfl <;> simp [Quiet]

/-- The threads 1, 2 and 3 all are in calls on one connection that wait for one another. -/
structure Knot3 (cfg : Cfg) (a b n m : Nat) (bs : List Nat) (s : St) : Prop where
  held : Held cfg a b n (.send bs false) s
  three : s.thr 3 = .slot b (.recv m false) ∨ s.thr 3 = .lock b (.recv m false) ∨ s.thr 3 = .run b (.recv m false) 0
  buf : s.buf (cfg.of b) = []
  here : s.open a = true
  log : s.log = []

/-- What the three threads do. -/
def Act.thread : Act → Nat
  | .call t _ _ => t
  | .go t => t

theorem knot3_step {cfg : Cfg} {a b n m : Nat} {bs : List Nat} {s s' : St} (hi : Inv cfg s) (h : Knot3 cfg a b n m bs s) (hn : 0 < n)
    (hm : 0 < m) (ha : a ∈ cfg.fds) (hb : b ∈ cfg.fds) (hab : cfg.of b = peer (cfg.of a)) {x : Act} (hx : x.thread ∈ [1, 2, 3])
    (hs : step cfg s x = some s') : Knot3 cfg a b n m bs s' := by
  have hne : a ≠ b := fun e => peer_ne (cfg.of a) (by rw [← hab, e])
  have hx' : ∃ t, x = .go t := by
    cases x with
    | go t => exact ⟨t, rfl⟩
    | call t fd c =>
      simp only [step] at hs
      simp only [Act.thread, List.mem_cons, List.not_mem_nil, or_false] at hx
      exfalso
      rcases hx with rfl | rfl | rfl
      · rcases h.held.one with g | g <;> simp [g] at hs
      · simp [h.held.two] at hs
      · rcases h.three with g | g | g <;> simp [g] at hs
  obtain ⟨t, rfl⟩ := hx'
  have hh := held_step hi h.held hn hb hab (x := .go t) trivial hs
  simp only [step] at hs
  simp only [Act.thread, List.mem_cons, List.not_mem_nil, or_false] at hx
  rcases hx with rfl | rfl | rfl
  · have hth := (go_thr hs).1 3 (by decide)
    have hng : gone cfg s (peer (cfg.of a)) = false := by
      cases hg : gone cfg s (peer (cfg.of a)) with
      | false => rfl
      | true =>
        unfold gone at hg
        rw [List.all_eq_true] at hg
        have := hg b hb
        simp [hab, h.held.here] at this
    rcases h.held.one with ho | ho
    · simp only [go, ho] at hs
      split at hs
      · cases hs
      · cases hs
        exact ⟨hh, by rw [hth]; exact h.three, h.buf, h.here, h.log⟩
    · simp only [go, ho, runGo, recvGo] at hs
      rw [if_neg (by omega), if_neg (by simpa using h.held.buf), if_neg (by simp [hng]), if_neg (by simp)] at hs
      cases hs
      exact ⟨hh, by rw [hth]; exact h.three, h.buf, h.here, h.log⟩
  · simp [go, h.held.two, h.held.slot] at hs
  · have hng : gone cfg s (peer (cfg.of b)) = false := by
      cases hg : gone cfg s (peer (cfg.of b)) with
      | false => rfl
      | true =>
        unfold gone at hg
        rw [List.all_eq_true] at hg
        have := hg a ha
        simp [hab, peer_peer, h.here] at this
    rcases h.three with ho | ho | ho
    · simp only [go, ho] at hs
      split at hs
      · cases hs
      · rw [if_pos h.held.here] at hs
        cases hs
        exact ⟨hh, .inr (.inl (by simp [put])), h.buf, h.here, h.log⟩
    · simp only [go, ho] at hs
      split at hs
      · cases hs
      · cases hs
        exact ⟨hh, .inr (.inr (by simp [put])), h.buf, h.here, h.log⟩
    · simp only [go, ho, runGo, recvGo] at hs
      rw [if_neg (by omega), if_neg (by simpa using h.buf), if_neg (by simp [hng]), if_neg (by simp)] at hs
      cases hs
      exact ⟨hh, .inr (.inl (by simp [put])), h.buf, h.here, h.log⟩

/-- C91 does not hold: one thread waits for answers on a descriptor, another sends the questions on the same descriptor, and a third, at the
other end, waits for a question before it answers.  The question is never sent, and none of them ever returns, although there is room for it. -/
theorem duplex_violated (cfg : Cfg) (a b n m : Nat) (bs : List Nat) (hn : 0 < n) (hm : 0 < m) (ha : a ∈ cfg.fds) (hb : b ∈ cfg.fds)
    (hab : cfg.of b = peer (cfg.of a)) (l : List Act) (hl : ∀ x ∈ l, x.thread ∈ [1, 2, 3]) :
    (runFrom cfg (runFrom cfg (init cfg) (heldRun a n (.send bs false) ++ [.call 3 b (.recv m false)])) l).log = [] ∧
    (runFrom cfg (runFrom cfg (init cfg) (heldRun a n (.send bs false) ++ [.call 3 b (.recv m false)])) l).buf (cfg.of b) = [] := by
  suffices H : ∀ l s, Inv cfg s → Knot3 cfg a b n m bs s → (∀ x ∈ l, x.thread ∈ [1, 2, 3]) → Knot3 cfg a b n m bs (runFrom cfg s l) by
    have h0 : Knot3 cfg a b n m bs (runFrom cfg (init cfg) (heldRun a n (.send bs false) ++ [.call 3 b (.recv m false)])) := by
      have hh := held_begin (n := n) (.send bs false) ha hb
      have e : runFrom cfg (init cfg) (heldRun a n (.send bs false)) = { init cfg with
          thr := put (put (put (put (init cfg).thr 1 (.slot a (.recv n false))) 1 (.lock a (.recv n false))) 1 (.run a (.recv n false) 0)) 2
            (.slot a (.send bs false))
          slot := put (init cfg).slot a (some 1)
          lock := put (init cfg).lock (cfg.of a) (some 1) } := by
        simp [heldRun, runFrom, step, go, init, put, ha]
      have e2 : ∀ (l l' : List Act) (s : St), runFrom cfg s (l ++ l') = runFrom cfg (runFrom cfg s l) l' := by
        intro l l'
        induction l with
        | nil => exact fun s => rfl
        | cons x l ih => exact fun s => ih _
      rw [e2]
      have h3 : (runFrom cfg (init cfg) (heldRun a n (.send bs false))).thr 3 = .idle := by rw [e]; simp [put, init]
      have hs : step cfg (runFrom cfg (init cfg) (heldRun a n (.send bs false))) (.call 3 b (.recv m false)) =
          some { runFrom cfg (init cfg) (heldRun a n (.send bs false)) with
            thr := put (runFrom cfg (init cfg) (heldRun a n (.send bs false))).thr 3 (.slot b (.recv m false)) } := by
        simp only [step]; rw [if_pos h3]
      have hh' := held_step (inv_run (inv_init cfg)) hh hn hb hab (x := .call 3 b (.recv m false)) (fun _ => .inr ⟨m, false, rfl⟩) hs
      simp only [runFrom]
      rw [hs, Option.getD_some]
      refine ⟨hh', .inl (by simp [put]), ?_, ?_, ?_⟩
      · rw [e]; rfl
      · rw [e]; simp [init, ha]
      · rw [e]; rfl
    have := H l _ (inv_run (inv_init cfg)) h0 hl
    exact ⟨this.log, this.buf⟩
  intro l
  induction l with
  | nil => exact fun s _ h _ => h
  | cons x l ih =>
    intro s hi h hl
    simp only [runFrom]
    have hl' : ∀ x ∈ l, x.thread ∈ [1, 2, 3] := fun y hy => hl y (List.mem_cons_of_mem _ hy)
    cases hs : step cfg s x with
    | none => exact ih s hi h hl'
    | some s' => exact ih s' (inv_step hi hs) (knot3_step hi h hn hm ha hb hab (hl x List.mem_cons_self) hs) hl'

/-- The descriptors 2 and 4 of socket 0 and 3 of socket 1. -/
def three (cap page : Nat) : Cfg := ⟨(· % 2), [2, 3, 4], cap, page⟩

/-- Both sides send more than fits; then a thread wants to receive on one side. -/
def fullRun (cap : Nat) : List Act :=
  [.call 1 2 (.send (List.replicate (cap + 1) 0) false), .go 1, .go 1, .go 1,
   .call 3 3 (.send (List.replicate (cap + 1) 0) false), .go 3, .go 3, .go 3,
   .call 2 4 (.recv 1 false), .go 2]

theorem full_state (cap page : Nat) (hc : page ≤ cap) :
    (runFrom (three cap page) (init (three cap page)) (fullRun cap)).thr 1 = .run 2 (.send (List.replicate (cap + 1) 0) false) cap ∧
    (runFrom (three cap page) (init (three cap page)) (fullRun cap)).thr 2 = .lock 4 (.recv 1 false) ∧
    (runFrom (three cap page) (init (three cap page)) (fullRun cap)).thr 3 = .run 3 (.send (List.replicate (cap + 1) 0) false) cap ∧
    (runFrom (three cap page) (init (three cap page)) (fullRun cap)).lock 0 = some 1 ∧
    (runFrom (three cap page) (init (three cap page)) (fullRun cap)).open = (init (three cap page)).open ∧
    (∀ k < 2, (runFrom (three cap page) (init (three cap page)) (fullRun cap)).buf k = List.replicate cap 0) ∧
    (runFrom (three cap page) (init (three cap page)) (fullRun cap)).log = [] := by
  have hlt : ¬ cap < page := by omega
  have hm : min (cap + 1) cap = cap := by omega
  have hm' : min cap (cap + 1) = cap := by omega
  have hall : ∀ k < 2, k = 0 ∨ k = 1 := by omega
  refine ⟨?_, ?_, ?_, ?_, ?_, ?_, ?_⟩
  rotate_left 5
  · intro k hk
    rcases hall k hk with rfl | rfl <;>
    simp [runFrom, fullRun, step, go, runGo, sendGo, three, init, put, gone, peer, hlt, hm, hm', -List.reduceReplicate]
  all_goals simp [runFrom, fullRun, step, go, runGo, sendGo, three, init, put, gone, peer, hlt, hm, hm', -List.reduceReplicate]

/-- C91 does not hold, even if every thread has a descriptor of its own: both sides send more than fits, as they may, with a thread ready to
receive on one side.  The send has the socket while it waits for room, the receive does not get it although data are there, and none of
the three ever goes on. -/
theorem full_violated (cap page : Nat) (hp : 0 < page) (hc : page ≤ cap) :
    (runFrom (three cap page) (init (three cap page)) (fullRun cap)).buf 0 ≠ [] ∧
    (runFrom (three cap page) (init (three cap page)) (fullRun cap)).log = [] ∧
    ∀ l : List Act, (∀ x ∈ l, x.thread ∈ [1, 2, 3]) →
      runFrom (three cap page) (runFrom (three cap page) (init (three cap page)) (fullRun cap)) l =
        runFrom (three cap page) (init (three cap page)) (fullRun cap) := by
  obtain ⟨h1, h2, h3, h4, h5, h6, h7⟩ := full_state cap page hc
  generalize runFrom (three cap page) (init (three cap page)) (fullRun cap) = s at *
  refine ⟨?_, h7, fun l => ?_⟩
  · rw [h6 0 (by decide)]
    intro h
    have := congrArg List.length h
    rw [List.length_replicate] at this
    simp only [List.length_nil] at this
    omega
  · induction l with
    | nil => exact fun _ => rfl
    | cons x l ih =>
      intro hl
      have hl' : ∀ x ∈ l, x.thread ∈ [1, 2, 3] := fun y hy => hl y (List.mem_cons_of_mem _ hy)
      have : step (three cap page) s x = none := by
        have hx := hl x List.mem_cons_self
        have hg0 : gone (three cap page) s 0 = false := by simp [gone, three, h5, init]
        have hg1 : gone (three cap page) s 1 = false := by simp [gone, three, h5, init]
        have hb0 : (s.buf 0).length = cap := by rw [h6 0 (by decide), List.length_replicate]
        have hb1 : (s.buf 1).length = cap := by rw [h6 1 (by decide), List.length_replicate]
        have p0 : peer ((three cap page).of 2) = 1 := rfl
        have p1 : peer ((three cap page).of 3) = 0 := rfl
        have hcap : (three cap page).cap = cap := rfl
        have hpage : (three cap page).page = page := rfl
        cases x with
        | call t fd c =>
          simp only [Act.thread, List.mem_cons, List.not_mem_nil, or_false] at hx
          simp only [step]
          rcases hx with rfl | rfl | rfl <;> simp [h1, h2, h3]
        | go t =>
          simp only [Act.thread, List.mem_cons, List.not_mem_nil, or_false] at hx
          simp only [step, go]
          rcases hx with rfl | rfl | rfl
          · simp only [h1, runGo, sendGo, p0, hb1, hg1, hcap, hpage, List.length_replicate]
            rw [if_neg (by omega), if_neg (by simp), if_pos (by omega), if_neg (by simp)]
          · simp only [h2]
            rw [if_pos]
            have : (three cap page).of 4 = 0 := rfl
            rw [this, h4]; simp
          · simp only [h3, runGo, sendGo, p1, hb0, hg0, hcap, hpage, List.length_replicate]
            rw [if_neg (by omega), if_neg (by simp), if_pos (by omega), if_neg (by simp)]
      simp only [runFrom, this, Option.getD_none]
      exact ih hl'

/-! ## Cases that meet the hypotheses -/

/-- Threads 1 and 2 with descriptors 2 and 4 of one side, thread 3 with 3 on the other: thread 2 waits to receive; thread 1 sends two bytes,
is answered with three, of which thread 2 gets two. -/
def talk : List Act :=
  [.call 2 4 (.recv 2 false), .go 2, .go 2, .call 1 2 (.send [7, 8] false), .go 1, .go 2, .go 1, .go 1, .go 1,
   .call 3 3 (.recv 5 true), .go 3, .go 3, .go 3, .call 3 3 (.send [1, 2, 3] false), .go 3, .go 3, .go 3, .go 3, .go 2, .go 2]

/-- `stream`, `bounded`, `answers` on that run. -/
example : (runFrom (three 8 4) (init (three 8 4)) talk).log =
      [⟨1, 2, .send [7, 8] false, .sent 2, 2⟩, ⟨3, 3, .recv 5 true, .data [7, 8], 0⟩, ⟨3, 3, .send [1, 2, 3] false, .sent 3, 3⟩,
       ⟨2, 4, .recv 2 false, .data [1, 2], 0⟩] ∧ (runFrom (three 8 4) (init (three 8 4)) talk).buf 0 = [3] := by
  decide +kernel

/-- The thread a descriptor of that run belongs to. -/
def talkOwn (fd : Nat) : Nat := if fd = 4 then 2 else if fd = 2 then 1 else 3

/-- `turn_partial` at the moment at which thread 1 wants to send while thread 2 has the socket: it gets its turn. -/
example : (∀ a ∈ talk.take 5, Own talkOwn a) ∧ (runFrom (three 8 4) (init (three 8 4)) (talk.take 5)).thr 1 = .lock 2 (.send [7, 8] false) ∧
    (runFrom (three 8 4) (init (three 8 4)) (talk.take 5)).open 2 = true ∧
    (runFrom (three 8 4) (init (three 8 4)) (talk.take 5)).lock 0 = some 2 ∧
    (runFrom (three 8 4) (init (three 8 4)) (talk.take 5)).thr 2 = .run 4 (.recv 2 false) 0 := by
  refine ⟨?_, by decide +kernel⟩
  intro a ha
  simp only [talk, List.take, List.mem_cons, List.not_mem_nil, or_false] at ha
  rcases ha with rfl | rfl | rfl | rfl | rfl <;> simp [Own, talkOwn]

/-- `turn_answer`: a send that finds room, a receive that finds data. -/
example : (runFrom (three 8 4) (init (three 8 4)) (talk.take 7)).thr 1 = .run 2 (.send [7, 8] false) 0 ∧
    gone (three 8 4) (runFrom (three 8 4) (init (three 8 4)) (talk.take 7)) 1 = false ∧
    (runFrom (three 8 4) (init (three 8 4)) (talk.take 12)).thr 3 = .run 3 (.recv 5 true) 0 ∧
    (runFrom (three 8 4) (init (three 8 4)) (talk.take 12)).buf 1 = [7, 8] := by
  decide +kernel

/-- `duplex_violated` and `full_violated` with the numbers of the code. -/
example : (2 : Nat) ∈ (three 212992 4096).fds ∧ (3 : Nat) ∈ (three 212992 4096).fds ∧
    (three 212992 4096).of 3 = peer ((three 212992 4096).of 2) ∧ 0 < (4096 : Nat) ∧ (4096 : Nat) ≤ 212992 := by
  decide +kernel

end Verif.Duplex
