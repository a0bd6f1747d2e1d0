import Verif.Duplex

/-!
# Connected Unix stream sockets used by several threads: invariants
-/

namespace Verif.Duplex

theorem peer_peer (k : Nat) : peer (peer k) = k := by unfold peer; grind
theorem peer_ne (k : Nat) : peer k ≠ k := by unfold peer; grind
theorem peer_inj {j k : Nat} (h : peer j = peer k) : j = k := by rw [← peer_peer j, h, peer_peer]

/-- The descriptor whose entry a thread has. -/
def Phase.has : Phase → Option Nat
  | .lock fd _ | .run fd _ _ => some fd
  | _ => none

/-- The socket whose handle a thread has. -/
def Phase.holds (cfg : Cfg) : Phase → Option Nat
  | .run fd _ _ => some (cfg.of fd)
  | _ => none

/-- All that was received at socket `k`, in order. -/
def recvd (cfg : Cfg) (k : Nat) (l : List Ev) : List Nat :=
  l.flatMap fun e => if cfg.of e.fd = k then match e.r with | .data bs => bs | _ => [] else []

/-- All that sends that have returned gave for socket `k`, one send after the other. -/
def sentTo (cfg : Cfg) (k : Nat) (l : List Ev) : List Nat :=
  l.flatMap fun e => if cfg.of e.fd = peer k then match e.c with | .send bs _ => bs.take e.d | _ => [] else []

/-- What a phase has written. -/
def Phase.part : Phase → List Nat
  | .run _ (.send bs _) d => bs.take d
  | _ => []

/-! ## Who has what -/

/-- `f` says what a thread has, `own` who has it. -/
def Owns (f : Phase → Option Nat) (own : Nat → Option Nat) (thr : Nat → Phase) : Prop := ∀ i t, own i = some t ↔ f (thr t) = some i

theorem Owns.same {f : Phase → Option Nat} {own : Nat → Option Nat} {thr : Nat → Phase} (h : Owns f own thr) {t : Nat} {p : Phase}
    (hp : f p = f (thr t)) : Owns f own (put thr t p) := by
  intro i u
  simp only [put]
  split
  · next e => subst e; rw [h i u, hp]
  · exact h i u

theorem Owns.give {f : Phase → Option Nat} {own : Nat → Option Nat} {thr : Nat → Phase} (h : Owns f own thr) {t i : Nat} {p : Phase}
    (ho : own i = none) (ht : f (thr t) = none) (hp : f p = some i) : Owns f (put own i (some t)) (put thr t p) := by
  intro j u
  have h1 := h j u
  have h2 := h j t
  simp only [put]
  by_cases hj : j = i
  · subst hj
    by_cases hu : u = t
    · subst hu; simp [hp]
    · simp only [if_true, if_neg hu, Option.some.injEq]
      rw [ho] at h1
      exact ⟨fun e => absurd e.symm hu, fun e => (nomatch h1.2 e)⟩
  · by_cases hu : u = t
    · subst hu
      simp only [if_neg hj, if_true, hp, Option.some.injEq]
      exact ⟨fun e => (by rw [h1, ht] at e; cases e), fun e => absurd e.symm hj⟩
    · simp only [if_neg hj, if_neg hu]; exact h1

theorem Owns.drop {f : Phase → Option Nat} {own : Nat → Option Nat} {thr : Nat → Phase} (h : Owns f own thr) {t i : Nat} {p : Phase}
    (ht : f (thr t) = some i) (hp : f p = none) : Owns f (put own i none) (put thr t p) := by
  intro j u
  have h1 := h j u
  have h2 := (h i t).2 ht
  simp only [put]
  by_cases hj : j = i
  · subst hj
    by_cases hu : u = t
    · subst hu; simp [hp]
    · simp only [if_true, if_neg hu]
      rw [h2, Option.some.injEq] at h1
      exact ⟨(nomatch ·), fun e => absurd (h1.2 e).symm hu⟩
  · by_cases hu : u = t
    · subst hu
      simp only [if_neg hj, if_true, hp]
      exact ⟨fun e => (by rw [h1, ht, Option.some.injEq] at e; exact absurd e.symm hj), (nomatch ·)⟩
    · simp only [if_neg hj, if_neg hu]; exact h1

/-- What the thread that has the lock of `j` has written. -/
def curOf (lock : Nat → Option Nat) (thr : Nat → Phase) (j : Nat) : List Nat :=
  match lock j with
  | some t => (thr t).part
  | none => []

theorem curOf_same {lock : Nat → Option Nat} {thr : Nat → Phase} {t : Nat} {p : Phase} (hp : p.part = (thr t).part) (j : Nat) :
    curOf lock (put thr t p) j = curOf lock thr j := by
  unfold curOf put
  cases lock j with
  | none => rfl
  | some u => simp only; split
              · next e => subst e; exact hp
              · rfl

theorem curOf_give {lock : Nat → Option Nat} {thr : Nat → Phase} {t i : Nat} {p : Phase} (hl : lock i = none) (ht : (thr t).part = [])
    (hp : p.part = []) (j : Nat) : curOf (put lock i (some t)) (put thr t p) j = curOf lock thr j := by
  unfold curOf put
  split
  · next u hu =>
    split at hu
    · next e =>
      cases hu
      simp [e, hl, hp]
    · rw [hu]; simp only; split
      · next e => subst e; rw [hp, ht]
      · rfl
  · next hu =>
    split at hu
    · cases hu
    · rw [hu]

theorem curOf_drop {cfg : Cfg} {lock : Nat → Option Nat} {thr : Nat → Phase} (h : Owns (Phase.holds cfg) lock thr) {t i : Nat} {p : Phase}
    (ht : (thr t).holds cfg = some i) (j : Nat) :
    curOf (put lock i none) (put thr t p) j = if j = i then [] else curOf lock thr j := by
  unfold curOf put
  by_cases hj : j = i
  · simp [hj]
  · simp only [if_neg hj]
    cases hu : lock j with
    | none => rfl
    | some u =>
      have : u ≠ t := fun e => by
        subst e
        have := (h j u).1 hu
        rw [ht, Option.some.injEq] at this
        exact hj this.symm
      simp only [if_neg this]

theorem curOf_write {cfg : Cfg} {lock : Nat → Option Nat} {thr : Nat → Phase} (h : Owns (Phase.holds cfg) lock thr) {t i : Nat} {p : Phase}
    (ht : (thr t).holds cfg = some i) (j : Nat) :
    curOf lock (put thr t p) j = if j = i then p.part else curOf lock thr j := by
  unfold curOf put
  by_cases hj : j = i
  · subst hj; simp [(h j t).2 ht]
  · simp only [if_neg hj]
    cases hu : lock j with
    | none => rfl
    | some u =>
      have : u ≠ t := fun e => by
        subst e
        have := (h j u).1 hu
        rw [ht, Option.some.injEq] at this
        exact hj this.symm
      simp only [if_neg this]

/-- What the send in progress has given for socket `k`. -/
def cur (s : St) (k : Nat) : List Nat := curOf s.lock s.thr (peer k)

/-- What holds of a call that has returned. -/
def EvOk (e : Ev) : Prop :=
  (∀ bs nb, e.c = .send bs nb → e.d ≤ bs.length ∧ ∀ n, e.r = .sent n → e.d = n ∧ (nb = false → n = bs.length)) ∧
    (∀ n nb bs, e.c = .recv n nb → e.r = .data bs → bs.length ≤ n ∧ (0 < n → bs ≠ [])) ∧ (e.r = .again → ∃ n bs, e.c = .recv n true ∨ e.c = .send bs true)

/-- What holds of a phase. -/
def POk : Phase → Prop
  | .run _ (.send bs _) d => d ≤ bs.length
  | _ => True

structure Inv (cfg : Cfg) (s : St) : Prop where
  slot : Owns Phase.has s.slot s.thr
  lock : Owns (Phase.holds cfg) s.lock s.thr
  stream : ∀ k, recvd cfg k s.log ++ s.buf k = sentTo cfg k s.log ++ cur s k
  cap : ∀ k, (s.buf k).length ≤ cfg.cap
  ev : ∀ e ∈ s.log, EvOk e
  thr : ∀ t, POk (s.thr t)

theorem inv_init (cfg : Cfg) : Inv cfg (init cfg) := by
  constructor
  · intro fd t; simp [init, Phase.has]
  · intro k t; simp [init, Phase.holds]
  · intro k; simp [init, recvd, sentTo, cur, curOf]
  · intro k; simp [init]
  · intro e he; cases he
  · intro t; exact trivial

theorem recvd_snoc (cfg : Cfg) (k : Nat) (l : List Ev) (e : Ev) : recvd cfg k (l ++ [e]) =
    recvd cfg k l ++ (if cfg.of e.fd = k then match e.r with | .data bs => bs | _ => [] else []) := by
  simp [recvd]

theorem sentTo_snoc (cfg : Cfg) (k : Nat) (l : List Ev) (e : Ev) : sentTo cfg k (l ++ [e]) =
    sentTo cfg k l ++ (if cfg.of e.fd = peer k then match e.c with | .send bs _ => bs.take e.d | _ => [] else []) := by
  simp [sentTo]

/-- A call that has both locks returns, having taken `bs` from its buffer. -/
theorem inv_ret {cfg : Cfg} {s : St} (hi : Inv cfg s) {t fd d d' : Nat} {c : Call} {r : Res} {b : Nat → List Nat} {op : Nat → Bool}
    (ht : s.thr t = .run fd c d) (hd : ∀ bs nb, c = .send bs nb → d' = d)
    (hb : ∀ k, s.buf k = (if cfg.of fd = k then match r with | .data bs => bs | _ => [] else []) ++ b k)
    (he : EvOk ⟨t, fd, c, r, d'⟩) : Inv cfg (ret cfg { s with buf := b, «open» := op } t fd c r d') := by
  obtain ⟨h1, h2, h3, h4, h5, h6⟩ := hi
  have hh : (s.thr t).holds cfg = some (cfg.of fd) := by rw [ht]; rfl
  have hl := (h2 _ t).2 hh
  refine ⟨h1.drop (by rw [ht]; rfl) rfl, h2.drop hh rfl, ?_, ?_, ?_, ?_⟩
  · intro k
    have h := h3 k
    rw [hb k] at h
    simp only [ret, recvd_snoc, sentTo_snoc, cur, curOf_drop h2 hh]
    rw [List.append_assoc, h, List.append_assoc]
    congr 1
    by_cases hk : cfg.of fd = peer k
    · rw [if_pos hk, if_pos hk.symm, List.append_nil]
      unfold cur curOf
      rw [← hk, hl]
      simp only
      rw [ht]
      cases c <;> simp only [Phase.part]
      next bs nb => rw [hd bs nb rfl]
    · rw [if_neg hk, if_neg (fun h => hk h.symm)]; rfl
  · intro k
    have := h4 k
    rw [hb k, List.length_append] at this
    simp only [ret]; omega
  · intro e he'
    rcases List.mem_append.mp he' with h | h
    · exact h5 e h
    · rw [List.mem_singleton] at h; subst h; exact he
  · intro u
    simp only [ret, put]
    split
    · exact trivial
    · exact h6 u

theorem pok_put {thr : Nat → Phase} {t : Nat} {p : Phase} (h : ∀ t, POk (thr t)) (hp : POk p) (u : Nat) : POk (put thr t p u) := by
  unfold put; split
  · exact hp
  · exact h u

theorem inv_go {cfg : Cfg} {s s' : St} (hi : Inv cfg s) {t : Nat} (hs : go cfg s t = some s') : Inv cfg s' := by
  unfold go at hs
  split at hs
  · cases hs
  · next fd c ht =>
    split at hs
    · cases hs
    · next hn =>
      have hn : s.slot fd = none := by simpa using hn
      obtain ⟨h1, h2, h3, h4, h5, h6⟩ := hi
      split at hs
      · cases hs
        refine ⟨h1.give hn (by rw [ht]; rfl) rfl, h2.same (by rw [ht]; rfl), ?_, h4, h5, pok_put h6 trivial⟩
        intro k
        simp only [cur]
        rw [curOf_same (by rw [ht]; rfl)]
        exact h3 k
      · cases hs
        refine ⟨h1.same (by rw [ht]; rfl), h2.same (by rw [ht]; rfl), ?_, h4, ?_, pok_put h6 trivial⟩
        · intro k
          rw [recvd_snoc, sentTo_snoc]
          have : (match c with | .send bs _ => bs.take 0 | _ => ([] : List Nat)) = [] := by cases c <;> simp
          simp only [this, ite_self, List.append_nil, cur]
          rw [curOf_same (by rw [ht]; rfl)]
          exact h3 k
        · intro e he
          rcases List.mem_append.mp he with h | h
          · exact h5 e h
          · rw [List.mem_singleton] at h; subst h
            simp [EvOk]
  · next fd c ht =>
    split at hs
    · cases hs
    · next hn =>
      have hn : s.lock (cfg.of fd) = none := by simpa using hn
      obtain ⟨h1, h2, h3, h4, h5, h6⟩ := hi
      cases hs
      refine ⟨h1.same (by rw [ht]; rfl), h2.give hn (by rw [ht]; rfl) rfl, ?_, h4, h5, pok_put h6 (by cases c <;> simp [POk])⟩
      intro k
      simp only [cur]
      rw [curOf_give hn (by rw [ht]; rfl) (by cases c <;> simp [Phase.part])]
      exact h3 k
  · next fd c d ht =>
    cases c with
    | recv n nb =>
      simp only [runGo, Option.some.injEq] at hs
      subst hs
      unfold recvGo
      dsimp only
      split
      · next hn => exact inv_ret (b := s.buf) (op := s.open) hi ht (by simp) (by intro k; simp) (by subst hn; simp [EvOk]; grind)
      · next hn =>
        split
        · next hb =>
          refine inv_ret (op := s.open) hi ht (by simp) ?_ ?_
          · intro k
            simp only [put]
            split
            · next h => subst h; simp
            · next h => rw [if_neg (fun e => h e.symm)]; simp
          · refine ⟨by simp, ?_, by simp⟩
            intro n' nb' bs h1 h2
            cases h1; cases h2
            refine ⟨by rw [List.length_take]; exact Nat.min_le_left _ _, fun hp h => ?_⟩
            have := congrArg List.length h
            rw [List.length_take] at this
            have h0 : (s.buf (cfg.of fd)).length ≠ 0 := fun h => hb (List.length_eq_zero_iff.mp h)
            simp only [List.length_nil] at this
            omega
        · split
          · exact inv_ret (b := s.buf) (op := s.open) hi ht (by simp) (by intro k; simp) (by simp [EvOk])
          · split
            · next h => exact inv_ret (b := s.buf) (op := s.open) hi ht (by simp) (by intro k; simp) (by simp [EvOk, h])
            · obtain ⟨h1, h2, h3, h4, h5, h6⟩ := hi
              have hh : (s.thr t).holds cfg = some (cfg.of fd) := by rw [ht]; rfl
              refine ⟨h1.same (by rw [ht]; rfl), h2.drop hh rfl, ?_, h4, h5, pok_put h6 trivial⟩
              intro k
              simp only [cur, curOf_drop h2 hh]
              rw [h3 k]
              split
              · next e => unfold cur curOf; rw [e, (h2 _ t).2 hh]; simp [ht, Phase.part]
              · rfl
    | send bs nb =>
      simp only [runGo] at hs
      have hd : d ≤ bs.length := by have := hi.thr t; rw [ht] at this; exact this
      unfold sendGo at hs
      dsimp only at hs
      split at hs
      · next hle =>
        cases hs
        exact inv_ret (b := s.buf) (op := s.open) hi ht (by simp) (by intro k; simp) (by
          refine ⟨fun bs' nb' h => ?_, by simp, by simp⟩
          cases h
          refine ⟨hd, fun n h => ?_⟩
          cases h
          exact ⟨rfl, fun _ => Nat.le_antisymm hd hle⟩)
      · split at hs
        · cases hs
          exact inv_ret (b := s.buf) (op := s.open) hi ht (by simp) (by intro k; simp) (by
            refine ⟨fun bs' nb' h => ?_, by simp, by simp⟩
            cases h
            exact ⟨hd, fun n h => (nomatch h)⟩)
        · split at hs
          · split at hs
            · next hnb =>
              cases hs
              refine inv_ret (b := s.buf) (op := s.open) hi ht (by simp) (by intro k; by_cases h : 0 < d <;> simp [h]) ?_
              subst hnb
              refine ⟨?_, by simp, ?_⟩
              · intro bs' nb' h; cases h; refine ⟨hd, fun n h => ?_⟩
                dsimp only at h
                split at h
                · cases h; exact ⟨rfl, by simp⟩
                · cases h
              · intro h; exact ⟨0, bs, .inr rfl⟩
            · cases hs
          · next hroom =>
            cases hs
            obtain ⟨h1, h2, h3, h4, h5, h6⟩ := hi
            have hh : (s.thr t).holds cfg = some (cfg.of fd) := by rw [ht]; rfl
            have hl := (h2 _ t).2 hh
            refine ⟨h1.same (by rw [ht]; rfl), h2.same (by rw [ht]; rfl), ?_, ?_, h5, pok_put h6 (Nat.min_le_left _ _)⟩
            · intro k
              simp only [cur, curOf_write h2 hh, put]
              have h := h3 k
              by_cases hk : k = peer (cfg.of fd)
              · subst hk
                simp only [cur, curOf, peer_peer, hl, ht, Phase.part] at h
                simp only [if_true, peer_peer, Phase.part]
                rw [← List.append_assoc, h, List.append_assoc]
                congr 1
                generalize cfg.cap - (s.buf (peer (cfg.of fd))).length = room at *
                rw [← List.take_add]
                by_cases hm : bs.length ≤ d + room
                · rw [Nat.min_eq_left hm, List.take_of_length_le hm, List.take_of_length_le (Nat.le_refl _)]
                · rw [Nat.min_eq_right (by omega)]
              · rw [if_neg hk, if_neg (fun e => hk (by rw [← e, peer_peer]))]
                exact h
            · intro k
              have := h4 k
              simp only [put]
              split
              · next h =>
                subst h
                rw [List.length_append, List.length_take]
                omega
              · exact this
    | look =>
      simp only [runGo, Option.some.injEq] at hs
      subst hs
      exact inv_ret (b := s.buf) (op := s.open) hi ht (by simp) (by intro k; simp) (by simp [EvOk])
    | close =>
      simp only [runGo, Option.some.injEq] at hs
      subst hs
      exact inv_ret (b := s.buf) hi ht (by simp) (by intro k; simp) (by simp [EvOk])

theorem inv_step {cfg : Cfg} {s s' : St} (hi : Inv cfg s) {a : Act} (hs : step cfg s a = some s') : Inv cfg s' := by
  cases a with
  | call t fd c =>
    simp only [step] at hs
    split at hs
    · next ht =>
      cases hs
      obtain ⟨h1, h2, h3, h4, h5, h6⟩ := hi
      refine ⟨h1.same (by rw [ht]; rfl), h2.same (by rw [ht]; rfl), ?_, h4, h5, pok_put h6 trivial⟩
      intro k
      simp only [cur]
      rw [curOf_same (by rw [ht]; rfl)]
      exact h3 k
    · cases hs
  | go t => exact inv_go hi hs

theorem inv_run {cfg : Cfg} {l : List Act} : ∀ {s : St}, Inv cfg s → Inv cfg (runFrom cfg s l) := by
  induction l with
  | nil => exact fun h => h
  | cons a l ih =>
    intro s hi
    simp only [runFrom]
    cases hs : step cfg s a with
    | none => exact ih hi
    | some s' => exact ih (inv_step hi hs)

end Verif.Duplex
