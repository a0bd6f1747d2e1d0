import Verif.UnixSockSpec

/-!
# The invariant of connections
-/

set_option linter.unusedSimpArgs false

namespace Verif.UnixSock

open Verif.Path Verif.Fs
open Verif.Pipe (Pipe End udsockCapacity)

/-- The two directions of one connection. -/
def Pair (p q : Nat) : Prop := p / 2 = q / 2 ∧ p ≠ q

structure Inv (S : Sys) : Prop where
  ev : S.s.np % 2 = 0
  inLt : ∀ h p, hin S.s h = some p → p < S.s.np
  outLt : ∀ h p, hout S.s h = some p → p < S.s.np
  accLt : ∀ w e, S.s.acc w = some e → e.recv < S.s.np ∧ e.send < S.s.np
  inInj : ∀ h h' p, hin S.s h = some p → hin S.s h' = some p → h = h'
  outInj : ∀ h h' p, hout S.s h = some p → hout S.s h' = some p → h = h'
  accIn : ∀ w e h, S.s.acc w = some e → hin S.s h ≠ some e.recv
  accOut : ∀ w e h, S.s.acc w = some e → hout S.s h ≠ some e.send
  accInj : ∀ w e w' e', S.s.acc w = some e → S.s.acc w' = some e' → e.recv = e'.recv ∨ e.send = e'.send → w = w'
  pair : ∀ h p q, hout S.s h = some p → hin S.s h = some q → Pair p q
  accPair : ∀ w e, S.s.acc w = some e → Pair e.send e.recv
  fresh : ∀ p, S.s.np ≤ p → S.sent p = [] ∧ S.rcvd p = [] ∧ S.senders p = [] ∧ S.receivers p = []
  fifoH : ∀ h p, hin S.s h = some p → S.sent p = S.rcvd p ++ (S.s.handles h).peek ++ (S.s.pipes p).buf
  fifoA : ∀ w e, S.s.acc w = some e → S.sent e.recv = S.rcvd e.recv ++ (S.s.pipes e.recv).buf
  sndA : ∀ w e, S.s.acc w = some e → S.senders e.send = [] ∧ S.receivers e.recv = []
  sndH : ∀ h p, hout S.s h = some p → ∀ a ∈ S.senders p, a = h
  rcvH : ∀ h p, hin S.s h = some p → ∀ a ∈ S.receivers p, a = h
  sndU : ∀ p, ∀ a ∈ S.senders p, ∀ b ∈ S.senders p, a = b
  rcvU : ∀ p, ∀ a ∈ S.receivers p, ∀ b ∈ S.receivers p, a = b
  pre : ∀ p, S.rcvd p <+: S.sent p

theorem Inv.init (fs : Fs) : Inv { s := init fs } := by
  constructor <;> simp [UnixSock.init, hin, hout]

theorem Inv.evo {S : Sys} {s' : State} (I : Inv S) (E : Evo S.s s') : Inv { S with s := s' } := by
  have hi : ∀ h p, hin s' h = some p → hin S.s h = some p ∧ (s'.handles h).peek = (S.s.handles h).peek := by
    intro h p hp
    rcases E.inn h with ⟨e, e'⟩ | e
    · exact ⟨e ▸ hp, e'⟩
    · rw [e] at hp; cases hp
  have ho : ∀ h p, hout s' h = some p → hout S.s h = some p := by
    intro h p hp
    rcases E.out h with e | e
    · exact e ▸ hp
    · rw [e] at hp; cases hp
  constructor <;> dsimp only <;> try rw [E.acc]
  · rw [E.np]; exact I.ev
  · intro h p hp; rw [E.np]; exact I.inLt h p (hi h p hp).1
  · intro h p hp; rw [E.np]; exact I.outLt h p (ho h p hp)
  · rw [E.np]; exact I.accLt
  · intro h h' p a b; exact I.inInj h h' p (hi _ _ a).1 (hi _ _ b).1
  · intro h h' p a b; exact I.outInj h h' p (ho _ _ a) (ho _ _ b)
  · intro w e h a b; exact I.accIn w e h a (hi _ _ b).1
  · intro w e h a b; exact I.accOut w e h a (ho _ _ b)
  · exact I.accInj
  · intro h p q a b; exact I.pair h p q (ho _ _ a) (hi _ _ b).1
  · exact I.accPair
  · rw [E.np]; exact I.fresh
  · intro h p hp
    rw [(hi _ _ hp).2, E.buf]
    exact I.fifoH h p (hi _ _ hp).1
  · intro w e a; rw [E.buf]; exact I.fifoA w e a
  · exact I.sndA
  · intro h p hp; exact I.sndH h p (ho _ _ hp)
  · intro h p hp; exact I.rcvH h p (hi _ _ hp).1
  · exact I.sndU
  · exact I.rcvU
  · exact I.pre

theorem hin_setH_same (s : State) (h : Nat) (x : Handle) : hin (s.setH h x) h = x.info.bind (·.recv) := by
  simp only [hin, State.setH, upd_same]
theorem hout_setH_same (s : State) (h : Nat) (x : Handle) : hout (s.setH h x) h = x.info.bind (·.send) := by
  simp only [hout, State.setH, upd_same]

/-- A new connection: handle `h` gets fresh directions, the other ends wait at `w`. -/
theorem Inv.conn {S : Sys} (I : Inv S) (s' : State) (h : Nat) (w : List Name) (e : Entry)
    (hn : s'.np = S.s.np + 2)
    (hh : ∀ k, k ≠ h → s'.handles k = S.s.handles k)
    (h1 : hout s' h = some S.s.np) (h2 : hin s' h = some (S.s.np + 1)) (h3 : (s'.handles h).peek = [])
    (hp : s'.pipes = upd (upd S.s.pipes S.s.np (Pipe.new udsockCapacity)) (S.s.np + 1) (Pipe.new udsockCapacity))
    (ha : s'.acc = updK S.s.acc w (some e)) (e1 : e.recv = S.s.np) (e2 : e.send = S.s.np + 1) : Inv { S with s := s' } := by
  have hi : ∀ k, k ≠ h → hin s' k = hin S.s k := fun k hk => by simp only [hin, hh k hk]
  have ho : ∀ k, k ≠ h → hout s' k = hout S.s k := fun k hk => by simp only [hout, hh k hk]
  have hb : ∀ p, p < S.s.np → (s'.pipes p).buf = (S.s.pipes p).buf := by
    intro p hlt
    rw [hp, upd_ne _ _ (by omega), upd_ne _ _ (by omega)]
  have hb1 : (s'.pipes S.s.np).buf = [] := by
    rw [hp, upd_ne _ _ (by omega), upd_same]; rfl
  have hb2 : (s'.pipes (S.s.np + 1)).buf = [] := by
    rw [hp, upd_same]; rfl
  have hacc : ∀ w' e', s'.acc w' = some e' → (w' = w ∧ e' = e) ∨ (w' ≠ w ∧ S.s.acc w' = some e') := by
    intro w' e' h
    rw [ha] at h
    by_cases hw : w' = w
    · subst hw; rw [updK_same] at h; exact .inl ⟨rfl, (Option.some.inj h).symm⟩
    · rw [updK_ne _ _ hw] at h; exact .inr ⟨hw, h⟩
  have f0 := I.fresh S.s.np (Nat.le_refl _)
  have f1 := I.fresh (S.s.np + 1) (by omega)
  obtain ⟨ev, inLt, outLt, accLt, inInj, outInj, accIn, accOut, accInj, pair, accPair, fresh, fifoH, fifoA, sndA, sndH, rcvH, sndU, rcvU, pre⟩ := I
  constructor <;> dsimp only
  · omega
  · grind
  · grind
  · intro w' e' h
    rcases hacc _ _ h with ⟨_, rfl⟩ | ⟨_, h⟩
    · omega
    · have := accLt _ _ h; omega
  · grind
  · grind
  · intro w' e' k hw
    rcases hacc _ _ hw with ⟨_, rfl⟩ | ⟨_, hw⟩
    · by_cases hk : k = h <;> grind
    · grind
  · intro w' e' k hw
    rcases hacc _ _ hw with ⟨_, rfl⟩ | ⟨_, hw⟩
    · grind
    · grind
  · intro w1 e1' w2 e2' ha1 ha2
    rcases hacc _ _ ha1 with ⟨rfl, rfl⟩ | ⟨_, ha1⟩ <;> rcases hacc _ _ ha2 with ⟨rfl, rfl⟩ | ⟨_, ha2⟩
    · intros; rfl
    · have := accLt _ _ ha2; omega
    · have := accLt _ _ ha1; omega
    · exact accInj _ _ _ _ ha1 ha2
  · intro k p q a b
    by_cases hk : k = h
    · subst hk
      rw [h1] at a; rw [h2] at b
      cases a; cases b
      unfold Pair; omega
    · exact pair k p q (ho k hk ▸ a) (hi k hk ▸ b)
  · intro w' e' h
    rcases hacc _ _ h with ⟨_, rfl⟩ | ⟨_, h⟩
    · unfold Pair; omega
    · exact accPair _ _ h
  · intro p hp'; exact fresh p (by omega)
  · intro k p a
    by_cases hk : k = h
    · subst hk
      rw [h2] at a
      cases a
      rw [hb2, h3, f1.1, f1.2.1]; rfl
    · rw [hi k hk] at a
      rw [hb p (inLt k p a), hh k hk]
      exact fifoH k p a
  · intro w' e' h
    rcases hacc _ _ h with ⟨_, rfl⟩ | ⟨_, h⟩
    · rw [e1, hb1, f0.1, f0.2.1]; rfl
    · rw [hb _ (accLt _ _ h).1]
      exact fifoA _ _ h
  · intro w' e' h
    rcases hacc _ _ h with ⟨_, rfl⟩ | ⟨_, h⟩
    · rw [e1, e2, f1.2.2.1, f0.2.2.2]; exact ⟨rfl, rfl⟩
    · exact sndA _ _ h
  · intro k p a
    by_cases hk : k = h
    · subst hk
      rw [h1] at a; cases a
      rw [f0.2.2.1]; intro a ha; cases ha
    · exact sndH k p (ho k hk ▸ a)
  · intro k p a
    by_cases hk : k = h
    · subst hk
      rw [h2] at a; cases a
      rw [f1.2.2.2]; intro a ha; cases ha
    · exact rcvH k p (hi k hk ▸ a)
  · exact sndU
  · exact rcvU
  · exact pre

/-- Accepting: a handle `h` takes over the directions waiting at `w`, or they are dropped. -/
theorem Inv.acpt {S : Sys} (I : Inv S) (s' : State) (h : Nat) (w : List Name) (e : Entry) (he : S.s.acc w = some e)
    (hn : s'.np = S.s.np)
    (hh : ∀ k, k ≠ h → s'.handles k = S.s.handles k)
    (h1 : (hout s' h = some e.send ∧ hin s' h = some e.recv) ∨ (hout s' h = none ∧ hin s' h = none)) (h3 : (s'.handles h).peek = [])
    (hp : s'.pipes = S.s.pipes) (ha : s'.acc = updK S.s.acc w none) : Inv { S with s := s' } := by
  have hi : ∀ k, k ≠ h → hin s' k = hin S.s k := fun k hk => by simp only [hin, hh k hk]
  have ho : ∀ k, k ≠ h → hout s' k = hout S.s k := fun k hk => by simp only [hout, hh k hk]
  have hacc : ∀ w' e', s'.acc w' = some e' → (w' ≠ w ∧ S.s.acc w' = some e') := by
    intro w' e' h
    rw [ha] at h
    by_cases hw : w' = w
    · subst hw; rw [updK_same] at h; cases h
    · rw [updK_ne _ _ hw] at h; exact ⟨hw, h⟩
  have hi' : ∀ k p, hin s' k = some p → (k = h ∧ p = e.recv) ∨ (k ≠ h ∧ hin S.s k = some p) := by
    intro k p hk
    by_cases hkh : k = h
    · subst hkh
      rcases h1 with ⟨_, b⟩ | ⟨_, b⟩
      · exact .inl ⟨rfl, (Option.some.inj (b.symm.trans hk)).symm⟩
      · rw [b] at hk; cases hk
    · exact .inr ⟨hkh, hi k hkh ▸ hk⟩
  have ho' : ∀ k p, hout s' k = some p → (k = h ∧ p = e.send) ∨ (k ≠ h ∧ hout S.s k = some p) := by
    intro k p hk
    by_cases hkh : k = h
    · subst hkh
      rcases h1 with ⟨b, _⟩ | ⟨b, _⟩
      · exact .inl ⟨rfl, (Option.some.inj (b.symm.trans hk)).symm⟩
      · rw [b] at hk; cases hk
    · exact .inr ⟨hkh, ho k hkh ▸ hk⟩
  obtain ⟨ev, inLt, outLt, accLt, inInj, outInj, accIn, accOut, accInj, pair, accPair, fresh, fifoH, fifoA, sndA, sndH, rcvH, sndU, rcvU, pre⟩ := I
  constructor <;> dsimp only
  · omega
  · intro k p a
    rcases hi' k p a with ⟨_, rfl⟩ | ⟨_, a⟩
    · have := accLt _ _ he; omega
    · have := inLt _ _ a; omega
  · intro k p a
    rcases ho' k p a with ⟨_, rfl⟩ | ⟨_, a⟩
    · have := accLt _ _ he; omega
    · have := outLt _ _ a; omega
  · intro w' e' a
    have := accLt _ _ (hacc _ _ a).2; omega
  · intro k k' p a b
    rcases hi' _ _ a with ⟨rfl, rfl⟩ | ⟨_, a⟩ <;> rcases hi' _ _ b with ⟨rfl, b'⟩ | ⟨_, b⟩
    · rfl
    · exact absurd b (accIn _ _ _ he)
    · rw [b'] at a; exact absurd a (accIn _ _ _ he)
    · exact inInj _ _ _ a b
  · intro k k' p a b
    rcases ho' _ _ a with ⟨rfl, rfl⟩ | ⟨_, a⟩ <;> rcases ho' _ _ b with ⟨rfl, b'⟩ | ⟨_, b⟩
    · rfl
    · exact absurd b (accOut _ _ _ he)
    · rw [b'] at a; exact absurd a (accOut _ _ _ he)
    · exact outInj _ _ _ a b
  · intro w' e' k a b
    obtain ⟨hw, a⟩ := hacc _ _ a
    rcases hi' _ _ b with ⟨rfl, b⟩ | ⟨_, b⟩
    · exact hw (accInj _ _ _ _ a he (.inl b))
    · exact accIn _ _ _ a b
  · intro w' e' k a b
    obtain ⟨hw, a⟩ := hacc _ _ a
    rcases ho' _ _ b with ⟨rfl, b⟩ | ⟨_, b⟩
    · exact hw (accInj _ _ _ _ a he (.inr b))
    · exact accOut _ _ _ a b
  · intro w1 e1 w2 e2 a b
    exact accInj _ _ _ _ (hacc _ _ a).2 (hacc _ _ b).2
  · intro k p q a b
    rcases ho' _ _ a with ⟨rfl, rfl⟩ | ⟨hk, a⟩ <;> rcases hi' _ _ b with ⟨hk', rfl⟩ | ⟨hk', b⟩
    · exact accPair _ _ he
    · exact absurd rfl hk'
    · exact absurd hk' hk
    · exact pair _ _ _ a b
  · intro w' e' a; exact accPair _ _ (hacc _ _ a).2
  · rw [hn]; exact fresh
  · intro k p a
    rw [hp]
    rcases hi' _ _ a with ⟨rfl, rfl⟩ | ⟨hk, a⟩
    · rw [h3, List.append_nil]; exact fifoA _ _ he
    · rw [hh k hk]; exact fifoH _ _ a
  · intro w' e' a
    rw [hp]
    exact fifoA _ _ (hacc _ _ a).2
  · intro w' e' a; exact sndA _ _ (hacc _ _ a).2
  · intro k p a
    rcases ho' _ _ a with ⟨rfl, rfl⟩ | ⟨hk, a⟩
    · rw [(sndA _ _ he).1]; intro _ h; cases h
    · exact sndH _ _ a
  · intro k p a
    rcases hi' _ _ a with ⟨rfl, rfl⟩ | ⟨hk, a⟩
    · rw [(sndA _ _ he).2]; intro _ h; cases h
    · exact rcvH _ _ a
  · exact sndU
  · exact rcvU
  · exact pre

/-- `socketpair`: two handles get the two ends of fresh directions. -/
theorem Inv.both {S : Sys} (I : Inv S) (s' : State) (h k : Nat) (hk : h ≠ k)
    (hn : s'.np = S.s.np + 2)
    (hh : ∀ j, j ≠ h → j ≠ k → s'.handles j = S.s.handles j)
    (h1 : hout s' h = some S.s.np) (h2 : hin s' h = some (S.s.np + 1)) (h3 : (s'.handles h).peek = [])
    (k1 : hout s' k = some (S.s.np + 1)) (k2 : hin s' k = some S.s.np) (k3 : (s'.handles k).peek = [])
    (hp : s'.pipes = upd (upd S.s.pipes S.s.np (Pipe.new udsockCapacity)) (S.s.np + 1) (Pipe.new udsockCapacity))
    (ha : s'.acc = S.s.acc) : Inv { S with s := s' } := by
  have hb : ∀ p, p < S.s.np → (s'.pipes p).buf = (S.s.pipes p).buf := by
    intro p hlt
    rw [hp, upd_ne _ _ (by omega), upd_ne _ _ (by omega)]
  have hb1 : (s'.pipes S.s.np).buf = [] := by
    rw [hp, upd_ne _ _ (by omega), upd_same]; rfl
  have hb2 : (s'.pipes (S.s.np + 1)).buf = [] := by
    rw [hp, upd_same]; rfl
  have f0 := I.fresh S.s.np (Nat.le_refl _)
  have f1 := I.fresh (S.s.np + 1) (by omega)
  have hi' : ∀ j p, hin s' j = some p →
      (j = h ∧ p = S.s.np + 1) ∨ (j = k ∧ p = S.s.np) ∨ (j ≠ h ∧ j ≠ k ∧ hin S.s j = some p) := by
    intro j p hj
    by_cases e : j = h
    · subst e; rw [h2] at hj; exact .inl ⟨rfl, (Option.some.inj hj).symm⟩
    · by_cases e' : j = k
      · subst e'; rw [k2] at hj; exact .inr (.inl ⟨rfl, (Option.some.inj hj).symm⟩)
      · refine .inr (.inr ⟨e, e', ?_⟩); simpa only [hin, hh j e e'] using hj
  have ho' : ∀ j p, hout s' j = some p →
      (j = h ∧ p = S.s.np) ∨ (j = k ∧ p = S.s.np + 1) ∨ (j ≠ h ∧ j ≠ k ∧ hout S.s j = some p) := by
    intro j p hj
    by_cases e : j = h
    · subst e; rw [h1] at hj; exact .inl ⟨rfl, (Option.some.inj hj).symm⟩
    · by_cases e' : j = k
      · subst e'; rw [k1] at hj; exact .inr (.inl ⟨rfl, (Option.some.inj hj).symm⟩)
      · refine .inr (.inr ⟨e, e', ?_⟩); simpa only [hout, hh j e e'] using hj
  obtain ⟨ev, inLt, outLt, accLt, inInj, outInj, accIn, accOut, accInj, pair, accPair, fresh, fifoH, fifoA, sndA, sndH, rcvH, sndU, rcvU, pre⟩ := I
  constructor <;> dsimp only
  · omega
  · intro j p a
    rcases hi' j p a with ⟨_, rfl⟩ | ⟨_, rfl⟩ | ⟨_, _, a⟩
    · omega
    · omega
    · have := inLt _ _ a; omega
  · intro j p a
    rcases ho' j p a with ⟨_, rfl⟩ | ⟨_, rfl⟩ | ⟨_, _, a⟩
    · omega
    · omega
    · have := outLt _ _ a; omega
  · rw [ha, hn]; intro w e a; have := accLt w e a; omega
  · intro j j' p a b
    rcases hi' _ _ a with ⟨rfl, e⟩ | ⟨rfl, e⟩ | ⟨_, _, a⟩ <;> rcases hi' _ _ b with ⟨rfl, e'⟩ | ⟨rfl, e'⟩ | ⟨_, _, b⟩
    · rfl
    · omega
    · have := inLt _ _ b; omega
    · omega
    · rfl
    · have := inLt _ _ b; omega
    · have := inLt _ _ a; omega
    · have := inLt _ _ a; omega
    · exact inInj _ _ _ a b
  · intro j j' p a b
    rcases ho' _ _ a with ⟨rfl, e⟩ | ⟨rfl, e⟩ | ⟨_, _, a⟩ <;> rcases ho' _ _ b with ⟨rfl, e'⟩ | ⟨rfl, e'⟩ | ⟨_, _, b⟩
    · rfl
    · omega
    · have := outLt _ _ b; omega
    · omega
    · rfl
    · have := outLt _ _ b; omega
    · have := outLt _ _ a; omega
    · have := outLt _ _ a; omega
    · exact outInj _ _ _ a b
  · rw [ha]
    intro w e j a b
    have := accLt w e a
    rcases hi' _ _ b with ⟨rfl, b⟩ | ⟨rfl, b⟩ | ⟨_, _, b⟩
    · omega
    · omega
    · exact accIn w e j a b
  · rw [ha]
    intro w e j a b
    have := accLt w e a
    rcases ho' _ _ b with ⟨rfl, b⟩ | ⟨rfl, b⟩ | ⟨_, _, b⟩
    · omega
    · omega
    · exact accOut w e j a b
  · rw [ha]; exact accInj
  · intro j p q a b
    rcases ho' _ _ a with ⟨e1, e⟩ | ⟨e1, e⟩ | ⟨n1, n2, a⟩ <;> rcases hi' _ _ b with ⟨e1', e'⟩ | ⟨e1', e'⟩ | ⟨m1, m2, b⟩
    · unfold Pair; omega
    · exact absurd (e1.symm.trans e1') hk
    · exact absurd e1 m1
    · exact absurd (e1'.symm.trans e1) hk
    · unfold Pair; omega
    · exact absurd e1 m2
    · exact absurd e1' n1
    · exact absurd e1' n2
    · exact pair j p q a b
  · rw [ha]; exact accPair
  · intro p hp'; exact fresh p (by omega)
  · intro j p a
    rcases hi' j p a with ⟨rfl, rfl⟩ | ⟨rfl, rfl⟩ | ⟨n1, n2, a⟩
    · rw [h3, hb2, f1.1, f1.2.1]; rfl
    · rw [k3, hb1, f0.1, f0.2.1]; rfl
    · rw [hb p (inLt _ _ a), hh j n1 n2]; exact fifoH _ _ a
  · rw [ha]; intro w e a; rw [hb _ (accLt _ _ a).1]; exact fifoA w e a
  · rw [ha]; exact sndA
  · intro j p a
    rcases ho' j p a with ⟨rfl, rfl⟩ | ⟨rfl, rfl⟩ | ⟨n1, n2, a⟩
    · rw [f0.2.2.1]; intro _ h; cases h
    · rw [f1.2.2.1]; intro _ h; cases h
    · exact sndH _ _ a
  · intro j p a
    rcases hi' j p a with ⟨rfl, rfl⟩ | ⟨rfl, rfl⟩ | ⟨n1, n2, a⟩
    · rw [f1.2.2.2]; intro _ h; cases h
    · rw [f0.2.2.2]; intro _ h; cases h
    · exact rcvH _ _ a
  · exact sndU
  · exact rcvU
  · exact pre

/-- Handle `h` sends `bs` on direction `p`. -/
theorem Inv.push {S : Sys} (I : Inv S) (h p : Nat) (bs : List UInt8) (x : Pipe) (hp : hout S.s h = some p)
    (hx : x.buf = (S.s.pipes p).buf ++ bs) :
    Inv { S with s := S.s.setP p x, sent := upd S.sent p (S.sent p ++ bs), senders := upd S.senders p (S.senders p ++ [h]) } := by
  have hb : ∀ q, ((S.s.setP p x).pipes q).buf = (S.s.pipes q).buf ++ if q = p then bs else [] := by
    intro q
    simp only [State.setP]
    by_cases hq : q = p
    · subst hq; rw [upd_same, if_pos rfl, hx]
    · rw [upd_ne _ _ hq, if_neg hq, List.append_nil]
  have hs : ∀ q, upd S.sent p (S.sent p ++ bs) q = S.sent q ++ if q = p then bs else [] := by
    intro q
    by_cases hq : q = p
    · subst hq; rw [upd_same, if_pos rfl]
    · rw [upd_ne _ _ hq, if_neg hq, List.append_nil]
  have ht : ∀ q, q ≠ p → upd S.senders p (S.senders p ++ [h]) q = S.senders q := fun q hq => upd_ne _ _ hq
  have ht' : ∀ a ∈ upd S.senders p (S.senders p ++ [h]) p, a = h := by
    rw [upd_same]
    intro a ha
    rcases List.mem_append.1 ha with ha | ha
    · exact I.sndH h p hp a ha
    · simpa using ha
  have hlt := I.outLt h p hp
  obtain ⟨ev, inLt, outLt, accLt, inInj, outInj, accIn, accOut, accInj, pair, accPair, fresh, fifoH, fifoA, sndA, sndH, rcvH, sndU, rcvU, pre⟩ := I
  refine ⟨ev, inLt, outLt, accLt, inInj, outInj, accIn, accOut, accInj, pair, accPair, ?_, ?_, ?_, ?_, ?_, rcvH, ?_, rcvU, ?_⟩
  · intro q hq
    have hq' : q ≠ p := by
      have : S.s.np ≤ q := hq
      omega
    dsimp only
    rw [hs, ht q hq', if_neg hq', List.append_nil]
    exact fresh q hq
  · intro k q hk
    dsimp only
    rw [hs, hb, fifoH k q hk]
    simp only [List.append_assoc]; rfl
  · intro w e a
    dsimp only
    rw [hs, hb, fifoA w e a]
    simp only [List.append_assoc]
  · intro w e a
    have : e.send ≠ p := fun e' => accOut w e h a (e' ▸ hp)
    dsimp only
    rw [ht _ this]
    exact sndA w e a
  · intro k q a
    by_cases hq : q = p
    · subst hq
      have : k = h := outInj _ _ _ a hp
      subst this
      exact ht'
    · dsimp only; rw [ht q hq]; exact sndH k q a
  · intro q
    by_cases hq : q = p
    · subst hq
      intro a ha b hb
      rw [ht' a ha, ht' b hb]
    · dsimp only; rw [ht q hq]; exact sndU q
  · intro q
    dsimp only
    rw [hs]
    exact (pre q).trans (List.prefix_append _ _)

/-- Handle `h` receives `bs` on direction `p`: `bs` comes off the front of its peeked bytes followed by the pipe. -/
theorem Inv.pull {S : Sys} (I : Inv S) (h p : Nat) (bs : List UInt8) (s' : State) (hp : hin S.s h = some p)
    (hh : ∀ k, k ≠ h → s'.handles k = S.s.handles k) (hi : (s'.handles h).info = (S.s.handles h).info)
    (hb : ∀ q, q ≠ p → (s'.pipes q).buf = (S.s.pipes q).buf) (ha : s'.acc = S.s.acc) (hn : s'.np = S.s.np)
    (he : (S.s.handles h).peek ++ (S.s.pipes p).buf = bs ++ (s'.handles h).peek ++ (s'.pipes p).buf) :
    Inv { S with s := s', rcvd := upd S.rcvd p (S.rcvd p ++ bs), receivers := upd S.receivers p (S.receivers p ++ [h]) } := by
  have hin' : ∀ k, hin s' k = hin S.s k := by
    intro k
    by_cases hk : k = h
    · subst hk; simp only [hin, hi]
    · simp only [hin, hh k hk]
  have hout' : ∀ k, hout s' k = hout S.s k := by
    intro k
    by_cases hk : k = h
    · subst hk; simp only [hout, hi]
    · simp only [hout, hh k hk]
  have ht : ∀ q, q ≠ p → upd S.receivers p (S.receivers p ++ [h]) q = S.receivers q := fun q hq => upd_ne _ _ hq
  have hr : ∀ q, q ≠ p → upd S.rcvd p (S.rcvd p ++ bs) q = S.rcvd q := fun q hq => upd_ne _ _ hq
  have ht' : ∀ a ∈ upd S.receivers p (S.receivers p ++ [h]) p, a = h := by
    rw [upd_same]
    intro a ha
    rcases List.mem_append.1 ha with ha | ha
    · exact I.rcvH h p hp a ha
    · simpa using ha
  have hlt := I.inLt h p hp
  obtain ⟨ev, inLt, outLt, accLt, inInj, outInj, accIn, accOut, accInj, pair, accPair, fresh, fifoH, fifoA, sndA, sndH, rcvH, sndU, rcvU, pre⟩ := I
  constructor <;> dsimp only <;> (try simp only [hin', hout', ha, hn])
  · exact ev
  · exact inLt
  · exact outLt
  · exact accLt
  · exact inInj
  · exact outInj
  · exact accIn
  · exact accOut
  · exact accInj
  · exact pair
  · exact accPair
  · intro q hq
    have hq' : q ≠ p := by omega
    rw [hr q hq', ht q hq']
    exact fresh q hq
  · intro k q hk
    by_cases hq : q = p
    · subst hq
      have : k = h := inInj _ _ _ hk hp
      subst this
      rw [upd_same, fifoH k q hk, List.append_assoc, he]
      simp only [List.append_assoc]
    · have hk' : k ≠ h := fun e => hq (Option.some.inj ((e ▸ hk).symm.trans hp))
      rw [hr q hq, hb q hq, hh k hk']
      exact fifoH k q hk
  · intro w e a
    have : e.recv ≠ p := fun e' => accIn w e h a (e' ▸ hp)
    rw [hr _ this, hb _ this]
    exact fifoA w e a
  · intro w e a
    have : e.recv ≠ p := fun e' => accIn w e h a (e' ▸ hp)
    rw [ht _ this]
    exact sndA w e a
  · exact sndH
  · intro k q a
    by_cases hq : q = p
    · subst hq
      have : k = h := inInj _ _ _ a hp
      subst this
      exact ht'
    · rw [ht q hq]; exact rcvH k q a
  · exact sndU
  · intro q
    by_cases hq : q = p
    · subst hq
      intro a ha b hb
      rw [ht' a ha, ht' b hb]
    · rw [ht q hq]; exact rcvU q
  · intro q
    by_cases hq : q = p
    · subst hq
      rw [upd_same, fifoH h q hp, List.append_assoc (S.rcvd q), he]
      simp only [← List.append_assoc]
      exact (List.prefix_append _ _).trans (List.prefix_append _ _)
    · rw [hr q hq]; exact pre q

/-- A change of the peeked bytes that only moves bytes between the peeked bytes and the pipe. -/
theorem Inv.shift {S : Sys} (I : Inv S) (h : Nat) (s' : State)
    (hh : ∀ k, k ≠ h → s'.handles k = S.s.handles k) (hi : (s'.handles h).info = (S.s.handles h).info)
    (hb : ∀ q, hin S.s h ≠ some q → (s'.pipes q).buf = (S.s.pipes q).buf) (ha : s'.acc = S.s.acc) (hn : s'.np = S.s.np)
    (he : ∀ p, hin S.s h = some p →
      (S.s.handles h).peek ++ (S.s.pipes p).buf = (s'.handles h).peek ++ (s'.pipes p).buf) : Inv { S with s := s' } := by
  have hin' : ∀ k, hin s' k = hin S.s k := by
    intro k
    by_cases hk : k = h
    · subst hk; simp only [hin, hi]
    · simp only [hin, hh k hk]
  have hout' : ∀ k, hout s' k = hout S.s k := by
    intro k
    by_cases hk : k = h
    · subst hk; simp only [hout, hi]
    · simp only [hout, hh k hk]
  obtain ⟨ev, inLt, outLt, accLt, inInj, outInj, accIn, accOut, accInj, pair, accPair, fresh, fifoH, fifoA, sndA, sndH, rcvH, sndU, rcvU, pre⟩ := I
  constructor <;> dsimp only <;> (try simp only [hin', hout', ha, hn]) <;> try assumption
  · intro k q hk
    by_cases hk' : k = h
    · subst hk'
      rw [fifoH k q hk, List.append_assoc, he q hk, List.append_assoc]
    · rw [hb q (fun e => hk' (inInj _ _ _ hk e)), hh k hk']
      exact fifoH k q hk
  · intro w e a
    rw [hb _ (accIn w e h a)]
    exact fifoA w e a

theorem evo_wake (s : State) (o : Option Nat) : Evo s (wake s o) := by
  cases o with
  | none => exact .refl s
  | some w => exact .setH_same rfl rfl

theorem Inv.connect {S : Sys} (I : Inv S) (d : Nat) (cwd a : Str)
    (hc : ∀ fd, S.s.fds d = some fd → (S.s.handles fd.h).peek = []) : Inv { S with s := (connect S.s d cwd a).1 } := by
  unfold UnixSock.connect withSock
  split
  · exact I
  · rename_i fd hfd
    split
    · exact I
    · dsimp only
      split
      · exact I
      · have I1 := I.evo (evo_autoBind S.s fd.h cwd)
        have hpk : ((autoBind S.s fd.h cwd).handles fd.h).peek = [] := by rw [autoBind_peek, hc fd hfd]
        generalize autoBind S.s fd.h cwd = s1 at I1 hpk ⊢
        split
        · split
          · rename_i la _ _
            refine I1.conn _ fd.h (pathOf cwd a) ⟨la, s1.np, s1.np + 1, if fd.nb then none else some fd.h⟩ ?_ ?_ ?_ ?_ ?_ ?_ ?_ ?_ ?_
            · rfl
            · intro k hk; dsimp only; rw [upd_ne _ _ hk]
            · simp only [hout, upd_same, Option.bind_some]
            · simp only [hin, upd_same, Option.bind_some]
            · simp only [upd_same]; exact hpk
            · rfl
            · rfl
            · rfl
            · rfl
          · exact I1
        · exact I1

theorem Inv.accept {S : Sys} (I : Inv S) (d : Nat) (new : Option Nat) (cwd : Str) : Inv { S with s := (accept S.s d new cwd).1 } := by
  unfold UnixSock.accept withSock
  split
  · exact I
  · rename_i fd hfd
    split
    · exact I
    · dsimp only
      split
      · exact I
      · split
        · exact I
        · split
          · exact I
          · split
            · exact I
            · split
              · exact I
              · rename_i la _ _ e he
                have I1 := I.evo (evo_wake S.s e.waiter)
                have he1 : (wake S.s e.waiter).acc = S.s.acc := (evo_wake S.s e.waiter).acc
                generalize wake S.s e.waiter = s1 at I1 he1 ⊢
                split
                · exact I
                · rename_i ino _ _
                  split
                  · exact I
                  · rename_i fs1 _
                    refine I1.acpt _ s1.nh (pathOf cwd la) e (by dsimp only; rw [he1]; exact he) ?_ ?_ ?_ ?_ ?_ ?_
                    · rfl
                    · intro k hk; dsimp only; rw [upd_ne _ _ hk]
                    · cases ino with
                      | none => right; simp only [hout, hin, upd_same, Option.map_none, Option.bind_none, and_self]
                      | some i => left; simp only [hout, hin, upd_same, Option.map_some, Option.bind_some, and_self]
                    · simp only [upd_same]
                    · rfl
                    · rfl

theorem Inv.socketpair {S : Sys} (I : Inv S) (d d' : Nat) (nb : Bool) (cwd : Str) :
    Inv { S with s := (socketpair S.s d d' nb cwd).1 } := by
  unfold UnixSock.socketpair
  split
  · exact I
  · dsimp only
    have E0 : Evo S.s { S.s with
        handles := upd (upd S.s.handles S.s.nh {}) (S.s.nh + 1) {}, nh := S.s.nh + 2
        fds := upd (upd S.s.fds d (some { h := S.s.nh, nb := nb })) d' (some { h := S.s.nh + 1, nb := nb }) } := by
      refine Evo.trans (b := (S.s.setH S.s.nh {}).setH (S.s.nh + 1) {}) ?_ (.of_eq rfl rfl rfl rfl)
      exact Evo.trans (.setH (.inr rfl) (.inr rfl)) (.setH (.inr rfl) (.inr rfl))
    have p1 : (upd (upd S.s.handles S.s.nh {}) (S.s.nh + 1) {} S.s.nh).peek = [] := by
      rw [upd_ne _ _ (by omega), upd_same]
    have p2 : (upd (upd S.s.handles S.s.nh {}) (S.s.nh + 1) {} (S.s.nh + 1)).peek = [] := by
      rw [upd_same]
    have E := E0.trans ((evo_autoBind _ S.s.nh cwd).trans (evo_autoBind _ (S.s.nh + 1) cwd))
    have q1 : ∀ k, ((autoBind (autoBind { S.s with
        handles := upd (upd S.s.handles S.s.nh {}) (S.s.nh + 1) {}, nh := S.s.nh + 2
        fds := upd (upd S.s.fds d (some { h := S.s.nh, nb := nb })) d' (some { h := S.s.nh + 1, nb := nb }) } S.s.nh cwd)
          (S.s.nh + 1) cwd).handles k).peek = (upd (upd S.s.handles S.s.nh {}) (S.s.nh + 1) {} k).peek := by
      intro k; rw [autoBind_peek, autoBind_peek]
    have I1 := I.evo E
    generalize autoBind (autoBind { S.s with
        handles := upd (upd S.s.handles S.s.nh {}) (S.s.nh + 1) {}, nh := S.s.nh + 2
        fds := upd (upd S.s.fds d (some { h := S.s.nh, nb := nb })) d' (some { h := S.s.nh + 1, nb := nb }) } S.s.nh cwd)
          (S.s.nh + 1) cwd = s2 at I1 q1 ⊢
    split
    · split
      · exact I1
      · split
        · exact I1
        · refine I1.both _ S.s.nh (S.s.nh + 1) (by omega) ?_ ?_ ?_ ?_ ?_ ?_ ?_ ?_ ?_ ?_
          · rfl
          · intro j h1 h2; dsimp only; rw [upd_ne _ _ h2, upd_ne _ _ h1]
          · simp only [hout]; rw [upd_ne _ _ (by omega), upd_same]; rfl
          · simp only [hin]; rw [upd_ne _ _ (by omega), upd_same]; rfl
          · dsimp only; rw [upd_ne _ _ (by omega), upd_same]; exact (q1 _).trans p1
          · simp only [hout]; rw [upd_same]; rfl
          · simp only [hin]; rw [upd_same]; rfl
          · dsimp only; rw [upd_same]; exact (q1 _).trans p2
          · rfl
          · rfl
    · exact I1

theorem noteSent_s (S : Sys) (d : Nat) (bs : List UInt8) : (S.noteSent d bs).s = S.s := by
  unfold Sys.noteSent; split <;> rfl
theorem noteRcvd_s (S : Sys) (d : Nat) (bs : List UInt8) : (S.noteRcvd d bs).s = S.s := by
  unfold Sys.noteRcvd; split <;> rfl

/-- A call that moved nothing. -/
theorem Inv.noteNothing {S : Sys} (I : Inv S) (d : Nat) : Inv (S.noteSent d []) := by
  unfold Sys.noteSent
  split
  · rename_i p h hp hh
    cases hfd : S.s.fds d with
    | none => simp [outOf, hfd] at hp
    | some fd =>
      simp only [outOf, sockOf, hfd, Option.bind_some, Option.map_some, Option.some.injEq] at hp hh
      subst hh
      have := I.push fd.h p [] (S.s.pipes p) hp (by simp)
      have e : S.s.setP p (S.s.pipes p) = S.s := by
        simp only [State.setP, upd_self]
      rw [e] at this
      exact this
  · exact I

theorem Inv.noteNothing' {S : Sys} (I : Inv S) (d : Nat) : Inv (S.noteRcvd d []) := by
  unfold Sys.noteRcvd
  split
  · rename_i p h hp hh
    cases hfd : S.s.fds d with
    | none => simp [inOf, hfd] at hp
    | some fd =>
      simp only [inOf, sockOf, hfd, Option.bind_some, Option.map_some, Option.some.injEq] at hp hh
      subst hh
      exact I.pull fd.h p [] S.s hp (fun _ _ => rfl) rfl (fun _ _ => rfl) rfl rfl (by simp)
  · exact I

theorem Inv.noteSent {S : Sys} (I : Inv S) {d : Nat} {fd : Fd} {i : Info} {p : Nat} (bs : List UInt8) (x : Pipe)
    (hfd : S.s.fds d = some fd) (hi : (S.s.handles fd.h).info = some i) (hp : i.send = some p)
    (hx : x.buf = (S.s.pipes p).buf ++ bs) : Inv { S.noteSent d bs with s := S.s.setP p x } := by
  have ho : hout S.s fd.h = some p := by simp only [hout, hi, Option.bind_some, hp]
  have h1 : outOf S.s d = some p := by simp only [outOf, hfd, Option.bind_some, ho]
  have h2 : sockOf S.s d = some fd.h := by simp only [sockOf, hfd, Option.map_some]
  unfold Sys.noteSent
  rw [h1, h2]
  exact I.push fd.h p bs x ho hx

theorem take_pushed (b bs : List UInt8) (k : Nat) (hk : k ≤ bs.length) : bs.take ((b ++ bs.take k).length - b.length) = bs.take k := by
  rw [List.length_append, List.length_take, Nat.min_eq_left hk]
  congr 1
  omega

theorem Inv.send {S : Sys} (I : Inv S) (d : Nat) (data : List UInt8) :
    Inv { S.noteSent d (data.take (send S.s d data).2.pushed) with s := (send S.s d data).1 } := by
  have triv : Inv { S.noteSent d [] with s := S.s } := by
    have := I.noteNothing d
    rw [← noteSent_s S d []]
    exact this
  unfold UnixSock.send withSock
  cases hfd : S.s.fds d with
  | none => exact triv
  | some fd =>
    dsimp only
    split
    · exact triv
    · split
      · exact triv
      · split
        · exact triv
        · rename_i i hi
          split
          · exact triv
          · rename_i p hp
            obtain ⟨k, hk, hk2, -⟩ := Pipe.writeNow_any (S.s.pipes p) data fd.nb
            refine I.noteSent _ _ hfd hi hp ?_
            dsimp only
            rw [hk2, take_pushed _ _ _ hk]

theorem Inv.writev {S : Sys} (I : Inv S) (d : Nat) (iovs : List (List UInt8)) :
    Inv { S.noteSent d (iovs.flatten.take (writev S.s d iovs).2.pushed) with s := (writev S.s d iovs).1 } := by
  have triv : Inv { S.noteSent d [] with s := S.s } := by
    have := I.noteNothing d
    rw [← noteSent_s S d []]
    exact this
  unfold UnixSock.writev withSock
  cases hfd : S.s.fds d with
  | none => exact triv
  | some fd =>
    dsimp only
    split
    · exact triv
    · split
      · exact triv
      · split
        · exact triv
        · rename_i i hi
          split
          · exact triv
          · rename_i p hp
            obtain ⟨k, hk, hk2, -⟩ := Verif.Pipe.writevLoop_any fd.nb iovs (S.s.pipes p) 0
            refine I.noteSent _ _ hfd hi hp ?_
            simp only [Verif.Pipe.Pipe.writevNow]
            rw [hk2, take_pushed _ _ _ hk]

theorem readNow_any (p : Pipe) (n : Nat) (nb : Bool) :
    (∃ k, k ≤ n ∧ k ≤ p.buf.length ∧ p.readNow n nb = ({ p with buf := p.buf.drop k }, .ok k, p.buf.take k)) ∨
    ((p.readNow n nb = (p, .err .EAGAIN, []) ∨ p.readNow n nb = (p, .blocked, []))) := by
  unfold Pipe.readNow
  split
  · exact .inl ⟨0, by omega, by omega, by simp⟩
  · split
    · split
      · exact .inl ⟨0, by omega, by omega, by simp⟩
      · split
        · exact .inr (.inl rfl)
        · exact .inr (.inr rfl)
    · exact .inl ⟨min n p.buf.length, by omega, by omega, rfl⟩

/-- What a receive does to a handle and its pipe: some `k` bytes go to the caller; without `MSG_PEEK` they come off the front of the
peeked bytes followed by the pipe, with it only the place of the bytes changes. -/
theorem recv_cases (s : State) (d n : Nat) (peek : Bool) :
    ((recv s d n peek).1 = s ∧ (recv s d n peek).2.bytes = []) ∨
    ∃ fd, s.fds d = some fd ∧ (s.handles fd.h).waiting = false ∧
      (∀ k, k ≠ fd.h → (recv s d n peek).1.handles k = s.handles k) ∧
      ((recv s d n peek).1.handles fd.h).info = (s.handles fd.h).info ∧
      (recv s d n peek).1.acc = s.acc ∧ (recv s d n peek).1.np = s.np ∧
      (∀ q, hin s fd.h ≠ some q → (recv s d n peek).1.pipes q = s.pipes q) ∧
      ∀ p, hin s fd.h = some p →
        (s.handles fd.h).peek ++ (s.pipes p).buf =
          (if peek then [] else (recv s d n peek).2.bytes) ++
            (((recv s d n peek).1.handles fd.h).peek ++ ((recv s d n peek).1.pipes p).buf) := by
  generalize hr : recv s d n peek = r
  unfold recv withSock at hr
  split at hr
  · subst hr; exact .inl ⟨rfl, rfl⟩
  · rename_i fd hfd
    split at hr
    · subst hr; exact .inl ⟨rfl, rfl⟩
    · rename_i hw
      have hw : (s.handles fd.h).waiting = false := by simpa using hw
      dsimp only at hr
      -- returning only peeked bytes
      have only : ∀ bs, bs = (s.handles fd.h).peek.take (min (s.handles fd.h).peek.length n) →
          ∀ s', s' = s.setH fd.h { s.handles fd.h with
            peek := if peek then (s.handles fd.h).peek else (s.handles fd.h).peek.drop (min (s.handles fd.h).peek.length n) } →
          (∀ k, k ≠ fd.h → s'.handles k = s.handles k) ∧ (s'.handles fd.h).info = (s.handles fd.h).info ∧
          s'.acc = s.acc ∧ s'.np = s.np ∧ (∀ q, hin s fd.h ≠ some q → s'.pipes q = s.pipes q) ∧
          ∀ p, hin s fd.h = some p → (s.handles fd.h).peek ++ (s.pipes p).buf =
            (if peek then [] else bs) ++ ((s'.handles fd.h).peek ++ (s'.pipes p).buf) := by
        intro bs hbs s' hs'
        subst hs'
        refine ⟨fun k hk => by simp only [State.setH, upd_ne _ _ hk], by simp only [State.setH, upd_same], rfl, rfl, fun _ _ => rfl, ?_⟩
        intro p _
        simp only [State.setH, upd_same]
        cases peek with
        | true => rfl
        | false =>
          simp only [Bool.false_eq_true, if_false]
          rw [hbs, ← List.append_assoc, List.take_append_drop]
      split at hr
      · subst hr; exact .inl ⟨rfl, rfl⟩
      · split at hr
        · subst hr; exact .inl ⟨rfl, rfl⟩
        · split at hr
          · subst hr
            exact .inr ⟨fd, hfd, hw, only _ rfl _ rfl⟩
          · rename_i hne
            split at hr
            · subst hr; exact .inl ⟨rfl, rfl⟩
            · rename_i i hi
              split at hr
              · subst hr; exact .inl ⟨rfl, rfl⟩
              · rename_i p hp
                have hin1 : hin s fd.h = some p := by simp only [hin, hi, Option.bind_some, hp]
                have hk : min (s.handles fd.h).peek.length n = (s.handles fd.h).peek.length := by
                  by_cases he : (s.handles fd.h).peek = []
                  · rw [he]; simp
                  · have : n - min (s.handles fd.h).peek.length n ≠ 0 := fun e => hne ⟨he, e⟩
                    omega
                rcases readNow_any (s.pipes p) (n - min (s.handles fd.h).peek.length n) fd.nb with ⟨k, _, _, e⟩ | e
                · rw [e] at hr
                  dsimp only at hr
                  subst hr
                  refine .inr ⟨fd, hfd, hw, fun j hj => by simp only [State.setH, State.setP, upd_ne _ _ hj],
                    by simp only [State.setH, State.setP, upd_same], rfl, rfl, ?_, ?_⟩
                  · intro q hq
                    have : q ≠ p := fun e => hq (e ▸ hin1)
                    simp only [State.setH, State.setP, upd_ne _ _ this]
                  · intro q hq
                    have : q = p := Option.some.inj (hq.symm.trans hin1)
                    subst this
                    simp only [State.setH, State.setP, upd_same, hk, List.take_length, List.drop_length]
                    cases peek with
                    | true =>
                      simp only [if_true, List.nil_append, List.append_assoc, List.take_append_drop]
                    | false =>
                      simp only [Bool.false_eq_true, if_false, List.append_assoc, List.nil_append, List.take_append_drop]
                · rcases e with e | e
                  all_goals
                    rw [e] at hr
                    dsimp only at hr
                    split at hr
                    · subst hr
                      exact .inr ⟨fd, hfd, hw, only _ rfl _ rfl⟩
                    · subst hr; exact .inl ⟨rfl, rfl⟩

theorem Inv.recvPeek {S : Sys} (I : Inv S) (d n : Nat) : Inv { S with s := (recv S.s d n true).1 } := by
  rcases recv_cases S.s d n true with ⟨e, -⟩ | ⟨fd, hfd, -, h1, h2, h3, h4, h5, h6⟩
  · rw [e]; exact I
  · refine I.shift fd.h _ h1 h2 (fun q hq => by rw [h5 q hq]) h3 h4 fun p hp => ?_
    have := h6 p hp
    simpa using this

theorem Inv.recvTake {S : Sys} (I : Inv S) (d n : Nat) :
    Inv { S.noteRcvd d (recv S.s d n false).2.bytes with s := (recv S.s d n false).1 } := by
  rcases recv_cases S.s d n false with ⟨e, e'⟩ | ⟨fd, hfd, -, h1, h2, h3, h4, h5, h6⟩
  · rw [e, e']
    have := I.noteNothing' d
    rw [← noteRcvd_s S d []]
    exact this
  · have hsock : sockOf S.s d = some fd.h := by simp only [sockOf, hfd, Option.map_some]
    have hino : inOf S.s d = hin S.s fd.h := by simp only [inOf, hfd, Option.bind_some]
    unfold Sys.noteRcvd
    rw [hsock, hino]
    cases hp : hin S.s fd.h with
    | none =>
      exact I.shift fd.h _ h1 h2 (fun q _ => by rw [h5 q (by rw [hp]; simp)]) h3 h4 fun p hp' => absurd (hp.symm.trans hp') (by simp)
    | some p =>
      refine I.pull fd.h p _ _ hp h1 h2 (fun q hq => by rw [h5 q (by rw [hp]; simpa using fun e => hq e.symm)]) h3 h4 ?_
      have := h6 p hp
      simpa [List.append_assoc] using this

theorem Inv.step {S : Sys} (I : Inv S) (op : Op) (hc : Clean S.s op) : Inv (S.step op) := by
  cases op with
  | socket d nb => exact I.evo (evo_socket _ _ _)
  | bind d cwd a => exact I.evo (evo_bind _ _ _ _)
  | getsockname d => exact I.evo (evo_getsockname _ _)
  | getpeername d => exact I.evo (evo_getpeername _ _)
  | listen d => exact I.evo (evo_listen _ _)
  | connect d cwd a => exact I.connect d cwd a hc
  | accept d new cwd => exact I.accept d new cwd
  | send d data => exact I.send d data
  | writev d iovs => exact I.writev d iovs
  | recv d n peek =>
    cases peek with
    | true => exact I.recvPeek d n
    | false => exact I.recvTake d n
  | shutdown d how => exact I.evo (evo_shutdown _ _ _)
  | dup d d' => exact I.evo (evo_dup _ _ _)
  | forkFd d d' => exact I.evo (evo_forkFd _ _ _)
  | close d cwd => exact I.evo (evo_close _ _ _)
  | socketpair d d' nb cwd => exact I.socketpair d d' nb cwd
  | setNb d nb => exact I.evo (withSock_evo _ _ _ fun _ _ _ => .setFd _ _ _)
  | fsys fs => exact I.evo (.of_eq rfl rfl rfl rfl)

theorem Reach.inv {S : Sys} (h : Reach S) : Inv S := by
  induction h with
  | start fs => exact .init fs
  | step op _ hc ih => exact ih.step op hc

/-! ## Handles are made once -/

/-- Descriptors only refer to handles made so far. -/
def FdLt (s : State) : Prop := ∀ d fd, s.fds d = some fd → fd.h < s.nh

/-- No handle is lost, and descriptors point to old handles or to new ones. -/
structure Keeps (s s' : State) : Prop where
  nh : s.nh ≤ s'.nh
  fd : ∀ d fd, s'.fds d = some fd → (∃ e f, s.fds e = some f ∧ f.h = fd.h) ∨ s.nh ≤ fd.h ∧ fd.h < s'.nh

theorem Keeps.refl (s : State) : Keeps s s := ⟨Nat.le_refl _, fun d fd h => .inl ⟨d, fd, h, rfl⟩⟩

theorem Keeps.of_eq {s s' : State} (h1 : s'.nh = s.nh) (h2 : s'.fds = s.fds) : Keeps s s' := by
  refine ⟨by omega, fun d fd h => .inl ⟨d, fd, ?_, rfl⟩⟩
  rw [← h2]; exact h

theorem Keeps.fdLt {s s' : State} (K : Keeps s s') (h : FdLt s) : FdLt s' := by
  intro d fd hfd
  rcases K.fd d fd hfd with ⟨e, f, h1, h2⟩ | h2
  · have := h e f h1; have := K.nh; omega
  · exact h2.2

theorem bindH_fds (s : State) (h : Nat) (cwd a : Str) : (bindH s h cwd a).1.nh = s.nh ∧ (bindH s h cwd a).1.fds = s.fds := by
  unfold bindH
  dsimp only
  cases (s.handles h).laddr
  case some => exact ⟨rfl, rfl⟩
  · dsimp only
    split <;> exact ⟨rfl, rfl⟩

theorem autoBind_fds (s : State) (h : Nat) (cwd : Str) : (autoBind s h cwd).nh = s.nh ∧ (autoBind s h cwd).fds = s.fds := by
  unfold autoBind
  split
  · exact ⟨rfl, rfl⟩
  · exact bindH_fds { s with ud := s.ud + 1 } h cwd (genPath s.ud)

theorem wake_fds (s : State) (o : Option Nat) : (wake s o).nh = s.nh ∧ (wake s o).fds = s.fds := by
  cases o <;> exact ⟨rfl, rfl⟩

theorem bumpEnd_fds (s : State) (e : End) (o : Option Nat) : (bumpEnd s e o).nh = s.nh ∧ (bumpEnd s e o).fds = s.fds ∧
    (bumpEnd s e o).handles = s.handles ∧ (bumpEnd s e o).fs = s.fs := by
  cases o <;> exact ⟨rfl, rfl, rfl, rfl⟩

theorem bumpPipes_fds (s : State) (x : Handle) : (bumpPipes s x).nh = s.nh ∧ (bumpPipes s x).fds = s.fds ∧
    (bumpPipes s x).handles = s.handles ∧ (bumpPipes s x).fs = s.fs := by
  unfold bumpPipes
  split
  · exact ⟨rfl, rfl, rfl, rfl⟩
  · obtain ⟨a, b, c, c'⟩ := bumpEnd_fds s .write (by assumption : Info).send
    obtain ⟨d, e, f, f'⟩ := bumpEnd_fds (bumpEnd s .write (by assumption : Info).send) .read (by assumption : Info).recv
    exact ⟨d.trans a, e.trans b, f.trans c, f'.trans c'⟩

theorem dropEnd_fds (s : State) (e : End) (o : Option Nat) : (dropEnd s e o).nh = s.nh ∧ (dropEnd s e o).fds = s.fds ∧
    (dropEnd s e o).fs = s.fs := by
  cases o <;> exact ⟨rfl, rfl, rfl⟩

theorem dropPipes_fds (s : State) (h : Nat) (x : Handle) (i : Info) : (dropPipes s h x i).nh = s.nh ∧
    (dropPipes s h x i).fds = s.fds ∧ (dropPipes s h x i).fs = s.fs ∧ ∀ k, k ≠ h → (dropPipes s h x i).handles k = s.handles k := by
  unfold dropPipes
  obtain ⟨a, b, b'⟩ := dropEnd_fds s .write i.send
  obtain ⟨d, e, e'⟩ := dropEnd_fds (dropEnd s .write i.send) .read i.recv
  refine ⟨d.trans a, e.trans b, e'.trans b', fun k hk => ?_⟩
  simp only [State.setH, upd_ne _ _ hk]
  rw [(evo_dropEnd _ _ _).2, (evo_dropEnd _ _ _).2]

theorem withSock_keeps (s : State) (d : Nat) (f : Fd → Handle → State × Out)
    (hf : ∀ fd, s.fds d = some fd → Keeps s (f fd (s.handles fd.h)).1) : Keeps s (withSock s d f).1 := by
  unfold withSock
  split
  · exact .refl s
  · rename_i fd hfd
    split
    · exact .refl s
    · exact hf fd hfd

theorem Keeps.setFd {s s' : State} {d d0 : Nat} {fd f0 : Fd} (K : Keeps s s') (h0 : s.fds d0 = some f0) (e : f0.h = fd.h) :
    Keeps s (s'.setFd d (some fd)) := by
  refine ⟨K.nh, fun j fj hj => ?_⟩
  simp only [State.setFd, upd_apply] at hj
  split at hj
  · cases hj; exact .inl ⟨d0, f0, h0, e⟩
  · exact K.fd j fj hj

theorem Keeps.delFd {s s' : State} {d : Nat} (K : Keeps s s') : Keeps s (s'.setFd d none) := by
  refine ⟨K.nh, fun j fj hj => ?_⟩
  simp only [State.setFd, upd_apply] at hj
  split at hj
  · cases hj
  · exact K.fd j fj hj

theorem recv_fds (s : State) (d n : Nat) (peek : Bool) : (recv s d n peek).1.nh = s.nh ∧ (recv s d n peek).1.fds = s.fds ∧
    (recv s d n peek).1.fs = s.fs := by
  generalize hr : recv s d n peek = r
  unfold recv withSock at hr
  repeat' (first | split at hr | (dsimp only at hr; split at hr))
  all_goals subst hr; exact ⟨rfl, rfl, rfl⟩

theorem send_fds (s : State) (d : Nat) (data : List UInt8) : (send s d data).1.nh = s.nh ∧ (send s d data).1.fds = s.fds ∧
    (send s d data).1.fs = s.fs ∧ (send s d data).1.handles = s.handles := by
  generalize hr : send s d data = r
  unfold send withSock at hr
  repeat' (first | split at hr | (dsimp only at hr; split at hr))
  all_goals subst hr; exact ⟨rfl, rfl, rfl, rfl⟩

theorem writev_fds (s : State) (d : Nat) (data : List (List UInt8)) : (writev s d data).1.nh = s.nh ∧
    (writev s d data).1.fds = s.fds ∧ (writev s d data).1.fs = s.fs ∧ (writev s d data).1.handles = s.handles := by
  generalize hr : writev s d data = r
  unfold writev withSock at hr
  repeat' (first | split at hr | (dsimp only at hr; split at hr))
  all_goals subst hr; exact ⟨rfl, rfl, rfl, rfl⟩

theorem keeps_step (s : State) (op : Op) : Keeps s (step s op).1 := by
  cases op with
  | socket d nb =>
    simp only [step, socket]
    split
    · exact .refl s
    · refine ⟨by simp only [State.setFd]; omega, fun j fj hj => ?_⟩
      simp only [State.setFd, upd_apply] at hj ⊢
      split at hj
      · cases hj; exact .inr ⟨by simp, by simp⟩
      · exact .inl ⟨j, fj, hj, rfl⟩
  | bind d cwd a =>
    exact withSock_keeps _ _ _ fun fd _ => .of_eq (bindH_fds ..).1 (bindH_fds ..).2
  | getsockname d => exact withSock_keeps _ _ _ fun fd _ => .refl s
  | getpeername d =>
    refine withSock_keeps _ _ _ fun fd _ => ?_
    split <;> exact .refl s
  | listen d =>
    refine withSock_keeps _ _ _ fun fd _ => ?_
    split
    · exact .refl s
    · exact .of_eq rfl rfl
    · exact .refl s
  | connect d cwd a =>
    refine withSock_keeps _ _ _ fun fd _ => ?_
    split
    · exact .refl s
    · dsimp only
      obtain ⟨e1, e2⟩ := autoBind_fds s fd.h cwd
      split
      · split <;> exact .of_eq e1 e2
      · exact .of_eq e1 e2
  | accept d new cwd =>
    refine withSock_keeps _ _ _ fun fd _ => ?_
    split
    · exact .refl s
    · split
      · exact .refl s
      · split
        · exact .refl s
        · split
          · exact .refl s
          · split
            · exact .refl s
            · split
              · exact .refl s
              · split
                · exact .refl s
                · rename_i e _ _ _ _ _ _ _ _
                  obtain ⟨e1, e2⟩ := wake_fds s e.waiter
                  refine ⟨by dsimp only; omega, fun j fj hj => ?_⟩
                  simp only [upd_apply] at hj ⊢
                  split at hj
                  · cases hj; exact .inr ⟨by dsimp only; omega, by dsimp only; omega⟩
                  · rw [e2] at hj; exact .inl ⟨j, fj, hj, rfl⟩
  | send d data => exact .of_eq (send_fds ..).1 (send_fds ..).2.1
  | writev d iovs => exact .of_eq (writev_fds ..).1 (writev_fds ..).2.1
  | recv d n peek => exact .of_eq (recv_fds ..).1 (recv_fds ..).2.1
  | shutdown d how =>
    simp only [step, shutdown]
    split
    · exact .refl s
    · refine withSock_keeps _ _ _ fun fd _ => ?_
      split
      · exact .refl s
      · dsimp only
        split
        · exact Keeps.delFd (s' := s.setH _ _) (.of_eq rfl rfl)
        · exact .of_eq rfl rfl
  | dup d d' =>
    refine withSock_keeps _ _ _ fun fd hfd => ?_
    split
    · exact .refl s
    · exact Keeps.setFd (.of_eq (bumpPipes_fds ..).1 (bumpPipes_fds ..).2.1) hfd rfl
  | forkFd d d' =>
    refine withSock_keeps _ _ _ fun fd hfd => ?_
    split
    · exact .refl s
    · split
      · exact Keeps.setFd (.refl s) hfd rfl
      · split
        · exact .refl s
        · exact Keeps.setFd (s' := { bumpPipes _ _ with fs := _ }) (.of_eq (bumpPipes_fds ..).1 (bumpPipes_fds ..).2.1) hfd rfl
  | close d cwd =>
    refine withSock_keeps _ _ _ fun fd hfd => ?_
    split
    · exact Keeps.delFd (.refl s)
    · dsimp only
      split
      · exact .of_eq (dropPipes_fds ..).1 (dropPipes_fds ..).2.1
      · refine Keeps.delFd ?_
        exact .of_eq (dropPipes_fds s fd.h (s.handles fd.h) _).1 (dropPipes_fds s fd.h (s.handles fd.h) _).2.1
  | socketpair d d' nb cwd =>
    have key : ∀ s2 : State, s2.nh = s.nh + 2 →
        s2.fds = upd (upd s.fds d (some { h := s.nh, nb := nb })) d' (some { h := s.nh + 1, nb := nb }) → Keeps s s2 := by
      intro s2 h1 h2
      refine ⟨by omega, fun j fj hj => ?_⟩
      rw [h2] at hj
      simp only [upd_apply] at hj
      split at hj
      · cases hj; exact .inr ⟨by dsimp only; omega, by dsimp only; omega⟩
      · split at hj
        · cases hj; exact .inr ⟨by dsimp only; omega, by dsimp only; omega⟩
        · exact .inl ⟨j, fj, hj, rfl⟩
    simp only [step, socketpair]
    split
    · exact .refl s
    · have h1 : ∀ s1 : State, (autoBind (autoBind s1 s.nh cwd) (s.nh + 1) cwd).nh = s1.nh ∧
          (autoBind (autoBind s1 s.nh cwd) (s.nh + 1) cwd).fds = s1.fds := fun s1 =>
        ⟨(autoBind_fds ..).1.trans (autoBind_fds ..).1, (autoBind_fds ..).2.trans (autoBind_fds ..).2⟩
      split
      · split
        · exact key _ (h1 _).1 (h1 _).2
        · split
          · exact key _ (h1 _).1 (h1 _).2
          · exact key _ (h1 _).1 (h1 _).2
      · exact key _ (h1 _).1 (h1 _).2
  | setNb d nb => exact withSock_keeps _ _ _ fun fd hfd => Keeps.setFd (.refl s) hfd rfl
  | fsys fs => exact .of_eq rfl rfl

theorem sys_step_s (S : Sys) (op : Op) : (S.step op).s = (step S.s op).1 := rfl

theorem Reach.fdLt {S : Sys} (h : Reach S) : FdLt S.s := by
  induction h with
  | start fs => intro d fd h; cases h
  | step op _ _ ih => exact (keeps_step _ op).fdLt ih

/-! ## What calls do to the address and the state of a handle -/

/-- Address kept once there, everything else but the connection as it was. -/
def Same (x x' : Handle) : Prop := (x'.laddr = x.laddr ∨ x.laddr = none) ∧ x'.st = x.st

theorem Same.refl (x : Handle) : Same x x := ⟨.inl rfl, rfl⟩

theorem Same.trans {a b c : Handle} (h1 : Same a b) (h2 : Same b c) : Same a c := by
  refine ⟨?_, h2.2.trans h1.2⟩
  rcases h1.1 with e | e
  · rcases h2.1 with e' | e'
    · exact .inl (e'.trans e)
    · exact .inr (e ▸ e')
  · exact .inr e

theorem same_setH {s : State} {h : Nat} {x : Handle} (hx : Same (s.handles h) x) (k : Nat) :
    Same (s.handles k) ((s.setH h x).handles k) := by
  by_cases hk : k = h
  · subst hk; simp only [State.setH, upd_same]; exact hx
  · simp only [State.setH, upd_ne _ _ hk]; exact .refl _

theorem same_bindH (s : State) (h : Nat) (cwd a : Str) (k : Nat) : Same (s.handles k) ((bindH s h cwd a).1.handles k) := by
  unfold bindH
  dsimp only
  cases hl : (s.handles h).laddr
  case some => exact .refl _
  · dsimp only
    split
    · exact same_setH (s := { s with fs := _ }) (x := { s.handles h with laddr := some a, info := _ }) ⟨.inr hl, rfl⟩ k
    · exact same_setH (s := { s with fs := _ }) (x := { s.handles h with laddr := some a }) ⟨.inr hl, rfl⟩ k

theorem same_autoBind (s : State) (h : Nat) (cwd : Str) (k : Nat) : Same (s.handles k) ((autoBind s h cwd).handles k) := by
  unfold autoBind
  split
  · exact .refl _
  · exact same_bindH { s with ud := s.ud + 1 } h cwd _ k

theorem same_wake (s : State) (o : Option Nat) (k : Nat) : Same (s.handles k) ((wake s o).handles k) := by
  cases o with
  | none => exact .refl _
  | some w => refine same_setH ?_ k; exact ⟨.inl rfl, rfl⟩

theorem same_dropPipes (s : State) (h : Nat) (i : Info) (k : Nat) :
    Same (s.handles k) ((dropPipes s h (s.handles h) i).handles k) := by
  unfold dropPipes
  have h1 := (evo_dropEnd s .write i.send).2
  have h2 := (evo_dropEnd (dropEnd s .write i.send) .read i.recv).2
  by_cases hk : k = h
  · subst hk; simp only [State.setH, upd_same]; exact ⟨.inl rfl, rfl⟩
  · simp only [State.setH, upd_ne _ _ hk, h2, h1]; exact .refl _

theorem withSock_handle {P : State → Prop} (s : State) (d : Nat) (f : Fd → Handle → State × Out) (h0 : P s)
    (hf : ∀ fd, s.fds d = some fd → P (f fd (s.handles fd.h)).1) : P (withSock s d f).1 := by
  unfold withSock
  split
  · exact h0
  · rename_i fd hfd
    split
    · exact h0
    · exact hf fd hfd

theorem recv_handle (s : State) (d n : Nat) (peek : Bool) (k : Nat) : Same (s.handles k) ((recv s d n peek).1.handles k) := by
  generalize hr : recv s d n peek = r
  unfold recv withSock at hr
  repeat' (first | split at hr | (dsimp only at hr; split at hr))
  all_goals subst hr
  all_goals first
    | exact .refl _
    | (refine same_setH ?_ k; exact ⟨.inl rfl, rfl⟩)
    | (refine same_setH (s := s.setP _ _) ?_ k; exact ⟨.inl rfl, rfl⟩)

/-- A call on a descriptor of handle `h` that changes the state of its connection. -/
def Moves (s : State) (h : Nat) : Op → Prop
  | .connect d _ _ | .listen d | .shutdown d _ => (s.fds d).map (·.h) = some h
  | _ => False

theorem handle_step (s : State) (op : Op) (h : Nat) (hlt : h < s.nh) :
    (((step s op).1.handles h).laddr = (s.handles h).laddr ∨ (s.handles h).laddr = none) ∧
    (¬ Moves s h op → ((step s op).1.handles h).st = (s.handles h).st) := by
  have key : Same (s.handles h) ((step s op).1.handles h) →
      (((step s op).1.handles h).laddr = (s.handles h).laddr ∨ (s.handles h).laddr = none) ∧
      (¬ Moves s h op → ((step s op).1.handles h).st = (s.handles h).st) := fun k => ⟨k.1, fun _ => k.2⟩
  cases op with
  | socket d nb =>
    refine key ?_
    simp only [step, socket]
    split
    · exact .refl _
    · simp only [State.setFd, upd_ne _ _ (show h ≠ s.nh by omega)]; exact .refl _
  | bind d cwd a =>
    refine key ?_
    exact withSock_handle (P := fun t => Same (s.handles h) (t.handles h)) _ _ _ (.refl _) fun fd _ => same_bindH s fd.h cwd a h
  | getsockname d =>
    exact key (withSock_handle (P := fun t => Same (s.handles h) (t.handles h)) _ _ _ (.refl _) fun fd _ => .refl _)
  | getpeername d =>
    refine key (withSock_handle (P := fun t => Same (s.handles h) (t.handles h)) _ _ _ (.refl _) fun fd _ => ?_)
    split <;> exact .refl _
  | listen d =>
    refine withSock_handle (P := fun t => ((t.handles h).laddr = (s.handles h).laddr ∨ (s.handles h).laddr = none) ∧
      (¬ Moves s h (.listen d) → (t.handles h).st = (s.handles h).st)) _ _ _ ⟨.inl rfl, fun _ => rfl⟩ fun fd hfd => ?_
    split
    · exact ⟨.inl rfl, fun _ => rfl⟩
    · by_cases hk : h = fd.h
      · refine ⟨.inl (by subst hk; simp only [State.setH, upd_same]), fun hm => absurd ?_ hm⟩
        simp only [Moves, hfd, Option.map_some, hk]
      · simp only [State.setH, upd_ne _ _ hk]; exact ⟨.inl trivial, fun _ => trivial⟩
    · exact ⟨.inl rfl, fun _ => rfl⟩
  | connect d cwd a =>
    refine withSock_handle (P := fun t => ((t.handles h).laddr = (s.handles h).laddr ∨ (s.handles h).laddr = none) ∧
      (¬ Moves s h (.connect d cwd a) → (t.handles h).st = (s.handles h).st)) _ _ _ ⟨.inl rfl, fun _ => rfl⟩ fun fd hfd => ?_
    split
    · exact ⟨.inl rfl, fun _ => rfl⟩
    · have hab := same_autoBind s fd.h cwd h
      dsimp only
      split
      · split
        · by_cases hk : h = fd.h
          · subst hk
            refine ⟨by simp only [upd_same]; exact hab.1, fun hm => absurd ?_ hm⟩
            simp only [Moves, hfd, Option.map_some]
          · simp only [upd_ne _ _ hk]; exact ⟨hab.1, fun _ => hab.2⟩
        · exact ⟨hab.1, fun _ => hab.2⟩
      · exact ⟨hab.1, fun _ => hab.2⟩
  | accept d new cwd =>
    refine key (withSock_handle (P := fun t => Same (s.handles h) (t.handles h)) _ _ _ (.refl _) fun fd _ => ?_)
    split
    · exact .refl _
    · split
      · exact .refl _
      · split
        · exact .refl _
        · split
          · exact .refl _
          · split
            · exact .refl _
            · split
              · exact .refl _
              · split
                · exact .refl _
                · rename_i e _ _ _ _ _ _ _ _
                  have hne : h ≠ (wake s e.waiter).nh := by rw [(wake_fds s e.waiter).1]; omega
                  simp only [upd_ne _ _ hne]
                  exact same_wake s _ h
  | send d data => refine key ?_; simp only [step, (send_fds ..).2.2.2]; exact .refl _
  | writev d iovs => refine key ?_; simp only [step, (writev_fds ..).2.2.2]; exact .refl _
  | recv d n peek => exact key (recv_handle s d n peek h)
  | shutdown d how =>
    simp only [step, shutdown]
    split
    · exact ⟨.inl rfl, fun _ => rfl⟩
    · refine withSock_handle (P := fun t => ((t.handles h).laddr = (s.handles h).laddr ∨ (s.handles h).laddr = none) ∧
        (¬ Moves s h (.shutdown d how) → (t.handles h).st = (s.handles h).st)) _ _ _ ⟨.inl rfl, fun _ => rfl⟩ fun fd hfd => ?_
      split
      · exact ⟨.inl rfl, fun _ => rfl⟩
      · have : ∀ x : Handle, x.laddr = (s.handles fd.h).laddr →
            (((s.setH fd.h x).handles h).laddr = (s.handles h).laddr ∨ (s.handles h).laddr = none) ∧
            (¬ Moves s h (.shutdown d how) → ((s.setH fd.h x).handles h).st = (s.handles h).st) := by
          intro x hx
          by_cases hk : h = fd.h
          · subst hk
            refine ⟨.inl (by simp only [State.setH, upd_same]; exact hx), fun hm => absurd ?_ hm⟩
            simp only [Moves, hfd, Option.map_some]
          · simp only [State.setH, upd_ne _ _ hk]; exact ⟨.inl trivial, fun _ => trivial⟩
        dsimp only
        split <;> exact this _ rfl
  | dup d d' =>
    refine key (withSock_handle (P := fun t => Same (s.handles h) (t.handles h)) _ _ _ (.refl _) fun fd _ => ?_)
    split
    · exact .refl _
    · simp only [State.setFd, (bumpPipes_fds ..).2.2.1]; exact .refl _
  | forkFd d d' =>
    refine key (withSock_handle (P := fun t => Same (s.handles h) (t.handles h)) _ _ _ (.refl _) fun fd _ => ?_)
    split
    · exact .refl _
    · split
      · exact .refl _
      · split
        · exact .refl _
        · simp only [State.setFd, (bumpPipes_fds ..).2.2.1]; exact .refl _
  | close d cwd =>
    refine key (withSock_handle (P := fun t => Same (s.handles h) (t.handles h)) _ _ _ (.refl _) fun fd _ => ?_)
    split
    · exact .refl _
    · dsimp only
      split
      · exact same_dropPipes s fd.h _ h
      · exact same_dropPipes s fd.h _ h
  | socketpair d d' nb cwd =>
    refine key ?_
    simp only [step, socketpair]
    split
    · exact .refl _
    · have h1 : ∀ s1 : State, s1.handles h = s.handles h →
          Same (s.handles h) ((autoBind (autoBind s1 s.nh cwd) (s.nh + 1) cwd).handles h) := by
        intro s1 e
        have a := same_autoBind s1 s.nh cwd h
        have b := same_autoBind (autoBind s1 s.nh cwd) (s.nh + 1) cwd h
        rw [e] at a
        exact a.trans b
      have h2 : upd (upd s.handles s.nh {}) (s.nh + 1) {} h = s.handles h := by
        rw [upd_ne _ _ (by omega), upd_ne _ _ (by omega)]
      split
      · split
        · exact h1 _ h2
        · split
          · exact h1 _ h2
          · dsimp only
            rw [upd_ne _ _ (by omega), upd_ne _ _ (by omega)]
            exact h1 _ h2
      · exact h1 _ h2
  | setNb d nb =>
    exact key (withSock_handle (P := fun t => Same (s.handles h) (t.handles h)) _ _ _ (.refl _) fun fd _ => .refl _)
  | fsys fs => exact key (.refl _)

end Verif.UnixSock
