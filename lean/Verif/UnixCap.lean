import Verif.UnixBindProps
import Verif.PipeCap
import Verif.UnixSockAnswers

/-!
# Unix sockets: how much a direction holds, the mode of a bound name, the names given by the system
-/

set_option linter.unusedSimpArgs false

namespace Verif.UnixSock

open Verif.Path Verif.Fs
open Verif.Pipe (Pipe End udsockCapacity)
open Verif.Kernel (CwdOk writeNow_cap writevLoop_cap readNow_cap)

/-! ## Lemmas -/

/-- Every direction has this capacity and is within it. -/
def Capped (s : State) : Prop := ∀ p, (s.pipes p).cap = udsockCapacity ∧ (s.pipes p).buf.length ≤ udsockCapacity

theorem Capped.of_eq {s s' : State} (h : Capped s) (e : s'.pipes = s.pipes) : Capped s' := by intro p; rw [e]; exact h p

theorem Capped.set {s : State} (h : Capped s) {s' : State} {p : Nat} {x : Pipe} (e : s'.pipes = upd s.pipes p x)
    (hx : x.cap = udsockCapacity ∧ x.buf.length ≤ udsockCapacity) : Capped s' := by
  intro q; rw [e, upd_apply]; split
  · exact hx
  · exact h q

theorem Capped.bump {s : State} (h : Capped s) (e : End) (o : Option Nat) : Capped (bumpEnd s e o) := by
  cases o with
  | none => exact h
  | some p => exact h.set rfl (by cases e <;> exact h p)

theorem Capped.bumps {s : State} (h : Capped s) (x : Handle) : Capped (bumpPipes s x) := by
  unfold bumpPipes
  split
  · exact h
  · exact (h.bump _ _).bump _ _

theorem Capped.drop {s : State} (h : Capped s) (e : End) (o : Option Nat) : Capped (dropEnd s e o) := by
  cases o with
  | none => exact h
  | some p => exact h.set rfl (by cases e <;> exact h p)

theorem new_cap : (Pipe.new udsockCapacity).cap = udsockCapacity ∧ (Pipe.new udsockCapacity).buf.length ≤ udsockCapacity := ⟨rfl, Nat.zero_le _⟩

theorem bindH_pipes (s : State) (h : Nat) (cwd a : Str) : (bindH s h cwd a).1.pipes = s.pipes := by
  unfold bindH; dsimp only
  split
  · rfl
  · split <;> rfl

theorem autoBind_pipes (s : State) (h : Nat) (cwd : Str) : (autoBind s h cwd).pipes = s.pipes := by
  unfold autoBind
  split
  · rfl
  · exact bindH_pipes _ _ _ _

theorem bindH_ud (s : State) (h : Nat) (cwd a : Str) : (bindH s h cwd a).1.ud = s.ud := by
  unfold bindH; dsimp only
  split
  · rfl
  · split <;> rfl

theorem bindH_other (s : State) {h k : Nat} (hk : k ≠ h) (cwd a : Str) : (bindH s h cwd a).1.handles k = s.handles k := by
  unfold bindH; dsimp only
  split
  · rfl
  · split <;> simp only [State.setH, upd_ne _ _ hk]

theorem autoBind_other (s : State) {h k : Nat} (hk : k ≠ h) (cwd : Str) : (autoBind s h cwd).handles k = s.handles k := by
  unfold autoBind
  split
  · rfl
  · exact bindH_other _ hk _ _

theorem autoBind_waiting (s : State) (h k : Nat) (cwd : Str) : ((autoBind s h cwd).handles k).waiting = (s.handles k).waiting := by
  by_cases hk : k = h
  · subst hk
    unfold autoBind bindH; dsimp only
    split
    · rfl
    · split
      · rfl
      · split <;> simp only [State.setH, upd_same]
  · rw [autoBind_other _ hk]

theorem Capped.step {s : State} (h : Capped s) (op : Op) : Capped (step s op).1 := by
  have ws : ∀ d f, (∀ fd, s.fds d = some fd → Capped (f fd (s.handles fd.h)).1) → Capped (withSock s d f).1 := fun d f hf =>
    withSock_handle (P := Capped) s d f h hf
  have le : ∀ p, (s.pipes p).buf.length ≤ (s.pipes p).cap := fun p => by rw [(h p).1]; exact (h p).2
  cases op with
  | socket d nb => simp only [UnixSock.step, socket]; split <;> exact h
  | bind d cwd a => exact ws _ _ fun fd _ => h.of_eq (bindH_pipes _ _ _ _)
  | getsockname d => exact ws _ _ fun _ _ => h
  | getpeername d => refine ws _ _ fun fd _ => ?_; split <;> exact h
  | listen d => refine ws _ _ fun fd _ => ?_; split <;> exact h
  | connect d cwd a =>
    refine ws _ _ fun fd _ => ?_
    dsimp only
    have ta : Capped (autoBind s fd.h cwd) := h.of_eq (autoBind_pipes _ _ _)
    generalize autoBind s fd.h cwd = s1 at ta ⊢
    split
    · exact h
    · split
      · split
        · intro p
          simp only [upd_apply]
          split
          · exact new_cap
          · split
            · exact new_cap
            · exact ta p
        · exact ta
      · exact ta
  | accept d new cwd =>
    refine ws _ _ fun fd _ => ?_
    have hw : ∀ o, (wake s o).pipes = s.pipes := fun o => by cases o <;> rfl
    cases new with
    | none => exact h
    | some d' =>
      dsimp only
      repeat' split
      all_goals first | exact h | exact h.of_eq (hw _)
  | send d data =>
    refine ws _ _ fun fd _ => ?_
    repeat' split
    · exact h
    · exact h
    · exact h
    · rename_i p _
      have := writeNow_cap (le p) data fd.nb
      refine h.set rfl ⟨this.2.trans (h p).1, ?_⟩
      rw [← (h p).1]; exact this.1
  | writev d iovs =>
    refine ws _ _ fun fd _ => ?_
    repeat' split
    · exact h
    · exact h
    · exact h
    · rename_i p _
      have := writevLoop_cap fd.nb iovs (s.pipes p) 0 (le p)
      refine h.set rfl ⟨this.2.trans (h p).1, ?_⟩
      rw [← (h p).1]; exact this.1
  | recv d n peek =>
    refine ws _ _ fun fd _ => ?_
    dsimp only
    split
    · exact h
    split
    · exact h
    split
    · exact h
    split
    · exact h
    split
    · exact h
    · rename_i p _
      have g := readNow_cap (le p) (n - min (s.handles fd.h).peek.length n) fd.nb
      revert g
      generalize Pipe.Pipe.readNow _ _ _ = x
      intro g
      obtain ⟨p', r, bs⟩ := x
      dsimp only at g
      cases r with
      | ok v =>
        refine h.set rfl ⟨g.2.trans (h p).1, ?_⟩
        rw [← (h p).1]; exact g.1
      | _ => dsimp only; split <;> exact h
  | shutdown d how =>
    simp only [UnixSock.step, shutdown]
    split
    · exact h
    · refine ws _ _ fun fd _ => ?_
      split
      · exact h
      · dsimp only; split <;> exact h
  | dup d d' =>
    refine ws _ _ fun fd _ => ?_
    split
    · exact h
    · exact (h.bumps (s.handles fd.h)).of_eq rfl
  | forkFd d d' =>
    refine ws _ _ fun fd _ => ?_
    split
    · exact h
    · split
      · exact h
      · split
        · exact h
        · exact (h.bumps (s.handles fd.h)).of_eq rfl
  | close d cwd =>
    refine ws _ _ fun fd _ => ?_
    split
    · exact h
    · rename_i i _
      dsimp only
      have hd : ∀ x, Capped (dropPipes s fd.h x i) := fun x => ((h.drop .write i.send).drop .read i.recv).of_eq rfl
      split
      · exact hd _
      · exact (hd (s.handles fd.h)).of_eq rfl
  | socketpair d d' nb cwd =>
    simp only [UnixSock.step, socketpair]
    split
    · exact h
    · have t1 : Capped { s with
        handles := upd (upd s.handles s.nh {}) (s.nh + 1) {}, nh := s.nh + 2
        fds := upd (upd s.fds d (some { h := s.nh, nb := nb })) d' (some { h := s.nh + 1, nb := nb }) } := h
      have t2 : Capped (autoBind (autoBind { s with
        handles := upd (upd s.handles s.nh {}) (s.nh + 1) {}, nh := s.nh + 2
        fds := upd (upd s.fds d (some { h := s.nh, nb := nb })) d' (some { h := s.nh + 1, nb := nb }) } s.nh cwd) (s.nh + 1) cwd) :=
        (t1.of_eq (autoBind_pipes _ _ _)).of_eq (autoBind_pipes _ _ _)
      revert t2
      generalize autoBind _ (s.nh + 1) cwd = s2
      intro t2
      split
      · split
        · exact t2
        · split
          · exact t2
          · intro p
            simp only [upd_apply]
            split
            · exact new_cap
            · split
              · exact new_cap
              · exact t2 p
      · exact t2
  | setNb d nb => exact ws _ _ fun _ _ => h
  | fsys fs => exact h

theorem digit_inj {l l' : List Char} (h : ∀ c ∈ l, c.isDigit) (h' : ∀ c ∈ l', c.isDigit)
    (e : l.map (fun c => c.toNat.toUInt8) = l'.map (fun c => c.toNat.toUInt8)) : l = l' := by
  induction l generalizing l' with
  | nil => cases l' with
    | nil => rfl
    | cons => simp at e
  | cons a l ih =>
    cases l' with
    | nil => simp at e
    | cons b l' =>
      simp only [List.map_cons, List.cons.injEq] at e
      have ha := h a List.mem_cons_self
      have hb := h' b List.mem_cons_self
      have key : ∀ c : Char, c.isDigit → c.toNat < 256 := by
        intro c hc
        simp only [Char.isDigit, Bool.and_eq_true, decide_eq_true_eq] at hc
        have := UInt32.le_iff_toNat_le.1 hc.2
        have : c.val.toNat ≤ 57 := this
        exact Nat.lt_of_le_of_lt this (by decide)
      have e1 := congrArg UInt8.toNat e.1
      simp only [Nat.toUInt8, UInt8.toNat_ofNat', Nat.mod_eq_of_lt (key a ha), Nat.mod_eq_of_lt (key b hb)] at e1
      have e2 : a = b := by apply Char.toNat_inj.1; exact e1
      rw [e2, ih (fun c hc => h c (List.mem_cons_of_mem _ hc)) (fun c hc => h' c (List.mem_cons_of_mem _ hc)) e.2]

/-! ## Properties -/

/-- C40.  No direction of a connection ever holds more than 212992 bytes that were sent and not looked at. -/
theorem stream_capacity {S : Sys} (h : Reach S) (p : Nat) : (S.s.pipes p).cap = 212992 ∧ (S.s.pipes p).buf.length ≤ 212992 := by
  have : Capped S.s := by
    induction h with
    | start fs => exact fun _ => new_cap
    | step op _ _ ih => exact ih.step op
  exact this p

/-- C40.  What was sent on a direction and not received, nor kept by the receiving socket for a later call after a peek, is at most 212992 bytes. -/
theorem in_flight {S : Sys} (h : Reach S) {d p : Nat} {fd : Fd} (hfd : S.s.fds d = some fd) (hd : inOf S.s d = some p) :
    (S.sent p).length ≤ (S.rcvd p).length + (S.s.handles fd.h).peek.length + 212992 := by
  have hp : hin S.s fd.h = some p := by simpa only [inOf, hfd, Option.bind_some] using hd
  have e := congrArg List.length (h.inv.fifoH fd.h p hp)
  have := (stream_capacity h p).2
  simp only [List.length_append] at e
  omega

/-- C54.  The object a bind creates has the type of a socket, and the permissions of the directory it is in. -/
theorem bind_mode {s : State} (T : Tree s.fs.inodes s.fs.next) {cwd : Str} (hc : CwdOk cwd) {d : Nat} {a : Str}
    (hok : (step s (.bind d cwd a)).2.ret = .ok 0) {i : Nat} {nd : Inode} (h0 : s.fs.inodes i = none)
    (hi : (step s (.bind d cwd a)).1.fs.inodes i = some nd) {par : Nat} {n : Name} (hpl : Place s cwd a par n) {pd : Inode}
    (hpd : s.fs.inodes par = some pd) :
    nd.kind = .sock ∧ nd.mode &&& 0o170000#32 = 0o140000#32 ∧ nd.mode &&& 0o777#32 = pd.mode &&& 0o777#32 := by
  have hR := (bind_succeeds_iff T hc d a).1 hok
  obtain ⟨⟨fd, hfd, hw, hla⟩, ha, hno, -⟩ := hR
  rw [bind_eq hfd hw] at hi
  rcases bindName_cases T (pathOf_good hc a) a with ⟨h1, e⟩ | ⟨h1, ⟨i, h2⟩, e⟩ | ⟨h1, h2, ps, n', par', pd', g0, gw, g1, g2, g3, g4, g5, e⟩ | ⟨h1, h2, h3, e⟩
  · exact absurd h1 ha
  · exact absurd h2 (hno i)
  · obtain ⟨ps', pd'', k1, k2, k3, k4⟩ := hpl
    have hl := List.append_inj' (k1.symm.trans g0) rfl
    simp only [List.cons.injEq, and_true] at hl
    obtain ⟨rfl, rfl⟩ := hl
    have := walk_fun T k2 gw; subst this
    rw [k3] at g1; cases g1
    rw [k3] at hpd; cases hpd
    have hb : (bindH s fd.h cwd a).1.fs = grown s.fs (pathOf cwd a) par pd n := by simp only [bindH, hla, e, State.setH]
    rw [hb] at hi
    have hne : par ≠ i := by rintro rfl; rw [k3] at h0; cases h0
    by_cases hin : i = s.fs.next
    · subst hin
      simp only [grown, upd_same, Option.some.injEq] at hi
      subst hi
      refine ⟨rfl, ?_, ?_⟩
      · have e1 : sIFSOCK &&& 0o170000#32 = 0o140000#32 := by decide
        have e2 : sIRWXA &&& 0o170000#32 = 0#32 := by decide
        dsimp only
        rw [BitVec.and_or_distrib_right, BitVec.and_assoc, e1, e2, BitVec.and_zero, BitVec.or_zero]
      · have e1 : sIFSOCK &&& 0o777#32 = 0#32 := by decide
        have e2 : sFileType &&& sIRWXA = 0#32 := by decide
        have e3 : sIRWXA &&& 0o777#32 = 0o777#32 := by decide
        dsimp only
        rw [BitVec.and_or_distrib_right, BitVec.and_or_distrib_right, e1, e2, BitVec.or_zero, BitVec.and_assoc, e3, BitVec.zero_or]
    · rw [show (grown s.fs (pathOf cwd a) par pd n).inodes i = s.fs.inodes i from by
        simp only [grown, upd_ne _ _ hin, upd_ne _ _ hne.symm]] at hi
      rw [h0] at hi; cases hi
  · obtain ⟨ps, pd, k1, k2, k3, k4⟩ := hpl
    have := h3 ps n par pd k1 k2 k3
    rw [k4] at this; cases this

/-- C54.  The names the system gives to sockets that have none are all different. -/
theorem genPath_inj {n m : Nat} (h : genPath n = genPath m) : n = m := by
  have e := List.append_cancel_left h
  have := digit_inj (fun c hc => Nat.isDigit_of_mem_toDigits (by decide) (by decide) hc)
    (fun c hc => Nat.isDigit_of_mem_toDigits (by decide) (by decide) hc) e
  have g := congrArg (Nat.ofDigitChars 10 · 0) this
  simpa only [Nat.ofDigitChars_ten_toDigits] using g

/-- C54.  No call gives back a number that was used for a name. -/
theorem numbers_grow (s : State) (op : Op) : s.ud ≤ (step s op).1.ud := by
  have ws : ∀ d f, (∀ fd, s.fds d = some fd → s.ud ≤ (f fd (s.handles fd.h)).1.ud) → s.ud ≤ (withSock s d f).1.ud := fun d f hf =>
    withSock_handle (P := fun t => s.ud ≤ t.ud) s d f (Nat.le_refl _) hf
  have ha : ∀ (s : State) h cwd, s.ud ≤ (autoBind s h cwd).ud := fun s h cwd => by
    unfold autoBind
    split
    · exact Nat.le_refl _
    · rw [bindH_ud]; exact Nat.le_succ _
  have hbe : ∀ (s : State) e o, (bumpEnd s e o).ud = s.ud := fun s e o => by cases o <;> rfl
  have hde : ∀ (s : State) e o, (dropEnd s e o).ud = s.ud := fun s e o => by cases o <;> rfl
  have hb : ∀ x, (bumpPipes s x).ud = s.ud := fun x => by unfold bumpPipes; split <;> simp only [hbe]
  have hw : ∀ o, (wake s o).ud = s.ud := fun o => by cases o <;> rfl
  have h0 := Nat.le_refl s.ud
  cases op with
  | socket d nb => simp only [step, socket]; split <;> exact h0
  | bind d cwd a => exact ws _ _ fun fd _ => Nat.le_of_eq (bindH_ud _ _ _ _).symm
  | connect d cwd a =>
    refine ws _ _ fun fd _ => ?_
    dsimp only
    have := ha s fd.h cwd
    repeat' split
    all_goals first | exact h0 | exact this
  | accept d new cwd =>
    refine ws _ _ fun fd _ => ?_
    cases new with
    | none => exact h0
    | some d' =>
      dsimp only
      repeat' split
      all_goals first | exact h0 | exact Nat.le_of_eq (hw _).symm
  | recv d n peek =>
    refine ws _ _ fun fd _ => ?_
    dsimp only
    repeat' split
    all_goals exact h0
  | shutdown d how =>
    simp only [step, shutdown]
    split
    · exact h0
    · refine ws _ _ fun fd _ => ?_
      split
      · exact h0
      · dsimp only; split <;> exact h0
  | dup d d' => refine ws _ _ fun fd _ => ?_; split; exact h0; exact Nat.le_of_eq (hb _).symm
  | forkFd d d' =>
    refine ws _ _ fun fd _ => ?_
    repeat' split
    all_goals first | exact h0 | exact Nat.le_of_eq (hb _).symm
  | close d cwd =>
    refine ws _ _ fun fd _ => ?_
    have hd : ∀ x i, (dropPipes s fd.h x i).ud = s.ud := fun x i => by simp only [dropPipes, State.setH, hde]
    dsimp only
    repeat' split
    all_goals first | exact h0 | exact Nat.le_of_eq (hd (s.handles fd.h) _).symm
  | socketpair d d' nb cwd =>
    simp only [step, socketpair]
    split
    · exact h0
    · have t1 := ha { s with
        handles := upd (upd s.handles s.nh {}) (s.nh + 1) {}, nh := s.nh + 2
        fds := upd (upd s.fds d (some { h := s.nh, nb := nb })) d' (some { h := s.nh + 1, nb := nb }) } s.nh cwd
      have t2 := Nat.le_trans t1 (ha _ (s.nh + 1) cwd)
      revert t2
      generalize autoBind _ (s.nh + 1) cwd = s2
      intro t2
      repeat' split
      all_goals exact t2
  | _ =>
    first
      | exact ws _ _ fun _ _ => h0
      | (refine ws _ _ fun fd _ => ?_; repeat' split
         all_goals exact h0)
      | exact h0

/-- C54.  A name is given from the next number, and the number is used up. -/
theorem given_name (s : State) {h : Nat} (hn : (s.handles h).laddr = none) (cwd : Str) :
    ((autoBind s h cwd).handles h).laddr = some (genPath s.ud) ∧ (autoBind s h cwd).ud = s.ud + 1 := by
  unfold autoBind
  rw [hn]
  dsimp only
  refine ⟨?_, bindH_ud _ _ _ _⟩
  unfold bindH
  simp only [hn]
  split <;> simp only [State.setH, upd_same]

/-- C54.  The two sockets of a pair have different names. -/
theorem pair_names {s : State} {d d' : Nat} {nb : Bool} {cwd : Str} (hok : (step s (.socketpair d d' nb cwd)).2.ret = .ok 0) :
    ∃ a b, a ≠ b ∧ (step (step s (.socketpair d d' nb cwd)).1 (.getsockname d)).2 = { ret := .ok 0, addr := some a } ∧
      (step (step s (.socketpair d d' nb cwd)).1 (.getsockname d')).2 = { ret := .ok 0, addr := some b } ∧
      (step (step s (.socketpair d d' nb cwd)).1 (.getpeername d)).2 = { ret := .ok 0, addr := some b } ∧
      (step (step s (.socketpair d d' nb cwd)).1 (.getpeername d')).2 = { ret := .ok 0, addr := some a } := by
  generalize hx : step s (.socketpair d d' nb cwd) = x at hok ⊢
  simp only [step, socketpair] at hx
  by_cases hc : s.fds d ≠ none ∨ s.fds d' ≠ none ∨ d = d'
  · rw [if_pos hc] at hx; subst hx; cases hok
  rw [if_neg hc] at hx
  have hne : d ≠ d' := fun e => hc (.inr (.inr e))
  obtain ⟨s1, e1⟩ : ∃ t, t = { s with
      handles := upd (upd s.handles s.nh {}) (s.nh + 1) {}, nh := s.nh + 2
      fds := upd (upd s.fds d (some { h := s.nh, nb := nb })) d' (some { h := s.nh + 1, nb := nb }) } := ⟨_, rfl⟩
  rw [← e1] at hx
  have n01 : s.nh ≠ s.nh + 1 := Nat.ne_of_lt (Nat.lt_succ_self _)
  have a1 : (s1.handles s.nh) = {} := by rw [e1]; simp only [upd_ne _ _ n01, upd_same]
  have a2 : (s1.handles (s.nh + 1)) = {} := by rw [e1]; simp only [upd_same]
  have g1 := given_name s1 (h := s.nh) (by rw [a1]) cwd
  have o1 := autoBind_other s1 (h := s.nh) (k := s.nh + 1) (by omega) cwd
  have w1 := autoBind_waiting s1 s.nh s.nh cwd
  obtain ⟨s2, e2⟩ : ∃ t, t = autoBind s1 s.nh cwd := ⟨_, rfl⟩
  rw [← e2] at hx g1 o1 w1
  have g2 := given_name s2 (h := s.nh + 1) (by rw [o1, a2]) cwd
  have o2 := autoBind_other s2 (h := s.nh + 1) (k := s.nh) (by omega) cwd
  have w2 := autoBind_waiting s2 (s.nh + 1) (s.nh + 1) cwd
  have f2 : (autoBind s2 (s.nh + 1) cwd).fds = s1.fds := by
    rw [(autoBind_fds _ _ _).2, e2, (autoBind_fds _ _ _).2]
  obtain ⟨s3, e3⟩ : ∃ t, t = autoBind s2 (s.nh + 1) cwd := ⟨_, rfl⟩
  rw [← e3] at hx g2 o2 w2 f2
  have la : (s3.handles s.nh).laddr = some (genPath s1.ud) := by rw [o2]; exact g1.1
  have lb : (s3.handles (s.nh + 1)).laddr = some (genPath (s1.ud + 1)) := by rw [← g1.2]; exact g2.1
  have wa : (s3.handles s.nh).waiting = false := by rw [o2, w1, a1]
  have wb : (s3.handles (s.nh + 1)).waiting = false := by rw [w2, o1, a2]
  have fa : s3.fds d = some { h := s.nh, nb := nb } := by rw [f2, e1]; simp only [upd_ne _ _ hne, upd_same]
  have fb : s3.fds d' = some { h := s.nh + 1, nb := nb } := by rw [f2, e1]; simp only [upd_same]
  cases hi : (s3.handles s.nh).info with
  | none => simp only [hi] at hx; subst hx; cases hok
  | some i =>
    cases hj : (s3.handles (s.nh + 1)).info with
    | none => simp only [hi, hj] at hx; subst hx; cases hok
    | some j =>
      simp only [hi, hj] at hx
      cases hb1 : bumpInode s3.fs i.inode with
      | none => simp only [hb1] at hx; subst hx; cases hok
      | some fs1 =>
        simp only [hb1] at hx
        cases hb2 : bumpInode fs1 j.inode with
        | none => simp only [hb2] at hx; subst hx; cases hok
        | some fs2 =>
          simp only [hb2] at hx
          subst hx
          refine ⟨genPath s1.ud, genPath (s1.ud + 1), fun e => ?_, ?_, ?_, ?_, ?_⟩
          · have := genPath_inj e; omega
          all_goals
            simp only [step, getsockname, getpeername, withSock, fa, fb, upd_same, upd_ne _ _ n01, wa, wb, la, lb, Bool.false_eq_true, if_false,
              Option.getD_some]

/-! A file system on which names are bound, and a pair of sockets with a direction that is full. -/

example : (step (Sys.run { s := init fs0 } [.socket 3 true]).s (.bind 3 cw pS)).2.ret = .ok 0 ∧
    (Sys.run { s := init fs0 } [.socket 3 true]).s.fs.inodes fs0.next = none ∧
    ((step (Sys.run { s := init fs0 } [.socket 3 true]).s (.bind 3 cw pS)).1.fs.inodes fs0.next).map (·.mode &&& 0o170000#32) =
      some 0o140000#32 := by decide +kernel

example : (step (init fs0) (.socketpair 3 4 true cw)).2.ret = .ok 0 ∧
    (step (step (init fs0) (.socketpair 3 4 true cw)).1 (.getsockname 3)).2.addr = some [47, 115, 111, 99, 107, 48] ∧
    (step (step (init fs0) (.socketpair 3 4 true cw)).1 (.getsockname 4)).2.addr = some [47, 115, 111, 99, 107, 49] := by decide +kernel

example : ((init fs0).handles 7).laddr = none := rfl

example : inOf (Sys.run { s := init fs0 } [.socketpair 3 4 true cw, .send 3 [1, 2, 3], .recv 4 2 true]).s 4 = some 0 ∧
    (Sys.run { s := init fs0 } [.socketpair 3 4 true cw, .send 3 [1, 2, 3], .recv 4 2 true]).sent 0 = [1, 2, 3] := by decide +kernel

end Verif.UnixSock
