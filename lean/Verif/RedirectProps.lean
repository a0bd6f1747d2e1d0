import Verif.Redirect

/-! # A program starts with the descriptors the shell arranged (property C108) -/

namespace Verif.Redirect
open Verif.Kernel Verif.Fs Verif.Path Verif.Confine

theorem copy_cloexec (d : Desc) (he : d.isEpoll = false) : Copy d (d.setFlags (d.flags &&& ~~~oCLOEXEC)) := by
  have : oCLOEXEC = 0o2000000#32 := by decide
  cases d <;> simp_all [Copy, Desc.setFlags, Desc.flags, Desc.isEpoll]

theorem copy_trans {a b d : Desc} (h1 : Copy a b) (h2 : Copy b d) : Copy a d := by
  have hm : ∀ f : BitVec 32, f &&& ~~~0o2000000#32 &&& ~~~0o2000000#32 = f &&& ~~~0o2000000#32 := by
    intro f; rw [BitVec.and_assoc, BitVec.and_self]
  cases a <;> cases b <;> simp only [Copy] at h1 <;> cases d <;> simp only [Copy] at h2 ⊢
  · obtain ⟨rfl, rfl, rfl⟩ := h1; obtain ⟨rfl, rfl, rfl⟩ := h2; exact ⟨rfl, rfl, hm _⟩
  all_goals first
    | (obtain ⟨rfl, rfl⟩ := h1; obtain ⟨rfl, rfl⟩ := h2; exact ⟨rfl, hm _⟩)
    | (subst h1; subst h2; exact hm _)

theorem copy_not_epoll {a b : Desc} (h : Copy a b) : b.isEpoll = false := by
  cases a <;> cases b <;> simp only [Copy] at h <;> rfl

theorem copy_not_cloexec {a b : Desc} (h : Copy a b) : ¬ Cloexec b := by
  have hm : ∀ f : BitVec 32, f &&& ~~~0o2000000#32 &&& 0o2000000#32 = 0#32 := by
    intro f; rw [BitVec.and_assoc, (by decide : ~~~0o2000000#32 &&& 0o2000000#32 = 0#32)]; simp
  cases a <;> cases b <;> simp only [Copy] at h
  · obtain ⟨rfl, rfl, rfl⟩ := h; exact fun x => x (hm _)
  all_goals first
    | (obtain ⟨rfl, rfl⟩ := h; exact fun x => x (hm _))
    | (subst h; exact fun x => x (hm _))

/-- What `dup2` stores. -/
theorem dup2_exact {s : State} (hr : Reach s) {c : Nat} {cg : Cage} {old new : Nat} {d : Desc}
    (hc : s.cages c = some cg) (ho : old < 1024) (hn : new < 1024) (hne : new ≠ old)
    (hd : cg.fds old = some d) (he : d.isEpoll = false) :
    (step s c (.dup2 old new)).2.ret = .ok new ∧
    (step s c (.dup2 old new)).1.cages = upd s.cages c (some (cg.withSlot new (some (d.setFlags (d.flags &&& ~~~oCLOEXEC))))) := by
  have hnp := (hr.inv.dup2 hc old new (by
    intro f hf
    rw [getFd_nat ho, hd] at hf
    cases hf; cases he)).2
  have hb1 : ¬ ((new : Int) ≥ maxFd ∨ (new : Int) < 0) := by simp only [maxFd]; omega
  have hb2 : ¬ ((new : Int) = old) := by omega
  simp only [step, hc]
  simp only [dup2, if_neg hb1, if_neg hb2, getFd_nat ho, hd, he, Int.toNat_natCast, Bool.false_eq_true,
    if_false] at hnp ⊢
  have key : ∀ s1 : State, s1.cages = s.cages → (s1.putCopy c d new).2.ret ≠ .panic →
      (s1.putCopy c d new).2.ret = .ok new ∧
        (s1.putCopy c d new).1.cages = upd s.cages c (some (cg.withSlot new (some (d.setFlags (d.flags &&& ~~~oCLOEXEC))))) := by
    intro s1 hsame hnp
    simp only [State.putCopy] at hnp ⊢
    cases hb : s1.bump d with
    | none => rw [hb] at hnp; exact absurd rfl hnp
    | some s2 =>
      refine ⟨rfl, ?_⟩
      simp only
      rw [setFd_at (cg := cg) (by rw [(bump_same hb).cages, hsame, hc]), (bump_same hb).cages, hsame]
  cases hx : cg.fds new with
  | none =>
    simp only [hx, reduceCtorEq, if_false] at hnp ⊢
    exact key s rfl hnp
  | some dn =>
    simp only [hx] at hnp ⊢
    by_cases hp : (s.drop dn).2 = .panic
    · rw [if_pos hp] at hnp; exact absurd rfl hnp
    · rw [if_neg hp] at hnp ⊢
      exact key _ (drop_same s dn).cages hnp

theorem is_none {t : Nat → Option Desc} {o : Option (Nat × Bool)} (h : Is t o none) : o = none ∨ ∃ j b, o = some (j, b) ∧ t j = none := by
  rcases o with _ | ⟨j, b⟩
  · exact .inl rfl
  · right
    simp only [Is] at h
    split at h
    · exact ⟨j, b, rfl, ‹_›⟩
    · obtain ⟨d', h, -⟩ := h; cases h

theorem start_arranged (t : Nat → Option Desc) : Arranged t .start t := by
  intro k
  simp only [Plan.start, Is]
  split
  · assumption
  · rename_i d hd; exact ⟨d, hd, by simp⟩

/-- One redirection of a process whose table is as planned: it succeeds (a close of something already closed is answered EBADF), the table is as
planned afterwards, and no other cage changes. -/
theorem redirect_step {s : State} (hR : Reach s) {c : Nat} {cg : Cage} (hc : s.cages c = some cg) {t : Nat → Option Desc} {σ : Plan}
    (hA : Arranged t σ cg.fds) {r : Redir} (hf : Fit t σ r) :
    (match r with
      | .onto _ n => (step s c r.op).2.ret = .ok n
      | .shut n => (step s c r.op).2.ret = if cg.fds n = none then .err .EBADF else .ok 0) ∧
    ∃ cg', (step s c r.op).1.cages c = some cg' ∧ Arranged t (σ.after r) cg'.fds ∧ cg'.cwd = cg.cwd ∧ cg'.parent = cg.parent := by
  cases r with
  | onto o n =>
    obtain ⟨hn, j, b, d, hσ, ht, hne⟩ := hf
    have hAo := hA o
    rw [hσ] at hAo
    simp only [Is, ht] at hAo
    obtain ⟨d1, hd1, hrel⟩ := hAo
    have ho : o < 1024 := ((hR.inv.cage c cg hc).2.1 o d1 hd1).1
    have he : d1.isEpoll = false := by
      cases b with
      | true => exact copy_not_epoll hrel
      | false =>
        simp only [Bool.false_eq_true, if_false] at hrel
        subst hrel
        cases d1 <;> first | rfl | exact absurd rfl (hne _)
    simp only [Redir.op, Plan.after]
    by_cases hon : o = n
    · subst hon
      have e : step s c (.dup2 o o) = (s, .r (.ok o)) := by
        have hb1 : ¬ ((o : Int) ≥ maxFd ∨ (o : Int) < 0) := by simp only [maxFd]; omega
        simp only [step, hc, dup2, if_neg hb1, if_true]
      rw [e, if_pos rfl]
      exact ⟨rfl, cg, hc, hA, rfl, rfl⟩
    · obtain ⟨h1, h2⟩ := dup2_exact hR hc ho hn (Ne.symm hon) hd1 he
      refine ⟨h1, cg.withSlot n (some (d1.setFlags (d1.flags &&& ~~~oCLOEXEC))), by rw [h2]; simp, ?_, rfl, rfl⟩
      rw [if_neg hon]
      intro k
      simp only [Cage.withSlot, upd_apply]
      by_cases hk : k = n
      · simp only [hk, if_true, hσ, Option.map_some, Is, ht]
        refine ⟨_, rfl, ?_⟩
        cases b with
        | true => exact copy_trans hrel (copy_cloexec d1 he)
        | false => simp only [Bool.false_eq_true, if_false] at hrel; subst hrel; exact copy_cloexec d1 he
      · simp only [hk, if_false]; exact hA k
  | shut n =>
    have hn : n < 1024 := hf
    simp only [Redir.op, Plan.after]
    cases hd : cg.fds n with
    | none =>
      rw [close_unopened hc hn hd]
      refine ⟨by simp, cg, hc, ?_, rfl, rfl⟩
      intro k
      by_cases hk : k = n
      · simp only [hk, if_true, Is]; exact hd
      · simp only [hk, if_false]; exact hA k
    | some d =>
      obtain ⟨h1, h2⟩ := close_open hR hc hn hd
      refine ⟨by simp [h1], cg.withSlot n none, by rw [h2]; simp, ?_, rfl, rfl⟩
      intro k
      simp only [Cage.withSlot, upd_apply]
      by_cases hk : k = n
      · simp [hk, Is]
      · simp only [hk, if_false]; exact hA k

theorem does_other {c k : Nat} {op : Op} {h : List (Nat × Op)} {rs : List Redir} (hk : k ≠ c) (hd : Does c ((k, op) :: h) rs) : Does c h rs := by
  simpa [Does, hk] using hd

theorem does_own {c : Nat} {op : Op} {h : List (Nat × Op)} {rs : List Redir} (hd : Does c ((c, op) :: h) rs) :
    ∃ r rs', rs = r :: rs' ∧ op = r.op ∧ Does c h rs' := by
  cases rs with
  | nil => simp [Does] at hd
  | cons r rs =>
    simp only [Does, List.filter_cons, decide_true, if_true, List.map_cons, List.cons.injEq] at hd
    exact ⟨r, rs, rfl, hd.1, hd.2⟩

/-- Calls that respect `Tame` do not put a cage over one that exists. -/
theorem tame_keeps {s : State} {c k : Nat} {op : Op} {cg ck : Cage} (hck : s.cages k = some ck) (hc : s.cages c = some cg) (hk : k ≠ c) (ht : Tame s k op) :
    (step s k op).1.cages c = some cg := by
  rw [cage_isolation (Ne.symm hk) _ _, hc]
  · rintro rfl; simp only [Tame, hck] at ht; rw [hc] at ht; cases ht
  · rintro rfl; simp only [Tame, hck] at ht
    rcases ht with h | h
    · exact hk h.symm
    · rw [hc] at h; cases h

/-- C108.  A process makes redirections, and any other processes make any calls in between: afterwards its descriptors are exactly as planned,
number by number, and its working directory and parent are as before. -/
theorem redirect_exact_partial {h : List (Nat × Op)} : ∀ {s : State} (_ : Reach s) (_ : Calm s h) {c : Nat} {cg : Cage}
    (_ : s.cages c = some cg) {t : Nat → Option Desc} {σ : Plan} (_ : Arranged t σ cg.fds) {rs : List Redir} (_ : Does c h rs) (_ : FitAll t σ rs),
    Reach (run s h) ∧ ∃ cg', (run s h).cages c = some cg' ∧ Arranged t (σ.all rs) cg'.fds ∧ cg'.cwd = cg.cwd ∧ cg'.parent = cg.parent := by
  induction h with
  | nil =>
    intro s hR _ c cg hc t σ hA rs hd _
    cases rs with
    | nil => exact ⟨hR, cg, hc, hA, rfl, rfl⟩
    | cons r rs => simp [Does] at hd
  | cons x h ih =>
    obtain ⟨k, op⟩ := x
    intro s hR hcalm c cg hc t σ hA rs hd hf
    cases hcalm with
    | cons ht hp hcalm =>
      have hR' : Reach (step s k op).1 := .step k op hR ht hp
      by_cases hk : k = c
      · subst hk
        obtain ⟨r, rs', rfl, rfl, hd'⟩ := does_own hd
        obtain ⟨-, cg1, hc1, hA1, hw1, hp1⟩ := redirect_step hR hc hA hf.1
        obtain ⟨a, cg2, b, d, e, f⟩ := ih hR' hcalm hc1 hA1 hd' hf.2
        exact ⟨a, cg2, b, d, e.trans hw1, f.trans hp1⟩
      · cases hck : s.cages k with
        | none => simp [step, hck, Out.r] at hp
        | some ck => exact ih hR' hcalm (tame_keeps hck hc hk ht) hA (does_other hk hd) hf

/-- The descriptors of the program that is executed: as planned, without those that are close-on-exec and not copies. -/
def Started (t : Nat → Option Desc) (σ : Plan) (t' : Nat → Option Desc) : Prop :=
  ∀ k, match σ k with
    | none => t' k = none
    | some (j, b) =>
      match t j with
      | none => t' k = none
      | some d => if b = false ∧ Cloexec d then t' k = none else ∃ d', t' k = some d' ∧ if b then Copy d d' else d' = d

/-- C108.  Then exec: the program starts with exactly the planned descriptors, less those that are to be closed on exec; a number that was redirected is
there whatever the close-on-exec flag of the original. -/
theorem redirect_exec_partial {s : State} (hR : Reach s) {c ch : Nat} {cg : Cage} (hc : s.cages c = some cg) (hlt : ch < 1024)
    {t : Nat → Option Desc} {σ : Plan} (hA : Arranged t σ cg.fds) :
    (step s c (.exec ch)).2.ret = .ok 0 ∧ ∃ cg', (step s c (.exec ch)).1.cages ch = some cg' ∧ Started t σ cg'.fds ∧
      cg'.cwd = cg.cwd ∧ cg'.parent = cg.parent := by
  obtain ⟨h1, cg', h2, h3, h4, h5, -, -⟩ := exec_keeps hR hc hlt
  refine ⟨h1, cg', h2, ?_, h4, h5⟩
  have hnone : ∀ k, (∀ d, cg.fds k = some d → Cloexec d) → cg'.fds k = none := by
    intro k hk
    cases e : cg'.fds k with
    | none => rfl
    | some d => obtain ⟨a, b⟩ := (h3 k d).1 e; exact absurd (hk d a) b
  intro k
  have hAk := hA k
  rcases hσ : σ k with _ | ⟨j, b⟩
  · simp only [hσ, Is] at hAk ⊢
    exact hnone k (fun d hd => by rw [hAk] at hd; cases hd)
  · simp only [hσ, Is] at hAk ⊢
    cases ht : t j with
    | none => simp only [ht] at hAk ⊢; exact hnone k (fun d hd => by rw [hAk] at hd; cases hd)
    | some d =>
      simp only [ht] at hAk ⊢
      obtain ⟨d1, e1, hrel⟩ := hAk
      cases b with
      | true =>
        simp only [Bool.true_eq_false, false_and, if_false, if_true] at hrel ⊢
        exact ⟨d1, (h3 k d1).2 ⟨e1, copy_not_cloexec hrel⟩, hrel⟩
      | false =>
        simp only [Bool.false_eq_true, if_false, true_and] at hrel ⊢
        subst hrel
        split
        · rename_i hx
          exact hnone k (fun d hd => by rw [e1] at hd; cases hd; exact hx)
        · rename_i hx
          exact ⟨d1, (h3 k d1).2 ⟨e1, hx⟩, rfl⟩

end Verif.Redirect
