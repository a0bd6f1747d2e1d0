import Verif.SemShmStep

/-!
# C94: a semaphore in shared memory is one semaphore for all processes that share it
-/

namespace Verif.SemShm
open Verif.Shm (State Seg Att Sys)

/-! ## What holds -/

/-- **C94, partial.**  After every history of careful calls, in a debug and in a release build, the same byte of a segment is the
same semaphore, or none, in all processes that have the segment attached, wherever they have it.  Missing: calls that are not
careful (`middle_aborts`, `middle_elsewhere`, `other_address_unseen`, `stale_attach_aborts` and the `_violated` theorems). -/
theorem same_partial {chk : Bool} {s : St} (h : Reach chk s) : Same s := h.inv.same

theorem rev_of_at {s : St} {c h id d : Nat} (hat : At s c h id d) : ∃ rv, s.sh.rev c = some rv := by
  obtain ⟨a, g, ⟨rv, hr, -⟩, -⟩ := hat; exact ⟨rv, hr⟩

/-- **C94, partial.**  So a call through one of them answers, and changes, what the same call through another one does. -/
theorem use_same_partial {chk : Bool} {s : St} (hr : Reach chk s) {c h c' h' id d : Nat} (h1 : At s c h id d) (h2 : At s c' h' id d) (u : Use) :
    step chk s c (u.on h) = step chk s c' (u.on h') := by
  have e := hr.inv.same c h c' h' id d h1 h2
  obtain ⟨rv, hrv⟩ := rev_of_at h1
  obtain ⟨rv', hrv'⟩ := rev_of_at h2
  cases u <;> simp only [Use.on, step, hrv, hrv', takeCall, e]

/-- **C94, partial.**  A post through one process adds one to what the others read, and a wait takes one away. -/
theorem post_wait_partial {chk : Bool} {s : St} (hr : Reach chk s) {c h c' h' id d v : Nat} (h1 : At s c h id d) (h2 : At s c' h' id d)
    (hv : (step chk s c' (.getvalue h')).2 = .r (.ok v)) :
    (v < Sem.semValueMax → (step chk s c (.post h)).2 = .r (.ok 0) ∧
      (step chk (step chk s c (.post h)).1 c' (.getvalue h')).2 = .r (.ok (v + 1 : Nat))) ∧
    (0 < v → (step chk s c (.trywait h)).2 = .r (.ok 0) ∧
      (step chk (step chk s c (.trywait h)).1 c' (.getvalue h')).2 = .r (.ok (v - 1 : Nat))) ∧
    (v = 0 → (step chk s c (.trywait h)).2 = .r (.err .EAGAIN)) := by
  have e := hr.inv.same c h c' h' id d h1 h2
  obtain ⟨rv, hrv⟩ := rev_of_at h1
  obtain ⟨rv', hrv'⟩ := rev_of_at h2
  simp only [step, hrv'] at hv
  cases ht : s.tab c' h' with
  | none => rw [ht] at hv; cases hv
  | some o =>
    rw [ht] at hv e
    dsimp only at hv
    have hv : s.vals o = v := by
      have := (Ret.ok.inj (Shm.Out.r.inj hv)); exact Int.ofNat.inj this
    refine ⟨fun hlt => ?_, fun hpos => ?_, fun h0 => ?_⟩
    · have hg : Sem.give (s.vals o) = some (v + 1) := by rw [Sem.give, hv, if_pos hlt]
      refine ⟨by simp only [step, hrv, e, hg], ?_⟩
      simp only [step, hrv, e, hg, hrv', ht, upd_same]
    · have hg : Sem.take (s.vals o) = some (v - 1) := by rw [Sem.take, hv, if_neg (by omega), if_pos hpos]
      refine ⟨by simp only [step, hrv, takeCall, e, hg], ?_⟩
      simp only [step, hrv, takeCall, e, hg, hrv', ht, upd_same]
    · have hg : Sem.take (s.vals o) = none := by rw [Sem.take, hv, if_pos h0]
      simp only [step, hrv, takeCall, e, hg]

/-- **C94, partial.**  A semaphore that is initialised in a segment (careful call) is there for every process that has the
segment, with its initial value. -/
theorem init_seen_partial {chk : Bool} {s : St} (hr : Reach chk s) {c h id d v : Nat} {ps : Bool} (hc : Careful s c (.init h ps v))
    (hat : At s c h id d) (hfree : (step chk s c (.getvalue h)).2 = .r (.err .EINVAL)) (hv : v ≤ Sem.semValueMax) :
    (step chk s c (.init h ps v)).2 = .r (.ok 0) ∧
    ∀ p k, At s p k id d → (step chk (step chk s c (.init h ps v)).1 p (.getvalue k)).2 = .r (.ok v) := by
  have hi := hr.inv
  obtain ⟨rv, hrv⟩ := rev_of_at hat
  have hnone : s.tab c h = none := by
    simp only [step, hrv] at hfree
    cases ht : s.tab c h with
    | none => rfl
    | some o => rw [ht] at hfree; cases hfree
  simp only [step, hrv]
  rcases init_cases (chk := chk) hi hrv hc with ⟨-, e⟩ | ⟨-, -, e⟩ | ⟨-, -, hout, -⟩ | ⟨id', g, -, -, rfl, hat', hg, hsame, e⟩
  · omega
  · exact absurd hnone e
  · exact absurd hat (hout id d)
  · rw [e]
    refine ⟨rfl, fun p k hk => ?_⟩
    obtain ⟨e1, e2⟩ := hi.disj c h id d id' 0 hat (hi.start hat')
    have hput := (hi.inside (vals := s.vals) hrv hat' hg hsame (some s.next) (some s.next) (shared := upd s.shared s.next true) (next := s.next + 1)
      (offs := upd s.offs id' (addOff (s.offs id') 0))
      (fun o ho => upd_ne _ _ (by omega)) (Nat.le_succ _) (fun o ho => by
        cases ho; exact ⟨Nat.lt_succ_self _, upd_same _ _ _, by rw [upd_same]; exact addOff_zero (hi.offs0 id')⟩)
      (fun o ho => by cases ho; exact Nat.lt_succ_self _) (fun i hne => upd_ne _ _ hne)
      (.inr (by rw [upd_same]; exact addOff_zero (hi.offs0 id')))).2 p k id d hk
    rw [if_pos ⟨e1, e2⟩] at hput
    obtain ⟨rvp, hrp⟩ := rev_of_at hk
    have hsh : (made s c h true v).sh = s.sh := rfl
    have htab : putAll (made s c h true v).tab g (addrsOf rv id') (some s.next) p k = some s.next := hput
    simp only [hsh, hrp, htab]
    show Shm.Out.r (.ok ((upd s.vals s.next v s.next : Nat) : Int)) = _
    rw [upd_same]

/-- **C94, partial.**  A process that attaches the segment (careful call) finds the semaphores of the others, at its own address. -/
theorem attach_seen_partial {chk : Bool} {s : St} (hr : Reach chk s) {c id addr : Nat} {host : Bool} {pick : Option Nat}
    (hc : Careful s c (.shm (.at id addr host) pick)) (hrc : s.sh.rev c ≠ none) {p k d : Nat} (hat : At s p k id d) :
    (step chk s c (.shm (.at id addr host) pick)).2 = .r (.ok addr) ∧
    (step chk s c (.shm (.at id addr host) pick)).1.tab c (addr + d) = s.tab p k ∧
    (step chk s c (.shm (.at id addr host) pick)).1.tab p k = s.tab p k := by
  obtain ⟨rv, hrv⟩ := Option.ne_none_iff_exists'.1 hrc
  have hi := hr.inv
  have hinv := hi.step (chk := chk) hc
  have h3 := (hi.attach (chk := chk) hrv hc).2
  have hnp : (step chk s c (.shm (.at id addr host) pick)).2 ≠ .r .panic := by simp only [step, hrv]; exact h3.1
  have hkeep : (step chk s c (.shm (.at id addr host) pick)).1.tab p k = s.tab p k := by simp only [step, hrv]; exact h3.2 p k id d hat
  obtain ⟨a, g, ⟨rvp, hrp, hmp⟩, hg, hd, rfl⟩ := hat
  have hh := hc.1
  subst hh
  have hstep : Shm.step s.sh c (.at id addr true) = ({ s.sh with rev := upd s.sh.rev c (some (rv ++ [(addr, id)])), segs := upd s.sh.segs id (some (g.attach c)) },
      .r (.ok addr)) := by simp only [Shm.step, hrv, Shm.shmat, hg, if_true]
  have hcall : ∃ tab, step chk s c (.shm (.at id addr true) pick) = ({ s with
      sh := { s.sh with rev := upd s.sh.rev c (some (rv ++ [(addr, id)])), segs := upd s.sh.segs id (some (g.attach c)) }, tab := tab }, .r (.ok addr)) := by
    simp only [step, hrv] at hnp ⊢
    rcases shmCall_cases (chk := chk) (s := s) (c := c) (rv := rv) (op := .at id addr true) (pick := pick) with e | ⟨tab, -, -, e⟩
    · rw [e] at hnp; exact absurd rfl hnp
    · rw [hstep] at e; exact ⟨tab, e⟩
  obtain ⟨tab, e⟩ := hcall
  refine ⟨by rw [e], ?_, hkeep⟩
  rw [← hkeep]
  refine hinv.same c (addr + d) p (a + d) id d ?_ ?_
  · rw [e]
    exact ⟨addr, g.attach c, ⟨rv ++ [(addr, id)], upd_same _ _ _, by simp⟩, upd_same _ _ _, hd, rfl⟩
  · rw [e]
    refine ⟨a, g.attach c, ?_, upd_same _ _ _, hd, rfl⟩
    by_cases hpc : p = c
    · subst hpc
      rw [hrv] at hrp; cases hrp
      exact ⟨rv ++ [(addr, id)], upd_same _ _ _, List.mem_append_left _ hmp⟩
    · exact ⟨rvp, (upd_ne _ _ hpc).trans hrp, hmp⟩

/-- **C94, partial.**  A semaphore in a segment stays what it is for a process as long as the process has the segment and nobody
destroys the semaphore. -/
theorem kept_partial {chk : Bool} {s : St} (hr : Reach chk s) {c : Nat} {op : Op} (hc : Careful s c op) {p k id d o : Nat}
    (h1 : At s p k id d) (h2 : At (step chk s c op).1 p k id d) (ho : s.tab p k = some o)
    (hd : ∀ h, op = .destroy h → ¬ At s c h id d) : (step chk s c op).1.tab p k = some o := by
  have hi := hr.inv
  unfold step at h2 ⊢
  cases hrv : s.sh.rev c with
  | none => exact ho
  | some rv =>
    rw [hrv] at h2
    cases op with
    | shm op pick =>
      dsimp only at h2 ⊢
      by_cases hat : ∃ id addr host, op = .at id addr host
      · obtain ⟨i, addr, host, rfl⟩ := hat
        rw [(hi.attach (chk := chk) hrv hc).2.2 p k id d h1]; exact ho
      by_cases hdt : ∃ addr, op = .dt addr
      · obtain ⟨addr, rfl⟩ := hdt
        exact ((hi.dt (chk := chk) hrv (addr := addr)).2.2 p k id d h2).trans ho
      rcases shmCall_cases (chk := chk) (s := s) (c := c) (rv := rv) (op := op) (pick := pick) with e | ⟨tab, ht, hn, e⟩
      · rw [e]; exact ho
      rw [e] at h2 ⊢
      obtain ⟨rvp, hrp⟩ := rev_of_at h1
      obtain ⟨a', -, ⟨rvp', hrp', hmp'⟩, -⟩ := h2
      dsimp only at hrp'
      cases op with
      | «at» id addr host => exact absurd ⟨_, _, _, rfl⟩ hat
      | dt addr => exact absurd ⟨_, rfl⟩ hdt
      | fork ch =>
        cases ht
        have hch : s.sh.rev ch = none := hc
        dsimp only
        rw [upd_ne]
        · exact ho
        · rintro rfl; rw [hch] at hrp; cases hrp
      | exec ch =>
        cases ht
        have hch : ch = c ∨ s.sh.rev ch = none := hc
        obtain ⟨A, hA⟩ := hi.shm
        obtain ⟨s', e1, -, e3, -⟩ := hA.exit hrv
        dsimp only at e1
        simp only [Shm.step, hrv, e1] at hrp' hn
        split at hrp'
        · rename_i hge; rw [if_pos hge] at hn; exact absurd rfl hn
        · dsimp only at hrp' ⊢
          have n2 : p ≠ ch := by
            rintro rfl; rw [upd_same] at hrp'; cases hrp'; cases hmp'
          rw [upd_ne _ _ n2] at hrp' ⊢
          have n1 : p ≠ c := by rintro rfl; rw [upd_same] at hrp'; cases hrp'
          rw [upd_ne _ _ n1]; exact ho
      | exit =>
        cases ht
        obtain ⟨A, hA⟩ := hi.shm
        obtain ⟨s', e1, -, e3, -⟩ := hA.exit hrv
        dsimp only at e1
        simp only [Shm.step, hrv, e1] at hrp'
        dsimp only at hrp' ⊢
        have n1 : p ≠ c := by rintro rfl; rw [upd_same] at hrp'; cases hrp'
        rw [upd_ne _ _ n1]; exact ho
      | _ => cases ht; exact ho
    | init h ps v =>
      dsimp only
      rcases init_cases (chk := chk) hi hrv hc with ⟨e, -⟩ | ⟨e, -⟩ | ⟨hn, -, hout, e⟩ | ⟨id', g, hn, -, rfl, hat', hg, hsame, e⟩
      · rw [e]; exact ho
      · rw [e]; exact ho
      · rw [e]
        show upd s.tab c _ p k = some o
        rw [upd_apply]
        split
        · rename_i e'; subst e'
          rw [upd_apply]
          split
          · rename_i e'; subst e'; exact absurd h1 (hout id d)
          · exact ho
        · exact ho
      · rw [e]
        have hput := (hi.inside (vals := s.vals) hrv hat' hg hsame (some s.next) (some s.next) (shared := upd s.shared s.next true) (next := s.next + 1)
          (offs := upd s.offs id' (addOff (s.offs id') 0))
          (fun o ho => upd_ne _ _ (by omega)) (Nat.le_succ _) (fun o ho => by
            cases ho; exact ⟨Nat.lt_succ_self _, upd_same _ _ _, by rw [upd_same]; exact addOff_zero (hi.offs0 id')⟩)
          (fun o ho => by cases ho; exact Nat.lt_succ_self _) (fun i hne => upd_ne _ _ hne)
          (.inr (by rw [upd_same]; exact addOff_zero (hi.offs0 id')))).2 p k id d h1
        have hne : ¬ (id = id' ∧ d = 0) := by
          rintro ⟨rfl, rfl⟩
          have := hi.same p k c h id 0 h1 (hi.start hat')
          rw [ho, hn] at this; cases this
        rw [if_neg hne] at hput
        exact hput.trans ho
    | destroy h =>
      dsimp only
      rcases destroy_cases (chk := chk) hi hrv hc with ⟨e, -⟩ | ⟨-, hout, e⟩ | ⟨id', g, -, hat', hg, hsame, e⟩
      · rw [e]; exact ho
      · rw [e]
        show upd s.tab c _ p k = some o
        rw [upd_apply]
        split
        · rename_i e'; subst e'
          rw [upd_apply]
          split
          · rename_i e'; subst e'; exact absurd h1 (hout id d)
          · exact ho
        · exact ho
      · rw [e]
        have hput := (hi.inside (vals := s.vals) hrv hat' hg hsame none none (shared := s.shared) (next := s.next)
          (offs := s.offs) (fun _ _ => rfl) (Nat.le_refl _) (fun o ho => nomatch ho) (fun o ho => nomatch ho) (fun i hne => rfl) (.inl rfl)).2 p k id d h1
        have hne : ¬ (id = id' ∧ d = 0) := by
          rintro ⟨rfl, rfl⟩
          exact hd h rfl (hi.start hat')
        rw [if_neg hne] at hput
        exact hput.trans ho
    | wait h => simp only [takeCall]; repeat' split
                all_goals exact ho
    | trywait h => simp only [takeCall]; repeat' split
                   all_goals exact ho
    | timedwait h e => simp only [takeCall]; repeat' split
                       all_goals exact ho
    | post h => dsimp only; repeat' split
                all_goals exact ho
    | getvalue h => dsimp only; repeat' split
                    all_goals exact ho

/-- **C94, partial.**  A semaphore of a segment that is destroyed (careful call) is gone for all. -/
theorem gone_partial {chk : Bool} {s : St} (hr : Reach chk s) {c h id d : Nat} (hc : Careful s c (.destroy h)) (hat : At s c h id d)
    (hthere : (step chk s c (.getvalue h)).2 ≠ .r (.err .EINVAL)) :
    (step chk s c (.destroy h)).2 = .r (.ok 0) ∧
    ∀ p k, At s p k id d → ∀ u : Use, (step chk (step chk s c (.destroy h)).1 p (u.on k)).2 = .r (.err .EINVAL) := by
  have hi := hr.inv
  obtain ⟨rv, hrv⟩ := rev_of_at hat
  have hsome : s.tab c h ≠ none := by
    intro e; apply hthere; simp only [step, hrv, e]
  have hstep : step chk s c (.destroy h) = ((semDestroy chk s c rv h).1, .r (semDestroy chk s c rv h).2) := by simp only [step, hrv]
  rcases destroy_cases (chk := chk) hi hrv hc with ⟨-, e⟩ | ⟨-, hout, -⟩ | ⟨id', g, -, hat', hg, hsame, e⟩
  · exact absurd e hsome
  · exact absurd hat (hout id d)
  · rw [hstep, e]
    refine ⟨rfl, fun p k hk u => ?_⟩
    obtain ⟨e1, e2⟩ := hi.disj c h id d id' 0 hat (hi.start hat')
    have hput := (hi.inside (vals := s.vals) hrv hat' hg hsame none none (shared := s.shared) (next := s.next)
      (offs := s.offs) (fun _ _ => rfl) (Nat.le_refl _) (fun o ho => nomatch ho) (fun o ho => nomatch ho) (fun i hne => rfl) (.inl rfl)).2 p k id d hk
    rw [if_pos ⟨e1, e2⟩] at hput
    obtain ⟨rvp, hrp⟩ := rev_of_at hk
    cases u <;> simp only [Use.on, step, hrp, takeCall, hput]

/-- **C94, partial.**  No careful call of an existing process brings the program down, given a process number in range. -/
theorem no_abort_partial {chk : Bool} {s : St} (hr : Reach chk s) {c : Nat} {op : Op} (hc : Careful s c op) (hrc : s.sh.rev c ≠ none)
    (hch : ∀ ch pick, op = .shm (.fork ch) pick ∨ op = .shm (.exec ch) pick → ch < Shm.maxCage) : (step chk s c op).2 ≠ .r .panic := by
  have hi := hr.inv
  obtain ⟨rv, hrv⟩ := Option.ne_none_iff_exists'.1 hrc
  simp only [step, hrv]
  cases op with
  | shm op pick =>
    dsimp only
    by_cases hat : ∃ id addr host, op = .at id addr host
    · obtain ⟨i, addr, host, rfl⟩ := hat
      exact (hi.attach (chk := chk) hrv hc).2.1
    by_cases hdt : ∃ addr, op = .dt addr
    · obtain ⟨addr, rfl⟩ := hdt
      exact (hi.dt (chk := chk) hrv (addr := addr)).2.1
    obtain ⟨A, hA⟩ := hi.shm
    have hsh : (Shm.step s.sh c op).2 ≠ .r .panic := by
      simp only [Shm.step, hrv]
      cases op with
      | get k sz f => simp only [Shm.shmget]; repeat' split
                      all_goals (intro e; cases e)
      | «at» id a host => exact absurd ⟨_, _, _, rfl⟩ hat
      | dt addr => exact absurd ⟨_, rfl⟩ hdt
      | rmid id => simp only [Shm.rmid]; split <;> (intro e; cases e)
      | stat id => simp only [Shm.stat]; split <;> (intro e; cases e)
      | ctl id => intro e; cases e
      | fork ch =>
        obtain ⟨s', h1, -, -⟩ := hA.fork hrv hc
        have := hch ch pick (.inl rfl)
        dsimp only at h1
        simp only [h1]
        rw [if_neg (by omega)]; intro e; cases e
      | exec ch =>
        obtain ⟨s', h1, -⟩ := hA.exit hrv
        have := hch ch pick (.inr rfl)
        dsimp only at h1
        simp only [h1]
        rw [if_neg (by omega)]; intro e; cases e
      | exit =>
        obtain ⟨s', h1, -⟩ := hA.exit hrv
        dsimp only at h1
        simp only [h1]; intro e; cases e
    have htab : ∃ t, tabAfter chk s c rv pick op = some t := by
      cases op with
      | «at» id a host => exact absurd ⟨_, _, _, rfl⟩ hat
      | dt addr => exact absurd ⟨_, rfl⟩ hdt
      | _ => exact ⟨_, rfl⟩
    obtain ⟨t, ht⟩ := htab
    unfold shmCall
    rw [ht]
    cases hst : Shm.step s.sh c op with
    | mk sh out =>
      rw [hst] at hsh
      dsimp only at hsh ⊢
      split
      · rename_i e; cases e; exact absurd rfl hsh
      · rename_i e; cases e; exact hsh
  | init h ps v =>
    dsimp only
    rcases init_cases (chk := chk) hi hrv hc with ⟨e, -⟩ | ⟨e, -⟩ | ⟨-, -, -, e⟩ | ⟨_, _, -, -, -, -, -, -, e⟩ <;> rw [e] <;> (intro e; cases e)
  | destroy h =>
    dsimp only
    rcases destroy_cases (chk := chk) hi hrv hc with ⟨e, -⟩ | ⟨-, -, e⟩ | ⟨_, _, -, -, -, -, e⟩ <;> rw [e] <;> (intro e; cases e)
  | wait h => simp only [takeCall]; repeat' split
              all_goals (intro e; cases e)
  | trywait h => simp only [takeCall]; repeat' split
                 all_goals (intro e; cases e)
  | timedwait h e => simp only [takeCall]; repeat' split
                     all_goals (first | (intro e; cases e) | (cases e <;> (intro e; cases e)))
  | post h => dsimp only; repeat' split
              all_goals (intro e; cases e)
  | getvalue h => dsimp only; repeat' split
                  all_goals (intro e; cases e)

/-! ## What does not -/

/-- The search, for an address in a segment. -/
theorem search_at {chk : Bool} {s : St} (hi : Inv s) {c h id d : Nat} {rv : List (Nat × Nat)} (hrv : s.sh.rev c = some rv) (hat : At s c h id d) :
    search chk s.sh.segs h rv = some (some (h - d, id)) ∧ d ≤ h := by
  have hfit : ∀ a id g, (a, id) ∈ rv → s.sh.segs id = some g → a + g.size < w32 := fun a id g hm hg => hi.fit c a id g ⟨rv, hrv, hm⟩ hg
  obtain ⟨a, g, ⟨l, hl, hm⟩, hg, hd, rfl⟩ := _root_.id hat
  rw [hrv] at hl; cases hl
  rcases search_spec (chk := chk) (h := a + d) hfit with ⟨-, h2⟩ | ⟨a', id', g', e, hm', hg', h3, h4⟩
  · exact absurd ⟨by omega, by omega⟩ (h2 a id g hm hg)
  · have hat' : At s c (a + d) id' (a + d - a') := ⟨a', g', ⟨rv, hrv, hm'⟩, hg', by omega, by omega⟩
    obtain ⟨e1, e2⟩ := hi.disj c (a + d) id d id' _ hat hat'
    subst e1
    refine ⟨?_, by omega⟩
    rw [e]; congr 3; omega

/-- In a debug build, `sem_init` of a process-shared semaphore anywhere but at the first byte of a segment aborts the program: the
offset is computed as the start of the segment minus the address (src/safeposix/syscalls/fs_calls.rs 6438). -/
theorem middle_aborts {s : St} (hr : Reach true s) {c h id d v : Nat} (hat : At s c h id d) (hd : 0 < d)
    (hfree : s.tab c h = none) (hv : v ≤ Sem.semValueMax) : (step true s c (.init h true v)).2 = .r .panic := by
  obtain ⟨rv, hrv⟩ := rev_of_at hat
  obtain ⟨e, hle⟩ := search_at (chk := true) hr.inv hrv hat
  have hsub : sub32 true (h - d) h = none := by unfold sub32; rw [if_neg (by omega), if_pos rfl]
  simp only [step, hrv]
  unfold semInit
  rw [if_neg (by omega), hfree]
  dsimp only
  rw [if_pos rfl, e]
  dsimp only
  rw [hsub]

theorem places_wrap {off : Nat} : ∀ {l : List Nat}, ∃ xs, places false off l = some xs ∧ ∀ k, k ∈ xs → ∃ a ∈ l, k = (a + off) % w32
  | [] => ⟨[], rfl, fun k hk => nomatch hk⟩
  | a :: as => by
    obtain ⟨xs, e, h⟩ := places_wrap (off := off) (l := as)
    have hadd : add32 false a off = some ((a + off) % w32) := by
      unfold add32
      split
      · rename_i hlt; rw [Nat.mod_eq_of_lt hlt]
      · rfl
    refine ⟨(a + off) % w32 :: xs, by simp only [places, hadd, e], fun k hk => ?_⟩
    rcases List.mem_cons.1 hk with rfl | hk
    · exact ⟨a, List.mem_cons_self, rfl⟩
    · obtain ⟨b, hb, e⟩ := h k hk
      exact ⟨b, List.mem_cons_of_mem _ hb, e⟩

/-- In a release build it succeeds, and the other processes do not get the semaphore: their tables change at most `d` bytes
*below* the addresses at which the caller has the segment, `d` being the place of the semaphore in the segment. -/
theorem middle_elsewhere {s : St} (hr : Reach false s) {c h id d v : Nat} (hat : At s c h id d) (hd : 0 < d)
    (hfree : s.tab c h = none) (hv : v ≤ Sem.semValueMax) :
    (step false s c (.init h true v)).2 = .r (.ok 0) ∧
    ∀ p k, p ≠ c → (∀ a, Attached s c a id → k ≠ (a + w32 - d) % w32) → (step false s c (.init h true v)).1.tab p k = s.tab p k := by
  obtain ⟨rv, hrv⟩ := rev_of_at hat
  have hi := hr.inv
  obtain ⟨e, hle⟩ := search_at (chk := false) hi hrv hat
  obtain ⟨a, g, hatt, hg, hdg, rfl⟩ := hat
  have hfit := hi.fit c a id g hatt hg
  have hsub : sub32 false (a + d - d) (a + d) = some (w32 - d) := by
    unfold sub32
    rw [if_neg (by omega), if_neg Bool.false_ne_true]
    have : a + d - d + w32 - (a + d) = w32 - d := by omega
    rw [this, Nat.mod_eq_of_lt (by omega)]
  obtain ⟨xs, hxs, hmem⟩ := places_wrap (off := w32 - d) (l := addrsOf rv id)
  have hcall : semInit false s c rv (a + d) true v = ({ made s c (a + d) true v with
        tab := putAll (made s c (a + d) true v).tab g xs (some s.next)
        offs := upd s.offs id (addOff (s.offs id) (w32 - d)) }, .ok 0) := by
    unfold semInit
    rw [if_neg (by omega), hfree]
    dsimp only
    rw [if_pos rfl, e]
    dsimp only
    rw [hsub]
    dsimp only
    rw [hg]
    dsimp only
    rw [hxs]; rfl
  simp only [step, hrv, hcall]
  refine ⟨trivial, fun p k hp hk => ?_⟩
  show putAll (upd s.tab c _) g xs (some s.next) p k = s.tab p k
  unfold putAll
  rw [if_neg, upd_ne _ _ hp]
  rintro ⟨-, hm⟩
  obtain ⟨b, hb, e⟩ := hmem k hm
  refine hk b ⟨rv, hrv, mem_addrsOf.1 hb⟩ ?_
  rw [e]; congr 1; omega

/-- At the first byte, in either build, a process that has the segment at an address at which the caller does not have it does not
get the semaphore there: the caller's addresses are used for all (6449). -/
theorem other_address_unseen {chk : Bool} {s : St} (hr : Reach chk s) {c h id v p k : Nat} (hat : Attached s c h id)
    (hfree : s.tab c h = none) (hv : v ≤ Sem.semValueMax) (hk : ¬ Attached s c k id) (hp : p ≠ c) :
    (step chk s c (.init h true v)).2 = .r (.ok 0) ∧ (step chk s c (.init h true v)).1.tab p k = s.tab p k := by
  have hi := hr.inv
  have hat0 := hi.start hat
  obtain ⟨rv, hrv⟩ := rev_of_at hat0
  obtain ⟨e, -⟩ := search_at (chk := chk) hi hrv hat0
  obtain ⟨g, hg⟩ := hi.seg hat
  have hcall : semInit chk s c rv h true v = ({ made s c h true v with
        tab := putAll (made s c h true v).tab g (addrsOf rv id) (some s.next)
        offs := upd s.offs id (addOff (s.offs id) 0) }, .ok 0) := by
    unfold semInit
    rw [if_neg (by omega), hfree]
    dsimp only
    rw [if_pos rfl, e]
    dsimp only
    rw [Nat.sub_zero, sub32_self]
    dsimp only
    rw [hg]
    dsimp only
    rw [places_zero chk _ (addrs_lt hi hrv)]; rfl
  simp only [step, hrv, hcall]
  refine ⟨trivial, ?_⟩
  show putAll (upd s.tab c _) g (addrsOf rv id) (some s.next) p k = s.tab p k
  unfold putAll
  rw [if_neg, upd_ne _ _ hp]
  rintro ⟨-, hm⟩
  exact hk ⟨rv, hrv, mem_addrsOf.1 hm⟩

/-- Attaching a segment in which a semaphore was once initialised aborts the program when the process whose table is used does not
have the semaphore any more, be it destroyed or lost: the offset stays recorded (6600-6644) and the entry is unwrapped
(5818). -/
theorem stale_attach_aborts {chk : Bool} {s : St} (hr : Reach chk s) {c id addr p : Nat} (hrc : s.sh.rev c ≠ none) (hpc : p ≠ c)
    (hatt : ∃ a, Attached s p a id) (honce : s.offs id ≠ []) (hgone : ∀ a, Attached s p a id → s.tab p a = none) :
    (step chk s c (.shm (.at id addr true) (some p))).2 = .r .panic := by
  have hi := hr.inv
  obtain ⟨rv, hrv⟩ := Option.ne_none_iff_exists'.1 hrc
  obtain ⟨a, rvp, hrp, hm⟩ := hatt
  obtain ⟨g, hg⟩ := hi.seg ⟨rvp, hrp, hm⟩
  have ho := (hi.offs0 id).resolve_left honce
  obtain ⟨a0, l, el⟩ := List.exists_cons_of_ne_nil (List.ne_nil_of_mem (mem_addrsOf.2 hm))
  have ha0 : Attached s p a0 id := ⟨rvp, hrp, mem_addrsOf.1 (by rw [el]; exact List.mem_cons_self)⟩
  have htab : tabAfter chk s c rv (some p) (.at id addr true) = none := by
    simp only [tabAfter, hg]
    rw [if_neg (by exact fun h => nomatch h)]
    unfold attachSems
    rw [if_neg honce]
    dsimp only
    rw [if_neg hpc, hrp]
    dsimp only
    rw [el, ho]
    have hz0 : add32 chk a0 0 = some a0 := add32_lt (by have := hi.fit p a0 id g ha0 hg; omega)
    dsimp only [copySems]
    rw [hz0]
    cases add32 chk addr 0 with
    | none => rfl
    | some y => dsimp only; rw [hgone a0 ha0]
  simp only [step, hrv, shmCall, htab]

/-- After a `fork`, every handle of the child, process-shared or not, in shared memory or not, is the parent's semaphore. -/
theorem fork_shares {chk : Bool} {s : St} {c ch : Nat} {pick : Option Nat} {s' : St} (hne : ch ≠ c) (hrc : s.sh.rev c ≠ none)
    (h : step chk s c (.shm (.fork ch) pick) = (s', .r (.ok 0))) (u : Use) (k : Nat) : step chk s' ch (u.on k) = step chk s' c (u.on k) := by
  obtain ⟨rv, hrv⟩ := Option.ne_none_iff_exists'.1 hrc
  simp only [step, hrv] at h
  rcases shmCall_cases (chk := chk) (s := s) (c := c) (rv := rv) (op := .fork ch) (pick := pick) with e | ⟨tab, ht, hn, e⟩
  · rw [e] at h; cases h
  · rw [e] at h
    cases ht
    have hrev : (Shm.step s.sh c (.fork ch)).1.rev = upd s.sh.rev ch (some rv) := by
      simp only [Shm.step, hrv] at hn ⊢
      cases hf : Shm.forkAll c ch rv s.sh with
      | none => rw [hf] at hn; exact absurd rfl hn
      | some s2 =>
        rw [hf] at hn
        dsimp only at hn ⊢
        split
        · rename_i hge; rw [if_pos hge] at hn; exact absurd rfl hn
        · dsimp only; rw [forkAll_rev hf]
    have h1 : s' = { s with sh := (Shm.step s.sh c (.fork ch)).1, tab := upd s.tab ch (s.tab c) } := (congrArg Prod.fst h).symm
    have hr1 : s'.sh.rev ch = some rv := by rw [h1]; dsimp only; rw [hrev, upd_same]
    have hr2 : s'.sh.rev c = some rv := by rw [h1]; dsimp only; rw [hrev, upd_ne _ _ hne.symm]; exact hrv
    have ht : s'.tab ch k = s'.tab c k := by rw [h1]; dsimp only; rw [upd_same, upd_ne _ _ hne.symm]
    cases u <;> simp only [Use.on, step, hr1, hr2, takeCall, ht]

end Verif.SemShm
