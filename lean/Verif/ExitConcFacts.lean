import Verif.ExitConcStep

/-!
# What steps keep, and what `exit` leaves behind it
-/

namespace Verif.ExitConc
variable {c : Cfg} {s : St} {q : Bool}



theorem first_facts {t : Tid} {op : Op} {s' : St} (h : first c s t op = some s') :
    (∀ u, u ≠ t → s'.pc u = s.pc u) ∧ s'.gone = s.gone ∧ (∀ j, s.slot j = none → s'.slot j = none ∨ (∃ fd, op = .dup fd) ∨ op = .pipe) ∧
    (∀ op', s'.pc t ≠ .begun op') ∧ (∀ k half, s'.pc t = .exiting k half → k = 0 ∧ op = .exit) ∧ s'.pc t ≠ .ended ∧
    (∀ fd, s'.pc t = .closing fd → op = .close fd) := by
  cases op <;> simp only [first] at h <;> (repeat' split at h) <;> (try cases h)
  all_goals simp [ret, release, upd_apply]
  all_goals (try (intro u hu; simp [hu]))

theorem step_facts {t : Tid} {s' : St} (h : step c s t = some s') :
    (∀ u, u ≠ t → s'.pc u = s.pc u) ∧ (s'.gone = true → s.gone = true ∨ InExit s t) ∧ (∀ j, s.slot j = none → s'.slot j = none ∨ InNew s t) ∧
    (∀ op', s'.pc t ≠ .begun op') ∧ (InExit s' t → InExit s t) ∧
    (∀ fd, InClose s' t fd → InClose s t fd) := by
  unfold step at h
  split at h
  · cases h
  · cases h
  · rename_i op ho
    have hf : first c s t op = some s' := by
      split at h
      · split at h
        · exact h
        · cases h
      · exact h
    obtain ⟨h1, h2, h3, h4, h5, h6, h7⟩ := first_facts hf
    refine ⟨h1, fun h => .inl (by rw [← h2]; exact h), fun j hj => ?_, h4, ?_, ?_⟩
    · rcases h3 j hj with h | ⟨fd, h⟩ | h
      · exact .inl h
      · exact .inr (.inl ⟨fd, by rw [ho, h]⟩)
      · exact .inr (.inr (by rw [ho, h]))
    · rintro (h | ⟨k, half, h⟩)
      · exact absurd h (h4 _)
      · exact .inl (by rw [ho, (h5 k half h).2])
    · rintro fd (h | h)
      · exact absurd h (h4 _)
      · exact .inl (by rw [ho, h7 fd h])
  · rename_i fd p n ho
    split at h <;> cases h
    simp only [ret]
    refine ⟨fun u hu => upd_ne _ _ hu, fun h => .inl h, fun j hj => .inl hj, ?_, ?_, ?_⟩
    · intro op; rw [upd_same]; exact fun h => nomatch h
    · unfold InExit; dsimp only; rw [upd_same]; rintro (h | ⟨_, _, h⟩) <;> cases h
    · unfold InClose; dsimp only; rw [upd_same]; rintro fd (h | h) <;> cases h
  · rename_i fd p todo n ho
    split at h
    · cases h
    · cases h
      simp only [ret]
      refine ⟨fun u hu => upd_ne _ _ hu, fun h => .inl h, fun j hj => .inl hj, ?_, ?_, ?_⟩
      · intro op; rw [upd_same]; exact fun h => nomatch h
      · unfold InExit; dsimp only; rw [upd_same]; rintro (h | ⟨_, _, h⟩) <;> cases h
      · unfold InClose; dsimp only; rw [upd_same]; rintro fd (h | h) <;> cases h
    · split at h <;> cases h
      all_goals simp only [ret]
      all_goals
        refine ⟨fun u hu => upd_ne _ _ hu, fun h => .inl h, fun j hj => .inl hj, ?_, ?_, ?_⟩
      all_goals first
        | (intro op; rw [upd_same]; exact fun h => nomatch h)
        | (unfold InExit; dsimp only; rw [upd_same]; rintro (h | ⟨_, _, h⟩) <;> cases h)
        | (unfold InClose; dsimp only; rw [upd_same]; rintro fd (h | h) <;> cases h)
  · rename_i fd ho
    split at h <;> cases h
    simp only [ret, empty]
    refine ⟨fun u hu => upd_ne _ _ hu, fun h => .inl h, fun j hj => .inl ?_, ?_, ?_, ?_⟩
    · rw [upd_apply]; split
      · rfl
      · exact hj
    · intro op; rw [upd_same]; exact fun h => nomatch h
    · unfold InExit; dsimp only; rw [upd_same]; rintro (h | ⟨_, _, h⟩) <;> cases h
    · unfold InClose; dsimp only; rw [upd_same]; rintro fd (h | h) <;> cases h
  · rename_i k half ho
    have hin : InExit s t := .inr ⟨_, _, ho⟩
    refine ⟨?_, fun _ => .inr hin, ?_, ?_, fun _ => hin, ?_⟩ <;> (repeat' split at h) <;> cases h
    all_goals (try simp only [release, empty])
    all_goals first
      | exact fun u hu => upd_ne _ _ hu
      | (intro j hj; exact .inl hj)
      | (intro j hj; refine .inl ?_; rw [upd_apply]; split
         · rfl
         · exact hj)
      | (intro op; rw [upd_same]; exact fun h => nomatch h)
      | (unfold InClose; dsimp only; rw [upd_same]; rintro fd (h | h) <;> cases h)

/-- After `exit` nobody is in a `close`. -/
theorem Reach.gone_close (h : Reach c q s) : s.gone = true → ∀ u fd, ¬ InClose s u fd := by
  induction h with
  | rest => intro h; cases h
  | @act s a hr hc ih =>
    have hi := hr.inv
    cases a with
    | enter t op =>
      simp only [ExitConc.act]
      split
      · rename_i h; intro hg; rw [h.2] at hg; cases hg
      · exact ih
    | run t =>
      simp only [ExitConc.act]
      cases h : ExitConc.step c s t with
      | none => exact ih
      | some s' =>
        obtain ⟨h1, h2, h3, h4, h5, h6⟩ := step_facts h
        intro hg u fd hu
        have hu' : InClose s u fd := by
          by_cases e : u = t
          · subst e; exact h6 fd hu
          · unfold InClose at hu ⊢; rw [Option.getD_some, h1 u e] at hu; exact hu
        rcases h2 hg with hg | hg
        · exact ih hg u fd hu'
        · exact hi.exc t u fd hg hu'
    | oread p n => simp only [ExitConc.act]; (repeat' split) <;> exact ih
    | owrite p n => simp only [ExitConc.act]; (repeat' split) <;> exact ih
    | oclose e => simp only [ExitConc.act]; (repeat' split) <;> exact ih
    | odup e => simp only [ExitConc.act]; (repeat' split) <;> exact ih

/-- With `quiet`: what `exit` has passed stays empty. -/
structure QInv (c : Cfg) (s : St) : Prop where
  past : ∀ t k half, s.pc t = .exiting k half → ∀ j, j < k → s.slot j = none
  all : s.gone = true → ∀ j, j < c.N → s.slot j = none
  new : ∀ t u, InExit s t → ¬ InNew s u
  gnew : s.gone = true → ∀ u, ¬ InNew s u

theorem new_mono {t : Tid} {s' : St} (h1 : ∀ u, u ≠ t → s'.pc u = s.pc u) (h4 : ∀ op', s'.pc t ≠ .begun op') {u : Tid} (h : InNew s' u) : InNew s u := by
  by_cases e : u = t
  · subst e
    rcases h with ⟨_, h⟩ | h <;> exact absurd h (h4 _)
  · unfold InNew at h ⊢; rw [h1 u e] at h; exact h

theorem Reach.quiet (h : Reach c true s) : QInv c s := by
  induction h with
  | rest => exact ⟨(fun _ _ _ h => nomatch h), (fun h => nomatch h), (fun t u h => by rcases h with h | ⟨_, _, h⟩ <;> cases h), (fun h => nomatch h)⟩
  | @act s a hr hc ih =>
    have hi := hr.inv
    cases a with
    | enter t op =>
      simp only [ExitConc.act]
      split
      · rename_i h
        obtain ⟨ho, hg⟩ := h
        have hex : ∀ u, InExit { s with pc := upd s.pc t (.begun op) } u → InExit s u ∨ (u = t ∧ op = .exit) := by
          intro u hu; unfold InExit at hu; dsimp only at hu; rw [upd_apply] at hu
          split at hu
          · rename_i e; subst e
            rcases hu with h | ⟨_, _, h⟩ <;> cases h
            exact .inr ⟨rfl, rfl⟩
          · exact .inl hu
        have hnw : ∀ u, InNew { s with pc := upd s.pc t (.begun op) } u → InNew s u ∨ (u = t ∧ ((∃ fd, op = .dup fd) ∨ op = .pipe)) := by
          intro u hu; unfold InNew at hu; dsimp only at hu; rw [upd_apply] at hu
          split at hu
          · rename_i e; subst e
            rcases hu with ⟨fd, h⟩ | h <;> cases h
            · exact .inr ⟨rfl, .inl ⟨fd, rfl⟩⟩
            · exact .inr ⟨rfl, .inr rfl⟩
          · exact .inl hu
        refine ⟨fun u k half hu => ?_, (fun h => absurd (hg.symm.trans h) (fun h => nomatch h)), fun u v hu hv => ?_, (fun h => absurd (hg.symm.trans h) (fun h => nomatch h))⟩
        · dsimp only at hu; rw [upd_apply] at hu
          split at hu
          · cases hu
          · exact ih.past u k half hu
        · rcases hex u hu with h1 | ⟨rfl, rfl⟩ <;> rcases hnw v hv with h2 | ⟨rfl, h2⟩
          · exact ih.new u v h1 h2
          · rcases h2 with ⟨fd, rfl⟩ | rfl
            · exact hc rfl u h1
            · exact hc rfl u h1
          · exact hc.2.2 rfl v h2
          · rcases h2 with ⟨fd, h2⟩ | h2 <;> cases h2
      · exact ih
    | run t =>
      simp only [ExitConc.act]
      cases h : ExitConc.step c s t with
      | none => exact ih
      | some s' =>
        obtain ⟨h1, h2, h3, h4, h5, h6⟩ := step_facts h
        have hex : ∀ u, InExit s' u → InExit s u := by
          intro u hu
          by_cases e : u = t
          · subst e; exact h5 hu
          · unfold InExit at hu ⊢; rw [h1 u e] at hu; exact hu
        have hkeep : (∃ u, InExit s u) ∨ s.gone = true → ∀ j, s.slot j = none → s'.slot j = none := by
          intro hh j hj
          rcases h3 j hj with h | h
          · exact h
          · rcases hh with ⟨u, hu⟩ | hg
            · exact absurd h (ih.new u t hu)
            · exact absurd h (ih.gnew hg t)
        rw [Option.getD_some]
        have hpast : ∀ u k half, s'.pc u = .exiting k half → ∀ j, j < k → s'.slot j = none := by
          intro u k half hu j hj
          have hin := hex u (.inr ⟨_, _, hu⟩)
          by_cases e : u = t
          · subst e
            unfold ExitConc.step at h
            rcases hin with ho | ⟨k', half', ho⟩
            · rw [ho] at h
              simp only [Op.slot?, ExitConc.first] at h
              cases h
              simp only [upd_same] at hu
              cases hu
              omega
            · rw [ho] at h
              dsimp only at h
              have hold := fun j hj => hkeep (.inl ⟨u, .inr ⟨_, _, ho⟩⟩) j (ih.past u k' half' ho j hj)
              split at h
              · split at h
                · split at h
                  · cases h
                    simp only [ExitConc.empty, upd_same] at hu hold ⊢
                    cases hu
                    by_cases e : j = k'
                    · subst e; rw [upd_same]
                    · exact hold j (by omega)
                  · split at h
                    · rename_i hs
                      cases h
                      simp only [upd_same] at hu hold ⊢
                      cases hu
                      by_cases e : j = k'
                      · subst e; exact hs
                      · exact hold j (by omega)
                    · cases h
                      simp only [ExitConc.release, upd_same] at hu hold ⊢
                      cases hu
                      exact hold j hj
                · cases h
              · cases h
                simp only [upd_same] at hu
                cases hu
          · rw [h1 u e] at hu
            exact hkeep (.inl ⟨u, hin⟩) j (ih.past u k half hu j hj)
        refine ⟨hpast, fun hg j hj => ?_, fun u v hu hv => ih.new u v (hex u hu) (new_mono h1 h4 hv), fun hg u hu => ?_⟩
        · rcases h2 hg with hg' | hin
          · exact hkeep (.inr hg') j (ih.all hg' j hj)
          · apply hkeep (.inl ⟨t, hin⟩) j
            unfold ExitConc.step at h
            have hng : s.gone = false := by
              cases hh : s.gone with
              | false => rfl
              | true => exact absurd hin (hi.gone t hh)
            rcases hin with ho | ⟨k', half', ho⟩
            · rw [ho] at h
              simp only [Op.slot?, ExitConc.first] at h
              cases h
              dsimp only at hg; rw [hng] at hg; cases hg
            · rw [ho] at h
              dsimp only at h
              split at h
              · exfalso
                (repeat' split at h) <;> cases h <;> simp only [ExitConc.empty, ExitConc.release, hng] at hg <;> cases hg
              · rename_i hk
                exact ih.past t k' half' ho j (by omega)
        · rcases h2 hg with hg' | hin
          · exact ih.gnew hg' u (new_mono h1 h4 hu)
          · exact ih.new t u hin (new_mono h1 h4 hu)
    | oread p n => simp only [ExitConc.act]; (repeat' split) <;> exact ⟨ih.past, ih.all, ih.new, ih.gnew⟩
    | owrite p n => simp only [ExitConc.act]; (repeat' split) <;> exact ⟨ih.past, ih.all, ih.new, ih.gnew⟩
    | oclose e => simp only [ExitConc.act]; (repeat' split) <;> exact ⟨ih.past, ih.all, ih.new, ih.gnew⟩
    | odup e => simp only [ExitConc.act]; (repeat' split) <;> exact ⟨ih.past, ih.all, ih.new, ih.gnew⟩

theorem live_none {N : Nat} {slot : Fd → Option End} {rel : Fd → Bool} {e : End} (h : ∀ j, j < N → slot j = none) : live N slot rel e = 0 := by
  apply Nat.eq_zero_of_not_pos
  intro hp
  obtain ⟨k, hk, hs, -⟩ := live_pos.1 hp
  rw [h k hk] at hs; cases hs

end Verif.ExitConc
