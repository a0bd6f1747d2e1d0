import Verif.ExitConcSpec

/-!
# Lemmas for C95
-/

namespace Verif.ExitConc

/-- The slots that hold this end and have not been released. -/
def live (N : Nat) (slot : Fd → Option End) (rel : Fd → Bool) (e : End) : Nat :=
  (List.range N).countP fun k => slot k == some e && !rel k

theorem live_congr {N : Nat} {slot slot' : Fd → Option End} {rel rel' : Fd → Bool} {e : End}
    (h : ∀ k, k < N → (slot k == some e && !rel k) = (slot' k == some e && !rel' k)) : live N slot rel e = live N slot' rel' e := by
  unfold live
  apply List.countP_congr
  intro k hk
  rw [h k (List.mem_range.1 hk)]

/-- Changing one slot. -/
theorem live_change {N : Nat} {slot slot' : Fd → Option End} {rel rel' : Fd → Bool} {e : End} {fd : Nat} (hfd : fd < N)
    (h : ∀ k, k ≠ fd → slot k = slot' k ∧ rel k = rel' k) :
    live N slot rel e + (if (slot' fd == some e && !rel' fd) then 1 else 0) = live N slot' rel' e + (if (slot fd == some e && !rel fd) then 1 else 0) := by
  unfold live
  induction N with
  | zero => omega
  | succ n ih =>
    rw [List.range_succ, List.countP_append, List.countP_append, List.countP_singleton, List.countP_singleton]
    by_cases hn : fd = n
    · subst hn
      have := List.countP_congr (l := List.range fd) (p := fun k => slot k == some e && !rel k) (q := fun k => slot' k == some e && !rel' k)
        (fun k hk => by
          have hk := List.mem_range.1 hk
          obtain ⟨h1, h2⟩ := h k (by omega)
          rw [h1, h2])
      omega
    · have := ih (by omega)
      obtain ⟨h1, h2⟩ := h n (fun e => hn e.symm)
      rw [h1, h2]
      omega

theorem live_pos {N : Nat} {slot : Fd → Option End} {rel : Fd → Bool} {e : End} : 0 < live N slot rel e ↔ ∃ k, k < N ∧ slot k = some e ∧ rel k = false := by
  unfold live
  rw [List.countP_pos_iff]
  simp [List.mem_range]

/-- The state of affairs between steps. -/
structure Inv (c : Cfg) (s : St) : Prop where
  cnt : ∀ e, s.cnt e = s.ext e + live c.N s.slot s.rel e
  fresh : ∀ fd e, s.slot fd = some e → fd < c.N ∧ e.pipe < s.np
  fresh' : ∀ e, s.np ≤ e.pipe → s.ext e = 0
  rel : ∀ fd, s.rel fd = true → s.slot fd ≠ none ∧ ∃ t, s.pc t = .closing fd ∨ s.pc t = .exiting fd true
  clos : ∀ t fd, s.pc t = .closing fd → s.rel fd = true
  exh : ∀ t k, s.pc t = .exiting k true → s.rel k = true ∧ k < c.N
  excl : ∀ t u fd, InClose s t fd → InClose s u fd → t = u
  exu : ∀ t u, InExit s t → InExit s u → t = u
  exc : ∀ t u fd, InExit s t → ¬ InClose s u fd
  lock : ∀ fd t, s.lock fd = some t ↔ ∃ p n, s.pc t = .reading fd p n ∨ ∃ m, s.pc t = .writing fd p m n
  lockr : ∀ fd t p n, s.pc t = .reading fd p n → s.slot fd = some ⟨p, false⟩
  lockw : ∀ fd t p m n, s.pc t = .writing fd p m n → s.slot fd = some ⟨p, true⟩
  gone : ∀ t, s.gone = true → ¬ InExit s t

theorem free_spec {s : St} : ∀ {m k j : Nat}, free s k m = some j → k ≤ j ∧ j < k + m ∧ s.slot j = none ∧ s.lock j = none
  | 0, k, j, h => by simp [free] at h
  | m + 1, k, j, h => by
    simp only [free] at h
    split at h
    · cases h; rename_i h; exact ⟨Nat.le_refl _, by omega, h.1, h.2⟩
    · obtain ⟨h1, h2, h3⟩ := free_spec h
      exact ⟨by omega, by omega, h3⟩

variable {c : Cfg} {s : St}

/-- Steps that leave descriptors and counts alone. -/
theorem Inv.calm (hi : Inv c s) {s' : St} {t : Tid} {x : Pc} (h1 : s'.slot = s.slot) (h2 : s'.rel = s.rel) (h3 : s'.cnt = s.cnt) (h4 : s'.ext = s.ext)
    (h5 : s'.np = s.np) (h6 : s'.pc = upd s.pc t x)
    (h7 : ∀ fd, s.pc t ≠ .closing fd ∧ s.pc t ≠ .exiting fd true)
    (h8 : ∀ fd, x ≠ .closing fd ∧ x ≠ .exiting fd true)
    (h9 : ∀ fd u, s'.lock fd = some u ↔ ∃ p n, s'.pc u = .reading fd p n ∨ ∃ m, s'.pc u = .writing fd p m n)
    (h10 : ∀ fd p n, x = .reading fd p n → s.slot fd = some ⟨p, false⟩)
    (h11 : ∀ fd p m n, x = .writing fd p m n → s.slot fd = some ⟨p, true⟩)
    (h12 : ∀ fd, x = .begun (.close fd) → (∀ u, ¬ InClose s u fd) ∧ ∀ u, ¬ InExit s u)
    (h13 : x = .begun .exit → (∀ u fd, ¬ InClose s u fd) ∧ (∀ u, ¬ InExit s u) ∧ s'.gone = false)
    (h14 : (∃ k half, x = .exiting k half) → InExit s t)
    (h15 : s'.gone = true → s.gone = true ∨ (InExit s t ∧ x = .ended)) : Inv c s' := by
  have hc : ∀ u fd, InClose s' u fd → InClose s u fd ∨ (u = t ∧ x = .begun (.close fd)) := by
    intro u fd; unfold InClose; rw [h6, upd_apply]; grind
  have he : ∀ u, InExit s' u → InExit s u ∨ (u = t ∧ x = .begun .exit) := by
    intro u; unfold InExit; rw [h6, upd_apply]
    split
    · rename_i e; subst e
      rintro (h | ⟨k, half, h⟩)
      · exact .inr ⟨rfl, h⟩
      · exact .inl (h14 ⟨k, half, h⟩)
    · exact .inl
  refine ⟨fun e => by rw [h3, h4, h1, h2]; exact hi.cnt e, by rw [h1, h5]; exact hi.fresh, by rw [h4, h5]; exact hi.fresh', ?_, ?_, ?_, ?_, ?_, ?_, h9, ?_, ?_, ?_⟩
  · intro fd hr
    rw [h2] at hr
    obtain ⟨h, u, hu⟩ := hi.rel fd hr
    refine ⟨by rw [h1]; exact h, u, ?_⟩
    rw [h6, upd_ne]
    · exact hu
    · rintro rfl
      rcases hu with hu | hu
      · exact (h7 fd).1 hu
      · exact (h7 fd).2 hu
  · intro u fd hu
    rw [h6, upd_apply] at hu
    rw [h2]
    split at hu
    · exact absurd hu (h8 fd).1
    · exact hi.clos u fd hu
  · intro u k hu
    rw [h6, upd_apply] at hu
    rw [h2]
    split at hu
    · exact absurd hu (h8 k).2
    · exact hi.exh u k hu
  · intro u v fd h h'
    rcases hc u fd h with h | ⟨rfl, e⟩ <;> rcases hc v fd h' with h' | ⟨rfl, e'⟩
    · exact hi.excl u v fd h h'
    · exact absurd h ((h12 fd e').1 u)
    · exact absurd h' ((h12 fd e).1 v)
    · rfl
  · intro u v h h'
    rcases he u h with h | ⟨rfl, e⟩ <;> rcases he v h' with h' | ⟨rfl, e'⟩
    · exact hi.exu u v h h'
    · exact absurd h ((h13 e').2.1 u)
    · exact absurd h' ((h13 e).2.1 v)
    · rfl
  · intro u v fd h h'
    rcases he u h with h | ⟨rfl, e⟩ <;> rcases hc v fd h' with h' | ⟨rfl, e'⟩
    · exact hi.exc u v fd h h'
    · exact (h12 fd e').2 u h
    · exact (h13 e).1 v fd h'
    · rw [e] at e'; cases e'
  · intro fd u p n hu
    rw [h6, upd_apply] at hu
    rw [h1]
    split at hu
    · exact h10 fd p n hu
    · exact hi.lockr fd u p n hu
  · intro fd u p m n hu
    rw [h6, upd_apply] at hu
    rw [h1]
    split at hu
    · exact h11 fd p m n hu
    · exact hi.lockw fd u p m n hu
  · intro u hg h
    rcases he u h with h' | ⟨rfl, e⟩
    · rcases h15 hg with hg | ⟨ht, e⟩
      · exact hi.gone u hg h'
      · have := hi.exu u t h' ht
        subst this
        unfold InExit at h
        rw [h6, upd_same, e] at h
        rcases h with h | ⟨_, _, h⟩ <;> cases h
    · have := (h13 e).2.2
      rw [this] at hg; cases hg

theorem setc_apply (f : End → Nat) (e : End) (v : Nat) (x : End) : setc f e v x = if x = e then v else f x := rfl

theorem dec_pos {n : Nat} (h : 0 < n) : dec n = n - 1 := by unfold dec; rw [if_neg (by omega)]

/-- The first part of a close. -/
theorem Inv.release (hi : Inv c s) {t : Tid} {x : Pc} {fd : Fd} {e : End} (hs : s.slot fd = some e) (hr : s.rel fd = false)
    (hx : (x = .closing fd ∧ InClose s t fd) ∨ (x = .exiting fd true ∧ InExit s t))
    (hno : ∀ fd' p n m, s.pc t ≠ .reading fd' p n ∧ s.pc t ≠ .writing fd' p m n ∧ s.pc t ≠ .closing fd' ∧ s.pc t ≠ .exiting fd' true) :
    Inv c { release s fd e with pc := upd s.pc t x } := by
  have hfd := (hi.fresh fd e hs).1
  have hlive : ∀ y, live c.N s.slot (upd s.rel fd true) y + (if y = e then 1 else 0) = live c.N s.slot s.rel y := by
    intro y
    have := live_change (slot := s.slot) (slot' := s.slot) (rel := upd s.rel fd true) (rel' := s.rel) (e := y) hfd
      (fun k hk => ⟨rfl, upd_ne _ _ hk⟩)
    rw [upd_same, hs, hr] at this
    by_cases he : y = e
    · subst he; simpa using this
    · have he' : ¬ e = y := fun h => he h.symm
      simpa [he, he'] using this
  have hcl : ∀ u f, InClose { ExitConc.release s fd e with pc := upd s.pc t x } u f → InClose s u f := by
    intro u f h; unfold InClose at h; dsimp only at h; rw [upd_apply] at h
    split at h
    · rename_i e1; subst e1
      rcases hx with ⟨rfl, hx⟩ | ⟨rfl, hx⟩
      · rcases h with h | h <;> cases h
        exact hx
      · rcases h with h | h <;> cases h
    · exact h
  have hex : ∀ u, InExit { ExitConc.release s fd e with pc := upd s.pc t x } u → InExit s u := by
    intro u h; unfold InExit at h; dsimp only at h; rw [upd_apply] at h
    split at h
    · rename_i e1; subst e1
      rcases hx with ⟨rfl, hx⟩ | ⟨rfl, hx⟩
      · rcases h with h | ⟨_, _, h⟩ <;> cases h
      · exact hx
    · exact h
  have hrel : ∀ f, (upd s.rel fd true) f = if f = fd then true else s.rel f := fun f => upd_apply _ _ _ _
  refine ⟨fun y => ?_, hi.fresh, hi.fresh', ?_, ?_, ?_, ?_, ?_, ?_, ?_, ?_, ?_, ?_⟩
  · have h1 := hi.cnt y
    have h2 := hlive y
    simp only [ExitConc.release, setc_apply]
    split
    · rename_i he; subst he
      rw [if_pos rfl] at h2
      rw [dec_pos (by omega)]; omega
    · rename_i he; rw [if_neg he] at h2; omega
  · intro f hf
    simp only [ExitConc.release] at hf ⊢
    rw [hrel] at hf
    split at hf
    · rename_i e1; subst e1
      refine ⟨by rw [hs]; exact fun h => (nomatch h), t, ?_⟩
      rw [upd_same]
      rcases hx with ⟨h, -⟩ | ⟨h, -⟩
      · exact .inl h
      · exact .inr h
    · obtain ⟨h1, u, hu⟩ := hi.rel f hf
      refine ⟨h1, u, ?_⟩
      rw [upd_ne]
      · exact hu
      · rintro rfl
        rcases hu with hu | hu
        · exact (hno f 0 0 0).2.2.1 hu
        · exact (hno f 0 0 0).2.2.2 hu
  · intro u f hu
    simp only [ExitConc.release] at hu ⊢
    rw [hrel]
    split
    · rfl
    · rename_i hne
      rw [upd_apply] at hu
      split at hu
      · rcases hx with ⟨rfl, -⟩ | ⟨rfl, -⟩ <;> cases hu
        exact absurd rfl hne
      · exact hi.clos u f hu
  · intro u f hu
    simp only [ExitConc.release] at hu ⊢
    rw [hrel, upd_apply] at *
    split at hu
    · rcases hx with ⟨rfl, -⟩ | ⟨rfl, -⟩ <;> cases hu
      exact ⟨by rw [if_pos rfl], hfd⟩
    · have := hi.exh u f hu
      refine ⟨?_, this.2⟩
      split
      · rfl
      · exact this.1
  · intro u v f h h'; exact hi.excl u v f (hcl u f h) (hcl v f h')
  · intro u v h h'; exact hi.exu u v (hex u h) (hex v h')
  · intro u v f h h'; exact hi.exc u v f (hex u h) (hcl v f h')
  · intro f u
    simp only [ExitConc.release]
    rw [hi.lock, upd_apply]
    split
    · rename_i e1; subst e1
      constructor
      · rintro ⟨p, n, h | ⟨m, h⟩⟩
        · exact absurd h (hno f p n 0).1
        · exact absurd h (hno f p n m).2.1
      · rcases hx with ⟨rfl, -⟩ | ⟨rfl, -⟩ <;> rintro ⟨p, n, h | ⟨m, h⟩⟩ <;> cases h
    · exact Iff.rfl
  · intro f u p n h
    simp only [ExitConc.release] at h ⊢
    rw [upd_apply] at h
    split at h
    · rcases hx with ⟨rfl, -⟩ | ⟨rfl, -⟩ <;> cases h
    · exact hi.lockr f u p n h
  · intro f u p m n h
    simp only [ExitConc.release] at h ⊢
    rw [upd_apply] at h
    split at h
    · rcases hx with ⟨rfl, -⟩ | ⟨rfl, -⟩ <;> cases h
    · exact hi.lockw f u p m n h
  · intro u hg h
    exact hi.gone u hg (hex u h)

/-- The second part. -/
theorem Inv.empty (hi : Inv c s) {t : Tid} {x : Pc} {fd : Fd} {lg : List (Tid × Op × Ret)}
    (hp : s.pc t = .closing fd ∧ x = .idle ∨ s.pc t = .exiting fd true ∧ x = .exiting (fd + 1) false) (hl : s.lock fd = none) :
    Inv c { empty s fd with pc := upd s.pc t x, log := lg } := by
  have hr : s.rel fd = true := by
    rcases hp with ⟨h, -⟩ | ⟨h, -⟩
    · exact hi.clos t fd h
    · exact (hi.exh t fd h).1
  have hown : ∀ u, s.pc u = .closing fd ∨ s.pc u = .exiting fd true → u = t := by
    intro u hu
    rcases hp with ⟨h, -⟩ | ⟨h, -⟩ <;> rcases hu with hu | hu
    · exact hi.excl u t fd (.inr hu) (.inr h)
    · exact absurd (.inr h) (hi.exc u t fd (.inr ⟨_, _, hu⟩))
    · exact absurd (.inr hu) (hi.exc t u fd (.inr ⟨_, _, h⟩))
    · exact hi.exu u t (.inr ⟨_, _, hu⟩) (.inr ⟨_, _, h⟩)
  have hlive : ∀ y, live c.N (upd s.slot fd none) (upd s.rel fd false) y = live c.N s.slot s.rel y := by
    intro y
    apply live_congr
    intro k hk
    rw [upd_apply, upd_apply]
    split
    · rename_i e; subst e; rw [hr]; simp
    · rfl
  have hcl : ∀ u f, InClose { ExitConc.empty s fd with pc := upd s.pc t x, log := lg } u f → InClose s u f := by
    intro u f h; unfold InClose at h; dsimp only at h; rw [upd_apply] at h
    split at h
    · rcases hp with ⟨-, rfl⟩ | ⟨-, rfl⟩ <;> rcases h with h | h <;> cases h
    · exact h
  have hex : ∀ u, InExit { ExitConc.empty s fd with pc := upd s.pc t x, log := lg } u → InExit s u := by
    intro u h; unfold InExit at h; dsimp only at h; rw [upd_apply] at h
    split at h
    · rename_i e1; subst e1
      rcases hp with ⟨-, rfl⟩ | ⟨h1, -⟩
      · rcases h with h | ⟨_, _, h⟩ <;> cases h
      · exact .inr ⟨_, _, h1⟩
    · exact h
  have hnl : ∀ u p n, s.pc u ≠ .reading fd p n ∧ ∀ m, s.pc u ≠ .writing fd p m n := by
    intro u p n
    refine ⟨fun h => ?_, fun m h => ?_⟩
    · have := (hi.lock fd u).2 ⟨p, n, .inl h⟩; rw [hl] at this; cases this
    · have := (hi.lock fd u).2 ⟨p, n, .inr ⟨m, h⟩⟩; rw [hl] at this; cases this
  refine ⟨fun y => ?_, ?_, hi.fresh', ?_, ?_, ?_, ?_, ?_, ?_, ?_, ?_, ?_, ?_⟩
  · simp only [ExitConc.empty]; rw [hlive]; exact hi.cnt y
  · intro f y h
    simp only [ExitConc.empty] at h ⊢
    rw [upd_apply] at h
    split at h
    · cases h
    · exact hi.fresh f y h
  · intro f hf
    simp only [ExitConc.empty] at hf ⊢
    rw [upd_apply] at hf
    split at hf
    · cases hf
    · rename_i hne
      obtain ⟨h1, u, hu⟩ := hi.rel f hf
      refine ⟨by rw [upd_ne _ _ hne]; exact h1, u, ?_⟩
      rw [upd_ne]
      · exact hu
      · rintro rfl
        rcases hp with ⟨h, -⟩ | ⟨h, -⟩ <;> rw [h] at hu <;> rcases hu with hu | hu <;> cases hu <;> exact hne rfl
  · intro u f hu
    simp only [ExitConc.empty] at hu ⊢
    rw [upd_apply] at hu
    split at hu
    · rcases hp with ⟨-, rfl⟩ | ⟨-, rfl⟩ <;> cases hu
    · rename_i hne
      rw [upd_ne]
      · exact hi.clos u f hu
      · rintro rfl; exact hne (hown u (.inl hu))
  · intro u f hu
    simp only [ExitConc.empty] at hu ⊢
    rw [upd_apply] at hu
    split at hu
    · rcases hp with ⟨-, rfl⟩ | ⟨-, rfl⟩ <;> cases hu
    · rename_i hne
      rw [upd_ne]
      · exact hi.exh u f hu
      · rintro rfl; exact hne (hown u (.inr hu))
  · intro u v f h h'; exact hi.excl u v f (hcl u f h) (hcl v f h')
  · intro u v h h'; exact hi.exu u v (hex u h) (hex v h')
  · intro u v f h h'; exact hi.exc u v f (hex u h) (hcl v f h')
  · intro f u
    simp only [ExitConc.empty]
    rw [hi.lock, upd_apply]
    split
    · rename_i e1; subst e1
      constructor
      · rcases hp with ⟨hh, -⟩ | ⟨hh, -⟩ <;> rw [hh] <;> rintro ⟨p, n, h | ⟨m, h⟩⟩ <;> cases h
      · rcases hp with ⟨-, rfl⟩ | ⟨-, rfl⟩ <;> rintro ⟨p, n, h | ⟨m, h⟩⟩ <;> cases h
    · exact Iff.rfl
  · intro f u p n h
    simp only [ExitConc.empty] at h ⊢
    rw [upd_apply] at h
    split at h
    · rcases hp with ⟨-, rfl⟩ | ⟨-, rfl⟩ <;> cases h
    · rw [upd_ne]
      · exact hi.lockr f u p n h
      · rintro rfl; exact (hnl u p n).1 h
  · intro f u p m n h
    simp only [ExitConc.empty] at h ⊢
    rw [upd_apply] at h
    split at h
    · rcases hp with ⟨-, rfl⟩ | ⟨-, rfl⟩ <;> cases h
    · rw [upd_ne]
      · exact hi.lockw f u p m n h
      · rintro rfl; exact (hnl u p n).2 m h
  · intro u hg h
    exact hi.gone u hg (hex u h)

/-- Filling free slots, and counting. -/
theorem Inv.grow (hi : Inv c s) {t : Tid} {slot' : Fd → Option End} {cnt' : End → Nat} {data' : Nat → Nat} {np' : Nat} {lg : List (Tid × Op × Ret)}
    (hno : ∃ op, s.pc t = .begun op)
    (h1 : ∀ f, s.slot f ≠ none → slot' f = s.slot f) (h2 : ∀ e, cnt' e = s.ext e + live c.N slot' s.rel e) (h3 : s.np ≤ np')
    (h4 : ∀ f e, slot' f = some e → f < c.N ∧ e.pipe < np') :
    Inv c { s with slot := slot', cnt := cnt', data := data', np := np', pc := upd s.pc t .idle, log := lg } := by
  obtain ⟨op, ho⟩ := hno
  have hcalm : Inv c { s with pc := upd s.pc t .idle } := by
    refine hi.calm (t := t) (x := .idle) rfl rfl rfl rfl rfl rfl (fun fd => by rw [ho]; exact ⟨(fun h => nomatch h), (fun h => nomatch h)⟩)
      (fun fd => ⟨(fun h => nomatch h), (fun h => nomatch h)⟩) ?_ (fun _ _ _ h => nomatch h) (fun _ _ _ _ h => nomatch h) (fun _ h => nomatch h) (fun h => nomatch h)
      (fun ⟨_, _, h⟩ => nomatch h) (fun h => .inl h)
    intro fd u
    dsimp only
    rw [hi.lock, upd_apply]
    split
    · rename_i e; subst e; rw [ho]
      constructor <;> rintro ⟨p, n, h | ⟨m, h⟩⟩ <;> cases h
    · exact Iff.rfl
  refine ⟨h2, h4, fun e he => hi.fresh' e (Nat.le_trans h3 he), fun f hf => ?_, hcalm.clos, hcalm.exh, hcalm.excl, hcalm.exu, hcalm.exc, hcalm.lock,
    fun f u p n h => ?_, fun f u p m n h => ?_, hcalm.gone⟩
  · obtain ⟨h, hh⟩ := hcalm.rel f hf
    refine ⟨?_, hh⟩
    dsimp only at h ⊢
    rw [h1 f h]; exact h
  · have := hcalm.lockr f u p n h
    dsimp only at this ⊢
    rw [h1 f (by rw [this]; exact fun h => nomatch h)]; exact this
  · have := hcalm.lockw f u p m n h
    dsimp only at this ⊢
    rw [h1 f (by rw [this]; exact fun h => nomatch h)]; exact this

/-- What other processes do. -/
theorem Inv.other (hi : Inv c s) {ext' cnt' : End → Nat} {data' : Nat → Nat} (h1 : ∀ e, cnt' e = ext' e + live c.N s.slot s.rel e)
    (h2 : ∀ e, s.ext e = 0 → ext' e = 0 ∨ e.pipe < s.np) : Inv c { s with ext := ext', cnt := cnt', data := data' } :=
  ⟨h1, hi.fresh, fun e he => (h2 e (hi.fresh' e he)).resolve_right (by dsimp only at he; omega), hi.rel, hi.clos, hi.exh, hi.excl, hi.exu, hi.exc, hi.lock, hi.lockr, hi.lockw, hi.gone⟩

end Verif.ExitConc
