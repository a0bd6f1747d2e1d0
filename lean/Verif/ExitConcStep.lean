import Verif.ExitConcLemmas

/-!
# Every careful action keeps the invariant of C95
-/

namespace Verif.ExitConc
variable {c : Cfg} {s : St} {q : Bool}

theorem lock_ret (hi : Inv c s) {t : Tid} {x : Pc} (hx : ∀ fd p n m, x ≠ .reading fd p n ∧ x ≠ .writing fd p m n)
    (ht : ∀ fd p n m, s.pc t ≠ .reading fd p n ∧ s.pc t ≠ .writing fd p m n) (fd : Fd) (u : Tid) :
    s.lock fd = some u ↔ ∃ p n, upd s.pc t x u = .reading fd p n ∨ ∃ m, upd s.pc t x u = .writing fd p m n := by
  rw [hi.lock, upd_apply]
  split
  · rename_i e; subst e
    constructor
    · rintro ⟨p, n, h | ⟨m, h⟩⟩
      · exact absurd h (ht fd p n 0).1
      · exact absurd h (ht fd p n m).2
    · rintro ⟨p, n, h | ⟨m, h⟩⟩
      · exact absurd h (hx fd p n 0).1
      · exact absurd h (hx fd p n m).2
  · exact Iff.rfl

/-- A thread that has just begun goes back to rest, or on. -/
theorem Inv.back (hi : Inv c s) {s' : St} {t : Tid} {op : Op} (ho : s.pc t = .begun op) (h1 : s'.slot = s.slot) (h2 : s'.rel = s.rel) (h3 : s'.cnt = s.cnt)
    (h4 : s'.ext = s.ext) (h5 : s'.np = s.np) (h6 : s'.pc = upd s.pc t .idle) (h7 : s'.lock = s.lock) (h8 : s'.gone = s.gone) : Inv c s' := by
  refine hi.calm (t := t) (x := .idle) h1 h2 h3 h4 h5 h6 (fun fd => by rw [ho]; exact ⟨(fun h => nomatch h), (fun h => nomatch h)⟩)
    (fun fd => ⟨(fun h => nomatch h), (fun h => nomatch h)⟩) ?_ (fun _ _ _ h => nomatch h) (fun _ _ _ _ h => nomatch h) (fun _ h => nomatch h) (fun h => nomatch h)
    (fun ⟨_, _, h⟩ => nomatch h) (fun h => .inl (by rw [← h8]; exact h))
  rw [h7, h6]
  exact lock_ret hi (fun _ _ _ _ => ⟨(fun h => nomatch h), (fun h => nomatch h)⟩) (fun _ _ _ _ => by rw [ho]; exact ⟨(fun h => nomatch h), (fun h => nomatch h)⟩)

/-- It takes the lock of a slot and waits. -/
theorem Inv.wait (hi : Inv c s) {t : Tid} {op : Op} {x : Pc} {fd : Fd} (ho : s.pc t = .begun op) (hl : s.lock fd = none)
    (hx : (∃ p n, x = .reading fd p n ∧ s.slot fd = some ⟨p, false⟩) ∨ ∃ p m n, x = .writing fd p m n ∧ s.slot fd = some ⟨p, true⟩) :
    Inv c { s with pc := upd s.pc t x, lock := upd s.lock fd (some t) } := by
  have hb : ∀ f p n, s.pc t ≠ .reading f p n ∧ (∀ m, s.pc t ≠ .writing f p m n) := by
    intro f p n; rw [ho]; exact ⟨(fun h => nomatch h), fun m h => nomatch h⟩
  refine hi.calm (t := t) (x := x) rfl rfl rfl rfl rfl rfl (fun fd => by rw [ho]; exact ⟨(fun h => nomatch h), (fun h => nomatch h)⟩)
    (fun f => ?_) (fun f u => ?_) ?_ ?_ ?_ ?_ ?_ (fun h => .inl h)
  · rcases hx with ⟨_, _, rfl, -⟩ | ⟨_, _, _, rfl, -⟩ <;> exact ⟨(fun h => nomatch h), (fun h => nomatch h)⟩
  · dsimp only
    have hlk := hi.lock f u
    rw [upd_apply, upd_apply]
    by_cases hu : u = t
    · subst hu
      rw [if_pos rfl]
      by_cases hf : f = fd
      · subst hf
        rw [if_pos rfl]
        refine ⟨fun _ => ?_, fun _ => rfl⟩
        rcases hx with ⟨p, n, rfl, -⟩ | ⟨p, m, n, rfl, -⟩
        · exact ⟨p, n, .inl rfl⟩
        · exact ⟨p, n, .inr ⟨m, rfl⟩⟩
      · rw [if_neg hf, hlk]
        constructor
        · rintro ⟨p, n, h | ⟨m, h⟩⟩
          · exact absurd h (hb f p n).1
          · exact absurd h ((hb f p n).2 m)
        · rcases hx with ⟨_, _, rfl, -⟩ | ⟨_, _, _, rfl, -⟩ <;> rintro ⟨p, n, h | ⟨m, h⟩⟩ <;> cases h <;> exact absurd rfl hf
    · rw [if_neg hu, ← hlk]
      by_cases hf : f = fd
      · subst hf
        rw [if_pos rfl, hl]
        exact ⟨fun h => absurd (Option.some.inj h).symm hu, (fun h => nomatch h)⟩
      · rw [if_neg hf]
  · intro f p n h
    rcases hx with ⟨_, _, rfl, hs⟩ | ⟨_, _, _, rfl, -⟩ <;> cases h
    exact hs
  · intro f p m n h
    rcases hx with ⟨_, _, rfl, -⟩ | ⟨_, _, _, rfl, hs⟩ <;> cases h
    exact hs
  · intro f h; rcases hx with ⟨_, _, rfl, -⟩ | ⟨_, _, _, rfl, -⟩ <;> cases h
  · intro h; rcases hx with ⟨_, _, rfl, -⟩ | ⟨_, _, _, rfl, -⟩ <;> cases h
  · rintro ⟨_, _, h⟩; rcases hx with ⟨_, _, rfl, -⟩ | ⟨_, _, _, rfl, -⟩ <;> cases h

/-- It stops waiting. -/
theorem Inv.wake (hi : Inv c s) {t : Tid} {fd : Fd} {data' : Nat → Nat} {lg : List (Tid × Op × Ret)}
    (ho : (∃ p n, s.pc t = .reading fd p n) ∨ ∃ p m n, s.pc t = .writing fd p m n) :
    Inv c { s with pc := upd s.pc t .idle, lock := upd s.lock fd none, data := data', log := lg } := by
  refine hi.calm (t := t) (x := .idle) rfl rfl rfl rfl rfl rfl (fun f => ?_)
    (fun f => ⟨(fun h => nomatch h), (fun h => nomatch h)⟩) (fun f u => ?_) (fun _ _ _ h => nomatch h) (fun _ _ _ _ h => nomatch h) (fun _ h => nomatch h) (fun h => nomatch h)
    (fun ⟨_, _, h⟩ => nomatch h) (fun h => .inl h)
  · rcases ho with ⟨_, _, h⟩ | ⟨_, _, _, h⟩ <;> rw [h] <;> exact ⟨(fun h => nomatch h), (fun h => nomatch h)⟩
  · dsimp only
    have hlk := hi.lock f u
    have hown : s.lock fd = some t := by
      rw [hi.lock]
      rcases ho with ⟨p, n, h⟩ | ⟨p, m, n, h⟩
      · exact ⟨p, n, .inl h⟩
      · exact ⟨p, n, .inr ⟨m, h⟩⟩
    rw [upd_apply, upd_apply]
    by_cases hf : f = fd
    · subst hf
      rw [if_pos rfl]
      refine ⟨(fun h => nomatch h), fun h => ?_⟩
      split at h
      · obtain ⟨p, n, h | ⟨m, h⟩⟩ := h <;> cases h
      · rename_i hu
        rw [← hlk, hown] at h
        exact absurd (Option.some.inj h).symm hu
    · rw [if_neg hf, hlk]
      split
      · rename_i hu; subst hu
        constructor
        · rintro ⟨p, n, h | ⟨m, h⟩⟩ <;> rcases ho with ⟨_, _, h'⟩ | ⟨_, _, _, h'⟩ <;> rw [h'] at h <;> cases h <;> exact absurd rfl hf
        · rintro ⟨p, n, h | ⟨m, h⟩⟩ <;> cases h
      · exact Iff.rfl

theorem live_add {N : Nat} {slot : Fd → Option End} {rel : Fd → Bool} {e x : End} {k : Nat} (hk : k < N) (hs : slot k = none) (hr : rel k = false) :
    live N (upd slot k (some e)) rel x = live N slot rel x + if x = e then 1 else 0 := by
  have := live_change (slot := upd slot k (some e)) (slot' := slot) (rel := rel) (rel' := rel) (e := x) hk (fun j hj => ⟨upd_ne _ _ hj, rfl⟩)
  rw [upd_same, hs, hr] at this
  by_cases he : x = e
  · subst he; simpa using this
  · have he' : ¬ e = x := fun h => he h.symm
    simpa [he, he'] using this

theorem Inv.rel_free (hi : Inv c s) {k : Nat} (h : s.slot k = none) : s.rel k = false := by
  cases hr : s.rel k with
  | false => rfl
  | true => exact absurd h (hi.rel k hr).1

theorem Inv.first (hi : Inv c s) {t : Tid} {op : Op} (ho : s.pc t = .begun op) (hl : ∀ fd, op.slot? = some fd → s.lock fd = none) {s' : St}
    (h : first c s t op = some s') : Inv c s' := by
  have hnob : ∀ fd' p n m, s.pc t ≠ .reading fd' p n ∧ s.pc t ≠ .writing fd' p m n ∧ s.pc t ≠ .closing fd' ∧ s.pc t ≠ .exiting fd' true := by
    intro f p n m; rw [ho]; exact ⟨(fun h => nomatch h), (fun h => nomatch h), (fun h => nomatch h), (fun h => nomatch h)⟩
  cases op with
  | read fd n =>
    simp only [ExitConc.first] at h
    split at h
    · cases h; exact hi.back ho rfl rfl rfl rfl rfl rfl rfl rfl
    · rename_i e hs
      split at h
      · cases h; exact hi.back ho rfl rfl rfl rfl rfl rfl rfl rfl
      · rename_i hw
        split at h
        · cases h; exact hi.back ho rfl rfl rfl rfl rfl rfl rfl rfl
        · cases h
          refine hi.wait ho (hl fd rfl) (.inl ⟨_, _, rfl, ?_⟩)
          rw [hs]; obtain ⟨p, w⟩ := e; cases w
          · rfl
          · exact absurd rfl hw
  | write fd n =>
    simp only [ExitConc.first] at h
    split at h
    · cases h; exact hi.back ho rfl rfl rfl rfl rfl rfl rfl rfl
    · rename_i e hs
      split at h
      · cases h; exact hi.back ho rfl rfl rfl rfl rfl rfl rfl rfl
      · rename_i hw
        cases h
        refine hi.wait ho (hl fd rfl) (.inr ⟨_, _, _, rfl, ?_⟩)
        rw [hs]; obtain ⟨p, w⟩ := e; cases w
        · exact absurd rfl hw
        · rfl
  | close fd =>
    simp only [ExitConc.first] at h
    split at h
    · cases h; exact hi.back ho rfl rfl rfl rfl rfl rfl rfl rfl
    · rename_i e hs
      cases h
      have hr : s.rel fd = false := by
        cases hr : s.rel fd with
        | false => rfl
        | true =>
          obtain ⟨-, u, hu⟩ := hi.rel fd hr
          rcases hu with hu | hu
          · have := hi.excl u t fd (.inr hu) (.inl ho)
            subst this; rw [ho] at hu; cases hu
          · exact absurd (.inl ho) (hi.exc u t fd (.inr ⟨_, _, hu⟩))
      exact hi.release hs hr (.inl ⟨rfl, .inl ho⟩) hnob
  | dup fd =>
    simp only [ExitConc.first] at h
    split at h
    · cases h; exact hi.back ho rfl rfl rfl rfl rfl rfl rfl rfl
    · split at h
      · cases h; exact hi.back ho rfl rfl rfl rfl rfl rfl rfl rfl
      · rename_i e hs
        split at h
        · cases h; exact hi.back ho rfl rfl rfl rfl rfl rfl rfl rfl
        · rename_i k hf
          cases h
          obtain ⟨-, h2, h3, h4⟩ := free_spec hf
          have hkN : k < c.N := by omega
          refine hi.grow (data' := s.data) ⟨_, ho⟩ (fun f hff => ?_) (fun x => ?_) (Nat.le_refl _) (fun f x hx => ?_)
          · dsimp only; rw [upd_ne]; rintro rfl; exact hff h3
          · have h1 := hi.cnt x
            dsimp only
            rw [live_add (by omega) h3 (hi.rel_free h3), setc_apply]
            split
            · rename_i e; subst e; omega
            · omega
          · dsimp only at hx
            rw [upd_apply] at hx
            split at hx
            · rename_i e1; subst e1
              cases hx
              exact ⟨hkN, (hi.fresh fd _ hs).2⟩
            · exact hi.fresh f x hx
  | pipe =>
    simp only [ExitConc.first] at h
    split at h
    · cases h; exact hi.back ho rfl rfl rfl rfl rfl rfl rfl rfl
    · rename_i k hk
      split at h
      · cases h; exact hi.back ho rfl rfl rfl rfl rfl rfl rfl rfl
      · rename_i j hj
        cases h
        obtain ⟨-, k2, k3, k4⟩ := free_spec hk
        obtain ⟨j1, j2, j3, j4⟩ := free_spec hj
        have hkN : k < c.N := by omega
        have hjN : j < c.N := by omega
        have hnone : ∀ x : End, x.pipe = s.np → live c.N s.slot s.rel x = 0 := by
          intro x hx
          apply Nat.eq_zero_of_not_pos
          intro hp
          obtain ⟨f, -, hs, -⟩ := live_pos.1 hp
          have := (hi.fresh f x hs).2
          omega
        have hkj : upd s.slot k (some (⟨s.np, false⟩ : End)) j = none := by rw [upd_ne _ _ (by omega)]; exact j3
        refine hi.grow ⟨_, ho⟩ (fun f hf => ?_) (fun x => ?_) (Nat.le_succ _) (fun f x hx => ?_)
        · dsimp only
          rw [upd_ne, upd_ne]
          · rintro rfl; exact hf k3
          · rintro rfl; exact hf j3
        · have h1 := hi.cnt x
          dsimp only
          rw [live_add (by omega) hkj (hi.rel_free j3), live_add (by omega) k3 (hi.rel_free k3), setc_apply, setc_apply]
          split
          · rename_i e; subst e
            rw [hnone _ rfl, hi.fresh' _ (Nat.le_refl _), if_neg (fun h => by cases h)]
          · split
            · rename_i e; subst e
              rw [hnone _ rfl, hi.fresh' _ (Nat.le_refl _)]
            · omega
        · dsimp only at hx
          rw [upd_apply] at hx
          split at hx
          · rename_i e1; subst e1; cases hx; exact ⟨hjN, Nat.lt_succ_self _⟩
          · rw [upd_apply] at hx
            split at hx
            · rename_i e1; subst e1; cases hx; exact ⟨hkN, Nat.lt_succ_self _⟩
            · have := hi.fresh f x hx
              exact ⟨this.1, Nat.lt_succ_of_lt this.2⟩
  | fork =>
    simp only [ExitConc.first] at h
    split at h
    · cases h
    · cases h
      have h1 := hi.other (ext' := fun e => s.ext e + held c s e) (cnt' := fun e => s.cnt e + held c s e) (data' := s.data)
        (fun e => by have := hi.cnt e; omega) (fun e he => by
          by_cases hh : held c s e = 0
          · exact .inl (by omega)
          · refine .inr ?_
            have : 0 < held c s e := by omega
            unfold held at this
            rw [List.countP_pos_iff] at this
            obtain ⟨k, -, hk⟩ := this
            exact (hi.fresh k e (by simpa using hk)).2)
      exact h1.back ho rfl rfl rfl rfl rfl rfl rfl rfl
  | exit =>
    simp only [ExitConc.first] at h
    cases h
    refine hi.calm (t := t) (x := .exiting 0 false) rfl rfl rfl rfl rfl rfl (fun fd => by rw [ho]; exact ⟨(fun h => nomatch h), (fun h => nomatch h)⟩)
      (fun fd => ⟨(fun h => nomatch h), (fun h => nomatch h)⟩) ?_ (fun _ _ _ h => nomatch h) (fun _ _ _ _ h => nomatch h) (fun _ h => nomatch h) (fun h => nomatch h)
      (fun _ => .inl ho) (fun h => .inl h)
    exact lock_ret hi (fun _ _ _ _ => ⟨(fun h => nomatch h), (fun h => nomatch h)⟩) (fun _ _ _ _ => by rw [ho]; exact ⟨(fun h => nomatch h), (fun h => nomatch h)⟩)

theorem Inv.step (hi : Inv c s) {t : Tid} {s' : St} (h : step c s t = some s') : Inv c s' := by
  unfold ExitConc.step at h
  split at h
  · cases h
  · cases h
  · rename_i op ho
    split at h
    · rename_i fd hfd
      split at h
      · rename_i hl
        exact hi.first ho (fun f hf => by rw [hfd] at hf; cases hf; exact hl) h
      · cases h
    · rename_i hfd
      exact hi.first ho (fun f hf => by rw [hfd] at hf; cases hf) h
  · rename_i fd p n ho
    split at h
    · cases h
    · cases h
      exact hi.wake (.inl ⟨_, _, ho⟩)
  · rename_i fd p todo n ho
    split at h
    · cases h
    · cases h
      exact hi.wake (data' := s.data) (.inr ⟨_, _, _, ho⟩)
    · split at h
      · cases h
        exact hi.wake (.inr ⟨_, _, _, ho⟩)
      · cases h
        refine hi.calm (t := t) rfl rfl rfl rfl rfl rfl (fun f => by rw [ho]; exact ⟨(fun h => nomatch h), (fun h => nomatch h)⟩)
          (fun f => ⟨(fun h => nomatch h), (fun h => nomatch h)⟩) (fun f u => ?_) (fun _ _ _ h => nomatch h) (fun f p m n h => ?_) (fun _ h => nomatch h) (fun h => nomatch h)
          (fun ⟨_, _, h⟩ => nomatch h) (fun h => .inl h)
        · dsimp only
          rw [hi.lock, upd_apply]
          split
          · rename_i e; subst e; rw [ho]
            constructor <;> rintro ⟨p, n, h | ⟨m, h⟩⟩ <;> cases h <;> exact ⟨_, _, .inr ⟨_, rfl⟩⟩
          · exact Iff.rfl
        · cases h; exact hi.lockw _ _ _ _ _ ho
  · rename_i fd ho
    split at h
    · rename_i hl
      cases h
      exact hi.empty (.inl ⟨ho, rfl⟩) hl
    · cases h
  · rename_i k half ho
    have hin : InExit s t := .inr ⟨_, _, ho⟩
    split at h
    · rename_i hk
      split at h
      · rename_i hl
        split at h
        · rename_i hh
          cases h
          subst hh
          exact hi.empty (.inr ⟨ho, rfl⟩) hl
        · rename_i hh
          have hh : half = false := by simpa using hh
          subst hh
          have hnob : ∀ fd' p n m, s.pc t ≠ .reading fd' p n ∧ s.pc t ≠ .writing fd' p m n ∧ s.pc t ≠ .closing fd' ∧ s.pc t ≠ .exiting fd' true := by
            intro f p n m; rw [ho]; exact ⟨(fun h => nomatch h), (fun h => nomatch h), (fun h => nomatch h), (fun h => by cases h)⟩
          split at h
          · cases h
            refine hi.calm (t := t) rfl rfl rfl rfl rfl rfl (fun f => ⟨(hnob f 0 0 0).2.2.1, (hnob f 0 0 0).2.2.2⟩)
              (fun f => ⟨(fun h => nomatch h), (fun h => by cases h)⟩) ?_ (fun _ _ _ h => nomatch h) (fun _ _ _ _ h => nomatch h) (fun _ h => nomatch h) (fun h => nomatch h)
              (fun _ => hin) (fun h => .inl h)
            exact lock_ret hi (fun _ _ _ _ => ⟨(fun h => nomatch h), (fun h => nomatch h)⟩) (fun f p n m => ⟨(hnob f p n m).1, (hnob f p n m).2.1⟩)
          · rename_i e hs
            cases h
            have hr : s.rel k = false := by
              cases hr : s.rel k with
              | false => rfl
              | true =>
                obtain ⟨-, u, hu⟩ := hi.rel k hr
                rcases hu with hu | hu
                · exact absurd (.inr hu) (hi.exc t u k hin)
                · have := hi.exu u t (.inr ⟨_, _, hu⟩) hin
                  subst this; rw [ho] at hu; cases hu
            exact hi.release hs hr (.inr ⟨rfl, hin⟩) hnob
      · cases h
    · rename_i hk
      cases h
      have hh : half = false := by
        cases half with
        | false => rfl
        | true => exact absurd (hi.exh t k ho).2 hk
      subst hh
      refine hi.calm (t := t) (x := .ended) rfl rfl rfl rfl rfl rfl (fun f => by rw [ho]; exact ⟨(fun h => nomatch h), (fun h => by cases h)⟩)
        (fun f => ⟨(fun h => nomatch h), (fun h => nomatch h)⟩) ?_ (fun _ _ _ h => nomatch h) (fun _ _ _ _ h => nomatch h) (fun _ h => nomatch h) (fun h => nomatch h)
        (fun ⟨_, _, h⟩ => nomatch h) (fun _ => .inr ⟨hin, rfl⟩)
      exact lock_ret hi (fun _ _ _ _ => ⟨(fun h => nomatch h), (fun h => nomatch h)⟩) (fun _ _ _ _ => by rw [ho]; exact ⟨(fun h => nomatch h), (fun h => nomatch h)⟩)

theorem Inv.act (hi : Inv c s) {a : Act} (hc : Careful q s a) : Inv c (act c s a) := by
  cases a with
  | enter t op =>
    simp only [ExitConc.act]
    split
    · rename_i h
      obtain ⟨ho, hg⟩ := h
      refine hi.calm (t := t) (x := .begun op) rfl rfl rfl rfl rfl rfl (fun fd => by rw [ho]; exact ⟨(fun h => nomatch h), (fun h => nomatch h)⟩)
        (fun fd => ⟨(fun h => nomatch h), (fun h => nomatch h)⟩) ?_ (fun _ _ _ h => nomatch h) (fun _ _ _ _ h => nomatch h) (fun fd h => ?_) (fun h => ?_)
        (fun ⟨_, _, h⟩ => nomatch h) (fun h => .inl h)
      · exact lock_ret hi (fun _ _ _ _ => ⟨(fun h => nomatch h), (fun h => nomatch h)⟩) (fun _ _ _ _ => by rw [ho]; exact ⟨(fun h => nomatch h), (fun h => nomatch h)⟩)
      · cases h; exact hc
      · cases h; exact ⟨hc.1, hc.2.1, hg⟩
    · exact hi
  | run t =>
    simp only [ExitConc.act]
    cases h : ExitConc.step c s t with
    | none => exact hi
    | some s' => exact hi.step h
  | oread p n =>
    simp only [ExitConc.act]
    split
    · exact hi
    · split
      · exact hi
      · exact hi.other hi.cnt (fun e he => .inl he)
  | owrite p n =>
    simp only [ExitConc.act]
    split
    · exact hi
    · split
      · exact hi.other hi.cnt (fun e he => .inl he)
      · exact hi
  | oclose e =>
    simp only [ExitConc.act]
    split
    · exact hi
    · refine hi.other (data' := s.data) (fun x => ?_) (fun x hx => ?_)
      · have h1 := hi.cnt x
        rw [setc_apply, setc_apply]
        split
        · rename_i he; subst he
          rw [dec_pos (by omega)]; omega
        · exact h1
      · rw [setc_apply]
        split
        · rename_i he; subst he; exact .inl (by omega)
        · exact .inl hx
  | odup e =>
    simp only [ExitConc.act]
    split
    · exact hi
    · rename_i hne
      refine hi.other (data' := s.data) (fun x => ?_) (fun x hx => ?_)
      · have h1 := hi.cnt x
        rw [setc_apply, setc_apply]
        split
        · rename_i he; subst he; omega
        · exact h1
      · rw [setc_apply]
        split
        · rename_i he; subst he; exact absurd hx hne
        · exact .inl hx

theorem Reach.inv (h : Reach c q s) : Inv c s := by
  induction h with
  | rest slot ext data np h1 h2 =>
    refine ⟨fun e => ?_, h1, h2, (fun _ h => nomatch h), (fun _ _ h => nomatch h), (fun _ _ h => nomatch h), ?_, ?_, ?_, ?_, (fun _ _ _ _ h => nomatch h), (fun _ _ _ _ _ h => nomatch h), (fun _ h => nomatch h)⟩
    · simp [atRest, live]
    · rintro t u fd (h | h) <;> cases h
    · rintro t u (h | ⟨_, _, h⟩) <;> cases h
    · rintro t u fd (h | ⟨_, _, h⟩) <;> cases h
    · intro fd t
      constructor
      · intro h; cases h
      · rintro ⟨p, n, h | ⟨m, h⟩⟩ <;> cases h
  | act a _ hc ih => exact ih.act hc

end Verif.ExitConc
