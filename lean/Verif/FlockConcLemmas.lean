import Verif.FlockConcSpec

/-!
# Lemmas for C93
-/

namespace Verif.FlockConc
open Verif.AdvLock

theorem run_append (s : St) (l m : List Act) : run s (l ++ m) = run (run s l) m := by
  induction l generalizing s with
  | nil => rfl
  | cons a l ih => exact ih _

theorem along_run {P : St → Act → Prop} {I : St → Prop} (hstep : ∀ s a s', I s → P s a → step s a = some s' → I s') {l : List Act} :
    ∀ {s}, I s → Along P s l → I (run s l) := by
  induction l with
  | nil => intro s h _; exact h
  | cons a l ih =>
    intro s h ha
    refine ih (s := (step s a).getD s) ?_ ha.2
    cases hs : step s a with
    | none => exact h
    | some s' => exact hstep s a s' h ha.1 hs

theorem filter_eraseP {α : Type} (p q : α → Bool) (hpq : ∀ x, p x = true → q x = true) (l : List α) :
    (l.eraseP p).filter q = (l.filter q).eraseP p := by
  induction l with
  | nil => rfl
  | cons x l ih =>
    by_cases hp : p x = true
    · rw [List.eraseP_cons_of_pos hp, List.filter_cons_of_pos (hpq x hp), List.eraseP_cons_of_pos hp]
    · rw [List.eraseP_cons_of_neg hp]
      by_cases hq : q x = true
      · rw [List.filter_cons_of_pos hq, List.filter_cons_of_pos hq, List.eraseP_cons_of_neg hp, ih]
      · rw [List.filter_cons_of_neg hq, List.filter_cons_of_neg hq, ih]

theorem filter_eraseP_ne {α : Type} (p q : α → Bool) (hpq : ∀ x, p x = true → q x = false) (l : List α) :
    (l.eraseP p).filter q = l.filter q := by
  induction l with
  | nil => rfl
  | cons x l ih =>
    by_cases hp : p x = true
    · rw [List.eraseP_cons_of_pos hp, List.filter_cons_of_neg (by rw [hpq x hp]; simp)]
    · rw [List.eraseP_cons_of_neg hp]
      by_cases hq : q x = true
      · rw [List.filter_cons_of_pos hq, List.filter_cons_of_pos hq, ih]
      · rw [List.filter_cons_of_neg hq, List.filter_cons_of_neg hq, ih]

/-- What is granted and the number in the lock say the same. -/
def Agrees (g : Int) (l : List (Nat × Nat × Kind)) : Prop :=
  (g = -1 ∧ ∃ t o, l = [(t, o, .ex)]) ∨ (g = l.length ∧ ∀ x ∈ l, x.2.2 = .sh)

theorem agrees_acquire {g : Int} {l : List (Nat × Nat × Kind)} (h : Agrees g l) {k : Kind} {g' : Int} (ha : acquire g k = some g') (t o : Nat) :
    Agrees g' ((t, o, k) :: l) := by
  rcases h with ⟨h1, h2⟩ | ⟨h1, h2⟩
  · cases k <;> simp [acquire, h1] at ha
  · cases k with
    | sh =>
      simp only [acquire] at ha
      split at ha
      · cases ha
      · cases ha
        refine Or.inr ⟨by rw [h1, List.length_cons]; omega, fun x hx => ?_⟩
        rcases List.mem_cons.mp hx with rfl | hx
        · rfl
        · exact h2 x hx
    | ex =>
      simp only [acquire] at ha
      split at ha
      · cases ha
      · rename_i hz
        cases ha
        have : l = [] := by
          have : l.length = 0 := by omega
          exact List.eq_nil_of_length_eq_zero this
        exact Or.inl ⟨rfl, t, o, by rw [this]⟩

theorem agrees_none {g : Int} {l : List (Nat × Nat × Kind)} (h : Agrees g l) (k : Kind) :
    acquire g k = none ↔ ∃ x ∈ l, ¬ Compatible k x.2.2 := by
  unfold Compatible
  rcases h with ⟨h1, t, o, h2⟩ | ⟨h1, h2⟩
  · subst h2
    cases k <;> simp [acquire, h1]
  · cases k with
    | sh =>
      have : ¬ g < 0 := by omega
      simp only [acquire, if_neg this, true_and]
      constructor
      · intro h; cases h
      · rintro ⟨x, hx, hn⟩; exact absurd (h2 x hx) hn
    | ex =>
      simp only [acquire]
      cases l with
      | nil =>
        have : g = 0 := h1
        simp [this]
      | cons x l =>
        have : g ≠ 0 := by rw [h1, List.length_cons]; omega
        rw [if_pos this]
        exact ⟨fun _ => ⟨x, List.mem_cons_self, fun h => by cases h.1⟩, fun _ => rfl⟩

theorem agrees_unlock {g : Int} {l : List (Nat × Nat × Kind)} (h : Agrees g l) {p : Nat × Nat × Kind → Bool} {x : Nat × Nat × Kind}
    (hx : x ∈ l) (hp : p x = true) : Agrees (unlock g).1 (l.eraseP p) := by
  rcases h with ⟨h1, t, o, h2⟩ | ⟨h1, h2⟩
  · subst h2
    rw [List.mem_singleton] at hx
    subst hx
    rw [List.eraseP_cons_of_pos hp, h1]
    exact Or.inr ⟨rfl, fun x hx => by cases hx⟩
  · have hlen := List.length_eraseP_of_mem hx hp
    have hpos : 0 < l.length := List.length_pos_of_mem hx
    have hg : g > 0 := by omega
    refine Or.inr ⟨?_, fun y hy => h2 y (List.mem_of_mem_eraseP hy)⟩
    rw [hlen]
    simp only [unlock, if_pos hg]
    omega

/-- The locks agree with what is granted, and there are no traces of locks not made yet. -/
structure Good (s : St) : Prop where
  agrees : ∀ o, Agrees (s.guard o) (on s o)
  held : ∀ x ∈ s.held, x.2.1 < s.next
  fds : ∀ fd o, s.fds fd = some o → o < s.next
  waits : ∀ (t fd o : Nat) (k : Kind), s.thr[t]? = some (.wait fd o k) → o < s.next

theorem good_init (N : Nat) : Good (init N) where
  agrees _ := Or.inr ⟨rfl, fun x hx => by cases hx⟩
  held _ hx := by cases hx
  fds _ _ h := by cases h
  waits t fd o k h := by
    have := List.mem_of_getElem? h
    rw [init, List.mem_replicate] at this
    cases this.2

/-- A thread's place after `thr.set`. -/
theorem set_get {l : List Ph} {t u : Nat} {p q : Ph} (h : (l.set t p)[u]? = some q) : (u = t ∧ q = p) ∨ (u ≠ t ∧ l[u]? = some q) := by
  rw [List.getElem?_set] at h
  grind

theorem good_ret {s : St} (h : Good s) (t fd : Nat) (op : Op) (r : Ret) : Good (ret s t fd op r) where
  agrees := h.agrees
  held := h.held
  fds := h.fds
  waits u fd' o k hu := by
    rcases set_get hu with ⟨_, hq⟩ | ⟨_, hq⟩
    · cases hq
    · exact h.waits u fd' o k hq

theorem good_grant {s : St} (h : Good s) {o : Nat} (ho : o < s.next) {k : Kind} {g : Int} (hg : acquire (s.guard o) k = some g) (t : Nat) :
    Good { s with guard := upd s.guard o g, held := (t, o, k) :: s.held } where
  agrees o' := by
    by_cases hoo : o' = o
    · subst hoo
      dsimp only [on]
      rw [upd_same, List.filter_cons_of_pos (by simp)]
      exact agrees_acquire (h.agrees o') hg t o'
    · dsimp only [on]
      rw [upd_ne _ _ hoo, List.filter_cons_of_neg (by simpa using fun e => hoo e.symm)]
      exact h.agrees o'
  held x hx := by
    rcases List.mem_cons.mp hx with rfl | hx
    · exact ho
    · exact h.held x hx
  fds := h.fds
  waits := h.waits

theorem good_unlock {s : St} (h : Good s) {t o : Nat} (hk : ∃ k, (t, o, k) ∈ s.held) :
    Good { s with guard := upd s.guard o (AdvLock.unlock (s.guard o)).1
                  held := s.held.eraseP (fun h => h.1 == t && h.2.1 == o) } where
  agrees o' := by
    by_cases hoo : o' = o
    · subst hoo
      dsimp only [on]
      rw [upd_same, filter_eraseP _ _ (fun x hx => by simp at hx ⊢; exact hx.2)]
      obtain ⟨k, hk⟩ := hk
      exact agrees_unlock (h.agrees o') (x := (t, o', k)) (List.mem_filter.mpr ⟨hk, by simp⟩) (by simp)
    · dsimp only [on]
      rw [upd_ne _ _ hoo, filter_eraseP_ne _ _ (fun x hx => by simp at hx ⊢; intro e; exact hoo (e.symm.trans hx.2))]
      exact h.agrees o'
  held x hx := h.held x (List.mem_of_mem_eraseP hx)
  fds := h.fds
  waits := h.waits

theorem good_fds {s : St} (h : Good s) (n : Nat) (v : Option Nat) (hv : ∀ o, v = some o → o < s.next) : Good { s with fds := upd s.fds n v } where
  agrees := h.agrees
  held := h.held
  fds fd o hfd := by
    by_cases e : fd = n
    · subst e; dsimp only at hfd; rw [upd_same] at hfd; exact hv o hfd
    · dsimp only at hfd; rw [upd_ne _ _ e] at hfd; exact h.fds fd o hfd
  waits := h.waits

theorem good_thr {s : St} (h : Good s) (t : Nat) (p : Ph) (hp : ∀ fd o k, p = .wait fd o k → o < s.next) : Good { s with thr := s.thr.set t p } where
  agrees := h.agrees
  held := h.held
  fds := h.fds
  waits u fd o k hu := by
    rcases set_get hu with ⟨_, hq⟩ | ⟨_, hq⟩
    · exact hp fd o k hq.symm
    · exact h.waits u fd o k hq

theorem good_perform {s s' : St} {t fd : Nat} {op : Op} (h : Good s) (hu : op = .unlock → ∀ o, s.fds fd = some o → ∃ k, (t, o, k) ∈ s.held)
    (hs : perform s t fd op = some s') : Good s' := by
  unfold perform at hs
  cases ho : s.fds fd with
  | none => rw [ho] at hs; cases hs; exact good_ret h ..
  | some o =>
    rw [ho] at hs
    have hlt := h.fds fd o ho
    cases op with
    | lock k =>
      dsimp only at hs
      cases hg : acquire (s.guard o) k with
      | none => rw [hg] at hs; cases hs; exact good_thr h _ _ (fun _ _ _ e => by cases e; exact hlt)
      | some g => rw [hg] at hs; cases hs; exact good_ret (good_grant h hlt hg t) ..
    | tryLock k c =>
      dsimp only at hs
      cases hg : tryLock (s.guard o) k c with
      | none => rw [hg] at hs; cases hs; exact good_ret h ..
      | some g =>
        rw [hg] at hs; cases hs
        have : acquire (s.guard o) k = some g := by
          unfold tryLock at hg; split at hg
          · cases hg
          · exact hg
        exact good_ret (good_grant h hlt this t) ..
    | unlock => cases hs; exact good_ret (good_unlock h (hu rfl o ho)) ..
    | use => cases hs; exact good_ret h ..
    | look => cases hs; exact good_ret h ..
    | close => cases hs; exact good_ret (good_fds h _ _ (fun _ e => by cases e)) ..
    | dup n =>
      dsimp only at hs
      split at hs
      · cases hs; exact good_ret (good_fds h _ _ (fun _ e => by cases e; exact hlt)) ..
      · cases hs
    | copy n =>
      dsimp only at hs
      split at hs
      · cases hs; exact good_ret (good_fds h _ _ (fun _ e => by cases e; exact hlt)) ..
      · cases hs

/-- What a step is. -/
theorem step_cases {s s' : St} {a : Act} (hs : step s a = some s') :
    (∃ fd, a = .open fd ∧ s.fds fd = none ∧ s' = { s with fds := upd s.fds fd (some s.next), guard := upd s.guard s.next 0, next := s.next + 1 }) ∨
    (∃ t fd op, a = .call t fd op ∧ s.thr[t]? = some .idle ∧ s' = { s with thr := s.thr.set t (.call fd op) }) ∨
    (∃ t fd op, a = .go t ∧ s.thr[t]? = some (.call fd op) ∧ op.writes = true ∧ waiter s fd = true ∧ s' = { s with thr := s.thr.set t (.queued fd op) }) ∨
    (∃ t fd op, a = .go t ∧ (s.thr[t]? = some (.call fd op) ∨ s.thr[t]? = some (.queued fd op)) ∧
      ((op.writes = false ∧ s.thr[t]? = some (.call fd op) ∧ queue s fd = false) ∨ waiter s fd = false) ∧ perform s t fd op = some s') ∨
    (∃ t fd o k g, a = .grant t ∧ s.thr[t]? = some (.wait fd o k) ∧ acquire (s.guard o) k = some g ∧
      s' = ret { s with guard := upd s.guard o g, held := (t, o, k) :: s.held } t fd (.lock k) (.ok 0)) := by
  cases a with
  | «open» fd =>
    simp only [step] at hs
    split at hs
    · cases hs; exact Or.inl ⟨fd, rfl, by assumption, rfl⟩
    · cases hs
  | call t fd op =>
    simp only [step] at hs
    split at hs
    · cases hs; exact Or.inr (Or.inl ⟨t, fd, op, rfl, by assumption, rfl⟩)
    · cases hs
  | go t =>
    simp only [step] at hs
    split at hs
    · rename_i fd op hp
      cases hw : op.writes with
      | true =>
        rw [hw, if_pos rfl] at hs
        cases hq : waiter s fd with
        | true => rw [hq, if_pos rfl] at hs; cases hs; exact Or.inr (Or.inr (Or.inl ⟨t, fd, op, rfl, hp, hw, hq, rfl⟩))
        | false => rw [hq, if_neg Bool.false_ne_true] at hs; exact Or.inr (Or.inr (Or.inr (Or.inl ⟨t, fd, op, rfl, Or.inl hp, Or.inr hq, hs⟩)))
      | false =>
        rw [hw, if_neg Bool.false_ne_true] at hs
        cases hq : queue s fd with
        | true => rw [hq, if_pos rfl] at hs; cases hs
        | false => rw [hq, if_neg Bool.false_ne_true] at hs; exact Or.inr (Or.inr (Or.inr (Or.inl ⟨t, fd, op, rfl, Or.inl hp, Or.inl ⟨hw, hp, hq⟩, hs⟩)))
    · rename_i fd op hp
      cases hq : waiter s fd with
      | true => rw [hq, if_pos rfl] at hs; cases hs
      | false => rw [hq, if_neg Bool.false_ne_true] at hs; exact Or.inr (Or.inr (Or.inr (Or.inl ⟨t, fd, op, rfl, Or.inr hp, Or.inr hq, hs⟩)))
    · cases hs
  | grant t =>
    simp only [step] at hs
    split at hs
    · rename_i fd o k hp
      split at hs
      · rename_i g hg
        cases hs
        exact Or.inr (Or.inr (Or.inr (Or.inr ⟨t, fd, o, k, g, rfl, hp, hg, rfl⟩)))
      · cases hs
    · cases hs

/-- Only calls that write the slot are queued. -/
def Queues (s : St) : Prop := ∀ (t fd : Nat) (op : Op), s.thr[t]? = some (.queued fd op) → op.writes = true

/-- A call that has the slot changes where its own thread is, and it is idle or waits. -/
theorem perform_thr {s s' : St} {t fd : Nat} {op : Op} (hs : perform s t fd op = some s') :
    s'.thr = s.thr.set t .idle ∨ ∃ o k, op = .lock k ∧ s.fds fd = some o ∧ acquire (s.guard o) k = none ∧ s' = { s with thr := s.thr.set t (.wait fd o k) } := by
  unfold perform at hs
  cases ho : s.fds fd with
  | none => rw [ho] at hs; cases hs; exact Or.inl rfl
  | some o =>
    rw [ho] at hs
    cases op with
    | lock k =>
      dsimp only at hs
      cases hg : acquire (s.guard o) k with
      | none => rw [hg] at hs; cases hs; exact Or.inr ⟨o, k, rfl, rfl, hg, rfl⟩
      | some g => rw [hg] at hs; cases hs; exact Or.inl rfl
    | tryLock k c =>
      dsimp only at hs
      split at hs <;> cases hs <;> exact Or.inl rfl
    | unlock => cases hs; exact Or.inl rfl
    | use => cases hs; exact Or.inl rfl
    | look => cases hs; exact Or.inl rfl
    | close => cases hs; exact Or.inl rfl
    | dup n => dsimp only at hs; split at hs <;> cases hs; exact Or.inl rfl
    | copy n => dsimp only at hs; split at hs <;> cases hs; exact Or.inl rfl

/-- Only a call of thread `t` takes away what `t` holds. -/
theorem perform_held {s s' : St} {t fd : Nat} {op : Op} (hs : perform s t fd op = some s') {x : Nat × Nat × Kind} (hx : x ∈ s.held) (hne : x.1 ≠ t) :
    x ∈ s'.held := by
  unfold perform at hs
  cases ho : s.fds fd with
  | none => rw [ho] at hs; cases hs; exact hx
  | some o =>
    rw [ho] at hs
    cases op with
    | lock k =>
      dsimp only at hs
      split at hs <;> cases hs
      · exact List.mem_cons_of_mem _ hx
      · exact hx
    | tryLock k c =>
      dsimp only at hs
      split at hs <;> cases hs
      · exact List.mem_cons_of_mem _ hx
      · exact hx
    | unlock =>
      cases hs
      exact (List.mem_eraseP_of_neg (by simp [hne])).mpr hx
    | use => cases hs; exact hx
    | look => cases hs; exact hx
    | close => cases hs; exact hx
    | dup n => dsimp only at hs; split at hs <;> cases hs; exact hx
    | copy n => dsimp only at hs; split at hs <;> cases hs; exact hx

theorem queues_step {s s' : St} {a : Act} (h : Queues s) (hs : step s a = some s') : Queues s' := by
  intro u fd' op' hu
  rcases step_cases hs with ⟨fd, _, _, rfl⟩ | ⟨t, fd, op, _, _, rfl⟩ | ⟨t, fd, op, _, _, hw, _, rfl⟩ | ⟨t, fd, op, _, _, _, hp⟩ | ⟨t, fd, o, k, g, _, _, _, rfl⟩
  · exact h u fd' op' hu
  · rcases set_get hu with ⟨_, hq⟩ | ⟨_, hq⟩
    · cases hq
    · exact h u fd' op' hq
  · rcases set_get hu with ⟨_, hq⟩ | ⟨_, hq⟩
    · cases hq; exact hw
    · exact h u fd' op' hq
  · rcases perform_thr hp with e | ⟨o, k, _, _, _, e⟩
    · rw [e] at hu
      rcases set_get hu with ⟨_, hq⟩ | ⟨_, hq⟩
      · cases hq
      · exact h u fd' op' hq
    · rw [e] at hu
      rcases set_get hu with ⟨_, hq⟩ | ⟨_, hq⟩
      · cases hq
      · exact h u fd' op' hq
  · rcases set_get hu with ⟨_, hq⟩ | ⟨_, hq⟩
    · cases hq
    · exact h u fd' op' hq

theorem good_step {s s' : St} {a : Act} (h : Good s ∧ Queues s) (ha : Honest s a) (hs : step s a = some s') : Good s' ∧ Queues s' := by
  refine ⟨?_, queues_step h.2 hs⟩
  obtain ⟨h, hq⟩ := h
  rcases step_cases hs with ⟨fd, _, hn, rfl⟩ | ⟨t, fd, op, _, _, rfl⟩ | ⟨t, fd, op, _, _, hw, _, rfl⟩ | ⟨t, fd, op, rfl, hc, _, hp⟩ | ⟨t, fd, o, k, g, _, hw, hg, rfl⟩
  · refine ⟨fun o => ?_, fun x hx => Nat.lt_succ_of_lt (h.held x hx), fun fd' o ho => ?_, fun t fd' o k ht => Nat.lt_succ_of_lt (h.waits t fd' o k ht)⟩
    · dsimp only [on]
      by_cases e : o = s.next
      · subst e
        rw [upd_same]
        have : s.held.filter (fun x => x.2.1 == s.next) = [] := by
          refine List.filter_eq_nil_iff.mpr fun x hx => ?_
          have := h.held x hx
          simp; omega
        rw [this]
        exact Or.inr ⟨rfl, fun x hx => by cases hx⟩
      · rw [upd_ne _ _ e]; exact h.agrees o
    · dsimp only at ho ⊢
      by_cases e : fd' = fd
      · subst e; rw [upd_same] at ho; cases ho; exact Nat.lt_succ_self _
      · rw [upd_ne _ _ e] at ho; exact Nat.lt_succ_of_lt (h.fds fd' o ho)
  · exact good_thr h _ _ (fun _ _ _ e => by cases e)
  · exact good_thr h _ _ (fun _ _ _ e => by cases e)
  · refine good_perform h (fun e o ho => ?_) hp
    subst e
    rcases hc with hc | hc
    · exact ha fd o hc ho
    · exact absurd (hq t fd .unlock hc) (by decide)
  · exact good_ret (good_grant h (h.waits t fd o k hw) hg t) ..

theorem good_run {s : St} (h : Good s ∧ Queues s) {acts : List Act} (ha : Along Honest s acts) : Good (run s acts) ∧ Queues (run s acts) :=
  along_run (I := fun s => Good s ∧ Queues s) (fun _ _ _ h hp hs => good_step h hp hs) h ha

theorem queues_init (N : Nat) : Queues (init N) := by
  intro t fd op h
  have := List.mem_of_getElem? h
  rw [init, List.mem_replicate] at this
  cases this.2

theorem reach_good (N : Nat) {acts : List Act} (ha : Along Honest (init N) acts) : Good (run (init N) acts) :=
  (good_run ⟨good_init N, queues_init N⟩ ha).1

theorem mem_on {s : St} {o : Nat} {x : Nat × Nat × Kind} : x ∈ on s o ↔ x ∈ s.held ∧ x.2.1 = o := by
  simp [on]

theorem waiter_iff {s : St} {fd : Nat} : waiter s fd = true ↔ ∃ (u o : Nat) (k : Kind), s.thr[u]? = some (.wait fd o k) := by
  unfold waiter
  rw [List.any_eq_true]
  constructor
  · rintro ⟨p, hp, hm⟩
    obtain ⟨u, hu⟩ := List.getElem?_of_mem hp
    cases p with
    | wait f o k => dsimp only at hm; exact ⟨u, o, k, by rw [hu, beq_iff_eq.mp hm]⟩
    | _ => simp at hm
  · rintro ⟨u, o, k, hu⟩
    exact ⟨_, List.mem_of_getElem? hu, by simp⟩

theorem queue_iff {s : St} {fd : Nat} : queue s fd = true ↔ ∃ (u : Nat) (op : Op), s.thr[u]? = some (.queued fd op) := by
  unfold queue
  rw [List.any_eq_true]
  constructor
  · rintro ⟨p, hp, hm⟩
    obtain ⟨u, hu⟩ := List.getElem?_of_mem hp
    cases p with
    | queued f op => dsimp only at hm; exact ⟨u, op, by rw [hu, beq_iff_eq.mp hm]⟩
    | _ => simp at hm
  · rintro ⟨u, op, hu⟩
    exact ⟨_, List.mem_of_getElem? hu, by simp⟩

/-- Only thread `t` itself changes where thread `t` is. -/
theorem step_other {s s' : St} {a : Act} (hs : step s a = some s') {u : Nat} {p : Ph} (hu : s.thr[u]? = some p)
    (ha : a ≠ .go u) (hg : a ≠ .grant u) (hc : p ≠ .idle) : s'.thr[u]? = some p := by
  have key : ∀ (t : Nat) (q : Ph), u ≠ t → (s.thr.set t q)[u]? = some p := fun t q e => by rw [List.getElem?_set_ne (Ne.symm e)]; exact hu
  rcases step_cases hs with ⟨fd, _, _, rfl⟩ | ⟨t, fd, op, _, hi, rfl⟩ | ⟨t, fd, op, rfl, _, hw, _, rfl⟩ | ⟨t, fd, op, rfl, _, _, hp⟩ | ⟨t, fd, o, k, g, rfl, _, _, rfl⟩
  · exact hu
  · exact key _ _ (fun e => by subst e; rw [hi] at hu; cases hu; exact hc rfl)
  · exact key _ _ (fun e => by subst e; exact ha rfl)
  · have hne : u ≠ t := fun e => by subst e; exact ha rfl
    rcases perform_thr hp with e | ⟨o, k, _, _, _, e⟩
    · rw [e]; exact key _ _ hne
    · rw [e]; exact key _ _ hne
  · exact key _ _ (fun e => by subst e; exact hg rfl)

theorem step_held {s s' : St} {a : Act} (hs : step s a = some s') {x : Nat × Nat × Kind} (hx : x ∈ s.held)
    (hh : a ≠ .go x.1 ∨ s'.held = s.held) : x ∈ s'.held := by
  rcases hh with ha | ha
  · rcases step_cases hs with ⟨fd, _, _, rfl⟩ | ⟨t, fd, op, _, hi, rfl⟩ | ⟨t, fd, op, rfl, _, hw, _, rfl⟩ | ⟨t, fd, op, rfl, _, _, hp⟩ | ⟨t, fd, o, k, g, rfl, _, _, rfl⟩
    · exact hx
    · exact hx
    · exact hx
    · exact perform_held hp hx (fun e => ha (by rw [e]))
    · exact List.mem_cons_of_mem _ hx
  · rw [ha]; exact hx

/-! ## Knots -/

/-- Thread `u` waits through `fd` for a lock that `h` has. -/
structure Core (h o : Nat) (k : Kind) (u fd : Nat) (k' : Kind) (s : St) : Prop where
  good : Good s
  queues : Queues s
  held : (h, o, k) ∈ s.held
  waits : s.thr[u]? = some (.wait fd o k')

theorem core_grant {h o : Nat} {k : Kind} {u fd : Nat} {k' : Kind} {s : St} (hc : Core h o k u fd k' s) (hk : ¬ Compatible k' k) :
    step s (.grant u) = none := by
  have : acquire (s.guard o) k' = none := (agrees_none (hc.good.agrees o) k').mpr ⟨(h, o, k), mem_on.mpr ⟨hc.held, rfl⟩, hk⟩
  simp only [step, hc.waits, this]

theorem core_step {h o : Nat} {k : Kind} {u fd : Nat} {k' : Kind} {s s' : St} {a : Act} (hc : Core h o k u fd k' s) (hk : ¬ Compatible k' k)
    (ha : Honest s a) (hs : step s a = some s') (hh : a ≠ .go h ∨ s'.held = s.held) : Core h o k u fd k' s' := by
  have hg := good_step ⟨hc.good, hc.queues⟩ ha hs
  refine ⟨hg.1, hg.2, step_held hs hc.held hh, step_other hs hc.waits ?_ ?_ (by intro e; cases e)⟩
  · rintro rfl; simp [step, hc.waits] at hs
  · rintro rfl; rw [core_grant hc hk] at hs; cases hs

/-- Where a thread is that cannot have the slot of `fd` while somebody waits on it. -/
def Behind (s : St) (fd v : Nat) : Prop :=
  ∃ op, op.writes = true ∧ (s.thr[v]? = some (.call fd op) ∨ s.thr[v]? = some (.queued fd op))

theorem behind_go {s s' : St} {fd v : Nat} (hw : waiter s fd = true) (hb : Behind s fd v) (hs : step s (.go v) = some s') :
    s'.held = s.held ∧ Behind s' fd v := by
  obtain ⟨op, ho, hb | hb⟩ := hb
  · simp only [step, hb, ho, hw, if_true] at hs
    cases hs
    refine ⟨rfl, op, ho, Or.inr ?_⟩
    rw [List.getElem?_set_self (List.getElem?_eq_some_iff.mp hb).1]
  · simp [step, hb, hw] at hs

theorem behind_step {s s' : St} {fd v : Nat} {a : Act} (hw : waiter s fd = true) (hb : Behind s fd v) (hs : step s a = some s') : Behind s' fd v := by
  by_cases ha : a = .go v
  · subst ha; exact (behind_go hw hb hs).2
  · obtain ⟨op, ho, hb⟩ := hb
    refine ⟨op, ho, ?_⟩
    rcases hb with hb | hb
    · exact Or.inl (step_other hs hb ha (by rintro rfl; simp [step, hb] at hs) (by intro e; cases e))
    · exact Or.inr (step_other hs hb ha (by rintro rfl; simp [step, hb] at hs) (by intro e; cases e))

/-- Queued for the slot of `fd`. -/
def Queued (s : St) (fd v : Nat) : Prop := ∃ op, s.thr[v]? = some (.queued fd op)

theorem queued_step {s s' : St} {fd v : Nat} {a : Act} (hw : waiter s fd = true) (hb : Queued s fd v) (hs : step s a = some s') : Queued s' fd v := by
  obtain ⟨op, hb⟩ := hb
  exact ⟨op, step_other hs hb (by rintro rfl; simp [step, hb, hw] at hs) (by rintro rfl; simp [step, hb] at hs) (by intro e; cases e)⟩

/-- A call that reads the slot, kept out by a queued one. -/
def Kept (s : St) (fd w : Nat) : Prop := ∃ op, op.writes = false ∧ s.thr[w]? = some (.call fd op)

theorem kept_go {s s' : St} {fd v w : Nat} (hv : Queued s fd v) (hk : Kept s fd w) : step s (.go w) ≠ some s' := by
  obtain ⟨op, ho, hk⟩ := hk
  have hq : queue s fd = true := queue_iff.mpr ⟨v, hv⟩
  simp [step, hk, ho, hq]

theorem kept_step {s s' : St} {fd v w : Nat} {a : Act} (hv : Queued s fd v) (hk : Kept s fd w) (hs : step s a = some s') : Kept s' fd w := by
  have := @kept_go s s' fd v w hv hk
  obtain ⟨op, ho, hk⟩ := hk
  exact ⟨op, ho, step_other hs hk (fun e => by subst e; exact this hs) (by rintro rfl; simp [step, hk] at hs) (by intro e; cases e)⟩

/-- A knot: `u` waits through `fd` for a lock that `h` has, and `h` cannot give it back. -/
structure Knot (h o : Nat) (k : Kind) (u fd : Nat) (k' : Kind) (s : St) : Prop extends Core h o k u fd k' s where
  tied : h = u ∨ Behind s fd h ∨ (Kept s fd h ∧ ∃ v, Queued s fd v)

theorem knot_step {h o : Nat} {k : Kind} {u fd : Nat} {k' : Kind} {s s' : St} {a : Act} (hc : Knot h o k u fd k' s) (hk : ¬ Compatible k' k)
    (ha : Honest s a) (hs : step s a = some s') : Knot h o k u fd k' s' := by
  have hw : waiter s fd = true := waiter_iff.mpr ⟨u, o, k', hc.waits⟩
  rcases hc.tied with e | hb | ⟨hb, v, hv⟩
  · subst e
    refine ⟨core_step hc.toCore hk ha hs (Or.inl ?_), Or.inl rfl⟩
    rintro rfl; simp [step, hc.waits] at hs
  · refine ⟨core_step hc.toCore hk ha hs ?_, Or.inr (Or.inl (behind_step hw hb hs))⟩
    by_cases e : a = .go h
    · subst e; exact Or.inr (behind_go hw hb hs).1
    · exact Or.inl e
  · exact ⟨core_step hc.toCore hk ha hs (Or.inl (fun e => by subst e; exact kept_go hv hb hs)), Or.inr (Or.inr ⟨kept_step hv hb hs, v, queued_step hw hv hs⟩)⟩

end Verif.FlockConc
