import Verif.FdFork
import Verif.FdConcProps

/-! # Invariants of forks among other calls -/

namespace Verif.FdFork

open FdConc (Tid Fd Obj set)

variable {N : Nat} {nl : Obj → Bool}

/-- Number of slots of a table holding an object. -/
def slots (N : Nat) (tab : Fd → Option Obj) (o : Obj) : Nat :=
  ((List.range N).filter fun fd => tab fd = some o).length

/-- The same over the tables of the first `n` children. -/
def kids (N : Nat) (kid : Nat → Fd → Option Obj) (o : Obj) : Nat → Nat
  | 0 => 0
  | n + 1 => kids N kid o n + slots N (kid n) o

structure Inv (N : Nat) (s : St) : Prop where
  lt : ∀ t c k, s.forks t = some (c, k) → c < s.n ∧ s.born c = false ∧ k ≤ N
  uniq : ∀ t u c k k', s.forks t = some (c, k) → s.forks u = some (c, k') → t = u
  empty : ∀ t c k fd, s.forks t = some (c, k) → k ≤ fd → s.kid c fd = none
  idle : ∀ t, s.forks t ≠ none → s.base.pc t = .idle
  dead : ∀ t, s.dead t = true → s.base.pc t = .idle ∧ s.forks t = none
  notyet : ∀ c, s.n ≤ c → s.born c = false ∧ s.kid c = fun _ => none
  extra : ∀ o, s.extra o = kids N s.kid o s.n
  beyond : ∀ c fd, N ≤ fd → s.kid c fd = none

theorem kids_congr {k k' : Nat → Fd → Option Obj} {o : Obj} :
    ∀ {n : Nat}, (∀ c, c < n → k c = k' c) → kids N k o n = kids N k' o n
  | 0, _ => rfl
  | n + 1, h => by
    simp only [kids]
    rw [kids_congr (n := n) (fun c hc => h c (by omega)), h n (by omega)]

theorem kids_change {k k' : Nat → Fd → Option Obj} {o : Obj} {c : Nat} :
    ∀ {n : Nat}, c < n → (∀ d, d ≠ c → k d = k' d) →
      kids N k' o n + slots N (k c) o = kids N k o n + slots N (k' c) o
  | 0, h, _ => by omega
  | n + 1, h, hd => by
    simp only [kids]
    by_cases e : c = n
    · subst e
      rw [kids_congr (k := k) (k' := k') (n := c) (fun d hd' => hd d (by omega))]
      omega
    · have := kids_change (n := n) (k := k) (k' := k') (o := o) (by omega) hd
      rw [hd n (fun h => e h.symm)]
      omega

theorem slots_none (o : Obj) : slots N (fun _ => none) o = 0 := by
  simp [slots]

theorem slots_set {tab : Fd → Option Obj} {k : Nat} {p : Obj} (hk : k < N) (h : tab k = none)
    (o : Obj) :
    slots N (set tab k (some p)) o = slots N tab o + (if p = o then 1 else 0) := by
  have := FdConc.filter_change hk (fun fd => decide (tab fd = some o))
    (fun fd => decide (set tab k (some p) fd = some o))
    (fun i hi => by simp [FdConc.set_ne _ _ hi])
  simp only [FdConc.set_same, h] at this
  simp only [slots]
  simp at this
  exact this

theorem act_pc {s : FdConc.St} {t u : Tid} (h : s.pc u = .idle) (hne : u ≠ t) :
    (FdConc.act N s (.run t)).pc u = .idle := by
  simp only [FdConc.act]
  cases hg : FdConc.go N s t with
  | none => exact h
  | some r =>
    obtain ⟨s', o⟩ := r
    have : s'.pc u = s.pc u := by
      simp only [FdConc.go] at hg
      repeat' split at hg
      all_goals first
        | (simp only [Option.some.injEq, Prod.mk.injEq] at hg
           obtain ⟨rfl, _⟩ := hg
           exact FdConc.set_ne _ _ hne)
        | cases hg
    simp only [this, h]

theorem act_idle {N : Nat} {s : FdConc.St} {u : Tid} (h : s.pc u = .idle) :
    (FdConc.act N s (.run u)).pc u = .idle := by
  simp [FdConc.act, FdConc.go, h]

theorem enter_pc {s : FdConc.St} {t u : Tid} {op : FdConc.Op} (h : s.pc u = .idle)
    (hne : u ≠ t) : (FdConc.act N s (.enter t op)).pc u = .idle := by
  simp only [FdConc.act]
  split
  · cases op <;> simp only [FdConc.begin]
    case' dup2 => split
    all_goals first | exact h | (simp only [FdConc.set_ne _ _ hne]; exact h)
  · exact h

theorem run_pc {s : FdConc.St} {t u : Tid} (h : s.pc u = .idle) :
    (FdConc.act N s (.run t)).pc u = .idle := by
  by_cases e : u = t
  · subst e; exact act_idle (N := N) h
  · exact act_pc h e

theorem Inv.atRest (val : Fd → Option Obj) : Inv N (atRest N val) := by
  constructor <;> simp [FdFork.atRest, kids]

/-- A copying step, by cases. -/
theorem copyStep_cases {s s' : St} {t : Tid} {c k : Nat}
    (h : copyStep N nl s t c k = some s') :
    (k < N ∧ s.base.wr k = none ∧ s.base.val k = none
        ∧ s' = { s with forks := set s.forks t (some (c, k + 1)) })
    ∨ (∃ o, k < N ∧ s.base.wr k = none ∧ s.base.val k = some o ∧ nl o = true ∧ s.refs o ≤ 0
        ∧ s' = { s with forks := set s.forks t none, dead := set s.dead t true })
    ∨ (∃ o, k < N ∧ s.base.wr k = none ∧ s.base.val k = some o ∧ ¬ (nl o = true ∧ s.refs o ≤ 0)
        ∧ s' = { s with
            forks := set s.forks t (some (c, k + 1))
            kid := set s.kid c (set (s.kid c) k (some o))
            extra := set s.extra o (s.extra o + 1) })
    ∨ (N ≤ k ∧ s' = { s with forks := set s.forks t none, born := set s.born c true }) := by
  simp only [copyStep] at h
  split at h
  · split at h
    · split at h
      · cases h; exact .inl ⟨by assumption, by assumption, by assumption, rfl⟩
      · rename_i o ho
        split at h
        · rename_i hh
          simp only [Bool.and_eq_true, decide_eq_true_eq] at hh
          cases h
          exact .inr (.inl ⟨o, by assumption, by assumption, ho, hh.1, hh.2, rfl⟩)
        · rename_i hh
          simp only [Bool.and_eq_true, decide_eq_true_eq] at hh
          cases h
          exact .inr (.inr (.inl ⟨o, by assumption, by assumption, ho, hh, rfl⟩))
    · cases h
  · rename_i hk; cases h; exact .inr (.inr (.inr ⟨Nat.le_of_not_lt hk, rfl⟩))

theorem Inv.copyStep {s s' : St} (h : Inv N s) {t : Tid} {c k : Nat}
    (ht : s.forks t = some (c, k)) (hs : copyStep N nl s t c k = some s') : Inv N s' := by
  obtain ⟨lt, uniq, empty, idle, dead, notyet, extra, beyond⟩ := h
  have hc := copyStep_cases hs
  have hlt := lt t c k ht
  have hu : ∀ u k', u ≠ t → s.forks u ≠ some (c, k') := fun u k' hne e => hne (uniq _ _ _ _ _ e ht)
  have he : ∀ fd, k ≤ fd → s.kid c fd = none := fun fd => empty t c k fd ht
  have hkid : ∀ o c' fd, set s.kid c (set (s.kid c) k (some o)) c' fd
      = if c' = c ∧ fd = k then some o else s.kid c' fd := by
    intro o c' fd
    by_cases h1 : c' = c
    · subst h1
      rw [FdConc.set_same]
      by_cases h2 : fd = k
      · subst h2; simp [FdConc.set_same]
      · simp [FdConc.set_ne _ _ h2, h2]
    · simp [FdConc.set_ne _ _ h1, h1]
  clear hs
  rcases hc with ⟨hk, _, _, rfl⟩ | ⟨o, hk, _, _, _, _, rfl⟩ | ⟨o, hk, _, _, _, rfl⟩
    | ⟨hk, rfl⟩
  · constructor <;> simp only [FdConc.set]
    · grind
    · grind
    · grind
    · grind
    · grind
    · exact notyet
    · exact extra
    · exact beyond
  · constructor <;> simp only [FdConc.set]
    · grind
    · grind
    · grind
    · grind
    · grind
    · exact notyet
    · exact extra
    · exact beyond
  · constructor
    · simp only [FdConc.set]; grind
    · simp only [FdConc.set]; grind
    · intro u d j fd
      simp only [hkid]
      simp only [FdConc.set]
      grind
    · simp only [FdConc.set]; grind
    · simp only [FdConc.set]; grind
    · simp only [FdConc.set]; grind
    · intro p
      have h1 := kids_change (N := N) (k := s.kid) (k' := set s.kid c (set (s.kid c) k (some o)))
        (o := p) hlt.1 (fun d hd => (FdConc.set_ne _ _ hd).symm)
      rw [FdConc.set_same, slots_set hk (empty t c k k ht (Nat.le_refl k))] at h1
      dsimp only
      by_cases e : p = o
      · subst e
        rw [FdConc.set_same, extra p]
        simp only [if_true] at h1
        omega
      · rw [FdConc.set_ne _ _ e, extra p]
        rw [if_neg (fun h => e h.symm)] at h1
        omega
    · intro d fd
      simp only [hkid]
      grind
  · constructor <;> simp only [FdConc.set]
    · grind
    · grind
    · grind
    · grind
    · grind
    · grind
    · exact extra
    · exact beyond

theorem Inv.act {s : St} (h : Inv N s) (a : Act) : Inv N (act N nl s a) := by
  cases a with
  | call a =>
    obtain ⟨lt, uniq, empty, idle, dead, notyet, extra, beyond⟩ := h
    cases a with
    | enter t op =>
      simp only [FdFork.act]
      split
      · rename_i hi
        simp only [St.idle, Bool.and_eq_true, decide_eq_true_eq, Bool.not_eq_true'] at hi
        refine ⟨lt, uniq, empty, ?_, ?_, notyet, extra, beyond⟩
        · intro u hu
          exact enter_pc (N := N) (idle u hu) (fun e => by subst e; exact hu hi.1.2)
        · intro u hu
          exact ⟨enter_pc (N := N) (dead u hu).1 (fun e => by subst e; rw [hi.2] at hu; cases hu),
            (dead u hu).2⟩
      · exact ⟨lt, uniq, empty, idle, dead, notyet, extra, beyond⟩
    | run t =>
      exact ⟨lt, uniq, empty, fun u hu => run_pc (N := N) (idle u hu),
        fun u hu => ⟨run_pc (N := N) (dead u hu).1, (dead u hu).2⟩, notyet, extra, beyond⟩
  | fork t =>
    obtain ⟨lt, uniq, empty, idle, dead, notyet, extra, beyond⟩ := h
    simp only [FdFork.act]
    split
    · rename_i hi
      simp only [St.idle, Bool.and_eq_true, decide_eq_true_eq, Bool.not_eq_true'] at hi
      have hkid : set s.kid s.n (fun _ => none) = s.kid := by
        funext c
        by_cases e : c = s.n
        · subst e; rw [FdConc.set_same]; exact (notyet _ (Nat.le_refl _)).2.symm
        · exact FdConc.set_ne _ _ e
      rw [hkid]
      constructor <;> simp only [FdConc.set]
      · grind
      · grind
      · grind
      · grind
      · grind
      · grind
      · intro o
        rw [extra o]
        simp only [kids, (notyet _ (Nat.le_refl _)).2, slots_none, Nat.add_zero]
      · exact beyond
    · exact ⟨lt, uniq, empty, idle, dead, notyet, extra, beyond⟩
  | copy t =>
    simp only [FdFork.act]
    split
    · exact h
    · rename_i c k ht
      cases hs : FdFork.copyStep N nl s t c k with
      | none => exact h
      | some s' => exact h.copyStep ht hs

theorem Inv.exec {s : St} (h : Inv N s) (as : List Act) : Inv N (exec N nl s as) := by
  induction as generalizing s with
  | nil => exact h
  | cons a as ih => exact ih (h.act a)

/-! ## What has been copied -/

/-- Slot `i` of child `c` has been copied. -/
def copied (N : Nat) (s : St) (c : Nat) (i : Nat) : Prop :=
  (s.born c = true ∧ i < N) ∨ ∃ t k, s.forks t = some (c, k) ∧ i < k

theorem copied_le {s : St} {c : Nat} {i j : Nat} (h : copied N s c j) (hij : i ≤ j) :
    copied N s c i := by
  rcases h with ⟨h, hj⟩ | ⟨t, k, h, hj⟩
  · exact .inl ⟨h, by omega⟩
  · exact .inr ⟨t, k, h, by omega⟩

/-- One action copies at most one slot of a child, and copies what the parent has there. -/
theorem copied_act {s : St} (h : Inv N s) {c : Nat} (hc : c < s.n) (a : Act) {i : Nat}
    (hi : copied N (act N nl s a) c i) :
    (copied N s c i ∧ (act N nl s a).kid c i = s.kid c i)
    ∨ (¬ copied N s c i ∧ (act N nl s a).kid c i = s.base.val i) := by
  cases a with
  | call a =>
    cases a with
    | enter t op =>
      simp only [FdFork.act] at hi ⊢
      split at hi <;> rename_i hid
      · rw [if_pos hid]; exact .inl ⟨hi, rfl⟩
      · rw [if_neg hid]; exact .inl ⟨hi, rfl⟩
    | run t => exact .inl ⟨hi, rfl⟩
  | fork t =>
    simp only [FdFork.act] at hi ⊢
    split at hi <;> rename_i hid
    · rw [if_pos hid]
      refine .inl ⟨?_, by dsimp only; rw [FdConc.set_ne _ _ (Nat.ne_of_lt hc)]⟩
      rcases hi with hi | ⟨u, k, hu, hk⟩
      · exact .inl hi
      · refine .inr ⟨u, k, ?_, hk⟩
        dsimp only at hu
        by_cases e : u = t
        · subst e
          rw [FdConc.set_same] at hu
          simp only [Option.some.injEq, Prod.mk.injEq] at hu
          omega
        · rwa [FdConc.set_ne _ _ e] at hu
    · rw [if_neg hid]; exact .inl ⟨hi, rfl⟩
  | copy t =>
    simp only [FdFork.act] at hi ⊢
    cases ht : s.forks t with
    | none => rw [ht] at hi; exact .inl ⟨hi, rfl⟩
    | some ck =>
      obtain ⟨d, k⟩ := ck
      rw [ht] at hi
      dsimp only at hi ⊢
      have hkN := h.lt t d k ht
      have hem := h.empty t d k
      cases hs : FdFork.copyStep N nl s t d k with
      | none => rw [hs] at hi; exact .inl ⟨hi, rfl⟩
      | some s' =>
        rw [hs] at hi
        simp only [Option.getD_some] at hi ⊢
        -- the forks of other children are not touched
        have hun : ∀ u k', s.forks u = some (d, k') → u = t ∧ k' = k := by
          intro u k' hu
          have := h.uniq u t d k' k hu ht
          subst this
          rw [ht] at hu
          simp only [Option.some.injEq, Prod.mk.injEq, true_and] at hu
          exact ⟨rfl, hu.symm⟩
        have hnot : ¬ copied N s d k := by
          rintro (⟨hb, _⟩ | ⟨u, k', hu, hlt⟩)
          · rw [hkN.2.1] at hb; cases hb
          · have := hun u k' hu; omega
        have hold : ∀ s'' : St, s''.forks = set s.forks t (some (d, k + 1)) → s''.born = s.born →
            copied N s'' c i → copied N s c i ∨ (c = d ∧ i = k) := by
          intro s'' hf hb hcp
          rcases hcp with ⟨hbc, hN⟩ | ⟨u, k', hu, hlt⟩
          · exact .inl (.inl ⟨by rw [← hb]; exact hbc, hN⟩)
          · rw [hf] at hu
            by_cases e : u = t
            · subst e
              rw [FdConc.set_same] at hu
              simp only [Option.some.injEq, Prod.mk.injEq] at hu
              obtain ⟨rfl, rfl⟩ := hu
              by_cases ek : i = k
              · exact .inr ⟨rfl, ek⟩
              · exact .inl (.inr ⟨u, k, ht, by omega⟩)
            · rw [FdConc.set_ne _ _ e] at hu
              exact .inl (.inr ⟨u, k', hu, hlt⟩)
        rcases copyStep_cases hs with ⟨hk, _, hv, rfl⟩ | ⟨o, hk, _, _, _, _, rfl⟩
          | ⟨o, hk, _, hv, _, rfl⟩ | ⟨hk, rfl⟩
        · rcases hold _ (by rfl) (by rfl) hi with hcp | ⟨rfl, rfl⟩
          · exact .inl ⟨hcp, rfl⟩
          · refine .inr ⟨hnot, ?_⟩
            dsimp only
            rw [hv]; exact h.empty t c i i ht (Nat.le_refl i)
        · refine .inl ⟨?_, rfl⟩
          rcases hi with hi | ⟨u, k', hu, hlt⟩
          · exact .inl hi
          · dsimp only at hu
            by_cases e : u = t
            · subst e; rw [FdConc.set_same] at hu; cases hu
            · rw [FdConc.set_ne _ _ e] at hu
              exact .inr ⟨u, k', hu, hlt⟩
        · rcases hold _ (by rfl) (by rfl) hi with hcp | ⟨rfl, rfl⟩
          · refine .inl ⟨hcp, ?_⟩
            dsimp only
            by_cases e : c = d
            · subst e
              rw [FdConc.set_same]
              apply FdConc.set_ne
              intro e; subst e; exact hnot hcp
            · rw [FdConc.set_ne _ _ e]
          · refine .inr ⟨hnot, ?_⟩
            dsimp only
            rw [FdConc.set_same, FdConc.set_same, hv]
        · refine .inl ⟨?_, rfl⟩
          rcases hi with ⟨hb, hN⟩ | ⟨u, k', hu, hlt⟩
          · dsimp only at hb
            by_cases e : c = d
            · subst e; exact .inr ⟨t, k, ht, by omega⟩
            · rw [FdConc.set_ne _ _ e] at hb; exact .inl ⟨hb, hN⟩
          · dsimp only at hu
            by_cases e : u = t
            · subst e; rw [FdConc.set_same] at hu; cases hu
            · rw [FdConc.set_ne _ _ e] at hu
              exact .inr ⟨u, k', hu, hlt⟩

theorem act_n {s : St} (a : Act) : s.n ≤ (act N nl s a).n := by
  cases a with
  | call a =>
    cases a with
    | enter t op => simp only [FdFork.act]; split <;> simp
    | run t => simp [FdFork.act]
  | fork t => simp only [FdFork.act]; split <;> simp
  | copy t =>
    simp only [FdFork.act]
    split
    · exact Nat.le_refl _
    · cases hs : FdFork.copyStep N nl s t _ _ with
      | none => exact Nat.le_refl _
      | some s' =>
        rcases copyStep_cases hs with ⟨_, _, _, rfl⟩ | ⟨o, _, _, _, _, _, rfl⟩
          | ⟨o, _, _, _, _, rfl⟩ | ⟨_, rfl⟩ <;> exact Nat.le_refl _

theorem exec_n {s : St} (as : List Act) : s.n ≤ (exec N nl s as).n := by
  induction as generalizing s with
  | nil => exact Nat.le_refl _
  | cons a as ih => exact Nat.le_trans (act_n a) ih

theorem exec_snoc (s : St) (as : List Act) (a : Act) :
    exec N nl s (as ++ [a]) = act N nl (exec N nl s as) a := by
  simp [exec, List.foldl_append]

/-- A list either is empty or has a last element. -/
theorem snoc_ind {α : Type} {P : List α → Prop} (h0 : P [])
    (h1 : ∀ l a, P l → P (l ++ [a])) (l : List α) : P l := by
  rw [← List.reverse_reverse l]
  induction l.reverse with
  | nil => exact h0
  | cons a l ih => rw [List.reverse_cons]; exact h1 _ _ ih

open Classical in
/-- The moments at which the slots of child `c` were copied. -/
theorem moments {s : St} (h : Inv N s) {c : Nat} (hc : c < s.n) (h0 : ∀ i, ¬ copied N s c i)
    (as : List Act) :
    ∃ m : Nat → Nat, (∀ i j, i ≤ j → m i ≤ m j) ∧ (∀ i, m i ≤ as.length)
      ∧ ∀ i, copied N (exec N nl s as) c i →
          (exec N nl s as).kid c i = (exec N nl s (as.take (m i))).base.val i := by
  induction as using snoc_ind with
  | h0 => exact ⟨fun _ => 0, fun _ _ _ => Nat.le_refl _, fun _ => Nat.le_refl _,
      fun i hi => absurd hi (h0 i)⟩
  | h1 as a ih =>
    obtain ⟨m, hm, hl, hv⟩ := ih
    have hi := h.exec (nl := nl) as
    have hcn : c < (exec N nl s as).n := Nat.lt_of_lt_of_le hc (exec_n as)
    refine ⟨fun i => if copied N (exec N nl s as) c i then m i else as.length, ?_, ?_, ?_⟩
    · intro i j hij
      dsimp only
      by_cases hj : copied N (exec N nl s as) c j
      · rw [if_pos hj, if_pos (copied_le hj hij)]; exact hm i j hij
      · rw [if_neg hj]
        split
        · exact hl i
        · exact Nat.le_refl _
    · intro i
      dsimp only
      rw [List.length_append]
      split
      · have := hl i; omega
      · omega
    · intro i hcp
      dsimp only
      rw [exec_snoc] at hcp ⊢
      rcases copied_act hi hcn a hcp with ⟨h1, h2⟩ | ⟨h1, h2⟩
      · rw [if_pos h1, h2, hv i h1, List.take_append_of_le_length (hl i)]
      · rw [if_neg h1, h2, List.take_left]

end Verif.FdFork
