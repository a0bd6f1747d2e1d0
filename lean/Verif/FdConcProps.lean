import Verif.FdConc

/-!
# The descriptor table under concurrent calls: C61
-/

namespace Verif.FdConc

/-! ## Specification -/

/-- States some schedule leads to from a cage at rest. -/
def Reach (N : Nat) (s : St) : Prop :=
  ∃ (val : Fd → Option Obj) (as : List Act), s = exec N (atRest N val) as

/-- The descriptors a thread's call was given by its caller. -/
def names : Pc → List Fd
  | .idle => []
  | .scan _ _ h | .store _ _ h => h.toList
  | .dupLock old _ => [old]
  | .dup2Lock old new | .dup2Probe old new _ | .dup2Close old new _ | .dup2Put old new _ =>
    [old, new]
  | .closeInner fd | .closeTake fd | .useLock fd | .using fd => [fd]

/-- The descriptors a thread's call closes. -/
def kills : Pc → List Fd
  | .dup2Lock _ new | .dup2Probe _ new _ | .dup2Close _ new _ | .dup2Put _ new _ => [new]
  | .closeInner fd | .closeTake fd => [fd]
  | .idle | .scan .. | .store .. | .dupLock .. | .useLock _ | .using _ => []

/-- The same for a call about to start. -/
def Op.names : Op → List Fd
  | .openObj _ => []
  | .dup old _ => [old]
  | .dup2 old new => [old, new]
  | .close fd | .use fd => [fd]

def Op.kills : Op → List Fd
  | .dup2 _ new => [new]
  | .close fd => [fd]
  | .openObj _ | .dup .. | .use _ => []

/-- Disciplined use: nobody closes a descriptor another thread is working on, nobody starts on a
descriptor another thread is closing, and `dup2` is only used onto a descriptor in use. -/
def Disciplined (s : St) : Act → Prop
  | .run _ => True
  | .enter t op =>
    (∀ u, u ≠ t → (∀ fd, fd ∈ op.kills → fd ∉ FdConc.names (s.pc u))
      ∧ (∀ fd, fd ∈ op.names → fd ∉ FdConc.kills (s.pc u)))
    ∧ (∀ old new, op = .dup2 old new → s.val new ≠ none)

/-- States disciplined schedules lead to. -/
inductive ReachD (N : Nat) : St → Prop
  | rest (val : Fd → Option Obj) : ReachD N (atRest N val)
  | step {s : St} (a : Act) : ReachD N s → Disciplined s a → ReachD N (act N s a)

/-- How many descriptors hold an object. -/
def count (N : Nat) (s : St) (o : Obj) : Nat :=
  ((List.range N).filter fun fd => s.val fd = some o).length

/-! ## Invariant of the locks -/

theorem set_same {α : Type} (f : Nat → α) (k : Nat) (v : α) : set f k v k = v := by simp [set]
theorem set_ne {α : Type} (f : Nat → α) {k i : Nat} (v : α) (h : i ≠ k) : set f k v i = f i := by
  simp [set, h]

/-- Does a thread at this point hold the write lock of `fd`? -/
def holds : Pc → Fd → Prop
  | .scan _ _ h, fd => h = some fd
  | .store f _ h, fd => f = fd ∨ h = some fd
  | .dup2Probe old _ _, fd | .dup2Close old _ _, fd | .dup2Put old _ _, fd => old = fd
  | .idle, _ | .dupLock .., _ | .dup2Lock .., _ | .closeInner _, _ | .closeTake _, _
  | .useLock _, _ | .using _, _ => False

structure Inv (N : Nat) (s : St) : Prop where
  w : ∀ t fd, s.wr fd = some t ↔ holds (s.pc t) fd
  r : ∀ t fd, t ∈ s.rd fd ↔ s.pc t = .using fd
  x : ∀ t fd, t ∈ s.rd fd → s.wr fd = none
  e : ∀ t fd o h, s.pc t = .store fd o h → s.val fd = none ∧ fd < N ∧ h ≠ some fd

theorem free_iff {s : St} {fd : Fd} : s.free fd = true ↔ s.wr fd = none ∧ s.rd fd = [] := by
  simp [St.free]

theorem Inv.atRest (N : Nat) (val : Fd → Option Obj) : Inv N (atRest N val) := by
  constructor <;> simp [FdConc.atRest, holds]

theorem Inv.begin {N : Nat} {s : St} (h : Inv N s) {t : Tid} (ht : s.pc t = .idle) (op : Op) :
    Inv N (begin s t op) := by
  obtain ⟨w, r, x, e⟩ := h
  have wt : ∀ fd, s.wr fd ≠ some t := fun fd hh => by
    have := (w t fd).mp hh; rw [ht] at this; exact this
  have rt : ∀ fd, t ∉ s.rd fd := fun fd hh => by
    have := (r t fd).mp hh; rw [ht] at this; cases this
  cases op <;> simp only [FdConc.begin] <;> (try split) <;> (try exact ⟨w, r, x, e⟩) <;>
    constructor <;> simp only [set] <;> grind [holds]

theorem Inv.go {N : Nat} {s s' : St} {t : Tid} {o : Out} (h : Inv N s)
    (hg : go N s t = some (s', o)) : Inv N s' := by
  obtain ⟨w, r, x, e⟩ := h
  have wt := w t
  have rt := r t
  have ws : ∀ t fd o h, s.pc t = .store fd o h → s.wr fd = some t :=
    fun t fd o h hp => (w t fd).mpr (by simp [hp, holds])
  unfold FdConc.go at hg
  split at hg <;> rename_i hpc <;> simp only [hpc] at wt rt
  · simp at hg
  · split at hg
    · simp only [Option.some.injEq, Prod.mk.injEq] at hg
      obtain ⟨rfl, rfl⟩ := hg
      rename_i held _
      cases held <;> constructor <;> simp only [set, drop?] <;> grind [holds]
    · split at hg
      · simp only [Option.some.injEq, Prod.mk.injEq] at hg
        obtain ⟨rfl, rfl⟩ := hg
        rename_i hN hf
        simp only [Bool.and_eq_true, free_iff, Option.isNone_iff_eq_none] at hf
        constructor <;> simp only [set] <;> grind [holds]
      · simp only [Option.some.injEq, Prod.mk.injEq] at hg
        obtain ⟨rfl, rfl⟩ := hg
        constructor <;> simp only [set] <;> grind [holds]
  · simp only [Option.some.injEq, Prod.mk.injEq] at hg
    obtain ⟨rfl, rfl⟩ := hg
    rename_i held
    cases held <;> constructor <;> simp only [set, drop?] <;> grind [holds]
  all_goals (try split at hg) <;> (try (simp at hg; done)) <;> (try split at hg) <;>
    simp only [Option.some.injEq, Prod.mk.injEq] at hg <;> obtain ⟨rfl, rfl⟩ := hg <;>
    (try simp only [free_iff] at *) <;> constructor <;> simp only [set] <;> grind [holds]

theorem Inv.act {N : Nat} {s : St} (h : Inv N s) (a : Act) : Inv N (act N s a) := by
  cases a with
  | enter t op =>
    simp only [FdConc.act]
    split
    · exact h.begin (by assumption) op
    · exact h
  | run t =>
    simp only [FdConc.act]
    split
    · exact h.go (by assumption)
    · exact h

theorem Reach.inv {N : Nat} {s : St} (h : Reach N s) : Inv N s := by
  obtain ⟨val, as, rfl⟩ := h
  have : ∀ (as : List Act) (s : St), Inv N s → Inv N (exec N s as) := by
    intro as
    induction as with
    | nil => intro s h; exact h
    | cons a as ih => intro s h; exact ih _ (h.act a)
  exact this as _ (Inv.atRest N val)

theorem ReachD.reach {N : Nat} {s : St} (h : ReachD N s) : Reach N s := by
  induction h with
  | rest val => exact ⟨val, [], rfl⟩
  | step a _ _ ih =>
    obtain ⟨val, as, rfl⟩ := ih
    exact ⟨val, as ++ [a], by simp [exec]⟩

/-! ## Allocation -/

/-- Under every schedule: a call that is about to hand out descriptor `fd` owns that slot alone:
the slot is empty and in range, and no other call is about to hand out the same number. -/
theorem alloc_exclusive {N : Nat} {s : St} (h : Reach N s) {t : Tid} {fd : Fd} {o : Obj}
    {held : Option Fd} (hp : s.pc t = .store fd o held) :
    s.val fd = none ∧ fd < N ∧ ∀ u o' held', s.pc u = .store fd o' held' → u = t := by
  have i := h.inv
  refine ⟨(i.e t fd o held hp).1, (i.e t fd o held hp).2.1, ?_⟩
  intro u o' held' hu
  have h1 := (i.w t fd).mpr (by simp [hp, holds])
  have h2 := (i.w u fd).mpr (by simp [hu, holds])
  rw [h1] at h2
  exact (Option.some.inj h2).symm

/-- Under every schedule: whatever step any thread takes, a descriptor in use keeps its object
unless that thread's own call is a close of it or a dup2 onto it; and a descriptor returned by
open or dup was free until then and now holds the new object. -/
theorem step_frame {N : Nat} {s s' : St} (h : Reach N s) {t : Tid} {out : Out}
    (hg : go N s t = some (s', out)) :
    (∀ fd, s.val fd ≠ none → fd ∉ kills (s.pc t) → s'.val fd = s.val fd)
    ∧ (∀ fd, out = .fd fd → kills (s.pc t) = [] → s.val fd = none ∧ s'.val fd ≠ none
        ∧ ∀ i, i ≠ fd → s'.val i = s.val i) := by
  have i := h.inv
  unfold go at hg
  split at hg <;> rename_i hpc <;> (try simp only [hpc, kills])
  case h_3 =>
    have hv := (i.e _ _ _ _ hpc).1
    simp only [Option.some.injEq, Prod.mk.injEq] at hg
    obtain ⟨rfl, rfl⟩ := hg
    simp only [set]
    grind
  all_goals (try (simp at hg; done)) <;> (try split at hg) <;> (try (simp at hg; done)) <;>
    (try split at hg) <;>
    simp only [Option.some.injEq, Prod.mk.injEq] at hg <;> obtain ⟨rfl, rfl⟩ := hg <;>
    simp only [set] <;> grind

/-! ## Disciplined schedules -/

/-- The slot a call has released the object of but not emptied or overwritten yet. -/
def halfPc : Pc → Option Fd
  | .closeTake fd | .dup2Put _ fd _ => some fd
  | .idle | .scan .. | .store .. | .dupLock .. | .dup2Lock .. | .dup2Probe .. | .dup2Close ..
  | .closeInner _ | .useLock _ | .using _ => none

/-- Some call is between releasing and emptying this slot. -/
def half (s : St) (fd : Fd) : Prop := ∃ t, halfPc (s.pc t) = some fd

open Classical in
/-- Number of descriptors that own a reference to the object. -/
noncomputable def owners (N : Nat) (s : St) (o : Obj) : Nat :=
  ((List.range N).filter fun fd => decide (s.val fd = some o ∧ ¬ half s fd)).length

/-- Objects remembered by calls. -/
def src : Pc → Option (Fd × Obj)
  | .scan _ o h | .store _ o h => h.map fun f => (f, o)
  | .dup2Probe old _ o | .dup2Close old _ o | .dup2Put old _ o => some (old, o)
  | .idle | .dupLock .. | .dup2Lock .. | .closeInner _ | .closeTake _ | .useLock _ | .using _ =>
    none

structure InvD (N : Nat) (s : St) : Prop extends Inv N s where
  sup : ∀ fd, s.val fd ≠ none → fd < N
  d1 : ∀ t u fd, t ≠ u → fd ∈ kills (s.pc t) → fd ∉ names (s.pc u)
  d2 : ∀ t fd, fd ∈ kills (s.pc t) → (∀ f, s.pc t ≠ .closeInner f) → s.val fd ≠ none
  d3 : ∀ t fd o, src (s.pc t) = some (fd, o) → s.val fd = some o
  d4 : ∀ t fd o, src (s.pc t) = some (fd, o) → fd ∉ kills (s.pc t)
  d5 : ∀ t old new, s.pc t = .dup2Lock old new → old ≠ new
  refs : ∀ o, s.refs o = owners N s o

theorem filter_change {N k : Nat} (hk : k < N) (p q : Nat → Bool)
    (h : ∀ i, i ≠ k → p i = q i) :
    ((List.range N).filter q).length + (if p k then 1 else 0)
      = ((List.range N).filter p).length + (if q k then 1 else 0) := by
  have same : ∀ M, M ≤ k → (List.range M).filter q = (List.range M).filter p := by
    intro M hM
    apply List.filter_congr
    intro i hi
    rw [List.mem_range] at hi
    rw [h i (by omega)]
  induction N with
  | zero => omega
  | succ N ih =>
    rw [List.range_succ, List.filter_append, List.filter_append, List.length_append,
      List.length_append]
    by_cases hkN : k = N
    · subst hkN
      rw [same k (Nat.le_refl k)]
      simp only [List.filter_cons, List.filter_nil]
      cases p k <;> cases q k <;> simp
    · have := ih (by omega)
      have e : p N = q N := h N (fun h => hkN h.symm)
      simp only [List.filter_cons, List.filter_nil, e]
      omega

theorem owners_same {N : Nat} {s s' : St} {o : Obj}
    (h : ∀ fd, (s.val fd = some o ∧ ¬ half s fd) ↔ (s'.val fd = some o ∧ ¬ half s' fd)) :
    owners N s' o = owners N s o := by
  unfold owners
  congr 1
  apply List.filter_congr
  intro i _
  exact decide_eq_decide.mpr (h i).symm

open Classical in
theorem owners_diff {N k : Nat} (hk : k < N) {s s' : St} {o : Obj}
    (h : ∀ fd, fd ≠ k →
      ((s.val fd = some o ∧ ¬ half s fd) ↔ (s'.val fd = some o ∧ ¬ half s' fd))) :
    owners N s' o + (if s.val k = some o ∧ ¬ half s k then 1 else 0)
      = owners N s o + (if s'.val k = some o ∧ ¬ half s' k then 1 else 0) := by
  unfold owners
  have := filter_change hk (fun fd => decide (s.val fd = some o ∧ ¬ half s fd))
    (fun fd => decide (s'.val fd = some o ∧ ¬ half s' fd)) (fun i hi => decide_eq_decide.mpr (h i hi))
  simpa only [decide_eq_true_eq] using this

theorem owners_pos {N k : Nat} {s : St} {o : Obj} (hk : k < N) (h1 : s.val k = some o)
    (h2 : ¬ half s k) : 1 ≤ owners N s o := by
  unfold owners
  apply Nat.succ_le_of_lt
  apply List.length_pos_of_mem (a := k)
  rw [List.mem_filter, List.mem_range]
  exact ⟨hk, by simp [h1, h2]⟩

theorem half_iff {s : St} {t : Tid} {fd : Fd} :
    half s fd ↔ halfPc (s.pc t) = some fd ∨ ∃ u, u ≠ t ∧ halfPc (s.pc u) = some fd := by
  constructor
  · rintro ⟨u, hu⟩
    by_cases h : u = t
    · subst h; exact .inl hu
    · exact .inr ⟨u, h, hu⟩
  · rintro (h | ⟨u, _, hu⟩)
    · exact ⟨t, h⟩
    · exact ⟨u, hu⟩

theorem half_set {s s' : St} {t : Tid} {p : Pc} {fd : Fd} (hpc : s'.pc = set s.pc t p) :
    half s' fd ↔ halfPc p = some fd ∨ ∃ u, u ≠ t ∧ halfPc (s.pc u) = some fd := by
  rw [half_iff (t := t), hpc, set_same]
  constructor
  · rintro (h | ⟨u, hu, h⟩)
    · exact .inl h
    · rw [set_ne _ _ hu] at h; exact .inr ⟨u, hu, h⟩
  · rintro (h | ⟨u, hu, h⟩)
    · exact .inl h
    · refine .inr ⟨u, hu, ?_⟩; rw [set_ne _ _ hu]; exact h

theorem half_kills {p : Pc} {fd : Fd} (h : halfPc p = some fd) : fd ∈ kills p := by
  cases p <;> simp_all [halfPc, kills]

theorem kills_names {p : Pc} {fd : Fd} (h : fd ∈ kills p) : fd ∈ names p := by
  cases p <;> simp_all [names, kills]

theorem src_names {p : Pc} {fd : Fd} {o : Obj} (h : src p = some (fd, o)) : fd ∈ names p := by
  cases p <;> simp_all [names, src] <;> (obtain ⟨a, rfl, rfl, _⟩ := h; rfl)

/-- A slot `t` is closing is not half closed by anybody else. -/
theorem InvD.alone {N : Nat} {s : St} (h : InvD N s) {t : Tid} {fd : Fd}
    (hk : fd ∈ kills (s.pc t)) : ¬ ∃ u, u ≠ t ∧ halfPc (s.pc u) = some fd := by
  rintro ⟨u, hu, hh⟩
  exact h.d1 t u fd (fun h => hu h.symm) hk (kills_names (half_kills hh))

theorem InvD.atRest (N : Nat) (val : Fd → Option Obj) : InvD N (atRest N val) := by
  refine ⟨Inv.atRest N val, ?_, ?_, ?_, ?_, ?_, ?_, ?_⟩
  · intro fd; simp only [FdConc.atRest]; split <;> simp_all
  · simp [FdConc.atRest, kills]
  · simp [FdConc.atRest, kills]
  · simp [FdConc.atRest, src]
  · simp [FdConc.atRest, src]
  · simp [FdConc.atRest]
  · intro o
    simp only [FdConc.atRest, owners]
    congr 2
    apply List.filter_congr
    intro i hi
    rw [List.mem_range] at hi
    simp [half, halfPc, hi]

theorem InvD.begin {N : Nat} {s : St} (h : InvD N s) {t : Tid} (ht : s.pc t = .idle) (op : Op)
    (hd : Disciplined s (.enter t op)) : InvD N (begin s t op) := by
  have hi := h.toInv.begin ht op
  have hh := hd.1
  have hv := hd.2
  have hown : ∀ p : Pc, halfPc p = none → ∀ o,
      owners N { s with pc := set s.pc t p } o = owners N s o := by
    intro p hp o
    apply owners_same
    intro fd
    rw [half_set (s := s) (s' := { s with pc := set s.pc t p }) (p := p) (t := t) rfl, half_iff (s := s) (t := t)]
    have e : halfPc .idle = none := rfl
    simp only [ht, hp, e]
  obtain ⟨_, sup, d1, d2, d3, d4, d5, refs⟩ := h
  cases op <;> simp only [FdConc.begin] at hi ⊢
  case' dup2 => split <;> rename_i hne <;> simp only [hne, if_true, if_false] at hi
  case dup2.isTrue => exact ⟨hi, sup, d1, d2, d3, d4, d5, refs⟩
  all_goals
    refine ⟨hi, sup, ?_, ?_, ?_, ?_, ?_, ?_⟩
    · simp only [set]; grind [names, kills, Op.names, Op.kills, kills_names]
    · simp only [set]; grind [names, kills, Op.names, Op.kills]
    · simp only [set]; grind [src]
    · simp only [set]; grind [src, kills]
    · simp only [set]; grind
    · intro o; rw [hown _ (by rfl)]; exact refs o

/-- Lock and bookkeeping clauses of the invariant, for a step that leaves the table alone. -/
theorem InvD.go_pc {N : Nat} {s s' : St} (h : InvD N s) {t : Tid} {p : Pc}
    (hi : Inv N s') (hpc : s'.pc = set s.pc t p) (hval : s'.val = s.val)
    (hn : ∀ fd, fd ∈ names p → fd ∈ names (s.pc t))
    (hk : ∀ fd, fd ∈ kills p → fd ∈ kills (s.pc t))
    (hv : ∀ fd, fd ∈ kills p → (∀ f, p ≠ .closeInner f) → s.val fd ≠ none)
    (hs : ∀ fd o, src p = some (fd, o) → s.val fd = some o ∧ fd ∉ kills p)
    (hl : ∀ old new, p ≠ .dup2Lock old new)
    (hr : ∀ o, s'.refs o = owners N s' o) : InvD N s' := by
  obtain ⟨_, sup, d1, d2, d3, d4, d5, refs⟩ := h
  refine ⟨hi, ?_, ?_, ?_, ?_, ?_, ?_, hr⟩
  · rw [hval]; exact sup
  · rw [hpc]; intro u v fd huv hku hnv
    by_cases hu : u = t <;> by_cases hv : v = t
    · exact huv (hu.trans hv.symm)
    · subst hu
      rw [set_same] at hku; rw [set_ne _ _ hv] at hnv
      exact d1 u v fd huv (hk fd hku) hnv
    · subst hv
      rw [set_ne _ _ hu] at hku; rw [set_same] at hnv
      exact d1 u v fd huv hku (hn fd hnv)
    · rw [set_ne _ _ hu] at hku; rw [set_ne _ _ hv] at hnv
      exact d1 u v fd huv hku hnv
  · rw [hpc, hval]; intro u fd
    by_cases hu : u = t
    · subst hu; rw [set_same]; exact hv fd
    · rw [set_ne _ _ hu]; exact d2 u fd
  · rw [hpc, hval]; intro u fd o
    by_cases hu : u = t
    · subst hu; rw [set_same]; exact fun h => (hs fd o h).1
    · rw [set_ne _ _ hu]; exact d3 u fd o
  · rw [hpc]; intro u fd o
    by_cases hu : u = t
    · subst hu; rw [set_same]; exact fun h => (hs fd o h).2
    · rw [set_ne _ _ hu]; exact d4 u fd o
  · rw [hpc]; intro u old new
    by_cases hu : u = t
    · subst hu; rw [set_same]; exact fun h => absurd h (hl old new)
    · rw [set_ne _ _ hu]; exact d5 u old new

theorem owners_pc {N : Nat} {s s' : St} {t : Tid} {p : Pc}
    (hpc : s'.pc = set s.pc t p) (hval : s'.val = s.val)
    (h1 : halfPc (s.pc t) = none) (h2 : halfPc p = none) (o : Obj) :
    owners N s' o = owners N s o := by
  apply owners_same
  intro fd
  rw [half_set hpc, half_iff (s := s) (t := t), hval]
  simp [h1, h2]

/-- The reference count after a call has released slot `k`. -/
theorem owners_release {N : Nat} {s s' : St} (h : InvD N s) {t : Tid} {p : Pc} {k : Fd} {x : Obj}
    (hpc : s'.pc = set s.pc t p) (hval : s'.val = s.val)
    (hx : s.val k = some x) (hk : k ∈ kills (s.pc t)) (h1 : halfPc (s.pc t) = none)
    (h2 : halfPc p = some k) (hr : s'.refs = set s.refs x (s.refs x - 1)) (o : Obj) :
    s'.refs o = owners N s' o := by
  have hN : k < N := h.sup k (by simp [hx])
  have hal := h.alone hk
  have n1 : ¬ half s k := by
    rw [half_iff (t := t)]; simp only [h1]
    rintro (hh | hh)
    · cases hh
    · exact hal hh
  have n2 : half s' k := by rw [half_set hpc]; exact .inl h2
  have := owners_diff (N := N) (o := o) hN (s := s) (s' := s') (by
    intro fd hfd
    rw [half_set hpc, half_iff (s := s) (t := t), hval]
    have e : ¬ (some k = some fd) := fun hh => hfd (Option.some.inj hh).symm
    simp [h1, h2, e])
  have hro := h.refs o
  rw [hr]
  simp only [n1, n2, hx, hval] at this
  simp only [set]
  by_cases ho : o = x
  · subst ho; simp at this; simp; omega
  · have : ¬ (some x = some o) := fun hh => ho (Option.some.inj hh).symm
    simp_all

/-- The reference count after a call has put its object into slot `k`. -/
theorem owners_put {N : Nat} {s s' : St} (h : InvD N s) {t : Tid} {k : Fd} {x : Obj}
    (hpc : s'.pc = set s.pc t .idle) (hval : s'.val = set s.val k (some x))
    (hr : s'.refs = set s.refs x (s.refs x + 1)) (hN : k < N)
    (hb : s.val k = none ∨ half s k) (ha : ¬ half s' k)
    (hp : halfPc (s.pc t) = none ∨ halfPc (s.pc t) = some k) (o : Obj) :
    s'.refs o = owners N s' o := by
  have a : halfPc .idle = none := rfl
  have := owners_diff (N := N) (o := o) hN (s := s) (s' := s') (by
    intro i hif
    have e : ¬ (some k = some i) := fun hh => hif (Option.some.inj hh).symm
    rw [half_set hpc, half_iff (s := s) (t := t), hval, set_ne _ _ hif, a]
    rcases hp with hp | hp <;> simp [hp, e])
  have hro := h.refs o
  have hb' : ¬ (s.val k = some o ∧ ¬ half s k) := by
    rcases hb with hb | hb
    · simp [hb]
    · simp [hb]
  rw [if_neg hb', hval, set_same] at this
  rw [hr]
  by_cases ho : o = x
  · subst ho
    rw [if_pos ⟨rfl, ha⟩] at this
    rw [set_same]; omega
  · have hne : ¬ (some x = some o ∧ ¬ half s' k) := fun hh => ho (Option.some.inj hh.1).symm
    rw [if_neg hne] at this
    rw [set_ne _ _ ho]; omega

theorem InvD.go {N : Nat} {s s' : St} {t : Tid} {o : Out} (h : InvD N s)
    (hg : go N s t = some (s', o)) : InvD N s' := by
  have hi := h.toInv.go hg
  have D := h
  obtain ⟨inv, sup, d1, d2, d3, d4, d5, refs⟩ := h
  have nk := d2 t
  have s3 := d3 t
  have s4 := d4 t
  have e1 : ∀ p : Pc, halfPc (s.pc t) = none → halfPc p = none → ∀ (q : St),
      q.pc = set s.pc t p → q.val = s.val → q.refs = s.refs → ∀ o, q.refs o = owners N q o := by
    intro p h1 h2 q q1 q2 q3 o
    rw [owners_pc q1 q2 h1 h2, q3]; exact refs o
  have hclr : ∀ (q : St), halfPc (s.pc t) = none → Inv N q → q.pc = set s.pc t .idle →
      q.val = s.val → q.refs = s.refs → InvD N q := by
    intro q h1 hi q1 q2 q3
    exact D.go_pc hi q1 q2 (by simp [names]) (by simp [kills]) (by simp [kills]) (by simp [src])
      (by simp) (e1 _ h1 rfl q q1 q2 q3)
  unfold FdConc.go at hg
  split at hg <;> rename_i hpc <;> simp only [hpc] at nk s3 s4 e1 hclr
  · simp at hg
  · -- scan
    split at hg
    · simp only [Option.some.injEq, Prod.mk.injEq] at hg
      obtain ⟨rfl, rfl⟩ := hg
      exact hclr _ rfl hi rfl rfl rfl
    · split at hg
      · simp only [Option.some.injEq, Prod.mk.injEq] at hg
        obtain ⟨rfl, rfl⟩ := hg
        refine D.go_pc hi rfl rfl (by simp [hpc, names]) (by simp [kills]) (by simp [kills])
          (fun fd o hs => ⟨s3 fd o hs, by simp [kills]⟩) (by simp) (e1 _ rfl rfl _ rfl rfl rfl)
      · simp only [Option.some.injEq, Prod.mk.injEq] at hg
        obtain ⟨rfl, rfl⟩ := hg
        refine D.go_pc hi rfl rfl (by simp [hpc, names]) (by simp [kills]) (by simp [kills])
          (fun fd o hs => ⟨s3 fd o hs, by simp [kills]⟩) (by simp) (e1 _ rfl rfl _ rfl rfl rfl)
  · -- store
    rename_i fd x held
    have hv := inv.e t fd x held hpc
    simp only [Option.some.injEq, Prod.mk.injEq] at hg
    obtain ⟨rfl, rfl⟩ := hg
    have hset : ∀ i, i ≠ fd → set s.val fd (some x) i = s.val i := fun i hi => set_ne _ _ hi
    refine ⟨hi, ?_, ?_, ?_, ?_, ?_, ?_, ?_⟩
    · intro i hne
      by_cases hif : i = fd
      · subst hif; exact hv.2.1
      · exact sup i (by simpa [set, hif] using hne)
    · simp only [set]; grind [names, kills]
    · intro u i; simp only [set]; grind [kills]
    · intro u i o; simp only [set]
      by_cases hu : u = t
      · simp [hu, src]
      · simp only [hu, if_false]
        intro hsrc
        have := d3 u i o hsrc
        have : i ≠ fd := by rintro rfl; rw [hv.1] at this; cases this
        simpa [this] using d3 u i o hsrc
    · intro u i o; simp only [set]; grind [src, kills]
    · simp only [set]; grind
    · intro o
      have hnh : ∀ q : St, q.pc = set s.pc t .idle → (half q fd ↔ half s fd) := by
        intro q hq
        rw [half_set hq, half_iff (s := s) (t := t), hpc]
        have a : halfPc .idle = none := rfl
        have b : halfPc (.store fd x held) = none := rfl
        simp [a, b]
      have hnf : ¬ half s fd := by
        rintro ⟨u, hu⟩
        have hku := half_kills hu
        refine d2 u fd hku ?_ hv.1
        intro f hf; rw [hf] at hu; cases hu
      exact owners_put D rfl rfl rfl hv.2.1 (.inl hv.1) (by rw [hnh _ rfl]; exact hnf)
        (.inl (by rw [hpc]; rfl)) o
  · -- dupLock
    split at hg
    · split at hg
      · simp only [Option.some.injEq, Prod.mk.injEq] at hg
        obtain ⟨rfl, rfl⟩ := hg
        exact hclr _ rfl hi rfl rfl rfl
      · rename_i x hx
        simp only [Option.some.injEq, Prod.mk.injEq] at hg
        obtain ⟨rfl, rfl⟩ := hg
        refine D.go_pc hi rfl rfl (by simp [hpc, names]) (by simp [kills]) (by simp [kills])
          (fun fd o hs => ⟨?_, by simp [kills]⟩) (by simp) (e1 _ rfl rfl _ rfl rfl rfl)
        simp only [src, Option.map_some, Option.some.injEq, Prod.mk.injEq] at hs
        obtain ⟨rfl, rfl⟩ := hs
        exact hx
    · simp at hg
  · -- dup2Lock
    rename_i old new
    have h5 := d5 t old new hpc
    split at hg
    · split at hg
      · simp only [Option.some.injEq, Prod.mk.injEq] at hg
        obtain ⟨rfl, rfl⟩ := hg
        exact hclr _ rfl hi rfl rfl rfl
      · rename_i x hx
        simp only [Option.some.injEq, Prod.mk.injEq] at hg
        obtain ⟨rfl, rfl⟩ := hg
        refine D.go_pc hi rfl rfl (by simp [hpc, names]) (by simp [hpc, kills])
          (fun fd hf _ => nk fd (by simpa [kills] using hf) (by simp))
          (fun fd o hs => ?_) (by simp) (e1 _ rfl rfl _ rfl rfl rfl)
        simp only [src, Option.some.injEq, Prod.mk.injEq] at hs
        obtain ⟨rfl, rfl⟩ := hs
        exact ⟨hx, by simpa [kills] using h5⟩
    · simp at hg
  · -- dup2Probe
    rename_i old new x
    have hne : s.val new ≠ none := nk new (by simp [kills]) (by simp)
    split at hg
    · split at hg
      · simp only [Option.some.injEq, Prod.mk.injEq] at hg
        obtain ⟨rfl, rfl⟩ := hg
        refine D.go_pc hi rfl rfl (by simp [hpc, names]) (by simp [hpc, kills])
          (fun fd hf _ => nk fd (by simpa [kills] using hf) (by simp))
          (fun fd o hs => ⟨s3 fd o (by simpa [src] using hs), ?_⟩) (by simp)
          (e1 _ rfl rfl _ rfl rfl rfl)
        simpa [kills] using s4 fd o (by simpa [src] using hs)
      · rename_i hsome
        cases hvn : s.val new with
        | none => exact absurd hvn hne
        | some v => simp [hvn] at hsome
    · simp at hg
  · -- dup2Close
    rename_i old new x
    have hne : s.val new ≠ none := nk new (by simp [kills]) (by simp)
    split at hg
    · split at hg
      · rename_i hvn; exact absurd hvn hne
      · rename_i y hy
        simp only [Option.some.injEq, Prod.mk.injEq] at hg
        obtain ⟨rfl, rfl⟩ := hg
        refine D.go_pc hi rfl rfl (by simp [hpc, names]) (by simp [hpc, kills])
          (fun fd hf _ => nk fd (by simpa [kills] using hf) (by simp))
          (fun fd o hs => ⟨s3 fd o (by simpa [src] using hs), ?_⟩) (by simp) ?_
        · simpa [kills] using s4 fd o (by simpa [src] using hs)
        · exact owners_release D rfl rfl hy (by simp [hpc, kills]) (by simp [hpc, halfPc]) rfl rfl
    · simp at hg
  · -- dup2Put
    rename_i old new x
    have hne : s.val new ≠ none := nk new (by simp [kills]) (by simp)
    have hN := sup new hne
    split at hg
    · simp only [Option.some.injEq, Prod.mk.injEq] at hg
      obtain ⟨rfl, rfl⟩ := hg
      have hset : ∀ i, i ≠ new → set s.val new (some x) i = s.val i := fun i hi => set_ne _ _ hi
      have hal := D.alone (t := t) (fd := new) (by simp [hpc, kills])
      have hoth : ∀ u, u ≠ t → new ∉ names (s.pc u) := fun u hu =>
        d1 t u new (fun h => hu h.symm) (by simp [hpc, kills])
      refine ⟨hi, ?_, ?_, ?_, ?_, ?_, ?_, ?_⟩
      · intro i hne
        by_cases hif : i = new
        · subst hif; exact hN
        · exact sup i (by simpa [set, hif] using hne)
      · simp only [set]; grind [names, kills]
      · intro u i; simp only [set]; grind [kills]
      · intro u i o; simp only [set]
        by_cases hu : u = t
        · simp [hu, src]
        · simp only [hu, if_false]
          intro hsrc
          have : i ≠ new := by rintro rfl; exact hoth u hu (src_names hsrc)
          simpa [this] using d3 u i o hsrc
      · intro u i o; simp only [set]; grind [src, kills]
      · simp only [set]; grind
      · intro o
        have a : halfPc .idle = none := rfl
        have b : halfPc (.dup2Put old new x) = some new := rfl
        have hh : half s new := ⟨t, by rw [hpc]; rfl⟩
        have hn : ∀ q : St, q.pc = set s.pc t .idle → ¬ half q new := by
          intro q hq
          rw [half_set hq, a]
          rintro (h | h)
          · cases h
          · exact hal h
        exact owners_put D rfl rfl rfl hN (.inr hh) (hn _ rfl) (.inr (by rw [hpc]; rfl)) o
    · simp at hg
  · -- closeInner
    rename_i fd
    split at hg
    · split at hg
      · simp only [Option.some.injEq, Prod.mk.injEq] at hg
        obtain ⟨rfl, rfl⟩ := hg
        exact hclr _ rfl hi rfl rfl rfl
      · rename_i y hy
        simp only [Option.some.injEq, Prod.mk.injEq] at hg
        obtain ⟨rfl, rfl⟩ := hg
        refine D.go_pc hi rfl rfl (by simp [hpc, names]) (by simp [hpc, kills])
          (fun i hf _ => ?_) (by simp [src]) (by simp) ?_
        · simp only [kills, List.mem_singleton] at hf; subst hf; simp [hy]
        · exact owners_release D rfl rfl hy (by simp [hpc, kills]) (by simp [hpc, halfPc]) rfl rfl
    · simp at hg
  · -- closeTake
    rename_i fd
    have hne : s.val fd ≠ none := nk fd (by simp [kills]) (by simp)
    have hN := sup fd hne
    split at hg
    · simp only [Option.some.injEq, Prod.mk.injEq] at hg
      obtain ⟨rfl, rfl⟩ := hg
      have hset : ∀ i, i ≠ fd → set s.val fd none i = s.val i := fun i hi => set_ne _ _ hi
      have hoth : ∀ u, u ≠ t → fd ∉ names (s.pc u) := fun u hu =>
        d1 t u fd (fun h => hu h.symm) (by simp [hpc, kills])
      refine ⟨hi, ?_, ?_, ?_, ?_, ?_, ?_, ?_⟩
      · intro i hne
        by_cases hif : i = fd
        · subst hif; exact hN
        · exact sup i (by simpa [set, hif] using hne)
      · simp only [set]; grind [names, kills]
      · intro u i; simp only [set]
        by_cases hu : u = t
        · simp [hu, kills]
        · simp only [hu, if_false]
          intro hk hc
          have : i ≠ fd := by rintro rfl; exact hoth u hu (kills_names hk)
          simpa [this] using d2 u i hk hc
      · intro u i o; simp only [set]
        by_cases hu : u = t
        · simp [hu, src]
        · simp only [hu, if_false]
          intro hsrc
          have : i ≠ fd := by rintro rfl; exact hoth u hu (src_names hsrc)
          simpa [this] using d3 u i o hsrc
      · intro u i o; simp only [set]; grind [src, kills]
      · simp only [set]; grind
      · intro o
        rw [show owners N _ o = owners N s o from owners_same ?_]
        · exact refs o
        · intro i
          have a : halfPc .idle = none := rfl
          have b : halfPc (.closeTake fd) = some fd := rfl
          by_cases hif : i = fd
          · subst hif
            have hh : half s i := ⟨t, by rw [hpc]; rfl⟩
            simp [hh, set]
          · have e : ¬ (some fd = some i) := fun hh => hif (Option.some.inj hh).symm
            have hq : ∀ q : St, q.pc = set s.pc t .idle → q.val i = s.val i →
                ((s.val i = some o ∧ ¬ half s i) ↔ (q.val i = some o ∧ ¬ half q i)) := by
              intro q q1 q2
              rw [half_set q1, half_iff (s := s) (t := t), hpc, q2]
              simp [a, b, e]
            exact hq _ rfl (hset i hif)
    · simp at hg
  · -- useLock
    split at hg
    · simp only [Option.some.injEq, Prod.mk.injEq] at hg
      obtain ⟨rfl, rfl⟩ := hg
      exact D.go_pc hi rfl rfl (by simp [hpc, names]) (by simp [kills]) (by simp [kills])
        (by simp [src]) (by simp) (e1 _ rfl rfl _ rfl rfl rfl)
    · simp at hg
  · simp only [Option.some.injEq, Prod.mk.injEq] at hg
    obtain ⟨rfl, rfl⟩ := hg
    exact hclr _ rfl hi rfl rfl rfl

theorem ReachD.inv {N : Nat} {s : St} (h : ReachD N s) : InvD N s := by
  induction h with
  | rest val => exact InvD.atRest N val
  | step a _ hd ih =>
    cases a with
    | enter t op =>
      simp only [FdConc.act]
      split
      · exact ih.begin (by assumption) op hd
      · exact ih
    | run t =>
      simp only [FdConc.act]
      split
      · exact ih.go (by assumption)
      · exact ih

/-- Under every disciplined schedule: whenever all calls have returned, every object's reference
count is the number of descriptors that hold it, so it is released exactly when the last of them
is gone. -/
theorem refs_exact_partial {N : Nat} {s : St} (h : ReachD N s) (hidle : ∀ t, s.pc t = .idle)
    (o : Obj) : s.refs o = count N s o := by
  rw [h.inv.refs o]
  unfold owners count
  congr 2
  apply List.filter_congr
  intro i _
  have : ¬ half s i := by
    rintro ⟨t, ht⟩; rw [hidle t] at ht; cases ht
  simp [this]

/-- Under every disciplined schedule: while calls are under way too, a call never releases an
object whose references are used up, and never copies a descriptor whose object is released. -/
theorem release_once_partial {N : Nat} {s : St} (h : ReachD N s) {t : Tid} {fd : Fd} {o : Obj} :
    (s.pc t = .closeInner fd ∨ (∃ old x, s.pc t = .dup2Close old fd x) → s.val fd = some o →
      1 ≤ s.refs o)
    ∧ (src (s.pc t) = some (fd, o) → 1 ≤ s.refs o) := by
  have D := h.inv
  have pos : ∀ k, s.val k = some o → ¬ half s k → 1 ≤ s.refs o := by
    intro k hk hn
    rw [D.refs o]
    exact_mod_cast owners_pos (D.sup k (by simp [hk])) hk hn
  constructor
  · intro hp hv
    have hk : fd ∈ kills (s.pc t) := by
      rcases hp with hp | ⟨old, x, hp⟩ <;> simp [hp, kills]
    refine pos fd hv ?_
    rw [half_iff (t := t)]
    rintro (hh | hh)
    · rcases hp with hp | ⟨old, x, hp⟩ <;> rw [hp] at hh <;> cases hh
    · exact D.alone hk hh
  · intro hs
    refine pos fd (D.d3 t fd o hs) ?_
    rintro ⟨u, hu⟩
    by_cases hut : u = t
    · subst hut; exact D.d4 u fd o hs (half_kills hu)
    · exact D.d1 u t fd hut (half_kills hu) (src_names hs)

theorem blocked {N : Nat} {s : St} {t : Tid} (hp : s.pc t ≠ .idle) (hb : go N s t = none) :
    ∃ fd, s.free fd = false ∧ fd ∈ names (s.pc t) ∧ ∀ f o h, s.pc t ≠ .scan f o h
      ∧ s.pc t ≠ .store f o h ∧ ∀ f, s.pc t ≠ .using f := by
  unfold go at hb
  split at hb <;> rename_i hpc <;> simp only [hpc] at hp ⊢
  · exact absurd rfl hp
  · split at hb <;> (try split at hb) <;> simp at hb
  · simp at hb
  · rename_i old new
    refine ⟨old, ?_, by simp [names], by simp⟩
    split at hb
    · split at hb <;> simp at hb
    · rename_i hfr; simpa using hfr
  · rename_i old new
    refine ⟨old, ?_, by simp [names], by simp⟩
    split at hb
    · split at hb <;> simp at hb
    · rename_i hfr; simpa using hfr
  · rename_i old new o
    refine ⟨new, ?_, by simp [names], by simp⟩
    split at hb
    · split at hb <;> simp at hb
    · rename_i hfr; simpa using hfr
  · rename_i old new o
    refine ⟨new, ?_, by simp [names], by simp⟩
    split at hb
    · split at hb <;> simp at hb
    · rename_i hfr; simpa using hfr
  · rename_i old new o
    refine ⟨new, ?_, by simp [names], by simp⟩
    split at hb
    · simp at hb
    · rename_i hfr; simpa using hfr
  · rename_i fd
    refine ⟨fd, ?_, by simp [names], by simp⟩
    split at hb
    · split at hb <;> simp at hb
    · rename_i hfr; simpa using hfr
  · rename_i fd
    refine ⟨fd, ?_, by simp [names], by simp⟩
    split at hb
    · simp at hb
    · rename_i hfr; simpa using hfr
  · rename_i fd
    refine ⟨fd, ?_, by simp [names], by simp⟩
    split at hb
    · simp at hb
    · rename_i hw
      cases hfr : s.free fd with
      | false => rfl
      | true => exact absurd (free_iff.mp hfr).1 hw
  · simp at hb

theorem using_runs {N : Nat} {s : St} {t : Tid} {fd : Fd} (h : s.pc t = .using fd) :
    go N s t ≠ none := by simp [go, h]

theorem scan_runs {N : Nat} {s : St} {t : Tid} {fd : Fd} {o : Obj} {held : Option Fd}
    (h : s.pc t = .scan fd o held ∨ s.pc t = .store fd o held) : go N s t ≠ none := by
  rcases h with h | h
  · simp only [go, h]; split <;> (try split) <;> simp
  · simp [go, h]

/-- If a slot is not free, somebody holds it. -/
theorem not_free {N : Nat} {s : St} (i : Inv N s) {fd : Fd} (h : s.free fd = false) :
    ∃ u, s.pc u = .using fd ∨ holds (s.pc u) fd := by
  cases hw : s.wr fd with
  | some u => exact ⟨u, .inr ((i.w u fd).mp hw)⟩
  | none =>
    cases hr : s.rd fd with
    | nil =>
      have := free_iff.mpr ⟨hw, hr⟩
      rw [h] at this; cases this
    | cons u us => exact ⟨u, .inl ((i.r u fd).mp (by simp [hr]))⟩

/-- No call of `dup2` is under way. -/
def noDup2 : Pc → Prop
  | .dup2Lock .. | .dup2Probe .. | .dup2Close .. | .dup2Put .. => False
  | .idle | .scan .. | .store .. | .dupLock .. | .closeInner _ | .closeTake _ | .useLock _
  | .using _ => True

/-- Under every schedule, disciplined or not: as long as no `dup2` is under way, calls never
block each other for good: if any call is under way, some thread can take a step. -/
theorem progress_partial {N : Nat} {s : St} (h : Reach N s) (hn : ∀ t, noDup2 (s.pc t)) {t : Tid}
    (ht : s.pc t ≠ .idle) : ∃ u, go N s u ≠ none := by
  by_cases hb : go N s t = none
  · obtain ⟨fd, hf, _, _⟩ := blocked ht hb
    obtain ⟨u, hu | hu⟩ := not_free h.inv hf
    · exact ⟨u, using_runs hu⟩
    · refine ⟨u, ?_⟩
      have := hn u
      cases hp : s.pc u <;> rw [hp] at hu this <;> simp only [holds, noDup2] at hu this
      · exact scan_runs (.inl hp)
      · exact scan_runs (.inr hp)
  · exact ⟨t, hb⟩

/-- Under every disciplined schedule, with `dup2` or without, calls never block each other for
good. -/
theorem progress_disciplined_partial {N : Nat} {s : St} (h : ReachD N s) {t : Tid}
    (ht : s.pc t ≠ .idle) : ∃ u, go N s u ≠ none := by
  have D := h.inv
  by_cases hb : go N s t = none
  · obtain ⟨fd, hf, _, _⟩ := blocked ht hb
    obtain ⟨u, hu | hu⟩ := not_free D.toInv hf
    · exact ⟨u, using_runs hu⟩
    · by_cases hbu : go N s u = none
      · -- u is inside dup2 and waits for the slot it closes
        have hui : s.pc u ≠ .idle := by intro hh; rw [hh] at hu; exact hu
        have key : ∀ new, new ∈ kills (s.pc u) → s.val new ≠ none →
            ¬ holds (s.pc u) new → s.free new = false → ∃ v, go N s v ≠ none := by
          intro new hk hv hnh hfn
          obtain ⟨v, hv' | hv'⟩ := not_free D.toInv hfn
          · exact ⟨v, using_runs hv'⟩
          · exfalso
            by_cases huv : v = u
            · subst huv; exact hnh hv'
            · have hnm := D.d1 u v new (fun h => huv h.symm) hk
              cases hp : s.pc v <;> rw [hp] at hv' hnm <;> simp only [holds, names] at hv' hnm
              · exact hnm (by simp [hv'])
              · rcases hv' with rfl | hv'
                · exact hv (D.e v _ _ _ hp).1
                · exact hnm (by simp [hv'])
              all_goals exact hnm (by simp [hv'])
        have hd4 := D.d4 u
        have hd2 := D.d2 u
        have hgo := hbu
        cases hp : s.pc u <;> rw [hp] at hu key hd4 hd2 <;> simp only [holds] at hu
        · exact absurd hgo (scan_runs (.inl hp))
        · exact absurd hgo (scan_runs (.inr hp))
        all_goals
          rename_i old new o
          subst hu
          have hne : ¬ (old = new) := by
            have := hd4 old o rfl; simpa [kills] using this
          refine key new (by simp [kills]) (hd2 new (by simp [kills]) (by simp)) hne ?_
          simp only [go, hp] at hgo
          split at hgo
          · (try split at hgo) <;> simp at hgo
          · rename_i hfr; simpa using hfr
      · exact ⟨u, hbu⟩
  · exact ⟨t, hb⟩

/-- With all other threads at rest, open returns the lowest free number and touches nothing
else. -/
theorem lowest_alone {N : Nat} {s : St} (h : Reach N s) {t : Tid} {o : Obj} {f k : Nat}
    (hothers : ∀ u, u ≠ t → s.pc u = .idle) (hp : s.pc t = .scan f o none)
    (hfk : f ≤ k) (hkN : k < N) (hk : s.val k = none) (hmin : ∀ i : Nat, f ≤ i → i < k → s.val i ≠ none) :
    ∃ s' s'', s' = exec N s (List.replicate (k - f + 1) (.run t)) ∧ go N s' t = some (s'', .fd k)
      ∧ s''.val k = some o ∧ (∀ i : Nat, i ≠ k → s''.val i = s.val i) := by
  have hfree : ∀ fd, s.free fd = true := by
    intro fd
    cases hf : s.free fd with
    | true => rfl
    | false =>
      obtain ⟨u, hu⟩ := not_free h.inv hf
      by_cases hut : u = t
      · subst hut; rw [hp] at hu; simp [holds] at hu
      · rw [hothers u hut] at hu; simp [holds] at hu
  obtain ⟨d, rfl⟩ : ∃ d, k = f + d := ⟨k - f, by omega⟩
  rw [Nat.add_sub_cancel_left]
  clear h hothers hfk
  induction d generalizing s f with
  | zero =>
    have e : act N s (.run t) = { s with
        wr := set s.wr f (some t), pc := set s.pc t (.store f o none) } := by
      have : ¬ N ≤ f := by omega
      simp only [Nat.add_zero] at hk
      simp [act, go, hp, this, hfree, hk]
    refine ⟨_, { s with
        val := set s.val f (some o), refs := set s.refs o (s.refs o + 1)
        wr := set (set s.wr f (some t)) f none
        pc := set (set s.pc t (.store f o none)) t .idle }, rfl, ?_, ?_, ?_⟩
    · simp only [List.replicate_succ, List.replicate_zero, exec, List.foldl_cons, List.foldl_nil, e]
      simp only [go, set_same]
      rfl
    · simp [set]
    · intro i hi; simp only [Nat.add_zero] at hi; simp [set, hi]
  | succ d ih =>
    have hne : s.val f ≠ none := hmin f (by omega) (by omega)
    have e : act N s (.run t) = { s with pc := set s.pc t (.scan (f + 1) o none) } := by
      have : ¬ N ≤ f := by omega
      simp only [act, go, hp, this, if_false]
      cases hv : s.val f with
      | none => exact absurd hv hne
      | some x => simp
    obtain ⟨s', s'', h1, h2, h3, h4⟩ := ih (s := act N s (.run t)) (f := f + 1)
      (by rw [e]; simp [set]) (by intro fd; rw [e]; exact hfree fd) (by omega)
      (by rw [e]; rw [show f + 1 + d = f + (d + 1) by omega]; exact hk)
      (by rw [e]; intro i hi1 hi2; exact hmin i (by omega) (by omega))
    refine ⟨s', s'', ?_, ?_, ?_, ?_⟩
    · rw [h1, List.replicate_succ]; rfl
    · rw [h2]; rw [show f + 1 + d = f + (d + 1) by omega]
    · rw [← h3]; rw [show f + 1 + d = f + (d + 1) by omega]
    · intro i hi
      rw [h4 i (by omega), e]

/-! ## Schedules that break the table -/

/-- Descriptors 0 and 1 share object 7. -/
def shared : St := atRest 4 fun fd => if fd < 2 then some 7 else none

/-- Two threads close descriptor 0 at the same time: both calls succeed and both release the
object, so its count is 0 although descriptor 1 still holds it. -/
theorem double_close_violated :
    let s := exec 4 shared [.enter 1 (.close 0), .enter 2 (.close 0), .run 1, .run 2, .run 1]
    (go 4 s 2).map (·.2) = some .zero
    ∧ (exec 4 s [.run 2]).refs 7 = 0 ∧ (exec 4 s [.run 2]).val 1 = some 7
    ∧ (exec 4 s [.run 2]).pc 1 = .idle ∧ (exec 4 s [.run 2]).pc 2 = .idle := by decide

/-- dup of a descriptor that is being closed: the object has no reference left, and the
duplicate is made all the same. -/
theorem close_dup_violated :
    let s := exec 4 (atRest 4 fun fd => if fd = 0 then some 7 else none)
      [.enter 1 (.close 0), .run 1, .enter 2 (.dup 0 0), .run 2]
    s.refs 7 = 0 ∧ src (s.pc 2) = some (0, 7)
    ∧ (exec 4 s [.run 2, .run 2, .run 2]).val 1 = some 7 := by decide

/-- dup2 onto a free descriptor number that another thread's open receives meanwhile: the opened
object's descriptor is overwritten and its reference is never released. -/
theorem dup2_overwrites_violated :
    let s := exec 4 (atRest 4 fun fd => if fd = 0 then some 5 else none)
      [.enter 1 (.dup2 0 1), .run 1, .run 1, .enter 2 (.openObj 9), .run 2, .run 2]
    (go 4 s 2).map (·.2) = some (.fd 1)
    ∧ (exec 4 s [.run 2]).val 1 = some 9
    ∧ (exec 4 s [.run 2, .run 1]).val 1 = some 5
    ∧ (exec 4 s [.run 2, .run 1]).refs 9 = 1
    ∧ count 4 (exec 4 s [.run 2, .run 1]) 9 = 0 := by decide

/-- Two threads that call dup2 on the same two descriptors in opposite order wait for each other
for ever, and everybody who uses either descriptor afterwards waits with them. -/
theorem dup2_deadlock_violated :
    let s := exec 4 (atRest 4 fun fd => if fd < 2 then some (fd + 5) else none)
      [.enter 1 (.dup2 0 1), .enter 2 (.dup2 1 0), .run 1, .run 2, .enter 3 (.use 0)]
    s.pc 1 ≠ .idle ∧ s.pc 2 ≠ .idle ∧ s.pc 3 ≠ .idle ∧ ∀ t, go 4 s t = none := by
  refine ⟨by decide, by decide, by decide, ?_⟩
  intro t
  by_cases h1 : t = 1
  · subst h1; rfl
  · by_cases h2 : t = 2
    · subst h2; rfl
    · by_cases h3 : t = 3
      · subst h3; rfl
      · have : (exec 4 (atRest 4 fun fd => if fd < 2 then some (fd + 5) else none)
          [.enter 1 (.dup2 0 1), .enter 2 (.dup2 1 0), .run 1, .run 2,
            .enter 3 (.use 0)]).pc t = .idle := by
          simp [exec, act, go, begin, atRest, set, St.free, h1, h2, h3]
        simp only [go, this]

/-- open does not return the lowest free number when another thread merely looks at that number,
and reports a full table although the only free number is free all the time. -/
theorem lowest_violated :
    (let s := exec 4 (atRest 4 fun _ => none)
        [.enter 1 (.use 0), .run 1, .enter 2 (.openObj 9), .run 2, .run 2]
     s.val 0 = none ∧ (go 4 s 2).map (·.2) = some (.fd 1))
    ∧ (let s := exec 1 (atRest 1 fun _ => none)
        [.enter 1 (.use 0), .run 1, .enter 2 (.openObj 9), .run 2]
      s.val 0 = none ∧ (go 1 s 2).map (·.2) = some .ENFILE) := by decide

/-! ## The hypotheses are met -/

/-- A schedule with an open, a dup and a close interleaved, each on its own descriptors. -/
example : ∃ s, ReachD 4 s ∧ s.pc 1 = .store 2 9 none ∧ s.pc 2 = .scan 3 7 (some 0)
    ∧ s.pc 3 = .closeTake 1 ∧ s.refs 7 = 1 := by
  have h0 : ReachD 4 shared := .rest _
  have h1 := h0.step (.enter 1 (.openObj 9)) (by
    simp [Disciplined, Op.kills, Op.names])
  have h2 := h1.step (.enter 2 (.dup 0 0)) (by
    refine ⟨fun u hu => ⟨by simp [Op.kills], ?_⟩, by simp⟩
    intro fd _
    by_cases h : u = 1 <;> simp [act, begin, shared, atRest, set, h, kills])
  have h3 := h2.step (.enter 3 (.close 1)) (by
    refine ⟨fun u hu => ⟨?_, ?_⟩, by simp⟩
    · intro fd hf
      simp only [Op.kills, List.mem_singleton] at hf
      subst hf
      by_cases h : u = 1 <;> by_cases h' : u = 2 <;>
        simp_all [act, begin, shared, atRest, set, names]
    · intro fd _
      by_cases h : u = 1 <;> by_cases h' : u = 2 <;>
        simp_all [act, begin, shared, atRest, set, kills])
  have h4 := (((((((h3.step (.run 1) trivial).step (.run 2) trivial).step (.run 1) trivial).step
    (.run 3) trivial).step (.run 1) trivial).step (.run 2) trivial).step (.run 2) trivial).step
    (.run 2) trivial
  exact ⟨_, h4, by decide, by decide, by decide, by decide⟩

/-- One with a dup2 onto a descriptor in use. -/
example : ∃ s, ReachD 4 s ∧ s.pc 1 = .dup2Put 0 1 7 ∧ s.refs 7 = 1 := by
  have h0 : ReachD 4 shared := .rest _
  have h1 := h0.step (.enter 1 (.dup2 0 1)) (by
    refine ⟨fun u hu => ⟨?_, ?_⟩, ?_⟩
    · intro fd _; simp [shared, atRest, names]
    · intro fd _; simp [shared, atRest, kills]
    · intro old new h; cases h; decide)
  exact ⟨_, ((h1.step (.run 1) trivial).step (.run 1) trivial).step (.run 1) trivial,
    by decide, by decide⟩

end Verif.FdConc
