import Verif.NameConc

/-!
What holds of path calls in every schedule, whatever the calls are: numbers of inodes are not given
twice, and an entry of a directory changes only under a name that the call names.
-/

namespace Verif.NameConc
open Verif.Path Verif.Fs

/-- The number that a creation has taken and not yet filled. -/
def pend : Pc → Option Nat
  | .enter _ _ _ n => some n
  | .store _ _ _ n => some n
  | _ => none

/-- Numbers below `next` are used once. -/
structure Fresh (s : State) : Prop where
  bound : ∀ i nd, s.fs.inodes i = some nd → i < s.fs.next
  pend : ∀ t n, pend (s.pc t) = some n → n < s.fs.next ∧ s.fs.inodes n = none
  dist : ∀ t u n, NameConc.pend (s.pc t) = some n → NameConc.pend (s.pc u) = some n → t = u

/-- What one step may do to the table and to the numbers: nothing appears except the inode that this
thread stores; numbers go up only by taking one. -/
structure StepOk (s s' : State) (t : Nat) : Prop where
  other : ∀ u, u ≠ t → s'.pc u = s.pc u
  next : s.fs.next ≤ s'.fs.next
  new : ∀ i nd, s'.fs.inodes i = some nd → s.fs.inodes i = none → ∃ p par w, s.pc t = .store p par w i
  pend : ∀ n, pend (s'.pc t) = some n →
    NameConc.pend (s.pc t) = some n ∧ (s.fs.inodes n = none → s'.fs.inodes n = none) ∨
    (n = s.fs.next ∧ s'.fs.next = s.fs.next + 1 ∧ s'.fs.inodes = s.fs.inodes)
  stored : ∀ p par w i, s.pc t = .store p par w i → NameConc.pend (s'.pc t) = none

theorem Fresh.step {s s' : State} {t : Nat} (h : Fresh s) (h' : StepOk s s' t) : Fresh s' := by
  constructor
  · intro i nd hi
    cases ho : s.fs.inodes i with
    | some x => exact Nat.lt_of_lt_of_le (h.bound _ _ ho) h'.next
    | none =>
      obtain ⟨p, par, w, e⟩ := h'.new _ _ hi ho
      exact Nat.lt_of_lt_of_le (h.pend t _ (by rw [e]; rfl)).1 h'.next
  · intro u n hu
    by_cases e : u = t
    · subst e
      rcases h'.pend _ hu with ⟨h1, h2⟩ | ⟨h1, h2, h3⟩
      · have := h.pend _ _ h1
        exact ⟨Nat.lt_of_lt_of_le this.1 h'.next, h2 this.2⟩
      · refine ⟨by omega, ?_⟩
        rw [h3]
        cases hx : s.fs.inodes n with
        | none => rfl
        | some x => have := h.bound _ _ hx; omega
    · rw [h'.other u e] at hu
      have := h.pend _ _ hu
      refine ⟨Nat.lt_of_lt_of_le this.1 h'.next, ?_⟩
      cases hx : s'.fs.inodes n with
      | none => rfl
      | some x =>
        obtain ⟨p, par, w, e'⟩ := h'.new _ _ hx this.2
        exact absurd (h.dist _ _ _ hu (by rw [e']; rfl)) e
  · intro u v n hu hv
    by_cases e : u = t
    · by_cases e' : v = t
      · rw [e, e']
      · rw [h'.other v e'] at hv
        subst e
        rcases h'.pend _ hu with ⟨h1, -⟩ | ⟨h1, -⟩
        · exact h.dist _ _ _ h1 hv
        · have := (h.pend _ _ hv).1; omega
    · rw [h'.other u e] at hu
      by_cases e' : v = t
      · subst e'
        rcases h'.pend _ hv with ⟨h1, -⟩ | ⟨h1, -⟩
        · exact h.dist _ _ _ hu h1
        · have := (h.pend _ _ hu).1; omega
      · rw [h'.other v e'] at hv
        exact h.dist _ _ _ hu hv

theorem StepOk.refl (s : State) {s' : State} (t : Nat) (h : ∀ p par w i, s.pc t ≠ .store p par w i) (hfs : s'.fs = s.fs)
    (hpc : s'.pc = s.pc) : StepOk s s' t :=
  ⟨fun _ _ => (by rw [hpc]), (by rw [hfs]; exact Nat.le_refl _), fun _ _ h1 h2 => (by rw [hfs, h2] at h1; cases h1),
    fun _ h => .inl ⟨by rw [hpc] at h; exact h, by rw [hfs]; exact id⟩, fun _ _ _ _ e => absurd e (h _ _ _ _)⟩

/-- Steps that fill no number and take none. -/
theorem StepOk.plain {s s' : State} {t : Nat} {q : Pc} (hpc : s'.pc = upd s.pc t q) (hn : s'.fs.next = s.fs.next)
    (hi : ∀ i nd, s'.fs.inodes i = some nd → s.fs.inodes i ≠ none) (hq : NameConc.pend q = none)
    (h0 : ∀ p par w i, s.pc t ≠ .store p par w i) : StepOk s s' t :=
  ⟨fun u hu => (by rw [hpc, upd_ne _ _ hu]), Nat.le_of_eq hn.symm, fun _ _ h1 h2 => absurd h2 (hi _ _ h1),
    fun _ h => (by rw [hpc, upd_same, hq] at h; cases h), fun _ _ _ _ e => absurd e (h0 _ _ _ _)⟩

theorem set_some {fs : Fs} {k : Nat} {x nd' : Inode} (hk : fs.inodes k = some x) (i nd) :
    (fs.set k (some nd')).inodes i = some nd → fs.inodes i ≠ none := by
  simp only [Fs.set, upd_apply]
  split
  · rename_i e; subst e; rw [hk]; simp
  · intro h; rw [h]; simp

theorem set_none {fs : Fs} {k : Nat} (i nd) : (fs.set k none).inodes i = some nd → fs.inodes i ≠ none := by
  simp only [Fs.set, upd_apply]
  split
  · intro h; cases h
  · intro h; rw [h]; simp

theorem same_some {fs fs' : Fs} (h : fs'.inodes = fs.inodes) (i nd) : fs'.inodes i = some nd → fs.inodes i ≠ none := by
  rw [h]; intro e; rw [e]; simp

theorem removeFromParent_ok (fs : Fs) (par : Nat) (p : List Name) :
    (fs.removeFromParent par p).1.next = fs.next ∧
    (∀ i nd, (fs.removeFromParent par p).1.inodes i = some nd → fs.inodes i ≠ none) := by
  unfold Fs.removeFromParent
  split
  · exact ⟨rfl, same_some rfl⟩
  · rename_i pd hpd
    (repeat' split) <;> first
      | exact ⟨rfl, same_some rfl⟩
      | exact ⟨rfl, set_some hpd⟩

theorem openObj_inodes (fs : Fs) (i z : Nat) : (fs.openObj i z).inodes = fs.inodes ∧ (fs.openObj i z).next = fs.next := by
  unfold Fs.openObj; split <;> exact ⟨rfl, rfl⟩

theorem openExisting_ok (fs : Fs) (i : Nat) (flags : BitVec 32) :
    (fs.openExisting i flags).1.next = fs.next ∧
    (∀ j nd, (fs.openExisting i flags).1.inodes j = some nd → fs.inodes j ≠ none) := by
  unfold Fs.openExisting
  split
  · exact ⟨rfl, same_some rfl⟩
  · split
    · exact ⟨rfl, same_some rfl⟩
    · rename_i nd hi
      split
      · exact ⟨rfl, same_some rfl⟩
      · split
        · split
          · exact ⟨rfl, same_some rfl⟩
          · refine ⟨(openObj_inodes _ _ _).2, fun j nd' h => ?_⟩
            refine set_some (fs := fs) hi (nd' := { nd with size := 0, ref := nd.ref + 1 }) j nd' ?_
            simp only [Fs.set, (openObj_inodes _ _ _).1] at h ⊢; exact h
        · refine ⟨(openObj_inodes _ _ _).2, fun j nd' h => ?_⟩
          refine set_some (fs := fs) hi (nd' := { nd with ref := nd.ref + 1 }) j nd' ?_
          simp only [Fs.set, (openObj_inodes _ _ _).1] at h ⊢; exact h
      · exact ⟨rfl, set_some hi⟩

theorem arrive_ok {s : State} {t : Nat} (p : List Name) (r : Option Nat × Option Nat) (g : Goal)
    (h0 : ∀ p par w i, s.pc t ≠ .store p par w i) : StepOk s (arrive s t p r g) t := by
  cases g <;> simp only [arrive] <;> (repeat' split) <;>
    exact .plain rfl rfl (same_some rfl) rfl h0

theorem go_ok (s : State) (t : Nat) : StepOk s (go s t) t := by
  unfold go
  dsimp only
  cases hpc : s.pc t with
  | idle => exact .refl _ _ (by simp [hpc]) rfl rfl
  | walk p rest cur prev g =>
    have h0 : ∀ p par w i, s.pc t ≠ .store p par w i := by simp [hpc]
    cases rest with
    | nil => exact arrive_ok _ _ _ h0
    | cons n ns =>
      cases cur with
      | none => exact arrive_ok _ _ _ h0
      | some i =>
        dsimp only
        split
        · exact .refl _ _ h0 rfl rfl
        · split
          · exact .plain rfl rfl (same_some rfl) rfl h0
          · exact arrive_ok _ _ _ h0
  | alloc p par new =>
    refine ⟨fun u hu => upd_ne _ _ hu, Nat.le_succ _, fun _ _ h1 h2 => ?_, fun _ h => .inr ?_,
      fun _ _ _ _ e => by rw [hpc] at e; cases e⟩
    · have h1' : s.fs.inodes _ = some _ := h1
      rw [h2] at h1'; cases h1'
    · simp only [State.to, upd_same, pend, Option.some.injEq] at h
      exact ⟨h.symm, rfl, rfl⟩
  | enter p par new num =>
    have h0 : ∀ p par w i, s.pc t ≠ .store p par w i := by simp [hpc]
    dsimp only
    split
    · rename_i pd name hp hl
      split
      · refine ⟨fun u hu => upd_ne _ _ hu, Nat.le_refl _, fun _ _ h1 h2 => absurd h2 (set_some hp _ _ h1), fun n h => .inl ⟨?_, ?_⟩,
          fun _ _ _ _ e => absurd e (h0 _ _ _ _)⟩
        · simp only [State.to, upd_same, pend] at h
          rw [hpc]; exact h
        · intro hn
          cases hx : (s.to t (s.fs.set par (some { pd with ents := entPut pd.ents name num, link := pd.link + 1 }))
            (.store p par new num)).fs.inodes n with
          | none => rfl
          | some x => exact absurd hn (set_some hp _ _ hx)
      · exact .refl _ _ h0 rfl rfl
    · exact .refl _ _ h0 rfl rfl
  | store p par new num =>
    refine ⟨fun u hu => upd_ne _ _ hu, Nat.le_refl _, fun i nd h1 h2 => ?_, fun _ h => ?_, fun _ _ _ _ _ => ?_⟩
    · simp only [State.to, Fs.set, upd_apply] at h1
      split at h1
      · rename_i e; subst e; exact ⟨_, _, _, hpc⟩
      · rw [h2] at h1; cases h1
    · simp only [State.to, upd_same, pend] at h; cases h
    · simp only [State.to, upd_same, pend]
  | log is k =>
    have h0 : ∀ p par w i, s.pc t ≠ .store p par w i := by simp [hpc]
    cases is with
    | nil => cases k <;> exact .plain rfl rfl (same_some rfl) rfl h0
    | cons i is => exact .plain rfl rfl (same_some rfl) rfl h0
  | closeDec i =>
    have h0 : ∀ p par w i, s.pc t ≠ .store p par w i := by simp [hpc]
    dsimp only
    split
    · exact .refl _ _ h0 rfl rfl
    · rename_i nd hi
      (repeat' split) <;> first
        | exact .refl _ _ h0 rfl rfl
        | exact .plain rfl rfl (set_some hi) rfl h0
  | unlinkRemove p i par kind zero =>
    have h0 : ∀ p par w i, s.pc t ≠ .store p par w i := by simp [hpc]
    have := removeFromParent_ok s.fs par p
    dsimp only
    generalize s.fs.removeFromParent par p = x at this ⊢
    obtain ⟨fs', r⟩ := x
    cases r with
    | panic => exact .refl _ _ h0 rfl rfl
    | ok v => cases zero <;> exact .plain rfl this.1 this.2 rfl h0
    | err e => exact .plain rfl this.1 this.2 rfl h0
    | blocked => exact .plain rfl this.1 this.2 rfl h0
  | rmdirRemove p i par rm =>
    have h0 : ∀ p par w i, s.pc t ≠ .store p par w i := by simp [hpc]
    have := removeFromParent_ok s.fs par p
    dsimp only
    generalize s.fs.removeFromParent par p = x at this ⊢
    obtain ⟨fs', r⟩ := x
    cases r with
    | panic => exact .refl _ _ h0 rfl rfl
    | ok v => cases rm <;> exact .plain rfl this.1 this.2 rfl h0
    | err e => exact .plain rfl this.1 this.2 rfl h0
    | blocked => exact .plain rfl this.1 this.2 rfl h0
  | openGet p i flags =>
    have h0 : ∀ p par w i, s.pc t ≠ .store p par w i := by simp [hpc]
    have := openExisting_ok s.fs i flags
    dsimp only
    generalize s.fs.openExisting i flags = x at this ⊢
    obtain ⟨fs', r⟩ := x
    cases r with
    | opened j z => exact .plain rfl this.1 this.2 rfl h0
    | failed r =>
      cases r with
      | panic => exact .refl _ _ h0 rfl rfl
      | _ => exact .plain rfl this.1 this.2 rfl h0
  | openObj p i =>
    have h0 : ∀ p par w i, s.pc t ≠ .store p par w i := by simp [hpc]
    exact .plain rfl (openObj_inodes _ _ _).2 (same_some (openObj_inodes _ _ _).1) rfl h0
  | rmdirNode p i par =>
    have h0 : ∀ p par w i, s.pc t ≠ .store p par w i := by simp [hpc]
    dsimp only
    split
    · exact .refl _ _ h0 rfl rfl
    · rename_i nd hi
      (repeat' split) <;> first
        | exact .refl _ _ h0 rfl rfl
        | exact .plain rfl rfl (same_some rfl) rfl h0
        | exact .plain rfl rfl (set_some hi) rfl h0
  | linkEnter old new i par =>
    have h0 : ∀ p par w i, s.pc t ≠ .store p par w i := by simp [hpc]
    dsimp only
    split
    · rename_i hp hl
      split
      · exact .plain rfl rfl (set_some hp) rfl h0
      · exact .refl _ _ h0 rfl rfl
    · exact .refl _ _ h0 rfl rfl
  | renameEdit old new i par =>
    have h0 : ∀ p par w i, s.pc t ≠ .store p par w i := by simp [hpc]
    dsimp only
    split
    · rename_i hp _ _
      split
      · exact .plain rfl rfl (set_some hp) rfl h0
      · exact .plain rfl rfl (same_some rfl) rfl h0
    · exact .refl _ _ h0 rfl rfl
  | _ =>
    have h0 : ∀ p par w i, s.pc t ≠ .store p par w i := by simp [hpc]
    dsimp only
    first
      | exact .plain rfl rfl (same_some rfl) rfl h0
      | (split
         · first
            | exact .refl _ _ h0 rfl rfl
            | (split
               · exact .refl _ _ h0 rfl rfl
               · exact .plain rfl rfl set_none rfl h0)
         · first
            | exact .plain rfl rfl set_none rfl h0
            | exact .plain rfl rfl (same_some rfl) rfl h0
            | exact .plain rfl rfl (set_some ‹_›) rfl h0
            | (repeat' split) <;> first
                | exact .refl _ _ h0 rfl rfl
                | exact .plain rfl rfl (same_some rfl) rfl h0
                | exact .plain rfl rfl (set_some ‹_›) rfl h0)

theorem begin_pend (c : Call) : pend (begin c) = none := by cases c <;> rfl

/-- The thread of an action. -/
def Act.tid : Act → Nat
  | .start t _ => t
  | .go t => t

theorem Fresh.act {s : State} (h : Fresh s) (a : Act) : Fresh (NameConc.step s a) ∧ s.fs.next ≤ (NameConc.step s a).fs.next := by
  unfold NameConc.step
  split
  · exact ⟨h, Nat.le_refl _⟩
  · cases a with
    | go t => exact ⟨h.step (go_ok s t), (go_ok s t).next⟩
    | start t c =>
      dsimp only
      split
      · rename_i hpc
        have hk : ∀ s', s' = s.die ∨ s' = s.begin t c → Fresh s' ∧ s.fs.next ≤ s'.fs.next := by
          rintro s' (rfl | rfl)
          · exact ⟨⟨h.bound, h.pend, h.dist⟩, Nat.le_refl _⟩
          · exact ⟨h.step (t := t) (.plain rfl rfl (same_some rfl) (begin_pend c) (by simp [hpc])), Nat.le_refl _⟩
        split
        · exact hk _ (.inl rfl)
        · exact hk _ (.inr rfl)
      · exact ⟨h, Nat.le_refl _⟩

theorem Fresh.run {s : State} (h : Fresh s) (as : List Act) : Fresh (run s as) ∧ s.fs.next ≤ (NameConc.run s as).fs.next := by
  induction as generalizing s with
  | nil => exact ⟨h, Nat.le_refl _⟩
  | cons a as ih =>
    have h1 := h.act a
    have h2 := ih h1.1
    exact ⟨h2.1, Nat.le_trans h1.2 h2.2⟩

/-- A file system at rest whose numbers are all below the next one. -/
theorem Fresh.init {fs : Fs} (held : Nat → Nat) (hb : ∀ i nd, fs.inodes i = some nd → i < fs.next) :
    Fresh (init fs held) :=
  ⟨hb, fun _ _ h => (by cases h), fun _ _ _ h => (by cases h)⟩

theorem run_append (s : State) (as bs : List Act) : run s (as ++ bs) = run (run s as) bs := by
  induction as generalizing s with
  | nil => rfl
  | cons a as ih => exact ih _

/-- C65.  In every schedule of any calls: a creation that is about to store its inode stores it under a number that nothing in the
table has, and under which no other thread is about to store.  No file or directory is ever replaced by another one. -/
theorem store_never_replaces {fs : Fs} (held : Nat → Nat) (hb : ∀ i nd, fs.inodes i = some nd → i < fs.next) (as : List Act)
    {t par n : Nat} {p : List Name} {w : New} (ht : (run (init fs held) as).pc t = .store p par w n) :
    (run (init fs held) as).fs.inodes n = none ∧
    ∀ u p' par' w', u ≠ t → (run (init fs held) as).pc u ≠ .store p' par' w' n := by
  have h := ((Fresh.init held hb).run as).1
  refine ⟨(h.pend t n (by rw [ht]; rfl)).2, fun u p' par' w' hu e => hu (h.dist u t n ?_ ?_)⟩
  · rw [e]; rfl
  · rw [ht]; rfl

/-- C65.  In every schedule: the number that a creation takes is one that no inode had and no creation took at any earlier point, so
the number of a removed inode never comes back. -/
theorem number_never_again {fs : Fs} (held : Nat → Nat) (hb : ∀ i nd, fs.inodes i = some nd → i < fs.next)
    (before later : List Act) {i t : Nat} {p : List Name} {par : Nat} {w : New}
    (hi : (run (init fs held) before).fs.inodes i ≠ none ∨ ∃ u, pend ((run (init fs held) before).pc u) = some i)
    (ht : (run (init fs held) (before ++ later)).pc t = .alloc p par w) (hd : (run (init fs held) (before ++ later)).dead = false) :
    ∃ n, (step (run (init fs held) (before ++ later)) (.go t)).pc t = .enter p par w n ∧ n ≠ i := by
  have h1 := (Fresh.init held hb).run before
  have h2 := h1.1.run later
  rw [← run_append] at h2
  refine ⟨(run (init fs held) (before ++ later)).fs.next, ?_, ?_⟩
  · simp [step, hd, go, ht, State.to]
  · have : i < (run (init fs held) before).fs.next := by
      rcases hi with hi | ⟨u, hu⟩
      · obtain ⟨x, hx⟩ := Option.ne_none_iff_exists'.1 hi
        exact h1.1.bound _ _ hx
      · exact (h1.1.pend _ _ hu).1
    have := h2.2
    omega

/-! ## Which entries a step changes -/

/-- The paths of a call. -/
def Call.paths : Call → List (List Name)
  | .mkdir p _ | .mknod p _ _ | .open p _ _ | .unlink p | .rmdir p | .stat p | .chmod p _ => [p]
  | .link p q | .rename p q => [p, q]
  | .close _ => []

/-- The paths a goal remembers. -/
def Goal.paths : Goal → List (List Name)
  | .linkOld new => [new]
  | .linkNew _ old => [old]
  | .renameOld new => [new]
  | .renameNew _ _ old => [old]
  | _ => []

/-- The paths that are left to do after the log entries. -/
def After.paths : After → List (List Name)
  | .ret _ => []
  | .openObj p _ => [p]
  | .dom old new => [old, new]

/-- The paths a thread works with. -/
def Pc.paths : Pc → List (List Name)
  | .walk p _ _ _ g => p :: g.paths
  | .alloc p _ _ | .enter p _ _ _ | .store p _ _ _ | .openObj p _ | .get p _ | .openGet p _ _ | .chmodDo p _ _
  | .unlinkDec p _ _ | .unlinkRemove p _ _ _ _ | .unlinkReap p _ _ _ | .unlinkDom p _ _ _ | .rmdirPar p _ _
  | .rmdirNode p _ _ | .rmdirRemove p _ _ _ | .linkUndo p _ _ => [p]
  | .linkInc p q _ | .linkEnter p q _ _ | .renameEdit p q _ _ | .renameDom p q => [p, q]
  | .log _ k | .logw _ _ _ k => k.paths
  | _ => []

/-- A thread works with the paths of its call and no others. -/
def Mine (s : State) (t : Nat) : Prop :=
  s.pc t = .idle ∨ ∃ c, s.call t = some c ∧ ∀ p ∈ (s.pc t).paths, p ∈ c.paths

theorem Mine.idle {s : State} {t : Nat} (h : s.pc t = .idle) : Mine s t := .inl h

theorem Mine.go_other {s : State} {t u : Nat} (hu : u ≠ t) : (go s t).pc u = s.pc u ∧ (go s t).call u = s.call u := by
  have h1 := (go_ok s t).other u hu
  refine ⟨h1, ?_⟩
  have ha : ∀ p r g, (arrive s t p r g).call u = s.call u := by
    intro p r g
    cases g <;> simp only [arrive] <;> (repeat' split) <;> simp [State.fin, State.to, hu]
  unfold go
  dsimp only
  (repeat' split) <;> first
    | rfl
    | exact ha _ _ _
    | simp [State.fin, State.finOpen, hu]
    | (unfold resume; split <;> simp [State.fin, State.to, hu])

theorem Mine.go {s : State} {t : Nat} (h : Mine s t) : Mine (go s t) t := by
  rcases h with h | ⟨c, hc, hp⟩
  · exact .inl (by simp [NameConc.go, h])
  · have hto : ∀ fs q, (∀ p ∈ q.paths, p ∈ c.paths) → Mine (s.to t fs q) t :=
      fun fs q hq => .inr ⟨c, hc, by simpa [State.to] using hq⟩
    have hfin : ∀ fs o, Mine (s.fin t fs o) t := fun fs o => .inl (by simp [State.fin])
    have hfo : ∀ fs i z, Mine (s.finOpen t fs i z) t := fun fs i z => .inl (by simp [State.finOpen, State.fin])
    have hdie : Mine s.die t := .inr ⟨c, hc, hp⟩
    have ha : ∀ p r g, p ∈ c.paths → (∀ q ∈ g.paths, q ∈ c.paths) → Mine (arrive s t p r g) t := by
      intro p r g h1 h2
      cases g <;> simp only [Goal.paths, List.mem_cons, List.not_mem_nil, or_false, forall_eq] at h2 <;>
        simp only [arrive] <;> (repeat' split) <;> first
        | exact hfin _ _
        | (refine hto _ _ ?_
           simp only [Pc.paths, Goal.paths, List.mem_cons, List.not_mem_nil, or_false, forall_eq_or_imp, forall_eq]
           first | exact h1 | exact h2 | exact ⟨h1, h2⟩ | exact ⟨h2, h1⟩)
    unfold NameConc.go
    dsimp only
    have hrest : ∀ (w : New) p n, p ∈ c.paths → ∀ q ∈ (w.rest p n).paths, q ∈ c.paths := by
      intro w p n h1 q hq
      cases w <;> simp only [New.rest, After.paths, List.mem_cons, List.not_mem_nil, or_false] at hq
      rw [hq]; exact h1
    cases hpc : s.pc t <;> rw [hpc] at hp
    case idle => exact .inl hpc
    case walk p rest cur prev g =>
      have h1 : p ∈ c.paths := hp p (by simp [Pc.paths])
      have h2 : ∀ q ∈ g.paths, q ∈ c.paths := fun q hq => hp q (by simp [Pc.paths, hq])
      cases rest with
      | nil => exact ha _ _ _ h1 h2
      | cons n ns =>
        cases cur with
        | none => exact ha _ _ _ h1 h2
        | some i =>
          dsimp only
          split
          · exact hdie
          · split
            · exact hto _ _ (by simpa [Pc.paths] using ⟨h1, h2⟩)
            · exact ha _ _ _ h1 h2
    case log is k =>
      cases is with
      | nil =>
        cases k <;> simp only [resume] <;> first
          | exact hfin _ _
          | exact hto _ _ hp
      | cons i is => exact hto _ _ hp
    case store p par w n => exact hto _ _ (hrest w p n (hp p (by simp [Pc.paths])))
    all_goals
      simp only [Pc.paths, List.mem_cons, List.not_mem_nil, or_false, forall_eq_or_imp, forall_eq] at hp
      dsimp only
      (repeat' split) <;> first
        | exact hdie
        | exact hfin _ _
        | exact hfo _ _ _
        | (refine hto _ _ (fun _ h => ?_); simp [Pc.paths, After.paths] at h; done)
        | (refine hto _ _ ?_
           simp only [Pc.paths, Goal.paths, After.paths, List.mem_cons, List.not_mem_nil, or_false, forall_eq_or_imp,
             forall_eq, false_imp_iff, implies_true]
           first | exact hp | exact ⟨hp.2, hp.1⟩ | exact hp.1)
        | (refine hto _ _ ?_
           split <;> simp only [Pc.paths, List.mem_cons, List.not_mem_nil, or_false, forall_eq, After.paths,
             false_imp_iff, implies_true] <;> exact hp)
        | (refine hto _ _ (fun _ h => ?_); simp [Pc.paths, After.paths] at h; done)

theorem Mine.step {s : State} (h : ∀ t, Mine s t) (a : Act) : ∀ t, Mine (step s a) t := by
  intro u
  unfold NameConc.step
  split
  · exact h u
  · cases a with
    | go t =>
      by_cases e : u = t
      · subst e; exact (h u).go
      · have := Mine.go_other (s := s) e
        rcases h u with h1 | ⟨c, h1, h2⟩
        · exact .inl (this.1.trans h1)
        · exact .inr ⟨c, this.2.trans h1, by rw [this.1]; exact h2⟩
    | start t c =>
      dsimp only
      split
      · have hb : Mine (s.begin t c) u := by
          by_cases e : u = t
          · subst e
            refine .inr ⟨c, by simp [State.begin], ?_⟩
            cases c <;> simp [State.begin, begin, Pc.paths, Goal.paths, Call.paths]
          · rcases h u with h1 | ⟨c', h1, h2⟩
            · exact .inl (by simp [State.begin, e, h1])
            · exact .inr ⟨c', by simp [State.begin, e, h1], by simpa [State.begin, e] using h2⟩
        split
        · exact h u
        · exact hb
      · exact h u

theorem Mine.run {s : State} (h : ∀ t, Mine s t) (as : List Act) : ∀ t, Mine (run s as) t := by
  induction as generalizing s with
  | nil => exact h
  | cons a as ih => exact ih (Mine.step h a)

/-- Entries that two directories disagree on. -/
def Differ (a b : Option Inode) (n : Name) : Prop :=
  ∃ x y, a = some x ∧ b = some y ∧ entGet x.ents n ≠ entGet y.ents n

theorem Differ.not_self {a : Option Inode} {n : Name} : ¬ Differ a a n := by
  rintro ⟨x, y, h1, h2, h3⟩
  rw [h1] at h2; cases h2; exact h3 rfl

theorem Differ.set {fs : Fs} {k d : Nat} {x x' : Inode} {n : Name} (hk : fs.inodes k = some x)
    (h : Differ (fs.inodes d) ((fs.set k (some x')).inodes d) n) : entGet x.ents n ≠ entGet x'.ents n := by
  simp only [Fs.set, upd_apply] at h
  split at h
  · rename_i e
    subst e
    obtain ⟨a, b, h1, h2, h3⟩ := h
    rw [hk] at h1; cases h1; cases h2; exact h3
  · exact absurd h Differ.not_self

theorem Differ.set_none {fs : Fs} {k d : Nat} {n : Name}
    (h : Differ (fs.inodes d) ((fs.set k none).inodes d) n) : False := by
  simp only [Fs.set, upd_apply] at h
  split at h
  · obtain ⟨a, b, h1, h2, h3⟩ := h; cases h2
  · exact absurd h Differ.not_self

theorem Differ.same {fs fs' : Fs} {d : Nat} {n : Name} (e : fs'.inodes = fs.inodes)
    (h : Differ (fs.inodes d) (fs'.inodes d) n) : False := by
  rw [e] at h; exact Differ.not_self h

theorem entGet_put_ne {es : List (Name × Nat)} {n m : Name} {i : Nat} (h : entGet es n ≠ entGet (entPut es m i) n) : n = m := by
  by_cases e : n = m
  · exact e
  · refine absurd ?_ h
    have : ∀ es : List (Name × Nat), entGet (entDel es m) n = entGet es n := by
      intro es
      induction es with
      | nil => rfl
      | cons a es ih =>
        obtain ⟨k, j⟩ := a
        by_cases ek : k = m
        · subst ek
          simp only [entDel, if_true, entGet, if_neg (Ne.symm e), ih]
        · simp only [entDel, if_neg ek, entGet, ih]
    simp only [entPut, entGet, if_neg (Ne.symm e), this]

theorem entGet_del_ne {es : List (Name × Nat)} {n m : Name} (h : entGet es n ≠ entGet (entDel es m) n) : n = m := by
  by_cases e : n = m
  · exact e
  · refine absurd ?_ h
    have := @entGet_put_ne es n m 0
    exact Classical.byContradiction fun h' => e (this (by simpa [entPut, entGet, Ne.symm e] using h'))

theorem removeFromParent_differ {fs : Fs} {par d : Nat} {p : List Name} {n : Name}
    (h : Differ (fs.inodes d) ((fs.removeFromParent par p).1.inodes d) n) : p.getLast? = some n := by
  unfold Fs.removeFromParent at h
  split at h
  · exact absurd h Differ.not_self
  · rename_i pd hpd
    split at h
    · split at h
      · exact absurd h Differ.not_self
      · split at h
        · exact absurd h Differ.not_self
        · rename_i m hm
          split at h
          · exact absurd h Differ.not_self
          · have := entGet_del_ne (Differ.set hpd h)
            rw [hm, this]
    · exact absurd h Differ.not_self

theorem openExisting_differ {fs : Fs} {i d : Nat} {flags : BitVec 32} {n : Name}
    (h : Differ (fs.inodes d) ((fs.openExisting i flags).1.inodes d) n) : False := by
  unfold Fs.openExisting at h
  split at h
  · exact Differ.not_self h
  · split at h
    · exact Differ.not_self h
    · rename_i nd hi
      split at h
      · exact Differ.not_self h
      · split at h
        · split at h
          · exact Differ.not_self h
          · have : Differ (fs.inodes d) ((fs.set i (some { nd with size := 0, ref := nd.ref + 1 })).inodes d) n := by
              simp only [Fs.set, (openObj_inodes _ _ _).1] at h ⊢; exact h
            exact Differ.set hi this rfl
        · have : Differ (fs.inodes d) ((fs.set i (some { nd with ref := nd.ref + 1 })).inodes d) n := by
            simp only [Fs.set, (openObj_inodes _ _ _).1] at h ⊢; exact h
          exact Differ.set hi this rfl
      · exact Differ.set hi h rfl

theorem go_differ {s : State} {t d : Nat} {n : Name} (hf : Fresh s) (h : Differ (s.fs.inodes d) ((go s t).fs.inodes d) n) :
    ∃ p ∈ (s.pc t).paths, p.getLast? = some n := by
  have ha : ∀ p r g, (arrive s t p r g).fs = s.fs := by
    intro p r g; cases g <;> simp only [arrive] <;> (repeat' split) <;> rfl
  unfold go at h
  dsimp only at h
  have no : ∀ {P : Prop}, Differ (s.fs.inodes d) (s.fs.inodes d) n → P := fun h => absurd h Differ.not_self
  cases hpc : s.pc t <;> rw [hpc] at h <;> simp only [Pc.paths] <;> try dsimp only at h
  case idle => exact no h
  case walk p ns cur prev g =>
    cases ns <;> cases cur <;> dsimp only at h
    · rw [ha] at h; exact no h
    · rw [ha] at h; exact no h
    · rw [ha] at h; exact no h
    · split at h
      · exact no h
      · split at h
        · exact no h
        · rw [ha] at h; exact no h
  case alloc => exact no h
  case enter p par new num =>
    split at h
    · rename_i pd name e1 e2
      split at h
      · have := entGet_put_ne (Differ.set e1 h)
        exact ⟨p, by simp, by rw [e2, this]⟩
      · exact no h
    · exact no h
  case store p par new num =>
    have hn := (hf.pend t num (by rw [hpc]; rfl)).2
    simp only [State.to, Fs.set, upd_apply] at h
    split at h
    · rename_i e
      subst e
      obtain ⟨x, y, h1, -⟩ := h
      rw [hn] at h1; cases h1
    · exact no h
  case log is k =>
    cases is with
    | nil => cases k <;> exact no h
    | cons => exact no h
  case logw => exact no h
  case openObj => exact (Differ.same (openObj_inodes _ _ _).1 h).elim
  case get => split at h <;> exact no h
  case openGet p i flags =>
    have hd := @openExisting_differ s.fs i d flags n
    generalize s.fs.openExisting i flags = r at h hd
    split at h
    · exact (hd h).elim
    · exact no h
    · exact (hd h).elim
  case chmodDo =>
    split at h
    · exact no h
    · rename_i e; exact (Differ.set e h rfl).elim
  case linkInc =>
    split at h
    · exact no h
    · rename_i e
      split at h
      · exact no h
      · exact (Differ.set e h rfl).elim
  case linkEnter old new i par =>
    split at h
    · rename_i pd name e1 e2
      split at h
      · have := entGet_put_ne (Differ.set e1 h)
        exact ⟨new, by simp, by rw [e2, this]⟩
      · exact no h
    · exact no h
  case linkUndo =>
    split at h
    · exact no h
    · rename_i e
      split at h
      · exact no h
      · exact (Differ.set e h rfl).elim
  case unlinkDec =>
    split at h
    · exact no h
    · rename_i e
      split at h
      · exact no h
      · split at h
        · exact no h
        · exact (Differ.set e h rfl).elim
  case unlinkRemove p i par kind zero =>
    have hd := @removeFromParent_differ s.fs par d p n
    generalize s.fs.removeFromParent par p = r at h hd
    refine ⟨p, by simp, ?_⟩
    split at h
    · exact hd h
    · exact no h
    · exact hd h
  case unlinkReap =>
    split at h
    · split at h
      · exact no h
      · exact (Differ.set_none h).elim
    · exact (Differ.set_none h).elim
  case unlinkDom => exact no h
  case rmdirPar =>
    split at h
    · exact no h
    · split at h <;> exact no h
  case rmdirNode =>
    split at h
    · exact no h
    · rename_i e
      split at h
      · split at h
        · exact no h
        · split at h
          · exact no h
          · split at h
            · exact no h
            · simp only [State.to] at h
              split at h
              · exact (Differ.set e h rfl).elim
              · exact no h
      · exact no h
  case rmdirRemove p i par rm =>
    have hd := @removeFromParent_differ s.fs par d p n
    generalize s.fs.removeFromParent par p = r at h hd
    refine ⟨p, by simp, ?_⟩
    split at h
    · exact hd h
    · exact no h
    · exact hd h
  case rmdirReap =>
    split at h
    · exact no h
    · exact (Differ.set_none h).elim
  case renameEdit old new i par =>
    split at h
    · rename_i pd o m e1 e2 e3
      split at h
      · have := Differ.set e1 h
        dsimp only at this
        by_cases eo : n = o
        · exact ⟨old, by simp, by rw [e2, eo]⟩
        · refine ⟨new, by simp, ?_⟩
          rw [e3]
          by_cases em : n = m
          · rw [em]
          · exact absurd (Classical.byContradiction fun h1 => (Classical.byContradiction fun h2 =>
              this ((Classical.not_not.1 fun h1 => em (entGet_put_ne h1)).trans
                (Classical.not_not.1 fun h1 => eo (entGet_del_ne h1))))) (fun h : False => h)
      · exact no h
    · exact no h
  case renameDom => exact no h
  case closeDec =>
    split at h
    · exact no h
    · rename_i nd e
      have hd : ∀ {P : Prop}, Differ (s.fs.inodes d) ((s.fs.set _ (some { nd with ref := nd.ref - 1 })).inodes d) n → P :=
        fun h => (Differ.set e h rfl).elim
      repeat' split at h
      all_goals first | exact no h | exact hd h
  case closeReap =>
    split at h
    · split at h
      · exact no h
      · exact (Differ.set_none h).elim
    · exact (Differ.set_none h).elim

/-- C65: in every schedule, one step changes an entry of a directory that is there before and after only under a name
that is the last component of a path in the call of the thread that takes the step.  In particular calls with other
last components, in whichever directories, can neither take that entry away nor point it elsewhere. -/
theorem entries_frame {fs : Fs} (held : Nat → Nat) (hb : ∀ i nd, fs.inodes i = some nd → i < fs.next) (as : List Act) (a : Act)
    (d : Nat) (x y : Inode) (n : Name)
    (hx : (run (init fs held) as).fs.inodes d = some x) (hy : (step (run (init fs held) as) a).fs.inodes d = some y)
    (hn : entGet x.ents n ≠ entGet y.ents n) :
    ∃ t c p, a = .go t ∧ (run (init fs held) as).call t = some c ∧ p ∈ c.paths ∧ p.getLast? = some n := by
  have hf : Fresh (run (init fs held) as) := ((Fresh.init held hb).run as).1
  have hm : ∀ t, Mine (run (init fs held) as) t := Mine.run (fun _ => .inl rfl) as
  generalize run (init fs held) as = s at *
  have hd : Differ (s.fs.inodes d) ((step s a).fs.inodes d) n := ⟨x, y, hx, hy, hn⟩
  unfold step at hd
  split at hd
  · exact absurd hd Differ.not_self
  · cases a with
    | start t c =>
      dsimp only at hd
      split at hd
      · split at hd <;> exact absurd hd Differ.not_self
      · exact absurd hd Differ.not_self
    | go t =>
      obtain ⟨p, hp, hl⟩ := go_differ hf hd
      rcases hm t with h1 | ⟨c, h1, h2⟩
      · rw [h1] at hp; cases hp
      · exact ⟨t, c, p, rfl, h1, h2 p hp, hl⟩

end Verif.NameConc
