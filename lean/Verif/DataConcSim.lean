import Verif.DataConcSeq

/-!
# Every schedule of calls on open files is a run of the specification

A call takes effect in the specification when it gets the lock of the inode, or when its answer is known before that.  From then on
its slot and its file are behind those of the specification, until its effects are over; nobody else sees them before.
-/

namespace Verif.DataConc
open Verif.Fs Verif.Kernel

/-! ## The locks -/

/-- Whether the thread holds its descriptor. -/
def Pc.holds : Pc → Bool
  | .idle | .wait => false
  | _ => true

/-- The inode that the thread holds. -/
def Pc.inode : Pc → Option Nat
  | .node i _ _ _ => some i
  | _ => none

/-- The lock tables say who holds what (`H`: who holds their descriptor, `N`: who holds which inode), and a holder for writing is alone. -/
structure Locks (slots : Nat → Nat → Lock) (nodes : Nat → Lock) (job : Nat → Option Job) (H : Nat → Bool) (N : Nat → Option Nat) :
    Prop where
  slots : ∀ c fd t x, (t, x) ∈ slots c fd ↔ ∃ call, job t = some ⟨c, fd, call⟩ ∧ H t = true ∧ x = call.slotEx
  nodes : ∀ i t x, (t, x) ∈ nodes i ↔ ∃ j, job t = some j ∧ N t = some i ∧ x = j.call.inoEx
  slotMx : ∀ t u c fd a b, t ≠ u → job t = some ⟨c, fd, a⟩ → job u = some ⟨c, fd, b⟩ → H t = true → H u = true →
    a.slotEx = false ∧ b.slotEx = false
  nodeMx : ∀ t u i j k, t ≠ u → job t = some j → job u = some k → N t = some i → N u = some i →
    j.call.inoEx = false ∧ k.call.inoEx = false
  /-- who holds an inode holds their descriptor -/
  both : ∀ t i, N t = some i → H t = true

/-- The locks of a state. -/
def Conc.Locked (C : Conc) : Prop := Locks C.slots C.nodes C.job (fun t => (C.pc t).holds) (fun t => (C.pc t).inode)

theorem mem_drop {l : Lock} {t u : Nat} {x : Bool} : (u, x) ∈ l.drop t ↔ (u, x) ∈ l ∧ u ≠ t := by
  simp [Lock.drop]

theorem free_mem {l : Lock} {ex : Bool} (h : l.free ex = true) {u : Nat} {x : Bool} (hu : (u, x) ∈ l) : ex = false ∧ x = false := by
  simp only [Lock.free, List.all_eq_true] at h
  simpa using h _ hu

/-- A move that takes and drops nothing. -/
theorem Locked.keep {C : Conc} (h : C.Locked) {t : Nat} {p : Pc} {s : State} (h1 : p.holds = (C.pc t).holds)
    (h2 : p.inode = (C.pc t).inode) : ({ C with s := s, pc := upd C.pc t p } : Conc).Locked := by
  have e1 : (fun u => (upd C.pc t p u).holds) = fun u => (C.pc u).holds := by
    funext u
    by_cases e : u = t
    · subst e; rw [upd_same, h1]
    · rw [upd_ne _ _ e]
  have e2 : (fun u => (upd C.pc t p u).inode) = fun u => (C.pc u).inode := by
    funext u
    by_cases e : u = t
    · subst e; rw [upd_same, h2]
    · rw [upd_ne _ _ e]
  unfold Conc.Locked
  simp only
  rw [e1, e2]
  exact h

/-- A call begins. -/
theorem Locked.start {C : Conc} (h : C.Locked) {t : Nat} {j : Job} (hi : C.job t = none) :
    ({ C.at t .wait with job := upd C.job t (some j) } : Conc).Locked := by
  obtain ⟨h1, h2, h3, h4, h5⟩ := h
  refine ⟨?_, ?_, ?_, ?_, ?_⟩
  · intro c fd u x
    by_cases e : u = t
    · subst e
      simp only [Conc.at, upd_same, Pc.holds, h1, hi]
      simp
    · simp only [Conc.at, upd_ne _ _ e, h1]
  · intro i u x
    by_cases e : u = t
    · subst e
      simp only [Conc.at, upd_same, Pc.inode, h2, hi]
      simp
    · simp only [Conc.at, upd_ne _ _ e, h2]
  · intro t1 u c fd a b hne
    by_cases e : t1 = t
    · subst e; simp [Conc.at, upd_same, Pc.holds]
    · by_cases e' : u = t
      · subst e'; simp [Conc.at, upd_same, Pc.holds]
      · simp only [Conc.at, upd_ne _ _ e, upd_ne _ _ e']
        exact h3 t1 u c fd a b hne
  · intro t1 u i j k hne
    by_cases e : t1 = t
    · subst e; simp [Conc.at, upd_same, Pc.inode]
    · by_cases e' : u = t
      · subst e'; simp [Conc.at, upd_same, Pc.inode]
      · simp only [Conc.at, upd_ne _ _ e, upd_ne _ _ e']
        exact h4 t1 u i j k hne
  · intro u i
    by_cases e : u = t
    · subst e; simp [Conc.at, upd_same, Pc.inode]
    · simp only [Conc.at, upd_ne _ _ e]
      exact h5 u i

/-- A thread takes its descriptor. -/
theorem Locked.take {C : Conc} (h : C.Locked) {t c fd : Nat} {call : Call} (hj : C.job t = some ⟨c, fd, call⟩) (hp : C.pc t = .wait)
    (hf : Lock.free (C.slots c fd) call.slotEx = true) :
    ((C.setSlot c fd ((t, call.slotEx) :: C.slots c fd)).at t .slot).Locked := by
  obtain ⟨h1, h2, h3, h4, h5⟩ := h
  have hout : ∀ u x, (u, x) ∈ C.slots c fd → call.slotEx = false ∧ x = false := fun u x hu => free_mem hf hu
  have key : ∀ u b, u ≠ t → C.job u = some ⟨c, fd, b⟩ → (C.pc u).holds = true → call.slotEx = false ∧ b.slotEx = false :=
    fun u b _ hb hh => hout u _ ((h1 c fd u _).2 ⟨b, hb, hh, rfl⟩)
  have hn : (t, true) ∉ C.slots c fd ∧ (t, false) ∉ C.slots c fd := by
    constructor <;>
    · intro hx
      obtain ⟨_, _, e, _⟩ := (h1 c fd t _).1 hx
      simp [hp, Pc.holds] at e
  refine ⟨?_, ?_, ?_, ?_, ?_⟩
  · intro c' fd' u x
    by_cases e : u = t
    · subst e
      have : (u, x) ∈ C.slots c' fd' ↔ False := by
        rw [h1]; simp [hp, Pc.holds]
      by_cases ec : c' = c
      · subst ec
        by_cases ef : fd' = fd
        · subst ef
          simp only [Conc.at, Conc.setSlot, upd_same, Pc.holds, List.mem_cons, this, hj]
          simp
        · simp only [Conc.at, Conc.setSlot, upd_same, upd_ne _ _ ef, Pc.holds, this, hj]
          simp [Ne.symm ef]
      · simp only [Conc.at, Conc.setSlot, upd_ne _ _ ec, this, hj]
        simp [Ne.symm ec]
    · have ht : (u, x) ≠ (t, call.slotEx) := by simp [e]
      simp only [Conc.at, Conc.setSlot, upd_ne _ _ e]
      by_cases ec : c' = c
      · subst ec
        by_cases ef : fd' = fd
        · subst ef; simp only [upd_same, List.mem_cons, ht, false_or, h1]
        · simp only [upd_same, upd_ne _ _ ef, h1]
      · simp only [upd_ne _ _ ec, h1]
  · intro i u x
    by_cases e : u = t
    · subst e; simp only [Conc.at, Conc.setSlot, upd_same, Pc.inode, h2, hp]
    · simp only [Conc.at, Conc.setSlot, upd_ne _ _ e, h2]
  · intro t1 u c' fd' a b hne ha hb h1' h2'
    simp only [Conc.at, Conc.setSlot] at ha hb h1' h2'
    by_cases e : t1 = t
    · subst e
      have e' : u ≠ t1 := fun x => hne x.symm
      rw [upd_ne _ _ e'] at h2'
      rw [hj] at ha
      cases ha
      exact key u b e' hb h2'
    · rw [upd_ne _ _ e] at h1'
      by_cases e' : u = t
      · subst e'
        rw [hj] at hb
        cases hb
        exact (key t1 a e ha h1').symm
      · rw [upd_ne _ _ e'] at h2'
        exact h3 t1 u c' fd' a b hne ha hb h1' h2'
  · intro t1 u i j k hne
    simp only [Conc.at, Conc.setSlot]
    by_cases e : t1 = t
    · subst e; simp [upd_same, Pc.inode]
    · by_cases e' : u = t
      · subst e'; simp [upd_same, Pc.inode]
      · simp only [upd_ne _ _ e, upd_ne _ _ e']
        exact h4 t1 u i j k hne
  · intro u i
    by_cases e : u = t
    · subst e; simp [Conc.at, upd_same, Pc.inode]
    · simp only [Conc.at, Conc.setSlot, upd_ne _ _ e]
      exact h5 u i

/-- A thread drops its descriptor and returns. -/
theorem Locked.leave {C : Conc} (h : C.Locked) {t c fd : Nat} {call : Call} (hj : C.job t = some ⟨c, fd, call⟩)
    (hp : (C.pc t).inode = none) :
    ({ (C.setSlot c fd ((C.slots c fd).drop t)).at t .idle with job := upd C.job t none } : Conc).Locked := by
  obtain ⟨h1, h2, h3, h4, h5⟩ := h
  refine ⟨?_, ?_, ?_, ?_, ?_⟩
  · intro c' fd' u x
    by_cases e : u = t
    · subst e
      simp only [Conc.at, Conc.setSlot, upd_same]
      by_cases ec : c' = c
      · subst ec
        by_cases ef : fd' = fd
        · subst ef; simp [upd_same, mem_drop]
        · simp only [upd_same, upd_ne _ _ ef, h1, hj]; simp [Ne.symm ef]
      · simp only [upd_ne _ _ ec, h1, hj]; simp [Ne.symm ec]
    · simp only [Conc.at, Conc.setSlot, upd_ne _ _ e]
      by_cases ec : c' = c
      · subst ec
        by_cases ef : fd' = fd
        · subst ef; simp only [upd_same, mem_drop, h1]; simp [e]
        · simp only [upd_same, upd_ne _ _ ef, h1]
      · simp only [upd_ne _ _ ec, h1]
  · intro i u x
    by_cases e : u = t
    · subst e
      simp only [Conc.at, Conc.setSlot, upd_same]
      rw [h2]
      simp [hp]
    · simp only [Conc.at, Conc.setSlot, upd_ne _ _ e, h2]
  · intro t1 u c' fd' a b hne
    simp only [Conc.at, Conc.setSlot]
    by_cases e : t1 = t
    · subst e; simp [upd_same]
    · by_cases e' : u = t
      · subst e'; simp [upd_same]
      · simp only [upd_ne _ _ e, upd_ne _ _ e']
        exact h3 t1 u c' fd' a b hne
  · intro t1 u i j k hne
    simp only [Conc.at, Conc.setSlot]
    by_cases e : t1 = t
    · subst e; simp [upd_same]
    · by_cases e' : u = t
      · subst e'; simp [upd_same]
      · simp only [upd_ne _ _ e, upd_ne _ _ e']
        exact h4 t1 u i j k hne
  · intro u i
    by_cases e : u = t
    · subst e; simp [Conc.at, upd_same, Pc.inode]
    · simp only [Conc.at, Conc.setSlot, upd_ne _ _ e]
      exact h5 u i

/-- A thread takes an inode. -/
theorem Locked.takeNode {C : Conc} (h : C.Locked) {t c fd i pos : Nat} {f : BitVec 32} {b : Body} {call : Call}
    (hj : C.job t = some ⟨c, fd, call⟩) (hp : C.pc t = .want i pos f) (hf : Lock.free (C.nodes i) call.inoEx = true) :
    ({ C with nodes := upd C.nodes i ((t, call.inoEx) :: C.nodes i) }.at t (.node i pos f b)).Locked := by
  obtain ⟨h1, h2, h3, h4, h5⟩ := h
  have key : ∀ u k, C.job u = some k → (C.pc u).inode = some i → call.inoEx = false ∧ k.call.inoEx = false :=
    fun u k hk hh => free_mem hf ((h2 i u _).2 ⟨k, hk, hh, rfl⟩)
  have eH : (fun u => (upd C.pc t (.node i pos f b) u).holds) = fun u => (C.pc u).holds := by
    funext u
    by_cases e : u = t
    · subst e; rw [upd_same, hp]; rfl
    · rw [upd_ne _ _ e]
  refine ⟨?_, ?_, ?_, ?_, ?_⟩
  · intro c' fd' u x
    have := congrFun eH u
    simp only [Conc.at] at this ⊢
    rw [this]
    exact h1 _ _ _ _
  · intro k u x
    simp only [Conc.at]
    by_cases e : u = t
    · subst e
      have hno : (u, x) ∈ C.nodes k ↔ False := by rw [h2]; simp [hp, Pc.inode]
      by_cases ek : k = i
      · subst ek
        simp only [upd_same, List.mem_cons, hno, hj, Pc.inode]
        simp
      · simp only [upd_ne _ _ ek, upd_same, hno, hj, Pc.inode]
        simp [Ne.symm ek]
    · have ht : (u, x) ≠ (t, call.inoEx) := by simp [e]
      by_cases ek : k = i
      · subst ek
        simp only [upd_same, List.mem_cons, ht, false_or, upd_ne _ _ e, h2]
      · simp only [upd_ne _ _ ek, upd_ne _ _ e, h2]
  · intro t1 u c' fd' x y hne ha hb g1 g2
    simp only [Conc.at] at ha hb g1 g2
    rw [congrFun eH t1] at g1
    rw [congrFun eH u] at g2
    exact h3 t1 u c' fd' x y hne ha hb g1 g2
  · intro t1 u k a b' hne ha hb g1 g2
    simp only [Conc.at] at ha hb g1 g2
    by_cases e : t1 = t
    · subst e
      have e' : u ≠ t1 := fun x => hne x.symm
      rw [upd_same] at g1
      rw [upd_ne _ _ e'] at g2
      rw [hj] at ha
      simp only [Pc.inode, Option.some.injEq] at g1
      subst g1
      cases ha
      exact key u b' hb g2
    · rw [upd_ne _ _ e] at g1
      by_cases e' : u = t
      · subst e'
        rw [upd_same] at g2
        rw [hj] at hb
        simp only [Pc.inode, Option.some.injEq] at g2
        subst g2
        cases hb
        exact (key t1 a ha g1).symm
      · rw [upd_ne _ _ e'] at g2
        exact h4 t1 u k a b' hne ha hb g1 g2
  · intro u k hk
    simp only [Conc.at] at hk ⊢
    by_cases e : u = t
    · subst e; rw [upd_same]; rfl
    · rw [upd_ne _ _ e] at hk ⊢
      exact h5 u k hk

/-- A thread drops its inode. -/
theorem Locked.dropNode {C : Conc} (h : C.Locked) {t i pos : Nat} {f : BitVec 32} {b : Body} {p : Pc}
    (hp : C.pc t = .node i pos f b) (hh : p.holds = true) (hn : p.inode = none) :
    ({ C with nodes := upd C.nodes i ((C.nodes i).drop t) }.at t p).Locked := by
  obtain ⟨h1, h2, h3, h4, h5⟩ := h
  have eH : (fun u => (upd C.pc t p u).holds) = fun u => (C.pc u).holds := by
    funext u
    by_cases e : u = t
    · subst e; rw [upd_same, hp, hh]; rfl
    · rw [upd_ne _ _ e]
  refine ⟨?_, ?_, ?_, ?_, ?_⟩
  · intro c' fd' u x
    have := congrFun eH u
    simp only [Conc.at] at this ⊢
    rw [this]
    exact h1 _ _ _ _
  · intro k u x
    simp only [Conc.at]
    by_cases e : u = t
    · subst e
      by_cases ek : k = i
      · subst ek
        simp [upd_same, mem_drop, hn]
      · simp only [upd_ne _ _ ek, upd_same, h2, hp, hn]
        simp [Pc.inode, Ne.symm ek]
    · by_cases ek : k = i
      · subst ek
        simp only [upd_same, mem_drop, upd_ne _ _ e, h2]
        simp [e]
      · simp only [upd_ne _ _ ek, upd_ne _ _ e, h2]
  · intro t1 u c' fd' x y hne ha hb g1 g2
    simp only [Conc.at] at ha hb g1 g2
    rw [congrFun eH t1] at g1
    rw [congrFun eH u] at g2
    exact h3 t1 u c' fd' x y hne ha hb g1 g2
  · intro t1 u k a b' hne ha hb g1 g2
    simp only [Conc.at] at ha hb g1 g2
    by_cases e : t1 = t
    · subst e; rw [upd_same, hn] at g1; cases g1
    · rw [upd_ne _ _ e] at g1
      by_cases e' : u = t
      · subst e'; rw [upd_same, hn] at g2; cases g2
      · rw [upd_ne _ _ e'] at g2
        exact h4 t1 u k a b' hne ha hb g1 g2
  · intro u k hk
    simp only [Conc.at] at hk ⊢
    by_cases e : u = t
    · subst e; rw [upd_same, hn] at hk; cases hk
    · rw [upd_ne _ _ e] at hk ⊢
      exact h5 u k hk

/-! ## The simulation -/

/-- Where a thread is, and where its call is in the specification. -/
def ThreadOk (s a : State) (job : Option Job) (pend : Option (Job × Option Out)) : Pc → Prop
  | .idle => job = none ∧ pend = none
  | .wait | .slot => ∃ j, job = some j ∧ pend = some (j, none) ∧ (a.cages j.cage).isSome ∧ j.fd < maxFd
  | .want i pos f => ∃ j, job = some j ∧ pend = some (j, none) ∧ (a.cages j.cage).isSome ∧ j.fd < maxFd ∧
      look j.call (slot s j.cage j.fd) = .inode i pos f
  | .node i pos f b => ∃ j o, job = some j ∧ pend = some (j, some o) ∧ (a.cages j.cage).isSome ∧ Fits j.call b ∧
      Completes j.call i pos f b (slot s j.cage j.fd) (file s i) (slot a j.cage j.fd) (file a i) o
  | .logRead _ o | .logWrite _ _ o | .leave o => ∃ j, job = some j ∧ pend = some (j, some o)

/-- The memory of the concurrent model and that of the specification: the same but for what a thread that holds it for writing
has not done yet. -/
structure Rel (C : Conc) (A : Abs) : Prop where
  locks : C.Locked
  frame : DataConc.frame C.s = DataConc.frame A.s
  thr : ∀ t, ThreadOk C.s A.s (C.job t) (A.pend t) (C.pc t)
  slot : ∀ c fd, (∀ t call i, C.job t = some ⟨c, fd, call⟩ → (C.pc t).inode = some i → call.slotEx = false) →
    DataConc.slot C.s c fd = DataConc.slot A.s c fd
  file : ∀ i, (∀ t j, C.job t = some j → (C.pc t).inode = some i → j.call.inoEx = false) → DataConc.file C.s i = DataConc.file A.s i

/-- A thread that holds its descriptor and no inode sees the slot of the specification. -/
theorem Rel.slot_eq {C : Conc} {A : Abs} (h : Rel C A) {t c fd : Nat} {call : Call} (hj : C.job t = some ⟨c, fd, call⟩)
    (hh : (C.pc t).holds = true) (hn : (C.pc t).inode = none) : DataConc.slot C.s c fd = DataConc.slot A.s c fd := by
  refine h.slot c fd (fun u k i hu hi => ?_)
  by_cases e : u = t
  · subst e; rw [hn] at hi; cases hi
  · exact (h.locks.slotMx u t c fd k call e hu hj (h.locks.both u i hi) hh).1

/-- `ThreadOk` of another thread: its slot (if it holds it) and its file (if it holds it) are as before. -/
theorem ThreadOk.keep {s s' a a' : State} {job : Option Job} {pend : Option (Job × Option Out)} {p : Pc}
    (h : ThreadOk s a job pend p) (hc : ∀ c, (a'.cages c).isSome = (a.cages c).isSome)
    (hs : p.holds = true → ∀ j, job = some j → slot s' j.cage j.fd = slot s j.cage j.fd)
    (ha : ∀ i, p.inode = some i → ∀ j, job = some j → slot a' j.cage j.fd = slot a j.cage j.fd)
    (hf : ∀ i, p.inode = some i → file s' i = file s i ∧ file a' i = file a i) : ThreadOk s' a' job pend p := by
  cases p with
  | idle => exact h
  | wait => obtain ⟨j, h1, h2, h3, h4⟩ := h; exact ⟨j, h1, h2, by rw [hc]; exact h3, h4⟩
  | slot => obtain ⟨j, h1, h2, h3, h4⟩ := h; exact ⟨j, h1, h2, by rw [hc]; exact h3, h4⟩
  | want i pos f =>
    obtain ⟨j, h1, h2, h3, h4, h5⟩ := h
    exact ⟨j, h1, h2, by rw [hc]; exact h3, h4, by rw [hs rfl j h1]; exact h5⟩
  | node i pos f b =>
    obtain ⟨j, o, h1, h2, h3, h4, h5⟩ := h
    refine ⟨j, o, h1, h2, by rw [hc]; exact h3, h4, ?_⟩
    rw [hs rfl j h1, ha i rfl j h1, (hf i rfl).1, (hf i rfl).2]
    exact h5
  | logRead i o => exact h
  | logWrite i r o => exact h
  | leave o => exact h

/-- `ThreadOk` of all threads after thread `t` moves and the memory stays. -/
theorem thr_move {C : Conc} {A : Abs} (h : Rel C A) {t : Nat} {p : Pc} {job' : Nat → Option Job} {pend' : Nat → Option (Job × Option Out)}
    (hj : ∀ u, u ≠ t → job' u = C.job u) (hq : ∀ u, u ≠ t → pend' u = A.pend u) (ht : ThreadOk C.s A.s (job' t) (pend' t) p) (u : Nat) :
    ThreadOk C.s A.s (job' u) (pend' u) (upd C.pc t p u) := by
  by_cases e : u = t
  · subst e; rw [upd_same]; exact ht
  · rw [upd_ne _ _ e, hj u e, hq u e]; exact h.thr u

/-- A move that changes neither what the thread holds for writing, nor the memory but for the log. -/
theorem Rel.quiet {C C' : Conc} {A A' : Abs} (h : Rel C A) (hl : C'.Locked) (hs : SameButLog C'.s C.s) (ha : A'.s = A.s)
    (thr : ∀ t, ThreadOk C.s A.s (C'.job t) (A'.pend t) (C'.pc t))
    (hi : ∀ t j i, C.job t = some j → (C.pc t).inode = some i → C'.job t = some j ∧ (C'.pc t).inode = some i) : Rel C' A' := by
  refine ⟨hl, by rw [ha, hs.frame]; exact h.frame, ?_, ?_, ?_⟩
  · intro t
    refine (thr t).keep (fun c => by rw [ha]) (fun _ j _ => hs.slot _ _) (fun i _ j _ => by rw [ha]) (fun i _ => ⟨hs.file i, by rw [ha]⟩)
  · intro c fd hd
    rw [hs.slot, ha]
    exact h.slot c fd (fun t call i h1 h2 => hd t call i (hi t _ i h1 h2).1 (hi t _ i h1 h2).2)
  · intro i hd
    rw [hs.file, ha]
    exact h.file i (fun t j h1 h2 => hd t j (hi t _ i h1 h2).1 (hi t _ i h1 h2).2)

/-! ## The moves, one by one -/

theorem Rel.start {C : Conc} {A : Abs} (h : Rel C A) {t : Nat} {j : Job} (h0 : C.job t = none) (hc : (C.s.cages j.cage).isSome)
    (hfd : j.fd < maxFd) :
    A.pend t = none ∧ Rel ({ C.at t .wait with job := upd C.job t (some j) }) ⟨A.s, upd A.pend t (some (j, none))⟩ := by
  have hp : C.pc t = .idle ∧ A.pend t = none := by
    have := h.thr t
    rw [h0] at this
    cases hp : C.pc t <;> rw [hp] at this
    · exact ⟨rfl, this.2⟩
    all_goals first
      | (obtain ⟨_, h1, _⟩ := this; cases h1; done)
      | (obtain ⟨_, _, h1, _⟩ := this; cases h1; done)
  refine ⟨hp.2, h.quiet (Locked.start h.locks h0) (.refl _) rfl ?_ ?_⟩
  · refine thr_move h (fun u e => upd_ne _ _ e) (fun u e => upd_ne _ _ e) ?_
    refine ⟨j, upd_same _ _ _, upd_same _ _ _, ?_, hfd⟩
    rw [← frame_cage h.frame]; exact hc
  · intro u k i h1 h2
    have e : u ≠ t := by intro e; subst e; rw [h0] at h1; cases h1
    simp only [Conc.at, upd_ne _ _ e]
    exact ⟨h1, h2⟩

theorem Rel.take {C : Conc} {A : Abs} (h : Rel C A) {t c fd : Nat} {call : Call} (hj : C.job t = some ⟨c, fd, call⟩)
    (hp : C.pc t = .wait) (hf : Lock.free (C.slots c fd) call.slotEx = true) :
    Rel ((C.setSlot c fd ((t, call.slotEx) :: C.slots c fd)).at t .slot) A := by
  have ht := h.thr t
  rw [hp] at ht
  refine h.quiet (Locked.take h.locks hj hp hf) (.refl _) rfl (thr_move h (fun _ _ => rfl) (fun _ _ => rfl) ht) ?_
  intro u k i h1 h2
  have e : u ≠ t := by intro e; subst e; rw [hp] at h2; cases h2
  simp only [Conc.at, Conc.setSlot, upd_ne _ _ e]
  exact ⟨h1, h2⟩

theorem Rel.look {C : Conc} {A : Abs} (h : Rel C A) {t c fd i pos : Nat} {f : BitVec 32} {call : Call}
    (hj : C.job t = some ⟨c, fd, call⟩) (hp : C.pc t = .slot) (hl : DataConc.look call (DataConc.slot C.s c fd) = .inode i pos f) :
    Rel (C.at t (.want i pos f)) A := by
  have ht := h.thr t
  rw [hp] at ht
  refine h.quiet (Locked.keep h.locks (by rw [hp]; rfl) (by rw [hp]; rfl)) (.refl _) rfl
    (thr_move h (fun _ _ => rfl) (fun _ _ => rfl) ?_) ?_
  · obtain ⟨j, h1, h2, h3, h4⟩ := ht
    refine ⟨j, h1, h2, h3, h4, ?_⟩
    rw [hj] at h1
    cases h1
    exact hl
  · intro u k i' g1 g2
    have e : u ≠ t := by intro e; subst e; rw [hp] at g2; cases g2
    simp only [Conc.at, upd_ne _ _ e]
    exact ⟨g1, g2⟩

theorem Rel.answer {C : Conc} {A : Abs} (h : Rel C A) {t c fd : Nat} {o : Out} {call : Call}
    (hj : C.job t = some ⟨c, fd, call⟩) (hp : C.pc t = .slot) (hl : DataConc.look call (DataConc.slot C.s c fd) = .answer o) :
    A.pend t = some (⟨c, fd, call⟩, none) ∧ Kernel.step A.s c (call.op fd) = (A.s, o) ∧
      Rel (C.at t (.leave o)) ⟨A.s, upd A.pend t (some (⟨c, fd, call⟩, some o))⟩ := by
  have ht := h.thr t
  rw [hp] at ht
  obtain ⟨j, h1, h2, h3, h4⟩ := ht
  rw [hj] at h1
  cases h1
  rw [h.slot_eq hj (by rw [hp]; rfl) (by rw [hp]; rfl)] at hl
  refine ⟨h2, step_answer h3 h4 hl, h.quiet (Locked.keep h.locks (by rw [hp]; rfl) (by rw [hp]; rfl)) (.refl _) rfl
    (thr_move h (fun _ _ => rfl) (fun _ e => upd_ne _ _ e) ?_) ?_⟩
  · exact ⟨_, hj, upd_same _ _ _⟩
  · intro u k i' g1 g2
    have e : u ≠ t := by intro e; subst e; rw [hp] at g2; cases g2
    simp only [Conc.at, upd_ne _ _ e]
    exact ⟨g1, g2⟩

theorem Rel.record {C : Conc} {A : Abs} (h : Rel C A) {t i : Nat} {r : Option Inode} {o : Out} (hp : C.pc t = .logRead i o) :
    Rel (C.at t (.logWrite i r o)) A := by
  have ht := h.thr t
  rw [hp] at ht
  refine h.quiet (Locked.keep h.locks (by rw [hp]; rfl) (by rw [hp]; rfl)) (.refl _) rfl
    (thr_move h (fun _ _ => rfl) (fun _ _ => rfl) ht) ?_
  intro u k i' h1 h2
  have e : u ≠ t := by intro e; subst e; rw [hp] at h2; cases h2
  simp only [Conc.at, upd_ne _ _ e]
  exact ⟨h1, h2⟩

theorem Rel.log {C : Conc} {A : Abs} (h : Rel C A) {t i : Nat} {r : Option Inode} {o : Out} {l : List (Nat × Option Inode)}
    (hp : C.pc t = .logWrite i r o) :
    Rel ({ C with s := { C.s with fs := { C.s.fs with log := l } } }.at t (.leave o)) A := by
  have ht := h.thr t
  rw [hp] at ht
  refine h.quiet (Locked.keep h.locks (by rw [hp]; rfl) (by rw [hp]; rfl)) rfl rfl
    (thr_move h (fun _ _ => rfl) (fun _ _ => rfl) ht) ?_
  intro u k i' h1 h2
  have e : u ≠ t := by intro e; subst e; rw [hp] at h2; cases h2
  simp only [Conc.at, upd_ne _ _ e]
  exact ⟨h1, h2⟩

theorem Rel.leave {C : Conc} {A : Abs} (h : Rel C A) {t c fd : Nat} {o : Out} {call : Call}
    (hj : C.job t = some ⟨c, fd, call⟩) (hp : C.pc t = .leave o) :
    A.pend t = some (⟨c, fd, call⟩, some o) ∧
      Rel ({ (C.setSlot c fd ((C.slots c fd).drop t)).at t .idle with job := upd C.job t none }) ⟨A.s, upd A.pend t none⟩ := by
  have ht := h.thr t
  rw [hp] at ht
  obtain ⟨j, h1, h2⟩ := ht
  rw [hj] at h1
  cases h1
  refine ⟨h2, h.quiet (Locked.leave h.locks hj (by rw [hp]; rfl)) (.refl _) rfl
    (thr_move h (fun _ e => upd_ne _ _ e) (fun _ e => upd_ne _ _ e) ?_) ?_⟩
  · exact ⟨upd_same _ _ _, upd_same _ _ _⟩
  · intro u k i' g1 g2
    have e : u ≠ t := by intro e; subst e; rw [hp] at g2; cases g2
    simp only [Conc.at, Conc.setSlot, upd_ne _ _ e]
    exact ⟨g1, g2⟩

/-- The effects of a call are over, it drops the inode. -/
theorem Rel.over {C : Conc} {A : Abs} (h : Rel C A) {t i pos : Nat} {f : BitVec 32} {o : Out} {l : Bool} {p : Pc}
    (hp : C.pc t = .node i pos f (.over o l)) (hq : p = .leave o ∨ p = .logRead i o) :
    Rel ({ C with nodes := upd C.nodes i ((C.nodes i).drop t) }.at t p) A := by
  have ht := h.thr t
  rw [hp] at ht
  obtain ⟨j, o', h1, h2, h3, h4, h5⟩ := ht
  obtain ⟨e1, e2, e3⟩ := h5.done
  subst e3
  have hh : p.holds = true := by rcases hq with rfl | rfl <;> rfl
  have hn : p.inode = none := by rcases hq with rfl | rfl <;> rfl
  refine ⟨Locked.dropNode h.locks hp hh hn, h.frame, thr_move h (fun _ _ => rfl) (fun _ _ => rfl) ?_, ?_, ?_⟩
  · rcases hq with rfl | rfl <;> exact ⟨j, h1, h2⟩
  · intro c fd hd
    by_cases e : c = j.cage ∧ fd = j.fd
    · rw [e.1, e.2]; exact e1.symm
    · refine h.slot c fd (fun u call k hu hk => ?_)
      by_cases e' : u = t
      · subst e'
        rw [h1] at hu
        cases hu
        exact absurd ⟨rfl, rfl⟩ e
      · refine hd u call k hu ?_
        simp only [Conc.at, upd_ne _ _ e']
        exact hk
  · intro k hd
    by_cases e : k = i
    · rw [e]; exact e2.symm
    · refine h.file k (fun u j' hu hk => ?_)
      by_cases e' : u = t
      · subst e'
        rw [hp] at hk
        simp only [Pc.inode, Option.some.injEq] at hk
        exact absurd hk.symm e
      · refine hd u j' hu ?_
        simp only [Conc.at, upd_ne _ _ e']
        exact hk

/-- A call gets the lock of the inode: it takes effect in the specification. -/
theorem Rel.commit {C : Conc} {A : Abs} (h : Rel C A) {t c fd i pos : Nat} {f : BitVec 32} {call : Call}
    (hj : C.job t = some ⟨c, fd, call⟩) (hp : C.pc t = .want i pos f) (hf : Lock.free (C.nodes i) call.inoEx = true) :
    A.pend t = some (⟨c, fd, call⟩, none) ∧
      Rel ({ C with nodes := upd C.nodes i ((t, call.inoEx) :: C.nodes i) }.at t (.node i pos f .start))
        ⟨(Kernel.step A.s c (call.op fd)).1, upd A.pend t (some (⟨c, fd, call⟩, some (Kernel.step A.s c (call.op fd)).2))⟩ := by
  have ht := h.thr t
  rw [hp] at ht
  obtain ⟨j, h1, h2, h3, h4, h5⟩ := ht
  rw [hj] at h1
  cases h1
  have hse := h.slot_eq hj (by rw [hp]; rfl) (by rw [hp]; rfl)
  have hfe : DataConc.file C.s i = DataConc.file A.s i :=
    h.file i (fun u k hu hk => (free_mem hf ((h.locks.nodes i u _).2 ⟨k, hu, hk, rfl⟩)).2)
  simp only at h3 h4 h5
  rw [hse] at h5
  obtain ⟨d, F, hs, hco⟩ := step_inode h3 h4 h5
  have hkeep := hco.kept trivial
  have hcages : ((setFile A.s i F).cages c).isSome := h3
  have hslot : ∀ c' fd', DataConc.slot (Kernel.step A.s c (call.op fd)).1 c' fd' =
      if c' = c ∧ fd' = fd then d else DataConc.slot A.s c' fd' := by
    intro c' fd'
    rw [hs.slot, slot_setFd _ _ _ _ _ _ hcages, slot_setFile]
  have hfile : ∀ k, DataConc.file (Kernel.step A.s c (call.op fd)).1 k = if k = i then F else DataConc.file A.s k := by
    intro k
    rw [hs.file, file_setFd, file_setFile]
  have hframe : DataConc.frame (Kernel.step A.s c (call.op fd)).1 = DataConc.frame A.s := by
    rw [hs.frame, frame_setFd, frame_setFile]
  refine ⟨h2, Locked.takeNode h.locks hj hp hf, h.frame.trans hframe.symm, ?_, ?_, ?_⟩
  · intro u
    by_cases e : u = t
    · subst e
      simp only [Conc.at, upd_same]
      refine ⟨_, _, hj, rfl, ?_, trivial, ?_⟩
      · rw [frame_cage hframe]; exact h3
      · simp only
        rw [hslot, hfile, if_pos ⟨rfl, rfl⟩, if_pos rfl, hse, hfe]
        exact hco
    · simp only [Conc.at, upd_ne _ _ e]
      refine (h.thr u).keep (fun c' => frame_cage hframe c') (fun _ _ _ => rfl) ?_ ?_
      · intro k hk j hu
        rw [hslot]
        split
        · rename_i e'
          obtain ⟨jc, jf, jcall⟩ := j
          simp only at e'
          obtain ⟨rfl, rfl⟩ := e'
          have := h.locks.slotMx t u jc jf call jcall (Ne.symm e) hj hu (by rw [hp]; rfl) (h.locks.both u k hk)
          exact hkeep.1 this.1
        · rfl
      · intro k hk
        refine ⟨rfl, ?_⟩
        rw [hfile]
        split
        · rename_i e'
          subst e'
          have hju : ∃ j, C.job u = some j := by
            have hu := h.thr u
            cases hpu : C.pc u <;> rw [hpu] at hk hu <;> first | (cases hk; done) | skip
            obtain ⟨j, _, hu, _⟩ := hu
            exact ⟨j, hu⟩
          obtain ⟨j, hju⟩ := hju
          have := free_mem hf ((h.locks.nodes k u _).2 ⟨j, hju, hk, rfl⟩)
          exact hkeep.2 this.1
        · rfl
  · intro c' fd' hd
    simp only [Conc.at] at hd ⊢
    rw [hslot]
    split
    · rename_i e
      obtain ⟨rfl, rfl⟩ := e
      have hx : call.slotEx = false := hd t call i hj (by rw [upd_same]; rfl)
      rw [hkeep.1 hx, hse]
    · refine h.slot c' fd' (fun u k i' hu hk => hd u k i' hu ?_)
      have e : u ≠ t := by intro e; subst e; rw [hp] at hk; cases hk
      rw [upd_ne _ _ e]
      exact hk
  · intro k hd
    simp only [Conc.at] at hd ⊢
    rw [hfile]
    split
    · rename_i e
      subst e
      have hx : call.inoEx = false := hd t _ hj (by rw [upd_same]; rfl)
      rw [hkeep.2 hx, hfe]
    · refine h.file k (fun u j hu hk => hd u j hu ?_)
      have e : u ≠ t := by intro e; subst e; rw [hp] at hk; cases hk
      rw [upd_ne _ _ e]
      exact hk

/-- One effect. -/
theorem Rel.effect {C : Conc} {A : Abs} (h : Rel C A) {t c fd i pos : Nat} {f : BitVec 32} {b : Body} {call : Call}
    (hj : C.job t = some ⟨c, fd, call⟩) (hp : C.pc t = .node i pos f b) (hb : ∀ o l, b ≠ .over o l)
    {d : Option Desc} {F : File} {b' : Body}
    (he : DataConc.effect call i pos f b (DataConc.slot C.s c fd) (DataConc.file C.s i) = (d, F, b')) :
    Rel ({ C with s := (setFile C.s i F).setFd c fd d }.at t (.node i pos f b')) A := by
  have ht := h.thr t
  rw [hp] at ht
  obtain ⟨j, o, h1, h2, h3, h4, h5⟩ := ht
  rw [hj] at h1
  cases h1
  simp only at h3 h4 h5
  have h5' := h5.effect hb
  have hfit : Fits call b' := by
    have := fits_effect (i := i) (pos := pos) (f := f) (d := DataConc.slot C.s c fd) (F := DataConc.file C.s i) h4
    rw [he] at this; exact this
  have hks : call.slotEx = false → d = DataConc.slot C.s c fd := by
    intro hx
    have := slot_kept (i := i) (pos := pos) (f := f) (d := DataConc.slot C.s c fd) (F := DataConc.file C.s i) h4 hx
    rw [he] at this; exact this
  have hkf : call.inoEx = false → F = DataConc.file C.s i := by
    intro hx
    have := file_kept (i := i) (pos := pos) (f := f) (d := DataConc.slot C.s c fd) (F := DataConc.file C.s i) h4 hx
    rw [he] at this; exact this
  rw [he] at h5'
  simp only at h5'
  have hcages : ((setFile C.s i F).cages c).isSome := by
    have : (C.s.cages c).isSome := by rw [frame_cage h.frame]; exact h3
    exact this
  have hslot : ∀ c' fd', DataConc.slot ((setFile C.s i F).setFd c fd d) c' fd' =
      if c' = c ∧ fd' = fd then d else DataConc.slot C.s c' fd' := by
    intro c' fd'
    rw [slot_setFd _ _ _ _ _ _ hcages, slot_setFile]
  have hfile : ∀ k, DataConc.file ((setFile C.s i F).setFd c fd d) k = if k = i then F else DataConc.file C.s k := by
    intro k
    rw [file_setFd, file_setFile]
  have hpi : ∀ u k, (upd C.pc t (.node i pos f b') u).inode = some k ↔ (C.pc u).inode = some k := by
    intro u k
    by_cases e : u = t
    · subst e; rw [upd_same, hp]; rfl
    · rw [upd_ne _ _ e]
  refine ⟨Locked.keep h.locks (by rw [hp]; rfl) (by rw [hp]; rfl), ?_, ?_, ?_, ?_⟩
  · simp only [Conc.at, frame_setFd, frame_setFile]; exact h.frame
  · intro u
    by_cases e : u = t
    · subst e
      simp only [Conc.at, upd_same]
      refine ⟨_, o, hj, h2, h3, hfit, ?_⟩
      simp only
      rw [hslot, hfile, if_pos ⟨rfl, rfl⟩, if_pos rfl]
      exact h5'
    · simp only [Conc.at, upd_ne _ _ e]
      refine (h.thr u).keep (fun _ => rfl) ?_ (fun _ _ _ _ => rfl) ?_
      · intro hh j hu
        rw [hslot]
        split
        · rename_i e'
          obtain ⟨jc, jf, jcall⟩ := j
          simp only at e'
          obtain ⟨rfl, rfl⟩ := e'
          have := h.locks.slotMx t u jc jf call jcall (Ne.symm e) hj hu (by rw [hp]; rfl) hh
          exact hks this.1
        · rfl
      · intro k hk
        refine ⟨?_, rfl⟩
        rw [hfile]
        split
        · rename_i e'
          subst e'
          have hju : ∃ j, C.job u = some j := by
            have hu := h.thr u
            cases hpu : C.pc u <;> rw [hpu] at hk hu <;> first | (cases hk; done) | skip
            obtain ⟨j, _, hu, _⟩ := hu
            exact ⟨j, hu⟩
          obtain ⟨j, hju⟩ := hju
          have := h.locks.nodeMx t u k _ _ (Ne.symm e) hj hju (by rw [hp]; rfl) hk
          exact hkf this.1
        · rfl
  · intro c' fd' hd
    simp only [Conc.at] at hd ⊢
    rw [hslot]
    have h0 := fun (hx : ∀ u k i, C.job u = some ⟨c', fd', k⟩ → (C.pc u).inode = some i → k.slotEx = false) => h.slot c' fd' hx
    split
    · rename_i e
      obtain ⟨rfl, rfl⟩ := e
      have hx : call.slotEx = false := hd t call i hj (by rw [hpi, hp]; rfl)
      rw [hks hx]
      exact h0 (fun u k i' hu hk => hd u k i' hu ((hpi u i').2 hk))
    · exact h0 (fun u k i' hu hk => hd u k i' hu ((hpi u i').2 hk))
  · intro k hd
    simp only [Conc.at] at hd ⊢
    rw [hfile]
    split
    · rename_i e
      subst e
      have hx : call.inoEx = false := hd t _ hj (by rw [hpi, hp]; rfl)
      rw [hkf hx]
      exact h.file k (fun u j hu hk => hd u j hu ((hpi u k).2 hk))
    · exact h.file k (fun u j hu hk => hd u j hu ((hpi u k).2 hk))

/-- Every action is matched by the specification. -/
theorem Rel.step {C : Conc} {A : Abs} (h : Rel C A) (a : Act) : ∃ B, A.Runs (observe C a) B ∧ Rel (step C a) B := by
  cases a with
  | start t j =>
    by_cases hc : C.job t = none ∧ (C.s.cages j.cage).isSome ∧ j.fd < maxFd
    · obtain ⟨h1, h2⟩ := h.start hc.1 hc.2.1 hc.2.2
      refine ⟨_, ?_, by simpa only [DataConc.step, if_pos hc] using h2⟩
      have : (some j : Option Job) ≠ C.job t := by rw [hc.1]; simp
      simp only [observe, DataConc.step, if_pos hc, upd_same, if_neg this]
      exact .call h1 (.refl _)
    · refine ⟨A, ?_, by simpa only [DataConc.step, if_neg hc] using h⟩
      simp only [observe, DataConc.step, if_neg hc, if_true]
      exact .refl _
  | go t =>
    simp only [observe, DataConc.step]
    cases hj : C.job t with
    | none =>
      have hg : go C t = none := by simp only [go, hj]
      have ht := h.thr t
      rw [hj] at ht
      have hp : C.pc t = .idle := by
        cases hp : C.pc t <;> rw [hp] at ht
        all_goals first
          | rfl
          | (obtain ⟨_, h1, _⟩ := ht; cases h1; done)
          | (obtain ⟨_, _, h1, _⟩ := ht; cases h1; done)
      rw [hg, hp]
      exact ⟨A, .refl _, h⟩
    | some j =>
      obtain ⟨c, fd, call⟩ := j
      cases hp : C.pc t with
      | idle =>
        have hg : go C t = none := by simp only [go, hj, hp]
        rw [hg]
        exact ⟨A, .refl _, h⟩
      | wait =>
        by_cases hf : Lock.free (C.slots c fd) call.slotEx = true
        · have hg : go C t = some ((C.setSlot c fd ((t, call.slotEx) :: C.slots c fd)).at t .slot) := by
            simp only [go, hj, hp, if_pos hf]
          rw [hg]
          exact ⟨A, .refl _, h.take hj hp hf⟩
        · have hg : go C t = none := by simp only [go, hj, hp, if_neg hf]
          rw [hg]
          exact ⟨A, .refl _, h⟩
      | slot =>
        cases hl : DataConc.look call (DataConc.slot C.s c fd) with
        | answer o =>
          have hg : go C t = some (C.at t (.leave o)) := by
            simp only [go, hj, hp, hl]
          rw [hg]
          obtain ⟨h1, h2, h3⟩ := h.answer hj hp hl
          refine ⟨_, .commit h1 ?_, h3⟩
          simp only [h2]
          exact .refl _
        | inode i pos f =>
          have hg : go C t = some (C.at t (.want i pos f)) := by
            simp only [go, hj, hp, hl]
          rw [hg]
          exact ⟨A, .refl _, h.look hj hp hl⟩
        | other =>
          have hg : go C t = none := by simp only [go, hj, hp, hl]
          rw [hg]
          exact ⟨A, .refl _, h⟩
      | want i pos f =>
        by_cases hf : Lock.free (C.nodes i) call.inoEx = true
        · have hg : go C t = some ({ C with nodes := upd C.nodes i ((t, call.inoEx) :: C.nodes i) }.at t (.node i pos f .start)) := by
            simp only [go, hj, hp, if_pos hf]
          rw [hg]
          obtain ⟨h1, h2⟩ := h.commit hj hp hf
          exact ⟨_, .commit h1 (.refl _), h2⟩
        · have hg : go C t = none := by simp only [go, hj, hp, if_neg hf]
          rw [hg]
          exact ⟨A, .refl _, h⟩
      | node i pos f b =>
        by_cases hb : ∃ o l, b = .over o l
        · obtain ⟨o, l, rfl⟩ := hb
          have hg : go C t = some ({ C with nodes := upd C.nodes i ((C.nodes i).drop t) }.at t (if l then .logRead i o else .leave o)) := by
            simp only [go, hj, hp]
          rw [hg]
          refine ⟨A, .refl _, h.over hp ?_⟩
          cases l
          · exact .inl rfl
          · exact .inr rfl
        · have hb' : ∀ o l, b ≠ .over o l := fun o l e => hb ⟨o, l, e⟩
          have hg : go C t = some ({ C with s := (setFile C.s i (DataConc.effect call i pos f b (DataConc.slot C.s c fd)
              (DataConc.file C.s i)).2.1).setFd c fd (DataConc.effect call i pos f b (DataConc.slot C.s c fd) (DataConc.file C.s i)).1 }.at t
              (.node i pos f (DataConc.effect call i pos f b (DataConc.slot C.s c fd) (DataConc.file C.s i)).2.2)) := by
            simp only [go, hj, hp]
          rw [hg]
          exact ⟨A, .refl _, h.effect hj hp hb' rfl⟩
      | logRead i o =>
        by_cases hf : Lock.free (C.nodes i) false = true
        · have hg : go C t = some (C.at t (.logWrite i (C.s.fs.inodes i) o)) := by
            simp only [go, hj, hp, if_pos hf]
          rw [hg]
          exact ⟨A, .refl _, h.record hp⟩
        · have hg : go C t = none := by simp only [go, hj, hp, if_neg hf]
          rw [hg]
          exact ⟨A, .refl _, h⟩
      | logWrite i r o =>
        have hg : go C t = some ({ C with s := { C.s with fs := { C.s.fs with log := C.s.fs.log ++ [(i, r)] } } }.at t (.leave o)) := by
            simp only [go, hj, hp]
        rw [hg]
        exact ⟨A, .refl _, h.log hp⟩
      | leave o =>
        have hg : go C t = some ({ (C.setSlot c fd ((C.slots c fd).drop t)).at t .idle with job := upd C.job t none }) := by
            simp only [go, hj, hp]
        rw [hg]
        obtain ⟨h1, h2⟩ := h.leave hj hp
        refine ⟨_, ?_, h2⟩
        simp only [Option.getD_some, upd_same]
        exact .ret h1 (.refl _)

theorem Rel.run {C : Conc} {A : Abs} (h : Rel C A) (as : List Act) : ∃ B, A.Runs (trace C as) B ∧ Rel (run C as) B := by
  induction as generalizing C A with
  | nil => exact ⟨A, .refl _, h⟩
  | cons a as ih =>
    obtain ⟨B, h1, h2⟩ := h.step a
    obtain ⟨D, h3, h4⟩ := ih h2
    exact ⟨D, h1.trans h3, h4⟩

theorem Rel.rest (s : State) : Rel (rest s) ⟨s, fun _ => none⟩ := by
  refine ⟨⟨?_, ?_, ?_, ?_, ?_⟩, rfl, fun t => ⟨rfl, rfl⟩, fun _ _ _ => rfl, fun _ _ => rfl⟩
  · intro c fd t x; simp [DataConc.rest]
  · intro i t x; simp [DataConc.rest]
  · intro t u c fd a b _ h; cases h
  · intro t u i j k _ h; cases h
  · intro t i h; cases h

end Verif.DataConc
