import Verif.ShmConcProps

/-! # Shared memory calls by several threads: witnesses (C82) -/

namespace Verif.ShmConc

theorem Run.any {P : St → Ev → Prop} {s s' : St} (h : Run P s s') : Run Any s s' := by
  induction h with
  | refl => exact .refl
  | tail _ _ hs ih => exact .tail ih trivial hs

/-- A run, and a state it may reach, as a computation: the first step that the thread can take. -/
def St.does (s : St) (t : Nat) : Ev → Option (St × Option Ret)
  | .get k creat excl =>
    if s.pc t = .idle then
      match s.keys k with
      | some id => if creat = true ∧ excl = true then some (s, some (.err .EEXIST)) else some (s, some (.ok id))
      | none =>
        if creat then
          some ({ s with next := s.next + 1, keys := updK s.keys k (some s.next) }.put t (.get2 k s.next), none)
        else some (s, some (.err .ENOENT))
    else none
  | .at c id addr =>
    if s.pc t = .idle then
      if s.segs id = none then some (s, some (.err .EINVAL))
      else if s.lock id = none then some ({ s with lock := updK s.lock id (some t) }.put t (.at2 c addr id), none)
      else none
    else none
  | .dt c addr =>
    if s.pc t = .idle ∧ s.rlock c = none then
      match s.rev.find? (fun a => a.cage = c ∧ a.addr = addr) with
      | none => some (s, some (.err .EINVAL))
      | some a => some ({ s with rlock := updK s.rlock c (some t) }.put t (.dt2 c addr a.id), none)
    else none
  | .rm id =>
    if s.pc t = .idle then
      match s.segs id with
      | none => some (s, some (.err .EINVAL))
      | some g =>
        if s.lock id = none then
          if g.nattch = 0 then
            some ({ s with segs := updK s.segs id (some { g with rmid := true }) }.put t (.rm2 id g.key), none)
          else some ({ s with segs := updK s.segs id (some { g with rmid := true }) }, some (.ok 0))
        else none
    else none
  | .go =>
    match s.pc t with
    | .idle | .dead => none
    | .get2 k id =>
      if s.lock id = none then
        some ({ s with segs := updK s.segs id (some ⟨k, 0, false⟩) }.put t .idle, some (.ok id))
      else none
    | .at2 c addr id =>
      if s.rlock c = none then some ({ s with rev := ⟨c, addr, id⟩ :: s.rev }.put t (.at3 c addr id), none) else none
    | .at3 _ addr id =>
      match s.segs id with
      | none => none
      | some g =>
        some ({ s with segs := updK s.segs id (some { g with nattch := g.nattch + 1 })
                       lock := updK s.lock id none }.put t .idle, some (.ok addr))
    | .dt2 c addr id =>
      if s.lock id = none then
        match s.segs id with
        | none => some ({ s with rlock := updK s.rlock c none }.put t .dead, some .panic)
        | some g =>
          if g.rmid = true ∧ g.nattch - 1 = 0 then
            some ({ s with segs := updK s.segs id none, rev := s.rev.erase ⟨c, addr, id⟩ }.put t (.dt3 c g.key id), none)
          else
            some ({ s with segs := updK s.segs id (some { g with nattch := g.nattch - 1 })
                           rev := s.rev.erase ⟨c, addr, id⟩, rlock := updK s.rlock c none }.put t .idle, some (.ok id))
      else none
    | .dt3 c k id =>
      some ({ s with keys := updK s.keys k none, rlock := updK s.rlock c none }.put t .idle, some (.ok id))
    | .rm2 id k =>
      if s.lock id = none then some ({ s with segs := updK s.segs id none }.put t (.rm3 k), none) else none
    | .rm3 k => some ({ s with keys := updK s.keys k none }.put t .idle, some (.ok 0))

theorem St.does_step {s s' : St} {t : Nat} {e : Ev} {r : Option Ret} (h : s.does t e = some (s', r)) :
    Step s t e r s' := by
  cases e with
  | get k creat excl =>
    simp only [St.does] at h
    split at h
    · rename_i hp
      split at h
      · rename_i id hk
        split at h
        · rename_i hc; obtain ⟨rfl, rfl⟩ := hc; cases h; exact .getExcl hp hk
        · rename_i hc; cases h; exact .getThere hp hk hc
      · rename_i hk
        split at h
        · rename_i hc; cases hc; cases h; exact .getNew hp hk
        · rename_i hc; simp only [Bool.not_eq_true] at hc; cases hc; cases h; exact .getNone hp hk
    · cases h
  | «at» c id addr =>
    simp only [St.does] at h
    split at h
    · rename_i hp
      split at h
      · rename_i hn; cases h; exact .atNone hp hn
      · rename_i hn
        split at h
        · rename_i hl; cases h; exact .atLock hp hn hl
        · cases h
    · cases h
  | dt c addr =>
    simp only [St.does] at h
    split at h
    · rename_i hp
      split at h
      · rename_i hf
        cases h
        refine .dtNone hp.1 hp.2 (fun a ha hc haa => ?_)
        have := List.find?_eq_none.1 hf a ha
        simp [hc, haa] at this
      · rename_i a hf
        cases h
        have h1 := List.find?_some hf
        have h2 := List.mem_of_find?_eq_some hf
        simp only [decide_eq_true_eq] at h1
        refine .dtLock hp.1 hp.2 ?_
        obtain ⟨rfl, rfl⟩ := h1
        exact h2
    · cases h
  | rm id =>
    simp only [St.does] at h
    split at h
    · rename_i hp
      split at h
      · rename_i hn; cases h; exact .rmNone hp hn
      · rename_i g hg
        split at h
        · rename_i hl
          split at h
          · rename_i h0; cases h; exact .rmDrop hp hg hl h0
          · rename_i h0; cases h; exact .rmMark hp hg hl h0
        · cases h
    · cases h
  | go =>
    simp only [St.does] at h
    split at h
    · cases h
    · cases h
    · rename_i hp; split at h
      · rename_i hl; cases h; exact .getPut hp hl
      · cases h
    · rename_i hp; split at h
      · rename_i hl; cases h; exact .atPush hp hl
      · cases h
    · rename_i hp; split at h
      · cases h
      · rename_i g hg; cases h; exact .atMap hp hg
    · rename_i hp; split at h
      · rename_i hl; split at h
        · rename_i hg; cases h; exact .dtPanic hp hl hg
        · rename_i g hg; split at h
          · rename_i hc; cases h; exact .dtLast hp hl hg hc.1 hc.2
          · rename_i hc; cases h; exact .dtKeep hp hl hg hc
      · cases h
    · rename_i hp; cases h; exact .dtKey hp
    · rename_i hp; split at h
      · rename_i hl; cases h; exact .rmSeg hp hl
      · cases h
    · rename_i hp; cases h; exact .rmKey hp

/-- Several steps. -/
def St.runs (s : St) : List (Nat × Ev) → Option St
  | [] => some s
  | (t, e) :: l =>
    match s.does t e with
    | none => none
    | some (s', _) => s'.runs l

theorem Run.head {P : St → Ev → Prop} {s s1 s2 : St} {t e r} (hp : P s e) (hs : Step s t e r s1) (h : Run P s1 s2) :
    Run P s s2 := by
  induction h with
  | refl => exact .tail .refl hp hs
  | tail _ hq hs' ih => exact .tail ih hq hs'

theorem St.runs_run {s s' : St} {l} (h : s.runs l = some s') : Run Any s s' := by
  induction l generalizing s with
  | nil => cases h; exact .refl
  | cons x l ih =>
    obtain ⟨t, e⟩ := x
    simp only [St.runs] at h
    split at h
    · cases h
    · rename_i s1 r hd
      exact .head trivial (St.does_step hd) (ih h)

theorem Step.others {s s' : St} {t e r} (h : Step s t e r s') (u : Nat) (hu : u ≠ t) : s'.pc u = s.pc u :=
  (conc_steps h).2.2.2 u hu

theorem St.runs_pc {s s' : St} {l} (h : s.runs l = some s') (u : Nat) (hu : ∀ x ∈ l, x.1 ≠ u) : s'.pc u = s.pc u := by
  induction l generalizing s with
  | nil => cases h; rfl
  | cons x l ih =>
    obtain ⟨t, e⟩ := x
    simp only [St.runs] at h
    split at h
    · cases h
    · rename_i s1 r hd
      rw [ih h (fun y hy => hu y (List.mem_cons_of_mem _ hy))]
      exact (St.does_step hd).others u (fun e => hu (t, _) (List.mem_cons_self ..) e.symm)

/-- The state after some steps. -/
def after (l : List (Nat × Ev)) : St := (init.runs l).getD init

theorem after_run {l : List (Nat × Ev)} (h : (init.runs l).isSome = true) : init.runs l = some (after l) := by
  unfold after
  cases hr : init.runs l with
  | none => rw [hr] at h; cases h
  | some s => rfl

theorem after_quiet {l : List (Nat × Ev)} (h : (init.runs l).isSome = true)
    (hq : ∀ x ∈ l, (after l).pc x.1 = .idle) : (after l).Quiet := by
  intro t
  by_cases ht : ∃ x ∈ l, x.1 = t
  · obtain ⟨x, hx, rfl⟩ := ht; exact hq x hx
  · rw [St.runs_pc (after_run h) t (fun x hx e => ht ⟨x, hx, e⟩)]; rfl

theorem St.runs_append {s s' : St} {l} (h : s.runs l = some s') (l') : s.runs (l ++ l') = s'.runs l' := by
  induction l generalizing s with
  | nil => cases h; rfl
  | cons x l ih =>
    obtain ⟨t, e⟩ := x
    simp only [St.runs, List.cons_append] at h ⊢
    split at h
    · cases h
    · exact ih h

theorem after_does {l : List (Nat × Ev)} {t e} (h : (init.runs l).isSome = true) {r : Option Ret}
    (hd : ((after l).does t e).map (·.2) = some r) : Step (after l) t e r (after (l ++ [(t, e)])) := by
  cases hx : (after l).does t e with
  | none => rw [hx] at hd; cases hd
  | some x =>
    obtain ⟨s', r'⟩ := x
    rw [hx] at hd; cases hd
    have : after (l ++ [(t, e)]) = s' := by
      unfold after
      rw [St.runs_append (after_run h)]
      simp only [St.runs, hx]; rfl
    rw [this]
    exact St.does_step hx

/-! ## An attachment begun during a removal -/

/-- Thread 1 makes a segment and begins to remove it; before it has, thread 2 attaches it. -/
def lostRun : List (Nat × Ev) :=
  [(1, .get 7 true false), (1, .go), (1, .rm 1), (2, .at 5 1 4096), (2, .go), (2, .go), (1, .go), (1, .go)]

/-- `shmctl(IPC_RMID)` looks whether the segment is attached, gives it back and then removes it.  A `shmat` in between
succeeds, and what it attached is removed all the same; the `shmdt` of that address then panics.  With one call after
the other neither happens. -/
theorem attached_violated : ∃ s, Run Any init s ∧ s.Quiet ∧ ⟨5, 4096, 1⟩ ∈ s.rev ∧ s.segs 1 = none ∧
    ∃ s1 s2, Step s 2 (.dt 5 4096) none s1 ∧ Step s1 2 .go (some .panic) s2 := by
  have h : (init.runs lostRun).isSome = true := by decide +kernel
  refine ⟨after lostRun, St.runs_run (after_run h), after_quiet h (by decide +kernel), by decide +kernel,
    by decide +kernel, ?_⟩
  exact ⟨_, _, after_does h (by decide +kernel), after_does (by decide +kernel) (by decide +kernel)⟩

/-! ## Two removals and a `shmget` -/

/-- Threads 1 and 2 both begin to remove segment 1; thread 1 is done, thread 3 makes a new segment with the same key, and
then thread 2 goes on. -/
def keyRun : List (Nat × Ev) :=
  [(1, .get 7 true false), (1, .go), (1, .rm 1), (2, .rm 1), (1, .go), (1, .go), (3, .get 7 true false), (3, .go),
    (2, .go), (2, .go)]

/-- The second of two `shmctl(IPC_RMID)` of one segment removes the key of the segment that was made after the first: it exists and
can no longer be found by its key, so that a further `shmget` makes a second segment with that key. -/
theorem key_lost_violated : ∃ s, Run Any init s ∧ s.Quiet ∧ s.segs 2 = some ⟨7, 0, false⟩ ∧ s.keys 7 = none ∧
    ∃ s', Run Any s s' ∧ s'.Quiet ∧ s'.segs 2 = some ⟨7, 0, false⟩ ∧ s'.segs 3 = some ⟨7, 0, false⟩ := by
  have h : (init.runs keyRun).isSome = true := by decide +kernel
  have r1 := after_does (t := 4) (e := .get 7 true false) h (r := none) (by decide +kernel)
  have r2 := after_does (t := 4) (e := .go) (l := keyRun ++ [(4, .get 7 true false)]) (by decide +kernel)
    (r := some (.ok 3)) (by decide +kernel)
  exact ⟨after keyRun, St.runs_run (after_run h), after_quiet h (by decide +kernel), by decide +kernel, by decide +kernel,
    _, .tail (.tail .refl trivial r1) trivial r2, after_quiet (by decide +kernel) (by decide +kernel), by decide +kernel,
    by decide +kernel⟩

/-! ## A `shmget` during another -/

/-- Thread 1 begins to make a segment. -/
def halfRun : List (Nat × Ev) := [(1, .get 7 true false)]

/-- `shmget` puts the key into the table before the segment: a second `shmget` of the key is given the identifier of
a segment that is not there yet, and its `shmat` fails although nobody has removed anything. -/
theorem half_made_violated : ∃ s, Run Any init s ∧ Step s 2 (.get 7 true false) (some (.ok 1)) s ∧
    Step s 2 (.at 5 1 4096) (some (.err .EINVAL)) s := by
  have h : (init.runs halfRun).isSome = true := by decide +kernel
  have p : (after halfRun).pc 2 = .idle := by decide +kernel
  exact ⟨after halfRun, St.runs_run (after_run h),
    .getThere (id := 1) p (by decide +kernel) (by decide), .atNone p (by decide +kernel)⟩

/-! ## Attaching and detaching in one cage -/

/-- Cage 5 has attached the segment; thread 1 begins to attach it once more, thread 2 to detach it. -/
def lockRun : List (Nat × Ev) :=
  [(1, .get 7 true false), (1, .go), (1, .at 5 1 4096), (1, .go), (1, .go), (1, .at 5 1 8192), (2, .dt 5 4096)]

theorem stuck_step {s s' : St} {t e r} (hs : Step s t e r s') (i : Inv s)
    (h1 : s.pc 1 = .at2 5 8192 1) (h2 : s.pc 2 = .dt2 5 4096 1) :
    t ≠ 1 ∧ t ≠ 2 := by
  have l : s.lock 1 = some 1 := (i.has 1 1).2 (by rw [h1]; rfl)
  have r : s.rlock 5 = some 2 := (i.hasR 5 2).2 (by rw [h2]; rfl)
  constructor <;> (rintro rfl; cases hs <;> simp_all)

/-- `shmat` takes the segment and then the list of its cage, `shmdt` the list and then the segment: two threads of one
cage, one attaching a segment and one detaching it, can block each other for ever, whatever the other threads do. -/
theorem deadlock_violated : ∃ s, Run Any init s ∧ s.pc 1 = .at2 5 8192 1 ∧ s.pc 2 = .dt2 5 4096 1 ∧
    ∀ s', Run Any s s' → s'.pc 1 = .at2 5 8192 1 ∧ s'.pc 2 = .dt2 5 4096 1 ∧
      (∀ t e r s2, Step s' t e r s2 → t ≠ 1 ∧ t ≠ 2) := by
  have h : (init.runs lockRun).isSome = true := by decide +kernel
  have h1 : (after lockRun).pc 1 = .at2 5 8192 1 := by decide +kernel
  have h2 : (after lockRun).pc 2 = .dt2 5 4096 1 := by decide +kernel
  have hr := St.runs_run (after_run h)
  refine ⟨after lockRun, hr, h1, h2, fun s' hr' => ?_⟩
  have key : s'.pc 1 = .at2 5 8192 1 ∧ s'.pc 2 = .dt2 5 4096 1 ∧ Inv s' := by
    induction hr' with
    | refl => exact ⟨h1, h2, (both hr).1⟩
    | tail _ _ hs ih =>
      obtain ⟨a, b, i⟩ := ih
      obtain ⟨n1, n2⟩ := stuck_step hs i a b
      exact ⟨by rw [hs.others 1 n1.symm]; exact a, by rw [hs.others 2 n2.symm]; exact b, i.step hs⟩
  exact ⟨key.1, key.2.1, fun t e r s2 hs => stuck_step hs key.2.2 key.1 key.2.1⟩

/-! ## The hypotheses can be met -/

/-- Whether a thread that is at `p` lets `e` begin, by all three conditions. -/
def lets (p : Pc) : Ev → Bool
  | .at c id _ =>
    (match p with | .rm2 j _ => j ≠ id | _ => true) && (match p with | .dt2 d _ _ | .dt3 d _ _ => d ≠ c | _ => true)
  | .get k _ _ => match p with | .rm2 _ j | .rm3 j | .dt3 _ j _ => j ≠ k | _ => true
  | .dt c _ => match p with | .at2 d _ _ => d ≠ c | _ => true
  | _ => true

def All (s : St) (e : Ev) : Prop := AtTurn s e ∧ GetTurn s e ∧ Calm s e

theorem all_of {s : St} {e : Ev} (h : ∀ t, lets (s.pc t) e = true) : All s e := by
  refine ⟨?_, ?_, ?_, ?_⟩
  · rintro c id a rfl t k hp
    have := h t; rw [hp] at this; simp [lets] at this
  · rintro k x y rfl t hp
    have := h t
    rcases hp with ⟨_, hp⟩ | hp | ⟨_, _, hp⟩ <;> rw [hp] at this <;> simp [lets] at this
  · rintro c id a rfl t
    have := h t
    constructor <;> intro x y hp <;> rw [hp] at this <;> simp [lets] at this
  · rintro c a rfl t x y hp
    have := h t; rw [hp] at this; simp [lets] at this

theorem lets_idle (e : Ev) : lets .idle e = true := by cases e <;> rfl

/-- Whether each step of a run may begin. -/
def St.orderly (s : St) (ts : List Nat) : List (Nat × Ev) → Bool
  | [] => true
  | (t, e) :: l =>
    ts.all (fun u => lets (s.pc u) e) && ts.contains t &&
      match s.does t e with
      | none => false
      | some (s', _) => s'.orderly ts l

theorem orderly_run {s : St} {ts l} (h : s.orderly ts l = true) (hi : ∀ u, u ∉ ts → s.pc u = .idle) :
    ∃ s', s.runs l = some s' ∧ Run All s s' := by
  induction l generalizing s with
  | nil => exact ⟨s, rfl, .refl⟩
  | cons x l ih =>
    obtain ⟨t, e⟩ := x
    simp only [St.orderly, Bool.and_eq_true, List.all_eq_true, List.contains_iff_mem] at h
    obtain ⟨⟨h1, h2⟩, h3⟩ := h
    cases hd : s.does t e with
    | none => rw [hd] at h3; cases h3
    | some y =>
      obtain ⟨s1, r⟩ := y
      rw [hd] at h3
      have hs := St.does_step hd
      obtain ⟨s', h4, h5⟩ := ih h3 (fun u hu => by
        rw [hs.others u (fun e => hu (e ▸ h2))]; exact hi u hu)
      refine ⟨s', by simp only [St.runs, hd]; exact h4, .head (all_of fun u => ?_) hs h5⟩
      by_cases hu : u ∈ ts
      · exact h1 u hu
      · rw [hi u hu]; exact lets_idle e

theorem orderly_after {ts l} (h : init.orderly ts l = true) : Run All init (after l) := by
  obtain ⟨s, h1, h2⟩ := orderly_run h (fun _ _ => rfl)
  unfold after; rw [h1]; exact h2

theorem Run.imp {P Q : St → Ev → Prop} (hpq : ∀ s e, P s e → Q s e) {s s' : St} (h : Run P s s') : Run Q s s' := by
  induction h with
  | refl => exact .refl
  | tail _ hp hs ih => exact .tail ih (hpq _ _ hp) hs

/-- Two threads make and attach segments at once; thread 2 marks segment 1 while thread 1 is about to detach it; thread 1
has removed it and is about to remove its key while thread 2 is attaching segment 2 once more. -/
def exRun : List (Nat × Ev) :=
  [(1, .get 7 true false), (2, .get 8 true false), (2, .go), (1, .go), (1, .at 5 1 4096), (2, .at 6 2 4096), (1, .go),
    (2, .go), (2, .go), (1, .go), (1, .dt 5 4096), (2, .rm 1), (1, .go), (2, .at 6 2 8192), (2, .go)]

example : Run AtTurn init (after exRun) ∧ Run GetTurn init (after exRun) ∧ Run Calm init (after exRun) :=
  have h : Run All init (after exRun) := orderly_after (ts := [1, 2]) (by decide +kernel)
  ⟨h.imp fun _ _ h => h.1, h.imp fun _ _ h => h.2.1, h.imp fun _ _ h => h.2.2⟩

example : (after exRun).rev = [⟨6, 8192, 2⟩, ⟨6, 4096, 2⟩] ∧ (after exRun).segs 1 = none ∧
    (after exRun).segs 2 = some ⟨8, 1, false⟩ ∧ (after exRun).pc 1 = .dt3 5 7 1 ∧ (after exRun).pc 2 = .at3 6 8192 2 := by
  decide +kernel

/-- `conc_ids`, `conc_gone`: two segments are made, one is gone. -/
example : (after exRun).Given 1 ∧ (after exRun).segs 1 = none := by
  refine ⟨⟨by decide +kernel, fun t k hp => ?_⟩, by decide +kernel⟩
  by_cases h1 : t = 1
  · subst h1; have : (after exRun).pc 1 = .dt3 5 7 1 := by decide +kernel
    rw [this] at hp; cases hp
  · by_cases h2 : t = 2
    · subst h2; have : (after exRun).pc 2 = .at3 6 8192 2 := by decide +kernel
      rw [this] at hp; cases hp
    · rw [St.runs_pc (after_run (l := exRun) (by decide +kernel)) t (by
        intro x hx e
        have : ∀ x ∈ exRun, x.1 = 1 ∨ x.1 = 2 := by decide +kernel
        rcases this x hx with h | h <;> simp_all)] at hp
      cases hp

/-- `conc_get_partial`: key 8 is in use. -/
example : ∃ s', Step (after exRun) 3 (.get 8 false false) (some (.ok 2)) s' :=
  ⟨_, after_does (by decide +kernel) (by decide +kernel)⟩

end Verif.ShmConc
