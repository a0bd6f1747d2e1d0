import Verif.DataConcSim

/-!
# Concurrent calls on open files: nobody waits for ever

The locks are taken in one order, the descriptor before the inode, and every call makes at most twelve moves.  So whatever
the threads have done so far, one of those that are calling can go on, and all calls can be brought to their end.
-/

namespace Verif.DataConc
open Verif.Fs Verif.Kernel

/-- The descriptor is not of a pipe or a socket: on those a read or a write may wait for somebody else's data. -/
def Quiet : Option Desc → Prop
  | some (.pipe _ _) | some (.sock _) => False
  | _ => True

/-- All calls are on numbers where `P` holds, and there is no pipe or socket there. -/
structure Plain (P : Nat → Nat → Prop) (C : Conc) : Prop where
  slots : ∀ c fd, P c fd → Quiet (slot C.s c fd)
  jobs : ∀ t j, C.job t = some j → P j.cage j.fd

theorem look_plain {d : Option Desc} (h : Quiet d) (call : Call) : look call d ≠ .other := by
  unfold look
  split
  · simp
  · cases d with
    | none => simp
    | some d =>
      cases d with
      | file i pos f => cases call <;> simp only [lookFile] <;> (repeat' split) <;> simp
      | stream k f => cases call <;> simp only [lookStream] <;> (repeat' split) <;> simp
      | epoll f => cases call <;> simp [lookEpoll]
      | pipe p w => exact h.elim
      | sock k => exact h.elim

theorem not_free {l : Lock} {ex : Bool} (h : l.free ex ≠ true) : ∃ u x, (u, x) ∈ l := by
  cases l with
  | nil => simp [Lock.free] at h
  | cons a l => exact ⟨a.1, a.2, List.mem_cons_self ..⟩

/-- Who holds an inode can go on. -/
theorem node_goes {C : Conc} {t i pos : Nat} {f : BitVec 32} {b : Body} {j : Job} (hj : C.job t = some j) (hp : C.pc t = .node i pos f b) :
    (go C t).isSome := by
  obtain ⟨c, fd, call⟩ := j
  cases b <;> simp [go, hj, hp]

theorem inode_pc {p : Pc} {i : Nat} (h : p.inode = some i) : ∃ pos f b, p = .node i pos f b := by
  cases p <;> simp only [Pc.inode] at h <;> first | (cases h; done) | (cases h; exact ⟨_, _, _, rfl⟩)

/-- Somebody who waits for an inode, or somebody who holds it, can go on. -/
theorem node_free_or {C : Conc} {A : Abs} (h : Rel C A) (i : Nat) (ex : Bool) : Lock.free (C.nodes i) ex = true ∨ ∃ u, (go C u).isSome := by
  by_cases hf : Lock.free (C.nodes i) ex = true
  · exact .inl hf
  · obtain ⟨u, x, hu⟩ := not_free hf
    obtain ⟨j, h1, h2, -⟩ := (h.locks.nodes i u x).1 hu
    obtain ⟨pos, f, b, hp⟩ := inode_pc h2
    exact .inr ⟨u, node_goes h1 hp⟩

/-- Who holds a descriptor can go on, or somebody else can. -/
theorem holder_goes {P : Nat → Nat → Prop} {C : Conc} {A : Abs} (h : Rel C A) (hs : Plain P C) {t : Nat} {j : Job} (hj : C.job t = some j)
    (hh : (C.pc t).holds = true) : ∃ u, (go C u).isSome := by
  obtain ⟨c, fd, call⟩ := j
  cases hp : C.pc t with
  | idle => rw [hp] at hh; cases hh
  | wait => rw [hp] at hh; cases hh
  | slot =>
    refine ⟨t, ?_⟩
    simp only [go, hj, hp]
    cases hl : look call (slot C.s c fd) with
    | answer o => rfl
    | inode i pos f => rfl
    | other => exact absurd hl (look_plain (hs.slots c fd (hs.jobs t _ hj)) call)
  | want i pos f =>
    rcases node_free_or h i call.inoEx with hf | hu
    · exact ⟨t, by simp [go, hj, hp, hf]⟩
    · exact hu
  | node i pos f b => exact ⟨t, node_goes hj hp⟩
  | logRead i o =>
    rcases node_free_or h i false with hf | hu
    · exact ⟨t, by simp [go, hj, hp, hf]⟩
    · exact hu
  | logWrite i r o => exact ⟨t, by simp [go, hj, hp]⟩
  | leave o => exact ⟨t, by simp [go, hj, hp]⟩

/-- Somebody can go on. -/
theorem Rel.goes {P : Nat → Nat → Prop} {C : Conc} {A : Abs} (h : Rel C A) (hs : Plain P C) {t : Nat} {j : Job} (hj : C.job t = some j) :
    ∃ u, (go C u).isSome := by
  by_cases hh : (C.pc t).holds = true
  · exact holder_goes h hs hj hh
  · have ht := h.thr t
    cases hp : C.pc t with
    | idle => rw [hp, hj] at ht; cases ht.1
    | wait =>
      obtain ⟨c, fd, call⟩ := j
      by_cases hf : Lock.free (C.slots c fd) call.slotEx = true
      · exact ⟨t, by simp [go, hj, hp, hf]⟩
      · obtain ⟨u, x, hu⟩ := not_free hf
        obtain ⟨k, h1, h2, -⟩ := (h.locks.slots c fd u x).1 hu
        exact holder_goes h hs h1 h2
    | _ => rw [hp] at hh; exact absurd rfl hh

/-! ## How many moves are left -/

/-- The moves that are left of the effects. -/
def Body.left : Body → Nat
  | .start => 4
  | .filled _ _ => 3
  | .got _ | .wrote _ _ => 2
  | .placed _ _ | .cut _ => 1
  | .over _ _ => 0

/-- The moves that are left of a call. -/
def Pc.left : Pc → Nat
  | .idle => 0
  | .leave _ => 1
  | .logWrite _ _ _ => 2
  | .logRead _ _ => 3
  | .node _ _ _ b => 4 + b.left
  | .want _ _ _ => 9
  | .slot => 10
  | .wait => 11

theorem fill_left (F : File) (nd : Inode) (off : Nat) (data : List UInt8) : (fillGap F nd off data).2.left < 4 := by
  unfold fillGap
  repeat' split
  all_goals simp [Body.left]

theorem begin_left (call : Call) (i pos : Nat) (f : BitVec 32) (d : Option Desc) (F : File) : (begin call i pos f d F).2.2.left < 4 := by
  unfold begin
  cases F.ino with
  | none => simp [Body.left]
  | some nd =>
    simp only
    split <;> (repeat' split) <;> first | exact fill_left _ _ _ _ | simp [Body.left]

theorem effect_left {call : Call} {i pos : Nat} {f : BitVec 32} {b : Body} {d : Option Desc} {F : File} (hb : ∀ o l, b ≠ .over o l) :
    (effect call i pos f b d F).2.2.left < b.left := by
  cases b with
  | start => exact begin_left call i pos f d F
  | got bs => simp [effect, Body.left]
  | filled off data => simp only [effect]; split <;> simp [Body.left]
  | wrote off data => simp only [effect]; split <;> simp [Body.left]
  | placed off data => simp only [effect]; (repeat' split) <;> simp [Body.left]
  | cut n => simp only [effect]; split <;> simp [Body.left]
  | over o l => exact absurd rfl (hb o l)

theorem begin_slot (call : Call) (i pos : Nat) (f : BitVec 32) (d : Option Desc) (F : File) :
    (begin call i pos f d F).1 = d ∨ ∃ p, (begin call i pos f d F).1 = some (.file i p f) := by
  unfold begin
  cases F.ino with
  | none => exact .inl rfl
  | some nd =>
    simp only
    split <;> (repeat' split) <;> first | exact .inl rfl | exact .inr ⟨_, rfl⟩

theorem effect_slot (call : Call) (i pos : Nat) (f : BitVec 32) (b : Body) (d : Option Desc) (F : File) :
    (effect call i pos f b d F).1 = d ∨ ∃ p, (effect call i pos f b d F).1 = some (.file i p f) := by
  cases b with
  | start => exact begin_slot call i pos f d F
  | got bs => exact .inr ⟨_, rfl⟩
  | filled off data => simp only [effect]; split <;> exact .inl rfl
  | wrote off data => simp only [effect]; split <;> first | exact .inl rfl | exact .inr ⟨_, rfl⟩
  | placed off data => simp only [effect]; (repeat' split) <;> exact .inl rfl
  | cut n => simp only [effect]; split <;> exact .inl rfl
  | over o l => exact .inl rfl

theorem quiet_put {P : Nat → Nat → Prop} {s : State} (h : ∀ c fd, P c fd → Quiet (slot s c fd)) {c fd i : Nat} {F : File} {d : Option Desc}
    (hd : d = slot s c fd ∨ ∃ i p f, d = some (.file i p f)) (c' fd' : Nat) (hp : P c' fd') :
    Quiet (slot ((setFile s i F).setFd c fd d) c' fd') := by
  cases hc : s.cages c with
  | none =>
    have : (setFile s i F).setFd c fd d = setFile s i F := by simp [State.setFd, setFile, hc]
    rw [this, slot_setFile]
    exact h c' fd' hp
  | some cg =>
    rw [slot_setFd _ _ _ _ _ _ (by simp [setFile, hc])]
    split
    · rename_i e
      rcases hd with hd | ⟨i, p, f, hd⟩
      · rw [hd, ← e.1, ← e.2]; exact h c' fd' hp
      · rw [hd]; trivial
    · exact h c' fd' hp

/-- A move brings its call nearer to its end, and is nobody else's business. -/
theorem go_left {P : Nat → Nat → Prop} {C D : Conc} {t : Nat} (h : go C t = some D) (hs : ∀ c fd, P c fd → Quiet (slot C.s c fd)) :
    (∀ c fd, P c fd → Quiet (slot D.s c fd)) ∧ (D.pc t).left < (C.pc t).left ∧ (∀ u, u ≠ t → D.pc u = C.pc u) ∧ (∀ u, D.job u = C.job u ∨ u = t ∧ D.job u = none) ∧
      C.job t ≠ none := by
  cases hj : C.job t with
  | none => simp [go, hj] at h
  | some j =>
    obtain ⟨c, fd, call⟩ := j
    refine (fun (x : (∀ c fd, P c fd → Quiet (slot D.s c fd)) ∧ (D.pc t).left < (C.pc t).left ∧ (∀ u, u ≠ t → D.pc u = C.pc u) ∧ (∀ u, D.job u = C.job u ∨ u = t ∧ D.job u = none)) =>
      ⟨x.1, x.2.1, x.2.2.1, x.2.2.2, by simp⟩) ?_
    cases hp : C.pc t with
    | idle => simp [go, hj, hp] at h
    | wait =>
      simp only [go, hj, hp] at h
      split at h
      · cases h
        exact ⟨hs, by simp [Conc.at, Conc.setSlot, upd_same, Pc.left], fun u e => upd_ne _ _ e, fun u => .inl rfl⟩
      · cases h
    | slot =>
      simp only [go, hj, hp] at h
      split at h
      · cases h
        exact ⟨hs, by simp [Conc.at, upd_same, Pc.left], fun u e => upd_ne _ _ e, fun u => .inl rfl⟩
      · cases h
        exact ⟨hs, by simp [Conc.at, upd_same, Pc.left], fun u e => upd_ne _ _ e, fun u => .inl rfl⟩
      · cases h
    | want i pos f =>
      simp only [go, hj, hp] at h
      split at h
      · cases h
        exact ⟨hs, by simp [Conc.at, upd_same, Pc.left, Body.left], fun u e => upd_ne _ _ e, fun u => .inl rfl⟩
      · cases h
    | node i pos f b =>
      by_cases hb : ∃ o l, b = .over o l
      · obtain ⟨o, l, rfl⟩ := hb
        simp only [go, hj, hp] at h
        cases h
        refine ⟨hs, ?_, fun u e => upd_ne _ _ e, fun u => .inl rfl⟩
        simp only [Conc.at, upd_same]
        cases l <;> simp [Pc.left, Body.left]
      · have hb' : ∀ o l, b ≠ .over o l := fun o l e => hb ⟨o, l, e⟩
        have hg : go C t = some ((Conc.mk ((setFile C.s i (effect call i pos f b (slot C.s c fd) (file C.s i)).2.1).setFd c fd
            (effect call i pos f b (slot C.s c fd) (file C.s i)).1) C.slots C.nodes C.job C.pc).at t
            (.node i pos f (effect call i pos f b (slot C.s c fd) (file C.s i)).2.2)) := by
          cases b <;> first | exact absurd rfl (hb' _ _) | simp only [go, hj, hp]
        rw [hg] at h
        cases h
        refine ⟨?_, ?_, fun u e => upd_ne _ _ e, fun u => .inl rfl⟩
        · refine quiet_put hs ?_
          rcases effect_slot call i pos f b (slot C.s c fd) (file C.s i) with e | ⟨p, e⟩
          · exact .inl e
          · exact .inr ⟨i, p, f, e⟩
        · simp only [Conc.at, upd_same, Pc.left]
          have := effect_left (call := call) (i := i) (pos := pos) (f := f) (d := slot C.s c fd) (F := file C.s i) hb'
          omega
    | logRead i o =>
      simp only [go, hj, hp] at h
      split at h
      · cases h
        exact ⟨hs, by simp [Conc.at, upd_same, Pc.left], fun u e => upd_ne _ _ e, fun u => .inl rfl⟩
      · cases h
    | logWrite i r o =>
      simp only [go, hj, hp] at h
      cases h
      exact ⟨hs, by simp [Conc.at, upd_same, Pc.left], fun u e => upd_ne _ _ e, fun u => .inl rfl⟩
    | leave o =>
      simp only [go, hj, hp] at h
      cases h
      refine ⟨hs, by simp [Conc.at, Conc.setSlot, upd_same, Pc.left], fun u e => upd_ne _ _ e, fun u => ?_⟩
      by_cases e : u = t
      · subst e; exact .inr ⟨rfl, upd_same _ _ _⟩
      · exact .inl (upd_ne _ _ e)

/-- The moves that are left of the calls of some threads. -/
def Conc.left (C : Conc) (ts : List Nat) : Nat := (ts.map (fun t => (C.pc t).left)).sum

theorem left_lt {C D : Conc} {t : Nat} (h1 : (D.pc t).left < (C.pc t).left) (h2 : ∀ u, u ≠ t → D.pc u = C.pc u) (ts : List Nat) :
    D.left ts ≤ C.left ts ∧ (t ∈ ts → D.left ts < C.left ts) := by
  induction ts with
  | nil => simp [Conc.left]
  | cons a ts ih =>
    simp only [Conc.left, List.map_cons, List.sum_cons, List.mem_cons] at ih ⊢
    by_cases e : a = t
    · subst e; exact ⟨by omega, fun _ => by omega⟩
    · rw [h2 a e]
      refine ⟨by omega, fun ht => ?_⟩
      have := ih.2 (by rcases ht with ht | ht; exact absurd ht.symm e; exact ht)
      omega

/-! ## Schedules -/

theorem Plain.step {P : Nat → Nat → Prop} {C : Conc} (h : Plain P C) {a : Act} (ha : ∀ t j, a = .start t j → P j.cage j.fd) :
    Plain P (DataConc.step C a) := by
  cases a with
  | start t j =>
    simp only [DataConc.step]
    split
    · refine ⟨h.slots, fun u k hk => ?_⟩
      by_cases e : u = t
      · subst e; simp only [upd_same, Option.some.injEq] at hk; subst hk; exact ha u j rfl
      · simp only [upd_ne _ _ e] at hk; exact h.jobs u k hk
    · exact h
  | go t =>
    simp only [DataConc.step]
    cases hg : DataConc.go C t with
    | none => exact h
    | some D =>
      obtain ⟨g1, -, -, g4, -⟩ := go_left hg h.slots
      refine ⟨g1, fun u k hk => ?_⟩
      rcases g4 u with e | ⟨-, e⟩
      · simp only [Option.getD_some] at hk; rw [e] at hk; exact h.jobs u k hk
      · simp only [Option.getD_some] at hk; rw [e] at hk; cases hk

theorem Plain.run {P : Nat → Nat → Prop} {C : Conc} (h : Plain P C) {as : List Act} (ha : ∀ t j, Act.start t j ∈ as → P j.cage j.fd) :
    Plain P (DataConc.run C as) := by
  induction as generalizing C with
  | nil => exact h
  | cons a as ih =>
    exact ih (h.step (fun t j e => ha t j (by rw [e]; exact List.mem_cons_self ..))) (fun t j e => ha t j (List.mem_cons_of_mem _ e))

/-- The threads that a schedule starts. -/
def starters : List Act → List Nat
  | [] => []
  | .start t _ :: as => t :: starters as
  | .go _ :: as => starters as

theorem run_starters {C : Conc} {ts : List Nat} (h : ∀ t, C.job t ≠ none → t ∈ ts) (as : List Act) {t : Nat}
    (ht : (DataConc.run C as).job t ≠ none) : t ∈ ts ++ starters as := by
  induction as generalizing C ts with
  | nil => simpa [starters] using h t ht
  | cons a as ih =>
    cases a with
    | start u j =>
      have := ih (C := DataConc.step C (.start u j)) (ts := ts ++ [u]) (fun v hv => by
        by_cases e : v = u
        · simp [e]
        · simp only [DataConc.step] at hv
          split at hv
          · simp only [upd_ne _ _ e] at hv
            exact List.mem_append_left _ (h v hv)
          · exact List.mem_append_left _ (h v hv)) ht
      simpa [starters] using this
    | go u =>
      refine ih (C := DataConc.step C (.go u)) (ts := ts) (fun v hv => ?_) ht
      simp only [DataConc.step] at hv
      cases hg : DataConc.go C u with
      | none => rw [hg] at hv; exact h v hv
      | some D =>
        rw [hg] at hv
        simp only [Option.getD_some] at hv
        rcases (go_left (P := fun _ _ => False) hg (fun _ _ h => h.elim)).2.2.2.1 v with e | ⟨-, e⟩
        · rw [e] at hv; exact h v hv
        · exact absurd e hv

theorem left_bound (p : Pc) : p.left ≤ 11 := by
  cases p with
  | node i pos f b => cases b <;> simp [Pc.left, Body.left]
  | _ => simp [Pc.left]

theorem left_total (C : Conc) (ts : List Nat) : C.left ts ≤ 11 * ts.length := by
  induction ts with
  | nil => simp [Conc.left]
  | cons a ts ih =>
    simp only [Conc.left, List.map_cons, List.sum_cons, List.length_cons] at ih ⊢
    have := left_bound (C.pc a)
    omega

theorem run_append (C : Conc) (as bs : List Act) : DataConc.run C (as ++ bs) = DataConc.run (DataConc.run C as) bs := by
  induction as generalizing C with
  | nil => rfl
  | cons a as ih => exact ih _

/-- Moves of the threads named, each possible when its turn comes. -/
def Possible : Conc → List Nat → Prop
  | _, [] => True
  | C, t :: us => (DataConc.go C t).isSome ∧ Possible (DataConc.step C (.go t)) us

theorem Possible.few {P : Nat → Nat → Prop} {ts us : List Nat} : ∀ {C : Conc}, Plain P C → (∀ t, C.job t ≠ none → t ∈ ts) →
    Possible C us → us.length ≤ C.left ts := by
  induction us with
  | nil => intros; simp
  | cons u us ih =>
    intro C hs ht h
    obtain ⟨D, hD⟩ := Option.isSome_iff_exists.1 h.1
    obtain ⟨g1, g2, g3, g4, g5⟩ := go_left hD hs.slots
    have hlt := (left_lt g2 g3 ts).2 (ht u g5)
    have h2 := h.2
    have hp := hs.step (a := .go u) (fun t j e => by cases e)
    simp only [DataConc.step, hD, Option.getD_some] at h2 hp
    have := ih hp (fun v hv => by
        rcases g4 v with e | ⟨-, e⟩
        · rw [e] at hv; exact ht v hv
        · exact absurd e hv) h2
    simp only [List.length_cons]
    omega

/-- Nobody is calling at the end of a schedule if none of those who began are. -/
theorem atRest_of {s : State} {as : List Act} (h : (starters as).all (fun t => ((run (rest s) as).job t).isNone) = true) :
    AtRest (run (rest s) as) := by
  intro t
  cases hj : (run (rest s) as).job t with
  | none => rfl
  | some j =>
    have := run_starters (C := rest s) (ts := []) (fun t ht => absurd rfl ht) as (t := t) (by rw [hj]; simp)
    have := List.all_eq_true.1 h t (by simpa using this)
    rw [hj] at this
    cases this

end Verif.DataConc
