import Verif.Locks

/-!
# Waiting for locks: why somebody can go on

`Good` follows a call through and asks for a condition wherever it takes a lock.  `ok_go` and `ok_go_fair` are the two arguments why, if
all threads keep to such a condition, not all of them can be waiting.
-/

namespace Verif.Locks

/-- Locks that are only ever read, and the condition under which a lock may be taken by a thread that has `H`. -/
structure Disc where
  ro : Lk → Prop
  cond : List (Lk × Mode) → Lk → Mode → Prop

/-- The rest of a call, with the locks `H`, keeps to the rules, and gives back all it has. -/
def Good (d : Disc) : List (Lk × Mode) → List Instr → Prop
  | H, [] => H = []
  | H, .acq l m :: is => d.cond H l m ∧ (m = .w → ¬ d.ro l) ∧ Good d ((l, m) :: H) is
  | H, .rel l m :: is => Good d (H.erase (l, m)) is
  | H, .tryw l :: is => ¬ d.ro l ∧ Good d ((l, .w) :: H) is
  | H, .opt :: is => Good d H is

/-- What holds of a thread. -/
structure TOk (d : Disc) (t : Thr) : Prop where
  good : Good d t.held t.todo
  ro : ∀ l, (l, .w) ∈ t.held → ¬ d.ro l

/-- What holds of all threads. -/
def Ok (d : Disc) (s : List Thr) : Prop := ∀ t ∈ s, TOk d t

/-- All calls that are made keep to the rules. -/
def Keeps (d : Disc) (h : Hash) : Act → Prop
  | .call _ c => Good d [] (prog h c)
  | _ => True

theorem idle_ok (d : Disc) : TOk d idle := ⟨rfl, fun _ h => (nomatch h)⟩

theorem ok_init (d : Disc) (N : Nat) : Ok d (init N) := by
  intro t ht; rw [List.eq_of_mem_replicate ht]; exact idle_ok d

theorem ok_set {d : Disc} {s : List Thr} (h : Ok d s) {x : Thr} (hx : TOk d x) (i : Nat) : Ok d (s.set i x) := by
  intro t ht
  rcases List.mem_or_eq_of_mem_set ht with h1 | h1
  · exact h t h1
  · rw [h1]; exact hx

theorem go_ok {d : Disc} {fair : Bool} {s : List Thr} {t t' : Thr} (h : TOk d t) (hg : t.go fair s = some t') : TOk d t' := by
  obtain ⟨hg0, hr⟩ := h
  unfold Thr.go at hg
  cases hto : t.todo with
  | nil => simp [hto] at hg
  | cons i is =>
    rw [hto] at hg0
    cases i with
    | acq l m =>
      simp only [hto] at hg
      split at hg
      · cases hg
        refine ⟨hg0.2.2, fun l' hl' => ?_⟩
        rcases List.mem_cons.mp hl' with h1 | h1
        · have h2 := (Prod.mk.inj h1).2
          rw [(Prod.mk.inj h1).1]; exact hg0.2.1 h2.symm
        · exact hr _ h1
      · cases hg
    | rel l m =>
      simp only [hto] at hg
      cases hg
      exact ⟨hg0, fun l' hl' => hr _ (List.mem_of_mem_erase hl')⟩
    | tryw l =>
      simp only [hto] at hg
      split at hg
      · cases hg
        refine ⟨hg0.2, fun l' hl' => ?_⟩
        rcases List.mem_cons.mp hl' with h1 | h1
        · rw [(Prod.mk.inj h1).1]; exact hg0.1
        · exact hr _ h1
      · cases hg; exact idle_ok d
    | opt =>
      simp only [hto] at hg
      cases hg
      exact ⟨hg0, hr⟩

theorem step_ok {d : Disc} {h : Hash} {fair : Bool} {s s' : List Thr} {a : Act} (ho : Ok d s) (ha : Keeps d h a)
    (hs : step h fair s a = some s') : Ok d s' := by
  cases a with
  | call t c =>
    simp only [step] at hs
    split at hs
    · split at hs
      · cases hs
        have h1 : TOk d { idle with todo := prog h c } := ⟨ha, fun _ h => (nomatch h)⟩
        exact ok_set ho h1 _
      · cases hs
    · cases hs
  | go t =>
    simp only [step] at hs
    split at hs
    · next x hx =>
      cases hg : x.go fair s with
      | none => simp [hg] at hs
      | some y =>
        simp only [hg, Option.map_some, Option.some.injEq] at hs
        subst hs
        exact ok_set ho (go_ok (ho x (List.mem_of_getElem? hx)) hg) _
    · cases hs
  | quit t =>
    simp only [step] at hs
    split at hs
    · split at hs
      · cases hs; exact ok_set ho (idle_ok d) _
      · cases hs
    · cases hs
  | queue t =>
    simp only [step] at hs
    split at hs
    · next x hx =>
      have hx := ho x (List.mem_of_getElem? hx)
      split at hs
      · split at hs
        · cases hs
        · cases hs
          have h1 : TOk d { x with queued := true } := ⟨hx.good, hx.ro⟩
          exact ok_set ho h1 _
      · cases hs
    · cases hs

theorem runFrom_ok {d : Disc} {h : Hash} {fair : Bool} {l : List Act} : ∀ {s : List Thr}, Ok d s → (∀ a ∈ l, Keeps d h a) →
    Ok d (runFrom h fair s l) := by
  induction l with
  | nil => exact fun ho _ => ho
  | cons a l ih =>
    intro s ho hk
    simp only [runFrom]
    refine ih ?_ (fun b hb => hk b (List.mem_cons_of_mem _ hb))
    cases hs : step h fair s a with
    | none => exact ho
    | some s' => exact step_ok ho (hk a List.mem_cons_self) hs

/-! ## Nobody can go on -/

/-- Thread `t` is about to take `l`. -/
def At (s : List Thr) (t : Thr) (l : Lk) (m : Mode) : Prop := t ∈ s ∧ ∃ is, t.todo = .acq l m :: is

/-- No thread can go on. -/
def Stuck (fair : Bool) (s : List Thr) : Prop := ∀ t ∈ s, t.go fair s = none

theorem stuck_at {fair : Bool} {s : List Thr} (hs : Stuck fair s) {t : Thr} (ht : t ∈ s) (hn : t.todo ≠ []) :
    ∃ l m, At s t l m ∧ free fair s l m = false := by
  have h := hs t ht
  unfold Thr.go at h
  split at h
  · next h0 => exact absurd h0 hn
  · next l m is h0 =>
    split at h
    · cases h
    · next hf => exact ⟨l, m, ⟨ht, is, h0⟩, by simpa using hf⟩
  · cases h
  · split at h <;> cases h
  · cases h

theorem stuck_free {fair : Bool} {s : List Thr} (hs : Stuck fair s) {t : Thr} {l : Lk} {m : Mode} (h : At s t l m) :
    free fair s l m = false := by
  obtain ⟨l', m', ⟨_, is', h1⟩, h2⟩ := stuck_at hs h.1 (by obtain ⟨_, is, hi⟩ := h; rw [hi]; exact (nomatch ·))
  obtain ⟨_, is, hi⟩ := h
  rw [hi] at h1
  cases h1
  exact h2

theorem at_cond {d : Disc} {s : List Thr} (ho : Ok d s) {t : Thr} {l : Lk} {m : Mode} (h : At s t l m) :
    d.cond t.held l m ∧ (m = .w → ¬ d.ro l) := by
  obtain ⟨ht, is, hi⟩ := h
  have := (ho t ht).good
  rw [hi] at this
  exact ⟨this.1, this.2.1⟩

/-- Who has a lock is in a call, hence waits too. -/
theorem holder_at {d : Disc} {fair : Bool} {s : List Thr} (ho : Ok d s) (hs : Stuck fair s) {t : Thr} (ht : t ∈ s) {x : Lk × Mode}
    (hx : x ∈ t.held) : ∃ l m, At s t l m := by
  obtain ⟨l, m, h, _⟩ := stuck_at hs ht (by
    intro h0
    have := (ho t ht).good
    rw [h0] at this
    rw [show t.held = [] from this] at hx
    cases hx)
  exact ⟨l, m, h⟩

theorem blocked_w {fair : Bool} {s : List Thr} {l : Lk} (h : free fair s l .w = false) : ∃ t ∈ s, ∃ m, (l, m) ∈ t.held := by
  simp only [free, List.all_eq_false] at h
  obtain ⟨t, ht, h⟩ := h
  simp only [Bool.not_eq_true, List.all_eq_false] at h
  obtain ⟨⟨l', m⟩, hx, h⟩ := h
  simp only [bne_eq_false_iff_eq] at h
  subst h
  exact ⟨t, ht, m, hx⟩

theorem blocked_r {fair : Bool} {s : List Thr} {l : Lk} (h : free fair s l .r = false) :
    (∃ t ∈ s, (l, .w) ∈ t.held) ∨ (fairOn fair l = true ∧ ∃ t, At s t l .w) := by
  simp only [free, List.all_eq_false] at h
  obtain ⟨t, ht, h⟩ := h
  rw [Bool.not_eq_true] at h
  simp only [Bool.and_eq_false_iff, Bool.not_eq_false', Bool.and_eq_true] at h
  rcases h with h | ⟨h1, h2⟩
  · exact .inl ⟨t, ht, by simpa using h⟩
  · refine .inr ⟨h1, t, ht, ?_⟩
    simp only [Thr.waits, Bool.and_eq_true, beq_iff_eq] at h2
    cases hto : t.todo with
    | nil => rw [hto] at h2; simp at h2
    | cons i is =>
      rw [hto] at h2
      simp only [List.head?_cons, Option.some.injEq] at h2
      exact ⟨is, by rw [h2.2]⟩

/-- A lock that is not to be had for reading is not one that is only read. -/
theorem at_not_ro {d : Disc} {fair : Bool} {s : List Thr} (ho : Ok d s) (hs : Stuck fair s) {t : Thr} {l : Lk} {m : Mode}
    (h : At s t l m) : ¬ d.ro l := by
  cases m with
  | w => exact (at_cond ho h).2 rfl
  | r =>
    rcases blocked_r (stuck_free hs h) with ⟨u, hu, hw⟩ | ⟨_, u, hu⟩
    · exact (ho u hu).ro l hw
    · exact (at_cond ho hu).2 rfl

/-- A lock that is not to be had is held by a thread that waits for another one; and if it is wanted for reading and readers are let in, it
is held for writing. -/
theorem at_next {d : Disc} {fair : Bool} {s : List Thr} (ho : Ok d s) (hs : Stuck fair s) {t : Thr} {l : Lk} {m : Mode}
    (h : At s t l m) : ∃ u m' l2 m2, (l, m') ∈ u.held ∧ At s u l2 m2 ∧ (m = .r → fairOn fair l = false → m' = .w) := by
  cases m with
  | w =>
    obtain ⟨u, hu, m', hm⟩ := blocked_w (stuck_free hs h)
    obtain ⟨l2, m2, ha⟩ := holder_at ho hs hu hm
    exact ⟨u, m', l2, m2, hm, ha, fun h => (nomatch h)⟩
  | r =>
    rcases blocked_r (stuck_free hs h) with ⟨u, hu, hw⟩ | ⟨hf, v, hv⟩
    · obtain ⟨l2, m2, ha⟩ := holder_at ho hs hu hw
      exact ⟨u, .w, l2, m2, hw, ha, fun _ _ => rfl⟩
    · obtain ⟨u, hu, m', hm⟩ := blocked_w (stuck_free hs hv)
      obtain ⟨l2, m2, ha⟩ := holder_at ho hs hu hm
      exact ⟨u, m', l2, m2, hm, ha, fun _ h => by rw [hf] at h; cases h⟩

/-- Among finitely many threads nobody can always find one that is further up. -/
theorem no_ascent {s : List Thr} {P : Thr → Lk → Prop} (f : Lk → Nat) (hf : ∀ t l, P t l → ∃ m is, t.todo = .acq l m :: is)
    (hs : ∀ t l, P t l → t ∈ s) (hup : ∀ t l, P t l → ∃ t' l', P t' l' ∧ f l < f l') : ∀ t l, ¬ P t l := by
  intro t l hp
  let g : Thr → Nat := fun t => match t.todo with | .acq l _ :: _ => f l | _ => 0
  have hb : ∀ (s : List Thr) t, t ∈ s → g t ≤ (s.map g).sum := by
    intro s
    induction s with
    | nil => intro t ht; cases ht
    | cons a s ih =>
      intro t ht
      simp only [List.map_cons, List.sum_cons]
      rcases List.mem_cons.mp ht with rfl | ht
      · omega
      · have := ih t ht; omega
  have hg : ∀ t l, P t l → g t = f l := by
    intro t l h
    obtain ⟨m, is, hi⟩ := hf t l h
    simp only [g, hi]
  have : ∀ n, ∃ t l, P t l ∧ n ≤ f l := by
    intro n
    induction n with
    | zero => exact ⟨t, l, hp, Nat.zero_le _⟩
    | succ n ih =>
      obtain ⟨t1, l1, h1, h2⟩ := ih
      obtain ⟨t2, l2, h3, h4⟩ := hup t1 l1 h1
      exact ⟨t2, l2, h3, by omega⟩
  obtain ⟨t1, l1, h1, h2⟩ := this ((s.map g).sum + 1)
  have := hb s t1 (hs t1 l1 h1)
  rw [hg t1 l1 h1] at this
  omega

/-! ## Two disciplines -/

/-- Locks are taken from lower to higher classes.  Within a class, where readers are let in while a writer waits: a second one may be
taken for reading, by who has the first one for reading, or else in the order of `sub`. -/
def disc (fair : Bool) (ro : Lk → Prop) (cls sub : Lk → Nat) : Disc where
  ro := ro
  cond := fun H l m => ro l ∨ ∀ x ∈ H, cls x.1 < cls l ∨
    (cls x.1 = cls l ∧ fairOn fair l = false ∧ m = .r ∧ (x.2 = .r ∨ sub x.1 < sub l))

/-- Locks are taken in the order of classes and, within a class, of `sub`. -/
def strict (ro : Lk → Prop) (cls sub : Lk → Nat) : Disc where
  ro := ro
  cond := fun H l _ => ro l ∨ ∀ x ∈ H, cls x.1 < cls l ∨ (cls x.1 = cls l ∧ sub x.1 < sub l)

/-- Nobody waits, if nobody waits for a lock of a higher class. -/
theorem by_class {s : List Thr} (cls : Lk → Nat) (K : Nat) (hK : ∀ l, cls l ≤ K)
    (hstep : ∀ k, (∀ t l m, At s t l m → cls l ≤ k) → ∀ t l m, At s t l m → cls l ≠ k) : ∀ t l m, ¬ At s t l m := by
  have : ∀ n k, k + n = K → ∀ t l m, At s t l m → cls l ≤ k := by
    intro n
    induction n with
    | zero => intro k hk t l m _; have := hK l; omega
    | succ n ih =>
      intro k hk t l m h
      have h1 := ih (k + 1) (by omega)
      have := h1 t l m h
      have := hstep (k + 1) h1 t l m h
      omega
  intro t l m h
  have h0 := this K 0 (by omega)
  have := h0 t l m h
  exact hstep 0 h0 t l m h (by omega)

theorem disc_free {fair : Bool} {ro : Lk → Prop} {cls sub : Lk → Nat} (K : Nat) (hK : ∀ l, cls l ≤ K) {s : List Thr}
    (ho : Ok (disc fair ro cls sub) s) (hs : Stuck fair s) : ∀ t l m, ¬ At s t l m := by
  refine by_class cls K hK fun k hk t l m ha hkl => ?_
  have hc : ∀ {u l2 m2}, At s u l2 m2 → ∀ x ∈ u.held, cls x.1 < cls l2 ∨
      (cls x.1 = cls l2 ∧ fairOn fair l2 = false ∧ m2 = .r ∧ (x.2 = .r ∨ sub x.1 < sub l2)) := by
    intro u l2 m2 h
    exact (at_cond ho h).1.resolve_left (at_not_ro ho hs h)
  have h1 : ∀ {t l m}, At s t l m → cls l = k → ∃ u m' l2, (l, m') ∈ u.held ∧ At s u l2 .r ∧ cls l2 = k ∧ fairOn fair l2 = false ∧
      (m = .r → fairOn fair l = false → sub l < sub l2) := by
    intro t l m ha hkl
    obtain ⟨u, m', l2, m2, hm, hu, hw⟩ := at_next ho hs ha
    rcases hc hu _ hm with h | ⟨h1, h2, h3, h4⟩
    · have := hk _ _ _ hu; simp only at h; omega
    · subst h3
      refine ⟨u, m', l2, hm, hu, by simp only at h1; omega, h2, fun h5 h6 => ?_⟩
      rcases h4 with h4 | h4
      · have := hw h5 h6; simp only at h4; rw [h4] at this; cases this
      · exact h4
  obtain ⟨u, _, l2, _, hu, h2, h3, _⟩ := h1 ha hkl
  refine no_ascent (s := s) (P := fun t l => At s t l .r ∧ cls l = k ∧ fairOn fair l = false) sub ?_ ?_ ?_ u l2 ⟨hu, h2, h3⟩
  · rintro t l ⟨⟨_, is, h⟩, _⟩; exact ⟨_, is, h⟩
  · rintro t l ⟨⟨h, _⟩, _⟩; exact h
  · rintro t l ⟨ha, h4, h5⟩
    obtain ⟨u, _, l2, _, hu, h2, h3, h6⟩ := h1 ha h4
    exact ⟨u, l2, ⟨hu, h2, h3⟩, h6 rfl h5⟩

theorem strict_free {fair : Bool} {ro : Lk → Prop} {cls sub : Lk → Nat} (K : Nat) (hK : ∀ l, cls l ≤ K) {s : List Thr}
    (ho : Ok (strict ro cls sub) s) (hs : Stuck fair s) : ∀ t l m, ¬ At s t l m := by
  refine by_class cls K hK fun k hk t l m ha hkl => ?_
  refine no_ascent (s := s) (P := fun t l => (∃ m, At s t l m) ∧ cls l = k) sub ?_ ?_ ?_ t l ⟨⟨m, ha⟩, hkl⟩
  · rintro t l ⟨⟨_, _, is, h⟩, _⟩; exact ⟨_, is, h⟩
  · rintro t l ⟨⟨_, h, _⟩, _⟩; exact h
  · rintro t l ⟨⟨m, ha⟩, h4⟩
    obtain ⟨u, m', l2, m2, hm, hu, _⟩ := at_next ho hs ha
    rcases (at_cond ho hu).1.resolve_left (at_not_ro ho hs hu) _ hm with h | ⟨h, h'⟩
    · have := hk _ _ _ hu; simp only at h; omega
    · exact ⟨u, l2, ⟨⟨m2, hu⟩, by simp only at h; omega⟩, h'⟩

/-- If nobody waits, and somebody is in a call, somebody can go on. -/
theorem can_go {fair : Bool} {h : Hash} {s : List Thr} (hn : Stuck fair s → ∀ t l m, ¬ At s t l m) (hb : ∃ t ∈ s, t.todo ≠ []) :
    ∃ i, (step h fair s (.go i)).isSome := by
  apply Classical.byContradiction
  intro hno
  have hst : Stuck fair s := by
    intro t ht
    obtain ⟨i, hi, rfl⟩ := List.mem_iff_getElem.mp ht
    cases hg : s[i].go fair s with
    | none => rfl
    | some y => exact absurd ⟨i, by simp [step, List.getElem?_eq_getElem hi, hg]⟩ hno
  obtain ⟨t, ht, hne⟩ := hb
  obtain ⟨l, m, ha, _⟩ := stuck_at hst ht hne
  exact hn hst t l m ha

/-! ## Putting calls together -/

/-- A piece of a call that begins and ends with the locks `H`. -/
def Seg (d : Disc) (H : List (Lk × Mode)) (p : List Instr) : Prop := ∀ rest, Good d H rest → Good d H (p ++ rest)

theorem seg_good {d : Disc} {p : List Instr} (h : Seg d [] p) : Good d [] p := by
  have := h [] rfl
  rwa [List.append_nil] at this

theorem seg_nil {d : Disc} {H : List (Lk × Mode)} : Seg d H [] := fun _ h => h

theorem seg_app {d : Disc} {H : List (Lk × Mode)} {p q : List Instr} (hp : Seg d H p) (hq : Seg d H q) : Seg d H (p ++ q) := by
  intro rest h
  rw [List.append_assoc]
  exact hp _ (hq _ h)

theorem seg_opt {d : Disc} {H : List (Lk × Mode)} {p : List Instr} (hp : Seg d H p) : Seg d H (.opt :: p) := fun rest h => hp rest h

theorem seg_sec {d : Disc} {H : List (Lk × Mode)} {l : Lk} {m : Mode} {p : List Instr} (hc : d.cond H l m) (hr : m = .w → ¬ d.ro l)
    (hp : Seg d ((l, m) :: H) p) : Seg d H (sec l m p) := by
  intro rest h
  simp only [sec, List.cons_append, List.append_assoc, List.nil_append, Good]
  refine ⟨hc, hr, hp _ ?_⟩
  simp only [Good, List.erase_cons_head]
  exact h

theorem seg_try {d : Disc} {H : List (Lk × Mode)} {l : Lk} {p : List Instr} (hr : ¬ d.ro l) (hp : Seg d ((l, .w) :: H) p) :
    Seg d H (.tryw l :: p ++ [.rel l .w]) := by
  intro rest h
  simp only [List.cons_append, List.append_assoc, List.nil_append, Good]
  refine ⟨hr, hp _ ?_⟩
  simp only [Good, List.erase_cons_head]
  exact h

theorem erase_second (a b : Lk × Mode) (H : List (Lk × Mode)) : (a :: b :: H).erase b = a :: H := by
  by_cases h : a = b
  · subst h; rw [List.erase_cons_head]
  · rw [List.erase_cons_tail (by simpa using h), List.erase_cons_head]

theorem seg_flat {d : Disc} {H : List (Lk × Mode)} {α : Type} {f : α → List Instr} (h : ∀ x, Seg d H (f x)) (xs : List α) :
    Seg d H (xs.flatMap f) := by
  induction xs with
  | nil => exact seg_nil
  | cons x xs ih => rw [List.flatMap_cons]; exact seg_app (h x) ih

/-- The walk: each lock is taken on top of the last one. -/
theorem seg_walk {d : Disc} {h : Hash} {H : List (Lk × Mode)} {ns : List Nat} (h1 : d.cond H (h.at 1) .r)
    (hc : ∀ a b, (a, b) ∈ (1 :: ns).zip ns → d.cond ((h.at a, .r) :: H) (h.at b) .r) : Seg d H (walk h ns) := by
  have key : ∀ (ns : List Nat) cur, (∀ a b, (a, b) ∈ (cur :: ns).zip ns → d.cond ((h.at a, .r) :: H) (h.at b) .r) →
      ∀ rest, Good d H rest → Good d ((h.at cur, .r) :: H) (walkFrom h cur ns ++ rest) := by
    intro ns
    induction ns with
    | nil =>
      intro cur _ rest hr
      simp only [walkFrom, List.cons_append, List.nil_append, Good, List.erase_cons_head]
      exact hr
    | cons n ns ih =>
      intro cur hz rest hr
      simp only [walkFrom, List.cons_append, Good]
      refine ⟨hz cur n (by simp), (nomatch ·), ?_⟩
      rw [erase_second]
      exact ih n (fun a b hab => hz a b (by simp only [List.zip_cons_cons, List.mem_cons]; exact .inr hab)) rest hr
  intro rest hr
  simp only [walk, List.cons_append, Good]
  exact ⟨h1, (nomatch ·), key ns 1 hc rest hr⟩

end Verif.Locks
