import Verif.HandlesLemmas

/-!
# C47: mutex and condition variable handles

The specification is the type `World`: which object each handle of each cage designates, which
objects exist and which mutexes are locked, and the relation `Allowed`, which says what each call
may do to it.  It knows nothing about tables or indices.  `refines` proves that every history of
fewer than 2^31 calls from start-up behaves as the specification says; the other theorems are
the clauses of the property.
-/

set_option linter.unusedSimpArgs false

namespace Verif.Handles

/-! ## Specification -/

/-- What a program can know about handles. -/
structure World where
  /-- the object a handle designates in a cage, if any -/
  obj : Nat → Kind → Int → Option Nat
  /-- objects made so far -/
  made : Nat → Prop
  /-- locked mutex objects -/
  locked : Nat → Bool

/-- Two maps of handles agree except, perhaps, on handle `h` of kind `k` of cage `c`. -/
def ElseSame (w w' : World) (c : Nat) (k : Kind) (h : Int) : Prop :=
  ∀ c' k' h', (c', k', h') ≠ (c, k, h) → w'.obj c' k' h' = w.obj c' k' h'

/-- A call on a mutex handle: `EBADF` if it designates nothing, otherwise `act` on the object;
the handles stay as they are. -/
def OnMutex (w w' : World) (r : Ret) (c : Nat) (h : Int) (act : Nat → Prop) : Prop :=
  w'.obj = w.obj ∧ w'.made = w.made ∧
  match w.obj c .mutex h with
  | none => r = .err .EBADF ∧ w'.locked = w.locked
  | some o => act o

/-- What each call may do. -/
def Allowed (w : World) (w' : World) (r : Ret) : Op → Prop
  | .create c k none =>
      ∃ h o, r = .ok h ∧ 0 ≤ h ∧ w.obj c k h = none ∧ ¬ w.made o ∧
        w'.obj c k h = some o ∧ ElseSame w w' c k h ∧
        (∀ x, w'.made x ↔ w.made x ∨ x = o) ∧ w'.locked = upd w.locked o false
  | .create _ _ (some e) => r = .err e ∧ w' = w
  | .destroy c k h =>
      w'.made = w.made ∧ w'.locked = w.locked ∧ ElseSame w w' c k h ∧ w'.obj c k h = none ∧
      r = if w.obj c k h = none then .err .EBADF else .ok 0
  | .lock c h => OnMutex w w' r c h fun o =>
      if w.locked o then r = .blocked ∧ w'.locked = w.locked
      else r = .ok 0 ∧ w'.locked = upd w.locked o true
  | .trylock c h => OnMutex w w' r c h fun o =>
      if w.locked o then r = .ok Errno.EBUSY.code ∧ w'.locked = w.locked
      else r = .ok 0 ∧ w'.locked = upd w.locked o true
  | .unlock c h => OnMutex w w' r c h fun o => r = .ok 0 ∧ w'.locked = upd w.locked o false
  | .signal c h => w' = w ∧ r = if w.obj c .cond h = none then .err .EBADF else .ok 0
  | .wait c cv m =>
      if w.obj c .cond cv = none then r = .err .EBADF ∧ w' = w
      else OnMutex w w' r c m fun o => r = .blocked ∧ w'.locked = upd w.locked o false
  | .wake o expired => w'.obj = w.obj ∧ w'.made = w.made ∧
      if w.locked o then r = .blocked ∧ w'.locked = w.locked
      else r = .ok (if expired then Errno.ETIMEDOUT.code else 0) ∧
        w'.locked = upd w.locked o true
  | .fork c child =>
      r = .ok 0 ∧ (∀ c' k h, c' ≠ child → w'.obj c' k h = w.obj c' k h) ∧
      (∀ k h, w'.obj child k h = none ↔ w.obj c k h = none) ∧
      (∀ k h o, w'.obj child k h = some o → w'.made o ∧ ¬ w.made o ∧ w'.locked o = false) ∧
      (∀ k h k' h' o, w'.obj child k h = some o → w'.obj child k' h' = some o →
        k = k' ∧ h = h') ∧
      (∀ o, w.made o → w'.made o ∧ w'.locked o = w.locked o)
  | .exec c new =>
      r = .ok 0 ∧ w'.made = w.made ∧ w'.locked = w.locked ∧
      ∀ c' k h, w'.obj c' k h = if c' = c ∨ c' = new then none else w.obj c' k h
  | .exit c status =>
      r = .ok status ∧ w'.made = w.made ∧ w'.locked = w.locked ∧
      ∀ c' k h, w'.obj c' k h = if c' = c then none else w.obj c' k h

/-- The world a state stands for. -/
def worldOf (s : State) : World :=
  { obj := fun c k h => find (s.tab c k) h, made := fun o => o < s.next, locked := s.locked }

/-! ## Invariants -/

/-- No table is longer than `n`. -/
def Len (n : Nat) (s : State) : Prop := ∀ c k, (s.tab c k).length ≤ n

/-- Every entry is an object that has been made, and no object has two entries. -/
def Distinct (s : State) : Prop :=
  (∀ c k i o, at' (s.tab c k) i = some o → o < s.next) ∧
  (∀ c k i c' k' i' o, at' (s.tab c k) i = some o → at' (s.tab c' k') i' = some o →
    c = c' ∧ k = k' ∧ i = i')

theorem setTab_tab (s : State) (c : Nat) (k : Kind) (t : List (Option Nat)) (c' : Nat) (k' : Kind) :
    (s.setTab c k t).tab c' k' = if c' = c ∧ k' = k then t else s.tab c' k' := rfl

theorem Len.setTab {n : Nat} {s : State} (h : Len n s) {c : Nat} {k : Kind}
    {t : List (Option Nat)} (ht : t.length ≤ n) : Len n (s.setTab c k t) := by
  intro c' k'
  rw [setTab_tab]
  split
  · exact ht
  · exact h c' k'

theorem Len.mono {n m : Nat} {s : State} (h : Len n s) (hm : n ≤ m) : Len m s :=
  fun c k => Nat.le_trans (h c k) hm

theorem Len.step {n : Nat} {s : State} (h : Len n s) (op : Op) : Len (n + 1) (Handles.step s op).1 := by
  have h1 : Len (n + 1) s := h.mono (Nat.le_succ n)
  cases op with
  | create c k fail =>
    have hl := claim_length (s.tab c k)
    have hc := h c k
    cases fail with
    | some e => exact h1.setTab (by omega)
    | none =>
      have h2 : Len (n + 1) (s.setTab c k ((claim (s.tab c k)).2.set (claim (s.tab c k)).1
        (some s.next))) := h1.setTab (by rw [List.length_set]; omega)
      exact h2
  | destroy c k x =>
    simp only [Handles.step, destroy]
    split
    · exact h1.setTab (by rw [List.length_set]; exact h1 c k)
    · exact h1
  | lock c x => simp only [Handles.step, lock, lockObj]; repeat' split
                all_goals exact h1
  | trylock c x => simp only [Handles.step, trylock]; repeat' split
                   all_goals exact h1
  | unlock c x => simp only [Handles.step, unlock]; repeat' split
                  all_goals exact h1
  | signal c x => simp only [Handles.step, signal]; repeat' split
                  all_goals exact h1
  | wait c x y => simp only [Handles.step, wait]; repeat' split
                  all_goals exact h1
  | wake o e => simp only [Handles.step, wake]; repeat' split
                all_goals exact h1
  | fork c child =>
    have h2 : Len (n + 1) ((s.setTab child .mutex (copyTab s.next (s.tab c .mutex)).1).setTab child
        .cond (copyTab (copyTab s.next (s.tab c .mutex)).2 (s.tab c .cond)).1) :=
      (h1.setTab (by rw [copyTab_length]; exact h1 c _)).setTab
        (by rw [copyTab_length]; exact h1 c _)
    exact h2
  | exec c new =>
    exact (((h1.setTab (by simp)).setTab (by simp)).setTab (by simp)).setTab (by simp)
  | exit c st => exact (h1.setTab (by simp)).setTab (by simp)

theorem create_at (s : State) (c : Nat) (k : Kind) (c' : Nat) (k' : Kind) (i : Nat) :
    at' ((create s c k none).1.tab c' k') i =
      if c' = c ∧ k' = k ∧ i = (claim (s.tab c k)).1 then some s.next
      else at' (s.tab c' k') i := by
  have hlt := claim_lt (s.tab c k)
  show at' (if c' = c ∧ k' = k then _ else _) i = _
  by_cases hck : c' = c ∧ k' = k
  · obtain ⟨rfl, rfl⟩ := hck
    rw [if_pos ⟨rfl, rfl⟩, set_at _ _ _ hlt, claim_at]
    simp
  · rw [if_neg hck, if_neg (fun e => hck ⟨e.1, e.2.1⟩)]

theorem create_fail_at (s : State) (c : Nat) (k : Kind) (e : Errno) (c' : Nat) (k' : Kind)
    (i : Nat) : at' ((create s c k (some e)).1.tab c' k') i = at' (s.tab c' k') i := by
  show at' (if c' = c ∧ k' = k then _ else _) i = _
  split
  · rename_i hck
    obtain ⟨rfl, rfl⟩ := hck
    exact claim_at _ _
  · rfl

theorem clear_at (s : State) (c : Nat) (k : Kind) (j : Nat) (hj : j < (s.tab c k).length)
    (c' : Nat) (k' : Kind) (i : Nat) :
    at' ((s.setTab c k ((s.tab c k).set j none)).tab c' k') i =
      if c' = c ∧ k' = k ∧ i = j then none else at' (s.tab c' k') i := by
  rw [setTab_tab]
  by_cases hck : c' = c ∧ k' = k
  · obtain ⟨rfl, rfl⟩ := hck
    rw [if_pos ⟨rfl, rfl⟩, set_at _ _ _ hj]
    simp
  · rw [if_neg hck, if_neg (fun e => hck ⟨e.1, e.2.1⟩)]

/-- A handle that designates an object is an index of the table. -/
theorem find_lt {t : List (Option Nat)} {h : Int} {o : Nat} (ht : t.length < 2147483648)
    (hf : find t h = some o) : 0 ≤ h ∧ h.toNat < t.length ∧ at' t h.toNat = some o := by
  rw [find_small ht] at hf
  split at hf
  · rename_i h0
    refine ⟨h0, ?_, hf⟩
    apply Nat.lt_of_not_le
    intro hge
    rw [at'_out hge] at hf
    exact nomatch hf
  · exact nomatch hf

theorem fork_at (s : State) (c child c' : Nat) (k : Kind) :
    (fork s c child).1.tab c' k =
      if c' = child then
        (match k with
          | .mutex => (copyTab s.next (s.tab c .mutex)).1
          | .cond => (copyTab (copyTab s.next (s.tab c .mutex)).2 (s.tab c .cond)).1)
      else s.tab c' k := by
  show (if c' = child ∧ k = .cond then _ else if c' = child ∧ k = .mutex then _ else _) = _
  cases k <;> by_cases h : c' = child <;> simp [h]

theorem fork_next (s : State) (c child : Nat) : (fork s c child).1.next =
    (copyTab (copyTab s.next (s.tab c .mutex)).2 (s.tab c .cond)).2 := rfl

theorem fork_next_le (s : State) (c child : Nat) : s.next ≤ (fork s c child).1.next :=
  Nat.le_trans (copyTab_le _ _) (copyTab_le _ _)

/-- The objects of a child are new and pairwise different. -/
theorem fork_new (s : State) (c child : Nat) (k : Kind) (i o : Nat)
    (h : at' ((fork s c child).1.tab child k) i = some o) :
    s.next ≤ o ∧ o < (fork s c child).1.next := by
  rw [fork_at, if_pos rfl] at h
  rw [fork_next]
  have h1 := copyTab_le s.next (s.tab c .mutex)
  have h2 := copyTab_le (copyTab s.next (s.tab c .mutex)).2 (s.tab c .cond)
  cases k with
  | mutex => have := copyTab_range _ _ _ _ h; omega
  | cond => have := copyTab_range _ _ _ _ h; omega

theorem fork_inj (s : State) (c child : Nat) (k k' : Kind) (i i' o : Nat)
    (h : at' ((fork s c child).1.tab child k) i = some o)
    (h' : at' ((fork s c child).1.tab child k') i' = some o) : k = k' ∧ i = i' := by
  rw [fork_at, if_pos rfl] at h h'
  cases k <;> cases k'
  · exact ⟨rfl, copyTab_inj _ _ _ _ _ h h'⟩
  · have h1 := copyTab_range _ _ _ _ h
    have h2 := copyTab_range _ _ _ _ h'
    omega
  · have h1 := copyTab_range _ _ _ _ h
    have h2 := copyTab_range _ _ _ _ h'
    omega
  · exact ⟨rfl, copyTab_inj _ _ _ _ _ h h'⟩

theorem Distinct.drop {s s' : State} (h : Distinct s) (hn : s.next ≤ s'.next)
    (ht : ∀ c k i o, at' (s'.tab c k) i = some o → at' (s.tab c k) i = some o) : Distinct s' :=
  ⟨fun c k i o e => Nat.lt_of_lt_of_le (h.1 c k i o (ht c k i o e)) hn,
   fun c k i c' k' i' o e e' => h.2 c k i c' k' i' o (ht _ _ _ _ e) (ht _ _ _ _ e')⟩

theorem setTab_nil_at {s : State} {c : Nat} {k : Kind} {c' : Nat} {k' : Kind} {i o : Nat}
    (h : at' ((s.setTab c k []).tab c' k') i = some o) : at' (s.tab c' k') i = some o := by
  rw [setTab_tab] at h
  split at h
  · simp [at'] at h
  · exact h

theorem Distinct.step {n : Nat} {s : State} (hl : Len n s) (hn : n < 2147483648)
    (h : Distinct s) (op : Op) : Distinct (Handles.step s op).1 := by
  cases op with
  | create c k fail =>
    cases fail with
    | some e =>
      exact h.drop (Nat.le_refl _) (fun c' k' i o e' => by
        simp only [Handles.step] at e'; rw [create_fail_at] at e'; exact e')
    | none =>
      have hnext : (create s c k none).1.next = s.next + 1 := rfl
      refine ⟨fun c' k' i o e => ?_, fun c' k' i c'' k'' i' o e e' => ?_⟩
      · simp only [Handles.step] at e ⊢
        rw [create_at] at e; rw [hnext]
        split at e
        · cases e; omega
        · have := h.1 _ _ _ _ e; omega
      · simp only [Handles.step] at e e'
        rw [create_at] at e e'
        split at e <;> split at e'
        · rename_i h1 h2; obtain ⟨rfl, rfl, rfl⟩ := h1; obtain ⟨rfl, rfl, rfl⟩ := h2
          exact ⟨rfl, rfl, rfl⟩
        · cases e; have := h.1 _ _ _ _ e'; omega
        · cases e'; have := h.1 _ _ _ _ e; omega
        · exact h.2 _ _ _ _ _ _ _ e e'
  | destroy c k x =>
    simp only [Handles.step, destroy]
    split
    · rename_i o hf
      have hlt := find_lt (Nat.lt_of_le_of_lt (hl c k) hn) hf
      exact h.drop (Nat.le_refl _) (fun c' k' i o e' => by
        rw [clear_at _ _ _ _ hlt.2.1] at e'
        split at e'
        · exact nomatch e'
        · exact e')
    · exact h
  | lock c x => simp only [Handles.step, lock, lockObj]; repeat' split
                all_goals exact h
  | trylock c x => simp only [Handles.step, trylock]; repeat' split
                   all_goals exact h
  | unlock c x => simp only [Handles.step, unlock]; repeat' split
                  all_goals exact h
  | signal c x => simp only [Handles.step, signal]; repeat' split
                  all_goals exact h
  | wait c x y => simp only [Handles.step, wait]; repeat' split
                  all_goals exact h
  | wake o e => simp only [Handles.step, wake]; repeat' split
                all_goals exact h
  | fork c child =>
    simp only [Handles.step]
    refine ⟨fun c' k' i o e => ?_, fun c' k' i c'' k'' i' o e e' => ?_⟩
    · by_cases hc : c' = child
      · subst hc; exact (fork_new s c _ _ _ _ e).2
      · rw [fork_at, if_neg hc] at e
        exact Nat.lt_of_lt_of_le (h.1 _ _ _ _ e) (fork_next_le s c child)
    · by_cases hc : c' = child <;> by_cases hc' : c'' = child
      · subst hc; subst hc'
        exact ⟨rfl, fork_inj s c _ _ _ _ _ _ e e'⟩
      · subst hc
        have h1 := fork_new s c _ _ _ _ e
        rw [fork_at, if_neg hc'] at e'
        have := h.1 _ _ _ _ e'; omega
      · subst hc'
        have h1 := fork_new s c _ _ _ _ e'
        rw [fork_at, if_neg hc] at e
        have := h.1 _ _ _ _ e; omega
      · rw [fork_at, if_neg hc] at e
        rw [fork_at, if_neg hc'] at e'
        exact h.2 _ _ _ _ _ _ _ e e'
  | exec c new =>
    exact h.drop (Nat.le_refl _) (fun c' k' i o e =>
      setTab_nil_at (setTab_nil_at (setTab_nil_at (setTab_nil_at e))))
  | exit c st =>
    exact h.drop (Nat.le_refl _) (fun c' k' i o e => setTab_nil_at (setTab_nil_at e))

theorem run_inv {n : Nat} {s : State} (hl : Len n s) (hd : Distinct s) (ops : List Op)
    (hn : n + ops.length < 2147483648) :
    Len (n + ops.length) (run s ops) ∧ Distinct (run s ops) := by
  induction ops generalizing n s with
  | nil => exact ⟨hl, hd⟩
  | cons op ops ih =>
    have hlen : n + (op :: ops).length = n + 1 + ops.length := by simp; omega
    rw [hlen] at hn ⊢
    exact ih (hl.step op) (hd.step hl (by omega) op) hn

theorem init_inv : Len 0 init ∧ Distinct init :=
  ⟨fun _ _ => Nat.le_refl _, fun _ _ _ _ e => by simp [init, at'] at e,
   fun _ _ _ _ _ _ _ e => by simp [init, at'] at e⟩

/-! ## Refinement -/

theorem World.ext' {w w' : World} (h1 : w.obj = w'.obj) (h2 : w.made = w'.made)
    (h3 : w.locked = w'.locked) : w = w' := by
  cases w; cases w'; simp_all

theorem obj_eq {n : Nat} {s : State} (hl : Len n s) (hn : n < 2147483648) (c : Nat) (k : Kind)
    (h : Int) : (worldOf s).obj c k h = if 0 ≤ h then at' (s.tab c k) h.toNat else none :=
  find_small (Nat.lt_of_le_of_lt (hl c k) hn) h

/-- One call from a state with short tables does what the specification allows. -/
theorem step_allowed {n : Nat} {s : State} (hl : Len n s)
    (hn : n + 1 < 2147483648) (op : Op) :
    Allowed (worldOf s) (worldOf (step s op).1) (step s op).2 op := by
  have hl' := hl.step op
  have hn0 : n < 2147483648 := by omega
  cases op with
  | create c k fail =>
    cases fail with
    | some e =>
      refine ⟨rfl, World.ext' ?_ rfl rfl⟩
      funext c' k' h'
      rw [obj_eq hl' hn, obj_eq hl hn0]
      simp only [step]; rw [create_fail_at]
    | none =>
      have hlt : (claim (s.tab c k)).1 < 2147483648 :=
        Nat.lt_of_le_of_lt (Nat.le_trans (claim_le _) (hl c k)) hn0
      refine ⟨((claim (s.tab c k)).1 : Nat), s.next, ?_, Int.natCast_nonneg _, ?_,
        Nat.lt_irrefl _, ?_, ?_, ?_, rfl⟩
      · show Ret.ok (asI32 _) = _
        rw [asI32_small hlt]
      · rw [obj_eq hl hn0, if_pos (Int.natCast_nonneg _), Int.toNat_natCast]
        exact claim_free _
      · rw [obj_eq hl' hn, if_pos (Int.natCast_nonneg _), Int.toNat_natCast]
        simp only [step]; rw [create_at, if_pos ⟨rfl, rfl, rfl⟩]
      · intro c' k' h' hne
        rw [obj_eq hl' hn, obj_eq hl hn0]
        simp only [step]; rw [create_at]
        by_cases h0 : 0 ≤ h'
        · rw [if_pos h0, if_pos h0, if_neg]
          rintro ⟨rfl, rfl, e⟩
          apply hne
          rw [← e, Int.toNat_of_nonneg h0]
        · rw [if_neg h0, if_neg h0]
      · intro x
        show x < s.next + 1 ↔ x < s.next ∨ x = s.next
        omega
  | destroy c k h =>
    have hf := obj_eq hl hn0 c k h
    cases hx : find (s.tab c k) h with
    | none =>
      have e1 : (worldOf s).obj c k h = none := hx
      have e2 : step s (.destroy c k h) = (s, .err .EBADF) := by simp [step, destroy, hx]
      rw [e2]
      exact ⟨rfl, rfl, fun _ _ _ _ => rfl, e1, by rw [if_pos e1]⟩
    | some o =>
      have e1 : (worldOf s).obj c k h = some o := hx
      have hlt := find_lt (Nat.lt_of_le_of_lt (hl c k) hn0) hx
      have e2 : step s (.destroy c k h) =
          (s.setTab c k ((s.tab c k).set h.toNat none), .ok 0) := by simp [step, destroy, hx]
      rw [e2] at hl' ⊢
      refine ⟨rfl, rfl, ?_, ?_, by rw [if_neg (by rw [e1]; simp)]⟩
      · intro c' k' h' hne
        rw [obj_eq hl' hn, obj_eq hl hn0]
        simp only; rw [clear_at _ _ _ _ hlt.2.1]
        by_cases h0 : 0 ≤ h'
        · rw [if_pos h0, if_pos h0, if_neg]
          rintro ⟨rfl, rfl, e⟩
          apply hne
          have : h' = h := by omega
          rw [this]
        · rw [if_neg h0, if_neg h0]
      · rw [obj_eq hl' hn]
        simp only; rw [clear_at _ _ _ _ hlt.2.1]
        simp
  | lock c h =>
    cases hx : find (s.tab c .mutex) h with
    | none => simp [Allowed, OnMutex, worldOf, step, lock, hx]
    | some o =>
      by_cases ho : s.locked o = true <;>
        simp [Allowed, OnMutex, worldOf, step, lock, lockObj, hx, ho]
  | trylock c h =>
    cases hx : find (s.tab c .mutex) h with
    | none => simp [Allowed, OnMutex, worldOf, step, trylock, hx]
    | some o =>
      by_cases ho : s.locked o = true <;>
        simp [Allowed, OnMutex, worldOf, step, trylock, hx, ho, Errno.code]
  | unlock c h =>
    cases hx : find (s.tab c .mutex) h <;>
      simp [Allowed, OnMutex, worldOf, step, unlock, hx]
  | signal c h =>
    cases hx : find (s.tab c .cond) h <;> simp [Allowed, worldOf, step, signal, hx]
  | wait c cv m =>
    cases hx : find (s.tab c .cond) cv <;> cases hy : find (s.tab c .mutex) m <;>
      simp [Allowed, OnMutex, worldOf, step, wait, hx, hy]
  | wake o expired =>
    simp only [Allowed, worldOf, step, wake]
    by_cases ho : s.locked o = true <;> cases expired <;> simp [ho, Errno.code]
  | fork c child =>
    have hl2 : Len (n + 1) (fork s c child).1 := hl'
    have key : ∀ k h o, (worldOf (fork s c child).1).obj child k h = some o →
        0 ≤ h ∧ at' ((fork s c child).1.tab child k) h.toNat = some o := by
      intro k h o e
      rw [obj_eq hl2 hn] at e
      split at e
      · exact ⟨by assumption, e⟩
      · exact nomatch e
    refine ⟨rfl, ?_, ?_, ?_, ?_, ?_⟩
    · intro c' k h hc
      simp only [step, worldOf]
      rw [fork_at, if_neg hc]
    · intro k h
      simp only [step]
      rw [obj_eq hl2 hn, obj_eq hl hn0]
      by_cases h0 : 0 ≤ h
      · rw [if_pos h0, if_pos h0, fork_at, if_pos rfl]
        cases k with
        | mutex => exact copyTab_none _ _ _
        | cond => exact copyTab_none _ _ _
      · rw [if_neg h0, if_neg h0]
    · intro k h o e
      have := fork_new s c child k _ o (key k h o e).2
      refine ⟨this.2, fun hm => ?_, ?_⟩
      · have hm' : o < s.next := hm
        omega
      · show (if s.next ≤ o then false else s.locked o) = false
        rw [if_pos this.1]
    · intro k h k' h' o e e'
      have k1 := key k h o e
      have k2 := key k' h' o e'
      have := fork_inj s c child k k' _ _ o k1.2 k2.2
      exact ⟨this.1, by omega⟩
    · intro o ho
      have ho' : o < s.next := ho
      refine ⟨Nat.lt_of_lt_of_le ho' (fork_next_le s c child), ?_⟩
      show (if s.next ≤ o then false else s.locked o) = s.locked o
      rw [if_neg (by omega)]
  | exec c new =>
    refine ⟨rfl, rfl, rfl, fun c' k h => ?_⟩
    simp only [step, worldOf, exec, setTab_tab]
    have hnil : find [] h = none := by simp [find]
    cases k <;> by_cases h1 : c' = c <;> by_cases h2 : c' = new <;> simp [h1, h2, hnil] <;>
      simp_all
  | exit c status =>
    refine ⟨rfl, rfl, rfl, fun c' k h => ?_⟩
    simp only [step, worldOf, exit, setTab_tab]
    have hnil : find [] h = none := by simp [find]
    cases k <;> by_cases h1 : c' = c <;> simp [h1, hnil]

/-! ## The property -/

/-- The state and result of call number `i` are what the specification allows, for every history
of fewer than 2^31 calls from start-up. -/
theorem refines (before : List Op) (op : Op) (hlen : before.length + 1 < 2147483648) :
    Allowed (worldOf (run init before)) (worldOf (step (run init before) op).1)
      (step (run init before) op).2 op := by
  have h := run_inv init_inv.1 init_inv.2 before (by omega)
  exact step_allowed h.1 (by omega) op

/-- `mutex_create`/`cond_create` return a handle that was not in use; it then designates an object
that no handle of any cage designates or has designated, and every other handle designates what it
did, with mutexes locked as they were. -/
theorem create_fresh (before : List Op) (c : Nat) (k : Kind)
    (hlen : before.length + 1 < 2147483648) :
    ∃ h o, (step (run init before) (.create c k none)).2 = .ok h ∧
      (worldOf (run init before)).obj c k h = none ∧
      ¬ (worldOf (run init before)).made o ∧
      (worldOf (run init (before ++ [.create c k none]))).obj c k h = some o ∧
      (∀ c' k' h', (c', k', h') ≠ (c, k, h) →
        (worldOf (run init (before ++ [.create c k none]))).obj c' k' h' =
          (worldOf (run init before)).obj c' k' h') ∧
      ∀ x, x ≠ o → (worldOf (run init (before ++ [.create c k none]))).locked x =
        (worldOf (run init before)).locked x := by
  have happ : ∀ (s : State) (l : List Op) (op : Op), run s (l ++ [op]) = (step (run s l) op).1 := by
    intro s l op
    induction l generalizing s with
    | nil => rfl
    | cons a l ih => exact ih _
  have h := refines before (.create c k none) hlen
  obtain ⟨h, o, h1, -, h2, h3, h4, h5, -, h7⟩ := h
  refine ⟨h, o, h1, h2, h3, ?_, ?_, ?_⟩
  · rw [happ]; exact h4
  · rw [happ]; exact h5
  · rw [happ]; intro x hx; rw [h7, upd_ne _ _ hx]

/-- Different handles, of one cage or of different cages, never designate the same object. -/
theorem handles_distinct (ops : List Op) (hlen : ops.length < 2147483648)
    (c c' : Nat) (k k' : Kind) (h h' : Int) (o : Nat)
    (e : (worldOf (run init ops)).obj c k h = some o)
    (e' : (worldOf (run init ops)).obj c' k' h' = some o) : c = c' ∧ k = k' ∧ h = h' := by
  have hi := run_inv init_inv.1 init_inv.2 ops (by omega)
  have hs := fun c k => Nat.lt_of_le_of_lt (hi.1 c k) (by omega : 0 + ops.length < 2147483648)
  have h1 := find_lt (hs c k) e
  have h2 := find_lt (hs c' k') e'
  have := hi.2.2 _ _ _ _ _ _ _ h1.2.2 h2.2.2
  exact ⟨this.1, this.2.1, by omega⟩

/-- Calls that end the life of a handle: destroying it, and anything that replaces its whole
cage. -/
def Ends (c : Nat) (k : Kind) (h : Int) : Op → Prop
  | .destroy c' k' h' => c' = c ∧ k' = k ∧ h' = h
  | .fork _ child => child = c
  | .exec c' new => c' = c ∨ new = c
  | .exit c' _ => c' = c
  | _ => False

/-- A handle designates the same object until it is destroyed (or its cage ends). -/
theorem handle_stable (before later : List Op)
    (hlen : before.length + later.length < 2147483648) (c : Nat) (k : Kind) (h : Int) (o : Nat)
    (e : (worldOf (run init before)).obj c k h = some o)
    (hno : ∀ op ∈ later, ¬ Ends c k h op) :
    (worldOf (run init (before ++ later))).obj c k h = some o := by
  have hi := run_inv init_inv.1 init_inv.2 before (by omega)
  have happ : ∀ (s : State) (l l' : List Op), run s (l ++ l') = run (run s l) l' := by
    intro s l l'
    induction l generalizing s with
    | nil => rfl
    | cons a l ih => exact ih _
  rw [happ]
  rw [Nat.zero_add] at hi
  obtain ⟨hl, hd⟩ := hi
  generalize run init before = s at e hl hd
  generalize before.length = n at hl hlen
  clear happ
  induction later generalizing n s with
  | nil => exact e
  | cons op later ih =>
    have hlen' : n + 1 + later.length < 2147483648 := by
      simp only [List.length_cons] at hlen; omega
    refine ih (fun op' ho => hno op' (List.mem_cons_of_mem _ ho)) _ ?_ (hd.step hl (by omega) op)
      (n + 1) (hl.step op) hlen'
    have ha := step_allowed hl (by omega) op
    have hne := hno op List.mem_cons_self
    generalize worldOf (step s op).1 = w' at ha ⊢
    generalize (step s op).2 = r at ha
    cases op with
    | create c' k' fail =>
      cases fail with
      | some er => rw [ha.2]; exact e
      | none =>
        obtain ⟨x, p, -, -, h2, -, -, h5, -, -⟩ := ha
        rw [h5 c k h ?_]
        · exact e
        · intro heq
          cases heq
          rw [e] at h2
          exact nomatch h2
    | destroy c' k' x =>
      rw [ha.2.2.1 c k h (fun heq => by cases heq; exact hne ⟨rfl, rfl, rfl⟩)]; exact e
    | lock c' x => rw [ha.1]; exact e
    | trylock c' x => rw [ha.1]; exact e
    | unlock c' x => rw [ha.1]; exact e
    | signal c' x => rw [ha.1]; exact e
    | wait c' cv m =>
      simp only [Allowed] at ha
      split at ha
      · rw [ha.2]; exact e
      · rw [ha.1]; exact e
    | wake x b => rw [ha.1]; exact e
    | fork c' child =>
      rw [ha.2.1 c k h (fun heq => hne heq.symm)]; exact e
    | exec c' new =>
      rw [ha.2.2.2 c k h, if_neg]
      · exact e
      · rintro (rfl | rfl)
        · exact hne (Or.inl rfl)
        · exact hne (Or.inr rfl)
    | exit c' st =>
      rw [ha.2.2.2 c k h, if_neg]
      · exact e
      · rintro rfl; exact hne rfl

/-- The results of `step` for a call of cage `c` in a history: did create return handle `h`? -/
def Creates (s : State) (c : Nat) (k : Kind) (h : Int) (op : Op) : Prop :=
  op = .create c k none ∧ (step s op).2 = .ok h

/-- Calls that give a cage its handles wholesale. -/
def ForksInto (c : Nat) : Op → Prop
  | .fork _ child => child = c
  | _ => False

/-- A handle that designates nothing (never created, or destroyed) keeps designating nothing until
a create call of its cage returns it (or the cage is made by fork). -/
theorem handle_dead (before later : List Op)
    (hlen : before.length + later.length < 2147483648) (c : Nat) (k : Kind) (h : Int)
    (e : (worldOf (run init before)).obj c k h = none)
    (hno : ∀ l1 op l2, later = l1 ++ op :: l2 →
      ¬ Creates (run init (before ++ l1)) c k h op ∧ ¬ ForksInto c op) :
    (worldOf (run init (before ++ later))).obj c k h = none := by
  induction later generalizing before with
  | nil => rw [List.append_nil]; exact e
  | cons op later ih =>
    have happ : ∀ (s : State) (l : List Op) (op : Op),
        run s (l ++ [op]) = (step (run s l) op).1 := by
      intro s l op
      induction l generalizing s with
      | nil => rfl
      | cons a l ih => exact ih _
    have hlen' : before.length + 1 + later.length < 2147483648 := by
      simp only [List.length_cons] at hlen; omega
    rw [show before ++ op :: later = before ++ [op] ++ later by simp]
    refine ih (before ++ [op]) (by rw [List.length_append]; exact hlen') ?_ ?_
    · rw [happ]
      have ha := refines before op (by omega)
      have hne := hno [] op later rfl
      rw [List.append_nil] at hne
      obtain ⟨hc, hf⟩ := hne
      unfold Creates at hc
      generalize run init before = s at ha hc e
      generalize worldOf (step s op).1 = w' at ha ⊢
      generalize (step s op).2 = r at ha hc
      cases op with
      | create c' k' fail =>
        cases fail with
        | some er => rw [ha.2]; exact e
        | none =>
          obtain ⟨x, p, h0, -, h2, -, -, h5, -, -⟩ := ha
          rw [h5 c k h ?_]
          · exact e
          · intro heq
            cases heq
            exact hc ⟨rfl, h0⟩
      | destroy c' k' x =>
        by_cases heq : (c, k, h) = (c', k', x)
        · cases heq; exact ha.2.2.2.1
        · rw [ha.2.2.1 c k h heq]; exact e
      | lock c' x => rw [ha.1]; exact e
      | trylock c' x => rw [ha.1]; exact e
      | unlock c' x => rw [ha.1]; exact e
      | signal c' x => rw [ha.1]; exact e
      | wait c' cv m =>
        simp only [Allowed] at ha
        split at ha
        · rw [ha.2]; exact e
        · rw [ha.1]; exact e
      | wake x b => rw [ha.1]; exact e
      | fork c' child =>
        rw [ha.2.1 c k h (fun heq => hf heq.symm)]; exact e
      | exec c' new =>
        rw [ha.2.2.2 c k h]
        split
        · rfl
        · exact e
      | exit c' st =>
        rw [ha.2.2.2 c k h]
        split
        · rfl
        · exact e
    · intro l1 op' l2 hl
      have := hno (op :: l1) op' l2 (by rw [hl]; rfl)
      rw [show before ++ op :: l1 = before ++ [op] ++ l1 by simp] at this
      exact this

/-- The calls that take one handle, with the table it belongs to. -/
def Uses (c : Nat) (k : Kind) (h : Int) : Op → Prop
  | .destroy c' k' h' => c' = c ∧ k' = k ∧ h' = h
  | .lock c' h' => c' = c ∧ k = .mutex ∧ h' = h
  | .trylock c' h' => c' = c ∧ k = .mutex ∧ h' = h
  | .unlock c' h' => c' = c ∧ k = .mutex ∧ h' = h
  | .signal c' h' => c' = c ∧ k = .cond ∧ h' = h
  | _ => False

/-- A call on one handle fails with `EBADF` exactly when the handle designates nothing, and then
changes nothing. -/
theorem ebadf_iff (before : List Op) (op : Op) (c : Nat) (k : Kind) (h : Int) (hu : Uses c k h op) :
    ((step (run init before) op).2 = .err .EBADF ↔ (worldOf (run init before)).obj c k h = none) ∧
    ((step (run init before) op).2 = .err .EBADF →
      worldOf (step (run init before) op).1 = worldOf (run init before)) := by
  generalize run init before = s
  cases op <;> simp only [Uses] at hu <;> obtain ⟨rfl, rfl, rfl⟩ := hu <;>
    simp only [step, destroy, lock, lockObj, trylock, unlock, signal, worldOf] <;>
    (split <;> try split) <;> simp_all

/-- `cond_wait` and `cond_timedwait` need two live handles. -/
theorem wait_ebadf_iff (before : List Op) (c : Nat) (cv m : Int) :
    ((step (run init before) (.wait c cv m)).2 = .err .EBADF ↔
      (worldOf (run init before)).obj c .cond cv = none ∨
      (worldOf (run init before)).obj c .mutex m = none) := by
  generalize run init before = s
  simp only [step, wait, worldOf]
  (split <;> try split) <;> simp_all

/-- After a destroy the handle is dead. -/
theorem destroyed_is_dead (before : List Op) (hlen : before.length + 1 < 2147483648)
    (c : Nat) (k : Kind) (h : Int) :
    (worldOf (step (run init before) (.destroy c k h)).1).obj c k h = none :=
  (refines before (.destroy c k h) hlen).2.2.2.1

/-- At start-up no handle is live. -/
theorem none_live_initially (c : Nat) (k : Kind) (h : Int) : (worldOf init).obj c k h = none := by
  simp [worldOf, init, find]

/-- Mutual exclusion: while a mutex object is locked no lock call, trylock call or return from a
wait succeeds on it. -/
theorem locked_excludes (s : State) (o : Nat) (hl : s.locked o = true) (op : Op)
    (hop : (∃ c h, (op = .lock c h ∨ op = .trylock c h) ∧ (worldOf s).obj c .mutex h = some o) ∨
      ∃ b, op = .wake o b) :
    (step s op).2 ≠ .ok 0 ∧ (step s op).1.locked o = true := by
  rcases hop with ⟨c, h, rfl | rfl, hx⟩ | ⟨b, rfl⟩
  · simp only [worldOf] at hx
    simp [step, lock, hx, lockObj, hl]
  · simp only [worldOf] at hx
    simp [step, trylock, hx, hl]
  · simp [step, wake, hl]

/-! ## Examples -/

/-- Two mutexes and a condition variable in cage 1, the first mutex destroyed, a third made. -/
def demo : List Op :=
  [.create 1 .mutex none, .create 1 .mutex none, .create 1 .cond none, .destroy 1 .mutex 0,
   .create 1 .mutex none, .fork 1 2, .lock 2 1]

example : (worldOf (run init demo)).obj 1 .mutex 0 = some 3 ∧
    (worldOf (run init demo)).obj 1 .mutex 1 = some 1 ∧
    (worldOf (run init demo)).obj 2 .mutex 1 = some 5 ∧
    (worldOf (run init demo)).obj 1 .mutex 2 = none ∧
    (run init demo).locked 5 = true ∧ (run init demo).locked 1 = false := by decide +kernel

/-- `handle_stable` applies to the second mutex of cage 1 across the rest of the history. -/
example : (worldOf (run init (demo.take 2 ++ demo.drop 2))).obj 1 .mutex 1 = some 1 :=
  handle_stable (demo.take 2) (demo.drop 2) (by simp [demo]) 1 .mutex 1 1 (by decide +kernel)
    (by simp [demo, Ends])

/-- `handle_dead` applies to the destroyed first mutex until the next create. -/
example : (worldOf (run init (demo.take 4 ++ [.lock 1 1, .create 1 .cond none]))).obj 1 .mutex 0
    = none :=
  handle_dead (demo.take 4) [.lock 1 1, .create 1 .cond none] (by simp [demo]) 1 .mutex 0
    (by decide +kernel) (by
      intro l1 op l2 e
      match l1, e with
      | [], e => cases e; exact ⟨fun h => (nomatch h.1), id⟩
      | [x], e => cases e; exact ⟨fun h => (nomatch h.1), id⟩
      | x :: y :: l, e => simp at e)

example : Uses 1 .mutex 0 (.lock 1 0) ∧
    (step (run init (demo.take 4)) (.lock 1 0)).2 = .err .EBADF ∧
    (step (run init demo) (.lock 1 0)).2 = .ok 0 := by
  refine ⟨⟨rfl, rfl, rfl⟩, ?_⟩; decide +kernel

example : (run init demo).locked 5 = true ∧
    (worldOf (run init demo)).obj 2 .mutex 1 = some 5 ∧
    (step (run init demo) (.trylock 2 1)).2 = .ok 16 := by decide +kernel

/-- A failed trylock is not reported as an error number: the result is a positive 16, where the
other calls of this interface report errors as negative numbers. -/
theorem trylock_error_sign_violated :
    ∃ ops c h, (step (run init ops) (.trylock c h)).2 = .ok 16 ∧
      (step (run init ops) (.trylock c h)).2 ≠ .err .EBUSY :=
  ⟨demo, 2, 1, by decide +kernel, by decide +kernel⟩

end Verif.Handles
