import Verif.DirWalk
import Verif.GetdentsProps

/-!
# C92: a directory can be listed while it is being changed

What a program finds is what it reads out of the buffers, with `Getdents.parse`.
-/

namespace Verif.DirWalk
open Verif.Path Verif.Getdents

/-- What the program has found so far. -/
def found (log : List (Nat × Ret × List UInt8)) : List (Str × Nat) := log.flatMap fun x => (parse x.1 x.2.2).getD []

/-- How many entries come before place `i`. -/
def St.rank (s : St) (i : Nat) : Nat := ((s.slots.take i).filterMap id).length

/-- The names in the directory. -/
def St.names (s : St) : List Str := s.live.map Prod.fst

/-- The operation has to do with the name `n`. -/
def Touches (s : St) (n : Str) : Op → Prop
  | .add _ e => e.1 = n
  | .sub i => ∃ e, s.slots[i]? = some (some e) ∧ e.1 = n
  | _ => False

/-- A condition on every operation of a run, in the state in which it is made. -/
def Along (P : St → Op → Prop) : St → List Op → Prop
  | _, [] => True
  | s, o :: l => P s o ∧ Along P ((step s o).getD s) l

/-- All names entered fit the format of the buffers, and buffers are larger than the fixed part of a record. -/
def Fine : Op → Prop
  | .add _ e => Sane [e]
  | .read b => clipped < b
  | _ => True

/-! ## Lemmas -/

theorem live_at {sl : List (Option (Str × Nat))} {i : Nat} {o : Option (Str × Nat)} (h : sl[i]? = some o) :
    sl.filterMap id = (sl.take i).filterMap id ++ (o.toList ++ (sl.drop (i + 1)).filterMap id) ∧
    ∀ o', (sl.set i o').filterMap id = (sl.take i).filterMap id ++ (o'.toList ++ (sl.drop (i + 1)).filterMap id) := by
  obtain ⟨hi, he⟩ := List.getElem?_eq_some_iff.mp h
  have e1 : sl = sl.take i ++ o :: sl.drop (i + 1) := by
    rw [← he, List.getElem_cons_drop, List.take_append_drop]
  have e2 : ∀ o', sl.set i o' = sl.take i ++ o' :: sl.drop (i + 1) := fun o' => List.set_eq_take_append_cons_drop .. |>.trans (by rw [if_pos hi])
  have key : ∀ (a : List (Option (Str × Nat))) (x : Option (Str × Nat)) b, (a ++ x :: b).filterMap id = a.filterMap id ++ (x.toList ++ b.filterMap id) := by
    intro a x b
    rw [List.filterMap_append, List.filterMap_cons]
    cases x <;> rfl
  exact ⟨by conv => lhs; rw [e1]
            exact key .., fun o' => by rw [e2]; exact key ..⟩

theorem take_erase {α : Type} {A B : List α} {x y : α} {p : Nat} (hy : y ∈ (A ++ x :: B).take p) (hne : y ≠ x) : y ∈ (A ++ B).take p := by
  rw [List.take_append] at hy ⊢
  rcases List.mem_append.mp hy with h | h
  · exact List.mem_append_left _ h
  · refine List.mem_append_right _ ?_
    cases hq : p - A.length with
    | zero => rw [hq] at h; simp at h
    | succ q =>
      rw [hq, List.take_succ_cons] at h
      rcases List.mem_cons.mp h with h | h
      · exact absurd h hne
      · exact List.mem_of_mem_take (i := q) (by rwa [List.take_take, Nat.min_eq_left (Nat.le_succ q)])

theorem take_before {α : Type} {A B C : List α} {p : Nat} (h : p ≤ A.length) : (A ++ B).take p = (A ++ C).take p := by
  rw [List.take_append_of_le_length h, List.take_append_of_le_length h]

/-- What one call of `getdents` finds, whatever the position. -/
theorem read_one {s : St} (hs : Sane s.live) {b : Nat} (hb : clipped < b) :
    ∃ k, found (read s b).log = found s.log ++ (s.live.drop s.pos).take k ∧ (read s b).slots = s.slots ∧
      (read s b).pos = min (s.pos + k) s.live.length ∧
      ((getdents s.live s.pos b).ret = .ok 0 → s.live.length ≤ s.pos ∨ ∃ e ∈ s.live, b < recLen e.1) := by
  by_cases hp : s.pos ≤ s.live.length
  · obtain ⟨k, h1, h2, h3, h4, h5⟩ := getdents_one s.live hs s.pos b hp hb
    refine ⟨k, ?_, rfl, ?_, ?_⟩
    · simp [found, read, h1]
    · show (getdents s.live s.pos b).pos = _
      rw [h2]; omega
    · intro h
      rcases h5 (h4.mp h) with h | ⟨e, he, h⟩
      · exact .inl (by omega)
      · exact .inr ⟨e, List.mem_of_mem_drop (List.mem_of_mem_head? he), h⟩
  · have hd : s.live.drop s.pos = [] := List.drop_eq_nil_of_le (by omega)
    refine ⟨0, ?_, rfl, ?_, fun _ => .inl (by omega)⟩
    · have : (getdents s.live s.pos b).bytes = [] := by rw [getdents_eq _ _ _ hb, hd]; rfl
      simp [found, read, this, parse]
    · show (getdents s.live s.pos b).pos = _
      rw [getdents_eq _ _ _ hb, hd]
      show min (s.pos + 0) _ = _
      omega

/-- How a change changes the sequence of entries. -/
theorem change {s s' : St} {o : Op} (hs : step s o = some s') (hr : ∀ b, o ≠ .read b) (hk : ∀ off wh, o ≠ .seek off wh)
    (hg : ∀ sl, o ≠ .grow sl) :
    s'.log = s.log ∧ s'.pos = s.pos ∧
    (s'.names = s.names ∨ (∃ i e A B, o = .add i e ∧ A.length = s.rank i ∧ s.names = A ++ B ∧ s'.names = A ++ e.1 :: B ∧ e.1 ∉ s.names) ∨
      ∃ i e A B, o = .sub i ∧ s.slots[i]? = some (some e) ∧ A.length = s.rank i ∧ s.names = A ++ e.1 :: B ∧ s'.names = A ++ B) := by
  cases o with
  | read b => exact absurd rfl (hr b)
  | seek off wh => exact absurd rfl (hk off wh)
  | grow sl => exact absurd rfl (hg sl)
  | add i e =>
    simp only [step, add] at hs
    split at hs
    · cases hs
      refine ⟨rfl, rfl, .inl ?_⟩
      simp only [St.names, St.live]
      rw [List.filterMap_map, List.map_filterMap, List.map_filterMap]
      congr 1
      funext x
      cases x with
      | none => rfl
      | some x =>
        simp only [Function.comp, Option.map, id]
        split
        · next h => rw [h]
        · rfl
    · next hn =>
      split at hs
      · next hi =>
        cases hs
        obtain ⟨h1, h2⟩ := live_at hi
        refine ⟨rfl, rfl, .inr (.inl ⟨i, e, ((s.slots.take i).filterMap id).map Prod.fst, ((s.slots.drop (i + 1)).filterMap id).map Prod.fst, rfl, ?_, ?_, ?_, hn⟩)⟩
        · simp [St.rank]
        · simp [St.names, St.live, h1]
        · simp [St.names, St.live, h2]
      · cases hs
  | sub i =>
    simp only [step, sub] at hs
    split at hs
    · next e hi =>
      cases hs
      obtain ⟨h1, h2⟩ := live_at hi
      refine ⟨rfl, rfl, .inr (.inr ⟨i, e, ((s.slots.take i).filterMap id).map Prod.fst, ((s.slots.drop (i + 1)).filterMap id).map Prod.fst, rfl, hi, ?_, ?_, ?_⟩)⟩
      · simp [St.rank]
      · simp [St.names, St.live, h1]
      · simp [St.names, St.live, h2]
    · cases hs

theorem seek_slots (s : St) (off wh : Int) : (seek s off wh).1.slots = s.slots ∧ (seek s off wh).1.log = s.log := by
  unfold seek
  dsimp only
  split
  · exact ⟨rfl, rfl⟩
  · split
    · exact ⟨rfl, rfl⟩
    · split <;> exact ⟨rfl, rfl⟩

theorem seek_names (s : St) (off wh : Int) : (seek s off wh).1.live = s.live ∧ (seek s off wh).1.names = s.names := by
  simp only [St.names, St.live, (seek_slots s off wh).1, and_self]

theorem sane_step {s s' : St} {o : Op} (hs : step s o = some s') (hsane : Sane s.live) (hf : Fine o) : Sane s'.live := by
  intro x hx
  cases o with
  | read b => cases hs; exact hsane x hx
  | seek off wh =>
    cases hs
    rw [(seek_names s off wh).1] at hx
    exact hsane x hx
  | grow sl =>
    simp only [step] at hs
    split at hs
    · next hp => cases hs; exact hsane x ((List.isPerm_iff.mp hp).mem_iff.mp hx)
    · cases hs
  | add i e =>
    simp only [step, add] at hs
    split at hs
    · cases hs
      simp only [St.live, List.mem_filterMap, id, List.mem_map] at hx
      obtain ⟨o, ⟨o', ho', rfl⟩, ho⟩ := hx
      cases o' with
      | none => cases ho
      | some y =>
        simp only [Option.map, Option.some.injEq] at ho
        split at ho
        · subst ho; exact hf e List.mem_cons_self
        · subst ho; exact hsane y (List.mem_filterMap.mpr ⟨_, ho', rfl⟩)
    · split at hs
      · cases hs
        simp only [St.live, List.mem_filterMap, id] at hx
        obtain ⟨o, ho, rfl⟩ := hx
        rcases List.mem_or_eq_of_mem_set ho with h | h
        · exact hsane x (List.mem_filterMap.mpr ⟨_, h, rfl⟩)
        · cases h; exact hf x List.mem_cons_self
      · cases hs
  | sub i =>
    simp only [step, sub] at hs
    split at hs
    · cases hs
      simp only [St.live, List.mem_filterMap, id] at hx
      obtain ⟨o, ho, rfl⟩ := hx
      rcases List.mem_or_eq_of_mem_set ho with h | h
      · exact hsane x (List.mem_filterMap.mpr ⟨_, h, rfl⟩)
      · cases h
    · cases hs

/-- The table may be put anew only before the first or after the last entry; no seeking. -/
def Still (s : St) : Op → Prop
  | .grow _ => s.pos = 0 ∨ s.live.length ≤ s.pos
  | .seek _ _ => False
  | _ => True

/-- As `Still`, and nothing is entered before the position. -/
def NoneBefore (s : St) (o : Op) : Prop := Still s o ∧ ∀ i e, o = .add i e → s.pos ≤ s.rank i

/-- As `Still`, and nothing is taken out before the position. -/
def NoneOut (s : St) (o : Op) : Prop := Still s o ∧ ∀ i, o = .sub i → s.pos ≤ s.rank i

theorem nodup_step {s s' : St} {o : Op} (hs : step s o = some s') (h : s.names.Nodup) : s'.names.Nodup := by
  cases o with
  | read b => cases hs; exact h
  | seek off wh =>
    cases hs
    rw [(seek_names s off wh).2]
    exact h
  | grow sl =>
    simp only [step] at hs
    split at hs
    · next hp => cases hs; exact ((List.isPerm_iff.mp hp).map Prod.fst).nodup_iff.mpr h
    · cases hs
  | add i e =>
    obtain ⟨-, -, h' | ⟨_, e', A, B, ho, -, h2, h3, h4⟩ | ⟨_, _, _, _, ho, _⟩⟩ := change hs (by simp) (by simp) (by simp)
    · rw [h']; exact h
    · rw [h3]
      rw [h2] at h h4
      exact (List.perm_middle.nodup_iff).mpr (List.nodup_cons.mpr ⟨h4, h⟩)
    · cases ho
  | sub i =>
    obtain ⟨-, -, h' | ⟨_, _, _, _, ho, _⟩ | ⟨_, e', A, B, ho, -, -, h2, h3⟩⟩ := change hs (by simp) (by simp) (by simp)
    · rw [h']; exact h
    · cases ho
    · rw [h3]
      rw [h2] at h
      exact ((List.perm_middle.nodup_iff).mp h |> List.nodup_cons.mp).2

/-- What a read does to names found and names before the position. -/
theorem read_names {s : St} (hs : Sane s.live) {b : Nat} (hb : clipped < b) :
    ∃ k, (found (read s b).log).map Prod.fst = (found s.log).map Prod.fst ++ (s.names.drop s.pos).take k ∧
      (read s b).names = s.names ∧
      ∀ n, n ∈ (read s b).names.take (read s b).pos ↔ n ∈ s.names.take s.pos ∨ n ∈ (s.names.drop s.pos).take k := by
  obtain ⟨k, h1, h2, h3, -⟩ := read_one hs hb
  have hn : (read s b).names = s.names := by simp only [St.names, St.live, h2]
  refine ⟨k, ?_, hn, fun n => ?_⟩
  · rw [h1]; simp [St.names, List.map_drop, List.map_take]
  · rw [hn, h3]
    have hl : s.live.length = s.names.length := by simp [St.names]
    have : s.names.take (min (s.pos + k) s.live.length) = s.names.take s.pos ++ (s.names.drop s.pos).take k := by
      rw [hl, ← List.take_eq_take_min, List.take_add]
    rw [this, List.mem_append]

theorem once_step {s s' : St} {o : Op} {n : Str} (hs : step s o = some s') (hsane : Sane s.live) (hnd : s.names.Nodup) (hf : Fine o)
    (ht : ¬ Touches s n o) (hp : NoneBefore s o) (h1 : n ∈ (found s.log).map Prod.fst → n ∈ s.names → n ∈ s.names.take s.pos)
    (h2 : ((found s.log).map Prod.fst).count n ≤ 1) (h3 : n ∈ s.names) :
    (n ∈ (found s'.log).map Prod.fst → n ∈ s'.names → n ∈ s'.names.take s'.pos) ∧ ((found s'.log).map Prod.fst).count n ≤ 1 ∧
    n ∈ s'.names := by
  cases o with
  | seek off wh => exact hp.1.elim
  | read b =>
    cases hs
    obtain ⟨k, e1, e2, e3⟩ := read_names hsane hf
    refine ⟨fun hm _ => ?_, ?_, by rw [e2]; exact h3⟩
    · rw [e3]
      rw [e1, List.mem_append] at hm
      exact hm.imp (fun h => h1 h h3) id
    · rw [e1, List.count_append]
      have hk : ((s.names.drop s.pos).take k).count n ≤ 1 :=
        List.nodup_iff_count.mp (hnd.sublist ((List.take_sublist ..).trans (List.drop_sublist ..))) n
      by_cases hm : n ∈ (found s.log).map Prod.fst
      · have := h1 hm h3
        have hnot : n ∉ (s.names.drop s.pos).take k := fun h => by
          have hd := hnd
          rw [← List.take_append_drop s.pos s.names] at hd
          exact (List.nodup_append.mp hd).2.2 n this n (List.mem_of_mem_take h) rfl
        rw [List.count_eq_zero_of_not_mem hnot]; omega
      · rw [List.count_eq_zero_of_not_mem hm]; omega
  | grow sl =>
    simp only [step] at hs
    split at hs
    · next hperm =>
      cases hs
      have hp' := (List.isPerm_iff.mp hperm).map Prod.fst
      refine ⟨fun hm _ => ?_, h2, hp'.mem_iff.mpr h3⟩
      rcases hp.1 with h | h
      · have := h1 hm h3
        rw [h] at this; simp at this
      · rw [List.take_of_length_le]
        · exact hp'.mem_iff.mpr h3
        · have := hp'.length_eq
          simp only [List.length_map] at this
          simp only [St.names, St.live, List.length_map] at *
          omega
    · cases hs
  | add i e =>
    obtain ⟨e1, e2, h | ⟨i', e', A, B, ho, hA, e3, e4, -⟩ | ⟨_, _, _, _, ho, _⟩⟩ := change hs (by simp) (by simp) (by simp)
    · rw [e1, e2, h]; exact ⟨h1, h2, h3⟩
    · cases ho
      have hle := hp.2 i e rfl
      rw [e1, e2]
      refine ⟨fun hm _ => ?_, h2, ?_⟩
      · have := h1 hm h3
        rw [e4, take_before (C := B) (by omega), ← e3]; exact this
      · rw [e4]; rw [e3] at h3
        rcases List.mem_append.mp h3 with h | h
        · exact List.mem_append_left _ h
        · exact List.mem_append_right _ (List.mem_cons_of_mem _ h)
    · cases ho
  | sub i =>
    obtain ⟨e1, e2, h | ⟨_, _, _, _, ho, _⟩ | ⟨i', e', A, B, ho, hi, hA, e3, e4⟩⟩ := change hs (by simp) (by simp) (by simp)
    · rw [e1, e2, h]; exact ⟨h1, h2, h3⟩
    · cases ho
    · cases ho
      have hne : n ≠ e'.1 := fun h => ht ⟨e', hi, h.symm⟩
      rw [e1, e2]
      refine ⟨fun hm _ => ?_, h2, ?_⟩
      · have := h1 hm h3
        rw [e3] at this
        rw [e4]; exact take_erase this hne
      · rw [e4]; rw [e3] at h3
        rcases List.mem_append.mp h3 with h | h
        · exact List.mem_append_left _ h
        · rcases List.mem_cons.mp h with h | h
          · exact absurd h hne
          · exact List.mem_append_right _ h

theorem all_step {s s' : St} {o : Op} {n : Str} (hs : step s o = some s') (hsane : Sane s.live) (hf : Fine o)
    (ht : ¬ Touches s n o) (hp : NoneOut s o) (h1 : n ∈ s.names.take s.pos → n ∈ (found s.log).map Prod.fst) :
    n ∈ s'.names.take s'.pos → n ∈ (found s'.log).map Prod.fst := by
  cases o with
  | seek off wh => exact hp.1.elim
  | read b =>
    cases hs
    obtain ⟨k, e1, e2, e3⟩ := read_names hsane hf
    intro hm
    rw [e3] at hm
    rw [e1, List.mem_append]
    exact hm.imp h1 id
  | grow sl =>
    simp only [step] at hs
    split at hs
    · next hperm =>
      cases hs
      have hp' := (List.isPerm_iff.mp hperm).map Prod.fst
      intro hm
      rcases hp.1 with h | h
      · simp only [h] at hm; simp at hm
      · refine h1 ?_
        rw [List.take_of_length_le (by simpa [St.names] using h)]
        exact hp'.mem_iff.mp (List.mem_of_mem_take hm)
    · cases hs
  | add i e =>
    obtain ⟨e1, e2, h | ⟨i', e', A, B, ho, hA, e3, e4, -⟩ | ⟨_, _, _, _, ho, _⟩⟩ := change hs (by simp) (by simp) (by simp)
    · rw [e1, e2, h]; exact h1
    · cases ho
      rw [e1, e2]
      intro hm
      rw [e4] at hm
      refine h1 ?_
      rw [e3]
      exact take_erase hm fun h => ht h.symm
    · cases ho
  | sub i =>
    obtain ⟨e1, e2, h | ⟨_, _, _, _, ho, _⟩ | ⟨i', e', A, B, ho, hi, hA, e3, e4⟩⟩ := change hs (by simp) (by simp) (by simp)
    · rw [e1, e2, h]; exact h1
    · cases ho
    · cases ho
      have hle := hp.2 i rfl
      rw [e1, e2]
      intro hm
      refine h1 ?_
      rw [e4] at hm
      rw [e3, take_before (C := B) (by omega)]; exact hm

/-! ## The properties -/

/-- C92, truth.  Whatever happened before, a call of `getdents` finds entries that are in the directory at that moment, with their inode numbers,
none of them twice. -/
theorem present (s : St) (hs : Sane s.live) (hn : s.names.Nodup) (b : Nat) (hb : clipped < b) :
    ∃ es, found (read s b).log = found s.log ++ es ∧ (∀ e ∈ es, e ∈ s.live) ∧ (es.map Prod.fst).Nodup := by
  obtain ⟨k, h1, -⟩ := read_one hs hb
  refine ⟨_, h1, fun e he => List.mem_of_mem_drop (List.mem_of_mem_take he), ?_⟩
  rw [List.map_take, List.map_drop]
  exact hn.sublist ((List.take_sublist ..).trans (List.drop_sublist ..))

/-- C92, at most once.  A name that is there all the time is found at most once, if nothing is entered before the position.  Removals
do not matter.  Missing: `twice_violated`, `grow_violated`. -/
theorem once_partial (l : List Op) (n : Str) : ∀ s : St, Sane s.live → s.names.Nodup → n ∈ s.names → found s.log = [] →
    (∀ o ∈ l, Fine o) → Along (fun s o => ¬ Touches s n o ∧ NoneBefore s o) s l →
    ((found (runFrom s l).log).map Prod.fst).count n ≤ 1 := by
  intro s h1 h2 h3 h4 h5 h6
  suffices H : ∀ s : St, Sane s.live → s.names.Nodup → (n ∈ (found s.log).map Prod.fst → n ∈ s.names → n ∈ s.names.take s.pos) →
      ((found s.log).map Prod.fst).count n ≤ 1 → n ∈ s.names → (∀ o ∈ l, Fine o) →
      Along (fun s o => ¬ Touches s n o ∧ NoneBefore s o) s l → ((found (runFrom s l).log).map Prod.fst).count n ≤ 1 from
    H s h1 h2 (by simp [h4]) (by simp [h4]) h3 h5 h6
  clear h1 h2 h3 h4 h5 h6
  induction l with
  | nil => exact fun s _ _ _ h _ _ _ => h
  | cons o l ih =>
    intro s h1 h2 h3 h4 h5 h6 h7
    simp only [runFrom]
    have hl : ∀ o ∈ l, Fine o := fun x hx => h6 x (List.mem_cons_of_mem _ hx)
    obtain ⟨hq, h7⟩ := h7
    cases hs : step s o with
    | none => rw [hs] at h7; exact ih s h1 h2 h3 h4 h5 hl h7
    | some s' =>
      rw [hs] at h7
      obtain ⟨g1, g2, g3⟩ := once_step hs h1 h2 (h6 o List.mem_cons_self) hq.1 hq.2 h3 h4 h5
      exact ih s' (sane_step hs h1 (h6 o List.mem_cons_self)) (nodup_step hs h2) g1 g2 g3 hl h7

theorem stays {l : List Op} {n : Str} : ∀ {s : St}, n ∈ s.names → Along (fun s o => ¬ Touches s n o) s l → n ∈ (runFrom s l).names := by
  induction l with
  | nil => exact fun h _ => h
  | cons o l ih =>
    intro s h h'
    simp only [runFrom]
    obtain ⟨hq, h'⟩ := h'
    cases hs : step s o with
    | none => rw [hs] at h'; exact ih h h'
    | some s' =>
      rw [hs, Option.getD_some] at h'
      rw [Option.getD_some]
      refine ih ?_ h'
      cases o with
      | read b => cases hs; exact h
      | seek off wh =>
        cases hs
        rw [(seek_names s off wh).2]
        exact h
      | grow sl =>
        simp only [step] at hs
        split at hs
        · next hp => cases hs; exact ((List.isPerm_iff.mp hp).map Prod.fst).mem_iff.mpr h
        · cases hs
      | add i e =>
        obtain ⟨-, -, e1 | ⟨_, e', A, B, ho, -, h2, h3, h4⟩ | ⟨_, _, _, _, ho, _⟩⟩ := change hs (by simp) (by simp) (by simp)
        · rw [e1]; exact h
        · rw [h3]; rw [h2] at h
          exact List.perm_middle.mem_iff.mpr (List.mem_cons_of_mem _ h)
        · cases ho
      | sub i =>
        obtain ⟨-, -, e1 | ⟨_, _, _, _, ho, _⟩ | ⟨_, e', A, B, ho, hi, -, h2, h3⟩⟩ := change hs (by simp) (by simp) (by simp)
        · rw [e1]; exact h
        · cases ho
        · cases ho
          rw [h3]; rw [h2] at h
          rcases List.mem_cons.mp (List.perm_middle.mem_iff.mp h) with h | h
          · exact absurd ⟨e', hi, h.symm⟩ hq
          · exact h

theorem along_mono {P Q : St → Op → Prop} (h : ∀ s o, P s o → Q s o) {l : List Op} : ∀ {s : St}, Along P s l → Along Q s l := by
  induction l with
  | nil => exact fun _ => trivial
  | cons o l ih => exact fun ⟨h1, h2⟩ => ⟨h _ _ h1, ih h2⟩

/-- C92, at least once.  A name that is there all the time is found, if nothing is taken out before the position, by a program that reads from the
beginning until a call with a buffer large enough for every record answers 0.  What others enter does not matter.  Missing: `rm_violated`,
`grow_violated`. -/
theorem all_partial (l : List Op) (n : Str) (s : St) (h1 : Sane s.live) (h3 : n ∈ s.names) (h4 : s.pos = 0)
    (h5 : ∀ o ∈ l, Fine o) (h6 : Along (fun s o => ¬ Touches s n o ∧ NoneOut s o) s l) (b : Nat) (hb : clipped < b)
    (hfit : ∀ e ∈ (runFrom s l).live, recLen e.1 ≤ b) (h0 : (getdents (runFrom s l).live (runFrom s l).pos b).ret = .ok 0) :
    n ∈ (found (runFrom s l).log).map Prod.fst := by
  have key : ∀ (l : List Op) (s : St), Sane s.live → (n ∈ s.names.take s.pos → n ∈ (found s.log).map Prod.fst) → (∀ o ∈ l, Fine o) →
      Along (fun s o => ¬ Touches s n o ∧ NoneOut s o) s l →
      Sane (runFrom s l).live ∧ (n ∈ (runFrom s l).names.take (runFrom s l).pos → n ∈ (found (runFrom s l).log).map Prod.fst) := by
    intro l
    induction l with
    | nil => exact fun s h1 h2 _ _ => ⟨h1, h2⟩
    | cons o l ih =>
      intro s h1 h2 h3 h4
      simp only [runFrom]
      have hl : ∀ o ∈ l, Fine o := fun x hx => h3 x (List.mem_cons_of_mem _ hx)
      obtain ⟨hq, h4⟩ := h4
      cases hs : step s o with
      | none => rw [hs] at h4; exact ih s h1 h2 hl h4
      | some s' =>
        rw [hs] at h4
        exact ih s' (sane_step hs h1 (h3 o List.mem_cons_self)) (all_step hs h1 (h3 o List.mem_cons_self) hq.1 hq.2 h2) hl h4
  obtain ⟨g1, g2⟩ := key l s h1 (by simp [h4]) h5 h6
  obtain ⟨k, -, -, -, h⟩ := read_one g1 hb
  rcases h h0 with h | ⟨e, he, h⟩
  · refine g2 ?_
    rw [List.take_of_length_le (by simpa [St.names] using h)]
    exact stays h3 (along_mono (fun _ _ h => h.1) h6)
  · have := hfit e he; omega

/-- C92, going back.  `lseek` to the beginning always works, whatever has become of the directory, and what is read then is read from the first entry. -/
theorem rewind (s : St) : (seek s 0 0).2 = .ok 0 ∧ (seek s 0 0).1 = { s with pos := 0 } := by
  have h : seek s 0 0 = ({ s with pos := 0 }, .ok 0) := by
    simp only [seek, if_true]
    rw [if_neg (by decide), if_neg (by omega)]
    rfl
  rw [h]; exact ⟨rfl, rfl⟩

/-- C92, going back.  If `lseek` told a position, then after any calls of `getdents` and `lseek` on an unchanged directory one can go there
again, and reads what one would have read there. -/
theorem tell_partial (s : St) (p : Int) (hp : (seek s 0 1).2 = .ok p) (l : List Op) (hl : ∀ o ∈ l, (∃ b, o = .read b) ∨ ∃ off wh, o = .seek off wh) :
    (seek (runFrom s l) p 0).2 = .ok p ∧ (seek (runFrom s l) p 0).1.pos = s.pos ∧ (seek (runFrom s l) p 0).1.live = s.live ∧
    ∀ b, getdents (seek (runFrom s l) p 0).1.live (seek (runFrom s l) p 0).1.pos b = getdents s.live s.pos b := by
  have hlive : (runFrom s l).live = s.live := by
    clear hp
    induction l generalizing s with
    | nil => rfl
    | cons o l ih =>
      simp only [runFrom]
      rw [ih _ fun x hx => hl x (List.mem_cons_of_mem _ hx)]
      rcases hl o List.mem_cons_self with ⟨b, rfl⟩ | ⟨off, wh, rfl⟩
      · rfl
      · exact (seek_names s off wh).1
  have hpos : p = s.pos ∧ s.pos ≤ s.live.length := by
    simp only [seek] at hp
    rw [if_neg (by decide), if_pos trivial] at hp
    dsimp only at hp
    split at hp
    · cases hp
    · split at hp
      · cases hp
      · cases hp; omega
  obtain ⟨rfl, hle⟩ := hpos
  have h : seek (runFrom s l) (s.pos : Int) 0 = ({ runFrom s l with pos := s.pos }, .ok s.pos) := by
    simp only [seek, if_true]
    rw [if_neg (by omega), if_neg (by rw [hlive]; omega)]
    simp
  have h2 : ({ runFrom s l with pos := s.pos } : St).live = s.live := hlive
  rw [h]
  exact ⟨rfl, rfl, h2, fun b => by rw [h2]⟩

/-! ## What does not hold -/

theorem reads_from (sizes : List Nat) (m : Nat) : ∀ (s : St) (done : List (Str × Nat)), Sane s.live → (∀ b ∈ sizes, clipped < b) →
    found s.log = done → min m s.live.length ≤ s.pos →
    (runFrom s (sizes.map .read)).live = s.live ∧
    ∃ es, found (runFrom s (sizes.map .read)).log = done ++ es ∧ ∀ e ∈ es, e ∈ s.live.drop m := by
  induction sizes with
  | nil => exact fun s done _ _ h _ => ⟨rfl, [], by simpa [runFrom] using h, by simp⟩
  | cons b sizes ih =>
    intro s done hs hb hd hm
    simp only [List.map_cons, runFrom, step, Option.getD_some]
    obtain ⟨k, h1, h2, h3, -⟩ := read_one hs (hb b List.mem_cons_self)
    have hl : (read s b).live = s.live := by simp only [St.live, h2]
    obtain ⟨g1, es, g2, g3⟩ := ih (read s b) (done ++ (s.live.drop s.pos).take k) (by rw [hl]; exact hs)
      (fun x hx => hb x (List.mem_cons_of_mem _ hx)) (by rw [h1, hd]) (by rw [hl, h3]; omega)
    refine ⟨g1.trans hl, (s.live.drop s.pos).take k ++ es, by rw [g2, List.append_assoc], fun e he => ?_⟩
    rcases List.mem_append.mp he with h | h
    · have h := List.mem_of_mem_take h
      by_cases hc : m ≤ s.live.length
      · have e1 : s.live.drop s.pos = (s.live.drop m).drop (s.pos - m) := by rw [List.drop_drop]; congr 1; omega
        rw [e1] at h
        exact List.mem_of_mem_drop h
      · rw [List.drop_eq_nil_of_le (by omega)] at h; cases h
    · rw [← hl]; exact g3 e h

theorem live_some (es : List (Str × Nat)) : (es.map some).filterMap id = es := by
  induction es with
  | nil => rfl
  | cons e es ih => simp only [List.map_cons, List.filterMap_cons, id, ih]

theorem subs (es : List (Str × Nat)) (s : St) (k : Nat) (hk : k ≤ es.length) (hs : s.slots = es.map some) :
    (runFrom s ((List.range k).map .sub)).slots = List.replicate k none ++ (es.drop k).map some ∧
    (runFrom s ((List.range k).map .sub)).pos = s.pos ∧ (runFrom s ((List.range k).map .sub)).log = s.log := by
  have happ : ∀ (l l' : List Op) (s : St), runFrom s (l ++ l') = runFrom (runFrom s l) l' := by
    intro l l'
    induction l with
    | nil => exact fun s => rfl
    | cons x l ih => exact fun s => ih _
  induction k with
  | zero => simp [runFrom, hs]
  | succ k ih =>
    obtain ⟨h1, h2, h3⟩ := ih (by omega)
    rw [List.range_succ, List.map_append, happ]
    generalize runFrom s ((List.range k).map .sub) = t at *
    have hd : es.drop k = es[k] :: es.drop (k + 1) := (List.getElem_cons_drop (by omega)).symm
    have hget : t.slots[k]? = some (some es[k]) := by
      rw [h1, List.getElem?_append_right (by simp), List.length_replicate, Nat.sub_self, hd]; rfl
    have hstep : step t (.sub k) = some { t with slots := t.slots.set k none } := by simp only [step, sub, hget]
    simp only [List.map_cons, List.map_nil, runFrom, hstep, Option.getD_some]
    refine ⟨?_, h2, h3⟩
    rw [h1, List.set_append_right _ _ (Nat.le_of_eq List.length_replicate), List.length_replicate, Nat.sub_self, hd, List.map_cons, List.set_cons_zero,
      List.replicate_succ', List.append_assoc]
    rfl

theorem run_append (l l' : List Op) : ∀ s : St, runFrom s (l ++ l') = runFrom (runFrom s l) l' := by
  induction l with
  | nil => exact fun s => rfl
  | cons x l ih => exact fun s => ih _

/-- What the first call on an opened directory finds. -/
theorem first_read {slots : List (Option (Str × Nat))} {es : List (Str × Nat)} (he : slots.filterMap id = es) (hs : Sane es) {b : Nat} (hb : clipped < b) :
    found (read (opened slots) b).log = es.take (found (read (opened slots) b).log).length ∧
    (read (opened slots) b).pos = (found (read (opened slots) b).log).length ∧
    (found (read (opened slots) b).log).length ≤ es.length ∧ (read (opened slots) b).slots = slots := by
  have hl : (opened slots).live = es := he
  obtain ⟨k, h1, h2, h3, -⟩ := read_one (s := opened slots) (hl ▸ hs) hb
  rw [hl] at h1 h3
  have h1 : found (read (opened slots) b).log = es.take k := by simpa [opened, found] using h1
  have hlen : (found (read (opened slots) b).log).length = min k es.length := by rw [h1, List.length_take]
  refine ⟨?_, ?_, by omega, h2⟩
  · rw [hlen, h1, ← List.take_eq_take_min]
  · rw [h3, hlen]; simp [opened]

/-- C92 does not hold: a program that lists a directory, removes what it found and goes on listing (as `rm -r` does) misses as many entries as it removed:
they stay in the directory, and no later call finds them. -/
theorem rm_violated (es : List (Str × Nat)) (hs : Sane es) (hn : (es.map Prod.fst).Nodup) (b : Nat) (hb : clipped < b) (sizes : List Nat)
    (hsz : ∀ b ∈ sizes, clipped < b) (k : Nat) (hk : k = (found (read (opened (es.map some)) b).log).length) :
    ∀ e ∈ (es.drop k).take k,
      e ∈ (runFrom (opened (es.map some)) (.read b :: (List.range k).map .sub ++ sizes.map .read)).live ∧
      e ∉ found (runFrom (opened (es.map some)) (.read b :: (List.range k).map .sub ++ sizes.map .read)).log := by
  obtain ⟨h1, h2, h3, h4⟩ := first_read (live_some es) hs hb
  rw [← hk] at h1 h2 h3
  rw [run_append]
  have e1 : runFrom (opened (es.map some)) (.read b :: (List.range k).map .sub) =
      runFrom (read (opened (es.map some)) b) ((List.range k).map .sub) := rfl
  rw [e1]
  obtain ⟨g1, g2, g3⟩ := subs es (read (opened (es.map some)) b) k h3 h4
  generalize runFrom (read (opened (es.map some)) b) ((List.range k).map .sub) = t at *
  have hl : t.live = es.drop k := by
    simp only [St.live, g1, List.filterMap_append, live_some]
    simp
  obtain ⟨f1, xs, f2, f3⟩ := reads_from sizes k t (es.take k) (by rw [hl]; exact fun e he => hs e (List.mem_of_mem_drop he)) hsz
    (by rw [g3, h1]) (by rw [g2, h2]; omega)
  intro e he
  refine ⟨by rw [f1, hl]; exact List.mem_of_mem_take he, fun hm => ?_⟩
  have hnd : es.Nodup := List.Pairwise.of_map Prod.fst (fun a b h e => h (by rw [e])) hn
  rw [f2] at hm
  rcases List.mem_append.mp hm with h | h
  · rw [← List.take_append_drop k es] at hnd
    exact (List.nodup_append.mp hnd).2.2 e h e (List.mem_of_mem_take he) rfl
  · have h := f3 e h
    rw [hl] at h
    have hnd2 : (es.drop k).Nodup := hnd.sublist (List.drop_sublist ..)
    rw [← List.take_append_drop k (es.drop k)] at hnd2
    exact (List.nodup_append.mp hnd2).2.2 e he e h rfl

/-- C92 does not hold: if a name is entered at a place before the position, the entry found last is found again. -/
theorem twice_violated (es : List (Str × Nat)) (e : Str × Nat) (hs : Sane (e :: es)) (hne : e.1 ∉ es.map Prod.fst) (b : Nat) (hb : clipped < b)
    (hfit : ∀ x ∈ es, recLen x.1 ≤ b) (h0 : es ≠ []) :
    ∃ x ∈ es, 2 ≤ (found (runFrom (opened (none :: es.map some)) [.read b, .add 0 e, .read b]).log).count x := by
  have hs' : Sane es := fun x hx => hs x (List.mem_cons_of_mem _ hx)
  have hl0 : (none :: es.map some).filterMap id = es := by rw [List.filterMap_cons]; exact live_some es
  obtain ⟨h1, h2, h3, h4⟩ := first_read hl0 hs' hb
  have hk0 : 0 < (found (read (opened (none :: es.map some)) b).log).length := by
    have hlive : (opened (none :: es.map some)).live = es := hl0
    obtain ⟨k, g1, g2, g3, g4, g5⟩ := getdents_one es hs' 0 b (Nat.zero_le _) hb
    have : (read (opened (none :: es.map some)) b).pos = k := by
      show (getdents (opened (none :: es.map some)).live 0 b).pos = k
      rw [hlive, g2]; omega
    rw [← h2, this]
    refine Nat.pos_of_ne_zero fun hk => ?_
    rcases g5 hk with h | ⟨x, hx, h⟩
    · exact h0 (List.length_eq_zero_iff.mp h.symm)
    · have := hfit x (List.mem_of_mem_drop (List.mem_of_mem_head? hx)); omega
  generalize hkk : (found (read (opened (none :: es.map some)) b).log).length = k at *
  have hrun : runFrom (opened (none :: es.map some)) [.read b, .add 0 e, .read b] =
      read { read (opened (none :: es.map some)) b with slots := some e :: es.map some } b := by
    have hadd : step (read (opened (none :: es.map some)) b) (.add 0 e) =
        some { read (opened (none :: es.map some)) b with slots := some e :: es.map some } := by
      simp only [step, add, St.live, h4, hl0]
      rw [if_neg hne, if_pos (by rfl)]
      rfl
    have hr : step (opened (none :: es.map some)) (.read b) = some (read (opened (none :: es.map some)) b) := rfl
    simp only [runFrom, hr, Option.getD_some, hadd]
    rfl
  rw [hrun]
  generalize ht : ({ read (opened (none :: es.map some)) b with slots := some e :: es.map some } : St) = t
  have hlive : t.live = e :: es := by subst ht; simp only [St.live, List.filterMap_cons, id, live_some]
  have hpos : t.pos = k := by subst ht; exact h2
  have hfound : found t.log = es.take k := by subst ht; exact h1
  obtain ⟨k', g1, -, -, -⟩ := read_one (s := t) (hlive ▸ hs) hb
  have hk' : 0 < k' ∨ k' = 0 := by omega
  obtain ⟨j, f1, f2, f3, f4, f5⟩ := getdents_one t.live (hlive ▸ hs) t.pos b (by rw [hlive, hpos]; simp; omega) hb
  have hj : 0 < j := by
    refine Nat.pos_of_ne_zero fun hj => ?_
    rcases f5 hj with h | ⟨x, hx, h⟩
    · rw [hpos, hlive] at h; simp at h; omega
    · have hx := List.mem_of_mem_head? hx
      rw [hpos, hlive] at hx
      obtain ⟨k1, rfl⟩ : ∃ k1, k = k1 + 1 := ⟨k - 1, by omega⟩
      rw [List.drop_succ_cons] at hx
      have := hfit x (List.mem_of_mem_drop hx); omega
  have hfin : found (read t b).log = es.take k ++ (es.drop (k - 1)).take j := by
    have : found (read t b).log = found t.log ++ ((t.live.drop t.pos).take j) := by simp [found, read, f1]
    rw [this, hfound, hlive, hpos]
    obtain ⟨k1, rfl⟩ : ∃ k1, k = k1 + 1 := ⟨k - 1, by omega⟩
    rfl
  refine ⟨es[k - 1], List.getElem_mem _, ?_⟩
  rw [hfin, List.count_append]
  have c1 : 1 ≤ (es.take k).count es[k - 1] := List.one_le_count_iff.mpr (by
    rw [List.mem_take_iff_getElem]; exact ⟨k - 1, by omega, rfl⟩)
  have c2 : 1 ≤ ((es.drop (k - 1)).take j).count es[k - 1] := List.one_le_count_iff.mpr (by
    rw [← List.getElem_cons_drop (by omega)]
    obtain ⟨j1, rfl⟩ : ∃ j1, j = j1 + 1 := ⟨j - 1, by omega⟩
    exact List.mem_cons_self)
  omega

/-- C92 does not hold: if the table is put anew while a program is half through, it may be shown the first half again and the second half never, although
nothing of either was touched. -/
theorem grow_violated (xs ys : List (Str × Nat)) (hs : Sane (xs ++ ys)) (hlen : xs.length = ys.length) (b : Nat) (hb : clipped < b)
    (hx : found (read (opened ((xs ++ ys).map some)) b).log = xs) (sizes : List Nat) (hsz : ∀ b ∈ sizes, clipped < b) :
    (runFrom (opened ((xs ++ ys).map some)) (.read b :: .grow ((ys ++ xs).map some) :: sizes.map .read)).live = ys ++ xs ∧
    ∀ e ∈ found (runFrom (opened ((xs ++ ys).map some)) (.read b :: .grow ((ys ++ xs).map some) :: sizes.map .read)).log, e ∈ xs := by
  obtain ⟨h1, h2, h3, h4⟩ := first_read (live_some (xs ++ ys)) hs hb
  have hgrow : step (read (opened ((xs ++ ys).map some)) b) (.grow ((ys ++ xs).map some)) =
      some { read (opened ((xs ++ ys).map some)) b with slots := (ys ++ xs).map some } := by
    simp only [step, St.live, h4, live_some]
    rw [if_pos (List.isPerm_iff.mpr List.perm_append_comm)]
  have hr : step (opened ((xs ++ ys).map some)) (.read b) = some (read (opened ((xs ++ ys).map some)) b) := rfl
  simp only [runFrom, hr, Option.getD_some, hgrow]
  generalize ht : ({ read (opened ((xs ++ ys).map some)) b with slots := (ys ++ xs).map some } : St) = t
  have hlive : t.live = ys ++ xs := by subst ht; exact live_some _
  have hpos : t.pos = xs.length := by subst ht; show (read _ b).pos = _; rw [h2, hx]
  have hfound : found t.log = xs := by subst ht; exact hx
  obtain ⟨g1, es, g2, g3⟩ := reads_from sizes xs.length t xs
    (by rw [hlive]; exact fun e he => hs e (List.mem_append.mpr ((List.mem_append.mp he).symm))) hsz hfound (by rw [hpos]; omega)
  refine ⟨g1.trans hlive, fun e he => ?_⟩
  rw [g2] at he
  rcases List.mem_append.mp he with h | h
  · exact h
  · have h := g3 e h
    rw [hlive, hlen, List.drop_left] at h
    exact h

/-- C92 does not hold of the positions in the records (`d_off`, which `telldir` gives out): going to that of the first record fails, or leads elsewhere
than to the second entry. -/
theorem seekdir_violated (es : List (Str × Nat)) (e : Str × Nat) (b : Nat) (hb : recLen e.1 ≤ b) (s : St) (hl : s.live = e :: es) (hp : s.pos = 0) :
    ∃ r, (getdents s.live s.pos b).recs.head? = some r ∧
      ((seek (read s b) r.off 0).2 = .err .EINVAL ∨ (seek (read s b) r.off 0).1.pos ≠ 1) := by
  have hge := recLen_ge e.1
  have hb' : clipped < b := by simp only [clipped]; omega
  rw [getdents_eq _ _ _ hb', hl, hp, List.drop_zero, fill_cons, if_neg (by omega)]
  refine ⟨_, rfl, ?_⟩
  simp only [Getdents.mk, Nat.zero_add]
  simp only [seek, if_true]
  split
  · exact .inl rfl
  · split
    · exact .inl rfl
    · refine .inr ?_
      show ((recLen e.1 : Nat) : Int).toNat ≠ 1
      omega

/-- C92 does not hold of `lseek`: after somebody has removed an entry, a program at the end of the directory is not told its position. -/
theorem tell_violated :
    let s := runFrom (opened [some ([97], 5), some ([98], 6)]) [.read 100, .sub 0]
    s.live = [([98], 6)] ∧ s.pos = 2 ∧ (seek s 0 1).2 = .err .EINVAL := by
  decide +kernel

/-! ## Cases that meet the hypotheses -/

/-- Four entries and two free places. -/
def sample : List (Option (Str × Nat)) := [some ([97], 5), none, some ([98], 6), some ([99], 7), none, some ([100], 8)]

/-- Two are read; behind the position one is entered and one removed; the rest is read, until the answer is 0. -/
def visit : List Op := [.read 60, .add 4 ([101], 9), .sub 3, .read 60, .read 60]

instance : DecidablePred Sane := fun l => inferInstanceAs (Decidable (∀ e ∈ l, (0 : UInt8) ∉ e.1 ∧ e.1.length < 60000 ∧ e.2 < 2 ^ 64))

/-- `present`, `once_partial`, `all_partial` for the name "d". -/
example : Sane (opened sample).live ∧ (opened sample).names.Nodup ∧ [100] ∈ (opened sample).names ∧ (∀ o ∈ visit, Fine o) ∧
    Along (fun s o => ¬ Touches s [100] o ∧ NoneBefore s o) (opened sample) visit ∧
    Along (fun s o => ¬ Touches s [100] o ∧ NoneOut s o) (opened sample) visit ∧
    (getdents (runFrom (opened sample) visit).live (runFrom (opened sample) visit).pos 60).ret = .ok 0 ∧
    found (runFrom (opened sample) visit).log = [([97], 5), ([98], 6), ([101], 9), ([100], 8)] := by
  refine ⟨by decide +kernel, by decide +kernel, by decide +kernel, ?_, ?_, ?_, by decide +kernel, by decide +kernel⟩
  · intro o ho
    simp only [visit, List.mem_cons, List.not_mem_nil, or_false] at ho
    rcases ho with rfl | rfl | rfl | rfl | rfl
    all_goals first | trivial | (simp only [Fine]; decide)
  · refine ⟨⟨by simp [Touches], by simp [NoneBefore, Still]⟩, ⟨by simp [Touches], by simp [Still], fun i e h => ?_⟩,
      ⟨?_, by simp [NoneBefore, Still]⟩, ⟨by simp [Touches], by simp [NoneBefore, Still]⟩, ⟨by simp [Touches], by simp [NoneBefore, Still]⟩, trivial⟩
    · cases h; decide +kernel
    · rintro ⟨e, h, h'⟩
      have : (((step ((step (opened sample) (.read 60)).getD (opened sample)) (.add 4 ([101], 9))).getD
        ((step (opened sample) (.read 60)).getD (opened sample))).slots[3]?) = some (some ([99], 7)) := by decide +kernel
      rw [this] at h; cases h; cases h'
  · refine ⟨⟨by simp [Touches], by simp [NoneOut, Still]⟩, ⟨by simp [Touches], by simp [NoneOut, Still]⟩,
      ⟨?_, by simp [Still], fun i h => ?_⟩, ⟨by simp [Touches], by simp [NoneOut, Still]⟩, ⟨by simp [Touches], by simp [NoneOut, Still]⟩, trivial⟩
    · rintro ⟨e, h, h'⟩
      have : (((step ((step (opened sample) (.read 60)).getD (opened sample)) (.add 4 ([101], 9))).getD
        ((step (opened sample) (.read 60)).getD (opened sample))).slots[3]?) = some (some ([99], 7)) := by decide +kernel
      rw [this] at h; cases h; cases h'
    · cases h; decide +kernel

/-- `rm_violated`: of four entries two are found and removed; the other two stay and are never found. -/
example : let es : List (Str × Nat) := [([97], 5), ([98], 6), ([99], 7), ([100], 8)]
    Sane es ∧ (es.map Prod.fst).Nodup ∧ (found (read (opened (es.map some)) 60).log).length = 2 ∧ (es.drop 2).take 2 = [([99], 7), ([100], 8)] := by
  decide +kernel

/-- `twice_violated`. -/
example : Sane [([101], 9), ([97], 5), ([98], 6), ([99], 7)] ∧ [101] ∉ [([97], 5), ([98], 6), (([99] : Str), 7)].map Prod.fst ∧
    (∀ x ∈ [([97], 5), ([98], 6), (([99] : Str), 7)], recLen x.1 ≤ 60) := by
  decide +kernel

/-- `grow_violated`. -/
example : let xs : List (Str × Nat) := [([97], 5), ([98], 6)]
    let ys : List (Str × Nat) := [([99], 7), ([100], 8)]
    Sane (xs ++ ys) ∧ found (read (opened ((xs ++ ys).map some)) 60).log = xs := by
  decide +kernel

/-- `tell_partial`. -/
example : (seek (runFrom (opened sample) [.read 60]) 0 1).2 = .ok 2 := by decide +kernel

end Verif.DirWalk
