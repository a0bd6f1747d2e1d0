import Verif.LogConc

/-!
# Concurrent calls and the log: C79
-/

namespace Verif.LogConc
open Verif.Fs Verif.Recovery

/-! ## Specification -/

/-- No call is under way: whatever was changed has been logged. -/
def Quiet (s : St) : Prop := ∀ t, s.todo t = [] ∧ s.held t = none

/-- What the inode is after a crash and a restart, before the check of link counts. -/
def recovered (b : Nat → Option Inode) (s : St) (i : Nat) : Option Inode := replay b s.log i

/-- In this execution no thread changes inode `i` while another is between serialising `i` and appending it. -/
def Apart (i : Nat) (s : St) : List Act → Prop
  | [] => True
  | a :: as => (∀ t v, a = .edit t i v → ∀ t' r, s.held t' = some r → r.1 ≠ i) ∧ ∀ s1, s.step a = some s1 → Apart i s1 as

/-! ## Lemmas -/

theorem run_snoc {s s1 : St} {as : List Act} {a : Act} (h : s.run (as ++ [a]) = some s1) :
    ∃ s0, s.run as = some s0 ∧ s0.step a = some s1 := by
  induction as generalizing s with
  | nil =>
    simp only [List.nil_append, St.run] at h
    split at h
    · cases h
    · rename_i s2 e; cases h; exact ⟨s, rfl, e⟩
  | cons x as ih =>
    simp only [List.cons_append, St.run] at h ⊢
    split at h
    · cases h
    · exact ih h

theorem snoc_ind {P : List Act → Prop} (h0 : P []) (h1 : ∀ as a, P as → P (as ++ [a])) : ∀ as, P as := by
  intro as
  have key : ∀ l : List Act, P l.reverse := by
    intro l
    induction l with
    | nil => exact h0
    | cons x l ih => rw [List.reverse_cons]; exact h1 _ _ ih
  have := key as.reverse
  rwa [List.reverse_reverse] at this

theorem pick (m : Nat → Option Inode) (l : Log) (i : Nat) :
    replay m l i = m i ∨ ∃ e ∈ l, e.1 = i ∧ replay m l i = e.2.map clean := by
  induction l generalizing m with
  | nil => exact .inl rfl
  | cons e l ih =>
    have h0 : replay m (e :: l) = replay (upd m e.1 (e.2.map clean)) l := rfl
    rw [h0]
    rcases ih (upd m e.1 (e.2.map clean)) with h | ⟨x, hx, h1, h2⟩
    · rw [h]
      by_cases hi : i = e.1
      · subst hi
        exact .inr ⟨e, by simp, rfl, by rw [upd_same]⟩
      · exact .inl (upd_ne _ _ hi)
    · exact .inr ⟨x, by simp [hx], h1, h2⟩

/-- What the inodes have been. -/
def Was (b : Nat → Option Inode) (as : List Act) (i : Nat) (o : Option Inode) : Prop :=
  ∃ pre s0, pre <+: as ∧ (St.init b).run pre = some s0 ∧ o = s0.table i

theorem Was.snoc {b : Nat → Option Inode} {as : List Act} {i : Nat} {o : Option Inode} (h : Was b as i o) (a : Act) : Was b (as ++ [a]) i o := by
  obtain ⟨pre, s0, h1, h2, h3⟩ := h
  exact ⟨pre, s0, h1.trans (List.prefix_append _ _), h2, h3⟩

theorem was_inv (b : Nat → Option Inode) : ∀ as s, (St.init b).run as = some s →
    (∀ e ∈ s.log, Was b as e.1 e.2) ∧ (∀ t e, s.held t = some e → Was b as e.1 e.2) := by
  refine snoc_ind ?_ ?_
  · intro s h
    simp only [St.run, Option.some.injEq] at h
    subst h
    exact ⟨by simp [St.init], by simp [St.init]⟩
  · intro as a ih s h
    obtain ⟨s0, h0, h1⟩ := run_snoc h
    obtain ⟨g1, g2⟩ := ih s0 h0
    have here : ∀ i, Was b (as ++ [a]) i (s0.table i) := fun i => ⟨as, s0, List.prefix_append _ _, h0, rfl⟩
    cases a with
    | edit t i v =>
      simp only [St.step] at h1
      split at h1 <;> cases h1
      exact ⟨fun e he => (g1 e he).snoc _, fun t e he => (g2 t e he).snoc _⟩
    | take t i =>
      simp only [St.step] at h1
      split at h1 <;> cases h1
      refine ⟨fun e he => (g1 e he).snoc _, fun t' e he => ?_⟩
      simp only [upd_apply] at he
      split at he
      · cases he; exact here i
      · exact (g2 t' e he).snoc _
    | append t =>
      simp only [St.step] at h1
      split at h1
      · cases h1
      · rename_i r hr
        cases h1
        refine ⟨fun e he => ?_, fun t' e he => ?_⟩
        · simp only [List.mem_append, List.mem_singleton] at he
          rcases he with he | rfl
          · exact (g1 e he).snoc _
          · exact (g2 t e hr).snoc _
        · simp only [upd_apply] at he
          split at he
          · cases he
          · exact (g2 t' e he).snoc _

/-- Inode `i`: being logged, or told by the log. -/
structure Good (b : Nat → Option Inode) (i : Nat) (s : St) : Prop where
  fresh : ∀ t r, s.held t = some r → r.1 = i → r.2 = s.table i
  due : (∃ t, i ∈ s.todo t) ∨ (∃ t r, s.held t = some r ∧ r.1 = i) ∨ (replay b s.log i).map clean = (s.table i).map clean

theorem clean_clean (o : Option Inode) : (o.map clean).map clean = o.map clean := by cases o <;> simp [clean]

theorem Good.step {b : Nat → Option Inode} {i : Nat} {s s1 : St} {a : Act} (h : Good b i s)
    (ha : ∀ t v, a = .edit t i v → ∀ t' r, s.held t' = some r → r.1 ≠ i) (hs : s.step a = some s1) : Good b i s1 := by
  cases a with
  | edit t j v =>
    simp only [St.step] at hs
    split at hs <;> cases hs
    rename_i hn
    by_cases e : j = i
    · subst e
      refine ⟨fun t' r hr he => absurd he (ha t v rfl t' r hr), .inl ⟨t, by simp⟩⟩
    · refine ⟨fun t' r hr he => ?_, ?_⟩
      · simp only [upd_ne _ _ (Ne.symm e)]; exact h.fresh t' r hr he
      · rcases h.due with ⟨t', h1⟩ | h1 | h1
        · refine .inl ⟨t', ?_⟩
          simp only [upd_apply]
          split
          · rename_i et; subst et; exact List.mem_cons_of_mem _ h1
          · exact h1
        · exact .inr (.inl h1)
        · right; right
          simp only [upd_ne _ _ (Ne.symm e)]; exact h1
  | take t j =>
    simp only [St.step] at hs
    split at hs <;> cases hs
    rename_i hn
    have hnone : s.held t = none := by simpa using hn
    refine ⟨fun t' r hr he => ?_, ?_⟩
    · simp only [upd_apply] at hr
      split at hr
      · cases hr; dsimp only at he ⊢; rw [he]
      · exact h.fresh t' r hr he
    · by_cases e : j = i
      · subst e
        exact .inr (.inl ⟨t, (j, s.table j), by simp, rfl⟩)
      · rcases h.due with ⟨t', h1⟩ | ⟨t', r, h1, h2⟩ | h1
        · refine .inl ⟨t', ?_⟩
          simp only [upd_apply]
          split
          · rename_i et; subst et
            simp only [List.mem_filter, decide_eq_true_eq]
            exact ⟨h1, Ne.symm e⟩
          · exact h1
        · refine .inr (.inl ⟨t', r, ?_, h2⟩)
          simp only
          rw [upd_ne]
          · exact h1
          · rintro rfl; rw [hnone] at h1; cases h1
        · exact .inr (.inr h1)
  | append t =>
    simp only [St.step] at hs
    split at hs
    · cases hs
    · rename_i r hr
      cases hs
      refine ⟨fun t' q hq he => ?_, ?_⟩
      · simp only [upd_apply] at hq
        split at hq
        · cases hq
        · exact h.fresh t' q hq he
      · by_cases e : r.1 = i
        · right; right
          have hf := h.fresh t r hr e
          have : r = (i, s.table i) := by obtain ⟨r1, r2⟩ := r; dsimp only at e hf; rw [e, hf]
          simp only [this]
          rw [replay_snoc, upd_same, clean_clean]
        · rcases h.due with h1 | ⟨t', q, h1, h2⟩ | h1
          · exact .inl h1
          · refine .inr (.inl ⟨t', q, ?_, h2⟩)
            simp only
            rw [upd_ne]
            · exact h1
            · rintro rfl; rw [hr] at h1; cases h1; exact e h2
          · right; right
            simp only
            rw [show s.log ++ [r] = s.log ++ [(r.1, r.2)] from rfl, replay_snoc, upd_ne _ _ (Ne.symm e)]
            exact h1

theorem Good.run {b : Nat → Option Inode} {i : Nat} {as : List Act} {s s1 : St} (h : Good b i s) (ha : Apart i s as)
    (hs : s.run as = some s1) : Good b i s1 := by
  induction as generalizing s with
  | nil => cases hs; exact h
  | cons a as ih =>
    simp only [St.run] at hs
    split at hs
    · cases hs
    · rename_i s2 e
      exact ih (h.step ha.1 e) (ha.2 s2 e) hs

theorem Good.init (b : Nat → Option Inode) (i : Nat) : Good b i (St.init b) :=
  ⟨fun t r h => by simp [St.init] at h, .inr (.inr rfl)⟩

/-! ## C79 -/

/-- C79.  Whatever the interleaving and wherever the process dies: what an inode is after the restart is what it was at some moment of the
execution (or of the start).  Nothing is made up and no inode is a mixture. -/
theorem recovered_was (b : Nat → Option Inode) {as : List Act} {s : St} (h : (St.init b).run as = some s) (i : Nat) :
    ∃ pre s0, pre <+: as ∧ (St.init b).run pre = some s0 ∧ (recovered b s i).map clean = (s0.table i).map clean := by
  unfold recovered
  rcases pick b s.log i with e | ⟨x, hx, hi, e⟩
  · exact ⟨[], St.init b, List.nil_prefix, rfl, by rw [e]; rfl⟩
  · obtain ⟨pre, s0, h1, h2, h3⟩ := (was_inv b as s h).1 x hx
    subst hi
    exact ⟨pre, s0, h1, h2, by rw [e, clean_clean, h3]⟩

/-- C79.  When no call is under way, and none changed inode `i` while another was between serialising and appending it, the inode is after a
crash what it is in memory, for any number of threads and any interleaving of the rest. -/
theorem recovered_now_partial (b : Nat → Option Inode) {as : List Act} {s : St} (h : (St.init b).run as = some s) (hq : Quiet s) {i : Nat}
    (ha : Apart i (St.init b) as) : (recovered b s i).map clean = (s.table i).map clean := by
  have g := (Good.init b i).run ha h
  rcases g.due with ⟨t, h1⟩ | ⟨t, r, h1, -⟩ | h1
  · rw [(hq t).1] at h1; cases h1
  · rw [(hq t).2] at h1; cases h1
  · exact h1

/-- A thread alone never gets into its own way. -/
theorem alone_apart {t : Nat} {as : List Act} (h : ∀ a ∈ as, a.thread = t) (i : Nat) {s : St} (hs : ∀ t', t' ≠ t → s.held t' = none) :
    (∃ s1, s.run as = some s1) → Apart i s as := by
  induction as generalizing s with
  | nil => intro _; trivial
  | cons a as ih =>
    rintro ⟨s1, h1⟩
    simp only [St.run] at h1
    split at h1
    · cases h1
    · rename_i s2 e
      have hat : a.thread = t := h a (by simp)
      refine ⟨?_, ?_⟩
      · rintro u v rfl t' r hr
        simp only [Act.thread] at hat
        subst hat
        simp only [St.step] at e
        split at e
        · rename_i hn
          by_cases et : t' = u
          · subst et; rw [hr] at hn; cases hn
          · rw [hs t' et] at hr; cases hr
        · cases e
      · intro s3 e3
        rw [e] at e3; cases e3
        refine ih (fun x hx => h x (by simp [hx])) ?_ ⟨s1, h1⟩
        intro t' ht
        cases a <;> simp only [Act.thread] at hat <;> subst hat <;> simp only [St.step] at e
        · split at e <;> cases e
          exact hs t' ht
        · split at e <;> cases e
          simp only [upd_ne _ _ ht]; exact hs t' ht
        · split at e
          · cases e
          · cases e
            simp only [upd_ne _ _ ht]; exact hs t' ht

/-- C79.  With one thread the log always tells the table when no call is under way. -/
theorem recovered_alone_partial (b : Nat → Option Inode) {t : Nat} {as : List Act} (ht : ∀ a ∈ as, a.thread = t) {s : St}
    (h : (St.init b).run as = some s) (hq : Quiet s) (i : Nat) : (recovered b s i).map clean = (s.table i).map clean :=
  recovered_now_partial b h hq (alone_apart ht i (fun _ _ => rfl) ⟨s, h⟩)

/-- Inode `i` has been changed and is to be logged, or its present state is serialised or logged, or it was never changed. -/
theorem logged_inv (b : Nat → Option Inode) (i : Nat) : ∀ as s, (St.init b).run as = some s →
    (∃ t, i ∈ s.todo t) ∨ (∃ t, s.held t = some (i, s.table i)) ∨ (i, s.table i) ∈ s.log ∨ ∀ t v, Act.edit t i v ∉ as := by
  refine snoc_ind ?_ ?_
  · intro s _; exact .inr (.inr (.inr (by simp)))
  · intro as a ih s h
    obtain ⟨s0, h0, h1⟩ := run_snoc h
    have g := ih s0 h0
    cases a with
    | edit t j v =>
      simp only [St.step] at h1
      split at h1 <;> cases h1
      by_cases e : j = i
      · subst e; exact .inl ⟨t, by simp⟩
      · simp only [upd_ne _ _ (Ne.symm e)]
        rcases g with ⟨t', g⟩ | g | g | g
        · refine .inl ⟨t', ?_⟩
          simp only [upd_apply]
          split
          · rename_i et; subst et; exact List.mem_cons_of_mem _ g
          · exact g
        · exact .inr (.inl g)
        · exact .inr (.inr (.inl g))
        · refine .inr (.inr (.inr ?_))
          intro t' v' hm
          simp only [List.mem_append, List.mem_singleton, Act.edit.injEq] at hm
          rcases hm with hm | hm
          · exact g t' v' hm
          · exact e hm.2.1.symm
    | take t j =>
      simp only [St.step] at h1
      split at h1 <;> cases h1
      rename_i hn
      have hnone : s0.held t = none := by simpa using hn
      by_cases e : j = i
      · subst e; exact .inr (.inl ⟨t, by simp⟩)
      · rcases g with ⟨t', g⟩ | ⟨t', g⟩ | g | g
        · refine .inl ⟨t', ?_⟩
          simp only [upd_apply]
          split
          · rename_i et; subst et
            simp only [List.mem_filter, decide_eq_true_eq]
            exact ⟨g, Ne.symm e⟩
          · exact g
        · refine .inr (.inl ⟨t', ?_⟩)
          simp only
          rw [upd_ne]
          · exact g
          · rintro rfl; rw [hnone] at g; cases g
        · exact .inr (.inr (.inl g))
        · refine .inr (.inr (.inr ?_))
          intro t' v' hm
          simp only [List.mem_append, List.mem_singleton, reduceCtorEq, or_false] at hm
          exact g t' v' hm
    | append t =>
      simp only [St.step] at h1
      split at h1
      · cases h1
      · rename_i r hr
        cases h1
        rcases g with g | ⟨t', g⟩ | g | g
        · exact .inl g
        · by_cases et : t' = t
          · subst et
            rw [hr] at g
            cases g
            exact .inr (.inr (.inl (by simp)))
          · refine .inr (.inl ⟨t', ?_⟩)
            simp only
            rw [upd_ne _ _ et]; exact g
        · refine .inr (.inr (.inl ?_))
          simp only [List.mem_append]; exact .inl g
        · refine .inr (.inr (.inr ?_))
          intro t' v' hm
          simp only [List.mem_append, List.mem_singleton, reduceCtorEq, or_false] at hm
          exact g t' v' hm

/-- C79.  In every interleaving, when no call is under way the present state of every inode that was changed is in the log (perhaps not as the
last record of that inode). -/
theorem present_logged (b : Nat → Option Inode) {as : List Act} {s : St} (h : (St.init b).run as = some s) (hq : Quiet s) {t i : Nat}
    {v : Option Inode} (he : Act.edit t i v ∈ as) : (i, s.table i) ∈ s.log := by
  rcases logged_inv b i as s h with ⟨t', g⟩ | ⟨t', g⟩ | g | g
  · rw [(hq t').1] at g; cases g
  · rw [(hq t').2] at g; cases g
  · exact g
  · exact absurd he (g t v)

/-! ## Witnesses -/

/-- A regular file with one name and this size. -/
def file (n : Nat) : Inode := { kind := .file, mode := 0o100666#32, size := n, link := 1, ref := 0, ents := [] }
/-- A directory with these entries. -/
def dir (es : List (Name × Nat)) : Inode :=
  { kind := .dir, mode := 0o40777#32, size := 0, link := es.length + 3, ref := 0, ents := initEnts 1 1 ++ es }

/-- Root 1 with the file `f` (102), number 9. -/
def base : Nat → Option Inode
  | 1 => some (dir [([102], 9)])
  | 9 => some (file 0)
  | _ => none

/-- Two threads write to the file at the same time: thread 0 makes it 10 bytes long, thread 1 makes it 20 bytes long and logs that before thread 0 has
appended its record. -/
def twoWrites : List Act := [.edit 0 9 (some (file 10)), .take 0 9, .edit 1 9 (some (file 20)), .take 1 9, .append 1, .append 0]

/-- Two threads make a file in the same directory at the same time. -/
def twoCreates : List Act :=
  [.edit 0 1 (some (dir [([97], 10), ([102], 9)])), .edit 0 10 (some (file 0)), .take 0 1,
   .edit 1 1 (some (dir [([98], 11), ([97], 10), ([102], 9)])), .edit 1 11 (some (file 0)), .take 1 1, .append 1, .take 1 11, .append 1,
   .append 0, .take 0 10, .append 0]

/-- One thread changes the mode of the file while another removes it. -/
def chmodUnlink : List Act :=
  [.edit 0 9 (some { file 0 with mode := 0o100600#32 }), .take 0 9,
   .edit 1 9 (some { file 0 with mode := 0o100600#32, link := 0 }), .edit 1 1 (some (dir [])), .edit 1 9 none, .take 1 1, .append 1,
   .take 1 9, .append 1, .append 0]

/-- The state after these steps (the start if they are not possible). -/
def after (as : List Act) : St := ((St.init base).run as).getD (St.init base)

theorem quiet_of {as : List Act} {s : St} (h : (St.init base).run as = some s) (ht : ∀ a ∈ as, a.thread < 2)
    (h0 : s.todo 0 = [] ∧ s.held 0 = none) (h1 : s.todo 1 = [] ∧ s.held 1 = none) : Quiet s := by
  have key : ∀ as s, (St.init base).run as = some s → (∀ a ∈ as, a.thread < 2) → ∀ t, 2 ≤ t → s.todo t = [] ∧ s.held t = none := by
    refine snoc_ind ?_ ?_
    · intro s h _ t _
      simp only [St.run, Option.some.injEq] at h
      subst h; exact ⟨rfl, rfl⟩
    · intro as a ih s h hall t ht
      obtain ⟨s0, e0, e1⟩ := run_snoc h
      have g := ih s0 e0 (fun x hx => hall x (by simp [hx])) t ht
      have ha : a.thread < 2 := hall a (by simp)
      have hne : t ≠ a.thread := by omega
      cases a <;> simp only [Act.thread] at hne <;> simp only [St.step] at e1
      · split at e1 <;> cases e1
        exact ⟨by simp only [upd_ne _ _ hne]; exact g.1, g.2⟩
      · split at e1 <;> cases e1
        exact ⟨by simp only [upd_ne _ _ hne]; exact g.1, by simp only [upd_ne _ _ hne]; exact g.2⟩
      · split at e1
        · cases e1
        · cases e1
          exact ⟨g.1, by simp only [upd_ne _ _ hne]; exact g.2⟩
  intro t
  match t with
  | 0 => exact h0
  | 1 => exact h1
  | t + 2 => exact key as s h ht (t + 2) (by omega)

/-- C79 fails for the size of a file that two threads extend at the same time: both calls have returned, the file is 20 bytes
long; after a crash it is 10 bytes long, and what the second thread wrote is cut off. -/
theorem stale_size_violated : (St.init base).run twoWrites = some (after twoWrites) ∧ Quiet (after twoWrites) ∧
    ((after twoWrites).table 9).map Inode.size = some 20 ∧ (recovered base (after twoWrites) 9).map Inode.size = some 10 :=
  ⟨rfl, quiet_of (as := twoWrites) rfl (by decide) (by decide) (by decide), by decide, by decide⟩

/-- C79 fails for the entries of a directory in which two threads make a file at the same time: both calls have returned, the directory has
the names `a` and `b`; after a crash `b` is gone, and its file has no name. -/
theorem lost_entry_violated : (St.init base).run twoCreates = some (after twoCreates) ∧ Quiet (after twoCreates) ∧
    ((after twoCreates).table 1).map (fun nd => entGet nd.ents [98]) = some (some 11) ∧
    (recovered base (after twoCreates) 1).map (fun nd => entGet nd.ents [98]) = some none ∧
    (recovered base (after twoCreates) 11).isSome = true :=
  ⟨rfl, quiet_of (as := twoCreates) rfl (by decide) (by decide) (by decide), by decide, by decide, by decide⟩

/-- C79 fails for a file that is removed while another thread changes its mode: it is back after a crash, without a name and with a link
count of 1, so that nothing ever removes it. -/
theorem back_again_violated : (St.init base).run chmodUnlink = some (after chmodUnlink) ∧ Quiet (after chmodUnlink) ∧
    ((after chmodUnlink).table 9).isNone = true ∧ (recovered base (after chmodUnlink) 9).map Inode.link = some 1 ∧
    (recovered base (after chmodUnlink) 1).map (fun nd => entGet nd.ents [102]) = some none :=
  ⟨rfl, quiet_of (as := chmodUnlink) rfl (by decide) (by decide) (by decide), by decide, by decide, by decide⟩

/-- Two threads that write to the file one after the other, and make a file in the meantime. -/
def apart : List Act :=
  [.edit 0 9 (some (file 10)), .edit 1 1 (some (dir [([97], 10), ([102], 9)])), .take 0 9, .edit 1 10 (some (file 0)), .append 0, .take 1 1,
   .edit 0 9 (some (file 20)), .append 1, .take 0 9, .take 1 10, .append 1, .append 0]

/-- The hypotheses of `recovered_now_partial` are met by threads that overlap on other inodes. -/
example : (St.init base).run apart = some (after apart) ∧ Quiet (after apart) ∧ Apart 9 (St.init base) apart ∧
    (recovered base (after apart) 9).map Inode.size = some 20 := by
  refine ⟨rfl, quiet_of (as := apart) rfl (by decide) (by decide) (by decide), ?_, by decide⟩
  unfold apart
  refine ⟨?_, ?_⟩
  · intro t v _ t' r h; cases h
  · intro s1 h1; cases h1
    refine ⟨(by intro t v h; cases h), ?_⟩
    intro s1 h1; cases h1
    refine ⟨(by intro t v h; cases h), ?_⟩
    intro s1 h1; cases h1
    refine ⟨(by intro t v h; cases h), ?_⟩
    intro s1 h1; cases h1
    refine ⟨(by intro t v h; cases h), ?_⟩
    intro s1 h1; cases h1
    refine ⟨(by intro t v h; cases h), ?_⟩
    intro s1 h1; cases h1
    refine ⟨?_, ?_⟩
    · intro t v _ t' r hr
      match t' with
      | 0 => cases hr
      | 1 => cases hr; decide
      | t' + 2 => cases hr
    · intro s1 h1; cases h1
      refine ⟨(by intro t v h; cases h), ?_⟩
      intro s1 h1; cases h1
      refine ⟨(by intro t v h; cases h), ?_⟩
      intro s1 h1; cases h1
      refine ⟨(by intro t v h; cases h), ?_⟩
      intro s1 h1; cases h1
      refine ⟨(by intro t v h; cases h), ?_⟩
      intro s1 h1; cases h1
      exact ⟨(by intro t v h; cases h), fun _ _ => trivial⟩

end Verif.LogConc
