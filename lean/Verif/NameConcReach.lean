import Verif.NameConcSame

/-! What the relation says about the inodes that a thread can reach, and how to establish it again after a step. -/

namespace Verif.NameConc
open Verif.Path Verif.Fs

theorem Stable.refl (g : Fs) (C : List (List Name)) : Stable g g C :=
  ⟨fun _ _ nd _ _ _ h => ⟨nd, h, rfl, fun _ => ⟨rfl, fun _ _ _ => rfl⟩⟩⟩

variable {N : Nat} {s : State} {A : Abs}

theorem sig_idle (i : Nat) : sig .idle i = {} := rfl

/-- The thread is in a call. -/
theorem Rel.thread (R : Rel N s A) {u : Nat} (h : s.pc u ≠ .idle) :
    ∃ c o, A.pend u = some (c, o) ∧ s.call u = some c ∧ TI A.fs c o (s.pc u) := by
  cases hp : A.pend u with
  | none => exact absurd (R.rest u hp) h
  | some x =>
    obtain ⟨c, o⟩ := x
    exact ⟨c, o, rfl, by rw [R.call, hp]; rfl, R.thr u c o hp⟩

theorem ti_fresh {g c o q i nd} (h : TI g c o q) (hs : (sig q i).fresh = some nd) :
    ∃ p ∈ c.changes, Leads g p i ∧ (nd.isDir ∨ nd.link ≤ 1) := by
  have key : ∀ (new : New) par num, (new.ino par num).isDir ∨ (new.ino par num).link ≤ 1 := by
    intro new par num; cases new <;> simp [New.ino, Inode.isDir, newFile]
  unfold sig at hs
  split at hs <;> dsimp only at hs <;> try (cases hs; done)
  · split at hs
    · rename_i e; subst e; cases hs
      exact ⟨_, h.2.1, ⟨_, h.2.2.1⟩, key _ _ _⟩
    · cases hs
  · split at hs
    · rename_i e; subst e; cases hs
      exact ⟨_, h.2.1, ⟨_, h.2.2.1⟩, key _ _ _⟩
    · cases hs

theorem ti_opn {g c o q i} (h : TI g c o q) (hs : (sig q i).opn = true) : ∃ p ∈ c.changes, Leads g p i := by
  have key : ∀ {k : After}, AfterOk g c o k → k.opens i = true → ∃ p ∈ c.changes, Leads g p i := by
    intro k hk ho
    cases k with
    | ret => cases ho
    | dom => cases ho
    | openObj p j =>
      simp only [After.opens, decide_eq_true_eq] at ho
      subst ho; exact ⟨p, hk.2.1, hk.2.2⟩
  unfold sig at hs
  split at hs <;> dsimp only at hs <;> try (cases hs; done)
  · simp only [Bool.and_eq_true, decide_eq_true_eq] at hs
    obtain ⟨-, rfl⟩ := hs
    exact ⟨_, h.2.1, ⟨_, h.2.2.1⟩⟩
  · simp only [Bool.and_eq_true, decide_eq_true_eq] at hs
    obtain ⟨-, rfl⟩ := hs
    exact ⟨_, h.2.1, ⟨_, h.2.2.1⟩⟩
  · exact key h hs
  · exact key h hs
  · simp only [decide_eq_true_eq] at hs
    subst hs; exact ⟨_, h.2.1, h.2.2⟩

theorem ti_add {g c o q i n k} (h : TI g c o q) (hs : (sig q i).add = some (n, k)) :
    ∃ d, d ++ [n] ∈ c.changes ∧ Leads g d i := by
  unfold sig at hs
  split at hs <;> dsimp only at hs <;> try (cases hs; done)
  · split at hs
    · rename_i e; subst e
      obtain ⟨d, m, pd, rfl, h1, -⟩ := walk_par h.2.2.1
      simp at hs
      obtain ⟨rfl, -⟩ := hs
      exact ⟨d, h.2.1, h1⟩
    · cases hs

theorem ti_rm {g c o q i n} (h : TI g c o q) (hs : (sig q i).rm = some n) :
    ∃ d, d ++ [n] ∈ c.changes ∧ Leads g d i := by
  unfold sig at hs
  split at hs <;> dsimp only at hs <;> try (cases hs; done)
  all_goals
    split at hs
    · rename_i e; subst e
      obtain ⟨d, m, pd, rfl, h1, -⟩ := walk_par h.2.2.1
      simp at hs
      subst hs
      exact ⟨d, h.2.1, h1⟩
    · cases hs

theorem ti_up {g c o q i} (h : TI g c o q) (hs : (sig q i).up = true) : ∃ p ∈ c.names, Plain g p i := by
  unfold sig at hs
  split at hs <;> dsimp only at hs <;> try (cases hs; done)
  · simp only [decide_eq_true_eq] at hs
    subst hs
    obtain ⟨-, -, h1, -, h2⟩ := h
    exact ⟨_, by rw [h1]; simp [Call.names], h2⟩
  · simp only [decide_eq_true_eq] at hs
    subst hs
    obtain ⟨-, h1, h2, -⟩ := h
    exact ⟨_, by rw [h1]; simp [Call.names], h2⟩
  · simp only [decide_eq_true_eq] at hs
    subst hs
    obtain ⟨-, ⟨new, h1⟩, h2⟩ := h
    exact ⟨_, by rw [h1]; simp [Call.names], h2⟩

theorem sig_ne {u i : Nat} (h : sig (s.pc u) i ≠ {}) : s.pc u ≠ .idle := fun e => h (by rw [e]; rfl)

theorem Rel.t_lt (R : Rel N s A) {u : Nat} (h : s.pc u ≠ .idle) : u < N := by
  apply Classical.byContradiction
  intro hn; exact h (R.idle u (by omega))

theorem Rel.tree (R : Rel N s A) : Tree A.fs.inodes A.fs.next := R.inv.tree

section
variable (R : Rel N s A) {t : Nat} {c : Call} (hc : s.call t = some c) {p q : List Name} (hp : p ∈ c.names) (hq : q <+: p) {j : Nat}
include R hc hp hq

theorem Rel.gq : GoodPath q := by
  obtain ⟨e, rfl⟩ := hq
  exact good_left (R.good t c hc _ hp)

/-- Nobody else is creating an inode on one's way. -/
theorem Rel.notFresh (hl : Leads A.fs q j) {u : Nat} (hu : u ≠ t) : (sig (s.pc u) j).fresh = none := by
  cases hf : (sig (s.pc u) j).fresh with
  | none => rfl
  | some nd =>
    exfalso
    obtain ⟨c', o', -, hc', ti⟩ := R.thread (sig_ne (fun e => by rw [e] at hf; cases hf))
    obtain ⟨p', h1, h2, h3⟩ := ti_fresh ti hf
    have hy := ((R.ino j).fresh u nd hf).2
    have := uniq_path R.tree (R.gq hc hp hq) (R.good u c' hc' p' (changes_names h1)) hl h2 hy h3
    subst this
    exact (R.apart u t c' c hu hc' hc).1 _ h1 _ hp hq

theorem Rel.notOpn (hl : Leads A.fs q j) {u : Nat} (hu : u ≠ t) : (sig (s.pc u) j).opn = false := by
  cases hf : (sig (s.pc u) j).opn with
  | false => rfl
  | true =>
    exfalso
    obtain ⟨c', o', -, hc', ti⟩ := R.thread (sig_ne (fun e => by rw [e] at hf; cases hf))
    obtain ⟨p', h1, h2⟩ := ti_opn ti hf
    obtain ⟨-, -, -, -, -, nd, hy, -, hy'⟩ := (R.ino j).opn u hf
    have := uniq_path R.tree (R.gq hc hp hq) (R.good u c' hc' p' (changes_names h1)) hl h2 hy (.inr (by omega))
    subst this
    exact (R.apart u t c' c hu hc' hc).1 _ h1 _ hp hq

/-- Nobody is about to reap an inode that a path leads to. -/
theorem Rel.notDoom (hl : Leads A.fs q j) (u : Nat) : (sig (s.pc u) j).doom = none := by
  cases hf : (sig (s.pc u) j).doom with
  | none => rfl
  | some b =>
    exfalso
    obtain ⟨nd, hnd⟩ := leads_some R.tree (R.gq hc hp hq) hl
    have := ((R.ino j).doom u b hf).2.1
    rw [hnd] at this; cases this

/-- An inode on one's way is there, and is what it should be but for what is pending. -/
theorem Rel.node (hl : Leads A.fs q j) (ho : (sig (s.pc t) j).fresh = none) :
    ∃ x y, s.fs.inodes j = some x ∧ A.fs.inodes j = some y ∧ Same N (fun u => sig (s.pc u) j) x y := by
  obtain ⟨y, hy⟩ := leads_some R.tree (R.gq hc hp hq) hl
  obtain ⟨x, h1, h2⟩ := (R.ino j).there y hy (fun u => by
    by_cases e : u = t
    · subst e; exact ho
    · exact R.notFresh hc hp hq hl e)
  exact ⟨x, y, h1, hy, h2⟩

end

section
variable (R : Rel N s A) {t : Nat} {c : Call} (hc : s.call t = some c) {p d : List Name} {n : Name} (hp : p ∈ c.names)
  (hq : d ++ [n] <+: p) {j : Nat} (hl : Leads A.fs d j) {y : Inode} (hy : A.fs.inodes j = some y) (hd : y.isDir)
include R hc hp hq hl hy hd

/-- Nobody else adds or removes an entry on one's way. -/
theorem Rel.notAdd {u : Nat} (hu : u ≠ t) (k : Nat) : (sig (s.pc u) j).add ≠ some (n, k) := by
  intro hf
  obtain ⟨c', o', -, hc', ti⟩ := R.thread (sig_ne (fun e => by rw [e] at hf; cases hf))
  obtain ⟨d', h1, h2⟩ := ti_add ti hf
  have hg := R.gq hc hp hq
  have hg' := R.good u c' hc' _ (changes_names h1)
  have := uniq_dir R.tree (good_left hg) (good_left hg') hl h2 hy hd
  subst this
  exact (R.apart u t c' c hu hc' hc).1 _ h1 _ hp hq

theorem Rel.notRm {u : Nat} (hu : u ≠ t) : (sig (s.pc u) j).rm ≠ some n := by
  intro hf
  obtain ⟨c', o', -, hc', ti⟩ := R.thread (sig_ne (fun e => by rw [e] at hf; cases hf))
  obtain ⟨d', h1, h2⟩ := ti_rm ti hf
  have hg := R.gq hc hp hq
  have hg' := R.good u c' hc' _ (changes_names h1)
  have := uniq_dir R.tree (good_left hg) (good_left hg') hl h2 hy hd
  subst this
  exact (R.apart u t c' c hu hc' hc).1 _ h1 _ hp hq

theorem Rel.entry (ha : ∀ k, (sig (s.pc t) j).add ≠ some (n, k)) (hr : (sig (s.pc t) j).rm ≠ some n) {x : Inode}
    (hs : Same N (fun u => sig (s.pc u) j) x y) : entGet x.ents n = entGet y.ents n := by
  have h1 : ∀ u, (sig (s.pc u) j).rm ≠ some n := fun u => by
    by_cases e : u = t
    · subst e; exact hr
    · exact R.notRm hc hp hq hl hy hd e
  have h2 : ∀ u k, (sig (s.pc u) j).add ≠ some (n, k) := fun u k => by
    by_cases e : u = t
    · subst e; exact ha k
    · exact R.notAdd hc hp hq hl hy hd e k
  have hk : ∀ k, (n, k) ∈ y.ents ↔ (n, k) ∈ x.ents := by
    intro k
    rw [hs.mem]
    constructor
    · rintro (h | ⟨u, h⟩)
      · exact h.1
      · exact absurd h (h2 u k)
    · exact fun h => .inl ⟨h, h1⟩
  cases h3 : entGet x.ents n with
  | none => exact (entGet_none.2 (fun k hm => entGet_none.1 h3 k ((hk k).1 hm))).symm
  | some k => exact ((entGet_iff (R.tree.nodup hy)).2 ((hk k).2 (entGet_mem h3))).symm

end

/-- Directories only have entries pending; other inodes only links. -/
theorem Rel.plainSig (R : Rel N s A) {j : Nat} {y : Inode} (hy : A.fs.inodes j = some y) (hd : y.isDir = false) (u : Nat) :
    (sig (s.pc u) j).add = none ∧ (sig (s.pc u) j).rm = none := by
  have key : ∀ {d n c'}, s.call u = some c' → d ++ [n] ∈ c'.changes → Leads A.fs d j → A.fs.walk (d ++ [n]) ≠ some (none, none) → False := by
    intro d n c' hc' h1 h2 h3
    obtain ⟨⟨x, hx⟩⟩ := h2
    apply h3
    rw [walk_snoc hx]
    simp [hy, hd]
  constructor
  · cases hf : (sig (s.pc u) j).add with
    | none => rfl
    | some e =>
      exfalso
      obtain ⟨n, k⟩ := e
      obtain ⟨c', o', -, hc', ti⟩ := R.thread (sig_ne (fun e => by rw [e] at hf; cases hf))
      generalize s.pc u = q at hf ti
      unfold sig at hf
      split at hf <;> dsimp only at hf <;> try (cases hf; done)
      split at hf
      · rename_i e; subst e
        obtain ⟨d, m, pd, -, -, h1, h2, -⟩ := walk_par ti.2.2.1
        rw [hy] at h1; cases h1; rw [hd] at h2; cases h2
      · cases hf
  · cases hf : (sig (s.pc u) j).rm with
    | none => rfl
    | some n =>
      exfalso
      obtain ⟨c', o', -, hc', ti⟩ := R.thread (sig_ne (fun e => by rw [e] at hf; cases hf))
      generalize s.pc u = q at hf ti
      unfold sig at hf
      split at hf <;> dsimp only at hf <;> try (cases hf; done)
      all_goals
        split at hf
        · rename_i e; subst e
          obtain ⟨d, m, pd, -, -, h1, h2, -⟩ := walk_par ti.2.2.1
          rw [hy] at h1; cases h1; rw [hd] at h2; cases h2
        · cases hf

theorem Rel.dirUp (R : Rel N s A) {j : Nat} {y : Inode} (hy : A.fs.inodes j = some y) (hd : y.isDir) (u : Nat) :
    (sig (s.pc u) j).up = false := by
  cases hf : (sig (s.pc u) j).up with
  | false => rfl
  | true =>
    exfalso
    obtain ⟨c', o', -, hc', ti⟩ := R.thread (sig_ne (fun e => by rw [e] at hf; cases hf))
    obtain ⟨p, -, h1, nd, h2, h3⟩ := ti_up ti hf
    rw [hy] at h2; cases h2; rw [hd] at h3; cases h3

theorem Rel.dirOpn (R : Rel N s A) {j : Nat} {y : Inode} (hy : A.fs.inodes j = some y) (hd : y.isDir) (u : Nat) :
    (sig (s.pc u) j).opn = false := by
  cases hf : (sig (s.pc u) j).opn with
  | false => rfl
  | true =>
    exfalso
    obtain ⟨-, -, -, -, -, nd, h1, h2, -⟩ := (R.ino j).opn u hf
    rw [hy] at h1; cases h1; rw [Inode.isDir, h2] at hd; cases hd

/-- A number that is not in use has nothing pending. -/
theorem Rel.unused (R : Rel N s A) {j : Nat} (hx : s.fs.inodes j = none) (hy : A.fs.inodes j = none) (u : Nat) :
    sig (s.pc u) j = {} := by
  have r := R.ino j
  have hl := R.inv.loc j
  rw [hy] at hl
  have h1 : (sig (s.pc u) j).fresh = none := by
    cases hf : (sig (s.pc u) j).fresh with
    | none => rfl
    | some nd => have := (r.fresh u nd hf).2; rw [hy] at this; cases this
  have h2 : (sig (s.pc u) j).doom = none := by
    cases hf : (sig (s.pc u) j).doom with
    | none => rfl
    | some nd => obtain ⟨⟨x, h⟩, -⟩ := r.doom u nd hf; rw [hx] at h; cases h
  have h3 : (sig (s.pc u) j).opn = false := by
    cases hf : (sig (s.pc u) j).opn with
    | false => rfl
    | true => obtain ⟨-, -, -, -, -, nd, h, -⟩ := r.opn u hf; rw [hy] at h; cases h
  have h4 : (sig (s.pc u) j).cls = false := by
    cases hf : (sig (s.pc u) j).cls with
    | false => rfl
    | true =>
      have hN := R.t_lt (sig_ne (i := j) (fun e => by rw [e] at hf; cases hf))
      have hh := r.held
      have := sumTo_le (f := fun u => (Sig.cls (sig (s.pc u) j)).toNat) hN
      have h0 : tot N (fun u => sig (s.pc u) j) Sig.cls = 0 := by have := hl.2.2; omega
      have := tot_zero' h0 hN
      rw [hf] at this; cases this
  have nolead : ∀ {p c'}, s.call u = some c' → p ∈ c'.names → ∀ {q}, q <+: p → Leads A.fs q j → False := by
    intro p c' hc' hp q hq h
    obtain ⟨nd, hnd⟩ := leads_some R.tree (R.gq hc' hp hq) h
    rw [hy] at hnd; cases hnd
  have h5 : (sig (s.pc u) j).add = none := by
    cases hf : (sig (s.pc u) j).add with
    | none => rfl
    | some e =>
      obtain ⟨n, k⟩ := e
      obtain ⟨c', o', -, hc', ti⟩ := R.thread (sig_ne (fun e => by rw [e] at hf; cases hf))
      obtain ⟨d, g1, g2⟩ := ti_add ti hf
      exact (nolead hc' (changes_names g1) (List.prefix_append _ _) g2).elim
  have h6 : (sig (s.pc u) j).rm = none := by
    cases hf : (sig (s.pc u) j).rm with
    | none => rfl
    | some n =>
      obtain ⟨c', o', -, hc', ti⟩ := R.thread (sig_ne (fun e => by rw [e] at hf; cases hf))
      obtain ⟨d, g1, g2⟩ := ti_rm ti hf
      exact (nolead hc' (changes_names g1) (List.prefix_append _ _) g2).elim
  have h7 : (sig (s.pc u) j).up = false := by
    cases hf : (sig (s.pc u) j).up with
    | false => rfl
    | true =>
      obtain ⟨c', o', -, hc', ti⟩ := R.thread (sig_ne (fun e => by rw [e] at hf; cases hf))
      obtain ⟨p, g1, g2⟩ := ti_up ti hf
      exact (nolead hc' g1 (List.prefix_rfl) g2.leads).elim
  generalize sig (s.pc u) j = z at *
  cases z; simp_all

/-! ## After a step -/

/-- The thread goes on. -/
theorem Rel.toStep (R : Rel N s A) {t : Nat} {c : Call} {o o' : Option Out} (hpend : A.pend t = some (c, o)) {fs' : Fs}
    {held' : Nat → Nat} {q : Pc} {A' : Abs}
    (hfr : Fresh { s with fs := fs', held := held', pc := upd s.pc t q }) (hA : A'.pend = upd A.pend t (some (c, o')))
    (inv : FsInv A'.fs A'.held) (next : fs'.next = A'.fs.next) (hst : Stable A.fs A'.fs c.changes) (ti : TI A'.fs c o' q)
    (ino : ∀ i, InoRel N (upd (fun u => sig (s.pc u) i) t (sig q i)) (fs'.inodes i) (A'.fs.inodes i) (fs'.fobj i) (A'.fs.fobj i)
      (fs'.disk i) (A'.fs.disk i) (held' i) (A'.held i)) :
    Rel N { s with fs := fs', held := held', pc := upd s.pc t q } A' := by
  have hct : s.call t = some c := by rw [R.call, hpend]; rfl
  have htN : t < N := by
    apply Classical.byContradiction
    intro hn
    have := R.thr t c o hpend
    rw [R.idle t (by omega)] at this; exact this
  refine ⟨R.alive, inv, hfr, ?_, next, ?_, R.apart, R.good, ?_, ?_, ?_⟩
  · intro u hu
    have : u ≠ t := by omega
    simp only [upd_ne _ _ this]; exact R.idle u hu
  · intro u
    rw [hA]
    by_cases e : u = t
    · subst e; simp [hct]
    · simp [e, R.call]
  · intro u hu
    rw [hA] at hu
    by_cases e : u = t
    · subst e; simp at hu
    · simp only [upd_ne _ _ e] at hu ⊢; exact R.rest u hu
  · intro u c1 o1 hu
    rw [hA] at hu
    by_cases e : u = t
    · subst e
      simp only [upd_same, Option.some.injEq, Prod.mk.injEq] at hu ⊢
      obtain ⟨rfl, rfl⟩ := hu; exact ti
    · simp only [upd_ne _ _ e] at hu ⊢
      have hcu : s.call u = some c1 := by rw [R.call, hu]; rfl
      exact TI.stable R.tree hst (R.good u c1 hcu)
        (fun p hp q hq hpre => (R.apart t u c c1 (Ne.symm e) hct hcu).1 q hq p hp hpre) (R.thr u c1 o1 hu)
  · intro i
    have : (fun u => sig (upd s.pc t q u) i) = upd (fun u => sig (s.pc u) i) t (sig q i) := by
      funext u
      by_cases e : u = t
      · subst e; simp
      · simp [e]
    show InoRel N (fun u => sig (upd s.pc t q u) i) _ _ _ _ _ _ _ _
    rw [this]; exact ino i

/-- The call returns. -/
theorem Rel.finStep (R : Rel N s A) {t : Nat} {c : Call} {o : Option Out} (hpend : A.pend t = some (c, o)) {fs' : Fs}
    {held' : Nat → Nat} {res' : Nat → Option Out} {A' : Abs}
    (hfr : Fresh { s with fs := fs', held := held', pc := upd s.pc t .idle, call := upd s.call t none, res := res' })
    (hA : A'.pend = upd A.pend t none)
    (inv : FsInv A'.fs A'.held) (next : fs'.next = A'.fs.next) (hst : Stable A.fs A'.fs c.changes)
    (ino : ∀ i, InoRel N (upd (fun u => sig (s.pc u) i) t {}) (fs'.inodes i) (A'.fs.inodes i) (fs'.fobj i) (A'.fs.fobj i)
      (fs'.disk i) (A'.fs.disk i) (held' i) (A'.held i)) :
    Rel N { s with fs := fs', held := held', pc := upd s.pc t .idle, call := upd s.call t none, res := res' } A' := by
  have hct : s.call t = some c := by rw [R.call, hpend]; rfl
  have old : ∀ {u c1}, upd s.call t none u = some c1 → u ≠ t ∧ s.call u = some c1 := by
    intro u c1 h
    by_cases e : u = t
    · subst e; simp at h
    · simp only [upd_ne _ _ e] at h; exact ⟨e, h⟩
  refine ⟨R.alive, inv, hfr, ?_, next, ?_, ?_, ?_, ?_, ?_, ?_⟩
  · intro u hu
    by_cases e : u = t
    · subst e; simp
    · simp only [upd_ne _ _ e]; exact R.idle u hu
  · intro u
    rw [hA]
    by_cases e : u = t
    · subst e; simp
    · simp [e, R.call]
  · intro u v c1 c2 huv hu hv
    exact R.apart u v c1 c2 huv (old hu).2 (old hv).2
  · intro u c1 hu; exact R.good u c1 (old hu).2
  · intro u hu
    rw [hA] at hu
    by_cases e : u = t
    · subst e; simp
    · simp only [upd_ne _ _ e] at hu ⊢; exact R.rest u hu
  · intro u c1 o1 hu
    rw [hA] at hu
    by_cases e : u = t
    · subst e; simp at hu
    · simp only [upd_ne _ _ e] at hu ⊢
      have hcu : s.call u = some c1 := by rw [R.call, hu]; rfl
      exact TI.stable R.tree hst (R.good u c1 hcu)
        (fun p hp q hq hpre => (R.apart t u c c1 (Ne.symm e) hct hcu).1 q hq p hp hpre) (R.thr u c1 o1 hu)
  · intro i
    have : (fun u => sig (upd s.pc t .idle u) i) = upd (fun u => sig (s.pc u) i) t {} := by
      funext u
      by_cases e : u = t
      · subst e; simp [sig_idle]
      · simp [e]
    show InoRel N (fun u => sig (upd s.pc t .idle u) i) _ _ _ _ _ _ _ _
    rw [this]; exact ino i

end Verif.NameConc
