import Verif.NamesKeptSpec
import Verif.NamesKeptOps

/-!
# C96: a path leads to the same object until somebody removes or renames a name on it
-/

namespace Verif.Kernel
open Verif.Path Verif.Fs Verif.Pipe

variable {s : State} {c : Nat} {op : Op}

theorem lost_step (h : Reach s) (ht : Tame s c op) :
    Lost s.fs.inodes (step s c op).1.fs.inodes (Last s.fs.inodes (takes s c op)) ∧
    Lost (step s c op).1.fs.inodes s.fs.inodes (Last s.fs.inodes (makes s c op)) := by
  cases hg : givesNames op with
  | false => exact ⟨((thin_step s c op hg).lost _).1, ((thin_step s c op hg).lost _).2⟩
  | true =>
    have hF := h.inv.fs
    unfold step takes makes
    unfold Tame at ht
    cases hc : s.cages c with
    | none => exact ⟨.refl _ _, .refl _ _⟩
    | some cg =>
      rw [hc] at ht
      have gp := fun p => h.inv.gp hc p
      have nope : ∀ {a b : Nat → Option Inode} {Q : Nat → Name → Prop}, Lost a b (fun _ _ => False) → Lost a b Q :=
        fun h => h.mono fun _ _ h => h.elim
      cases op with
      | openP p fl m =>
        dsimp only [openSys]
        split
        · exact ⟨.refl _ _, .refl _ _⟩
        · split
          · exact ⟨.refl _ _, .refl _ _⟩
          · have := lost_openP hF (gp p) fl m
            split
            · rename_i e; rw [e] at this; exact ⟨nope this.1, this.2⟩
            · rename_i e; rw [e] at this; rw [setFd_fs]; exact ⟨nope this.1, this.2⟩
      | mkdir p m =>
        dsimp only [nonEmpty]
        split
        · exact ⟨.refl _ _, .refl _ _⟩
        · have := lost_mkdir hF (gp p) m
          exact ⟨nope this.1, this.2⟩
      | mknod p m d =>
        dsimp only [nonEmpty]
        split
        · exact ⟨.refl _ _, .refl _ _⟩
        · have := lost_mknod hF (gp p) m d
          exact ⟨nope this.1, this.2⟩
      | link o n =>
        dsimp only [nonEmpty]
        split
        · exact ⟨.refl _ _, .refl _ _⟩
        · split
          · exact ⟨.refl _ _, .refl _ _⟩
          · have := lost_link hF (old := cg.path o) (gp n)
            exact ⟨nope this.1, this.2⟩
      | unlink p =>
        dsimp only [nonEmpty]
        split
        · exact ⟨.refl _ _, .refl _ _⟩
        · have := lost_unlink hF (gp p)
          exact ⟨this.1, nope this.2⟩
      | rmdir p =>
        dsimp only [nonEmpty]
        split
        · exact ⟨.refl _ _, .refl _ _⟩
        · have := lost_rmdir hF (gp p)
          exact ⟨this.1, nope this.2⟩
      | rename o n =>
        dsimp only [nonEmpty]
        split
        · exact ⟨.refl _ _, .refl _ _⟩
        · split
          · exact ⟨.refl _ _, .refl _ _⟩
          · exact lost_rename hF (gp o) (gp n) ht
      | _ => cases hg

theorem takes_good (h : Reach s) : ∀ p ∈ takes s c op, GoodPath p := by
  intro p hp
  unfold takes at hp
  split at hp
  case h_4 => cases hp
  all_goals
    rename_i hc
    simp only [List.mem_singleton] at hp
    subst hp
    exact h.inv.gp hc _

theorem makes_good (h : Reach s) : ∀ p ∈ makes s c op, GoodPath p := by
  intro p hp
  unfold makes at hp
  split at hp
  case h_6 => cases hp
  case h_1 =>
    rename_i hc
    split at hp
    · cases hp
    · simp only [List.mem_singleton] at hp
      subst hp
      exact h.inv.gp hc _
  all_goals
    rename_i hc
    simp only [List.mem_singleton] at hp
    subst hp
    exact h.inv.gp hc _

/-- **C96, partial.**  Whatever call any process makes: a path that led to an object leads to the same object afterwards, unless
the call was asked to remove or rename this path or one above it.  Missing: `rename` to a name in use, and `unlink` from a
directory that may not be changed, are excluded (`Tame`, see C13 and C24). -/
theorem names_kept_partial (h : Reach s) (ht : Tame s c op) {ns : List Name} (hg : GoodPath ns)
    (hno : ∀ p ∈ takes s c op, ¬ p <+: ns) {i : Nat} (hw : Walk s.fs.inodes rootIno ns i) :
    Walk (step s c op).1.fs.inodes rootIno ns i := by
  refine carry (h.inv.step c op ht).fs.tree (lost_step h ht).1 hg ?_ hw
  intro qs d m rest nd nd' he wa wb h1 h2 _ _ hl
  obtain ⟨p, hp, hpre⟩ := prefix_of_last h.inv.fs.tree (takes_good h) hg he wa h1 h2 hl
  exact hno p hp hpre

/-- **C96, partial.**  Nor does it come to lead to an object, unless the call was asked to make this path or one above it. -/
theorem names_made_partial (h : Reach s) (ht : Tame s c op) {ns : List Name} (hg : GoodPath ns)
    (hno : ∀ p ∈ makes s c op, ¬ p <+: ns) {i : Nat} (hw : Walk (step s c op).1.fs.inodes rootIno ns i) :
    Walk s.fs.inodes rootIno ns i := by
  refine carry h.inv.fs.tree (lost_step h ht).2 hg ?_ hw
  intro qs d m rest nd nd' he wa wb _ _ h1 h2 hl
  obtain ⟨p, hp, hpre⟩ := prefix_of_last h.inv.fs.tree (makes_good h) hg he wb h1 h2 hl
  exact hno p hp hpre

/-- **C96, partial.**  The same over any history of calls of any processes. -/
theorem names_kept_run_partial {hist : List (Nat × Op)} (h : Reach s) (hr : Runs s hist) {ns : List Name} (hg : GoodPath ns)
    (hno : ∀ p ∈ takesAll s hist, ¬ p <+: ns) {i : Nat} (hw : Walk s.fs.inodes rootIno ns i) :
    Walk (run s hist).fs.inodes rootIno ns i := by
  induction hr with
  | nil => exact hw
  | cons h1 h2 _ ih =>
    exact ih (.step _ _ h h1 h2) (fun p hp => hno p (List.mem_append_right _ hp))
      (names_kept_partial h h1 hg (fun p hp => hno p (List.mem_append_left _ hp)) hw)

theorem names_made_run_partial {hist : List (Nat × Op)} (h : Reach s) (hr : Runs s hist) {ns : List Name} (hg : GoodPath ns)
    (hno : ∀ p ∈ makesAll s hist, ¬ p <+: ns) {i : Nat} (hw : Walk (run s hist).fs.inodes rootIno ns i) :
    Walk s.fs.inodes rootIno ns i := by
  induction hr with
  | nil => exact hw
  | cons h1 h2 _ ih =>
    exact names_made_partial h h1 hg (fun p hp => hno p (List.mem_append_left _ hp))
      (ih (.step _ _ h h1 h2) (fun p hp => hno p (List.mem_append_right _ hp)) hw)

theorem Runs.reach {hist : List (Nat × Op)} (h : Reach s) (hr : Runs s hist) : Reach (run s hist) := by
  induction hr with
  | nil => exact h
  | cons h1 h2 _ ih => exact ih (.step _ _ h h1 h2)

/-- **C96, partial.**  As a user sees it: `stat` of a path, absolute or relative to a working directory that the process has not
changed meanwhile, tells the same inode number before and after any history in which nobody was asked to remove or rename the path
or one above it. -/
theorem stat_kept_partial {hist : List (Nat × Op)} (h : Reach s) (hr : Runs s hist) {a : Nat} {cg cg' : Cage} (hc : s.cages a = some cg)
    (hc' : (run s hist).cages a = some cg') (hcwd : cg'.cwd = cg.cwd) {p : Str} (hno : ∀ q ∈ takesAll s hist, ¬ q <+: cg.path p)
    {st : Stat} (hst : (step s a (.stat p)).2 = { ret := .ok 0, stat := some st }) :
    ∃ st', (step (run s hist) a (.stat p)).2 = { ret := .ok 0, stat := some st' } ∧ st'.ino = st.ino := by
  have hl : Leads s cg p st.ino := ((lookup_exact h hc p).1 _).2 ⟨st, hst, rfl⟩
  have hp : cg'.path p = cg.path p := by unfold Cage.path; rw [hcwd]
  have hl' : Leads (run s hist) cg' p st.ino := by
    unfold Leads
    rw [hp]
    exact names_kept_run_partial h hr (h.inv.gp hc p) hno hl
  exact ((lookup_exact (hr.reach h) hc' p).1 _).1 hl'

/-- **C96, partial.**  And a path that `stat` did not find is still not found, if nobody was asked to make it or one above it. -/
theorem enoent_kept_partial {hist : List (Nat × Op)} (h : Reach s) (hr : Runs s hist) {a : Nat} {cg cg' : Cage} (hc : s.cages a = some cg)
    (hc' : (run s hist).cages a = some cg') (hcwd : cg'.cwd = cg.cwd) {p : Str} (hno : ∀ q ∈ makesAll s hist, ¬ q <+: cg.path p)
    (hst : (step s a (.stat p)).2 = { ret := .err .ENOENT }) :
    (step (run s hist) a (.stat p)).2 = { ret := .err .ENOENT } := by
  have hl := (lookup_exact h hc p).2.2 hst
  have hp : cg'.path p = cg.path p := by unfold Cage.path; rw [hcwd]
  refine (lookup_exact (hr.reach h) hc' p).2.1 fun i hi => hl i ?_
  unfold Leads at hi
  rw [hp] at hi
  exact names_made_run_partial h hr (h.inv.gp hc p) hno hi

theorem walk_divide {ino : Nat → Option Inode} {d k : Nat} {ns ms : List Name} (h : Walk ino d (ns ++ ms) k) :
    ∃ x, Walk ino d ns x ∧ Walk ino x ms k := by
  induction ns generalizing d with
  | nil => exact ⟨d, .here _, h⟩
  | cons n ns ih =>
    cases h with
    | down h1 h2 h3 h4 =>
      obtain ⟨x, w1, w2⟩ := ih h4
      exact ⟨x, .down h1 h2 h3 w1, w2⟩

/-- A path is carried over below the name of a directory. -/
theorem carryFrom {a b : Nat → Option Inode} {nb : Nat} {P : Nat → Name → Prop} (Tb : Tree b nb) (hL : Lost a b P) {q0 ns : List Name}
    (hg : GoodPath ns) {d k : Nat} {nd0 : Inode} (w0 : Walk a rootIno q0 d) (hb : b d = some nd0)
    (hP : ∀ qs d m rest nd, q0 ++ ns = qs ++ m :: rest → q0 <+: qs → Walk a rootIno qs d → a d = some nd → nd.isDir → ¬ P d m)
    (hw : Walk a d ns k) : Walk b d ns k := by
  have aux : ∀ (rest : List Name) (qs : List Name) (x : Nat) (nd' : Inode), q0 ++ ns = qs ++ rest → q0 <+: qs → (∀ m ∈ rest, Good m) →
      Walk a rootIno qs x → b x = some nd' → Walk a x rest k → Walk b x rest k := by
    intro rest
    induction rest with
    | nil => intro qs x nd' _ _ _ _ _ h; cases h; exact .here _
    | cons m rest ih =>
      intro qs x nd' he hq hgr wa hb h
      cases h with
      | @down _ j _ _ _ nd h1 h2 h3 h4 =>
        obtain ⟨hk, hm⟩ := hL.get x nd nd' h1 hb
        have h2' : nd'.isDir := by rw [isDir_iff, hk]; exact isDir_iff.1 h2
        have h3' := hm m j h3 (hP qs x m rest nd he hq wa h1 h2)
        obtain ⟨-, -, -, jd, hj, -⟩ := Tb.ent hb h3' (Good.proper (hgr m (by simp)))
        exact .down hb h2' h3' (ih (qs ++ [m]) j jd (by rw [he]; simp) (hq.trans ⟨[m], rfl⟩) (fun x hx => hgr x (by simp [hx]))
          (wa.snoc h1 h2 h3) hj h4)
  exact aux ns q0 d nd0 rfl ⟨[], by simp⟩ hg w0 hb hw

/-- **C96, partial.**  A successful `rename` (to a free name) moves everything below along: what `old/rest` led to, `new/rest` leads
to. -/
theorem rename_below_partial (h : Reach s) {cg : Cage} (hc : s.cages c = some cg) {old new : Str} (hfree : ∀ j, ¬ Leads s cg new j)
    (hok : (step s c (.rename old new)).2.ret = .ok 0) {rest : List Name} (hg : GoodPath rest) {k : Nat}
    (hw : Walk s.fs.inodes rootIno (cg.path old ++ rest) k) :
    Walk (step s c (.rename old new)).1.fs.inodes rootIno (cg.path new ++ rest) k := by
  have ht : Tame s c (.rename old new) := by
    unfold Tame; rw [hc]
    intro i par e
    obtain ⟨par', hr, -⟩ := h.inv.walk_missing hc hfree
    rw [hr] at e; cases e
  obtain ⟨d, w1, w2⟩ := walk_divide hw
  have hgo := h.inv.gp hc old
  obtain ⟨g1, -, -⟩ := rename_effect_partial h hc hfree w1 hok
  have T' := (h.inv.step c (.rename old new) ht).fs.tree
  obtain ⟨nd0, hb⟩ : ∃ nd, (step s c (.rename old new)).1.fs.inodes d = some nd := Walk.exists T' g1
    (fun n hn => Good.proper (h.inv.gp hc new n hn)) (by obtain ⟨nd, h1, -⟩ := T'.root; exact ⟨nd, h1⟩)
  refine Walk.append g1 (carryFrom T' (lost_step h ht).1 hg w1 hb ?_ w2)
  intro qs x m r nd he hq wa h1 h2 ⟨ps, hp, wp⟩
  have htk : takes s c (.rename old new) = [cg.path old] := by unfold takes; rw [hc]
  rw [htk, List.mem_singleton] at hp
  have hgq : GoodPath qs := fun n hn => by
    have : n ∈ cg.path old ++ rest := by rw [he]; simp [hn]
    rcases List.mem_append.1 this with hh | hh
    · exact hgo n hh
    · exact hg n hh
  have : qs = ps := FsTools.dir_path_unique h.inv.fs.tree qs.length rfl wa wp (fun n hn => Good.proper (hgq n hn))
    (fun n hn => Good.proper (hgo n (by rw [← hp]; simp [hn]))) h1 h2
  subst this
  have := hq.length_le
  rw [← hp, List.length_append] at this
  simp only [List.length_cons, List.length_nil] at this
  omega

end Verif.Kernel
