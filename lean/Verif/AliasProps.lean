import Verif.Alias
import Verif.NamesKeptProps
import Verif.MailboxProps
import Verif.HistProps
import Verif.FsToolsLemmas

/-! # Every name of a file is as good as any other (property C117) -/

namespace Verif.Alias
open Verif.Fs Verif.Kernel Verif.Path

/-! ## Lemma -/

theorem Both.walks {s : State} (hR : Reach s) {c : Nat} {p p' : Str} (h : Both s c p p') :
    ∃ cg i par par', s.cages c = some cg ∧ p ≠ [] ∧ p' ≠ [] ∧ s.fs.walk (cg.path p) = some (some i, par) ∧ s.fs.walk (cg.path p') = some (some i, par') := by
  obtain ⟨hp, hp', cg, i, hc, h1, h2⟩ := h
  obtain ⟨par, hw, -⟩ := hR.inv.walk_found hc h1
  obtain ⟨par', hw', -⟩ := hR.inv.walk_found hc h2
  exact ⟨cg, i, par, par', hc, hp, hp', hw, hw'⟩

theorem norm_of_names {s : State} (hR : Reach s) {c : Nat} {cg : Cage} (hc : s.cages c = some cg) {p p' : Str} (h : cg.path p = cg.path p') :
    normpath cg.cwd p = normpath cg.cwd p' := by
  obtain ⟨dir, hd, e⟩ := (hR.inv.cage c cg hc).2.2
  unfold Cage.path at h
  rw [e] at h ⊢
  obtain ⟨ns, g, e1, -⟩ := normpath_canonical dir hd p
  obtain ⟨ns', g', e1', -⟩ := normpath_canonical dir hd p'
  rw [e1, e1', names_render g, names_render g'] at h
  rw [e1, e1', h]

/-! ## Theorems -/

/-- C117.  A directory has one name only: two paths that lead to it are, once `.`, `..` and the working directory are resolved, the same path. -/
theorem alias_directory {s : State} (hR : Reach s) {c k : Nat} {cg cg' : Cage} (hc : s.cages c = some cg) (hk : s.cages k = some cg') {p p' : Str} {i : Nat}
    {nd : Inode} (h : Leads s cg p i) (h' : Leads s cg' p' i) (hi : s.fs.inodes i = some nd) (hd : nd.kind = .dir) : cg.path p = cg'.path p' :=
  FsTools.dir_path_unique hR.inv.fs.tree _ rfl h h' (fun n hn => Good.proper (hR.inv.gp hc p n hn)) (fun n hn => Good.proper (hR.inv.gp hk p' n hn)) hi
    (isDir_iff.2 hd)

/-- C117.  A call does and answers the same, whichever name of the object it is given. -/
theorem alias_call {s : State} (hR : Reach s) {c : Nat} {op op' : Op} (h : Swap s c op op') : step s c op' = step s c op := by
  cases h with
  | same => rfl
  | chdir hb =>
    obtain ⟨cg, i, par, par', hc, hp, hp', hw, hw'⟩ := hb.walks hR
    obtain ⟨-, -, cg1, i1, hc1, h1, h2⟩ := hb
    rw [hc] at hc1; cases hc1
    obtain ⟨par1, hw1, -⟩ := hR.inv.walk_found hc h1
    rw [hw] at hw1; cases hw1
    simp only [step, hc, chdir, hw, hw']
    cases hi : s.fs.inodes i with
    | none => rfl
    | some nd =>
      cases hd : nd.isDir with
      | false => simp only [hd, Bool.false_eq_true, if_false]
      | true => simp only [norm_of_names hR hc (alias_directory hR hc hc h1 h2 hi (isDir_iff.1 hd))]
  | _ =>
    rename_i hb
    obtain ⟨cg, i, par, par', hc, hp, hp', hw, hw'⟩ := hb.walks hR
    simp only [step, hc, openSys, nonEmpty, if_neg hp, if_neg hp', Fs.openP, Fs.mkdir, Fs.mknod, Fs.link, Fs.chmod, Fs.stat, Fs.access, Fs.truncate, hw, hw']

/-- C117.  So in any history of calls of any processes the names of a file can be exchanged for one another, differently in every call: every call answers the
same and the system is in the same state at the end. -/
theorem alias_history_partial {s : State} {h h' : List (Nat × Op)} (hR : Reach s) (hr : Calm s h) (hs : Swapped s h h') :
    run s h' = run s h ∧ answers s h' = answers s h := by
  induction hs with
  | nil => exact ⟨rfl, rfl⟩
  | @cons s c op op' h h' h1 _ ih =>
    cases hr with
    | cons t1 t2 t3 =>
      obtain ⟨e1, e2⟩ := ih (.step c op hR t1 t2) t3
      simp only [run, answers, alias_call hR h1, e1, e2, and_self]

/-- C117.  Two processes, each with its own name for it, are told the same about it. -/
theorem alias_told {s : State} (hR : Reach s) {c c' : Nat} {cg cg' : Cage} (hc : s.cages c = some cg) (hc' : s.cages c' = some cg') {p p' : Str} {i : Nat}
    (h : Leads s cg p i) (h' : Leads s cg' p' i) (m : BitVec 32) :
    (step s c (.stat p)).2 = (step s c' (.stat p')).2 ∧ (step s c (.access p m)).2 = (step s c' (.access p' m)).2 := by
  obtain ⟨par, hw, -⟩ := hR.inv.walk_found hc h
  obtain ⟨par', hw', -⟩ := hR.inv.walk_found hc' h'
  simp only [step, hc, hc', Fs.stat, Fs.access, hw, hw', and_self]

/-- C117.  `link` makes such a name. -/
theorem alias_made {s : State} (hR : Reach s) {c : Nat} {p q : Str} {v : Int} (hok : (step s c (.link p q)).2.ret = .ok v) :
    Both (step s c (.link p q)).1 c p q := by
  cases hc : s.cages c with
  | none => simp [step, hc, Out.r] at hok
  | some cg =>
    have hp : p ≠ [] := by rintro rfl; simp [step, hc, nonEmpty, Out.r] at hok
    have hq : q ≠ [] := by rintro rfl; simp [step, hc, nonEmpty, hp, Out.r] at hok
    obtain ⟨d, n, d', n', i, nd, pd, a1, -, a3, -, -, -, -, -, -, -, -, hcs⟩ := link_effect hR hc hok
    refine ⟨hp, hq, cg, i, by rw [hcs]; exact hc, ?_, Mailbox.object_leads a3⟩
    exact names_kept_partial hR (by simp only [Tame, hc]) (fun n hn => hR.inv.gp hc p n hn) (by simp [takes, hc]) (Mailbox.object_leads a1)

/-- C117.  Two names stay names of one object, whatever any process does, as long as nobody is asked to remove or rename one of them or a directory above it
and the process stays where it is. -/
theorem alias_lasts_partial {s : State} (hR : Reach s) {hist : List (Nat × Op)} (hr : Kernel.Runs s hist) {c : Nat} {cg cg' : Cage} (hc : s.cages c = some cg)
    (hc' : (run s hist).cages c = some cg') (hcwd : cg'.cwd = cg.cwd) {p p' : Str} (hb : Both s c p p')
    (hno : ∀ q ∈ takesAll s hist, ¬ q <+: cg.path p ∧ ¬ q <+: cg.path p') : Both (run s hist) c p p' := by
  obtain ⟨h1, h2, cg1, i, hc1, ha, hb⟩ := hb
  rw [hc] at hc1; cases hc1
  have e : ∀ p, cg'.path p = cg.path p := fun p => by unfold Cage.path; rw [hcwd]
  refine ⟨h1, h2, cg', i, hc', ?_, ?_⟩ <;> unfold Leads <;> rw [e]
  · exact names_kept_run_partial hR hr (fun n hn => hR.inv.gp hc p n hn) (fun q hq => (hno q hq).1) ha
  · exact names_kept_run_partial hR hr (fun n hn => hR.inv.gp hc p' n hn) (fun q hq => (hno q hq).2) hb

/-- C117.  Removing one name leaves every other: it leads to the same object, with the same content and one link less.  Partial: a refused removal is not
covered (C25). -/
theorem alias_unlink_partial {s : State} (hR : Reach s) {c k : Nat} {cg cg' : Cage} (hc : s.cages c = some cg) {p q : Str} {i : Nat}
    (hk : s.cages k = some cg') (h : Leads s cg' p i) (hq : Leads s cg q i) (hne : cg'.path p ≠ cg.path q) (hok : (step s c (.unlink q)).2.ret = .ok 0) :
    let s' := (step s c (.unlink q)).1
    Leads s' cg' p i ∧ bytes s' i = bytes s i ∧ ∃ nd, s.fs.inodes i = some nd ∧ s'.fs.inodes i = some { nd with link := nd.link - 1 } := by
  have T := hR.inv.fs.tree
  obtain ⟨nd, hnd⟩ := Walk.exists T h (fun n hn => Good.proper (hR.inv.gp hk p n hn)) (by obtain ⟨nd, h1, -⟩ := T.root; exact ⟨nd, h1⟩)
  obtain ⟨-, -, hkind, hR', ps, n, d, -, -, -, -, -, -, -, hgone, hstay⟩ := unlink_ok hR hc hq hnd hok
  have ht : Tame s c (.unlink q) := by
    obtain ⟨par, hw, hlook⟩ := hR.inv.walk_found hc hq
    have hq0 : q ≠ [] := by rintro rfl; simp [step, hc, nonEmpty, Out.r] at hok
    have hdir : nd.isDir = false := by
      cases hb : nd.isDir with
      | false => rfl
      | true => exact absurd (isDir_iff.1 hb) hkind
    simp only [Tame, hc]
    intro i' par' pd hr hpar hz
    rw [hw] at hr; cases hr
    cases hlook with
    | found heq w w' hpar' hd hl hf hg hi h1 h7 hne =>
      rw [hpar] at hpar'; cases hpar'
      have hset : (s.fs.set i (some { nd with link := nd.link - 1 })).inodes par' = some pd := by simp [Fs.set, hne.symm, hpar]
      simp only [step, hc, nonEmpty, hq0, if_false, State.onFs, Out.r, Fs.unlink, hw, hnd, hdir, Bool.false_eq_true, Fs.removeFromParent, hset, hd, if_true, hz]
        at hok
      cases hok
  have hpre : ∀ r ∈ takes s c (.unlink q), ¬ r <+: cg'.path p := by
    intro r hr ⟨rest, he⟩
    simp only [takes, hc, List.mem_singleton] at hr
    subst hr
    cases rest with
    | nil => exact hne (by rw [← he, List.append_nil])
    | cons m rest =>
      unfold Leads at h hq
      rw [← he] at h
      obtain ⟨j, w1, w2⟩ := walk_divide h
      have := walk_fun T w1 hq; subst this
      cases w2 with
      | down b1 b2 b3 b4 => rw [hnd] at b1; cases b1; exact hkind (isDir_iff.1 b2)
  have hl := names_kept_partial hR ht (fun n hn => hR.inv.gp hk p n hn) hpre h
  refine ⟨hl, ?_⟩
  have T' := hR'.inv.fs.tree
  obtain ⟨nd', hnd'⟩ := Walk.exists T' hl (fun n hn => Good.proper (hR.inv.gp hk p n hn)) (by obtain ⟨nd, h1, -⟩ := T'.root; exact ⟨nd, h1⟩)
  obtain ⟨e1, e2⟩ := hstay (fun hz => by rw [(hgone hz).1] at hnd'; cases hnd')
  exact ⟨by simp only [bytes, e2], nd, hnd, e1⟩

end Verif.Alias
